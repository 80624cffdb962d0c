import Verif.Model.Handlers
import Verif.Model.Outgoing
import Verif.Model.Redis
/-!
# Several om-core instances sharing one Redis stream

The composition of the parts: the RPC handlers (core/main.go), the outgoing queue and
the incoming goroutine (replicatedticketcache.go) and the Redis replicator (redis.go),
for any number of instances, with crashes and restarts.  Everybody else's behaviour
(clients, schedulers, clocks, Redis errors, lost connections) is in the labels.

Simplifications: only om-core instances write to the stream; what a poll returned and is
not yet applied (the rest of the `results` slice, replicatedticketcache.go:149-152, and
the `replStream` channel, :144) is one list; the trim, and all commands of one batch, run
in Redis without other clients' commands in between (redigo sends the whole pipeline at
once; `crashMid` cuts it anywhere).
-/
namespace OM.Sys

/-- The calls that lead to state updates: CreateTicket (core/main.go:144; `now` is the clock
reading of :165), ActivateTickets and DeactivateTickets (:288, :323), CreateAssignments
(:733) and the deactivation of a match's tickets (:631-640, no validation). -/
inductive Rpc where
  | create (now : Int) (ticket : Option Ticket)
  | setState (cmd : Cmd) (ids : List Str)
  | assign (roster : Option Roster)
  | matched (ids : List Str)

/-- The updates a call puts on `tc.UpRequests`, in order, or its refusal. -/
def Rpc.queue (cd : Codec) (cfg : Config) : Rpc → Except RpcErr (List StateUpdate)
  | .create now t => (createTicketQueue cd cfg now t).map fun u => [u]
  | .setState cmd ids => activeStateQueue cfg cmd ids
  | .assign r => createAssignmentsQueue cd r
  | .matched ids => .ok (stateUpdatesFor .deactivate ids)

/-- What the caller gets.  `gone`: the instance died first. -/
inductive Outcome where
  | id (s : Str)
  | ok
  | err (e : RpcErr)
  | gone

/-- A call: where it runs, the updates it queues, those still to be put on `UpRequests`,
the responses received, the outcome.  `since` (a ghost) is the length of the stream when
the call began. -/
structure Call where
  inst : Nat
  rpc : Rpc
  updates : List StateUpdate
  todo : List StateUpdate
  got : List StateResponse
  outcome : Option Outcome
  since : Nat

/-- An instance: the outgoing goroutine's `pipelineRequests`, the replicator's `replId`,
updates read and not yet applied, the ticket cache.  `hist` (a ghost) is what the
incoming goroutine has done since the start. -/
structure Inst where
  up : Bool
  pending : List Req
  replId : RId
  inbox : List StateUpdate
  cache : Cache
  hist : List Ev

/-- core/main.go:98-120, redis.go:42: a process that just started. -/
def Inst.fresh : Inst := ⟨true, [], (0, 0), [], Cache.empty, []⟩
/-- No process. -/
def Inst.down : Inst := ⟨false, [], (0, 0), [], Cache.empty, []⟩

/-- `panics` lists instances that died of a Go panic. -/
structure St where
  stream : Stream
  insts : Nat → Inst
  calls : Nat → Option Call
  panics : List Nat

def init : St := ⟨Stream.empty, fun _ => Inst.down, fun _ => none, []⟩

inductive Label where
  /-- call number `c` arrives at instance `i` -/
  | call (c i : Nat) (rpc : Rpc)
  /-- call `c` hands its next update to the outgoing goroutine (core/main.go:205, :256, :755;
  `UpRequests` is unbuffered, :101); `env` is used when that fills the batch -/
  | submit (c : Nat) (env : SendEnv)
  /-- the outgoing goroutine of `i` times out and sends what it has -/
  | timeout (i : Nat) (env : SendEnv)
  /-- call `c` returns; `order` is the iteration order of its error map (core/main.go:909) -/
  | finish (c : Nat) (order : GoMap Str)
  /-- `GetUpdates` -/
  | poll (i : Nat)
  /-- `GetUpdates` from a read replica that has only the first `k` entries -/
  | pollLag (i k : Nat)
  /-- the incoming goroutine applies one update -/
  | apply (i : Nat)
  /-- the incoming goroutine runs an expiration cycle -/
  | expire (i : Nat) (cy : Cycle)
  | crash (i : Nat)
  /-- instance `i` dies while its batch is being executed: Redis has done `k` commands -/
  | crashMid (i : Nat) (env : SendEnv) (k : Nat)
  | start (i : Nat)

def St.setInst (s : St) (i : Nat) (x : Inst) : St :=
  { s with insts := fun j => if j = i then x else s.insts j }

def St.setCall (s : St) (c : Nat) (x : Call) : St :=
  { s with calls := fun d => if d = c then some x else s.calls d }

/-- Process `i` is gone, and with it its running calls. -/
def St.kill (s : St) (i : Nat) : St :=
  { s with
    insts := fun j => if j = i then Inst.down else s.insts j
    calls := fun c => (s.calls c).map fun x =>
      if x.inst = i ∧ x.outcome.isNone then { x with outcome := some .gone } else x }

/-- A Go panic ends the process. -/
def St.panic (s : St) (i : Nat) : St := { s.kill i with panics := s.panics ++ [i] }

/-- Responses delivered by one batch, in order, to the calls' channels. -/
def St.give (s : St) (ds : List (Nat × StateResponse)) : St :=
  { s with calls := fun c => (s.calls c).map fun x =>
      { x with got := x.got ++ (ds.filter fun d => decide (d.1 = c)).map (·.2) } }

/-- One event of the outgoing goroutine of instance `i` (`Model/Outgoing.lean`). -/
def outgoing (cfg : Config) (s : St) (i : Nat) (env : SendEnv) (e : OutEv) : St :=
  match outStep cfg.outThreshold (redisSend cfg env) ⟨s.stream, (s.insts i).pending, [], []⟩ e with
  | none => s.panic i
  | some o => (({ s with stream := o.store }).setInst i { s.insts i with pending := o.pending }).give o.delivered

/-- core/main.go:220-222, :308-318/:342-352, :775-794: what a call returns once it has one
response per update. -/
def Call.result (x : Call) (order : GoMap Str) : Option Outcome :=
  match x.rpc with
  | .create _ _ =>
    x.got.head?.map fun r =>
      match createTicketReturn r with
      | .ok id => .id id
      | .error e => .err e
  | .setState cmd ids =>
    (collectErrs cmd (validateTicketIds ids).1 x.got []).bind fun errs =>
      if order.Perm errs then
        some (match addStateUpdateErrorDetails order with
          | none => .ok
          | some e => .err e)
      else none
  | .assign _ => some (match createAssignmentsReturn x.got with | none => .ok | some e => .err e)
  | .matched _ => some .ok

/-- `none`: the label is not possible in this state. -/
def step (cd : Codec) (cfg : Config) (s : St) : Label → Option St
  | .call c i rpc =>
    if (s.insts i).up && (s.calls c).isNone then
      some (s.setCall c
        (match rpc.queue cd cfg with
         | .ok us => ⟨i, rpc, us, us, [], none, s.stream.entries.length⟩
         | .error e => ⟨i, rpc, [], [], [], some (.err e), s.stream.entries.length⟩))
    else none
  | .submit c env =>
    match s.calls c with
    | none => none
    | some x =>
      match x.todo with
      | [] => none
      | u :: rest =>
        if x.outcome.isNone ∧ (s.insts x.inst).pending.length < env.cmds.length then
          some (outgoing cfg (s.setCall c { x with todo := rest }) x.inst env (.recv ⟨c, u⟩))
        else none
  | .timeout i env =>
    if (s.insts i).up ∧ (s.insts i).pending.length ≤ env.cmds.length then
      some (outgoing cfg s i env .timeout)
    else none
  | .finish c order =>
    match s.calls c with
    | none => none
    | some x =>
      if x.outcome.isNone ∧ x.todo = [] ∧ x.got.length = x.updates.length then
        (x.result order).map fun o => s.setCall c { x with outcome := some o }
      else none
  | .poll i =>
    if (s.insts i).up then
      match pollUpdates s.stream cfg.inMax (s.insts i).replId with
      | none => some (s.panic i)
      | some (us, r) => some (s.setInst i { s.insts i with replId := r, inbox := (s.insts i).inbox ++ us })
    else none
  | .pollLag i k =>
    if (s.insts i).up then
      match pollUpdates (s.stream.lagging k) cfg.inMax (s.insts i).replId with
      | none => some (s.panic i)
      | some (us, r) => some (s.setInst i { s.insts i with replId := r, inbox := (s.insts i).inbox ++ us })
    else none
  | .apply i =>
    if (s.insts i).up then
      match (s.insts i).inbox with
      | [] => none
      | u :: us =>
        some (s.setInst i { s.insts i with
          inbox := us, cache := applyUpdate cd (s.insts i).cache u, hist := (s.insts i).hist ++ [.upd u] })
    else none
  | .expire i cy =>
    if (s.insts i).up then
      if cy.visI.Perm (s.insts i).cache.inactive.keys ∧
          cy.visT.Perm (runOps (s.insts i).cache (inactivePassOps cfg cy)).tickets.keys ∧
          cy.visA.Perm (s.insts i).cache.assignments.keys then
        some (s.setInst i { s.insts i with
          cache := OM.expire cfg cy (s.insts i).cache, hist := (s.insts i).hist ++ [.expire cy] })
      else none
    else none
  | .crash i => if (s.insts i).up then some (s.kill i) else none
  | .crashMid i env k =>
    if (s.insts i).up then
      some ({ s with stream := execPart cfg env s.stream ((s.insts i).pending.map Req.update) k }.kill i)
    else none
  | .start i => if (s.insts i).up then none else some (s.setInst i Inst.fresh)

def run (cd : Codec) (cfg : Config) : St → List Label → Option St
  | s, [] => some s
  | s, l :: ls => (step cd cfg s l).bind fun s' => run cd cfg s' ls

end OM.Sys
