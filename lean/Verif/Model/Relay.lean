import Verif.Model.Handlers
/-!
# Relaying matches

core/main.go:474-724, second half of `InvokeMatchmakingFunctions`: the fan-in
goroutine, one goroutine per MMF, one goroutine per match, and the handler itself, as
a transition system.  The schedule, the MMFs' results and the cache lookups are
arbitrary.  Not modelled: contexts and their cancellation, the chunk sends of
:576-579 (`Model/Invoke.lean`), logging.
-/
namespace OM.Relay

/-- What one MMF of the request does.  `starts` is false when it cannot be invoked
(REST, :532-536; dial error, :547-550; Run error, :567-569).  `matches` are the results
its stream yields (`GetMatch()` may be nil), `eof` whether the stream then ends
normally (:596-599) or with an error (:600-603). -/
structure Mmf where
  starts : Bool
  results : List (Option Match)
  eof : Bool
  deriving DecidableEq

/-- Where an MMF goroutine is: in the receive loop (:590-692), in `tdwg.Wait` (:703),
or past `mmfwg.Done`. -/
inductive Phase where
  | recv | wait | done
  deriving DecidableEq, Repr

/-- `next` counts the results received. -/
structure MmfSt where
  next : Nat
  phase : Phase
  deriving DecidableEq, Repr

/-- Where a match goroutine is (:626-690): queueing its `k`-th update (:251-270), waiting
for its `k`-th response (:272-283), about to check the cache before sending (:671-674), at
`matchChan <- res` (:681), about to check after sending (:685-688), finished. -/
inductive Pc where
  | submit (k : Nat) | await (k : Nat) | checkBefore | send | checkAfter | done
  deriving DecidableEq, Repr

/-- A match goroutine: where its match came from, the ids collected (:630-635) and what
the cache check saw. -/
structure Goro where
  mmf : Nat
  idx : Nat
  m : Option Match
  ids : List Str
  pc : Pc
  obs : Option Bool
  deriving DecidableEq

/-- The fan-in goroutine (:485-500): in select, inside `stream.Send` with the match
received from goroutine `j`, or past `close(matchChan)`. -/
inductive Fan where
  | idle | busy (j : Nat) (m : Option Match) | closed
  deriving DecidableEq

/-- The handler: in `mmfwg.Wait` (:720), past `close(waitChan)` (:722), returned (:723). -/
inductive Main where
  | waiting | closing | returned
  deriving DecidableEq, Repr

/-- What a match goroutine exchanges with the outgoing queue: its `k`-th update is put on
`tc.UpRequests`, the response to it is received. -/
inductive QEv where
  | queue (j k : Nat) (u : StateUpdate)
  | answer (j k : Nat)
  deriving DecidableEq

/-- `out` is what has been sent on the stream to the matchmaker; `sent` lists the goroutines
those matches came from (a ghost); `log`
the exchanges with the outgoing queue; `counter` the `Matches` metric (:700); `crashed`
is a panic of the process. -/
structure St where
  mmfs : List MmfSt
  gos : List Goro
  fan : Fan
  main : Main
  out : List (Option Match)
  sent : List Nat
  log : List QEv
  counter : Nat
  crashed : Bool
  deriving DecidableEq

/-- :514-521: all MMF goroutines are started; one that fails at once is done. -/
def init (fs : List Mmf) : St :=
  { mmfs := fs.map fun f => ⟨0, if f.starts then .recv else .done⟩
    gos := [], fan := .idle, main := .waiting, out := [], sent := [], log := [], counter := 0, crashed := false }

/-- :630-635: ids of all rosters, in map iteration order `ord`. -/
def collectIds (ord : GoMap Roster) : List Str := ord.flatMap fun e => e.2.tickets.map (·.id)

def rostersOf (m : Option Match) : GoMap Roster := (m.map (·.rosters)).getD []

/-- Who moves. -/
inductive Label where
  | recv (i : Nat) (ord : GoMap Roster)
  | tdDone (i : Nat)
  | go (j : Nat) (seen : Bool)
  | hand (j : Nat)
  | fanEnd
  | mainClose
  | fanClose
  | mainReturn

/-- :590-626 one result of MMF `i`, or the end of its stream. -/
def recvStep (fs : List Mmf) (s : St) (i : Nat) (ord : GoMap Roster) : Option St :=
  match fs[i]?, s.mmfs[i]? with
  | some f, some ms =>
    if ms.phase = .recv then
      match f.results[ms.next]? with
      | some m =>
        if ord.Perm (rostersOf m) then
          some { s with mmfs := s.mmfs.set i ⟨ms.next + 1, .recv⟩
                        gos := s.gos ++ [⟨i, ms.next, m, collectIds ord, .submit 0, none⟩] }
        else none
      | none =>
        if f.eof then
          -- :590 the loop variable starts at 1 and has been incremented per result
          some { s with mmfs := s.mmfs.set i ⟨ms.next, .wait⟩, counter := s.counter + (ms.next + 1) }
        else some { s with mmfs := s.mmfs.set i ⟨ms.next, .done⟩ }
    else none
  | _, _ => none

/-- The next thing goroutine `g` does on its own: new state, update queued, or a crash
(`none` inside). -/
inductive GoRes where
  | blocked
  | crash
  | step (g : Goro) (q : Option QEv)

/-- :639-689, one step; `wait` is OM_MATCH_TICKET_DEACTIVATION_WAIT and `seen` what
`tc.InactiveSet.Load` answers at :662. -/
def goStep (wait : Bool) (fan : Fan) (seen : Bool) (j : Nat) (g : Goro) : GoRes :=
  match g.pc with
  | .submit k =>
    match g.ids[k]? with
    | some id => .step { g with pc := .submit (k + 1) } (some (.queue j k ⟨.deactivate, id, []⟩))
    | none => .step { g with pc := .await 0 } none
  | .await k =>
    if k < g.ids.length then .step { g with pc := .await (k + 1) } (some (.answer j k))
    else .step { g with pc := if wait then .checkBefore else .send } none
  | .checkBefore =>   -- :672 `ticketIdsToDeactivate[len-1]`
    if g.ids.length = 0 then .crash else .step { g with pc := .send, obs := some seen } none
  | .send => if fan = .closed then .crash else .blocked   -- send on closed channel
  | .checkAfter =>    -- :686
    if g.ids.length = 0 then .crash else .step { g with pc := .done, obs := some seen } none
  | .done => .blocked

/-- One step of the whole; `none` when the label is not enabled. -/
def step (wait : Bool) (fs : List Mmf) (s : St) : Label → Option St
  | l =>
    if s.crashed then none else
    match l with
    | .recv i ord => recvStep fs s i ord
    | .tdDone i =>   -- :703-714: all match goroutines of this MMF are done
      match s.mmfs[i]? with
      | some ms =>
        if ms.phase = .wait ∧ ∀ g ∈ s.gos, g.mmf = i → g.pc = .done then
          some { s with mmfs := s.mmfs.set i ⟨ms.next, .done⟩ }
        else none
      | none => none
    | .go j seen =>
      match s.gos[j]? with
      | some g =>
        match goStep wait s.fan seen j g with
        | .blocked => none
        | .crash => some { s with crashed := true }
        | .step g' q => some { s with gos := s.gos.set j g', log := s.log ++ q.toList }
      | none => none
    | .hand j =>     -- :489/:681 rendezvous on the unbuffered matchChan
      match s.gos[j]? with
      | some g =>
        if g.pc = .send ∧ s.fan = .idle then
          some { s with gos := s.gos.set j { g with pc := if wait then .done else .checkAfter }, fan := .busy j g.m }
        else none
      | none => none
    | .fanEnd =>     -- :493 stream.Send returns
      match s.fan with
      | .busy j m => some { s with fan := .idle, out := s.out ++ [m], sent := s.sent ++ [j] }
      | _ => none
    | .mainClose =>  -- :720-722
      if s.main = .waiting ∧ ∀ ms ∈ s.mmfs, ms.phase = .done then some { s with main := .closing } else none
    | .fanClose =>   -- :494-497
      if s.main ≠ .waiting ∧ s.fan = .idle then some { s with fan := .closed } else none
    | .mainReturn => -- :723
      if s.main = .closing then some { s with main := .returned } else none

/-- A run of the system. -/
def run (wait : Bool) (fs : List Mmf) : St → List Label → Option St
  | s, [] => some s
  | s, l :: ls => (step wait fs s l).bind fun s' => run wait fs s' ls

/-- core/main.go:369-374 and :723: what the call returns: an error before anything starts, or
nil whatever the MMFs did. -/
def validate (profile : Option Profile) (mmfs : List Mmf) : Option RpcErr :=
  if profile = none then some (.simple .invalidArgument "profile is required")
  else if mmfs = [] then some (.simple .invalidArgument "list of mmfs to invoke is required")
  else none

/-- core/main.go:493 drops the error of `stream.Send`.  What the matchmaker got when it was
connected for the first `n` sends: once its stream is cancelled every later send fails
(grpc-go). -/
def received (s : St) (n : Nat) : List (Option Match) := s.out.take n

/-- The status of a call that has returned. -/
def status (s : St) : Option (Option RpcErr) := if s.main = .returned then some none else none

end OM.Relay
