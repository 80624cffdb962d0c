import Verif.Model.System
import Verif.Model.Config
/-!
# Several instances whose connections to Redis run out

`Model/System.lean` with the connection pools of redis.go:43-93.  `SendUpdates` (:108) and `GetUpdates` (:254) take a
connection and never give it back, and `Pool.Get` waits while OM_REDIS_POOL_MAX_ACTIVE connections are in use
(`Wait: true`, :48 and :72).  That a dial that fails leaves the pool as it was, and that a limit of zero or less is
none, is redigo's behaviour (not in /repo).
-/
namespace OM.Sys

/-- The instance that is in `SendUpdates` in a step: `submit` when that fills the batch (replicatedticketcache.go:98-105),
`timeout` and `crashMid` when there is anything to send (:114-118). -/
def sender (cfg : Config) (s : St) : Label → Option Nat
  | .submit c _ => (s.calls c).bind fun x =>
      if (((s.insts x.inst).pending.length + 1 : Nat) : Int) ≥ cfg.outThreshold then some x.inst else none
  | .timeout i _ => if (s.insts i).pending = [] then none else some i
  | .crashMid i _ _ => if (s.insts i).pending = [] then none else some i
  | _ => none

/-- The instance that is in `GetUpdates`. -/
def reader : Label → Option Nat
  | .poll i => some i
  | .pollLag i _ => some i
  | _ => none

/-- The batch is lost before Redis has executed any of it: only then may it be the dial that failed. -/
def undone : Label → Bool
  | .submit _ env => env.lost == some 0
  | .timeout _ env => env.lost == some 0
  | _ => false

/-- The system, and the connections each instance has taken from its pool for reading (redis.go:43) and from the one
for writing (:67). -/
structure PSt where
  st : St
  reads : Nat → Nat
  writes : Nat → Nat

def PSt.init : PSt := ⟨Sys.init, fun _ => 0, fun _ => 0⟩

inductive PLabel where
  /-- a step of the system; `refused`: a batch for which no connection could be made -/
  | sys (l : Label) (refused : Bool)
  /-- a read that fails after the connection was made (redis.go:255-258 only logs) -/
  | pollFail (i : Nat)

/-- `Pool.Get` would wait: all `lim` connections are taken.  Nothing ever gives one back. -/
def full (lim : Int) (n : Nat) : Bool := decide (0 < lim ∧ lim ≤ (n : Int))

def bump (f : Nat → Nat) (i : Nat) : Nat → Nat := fun j => if j = i then f j + 1 else f j

def PSt.step (cd : Codec) (cfg : Config) (lim : Int) (p : PSt) : PLabel → Option PSt
  | .sys l refused =>
    (Sys.step cd cfg p.st l).bind fun s =>
      match l with
      | .start i =>         -- redis.go:40: new pools
        some ⟨s, fun j => if j = i then 0 else p.reads j, fun j => if j = i then 0 else p.writes j⟩
      | l =>
        match reader l, sender cfg p.st l with
        | some i, _ => if full lim (p.reads i) then none else some ⟨s, bump p.reads i, p.writes⟩
        | none, some i =>
          if full lim (p.writes i) then none
          else some ⟨s, p.reads, if refused && undone l then p.writes else bump p.writes i⟩
        | none, none => some { p with st := s }
  | .pollFail i =>
    if (p.st.insts i).up then
      if full lim (p.reads i) then none else some { p with reads := bump p.reads i }
    else none

def PSt.run (cd : Codec) (cfg : Config) (lim : Int) : PSt → List PLabel → Option PSt
  | p, [] => some p
  | p, l :: ls => (p.step cd cfg lim l).bind fun p' => p'.run cd cfg lim ls

/-- redis.go:46, :70. -/
def poolLimit (env : GoMap Str) : Int := Conf.getInt env "OM_REDIS_POOL_MAX_ACTIVE".toList

end OM.Sys
