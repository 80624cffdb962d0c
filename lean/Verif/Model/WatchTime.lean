import Verif.Model.Watch
import Verif.Model.Timed
/-!
# WatchAssignments with time, at an instance that gets updates

`Model/Watch.lean` with a clock that does not pass over what is due: a goroutine that finds no assignment sleeps one second and looks
again (core/main.go:836).  Then the same beside the instances of `Model/Delay.lean`: what the goroutines find is what the instance of
the call has applied.

Simplifications: those of `Model/Watch.lean`, `Model/Delay.lean` and `Model/Timed.lean`; the handler's and its goroutines' own work takes
no time, timers fire on time, and `stream.Send` takes at most `S`.
-/
namespace OM.WatchTime

/-- `now0`: when the call began; `due`: when each goroutine looks the next time; `sendBy`: when the `stream.Send` of :864 will have
returned. -/
structure St where
  w : Watch.St
  now0 : Int
  due : List Int
  sendBy : Int
  deriving DecidableEq

def St.init (now : Int) (cache : GoMap Assignment) : St := ⟨Watch.init now cache, now, [], now⟩

inductive Lbl where
  /-- a step of `Model/Watch.lean` -/
  | act (l : Watch.Label)
  /-- a goroutine finds no assignment (:824) and sleeps (:836) -/
  | miss (j : Nat)

/-- The goroutine waits at the channel (:828). -/
def atSend (g : Watch.Goro) : Bool :=
  match g.pc with
  | .send _ => true
  | _ => false

/-- Time may pass until `t`: nobody is due before. -/
def St.mayWait (n : Nat) (s : St) (t : Int) : Bool :=
  ((s.w.gos.zip s.due).all fun x => x.1.pc ≠ .poll || t ≤ x.2) &&
  match s.w.main with
  | .starting _ => false
  | .select i => i < n && t ≤ s.w.fire && !s.w.gos.any atSend
  | .sending _ _ => t ≤ s.sendBy
  | .returned _ => true

/-- One step. -/
def St.step (cfg : Config) (ids : List Str) (S : Int) (s : St) : Lbl → Option St
  | .act l =>
    let next := Watch.step cfg s.now0 ids s.w l
    match l with
    | .tick t => if s.mayWait ids.length t then next.map fun w => { s with w } else none
    | .launch => next.map fun w => { s with w, due := s.due ++ [s.w.now] }
    | .poll j => if s.due[j]?.any (· ≤ s.w.now) then next.map fun w => { s with w } else none
    | .take _ => next.map fun w => { s with w, sendBy := s.w.now + S }
    | _ => next.map fun w => { s with w }
  | .miss j =>
    match s.w.gos[j]?, s.due[j]? with
    | some g, some d =>
      if !s.w.crashed && g.pc = .poll && d ≤ s.w.now && (s.w.cache.load g.id).isNone then
        some { s with due := s.due.set j (s.w.now + nsPerSec) }
      else none
    | _, _ => none

def St.run (cfg : Config) (ids : List Str) (S : Int) : St → List Lbl → Option St
  | s, [] => some s
  | s, l :: ls => (s.step cfg ids S l).bind fun s => s.run cfg ids S ls

/-! ## The call beside the instances -/

/-- What is fixed: the instances, what their updates are, the instance `j` of the call, the length `u` of a tick in nanoseconds, the
time `c0` at which all started, the ids of the call, and the bound of `stream.Send`. -/
structure Env where
  cd : Codec
  cfg : Config
  p : Delay.Par
  what : Nat × Nat → StateUpdate
  j : Nat
  u : Int
  c0 : Int
  ids : List Str
  S : Int

/-- `es`: what instance `j` has done to its cache; `w`: the call, once it is there. -/
structure World where
  d : Delay.St
  es : List Ev
  w : Option St

/-- The assignments in the cache of the instance (`tc.Assignments`). -/
def World.cache (v : Env) (s : World) : GoMap Assignment := (runEvs v.cd v.cfg Cache.empty s.es).assignments

def World.init (v : Env) (n : Nat) : World := ⟨Delay.St.init v.p n, [], none⟩

inductive WorldLbl where
  /-- a step of the instances; `cy`: what the cycle does if it is one that ends (replicatedticketcache.go:230-357) -/
  | sys (l : Delay.Lbl) (cy : Cycle)
  /-- the call begins at `t` -/
  | call (t : Int)
  | watch (l : Lbl)

/-- The clock of the call is within the tick of the instances. -/
def World.within (v : Env) (s : World) (t : Int) : Bool := v.c0 + s.d.now * v.u ≤ t && t ≤ v.c0 + (s.d.now + 1) * v.u

/-- What a step of the call may be: its clock stays within the tick, and the cache is not its own. -/
def World.allows (v : Env) (s : World) : Lbl → Bool
  | .act (.cacheSet _) => false
  | .act (.tick t) => s.within v t
  | _ => true

/-- What the deeds of a step do to the cache (`log`: the stream). -/
def events (v : Env) (log : List (Nat × Nat)) (cy : Cycle) (ds : List (Option Nat)) : List Ev :=
  ds.filterMap fun
    | some k => log[k]?.map fun x => Ev.upd (v.what x)
    | none => some (.expire cy)

def World.step (v : Env) (s : World) : WorldLbl → Option World
  | .sys l cy =>
    (s.d.step v.p l).bind fun d =>
      if l = .tick ∧ s.w.any (fun w => w.w.now ≠ v.c0 + (s.d.now + 1) * v.u) then none
      else
        let s' : World := { s with d, es := s.es ++ events v d.log cy (s.d.did v.j l) }
        match s.w, s.d.did v.j l with
        | some w, _ :: _ => (w.step v.cfg v.ids v.S (.act (.cacheSet (s'.cache v)))).map fun w => { s' with w := some w }
        | _, _ => some s'
  | .call t =>
    match s.w with
    | none => if s.within v t then some { s with w := some (St.init t (s.cache v)) } else none
    | some _ => none
  | .watch l =>
    s.w.bind fun w =>
      if s.allows v l then (w.step v.cfg v.ids v.S l).map fun w => { s with w := some w } else none

def World.run (v : Env) : World → List WorldLbl → Option World
  | s, [] => some s
  | s, l :: ls => (s.step v l).bind fun s => s.run v ls

end OM.WatchTime
