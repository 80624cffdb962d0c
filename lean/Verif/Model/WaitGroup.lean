import Verif.Model.Matchmaker
/-!
# `activateTickets` with the panics of its WaitGroup

matchmaker-example/main.go:385-481 once more.  `Model/Matchmaker.lean` has a WaitGroup that only counts.  The one of
Go's `sync` package also panics when it notices that `Add` ran while a `Wait` was ending; since :433 calls `Add` inside
the goroutines, that can happen here.  What `Add`, `Done` and `Wait` do is general knowledge (Go's sync/waitgroup.go is
not in /repo).
-/
namespace OM.Mm

/-- `st.wg` is the WaitGroup's counter.  `waiters`: its number of waiters; `sema`: its semaphore; `parked`: the `Wait`
of :480 is asleep on the semaphore; `releasing`: the calls of `Done` that have brought the counter to zero and are about
to wake the waiters, with the number of waiters they saw; `crashed`: the process has panicked. -/
structure WSt where
  st : St
  waiters : Nat
  sema : Nat
  parked : Bool
  releasing : List (Nat × Nat)
  crashed : Bool
  deriving DecidableEq

/-- :387-390. -/
def WSt.init (queue : List Str) : WSt := ⟨St.init queue, 0, 0, false, [], false⟩

/-- Who moves: as in `Lbl`, and `release i`, the second half of goroutine `i`'s `Done`. -/
inductive WLbl where
  | lbl (l : Lbl)
  | release (i : Nat)
  deriving DecidableEq

/-- One step; `none` when it is not possible. -/
def WSt.step (s : WSt) (l : WLbl) : Option WSt :=
  if s.crashed then none else
  match l with
  | .lbl .main =>
    if s.st.pc = .wait then
      if s.parked then
        -- `Wait`, awake: "WaitGroup is reused before previous Wait has returned"
        if s.sema = 0 then none
        else if s.st.wg ≠ 0 ∨ s.waiters ≠ 0 then some { s with sema := s.sema - 1, crashed := true }
        else some { s with sema := s.sema - 1, parked := false, st := { s.st with pc := .returned } }
      else if s.st.wg = 0 then some { s with st := { s.st with pc := .returned } }
      else some { s with waiters := s.waiters + 1, parked := true }
    else s.st.main.map fun t => { s with st := t }
  | .lbl (.push id) => (s.st.step (.push id)).map fun t => { s with st := t }
  | .lbl (.begin i) =>      -- :433 `Add(1)`: "WaitGroup misuse: Add called concurrently with Wait"
    (s.st.step (.begin i)).map fun t => if s.st.wg = 0 ∧ s.waiters ≠ 0 then { s with crashed := true } else { s with st := t }
  | .lbl (.finish i) =>     -- :434 `Done`
    (s.st.step (.finish i)).map fun t =>
      { s with st := t, releasing := if t.wg = 0 ∧ s.waiters ≠ 0 then s.releasing ++ [(i, s.waiters)] else s.releasing }
  | .release i =>           -- the same "misuse" panic, seen from `Done`
    match s.releasing.find? (fun r => r.1 == i) with
    | some (_, w) =>
      if s.st.wg ≠ 0 ∨ s.waiters ≠ w then some { s with crashed := true }
      else some { s with sema := s.sema + w, waiters := 0, releasing := s.releasing.eraseP (fun r => r.1 == i) }
    | none => none

def WSt.run (s : WSt) : List WLbl → Option WSt
  | [] => some s
  | l :: ls => (s.step l).bind fun s => s.run ls

end OM.Mm
