import Verif.Model.Delay
import Verif.Model.Cache
import Mathlib.Data.List.Forall2
/-!
# What the caches of the instances hold, with time

`Model/Delay.lean` counts updates; here they have content.  The incoming goroutine of an instance applies the updates that it takes
and runs an expiration cycle after each time (replicatedticketcache.go:157-357); what this does to the cache is in `Model/Cache.lean`.

Simplifications: those of `Model/Delay.lean`; an update is applied in the moment it is taken from the channel (:172-221) and a cycle
removes what it removes in the moment it ends.
-/
namespace OM

/-- What the goroutine does to the cache in a step: `some k` is the application of update number `k` (:172-221), `none` an expiration
cycle (:230-357). -/
def Lag.St.did (s : Lag.St) : Lag.Lbl → List (Option Nat)
  | .take => s.chan.head?.toList.map some
  | .slept => [none]
  | _ => []

namespace Delay

/-- What instance `j` does to its cache in a step of all. -/
def St.did (s : St) (j : Nat) : Lbl → List (Option Nat)
  | .inn i l => if i = j then s.insts[j]?.toList.flatMap fun a => a.inn.did l else []
  | _ => []

/-- What instance `j` does to its cache in an execution. -/
def St.deeds (p : Par) (j : Nat) : St → List Lbl → List (Option Nat)
  | _, [] => []
  | s, l :: ls =>
    match s.step p l with
    | some t => s.did j l ++ t.deeds p j ls
    | none => []

/-- The deeds as events of the cache.  `what`: the content of each update, by its instance and its number there. -/
def Deeds (what : Nat × Nat → StateUpdate) (log : List (Nat × Nat)) (ds : List (Option Nat)) (es : List Ev) : Prop :=
  List.Forall₂ (fun d e =>
    match d with
    | some k => ∃ x, log[k]? = some x ∧ e = .upd (what x)
    | none => ∃ cy, e = .expire cy) ds es

end Delay
end OM
