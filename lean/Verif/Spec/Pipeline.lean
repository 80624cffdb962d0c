import Verif.Model.Pipeline
/-!
# Vocabulary for schedules of the process

What it means for a step to make headway, and what the in-memory replicator is to
publish for an answered request.
-/
namespace OM.Spec

open OM.Pipe

/-- Steps that are neither the environment's doing (a new call, updates arriving from a
remote store) nor a timeout of an empty wait. -/
def headway (s : St) : Lab → Bool
  | .call _ => false
  | .polled _ => false
  | .tick => match s.out with | .collect [] => false | _ => true
  | .getTick => match s.inp with | .reading [] => false | _ => true
  | _ => true

/-- A schedule of nothing but headway steps. -/
inductive Headway (b : Backend) (thr : Int) (inMax : Nat) : St → List Lab → St → Prop
  | nil (s : St) : Headway b thr inMax s [] s
  | cons {s s' s'' : St} {l : Lab} {ls : List Lab} (h : headway s l = true)
      (e : step b thr inMax s l = some s') (t : Headway b thr inMax s' ls s'') :
      Headway b thr inMax s (l :: ls) s''

/-- No headway step is enabled. -/
def Quiet (b : Backend) (thr : Int) (inMax : Nat) (s : St) : Prop :=
  ∀ l, headway s l = true → step b thr inMax s l = none

/-- The calls begun along a schedule. -/
def kinds (ls : List Lab) : List Kind :=
  ls.filterMap fun l => match l with | .call k => some k | _ => none

/-- The updates of a call. -/
def Kind.updates : Kind → List StateUpdate
  | .create u => [u]
  | .states us => us
  | .assigns us _ => us

/-- The replicated form of an answered update: a ticket goes by the id in the answer,
anything else keeps its key. -/
def replicatedAs (u : StateUpdate) (r : StateResponse) : StateUpdate :=
  ⟨u.cmd, if u.cmd = .ticket then r.result else u.key, u.value⟩

end OM.Spec
