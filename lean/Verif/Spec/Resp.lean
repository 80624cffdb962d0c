import Verif.Model.Redis
/-! # Specification: what Redis is asked to do -/
namespace OM.Spec

/-- The command that stores an update. -/
inductive Stores : StateUpdate → List Str → Prop
  | ticket {u : StateUpdate} : u.cmd = .ticket → u.value ≠ [] →
      Stores u ["XADD".toList, "om-replication".toList, "*".toList, "ticket".toList, u.value]
  | activate {u : StateUpdate} : u.cmd = .activate → u.key ≠ [] →
      Stores u ["XADD".toList, "om-replication".toList, "*".toList, "activate".toList, u.key]
  | deactivate {u : StateUpdate} : u.cmd = .deactivate → u.key ≠ [] →
      Stores u ["XADD".toList, "om-replication".toList, "*".toList, "deactivate".toList, u.key]
  | assign {u : StateUpdate} : u.cmd = .assign → u.key ≠ [] → u.value ≠ [] →
      Stores u ["XADD".toList, "om-replication".toList, "*".toList, "assign".toList, u.key, "connection".toList, u.value]

/-- The commands for the updates that can be stored, in their order. -/
inductive Batch : List StateUpdate → List (List Str) → Prop
  | nil : Batch [] []
  | store {u : StateUpdate} {us : List StateUpdate} {c : List Str} {cs : List (List Str)} :
      Stores u c → Batch us cs → Batch (u :: us) (c :: cs)
  | skip {u : StateUpdate} {us : List StateUpdate} {cs : List (List Str)} :
      (∀ c, ¬ Stores u c) → Batch us cs → Batch (u :: us) cs

/-- Texts of at most 512 MiB: Redis takes no longer ones.  (A gRPC message has at most 4 MiB.) -/
def Sized (us : List StateUpdate) : Prop := ∀ u ∈ us, u.key.length ≤ 2 ^ 29 ∧ u.value.length ≤ 2 ^ 29

/-- The same for the environment. -/
def SizedEnv (env : GoMap Str) : Prop := ∀ k v, env.load k = some v → v.length ≤ 2 ^ 29

end OM.Spec
