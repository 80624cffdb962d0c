import Verif.Model.Store
/-! # Specification vocabulary: replicated updates -/
namespace OM.Spec

/-- The update every instance should see after `u` was stored under stream id `id`:
a creation is keyed by the id, (de)activations carry no payload. -/
def replicated (u : StateUpdate) (id : Str) : StateUpdate :=
  match u.cmd with
  | .ticket => ⟨.ticket, id, u.value⟩
  | .activate => ⟨.activate, u.key, []⟩
  | .deactivate => ⟨.deactivate, u.key, []⟩
  | .assign => ⟨.assign, u.key, u.value⟩
  | .other n => ⟨.other n, u.key, u.value⟩

end OM.Spec
