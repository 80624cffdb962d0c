import Verif.Spec.Round
/-! # What the example matchmaker is expected to do with its players -/
namespace OM.Spec

/-- The player of `t` has selected the class `c`, and no other. -/
def Plays (t : Ticket) (c : Str) : Prop :=
  ∃ d, t.attributes = some d ∧ ∀ v, ("class".toList, v) ∈ d.stringArgs ↔ v = c

/-- The three classes of the game. -/
def IsClass (c : Str) : Prop := c = "tank".toList ∨ c = "healer".toList ∨ c = "dps".toList

/-- No player of an accepted match is put back into the pools. -/
def KeepsAccepted (accepted : List (Option Match)) (reactivated : List Str) : Prop :=
  ∀ m ∈ accepted, ∀ t ∈ players m, t.id ∉ reactivated

end OM.Spec
