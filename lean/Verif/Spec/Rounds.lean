import Verif.Spec.Round
/-! # What players expect of successive rounds -/
namespace OM.Spec

/-- Every player of the match is a ticket of the snapshot `ts` that a pool of the profile admits. -/
def FromPools (p : Profile) (ts : List Ticket) (o : Option Match) : Prop :=
  ∀ t ∈ players o, ∃ name, Fits p ts name t

/-- No ticket is in both matches. -/
def NoCommonPlayer (o o' : Option Match) : Prop :=
  ∀ t ∈ players o, ∀ t' ∈ players o', t.id ≠ t'.id

end OM.Spec
