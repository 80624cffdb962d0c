import Verif.Model.Scrape
/-! # Specification: what a scrape should show -/
namespace OM.Spec
open OM.Scrape

/-- The sample that shows one cycle. -/
def SampleOf (c : Counts) (s : Sample) : Prop :=
  s.active = activeGauge c ∧ s.inactive = c.inactiveCount ∧ s.assignments = c.assignmentCount

/-- The counts are those of cycles over some caches, in a history. -/
def Tallies (cfg : Config) (cs : List Counts) : Prop :=
  ∀ n ∈ cs, ∃ cy c, cy.Visits cfg c ∧ n = cycleCounts cfg cy c

end OM.Spec
