import Verif.Model.Store
/-! # Specification vocabulary: what a replicator answers to successive batches -/
namespace OM.Spec

/-- The responses (in order, batch by batch) of a replicator given batches in turn. -/
def answers {S : Type} (send : S → List StateUpdate → S × List StateResponse) :
    S → List (List StateUpdate) → List StateResponse
  | _, [] => []
  | s, b :: bs => (send s b).2 ++ answers send (send s b).1 bs

/-- The replicator after the batches. -/
def after {S : Type} (send : S → List StateUpdate → S × List StateResponse) (s : S)
    (bs : List (List StateUpdate)) : S := bs.foldl (fun s b => (send s b).1) s

/-- One response per update: `make([]*StateResponse, len(updates))` in redis.go:110,
one append per update in memory/main.go:90. -/
def OnePerUpdate {S : Type} (send : S → List StateUpdate → S × List StateResponse) : Prop :=
  ∀ s us, (send s us).2.length = us.length

end OM.Spec
