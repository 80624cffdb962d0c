import Verif.Model.System
import Verif.Props.Redis
import Verif.Spec.Text
/-!
# Spec: the batches that carry the updates of a call

An instance sends the updates of all calls in common batches
(core/internal/statestore/cache/replicatedticketcache.go:94-125).  What a call is told depends on the batches that carry
its own updates only.
-/
namespace OM.Spec
open OM.Sys OM.Props

/-- The batch that a label sends to Redis, and in which circumstances: when a request fills the batch, or at the timeout. -/
def sends (cfg : Config) (s : St) : Label → Option (SendEnv × List Req)
  | .submit c env =>
    match s.calls c with
    | none => none
    | some x =>
      match x.todo with
      | [] => none
      | u :: _ =>
        if x.outcome.isNone ∧ cfg.outThreshold ≤ (((s.insts x.inst).pending ++ [(⟨c, u⟩ : Req)]).length : Int) then
          some (env, (s.insts x.inst).pending ++ [⟨c, u⟩])
        else none
  | .timeout i env => some (env, (s.insts i).pending)
  | _ => none

/-- If the label sends a batch with an update of call `c`: the connection holds, Redis can store this update and those before
it in the batch, and refuses commands in UTF-8.  Nothing is asked of other batches. -/
def WellSent (cfg : Config) (c : Nat) (s : St) (l : Label) : Prop :=
  ∀ env b, sends cfg s l = some (env, b) → ∀ pre r post, b = pre ++ r :: post → r.caller = c →
    env.lost = none ∧ (∀ q ∈ pre ++ [r], Storable q.update) ∧ ∀ cm ∈ env.cmds, ∀ e, cm.fail = some e → IsText e

/-- `P` holds of all steps of an execution. -/
def Along (cd : Codec) (cfg : Config) (P : St → Label → Prop) : St → List Label → Prop
  | _, [] => True
  | s, l :: ls => P s l ∧ ∀ s', step cd cfg s l = some s' → Along cd cfg P s' ls

/-- The ids of the request are UTF-8 (true of every request that comes off the wire). -/
def ReadableIds : Rpc → Prop
  | .setState _ ids => ∀ id ∈ ids, IsText id
  | _ => True

end OM.Spec
