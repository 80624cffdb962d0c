import Verif.Model.Store
/-!
# The ticket life cycle, as a user would state it

A history is the list of updates applied so far.  Nothing here mentions maps,
inactive sets or the order of writes.
-/
namespace OM.Spec

/-- Updates of the history that decide whether `k` is active. -/
def markers (h : List StateUpdate) (k : Str) : List Cmd :=
  (h.filter fun u => decide (u.key = k ∧
    (u.cmd = .ticket ∨ u.cmd = .activate ∨ u.cmd = .deactivate))).map (·.cmd)

/-- Payloads of the creations of `k`. -/
def creations (h : List StateUpdate) (k : Str) : List Str :=
  (h.filter fun u => decide (u.key = k ∧ u.cmd = .ticket)).map (·.value)

/-- Payloads of the assignments of `k`. -/
def assigns (h : List StateUpdate) (k : Str) : List Str :=
  (h.filter fun u => decide (u.key = k ∧ u.cmd = .assign)).map (·.value)

/-- The content `k` has: that of its last creation, under its id. -/
def content (cd : Codec) (h : List StateUpdate) (k : Str) : Option Ticket :=
  (creations h k).getLast?.map fun v => { cd.decT v with id := k }

/-- `k` is a pool candidate: created, and the last creation/activation/deactivation
naming it is an activation. -/
def Active (h : List StateUpdate) (k : Str) : Prop :=
  creations h k ≠ [] ∧ (markers h k).getLast? = some .activate

/-- The assignment `k` has: the last one made. -/
def assignment (cd : Codec) (h : List StateUpdate) (k : Str) : Option Assignment :=
  (assigns h k).getLast?.map cd.decA

instance (h : List StateUpdate) (k : Str) : Decidable (Active h k) := by
  unfold Active; infer_instance

end OM.Spec
