import Verif.Model.Proto
/-! # Specification vocabulary for the RPC handlers -/
namespace OM.Spec

/-- Same message: maps may be listed in another order. -/
structure SameData (a b : FilterableData) : Prop where
  tags : a.tags = b.tags
  stringArgs : a.stringArgs.Perm b.stringArgs
  doubleArgs : a.doubleArgs.Perm b.doubleArgs
  creationTime : a.creationTime = b.creationTime

/-- Two optional messages are both absent or both present and related. -/
def SameOpt {α : Type} (R : α → α → Prop) : Option α → Option α → Prop
  | none, none => True
  | some a, some b => R a b
  | _, _ => False

/-- Same ticket message. -/
structure SameTicket (a b : Ticket) : Prop where
  id : a.id = b.id
  expirationTime : a.expirationTime = b.expirationTime
  attributes : SameOpt SameData a.attributes b.attributes
  extensions : a.extensions.Perm b.extensions

/-- Same assignment message. -/
structure SameAssignment (a b : Assignment) : Prop where
  connection : a.connection = b.connection
  extensions : a.extensions.Perm b.extensions

/-- Legal protobuf timestamp: 0001-01-01T00:00:00Z to 9999-12-31T23:59:59.999999999Z. -/
def LegalTime (t : Timestamp) : Prop :=
  -62135596800 ≤ t.seconds ∧ t.seconds ≤ 253402300799 ∧ 0 ≤ t.nanos ∧ t.nanos ≤ 999999999

/-- Nanoseconds since the epoch. -/
def nanosOf (t : Timestamp) : Int := t.seconds * 1000000000 + t.nanos

/-- A string of decimal digits (possibly empty). -/
def Digits (s : Str) : Prop := ∀ c ∈ s, c ∈ "0123456789".toList

/-- `<digits>-<digits>` with both parts non-empty: the documented id format. -/
def WellFormedId (s : Str) : Prop :=
  ∃ a b, s = a ++ '-' :: b ∧ Digits a ∧ Digits b ∧ a ≠ [] ∧ b ≠ []

/-- A match of the regular expression `\d*-\d*` somewhere in `s`. -/
def RegexMatches (s : Str) : Prop :=
  ∃ pre a b post, s = pre ++ (a ++ '-' :: b) ++ post ∧ Digits a ∧ Digits b

end OM.Spec
