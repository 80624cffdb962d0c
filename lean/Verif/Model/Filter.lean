import Verif.Model.Proto
/-! # core/internal/filter/filter.go -/
namespace OM.Filter

/-- filter.go:34-49 `ValidatePoolFilters`.  Returns `none` for valid, or the error
text (always with code InvalidArgument).  A nil pool is valid (getters). -/
def validatePoolFilters (pool : Option Pool) : Option String :=
  match pool.bind (·.creationTimeRangeFilter) with
  | none => none
  | some f =>
    if f.start ≠ none ∧ Timestamp.isValid f.start = false then
      some ".invalid creation time filter start value"
    else if f.stop ≠ none ∧ Timestamp.isValid f.stop = false then
      some ".invalid creation time filter end value"
    else none

/-- filter.go:56-86: the creation-time section of `In`; `true` means it returned
`false` there (ticket rejected). -/
def timeRejects (pool : Option Pool) (attrs : Option FilterableData) : Bool :=
  let crTime := asTime (attrs.bind (·.creationTime))
  match pool.bind (·.creationTimeRangeFilter) with
  | none => false
  | some f =>
    let fEnd := asTime f.stop
    let fStart := asTime f.start
    if ¬ (crTime < fStart) then true            -- :67 !crTime.Before(start)
    else if ¬ (crTime > fEnd) then true         -- :71 !crTime.After(end)
    else if (f.bounds = excludeStart ∨ f.bounds = excludeBoth) ∧ crTime = fStart then true  -- :75-79
    else if (f.bounds = excludeEnd ∨ f.bounds = excludeBoth) ∧ crTime = fEnd then true      -- :81-85
    else false

/-- filter.go:94-111: the `switch filter.GetBounds()`; `true` means reject.  An
unknown enum value matches no case and rejects nothing. -/
def doubleRejects (f : DoubleRangeFilter) (v : F64) : Bool :=
  if f.bounds = excludeNone then !(F64.ge v f.minimum && F64.le v f.maximum)
  else if f.bounds = excludeMin then !(F64.gt v f.minimum && F64.le v f.maximum)
  else if f.bounds = excludeMax then !(F64.ge v f.minimum && F64.lt v f.maximum)
  else if f.bounds = excludeBoth then !(F64.gt v f.minimum && F64.lt v f.maximum)
  else false

/-- filter.go:88-113: the double-range loop.  `filterableFields.DoubleArgs` is a
field access, not a getter: it panics when the ticket has no attributes. -/
def doubleLoop (attrs : Option FilterableData) : List DoubleRangeFilter → Go Bool
  | [] => some true
  | f :: fs =>
    match attrs with
    | none => Go.panic
    | some a =>
      match a.doubleArgs.load f.doubleArg with
      | none => some false
      | some v => if doubleRejects f v then some false else doubleLoop attrs fs

/-- filter.go:115-123: the string-equals loop (same nil-attributes panic). -/
def stringLoop (attrs : Option FilterableData) : List StringEqualsFilter → Go Bool
  | [] => some true
  | f :: fs =>
    match attrs with
    | none => Go.panic
    | some a =>
      match a.stringArgs.load f.stringArg with
      | none => some false
      | some v => if f.value ≠ v then some false else stringLoop attrs fs

/-- filter.go:125-134: the tag loop (`GetTags()` is nil safe). -/
def tagLoop (tags : List Str) : List TagPresentFilter → Bool
  | [] => true
  | f :: fs => if tags.any (fun v => decide (v = f.tag)) then tagLoop tags fs else false

/-- filter.go:52-137 `In`.  A nil pool panics at `pool.DoubleRangeFilters` (:88). -/
def In (pool : Option Pool) (ticket : Option Ticket) : Go Bool :=
  let attrs := ticket.bind (·.attributes)
  if timeRejects pool attrs then some false
  else
    match pool with
    | none => Go.panic
    | some p =>
      match doubleLoop attrs p.doubleRangeFilters with
      | none => Go.panic
      | some false => some false
      | some true =>
        match stringLoop attrs p.stringEqualsFilters with
        | none => Go.panic
        | some false => some false
        | some true =>
          some (tagLoop ((attrs.map (·.tags)).getD []) p.tagPresentFilters)

end OM.Filter
