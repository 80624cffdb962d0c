import Verif.Spec.ProtoJson
/-!
# The strings that a match carries
-/
namespace OM.Spec
open OM.PJ

/-- Some string has a blank in it. -/
def HasBlank (l : List Str) : Prop := ∃ s ∈ l, Blank s

def optStrings {α : Type} (f : α → List Str) : Option α → List Str
  | none => []
  | some v => f v
def mapStrings {V : Type} (f : V → List Str) (m : GoMap V) : List Str := m.flatMap fun x => x.1 :: f x.2

/-- The name of an extension's type, and the strings of its content. -/
def extStrings (e : Env) (a : AnyPb) : List Str :=
  if a.typeUrl = [] then [] else a.typeUrl :: optStrings memberStrings (e.types.enc a.typeUrl a.value)
def attrStrings (d : FilterableData) : List Str :=
  d.tags ++ mapStrings (fun s => [s]) d.stringArgs ++ mapStrings (fun _ => []) d.doubleArgs
def ticketStrings (e : Env) (t : Ticket) : List Str :=
  t.id :: (optStrings attrStrings t.attributes ++ mapStrings (extStrings e) t.extensions)
def assignmentStrings (e : Env) (a : Assignment) : List Str := a.connection :: mapStrings (extStrings e) a.extensions
def rosterStrings (e : Env) (r : Roster) : List Str :=
  r.name :: (optStrings (assignmentStrings e) r.assignment ++ r.tickets.flatMap (ticketStrings e) ++ mapStrings (extStrings e) r.extensions)
def matchStrings (e : Env) (m : Match) : List Str :=
  m.id :: (mapStrings (rosterStrings e) m.rosters ++ mapStrings (extStrings e) m.extensions)

end OM.Spec
