import Verif.Spec.ProtoJson
import Verif.Model.Descriptor
/-!
# What generated code must declare

How a declaration of a descriptor reads in a .proto file and in Go (protobuf's language specification and its guide
to generated Go code), and what it means that bytes can be read as a message of given types.
-/
namespace OM.Spec
open OM.Wire (Field)
open OM.Desc (FieldDecl MsgDecl Kind)

/-- The last component of a full name. -/
def shortName (s : Str) : Str := (s.reverse.takeWhile (· ≠ '.')).reverse

/-- The message that protoc made up for a map, if the field is one. -/
def mapEntryOf (ms : List MsgDecl) (f : FieldDecl) : Option MsgDecl :=
  ms.find? fun m => m.mapEntry ∧ '.' :: m.name = f.typeName ∧ f.repeated ∧ f.type = 11

/-- The type of a value. -/
def protoType (f : FieldDecl) : Str :=
  match f.type with
  | 1 => "double".toList
  | 5 => "int32".toList
  | 9 => "string".toList
  | 11 | 14 => shortName f.typeName
  | _ => "?".toList

/-- The type as it is written in a .proto file. -/
def writtenType (ms : List MsgDecl) (f : FieldDecl) : Str :=
  match mapEntryOf ms f with
  | some m =>
    match m.fields with
    | [k, v] =>
      if k.number = 1 ∧ v.number = 2 ∧ k.repeated = false ∧ v.repeated = false then
        "map<".toList ++ protoType k ++ ", ".toList ++ protoType v ++ ">".toList
      else "?".toList
    | _ => "?".toList
  | none => if f.repeated then "repeated ".toList ++ protoType f else protoType f

/-- The declarations as they are written in a .proto file. -/
def written (ms : List MsgDecl) : List (Str × List (Str × Str × Nat)) :=
  (ms.filter fun m => !m.mapEntry).map fun m => (shortName m.name, m.fields.map fun f => (f.name, writtenType ms f, f.number))

/-- A table of declarations as lists of characters. -/
def chars (d : List (String × List (String × String × Nat))) : List (Str × List (Str × Str × Nat)) :=
  d.map fun m => (m.1.toList, m.2.map fun f => (f.1.toList, f.2.1.toList, f.2.2))

/-! ## Go -/

/-- Nested types are joined with underscores. -/
def goName (full : Str) : Str :=
  if full = ".google.protobuf.Timestamp".toList then "timestamppb.Timestamp".toList
  else if full = ".google.protobuf.Any".toList then "anypb.Any".toList
  else (full.drop ".open_match.v2.".toList.length).map fun c => if c = '.' then '_' else c

def goValue (f : FieldDecl) : Str :=
  match f.type with
  | 1 => "float64".toList
  | 5 => "int32".toList
  | 9 => "string".toList
  | 11 => '*' :: goName f.typeName
  | 14 => goName f.typeName
  | _ => "?".toList

def goType (ms : List MsgDecl) (f : FieldDecl) : Str :=
  match mapEntryOf ms f with
  | some m =>
    match m.fields with
    | [k, v] => "map[".toList ++ goValue k ++ "]".toList ++ goValue v
    | _ => "?".toList
  | none => if f.repeated then "[]".toList ++ goValue f else goValue f

def capital : Str → Str
  | [] => []
  | c :: s => c.toUpper :: s

/-- The struct of a message. -/
def goStruct (ms : List MsgDecl) (m : MsgDecl) : Str × List (Str × Str × Nat) :=
  (goName ('.' :: m.name), m.fields.map fun f => (capital (camel f.name), goType ms f, f.number))

/-! ## Reading -/

/-- The bytes can be read as the `i`-th type of a table: they are fields, what is read as a string is text and what
is read as a message can be read so. -/
inductive CanRead (T : List (List (Nat × Kind))) : Nat → Str → Prop
  | mk {i : Nat} {b : Str} {fs : List Field} : MessageBytes fs b →
      (∀ n s, (n, Kind.text) ∈ T.getD i [] → (n, .len s) ∈ fs → IsText s) →
      (∀ n j s, (n, Kind.message j) ∈ T.getD i [] → (n, .len s) ∈ fs → CanRead T j s) → CanRead T i b

/-! ## Services -/

/-- The methods of api.proto:35-81 and mmf.proto:27: name, request, response, who streams. -/
def publishedMethods : List (String × String × String × Bool × Bool) :=
  [("CreateTicket", "CreateTicketRequest", "CreateTicketResponse", false, false),
   ("DeactivateTickets", "DeactivateTicketsRequest", "DeactivateTicketsResponse", false, false),
   ("ActivateTickets", "ActivateTicketsRequest", "ActivateTicketsResponse", false, false),
   ("InvokeMatchmakingFunctions", "MmfRequest", "StreamedMmfResponse", false, true),
   ("CreateAssignments", "CreateAssignmentsRequest", "CreateAssignmentsResponse", false, false),
   ("WatchAssignments", "WatchAssignmentsRequest", "StreamedWatchAssignmentsResponse", false, true)]

def publishedRun : String × String × String × Bool × Bool := ("Run", "ChunkedMmfRunRequest", "StreamedMmfResponse", true, true)

/-- The declaration of a method in a descriptor. -/
def methodDecl (m : String × String × String × Bool × Bool) : Desc.MethodDecl :=
  ⟨m.1.toList, ".open_match.v2.".toList ++ m.2.1.toList, ".open_match.v2.".toList ++ m.2.2.1.toList, m.2.2.2.1, m.2.2.2.2⟩

/-- Which function of core/main.go has the name of a published method. -/
def named : Gw.Rpc → Str
  | .createTicket => "CreateTicket".toList
  | .deactivateTickets => "DeactivateTickets".toList
  | .activateTickets => "ActivateTickets".toList
  | .invokeMmfs => "InvokeMatchmakingFunctions".toList
  | .createAssignments => "CreateAssignments".toList
  | .watchAssignments => "WatchAssignments".toList

end OM.Spec
