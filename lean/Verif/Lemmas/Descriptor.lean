import Verif.Lemmas.Receive
import Verif.Spec.Descriptor
/-! # The descriptors, evaluated -/
namespace OM.Desc
open OM.Spec
open OM.Wire (Field wellFormed Content utf8Valid)

open Lean in
/-- A list of characters. -/
macro:max "cs!" s:str : term => do
  let cs := s.getString.toList.map fun c => Syntax.mkCharLit c
  `([$(cs.toArray),*])

open Lean in
/-- The characters of a string; its proof is `String.toList_ofList`. -/
simproc_decl toListLit (String.toList _) := fun e => do
  let_expr String.toList s := e | return .continue
  let .lit (.strVal v) := s | return .continue
  let l := toExpr v.toList
  return .done { expr := l, proof? := mkApp (mkConst ``String.toList_ofList) l }

def fieldDecl (name : Str) (number : Nat) (repeated : Bool) (type : Nat) (typeName json : Str) : FieldDecl :=
  ⟨name, number, repeated, type, typeName, json⟩

def msgDecl (name : Str) (mapEntry : Bool) (fields : List FieldDecl) : MsgDecl := ⟨name, mapEntry, fields⟩

/-- What rawMessages declares. -/
def decls : List MsgDecl :=
  [
   msgDecl cs!"open_match.v2.Ticket" false [
     fieldDecl cs!"id" 1 false 9 cs!"" cs!"id",
     fieldDecl cs!"expiration_time" 2 false 11 cs!".google.protobuf.Timestamp" cs!"expirationTime",
     fieldDecl cs!"attributes" 3 false 11 cs!".open_match.v2.Ticket.FilterableData" cs!"attributes",
     fieldDecl cs!"extensions" 4 true 11 cs!".open_match.v2.Ticket.ExtensionsEntry" cs!"extensions"],
   msgDecl cs!"open_match.v2.Assignment" false [
     fieldDecl cs!"connection" 1 false 9 cs!"" cs!"connection",
     fieldDecl cs!"extensions" 2 true 11 cs!".open_match.v2.Assignment.ExtensionsEntry" cs!"extensions"],
   msgDecl cs!"open_match.v2.Pool" false [
     fieldDecl cs!"name" 1 false 9 cs!"" cs!"name",
     fieldDecl cs!"tag_present_filters" 2 true 11 cs!".open_match.v2.Pool.TagPresentFilter" cs!"tagPresentFilters",
     fieldDecl cs!"string_equals_filters" 3 true 11 cs!".open_match.v2.Pool.StringEqualsFilter" cs!"stringEqualsFilters",
     fieldDecl cs!"double_range_filters" 4 true 11 cs!".open_match.v2.Pool.DoubleRangeFilter" cs!"doubleRangeFilters",
     fieldDecl cs!"creation_time_range_filter" 5 false 11 cs!".open_match.v2.Pool.CreationTimeRangeFilter" cs!"creationTimeRangeFilter",
     fieldDecl cs!"participants" 6 false 11 cs!".open_match.v2.Roster" cs!"participants",
     fieldDecl cs!"extensions" 7 true 11 cs!".open_match.v2.Pool.ExtensionsEntry" cs!"extensions"],
   msgDecl cs!"open_match.v2.Profile" false [
     fieldDecl cs!"name" 1 false 9 cs!"" cs!"name",
     fieldDecl cs!"pools" 2 true 11 cs!".open_match.v2.Profile.PoolsEntry" cs!"pools",
     fieldDecl cs!"extensions" 3 true 11 cs!".open_match.v2.Profile.ExtensionsEntry" cs!"extensions"],
   msgDecl cs!"open_match.v2.Match" false [
     fieldDecl cs!"id" 1 false 9 cs!"" cs!"id",
     fieldDecl cs!"rosters" 2 true 11 cs!".open_match.v2.Match.RostersEntry" cs!"rosters",
     fieldDecl cs!"extensions" 3 true 11 cs!".open_match.v2.Match.ExtensionsEntry" cs!"extensions"],
   msgDecl cs!"open_match.v2.Roster" false [
     fieldDecl cs!"name" 1 false 9 cs!"" cs!"name",
     fieldDecl cs!"assignment" 2 false 11 cs!".open_match.v2.Assignment" cs!"assignment",
     fieldDecl cs!"tickets" 3 true 11 cs!".open_match.v2.Ticket" cs!"tickets",
     fieldDecl cs!"extensions" 4 true 11 cs!".open_match.v2.Roster.ExtensionsEntry" cs!"extensions"],
   msgDecl cs!"open_match.v2.MatchmakingFunctionSpec" false [
     fieldDecl cs!"name" 1 false 9 cs!"" cs!"name",
     fieldDecl cs!"host" 2 false 9 cs!"" cs!"host",
     fieldDecl cs!"port" 3 false 5 cs!"" cs!"port",
     fieldDecl cs!"type" 4 false 14 cs!".open_match.v2.MatchmakingFunctionSpec.Type" cs!"type"],
   msgDecl cs!"open_match.v2.ChunkedMmfRunRequest" false [
     fieldDecl cs!"profile" 1 false 11 cs!".open_match.v2.Profile" cs!"profile",
     fieldDecl cs!"num_chunks" 2 false 5 cs!"" cs!"numChunks"],
   msgDecl cs!"open_match.v2.CreateTicketRequest" false [
     fieldDecl cs!"ticket" 1 false 11 cs!".open_match.v2.Ticket" cs!"ticket"],
   msgDecl cs!"open_match.v2.CreateTicketResponse" false [
     fieldDecl cs!"ticket_id" 1 false 9 cs!"" cs!"ticketId"],
   msgDecl cs!"open_match.v2.DeactivateTicketsRequest" false [
     fieldDecl cs!"ticket_ids" 1 true 9 cs!"" cs!"ticketIds"],
   msgDecl cs!"open_match.v2.DeactivateTicketsResponse" false [],
   msgDecl cs!"open_match.v2.ActivateTicketsRequest" false [
     fieldDecl cs!"ticket_ids" 1 true 9 cs!"" cs!"ticketIds"],
   msgDecl cs!"open_match.v2.ActivateTicketsResponse" false [],
   msgDecl cs!"open_match.v2.MmfRequest" false [
     fieldDecl cs!"profile" 1 false 11 cs!".open_match.v2.Profile" cs!"profile",
     fieldDecl cs!"mmfs" 2 true 11 cs!".open_match.v2.MatchmakingFunctionSpec" cs!"mmfs"],
   msgDecl cs!"open_match.v2.StreamedMmfResponse" false [
     fieldDecl cs!"match" 1 false 11 cs!".open_match.v2.Match" cs!"match"],
   msgDecl cs!"open_match.v2.CreateAssignmentsRequest" false [
     fieldDecl cs!"assignment_roster" 1 false 11 cs!".open_match.v2.Roster" cs!"assignmentRoster"],
   msgDecl cs!"open_match.v2.CreateAssignmentsResponse" false [],
   msgDecl cs!"open_match.v2.WatchAssignmentsRequest" false [
     fieldDecl cs!"ticket_ids" 1 true 9 cs!"" cs!"ticketIds"],
   msgDecl cs!"open_match.v2.StreamedWatchAssignmentsResponse" false [
     fieldDecl cs!"assignment" 1 false 11 cs!".open_match.v2.Assignment" cs!"assignment",
     fieldDecl cs!"id" 2 false 9 cs!"" cs!"id"],
   msgDecl cs!"open_match.v2.Ticket.FilterableData" false [
     fieldDecl cs!"tags" 1 true 9 cs!"" cs!"tags",
     fieldDecl cs!"string_args" 2 true 11 cs!".open_match.v2.Ticket.FilterableData.StringArgsEntry" cs!"stringArgs",
     fieldDecl cs!"double_args" 3 true 11 cs!".open_match.v2.Ticket.FilterableData.DoubleArgsEntry" cs!"doubleArgs",
     fieldDecl cs!"creation_time" 4 false 11 cs!".google.protobuf.Timestamp" cs!"creationTime"],
   msgDecl cs!"open_match.v2.Ticket.ExtensionsEntry" true [
     fieldDecl cs!"key" 1 false 9 cs!"" cs!"key",
     fieldDecl cs!"value" 2 false 11 cs!".google.protobuf.Any" cs!"value"],
   msgDecl cs!"open_match.v2.Ticket.FilterableData.StringArgsEntry" true [
     fieldDecl cs!"key" 1 false 9 cs!"" cs!"key",
     fieldDecl cs!"value" 2 false 9 cs!"" cs!"value"],
   msgDecl cs!"open_match.v2.Ticket.FilterableData.DoubleArgsEntry" true [
     fieldDecl cs!"key" 1 false 9 cs!"" cs!"key",
     fieldDecl cs!"value" 2 false 1 cs!"" cs!"value"],
   msgDecl cs!"open_match.v2.Assignment.ExtensionsEntry" true [
     fieldDecl cs!"key" 1 false 9 cs!"" cs!"key",
     fieldDecl cs!"value" 2 false 11 cs!".google.protobuf.Any" cs!"value"],
   msgDecl cs!"open_match.v2.Pool.TagPresentFilter" false [
     fieldDecl cs!"tag" 1 false 9 cs!"" cs!"tag"],
   msgDecl cs!"open_match.v2.Pool.StringEqualsFilter" false [
     fieldDecl cs!"string_arg" 1 false 9 cs!"" cs!"stringArg",
     fieldDecl cs!"value" 2 false 9 cs!"" cs!"value"],
   msgDecl cs!"open_match.v2.Pool.DoubleRangeFilter" false [
     fieldDecl cs!"double_arg" 1 false 9 cs!"" cs!"doubleArg",
     fieldDecl cs!"minimum" 2 false 1 cs!"" cs!"minimum",
     fieldDecl cs!"maximum" 3 false 1 cs!"" cs!"maximum",
     fieldDecl cs!"bounds" 4 false 14 cs!".open_match.v2.Pool.FilterBounds" cs!"bounds"],
   msgDecl cs!"open_match.v2.Pool.CreationTimeRangeFilter" false [
     fieldDecl cs!"start" 6 false 11 cs!".google.protobuf.Timestamp" cs!"start",
     fieldDecl cs!"end" 7 false 11 cs!".google.protobuf.Timestamp" cs!"end",
     fieldDecl cs!"bounds" 4 false 14 cs!".open_match.v2.Pool.FilterBounds" cs!"bounds"],
   msgDecl cs!"open_match.v2.Pool.ExtensionsEntry" true [
     fieldDecl cs!"key" 1 false 9 cs!"" cs!"key",
     fieldDecl cs!"value" 2 false 11 cs!".google.protobuf.Any" cs!"value"],
   msgDecl cs!"open_match.v2.Profile.PoolsEntry" true [
     fieldDecl cs!"key" 1 false 9 cs!"" cs!"key",
     fieldDecl cs!"value" 2 false 11 cs!".open_match.v2.Pool" cs!"value"],
   msgDecl cs!"open_match.v2.Profile.ExtensionsEntry" true [
     fieldDecl cs!"key" 1 false 9 cs!"" cs!"key",
     fieldDecl cs!"value" 2 false 11 cs!".google.protobuf.Any" cs!"value"],
   msgDecl cs!"open_match.v2.Match.RostersEntry" true [
     fieldDecl cs!"key" 1 false 9 cs!"" cs!"key",
     fieldDecl cs!"value" 2 false 11 cs!".open_match.v2.Roster" cs!"value"],
   msgDecl cs!"open_match.v2.Match.ExtensionsEntry" true [
     fieldDecl cs!"key" 1 false 9 cs!"" cs!"key",
     fieldDecl cs!"value" 2 false 11 cs!".google.protobuf.Any" cs!"value"],
   msgDecl cs!"open_match.v2.Roster.ExtensionsEntry" true [
     fieldDecl cs!"key" 1 false 9 cs!"" cs!"key",
     fieldDecl cs!"value" 2 false 11 cs!".google.protobuf.Any" cs!"value"]]

def publishedC : List (Str × List (Str × Str × Nat)) :=
  [(cs!"Ticket", [(cs!"id", cs!"string", 1), (cs!"expiration_time", cs!"Timestamp", 2), (cs!"attributes", cs!"FilterableData", 3),
     (cs!"extensions", cs!"map<string, Any>", 4)]),
   (cs!"FilterableData", [(cs!"tags", cs!"repeated string", 1), (cs!"string_args", cs!"map<string, string>", 2),
     (cs!"double_args", cs!"map<string, double>", 3), (cs!"creation_time", cs!"Timestamp", 4)]),
   (cs!"Assignment", [(cs!"connection", cs!"string", 1), (cs!"extensions", cs!"map<string, Any>", 2)]),
   (cs!"Pool", [(cs!"name", cs!"string", 1), (cs!"tag_present_filters", cs!"repeated TagPresentFilter", 2),
     (cs!"string_equals_filters", cs!"repeated StringEqualsFilter", 3),
     (cs!"double_range_filters", cs!"repeated DoubleRangeFilter", 4),
     (cs!"creation_time_range_filter", cs!"CreationTimeRangeFilter", 5), (cs!"participants", cs!"Roster", 6),
     (cs!"extensions", cs!"map<string, Any>", 7)]),
   (cs!"TagPresentFilter", [(cs!"tag", cs!"string", 1)]),
   (cs!"StringEqualsFilter", [(cs!"string_arg", cs!"string", 1), (cs!"value", cs!"string", 2)]),
   (cs!"DoubleRangeFilter", [(cs!"double_arg", cs!"string", 1), (cs!"minimum", cs!"double", 2), (cs!"maximum", cs!"double", 3),
     (cs!"bounds", cs!"FilterBounds", 4)]),
   (cs!"CreationTimeRangeFilter", [(cs!"start", cs!"Timestamp", 6), (cs!"end", cs!"Timestamp", 7), (cs!"bounds", cs!"FilterBounds", 4)]),
   (cs!"Profile", [(cs!"name", cs!"string", 1), (cs!"pools", cs!"map<string, Pool>", 2), (cs!"extensions", cs!"map<string, Any>", 3)]),
   (cs!"Match", [(cs!"id", cs!"string", 1), (cs!"rosters", cs!"map<string, Roster>", 2), (cs!"extensions", cs!"map<string, Any>", 3)]),
   (cs!"Roster", [(cs!"name", cs!"string", 1), (cs!"assignment", cs!"Assignment", 2), (cs!"tickets", cs!"repeated Ticket", 3),
     (cs!"extensions", cs!"map<string, Any>", 4)]),
   (cs!"MatchmakingFunctionSpec", [(cs!"name", cs!"string", 1), (cs!"host", cs!"string", 2), (cs!"port", cs!"int32", 3), (cs!"type", cs!"Type", 4)]),
   (cs!"ChunkedMmfRunRequest", [(cs!"profile", cs!"Profile", 1), (cs!"num_chunks", cs!"int32", 2)]),
   (cs!"CreateTicketRequest", [(cs!"ticket", cs!"Ticket", 1)]),
   (cs!"CreateTicketResponse", [(cs!"ticket_id", cs!"string", 1)]),
   (cs!"DeactivateTicketsRequest", [(cs!"ticket_ids", cs!"repeated string", 1)]),
   (cs!"DeactivateTicketsResponse", []),
   (cs!"ActivateTicketsRequest", [(cs!"ticket_ids", cs!"repeated string", 1)]),
   (cs!"ActivateTicketsResponse", []),
   (cs!"MmfRequest", [(cs!"profile", cs!"Profile", 1), (cs!"mmfs", cs!"repeated MatchmakingFunctionSpec", 2)]),
   (cs!"StreamedMmfResponse", [(cs!"match", cs!"Match", 1)]),
   (cs!"CreateAssignmentsRequest", [(cs!"assignment_roster", cs!"Roster", 1)]),
   (cs!"CreateAssignmentsResponse", []),
   (cs!"WatchAssignmentsRequest", [(cs!"ticket_ids", cs!"repeated string", 1)]),
   (cs!"StreamedWatchAssignmentsResponse", [(cs!"assignment", cs!"Assignment", 1), (cs!"id", cs!"string", 2)])]

def structsC : List (Str × List (Str × Str × Nat)) :=
  [
   (cs!"Ticket", [
     (cs!"Id", cs!"string", 1), (cs!"ExpirationTime", cs!"*timestamppb.Timestamp", 2), (cs!"Attributes", cs!"*Ticket_FilterableData", 3),
     (cs!"Extensions", cs!"map[string]*anypb.Any", 4)]),
   (cs!"Assignment", [(cs!"Connection", cs!"string", 1), (cs!"Extensions", cs!"map[string]*anypb.Any", 2)]),
   (cs!"Pool", [
     (cs!"Name", cs!"string", 1), (cs!"TagPresentFilters", cs!"[]*Pool_TagPresentFilter", 2),
     (cs!"StringEqualsFilters", cs!"[]*Pool_StringEqualsFilter", 3), (cs!"DoubleRangeFilters", cs!"[]*Pool_DoubleRangeFilter", 4),
     (cs!"CreationTimeRangeFilter", cs!"*Pool_CreationTimeRangeFilter", 5), (cs!"Participants", cs!"*Roster", 6),
     (cs!"Extensions", cs!"map[string]*anypb.Any", 7)]),
   (cs!"Profile", [(cs!"Name", cs!"string", 1), (cs!"Pools", cs!"map[string]*Pool", 2), (cs!"Extensions", cs!"map[string]*anypb.Any", 3)]),
   (cs!"Match", [(cs!"Id", cs!"string", 1), (cs!"Rosters", cs!"map[string]*Roster", 2), (cs!"Extensions", cs!"map[string]*anypb.Any", 3)]),
   (cs!"Roster", [
     (cs!"Name", cs!"string", 1), (cs!"Assignment", cs!"*Assignment", 2), (cs!"Tickets", cs!"[]*Ticket", 3),
     (cs!"Extensions", cs!"map[string]*anypb.Any", 4)]),
   (cs!"MatchmakingFunctionSpec", [
     (cs!"Name", cs!"string", 1), (cs!"Host", cs!"string", 2), (cs!"Port", cs!"int32", 3), (cs!"Type", cs!"MatchmakingFunctionSpec_Type", 4)]),
   (cs!"ChunkedMmfRunRequest", [(cs!"Profile", cs!"*Profile", 1), (cs!"NumChunks", cs!"int32", 2)]),
   (cs!"CreateTicketRequest", [(cs!"Ticket", cs!"*Ticket", 1)]),
   (cs!"CreateTicketResponse", [(cs!"TicketId", cs!"string", 1)]),
   (cs!"DeactivateTicketsRequest", [(cs!"TicketIds", cs!"[]string", 1)]),
   (cs!"DeactivateTicketsResponse", []),
   (cs!"ActivateTicketsRequest", [(cs!"TicketIds", cs!"[]string", 1)]),
   (cs!"ActivateTicketsResponse", []),
   (cs!"MmfRequest", [(cs!"Profile", cs!"*Profile", 1), (cs!"Mmfs", cs!"[]*MatchmakingFunctionSpec", 2)]),
   (cs!"StreamedMmfResponse", [(cs!"Match", cs!"*Match", 1)]),
   (cs!"CreateAssignmentsRequest", [(cs!"AssignmentRoster", cs!"*Roster", 1)]),
   (cs!"CreateAssignmentsResponse", []),
   (cs!"WatchAssignmentsRequest", [(cs!"TicketIds", cs!"[]string", 1)]),
   (cs!"StreamedWatchAssignmentsResponse", [(cs!"Assignment", cs!"*Assignment", 1), (cs!"Id", cs!"string", 2)]),
   (cs!"Ticket_FilterableData", [
     (cs!"Tags", cs!"[]string", 1), (cs!"StringArgs", cs!"map[string]string", 2), (cs!"DoubleArgs", cs!"map[string]float64", 3),
     (cs!"CreationTime", cs!"*timestamppb.Timestamp", 4)]),
   (cs!"Pool_TagPresentFilter", [(cs!"Tag", cs!"string", 1)]),
   (cs!"Pool_StringEqualsFilter", [(cs!"StringArg", cs!"string", 1), (cs!"Value", cs!"string", 2)]),
   (cs!"Pool_DoubleRangeFilter", [
     (cs!"DoubleArg", cs!"string", 1), (cs!"Minimum", cs!"float64", 2), (cs!"Maximum", cs!"float64", 3), (cs!"Bounds", cs!"Pool_FilterBounds", 4)]),
   (cs!"Pool_CreationTimeRangeFilter", [
     (cs!"Start", cs!"*timestamppb.Timestamp", 6), (cs!"End", cs!"*timestamppb.Timestamp", 7), (cs!"Bounds", cs!"Pool_FilterBounds", 4)])]

def goTypesC : List Str :=
  [
   cs!"open_match.v2.Pool.FilterBounds", cs!"open_match.v2.MatchmakingFunctionSpec.Type", cs!"open_match.v2.Ticket",
   cs!"open_match.v2.Assignment", cs!"open_match.v2.Pool", cs!"open_match.v2.Profile", cs!"open_match.v2.Match", cs!"open_match.v2.Roster",
   cs!"open_match.v2.MatchmakingFunctionSpec", cs!"open_match.v2.ChunkedMmfRunRequest", cs!"open_match.v2.CreateTicketRequest",
   cs!"open_match.v2.CreateTicketResponse", cs!"open_match.v2.DeactivateTicketsRequest", cs!"open_match.v2.DeactivateTicketsResponse",
   cs!"open_match.v2.ActivateTicketsRequest", cs!"open_match.v2.ActivateTicketsResponse", cs!"open_match.v2.MmfRequest",
   cs!"open_match.v2.StreamedMmfResponse", cs!"open_match.v2.CreateAssignmentsRequest", cs!"open_match.v2.CreateAssignmentsResponse",
   cs!"open_match.v2.WatchAssignmentsRequest", cs!"open_match.v2.StreamedWatchAssignmentsResponse",
   cs!"open_match.v2.Ticket.FilterableData", cs!"open_match.v2.Ticket.ExtensionsEntry",
   cs!"open_match.v2.Ticket.FilterableData.StringArgsEntry", cs!"open_match.v2.Ticket.FilterableData.DoubleArgsEntry",
   cs!"open_match.v2.Assignment.ExtensionsEntry", cs!"open_match.v2.Pool.TagPresentFilter", cs!"open_match.v2.Pool.StringEqualsFilter",
   cs!"open_match.v2.Pool.DoubleRangeFilter", cs!"open_match.v2.Pool.CreationTimeRangeFilter", cs!"open_match.v2.Pool.ExtensionsEntry",
   cs!"open_match.v2.Profile.PoolsEntry", cs!"open_match.v2.Profile.ExtensionsEntry", cs!"open_match.v2.Match.RostersEntry",
   cs!"open_match.v2.Match.ExtensionsEntry", cs!"open_match.v2.Roster.ExtensionsEntry", cs!"google.protobuf.Timestamp",
   cs!"google.protobuf.Any"]

set_option maxRecDepth 100000 in
theorem messages_eq : messages rawMessages = decls := by decide +kernel

theorem published_eq : chars (published.drop 2) = publishedC := by
  simp only [chars, published, List.drop, List.map, toListLit, publishedC]

theorem structs_eq : chars structs = structsC := by
  simp only [chars, structs, List.map, toListLit, structsC]

theorem goTypes_eq : goTypes.map String.toList = goTypesC := by
  simp only [goTypes, List.map, toListLit, goTypesC]

def tableC : List (List (Nat × Kind)) :=
  [[],
   [],
   [(1, .text), (2, .message 37), (3, .message 22), (4, .message 23)],
   [(1, .text), (2, .message 26)],
   [(1, .text), (2, .message 27), (3, .message 28), (4, .message 29), (5, .message 30), (6, .message 7), (7, .message 31)],
   [(1, .text), (2, .message 32), (3, .message 33)],
   [(1, .text), (2, .message 34), (3, .message 35)],
   [(1, .text), (2, .message 3), (3, .message 2), (4, .message 36)],
   [(1, .text), (2, .text), (3, .other), (4, .other)],
   [(1, .message 5), (2, .other)],
   [(1, .message 2)],
   [(1, .text)],
   [(1, .text)],
   [],
   [(1, .text)],
   [],
   [(1, .message 5), (2, .message 8)],
   [(1, .message 6)],
   [(1, .message 7)],
   [],
   [(1, .text)],
   [(1, .message 3), (2, .text)],
   [(1, .text), (2, .message 24), (3, .message 25), (4, .message 37)],
   [(1, .text), (2, .message 38)],
   [(1, .text), (2, .text)],
   [(1, .text), (2, .other)],
   [(1, .text), (2, .message 38)],
   [(1, .text)],
   [(1, .text), (2, .text)],
   [(1, .text), (2, .other), (3, .other), (4, .other)],
   [(6, .message 37), (7, .message 37), (4, .other)],
   [(1, .text), (2, .message 38)],
   [(1, .text), (2, .message 4)],
   [(1, .text), (2, .message 38)],
   [(1, .text), (2, .message 7)],
   [(1, .text), (2, .message 38)],
   [(1, .text), (2, .message 38)],
   [(1, .other), (2, .other)],
   [(1, .text), (2, .other)]]

set_option maxRecDepth 100000 in
theorem written_eq : (written decls).Perm publishedC := by
  simp only [written, writtenType, protoType, toListLit]
  decide +kernel

set_option maxRecDepth 100000 in
theorem goStructs_eq : (decls.filter fun m => !m.mapEntry).map (goStruct decls) = structsC := by
  unfold goStruct goType goValue goName
  simp only [toListLit]
  decide +kernel

theorem table_eq : table = tableC := by
  unfold table
  rw [messages_eq]
  decide +kernel

theorem table_length : table.length = 39 := by rw [table_eq]; rfl

/-! ## Reading -/

/-- The messages within the `i`-th type are at most `k` deep. -/
def deep (T : List (List (Nat × Kind))) : Nat → Nat → Bool
  | 0, _ => false
  | k + 1, i => (T.getD i []).all fun p => match p.2 with | .message j => deep T k j | _ => true

theorem mem_coder {T : List (List (Nat × Kind))} {k i : Nat} {q : Nat × (Str → Bool)} :
    q ∈ coder T (k + 1) i ↔ ((q.1, Kind.text) ∈ T.getD i [] ∧ q.2 = utf8Valid) ∨
      ∃ j, (q.1, Kind.message j) ∈ T.getD i [] ∧ q.2 = wellFormed (coder T k j) := by
  rw [coder, List.mem_filterMap]
  constructor
  · rintro ⟨⟨n, t⟩, hp, h⟩
    cases t with
    | text => cases h; exact .inl ⟨hp, rfl⟩
    | message j => cases h; exact .inr ⟨j, hp, rfl⟩
    | other => cases h
  · rintro (⟨hp, h⟩ | ⟨j, hp, h⟩)
    · exact ⟨_, hp, by simp [← h]⟩
    · exact ⟨_, hp, by simp [← h]⟩

theorem canRead_iff {T : List (List (Nat × Kind))} : ∀ {k i : Nat}, deep T k i = true → ∀ {b : Str}, IsBytes b →
    (wellFormed (coder T k i) b = true ↔ CanRead T i b)
  | 0, _, h, _, _ => by cases h
  | k + 1, i, h, b, hb => by
    rw [deep, List.all_eq_true] at h
    constructor
    · intro hw
      obtain ⟨hm, hl, hq⟩ := Wire.wellFormed_get hb hw
      refine .mk hm (fun n s hn hs => ?_) (fun n j s hn hs => ?_)
      · exact (Wire.utf8Valid_iff s).1 (hq (n, utf8Valid) (mem_coder.2 (.inl ⟨hn, rfl⟩)) s (Wire.mem_lens.2 hs))
      · exact (canRead_iff (h _ hn) (hl n s (Wire.mem_lens.2 hs))).1
          (hq (n, _) (mem_coder.2 (.inr ⟨j, hn, rfl⟩)) s (Wire.mem_lens.2 hs))
    · rintro ⟨hm, ht, hr⟩
      rw [Wire.wellFormed_of hm]
      intro q hq s hs
      rcases mem_coder.1 hq with ⟨hn, e⟩ | ⟨j, hn, e⟩
      · rw [e]; exact (Wire.utf8Valid_iff s).2 (ht _ _ hn (Wire.mem_lens.1 hs))
      · rw [e]
        exact (canRead_iff (h _ hn) (Wire.messageBytes_content hm hb _ (Wire.mem_lens.1 hs) s rfl)).2 (hr _ _ _ hn (Wire.mem_lens.1 hs))

theorem deep_table : ∀ i, deep table 39 i = true := by
  intro i
  rw [table_eq]
  by_cases h : i < 39
  · have : ∀ i < 39, deep tableC 39 i = true := by decide +kernel
    exact this i h
  · rw [deep, List.getD_eq_getElem?_getD, List.getElem?_eq_none (by show 39 ≤ i; omega)]
    rfl

/-- A value that is no string and no message is not looked at. -/
theorem doubleEntry_eq : wellFormed (Wire.entryC fun _ => true) = wellFormed [(1, utf8Valid)] := by
  funext b
  unfold wellFormed
  cases Wire.fields b with
  | none => rfl
  | some fs =>
    rw [Bool.eq_iff_iff, Wire.readable_iff, Wire.readable_iff]
    simp [Wire.entryC]

/-! ## Paths -/

theorem cutLast_none {s : Str} : cutLast s = none ↔ '/' ∉ s := by
  induction s with
  | nil => simp [cutLast]
  | cons c s ih =>
    rw [cutLast]
    cases hc : cutLast s with
    | some p =>
      have : '/' ∈ s := by
        by_contra hn
        rw [ih.2 hn] at hc; cases hc
      simp [this]
    | none =>
      have := ih.1 hc
      by_cases e : c = '/'
      · simp [e]
      · simp [e, this, Ne.symm e]

theorem cutLast_some {s a m : Str} : cutLast s = some (a, m) ↔ s = a ++ '/' :: m ∧ '/' ∉ m := by
  induction s generalizing a m with
  | nil => simp [cutLast]
  | cons c s ih =>
    rw [cutLast]
    cases hc : cutLast s with
    | some p =>
      obtain ⟨a', m'⟩ := p
      constructor
      · intro h
        cases h
        have := ih.1 hc
        exact ⟨by rw [this.1]; rfl, this.2⟩
      · rintro ⟨e, hm⟩
        cases a with
        | nil =>
          cases e
          have := ih.1 hc
          exact absurd (by rw [this.1]; simp) hm
        | cons d a =>
          cases e
          have h2 := ih.2 ⟨rfl, hm⟩
          rw [hc] at h2
          cases h2; rfl
    | none =>
      have hn := cutLast_none.1 hc
      constructor
      · intro h
        by_cases e : c = '/'
        · rw [if_pos e] at h; cases h; exact ⟨by rw [e]; rfl, hn⟩
        · rw [if_neg e] at h; cases h
      · rintro ⟨e, hm⟩
        cases a with
        | nil => cases e; rfl
        | cons d a => cases e; simp at hn

end OM.Desc
