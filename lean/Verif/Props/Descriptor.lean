import Verif.Lemmas.Descriptor
/-!
# C149: the generated code declares what the published files declare
-/
namespace OM.Props
open OM.Desc OM.Spec OM.Wire

/-- **C149.**  The messages and fields that the embedded descriptor declares are those of messages.proto: names, types, numbers. -/
theorem C149_declarations : (written (messages rawMessages)).Perm (chars (published.drop 2)) := by
  rw [messages_eq, published_eq]
  exact written_eq

/-- So for each message: the descriptor declares a field exactly if the file does. -/
theorem C149_declared (m f ty : Str) (n : Nat) :
    (∃ d ∈ written (messages rawMessages), d.1 = m ∧ (f, ty, n) ∈ d.2) ↔
      ∃ d ∈ chars (published.drop 2), d.1 = m ∧ (f, ty, n) ∈ d.2 :=
  ⟨fun ⟨d, h, e⟩ => ⟨d, C149_declarations.mem_iff.1 h, e⟩, fun ⟨d, h, e⟩ => ⟨d, C149_declarations.mem_iff.2 h, e⟩⟩

example : ("Pool".toList, [("name".toList, "string".toList, 1)]) ∉ chars (published.drop 2) ∧
    ∃ d ∈ chars (published.drop 2), d.1 = "Pool".toList ∧
      ("creation_time_range_filter".toList, "CreationTimeRangeFilter".toList, 5) ∈ d.2 := by
  rw [published_eq]
  simp only [toListLit]
  decide +kernel

/-- **C149.**  In JSON every field has the camel-case form of its name. -/
theorem C149_json_names : ∀ m ∈ messages rawMessages, ∀ f ∈ m.fields, f.json = camel f.name := by
  rw [messages_eq]
  decide +kernel

example : ∃ m ∈ messages rawMessages, ∃ f ∈ m.fields, f.json ≠ f.name := by
  rw [messages_eq]
  decide +kernel

set_option maxRecDepth 100000 in
/-- **C149.**  The file is proto3 of the package open_match.v2, and no field is a member of a oneof, optional or has a default value or
options: nothing but name, number, label, type and JSON name is given.  All of it can be read. -/
theorem C149_plain : getStr 2 (parse rawMessages) = cs! "open_match.v2" ∧ getStr 12 (parse rawMessages) = cs! "proto3" ∧
    (fields rawMessages).isSome ∧ ∀ m ∈ nodes rawMessages, (∀ s ∈ lens 2 m.2, (fields s).isSome ∧ ∀ p ∈ parse s, p.1 ∈ [1, 3, 4, 5, 6, 10]) ∧
      ∀ p ∈ m.2, p.1 ∈ [1, 2, 3, 4, 7] := by
  decide +kernel

set_option maxRecDepth 100000 in
theorem enums_eq : enums rawMessages =
    [(cs! "open_match.v2.Pool.FilterBounds",
      [(cs! "EXCLUDE_NONE", 0), (cs! "INCLUDE_BOTH", 0), (cs! "EXCLUDE_MIN", 1), (cs! "EXCLUDE_START", 1), (cs! "INCLUDE_MAX_ONLY", 1),
       (cs! "EXCLUDE_MAX", 2), (cs! "EXCLUDE_END", 2), (cs! "INCLUDE_MIN_ONLY", 2), (cs! "EXCLUDE_BOTH", 3), (cs! "INCLUDE_NONE", 3)]),
     (cs! "open_match.v2.MatchmakingFunctionSpec.Type", [(cs! "REST", 0), (cs! "GRPC", 1)])] := by
  decide +kernel

/-- **C149.**  The enums have the published names and numbers. -/
theorem C149_enums : (enums rawMessages).map (fun e => (shortName e.1, e.2.map fun v => (v.1, (v.2 : Int)))) =
    ["FilterBounds", "Type"].map fun e => (e.toList, (enumNames e).map fun v => (v.1.toList, v.2)) := by
  rw [enums_eq]
  simp only [List.map, enumNames, toListLit]
  decide +kernel

/-- **C149.**  The tables that resolve the types of fields resolve each to the type that the descriptor names, and list the descriptor's
types. -/
theorem C149_types :
    (((messages rawMessages).flatMap (·.fields)).filter fun f => f.type = 11 ∨ f.type = 14).map (·.typeName) =
      depIdxs.map (fun i => '.' :: (goTypes.map String.toList).getD i []) ∧
    goTypes.map String.toList = (enums rawMessages).map (·.1) ++ (messages rawMessages).map (·.name) ++
      ["google.protobuf.Timestamp", "google.protobuf.Any"].map String.toList := by
  rw [messages_eq, goTypes_eq, enums_eq]
  simp only [List.map, toListLit]
  decide +kernel

/-- **C149.**  Every message has a Go struct with a field for each declared one, of the corresponding Go name and type, tagged with its
number. -/
theorem C149_structs : ((messages rawMessages).filter fun m => !m.mapEntry).map (goStruct (messages rawMessages)) = chars structs := by
  rw [messages_eq, structs_eq]
  exact goStructs_eq

/-! ## What can be read -/

/-- **C149.**  Whatever the bytes and the type: the generated code reads them exactly if they are a message of that type. -/
theorem C149_reads (i : Nat) (b : Str) (hb : IsBytes b) : canUnmarshal i b = true ↔ CanRead table i b := by
  unfold canUnmarshal
  rw [table_length]
  exact canRead_iff (deep_table i) hb

/-- A type's place in the tables. -/
def typeIdx (name : String) : Nat := (goTypes.map String.toList).idxOf ("open_match.v2.".toList ++ name.toList)

/-- The contents of messages that reading requests and responses is stated with (C107). -/
def readers : List (String × Content) :=
  [("Ticket", ticketC), ("Ticket.FilterableData", dataC), ("Assignment", assignmentC), ("Roster", rosterC), ("Pool.TagPresentFilter", tagFilterC),
   ("Pool.StringEqualsFilter", strFilterC), ("Pool.DoubleRangeFilter", dblFilterC), ("Pool.CreationTimeRangeFilter", ctFilterC),
   ("Pool", poolC), ("Profile", profileC), ("Match", matchC), ("MatchmakingFunctionSpec", specC), ("CreateTicketRequest", createTicketC),
   ("CreateTicketResponse", createdC), ("ActivateTicketsRequest", idsC), ("DeactivateTicketsRequest", idsC), ("WatchAssignmentsRequest", idsC),
   ("MmfRequest", mmfRequestC), ("CreateAssignmentsRequest", createAssignmentsC), ("StreamedWatchAssignmentsResponse", watchC),
   ("StreamedMmfResponse", responseC), ("ChunkedMmfRunRequest", chunkC)]

theorem typeIdx_readers : readers.map (fun r => typeIdx r.1) =
    [2, 22, 3, 7, 27, 28, 29, 30, 4, 5, 6, 8, 10, 11, 14, 12, 20, 16, 18, 21, 17, 9] := by
  unfold typeIdx
  rw [goTypes_eq]
  simp only [readers, List.map, toListLit]
  decide +kernel

theorem coders_eq : [2, 22, 3, 7, 27, 28, 29, 30, 4, 5, 6, 8, 10, 11, 14, 12, 20, 16, 18, 21, 17, 9].map
    (fun i => wellFormed (coder tableC 39 i)) = readers.map fun r => wellFormed r.2 := by
  simp only [readers, List.map, dataC, ticketC, rosterC, poolC, profileC, matchC, createTicketC, mmfRequestC, createAssignmentsC, responseC, chunkC,
    doubleEntry_eq]
  rfl

/-- **C149.**  Requests, responses and what is in them are read by the types that the descriptor gives: whatever the bytes, the generated
code reads them exactly if C107's reader does. -/
theorem C149_readers (r : String × Content) (hr : r ∈ readers) (b : Str) : canUnmarshal (typeIdx r.1) b = wellFormed r.2 b := by
  have e : readers.map (fun r => wellFormed (coder tableC 39 (typeIdx r.1))) = readers.map fun r => wellFormed r.2 := by
    rw [← coders_eq, ← typeIdx_readers, List.map_map]; rfl
  unfold canUnmarshal
  rw [table_length, table_eq]
  have := List.map_inj_left.1 e r hr
  exact congrFun this b

/-- So a ticket is accepted exactly if it is a message of the type that the descriptor declares. -/
theorem C149_ticket (b : Str) (hb : IsBytes b) : (receive createTicketC toCreateTicket b).isSome ↔ CanRead table (typeIdx "CreateTicketRequest") b := by
  rw [← C149_reads _ _ hb, C149_readers ("CreateTicketRequest", createTicketC) (by simp [readers]), receive]
  split <;> simp_all

/-- The empty message can be read; a ticket whose id is no text cannot. -/
example : canUnmarshal 10 [] = true ∧ canUnmarshal 10 ([10, 3, 10, 1, 97].map byte) = true ∧
    canUnmarshal 10 ([10, 3, 10, 1, 255].map byte) = false := by
  unfold canUnmarshal
  rw [table_length, table_eq]
  decide +kernel

end OM.Props
