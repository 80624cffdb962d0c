import Verif.Lemmas.Receive
/-!
# Property C107: the API speaks the published message formats

`Spec/Schema.lean` says which bytes encode which message under proto/v2/messages.proto.
-/
namespace OM.Props
open OM.Spec OM.Wire

/-- **C107 (the published formats).** No message declares a number or a name twice, so that
`Declared` determines the number. -/
theorem C107_unambiguous : (published.map (·.1)).Nodup ∧
    ∀ d ∈ published, (d.2.map (·.1)).Nodup ∧ (d.2.map (·.2.2)).Nodup ∧ ∀ e ∈ d.2, 1 ≤ e.2.2 ∧ e.2.2 < 2 ^ 29 := by
  decide +kernel

/-! ## Which messages are refused -/

theorem opt_iff {α : Type} {go : α → Prop} {ok : α → Bool} {texts : α → List Str}
    (h : ∀ {v}, go v → (ok v = true ↔ ∀ s ∈ texts v, IsText s)) {o : Option α} (ho : OptGo go o) :
    o.all ok = true ↔ ∀ s ∈ optTexts texts o, IsText s := by
  cases o with
  | none => simp [optTexts]
  | some v => simpa [optTexts] using h (ho v rfl)

theorem idsOk_iff {ids : List Str} : idsOk ids = true ↔ ∀ s ∈ ids, IsText s := by
  simp only [idsOk, List.all_eq_true, utf8Valid_iff]

theorem specs_iff {l : List Serve.MmfSpec} (h : ∀ s ∈ l, GoSpec s) :
    l.all specOk = true ↔ ∀ s ∈ l.flatMap specTexts, IsText s := by
  simp only [List.all_eq_true, specOk, Bool.and_eq_true, utf8Valid_iff, int32Ok, decide_eq_true_eq, List.mem_flatMap, specTexts]
  constructor
  · rintro h' s ⟨x, hx, hs⟩
    simp only [List.mem_cons, List.not_mem_nil, or_false] at hs
    rcases hs with rfl | rfl
    · exact (h' x hx).1.1.1
    · exact (h' x hx).1.1.2
  · exact fun h' x hx => ⟨⟨⟨h' _ ⟨x, hx, by simp⟩, h' _ ⟨x, hx, by simp⟩⟩, (h x hx).1⟩, (h x hx).2⟩

theorem mmfRequestOk_iff {p : Option Profile} {mmfs : List Serve.MmfSpec} (hp : OptGo GoProfile p) (hm : ∀ s ∈ mmfs, GoSpec s) :
    mmfRequestOk (p, mmfs) = true ↔ ∀ s ∈ optTexts profileTexts p ++ mmfs.flatMap specTexts, IsText s := by
  simp only [mmfRequestOk, Bool.and_eq_true, specs_iff hm, opt_iff profileOk_iff hp, List.forall_mem_append]

theorem watchOk_iff {a : Option Assignment} {id : Str} (ha : OptGo (fun a => GoExtensions a.extensions) a) :
    watchOk (a, id) = true ↔ ∀ s ∈ optTexts assignmentTexts a ++ [id], IsText s := by
  simp only [watchOk, Bool.and_eq_true, utf8Valid_iff, List.forall_mem_append, List.forall_mem_singleton,
    opt_iff assignmentOk_iff ha]

theorem chunkOk_iff {c : ChunkedMmfRunRequest} (hp : OptGo GoProfile c.profile) (hn : GoInt32 c.numChunks) :
    chunkOk c = true ↔ ∀ s ∈ optTexts profileTexts c.profile, IsText s := by
  have : int32Ok c.numChunks = true := decide_eq_true (show -2 ^ 31 ≤ c.numChunks ∧ c.numChunks < 2 ^ 31 from hn)
  rw [chunkOk, this, Bool.and_true, opt_iff profileOk_iff hp]

theorem matchOk_iff {m : Match} (hm : GoMatch m) : matchOk m = true ↔ ∀ s ∈ matchTexts m, IsText s := by
  rw [← C93_matches_of_text m hm]
  unfold encResponse
  by_cases h : matchOk m = true <;> simp [h]

theorem writes_of {α : Type} {enc : α → List Field} {ok : α → Bool} {v : α} {R : Str → Prop} {texts : List Str}
    (hr : Small (ser (enc v)) → R (ser (enc v))) (hok : ok v = true ↔ ∀ s ∈ texts, IsText s) : Writes (marshal enc ok v) R texts :=
  ⟨fun h => ⟨_, if_pos (hok.2 h), hr⟩, fun ⟨s, hs, hn⟩ => if_neg fun h => hn (hok.1 h s hs)⟩

theorem writes_msg {α : Type} {enc : α → List Field} {ok : α → Bool} {v : α} {P : List Field → Prop} {texts : List Str}
    (hp : ∀ p ∈ enc v, Plain p) (h : Small (ser (enc v)) → P (enc v)) (hok : ok v = true ↔ ∀ s ∈ texts, IsText s) :
    Writes (marshal enc ok v) (fun b => ∃ fs, MessageBytes fs b ∧ P fs) texts :=
  writes_of (fun hs => ⟨_, messageBytes_ser _ hp hs, h hs⟩) hok

/-- **C107 (requests).** Whatever bytes encode a request, whoever wrote them, om-core reads that
request from them; it refuses them exactly if some string in the request is not text; and it
refuses all bytes that encode no request. -/
theorem C107_requests_understood :
    Understands (receive createTicketC toCreateTicket) IsCreateTicketRequest (OptGo GoSentTicket) (optTexts sentTexts) ∧
    (∀ m ∈ ["ActivateTicketsRequest", "DeactivateTicketsRequest", "WatchAssignmentsRequest"],
      Understands (receive idsC toIds) (IsIdsRequest m) (fun _ => True) id) ∧
    Understands (receive mmfRequestC toMmfRequest) (fun q => IsMmfRequest q.1 q.2) (fun q => OptGo GoProfile q.1 ∧ ∀ s ∈ q.2, GoSpec s)
      (fun q => optTexts profileTexts q.1 ++ q.2.flatMap specTexts) ∧
    Understands (receive createAssignmentsC toCreateAssignments) IsCreateAssignmentsRequest (OptGo GoRoster) (optTexts rosterTexts) := by
  refine ⟨?_, fun m hm => ?_, ?_, ?_⟩
  · exact understands createTicket_snd createTicket_cpl optV_iff createTicket_of
  · exact understands (ids_snd hm) (ids_cpl hm) (fun ids => by simp) (ids_of hm)
  · refine understands mmfRequest_snd mmfRequest_cpl (fun q => ?_) mmfRequest_of
    have h1 := optV_iff (go := GoProfile) (texts := profileTexts) q.1
    rw [List.forall_mem_append, list_texts]
    constructor
    · rintro ⟨a, c⟩
      exact ⟨⟨(h1.1 a).1, fun s hs => (c s hs).1⟩, (h1.1 a).2, fun s hs => (c s hs).2⟩
    · rintro ⟨⟨a, c⟩, d, e⟩
      exact ⟨h1.2 ⟨a, d⟩, fun s hs => ⟨c s hs, e s hs⟩⟩
  · exact understands createAssignments_snd createAssignments_cpl optV_iff createAssignments_of

/-- **C107 (answers).** A Go client reads from any encoding of an answer that answer, refuses it
exactly if some string in it is not text, and reads nothing else. -/
theorem C107_answers_understood :
    Understands (receive createdC toCreated) IsCreateTicketResponse (fun _ => True) (fun id => [id]) ∧
    Understands (receive watchC toWatch) (fun q => IsWatchResponse q.1 q.2)
      (fun q => OptGo (fun a : Assignment => GoExtensions a.extensions) q.1) (fun q => optTexts assignmentTexts q.1 ++ [q.2]) := by
  constructor
  · refine understands created_snd created_cpl (fun id => by simp) ?_
    rintro id b ⟨fs, hb, h1⟩ -
    rw [parse_of hb]
    exact getStr_of (has_at 1 h1 (by decide +kernel))
  · refine understands watch_snd watch_cpl (fun q => ?_) ?_
    · rw [List.forall_mem_append, List.forall_mem_singleton, ← and_assoc]
      exact and_congr (optV_iff (go := fun a : Assignment => GoExtensions a.extensions) q.1) Iff.rfl
    · rintro q b ⟨fs, hb, h1, h2⟩ ha
      rw [parse_of hb]
      unfold toWatch
      rw [getMsg_of assignment_of (has_at 1 h1 (by decide +kernel)) ha, getStr_of (has_at 2 h2 (by decide +kernel))]

/-- The last of the occurrences is the number `k`, however long it is. -/
def Ends (k : Nat) (o : List WVal) : Prop := ∃ l : List Nat, numbers o = l ++ [k]

/-- `v` is the number of so many bits that `k` is cut to, as protobuf's documentation says of numbers that do not fit. -/
def CutTo (bits k : Nat) (v : Int) : Prop := -2 ^ (bits - 1) ≤ v ∧ v < 2 ^ (bits - 1) ∧ ∃ j : Int, (k : Int) = v + j * 2 ^ bits

theorem getInt32_cut {n k : Nat} {fs : List Field} (h : Ends k (occ n fs)) : CutTo 32 k (getInt32 n fs) := by
  obtain ⟨l, h⟩ := h
  have e : getInt32 n fs = dec32 k := by
    unfold getInt32
    rw [ints_occ, h]
    simp
  rw [e]
  unfold dec32 CutTo
  have hd := Nat.div_add_mod k (2 ^ 32)
  have hl : k % 2 ^ 32 < 2 ^ 32 := Nat.mod_lt _ (by decide)
  split
  · exact ⟨by omega, by omega, ((k / 2 ^ 32 : Nat) : Int), by omega⟩
  · exact ⟨by omega, by omega, ((k / 2 ^ 32 : Nat) : Int) + 1, by omega⟩

theorem getInt64_cut {n k : Nat} {fs : List Field} (h : Ends k (occ n fs)) : CutTo 64 k (getInt64 n fs) := by
  obtain ⟨l, h⟩ := h
  have e : getInt64 n fs = dec64 k := by
    unfold getInt64
    rw [ints_occ, h]
    simp
  rw [e]
  unfold dec64 CutTo
  have hd := Nat.div_add_mod k (2 ^ 64)
  have hl : k % 2 ^ 64 < 2 ^ 64 := Nat.mod_lt _ (by decide)
  split
  · exact ⟨by omega, by omega, ((k / 2 ^ 64 : Nat) : Int), by omega⟩
  · exact ⟨by omega, by omega, ((k / 2 ^ 64 : Nat) : Int) + 1, by omega⟩

/-- **C107 (numbers that do not fit).** A number that a client in another language writes with other bits than the published type has
is read as protobuf says: cut to the bits of its type.  In particular a negative int32 written in five bytes is understood. -/
theorem C107_numbers_cut (b : Str) (fs : List Field) (hb : MessageBytes fs b) (k : Nat) :
    (Has "Timestamp" "seconds" "int64" fs (Ends k) → CutTo 64 k (toTimestamp (parse b)).seconds) ∧
    (Has "Timestamp" "nanos" "int32" fs (Ends k) → CutTo 32 k (toTimestamp (parse b)).nanos) ∧
    (Has "DoubleRangeFilter" "bounds" "FilterBounds" fs (Ends k) → CutTo 32 k (toDblFilter (parse b)).bounds) ∧
    (Has "CreationTimeRangeFilter" "bounds" "FilterBounds" fs (Ends k) → CutTo 32 k (toCtFilter (parse b)).bounds) ∧
    (Has "MatchmakingFunctionSpec" "port" "int32" fs (Ends k) → CutTo 32 k (toSpec (parse b)).port) ∧
    (Has "MatchmakingFunctionSpec" "type" "Type" fs (Ends k) → CutTo 32 k (toSpec (parse b)).type) ∧
    (Has "ChunkedMmfRunRequest" "num_chunks" "int32" fs (Ends k) → CutTo 32 k (decChunk b).numChunks) := by
  unfold decChunk
  rw [parse_of hb]
  refine ⟨fun h => ?_, fun h => ?_, fun h => ?_, fun h => ?_, fun h => ?_, fun h => ?_, fun h => ?_⟩
  · exact getInt64_cut (has_at 1 h (by decide +kernel))
  · exact getInt32_cut (has_at 2 h (by decide +kernel))
  · exact getInt32_cut (has_at 4 h (by decide +kernel))
  · exact getInt32_cut (has_at 4 h (by decide +kernel))
  · exact getInt32_cut (has_at 3 h (by decide +kernel))
  · exact getInt32_cut (has_at 4 h (by decide +kernel))
  · exact getInt32_cut (has_at 2 h (by decide +kernel))

/-- -1 in five bytes, and 5 with a bit that no int32 has. -/
example : CutTo 32 (2 ^ 32 - 1) (-1) ∧ CutTo 32 (2 ^ 40 + 5) 5 ∧ Ends 7 [.varint 3, .varint 7] :=
  ⟨⟨by decide, by decide, 1, by decide⟩, ⟨by decide, by decide, 2 ^ 8, by decide⟩, [3], rfl⟩

/-- **C107 (matches).** Whatever bytes an MMF in any language encodes a match in, om-core reads
that match from them; the MMFs of this repository read any encoding of a request chunk; both
refuse all other bytes. -/
theorem C107_functions_understood :
    Understands (receive responseC toResponse) IsMmfResponse (OptGo GoMatch) (optTexts matchTexts) ∧
    Understands (receive chunkC toChunkMsg) IsChunk (fun c => OptGo GoProfile c.profile ∧ GoInt32 c.numChunks)
      (fun c => optTexts profileTexts c.profile) ∧
    ∀ b, (∀ o, OptGo GoMatch o → IsMmfResponse o b → decResponse b = o) ∧
      ∀ c : ChunkedMmfRunRequest, OptGo GoProfile c.profile → GoInt32 c.numChunks → IsChunk c b → decChunk b = c := by
  have h1 : ∀ o b, IsMmfResponse o b → OptGo GoMatch o → toResponse (parse b) = o := by
    rintro o b ⟨fs, hb, h1⟩ hg
    rw [parse_of hb]
    exact getMsg_of match_of (has_at 1 h1 (by decide +kernel)) hg
  have h2 : ∀ (c : ChunkedMmfRunRequest) b, IsChunk c b → OptGo GoProfile c.profile ∧ GoInt32 c.numChunks → toChunkMsg (parse b) = c := by
    rintro c b ⟨fs, hb, h1, h2⟩ ⟨hp, hn⟩
    rw [parse_of hb]
    unfold toChunkMsg
    rw [getMsg_of profile_of (has_at 1 h1 (by decide +kernel)) hp, getInt32_of (has_at 2 h2 (by decide +kernel)) hn.1 hn.2]
  refine ⟨understands response_snd response_cpl optV_iff h1, understands chunk_snd chunk_cpl (fun c => ?_) h2,
    fun b => ⟨fun o hg h => h1 o b h hg, fun c hp hn h => h2 c b h ⟨hp, hn⟩⟩⟩
  have h := optV_iff (go := GoProfile) (texts := profileTexts) c.profile
  exact ⟨fun a => ⟨⟨(h.1 a.1).1, a.2⟩, (h.1 a.1).2⟩, fun a => ⟨h.2 ⟨a.1.1, a.2⟩, a.1.2⟩⟩

/-- **C107 (responses).** What om-core, the MMFs and the example write encodes the message under
the published formats; they refuse to write it exactly if some string in it is not text. -/
theorem C107_written_as_published :
    (∀ id, Writes (marshal createdF utf8Valid id) (IsCreateTicketResponse id) [id]) ∧
    (∀ o, OptGo GoMatch o → Writes (encResponse o) (IsMmfResponse o) (optTexts matchTexts o)) ∧
    (∀ a id, OptGo (fun a : Assignment => GoExtensions a.extensions) a →
      Writes (marshal watchF watchOk (a, id)) (IsWatchResponse a id) (optTexts assignmentTexts a ++ [id])) ∧
    (∀ c : ChunkedMmfRunRequest, OptGo GoProfile c.profile → GoInt32 c.numChunks →
      Writes (encChunk c) (IsChunk c) (optTexts profileTexts c.profile)) ∧
    (∀ t, OptGo GoSentTicket t →
      Writes (marshal createTicketF createTicketOk t) (IsCreateTicketRequest t) (optTexts sentTexts t)) ∧
    (∀ m ∈ ["ActivateTicketsRequest", "DeactivateTicketsRequest", "WatchAssignmentsRequest"], ∀ ids,
      Writes (marshal idsF idsOk ids) (IsIdsRequest m ids) ids) ∧
    (∀ p mmfs, OptGo GoProfile p → (∀ s ∈ mmfs, GoSpec s) →
      Writes (marshal mmfRequestF mmfRequestOk (p, mmfs)) (IsMmfRequest p mmfs) (optTexts profileTexts p ++ mmfs.flatMap specTexts)) ∧
    (∀ r, OptGo GoRoster r →
      Writes (marshal createAssignmentsF createAssignmentsOk r) (IsCreateAssignmentsRequest r) (optTexts rosterTexts r)) := by
  refine ⟨fun id => ?_, fun o hg => ?_, fun a id hg => ?_, fun c hp hn => ?_, fun t hg => ?_, fun m hm ids => ?_, fun p mmfs hp hm => ?_,
    fun r hg => ?_⟩
  · refine writes_msg (by plain createdF) (fun _ => ⟨1, by decide +kernel, text_ok ?_⟩) (by simp [utf8Valid_iff])
    occs createdF
  · refine writes_msg (enc := responseF) (ok := fun o => o.all matchOk) (by plain responseF)
      (fun h => ⟨1, by decide +kernel, msg_ok match_ok ?_ h⟩) (opt_iff matchOk_iff hg)
    occs responseF
  · refine writes_msg (by plain watchF)
      (fun h => ⟨⟨1, by decide +kernel, msg_ok assignment_ok ?_ h⟩, ⟨2, by decide +kernel, text_ok ?_⟩⟩) (watchOk_iff hg) <;> occs watchF
  · refine writes_msg (enc := chunkF) (ok := chunkOk) (by plain chunkF)
      (fun h => ⟨⟨1, by decide +kernel, msg_ok profile_ok ?_ h⟩, ⟨2, by decide +kernel, num_ok ?_⟩⟩) (chunkOk_iff hp hn) <;> occs chunkF
  · refine writes_msg (by plain createTicketF) (fun h => ⟨1, by decide +kernel, msg_ok ticket_ok ?_ h⟩) (opt_iff ticketOk_iff hg)
    occs createTicketF
  · refine writes_msg (by plain idsF) (fun _ => ?_) idsOk_iff
    simp only [List.mem_cons, List.not_mem_nil, or_false] at hm
    have h1 : occ 1 (idsF ids) = ids.map .len := by occs idsF
    have : TextsVal ids (occ 1 (idsF ids)) := by rw [h1]; exact contents_map _
    rcases hm with rfl | rfl | rfl <;> exact ⟨1, by decide +kernel, this⟩
  · refine writes_msg (by plain mmfRequestF)
      (fun h => ⟨⟨1, by decide +kernel, msg_ok profile_ok ?_ h⟩, ⟨2, by decide +kernel, msgs_ok spec_ok ?_ h⟩⟩) (mmfRequestOk_iff hp hm) <;>
      occs mmfRequestF
  · refine writes_msg (by plain createAssignmentsF) (fun h => ⟨1, by decide +kernel, msg_ok roster_ok ?_ h⟩) (opt_iff rosterOk_iff hg)
    occs createAssignmentsF

/-- **C107 (what is kept in Redis).** Tickets and assignments are stored in the published formats
too, and any encoding of one is read as that one. -/
theorem C107_stored_as_published :
    (∀ t, GoSentTicket t → Writes (codec.encT t) (IsTicket t) (sentTexts t)) ∧
    (∀ a : Assignment, GoExtensions a.extensions → Writes (codec.encA a) (IsAssignment a) (assignmentTexts a)) ∧
    (∀ t b, GoSentTicket t → IsTicket t b → codec.decT b = t) ∧
    (∀ (a : Assignment) b, GoExtensions a.extensions → IsAssignment a b → codec.decA b = a) :=
  ⟨fun t hg => writes_of (enc := ticketF) (ok := ticketOk) (fun hs => (ticket_ok t hs).2) (ticketOk_iff hg),
    fun a hg => writes_of (enc := assignmentF) (ok := assignmentOk) (fun hs => (assignment_ok a hs).2) (assignmentOk_iff hg),
    fun t b hg h => ticket_of t b h hg, fun a b hg h => assignment_of a b h hg⟩

/-- An ActivateTickets request as another encoder may write it: an undeclared field 9 first, a
tag in two bytes, ids with a length in one byte and in two. -/
def oddRequest : Str := [72, 5, 0x8a, 0, 1, 97, 10, 0x82, 0, 98, 99].map Char.ofNat

example : IsIdsRequest "ActivateTicketsRequest" ["a".toList, "bc".toList] oddRequest ∧
    idsOk ["a".toList, "bc".toList] = true ∧ receive idsC toIds oddRequest = some ["a".toList, "bc".toList] ∧
    marshal idsF idsOk ["a".toList, "bc".toList] = some ([10, 1, 97, 10, 2, 98, 99].map Char.ofNat) := by
  have f1 : FieldBytes (9, .varint 5) ([72, 5].map Char.ofNat) :=
    .varint (tag := ['H']) ⟨⟨.last (by decide), by decide, by decide⟩, by decide, by decide⟩ ⟨.last (by decide), by decide, by decide⟩
  have f2 : FieldBytes (1, .len ['a']) ([0x8a, 0, 1, 97].map Char.ofNat) :=
    .len (tag := [Char.ofNat 0x8a, Char.ofNat 0]) (l := [Char.ofNat 1])
      ⟨⟨.more (by decide) (.last (by decide)), by decide, by decide⟩, by decide, by decide⟩ ⟨.last (by decide), by decide, by decide⟩
  have f3 : FieldBytes (1, .len ['b', 'c']) ([10, 0x82, 0, 98, 99].map Char.ofNat) :=
    .len (tag := [Char.ofNat 10]) (l := [Char.ofNat 0x82, Char.ofNat 0]) ⟨⟨.last (by decide), by decide, by decide⟩, by decide, by decide⟩
      ⟨.more (by decide) (.last (by decide)), by decide, by decide⟩
  refine ⟨⟨_, .cons f1 (.cons f2 (.cons f3 .nil)), 1, by decide +kernel, rfl⟩, by decide +kernel, by decide +kernel, by decide +kernel⟩

/-- A CreateTicket request with the ticket in two pieces, an undeclared field of wire type 5 between them: the first gives
the id "a" and an expiration of 7 s, the second the id "b" and 5 ns. -/
def piecedRequest : Str := [10, 7, 10, 1, 97, 18, 2, 8, 7, 77, 1, 2, 3, 4, 10, 7, 10, 1, 98, 18, 2, 16, 5].map Char.ofNat

/-- A short field number `f` of wire type `ty`. -/
theorem tag1 {f ty : Nat} (h : 1 ≤ f ∧ 8 * f + ty < 128) : Tag [Char.ofNat (8 * f + ty)] f ty := by
  have e : (Char.ofNat (8 * f + ty)).toNat = 8 * f + ty := byte_toNat (n := 8 * f + ty) (by omega)
  refine ⟨⟨?_, by simp, by omega⟩, h.1, by omega⟩
  have := Varint.last (c := Char.ofNat (8 * f + ty)) (by omega)
  rwa [e] at this

theorem num1 {n : Nat} (h : n < 128) : Varint64 [Char.ofNat n] n := by
  have e : (Char.ofNat n).toNat = n := byte_toNat (n := n) (by omega)
  refine ⟨?_, by simp, by omega⟩
  have := Varint.last (c := Char.ofNat n) (by omega)
  rwa [e] at this

theorem len1 {f : Nat} {s : Str} (h : 1 ≤ f ∧ 8 * f + 2 < 128) (hs : s.length < 128) :
    FieldBytes (f, .len s) ([Char.ofNat (8 * f + 2)] ++ ([Char.ofNat s.length] ++ s)) := .len (tag1 h) (num1 hs)

example : IsCreateTicketRequest (some ⟨['b'], some ⟨7, 5⟩, none, []⟩) piecedRequest ∧
    receive createTicketC toCreateTicket piecedRequest = some (some ⟨['b'], some ⟨7, 5⟩, none, []⟩) := by
  let b (l : List Nat) : Str := l.map Char.ofNat
  have t1 : MessageBytes [(1, .varint 7)] (b [8, 7]) := .cons (.varint (tag1 (f := 1) (ty := 0) (by decide)) (num1 (by decide))) .nil
  have t2 : MessageBytes [(2, .varint 5)] (b [16, 5]) := .cons (.varint (tag1 (f := 2) (ty := 0) (by decide)) (num1 (by decide))) .nil
  have m1 : MessageBytes [(1, .len ['a']), (2, .len (b [8, 7]))] (b [10, 1, 97, 18, 2, 8, 7]) :=
    .cons (len1 (by decide) (by decide)) (.cons (len1 (by decide) (by decide)) .nil)
  have m2 : MessageBytes [(1, .len ['b']), (2, .len (b [16, 5]))] (b [10, 1, 98, 18, 2, 16, 5]) :=
    .cons (len1 (by decide) (by decide)) (.cons (len1 (by decide) (by decide)) .nil)
  have f5 : FieldBytes (9, .fixed32 0x04030201#32) (b [77, 1, 2, 3, 4]) :=
    .fixed32 (p := b [1, 2, 3, 4]) (tag1 (f := 9) (ty := 5) (by decide)) (by decide) (by decide)
  refine ⟨⟨_, .cons (len1 (f := 1) (s := b [10, 1, 97, 18, 2, 8, 7]) (by decide) (by decide)) (.cons f5
    (.cons (len1 (f := 1) (s := b [10, 1, 98, 18, 2, 16, 5]) (by decide) (by decide)) .nil)), 1, by decide +kernel,
    [b [10, 1, 97, 18, 2, 8, 7], b [10, 1, 98, 18, 2, 16, 5]], by simp, rfl, ?_, ?_⟩, by decide +kernel⟩
  · intro x hx
    simp only [List.mem_cons, List.not_mem_nil, or_false] at hx
    rcases hx with rfl | rfl
    · exact ⟨_, m1⟩
    · exact ⟨_, m2⟩
  · refine ⟨_, messageBytes_append m1 (messageBytes_append m2 .nil), ⟨1, by decide +kernel, .inl ⟨[['a']], rfl⟩, ?_⟩,
      ⟨2, by decide +kernel, [b [8, 7], b [16, 5]], by simp, rfl, ?_, ?_⟩, ⟨3, by decide +kernel, rfl⟩, ⟨4, by decide +kernel, [], .nil, .nil⟩⟩
    · intro x hx
      have hx : x ∈ [['a']] := hx
      rw [List.mem_singleton.1 hx]
      exact (utf8Valid_iff _).1 (by decide)
    · intro x hx
      simp only [List.mem_cons, List.not_mem_nil, or_false] at hx
      rcases hx with rfl | rfl
      · exact ⟨_, t1⟩
      · exact ⟨_, t2⟩
    · exact ⟨_, messageBytes_append t1 (messageBytes_append t2 .nil), ⟨1, by decide +kernel, 7, .inl ⟨[], rfl⟩, 0, by decide⟩,
        ⟨2, by decide +kernel, 5, .inl ⟨[], rfl⟩, 0, by decide⟩⟩

/-- Bytes by their numbers. -/
abbrev bytes (l : List Nat) : Str := l.map Char.ofNat

/-- A ticket whose string arguments give the key "k" the values "v" and, again, "w". -/
example : receive createTicketC toCreateTicket (bytes [10, 18, 26, 16, 18, 6, 10, 1, 107, 18, 1, 118, 18, 6, 10, 1, 107, 18, 1, 119]) =
    some (some ⟨[], none, some ⟨[], [(['k'], ['w'])], [], none⟩, []⟩) := by decide +kernel

/-- Refused: a length beyond the end, in the ticket and in its attributes. -/
example : receive createTicketC toCreateTicket (bytes [10, 3, 10, 5, 97]) = none ∧
    receive createTicketC toCreateTicket (bytes [10, 5, 26, 3, 10, 5, 97]) = none := by decide +kernel
/-- Refused: an id that is not text, although a second one replaces it; a number of eleven bytes in a field that is not declared;
field number 0; a group. -/
example : receive createTicketC toCreateTicket (bytes [10, 6, 10, 1, 255, 10, 1, 97]) = none ∧
    receive idsC toIds (bytes [72, 128, 128, 128, 128, 128, 128, 128, 128, 128, 128, 0]) = none ∧
    receive idsC toIds (bytes [0, 1]) = none ∧ receive idsC toIds (bytes [75, 76]) = none := by decide +kernel
/-- An id written as a number is not an id: field 1 of another wire type is unknown, and the request has no ids. -/
example : receive idsC toIds (bytes [8, 1]) = some [] ∧ IsIdsRequest "ActivateTicketsRequest" [] (bytes [8, 1]) :=
  ⟨by decide +kernel, _, .cons (.varint (tag1 (f := 1) (ty := 0) (by decide)) (num1 (by decide))) .nil, 1, by decide +kernel, rfl⟩

end OM.Props
