import Verif.Lemmas.Utf8
import Verif.Model.Messages
import Verif.Props.Handlers
/-! # C93: which texts a ticket or an assignment may contain -/
namespace OM.Props
open OM OM.Spec

theorem extensions_ok {m : GoMap AnyPb} (h : GoExtensions m) :
    Wire.mapOk m Wire.anyOk = true ↔ ∀ s ∈ extTexts m, IsText s := by
  simp only [Wire.mapOk, Wire.anyOk, Wire.bytesOk, Bool.and_eq_true, decide_eq_true_eq, List.all_eq_true, extTexts,
    List.mem_flatMap, Wire.utf8Valid_iff]
  constructor
  · rintro ⟨-, h'⟩ s ⟨e, he, hs⟩
    simp only [List.mem_cons, List.not_mem_nil, or_false] at hs
    rcases hs with rfl | rfl
    · exact (h' e he).1
    · exact (h' e he).2.1
  · exact fun h' => ⟨h.keys, fun e he => ⟨h' _ ⟨e, he, by simp⟩, h' _ ⟨e, he, by simp⟩, h.bytes e he⟩⟩

theorem data_ok {d : FilterableData} (h : GoData d) {c : Timestamp} (hc : Wire.tsOk c = true) :
    Wire.dataOk { d with creationTime := some c } = true ↔ ∀ s ∈ dataTexts d, IsText s := by
  simp only [Wire.dataOk, Wire.mapOk, Bool.and_eq_true, decide_eq_true_eq, List.all_eq_true, dataTexts,
    List.mem_append, List.mem_flatMap, List.mem_map, Wire.utf8Valid_iff, Option.all_some]
  constructor
  · rintro ⟨⟨⟨h1, -, h2⟩, -, h3⟩, -⟩ s ((hs | ⟨e, he, hs⟩) | ⟨e, he, rfl⟩)
    · exact h1 s hs
    · simp only [List.mem_cons, List.not_mem_nil, or_false] at hs
      rcases hs with rfl | rfl
      · exact (h2 e he).1
      · exact (h2 e he).2
    · exact (h3 e he).1
  · exact fun h' => ⟨⟨⟨fun s hs => h' s (.inl (.inl hs)), h.stringArgs,
      fun e he => ⟨h' _ (.inl (.inr ⟨e, he, by simp⟩)), h' _ (.inl (.inr ⟨e, he, by simp⟩))⟩⟩,
      h.doubleArgs, fun e he => ⟨h' _ (.inr ⟨e, he, rfl⟩), trivial⟩⟩, hc⟩

/-- **C93.** With the real wire format, CreateTicket refuses a ticket exactly when some
tag, argument name, string argument, extension name or type URL in it is not (the UTF-8
encoding of) a text; nothing else about a ticket can make it fail before the update is
queued.  (Hypothesis as for `C09_every_ticket_accepted`: the clock shows a legal date.) -/
theorem C93_tickets_of_text (cfg : Config) (now : Int) (t : Ticket) (ht : GoTicket t)
    (hnow : LegalTime (newTimestamp now)) :
    (∃ u, createTicketQueue Wire.codec cfg now (some t) = .ok u) ↔ ∀ s ∈ ticketTexts t, IsText s := by
  have hb : Wire.ticketOk (builtTicket cfg now t) = true ↔ ∀ s ∈ ticketTexts t, IsText s := by
    obtain ⟨hcr, hex⟩ := stored_times cfg now t hnow
    simp only [Wire.ticketOk, Bool.and_eq_true, ticketTexts, List.mem_append, or_imp, forall_and]
    rw [show (builtTicket cfg now t).extensions = t.extensions from rfl, extensions_ok ht.extensions]
    refine and_congr_left fun _ => ?_
    have hd := data_ok (d := t.attributes.getD ⟨[], [], [], none⟩) (c := storedCreation now t) (by
      cases ha : t.attributes with
      | none => exact ⟨by simp, by simp⟩
      | some d => exact ht.attributes d ha) (legal_tsOk hcr)
    have e1 : (builtTicket cfg now t).attributes =
        some { t.attributes.getD ⟨[], [], [], none⟩ with creationTime := some (storedCreation now t) } := by
      cases ha : t.attributes <;> simp [builtTicket, ha]
    have e2 : t.attributes.elim [] dataTexts = dataTexts (t.attributes.getD ⟨[], [], [], none⟩) := by
      cases t.attributes <;> rfl
    rw [e1, e2, Option.all_some, hd]
    exact and_iff_right ⟨rfl, by simpa [builtTicket] using hex⟩
  rw [← hb]
  simp only [createTicketQueue, Wire.codec]
  by_cases h : Wire.ticketOk (builtTicket cfg now t) = true
  · simp [h]
  · simp [h]

/-- **C93 (assignments).** CreateAssignments with an assignment is refused exactly when its
connection string or an extension name or type URL is not a text. -/
theorem C93_assignments_of_text (r : Roster) (a : Assignment) (ha : r.assignment = some a) (hg : GoExtensions a.extensions) :
    (∃ us, createAssignmentsQueue Wire.codec (some r) = .ok us) ↔ ∀ s ∈ assignmentTexts a, IsText s := by
  have hb : Wire.assignmentOk a = true ↔ ∀ s ∈ assignmentTexts a, IsText s := by
    simp only [Wire.assignmentOk, Bool.and_eq_true, assignmentTexts, List.forall_mem_cons, extensions_ok hg, Wire.utf8Valid_iff]
  rw [← hb]
  simp only [createAssignmentsQueue, ha, Wire.codec]
  by_cases h : Wire.assignmentOk a = true <;> simp [h]

/-! ## What om-core and MMFs send each other -/

theorem tsOk_of {o : Option Timestamp} (h : ∀ x, o = some x → GoTime x) : o.all Wire.tsOk = true := by
  cases o with
  | none => rfl
  | some x => simpa [Wire.tsOk, GoTime, and_assoc] using h x rfl

theorem assignmentOk_iff {a : Assignment} (h : GoExtensions a.extensions) :
    Wire.assignmentOk a = true ↔ ∀ s ∈ assignmentTexts a, IsText s := by
  simp only [Wire.assignmentOk, Bool.and_eq_true, assignmentTexts, List.forall_mem_cons, extensions_ok h, Wire.utf8Valid_iff]

theorem ticketOk_iff {t : Ticket} (h : GoSentTicket t) :
    Wire.ticketOk t = true ↔ ∀ s ∈ t.id :: ticketTexts t, IsText s := by
  have hd : t.attributes.all Wire.dataOk = true ↔ ∀ s ∈ t.attributes.elim [] dataTexts, IsText s := by
    cases ha : t.attributes with
    | none => simp
    | some d =>
      simp only [Option.all_some, Option.elim]
      have hc := tsOk_of (fun x hx => h.creation d x ha hx)
      rw [← data_ok (h.attributes d ha) (c := ⟨0, 0⟩) (by decide)]
      simp only [Wire.dataOk, Bool.and_eq_true, hc, Option.all_some]
      simp [show Wire.tsOk ⟨0, 0⟩ = true by decide]
  simp only [Wire.ticketOk, Bool.and_eq_true, tsOk_of h.expiration, Wire.utf8Valid_iff, extensions_ok h.extensions, hd, ticketTexts,
    List.forall_mem_cons, List.forall_mem_append, and_true, and_assoc]

theorem rosterOk_iff {r : Roster} (h : GoRoster r) : Wire.rosterOk r = true ↔ ∀ s ∈ rosterTexts r, IsText s := by
  have h1 : r.assignment.all Wire.assignmentOk = true ↔ ∀ s ∈ r.assignment.elim [] assignmentTexts, IsText s := by
    cases ha : r.assignment with
    | none => simp
    | some a => simpa using assignmentOk_iff (h.assignment a ha)
  have h2 : r.tickets.all Wire.ticketOk = true ↔ ∀ s ∈ r.tickets.flatMap (fun t => t.id :: ticketTexts t), IsText s := by
    simp only [List.all_eq_true, List.mem_flatMap]
    exact ⟨fun h' s ⟨t, ht, hs⟩ => (ticketOk_iff (h.tickets t ht)).1 (h' t ht) s hs,
      fun h' t ht => (ticketOk_iff (h.tickets t ht)).2 fun s hs => h' s ⟨t, ht, hs⟩⟩
  simp only [Wire.rosterOk, Bool.and_eq_true, Wire.utf8Valid_iff, extensions_ok h.extensions, h1, h2, rosterTexts,
    List.forall_mem_cons, List.forall_mem_append, and_assoc]

theorem poolOk_iff {p : Pool} (h : GoPool p) : Wire.poolOk p = true ↔ ∀ s ∈ poolTexts p, IsText s := by
  have h1 : p.tagPresentFilters.all (fun f => Wire.utf8Valid f.tag) = true ↔ ∀ s ∈ p.tagPresentFilters.map (·.tag), IsText s := by
    simp [Wire.utf8Valid_iff]
  have h2 : p.stringEqualsFilters.all (fun f => Wire.utf8Valid f.stringArg && Wire.utf8Valid f.value) = true ↔
      ∀ s ∈ p.stringEqualsFilters.flatMap (fun f => [f.stringArg, f.value]), IsText s := by
    simp only [List.all_eq_true, Bool.and_eq_true, Wire.utf8Valid_iff, List.mem_flatMap]
    refine ⟨fun h' s ⟨f, hf, hs⟩ => ?_, fun h' f hf => ⟨h' _ ⟨f, hf, by simp⟩, h' _ ⟨f, hf, by simp⟩⟩⟩
    simp only [List.mem_cons, List.not_mem_nil, or_false] at hs
    rcases hs with rfl | rfl
    · exact (h' f hf).1
    · exact (h' f hf).2
  have h3 : p.doubleRangeFilters.all Wire.dblFilterOk = true ↔ ∀ s ∈ p.doubleRangeFilters.map (·.doubleArg), IsText s := by
    simp only [List.all_eq_true, Wire.dblFilterOk, Bool.and_eq_true, Wire.utf8Valid_iff, List.mem_map, Wire.int32Ok, decide_eq_true_eq]
    refine ⟨fun h' s ⟨f, hf, hs⟩ => hs ▸ (h' f hf).1, fun h' f hf => ⟨h' _ ⟨f, hf, rfl⟩, h.doubles f hf⟩⟩
  have h4 : p.creationTimeRangeFilter.all Wire.ctFilterOk = true := by
    cases hc : p.creationTimeRangeFilter with
    | none => rfl
    | some f =>
      obtain ⟨b1, b2, b3⟩ := h.times f hc
      simpa [Wire.ctFilterOk, tsOk_of b2, tsOk_of b3, Wire.int32Ok, GoInt32] using b1
  have h5 : p.participants.all Wire.rosterOk = true ↔ ∀ s ∈ p.participants.elim [] rosterTexts, IsText s := by
    cases hr : p.participants with
    | none => simp
    | some r => simpa using rosterOk_iff (h.participants r hr)
  simp only [Wire.poolOk, Bool.and_eq_true, Wire.utf8Valid_iff, extensions_ok h.extensions, h1, h2, h3, h4, h5, poolTexts,
    List.forall_mem_cons, List.forall_mem_append, and_assoc, true_and]

private theorem map_ok {V : Type} {m : GoMap V} {ok : V → Bool} {texts : V → List Str} (hk : (m.map (·.1)).Nodup)
    (h : ∀ e ∈ m, (ok e.2 = true ↔ ∀ s ∈ texts e.2, IsText s)) :
    Wire.mapOk m ok = true ↔ ∀ s ∈ m.flatMap (fun e => e.1 :: texts e.2), IsText s := by
  simp only [Wire.mapOk, Bool.and_eq_true, decide_eq_true_eq, List.all_eq_true, List.mem_flatMap, Wire.utf8Valid_iff]
  constructor
  · rintro ⟨-, h'⟩ s ⟨e, he, hs⟩
    rcases List.mem_cons.1 hs with rfl | hs
    · exact (h' e he).1
    · exact (h e he).1 (h' e he).2 s hs
  · exact fun h' => ⟨hk, fun e he => ⟨h' _ ⟨e, he, by simp⟩, (h e he).2 fun s hs => h' s ⟨e, he, by simp [hs]⟩⟩⟩

theorem profileOk_iff {p : Profile} (h : GoProfile p) : Wire.profileOk p = true ↔ ∀ s ∈ profileTexts p, IsText s := by
  simp only [Wire.profileOk, Bool.and_eq_true, Wire.utf8Valid_iff, extensions_ok h.extensions,
    map_ok h.keys (fun e he => poolOk_iff (h.pools e he)), profileTexts, List.forall_mem_cons, List.forall_mem_append, and_assoc]

/-- **C93 (requests to MMFs).** A chunk of a request can be sent exactly when every string in its profile is a text. -/
theorem C93_chunks_of_text (p : Profile) (hp : GoProfile p) (n : Int) (hn : GoInt32 n) :
    (∃ b, Wire.encChunk ⟨some p, n⟩ = some b) ↔ ∀ s ∈ profileTexts p, IsText s := by
  rw [← profileOk_iff hp]
  have : Wire.chunkOk ⟨some p, n⟩ = Wire.profileOk p := by
    simp only [Wire.chunkOk, Option.all_some, Wire.int32Ok, decide_eq_true (show -2 ^ 31 ≤ n ∧ n < 2 ^ 31 from hn), Bool.and_true]
  simp only [Wire.encChunk, this]
  by_cases h : Wire.profileOk p = true <;> simp [h]

/-- **C93 (matches).** A match can be sent exactly when every string in it is a text. -/
theorem C93_matches_of_text (m : Match) (hm : GoMatch m) :
    (∃ b, Wire.encResponse (some m) = some b) ↔ ∀ s ∈ matchTexts m, IsText s := by
  have : Wire.matchOk m = true ↔ ∀ s ∈ matchTexts m, IsText s := by
    simp only [Wire.matchOk, Bool.and_eq_true, Wire.utf8Valid_iff, extensions_ok hm.extensions,
      map_ok hm.keys (fun e he => rosterOk_iff (hm.rosters e he)), matchTexts, List.forall_mem_cons, List.forall_mem_append, and_assoc]
  rw [← this]
  simp only [Wire.encResponse, Option.all_some]
  by_cases h : Wire.matchOk m = true <;> simp [h]

/-- "é" is a text of two bytes, the last character of Unicode one of four; a lone
continuation byte, an overlong zero and a surrogate are none. -/
example : IsText [Char.ofNat 0xC3, Char.ofNat 0xA9] := ⟨['é'], by decide⟩
example : IsText [Char.ofNat 0xF4, Char.ofNat 0x8F, Char.ofNat 0xBF, Char.ofNat 0xBF] := ⟨[Char.ofNat 0x10FFFF], by decide⟩
example : ¬ IsText [Char.ofNat 0xA9] := by rw [← Wire.utf8Valid_iff]; decide
example : ¬ IsText [Char.ofNat 0xC0, Char.ofNat 0x80] := by rw [← Wire.utf8Valid_iff]; decide
example : ¬ IsText [Char.ofNat 0xED, Char.ofNat 0xA0, Char.ofNat 0x80] := by rw [← Wire.utf8Valid_iff]; decide

/-- **C06, on the wire.** A ticket all of whose strings are text is accepted, and the bytes
that are replicated bring exactly its tags, arguments and extensions into every cache. -/
theorem C06_text_is_stored (cfg : Config) (now : Int) (t : Ticket) (ht : GoTicket t)
    (hnow : LegalTime (newTimestamp now))
    (htext : ∀ s ∈ ticketTexts t, IsText s) :
    ∃ u, createTicketQueue Wire.codec cfg now (some t) = .ok u ∧ ∀ (c : Cache) (id : Str),
      ∃ (ct : Ticket) (d : FilterableData) (cr : Timestamp),
        (applyUpdate Wire.codec c (replicated u id)).tickets.load id = some ct ∧ ct.id = id ∧ ct.attributes = some d ∧
        d.tags = reqTags t ∧ d.stringArgs.Perm (reqStrings t) ∧ d.doubleArgs.Perm (reqDoubles t) ∧
        ct.extensions.Perm t.extensions ∧ d.creationTime = some cr ∧ CreationFor now t cr := by
  obtain ⟨u, hu⟩ := (C93_tickets_of_text cfg now t ht hnow).2 htext
  exact ⟨u, hu, C06_stored_content Wire.codec Wire.codec_lawful cfg now t u hu⟩

/-- A ticket for "Zoë" is accepted, one with half of the letter is refused. -/
private def nameTicket (s : Str) : Ticket := ⟨[], none, some ⟨[], [("name".toList, s)], [], none⟩, []⟩
example : ∃ u, createTicketQueue Wire.codec Config.default 1700000000000000000
    (some (nameTicket ['Z', 'o', Char.ofNat 0xC3, Char.ofNat 0xAB])) = .ok u := by
  refine (C93_tickets_of_text _ _ _ ⟨fun d hd => ?_, by simp [nameTicket], by simp [nameTicket]⟩ ?_).2 ?_
  · cases hd; exact ⟨by simp, by simp⟩
  · simp only [LegalTime, newTimestamp, nsPerSec]; omega
  · intro s hs
    rw [← Wire.utf8Valid_iff]
    revert s; decide
example : ¬ ∃ u, createTicketQueue Wire.codec Config.default 1700000000000000000
    (some (nameTicket ['Z', 'o', Char.ofNat 0xC3])) = .ok u := by
  rw [C93_tickets_of_text _ _ _ ⟨fun d hd => ?_, by simp [nameTicket], by simp [nameTicket]⟩ ?_]
  · intro h
    have := h ['Z', 'o', Char.ofNat 0xC3] (by decide)
    rw [← Wire.utf8Valid_iff] at this
    revert this; decide
  · simp only [LegalTime, newTimestamp, nsPerSec]; omega
  · cases hd; exact ⟨by simp, by simp⟩

/-- A match whose id holds half a letter cannot be sent; nor can a pool with such a filter. -/
private def oddMatch (s : Str) : Match := ⟨s, [("a".toList, ⟨"a".toList, none, [nameTicket ['Z']], []⟩)], []⟩
private def oddProfile (s : Str) : Profile := ⟨"p".toList, [("all".toList, ⟨"all".toList, [], [⟨"x".toList, s⟩], [], none, none, []⟩)], []⟩
example (s : Str) : GoMatch (oddMatch s) ∧ GoProfile (oddProfile s) := by
  have he : GoExtensions [] := ⟨by simp, by simp⟩
  refine ⟨⟨by simp [oddMatch], fun e h => ?_, he⟩, ⟨by simp [oddProfile], fun e h => ?_, he⟩⟩
  · rw [List.mem_singleton.1 h]
    refine ⟨by simp, fun t ht => ?_, he⟩
    rw [List.mem_singleton.1 ht]
    exact ⟨⟨fun d hd => by cases hd; exact ⟨by simp, by simp⟩, he⟩, by simp [nameTicket], by
      intro d x hd hx; cases hd; simp at hx⟩
  · rw [List.mem_singleton.1 h]
    exact ⟨by simp, by simp, by simp, he⟩
example : (Wire.encResponse (some (oddMatch [Char.ofNat 0xC3]))).isNone ∧ (Wire.encResponse (some (oddMatch ['m']))).isSome ∧
    (Wire.encChunk ⟨some (oddProfile [Char.ofNat 0xC3]), 1⟩).isNone ∧ (Wire.encChunk ⟨some (oddProfile ['m']), 1⟩).isSome := by
  decide +kernel

end OM.Props
