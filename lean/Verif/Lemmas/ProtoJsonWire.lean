import Verif.Lemmas.ProtoJsonText
import Verif.Lemmas.Schema
/-!
# Messages read from JSON can be sent on as gRPC messages
-/
set_option linter.unusedVariables false
set_option linter.unusedSimpArgs false

namespace OM.PJ
open OM.Spec

/-- `j` can be written. -/
def D (j : Json) : Prop := j.numsOk ∧ j.textOk = true

theorem occ_text {f : String} {ms : List (Str × Json)} (h : D (.obj ms)) : ∀ j ∈ occJ f ms, D j := by
  intro j hj
  obtain ⟨h1, h2⟩ := h
  rw [Json.textOk, Json.textOkm_iff] at h2
  rw [Json.numsOk, Json.numsOkm_iff] at h1
  obtain ⟨m, hm, rfl⟩ := List.mem_map.mp hj
  exact ⟨h1 m (List.mem_filter.mp hm).1, (h2 m (List.mem_filter.mp hm).1).2⟩

theorem textJ_ok {s : Str} {o : List Json} (h : TextJ s o) (ht : ∀ j ∈ o, D j) : Wire.utf8Valid s = true := by
  rcases h with rfl | ⟨rfl, -⟩
  · have := (ht _ (List.mem_singleton.mpr rfl)).2
    rwa [Json.textOk] at this
  · rfl

theorem int32_ok {v : Int} (h : GoInt32 v) : Wire.int32Ok v = true := decide_eq_true h

theorem intNum_ok {v : Int} {t : Str} (h : IntNum v t) : Wire.int32Ok v = true := by
  obtain ⟨_, _, _, _, -, -, -, h⟩ := h
  exact int32_ok h

theorem intJ_ok {v : Int} {o : List Json} (h : IntJ v o) : Wire.int32Ok v = true := by
  rcases h with ⟨t, -, h⟩ | ⟨rfl, -⟩
  · exact intNum_ok h
  · rfl

theorem enumJ_ok {e : Env} {ty : String} {v : Int} {o : List Json} (hty : ∀ x ∈ enumNames ty, GoInt32 x.2) (h : EnumJ e ty v o) :
    Wire.int32Ok v = true := by
  rcases h with ⟨n, -, h⟩ | ⟨t, -, h⟩ | ⟨rfl, -⟩ | ⟨rfl, -⟩
  · exact int32_ok (hty _ h)
  · exact intNum_ok h
  · rfl
  · rfl

theorem boundsJ_ok {e : Env} {v : Int} {o : List Json} (h : EnumJ e "FilterBounds" v o) : Wire.int32Ok v = true :=
  enumJ_ok (by unfold GoInt32; decide +kernel) h

theorem typeJ_ok {e : Env} {v : Int} {o : List Json} (h : EnumJ e "Type" v o) : Wire.int32Ok v = true :=
  enumJ_ok (by unfold GoInt32; decide +kernel) h

theorem msgJ_ok {α : Type} {R : α → Json → Prop} {ok : α → Bool} (hr : ∀ v j, R v j → D j → ok v = true) {x : Option α}
    {o : List Json} (h : MsgJ R x o) (ht : ∀ j ∈ o, D j) : x.all ok = true := by
  cases x with
  | none => rfl
  | some v =>
    obtain ⟨j, rfl, -, h⟩ := h
    exact hr v j h (ht j (List.mem_singleton.mpr rfl))

theorem forall₂_ok {α : Type} {R : α → Json → Prop} {ok : α → Bool} (hr : ∀ v j, R v j → D j → ok v = true) {l : List α}
    {js : List Json} (h : List.Forall₂ R l js) (ht : ∀ j ∈ js, D j) : l.all ok = true := by
  induction h with
  | nil => rfl
  | cons h1 _ ih =>
    rw [List.all_cons, Bool.and_eq_true]
    exact ⟨hr _ _ h1 (ht _ (by simp)), ih fun j hj => ht j (List.mem_cons_of_mem _ hj)⟩

theorem listJ_ok {α : Type} {R : α → Json → Prop} {ok : α → Bool} (hr : ∀ v j, R v j → D j → ok v = true) {l : List α}
    {o : List Json} (h : ListJ R l o) (ht : ∀ j ∈ o, D j) : l.all ok = true := by
  rcases h with ⟨js, rfl, h⟩ | ⟨rfl, -⟩
  · have := ht _ (List.mem_singleton.mpr rfl)
    unfold D at this
    rw [Json.textOk, Json.textOks_iff, Json.numsOk, Json.numsOks_iff] at this
    exact forall₂_ok hr h fun j hj => ⟨this.1 j hj, this.2 j hj⟩
  · rfl

theorem mapJ_ok {V : Type} {R : V → Json → Prop} {ok : V → Bool} (hr : ∀ v j, R v j → D j → ok v = true) {m : GoMap V}
    {o : List Json} (h : MapJ R m o) (ht : ∀ j ∈ o, D j) : Wire.mapOk m ok = true := by
  rcases h with ⟨ms, rfl, hn, h⟩ | ⟨rfl, -⟩
  · have := ht _ (List.mem_singleton.mpr rfl)
    unfold D at this
    rw [Json.textOk, Json.textOkm_iff, Json.numsOk, Json.numsOkm_iff] at this
    replace this : ∀ m ∈ ms, Wire.utf8Valid m.1 = true ∧ D m.2 := fun m hm => ⟨(this.2 m hm).1, this.1 m hm, (this.2 m hm).2⟩
    clear ht
    rw [Wire.mapOk_iff]
    have hk : m.map (·.1) = ms.map (·.1) := by
      clear hn this
      induction h with
      | nil => rfl
      | cons h1 _ ih => rw [List.map_cons, List.map_cons, h1.1, ih]
    refine ⟨by rw [← hk] at hn; exact hn, ?_⟩
    clear hn hk
    induction h with
    | nil => intro e he; cases he
    | cons h1 _ ih =>
      intro e he
      rcases List.mem_cons.mp he with rfl | he
      · have h2 := this _ (List.mem_cons_self ..)
        exact ⟨by rw [h1.1]; exact h2.1, hr _ _ h1.2 h2.2⟩
      · exact ih (fun x hx => this x (List.mem_cons_of_mem _ hx)) e he
  · rfl

theorem strJ_ok (v : Str) (j : Json) (h : StrJ v j) (ht : D j) : Wire.utf8Valid v = true := by
  cases h
  have := ht.2
  rwa [Json.textOk] at this

theorem doubleJ_ok {fl : FloatText} (v : F64) (j : Json) (_ : DoubleJ1 fl v j) (_ : D j) : (fun _ : F64 => true) v = true := rfl

theorem digitsValue_lt {s : Str} (h : ∀ c ∈ s, '0' ≤ c ∧ c ≤ '9') : digitsValue s < 10 ^ s.length := by
  induction s with
  | nil => decide
  | cons c s ih =>
    rw [show c :: s = [c] ++ s from rfl, digitsValue_append, List.length_append, List.length_singleton, pow_add, pow_one]
    have h1 := ih fun x hx => h x (List.mem_cons_of_mem _ hx)
    have h2 : digitsValue [c] ≤ 9 := by
      have h3 : c.toNat ≤ 57 := (h c (by simp)).2
      have h4 : 48 ≤ c.toNat := (h c (by simp)).1
      rw [Serve.digitsValue_eq]
      show 10 * 0 + (c.toNat - 48) ≤ 9
      omega
    have h5 : digitsValue [c] * 10 ^ s.length ≤ 9 * 10 ^ s.length := Nat.mul_le_mul_right _ h2
    omega

theorem fracText_range {n : Int} {s : Str} (h : FracText n s) : 0 ≤ n ∧ n < 1000000000 := by
  rcases h with ⟨-, rfl⟩ | ⟨ds, -, hd, hl, rfl⟩
  · decide
  · have h1 : digitsValue ds < 10 ^ ds.length := digitsValue_lt hd.2
    refine ⟨by positivity, ?_⟩
    have h2 : digitsValue ds * 10 ^ (9 - ds.length) < 10 ^ ds.length * 10 ^ (9 - ds.length) := Nat.mul_lt_mul_of_pos_right h1 (by positivity)
    rw [← pow_add, show ds.length + (9 - ds.length) = 9 by omega] at h2
    exact_mod_cast h2

theorem timeJ_ok (v : Timestamp) (j : Json) (h : TimeJ v j) (_ : D j) : Wire.tsOk v = true := by
  obtain ⟨s, -, ⟨_, _, _, _, _, _, _, _, _, _, _, _, fs, _, _, _, -, -, -, -, -, -, -, -, -, -, -, -, -, -, hf, -⟩, h1, h2⟩ := h
  have := fracText_range hf
  exact decide_eq_true (by refine ⟨?_, ?_, ?_, ?_⟩ <;> omega)

theorem anyJ_ok {e : Env} (hB : BytesOk e) (v : AnyPb) (j : Json) (h : AnyJ e v j) (ht : D j) : Wire.anyOk v = true := by
  obtain ⟨ms, rfl, ⟨rfl, -⟩ | ⟨rfl, -⟩ | ⟨h1, h2⟩⟩ := h
  · rfl
  · rfl
  · have := occ_text (f := "@type") ht _ (h1 ▸ List.mem_singleton.mpr rfl)
    have hu := this.2
    rw [Json.textOk] at hu
    obtain ⟨h3, h4⟩ := ht
    rw [Json.textOk, Json.textOkm_iff] at h4
    rw [Json.numsOk, Json.numsOkm_iff] at h3
    have h5 : D (.obj (ms.filter fun m => decide (m.1 ≠ "@type".toList))) := by
      constructor
      · rw [Json.numsOk, Json.numsOkm_iff]; exact fun m hm => h3 m (List.mem_filter.mp hm).1
      · rw [Json.textOk, Json.textOkm_iff]; exact fun m hm => h4 m (List.mem_filter.mp hm).1
    obtain ⟨t, ht⟩ := (jdoc_exists h5.1).mpr h5.2
    refine Wire.anyOk_mk hu ?_
    rw [Wire.bytesOk, List.all_eq_true]
    exact fun c hc => decide_eq_true (hB _ _ _ _ ht h2 c hc)

theorem dataJ_ok {e : Env} (hB : BytesOk e) (v : FilterableData) (j : Json) (h : DataJ e v j) (ht : D j) : Wire.dataOk v = true := by
  obtain ⟨ms, rfl, -, ⟨-, ha⟩, ⟨-, hb⟩, ⟨-, hc⟩, ⟨-, hd⟩⟩ := h
  simp only [Wire.dataOk, Bool.and_eq_true]
  exact ⟨⟨⟨listJ_ok strJ_ok ha (occ_text ht), mapJ_ok strJ_ok hb (occ_text ht)⟩, mapJ_ok doubleJ_ok hc (occ_text ht)⟩, msgJ_ok timeJ_ok hd (occ_text ht)⟩

theorem ticketJ_ok {e : Env} (hB : BytesOk e) (v : Ticket) (j : Json) (h : TicketJ e v j) (ht : D j) : Wire.ticketOk v = true := by
  obtain ⟨ms, rfl, -, ⟨-, ha⟩, ⟨-, hb⟩, ⟨-, hc⟩, ⟨-, hext⟩⟩ := h
  simp only [Wire.ticketOk, Bool.and_eq_true]
  exact ⟨⟨⟨textJ_ok ha (occ_text ht), msgJ_ok timeJ_ok hb (occ_text ht)⟩, msgJ_ok (dataJ_ok hB) hc (occ_text ht)⟩, mapJ_ok (anyJ_ok hB) hext (occ_text ht)⟩

theorem assignmentJ_ok {e : Env} (hB : BytesOk e) (v : Assignment) (j : Json) (h : AssignmentJ e v j) (ht : D j) : Wire.assignmentOk v = true := by
  obtain ⟨ms, rfl, -, ⟨-, ha⟩, ⟨-, hext⟩⟩ := h
  simp only [Wire.assignmentOk, Bool.and_eq_true]
  exact ⟨textJ_ok ha (occ_text ht), mapJ_ok (anyJ_ok hB) hext (occ_text ht)⟩

theorem rosterJ_ok {e : Env} (hB : BytesOk e) (v : Roster) (j : Json) (h : RosterJ e v j) (ht : D j) : Wire.rosterOk v = true := by
  obtain ⟨ms, rfl, -, ⟨-, ha⟩, ⟨-, hb⟩, ⟨-, hc⟩, ⟨-, hext⟩⟩ := h
  simp only [Wire.rosterOk, Bool.and_eq_true]
  exact ⟨⟨⟨textJ_ok ha (occ_text ht), msgJ_ok (assignmentJ_ok hB) hb (occ_text ht)⟩, listJ_ok (ticketJ_ok hB) hc (occ_text ht)⟩, mapJ_ok (anyJ_ok hB) hext (occ_text ht)⟩

theorem tagFilterJ_ok {e : Env} (hB : BytesOk e) (v : TagPresentFilter) (j : Json) (h : TagFilterJ e v j) (ht : D j) : (fun f : TagPresentFilter => Wire.utf8Valid f.tag) v = true := by
  obtain ⟨ms, rfl, -, ⟨-, ha⟩⟩ := h
  simp only [Bool.and_eq_true]
  exact textJ_ok ha (occ_text ht)

theorem strFilterJ_ok {e : Env} (hB : BytesOk e) (v : StringEqualsFilter) (j : Json) (h : StrFilterJ e v j) (ht : D j) : (fun f : StringEqualsFilter => Wire.utf8Valid f.stringArg && Wire.utf8Valid f.value) v = true := by
  obtain ⟨ms, rfl, -, ⟨-, ha⟩, ⟨-, hb⟩⟩ := h
  simp only [Bool.and_eq_true]
  exact ⟨textJ_ok ha (occ_text ht), textJ_ok hb (occ_text ht)⟩

theorem dblFilterJ_ok {e : Env} (hB : BytesOk e) (v : DoubleRangeFilter) (j : Json) (h : DblFilterJ e v j) (ht : D j) : Wire.dblFilterOk v = true := by
  obtain ⟨ms, rfl, -, ⟨-, ha⟩, ⟨-, -⟩, ⟨-, -⟩, ⟨-, hd⟩⟩ := h
  simp only [Wire.dblFilterOk, Bool.and_eq_true]
  exact ⟨textJ_ok ha (occ_text ht), boundsJ_ok hd⟩

theorem ctFilterJ_ok {e : Env} (hB : BytesOk e) (v : CreationTimeRangeFilter) (j : Json) (h : CtFilterJ e v j) (ht : D j) : Wire.ctFilterOk v = true := by
  obtain ⟨ms, rfl, -, ⟨-, ha⟩, ⟨-, hb⟩, ⟨-, hc⟩⟩ := h
  simp only [Wire.ctFilterOk, Bool.and_eq_true]
  exact ⟨⟨msgJ_ok timeJ_ok ha (occ_text ht), msgJ_ok timeJ_ok hb (occ_text ht)⟩, boundsJ_ok hc⟩

theorem poolJ_ok {e : Env} (hB : BytesOk e) (v : Pool) (j : Json) (h : PoolJ e v j) (ht : D j) : Wire.poolOk v = true := by
  obtain ⟨ms, rfl, -, ⟨-, ha⟩, ⟨-, hb⟩, ⟨-, hc⟩, ⟨-, hd⟩, ⟨-, hf⟩, ⟨-, hg⟩, ⟨-, hext⟩⟩ := h
  simp only [Wire.poolOk, Bool.and_eq_true]
  exact ⟨⟨⟨⟨⟨⟨textJ_ok ha (occ_text ht), listJ_ok (tagFilterJ_ok hB) hb (occ_text ht)⟩, listJ_ok (strFilterJ_ok hB) hc (occ_text ht)⟩, listJ_ok (dblFilterJ_ok hB) hd (occ_text ht)⟩, msgJ_ok (ctFilterJ_ok hB) hf (occ_text ht)⟩, msgJ_ok (rosterJ_ok hB) hg (occ_text ht)⟩, mapJ_ok (anyJ_ok hB) hext (occ_text ht)⟩

theorem profileJ_ok {e : Env} (hB : BytesOk e) (v : Profile) (j : Json) (h : ProfileJ e v j) (ht : D j) : Wire.profileOk v = true := by
  obtain ⟨ms, rfl, -, ⟨-, ha⟩, ⟨-, hb⟩, ⟨-, hext⟩⟩ := h
  simp only [Wire.profileOk, Bool.and_eq_true]
  exact ⟨⟨textJ_ok ha (occ_text ht), mapJ_ok (poolJ_ok hB) hb (occ_text ht)⟩, mapJ_ok (anyJ_ok hB) hext (occ_text ht)⟩

theorem matchJ_ok {e : Env} (hB : BytesOk e) (v : Match) (j : Json) (h : MatchJ e v j) (ht : D j) : Wire.matchOk v = true := by
  obtain ⟨ms, rfl, -, ⟨-, ha⟩, ⟨-, hb⟩, ⟨-, hext⟩⟩ := h
  simp only [Wire.matchOk, Bool.and_eq_true]
  exact ⟨⟨textJ_ok ha (occ_text ht), mapJ_ok (rosterJ_ok hB) hb (occ_text ht)⟩, mapJ_ok (anyJ_ok hB) hext (occ_text ht)⟩

theorem specJ_ok {e : Env} (hB : BytesOk e) (v : Serve.MmfSpec) (j : Json) (h : SpecJ e v j) (ht : D j) : Wire.specOk v = true := by
  obtain ⟨ms, rfl, -, ⟨-, ha⟩, ⟨-, hb⟩, ⟨-, hc⟩, ⟨-, hd⟩⟩ := h
  simp only [Wire.specOk, Bool.and_eq_true]
  exact ⟨⟨⟨textJ_ok ha (occ_text ht), textJ_ok hb (occ_text ht)⟩, intJ_ok hc⟩, typeJ_ok hd⟩

theorem createTicketJ_ok {e : Env} (hB : BytesOk e) (v : Option Ticket) (j : Json) (h : CreateTicketRequestJ e v j) (ht : D j) : Wire.createTicketOk v = true := by
  obtain ⟨ms, rfl, -, ⟨-, ha⟩⟩ := h
  simp only [Wire.createTicketOk, Bool.and_eq_true]
  exact msgJ_ok (ticketJ_ok hB) ha (occ_text ht)

theorem idsJ_ok {e : Env} {m : String} (hB : BytesOk e) (v : List Str) (j : Json) (h : IdsRequestJ e m v j) (ht : D j) : Wire.idsOk v = true := by
  obtain ⟨ms, rfl, -, ⟨-, ha⟩⟩ := h
  simp only [Wire.idsOk, Bool.and_eq_true]
  exact listJ_ok strJ_ok ha (occ_text ht)

theorem mmfRequestJ_ok {e : Env} (hB : BytesOk e) (v : Option Profile × List Serve.MmfSpec) (j : Json) (h : MmfRequestJ e v j) (ht : D j) : Wire.mmfRequestOk v = true := by
  obtain ⟨ms, rfl, -, ⟨-, ha⟩, ⟨-, hb⟩⟩ := h
  simp only [Wire.mmfRequestOk, Bool.and_eq_true]
  exact ⟨msgJ_ok (profileJ_ok hB) ha (occ_text ht), listJ_ok (specJ_ok hB) hb (occ_text ht)⟩

theorem createAssignmentsJ_ok {e : Env} (hB : BytesOk e) (v : Option Roster) (j : Json) (h : CreateAssignmentsRequestJ e v j) (ht : D j) : Wire.createAssignmentsOk v = true := by
  obtain ⟨ms, rfl, -, ⟨-, ha⟩⟩ := h
  simp only [Wire.createAssignmentsOk, Bool.and_eq_true]
  exact msgJ_ok (rosterJ_ok hB) ha (occ_text ht)

/-! ## Sent on over gRPC -/

theorem sent_on {α : Type} {enc : α → List Wire.Field} {dec : List Wire.Field → α} {ok : α → Bool} {v : α} (h : ok v = true)
    (hr : dec (enc v) = v) : ∃ b, Wire.marshal enc ok v = some b ∧ Wire.unmarshal dec ok b = some v := by
  refine ⟨_, if_pos h, ?_⟩
  unfold Wire.unmarshal
  rw [Wire.parseAll_ser, Option.bind_some, hr, if_pos h]

theorem body_ok {α : Type} {R : α → Json → Prop} {ok : α → Bool} (hr : ∀ v j, R v j → D j → ok v = true) {zero : α}
    (hz : ok zero = true) {v : α} {t : Str} (h : BodyJ R zero v t) : ok v = true := by
  rcases h with ⟨-, rfl⟩ | ⟨w, x, r, j, -, -, ht, hx, h⟩
  · exact hz
  · exact hr v j h ⟨jtext_nums hx, (Json.jtext_V hx).mp ((Json.utf8Valid_V _).mp ((Wire.utf8Valid_iff _).mpr ht))⟩

theorem spec_rt {s : Serve.MmfSpec} (h : Wire.specOk s = true) : Wire.toSpec (Wire.specF s) = s := by
  simp only [Wire.specOk, Bool.and_eq_true] at h
  obtain ⟨n, a, p, t⟩ := s
  have h1 : Wire.lens 1 (Wire.specF ⟨n, a, p, t⟩) = if n = [] then [] else [n] := by
    simp [Wire.specF, Wire.lens_append, Wire.lens_strField, Wire.lens_intField]
  have h2 : Wire.lens 2 (Wire.specF ⟨n, a, p, t⟩) = if a = [] then [] else [a] := by
    simp [Wire.specF, Wire.lens_append, Wire.lens_strField, Wire.lens_intField]
  have h3 : Wire.ints 3 (Wire.specF ⟨n, a, p, t⟩) = if p = 0 then [] else [Wire.enc64 p] := by
    simp [Wire.specF, Wire.ints_append, Wire.ints_strField, Wire.ints_intField]
  have h4 : Wire.ints 4 (Wire.specF ⟨n, a, p, t⟩) = if t = 0 then [] else [Wire.enc64 t] := by
    simp [Wire.specF, Wire.ints_append, Wire.ints_strField, Wire.ints_intField]
  rw [Wire.toSpec, Wire.getStr, Wire.getStr, Wire.getInt32, Wire.getInt32, h1, h2, h3, h4, Wire.opt_str, Wire.opt_str,
    Wire.opt_int32 h.1.2, Wire.opt_int32 h.2]

end OM.PJ
