import Verif.Model.Errors
import Verif.Spec.Errors
import Verif.Lemmas.Utf8
import Verif.Lemmas.Messages
import Verif.Lemmas.ProtoJsonText
import Verif.Lemmas.ProtoJsonWire
import Verif.Lemmas.Config
import Verif.Lemmas.JsonBlank
import Mathlib.Tactic.IntervalCases
/-! # Errors on their way -/
namespace OM.Err
open OM.Spec OM.PJ OM.Wire

/-! ## Percent-encoding -/

theorem hexVal_upper {n : Nat} (h : n < 16) : Json.hexVal (hexUpper n) = some n := by
  interval_cases n <;> decide

theorem hexUpper_plain {n : Nat} (h : n < 16) : plain (hexUpper n) = true := by
  interval_cases n <;> decide

theorem decode_pct {c : Char} (h : c.toNat < 256) (t : Str) : decode (pct c ++ t) = c :: decode t := by
  show decode ('%' :: hexUpper (c.toNat / 16) :: hexUpper (c.toNat % 16) :: t) = _
  rw [decode, hexVal_upper (by omega), hexVal_upper (by omega)]
  simp only
  rw [Nat.div_add_mod', Char.ofNat_toNat]

theorem decode_pcts {s : Str} (h : ∀ c ∈ s, c.toNat < 256) (t : Str) : decode (s.flatMap pct ++ t) = s ++ decode t := by
  induction s with
  | nil => rfl
  | cons c s ih =>
    rw [List.flatMap_cons, List.append_assoc, decode_pct (h c (by simp)), ih fun d hd => h d (List.mem_cons_of_mem _ hd)]
    rfl

theorem decode_plain {c : Char} (h : plain c = true) (t : Str) : decode (c :: t) = c :: decode t := by
  have hc : c ≠ '%' := (of_decide_eq_true h).2.2
  rw [decode.eq_def]
  split
  · rename_i heq; exact absurd (List.cons.inj heq).1 hc
  · rename_i heq; rw [(List.cons.inj heq).1, (List.cons.inj heq).2]
  · rename_i heq; cases heq

theorem decode_all {s : Str} (h : s.all plain = true) : decode s = s := by
  induction s with
  | nil => rfl
  | cons c s ih =>
    rw [List.all_cons, Bool.and_eq_true] at h
    rw [decode_plain h.1, ih h.2]

/-! ## Characters -/

theorem charBytes_len (c : Char) : 1 ≤ (charBytes c).length ∧ (charBytes c).length ≤ 4 := by
  unfold charBytes
  rw [List.length_map, String.length_utf8EncodeChar]
  exact ⟨Char.utf8Size_pos c, Char.utf8Size_le_four c⟩

theorem charBytes_byte (c : Char) : ∀ b ∈ charBytes c, b.toNat < 256 := by
  intro b hb
  have := bytesOk_of_utf8 ((utf8Valid_iff (charBytes c)).mpr ⟨[c], by simp⟩)
  exact of_decide_eq_true (List.all_eq_true.mp this b hb)

theorem charBytes_valid (c : Char) : utf8Valid (charBytes c) = true := (utf8Valid_iff _).mpr ⟨[c], by simp⟩

/-- A first byte below 0x80 is a character. -/
theorem charBytes_low {b : Char} (h : b.toNat < 0x80) : charBytes b = [b] := by
  obtain ⟨text, ht⟩ := (utf8Valid_iff [b]).mp (utf8Valid_ascii (by simpa using h))
  unfold charBytes String.utf8EncodeChar
  have hv : b.val.toNat = b.toNat := rfl
  rw [hv]
  dsimp only
  rw [if_pos (by omega), List.map_cons, List.map_nil, byte_eq rfl (by omega)]

/-- A character of one byte is that byte, below 0x80. -/
theorem charBytes_one {c b : Char} (h : charBytes c = [b]) : b.toNat < 0x80 := by
  have hv := charBytes_valid c
  rw [h] at hv
  by_contra hb
  unfold utf8Valid at hv
  simp only [List.foldl_cons, List.foldl_nil, utf8Step, if_neg hb] at hv
  revert hv
  split_ifs <;> simp

theorem runeSize_some {c : Char} {s : Str} {k : Nat} (h : runeSize (c :: s) = some k) :
    ∃ x, (c :: s).take k = charBytes x ∧ c :: s = charBytes x ++ (c :: s).drop k ∧ 1 ≤ k ∧ (k = 1 → x = c ∧ c.toNat < 0x80) := by
  rw [runeSize] at h
  split at h
  · rename_i hc
    cases h
    exact ⟨c, by rw [charBytes_low hc]; rfl, by rw [charBytes_low hc]; rfl, le_rfl, fun _ => ⟨rfl, hc⟩⟩
  · rename_i hc
    have hm := List.mem_of_find?_eq_some h
    have hp := List.find?_some h
    have hk2 : 2 ≤ k := by
      simp only [List.mem_cons, List.not_mem_nil, or_false] at hm
      omega
    rw [Bool.and_eq_true] at hp
    have hkl : k ≤ s.length + 1 := of_decide_eq_true hp.1
    obtain ⟨text, ht⟩ := (utf8Valid_iff _).mp hp.2
    cases text with
    | nil =>
      have := congrArg List.length ht
      rw [List.length_take, List.length_cons] at this
      simp at this
      omega
    | cons x text =>
      rw [List.flatMap_cons] at ht
      have hx := charBytes_len x
      -- the first character is not of one byte
      have hx1 : (charBytes x).length ≠ 1 := by
        intro h1
        obtain ⟨b, hb⟩ := List.length_eq_one_iff.mp h1
        rw [hb] at ht
        obtain ⟨k', rfl⟩ := Nat.exists_eq_add_of_le' (show 1 ≤ k by omega)
        rw [List.take_succ_cons, List.cons_append] at ht
        exact hc ((List.cons.inj ht).1 ▸ charBytes_one hb)
      have hlen : (charBytes x).length ≤ k := by
        have := congrArg List.length ht
        rw [List.length_append, List.length_take, List.length_cons] at this
        omega
      have hpre : (c :: s).take (charBytes x).length = charBytes x := by
        have := congrArg (List.take (charBytes x).length) ht
        rwa [List.take_take, Nat.min_eq_left hlen, List.take_left] at this
      -- nor a shorter one: it would have been found
      have heq : (charBytes x).length = k := by
        rw [List.find?_eq_some_iff_append] at h
        obtain ⟨-, as, bs, hab, hno⟩ := h
        by_contra hne
        have hmem : (charBytes x).length ∈ as := by
          have h4 : (charBytes x).length ∈ [2, 3, 4] := by
            simp only [List.mem_cons, List.not_mem_nil, or_false]; omega
          rw [hab] at h4
          rcases List.mem_append.mp h4 with h4 | h4
          · exact h4
          · have hs : List.Pairwise (· < ·) [2, 3, 4] := by decide
            rw [hab] at hs
            have := (List.pairwise_append.mp hs).2.1
            rcases List.mem_cons.mp h4 with h4 | h4
            · exact absurd h4 hne
            · have := (List.pairwise_cons.mp this).1 _ h4
              omega
        have := hno _ hmem
        rw [hpre, charBytes_valid, Bool.and_true, Bool.not_eq_true', decide_eq_false_iff_not] at this
        omega
      rw [heq] at hpre
      refine ⟨x, hpre, ?_, by omega, by omega⟩
      rw [← hpre, List.take_append_drop]

theorem runeSize_none {c : Char} {s : Str} (h : runeSize (c :: s) = none) : ¬ ∃ x t, c :: s = charBytes x ++ t := by
  rintro ⟨x, t, ht⟩
  have hx := charBytes_len x
  rw [runeSize] at h
  split at h
  · cases h
  · rename_i hc
    have hx1 : (charBytes x).length ≠ 1 := by
      intro h1
      obtain ⟨b, hb⟩ := List.length_eq_one_iff.mp h1
      rw [hb, List.cons_append] at ht
      exact hc ((List.cons.inj ht).1 ▸ charBytes_one hb)
    rw [List.find?_eq_none] at h
    have := h (charBytes x).length (by simp only [List.mem_cons, List.not_mem_nil, or_false]; omega)
    rw [ht, List.take_left, charBytes_valid, Bool.and_true] at this
    have hl := congrArg List.length ht
    rw [List.length_cons, List.length_append] at hl
    exact this (decide_eq_true (by omega))

theorem runeError_eq : runeError = charBytes (Char.ofNat 0xFFFD) := by decide

/-! ## Messages -/

theorem encodeF_repaired : ∀ (n : Nat) (m : Str), m.length ≤ n → (∀ c ∈ m, c.toNat < 256) → Repaired m (decode (encodeF n m))
  | 0, [], _, _ => .nil
  | _ + 1, [], _, _ => .nil
  | 0, _ :: _, h, _ => by simp at h
  | n + 1, c :: s, h, hb => by
    have hs : s.length ≤ n := by simpa using h
    have hbs : ∀ d ∈ s, d.toNat < 256 := fun d hd => hb d (List.mem_cons_of_mem _ hd)
    rw [encodeF]
    split
    · rename_i hr
      rw [runeError_eq, decode_pcts (charBytes_byte _)]
      exact .bad (runeSize_none hr) (encodeF_repaired n s hs hbs)
    · rename_i hr
      obtain ⟨x, h1, h2, h3, h4⟩ := runeSize_some hr
      obtain ⟨rfl, hc⟩ := h4 rfl
      have ih := encodeF_repaired n s hs hbs
      have hcb := charBytes_low hc
      have hd : decode ((if plain x then [x] else pct x) ++ encodeF n s) = x :: decode (encodeF n s) := by
        split
        · rename_i hp; exact decode_plain hp _
        · exact decode_pct (by omega) _
      rw [hd]
      have := Repaired.char x ih
      rwa [hcb] at this
    · rename_i k hk hr
      obtain ⟨x, h1, h2, h3, h4⟩ := runeSize_some hr
      rw [h1, decode_pcts (charBytes_byte _)]
      have ih := encodeF_repaired n ((c :: s).drop k) (by rw [List.length_drop, List.length_cons]; omega)
        fun d hd => hb d (List.mem_of_mem_drop hd)
      have := Repaired.char x ih
      rwa [← h2] at this

theorem decode_encode {m : Str} (hb : ∀ c ∈ m, c.toNat < 256) : Repaired m (decode (encode m)) := by
  unfold encode
  split
  · rename_i h
    rw [decode_all h]
    clear hb
    induction m with
    | nil => exact .nil
    | cons c m ih =>
      rw [List.all_cons, Bool.and_eq_true] at h
      have hc : c.toNat < 0x80 := by have := (of_decide_eq_true h.1).2.1; omega
      have := Repaired.char c (ih h.2)
      rwa [charBytes_low hc] at this
  · exact encodeF_repaired _ _ le_rfl hb

theorem pct_printable {c : Char} (h : c.toNat < 256) : ∀ x ∈ pct c, 0x20 ≤ x.toNat ∧ x.toNat ≤ 0x7E := by
  intro x hx
  simp only [pct, List.mem_cons, List.not_mem_nil, or_false] at hx
  rcases hx with rfl | rfl | rfl
  · decide
  · have := of_decide_eq_true (hexUpper_plain (n := c.toNat / 16) (by omega)); omega
  · have := of_decide_eq_true (hexUpper_plain (n := c.toNat % 16) (by omega)); omega

theorem pcts_printable {s : Str} (h : ∀ c ∈ s, c.toNat < 256) : ∀ x ∈ s.flatMap pct, 0x20 ≤ x.toNat ∧ x.toNat ≤ 0x7E := by
  intro x hx
  obtain ⟨c, hc, hx⟩ := List.mem_flatMap.mp hx
  exact pct_printable (h c hc) x hx

theorem encodeF_printable : ∀ (n : Nat) (m : Str), (∀ c ∈ m, c.toNat < 256) → ∀ x ∈ encodeF n m, 0x20 ≤ x.toNat ∧ x.toNat ≤ 0x7E
  | 0, _, _, _, hx => by simp [encodeF] at hx
  | _ + 1, [], _, _, hx => by simp [encodeF] at hx
  | n + 1, c :: s, hb, x, hx => by
    have ih := encodeF_printable n
    have hbs : ∀ d ∈ s, d.toNat < 256 := fun d hd => hb d (List.mem_cons_of_mem _ hd)
    rw [encodeF] at hx
    split at hx
    · rcases List.mem_append.mp hx with hx | hx
      · exact pcts_printable (by decide) x hx
      · exact ih s hbs x hx
    · rcases List.mem_append.mp hx with hx | hx
      · split at hx
        · rename_i hp
          rw [List.mem_singleton.mp hx]
          have := of_decide_eq_true hp
          exact ⟨this.1, this.2.1⟩
        · exact pct_printable (hb c (by simp)) x hx
      · exact ih s hbs x hx
    · rcases List.mem_append.mp hx with hx | hx
      · exact pcts_printable (fun d hd => hb d (List.mem_of_mem_take hd)) x hx
      · exact ih _ (fun d hd => hb d (List.mem_of_mem_drop hd)) x hx

theorem encode_printable {m : Str} (hb : ∀ c ∈ m, c.toNat < 256) : ∀ x ∈ encode m, 0x20 ≤ x.toNat ∧ x.toNat ≤ 0x7E := by
  intro x hx
  unfold encode at hx
  split at hx
  · rename_i h
    have := of_decide_eq_true (List.all_eq_true.mp h x hx)
    exact ⟨this.1, this.2.1⟩
  · exact encodeF_printable _ _ hb x hx

theorem repaired_text {m r : Str} (h : Repaired m r) : IsText r := by
  induction h with
  | nil => exact isText_nil
  | char c _ ih => exact isText_append ⟨[c], by simp⟩ ih
  | bad _ _ ih => exact isText_append ⟨[Char.ofNat 0xFFFD], by simp⟩ ih

/-- Characters are cut off texts in one way. -/
theorem charBytes_head {x : Char} {text : List Char} {t : Str} (h : text.flatMap charBytes = charBytes x ++ t) :
    ∃ text', text = x :: text' ∧ t = text'.flatMap charBytes := by
  have hv : utf8Valid t = true := by
    have h1 := (utf8Valid_iff _).mpr ⟨text, h.symm⟩
    unfold utf8Valid at h1 ⊢
    rw [List.foldl_append] at h1
    obtain ⟨a, b, e⟩ := fold_char x 0 0
    rw [e] at h1
    rcases utf8_start a b t with h2 | rfl
    · rwa [h2] at h1
    · rfl
  obtain ⟨text', rfl⟩ := (utf8Valid_iff _).mp hv
  refine ⟨text', ?_, rfl⟩
  rw [← List.flatMap_cons] at h
  exact Json.flatMap_charBytes_inj h

theorem repaired_of_text {m r : Str} (h : Repaired m r) (ht : IsText m) : r = m := by
  obtain ⟨text, ht⟩ := ht
  induction h generalizing text with
  | nil => rfl
  | char c _ ih =>
    obtain ⟨text', -, h2⟩ := charBytes_head ht.symm
    rw [ih text' h2]
  | bad hb _ _ =>
    cases text with
    | nil => cases ht
    | cons c text => exact absurd ⟨c, _, ht⟩ hb

/-! ## Statuses -/

theorem codeNum_int (c : Code) : int32Ok (codeNum c) = true := by cases c <;> decide

theorem status_rt {s : StatusPb} (h : statusOk s = true) : toStatus (statusF s) = s := by
  obtain ⟨code, msg, ds⟩ := s
  simp only [statusOk, Bool.and_eq_true] at h
  have h1 := opt_int32 h.1.1
  have h2 := opt_str msg
  have h3 := rep_msg ds anyF toAny (fun _ => true) (by simp) fun a _ => toAny_anyF a
  unfold toStatus statusF getInt32 getStr getMsgs
  simp only [ints_append, ints_intField, ints_strField, ints_repField, lens_append, lens_intField, lens_strField, lens_repField,
    reduceIte, List.append_nil, List.nil_append, Nat.reduceEqDiff]
  rw [h1, h2, h3]

theorem violation_rt (v : Str × Str) : toViolation (violationF v) = v := by
  obtain ⟨a, b⟩ := v
  simp [toViolation, violationF, getStr, lens_append, lens_strField, opt_str]

theorem badRequest_rt (vs : List (Str × Str)) : toBadRequest (badRequestF vs) = vs := by
  unfold toBadRequest badRequestF getMsgs
  rw [lens_repField, if_pos rfl]
  exact rep_msg vs violationF toViolation (fun _ => true) (by simp) fun a _ => violation_rt a

theorem badRequest_read {vs : List (Str × Str)} (h : ∀ v ∈ vs, IsText v.1 ∧ IsText v.2) :
    Wire.unmarshal toBadRequest (fun vs => vs.all violationOk) (ser (badRequestF vs)) = some vs := by
  have hk : (fun vs : List (Str × Str) => vs.all violationOk) vs = true := by
    refine List.all_eq_true.mpr fun v hv => ?_
    rw [violationOk, (utf8Valid_iff _).mpr (h v hv).1, (utf8Valid_iff _).mpr (h v hv).2]; rfl
  obtain ⟨b, h1, h2⟩ := sent_on (enc := badRequestF) (dec := toBadRequest) (ok := fun vs => vs.all violationOk) (v := vs) hk (badRequest_rt vs)
  rw [Wire.marshal, if_pos hk] at h1
  cases h1
  exact h2

theorem typeName_badRequest : PJ.typeName badRequestUrl = "google.rpc.BadRequest".toList := by decide +kernel

theorem badRequest_bytes {vs : List (Str × Str)} (h : ∀ v ∈ vs, IsText v.1 ∧ IsText v.2) : bytesOk (ser (badRequestF vs)) = true := by
  refine bytesOk_ser fun f s hs => ?_
  simp only [badRequestF, repField, List.map_map, List.mem_map, Function.comp_apply, Prod.mk.injEq, WVal.len.injEq] at hs
  obtain ⟨v, hv, -, rfl⟩ := hs
  refine bytesOk_ser fun f s hs => ?_
  have key : s = v.1 ∨ s = v.2 := by
    simp only [violationF, strField, List.mem_append] at hs
    rcases hs with hs | hs
    · split at hs
      · cases hs
      · simp only [List.mem_singleton, Prod.mk.injEq, WVal.len.injEq] at hs; exact .inl hs.2
    · split at hs
      · cases hs
      · simp only [List.mem_singleton, Prod.mk.injEq, WVal.len.injEq] at hs; exact .inr hs.2
  rcases key with rfl | rfl
  · exact bytesOk_of_utf8 ((utf8Valid_iff _).mpr (h v hv).1)
  · exact bytesOk_of_utf8 ((utf8Valid_iff _).mpr (h v hv).2)

theorem parse_code (c : Code) : parseInt10 (fmtInt (codeNum c)) = .ok (codeNum c : Int) := by
  refine Conf.parseInt10_fmtInt ?_ ?_ <;> cases c <;> decide

/-- Without details: the code, and the message repaired. -/
theorem clientSees_plain {e : RpcErr} (hv : e.violations = []) : clientSees e = ⟨codeNum e.code, decode (encode e.msg), []⟩ := by
  unfold clientSees received trailers statusOf
  simp only [hv, reduceIte, parse_code, Option.bind_none]

/-- With details: all of it. -/
theorem clientSees_details {e : RpcErr} (hv : e.violations ≠ []) (hm : IsText e.msg) (ht : ∀ v ∈ e.violations, IsText v.1 ∧ IsText v.2) :
    clientSees e = statusOf e := by
  have hok : statusOk (statusOf e) = true := by
    have hu : utf8Valid badRequestUrl = true := by decide +kernel
    simp only [statusOk, statusOf, if_neg hv, codeNum_int, (utf8Valid_iff _).mpr hm, Bool.and_true, List.all_cons, List.all_nil, anyOk,
      badRequest_bytes ht, hu]
  obtain ⟨b, h1, h2⟩ := sent_on hok (status_rt hok)
  have hd : (statusOf e).details ≠ [] := by simp [statusOf, hv]
  have hc : (statusOf e).code = codeNum e.code := rfl
  unfold clientSees received trailers
  simp only [if_neg hd, h1, Option.bind_some, h2, hc, parse_code, reduceIte]

theorem violations_statusOf {e : RpcErr} (ht : ∀ v ∈ e.violations, IsText v.1 ∧ IsText v.2) : (statusOf e).violations = e.violations := by
  unfold StatusPb.violations statusOf
  by_cases hv : e.violations = []
  · rw [hv]; rfl
  · simp only [if_neg hv]
    rw [List.flatMap_cons, List.flatMap_nil, List.append_nil]
    dsimp only
    rw [typeName_badRequest, if_pos rfl, badRequest_read ht, Option.getD_some]

/-! ## JSON -/

theorem violations_json (vs : List (Str × Str)) : List.Forall₂ ViolationJ vs
    (vs.map fun v => .obj [("field".toList, .str v.1), ("description".toList, .str v.2)]) := by
  induction vs with
  | nil => exact .nil
  | cons v vs ih =>
    refine .cons ⟨_, rfl, .inl ?_, .inl ?_⟩ ih
    · exact occAt (f := "field") (x := some (.str v.1)) (n := "field") (l1 := []) (l2 := [("description", some (.str v.2))]) (n1 := [])
        (n2 := ["description"]) (by decide +kernel) rfl rfl (by decide +kernel)
    · exact occAt (f := "description") (x := some (.str v.2)) (n := "description") (l1 := [("field", some (.str v.1))]) (l2 := [])
        (n1 := ["field"]) (n2 := []) (by decide +kernel) rfl rfl (by decide +kernel)

def packed (vs : List (Str × Str)) : List AnyPb := if vs = [] then [] else [⟨badRequestUrl, ser (badRequestF vs)⟩]

/-- The members of a status, and how many there are. -/
def top (code : Int) (msg : Str) (ds : List Json) : List (String × Option Json) :=
  [("code", some (.num (fmtInt code))), ("message", some (.str msg)), ("details", some (.arr ds))]

theorem top_ok {code : Int} (hc : GoInt32 code) {msg : Str} (hm : IsText msg) {vs : List (Str × Str)} {ds : List Json}
    (hn : ∀ j ∈ ds, j.numsOk) (ht : ∀ j ∈ ds, j.textOk = true) (hd : DetailsJ vs ds) :
    (Json.obj (members (top code msg ds))).numsOk ∧ (Json.obj (members (top code msg ds))).textOk = true ∧
      StatusJ code msg vs (.obj (members (top code msg ds))) := by
  refine ⟨members_nums ?_, (textOf (ns := ["code", "message", "details"]) rfl (by decide +kernel)).mpr ?_, _, ds, rfl, .inl ⟨fmtInt code, .inl ?_, intNum_fmtInt hc⟩,
    .inl ?_, ?_, hd⟩
  · simp only [top, List.forall_mem_cons, List.not_mem_nil, false_implies, implies_true, and_true]
    refine ⟨?_, ?_, ?_⟩
    · intro j hj; cases hj; exact isNumber_fmtInt code
    · intro j hj; cases hj; trivial
    · intro j hj; cases hj; exact (Json.numsOks_iff _).mpr hn
  · simp only [top, List.forall_mem_cons, List.not_mem_nil, false_implies, implies_true, and_true]
    refine ⟨?_, ?_, ?_⟩
    · intro j hj; cases hj; rfl
    · intro j hj; cases hj; rw [Json.textOk]; exact (text_iff _).mpr hm
    · intro j hj; cases hj; rw [Json.textOk]; exact (Json.textOks_iff _).mpr ht
  · exact occAt (f := "code") (x := some (.num (fmtInt code))) (n := "code") (l1 := [])
      (l2 := [("message", some (.str msg)), ("details", some (.arr ds))]) (n1 := []) (n2 := ["message", "details"])
      (by decide +kernel) rfl rfl (by decide +kernel)
  · exact occAt (f := "message") (x := some (.str msg)) (n := "message") (l1 := [("code", some (.num (fmtInt code)))])
      (l2 := [("details", some (.arr ds))]) (n1 := ["code"]) (n2 := ["details"]) (by decide +kernel) rfl rfl (by decide +kernel)
  · exact occAt (f := "details") (x := some (.arr ds)) (n := "details")
      (l1 := [("code", some (.num (fmtInt code))), ("message", some (.str msg))]) (l2 := []) (n1 := ["code", "message"]) (n2 := [])
      (by decide +kernel) rfl rfl (by decide +kernel)

def violationsJson (vs : List (Str × Str)) : List Json :=
  vs.map fun v => .obj [("field".toList, .str v.1), ("description".toList, .str v.2)]

def detail (vs : List (Str × Str)) : List (String × Option Json) :=
  [("@type", some (.str badRequestUrl)), ("fieldViolations", some (.arr (violationsJson vs)))]

theorem detail_ok {vs : List (Str × Str)} (hv : vs ≠ []) (h : ∀ v ∈ vs, IsText v.1 ∧ IsText v.2) :
    detailJson ⟨badRequestUrl, ser (badRequestF vs)⟩ = some (.obj (members (detail vs))) ∧
      (Json.obj (members (detail vs))).numsOk ∧ (Json.obj (members (detail vs))).textOk = true ∧
      DetailsJ vs [.obj (members (detail vs))] := by
  refine ⟨?_, members_nums ?_, (textOf (ns := ["@type", "fieldViolations"]) rfl (by decide +kernel)).mpr ?_, .inr ⟨hv, _, rfl, ?_, .inl ⟨violationsJson vs, ?_, violations_json vs⟩⟩⟩
  · unfold detailJson
    dsimp only
    rw [typeName_badRequest, if_pos rfl, badRequest_read h]
    rfl
  · simp only [detail, List.forall_mem_cons, List.not_mem_nil, false_implies, implies_true, and_true]
    refine ⟨fun j hj => by cases hj; trivial, fun j hj => ?_⟩
    cases hj
    refine (Json.numsOks_iff _).mpr fun j hj => ?_
    obtain ⟨v, -, rfl⟩ := List.mem_map.mp hj
    exact ⟨trivial, trivial, trivial⟩
  · simp only [detail, List.forall_mem_cons, List.not_mem_nil, false_implies, implies_true, and_true]
    have hu : utf8Valid badRequestUrl = true := by decide +kernel
    refine ⟨fun j hj => by cases hj; rw [Json.textOk]; exact hu, fun j hj => ?_⟩
    cases hj
    rw [Json.textOk]
    refine (Json.textOks_iff _).mpr fun j hj => ?_
    obtain ⟨v, hv, rfl⟩ := List.mem_map.mp hj
    rw [Json.textOk]
    refine (Json.textOkm_iff _).mpr fun m hm => ?_
    have h1 : utf8Valid "field".toList = true := by decide +kernel
    have h2 : utf8Valid "description".toList = true := by decide +kernel
    rcases List.mem_cons.mp hm with rfl | hm
    · exact ⟨h1, by rw [Json.textOk]; exact (text_iff _).mpr (h v hv).1⟩
    · rw [List.mem_singleton.mp hm]
      exact ⟨h2, by rw [Json.textOk]; exact (text_iff _).mpr (h v hv).2⟩
  · exact occAt (f := "@type") (x := some (.str badRequestUrl)) (n := "@type") (l1 := [])
      (l2 := [("fieldViolations", some (.arr (violationsJson vs)))]) (n1 := []) (n2 := ["fieldViolations"])
      (by decide +kernel) rfl rfl (by decide +kernel)
  · exact occAt (f := "field_violations") (x := some (.arr (violationsJson vs))) (n := "fieldViolations") (l1 := [("@type", some (.str badRequestUrl))])
      (l2 := []) (n1 := ["@type"]) (n2 := []) (by decide +kernel) rfl rfl (by decide +kernel)

theorem statusJson_ok {code : Int} (hc : GoInt32 code) {msg : Str} (hm : IsText msg) {vs : List (Str × Str)}
    (h : ∀ v ∈ vs, IsText v.1 ∧ IsText v.2) :
    ∃ j, statusJson ⟨code, msg, packed vs⟩ = some j ∧ j.numsOk ∧ j.textOk = true ∧ StatusJ code msg vs j := by
  by_cases hv : vs = []
  · subst hv
    obtain ⟨h1, h2, h3⟩ := top_ok hc hm (ds := []) (vs := []) (by simp) (by simp) (.inl ⟨rfl, rfl⟩)
    exact ⟨_, rfl, h1, h2, h3⟩
  · obtain ⟨d1, d2, d3, d4⟩ := detail_ok hv h
    obtain ⟨h1, h2, h3⟩ := top_ok hc hm (ds := [.obj (members (detail vs))]) (by simpa using d2) (by simpa using d3) d4
    refine ⟨_, ?_, h1, h2, h3⟩
    unfold statusJson packed
    simp only [if_neg hv]
    rw [List.mapM_cons, d1]
    rfl

end OM.Err
