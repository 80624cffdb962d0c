import Verif.Lemmas.ProtoJsonWire
import Verif.Lemmas.Mmf
/-!
# The extensions of the example's MMFs as JSON
-/
namespace OM.PJ
open OM.Spec

theorem value_text {j : Json} (h : j.numsOk) : (∃ t, JText (.obj [("value".toList, j)]) t) ∧
    ∀ m ∈ [("value".toList, j)], m.1 ≠ "@type".toList := by
  refine ⟨⟨_, Json.write_text false (sep := []) (by intro c hc; cases hc) _ ⟨h, trivial⟩⟩, ?_⟩
  intro m hm
  rw [List.mem_singleton.mp hm]
  exact (by decide : "value".toList ≠ "@type".toList)

theorem wellKnown_enc (url v : Str) : wellKnown.enc url v = (Wire.parseAll v).bind fun fs =>
    if typeName url = "google.protobuf.StringValue".toList then some [("value".toList, .str (Wire.getStr 1 fs))]
    else if typeName url = "google.protobuf.Int32Value".toList then some [("value".toList, .num (fmtInt (Wire.getInt32 1 fs)))]
    else if typeName url = "google.protobuf.Timestamp".toList then (timeJson (Wire.toTimestamp fs)).map fun j => [("value".toList, j)]
    else none := rfl

theorem wellKnown_dec (url : Str) (ms : List (Str × Json)) : wellKnown.dec url ms =
    if typeName url = "google.protobuf.StringValue".toList then ((valueOf ms).bind asStr).map fun s => Wire.ser (Wire.strField 1 s)
    else if typeName url = "google.protobuf.Int32Value".toList then ((valueOf ms).bind asInt).map fun v => Wire.ser (Wire.intField 1 v)
    else if typeName url = "google.protobuf.Timestamp".toList then ((valueOf ms).bind asTime).map fun t => Wire.ser (Wire.timestampF t)
    else none := rfl

theorem wellKnown_members {url v : Str} {ms : List (Str × Json)} (h : wellKnown.enc url v = some ms) :
    (∃ t, JText (.obj ms) t) ∧ ∀ m ∈ ms, m.1 ≠ "@type".toList := by
  obtain ⟨fs, -, h⟩ := Option.bind_eq_some_iff.mp h
  split at h
  · cases h; exact value_text trivial
  · split at h
    · cases h; exact value_text (isNumber_fmtInt _)
    · split at h
      · obtain ⟨j, hj, rfl⟩ := Option.map_eq_some_iff.mp h
        exact value_text (timeW.shape _ _ hj).1
      · cases h

theorem wellKnown_bytes (fl : FloatText) (o : Opts) : BytesOk ⟨fl, wellKnown, o⟩ := by
  intro url ms v t ht h c hc
  have h1 : Wire.bytesOk v = true := by
    have hd : (Json.obj ms).textOk = true := by
      have h3 := ht
      obtain ⟨-, _, _, _, -, -, h3, -⟩ := h3
      exact (jdoc_exists (jtext_nums h3)).mp ⟨t, ht⟩
    rw [wellKnown_dec] at h
    split at h
    · obtain ⟨s, hs, rfl⟩ := Option.map_eq_some_iff.mp h
      obtain ⟨j, hj, hs⟩ := Option.bind_eq_some_iff.mp hs
      have hs : Wire.utf8Valid s = true := by
        unfold valueOf at hj
        split at hj
        · rename_i m
          split at hj
          · cases hj
            rw [asStr_iff] at hs
            rw [Json.textOk, Json.textOkm_iff] at hd
            have := (hd m (by simp)).2
            rwa [hs, Json.textOk] at this
          · cases hj
        · cases hj
      apply Wire.bytesOk_ser
      intro f s' hm
      unfold Wire.strField at hm
      split at hm
      · cases hm
      · simp only [List.mem_singleton, Prod.mk.injEq, Wire.WVal.len.injEq] at hm
        rw [hm.2]
        exact Wire.bytesOk_of_utf8 hs
    · split at h
      · obtain ⟨x, -, rfl⟩ := Option.map_eq_some_iff.mp h
        apply Wire.bytesOk_ser
        intro f s' hm
        unfold Wire.intField at hm
        split at hm <;> simp at hm
      · split at h
        · obtain ⟨x, -, rfl⟩ := Option.map_eq_some_iff.mp h
          apply Wire.bytesOk_ser
          intro f s' hm
          unfold Wire.timestampF Wire.intField at hm
          repeat' split at hm
          all_goals simp at hm
        · cases h
  rw [Wire.bytesOk, List.all_eq_true] at h1
  exact of_decide_eq_true (h1 c hc)

/-- A way of writing doubles that meets the contract: the number of the bit pattern. -/
def bitsText : FloatText where
  parse t := if t.all (·.isDigit) ∧ t ≠ [] then some (BitVec.ofNat 64 (Json.natOf t)) else none
  format x := fmtNat x.toNat

theorem bitsText_ok (x : F64) : IsNumber (bitsText.format x) ∧ bitsText.parse (bitsText.format x) = some x := by
  have h := isNumber_fmtInt (x.toNat : Int)
  rw [show fmtInt (x.toNat : Int) = fmtNat x.toNat from rfl] at h
  refine ⟨h, ?_⟩
  have hd := (Serve.decInt_fmtNat x.toNat).1
  have h1 := (Json.decimals_all (fmtNat x.toNat)).mp hd
  show (if (fmtNat x.toNat).all (·.isDigit) = true ∧ fmtNat x.toNat ≠ [] then _ else none) = some x
  rw [if_pos ⟨h1.2, h1.1⟩, natOf_eq]
  have h2 : digitsValue (bitsText.format x) = x.toNat := (Serve.decInt_fmtNat x.toNat).2
  rw [h2]
  simp

theorem wellKnown_ok {fl : FloatText} (hf : ∀ x, F64.isNaN x = false → x ≠ 0x7FF0000000000000 → x ≠ 0xFFF0000000000000 →
    IsNumber (fl.format x) ∧ fl.parse (fl.format x) = some x) (o : Opts) : EnvOk ⟨fl, wellKnown, o⟩ :=
  ⟨hf, fun _ _ _ h => wellKnown_members h⟩

/-! ## What the MMFs of the example put into matches -/

theorem isText_ascii {s : Str} (h : ∀ c ∈ s, c.toNat < 0x80) : IsText s := by
  refine ⟨s, ?_⟩
  induction s with
  | nil => rfl
  | cons c s ih =>
    have hc : charBytes c = [c] := by
      rw [← Json.appendRune_charBytes, Json.appendRune, if_pos (h c (by simp)), ← Json.char_eq_ofNat rfl]
    rw [List.flatMap_cons, hc, ← ih fun d hd => h d (List.mem_cons_of_mem _ hd)]
    rfl

theorem isText_append {a b : Str} (ha : IsText a) (hb : IsText b) : IsText (a ++ b) := by
  obtain ⟨x, rfl⟩ := ha
  obtain ⟨y, rfl⟩ := hb
  exact ⟨x ++ y, by rw [List.flatMap_append]⟩

theorem isText_digits {s : Str} (h : ∀ c ∈ s, c.isDigit = true) : IsText s := by
  refine isText_ascii fun c hc => ?_
  have h1 := h c hc
  rw [Char.isDigit, Bool.and_eq_true, decide_eq_true_eq, decide_eq_true_eq] at h1
  have h3 : c.toNat ≤ 57 := h1.2
  omega

theorem isText_fmtNat (n : Nat) : IsText (fmtNat n) := isText_digits fun _ h => isDigit_fmtNat h

theorem isText_fmtNatPad (w n : Nat) : IsText (fmtNatPad w n) := by
  rw [fmtNatPad]
  refine isText_append (isText_ascii fun c hc => ?_) (isText_fmtNat n)
  rw [List.eq_of_mem_replicate hc]
  decide

/-- One wrapped value. -/
theorem wrapped_ok {fl : FloatText} {o : Opts} {url v : Str} {j : Json} (hu : url ≠ []) (ht : IsText url) (hj : j.numsOk) (hx : j.textOk = true)
    (he : wellKnown.enc url v = some [("value".toList, j)]) (hd : wellKnown.dec url [("value".toList, j)] = some v) :
    AnyOk ⟨fl, wellKnown, o⟩ ⟨url, v⟩ ∧ AnyGo ⟨fl, wellKnown, o⟩ ⟨url, v⟩ := by
  refine ⟨.inr ⟨hu, ht, _, _, he, (Json.write_doc false (sep := []) (by intro c hc; cases hc) ⟨hj, trivial⟩ ?_)⟩, fun ms hm => ?_⟩
  · simp only [Json.textOk, Json.textOkm, hx, Bool.and_true]
    decide +kernel
  · have : ms = [("value".toList, j)] := Option.some.inj (hm.symm.trans he)
    rw [this]
    exact hd

theorem value_one (j : Json) : valueOf [("value".toList, j)] = some j := by
  unfold valueOf
  exact if_pos rfl

theorem getStr_strField (s : Str) : Wire.getStr 1 (Wire.strField 1 s) = s := by
  unfold Wire.getStr
  rw [Wire.lens_strField, if_pos rfl]
  by_cases h : s = []
  · rw [if_pos h, h]; rfl
  · rw [if_neg h]; rfl

theorem anyString_ok {fl : FloatText} {o : Opts} {s : Str} (h : IsText s) :
    AnyOk ⟨fl, wellKnown, o⟩ (Mmf.anyString s) ∧ AnyGo ⟨fl, wellKnown, o⟩ (Mmf.anyString s) := by
  have hn : typeName "type.googleapis.com/google.protobuf.StringValue".toList = "google.protobuf.StringValue".toList := by decide +kernel
  refine wrapped_ok (j := .str s) (by decide) (isText_ascii (by decide +kernel)) trivial ((Wire.utf8Valid_iff s).mpr h) ?_ ?_
  · rw [wellKnown_enc, Wire.parseAll_ser, Option.bind_some, if_pos hn, getStr_strField]
  · rw [wellKnown_dec, if_pos hn]
    rfl

theorem anyInt32_ok {fl : FloatText} {o : Opts} {v : Int} (h : GoInt32 v) :
    AnyOk ⟨fl, wellKnown, o⟩ (Mmf.anyInt32 v) ∧ AnyGo ⟨fl, wellKnown, o⟩ (Mmf.anyInt32 v) := by
  have hn : typeName "type.googleapis.com/google.protobuf.Int32Value".toList = "google.protobuf.Int32Value".toList := by decide +kernel
  have hd : ("google.protobuf.Int32Value".toList = "google.protobuf.StringValue".toList) ↔ False := by decide +kernel
  refine wrapped_ok (j := .num (fmtInt v)) (by decide) (isText_ascii (by decide +kernel)) (isNumber_fmtInt v) rfl ?_ ?_
  · rw [wellKnown_enc, Wire.parseAll_ser, Option.bind_some, hn, if_neg hd.mp, if_pos rfl]
    have : Wire.getInt32 1 (Wire.intField 1 v) = v := by
      unfold Wire.getInt32
      rw [Wire.ints_intField, if_pos rfl]
      by_cases h0 : v = 0
      · rw [if_pos h0, h0]; rfl
      · rw [if_neg h0]
        exact Wire.dec32_enc64 v h.1 h.2
    rw [this]
  · rw [wellKnown_dec, hn, if_neg hd.mp, if_pos rfl]
    rw [value_one, Option.bind_some, (asInt_iff v (.num (fmtInt v))).mpr ⟨_, .inl rfl, intNum_fmtInt h⟩, Option.map_some]

theorem anyTime_ok {fl : FloatText} {o : Opts} {t : Timestamp} (h : TimeOk t) :
    AnyOk ⟨fl, wellKnown, o⟩ (Mmf.anyTime t) ∧ AnyGo ⟨fl, wellKnown, o⟩ (Mmf.anyTime t) := by
  have hn : typeName "type.googleapis.com/google.protobuf.Timestamp".toList = "google.protobuf.Timestamp".toList := by decide +kernel
  have hd : ("google.protobuf.Timestamp".toList = "google.protobuf.StringValue".toList) ↔ False := by decide +kernel
  have hd' : ("google.protobuf.Timestamp".toList = "google.protobuf.Int32Value".toList) ↔ False := by decide +kernel
  obtain ⟨j, hj, hx⟩ := (timeW.exact_ t).mpr h
  refine wrapped_ok (j := j) (by decide) (isText_ascii (by decide +kernel)) (timeW.shape _ _ hj).1 hx ?_ ?_
  · rw [wellKnown_enc, Wire.parseAll_ser, Option.bind_some, hn, if_neg hd.mp, if_neg hd'.mp, if_pos rfl,
      Wire.toTimestamp_timestampF, hj, Option.map_some]
    obtain ⟨h1, h2, h3, h4⟩ := h
    simp only [Wire.tsOk, decide_eq_true_eq]
    omega
  · rw [wellKnown_dec, hn, if_neg hd.mp, if_neg hd'.mp, if_pos rfl]
    rw [value_one, Option.bind_some, (asTime_iff t j).mpr (timeW.means _ _ hj trivial), Option.map_some]

end OM.PJ
