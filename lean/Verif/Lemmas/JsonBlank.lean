import Verif.Lemmas.JsonWrite
/-!
# White space in what is written as JSON
-/
namespace OM.Json
open OM.Spec

theorem flatMap_charBytes_inj {a b : List Char} (h : a.flatMap charBytes = b.flatMap charBytes) : a = b := by
  have e : ∀ l : List Char, l.flatMap charBytes = (l.flatMap String.utf8EncodeChar).map fun b => Char.ofNat b.toNat := by
    intro l
    rw [List.map_flatMap]
    rfl
  rw [e, e] at h
  have hinj : Function.Injective fun b : UInt8 => Char.ofNat b.toNat := by
    intro x y hxy
    have hx : (Char.ofNat x.toNat).toNat = x.toNat := Wire.toNat_ofNat_lt x.toNat_lt
    have hy : (Char.ofNat y.toNat).toNat = y.toNat := Wire.toNat_ofNat_lt y.toNat_lt
    have : x.toNat = y.toNat := by rw [← hx, ← hy]; exact congrArg Char.toNat hxy
    exact UInt8.toNat_inj.mp this
  have h2 := (List.map_inj_right (f := fun b : UInt8 => Char.ofNat b.toNat) fun x y hxy => hinj hxy).mp h
  apply String.ofList_injective
  apply String.toByteArray_inj.mp
  show a.utf8Encode = b.utf8Encode
  unfold List.utf8Encode
  rw [h2]

/-- A text on one line, with white space in it or not. -/
def Line (t : Str) (b : Prop) : Prop := ∃ text : List Char, t = text.flatMap charBytes ∧ '\n' ∉ text ∧ ((∃ c ∈ text, White c) ↔ b)

theorem line_nil : Line [] False := ⟨[], rfl, by simp, by simp⟩

theorem line_append {s t : Str} {a b : Prop} (hs : Line s a) (ht : Line t b) : Line (s ++ t) (a ∨ b) := by
  obtain ⟨x, rfl, hx, hxa⟩ := hs
  obtain ⟨y, rfl, hy, hyb⟩ := ht
  refine ⟨x ++ y, by rw [List.flatMap_append], by simp [hx, hy], ?_⟩
  rw [← hxa, ← hyb]
  constructor
  · rintro ⟨c, hc, hw⟩
    rcases List.mem_append.mp hc with hc | hc
    · exact .inl ⟨c, hc, hw⟩
    · exact .inr ⟨c, hc, hw⟩
  · rintro (⟨c, hc, hw⟩ | ⟨c, hc, hw⟩)
    · exact ⟨c, List.mem_append_left _ hc, hw⟩
    · exact ⟨c, List.mem_append_right _ hc, hw⟩

theorem line_congr {t : Str} {a b : Prop} (h : Line t a) (e : a ↔ b) : Line t b := by
  obtain ⟨x, hx, hn, hw⟩ := h
  exact ⟨x, hx, hn, hw.trans e⟩

theorem charBytes_ascii {c : Char} (h : c.toNat < 0x80) : charBytes c = [c] := by
  rw [← appendRune_charBytes, appendRune, if_pos h, ← char_eq_ofNat rfl]

theorem flatMap_ascii (t : Str) (h : ∀ c ∈ t, c.toNat < 0x80) : t.flatMap charBytes = t := by
  induction t with
  | nil => rfl
  | cons c t ih =>
    rw [List.flatMap_cons, charBytes_ascii (h c (by simp)), ih fun d hd => h d (List.mem_cons_of_mem _ hd)]
    rfl

theorem not_white {c : Char} (h1 : 0x20 < c.toNat) (h2 : c.toNat < 0x80) : ¬ White c := by
  unfold White whiteSpace
  simp only [List.mem_cons, List.not_mem_nil, or_false]
  omega

/-- Characters between the blank and DEL. -/
theorem line_ascii {t : Str} (h : ∀ c ∈ t, 0x20 < c.toNat ∧ c.toNat < 0x80) : Line t False := by
  refine ⟨t, (flatMap_ascii t fun c hc => (h c hc).2).symm, ?_, ?_⟩
  · intro hn
    have := (h _ hn).1
    exact absurd this (by decide)
  · simp only [iff_false]
    rintro ⟨c, hc, hw⟩
    exact not_white (h c hc).1 (h c hc).2 hw

theorem line_cons {c : Char} {t : Str} {a : Prop} (h1 : 0x20 < c.toNat) (h2 : c.toNat < 0x80) (ht : Line t a) : Line (c :: t) a :=
  line_congr (line_append (line_ascii (t := [c]) (by intro d hd; rw [List.mem_singleton.mp hd]; exact ⟨h1, h2⟩)) ht) (by simp)

/-- White space that is written as it is. -/
def Kept (c : Char) : Prop := White c ∧ 0x20 ≤ c.toNat ∧ c.toNat ≠ 0x2028 ∧ c.toNat ≠ 0x2029

theorem escapes_cons {html : Bool} {c : Char} (h : c.toNat ≠ 0xE2) (s : Str) : escapes html (c :: s) = escape html c ++ escapes html s := by
  cases s with
  | nil => rfl
  | cons a s =>
    cases s with
    | nil => rfl
    | cons b s => rw [escapes, if_neg (fun k => h k.2.1)]

theorem hexDigit_range {n : Nat} (h : n < 16) : 0x20 < (hexDigit n).toNat ∧ (hexDigit n).toNat < 0x80 := by
  interval_cases n <;> decide

theorem escape_line {c : Char} (h : c.toNat < 0x80) : Line (escape true c) (Kept c) := by
  have esc : ∀ t : Str, (∀ d ∈ t, 0x20 < d.toNat ∧ d.toNat < 0x80) → ¬ Kept c → Line t (Kept c) :=
    fun t ht hk => line_congr (line_ascii ht) (by simp [hk])
  have two : ∀ e : Char, 0x20 < e.toNat ∧ e.toNat < 0x80 → ¬ Kept c → Line ['\\', e] (Kept c) := by
    intro e he hk
    refine esc _ ?_ hk
    intro d hd
    simp only [List.mem_cons, List.not_mem_nil, or_false] at hd
    rcases hd with rfl | rfl
    · decide
    · exact he
  unfold escape
  split
  · rename_i hc; subst hc; exact two _ (by decide) (fun k => not_white (by decide) (by decide) k.1)
  split
  · rename_i hc; subst hc; exact two _ (by decide) (fun k => not_white (by decide) (by decide) k.1)
  split
  · rename_i hc; exact two _ (by decide) (fun k => by have := k.2.1; omega)
  split
  · rename_i hc; exact two _ (by decide) (fun k => by have := k.2.1; omega)
  split
  · rename_i hc; exact two _ (by decide) (fun k => by have := k.2.1; omega)
  split
  · rename_i hc; exact two _ (by decide) (fun k => by have := k.2.1; omega)
  split
  · rename_i hc; exact two _ (by decide) (fun k => by have := k.2.1; omega)
  split
  · rename_i hc
    refine esc _ ?_ ?_
    · intro d hd
      simp only [List.mem_cons, List.not_mem_nil, or_false] at hd
      rcases hd with rfl | rfl | rfl | rfl | rfl | rfl
      · decide
      · decide
      · decide
      · decide
      · exact hexDigit_range (by omega)
      · exact hexDigit_range (by omega)
    · rintro ⟨hw, hk, -⟩
      rcases hc with hc | ⟨-, rfl | rfl | rfl⟩
      · omega
      · exact not_white (by decide) (by decide) hw
      · exact not_white (by decide) (by decide) hw
      · exact not_white (by decide) (by decide) hw
  · rename_i h1
    rw [not_or] at h1
    refine ⟨[c], by rw [List.flatMap_cons, charBytes_ascii h]; rfl, ?_, ?_⟩
    · intro hn
      have := List.mem_singleton.mp hn
      have : c.toNat = 10 := by rw [← this]; rfl
      omega
    · simp only [List.mem_singleton, exists_eq_left, Kept]
      constructor
      · intro hw
        exact ⟨hw, by omega, by omega, by omega⟩
      · exact fun hw => hw.1

theorem escape_high {html : Bool} {c : Char} (h : 0x80 ≤ c.toNat) : escape html c = [c] := by
  have ne : ∀ d : Char, d.toNat < 0x80 → c ≠ d := by
    rintro d hd rfl; omega
  unfold escape
  rw [if_neg (ne _ (by decide)), if_neg (ne _ (by decide)), if_neg (by omega), if_neg (by omega), if_neg (by omega), if_neg (by omega),
    if_neg (by omega), if_neg]
  rintro (hc | ⟨-, rfl | rfl | rfl⟩)
  · omega
  · exact absurd h (by decide)
  · exact absurd h (by decide)
  · exact absurd h (by decide)

theorem char_lt (c : Char) : c.toNat < 0x110000 := by
  rcases c.valid with h | h
  · have : c.toNat < 0xD800 := h
    omega
  · exact h.2

theorem escapes_high {c : Char} (h : 0x80 ≤ c.toNat) (h1 : c.toNat ≠ 0x2028) (h2 : c.toNat ≠ 0x2029) (s : Str) :
    escapes true (charBytes c ++ s) = charBytes c ++ escapes true s := by
  have hlt := char_lt c
  have step : ∀ (n : Nat) (r : Str), 0x80 ≤ n → n < 0x100 → n ≠ 0xE2 →
      escapes true (Char.ofNat n :: r) = Char.ofNat n :: escapes true r := by
    intro n r ha hb hc
    have e := Wire.toNat_ofNat_lt hb
    rw [escapes_cons (by omega), escape_high (by omega)]
    rfl
  rw [← appendRune_charBytes]
  generalize c.toNat = n at *
  unfold appendRune
  rw [if_neg (by omega)]
  split
  · show escapes true (Char.ofNat _ :: (Char.ofNat _ :: s)) = _
    rw [step _ _ (by omega) (by omega) (by omega), step _ _ (by omega) (by omega) (by omega)]
    rfl
  split
  · show escapes true (Char.ofNat _ :: (Char.ofNat _ :: (Char.ofNat _ :: s))) = _
    have e1 := Wire.toNat_ofNat_lt (n := 0xE0 + n / 4096) (by omega)
    have e2 := Wire.toNat_ofNat_lt (n := 0x80 + n / 64 % 64) (by omega)
    have e3 := Wire.toNat_ofNat_lt (n := 0x80 + n % 64) (by omega)
    rw [escapes, if_neg (by rw [e1, e2, e3]; omega), escape_high (by omega), step _ _ (by omega) (by omega) (by omega),
      step _ _ (by omega) (by omega) (by omega)]
    rfl
  · show escapes true (Char.ofNat _ :: (Char.ofNat _ :: (Char.ofNat _ :: (Char.ofNat _ :: s)))) = _
    rw [step _ _ (by omega) (by omega) (by omega), step _ _ (by omega) (by omega) (by omega), step _ _ (by omega) (by omega) (by omega),
      step _ _ (by omega) (by omega) (by omega)]
    rfl

theorem escapes_line (text : List Char) : Line (escapes true (text.flatMap charBytes)) (∃ c ∈ text, Kept c) := by
  induction text with
  | nil => exact line_congr line_nil (by simp)
  | cons c text ih =>
    rw [List.flatMap_cons]
    have key : ∀ t, escapes true (charBytes c ++ text.flatMap charBytes) = t ++ escapes true (text.flatMap charBytes) →
        Line t (Kept c) → Line (escapes true (charBytes c ++ text.flatMap charBytes)) (∃ d ∈ c :: text, Kept d) := by
      intro t e ht
      rw [e]
      exact line_congr (line_append ht ih) (by simp)
    by_cases h : c.toNat < 0x80
    · refine key _ ?_ (escape_line h)
      rw [charBytes_ascii h]
      exact escapes_cons (by omega) _
    have sep : ∀ (b : Char) (d : Nat), d < 16 → charBytes c = [Char.ofNat 0xE2, Char.ofNat 0x80, b] → (b.toNat = 0xA8 ∨ b.toNat = 0xA9) →
        ¬ Kept c → Line (escapes true (charBytes c ++ text.flatMap charBytes)) (∃ d ∈ c :: text, Kept d) := by
      intro b d hd hc hb hk
      refine key ['\\', 'u', '2', '0', '2', hexDigit (b.toNat % 16)] ?_ (line_congr (line_ascii ?_) (by simp [hk]))
      · rw [hc]
        show escapes true (_ :: (_ :: (_ :: _))) = _
        rw [escapes, if_pos ⟨rfl, by decide, by decide, hb⟩]
        rfl
      · intro d hd
        simp only [List.mem_cons, List.not_mem_nil, or_false] at hd
        rcases hd with rfl | rfl | rfl | rfl | rfl | rfl
        · decide
        · decide
        · decide
        · decide
        · decide
        · exact hexDigit_range (by omega)
    by_cases h1 : c.toNat = 0x2028
    · refine sep (Char.ofNat 0xA8) 8 (by omega) ?_ (by decide) (fun k => k.2.2.1 h1)
      rw [char_eq_ofNat h1]; decide +kernel
    by_cases h2 : c.toNat = 0x2029
    · refine sep (Char.ofNat 0xA9) 9 (by omega) ?_ (by decide) (fun k => k.2.2.2 h2)
      rw [char_eq_ofNat h2]; decide +kernel
    refine key _ (escapes_high (by omega) h1 h2 _) ⟨[c], by simp, ?_, ?_⟩
    · intro hn
      have := List.mem_singleton.mp hn
      have : c.toNat = 10 := by rw [← this]; rfl
      omega
    · simp only [List.mem_singleton, exists_eq_left, Kept]
      constructor
      · intro hw
        exact ⟨hw, by omega, h1, h2⟩
      · exact fun hw => hw.1

theorem writeStr_line {s : Str} (h : Wire.utf8Valid s = true) : Line (writeStr true s) (Blank s) := by
  obtain ⟨text, rfl⟩ := (Wire.utf8Valid_iff s).mp h
  unfold writeStr
  have h1 := line_append (escapes_line text) (line_ascii (t := ['"']) (by intro d hd; rw [List.mem_singleton.mp hd]; decide))
  refine line_congr (line_cons (c := '"') (by decide) (by decide) h1) ?_
  unfold Blank
  constructor
  · rintro (⟨c, hc, hk⟩ | hf)
    · exact ⟨text, rfl, c, hc, hk⟩
    · exact hf.elim
  · rintro ⟨text', he, c, hc, hk⟩
    rw [flatMap_charBytes_inj he]
    exact .inl ⟨c, hc, hk⟩

theorem number_range {t : Str} (h : IsNumber t) : ∀ c ∈ t, 0x20 < c.toNat ∧ c.toNat < 0x80 := by
  have dig : ∀ {d : Str}, Decimals d → ∀ c ∈ d, 0x20 < c.toNat ∧ c.toNat < 0x80 := by
    intro d hd c hc
    have h1 := List.all_eq_true.mp ((decimals_all d).mp hd).2 c hc
    rw [Char.isDigit, Bool.and_eq_true, decide_eq_true_eq, decide_eq_true_eq] at h1
    have h2 : 48 ≤ c.toNat := h1.1
    have h3 : c.toNat ≤ 57 := h1.2
    omega
  obtain ⟨neg, i, f, e, fp, ep, rfl, hi, -, hf, he⟩ := h
  intro c hc
  rcases List.mem_append.mp hc with hc | hc
  · split at hc
    · rw [List.mem_singleton.mp hc]; decide
    · cases hc
  rcases List.mem_append.mp hc with hc | hc
  · exact dig hi c hc
  rcases List.mem_append.mp hc with hc | hc
  · rcases hf with ⟨rfl, -⟩ | ⟨rfl, hf⟩
    · cases hc
    · rcases List.mem_cons.mp hc with rfl | hc
      · decide
      · exact dig hf c hc
  · rcases he with ⟨rfl, -⟩ | ⟨x, sign, ds, rfl, hx, hds, hs⟩
    · cases hc
    · rcases List.mem_cons.mp hc with rfl | hc
      · rcases hx with rfl | rfl <;> decide
      rcases List.mem_append.mp hc with hc | hc
      · rcases hs with ⟨rfl | rfl, -⟩ | ⟨rfl, -⟩
        · cases hc
        · rw [List.mem_singleton.mp hc]; decide
        · rw [List.mem_singleton.mp hc]; decide
      · exact dig hds c hc

/-- What streamed results look like: one line, with white space exactly where a string has it. -/
theorem write_line (j : Json) : numsOk j → textOk j = true → Line (write true [] j) (∃ s ∈ strings j, Blank s) := by
  have lit : ∀ s : Str, (∀ c ∈ s, 0x20 < c.toNat ∧ c.toNat < 0x80) → Line s (∃ s ∈ ([] : List Str), Blank s) :=
    fun s h => line_congr (line_ascii h) (by simp)
  refine Json.rec
    (motive_1 := fun j => numsOk j → textOk j = true → Line (write true [] j) (∃ s ∈ strings j, Blank s))
    (motive_2 := fun l => numsOks l → textOks l = true → Line (writeElems true [] l) (∃ s ∈ elemStrings l, Blank s))
    (motive_3 := fun l => numsOkm l → textOkm l = true → Line (writeMembers true [] l) (∃ s ∈ memberStrings l, Blank s))
    (motive_4 := fun m => numsOk m.2 → Wire.utf8Valid m.1 = true → textOk m.2 = true →
      Line (writeStr true m.1 ++ ':' :: write true [] m.2) (Blank m.1 ∨ ∃ s ∈ strings m.2, Blank s))
    ?_ ?_ ?_ ?_ ?_ ?_ ?_ ?_ ?_ ?_ ?_ j
  · intro _ _; exact lit _ (by decide)
  · intro b _ _
    cases b <;> exact lit _ (by decide)
  · intro t h _; exact lit _ (number_range h)
  · intro s _ h
    exact line_congr (writeStr_line h) (by simp [strings])
  · intro l ih hn ht
    rw [write, strings]
    refine line_congr (line_cons (c := '[') (by decide) (by decide)
      (line_append (ih hn ht) (line_ascii (t := [']']) (by intro d hd; rw [List.mem_singleton.mp hd]; decide)))) (by simp)
  · intro l ih hn ht
    rw [write, strings]
    refine line_congr (line_cons (c := '{') (by decide) (by decide)
      (line_append (ih hn ht) (line_ascii (t := ['}']) (by intro d hd; rw [List.mem_singleton.mp hd]; decide)))) (by simp)
  · intro _ _; exact lit _ (by simp [writeElems])
  · intro j l ihj ihl hn ht
    rw [textOks, Bool.and_eq_true] at ht
    cases l with
    | nil => exact line_congr (ihj hn.1 ht.1) (by simp [elemStrings])
    | cons k l =>
      rw [writeElems.eq_3 _ _ _ _ (by simp)]
      rw [show ',' :: ([] : Str) = [','] from rfl, List.append_assoc]
      refine line_congr (line_append (ihj hn.1 ht.1) (line_cons (c := ',') (by decide) (by decide) (ihl hn.2 ht.2))) ?_
      rw [elemStrings.eq_2 j]
      simp only [List.mem_append, or_and_right, exists_or]
  · intro _ _; exact lit _ (by simp [writeMembers])
  · rintro ⟨k, j⟩ l ihj ihl hn ht
    rw [textOkm, Bool.and_eq_true, Bool.and_eq_true] at ht
    cases l with
    | nil => exact line_congr (ihj hn.1 ht.1.1 ht.1.2) (by simp [memberStrings])
    | cons m l =>
      rw [writeMembers.eq_3 _ _ _ _ _ (by simp)]
      rw [show writeStr true k ++ ':' :: write true [] j ++ [','] ++ writeMembers true [] (m :: l) =
        (writeStr true k ++ ':' :: write true [] j) ++ (',' :: writeMembers true [] (m :: l)) by simp]
      refine line_congr (line_append (ihj hn.1 ht.1.1 ht.1.2) (line_cons (c := ',') (by decide) (by decide) (ihl hn.2 ht.2))) ?_
      rw [memberStrings.eq_2 k]
      simp only [List.mem_cons, List.mem_append, or_and_right, exists_or, exists_eq_left, or_assoc]
  · intro k j ih hn hk ht
    exact line_append (writeStr_line hk) (line_cons (by decide) (by decide) (ih hn ht))

end OM.Json
