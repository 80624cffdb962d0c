import Verif.Model.Serve
import Verif.Spec.Serve
import Verif.Lemmas.Wire
import Verif.Lemmas.Config
/-! # Lemmas: decimal numbers and wrapped values -/
namespace OM.Serve
open OM.Spec

theorem isDigit_iff {c : Char} : c.isDigit = true ↔ '0' ≤ c ∧ c ≤ '9' := by
  simp only [Char.isDigit, Bool.and_eq_true, decide_eq_true_eq, ge_iff_le]; exact Iff.rfl

theorem revValue_append (a b : Str) : revValue (a ++ b) = revValue a + 10 ^ a.length * revValue b := by
  induction a with
  | nil => simp [revValue]
  | cons c a ih => simp only [List.cons_append, revValue, ih, List.length_cons, pow_succ]; ring

theorem ofDigitChars_value (s : Str) : ∀ n, Nat.ofDigitChars 10 s n = 10 ^ s.length * n + digitsValue s := by
  induction s with
  | nil => intro n; simp [digitsValue, revValue]
  | cons c s ih =>
    intro n
    rw [Nat.ofDigitChars_cons, ih]
    simp only [digitsValue, List.reverse_cons, revValue_append, List.length_reverse, revValue, List.length_cons, pow_succ,
      show ('0' : Char).toNat = 48 from rfl]
    ring

theorem digitsValue_eq (s : Str) : digitsValue s = Nat.ofDigitChars 10 s 0 := by rw [ofDigitChars_value]; simp

/-- The loop accepts digits only. -/
theorem loop_ok : ∀ (s : Str) (n : Nat) (us : Bool) (m : Nat) (us' : Bool), parseUintLoop 10 false s n us = .ok m us' →
    (∀ c ∈ s, c.isDigit = true) ∧ m = Nat.ofDigitChars 10 s n := by
  intro s
  induction s with
  | nil => intro n us m us' h; simp only [parseUintLoop, UintRes.ok.injEq] at h; simp [h.1]
  | cons c s ih =>
    intro n us m us' h
    simp only [parseUintLoop] at h
    rw [if_neg (by simp)] at h
    split at h
    · cases h
    · rename_i d hd
      split at h
      · cases h
      · rename_i hlt
        split at h
        · cases h
        · have hdig : c.isDigit = true := by
            unfold digitVal at hd
            split at hd
            · exact isDigit_iff.2 ‹_›
            · split at hd
              · cases hd; omega
              · split at hd
                · cases hd; omega
                · cases hd
          have hd' := digitVal_of_isDigit hdig
          rw [hd] at hd'
          obtain rfl := Option.some.inj hd'
          obtain ⟨h1, h2⟩ := ih _ _ _ _ h
          refine ⟨by simpa [hdig] using h1, ?_⟩
          rw [h2, Nat.ofDigitChars_cons, Nat.mul_comm n 10]

/-- The loop fails on digits only by overflow. -/
theorem loop_digits {s : Str} (hd : ∀ c ∈ s, c.isDigit = true) (us : Bool) {m : Nat} (h : Nat.ofDigitChars 10 s 0 = m)
    (hm : m ≤ 2 ^ 63) : parseUintLoop 10 false s 0 us = .ok m us := by
  subst h
  exact parseUintLoop_digits s 0 us hd (by simp only [maxUint64]; omega)

theorem decimals_iff {s : Str} : Decimals s ↔ s ≠ [] ∧ ∀ c ∈ s, c.isDigit = true := by
  unfold Decimals
  simp only [isDigit_iff]

theorem signed_loop {neg : Bool} {s : Str} {v : Int} (hs : s ≠ []) :
    signedOf neg (parseUintLoop 10 false s 0 false) = .ok v ↔
      Decimals s ∧ v = (if neg then -(digitsValue s : Int) else digitsValue s) ∧ -2 ^ 63 ≤ v ∧ v < 2 ^ 63 := by
  constructor
  · intro h
    cases hl : parseUintLoop 10 false s 0 false with
    | syntaxErr => simp [hl, signedOf] at h
    | rangeErr => rw [hl] at h; cases neg <;> simp [signedOf] at h
    | ok m us =>
      obtain ⟨h1, h2⟩ := loop_ok _ _ _ _ _ hl
      rw [hl] at h
      rw [digitsValue_eq, ← h2]
      refine ⟨decimals_iff.2 ⟨hs, h1⟩, ?_⟩
      cases neg <;> simp only [signedOf, Bool.false_eq_true, if_false, if_true] at h ⊢ <;> split at h <;> cases h <;> omega
  · rintro ⟨h1, h2, h3, h4⟩
    rw [decimals_iff] at h1
    have hm : digitsValue s ≤ 2 ^ 63 := by cases neg <;> simp only [Bool.false_eq_true, if_false, if_true] at h2 <;> omega
    rw [loop_digits h1.2 false (digitsValue_eq s).symm hm]
    cases neg <;> simp only [signedOf, Bool.false_eq_true, if_false, if_true] at h2 ⊢ <;> subst h2
    · rw [if_neg (by omega)]
    · rw [if_neg (by omega)]

/-- `strconv.ParseInt(s, 10, 64)` reads exactly the decimal numbers in the range of an int64. -/
theorem parseInt10_iff (s : Str) (v : Int) : parseInt10 s = .ok v ↔ DecInt s v ∧ -2 ^ 63 ≤ v ∧ v < 2 ^ 63 := by
  have hsign : ∀ {c : Char}, c.isDigit = true → c ≠ '+' ∧ c ≠ '-' := fun h =>
    ⟨by rintro rfl; revert h; decide, by rintro rfl; revert h; decide⟩
  cases s with
  | nil =>
    constructor
    · intro h; simp [parseInt10] at h
    · rintro ⟨h, -⟩; cases h; rename_i h; exact absurd rfl h.1
  | cons c s =>
    unfold parseInt10
    dsimp only
    by_cases hc : c = '+' ∨ c = '-'
    · simp only [hc, if_true]
      by_cases hs : s = []
      · simp only [hs, if_true]
        constructor
        · intro h; cases h
        · rintro ⟨h, -⟩
          cases h
          · rename_i h
            have := (decimals_iff.1 h).2 c (by simp)
            rcases hc with rfl | rfl <;> revert this <;> decide
          · rename_i h; exact absurd rfl h.1
          · rename_i h; exact absurd rfl h.1
      · simp only [hs, if_false]
        rw [signed_loop hs]
        rcases hc with rfl | rfl
        · simp only [show decide ('+' = '-') = false by decide, Bool.false_eq_true, if_false]
          constructor
          · rintro ⟨h1, rfl, h3⟩; exact ⟨.plus h1, h3⟩
          · rintro ⟨h, h3⟩
            cases h
            · rename_i h; exact absurd rfl (hsign ((decimals_iff.1 h).2 _ (by simp))).1
            · rename_i h; exact ⟨h, rfl, h3⟩
        · simp only [decide_true, if_true]
          constructor
          · rintro ⟨h1, rfl, h3⟩; exact ⟨.minus h1, h3⟩
          · rintro ⟨h, h3⟩
            cases h
            · rename_i h; exact absurd rfl (hsign ((decimals_iff.1 h).2 _ (by simp))).2
            · rename_i h; exact ⟨h, rfl, h3⟩
    · have h1 : c ≠ '+' := fun h => hc (.inl h)
      have h2 : c ≠ '-' := fun h => hc (.inr h)
      simp only [hc, if_false, reduceCtorEq]
      rw [signed_loop (by simp)]
      simp only [h2, decide_false, Bool.false_eq_true, if_false]
      constructor
      · rintro ⟨h1, rfl, h3⟩; exact ⟨.plain h1, h3⟩
      · rintro ⟨h, h3⟩
        cases h
        · rename_i h; exact ⟨h, rfl, h3⟩
        · exact absurd rfl h1
        · exact absurd rfl h2

theorem decInt_fmtNat (n : Nat) : Decimals (fmtNat n) ∧ digitsValue (fmtNat n) = n :=
  ⟨decimals_iff.2 ⟨fmtNat_ne_nil n, fun _ h => isDigit_fmtNat h⟩, by rw [digitsValue_eq, ofDigitChars_fmtNat]⟩

/-! ## Wrapped values -/

theorem varint_of_get : ∀ {s : Str} {n : Nat}, Wire.getVarint s = some (n, []) → Varint s n := by
  intro s
  induction s with
  | nil => intro n h; cases h
  | cons c s ih =>
    intro n h
    unfold Wire.getVarint at h
    split at h
    · simp only [Option.some.injEq, Prod.mk.injEq] at h
      obtain ⟨rfl, rfl⟩ := h
      exact .last ‹_›
    · cases hg : Wire.getVarint s with
      | none => simp [hg] at h
      | some p =>
        obtain ⟨m, r⟩ := p
        simp only [hg, Option.map_some, Option.some.injEq, Prod.mk.injEq] at h
        obtain ⟨rfl, rfl⟩ := h
        exact .more (by omega) (ih hg)

theorem varint_spec (n : Nat) : Varint (Wire.varint n) n := by
  apply varint_of_get
  have := Wire.getVarint_varint n []
  simpa using this

theorem varint_small {n : Nat} (h : n < 128) : ∃ c : Char, Wire.varint n = [c] ∧ c.toNat = n := by
  have hv := varint_spec n
  refine ⟨Wire.byte n, ?_, Wire.byte_toNat (by omega)⟩
  unfold Wire.varint
  cases Nat.log2 n / 7 with
  | zero => simp [Wire.varintF, Nat.mod_eq_of_lt h]
  | succ k => simp [Wire.varintF, h]

theorem intBytes_ser {f : Nat} (hf : f < 16) (v : Int) : IntBytes (f * 8) v (Wire.ser (Wire.intField f v)) := by
  unfold Wire.intField
  by_cases hv : v = 0
  · left; simp [hv, Wire.ser]
  · right
    refine ⟨hv, ?_⟩
    obtain ⟨c, h1, h2⟩ := varint_small (show f * 8 < 128 by omega)
    refine ⟨c, Wire.varint (Wire.enc64 v), Wire.enc64 v, ?_, h2, varint_spec _, ?_⟩
    · simp [hv, Wire.ser, Wire.encField, h1]
    · unfold Wire.enc64; omega

theorem strBytes_ser {f : Nat} (hf : f < 15) (s : Str) : StrBytes (f * 8 + 2) s (Wire.ser (Wire.strField f s)) := by
  unfold Wire.strField
  by_cases hs : s = []
  · left; simp [hs, Wire.ser]
  · right
    refine ⟨hs, ?_⟩
    obtain ⟨c, h1, h2⟩ := varint_small (show f * 8 + 2 < 128 by omega)
    exact ⟨c, Wire.varint s.length, by simp [hs, Wire.ser, Wire.encField, h1], h2, varint_spec _⟩

theorem holdsString (s : Str) : HoldsString (Mmf.anyString s) s := ⟨rfl, strBytes_ser (by decide) s⟩
theorem holdsInt32 (v : Int) : HoldsInt32 (Mmf.anyInt32 v) v := ⟨rfl, intBytes_ser (by decide) v⟩
theorem holdsTime (t : Timestamp) : HoldsTime (Mmf.anyTime t) t := by
  unfold HoldsTime Mmf.anyTime
  refine And.intro rfl ⟨Wire.ser (Wire.intField 1 t.seconds), Wire.ser (Wire.intField 2 t.nanos), ?_, ?_⟩
  · simp only [Wire.timestampF, Wire.ser, List.flatMap_append]
  · exact And.intro (intBytes_ser (f := 1) (by decide) t.seconds) (intBytes_ser (f := 2) (by decide) t.nanos)

/-! ## Dates -/

theorem dateAfter_ok (n : Nat) : 1 ≤ (dateAfter n).2.1 ∧ (dateAfter n).2.1 ≤ 12 ∧ 1 ≤ (dateAfter n).2.2 ∧ (dateAfter n).2.2 ≤ 31 := by
  induction n with
  | zero => decide
  | succ n ih =>
    have hd : daysIn (dateAfter n).1 (dateAfter n).2.1 ≤ 31 := by unfold daysIn; repeat' split
                                                                  all_goals omega
    simp only [dateAfter, nextDay]
    split
    · simp only; omega
    · split <;> simp only <;> omega

/-- A number that orders dates. -/
def dateKey (d : Nat × Nat × Nat) : Nat := (d.1 * 100 + d.2.1) * 100 + d.2.2

theorem dateKey_next (n : Nat) : dateKey (dateAfter n) < dateKey (dateAfter (n + 1)) := by
  have h := dateAfter_ok n
  simp only [dateAfter, nextDay, dateKey]
  split
  · simp only; omega
  · split <;> simp only <;> omega

theorem dateKey_lt {m n : Nat} (h : m < n) : dateKey (dateAfter m) < dateKey (dateAfter n) := by
  induction n with
  | zero => omega
  | succ n ih =>
    rcases Nat.lt_or_ge m n with h' | h'
    · exact Nat.lt_trans (ih h') (dateKey_next n)
    · obtain rfl : m = n := by omega
      exact dateKey_next m

theorem dateAfter_injective {m n : Nat} (h : dateAfter m = dateAfter n) : m = n := by
  rcases Nat.lt_trichotomy m n with h' | h' | h'
  · have := dateKey_lt h'; rw [h] at this; omega
  · exact h'
  · have := dateKey_lt h'; rw [h] at this; omega

theorem fmtNat_length {w n : Nat} (hw : 0 < w) (h : n < 10 ^ w) : (fmtNat n).length ≤ w :=
  (Nat.length_toDigits_le_iff (by decide) hw).2 h

theorem fmtNatPad_length {w n : Nat} (hw : 0 < w) (h : n < 10 ^ w) : (fmtNatPad w n).length = w := by
  have := fmtNat_length hw h
  simp only [fmtNatPad, List.length_append, List.length_replicate]
  omega

theorem pad_inj {w a b : Nat} {s t : Str} (hw : 0 < w) (ha : a < 10 ^ w) (hb : b < 10 ^ w)
    (h : fmtNatPad w a ++ s = fmtNatPad w b ++ t) : a = b ∧ s = t := by
  obtain ⟨h1, h2⟩ := List.append_inj h (by rw [fmtNatPad_length hw ha, fmtNatPad_length hw hb])
  exact ⟨fmtNatPad_injective h1, h2⟩

theorem clockText_length {c : Nat} (h : (dateAfter (c / 8640000)).1 < 10000) : (clockText c).length = 22 := by
  have hd := dateAfter_ok (c / 8640000)
  simp only [clockText, List.length_append, List.length_cons]
  rw [fmtNatPad_length (w := 4) (by decide) (by simpa using h), fmtNatPad_length (w := 2) (by decide) (by omega),
    fmtNatPad_length (w := 2) (by decide) (by omega), fmtNatPad_length (w := 2) (by decide) (by omega),
    fmtNatPad_length (w := 2) (by decide) (by omega), fmtNatPad_length (w := 2) (by decide) (by omega),
    fmtNatPad_length (w := 2) (by decide) (by omega)]

theorem clockText_injective {c c' : Nat} (h : (dateAfter (c / 8640000)).1 < 10000) (h' : (dateAfter (c' / 8640000)).1 < 10000)
    (he : clockText c = clockText c') : c = c' := by
  have hd := dateAfter_ok (c / 8640000)
  have hd' := dateAfter_ok (c' / 8640000)
  simp only [clockText, List.append_assoc, List.cons_append] at he
  obtain ⟨e1, he⟩ := pad_inj (by decide) (by simpa using h) (by simpa using h') he
  obtain ⟨e2, he⟩ := pad_inj (by decide) (by omega) (by omega) (List.cons.inj he).2
  obtain ⟨e3, he⟩ := pad_inj (by decide) (by omega) (by omega) (List.cons.inj he).2
  obtain ⟨e4, he⟩ := pad_inj (by decide) (by omega) (by omega) (List.cons.inj he).2
  obtain ⟨e5, he⟩ := pad_inj (by decide) (by omega) (by omega) (List.cons.inj he).2
  obtain ⟨e6, he⟩ := pad_inj (by decide) (by omega) (by omega) (List.cons.inj he).2
  have e7 := fmtNatPad_injective (List.cons.inj he).2
  have e0 := dateAfter_injective (m := c / 8640000) (n := c' / 8640000) (by ext <;> assumption)
  omega

theorem daysBeforeYear_succ (y : Nat) (h : 1 ≤ y) : daysBeforeYear (y + 1) = daysBeforeYear y + 365 + if Leap y then 1 else 0 := by
  obtain ⟨z, rfl⟩ : ∃ z, y = z + 1 := ⟨y - 1, by omega⟩
  have e4 : (z + 1) / 4 = z / 4 + if (z + 1) % 4 = 0 then 1 else 0 := by split <;> omega
  have e100 : (z + 1) / 100 = z / 100 + if (z + 1) % 100 = 0 then 1 else 0 := by split <;> omega
  have e400 : (z + 1) / 400 = z / 400 + if (z + 1) % 400 = 0 then 1 else 0 := by split <;> omega
  have hle : z / 100 ≤ z / 4 := by omega
  have i1 : (z + 1) % 400 = 0 → (z + 1) % 100 = 0 := by omega
  have i2 : (z + 1) % 100 = 0 → (z + 1) % 4 = 0 := by omega
  unfold daysBeforeYear Leap
  rw [Nat.add_sub_cancel, Nat.add_sub_cancel, e4, e100, e400]
  by_cases h4 : (z + 1) % 4 = 0 <;> by_cases h1 : (z + 1) % 100 = 0 <;> by_cases h0 : (z + 1) % 400 = 0 <;>
    simp [h4, h1, h0] at i1 i2 ⊢ <;> omega

theorem dayNumber_next {y m d : Nat} (hy : 1 ≤ y) (h1 : 1 ≤ m) (h2 : m ≤ 12) (hd : d ≤ daysIn y m) :
    dayNumber (nextDay (y, m, d)).1 (nextDay (y, m, d)).2.1 (nextDay (y, m, d)).2.2 = dayNumber y m d + 1 := by
  have hs := daysBeforeYear_succ y hy
  have hl : daysIn y m = if m = 2 then if Leap y then 29 else 28 else if m = 4 ∨ m = 6 ∨ m = 9 ∨ m = 11 then 30 else 31 := rfl
  unfold nextDay
  simp only
  by_cases hlt : d < daysIn y m
  · rw [if_pos hlt]; rfl
  rw [if_neg hlt]
  have he : d = daysIn y m := by omega
  rw [hl] at he
  clear hlt hd hl
  by_cases hL : Leap y <;> simp only [hL, if_true, if_false] at he hs
  all_goals
    obtain rfl | rfl | rfl | rfl | rfl | rfl | rfl | rfl | rfl | rfl | rfl | rfl :
      m = 1 ∨ m = 2 ∨ m = 3 ∨ m = 4 ∨ m = 5 ∨ m = 6 ∨ m = 7 ∨ m = 8 ∨ m = 9 ∨ m = 10 ∨ m = 11 ∨ m = 12 := by omega
  all_goals
    simp [dayNumber, monthLengths, hL] at he ⊢
    omega

theorem daysIn_eq (y m : Nat) (h1 : 1 ≤ m) (h2 : m ≤ 12) : (monthLengths y)[m - 1]? = some (daysIn y m) := by
  have hl : daysIn y m = if m = 2 then if Leap y then 29 else 28 else if m = 4 ∨ m = 6 ∨ m = 9 ∨ m = 11 then 30 else 31 := rfl
  rw [hl]
  obtain rfl | rfl | rfl | rfl | rfl | rfl | rfl | rfl | rfl | rfl | rfl | rfl :
      m = 1 ∨ m = 2 ∨ m = 3 ∨ m = 4 ∨ m = 5 ∨ m = 6 ∨ m = 7 ∨ m = 8 ∨ m = 9 ∨ m = 10 ∨ m = 11 ∨ m = 12 := by omega
  all_goals rfl

theorem dayNumber_dateAfter (n : Nat) : 1970 ≤ (dateAfter n).1 ∧ (dateAfter n).2.2 ≤ daysIn (dateAfter n).1 (dateAfter n).2.1 ∧
    dayNumber (dateAfter n).1 (dateAfter n).2.1 (dateAfter n).2.2 = n + dayNumber 1970 1 1 := by
  induction n with
  | zero => decide
  | succ n ih =>
    have h := dateAfter_ok n
    have h' := dateAfter_ok (n + 1)
    simp only [dateAfter] at h' ⊢
    generalize dateAfter n = x at *
    obtain ⟨y, m, d⟩ := x
    simp only at h ih
    obtain ⟨hy, hd, ih⟩ := ih
    have := dayNumber_next (by omega) h.1 h.2.1 hd
    refine ⟨?_, ?_, by omega⟩
    · unfold nextDay; repeat' split
      all_goals simp only; omega
    · unfold nextDay; repeat' split
      · simp only at *; omega
      all_goals (simp only [daysIn]; repeat' split); all_goals omega

theorem digitsValue_zeros (k : Nat) (s : Str) : digitsValue (List.replicate k '0' ++ s) = digitsValue s := by
  simp only [digitsValue_eq]
  induction k with
  | zero => rfl
  | succ k ih =>
    rw [← ih, List.replicate_succ, List.cons_append, Nat.ofDigitChars_cons]
    rfl

theorem digits_pad {w n : Nat} (hw : 0 < w) (h : n < 10 ^ w) : FixedDigits w n (fmtNatPad w n) := by
  obtain ⟨h1, h2⟩ := decInt_fmtNat n
  refine ⟨fmtNatPad_length hw h, ⟨?_, ?_⟩, by rw [fmtNatPad, digitsValue_zeros, h2]⟩
  · intro hn; have := fmtNatPad_length hw h; rw [hn] at this; simp at this; omega
  · intro c hc
    rcases List.mem_append.1 hc with hc | hc
    · rw [List.eq_of_mem_replicate hc]; decide
    · exact h1.2 c hc

theorem isClock_clockText {c : Nat} (h : (dateAfter (c / 8640000)).1 < 10000) : IsClock c (clockText c) := by
  have hd := dateAfter_ok (c / 8640000)
  obtain ⟨hy, hl, hn⟩ := dayNumber_dateAfter (c / 8640000)
  refine ⟨(dateAfter (c / 8640000)).1, (dateAfter (c / 8640000)).2.1, (dateAfter (c / 8640000)).2.2, c / 360000 % 24, c / 6000 % 60,
    c / 100 % 60, c % 100, _, _, _, _, _, _, _, _, digits_pad (by decide) (by simpa using h), digits_pad (by decide) (by omega),
    digits_pad (by decide) (by omega), digits_pad (by decide) (by omega), digits_pad (by decide) (by omega),
    digits_pad (by decide) (by omega), digits_pad (by decide) (by omega), rfl, hd.1, daysIn_eq _ _ hd.1 hd.2.1, hd.2.2.1, hl,
    by omega, by omega, by omega, by omega, ?_⟩
  revert hn
  generalize dayNumber 1970 1 1 = e
  generalize dayNumber (dateAfter (c / 8640000)).1 (dateAfter (c / 8640000)).2.1 (dateAfter (c / 8640000)).2.2 = x
  rintro rfl
  omega

end OM.Serve
