import Verif.Model.Watch
import Verif.Spec.Numbers
/-! # `parseInt0` accepts exactly the integer literals -/
namespace OM.Watch
open OM.Spec

/-! ## Digits -/

theorem mem_pair {o o' : Option Char} {c : Char} (h : o = some c ∨ o' = some c) : c ∈ [o, o'].filterMap id :=
  List.mem_filterMap.2 ⟨some c, by rcases h with rfl | rfl <;> simp, rfl⟩

theorem digit_iff {b : Nat} (hb : b ≤ 16) {c : Char} {d : Nat} : Digit b c d ↔ digitVal c = some d ∧ d < b := by
  constructor
  · rintro ⟨h, h'⟩
    refine ⟨?_, h⟩
    have hd : d < 16 := by omega
    clear h
    revert c
    have : ∀ d < 16, ∀ c ∈ [("0123456789abcdef".toList[d]?), ("0123456789ABCDEF".toList[d]?)].filterMap id, digitVal c = some d := by
      decide
    intro c h'
    exact this d hd c (mem_pair h')
  · rintro ⟨h, h'⟩
    refine ⟨h', ?_⟩
    have hd : d < 16 := by omega
    have hc : c = Char.ofNat (d + 48) ∧ d < 10 ∨ c = Char.ofNat (d + 87) ∧ 10 ≤ d ∨ c = Char.ofNat (d + 55) ∧ 10 ≤ d := by
      unfold digitVal at h
      have hn : ∀ x : Char, c = Char.ofNat c.toNat := fun _ => (Char.ofNat_toNat c).symm
      split at h
      · rename_i h1
        have h1a : 48 ≤ c.toNat := h1.1
        have h1b : c.toNat ≤ 57 := h1.2
        simp only [Option.some.injEq, show '0'.toNat = 48 from rfl] at h
        refine .inl ⟨?_, by omega⟩
        rw [show d + 48 = c.toNat by omega, Char.ofNat_toNat]
      · split at h
        · rename_i h1
          have h1a : 97 ≤ c.toNat := h1.1
          simp only [Option.some.injEq, show 'a'.toNat = 97 from rfl] at h
          refine .inr (.inl ⟨?_, by omega⟩)
          rw [show d + 87 = c.toNat by omega, Char.ofNat_toNat]
        · split at h
          · rename_i h1
            have h1a : 65 ≤ c.toNat := h1.1
            simp only [Option.some.injEq, show 'A'.toNat = 65 from rfl] at h
            refine .inr (.inr ⟨?_, by omega⟩)
            rw [show d + 55 = c.toNat by omega, Char.ofNat_toNat]
          · cases h
    have k : ∀ d < 16, (d < 10 → "0123456789abcdef".toList[d]? = some (Char.ofNat (d + 48))) ∧
        (10 ≤ d → "0123456789abcdef".toList[d]? = some (Char.ofNat (d + 87)) ∧
          "0123456789ABCDEF".toList[d]? = some (Char.ofNat (d + 55))) := by decide
    rcases hc with ⟨rfl, h1⟩ | ⟨rfl, h1⟩ | ⟨rfl, h1⟩
    · exact .inl ((k d hd).1 h1)
    · exact .inl ((k d hd).2 h1).1
    · exact .inr ((k d hd).2 h1).2

theorem digit_ne_underscore {b : Nat} {c : Char} {d : Nat} (hb : b ≤ 16) (h : Digit b c d) : c ≠ '_' := by
  rintro rfl
  have := ((digit_iff hb).1 h).1
  revert this
  rw [show digitVal '_' = none by decide]
  simp

/-! ## The digit loop -/

theorem loop_append (b : Nat) : ∀ (s t : Str) (n : Nat) (us : Bool),
    parseUintLoop b true (s ++ t) n us =
      match parseUintLoop b true s n us with
      | .ok m us' => parseUintLoop b true t m us'
      | r => r
  | [], t, n, us => rfl
  | c :: s, t, n, us => by
    simp only [List.cons_append, parseUintLoop, and_true]
    split
    · exact loop_append b s t n true
    · cases digitVal c with
      | none => rfl
      | some d =>
        dsimp only
        split
        · rfl
        · split
          · rfl
          · exact loop_append b s t _ us

theorem loop_us (b : Nat) : ∀ (s : Str) (n : Nat) (us : Bool) (m : Nat) (us' : Bool),
    parseUintLoop b true s n us = .ok m us' → parseUintLoop b true s n true = .ok m true
  | [], n, us, m, us', h => by cases h; rfl
  | c :: s, n, us, m, us', h => by
    simp only [parseUintLoop, and_true] at h ⊢
    split
    · rename_i hc
      rw [if_pos hc] at h
      exact loop_us b s n true m us' h
    · rename_i hc
      rw [if_neg hc] at h
      cases hd : digitVal c with
      | none => rw [hd] at h; cases h
      | some d =>
        rw [hd] at h
        dsimp only at h ⊢
        split at h
        · cases h
        · rename_i h1
          rw [if_neg h1]
          split at h
          · cases h
          · rename_i h2
            rw [if_neg h2]
            exact loop_us b s _ us m us' h

theorem loop_digit {b : Nat} (hb : b ≤ 16) {c : Char} {d n : Nat} (us : Bool) (h : Digit b c d) (hn : n * b + d ≤ maxUint64) :
    parseUintLoop b true [c] n us = .ok (n * b + d) us := by
  obtain ⟨h1, h2⟩ := (digit_iff hb).1 h
  simp only [parseUintLoop, and_true, if_neg (digit_ne_underscore hb h), h1]
  rw [if_neg (by omega), if_neg (by omega)]

theorem loop_snoc {b : Nat} (hb : b ≤ 16) {s : Str} {c : Char} {m : Nat} {us : Bool} (hc : c ≠ '_')
    (h : parseUintLoop b true (s ++ [c]) 0 false = .ok m us) :
    ∃ n d, parseUintLoop b true s 0 false = .ok n us ∧ Digit b c d ∧ m = n * b + d ∧ m ≤ maxUint64 := by
  rw [loop_append] at h
  split at h
  · rename_i n us' hs
    simp only [parseUintLoop, and_true, if_neg hc] at h
    split at h
    · cases h
    · rename_i d hd
      split at h
      · cases h
      · split at h
        · cases h
        · cases h
          exact ⟨n, d, hs, (digit_iff hb).2 ⟨hd, by omega⟩, rfl, by omega⟩
  · rename_i hr
    exact absurd h (by rintro h; exact hr _ _ h)

theorem loop_under {b : Nat} {s : Str} {m : Nat} {us : Bool}
    (h : parseUintLoop b true (s ++ ['_']) 0 false = .ok m us) :
    us = true ∧ ∃ us', parseUintLoop b true s 0 false = .ok m us' := by
  rw [loop_append] at h
  split at h
  · rename_i n us' hs
    simp only [parseUintLoop, and_true, if_true] at h
    cases h
    exact ⟨rfl, _, hs⟩
  · rename_i hr
    exact absurd h (by rintro h; exact hr _ _ h)

/-! ## The check of the underscores -/

/-- One step of `underscoreLoop`. -/
def uStep (hex : Bool) (st : Option Char) (c : Char) : Option Char :=
  st.bind fun i =>
    if c.isDigit || (hex && (('a' ≤ c && c ≤ 'f') || ('A' ≤ c && c ≤ 'F'))) then some '0'
    else if c = '_' then if i ≠ '0' then none else some '_'
    else if i = '_' then none
    else some '!'

theorem uStep_none (hex : Bool) (s : Str) : s.foldl (uStep hex) none = none := by
  induction s with
  | nil => rfl
  | cons c s ih => simpa [uStep] using ih

theorem underscoreLoop_fold (hex : Bool) : ∀ (s : Str) (i : Char),
    underscoreLoop hex s i = true ↔ ∃ j, s.foldl (uStep hex) (some i) = some j ∧ j ≠ '_'
  | [], i => by simp [underscoreLoop]
  | c :: s, i => by
    simp only [underscoreLoop, List.foldl_cons]
    have e : uStep hex (some i) c = if (c.isDigit || (hex && (('a' ≤ c && c ≤ 'f') || ('A' ≤ c && c ≤ 'F')))) = true then some '0'
      else if c = '_' then if i ≠ '0' then none else some '_' else if i = '_' then none else some '!' := rfl
    rw [e]
    split
    · exact underscoreLoop_fold hex s '0'
    · split
      · split
        · simp [uStep_none]
        · exact underscoreLoop_fold hex s '_'
      · split
        · simp [uStep_none]
        · exact underscoreLoop_fold hex s '!'

/-- The digits the check knows are those of the base. -/
def Fits (hex : Bool) (b : Nat) : Prop := b ≤ 16 ∧ (hex = false → b ≤ 10)

theorem uStep_digit {hex : Bool} {b : Nat} (hf : Fits hex b) {c : Char} {d : Nat} (h : Digit b c d) (i : Char) :
    uStep hex (some i) c = some '0' := by
  have k : (c.isDigit || (hex && (('a' ≤ c && c ≤ 'f') || ('A' ≤ c && c ≤ 'F')))) = true := by
    obtain ⟨h1, h2⟩ := h
    cases hex with
    | false =>
      have hb := hf.2 rfl
      have hd : d < 10 := by omega
      have k : ∀ d < 10, ∀ c ∈ [("0123456789abcdef".toList[d]?), ("0123456789ABCDEF".toList[d]?)].filterMap id, c.isDigit = true := by
        decide
      have := k d hd c (mem_pair h2)
      simp [this]
    | true =>
      have hd : d < 16 := by have := hf.1; omega
      have k : ∀ d < 16, ∀ c ∈ [("0123456789abcdef".toList[d]?), ("0123456789ABCDEF".toList[d]?)].filterMap id,
          (c.isDigit || (true && (('a' ≤ c && c ≤ 'f') || ('A' ≤ c && c ≤ 'F')))) = true := by
        decide
      exact k d hd c (mem_pair h2)
  simp only [uStep, Option.bind_some, k, if_true]

theorem uStep_under (hex : Bool) (i : Char) : uStep hex (some i) '_' = if i ≠ '0' then none else some '_' := by
  have k : ('_'.isDigit || (hex && (('a' ≤ '_' && '_' ≤ 'f') || ('A' ≤ '_' && '_' ≤ 'F')))) = false := by
    cases hex <;> decide
  simp only [uStep, Option.bind_some, k, Bool.false_eq_true, if_false, if_true]

/-! ## Both together -/

theorem numeral_accepted {hex : Bool} {b : Nat} (hf : Fits hex b) (hb : 1 ≤ b) {s : Str} {n : Nat} (h : Numeral b s n)
    (hn : n ≤ maxUint64) (i : Char) :
    (∃ us, parseUintLoop b true s 0 false = .ok n us) ∧ s.foldl (uStep hex) (some i) = some '0' := by
  induction h with
  | one h =>
    refine ⟨⟨false, ?_⟩, uStep_digit hf h i⟩
    have := loop_digit (n := 0) hf.1 false h (by omega)
    simpa using this
  | @snoc s n c d _ h ih =>
    have : n ≤ n * b := Nat.le_mul_of_pos_right n hb
    obtain ⟨⟨us, h1⟩, h2⟩ := ih (by omega)
    refine ⟨⟨us, ?_⟩, ?_⟩
    · rw [loop_append, h1]; exact loop_digit hf.1 us h hn
    · rw [List.foldl_append, h2]; exact uStep_digit hf h _
  | @under s n c d _ h ih =>
    have : n ≤ n * b := Nat.le_mul_of_pos_right n hb
    obtain ⟨⟨us, h1⟩, h2⟩ := ih (by omega)
    refine ⟨⟨true, ?_⟩, ?_⟩
    · rw [loop_append, h1]
      have e : parseUintLoop b true ['_', c] n us = parseUintLoop b true [c] n true := by
        rw [parseUintLoop, if_pos ⟨rfl, rfl⟩]
      dsimp only
      rw [e]; exact loop_digit hf.1 true h hn
    · rw [List.foldl_append, h2, List.foldl_cons, uStep_under]
      exact uStep_digit hf h _

theorem numeral_of_accepted {hex : Bool} {b : Nat} (hf : Fits hex b) (i : Char) (hi : i ≠ '_') :
    ∀ (k : Nat) (s : Str), s.length ≤ k → ∀ (n : Nat) (us : Bool), parseUintLoop b true s 0 false = .ok n us →
      ∀ j, s.foldl (uStep hex) (some i) = some j → j ≠ '_' →
      n ≤ maxUint64 ∧ ((s = [] ∧ n = 0) ∨ Numeral b s n ∨ (i = '0' ∧ ∃ s', s = '_' :: s' ∧ Numeral b s' n)) := by
  intro k
  induction k using Nat.strongRecOn with
  | ind k ih =>
    intro s hk n us hl j hj hj'
    rcases List.eq_nil_or_concat s with rfl | ⟨t, c, rfl⟩
    · cases hl; exact ⟨by simp [maxUint64], .inl ⟨rfl, rfl⟩⟩
    rw [List.concat_eq_append] at *
    by_cases hc : c = '_'
    · subst hc
      rw [List.foldl_append] at hj
      cases hst : t.foldl (uStep hex) (some i) with
      | none => rw [hst] at hj; cases hj
      | some x =>
        rw [hst, List.foldl_cons, List.foldl_nil, uStep_under] at hj
        split at hj
        · cases hj
        · cases hj; exact absurd rfl hj'
    obtain ⟨m, d, h1, h2, rfl, h3⟩ := loop_snoc hf.1 hc hl
    refine ⟨h3, .inr ?_⟩
    rcases List.eq_nil_or_concat t with rfl | ⟨t', c', rfl⟩
    · cases h1
      left
      have := Numeral.one h2
      simpa using this
    rw [List.concat_eq_append] at *
    simp only [List.length_append, List.length_cons, List.length_nil] at hk
    by_cases hc' : c' = '_'
    · subst hc'
      obtain ⟨-, us', h4⟩ := loop_under h1
      rw [List.foldl_append, List.foldl_append] at hj
      cases hst : t'.foldl (uStep hex) (some i) with
      | none => rw [hst] at hj; cases hj
      | some x =>
        rw [hst] at hj
        simp only [List.foldl_cons, List.foldl_nil, uStep_under] at hj
        split at hj
        · cases hj
        · rename_i hx
          have hx : x = '0' := by simpa using hx
          subst hx
          rcases (ih t'.length (by omega) t' (Nat.le_refl _) m us' h4 '0' hst (by decide)).2 with ⟨rfl, rfl⟩ | h5 | ⟨rfl, s', rfl, h5⟩
          · cases hst
            right
            refine ⟨rfl, [c], rfl, ?_⟩
            have := Numeral.one h2
            simpa using this
          · left
            have := Numeral.under h5 h2
            simpa [List.append_assoc] using this
          · right
            refine ⟨rfl, s' ++ ['_', c], by simp, Numeral.under h5 h2⟩
    · obtain ⟨m', d', h1', h2', hm, -⟩ := loop_snoc hf.1 hc' h1
      have hst : (t' ++ [c']).foldl (uStep hex) (some i) = some '0' := by
        rw [List.foldl_append]
        rw [List.foldl_append, List.foldl_append] at hj
        cases hst : t'.foldl (uStep hex) (some i) with
        | none => rw [hst] at hj; cases hj
        | some x => exact uStep_digit hf h2' x
      rcases (ih (t' ++ [c']).length (by simp; omega) (t' ++ [c']) (Nat.le_refl _) m us h1 '0' hst (by decide)).2 with
        ⟨h, -⟩ | h5 | ⟨rfl, s', h6, h5⟩
      · simp at h
      · exact .inl (Numeral.snoc h5 h2)
      · refine .inr ⟨rfl, s' ++ [c], by rw [h6]; simp, Numeral.snoc h5 h2⟩

/-- Without underscores the check succeeds anyway. -/
theorem no_underscore {hex : Bool} {b : Nat} (hf : Fits hex b) (i : Char) (hi : i ≠ '_') :
    ∀ (k : Nat) (s : Str), s.length ≤ k → ∀ n, parseUintLoop b true s 0 false = .ok n false →
      ∃ j, s.foldl (uStep hex) (some i) = some j ∧ j ≠ '_' := by
  intro k
  induction k with
  | zero =>
    intro s hs n _
    have : s = [] := List.length_eq_zero_iff.1 (by omega)
    subst this
    exact ⟨i, rfl, hi⟩
  | succ k ih =>
    intro s hs n h
    rcases List.eq_nil_or_concat s with rfl | ⟨t, c, rfl⟩
    · exact ⟨i, rfl, hi⟩
    rw [List.concat_eq_append] at *
    by_cases hc : c = '_'
    · subst hc; exact absurd (loop_under h).1 (by decide)
    obtain ⟨m, d, h1, h2, -, -⟩ := loop_snoc hf.1 hc h
    obtain ⟨j, hj, -⟩ := ih t (by simp at hs; omega) m h1
    refine ⟨'0', ?_, by decide⟩
    rw [List.foldl_append, hj]
    exact uStep_digit hf h2 j

/-- The loop and the check, as `parseUint0` combines them. -/
theorem loop_check {hex : Bool} {b : Nat} (hf : Fits hex b) (hb : 1 ≤ b) (i : Char) (hi : i ≠ '_') (s : Str) (n : Nat) :
    (∃ us, parseUintLoop b true s 0 false = .ok n us ∧ (us = true → underscoreLoop hex s i = true)) ↔
      n ≤ maxUint64 ∧ ((s = [] ∧ n = 0) ∨ Numeral b s n ∨ (i = '0' ∧ ∃ s', s = '_' :: s' ∧ Numeral b s' n)) := by
  constructor
  · rintro ⟨us, h1, h2⟩
    cases us with
    | true =>
      obtain ⟨j, h3, h4⟩ := (underscoreLoop_fold hex s i).1 (h2 rfl)
      exact numeral_of_accepted hf i hi _ s (Nat.le_refl _) n true h1 j h3 h4
    | false =>
      obtain ⟨j, h3, h4⟩ := no_underscore hf i hi _ s (Nat.le_refl _) n h1
      exact numeral_of_accepted hf i hi _ s (Nat.le_refl _) n false h1 j h3 h4
  · rintro ⟨hn, ⟨rfl, rfl⟩ | h | ⟨rfl, s', rfl, h⟩⟩
    · exact ⟨false, rfl, by simp⟩
    · obtain ⟨⟨us, h1⟩, h2⟩ := numeral_accepted hf hb h hn i
      exact ⟨us, h1, fun _ => (underscoreLoop_fold hex s i).2 ⟨'0', h2, by decide⟩⟩
    · obtain ⟨⟨us, h1⟩, h2⟩ := numeral_accepted hf hb h hn '_'
      refine ⟨true, ?_, fun _ => (underscoreLoop_fold hex _ '0').2 ⟨'0', ?_, by decide⟩⟩
      · rw [parseUintLoop, if_pos ⟨rfl, rfl⟩]
        exact loop_us b s' 0 false n us h1
      · rw [List.foldl_cons, uStep_under]; exact h2

/-! ## `parseUint0` and `parseInt0` -/

theorem parseUint0_ok {s : Str} {n : Nat} : (∃ us, parseUint0 s = .ok n us) ↔
    s ≠ [] ∧ ∃ us, parseUintLoop (base0 s).1 true (base0 s).2 0 false = .ok n us ∧ (us = true → underscoreOK s = true) := by
  unfold parseUint0
  by_cases hs : s = []
  · simp [hs]
  rw [if_neg hs]
  simp only [ne_eq, hs, not_false_eq_true, true_and]
  cases hl : parseUintLoop (base0 s).1 true (base0 s).2 0 false with
  | ok v us =>
    by_cases hu : us = true ∧ underscoreOK s = false
    · simp [hu]
    · have : (us && !underscoreOK s) = false := by
        cases us <;> cases h : underscoreOK s <;> simp_all
      dsimp only
      rw [this]
      constructor
      · rintro ⟨us', h⟩
        cases h
        exact ⟨us, rfl, fun h => by cases h' : underscoreOK s <;> simp_all⟩
      · rintro ⟨us', h, -⟩
        cases h
        exact ⟨us, rfl⟩
  | syntaxErr => simp
  | rangeErr => simp

theorem numeral_chars {b : Nat} {s : Str} {n : Nat} (h : Numeral b s n) : ∀ c ∈ s, c = '_' ∨ ∃ d, Digit b c d := by
  induction h with
  | one h => intro c hc; rw [List.mem_singleton.1 hc]; exact .inr ⟨_, h⟩
  | snoc _ h ih =>
    intro c hc
    rcases List.mem_append.1 hc with hc | hc
    · exact ih c hc
    · rw [List.mem_singleton.1 hc]; exact .inr ⟨_, h⟩
  | under _ h ih =>
    intro c hc
    rcases List.mem_append.1 hc with hc | hc
    · exact ih c hc
    · simp only [List.mem_cons, List.not_mem_nil, or_false] at hc
      rcases hc with rfl | rfl
      · exact .inl rfl
      · exact .inr ⟨_, h⟩

theorem numeral_ne_nil {b : Nat} {n : Nat} (h : Numeral b [] n) : False := by
  generalize hs : ([] : Str) = s at h
  cases h <;> simp at hs

/-- A letter that announces a base. -/
def letters : List (Char × Nat) := [('b', 2), ('B', 2), ('o', 8), ('O', 8), ('x', 16), ('X', 16)]

theorem letter_not_octal {p : Char} {b : Nat} (h : (p, b) ∈ letters) {t : Str} {n : Nat} :
    ¬ Numeral 8 ('0' :: p :: t) n := by
  intro h'
  have hp := numeral_chars h' p (by simp)
  have : p ≠ '_' ∧ ∀ d, digitVal p = some d → 8 ≤ d := by
    simp only [letters, List.mem_cons, Prod.mk.injEq, List.not_mem_nil, or_false] at h
    rcases h with ⟨rfl, -⟩ | ⟨rfl, -⟩ | ⟨rfl, -⟩ | ⟨rfl, -⟩ | ⟨rfl, -⟩ | ⟨rfl, -⟩ <;> exact ⟨by decide, by decide⟩
  rcases hp with hp | ⟨d, hd⟩
  · exact this.1 hp
  · obtain ⟨h1, h2⟩ := (digit_iff (by decide)).1 hd
    have := this.2 d h1
    omega

theorem base0_dec {c : Char} (hc : c ≠ '0') (s : Str) : base0 (c :: s) = (10, c :: s) := by
  unfold base0
  split
  · rename_i h; simp at h; exact absurd h.1 hc
  · rename_i h; simp at h; exact absurd h.1 hc
  · rfl

theorem underscoreOK_dec {c : Char} (hc : c ≠ '0') (s : Str) : underscoreOK (c :: s) = underscoreLoop false (c :: s) '^' := by
  unfold underscoreOK
  split
  · rename_i h; simp at h; exact absurd h.1 hc
  · rfl

theorem letter_cases (c : Char) : (∃ b, (c, b) ∈ letters) ∨
    (lowerIs c 'b' 'B' = false ∧ lowerIs c 'o' 'O' = false ∧ lowerIs c 'x' 'X' = false ∧ ∀ b, (c, b) ∉ letters) := by
  by_cases h : ∃ b, (c, b) ∈ letters
  · exact .inl h
  · refine .inr ⟨?_, ?_, ?_, fun b hb => h ⟨b, hb⟩⟩ <;>
    · simp only [lowerIs, Bool.or_eq_false_iff, decide_eq_false_iff_not]
      constructor <;> rintro rfl <;> exact h ⟨_, by simp [letters]; rfl⟩

/-- A leading zero and then no letter (or nothing after the letter): octal. -/
theorem parseUint0_oct {t : Str} (hb : base0 ('0' :: t) = (8, t))
    (hu : underscoreOK ('0' :: t) = underscoreLoop false ('0' :: t) '^' ∨ ∃ p b, (p, b) ∈ letters ∧ t = [p])
    (n : Nat) : (∃ us, parseUint0 ('0' :: t) = .ok n us) ↔ Numeral 8 ('0' :: t) n ∧ n ≤ maxUint64 := by
  have hl : parseUintLoop 8 true ('0' :: t) 0 false = parseUintLoop 8 true t 0 false := by
    rw [parseUintLoop]; simp [show digitVal '0' = some 0 by decide]
  rw [parseUint0_ok, hb, ← hl]
  rcases hu with hu | ⟨p, b, hp, rfl⟩
  · rw [hu]
    have := loop_check (hex := false) (b := 8) ⟨by decide, fun _ => by decide⟩ (by decide) '^' (by decide) ('0' :: t) n
    simp only [ne_eq, reduceCtorEq, not_false_eq_true, true_and, this]
    constructor
    · rintro ⟨h, ⟨h', -⟩ | h' | ⟨h', -⟩⟩
      · cases h'
      · exact ⟨h', h⟩
      · exact absurd h' (by decide)
    · exact fun h => ⟨h.2, .inr (.inl h.1)⟩
  · constructor
    · rintro ⟨-, us, h, -⟩
      exfalso
      simp only [letters, List.mem_cons, Prod.mk.injEq, List.not_mem_nil, or_false] at hp
      rcases hp with ⟨rfl, -⟩ | ⟨rfl, -⟩ | ⟨rfl, -⟩ | ⟨rfl, -⟩ | ⟨rfl, -⟩ | ⟨rfl, -⟩ <;> revert h <;>
        rw [show parseUintLoop 8 true _ 0 false = .syntaxErr by decide] <;> simp
    · exact fun h => absurd h.1 (letter_not_octal hp)

theorem parseUint0_pre {p : Char} {b : Nat} (hp : (p, b) ∈ letters) (d : Char) (cs : Str) (n : Nat) :
    (∃ us, parseUint0 ('0' :: p :: d :: cs) = .ok n us) ↔
      (Numeral b (d :: cs) n ∨ (d = '_' ∧ Numeral b cs n)) ∧ n ≤ maxUint64 := by
  have hb : base0 ('0' :: p :: d :: cs) = (b, d :: cs) ∧ ∃ hex, Fits hex b ∧ 1 ≤ b ∧
      underscoreOK ('0' :: p :: d :: cs) = underscoreLoop hex (d :: cs) '0' := by
    simp only [letters, List.mem_cons, Prod.mk.injEq, List.not_mem_nil, or_false] at hp
    rcases hp with ⟨rfl, rfl⟩ | ⟨rfl, rfl⟩ | ⟨rfl, rfl⟩ | ⟨rfl, rfl⟩ | ⟨rfl, rfl⟩ | ⟨rfl, rfl⟩
    · exact ⟨rfl, false, ⟨by decide, fun _ => by decide⟩, by decide, rfl⟩
    · exact ⟨rfl, false, ⟨by decide, fun _ => by decide⟩, by decide, rfl⟩
    · exact ⟨rfl, false, ⟨by decide, fun _ => by decide⟩, by decide, rfl⟩
    · exact ⟨rfl, false, ⟨by decide, fun _ => by decide⟩, by decide, rfl⟩
    · exact ⟨rfl, true, ⟨by decide, fun h => by cases h⟩, by decide, rfl⟩
    · exact ⟨rfl, true, ⟨by decide, fun h => by cases h⟩, by decide, rfl⟩
  obtain ⟨hb, hex, hf, h1, hu⟩ := hb
  rw [parseUint0_ok, hb, hu]
  have := loop_check hf h1 '0' (by decide) (d :: cs) n
  simp only [ne_eq, reduceCtorEq, not_false_eq_true, true_and, this]
  constructor
  · rintro ⟨h, ⟨h', -⟩ | h' | ⟨s', h', h''⟩⟩
    · cases h'
    · exact ⟨.inl h', h⟩
    · cases h'; exact ⟨.inr ⟨rfl, h''⟩, h⟩
  · rintro ⟨h | ⟨rfl, h⟩, h'⟩
    · exact ⟨h', .inr (.inl h)⟩
    · exact ⟨h', .inr (.inr ⟨cs, rfl, h⟩)⟩

theorem parseUint0_iff (s : Str) (n : Nat) : (∃ us, parseUint0 s = .ok n us) ↔ UintLit s n ∧ n ≤ maxUint64 := by
  match s with
  | [] =>
    constructor
    · rintro ⟨us, h⟩; cases h
    · rintro ⟨h, -⟩; cases h
  | c :: t =>
    by_cases hc : c = '0'
    · subst hc
      have notpre : (∀ p b, (p, b) ∈ letters → ∀ r, t = p :: r → r = []) →
          (UintLit ('0' :: t) n ↔ Numeral 8 ('0' :: t) n) := by
        intro hn
        constructor
        · intro h
          cases h with
          | dec _ h => exact absurd rfl h
          | oct h => exact h
          | pre hp h => have := hn _ _ hp _ rfl; subst this; exact (numeral_ne_nil h).elim
          | pre_ hp h => have := hn _ _ hp _ rfl; cases this
        · exact .oct
      match t with
      | [] => rw [notpre (by intro p b _ r h; cases h)]; exact parseUint0_oct rfl (.inl rfl) n
      | [p] =>
        rw [notpre (by intro q b _ r h; cases h; rfl)]
        refine parseUint0_oct rfl ?_ n
        rcases letter_cases p with ⟨b, hb⟩ | ⟨h1, h2, h3, -⟩
        · exact .inr ⟨p, b, hb, rfl⟩
        · left; simp [underscoreOK, h1, h2, h3]
      | p :: d :: cs =>
        rcases letter_cases p with ⟨b, hb⟩ | ⟨h1, h2, h3, h4⟩
        · rw [parseUint0_pre hb]
          refine and_congr_left fun _ => ?_
          have uniq : ∀ b', (p, b') ∈ letters → b' = b := by
            intro b' hb'
            simp only [letters, List.mem_cons, Prod.mk.injEq, List.not_mem_nil, or_false] at hb hb'
            rcases hb with ⟨rfl, rfl⟩ | ⟨rfl, rfl⟩ | ⟨rfl, rfl⟩ | ⟨rfl, rfl⟩ | ⟨rfl, rfl⟩ | ⟨rfl, rfl⟩ <;> simpa using hb'
          constructor
          · rintro (h | ⟨rfl, h⟩)
            · exact .pre hb h
            · exact .pre_ hb h
          · intro h
            cases h with
            | dec _ h => exact absurd rfl h
            | oct h => exact absurd h (letter_not_octal hb)
            | pre hp h => rw [uniq _ hp] at h; exact .inl h
            | pre_ hp h => rw [uniq _ hp] at h; exact .inr ⟨rfl, h⟩
        · rw [notpre (by intro q b hq r h; cases h; exact absurd hq (h4 b))]
          exact parseUint0_oct (by simp [base0, h1, h2, h3]) (.inl (by simp [underscoreOK, h1, h2, h3])) n
    · rw [parseUint0_ok, base0_dec hc, underscoreOK_dec hc]
      have := loop_check (hex := false) (b := 10) ⟨by decide, fun _ => by decide⟩ (by decide) '^' (by decide) (c :: t) n
      simp only [ne_eq, reduceCtorEq, not_false_eq_true, true_and, this]
      constructor
      · rintro ⟨h, ⟨h', -⟩ | h' | ⟨h', -⟩⟩
        · cases h'
        · exact ⟨.dec h' hc, h⟩
        · exact absurd h' (by decide)
      · rintro ⟨h, h'⟩
        refine ⟨h', .inr (.inl ?_)⟩
        cases h with
        | dec h _ => exact h
        | oct h => exact absurd rfl hc
        | pre _ _ => exact absurd rfl hc
        | pre_ _ _ => exact absurd rfl hc

theorem uintLit_head {c : Char} {s : Str} {n : Nat} (h : UintLit (c :: s) n) : c ≠ '+' ∧ c ≠ '-' := by
  have key : ∀ {b}, b ≤ 16 → Numeral b (c :: s) n → c ≠ '+' ∧ c ≠ '-' := by
    intro b hb h
    have k := numeral_chars h c (by simp)
    constructor <;>
    · rintro rfl
      rcases k with k | ⟨d, k⟩
      · exact absurd k (by decide)
      · have := ((digit_iff hb).1 k).1
        revert this
        rw [show digitVal _ = none by decide]; simp
  cases h with
  | dec h _ => exact key (by decide) h
  | oct h => exact key (by decide) h
  | pre _ _ => decide
  | pre_ _ _ => decide

theorem signedOf_ok {neg : Bool} {r : UintRes} {v : Int} : signedOf neg r = .ok v ↔
    ∃ n us, r = .ok n us ∧ v = (if neg then -(n : Int) else n) ∧ -2 ^ 63 ≤ v ∧ v < 2 ^ 63 := by
  cases r with
  | syntaxErr => simp [signedOf]
  | rangeErr => cases neg <;> simp [signedOf]
  | ok n us =>
    simp only [signedOf, UintRes.ok.injEq]
    cases neg with
    | true =>
      simp only [if_true]
      split
      · simp only [reduceCtorEq, false_iff]
        rintro ⟨_, _, ⟨rfl, rfl⟩, rfl, h, -⟩
        omega
      · simp only [ParseRes.ok.injEq]
        constructor
        · rintro rfl; exact ⟨n, us, ⟨rfl, rfl⟩, rfl, by omega, by omega⟩
        · rintro ⟨_, _, ⟨rfl, rfl⟩, rfl, -⟩; rfl
    | false =>
      simp only [Bool.false_eq_true, if_false]
      split
      · simp only [reduceCtorEq, false_iff]
        rintro ⟨_, _, ⟨rfl, rfl⟩, rfl, -, h⟩
        omega
      · simp only [ParseRes.ok.injEq]
        constructor
        · rintro rfl; exact ⟨n, us, ⟨rfl, rfl⟩, rfl, by omega, by omega⟩
        · rintro ⟨_, _, ⟨rfl, rfl⟩, rfl, -⟩; rfl

theorem parseInt0_iff (s : Str) (v : Int) : parseInt0 s = .ok v ↔ IntLit s v ∧ -2 ^ 63 ≤ v ∧ v < 2 ^ 63 := by
  match s with
  | [] =>
    constructor
    · intro h; cases h
    · rintro ⟨h, -⟩
      generalize hs : ([] : Str) = s at h
      cases h with
      | plain h => subst hs; cases h
      | plus h => cases hs
      | minus h => cases hs
  | c :: t =>
    have hm : ∀ n : Nat, ((n : Int) < 2 ^ 63 ∨ -2 ^ 63 ≤ -(n : Int)) → n ≤ maxUint64 := by
      intro n h; simp only [maxUint64]; omega
    simp only [parseInt0, signedOf_ok]
    constructor
    · rintro ⟨n, us, h, rfl, h1, h2⟩
      refine ⟨?_, h1, h2⟩
      have hl := ((parseUint0_iff _ n).1 ⟨us, h⟩).1
      by_cases hp : c = '+'
      · subst hp
        rw [if_pos (.inl rfl)] at hl
        exact .plus hl
      · by_cases hq : c = '-'
        · subst hq
          rw [if_pos (.inr rfl)] at hl
          exact .minus hl
        · rw [if_neg (by simp [hp, hq])] at hl
          simp only [hq, decide_false, Bool.false_eq_true, if_false]
          exact .plain hl
    · rintro ⟨h, h1, h2⟩
      cases h with
      | @plain _ n h =>
        obtain ⟨hp, hq⟩ := uintLit_head h
        obtain ⟨us, hu⟩ := (parseUint0_iff _ n).2 ⟨h, hm n (.inl h2)⟩
        exact ⟨n, us, by rw [if_neg (by simp [hp, hq]), hu], by simp [hq], h1, h2⟩
      | @plus _ n h =>
        obtain ⟨us, hu⟩ := (parseUint0_iff _ n).2 ⟨h, hm n (.inl h2)⟩
        exact ⟨n, us, by rw [if_pos (.inl rfl), hu], by simp, h1, h2⟩
      | @minus _ n h =>
        obtain ⟨us, hu⟩ := (parseUint0_iff _ n).2 ⟨h, hm n (.inr h1)⟩
        exact ⟨n, us, by rw [if_pos (.inr rfl), hu], by simp, h1, h2⟩

end OM.Watch
