import Verif.Model.Timeouts
import Verif.Spec.Duration
import Verif.Lemmas.Config
import Verif.Lemmas.Seconds
import Verif.Lemmas.Serve
/-! # Lemmas about durations -/
namespace OM.Conf
open OM.Spec Watch

theorem split_at {p : Char → Bool} {a b : Str} (ha : ∀ c ∈ a, p c = true) (hb : ∀ c, b.head? = some c → p c = false) :
    (a ++ b).takeWhile p = a ∧ (a ++ b).dropWhile p = b := by
  induction a with
  | nil =>
    cases b with
    | nil => simp
    | cons c b => simp [hb c (by simp)]
  | cons x a ih =>
    have hx := ha x (by simp)
    obtain ⟨h1, h2⟩ := ih (fun c hc => ha c (by simp [hc]))
    exact ⟨by simp [hx, h1], by simp [hx, h2]⟩

theorem leadingInt_le : ∀ (ds : Str) (x : Nat), Nat.ofDigitChars 10 ds x ≤ 2 ^ 63 →
    leadingInt x ds = some (Nat.ofDigitChars 10 ds x) := by
  intro ds
  induction ds with
  | nil => intro x _; simp [leadingInt]
  | cons c ds ih =>
    intro x h
    rw [Nat.ofDigitChars_cons] at h ⊢
    have h0 : ('0' : Char).toNat = 48 := rfl
    rw [h0] at h ⊢
    have hp : 1 ≤ 10 ^ ds.length := Nat.one_le_pow _ _ (by decide)
    have hle : 10 * x + (c.toNat - 48) ≤ 2 ^ 63 := by
      have h' := h
      rw [Serve.ofDigitChars_value] at h'
      have := Nat.le_mul_of_pos_left (10 * x + (c.toNat - 48)) hp
      omega
    have e : x * 10 + (c.toNat - 48) = 10 * x + (c.toNat - 48) := by omega
    simp only [leadingInt]
    rw [if_neg (by omega), e, if_neg (by omega), ih _ h]

theorem leadingFraction_le : ∀ (fs : Str) (x k : Nat), (∀ c ∈ fs, c.isDigit = true) → x < 10 ^ k → k + fs.length ≤ 18 →
    leadingFraction x k fs = (Nat.ofDigitChars 10 fs x, k + fs.length) := by
  intro fs
  induction fs with
  | nil => intro x k _ _ _; simp [leadingFraction]
  | cons c fs ih =>
    intro x k hd hx hk
    have hc := Serve.isDigit_iff.1 (hd c (by simp))
    have hc' : c.toNat ≤ 57 := hc.2
    have h0 : ('0' : Char).toNat = 48 := rfl
    have hl : (c :: fs).length = fs.length + 1 := rfl
    have h17 : 10 ^ k ≤ 10 ^ 17 := Nat.pow_le_pow_right (by decide) (by omega)
    have hy : 10 * x + (c.toNat - 48) < 10 ^ (k + 1) := by rw [pow_succ]; omega
    have e : x * 10 + (c.toNat - 48) = 10 * x + (c.toNat - 48) := by omega
    rw [Nat.ofDigitChars_cons, h0]
    simp only [leadingFraction]
    rw [if_neg (by omega), e, if_neg (by omega), ih _ _ (fun c hc => hd c (by simp [hc])) hy (by omega)]
    simp only [Prod.mk.injEq, true_and]
    omega

theorem unitNs_iff (u : Str) (n : Nat) : unitNs u = some n ↔ (u, n) ∈ durUnits := by
  simp only [durUnits, List.mem_cons, Prod.mk.injEq, List.not_mem_nil, or_false]
  unfold unitNs
  constructor
  · intro h
    split at h
    · rename_i h'; simp only [Option.some.injEq] at h; subst h; exact Or.inl ⟨h', rfl⟩
    split at h
    · rename_i h'
      simp only [Option.some.injEq] at h; subst h
      rcases h' with h' | h' | h'
      · exact Or.inr (Or.inl ⟨h', rfl⟩)
      · exact Or.inr (Or.inr (Or.inl ⟨h', rfl⟩))
      · exact Or.inr (Or.inr (Or.inr (Or.inl ⟨h', rfl⟩)))
    split at h
    · rename_i h'; simp only [Option.some.injEq] at h; subst h; exact Or.inr (Or.inr (Or.inr (Or.inr (Or.inl ⟨h', rfl⟩))))
    split at h
    · rename_i h'; simp only [Option.some.injEq] at h; subst h
      exact Or.inr (Or.inr (Or.inr (Or.inr (Or.inr (Or.inl ⟨h', rfl⟩)))))
    split at h
    · rename_i h'; simp only [Option.some.injEq] at h; subst h
      exact Or.inr (Or.inr (Or.inr (Or.inr (Or.inr (Or.inr (Or.inl ⟨h', rfl⟩))))))
    split at h
    · rename_i h'; simp only [Option.some.injEq] at h; subst h
      exact Or.inr (Or.inr (Or.inr (Or.inr (Or.inr (Or.inr (Or.inr ⟨h', rfl⟩))))))
    · cases h
  · rintro (⟨rfl, rfl⟩ | ⟨rfl, rfl⟩ | ⟨rfl, rfl⟩ | ⟨rfl, rfl⟩ | ⟨rfl, rfl⟩ | ⟨rfl, rfl⟩ | ⟨rfl, rfl⟩ | ⟨rfl, rfl⟩) <;> decide

/-- Units have letters only, a positive size, and a letter that cast looks for. -/
theorem unit_facts {u : Str} {n : Nat} (h : (u, n) ∈ durUnits) :
    (∀ c ∈ u, unitEnds c = false) ∧ 0 < n ∧ u ≠ [] ∧
      ∃ c ∈ u, c ∈ ['n', 's', 'u', Char.ofNat 0xB5, 'm', 'h'] := by
  simp only [durUnits, List.mem_cons, Prod.mk.injEq, List.not_mem_nil, or_false] at h
  rcases h with ⟨rfl, rfl⟩ | ⟨rfl, rfl⟩ | ⟨rfl, rfl⟩ | ⟨rfl, rfl⟩ | ⟨rfl, rfl⟩ | ⟨rfl, rfl⟩ | ⟨rfl, rfl⟩ | ⟨rfl, rfl⟩ <;> decide

theorem unitEnds_digit {c : Char} (h : c.isDigit = true) : unitEnds c = true := by simp [unitEnds, h]

theorem not_digit_of_not_ends {c : Char} (h : unitEnds c = false) : c.isDigit = false ∧ c ≠ '.' := by
  simp only [unitEnds, Bool.or_eq_false_iff, decide_eq_false_iff_not] at h
  exact ⟨h.2, h.1⟩

/-- One item: digits, possibly a point and digits, and a unit. -/
theorem durLoop_item (fr : Nat → Nat → Nat → Nat) (fuel d : Nat) {ds fs u rest : Str} {n : Nat} (pt : Bool)
    (hds : ∀ c ∈ ds, c.isDigit = true) (hfs : ∀ c ∈ fs, c.isDigit = true) (hne : ds ≠ [] ∨ fs ≠ []) (hp : pt = false → fs = [])
    (hu : (u, n) ∈ durUnits) (hr : ∀ c, rest.head? = some c → unitEnds c = true) :
    durLoop fr (fuel + 1) d (ds ++ ((if pt then '.' :: fs else []) ++ (u ++ rest))) =
      match leadingInt 0 ds with
      | none => none
      | some v =>
        if v > 2 ^ 63 / n then none
        else
          let f := leadingFraction 0 0 fs
          let v := v * n + (if 0 < f.1 then fr f.1 f.2 n else 0)
          if v > 2 ^ 63 then none
          else
            let d := (d + v) % 2 ^ 64
            if d > 2 ^ 63 then none else durLoop fr fuel d rest := by
  obtain ⟨hu1, -, hu2, -⟩ := unit_facts hu
  have hun := (unitNs_iff u n).2 hu
  have hhead : ∀ c, (u ++ rest).head? = some c → unitEnds c = false := by
    intro c hc
    cases u with
    | nil => exact absurd rfl hu2
    | cons a u => simp only [List.cons_append, List.head?_cons, Option.some.injEq] at hc; exact hu1 c (by simp [hc])
  obtain ⟨t1, t2⟩ := split_at (p := fun c => !unitEnds c) (a := u) (b := rest) (fun c hc => by simp [hu1 c hc])
    (fun c hc => by simp [hr c hc])
  cases pt with
  | false =>
    obtain rfl := hp rfl
    simp only [Bool.false_eq_true, if_false, List.nil_append]
    obtain ⟨d1, d2⟩ := split_at (p := fun c => c.isDigit) (a := ds) (b := u ++ rest) hds
      (fun c hc => (not_digit_of_not_ends (hhead c hc)).1)
    have hpt : ¬ (u ++ rest).head? = some '.' := fun h => (not_digit_of_not_ends (hhead _ h)).2 rfl
    have hd0 : ds ≠ [] := by simpa using hne
    generalize hs : ds ++ (u ++ rest) = s at d1 d2
    cases s with
    | nil => simp [hd0] at hs
    | cons c cs =>
      have hc : unitEnds c = true := by
        cases ds with
        | nil => exact absurd rfl hd0
        | cons a ds => simp only [List.cons_append, List.cons.injEq] at hs; rw [← hs.1]; exact unitEnds_digit (hds a (by simp))
      simp only [durLoop, hc, Bool.not_true, Bool.false_eq_true, if_false, d1, d2, hpt, decide_false, t1, t2, hun, hd0, false_and]
      cases leadingInt 0 ds <;> rfl
  | true =>
    simp only [if_true]
    obtain ⟨d1, d2⟩ := split_at (p := fun c => c.isDigit) (a := ds) (b := '.' :: fs ++ (u ++ rest)) hds
      (fun c hc => by simp at hc; subst hc; decide)
    obtain ⟨f1, f2⟩ := split_at (p := fun c => c.isDigit) (a := fs) (b := u ++ rest) hfs
      (fun c hc => (not_digit_of_not_ends (hhead c hc)).1)
    have hn : ¬ (ds = [] ∧ fs = []) := by rintro ⟨h1, h2⟩; rcases hne with h | h <;> contradiction
    generalize hs : ds ++ ('.' :: fs ++ (u ++ rest)) = s at d1 d2
    cases s with
    | nil => simp at hs
    | cons c cs =>
      have hc : unitEnds c = true := by
        cases ds with
        | nil => simp at hs; rw [← hs.1]; decide
        | cons a ds => simp only [List.cons_append, List.cons.injEq] at hs; rw [← hs.1]; exact unitEnds_digit (hds a (by simp))
      simp only [durLoop, hc, Bool.not_true, Bool.false_eq_true, if_false, d1, d2, List.cons_append, List.head?_cons, decide_true, if_true,
        List.drop_succ_cons, List.drop_zero, f1, f2, t1, t2, hun, hn]
      cases leadingInt 0 ds <;> rfl

theorem digits_isDigit {s : Str} (h : DigitRun s) : ∀ c ∈ s, c.isDigit = true := fun c hc => Serve.isDigit_iff.2 (h c hc)

theorem head_append {a b : Str} (h : a ≠ []) {c : Char} (hc : (a ++ b).head? = some c) : c ∈ a := by
  cases a with
  | nil => exact absurd rfl h
  | cons x a => simp at hc; simp [hc]

theorem durText_head {fr : Nat → Nat → Nat → Nat} {s : Str} {t : Nat} (h : DurText fr s t) : ∀ c, s.head? = some c → unitEnds c = true := by
  cases h with
  | nil => simp
  | whole h1 h2 _ _ => intro c hc; exact unitEnds_digit (digits_isDigit h2 c (head_append h1 hc))
  | @point ds _ _ _ _ _ h1 h2 _ _ _ _ =>
    intro c hc
    cases ds with
    | nil => simp at hc; subst hc; decide
    | cons a ds => simp at hc; subst hc; exact unitEnds_digit (digits_isDigit h2 _ (by simp))

/-- The sum of a sequence of numbers with units. -/
theorem durLoop_text {fr : Nat → Nat → Nat → Nat} {s : Str} {t : Nat} (h : DurText fr s t) :
    ∀ fuel d, s.length < fuel → d + t ≤ 2 ^ 63 → durLoop fr fuel d s = some (d + t) := by
  induction h with
  | nil => intro fuel d hf _; cases fuel with
    | zero => simp at hf
    | succ k => simp [durLoop]
  | @whole ds u rest n t h1 h2 h3 h4 ih =>
    intro fuel d hf hle
    obtain ⟨_, hn, hu, _⟩ := unit_facts h3
    cases fuel with
    | zero => simp at hf
    | succ k =>
      have hlen : rest.length < k := by
        have := List.length_pos_of_ne_nil h1
        simp only [List.length_append] at hf
        omega
      have e := durLoop_item fr k d (ds := ds) (fs := []) (u := u) (rest := rest) (n := n) false (digits_isDigit h2) (by simp)
        (Or.inl h1) (fun _ => rfl) h3 (durText_head h4)
      simp only [Bool.false_eq_true, if_false, List.nil_append] at e
      have hv : digitsValue ds ≤ digitsValue ds * n := Nat.le_mul_of_pos_right _ hn
      rw [e, leadingInt_le _ _ (by rw [← Serve.digitsValue_eq]; omega), ← Serve.digitsValue_eq]
      simp only [leadingFraction, Nat.lt_irrefl, if_false, Nat.add_zero]
      have hm : (d + digitsValue ds * n) % 2 ^ 64 = d + digitsValue ds * n := Nat.mod_eq_of_lt (by omega)
      have hq : ¬ digitsValue ds > 2 ^ 63 / n := by
        rw [Nat.not_lt, Nat.le_div_iff_mul_le hn]; omega
      rw [if_neg hq, if_neg (by omega), hm, if_neg (by omega), ih k _ hlen (by omega)]
      congr 1; omega
  | @point ds fs u rest n t h1 h2 h3 h4 h5 h6 ih =>
    intro fuel d hf hle
    obtain ⟨_, hn, hu, _⟩ := unit_facts h5
    cases fuel with
    | zero => simp at hf
    | succ k =>
      have hlen : rest.length < k := by
        simp only [List.length_append, List.length_cons] at hf
        omega
      have e := durLoop_item fr k d (ds := ds) (fs := fs) (u := u) (rest := rest) (n := n) true (digits_isDigit h2) (digits_isDigit h3)
        h1 (by simp) h5 (durText_head h6)
      simp only [if_true, List.cons_append] at e
      have hv : digitsValue ds ≤ digitsValue ds * n := Nat.le_mul_of_pos_right _ hn
      rw [e, leadingInt_le _ _ (by rw [← Serve.digitsValue_eq]; omega), ← Serve.digitsValue_eq,
        leadingFraction_le _ _ _ (digits_isDigit h3) (by simp) (by omega), ← Serve.digitsValue_eq]
      have ef : (if 0 < digitsValue fs then fr (digitsValue fs) (0 + fs.length) n else 0) =
          (if digitsValue fs = 0 then 0 else fr (digitsValue fs) fs.length n) := by
        by_cases h0 : digitsValue fs = 0
        · rw [if_pos h0, if_neg (by omega)]
        · rw [if_neg h0, if_pos (by omega), Nat.zero_add]
      simp only [ef]
      generalize (if digitsValue fs = 0 then 0 else fr (digitsValue fs) fs.length n) = x at hle ih ⊢
      have hm : (d + (digitsValue ds * n + x)) % 2 ^ 64 = d + (digitsValue ds * n + x) := Nat.mod_eq_of_lt (by omega)
      have hq : ¬ digitsValue ds > 2 ^ 63 / n := by
        rw [Nat.not_lt, Nat.le_div_iff_mul_le hn]; omega
      rw [if_neg hq, if_neg (by omega), hm, if_neg (by omega), ih k _ hlen (by omega)]
      congr 1; omega

theorem takeWhile_all {p : Char → Bool} (s : Str) : ∀ c ∈ s.takeWhile p, p c = true := fun c hc => by
  induction s with
  | nil => simp at hc
  | cons a s ih =>
    by_cases h : p a = true
    · simp only [List.takeWhile_cons, h, if_true, List.mem_cons] at hc
      rcases hc with rfl | hc
      · exact h
      · exact ih hc
    · simp [h] at hc

theorem if_none {α : Type} {c : Prop} [Decidable c] {e : Option α} {t : α} (h : (if c then none else e) = some t) : ¬ c ∧ e = some t := by
  by_cases hc : c
  · rw [if_pos hc] at h; cases h
  · rw [if_neg hc] at h; exact ⟨hc, h⟩

/-- The loop accepts nothing else. -/
theorem durLoop_syntax {fr : Nat → Nat → Nat → Nat} : ∀ (fuel d : Nat) (s : Str) (t : Nat), durLoop fr fuel d s = some t → DurSyntax s := by
  intro fuel
  induction fuel with
  | zero => intro d s t h; simp [durLoop] at h
  | succ k ih =>
    intro d s t h
    cases s with
    | nil => exact .nil
    | cons c cs =>
      unfold durLoop at h
      simp only at h
      generalize hs : c :: cs = s at h
      obtain ⟨-, h⟩ := if_none h
      cases hv : leadingInt 0 (s.takeWhile (·.isDigit)) with
      | none => rw [hv] at h; cases h
      | some v =>
      rw [hv] at h
      obtain ⟨hne, h⟩ := if_none h
      generalize hun : unitNs _ = un at h
      cases un with
      | none => cases h
      | some unit =>
      obtain ⟨-, h⟩ := if_none h
      obtain ⟨-, h⟩ := if_none h
      obtain ⟨-, h⟩ := if_none h
      have hrest := ih _ _ _ h
      have hu := (unitNs_iff _ _).1 hun
      have e1 : s = s.takeWhile (·.isDigit) ++ s.dropWhile (·.isDigit) := (List.takeWhile_append_dropWhile).symm
      have hd1 : DigitRun (s.takeWhile (·.isDigit)) := fun c hc => Serve.isDigit_iff.1 (takeWhile_all s c hc)
      generalize s.takeWhile (·.isDigit) = ds at e1 hd1 hne
      generalize s.dropWhile (·.isDigit) = r at e1 hu hrest hne
      rw [e1]
      by_cases hp : r.head? = some '.'
      · simp only [hp, decide_true, if_true] at hu hrest hne
        obtain ⟨r', rfl⟩ : ∃ r', r = '.' :: r' := by
          cases r with
          | nil => simp at hp
          | cons a r => simp at hp; exact ⟨r, by rw [hp]⟩
        simp only [List.drop_succ_cons, List.drop_zero] at hu hrest hne
        have e2 : r' = r'.takeWhile (·.isDigit) ++ r'.dropWhile (·.isDigit) := (List.takeWhile_append_dropWhile).symm
        have hd2 : DigitRun (r'.takeWhile (·.isDigit)) := fun c hc => Serve.isDigit_iff.1 (takeWhile_all r' c hc)
        generalize r'.takeWhile (·.isDigit) = fs at e2 hd2 hne
        generalize r'.dropWhile (·.isDigit) = q at e2 hu hrest
        have e3 : q = q.takeWhile (fun c => !unitEnds c) ++ q.dropWhile (fun c => !unitEnds c) := (List.takeWhile_append_dropWhile).symm
        rw [e2, e3]
        exact .point (by by_contra hc; push Not at hc; exact hne hc) hd1 hd2 hu hrest
      · simp only [hp, decide_false, Bool.false_eq_true, if_false] at hu hrest hne
        have e3 : r = r.takeWhile (fun c => !unitEnds c) ++ r.dropWhile (fun c => !unitEnds c) := (List.takeWhile_append_dropWhile).symm
        rw [e3]
        exact .whole (fun h => hne ⟨h, trivial⟩) hd1 hu hrest

theorem durText_syntax {fr : Nat → Nat → Nat → Nat} {s : Str} {t : Nat} (h : DurText fr s t) : DurSyntax s := by
  induction h with
  | nil => exact .nil
  | whole h1 h2 h3 _ ih => exact .whole h1 h2 h3 ih
  | point h1 h2 h3 _ h4 _ ih => exact .point h1 h2 h3 h4 ih

theorem durText_no_sign {fr : Nat → Nat → Nat → Nat} {s : Str} {t : Nat} (h : DurText fr s t) :
    s.head? ≠ some '-' ∧ s.head? ≠ some '+' :=
  ⟨fun e => absurd (durText_head h _ e) (by decide), fun e => absurd (durText_head h _ e) (by decide)⟩

theorem durText_ne_zero {fr : Nat → Nat → Nat → Nat} {s : Str} {t : Nat} (h : DurText fr s t) :
    s = [] ∨ ∃ c ∈ s, c ∈ ['n', 's', 'u', Char.ofNat 0xB5, 'm', 'h'] := by
  cases h with
  | nil => exact Or.inl rfl
  | whole _ _ h3 _ =>
    obtain ⟨-, -, -, c, h1, h2⟩ := unit_facts h3
    exact Or.inr ⟨c, by simp [h1], h2⟩
  | point _ _ _ _ h3 _ =>
    obtain ⟨-, -, -, c, h1, h2⟩ := unit_facts h3
    exact Or.inr ⟨c, by simp [h1], h2⟩

theorem letters_zero : ∀ c ∈ (['0'] : Str), c ∉ ['n', 's', 'u', Char.ofNat 0xB5, 'm', 'h'] := by decide

/-- `time.ParseDuration` reads what it documents, in the range of an int64. -/
theorem parseDuration_of {fr : Nat → Nat → Nat → Nat} {s : Str} {d : Int} (h : DurationOf fr s d) : parseDuration fr s = some d := by
  have hz : ∀ {r : Str} {t : Nat}, r ≠ [] → DurText fr r t → r ≠ ['0'] := by
    intro r t hr ht e
    subst e
    rcases durText_ne_zero ht with h | ⟨c, h1, h2⟩
    · exact hr h
    · exact letters_zero c h1 h2
  cases h with
  | zero => rfl
  | plusZero => rfl
  | minusZero => rfl
  | @plain _ t h1 h2 h3 =>
    obtain ⟨n1, n2⟩ := durText_no_sign h2
    simp only [parseDuration, n1, n2, or_self, if_false, hz h1 h2, h1, decide_false, Bool.false_eq_true]
    rw [durLoop_text h2 _ 0 (by omega) (by omega)]
    simp only [Nat.zero_add]
    rw [if_neg (by omega)]
  | @plus s t h1 h2 h3 =>
    simp only [parseDuration, List.head?_cons, List.drop_succ_cons, List.drop_zero, Option.some.injEq, or_true, if_true, hz h1 h2, h1,
      if_false]
    rw [durLoop_text h2 _ 0 (by omega) (by omega)]
    simp only [Nat.zero_add, show ('+' : Char) = '-' ↔ False from by decide, decide_false, Bool.false_eq_true, if_false]
    rw [if_neg (by omega)]
  | @minus s t h1 h2 h3 =>
    simp only [parseDuration, List.head?_cons, List.drop_succ_cons, List.drop_zero, true_or, if_true, hz h1 h2, h1,
      if_false]
    rw [durLoop_text h2 _ 0 (by omega) (by omega)]
    simp

/-- … and nothing else. -/
theorem parseDuration_syntax {fr : Nat → Nat → Nat → Nat} {s : Str} {d : Int} (h : parseDuration fr s = some d) : IsDuration s := by
  unfold parseDuration at h
  simp only at h
  refine ⟨if s.head? = some '-' ∨ s.head? = some '+' then s.drop 1 else s, ?_, ?_⟩
  · cases s with
    | nil => simp
    | cons c s =>
      simp only [List.head?_cons, Option.some.injEq, List.drop_succ_cons, List.drop_zero]
      by_cases h1 : c = '-'
      · right; right; simp [h1]
      by_cases h2 : c = '+'
      · right; left; simp [h2]
      · left; simp [h1, h2]
  · generalize (if s.head? = some '-' ∨ s.head? = some '+' then s.drop 1 else s) = r at h ⊢
    by_cases h1 : r = ['0']
    · exact Or.inl h1
    rw [if_neg h1] at h
    obtain ⟨h2, h⟩ := if_none h
    refine Or.inr ⟨h2, ?_⟩
    cases hl : durLoop fr (r.length + 1) 0 r with
    | none => rw [hl] at h; cases h
    | some t => exact durLoop_syntax _ _ _ _ hl

end OM.Conf
