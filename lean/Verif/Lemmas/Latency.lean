import Verif.Model.Latency
/-!
# Lemmas on the timed outgoing queue
-/
namespace OM.Latency

/-- The size of a full batch. -/
def lim (thr : Int) : Nat := (max thr 1).toNat

theorem lim_pos (thr : Int) : 0 < lim thr := by unfold lim; omega

theorem ge_thr {thr : Int} {n : Nat} (h : 0 < n) : (n : Int) ≥ thr ↔ lim thr ≤ n := by unfold lim; omega

/-- What holds in every state. -/
def Inv (T D : Nat) (thr : Int) (s : St) : Prop :=
  match s.mode with
  | .collect dl => s.now ≤ dl ∧ dl ≤ s.now + T ∧ s.held.length < lim thr
  | .sending since => since ≤ s.now ∧ s.now ≤ since + D ∧ s.held ≠ [] ∧ s.held.length ≤ lim thr

theorem inv_init (T D : Nat) (thr : Int) : Inv T D thr (St.init T) := by
  have := lim_pos thr
  simp [Inv, St.init, this]

theorem inv_step {T D : Nat} {thr : Int} {s s' : St} {l : Lbl} (h : Inv T D thr s) (hs : s.step T D thr l = some s') :
    Inv T D thr s' := by
  obtain ⟨now, next, w, held, mode, ans⟩ := s
  have hl := lim_pos thr
  cases l with
  | arrive => cases hs; exact h
  | take =>
    cases mode with
    | sending a => simp [St.step] at hs
    | collect dl =>
      cases w with
      | nil => simp [St.step] at hs
      | cons r w =>
        simp only [St.step] at hs
        simp only [Inv] at h
        split at hs
        · injection hs with hs; subst hs
          simp only [Inv]
          exact ⟨Nat.le_refl _, Nat.le_add_right _ _, by simp, by simp; omega⟩
        · rename_i hn
          rw [ge_thr (Nat.succ_pos _)] at hn
          injection hs with hs; subst hs
          simp only [Inv]
          exact ⟨h.1, h.2.1, by simp; omega⟩
  | fire =>
    cases mode with
    | sending a => simp [St.step] at hs
    | collect dl =>
      simp only [St.step] at hs
      simp only [Inv] at h
      split at hs
      · split at hs
        · injection hs with hs; subst hs; simp only [Inv]; omega
        · rename_i hne
          injection hs with hs; subst hs; simp only [Inv]
          exact ⟨Nat.le_refl _, Nat.le_add_right _ _, hne, by omega⟩
      · cases hs
  | done =>
    cases mode with
    | collect dl => simp [St.step] at hs
    | sending a =>
      simp only [St.step, Option.some.injEq] at hs
      subst hs
      simp only [Inv, List.length_nil]
      omega
  | tick =>
    cases mode with
    | collect dl =>
      simp only [St.step] at hs
      simp only [Inv] at h
      split at hs
      · injection hs with hs; subst hs; simp only [Inv]; omega
      · cases hs
    | sending a =>
      simp only [St.step] at hs
      simp only [Inv] at h
      split at hs
      · injection hs with hs; subst hs; simp only [Inv]; exact ⟨by omega, by omega, h.2.2⟩
      · cases hs

theorem inv_run {T D : Nat} {thr : Int} (ls : List Lbl) : ∀ {s s' : St}, Inv T D thr s → s.run T D thr ls = some s' → Inv T D thr s' := by
  induction ls with
  | nil => intro s s' h hr; cases hr; exact h
  | cons l ls ih =>
    intro s s' h hr
    obtain ⟨s1, h1, h2⟩ := Option.bind_eq_some_iff.1 hr
    exact ih (inv_step h h1) h2

/-- Update `r` has been answered by time `B`, or will be. -/
def Due (T D : Nat) (thr : Int) (B r : Nat) (s : St) : Prop :=
  (∃ t, (r, t) ∈ s.answered ∧ t ≤ B) ∨
  (r ∈ s.held ∧ match s.mode with
    | .collect dl => dl + D ≤ B
    | .sending since => since + D ≤ B) ∨
  (∃ k, s.waiting[k]? = some r ∧ match s.mode with
    | .collect dl =>
      if s.now < dl then s.now + ((s.held.length + k) / lim thr) * D + T + D ≤ B
      else s.now + D + (k / lim thr) * D + T + D ≤ B
    | .sending since => since + D + (k / lim thr) * D + T + D ≤ B)

theorem div_mono {a b c D : Nat} (h : a ≤ b) : (a / c) * D ≤ (b / c) * D := Nat.mul_le_mul_right _ (Nat.div_le_div_right h)

theorem due_step {T D : Nat} {thr : Int} {B r : Nat} {s s' : St} {l : Lbl} (hi : Inv T D thr s) (hT : 0 < T)
    (h : Due T D thr B r s) (hs : s.step T D thr l = some s') : Due T D thr B r s' := by
  obtain ⟨now, next, w, held, mode, ans⟩ := s
  have hl := lim_pos thr
  rcases h with ⟨t, ht, hB⟩ | h
  · refine .inl ⟨t, ?_, hB⟩
    cases l <;> simp only [St.step] at hs <;> (repeat' split at hs) <;> (first | (cases hs; done) | (injection hs with hs; subst hs)) <;>
      first | exact ht | exact List.mem_append_left _ ht
  cases l with
  | arrive =>
    cases hs
    refine .inr (h.imp id ?_)
    rintro ⟨k, hk, h⟩
    exact ⟨k, by rw [List.getElem?_append_left (List.getElem?_eq_some_iff.1 hk).1]; exact hk, h⟩
  | take =>
    cases mode with
    | sending a => simp [St.step] at hs
    | collect dl =>
      cases w with
      | nil => simp [St.step] at hs
      | cons x w =>
        simp only [Inv] at hi
        simp only [St.step] at hs
        by_cases hf : ((held.length + 1 : Nat) : Int) ≥ thr
        · rw [if_pos hf] at hs
          injection hs with hs; subst hs
          rw [ge_thr (Nat.succ_pos _)] at hf
          have hfull : held.length + 1 = lim thr := by omega
          rcases h with ⟨hm, h⟩ | ⟨k, hk, h⟩
          · refine .inr (.inl ⟨by simp [hm], ?_⟩)
            simp only at h ⊢; omega
          · cases k with
            | zero =>
              simp only [List.getElem?_cons_zero, Option.some.injEq] at hk
              subst hk
              refine .inr (.inl ⟨by simp, ?_⟩)
              simp only at h ⊢
              split at h <;> omega
            | succ k =>
              refine .inr (.inr ⟨k, by simpa using hk, ?_⟩)
              simp only at h ⊢
              split at h
              · have : held.length + (k + 1) = k + lim thr := by omega
                rw [this, Nat.add_div_right _ hl, Nat.succ_mul] at h
                omega
              · have := div_mono (c := lim thr) (D := D) (Nat.le_add_right k 1)
                omega
        · rw [if_neg hf] at hs
          injection hs with hs; subst hs
          rw [ge_thr (Nat.succ_pos _)] at hf
          rcases h with ⟨hm, h⟩ | ⟨k, hk, h⟩
          · exact .inr (.inl ⟨by simp [hm], h⟩)
          · cases k with
            | zero =>
              simp only [List.getElem?_cons_zero, Option.some.injEq] at hk
              subst hk
              refine .inr (.inl ⟨by simp, ?_⟩)
              simp only at h ⊢
              split at h <;> omega
            | succ k =>
              refine .inr (.inr ⟨k, by simpa using hk, ?_⟩)
              simp only [List.length_append, List.length_singleton] at h ⊢
              split at h
              · rename_i hlt
                rw [if_pos hlt]
                have : held.length + 1 + k = held.length + (k + 1) := by omega
                rw [this]; exact h
              · rename_i hlt
                rw [if_neg hlt]
                have := div_mono (c := lim thr) (D := D) (Nat.le_add_right k 1)
                omega
  | fire =>
    cases mode with
    | sending a => simp [St.step] at hs
    | collect dl =>
      simp only [Inv] at hi
      simp only [St.step] at hs
      split at hs
      · rename_i hdl
        split at hs
        · rename_i he
          subst he
          injection hs with hs; subst hs
          rcases h with ⟨hm, -⟩ | ⟨k, hk, h⟩
          · cases hm
          · refine .inr (.inr ⟨k, hk, ?_⟩)
            simp only [List.length_nil, Nat.zero_add] at h ⊢
            rw [if_neg (by omega)] at h
            rw [if_pos (by omega)]
            omega
        · injection hs with hs; subst hs
          rcases h with ⟨hm, h⟩ | ⟨k, hk, h⟩
          · refine .inr (.inl ⟨hm, ?_⟩)
            simp only at h ⊢; omega
          · refine .inr (.inr ⟨k, hk, ?_⟩)
            simp only at h ⊢
            rw [if_neg (by omega)] at h
            omega
      · cases hs
  | done =>
    cases mode with
    | collect dl => simp [St.step] at hs
    | sending a =>
      simp only [Inv] at hi
      simp only [St.step, Option.some.injEq] at hs
      subst hs
      rcases h with ⟨hm, h⟩ | ⟨k, hk, h⟩
      · simp only at h
        exact .inl ⟨now, List.mem_append_right _ (List.mem_map.2 ⟨r, hm, rfl⟩), by omega⟩
      · refine .inr (.inr ⟨k, hk, ?_⟩)
        simp only [List.length_nil, Nat.zero_add] at h ⊢
        rw [if_pos (by omega)]
        omega
  | tick =>
    cases mode with
    | collect dl =>
      simp only [St.step] at hs
      split at hs
      · rename_i hw
        injection hs with hs; subst hs
        rcases h with h | ⟨k, hk, h⟩
        · exact .inr (.inl h)
        · simp only at hk; rw [hw.1] at hk; simp at hk
      · cases hs
    | sending a =>
      simp only [St.step] at hs
      split at hs
      · injection hs with hs; subst hs
        exact .inr h
      · cases hs

theorem due_run {T D : Nat} {thr : Int} {B r : Nat} (hT : 0 < T) (ls : List Lbl) : ∀ {s s' : St}, Inv T D thr s → Due T D thr B r s →
    s.run T D thr ls = some s' → Due T D thr B r s' := by
  induction ls with
  | nil => intro s s' _ h hr; cases hr; exact h
  | cons l ls ih =>
    intro s s' hi h hr
    obtain ⟨s1, h1, h2⟩ := Option.bind_eq_some_iff.1 hr
    exact ih (inv_step hi h1) (due_step hi hT h h1) h2

/-- When it has just arrived. -/
theorem due_arrive {T D : Nat} {thr : Int} {s s' : St} (hi : Inv T D thr s) (hs : s.step T D thr .arrive = some s') :
    Due T D thr (s.now + T + (s.waiting.length / lim thr + 2) * D) s.next s' := by
  obtain ⟨now, next, w, held, mode, ans⟩ := s
  have hl := lim_pos thr
  cases hs
  refine .inr (.inr ⟨w.length, by simp, ?_⟩)
  have e : (w.length / lim thr + 2) * D = (w.length / lim thr) * D + D + D := by rw [Nat.add_mul, Nat.two_mul, Nat.add_assoc]
  cases mode with
  | sending a => simp only [Inv] at hi; simp only; omega
  | collect dl =>
    simp only [Inv] at hi
    simp only
    split
    · have : (held.length + w.length) / lim thr ≤ w.length / lim thr + 1 := by
        rw [← Nat.add_div_right _ hl]
        exact Nat.div_le_div_right (by omega)
      have := Nat.mul_le_mul_right D this
      rw [Nat.succ_mul] at this
      omega
    · omega

theorem due_now {T D : Nat} {thr : Int} {B r : Nat} {s : St} (hi : Inv T D thr s) (h : Due T D thr B r s) :
    (∃ t, (r, t) ∈ s.answered ∧ t ≤ B) ∨ s.now ≤ B := by
  obtain ⟨now, next, w, held, mode, ans⟩ := s
  rcases h with h | ⟨-, h⟩ | ⟨k, -, h⟩
  · exact .inl h
  · refine .inr ?_
    cases mode <;> simp only [Inv] at hi h <;> simp only <;> omega
  · refine .inr ?_
    cases mode with
    | sending a => simp only [Inv] at hi h; simp only; omega
    | collect dl =>
      simp only [Inv] at hi h
      simp only
      split at h <;> omega

end OM.Latency
