import Verif.Model.Lag
/-!
# Lemmas on the timed incoming queue
-/
namespace OM.Lag

/-- All that is not applied yet, in order. -/
def St.pending (s : St) : List Nat := s.chan ++ s.poll.held ++ s.stream

/-- What holds in every state. -/
structure Inv (T R E N : Nat) (s : St) : Prop where
  chan : s.chan.length ≤ N
  mode : match s.mode with
    | .sleep till => s.now ≤ till ∧ till ≤ s.now + T
    | .drain since => since ≤ s.now ∧ s.now ≤ since + E
    | .expire since => since ≤ s.now ∧ s.now ≤ since + E
  poll : match s.poll with
    | .reading due => due ≤ s.now + R
    | .pushing _ _ => True

theorem inv_init (T R E N : Nat) : Inv T R E N (St.init T R) :=
  ⟨Nat.zero_le _, by simp [St.init], by simp [St.init]⟩

theorem inv_step {T R E N : Nat} {s s' : St} {l : Lbl} (h : Inv T R E N s) (hs : s.step T R E N l = some s') : Inv T R E N s' := by
  obtain ⟨now, next, st, poll, chan, mode, ap⟩ := s
  obtain ⟨hc, hm, hp⟩ := h
  simp only at hc hm hp
  cases l with
  | arrive =>
    simp only [St.step, Option.some.injEq] at hs
    subst hs
    refine ⟨hc, hm, ?_⟩
    cases poll with
    | reading due =>
      simp only
      by_cases he : st = []
      · simp only [he, if_true]; exact Nat.le_refl _
      · simp only [he, if_false]; exact hp
    | pushing r rs => trivial
  | read =>
    simp only [St.step] at hs
    split at hs
    · injection hs with hs; subst hs; exact ⟨hc, hm, trivial⟩
    · cases hs
  | push =>
    cases poll with
    | reading due => simp [St.step] at hs
    | pushing r rs =>
      simp only [St.step] at hs
      split at hs
      · injection hs with hs; subst hs
        refine ⟨by simp; omega, hm, ?_⟩
        cases rs <;> simp
      · cases hs
  | wake =>
    cases mode with
    | sleep till =>
      simp only [St.step] at hs
      split at hs
      · injection hs with hs; subst hs
        exact ⟨hc, ⟨Nat.le_refl _, Nat.le_add_right _ _⟩, hp⟩
      · cases hs
    | drain a => simp [St.step] at hs
    | expire a => simp [St.step] at hs
  | take =>
    simp only [St.step] at hs
    split at hs
    · rename_i h1 h2
      injection hs with hs; subst hs
      refine ⟨?_, hm, hp⟩
      simp only [List.length_cons] at hc ⊢; omega
    · cases hs
  | empty =>
    simp only [St.step] at hs
    split at hs
    · injection hs with hs; subst hs
      exact ⟨hc, hm, hp⟩
    · cases hs
  | slept =>
    cases mode with
    | sleep till => simp [St.step] at hs
    | drain a => simp [St.step] at hs
    | expire a =>
      simp only [St.step, Option.some.injEq] at hs
      subst hs
      exact ⟨hc, ⟨Nat.le_add_right _ _, Nat.le_refl _⟩, hp⟩
  | tick =>
    simp only [St.step] at hs
    split at hs
    · rename_i hw
      injection hs with hs; subst hs
      rw [Bool.and_eq_true] at hw
      refine ⟨hc, ?_, ?_⟩
      · cases mode <;> simp only [Mode.mayWait, decide_eq_true_eq] at hw hm ⊢ <;> omega
      · cases poll <;> simp only at hp ⊢; omega
    · cases hs

theorem inv_run {T R E N : Nat} (ls : List Lbl) : ∀ {s s' : St}, Inv T R E N s → s.run T R E N ls = some s' → Inv T R E N s' := by
  induction ls with
  | nil => intro s s' h hr; cases hr; exact h
  | cons l ls ih =>
    intro s s' h hr
    obtain ⟨s1, h1, h2⟩ := Option.bind_eq_some_iff.1 hr
    exact ih (inv_step h h1) h2

/-- Updates come in at the end, leave in front, and stay in order. -/
theorem pending_step {T R E N : Nat} {s s' : St} {l : Lbl} (hs : s.step T R E N l = some s') :
    match l with
    | .arrive => s'.pending = s.pending ++ [s.next] ∧ s'.next = s.next + 1 ∧ s'.applied = s.applied
    | .take => ∃ r, s.pending = r :: s'.pending ∧ s'.next = s.next ∧ s'.applied = s.applied ++ [(r, s.now)]
    | _ => s'.pending = s.pending ∧ s'.next = s.next ∧ s'.applied = s.applied := by
  obtain ⟨now, next, st, poll, chan, mode, ap⟩ := s
  cases l with
  | arrive =>
    simp only [St.step, Option.some.injEq] at hs
    subst hs
    refine ⟨?_, rfl, rfl⟩
    cases poll with
    | reading due => by_cases he : st = [] <;> simp [St.pending, he, Poll.held]
    | pushing r rs => simp [St.pending]
  | read =>
    simp only [St.step] at hs
    split at hs
    · rename_i due r rs _ h1 _
      injection hs with hs; subst hs
      refine ⟨?_, rfl, rfl⟩
      simp only [St.pending, Poll.held, ← h1, List.append_nil, List.append_assoc, List.take_append_drop]
    · cases hs
  | push =>
    cases poll with
    | reading due => simp [St.step] at hs
    | pushing r rs =>
      simp only [St.step] at hs
      split at hs
      · injection hs with hs; subst hs
        refine ⟨?_, rfl, rfl⟩
        cases rs <;> simp [St.pending, Poll.held]
      · cases hs
  | wake =>
    simp only [St.step] at hs
    split at hs
    · split at hs
      · injection hs with hs; subst hs; exact ⟨rfl, rfl, rfl⟩
      · cases hs
    · cases hs
  | take =>
    simp only [St.step] at hs
    split at hs
    · injection hs with hs; subst hs
      exact ⟨_, rfl, rfl, rfl⟩
    · cases hs
  | empty =>
    simp only [St.step] at hs
    split at hs
    · injection hs with hs; subst hs; exact ⟨rfl, rfl, rfl⟩
    · cases hs
  | slept =>
    simp only [St.step] at hs
    split at hs
    · injection hs with hs; subst hs; exact ⟨rfl, rfl, rfl⟩
    · cases hs
  | tick =>
    simp only [St.step] at hs
    split at hs
    · injection hs with hs; subst hs; exact ⟨rfl, rfl, rfl⟩
    · cases hs

/-- The first `j + 1` pending updates will be in the channel when the sleep ends at `till`. -/
def Safe (R till j : Nat) (s : St) : Prop :=
  j < s.chan.length ∨ (s.now < till ∧ (j < s.chan.length + s.poll.held.length ∨
    match s.poll with
    | .reading due => due < till
    | .pushing _ _ => s.now + R < till))

/-- The update in place `q` will be applied by time `B`. -/
def Soon (T R E N B q : Nat) (s : St) : Prop :=
  match s.mode with
  | .sleep till => (Safe R till (min q (N - 1)) s ∧ till + E + (q / N) * (T + E) ≤ B) ∨ till + E + (q / N) * (T + E) + (T + E) ≤ B
  | .drain since => if q < s.chan.length then since + E ≤ B else since + E + ((q - s.chan.length) / N) * (T + E) + (T + E) ≤ B
  | .expire since => since + E + (q / N) * (T + E) + (T + E) ≤ B

/-- Update `r` has been applied by time `B`, or will be. -/
def Due (T R E N B r : Nat) (s : St) : Prop :=
  (∃ t, (r, t) ∈ s.applied ∧ t ≤ B) ∨ ∃ q, s.pending[q]? = some r ∧ Soon T R E N B q s

theorem div_mono {a b c D : Nat} (h : a ≤ b) : (a / c) * D ≤ (b / c) * D := Nat.mul_le_mul_right _ (Nat.div_le_div_right h)

/-- One full channel is one cycle. -/
theorem div_full {q N D : Nat} (hN : 0 < N) (h : N ≤ q) : (q / N) * D = ((q - N) / N) * D + D := by
  conv => lhs; rw [← Nat.sub_add_cancel h, Nat.add_div_right _ hN, Nat.succ_mul]

theorem soon_step {T R E N : Nat} {B q : Nat} {s s' : St} {l : Lbl} (hN : 0 < N) (hR : R < T) (hi : Inv T R E N s)
    (hq : q < s.pending.length) (h : Soon T R E N B q s) (hl : l ≠ .take) (hs : s.step T R E N l = some s') : Soon T R E N B q s' := by
  obtain ⟨now, next, st, poll, chan, mode, ap⟩ := s
  obtain ⟨hc, hm, hp⟩ := hi
  simp only [St.pending, List.length_append] at hc hm hp hq
  cases l with
  | take => exact absurd rfl hl
  | arrive =>
    simp only [St.step, Option.some.injEq] at hs
    subst hs
    cases mode with
    | drain a => exact h
    | expire a => exact h
    | sleep till =>
      rcases h with ⟨h, hB⟩ | h
      · refine .inl ⟨?_, hB⟩
        cases poll with
        | pushing r rs => exact h
        | reading due =>
          rcases h with h | ⟨hn, h⟩
          · exact .inl h
          · by_cases he : st = []
            · subst he
              simp only [Poll.held, List.length_nil] at hq
              exact .inl (by simp only; omega)
            · refine .inr ⟨hn, ?_⟩
              simp only [he, if_false]
              exact h
      · exact .inr h
  | read =>
    cases poll with
    | pushing r rs => simp [St.step] at hs
    | reading due =>
      simp only [St.step] at hs
      split at hs
      · rename_i r rs h1 h2
        cases h1
        injection hs with hs; subst hs
        cases mode with
        | drain a => exact h
        | expire a => exact h
        | sleep till =>
          rcases h with ⟨h, hB⟩ | h
          · refine .inl ⟨?_, hB⟩
            rcases h with h | ⟨hn, h⟩
            · exact .inl h
            · refine .inr ⟨hn, .inl ?_⟩
              have := congrArg List.length h2
              simp only [Poll.held, List.length_take, List.length_cons, List.length_nil] at this hq ⊢
              omega
          · exact .inr h
      · cases hs
  | push =>
    cases poll with
    | reading due => simp [St.step] at hs
    | pushing r rs =>
      simp only [St.step] at hs
      split at hs
      · injection hs with hs; subst hs
        cases mode with
        | drain a =>
          simp only [Soon, List.length_append, List.length_cons, List.length_nil] at h ⊢
          split at h
          · rw [if_pos (by omega)]; exact h
          · split
            · omega
            · have := div_mono (c := N) (D := T + E) (show q - (chan.length + (0 + 1)) ≤ q - chan.length by omega)
              omega
        | expire a => exact h
        | sleep till =>
          rcases h with ⟨h, hB⟩ | h
          · refine .inl ⟨?_, hB⟩
            simp only [Safe, Poll.held, List.length_append, List.length_cons, List.length_nil] at h ⊢
            rcases h with h | ⟨hn, h | h⟩
            · exact .inl (by omega)
            · cases rs with
              | nil => exact .inl (by simp only [List.length_nil] at h; omega)
              | cons r' rs => exact .inr ⟨hn, .inl (by simp only [List.length_cons] at h ⊢; omega)⟩
            · cases rs with
              | nil => exact .inr ⟨hn, .inr h⟩
              | cons r' rs => exact .inr ⟨hn, .inr h⟩
          · exact .inr h
      · cases hs
  | wake =>
    cases mode with
    | drain a => simp [St.step] at hs
    | expire a => simp [St.step] at hs
    | sleep till =>
      simp only [St.step] at hs
      split at hs
      · rename_i hw
        injection hs with hs; subst hs
        simp only [Soon] at h ⊢
        rcases h with ⟨h, hB⟩ | h
        · have hj : min q (N - 1) < chan.length := by
            rcases h with h | ⟨hn, -⟩
            · exact h
            · simp only at hn; omega
          split
          · omega
          · have hfull : chan.length = N := by omega
            rw [hfull]
            rw [div_full hN (by omega)] at hB
            omega
        · split
          · omega
          · have := div_mono (c := N) (D := T + E) (Nat.sub_le q chan.length)
            omega
      · cases hs
  | empty =>
    simp only [St.step] at hs
    split at hs
    · injection hs with hs; subst hs
      simp only [Soon, List.length_nil, Nat.not_lt_zero, if_false, Nat.sub_zero] at h ⊢
      exact h
    · cases hs
  | slept =>
    cases mode with
    | sleep till => simp [St.step] at hs
    | drain a => simp [St.step] at hs
    | expire a =>
      simp only [St.step, Option.some.injEq] at hs
      subst hs
      simp only [Soon] at h ⊢
      refine .inl ⟨.inr ⟨by simp only; omega, .inr ?_⟩, by omega⟩
      cases poll <;> simp only at hp ⊢ <;> omega
  | tick =>
    simp only [St.step] at hs
    split at hs
    · rename_i hw
      rw [Bool.and_eq_true] at hw
      injection hs with hs; subst hs
      cases mode with
      | drain a => exact h
      | expire a => exact h
      | sleep till =>
        simp only [Mode.mayWait, decide_eq_true_eq] at hw
        rcases h with ⟨h, hB⟩ | h
        · refine .inl ⟨?_, hB⟩
          cases poll with
          | pushing r rs =>
            simp only [Poll.mayWait, decide_eq_true_eq] at hw
            exact .inl (by simp only; omega)
          | reading due =>
            simp only [Poll.mayWait, Bool.or_eq_true, decide_eq_true_eq] at hw
            simp only [Safe, Poll.held, List.length_nil, Nat.add_zero] at h hq ⊢
            by_cases hj : min q (N - 1) < chan.length
            · exact .inl hj
            · rcases hw.2 with he | hd
              · subst he; simp only [List.length_nil] at hq; omega
              · rcases h with h | ⟨hn, h | h⟩
                · exact absurd h hj
                · exact absurd h hj
                · exact .inr ⟨by omega, .inr h⟩
        · exact .inr h
    · cases hs

theorem due_step {T R E N : Nat} {B r : Nat} {s s' : St} {l : Lbl} (hN : 0 < N) (hR : R < T) (hi : Inv T R E N s)
    (h : Due T R E N B r s) (hs : s.step T R E N l = some s') : Due T R E N B r s' := by
  have hp := pending_step hs
  rcases h with ⟨t, ht, hB⟩ | ⟨q, hq, h⟩
  · refine .inl ⟨t, ?_, hB⟩
    cases l <;> simp only at hp
    case take => obtain ⟨r', -, -, e⟩ := hp; rw [e]; exact List.mem_append_left _ ht
    all_goals rw [hp.2.2]; exact ht
  have hlt := (List.getElem?_eq_some_iff.1 hq).1
  by_cases hl : l = .take
  · subst hl
    obtain ⟨x, e1, -, e3⟩ := hp
    obtain ⟨now, next, st, poll, chan, mode, ap⟩ := s
    obtain ⟨hc, hm, hpo⟩ := hi
    cases mode with
    | sleep till => simp [St.step] at hs
    | expire a => simp [St.step] at hs
    | drain a =>
      cases chan with
      | nil => simp [St.step] at hs
      | cons y c =>
        simp only [St.step, Option.some.injEq] at hs
        rw [e1] at hq
        simp only [Soon, List.length_cons] at h hm
        cases q with
        | zero =>
          simp only [List.getElem?_cons_zero, Option.some.injEq] at hq
          subst hq
          rw [if_pos (by omega)] at h
          exact .inl ⟨now, by rw [e3]; exact List.mem_append_right _ (List.mem_singleton.2 rfl), by omega⟩
        | succ q =>
          refine .inr ⟨q, by simpa using hq, ?_⟩
          subst hs
          simp only [Soon]
          split at h
          · rw [if_pos (by omega)]; exact h
          · rw [if_neg (by omega)]
            have : q + 1 - (c.length + 1) = q - c.length := by omega
            rw [this] at h
            exact h
  · refine .inr ⟨q, ?_, soon_step hN hR hi hlt h hl hs⟩
    cases l <;> simp only at hp
    case arrive => rw [hp.1, List.getElem?_append_left hlt]; exact hq
    case take => exact absurd rfl hl
    all_goals rw [hp.1]; exact hq

theorem due_run {T R E N : Nat} {B r : Nat} (hN : 0 < N) (hR : R < T) (ls : List Lbl) : ∀ {s s' : St}, Inv T R E N s → Due T R E N B r s →
    s.run T R E N ls = some s' → Due T R E N B r s' := by
  induction ls with
  | nil => intro s s' _ h hr; cases hr; exact h
  | cons l ls ih =>
    intro s s' hi h hr
    obtain ⟨s1, h1, h2⟩ := Option.bind_eq_some_iff.1 hr
    exact ih (inv_step hi h1) (due_step hN hR hi h h1) h2

/-- When it has just come into the stream. -/
theorem due_arrive {T R E N : Nat} {s s' : St} (hi : Inv T R E N s) (hs : s.step T R E N .arrive = some s') :
    Due T R E N (s.now + R + E + (s.pending.length / N + 1) * (T + E)) s.next s' := by
  have hp := pending_step hs
  refine .inr ⟨s.pending.length, by rw [hp.1]; simp, ?_⟩
  rw [Nat.succ_mul]
  generalize s.pending.length = k
  obtain ⟨now, next, st, poll, chan, mode, ap⟩ := s
  obtain ⟨hc, hm, hpo⟩ := hi
  simp only [St.step, Option.some.injEq] at hs
  subst hs
  simp only at hc hm hpo
  cases mode with
  | drain a =>
    simp only [Soon]
    split
    · omega
    · have := div_mono (c := N) (D := T + E) (Nat.sub_le k chan.length)
      omega
  | expire a => simp only [Soon]; omega
  | sleep till =>
    simp only [Soon]
    by_cases hu : now + R < till
    · refine .inl ⟨.inr ⟨by simp only; omega, .inr ?_⟩, by omega⟩
      cases poll with
      | pushing r rs => exact hu
      | reading due =>
        by_cases he : st = []
        · simp only [he, if_true]; exact hu
        · simp only [he, if_false] at hpo ⊢; omega
    · exact .inr (by omega)

theorem due_now {T R E N : Nat} {B r : Nat} {s : St} (hi : Inv T R E N s) (h : Due T R E N B r s) :
    (∃ t, (r, t) ∈ s.applied ∧ t ≤ B) ∨ s.now ≤ B := by
  rcases h with h | ⟨q, -, h⟩
  · exact .inl h
  · refine .inr ?_
    obtain ⟨now, next, st, poll, chan, mode, ap⟩ := s
    obtain ⟨hc, hm, hpo⟩ := hi
    cases mode with
    | sleep till => simp only [Soon] at h hm ⊢; omega
    | drain a => simp only [Soon] at h hm ⊢; split at h <;> omega
    | expire a => simp only [Soon] at h hm ⊢; omega

end OM.Lag
