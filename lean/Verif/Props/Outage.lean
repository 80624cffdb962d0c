import Verif.Model.Outage
import Verif.Props.Lag
/-!
# Property C148: after an outage an instance catches up in bounded time
-/
namespace OM.Props

/-! ## Lemmas -/

namespace Outage
open OM.Outage OM.Lag

/-- Whatever is pending in a state is due. -/
theorem due_pending {T R E N : Nat} {s : Lag.St} (hi : Inv T R E N s) {q r : Nat} (hq : s.pending[q]? = some r) :
    Due T R E N (s.now + R + E + (q / N + 1) * (T + E)) r s := by
  refine .inr ⟨q, hq, ?_⟩
  rw [Nat.succ_mul]
  obtain ⟨now, next, st, poll, chan, mode, ap⟩ := s
  obtain ⟨hc, hm, hpo⟩ := hi
  simp only at hc hm hpo
  cases mode with
  | drain a =>
    simp only [Soon]
    split
    · omega
    · have := div_mono (c := N) (D := T + E) (Nat.sub_le q chan.length)
      omega
  | expire a => simp only [Soon]; omega
  | sleep till =>
    simp only [Soon]
    by_cases hu : now + R < till
    · refine .inl ⟨.inr ⟨by simp only; omega, .inr ?_⟩, by omega⟩
      cases poll with
      | pushing r rs => exact hu
      | reading due => simp only at hpo ⊢; omega
    · exact .inr (by omega)

theorem down_other {T R E N : Nat} {s : Lag.St} {l : Lag.Lbl} (h1 : l ≠ .read) (h2 : l ≠ .tick) : downStep T R E N s l = s.step T R E N l := by
  cases l <;> first | rfl | exact absurd rfl h1 | exact absurd rfl h2

theorem inv_down {T R E N : Nat} {s s' : Lag.St} {l : Lag.Lbl} (h : Inv T R E N s) (hs : downStep T R E N s l = some s') : Inv T R E N s' := by
  by_cases h1 : l = .read
  · subst h1; cases hs
  by_cases h2 : l = .tick
  · subst h2
    rw [downStep] at hs
    split at hs
    · rename_i hw
      injection hs with hs; subst hs
      obtain ⟨now, next, st, poll, chan, mode, ap⟩ := s
      obtain ⟨hc, hm, hp⟩ := h
      rw [mayWait, Bool.and_eq_true] at hw
      refine ⟨hc, ?_, ?_⟩
      · cases mode <;> simp only [Mode.mayWait, decide_eq_true_eq] at hw hm ⊢ <;> omega
      · cases poll <;> simp only at hp ⊢; omega
    · cases hs
  · rw [down_other h1 h2] at hs
    exact inv_step h hs

theorem inv_restart {T R E N : Nat} {s : Lag.St} (h : Inv T R E N s) : Inv T R E N (restart R s) := by
  obtain ⟨now, next, st, poll, chan, mode, ap⟩ := s
  obtain ⟨hc, hm, hp⟩ := h
  cases poll with
  | reading due => exact ⟨hc, hm, Nat.le_refl _⟩
  | pushing r rs => exact ⟨hc, hm, trivial⟩

theorem restart_same (R : Nat) (s : Lag.St) : (restart R s).pending = s.pending ∧ (restart R s).next = s.next ∧
    (restart R s).applied = s.applied ∧ (restart R s).now = s.now ∧ backlog (restart R s) = backlog s := by
  obtain ⟨now, next, st, poll, chan, mode, ap⟩ := s
  cases poll <;> exact ⟨rfl, rfl, rfl, rfl, rfl⟩

theorem inv_all {T R E N : Nat} (ls : List OM.Outage.Lbl) : ∀ {s s' : OM.Outage.St}, Inv T R E N s.lag → s.run T R E N ls = some s' → Inv T R E N s'.lag := by
  induction ls with
  | nil => intro s s' h hr; cases hr; exact h
  | cons l ls ih =>
    intro s s' h hr
    obtain ⟨s1, h1, h2⟩ := Option.bind_eq_some_iff.1 hr
    refine ih ?_ h2
    cases l with
    | break_ => cases h1; exact h
    | repair =>
      simp only [OM.Outage.St.step] at h1
      split at h1
      · cases h1
      · cases h1; exact inv_restart h
    | fail =>
      simp only [OM.Outage.St.step] at h1
      split at h1
      · cases h1; exact h
      · cases h1
    | go l =>
      simp only [OM.Outage.St.step, Option.map_eq_some_iff] at h1
      obtain ⟨t, ht, rfl⟩ := h1
      split at ht
      · exact inv_step h ht
      · exact inv_down h ht

theorem pending_up {T R E N : Nat} {s s' : Lag.St} {l : Lag.Lbl} (hs : s.step T R E N l = some s') :
    s'.applied.map (·.1) ++ s'.pending = s.applied.map (·.1) ++ s.pending ++ (if l = .arrive then [s.next] else []) ∧
    s'.next = s.next + (if l = .arrive then 1 else 0) := by
  have hp := pending_step hs
  cases l <;> simp only at hp
  case take => obtain ⟨r, h1, h2, h3⟩ := hp; rw [h1, h2, h3]; simp
  all_goals obtain ⟨h1, h2, h3⟩ := hp; rw [h1, h2, h3]; simp

theorem pending_down {T R E N : Nat} {s s' : Lag.St} {l : Lag.Lbl} (hs : downStep T R E N s l = some s') :
    s'.applied.map (·.1) ++ s'.pending = s.applied.map (·.1) ++ s.pending ++ (if l = .arrive then [s.next] else []) ∧
    s'.next = s.next + (if l = .arrive then 1 else 0) := by
  by_cases h1 : l = .read
  · subst h1; cases hs
  by_cases h2 : l = .tick
  · subst h2
    rw [downStep] at hs
    split at hs
    · cases hs; simp [Lag.St.pending]
    · cases hs
  · rw [down_other h1 h2] at hs
    exact pending_up hs

/-- What has been applied stays so, and was not applied later than now. -/
theorem applied_step {T R E N : Nat} {s s' : Lag.St} {l : Lag.Lbl} (hs : s.step T R E N l = some s') :
    s.now ≤ s'.now ∧ ∃ x, s'.applied = s.applied ++ x ∧ ∀ y ∈ x, y.2 = s.now := by
  have hn : s.now ≤ s'.now := by
    obtain ⟨now, next, st, poll, chan, mode, ap⟩ := s
    cases l <;> simp only [Lag.St.step] at hs <;> repeat' split at hs
    all_goals first
      | (cases hs; exact Nat.le_refl _)
      | (cases hs; exact Nat.le_succ _)
      | cases hs
  have hp := pending_step hs
  refine ⟨hn, ?_⟩
  cases l <;> simp only at hp
  case take => obtain ⟨r, -, -, h3⟩ := hp; exact ⟨_, h3, by simp⟩
  all_goals exact ⟨[], by rw [hp.2.2, List.append_nil], by simp⟩

theorem applied_down {T R E N : Nat} {s s' : Lag.St} {l : Lag.Lbl} (hs : downStep T R E N s l = some s') :
    s.now ≤ s'.now ∧ ∃ x, s'.applied = s.applied ++ x ∧ ∀ y ∈ x, y.2 = s.now := by
  by_cases h1 : l = .read
  · subst h1; cases hs
  by_cases h2 : l = .tick
  · subst h2
    rw [downStep] at hs
    split at hs
    · cases hs; exact ⟨Nat.le_succ _, [], by simp, by simp⟩
    · cases hs
  · rw [down_other h1 h2] at hs
    exact applied_step hs

theorem applied_run {T R E N : Nat} (ls : List Lag.Lbl) : ∀ {s s' : Lag.St}, s.run T R E N ls = some s' → s.applied <+: s'.applied := by
  induction ls with
  | nil => intro s s' hr; cases hr; exact List.prefix_refl _
  | cons l ls ih =>
    intro s s' hr
    obtain ⟨s1, h1, h2⟩ := Option.bind_eq_some_iff.1 hr
    obtain ⟨-, x, hx, -⟩ := applied_step h1
    exact List.IsPrefix.trans ⟨x, hx.symm⟩ (ih h2)

theorem applied_all {T R E N : Nat} (ls : List OM.Outage.Lbl) : ∀ {s s' : OM.Outage.St}, (∀ y ∈ s.lag.applied, y.2 ≤ s.lag.now) →
    s.run T R E N ls = some s' → ∀ y ∈ s'.lag.applied, y.2 ≤ s'.lag.now := by
  induction ls with
  | nil => intro s s' h hr; cases hr; exact h
  | cons l ls ih =>
    intro s s' h hr
    obtain ⟨s1, h1, h2⟩ := Option.bind_eq_some_iff.1 hr
    refine ih ?_ h2
    cases l with
    | break_ => cases h1; exact h
    | repair =>
      simp only [OM.Outage.St.step] at h1
      split at h1
      · cases h1
      · cases h1
        obtain ⟨-, -, e3, e4, -⟩ := restart_same R s.lag
        simp only [e3, e4]; exact h
    | fail =>
      simp only [OM.Outage.St.step] at h1
      split at h1
      · cases h1; exact h
      · cases h1
    | go l =>
      simp only [OM.Outage.St.step, Option.map_eq_some_iff] at h1
      obtain ⟨t, ht, rfl⟩ := h1
      have key : (s.lag.now ≤ t.now ∧ ∃ x, t.applied = s.lag.applied ++ x ∧ ∀ y ∈ x, y.2 = s.lag.now) → ∀ y ∈ t.applied, y.2 ≤ t.now := by
        rintro ⟨k1, x, k2, k3⟩ y hy
        rw [k2] at hy
        rcases List.mem_append.1 hy with hy | hy
        · exact Nat.le_trans (h y hy) k1
        · exact k3 y hy ▸ k1
      split at ht
      · exact key (applied_step ht)
      · exact key (applied_down ht)

theorem down_stream {T R E N : Nat} {s s' : Lag.St} {l : Lag.Lbl} (hs : downStep T R E N s l = some s') : s.stream <+: s'.stream := by
  cases l with
  | arrive => cases hs; exact List.prefix_append _ _
  | read => cases hs
  | _ =>
    simp only [downStep, Lag.St.step] at hs
    repeat' split at hs
    all_goals first
      | (cases hs; exact List.prefix_refl _)
      | cases hs

/-- Without outages it is `Lag`. -/
theorem up_run {T R E N : Nat} (ls : List Lag.Lbl) : ∀ {s : Lag.St} {s' : OM.Outage.St},
    (⟨true, s⟩ : OM.Outage.St).run T R E N (ls.map .go) = some s' → s.run T R E N ls = some s'.lag := by
  induction ls with
  | nil => intro s s' h; cases h; rfl
  | cons l ls ih =>
    intro s s' h
    simp only [List.map_cons, OM.Outage.St.run, OM.Outage.St.step, if_true] at h
    obtain ⟨s1, h1, h2⟩ := Option.bind_eq_some_iff.1 h
    obtain ⟨t, ht, rfl⟩ := Option.map_eq_some_iff.1 h1
    rw [Lag.St.run, ht, Option.bind_some]
    exact ih h2

end Outage

/-! ## Properties -/

open OM.Lag (Inv Due)

/-- **C148 (nothing lost or repeated).** At every moment, in an outage or not, every update that ever came into the stream is in it, on
its way or applied, exactly once and in order. -/
theorem C148_in_order (T R E N : Nat) (ls : List Outage.Lbl) (s : Outage.St) (h : (Outage.St.init T R).run T R E N ls = some s) :
    s.lag.applied.map (·.1) ++ s.lag.chan ++ s.lag.poll.held ++ s.lag.stream = List.range s.lag.next := by
  have gen : ∀ (ls : List Outage.Lbl) (s s' : Outage.St), s.lag.applied.map (·.1) ++ s.lag.pending = List.range s.lag.next →
      s.run T R E N ls = some s' → s'.lag.applied.map (·.1) ++ s'.lag.pending = List.range s'.lag.next := by
    intro ls
    induction ls with
    | nil => intro s s' h hr; cases hr; exact h
    | cons l ls ih =>
      intro s s' h hr
      obtain ⟨s1, h1, h2⟩ := Option.bind_eq_some_iff.1 hr
      refine ih s1 s' ?_ h2
      cases l with
      | break_ => cases h1; exact h
      | repair =>
        simp only [Outage.St.step] at h1
        split at h1
        · cases h1
        · cases h1
          obtain ⟨e1, e2, e3, -⟩ := Outage.restart_same R s.lag
          simp only [e1, e2, e3, h]
      | fail =>
        simp only [Outage.St.step] at h1
        split at h1
        · cases h1; exact h
        · cases h1
      | go l =>
        simp only [Outage.St.step, Option.map_eq_some_iff] at h1
        obtain ⟨t, ht, rfl⟩ := h1
        have key : (t.applied.map (·.1) ++ t.pending = s.lag.applied.map (·.1) ++ s.lag.pending ++ (if l = .arrive then [s.lag.next] else []) ∧
            t.next = s.lag.next + (if l = .arrive then 1 else 0)) → t.applied.map (·.1) ++ t.pending = List.range t.next := by
          rintro ⟨k1, k2⟩
          rw [k1, k2, h]
          split
          · rw [List.range_succ]
          · simp
        split at ht
        · exact key (Outage.pending_up ht)
        · exact key (Outage.pending_down ht)
  have := gen ls _ _ rfl h
  simpa [Lag.St.pending] using this

/-- **C148.** After any number of outages of any length: of the updates that an instance has still to apply when Redis can be
read again (`s1`), number `q` is applied within the time of one read and one cycle, and `q / N + 1` more cycles with their
sleeps. -/
theorem C148_catches_up (T R E N : Nat) (hN : 0 < N) (hR : R < T) (pre : List Outage.Lbl) (post : List Lag.Lbl) (s1 s2 s3 : Outage.St)
    (h1 : (Outage.St.init T R).run T R E N pre = some s1) (h2 : s1.step T R E N .repair = some s2)
    (h3 : s2.run T R E N (post.map .go) = some s3) (q r : Nat) (hq : s1.lag.pending[q]? = some r) :
    (∃ t, (r, t) ∈ s3.lag.applied ∧ t ≤ s1.lag.now + R + E + (q / N + 1) * (T + E)) ∨
    s3.lag.now ≤ s1.lag.now + R + E + (q / N + 1) * (T + E) := by
  have i1 := Outage.inv_all pre (Lag.inv_init T R E N) h1
  simp only [Outage.St.step] at h2
  split at h2
  · cases h2
  cases h2
  have i2 := Outage.inv_restart i1
  obtain ⟨e1, -, -, e4, -⟩ := Outage.restart_same R s1.lag
  have d := Outage.due_pending i2 (by rw [e1]; exact hq)
  rw [e4] at d
  have hr := Outage.up_run post h3
  exact Lag.due_now (Lag.inv_run post i2 hr) (Lag.due_run hN hR post i2 d hr)

/-- **C148 (in full).** So an instance that is `k` updates behind when Redis can be read again has caught up with all of them after the
time of C132 for `k` updates. -/
theorem C148_all_caught_up (T R E N : Nat) (hN : 0 < N) (hR : R < T) (pre : List Outage.Lbl) (post : List Lag.Lbl) (s1 s2 s3 : Outage.St)
    (h1 : (Outage.St.init T R).run T R E N pre = some s1) (h2 : s1.step T R E N .repair = some s2)
    (h3 : s2.run T R E N (post.map .go) = some s3)
    (hlate : s1.lag.now + R + E + (backlog s1.lag / N + 1) * (T + E) < s3.lag.now) :
    ∀ r < s1.lag.next, ∃ t, (r, t) ∈ s3.lag.applied ∧ t ≤ s1.lag.now + R + E + (backlog s1.lag / N + 1) * (T + E) := by
  intro r hr
  have ho := C148_in_order T R E N pre s1 h1
  have hmem : r ∈ s1.lag.applied.map (·.1) ++ s1.lag.pending := by
    have : s1.lag.applied.map (·.1) ++ s1.lag.pending = List.range s1.lag.next := by rw [← ho]; simp [Lag.St.pending]
    rw [this]; exact List.mem_range.2 hr
  rcases List.mem_append.1 hmem with hm | hm
  · obtain ⟨⟨r', t⟩, ht, rfl⟩ := List.mem_map.1 hm
    refine ⟨t, ?_, ?_⟩
    · simp only [Outage.St.step] at h2
      split at h2
      · cases h2
      cases h2
      have := Outage.applied_run post (Outage.up_run post h3)
      rw [(Outage.restart_same R s1.lag).2.2.1] at this
      exact this.subset ht
    · have := Outage.applied_all pre (by simp [Outage.St.init, Lag.St.init]) h1 _ ht
      simp only at this
      omega
  · obtain ⟨q, hq⟩ := List.getElem?_of_mem hm
    have hlt := (List.getElem?_eq_some_iff.1 hq).1
    rw [backlog_eq] at hlt
    have hmono := Nat.mul_le_mul_right (T + E) (Nat.add_le_add_right (Nat.div_le_div_right (c := N) (Nat.le_of_lt hlt)) 1)
    rcases C148_catches_up T R E N hN hR pre post s1 s2 s3 h1 h2 h3 q r hq with ⟨t, ht, hle⟩ | h
    · exact ⟨t, ht, by omega⟩
    · omega

/-- **C148 (afterwards).** Updates that come after that are applied in the time of C132. -/
theorem C148_then_as_before (T R E N : Nat) (hN : 0 < N) (hR : R < T) (pre : List Outage.Lbl) (post : List Lag.Lbl) (s1 s2 s3 : Outage.St)
    (h1 : (Outage.St.init T R).run T R E N pre = some s1) (hup : s1.up = true) (h2 : s1.step T R E N (.go .arrive) = some s2)
    (h3 : s2.run T R E N (post.map .go) = some s3) :
    (∃ t, (s1.lag.next, t) ∈ s3.lag.applied ∧ t ≤ s1.lag.now + R + E + (backlog s1.lag / N + 1) * (T + E)) ∨
    s3.lag.now ≤ s1.lag.now + R + E + (backlog s1.lag / N + 1) * (T + E) := by
  have i1 := Outage.inv_all pre (Lag.inv_init T R E N) h1
  obtain ⟨up, lag⟩ := s1
  simp only at hup
  subst hup
  simp only [Outage.St.step, if_true] at h2
  obtain ⟨t, ht, rfl⟩ := Option.map_eq_some_iff.1 h2
  have hr := Outage.up_run post h3
  have i2 := Lag.inv_step i1 ht
  rw [← backlog_eq]
  exact Lag.due_now (Lag.inv_run post i2 hr) (Lag.due_run hN hR post i2 (Lag.due_arrive i1 ht) hr)

/-- **C148 (during an outage).** Nothing is read meanwhile: what comes into the stream is in no cache of this instance before Redis
can be read again. -/
theorem C148_blind (T R E N : Nat) (ls : List Outage.Lbl) (s s' : Outage.St) (hd : s.up = false) (hn : Outage.Lbl.repair ∉ ls)
    (h : s.run T R E N ls = some s') : s'.up = false ∧ s.lag.stream <+: s'.lag.stream := by
  induction ls generalizing s with
  | nil => cases h; exact ⟨hd, List.prefix_refl _⟩
  | cons l ls ih =>
    obtain ⟨s1, h1, h2⟩ := Option.bind_eq_some_iff.1 h
    simp only [List.mem_cons, not_or] at hn
    have key : s1.up = false ∧ s.lag.stream <+: s1.lag.stream := by
      cases l with
      | break_ => cases h1; exact ⟨rfl, List.prefix_refl _⟩
      | repair => exact absurd rfl hn.1
      | fail =>
        simp only [Outage.St.step] at h1
        split at h1
        · cases h1; exact ⟨hd, List.prefix_refl _⟩
        · cases h1
      | go l =>
        simp only [Outage.St.step, hd, Bool.false_eq_true, if_false, Option.map_eq_some_iff] at h1
        obtain ⟨t, ht, rfl⟩ := h1
        exact ⟨rfl, Outage.down_stream ht⟩
    obtain ⟨k1, k2⟩ := ih s1 key.1 hn.2 h2
    exact ⟨k1, key.2.trans k2⟩

/-- Two updates come while Redis cannot be read; the bound is reached by both (sleep: 4 ticks, reads: 1, cycles: 2, channel of
one). -/
theorem C148_bound_reached : ∃ (pre : List Outage.Lbl) (post : List Lag.Lbl) (s1 s2 s3 : Outage.St), (Outage.St.init 4 1).run 4 1 2 1 pre = some s1 ∧ s1.step 4 1 2 1 .repair = some s2 ∧
    s2.run 4 1 2 1 (post.map .go) = some s3 ∧ s1.lag.pending = [0, 1] ∧
    s3.lag.applied = [(0, s1.lag.now + 1 + 2 + (0 / 1 + 1) * (4 + 2)), (1, s1.lag.now + 1 + 2 + (1 / 1 + 1) * (4 + 2))] :=
  ⟨[.go .tick, .break_, .go .arrive, .fail, .go .tick, .go .arrive, .fail, .go .tick],
    [.tick, .wake, .empty, .read, .push, .tick, .read, .tick, .slept, .tick, .tick, .tick, .tick, .wake,
      .tick, .tick, .take, .empty, .slept, .push, .tick, .tick, .tick, .tick, .wake, .tick, .tick, .take],
    _, _, _, rfl, rfl, rfl, by decide, by decide⟩

end OM.Props
