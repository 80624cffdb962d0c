import Verif.Lemmas.Lag
/-!
# Property C132: what is in the stream is applied in bounded time
-/
namespace OM.Props
open OM.Lag

/-- How many updates this instance has still to apply. -/
def backlog (s : Lag.St) : Nat := s.chan.length + s.poll.held.length + s.stream.length

theorem backlog_eq (s : Lag.St) : s.pending.length = backlog s := by simp [Lag.St.pending, backlog, Nat.add_assoc]

/-- **C132.** An update that comes into the stream while an instance has still to apply `k` others is applied there within
the time of one read and one cycle, and `k / N + 1` more cycles with their sleeps: in every execution, once that much time
has passed the update has been applied, and not later. -/
theorem C132_applied_in_time (T R E N : Nat) (hN : 0 < N) (hR : R < T) (pre post : List Lag.Lbl) (s1 s2 s3 : Lag.St)
    (h1 : (Lag.St.init T R).run T R E N pre = some s1) (h2 : s1.step T R E N .arrive = some s2) (h3 : s2.run T R E N post = some s3) :
    (∃ t, (s1.next, t) ∈ s3.applied ∧ t ≤ s1.now + R + E + (backlog s1 / N + 1) * (T + E)) ∨
    s3.now ≤ s1.now + R + E + (backlog s1 / N + 1) * (T + E) := by
  have i1 := Lag.inv_run pre (Lag.inv_init T R E N) h1
  have i2 := Lag.inv_step i1 h2
  rw [← backlog_eq]
  exact Lag.due_now (Lag.inv_run post i2 h3) (Lag.due_run hN hR post i2 (Lag.due_arrive i1 h2) h3)

/-- The bound is reached, also behind a full channel.  Two updates for a channel of one (sleep: 4 ticks, reads: 1, cycles: 2);
the first comes so that it is read when the sleep has just ended and the channel has been found empty. -/
theorem C132_bound_reached : ∃ pre post s1 s2 s3, (Lag.St.init 4 1).run 4 1 2 1 pre = some s1 ∧ s1.step 4 1 2 1 .arrive = some s2 ∧
    s2.run 4 1 2 1 post = some s3 ∧ backlog s1 = 1 ∧
    s3.applied = [(0, s1.now + 1 + 2 + 1 * (4 + 2)), (s1.next, s1.now + 1 + 2 + (1 / 1 + 1) * (4 + 2))] :=
  ⟨[.tick, .tick, .tick, .arrive], [.tick, .wake, .empty, .read, .push, .tick, .read, .tick, .slept, .tick, .tick, .tick, .tick, .wake,
      .tick, .tick, .take, .empty, .slept, .push, .tick, .tick, .tick, .tick, .wake, .tick, .tick, .take],
    _, _, _, rfl, rfl, rfl, by decide, by decide⟩

/-- **C132 (each once, in order).** Every update that ever came into the stream is in it, on its way or applied, exactly once,
in order. -/
theorem C132_in_order (T R E N : Nat) (ls : List Lag.Lbl) (s : Lag.St) (h : (Lag.St.init T R).run T R E N ls = some s) :
    s.applied.map (·.1) ++ s.chan ++ s.poll.held ++ s.stream = List.range s.next := by
  have gen : ∀ (ls : List Lag.Lbl) (s s' : Lag.St), s.applied.map (·.1) ++ s.pending = List.range s.next →
      s.run T R E N ls = some s' → s'.applied.map (·.1) ++ s'.pending = List.range s'.next := by
    intro ls
    induction ls with
    | nil => intro s s' h hr; cases hr; exact h
    | cons l ls ih =>
      intro s s' h hr
      obtain ⟨s1, h1, h2⟩ := Option.bind_eq_some_iff.1 hr
      refine ih s1 s' ?_ h2
      have hp := Lag.pending_step h1
      cases l <;> simp only at hp
      case arrive => rw [hp.1, hp.2.1, hp.2.2, List.range_succ, ← h, List.append_assoc]
      case take =>
        obtain ⟨r, e1, e2, e3⟩ := hp
        rw [e2, e3, ← h, e1]
        simp
      all_goals rw [hp.1, hp.2.1, hp.2.2]; exact h
  have := gen ls _ _ rfl h
  simpa [Lag.St.pending] using this

/-- The steps of the two goroutines. -/
def isWork : Lag.Lbl → Bool
  | .arrive | .tick => false
  | _ => true

/-- **C132 (never stuck).** Time or a goroutine can always go on, and the goroutines take only so many steps while no time
passes and no update comes. -/
theorem C132_never_stuck (T R E N : Nat) (hN : 0 < N) (hT : 0 < T) (ls : List Lag.Lbl) (s : Lag.St)
    (_h : (Lag.St.init T R).run T R E N ls = some s) :
    (∃ l, l ≠ .arrive ∧ (s.step T R E N l).isSome) ∧
    ∀ own s', s.run T R E N own = some s' → (∀ l ∈ own, isWork l = true) → own.length ≤ 3 * backlog s + 3 := by
  refine ⟨?_, ?_⟩
  · obtain ⟨now, next, st, poll, chan, mode, ap⟩ := s
    cases mode with
    | expire a => exact ⟨.slept, by decide, rfl⟩
    | drain a =>
      cases chan with
      | nil => exact ⟨.empty, by decide, rfl⟩
      | cons r c => exact ⟨.take, by decide, rfl⟩
    | sleep till =>
      by_cases hu : till ≤ now
      · exact ⟨.wake, by decide, by simp only [Lag.St.step, if_pos hu]; rfl⟩
      · cases poll with
        | pushing r rs =>
          by_cases hc : chan.length < N
          · exact ⟨.push, by decide, by simp only [Lag.St.step, if_pos hc]; rfl⟩
          · refine ⟨.tick, by decide, ?_⟩
            have h1 : now < till := by omega
            have h2 : N ≤ chan.length := by omega
            simp [Lag.St.step, Lag.Mode.mayWait, Lag.Poll.mayWait, h1, h2]
        | reading due =>
          cases st with
          | nil =>
            refine ⟨.tick, by decide, ?_⟩
            have h1 : now < till := by omega
            simp [Lag.St.step, Lag.Mode.mayWait, Lag.Poll.mayWait, h1]
          | cons x st =>
            obtain ⟨n, rfl⟩ : ∃ n, N = n + 1 := ⟨N - 1, by omega⟩
            exact ⟨.read, by decide, rfl⟩
  · have gen : ∀ (own : List Lag.Lbl) (s s' : Lag.St), s.run T R E N own = some s' → (∀ l ∈ own, isWork l = true) →
        own.length ≤ s.chan.length + 2 * s.poll.held.length + 3 * s.stream.length +
          (match s.mode with | .sleep till => if till ≤ s.now then 3 else 0 | .drain _ => 2 | .expire _ => 1) := by
      intro own
      induction own with
      | nil => intro s s' _ _; exact Nat.zero_le _
      | cons l own ih =>
        intro s s' hr ho
        obtain ⟨s1, h1, h2⟩ := Option.bind_eq_some_iff.1 hr
        have := ih s1 s' h2 (fun x hx => ho x (List.mem_cons_of_mem _ hx))
        have hl := ho l (List.mem_cons_self ..)
        clear ih hr h2 ho
        obtain ⟨now, next, st, poll, chan, mode, ap⟩ := s
        cases l with
        | arrive => cases hl
        | tick => cases hl
        | read =>
          cases poll with
          | pushing r rs => simp [Lag.St.step] at h1
          | reading due =>
            simp only [Lag.St.step] at h1
            split at h1
            · rename_i d r rs hd ht
              injection h1 with h1; subst h1
              have ht' := congrArg List.length ht
              simp only [Lag.Poll.held, List.length_take, List.length_drop, List.length_cons, List.length_nil] at this ht' ⊢
              omega
            · cases h1
        | push =>
          cases poll with
          | reading due => simp [Lag.St.step] at h1
          | pushing r rs =>
            simp only [Lag.St.step] at h1
            split at h1
            · injection h1 with h1; subst h1
              cases rs <;> simp only [Lag.Poll.held, List.length_append, List.length_cons, List.length_nil] at this ⊢ <;> omega
            · cases h1
        | wake =>
          cases mode with
          | drain a => simp [Lag.St.step] at h1
          | expire a => simp [Lag.St.step] at h1
          | sleep till =>
            simp only [Lag.St.step] at h1
            split at h1
            · rename_i hu
              injection h1 with h1; subst h1
              simp only [if_pos hu, List.length_cons] at this ⊢
              omega
            · cases h1
        | take =>
          simp only [Lag.St.step] at h1
          split at h1
          · injection h1 with h1; subst h1
            simp only [List.length_cons] at this ⊢
            omega
          · cases h1
        | empty =>
          simp only [Lag.St.step] at h1
          split at h1
          · injection h1 with h1; subst h1
            simp only [List.length_cons] at this ⊢
            omega
          · cases h1
        | slept =>
          cases mode with
          | sleep till => simp [Lag.St.step] at h1
          | drain a => simp [Lag.St.step] at h1
          | expire a =>
            simp only [Lag.St.step, Option.some.injEq] at h1
            subst h1
            simp only [List.length_cons] at this ⊢
            rw [if_neg (by omega)] at this
            omega
    intro own s' hr ho
    have := gen own s s' hr ho
    unfold backlog
    split at this
    · split at this <;> omega
    · omega
    · omega

/-- Reads must be faster than the sleep: with reads of two ticks and sleeps of one, the bound does not hold. -/
theorem C132_slow_reads : ∃ pre post s1 s2 s3, (Lag.St.init 1 2).run 1 2 0 1 pre = some s1 ∧ s1.step 1 2 0 1 .arrive = some s2 ∧
    s2.run 1 2 0 1 post = some s3 ∧ backlog s1 = 1 ∧ s3.applied.map (·.1) = [0] ∧ s1.now + 2 + 0 + (1 / 1 + 1) * (1 + 0) < s3.now :=
  ⟨[.arrive], [.tick, .wake, .empty, .slept, .tick, .wake, .empty, .slept, .read, .push, .tick, .wake, .take, .empty, .slept,
      .tick, .wake, .empty, .slept, .read, .push, .tick], _, _, _, rfl, rfl, rfl, by decide, by decide, by decide⟩

/-- The default settings (config.go:99-100): 1.5 seconds, 10000 updates.  If a read takes at most 0.1 seconds and a cycle 0.2,
an instance that has applied everything else shows a new ticket within 2 seconds. -/
example (pre post : List Lag.Lbl) (s1 s2 s3 : Lag.St) (h1 : (Lag.St.init 1500 100).run 1500 100 200 10000 pre = some s1)
    (h0 : backlog s1 = 0) (h2 : s1.step 1500 100 200 10000 .arrive = some s2) (h3 : s2.run 1500 100 200 10000 post = some s3)
    (hl : s1.now + 2000 < s3.now) : ∃ t, (s1.next, t) ∈ s3.applied ∧ t ≤ s1.now + 2000 := by
  have := C132_applied_in_time 1500 100 200 10000 (by decide) (by decide) pre post s1 s2 s3 h1 h2 h3
  simp only [h0, Nat.zero_div] at this
  exact this.resolve_right (by omega)

end OM.Props
