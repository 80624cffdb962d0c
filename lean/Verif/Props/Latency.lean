import Verif.Lemmas.Latency
import Verif.Props.Outgoing
/-!
# Property C131: updates are sent, and answered, in bounded time
-/
namespace OM.Props
open OM.Latency OM.Spec

/-- **C131.** An update that a handler has while `k` others are waiting before it, is answered within the wait timeout
and the time of `k / threshold + 2` batches: in every execution, once that much time has passed the update has been
answered, and not later. -/
theorem C131_answered_in_time (T D : Nat) (thr : Int) (hT : 0 < T) (pre post : List Lbl) (s1 s2 s3 : St)
    (h1 : (St.init T).run T D thr pre = some s1) (h2 : s1.step T D thr .arrive = some s2) (h3 : s2.run T D thr post = some s3) :
    (∃ t, (s1.next, t) ∈ s3.answered ∧ t ≤ s1.now + T + (s1.waiting.length / (max thr 1).toNat + 2) * D) ∨
    s3.now ≤ s1.now + T + (s1.waiting.length / (max thr 1).toNat + 2) * D := by
  have i1 := inv_run pre (inv_init T D thr) h1
  have i2 := inv_step i1 h2
  exact due_now (inv_run post i2 h3) (due_run hT post i2 (due_arrive i1 h2) h3)

/-- The bound is reached: an update comes when a batch of another one has just been sent off; it waits for that
(3 ticks), for the timer (2 ticks) and for its own batch (3 ticks). -/
theorem C131_bound_reached : ∃ pre post s1 s2 s3, (St.init 2).run 2 3 50 pre = some s1 ∧ s1.step 2 3 50 .arrive = some s2 ∧
    s2.run 2 3 50 post = some s3 ∧ s1.waiting = [] ∧ s3.answered = [(0, s1.now + 3), (s1.next, s1.now + 2 + 2 * 3)] :=
  ⟨[.arrive, .take, .tick, .tick, .fire], [.tick, .tick, .tick, .done, .take, .tick, .tick, .fire, .tick, .tick, .tick, .done],
    _, _, _, rfl, rfl, rfl, by decide, by decide⟩

/-- **C131 (each once, in order).** Every update that handlers ever had is waiting, in the batch or answered, exactly once,
in the order in which they came. -/
theorem C131_in_order (T D : Nat) (thr : Int) (ls : List Lbl) (s : St) (h : (St.init T).run T D thr ls = some s) :
    s.answered.map (·.1) ++ s.held ++ s.waiting = List.range s.next := by
  have gen : ∀ (ls : List Lbl) (s s' : St), s.answered.map (·.1) ++ s.held ++ s.waiting = List.range s.next →
      s.run T D thr ls = some s' → s'.answered.map (·.1) ++ s'.held ++ s'.waiting = List.range s'.next := by
    intro ls
    induction ls with
    | nil => intro s s' h hr; cases hr; exact h
    | cons l ls ih =>
      intro s s' h hr
      obtain ⟨s1, h1, h2⟩ := Option.bind_eq_some_iff.1 hr
      refine ih s1 s' ?_ h2
      clear ih hr h2
      obtain ⟨now, next, w, held, mode, ans⟩ := s
      cases l <;> simp only [St.step] at h1 <;> (repeat' split at h1) <;> (first | (cases h1; done) | (injection h1 with h1; subst h1))
      · simp only [← List.append_assoc, List.range_succ]; rw [← h]
      · simp_all
      · simp_all
      · simp_all
      · simp_all
      · simpa [Function.comp_def] using h
      · exact h
      · exact h
  exact gen ls _ _ rfl h

/-- The steps of the queue itself. -/
def isOwn : Lbl → Bool
  | .take | .fire | .done => true
  | _ => false

/-- **C131 (never stuck).** Time or the queue can always go on, and the queue takes only so many steps while no time passes
and no update comes. -/
theorem C131_never_stuck (T D : Nat) (thr : Int) (hT : 0 < T) (ls : List Lbl) (s : St) (h : (St.init T).run T D thr ls = some s) :
    (∃ l, l ≠ .arrive ∧ (s.step T D thr l).isSome) ∧
    ∀ own s', s.run T D thr own = some s' → (∀ l ∈ own, isOwn l = true) →
      own.length ≤ 3 * s.waiting.length + 2 * s.held.length + 2 := by
  have hi := inv_run ls (inv_init T D thr) h
  refine ⟨?_, ?_⟩
  · obtain ⟨now, next, w, held, mode, ans⟩ := s
    cases mode with
    | sending a => exact ⟨.done, by decide, rfl⟩
    | collect dl =>
      cases w with
      | cons r w => exact ⟨.take, by decide, by simp only [St.step]; split <;> rfl⟩
      | nil =>
        by_cases hd : dl ≤ now
        · exact ⟨.fire, by decide, by simp only [St.step, if_pos hd]; split <;> rfl⟩
        · exact ⟨.tick, by decide, by simp only [St.step]; rw [if_pos ⟨trivial, by omega⟩]; rfl⟩
  · have gen : ∀ (own : List Lbl) (s s' : St), Latency.Inv T D thr s → s.run T D thr own = some s' → (∀ l ∈ own, isOwn l = true) →
        own.length ≤ 3 * s.waiting.length + 2 * s.held.length +
          (match s.mode with | .sending _ => 0 | .collect dl => if dl ≤ s.now then 2 else 1) := by
      intro own
      induction own with
      | nil => intro s s' _ _ _; exact Nat.zero_le _
      | cons l own ih =>
        intro s s' hi hr ho
        obtain ⟨s1, h1, h2⟩ := Option.bind_eq_some_iff.1 hr
        have := ih s1 s' (inv_step hi h1) h2 (fun x hx => ho x (List.mem_cons_of_mem _ hx))
        have hl := ho l (List.mem_cons_self ..)
        clear ih hr h2 ho
        obtain ⟨now, next, w, held, mode, ans⟩ := s
        cases l with
        | arrive => cases hl
        | tick => cases hl
        | take =>
          cases mode with
          | sending a => simp [St.step] at h1
          | collect dl =>
            cases w with
            | nil => simp [St.step] at h1
            | cons r w =>
              simp only [St.step] at h1
              split at h1 <;> (injection h1 with h1; subst h1) <;>
                simp only [List.length_append, List.length_nil, List.length_cons, Nat.add_zero] at this ⊢
              · split <;> omega
              · by_cases hd : dl ≤ now <;> simp only [hd, if_true, if_false] at this ⊢ <;> omega
        | fire =>
          cases mode with
          | sending a => simp [St.step] at h1
          | collect dl =>
            simp only [St.step] at h1
            split at h1
            · rename_i hd
              split at h1 <;> (injection h1 with h1; subst h1) <;> simp only [if_pos hd, List.length_cons] at this ⊢
              · rw [if_neg (by omega)] at this; omega
              · omega
            · cases h1
        | done =>
          cases mode with
          | collect dl => simp [St.step] at h1
          | sending a =>
            simp only [Latency.Inv] at hi
            simp only [St.step, Option.some.injEq] at h1
            subst h1
            have hp := List.length_pos_iff.2 hi.2.2.1
            simp only [List.length_cons, List.length_nil] at this ⊢
            rw [if_neg (by omega)] at this
            omega
    intro own s' hr ho
    have := gen own s s' hi hr ho
    split at this
    · omega
    · split at this <;> omega

/-! ## The same queue as in C19 and C20 -/

/-- What the queue of `Model/Outgoing.lean` sees of an execution, where update number `i` is `req i`. -/
def seenBy (T D : Nat) (thr : Int) (req : Nat → Req) : Latency.St → List Lbl → List OutEv
  | _, [] => []
  | s, l :: ls =>
    (match l, s.waiting with
      | .take, r :: _ => [.recv (req r)]
      | .fire, _ => [.timeout]
      | _, _ => []) ++
    match s.step T D thr l with
    | some s' => seenBy T D thr req s' ls
    | none => []

/-- What the untimed queue has of a state of the timed one: a batch is sent at once. -/
def Same {S : Type} (req : Nat → Req) (s : Latency.St) (st : OutSt S) : Prop :=
  match s.mode with
  | .collect _ => st.pending = s.held.map req ∧ st.delivered.map (·.1) = s.answered.map fun a => (req a.1).caller
  | .sending _ => st.pending = [] ∧ st.delivered.map (·.1) = (s.answered.map fun a => (req a.1).caller) ++ s.held.map fun r => (req r).caller

private theorem flush_same {S : Type} {send : S → List StateUpdate → S × List StateResponse} (h1 : OnePerUpdate send)
    (st : OutSt S) (hp : st.pending ≠ []) :
    ∃ st', st.flush send = some st' ∧ st'.pending = [] ∧ st'.delivered.map (·.1) = st.delivered.map (·.1) ++ st.pending.map (·.caller) := by
  have hl : (send st.store (st.pending.map (·.update))).2.length = st.pending.length := by rw [h1]; simp
  unfold OutSt.flush
  rw [if_pos (List.length_pos_iff.2 hp)]
  simp only [deliver_eq_zip hl, Option.map_some]
  refine ⟨_, rfl, rfl, ?_⟩
  rw [List.map_append]
  congr 1
  exact List.map_fst_zip (by simp [hl])

/-- **C131 (the same queue).** Every timed execution is one of the queue for which C19 and C20 are proved: what it holds and
the results it hands out, and to whom, are the same. -/
theorem C131_same_queue {S : Type} (send : S → List StateUpdate → S × List StateResponse) (h1 : OnePerUpdate send) (s0 : S)
    (T D : Nat) (thr : Int) (req : Nat → Req) (ls : List Lbl) (s : Latency.St) (h : (St.init T).run T D thr ls = some s) :
    ∃ st, outRun thr send (OutSt.init s0) (seenBy T D thr req (St.init T) ls) = some st ∧ Same req s st := by
  have gen : ∀ (ls : List Lbl) (s s' : Latency.St) (st : OutSt S), Latency.Inv T D thr s → Same req s st → s.run T D thr ls = some s' →
      ∃ st', outRun thr send st (seenBy T D thr req s ls) = some st' ∧ Same req s' st' := by
    intro ls
    induction ls with
    | nil => intro s s' st _ hs hr; cases hr; exact ⟨st, rfl, hs⟩
    | cons l ls ih =>
      intro s s' st hi hs hr
      obtain ⟨s1, hs1, hr1⟩ := Option.bind_eq_some_iff.1 hr
      have hi1 := inv_step hi hs1
      suffices hstep : ∃ st1, outRun thr send st (match l, s.waiting with
          | .take, r :: _ => [.recv (req r)] | .fire, _ => [.timeout] | _, _ => []) = some st1 ∧ Same req s1 st1 by
        obtain ⟨st1, ho, hsame⟩ := hstep
        obtain ⟨st2, ho2, hsame2⟩ := ih s1 s' st1 hi1 hsame hr1
        refine ⟨st2, ?_, hsame2⟩
        simp only [seenBy, hs1]
        rw [outRun_append, ho]
        exact ho2
      clear ih hr hr1
      obtain ⟨now, next, w, held, mode, ans⟩ := s
      cases l with
      | arrive => cases hs1; exact ⟨st, rfl, hs⟩
      | tick =>
        refine ⟨st, rfl, ?_⟩
        cases mode <;> simp only [St.step] at hs1 <;> split at hs1 <;> (first | (cases hs1; done) | (injection hs1 with hs1; subst hs1)) <;> exact hs
      | take =>
        cases mode with
        | sending a => simp [St.step] at hs1
        | collect dl =>
          cases w with
          | nil => simp [St.step] at hs1
          | cons r w =>
            simp only [Same] at hs
            simp only [St.step] at hs1
            have hlen : (st.pending ++ [req r]).length = held.length + 1 := by simp [hs.1]
            simp only [outRun, outStep]
            by_cases hf : ((held.length + 1 : Nat) : Int) ≥ thr
            · rw [if_pos hf] at hs1
              injection hs1 with hs1; subst hs1
              rw [if_pos (by rw [hlen]; exact hf)]
              obtain ⟨st', e1, e2, e3⟩ := flush_same h1 { st with pending := st.pending ++ [req r] } (by simp)
              refine ⟨st', by rw [e1]; rfl, ?_⟩
              simp only [Same]
              refine ⟨e2, ?_⟩
              rw [e3]
              simp [hs.1, hs.2, Function.comp_def]
            · rw [if_neg hf] at hs1
              injection hs1 with hs1; subst hs1
              rw [if_neg (by rw [hlen]; exact hf)]
              refine ⟨_, rfl, ?_⟩
              simp only [Same]
              exact ⟨by simp [hs.1], hs.2⟩
      | fire =>
        cases mode with
        | sending a => simp [St.step] at hs1
        | collect dl =>
          simp only [Same] at hs
          simp only [St.step] at hs1
          simp only [outRun, outStep]
          split at hs1
          · split at hs1
            · rename_i he
              subst he
              injection hs1 with hs1; subst hs1
              refine ⟨st, by simp [OutSt.flush, hs.1], ?_⟩
              simpa [Same] using hs
            · rename_i hne
              injection hs1 with hs1; subst hs1
              obtain ⟨st', e1, e2, e3⟩ := flush_same h1 st (by rw [hs.1]; simpa using hne)
              refine ⟨st', by rw [e1]; rfl, ?_⟩
              simp only [Same]
              refine ⟨e2, ?_⟩
              rw [e3]
              simp [hs.1, hs.2, Function.comp_def]
          · cases hs1
      | done =>
        cases mode with
        | collect dl => simp [St.step] at hs1
        | sending a =>
          simp only [St.step, Option.some.injEq] at hs1
          subst hs1
          refine ⟨st, rfl, ?_⟩
          simp only [Same] at hs ⊢
          exact ⟨by simp [hs.1], by simp [hs.2, Function.comp_def]⟩
  exact gen ls _ _ _ (inv_init T D thr) ⟨rfl, rfl⟩ h

/-- With the defaults (500 ms and 50), and if Redis takes at most 20 ms for a batch, an update that finds 120 others
waiting is answered within 580 ms. -/
example (pre post : List Lbl) (s1 s2 s3 : Latency.St) (h1 : (St.init 500).run 500 20 50 pre = some s1)
    (h2 : s1.step 500 20 50 .arrive = some s2) (h3 : s2.run 500 20 50 post = some s3) (hw : s1.waiting.length = 120)
    (ht : s1.now + 580 < s3.now) : ∃ t, (s1.next, t) ∈ s3.answered ∧ t ≤ s1.now + 580 := by
  rcases C131_answered_in_time 500 20 50 (by decide) pre post s1 s2 s3 h1 h2 h3 with h | h
  · rw [hw] at h; exact h
  · rw [hw] at h
    have : (120 / (max (50 : Int) 1).toNat + 2) * 20 = 80 := by decide
    omega

end OM.Props
