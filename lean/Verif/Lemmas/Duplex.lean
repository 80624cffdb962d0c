import Verif.Spec.Duplex
import Mathlib.Tactic.ByContra
/-! # Invariants of the stream between om-core and a function -/
namespace OM.Duplex
open OM.Spec

/-! ## Unfolding -/

theorem reader_asking (enough : List ChunkedMmfRunRequest → Bool) (result : List ChunkedMmfRunRequest → List Match)
    (acc : List ChunkedMmfRunRequest) : (reader enough result).next (RSt.asking acc) =
      Act.recv (σ := (reader enough result).σ) (afterRecv enough result acc) := rfl
theorem reader_send (enough : List ChunkedMmfRunRequest → Bool) (result : List ChunkedMmfRunRequest → List Match) (m : Match)
    (ms : List Match) : (reader enough result).next (RSt.answering (m :: ms)) =
      Act.send (σ := (reader enough result).σ) m (RSt.answering ms) := rfl
theorem reader_ret (enough : List ChunkedMmfRunRequest → Bool) (result : List ChunkedMmfRunRequest → List Match) :
    (reader enough result).next (RSt.answering []) = Act.ret (σ := (reader enough result).σ) := rfl
theorem script_ret (ops : List Op) : (script ops).next ([] : List Op) = Act.ret (σ := (script ops).σ) := rfl
theorem script_recv (ops r : List Op) : (script ops).next (Op.recv :: r : List Op) = Act.recv (σ := (script ops).σ) fun _ => r := rfl
theorem script_send (ops r : List Op) (m : Match) :
    (script ops).next (Op.send m :: r : List Op) = Act.send (σ := (script ops).σ) m r := rfl

variable {F : Fn} {closes : Bool} {R : Rooms}

theorem run_append {s : St F} {l1 l2 : List Label} :
    run closes R s (l1 ++ l2) = (run closes R s l1).bind fun s' => run closes R s' l2 := by
  induction l1 generalizing s with
  | nil => rfl
  | cons l l1 ih =>
    simp only [List.cons_append, run, Option.bind_assoc]
    congr 1; funext s'; exact ih

theorem run_snoc {s s' s'' : St F} {ls : List Label} {l : Label} (h : run closes R s ls = some s')
    (h' : step closes R s' l = some s'') : run closes R s (ls ++ [l]) = some s'' := by
  rw [run_append, h]; simp [run, h']

/-- An invariant with a measure. -/
theorem run_inv {P : St F → Prop} {μ : St F → Nat} (hstep : ∀ s l s', P s → step closes R s l = some s' → P s' ∧ μ s' < μ s)
    {s s' : St F} {ls : List Label} (h : run closes R s ls = some s') (hP : P s) : P s' ∧ ls.length + μ s' ≤ μ s := by
  induction ls generalizing s with
  | nil => cases h; exact ⟨hP, by simp⟩
  | cons l ls ih =>
    simp only [run] at h
    cases hs : step closes R s l with
    | none => rw [hs] at h; cases h
    | some s1 =>
      rw [hs] at h
      obtain ⟨h1, h2⟩ := hstep s l s1 hP hs
      obtain ⟨h3, h4⟩ := ih h h1
      exact ⟨h3, by simp only [List.length_cons]; omega⟩

/-- An invariant. -/
theorem run_inv' {P : St F → Prop} (hstep : ∀ s l s', P s → step closes R s l = some s' → P s')
    {s s' : St F} {ls : List Label} (h : run closes R s ls = some s') (hP : P s) : P s' := by
  induction ls generalizing s with
  | nil => cases h; exact hP
  | cons l ls ih =>
    simp only [run] at h
    cases hs : step closes R s l with
    | none => rw [hs] at h; cases h
    | some s1 => rw [hs] at h; exact ih h (hstep s l s1 hP hs)

/-- If the invocation works, it comes to an end. -/
theorem works_ends {chunks : List ChunkedMmfRunRequest} {ms : List Match} (h : Works closes R F chunks ms) :
    ∃ ls s, run closes R (init F chunks) ls = some s ∧ s.done = true := by
  obtain ⟨⟨n, hn⟩, h⟩ := h
  have : ∀ k ls s, run closes R (init F chunks) ls = some s → n - ls.length = k →
      ∃ ls s, run closes R (init F chunks) ls = some s ∧ s.done = true := by
    intro k
    induction k with
    | zero =>
      intro ls s hr hk
      cases hd : s.done with
      | true => exact ⟨ls, s, hr, hd⟩
      | false =>
        obtain ⟨l, s', hs⟩ := (h ls s hr).1 hd
        have h1 := hn _ _ (run_snoc hr hs)
        simp only [List.length_append, List.length_cons, List.length_nil] at h1
        omega
    | succ k ih =>
      intro ls s hr hk
      cases hd : s.done with
      | true => exact ⟨ls, s, hr, hd⟩
      | false =>
        obtain ⟨l, s', hs⟩ := (h ls s hr).1 hd
        refine ih _ _ (run_snoc hr hs) ?_
        simp only [List.length_append, List.length_cons, List.length_nil]
        omega
  exact this n [] _ rfl rfl

/-! ## Functions that read first -/

/-- Om-core's part of a reader's invariant. -/
def RInv (enough : List ChunkedMmfRunRequest → Bool) (result : List ChunkedMmfRunRequest → List Match)
    (chunks : List ChunkedMmfRunRequest) (s : St (reader enough result)) : Prop :=
  (∃ acc, s.fn = RSt.asking acc ∧ (acc = [] ∨ enough acc = false) ∧ chunks = acc ++ (s.up ++ s.toSend) ∧ s.returned = false ∧
    s.down = [] ∧ s.got = [] ∧ s.done = false ∧ (s.closed = true → s.toSend = [])) ∨
  ∃ ms, s.fn = RSt.answering ms ∧ s.up = [] ∧ s.toSend = [] ∧ s.got ++ (s.down ++ ms) = result chunks ∧
    (s.returned = true → ms = []) ∧ (s.done = true → s.returned = true ∧ s.down = [])

def rphi (L : Nat) : RSt → Nat
  | .asking _ => 2 * L + 2
  | .answering ms => 2 * ms.length + 1

def rmu (enough : List ChunkedMmfRunRequest → Bool) (result : List ChunkedMmfRunRequest → List Match) (L : Nat)
    (s : St (reader enough result)) : Nat :=
  2 * s.toSend.length + s.up.length + (if s.closed then 0 else 1) + (if s.returned then 0 else rphi L s.fn) + s.down.length +
    (if s.done then 0 else 1)

variable {enough : List ChunkedMmfRunRequest → Bool} {result : List ChunkedMmfRunRequest → List Match}
  {chunks : List ChunkedMmfRunRequest}

theorem rstep (hE : ∀ acc r, chunks = acc ++ r → acc ≠ [] → enough acc = true → r = [])
    (s : St (reader enough result)) (l : Label) (s' : St (reader enough result)) (hP : RInv enough result chunks s)
    (h : step closes R s l = some s') :
    RInv enough result chunks s' ∧ rmu enough result (result chunks).length s' < rmu enough result (result chunks).length s := by
  obtain ⟨toSend, closed, up, fn, returned, down, got, done⟩ := s
  rcases hP with ⟨acc, h1, h2, h3, h4, h5, h6, h7, h8⟩ | ⟨ms, h1, h2, h3, h4, h5, h6⟩
  · simp only at h1 h2 h3 h4 h5 h6 h7 h8
    subst h1 h4 h5 h6 h7
    cases l with
    | send =>
      cases toSend with
      | nil => simp [step] at h
      | cons c cs =>
        simp only [step, Bool.false_eq_true, if_false] at h
        split at h
        · cases h
          refine ⟨.inl ⟨acc, rfl, h2, by rw [h3]; simp, rfl, rfl, rfl, rfl, fun hc => absurd (h8 hc) (by simp)⟩, ?_⟩
          simp only [rmu, List.length_cons, List.length_append, List.length_nil]; omega
        · cases h
    | close =>
      simp only [step] at h
      split at h
      · next hc =>
        cases h
        simp only [Bool.and_eq_true, List.isEmpty_iff, Bool.not_eq_true'] at hc
        obtain ⟨⟨-, rfl⟩, rfl⟩ := hc
        refine ⟨.inl ⟨acc, rfl, h2, h3, rfl, rfl, rfl, rfl, fun _ => rfl⟩, ?_⟩
        simp [rmu]
      · cases h
    | recv =>
      simp only [step, Bool.false_eq_true, if_false] at h
      split at h <;> cases h
    | fn =>
      simp only [step, Bool.false_eq_true, if_false, reader_asking] at h
      cases up with
      | nil =>
        simp only at h
        split at h
        · next hc =>
          cases h
          have ht := h8 hc
          subst ht
          simp only [List.append_nil] at h3
          subst h3
          have hgo : afterRecv enough result chunks none = .answering (result chunks) := rfl
          rw [hgo]
          refine ⟨.inr ⟨_, rfl, rfl, rfl, by simp, by simp, by simp⟩, ?_⟩
          simp only [rmu, rphi, Bool.false_eq_true, if_false]; omega
        · cases h
      | cons c cs =>
        simp only [Option.some.injEq] at h
        subst h
        cases he : enough (acc ++ [c]) with
        | true =>
          have hgo : afterRecv enough result acc (some c) = .answering (result (acc ++ [c])) := by simp only [afterRecv, he, if_true]
          rw [hgo]
          have hr := hE (acc ++ [c]) (cs ++ toSend) (by rw [h3]; simp) (by simp) he
          obtain ⟨rfl, rfl⟩ := List.append_eq_nil_iff.1 hr
          have hch : chunks = acc ++ [c] := by rw [h3]; simp
          refine ⟨.inr ⟨result chunks, by rw [hch], rfl, rfl, by simp, by simp, by simp⟩, ?_⟩
          simp only [rmu, rphi, hch, Bool.false_eq_true, if_false, List.length_cons]; omega
        | false =>
          have hgo : afterRecv enough result acc (some c) = .asking (acc ++ [c]) := by
            simp only [afterRecv, he, Bool.false_eq_true, if_false]
          rw [hgo]
          refine ⟨.inl ⟨acc ++ [c], rfl, .inr he, by rw [h3]; simp, rfl, rfl, rfl, rfl, h8⟩, ?_⟩
          simp only [rmu, rphi, Bool.false_eq_true, if_false, List.length_cons]; omega
  · simp only at h1 h2 h3 h4 h5 h6
    subst h1 h2 h3
    cases l with
    | send => simp [step] at h
    | close =>
      simp only [step] at h
      split at h
      · next hc =>
        cases h
        simp only [Bool.and_eq_true, Bool.not_eq_true'] at hc
        obtain ⟨-, rfl⟩ := hc
        refine ⟨.inr ⟨ms, rfl, rfl, rfl, h4, h5, h6⟩, ?_⟩
        simp only [rmu, Bool.false_eq_true, if_false, if_true]; omega
      · cases h
    | recv =>
      simp only [step] at h
      split at h
      · next hr =>
        cases down with
        | cons m rest =>
          simp only [Option.some.injEq] at h
          subst h
          refine ⟨.inr ⟨ms, rfl, rfl, rfl, by rw [← h4]; simp, h5, ?_⟩, ?_⟩
          · intro hd; exact absurd (h6 hd).2 (by simp)
          · simp only [rmu, List.length_cons]; omega
        | nil =>
          simp only at h
          split at h
          · next hret =>
            cases h
            have hd : done = false := by
              simp only [reading, Bool.and_eq_true, Bool.not_eq_true'] at hr
              exact hr.2
            subst hd
            refine ⟨.inr ⟨ms, rfl, rfl, rfl, h4, h5, fun _ => ⟨hret, rfl⟩⟩, ?_⟩
            simp only [rmu, Bool.false_eq_true, if_false, if_true]; omega
          · cases h
      · cases h
    | fn =>
      cases returned with
      | true => simp [step] at h
      | false =>
        have hd : done = false := by cases done with | false => rfl | true => exact absurd (h6 rfl).1 (by simp)
        subst hd
        cases ms with
        | nil =>
          simp only [step, Bool.false_eq_true, if_false, reader_ret, Option.some.injEq] at h
          subst h
          refine ⟨.inr ⟨[], rfl, rfl, rfl, h4, fun _ => rfl, by simp⟩, ?_⟩
          simp [rmu, rphi]
        | cons m ms =>
          simp only [step, Bool.false_eq_true, if_false, reader_send] at h
          split at h
          · cases h
            refine ⟨.inr ⟨ms, rfl, rfl, rfl, by rw [← h4]; simp, by simp, by simp⟩, ?_⟩
            simp only [rmu, rphi, Bool.false_eq_true, if_false, List.length_append, List.length_cons, List.length_nil]; omega
          · cases h

theorem rprogress (hEnd : closes = true ∨ chunks ≠ [] ∧ enough chunks = true) (s : St (reader enough result))
    (hP : RInv enough result chunks s) (hd : s.done = false) : ∃ l s', step closes R s l = some s' := by
  obtain ⟨toSend, closed, up, fn, returned, down, got, done⟩ := s
  rcases hP with ⟨acc, h1, h2, h3, h4, h5, h6, h7, h8⟩ | ⟨ms, h1, h2, h3, h4, h5, h6⟩
  · simp only at h1 h2 h3 h4 h5 h6 h7 h8
    subst h1 h4 h5 h6 h7
    cases up with
    | cons c cs => exact ⟨.fn, _, by simp only [step, Bool.false_eq_true, if_false, reader_asking] <;> rfl⟩
    | nil =>
      cases toSend with
      | cons c cs =>
        have hw : waiting (F := reader enough result) ⟨c :: cs, closed, [], RSt.asking acc, false, [], [], false⟩ = true := rfl
        exact ⟨.send, _, by simp only [step, Bool.false_eq_true, if_false, hw, List.isEmpty_nil, Bool.and_self, Bool.or_true, if_true] <;> rfl⟩
      | nil =>
        simp only [List.append_nil] at h3
        subst h3
        cases hc : closed with
        | true => exact ⟨.fn, _, by simp only [step, Bool.false_eq_true, if_false, reader_asking, if_true] <;> rfl⟩
        | false =>
          rcases hEnd with rfl | ⟨hne, he⟩
          · exact ⟨.close, _, by simp only [step, List.isEmpty_nil, Bool.and_self, Bool.not_false, if_true] <;> rfl⟩
          · rcases h2 with h2 | h2
            · exact absurd h2 hne
            · rw [he] at h2; cases h2
  · simp only at h1 h2 h3 h4 h5 h6 hd
    subst h1 h2 h3 hd
    by_cases hc : closes = true ∧ closed = false
    · obtain ⟨rfl, rfl⟩ := hc
      exact ⟨.close, _, by simp only [step, List.isEmpty_nil, Bool.and_self, Bool.not_false, if_true] <;> rfl⟩
    · have hrd : ∀ fn r d g, reading (F := reader enough result) closes ⟨[], closed, [], fn, r, d, g, false⟩ = true := by
        intro fn r d g
        simp only [reading, List.isEmpty_nil, Bool.true_and, Bool.not_false, Bool.and_true]
        cases closes <;> cases closed <;> simp_all
      cases down with
      | cons m rest => exact ⟨.recv, _, by simp only [step]; exact if_pos (hrd _ _ _ _)⟩
      | nil =>
        cases returned with
        | true => exact ⟨.recv, _, by simp only [step, if_true]; exact if_pos (hrd _ _ _ _)⟩
        | false =>
          cases ms with
          | nil => exact ⟨.fn, _, by simp only [step, Bool.false_eq_true, if_false, reader_ret] <;> rfl⟩
          | cons m ms =>
            exact ⟨.fn, _, by
              simp only [step, Bool.false_eq_true, if_false, reader_send]
              have := hrd (RSt.answering (m :: ms)) false [] got
              simp only [List.isEmpty_nil, this, Bool.and_self, Bool.or_true, if_true] <;> rfl⟩

theorem reader_works (hE : ∀ acc r, chunks = acc ++ r → acc ≠ [] → enough acc = true → r = [])
    (hEnd : closes = true ∨ chunks ≠ [] ∧ enough chunks = true) :
    Works closes R (reader enough result) chunks (result chunks) := by
  have h0 : RInv enough result chunks (init (reader enough result) chunks) :=
    .inl ⟨[], rfl, .inl rfl, rfl, rfl, rfl, rfl, rfl, by simp [init]⟩
  refine ⟨⟨rmu enough result (result chunks).length (init (reader enough result) chunks), ?_⟩, ?_⟩
  · intro ls s h
    have := (run_inv (rstep hE) h h0).2
    omega
  · intro ls s h
    have hP := (run_inv (rstep hE) h h0).1
    refine ⟨rprogress hEnd s hP, ?_⟩
    rcases hP with ⟨acc, h1, h2, h3, h4, h5, h6, h7, h8⟩ | ⟨ms, h1, h2, h3, h4, h5, h6⟩
    · rw [h6, h7]; exact ⟨List.nil_prefix, by simp⟩
    · refine ⟨⟨_, h4⟩, ?_⟩
      intro hd
      obtain ⟨a, b⟩ := h6 hd
      rw [h5 a, b] at h4
      simpa using h4

/-- Without `CloseSend`, a function that reads to the end reads for ever. -/
theorem toTheEnd_asks {ls : List Label} {s : St (reader toTheEnd result)}
    (h : run false R (init (reader toTheEnd result) chunks) ls = some s) :
    ∃ acc, s.fn = RSt.asking acc ∧ s.returned = false ∧ s.down = [] ∧ s.got = [] ∧ s.done = false ∧ s.closed = false := by
  refine run_inv' (P := fun s => ∃ acc, s.fn = RSt.asking acc ∧ s.returned = false ∧ s.down = [] ∧ s.got = [] ∧ s.done = false ∧
    s.closed = false) ?_ h ⟨[], rfl, rfl, rfl, rfl, rfl, rfl⟩
  intro s l s' hP h
  obtain ⟨toSend, closed, up, fn, returned, down, got, done⟩ := s
  obtain ⟨acc, h1, h2, h3, h4, h5, h6⟩ := hP
  simp only at h1 h2 h3 h4 h5 h6
  subst h1 h2 h3 h4 h5 h6
  cases l with
  | send =>
    cases toSend with
    | nil => simp [step] at h
    | cons c cs =>
      simp only [step, Bool.false_eq_true, if_false] at h
      split at h
      · cases h; exact ⟨acc, rfl, rfl, rfl, rfl, rfl, rfl⟩
      · cases h
  | close => simp [step] at h
  | recv =>
    simp only [step, Bool.false_eq_true, if_false] at h
    split at h <;> cases h
  | fn =>
    simp only [step, Bool.false_eq_true, if_false, reader_asking] at h
    cases up with
    | nil => simp at h
    | cons c cs =>
      simp only [Option.some.injEq] at h
      subst h
      exact ⟨acc ++ [c], rfl, rfl, rfl, rfl, rfl, rfl⟩

/-! ## Scripts -/

theorem recvsOf_append (a b : List Op) : recvsOf (a ++ b) = recvsOf a + recvsOf b := by simp [recvsOf]
theorem sendsOf_append (a b : List Op) : sendsOf (a ++ b) = sendsOf a ++ sendsOf b := by simp [sendsOf]

theorem recv_mem {ops : List Op} (h : 0 < recvsOf ops) : Op.recv ∈ ops := by
  obtain ⟨a, ha⟩ := List.exists_mem_of_length_pos h
  rw [List.mem_filter] at ha
  have := of_decide_eq_true ha.2
  exact this ▸ ha.1

/-- The invariant of a script. -/
def SInv (ops : List Op) (n : Nat) (s : St (script ops)) : Prop :=
  ∃ pre post : List Op, s.fn = post ∧ ops = pre ++ post ∧ recvsOf pre + s.up.length + s.toSend.length = n ∧
    s.got ++ s.down = sendsOf pre ∧ (s.toSend ≠ [] → s.got = []) ∧ (s.returned = true → post = []) ∧
    (s.done = true → s.returned = true ∧ s.down = []) ∧ s.closed = false

def smu (ops : List Op) (s : St (script ops)) : Nat :=
  2 * s.toSend.length + s.up.length + 2 * (show List Op from s.fn).length + s.down.length + (if s.returned then 0 else 1) +
    (if s.done then 0 else 1)

theorem sstep {ops : List Op} {n : Nat} (hn : recvsOf ops = n) (s : St (script ops)) (l : Label) (s' : St (script ops))
    (hP : SInv ops n s) (h : step false R s l = some s') : SInv ops n s' ∧ smu ops s' < smu ops s := by
  obtain ⟨toSend, closed, up, fn, returned, down, got, done⟩ := s
  obtain ⟨pre, post, h1, h2, h3, h4, h5, h6, h7, h8⟩ := hP
  simp only at h1 h3 h4 h5 h6 h7 h8
  replace h1 := h1.symm
  subst h1 h8
  cases l with
  | send =>
    cases toSend with
    | nil => simp [step] at h
    | cons c cs =>
      simp only [step] at h
      split at h
      · next hr =>
        have hp := h6 hr
        rw [hp, List.append_nil] at h2
        rw [h2] at hn
        simp only [List.length_cons] at h3
        omega
      · split at h
        · cases h
          refine ⟨⟨pre, post, rfl, h2, ?_, h4, fun _ => h5 (by simp), h6, h7, rfl⟩, ?_⟩
          · simp only [List.length_append, List.length_cons, List.length_nil] at h3 ⊢; omega
          · simp only [smu, List.length_append, List.length_cons, List.length_nil]; omega
        · cases h
  | close => simp [step] at h
  | recv =>
    simp only [step] at h
    split at h
    · next hr =>
      simp only [reading, Bool.and_eq_true, List.isEmpty_iff, Bool.not_eq_true'] at hr
      obtain ⟨⟨rfl, -⟩, rfl⟩ := hr
      cases down with
      | cons m rest =>
        simp only [Option.some.injEq] at h
        subst h
        refine ⟨⟨pre, post, rfl, h2, h3, by rw [← h4]; simp, by simp, h6, by simp, rfl⟩, ?_⟩
        simp only [smu, List.length_cons]; omega
      | nil =>
        simp only at h
        split at h
        · next hret =>
          cases h
          refine ⟨⟨pre, post, rfl, h2, h3, h4, by simp, h6, fun _ => ⟨hret, rfl⟩, rfl⟩, ?_⟩
          simp only [smu, Bool.false_eq_true, if_false, if_true]; omega
        · cases h
    · cases h
  | fn =>
    cases returned with
    | true => simp [step] at h
    | false =>
      have hd : done = false := by cases done with | false => rfl | true => exact absurd (h7 rfl).1 (by simp)
      subst hd
      cases post with
      | nil =>
        simp only [step, Bool.false_eq_true, if_false, script_ret, Option.some.injEq] at h
        subst h
        refine ⟨⟨pre, [], rfl, h2, h3, h4, h5, fun _ => rfl, by simp, rfl⟩, ?_⟩
        simp only [smu, Bool.false_eq_true, if_false, if_true]; omega
      | cons o post =>
        cases o with
        | recv =>
          simp only [step, Bool.false_eq_true, if_false, script_recv] at h
          cases up with
          | nil => simp at h
          | cons c cs =>
            simp only [Option.some.injEq] at h
            subst h
            refine ⟨⟨pre ++ [.recv], post, rfl, by rw [h2]; simp, ?_, ?_, h5, by simp, by simp, rfl⟩, ?_⟩
            · rw [recvsOf_append]; simp only [List.length_cons] at h3; simp [recvsOf] at h3 ⊢; omega
            · rw [sendsOf_append]; simpa [sendsOf] using h4
            · simp only [smu, List.length_cons]; omega
        | send m =>
          simp only [step, Bool.false_eq_true, if_false, script_send] at h
          split at h
          · cases h
            refine ⟨⟨pre ++ [.send m], post, rfl, by rw [h2]; simp, ?_, ?_, h5, by simp, by simp, rfl⟩, ?_⟩
            · rw [recvsOf_append]; simpa [recvsOf] using h3
            · rw [sendsOf_append, ← List.append_assoc, h4]; simp [sendsOf]
            · simp only [smu, List.length_append, List.length_cons, List.length_nil]; omega
          · cases h

theorem sprogress {ops : List Op} {n : Nat} (hn : recvsOf ops = n)
    (hroom : ∀ pre m post, ops = pre ++ .send m :: post → Op.recv ∈ post → R.down (sendsOf pre) m = true)
    (s : St (script ops)) (hP : SInv ops n s) (hd : s.done = false) : ∃ l s', step false R s l = some s' := by
  obtain ⟨toSend, closed, up, fn, returned, down, got, done⟩ := s
  obtain ⟨pre, post, h1, h2, h3, h4, h5, h6, h7, h8⟩ := hP
  simp only at h1 h3 h4 h5 h6 h7 h8 hd
  replace h1 := h1.symm
  subst h1 h8 hd
  have hrn : recvsOf pre + recvsOf post = n := by rw [← recvsOf_append, ← h2]; exact hn
  cases post with
  | nil =>
    have hz : up = [] ∧ toSend = [] := by
      rw [show recvsOf ([] : List Op) = 0 from rfl] at hrn
      constructor <;> apply List.length_eq_zero_iff.1 <;> omega
    obtain ⟨rfl, rfl⟩ := hz
    cases returned with
    | false => exact ⟨.fn, _, by simp only [step, Bool.false_eq_true, if_false, script_ret] <;> rfl⟩
    | true =>
      cases down with
      | nil => exact ⟨.recv, _, by simp only [step, reading, List.isEmpty_nil, Bool.not_false, Bool.true_or, Bool.and_self, if_true] <;> rfl⟩
      | cons m rest =>
        exact ⟨.recv, _, by simp only [step, reading, List.isEmpty_nil, Bool.not_false, Bool.true_or, Bool.and_self, if_true] <;> rfl⟩
  | cons o post =>
    have hret : returned = false := by cases returned with | false => rfl | true => exact absurd (h6 rfl) (by simp)
    subst hret
    cases o with
    | recv =>
      cases up with
      | cons c cs => exact ⟨.fn, _, by simp only [step, Bool.false_eq_true, if_false, script_recv] <;> rfl⟩
      | nil =>
        cases toSend with
        | nil =>
          have : recvsOf (Op.recv :: post) = recvsOf post + 1 := by simp [recvsOf]
          simp only [List.length_nil] at h3
          omega
        | cons c cs =>
          have hw : waiting (F := script ops) ⟨c :: cs, false, [], Op.recv :: post, false, down, got, false⟩ = true := rfl
          exact ⟨.send, _, by simp only [step, Bool.false_eq_true, if_false, hw, List.isEmpty_nil, Bool.and_self, Bool.or_true, if_true] <;> rfl⟩
    | send m =>
      cases toSend with
      | nil =>
        cases down with
        | cons m' rest =>
          exact ⟨.recv, _, by simp only [step, reading, List.isEmpty_nil, Bool.not_false, Bool.true_or, Bool.and_self, if_true] <;> rfl⟩
        | nil =>
          exact ⟨.fn, _, by
            simp only [step, Bool.false_eq_true, if_false, script_send, reading, List.isEmpty_nil, Bool.not_false, Bool.true_or,
              Bool.and_self, Bool.or_true, if_true] <;> rfl⟩
      | cons c cs =>
        have hg := h5 (by simp)
        subst hg
        rw [List.nil_append] at h4
        have hr : Op.recv ∈ post := by
          apply recv_mem
          have : recvsOf (Op.send m :: post) = recvsOf post := by simp [recvsOf]
          simp only [List.length_cons] at h3
          omega
        have := hroom pre m post h2 hr
        rw [← h4] at this
        exact ⟨.fn, _, by simp only [step, Bool.false_eq_true, if_false, script_send, this, Bool.true_or, if_true] <;> rfl⟩

theorem script_bound {ops : List Op} (hn : recvsOf ops = chunks.length) :
    ∃ k, ∀ ls s, run false R (init (script ops) chunks) ls = some s → ls.length ≤ k := by
  refine ⟨smu ops (init (script ops) chunks), ?_⟩
  intro ls s h
  have := (run_inv (sstep hn) h
    ⟨[], ops, rfl, rfl, by simp [recvsOf, init], rfl, by simp [init], by simp [init], by simp [init], rfl⟩).2
  omega

theorem script_works {ops : List Op} (hn : recvsOf ops = chunks.length)
    (hroom : ∀ pre m post, ops = pre ++ .send m :: post → Op.recv ∈ post → R.down (sendsOf pre) m = true) :
    Works false R (script ops) chunks (sendsOf ops) := by
  have h0 : SInv ops chunks.length (init (script ops) chunks) :=
    ⟨[], ops, rfl, rfl, by simp [recvsOf, init], rfl, by simp [init], by simp [init], by simp [init], rfl⟩
  refine ⟨script_bound hn, ?_⟩
  · intro ls s h
    have hP := (run_inv (sstep hn) h h0).1
    refine ⟨sprogress hn hroom s hP, ?_⟩
    obtain ⟨pre, post, h1, h2, h3, h4, h5, h6, h7, h8⟩ := hP
    refine ⟨⟨s.down ++ sendsOf post, ?_⟩, ?_⟩
    · rw [← List.append_assoc, h4, h2, sendsOf_append]
    · intro hd
      obtain ⟨a, b⟩ := h7 hd
      rw [h6 a, List.append_nil] at h2
      rw [b, List.append_nil] at h4
      rw [h4, h2]

/-- Matches sent before the request has been read, too many of them: both sides hang. -/
theorem script_stuck {n : Nat} (hB : Bounded n R) (m : Match) {chunks : List ChunkedMmfRunRequest} (hlen : chunks.length = n + 3)
    {ops : List Op} (hops : ops = .recv :: (List.replicate (n + 1) (.send m) ++ List.replicate (n + 2) .recv))
    {ls : List Label} {s : St (script ops)}
    (h : run false R (init (script ops) chunks) ls = some s) :
    s.got = [] ∧ s.returned = false ∧ s.done = false ∧ s.toSend ≠ [] := by
  have key : (s.fn = (.recv :: (List.replicate (n + 1) (.send m) ++ List.replicate (n + 2) .recv) : List Op) ∧ s.down = [] ∧
        s.up.length + s.toSend.length = n + 3 ∨
      ∃ j, s.fn = (List.replicate (j + 1) (.send m) ++ List.replicate (n + 2) .recv : List Op) ∧ s.down.length + j = n ∧
        s.up.length + s.toSend.length = n + 2) ∧
      s.up.length ≤ n + 1 ∧ s.got = [] ∧ s.returned = false ∧ s.done = false ∧ s.closed = false := by
    refine run_inv' (P := fun s => (s.fn = (.recv :: (List.replicate (n + 1) (.send m) ++ List.replicate (n + 2) .recv) : List Op) ∧
        s.down = [] ∧ s.up.length + s.toSend.length = n + 3 ∨
      ∃ j, s.fn = (List.replicate (j + 1) (.send m) ++ List.replicate (n + 2) .recv : List Op) ∧ s.down.length + j = n ∧
        s.up.length + s.toSend.length = n + 2) ∧
      s.up.length ≤ n + 1 ∧ s.got = [] ∧ s.returned = false ∧ s.done = false ∧ s.closed = false) ?_ h
      ⟨.inl ⟨show ops = _ from hops, rfl, by simp [init, hlen]⟩, by simp [init], rfl, rfl, rfl, rfl⟩
    clear hops h
    intro s l s' hP h
    obtain ⟨toSend, closed, up, fn, returned, down, got, done⟩ := s
    obtain ⟨hA, h1, h2, h3, h4, h5⟩ := hP
    simp only at hA h1 h2 h3 h4 h5
    subst h2 h3 h4 h5
    have hts : toSend ≠ [] := by
      rintro rfl
      rcases hA with ⟨-, -, hA⟩ | ⟨j, -, -, hA⟩ <;> simp only [List.length_nil] at hA <;> omega
    have hrd : ∀ fn d, reading (F := script ops) false
        ⟨toSend, false, up, fn, false, d, [], false⟩ = false := by
      intro fn d
      simp only [reading]
      cases toSend with
      | nil => exact absurd rfl hts
      | cons _ _ => rfl
    cases l with
    | send =>
      cases toSend with
      | nil => exact absurd rfl hts
      | cons c cs =>
        simp only [step, Bool.false_eq_true, if_false] at h
        split at h
        · next hroom =>
          cases h
          have hup : up.length ≤ n := by
            by_contra hgt
            rw [hB.1 up c (by omega), Bool.false_or, Bool.and_eq_true] at hroom
            rw [List.isEmpty_iff.1 hroom.1] at hgt
            simp at hgt
          refine ⟨?_, by simpa using hup, rfl, rfl, rfl, rfl⟩
          rcases hA with ⟨a, b, c⟩ | ⟨j, a, b, c⟩
          · refine .inl ⟨a, b, ?_⟩
            simp only [List.length_append, List.length_cons, List.length_nil] at c ⊢; omega
          · refine .inr ⟨j, a, b, ?_⟩
            simp only [List.length_append, List.length_cons, List.length_nil] at c ⊢; omega
        · cases h
    | close => simp [step] at h
    | recv =>
      simp only [step] at h
      rw [if_neg (by rw [hrd]; simp)] at h
      cases h
    | fn =>
      rcases hA with ⟨rfl, rfl, c⟩ | ⟨j, rfl, b, c⟩
      · simp only [step, Bool.false_eq_true, if_false, script_recv] at h
        cases up with
        | nil => simp at h
        | cons x up =>
          simp only [Option.some.injEq] at h
          subst h
          refine ⟨.inr ⟨n, rfl, by simp, ?_⟩, ?_, rfl, rfl, rfl, rfl⟩
          · simp only [List.length_cons] at c; show up.length + toSend.length = n + 2; omega
          · simp only [List.length_cons] at h1; show up.length ≤ n + 1; omega
      · have hfn : (List.replicate (j + 1) (.send m) ++ List.replicate (n + 2) .recv : List Op) =
            .send m :: (List.replicate j (.send m) ++ List.replicate (n + 2) .recv) := by rw [List.replicate_succ, List.cons_append]
        rw [hfn] at h
        have hrd' := hrd (Op.send m :: (List.replicate j (.send m) ++ List.replicate (n + 2) .recv)) down
        simp only [step, Bool.false_eq_true, if_false] at h
        rw [script_send] at h
        simp only at h
        rw [hrd', Bool.and_false, Bool.or_false] at h
        split at h
        · next hroom =>
          cases h
          have hlt : down.length < n := by
            by_contra hge
            rw [hB.2 down m (by omega)] at hroom
            cases hroom
          obtain ⟨j', rfl⟩ : ∃ j', j = j' + 1 := ⟨j - 1, by omega⟩
          refine ⟨.inr ⟨j', rfl, ?_, c⟩, h1, rfl, rfl, rfl, rfl⟩
          simp only [List.length_append, List.length_cons, List.length_nil]; omega
        · cases h
  obtain ⟨hA, h1, h2, h3, h4, h5⟩ := key
  refine ⟨h2, h3, h4, ?_⟩
  intro h0
  rw [h0] at hA
  rcases hA with ⟨-, -, hA⟩ | ⟨j, -, -, hA⟩ <;> simp only [List.length_nil] at hA <;> omega

end OM.Duplex
