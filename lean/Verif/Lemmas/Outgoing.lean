import Verif.Model.Outgoing
import Verif.Spec.Outgoing
/-! # Lemmas: the outgoing queue -/
namespace OM
open Spec
variable {S : Type} {send : S → List StateUpdate → S × List StateResponse}

theorem deliver_eq_zip {qs : List Req} {rs : List StateResponse} (h : rs.length = qs.length) :
    deliver qs rs = some ((qs.map (·.caller)).zip rs) := by
  induction qs generalizing rs with
  | nil => cases rs with
    | nil => rfl
    | cons r rs => simp at h
  | cons q qs ih => cases rs with
    | nil => simp at h
    | cons r rs => simp [deliver, ih (by simpa using h)]

theorem answers_append (s : S) (a b : List (List StateUpdate)) :
    answers send s (a ++ b) = answers send s a ++ answers send (after send s a) b := by
  induction a generalizing s with
  | nil => rfl
  | cons x a ih => simp [answers, after, ih]

theorem after_append (s : S) (a b : List (List StateUpdate)) :
    after send s (a ++ b) = after send (after send s a) b := by simp [after]

theorem answers_length (h1 : OnePerUpdate send) (s : S) (bs : List (List StateUpdate)) :
    (answers send s bs).length = bs.flatten.length := by
  induction bs generalizing s with
  | nil => rfl
  | cons b bs ih => simp only [answers, List.length_append, List.flatten_cons, ih, h1 s b]

/-- Invariant of the queue relative to what it has received. -/
structure OutInv (thr : Int) (send : S → List StateUpdate → S × List StateResponse) (s0 : S)
    (recvd : List Req) (st : OutSt S) : Prop where
  split : ∃ flushed, recvd = flushed ++ st.pending ∧ st.batches.flatten = flushed.map (·.update) ∧
    st.delivered = (flushed.map (·.caller)).zip (answers send s0 st.batches)
  store : st.store = after send s0 st.batches
  sizes : ∀ b ∈ st.batches, 1 ≤ b.length ∧ (b.length : Int) ≤ max 1 thr
  pend : (st.pending.length : Int) ≤ max 1 thr - 1

theorem flush_inv {thr : Int} {s0 : S} {recvd : List Req} {st : OutSt S} (h1 : OnePerUpdate send)
    (hs : ∃ flushed, recvd = flushed ++ st.pending ∧ st.batches.flatten = flushed.map (·.update) ∧
      st.delivered = (flushed.map (·.caller)).zip (answers send s0 st.batches))
    (hst : st.store = after send s0 st.batches)
    (hsz : ∀ b ∈ st.batches, 1 ≤ b.length ∧ (b.length : Int) ≤ max 1 thr)
    (hp : (st.pending.length : Int) ≤ max 1 thr) :
    ∃ st', st.flush send = some st' ∧ OutInv thr send s0 recvd st' ∧ st'.pending = [] := by
  unfold OutSt.flush
  by_cases hpos : st.pending.length > 0
  · rw [if_pos hpos]
    have hl : (send st.store (st.pending.map (·.update))).2.length = st.pending.length := by
      rw [h1]; simp
    dsimp only
    rw [deliver_eq_zip hl]
    refine ⟨_, rfl, ⟨?_, ?_, ?_, ?_⟩, rfl⟩
    · obtain ⟨fl, e1, e2, e3⟩ := hs
      refine ⟨fl ++ st.pending, by simpa using e1, by simp [e2], ?_⟩
      simp only [e3, List.map_append]
      rw [answers_append, ← hst, List.zip_append (by
        have := answers_length h1 s0 st.batches
        rw [this, e2]; simp)]
      simp [answers]
    · simp only [after_append, ← hst]; rfl
    · intro b hb
      simp only [List.mem_append, List.mem_singleton] at hb
      rcases hb with hb | rfl
      · exact hsz b hb
      · simp only [List.length_map]; exact ⟨hpos, hp⟩
    · simp; omega
  · rw [if_neg hpos]
    have : st.pending = [] := List.length_eq_zero_iff.1 (by omega)
    exact ⟨st, rfl, ⟨hs, hst, hsz, by simp [this]; omega⟩, this⟩

theorem step_inv {thr : Int} {s0 : S} {recvd : List Req} {st : OutSt S} (h1 : OnePerUpdate send)
    (h : OutInv thr send s0 recvd st) (e : OutEv) :
    ∃ st', outStep thr send st e = some st' ∧ OutInv thr send s0 (recvd ++ received [e]) st' ∧
      (e = .timeout → st'.pending = []) := by
  cases e with
  | timeout =>
    obtain ⟨st', a, b, c⟩ := flush_inv (thr := thr) h1 h.split h.store h.sizes (by have := h.pend; omega)
    exact ⟨st', a, by simpa [received] using b, fun _ => c⟩
  | recv r =>
    have hs : ∃ flushed, recvd ++ [r] = flushed ++ (st.pending ++ [r]) ∧
        st.batches.flatten = flushed.map (·.update) ∧
        st.delivered = (flushed.map (·.caller)).zip (answers send s0 st.batches) := by
      obtain ⟨fl, e1, e2, e3⟩ := h.split
      exact ⟨fl, by simp [e1], e2, e3⟩
    have hp := h.pend
    simp only [outStep]
    split
    · obtain ⟨st', a, b, c⟩ := flush_inv (thr := thr) (s0 := s0) (recvd := recvd ++ [r])
        (st := { st with pending := st.pending ++ [r] }) h1 hs h.store h.sizes (by simp; omega)
      exact ⟨st', a, by simpa [received] using b, fun h => by cases h⟩
    · rename_i hlt
      refine ⟨_, rfl, ⟨by simpa [received] using hs, h.store, h.sizes, ?_⟩, fun h => by cases h⟩
      simp only at hlt ⊢; omega

theorem received_cons (e : OutEv) (es : List OutEv) : received (e :: es) = received [e] ++ received es := by
  cases e <;> simp [received]

theorem run_inv {thr : Int} {s0 : S} (h1 : OnePerUpdate send) (evs : List OutEv) :
    ∀ {recvd : List Req} {st : OutSt S}, OutInv thr send s0 recvd st →
    ∃ st', outRun thr send st evs = some st' ∧ OutInv thr send s0 (recvd ++ received evs) st' := by
  induction evs with
  | nil => intro recvd st h; exact ⟨st, rfl, by simpa [received] using h⟩
  | cons e es ih =>
    intro recvd st h
    obtain ⟨st1, a, b, -⟩ := step_inv h1 h e
    obtain ⟨st2, c, d⟩ := ih b
    refine ⟨st2, by simp [outRun, a, c], ?_⟩
    rw [received_cons, ← List.append_assoc]; exact d

theorem init_inv (thr : Int) (s0 : S) : OutInv thr send s0 [] (OutSt.init s0) :=
  ⟨⟨[], by simp [OutSt.init, answers]⟩, rfl, by simp [OutSt.init], by simp [OutSt.init]; omega⟩

theorem outRun_append (thr : Int) (st : OutSt S) (a b : List OutEv) :
    outRun thr send st (a ++ b) = (outRun thr send st a).bind fun st' => outRun thr send st' b := by
  induction a generalizing st with
  | nil => rfl
  | cons e a ih =>
    simp only [List.cons_append, outRun]
    cases outStep thr send st e with
    | none => rfl
    | some s => simp [ih]

end OM
