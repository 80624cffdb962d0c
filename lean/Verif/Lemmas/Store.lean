import Verif.Model.Cache
import Verif.Lemmas.Go
import Mathlib.Data.List.Forall2
/-! # Lemmas: replication ids and the in-memory replicator -/
namespace OM

theorem fmtReplId_injective {a b : Nat} {m n : Nat}
    (h : fmtReplId (a : Int) m = fmtReplId (b : Int) n) : a = b ∧ m = n := by
  unfold fmtReplId at h
  have h1 := congrArg (splitFirst '-') h
  simp only [fmtInt] at h1 h
  rw [splitFirst_append _ _ _ (dash_not_mem_fmtNat a),
    splitFirst_append _ _ _ (dash_not_mem_fmtNat b)] at h1
  have e := fmtNat_injective h1
  subst e
  have h2 := List.append_cancel_left h
  exact ⟨rfl, fmtNat_injective (List.cons.inj h2).2⟩

theorem idSecond_fmtReplId {a : Nat} (n : Nat) (h : a < 2 ^ 63) :
    idSecond (fmtReplId (a : Int) n) = a := by
  unfold idSecond fmtReplId
  simp only [fmtInt]
  rw [splitFirst_append _ _ _ (dash_not_mem_fmtNat a), parseInt10_fmtNat h]
  rfl

theorem dash_mem_fmtReplId (a : Int) (n : Nat) : '-' ∈ fmtReplId a n := by
  simp [fmtReplId]

namespace MemRepl

theorem sendUpdates_lengths (s : MemRepl) (l : List (StateUpdate × Int × Int)) :
    (s.sendUpdates l).2.1.length = l.length ∧ (s.sendUpdates l).2.2.length = l.length := by
  induction l generalizing s with
  | nil => simp [sendUpdates]
  | cons x l ih =>
    obtain ⟨u, a, b⟩ := x
    simp only [sendUpdates, List.length_cons]
    have := ih (s.getReplId a b).2
    exact ⟨congrArg (· + 1) this.1, congrArg (· + 1) this.2⟩

/-- Sending two batches one after the other is sending their concatenation. -/
theorem sendUpdates_append (s : MemRepl) (l m : List (StateUpdate × Int × Int)) :
    s.sendUpdates (l ++ m) =
      (((s.sendUpdates l).1.sendUpdates m).1,
       (s.sendUpdates l).2.1 ++ ((s.sendUpdates l).1.sendUpdates m).2.1,
       (s.sendUpdates l).2.2 ++ ((s.sendUpdates l).1.sendUpdates m).2.2) := by
  induction l generalizing s with
  | nil => simp [sendUpdates]
  | cons x l ih =>
    obtain ⟨u, a, b⟩ := x
    simp only [List.cons_append, sendUpdates, ih]

theorem sendUpdates_err (s : MemRepl) (l : List (StateUpdate × Int × Int)) :
    ∀ r ∈ (s.sendUpdates l).2.2, r.err = none := by
  induction l generalizing s with
  | nil => simp [sendUpdates]
  | cons x l ih =>
    obtain ⟨u, a, b⟩ := x
    intro r hr
    simp only [sendUpdates, List.mem_cons] at hr
    rcases hr with rfl | hr
    · rfl
    · exact ih _ _ hr

/-- What is published is the update itself, a ticket getting the response's id. -/
theorem sendUpdates_published (s : MemRepl) (l : List (StateUpdate × Int × Int)) :
    (s.sendUpdates l).2.1 =
      List.zipWith (fun x r => memPublished x.1 r.result) l (s.sendUpdates l).2.2 := by
  induction l generalizing s with
  | nil => simp [sendUpdates]
  | cons x l ih =>
    obtain ⟨u, a, b⟩ := x
    simp only [sendUpdates, List.zipWith_cons_cons]
    rw [← ih]

/-- The clock does not run backwards over the readings of a run. -/
def ClockOK (t0 : Int) (l : List (StateUpdate × Int × Int)) : Prop :=
  (t0 :: l.flatMap fun x => [x.2.1, x.2.2]).Pairwise (· ≤ ·)

/-- Ids issued over a run are the renderings of strictly increasing pairs. -/
theorem sendUpdates_ids (s : MemRepl) (l : List (StateUpdate × Int × Int))
    (h0 : 0 ≤ s.replTS) (hc : ClockOK s.replTS l) :
    ∃ ps : List (Nat × Nat),
      (s.sendUpdates l).2.2.map (·.result) = ps.map (fun p => fmtReplId (p.1 : Int) p.2) ∧
      ps.Pairwise (fun p q => p.1 < q.1 ∨ (p.1 = q.1 ∧ p.2 < q.2)) ∧
      (∀ p ∈ ps, s.replTS < p.1 ∨ (s.replTS = p.1 ∧ s.replCount < p.2)) ∧
      List.Forall₂ (fun (x : StateUpdate × Int × Int) (p : Nat × Nat) =>
        x.2.1 ≤ p.1 ∧ (p.1 : Int) ≤ x.2.2) l ps := by
  induction l generalizing s with
  | nil => exact ⟨[], by simp [sendUpdates]⟩
  | cons x l ih =>
    obtain ⟨u, a, b⟩ := x
    unfold ClockOK at hc
    simp only [List.flatMap_cons, List.cons_append, List.nil_append, List.pairwise_cons,
      List.mem_cons] at hc
    obtain ⟨h1, h2, h3, h4⟩ := hc
    have hsa : s.replTS ≤ a := h1 a (Or.inl rfl)
    have hab : a ≤ b := h2 b (Or.inl rfl)
    by_cases he : a = s.replTS
    · have hs' : (s.getReplId a b).2 = ⟨s.replTS, s.replCount + 1⟩ := by simp [getReplId, he]
      obtain ⟨ps, e1, e2, e3, e4⟩ := ih (s.getReplId a b).2 (by rw [hs']; exact h0) (by
        rw [hs']; unfold ClockOK; simp only [List.pairwise_cons]
        exact ⟨fun x hx => h1 x (Or.inr (Or.inr hx)), h4⟩)
      rw [hs'] at e3
      simp only at e3
      refine ⟨(s.replTS.toNat, s.replCount + 1) :: ps, ?_, ?_, ?_, ?_⟩
      · simp only [sendUpdates, List.map_cons, e1]
        congr 1
        simp [getReplId, he, Int.toNat_of_nonneg h0]
      · refine List.pairwise_cons.2 ⟨?_, e2⟩
        intro p hp
        have := e3 p hp
        simp only; omega
      · intro p hp
        rcases List.mem_cons.1 hp with rfl | hp
        · right; simp only; omega
        · have := e3 p hp; omega
      · refine List.Forall₂.cons ?_ e4
        simp only; omega
    · have hlt : s.replTS < a := by omega
      have hs' : (s.getReplId a b).2 = ⟨b, 0⟩ := by simp [getReplId, he]
      obtain ⟨ps, e1, e2, e3, e4⟩ := ih (s.getReplId a b).2 (by rw [hs']; simp only; omega) (by
        rw [hs']; unfold ClockOK; simp only [List.pairwise_cons]
        exact ⟨fun x hx => h3 x hx, h4⟩)
      rw [hs'] at e3
      simp only at e3
      refine ⟨(b.toNat, 0) :: ps, ?_, ?_, ?_, ?_⟩
      · simp only [sendUpdates, List.map_cons, e1]
        congr 1
        simp only [getReplId, he, if_false]
        rw [Int.toNat_of_nonneg (by omega)]
      · refine List.pairwise_cons.2 ⟨?_, e2⟩
        intro p hp
        have := e3 p hp
        simp only; omega
      · intro p hp
        rcases List.mem_cons.1 hp with rfl | hp
        · left; simp only; omega
        · have := e3 p hp; omega
      · refine List.Forall₂.cons ?_ e4
        simp only; omega

end MemRepl
end OM
