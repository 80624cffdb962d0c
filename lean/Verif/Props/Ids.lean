import Verif.Lemmas.Store
/-! # Properties C12, C13 (and C10/C11 for the in-memory replicator): ids -/
namespace OM.Props
open MemRepl

/-- A run of an in-memory instance: it starts at second `t0`, and the updates `l`
(over any number of batches, `sendUpdates_append`) are sent with their clock readings. -/
def memRun (t0 : Int) (l : List (StateUpdate × Int × Int)) := (MemRepl.new t0).sendUpdates l

/-- Decimal rendering `<seconds>-<counter>`. -/
def idText (p : Nat × Nat) : Str := Nat.toDigits 10 p.1 ++ '-' :: Nat.toDigits 10 p.2

/-- The readings never decrease: `t0`, then for each update its first and second reading. -/
def NonDecreasing (t0 : Int) (l : List (StateUpdate × Int × Int)) : Prop :=
  (t0 :: l.flatMap fun x => [x.2.1, x.2.2]).Pairwise (· ≤ ·)

def sampleUps : List (StateUpdate × Int × Int) :=
  [(⟨.ticket, [], "a".toList⟩, 1700000000, 1700000000),
   (⟨.activate, "1700000000-1".toList, []⟩, 1700000000, 1700000001),
   (⟨.ticket, [], "b".toList⟩, 1700000001, 1700000001),
   (⟨.ticket, [], "c".toList⟩, 1700000001, 1700000005)]

/-- **C12.** All replication ids of a run are different, in particular those of any
two tickets. -/
theorem C12_ids_unique (t0 : Int) (l : List (StateUpdate × Int × Int)) (h0 : 0 ≤ t0)
    (hc : NonDecreasing t0 l) : ((memRun t0 l).2.2.map (·.result)).Nodup := by
  obtain ⟨ps, e1, e2, -, -⟩ := sendUpdates_ids (MemRepl.new t0) l h0 hc
  unfold memRun
  rw [e1]
  refine (List.Pairwise.imp ?_ e2).map _ (fun p q h => ?_) (R := fun p q => p ≠ q)
  · intro p q h e; subst e; omega
  · intro e
    have := fmtReplId_injective e
    exact h (Prod.ext this.1 this.2)

/-- C12, for the tickets themselves: the keys under which the created tickets are
published are pairwise different. -/
theorem C12_ticket_keys_unique (t0 : Int) (l : List (StateUpdate × Int × Int)) (h0 : 0 ≤ t0)
    (hc : NonDecreasing t0 l) :
    (((memRun t0 l).2.1.filter (fun u => decide (u.cmd = .ticket))).map (·.key)).Nodup := by
  have hn := C12_ids_unique t0 l h0 hc
  have hp := sendUpdates_published (MemRepl.new t0) l
  have hlen := (sendUpdates_lengths (MemRepl.new t0) l).2
  unfold memRun at *
  rw [hp]
  generalize ((MemRepl.new t0).sendUpdates l).2.2 = rs at *
  clear hp hc
  suffices h : ((List.zipWith (fun x (r : StateResponse) => memPublished x.1 r.result) l rs).filter
      (fun u => decide (u.cmd = .ticket))).map (·.key) |>.Sublist (rs.map (·.result)) from
    List.Nodup.sublist h hn
  clear hn
  induction l generalizing rs with
  | nil => simp
  | cons x l ih =>
    cases rs with
    | nil => simp
    | cons r rs =>
      simp only [List.zipWith_cons_cons, List.map_cons]
      have := ih rs (by simpa using hlen)
      by_cases hx : x.1.cmd = .ticket
      · have e : memPublished x.1 r.result = { x.1 with key := r.result } := by simp [memPublished, hx]
        rw [List.filter_cons_of_pos (by simp [e, hx]), List.map_cons, e]
        exact this.cons_cons _
      · have e : memPublished x.1 r.result = x.1 := by
          unfold memPublished; split
          · contradiction
          · rfl
        rw [List.filter_cons_of_neg (by simp [e, hx])]
        exact this.cons _

example : 0 ≤ (1700000000 : Int) ∧ NonDecreasing 1700000000 sampleUps ∧
    (memRun 1700000000 sampleUps).2.2.map (·.result) =
      ["1700000000-1".toList, "1700000000-2".toList, "1700000001-0".toList, "1700000001-1".toList] := by
  refine ⟨by decide, ?_, ?_⟩
  · simp [NonDecreasing, sampleUps]
  · decide

/-- The hypothesis matters: with a clock stepping back, an id is issued twice. -/
example : ¬ ((memRun 5 [(.zero, 6, 6), (.zero, 5, 5), (.zero, 6, 6)]).2.2.map (·.result)).Nodup := by
  decide

/-- **C13.** The ids issued are, in order, the renderings `<ts>-<n>` of strictly
increasing pairs; each contains a '-'; each pair's `ts` lies between the two clock
readings of its call; and the expiration logic reads that very second back. -/
theorem C13_ids_increase_and_parse (t0 : Int) (l : List (StateUpdate × Int × Int)) (h0 : 0 ≤ t0)
    (hc : NonDecreasing t0 l) (hmax : ∀ x ∈ l, x.2.2 < 2 ^ 63) :
    ∃ ps : List (Nat × Nat),
      (memRun t0 l).2.2.map (·.result) = ps.map idText ∧
      ps.Pairwise (fun p q => p.1 < q.1 ∨ (p.1 = q.1 ∧ p.2 < q.2)) ∧
      List.Forall₂ (fun (x : StateUpdate × Int × Int) (p : Nat × Nat) =>
        x.2.1 ≤ p.1 ∧ (p.1 : Int) ≤ x.2.2 ∧ '-' ∈ idText p ∧ idSecond (idText p) = p.1) l ps := by
  obtain ⟨ps, e1, e2, -, e4⟩ := sendUpdates_ids (MemRepl.new t0) l h0 hc
  have et : ∀ p : Nat × Nat, fmtReplId (p.1 : Int) p.2 = idText p := fun p => rfl
  refine ⟨ps, by simpa [memRun, et] using e1, e2, ?_⟩
  clear e1 e2 hc
  induction e4 with
  | nil => exact .nil
  | @cons x p l ps h e4 ih =>
    refine .cons ⟨h.1, h.2, ?_, ?_⟩ (ih (fun y hy => hmax y (List.mem_cons_of_mem _ hy)))
    · rw [← et]; exact dash_mem_fmtReplId _ _
    · rw [← et]
      refine idSecond_fmtReplId _ ?_
      have := hmax x (by simp); have := h.2; omega

example : ∀ x ∈ sampleUps, x.2.2 < 2 ^ 63 := by decide

/-- **C10 (in-memory).** The response to each ticket creation carries exactly the id
under which that very ticket's data is published; other updates are published
unchanged. -/
theorem C10_memory_id_is_stored_id (t0 : Int) (l : List (StateUpdate × Int × Int)) (i : Nat)
    (u : StateUpdate) (n1 n2 : Int) (hi : l[i]? = some (u, n1, n2)) :
    ∃ r pub, (memRun t0 l).2.2[i]? = some r ∧ (memRun t0 l).2.1[i]? = some pub ∧ r.err = none ∧
      pub.cmd = u.cmd ∧ pub.value = u.value ∧
      pub.key = (if u.cmd = .ticket then r.result else u.key) := by
  unfold memRun
  have hlen := (sendUpdates_lengths (MemRepl.new t0) l).2
  have hil : i < l.length := (List.getElem?_eq_some_iff.1 hi).1
  have hr : i < ((MemRepl.new t0).sendUpdates l).2.2.length := by omega
  refine ⟨((MemRepl.new t0).sendUpdates l).2.2[i], memPublished u ((MemRepl.new t0).sendUpdates l).2.2[i].result,
    by simp, ?_, sendUpdates_err _ _ _ (List.getElem_mem hr), ?_⟩
  · rw [sendUpdates_published, List.getElem?_zipWith, hi]
    simp [List.getElem?_eq_getElem hr]
  · unfold memPublished
    cases hc : u.cmd <;> simp [hc]

example : (memRun 1700000000 sampleUps).2.1[3]? =
    some ⟨.ticket, "1700000001-1".toList, "c".toList⟩ := by decide

end OM.Props
