import Verif.Model.Closing
import Verif.Props.Snapshot
import Mathlib.Data.List.Perm.Subperm
/-!
# Property C154: the closing line tells what the instance held
-/
namespace OM.Props
open OM.Spec

/-- `n` is, up to `w`, the number of ids with the property `P`. -/
def NumberOf (P : Str → Prop) (w n : Nat) : Prop :=
  ∃ ks : List Str, ks.Nodup ∧ (∀ k, k ∈ ks ↔ P k) ∧ n ≤ ks.length + w ∧ ks.length ≤ n + w

/-- What the line says, in the cache `c`, up to `w`. -/
def ClosingSays (c : Cache) (w : Nat) (n : Closing) : Prop :=
  NumberOf (fun k => ∃ t, c.tickets.load k = some t) w n.tickets ∧
  NumberOf (fun k => (∃ t, c.tickets.load k = some t) ∧ c.inactive.load k = none) w n.active ∧
  NumberOf (fun k => c.inactive.load k = some ()) w n.inactive ∧
  NumberOf (fun k => ∃ a, c.assignments.load k = some a) w n.assignments

/-- What should hold: the numbers are those of the cache, and every ticket is either active or inactive. -/
def C154_statement : Prop :=
  ∀ (cd : Codec) (cfg : Config) (es : List Ev) (n : Closing), ValidEvs cd cfg Cache.empty es →
    (∃ i, Closes Cache.empty (traceOps cd cfg Cache.empty es) i i n ∧ i = (traceOps cd cfg Cache.empty es).length) →
    ClosingSays (runEvs cd cfg Cache.empty es) 0 n ∧ n.tickets = n.active + n.inactive

private def keyOf : MOp → Str
  | .storeInactive k => k
  | .delInactive k => k
  | .storeTicket k _ => k
  | .delTicket k => k
  | .storeAsg k _ => k
  | .delAsg k => k

private theorem untouched {ops : List MOp} {k : Str} (h : k ∉ ops.map keyOf) (c : Cache) : proj (runOps c ops) k = proj c k := by
  induction ops generalizing c with
  | nil => rfl
  | cons o ops ih =>
    rw [List.map_cons, List.mem_cons, not_or] at h
    rw [runOps_cons, ih h.2, proj_run]
    cases o <;> exact if_neg h.1

/-- The keys written between `lo` and `hi`. -/
private def written (ops : List MOp) (lo hi : Nat) : List Str := ((ops.take hi).drop lo).map keyOf

private theorem written_length {ops : List MOp} {lo hi : Nat} : (written ops lo hi).length ≤ hi - lo := by
  simp only [written, List.length_map, List.length_drop, List.length_take]; omega

private theorem agree {c : Cache} {ops : List MOp} {lo hi k} (h : k ∉ written ops lo hi) {p : Nat} (h1 : lo ≤ p) (h2 : p ≤ hi) :
    proj (cacheAt c ops p) k = proj (cacheAt c ops lo) k := by
  have e : ops.take p = ops.take lo ++ (ops.take p).drop lo := by
    have := List.take_append_drop lo (ops.take p)
    rw [List.take_take, Nat.min_eq_left h1] at this
    exact this.symm
  unfold cacheAt
  rw [e, runOps_append]
  refine untouched (fun hm => h ?_) _
  refine List.Sublist.subset (List.Sublist.map _ (List.Sublist.drop ?_ lo)) hm
  rw [show ops.take p = (ops.take hi).take p by rw [List.take_take, Nat.min_eq_left h2]]
  exact List.take_sublist _ _

private theorem near {P : Str → Prop} {V : Type} {m : GoMap V} {ks W : List Str} {w : Nat} (hm : m.WF) (hks : ks.Nodup)
    (hP : ∀ k, k ∈ ks ↔ P k) (hW : W.length ≤ w) (h : ∀ k, k ∉ W → ((m.load k).isSome ↔ P k)) : NumberOf P w m.length := by
  have hlen : m.keys.length = m.length := by simp [GoMap.keys]
  refine ⟨ks, hks, hP, ?_, ?_⟩
  · have : m.keys.length ≤ (ks ++ W).length := List.Subperm.length_le (List.subperm_of_subset hm fun k hk => by
      by_cases hw : k ∈ W
      · exact List.mem_append_right _ hw
      · exact List.mem_append_left _ ((hP k).mpr ((h k hw).mp (GoMap.load_isSome_iff.mpr hk))))
    rw [List.length_append] at this
    omega
  · have : ks.length ≤ (m.keys ++ W).length := List.Subperm.length_le (List.subperm_of_subset hks fun k hk => by
      by_cases hw : k ∈ W
      · exact List.mem_append_right _ hw
      · exact List.mem_append_left _ (GoMap.load_isSome_iff.mp ((h k hw).mpr ((hP k).mp hk))))
    rw [List.length_append] at this
    omega

private theorem candidate_iff {d : Cache} (wf : d.WF) (k : Str) :
    k ∈ (candidates d).keys ↔ (∃ t, d.tickets.load k = some t) ∧ d.inactive.load k = none := by
  rw [← GoMap.load_isSome_iff, candidates_load wf]
  simp only [proj]
  by_cases h : d.inactive.load k = none
  · simp [h, Option.isSome_iff_exists]
  · simp [h, Option.isSome_iff_ne_none.mpr h]

/-- **C154 (in general).** The instance may go on applying updates and expiring while the line is
computed.  Each of the four numbers is that of the cache at any moment meanwhile, up to the number of
writes to the cache made meanwhile. -/
theorem C154_near_partial (c : Cache) (ops : List MOp) (lo hi p : Nat) (n : Closing) (wf : c.WF) (h : Closes c ops lo hi n)
    (h1 : lo ≤ p) (h2 : p ≤ hi) : ClosingSays (cacheAt c ops p) (hi - lo) n := by
  obtain ⟨m1, m2, m3, m4, sn, t4, a1, a2, a3, a4, ⟨r1, b1, w1, l1⟩, ⟨⟨s1, s2, s3⟩, w2, l2⟩, ⟨r3, b3, w3, l3⟩, ⟨r4, b4, w4, l4⟩, rfl⟩ := h
  have hlo := s1 []
  have hhi := s2 []
  have wfp : (cacheAt c ops p).WF := WF_runOps wf _
  have same : ∀ k, k ∉ written ops lo hi → ∀ q, lo ≤ q → q ≤ hi → proj (cacheAt c ops q) k = proj (cacheAt c ops p) k :=
    fun k hk q q1 q2 => (agree hk q1 q2).trans (agree hk h1 h2).symm
  refine ⟨?_, ?_, ?_, ?_⟩
  · refine near w1 wfp.1 (fun k => by rw [← GoMap.load_isSome_iff, Option.isSome_iff_exists]) (written_length (ops := ops)) ?_
    intro k hk
    have := congrArg KState.t (same k hk (r1 k) (b1 k).1 (by have := (b1 k).2; omega))
    simp only [proj] at this
    rw [l1, this, Option.isSome_iff_exists]
  · refine near w2 (ks := (candidates (cacheAt c ops p)).keys) (GoMap.WF_filter wfp.1 _) (candidate_iff wfp) (written_length (ops := ops)) ?_
    · intro k hk
      have e1 := congrArg KState.i (same k hk (sn.r1 k) (by have := (s1 k).1; omega) (by have := (s1 k).2; omega))
      have e2 := congrArg KState.t (same k hk (sn.r2 k) (by have := (s2 k).1; omega) (by have := (s2 k).2; omega))
      simp only [proj] at e1 e2
      rw [l2, snapLoad, e2]
      generalize (cacheAt c ops (sn.r1 k)).inactive.load k = x at e1
      generalize (cacheAt c ops p).inactive.load k = y at e1
      cases x <;> cases y <;> simp [Option.isSome_iff_exists] at e1 ⊢
  · refine near w3 wfp.2.1 (fun k => ?_) (written_length (ops := ops)) ?_
    · rw [← GoMap.load_isSome_iff, Option.isSome_iff_exists]
      exact ⟨fun ⟨_, h⟩ => h, fun h => ⟨_, h⟩⟩
    · intro k hk
      have := congrArg KState.i (same k hk (r3 k) (by have := (b3 k).1; omega) (by have := (b3 k).2; omega))
      simp only [proj] at this
      rw [l3, this, Option.isSome_iff_exists]
      exact ⟨fun ⟨_, h⟩ => h, fun h => ⟨_, h⟩⟩
  · refine near w4 wfp.2.2 (fun k => by rw [← GoMap.load_isSome_iff, Option.isSome_iff_exists]) (written_length (ops := ops)) ?_
    intro k hk
    have := congrArg KState.a (same k hk (r4 k) (by have := (b4 k).1; omega) (by have := (b4 k).2; omega))
    simp only [proj] at this
    rw [l4, this, Option.isSome_iff_exists]

private theorem counts_zero {P : Str → Prop} {n : Nat} {ks : List Str} (h : NumberOf P 0 n) (hk : ks.Nodup) (hp : ∀ k, k ∈ ks ↔ P k) :
    n = ks.length := by
  obtain ⟨ks', h1, h2, h3, h4⟩ := h
  have := ((List.perm_ext_iff_of_nodup h1 hk).mpr fun k => (h2 k).trans (hp k).symm).length_eq
  omega

/-- **C154 (the cache at rest).** Partial: the full claim is `C154_statement`.  If nothing is written
meanwhile, the four numbers are exactly those of the cache; active and inactive together exceed the
tickets by the number of inactive ids that have no ticket. -/
theorem C154_rest_partial (c : Cache) (ops : List MOp) (i : Nat) (n : Closing) (wf : c.WF) (h : Closes c ops i i n) :
    ClosingSays (cacheAt c ops i) 0 n ∧ n.tickets + (dangling (cacheAt c ops i)).length = n.active + n.inactive := by
  have hs := C154_near_partial c ops i i i n wf h (Nat.le_refl _) (Nat.le_refl _)
  rw [Nat.sub_self] at hs
  refine ⟨hs, ?_⟩
  have wfp : (cacheAt c ops i).WF := WF_runOps wf _
  generalize cacheAt c ops i = d at hs wfp
  obtain ⟨h1, h2, h3, -⟩ := hs
  have e1 : n.tickets = d.tickets.keys.length := counts_zero h1 wfp.1 fun k => by
    rw [← GoMap.load_isSome_iff, Option.isSome_iff_exists]
  have e2 : n.active = (candidates d).keys.length := counts_zero h2 (GoMap.WF_filter wfp.1 _) (candidate_iff wfp)
  have e3 : n.inactive = d.inactive.keys.length := counts_zero h3 wfp.2.1 fun k => by
    rw [← GoMap.load_isSome_iff, Option.isSome_iff_exists]
    exact ⟨fun ⟨_, h⟩ => h, fun h => ⟨_, h⟩⟩
  -- tickets and dangling ids are the candidates and the inactive ids
  have hp : (d.tickets.keys ++ dangling d).Perm ((candidates d).keys ++ d.inactive.keys) := by
    refine (List.perm_ext_iff_of_nodup ?_ ?_).mpr ?_
    · refine List.nodup_append.mpr ⟨wfp.1, wfp.2.1.filter _, ?_⟩
      rintro a ha b hb rfl
      rw [dangling, List.mem_filter, decide_eq_true_eq, GoMap.load_eq_none_iff] at hb
      exact hb.2 ha
    · refine List.nodup_append.mpr ⟨GoMap.WF_filter wfp.1 _, wfp.2.1, ?_⟩
      rintro a ha b hb rfl
      rw [← GoMap.load_isSome_iff, candidates_load wfp] at ha
      rw [← GoMap.load_isSome_iff] at hb
      simp [proj, hb] at ha
    · intro k
      rw [List.mem_append, List.mem_append, dangling, List.mem_filter, decide_eq_true_eq, GoMap.load_eq_none_iff,
        candidate_iff wfp, ← GoMap.load_isSome_iff (m := d.inactive), ← GoMap.load_isSome_iff (m := d.tickets)]
      generalize d.inactive.load k = x
      generalize d.tickets.load k = y
      cases x <;> cases y <;> simp
  have := hp.length_eq
  rw [List.length_append, List.length_append] at this
  omega

/-- At the end of any history the line can be computed. -/
theorem C154_written (c : Cache) (ops : List MOp) (wf : c.WF) : ∃ n, Closes c ops ops.length ops.length n := by
  have wfp : (cacheAt c ops ops.length).WF := WF_runOps wf _
  refine ⟨_, (cacheAt c ops ops.length).tickets, candidates (cacheAt c ops ops.length), (cacheAt c ops ops.length).inactive,
    (cacheAt c ops ops.length).assignments, ⟨ops.length, ops.length, ops.length, fun _ => ops.length, fun _ => ops.length⟩, ops.length,
    Nat.le_refl _, Nat.le_refl _, Nat.le_refl _, Nat.le_refl _, ⟨fun _ => ops.length, by simp, wfp.1, fun _ => rfl⟩,
    ⟨⟨by simp, by simp, Nat.le_refl _⟩, GoMap.WF_filter wfp.1 _, fun k => ?_⟩, ⟨fun _ => ops.length, by simp, wfp.2.1, fun _ => rfl⟩,
    ⟨fun _ => ops.length, by simp, wfp.2.2, fun _ => rfl⟩, rfl⟩
  rw [candidates_load wfp, snapLoad]
  by_cases h : (cacheAt c ops ops.length).inactive.load k = none
  · rw [h, if_neg (by simp [proj, h])]; rfl
  · obtain ⟨u, hu⟩ := Option.ne_none_iff_exists'.mp h
    rw [hu, if_pos (by simp [proj, hu])]

/-- **C154, refuted**: an id that was deactivated but has no ticket counts as inactive. -/
theorem C154_sum_refuted : ¬ C154_statement := by
  intro h
  obtain ⟨n, hn⟩ := C154_written Cache.empty (traceOps toyCodec Config.default Cache.empty [.upd ⟨.deactivate, kA, []⟩]) WF_empty
  obtain ⟨-, h1⟩ := h toyCodec Config.default [.upd ⟨.deactivate, kA, []⟩] n ⟨trivial, trivial⟩ ⟨_, hn, rfl⟩
  have h2 := (C154_rest_partial _ _ _ _ WF_empty hn).2
  have h3 : (dangling (cacheAt Cache.empty (traceOps toyCodec Config.default Cache.empty [.upd ⟨.deactivate, kA, []⟩])
      (traceOps toyCodec Config.default Cache.empty [.upd ⟨.deactivate, kA, []⟩]).length)).length = 1 := by decide
  omega

/-- **C154 (text).** The line tells four numbers. -/
theorem C154_text (n n' : Closing) (h : closingText n = closingText n') : n = n' := by
  have cut : ∀ (a b : Nat) (t u : Str) (s : Str), fmtNat a ++ (' ' :: s ++ t) = fmtNat b ++ (' ' :: s ++ u) → a = b ∧ t = u := by
    intro a b t u s h
    have hs : ∀ n, ' ' ∉ fmtNat n := fun n hm => by
      have := isDigit_fmtNat hm
      revert this; decide
    have := congrArg (splitFirst ' ') h
    rw [List.cons_append, List.cons_append, splitFirst_append _ _ _ (hs a), splitFirst_append _ _ _ (hs b)] at this
    cases fmtNat_injective this
    exact ⟨rfl, List.append_cancel_left (List.append_cancel_left h)⟩
  unfold closingText at h
  simp only [List.append_assoc, List.append_cancel_left_eq] at h
  obtain ⟨e1, h⟩ := cut _ _ _ _ "tickets, ".toList h
  obtain ⟨e2, h⟩ := cut _ _ _ _ "active, ".toList h
  obtain ⟨e3, h⟩ := cut _ _ _ _ "inactive, ".toList h
  have e4 := fmtNat_injective (List.append_cancel_right h)
  cases n; cases n'
  cases e1; cases e2; cases e3; cases e4
  rfl

example : closingText ⟨12, 3, 9, 4⟩ = "Final state of local cache: 12 tickets, 3 active, 9 inactive, 4 assignments".toList := by decide +kernel
example : (sampleHistory.foldl (applyUpdate toyCodec) Cache.empty).WF := by
  refine ⟨?_, ?_, ?_⟩ <;> unfold GoMap.WF <;> decide

end OM.Props
