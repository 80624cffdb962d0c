import Verif.Lemmas.Delay
import Verif.Props.Latency
import Verif.Props.Lag
/-!
# Property C139: what a call changes is seen by all instances in bounded time
-/
namespace OM.Props
open OM.Delay

/-- How long an update takes from a handler with `k` updates before it until it is answered (C131). -/
def toAnswer (p : Par) (k : Nat) : Nat := p.outT + (k / (max p.thr 1).toNat + 2) * p.send

/-- How long it takes from the stream into the cache of an instance that is `b` updates behind (C132). -/
def toApply (p : Par) (b : Nat) : Nat := p.read + p.cycle + (b / p.max + 1) * (p.inT + p.cycle)

/-- In this execution from `s` on, instance `j` is never more than `b` updates behind when an update is put into the stream. -/
def Behind (p : Par) (s : St) (ls : List Lbl) (j b : Nat) : Prop :=
  ∀ ls1 i ls2 t x, ls = ls1 ++ .store i :: ls2 → s.run p ls1 = some t → t.insts[j]? = some x → backlog x.inn ≤ b

/-- Instance `j` has applied update `r` of instance `i`, and did so by `t`. -/
def AppliedBy (s : St) (i r j t : Nat) : Prop :=
  ∃ k x u, s.log[k]? = some (i, r) ∧ s.insts[j]? = some x ∧ (k, u) ∈ x.inn.applied ∧ u ≤ t

theorem init_get {p : Par} {n i : Nat} (h : i < n) :
    (St.init p n).insts[i]? = some ⟨Latency.St.init p.outT, 0, Lag.St.init p.inT p.read⟩ := by
  simp [St.init, h]

theorem insts_len {p : Par} (ls : List Lbl) : ∀ {s s' : St}, s.run p ls = some s' → s'.insts.length = s.insts.length := by
  induction ls with
  | nil => intro s s' h; cases h; rfl
  | cons l ls ih =>
    intro s s' h
    obtain ⟨t, ht, h⟩ := Option.bind_eq_some_iff.1 h
    exact (ih h).trans (insts_length ht)

theorem queue_in_order {p : Par} {n : Nat} {ls : List Lbl} {s : St} (h : (St.init p n).run p ls = some s) {i : Nat} {a : Inst}
    (ha : s.insts[i]? = some a) : a.out.answered.map (·.1) ++ a.out.held ++ a.out.waiting = List.range a.out.next := by
  have hi : i < n := by
    have := (List.getElem?_eq_some_iff.1 ha).1
    rw [insts_len ls h] at this
    simpa [St.init] using this
  obtain ⟨b, hb, h1, -⟩ := proj_run ls h (init_get hi)
  rw [ha] at hb; cases hb
  exact C131_in_order _ _ _ _ _ h1

/-- An update is applied within its time from when it is put into the stream. -/
private theorem from_store {p : Par} {n : Nat} (hN : 0 < p.max) (hR : p.read < p.inT) {pre post : List Lbl} {s1 s2 s3 : St} {e : Nat × Nat}
    (h1 : (St.init p n).run p pre = some s1) (h2 : s1.step p (.store e.1) = some s2) (he : s2.log = s1.log ++ [e])
    (h3 : s2.run p post = some s3) {j b : Nat} {x : Inst} (hj : s1.insts[j]? = some x) (hb : backlog x.inn ≤ b) :
    s3.now ≤ s1.now + toApply p b ∨ AppliedBy s3 e.1 e.2 j (s1.now + toApply p b) := by
  have hlt : j < n := by
    have := (List.getElem?_eq_some_iff.1 hj).1
    rw [insts_len pre h1] at this
    simpa [St.init] using this
  obtain ⟨x', hx', -, p1⟩ := proj_run pre h1 (init_get hlt)
  rw [hj] at hx'; cases hx'
  rcases proj_step h2 j with ⟨h0, -⟩ | ⟨x', y, hx', hy, -, p2⟩
  · rw [hj] at h0; cases h0
  rw [hj] at hx'; cases hx'
  obtain ⟨z, hz, -, p3⟩ := proj_run post h3 hy
  have p2' : x.inn.step p.inT p.read p.cycle p.max .arrive = some y.inn := by
    simp only [innOf, innRun, Lag.St.run] at p2
    obtain ⟨t, ht, hh⟩ := Option.bind_eq_some_iff.1 p2
    cases hh; exact ht
  have g1 := good_run pre (good_init p n) h1 j x hj
  have h12 : (St.init p n).run p (pre ++ .store e.1 :: post) = some s3 := by
    rw [run_append, h1]; simp only [Option.bind_some, St.run, h2]; exact h3
  have g3 := good_run _ (good_init p n) h12 j z hz
  have hmono : s1.now + p.read + p.cycle + (backlog x.inn / p.max + 1) * (p.inT + p.cycle) ≤ s1.now + toApply p b := by
    unfold toApply
    have := Nat.mul_le_mul_right (p.inT + p.cycle) (Nat.add_le_add_right (Nat.div_le_div_right (c := p.max) hb) 1)
    omega
  rcases C132_applied_in_time p.inT p.read p.cycle p.max hN hR _ _ _ _ _ p1 p2' p3 with ⟨t, ht, hle⟩ | hle
  · rw [g1.innNow] at hle
    refine .inr ⟨s1.log.length, z, t, ?_, hz, by rw [← g1.next]; exact ht, Nat.le_trans hle hmono⟩
    obtain ⟨w, hw⟩ := log_run post h3
    rw [← hw, he, List.append_assoc, List.getElem?_append_right (Nat.le_refl _)]
    simp
  · rw [g1.innNow, g3.innNow] at hle
    exact .inl (Nat.le_trans hle hmono)

/-- **C139.** An update that a handler of instance `i` has while `k` others are waiting before it there, is applied by every
instance within the time of C131 and that of C132, in every execution and with any number of instances: once that much time has
passed the update has been applied, and not later. -/
theorem C139_visible_in_time (p : Par) (n : Nat) (hT : 0 < p.outT) (hN : 0 < p.max) (hR : p.read < p.inT)
    (pre post : List Lbl) (s1 s2 s3 : St) (i : Nat) (a : Inst) (h1 : (St.init p n).run p pre = some s1) (ha : s1.insts[i]? = some a)
    (h2 : s1.step p (.out i .arrive) = some s2) (h3 : s2.run p post = some s3) (j b : Nat) (hj : j < n) (hb : Behind p s2 post j b) :
    s3.now ≤ s1.now + toAnswer p a.out.waiting.length + toApply p b ∨
    AppliedBy s3 i a.out.next j (s1.now + toAnswer p a.out.waiting.length + toApply p b) := by
  by_cases hlim : s3.now ≤ s1.now + toAnswer p a.out.waiting.length
  · exact .inl (by omega)
  -- what the queue of `i` sees
  have hlt : i < n := by
    have := (List.getElem?_eq_some_iff.1 ha).1
    rw [insts_len pre h1] at this
    simpa [St.init] using this
  obtain ⟨a', ha', p1, -⟩ := proj_run pre h1 (init_get hlt)
  rw [ha] at ha'; cases ha'
  rcases proj_step h2 i with ⟨h0, -⟩ | ⟨a', a2, ha', ha2, p2, -⟩
  · rw [ha] at h0; cases h0
  rw [ha] at ha'; cases ha'
  have p2' : a.out.step p.outT p.send p.thr .arrive = some a2.out := by
    simp only [outOf, if_true, Latency.St.run] at p2
    obtain ⟨t, ht, hh⟩ := Option.bind_eq_some_iff.1 p2
    cases hh; exact ht
  have g1 := good_run pre (good_init p n) h1 i a ha
  have hr2 : (St.init p n).run p (pre ++ [.out i .arrive]) = some s2 := by
    rw [run_append, h1]; simp only [Option.bind_some, St.run, h2]
  have hr3 : (St.init p n).run p (pre ++ [.out i .arrive] ++ post) = some s3 := by
    rw [run_append, hr2]; exact h3
  have main : ∀ (ls : List Lbl) (t : St) (x : Inst), s2.run p ls = some t → t.insts[i]? = some x →
      (∃ u, (a.out.next, u) ∈ x.out.answered) ∨ t.now ≤ s1.now + toAnswer p a.out.waiting.length := by
    intro ls t x hls hx
    obtain ⟨x', hx', p3, -⟩ := proj_run ls hls ha2
    rw [hx] at hx'; cases hx'
    have hrt : (St.init p n).run p (pre ++ [.out i .arrive] ++ ls) = some t := by
      rw [run_append, hr2]; exact hls
    have gt := good_run _ (good_init p n) hrt i x hx
    rcases C131_answered_in_time p.outT p.send p.thr hT _ _ _ _ _ p1 p2' p3 with ⟨u, hu, -⟩ | hle
    · exact .inl ⟨u, hu⟩
    · rw [g1.outNow, gt.outNow] at hle
      exact .inr (by unfold toAnswer; omega)
  -- it has been answered, so it is in the stream
  obtain ⟨a3, ha3, -, -⟩ := proj_run post h3 ha2
  obtain ⟨u, hu⟩ := (main post s3 a3 h3 ha3).resolve_right hlim
  have g3 := good_run _ (good_init p n) hr3 i a3 ha3
  have hin : (i, a.out.next) ∈ s3.log := by
    have : a.out.next ∈ (s3.log.filter (·.1 = i)).map (·.2) := by
      rw [g3.log]
      exact List.mem_append_left _ (List.mem_map.2 ⟨_, hu, rfl⟩)
    obtain ⟨⟨i', r⟩, hm, hr⟩ := List.mem_map.1 this
    obtain ⟨hm', hi⟩ := List.mem_filter.1 hm
    simp only [decide_eq_true_eq] at hi hr
    subst hi hr; exact hm'
  have hnot : (i, a.out.next) ∉ s2.log := by
    intro hm
    have hs : s2.log = s1.log := by
      obtain ⟨x, -, h⟩ := Option.bind_eq_some_iff.1 h2
      obtain ⟨y, -, rfl⟩ := Option.map_eq_some_iff.1 h
      rfl
    rw [hs] at hm
    have : a.out.next ∈ (s1.log.filter (·.1 = i)).map (·.2) :=
      List.mem_map.2 ⟨_, List.mem_filter.2 ⟨hm, by simp⟩, rfl⟩
    rw [g1.log] at this
    have hmem : a.out.next ∈ List.range a.out.next := by
      rw [← queue_in_order h1 ha]
      rcases List.mem_append.1 this with h | h
      · exact List.mem_append_left _ (List.mem_append_left _ h)
      · exact List.mem_append_left _ (List.mem_append_right _ (List.mem_of_mem_take h))
    simp at hmem
  obtain ⟨ls1, ls2, t, t', x, rfl, q1, q2, q3, hx, hst, hlog⟩ := stored_at post h3 hnot hin
  have hrt : (St.init p n).run p (pre ++ [.out i .arrive] ++ ls1) = some t := by
    rw [run_append, hr2]; exact q1
  -- it was put there in time
  have htime : t.now ≤ s1.now + toAnswer p a.out.waiting.length := by
    refine (main ls1 t x q1 hx).resolve_left ?_
    rintro ⟨v, hv⟩
    have hheld : a.out.next ∈ x.out.held := by
      simp only [Inst.toStore] at hst
      split at hst
      · exact List.mem_of_getElem? hst
      · cases hst
    have hnd : (x.out.answered.map (·.1) ++ x.out.held ++ x.out.waiting).Nodup := by
      rw [queue_in_order hrt hx]; exact List.nodup_range
    exact (List.nodup_append.1 (List.nodup_append.1 hnd).1).2.2 _ (List.mem_map.2 ⟨_, hv, rfl⟩) _ hheld rfl
  have hjt : j < t.insts.length := by rw [insts_len _ hrt]; simpa [St.init] using hj
  have hjx : t.insts[j]? = some t.insts[j] := List.getElem?_eq_getElem hjt
  rcases from_store hN hR hrt q2 hlog q3 hjx (hb ls1 _ _ t _ rfl q1 hjx) with h | ⟨k, y, v, e1, e2, e3, e4⟩
  · exact .inl (by omega)
  · exact .inr ⟨k, y, v, e1, e2, e3, by omega⟩

/-- **C139 (after the answer).** When a client has its answer at `u`, every instance has applied the update by `u` and the time
of C132. -/
theorem C139_visible_after_answer (p : Par) (n : Nat) (hN : 0 < p.max) (hR : p.read < p.inT) (ls : List Lbl) (s : St) (i r u : Nat) (a : Inst)
    (h : (St.init p n).run p ls = some s) (ha : s.insts[i]? = some a) (hu : (r, u) ∈ a.out.answered)
    (j b : Nat) (hj : j < n) (hb : Behind p (St.init p n) ls j b) :
    s.now ≤ u + toApply p b ∨ AppliedBy s i r j (u + toApply p b) := by
  have hlt : i < n := by
    have := (List.getElem?_eq_some_iff.1 ha).1
    rw [insts_len ls h] at this
    simpa [St.init] using this
  have g := good_run ls (good_init p n) h i a ha
  have hin : (i, r) ∈ s.log := by
    have : r ∈ (s.log.filter (·.1 = i)).map (·.2) := by
      rw [g.log]
      exact List.mem_append_left _ (List.mem_map.2 ⟨_, hu, rfl⟩)
    obtain ⟨⟨i', r'⟩, hm, hr⟩ := List.mem_map.1 this
    obtain ⟨hm', hi⟩ := List.mem_filter.1 hm
    simp only [decide_eq_true_eq] at hi hr
    subst hi hr; exact hm'
  obtain ⟨ls1, ls2, t, t', x, rfl, q1, q2, q3, hx, hst, hlog⟩ := stored_at ls h (by simp [St.init]) hin
  have htime : t.now ≤ u := by
    have q : t.run p (.store i :: ls2) = some s := by simp only [St.run, q2, Option.bind_some]; exact q3
    obtain ⟨a', ha', p3, -⟩ := proj_run _ q hx
    rw [ha] at ha'; cases ha'
    have gt := good_run ls1 (good_init p n) q1 i x hx
    rcases (answered_later _ p3).2.2 _ hu with hv | hv
    · exfalso
      have hheld : r ∈ x.out.held := by
        simp only [Inst.toStore] at hst
        split at hst
        · exact List.mem_of_getElem? hst
        · cases hst
      have hnd : (x.out.answered.map (·.1) ++ x.out.held ++ x.out.waiting).Nodup := by
        rw [queue_in_order q1 hx]; exact List.nodup_range
      exact (List.nodup_append.1 (List.nodup_append.1 hnd).1).2.2 _ (List.mem_map.2 ⟨_, hv, rfl⟩) _ hheld rfl
    · rw [gt.outNow] at hv; exact hv
  have hjt : j < t.insts.length := by rw [insts_len _ q1]; simpa [St.init] using hj
  have hjx : t.insts[j]? = some t.insts[j] := List.getElem?_eq_getElem hjt
  rcases from_store hN hR q1 q2 hlog q3 hjx (hb ls1 _ _ t _ rfl q1 hjx) with h | ⟨k, y, v, e1, e2, e3, e4⟩
  · exact .inl (by omega)
  · exact .inr ⟨k, y, v, e1, e2, e3, by omega⟩

/-- **C139 (one stream).** The stream holds each update of each instance once and in order: those that were answered, and the
beginning of the batch that is being sent. -/
theorem C139_one_stream (p : Par) (n : Nat) (ls : List Lbl) (s : St) (i : Nat) (a : Inst) (h : (St.init p n).run p ls = some s)
    (ha : s.insts[i]? = some a) :
    ∃ m, (s.log.filter (·.1 = i)).map (·.2) = List.range m ∧ a.out.answered.length ≤ m ∧
      m ≤ a.out.answered.length + a.out.held.length ∧
      a.inn.applied.map (·.1) <+: List.range s.log.length := by
  have g := good_run ls (good_init p n) h i a ha
  have ho := queue_in_order h ha
  have hlt : i < n := by
    have := (List.getElem?_eq_some_iff.1 ha).1
    rw [insts_len ls h] at this
    simpa [St.init] using this
  refine ⟨a.out.answered.length + a.stored, ?_, by omega, by have := g.bound; omega, ?_⟩
  · rw [g.log]
    have : a.out.answered.map (·.1) ++ a.out.held.take a.stored = (List.range a.out.next).take (a.out.answered.length + a.stored) := by
      rw [← ho, List.append_assoc, List.take_append, List.take_append, List.length_map]
      have hb := g.bound
      have e1 : (a.out.answered.map (·.1)).take (a.out.answered.length + a.stored) = a.out.answered.map (·.1) :=
        List.take_of_length_le (by simp)
      rw [e1, Nat.add_sub_cancel_left, show a.stored - a.out.held.length = 0 by omega, List.take_zero, List.append_nil]
    rw [this, List.take_range, Nat.min_eq_left]
    have hlen := congrArg List.length ho
    simp only [List.length_append, List.length_map, List.length_range] at hlen
    have hb := g.bound
    omega
  · obtain ⟨b, hb, -, h1⟩ := proj_run ls h (init_get hlt)
    rw [ha] at hb; cases hb
    have := C132_in_order _ _ _ _ _ _ h1
    rw [← g.next, ← this, List.append_assoc, List.append_assoc]
    exact List.prefix_append _ _

/-- **C139 (never stuck).** Time, a queue or Redis can always go on, and there are only so many steps while no time passes and no
update comes. -/
theorem C139_never_stuck (p : Par) (n : Nat) (hT : 0 < p.outT) (hN : 0 < p.max) (hT' : 0 < p.inT) (ls : List Lbl) (s : St)
    (h : (St.init p n).run p ls = some s) :
    (∃ l, (∀ i, l ≠ .out i .arrive) ∧ (s.step p l).isSome) ∧
    ∃ m, ∀ own s', s.run p own = some s' → (∀ l ∈ own, Delay.isOwn l = true) → own.length ≤ m := by
  have inv : ∀ ls s, (St.init p n).run p ls = some s → ∀ (i : Nat) (a : Inst), s.insts[i]? = some a → Latency.Inv p.outT p.send p.thr a.out := by
    intro ls s h i a ha
    have hlt : i < n := by
      have := (List.getElem?_eq_some_iff.1 ha).1
      rw [insts_len ls h] at this
      simpa [St.init] using this
    obtain ⟨b, hb, h1, -⟩ := proj_run ls h (init_get hlt)
    rw [ha] at hb; cases hb
    exact Latency.inv_run _ (Latency.inv_init ..) h1
  constructor
  · by_cases hall : ∀ a ∈ s.insts, (a.tick p).isSome
    · refine ⟨.tick, fun i => by simp, ?_⟩
      simp only [St.step, Option.isSome_map]
      exact tickAll_some hall
    · obtain ⟨a, hm, hno⟩ : ∃ a ∈ s.insts, a.tick p = none := by
        simp only [not_forall, Option.not_isSome_iff_eq_none] at hall
        obtain ⟨a, h1, h2⟩ := hall
        exact ⟨a, h1, h2⟩
      obtain ⟨i, hi, hia⟩ := List.mem_iff_getElem.1 hm
      have ha : s.insts[i]? = some a := by rw [← hia]; exact List.getElem?_eq_getElem hi
      have hlt : i < n := by rw [insts_len ls h] at hi; simpa [St.init] using hi
      obtain ⟨b, hb, h1, h2⟩ := proj_run ls h (init_get hlt)
      rw [ha] at hb; cases hb
      have g := good_run ls (good_init p n) h i a ha
      obtain ⟨⟨lo, hlo, hso⟩, -⟩ := C131_never_stuck _ _ _ hT _ _ h1
      obtain ⟨⟨li, hli, hsi⟩, -⟩ := C132_never_stuck _ _ _ _ hN hT' _ _ h2
      have hout : lo ≠ .tick → ∃ l, (∀ i, l ≠ .out i .arrive) ∧ (s.step p l).isSome := by
        intro hne
        obtain ⟨o, ho⟩ := Option.isSome_iff_exists.1 hso
        by_cases hd : lo = .done
        · subst hd
          by_cases hst : a.stored = a.out.held.length
          · refine ⟨.out i .done, by simp, ?_⟩
            simp [St.step, ha, Inst.outStep, hst, Par.outStep, ho]
          · refine ⟨.store i, by simp, ?_⟩
            have hb := g.bound
            have hm : ∃ c, a.out.mode = .sending c := by
              cases hm : a.out.mode with
              | sending c => exact ⟨c, rfl⟩
              | collect d => simp [Latency.St.step, hm] at ho
            obtain ⟨c, hc⟩ := hm
            simp only [St.step, ha, Option.bind_some, Inst.toStore, hc, Option.isSome_map]
            rw [List.getElem?_eq_getElem (by omega)]
            rfl
        · refine ⟨.out i lo, fun k => by simp [hlo], ?_⟩
          cases lo with
          | arrive => exact absurd rfl hlo
          | tick => exact absurd rfl hne
          | done => exact absurd rfl hd
          | take => simp [St.step, ha, Inst.outStep, Par.outStep, ho]
          | fire => simp [St.step, ha, Inst.outStep, Par.outStep, ho]
      have hinn : li ≠ .tick → ∃ l, (∀ i, l ≠ .out i .arrive) ∧ (s.step p l).isSome := by
        intro hne
        obtain ⟨o, ho⟩ := Option.isSome_iff_exists.1 hsi
        refine ⟨.inn i li, by simp, ?_⟩
        cases li with
        | arrive => exact absurd rfl hli
        | tick => exact absurd rfl hne
        | _ => simp [St.step, ha, Inst.innStep, Par.innStep, ho]
      by_cases h5 : lo = .tick
      · by_cases h6 : li = .tick
        · subst h5 h6
          obtain ⟨o, ho⟩ := Option.isSome_iff_exists.1 hso
          obtain ⟨q, hq⟩ := Option.isSome_iff_exists.1 hsi
          simp [Inst.tick, Par.outStep, Par.innStep, ho, hq] at hno
        · exact hinn h6
      · exact hout h5
  · refine ⟨(s.insts.map (left s.insts.length)).sum, ?_⟩
    have gen : ∀ (own : List Lbl) (ls : List Lbl) (s s' : St), (St.init p n).run p ls = some s → s.run p own = some s' →
        (∀ l ∈ own, Delay.isOwn l = true) → own.length ≤ (s.insts.map (left s.insts.length)).sum := by
      intro own
      induction own with
      | nil => intro ls s s' _ _ _; exact Nat.zero_le _
      | cons l own ih =>
        intro ls s s' hs hr ho
        obtain ⟨t, ht, hr⟩ := Option.bind_eq_some_iff.1 hr
        have hst : (St.init p n).run p (ls ++ [l]) = some t := by
          rw [run_append, hs]; simp only [Option.bind_some, St.run, ht]
        have h1 := ih _ t s' hst hr fun x hx => ho x (List.mem_cons_of_mem _ hx)
        have h2 := left_step hT hT' (good_run ls (good_init p n) hs) (inv ls s hs) (ho l (List.mem_cons_self ..)) ht
        simp only [List.length_cons]
        omega
    intro own s' hr ho
    exact gen own ls s s' h hr ho

/-- Two instances (waits of 2 and 4 ticks; batches, reads and cycles of at most one; batches of 3, reads of 1): both have an update,
they are stored in turn, and each instance applies both, the last one just in time. -/
example : ∃ ls s, (St.init ⟨2, 1, 3, 4, 1, 1, 1⟩ 2).run ⟨2, 1, 3, 4, 1, 1, 1⟩ ls = some s ∧ s.log = [(1, 0), (0, 0)] ∧
    s.insts.map (·.out.answered) = [[(0, 2)], [(0, 3)]] ∧ s.insts.map (·.inn.applied) = [[(0, 4), (1, 9)], [(0, 4), (1, 9)]] :=
  ⟨[.out 0 .arrive, .out 0 .take, .out 1 .arrive, .out 1 .take, .tick, .tick, .out 0 .fire, .out 1 .fire, .store 1, .store 0,
    .inn 0 .read, .inn 0 .push, .inn 1 .read, .inn 1 .push, .out 0 .done, .inn 0 .read, .inn 1 .read, .tick, .out 1 .done, .tick,
    .inn 0 .wake, .inn 0 .take, .inn 0 .empty, .inn 0 .slept, .inn 0 .push, .inn 1 .wake, .inn 1 .take, .inn 1 .empty, .inn 1 .slept, .inn 1 .push,
    .out 0 .fire, .tick, .out 1 .fire, .tick, .out 0 .fire, .tick, .out 1 .fire, .tick,
    .out 0 .fire, .inn 0 .wake, .inn 1 .wake, .tick, .inn 0 .take, .inn 1 .take], _, rfl, by decide, by decide, by decide⟩

/-- The default settings (config.go:99-102), if batches take at most 20 ms, reads 100 ms and cycles 200 ms: an activated ticket is in
the pools of every instance that is less than 10000 updates behind within 2.54 seconds, 2 seconds after the answer. -/
example : toAnswer ⟨500, 20, 50, 1500, 100, 200, 10000⟩ 0 = 540 ∧ toApply ⟨500, 20, 50, 1500, 100, 200, 10000⟩ 9999 = 2000 := by decide

end OM.Props
