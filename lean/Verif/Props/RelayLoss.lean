import Verif.Props.RelayExact
/-! # Property C45, exactly: when the last match can be lost -/
namespace OM.Props
open OM.Spec OM.Relay

/-! ## A call with an empty match does not return -/

/-- A goroutine without ids has not got past its cache check. -/
private def NotPastCheck (wait : Bool) (s : St) : Prop :=
  ∀ g ∈ s.gos, g.ids = [] → g.pc ≠ .done ∧ (wait = true → g.pc ≠ .send)

private theorem notPastCheck_step {wait : Bool} {fs : List Mmf} {s s' : St} {l : Label} (h : NotPastCheck wait s)
    (hs : step wait fs s l = some s') : NotPastCheck wait s' := by
  unfold step at hs
  split at hs
  · cases hs
  cases l with
  | recv i ord =>
    simp only [recvStep] at hs
    split at hs <;> try cases hs
    split at hs <;> try cases hs
    split at hs
    · split at hs <;> cases hs
      intro g hg hids
      simp only [List.mem_append, List.mem_singleton] at hg
      rcases hg with hg | rfl
      · exact h g hg hids
      · simp
    · split at hs <;> cases hs <;> exact h
  | tdDone i =>
    simp only at hs
    split at hs <;> try cases hs
    split at hs <;> cases hs
    exact h
  | go j seen =>
    simp only at hs
    split at hs <;> try cases hs
    rename_i g hj
    split at hs <;> cases hs
    · exact h
    · rename_i g' q hgo
      intro x hx hids
      rcases mem_set hx with rfl | hx
      · have e := (goStep_step hgo).2.2.2.1
        have hg := h g (List.mem_of_getElem? hj) (e ▸ hids)
        rw [e] at hids
        unfold goStep at hgo
        split at hgo
        · split at hgo <;> cases hgo <;> simp
        · split at hgo <;> cases hgo
          · simp
          · cases wait <;> simp
        · rw [hids] at hgo; simp at hgo
        · split at hgo <;> cases hgo
        · rw [hids] at hgo; simp at hgo
        · cases hgo
      · exact h x hx hids
  | hand j =>
    simp only at hs
    split at hs <;> try cases hs
    rename_i g hj
    split at hs <;> cases hs
    rename_i hc
    intro x hx hids
    rcases mem_set hx with rfl | hx
    · have hg := h g (List.mem_of_getElem? hj) hids
      cases wait with
      | true => exact absurd hc.1 (hg.2 rfl)
      | false => simp
    · exact h x hx hids
  | fanEnd =>
    simp only at hs
    split at hs <;> cases hs
    exact h
  | mainClose => simp only at hs; split at hs <;> cases hs; exact h
  | fanClose => simp only at hs; split at hs <;> cases hs; exact h
  | mainReturn => simp only at hs; split at hs <;> cases hs; exact h

/-! ## The others go on, leaving failed MMFs' goroutines alone -/

/-- MMF `i` can be invoked and its stream ends normally. -/
private def Good (fs : List Mmf) (i : Nat) : Prop := ∃ f, fs[i]? = some f ∧ f.starts = true ∧ f.eof = true

/-- A match of a normally ending MMF is not yet sent off: not received, held by a goroutine, or
inside `stream.Send`. -/
private def Pending (fs : List Mmf) (s : St) : Prop :=
  (∃ (i : Nat) (f : Mmf) (ms : MmfSt), fs[i]? = some f ∧ f.starts = true ∧ f.eof = true ∧ s.mmfs[i]? = some ms ∧ ms.next < f.results.length) ∨
  (∃ (j : Nat) (g : Goro), s.gos[j]? = some g ∧ Good fs g.mmf ∧ g.pc.past = false) ∨
  (∃ j m, s.fan = Fan.busy j m)

private structure Going (fs : List Mmf) (s : St) : Prop where
  ok : s.crashed = false
  main : s.main = .waiting
  past : ∀ g ∈ s.gos, g.pc.past = true → Good fs g.mmf
  pending : Pending fs s

private theorem going_go {fs : List Mmf} {s : St} (h : Going fs s) {j : Nat} {g g' : Goro} {q : Option QEv}
    (hj : s.gos[j]? = some g) (hm : g'.mmf = g.mmf) (hp : g'.pc.past = g.pc.past) :
    Going fs { s with gos := s.gos.set j g', log := s.log ++ q.toList } := by
  refine ⟨h.ok, h.main, ?_, ?_⟩
  · intro x hx hpx
    rcases mem_set hx with rfl | hx
    · rw [hm]; exact h.past g (List.mem_of_getElem? hj) (hp ▸ hpx)
    · exact h.past x hx hpx
  · rcases h.pending with hp' | ⟨k, x, hk, hg, hx⟩ | hp'
    · exact .inl hp'
    · refine .inr (.inl ?_)
      by_cases hkj : j = k
      · subst hkj
        rw [hj] at hk; injection hk with hk; subst hk
        exact ⟨j, g', List.getElem?_set_self (List.getElem?_eq_some_iff.1 hj).1, hm ▸ hg, hp ▸ hx⟩
      · exact ⟨k, x, by simp only [List.getElem?_set_ne hkj]; exact hk, hg, hx⟩
    · exact .inr (.inr hp')

/-- While an MMF goroutine has not ended, a step leads to such a state again. -/
private theorem going_step {wait : Bool} {fs : List Mmf} {s : St} (h : Inv fs s) (hg : Going fs s)
    (hm : ∀ m ∈ finished fs, ∃ t, InMatch t m) {ms : MmfSt} (hms : ms ∈ s.mmfs) (hph : ms.phase ≠ .done) :
    ∃ l s', step wait fs s l = some s' ∧ Going fs s' := by
  obtain ⟨i, hi⟩ := List.mem_iff_getElem?.1 hms
  have hlt : i < fs.length := by rw [← h.len]; exact (List.getElem?_eq_some_iff.1 hi).1
  have hf : fs[i]? = some fs[i] := List.getElem?_eq_getElem hlt
  have hst : fs[i].starts = true := by
    cases hs : fs[i].starts with
    | true => rfl
    | false => exact absurd (by rw [(h.phases i ms _ hi hf).2.1 hs]) hph
  have hc := hg.ok
  -- an MMF's position changes, `next` does not
  have keep : ∀ p c, Going fs { s with mmfs := s.mmfs.set i ⟨ms.next, p⟩, counter := c } := by
    intro p c
    refine ⟨hg.ok, hg.main, hg.past, ?_⟩
    rcases hg.pending with ⟨k, f, x, a, b, d, e, hx⟩ | hp | hp
    · by_cases hk : i = k
      · subst hk
        rw [hi] at e; injection e with e; subst e
        exact .inl ⟨i, f, ⟨ms.next, p⟩, a, b, d, List.getElem?_set_self (List.getElem?_eq_some_iff.1 hi).1, hx⟩
      · exact .inl ⟨k, f, x, a, b, d, by simp only [List.getElem?_set_ne hk]; exact e, hx⟩
    · exact .inr (.inl hp)
    · exact .inr (.inr hp)
  cases hp : ms.phase with
  | done => exact absurd hp hph
  | recv =>
    cases hr : (fs[i]).results[ms.next]? with
    | some m =>
      refine ⟨.recv i (rostersOf m), { s with mmfs := s.mmfs.set i ⟨ms.next + 1, .recv⟩
                                              gos := s.gos ++ [⟨i, ms.next, m, collectIds (rostersOf m), .submit 0, none⟩] },
        by simp only [step, hc, recvStep, hf, hi, hp, hr]; simp, hg.ok, hg.main, ?_, ?_⟩
      · intro g hgm hpast
        simp only [List.mem_append, List.mem_singleton] at hgm
        rcases hgm with hgm | rfl
        · exact hg.past g hgm hpast
        · cases hpast
      · cases he : (fs[i]).eof with
        | true =>
          refine .inr (.inl ⟨s.gos.length, ⟨i, ms.next, m, collectIds (rostersOf m), .submit 0, none⟩, ?_, ⟨_, hf, hst, he⟩, rfl⟩)
          simp
        | false =>
          rcases hg.pending with ⟨k, f, x, a, b, d, e, hx⟩ | ⟨k, g, hk, hgg, hx⟩ | hpd
          · refine .inl ⟨k, f, x, a, b, d, ?_, hx⟩
            have hki : i ≠ k := by
              rintro rfl
              rw [hf] at a; injection a with a; rw [← a, he] at d; cases d
            simp only [List.getElem?_set_ne hki]; exact e
          · refine .inr (.inl ⟨k, g, ?_, hgg, hx⟩)
            simp only [List.getElem?_append_left (List.getElem?_eq_some_iff.1 hk).1]; exact hk
          · exact .inr (.inr hpd)
    | none =>
      cases he : (fs[i]).eof with
      | true =>
        exact ⟨.recv i [], { s with mmfs := s.mmfs.set i ⟨ms.next, .wait⟩, counter := s.counter + (ms.next + 1) },
          by simp only [step, hc, recvStep, hf, hi, hp, hr, he]; simp, keep _ _⟩
      | false =>
        exact ⟨.recv i [], { s with mmfs := s.mmfs.set i ⟨ms.next, .done⟩ },
          by simp only [step, hc, recvStep, hf, hi, hp, hr, he]; simp, keep _ s.counter⟩
  | wait =>
    by_cases hd : ∀ g ∈ s.gos, g.mmf = i → g.pc = .done
    · exact ⟨.tdDone i, { s with mmfs := s.mmfs.set i ⟨ms.next, .done⟩ },
        by simp only [step, hc, hi]; simp [hp]; exact hd, keep _ s.counter⟩
    · push Not at hd
      obtain ⟨g, hgm, hgi, hpc⟩ := hd
      obtain ⟨j, hj⟩ := List.mem_iff_getElem?.1 hgm
      have hjl := (List.getElem?_eq_some_iff.1 hj).1
      have heof : fs[i].eof = true := ((h.phases i ms _ hi hf).2.2.1 hp).1
      have hgood : Good fs g.mmf := by rw [hgi]; exact ⟨_, hf, hst, heof⟩
      have hids : g.ids.length ≠ 0 := by
        obtain ⟨f, ms', a, -, c, -, -, ord, hperm, hid⟩ := h.origin g hgm
        rw [hgi, hf] at a; injection a with a; subst a
        obtain ⟨t, x, hx, e, he, ht⟩ := hm g.m (by
          unfold finished
          refine List.mem_flatMap.2 ⟨fs[i], ?_, List.mem_of_getElem? c⟩
          rw [List.mem_filter]
          exact ⟨List.getElem_mem hlt, by simp [hst, heof]⟩)
        have hro : e ∈ ord := hperm.mem_iff.2 (by rw [hx]; exact he)
        have : t.id ∈ g.ids := by
          rw [hid]
          exact List.mem_flatMap.2 ⟨e, hro, List.mem_map.2 ⟨t, ht, rfl⟩⟩
        intro h0
        rw [List.length_eq_zero_iff] at h0
        rw [h0] at this; cases this
      have go : ∀ g' q, goStep wait s.fan true j g = .step g' q → ∃ l s', step wait fs s l = some s' ∧ Going fs s' := by
        intro g' q hgo
        obtain ⟨e1, -, -, -, -, e2, -⟩ := goStep_step hgo
        exact ⟨.go j true, _, by simp only [step, hc, hj, hgo]; rfl, going_go (q := q) hg hj e1 e2⟩
      cases hpc' : g.pc with
      | done => exact absurd hpc' hpc
      | submit k =>
        cases hk : g.ids[k]? with
        | some id => exact go _ _ (by unfold goStep; simp only [hpc', hk]; rfl)
        | none => exact go _ _ (by unfold goStep; simp only [hpc', hk]; rfl)
      | await k =>
        by_cases hk : k < g.ids.length
        · exact go _ _ (by unfold goStep; simp only [hpc', if_pos hk]; rfl)
        · exact go _ _ (by unfold goStep; simp only [hpc', if_neg hk]; rfl)
      | checkBefore => exact go _ _ (by unfold goStep; simp only [hpc', if_neg hids]; rfl)
      | checkAfter => exact go _ _ (by unfold goStep; simp only [hpc', if_neg hids]; rfl)
      | send =>
        cases hfan : s.fan with
        | closed => exact absurd hg.main (h.fan hfan)
        | busy j' m' =>
          exact ⟨.fanEnd, { s with fan := .idle, out := s.out ++ [m'], sent := s.sent ++ [j'] },
            by simp only [step, hc, hfan]; simp, hg.ok, hg.main, hg.past, .inr (.inl ⟨j, g, hj, hgood, by rw [hpc']; rfl⟩)⟩
        | idle =>
          refine ⟨.hand j, { s with gos := s.gos.set j { g with pc := if wait then .done else .checkAfter }, fan := .busy j g.m },
            by simp only [step, hc, hj]; simp [hpc', hfan], hg.ok, hg.main, ?_, .inr (.inr ⟨j, g.m, rfl⟩)⟩
          intro x hx hpx
          rcases mem_set hx with rfl | hx
          · exact hgood
          · exact hg.past x hx hpx

/-- Until all MMF goroutines have ended. -/
private theorem going_on {wait : Bool} {fs : List Mmf} (hm : ∀ m ∈ finished fs, ∃ t, InMatch t m) :
    ∀ (n : Nat) {s : St}, left fs s = n → Inv fs s → Going fs s →
      ∃ ls s', run wait fs s ls = some s' ∧ Inv fs s' ∧ Going fs s' ∧ ∀ ms ∈ s'.mmfs, ms.phase = .done := by
  intro n
  induction n using Nat.strongRecOn with
  | ind n ih =>
    intro s hn h hg
    by_cases hall : ∀ ms ∈ s.mmfs, ms.phase = .done
    · exact ⟨[], s, rfl, h, hg, hall⟩
    · push Not at hall
      obtain ⟨ms, hms, hph⟩ := hall
      obtain ⟨l, s1, hs, hg1⟩ := going_step (wait := wait) h hg hm hms hph
      obtain ⟨ls, s', r, a, b, c⟩ := ih _ (by have := left_step h hs; omega) rfl (inv_step h hs) hg1
      exact ⟨l :: ls, s', by simp [run, hs, r], a, b, c⟩

private theorem run_append (wait : Bool) (fs : List Mmf) (s : St) (a b : List Label) :
    run wait fs s (a ++ b) = (run wait fs s a).bind fun s' => run wait fs s' b := by
  induction a generalizing s with
  | nil => rfl
  | cons l a ih =>
    simp only [List.cons_append, run]
    cases step wait fs s l with
    | none => rfl
    | some s1 => exact ih s1

/-- **C45 (exactly).** The handler can return before a match of a normally ending MMF has reached the
matchmaker exactly when there is such a match and none is without tickets (else the handler
never returns): with either setting, no request is safe from the loss. -/
theorem C45_loss_exactly (wait : Bool) (fs : List Mmf) :
    (∃ ls s, run wait fs (init fs) ls = some s ∧ s.main = .returned ∧ ¬ (finished fs).Subperm s.out) ↔
      finished fs ≠ [] ∧ ∀ m ∈ finished fs, ∃ t, InMatch t m := by
  constructor
  · rintro ⟨ls, s, hr, hm, hno⟩
    refine ⟨fun h0 => hno (by rw [h0]; exact List.nil_subperm), ?_⟩
    intro m hmem
    by_contra hempty
    have h := inv_run (inv_init fs) hr
    have hnp : NotPastCheck wait s :=
      run_induct (P := NotPastCheck wait) (fun s l s' _ hp hs => notPastCheck_step hp hs) (inv_init fs)
        (by intro g hg; simp [init] at hg) hr
    obtain ⟨f, hf, hmf⟩ := List.mem_flatMap.1 hmem
    obtain ⟨hff, hfe⟩ := List.mem_filter.1 hf
    simp only [Bool.and_eq_true] at hfe
    obtain ⟨i, hi⟩ := List.mem_iff_getElem?.1 hff
    obtain ⟨k, hk⟩ := List.mem_iff_getElem?.1 hmf
    have hlt : i < s.mmfs.length := by rw [h.len]; exact (List.getElem?_eq_some_iff.1 hi).1
    have hms := List.getElem?_eq_getElem hlt
    have hd := h.main (by rw [hm]; simp) _ (List.getElem_mem hlt)
    obtain ⟨e1, e2⟩ := (h.phases i _ f hms hi).2.2.2 hd hfe.1
    have hcm := h.complete i _ hms k (by rw [e1]; exact (List.getElem?_eq_some_iff.1 hk).1)
    obtain ⟨g, hg, hgk⟩ := List.mem_map.1 hcm
    simp only [Goro.key, Prod.mk.injEq] at hgk
    have hpc := e2 hfe.2 g hg hgk.1
    obtain ⟨f', ms', a, -, c, -, -, ord, hperm, hid⟩ := h.origin g hg
    rw [hgk.1, hi] at a; injection a with a; subst a
    rw [hgk.2, hk] at c; injection c with c
    refine (hnp g hg ?_).1 hpc
    rw [hid]
    unfold collectIds
    rw [List.flatMap_eq_nil_iff]
    intro e he
    have he' := hperm.mem_iff.1 he
    cases ht : e.2.tickets with
    | nil => rfl
    | cons t ts =>
      refine absurd ⟨t, ?_⟩ hempty
      rw [c]
      cases hgm : g.m with
      | none => rw [hgm] at he'; cases he'
      | some x => rw [hgm] at he'; exact ⟨x, rfl, e, he', by rw [ht]; simp⟩
  · rintro ⟨hne, hm⟩
    have hpend : Pending fs (init fs) := by
      obtain ⟨m, hmem⟩ := List.exists_mem_of_ne_nil _ hne
      obtain ⟨f, hf, hmf⟩ := List.mem_flatMap.1 hmem
      obtain ⟨hff, hfe⟩ := List.mem_filter.1 hf
      simp only [Bool.and_eq_true] at hfe
      obtain ⟨i, hi⟩ := List.mem_iff_getElem?.1 hff
      exact .inl ⟨i, f, ⟨0, .recv⟩, hi, hfe.1, hfe.2, by simp [init, hi, hfe.1], List.length_pos_of_mem hmf⟩
    obtain ⟨ls, s, r, h, hg, hall⟩ := going_on (wait := wait) hm _ rfl (inv_init fs)
      ⟨rfl, rfl, by intro g hg; simp [init] at hg, hpend⟩
    have hbusy : ∃ j m, s.fan = .busy j m := by
      rcases hg.pending with ⟨i, f, ms, a, b, c, d, hlt⟩ | ⟨j, g, hj, ⟨f, hf, hst, he⟩, hpast⟩ | hb
      · have := (h.phases i ms f d a).2.2.2 (hall ms (List.mem_of_getElem? d)) b
        omega
      · have hil : g.mmf < s.mmfs.length := by rw [h.len]; exact (List.getElem?_eq_some_iff.1 hf).1
        have hms := List.getElem?_eq_getElem hil
        have := ((h.phases g.mmf _ f hms hf).2.2.2 (hall _ (List.getElem_mem hil)) hst).2 he g (List.mem_of_getElem? hj) rfl
        rw [this] at hpast; cases hpast
      · exact hb
    obtain ⟨j, m, hfan⟩ := hbusy
    refine ⟨ls ++ [.mainClose, .mainReturn], { s with main := .returned }, ?_, rfl, ?_⟩
    · rw [run_append, r, Option.bind_some]
      have h1 : step wait fs s .mainClose = some { s with main := .closing } := by
        simp only [step, hg.ok, hg.main]; simp; exact hall
      simp only [run, h1, Option.bind_some]
      simp [step, hg.ok]
    · intro hsub
      have hsub := hsub.length_le
      have hkeys : (handedKeys s).length ≤ (allKeys (fun f => f.starts && f.eof) fs).length := by
        refine (List.subperm_of_subset (handedKeys_nodup h) ?_).length_le
        intro x hx
        obtain ⟨k, hk1, hk2⟩ := List.mem_filterMap.1 hx
        rw [List.getElem?_map, Option.map_eq_some_iff] at hk2
        obtain ⟨g, hgk, rfl⟩ := hk2
        obtain ⟨g', hg', hpast⟩ := (h.sentPast k).1 hk1
        rw [hgk] at hg'; injection hg' with hg'; subst hg'
        obtain ⟨f, hf, hst, he⟩ := hg.past g (List.mem_of_getElem? hgk) hpast
        obtain ⟨f', ms', a, -, c, -⟩ := h.origin g (List.mem_of_getElem? hgk)
        rw [hf] at a; injection a with a; subst a
        exact mem_allKeys.2 ⟨f, hf, by simp [hst, he], (List.getElem?_eq_some_iff.1 c).1⟩
      have e1 := congrArg List.length (handedKeys_lookup h)
      have e2 := congrArg List.length (allKeys_lookup (fun f => f.starts && f.eof) fs)
      simp only [List.length_map] at e1 e2
      have e3 : (handed s).length = s.out.length + 1 := by simp [handed, hfan]
      unfold finished at hsub
      simp only at hsub
      omega

/-- Two MMFs, one of which fails: a match of the other can be lost. -/
example : finished [⟨true, [duel "m1" "1-1" "2-1"], true⟩, ⟨true, [duel "m2" "1-1" "3-1"], false⟩] ≠ [] ∧
    ∀ m ∈ finished [⟨true, [duel "m1" "1-1" "2-1"], true⟩, ⟨true, [duel "m2" "1-1" "3-1"], false⟩], ∃ t, InMatch t m := by
  refine ⟨by simp [finished], ?_⟩
  intro m hm
  have : m = duel "m1" "1-1" "2-1" := by simpa [finished] using hm
  subst this
  exact ⟨_, duel_red _ _ _⟩

end OM.Props
