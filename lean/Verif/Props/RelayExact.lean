import Verif.Props.Relay
/-! # Property C46, exactly: what makes om-core panic while it relays matches -/
namespace OM.Props
open OM.Spec OM.Relay

/-- The panic is reachable from `s`. -/
def CanCrash (wait : Bool) (fs : List Mmf) (s : St) : Prop := ∃ ls s', run wait fs s ls = some s' ∧ s'.crashed = true

private theorem canCrash_step {wait : Bool} {fs : List Mmf} {s s' : St} {l : Label} (hs : step wait fs s l = some s')
    (h : CanCrash wait fs s') : CanCrash wait fs s := by
  obtain ⟨ls, x, h1, h2⟩ := h
  exact ⟨l :: ls, x, by simp [run, hs, h1], h2⟩

private theorem canCrash_now {wait : Bool} {fs : List Mmf} {s : St} (h : s.crashed = true) : CanCrash wait fs s := ⟨[], s, rfl, h⟩

/-! ## A stream that fails after a match -/

/-- The others can go on until all MMF goroutines have ended, without goroutine `j` moving,
when the MMF it serves failed. -/
private theorem others_go_on {wait : Bool} {fs : List Mmf} {s : St} (h : Inv fs s) (hc : s.crashed = false)
    (hw : s.main = .waiting) {j0 : Nat} {g0 : Goro} (hj0 : s.gos[j0]? = some g0) {f0 : Mmf} (hf0 : fs[g0.mmf]? = some f0)
    (he0 : f0.eof = false) {ms : MmfSt} (hms : ms ∈ s.mmfs) (hph : ms.phase ≠ .done) :
    ∃ l s', step wait fs s l = some s' ∧ s'.gos[j0]? = some g0 ∧ (s'.crashed = false → s'.main = .waiting) := by
  obtain ⟨i, hi⟩ := List.mem_iff_getElem?.1 hms
  have hlt : i < fs.length := by rw [← h.len]; exact (List.getElem?_eq_some_iff.1 hi).1
  have hf : fs[i]? = some fs[i] := List.getElem?_eq_getElem hlt
  have hj0l := (List.getElem?_eq_some_iff.1 hj0).1
  cases hp : ms.phase with
  | done => exact absurd hp hph
  | recv =>
    cases hr : (fs[i]).results[ms.next]? with
    | some m =>
      refine ⟨.recv i (rostersOf m), { s with mmfs := s.mmfs.set i ⟨ms.next + 1, .recv⟩
                                              gos := s.gos ++ [⟨i, ms.next, m, collectIds (rostersOf m), .submit 0, none⟩] },
        by simp only [step, hc, recvStep, hf, hi, hp, hr]; simp, ?_, fun _ => hw⟩
      simp only [List.getElem?_append_left hj0l]; exact hj0
    | none =>
      cases he : (fs[i]).eof with
      | true =>
        exact ⟨.recv i [], { s with mmfs := s.mmfs.set i ⟨ms.next, .wait⟩, counter := s.counter + (ms.next + 1) },
          by simp only [step, hc, recvStep, hf, hi, hp, hr, he]; simp, hj0, fun _ => hw⟩
      | false =>
        exact ⟨.recv i [], { s with mmfs := s.mmfs.set i ⟨ms.next, .done⟩ },
          by simp only [step, hc, recvStep, hf, hi, hp, hr, he]; simp, hj0, fun _ => hw⟩
  | wait =>
    by_cases hd : ∀ g ∈ s.gos, g.mmf = i → g.pc = .done
    · exact ⟨.tdDone i, { s with mmfs := s.mmfs.set i ⟨ms.next, .done⟩ }, by simp only [step, hc, hi]; simp [hp]; exact hd, hj0,
        fun _ => hw⟩
    · push Not at hd
      obtain ⟨g, hg, hgi, hpc⟩ := hd
      obtain ⟨j, hj⟩ := List.mem_iff_getElem?.1 hg
      have hne : j ≠ j0 := by
        rintro rfl
        rw [hj0] at hj; injection hj with hj; subst hj
        have h1 := ((h.phases i ms fs[i] hi hf).2.2.1 hp).1
        rw [hgi, hf] at hf0; injection hf0 with hf0
        rw [← hf0, h1] at he0; cases he0
      have hset : ∀ g', (s.gos.set j g')[j0]? = some g0 := fun g' => by rw [List.getElem?_set_ne hne]; exact hj0
      have go : goStep wait s.fan true j g ≠ .blocked →
          ∃ l s', step wait fs s l = some s' ∧ s'.gos[j0]? = some g0 ∧ (s'.crashed = false → s'.main = .waiting) := by
        intro hb
        refine ⟨.go j true, ?_⟩
        simp only [step, hc, hj]
        cases hgs : goStep wait s.fan true j g with
        | blocked => exact absurd hgs hb
        | crash => exact ⟨{ s with crashed := true }, by simp, hj0, fun _ => hw⟩
        | step g' q => exact ⟨{ s with gos := s.gos.set j g', log := s.log ++ q.toList }, by simp [hc], hset g', fun _ => hw⟩
      cases hpc' : g.pc with
      | done => exact absurd hpc' hpc
      | submit k => apply go; unfold goStep; simp only [hpc']; split <;> simp
      | await k => apply go; unfold goStep; simp only [hpc']; split <;> simp
      | checkBefore => apply go; unfold goStep; simp only [hpc']; split <;> simp
      | checkAfter => apply go; unfold goStep; simp only [hpc']; split <;> simp
      | send =>
        cases hfan : s.fan with
        | closed => exact absurd hw (h.fan hfan)
        | busy j' m' =>
          exact ⟨.fanEnd, { s with fan := .idle, out := s.out ++ [m'], sent := s.sent ++ [j'] },
            by simp only [step, hc, hfan]; simp, hj0, fun _ => hw⟩
        | idle =>
          exact ⟨.hand j, { s with gos := s.gos.set j { g with pc := if wait then .done else .checkAfter }, fan := .busy j g.m },
            by simp only [step, hc, hj]; simp [hpc', hfan], hset _, fun _ => hw⟩

/-- With `matchChan` closed, a goroutine that has not sent its match panics. -/
private theorem crash_when_closed {wait : Bool} {fs : List Mmf} : ∀ (n : Nat) {s : St}, left fs s = n → Inv fs s →
    s.fan = .closed → ∀ {j : Nat} {g : Goro}, s.gos[j]? = some g → g.pc.past = false → CanCrash wait fs s := by
  intro n
  induction n using Nat.strongRecOn with
  | ind n ih =>
    intro s hn h hf j g hj hp
    by_cases hc : s.crashed = true
    · exact canCrash_now hc
    have hc : s.crashed = false := by simpa using hc
    have hlt := (List.getElem?_eq_some_iff.1 hj).1
    have next : ∀ g' q, goStep wait s.fan true j g = .step g' q → g'.pc.past = false → CanCrash wait fs s := by
      intro g' q hgo hp'
      have hs : step wait fs s (.go j true) = some { s with gos := s.gos.set j g', log := s.log ++ q.toList } := by
        simp only [step, hc, hj, hgo]; simp
      refine canCrash_step hs (ih _ (by have := left_step h hs; omega) rfl (inv_step h hs) hf (j := j) (g := g') ?_ hp')
      exact List.getElem?_set_self hlt
    have boom : goStep wait s.fan true j g = .crash → CanCrash wait fs s := by
      intro hgo
      have hs : step wait fs s (.go j true) = some { s with crashed := true } := by
        simp only [step, hc, hj, hgo]; simp
      exact canCrash_step hs (canCrash_now rfl)
    cases hpc : g.pc with
    | submit k =>
      cases hk : g.ids[k]? with
      | some id => exact next _ _ (by unfold goStep; simp only [hpc, hk]; rfl) rfl
      | none => exact next _ _ (by unfold goStep; simp only [hpc, hk]; rfl) rfl
    | await k =>
      by_cases hk : k < g.ids.length
      · exact next _ _ (by unfold goStep; simp only [hpc, if_pos hk]; rfl) rfl
      · refine next _ _ (by unfold goStep; simp only [hpc, if_neg hk]; rfl) ?_
        cases wait <;> rfl
    | checkBefore =>
      by_cases hk : g.ids.length = 0
      · exact boom (by unfold goStep; simp only [hpc, if_pos hk])
      · exact next _ _ (by unfold goStep; simp only [hpc, if_neg hk]; rfl) rfl
    | send => exact boom (by unfold goStep; simp only [hpc, if_pos hf])
    | checkAfter => rw [hpc] at hp; cases hp
    | done => rw [hpc] at hp; cases hp

private theorem failing_crashes {wait : Bool} {fs : List Mmf} : ∀ (n : Nat) {s : St}, left fs s = n → Inv fs s →
    s.main = .waiting → ∀ {j : Nat} {g : Goro} {f : Mmf}, s.gos[j]? = some g → fs[g.mmf]? = some f → f.eof = false →
    g.pc.past = false → CanCrash wait fs s := by
  intro n
  induction n using Nat.strongRecOn with
  | ind n ih =>
    intro s hn h hw j g f hj hf he hp
    by_cases hc : s.crashed = true
    · exact canCrash_now hc
    have hc : s.crashed = false := by simpa using hc
    by_cases hall : ∀ ms ∈ s.mmfs, ms.phase = .done
    · have hs : step wait fs s .mainClose = some { s with main := .closing } := by
        simp only [step, hc, hw]; simp; exact hall
      refine canCrash_step hs ?_
      have h1 := inv_step h hs
      have close : ∀ s1 : St, Inv fs s1 → s1.crashed = false → s1.main = .closing → s1.fan = .idle → s1.gos[j]? = some g →
          CanCrash wait fs s1 := by
        intro s1 i1 c1 m1 f1 g1
        have hs2 : step wait fs s1 .fanClose = some { s1 with fan := .closed } := by simp [step, c1, m1, f1]
        exact canCrash_step hs2 (crash_when_closed _ rfl (inv_step i1 hs2) rfl g1 hp)
      have hcase : s.fan = .idle ∨ s.fan = .closed ∨ ∃ j' m', s.fan = .busy j' m' := by
        cases s.fan with
        | idle => exact .inl rfl
        | closed => exact .inr (.inl rfl)
        | busy j' m' => exact .inr (.inr ⟨j', m', rfl⟩)
      rcases hcase with hfan | hfan | ⟨j', m', hfan⟩
      · exact close _ h1 hc rfl hfan hj
      · exact absurd hw (h.fan hfan)
      · have hs1 : step wait fs { s with main := .closing } .fanEnd =
            some { s with main := .closing, fan := .idle, out := s.out ++ [m'], sent := s.sent ++ [j'] } := by
          simp [step, hc, hfan]
        exact canCrash_step hs1 (close _ (inv_step h1 hs1) hc rfl rfl hj)
    · push Not at hall
      obtain ⟨ms, hms, hph⟩ := hall
      obtain ⟨l, s', hs, hg, hm⟩ := others_go_on (wait := wait) h hc hw hj hf he hms hph
      by_cases hc' : s'.crashed = true
      · exact canCrash_step hs (canCrash_now hc')
      · exact canCrash_step hs (ih _ (by have := left_step h hs; omega) rfl (inv_step h hs) (hm (by simpa using hc')) hg hf he hp)

/-! ## A match without tickets -/

/-- An MMF's results can be received before anything else happens. -/
private theorem receive {wait : Bool} {fs : List Mmf} {i : Nat} {f : Mmf} (hf : fs[i]? = some f) (hst : f.starts = true) :
    ∀ n ≤ f.results.length, ∃ ls s, run wait fs (init fs) ls = some s ∧ Inv fs s ∧ s.crashed = false ∧ s.main = .waiting ∧
      s.fan = .idle ∧ s.mmfs[i]? = some ⟨n, .recv⟩ ∧ s.gos.length = n ∧
      ∀ k m, k < n → f.results[k]? = some m → s.gos[k]? = some ⟨i, k, m, collectIds (rostersOf m), .submit 0, none⟩ := by
  intro n
  induction n with
  | zero =>
    intro _
    exact ⟨[], init fs, rfl, inv_init fs, rfl, rfl, rfl, by simp [init, hf, hst], by simp [init], fun k m hk => absurd hk (by omega)⟩
  | succ n ih =>
    intro hn
    obtain ⟨ls, s, r, h, hc, hw, hfan, hi, hlen, hg⟩ := ih (by omega)
    have hlt : n < f.results.length := by omega
    have hr : f.results[n]? = some f.results[n] := List.getElem?_eq_getElem hlt
    have hs : step wait fs s (.recv i (rostersOf f.results[n])) = some { s with
        mmfs := s.mmfs.set i ⟨n + 1, .recv⟩
        gos := s.gos ++ [⟨i, n, f.results[n], collectIds (rostersOf f.results[n]), .submit 0, none⟩] } := by
      simp only [step, hc, recvStep, hf, hi, hr]; simp
    have happ : ∀ (a : List Label) (x : St), run wait fs x (a ++ [.recv i (rostersOf f.results[n])]) =
        (run wait fs x a).bind fun y => step wait fs y (.recv i (rostersOf f.results[n])) := by
      intro a
      induction a with
      | nil => intro x; simp [run]
      | cons l a iha =>
        intro x
        simp only [List.cons_append, run]
        cases step wait fs x l with
        | none => rfl
        | some y => exact iha y
    refine ⟨ls ++ [.recv i (rostersOf f.results[n])], _, by rw [happ, r, Option.bind_some, hs], inv_step h hs, hc, hw, hfan, ?_,
      by simp [hlen], ?_⟩
    · exact List.getElem?_set_self (List.getElem?_eq_some_iff.1 hi).1
    · intro k m hk hm
      by_cases hkn : k = n
      · subst hkn
        rw [hr] at hm; injection hm with hm; subst hm
        simp only [List.getElem?_append_right (Nat.le_of_eq hlen), hlen]
        simp
      · simp only [List.getElem?_append_left (show k < s.gos.length by omega)]
        exact hg k m (by omega) hm

private theorem canCrash_of_run {wait : Bool} {fs : List Mmf} {ls : List Label} : ∀ {s s' : St}, run wait fs s ls = some s' →
    CanCrash wait fs s' → CanCrash wait fs s := by
  induction ls with
  | nil => intro s s' h; cases h; exact id
  | cons l ls ih =>
    intro s s' h hc
    simp only [run, Option.bind_eq_some_iff] at h
    obtain ⟨s1, h1, h2⟩ := h
    exact canCrash_step h1 (ih h2 hc)

private theorem empty_crashes {wait : Bool} {fs : List Mmf} {s : St} (hc : s.crashed = false) (hfan : s.fan = .idle) {j : Nat}
    {g : Goro} (hj : s.gos[j]? = some g) (hids : g.ids = []) (hpc : g.pc = .submit 0) : CanCrash wait fs s := by
  have hlt := (List.getElem?_eq_some_iff.1 hj).1
  have go : ∀ (x : St) (a b : Goro), x.crashed = false → x.gos[j]? = some a → goStep wait x.fan true j a = .step b none →
      CanCrash wait fs { x with gos := x.gos.set j b, log := x.log ++ [] } → CanCrash wait fs x := by
    intro x a b hx ha hab
    exact canCrash_step (l := .go j true) (by simp only [step, hx, ha, hab]; simp)
  have boom : ∀ (x : St) (a : Goro), x.crashed = false → x.gos[j]? = some a → goStep wait x.fan true j a = .crash → CanCrash wait fs x := by
    intro x a hx ha hab
    exact canCrash_step (l := .go j true) (s' := { x with crashed := true }) (by simp only [step, hx, ha, hab]; simp) (canCrash_now rfl)
  refine go s g { g with pc := .await 0 } hc hj (by unfold goStep; simp [hpc, hids]) ?_
  refine go _ { g with pc := .await 0 } { g with pc := if wait then .checkBefore else .send } hc
    (List.getElem?_set_self hlt) (by unfold goStep; simp [hids]) ?_
  have hl2 : j < ((s.gos.set j { g with pc := .await 0 })).length := by simpa using hlt
  cases wait with
  | true => exact boom _ { g with pc := .checkBefore } hc (List.getElem?_set_self hl2) (by unfold goStep; simp [hids])
  | false =>
    refine canCrash_step (l := .hand j) (s' := { s with
        gos := ((((s.gos.set j { g with pc := .await 0 })).set j { g with pc := .send }).set j { g with pc := .checkAfter })
        log := s.log ++ [] ++ [], fan := .busy j g.m }) ?_ ?_
    · simp only [step, hc, List.getElem?_set_self hl2]
      simp [hfan]
    · exact boom _ { g with pc := .checkAfter } hc (List.getElem?_set_self (by simpa using hlt)) (by unfold goStep; simp [hids])

/-! ## Exactly -/

/-- **C46 (exactly).** With either setting of the wait option, InvokeMatchmakingFunctions can panic
exactly when an MMF it could invoke returns a match without tickets, or a stream that fails after a
match: each of the two always suffices, and nothing else can cause it. -/
theorem C46_crash_exactly (wait : Bool) (fs : List Mmf) :
    (∃ ls s, run wait fs (init fs) ls = some s ∧ s.crashed = true) ↔
      ∃ f ∈ fs, f.starts = true ∧ ((∃ m ∈ f.results, ∀ t, ¬ InMatch t m) ∨ (f.eof = false ∧ f.results ≠ [])) := by
  constructor
  · rintro ⟨ls, s, hr, hc⟩
    by_contra hno
    push Not at hno
    have := C46_no_crash_partial wait fs (fun f hf hs m hm => (hno f hf hs).1 m hm) (fun f hf hs => (hno f hf hs).2) ls s hr
    rw [this] at hc; cases hc
  · rintro ⟨f, hf, hst, hcase⟩
    obtain ⟨i, hi⟩ := List.mem_iff_getElem?.1 hf
    rcases hcase with ⟨m, hm, hno⟩ | ⟨he, hne⟩
    · obtain ⟨k, hk⟩ := List.mem_iff_getElem?.1 hm
      have hkl := (List.getElem?_eq_some_iff.1 hk).1
      obtain ⟨ls, s, r, h, hc, hw, hfan, -, -, hg⟩ := receive (wait := wait) hi hst (k + 1) hkl
      refine canCrash_of_run r (empty_crashes hc hfan (hg k m (by omega) hk) ?_ rfl)
      show collectIds (rostersOf m) = []
      cases m with
      | none => rfl
      | some x =>
        simp only [collectIds, rostersOf, Option.map_some, Option.getD_some, List.flatMap_eq_nil_iff, List.map_eq_nil_iff]
        intro e hee
        cases ht : e.2.tickets with
        | nil => rfl
        | cons t ts => exact absurd ⟨x, rfl, e, hee, by rw [ht]; simp⟩ (hno t)
    · obtain ⟨m, ms, hms⟩ := List.exists_cons_of_ne_nil hne
      obtain ⟨ls, s, r, h, hc, hw, hfan, -, -, hg⟩ := receive (wait := wait) hi hst 1 (by rw [hms]; simp)
      exact canCrash_of_run r (failing_crashes _ rfl h hw (hg 0 m (by omega) (by rw [hms]; rfl)) hi he rfl)

/-- A request of both kinds, and one of neither. -/
example : (∃ f ∈ [(⟨true, [duel "m1" "1-1" "2-1"], false⟩ : Mmf)], f.starts = true ∧
      ((∃ m ∈ f.results, ∀ t, ¬ InMatch t m) ∨ (f.eof = false ∧ f.results ≠ []))) ∧
    (∃ f ∈ [(⟨true, [none], true⟩ : Mmf)], f.starts = true ∧
      ((∃ m ∈ f.results, ∀ t, ¬ InMatch t m) ∨ (f.eof = false ∧ f.results ≠ []))) ∧
    ¬ ∃ ls s, run true oneMmf (init oneMmf) ls = some s ∧ s.crashed = true := by
  refine ⟨⟨_, List.mem_singleton.2 rfl, rfl, .inr ⟨rfl, by simp⟩⟩,
    ⟨_, List.mem_singleton.2 rfl, rfl, .inl ⟨none, by simp, by rintro t ⟨x, hx, -⟩; cases hx⟩⟩, ?_⟩
  rw [C46_crash_exactly]
  rintro ⟨f, hf, -, h⟩
  rw [oneMmf, List.mem_singleton] at hf
  subst hf
  rcases h with ⟨m, hm, hno⟩ | ⟨h, -⟩
  · rw [List.mem_singleton.1 hm] at hno
    exact hno _ (duel_red _ _ _)
  · cases h

end OM.Props
