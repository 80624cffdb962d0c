import Verif.Props.Relay
/-! # Properties C47 and C49: what a call's outcome does not depend on -/
namespace OM.Props
open OM.Spec OM.Relay

/-! ## C47: the answer of the cache check -/

/-- The same label, with a cache check that has not seen the deactivation. -/
private def blind : Label → Label
  | .go j _ => .go j false
  | l => l

private def dim (g : Goro) : Goro := { g with obs := g.obs.map fun _ => false }

private def forget (s : St) : St := { s with gos := s.gos.map dim }

private theorem goStep_dim (wait : Bool) (fan : Fan) (seen : Bool) (j : Nat) (g : Goro) :
    goStep wait fan false j (dim g) = match goStep wait fan seen j g with
      | .blocked => .blocked
      | .crash => .crash
      | .step g' q => .step (dim g') q := by
  obtain ⟨a, b, m, ids, pc, obs⟩ := g
  cases pc with
  | submit k => simp only [goStep, dim]; cases ids[k]? <;> rfl
  | await k => simp only [goStep, dim]; by_cases h : k < ids.length <;> simp [h]
  | checkBefore => simp only [goStep, dim]; by_cases h : ids.length = 0 <;> simp [h]
  | checkAfter => simp only [goStep, dim]; by_cases h : ids.length = 0 <;> simp [h]
  | send => simp only [goStep, dim]; by_cases h : fan = .closed <;> simp [h]
  | done => rfl

private theorem forget_step {wait : Bool} {fs : List Mmf} {s s' : St} {l : Label} (hs : step wait fs s l = some s') :
    step wait fs (forget s) (blind l) = some (forget s') := by
  unfold step at hs ⊢
  have e : (forget s).crashed = s.crashed := rfl
  rw [e]
  split at hs
  · cases hs
  rename_i hc
  rw [if_neg hc]
  cases l with
  | recv i ord =>
    simp only [blind, recvStep, forget] at hs ⊢
    split at hs <;> try cases hs
    split at hs <;> try cases hs
    rename_i h1
    rw [if_pos h1]
    split at hs
    · split at hs <;> cases hs
      rename_i h2
      rw [if_pos h2]
      simp [dim]
    · split at hs <;> cases hs
      · rename_i h2; rw [if_pos h2]
      · rename_i h2; rw [if_neg h2]
  | tdDone i =>
    simp only [blind, forget] at hs ⊢
    split at hs <;> try cases hs
    split at hs <;> cases hs
    rename_i h1
    refine if_pos ⟨h1.1, ?_⟩
    intro g hg hi
    obtain ⟨g0, hg0, rfl⟩ := List.mem_map.1 hg
    exact h1.2 g0 hg0 hi
  | go j seen =>
    simp only [blind, forget] at hs ⊢
    split at hs <;> try cases hs
    rename_i g hg
    rw [List.getElem?_map, hg]
    simp only [Option.map_some]
    rw [goStep_dim wait s.fan seen j g]
    split at hs
    · cases hs
    · rename_i h1
      cases hs
      simp only [h1]
    · rename_i g' q h1
      cases hs
      simp only [h1, List.map_set]
  | hand j =>
    simp only [blind, forget] at hs ⊢
    split at hs <;> try cases hs
    rename_i g hg
    rw [List.getElem?_map, hg]
    simp only [Option.map_some]
    split at hs <;> cases hs
    rename_i h1
    refine (if_pos h1).trans ?_
    simp [List.map_set, dim]
  | fanEnd =>
    simp only [blind, forget] at hs ⊢
    split at hs <;> cases hs
    rename_i h1
    rfl
  | mainClose =>
    simp only [blind, forget] at hs ⊢
    split at hs <;> cases hs
    rename_i h1
    exact if_pos h1
  | fanClose =>
    simp only [blind, forget] at hs ⊢
    split at hs <;> cases hs
    rename_i h1
    exact if_pos h1
  | mainReturn =>
    simp only [blind, forget] at hs ⊢
    split at hs <;> cases hs
    rename_i h1
    exact if_pos h1

private theorem forget_run {wait : Bool} {fs : List Mmf} : ∀ {ls : List Label} {s s' : St}, run wait fs s ls = some s' →
    run wait fs (forget s) (ls.map blind) = some (forget s') := by
  intro ls
  induction ls with
  | nil => intro s s' h; cases h; rfl
  | cons l ls ih =>
    intro s s' h
    simp only [run] at h
    cases h1 : step wait fs s l with
    | none => rw [h1] at h; cases h
    | some s1 =>
      rw [h1, Option.bind_some] at h
      simp only [List.map_cons, run, forget_step h1, Option.bind_some]
      exact ih h

/-- **C47 (exactly).** The wait option makes no match wait for its deactivation: whatever a call sends to the
matchmaker, and however it ends, it also does so, step by step in the same order, when no cache check has seen a
single deactivation. -/
theorem C47_wait_has_no_effect (wait : Bool) (fs : List Mmf) (ls : List Label) (s : St) (hr : run wait fs (init fs) ls = some s) :
    ∃ ls' s', run wait fs (init fs) ls' = some s' ∧ ls'.length = ls.length ∧
      s'.out = s.out ∧ s'.sent = s.sent ∧ s'.fan = s.fan ∧ s'.main = s.main ∧ s'.crashed = s.crashed ∧
      ∀ g ∈ s'.gos, g.obs ≠ some true := by
  refine ⟨ls.map blind, forget s, forget_run hr, by simp, rfl, rfl, rfl, rfl, rfl, ?_⟩
  intro g hg
  obtain ⟨g0, -, rfl⟩ := List.mem_map.1 hg
  cases h : g0.obs <;> simp [dim, h]

/-- With the option on and a match sent: the check that had seen the deactivation and the one that had not lead to
the same. -/
example : ∃ s s', run true [⟨true, [duel "m1" "1-1" "2-1"], true⟩] (init [⟨true, [duel "m1" "1-1" "2-1"], true⟩])
      ([.recv 0 (rostersOf (duel "m1" "1-1" "2-1"))] ++ List.replicate 6 (.go 0 true) ++ [.go 0 true, .hand 0, .fanEnd]) = some s ∧
    run true [⟨true, [duel "m1" "1-1" "2-1"], true⟩] (init [⟨true, [duel "m1" "1-1" "2-1"], true⟩])
      ([.recv 0 (rostersOf (duel "m1" "1-1" "2-1"))] ++ List.replicate 6 (.go 0 false) ++ [.go 0 false, .hand 0, .fanEnd]) = some s' ∧
    s.out = s'.out ∧ s.out ≠ [] ∧ s.gos.map (·.obs) = [some true] ∧ s'.gos.map (·.obs) = [some false] := by
  have h1 : (run true [⟨true, [duel "m1" "1-1" "2-1"], true⟩] (init [⟨true, [duel "m1" "1-1" "2-1"], true⟩])
      ([.recv 0 (rostersOf (duel "m1" "1-1" "2-1"))] ++ List.replicate 6 (.go 0 true) ++ [.go 0 true, .hand 0, .fanEnd])).map
      (fun s => (s.out, s.gos.map (·.obs))) = some ([duel "m1" "1-1" "2-1"], [some true]) := by decide +kernel
  have h2 : (run true [⟨true, [duel "m1" "1-1" "2-1"], true⟩] (init [⟨true, [duel "m1" "1-1" "2-1"], true⟩])
      ([.recv 0 (rostersOf (duel "m1" "1-1" "2-1"))] ++ List.replicate 6 (.go 0 false) ++ [.go 0 false, .hand 0, .fanEnd])).map
      (fun s => (s.out, s.gos.map (·.obs))) = some ([duel "m1" "1-1" "2-1"], [some false]) := by decide +kernel
  obtain ⟨s, hs, he⟩ := Option.map_eq_some_iff.1 h1
  obtain ⟨s', hs', he'⟩ := Option.map_eq_some_iff.1 h2
  rw [Prod.mk.injEq] at he he'
  exact ⟨s, s', hs, hs', by rw [he.1, he'.1], by rw [he.1]; simp, he.2, he'.2⟩

/-! ## C49: a failed function looks like one without matches -/

/-- Nothing came of it: it could not be invoked, or its stream ended before the first match. -/
def Fruitless (f : Mmf) : Prop := f.starts = false ∨ f.results = []

instance (f : Mmf) : Decidable (Fruitless f) := inferInstanceAs (Decidable (_ ∨ _))

/-- The same function, had all gone well and no match been found. -/
def healed (f : Mmf) : Mmf := if Fruitless f then ⟨true, [], true⟩ else f

private theorem run_append (wait : Bool) (fs : List Mmf) (s : St) (a b : List Label) :
    run wait fs s (a ++ b) = (run wait fs s a).bind fun s' => run wait fs s' b := by
  induction a generalizing s with
  | nil => rfl
  | cons l a ih =>
    simp only [List.cons_append, run]
    cases step wait fs s l with
    | none => rfl
    | some s1 => exact ih s1

/-- The functions without matches end first. -/
private theorem finish_first (wait : Bool) (fs : List Mmf) : ∀ (is : List Nat) (t : St), t.crashed = false → t.gos = [] →
    is.Nodup → (∀ i ∈ is, fs[i]? = some ⟨true, [], true⟩ ∧ t.mmfs[i]? = some ⟨0, .recv⟩) →
    ∃ ls t', run wait fs t ls = some t' ∧ t'.crashed = false ∧ t'.gos = [] ∧ t'.fan = t.fan ∧ t'.main = t.main ∧
      t'.out = t.out ∧ ∀ i, t'.mmfs[i]? = if i ∈ is then some ⟨0, .done⟩ else t.mmfs[i]? := by
  intro is
  induction is with
  | nil => intro t hc hg _ _; exact ⟨[], t, rfl, hc, hg, rfl, rfl, rfl, by simp⟩
  | cons i is ih =>
    intro t hc hg hn h
    obtain ⟨hi, hn⟩ := List.nodup_cons.1 hn
    obtain ⟨hf, hm⟩ := h i (List.mem_cons_self ..)
    have hlt := (List.getElem?_eq_some_iff.1 hm).1
    let t1 : St := { t with mmfs := t.mmfs.set i ⟨0, .wait⟩, counter := t.counter + (0 + 1) }
    have h1 : step wait fs t (.recv i []) = some t1 := by
      simp only [step, hc, recvStep, hf, hm]; simp [t1, hc]
    have hm1 : t1.mmfs[i]? = some ⟨0, .wait⟩ := List.getElem?_set_self hlt
    let t2 : St := { t1 with mmfs := t1.mmfs.set i ⟨0, .done⟩ }
    have h2 : step wait fs t1 (.tdDone i) = some t2 := by
      have hc1 : t1.crashed = false := hc
      have hg1 : t1.gos = [] := hg
      simp only [step, hc1, hm1, hg1]; simp [t2, hc1, hg1]
    have hm2 : ∀ k, t2.mmfs[k]? = if k = i then some ⟨0, .done⟩ else t.mmfs[k]? := by
      intro k
      by_cases hk : k = i
      · subst hk
        rw [if_pos rfl]
        exact List.getElem?_set_self (by simpa [t1] using hlt)
      · rw [if_neg hk]
        have : i ≠ k := fun h => hk h.symm
        simp only [t2, t1, List.getElem?_set_ne this]
    obtain ⟨ls, t', hr, a, b, c, d, e, f⟩ := ih t2 hc hg hn (by
      intro k hk
      obtain ⟨hkf, hkm⟩ := h k (List.mem_cons_of_mem _ hk)
      refine ⟨hkf, ?_⟩
      rw [hm2 k, if_neg (by rintro rfl; exact hi hk)]
      exact hkm)
    refine ⟨.recv i [] :: .tdDone i :: ls, t', ?_, a, b, c, d, e, ?_⟩
    · simp only [run, h1, h2, Option.bind_some]; exact hr
    · intro k
      rw [f k, hm2 k]
      by_cases hk : k = i
      · subst hk; simp
      · simp [hk]

/-- What a run with failures and the one without share. -/
private structure Alike (fs : List Mmf) (s t : St) : Prop where
  gos : t.gos = s.gos
  fan : t.fan = s.fan
  main : t.main = s.main
  out : t.out = s.out
  crashed : t.crashed = s.crashed
  len : t.mmfs.length = s.mmfs.length
  bad : ∀ (i : Nat) f, fs[i]? = some f → Fruitless f → ∃ n, t.mmfs[i]? = some ⟨n, .done⟩
  good : ∀ (i : Nat) f, fs[i]? = some f → ¬ Fruitless f → t.mmfs[i]? = s.mmfs[i]?

private theorem healed_get {fs : List Mmf} {i : Nat} {f : Mmf} (hf : fs[i]? = some f) (h : ¬ Fruitless f) :
    (fs.map healed)[i]? = some f := by
  rw [List.getElem?_map, hf]; simp [healed, h]

private theorem alike_step {wait : Bool} {fs : List Mmf} {s s' t : St} {l : Label} (ha : Alike fs s t)
    (h : Inv fs s) (hs : step wait fs s l = some s') : ∃ ls t', run wait (fs.map healed) t ls = some t' ∧ Alike fs s' t' := by
  have hl := h.len
  unfold step at hs
  split at hs
  · cases hs
  rename_i hc
  have hc : s.crashed = false := by simpa using hc
  have hct : t.crashed = false := ha.crashed.trans hc
  have one : ∀ {t'}, step wait (fs.map healed) t l = some t' → run wait (fs.map healed) t [l] = some t' := by
    intro t' h; simp [run, h]
  cases l with
  | recv i ord =>
    simp only [recvStep] at hs
    split at hs
    · rename_i f ms hf hms
      have hil := (List.getElem?_eq_some_iff.1 hms).1
      by_cases hfr : Fruitless f
      · -- skipped
        refine ⟨[], t, rfl, ?_⟩
        split at hs
        · rename_i hph
          have hst : f.starts = true := by
            cases hst : f.starts with
            | true => rfl
            | false => rw [(h.phases i ms f hms hf).2.1 hst] at hph; cases hph
          have hnil : f.results = [] := by
            rcases hfr with hfr | hfr
            · rw [hst] at hfr; cases hfr
            · exact hfr
          rw [hnil] at hs
          simp only [List.getElem?_nil] at hs
          split at hs <;> cases hs
          all_goals
            refine ⟨ha.gos, ha.fan, ha.main, ha.out, ha.crashed, by simpa using ha.len, ha.bad, ?_⟩
            intro k f' hk hf'
            have hki : i ≠ k := by
              rintro rfl
              rw [hf] at hk; injection hk with hk; subst hk; exact hf' hfr
            simp only [List.getElem?_set_ne hki]
            exact ha.good k f' hk hf'
        · cases hs
      · have htm : t.mmfs[i]? = some ms := (ha.good i f hf hfr).trans hms
        have hhf := healed_get hf hfr
        have htl := (List.getElem?_eq_some_iff.1 htm).1
        have upd : ∀ x : MmfSt, Alike fs { s with mmfs := s.mmfs.set i x } { t with mmfs := t.mmfs.set i x } := by
          intro x
          refine ⟨ha.gos, ha.fan, ha.main, ha.out, ha.crashed, by simpa using ha.len, ?_, ?_⟩
          · intro k f' hk hf'
            have hki : i ≠ k := by
              rintro rfl
              rw [hf] at hk; injection hk with hk; subst hk; exact hfr hf'
            simp only [List.getElem?_set_ne hki]
            exact ha.bad k f' hk hf'
          · intro k f' hk hf'
            by_cases hki : i = k
            · subst hki
              simp only [List.getElem?_set_self hil, List.getElem?_set_self htl]
            · simp only [List.getElem?_set_ne hki]
              exact ha.good k f' hk hf'
        split at hs
        · rename_i hph
          split at hs
          · rename_i m hm
            split at hs <;> cases hs
            rename_i hperm
            have u := upd ⟨ms.next + 1, .recv⟩
            refine ⟨[.recv i ord], { t with mmfs := t.mmfs.set i ⟨ms.next + 1, .recv⟩
                                            gos := t.gos ++ [⟨i, ms.next, m, collectIds ord, .submit 0, none⟩] },
              one (by simp only [step, hct, recvStep, hhf, htm, hph, hm]; simp [hperm]),
              ⟨by simp [ha.gos], ha.fan, ha.main, ha.out, ha.crashed, u.len, u.bad, u.good⟩⟩
          · rename_i hm
            split at hs <;> cases hs
            · rename_i he
              have u := upd ⟨ms.next, .wait⟩
              refine ⟨[.recv i ord], { t with mmfs := t.mmfs.set i ⟨ms.next, .wait⟩, counter := t.counter + (ms.next + 1) },
                one (by simp only [step, hct, recvStep, hhf, htm, hph, hm, he]; simp),
                ⟨u.gos, u.fan, u.main, u.out, u.crashed, u.len, u.bad, u.good⟩⟩
            · rename_i he
              have he : f.eof = false := by simpa using he
              exact ⟨[.recv i ord], { t with mmfs := t.mmfs.set i ⟨ms.next, .done⟩ },
                one (by simp only [step, hct, recvStep, hhf, htm, hph, hm, he]; simp), upd ⟨ms.next, .done⟩⟩
        · cases hs
    · cases hs
  | tdDone i =>
    simp only at hs
    split at hs
    · rename_i ms hms
      split at hs <;> cases hs
      rename_i hd
      have hil := (List.getElem?_eq_some_iff.1 hms).1
      have hf : fs[i]? = some (fs[i]'(hl ▸ hil)) := List.getElem?_eq_getElem _
      by_cases hfr : Fruitless (fs[i]'(hl ▸ hil))
      · refine ⟨[], t, rfl, ⟨ha.gos, ha.fan, ha.main, ha.out, ha.crashed, by simpa using ha.len, ha.bad, ?_⟩⟩
        intro k f' hk hf'
        have hki : i ≠ k := by
          rintro rfl
          rw [hf] at hk; injection hk with hk; subst hk; exact hf' hfr
        simp only [List.getElem?_set_ne hki]
        exact ha.good k f' hk hf'
      · have htm : t.mmfs[i]? = some ms := (ha.good i _ hf hfr).trans hms
        have htl := (List.getElem?_eq_some_iff.1 htm).1
        refine ⟨[.tdDone i], { t with mmfs := t.mmfs.set i ⟨ms.next, .done⟩ },
          one (by simp only [step, hct, htm, ha.gos]; simp; exact ⟨hd.1, hd.2⟩),
          ⟨ha.gos, ha.fan, ha.main, ha.out, ha.crashed, by simpa using ha.len, ?_, ?_⟩⟩
        · intro k f' hk hf'
          have hki : i ≠ k := by
            rintro rfl
            rw [hf] at hk; injection hk with hk; subst hk; exact hfr hf'
          simp only [List.getElem?_set_ne hki]
          exact ha.bad k f' hk hf'
        · intro k f' hk hf'
          by_cases hki : i = k
          · subst hki
            simp only [List.getElem?_set_self hil, List.getElem?_set_self htl]
          · simp only [List.getElem?_set_ne hki]
            exact ha.good k f' hk hf'
    · cases hs
  | go j seen =>
    simp only at hs
    split at hs <;> try cases hs
    rename_i g hg
    split at hs
    · cases hs
    · rename_i h1
      cases hs
      exact ⟨[.go j seen], { t with crashed := true }, one (by simp only [step, hct, ha.gos, hg, ha.fan, h1]; simp),
        ⟨ha.gos, ha.fan, ha.main, ha.out, rfl, ha.len, ha.bad, ha.good⟩⟩
    · rename_i g' q h1
      cases hs
      exact ⟨[.go j seen], { t with gos := t.gos.set j g', log := t.log ++ q.toList },
        one (by simp only [step, hct, ha.gos, hg, ha.fan, h1]; simp),
        ⟨by simp [ha.gos], ha.fan, ha.main, ha.out, ha.crashed, ha.len, ha.bad, ha.good⟩⟩
  | hand j =>
    simp only at hs
    split at hs <;> try cases hs
    rename_i g hg
    split at hs <;> cases hs
    rename_i h1
    exact ⟨[.hand j], { t with gos := t.gos.set j { g with pc := if wait then .done else .checkAfter }, fan := .busy j g.m },
      one (by simp only [step, hct, ha.gos, hg, ha.fan]; simp [h1]),
      ⟨by simp [ha.gos], rfl, ha.main, ha.out, ha.crashed, ha.len, ha.bad, ha.good⟩⟩
  | fanEnd =>
    simp only at hs
    split at hs <;> cases hs
    rename_i j m h1
    exact ⟨[.fanEnd], { t with fan := .idle, out := t.out ++ [m], sent := t.sent ++ [j] },
      one (by simp only [step, hct, ha.fan, h1]; simp),
      ⟨ha.gos, rfl, ha.main, by simp [ha.out], ha.crashed, ha.len, ha.bad, ha.good⟩⟩
  | mainClose =>
    simp only at hs
    split at hs <;> cases hs
    rename_i h1
    refine ⟨[.mainClose], { t with main := .closing }, one (by
      simp only [step, hct, ha.main, h1.1]
      simp
      intro ms hms
      obtain ⟨i, hi⟩ := List.mem_iff_getElem?.1 hms
      have hil : i < fs.length := by
        have := (List.getElem?_eq_some_iff.1 hi).1
        rw [ha.len, hl] at this; exact this
      have hf := List.getElem?_eq_getElem hil
      by_cases hfr : Fruitless fs[i]
      · obtain ⟨n, hn⟩ := ha.bad i _ hf hfr
        rw [hi] at hn; injection hn with hn; rw [hn]
      · rw [ha.good i _ hf hfr] at hi
        exact h1.2 ms (List.mem_of_getElem? hi)),
      ⟨ha.gos, ha.fan, rfl, ha.out, ha.crashed, ha.len, ha.bad, ha.good⟩⟩
  | fanClose =>
    simp only at hs
    split at hs <;> cases hs
    rename_i h1
    exact ⟨[.fanClose], { t with fan := .closed }, one (by simp only [step, hct, ha.main, ha.fan]; simp [h1]),
      ⟨ha.gos, rfl, ha.main, ha.out, ha.crashed, ha.len, ha.bad, ha.good⟩⟩
  | mainReturn =>
    simp only at hs
    split at hs <;> cases hs
    rename_i h1
    exact ⟨[.mainReturn], { t with main := .returned }, one (by simp only [step, hct, ha.main, h1]; simp),
      ⟨ha.gos, ha.fan, rfl, ha.out, ha.crashed, ha.len, ha.bad, ha.good⟩⟩

private theorem alike_run {wait : Bool} {fs : List Mmf} : ∀ {ls : List Label} {s s' t : St}, Inv fs s → Alike fs s t →
    run wait fs s ls = some s' → ∃ ls' t', run wait (fs.map healed) t ls' = some t' ∧ Alike fs s' t' := by
  intro ls
  induction ls with
  | nil => intro s s' t _ ha h; cases h; exact ⟨[], t, rfl, ha⟩
  | cons l ls ih =>
    intro s s' t h ha hr
    simp only [run] at hr
    cases h1 : step wait fs s l with
    | none => rw [h1] at hr; cases hr
    | some s1 =>
      rw [h1, Option.bind_some] at hr
      obtain ⟨l1, t1, r1, a1⟩ := alike_step ha h h1
      obtain ⟨l2, t2, r2, a2⟩ := ih (inv_step h h1) a1 hr
      exact ⟨l1 ++ l2, t2, by rw [run_append, r1, Option.bind_some, r2], a2⟩

/-- **C49 (a failure cannot be told from success).** Whatever a call returns and sends, it can also return and send when
every function that could not be invoked, or failed before its first match, had been invoked, run to its end and found no
match: nothing in the status or in the stream tells the matchmaker which it was. -/
theorem C49_failures_look_like_no_matches (wait : Bool) (fs : List Mmf) (ls : List Label) (s : St)
    (hr : run wait fs (init fs) ls = some s) :
    ∃ ls' s', run wait (fs.map healed) (init (fs.map healed)) ls' = some s' ∧ status s' = status s ∧ s'.out = s.out ∧
      s'.crashed = s.crashed := by
  let is := (List.range fs.length).filter fun i => (fs[i]?).any fun f => decide (Fruitless f)
  have hmem : ∀ i, i ∈ is ↔ ∃ f, fs[i]? = some f ∧ Fruitless f := by
    intro i
    simp only [is, List.mem_filter, List.mem_range, Option.any_eq_true, decide_eq_true_eq]
    constructor
    · exact fun h => h.2
    · rintro ⟨f, hf, h⟩
      exact ⟨(List.getElem?_eq_some_iff.1 hf).1, f, hf, h⟩
  obtain ⟨l0, t, r0, a, b, c, d, e, f⟩ := finish_first wait (fs.map healed) is (init (fs.map healed)) rfl rfl
    (List.Nodup.filter _ List.nodup_range) (by
      intro i hi
      obtain ⟨f, hf, hfr⟩ := (hmem i).1 hi
      constructor
      · rw [List.getElem?_map, hf]; simp [healed, hfr]
      · simp [init, hf, healed, hfr])
  have hlen : t.mmfs.length = fs.length := by
    apply Nat.le_antisymm
    · by_contra hlt
      have h1 := f fs.length
      rw [if_neg (by
        intro hi
        obtain ⟨x, hx, -⟩ := (hmem _).1 hi
        simp at hx)] at h1
      simp only [init, List.getElem?_map] at h1
      simp at h1
      omega
    · by_contra hlt
      have h1 := f t.mmfs.length
      rw [List.getElem?_eq_none (Nat.le_refl _)] at h1
      split at h1
      · cases h1
      · have hlt : t.mmfs.length < fs.length := by omega
        simp only [init, List.getElem?_map, List.getElem?_eq_getElem hlt, Option.map_some] at h1
        cases h1
  have ha : Alike fs (init fs) t := by
    refine ⟨b, c, d, e, a, by rw [hlen]; simp [init], ?_, ?_⟩
    · intro i x hx hfr
      exact ⟨0, by rw [f i, if_pos ((hmem i).2 ⟨x, hx, hfr⟩)]⟩
    · intro i x hx hfr
      rw [f i, if_neg (by
        intro hi
        obtain ⟨y, hy, hyf⟩ := (hmem i).1 hi
        rw [hx] at hy; injection hy with hy; subst hy; exact hfr hyf)]
      simp [init, hx, healed, hfr]
  obtain ⟨l1, t1, r1, a1⟩ := alike_run (inv_init fs) ha hr
  refine ⟨l0 ++ l1, t1, by rw [run_append, r0, Option.bind_some, r1], ?_, a1.out, a1.crashed⟩
  unfold status
  rw [a1.main]

/-- One function cannot be reached, one fails at once, one has a match: the call ends like one in which the first two
had found nothing. -/
example : let fs : List Mmf := [⟨false, [], true⟩, ⟨true, [], false⟩, ⟨true, [duel "m1" "1-1" "2-1"], true⟩]
    fs.map healed = [⟨true, [], true⟩, ⟨true, [], true⟩, ⟨true, [duel "m1" "1-1" "2-1"], true⟩] ∧
    ∃ ls s, run false fs (init fs) ls = some s ∧ status s = some none ∧ s.out = [duel "m1" "1-1" "2-1"] := by
  refine ⟨by decide, ?_⟩
  have h1 : (run false [⟨false, [], true⟩, ⟨true, [], false⟩, ⟨true, [duel "m1" "1-1" "2-1"], true⟩]
      (init [⟨false, [], true⟩, ⟨true, [], false⟩, ⟨true, [duel "m1" "1-1" "2-1"], true⟩])
      ([.recv 1 [], .recv 2 (rostersOf (duel "m1" "1-1" "2-1"))] ++ List.replicate 6 (.go 0 true) ++
        [.hand 0, .fanEnd, .go 0 true, .recv 2 [], .tdDone 2, .mainClose, .mainReturn])).map
      (fun s => (status s, s.out)) = some (some none, [duel "m1" "1-1" "2-1"]) := by decide +kernel
  obtain ⟨s, hs, he⟩ := Option.map_eq_some_iff.1 h1
  rw [Prod.mk.injEq] at he
  exact ⟨_, s, hs, he.1, he.2⟩

end OM.Props
