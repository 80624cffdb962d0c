import Verif.Model.WaitGroup
import Verif.Props.Matchmaker
/-! # Property C125: activating tickets and the WaitGroup's panics -/
namespace OM.Props
open OM.Mm

/-- The steps that the WaitGroup takes no part in. -/
def plain : List WLbl → List Lbl
  | [] => []
  | .lbl l :: ls => l :: plain ls
  | .release _ :: ls => plain ls

/-- What other goroutines put in the channel. -/
def pushedW (ls : List WLbl) : List Str := pushed (plain ls)

private theorem pushedW_append (a b : List WLbl) : pushedW (a ++ b) = pushedW a ++ pushedW b := by
  have : plain (a ++ b) = plain a ++ plain b := by
    induction a with
    | nil => rfl
    | cons l a ih => cases l <;> simp [plain, ih]
  unfold pushedW
  rw [this, pushed_append]

private theorem wrun_append (s : WSt) (a b : List WLbl) : s.run (a ++ b) = (s.run a).bind fun s => s.run b := by
  induction a generalizing s with
  | nil => rfl
  | cons l a ih =>
    simp only [List.cons_append, WSt.run]
    cases s.step l with
    | none => rfl
    | some t => exact ih t

private theorem wrun_induct {P : List WLbl → WSt → Prop} {s0 : WSt} (h0 : P [] s0)
    (hstep : ∀ ls s l s', P ls s → s.step l = some s' → P (ls ++ [l]) s') : ∀ ls s, s0.run ls = some s → P ls s := by
  intro ls
  induction ls using List.reverseRecOn with
  | nil => intro s h; cases h; exact h0
  | append_singleton ls l ih =>
    intro s h
    rw [wrun_append] at h
    cases h1 : s0.run ls with
    | none => rw [h1] at h; cases h
    | some t =>
      rw [h1, Option.bind_some] at h
      simp only [WSt.run] at h
      cases h2 : t.step l with
      | none => rw [h2] at h; cases h
      | some u => rw [h2] at h; cases h; exact hstep ls t l s (ih t h1) h2

/-- One step is a step of the WaitGroup that only counts, or none. -/
private theorem step_refines {s s' : WSt} {l : WLbl} (hs : s.step l = some s') :
    (s'.st = s.st ∧ pushedW [l] = []) ∨ ∃ l', s.st.step l' = some s'.st ∧ pushed [l'] = pushedW [l] := by
  unfold WSt.step at hs
  split at hs
  · cases hs
  cases l with
  | lbl l =>
    cases l with
    | main =>
      simp only at hs
      split at hs
      · rename_i hw
        split at hs
        · split at hs
          · cases hs
          · split at hs <;> cases hs
            · exact .inl ⟨rfl, rfl⟩
            · rename_i h0
              push Not at h0
              exact .inr ⟨.main, by simp [St.step, St.main, hw, h0.1], rfl⟩
        · split at hs <;> cases hs
          · rename_i h0
            exact .inr ⟨.main, by simp [St.step, St.main, hw, h0], rfl⟩
          · exact .inl ⟨rfl, rfl⟩
      · obtain ⟨t, ht, rfl⟩ := Option.map_eq_some_iff.1 hs
        exact .inr ⟨.main, ht, rfl⟩
    | push id =>
      obtain ⟨t, ht, rfl⟩ := Option.map_eq_some_iff.1 hs
      exact .inr ⟨.push id, ht, rfl⟩
    | «begin» i =>
      obtain ⟨t, ht, rfl⟩ := Option.map_eq_some_iff.1 hs
      by_cases h : s.st.wg = 0 ∧ s.waiters ≠ 0
      · rw [if_pos h]; exact .inl ⟨rfl, rfl⟩
      · rw [if_neg h]; exact .inr ⟨.begin i, ht, rfl⟩
    | finish i =>
      obtain ⟨t, ht, rfl⟩ := Option.map_eq_some_iff.1 hs
      exact .inr ⟨.finish i, ht, rfl⟩
  | release i =>
    simp only at hs
    split at hs
    · split at hs <;> cases hs <;> exact .inl ⟨rfl, rfl⟩
    · cases hs

/-- **C125 (the simpler model).** Up to a panic, what `activateTickets` does is what it does with a WaitGroup that only
counts, so C63 and C64 hold of it. -/
theorem C125_refines (q0 : List Str) (ls : List WLbl) (s : WSt) (h : (WSt.init q0).run ls = some s) :
    ∃ ls', (St.init q0).run ls' = some s.st ∧ pushed ls' = pushedW ls := by
  refine wrun_induct (P := fun ls s => ∃ ls', (St.init q0).run ls' = some s.st ∧ pushed ls' = pushedW ls) ⟨[], rfl, rfl⟩ ?_ ls s h
  rintro ls s l s' ⟨ls', hr, hp⟩ hs
  rcases step_refines hs with ⟨e, e'⟩ | ⟨l', e, e'⟩
  · exact ⟨ls', by rw [e]; exact hr, by rw [hp, pushedW_append, e', List.append_nil]⟩
  · refine ⟨ls' ++ [l'], ?_, by rw [pushed_append, pushedW_append, hp, e']⟩
    rw [run_append, hr, Option.bind_some]
    simp [St.run, e]

/-! ## One call at most -/

/-- Where the WaitGroup can be while there is at most one goroutine. -/
private inductive Quiet (s : WSt) : Prop
  | fresh (h : s.st.phases = [] ∨ s.st.phases = [.created]) (hv : s.st.wg = 0) (hw : s.waiters = 0) (hs : s.sema = 0)
      (hp : s.parked = false) (hr : s.releasing = [])
  | calling (h : s.st.phases = [.calling]) (hv : s.st.wg = 1) (hw : s.waiters = if s.parked then 1 else 0) (hs : s.sema = 0)
      (hr : s.releasing = [])
  | over (h : s.st.phases = [.finished]) (hv : s.st.wg = 0) (hw : s.waiters = 0) (hr : s.releasing = [])
  | waking (h : s.st.phases = [.finished]) (hv : s.st.wg = 0) (hw : s.waiters = 1) (hs : s.sema = 0) (hp : s.parked = true)
      (hr : s.releasing = [(0, 1)])

private theorem phases_grow {s s' : St} {l : Lbl} (hs : s.step l = some s') : s.phases.length ≤ s'.phases.length := by
  cases l with
  | main =>
    simp only [St.step, St.main] at hs
    repeat' split at hs
    all_goals cases hs
    all_goals simp
  | push id => simp only [St.step] at hs; split at hs <;> cases hs; simp
  | «begin» i => simp only [St.step] at hs; split at hs <;> cases hs; simp
  | finish i => simp only [St.step] at hs; split at hs <;> cases hs; simp

/-- What a step of `activateTickets` itself does to the goroutines. -/
private theorem main_phases {s s' : St} (hs : s.main = some s') :
    s'.wg = s.wg ∧ (s'.phases = s.phases ∨ s'.phases = s.phases ++ [.created]) := by
  simp only [St.main] at hs
  repeat' split at hs
  all_goals cases hs
  all_goals simp

private theorem quiet_step {s s' : WSt} {l : WLbl} (hc : s.crashed = false) (hq : Quiet s) (hs : s.step l = some s')
    (h1 : s'.st.phases.length ≤ 1) : Quiet s' ∧ s'.crashed = false := by
  obtain ⟨⟨q, acc, d, pc, calls, ph, wg⟩, w, sema, pk, rel, cr⟩ := s
  dsimp only at hc
  subst hc
  unfold WSt.step at hs
  simp only [Bool.false_eq_true, if_false] at hs
  cases l with
  | lbl l =>
    cases l with
    | main =>
      simp only at hs
      split at hs
      · rename_i hw
        cases hq with
        | fresh h hv hw' hs' hp hr =>
          dsimp only at h hv hw' hs' hp hr
          subst hv hw' hs' hp hr
          simp at hs
          subst hs
          exact ⟨.fresh h rfl rfl rfl rfl rfl, rfl⟩
        | calling h hv hw' hs' hr =>
          dsimp only at h hv hw' hs' hr
          subst hv hs' hr
          cases pk with
          | true => simp at hs
          | false =>
            simp only [Bool.false_eq_true, if_false] at hw'
            subst hw'
            simp at hs
            subst hs
            exact ⟨.calling h rfl rfl rfl rfl, rfl⟩
        | over h hv hw' hr =>
          dsimp only at h hv hw' hr
          subst hv hw' hr
          cases pk with
          | true =>
            by_cases h0 : sema = 0
            · simp [h0] at hs
            · simp [h0] at hs
              subst hs
              exact ⟨.over h rfl rfl rfl, rfl⟩
          | false =>
            simp at hs
            subst hs
            exact ⟨.over h rfl rfl rfl, rfl⟩
        | waking h hv hw' hs' hp hr =>
          dsimp only at h hv hw' hs' hp hr
          subst hv hw' hs' hp hr
          simp at hs
      · obtain ⟨t, ht, rfl⟩ := Option.map_eq_some_iff.1 hs
        obtain ⟨e1, e2⟩ := main_phases ht
        dsimp only at e1 e2 h1
        refine ⟨?_, rfl⟩
        cases hq with
        | fresh h hv hw' hs' hp hr =>
          refine .fresh ?_ (e1.trans hv) hw' hs' hp hr
          rcases e2 with e2 | e2 <;> rcases h with h | h <;> dsimp only at h <;> rw [h] at e2
          · exact .inl e2
          · exact .inr e2
          · exact .inr e2
          · rw [e2] at h1; simp at h1
        | calling h hv hw' hs' hr =>
          refine .calling ?_ (e1.trans hv) hw' hs' hr
          rcases e2 with e2 | e2 <;> dsimp only at h <;> rw [h] at e2
          · exact e2
          · rw [e2] at h1; simp at h1
        | over h hv hw' hr =>
          refine .over ?_ (e1.trans hv) hw' hr
          rcases e2 with e2 | e2 <;> dsimp only at h <;> rw [h] at e2
          · exact e2
          · rw [e2] at h1; simp at h1
        | waking h hv hw' hs' hp hr =>
          refine .waking ?_ (e1.trans hv) hw' hs' hp hr
          rcases e2 with e2 | e2 <;> dsimp only at h <;> rw [h] at e2
          · exact e2
          · rw [e2] at h1; simp at h1
    | push id =>
      obtain ⟨t, ht, rfl⟩ := Option.map_eq_some_iff.1 hs
      simp only [St.step] at ht
      split at ht <;> cases ht
      refine ⟨?_, rfl⟩
      cases hq with
      | fresh h hv hw' hs' hp hr => exact .fresh h hv hw' hs' hp hr
      | calling h hv hw' hs' hr => exact .calling h hv hw' hs' hr
      | over h hv hw' hr => exact .over h hv hw' hr
      | waking h hv hw' hs' hp hr => exact .waking h hv hw' hs' hp hr
    | «begin» i =>
      obtain ⟨t, ht, rfl⟩ := Option.map_eq_some_iff.1 hs
      simp only [St.step] at ht
      split at ht <;> cases ht
      rename_i hi
      cases hq with
      | fresh h hv hw' hs' hp hr =>
        dsimp only at h hv hw' hs' hp hr
        subst hv hw' hs' hp hr
        rcases h with rfl | rfl
        · simp at hi
        · cases i with
          | zero =>
            exact ⟨.calling rfl rfl rfl rfl rfl, rfl⟩
          | succ i => simp at hi
      | calling h hv hw' hs' hr => dsimp only at h; subst h; cases i <;> simp at hi
      | over h hv hw' hr => dsimp only at h; subst h; cases i <;> simp at hi
      | waking h hv hw' hs' hp hr => dsimp only at h; subst h; cases i <;> simp at hi
    | finish i =>
      obtain ⟨t, ht, rfl⟩ := Option.map_eq_some_iff.1 hs
      simp only [St.step] at ht
      split at ht <;> cases ht
      rename_i hi
      refine ⟨?_, rfl⟩
      cases hq with
      | fresh h hv hw' hs' hp hr =>
        dsimp only at h
        rcases h with rfl | rfl
        · simp at hi
        · cases i <;> simp at hi
      | calling h hv hw' hs' hr =>
        dsimp only at h hv hw' hs' hr
        subst h hv hs' hr
        cases i with
        | zero =>
          cases pk <;> simp only [Bool.false_eq_true, if_false, if_true] at hw' <;> subst hw'
          case true => exact .waking rfl rfl rfl rfl rfl rfl
          case false => exact .over rfl rfl rfl rfl
        | succ i => simp at hi
      | over h hv hw' hr => dsimp only at h; subst h; cases i <;> simp at hi
      | waking h hv hw' hs' hp hr => dsimp only at h; subst h; cases i <;> simp at hi
  | release i =>
    simp only at hs
    cases hq with
    | fresh h hv hw' hs' hp hr => dsimp only at hr; subst hr; simp at hs
    | calling h hv hw' hs' hr => dsimp only at hr; subst hr; simp at hs
    | over h hv hw' hr => dsimp only at hr; subst hr; simp at hs
    | waking h hv hw' hs' hp hr =>
      dsimp only at h hv hw' hs' hp hr
      subst hv hw' hs' hp hr
      cases i with
      | zero =>
        simp at hs
        subst hs
        exact ⟨.over h rfl rfl (by simp), rfl⟩
      | succ i => simp at hs

/-- While at most one call has been started, nothing panics. -/
private theorem one_call {q0 : List Str} {ls : List WLbl} {s : WSt} (h : (WSt.init q0).run ls = some s) :
    s.st.phases.length ≤ 1 → Quiet s ∧ s.crashed = false := by
  refine wrun_induct (P := fun _ s => s.st.phases.length ≤ 1 → Quiet s ∧ s.crashed = false) ?_ ?_ ls s h
  · intro _
    exact ⟨.fresh (.inl rfl) rfl rfl rfl rfl rfl, rfl⟩
  · intro ls s l s' ih hs h1
    have hle : s.st.phases.length ≤ s'.st.phases.length := by
      rcases step_refines hs with ⟨e, -⟩ | ⟨l', e, -⟩
      · exact Nat.le_of_eq (by rw [e])
      · exact phases_grow e
    obtain ⟨hq, hc⟩ := ih (by omega)
    exact quiet_step hc hq hs h1

private theorem flatten_length_ge {l : List (List Str)} (h1 : ∀ c ∈ l, 0 < c.length) (h2 : ∀ c ∈ l.dropLast, c.length = 500)
    (h3 : 2 ≤ l.length) : 500 < l.flatten.length := by
  match l, h3 with
  | a :: b :: l, _ =>
    have ha := h2 a (by simp [List.dropLast])
    have hb := h1 b (by simp)
    simp only [List.flatten_cons, List.length_append]
    omega

/-- **C125 (what holds).** Partial: full C125 has no limit.  However its goroutines and those that fill the channel are
scheduled, `activateTickets` does not panic before more than 500 ids have been put in the channel. -/
theorem C125_up_to_500_partial (q0 : List Str) (ls : List WLbl) (s : WSt) (h : (WSt.init q0).run ls = some s)
    (hc : s.crashed = true) : 500 < (q0 ++ pushedW ls).length := by
  obtain ⟨ls', hr, hp⟩ := C125_refines q0 ls s h
  obtain ⟨b1, b2, ⟨g, b3⟩, -⟩ := C63_batches q0 ls' s.st hr
  have h2 : 2 ≤ s.st.calls.length := by
    by_contra hlt
    have := (one_call h (by rw [(inv hr).len]; omega)).2
    rw [hc] at this; cases this
  have := flatten_length_ge (fun c hcm => (b1 c hcm).1) b2 h2
  rw [← hp, ← b3]
  simp only [List.length_append]
  omega

/-! ## More than one -/

/-- A state in which only `activateTickets` itself has run. -/
private def alone (t : St) : WSt :=
  { st := t, waiters := 0, sema := 0, parked := false, releasing := [], crashed := false }

/-- `activateTickets` alone, up to its `Wait`. -/
private theorem solo {q0 : List Str} : ∀ (n : Nat) {ls : List Lbl} {t : St}, left t ≤ n → (St.init q0).run ls = some t →
    pushed ls = [] → t.wg = 0 → (∀ p ∈ t.phases, p = .created) → t.pc ≠ .returned →
    ∃ (ls' : List Lbl) (k : Nat) (t' : St), (St.init q0).run ls' = some t' ∧ pushed ls' = [] ∧ t'.wg = 0 ∧
      (∀ p ∈ t'.phases, p = .created) ∧ t'.pc = .wait ∧ (alone t).run (List.replicate k (.lbl .main)) = some (alone t') := by
  intro n
  induction n with
  | zero =>
    intro ls t hn h _ _ _ hr
    have : mainLeft t ≠ 0 := by
      unfold mainLeft
      cases hpc : t.pc <;> simp only <;> (try split) <;> (try split) <;> first | omega | exact absurd hpc hr
    unfold left at hn
    omega
  | succ n ih =>
    intro ls t hn h hp hwg hph hr
    by_cases hw : t.pc = .wait
    · exact ⟨ls, 0, t, h, hp, hwg, hph, hw, rfl⟩
    · obtain ⟨t', ht⟩ : ∃ t', t.step .main = some t' := by
        simp only [St.step, St.main]
        cases hpc : t.pc with
        | outer => dsimp only; split <;> exact ⟨_, rfl⟩
        | collect => dsimp only; split
                     · exact ⟨_, rfl⟩
                     · split <;> exact ⟨_, rfl⟩
        | send => dsimp only; split <;> exact ⟨_, rfl⟩
        | wait => exact absurd hpc hw
        | returned => exact absurd hpc hr
      have hlt := left_step (inv h) rfl ht
      have hrun : (St.init q0).run (ls ++ [.main]) = some t' := by
        rw [run_append, h]; simp [St.run, ht]
      obtain ⟨e1, e2⟩ := main_phases ht
      have hr' : t'.pc ≠ .returned := by
        simp only [St.step, St.main] at ht
        split at ht
        · split at ht <;> cases ht <;> simp
        · split at ht
          · cases ht; simp
          · split at ht <;> cases ht <;> simp_all
        · split at ht <;> cases ht <;> simp
        · exact absurd ‹_› hw
        · cases ht
      obtain ⟨ls', k, t2, g1, g2, g3, g4, g5, g6⟩ := ih (by omega) hrun (by rw [pushed_append, hp]; rfl) (e1.trans hwg)
        (by
          rcases e2 with e2 | e2 <;> rw [e2]
          · exact hph
          · intro p hp
            rcases List.mem_append.1 hp with hp | hp
            · exact hph p hp
            · simpa using hp) hr'
      refine ⟨ls', k + 1, t2, g1, g2, g3, g4, g5, ?_⟩
      have hstep : (alone t).step (.lbl .main) = some (alone t') := by
        unfold WSt.step alone
        have ht' : t.main = some t' := ht
        simp only [Bool.false_eq_true, if_false, hw, ht']
        rfl
      rw [List.replicate_succ]
      simp only [WSt.run, hstep]
      exact g6

/-- **C125, exactly.** With nothing more put in the channel, some schedule makes `activateTickets` panic if and only
if there are more than 500 ids. -/
theorem C125_exactly (q0 : List Str) :
    (∃ ls s, pushedW ls = [] ∧ (WSt.init q0).run ls = some s ∧ s.crashed = true) ↔ 500 < q0.length := by
  constructor
  · rintro ⟨ls, s, hp, h, hc⟩
    have := C125_up_to_500_partial q0 ls s h hc
    rwa [hp, List.append_nil] at this
  · intro hlen
    obtain ⟨ls', k, t, g1, g2, g3, g4, g5, g6⟩ :=
      solo (left (St.init q0)) (ls := []) (t := St.init q0) (Nat.le_refl _) rfl rfl rfl (by simp [St.init]) (by simp [St.init])
    have hi := inv g1
    obtain ⟨d1, d2⟩ := hi.ended (.inl g5)
    have hq := hi.drained g2 d1 d2
    have hsp := hi.split
    rw [hq, g2] at hsp
    simp only [pend, g5, reduceCtorEq, or_self, if_false, List.append_nil] at hsp
    have h2 : 2 ≤ t.phases.length := by
      rw [hi.len]
      by_contra hlt
      have : t.calls.flatten.length ≤ 500 := by
        match hcs : t.calls with
        | [] => simp
        | [c] => simpa [maxActivationsPerCall] using (hi.legal c (by rw [hcs]; simp)).2
        | _ :: _ :: _ => rw [hcs] at hlt; simp at hlt
      rw [hsp] at this
      omega
    obtain ⟨rest, hrest⟩ : ∃ rest, t.phases = .created :: .created :: rest := by
      match hph : t.phases, h2 with
      | a :: b :: rest, _ =>
        have ha := g4 a (by rw [hph]; simp)
        have hb := g4 b (by rw [hph]; simp)
        subst ha hb
        exact ⟨rest, rfl⟩
    obtain ⟨q, acc, d, pc, calls, ph, wg⟩ := t
    dsimp only at g3 g5 hrest
    subst g3 g5 hrest
    have hfin : ∃ f, (alone { queue := q, acc, done := d, pc := .wait, calls, phases := .created :: .created :: rest, wg := 0 }).run
        [.lbl (.begin 0), .lbl .main, .lbl (.finish 0), .lbl (.begin 1)] = some f ∧ f.crashed = true :=
      ⟨_, rfl, rfl⟩
    obtain ⟨f, hf, hfc⟩ := hfin
    refine ⟨List.replicate k (.lbl .main) ++ [.lbl (.begin 0), .lbl .main, .lbl (.finish 0), .lbl (.begin 1)], f, ?_, ?_, hfc⟩
    · rw [pushedW_append]
      have : ∀ k, pushedW (List.replicate k (.lbl .main)) = [] := by
        intro k
        induction k with
        | zero => rfl
        | succ k ih => exact ih
      rw [this]
      rfl
    · rw [wrun_append]
      change ((alone (St.init q0)).run _).bind _ = _
      rw [g6]
      exact hf

/-- 501 ids are enough. -/
example : ∃ ls s, pushedW ls = [] ∧ (WSt.init (List.replicate 501 "t".toList)).run ls = some s ∧ s.crashed = true :=
  (C125_exactly _).2 (by rw [List.length_replicate]; omega)

/-- `C125_up_to_500_partial` is about runs like this: one ticket, activated to the end, `Wait` asleep in between. -/
example : ((WSt.init ["a".toList]).run
    [.lbl .main, .lbl .main, .lbl .main, .lbl .main, .lbl .main, .lbl .main, .lbl (.begin 0), .lbl .main, .lbl (.finish 0), .release 0, .lbl .main]).map
      (fun s => (s.st.pc, s.st.calls, s.crashed)) = some (.returned, [["a".toList]], false) := by decide

/-- **C125 (refuted).** 501 tickets to activate can make the matchmaker panic. -/
theorem C125_never_crashes_refuted :
    ¬ ∀ (q0 : List Str) (ls : List WLbl) (s : WSt), (WSt.init q0).run ls = some s → s.crashed = false := by
  intro h
  obtain ⟨ls, s, -, hr, hc⟩ := (C125_exactly (List.replicate 501 "t".toList)).2 (by rw [List.length_replicate]; omega)
  rw [h _ ls s hr] at hc
  cases hc

/-! ## It ends -/

/-- Where the WaitGroup can be, before a panic. -/
private structure Calm (s : WSt) : Prop where
  asleep : s.waiters + s.sema = if s.parked then 1 else 0
  where_ : s.parked = true → s.st.pc = .wait
  wake : (s.releasing = [] ∧ (s.waiters ≠ 0 → s.st.wg ≠ 0)) ∨ ∃ i, s.releasing = [(i, 1)] ∧ s.waiters = 1 ∧ s.st.wg = 0

private theorem calm_step {q0 : List Str} {ls : List Lbl} {s s' : WSt} {l : WLbl} (hi : Mm.Inv q0 ls s.st) (hc : s.crashed = false) (h : Calm s)
    (hs : s.step l = some s') (hc' : s'.crashed = false) : Calm s' := by
  obtain ⟨h1, h2, h3⟩ := h
  unfold WSt.step at hs
  rw [hc] at hs
  simp only [Bool.false_eq_true, if_false] at hs
  cases l with
  | lbl l =>
    cases l with
    | main =>
      simp only at hs
      split at hs
      · rename_i hw
        split at hs
        · rename_i hp
          rw [hp] at h1
          simp only [if_true] at h1
          split at hs
          · cases hs
          · split at hs <;> cases hs
            · cases hc'
            · rename_i hne h0
              push Not at h0
              refine ⟨by simp only [Bool.false_eq_true, if_false]; omega, fun h => (by cases h), .inl ⟨?_, fun h => absurd h0.2 h⟩⟩
              rcases h3 with ⟨h, -⟩ | ⟨i, -, h, -⟩
              · exact h
              · omega
        · rename_i hp
          simp only [hp, Bool.false_eq_true, if_false] at h1
          split at hs <;> cases hs
          · rename_i h0
            refine ⟨by simp only [hp, Bool.false_eq_true, if_false]; exact h1, fun h => absurd h hp, .inl ⟨?_, fun h => (h (by dsimp only; omega)).elim⟩⟩
            rcases h3 with ⟨h, -⟩ | ⟨i, -, h, -⟩
            · exact h
            · omega
          · rename_i h0
            refine ⟨by simp only [if_true]; omega, fun _ => hw, .inl ⟨?_, fun _ => h0⟩⟩
            rcases h3 with ⟨h, -⟩ | ⟨i, -, h, -⟩
            · exact h
            · omega
      · rename_i hw
        obtain ⟨t, ht, rfl⟩ := Option.map_eq_some_iff.1 hs
        have hwg := (main_phases ht).1
        refine ⟨h1, fun h => absurd (h2 h) hw, ?_⟩
        dsimp only
        rw [hwg]; exact h3
    | push id =>
      obtain ⟨t, ht, rfl⟩ := Option.map_eq_some_iff.1 hs
      simp only [St.step] at ht
      split at ht <;> cases ht
      exact ⟨h1, h2, h3⟩
    | «begin» i =>
      obtain ⟨t, ht, rfl⟩ := Option.map_eq_some_iff.1 hs
      simp only [St.step] at ht
      split at ht <;> cases ht
      by_cases h0 : s.st.wg = 0 ∧ s.waiters ≠ 0
      · rw [if_pos h0] at hc'; cases hc'
      · rw [if_neg h0]
        refine ⟨h1, h2, .inl ⟨?_, fun _ => Nat.succ_ne_zero _⟩⟩
        rcases h3 with ⟨h, -⟩ | ⟨i, -, hw, hg⟩
        · exact h
        · exact absurd ⟨hg, by omega⟩ h0
    | finish i =>
      obtain ⟨t, ht, rfl⟩ := Option.map_eq_some_iff.1 hs
      simp only [St.step] at ht
      split at ht <;> cases ht
      rename_i hph
      have hpos : s.st.wg ≠ 0 := by
        rw [hi.wg]
        exact Nat.pos_iff_ne_zero.1 (List.count_pos_iff.2 (List.mem_of_getElem? hph))
      have hr : s.releasing = [] := by
        rcases h3 with ⟨h, -⟩ | ⟨i, -, -, hg⟩
        · exact h
        · exact absurd hg hpos
      refine ⟨h1, h2, ?_⟩
      dsimp only
      by_cases h0 : s.st.wg - 1 = 0 ∧ s.waiters ≠ 0
      · rw [if_pos h0, hr]
        have hw1 : s.waiters = 1 := by split at h1 <;> omega
        exact .inr ⟨i, by rw [hw1]; rfl, hw1, h0.1⟩
      · rw [if_neg h0, hr]
        exact .inl ⟨rfl, fun hw hg => h0 ⟨hg, hw⟩⟩
  | release i =>
    simp only at hs
    split at hs
    · rename_i x w hf
      split at hs <;> cases hs
      · cases hc'
      · rename_i h0
        push Not at h0
        rcases h3 with ⟨h, -⟩ | ⟨k, hk, hw, hg⟩
        · rw [h] at hf; simp at hf
        · rw [hk] at hf ⊢
          simp only [List.find?_cons, List.find?_nil] at hf
          split at hf
          · rename_i hki
            cases hf
            refine ⟨by dsimp only; rw [← h1]; omega, h2, .inl ⟨by simp [hki], fun h => absurd rfl h⟩⟩
          · cases hf
    · cases hs

private theorem calm {q0 : List Str} {ls : List WLbl} {s : WSt} (h : (WSt.init q0).run ls = some s) (hc : s.crashed = false) : Calm s := by
  have : (WSt.init q0).run ls = some s ∧ (s.crashed = false → Calm s) :=
    wrun_induct (P := fun ls s => (WSt.init q0).run ls = some s ∧ (s.crashed = false → Calm s))
      ⟨rfl, fun _ => ⟨rfl, fun h => by simp [WSt.init] at h, .inl ⟨rfl, fun h => absurd rfl h⟩⟩⟩
      (fun ls s l s' ih hs => ⟨by rw [wrun_append, ih.1]; simp [WSt.run, hs], fun hc' => by
        have hc : s.crashed = false := by
          unfold WSt.step at hs
          split at hs
          · cases hs
          · rename_i h; simpa using h
        obtain ⟨ls', hr, -⟩ := C125_refines q0 ls s ih.1
        exact calm_step (inv hr) hc (ih.2 hc) hs hc'⟩) ls s h
  exact this.2 hc

/-- Everything is over: `activateTickets` has returned and so have its calls. -/
def AllOver (s : WSt) : Prop := s.st.pc = .returned ∧ ∀ g ∈ s.st.phases, g = .finished

/-- **C125 (it ends).** Before a panic there is always something that can be done without more ids in the channel, until
`activateTickets` has returned and its calls have; and that is only so much. -/
theorem C125_ends (q0 : List Str) (ls : List WLbl) (s : WSt) (h : (WSt.init q0).run ls = some s) (hc : s.crashed = false) :
    (AllOver s ∨ ∃ l s', pushedW [l] = [] ∧ s.step l = some s') ∧
    ∃ m, ∀ own s', s.run own = some s' → pushedW own = [] → own.length ≤ m := by
  obtain ⟨ls', hr, -⟩ := C125_refines q0 ls s h
  have hi := inv hr
  obtain ⟨h1, h2, h3⟩ := calm h hc
  constructor
  · have hgo : ∀ g ∈ s.st.phases, g = .finished ∨ ∃ l s', pushedW [l] = [] ∧ s.step l = some s' := by
      intro g hg
      obtain ⟨i, hi', hgi⟩ := List.mem_iff_getElem.1 hg
      have hgi : s.st.phases[i]? = some g := by rw [List.getElem?_eq_getElem hi', hgi]
      cases g with
      | finished => exact .inl rfl
      | created =>
        have : ∃ s', s.step (.lbl (.begin i)) = some s' := by
          unfold WSt.step
          rw [hc]
          simp only [Bool.false_eq_true, if_false, St.step, if_pos hgi, Option.map_some]
          exact ⟨_, rfl⟩
        exact .inr ⟨_, this.choose, rfl, this.choose_spec⟩
      | calling =>
        have : ∃ s', s.step (.lbl (.finish i)) = some s' := by
          unfold WSt.step
          rw [hc]
          simp only [Bool.false_eq_true, if_false, St.step, if_pos hgi, Option.map_some]
          exact ⟨_, rfl⟩
        exact .inr ⟨_, this.choose, rfl, this.choose_spec⟩
    have hmain : ∀ s', s.step (.lbl .main) = some s' → ∃ l s', pushedW [l] = [] ∧ s.step l = some s' :=
      fun s' h => ⟨.lbl .main, s', rfl, h⟩
    by_cases hret : s.st.pc = .returned
    · by_cases hall : ∀ g ∈ s.st.phases, g = .finished
      · exact .inl ⟨hret, hall⟩
      · push Not at hall
        obtain ⟨g, hg, hne⟩ := hall
        exact .inr ((hgo g hg).resolve_left hne)
    · right
      by_cases hw : s.st.pc = .wait
      · by_cases hp : s.parked = true
        · by_cases hs0 : s.sema = 0
          · rw [hp] at h1
            simp only [if_true] at h1
            rcases h3 with ⟨-, h⟩ | ⟨i, hrel, hw1, hg⟩
            · have hwg := h (by omega)
              rw [hi.wg] at hwg
              have hmem := List.count_pos_iff.1 (Nat.pos_iff_ne_zero.2 hwg)
              exact (hgo _ hmem).resolve_left (by simp)
            · refine ⟨.release i, { s with sema := s.sema + 1, waiters := 0, releasing := s.releasing.eraseP (fun r => r.1 == i) }, rfl, ?_⟩
              unfold WSt.step
              rw [hc]
              simp [hrel, hw1, hg]
          · by_cases hbad : s.st.wg ≠ 0 ∨ s.waiters ≠ 0
            · exact hmain { s with sema := s.sema - 1, crashed := true } (by unfold WSt.step; simp [hc, hw, hp, hs0, hbad])
            · exact hmain { s with sema := s.sema - 1, parked := false, st := { s.st with pc := .returned } }
                (by unfold WSt.step; push Not at hbad; simp [hc, hw, hp, hs0, hbad])
        · by_cases h0 : s.st.wg = 0
          · exact hmain { s with st := { s.st with pc := .returned } } (by unfold WSt.step; simp [hc, hw, hp, h0])
          · exact hmain { s with waiters := s.waiters + 1, parked := true } (by unfold WSt.step; simp [hc, hw, hp, h0])
      · obtain ⟨t, ht⟩ : ∃ t, s.st.main = some t := by
          simp only [St.main]
          cases hpc : s.st.pc with
          | outer => dsimp only; split <;> exact ⟨_, rfl⟩
          | collect => dsimp only; split
                       · exact ⟨_, rfl⟩
                       · split <;> exact ⟨_, rfl⟩
          | send => dsimp only; split <;> exact ⟨_, rfl⟩
          | wait => exact absurd hpc hw
          | returned => exact absurd hpc hret
        exact hmain { s with st := t } (by unfold WSt.step; simp [hc, hw, ht])
  · -- steps left
    let μ : WSt → Nat := fun s => 3 * left s.st + (if s.parked then 0 else 1) + s.releasing.length + (if s.crashed then 0 else 1)
    have dec : ∀ (ls' : List Lbl) (s s' : WSt) (l : WLbl), Mm.Inv q0 ls' s.st → pushedW [l] = [] → s.step l = some s' → μ s' < μ s := by
      intro ls' s s' l hi hl hs
      unfold WSt.step at hs
      split at hs
      · cases hs
      rename_i hcr
      have hcr : s.crashed = false := by simpa using hcr
      have hlt : ∀ {l' t}, isPush l' = false → s.st.step l' = some t → left t < left s.st := fun h1 h2 => left_step hi h1 h2
      cases l with
      | lbl l =>
        cases l with
        | main =>
          simp only at hs
          split at hs
          · rename_i hw
            have hret : s.st.wg = 0 → left ⟨s.st.queue, s.st.acc, s.st.done, .returned, s.st.calls, s.st.phases, s.st.wg⟩ < left s.st := fun h0 =>
              hlt (l' := .main) rfl (by simp [St.step, St.main, hw, h0])
            split at hs
            · rename_i hp
              split at hs
              · cases hs
              · split at hs <;> cases hs
                · simp only [μ, hcr]; simp
                · rename_i h0
                  push Not at h0
                  have := hret h0.1
                  simp only [μ, hcr, hp, if_true, Bool.false_eq_true, if_false]; omega
            · rename_i hp
              split at hs <;> cases hs
              · rename_i h0
                have := hret h0
                simp only [μ, hcr]; omega
              · simp only [μ, hcr, hp, if_true, Bool.false_eq_true, if_false]; omega
          · obtain ⟨t, ht, rfl⟩ := Option.map_eq_some_iff.1 hs
            have := hlt (l' := .main) rfl ht
            simp only [μ, hcr]; omega
        | push id => cases hl
        | «begin» i =>
          obtain ⟨t, ht, rfl⟩ := Option.map_eq_some_iff.1 hs
          have := hlt (l' := .begin i) rfl ht
          split
          · simp only [μ, hcr]; simp
          · simp only [μ, hcr]; omega
        | finish i =>
          obtain ⟨t, ht, rfl⟩ := Option.map_eq_some_iff.1 hs
          have := hlt (l' := .finish i) rfl ht
          have hlen : (if t.wg = 0 ∧ s.waiters ≠ 0 then s.releasing ++ [(i, s.waiters)] else s.releasing).length ≤ s.releasing.length + 1 := by
            split <;> simp
          simp only [μ, hcr]
          omega
      | release i =>
        simp only at hs
        split at hs
        · rename_i x w hf
          split at hs <;> cases hs
          · simp only [μ, hcr]; simp
          · simp only [μ, hcr]
            have := List.length_eraseP_of_mem (List.mem_of_find?_eq_some hf) (p := fun r => r.1 == i) (by
              have := List.find?_some hf; exact this)
            have hpos := List.length_pos_of_mem (List.mem_of_find?_eq_some hf)
            omega
        · cases hs
    refine ⟨μ s, ?_⟩
    have gen : ∀ (own ls : List WLbl) (s s' : WSt), (WSt.init q0).run ls = some s → s.run own = some s' → pushedW own = [] → own.length ≤ μ s := by
      intro own
      induction own with
      | nil => intro ls s s' _ _ _; exact Nat.zero_le _
      | cons l own ih =>
        intro ls s s' hs hr hp
        obtain ⟨t, ht, hr⟩ := Option.bind_eq_some_iff.1 hr
        rw [← List.singleton_append, pushedW_append, List.append_eq_nil_iff] at hp
        obtain ⟨ls', hr', -⟩ := C125_refines q0 ls s hs
        have e1 := dec ls' s t l (inv hr') hp.1 ht
        have e2 := ih (ls ++ [l]) t s' (by rw [wrun_append, hs]; simp [WSt.run, ht]) hr hp.2
        simp only [List.length_cons]
        omega
    intro own s' hr hp
    exact gen own ls s s' h hr hp

/-- **C125 (as it should be used).** Nothing panics if every goroutine that was started has begun its call, and so called `Add`,
before `Wait` is called. -/
theorem C125_begun_first (q0 : List Str) (ls ls2 : List WLbl) (s s2 : WSt) (h : (WSt.init q0).run ls = some s) (hc : s.crashed = false)
    (hw : s.st.pc = .wait) (hp : s.parked = false) (hb : ∀ g ∈ s.st.phases, g ≠ .created) (h2 : s.run ls2 = some s2) : s2.crashed = false := by
  have h0 := calm h hc
  have hsem : s.waiters = 0 ∧ s.sema = 0 := by
    have := h0.asleep
    rw [hp] at this
    simp only [Bool.false_eq_true, if_false] at this
    omega
  let I : WSt → Prop := fun s => s.crashed = false ∧ (s.st.pc = .wait ∨ s.st.pc = .returned) ∧ (∀ g ∈ s.st.phases, g ≠ .created) ∧
    (s.sema ≠ 0 → s.st.wg = 0)
  have gen : ∀ (own ls : List WLbl) (s s' : WSt), (WSt.init q0).run ls = some s → I s → s.run own = some s' → I s' := by
    intro own
    induction own with
    | nil => intro ls s s' _ hI hr; cases hr; exact hI
    | cons l own ih =>
      intro ls s s' hs hI hr
      obtain ⟨t, ht, hr⟩ := Option.bind_eq_some_iff.1 hr
      refine ih (ls ++ [l]) t s' (by rw [wrun_append, hs]; simp [WSt.run, ht]) ?_ hr
      obtain ⟨i1, i2, i3, i4⟩ := hI
      have hcalm := calm hs i1
      obtain ⟨c1, c2, c3⟩ := hcalm
      unfold WSt.step at ht
      rw [i1] at ht
      simp only [Bool.false_eq_true, if_false] at ht
      cases l with
      | lbl l =>
        cases l with
        | main =>
          simp only at ht
          split at ht
          · split at ht
            · rename_i hpk
              rw [hpk] at c1
              simp only [if_true] at c1
              split at ht
              · cases ht
              · rename_i hne
                have hg := i4 hne
                split at ht <;> cases ht
                · rename_i hbad
                  rcases hbad with hbad | hbad
                  · exact absurd hg hbad
                  · omega
                · exact ⟨rfl, .inr rfl, i3, fun h => (h (by dsimp only; omega)).elim⟩
            · split at ht <;> cases ht
              · exact ⟨rfl, .inr rfl, i3, i4⟩
              · exact ⟨rfl, i2, i3, i4⟩
          · rename_i hnw
            have hret := i2.resolve_left hnw
            simp [St.main, hret] at ht
        | push id =>
          obtain ⟨u, hu, rfl⟩ := Option.map_eq_some_iff.1 ht
          simp only [St.step] at hu
          split at hu <;> cases hu
          exact ⟨rfl, i2, i3, i4⟩
        | «begin» i =>
          obtain ⟨u, hu, rfl⟩ := Option.map_eq_some_iff.1 ht
          simp only [St.step] at hu
          split at hu <;> cases hu
          rename_i hph
          exact absurd rfl (i3 _ (List.mem_of_getElem? hph))
        | finish i =>
          obtain ⟨u, hu, rfl⟩ := Option.map_eq_some_iff.1 ht
          simp only [St.step] at hu
          split at hu <;> cases hu
          refine ⟨rfl, i2, ?_, fun h => ?_⟩
          · intro g hg
            dsimp only at hg
            rcases List.mem_or_eq_of_mem_set hg with hg | hg
            · exact i3 g hg
            · rw [hg]; decide
          · have := i4 h
            dsimp only
            omega
      | release i =>
        simp only at ht
        split at ht
        · rename_i x w hf
          rcases c3 with ⟨h, -⟩ | ⟨k, hk, hw1, hg⟩
          · rw [h] at hf; simp at hf
          · rw [hk] at hf
            simp only [List.find?_cons, List.find?_nil] at hf
            split at hf
            · cases hf
              rw [if_neg (by simp [hg, hw1])] at ht
              cases ht
              exact ⟨rfl, i2, i3, fun _ => hg⟩
            · cases hf
        · cases ht
  exact (gen ls2 ls s s2 h ⟨hc, .inl hw, hb, fun h => absurd hsem.2 h⟩ h2).1

/-- The hypotheses of `C125_begun_first` are met: one ticket, whose call has begun when `Wait` is called. -/
example : ((WSt.init ["a".toList]).run
    [.lbl .main, .lbl .main, .lbl .main, .lbl .main, .lbl .main, .lbl .main, .lbl (.begin 0)]).map
      (fun s => (s.crashed, s.st.pc, s.parked, s.st.phases)) = some (false, .wait, false, [.calling]) := by decide

end OM.Props
