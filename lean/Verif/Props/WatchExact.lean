import Verif.Props.Watch
/-! # Property C59, exactly: when a watch panics om-core -/
namespace OM.Props
open OM.Watch OM.Spec

private theorem run_append (cfg : Config) (now0 : Int) (ids : List Str) (s : St) (a b : List Label) :
    run cfg now0 ids s (a ++ b) = (run cfg now0 ids s a).bind fun s' => run cfg now0 ids s' b := by
  induction a generalizing s with
  | nil => rfl
  | cons l a ih =>
    simp only [List.cons_append, run]
    cases step cfg now0 ids s l with
    | none => rfl
    | some s1 => exact ih s1

/-- Fewer responses have been sent for `id` than the request names it. -/
def Unserved (ids : List Str) (s : St) (id : Str) : Prop := (s.sent.map (·.1)).count id < ids.count id

private theorem unserved_waits {cfg : Config} {now0 : Int} {ids : List Str} {s : St} (h : Watch.Inv cfg now0 ids s)
    (hm : s.main = .returned true) {id : Str} (hu : Unserved ids s id) :
    ∃ (j : Nat) (g : Watch.Goro), s.gos[j]? = some g ∧ g.id = id ∧ g.pc ≠ .done := by
  by_contra hno
  push Not at hno
  have hall : ∀ g ∈ s.gos, g.id = id → g.pc = .done := by
    intro g hg hgi
    obtain ⟨j, hj⟩ := List.mem_iff_getElem?.1 hg
    exact hno j g hj hgi
  have hids : s.gos.map (·.id) = ids := by
    have := h.main
    simp only [MainInv, hm] at this
    exact this.1
  have hw := h.weights fun x => if x = id then 1 else 0
  rw [hm] at hw
  simp only [Main.cur, List.append_nil] at hw
  have e1 : ∀ l : List Watch.Goro, (∀ g ∈ l, g.id = id → g.pc = .done) →
      (l.map (doneW fun x => if x = id then 1 else 0)).sum = (l.map (·.id)).count id := by
    intro l
    induction l with
    | nil => intro _; rfl
    | cons g l ih =>
      intro hl
      rw [List.map_cons, List.sum_cons, List.map_cons, List.count_cons, ih fun x hx => hl x (by simp [hx])]
      by_cases hg : g.id = id
      · simp [doneW, hl g (by simp) hg, hg]; omega
      · simp [doneW, hg]
  have e2 : ∀ l : List (Str × Assignment), (l.map fun r => if r.1 = id then 1 else 0).sum = (l.map (·.1)).count id := by
    intro l
    induction l with
    | nil => rfl
    | cons r l ih =>
      rw [List.map_cons, List.sum_cons, List.map_cons, List.count_cons, ih]
      by_cases hr : r.1 = id <;> simp [hr]; omega
  rw [e1 _ hall, hids, e2] at hw
  unfold Unserved at hu
  omega

/-- After a timeout some watched id is unserved. -/
theorem C59_timeout_leaves_unserved (cfg : Config) (now0 : Int) (ids : List Str) (c : GoMap Assignment) (ls : List Label)
    (s : St) (hr : run cfg now0 ids (init now0 c) ls = some s) (hm : s.main = .returned true) :
    ∃ id ∈ ids, Unserved ids s id := by
  have h := inv_run (inv_init cfg now0 ids c) hr
  have hi := h.main
  simp only [MainInv, hm] at hi
  by_contra hno
  push Not at hno
  have hle : ids.length ≤ (s.sent.map (·.1)).length := by
    refine (List.Subperm.length_le ?_)
    rw [List.subperm_ext_iff]
    intro x hx
    have := hno x hx
    unfold Unserved at this
    omega
  rw [List.length_map] at hle
  omega

/-- **C59 (when it panics).** A call that has timed out panics om-core as soon as an assignment
arrives for an id it still owes: whatever the request, the schedule and the assignments so far, for
every such id and every later content `c'` of the assignments map naming it, the goroutine
polling the id panics with its next two steps at most. -/
theorem C59_late_assignment_crashes (cfg : Config) (now0 : Int) (ids : List Str) (c : GoMap Assignment) (ls : List Label)
    (s : St) (hr : run cfg now0 ids (init now0 c) ls = some s) (hc : s.crashed = false) (hm : s.main = .returned true)
    (id : Str) (hu : Unserved ids s id) (c' : GoMap Assignment) (a : Assignment) (ha : c'.load id = some a) :
    ∃ j s', (run cfg now0 ids s [.cacheSet c', .poll j, .crash j] = some s' ∨
      run cfg now0 ids s [.cacheSet c', .crash j] = some s') ∧ s'.crashed = true := by
  obtain ⟨j, g, hj, hg, hpc⟩ := unserved_waits (inv_run (inv_init cfg now0 ids c) hr) hm hu
  have hlt := (List.getElem?_eq_some_iff.1 hj).1
  cases hp : g.pc with
  | done => exact absurd hp hpc
  | send b =>
    refine ⟨j, { s with cache := c', hist := s.hist ++ [c'], crashed := true }, .inr ?_, rfl⟩
    simp [run, step, hc, hm, hj, hp]
  | poll =>
    refine ⟨j, { s with cache := c', hist := s.hist ++ [c'], gos := s.gos.set j { g with pc := .send a }, crashed := true }, .inl ?_, rfl⟩
    rw [← hg] at ha
    have h1 : step cfg now0 ids { s with cache := c', hist := s.hist ++ [c'] } (.poll j) =
        some { s with cache := c', hist := s.hist ++ [c'], gos := s.gos.set j { g with pc := .send a } } := by
      simp only [step, hc, hj, hp, ha]; simp
    have h2 : step cfg now0 ids s (.cacheSet c') = some { s with cache := c', hist := s.hist ++ [c'] } := by simp [step, hc]
    simp only [run, h2, Option.bind_some, h1]
    simp only [step, hc, hm, List.getElem?_set_self hlt]
    simp

/-- **C59 (exactly).** om-core can panic because of a watch exactly when the watch can time out:
that is, when the request names an id at all. -/
theorem C59_crash_exactly (cfg : Config) (now0 : Int) (ids : List Str) (c : GoMap Assignment) :
    (∃ ls s, run cfg now0 ids (init now0 c) ls = some s ∧ s.crashed = true) ↔ ids ≠ [] := by
  constructor
  · rintro ⟨ls, s, hr, hc⟩ rfl
    have h := inv_run (inv_init cfg now0 [] c) hr
    have hi := h.main
    simp only [MainInv, h.crash hc] at hi
    exact absurd hi.2.1 (by simp)
  · intro hne
    -- all goroutines are started, the timer fires, an assignment arrives
    have start : ∀ k ≤ ids.length, ∃ ls s, run cfg now0 ids (init now0 c) ls = some s ∧ s.crashed = false ∧
        s.main = .starting k := by
      intro k
      induction k with
      | zero => intro _; exact ⟨[], _, rfl, rfl, rfl⟩
      | succ k ih =>
        intro hk
        obtain ⟨ls, s, r, hc, hm⟩ := ih (by omega)
        refine ⟨ls ++ [.launch], { s with gos := s.gos ++ [⟨ids[k], .poll⟩], main := .starting (k + 1) }, ?_, hc, rfl⟩
        rw [run_append, r]
        simp [run, step, hc, hm, List.getElem?_eq_getElem (show k < ids.length by omega)]
    obtain ⟨ls, s, r, hc, hm⟩ := start ids.length (Nat.le_refl _)
    have hlen : 0 < ids.length := List.length_pos_iff.2 hne
    let f := fireAt cfg.ttl now0 s.now ids
    let t := max s.now f
    have r2 : run cfg now0 ids (init now0 c) (ls ++ [.begin, .tick t, .timeout]) =
        some { s with main := .returned true, gauge := s.gauge + ids.length + ((ids.length : Int) - (0 : Nat)), fire := f, now := t } := by
      rw [run_append, r]
      have h1 : s.now ≤ t := Int.le_max_left _ _
      have h2 : f ≤ t := Int.le_max_right _ _
      simp only [Option.bind_some, run, step, hc, hm]
      simp [h1, hlen]
      exact ⟨h2, rfl⟩
    obtain ⟨id, -, hu⟩ := C59_timeout_leaves_unserved cfg now0 ids c _ _ r2 rfl
    obtain ⟨j, s', h | h, hcr⟩ := C59_late_assignment_crashes cfg now0 ids c _ _ r2 hc rfl id hu [(id, ⟨[], []⟩)] ⟨[], []⟩
      (by simp [GoMap.load])
    · exact ⟨_, s', by rw [run_append, r2, Option.bind_some]; exact h, hcr⟩
    · exact ⟨_, s', by rw [run_append, r2, Option.bind_some]; exact h, hcr⟩

/-- A watch on two ids that timed out after serving the first. -/
example : ∃ s, run Config.default watchStart [w1, w2] (init watchStart []) (lateRun.take 9) = some s ∧ s.crashed = false ∧
    s.main = .returned true ∧ Unserved [w1, w2] s w2 ∧ GoMap.load [(w2, srv)] w2 = some srv := by
  have h1 : (run Config.default watchStart [w1, w2] (init watchStart []) (lateRun.take 9)).map
      (fun s => (s.crashed, s.main, s.sent)) = some (false, .returned true, [(w1, srv)]) := by decide +kernel
  obtain ⟨s, hs, he⟩ := Option.map_eq_some_iff.1 h1
  simp only [Prod.mk.injEq] at he
  refine ⟨s, hs, he.1, he.2.1, ?_, by decide⟩
  unfold Unserved
  rw [he.2.2]
  decide

end OM.Props
