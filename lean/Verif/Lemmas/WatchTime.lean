import Verif.Model.WatchTime
import Verif.Lemmas.Watch
/-! # Lemmas: WatchAssignments with time -/
namespace OM.WatchTime

/-- The steps of `Model/Watch.lean` in a timed execution. -/
def acts (ls : List Lbl) : List Watch.Label := ls.filterMap fun
  | .act l => some l
  | .miss _ => none

theorem step_act {cfg : Config} {ids : List Str} {S : Int} {s t : St} {l : Watch.Label} (h : s.step cfg ids S (.act l) = some t) :
    Watch.step cfg s.now0 ids s.w l = some t.w ∧ t.now0 = s.now0 := by
  cases l <;> simp only [St.step] at h
  case tick x =>
    split at h
    · obtain ⟨w, hw, rfl⟩ := Option.map_eq_some_iff.1 h; exact ⟨hw, rfl⟩
    · cases h
  case poll x =>
    split at h
    · obtain ⟨w, hw, rfl⟩ := Option.map_eq_some_iff.1 h; exact ⟨hw, rfl⟩
    · cases h
  all_goals (obtain ⟨w, hw, rfl⟩ := Option.map_eq_some_iff.1 h; exact ⟨hw, rfl⟩)

theorem step_miss {cfg : Config} {ids : List Str} {S : Int} {s t : St} {j : Nat} (h : s.step cfg ids S (.miss j) = some t) :
    ∃ g d, s.w.gos[j]? = some g ∧ s.due[j]? = some d ∧ g.pc = .poll ∧ s.w.cache.load g.id = none ∧
      t = { s with due := s.due.set j (s.w.now + nsPerSec) } := by
  simp only [St.step] at h
  split at h
  · rename_i g d hg hd
    split at h
    · rename_i hc
      simp only [Bool.and_eq_true, decide_eq_true_eq, Option.isNone_iff_eq_none] at hc
      cases h
      exact ⟨g, d, hg, hd, hc.1.1.2, hc.2, rfl⟩
    · cases h
  · cases h

theorem proj_run {cfg : Config} {ids : List Str} {S : Int} (ls : List Lbl) : ∀ {s t : St}, s.run cfg ids S ls = some t →
    Watch.run cfg s.now0 ids s.w (acts ls) = some t.w ∧ t.now0 = s.now0 := by
  induction ls with
  | nil => intro s t h; cases h; exact ⟨rfl, rfl⟩
  | cons l ls ih =>
    intro s t h
    obtain ⟨u, hu, h⟩ := Option.bind_eq_some_iff.1 h
    obtain ⟨h1, h2⟩ := ih h
    cases l with
    | act l =>
      obtain ⟨a, b⟩ := step_act hu
      refine ⟨?_, by rw [h2, b]⟩
      simp only [acts, List.filterMap_cons, Watch.run, a, Option.bind_some]
      rw [← b]; exact h1
    | miss j =>
      obtain ⟨g, d, -, -, -, -, rfl⟩ := step_miss hu
      exact ⟨h1, h2⟩

/-- What is due is due within its time. -/
structure Inv (S : Int) (s : St) : Prop where
  len : s.due.length = s.w.gos.length
  dues : ∀ (j : Nat) (g : Watch.Goro) (d : Int), s.w.gos[j]? = some g → s.due[j]? = some d → g.pc = .poll → s.w.now ≤ d ∧ d ≤ s.w.now + nsPerSec
  send : ∀ i r, s.w.main = .sending i r → s.w.now ≤ s.sendBy ∧ s.sendBy ≤ s.w.now + S

theorem inv_init (S : Int) (now : Int) (c : GoMap Assignment) : Inv S (St.init now c) :=
  ⟨rfl, by simp [St.init, Watch.init], by simp [St.init, Watch.init]⟩

theorem mayWait_due {n : Nat} {s : St} {t : Int} (h : s.mayWait n t = true) {j : Nat} {g : Watch.Goro} {d : Int}
    (hg : s.w.gos[j]? = some g) (hd : s.due[j]? = some d) (hp : g.pc = .poll) : t ≤ d := by
  simp only [St.mayWait, Bool.and_eq_true, List.all_eq_true] at h
  have : (g, d) ∈ s.w.gos.zip s.due := by
    apply List.mem_of_getElem? (i := j)
    rw [List.getElem?_zip_eq_some]; exact ⟨hg, hd⟩
  have := h.1 _ this
  simpa [hp] using this

theorem inv_step {cfg : Config} {ids : List Str} {S : Int} (hS : 0 ≤ S) {s t : St} {l : Lbl} (hi : Inv S s)
    (h : s.step cfg ids S l = some t) : Inv S t := by
  cases l with
  | miss j =>
    obtain ⟨g, d, hg, hd, hp, hn, rfl⟩ := step_miss h
    refine ⟨by simpa using hi.len, ?_, hi.send⟩
    intro j' g' d' hg' hd' hp'
    simp only [List.getElem?_set] at hd'
    split at hd'
    · split at hd'
      · cases hd'; simp only [nsPerSec]; omega
      · cases hd'
    · exact hi.dues j' g' d' hg' hd' hp'
  | act l =>
    have hw := (step_act h).1
    cases l with
    | tick x =>
      simp only [St.step] at h
      split at h
      · rename_i hm
        obtain ⟨w, hw', rfl⟩ := Option.map_eq_some_iff.1 h
        simp only [Watch.step] at hw'
        split at hw'
        · cases hw'
        split at hw'
        · rename_i hle
          cases hw'
          refine ⟨hi.len, fun j g d hg hd hp => ?_, fun i r hr => ?_⟩
          · have := mayWait_due hm hg hd hp
            have := hi.dues j g d hg hd hp
            simp only; omega
          · have := hi.send i r hr
            simp only at hr
            simp only [St.mayWait, hr, Bool.and_eq_true, decide_eq_true_eq] at hm
            simp only; omega
        · cases hw'
      · cases h
    | cacheSet c =>
      simp only [St.step] at h
      obtain ⟨w, hw', rfl⟩ := Option.map_eq_some_iff.1 h
      simp only [Watch.step] at hw'
      split at hw'
      · cases hw'
      · cases hw'; exact ⟨hi.len, hi.dues, hi.send⟩
    | launch =>
      simp only [St.step] at h
      obtain ⟨w, hw', rfl⟩ := Option.map_eq_some_iff.1 h
      simp only [Watch.step] at hw'
      split at hw'
      · cases hw'
      split at hw'
      · split at hw'
        · cases hw'
          refine ⟨by simp [hi.len], fun j g d hg hd hp => ?_, by simp⟩
          by_cases hj : j < s.w.gos.length
          · simp only [List.getElem?_append_left hj] at hg
            rw [List.getElem?_append_left (by rw [hi.len]; exact hj)] at hd
            exact hi.dues j g d hg hd hp
          · have hd' : d ∈ [s.w.now] := by
              rw [List.getElem?_append_right (by rw [hi.len]; omega)] at hd
              exact List.mem_of_getElem? hd
            simp only [List.mem_singleton] at hd'
            subst hd'
            simp only [nsPerSec]; omega
        · cases hw'
      · cases hw'
    | begin =>
      simp only [St.step] at h
      obtain ⟨w, hw', rfl⟩ := Option.map_eq_some_iff.1 h
      simp only [Watch.step] at hw'
      split at hw'
      · cases hw'
      split at hw'
      · split at hw'
        · cases hw'; exact ⟨hi.len, hi.dues, by simp⟩
        · cases hw'
      · cases hw'
    | poll j =>
      simp only [St.step] at h
      split at h
      · obtain ⟨w, hw', rfl⟩ := Option.map_eq_some_iff.1 h
        simp only [Watch.step] at hw'
        split at hw'
        · cases hw'
        split at hw'
        · rename_i g hg
          split at hw'
          · split at hw'
            · cases hw'
              refine ⟨by simp [hi.len], fun j' g' d' hg' hd' hp' => ?_, hi.send⟩
              simp only [List.getElem?_set] at hg'
              split at hg'
              · split at hg'
                · cases hg'; simp at hp'
                · cases hg'
              · exact hi.dues j' g' d' hg' hd' hp'
            · cases hw'
          · cases hw'
        · cases hw'
      · cases h
    | take j =>
      simp only [St.step] at h
      obtain ⟨w, hw', rfl⟩ := Option.map_eq_some_iff.1 h
      simp only [Watch.step] at hw'
      split at hw'
      · cases hw'
      split at hw'
      · rename_i i g hmain hg
        split at hw'
        · split at hw'
          · cases hw'
            refine ⟨by simp [hi.len], fun j' g' d' hg' hd' hp' => ?_, fun i r _ => by simp only; omega⟩
            simp only [List.getElem?_set] at hg'
            split at hg'
            · split at hg'
              · cases hg'; simp at hp'
              · cases hg'
            · exact hi.dues j' g' d' hg' hd' hp'
          · cases hw'
        · cases hw'
      · cases hw'
    | sent =>
      simp only [St.step] at h
      obtain ⟨w, hw', rfl⟩ := Option.map_eq_some_iff.1 h
      simp only [Watch.step] at hw'
      split at hw'
      · cases hw'
      split at hw'
      · cases hw'; exact ⟨hi.len, hi.dues, by simp⟩
      · cases hw'
    | timeout =>
      simp only [St.step] at h
      obtain ⟨w, hw', rfl⟩ := Option.map_eq_some_iff.1 h
      simp only [Watch.step] at hw'
      split at hw'
      · cases hw'
      split at hw'
      · split at hw'
        · cases hw'; exact ⟨hi.len, hi.dues, by simp⟩
        · cases hw'
      · cases hw'
    | finish =>
      simp only [St.step] at h
      obtain ⟨w, hw', rfl⟩ := Option.map_eq_some_iff.1 h
      simp only [Watch.step] at hw'
      split at hw'
      · cases hw'
      split at hw'
      · split at hw'
        · cases hw'; exact ⟨hi.len, hi.dues, by simp⟩
        · cases hw'
      · cases hw'
    | crash j =>
      simp only [St.step] at h
      obtain ⟨w, hw', rfl⟩ := Option.map_eq_some_iff.1 h
      simp only [Watch.step] at hw'
      split at hw'
      · cases hw'
      split at hw'
      · split at hw'
        · cases hw'; exact ⟨hi.len, hi.dues, hi.send⟩
        · cases hw'
      · cases hw'

theorem inv_run {cfg : Config} {ids : List Str} {S : Int} (hS : 0 ≤ S) (ls : List Lbl) : ∀ {s t : St}, Inv S s →
    s.run cfg ids S ls = some t → Inv S t := by
  induction ls with
  | nil => intro s t hi h; cases h; exact hi
  | cons l ls ih =>
    intro s t hi h
    obtain ⟨u, hu, h⟩ := Option.bind_eq_some_iff.1 h
    exact ih (inv_step hS hi hu) h



/-! ## How an assignment gets to the client -/

/-- The goroutine at place `j` of the call, for the id `k`, since the assignment is there from `T` on. -/
def Chase (k : Str) (j : Nat) (T S : Int) (s : St) : Prop :=
  match s.w.gos[j]? with
  | none => (∃ m, s.w.main = .starting m) ∧ s.w.now ≤ T
  | some g => g.id = k ∧
    match g.pc with
    | .poll => ∃ d, s.due[j]? = some d ∧ d ≤ T + nsPerSec
    | .send _ =>
      match s.w.main with
      | .starting _ => s.w.now ≤ T + nsPerSec
      | .select i => s.w.now ≤ T + nsPerSec + i * S
      | .sending i _ => s.sendBy ≤ T + nsPerSec + (i + 1 : Nat) * S
      | .returned b => b = true
    | .done => (∃ i a, s.w.main = .sending i (k, a) ∧ s.sendBy ≤ T + nsPerSec + (i + 1 : Nat) * S) ∨ ∃ a, (k, a) ∈ s.w.sent

theorem chase_step {cfg : Config} {ids : List Str} {S : Int} (hS : 0 ≤ S) {s t : St} {l : Lbl} (hi : Inv S s)
    (hw : Watch.Inv cfg s.now0 ids s.w) {k : Str} {j : Nat} (hk : ids[j]? = some k) {T : Int} (hc : Chase k j T S s)
    (hin : ∃ a, s.w.cache.load k = some a) (h : s.step cfg ids S l = some t) : Chase k j T S t := by
  have mulS : ∀ i : Nat, ((i + 1 : Nat) : Int) * S = i * S + S := fun i => by push_cast; rw [Int.add_mul, Int.one_mul]
  have nn : ∀ i : Nat, (0 : Int) ≤ i * S := fun i => Int.mul_nonneg (by omega) hS
  unfold Chase at hc
  cases l with
  | miss j' =>
    obtain ⟨g, d, hg, hd, hp, hn, rfl⟩ := step_miss h
    unfold Chase
    cases hj : s.w.gos[j]? with
    | none => simp only [hj] at hc ⊢; exact hc
    | some g' =>
      simp only [hj] at hc ⊢
      refine ⟨hc.1, ?_⟩
      have hne : g'.pc = .poll → j' ≠ j := by
        rintro hp' rfl
        rw [hg] at hj; cases hj
        obtain ⟨a, ha⟩ := hin
        rw [hc.1, ha] at hn; cases hn
      cases hpc : g'.pc with
      | poll =>
        simp only [hpc] at hc ⊢
        obtain ⟨-, d', h1, h2⟩ := hc
        exact ⟨d', by rw [List.getElem?_set_ne (hne hpc)]; exact h1, h2⟩
      | send a => simp only [hpc] at hc ⊢; exact hc.2
      | done => simp only [hpc] at hc ⊢; exact hc.2
  | act l =>
    have hw' := (step_act h).1
    have hcr : s.w.crashed = false := by
      cases hx : s.w.crashed with
      | false => rfl
      | true => simp [Watch.step, hx] at hw'
    cases l with
    | tick x =>
      simp only [St.step] at h
      split at h
      swap
      · cases h
      rename_i hm
      obtain ⟨w, hw', rfl⟩ := Option.map_eq_some_iff.1 h
      simp only [Watch.step, hcr, Bool.false_eq_true, if_false] at hw'
      split at hw'
      swap
      · cases hw'
      cases hw'
      unfold Chase
      cases hj : s.w.gos[j]? with
      | none =>
        simp only [hj] at hc
        obtain ⟨⟨m, hmm⟩, -⟩ := hc
        simp [St.mayWait, hmm] at hm
      | some g =>
        simp only [hj] at hc ⊢
        refine ⟨hc.1, ?_⟩
        cases hpc : g.pc with
        | poll => simp only [hpc] at hc ⊢; exact hc.2
        | done => simp only [hpc] at hc ⊢; exact hc.2
        | send a =>
          simp only [hpc] at hc ⊢
          cases hmain : s.w.main with
          | starting m => simp [St.mayWait, hmain] at hm
          | select i =>
            exfalso
            have : s.w.gos.any atSend = true := List.any_eq_true.2 ⟨g, List.mem_of_getElem? hj, by simp [atSend, hpc]⟩
            simp [St.mayWait, hmain, this] at hm
          | sending i r => simp only [hmain] at hc ⊢; exact hc.2
          | returned b => simp only [hmain] at hc ⊢; exact hc.2
    | cacheSet c =>
      simp only [St.step] at h
      obtain ⟨w, hw', rfl⟩ := Option.map_eq_some_iff.1 h
      simp only [Watch.step, hcr, Bool.false_eq_true, if_false] at hw'
      cases hw'
      exact hc
    | launch =>
      simp only [St.step] at h
      obtain ⟨w, hw', rfl⟩ := Option.map_eq_some_iff.1 h
      simp only [Watch.step, hcr, Bool.false_eq_true, if_false] at hw'
      split at hw'
      swap
      · cases hw'
      rename_i m hmain
      split at hw'
      swap
      · cases hw'
      rename_i id hid
      cases hw'
      have hmi := hw.main
      simp only [Watch.MainInv, hmain] at hmi
      have hgl : s.w.gos.length = m := by
        have := congrArg List.length hmi.2.1
        simp only [List.length_map, List.length_take] at this
        omega
      unfold Chase
      by_cases hj : j < s.w.gos.length
      · simp only [List.getElem?_append_left hj]
        obtain ⟨g, hg⟩ : ∃ g, s.w.gos[j]? = some g := ⟨_, List.getElem?_eq_getElem hj⟩
        simp only [hg] at hc ⊢
        refine ⟨hc.1, ?_⟩
        cases hpc : g.pc with
        | poll =>
          simp only [hpc] at hc ⊢
          obtain ⟨-, d, h1, h2⟩ := hc
          exact ⟨d, by rw [List.getElem?_append_left (by rw [hi.len]; exact hj)]; exact h1, h2⟩
        | send a => simp only [hpc, hmain] at hc ⊢; exact hc.2
        | done =>
          simp only [hpc] at hc ⊢
          rcases hc.2 with ⟨i, a, h1, -⟩ | h1
          · rw [hmain] at h1; cases h1
          · exact .inr h1
      · have hnone : s.w.gos[j]? = none := List.getElem?_eq_none (by omega)
        simp only [hnone] at hc
        by_cases hjm : j = m
        · subst hjm
          have hid' : id = k := by rw [hk] at hid; exact (Option.some.inj hid).symm
          simp only [List.getElem?_append_right (by omega : s.w.gos.length ≤ j), hgl, Nat.sub_self, List.getElem?_cons_zero]
          refine ⟨hid', s.w.now, ?_, by simp only [nsPerSec]; omega⟩
          rw [List.getElem?_append_right (by rw [hi.len]; omega), hi.len, hgl]; simp
        · have : (s.w.gos ++ [(⟨id, .poll⟩ : Watch.Goro)])[j]? = none := List.getElem?_eq_none (by simp; omega)
          simp only [this]
          exact ⟨⟨_, rfl⟩, hc.2⟩
    | begin =>
      simp only [St.step] at h
      obtain ⟨w, hw', rfl⟩ := Option.map_eq_some_iff.1 h
      simp only [Watch.step, hcr, Bool.false_eq_true, if_false] at hw'
      split at hw'
      swap
      · cases hw'
      rename_i m hmain
      split at hw'
      swap
      · cases hw'
      rename_i hm
      cases hw'
      have hmi := hw.main
      simp only [Watch.MainInv, hmain] at hmi
      have hgl : s.w.gos.length = ids.length := by
        have := congrArg List.length hmi.2.1
        simp only [List.length_map, List.length_take] at this
        omega
      unfold Chase
      cases hj : s.w.gos[j]? with
      | none =>
        have := (List.getElem?_eq_some_iff.1 hk).1
        have := List.getElem?_eq_none_iff.1 hj
        omega
      | some g =>
        simp only [hj] at hc ⊢
        refine ⟨hc.1, ?_⟩
        cases hpc : g.pc with
        | poll => simp only [hpc] at hc ⊢; exact hc.2
        | send a =>
          simp only [hpc, hmain] at hc ⊢
          have := hc.2
          simp only [Int.natCast_zero, Int.zero_mul]; omega
        | done =>
          simp only [hpc] at hc ⊢
          rcases hc.2 with ⟨i, a, h1, -⟩ | h1
          · rw [hmain] at h1; cases h1
          · exact .inr h1
    | poll j' =>
      simp only [St.step] at h
      split at h
      swap
      · cases h
      rename_i hdue
      obtain ⟨w, hw', rfl⟩ := Option.map_eq_some_iff.1 h
      simp only [Watch.step, hcr, Bool.false_eq_true, if_false] at hw'
      split at hw'
      swap
      · cases hw'
      rename_i g' hg'
      split at hw'
      swap
      · cases hw'
      rename_i hp'
      split at hw'
      swap
      · cases hw'
      rename_i a ha
      cases hw'
      by_cases hjj : j' = j
      · subst hjj
        simp only [hg'] at hc
        obtain ⟨c1, c2⟩ := hc
        simp only [hp'] at c2
        obtain ⟨d, c2, c3⟩ := c2
        simp only [c2, Option.any_some, decide_eq_true_eq] at hdue
        have hnow := (hi.dues j' g' d hg' c2 hp').1
        unfold Chase
        simp only [List.getElem?_set_self (List.getElem?_eq_some_iff.1 hg').1]
        refine ⟨c1, ?_⟩
        cases hmain : s.w.main with
        | starting m => simp only; omega
        | select i => simp only; have := nn i; omega
        | sending i r =>
          have h1 := (hi.send i r hmain).2
          have h2 := mulS i
          have h3 := nn i
          simp only
          omega
        | returned b =>
          simp only
          cases b with
          | true => rfl
          | false =>
            exfalso
            have hmi := hw.main
            simp only [Watch.MainInv, hmain] at hmi
            have := Watch.all_done hw hmi.1 (by rw [hmain]; simp [Watch.Main.cur, hmi.2.1]) g' (List.mem_of_getElem? hg')
            rw [hp'] at this; cases this
      · unfold Chase
        simp only [List.getElem?_set_ne hjj]
        exact hc
    | take j' =>
      simp only [St.step] at h
      obtain ⟨w, hw', rfl⟩ := Option.map_eq_some_iff.1 h
      simp only [Watch.step, hcr, Bool.false_eq_true, if_false] at hw'
      split at hw'
      swap
      · cases hw'
      rename_i i g' hmain hg'
      split at hw'
      swap
      · cases hw'
      rename_i a ha
      split at hw'
      swap
      · cases hw'
      cases hw'
      by_cases hjj : j' = j
      · subst hjj
        simp only [hg'] at hc
        obtain ⟨c1, c2⟩ := hc
        simp only [ha, hmain] at c2
        unfold Chase
        simp only [List.getElem?_set_self (List.getElem?_eq_some_iff.1 hg').1]
        refine ⟨c1, .inl ⟨i, a, by rw [c1], ?_⟩⟩
        have h2 := mulS i
        omega
      · unfold Chase
        simp only [List.getElem?_set_ne hjj]
        cases hj : s.w.gos[j]? with
        | none =>
          simp only [hj] at hc
          obtain ⟨⟨m, h1⟩, -⟩ := hc
          rw [hmain] at h1; cases h1
        | some g =>
          simp only [hj] at hc ⊢
          refine ⟨hc.1, ?_⟩
          cases hpc : g.pc with
          | poll => simp only [hpc] at hc ⊢; exact hc.2
          | send a =>
            simp only [hpc, hmain] at hc ⊢
            have := hc.2
            have h2 := mulS i
            omega
          | done =>
            simp only [hpc] at hc ⊢
            rcases hc.2 with ⟨i, a, h1, -⟩ | h1
            · rw [hmain] at h1; cases h1
            · exact .inr h1
    | sent =>
      simp only [St.step] at h
      obtain ⟨w, hw', rfl⟩ := Option.map_eq_some_iff.1 h
      simp only [Watch.step, hcr, Bool.false_eq_true, if_false] at hw'
      split at hw'
      swap
      · cases hw'
      rename_i i r hmain
      cases hw'
      have hs := hi.send i r hmain
      unfold Chase
      cases hj : s.w.gos[j]? with
      | none =>
        simp only [hj] at hc
        obtain ⟨⟨m, h1⟩, -⟩ := hc
        rw [hmain] at h1; cases h1
      | some g =>
        simp only [hj] at hc ⊢
        refine ⟨hc.1, ?_⟩
        cases hpc : g.pc with
        | poll => simp only [hpc] at hc ⊢; exact hc.2
        | send a => simp only [hpc, hmain] at hc ⊢; have := hc.2; omega
        | done =>
          simp only [hpc] at hc ⊢
          rcases hc.2 with ⟨i', a, h1, -⟩ | ⟨a, h1⟩
          · rw [hmain] at h1; cases h1
            exact .inr ⟨a, by simp⟩
          · exact .inr ⟨a, by simp [h1]⟩
    | timeout =>
      simp only [St.step] at h
      obtain ⟨w, hw', rfl⟩ := Option.map_eq_some_iff.1 h
      simp only [Watch.step, hcr, Bool.false_eq_true, if_false] at hw'
      split at hw'
      swap
      · cases hw'
      rename_i i hmain
      split at hw'
      swap
      · cases hw'
      cases hw'
      unfold Chase
      cases hj : s.w.gos[j]? with
      | none =>
        simp only [hj] at hc
        obtain ⟨⟨m, h1⟩, -⟩ := hc
        rw [hmain] at h1; cases h1
      | some g =>
        simp only [hj] at hc ⊢
        refine ⟨hc.1, ?_⟩
        cases hpc : g.pc with
        | poll => simp only [hpc] at hc ⊢; exact hc.2
        | send a => trivial
        | done =>
          simp only [hpc] at hc ⊢
          rcases hc.2 with ⟨i', a, h1, -⟩ | h1
          · rw [hmain] at h1; cases h1
          · exact .inr h1
    | finish =>
      simp only [St.step] at h
      obtain ⟨w, hw', rfl⟩ := Option.map_eq_some_iff.1 h
      simp only [Watch.step, hcr, Bool.false_eq_true, if_false] at hw'
      split at hw'
      swap
      · cases hw'
      rename_i i hmain
      split at hw'
      swap
      · cases hw'
      rename_i hlen
      cases hw'
      have hmi := hw.main
      simp only [Watch.MainInv, hmain] at hmi
      have hdone := Watch.all_done hw hmi.1 (by rw [hmain]; simp [Watch.Main.cur, hmi.2.1, hlen])
      unfold Chase
      cases hj : s.w.gos[j]? with
      | none =>
        simp only [hj] at hc
        obtain ⟨⟨m, h1⟩, -⟩ := hc
        rw [hmain] at h1; cases h1
      | some g =>
        simp only [hj] at hc ⊢
        refine ⟨hc.1, ?_⟩
        have hpc := hdone g (List.mem_of_getElem? hj)
        simp only [hpc] at hc ⊢
        rcases hc.2 with ⟨i', a, h1, -⟩ | h1
        · rw [hmain] at h1; cases h1
        · exact .inr h1
    | crash j' =>
      simp only [St.step] at h
      obtain ⟨w, hw', rfl⟩ := Option.map_eq_some_iff.1 h
      simp only [Watch.step, hcr, Bool.false_eq_true, if_false] at hw'
      split at hw'
      swap
      · cases hw'
      split at hw'
      swap
      · cases hw'
      cases hw'
      exact hc

theorem sum_zero (l : List Nat) : l.sum = 0 ↔ ∀ x ∈ l, x = 0 := by
  induction l with
  | nil => simp
  | cons a l ih => simp [Nat.add_eq_zero_iff, ih]

/-- What the goroutine of an id has done, whenever the assignment comes. -/
theorem chase_start {cfg : Config} {ids : List Str} {S : Int} (hS : 0 ≤ S) {s : St} (hi : Inv S s) (hw : Watch.Inv cfg s.now0 ids s.w)
    {k : Str} {j : Nat} (hk : ids[j]? = some k) : Chase k j s.w.now S s := by
  have mulS : ∀ i : Nat, ((i + 1 : Nat) : Int) * S = i * S + S := fun i => by push_cast; rw [Int.add_mul, Int.one_mul]
  have nn : ∀ i : Nat, (0 : Int) ≤ i * S := fun i => Int.mul_nonneg (by omega) hS
  have hns : (0 : Int) ≤ nsPerSec := by decide
  have hmi := hw.main
  have hjl := (List.getElem?_eq_some_iff.1 hk).1
  unfold Chase
  cases hj : s.w.gos[j]? with
  | none =>
    refine ⟨?_, Int.le_refl _⟩
    have hge := List.getElem?_eq_none_iff.1 hj
    have key : s.w.gos.map (·.id) ≠ ids := by
      intro he
      have := congrArg List.length he
      simp only [List.length_map] at this
      omega
    cases hmain : s.w.main with
    | starting m => exact ⟨m, rfl⟩
    | select i => simp only [Watch.MainInv, hmain] at hmi; exact absurd hmi.1 key
    | sending i r => simp only [Watch.MainInv, hmain] at hmi; exact absurd hmi.1 key
    | returned b => cases b <;> (simp only [Watch.MainInv, hmain] at hmi; exact absurd hmi.1 key)
  | some g =>
    have hid : g.id = k := by
      have h1 : (s.w.gos.map (·.id))[j]? = some g.id := by rw [List.getElem?_map, hj]; rfl
      have h2 : ∀ m, s.w.gos.map (·.id) = ids.take m → g.id = k := by
        intro m hm
        rw [hm, List.getElem?_take] at h1
        split at h1
        · rw [hk] at h1; exact (Option.some.inj h1).symm
        · cases h1
      have h3 : s.w.gos.map (·.id) = ids → g.id = k := fun he => h2 ids.length (by rw [he, List.take_length])
      cases hmain : s.w.main with
      | starting m => simp only [Watch.MainInv, hmain] at hmi; exact h2 m hmi.2.1
      | select i => simp only [Watch.MainInv, hmain] at hmi; exact h3 hmi.1
      | sending i r => simp only [Watch.MainInv, hmain] at hmi; exact h3 hmi.1
      | returned b => cases b <;> (simp only [Watch.MainInv, hmain] at hmi; exact h3 hmi.1)
    refine ⟨hid, ?_⟩
    cases hpc : g.pc with
    | poll =>
      have hd : j < s.due.length := by rw [hi.len]; exact (List.getElem?_eq_some_iff.1 hj).1
      exact ⟨_, List.getElem?_eq_getElem hd, (hi.dues j g _ hj (List.getElem?_eq_getElem hd) hpc).2⟩
    | send a =>
      simp only
      cases hmain : s.w.main with
      | starting m => simp only; omega
      | select i => simp only; have := nn i; omega
      | sending i r =>
        have h1 := (hi.send i r hmain).2
        have h2 := mulS i
        have h3 := nn i
        simp only
        omega
      | returned b =>
        simp only
        cases b with
        | true => rfl
        | false =>
          exfalso
          simp only [Watch.MainInv, hmain] at hmi
          have := Watch.all_done hw hmi.1 (by rw [hmain]; simp [Watch.Main.cur, hmi.2.1]) g (List.mem_of_getElem? hj)
          rw [hpc] at this; cases this
    | done =>
      simp only
      have hwt := hw.weights fun x => if x = k then 1 else 0
      have hpos : 0 < (s.w.gos.map (Watch.doneW fun x => if x = k then 1 else 0)).sum := by
        apply Nat.pos_of_ne_zero
        intro h0
        have := (sum_zero _).1 h0 _ (List.mem_map.2 ⟨g, List.mem_of_getElem? hj, rfl⟩)
        simp [Watch.doneW, hpc, hid] at this
      rw [hwt] at hpos
      have hex : ∃ r ∈ s.w.sent ++ s.w.main.cur, r.1 = k := by
        by_contra hno
        have : ((s.w.sent ++ s.w.main.cur).map fun r => if r.1 = k then 1 else 0).sum = 0 := by
          apply (sum_zero _).2
          intro x hx
          obtain ⟨r, hr, rfl⟩ := List.mem_map.1 hx
          rw [if_neg (fun he => hno ⟨r, hr, he⟩)]
        omega
      obtain ⟨⟨k', a⟩, hr, hk'⟩ := hex
      simp only at hk'; subst hk'
      rcases List.mem_append.1 hr with hr | hr
      · exact .inr ⟨a, hr⟩
      · left
        cases hmain : s.w.main with
        | sending i r =>
          rw [hmain] at hr
          simp only [Watch.Main.cur, List.mem_singleton] at hr
          subst hr
          refine ⟨i, a, rfl, ?_⟩
          have h1 := (hi.send i _ hmain).2
          have h2 := mulS i
          have h3 := nn i
          omega
        | starting m => rw [hmain] at hr; simp [Watch.Main.cur] at hr
        | select i => rw [hmain] at hr; simp [Watch.Main.cur] at hr
        | returned b => rw [hmain] at hr; simp [Watch.Main.cur] at hr

/-- How long the chase can last. -/
theorem chase_end {cfg : Config} {ids : List Str} {S : Int} (hS : 0 ≤ S) {s : St} (hi : Inv S s) (hw : Watch.Inv cfg s.now0 ids s.w)
    {k : Str} {j : Nat} {T : Int} (hc : Chase k j T S s) :
    s.w.now ≤ T + nsPerSec + ids.length * S ∨ (∃ a, (k, a) ∈ s.w.sent) ∨ s.w.main = .returned true := by
  have hmi := hw.main
  have hns : (0 : Int) ≤ nsPerSec := by decide
  have le : ∀ i : Nat, i ≤ ids.length → (i : Int) * S ≤ ids.length * S :=
    fun i h => Int.mul_le_mul_of_nonneg_right (by omega) hS
  have n0 := le 0 (Nat.zero_le _)
  simp only [Int.natCast_zero, Int.zero_mul] at n0
  unfold Chase at hc
  cases hj : s.w.gos[j]? with
  | none => simp only [hj] at hc; left; omega
  | some g =>
    simp only [hj] at hc
    obtain ⟨-, hc⟩ := hc
    cases hpc : g.pc with
    | poll =>
      simp only [hpc] at hc
      obtain ⟨d, h1, h2⟩ := hc
      have := (hi.dues j g d hj h1 hpc).1
      left; omega
    | send a =>
      simp only [hpc] at hc
      cases hmain : s.w.main with
      | starting m => simp only [hmain] at hc; left; omega
      | select i =>
        simp only [hmain] at hc
        simp only [Watch.MainInv, hmain] at hmi
        have := le i hmi.2.2.1
        left; omega
      | sending i r =>
        simp only [hmain] at hc
        simp only [Watch.MainInv, hmain] at hmi
        have := le (i + 1) hmi.2.2.1
        have := (hi.send i r hmain).1
        left; omega
      | returned b => simp only [hmain] at hc; subst hc; exact .inr (.inr rfl)
    | done =>
      simp only [hpc] at hc
      rcases hc with ⟨i, a, hmain, h1⟩ | h1
      · simp only [Watch.MainInv, hmain] at hmi
        have := le (i + 1) hmi.2.2.1
        have := (hi.send i _ hmain).1
        left; omega
      · exact .inr (.inl h1)

/-- No label takes the assignment of `k` out of the cache. -/
def Keeps (k : Str) (l : Lbl) : Prop := ∀ c, l = .act (.cacheSet c) → ∃ a, c.load k = some a

theorem cache_step {cfg : Config} {ids : List Str} {S : Int} {s t : St} {l : Lbl} (h : s.step cfg ids S l = some t) :
    t.w.cache = s.w.cache ∨ l = .act (.cacheSet t.w.cache) := by
  cases l with
  | miss j => obtain ⟨g, d, -, -, -, -, rfl⟩ := step_miss h; exact .inl rfl
  | act l =>
    have hw := (step_act h).1
    simp only [Watch.step] at hw
    split at hw
    · cases hw
    cases l <;> simp only at hw <;> (repeat' split at hw) <;>
      first
      | (cases hw)
      | (injection hw with hw; rw [← hw]; first | exact .inl rfl | exact .inr rfl)

theorem chase_run {cfg : Config} {ids : List Str} {S : Int} (hS : 0 ≤ S) {k : Str} {j : Nat} (hk : ids[j]? = some k) {T : Int} (ls : List Lbl) :
    ∀ {s t : St}, Inv S s → Watch.Inv cfg s.now0 ids s.w → Chase k j T S s → (∃ a, s.w.cache.load k = some a) → (∀ l ∈ ls, Keeps k l) →
      s.run cfg ids S ls = some t → Chase k j T S t ∧ Inv S t ∧ Watch.Inv cfg t.now0 ids t.w := by
  induction ls with
  | nil => intro s t hi hw hc _ _ h; cases h; exact ⟨hc, hi, hw⟩
  | cons l ls ih =>
    intro s t hi hw hc hin hls h
    obtain ⟨u, hu, h⟩ := Option.bind_eq_some_iff.1 h
    have hw' : Watch.Inv cfg u.now0 ids u.w := by
      cases l with
      | act l => obtain ⟨a, b⟩ := step_act hu; rw [b]; exact Watch.inv_step hw a
      | miss j => obtain ⟨g, d, -, -, -, -, rfl⟩ := step_miss hu; exact hw
    refine ih (inv_step hS hi hu) hw' (chase_step hS hi hw hk hc hin hu) ?_ (fun l hl => hls l (List.mem_cons_of_mem _ hl)) h
    rcases cache_step hu with he | he
    · rw [he]; exact hin
    · exact hls l (List.mem_cons_self ..) _ he

end OM.WatchTime
