import Verif.Model.Matchmaker
import Mathlib.Data.List.Induction
/-! Lemmas about the example matchmaker. -/
namespace OM.Mm

/-- The ids producers pushed during a run. -/
def pushed : List Lbl → List Str
  | [] => []
  | .push id :: ls => id :: pushed ls
  | _ :: ls => pushed ls

theorem pushed_append (a b : List Lbl) : pushed (a ++ b) = pushed a ++ pushed b := by
  induction a with
  | nil => rfl
  | cons l a ih => cases l <;> simp [pushed, ih]

theorem run_append (s : St) (a b : List Lbl) : s.run (a ++ b) = (s.run a).bind fun s => s.run b := by
  induction a generalizing s with
  | nil => rfl
  | cons l a ih =>
    simp only [List.cons_append, St.run]
    cases s.step l with
    | none => rfl
    | some s' => simpa using ih s'

theorem run_induct {P : List Lbl → St → Prop} {s0 : St} (h0 : P [] s0)
    (hstep : ∀ ls s l s', P ls s → s.step l = some s' → P (ls ++ [l]) s') :
    ∀ ls s, s0.run ls = some s → P ls s := by
  intro ls
  induction ls using List.reverseRecOn with
  | nil => intro s h; cases h; exact h0
  | append_singleton ls l ih =>
    intro s h
    rw [run_append] at h
    cases h1 : s0.run ls with
    | none => rw [h1] at h; cases h
    | some s1 =>
      rw [h1] at h
      simp only [Option.bind_some, St.run] at h
      cases h2 : s1.step l with
      | none => rw [h2] at h; cases h
      | some s2 => rw [h2] at h; cases h; exact hstep ls s1 l _ (ih s1 h1) h2

/-- The batch being collected. -/
def pend (s : St) : List Str := if s.pc = .collect ∨ s.pc = .send then s.acc else []

structure Inv (q0 : List Str) (ls : List Lbl) (s : St) : Prop where
  split : s.calls.flatten ++ pend s ++ s.queue = q0 ++ pushed ls
  legal : ∀ c ∈ s.calls, 0 < c.length ∧ c.length ≤ maxActivationsPerCall
  room : s.acc.length ≤ maxActivationsPerCall
  open_ : s.pc = .collect → s.done = false → s.acc.length < maxActivationsPerCall
  again : s.pc = .outer → s.done = true → s.acc.length < maxActivationsPerCall
  sending : s.pc = .send → s.done = true
  ended : (s.pc = .wait ∨ s.pc = .returned) → s.done = true ∧ s.acc.length < maxActivationsPerCall
  len : s.phases.length = s.calls.length
  wg : s.wg = s.phases.count .calling
  full : (s.pc = .collect ∨ s.pc = .send ∨ s.done = false) → ∀ c ∈ s.calls, c.length = maxActivationsPerCall
  full' : ∀ c ∈ s.calls.dropLast, c.length = maxActivationsPerCall
  drained : pushed ls = [] → s.done = true → s.acc.length < maxActivationsPerCall → s.queue = []

theorem count_set {l : List GPhase} {i : Nat} {a b : GPhase} (h : l[i]? = some a) (c : GPhase) :
    (l.set i b).count c + (if a = c then 1 else 0) = l.count c + (if b = c then 1 else 0) := by
  induction l generalizing i with
  | nil => simp at h
  | cons x l ih =>
    cases i with
    | zero =>
      simp only [List.getElem?_cons_zero, Option.some.injEq] at h
      subst h
      simp only [List.set_cons_zero, List.count_cons, beq_iff_eq]
      split <;> split <;> omega
    | succ i =>
      simp only [List.getElem?_cons_succ] at h
      have := ih h
      simp only [List.set_cons_succ, List.count_cons, beq_iff_eq]
      omega

theorem inv_init (q0 : List Str) : Inv q0 [] (St.init q0) where
  split := by simp [St.init, pend, pushed]
  legal := by simp [St.init]
  room := by simp [St.init]
  open_ := by simp [St.init]
  again := by simp [St.init]
  sending := by simp [St.init]
  ended := by simp [St.init]
  len := rfl
  wg := rfl
  full := by simp [St.init]
  full' := by simp [St.init]
  drained := by simp [St.init]

theorem inv_step {q0 : List Str} {ls : List Lbl} {s : St} {l : Lbl} {s' : St} (h : Inv q0 ls s)
    (hs : s.step l = some s') : Inv q0 (ls ++ [l]) s' := by
  have hmax : maxActivationsPerCall = 500 := rfl
  cases l with
  | push id =>
    simp only [St.step] at hs
    split at hs
    · cases hs
      exact { h with
        split := by rw [pushed_append, ← List.append_assoc q0, ← h.split]; simp [pend, pushed]
        drained := by intro hp; rw [pushed_append] at hp; simp [pushed] at hp }
    · cases hs
  | «begin» i =>
    simp only [St.step] at hs
    split at hs
    · rename_i hi
      cases hs
      have hp : pushed (ls ++ [Lbl.begin i]) = pushed ls := by rw [pushed_append]; simp [pushed]
      have hc := count_set (b := .calling) hi .calling
      exact { h with
        split := by rw [hp]; exact h.split
        len := by simpa using h.len
        wg := by have := h.wg; simp at hc; dsimp only; omega
        drained := by rw [hp]; exact h.drained }
    · cases hs
  | finish i =>
    simp only [St.step] at hs
    split at hs
    · rename_i hi
      cases hs
      have hp : pushed (ls ++ [Lbl.finish i]) = pushed ls := by rw [pushed_append]; simp [pushed]
      have hc := count_set (b := .finished) hi .calling
      exact { h with
        split := by rw [hp]; exact h.split
        len := by simpa using h.len
        wg := by have := h.wg; simp at hc; dsimp only; omega
        drained := by rw [hp]; exact h.drained }
    · cases hs
  | main =>
    have hp : pushed (ls ++ [Lbl.main]) = pushed ls := by rw [pushed_append]; simp [pushed]
    simp only [St.step, St.main] at hs
    cases hpc : s.pc with
    | outer =>
      rw [hpc] at hs
      have hsp := h.split
      simp only [pend, hpc] at hsp
      dsimp only at hs
      split at hs
      · rename_i hcond
        cases hs
        refine { h with
          split := by rw [hp]; simpa [pend] using hsp
          room := by simp
          open_ := by simp [hmax]
          again := by simp
          sending := by simp
          ended := by simp
          full := ?_
          drained := ?_ }
        · intro _
          rcases hcond with h1 | h1
          · cases hd : s.done with
            | false => exact h.full (.inr (.inr hd))
            | true => have := h.again hpc hd; omega
          · exact h.full (.inr (.inr h1))
        · intro h1 h2 h3
          rcases hcond with h4 | h4
          · have := h.again hpc h2; omega
          · simp [h4] at h2
      · rename_i hcond
        cases hs
        have hd : s.done = true := by
          cases hd : s.done with
          | false => exact absurd (.inr hd) hcond
          | true => rfl
        exact { h with
          split := by rw [hp]; simpa [pend] using hsp
          open_ := by simp
          again := by simp
          sending := by simp
          ended := fun _ => ⟨hd, h.again hpc hd⟩
          full := by simp [hd]
          drained := by rw [hp]; exact h.drained }
    | collect =>
      rw [hpc] at hs
      have hsp := h.split
      simp only [pend, hpc] at hsp
      dsimp only at hs
      split at hs
      · rename_i hd
        cases hs
        exact { h with
          split := by rw [hp]; simpa [pend] using hsp
          open_ := by simp
          again := by simp
          sending := fun _ => hd
          ended := by simp
          full := fun _ => h.full (.inl hpc)
          drained := by rw [hp]; exact h.drained }
      · rename_i hd
        have hd : s.done = false := by simpa using hd
        have hlt := h.open_ hpc hd
        split at hs
        · rename_i tid q hq
          cases hs
          rw [hq] at hsp
          refine { h with
            split := by rw [hp]; simpa [pend, hpc] using hsp
            room := by simp; omega
            open_ := by simp; omega
            again := by simp
            sending := by simp
            ended := by simp
            full := fun _ => h.full (.inl hpc)
            drained := ?_ }
          intro _ h2 h3
          simp only [decide_eq_true_eq] at h2
          dsimp only at h3
          omega
        · rename_i hq
          cases hs
          exact { h with
            split := by rw [hp]; simpa [pend, hpc] using hsp
            open_ := by simp
            again := by simp
            sending := by simp
            ended := by simp
            full := fun _ => h.full (.inl hpc)
            drained := fun _ _ _ => hq }
    | send =>
      rw [hpc] at hs
      have hsp := h.split
      simp only [pend, hpc] at hsp
      have hd := h.sending hpc
      have hfull := h.full (.inr (.inl hpc))
      dsimp only at hs
      split at hs
      · rename_i hpos
        cases hs
        have hroom := h.room
        refine { h with
          split := by rw [hp]; simpa [pend] using hsp
          legal := ?_
          open_ := by simp
          again := ?_
          sending := by simp
          ended := by simp
          len := by simpa using h.len
          wg := by simpa [List.count_append] using h.wg
          full := ?_
          full' := by simpa using hfull
          drained := ?_ }
        · intro c hc
          rcases List.mem_append.1 hc with hc | hc
          · exact h.legal c hc
          · obtain rfl : c = s.acc := by simpa using hc
            exact ⟨hpos, h.room⟩
        · intro _ h2
          dsimp only at h2 ⊢
          split at h2
          · cases h2
          · omega
        · rintro (h1 | h1 | h1)
          · cases h1
          · cases h1
          · intro c hc
            dsimp only at h1
            split at h1
            · rename_i h500
              rcases List.mem_append.1 hc with hc | hc
              · exact hfull c hc
              · obtain rfl : c = s.acc := by simpa using hc
                exact h500
            · rw [hd] at h1; cases h1
        · intro h1 h2 h3
          rw [hp] at h1
          exact h.drained h1 hd h3
      · rename_i hpos
        cases hs
        have hz : s.acc = [] := by
          cases hacc : s.acc with
          | nil => rfl
          | cons a b => rw [hacc] at hpos; simp at hpos
        refine { h with
          split := by rw [hp]; simpa [pend, hz] using hsp
          open_ := by simp
          again := by intro _ _; simp [hz, hmax]
          sending := by simp
          ended := by simp
          full := by simp [hd]
          drained := by rw [hp]; exact h.drained }
    | wait =>
      rw [hpc] at hs
      have hsp := h.split
      simp only [pend, hpc] at hsp
      dsimp only at hs
      split at hs
      · cases hs
        exact { h with
          split := by rw [hp]; simpa [pend] using hsp
          open_ := by simp
          again := by simp
          sending := by simp
          ended := fun _ => h.ended (.inl hpc)
          full := by intro h1; exact h.full (by simpa [hpc] using h1)
          drained := by rw [hp]; exact h.drained }
      · cases hs
    | returned => rw [hpc] at hs; cases hs

theorem inv {q0 : List Str} {ls : List Lbl} {s : St} (h : (St.init q0).run ls = some s) : Inv q0 ls s :=
  run_induct (P := Inv q0) (inv_init q0) (fun _ _ _ _ => inv_step) ls s h

/-! ## Termination -/

/-- Steps left in `activateTickets` itself, goroutines still to be created included. -/
def mainLeft (s : St) : Nat :=
  match s.pc with
  | .outer => if s.done then 2 else 8 * s.queue.length + 10
  | .collect =>
    if s.done then (if s.acc.length = maxActivationsPerCall then 8 * s.queue.length + 14 else 6)
    else 8 * s.queue.length + 9
  | .send => if s.acc.length = maxActivationsPerCall then 8 * s.queue.length + 13 else 5
  | .wait => 1
  | .returned => 0

def left (s : St) : Nat := mainLeft s + 2 * s.phases.count .created + s.phases.count .calling

def isPush : Lbl → Bool
  | .push _ => true
  | _ => false

theorem left_step {q0 : List Str} {ls : List Lbl} {s : St} {l : Lbl} {s' : St} (h : Inv q0 ls s)
    (hl : isPush l = false) (hs : s.step l = some s') : left s' < left s := by
  have hmax : maxActivationsPerCall = 500 := rfl
  cases l with
  | push id => cases hl
  | «begin» i =>
    simp only [St.step] at hs
    split at hs
    · rename_i hi
      cases hs
      have h1 := count_set (b := .calling) hi .calling
      have h2 := count_set (b := .calling) hi .created
      simp at h1 h2
      simp only [left, mainLeft]
      omega
    · cases hs
  | finish i =>
    simp only [St.step] at hs
    split at hs
    · rename_i hi
      cases hs
      have h1 := count_set (b := .finished) hi .calling
      have h2 := count_set (b := .finished) hi .created
      simp at h1 h2
      simp only [left, mainLeft]
      omega
    · cases hs
  | main =>
    simp only [St.step, St.main] at hs
    cases hpc : s.pc with
    | outer =>
      rw [hpc] at hs
      dsimp only at hs
      split at hs
      · rename_i hcond
        cases hs
        have hd : s.done = false := by
          rcases hcond with h1 | h1
          · cases hd : s.done with
            | false => rfl
            | true => have := h.again hpc hd; omega
          · exact h1
        simp [left, mainLeft, hpc, hd]
      · rename_i hcond
        cases hs
        have hd : s.done = true := by
          cases hd : s.done with
          | false => exact absurd (.inr hd) hcond
          | true => rfl
        simp [left, mainLeft, hpc, hd]
    | collect =>
      rw [hpc] at hs
      dsimp only at hs
      split at hs
      · rename_i hd
        cases hs
        simp only [left, mainLeft, hpc, hd, if_true]
        split <;> omega
      · rename_i hd
        have hd : s.done = false := by simpa using hd
        have hlt := h.open_ hpc hd
        split at hs
        · rename_i tid q hq
          cases hs
          simp only [left, mainLeft, hpc, hd, hq, List.length_cons, decide_eq_true_eq, Bool.false_eq_true, if_false]
          split <;> omega
        · rename_i hq
          cases hs
          have hne : s.acc.length ≠ maxActivationsPerCall := by omega
          simp only [left, mainLeft, hpc, hd, hq, hne, Bool.false_eq_true, if_false, if_true]
          omega
    | send =>
      rw [hpc] at hs
      have hd := h.sending hpc
      dsimp only at hs
      split at hs
      · cases hs
        simp only [left, mainLeft, hpc, hd, List.count_append]
        simp
        split <;> omega
      · rename_i hpos
        cases hs
        have hne : s.acc.length ≠ maxActivationsPerCall := by omega
        simp only [left, mainLeft, hpc, hd, hne, if_true, if_false]
        omega
    | wait =>
      rw [hpc] at hs
      dsimp only at hs
      split at hs
      · cases hs
        simp [left, mainLeft, hpc]
      · cases hs
    | returned => rw [hpc] at hs; cases hs

theorem run_bound (q0 : List Str) (ls : List Lbl) (s : St) (h : (St.init q0).run ls = some s)
    (hl : ∀ l ∈ ls, isPush l = false) : left s + ls.length ≤ 8 * q0.length + 10 := by
  have := run_induct (s0 := St.init q0)
    (P := fun ls s => Inv q0 ls s ∧ ((∀ l ∈ ls, isPush l = false) → left s + ls.length ≤ 8 * q0.length + 10))
    ⟨inv_init q0, fun _ => by simp [left, mainLeft, St.init]⟩
    (fun ls s l s' hp hs => ⟨inv_step hp.1 hs, fun hn => by
      have h1 := hp.2 fun l hl => hn l (List.mem_append_left _ hl)
      have h2 := left_step hp.1 (hn l (by simp)) hs
      simp only [List.length_append, List.length_cons, List.length_nil]
      omega⟩) ls s h
  exact this.2 hl

theorem not_stuck {q0 : List Str} {ls : List Lbl} {s : St} (h : (St.init q0).run ls = some s)
    (hr : s.pc ≠ .returned) : ∃ l, isPush l = false ∧ (s.step l).isSome := by
  have hi := inv h
  by_cases hw : s.pc = .wait ∧ s.wg ≠ 0
  · have hpos : 0 < s.phases.count .calling := by have := hi.wg; omega
    obtain ⟨i, hlt, he⟩ := List.mem_iff_getElem.1 (List.count_pos_iff.1 hpos)
    refine ⟨.finish i, rfl, ?_⟩
    simp only [St.step]
    rw [if_pos (by rw [List.getElem?_eq_getElem hlt, he])]
    rfl
  · refine ⟨.main, rfl, ?_⟩
    simp only [St.step, St.main]
    cases hpc : s.pc with
    | outer => dsimp only; split <;> rfl
    | collect => dsimp only; split
                 · rfl
                 · split <;> rfl
    | send => dsimp only; split <;> rfl
    | wait => dsimp only; rw [if_pos (by by_contra h0; exact hw ⟨hpc, h0⟩)]; rfl
    | returned => exact absurd hpc hr

end OM.Mm
