import Verif.Model.Watch
import Verif.Lemmas.Go
import Verif.Lemmas.Seconds
import Verif.Lemmas.RelayTerm
/-! # Lemmas: WatchAssignments -/
namespace OM.Watch

def Main.cur : Main → List (Str × Assignment)
  | .sending _ r => [r]
  | _ => []

def doneW (w : Str → Nat) (g : Goro) : Nat := if g.pc = .done then w g.id else 0

def begun (cfg : Config) (now0 : Int) (ids : List Str) (s : St) : Prop :=
  ∃ t, now0 ≤ t ∧ t ≤ s.now ∧ s.fire = fireAt cfg.ttl now0 t ids

/-- What the handler's position says. -/
def MainInv (cfg : Config) (now0 : Int) (ids : List Str) (s : St) : Prop :=
  match s.main with
  | .starting k => k ≤ ids.length ∧ s.gos.map (·.id) = ids.take k ∧ s.sent = [] ∧ s.gauge = 0
  | .select i => s.gos.map (·.id) = ids ∧ s.sent.length = i ∧ i ≤ ids.length ∧ s.gauge = ids.length - i ∧ begun cfg now0 ids s
  | .sending i _ => s.gos.map (·.id) = ids ∧ s.sent.length = i ∧ i < ids.length ∧ s.gauge = ids.length - (i + 1) ∧ begun cfg now0 ids s
  | .returned false => s.gos.map (·.id) = ids ∧ s.sent.length = ids.length ∧ s.gauge = 0
  | .returned true => s.gos.map (·.id) = ids ∧ s.sent.length < ids.length ∧ s.gauge = 2 * (ids.length - s.sent.length) ∧
      begun cfg now0 ids s ∧ s.fire ≤ s.now

structure Inv (cfg : Config) (now0 : Int) (ids : List Str) (s : St) : Prop where
  clock : now0 ≤ s.now
  cache : s.cache ∈ s.hist
  loaded : ∀ g ∈ s.gos, ∀ a, g.pc = .send a → ∃ c ∈ s.hist, c.load g.id = some a
  seen : ∀ r ∈ s.sent ++ s.main.cur, ∃ c ∈ s.hist, c.load r.1 = some r.2
  weights : ∀ w : Str → Nat, (s.gos.map (doneW w)).sum = ((s.sent ++ s.main.cur).map fun r => w r.1).sum
  main : MainInv cfg now0 ids s
  crash : s.crashed = true → s.main = .returned true

theorem inv_init (cfg : Config) (now0 : Int) (ids : List Str) (c : GoMap Assignment) :
    Inv cfg now0 ids (init now0 c) := by
  refine ⟨by simp [init], by simp [init], by simp [init], by simp [init, Main.cur], by simp [init, Main.cur], ?_, by simp [init]⟩
  simp [MainInv, init]

/-- All goroutines are done once as many responses as ids have been taken. -/
theorem all_done {cfg : Config} {now0 : Int} {ids : List Str} {s : St} (h : Inv cfg now0 ids s)
    (hids : s.gos.map (·.id) = ids) (hl : (s.sent ++ s.main.cur).length = ids.length) : ∀ g ∈ s.gos, g.pc = .done := by
  have hw := h.weights fun _ => 1
  rw [show ((s.sent ++ s.main.cur).map fun _ => 1).sum = (s.sent ++ s.main.cur).length by simp, hl, ← hids, List.length_map] at hw
  revert hw
  generalize s.gos = gos
  intro hw
  have le : ∀ gos : List Goro, (gos.map (doneW fun _ => 1)).sum ≤ gos.length := by
    intro gos
    induction gos with
    | nil => simp
    | cons g gos ih =>
      simp only [List.map_cons, List.sum_cons, List.length_cons]
      have : doneW (fun _ => 1) g ≤ 1 := by unfold doneW; split <;> simp
      omega
  induction gos with
  | nil => simp
  | cons g gos ih =>
    simp only [List.map_cons, List.sum_cons, List.length_cons] at hw
    have h1 := le gos
    have h2 : doneW (fun _ => 1) g ≤ 1 := by unfold doneW; split <;> simp
    have h3 : doneW (fun _ => 1) g = 1 := by omega
    intro x hx
    rcases List.mem_cons.1 hx with rfl | hx
    · by_contra hc; simp [doneW, hc] at h3
    · exact ih (by omega) x hx

theorem map_id_set {gos : List Goro} {j : Nat} {g g' : Goro} (hj : gos[j]? = some g) (hk : g'.id = g.id) :
    (gos.set j g').map (·.id) = gos.map (·.id) := by
  apply List.ext_getElem?
  intro n
  simp only [List.getElem?_map, List.getElem?_set]
  by_cases h : j = n
  · subst h
    have hlt : j < gos.length := (List.getElem?_eq_some_iff.1 hj).1
    simp [hk, hlt]
    rw [List.getElem?_eq_getElem hlt] at hj
    rw [Option.some.inj hj]
  · simp [h]

theorem mem_set {gos : List Goro} {j : Nat} {g' x : Goro} (h : x ∈ gos.set j g') : x = g' ∨ x ∈ gos := by
  rcases List.mem_or_eq_of_mem_set h with h | h
  · exact Or.inr h
  · exact Or.inl h

theorem inv_step {cfg : Config} {now0 : Int} {ids : List Str} {s s' : St} {l : Label} (h : Inv cfg now0 ids s)
    (hs : step cfg now0 ids s l = some s') : Inv cfg now0 ids s' := by
  unfold step at hs
  split at hs
  · cases hs
  rename_i hcr
  have hnc : ∀ m, s.crashed = true → m := fun m hc => absurd hc hcr
  cases l with
  | tick t =>
    simp only at hs
    split at hs
    · rename_i ht
      cases hs
      refine ⟨by have := h.clock; simp; omega, h.cache, h.loaded, h.seen, h.weights, ?_, h.crash⟩
      have hm := h.main
      have hb : begun cfg now0 ids s → begun cfg now0 ids { s with now := t } := by
        rintro ⟨x, a, b, c⟩; exact ⟨x, a, by simp; omega, c⟩
      revert hm
      unfold MainInv
      cases s.main with
      | starting k => exact id
      | select i => rintro ⟨a, b, c, d, e⟩; exact ⟨a, b, c, d, hb e⟩
      | sending i r => rintro ⟨a, b, c, d, e⟩; exact ⟨a, b, c, d, hb e⟩
      | returned b =>
        cases b with
        | false => exact id
        | true => rintro ⟨a, b, c, d, e⟩; exact ⟨a, b, c, hb d, by simp; omega⟩
    · cases hs
  | cacheSet c =>
    cases hs
    refine ⟨h.clock, by simp, ?_, ?_, h.weights, h.main, h.crash⟩
    · intro g hg a ha
      obtain ⟨c', hc, hl⟩ := h.loaded g hg a ha
      exact ⟨c', by simp [hc], hl⟩
    · intro r hr
      obtain ⟨c', hc, hl⟩ := h.seen r hr
      exact ⟨c', by simp [hc], hl⟩
  | launch =>
    simp only at hs
    split at hs
    · rename_i k hk
      split at hs
      · rename_i id hid
        cases hs
        have hm := h.main
        simp only [MainInv, hk] at hm
        have hlt := (List.getElem?_eq_some_iff.1 hid).1
        refine ⟨h.clock, h.cache, ?_, ?_, ?_, ?_, fun hc => hnc _ hc⟩
        · intro g hg a ha
          simp only [List.mem_append, List.mem_singleton] at hg
          rcases hg with hg | rfl
          · exact h.loaded g hg a ha
          · cases ha
        · have := h.seen; simp only [hk] at this; exact this
        · intro w
          have := h.weights w
          simp only [hk] at this
          simp only [List.map_append, List.sum_append, this, Main.cur]
          simp [doneW]
        · simp only [MainInv]
          refine ⟨hlt, ?_, hm.2.2⟩
          rw [List.map_append, hm.2.1, List.take_add_one, hid]; rfl
      · cases hs
    · cases hs
  | begin =>
    simp only at hs
    split at hs
    · rename_i k hk
      split at hs
      · rename_i hke
        cases hs
        have hm := h.main
        simp only [MainInv, hk] at hm
        refine ⟨h.clock, h.cache, h.loaded, ?_, ?_, ?_, fun hc => hnc _ hc⟩
        · have := h.seen; simp only [hk] at this; exact this
        · have := h.weights; simp only [hk] at this; exact this
        · simp only [MainInv]
          refine ⟨by rw [hm.2.1, hke, List.take_length], by simp [hm.2.2.1], by omega, by rw [hm.2.2.2]; simp,
            s.now, h.clock, Int.le_refl _, rfl⟩
      · cases hs
    · cases hs
  | poll j =>
    simp only at hs
    split at hs
    · rename_i g hj
      split at hs
      · rename_i hp
        split at hs
        · rename_i a ha
          cases hs
          have hi := map_id_set (g' := { g with pc := .send a }) hj rfl
          refine ⟨h.clock, h.cache, ?_, h.seen, ?_, ?_, fun hc => hnc _ hc⟩
          · intro x hx b hb
            rcases mem_set hx with rfl | hx
            · cases hb; exact ⟨s.cache, h.cache, ha⟩
            · exact h.loaded x hx b hb
          · intro w
            have := h.weights w
            rw [List.map_set, ← this]
            have e := Relay.sum_set (l := s.gos.map (doneW w)) (i := j) (a := doneW w g) (b := doneW w { g with pc := .send a })
              (by rw [List.getElem?_map, hj]; rfl)
            have e1 : doneW w g = 0 := by simp [doneW, hp]
            have e2 : doneW w { g with pc := .send a } = 0 := by simp [doneW]
            omega
          · have hm := h.main
            unfold MainInv at hm ⊢
            simp only [hi]
            exact hm
        · cases hs
      · cases hs
    · cases hs
  | take j =>
    simp only at hs
    split at hs
    · rename_i i g hk hj
      split at hs
      · rename_i a ha
        split at hs
        · rename_i hlt
          cases hs
          have hm := h.main
          simp only [MainInv, hk] at hm
          have hi := map_id_set (g' := { g with pc := .done }) hj rfl
          refine ⟨h.clock, h.cache, ?_, ?_, ?_, ?_, fun hc => hnc _ hc⟩
          · intro x hx b hb
            rcases mem_set hx with rfl | hx
            · cases hb
            · exact h.loaded x hx b hb
          · intro r hr
            simp only [Main.cur, List.mem_append, List.mem_singleton] at hr
            rcases hr with hr | rfl
            · exact h.seen r (List.mem_append_left _ hr)
            · exact h.loaded g (List.mem_of_getElem? hj) a ha
          · intro w
            have := h.weights w
            simp only [hk, Main.cur, List.append_nil] at this
            simp only [List.map_set, List.map_append, List.sum_append, ← this, Main.cur, List.map_cons, List.map_nil, List.sum_cons, List.sum_nil]
            have e := Relay.sum_set (l := s.gos.map (doneW w)) (i := j) (a := doneW w g) (b := doneW w { g with pc := .done })
              (by rw [List.getElem?_map, hj]; rfl)
            have e1 : doneW w g = 0 := by simp [doneW, ha]
            have e2 : doneW w { g with pc := .done } = w g.id := by simp [doneW]
            omega
          · simp only [MainInv, hi]
            exact ⟨hm.1, hm.2.1, hlt, by omega, hm.2.2.2.2⟩
        · cases hs
      · cases hs
    · cases hs
  | sent =>
    simp only at hs
    split at hs
    · rename_i i r hk
      cases hs
      have hm := h.main
      simp only [MainInv, hk] at hm
      refine ⟨h.clock, h.cache, h.loaded, ?_, ?_, ?_, fun hc => hnc _ hc⟩
      · have := h.seen; simp only [hk, Main.cur] at this; simpa [Main.cur] using this
      · have := h.weights; simp only [hk, Main.cur] at this; simpa [Main.cur] using this
      · simp only [MainInv]
        exact ⟨hm.1, by simp [hm.2.1], by omega, by rw [hm.2.2.2.1]; simp, hm.2.2.2.2⟩
    · cases hs
  | timeout =>
    simp only at hs
    split at hs
    · rename_i i hk
      split at hs
      · rename_i hc
        cases hs
        have hm := h.main
        simp only [MainInv, hk] at hm
        refine ⟨h.clock, h.cache, h.loaded, ?_, ?_, ?_, fun hc => hnc _ hc⟩
        · have := h.seen; simp only [hk, Main.cur] at this; simpa [Main.cur] using this
        · have := h.weights; simp only [hk, Main.cur] at this; simpa [Main.cur] using this
        · simp only [MainInv]
          exact ⟨hm.1, by omega, by rw [hm.2.2.2.1, hm.2.1]; omega, hm.2.2.2.2, hc.2⟩
      · cases hs
    · cases hs
  | finish =>
    simp only at hs
    split at hs
    · rename_i i hk
      split at hs
      · rename_i hc
        cases hs
        have hm := h.main
        simp only [MainInv, hk] at hm
        refine ⟨h.clock, h.cache, h.loaded, ?_, ?_, ?_, fun hc => hnc _ hc⟩
        · have := h.seen; simp only [hk, Main.cur] at this; simpa [Main.cur] using this
        · have := h.weights; simp only [hk, Main.cur] at this; simpa [Main.cur] using this
        · simp only [MainInv]
          exact ⟨hm.1, by omega, by rw [hm.2.2.2.1]; omega⟩
      · cases hs
    · cases hs
  | crash j =>
    simp only at hs
    split at hs
    · rename_i b g hk hj
      split at hs
      · rename_i a ha
        cases hs
        refine ⟨h.clock, h.cache, h.loaded, h.seen, h.weights, h.main, fun _ => ?_⟩
        cases b with
        | true => exact hk
        | false =>
          have hm := h.main
          simp only [MainInv, hk] at hm
          have := all_done h hm.1 (by rw [hk]; simp [Main.cur, hm.2.1]) g (List.mem_of_getElem? hj)
          rw [ha] at this; cases this
      · cases hs
    · cases hs

theorem inv_run {cfg : Config} {now0 : Int} {ids : List Str} {s s' : St} {ls : List Label} (h : Inv cfg now0 ids s)
    (hr : run cfg now0 ids s ls = some s') : Inv cfg now0 ids s' := by
  induction ls generalizing s with
  | nil => cases hr; exact h
  | cons l ls ih =>
    simp only [run, Option.bind_eq_some_iff] at hr
    obtain ⟨s1, h1, h2⟩ := hr
    exact ih (inv_step h h1) h2

/-! ## Parsing ids -/

theorem fmtNat_head {n : Nat} (h : 0 < n) : (fmtNat n).head? ≠ some '0' := by
  induction n using Nat.strongRecOn with
  | _ n ih =>
    unfold fmtNat
    rcases Nat.lt_or_ge n 10 with hlt | hge
    · rw [Nat.toDigits_of_lt_base hlt]
      have : n = 1 ∨ n = 2 ∨ n = 3 ∨ n = 4 ∨ n = 5 ∨ n = 6 ∨ n = 7 ∨ n = 8 ∨ n = 9 := by omega
      rcases this with rfl | rfl | rfl | rfl | rfl | rfl | rfl | rfl | rfl <;> decide
    · rw [Nat.toDigits_of_base_le (by omega) hge]
      have := ih (n / 10) (by omega) (by omega)
      unfold fmtNat at this
      rw [List.head?_append]
      cases hd : (Nat.toDigits 10 (n / 10)).head? with
      | none => exact absurd (List.head?_eq_none_iff.1 hd) Nat.toDigits_ne_nil
      | some c => rw [hd] at this; simpa using this

theorem parseUintLoop_digits0 (cs : Str) (n : Nat) (us : Bool) (hd : ∀ c ∈ cs, c.isDigit = true) :
    parseUintLoop 10 true cs n us = parseUintLoop 10 false cs n us := by
  induction cs generalizing n us with
  | nil => rfl
  | cons c cs ih =>
    have hc : c ≠ '_' := by rintro rfl; exact absurd (hd '_' (by simp)) (by decide)
    unfold parseUintLoop
    simp only [hc, false_and, if_false]
    cases digitVal c with
    | none => rfl
    | some d => simp only; rw [ih _ _ (fun x hx => hd x (by simp [hx]))]

theorem parseUint0_fmtNat {n : Nat} (h : n < 2 ^ 64) : parseUint0 (fmtNat n) = .ok n false := by
  rcases Nat.eq_zero_or_pos n with rfl | hpos
  · decide
  · have hv := ofDigitChars_fmtNat n
    have hh := fmtNat_head hpos
    have hne := fmtNat_ne_nil n
    have hd : ∀ c ∈ fmtNat n, c.isDigit = true := fun c hc => isDigit_fmtNat hc
    revert hh hd hv hne
    generalize fmtNat n = s
    intro hv hh hne hd
    cases s with
    | nil => exact absurd rfl hne
    | cons c cs =>
      have h0 : c ≠ '0' := by simpa using hh
      have hb : base0 (c :: cs) = (10, c :: cs) := by
        unfold base0
        split
        · rename_i hc; simp only [List.cons.injEq] at hc; exact absurd hc.1 h0
        · rename_i hc; simp only [List.cons.injEq] at hc; exact absurd hc.1 h0
        · rfl
      simp only [parseUint0, hb, reduceCtorEq, if_false]
      rw [parseUintLoop_digits0 _ _ _ hd,
        parseUintLoop_digits (c :: cs) 0 false hd (by rw [hv]; simp [maxUint64]; omega), hv]
      simp only [Bool.false_and, Bool.false_eq_true, if_false]

theorem parseInt0_fmtNat {n : Nat} (h : n < 2 ^ 63) : parseInt0 (fmtNat n) = .ok (n : Int) := by
  have hu := parseUint0_fmtNat (n := n) (by omega)
  have hne := fmtNat_ne_nil n
  have hd : ∀ c ∈ fmtNat n, c.isDigit = true := fun c hc => isDigit_fmtNat hc
  revert hu hd hne
  generalize fmtNat n = s
  intro hu hne hd
  cases s with
  | nil => exact absurd rfl hne
  | cons c cs =>
    have hcd := hd c (by simp)
    have h1 : c ≠ '+' := by rintro rfl; exact absurd hcd (by decide)
    have h2 : c ≠ '-' := by rintro rfl; exact absurd hcd (by decide)
    simp only [parseInt0, h1, h2, or_self, if_false, hu, signedOf, decide_false, Bool.false_eq_true]
    rw [if_neg (by omega)]

/-- `ParseInt(…, 0, 64)` reads back every int64 written in decimal. -/
theorem parseInt0_fmtInt {n : Int} (h1 : -2 ^ 63 ≤ n) (h2 : n < 2 ^ 63) : parseInt0 (fmtInt n) = .ok n := by
  cases n with
  | ofNat k => exact parseInt0_fmtNat (by simp only [Int.ofNat_eq_natCast] at h2; omega)
  | negSucc k =>
    have hk : k + 1 ≤ 2 ^ 63 := by omega
    simp only [fmtInt, parseInt0, or_true, if_true, parseUint0_fmtNat (n := k + 1) (by omega), signedOf,
      decide_true]
    rw [if_neg (by omega)]
    simp [Int.negSucc_eq]

end OM.Watch
