import Verif.Model.Stop
/-! # Lemmas on stopping -/
namespace OM.Stop

theorem results_get (held : List Nat) : ∀ (calls : List Call) (i : Nat),
    (results held calls)[i]? = (calls[i]?).map fun c => { c with back := c.back + held.count i } := by
  induction held with
  | nil => intro calls i; cases h : calls[i]? <;> simp [results, h]
  | cons j held ih =>
    intro calls i
    have := ih (calls.modify j Call.result) i
    simp only [results, List.foldl_cons] at this ⊢
    rw [this, List.getElem?_modify]
    cases h : calls[i]? with
    | none => simp
    | some c =>
      by_cases hj : j = i
      · subst hj; simp [Call.result]; omega
      · simp [hj]

/-- What holds of every call in every reachable state. -/
structure Good (s : St) (i : Nat) (c : Call) : Prop where
  sent : c.sent ≤ c.want
  held : c.sent = c.back + s.held.count i
  stored : c.stored = c.back + (s.held.take (s.sending.getD 0)).count i
  ok : c.outcome = .ok → c.back = c.want
  told : s.phase = .stopping ∨ s.phase = .ended → c.outcome ≠ .none

structure Inv (s : St) : Prop where
  good : ∀ i c, s.calls[i]? = some c → Good s i c
  known : ∀ i ∈ s.held, i < s.calls.length
  within : s.sending.getD 0 ≤ s.held.length
  starting : s.phase = .starting → s.calls = []

theorem inv_init : Inv St.init := ⟨by simp [St.init], by simp [St.init], by simp [St.init], fun _ => rfl⟩

theorem inv_step {s s' : St} {l : Lbl} (hi : Inv s) (h : s.step l = some s') : Inv s' := by
  obtain ⟨phase, signal, calls, held, sending⟩ := s
  obtain ⟨g, kn, wi, st⟩ := hi
  simp only at g kn wi st
  cases l with
  | signal =>
    simp only [St.step] at h
    split at h
    · cases h
    · cases h; exact ⟨fun i c hc => by obtain ⟨a, b, d, e, f⟩ := g i c hc; exact ⟨a, b, d, e, f⟩, kn, wi, st⟩
  | serve =>
    simp only [St.step] at h
    split at h
    · cases h
      exact ⟨fun i c hc => by obtain ⟨a, b, d, e, f⟩ := g i c hc; exact ⟨a, b, d, e, fun hh => by simp at hh⟩, kn, wi, fun hh => by cases hh⟩
    · cases h
  | call w =>
    simp only [St.step] at h
    split at h
    · rename_i hp
      cases h
      refine ⟨fun i c hc => ?_, fun i hi => ?_, wi, fun hh => by rw [hp] at hh; cases hh⟩
      · simp only at hc
        rcases Nat.lt_trichotomy i calls.length with hlt | heq | hgt
        · rw [List.getElem?_append_left hlt] at hc
          obtain ⟨a, b, d, e, f⟩ := g i c hc; exact ⟨a, b, d, e, f⟩
        · subst heq
          simp at hc
          subst hc
          have h0 : held.count calls.length = 0 := List.count_eq_zero.2 fun hm => by have := kn _ hm; omega
          have h1 : (held.take (sending.getD 0)).count calls.length = 0 :=
            List.count_eq_zero.2 fun hm => by have := kn _ (List.mem_of_mem_take hm); omega
          exact ⟨Nat.zero_le _, by simp [h0], by simp [h1], (fun hh => by cases hh), (fun hh => by rw [hp] at hh; simp at hh)⟩
        · rw [List.getElem?_eq_none_iff.2 (by simp; omega)] at hc; cases hc
      · have := kn i hi; simp; omega
    · cases h
  | take j =>
    simp only [St.step] at h
    split at h
    · cases h
    rename_i hp
    split at h
    · rename_i c hc
      split at h
      · rename_i hlt
        cases h
        have hj := (List.getElem?_eq_some_iff.1 hc).1
        refine ⟨fun i d hd => ?_, fun i hi => ?_, Nat.zero_le _, fun hh => ?_⟩
        · simp only at hd
          by_cases hij : j = i
          · subst hij
            rw [List.getElem?_set_self hj] at hd
            cases hd
            obtain ⟨a, b, d, e, f⟩ := g j c hc
            simp only [Option.getD_none, List.take_zero, List.count_nil] at b d
            exact ⟨hlt, by simp only [List.count_append, List.count_singleton_self]; omega, by simpa using d, e, f⟩
          · rw [List.getElem?_set_ne hij] at hd
            obtain ⟨a, b, d', e, f⟩ := g i d hd
            refine ⟨a, ?_, by simpa using d', e, f⟩
            simp only [List.count_append, List.count_singleton]
            rw [b]; simp [hij]
        · simp only [List.mem_append, List.mem_singleton, List.length_set] at hi ⊢
          rcases hi with hi | rfl
          · exact kn i hi
          · exact hj
        · rw [st hh] at hc; simp at hc
      · cases h
    · cases h
  | send =>
    simp only [St.step] at h
    split at h
    · cases h
    split at h
    · rename_i hs
      cases h
      refine ⟨fun i c hc => ?_, kn, Nat.zero_le _, st⟩
      obtain ⟨a, b, d, e, f⟩ := g i c hc
      rw [hs.1] at d
      exact ⟨a, b, by simpa using d, e, f⟩
    · cases h
  | exec =>
    simp only [St.step] at h
    split at h
    · rename_i k
      split at h
      · rename_i j hj
        cases h
        have hlt := (List.getElem?_eq_some_iff.1 hj).1
        refine ⟨fun i c hc => ?_, fun i hi => by simpa using kn i hi, by simp only [Option.getD_some]; omega, fun hh => ?_⟩
        · simp only [List.getElem?_modify] at hc
          cases h0 : calls[i]? with
          | none => rw [h0] at hc; cases hc
          | some c0 =>
            obtain ⟨a, b, d, e, f⟩ := g i c0 h0
            rw [h0] at hc
            simp only [Option.getD_some] at d ⊢
            have htake : (held.take (k + 1)).count i = (held.take k).count i + if j = i then 1 else 0 := by
              rw [List.take_add_one, hj, List.count_append]
              simp [List.count_singleton]
            by_cases hij : j = i
            · subst hij
              simp only [if_true] at hc htake
              cases hc
              exact ⟨a, b, by simp only [Option.getD_some]; omega, e, f⟩
            · simp only [hij, if_false] at hc htake
              cases hc
              exact ⟨a, b, by simp only [Option.getD_some]; omega, e, f⟩
        · simp only at hh
          simp [st hh]
      · cases h
    · cases h
  | done =>
    simp only [St.step] at h
    split at h
    · cases h
    split at h
    · rename_i hs
      subst hs
      cases h
      refine ⟨fun i c hc => ?_, by simp, Nat.zero_le _, fun hh => ?_⟩
      · simp only [results_get] at hc
        obtain ⟨c0, h0, rfl⟩ := Option.map_eq_some_iff.1 hc
        obtain ⟨a, b, d, e, f⟩ := g i c0 h0
        simp only [Option.getD_some, List.take_length] at a b d e
        refine ⟨a, by simp; omega, by simp; omega, fun hh => ?_, f⟩
        simp only at hh ⊢
        have := e hh
        omega
      · simp only at hh
        apply List.eq_nil_of_length_eq_zero
        rcases Nat.eq_zero_or_pos (results held calls).length with h0 | hpos
        · exact h0
        · have hx := results_get held calls 0
          rw [List.getElem?_eq_getElem hpos, show calls[0]? = none by simp [st hh]] at hx
          cases hx
    · cases h
  | answer j =>
    simp only [St.step] at h
    split at h
    · rename_i c hc
      split at h
      · rename_i hb
        cases h
        have hj := (List.getElem?_eq_some_iff.1 hc).1
        refine ⟨fun i d hd => ?_, fun i hi => by simpa using kn i hi, wi, fun hh => by cases hh⟩
        simp only at hd
        by_cases hij : j = i
        · subst hij
          rw [List.getElem?_set_self hj] at hd
          cases hd
          obtain ⟨a, b, d, e, f⟩ := g j c hc
          exact ⟨a, b, d, fun _ => hb.1, fun hh => by simp⟩
        · rw [List.getElem?_set_ne hij] at hd
          obtain ⟨a, b, d', e, f⟩ := g i d hd
          exact ⟨a, b, d', e, f⟩
      · cases h
    · cases h
  | giveUp j =>
    simp only [St.step] at h
    split at h
    · rename_i c hc
      split at h
      · cases h
        have hj := (List.getElem?_eq_some_iff.1 hc).1
        refine ⟨fun i d hd => ?_, fun i hi => by simpa using kn i hi, wi, fun hh => by cases hh⟩
        simp only at hd
        by_cases hij : j = i
        · subst hij
          rw [List.getElem?_set_self hj] at hd
          cases hd
          obtain ⟨a, b, d, e, f⟩ := g j c hc
          exact ⟨a, b, d, (fun hh => by cases hh), fun hh => by simp⟩
        · rw [List.getElem?_set_ne hij] at hd
          obtain ⟨a, b, d', e, f⟩ := g i d hd
          exact ⟨a, b, d', e, f⟩
      · cases h
    · cases h
  | stop =>
    simp only [St.step] at h
    split at h
    · cases h
      refine ⟨fun i c hc => ?_, fun i hi => by simpa using kn i hi, wi, fun hh => by cases hh⟩
      simp only [List.getElem?_map] at hc
      obtain ⟨c0, h0, rfl⟩ := Option.map_eq_some_iff.1 hc
      obtain ⟨a, b, d, e, f⟩ := g i c0 h0
      unfold Call.cut
      split
      · exact ⟨a, b, d, (fun hh => by cases hh), fun _ => by simp⟩
      · rename_i hn
        exact ⟨a, b, d, e, fun _ => hn⟩
    · cases h
  | exit =>
    simp only [St.step] at h
    split at h
    · rename_i hp
      cases h
      exact ⟨fun i c hc => by obtain ⟨a, b, d, e, f⟩ := g i c hc; exact ⟨a, b, d, e, fun _ => f (.inl hp)⟩, kn, wi, fun hh => by cases hh⟩
    · cases h

theorem inv_run (ls : List Lbl) : ∀ {s s' : St}, Inv s → s.run ls = some s' → Inv s' := by
  induction ls with
  | nil => intro s s' hi h; cases h; exact hi
  | cons l ls ih =>
    intro s s' hi h
    obtain ⟨t, ht, h⟩ := Option.bind_eq_some_iff.1 h
    exact ih (inv_step hi ht) h

end OM.Stop
