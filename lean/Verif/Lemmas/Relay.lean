import Verif.Spec.Relay
import Mathlib.Data.List.Nodup
/-! # Lemmas: the relay's invariant -/
namespace OM.Relay

/-- The goroutine has handed its match over. -/
def Pc.past : Pc → Bool
  | .checkAfter => true
  | .done => true
  | _ => false

/-- How many of its updates a goroutine has queued. -/
def Pc.queuedUpTo : Pc → Nat → Nat
  | .submit k, _ => k
  | _, n => n

/-- How many responses it has received. -/
def Pc.answeredUpTo : Pc → Nat → Nat
  | .submit _, _ => 0
  | .await k, _ => k
  | _, n => n

/-- The log shows what the goroutine has done. -/
def Logged (log : List QEv) (j : Nat) (g : Goro) : Prop :=
  ∀ k id, g.ids[k]? = some id →
    (k < g.pc.queuedUpTo g.ids.length → QEv.queue j k ⟨.deactivate, id, []⟩ ∈ log) ∧
    (k < g.pc.answeredUpTo g.ids.length → [QEv.queue j k ⟨.deactivate, id, []⟩, QEv.answer j k].Sublist log)

def Fan.inFlight : Fan → List Nat
  | .busy j _ => [j]
  | _ => []

def Goro.key (g : Goro) : Nat × Nat := (g.mmf, g.idx)

structure Inv (fs : List Mmf) (s : St) : Prop where
  len : s.mmfs.length = fs.length
  origin : ∀ g ∈ s.gos, ∃ f ms, fs[g.mmf]? = some f ∧ s.mmfs[g.mmf]? = some ms ∧
    f.results[g.idx]? = some g.m ∧ g.idx < ms.next ∧ f.starts = true ∧ ∃ ord : GoMap Roster, ord.Perm (rostersOf g.m) ∧ g.ids = collectIds ord
  nodup : (s.gos.map Goro.key).Nodup
  complete : ∀ i ms, s.mmfs[i]? = some ms → ∀ k < ms.next, (i, k) ∈ s.gos.map Goro.key
  phases : ∀ i ms f, s.mmfs[i]? = some ms → fs[i]? = some f → ms.next ≤ f.results.length ∧
    (f.starts = false → ms = ⟨0, .done⟩) ∧
    (ms.phase = .wait → f.eof = true ∧ ms.next = f.results.length) ∧
    (ms.phase = .done → f.starts = true → ms.next = f.results.length ∧
      (f.eof = true → ∀ g ∈ s.gos, g.mmf = i → g.pc = .done))
  sentNodup : (s.sent ++ s.fan.inFlight).Nodup
  sentPast : ∀ j, j ∈ s.sent ++ s.fan.inFlight ↔ ∃ g, s.gos[j]? = some g ∧ g.pc.past = true
  out : s.out.map some = s.sent.map fun j => (s.gos.map (·.m))[j]?
  busy : ∀ j m, s.fan = .busy j m → (s.gos.map (·.m))[j]? = some m
  logged : ∀ j g, s.gos[j]? = some g → Logged s.log j g
  main : s.main ≠ .waiting → ∀ ms ∈ s.mmfs, ms.phase = .done
  fan : s.fan = .closed → s.main ≠ .waiting

theorem inv_init (fs : List Mmf) : Inv fs (init fs) := by
  refine ⟨by simp [init], by simp [init], by simp [init], ?_, ?_, by simp [init, Fan.inFlight], by simp [init, Fan.inFlight],
    by simp [init], by simp [init], by simp [init], by simp [init], by simp [init]⟩
  · intro i ms h k hk
    simp only [init, List.getElem?_map, Option.map_eq_some_iff] at h
    obtain ⟨f, -, rfl⟩ := h
    exact absurd hk (by simp)
  · intro i ms f h hf
    simp only [init, List.getElem?_map, hf, Option.map_some, Option.some.injEq] at h
    subst h
    refine ⟨by simp, fun h => by simp [h], ?_, ?_⟩
    · intro h; cases hs : f.starts <;> simp [hs] at h
    · intro h hs; simp [hs] at h

/-- Replacing a goroutine by a later stage of itself keeps the keys. -/
theorem map_key_set {gos : List Goro} {j : Nat} {g g' : Goro} (hj : gos[j]? = some g) (hk : g'.key = g.key) :
    (gos.set j g').map Goro.key = gos.map Goro.key := by
  apply List.ext_getElem?
  intro n
  simp only [List.getElem?_map, List.getElem?_set]
  by_cases h : j = n
  · subst h
    have hlt : j < gos.length := (List.getElem?_eq_some_iff.1 hj).1
    simp [hk, hlt]
    rw [List.getElem?_eq_getElem hlt] at hj
    simpa using congrArg Goro.key (Option.some.inj hj) |>.symm
  · simp [h]

theorem map_m_set {gos : List Goro} {j : Nat} {g g' : Goro} (hj : gos[j]? = some g) (hk : g'.m = g.m) :
    (gos.set j g').map (·.m) = gos.map (·.m) := by
  apply List.ext_getElem?
  intro n
  simp only [List.getElem?_map, List.getElem?_set]
  by_cases h : j = n
  · subst h
    have hlt : j < gos.length := (List.getElem?_eq_some_iff.1 hj).1
    simp [hk, hlt]
    rw [List.getElem?_eq_getElem hlt] at hj
    rw [Option.some.inj hj]
  · simp [h]

theorem mem_set {gos : List Goro} {j : Nat} {g' x : Goro} (h : x ∈ gos.set j g') : x = g' ∨ x ∈ gos := by
  rcases List.mem_or_eq_of_mem_set h with h | h
  · exact Or.inr h
  · exact Or.inl h

/-- Moving one goroutine on, with the queue possibly extended. -/
theorem inv_go {fs : List Mmf} {s : St} (h : Inv fs s) {j : Nat} {g g' : Goro} (hj : s.gos[j]? = some g)
    (hm : g'.mmf = g.mmf) (hi : g'.idx = g.idx) (hmm : g'.m = g.m) (hids : g'.ids = g.ids)
    (hnd : g.pc ≠ .done) (fan : Fan) (q : List QEv)
    (hnodup : (s.sent ++ fan.inFlight).Nodup)
    (hbusy : ∀ n m, fan = .busy n m → (s.gos.map (·.m))[n]? = some m)
    (hsent : ∀ n, n ∈ s.sent ++ fan.inFlight ↔ ∃ x, (s.gos.set j g')[n]? = some x ∧ x.pc.past = true)
    (hq : s.log.Sublist q) (hg' : Logged q j g')
    (hfan : fan = .closed → s.main ≠ .waiting) :
    Inv fs { s with gos := s.gos.set j g', fan := fan, log := q } := by
  have hmem : g ∈ s.gos := List.mem_of_getElem? hj
  have hkey : (s.gos.set j g').map Goro.key = s.gos.map Goro.key :=
    map_key_set hj (by simp [Goro.key, hm, hi])
  refine ⟨h.len, ?_, by simpa only [hkey] using h.nodup, by simpa only [hkey] using h.complete, ?_, hnodup, hsent,
    by rw [map_m_set hj hmm]; exact h.out, by rw [map_m_set hj hmm]; exact hbusy, ?_, h.main, hfan⟩
  · intro x hx
    rcases mem_set hx with rfl | hx
    · rw [hm, hi, hmm, hids]; exact h.origin g hmem
    · exact h.origin x hx
  · intro i ms f h1 h2
    obtain ⟨a, b, c, d⟩ := h.phases i ms f h1 h2
    refine ⟨a, b, c, fun hp hs => ⟨(d hp hs).1, fun he x hx hxi => ?_⟩⟩
    rcases mem_set hx with rfl | hx
    · exact absurd ((d hp hs).2 he g hmem (by rw [← hm]; exact hxi)) hnd
    · exact (d hp hs).2 he x hx hxi
  · intro n x hx
    simp only [List.getElem?_set] at hx
    by_cases hn : j = n
    · subst hn
      rw [if_pos rfl] at hx
      split at hx
      · cases hx; exact hg'
      · cases hx
    · rw [if_neg hn] at hx
      intro k id hk
      exact ⟨fun hl => hq.subset ((h.logged n x hx k id hk).1 hl), fun hl => ((h.logged n x hx k id hk).2 hl).trans hq⟩

/-- Changing only the state of one MMF goroutine. -/
theorem inv_recv {fs : List Mmf} {s s' : St} (h : Inv fs s) {i : Nat} {ord : GoMap Roster}
    (hs : recvStep fs s i ord = some s') : Inv fs s' := by
  unfold recvStep at hs
  split at hs
  · rename_i f ms hf hms
    split at hs
    · rename_i hph
      have hilt : i < s.mmfs.length := (List.getElem?_eq_some_iff.1 hms).1
      obtain ⟨p1, p2, p3, p4⟩ := h.phases i ms f hms hf
      have hst : f.starts = true := by
        cases hb : f.starts with
        | true => rfl
        | false => have := p2 hb; rw [this] at hph; cases hph
      have hnw : s.main = .waiting := by
        by_contra hc
        have := h.main hc ms (List.mem_of_getElem? hms)
        rw [hph] at this; cases this
      have hget : ∀ (x : MmfSt) (n : Nat), (s.mmfs.set i x)[n]? = if i = n then some x else s.mmfs[n]? := by
        intro x n; rw [List.getElem?_set]; by_cases hn : i = n
        · subst hn; simp [hilt]
        · simp [hn]
      split at hs
      · rename_i m hm
        split at hs
        · rename_i hperm
          cases hs
          have hnext : ms.next < f.results.length := (List.getElem?_eq_some_iff.1 hm).1
          refine ⟨by simp [h.len], ?_, ?_, ?_, ?_, h.sentNodup, ?_, ?_, ?_, ?_, ?_, h.fan⟩
          · intro g hg
            simp only [List.mem_append, List.mem_singleton] at hg
            rcases hg with hg | rfl
            · obtain ⟨f', ms', a, b, c, d, e⟩ := h.origin g hg
              by_cases hgi : i = g.mmf
              · subst hgi
                rw [hf] at a; cases a; rw [hms] at b; cases b
                exact ⟨f, ⟨ms.next + 1, .recv⟩, hf, by simp [hget], c, Nat.lt_succ_of_lt d, e⟩
              · exact ⟨f', ms', a, by simp [hget, hgi, b], c, d, e⟩
            · exact ⟨f, ⟨ms.next + 1, .recv⟩, hf, by simp [hget], hm, by simp, hst, ord, hperm, rfl⟩
          · simp only [List.map_append, List.map_cons, List.map_nil]
            rw [List.nodup_append]
            refine ⟨h.nodup, by simp, ?_⟩
            intro a ha b hb hab
            simp only [List.mem_singleton] at hb
            subst hb; subst hab
            obtain ⟨g, hg, hk⟩ := List.mem_map.1 ha
            obtain ⟨f', ms', a, b, c, d, e⟩ := h.origin g hg
            simp only [Goro.key, Prod.mk.injEq] at hk
            rw [hk.1, hms] at b; cases b
            rw [hk.2] at d; omega
          · intro n ms' hn k hk
            simp only [List.map_append, List.map_cons, List.map_nil, List.mem_append, List.mem_singleton]
            rw [hget] at hn
            by_cases hin : i = n
            · subst hin
              rw [if_pos rfl] at hn; cases hn
              rcases Nat.lt_or_ge k ms.next with hlt | hge
              · exact Or.inl (h.complete i ms hms k hlt)
              · right; simp only [Goro.key, Prod.mk.injEq, true_and]; simp at hk; omega
            · rw [if_neg hin] at hn; exact Or.inl (h.complete n ms' hn k hk)
          · intro n ms' f' hn hf'
            rw [hget] at hn
            by_cases hin : i = n
            · subst hin
              rw [if_pos rfl] at hn; cases hn; rw [hf] at hf'; cases hf'
              refine ⟨hnext, fun hb => ?_, by simp, by simp⟩
              rw [hst] at hb; cases hb
            · rw [if_neg hin] at hn
              obtain ⟨a, b, c, d⟩ := h.phases n ms' f' hn hf'
              refine ⟨a, b, c, fun hp hs => ⟨(d hp hs).1, fun he g hg hgn => ?_⟩⟩
              simp only [List.mem_append, List.mem_singleton] at hg
              rcases hg with hg | rfl
              · exact (d hp hs).2 he g hg hgn
              · exact absurd hgn hin
          · intro j
            rw [h.sentPast j]
            constructor
            · rintro ⟨g, hg, hp⟩
              exact ⟨g, by simp only; rw [List.getElem?_append_left (List.getElem?_eq_some_iff.1 hg).1]; exact hg, hp⟩
            · rintro ⟨g, hg, hp⟩
              simp only at hg
              rcases Nat.lt_or_ge j s.gos.length with hlt | hge
              · rw [List.getElem?_append_left hlt] at hg; exact ⟨g, hg, hp⟩
              · rw [List.getElem?_append_right hge] at hg
                cases hd : j - s.gos.length with
                | zero => simp [hd] at hg; subst hg; simp [Pc.past] at hp
                | succ n => simp [hd] at hg
          · simp only [h.out, List.map_append]
            apply List.map_congr_left
            intro j hj
            obtain ⟨g, hg, -⟩ := (h.sentPast j).1 (List.mem_append_left _ hj)
            rw [List.getElem?_append_left (by simpa using (List.getElem?_eq_some_iff.1 hg).1)]
          · intro j m' hb
            have := h.busy j m' hb
            simp only [List.map_append]
            rw [List.getElem?_append_left (List.getElem?_eq_some_iff.1 this).1]; exact this
          · intro j g hg
            simp only at hg
            rcases Nat.lt_or_ge j s.gos.length with hlt | hge
            · rw [List.getElem?_append_left hlt] at hg; exact h.logged j g hg
            · rw [List.getElem?_append_right hge] at hg
              cases hd : j - s.gos.length with
              | zero =>
                simp [hd] at hg; subst hg
                intro k id _
                exact ⟨fun hk => absurd hk (by simp [Pc.queuedUpTo]), fun hk => absurd hk (by simp [Pc.answeredUpTo])⟩
              | succ n => simp [hd] at hg
          · intro hc; exact absurd hnw hc
        · cases hs
      · rename_i hm
        have hnext : ms.next = f.results.length := by
          have := List.getElem?_eq_none_iff.1 hm; omega
        have common : ∀ (x : MmfSt) (c : Nat), x.next = ms.next →
            (x.phase = .wait → f.eof = true) → (x.phase = .done → f.eof = false) →
            Inv fs { s with mmfs := s.mmfs.set i x, counter := c } := by
          intro x c hx hw hd
          refine ⟨by simp [h.len], ?_, h.nodup, ?_, ?_, h.sentNodup, h.sentPast, h.out, h.busy, h.logged, fun hc => absurd hnw hc, h.fan⟩
          · intro g hg
            obtain ⟨f', ms', a, b, c', d, e⟩ := h.origin g hg
            by_cases hgi : i = g.mmf
            · subst hgi
              rw [hms] at b; cases b
              exact ⟨f', x, a, by simp [hget], c', by omega, e⟩
            · exact ⟨f', ms', a, by simp [hget, hgi, b], c', d, e⟩
          · intro n ms' hn k hk
            rw [hget] at hn
            by_cases hin : i = n
            · subst hin
              rw [if_pos rfl] at hn; cases hn
              exact h.complete i ms hms k (by omega)
            · rw [if_neg hin] at hn; exact h.complete n ms' hn k hk
          · intro n ms' f' hn hf'
            rw [hget] at hn
            by_cases hin : i = n
            · subst hin
              rw [if_pos rfl] at hn; cases hn; rw [hf] at hf'; cases hf'
              refine ⟨by omega, fun hb => absurd hb (by simp [hst]), fun hp => ⟨hw hp, by omega⟩, fun hp _ => ⟨by omega, fun he => ?_⟩⟩
              rw [hd hp] at he; cases he
            · rw [if_neg hin] at hn
              exact h.phases n ms' f' hn hf'
        split at hs
        · rename_i he
          cases hs
          exact common _ _ rfl (fun _ => he) (fun h => by cases h)
        · rename_i he
          cases hs
          exact common _ _ rfl (fun h => by cases h) (fun _ => by simpa using he)
    · cases hs
  · cases hs

theorem goStep_step {wait : Bool} {fan : Fan} {seen : Bool} {j : Nat} {g g' : Goro} {q : Option QEv}
    (h : goStep wait fan seen j g = .step g' q) :
    g'.mmf = g.mmf ∧ g'.idx = g.idx ∧ g'.m = g.m ∧ g'.ids = g.ids ∧ g.pc ≠ .done ∧ g'.pc.past = g.pc.past ∧
    ∀ log, Logged log j g → Logged (log ++ q.toList) j g' := by
  have mono : ∀ (log : List QEv) (g' : Goro) (q : Option QEv), g'.ids = g.ids →
      (∀ k id, g.ids[k]? = some id →
        (k < g'.pc.queuedUpTo g.ids.length → k < g.pc.queuedUpTo g.ids.length ∨ q = some (.queue j k ⟨.deactivate, id, []⟩)) ∧
        (k < g'.pc.answeredUpTo g.ids.length → k < g.pc.answeredUpTo g.ids.length ∨
          (k < g.pc.queuedUpTo g.ids.length ∧ q = some (.answer j k)))) →
      Logged log j g → Logged (log ++ q.toList) j g' := by
    intro log g' q hids hk hl k id hid
    rw [hids] at hid ⊢
    obtain ⟨h1, h2⟩ := hk k id hid
    obtain ⟨l1, l2⟩ := hl k id hid
    refine ⟨fun hlt => ?_, fun hlt => ?_⟩
    · rcases h1 hlt with h | h
      · exact List.mem_append_left _ (l1 h)
      · rw [h]; simp
    · rcases h2 hlt with h | ⟨h, h'⟩
      · exact (l2 h).trans (List.sublist_append_left _ _)
      · rw [h']
        exact (List.singleton_sublist.2 (l1 h)).append (List.Sublist.refl [QEv.answer j k])
  unfold goStep at h
  split at h
  · rename_i k hpc
    split at h
    · rename_i id hid
      cases h
      refine ⟨rfl, rfl, rfl, rfl, by simp [hpc], by simp [hpc, Pc.past], fun log => mono log _ _ rfl ?_⟩
      intro n id' hn
      simp only [Pc.queuedUpTo, Pc.answeredUpTo, hpc]
      refine ⟨fun hlt => ?_, fun hlt => absurd hlt (by simp)⟩
      rcases Nat.lt_or_ge n k with h | h
      · exact Or.inl h
      · have : n = k := by omega
        subst this; rw [hid] at hn; cases hn; exact Or.inr rfl
    · rename_i hid
      cases h
      refine ⟨rfl, rfl, rfl, rfl, by simp [hpc], by simp [hpc, Pc.past], fun log => mono log _ _ rfl ?_⟩
      intro n id' hn
      simp only [Pc.queuedUpTo, Pc.answeredUpTo, hpc]
      have := (List.getElem?_eq_some_iff.1 hn).1
      have := List.getElem?_eq_none_iff.1 hid
      exact ⟨fun _ => Or.inl (by omega), fun h => Or.inl h⟩
  · rename_i k hpc
    split at h
    · cases h
      refine ⟨rfl, rfl, rfl, rfl, by simp [hpc], by simp [hpc, Pc.past], fun log => mono log _ _ rfl ?_⟩
      intro n id hn
      simp only [Pc.queuedUpTo, Pc.answeredUpTo, hpc]
      refine ⟨fun h => Or.inl h, fun hlt => ?_⟩
      rcases Nat.lt_or_ge n k with h | h
      · exact Or.inl h
      · have : n = k := by omega
        subst this; exact Or.inr ⟨(List.getElem?_eq_some_iff.1 hn).1, rfl⟩
    · rename_i hge
      cases h
      refine ⟨rfl, rfl, rfl, rfl, by simp [hpc], by cases wait <;> simp [hpc, Pc.past], fun log => mono log _ _ rfl ?_⟩
      intro n id hn
      have := (List.getElem?_eq_some_iff.1 hn).1
      simp only [Pc.queuedUpTo, Pc.answeredUpTo, hpc]
      exact ⟨fun _ => Or.inl this, fun _ => Or.inl (by omega)⟩
  · rename_i hpc
    split at h
    · cases h
    · cases h
      refine ⟨rfl, rfl, rfl, rfl, by simp [hpc], by simp [hpc, Pc.past], fun log => mono log _ _ rfl ?_⟩
      intro n id hn
      simp only [Pc.queuedUpTo, Pc.answeredUpTo, hpc]
      exact ⟨fun h => Or.inl h, fun h => Or.inl h⟩
  · split at h <;> cases h
  · rename_i hpc
    split at h
    · cases h
    · cases h
      refine ⟨rfl, rfl, rfl, rfl, by simp [hpc], by simp [hpc, Pc.past], fun log => mono log _ _ rfl ?_⟩
      intro n id hn
      simp only [Pc.queuedUpTo, Pc.answeredUpTo, hpc]
      exact ⟨fun h => Or.inl h, fun h => Or.inl h⟩
  · cases h

theorem inv_step {wait : Bool} {fs : List Mmf} {s s' : St} {l : Label} (h : Inv fs s)
    (hs : step wait fs s l = some s') : Inv fs s' := by
  unfold step at hs
  split at hs
  · cases hs
  · cases l with
    | recv i ord => exact inv_recv h hs
    | tdDone i =>
      simp only at hs
      split at hs
      · rename_i ms hms
        split at hs
        · rename_i hc
          cases hs
          have hilt : i < s.mmfs.length := (List.getElem?_eq_some_iff.1 hms).1
          have hget : ∀ (x : MmfSt) (n : Nat), (s.mmfs.set i x)[n]? = if i = n then some x else s.mmfs[n]? := by
            intro x n; rw [List.getElem?_set]; by_cases hn : i = n
            · subst hn; simp [hilt]
            · simp [hn]
          refine ⟨by simp [h.len], ?_, h.nodup, ?_, ?_, h.sentNodup, h.sentPast, h.out, h.busy, h.logged, ?_, h.fan⟩
          · intro g hg
            obtain ⟨f', ms', a, b, c', d, e⟩ := h.origin g hg
            by_cases hgi : i = g.mmf
            · subst hgi
              rw [hms] at b; cases b
              exact ⟨f', ⟨ms.next, .done⟩, a, by simp [hget], c', d, e⟩
            · exact ⟨f', ms', a, by simp [hget, hgi, b], c', d, e⟩
          · intro n ms' hn k hk
            rw [hget] at hn
            by_cases hin : i = n
            · subst hin
              rw [if_pos rfl] at hn; cases hn
              exact h.complete i ms hms k hk
            · rw [if_neg hin] at hn; exact h.complete n ms' hn k hk
          · intro n ms' f' hn hf'
            rw [hget] at hn
            by_cases hin : i = n
            · subst hin
              rw [if_pos rfl] at hn; cases hn
              obtain ⟨a, b, c, d⟩ := h.phases i ms f' hms hf'
              refine ⟨a, fun hb => ?_, by simp, fun _ hst => ⟨(c hc.1).2, fun _ => hc.2⟩⟩
              have := b hb; rw [this] at hc; cases hc.1
            · rw [if_neg hin] at hn
              exact h.phases n ms' f' hn hf'
          · intro hm
            exact fun x hx => by
              rcases List.mem_or_eq_of_mem_set hx with hx | hx
              · exact h.main hm x hx
              · rw [hx]
        · cases hs
      · cases hs
    | go j seen =>
      simp only at hs
      split at hs
      · rename_i g hj
        split at hs
        · cases hs
        · cases hs
          exact ⟨h.len, h.origin, h.nodup, h.complete, h.phases, h.sentNodup, h.sentPast, h.out, h.busy, h.logged, h.main, h.fan⟩
        · rename_i g' q hgo
          cases hs
          obtain ⟨a, b, c, d, e, f, hq⟩ := goStep_step hgo
          refine inv_go h hj a b c d e s.fan _ h.sentNodup h.busy ?_ (List.sublist_append_left _ _) ?_ h.fan
          · intro n
            rw [h.sentPast n, List.getElem?_set]
            have hlt : j < s.gos.length := (List.getElem?_eq_some_iff.1 hj).1
            by_cases hn : j = n
            · subst hn; simp [hlt, f]
              rw [List.getElem?_eq_getElem hlt] at hj
              rw [Option.some.inj hj]
            · simp [hn]
          · exact hq _ (h.logged j g hj)
      · cases hs
    | hand j =>
      simp only at hs
      split at hs
      · rename_i g hj
        split at hs
        · rename_i hc
          cases hs
          have hlt : j < s.gos.length := (List.getElem?_eq_some_iff.1 hj).1
          have hnp : ∀ x, x ∈ s.sent ↔ ∃ g, s.gos[x]? = some g ∧ g.pc.past = true := by
            intro x; have := h.sentPast x; rw [hc.2] at this; simpa [Fan.inFlight] using this
          have hjn : j ∉ s.sent := by
            intro hm
            obtain ⟨g', h1, h2⟩ := (hnp j).1 hm
            rw [hj] at h1; cases h1; rw [hc.1] at h2; cases h2
          refine inv_go (g' := { g with pc := if wait then .done else .checkAfter }) h hj rfl rfl rfl rfl (by rw [hc.1]; simp) (.busy j g.m) s.log ?_ ?_ ?_ (List.Sublist.refl _) ?_ (by simp)
          · have := h.sentNodup
            rw [hc.2] at this
            simp only [Fan.inFlight, List.append_nil] at this ⊢
            rw [List.nodup_append]
            refine ⟨this, by simp, ?_⟩
            intro a ha b hb hab
            simp only [List.mem_singleton] at hb
            subst hb; subst hab; exact hjn ha
          · intro n m hb
            cases hb
            simp [hj]
          · intro n
            simp only [Fan.inFlight, List.mem_append, List.mem_singleton, List.getElem?_set]
            by_cases hn : j = n
            · subst hn
              simp only [or_true, if_pos, hlt, true_iff]
              exact ⟨_, rfl, by cases wait <;> rfl⟩
            · rw [if_neg hn, hnp n]; simp [Ne.symm hn]
          · intro k id hk
            have := h.logged j g hj k id hk
            rw [hc.1] at this
            have hl := (List.getElem?_eq_some_iff.1 hk).1
            exact ⟨fun _ => this.1 hl, fun _ => this.2 hl⟩
        · cases hs
      · cases hs
    | fanEnd =>
      simp only at hs
      split at hs
      · rename_i j m hf
        cases hs
        refine ⟨h.len, h.origin, h.nodup, h.complete, h.phases, ?_, ?_, by simp only [List.map_append, List.map_cons, List.map_nil, h.out, h.busy j m hf], by simp, h.logged, h.main, by simp⟩
        · have := h.sentNodup; rw [hf] at this; simpa [Fan.inFlight] using this
        · intro n; have := h.sentPast n; rw [hf] at this; simpa [Fan.inFlight] using this
      · cases hs
    | mainClose =>
      simp only at hs
      split at hs
      · rename_i hc
        cases hs
        exact ⟨h.len, h.origin, h.nodup, h.complete, h.phases, h.sentNodup, h.sentPast, h.out, h.busy, h.logged, fun _ => hc.2, by simp⟩
      · cases hs
    | fanClose =>
      simp only at hs
      split at hs
      · rename_i hc
        cases hs
        refine ⟨h.len, h.origin, h.nodup, h.complete, h.phases, ?_, ?_, h.out, by simp, h.logged, h.main, fun _ => hc.1⟩
        · have := h.sentNodup; rw [hc.2] at this; simpa [Fan.inFlight] using this
        · intro n; have := h.sentPast n; rw [hc.2] at this; simpa [Fan.inFlight] using this
      · cases hs
    | mainReturn =>
      simp only at hs
      split at hs
      · rename_i hc
        cases hs
        exact ⟨h.len, h.origin, h.nodup, h.complete, h.phases, h.sentNodup, h.sentPast, h.out, h.busy, h.logged,
          fun _ => h.main (by rw [hc]; simp), by simp⟩
      · cases hs

theorem inv_run {wait : Bool} {fs : List Mmf} {s s' : St} {ls : List Label} (h : Inv fs s)
    (hr : run wait fs s ls = some s') : Inv fs s' := by
  induction ls generalizing s with
  | nil => cases hr; exact h
  | cons l ls ih =>
    simp only [run, Option.bind_eq_some_iff] at hr
    obtain ⟨s1, h1, h2⟩ := hr
    exact ih (inv_step h h1) h2

/-- A run preserves whatever each step (from a state with the invariant) preserves. -/
theorem run_induct {wait : Bool} {fs : List Mmf} {P : St → Prop}
    (hstep : ∀ s l s', Inv fs s → P s → step wait fs s l = some s' → P s')
    {s s' : St} {ls : List Label} (hi : Inv fs s) (hp : P s) (hr : run wait fs s ls = some s') : P s' := by
  induction ls generalizing s with
  | nil => cases hr; exact hp
  | cons l ls ih =>
    simp only [run, Option.bind_eq_some_iff] at hr
    obtain ⟨s1, h1, h2⟩ := hr
    exact ih (inv_step hi h1) (hstep s l s1 hi hp h1) h2

/-! ## Keys and matches -/

/-- All (MMF, result) positions of the request. -/
def allKeys (p : Mmf → Bool) (fs : List Mmf) : List (Nat × Nat) :=
  (List.range fs.length).flatMap fun i =>
    match fs[i]? with
    | some f => if p f then (List.range f.results.length).map fun k => (i, k) else []
    | none => []

/-- The match at a position. -/
def lookup (fs : List Mmf) (x : Nat × Nat) : Option (Option Match) := fs[x.1]?.bind fun f => f.results[x.2]?

theorem mem_allKeys {p : Mmf → Bool} {fs : List Mmf} {x : Nat × Nat} :
    x ∈ allKeys p fs ↔ ∃ f, fs[x.1]? = some f ∧ p f = true ∧ x.2 < f.results.length := by
  obtain ⟨i, k⟩ := x
  simp only [allKeys, List.mem_flatMap, List.mem_range]
  constructor
  · rintro ⟨i', h1, h2⟩
    split at h2
    · rename_i f hf
      split at h2
      · rename_i hp
        simp only [List.mem_map, List.mem_range, Prod.mk.injEq] at h2
        obtain ⟨k', hk, rfl, rfl⟩ := h2
        exact ⟨f, hf, hp, hk⟩
      · cases h2
    · cases h2
  · rintro ⟨f, hf, hp, hk⟩
    refine ⟨i, (List.getElem?_eq_some_iff.1 hf).1, ?_⟩
    simp only [hf, hp, if_true, List.mem_map, List.mem_range]
    exact ⟨k, hk, rfl⟩

theorem nodup_allKeys (p : Mmf → Bool) (fs : List Mmf) : (allKeys p fs).Nodup := by
  unfold allKeys
  unfold List.Nodup
  rw [List.pairwise_flatMap]
  refine ⟨fun i _ => ?_, ?_⟩
  · split
    · split
      · exact List.pairwise_map.2 (List.nodup_range.imp (by intro a b h; simpa using h))
      · exact List.nodup_nil
    · exact List.nodup_nil
  · refine List.nodup_range.imp ?_
    intro a b hab x hx y hy hxy
    subst hxy
    have h1 : x.1 = a := by
      split at hx
      · split at hx
        · simp only [List.mem_map] at hx; obtain ⟨_, _, rfl⟩ := hx; rfl
        · cases hx
      · cases hx
    have h2 : x.1 = b := by
      split at hy
      · split at hy
        · simp only [List.mem_map] at hy; obtain ⟨_, _, rfl⟩ := hy; rfl
        · cases hy
      · cases hy
    exact hab (h1.symm.trans h2)

private theorem range_map_getElem? {α : Type} (l : List α) : (List.range l.length).map (fun k => l[k]?) = l.map some := by
  apply List.ext_getElem?
  intro n
  simp only [List.getElem?_map]
  rcases Nat.lt_or_ge n l.length with h | h
  · simp [List.getElem?_range h, List.getElem?_eq_getElem h]
  · rw [List.getElem?_eq_none (by simpa using h), List.getElem?_eq_none h]; rfl

theorem allKeys_lookup (p : Mmf → Bool) (fs : List Mmf) :
    (allKeys p fs).map (lookup fs) = ((fs.filter p).flatMap (·.results)).map some := by
  unfold allKeys
  rw [List.map_flatMap, List.map_flatMap]
  have h1 : ∀ i ∈ List.range fs.length, List.map (lookup fs) (match fs[i]? with
      | some f => if p f then (List.range f.results.length).map fun k => (i, k) else []
      | none => []) = (fun o : Option Mmf => match o with
        | some f => if p f then f.results.map some else []
        | none => []) (fs[i]?) := by
    intro i _
    cases hf : fs[i]? with
    | none => rfl
    | some f =>
      simp only
      split
      · rw [List.map_map, ← range_map_getElem?]
        apply List.map_congr_left
        intro k _
        simp [lookup, hf]
      · rfl
  rw [List.flatMap_congr h1]
  have h2 := (List.flatMap_map (fun k => fs[k]?) (fun o : Option Mmf => match o with
        | some f => if p f then f.results.map some else []
        | none => []) (l := List.range fs.length)).symm
  rw [h2, range_map_getElem?, List.flatMap_map]
  clear h1 h2
  induction fs with
  | nil => rfl
  | cons f fs ih =>
    simp only [List.flatMap_cons, List.filter_cons]
    rw [ih]
    split <;> simp

/-- The keys of the goroutines whose match was handed over, in order. -/
def handedKeys (s : St) : List (Nat × Nat) := (s.sent ++ s.fan.inFlight).filterMap fun j => (s.gos.map Goro.key)[j]?

private theorem filterMap_getElem?_nodup {α : Type} (l : List α) (hl : l.Nodup) (js : List Nat) (hj : js.Nodup) :
    (js.filterMap fun j => l[j]?).Nodup := by
  induction js with
  | nil => simp
  | cons j js ih =>
    have hj' := List.nodup_cons.1 hj
    rw [List.filterMap_cons]
    split
    · exact ih hj'.2
    · rename_i x hx
      rw [List.nodup_cons]
      refine ⟨fun hm => ?_, ih hj'.2⟩
      obtain ⟨j', h1, h2⟩ := List.mem_filterMap.1 hm
      have e := (List.nodup_iff_injective_getElem.1 hl)
      obtain ⟨a1, a2⟩ := List.getElem?_eq_some_iff.1 hx
      obtain ⟨b1, b2⟩ := List.getElem?_eq_some_iff.1 h2
      have := @e ⟨j, a1⟩ ⟨j', b1⟩ (by simp [a2, b2])
      simp only [Fin.mk.injEq] at this
      subst this; exact hj'.1 h1

theorem handedKeys_nodup {fs : List Mmf} {s : St} (h : Inv fs s) : (handedKeys s).Nodup :=
  filterMap_getElem?_nodup _ h.nodup _ h.sentNodup

theorem handedKeys_sub {fs : List Mmf} {s : St} (h : Inv fs s) : ∀ x ∈ handedKeys s, x ∈ allKeys (·.starts) fs := by
  intro x hx
  obtain ⟨j, -, h2⟩ := List.mem_filterMap.1 hx
  rw [List.getElem?_map, Option.map_eq_some_iff] at h2
  obtain ⟨g, hg, rfl⟩ := h2
  obtain ⟨f, ms, a, b, c, d, e, -⟩ := h.origin g (List.mem_of_getElem? hg)
  exact mem_allKeys.2 ⟨f, a, e, (List.getElem?_eq_some_iff.1 c).1⟩

theorem handedKeys_lookup {fs : List Mmf} {s : St} (h : Inv fs s) :
    (handedKeys s).map (lookup fs) = (handed s).map some := by
  have h1 : (handed s).map some = (s.sent ++ s.fan.inFlight).map fun j => (s.gos.map (·.m))[j]? := by
    simp only [handed, List.map_append, h.out]
    congr 1
    cases hf : s.fan with
    | busy j m => simp only [Fan.inFlight, List.map_cons, List.map_nil, h.busy j m hf]
    | _ => rfl
  rw [h1]
  unfold handedKeys
  have h2 : ∀ j ∈ s.sent ++ s.fan.inFlight, ∃ g, s.gos[j]? = some g := by
    intro j hj; obtain ⟨g, hg, -⟩ := (h.sentPast j).1 hj; exact ⟨g, hg⟩
  revert h2
  generalize s.sent ++ s.fan.inFlight = js
  intro h2
  induction js with
  | nil => rfl
  | cons j js ih =>
    obtain ⟨g, hg⟩ := h2 j (by simp)
    have hk : (s.gos.map Goro.key)[j]? = some g.key := by simp [hg]
    rw [List.filterMap_cons_some hk, List.map_cons, List.map_cons, ih (fun j hj => h2 j (by simp [hj]))]
    congr 1
    obtain ⟨f, ms, a, b, c, d, e, -⟩ := h.origin g (List.mem_of_getElem? hg)
    simp [lookup, Goro.key, a, c, hg]

end OM.Relay
