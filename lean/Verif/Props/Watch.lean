import Verif.Lemmas.Watch
import Verif.Lemmas.Numbers
import Mathlib.Data.List.Perm.Subperm
import Mathlib.Tactic.Linarith
/-! # Properties C58, C59, C61, C73–C75, C94: WatchAssignments -/
namespace OM.Props
open OM.Watch OM.Spec

/-! ## Sample data -/

def srv : Assignment := ⟨"10.0.0.1:7777".toList, []⟩
def w1 : Str := "1700000000-1".toList
def w2 : Str := "1700000003-1".toList

/-- Two ids, one of them twice; all three watches are served. -/
def watchRun : List Label :=
  [.launch, .launch, .cacheSet [(w1, srv)], .poll 0, .launch, .begin, .take 0, .cacheSet [(w1, srv), (w2, srv)],
   .poll 2, .poll 1, .sent, .take 2, .sent, .take 1, .sent, .finish]

/-- The second id gets its assignment after the timeout. -/
def lateRun : List Label :=
  [.launch, .launch, .begin, .cacheSet [(w1, srv)], .poll 0, .take 0, .sent, .tick 1700000604000000000, .timeout,
   .cacheSet [(w1, srv), (w2, srv)], .poll 1, .crash 1]

def watchStart : Int := 1700000001000000000

/-! ## C58 -/

theorem subperm_of_weights {ids : List Str} {s : St} {cfg : Config} {now0 : Int} (h : Watch.Inv cfg now0 ids s)
    (x : Str) : (s.sent.map (·.1)).count x ≤ (s.gos.map (·.id)).count x ∧
      ((∀ g ∈ s.gos, g.pc = .done) → s.main.cur = [] → (s.sent.map (·.1)).count x = (s.gos.map (·.id)).count x) := by
  have hw := h.weights fun y => if y = x then 1 else 0
  have e1 : ∀ l : List (Str × Assignment), (l.map fun r => if r.1 = x then 1 else 0).sum = (l.map (·.1)).count x := by
    intro l
    induction l with
    | nil => rfl
    | cons r l ih =>
      simp only [List.map_cons, List.sum_cons, ih, List.count_cons, beq_iff_eq]; omega
  have e2 : ∀ l : List Watch.Goro, (l.map (doneW fun y => if y = x then 1 else 0)).sum ≤ (l.map (·.id)).count x ∧
      ((∀ g ∈ l, g.pc = .done) → (l.map (doneW fun y => if y = x then 1 else 0)).sum = (l.map (·.id)).count x) := by
    intro l
    induction l with
    | nil => simp
    | cons g l ih =>
      simp only [List.map_cons, List.sum_cons, List.count_cons, beq_iff_eq]
      constructor
      · have := ih.1
        have hg : doneW (fun y => if y = x then 1 else 0) g ≤ if g.id = x then 1 else 0 := by
          simp only [doneW]; split <;> simp
        omega
      · intro hd
        have := ih.2 (fun y hy => hd y (by simp [hy]))
        rw [this]
        simp only [doneW, hd g (by simp), if_true]; omega
  rw [e1, List.map_append, List.count_append] at hw
  refine ⟨by have := (e2 s.gos).1; omega, fun hd hc => ?_⟩
  have := (e2 s.gos).2 hd
  rw [hc] at hw
  simp at hw
  omega

/-- **C58 (at most once).** At any moment of any run the responses sent are, with
multiplicity, for requested ids, and each carries an assignment that was in the cache for
its id during the call. -/
theorem C58_at_most_once (cfg : Config) (now0 : Int) (ids : List Str) (c : GoMap Assignment) (ls : List Label) (s : St)
    (hr : run cfg now0 ids (init now0 c) ls = some s) :
    (s.sent.map (·.1)).Subperm ids ∧ ∀ r ∈ s.sent, ∃ c' ∈ s.hist, c'.load r.1 = some r.2 := by
  have h := inv_run (inv_init cfg now0 ids c) hr
  refine ⟨?_, fun r hr => h.seen r (List.mem_append_left _ hr)⟩
  have hpre : (s.gos.map (·.id)).Sublist ids := by
    have hm := h.main
    unfold MainInv at hm
    cases hk : s.main with
    | starting k => simp only [hk] at hm; rw [hm.2.1]; exact List.take_sublist _ _
    | select i => simp only [hk] at hm; rw [hm.1]
    | sending i r => simp only [hk] at hm; rw [hm.1]
    | returned b => cases b <;> simp only [hk] at hm <;> rw [hm.1]
  refine List.Subperm.trans (l₂ := s.gos.map (·.id)) ?_ hpre.subperm
  rw [List.subperm_ext_iff]
  intro x _
  exact (subperm_of_weights h x).1

/-- **C58 (exactly once).** A call that returns without timing out has sent exactly one
response per requested occurrence of an id. -/
theorem C58_exactly_once (cfg : Config) (now0 : Int) (ids : List Str) (c : GoMap Assignment) (ls : List Label) (s : St)
    (hr : run cfg now0 ids (init now0 c) ls = some s) (hm : s.main = .returned false) :
    (s.sent.map (·.1)).Perm ids := by
  have h := inv_run (inv_init cfg now0 ids c) hr
  have hi := h.main
  simp only [MainInv, hm] at hi
  have hd := all_done h hi.1 (by rw [hm]; simp [Main.cur, hi.2.1])
  rw [List.perm_iff_count]
  intro x
  rw [(subperm_of_weights h x).2 hd (by rw [hm]; rfl), hi.1]

/-- **C58 (the call ends when everything was sent).** As soon as there are as many responses as ids, the call has returned or
returns by itself, without waiting for its timeout or anything else. -/
theorem C58_returns_when_served (cfg : Config) (now0 : Int) (ids : List Str) (c : GoMap Assignment) (ls : List Label) (s : St)
    (hr : run cfg now0 ids (init now0 c) ls = some s) (hs : s.sent.length = ids.length) :
    s.main = .returned false ∨
      ∃ ls' s', (ls' = [.finish] ∨ ls' = [.begin, .finish]) ∧ run cfg now0 ids s ls' = some s' ∧ s'.main = .returned false ∧
        s'.sent = s.sent ∧ s'.now = s.now := by
  have h := inv_run (inv_init cfg now0 ids c) hr
  have hi := h.main
  have hc : ∀ m, s.main = m → m ≠ .returned true → s.crashed = false := by
    intro m hm hne
    cases hc : s.crashed with
    | false => rfl
    | true => exact absurd (hm ▸ h.crash hc) hne
  cases hm : s.main with
  | returned b =>
    cases b with
    | false => exact Or.inl rfl
    | true => simp only [MainInv, hm] at hi; omega
  | starting k =>
    simp only [MainInv, hm] at hi
    obtain ⟨hk, -, hsent, -⟩ := hi
    have h0 : ids.length = 0 := by rw [hsent] at hs; simpa using hs.symm
    have hcr := hc _ hm (by simp)
    refine Or.inr ⟨[.begin, .finish],
      { s with main := .returned false, gauge := s.gauge + ids.length, fire := fireAt cfg.ttl now0 s.now ids }, Or.inr rfl, ?_, rfl, rfl, rfl⟩
    simp only [run, step, hcr, Bool.false_eq_true, if_false, hm, show k = ids.length by omega, if_true, Option.bind_some, h0]
  | select i =>
    simp only [MainInv, hm] at hi
    have hcr := hc _ hm (by simp)
    refine Or.inr ⟨[.finish], { s with main := .returned false }, Or.inl rfl, ?_, rfl, rfl, rfl⟩
    simp only [run, step, hcr, Bool.false_eq_true, if_false, hm, show i = ids.length by omega, if_true, Option.bind_some]
  | sending i r =>
    simp only [MainInv, hm] at hi
    omega

/-- **C58 (nothing is missed).** While the call waits, an assignment in the cache for an id
that has not been served is picked up: the goroutine for it can poll and be received from. -/
theorem C58_assignment_is_picked_up (cfg : Config) (now0 : Int) (ids : List Str) (c : GoMap Assignment) (ls : List Label)
    (s : St) (hr : run cfg now0 ids (init now0 c) ls = some s) (i : Nat) (hm : s.main = .select i) (j : Nat)
    (g : Watch.Goro) (hj : s.gos[j]? = some g) (hg : g.pc = .poll) (a : Assignment) (ha : s.cache.load g.id = some a) :
    ∃ s', run cfg now0 ids s [.poll j, .take j] = some s' ∧ s'.main = .sending i (g.id, a) := by
  have h := inv_run (inv_init cfg now0 ids c) hr
  have hc : s.crashed = false := by
    cases hc : s.crashed with
    | false => rfl
    | true => have := h.crash hc; rw [hm] at this; cases this
  have hi := h.main
  simp only [MainInv, hm] at hi
  have hlt : i < ids.length := by
    rcases Nat.lt_or_ge i ids.length with h' | h'
    · exact h'
    · have := all_done h hi.1 (by rw [hm]; simp [Main.cur]; omega) g (List.mem_of_getElem? hj)
      rw [hg] at this; cases this
  have hjl : j < s.gos.length := (List.getElem?_eq_some_iff.1 hj).1
  simp only [run, step, hc, Bool.false_eq_true, if_false, hj, hg, if_true, ha, Option.bind_some, hm]
  simp [hjl, hlt]

example : ∃ s, run Config.default watchStart [w1, w2, w1] (init watchStart []) watchRun = some s ∧
    s.main = .returned false ∧ s.sent = [(w1, srv), (w1, srv), (w2, srv)] := by
  have h1 : (run Config.default watchStart [w1, w2, w1] (init watchStart []) watchRun).map (fun s => (s.main, s.sent)) =
    some (.returned false, [(w1, srv), (w1, srv), (w2, srv)]) := by decide +kernel
  obtain ⟨s, hs, he⟩ := Option.map_eq_some_iff.1 h1
  rw [Prod.mk.injEq] at he
  exact ⟨s, hs, he⟩

example : ∃ s, run Config.default watchStart [w1, w2] (init watchStart []) (lateRun.take 4) = some s ∧
    s.main = .select 0 ∧ s.gos[0]? = some ⟨w1, .poll⟩ ∧ s.cache.load w1 = some srv := by
  have h1 : (run Config.default watchStart [w1, w2] (init watchStart []) (lateRun.take 4)).map
    (fun s => (s.main, s.gos[0]?, s.cache.load w1)) = some (.select 0, some ⟨w1, .poll⟩, some srv) := by decide +kernel
  obtain ⟨s, hs, he⟩ := Option.map_eq_some_iff.1 h1
  rw [Prod.mk.injEq, Prod.mk.injEq] at he
  exact ⟨s, hs, he⟩

/-! ## C59 -/

/-- What C59 asks. -/
def C59_statement : Prop := ∀ (cfg : Config) (now0 : Int) (ids : List Str) (c : GoMap Assignment) (ls : List Label) (s : St),
  run cfg now0 ids (init now0 c) ls = some s → s.crashed = false

/-- **C59 is false of the code**: after a timeout `updateChan` is closed while goroutines
still poll; the next assignment makes one send on the closed channel. -/
theorem C59_never_crashes_refuted : ¬ C59_statement := by
  intro h
  have h1 : (run Config.default watchStart [w1, w2] (init watchStart []) lateRun).map (·.crashed) = some true := by decide +kernel
  obtain ⟨s, hs, he⟩ := Option.map_eq_some_iff.1 h1
  rw [h _ _ _ _ _ s hs] at he
  cases he

/-- **C59 (what holds).** Partial: full C59 has no hypothesis.  A call that has not timed out
does not panic, not even after it has returned. -/
theorem C59_no_crash_without_timeout_partial (cfg : Config) (now0 : Int) (ids : List Str) (c : GoMap Assignment)
    (ls : List Label) (s : St) (hr : run cfg now0 ids (init now0 c) ls = some s) (ht : s.main ≠ .returned true) :
    s.crashed = false := by
  have h := inv_run (inv_init cfg now0 ids c) hr
  cases hc : s.crashed with
  | false => rfl
  | true => exact absurd (h.crash hc) ht

/-! ## C61 -/

/-- What C61 asks. -/
def C61_statement : Prop := ∀ (cfg : Config) (now0 : Int) (ids : List Str) (c : GoMap Assignment) (ls : List Label) (s : St),
  run cfg now0 ids (init now0 c) ls = some s → (∃ b, s.main = .returned b) → s.gauge = 0

/-- **C61 is false of the code**: on timeout the number of outstanding watches is added
instead of subtracted. -/
theorem C61_gauge_refuted : ¬ C61_statement := by
  intro h
  have h1 : (run Config.default watchStart [w1, w2] (init watchStart []) (lateRun.take 9)).map (fun s => (s.main, s.gauge)) =
    some (.returned true, 2) := by decide +kernel
  obtain ⟨s, hs, he⟩ := Option.map_eq_some_iff.1 h1
  rw [Prod.mk.injEq] at he
  have := h _ _ _ _ _ s hs ⟨true, he.1⟩
  rw [he.2] at this
  cases this

/-- **C61 (what holds).** Partial: full C61 has 0 in both cases.  A call that ends normally
leaves the gauge where it was; one that times out leaves it higher by twice the number of
unserved ids. -/
theorem C61_gauge_partial (cfg : Config) (now0 : Int) (ids : List Str) (c : GoMap Assignment) (ls : List Label) (s : St)
    (hr : run cfg now0 ids (init now0 c) ls = some s) :
    (s.main = .returned false → s.gauge = 0) ∧
    (s.main = .returned true → s.gauge = 2 * (ids.length - s.sent.length) ∧ 0 < s.gauge) := by
  have h := inv_run (inv_init cfg now0 ids c) hr
  have hi := h.main
  unfold MainInv at hi
  constructor
  · intro hm; simp only [hm] at hi; exact hi.2.2
  · intro hm; simp only [hm] at hi; exact ⟨hi.2.2.1, by rw [hi.2.2.1]; have := hi.2.1; omega⟩

/-! ## C73, C74: the timeout -/

private theorem newest_spec (now0 : Int) (ids : List Str) :
    now0 ≤ newest now0 ids ∧ (∀ id ∈ ids, ctimeOf id ≤ newest now0 ids) ∧
    (newest now0 ids = now0 ∨ ∃ id ∈ ids, newest now0 ids = ctimeOf id) := by
  unfold newest
  induction ids generalizing now0 with
  | nil => simp
  | cons x ids ih =>
    simp only [List.foldl_cons]
    obtain ⟨h1, h2, h3⟩ := ih (if ctimeOf x > now0 then ctimeOf x else now0)
    have hx : now0 ≤ (if ctimeOf x > now0 then ctimeOf x else now0) ∧ ctimeOf x ≤ (if ctimeOf x > now0 then ctimeOf x else now0) := by
      split <;> omega
    refine ⟨by omega, ?_, ?_⟩
    · intro id hid
      rcases List.mem_cons.1 hid with rfl | hid
      · omega
      · exact h2 id hid
    · rcases h3 with h3 | ⟨id, hid, h3⟩
      · rw [h3]
        split
        · exact Or.inr ⟨x, by simp, rfl⟩
        · exact Or.inl rfl
      · exact Or.inr ⟨id, by simp [hid], h3⟩

/-- The time in an id of the in-memory replicator. -/
theorem ctimeOf_seconds (sec n : Nat) (h : sec < 2 ^ 62) : ctimeOf (fmtNat sec ++ '-' :: fmtNat n) = sec * nsPerSec := by
  unfold ctimeOf
  rw [splitFirst_append _ _ _ (dash_not_mem_fmtNat sec)]
  rw [parseInt0_fmtNat (by omega)]
  have e : wrap64 ((sec : Int) + unixToInternal) = sec + unixToInternal := by
    unfold wrap64 unixToInternal
    rw [Int.emod_eq_of_lt (by omega) (by omega)]; omega
  simp only [ParseRes.value]
  rw [e, Int.add_sub_cancel]

/-- **C73.** A watch for tickets of the in-memory replicator that gives up has waited at least
the ticket TTL from its start, and until the TTL of every requested ticket has passed.
(TTL below 100 years, ids issued less than 100 years after the call.) -/
theorem C73_waits_for_the_ttl (cfg : Config) (now0 : Int) (sns : List (Nat × Nat)) (c : GoMap Assignment) (ls : List Label)
    (s : St) (httl : 0 ≤ cfg.ttl ∧ cfg.ttl < 3153600000)
    (hsn : ∀ p ∈ sns, (p.1 : Int) * nsPerSec ≤ now0 + 3153600000 * nsPerSec) (hnow : 0 ≤ now0 ∧ now0 < 2 ^ 62)
    (hr : run cfg now0 (sns.map fun p => fmtNat p.1 ++ '-' :: fmtNat p.2) (init now0 c) ls = some s)
    (hm : s.main = .returned true) :
    now0 + cfg.ttl * nsPerSec ≤ s.now ∧ ∀ p ∈ sns, (p.1 : Int) * nsPerSec + cfg.ttl * nsPerSec ≤ s.now := by
  have h := inv_run (inv_init _ _ _ _) hr
  have hi := h.main
  simp only [MainInv, hm] at hi
  obtain ⟨-, -, -, ⟨t, ht0, ht1, hf⟩, hfire⟩ := hi
  obtain ⟨n1, n2, n3⟩ := newest_spec now0 (sns.map fun p => fmtNat p.1 ++ '-' :: fmtNat p.2)
  have hct : ∀ p ∈ sns, ctimeOf (fmtNat p.1 ++ '-' :: fmtNat p.2) = (p.1 : Int) * nsPerSec := by
    intro p hp
    refine ctimeOf_seconds _ _ ?_
    have := hsn p hp
    simp only [nsPerSec] at this
    omega
  have hub : newest now0 (sns.map fun p => fmtNat p.1 ++ '-' :: fmtNat p.2) ≤ now0 + 3153600000 * nsPerSec := by
    rcases n3 with n3 | ⟨id, hid, n3⟩
    · rw [n3]; simp [nsPerSec]
    · obtain ⟨p, hp, rfl⟩ := List.mem_map.1 hid
      rw [n3, hct p hp]; exact hsn p hp
  have hge : newest now0 (sns.map fun p => fmtNat p.1 ++ '-' :: fmtNat p.2) + cfg.ttl * nsPerSec ≤ s.now := by
    rw [hf] at hfire
    unfold fireAt clamp64 at hfire
    rw [goSecs_exact (by omega) (by omega)] at hfire
    simp only [nsPerSec, minInt64, maxInt64] at *
    omega
  refine ⟨by omega, fun p hp => ?_⟩
  have := n2 _ (List.mem_map.2 ⟨p, hp, rfl⟩)
  rw [hct p hp] at this
  omega

/-- The hypotheses of C73 are met by the late run. -/
example : ∃ s, run Config.default watchStart ([(1700000000, 1), (1700000003, 1)].map fun p => fmtNat p.1 ++ '-' :: fmtNat p.2)
      (init watchStart []) (lateRun.take 9) = some s ∧ s.main = .returned true ∧ s.now = 1700000604000000000 := by
  have h1 : (run Config.default watchStart ([(1700000000, 1), (1700000003, 1)].map fun p => fmtNat p.1 ++ '-' :: fmtNat p.2)
      (init watchStart []) (lateRun.take 9)).map (fun s => (s.main, s.now)) = some (.returned true, 1700000604000000000) := by
    decide +kernel
  obtain ⟨s, hs, he⟩ := Option.map_eq_some_iff.1 h1
  rw [Prod.mk.injEq] at he
  exact ⟨s, hs, he⟩

/-- What C74 asks, for ids of either replicator (`unit` is what the id's number counts:
seconds in memory, milliseconds in Redis) that were issued before the call: the timer is
set to fire no later than TTL after the moment `t` it is set. -/
def C74_statement (unit : Int) : Prop := ∀ (ttl now0 t : Int) (sns : List (Nat × Nat)), 0 ≤ ttl → now0 ≤ t → 0 ≤ now0 → t < 2 ^ 62 →
  (∀ p ∈ sns, (p.1 : Int) * unit ≤ now0) →
  fireAt ttl now0 t (sns.map fun p => fmtNat p.1 ++ '-' :: fmtNat p.2) ≤ t + ttl * nsPerSec

/-- **C74** holds of in-memory ids. -/
theorem C74_gives_up_in_time_partial : C74_statement nsPerSec := by
  intro ttl now0 t sns h0 ht hn hl hp
  obtain ⟨n1, n2, n3⟩ := newest_spec now0 (sns.map fun p => fmtNat p.1 ++ '-' :: fmtNat p.2)
  have hub : newest now0 (sns.map fun p => fmtNat p.1 ++ '-' :: fmtNat p.2) ≤ now0 := by
    rcases n3 with n3 | ⟨id, hid, n3⟩
    · omega
    · obtain ⟨p, hps, rfl⟩ := List.mem_map.1 hid
      have := hp p hps
      rw [n3, ctimeOf_seconds _ _ (by simp only [nsPerSec] at this; omega)]; exact this
  unfold fireAt clamp64
  have := goSecs_le (n := ttl) (by omega)
  have := goSecs_range ttl
  simp only [nsPerSec, minInt64, maxInt64] at *
  omega

/-- **C74 is false of the code** with Redis ids: their milliseconds are read as seconds, so
the newest ticket seems to have been created in the year 55841 and the timer is set to
292 years. -/
theorem C74_redis_ids_refuted : ¬ C74_statement 1000000 := by
  intro h
  have := h 600 1700000000000000000 1700000000000000000 [(1700000000000, 0)] (by decide) (by decide) (by decide) (by decide)
    (by intro p hp; simp at hp; subst hp; decide)
  exact absurd this (by decide +kernel)

example : (∀ p ∈ [(1700000000, 1), (1700000001, 4)], (p.1 : Int) * nsPerSec ≤ watchStart) := by
  intro p hp; simp at hp; rcases hp with rfl | rfl <;> decide

/-! ## C94: which ids decide when a watch gives up -/

private theorem splitFirst_spec (id : Str) : ∃ r, id = splitFirst '-' id ++ r ∧ '-' ∉ splitFirst '-' id ∧
    (r = [] ∨ r.head? = some '-') := by
  induction id with
  | nil => exact ⟨[], by simp [splitFirst_nil]⟩
  | cons c id ih =>
    rw [splitFirst_cons]
    by_cases hc : c = '-'
    · subst hc
      exact ⟨'-' :: id, by simp⟩
    · obtain ⟨r, h1, h2, h3⟩ := ih
      rw [if_neg hc]
      exact ⟨r, by rw [List.cons_append, ← h1], by simp [h2, Ne.symm hc], h3⟩

private theorem splitFirst_self {a : Str} (h : '-' ∉ a) : splitFirst '-' a = a := by
  obtain ⟨r, h1, h2, h3⟩ := splitFirst_spec a
  rcases h3 with rfl | h3
  · rw [List.append_nil] at h1; exact h1.symm
  · exfalso
    apply h
    rw [h1]
    cases r with
    | nil => cases h3
    | cons c r => simp only [List.head?_cons, Option.some.injEq] at h3; simp [h3]

private theorem idNumber_iff (id : Str) (v : Int) : IdNumber id v ↔ IntLit (splitFirst '-' id) v := by
  constructor
  · rintro ⟨a, r, rfl, ha, hr, h⟩
    rcases hr with rfl | hr
    · rwa [List.append_nil, splitFirst_self ha]
    · cases r with
      | nil => simp at hr
      | cons c r =>
        simp only [List.head?_cons, Option.some.injEq] at hr
        subst hr
        rwa [splitFirst_append _ _ _ ha]
  · intro h
    obtain ⟨r, h1, h2, h3⟩ := splitFirst_spec id
    exact ⟨_, r, h1, h2, h3, h⟩

private theorem idNumber_nonneg {id : Str} {v : Int} (h : IdNumber id v) : 0 ≤ v := by
  obtain ⟨a, r, -, ha, -, h⟩ := h
  cases h with
  | plain h => omega
  | plus h => omega
  | minus h => simp at ha

private theorem ctimeOf_idTime {id : Str} {v : Int} (h : IdTime id v) : ctimeOf id = v * nsPerSec := by
  obtain ⟨h1, h2⟩ := h
  have h0 := idNumber_nonneg h1
  rw [idNumber_iff] at h1
  have e := (parseInt0_iff (splitFirst '-' id) v).2 ⟨h1, by omega, by omega⟩
  unfold ctimeOf
  rw [e]
  simp only [ParseRes.value, wrap64, unixToInternal]
  rw [Int.emod_eq_of_lt (by omega) (by omega)]
  congr 1; omega

private theorem parseInt0_range (s : Str) (v : Int) (h : parseInt0 s = .rangeErr v) : v = minInt64 ∨ v = maxInt64 := by
  cases s with
  | nil => cases h
  | cons c s =>
    simp only [parseInt0] at h
    generalize parseUint0 _ = r at h
    cases r with
    | syntaxErr => cases h
    | rangeErr => simp only [signedOf] at h; split at h <;> cases h <;> simp
    | ok n us => simp only [signedOf] at h; (repeat' split at h) <;> cases h <;> simp

private theorem idTime_of_ctimeOf {id : Str} (h : 0 < ctimeOf id) : ∃ v, IdTime id v ∧ ctimeOf id = v * nsPerSec := by
  have hneg : ∀ x : Int, ¬ 0 < x → ¬ 0 < x * nsPerSec := by intro x hx; simp only [nsPerSec]; omega
  cases e : parseInt0 (splitFirst '-' id) with
  | ok v =>
    obtain ⟨h1, h2, h3⟩ := (parseInt0_iff _ _).1 e
    have hn := (idNumber_iff id v).2 h1
    by_cases hv : v + 62135596800 < 2 ^ 63
    · exact ⟨v, ⟨hn, hv⟩, ctimeOf_idTime ⟨hn, hv⟩⟩
    · exfalso
      unfold ctimeOf at h
      rw [e] at h
      refine hneg _ ?_ h
      simp only [ParseRes.value, wrap64, unixToInternal]
      have e2 : (v + 62135596800 + 2 ^ 63) % 2 ^ 64 = v + 62135596800 + 2 ^ 63 - 2 ^ 64 := by
        omega
      omega
  | syntaxErr =>
    exfalso
    unfold ctimeOf at h
    rw [e] at h
    exact absurd h (by decide)
  | rangeErr v =>
    exfalso
    unfold ctimeOf at h
    rw [e] at h
    rcases parseInt0_range _ _ e with rfl | rfl
    · exact absurd h (by decide)
    · exact absurd h (by decide)

/-- What C94 asks: no ids, whatever a client sends, make the timer fire later than TTL after
the moment it is set. -/
def C94_statement : Prop := ∀ (ttl now0 t : Int) (ids : List Str), 0 ≤ ttl → now0 ≤ t → 0 ≤ now0 → t < 2 ^ 62 →
  fireAt ttl now0 t ids ≤ t + ttl * nsPerSec

/-- **C94 is false of the code**: an id made up by the client keeps the watch for 292 years. -/
theorem C94_prolonged_refuted : ¬ C94_statement := by
  intro h
  exact absurd (h 600 watchStart watchStart ["0x7_fff_fff_fff".toList] (by decide) (by decide) (by decide) (by decide))
    (by decide +kernel)

/-- **C94 (what holds).** Partial: full C94 also covers ids with times of the future.  The
timer is set to TTL after the newest of the start of the call and the times written in the
ids; ids without a legible time are ignored, however large their numbers.  If that is more than
292 years (2^63 ns) away, the timer fires after 292 years. -/
theorem C94_deadline_partial (ttl now0 t : Int) (ids : List Str) (h0 : 0 ≤ now0) (ht : 0 ≤ ttl ∧ ttl ≤ 9223372036) (hn : now0 ≤ t)
    (hl : t < 2 ^ 62) :
    ∃ top, now0 ≤ top ∧ (∀ id ∈ ids, ∀ v, IdTime id v → v * 1000000000 ≤ top) ∧
      (top = now0 ∨ ∃ id ∈ ids, ∃ v, IdTime id v ∧ top = v * 1000000000) ∧
      (top + ttl * 1000000000 - t < 2 ^ 63 → fireAt ttl now0 t ids = top + ttl * 1000000000) ∧
      (2 ^ 63 ≤ top + ttl * 1000000000 - t → fireAt ttl now0 t ids = t + (2 ^ 63 - 1)) := by
  obtain ⟨n1, n2, n3⟩ := newest_spec now0 ids
  refine ⟨newest now0 ids, n1, ?_, ?_, ?_, ?_⟩
  · intro id hid v hv
    have := n2 id hid
    rwa [ctimeOf_idTime hv] at this
  · rcases n3 with n3 | ⟨id, hid, n3⟩
    · exact .inl n3
    · by_cases hz : newest now0 ids = now0
      · exact .inl hz
      · obtain ⟨v, hv, e⟩ := idTime_of_ctimeOf (id := id) (by omega)
        exact .inr ⟨id, hid, v, hv, by rw [n3, e]; rfl⟩
  · intro h
    unfold fireAt clamp64
    rw [goSecs_exact (by omega) ht.2]
    simp only [minInt64, maxInt64]
    omega
  · intro h
    unfold fireAt clamp64
    rw [goSecs_exact (by omega) ht.2]
    simp only [minInt64, maxInt64]
    omega

/-- A number in hexadecimal and one without a dash; a number too large to be a time and an
illegible one, which are ignored. -/
example : IdTime ['0', 'x', '1', 'f', '-', '7'] 31 ∧ IdTime ['7'] 7 ∧
    fireAt 600 watchStart watchStart ["9223372036854775807-0".toList, "x-1".toList, w2] = 1700000603000000000 := by
  refine ⟨⟨⟨['0', 'x', '1', 'f'], ['-', '7'], rfl, by decide, .inr rfl, .plain (.pre (b := 16) (p := 'x') (by decide) ?_)⟩, by decide⟩,
    ⟨⟨['7'], [], rfl, by decide, .inl rfl, .plain (.dec (.one (d := 7) (by decide)) (by decide))⟩, by decide⟩, by decide +kernel⟩
  exact .snoc (s := ['1']) (n := 1) (d := 15) (.one (by decide)) (by decide)

/-! ## C75: goroutines of a watch -/

/-- What C75 asks. -/
def C75_statement : Prop := ∀ (cfg : Config) (now0 : Int) (ids : List Str) (c : GoMap Assignment) (ls : List Label) (s : St),
  run cfg now0 ids (init now0 c) ls = some s → (∃ b, s.main = .returned b) → ∀ g ∈ s.gos, g.pc = .done

/-- **C75 is false of the code**: after a timeout the goroutines of unserved ids poll on. -/
theorem C75_goroutines_end_refuted : ¬ C75_statement := by
  intro h
  have h1 : (run Config.default watchStart [w1, w2] (init watchStart []) (lateRun.take 9)).map (fun s => (s.main, s.gos)) =
    some (.returned true, [⟨w1, .done⟩, ⟨w2, .poll⟩]) := by decide +kernel
  obtain ⟨s, hs, he⟩ := Option.map_eq_some_iff.1 h1
  rw [Prod.mk.injEq] at he
  have := h _ _ _ _ _ s hs ⟨true, he.1⟩ ⟨w2, .poll⟩ (by rw [he.2]; simp)
  cases this

/-- **C75 (what holds).** Partial: full C75 includes calls that time out.  When a call returns
normally, all its goroutines have ended; when it times out, exactly the unserved ids'
goroutines remain. -/
theorem C75_goroutines_end_partial (cfg : Config) (now0 : Int) (ids : List Str) (c : GoMap Assignment) (ls : List Label)
    (s : St) (hr : run cfg now0 ids (init now0 c) ls = some s) :
    (s.main = .returned false → ∀ g ∈ s.gos, g.pc = .done) ∧
    (s.main = .returned true → (s.gos.filter fun g => decide (g.pc ≠ .done)).length = ids.length - s.sent.length) := by
  have h := inv_run (inv_init cfg now0 ids c) hr
  have hi := h.main
  unfold MainInv at hi
  constructor
  · intro hm
    simp only [hm] at hi
    exact all_done h hi.1 (by rw [hm]; simp [Main.cur, hi.2.1])
  · intro hm
    simp only [hm] at hi
    have hw := h.weights fun _ => 1
    rw [hm] at hw
    simp only [Main.cur, List.append_nil] at hw
    have e : ∀ l : List Watch.Goro, (l.map (doneW fun _ => 1)).sum + (l.filter fun g => decide (g.pc ≠ .done)).length = l.length := by
      intro l
      induction l with
      | nil => rfl
      | cons g l ih =>
        simp only [List.map_cons, List.sum_cons, List.filter_cons, List.length_cons]
        by_cases hg : g.pc = .done
        · simp [doneW, hg] at ih ⊢; omega
        · simp [doneW, hg] at ih ⊢; omega
    have h1 := e s.gos
    have h2 : s.gos.length = ids.length := by rw [← hi.1]; simp
    have h3 : (s.sent.map fun _ => 1).sum = s.sent.length := by simp
    omega

/-- The two sample calls: the first ends normally, the second times out with one id
unserved; neither has crashed yet (C59, C61, C75). -/
example : (run Config.default watchStart [w1, w2, w1] (init watchStart []) watchRun).map
      (fun s => (s.crashed, s.gauge, s.gos.map (·.pc))) = some (false, 0, [.done, .done, .done]) ∧
    (run Config.default watchStart [w1, w2] (init watchStart []) (lateRun.take 9)).map
      (fun s => (s.crashed, s.gauge, s.sent.length)) = some (false, 2, 1) := by decide +kernel

end OM.Props
