import Verif.Model.Snapshot
import Verif.Lemmas.Store
/-! # Lemmas: the cache, key by key -/
namespace OM

/-- What the cache says about one key. -/
structure KState where
  t : Option Ticket
  i : Bool
  a : Option Assignment

def proj (c : Cache) (k : Str) : KState :=
  ⟨c.tickets.load k, (c.inactive.load k).isSome, c.assignments.load k⟩

/-- Effect of a write on one key. -/
def MOp.onKey (k : Str) (s : KState) : MOp → KState
  | .storeInactive k' => if k = k' then { s with i := true } else s
  | .delInactive k' => if k = k' then { s with i := false } else s
  | .storeTicket k' t => if k = k' then { s with t := some t } else s
  | .delTicket k' => if k = k' then { s with t := none } else s
  | .storeAsg k' a => if k = k' then { s with a := some a } else s
  | .delAsg k' => if k = k' then { s with a := none } else s

theorem proj_run (c : Cache) (o : MOp) (k : Str) : proj (o.run c) k = o.onKey k (proj c k) := by
  cases o <;> simp only [MOp.run, MOp.onKey, proj, GoMap.load_store, GoMap.load_delete] <;>
    split <;> simp_all

theorem runOps_nil (c : Cache) : runOps c [] = c := rfl
theorem runOps_cons (c : Cache) (o : MOp) (os : List MOp) :
    runOps c (o :: os) = runOps (o.run c) os := rfl
theorem runOps_append (c : Cache) (a b : List MOp) :
    runOps c (a ++ b) = runOps (runOps c a) b := by simp [runOps]

theorem proj_runOps (c : Cache) (ops : List MOp) (k : Str) :
    proj (runOps c ops) k = ops.foldl (fun s o => o.onKey k s) (proj c k) := by
  induction ops generalizing c with
  | nil => rfl
  | cons o os ih => rw [runOps_cons, ih, List.foldl_cons, proj_run]

theorem runEvs_append (cd : Codec) (cfg : Config) (c : Cache) (a b : List Ev) :
    runEvs cd cfg c (a ++ b) = runEvs cd cfg (runEvs cd cfg c a) b := by simp [runEvs]

theorem runEvs_cons (cd : Codec) (cfg : Config) (c : Cache) (e : Ev) (es : List Ev) :
    runEvs cd cfg c (e :: es) = runEvs cd cfg (runEv cd cfg c e) es := rfl

theorem runOps_traceOps (cd : Codec) (cfg : Config) (c : Cache) (es : List Ev) :
    runOps c (traceOps cd cfg c es) = runEvs cd cfg c es := by
  induction es generalizing c with
  | nil => rfl
  | cons e es ih => simp only [traceOps, runOps_append, ih]; rfl

theorem traceOps_append (cd : Codec) (cfg : Config) (c : Cache) (a b : List Ev) :
    traceOps cd cfg c (a ++ b) = traceOps cd cfg c a ++ traceOps cd cfg (runEvs cd cfg c a) b := by
  induction a generalizing c with
  | nil => rfl
  | cons e a ih => simp only [List.cons_append, traceOps, ih, List.append_assoc]; rfl

/-! ## Representation invariant -/

def Cache.WF (c : Cache) : Prop := c.tickets.WF ∧ c.inactive.WF ∧ c.assignments.WF

theorem WF_empty : Cache.empty.WF := ⟨GoMap.WF_nil, GoMap.WF_nil, GoMap.WF_nil⟩

theorem WF_run {c : Cache} (h : c.WF) (o : MOp) : (o.run c).WF := by
  obtain ⟨h1, h2, h3⟩ := h
  cases o
  · exact ⟨h1, GoMap.WF_store h2 _ _, h3⟩
  · exact ⟨h1, GoMap.WF_delete h2 _, h3⟩
  · exact ⟨GoMap.WF_store h1 _ _, h2, h3⟩
  · exact ⟨GoMap.WF_delete h1 _, h2, h3⟩
  · exact ⟨h1, h2, GoMap.WF_store h3 _ _⟩
  · exact ⟨h1, h2, GoMap.WF_delete h3 _⟩

theorem WF_runOps {c : Cache} (h : c.WF) (ops : List MOp) : (runOps c ops).WF := by
  induction ops generalizing c with
  | nil => exact h
  | cons o os ih => exact ih (WF_run h o)

theorem WF_runEvs {cd : Codec} {cfg : Config} {c : Cache} (h : c.WF) (es : List Ev) :
    (runEvs cd cfg c es).WF := by
  induction es generalizing c with
  | nil => exact h
  | cons e es ih => exact ih (WF_runOps h _)

/-! ## Expiration, key by key -/

theorem foldl_inactivePass (cfg : Config) (cy : Cycle) (vis : List Str) (k : Str) (s : KState) :
    (vis.flatMap fun k' => if inactiveAged cfg cy k' then [MOp.delTicket k', MOp.delInactive k'] else
      []).foldl (fun s o => o.onKey k s) s =
    if k ∈ vis ∧ inactiveAged cfg cy k = true then ⟨none, false, s.a⟩ else s := by
  induction vis generalizing s with
  | nil => simp
  | cons k' vis ih =>
    rw [List.flatMap_cons, List.foldl_append, ih]
    by_cases hk : k = k'
    · subst hk
      by_cases ha : inactiveAged cfg cy k = true
      · simp [ha, MOp.onKey]
      · simp [ha]
    · by_cases ha : inactiveAged cfg cy k' = true
      · simp [ha, MOp.onKey, hk]
      · simp [ha, hk]

theorem proj_inactivePass (cfg : Config) (cy : Cycle) (c : Cache) (k : Str) :
    proj (runOps c (inactivePassOps cfg cy)) k =
    if k ∈ cy.visI ∧ inactiveAged cfg cy k = true then ⟨none, false, (proj c k).a⟩ else proj c k := by
  rw [proj_runOps]; exact foldl_inactivePass cfg cy cy.visI k _

theorem foldl_ticketPass (cy : Cycle) (c : Cache) (vis : List Str) (k : Str) (s : KState) :
    (vis.flatMap fun k' => match c.tickets.load k' with
      | none => []
      | some t => if ticketExpired cy k' t then [MOp.delTicket k'] else []).foldl
        (fun s o => o.onKey k s) s =
    if k ∈ vis ∧ (∃ t, c.tickets.load k = some t ∧ ticketExpired cy k t = true) then { s with t := none }
    else s := by
  induction vis generalizing s with
  | nil => simp
  | cons k' vis ih =>
    rw [List.flatMap_cons, List.foldl_append, ih]
    by_cases hk : k = k'
    · subst hk
      cases hl : c.tickets.load k with
      | none => simp
      | some t =>
        by_cases ha : ticketExpired cy k t = true
        · simp [ha, MOp.onKey]
        · simp [ha]
    · cases hl : c.tickets.load k' with
      | none => simp [hk]
      | some t =>
        by_cases ha : ticketExpired cy k' t = true
        · simp [ha, MOp.onKey, hk]
        · simp [ha, hk]

theorem proj_ticketPass (cy : Cycle) (c c' : Cache) (k : Str) :
    proj (runOps c (ticketPassOps cy c')) k =
    if k ∈ cy.visT ∧ (∃ t, c'.tickets.load k = some t ∧ ticketExpired cy k t = true) then
      { proj c k with t := none } else proj c k := by
  rw [proj_runOps]; exact foldl_ticketPass cy c' cy.visT k _

theorem foldl_asgPass (cfg : Config) (cy : Cycle) (vis : List Str) (k : Str) (s : KState) :
    (vis.flatMap fun k' => if asgAged cfg cy k' then [MOp.delAsg k'] else []).foldl
      (fun s o => o.onKey k s) s =
    if k ∈ vis ∧ asgAged cfg cy k = true then { s with a := none } else s := by
  induction vis generalizing s with
  | nil => simp
  | cons k' vis ih =>
    rw [List.flatMap_cons, List.foldl_append, ih]
    by_cases hk : k = k'
    · subst hk
      by_cases ha : asgAged cfg cy k = true
      · simp [ha, MOp.onKey]
      · simp [ha]
    · by_cases ha : asgAged cfg cy k' = true
      · simp [ha, MOp.onKey, hk]
      · simp [ha, hk]

theorem proj_asgPass (cfg : Config) (cy : Cycle) (c : Cache) (k : Str) :
    proj (runOps c (asgPassOps cfg cy)) k =
    if k ∈ cy.visA ∧ asgAged cfg cy k = true then { proj c k with a := none } else proj c k := by
  rw [proj_runOps]; exact foldl_asgPass cfg cy cy.visA k _

/-- What a complete cycle does to one key. -/
def expireK (cfg : Config) (cy : Cycle) (k : Str) (s : KState) : KState :=
  let s1 : KState := if s.i = true ∧ inactiveAged cfg cy k = true then ⟨none, false, s.a⟩ else s
  let s2 : KState := if (∃ t, s1.t = some t ∧ ticketExpired cy k t = true) then { s1 with t := none } else s1
  if asgAged cfg cy k = true then { s2 with a := none } else s2

theorem mem_visI {cfg : Config} {cy : Cycle} {c : Cache} (hv : cy.Visits cfg c) (k : Str) :
    k ∈ cy.visI ↔ (proj c k).i = true := by
  rw [hv.1.mem_iff, ← GoMap.load_isSome_iff]; rfl

theorem mem_visT {cfg : Config} {cy : Cycle} {c : Cache} (hv : cy.Visits cfg c) (k : Str) :
    k ∈ cy.visT ↔ (proj (runOps c (inactivePassOps cfg cy)) k).t.isSome := by
  rw [hv.2.1.mem_iff, ← GoMap.load_isSome_iff]; rfl

theorem mem_visA {cfg : Config} {cy : Cycle} {c : Cache} (hv : cy.Visits cfg c) (k : Str) :
    k ∈ cy.visA ↔ (proj c k).a.isSome := by
  rw [hv.2.2.mem_iff, ← GoMap.load_isSome_iff]; rfl

theorem proj_expire {cfg : Config} {cy : Cycle} {c : Cache} (hv : cy.Visits cfg c) (k : Str) :
    proj (expire cfg cy c) k = expireK cfg cy k (proj c k) := by
  unfold expire cycleOps expireK
  rw [runOps_append, runOps_append, proj_asgPass, proj_ticketPass]
  have hT := mem_visT hv k
  have hA := mem_visA hv k
  have hl : (runOps c (inactivePassOps cfg cy)).tickets.load k
      = (proj (runOps c (inactivePassOps cfg cy)) k).t := rfl
  rw [hl]
  rw [proj_inactivePass] at *
  simp only [mem_visI hv k] at *
  generalize hs1 : (if (proj c k).i = true ∧ inactiveAged cfg cy k = true then
    (⟨none, false, (proj c k).a⟩ : KState) else proj c k) = s1 at *
  have ha1 : s1.a = (proj c k).a := by rw [← hs1]; split <;> rfl
  have e2 : (k ∈ cy.visT ∧ ∃ t, s1.t = some t ∧ ticketExpired cy k t = true) ↔
      (∃ t, s1.t = some t ∧ ticketExpired cy k t = true) := by
    refine ⟨And.right, fun h => ⟨?_, h⟩⟩
    obtain ⟨t, ht, -⟩ := h
    rw [hT, ht]; rfl
  simp only [e2]
  generalize hs2 : (if (∃ t, s1.t = some t ∧ ticketExpired cy k t = true) then
    ({ s1 with t := none } : KState) else s1) = s2
  have ha2 : s2.a = (proj c k).a := by rw [← hs2, ← ha1]; split <;> rfl
  by_cases hag : asgAged cfg cy k = true
  · simp only [hag, and_true, if_true]
    by_cases hm : k ∈ cy.visA
    · simp [hm]
    · have : s2.a = none := by rw [ha2]; simpa [hA] using hm
      simp only [hm, if_false]
      rw [← this]
  · simp [hag]

/-! ## Prefix invariants -/

/-- `Q` holds of the cache before, between and after the writes. -/
def AllPre (Q : Cache → Prop) (c : Cache) (ops : List MOp) : Prop :=
  ∀ n, Q (cacheAt c ops n)

theorem cacheAt_zero (c : Cache) (ops : List MOp) : cacheAt c ops 0 = c := by simp [cacheAt, runOps]

theorem cacheAt_nil (c : Cache) (n : Nat) : cacheAt c [] n = c := by simp [cacheAt, runOps]

theorem cacheAt_cons (c : Cache) (o : MOp) (os : List MOp) (n : Nat) :
    cacheAt c (o :: os) (n + 1) = cacheAt (o.run c) os n := by simp [cacheAt, runOps]

theorem allPre_nil {Q : Cache → Prop} {c : Cache} : AllPre Q c [] ↔ Q c := by
  simp [AllPre, cacheAt_nil]

theorem allPre_cons {Q : Cache → Prop} {c : Cache} {o : MOp} {os : List MOp} :
    AllPre Q c (o :: os) ↔ Q c ∧ AllPre Q (o.run c) os := by
  constructor
  · intro h
    refine ⟨by simpa [cacheAt_zero] using h 0, fun n => ?_⟩
    simpa [cacheAt_cons] using h (n + 1)
  · rintro ⟨h0, h⟩ n
    cases n with
    | zero => simpa [cacheAt_zero] using h0
    | succ n => simpa [cacheAt_cons] using h n

theorem allPre_append {Q : Cache → Prop} {c : Cache} {a b : List MOp} :
    AllPre Q c (a ++ b) ↔ AllPre Q c a ∧ AllPre Q (runOps c a) b := by
  induction a generalizing c with
  | nil =>
    simp only [List.nil_append, allPre_nil, runOps_nil]
    refine ⟨fun h => ⟨?_, h⟩, And.right⟩
    simpa [cacheAt_zero] using h 0
  | cons o a ih => simp only [List.cons_append, allPre_cons, ih, runOps_cons, and_assoc]

theorem AllPre.final {Q : Cache → Prop} {c : Cache} {ops : List MOp} (h : AllPre Q c ops) :
    Q (runOps c ops) := by
  have := h ops.length
  simpa [cacheAt] using this

theorem AllPre.mono {Q R : Cache → Prop} {c : Cache} {ops : List MOp} (h : AllPre Q c ops)
    (hi : ∀ c, Q c → R c) : AllPre R c ops := fun n => hi _ (h n)

/-- Writes that preserve `Q` one by one preserve it throughout. -/
theorem allPre_of_step {Q : Cache → Prop} {c : Cache} {ops : List MOp} (h0 : Q c)
    (hs : ∀ o ∈ ops, ∀ c, Q c → Q (o.run c)) : AllPre Q c ops := by
  induction ops generalizing c with
  | nil => exact allPre_nil.2 h0
  | cons o os ih =>
    exact allPre_cons.2 ⟨h0, ih (hs o (by simp) _ h0) (fun o' ho' => hs o' (by simp [ho']))⟩

theorem cacheAt_append_right (c : Cache) (a b : List MOp) (n : Nat) :
    cacheAt c (a ++ b) (a.length + n) = cacheAt (runOps c a) b n := by
  rw [cacheAt, List.take_length_add_append, runOps_append]; rfl

theorem cacheAt_ge (c : Cache) (ops : List MOp) {n : Nat} (h : ops.length ≤ n) :
    cacheAt c ops n = runOps c ops := by simp [cacheAt, List.take_of_length_le h]

/-- From one position to a later one. -/
theorem cacheAt_add (c : Cache) (ops : List MOp) (m n : Nat) :
    cacheAt c ops (m + n) = cacheAt (cacheAt c ops m) (ops.drop m) n := by
  induction m generalizing c ops with
  | zero => simp [cacheAt_zero]
  | succ m ih =>
    cases ops with
    | nil => simp [cacheAt_nil]
    | cons o os =>
      have : m + 1 + n = (m + n) + 1 := by omega
      rw [this, cacheAt_cons, ih, cacheAt_cons, List.drop_succ_cons]

/-- A ticket that is absent stays absent unless it is stored. -/
theorem ticket_none_stable {c : Cache} {ops : List MOp} {k : Str}
    (hs : ∀ t, MOp.storeTicket k t ∉ ops) {m n : Nat} (hmn : m ≤ n)
    (h : (cacheAt c ops m).tickets.load k = none) : (cacheAt c ops n).tickets.load k = none := by
  obtain ⟨d, rfl⟩ := Nat.exists_eq_add_of_le hmn
  rw [cacheAt_add]
  have : AllPre (fun c => (proj c k).t = none) (cacheAt c ops m) (ops.drop m) := by
    refine allPre_of_step h ?_
    intro o ho c hc
    have hmem := List.mem_of_mem_drop ho
    rw [proj_run]
    cases o <;> simp only [MOp.onKey] <;> split <;> simp_all
  exact this d

end OM

namespace OM

/-! ## Groups of writes -/

theorem allPre_flatMap {Q : Cache → Prop} (f : Str → List MOp)
    (hf : ∀ k c, Q c → AllPre Q c (f k)) :
    ∀ (vis : List Str) (c : Cache), Q c → AllPre Q c (vis.flatMap f) := by
  intro vis
  induction vis with
  | nil => intro c h; exact allPre_nil.2 h
  | cons k vis ih =>
    intro c h
    rw [List.flatMap_cons, allPre_append]
    exact ⟨hf k c h, ih _ (hf k c h).final⟩

/-- A property preserved by ticket deletions, by the removal of an inactive id right
after its ticket's deletion, and by assignment deletions holds throughout a cycle. -/
theorem cycle_allPre {Q : Cache → Prop} (cfg : Config) (cy : Cycle) (c : Cache) (h0 : Q c)
    (h1 : ∀ c k, Q c → Q ((MOp.delTicket k).run c))
    (h2 : ∀ c k, Q ((MOp.delTicket k).run c) → Q ((MOp.delInactive k).run ((MOp.delTicket k).run c)))
    (h3 : ∀ c k, Q c → Q ((MOp.delAsg k).run c)) : AllPre Q c (cycleOps cfg cy c) := by
  unfold cycleOps
  rw [allPre_append, allPre_append]
  have a1 : AllPre Q c (inactivePassOps cfg cy) := by
    refine allPre_flatMap _ (fun k c hc => ?_) _ _ h0
    split
    · rw [allPre_cons, allPre_cons, allPre_nil]
      exact ⟨hc, h1 _ _ hc, h2 _ _ (h1 _ _ hc)⟩
    · exact allPre_nil.2 hc
  have a2 : AllPre Q (runOps c (inactivePassOps cfg cy))
      (ticketPassOps cy (runOps c (inactivePassOps cfg cy))) := by
    refine allPre_flatMap _ (fun k c hc => ?_) _ _ a1.final
    split
    · exact allPre_nil.2 hc
    · split
      · rw [allPre_cons, allPre_nil]; exact ⟨hc, h1 _ _ hc⟩
      · exact allPre_nil.2 hc
  refine ⟨⟨a1, a2⟩, ?_⟩
  refine allPre_flatMap _ (fun k c hc => ?_) _ _ ?_
  · split
    · rw [allPre_cons, allPre_nil]; exact ⟨hc, h3 _ _ hc⟩
    · exact allPre_nil.2 hc
  · rw [runOps_append]; exact a2.final

theorem mem_cycleOps {cfg : Config} {cy : Cycle} {c : Cache} {o : MOp} (h : o ∈ cycleOps cfg cy c) :
    (∃ k, o = .delTicket k ∧ ((k ∈ cy.visI ∧ inactiveAged cfg cy k = true) ∨
      (k ∈ cy.visT ∧ ∃ t, (runOps c (inactivePassOps cfg cy)).tickets.load k = some t ∧
        ticketExpired cy k t = true))) ∨
    (∃ k, o = .delInactive k ∧ k ∈ cy.visI ∧ inactiveAged cfg cy k = true) ∨
    (∃ k, o = .delAsg k ∧ k ∈ cy.visA ∧ asgAged cfg cy k = true) := by
  unfold cycleOps at h
  simp only [List.mem_append] at h
  rcases h with (h | h) | h
  · unfold inactivePassOps at h
    obtain ⟨k, hk, ho⟩ := List.mem_flatMap.1 h
    split at ho
    · rename_i ha
      simp only [List.mem_cons, List.not_mem_nil, or_false] at ho
      rcases ho with rfl | rfl
      · exact Or.inl ⟨k, rfl, Or.inl ⟨hk, ha⟩⟩
      · exact Or.inr (Or.inl ⟨k, rfl, hk, ha⟩)
    · simp at ho
  · unfold ticketPassOps at h
    obtain ⟨k, hk, ho⟩ := List.mem_flatMap.1 h
    split at ho
    · simp at ho
    · rename_i t hl
      split at ho
      · rename_i ha
        simp only [List.mem_cons, List.not_mem_nil, or_false] at ho
        exact Or.inl ⟨k, ho, Or.inr ⟨hk, t, hl, ha⟩⟩
      · simp at ho
  · unfold asgPassOps at h
    obtain ⟨k, hk, ho⟩ := List.mem_flatMap.1 h
    split at ho
    · rename_i ha
      simp only [List.mem_cons, List.not_mem_nil, or_false] at ho
      exact Or.inr (Or.inr ⟨k, ho, hk, ha⟩)
    · simp at ho

theorem storeTicket_not_mem_cycleOps {cfg : Config} {cy : Cycle} {c : Cache} (k : Str) (t : Ticket) :
    MOp.storeTicket k t ∉ cycleOps cfg cy c := by
  intro h
  rcases mem_cycleOps h with ⟨_, h, _⟩ | ⟨_, h, _⟩ | ⟨_, h, _⟩ <;> simp at h

theorem storeTicket_mem_traceOps {cd : Codec} {cfg : Config} {c : Cache} {es : List Ev} {k : Str}
    {t : Ticket} (h : MOp.storeTicket k t ∈ traceOps cd cfg c es) :
    ∃ u, Ev.upd u ∈ es ∧ u.cmd = .ticket ∧ u.key = k := by
  induction es generalizing c with
  | nil => simp [traceOps] at h
  | cons e es ih =>
    simp only [traceOps, List.mem_append] at h
    rcases h with h | h
    · cases e with
      | expire cy => exact absurd h (storeTicket_not_mem_cycleOps k t)
      | upd u =>
        refine ⟨u, by simp, ?_⟩
        simp only [evOps, updateOps] at h
        cases hc : u.cmd <;> simp_all
    · obtain ⟨u, hu, h'⟩ := ih h
      exact ⟨u, by simp [hu], h'⟩

/-- Prefix invariants of a whole event list from prefix invariants of its events. -/
theorem trace_allPre {Q : Cache → Prop} {cd : Codec} {cfg : Config} (es : List Ev) :
    ∀ (c : Cache), Q c → ValidEvs cd cfg c es →
    (∀ e ∈ es, ∀ c, Q c → (match e with | .expire cy => cy.Visits cfg c | .upd _ => True) →
      AllPre Q c (evOps cd cfg c e)) →
    AllPre Q c (traceOps cd cfg c es) := by
  induction es with
  | nil => intro c h _ _; exact allPre_nil.2 h
  | cons e es ih =>
    intro c h hv he
    simp only [traceOps, allPre_append]
    have h1 := he e (by simp) c h hv.1
    refine ⟨h1, ih _ h1.final hv.2 (fun e' he' => he e' (by simp [he']))⟩

theorem validEvs_append {cd : Codec} {cfg : Config} {c : Cache} {a b : List Ev} :
    ValidEvs cd cfg c (a ++ b) ↔ ValidEvs cd cfg c a ∧ ValidEvs cd cfg (runEvs cd cfg c a) b := by
  induction a generalizing c with
  | nil => simp [ValidEvs, runEvs]
  | cons e a ih => simp only [List.cons_append, ValidEvs, ih, runEvs_cons, and_assoc]

/-! ## Candidates -/

theorem candidates_load {c : Cache} (wf : c.WF) (k : Str) :
    (candidates c).load k = if (proj c k).i = true then none else (proj c k).t := by
  unfold candidates
  rw [GoMap.load_filter wf.1]
  simp only [proj]
  by_cases h : c.inactive.load k = none
  · simp only [h, decide_true, Option.isSome_none, Bool.false_eq_true, if_false]
    cases c.tickets.load k <;> rfl
  · have h' : (c.inactive.load k).isSome = true := by
      cases hh : c.inactive.load k with
      | none => exact absurd hh h
      | some _ => rfl
    simp only [h, h', decide_false, if_true]
    cases c.tickets.load k <;> rfl

theorem applyUpdate_proj (cd : Codec) (c : Cache) (u : StateUpdate) (k : Str) :
    proj (applyUpdate cd c u) k =
      if k = u.key then
        match u.cmd with
        | .ticket => ⟨some { cd.decT u.value with id := k }, true, (proj c k).a⟩
        | .activate => { proj c k with i := false }
        | .deactivate => { proj c k with i := true }
        | .assign => { proj c k with a := some (cd.decA u.value) }
        | .other _ => proj c k
      else proj c k := by
  unfold applyUpdate
  rw [proj_runOps]
  by_cases hk : k = u.key
  · subst hk; cases hc : u.cmd <;> simp [updateOps, hc, MOp.onKey]
  · cases hc : u.cmd <;> simp [updateOps, hc, MOp.onKey, hk]

end OM

namespace OM

theorem expireK_i (cfg : Config) (cy : Cycle) (k : Str) (s : KState) :
    (expireK cfg cy k s).i = (s.i && !inactiveAged cfg cy k) := by
  unfold expireK
  obtain ⟨t, i, a⟩ := s
  cases i <;> cases inactiveAged cfg cy k <;> simp <;> split <;> (try split) <;> simp

theorem expireK_a (cfg : Config) (cy : Cycle) (k : Str) (s : KState) :
    (expireK cfg cy k s).a = if asgAged cfg cy k = true then none else s.a := by
  unfold expireK
  obtain ⟨t, i, a⟩ := s
  cases i <;> cases inactiveAged cfg cy k <;> cases asgAged cfg cy k <;> simp <;> (try split) <;> simp

theorem expireK_t (cfg : Config) (cy : Cycle) (k : Str) (s : KState) :
    (expireK cfg cy k s).t =
      if (s.i && inactiveAged cfg cy k) = true then none
      else s.t.filter (fun t => !ticketExpired cy k t) := by
  unfold expireK
  obtain ⟨t, i, a⟩ := s
  cases t with
  | none => cases i <;> cases inactiveAged cfg cy k <;> cases asgAged cfg cy k <;> simp
  | some t =>
    cases i <;> cases inactiveAged cfg cy k <;> cases asgAged cfg cy k <;>
      cases h : ticketExpired cy k t <;> simp [h, Option.filter]

theorem expire_tickets {cfg : Config} {cy : Cycle} {c : Cache} (hv : cy.Visits cfg c) (k : Str) :
    (expire cfg cy c).tickets.load k =
      if ((c.inactive.load k).isSome && inactiveAged cfg cy k) = true then none
      else (c.tickets.load k).filter (fun t => !ticketExpired cy k t) := by
  have := congrArg KState.t (proj_expire hv k)
  rw [expireK_t] at this; exact this

theorem expire_inactive {cfg : Config} {cy : Cycle} {c : Cache} (hv : cy.Visits cfg c) (k : Str) :
    ((expire cfg cy c).inactive.load k).isSome =
      ((c.inactive.load k).isSome && !inactiveAged cfg cy k) := by
  have := congrArg KState.i (proj_expire hv k)
  rw [expireK_i] at this; exact this

theorem expire_assignments {cfg : Config} {cy : Cycle} {c : Cache} (hv : cy.Visits cfg c) (k : Str) :
    (expire cfg cy c).assignments.load k =
      if asgAged cfg cy k = true then none else c.assignments.load k := by
  have := congrArg KState.a (proj_expire hv k)
  rw [expireK_a] at this; exact this

end OM
