import Verif.Lemmas.Cache
import Verif.Spec.Cache
import Mathlib.Data.List.Induction
/-!
# Properties C23, C24, C26–C31, C60, C62: the replicated ticket cache
-/
namespace OM.Props
open OM.Spec

/-- A toy codec for the examples: the payload is the connection / the single tag. -/
def toyCodec : Codec :=
  { encT := fun t => some ((t.attributes.map (·.tags)).getD [] |>.headD [])
    decT := fun v => ⟨[], some ⟨1000, 0⟩, some ⟨[v], [], [], some ⟨900, 0⟩⟩, []⟩
    encA := fun a => some a.connection
    decA := fun v => ⟨v, []⟩ }

def kA : Str := "900-1".toList
def kB : Str := "100-1".toList

def sampleHistory : List StateUpdate :=
  [⟨.ticket, kA, "x".toList⟩, ⟨.activate, kA, []⟩, ⟨.ticket, kB, "y".toList⟩,
   ⟨.assign, kA, "host".toList⟩, ⟨.activate, kB, []⟩, ⟨.deactivate, kB, []⟩]

/-! ## C24 -/

private theorem markers_snoc (h : List StateUpdate) (u : StateUpdate) (k : Str) :
    markers (h ++ [u]) k = markers h k ++
      if u.key = k ∧ (u.cmd = .ticket ∨ u.cmd = .activate ∨ u.cmd = .deactivate) then [u.cmd] else [] := by
  unfold markers
  rw [List.filter_append, List.map_append]
  congr 1
  split <;> rename_i hc <;> simp [hc]

private theorem creations_snoc (h : List StateUpdate) (u : StateUpdate) (k : Str) :
    creations (h ++ [u]) k = creations h k ++
      if u.key = k ∧ u.cmd = .ticket then [u.value] else [] := by
  unfold creations
  rw [List.filter_append, List.map_append]
  congr 1
  split <;> rename_i hc <;> simp [hc]

private theorem assigns_snoc (h : List StateUpdate) (u : StateUpdate) (k : Str) :
    assigns (h ++ [u]) k = assigns h k ++
      if u.key = k ∧ u.cmd = .assign then [u.value] else [] := by
  unfold assigns
  rw [List.filter_append, List.map_append]
  congr 1
  split <;> rename_i hc <;> simp [hc]

/-- **C24.** After any history applied to an empty cache: the candidate set holds `k`
exactly when `k` is `Active` in the history's terms, with the content of its last
creation; its assignment is the last one made. -/
theorem C24_life_cycle (cd : Codec) (h : List StateUpdate) (k : Str) :
    let c := h.foldl (applyUpdate cd) Cache.empty
    (candidates c).load k = (if Active h k then content cd h k else none) ∧
    ((candidates c).load k ≠ none ↔ Active h k) ∧
    c.tickets.load k = content cd h k ∧
    c.assignments.load k = assignment cd h k := by
  -- a slightly stronger statement about the three maps, by induction on the history
  have key : ∀ h : List StateUpdate,
      let s := proj (h.foldl (applyUpdate cd) Cache.empty) k
      s.t = content cd h k ∧ s.a = assignment cd h k ∧
      (s.i = true ↔ (markers h k).getLast? = some .ticket ∨ (markers h k).getLast? = some .deactivate) ∧
      (s.i = false ↔ (markers h k).getLast? = some .activate ∨ (markers h k).getLast? = none) ∧
      (creations h k ≠ [] → (markers h k).getLast? ≠ none) := by
    intro h
    induction h using List.reverseRecOn with
    | nil => simp [Cache.empty, proj, content, creations, assignment, assigns, markers]
    | append_singleton h u ih =>
      simp only [List.foldl_append, List.foldl_cons, List.foldl_nil]
      obtain ⟨i1, i2, i3, i4, i5⟩ := ih
      rw [applyUpdate_proj]
      simp only [content, assignment, markers_snoc, creations_snoc, assigns_snoc] at *
      generalize proj (List.foldl (applyUpdate cd) Cache.empty h) k = s at *
      by_cases hk : k = u.key
      · have hk' : (u.key = k) = True := eq_true hk.symm
        rw [if_pos hk]
        simp only [hk', true_and]
        cases hc : u.cmd <;>
          simp only [reduceCtorEq, true_or, or_true, or_self, if_true, if_false, List.append_nil,
            List.getLast?_concat, Option.map_some] <;> simp_all
      · have hk' : (u.key = k) = False := eq_false (fun e => hk e.symm)
        rw [if_neg hk]
        simp only [hk', false_and, if_false, List.append_nil]
        exact ⟨i1, i2, i3, i4, i5⟩
  intro c
  have wf : c.WF := by
    have := WF_runEvs (cd := cd) (cfg := Config.default) WF_empty (h.map Ev.upd)
    have e : runEvs cd Config.default Cache.empty (h.map Ev.upd) = c := by
      simp only [runEvs, List.foldl_map]; rfl
    rwa [e] at this
  obtain ⟨i1, i2, i3, i4, i5⟩ := key h
  have hload : (candidates c).load k = if Active h k then content cd h k else none := by
    rw [candidates_load wf]
    by_cases hi : (proj c k).i = true
    · have : ¬ Active h k := by
        intro ha
        rcases i3.1 hi with e | e <;> rw [ha.2] at e <;> simp at e
      simp [hi, this]
    · have hi' : (proj c k).i = false := by simpa using hi
      simp only [hi', Bool.false_eq_true, if_false]
      rw [i1]
      rcases i4.1 hi' with e | e
      · by_cases hcr : creations h k = []
        · simp [content, hcr]
        · simp [Active, hcr, e]
      · have hcr : creations h k = [] := by
          by_contra hne; exact i5 hne e
        simp [content, hcr]
  refine ⟨hload, ?_, i1, i2⟩
  rw [hload]
  by_cases ha : Active h k
  · simp only [ha, if_true, iff_true]
    have := ha.1
    simp only [content]
    cases hg : (creations h k).getLast? with
    | none => exact absurd (List.getLast?_eq_none_iff.1 hg) this
    | some v => simp
  · simp [ha]

example : Active sampleHistory kA ∧ ¬ Active sampleHistory kB ∧
    ((candidates (sampleHistory.foldl (applyUpdate toyCodec) Cache.empty)).load kA).isSome := by
  decide

/-! ## C23 -/

/-- **C23 (batch boundaries).** Applying updates in batches gives the same cache as
applying the concatenation, so only the updates matter, not how they were polled. -/
theorem C23_batch_boundaries_irrelevant (cd : Codec) (c : Cache) (b1 b2 : List (List StateUpdate))
    (h : b1.flatten = b2.flatten) :
    b1.foldl (fun c b => b.foldl (applyUpdate cd) c) c =
      b2.foldl (fun c b => b.foldl (applyUpdate cd) c) c := by
  rw [← List.foldl_flatten, ← List.foldl_flatten, h]

example : ([sampleHistory.take 1, sampleHistory.drop 1] : List (List StateUpdate)).flatten
    = [sampleHistory].flatten := by decide

/-- No expiration cycle of the event list finds anything of `k` expired: not its
inactive id, not its assignment, and not any content it is ever given. -/
def Fresh (cd : Codec) (cfg : Config) (es : List Ev) (k : Str) : Prop :=
  ∀ cy, Ev.expire cy ∈ es →
    cy.inact k - idSecond k ≤ cfg.ttl ∧ cy.asg k - idSecond k ≤ cfg.ttl + cfg.addTtl ∧
    ∀ u ∈ updatesOf es, u.cmd = .ticket → u.key = k →
      cy.tix k ≤ asTime (cd.decT u.value).expirationTime

private theorem fresh_run (cd : Codec) (cfg : Config) (k : Str) (all : List Ev) (hf : Fresh cd cfg all k) :
    ∀ (es : List Ev) (c d : Cache), (∀ e ∈ es, e ∈ all) → ValidEvs cd cfg c es →
      proj c k = proj d k →
      (∀ t, (proj c k).t = some t → ∀ cy, Ev.expire cy ∈ all → cy.tix k ≤ asTime t.expirationTime) →
      proj (runEvs cd cfg c es) k = proj ((updatesOf es).foldl (applyUpdate cd) d) k := by
  intro es
  induction es with
  | nil => intro c d _ _ h _; exact h
  | cons e es ih =>
    intro c d hsub hv hcd hexp
    rw [runEvs_cons]
    cases e with
    | upd u =>
      have hstep : runEv cd cfg c (.upd u) = applyUpdate cd c u := rfl
      have hu : updatesOf (Ev.upd u :: es) = u :: updatesOf es := rfl
      rw [hu, List.foldl_cons, hstep]
      refine ih _ _ (fun e he => hsub e (by simp [he])) hv.2 ?_ ?_
      · rw [applyUpdate_proj, applyUpdate_proj, hcd]
      · intro t ht cy hcy
        rw [applyUpdate_proj] at ht
        split at ht
        · rename_i hk
          cases hc : u.cmd <;> simp only [hc] at ht
          · injection ht with ht
            subst ht
            refine (hf cy hcy).2.2 u ?_ hc hk.symm
            simp only [updatesOf, List.mem_filterMap]
            exact ⟨.upd u, hsub _ (by simp), rfl⟩
          all_goals exact hexp t ht cy hcy
        · exact hexp t ht cy hcy
    | expire cy =>
      have hu : updatesOf (Ev.expire cy :: es) = updatesOf es := rfl
      rw [hu]
      have hmem : Ev.expire cy ∈ all := hsub _ (by simp)
      obtain ⟨f1, f2, -⟩ := hf cy hmem
      have hsame : proj (runEv cd cfg c (.expire cy)) k = proj c k := by
        have e1 : runEv cd cfg c (.expire cy) = expire cfg cy c := rfl
        rw [e1, proj_expire hv.1]
        have a1 : inactiveAged cfg cy k = false := by simp [inactiveAged]; omega
        have a2 : asgAged cfg cy k = false := by simp [asgAged]; omega
        have a3 : ¬ ∃ t, (proj c k).t = some t ∧ ticketExpired cy k t = true := by
          rintro ⟨t, ht, he⟩
          have := hexp t ht cy hmem
          simp [ticketExpired] at he; omega
        simp [expireK, a1, a2, a3]
      refine ih _ _ (fun e he => hsub e (by simp [he])) hv.2 (by rw [hsame]; exact hcd) ?_
      rw [hsame]; exact hexp

/-- **C23 (convergence).** Two instances that start empty and apply the same updates,
with arbitrary expiration cycles of their own in between, agree on every id that
neither has found expired: same ticket, same active state, same assignment.  Replaying
the updates from scratch (a restarted instance) gives that same state. -/
theorem C23_instances_converge (cd : Codec) (cfg : Config) (es1 es2 : List Ev) (k : Str)
    (hsame : updatesOf es1 = updatesOf es2)
    (v1 : ValidEvs cd cfg Cache.empty es1) (v2 : ValidEvs cd cfg Cache.empty es2)
    (f1 : Fresh cd cfg es1 k) (f2 : Fresh cd cfg es2 k) :
    let c1 := runEvs cd cfg Cache.empty es1
    let c2 := runEvs cd cfg Cache.empty es2
    let c3 := (updatesOf es1).foldl (applyUpdate cd) Cache.empty
    c1.tickets.load k = c2.tickets.load k ∧ c1.inactive.load k = c2.inactive.load k ∧
      c1.assignments.load k = c2.assignments.load k ∧
    c1.tickets.load k = c3.tickets.load k ∧ c1.inactive.load k = c3.inactive.load k ∧
      c1.assignments.load k = c3.assignments.load k := by
  intro c1 c2 c3
  have hnil : ∀ all : List Ev, ∀ t, (proj Cache.empty k).t = some t → ∀ cy, Ev.expire cy ∈ all →
      cy.tix k ≤ asTime t.expirationTime := by
    intro _ t ht; simp [proj, Cache.empty] at ht
  have e1 : proj c1 k = proj c3 k :=
    fresh_run cd cfg k es1 f1 es1 _ _ (fun _ h => h) v1 rfl (hnil es1)
  have e2 : proj c2 k = proj c3 k := by
    have := fresh_run cd cfg k es2 f2 es2 _ Cache.empty (fun _ h => h) v2 rfl (hnil es2)
    rwa [← hsame] at this
  have unit : ∀ a b : Option Unit, a.isSome = b.isSome → a = b := by
    intro a b h; cases a <;> cases b <;> simp_all
  have g1 : c1.tickets.load k = c3.tickets.load k := congrArg KState.t e1
  have g2 : c2.tickets.load k = c3.tickets.load k := congrArg KState.t e2
  have j1 : c1.inactive.load k = c3.inactive.load k := unit _ _ (congrArg KState.i e1)
  have j2 : c2.inactive.load k = c3.inactive.load k := unit _ _ (congrArg KState.i e2)
  have l1 : c1.assignments.load k = c3.assignments.load k := congrArg KState.a e1
  have l2 : c2.assignments.load k = c3.assignments.load k := congrArg KState.a e2
  exact ⟨g1.trans g2.symm, j1.trans j2.symm, l1.trans l2.symm, g1, j1, l1⟩

/-- **C23 (expired tickets).** Whatever its expiration cycles, an instance never serves
anything but what replaying the updates without expiration would serve: instances can
only differ in tickets that one of them has dropped. -/
theorem C23_expiration_only_drops (cd : Codec) (cfg : Config) (es : List Ev) (k : Str) (t : Ticket)
    (v : ValidEvs cd cfg Cache.empty es)
    (h : (candidates (runEvs cd cfg Cache.empty es)).load k = some t) :
    (candidates ((updatesOf es).foldl (applyUpdate cd) Cache.empty)).load k = some t := by
  have inv : ∀ (es : List Ev) (c d : Cache), ValidEvs cd cfg c es →
      (∀ t, (proj c k).t = some t → (proj d k).t = some t ∧ (proj c k).i = (proj d k).i) →
      ∀ t, (proj (runEvs cd cfg c es) k).t = some t →
        (proj ((updatesOf es).foldl (applyUpdate cd) d) k).t = some t ∧
        (proj (runEvs cd cfg c es) k).i = (proj ((updatesOf es).foldl (applyUpdate cd) d) k).i := by
    intro es
    induction es with
    | nil => intro c d _ h; exact h
    | cons e es ih =>
      intro c d hv hcd
      rw [runEvs_cons]
      cases e with
      | upd u =>
        refine ih _ _ hv.2 ?_
        have hstep : runEv cd cfg c (.upd u) = applyUpdate cd c u := rfl
        rw [hstep, applyUpdate_proj, applyUpdate_proj]
        intro t ht
        split at ht
        · rename_i hk
          cases hc : u.cmd <;> simp_all
        · rename_i hk
          simp only [hk, if_false]; exact hcd t ht
      | expire cy =>
        refine ih _ _ hv.2 ?_
        have e1 : runEv cd cfg c (.expire cy) = expire cfg cy c := rfl
        rw [e1, proj_expire hv.1]
        intro t ht
        have hshape : (expireK cfg cy k (proj c k)).t = some t →
            (proj c k).t = some t ∧ (expireK cfg cy k (proj c k)).i = (proj c k).i := by
          rw [expireK_t, expireK_i]
          intro h
          split at h
          · simp at h
          · rename_i hn
            refine ⟨(Option.filter_eq_some_iff.1 h).1, ?_⟩
            cases hi : (proj c k).i <;> simp_all
        obtain ⟨g1, g2⟩ := hshape ht
        rw [g2]
        exact hcd t g1
  have wf1 := WF_runEvs (cd := cd) (cfg := cfg) WF_empty es
  have wf2 : ((updatesOf es).foldl (applyUpdate cd) Cache.empty).WF := by
    have := WF_runEvs (cd := cd) (cfg := cfg) WF_empty ((updatesOf es).map Ev.upd)
    have e : runEvs cd cfg Cache.empty ((updatesOf es).map Ev.upd)
        = (updatesOf es).foldl (applyUpdate cd) Cache.empty := by
      simp only [runEvs, List.foldl_map]; rfl
    rwa [e] at this
  rw [candidates_load wf1] at h
  rw [candidates_load wf2]
  split at h
  · simp at h
  · rename_i hi
    obtain ⟨g1, g2⟩ := inv es Cache.empty Cache.empty v
      (by intro t ht; simp [proj, Cache.empty] at ht) t h
    rw [← g2]
    simp only [hi, Bool.false_eq_true, if_false]
    exact g1

/-- A cycle on the sample cache: `kB` (second 100) is aged out, `kA` (second 900) kept. -/
def sampleCycle : Cycle :=
  { visI := [kB], visT := [kA], visA := [kA]
    inact := fun _ => 950, tix := fun _ => 950 * nsPerSec, asg := fun _ => 950 }

def sampleEvs : List Ev := sampleHistory.map Ev.upd ++ [.expire sampleCycle]

private theorem sampleEvs_valid : ValidEvs toyCodec Config.default Cache.empty sampleEvs := by
  refine validEvs_append.2 ⟨?_, ?_⟩
  · simp [sampleHistory, ValidEvs]
  · refine ⟨⟨?_, ?_, ?_⟩, trivial⟩ <;> exact List.Perm.of_eq (by decide)

example : ValidEvs toyCodec Config.default Cache.empty sampleEvs ∧
    Fresh toyCodec Config.default sampleEvs kA ∧
    ((candidates (runEvs toyCodec Config.default Cache.empty sampleEvs)).load kA).isSome := by
  refine ⟨sampleEvs_valid, ?_, by decide⟩
  intro cy hcy
  have : cy = sampleCycle := by simpa [sampleEvs] using hcy
  subst this
  refine ⟨by decide, by decide, ?_⟩
  decide

/-! ## C30, C31, C60 -/

/-- **C30.** Let a cycle start at time `T` (nanoseconds): every clock reading it makes
is at or after `T`.  Afterwards no ticket that expired before `T` remains; no inactive
id issued (second `s`, id `s-n`) more than TTL seconds before `T` remains, nor its
ticket; no assignment issued more than TTL + additional TTL seconds before `T` remains. -/
theorem C30_nothing_expired_remains (cfg : Config) (cy : Cycle) (c : Cache) (hv : cy.Visits cfg c)
    (T : Int) (h1 : ∀ k, T / 1000000000 ≤ cy.inact k) (h2 : ∀ k, T ≤ cy.tix k)
    (h3 : ∀ k, T / 1000000000 ≤ cy.asg k) :
    (∀ k t, (expire cfg cy c).tickets.load k = some t → ¬ asTime t.expirationTime < T) ∧
    (∀ s n : Nat, s < 2 ^ 63 → T / 1000000000 - s > cfg.ttl →
      (expire cfg cy c).inactive.load (fmtReplId s n) = none ∧
      (c.inactive.load (fmtReplId s n) ≠ none → (expire cfg cy c).tickets.load (fmtReplId s n) = none)) ∧
    (∀ s n : Nat, s < 2 ^ 63 → T / 1000000000 - s > cfg.ttl + cfg.addTtl →
      (expire cfg cy c).assignments.load (fmtReplId s n) = none) := by
  refine ⟨?_, ?_, ?_⟩
  · intro k t ht hlt
    rw [expire_tickets hv] at ht
    split at ht
    · simp at ht
    · have := h2 k
      simp [Option.filter_eq_some_iff, ticketExpired] at ht
      omega
  · intro s n hs hage
    have ha : inactiveAged cfg cy (fmtReplId s n) = true := by
      have := h1 (fmtReplId s n); simp [inactiveAged, idSecond_fmtReplId n hs]; omega
    have h := expire_inactive hv (fmtReplId s n)
    rw [ha] at h
    refine ⟨by simpa using h, fun hne => ?_⟩
    rw [expire_tickets hv, ha, Option.isSome_iff_ne_none.2 hne]; rfl
  · intro s n hs hage
    have ha : asgAged cfg cy (fmtReplId s n) = true := by
      have := h3 (fmtReplId s n); simp [asgAged, idSecond_fmtReplId n hs]; omega
    rw [expire_assignments hv, ha]; rfl

/-- **C31.** Let a cycle end at time `T`: every clock reading it makes is at or before
`T`.  It keeps, unchanged, every ticket whose expiration is not before `T` and whose id
is not both inactive and aged; every inactive id not aged; every assignment not aged. -/
theorem C31_removes_nothing_else (cfg : Config) (cy : Cycle) (c : Cache) (hv : cy.Visits cfg c)
    (T : Int) (h1 : ∀ k, cy.inact k ≤ T / 1000000000) (h2 : ∀ k, cy.tix k ≤ T)
    (h3 : ∀ k, cy.asg k ≤ T / 1000000000) (k : Str) :
    (∀ t, c.tickets.load k = some t → T ≤ asTime t.expirationTime →
      (c.inactive.load k = none ∨ T / 1000000000 - idSecond k ≤ cfg.ttl) →
      (expire cfg cy c).tickets.load k = some t) ∧
    (∀ u, c.inactive.load k = some u → T / 1000000000 - idSecond k ≤ cfg.ttl →
      (expire cfg cy c).inactive.load k = some u) ∧
    (∀ a, c.assignments.load k = some a → T / 1000000000 - idSecond k ≤ cfg.ttl + cfg.addTtl →
      (expire cfg cy c).assignments.load k = some a) ∧
    (∀ t, (expire cfg cy c).tickets.load k = some t → c.tickets.load k = some t) ∧
    (∀ a, (expire cfg cy c).assignments.load k = some a → c.assignments.load k = some a) ∧
    ((expire cfg cy c).inactive.load k ≠ none → c.inactive.load k ≠ none) := by
  have b1 := h1 k; have b2 := h2 k; have b3 := h3 k
  rw [expire_tickets hv, expire_assignments hv]
  refine ⟨?_, ?_, ?_, ?_, ?_, ?_⟩
  · intro t ht hexp hor
    have hnot : ¬ ((c.inactive.load k).isSome && inactiveAged cfg cy k) = true := by
      rcases hor with h | h
      · simp [h]
      · simp [inactiveAged]; omega
    rw [if_neg hnot, ht]
    simp [Option.filter_eq_some_iff, ticketExpired]; omega
  · intro u hu hage
    have h := expire_inactive hv k
    have hn : inactiveAged cfg cy k = false := by simp [inactiveAged]; omega
    rw [hu, hn] at h
    obtain ⟨v, hv⟩ := Option.isSome_iff_exists.1 (by simpa using h)
    exact hv
  · intro a ha hage
    have hn : asgAged cfg cy k = false := by simp [asgAged]; omega
    rw [hn, ha]; rfl
  · intro t ht
    split at ht
    · simp at ht
    · exact (Option.filter_eq_some_iff.1 ht).1
  · intro a ha
    split at ha
    · simp at ha
    · exact ha
  · intro hne h0
    have h := expire_inactive hv k
    rw [h0] at h
    exact hne (by simpa using h)

example : sampleCycle.Visits Config.default (sampleHistory.foldl (applyUpdate toyCodec) Cache.empty) ∧
    (∀ k, 950 * 1000000000 / 1000000000 ≤ sampleCycle.inact k) ∧
    fmtReplId (100 : Nat) 1 = kB ∧ (950 : Int) * 1000000000 / 1000000000 - (100 : Nat) > Config.default.ttl := by
  refine ⟨⟨?_, ?_, ?_⟩, fun k => by simp [sampleCycle], by decide, by decide⟩ <;>
    exact List.Perm.of_eq (by decide)

/-- **C60.** On an in-memory instance, an assignment for id `s-n` remains readable, and
is the last one made, through any further updates and cycles, as long as no cycle ran
later than TTL + additional TTL seconds after second `s` and no new assignment for the
id was applied. -/
theorem C60_assignments_retained (cd : Codec) (cfg : Config) (c : Cache) (es : List Ev) (s n : Nat)
    (hs : s < 2 ^ 63) (a : Assignment) (hv : ValidEvs cd cfg c es)
    (ha : c.assignments.load (fmtReplId s n) = some a)
    (hage : ∀ cy, Ev.expire cy ∈ es → cy.asg (fmtReplId s n) - s ≤ cfg.ttl + cfg.addTtl)
    (hno : ∀ u ∈ updatesOf es, u.cmd = .assign → u.key ≠ fmtReplId s n) :
    (runEvs cd cfg c es).assignments.load (fmtReplId s n) = some a := by
  induction es generalizing c with
  | nil => exact ha
  | cons e es ih =>
    rw [runEvs_cons]
    refine ih _ hv.2 ?_ (fun cy h => hage cy (by simp [h])) ?_
    · cases e with
      | upd u =>
        have hu := hno u (by simp [updatesOf])
        have : (proj (applyUpdate cd c u) (fmtReplId s n)).a = some a := by
          rw [applyUpdate_proj]
          split
          · rename_i hk
            cases hc : u.cmd <;> simp only
            case assign => exact absurd hk.symm (hu hc)
            all_goals exact ha
          · exact ha
        exact this
      | expire cy =>
        have hg := hage cy (by simp)
        have hn : asgAged cfg cy (fmtReplId s n) = false := by
          simp [asgAged, idSecond_fmtReplId n hs]; omega
        have : (expire cfg cy c).assignments.load (fmtReplId s n) = some a := by
          rw [expire_assignments hv.1, hn, ha]; rfl
        exact this
    · intro u hu
      refine hno u ?_
      cases e <;> simp [updatesOf] at hu ⊢
      · exact Or.inr hu
      · exact hu

example : let c := sampleHistory.foldl (applyUpdate toyCodec) Cache.empty
    c.assignments.load (fmtReplId (900 : Nat) 1) = some ⟨"host".toList, []⟩ ∧
    ValidEvs toyCodec Config.default c [.expire sampleCycle] ∧
    sampleCycle.asg (fmtReplId (900 : Nat) 1) - (900 : Nat) ≤ Config.default.ttl + Config.default.addTtl := by
  refine ⟨by decide, ⟨⟨?_, ?_, ?_⟩, trivial⟩, by decide⟩ <;> exact List.Perm.of_eq (by decide)

end OM.Props
