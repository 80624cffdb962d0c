import Verif.Props.Cache
import Verif.Model.Incoming
/-!
# Properties C25–C29, C36, C37, C62: snapshots, expiration and gauges
-/
namespace OM.Props
open OM.Spec

/-! ## C26 and the part of C25 that holds -/

/-- From a state in which `k` is not servable (inactive, or no ticket), through events
that neither create nor activate `k`, no snapshot returns `k`. -/
theorem not_served (cd : Codec) (cfg : Config) (c : Cache) (es : List Ev) (k : Str)
    (h0 : (proj c k).i = true ∨ (proj c k).t = none) (hv : ValidEvs cd cfg c es)
    (hno : ∀ u ∈ updatesOf es, u.key = k → u.cmd ≠ .ticket ∧ u.cmd ≠ .activate)
    (sn : Snap) (hsn : sn.OK (traceOps cd cfg c es)) :
    snapLoad c (traceOps cd cfg c es) sn k = none := by
  have hall : AllPre (fun c => (proj c k).i = true ∨ (proj c k).t = none) c (traceOps cd cfg c es) := by
    refine trace_allPre es c h0 hv ?_
    intro e he c hc _
    cases e with
    | upd u =>
      have hu := hno u (by simp only [updatesOf, List.mem_filterMap]; exact ⟨_, he, rfl⟩)
      refine allPre_of_step hc ?_
      intro o ho c hc
      simp only [evOps, updateOps] at ho
      rw [proj_run]
      by_cases hk : u.key = k
      · obtain ⟨n1, n2⟩ := hu hk
        cases hcmd : u.cmd <;> simp [hcmd] at ho n1 n2 <;> subst ho <;> simp [MOp.onKey, hk]
        exact hc
      · have hk' : ¬ k = u.key := fun e => hk e.symm
        cases hcmd : u.cmd <;> simp [hcmd] at ho
        · rcases ho with rfl | rfl <;> simpa [MOp.onKey, hk'] using hc
        all_goals subst ho; simpa [MOp.onKey, hk'] using hc
    | expire cy =>
      refine cycle_allPre cfg cy c hc ?_ ?_ ?_
      · intro c k' hc
        rw [proj_run]; simp only [MOp.onKey]; split
        · exact Or.inr rfl
        · exact hc
      · intro c k' hc
        rw [proj_run] at hc ⊢
        rw [proj_run]
        simp only [MOp.onKey] at hc ⊢
        by_cases hk : k = k'
        · simp [hk]
        · simpa [hk] using hc
      · intro c k' hc
        rw [proj_run]; simp only [MOp.onKey]; split <;> exact hc
  obtain ⟨o1, o2, -⟩ := hsn
  unfold snapLoad
  split
  · rfl
  · rename_i hin
    have h1 := hall (sn.r1 k)
    have ht : (cacheAt c (traceOps cd cfg c es) (sn.r1 k)).tickets.load k = none := by
      rcases h1 with h | h
      · simp [proj, hin] at h
      · exact h
    refine ticket_none_stable (m := sn.r1 k) ?_ (by have := o1 k; have := o2 k; omega) ht
    intro t hmem
    obtain ⟨u, hu, hcm, hk⟩ := storeTicket_mem_traceOps hmem
    exact (hno u (by simp only [updatesOf, List.mem_filterMap]; exact ⟨_, hu, rfl⟩) hk).1 hcm

/-- **C26.** Once a deactivation of `k` has been applied (the cache is then `c`), no
snapshot taken at any later moment, concurrent with any updates and expiration cycles
`es`, returns `k`, as long as `es` holds no activation of `k`.  (`es` holds no
re-creation of `k`: ids are issued once, C12.) -/
theorem C26_deactivated_stays_out (cd : Codec) (cfg : Config) (c0 : Cache) (u : StateUpdate)
    (hu : u.cmd = .deactivate) (es : List Ev)
    (hv : ValidEvs cd cfg (applyUpdate cd c0 u) es)
    (hno : ∀ w ∈ updatesOf es, w.key = u.key → w.cmd ≠ .ticket ∧ w.cmd ≠ .activate)
    (sn : Snap) (m : GoMap Ticket)
    (hm : IsSnapshot (applyUpdate cd c0 u) (traceOps cd cfg (applyUpdate cd c0 u) es) sn m) :
    m.load u.key = none := by
  obtain ⟨h1, -, h3⟩ := hm
  rw [h3]
  refine not_served cd cfg _ es u.key ?_ hv hno sn h1
  left; rw [applyUpdate_proj]; simp [hu]

/-- **C25 (what holds).** Partial: full C25 would not need the creation to have been
applied before the snapshot starts; `C25_race_refuted` shows that it does.  Once a
creation of `k` has been applied, no snapshot that starts afterwards returns `k`
unless `k` has been activated since. -/
theorem C25_not_before_activation_partial (cd : Codec) (cfg : Config) (c0 : Cache) (u : StateUpdate)
    (hu : u.cmd = .ticket) (es : List Ev)
    (hv : ValidEvs cd cfg (applyUpdate cd c0 u) es)
    (hno : ∀ w ∈ updatesOf es, w.key = u.key → w.cmd ≠ .ticket ∧ w.cmd ≠ .activate)
    (sn : Snap) (m : GoMap Ticket)
    (hm : IsSnapshot (applyUpdate cd c0 u) (traceOps cd cfg (applyUpdate cd c0 u) es) sn m) :
    m.load u.key = none := by
  obtain ⟨h1, -, h3⟩ := hm
  rw [h3]
  refine not_served cd cfg _ es u.key ?_ hv hno sn h1
  left; rw [applyUpdate_proj]; simp [hu]

/-- Without activations of `k`, at every moment `k` is inactive or has no ticket. -/
theorem never_servable (cd : Codec) (cfg : Config) (c : Cache) (es : List Ev) (k : Str)
    (h0 : (proj c k).i = true ∨ (proj c k).t = none) (hv : ValidEvs cd cfg c es)
    (hno : ∀ u ∈ updatesOf es, u.key = k → u.cmd ≠ .activate) :
    AllPre (fun c => (proj c k).i = true ∨ (proj c k).t = none) c (traceOps cd cfg c es) := by
  refine trace_allPre es c h0 hv ?_
  intro e he c hc _
  cases e with
  | upd u =>
    have hu := hno u (by simp only [updatesOf, List.mem_filterMap]; exact ⟨_, he, rfl⟩)
    by_cases hk : u.key = k
    · have hn := hu hk
      simp only [evOps, updateOps]
      cases hcmd : u.cmd <;> simp only [hcmd, ne_eq, not_true_eq_false] at hn ⊢
      · rw [allPre_cons, allPre_cons, allPre_nil]
        refine ⟨hc, ?_, ?_⟩
        · left; rw [proj_run]; simp [MOp.onKey, hk]
        · left; rw [proj_run, proj_run]; simp [MOp.onKey, hk]
      · rw [allPre_cons, allPre_nil]
        refine ⟨hc, ?_⟩
        left; rw [proj_run]; simp [MOp.onKey, hk]
      · rw [allPre_cons, allPre_nil]
        refine ⟨hc, ?_⟩
        rw [proj_run]; simpa [MOp.onKey, hk] using hc
      · exact allPre_nil.2 hc
    · refine allPre_of_step hc ?_
      intro o ho c hc
      simp only [evOps, updateOps] at ho
      rw [proj_run]
      have hk' : ¬ k = u.key := fun e => hk e.symm
      cases hcmd : u.cmd <;> simp [hcmd] at ho
      · rcases ho with rfl | rfl <;> simpa [MOp.onKey, hk'] using hc
      all_goals subst ho; simpa [MOp.onKey, hk'] using hc
  | expire cy =>
    refine cycle_allPre cfg cy c hc ?_ ?_ ?_
    · intro c k' hc
      rw [proj_run]; simp only [MOp.onKey]; split
      · exact Or.inr rfl
      · exact hc
    · intro c k' hc
      rw [proj_run] at hc ⊢
      rw [proj_run]
      simp only [MOp.onKey] at hc ⊢
      by_cases hk : k = k'
      · simp [hk]
      · simpa [hk] using hc
    · intro c k' hc
      rw [proj_run]; simp only [MOp.onKey]; split <;> exact hc

/-- **C25 (exactly the race).** A snapshot returns a ticket that was never activated only if the
ticket was stored between the snapshot's two looks at it: once at the inactive set, once at the
tickets.  (`C25_race_refuted` has an instance.) -/
theorem C25_only_race_partial (cd : Codec) (cfg : Config) (es : List Ev) (hv : ValidEvs cd cfg Cache.empty es)
    (sn : Snap) (m : GoMap Ticket) (hm : IsSnapshot Cache.empty (traceOps cd cfg Cache.empty es) sn m)
    (k : Str) (t : Ticket) (hk : m.load k = some t) (hno : ¬ ∃ u ∈ updatesOf es, u.cmd = .activate ∧ u.key = k) :
    ∃ (i : Nat) (t' : Ticket), sn.r1 k ≤ i ∧ i < sn.r2 k ∧ (traceOps cd cfg Cache.empty es)[i]? = some (.storeTicket k t') := by
  obtain ⟨⟨o1, o2, o3⟩, -, h3⟩ := hm
  have hall := never_servable cd cfg Cache.empty es k (Or.inr rfl) hv (fun u hu hk hc => hno ⟨u, hu, hc, hk⟩)
  rw [h3] at hk
  generalize traceOps cd cfg Cache.empty es = ops at *
  unfold snapLoad at hk
  split at hk
  · cases hk
  · rename_i hin
    have ht : (cacheAt Cache.empty ops (sn.r1 k)).tickets.load k = none := by
      rcases hall (sn.r1 k) with h | h
      · simp [proj, hin] at h
      · exact h
    by_contra hc
    have : ∀ j, (cacheAt Cache.empty ops (sn.r1 k + j)).tickets.load k = none ∨ sn.r2 k < sn.r1 k + j := by
      intro j
      induction j with
      | zero => exact .inl ht
      | succ j ih =>
        rcases ih with ih | ih
        · by_cases hj : sn.r2 k < sn.r1 k + (j + 1)
          · exact .inr hj
          · left
            have hlt : sn.r1 k + j < ops.length := by have := o2 k; omega
            have e : cacheAt Cache.empty ops (sn.r1 k + (j + 1)) = (ops[sn.r1 k + j]).run (cacheAt Cache.empty ops (sn.r1 k + j)) := by
              unfold cacheAt
              rw [← Nat.add_assoc, List.take_add_one, List.getElem?_eq_getElem hlt, runOps_append]
              rfl
            rw [e]
            have ho : ∀ t', ops[sn.r1 k + j] ≠ .storeTicket k t' := fun t' h =>
              hc ⟨sn.r1 k + j, t', by omega, by omega, by rw [List.getElem?_eq_getElem hlt, h]⟩
            have : (proj ((ops[sn.r1 k + j]).run (cacheAt Cache.empty ops (sn.r1 k + j))) k).t = none := by
              rw [proj_run]
              have ih' : (proj (cacheAt Cache.empty ops (sn.r1 k + j)) k).t = none := ih
              cases hop : ops[sn.r1 k + j] with
              | storeTicket k' t' =>
                have hne : ¬ k = k' := by rintro rfl; exact ho t' hop
                simpa [MOp.onKey, hne] using ih'
              | _ => simp only [MOp.onKey]; split <;> first | exact ih' | rfl
            exact this
        · exact .inr (by omega)
    rcases this (sn.r2 k - sn.r1 k) with h | h
    · have := o1 k; have := o2 k
      rw [show sn.r1 k + (sn.r2 k - sn.r1 k) = sn.r2 k by omega, hk] at h
      cases h
    · have := o1 k; have := o2 k; omega

/-- An instance of the hypotheses of C26: `kB` is deactivated, then its expiration
cycle runs while a snapshot reads. -/
example : let c0 := (sampleHistory.take 5).foldl (applyUpdate toyCodec) Cache.empty
    let u : StateUpdate := ⟨.deactivate, kB, []⟩
    u.cmd = .deactivate ∧ ValidEvs toyCodec Config.default (applyUpdate toyCodec c0 u) [.expire sampleCycle] ∧
    (∀ w ∈ updatesOf [.expire sampleCycle], w.key = u.key → w.cmd ≠ .ticket ∧ w.cmd ≠ .activate) ∧
    (traceOps toyCodec Config.default (applyUpdate toyCodec c0 u) [.expire sampleCycle]).length = 2 := by
  refine ⟨rfl, ⟨⟨?_, ?_, ?_⟩, trivial⟩, by simp [updatesOf], by decide⟩ <;> exact List.Perm.of_eq (by decide)

/-- **C25 is false of the code** when a snapshot overlaps a creation: the snapshot reads
the inactive set before the creation marks the id inactive, and the tickets after the
creation stored the ticket. -/
theorem C25_race_refuted :
    ¬ ∀ (cd : Codec) (cfg : Config) (es : List Ev), ValidEvs cd cfg Cache.empty es →
      ∀ (sn : Snap) (m : GoMap Ticket), IsSnapshot Cache.empty (traceOps cd cfg Cache.empty es) sn m →
      ∀ k t, m.load k = some t → ∃ u ∈ updatesOf es, u.cmd = .activate ∧ u.key = k := by
  intro h
  let u : StateUpdate := ⟨.ticket, kA, "x".toList⟩
  let t : Ticket := { toyCodec.decT "x".toList with id := kA }
  have := h toyCodec Config.default [.upd u] ⟨trivial, trivial⟩
    ⟨0, 0, 2, fun _ => 0, fun _ => 2⟩ [(kA, t)] ⟨⟨by simp, by simp, by decide⟩, by simp [GoMap.WF, GoMap.keys], ?_⟩ kA t (by decide)
  · obtain ⟨w, hw, hc, -⟩ := this
    simp [updatesOf] at hw
    subst hw; simp [u] at hc
  · intro k
    by_cases hk : kA = k
    · subst hk; decide
    · have hk' : ¬ k = kA := fun e => hk e.symm
      simp [GoMap.load, hk, snapLoad, cacheAt, traceOps, evOps, updateOps, u, runOps, MOp.run,
        Cache.empty, GoMap.store, GoMap.delete]

/-! ## C27 -/

/-- **C27.** Once `k` is active with content `t` (cache `c`), every snapshot taken later,
concurrent with any events `es`, returns `k` with content `t`, as long as `es` holds no
deactivation or creation of `k` and no cycle of `es` runs after `t`'s expiration time. -/
theorem C27_active_stays_in (cd : Codec) (cfg : Config) (c : Cache) (es : List Ev) (k : Str) (t : Ticket)
    (hin : c.inactive.load k = none) (ht : c.tickets.load k = some t)
    (hv : ValidEvs cd cfg c es)
    (hno : ∀ u ∈ updatesOf es, u.key = k → u.cmd ≠ .ticket ∧ u.cmd ≠ .deactivate)
    (hexp : ∀ cy, Ev.expire cy ∈ es → cy.tix k ≤ asTime t.expirationTime)
    (sn : Snap) (m : GoMap Ticket) (hm : IsSnapshot c (traceOps cd cfg c es) sn m) :
    m.load k = some t := by
  have hall : AllPre (fun c => (proj c k).i = false ∧ (proj c k).t = some t) c (traceOps cd cfg c es) := by
    refine trace_allPre es c (by simp [proj, hin, ht]) hv ?_
    intro e he c hc hvis
    cases e with
    | upd u =>
      have hu := hno u (by simp only [updatesOf, List.mem_filterMap]; exact ⟨_, he, rfl⟩)
      refine allPre_of_step hc ?_
      intro o ho c hc
      simp only [evOps, updateOps] at ho
      rw [proj_run]
      by_cases hk : u.key = k
      · obtain ⟨n1, n2⟩ := hu hk
        cases hcmd : u.cmd <;> simp [hcmd] at ho n1 n2 <;> subst ho <;>
          first
          | simpa [MOp.onKey, hk] using hc.2
          | simpa [MOp.onKey, hk] using hc
      · have hk' : ¬ k = u.key := fun e => hk e.symm
        cases hcmd : u.cmd <;> simp [hcmd] at ho
        · rcases ho with rfl | rfl <;> simpa [MOp.onKey, hk'] using hc
        all_goals subst ho; simpa [MOp.onKey, hk'] using hc
    | expire cy =>
      have hx := hexp cy he
      have hc0 := hc
      refine allPre_of_step hc ?_
      intro o ho c' hc'
      rw [proj_run]
      rcases mem_cycleOps ho with ⟨k', rfl, h⟩ | ⟨k', rfl, h, -⟩ | ⟨k', rfl, -⟩
      · have hne : ¬ k = k' := by
          rintro rfl
          rcases h with ⟨h, -⟩ | ⟨-, t', hl, he⟩
          · rw [mem_visI hvis, hc0.1] at h; simp at h
          · have hl' : (proj (runOps c (inactivePassOps cfg cy)) k).t = some t' := hl
            have hnv : ¬ (k ∈ cy.visI ∧ inactiveAged cfg cy k = true) := by
              rintro ⟨h, -⟩; rw [mem_visI hvis, hc0.1] at h; simp at h
            rw [proj_inactivePass, if_neg hnv, hc0.2] at hl'
            injection hl' with e; subst e
            simp [ticketExpired] at he; omega
        simpa [MOp.onKey, hne] using hc'
      · have hne : ¬ k = k' := by
          rintro rfl; rw [mem_visI hvis, hc0.1] at h; simp at h
        simpa [MOp.onKey, hne] using hc'
      · simp only [MOp.onKey]; split <;> exact hc'
  obtain ⟨-, -, h3⟩ := hm
  rw [h3]
  unfold snapLoad
  have a1 := (hall (sn.r1 k)).1
  have a2 := (hall (sn.r2 k)).2
  split
  · rename_i hs; simp [proj, hs] at a1
  · exact a2

example : let c := sampleHistory.foldl (applyUpdate toyCodec) Cache.empty
    let es : List Ev := [.upd ⟨.ticket, "901-0".toList, "z".toList⟩, .upd ⟨.deactivate, kB, []⟩]
    c.inactive.load kA = none ∧ (c.tickets.load kA).isSome ∧ ValidEvs toyCodec Config.default c es ∧
    (∀ u ∈ updatesOf es, u.key = kA → u.cmd ≠ .ticket ∧ u.cmd ≠ .deactivate) ∧
    (traceOps toyCodec Config.default c es).length = 3 := by
  refine ⟨by decide, by decide, ⟨trivial, trivial, trivial⟩, by decide, by decide⟩

/-- **C27 (from the activation on).** Once an activation of `k` has been applied to a cache
that holds `k` with content `t`, every snapshot taken later returns `k` with content `t`,
under the same conditions on the later events. -/
theorem C27_activated_is_served (cd : Codec) (cfg : Config) (c : Cache) (es : List Ev) (k v : Str) (t : Ticket)
    (ht : c.tickets.load k = some t)
    (hv : ValidEvs cd cfg (applyUpdate cd c ⟨.activate, k, v⟩) es)
    (hno : ∀ u ∈ updatesOf es, u.key = k → u.cmd ≠ .ticket ∧ u.cmd ≠ .deactivate)
    (hexp : ∀ cy, Ev.expire cy ∈ es → cy.tix k ≤ asTime t.expirationTime)
    (sn : Snap) (m : GoMap Ticket)
    (hm : IsSnapshot (applyUpdate cd c ⟨.activate, k, v⟩)
      (traceOps cd cfg (applyUpdate cd c ⟨.activate, k, v⟩) es) sn m) :
    m.load k = some t := by
  have hp := applyUpdate_proj cd c ⟨.activate, k, v⟩ k
  simp only [if_true] at hp
  refine C27_active_stays_in cd cfg _ es k t ?_ ?_ hv hno hexp sn m hm
  · have := congrArg KState.i hp
    simpa [proj] using this
  · have := congrArg KState.t hp
    simpa [proj, ht] using this

example : let c := applyUpdate toyCodec Cache.empty ⟨.ticket, kA, "z".toList⟩
    (c.tickets.load kA).isSome ∧ c.inactive.load kA = some () ∧
    ((candidates (applyUpdate toyCodec c ⟨.activate, kA, []⟩)).load kA).isSome := by
  decide

/-! ## C28 -/

/-- Servable in this cache state. -/
def ActiveIn (c : Cache) (k : Str) : Prop := c.inactive.load k = none ∧ c.tickets.load k ≠ none

/-- **C28 (soundness).** A returned ticket was active at some moment of the snapshot, or
its creation's write happened during the snapshot; and the content returned is what the
cache held for it at a moment of the snapshot. -/
theorem C28_returned_is_explainable (c : Cache) (ops : List MOp) (sn : Snap) (m : GoMap Ticket)
    (hm : IsSnapshot c ops sn m) (k : Str) (t : Ticket) (hk : m.load k = some t) :
    ((∃ n, sn.lo ≤ n ∧ n ≤ sn.hi ∧ ActiveIn (cacheAt c ops n) k) ∨
      (∃ n t', sn.lo ≤ n ∧ n < sn.hi ∧ ops[n]? = some (.storeTicket k t'))) ∧
    (∃ n, sn.lo ≤ n ∧ n ≤ sn.hi ∧ (cacheAt c ops n).tickets.load k = some t) := by
  obtain ⟨⟨o1, o2, o3⟩, -, h3⟩ := hm
  rw [h3] at hk
  have a1 := o1 k
  have a2 := o2 k
  unfold snapLoad at hk
  split at hk
  · simp at hk
  · rename_i hin
    refine ⟨?_, sn.r2 k, by omega, by omega, hk⟩
    by_cases hcr : ∃ n t', sn.lo ≤ n ∧ n < sn.hi ∧ ops[n]? = some (.storeTicket k t')
    · exact Or.inr hcr
    · left
      refine ⟨sn.r1 k, by omega, by omega, hin, ?_⟩
      intro hnone
      -- absent at r1 and not stored until r2: absent at r2
      have hstable : ∀ d, sn.r1 k + d ≤ sn.hi → (cacheAt c ops (sn.r1 k + d)).tickets.load k = none := by
        intro d
        induction d with
        | zero => intro _; exact hnone
        | succ d ih =>
          intro hle
          have hprev := ih (by omega)
          have hlt : sn.r1 k + d < ops.length := by omega
          have hstep : cacheAt c ops (sn.r1 k + (d + 1)) = (ops[sn.r1 k + d]).run (cacheAt c ops (sn.r1 k + d)) := by
            unfold cacheAt runOps
            rw [← Nat.add_assoc, List.take_succ_eq_append_getElem hlt, List.foldl_append]; rfl
          have hp : (proj (cacheAt c ops (sn.r1 k + d)) k).t = none := hprev
          have : (proj (cacheAt c ops (sn.r1 k + (d + 1))) k).t = none := by
            rw [hstep, proj_run]
            cases ho : ops[sn.r1 k + d] with
            | storeTicket k' t' =>
              by_cases hkk : k = k'
              · subst hkk
                exact absurd ⟨sn.r1 k + d, t', by omega, by omega, by rw [List.getElem?_eq_getElem hlt, ho]⟩ hcr
              · simpa [MOp.onKey, hkk] using hp
            | _ => simp only [MOp.onKey]; split <;> first | exact hp | rfl
          exact this
      have hfin := hstable (sn.r2 k - sn.r1 k) (by omega)
      have he : sn.r1 k + (sn.r2 k - sn.r1 k) = sn.r2 k := by omega
      rw [he, hk] at hfin
      simp at hfin

/-- **C28 (completeness).** A ticket active at every moment of the snapshot is returned. -/
theorem C28_active_throughout_is_returned (c : Cache) (ops : List MOp) (sn : Snap) (m : GoMap Ticket)
    (hm : IsSnapshot c ops sn m) (k : Str)
    (hk : ∀ n, sn.lo ≤ n → n ≤ sn.hi → ActiveIn (cacheAt c ops n) k) : (m.load k).isSome := by
  obtain ⟨⟨o1, o2, o3⟩, -, h3⟩ := hm
  rw [h3]
  have a1 := o1 k
  have a2 := o2 k
  have b1 := hk (sn.r1 k) (by omega) (by omega)
  have b2 := hk (sn.r2 k) (by omega) (by omega)
  unfold snapLoad
  rw [b1.1]
  exact Option.isSome_iff_ne_none.2 b2.2

/-- The quiescent candidate set is a snapshot (so `IsSnapshot` is satisfiable for every
well-formed cache), here on the sample cache. -/
theorem candidates_isSnapshot (c : Cache) (wf : c.WF) :
    IsSnapshot c [] ⟨0, 0, 0, fun _ => 0, fun _ => 0⟩ (candidates c) := by
  refine ⟨⟨by simp, by simp, by simp⟩, GoMap.WF_filter wf.1 _, fun k => ?_⟩
  rw [candidates_load wf]
  simp only [snapLoad, cacheAt_nil, proj]
  by_cases h : c.inactive.load k = none
  · simp [h]
  · obtain ⟨v, hv⟩ := Option.ne_none_iff_exists'.1 h
    simp [hv]

/-- A snapshot of the sample cache while `kB` is activated and `kC` created: `kA` is active
throughout, `kB` from the first write on, `kC` is in the middle of its creation. -/
example : let c := sampleHistory.foldl (applyUpdate toyCodec) Cache.empty
    let ops : List MOp := [.delInactive kB, .storeTicket "901-0".toList default, .storeInactive "901-0".toList]
    (∀ n, 0 ≤ n → n ≤ 3 → ActiveIn (cacheAt c ops n) kA) ∧ ¬ ActiveIn (cacheAt c ops 0) kB ∧
    ActiveIn (cacheAt c ops 1) kB ∧ ActiveIn (cacheAt c ops 2) "901-0".toList ∧
    ¬ ActiveIn (cacheAt c ops 3) "901-0".toList := by
  dsimp only
  unfold ActiveIn
  refine ⟨?_, by decide, by decide, by decide, by decide⟩
  intro n _ hn
  have : n = 0 ∨ n = 1 ∨ n = 2 ∨ n = 3 := by omega
  rcases this with rfl | rfl | rfl | rfl <;> decide

/-! ## C29 -/

/-- **C29.** Whatever point of an expiration cycle a snapshot's reads fall on, it returns
only tickets that were already candidates, with the same content, before the cycle. -/
theorem C29_expiration_never_reactivates (cfg : Config) (cy : Cycle) (c : Cache) (wf : c.WF)
    (sn : Snap) (m : GoMap Ticket) (hm : IsSnapshot c (cycleOps cfg cy c) sn m)
    (k : Str) (t : Ticket) (hk : m.load k = some t) : (candidates c).load k = some t := by
  obtain ⟨⟨o1, o2, -⟩, -, h3⟩ := hm
  rw [h3] at hk
  let Q : Cache → Prop := fun c' => ∀ t, (proj c' k).t = some t →
    (proj c k).t = some t ∧ (proj c' k).i = (proj c k).i
  have hall : AllPre Q c (cycleOps cfg cy c) := by
    refine cycle_allPre cfg cy c (fun t ht => ⟨ht, rfl⟩) ?_ ?_ ?_
    · intro c' k' hc t
      rw [proj_run]; simp only [MOp.onKey]; split
      · simp
      · exact hc t
    · intro c' k' hc t
      have := hc t
      rw [proj_run] at this ⊢
      rw [proj_run]
      simp only [MOp.onKey] at this ⊢
      by_cases h : k = k'
      · simp [h]
      · simpa [h] using this
    · intro c' k' hc t
      rw [proj_run]; simp only [MOp.onKey]; split <;> exact hc t
  unfold snapLoad at hk
  split at hk
  · simp at hk
  · rename_i hin
    have a1 := o1 k
    have a2 := o2 k
    -- the ticket was present at the first read as well
    cases ht : (cacheAt c (cycleOps cfg cy c) (sn.r1 k)).tickets.load k with
    | none =>
      have := ticket_none_stable (m := sn.r1 k) (n := sn.r2 k)
        (fun t => storeTicket_not_mem_cycleOps k t) (by omega) ht
      rw [hk] at this; simp at this
    | some t1 =>
      have q1 := hall (sn.r1 k) t1 ht
      have q2 := hall (sn.r2 k) t hk
      rw [candidates_load wf, ← q1.2]
      simp only [proj, hin, Option.isSome_none, Bool.false_eq_true, if_false]
      exact q2.1

/-- C29's sharper form: removing an inactive id is only ever done right after its ticket
was removed; at every point of the cycle the candidates are among those before it. -/
theorem C29_candidates_shrink (cfg : Config) (cy : Cycle) (c : Cache) (wf : c.WF) (n : Nat)
    (k : Str) (t : Ticket) (h : (candidates (cacheAt c (cycleOps cfg cy c) n)).load k = some t)
    (hn : n ≤ (cycleOps cfg cy c).length) : (candidates c).load k = some t := by
  have wf' : (cacheAt c (cycleOps cfg cy c) n).WF := WF_runOps wf _
  refine C29_expiration_never_reactivates cfg cy c wf ⟨n, n, n, fun _ => n, fun _ => n⟩
    (candidates (cacheAt c (cycleOps cfg cy c) n)) ⟨⟨by simp, by simp, hn⟩, GoMap.WF_filter wf'.1 _, ?_⟩ k t h
  intro k'
  rw [candidates_load wf']
  simp only [snapLoad, proj]
  by_cases h : (cacheAt c (cycleOps cfg cy c) n).inactive.load k' = none
  · simp [h]
  · obtain ⟨v, hv⟩ := Option.ne_none_iff_exists'.1 h
    simp [hv]

example : let c := sampleHistory.foldl (applyUpdate toyCodec) Cache.empty
    (cycleOps Config.default sampleCycle c).length = 2 ∧ (candidates c).keys = [kA] ∧
    (candidates (expire Config.default sampleCycle c)).keys = [kA] ∧
    (expire Config.default sampleCycle c).inactive = [] := by decide

/-! ## C36 -/

/-- **C36 is false of the code**: filters do not look at the expiration time, so a ticket
that expired since the last expiration cycle is still a candidate. -/
theorem C36_expired_in_pool_refuted :
    ¬ ∀ (cd : Codec) (cfg : Config) (es : List Ev), ValidEvs cd cfg Cache.empty es →
      ∀ (now : Int) k t, (candidates (runEvs cd cfg Cache.empty es)).load k = some t →
        ¬ asTime t.expirationTime < now := by
  intro h
  have := h toyCodec Config.default (sampleHistory.map Ev.upd) (by simp [sampleHistory, ValidEvs])
    (2000 * nsPerSec) kA { toyCodec.decT "x".toList with id := kA } (by decide)
  exact this (by decide)

/-- **C36 (what holds).** Partial: full C36 would have the current time in place of the
start `T` of the last cycle.  A candidate present after a cycle and further updates
either expires at or after `T`, or was created after the cycle. -/
theorem C36_expired_in_pool_partial (cd : Codec) (cfg : Config) (cy : Cycle) (c : Cache) (wf : c.WF)
    (hv : cy.Visits cfg c) (T : Int) (h2 : ∀ k, T ≤ cy.tix k)
    (us : List StateUpdate) (k : Str) (t : Ticket)
    (h : (candidates (us.foldl (applyUpdate cd) (expire cfg cy c))).load k = some t) :
    ¬ asTime t.expirationTime < T ∨ ∃ u ∈ us, u.cmd = .ticket ∧ u.key = k := by
  have hwf : ∀ (us : List StateUpdate) (d : Cache), d.WF → (us.foldl (applyUpdate cd) d).WF := by
    intro us
    induction us with
    | nil => intro d h; exact h
    | cons u us ih => intro d h; exact ih _ (WF_runOps h _)
  have key : ∀ (us : List StateUpdate) (d : Cache),
      (∀ t, (proj d k).t = some t → ¬ asTime t.expirationTime < T) →
      ∀ t, (proj (us.foldl (applyUpdate cd) d) k).t = some t →
        ¬ asTime t.expirationTime < T ∨ ∃ u ∈ us, u.cmd = .ticket ∧ u.key = k := by
    intro us
    induction us with
    | nil => intro d hd t ht; exact Or.inl (hd t ht)
    | cons u us ih =>
      intro d hd t ht
      by_cases hu : u.cmd = .ticket ∧ u.key = k
      · exact Or.inr ⟨u, by simp, hu⟩
      · have hd' : ∀ t, (proj (applyUpdate cd d u) k).t = some t → ¬ asTime t.expirationTime < T := by
          intro t ht
          rw [applyUpdate_proj] at ht
          split at ht
          · rename_i hk
            cases hc : u.cmd <;> simp only [hc] at ht
            · exact absurd ⟨hc, hk.symm⟩ hu
            all_goals exact hd t ht
          · exact hd t ht
        rcases ih _ hd' t ht with h | ⟨w, hw, h⟩
        · exact Or.inl h
        · exact Or.inr ⟨w, by simp [hw], h⟩
  have wfe : (expire cfg cy c).WF := WF_runOps wf _
  rw [candidates_load (hwf us _ wfe)] at h
  split at h
  · simp at h
  · refine key us _ ?_ t h
    intro t ht hlt
    have ht' : (expire cfg cy c).tickets.load k = some t := ht
    rw [expire_tickets hv] at ht'
    split at ht'
    · simp at ht'
    · have := h2 k
      simp [Option.filter_eq_some_iff, ticketExpired] at ht'
      omega

/-- After a cycle at 950 s the ticket that expires later is still there, and so is one
created since. -/
example : let c := sampleHistory.foldl (applyUpdate toyCodec) Cache.empty
    let us : List StateUpdate := [⟨.ticket, "901-0".toList, "z".toList⟩, ⟨.activate, "901-0".toList, []⟩]
    (∀ k, 950 * nsPerSec ≤ sampleCycle.tix k) ∧
    (candidates (us.foldl (applyUpdate toyCodec) (expire Config.default sampleCycle c))).keys = [kA, "901-0".toList] := by
  refine ⟨fun _ => Int.le_refl _, by decide⟩

/-! ## C37 -/

/-- **C37 is false of the code**: there is no bound on the number of updates applied
before an expiration cycle, however fast each iteration is. -/
theorem C37_starvation_refuted :
    ¬ ∃ B : Nat, ∀ env : List DrainEnv, (∀ e ∈ env, e.stallMs < 500) → B < env.length → drain env ≠ none := by
  rintro ⟨B, h⟩
  refine h (List.replicate (B + 1) ⟨true, 0, true⟩) ?_ (by simp) ?_
  · intro e he; rw [List.eq_of_mem_replicate he]; decide
  · generalize B + 1 = n
    induction n with
    | zero => rfl
    | succ n ih => simp [List.replicate_succ, drain, drainApplies, ih]

/-- **C37 (what holds).** Partial: full C37 bounds the work regardless of the queue.  The
loop is left at the first iteration that finds the queue empty, after applying exactly
the updates of the iterations before; so a cycle runs once the queue drains. -/
theorem C37_cycle_after_drain_partial (pre : List DrainEnv) (e : DrainEnv) (post : List DrainEnv)
    (hpre : ∀ x ∈ pre, x.avail = true ∧ x.stallMs < 500) (he : e.avail = false) :
    drain (pre ++ e :: post) = some pre.length := by
  induction pre with
  | nil => simp [drain, drainApplies, he]
  | cons x pre ih =>
    have hx := hpre x (by simp)
    have := ih (fun y hy => hpre y (by simp [hy]))
    have hs : ¬ 500 ≤ x.stallMs := by omega
    simp [drain, drainApplies, hx.1, hs, this]

/-- **C37 (exactly).** The loop is left after `n` updates just when the first `n` iterations each
found an update, and applied it, and the next found none, or stalled for 500 ms between its timer
and its select and then left by the timer. -/
theorem C37_exactly (env : List DrainEnv) (n : Nat) :
    drain env = some n ↔ ∃ pre e post, env = pre ++ e :: post ∧ pre.length = n ∧
      (∀ x ∈ pre, x.avail = true ∧ (x.stallMs < 500 ∨ x.pickTimer = false)) ∧
      (e.avail = false ∨ (500 ≤ e.stallMs ∧ e.pickTimer = true)) := by
  have app : ∀ x : DrainEnv, drainApplies x = true ↔ x.avail = true ∧ (x.stallMs < 500 ∨ x.pickTimer = false) := by
    intro x
    unfold drainApplies
    cases x.avail <;> cases x.pickTimer <;> simp
  have napp : ∀ x : DrainEnv, drainApplies x = false ↔ (x.avail = false ∨ (500 ≤ x.stallMs ∧ x.pickTimer = true)) := by
    intro x
    unfold drainApplies
    cases x.avail <;> cases x.pickTimer <;> simp
  induction env generalizing n with
  | nil => simp [drain]
  | cons x env ih =>
    unfold drain
    cases hx : drainApplies x with
    | true =>
      rw [if_pos rfl, Option.map_eq_some_iff]
      constructor
      · rintro ⟨m, hm, rfl⟩
        obtain ⟨pre, e, post, rfl, hl, h1, h2⟩ := (ih m).1 hm
        refine ⟨x :: pre, e, post, rfl, by simp [hl], ?_, h2⟩
        intro y hy
        rcases List.mem_cons.1 hy with rfl | hy
        · exact (app y).1 hx
        · exact h1 y hy
      · rintro ⟨pre, e, post, he, hl, h1, h2⟩
        cases pre with
        | nil =>
          obtain ⟨rfl, -⟩ := List.cons.inj he
          rw [(napp x).2 h2] at hx; cases hx
        | cons y pre =>
          obtain ⟨rfl, rfl⟩ := List.cons.inj he
          exact ⟨pre.length, (ih _).2 ⟨pre, e, post, rfl, rfl, fun z hz => h1 z (by simp [hz]), h2⟩, by simpa using hl⟩
    | false =>
      rw [if_neg (by simp), Option.some.injEq]
      constructor
      · rintro rfl
        exact ⟨[], x, env, rfl, rfl, by simp, (napp x).1 hx⟩
      · rintro ⟨pre, e, post, he, hl, h1, h2⟩
        cases pre with
        | nil => exact hl
        | cons y pre =>
          obtain ⟨rfl, -⟩ := List.cons.inj he
          rw [(app x).2 (h1 x (by simp))] at hx; cases hx

example : drain [⟨true, 0, false⟩, ⟨true, 3, true⟩, ⟨false, 0, false⟩, ⟨true, 0, true⟩] = some 2 := by decide

/-! ## C62 -/

/-- Inactive ids without a ticket. -/
def dangling (c : Cache) : List Str := c.inactive.keys.filter fun k => decide (c.tickets.load k = none)

/-- **C62 (counts).** The three counts are the sizes of the maps the cycle started with. -/
theorem C62_counts_exact (cfg : Config) (cy : Cycle) (c : Cache) (wf : c.WF) (hv : cy.Visits cfg c) :
    (cycleCounts cfg cy c).inactiveCount = c.inactive.length ∧
    (cycleCounts cfg cy c).assignmentCount = c.assignments.length ∧
    (cycleCounts cfg cy c).ticketCount = c.tickets.length := by
  obtain ⟨v1, v2, v3⟩ := hv
  refine ⟨by simpa [cycleCounts, GoMap.keys] using v1.length_eq, by simpa [cycleCounts, GoMap.keys] using v3.length_eq, ?_⟩
  simp only [cycleCounts]
  have hn1 : cy.visI.Nodup := v1.nodup_iff.2 wf.2.1
  have wf1 := (WF_runOps wf (inactivePassOps cfg cy)).1
  have hn2 : cy.visT.Nodup := v2.nodup_iff.2 wf1
  have hperm : ((cy.visI.filter fun k => inactiveAged cfg cy k && (c.tickets.load k).isSome) ++ cy.visT).Perm
      c.tickets.keys := by
    refine (List.perm_ext_iff_of_nodup ?_ wf.1).2 ?_
    · refine List.nodup_append.2 ⟨hn1.filter _, hn2, ?_⟩
      rintro a ha b hb rfl
      simp only [List.mem_filter, Bool.and_eq_true] at ha
      rw [v2.mem_iff, ← GoMap.load_isSome_iff] at hb
      have hb' : (proj (runOps c (inactivePassOps cfg cy)) a).t.isSome := hb
      rw [proj_inactivePass, if_pos ⟨ha.1, ha.2.1⟩] at hb'
      simp at hb'
    · intro k
      rw [List.mem_append, List.mem_filter, v2.mem_iff, ← GoMap.load_isSome_iff, ← GoMap.load_isSome_iff]
      have e : (runOps c (inactivePassOps cfg cy)).tickets.load k
          = (proj (runOps c (inactivePassOps cfg cy)) k).t := rfl
      rw [e, proj_inactivePass]
      by_cases hk : k ∈ cy.visI ∧ inactiveAged cfg cy k = true
      · rw [if_pos hk]; simp [hk.1, hk.2]
      · rw [if_neg hk]
        constructor
        · rintro (h | h)
          · simp only [Bool.and_eq_true] at h; exact h.2.2
          · exact h
        · intro h; exact Or.inr h
  have := hperm.length_eq
  simpa [GoMap.keys] using this

/-- **C62 (active gauge).** Partial: full C62 has no `dangling` term.  The active gauge is
the number of candidates minus the number of inactive ids that have no ticket. -/
theorem C62_active_gauge_partial (cfg : Config) (cy : Cycle) (c : Cache) (wf : c.WF)
    (hv : cy.Visits cfg c) :
    activeGauge (cycleCounts cfg cy c) = (candidates c).length - (dangling c).length := by
  obtain ⟨e1, -, e3⟩ := C62_counts_exact cfg cy c wf hv
  unfold activeGauge
  rw [e1, e3]
  -- tickets split into candidates and inactive tickets
  have s1 : c.tickets.length = (candidates c).length +
      (c.tickets.filter fun e => !decide (c.inactive.load e.1 = none)).length := by
    unfold candidates
    exact List.length_eq_length_filter_add _
  have s2 : c.inactive.keys.length = (dangling c).length +
      (c.inactive.keys.filter fun k => !decide (c.tickets.load k = none)).length := by
    unfold dangling
    exact List.length_eq_length_filter_add _
  have hp : ((c.tickets.filter fun e => !decide (c.inactive.load e.1 = none)).map Prod.fst).Perm
      (c.inactive.keys.filter fun k => !decide (c.tickets.load k = none)) := by
    refine (List.perm_ext_iff_of_nodup (GoMap.WF_filter wf.1 _) (wf.2.1.filter _)).2 ?_
    intro k
    unfold GoMap.keys
    rw [List.mem_map]
    simp only [List.mem_filter, Bool.not_eq_true', decide_eq_false_iff_not]
    rw [show List.map Prod.fst c.inactive = c.inactive.keys from rfl, ← GoMap.load_isSome_iff, Option.isSome_iff_ne_none]
    constructor
    · rintro ⟨e, ⟨hm, hne⟩, rfl⟩
      refine ⟨hne, ?_⟩
      rw [GoMap.load_of_mem (k := e.1) (v := e.2) wf.1 hm]; simp
    · rintro ⟨h1, h2⟩
      obtain ⟨t, ht⟩ := Option.ne_none_iff_exists'.1 h2
      exact ⟨(k, t), ⟨GoMap.mem_of_load ht, h1⟩, rfl⟩
  have hl := hp.length_eq
  rw [List.length_map] at hl
  have hk : c.inactive.keys.length = c.inactive.length := by simp [GoMap.keys]
  omega

/-- **C62's active gauge is false of the code** with dangling inactive ids: here the
gauge reads -1 with no ticket at all. -/
theorem C62_active_gauge_refuted :
    ¬ ∀ (cd : Codec) (cfg : Config) (es : List Ev) (cy : Cycle), ValidEvs cd cfg Cache.empty es →
      cy.Visits cfg (runEvs cd cfg Cache.empty es) →
      activeGauge (cycleCounts cfg cy (runEvs cd cfg Cache.empty es)) =
        ((candidates (runEvs cd cfg Cache.empty es)).length : Int) := by
  intro h
  have := h toyCodec Config.default [.upd ⟨.deactivate, kA, []⟩]
    ⟨[kA], [], [], fun _ => 950, fun _ => 0, fun _ => 0⟩ ⟨trivial, trivial⟩
    ⟨List.Perm.of_eq (by decide), List.Perm.of_eq (by decide), List.Perm.of_eq (by decide)⟩
  exact absurd this (by decide)

example : let c := sampleHistory.foldl (applyUpdate toyCodec) Cache.empty
    c.tickets.keys = [kA, kB] ∧ cycleCounts Config.default sampleCycle c = ⟨1, 2, 1⟩ ∧
    activeGauge (cycleCounts Config.default sampleCycle c) = 1 := by decide

end OM.Props
