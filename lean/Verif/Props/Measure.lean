import Verif.Model.Measure
import Verif.Props.Snapshot
/-!
# Property C105: what an expiration cycle measures
-/
namespace OM.Props
open OM.Spec

private theorem length_of_keys {V : Type} {m : GoMap V} {l : List Str} (wf : m.WF) (hn : l.Nodup)
    (h : ∀ k, k ∈ l ↔ (m.load k).isSome) : l.length = m.length := by
  have : l.Perm m.keys := (List.perm_ext_iff_of_nodup hn wf).2 fun k => by rw [h, GoMap.load_isSome_iff]
  simpa [GoMap.keys] using this.length_eq

private theorem filter_lengths {l : List Str} (p : Str → Bool) :
    (l.filter p).length + (l.filter fun k => !p k).length = l.length := by
  induction l with
  | nil => rfl
  | cons a l ih => cases h : p a <;> simp [h] <;> omega

/-- **C105 (counts).** The numbers a cycle counts, and logs, are the numbers of inactive ids,
tickets and assignments it removed. -/
theorem C105_removed_counts_partial (cfg : Config) (cy : Cycle) (c : Cache) (wf : c.WF) (hv : cy.Visits cfg c) :
    (cycleDeletions cfg cy c).inactive + (expire cfg cy c).inactive.length = c.inactive.length ∧
    (cycleDeletions cfg cy c).tickets + (expire cfg cy c).tickets.length = c.tickets.length ∧
    (cycleDeletions cfg cy c).assignments + (expire cfg cy c).assignments.length = c.assignments.length := by
  have wf' : (expire cfg cy c).WF := WF_runOps wf _
  obtain ⟨e1, e2, e3⟩ := C62_counts_exact cfg cy c wf hv
  have hn1 : cy.visI.Nodup := hv.1.nodup_iff.2 wf.2.1
  have hn2 : cy.visT.Nodup := hv.2.1.nodup_iff.2 (WF_runOps wf (inactivePassOps cfg cy)).1
  have hn3 : cy.visA.Nodup := hv.2.2.nodup_iff.2 wf.2.2
  refine ⟨?_, ?_, ?_⟩
  · rw [← e1]
    show _ = cy.visI.length
    rw [← filter_lengths (l := cy.visI) (fun k => inactiveAged cfg cy k)]
    rw [← length_of_keys (l := cy.visI.filter fun k => !inactiveAged cfg cy k) wf'.2.1 (hn1.filter _)]
    · rfl
    · intro k
      rw [expire_inactive hv, List.mem_filter, mem_visI hv, Bool.and_eq_true]
      exact Iff.rfl
  · rw [← e3]
    show _ = _ + cy.visT.length
    rw [← filter_lengths (l := cy.visT) (fun k => passDeletes cy (runOps c (inactivePassOps cfg cy)) k)]
    rw [← length_of_keys (l := cy.visT.filter fun k => !passDeletes cy (runOps c (inactivePassOps cfg cy)) k) wf'.1 (hn2.filter _)]
    · simp only [cycleDeletions]; omega
    · intro k
      rw [expire_tickets hv, List.mem_filter, mem_visT hv]
      have e : (runOps c (inactivePassOps cfg cy)).tickets.load k
          = (proj (runOps c (inactivePassOps cfg cy)) k).t := rfl
      unfold passDeletes
      rw [e, proj_inactivePass]
      have hi := mem_visI hv k
      have hi' : (proj c k).i = (c.inactive.load k).isSome := rfl
      have ht' : (proj c k).t = c.tickets.load k := rfl
      simp only [hi, hi']
      by_cases h : (c.inactive.load k).isSome = true ∧ inactiveAged cfg cy k = true
      · rw [if_pos h, if_pos (by rw [h.1, h.2]; rfl)]; simp
      · rw [if_neg h, if_neg (by rwa [Bool.and_eq_true]), ht']
        cases hl : c.tickets.load k with
        | none => simp
        | some t => cases hx : ticketExpired cy k t <;> simp [Option.filter, hx]
  · rw [← e2]
    show _ = cy.visA.length
    rw [← filter_lengths (l := cy.visA) (fun k => asgAged cfg cy k)]
    rw [← length_of_keys (l := cy.visA.filter fun k => !asgAged cfg cy k) wf'.2.2 (hn3.filter _)]
    · rfl
    · intro k
      rw [expire_assignments hv, List.mem_filter, mem_visA hv]
      have : (proj c k).a = c.assignments.load k := rfl
      rw [this]
      cases asgAged cfg cy k <;> simp

/-- The full claim on durations: a cycle records how long it took, to the microsecond. -/
def C105_duration_statement : Prop := ∀ (startNs endNs : Int) (d : Deletions), startNs ≤ endNs →
  ∃ ms : Int, cycleRecords startNs endNs d = [(.duration, ms)] ∧ endNs - startNs < 1000000 * ms + 1000

/-- **C105 (durations) is false of the code**: microseconds are divided by 1000 as integers
(unlike those of an RPC, core/server.go:133), so a cycle of 999 µs is recorded as 0 ms. -/
theorem C105_duration_refuted : ¬ C105_duration_statement := by
  intro h
  obtain ⟨ms, h1, h2⟩ := h 0 999000 ⟨0, 0, 0⟩ (by decide)
  simp [cycleRecords, cycleMillis, Log.micros] at h1
  omega

/-- **C105 (durations, what holds).** Partial: the full claim is `C105_duration_statement`.  A
cycle records its duration once, in whole milliseconds, rounded down. -/
theorem C105_duration_partial (startNs endNs : Int) (d : Deletions) (h : startNs ≤ endNs) :
    ∃ ms : Int, cycleRecords startNs endNs d = [(.duration, ms)] ∧ 1000000 * ms ≤ endNs - startNs ∧
      endNs - startNs < 1000000 * ms + 1000000 := by
  refine ⟨_, rfl, ?_⟩
  unfold cycleMillis Log.micros
  have h0 : 0 ≤ endNs - startNs := by omega
  rw [Int.tdiv_eq_ediv_of_nonneg h0, Int.tdiv_eq_ediv_of_nonneg (by omega)]
  omega

/-- The full claim on the other histograms: a cycle records how many tickets, inactive ids and
assignments it removed. -/
def C105_counts_statement : Prop := ∀ (cfg : Config) (cy : Cycle) (c : Cache), c.WF → cy.Visits cfg c →
  ∀ startNs endNs : Int, startNs ≤ endNs →
  let rs := cycleRecords startNs endNs (cycleDeletions cfg cy c)
  (.tickets, (c.tickets.length : Int) - (expire cfg cy c).tickets.length) ∈ rs ∧
  (.inactives, (c.inactive.length : Int) - (expire cfg cy c).inactive.length) ∈ rs ∧
  (.assignments, (c.assignments.length : Int) - (expire cfg cy c).assignments.length) ∈ rs

/-- **C105 (counts) is false of the code**: the three histograms are registered and never
recorded. -/
theorem C105_counts_refuted : ¬ C105_counts_statement := by
  intro h
  have := (h Config.default ⟨[], [], [], fun _ => 0, fun _ => 0, fun _ => 0⟩ Cache.empty WF_empty
    ⟨List.Perm.refl _, List.Perm.refl _, List.Perm.refl _⟩ 0 0 (by decide)).1
  simp [cycleRecords] at this

/-- A cycle that removes one inactive ticket by age, one active ticket by its expiration time
and an old assignment, and keeps the rest. -/
def measuredCache : Cache := runEvs toyCodec Config.default Cache.empty
  ([⟨.ticket, kA, "x".toList⟩, ⟨.activate, kA, []⟩, ⟨.ticket, kB, "y".toList⟩, ⟨.assign, kB, "h".toList⟩,
    ⟨.deactivate, "1400-1".toList, []⟩, ⟨.assign, "1400-1".toList, "h".toList⟩].map Ev.upd)
def measuredCycle : Cycle :=
  ⟨measuredCache.inactive.keys, [kA], measuredCache.assignments.keys, fun _ => 1500, fun _ => 1500000000000, fun _ => 1500⟩

example : measuredCache.WF ∧ measuredCycle.Visits Config.default measuredCache ∧
    cycleDeletions Config.default measuredCycle measuredCache = ⟨1, 2, 1⟩ ∧
    (expire Config.default measuredCycle measuredCache).tickets.keys = [] ∧
    (expire Config.default measuredCycle measuredCache).inactive.keys = ["1400-1".toList] ∧
    (expire Config.default measuredCycle measuredCache).assignments.keys = ["1400-1".toList] := by
  refine ⟨WF_runEvs WF_empty _, ⟨List.Perm.refl _, ?_, List.Perm.refl _⟩, by decide +kernel, by decide +kernel, by decide +kernel,
    by decide +kernel⟩
  have : (runOps measuredCache (inactivePassOps Config.default measuredCycle)).tickets.keys = [kA] := by decide +kernel
  rw [this]
  exact List.Perm.refl _

end OM.Props
