import Verif.Lemmas.Filter
/-! # Properties C01–C05: pool filters -/
namespace OM.Props
open OM.Filter OM.Spec

/-! ## Sample data for the non-vacuity examples -/

/-- 5.0 as a binary64 bit pattern. -/
def f5 : F64 := 0x4014000000000000#64
/-- 10.0 -/
def f10 : F64 := 0x4024000000000000#64
/-- -0.0 -/
def fNegZero : F64 := 0x8000000000000000#64
/-- a quiet NaN -/
def fNaN : F64 := 0x7FF8000000000000#64

def sampleAttrs : FilterableData :=
  { tags := ["beta".toList, "vip".toList]
    stringArgs := [("mode".toList, "duel".toList)]
    doubleArgs := [("mmr".toList, f5), ("bad".toList, fNaN)]
    creationTime := some ⟨1700000000, 5⟩ }

def sampleTicket : Ticket :=
  { id := "1700000000-0".toList, expirationTime := some ⟨1700000600, 5⟩,
    attributes := some sampleAttrs, extensions := [] }

def samplePool : Pool :=
  { name := "p".toList, tagPresentFilters := [⟨"vip".toList⟩]
    stringEqualsFilters := [⟨"mode".toList, "duel".toList⟩]
    doubleRangeFilters := [⟨"mmr".toList, fNegZero, f10, 1⟩]
    creationTimeRangeFilter := none, participants := none, extensions := [] }

/-- `samplePool` with a creation-time filter. -/
def timedPool (s e : Option Timestamp) (b : Int) : Pool :=
  { samplePool with creationTimeRangeFilter := some ⟨s, e, b⟩ }

/-! ## C01 -/

private theorem sections_iff_Meets (p : Pool) (a : FilterableData) (hwf : WFAttrs a) :
    ((∀ f ∈ p.doubleRangeFilters, ∃ v, a.doubleArgs.load f.doubleArg = some v ∧
        doubleRejects f v = false) ∧
      (∀ f ∈ p.stringEqualsFilters, a.stringArgs.load f.stringArg = some f.value) ∧
      (∀ f ∈ p.tagPresentFilters, f.tag ∈ a.tags)) ↔ Meets p a := by
  have hd : ∀ k v, a.doubleArgs.load k = some v ↔ (k, v) ∈ a.doubleArgs :=
    fun k v => ⟨GoMap.mem_of_load, GoMap.load_of_mem hwf.1⟩
  have hs : ∀ k v, a.stringArgs.load k = some v ↔ (k, v) ∈ a.stringArgs :=
    fun k v => ⟨GoMap.mem_of_load, GoMap.load_of_mem hwf.2⟩
  simp only [Meets, hd, hs, doubleRejects_eq_false]

/-- **C01.** Without a creation-time filter, `In` answers, and answers true exactly
when every filter is satisfied in the numeric/bytewise sense of the specification. -/
theorem C01_membership_is_conjunction (p : Pool) (t : Ticket) (a : FilterableData)
    (ht : t.attributes = some a) (hwf : WFAttrs a) (hno : p.creationTimeRangeFilter = none) :
    (In (some p) (some t) = some true ↔ Meets p a) ∧
    (In (some p) (some t) = some false ↔ ¬ Meets p a) := by
  obtain ⟨b, hb, hiff⟩ := In_some p t a ht
  have h0 : timeRejects (some p) (some a) = false := by simp [timeRejects, hno]
  rw [sections_iff_Meets p a hwf] at hiff
  simp only [h0, true_and] at hiff
  rw [hb]
  cases b <;> simp_all

example : sampleTicket.attributes = some sampleAttrs ∧ WFAttrs sampleAttrs ∧
    samplePool.creationTimeRangeFilter = none ∧ In (some samplePool) (some sampleTicket) = some true := by
  refine ⟨rfl, ⟨by decide, by decide⟩, rfl, by decide⟩

/-- C01, the NaN clause: a NaN argument, or a NaN bound, never passes a range filter
with one of the defined bounds values. -/
theorem C01_nan_never_matches (p : Pool) (t : Ticket) (a : FilterableData)
    (ht : t.attributes = some a) (hwf : WFAttrs a)
    (f : DoubleRangeFilter) (hf : f ∈ p.doubleRangeFilters) (hk : KnownBounds f.bounds)
    (hn : num f.minimum = none ∨ num f.maximum = none ∨
      ∀ v, (f.doubleArg, v) ∈ a.doubleArgs → num v = none) :
    In (some p) (some t) = some false := by
  obtain ⟨b, hb, hiff⟩ := In_some p t a ht
  rw [sections_iff_Meets p a hwf] at hiff
  rw [hb]
  cases b with
  | false => rfl
  | true =>
    exfalso
    obtain ⟨_, hm, -, -⟩ := hiff.1 rfl
    obtain ⟨v, hv, hr⟩ := hm f hf
    obtain ⟨h1, h2⟩ := hr hk
    have hle : (num f.minimum).isSome ∧ (num v).isSome := by
      split at h1
      · obtain ⟨x, y, hx, hy, -⟩ := h1; simp [hx, hy]
      · obtain ⟨x, y, hx, hy, -⟩ := h1; simp [hx, hy]
    have hle2 : (num f.maximum).isSome := by
      split at h2
      · obtain ⟨x, y, hx, hy, -⟩ := h2; simp [hy]
      · obtain ⟨x, y, hx, hy, -⟩ := h2; simp [hy]
    rcases hn with h | h | h
    · simp [h] at hle
    · simp [h] at hle2
    · simp [h v hv] at hle

example : num fNaN = none ∧ num 0x0010000000000003#64 = some (.fin (2 ^ 52 + 3)) ∧ num fNegZero = some (.fin 0) := by
  decide

/-! ## C02 -/

/-- **C02 is false of the code**: the documented creation-time semantics does not
hold; a ticket created inside the range is not admitted. -/
theorem C02_creation_time_refuted :
    ¬ ∀ (p : Pool) (t : Ticket) (a : FilterableData) (b : Int) (s e c : Timestamp),
        t.attributes = some a → WFAttrs a → a.creationTime = some c →
        p.creationTimeRangeFilter = some ⟨some s, some e, b⟩ → KnownBounds b →
        Legal s → Legal e → Legal c → Meets p a →
        (In (some p) (some t) = some true ↔ CreatedWithin b s e c) := by
  intro h
  have := h (timedPool (some ⟨1600000000, 0⟩) (some ⟨1800000000, 0⟩) 0)
    sampleTicket sampleAttrs 0 ⟨1600000000, 0⟩ ⟨1800000000, 0⟩ ⟨1700000000, 5⟩ rfl
    ⟨by decide, by decide⟩ rfl rfl (Or.inl rfl) (by unfold Legal; decide) (by unfold Legal; decide)
    (by unfold Legal; decide)
    (((C01_membership_is_conjunction samplePool sampleTicket sampleAttrs rfl
      ⟨by decide, by decide⟩ rfl).1).1 (by decide))
  have hin : In (some (timedPool (some ⟨1600000000, 0⟩) (some ⟨1800000000, 0⟩) 0))
      (some sampleTicket) = some false := by decide
  rw [hin] at this
  have hc : CreatedWithin 0 ⟨1600000000, 0⟩ ⟨1800000000, 0⟩ ⟨1700000000, 5⟩ := by
    unfold CreatedWithin instant; decide
  exact absurd (this.2 hc) (by decide)

/-- **C02, what the code does** (partial: the full statement would have
`CreatedWithin f.bounds s e c` in place of the last two conjuncts).  A ticket passes
the creation-time filter exactly when it was created strictly before the start and
strictly after the end; the bounds value is irrelevant. -/
theorem C02_creation_time_partial (p : Pool) (t : Ticket) (a : FilterableData)
    (b : Int) (s e c : Timestamp)
    (ht : t.attributes = some a) (hwf : WFAttrs a) (hc : a.creationTime = some c)
    (hf : p.creationTimeRangeFilter = some ⟨some s, some e, b⟩) :
    In (some p) (some t) = some true ↔
      Meets p a ∧ instant c < instant s ∧ instant e < instant c := by
  obtain ⟨v, hv, hiff⟩ := In_some p t a ht
  rw [sections_iff_Meets p a hwf] at hiff
  have htime : timeRejects (some p) (some a) = false ↔ instant c < instant s ∧ instant e < instant c := by
    simp only [timeRejects, Option.bind_some, hf, hc, asTime, instant, nsPerSec]
    split
    · simp; omega
    · split
      · simp; omega
      · split
        · simp; omega
        · split
          · simp; omega
          · simp; omega
  rw [hv, Option.some_inj, hiff, htime]
  exact and_comm

/-- Consequence of C02's violation: a creation-time filter whose start is not after
its end (every sensible filter) excludes every ticket. -/
theorem C02_sensible_filter_excludes_all (p : Pool) (t : Ticket) (a : FilterableData)
    (b : Int) (s e c : Timestamp)
    (ht : t.attributes = some a) (hwf : WFAttrs a) (hc : a.creationTime = some c)
    (hf : p.creationTimeRangeFilter = some ⟨some s, some e, b⟩) (hse : instant s ≤ instant e) :
    In (some p) (some t) = some false := by
  have h := C02_creation_time_partial p t a b s e c ht hwf hc hf
  obtain ⟨v, hv, -⟩ := In_some p t a ht
  rw [hv] at h ⊢
  cases v with
  | false => rfl
  | true => have := (h.1 rfl).2; omega

/-- The inverted filter does admit tickets (so the two theorems above are not
vacuous): start in 2030, end in 2020, created in 2023. -/
example : In (some (timedPool (some ⟨1893456000, 0⟩) (some ⟨1577836800, 0⟩) 3)) (some sampleTicket) = some true := by decide

/-- C02, bounds left out: they count as 1970, so a filter with only a start admits those created since 1970 and *before* the
start, and one with only an end admits those created before 1970 and after the end.  (Partial: a bound that is left out should
not restrict anything.) -/
theorem C02_open_bound_partial (p : Pool) (t : Ticket) (a : FilterableData) (b : Int) (x c : Timestamp)
    (ht : t.attributes = some a) (hwf : WFAttrs a) (hc : a.creationTime = some c) :
    (p.creationTimeRangeFilter = some ⟨some x, none, b⟩ →
      (In (some p) (some t) = some true ↔ Meets p a ∧ 0 < instant c ∧ instant c < instant x)) ∧
    (p.creationTimeRangeFilter = some ⟨none, some x, b⟩ →
      (In (some p) (some t) = some true ↔ Meets p a ∧ instant c < 0 ∧ instant x < instant c)) ∧
    (p.creationTimeRangeFilter = some ⟨none, none, b⟩ → In (some p) (some t) = some false) := by
  obtain ⟨v, hv, hiff⟩ := In_some p t a ht
  rw [sections_iff_Meets p a hwf] at hiff
  refine ⟨fun hf => ?_, fun hf => ?_, fun hf => ?_⟩
  · have htime : timeRejects (some p) (some a) = false ↔ 0 < instant c ∧ instant c < instant x := by
      simp only [timeRejects, Option.bind_some, hf, hc, asTime, instant, nsPerSec]
      split
      · simp; omega
      · split
        · simp; omega
        · split
          · simp; omega
          · split
            · simp; omega
            · simp; omega
    rw [hv, Option.some_inj, hiff, htime]
    exact and_comm
  · have htime : timeRejects (some p) (some a) = false ↔ instant c < 0 ∧ instant x < instant c := by
      simp only [timeRejects, Option.bind_some, hf, hc, asTime, instant, nsPerSec]
      split
      · simp; omega
      · split
        · simp; omega
        · split
          · simp; omega
          · split
            · simp; omega
            · simp; omega
    rw [hv, Option.some_inj, hiff, htime]
    exact and_comm
  · have htime : timeRejects (some p) (some a) = true := by
      simp only [timeRejects, Option.bind_some, hf, hc, asTime, nsPerSec]
      split
      · rfl
      · split
        · rfl
        · omega
    rw [hv]
    cases v with
    | false => rfl
    | true => simp [htime] at hiff

/-- C02 for filters with one bound, **false of the code**: a ticket created after the start is not admitted by a filter that
has only that start. -/
theorem C02_open_bound_refuted :
    ¬ ∀ (p : Pool) (t : Ticket) (a : FilterableData) (b : Int) (s c : Timestamp),
        t.attributes = some a → WFAttrs a → a.creationTime = some c → p.creationTimeRangeFilter = some ⟨some s, none, b⟩ →
        Legal s → Legal c → Meets p a → instant s < instant c → In (some p) (some t) = some true := by
  intro h
  have := h (timedPool (some ⟨1600000000, 0⟩) none 0) sampleTicket sampleAttrs 0 ⟨1600000000, 0⟩ ⟨1700000000, 5⟩ rfl
    ⟨by decide, by decide⟩ rfl rfl (by unfold Legal; decide) (by unfold Legal; decide)
    (((C01_membership_is_conjunction samplePool sampleTicket sampleAttrs rfl ⟨by decide, by decide⟩ rfl).1).1 (by decide))
    (by unfold instant; decide)
  exact absurd this (by decide)

/-- A filter with only a start, in 2030, admits a ticket created in 2023; with only an end it does not. -/
example : In (some (timedPool (some ⟨1893456000, 0⟩) none 0)) (some sampleTicket) = some true ∧
    In (some (timedPool none (some ⟨1893456000, 0⟩) 0)) (some sampleTicket) = some false := by decide

/-! ## C03 -/

/-- **C03** (evaluation part): a ticket that has attributes is evaluated against any
pool without a panic.  That accepted tickets have attributes, through marshalling,
replication and the cache, is `C03_cached_tickets_never_panic` in `Props/EndToEnd`. -/
theorem C03_filtering_never_panics (p : Pool) (t : Ticket) (ha : t.attributes.isSome) :
    (In (some p) (some t)).isSome := by
  obtain ⟨a, ha⟩ := Option.isSome_iff_exists.1 ha
  obtain ⟨b, hb, -⟩ := In_some p t a ha
  simp [hb]

/-- The hypothesis is needed: the code panics on a ticket without attributes. -/
example : In (some samplePool) (some { sampleTicket with attributes := none }) = none := by decide

/-! ## C04 -/

/-- `q` has all the filters of `p` (and the same creation-time filter). -/
def MoreFilters (p q : Pool) : Prop :=
  (∀ f ∈ p.doubleRangeFilters, f ∈ q.doubleRangeFilters) ∧
  (∀ f ∈ p.stringEqualsFilters, f ∈ q.stringEqualsFilters) ∧
  (∀ f ∈ p.tagPresentFilters, f ∈ q.tagPresentFilters) ∧
  (p.creationTimeRangeFilter = none ∨ p.creationTimeRangeFilter = q.creationTimeRangeFilter)

/-- **C04 (narrowing).** A pool with more filters contains no additional ticket. -/
theorem C04_filters_narrow (p q : Pool) (t : Ticket) (ha : t.attributes.isSome)
    (h : MoreFilters p q) (hq : In (some q) (some t) = some true) :
    In (some p) (some t) = some true := by
  obtain ⟨a, ha⟩ := Option.isSome_iff_exists.1 ha
  obtain ⟨bp, hp, hpi⟩ := In_some p t a ha
  obtain ⟨bq, hq', hqi⟩ := In_some q t a ha
  rw [hq'] at hq
  obtain ⟨h0, h1, h2, h3⟩ := hqi.1 (Option.some_inj.1 hq)
  obtain ⟨g1, g2, g3, g4⟩ := h
  rw [hp, Option.some_inj, hpi]
  refine ⟨?_, fun f hf => h1 f (g1 f hf), fun f hf => h2 f (g2 f hf), fun f hf => h3 f (g3 f hf)⟩
  rcases g4 with g4 | g4
  · simp [timeRejects, g4]
  · simpa [timeRejects, g4] using h0

example : MoreFilters { samplePool with doubleRangeFilters := [] } samplePool := by
  refine ⟨by simp, fun _ h => h, fun _ h => h, Or.inl rfl⟩

private theorem doubleLoop_none (fs : List DoubleRangeFilter) :
    doubleLoop none fs = if fs = [] then some true else none := by
  cases fs <;> simp [doubleLoop, Go.panic]

private theorem stringLoop_none (fs : List StringEqualsFilter) :
    stringLoop none fs = if fs = [] then some true else none := by
  cases fs <;> simp [stringLoop, Go.panic]

/-- **C04 (order and repetition of filters).** Pools with the same sets of filters
give the same answer (even the same panic) on every ticket. -/
theorem C04_filter_order_irrelevant (p q : Pool) (t : Ticket)
    (h1 : ∀ f, f ∈ p.doubleRangeFilters ↔ f ∈ q.doubleRangeFilters)
    (h2 : ∀ f, f ∈ p.stringEqualsFilters ↔ f ∈ q.stringEqualsFilters)
    (h3 : ∀ f, f ∈ p.tagPresentFilters ↔ f ∈ q.tagPresentFilters)
    (h4 : p.creationTimeRangeFilter = q.creationTimeRangeFilter) :
    In (some p) (some t) = In (some q) (some t) := by
  cases ha : t.attributes with
  | some a =>
    obtain ⟨bp, hp, hpi⟩ := In_some p t a ha
    obtain ⟨bq, hq, hqi⟩ := In_some q t a ha
    rw [hp, hq, Option.some_inj, Bool.eq_iff_iff, hpi, hqi]
    simp only [h1, h2, h3, timeRejects, Option.bind_some, h4]
  | none =>
    have e1 : (p.doubleRangeFilters = []) ↔ (q.doubleRangeFilters = []) := by
      simp only [List.eq_nil_iff_forall_not_mem, h1]
    have e2 : (p.stringEqualsFilters = []) ↔ (q.stringEqualsFilters = []) := by
      simp only [List.eq_nil_iff_forall_not_mem, h2]
    have e3 : tagLoop [] p.tagPresentFilters = tagLoop [] q.tagPresentFilters := by
      rw [Bool.eq_iff_iff, tagLoop_iff, tagLoop_iff]; simp only [h3]
    simp only [In, ha, Option.bind_some, timeRejects, h4, doubleLoop_none, stringLoop_none, e1, e2,
      Option.map_none, Option.getD_none, e3]

example : let p := { samplePool with tagPresentFilters := [⟨"vip".toList⟩, ⟨"beta".toList⟩, ⟨"vip".toList⟩] }
    let q := { samplePool with tagPresentFilters := [⟨"beta".toList⟩, ⟨"vip".toList⟩] }
    (∀ f, f ∈ p.tagPresentFilters ↔ f ∈ q.tagPresentFilters) ∧ In (some p) (some sampleTicket) = some true := by
  refine ⟨?_, by decide⟩
  intro f; simp; tauto

/-- **C04 (order of the ticket's data).** Membership depends only on which tags and
arguments the ticket has, not on their order. -/
theorem C04_ticket_data_order_irrelevant (p : Pool) (t u : Ticket) (a b : FilterableData)
    (ht : t.attributes = some a) (hu : u.attributes = some b)
    (wa : WFAttrs a) (wb : WFAttrs b)
    (h1 : ∀ x, x ∈ a.tags ↔ x ∈ b.tags)
    (h2 : ∀ x, x ∈ a.stringArgs ↔ x ∈ b.stringArgs)
    (h3 : ∀ x, x ∈ a.doubleArgs ↔ x ∈ b.doubleArgs)
    (h4 : a.creationTime = b.creationTime) :
    In (some p) (some t) = In (some p) (some u) := by
  obtain ⟨bp, hp, hpi⟩ := In_some p t a ht
  obtain ⟨bq, hq, hqi⟩ := In_some p u b hu
  rw [sections_iff_Meets p a wa] at hpi
  rw [sections_iff_Meets p b wb] at hqi
  rw [hp, hq, Option.some_inj, Bool.eq_iff_iff, hpi, hqi]
  simp only [Meets, h1, h2, h3, timeRejects, Option.bind_some, h4]

example : let b := { sampleAttrs with tags := ["vip".toList, "beta".toList],
                                      doubleArgs := [("bad".toList, fNaN), ("mmr".toList, f5)] }
    WFAttrs b ∧ (∀ x, x ∈ sampleAttrs.tags ↔ x ∈ b.tags) ∧
      (∀ x, x ∈ sampleAttrs.doubleArgs ↔ x ∈ b.doubleArgs) := by
  refine ⟨⟨by decide, by decide⟩, ?_, ?_⟩ <;> intro x <;> simp [sampleAttrs] <;> tauto

/-! ## C05 -/

/-- **C05 (validation).** A pool is refused exactly when its creation-time filter has
a start or end that is present and not a legal timestamp. -/
theorem C05_validation_exact (p : Pool) :
    (validatePoolFilters (some p)).isSome ↔
      ∃ f, p.creationTimeRangeFilter = some f ∧
        ((∃ s, f.start = some s ∧ ¬ Legal s) ∨ (∃ e, f.stop = some e ∧ ¬ Legal e)) := by
  have hv : ∀ t : Timestamp, Timestamp.isValid (some t) = false ↔ ¬ Legal t := by
    intro t
    unfold Timestamp.isValid Legal minTimestampSec maxTimestampSec nsPerSec
    rw [decide_eq_false_iff_not]; constructor <;> intro h h' <;> apply h <;> omega
  unfold validatePoolFilters
  cases hc : p.creationTimeRangeFilter with
  | none => simp [hc]
  | some f =>
    obtain ⟨s, e, b⟩ := f
    simp only [Option.bind_some, hc, Option.some.injEq, exists_eq_left']
    cases s <;> cases e <;> simp [hv]
    · rename_i s e
      have hs := hv s
      have he := hv e
      by_cases h1 : Legal s <;> by_cases h2 : Legal e <;> simp_all

/-- **C05 (the reason).** The error of a refused pool, which is logged, says which of the two is malformed: the start, or the end
if only that is. -/
theorem C05_reason (p : Pool) (f : CreationTimeRangeFilter) (hf : p.creationTimeRangeFilter = some f) :
    (validatePoolFilters (some p) = some ".invalid creation time filter start value" ↔ ∃ s, f.start = some s ∧ ¬ Legal s) ∧
    (validatePoolFilters (some p) = some ".invalid creation time filter end value" ↔
      (∀ s, f.start = some s → Legal s) ∧ ∃ e, f.stop = some e ∧ ¬ Legal e) := by
  have hv : ∀ t : Timestamp, Timestamp.isValid (some t) = false ↔ ¬ Legal t := by
    intro t
    unfold Timestamp.isValid Legal minTimestampSec maxTimestampSec nsPerSec
    rw [decide_eq_false_iff_not]; constructor <;> intro h h' <;> apply h <;> omega
  unfold validatePoolFilters
  obtain ⟨s, e, b⟩ := f
  simp only [Option.bind_some, hf]
  have hne : ".invalid creation time filter start value" ≠ ".invalid creation time filter end value" := by decide
  cases s with
  | none =>
    cases e with
    | none => simp
    | some e => by_cases h2 : Timestamp.isValid (some e) = false <;> have := hv e <;> simp_all
  | some s =>
    by_cases h1 : Timestamp.isValid (some s) = false
    · have := hv s; simp_all
    · cases e with
      | none => have := hv s; simp_all
      | some e => by_cases h2 : Timestamp.isValid (some e) = false <;> have := hv e <;> have := hv s <;> simp_all

example : validatePoolFilters (some (timedPool (some ⟨0, -1⟩) none 0)) = some ".invalid creation time filter start value" ∧
    validatePoolFilters (some (timedPool (some ⟨0, 0⟩) none 0)) = none := by decide

end OM.Props
