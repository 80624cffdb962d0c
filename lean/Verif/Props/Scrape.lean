import Verif.Spec.Scrape
import Verif.Lemmas.Go
import Batteries.Data.List.Perm
/-!
# C123, C124: scrapes of the metrics
-/
namespace OM.Props
open OM.Scrape

/-! ## C123: which cycle a scrape is about -/

namespace Scrape

theorem after_prefix (cs : List Counts) : ∀ (g : Counts) (p : Nat), p ≤ 3 * cs.length →
    let r := ((cs.flatMap cycleWrites).take p).foldl Write.apply g
    r.assignmentCount = ((g :: cs).getD ((p + 2) / 3) zero).assignmentCount ∧
    r.ticketCount = ((g :: cs).getD ((p + 1) / 3) zero).ticketCount ∧
    r.inactiveCount = ((g :: cs).getD (p / 3) zero).inactiveCount := by
  induction cs with
  | nil =>
    intro g p hp
    have : p = 0 := by simpa using hp
    subst this
    exact ⟨rfl, rfl, rfl⟩
  | cons c cs ih =>
    intro g p hp
    match p with
    | 0 => exact ⟨rfl, rfl, rfl⟩
    | 1 => exact ⟨rfl, rfl, rfl⟩
    | 2 => exact ⟨rfl, rfl, rfl⟩
    | p + 3 =>
      have h := ih c p (by simp only [List.length_cons] at hp; omega)
      have e1 : (p + 3 + 2) / 3 = (p + 2) / 3 + 1 := by omega
      have e2 : (p + 3 + 1) / 3 = (p + 1) / 3 + 1 := by omega
      have e3 : (p + 3) / 3 = p / 3 + 1 := by omega
      simp only [e1, e2, e3, List.getD_cons_succ]
      exact h

theorem length_writes (cs : List Counts) : (cs.flatMap cycleWrites).length = 3 * cs.length := by
  induction cs with
  | nil => rfl
  | cons c cs ih => rw [List.flatMap_cons, List.length_append, ih, List.length_cons]; simp only [cycleWrites, List.length_cons, List.length_nil]; omega

theorem after_eq {cs : List Counts} {w : List Write} (h : w <+: cs.flatMap cycleWrites) :
    w.length ≤ 3 * cs.length ∧
    (after w).assignmentCount = ((zero :: cs).getD ((w.length + 2) / 3) zero).assignmentCount ∧
    (after w).ticketCount = ((zero :: cs).getD ((w.length + 1) / 3) zero).ticketCount ∧
    (after w).inactiveCount = ((zero :: cs).getD (w.length / 3) zero).inactiveCount := by
  have hl : w.length ≤ 3 * cs.length := by rw [← length_writes]; exact h.length_le
  have := after_prefix cs zero w.length hl
  rw [← List.prefix_iff_eq_take.1 h] at this
  exact ⟨hl, this⟩

end Scrape

open Scrape in
/-- **C123, what holds.**  Every number is one that a finished cycle counted (or zero, before the first one), never
one of a count that is under way; what is subtracted is at most one cycle older than what it is subtracted from,
the inactive tickets are of the cycle that was subtracted or a later one, and the assignments of that one or a
later one. -/
theorem C123_one_cycle_partial (cs : List Counts) (w1 w2 w3 w4 : List Write)
    (h : w1 ++ w2 ++ w3 ++ w4 <+: cs.flatMap cycleWrites) :
    ∃ t i j a : Nat, t ≤ i + 1 ∧ i ≤ j ∧ j ≤ a ∧ t ≤ a ∧ a ≤ cs.length ∧
      (scrape w1 w2 w3 w4).active =
        (((zero :: cs).getD t zero).ticketCount : Int) - ((zero :: cs).getD i zero).inactiveCount ∧
      (scrape w1 w2 w3 w4).inactive = ((zero :: cs).getD j zero).inactiveCount ∧
      (scrape w1 w2 w3 w4).assignments = ((zero :: cs).getD a zero).assignmentCount := by
  have h3 : w1 ++ w2 ++ w3 <+: cs.flatMap cycleWrites := (List.prefix_append _ _).trans h
  have h2 : w1 ++ w2 <+: cs.flatMap cycleWrites := (List.prefix_append _ _).trans h3
  have h1 : w1 <+: cs.flatMap cycleWrites := (List.prefix_append _ _).trans h2
  obtain ⟨l1, -, t1, -⟩ := after_eq h1
  obtain ⟨l2, -, -, i2⟩ := after_eq h2
  obtain ⟨l3, -, -, i3⟩ := after_eq h3
  obtain ⟨l4, a4, -, -⟩ := after_eq h
  refine ⟨(w1.length + 1) / 3, (w1 ++ w2).length / 3, (w1 ++ w2 ++ w3).length / 3, ((w1 ++ w2 ++ w3 ++ w4).length + 2) / 3,
    ?_, ?_, ?_, ?_, ?_, by simp only [scrape, t1, i2], by simp only [scrape, i3], by simp only [scrape, a4]⟩
  all_goals simp only [List.length_append] at *; omega

/-- A scrape that no cycle ends during shows the last finished cycle, all of it. -/
theorem C123_quiet_scrape (cs : List Counts) (c : Counts) :
    Spec.SampleOf c (scrape ((cs ++ [c]).flatMap cycleWrites) [] [] []) := by
  have h := Scrape.after_eq (cs := cs ++ [c]) (w := (cs ++ [c]).flatMap cycleWrites) (List.prefix_refl _)
  have hl := Scrape.length_writes (cs ++ [c])
  obtain ⟨-, h⟩ := h
  rw [hl] at h
  have e1 : (3 * (cs ++ [c]).length + 2) / 3 = cs.length + 1 := by simp only [List.length_append, List.length_cons, List.length_nil]; omega
  have e2 : (3 * (cs ++ [c]).length + 1) / 3 = cs.length + 1 := by simp only [List.length_append, List.length_cons, List.length_nil]; omega
  have e3 : 3 * (cs ++ [c]).length / 3 = cs.length + 1 := by simp only [List.length_append, List.length_cons, List.length_nil]; omega
  rw [e1, e2, e3] at h
  have hg : (zero :: (cs ++ [c])).getD (cs.length + 1) zero = c := by simp
  rw [hg] at h
  obtain ⟨ha, ht, hi⟩ := h
  refine ⟨?_, ?_, ?_⟩ <;> simp only [scrape, List.append_nil, ha, ht, hi, activeGauge]

/-- The whole of what the comment at replicatedticketcache.go:276-280 promises: a scrape shows one cycle. -/
def C123_one_cycle_statement : Prop :=
  ∀ (cfg : Config) (cs : List Counts), Spec.Tallies cfg cs → ∀ w1 w2 w3 w4 : List Write,
    w1 ++ w2 ++ w3 ++ w4 <+: cs.flatMap cycleWrites → ∃ c ∈ zero :: cs, Spec.SampleOf c (scrape w1 w2 w3 w4)

/-- One ticket, active; then a second one, and both of them inactive. -/
def beforeCache : Cache := ⟨[("1-0".toList, default)], [], []⟩
def laterCache : Cache := ⟨[("1-0".toList, default), ("2-0".toList, default)], [("1-0".toList, ()), ("2-0".toList, ())], []⟩
def beforeCycle : Cycle := ⟨[], ["1-0".toList], [], fun _ => 3, fun _ => 3, fun _ => 3⟩
def laterCycle : Cycle := ⟨["1-0".toList, "2-0".toList], ["1-0".toList, "2-0".toList], [], fun _ => 4, fun _ => 4, fun _ => 4⟩

theorem beforeCycle_visits : beforeCycle.Visits Config.default beforeCache ∧ cycleCounts Config.default beforeCycle beforeCache = ⟨0, 1, 0⟩ := by
  refine ⟨⟨?_, ?_, ?_⟩, ?_⟩ <;> decide +kernel

theorem laterCycle_visits : laterCycle.Visits Config.default laterCache ∧ cycleCounts Config.default laterCycle laterCache = ⟨0, 2, 2⟩ := by
  refine ⟨⟨?_, ?_, ?_⟩, ?_⟩ <;> decide +kernel

theorem sample_tallies : Spec.Tallies Config.default [⟨0, 1, 0⟩, ⟨0, 2, 2⟩] := by
  intro n hn
  rcases List.mem_cons.1 hn with rfl | hn
  · exact ⟨_, _, beforeCycle_visits.1, beforeCycle_visits.2.symm⟩
  · rcases List.mem_singleton.1 hn with rfl
    exact ⟨_, _, laterCycle_visits.1, laterCycle_visits.2.symm⟩

/-- **C123 as stated is false**: a cycle that ends between the two reads of cache/metrics.go:98 gives a number of
active tickets that no cycle counted.  (Here −1: never less than zero in any cycle of C62.) -/
theorem C123_one_cycle_refuted : ¬ C123_one_cycle_statement := by
  intro h
  obtain ⟨c, hc, hs⟩ := h _ _ sample_tallies (cycleWrites ⟨0, 1, 0⟩) (cycleWrites ⟨0, 2, 2⟩) [] [] (List.prefix_refl _)
  have ha := hs.1
  have : (scrape (cycleWrites ⟨0, 1, 0⟩) (cycleWrites ⟨0, 2, 2⟩) [] []).active = -1 := by decide
  rw [this] at ha
  simp only [List.mem_cons, List.not_mem_nil, or_false] at hc
  rcases hc with rfl | rfl | rfl <;> exact absurd ha (by decide)

/-- The same with the scrape in the middle of a cycle's three writes: the tickets of one cycle, the inactive ones of
the one before. -/
example : (scrape ((cycleWrites ⟨0, 1, 0⟩) ++ [.assignments 0, .tickets 2]) [] [] []).active = 2 ∧
    (scrape ((cycleWrites ⟨0, 1, 0⟩) ++ [.assignments 0, .tickets 2]) [] [] [.inactive 2]).inactive = 0 := by decide

/-- The hypotheses of the partial theorem hold of both. -/
example : cycleWrites ⟨0, 1, 0⟩ ++ cycleWrites ⟨0, 2, 2⟩ ++ [] ++ [] <+: [⟨0, 1, 0⟩, ⟨0, 2, 2⟩].flatMap cycleWrites := List.prefix_refl _

/-! ## C124: how many time series there can be -/

namespace Scrape

theorem nodup_eraseDups {α : Type} [BEq α] [LawfulBEq α] : ∀ (n : Nat) (l : List α), l.length ≤ n → l.eraseDups.Nodup
  | _, [], _ => by rw [List.eraseDups_nil]; exact List.nodup_nil
  | n + 1, a :: l, h => by
    rw [List.eraseDups_cons, List.nodup_cons]
    refine ⟨?_, nodup_eraseDups n _ ?_⟩
    · rw [List.mem_eraseDups, List.mem_filter]
      rintro ⟨-, h⟩
      simp at h
    · exact Nat.le_trans (List.length_filter_le _ _) (by simpa using h)

theorem length_le {α : Type} [DecidableEq α] {l m : List α} (hn : l.Nodup) (hs : l ⊆ m) : l.length ≤ m.length :=
  (List.subperm_of_subset hn hs).length_le

theorem series_nodup (ms : List Log.Metric) : (series ms).Nodup := nodup_eraseDups _ _ (Nat.le_refl _)

theorem mem_series {ms : List Log.Metric} {x} : x ∈ series ms ↔ ∃ m ∈ ms, attributes m = x := by
  rw [series, List.mem_eraseDups, List.mem_map]

theorem metrics_eq (c : Call) : c.metrics =
    .duration (Log.base c.method) (Log.micros c.beginNs c.endNs) :: (c.err.map fun e => Log.Metric.error (Log.base c.method) (errorText e)).toList := by
  unfold Call.metrics Log.handleRPC
  cases c.err <;> rfl

theorem length_flatMap_const {α β : Type} (f : α → List β) (k : Nat) (l : List α) (h : ∀ a, (f a).length = k) :
    (l.flatMap f).length = l.length * k := by
  induction l with
  | nil => simp
  | cons a l ih => rw [List.flatMap_cons, List.length_append, h, ih, List.length_cons, Nat.succ_mul, Nat.add_comm]

end Scrape

/-- core/pkg/pb/v2/api_grpc.pb.go:43-48: the methods that om-core serves; gRPC answers any other one without
calling the statistics. -/
def served : List Str :=
  ["/open_match.v2.OpenMatchService/CreateTicket", "/open_match.v2.OpenMatchService/DeactivateTickets",
    "/open_match.v2.OpenMatchService/ActivateTickets", "/open_match.v2.OpenMatchService/InvokeMatchmakingFunctions",
    "/open_match.v2.OpenMatchService/CreateAssignments", "/open_match.v2.OpenMatchService/WatchAssignments"].map String.toList

/-- **C124, what holds.**  Whatever calls were made, however many: the number of time series is at most the number of
methods times one more than the number of different texts of errors. -/
theorem C124_series_partial (calls : List Call) (texts : List Str) (hm : ∀ c ∈ calls, c.method ∈ served)
    (ht : ∀ c ∈ calls, ∀ e, c.err = some e → errorText e ∈ texts) :
    (series (calls.flatMap Call.metrics)).length ≤ 6 * (texts.length + 1) := by
  have key := Scrape.length_le (Scrape.series_nodup (calls.flatMap Call.metrics))
    (m := served.flatMap fun r => (false, Log.base r, []) :: texts.map fun t => (true, Log.base r, t)) ?_
  · rwa [Scrape.length_flatMap_const _ (texts.length + 1) _ (fun a => by simp), show served.length = 6 from rfl] at key
  · intro x hx
    obtain ⟨m, hm', rfl⟩ := Scrape.mem_series.1 hx
    obtain ⟨c, hc, hmc⟩ := List.mem_flatMap.1 hm'
    rw [Scrape.metrics_eq] at hmc
    refine List.mem_flatMap.2 ⟨c.method, hm c hc, ?_⟩
    rcases List.mem_cons.1 hmc with rfl | hmc
    · exact List.mem_cons_self
    · rw [Option.mem_toList, Option.map_eq_some_iff] at hmc
      obtain ⟨e, he, rfl⟩ := hmc
      exact List.mem_cons_of_mem _ (List.mem_map.2 ⟨_, ht c hc e he, rfl⟩)

/-- Calls that succeed give no more than six, for ever. -/
theorem C124_successes (calls : List Call) (hm : ∀ c ∈ calls, c.method ∈ served) (ht : ∀ c ∈ calls, c.err = none) :
    (series (calls.flatMap Call.metrics)).length ≤ 6 :=
  C124_series_partial calls [] hm fun c hc e he => by rw [ht c hc] at he; cases he

def activateMethod : Str := "/open_match.v2.OpenMatchService/ActivateTickets".toList

/-- What `ActivateTickets` answers to `n` empty ids. -/
def activateEmpty (cfg : Config) (n : Nat) : Call :=
  { method := activateMethod, beginNs := 0, endNs := 1000
    err := match activeStateQueue cfg .activate (List.replicate n []) with
      | .error e => some e
      | .ok _ => none }

theorem activateEmpty_err (cfg : Config) (n : Nat) (h : cfg.maxUpdates.toNat < n) :
    (activateEmpty cfg n).err = some ⟨.invalidArgument, tooMany cfg .activate n, []⟩ := by
  have hl : (List.replicate n ([] : Str)).length = n := List.length_replicate
  simp only [activateEmpty, activeStateQueue, hl]
  rw [if_neg (by omega), if_pos (by omega)]

theorem Scrape.assoc (a b c d e f g h n r : Str) : a ++ b ++ c ++ (d ++ e ++ f ++ g ++ h ++ n ++ r) = (a ++ b ++ c ++ (d ++ e ++ f ++ g ++ h)) ++ (n ++ r) := by
  simp only [List.append_assoc]

theorem tooMany_text (cfg : Config) : ∃ p q : Str, ∀ n, errorText ⟨.invalidArgument, tooMany cfg .activate n, []⟩ = p ++ (fmtNat n ++ q) :=
  Exists.intro _ (Exists.intro _ fun n => Scrape.assoc "rpc error: code = ".toList (codeName .invalidArgument) " desc = ".toList "Too many ticket ".toList
    "activations".toList " requested in a single call (configured maximum ".toList (fmtInt cfg.maxUpdates) ", requested ".toList (fmtNat n) ")".toList)

/-- **Clients choose how many**: requests that are refused for being too large each make a time series of their own,
one for every size.  An empty id takes two bytes on the wire, and gRPC takes requests of up to 4 MB. -/
theorem C124_series_grow (cfg : Config) (n : Nat) :
    n ≤ (series (((List.range n).map fun k => activateEmpty cfg (cfg.maxUpdates.toNat + 1 + k)).flatMap Call.metrics)).length := by
  obtain ⟨p, q, hpq⟩ := tooMany_text cfg
  have hn : ((List.range n).map fun k => (true, Log.base activateMethod, p ++ (fmtNat (cfg.maxUpdates.toNat + 1 + k) ++ q))).Nodup := by
    refine List.pairwise_map.2 (List.nodup_range.imp ?_)
    intro a b hab e
    have e := (Prod.mk.inj (Prod.mk.inj e).2).2
    have e := fmtNat_injective (List.append_cancel_right (List.append_cancel_left e))
    omega
  have := Scrape.length_le hn (m := series (((List.range n).map fun k => activateEmpty cfg (cfg.maxUpdates.toNat + 1 + k)).flatMap Call.metrics)) ?_
  · simpa only [List.length_map, List.length_range] using this
  · intro x hx
    obtain ⟨k, hk, rfl⟩ := List.mem_map.1 hx
    refine Scrape.mem_series.2 ⟨.error (Log.base activateMethod) (p ++ (fmtNat (cfg.maxUpdates.toNat + 1 + k) ++ q)), List.mem_flatMap.2
      ⟨_, List.mem_map.2 ⟨k, hk, rfl⟩, ?_⟩, rfl⟩
    rw [Scrape.metrics_eq, activateEmpty_err cfg _ (by omega)]
    refine List.mem_cons_of_mem _ ?_
    rw [Option.map_some, Option.toList_some, hpq]
    exact List.mem_singleton.2 rfl

/-- The whole of it: a number of time series that no client can exceed. -/
def C124_bounded_statement : Prop :=
  ∀ cfg : Config, ∃ B, ∀ calls : List Call, (∀ c ∈ calls, c.method ∈ served) →
    (∀ c ∈ calls, ∀ e, c.err = some e → ∃ cmd ids, activeStateQueue cfg cmd ids = .error e) →
    (series (calls.flatMap Call.metrics)).length ≤ B

/-- **C124 as stated is false.** -/
theorem C124_bounded_refuted : ¬ C124_bounded_statement := by
  intro h
  obtain ⟨B, h⟩ := h Config.default
  have hg := C124_series_grow Config.default (B + 1)
  refine absurd (Nat.le_trans hg (h _ ?_ ?_)) (by omega)
  · intro c hc
    obtain ⟨k, -, rfl⟩ := List.mem_map.1 hc
    show activateMethod ∈ served
    decide +kernel
  · intro c hc e he
    obtain ⟨k, -, rfl⟩ := List.mem_map.1 hc
    refine ⟨.activate, List.replicate (Config.default.maxUpdates.toNat + 1 + k) [], ?_⟩
    simp only [activateEmpty] at he
    split at he
    · rename_i e' h'
      cases he
      exact h'
    · cases he

end OM.Props
