import Verif.Model.Logging
import Verif.Spec.Config
import Verif.Lemmas.Go
/-!
# Properties C68, C77, C78: logging configuration and RPC statistics
-/
namespace OM.Props
open OM.Log

/-! ## C68 -/

/-- The documented table. -/
def levelTable : List (Str × Level) :=
  [("trace".toList, .trace), ("debug".toList, .debug), ("warn".toList, .warn), ("warning".toList, .warn),
    ("error".toList, .error), ("fatal".toList, .fatal), ("panic".toList, .panic), ("info".toList, .info)]

def formatTable : List (Str × Formatter) :=
  [("stackdriver".toList, .stackdriver), ("json".toList, .json), ("text".toList, .text)]

/-- **C68.** Whatever `ToLower` is: level and formatter depend on the lower-cased text
only; they are the ones in the table, and info and text for every text that is not in
it; and debug mode is on exactly for debug and trace. -/
theorem C68_levels_and_formats (lower : Str → Str) (s t : Str) :
    (lower s = lower t → toLevel lower s = toLevel lower t ∧ newFormatter lower s = newFormatter lower t) ∧
      (∀ e ∈ levelTable, lower s = e.1 → toLevel lower s = e.2) ∧
      (lower s ∉ levelTable.map (·.1) → toLevel lower s = .info) ∧
      (∀ e ∈ formatTable, lower s = e.1 → newFormatter lower s = e.2) ∧
      (lower s ∉ formatTable.map (·.1) → newFormatter lower s = .text) ∧
      (isDebugLevel (toLevel lower s) = true ↔ lower s = "debug".toList ∨ lower s = "trace".toList) := by
  refine ⟨fun h => ?_, fun e he hs => ?_, fun h => ?_, fun e he hs => ?_, fun h => ?_, ?_⟩
  · unfold toLevel newFormatter; rw [h]; exact ⟨rfl, rfl⟩
  · unfold toLevel
    dsimp only
    rw [hs]
    simp only [levelTable, List.mem_cons, List.not_mem_nil, or_false] at he
    rcases he with rfl | rfl | rfl | rfl | rfl | rfl | rfl | rfl <;> decide
  · simp only [levelTable, List.map_cons, List.map_nil, List.mem_cons, List.not_mem_nil, or_false, not_or] at h
    obtain ⟨h1, h2, h3, h4, h5, h6, h7, -⟩ := h
    unfold toLevel
    dsimp only
    rw [if_neg h1, if_neg h2, if_neg h3, if_neg h4, if_neg h5, if_neg h6, if_neg h7]
  · unfold newFormatter
    dsimp only
    rw [hs]
    simp only [formatTable, List.mem_cons, List.not_mem_nil, or_false] at he
    rcases he with rfl | rfl | rfl <;> decide
  · simp only [formatTable, List.map_cons, List.map_nil, List.mem_cons, List.not_mem_nil, or_false, not_or] at h
    unfold newFormatter
    dsimp only
    rw [if_neg h.1, if_neg h.2.1]
  · unfold toLevel
    dsimp only
    by_cases h1 : lower s = "trace".toList
    · rw [if_pos h1]; exact ⟨fun _ => .inr h1, fun _ => rfl⟩
    rw [if_neg h1]
    by_cases h2 : lower s = "debug".toList
    · rw [if_pos h2]; exact ⟨fun _ => .inl h2, fun _ => rfl⟩
    rw [if_neg h2]
    refine ⟨fun h => ?_, fun h => (h.elim h2 h1).elim⟩
    exfalso
    revert h
    split
    · simp [isDebugLevel]
    split
    · simp [isDebugLevel]
    split
    · simp [isDebugLevel]
    split
    · simp [isDebugLevel]
    split <;> simp [isDebugLevel]

example : toLevel lowerAscii "DeBug".toList = .debug ∧ newFormatter lowerAscii "JSON".toList = .json ∧
    toLevel lowerAscii "chatty".toList = .info := by decide +kernel

/-- **C68, from the environment.** `ConfigureLogging` uses the level and the format that
OM_LOGGING_LEVEL and OM_LOGGING_FORMAT say, by the tables, in any mixture of cases. -/
theorem C68_configured (env : GoMap Str) (f l : Str)
    (hf : Spec.SaysText env "OM_LOGGING_FORMAT".toList "json".toList f)
    (hl : Spec.SaysText env "OM_LOGGING_LEVEL".toList "info".toList l) :
    (∀ e ∈ formatTable, lowerAscii f = e.1 → (configureLogging lowerAscii upperAscii env).1 = e.2) ∧
      (lowerAscii f ∉ formatTable.map (·.1) → (configureLogging lowerAscii upperAscii env).1 = .text) ∧
      (∀ e ∈ levelTable, lowerAscii l = e.1 → (configureLogging lowerAscii upperAscii env).2.1 = e.2) ∧
      (lowerAscii l ∉ levelTable.map (·.1) → (configureLogging lowerAscii upperAscii env).2.1 = .info) ∧
      ((configureLogging lowerAscii upperAscii env).2.2 = true ↔
        lowerAscii l = "debug".toList ∨ lowerAscii l = "trace".toList) := by
  have get : ∀ (key d v : Str), upperAscii key = key → loggingDefaults.load key = some d → Spec.SaysText env key d v →
      getString upperAscii env loggingDefaults key = v := by
    intro key d v hu hd h
    unfold getString
    rw [hu]
    rcases h with ⟨h, hv⟩ | ⟨h | h, rfl⟩
    · rw [h]; simp [hv]
    · rw [h]; simp [hd]
    · rw [h]; simp [hd]
  have gf := get _ _ _ (by decide +kernel) (by decide +kernel) hf
  have gl := get _ _ _ (by decide +kernel) (by decide +kernel) hl
  simp only [configureLogging, gf, gl]
  obtain ⟨-, -, -, h1, h2, -⟩ := C68_levels_and_formats lowerAscii f f
  obtain ⟨-, h3, h4, -, -, h5⟩ := C68_levels_and_formats lowerAscii l l
  exact ⟨h1, h2, h3, h4, h5⟩

example : configureLogging lowerAscii upperAscii [("OM_LOGGING_FORMAT".toList, "Text".toList), ("OM_LOGGING_LEVEL".toList, [])] =
    (.text, .info, false) := by decide +kernel
example : Spec.SaysText [("OM_LOGGING_FORMAT".toList, "Text".toList), ("OM_LOGGING_LEVEL".toList, [])]
    "OM_LOGGING_FORMAT".toList "json".toList "Text".toList := .inl (by decide +kernel)

/-! ## C77 -/

/-- The full claim: `IsDebugEnabled` tells whether a debug level is configured. -/
def C77_statement : Prop :=
  ∀ env : GoMap Str, isDebugEnabled lowerAscii upperAscii env = (configureLogging lowerAscii upperAscii env).2.2

/-- **C77, refuted**: it looks at the key "logging.level", which nothing sets. -/
theorem C77_debug_enabled_refuted : ¬ C77_statement := by
  intro h
  have := h [("OM_LOGGING_LEVEL".toList, "debug".toList)]
  exact absurd this (by decide +kernel)

/-- **C77, what holds**: without an environment variable `LOGGING.LEVEL` the answer is
always no; it is right exactly when the configured level is not a debug level. -/
theorem C77_always_off_partial (env : GoMap Str) (h : env.load "LOGGING.LEVEL".toList = none) :
    isDebugEnabled lowerAscii upperAscii env = false := by
  unfold isDebugEnabled getString
  rw [show upperAscii "logging.level".toList = "LOGGING.LEVEL".toList by decide +kernel, h]
  decide +kernel

example : GoMap.load [("OM_LOGGING_LEVEL".toList, "debug".toList)] "LOGGING.LEVEL".toList = none := by decide +kernel

/-- **C77, exactly**: it answers yes just when a variable `LOGGING.LEVEL`, which the
documentation does not know, holds "debug" or "trace" in any case. -/
theorem C77_exactly (env : GoMap Str) : isDebugEnabled lowerAscii upperAscii env = true ↔
    ∃ v, env.load "LOGGING.LEVEL".toList = some v ∧ (lowerAscii v = "debug".toList ∨ lowerAscii v = "trace".toList) := by
  have key : ∀ v : Str, isDebugLevel (toLevel lowerAscii v) = true ↔
      (lowerAscii v = "debug".toList ∨ lowerAscii v = "trace".toList) := by
    intro v
    unfold toLevel
    generalize lowerAscii v = l
    dsimp only
    by_cases h1 : l = "trace".toList
    · simp [h1, isDebugLevel]
    · by_cases h2 : l = "debug".toList
      · simp [h2, isDebugLevel]
      · rw [if_neg h1, if_neg h2]
        refine iff_of_false ?_ (by simp only [h1, h2, or_self, not_false_eq_true])
        repeat' split
        all_goals simp [isDebugLevel]
  unfold isDebugEnabled getString
  rw [show upperAscii "logging.level".toList = "LOGGING.LEVEL".toList by decide +kernel,
    show GoMap.load loggingDefaults "LOGGING.LEVEL".toList = none by decide +kernel]
  cases h : env.load "LOGGING.LEVEL".toList with
  | none => simp only [Option.getD_none, reduceCtorEq, false_and, exists_false, iff_false]; decide +kernel
  | some v =>
    dsimp only
    by_cases hv : v = []
    · subst hv
      simp only [if_true, Option.getD_none, Option.some.injEq]
      rw [key]
      exact ⟨fun h => ⟨_, rfl, h⟩, fun ⟨_, h1, h2⟩ => h1 ▸ h2⟩
    · rw [if_neg hv, key]
      exact ⟨fun h => ⟨_, rfl, h⟩, fun ⟨_, h1, h2⟩ => Option.some.inj h1 ▸ h2⟩

example : isDebugEnabled lowerAscii upperAscii [("LOGGING.LEVEL".toList, "Trace".toList)] = true := by decide +kernel

/-! ## C78 -/

theorem afterSlash_spec (s : Str) : ∀ a b : Str, s = a ++ '/' :: b → '/' ∉ b → afterSlash s = b := by
  induction s with
  | nil => intro a b h; simp at h
  | cons c cs ih =>
    intro a b h hb
    unfold afterSlash
    cases a with
    | nil =>
      simp only [List.nil_append, List.cons.injEq] at h
      obtain ⟨rfl, rfl⟩ := h
      rw [if_neg hb, if_pos rfl]
    | cons x a =>
      simp only [List.cons_append, List.cons.injEq] at h
      rw [if_pos (by rw [h.2]; simp)]
      exact ih a b h.2 hb

/-- **C78.** For a method name of gRPC's form `/service/Method` (any service text, a
method without slash), an RPC whose event stream ends once is counted once in the
duration histogram, under the method's name and with its duration in microseconds, and
once in the error counter iff it failed, with the error's text; nothing else is
recorded, whatever other events are reported. -/
theorem C78_rpc_metrics (service method : Str) (hm : method ≠ []) (hs : '/' ∉ method) (before after : List Event)
    (hb : ∀ e ∈ before, e = .other) (ha : ∀ e ∈ after, e = .other) (b e : Int) (hbe : b ≤ e) (err : Option Str) :
    ∃ us, (before ++ .ended b e err :: after).flatMap (handleRPC (some (service ++ '/' :: method))) =
      .duration method us :: (err.toList.map (.error method)) ∧ 1000 * us ≤ e - b ∧ e - b < 1000 * us + 1000 := by
  have hno : ∀ l : List Event, (∀ e ∈ l, e = .other) → l.flatMap (handleRPC (some (service ++ '/' :: method))) = [] := by
    intro l hl
    rw [List.flatMap_eq_nil_iff]
    intro e he
    rw [hl e he]; rfl
  have hbase : base (service ++ '/' :: method) = method := by
    unfold base
    rw [if_neg (by simp)]
    have ht : (((service ++ '/' :: method).reverse.dropWhile (· = '/')).reverse) = service ++ '/' :: method := by
      have hr : (service ++ '/' :: method).reverse = method.reverse ++ ('/' :: service.reverse) := by simp
      rw [hr]
      cases hrev : method.reverse with
      | nil => exact absurd (List.reverse_eq_nil_iff.1 hrev) hm
      | cons x xs =>
        have hx : x ≠ '/' := by
          rintro rfl
          exact hs (List.mem_reverse.1 (by rw [hrev]; simp))
        rw [List.cons_append, List.dropWhile_cons_of_neg (by simpa using hx), ← List.cons_append, ← hrev]
        simp
    dsimp only
    rw [ht, if_neg (by simp)]
    exact afterSlash_spec _ service method rfl hs
  refine ⟨micros b e, ?_, ?_, ?_⟩
  · rw [List.flatMap_append, List.flatMap_cons, hno _ hb, hno _ ha]
    simp only [handleRPC, Option.map_some, Option.getD_some, hbase, List.nil_append, List.append_nil]
    cases err <;> rfl
  · unfold micros; rw [Int.tdiv_eq_ediv_of_nonneg (by omega)]; omega
  · unfold micros; rw [Int.tdiv_eq_ediv_of_nonneg (by omega)]; omega

example : [Event.other, .ended 0 1500000 (some ['x'])].flatMap (handleRPC (some "/open_match.OpenMatchService/CreateTicket".toList)) =
    [.duration "CreateTicket".toList 1500, .error "CreateTicket".toList ['x']] := by decide +kernel

end OM.Props
