import Verif.Lemmas.Config
import Verif.Props.Handlers
import Verif.Model.Logging
/-!
# C86, C87: the configuration
-/
namespace OM.Props
open OM.Conf OM.Spec

/-! ## C86: configuration variables mean what they say -/

/-- **C86** for every numeric setting: a variable holding a decimal int64 has that value
wherever it is read, an unset or empty one has its documented default; as a number, as text,
and as Redis reads the text. -/
theorem C86_numbers_partial (env : GoMap Str) (key : Str) (n : Int) (h : Says env key n) :
    getInt env key = n ∧ getString env key = fmtInt n ∧ redisInt (getString env key) = some n := by
  have hr := says_range h
  refine ⟨getInt_says h, getString_says h, ?_⟩
  rw [getString_says h, redisInt_fmtInt hr.1 hr.2]

example : SetTo [("OM_CACHE_TICKET_TTL_SECS".toList, "-5".toList)] "OM_CACHE_TICKET_TTL_SECS".toList (-5) := by
  constructor <;> decide +kernel
example : getInt [("OM_CACHE_TICKET_TTL_SECS".toList, "-5".toList)] "OM_CACHE_TICKET_TTL_SECS".toList = -5 :=
  (C86_numbers_partial _ _ _ (.inl (by constructor <;> decide +kernel))).1
example : getInt [("PORT".toList, [])] "PORT".toList = 8080 :=
  (C86_numbers_partial _ _ _ (.inr ⟨.inr (by decide +kernel), by decide +kernel⟩)).1

/-- Text settings. -/
theorem C86_text (env : GoMap Str) (key d v : Str) (hd : defaults.load key = some (.str d))
    (h : SaysText env key d v) : getString env key = v := by
  rcases h with ⟨h, hv⟩ | ⟨hu, rfl⟩
  · rw [getString, get_set h hv]; rfl
  · rw [getString, get_unset hu, hd]; rfl

example : getString [("OM_REDIS_READ_HOST".toList, "replica".toList)] "OM_REDIS_READ_HOST".toList = "replica".toList :=
  C86_text _ _ "127.0.0.1".toList _ (by decide +kernel) (.inl (by decide +kernel))

/-- The addresses of the servers. -/
theorem C86_addresses (env : GoMap Str) (rh wh : Str) (rp wp p : Int)
    (h1 : SaysText env "OM_REDIS_READ_HOST".toList "127.0.0.1".toList rh)
    (h2 : Says env "OM_REDIS_READ_PORT".toList rp)
    (h3 : SaysText env "OM_REDIS_WRITE_HOST".toList "127.0.0.1".toList wh)
    (h4 : Says env "OM_REDIS_WRITE_PORT".toList wp)
    (h5 : Says env "PORT".toList p) :
    readAddr env = rh ++ ':' :: fmtInt rp ∧ writeAddr env = wh ++ ':' :: fmtInt wp ∧
      listenAddr env = ':' :: fmtInt p := by
  refine ⟨?_, ?_, ?_⟩
  · rw [readAddr, C86_text env _ _ _ (by decide +kernel) h1, getString_says h2]
  · rw [writeAddr, C86_text env _ _ _ (by decide +kernel) h3, getString_says h4]
  · rw [listenAddr, getString_says h5]

example : readAddr [("OM_REDIS_READ_HOST".toList, "replica".toList)] = "replica:6379".toList ∧
    writeAddr [("OM_REDIS_READ_HOST".toList, "replica".toList)] = "127.0.0.1:6379".toList := by decide +kernel

private theorem flag (env : GoMap Str) (key : Str) (hdef : defaults.load key = some (.bool false)) :
    getBool env key = true ↔ ∃ v, env.load key = some v ∧
      v ∈ ["1".toList, "t".toList, "T".toList, "TRUE".toList, "true".toList, "True".toList] := by
  simp only [getBool]
  cases he : env.load key with
  | none => rw [get_unset (.inl he), hdef]; simp [Conf.toBool]
  | some v =>
    by_cases hv : v = []
    · subst hv
      rw [get_unset (.inr he), hdef]
      simp [Conf.toBool]
    · rw [get_set he hv]
      simp [Conf.toBool]

/-- The flag: the words of `strconv.ParseBool` for true, and everything else false. -/
theorem C86_deactivation_wait (env : GoMap Str) :
    (coreConfig env).deactWait = true ↔
      ∃ v, env.load "OM_MATCH_TICKET_DEACTIVATION_WAIT".toList = some v ∧
        v ∈ ["1".toList, "t".toList, "T".toList, "TRUE".toList, "true".toList, "True".toList] :=
  flag env _ (by decide +kernel)

/-- The other flag, with which the cache is printed at the end (core/main.go:127). -/
theorem C86_verbose (env : GoMap Str) :
    getBool env "OM_VERBOSE".toList = true ↔
      ∃ v, env.load "OM_VERBOSE".toList = some v ∧
        v ∈ ["1".toList, "t".toList, "T".toList, "TRUE".toList, "true".toList, "True".toList] :=
  flag env _ (by decide +kernel)

example : (coreConfig [("OM_MATCH_TICKET_DEACTIVATION_WAIT".toList, "true".toList)]).deactWait = true := by
  decide +kernel

/-- The configuration record of the other theorems is what the environment says. -/
theorem C86_core_config (env : GoMap Str) (ttl addTtl maxUpdates outThreshold : Int) (inMax : Nat)
    (h1 : Says env "OM_CACHE_TICKET_TTL_SECS".toList ttl)
    (h2 : Says env "OM_CACHE_ASSIGNMENT_ADDITIONAL_TTL_SECS".toList addTtl)
    (h3 : Says env "OM_MAX_STATE_UPDATES_PER_CALL".toList maxUpdates)
    (h4 : Says env "OM_CACHE_OUT_MAX_QUEUE_THRESHOLD".toList outThreshold)
    (h5 : Says env "OM_CACHE_IN_MAX_UPDATES_PER_POLL".toList inMax) :
    coreConfig env = ⟨ttl, addTtl, maxUpdates, outThreshold, inMax, (coreConfig env).deactWait⟩ := by
  simp only [coreConfig, getInt_says h1, getInt_says h2, getInt_says h3, getInt_says h4, getInt_says h5,
    Int.toNat_natCast]

/-- Without any variable: the defaults. -/
theorem C86_defaults : coreConfig [] = Config.default := by
  have hu : ∀ k, Unset [] k := fun k => .inl rfl
  rw [C86_core_config [] 600 600 500 50 10000
    (.inr ⟨hu _, by decide +kernel⟩) (.inr ⟨hu _, by decide +kernel⟩) (.inr ⟨hu _, by decide +kernel⟩)
    (.inr ⟨hu _, by decide +kernel⟩) (.inr ⟨hu _, by decide +kernel⟩)]
  rw [show (coreConfig []).deactWait = false by decide +kernel]
  rfl

/-- The TTL a user sets is the one tickets get (up to 292 years; C117). -/
theorem C86_ttl_reaches_tickets (cd : Codec) (hl : cd.Lawful) (env : GoMap Str) (ttl now : Int)
    (h : Says env "OM_CACHE_TICKET_TTL_SECS".toList ttl) (httl : -9223372036 ≤ ttl ∧ ttl ≤ 9223372036) (t : Ticket) (u : StateUpdate)
    (hq : createTicketQueue cd (coreConfig env) now (some t) = .ok u) (c : Cache) (id : Str) :
    ∃ (ct : Ticket) (cr ex : Timestamp),
      (applyUpdate cd c (replicated u id)).tickets.load id = some ct ∧
      (ct.attributes.bind (·.creationTime)) = some cr ∧ ct.expirationTime = some ex ∧
      nanosOf ex ≤ nanosOf cr + ttl * 1000000000 ∧
      (t.expirationTime = none → nanosOf ex = nanosOf cr + ttl * 1000000000) := by
  have ht : (coreConfig env).ttl = ttl := getInt_says h
  obtain ⟨ct, cr, ex, a, b, c', -, d, e⟩ := C07_expiration_clamped cd hl (coreConfig env) now t u hq (by rw [ht]; exact httl) c id
  rw [ht] at d e
  refine ⟨ct, cr, ex, a, b, c', e, fun hn => d ?_⟩
  rintro ⟨r, hr, -⟩
  rw [hn] at hr
  cases hr

example : Says [("OM_CACHE_TICKET_TTL_SECS".toList, "60".toList)] "OM_CACHE_TICKET_TTL_SECS".toList 60 :=
  .inl (by constructor <;> decide +kernel)

/-- A poll with the configured arguments is either refused by Redis, and then changes
nothing, or it is the poll with the number om-core itself uses: for every environment,
om-core and Redis never act on different numbers. -/
theorem C86_redis_agrees (env : GoMap Str) :
    (xreadArgs env = none ∧ ∀ s r, configuredPoll env s r = some ([], r)) ∨
      ((∃ b, xreadArgs env = some ((coreConfig env).inMax, b)) ∧
        ∀ s r, configuredPoll env s r = pollUpdates s (coreConfig env).inMax r) := by
  cases hx : xreadArgs env with
  | none => exact .inl ⟨rfl, fun s r => by simp [configuredPoll, hx]⟩
  | some p =>
    obtain ⟨n, b⟩ := p
    have hn : n = (coreConfig env).inMax := by
      simp only [xreadArgs] at hx
      split at hx
      · rename_i c b' hc hb
        split at hx
        · cases hx
        · cases hx
          have := toInt_of_redisInt (v := get env "OM_CACHE_IN_MAX_UPDATES_PER_POLL".toList) hc
          rw [← this]
          rfl
      · cases hx
    subst hn
    exact .inr ⟨⟨b, rfl⟩, fun s r => by simp [configuredPoll, hx]⟩

/-- … and decimal settings are not refused. -/
theorem C86_poll_accepted (env : GoMap Str) (n b : Nat)
    (h1 : Says env "OM_CACHE_IN_MAX_UPDATES_PER_POLL".toList n)
    (h2 : Says env "OM_CACHE_IN_WAIT_TIMEOUT_MS".toList b) :
    xreadArgs env = some (n, b) ∧ ∀ s r, configuredPoll env s r = pollUpdates s n r := by
  have e1 := (C86_numbers_partial env _ _ h1).2.2
  have e2 := (C86_numbers_partial env _ _ h2).2.2
  have : xreadArgs env = some (n, b) := by
    simp only [xreadArgs, e1, e2]
    rw [if_neg (by omega)]
    rfl
  exact ⟨this, fun s r => by simp [configuredPoll, this]⟩

example : xreadArgs [("OM_CACHE_IN_WAIT_TIMEOUT_MS".toList, "20".toList)] = some (10000, 20) := by decide +kernel

/-- Settings do not influence each other. -/
theorem C86_independent (env : GoMap Str) (k k' v : Str) (h : k' ≠ k) :
    getInt (env.store k v) k' = getInt env k' ∧ getBool (env.store k v) k' = getBool env k' ∧
      getString (env.store k v) k' = getString env k' := by
  simp [getInt, getBool, getString, Conf.get, GoMap.load_store_ne env v h]

/-- The two ways of reading the logging variables (`Model/Logging.lean`) agree. -/
theorem C86_logging (env : GoMap Str) (key : Str)
    (h : key = "OM_LOGGING_LEVEL".toList ∨ key = "OM_LOGGING_FORMAT".toList) :
    getString env key = Log.getString id env Log.loggingDefaults key := by
  have hd : defaults.load key = (Log.loggingDefaults.load key).map .str := by
    rcases h with rfl | rfl <;> decide +kernel
  have hs : (Log.loggingDefaults.load key).isSome := by
    rcases h with rfl | rfl <;> decide +kernel
  obtain ⟨d, hd'⟩ := Option.isSome_iff_exists.mp hs
  rw [hd'] at hd
  simp only [Log.getString, id]
  cases he : env.load key with
  | none => rw [getString, get_unset (.inl he), hd, hd']; rfl
  | some v =>
    by_cases hv : v = []
    · subst hv; rw [getString, get_unset (.inr he), hd, hd']; rfl
    · simp only [if_neg hv]; rw [getString, get_set he hv]; rfl

/-! What is missing for the full claim: values that are not decimal. -/

/-- Which texts are numbers, exactly: Go's integer literals with an optional sign (decimal,
octal with a leading zero or 0o, 0x, 0b, single underscores between digits), also with a
decimal part of zeros.  A variable holding one within int64 has that value; with any other
text it silently becomes 0, not the default and not an error. -/
theorem C86_integer_syntax (env : GoMap Str) (key v : Str) (h : env.load key = some v) (hv : v ≠ []) :
    (∀ n, Denotes v n → -2 ^ 63 ≤ n → n < 2 ^ 63 → getInt env key = n) ∧
      ((∀ n, Denotes v n → ¬ (-2 ^ 63 ≤ n ∧ n < 2 ^ 63)) → getInt env key = 0) := by
  rw [getInt, get_set h hv]
  simp only [toInt, denotes_iff]
  constructor
  · intro n hn h1 h2
    rw [(Watch.parseInt0_iff _ n).2 ⟨hn, h1, h2⟩]
  · intro hn
    split
    · rename_i n hp
      obtain ⟨h1, h2⟩ := (Watch.parseInt0_iff _ n).1 hp
      exact absurd h2 (hn n h1)
    · rfl

/-- "0x1_F" is 31, "-0b101" is -5, "0600" is 384 and "60.0" is 60. -/
example : Denotes ['0', 'x', '1', '_', 'F'] 31 :=
  .inl (.plain (.pre (p := 'x') (b := 16) (by decide) (.under (.one (d := 1) (by decide)) (c := 'F') (d := 15) (by decide))))
example : Denotes ['-', '0', 'b', '1', '0', '1'] (-5) :=
  .inl (.minus (.pre (p := 'b') (b := 2) (by decide)
    (.snoc (.snoc (.one (d := 1) (by decide)) (c := '0') (d := 0) (by decide)) (c := '1') (d := 1) (by decide))))
example : Denotes ['0', '6', '0', '0'] 384 :=
  .inl (.plain (.oct (.snoc (.snoc (.snoc (.one (d := 0) (by decide)) (c := '6') (d := 6) (by decide)) (c := '0') (d := 0) (by decide))
    (c := '0') (d := 0) (by decide))))
example : Denotes ['6', '0', '.', '0'] 60 :=
  .inr ⟨['6', '0'], ⟨1, 0, by decide, by decide⟩,
    .plain (.dec (.snoc (.one (d := 6) (by decide)) (c := '0') (d := 0) (by decide)) (by decide))⟩
example : getInt [("OM_CACHE_TICKET_TTL_SECS".toList, "60.0".toList)] "OM_CACHE_TICKET_TTL_SECS".toList = 60 :=
  (C86_integer_syntax _ _ ['6', '0', '.', '0'] (by decide +kernel) (by decide)).1 60
    (.inr ⟨['6', '0'], ⟨1, 0, by decide, by decide⟩,
      .plain (.dec (.snoc (.one (d := 6) (by decide)) (c := '0') (d := 0) (by decide)) (by decide))⟩) (by decide) (by decide)
/-- "10m", "0x", "1__0", "_1", "08" and "1e3" are no numbers. -/
example : ∀ v ∈ ["10m".toList, "0x".toList, "1__0".toList, "_1".toList, "1_".toList, "08".toList, "1e3".toList, "- 5".toList,
    "".toList, "+".toList, "1.5".toList], ∀ n, Denotes v n → ¬ (-2 ^ 63 ≤ n ∧ n < 2 ^ 63) := by
  intro v hv n hn hr
  have : (Watch.parseInt0 (trimZeroDecimal v)).isErr = true := by clear hn hr; revert v; decide +kernel
  rw [(Watch.parseInt0_iff _ n).2 ⟨(denotes_iff v n).1 hn, hr⟩] at this
  cases this

/-- A malformed TTL is neither refused nor replaced by the default: the server starts and
tickets live for 0 seconds. -/
theorem C86_malformed_refuted :
    ¬ ∀ (env : GoMap Str) (v : Str), env.load "OM_CACHE_TICKET_TTL_SECS".toList = some v →
      (∀ n, Watch.parseInt0 v ≠ .ok n) →
      start 1000000 env = none ∨ (coreConfig env).ttl = 600 := by
  intro h
  rcases h [("OM_CACHE_TICKET_TTL_SECS".toList, "10m".toList)] "10m".toList (by decide +kernel)
      (by rw [show Watch.parseInt0 "10m".toList = .syntaxErr by decide +kernel]; simp) with h | h
  · exact absurd h (by decide +kernel)
  · exact absurd h (by decide +kernel)

/-- Leading zeros make a number octal: "0600" is 384 seconds. -/
theorem C86_octal_refuted :
    ¬ ∀ (env : GoMap Str) (k n : Nat),
      env.load "OM_CACHE_TICKET_TTL_SECS".toList = some (List.replicate k '0' ++ fmtNat n) → n < 2 ^ 63 →
      (coreConfig env).ttl = n := by
  intro h
  exact absurd (h [("OM_CACHE_TICKET_TTL_SECS".toList, "0600".toList)] 1 600 (by decide +kernel) (by decide))
    (by decide +kernel)

/-- A number om-core accepts may be refused by Redis: the server starts but its polls
return nothing, whatever is in the stream. -/
theorem C86_hex_refuted :
    ¬ ∀ (env : GoMap Str), start 1000000 env = some .redis → ∃ s r, configuredPoll env s r ≠ some ([], r) := by
  intro h
  obtain ⟨s, r, hne⟩ := h [("OM_CACHE_IN_MAX_UPDATES_PER_POLL".toList, "0x10".toList)] (by decide +kernel)
  refine hne ?_
  have : xreadArgs [("OM_CACHE_IN_MAX_UPDATES_PER_POLL".toList, "0x10".toList)] = none := by decide +kernel
  rw [configuredPoll, this]

/-- The name in the API documentation (messages.proto:53, api.proto:31) is not the one that
is read: OM_TICKET_TTL_SECS has no effect on anything. -/
theorem C86_documented_name_refuted :
    ¬ ∀ (env : GoMap Str) (n : Int), SetTo env "OM_TICKET_TTL_SECS".toList n → (coreConfig env).ttl = n := by
  intro h
  have := h [("OM_TICKET_TTL_SECS".toList, "60".toList)] 60 (by constructor <;> decide +kernel)
  exact absurd this (by decide +kernel)

/-! ## C87: starting -/

/-- **C87**, exactly when om-core starts: the storage type is one it knows, and the poll
size is a possible channel capacity.  Otherwise the process ends at once; it never runs
without replication. -/
theorem C87_start_exact (lim : Int) (env : GoMap Str) (st : Storage) :
    start lim env = some st ↔
      getString env "OM_STATE_STORAGE_TYPE".toList =
          (match st with | .redis => "redis".toList | .memory => "memory".toList) ∧
        0 ≤ getInt env "OM_CACHE_IN_MAX_UPDATES_PER_POLL".toList ∧
        getInt env "OM_CACHE_IN_MAX_UPDATES_PER_POLL".toList ≤ lim := by
  simp only [start, replicator]
  generalize getInt env _ = n
  generalize getString env _ = s
  by_cases hn : n < 0 ∨ lim < n
  · rw [if_pos hn]
    simp only [Go.panic, reduceCtorEq, false_iff, not_and]
    intro _ h1 h2
    omega
  · rw [if_neg hn]
    have h0 : 0 ≤ n ∧ n ≤ lim := by omega
    simp only [h0, and_true]
    cases st
    · by_cases h1 : s = "redis".toList
      · simp [h1]
      · rw [if_neg h1]
        by_cases h2 : s = "memory".toList
        · subst h2; simp
        · rw [if_neg h2]; exact ⟨fun h => (nomatch h), fun h => absurd h h1⟩
    · by_cases h1 : s = "redis".toList
      · subst h1; simp
      · rw [if_neg h1]
        by_cases h2 : s = "memory".toList
        · simp [h2]
        · rw [if_neg h2]; exact ⟨fun h => (nomatch h), fun h => absurd h h2⟩

/-- In terms of the environment: Redis unless told otherwise. -/
theorem C87_starts (lim : Int) (env : GoMap Str) (n : Int) (v : Str)
    (h1 : SaysText env "OM_STATE_STORAGE_TYPE".toList "redis".toList v)
    (h2 : Says env "OM_CACHE_IN_MAX_UPDATES_PER_POLL".toList n) (h3 : 0 ≤ n) (h4 : n ≤ lim) :
    (v = "redis".toList → start lim env = some .redis) ∧ (v = "memory".toList → start lim env = some .memory) ∧
      (v ≠ "redis".toList → v ≠ "memory".toList → start lim env = none) := by
  have es := C86_text env _ _ _ (by decide +kernel) h1
  have en := getInt_says h2
  refine ⟨fun h => (C87_start_exact ..).mpr ⟨by rw [es, h], by omega, by omega⟩,
    fun h => (C87_start_exact ..).mpr ⟨by rw [es, h], by omega, by omega⟩, fun a b => ?_⟩
  cases e : start lim env with
  | none => rfl
  | some st =>
    have := ((C87_start_exact ..).mp e).1
    rw [es] at this
    cases st
    · exact absurd this a
    · exact absurd this b

example : start 1000000 [] = some .redis := by decide +kernel
example : start 1000000 [("OM_STATE_STORAGE_TYPE".toList, "memory".toList)] = some .memory := by decide +kernel
/-- Capitals are a different storage type. -/
example : start 1000000 [("OM_STATE_STORAGE_TYPE".toList, "Redis".toList)] = none := by decide +kernel
example : start 1000000 [("OM_CACHE_IN_MAX_UPDATES_PER_POLL".toList, "-1".toList)] = none := by decide +kernel
/-- A malformed poll size is 0, an unbuffered channel: the server starts. -/
example : start 1000000 [("OM_CACHE_IN_MAX_UPDATES_PER_POLL".toList, "many".toList)] = some .redis := by decide +kernel

end OM.Props
