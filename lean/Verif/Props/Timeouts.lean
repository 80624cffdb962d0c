import Verif.Lemmas.Timeouts
import Verif.Props.Config
import Verif.Props.Redis
/-!
# Properties C116 and C117: configured times
-/
namespace OM.Props
open OM OM.Spec OM.Conf

/-- The setting of redis.go:47 and its neighbours. -/
abbrev idleKey : Str := "OM_REDIS_POOL_IDLE_TIMEOUT".toList

/-! ## C116: the idle timeout of the Redis pools -/

/-- The full statement: the idle timeout of the connection pools has no influence on what is sent and read. -/
def C116_statement : Prop :=
  ∀ (fr : Nat → Nat → Nat → Nat) (env : GoMap Str) (connect reply : Nat) (s : Stream) (replId : RId) (us : List StateUpdate) (net : SendEnv),
    timedPoll fr env connect reply s replId = configuredPoll env s replId ∧
    timedSend (redisTimeout fr env) connect reply us net = net

/-- **C116 fails.**  It is also the time for making a connection and for an answer, and a plain number is a number
of nanoseconds: with "300" nothing at all is read or stored. -/
theorem C116_idle_only_refuted : ¬ C116_statement := by
  intro h
  have := (h (fun _ _ _ => 0) [(idleKey, "300".toList)] 1000 0 Stream.empty (0, 0) [⟨.ticket, [], "a".toList⟩] ⟨[⟨5, none⟩], 5, none, none⟩).2
  revert this
  decide

/-- **C116, what holds.**  Exactly the time that connecting and answering take decides: below the limit, or with no
limit, everything is as without a timeout. Otherwise a poll reads nothing and asks for the same updates again the
next time; a batch is stored in full if the connection was made in time and not at all if not, and its updates
are answered in both cases as if they had been stored, without an id. -/
theorem C116_exact_partial (fr : Nat → Nat → Nat → Nat) (env : GoMap Str) (connect reply : Nat) (T : Int) (hT : redisTimeout fr env = T) :
    ((T = 0 ∨ (connect < T ∧ reply < T)) →
      (∀ s replId, timedPoll fr env connect reply s replId = configuredPoll env s replId) ∧
      ∀ us net, timedSend T connect reply us net = net) ∧
    ((T ≠ 0 ∧ (T ≤ connect ∨ T ≤ reply)) →
      (∀ s replId, timedPoll fr env connect reply s replId = some ([], replId)) ∧
      ∀ cfg us net s,
        (redisSend cfg (timedSend T connect reply us net) s us).2 =
            us.map (fun u => ⟨[], (match redisFields u with | .ok _ => none | .error e => some e)⟩) ∧
          (T ≤ connect → (redisSend cfg (timedSend T connect reply us net) s us).1 = s) ∧
          (connect < T → (redisSend cfg (timedSend T connect reply us net) s us).1 = (redisSend cfg net s us).1)) := by
  constructor
  · intro h
    have hc : inTime T connect = true ∧ inTime T reply = true := by
      rcases h with h | ⟨h1, h2⟩
      · simp [inTime, h]
      · simp [inTime, h1, h2]
    exact ⟨fun s replId => by simp [timedPoll, hT, hc], fun us net => by simp [timedSend, hc]⟩
  · rintro ⟨h0, h⟩
    have hresp : ∀ us : List StateUpdate, redisResponses us none =
        us.map (fun u => ⟨[], (match redisFields u with | .ok _ => none | .error e => some e)⟩) := by
      intro us
      simp only [redisResponses]
      refine List.map_congr_left fun u _ => ?_
      unfold initialResponse
      cases redisFields u <;> rfl
    by_cases hc : T ≤ connect
    · have c1 : inTime T connect = false := by simp [inTime, h0]; omega
      refine ⟨fun s replId => by simp [timedPoll, hT, c1], fun cfg us net s => ?_⟩
      simp only [timedSend, c1, Bool.not_false, if_true, redisSend]
      refine ⟨hresp us, fun _ => ?_, fun h => by omega⟩
      simp only [execPart, List.take_zero, Nat.not_lt_zero, if_false]
      cases net.cmds <;> rfl
    · have c1 : inTime T connect = true := by simp [inTime]; omega
      have c2 : inTime T reply = false := by simp [inTime, h0]; omega
      refine ⟨fun s replId => by simp [timedPoll, hT, c2], fun cfg us net s => ?_⟩
      simp only [timedSend, c1, c2, Bool.not_false, Bool.not_true, Bool.false_eq_true, if_false, if_true]
      refine ⟨by simp only [redisSend]; exact hresp us, fun h => absurd h hc, fun _ => ?_⟩
      cases hl : net.lost with
      | some k => simp [redisSend, hl, execPart]
      | none => simp [redisSend, hl, execPart, List.take_of_length_le]

/-- **C116, nothing is missed.**  Whatever the setting and however slow Redis is, a poll is one of those of C22: what
the reader has read stays a gap-free beginning of what was stored. -/
theorem C116_nothing_missed (fr : Nat → Nat → Nat → Nat) (cfg : Config) (env : GoMap Str) (connect reply : Nat) (w : RWorld) :
    ∃ ev, (ev = .pollFail ∨ ∃ n, ev = .poll n) ∧
      rstep cfg w ev = (timedPoll fr env connect reply w.stream w.replId).map fun p => ⟨w.stream, p.2, w.read ++ p.1⟩ := by
  unfold timedPoll configuredPoll
  split
  · cases hx : xreadArgs env with
    | none => exact ⟨.pollFail, Or.inl rfl, by simp [rstep]⟩
    | some p => exact ⟨.poll p.1, Or.inr ⟨_, rfl⟩, by simp [rstep]⟩
  · exact ⟨.pollFail, Or.inl rfl, by simp [rstep]⟩

/-- **C116, the limit.**  Unset: none.  A duration: as `time.ParseDuration` documents it.  A plain number: so
many nanoseconds.  Any other text: none. -/
theorem C116_limit (fr : Nat → Nat → Nat → Nat) (env : GoMap Str) :
    (Unset env idleKey → redisTimeout fr env = 0) ∧
    ∀ v, env.load idleKey = some v → v ≠ [] →
      (∀ d, DurationOf fr v d → redisTimeout fr env = d) ∧
      (∀ n, DecInt v n → -2 ^ 63 ≤ n → n < 2 ^ 63 → redisTimeout fr env = n) ∧
      (¬ IsDuration v → ¬ IsDuration (v ++ "ns".toList) → redisTimeout fr env = 0) := by
  constructor
  · intro h
    have : get env idleKey = some (.int 0) := by
      unfold Conf.get
      rcases h with h | h <;> rw [h] <;> decide
    unfold redisTimeout
    rw [this]
    rfl
  · intro v hv hne
    have hg : redisTimeout fr env = toDuration fr (some (.str v)) := by
      unfold redisTimeout Conf.get
      rw [hv]
      cases v with
      | nil => exact absurd rfl hne
      | cons c cs => rfl
    rw [hg]
    have hdigit : ∀ c : Char, c.isDigit = true → c ∉ ['n', 's', 'u', Char.ofNat 0xB5, 'm', 'h'] := by
      intro c hc hm
      simp only [List.mem_cons, List.not_mem_nil, or_false] at hm
      rcases hm with rfl | rfl | rfl | rfl | rfl | rfl <;> revert hc <;> decide
    have hns : ∀ {s : Str}, Decimals s → DurText fr (s ++ "ns".toList) (digitsValue s) := by
      intro s hs
      have := DurText.whole (fr := fr) (n := 1) (u := ['n', 's']) (rest := []) hs.1 hs.2 (by decide) .nil
      simpa using this
    refine ⟨fun d hd => ?_, fun n hn h1 h2 => ?_, fun h1 h2 => ?_⟩
    · have key : (∃ c ∈ v, c ∈ ['n', 's', 'u', Char.ofNat 0xB5, 'm', 'h']) → (v.any fun c => decide (c ∈ ['n', 's', 'u', Char.ofNat 0xB5, 'm', 'h'])) = true := by
        rintro ⟨c, h1, h2⟩
        exact List.any_eq_true.2 ⟨c, h1, decide_eq_true h2⟩
      have big : ∀ {s t}, s ≠ [] → DurText fr s t → (∃ c ∈ s, c ∈ ['n', 's', 'u', Char.ofNat 0xB5, 'm', 'h']) := by
        intro s t h1 h2
        rcases durText_ne_zero h2 with h | h
        · exact absurd h h1
        · exact h
      have hp := parseDuration_of hd
      cases hd with
      | zero => rfl
      | plusZero => rfl
      | minusZero => rfl
      | plain h1 h2 h3 => simp only [toDuration]; rw [if_pos (key (big h1 h2)), hp]; rfl
      | plus h1 h2 h3 =>
        obtain ⟨c, a, b⟩ := big h1 h2
        simp only [toDuration]; rw [if_pos (key ⟨c, by simp [a], b⟩), hp]; rfl
      | minus h1 h2 h3 =>
        obtain ⟨c, a, b⟩ := big h1 h2
        simp only [toDuration]; rw [if_pos (key ⟨c, by simp [a], b⟩), hp]; rfl
    · have hno : (v.any fun c => decide (c ∈ ['n', 's', 'u', Char.ofNat 0xB5, 'm', 'h'])) = false := by
        rw [List.any_eq_false]
        intro c hc
        rw [decide_eq_true_eq]
        cases hn with
        | plain hs => exact hdigit c (Serve.isDigit_iff.2 (hs.2 c hc))
        | plus hs =>
          rcases List.mem_cons.1 hc with rfl | hc
          · decide
          · exact hdigit c (Serve.isDigit_iff.2 (hs.2 c hc))
        | minus hs =>
          rcases List.mem_cons.1 hc with rfl | hc
          · decide
          · exact hdigit c (Serve.isDigit_iff.2 (hs.2 c hc))
      simp only [toDuration, hno, Bool.false_eq_true, if_false]
      have : DurationOf fr (v ++ "ns".toList) n := by
        cases hn with
        | plain hs => exact .plain (by simp [hs.1]) (hns hs) (by omega)
        | plus hs => exact .plus (by simp [hs.1]) (hns hs) (by omega)
        | minus hs => exact .minus (by simp [hs.1]) (hns hs) (by omega)
      rw [parseDuration_of this]; rfl
    · have e1 : parseDuration fr v = none := by
        cases h : parseDuration fr v with
        | none => rfl
        | some d => exact absurd (parseDuration_syntax h) h1
      have e2 : parseDuration fr (v ++ "ns".toList) = none := by
        cases h : parseDuration fr (v ++ "ns".toList) with
        | none => rfl
        | some d => exact absurd (parseDuration_syntax h) h2
      simp only [toDuration]
      split
      · rw [e1]; rfl
      · rw [e2]; rfl

/-- "5m" is 300 s, "300" is 300 ns, "1h2m3.5s" has a fraction, "5 min" is no duration. -/
example : redisTimeout (fun f _ u => f * u / 10) [(idleKey, "5m".toList)] = 300000000000 ∧
    redisTimeout (fun f _ u => f * u / 10) [(idleKey, "300".toList)] = 300 ∧
    redisTimeout (fun f _ u => f * u / 10) [(idleKey, "1h2m3.5s".toList)] = 3723500000000 ∧
    redisTimeout (fun f _ u => f * u / 10) [(idleKey, "5 min".toList)] = 0 := by
  decide +kernel

example : DurationOf (fun f _ u => f * u / 10) "2m3.5s".toList 123500000000 :=
  .plain (by decide) (.whole (ds := ['2']) (u := ['m']) (n := 60000000000) (by decide) (by simp [DigitRun]) (by decide)
    (.point (ds := ['3']) (fs := ['5']) (u := ['s']) (n := 1000000000) (by decide) (by simp [DigitRun]) (by simp [DigitRun]) (by decide)
      (by decide) .nil)) (by decide)

/-- 300 ns: nothing is stored and the client is told that all is well; 5 minutes: the ticket is stored. -/
example :
    redisSend Config.default (timedSend 300 1000 1000 [⟨.ticket, [], "a".toList⟩] ⟨[⟨5, none⟩], 5, none, none⟩) Stream.empty [⟨.ticket, [], "a".toList⟩] =
      (Stream.empty, [⟨[], none⟩]) ∧
    (redisSend Config.default (timedSend 300000000000 1000 1000 [⟨.ticket, [], "a".toList⟩] ⟨[⟨5, none⟩], 5, none, none⟩) Stream.empty [⟨.ticket, [], "a".toList⟩]).2 =
      [⟨"5-0".toList, none⟩] := by
  decide

/-! ## C117: times in seconds and milliseconds -/

/-- The full statement: a time of `n` seconds (milliseconds) lasts so long. -/
def C117_statement : Prop :=
  ∀ (env : GoMap Str) (n : Int),
    (Says env "OM_MMF_TIMEOUT_SECS".toList n → ∀ took : Nat, mmfMayRun env took = true ↔ (took : Int) < n * 1000000000) ∧
    (Says env "OM_CACHE_TICKET_TTL_SECS".toList n → ttlNs env = n * 1000000000) ∧
    (Says env "OM_CACHE_OUT_WAIT_TIMEOUT_MS".toList n → outWait env = n * 1000000) ∧
    (Says env "OM_CACHE_IN_WAIT_TIMEOUT_MS".toList n → inWait env = n * 1000000)

/-- **C117 fails** beyond 292 years: with "9999999999" (a way to say "no timeout") no function gets any time. -/
theorem C117_duration_refuted :
    Says [("OM_MMF_TIMEOUT_SECS".toList, "9999999999".toList)] "OM_MMF_TIMEOUT_SECS".toList 9999999999 ∧
    (∀ took, mmfMayRun [("OM_MMF_TIMEOUT_SECS".toList, "9999999999".toList)] took = false) ∧
    ¬ C117_statement := by
  have hs : Says [("OM_MMF_TIMEOUT_SECS".toList, "9999999999".toList)] "OM_MMF_TIMEOUT_SECS".toList 9999999999 :=
    Or.inl ⟨by decide, by decide, by decide⟩
  have hm : ∀ took, mmfMayRun [("OM_MMF_TIMEOUT_SECS".toList, "9999999999".toList)] took = false := by
    intro took
    have : mmfTimeout [("OM_MMF_TIMEOUT_SECS".toList, "9999999999".toList)] ≤ 0 := by decide +kernel
    simp only [mmfMayRun, decide_eq_false_iff_not]
    omega
  refine ⟨hs, hm, fun h => ?_⟩
  have := ((h _ _).1 hs 0).2 (by decide)
  rw [hm] at this
  cases this

/-- **C117 fails for tickets too**: with the same number for OM_CACHE_TICKET_TTL_SECS every ticket is stored as one that
expired 267 years before it was created. -/
theorem C117_tickets_refuted (cd : Codec) (hl : cd.Lawful) (now : Int) (t : Ticket) (u : StateUpdate)
    (hq : createTicketQueue cd (coreConfig [("OM_CACHE_TICKET_TTL_SECS".toList, "9999999999".toList)]) now (some t) = .ok u) (c : Cache) (id : Str) :
    Says [("OM_CACHE_TICKET_TTL_SECS".toList, "9999999999".toList)] "OM_CACHE_TICKET_TTL_SECS".toList 9999999999 ∧
    ∃ (ct : Ticket) (cr ex : Timestamp), (applyUpdate cd c (replicated u id)).tickets.load id = some ct ∧
      (ct.attributes.bind (·.creationTime)) = some cr ∧ ct.expirationTime = some ex ∧ nanosOf ex ≤ nanosOf cr - 8446744074709551616 := by
  have hs : Says [("OM_CACHE_TICKET_TTL_SECS".toList, "9999999999".toList)] "OM_CACHE_TICKET_TTL_SECS".toList 9999999999 :=
    Or.inl ⟨by decide, by decide, by decide⟩
  have ht : goSecs (coreConfig [("OM_CACHE_TICKET_TTL_SECS".toList, "9999999999".toList)]).ttl = -8446744074709551616 := by decide +kernel
  obtain ⟨ct, cr, ex, h1, h2, h3, -, -, h4⟩ := stored_expiration cd hl _ now t u hq c id
  rw [ht] at h4
  exact ⟨hs, ct, cr, ex, h1, h2, h3, h4⟩

/-- A ticket that is accepted so. -/
example : ∃ u, createTicketQueue Wire.codec (coreConfig [("OM_CACHE_TICKET_TTL_SECS".toList, "9999999999".toList)]) 1700000000000000000
    (some sampleReq) = .ok u := by
  obtain ⟨b, hb, -⟩ := C09_every_ticket_accepted (coreConfig [("OM_CACHE_TICKET_TTL_SECS".toList, "9999999999".toList)]) 1700000000000000000 sampleReq
    (by decide) ⟨by decide, by decide, by decide, by decide⟩
  exact ⟨_, hb⟩

/-- **C117, what holds.**  Times of up to 292 years, in whole seconds or milliseconds, last so long, and only those. -/
theorem C117_duration_partial (env : GoMap Str) (n : Int) :
    (Says env "OM_MMF_TIMEOUT_SECS".toList n →
      ((-9223372036 ≤ n ∧ n ≤ 9223372036) ↔ mmfTimeout env = n * 1000000000) ∧
      (n ≤ 9223372036 → -9223372036 ≤ n → ∀ took : Nat, mmfMayRun env took = true ↔ (took : Int) < n * 1000000000)) ∧
    (Says env "OM_CACHE_TICKET_TTL_SECS".toList n → ((-9223372036 ≤ n ∧ n ≤ 9223372036) ↔ ttlNs env = n * 1000000000)) ∧
    (Says env "OM_CACHE_OUT_WAIT_TIMEOUT_MS".toList n →
      ((-9223372036854 ≤ n ∧ n ≤ 9223372036854) ↔ outWait env = n * 1000000)) ∧
    (Says env "OM_CACHE_IN_WAIT_TIMEOUT_MS".toList n →
      ((-9223372036854 ≤ n ∧ n ≤ 9223372036854) ↔ inWait env = n * 1000000)) := by
  have hsec : (-9223372036 ≤ n ∧ n ≤ 9223372036) ↔ goSecs n = n * 1000000000 := by
    unfold goSecs nsPerSec
    constructor
    · rintro ⟨h1, h2⟩; exact wrap64_id (by omega) (by omega)
    · intro h; have := wrap64_range (n * 1000000000); rw [h] at this; omega
  have hms : (-9223372036854 ≤ n ∧ n ≤ 9223372036854) ↔ goMillis n = n * 1000000 := by
    unfold goMillis
    constructor
    · rintro ⟨h1, h2⟩; exact wrap64_id (by omega) (by omega)
    · intro h; have := wrap64_range (n * 1000000); rw [h] at this; omega
  refine ⟨fun h => ?_, fun h => ?_, fun h => ?_, fun h => ?_⟩
  · have e : mmfTimeout env = goSecs n := by unfold mmfTimeout; rw [(C86_numbers_partial env _ n h).1]
    refine ⟨by rw [e]; exact hsec, fun h1 h2 took => ?_⟩
    simp only [mmfMayRun, e, hsec.1 ⟨h2, h1⟩, decide_eq_true_eq]
  · unfold ttlNs; rw [(C86_numbers_partial env _ n h).1]; exact hsec
  · unfold outWait; rw [(C86_numbers_partial env _ n h).1]; exact hms
  · unfold inWait; rw [(C86_numbers_partial env _ n h).1]; exact hms

/-- The defaults. -/
example : mmfTimeout [] = 500000000000 ∧ ttlNs [] = 600000000000 ∧ outWait [] = 500000000 ∧ inWait [] = 1500000000 := by
  decide +kernel

end OM.Props
