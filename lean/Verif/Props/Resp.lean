import Verif.Spec.Resp
import Verif.Lemmas.Resp
import Verif.Props.Redis
import Verif.Props.Config
/-!
# C120–C122: what om-core and Redis say to each other
-/
namespace OM.Props
open OM.Spec OM.Resp

/-! ## C120: whatever clients send is data -/

private theorem stores_iff (u : StateUpdate) (c : List Str) : Stores u c ↔ ∃ f, redisFields u = .ok f ∧ c = xaddArgs f := by
  constructor
  · intro h
    cases h with
    | ticket h1 h2 => exact ⟨_, by rw [redisFields, h1]; simp only; rw [if_neg h2]; rfl, rfl⟩
    | activate h1 h2 => exact ⟨_, by rw [redisFields, h1]; simp only; rw [if_neg h2]; rfl, rfl⟩
    | deactivate h1 h2 => exact ⟨_, by rw [redisFields, h1]; simp only; rw [if_neg h2]; rfl, rfl⟩
    | assign h1 h2 h3 => exact ⟨_, by rw [redisFields, h1]; simp only; rw [if_neg h2, if_neg h3]; rfl, rfl⟩
  · rintro ⟨f, hf, rfl⟩
    unfold redisFields at hf
    cases hc : u.cmd <;> simp only [hc] at hf
    · split at hf <;> cases hf; exact .ticket hc (by assumption)
    · split at hf <;> cases hf; exact .activate hc (by assumption)
    · split at hf <;> cases hf; exact .deactivate hc (by assumption)
    · split at hf
      · cases hf
      · split at hf <;> cases hf; exact .assign hc (by assumption) (by assumption)
    · cases hf

private theorem batch_of (us : List StateUpdate) : Batch us ((redisCmds us).map xaddArgs) := by
  induction us with
  | nil => exact .nil
  | cons u us ih =>
    cases hf : redisFields u with
    | ok f =>
      rw [redisCmds_cons_ok hf]
      exact .store ((stores_iff u _).2 ⟨f, hf, rfl⟩) ih
    | error m =>
      have : redisCmds (u :: us) = redisCmds us := by simp [redisCmds, hf]
      rw [this]
      refine .skip (fun c hc => ?_) ih
      obtain ⟨f, h, -⟩ := (stores_iff u c).1 hc
      rw [hf] at h; cases h

private theorem fmtInt_short {n : Int} (h1 : -2 ^ 64 < n) (h2 : n < 2 ^ 64) : (fmtInt n).length ≤ maxBulk := by
  have key : ∀ k : Nat, k < 2 ^ 64 → (fmtNat k).length ≤ 20 := fun k hk =>
    (Nat.length_toDigits_le_iff (by decide) (by decide)).2 (by omega)
  cases n with
  | ofNat k =>
    have := key k (by simp only [Int.ofNat_eq_natCast] at h2; omega)
    exact Nat.le_trans this (by decide)
  | negSucc k =>
    have := key (k + 1) (by omega)
    have e : (fmtInt (Int.negSucc k)).length = (fmtNat (k + 1)).length + 1 := rfl
    rw [e]
    exact Nat.le_trans (Nat.succ_le_succ this) (by decide)

/-- **C120.** However many bytes of a batch reach Redis, and whatever bytes the updates hold, Redis takes
commands out of them that store these updates, in order, and at the end the trimming; all of them if all
bytes arrive. -/
theorem C120_batch (cfg : Config) (nowS : Int) (us : List StateUpdate) (hs : Sized us)
    (h1 : -2 ^ 64 < nowS - cfg.ttl) (h2 : nowS - cfg.ttl < 2 ^ 64) :
    ∃ cs, Batch us cs ∧ ∀ n, ∃ k,
      cmdsOf (((batch cfg nowS us).flatMap command).take n) =
        (cs ++ [["XTRIM".toList, "om-replication".toList, "MINID".toList, fmtInt (nowS - cfg.ttl)]]).take k ∧
      (((batch cfg nowS us).flatMap command).length ≤ n → k = cs.length + 1) := by
  refine ⟨_, batch_of us, fun n => ⟨whole (batch cfg nowS us) n, ?_, fun hn => ?_⟩⟩
  · rw [cmdsOf_take (batch_fits (fun u hu => hs u hu) (fmtInt_short h1 h2))]
    rfl
  · rw [whole_all hn]; simp [batch]

/-- An id that could be a command is an id. -/
example : cmdsOf ((batch Config.default 1700000000
      [⟨.activate, "1-0\r\n*1\r\n$8\r\nFLUSHALL\r\n".toList, []⟩, ⟨.ticket, [], []⟩]).flatMap command) =
    [["XADD".toList, "om-replication".toList, "*".toList, "activate".toList, "1-0\r\n*1\r\n$8\r\nFLUSHALL\r\n".toList],
      ["XTRIM".toList, "om-replication".toList, "MINID".toList, "1699999400".toList]] := by decide +kernel
example : Sized [⟨.activate, "1-0\r\n*1\r\n$8\r\nFLUSHALL\r\n".toList, []⟩] := by
  intro u hu; simp only [List.mem_singleton] at hu; subst hu; exact ⟨by decide, by decide⟩

/-- **C120** for polls. -/
theorem C120_poll (env : GoMap Str) (i : RId) (h1 : i.1 < 2 ^ 64) (h2 : i.2 < 2 ^ 64) (count block : Int)
    (hc : Says env "OM_CACHE_IN_MAX_UPDATES_PER_POLL".toList count) (hb : Says env "OM_CACHE_IN_WAIT_TIMEOUT_MS".toList block) :
    cmdsOf (command (xreadCmd env i.fmt)) =
      [["XREAD".toList, "COUNT".toList, fmtInt count, "BLOCK".toList, fmtInt block, "STREAMS".toList,
        "om-replication".toList, fmtNat i.1 ++ '-' :: fmtNat i.2]] := by
  have rc := Conf.says_range hc
  have rb := Conf.says_range hb
  have ec := Conf.getString_says hc
  have eb := Conf.getString_says hb
  have hi : i.fmt.length ≤ maxBulk := by
    have e : i.fmt.length = (fmtNat i.1).length + ((fmtNat i.2).length + 1) := by
      show (fmtNat i.1 ++ '-' :: fmtNat i.2).length = _
      simp
    have a : (fmtNat i.1).length ≤ 20 := (Nat.length_toDigits_le_iff (by decide) (by decide)).2 (by omega)
    have b : (fmtNat i.2).length ≤ 20 := (Nat.length_toDigits_le_iff (by decide) (by decide)).2 (by omega)
    have : (41 : Nat) ≤ maxBulk := by decide
    omega
  have hf : Fits (xreadCmd env i.fmt) := xreadCmd_fits hi (by rw [ec]; exact fmtInt_short (by omega) (by omega))
    (by rw [eb]; exact fmtInt_short (by omega) (by omega))
  have := cmdsOf_take (cs := [xreadCmd env i.fmt]) (by intro c hc; simp only [List.mem_singleton] at hc; subst hc; exact hf)
    (command (xreadCmd env i.fmt)).length
  rw [whole_all (by simp)] at this
  simp only [List.flatMap_cons, List.flatMap_nil, List.append_nil, List.take_length] at this
  rw [this, xreadCmd, ec, eb]
  rfl

example : cmdsOf (command (xreadCmd [] (RId.fmt (5, 3)))) =
    [["XREAD".toList, "COUNT".toList, "10000".toList, "BLOCK".toList, "1500".toList, "STREAMS".toList,
      "om-replication".toList, "5-3".toList]] :=
  C120_poll [] (5, 3) (by decide) (by decide) 10000 1500 (.inr ⟨.inl rfl, by decide +kernel⟩) (.inr ⟨.inl rfl, by decide +kernel⟩)

/-! ## C121, C122: connections -/

/-- The texts of refusals are one line (Redis sees to it). -/
structure _root_.OM.Resp.Net.Plain (net : Net) : Prop where
  login : ∀ u p m, net.acl u p = some m → '\n' ∉ m
  cmds : ∀ e ∈ net.cmds, ∀ m, e.fail = some m → '\n' ∉ m

/-- The log-in as `user` with `password` succeeds: it arrives, Redis accepts it, and its answer "+OK\r\n" arrives. -/
def LoggedIn (net : Net) (user password : Str) : Prop :=
  net.acl user password = none ∧ (command ["AUTH".toList, user, password]).length ≤ net.authCut.sent ∧ 5 ≤ net.authCut.back

private theorem says_sized {env : GoMap Str} (he : SizedEnv env) {key d v : Str} (hd : d ≠ []) (hl : d.length ≤ 2 ^ 29)
    (h : SaysText env key d v) : v ≠ [] ∧ v.length ≤ maxBulk := by
  rcases h with ⟨h, hv⟩ | ⟨-, rfl⟩
  · exact ⟨hv, he _ _ h⟩
  · exact ⟨hd, hl⟩

private theorem dial_says {env : GoMap Str} (he : SizedEnv env) {net : Net} (hn : net.Plain) {ku kp u p : Str}
    (hu : SaysText env ku "default".toList u) (hp : SaysText env kp "om-redis".toList p)
    (du : Conf.defaults.load ku = some (.str "default".toList)) (dp : Conf.defaults.load kp = some (.str "om-redis".toList)) :
    dial (Conf.getString env ku) (Conf.getString env kp) net.acl net.authCut = true ↔ LoggedIn net u p := by
  rw [C86_text env ku _ u du hu, C86_text env kp _ p dp hp]
  obtain ⟨a, b⟩ := says_sized he (by decide) (by decide) hu
  obtain ⟨c, d⟩ := says_sized he (by decide) (by decide) hp
  exact dial_iff a c b d (hn.login u p)

/-- **C121** for writes: whatever happens to the connection, the call is one of `redisSend`: the log-in, the
batch and its replies all get through, or `SendUpdates` sees a failure and Redis has executed the commands that
had arrived in full (none before the log-in). -/
theorem C121_send (env : GoMap Str) (he : SizedEnv env) (cfg : Config) (nowS : Int) (net : Net) (hn : net.Plain) (s : Stream)
    (us : List StateUpdate) (hs : Sized us) (h1 : -2 ^ 64 < nowS - cfg.ttl) (h2 : nowS - cfg.ttl < 2 ^ 64)
    (hl : (redisCmds us).length < net.cmds.length) (u p : Str)
    (hu : SaysText env "OM_REDIS_WRITE_USER".toList "default".toList u)
    (hp : SaysText env "OM_REDIS_WRITE_PASSWORD".toList "om-redis".toList p) :
    ∃ lost, send env cfg nowS net s us =
        redisSend cfg ⟨net.cmds, nowS, (net.cmds[(redisCmds us).length]?).bind (·.fail), lost⟩ s us ∧
      (lost = none ↔ LoggedIn net u p ∧ ((batch cfg nowS us).flatMap command).length ≤ net.cut.sent ∧
        (encodes (execs s (batch cfg nowS us) net.cmds).2).length ≤ net.cut.back) ∧
      (¬ LoggedIn net u p → lost = some 0) := by
  have hd := dial_says he hn hu hp (by decide +kernel) (by decide +kernel)
  have hf := batch_fits (cfg := cfg) (nowS := nowS) (us := us) (fun u hu => hs u hu) (fmtInt_short h1 h2)
  have hb : (batch cfg nowS us).length ≤ net.cmds.length := by simp [batch]; omega
  unfold send
  by_cases h : LoggedIn net u p
  · rw [if_pos (hd.2 h)]
    dsimp only
    by_cases ht : Through s (batch cfg nowS us) net.cmds net.cut
    · refine ⟨none, ?_, ⟨fun _ => ⟨h, ht⟩, fun _ => rfl⟩, fun h' => absurd h h'⟩
      rw [exchange_through hf hn.cmds hb ht]
      obtain ⟨a, b⟩ := execs_batch (cfg := cfg) h2 (s := s) hl
      simp only [redisSend, Option.map_some, a, b]
    · refine ⟨some (whole (batch cfg nowS us) net.cut.sent), ?_, ⟨fun h => (by cases h), fun h' => absurd h'.2 ht⟩, fun h' => absurd h h'⟩
      rw [exchange_cut hf hn.cmds hb ht]
      simp only [redisSend, Option.map_none, execs_part h2 hl _ (some (whole (batch cfg nowS us) net.cut.sent))]
  · rw [if_neg fun h' => h (hd.1 h')]
    refine ⟨some 0, ?_, ⟨fun h => (by cases h), fun h' => absurd h'.1 h⟩, fun _ => rfl⟩
    simp [redisSend, execPart, execCmds]

private def exUs : List StateUpdate := [⟨.ticket, [], "t".toList⟩, ⟨.activate, "5-1".toList, []⟩]
private def exNet (sent back : Nat) : Net := ⟨fun _ _ => none, ⟨100, 5⟩, List.replicate 3 ⟨7, none⟩, ⟨sent, back⟩⟩

/-- Cut within the second command: the first update is stored, nothing else. -/
example : (send [] Config.default 0 (exNet 100 0) Stream.empty exUs).1.entries = [((7, 0), ["ticket".toList, "t".toList])] := by
  decide +kernel
example : (send [] Config.default 0 (exNet 300 40) Stream.empty exUs).2.map (·.result) = [[], []] ∧
    (send [] Config.default 0 (exNet 300 100) Stream.empty exUs).2.map (·.result) = ["7-0".toList, "7-1".toList] := by
  decide +kernel
example (sent back : Nat) : (exNet sent back).Plain :=
  ⟨fun _ _ _ h => (by cases h), fun e he m h => by obtain rfl := List.eq_of_mem_replicate he; cases h⟩

private theorem execCmds_from (s : Stream) (fs : List (List Str)) (es : List CmdEnv) :
    ∀ e ∈ (execCmds s fs es).1.entries, e ∈ s.entries ∨ e.2 ∈ fs := by
  induction fs generalizing s es with
  | nil => intro e he; cases es <;> exact .inl he
  | cons f fs ih =>
    cases es with
    | nil => intro e he; exact .inl he
    | cons c es =>
      intro e he
      rw [execCmds] at he
      cases hf : c.fail with
      | some m =>
        rw [hf] at he
        exact (ih s es e he).imp_right fun h => List.mem_cons_of_mem _ h
      | none =>
        rw [hf] at he
        rcases ih _ es e he with h | h
        · rw [Stream.xadd] at h
          rcases List.mem_append.1 h with h | h
          · exact .inl h
          · simp only [List.mem_singleton] at h; subst h; exact .inr (by simp)
        · exact .inr (List.mem_cons_of_mem _ h)

private theorem execTrim_from (cfg : Config) (nowS : Int) (f : Option Str) (s : Stream) :
    ∀ e ∈ (execTrim cfg nowS f s).1.entries, e ∈ s.entries := by
  intro e he
  unfold execTrim at he
  cases f with
  | some m => exact he
  | none =>
    dsimp only at he
    split at he
    · exact he
    · exact (List.mem_filter.1 he).1

/-- **C121**: an entry of the stream after a call was there before or is one whole update of the call. -/
theorem C121_whole_updates (env : GoMap Str) (he : SizedEnv env) (cfg : Config) (nowS : Int) (net : Net) (hn : net.Plain)
    (s : Stream) (us : List StateUpdate) (hs : Sized us) (h1 : -2 ^ 64 < nowS - cfg.ttl) (h2 : nowS - cfg.ttl < 2 ^ 64)
    (hl : (redisCmds us).length < net.cmds.length) :
    ∀ e ∈ (send env cfg nowS net s us).1.entries,
      e ∈ s.entries ∨ ∃ u ∈ us, Stores u (["XADD".toList, "om-replication".toList, "*".toList] ++ e.2) := by
  have txt : ∀ key d, ∃ v, SaysText env key d v := by
    intro key d
    cases h : env.load key with
    | none => exact ⟨d, .inr ⟨.inl h, rfl⟩⟩
    | some v =>
      by_cases hv : v = []
      · subst hv; exact ⟨d, .inr ⟨.inr h, rfl⟩⟩
      · exact ⟨v, .inl ⟨h, hv⟩⟩
  obtain ⟨u, hu⟩ := txt "OM_REDIS_WRITE_USER".toList "default".toList
  obtain ⟨p, hp⟩ := txt "OM_REDIS_WRITE_PASSWORD".toList "om-redis".toList
  obtain ⟨lost, h, -⟩ := C121_send env he cfg nowS net hn s us hs h1 h2 hl u p hu hp
  rw [h]
  have fin : ∀ e : RId × List Str, e.2 ∈ redisCmds us →
      ∃ u ∈ us, Stores u (["XADD".toList, "om-replication".toList, "*".toList] ++ e.2) := by
    intro e he
    obtain ⟨u, hu, hf⟩ := List.mem_filterMap.1 he
    refine ⟨u, hu, (stores_iff u _).2 ⟨e.2, ?_, rfl⟩⟩
    cases hr : redisFields u with
    | ok f => rw [hr] at hf; cases hf; rfl
    | error m => rw [hr] at hf; cases hf
  intro e he
  cases lost with
  | none =>
    rw [redisSend] at he
    rcases execCmds_from _ _ _ e (execTrim_from _ _ _ _ e he) with h | h
    · exact .inl h
    · exact .inr (fin e h)
  | some k =>
    have he : e ∈ (execPart cfg _ s us k).entries := he
    unfold execPart at he
    have : e ∈ (execCmds s ((redisCmds us).take k) net.cmds).1.entries := by
      dsimp only at he
      split at he
      · exact execTrim_from _ _ _ _ e he
      · exact he
    rcases execCmds_from _ _ _ e this with h | h
    · exact .inl h
    · exact .inr (fin e (List.mem_of_mem_take h))

/-- **C121** for polls: what comes back is what the configured poll finds, if the log-in, the command and its
reply get through and Redis does not refuse; else nothing, and the next poll starts where this one did. -/
theorem C121_poll (env : GoMap Str) (he : SizedEnv env) (net : Net) (hn : net.Plain) (s : Stream) (i : RId)
    (h1 : i.1 < 2 ^ 64) (h2 : i.2 < 2 ^ 64) (e : CmdEnv) (hc : net.cmds = [e]) (u p : Str)
    (hu : SaysText env "OM_REDIS_READ_USER".toList "default".toList u)
    (hp : SaysText env "OM_REDIS_READ_PASSWORD".toList "om-redis".toList p) :
    (LoggedIn net u p → e.fail = none → (command (xreadCmd env i.fmt)).length ≤ net.cut.sent →
        (encode (xread s ((xreadCmd env i.fmt).drop 1))).length ≤ net.cut.back →
        poll env net s i.fmt = (Conf.configuredPoll env s i).map fun r => (r.1, r.2.fmt)) ∧
    (¬ (LoggedIn net u p ∧ e.fail = none ∧ (command (xreadCmd env i.fmt)).length ≤ net.cut.sent ∧
        (encode (xread s ((xreadCmd env i.fmt).drop 1))).length ≤ net.cut.back) →
        poll env net s i.fmt = some ([], i.fmt)) := by
  have hd := dial_says he hn hu hp (by decide +kernel) (by decide +kernel)
  have small : ∀ key n, Conf.defaults.load key = some (.int n) → (fmtInt n).length ≤ maxBulk →
      (Conf.getString env key).length ≤ maxBulk := by
    intro key n hk hn
    cases h : env.load key with
    | none => rw [Conf.getString, Conf.get_unset (.inl h), hk]; exact hn
    | some v =>
      by_cases hv : v = []
      · subst hv; rw [Conf.getString, Conf.get_unset (.inr h), hk]; exact hn
      · rw [Conf.getString, Conf.get_set h hv]; exact he _ _ h
  have hi : i.fmt.length ≤ maxBulk := by
    have e : i.fmt.length = (fmtNat i.1).length + ((fmtNat i.2).length + 1) := by
      show (fmtNat i.1 ++ '-' :: fmtNat i.2).length = _
      simp
    have a : (fmtNat i.1).length ≤ 20 := (Nat.length_toDigits_le_iff (by decide) (by decide)).2 (by omega)
    have b : (fmtNat i.2).length ≤ 20 := (Nat.length_toDigits_le_iff (by decide) (by decide)).2 (by omega)
    have : (41 : Nat) ≤ maxBulk := by decide
    omega
  have hf : ∀ c ∈ [xreadCmd env i.fmt], Fits c := by
    intro c hc; simp only [List.mem_singleton] at hc; subst hc
    exact xreadCmd_fits hi (small _ 10000 (by decide +kernel) (by decide +kernel))
      (small _ 1500 (by decide +kernel) (by decide +kernel))
  have hx : exec s e.nowMs (xreadCmd env i.fmt) = (s, xread s ((xreadCmd env i.fmt).drop 1)) := by
    unfold xreadCmd exec
    dsimp only
    rw [if_neg (by decide), if_neg (by decide), if_pos rfl]
    rfl
  have hexec : (execs s [xreadCmd env i.fmt] [e]).2 =
      [match e.fail with | some m => .err m | none => xread s ((xreadCmd env i.fmt).drop 1)] := by
    cases hf : e.fail with
    | some m => simp [execs, hf]
    | none => simp only [execs, hf, hx]
  have one : ([xreadCmd env i.fmt]).flatMap command = command (xreadCmd env i.fmt) := by simp
  unfold poll
  constructor
  · intro ha hb h3 h4
    rw [if_pos (hd.2 ha)]
    have ht : Through s [xreadCmd env i.fmt] net.cmds net.cut := by
      refine ⟨by rw [one]; exact h3, ?_⟩
      rw [hc, hexec, hb]
      simp only [encodes, List.append_nil]; exact h4
    rw [exchange_through hf hn.cmds (by rw [hc]; simp) ht, hc, hexec, hb]
    simp only [Option.bind_some, List.getElem?_cons_zero]
    have := take_xread (env := env) (s := s) h1 h2 e.nowMs
    rw [hx] at this
    exact this
  · intro hno
    by_cases ha : LoggedIn net u p
    · rw [if_pos (hd.2 ha)]
      by_cases ht : Through s [xreadCmd env i.fmt] net.cmds net.cut
      · rw [exchange_through hf hn.cmds (by rw [hc]; simp) ht, hc, hexec]
        cases hb : e.fail with
        | some m => rfl
        | none =>
          exfalso
          refine hno ⟨ha, hb, ?_, ?_⟩
          · have := ht.1; rwa [one] at this
          · have := ht.2
            rw [hc, hexec, hb] at this
            simpa only [encodes, List.append_nil] using this
      · rw [exchange_cut hf hn.cmds (by rw [hc]; simp) ht]; rfl
    · rw [if_neg fun h' => ha (hd.1 h')]; rfl

private theorem pollUpdates_limit {s : Stream} {i : RId} {us : List StateUpdate} {r : RId} {n : Nat}
    (h : pollUpdates s 0 i = some (us, r)) (hn : us.length ≤ n) : pollUpdates s n i = some (us, r) := by
  unfold pollUpdates at h ⊢
  have hx : s.xread n i = s.xread 0 i := by
    obtain ⟨vs, hm, hv⟩ := Option.map_eq_some_iff.1 h
    have hl := mapM_length hm
    have : vs = us := congrArg Prod.fst hv
    subst this
    unfold Stream.xread at hl ⊢
    simp only [if_true] at hl ⊢
    split
    · rfl
    · exact List.take_of_length_le (by omega)
  rw [hx]; exact h

/-- **C121**, there and back: updates written over a connection that holds are read, over another that holds, by a
server that had read everything before, as what was written; all the way through bytes. -/
theorem C121_round_trip (env env' : GoMap Str) (he : SizedEnv env) (he' : SizedEnv env') (cfg : Config) (nowS : Int) (net net' : Net)
    (hn : net.Plain) (hn' : net'.Plain) (s : Stream) (hinv : s.Inv) (us : List StateUpdate)
    (hs : Sized us) (h1 : -2 ^ 64 < nowS - cfg.ttl) (h2 : nowS - cfg.ttl < 2 ^ 64)
    (hl : us.length < net.cmds.length) (hst : ∀ u ∈ us, Storable u) (hnf : ∀ c ∈ net.cmds, c.fail = none)
    (H : Nat) (h0 : ∀ e ∈ s.entries, H ≤ e.1.1) (hH : ∀ c ∈ net.cmds, H ≤ c.nowMs) (ht : nowS - cfg.ttl ≤ H)
    (h3 : s.last.1 < 2 ^ 64) (h4 : s.last.2 < 2 ^ 64) (u p u' p' : Str)
    (hu : SaysText env "OM_REDIS_WRITE_USER".toList "default".toList u)
    (hp : SaysText env "OM_REDIS_WRITE_PASSWORD".toList "om-redis".toList p)
    (hu' : SaysText env' "OM_REDIS_READ_USER".toList "default".toList u')
    (hp' : SaysText env' "OM_REDIS_READ_PASSWORD".toList "om-redis".toList p')
    (count block : Int) (hc : Says env' "OM_CACHE_IN_MAX_UPDATES_PER_POLL".toList count)
    (hb : Says env' "OM_CACHE_IN_WAIT_TIMEOUT_MS".toList block) (hb0 : 0 ≤ block) (hcount : count = 0 ∨ (us.length : Int) ≤ count)
    (hw : LoggedIn net u p ∧ ((batch cfg nowS us).flatMap command).length ≤ net.cut.sent ∧
      (encodes (execs s (batch cfg nowS us) net.cmds).2).length ≤ net.cut.back)
    (e : CmdEnv) (hcmd : net'.cmds = [e]) (hef : e.fail = none)
    (hr : LoggedIn net' u' p' ∧ (command (xreadCmd env' s.last.fmt)).length ≤ net'.cut.sent ∧
      (encode (xread (send env cfg nowS net s us).1 ((xreadCmd env' s.last.fmt).drop 1))).length ≤ net'.cut.back) :
    (∀ r ∈ (send env cfg nowS net s us).2, r.err = none) ∧
    ∃ next, poll env' net' (send env cfg nowS net s us).1 s.last.fmt =
      some (List.zipWith (fun u r => replicated u r.result) us (send env cfg nowS net s us).2, next) := by
  have hlen : (redisCmds us).length ≤ us.length := List.length_filterMap_le _ _
  obtain ⟨lost, hsend, hlost, -⟩ := C121_send env he cfg nowS net hn s us hs h1 h2 (by omega) u p hu hp
  have hln := hlost.2 hw
  subst hln
  obtain ⟨r1, next, r2⟩ := C21_round_trip cfg ⟨net.cmds, nowS, (net.cmds[(redisCmds us).length]?).bind (·.fail), none⟩ H s hinv us
    hst rfl (by simp only; omega) hnf h0 ⟨hH, ht⟩
  rw [← hsend] at r1 r2
  refine ⟨r1, next.fmt, ?_⟩
  rw [(C121_poll env' he' net' hn' (send env cfg nowS net s us).1 s.last h3 h4 e hcmd u' p' hu' hp').1 hr.1 hef hr.2.1 hr.2.2]
  have rc := Conf.says_range hc
  have rb := Conf.says_range hb
  have hargs : Conf.xreadArgs env' = some (count.toNat, block.toNat) := by
    unfold Conf.xreadArgs
    rw [(C86_numbers_partial env' _ _ hc).2.2, (C86_numbers_partial env' _ _ hb).2.2]
    simp only
    rw [if_neg (by omega)]
  rw [Conf.configuredPoll, hargs]
  simp only
  have hle : (List.zipWith (fun u r => replicated u r.result) us (send env cfg nowS net s us).2).length ≤ us.length := by
    rw [List.length_zipWith]; omega
  have : pollUpdates (send env cfg nowS net s us).1 count.toNat s.last =
      some (List.zipWith (fun u r => replicated u r.result) us (send env cfg nowS net s us).2, next) := by
    rcases hcount with h | h
    · subst h; exact r2
    · exact pollUpdates_limit r2 (by omega)
  rw [this]; rfl

/-- With ids and tickets of any bytes. -/
example :
    let us : List StateUpdate := [⟨.ticket, [], "\r\n$0\r\n".toList⟩, ⟨.activate, "5-1\r\n-ERR".toList, []⟩]
    let r := send [] Config.default 0 (exNet 300 100) Stream.empty us
    let net' : Net := ⟨fun _ _ => none, ⟨100, 5⟩, [⟨9, none⟩], ⟨200, 300⟩⟩
    poll [] net' r.1 "0-0".toList =
      some ([⟨.ticket, "7-0".toList, "\r\n$0\r\n".toList⟩, ⟨.activate, "5-1\r\n-ERR".toList, []⟩], "7-1".toList) := by
  decide +kernel

/-! ## C122: log-in -/

/-- **C122** for writes: Redis is asked to let in the configured user with the configured password; a Redis that
does not know them is not written to, and every valid update is reported as with a broken connection. -/
theorem C122_write (env : GoMap Str) (he : SizedEnv env) (cfg : Config) (nowS : Int) (net : Net) (hn : net.Plain) (s : Stream)
    (us : List StateUpdate) (u p : Str) (hu : SaysText env "OM_REDIS_WRITE_USER".toList "default".toList u)
    (hp : SaysText env "OM_REDIS_WRITE_PASSWORD".toList "om-redis".toList p) :
    (LoggedIn net u p → send env cfg nowS net s us =
      ((exchange s (batch cfg nowS us) net.cmds net.cut).1,
        redisResponses us ((exchange s (batch cfg nowS us) net.cmds net.cut).2.map fun rs => rs.dropLast.map Rep.toReply))) ∧
    (¬ LoggedIn net u p → send env cfg nowS net s us = (s, redisResponses us none)) := by
  have hd := dial_says he hn hu hp (by decide +kernel) (by decide +kernel)
  unfold send
  exact ⟨fun h => by rw [if_pos (hd.2 h)], fun h => by rw [if_neg fun h' => h (hd.1 h')]⟩

/-- **C122** for polls. -/
theorem C122_read (env : GoMap Str) (he : SizedEnv env) (net : Net) (hn : net.Plain) (s : Stream) (i : Str) (u p : Str)
    (hu : SaysText env "OM_REDIS_READ_USER".toList "default".toList u)
    (hp : SaysText env "OM_REDIS_READ_PASSWORD".toList "om-redis".toList p) (h : ¬ LoggedIn net u p) :
    poll env net s i = some ([], i) := by
  have hd := dial_says he hn hu hp (by decide +kernel) (by decide +kernel)
  unfold poll
  rw [if_neg fun h' => h (hd.1 h')]
  rfl

/-- Exactly the configured user gets in: with a Redis that knows one user. -/
theorem C122_one_user (env : GoMap Str) (he : SizedEnv env) (u p user password m : Str) (hm : '\n' ∉ m) (c : Cut)
    (hu : SaysText env "OM_REDIS_WRITE_USER".toList "default".toList u)
    (hp : SaysText env "OM_REDIS_WRITE_PASSWORD".toList "om-redis".toList p)
    (h1 : (command ["AUTH".toList, u, p]).length ≤ c.sent) (h2 : 5 ≤ c.back) (cfg : Config) (nowS : Int) (s : Stream)
    (cmds : List CmdEnv) (ho : ∀ e ∈ cmds, ∀ m, e.fail = some m → '\n' ∉ m) (hl : 2 ≤ cmds.length) (hf : ∀ e ∈ cmds, e.fail = none)
    (up : StateUpdate) (hup : Storable up) (hs : Sized [up]) (ht1 : -2 ^ 64 < nowS - cfg.ttl) (ht2 : nowS - cfg.ttl < 2 ^ 64)
    (cut : Cut) (h3 : ((batch cfg nowS [up]).flatMap command).length ≤ cut.sent) :
    (send env cfg nowS ⟨fun a b => if a = user ∧ b = password then none else some m, c, cmds, cut⟩ s [up]).1.last ≠ s.last ↔
      u = user ∧ p = password := by
  have hn : Net.Plain ⟨fun a b => if a = user ∧ b = password then none else some m, c, cmds, cut⟩ := by
    refine ⟨fun a b m' h => ?_, ho⟩
    dsimp only at h
    split at h
    · cases h
    · cases h; exact hm
  have hlog : LoggedIn ⟨fun a b => if a = user ∧ b = password then none else some m, c, cmds, cut⟩ u p ↔
      u = user ∧ p = password := by
    unfold LoggedIn
    dsimp only
    constructor
    · rintro ⟨h, -⟩
      by_cases hup : u = user ∧ p = password
      · exact hup
      · rw [if_neg hup] at h; cases h
    · intro h; exact ⟨if_pos h, h1, h2⟩
  obtain ⟨w1, w2⟩ := C122_write env he cfg nowS _ hn s [up] u p hu hp
  by_cases h : u = user ∧ p = password
  · rw [w1 (hlog.2 h)]
    simp only [h, and_self, iff_true]
    obtain ⟨f, hfs⟩ := (redisValid_iff up).1 ((storable_iff up).1 hup)
    have hr : redisCmds [up] = [f] := by rw [redisCmds_cons_ok hfs]; rfl
    have hx : (exchange s (batch cfg nowS [up]) cmds cut).1 = (execs s (batch cfg nowS [up]) cmds).1 := by
      unfold exchange
      dsimp only
      rw [cmdsOf_take (batch_fits (fun u hu => hs u hu) (fmtInt_short ht1 ht2)), whole_all h3, List.take_length]
    rw [hx, (execs_batch ht2 (by rw [hr]; simp; omega)).1, hr]
    have hlast : ∀ (f : Option Str) (s : Stream), (execTrim cfg nowS f s).1.last = s.last := by
      intro f s
      unfold execTrim
      cases f with
      | some m => rfl
      | none => dsimp only; split <;> rfl
    rw [hlast]
    cases cmds with
    | nil => simp at hl
    | cons e es =>
      simp only [execCmds, hf e (by simp)]
      intro h'
      have := lt_nextId s.last e.nowMs
      rw [show nextId s.last e.nowMs = s.last from h'] at this
      exact RId.lt_irrefl _ this
  · rw [w2 fun h' => h (hlog.1 h')]
    simp [h]

private def users : Acl := fun u p => if u = "om".toList ∧ p = "secret".toList then none else some "WRONGPASS".toList
private def withUser (key value : String) : GoMap Str :=
  [("OM_REDIS_WRITE_USER".toList, "om".toList), ("OM_REDIS_READ_USER".toList, "om".toList), (key.toList, value.toList)]

/-- The password for reading is not the one for writing, and an empty one is the default one. -/
example : (send (withUser "OM_REDIS_WRITE_PASSWORD" "secret") Config.default 0 { exNet 300 100 with acl := users } Stream.empty exUs).1.last = (7, 1) ∧
    (send (withUser "OM_REDIS_READ_PASSWORD" "secret") Config.default 0 { exNet 300 100 with acl := users } Stream.empty exUs).1.last = (0, 0) ∧
    (send (withUser "OM_REDIS_WRITE_PASSWORD" "") Config.default 0
      { exNet 300 100 with acl := fun _ p => if p = "om-redis".toList then none else some "WRONGPASS".toList } Stream.empty exUs).1.last = (7, 1) := by
  decide +kernel

end OM.Props
