import Verif.Lemmas.Redis
import Verif.Lemmas.Poll
import Verif.Lemmas.Cache
import Verif.Props.Cache
import Verif.Model.Handlers
/-!
# Properties C10, C11, C21, C22, C32–C35: the Redis replicator
-/
namespace OM.Props
open OM.Spec

/-- An update `SendUpdates` accepts: it names what it needs. -/
def Storable (u : StateUpdate) : Prop :=
  match u.cmd with
  | .ticket => u.value ≠ []
  | .activate => u.key ≠ []
  | .deactivate => u.key ≠ []
  | .assign => u.key ≠ [] ∧ u.value ≠ []
  | .other _ => False

theorem storable_iff (u : StateUpdate) : Storable u ↔ redisValid u = true := by
  rw [redisValid_iff]
  unfold Storable redisFields
  cases hc : u.cmd <;> simp only
  · by_cases h : u.value = [] <;> simp [h]
  · by_cases h : u.key = [] <;> simp [h]
  · by_cases h : u.key = [] <;> simp [h]
  · by_cases h : u.key = [] <;> by_cases h2 : u.value = [] <;> simp [h, h2]
  · simp

/-! ## C10, C11: success responses -/

/-- The core fact: when the replies of a batch arrive, a storable update all of whose
predecessors in the batch are storable and whose response carries no error was appended
to the stream, under the id its response names. -/
private theorem success_is_stored (cfg : Config) (env : SendEnv) (H : Nat) (s : Stream)
    (pre : List StateUpdate) (u : StateUpdate) (post : List StateUpdate)
    (hpre : ∀ v ∈ pre, Storable v) (hu : Storable u)
    (hlost : env.lost = none) (hcm : (pre ++ u :: post).length ≤ env.cmds.length)
    (h0 : ∀ e ∈ s.entries, H ≤ e.1.1) (hp : env.Plausible cfg H)
    (r : StateResponse) (hr : (redisSend cfg env s (pre ++ u :: post)).2[pre.length]? = some r)
    (hok : r.err = none) :
    ∃ (id : RId) (a b : List (RId × List Str)) (f : List Str), redisFields u = .ok f ∧ r.result = id.fmt ∧
      (redisSend cfg env s (pre ++ u :: post)).1.entries = s.entries ++ a ++ (id, f) :: b := by
  obtain ⟨f, hf⟩ := (redisValid_iff u).1 ((storable_iff u).1 hu)
  have hcmds : redisCmds (pre ++ u :: post) = redisCmds pre ++ f :: redisCmds post := by
    rw [redisCmds_append, redisCmds_cons_ok hf]
  have hpl : (redisCmds pre).length = pre.length :=
    redisCmds_length_valid fun v hv => (storable_iff v).1 (hpre v hv)
  have hle : (redisCmds (pre ++ u :: post)).length ≤ env.cmds.length :=
    Nat.le_trans (redisCmds_length_le _) hcm
  obtain ⟨os, o1, o2, o3⟩ := execCmds_aligned s (redisCmds (pre ++ u :: post)) env.cmds hle
  have hm := execCmds_ms H s (redisCmds (pre ++ u :: post)) env.cmds h0 hp.1
  have htrim : (execTrim cfg env.nowS env.trimFail (execCmds s (redisCmds (pre ++ u :: post)) env.cmds).1).1
      = (execCmds s (redisCmds (pre ++ u :: post)) env.cmds).1 :=
    execTrim_noop fun e he => by have := hm e he; have := hp.2; omega
  simp only [redisSend, hlost, redisResponses] at hr ⊢
  rw [htrim, o3]
  -- split the outcomes at our command
  rw [hcmds] at o1 o2 hr ⊢
  obtain ⟨os1, o', os2, rfl, hos1⟩ : ∃ os1 o' os2, os = os1 ++ o' :: os2 ∧ os1.length = pre.length := by
    have hlt : pre.length < os.length := by rw [o1]; simp [hpl]
    exact ⟨os.take pre.length, os[pre.length], os.drop (pre.length + 1),
      by rw [List.getElem_cons_drop, List.take_append_drop], by rw [List.length_take]; omega⟩
  generalize execCmds s (redisCmds pre ++ f :: redisCmds post) env.cmds = ex at *
  have hri : ∃ q, ex.2[pre.length]? = some q ∧ ReplyOf o' q := by
    have hlen := o2.length_eq
    have hlt : pre.length < ex.2.length := by rw [← hlen]; simp [hos1]
    refine ⟨ex.2[pre.length], List.getElem?_eq_getElem hlt, ?_⟩
    have := List.forall₂_iff_get.1 o2
    have h2 := this.2 pre.length (by simp [hos1]) hlt
    simpa [hos1.symm] using h2
  obtain ⟨q, hq, hro⟩ := hri
  rw [respLoop_getElem? _ _ pre.length u q (by simp) hq] at hr
  injection hr with hr
  subst hr
  simp only [respond, hf] at hok ⊢
  cases o' with
  | none =>
    obtain ⟨m, rfl⟩ := hro
    simp [redisString] at hok
  | some id =>
    simp only [ReplyOf] at hro
    subst hro
    refine ⟨id, addedBy os1 (redisCmds pre), addedBy os2 (redisCmds post), f, rfl, rfl, ?_⟩
    unfold addedBy
    rw [List.zip_append (by rw [hos1, hpl]), List.filterMap_append]
    simp

/-- **C10 (Redis, what holds).** Partial: full C10 has no condition on the other updates
of the batch; `C10_redis_refuted` shows one is needed.  If the replies arrived and every
update before `u` in its batch is storable, then a response without error names the
stream id under which that very update was appended. -/
theorem C10_redis_id_is_stored_id_partial (cfg : Config) (env : SendEnv) (H : Nat) (s : Stream)
    (pre : List StateUpdate) (u : StateUpdate) (post : List StateUpdate)
    (hpre : ∀ v ∈ pre, Storable v) (hu : Storable u)
    (hlost : env.lost = none) (hcm : (pre ++ u :: post).length ≤ env.cmds.length)
    (h0 : ∀ e ∈ s.entries, H ≤ e.1.1) (hp : env.Plausible cfg H)
    (r : StateResponse) (hr : (redisSend cfg env s (pre ++ u :: post)).2[pre.length]? = some r)
    (hok : r.err = none) :
    ∃ (id : RId) (a b : List (RId × List Str)) (f : List Str),
      (redisSend cfg env s (pre ++ u :: post)).1.entries = s.entries ++ a ++ (id, f) :: b ∧
      r.result = id.fmt ∧ decodeEntry (id, f) = some (replicated u r.result) := by
  obtain ⟨id, a, b, f, hf, h1, h2⟩ := success_is_stored cfg env H s pre u post hpre hu hlost hcm h0 hp r hr hok
  exact ⟨id, a, b, f, h2, h1, by rw [h1]; exact decodeEntry_fields hf id⟩

/-- A batch whose connection works and whose commands all succeed at second 1700000000. -/
def okEnv (n : Nat) : SendEnv := ⟨List.replicate n ⟨1700000000000, none⟩, 1700000000, none, none⟩

example : let us : List StateUpdate := [⟨.activate, "5-1".toList, []⟩, ⟨.ticket, [], "t".toList⟩]
    (∀ v ∈ us, Storable v) ∧ us.length ≤ (okEnv 2).cmds.length ∧ (okEnv 2).lost = none ∧
    (okEnv 2).nowS - Config.default.ttl ≤ 1600000000000 ∧
    (redisSend Config.default (okEnv 2) Stream.empty us).2.map (·.err) = [none, none] := by
  refine ⟨?_, by decide, rfl, by decide, by decide⟩
  intro v hv
  simp at hv
  rcases hv with rfl | rfl <;> simp [Storable]

/-- **C10 is false of the Redis replicator**: replies are matched to updates by position
although updates that fail validation get no reply.  With an empty assignment ahead of
two tickets, the first ticket's caller is given the second ticket's id. -/
theorem C10_redis_refuted :
    ¬ ∀ (cfg : Config) (env : SendEnv) (s : Stream) (us : List StateUpdate) (i : Nat) (u : StateUpdate)
        (r : StateResponse), env.lost = none → us.length ≤ env.cmds.length →
        us[i]? = some u → u.cmd = .ticket → (redisSend cfg env s us).2[i]? = some r → r.err = none →
        ∃ e ∈ (redisSend cfg env s us).1.entries, e.1.fmt = r.result ∧
          decodeEntry e = some (replicated u r.result) := by
  intro h
  have := h Config.default (okEnv 3) Stream.empty
    [⟨.assign, "5-1".toList, []⟩, ⟨.ticket, [], "A".toList⟩, ⟨.ticket, [], "B".toList⟩] 1
    ⟨.ticket, [], "A".toList⟩ ⟨RId.fmt (1700000000000, 1), none⟩ rfl (by decide) rfl rfl (by decide) rfl
  obtain ⟨e, he, h1, h2⟩ := this
  have hent : (redisSend Config.default (okEnv 3) Stream.empty
    [⟨.assign, "5-1".toList, []⟩, ⟨.ticket, [], "A".toList⟩, ⟨.ticket, [], "B".toList⟩]).1.entries
      = [((1700000000000, 0), [tyTicket, "A".toList]), ((1700000000000, 1), [tyTicket, "B".toList])] := by decide
  rw [hent] at he
  simp only [List.mem_cons, List.not_mem_nil, or_false] at he
  rcases he with rfl | rfl
  · have := RId.fmt_injective h1
    revert this; decide
  · revert h2; decide

/-- **C11 is false of the Redis replicator**: when the connection fails, every response
of the batch has an empty id and no error, and CreateTicket returns success. -/
theorem C11_success_means_stored_refuted :
    ¬ ∀ (cfg : Config) (env : SendEnv) (s : Stream) (us : List StateUpdate) (i : Nat) (u : StateUpdate)
        (r : StateResponse) (id : Str), us.length ≤ env.cmds.length → us[i]? = some u → u.cmd = .ticket →
        (redisSend cfg env s us).2[i]? = some r → createTicketReturn r = .ok id →
        ∃ e ∈ (redisSend cfg env s us).1.entries, ∃ id', decodeEntry e = some (replicated u id') := by
  intro h
  have := h Config.default { okEnv 1 with lost := some 0 } Stream.empty [⟨.ticket, [], "A".toList⟩] 0
    ⟨.ticket, [], "A".toList⟩ ⟨[], none⟩ [] (by decide) rfl rfl (by decide) rfl
  obtain ⟨e, he, -⟩ := this
  exact absurd he (by simp [redisSend, execPart, okEnv, execCmds, Stream.empty])

/-- **C11 (what holds).** Partial: full C11 covers connection loss and any batch.  If the
replies arrived and the batch up to `u` is storable, CreateTicket's success means the
ticket's creation is in the stream. -/
theorem C11_success_means_stored_partial (cfg : Config) (env : SendEnv) (H : Nat) (s : Stream)
    (pre : List StateUpdate) (u : StateUpdate) (post : List StateUpdate)
    (hpre : ∀ v ∈ pre, Storable v) (hu : Storable u)
    (hlost : env.lost = none) (hcm : (pre ++ u :: post).length ≤ env.cmds.length)
    (h0 : ∀ e ∈ s.entries, H ≤ e.1.1) (hp : env.Plausible cfg H)
    (r : StateResponse) (hr : (redisSend cfg env s (pre ++ u :: post)).2[pre.length]? = some r)
    (id : Str) (hok : createTicketReturn r = .ok id) :
    ∃ e ∈ (redisSend cfg env s (pre ++ u :: post)).1.entries, decodeEntry e = some (replicated u id) := by
  have herr : r.err = none ∧ r.result = id := by
    unfold createTicketReturn at hok
    split at hok
    · rename_i h; simp at hok; exact ⟨h, hok⟩
    · simp at hok
  obtain ⟨rid, a, b, f, h1, h2, h3⟩ :=
    C10_redis_id_is_stored_id_partial cfg env H s pre u post hpre hu hlost hcm h0 hp r hr herr.1
  exact ⟨(rid, f), by rw [h1]; simp, by rw [h3, herr.2]⟩

/-- **C11 (any batch).** Partial, as above.  Whatever else is in the batch, a response
without error and with a non-empty id names an entry that is in the stream. -/
theorem C11_nonempty_id_exists_partial (cfg : Config) (env : SendEnv) (H : Nat) (s : Stream)
    (us : List StateUpdate) (hcm : us.length ≤ env.cmds.length)
    (h0 : ∀ e ∈ s.entries, H ≤ e.1.1) (hp : env.Plausible cfg H)
    (r : StateResponse) (hr : r ∈ (redisSend cfg env s us).2) (hok : r.err = none) (hne : r.result ≠ []) :
    ∃ e ∈ (redisSend cfg env s us).1.entries, e.1.fmt = r.result := by
  unfold redisSend at hr ⊢
  cases hlost : env.lost with
  | some k =>
    simp only [hlost, redisResponses, List.mem_map] at hr
    obtain ⟨u, -, rfl⟩ := hr
    unfold initialResponse at hne
    split at hne <;> simp at hne
  | none =>
    simp only [hlost, redisResponses] at hr ⊢
    obtain ⟨os, o1, o2, o3⟩ := execCmds_aligned s (redisCmds us) env.cmds
      (Nat.le_trans (redisCmds_length_le _) hcm)
    have hm := execCmds_ms H s (redisCmds us) env.cmds h0 hp.1
    rw [execTrim_noop (fun e he => by have := hm e he; have := hp.2; omega), o3]
    -- the response came from a string reply
    have hstr : ∀ (us : List StateUpdate) (rs : List Reply), r ∈ respLoop us rs → .str r.result ∈ rs := by
      intro us
      induction us with
      | nil => intro rs h; simp [respLoop] at h
      | cons u us ih =>
        intro rs h
        cases rs with
        | nil =>
          simp only [respLoop, List.mem_cons] at h
          rcases h with rfl | h
          · unfold initialResponse at hne; split at hne <;> simp at hne
          · exact absurd (ih [] h) (by simp)
        | cons q rs =>
          simp only [respLoop, List.mem_cons] at h
          rcases h with h | h
          · have hq : q = .str r.result := by
              subst h
              unfold respond at hok ⊢
              cases hf : redisFields u with
              | error m => simp [hf] at hok
              | ok f =>
                simp only [hf] at hok ⊢
                cases q <;> simp_all [redisString]
            rw [hq]; simp
          · exact List.mem_cons_of_mem _ (ih rs h)
    have hin := hstr us _ hr
    clear hr hstr o3 hm
    have : ∀ (os : List (Option RId)) (rs : List Reply) (fs : List (List Str)), os.length = fs.length →
        List.Forall₂ ReplyOf os rs → .str r.result ∈ rs → ∃ e ∈ addedBy os fs, e.1.fmt = r.result := by
      intro os
      induction os with
      | nil => intro rs fs _ h2 h3; cases h2; simp at h3
      | cons o os ih =>
        intro rs fs h1 h2 h3
        cases fs with
        | nil => simp at h1
        | cons f fs =>
          cases h2 with
          | cons hq h2 =>
            rename_i q rs
            rcases List.mem_cons.1 h3 with h3 | h3
            · subst h3
              cases o with
              | none => obtain ⟨m, hm⟩ := hq; simp at hm
              | some id =>
                simp only [ReplyOf, Reply.str.injEq] at hq
                exact ⟨(id, f), by simp [addedBy], hq.symm⟩
            · obtain ⟨e, he, h⟩ := ih rs fs (by simpa using h1) h2 h3
              refine ⟨e, ?_, h⟩
              unfold addedBy at he ⊢
              cases o <;> simp at he ⊢
              · exact he
              · exact Or.inr he
    obtain ⟨e, he, h⟩ := this os _ _ o1 o2 hin
    exact ⟨e, by simp [he], h⟩

/-- A healthy connection; the second of the three updates is refused by Redis. -/
example : let env : SendEnv := ⟨[⟨1700000000000, none⟩, ⟨1700000000000, some "OOM".toList⟩, ⟨1700000000000, none⟩], 1700000000, none, none⟩
    let us : List StateUpdate := [⟨.activate, "5-1".toList, []⟩, ⟨.ticket, [], "t".toList⟩, ⟨.ticket, [], "v".toList⟩]
    env.Plausible Config.default 1600000000000 ∧
    (redisSend Config.default env Stream.empty us).2.map (fun r => (r.result, r.err.isSome)) =
      [("1700000000000-0".toList, false), ([], true), ("1700000000000-1".toList, false)] := by
  refine ⟨⟨by decide, by decide⟩, by decide +kernel⟩

/-! ## C21: round trip -/

/-- **C21.** A batch of storable updates written without failures is read back, by a
reader that had read everything before, as the same commands on the same ids with the
same payloads, in order; creations under the ids the writer was told. -/
theorem C21_round_trip (cfg : Config) (env : SendEnv) (H : Nat) (s : Stream) (hs : s.Inv) (us : List StateUpdate)
    (hu : ∀ u ∈ us, Storable u) (hlost : env.lost = none) (hcm : us.length ≤ env.cmds.length)
    (hnf : ∀ c ∈ env.cmds, c.fail = none)
    (h0 : ∀ e ∈ s.entries, H ≤ e.1.1) (hp : env.Plausible cfg H) :
    (∀ r ∈ (redisSend cfg env s us).2, r.err = none) ∧
    ∃ replId', pollUpdates (redisSend cfg env s us).1 0 s.last =
      some (List.zipWith (fun u r => replicated u r.result) us (redisSend cfg env s us).2, replId') := by
  have hm := execCmds_ms H s (redisCmds us) env.cmds h0 hp.1
  have htrim : (execTrim cfg env.nowS env.trimFail (execCmds s (redisCmds us) env.cmds).1).1
      = (execCmds s (redisCmds us) env.cmds).1 :=
    execTrim_noop fun e he => by have := hm e he; have := hp.2; omega
  simp only [redisSend, hlost, redisResponses]
  rw [htrim]
  -- everything appended, with the ids in order
  have key : ∀ (us : List StateUpdate) (es : List CmdEnv) (s : Stream), s.Inv → (∀ u ∈ us, Storable u) →
      us.length ≤ es.length → (∀ c ∈ es, c.fail = none) →
      ∃ added : List (RId × List Str),
        (execCmds s (redisCmds us) es).1.entries = s.entries ++ added ∧
        (∀ e ∈ added, RId.lt s.last e.1) ∧
        (∀ r ∈ respLoop us (execCmds s (redisCmds us) es).2, r.err = none) ∧
        added.mapM decodeEntry = some (List.zipWith (fun u r => replicated u r.result) us
          (respLoop us (execCmds s (redisCmds us) es).2)) := by
    intro us
    induction us with
    | nil => intro es s _ _ _ _; exact ⟨[], by simp [redisCmds, execCmds, respLoop]⟩
    | cons u us ih =>
      intro es s hs hu hl hnf
      cases es with
      | nil => simp at hl
      | cons c es =>
        obtain ⟨f, hf⟩ := (redisValid_iff u).1 ((storable_iff u).1 (hu u (by simp)))
        have hc := hnf c (by simp)
        obtain ⟨added, a1, a2, a3, a4⟩ := ih es (s.xadd c.nowMs f) (Stream.inv_xadd hs _ ⟨u, hf⟩)
          (fun v hv => hu v (by simp [hv])) (by simpa using hl) (fun c h => hnf c (by simp [h]))
        rw [redisCmds_cons_ok hf]
        simp only [execCmds, hc]
        refine ⟨(nextId s.last c.nowMs, f) :: added, ?_, ?_, ?_, ?_⟩
        · rw [a1]; simp [Stream.xadd]
        · intro e he
          rcases List.mem_cons.1 he with rfl | he
          · exact lt_nextId _ _
          · exact RId.lt_trans (lt_nextId _ _) (a2 e he)
        · intro r hr
          simp only [respLoop, List.mem_cons] at hr
          rcases hr with rfl | hr
          · simp [respond, hf, redisString]
          · exact a3 r hr
        · rw [List.mapM_cons, decodeEntry_fields hf, a4]
          simp [respLoop, respond, hf, redisString]
  obtain ⟨added, a1, a2, a3, a4⟩ := key us env.cmds s hs hu hcm hnf
  refine ⟨a3, (added.getLast?.map (·.1)).getD s.last, ?_⟩
  have hread : (execCmds s (redisCmds us) env.cmds).1.xread 0 s.last = added := by
    unfold Stream.xread
    rw [a1, if_pos rfl, List.filter_append]
    have e1 : s.entries.filter (fun e => decide (RId.lt s.last e.1)) = [] := by
      rw [List.filter_eq_nil_iff]
      intro e he
      rcases hs.bound e he with h | h
      · rw [h]; simpa using RId.lt_irrefl _
      · simpa using RId.lt_asymm h
    have e2 : added.filter (fun e => decide (RId.lt s.last e.1)) = added :=
      List.filter_eq_self.2 fun e he => by simpa using a2 e he
    rw [e1, e2]; rfl
  unfold pollUpdates
  dsimp only
  rw [hread, a4]; rfl

example : let us : List StateUpdate := [⟨.activate, "5-1".toList, []⟩, ⟨.ticket, [], "t".toList⟩,
      ⟨.assign, "5-1".toList, "c".toList⟩]
    pollUpdates (redisSend Config.default (okEnv 3) Stream.empty us).1 0 (0, 0) =
      some ([⟨.activate, "5-1".toList, []⟩, ⟨.ticket, RId.fmt (1700000000000, 1), "t".toList⟩,
        ⟨.assign, "5-1".toList, "c".toList⟩], (1700000000000, 2)) := by decide

/-! ## C18: refused updates -/

/-- **C18 (refused updates).** The contract of `StateResponse` (store.go:31-32) for updates
that are not sent to Redis: the response carries the update's key and an error.  Partial:
only while a reply with the same index arrived; other refused updates of the batch have an
empty result (`C18_refused_update_refuted`). -/
theorem C18_refused_update_partial (cfg : Config) (env : SendEnv) (s : Stream) (us : List StateUpdate)
    (hl : us.length ≤ env.cmds.length) (hn : env.lost = none) (i : Nat) (u : StateUpdate)
    (hu : us[i]? = some u) (hv : redisValid u = false) (hi : i < (us.filter redisValid).length) :
    ∃ e, (redisSend cfg env s us).2[i]? = some ⟨u.key, some e⟩ := by
  have hc : (redisCmds us).length = (us.filter redisValid).length := by
    clear hu hi hl
    induction us with
    | nil => rfl
    | cons a us ih =>
      simp only [redisCmds] at ih ⊢
      cases hf : redisFields a with
      | ok f => simp [redisValid, hf, ih]
      | error e => simp [redisValid, hf, ih]
  have hle : (redisCmds us).length ≤ env.cmds.length := by
    rw [hc]; exact Nat.le_trans (List.length_filter_le _ _) hl
  obtain ⟨os, h1, h2, -⟩ := execCmds_aligned s (redisCmds us) env.cmds hle
  have hlen : i < (execCmds s (redisCmds us) env.cmds).2.length := by
    rw [← h2.length_eq, h1, hc]; exact hi
  have hr : (redisSend cfg env s us).2 = respLoop us (execCmds s (redisCmds us) env.cmds).2 := by
    simp [redisSend, hn, redisResponses]
  rw [hr, respLoop_getElem? us _ i u _ hu (List.getElem?_eq_getElem hlen)]
  unfold redisValid at hv
  cases hf : redisFields u with
  | ok f => simp [hf] at hv
  | error e => exact ⟨e, by simp [respond, hf]⟩

theorem C18_refused_update_refuted :
    ¬ ∀ (cfg : Config) (env : SendEnv) (s : Stream) (us : List StateUpdate),
      us.length ≤ env.cmds.length → env.lost = none → ∀ (i : Nat) (u : StateUpdate),
      us[i]? = some u → redisValid u = false → ∃ e, (redisSend cfg env s us).2[i]? = some ⟨u.key, some e⟩ := by
  intro h
  obtain ⟨e, he⟩ := h Config.default (okEnv 1) Stream.empty [⟨.assign, "5-1".toList, []⟩] (by decide) rfl 0
    ⟨.assign, "5-1".toList, []⟩ rfl (by decide)
  rw [show (redisSend Config.default (okEnv 1) Stream.empty [⟨.assign, "5-1".toList, []⟩]).2 =
    [⟨[], some "Missing assignment".toList⟩] by decide] at he
  simp at he

example : (redisSend Config.default (okEnv 2) Stream.empty
    [⟨.assign, "5-1".toList, []⟩, ⟨.activate, "5-1".toList, []⟩]).2[0]? =
      some ⟨"5-1".toList, some "Missing assignment".toList⟩ := by decide

/-! ## C22: polling -/

/-- **C22.** Over any interleaving of batches written by anyone, polls of any size, polls of
read replicas that lag behind by any amount and failed polls, with plausible clocks: reading never panics; the stream only grows; what
the reader has read is exactly the decoding of the first `k` entries, in order, each
once; and a successful poll that returns nothing means everything was read. -/
theorem C22_polling (cfg : Config) (H : Nat) (evs : List REv)
    (hp : ∀ env us, REv.send env us ∈ evs → env.Plausible cfg H) :
    ∃ w, rrun cfg RWorld.init evs = some w ∧
      (∃ k, k ≤ w.stream.entries.length ∧ (w.stream.entries.take k).mapM decodeEntry = some w.read) ∧
      ∀ n, ∃ w', rstep cfg w (.poll n) = some w' ∧
        (w'.read = w.read → w.stream.entries.mapM decodeEntry = some w.read) := by
  have key : ∀ (evs : List REv) (w : RWorld), RInv H w →
      (∀ env us, REv.send env us ∈ evs → env.Plausible cfg H) →
      ∃ w', rrun cfg w evs = some w' ∧ RInv H w' := by
    intro evs
    induction evs with
    | nil => intro w h _; exact ⟨w, rfl, h⟩
    | cons e evs ih =>
      intro w h hp
      obtain ⟨w1, a, b, -⟩ := rstep_inv h e (fun env us he => hp env us (by simp [he]))
      obtain ⟨w2, c, d⟩ := ih w1 b (fun env us he => hp env us (by simp [he]))
      exact ⟨w2, by simp [rrun, a, c], d⟩
  obtain ⟨w, hw, hi⟩ := key evs RWorld.init
    ⟨Stream.inv_empty, by simp [RWorld.init, Stream.empty], ⟨[], [], by simp [RWorld.init, Stream.empty]⟩,
      Or.inr (Or.inr rfl)⟩ hp
  refine ⟨w, hw, ?_, ?_⟩
  · obtain ⟨pre, post, e1, e2, -⟩ := hi.split
    refine ⟨pre.length, by rw [e1]; simp, ?_⟩
    rw [e1, List.take_left, e2]
    exact mapM_decode fun e he => hi.inv.good e (by rw [e1]; simp [he])
  · intro n
    obtain ⟨w', a, -, -, d⟩ := rstep_inv (cfg := cfg) hi (.poll n) (by simp)
    refine ⟨w', a, fun heq => ?_⟩
    have := d n rfl heq
    have hs : w'.stream = w.stream := by
      simp only [rstep] at a
      cases hpu : pollUpdates w.stream n w.replId with
      | none => simp [hpu] at a
      | some p => simp [hpu] at a; rw [← a]
    rw [← heq, this, hs]
    exact mapM_decode fun e he => hi.inv.good e he

/-- **C22 (stream history).** With plausible clocks no batch ever removes or changes an
entry of the stream, so "the first `k` entries" keeps its meaning. -/
theorem C22_stream_append_only (cfg : Config) (H : Nat) (s : Stream) (env : SendEnv) (us : List StateUpdate)
    (h0 : ∀ e ∈ s.entries, H ≤ e.1.1) (hp : env.Plausible cfg H) :
    ∃ added, (redisSend cfg env s us).1.entries = s.entries ++ added :=
  (redisSend_append_only us h0 hp).1

example : ∃ w, rrun Config.default RWorld.init
    [.send (okEnv 2) [⟨.ticket, [], "a".toList⟩, ⟨.ticket, [], "b".toList⟩], .poll 1,
     .send (okEnv 1) [⟨.activate, "7-0".toList, []⟩], .pollFail, .pollLag 0 5, .pollLag 2 5] = some w ∧
    w.read.map (·.value) = ["a".toList, "b".toList] ∧ w.stream.entries.length = 3 := by
  refine ⟨⟨⟨[((1700000000000, 0), [tyTicket, "a".toList]), ((1700000000000, 1), [tyTicket, "b".toList]),
    ((1700000000000, 2), [tyActivate, "7-0".toList])], (1700000000000, 2)⟩, (1700000000000, 1),
    [⟨.ticket, RId.fmt (1700000000000, 0), "a".toList⟩, ⟨.ticket, RId.fmt (1700000000000, 1), "b".toList⟩]⟩,
    by decide, by decide, by decide⟩

/-! ## C32: ageing of Redis ids -/

/-- A Redis id is read by the expiration code as a number of *seconds*, although it
counts milliseconds. -/
theorem redis_id_second {i : RId} (h : i.1 < 2 ^ 63) : idSecond i.fmt = i.1 :=
  idSecond_fmtReplId i.2 h

/-- **C32 is false of the code**: an id issued at `ms` (milliseconds) is not aged out by
a cycle running more than TTL seconds later. -/
theorem C32_redis_ids_age_out_refuted :
    ¬ ∀ (cfg : Config) (cy : Cycle) (i : RId), 0 ≤ cfg.ttl → i.1 < 2 ^ 63 →
      (i.1 : Int) / 1000 + cfg.ttl + 1 ≤ cy.inact i.fmt → inactiveAged cfg cy i.fmt = true := by
  intro h
  have := h Config.default ⟨[], [], [], fun _ => 1700000601, fun _ => 0, fun _ => 0⟩ (1700000000000, 0)
    (by decide) (by decide) (by decide)
  unfold inactiveAged at this
  rw [redis_id_second (by decide)] at this
  revert this; decide

/-- **C32 (what holds).** Partial: full C32 wants removal TTL seconds after creation.  An
inactive Redis id is aged out exactly when the clock in seconds exceeds the id's
*millisecond* number by more than the TTL; likewise an assignment. -/
theorem C32_redis_ids_age_out_partial (cfg : Config) (cy : Cycle) (i : RId) (hi : i.1 < 2 ^ 63) :
    (inactiveAged cfg cy i.fmt = true ↔ (i.1 : Int) + cfg.ttl < cy.inact i.fmt) ∧
    (asgAged cfg cy i.fmt = true ↔ (i.1 : Int) + cfg.ttl + cfg.addTtl < cy.asg i.fmt) := by
  unfold inactiveAged asgAged
  rw [redis_id_second hi]
  simp only [decide_eq_true_eq]
  constructor <;> constructor <;> intro h <;> omega

/-- So no inactive id issued since 1970-02 by Redis leaves the cache before the year
~50000: any clock reading below the id's millisecond number keeps it. -/
theorem C32_redis_inactive_never_ages (cfg : Config) (cy : Cycle) (i : RId) (hi : i.1 < 2 ^ 63)
    (h : 0 ≤ cfg.ttl) (hnow : cy.inact i.fmt ≤ i.1) : inactiveAged cfg cy i.fmt = false := by
  rw [Bool.eq_false_iff]
  intro hc
  have := (C32_redis_ids_age_out_partial cfg cy i hi).1.1 hc
  omega

/-- Ten years after its creation the id is still there; a million-second id is not. -/
example : let cy : Cycle := ⟨[], [], [], fun _ => 2015360000, fun _ => 0, fun _ => 0⟩
    inactiveAged Config.default cy (RId.fmt (1700000000000, 3)) = false ∧
    inactiveAged Config.default cy (RId.fmt (1000000, 3)) = true := by decide +kernel

/-! ## C33: trimming -/

/-- **C33 is false of the code**: an entry an hour older than the TTL is not trimmed. -/
theorem C33_stream_trimmed_refuted :
    ¬ ∀ (cfg : Config) (nowS : Int) (s : Stream), 0 ≤ nowS - cfg.ttl → ∀ e,
      e ∈ (execTrim cfg nowS none s).1.entries ↔ e ∈ s.entries ∧ (nowS - cfg.ttl) * 1000 ≤ (e.1.1 : Int) := by
  intro h
  have := (h Config.default 1700004200 ⟨[((1700000000000, 0), [tyActivate, "5-1".toList])], (1700000000000, 0)⟩
    (by decide) ((1700000000000, 0), [tyActivate, "5-1".toList])).1 (by decide)
  exact absurd this.2 (by decide)

/-- **C33 (what holds).** Partial: full C33 compares ages.  The trim removes exactly the
entries whose millisecond number is below the threshold in *seconds*. -/
theorem C33_stream_trimmed_partial (cfg : Config) (nowS : Int) (s : Stream) (h : 0 ≤ nowS - cfg.ttl)
    (e : RId × List Str) :
    e ∈ (execTrim cfg nowS none s).1.entries ↔ e ∈ s.entries ∧ nowS - cfg.ttl ≤ (e.1.1 : Int) := by
  unfold execTrim
  dsimp only
  rw [if_neg (by omega)]
  simp only [Stream.xtrim, List.mem_filter, decide_eq_true_eq]
  constructor <;> rintro ⟨h1, h2⟩ <;> exact ⟨h1, by omega⟩

example : let s : Stream := ⟨[((1000, 0), [tyActivate, "5-1".toList]), ((1700000000000, 0), [tyActivate, "5-2".toList])], (1700000000000, 0)⟩
    (execTrim Config.default 1700000000 none s).1.entries = [((1700000000000, 0), [tyActivate, "5-2".toList])] := by
  decide +kernel

/-- **C33, consequence**: with plausible clocks the stream grows by every stored update
and never shrinks, without bound. -/
theorem C33_stream_unbounded (N : Nat) :
    ∃ evs : List REv, (∀ env us, REv.send env us ∈ evs → env.Plausible Config.default 1600000000000) ∧
      ∃ w, rrun Config.default RWorld.init evs = some w ∧ w.stream.entries.length = N := by
  refine ⟨List.replicate N (.send (okEnv 1) [⟨.activate, "7-0".toList, []⟩]), ?_, ?_⟩
  · intro env us h
    have := List.eq_of_mem_replicate h
    injection this with h1 h2
    subst h1
    exact ⟨by intro c hc; simp [okEnv] at hc; subst hc; decide, by decide⟩
  · have key : ∀ (N : Nat) (w : RWorld), (∀ e ∈ w.stream.entries, 1600000000000 ≤ e.1.1) →
        ∃ w', rrun Config.default w (List.replicate N (.send (okEnv 1) [⟨.activate, "7-0".toList, []⟩])) = some w' ∧
          w'.stream.entries.length = w.stream.entries.length + N := by
      intro N
      induction N with
      | zero => intro w _; exact ⟨w, rfl, rfl⟩
      | succ N ih =>
        intro w hw
        have hpl : (okEnv 1).Plausible Config.default 1600000000000 :=
          ⟨by intro c hc; simp [okEnv] at hc; subst hc; decide, by decide⟩
        have hms := (redisSend_append_only [⟨.activate, "7-0".toList, []⟩] hw hpl).2
        obtain ⟨w', h1, h2⟩ := ih { w with stream := (redisSend Config.default (okEnv 1) w.stream [⟨.activate, "7-0".toList, []⟩]).1 } hms
        refine ⟨w', by simp only [List.replicate_succ, rrun, rstep, Option.bind_some]; exact h1, ?_⟩
        rw [h2]
        have hc : redisCmds [⟨.activate, "7-0".toList, []⟩] = [[tyActivate, "7-0".toList]] := by decide
        have hs : (redisSend Config.default (okEnv 1) w.stream [⟨.activate, "7-0".toList, []⟩]).1.entries.length
            = w.stream.entries.length + 1 := by
          simp only [redisSend, okEnv, hc]
          rw [execTrim_noop]
          · simp [execCmds, Stream.xadd]
          · have := execCmds_ms 1600000000000 w.stream [[tyActivate, "7-0".toList]] (okEnv 1).cmds hw hpl.1
            intro e he
            have h3 := this e he
            have : (1700000000 : Int) - Config.default.ttl ≤ 1600000000000 := by decide
            omega
        simp only [hs]; omega
    obtain ⟨w', h1, h2⟩ := key N RWorld.init (by simp [RWorld.init, Stream.empty])
    exact ⟨w', h1, by simpa [RWorld.init, Stream.empty] using h2⟩

/-! ## C34: unknown entries -/

/-- An entry of a type this code does not know. -/
def UnknownEntry (e : RId × List Str) : Prop :=
  ∃ ty rest, e.2 = ty :: rest ∧ ty ≠ tyTicket ∧ ty ≠ tyActivate ∧ ty ≠ tyDeactivate ∧ ty ≠ tyAssign

theorem decode_unknown {e : RId × List Str} (h : UnknownEntry e) : decodeEntry e = some StateUpdate.zero := by
  obtain ⟨ty, rest, he, h1, h2, h3, h4⟩ := h
  simp [decodeEntry, he, h1, h2, h3, h4]

/-- **C34 is false of the code**: an unknown entry is applied as a ticket creation with
an empty id. -/
theorem C34_unknown_ignored_refuted :
    ¬ ∀ (cd : Codec) (c : Cache) (e : RId × List Str) (u : StateUpdate), UnknownEntry e →
      decodeEntry e = some u → ∀ k, (applyUpdate cd c u).tickets.load k = c.tickets.load k := by
  intro h
  have := h toyCodec Cache.empty ((5, 0), ["backfill".toList, "x".toList]) StateUpdate.zero
    ⟨"backfill".toList, ["x".toList], rfl, by decide, by decide, by decide, by decide⟩ (by decide) []
  revert this; decide

/-- **C34 (what holds).** Partial: full C34 has no exception.  An unknown entry changes
nothing but the ticket with the empty id, which it leaves inactive, so no candidate
appears or changes; a candidate can only disappear if it had the empty id. -/
theorem C34_unknown_ignored_partial (cd : Codec) (c : Cache) (wf : c.WF) (e : RId × List Str) (u : StateUpdate)
    (he : UnknownEntry e) (hu : decodeEntry e = some u) (k : Str) :
    (k ≠ [] → (applyUpdate cd c u).tickets.load k = c.tickets.load k ∧
      (applyUpdate cd c u).inactive.load k = c.inactive.load k ∧
      (applyUpdate cd c u).assignments.load k = c.assignments.load k) ∧
    (candidates (applyUpdate cd c u)).load [] = none := by
  rw [decode_unknown he] at hu
  injection hu with hu
  subst hu
  constructor
  · intro hk
    simp [applyUpdate, updateOps, StateUpdate.zero, runOps, MOp.run, GoMap.load_store, hk]
  · rw [candidates_load (c := applyUpdate cd c StateUpdate.zero) (WF_runOps wf _), applyUpdate_proj]
    simp [StateUpdate.zero]

example : UnknownEntry ((5, 0), ["backfill".toList, "x".toList]) :=
  ⟨"backfill".toList, ["x".toList], rfl, by decide, by decide, by decide, by decide⟩

/-- **C34, foreign entries can crash**: a malformed `assign` entry (one field pair)
makes `GetUpdates` index out of range. -/
theorem C34_short_assign_panics (i : RId) (k : Str) : decodeEntry (i, [tyAssign, k]) = Go.panic := by
  have t4 : ¬ tyAssign = tyTicket := by decide
  have t5 : ¬ tyAssign = tyActivate := by decide
  have t6 : ¬ tyAssign = tyDeactivate := by decide
  simp [decodeEntry, t4, t5, t6, Go.panic]

/-! ## C35: connections -/

/-- **C35 is false of the code**: connections are never closed, so with a limit of
`m > 0` the call after the `m`-th blocks forever. -/
theorem C35_keeps_running_refuted : ¬ ∀ (m n : Nat), ∃ p, callsMade ⟨m, 0⟩ n = some p := by
  intro h
  obtain ⟨p, hp⟩ := h 2 3
  revert hp; simp [callsMade, ConnPool.get]

/-- **C35 (what holds).** Partial: full C35 has no bound on `n`.  `n` calls complete
exactly when `n ≤ MaxActive` (default 500) or `MaxActive` is 0. -/
theorem C35_keeps_running_partial (m n : Nat) : (∃ p, callsMade ⟨m, 0⟩ n = some p) ↔ (m = 0 ∨ n ≤ m) := by
  have key : ∀ n, ((m = 0 ∨ n ≤ m) → callsMade ⟨m, 0⟩ n = some ⟨m, n⟩) ∧
      (¬ (m = 0 ∨ n ≤ m) → callsMade ⟨m, 0⟩ n = none) := by
    intro n
    induction n with
    | zero => exact ⟨fun _ => rfl, fun h => absurd (Or.inr (Nat.zero_le _)) h⟩
    | succ n ih =>
      constructor
      · intro h
        rw [callsMade, ih.1 (by omega)]
        simp only [Option.bind_some, ConnPool.get]
        rw [if_pos (by omega)]
      · intro h
        rw [callsMade]
        by_cases hn : m = 0 ∨ n ≤ m
        · rw [ih.1 hn]
          simp only [Option.bind_some, ConnPool.get]
          rw [if_neg (by omega)]
        · rw [ih.2 hn]; rfl
  constructor
  · rintro ⟨p, hp⟩
    by_cases h : m = 0 ∨ n ≤ m
    · exact h
    · rw [(key n).2 h] at hp; simp at hp
  · intro h; exact ⟨_, (key n).1 h⟩

example : callsMade ⟨500, 0⟩ 3 = some ⟨500, 3⟩ := by decide

end OM.Props
