import Verif.Model.Redis
import Verif.Spec.Redis
import Verif.Lemmas.Store
/-! # Lemmas: Redis streams and the Redis replicator -/
namespace OM
open Spec

theorem RId.lt_trans {a b c : RId} (h1 : RId.lt a b) (h2 : RId.lt b c) : RId.lt a c := by
  unfold RId.lt at *; omega

theorem RId.lt_irrefl (a : RId) : ¬ RId.lt a a := by unfold RId.lt; omega

theorem RId.lt_asymm {a b : RId} (h : RId.lt a b) : ¬ RId.lt b a := by unfold RId.lt at *; omega

theorem RId.fmt_injective {a b : RId} (h : a.fmt = b.fmt) : a = b := by
  obtain ⟨h1, h2⟩ := fmtReplId_injective h
  exact Prod.ext h1 h2

theorem lt_nextId (last : RId) (now : Nat) : RId.lt last (nextId last now) := by
  unfold nextId RId.lt; split
  · simp; omega
  · simp

/-- Entries written by `SendUpdates`. -/
def GoodEntry (e : RId × List Str) : Prop := ∃ u, redisFields u = .ok e.2

/-- Stream invariant: ids strictly increase up to `last` and are above `0-0`. -/
structure Stream.Inv (s : Stream) : Prop where
  sorted : s.entries.Pairwise fun a b => RId.lt a.1 b.1
  bound : ∀ e ∈ s.entries, e.1 = s.last ∨ RId.lt e.1 s.last
  pos : ∀ e ∈ s.entries, RId.lt (0, 0) e.1
  good : ∀ e ∈ s.entries, GoodEntry e

theorem Stream.inv_empty : Stream.empty.Inv := by
  constructor <;> simp [Stream.empty]

theorem nextId_pos (last : RId) (now : Nat) : RId.lt (0, 0) (nextId last now) := by
  unfold nextId RId.lt; split <;> simp <;> omega

theorem Stream.inv_xadd {s : Stream} (h : s.Inv) (now : Nat) {f : List Str} (hf : ∃ u, redisFields u = .ok f) :
    (s.xadd now f).Inv := by
  have hb : ∀ e ∈ s.entries, RId.lt e.1 (nextId s.last now) := by
    intro e he
    rcases h.bound e he with h | h
    · rw [h]; exact lt_nextId _ _
    · exact RId.lt_trans h (lt_nextId _ _)
  constructor
  · simp only [Stream.xadd]
    rw [List.pairwise_append]
    refine ⟨h.sorted, by simp, ?_⟩
    intro a ha b hb'
    simp at hb'; subst hb'
    exact hb a ha
  · intro e he
    simp only [Stream.xadd, List.mem_append, List.mem_singleton] at he ⊢
    rcases he with he | rfl
    · exact Or.inr (hb e he)
    · exact Or.inl rfl
  · intro e he
    simp only [Stream.xadd, List.mem_append, List.mem_singleton] at he
    rcases he with he | rfl
    · exact h.pos e he
    · exact nextId_pos _ _
  · intro e he
    simp only [Stream.xadd, List.mem_append, List.mem_singleton] at he
    rcases he with he | rfl
    · exact h.good e he
    · exact hf

theorem Stream.inv_xtrim {s : Stream} (h : s.Inv) (thr : Nat) : (s.xtrim thr).Inv := by
  have hm : ∀ e, e ∈ (s.xtrim thr).entries → e ∈ s.entries := by
    intro e he; exact (List.mem_filter.1 he).1
  exact ⟨h.sorted.sublist List.filter_sublist, fun e he => h.bound e (hm e he),
    fun e he => h.pos e (hm e he), fun e he => h.good e (hm e he)⟩

theorem redisCmds_good (us : List StateUpdate) : ∀ f ∈ redisCmds us, ∃ u, redisFields u = .ok f := by
  intro f hf
  simp only [redisCmds, List.mem_filterMap] at hf
  obtain ⟨u, -, h⟩ := hf
  split at h
  · rename_i f' h'; simp at h; exact ⟨u, by rw [h', h]⟩
  · simp at h

/-- What executing a pipeline does: entries are only appended. -/
theorem execCmds_entries (s : Stream) (fs : List (List Str)) (es : List CmdEnv) :
    ∃ added, (execCmds s fs es).1.entries = s.entries ++ added := by
  induction fs generalizing s es with
  | nil => exact ⟨[], by simp [execCmds]⟩
  | cons f fs ih =>
    cases es with
    | nil => exact ⟨[], by simp [execCmds]⟩
    | cons e es =>
      simp only [execCmds]
      cases e.fail with
      | some m => exact ih s es
      | none =>
        obtain ⟨a, ha⟩ := ih (s.xadd e.nowMs f) es
        exact ⟨(nextId s.last e.nowMs, f) :: a, by rw [ha]; simp [Stream.xadd]⟩

theorem execCmds_inv {s : Stream} (h : s.Inv) (fs : List (List Str))
    (hf : ∀ f ∈ fs, ∃ u, redisFields u = .ok f) (es : List CmdEnv) : (execCmds s fs es).1.Inv := by
  induction fs generalizing s es with
  | nil => simpa [execCmds] using h
  | cons f fs ih =>
    cases es with
    | nil => simpa [execCmds] using h
    | cons e es =>
      simp only [execCmds]
      cases e.fail with
      | some m => exact ih h (fun f' h' => hf f' (by simp [h'])) es
      | none => exact ih (Stream.inv_xadd h _ (hf f (by simp))) (fun f' h' => hf f' (by simp [h'])) es

theorem execTrim_inv {s : Stream} (h : s.Inv) (cfg : Config) (nowS : Int) (f : Option Str) :
    (execTrim cfg nowS f s).1.Inv := by
  unfold execTrim
  cases f with
  | some m => exact h
  | none =>
    dsimp only
    split
    · exact h
    · exact Stream.inv_xtrim h _

theorem execPart_inv {s : Stream} (h : s.Inv) (cfg : Config) (env : SendEnv) (us : List StateUpdate) (k : Nat) :
    (execPart cfg env s us k).Inv := by
  have hi := execCmds_inv h ((redisCmds us).take k)
    (fun f hf => redisCmds_good us f (List.mem_of_mem_take hf)) env.cmds
  unfold execPart
  dsimp only
  split
  · exact execTrim_inv hi _ _ _
  · exact hi

theorem redisSend_inv {s : Stream} (h : s.Inv) (cfg : Config) (env : SendEnv) (us : List StateUpdate) :
    (redisSend cfg env s us).1.Inv := by
  unfold redisSend
  cases env.lost with
  | some k => exact execPart_inv h cfg env us k
  | none => exact execTrim_inv (execCmds_inv h _ (redisCmds_good us) _) _ _ _

/-- Decoding an entry written by `SendUpdates` gives back the update. -/
theorem decodeEntry_fields {u : StateUpdate} {f : List Str} (h : redisFields u = .ok f) (id : RId) :
    decodeEntry (id, f) = some (replicated u id.fmt) := by
  unfold redisFields at h
  have t1 : ¬ tyActivate = tyTicket := by decide
  have t2 : ¬ tyDeactivate = tyTicket := by decide
  have t3 : ¬ tyDeactivate = tyActivate := by decide
  have t4 : ¬ tyAssign = tyTicket := by decide
  have t5 : ¬ tyAssign = tyActivate := by decide
  have t6 : ¬ tyAssign = tyDeactivate := by decide
  cases hc : u.cmd with
  | ticket =>
    simp only [hc] at h
    split at h <;> simp at h
    subst h; simp [decodeEntry, replicated, hc]
  | activate =>
    simp only [hc] at h
    split at h <;> simp at h
    subst h; simp [decodeEntry, replicated, hc, t1]
  | deactivate =>
    simp only [hc] at h
    split at h <;> simp at h
    subst h; simp [decodeEntry, replicated, hc, t2, t3]
  | assign =>
    simp only [hc] at h
    split at h
    · simp at h
    · split at h <;> simp at h
      subst h; simp [decodeEntry, replicated, hc, t4, t5, t6]
  | other n => simp [hc] at h

theorem decodeEntry_good {e : RId × List Str} (h : GoodEntry e) : ∃ u, decodeEntry e = some u := by
  obtain ⟨u, hu⟩ := h
  exact ⟨_, decodeEntry_fields hu e.1⟩

/-- Decode, defaulting (only used on good entries, where decoding succeeds). -/
def decoded (e : RId × List Str) : StateUpdate := (decodeEntry e).getD StateUpdate.zero

theorem mapM_decode {es : List (RId × List Str)} (h : ∀ e ∈ es, GoodEntry e) :
    es.mapM decodeEntry = some (es.map decoded) := by
  induction es with
  | nil => rfl
  | cons e es ih =>
    obtain ⟨u, hu⟩ := decodeEntry_good (h e (by simp))
    rw [List.mapM_cons, hu, ih (fun e' h' => h e' (by simp [h']))]
    simp [decoded, hu]

/-- The trim does nothing when its threshold is not above any entry's number. -/
theorem xtrim_noop {s : Stream} {thr : Nat} (h : ∀ e ∈ s.entries, thr ≤ e.1.1) : s.xtrim thr = s := by
  unfold Stream.xtrim
  have : s.entries.filter (fun e => decide (thr ≤ e.1.1)) = s.entries :=
    List.filter_eq_self.2 fun e he => by simpa using h e he
  rw [this]

theorem execTrim_noop {cfg : Config} {nowS : Int} {f : Option Str} {s : Stream}
    (h : ∀ e ∈ s.entries, nowS - cfg.ttl ≤ e.1.1) : (execTrim cfg nowS f s).1 = s := by
  unfold execTrim
  cases f with
  | some m => rfl
  | none =>
    dsimp only
    split
    · rfl
    · exact xtrim_noop fun e he => by have := h e he; omega

theorem respLoop_length (us : List StateUpdate) (rs : List Reply) : (respLoop us rs).length = us.length := by
  induction us generalizing rs with
  | nil => simp [respLoop]
  | cons u us ih => cases rs <;> simp [respLoop, ih]

theorem redisSend_length (cfg : Config) (env : SendEnv) (s : Stream) (us : List StateUpdate) :
    (redisSend cfg env s us).2.length = us.length := by
  unfold redisSend redisResponses
  cases env.lost with
  | some k => simp
  | none => simp [respLoop_length]

/-! ### Replies aligned with commands -/

/-- The reply to one XADD tells whether and where its entry was added. -/
def ReplyOf (o : Option RId) (r : Reply) : Prop :=
  match o with
  | some id => r = .str id.fmt
  | none => ∃ m, r = .err m

/-- The entries added, given where each command's entry went. -/
def addedBy (os : List (Option RId)) (fs : List (List Str)) : List (RId × List Str) :=
  (os.zip fs).filterMap fun p => p.1.map fun id => (id, p.2)

theorem execCmds_aligned (s : Stream) (fs : List (List Str)) (es : List CmdEnv) (hl : fs.length ≤ es.length) :
    ∃ os : List (Option RId), os.length = fs.length ∧ List.Forall₂ ReplyOf os (execCmds s fs es).2 ∧
      (execCmds s fs es).1.entries = s.entries ++ addedBy os fs := by
  induction fs generalizing s es with
  | nil => exact ⟨[], rfl, by simp [execCmds], by simp [execCmds, addedBy]⟩
  | cons f fs ih =>
    cases es with
    | nil => simp at hl
    | cons e es =>
      simp only [execCmds]
      have hl' : fs.length ≤ es.length := by simpa using hl
      cases he : e.fail with
      | some m =>
        obtain ⟨os, h1, h2, h3⟩ := ih s es hl'
        refine ⟨none :: os, by simp [h1], List.Forall₂.cons ⟨m, rfl⟩ h2, ?_⟩
        rw [h3]; simp [addedBy]
      | none =>
        obtain ⟨os, h1, h2, h3⟩ := ih (s.xadd e.nowMs f) es hl'
        refine ⟨some (nextId s.last e.nowMs) :: os, by simp [h1], List.Forall₂.cons rfl h2, ?_⟩
        rw [h3]; simp [addedBy, Stream.xadd]

theorem redisValid_iff (u : StateUpdate) : redisValid u = true ↔ ∃ f, redisFields u = .ok f := by
  unfold redisValid
  cases redisFields u <;> simp

theorem redisCmds_append (a b : List StateUpdate) : redisCmds (a ++ b) = redisCmds a ++ redisCmds b := by
  simp [redisCmds]

theorem redisCmds_cons_ok {u : StateUpdate} {f : List Str} (h : redisFields u = .ok f) (us : List StateUpdate) :
    redisCmds (u :: us) = f :: redisCmds us := by
  simp [redisCmds, h]

theorem redisCmds_length_valid {us : List StateUpdate} (h : ∀ u ∈ us, redisValid u = true) :
    (redisCmds us).length = us.length := by
  induction us with
  | nil => rfl
  | cons u us ih =>
    obtain ⟨f, hf⟩ := (redisValid_iff u).1 (h u (by simp))
    rw [redisCmds_cons_ok hf]; simp [ih fun v hv => h v (by simp [hv])]

theorem redisCmds_length_le (us : List StateUpdate) : (redisCmds us).length ≤ us.length := by
  simp only [redisCmds]; exact List.length_filterMap_le _ _

theorem respLoop_getElem? (us : List StateUpdate) (rs : List Reply) (i : Nat) (u : StateUpdate) (r : Reply)
    (hu : us[i]? = some u) (hr : rs[i]? = some r) : (respLoop us rs)[i]? = some (respond u r) := by
  induction us generalizing rs i with
  | nil => simp at hu
  | cons v us ih =>
    cases rs with
    | nil => simp at hr
    | cons q rs =>
      cases i with
      | zero => simp at hu hr; simp [respLoop, hu, hr]
      | succ i => simp at hu hr; simp [respLoop, ih rs i hu hr]

/-- Every entry keeps the server clock's millisecond or a later one. -/
theorem nextId_ge (last : RId) (now : Nat) : now ≤ (nextId last now).1 := by
  unfold nextId; split
  · simp
  · simp; omega

theorem execCmds_ms (H : Nat) (s : Stream) (fs : List (List Str)) (es : List CmdEnv)
    (h0 : ∀ e ∈ s.entries, H ≤ e.1.1) (hc : ∀ c ∈ es, H ≤ c.nowMs) :
    ∀ e ∈ (execCmds s fs es).1.entries, H ≤ e.1.1 := by
  induction fs generalizing s es with
  | nil => simpa [execCmds] using h0
  | cons f fs ih =>
    cases es with
    | nil => simpa [execCmds] using h0
    | cons c es =>
      simp only [execCmds]
      cases c.fail with
      | some m => exact ih s es h0 (fun c h => hc c (by simp [h]))
      | none =>
        refine ih _ es ?_ (fun c h => hc c (by simp [h]))
        intro e he
        simp only [Stream.xadd, List.mem_append, List.mem_singleton] at he
        rcases he with he | rfl
        · exact h0 e he
        · exact Nat.le_trans (hc c (by simp)) (nextId_ge _ _)

/-- Plausible clocks: the Redis server's clock, in milliseconds, is never below the
number that om-core's clock in seconds minus the TTL gives.  (Any two clocks showing
dates between 1970-02 and 2970 satisfy it.) -/
def SendEnv.Plausible (cfg : Config) (H : Nat) (env : SendEnv) : Prop :=
  (∀ c ∈ env.cmds, H ≤ c.nowMs) ∧ env.nowS - cfg.ttl ≤ H

theorem execPart_eq {cfg : Config} {env : SendEnv} {H : Nat} {s : Stream} (us : List StateUpdate) (k : Nat)
    (h0 : ∀ e ∈ s.entries, H ≤ e.1.1) (hp : env.Plausible cfg H) :
    execPart cfg env s us k = (execCmds s ((redisCmds us).take k) env.cmds).1 := by
  unfold execPart
  dsimp only
  split
  · have hm := execCmds_ms H s ((redisCmds us).take k) env.cmds h0 hp.1
    exact execTrim_noop fun e he => by have := hm e he; have := hp.2; omega
  · rfl

theorem redisSend_append_only {cfg : Config} {env : SendEnv} {H : Nat} {s : Stream} (us : List StateUpdate)
    (h0 : ∀ e ∈ s.entries, H ≤ e.1.1) (hp : env.Plausible cfg H) :
    (∃ added, (redisSend cfg env s us).1.entries = s.entries ++ added) ∧
    (∀ e ∈ (redisSend cfg env s us).1.entries, H ≤ e.1.1) := by
  unfold redisSend
  cases env.lost with
  | some k =>
    dsimp only
    rw [execPart_eq us k h0 hp]
    exact ⟨execCmds_entries _ _ _, execCmds_ms H s _ _ h0 hp.1⟩
  | none =>
    have hm := execCmds_ms H s (redisCmds us) env.cmds h0 hp.1
    have : (execTrim cfg env.nowS env.trimFail (execCmds s (redisCmds us) env.cmds).1).1
        = (execCmds s (redisCmds us) env.cmds).1 :=
      execTrim_noop fun e he => by have := hm e he; have := hp.2; omega
    dsimp only
    rw [this]
    exact ⟨execCmds_entries _ _ _, hm⟩

end OM
