import Mathlib.Data.List.Nodup
import Verif.Props.Redis
/-! # Properties C10 and C11, exactly: which id each caller of a batch is given -/
namespace OM.Props
open OM.Spec

instance : DecidablePred Storable := fun u => decidable_of_iff _ (storable_iff u).symm

/-- The entry that replicates `u`. -/
def EntryOf (e : RId × List Str) (u : StateUpdate) : Prop := decodeEntry e = some (replicated u e.1.fmt)

private theorem exec_ok (us : List StateUpdate) : ∀ (s : Stream) (es : List CmdEnv), us.length ≤ es.length →
    (∀ c ∈ es, c.fail = none) → ∃ added : List (RId × List Str),
      (execCmds s (redisCmds us) es).1.entries = s.entries ++ added ∧
      (execCmds s (redisCmds us) es).2 = added.map (fun e => Reply.str e.1.fmt) ∧
      List.Forall₂ EntryOf added (us.filter fun u => decide (Storable u)) ∧
      added.Pairwise (fun a b => RId.lt a.1 b.1) ∧ ∀ e ∈ added, RId.lt s.last e.1 := by
  induction us with
  | nil => intro s es _ _; exact ⟨[], by simp [redisCmds, execCmds]⟩
  | cons u us ih =>
    intro s es hl hok
    by_cases hu : Storable u
    · obtain ⟨f, hf⟩ := (redisValid_iff u).1 ((storable_iff u).1 hu)
      cases es with
      | nil => simp at hl
      | cons c es =>
        obtain ⟨added, h1, h2, h3, h4, h5⟩ := ih (s.xadd c.nowMs f) es (by simpa using hl) fun x hx => hok x (by simp [hx])
        refine ⟨(nextId s.last c.nowMs, f) :: added, ?_, ?_, ?_, ?_, ?_⟩
        · simp only [redisCmds_cons_ok hf, execCmds, hok c (by simp), h1]
          simp [Stream.xadd]
        · simp only [redisCmds_cons_ok hf, execCmds, hok c (by simp), h2]
          rfl
        · rw [List.filter_cons, if_pos (by simp [hu])]
          exact .cons (decodeEntry_fields hf _) h3
        · exact List.pairwise_cons.2 ⟨h5, h4⟩
        · intro e he
          rcases List.mem_cons.1 he with rfl | he
          · exact lt_nextId _ _
          · exact RId.lt_trans (lt_nextId _ _) (h5 e he)
    · have hc : redisCmds (u :: us) = redisCmds us := by
        have : ¬ ∃ f, redisFields u = .ok f := fun h => hu ((storable_iff u).2 ((redisValid_iff u).2 h))
        cases hf : redisFields u with
        | ok f => exact absurd ⟨f, hf⟩ this
        | error e => simp [redisCmds, hf]
      rw [hc, List.filter_cons, if_neg (by simp [hu])]
      exact ih s es (by simp at hl; omega) hok

/-- **C10, C11 (exactly).** When the connection and all commands of a batch succeed, the batch adds
one entry per storable update, in order; and the caller of the `i`-th update, if that is storable, is
told of success with the id of the `i`-th *entry* — or with an empty id when there are not that many
entries. -/
theorem C10_shift_exactly (cfg : Config) (env : SendEnv) (H : Nat) (s : Stream) (us : List StateUpdate)
    (hlost : env.lost = none) (hcm : us.length ≤ env.cmds.length) (hok : ∀ c ∈ env.cmds, c.fail = none)
    (h0 : ∀ e ∈ s.entries, H ≤ e.1.1) (hp : env.Plausible cfg H) :
    ∃ added : List (RId × List Str), (redisSend cfg env s us).1.entries = s.entries ++ added ∧
      List.Forall₂ EntryOf added (us.filter fun u => decide (Storable u)) ∧ (added.map (·.1.fmt)).Nodup ∧
      ∀ (i : Nat) (u : StateUpdate), us[i]? = some u → Storable u →
        (redisSend cfg env s us).2[i]? = some ⟨((added[i]?).map (·.1.fmt)).getD [], none⟩ := by
  obtain ⟨added, h1, h2, h3, h4, -⟩ := exec_ok us s env.cmds hcm hok
  have hm := execCmds_ms H s (redisCmds us) env.cmds h0 hp.1
  have htrim : (execTrim cfg env.nowS env.trimFail (execCmds s (redisCmds us) env.cmds).1).1
      = (execCmds s (redisCmds us) env.cmds).1 :=
    execTrim_noop fun e he => by have := hm e he; have := hp.2; omega
  simp only [redisSend, hlost, redisResponses]
  rw [htrim]
  refine ⟨added, h1, h3, ?_, ?_⟩
  · rw [List.Nodup, List.pairwise_map]
    refine h4.imp fun {a b} hab heq => ?_
    rw [RId.fmt_injective heq] at hab
    exact RId.lt_irrefl _ hab
  · intro i u hu hst
    obtain ⟨f, hf⟩ := (redisValid_iff u).1 ((storable_iff u).1 hst)
    rw [h2]
    cases ha : added[i]? with
    | some e =>
      rw [respLoop_getElem? us _ i u (.str e.1.fmt) hu (by rw [List.getElem?_map, ha]; rfl)]
      simp [respond, hf, redisString]
    | none =>
      have hlen : (added.map fun e => Reply.str e.1.fmt).length ≤ i := by
        rw [List.length_map]; exact List.getElem?_eq_none_iff.1 ha
      have beyond : ∀ (vs : List StateUpdate) (rs : List Reply) (i : Nat), rs.length ≤ i → vs[i]? = some u →
          (respLoop vs rs)[i]? = some (initialResponse u) := by
        intro vs
        induction vs with
        | nil => intro rs i _ h; simp at h
        | cons v vs ih =>
          intro rs i hr hv
          cases rs with
          | nil =>
            cases i with
            | zero => simp at hv; simp [respLoop, hv]
            | succ i => simp at hv; simp only [respLoop, List.getElem?_cons_succ]; exact ih [] i (by simp) hv
          | cons r rs =>
            cases i with
            | zero => simp at hr
            | succ i =>
              simp at hv hr
              simp only [respLoop, List.getElem?_cons_succ]; exact ih rs i hr hv
      rw [beyond us _ i hlen hu]
      simp [initialResponse, hf]

private theorem take_filter_lt {us : List StateUpdate} {p : StateUpdate → Bool} {i : Nat} {u : StateUpdate}
    (hu : us[i]? = some u) (hp : p u = true) : (us.filter p)[((us.take i).filter p).length]? = some u := by
  have e : us = us.take i ++ u :: us.drop (i + 1) := by
    obtain ⟨h1, h2⟩ := List.getElem?_eq_some_iff.1 hu
    rw [← h2, List.getElem_cons_drop, List.take_append_drop]
  conv => lhs; arg 1; rw [e]
  rw [List.filter_append, List.filter_cons, if_pos hp]
  simp

/-- **C10 (exactly).** When the connection and all commands of a batch succeed, the caller of a
storable update is given the id of their own entry exactly when every update before it in the batch
is storable. -/
theorem C10_own_id_exactly (cfg : Config) (env : SendEnv) (H : Nat) (s : Stream) (us : List StateUpdate)
    (hlost : env.lost = none) (hcm : us.length ≤ env.cmds.length) (hok : ∀ c ∈ env.cmds, c.fail = none)
    (h0 : ∀ e ∈ s.entries, H ≤ e.1.1) (hp : env.Plausible cfg H) (i : Nat) (u : StateUpdate) (hu : us[i]? = some u)
    (hst : Storable u) :
    ∃ a e b, (redisSend cfg env s us).1.entries = s.entries ++ a ++ e :: b ∧ EntryOf e u ∧
      a.length = ((us.take i).filter fun u => decide (Storable u)).length ∧
      ((redisSend cfg env s us).2[i]? = some ⟨e.1.fmt, none⟩ ↔ ∀ v ∈ us.take i, Storable v) := by
  obtain ⟨added, h1, h2, h3, h4⟩ := C10_shift_exactly cfg env H s us hlost hcm hok h0 hp
  have hk := take_filter_lt (p := fun u => decide (Storable u)) hu (by simp [hst])
  generalize hkk : ((us.take i).filter fun u => decide (Storable u)).length = k at hk
  have hlt := (List.getElem?_eq_some_iff.1 hk).1
  have hka : k < added.length := by rw [h2.length_eq]; exact hlt
  refine ⟨added.take k, added[k], added.drop (k + 1), ?_, ?_, by rw [List.length_take]; omega, ?_⟩
  · rw [h1, List.append_assoc, List.getElem_cons_drop, List.take_append_drop]
  · have := (List.forall₂_iff_get.1 h2).2 k hka hlt
    obtain ⟨_, e2⟩ := List.getElem?_eq_some_iff.1 hk
    simpa [e2] using this
  · rw [h4 i u hu hst]
    have hil : (us.take i).length = i := by
      rw [List.length_take]; have := (List.getElem?_eq_some_iff.1 hu).1; omega
    have hki : k = i ↔ ∀ v ∈ us.take i, Storable v := by
      rw [← hkk]
      constructor
      · intro h v hv
        have := List.filter_eq_self.1 (List.Sublist.eq_of_length (List.filter_sublist (p := fun u => decide (Storable u)) (l := us.take i)) (by rw [h, hil])) v hv
        simpa using this
      · intro h
        rw [List.filter_eq_self.2 (fun v hv => by simpa using h v hv), hil]
    rw [← hki]
    simp only [Option.some.injEq, StateResponse.mk.injEq, and_true]
    constructor
    · intro h
      cases ha : added[i]? with
      | none =>
        rw [ha] at h
        simp only [Option.map_none, Option.getD_none] at h
        have : (added[k].1.fmt).length = 0 := by rw [← h]; rfl
        simp [RId.fmt, fmtReplId] at this
      | some e =>
        rw [ha] at h
        simp only [Option.map_some, Option.getD_some] at h
        obtain ⟨hi, he⟩ := List.getElem?_eq_some_iff.1 ha
        have := (List.nodup_iff_injective_getElem.1 h3) (a₁ := ⟨k, by simpa using hka⟩) (a₂ := ⟨i, by simpa using hi⟩)
          (by simp [he, h])
        simpa using this
    · rintro rfl
      rw [List.getElem?_eq_getElem hka]
      rfl

/-- An assignment without content before two tickets: the first ticket's caller gets the second's id,
the second's caller success without an id. -/
example : let us : List StateUpdate := [⟨.assign, "5-1".toList, []⟩, ⟨.ticket, [], "A".toList⟩, ⟨.ticket, [], "B".toList⟩]
    us.length ≤ (okEnv 3).cmds.length ∧ (okEnv 3).lost = none ∧ (∀ c ∈ (okEnv 3).cmds, c.fail = none) ∧
    (okEnv 3).Plausible Config.default 1600000000000 ∧
    (us.filter fun u => decide (Storable u)).length = 2 ∧
    (redisSend Config.default (okEnv 3) Stream.empty us).2.map (·.result.length) = [3, 15, 0] := by
  refine ⟨by decide, rfl, ?_, ?_, by decide, by decide⟩
  · intro c hc; simp [okEnv] at hc; rw [hc]
  · exact ⟨by intro c hc; simp [okEnv] at hc; rw [hc]; decide, by decide⟩

end OM.Props
