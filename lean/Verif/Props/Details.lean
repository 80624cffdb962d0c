import Verif.Props.Handlers
import Verif.Props.Redis
/-!
# C18: what the details of a failed (de)activation say
-/
namespace OM.Props
open OM.Spec

/-- What a detail should say: which ticket, which state, and what the storage said. -/
def Explains (cmd : Cmd) (id said d : Str) : Prop :=
  (cmd = .activate → d = "Unable to update ticket ".toList ++ id ++ " state to active : ".toList ++ said) ∧
  (cmd = .deactivate → d = "Unable to update ticket ".toList ++ id ++ " state to inactive : ".toList ++ said)

theorem explains_updateErrMsg (cmd : Cmd) (id said : Str) : Explains cmd id said (updateErrMsg cmd id said) := by
  have a1 : " state to active : ".toList = " state to ".toList ++ "active".toList ++ " : ".toList := by decide
  have a2 : " state to inactive : ".toList = " state to ".toList ++ "inactive".toList ++ " : ".toList := by decide
  have gen : ∀ a b c d e f : Str, a ++ b ++ c ++ d ++ e ++ f = a ++ b ++ (c ++ d ++ e) ++ f := fun a b c d e f => by simp only [List.append_assoc]
  constructor <;> intro h <;> rw [h]
  · rw [a1]; exact gen _ _ _ _ _ _
  · rw [a2]; exact gen _ _ _ _ _ _

theorem collectErrs_last (cmd : Cmd) (ids : List Str) (rs : List StateResponse) (errs m : GoMap Str)
    (h : collectErrs cmd ids rs errs = some m) (k d : Str) (hk : m.load k = some d) :
    (∃ (i : Nat) (id : Str) (r : StateResponse) (t : Str), ids[i]? = some id ∧ rs[i]? = some r ∧ r.err = some t ∧ r.result = k ∧
      d = updateErrMsg cmd id t ∧ ∀ j, i < j → j < ids.length → ∀ r', rs[j]? = some r' → r'.err ≠ none → r'.result ≠ k) ∨
    (errs.load k = some d ∧ ∀ j, j < ids.length → ∀ r', rs[j]? = some r' → r'.err ≠ none → r'.result ≠ k) := by
  induction ids generalizing rs errs with
  | nil =>
    rw [collectErrs] at h
    cases h
    exact .inr ⟨hk, fun j hj => absurd hj (Nat.not_lt_zero j)⟩
  | cons id ids ih =>
    cases rs with
    | nil => rw [collectErrs] at h; cases h
    | cons r rs =>
      simp only [collectErrs] at h
      rcases ih rs _ h with ⟨i, id', r', t, h1, h2, h3, h4, h5, h6⟩ | ⟨h1, h2⟩
      · refine .inl ⟨i + 1, id', r', t, h1, h2, h3, h4, h5, fun j hij hj r'' hr'' => ?_⟩
        cases j with
        | zero => exact absurd hij (Nat.not_lt_zero _)
        | succ j => exact h6 j (Nat.lt_of_succ_lt_succ hij) (Nat.lt_of_succ_lt_succ hj) r'' hr''
      · cases he : r.err with
        | none =>
          rw [he] at h1
          refine .inr ⟨h1, fun j hj r'' hr'' hne => ?_⟩
          cases j with
          | zero => cases hr''; exact absurd he hne
          | succ j => exact h2 j (Nat.lt_of_succ_lt_succ hj) r'' hr'' hne
        | some t =>
          rw [he] at h1
          by_cases hkr : r.result = k
          · refine .inl ⟨0, id, r, t, rfl, rfl, he, hkr, ?_, fun j hij hj r'' hr'' => ?_⟩
            · rw [hkr, GoMap.load_store_same] at h1; exact (Option.some.inj h1).symm
            · cases j with
              | zero => exact absurd hij (Nat.not_lt_zero _)
              | succ j => exact h2 j (Nat.lt_of_succ_lt_succ hj) r'' hr''
          · rw [GoMap.load_store_ne _ _ (fun e => hkr e.symm)] at h1
            refine .inr ⟨h1, fun j hj r'' hr'' hne => ?_⟩
            cases j with
            | zero => cases hr''; exact hkr
            | succ j => exact h2 j (Nat.lt_of_succ_lt_succ hj) r'' hr'' hne

/-- **C18 (descriptions).** Whatever the storage answers, each detail explains a failure of this very call: the
ticket, the state asked for and what the storage said about it, even where the field does not name the ticket.  Of
several failures that the storage gives the same name it is the last one, and no two details have the same field. -/
theorem C18_descriptions (cmd : Cmd) (ids : List Str) (rs : List StateResponse)
    (perm : GoMap Str → GoMap Str) (hp : ∀ m, (perm m).Perm m) (e : RpcErr)
    (h : activeStateReturn cmd ids rs perm = some (some e)) :
    e.violations ≠ [] ∧ (e.violations.map (·.1)).Nodup ∧
    ∀ v ∈ e.violations, ∃ (i : Nat) (id : Str) (r : StateResponse) (said : Str),
      (validateTicketIds ids).1[i]? = some id ∧ rs[i]? = some r ∧ r.err = some said ∧ v.1 = "ticketId/".toList ++ r.result ∧
      Explains cmd id said v.2 ∧
      ∀ j, i < j → j < (validateTicketIds ids).1.length → ∀ r', rs[j]? = some r' → r'.err ≠ none → r'.result ≠ r.result := by
  unfold activeStateReturn at h
  cases hc : collectErrs cmd (validateTicketIds ids).1 rs [] with
  | none => rw [hc] at h; cases h
  | some m =>
    rw [hc] at h
    simp only [Option.map_some, Option.some.injEq] at h
    obtain ⟨hne, he⟩ := addDetails_some h
    have hwf : m.WF := collectErrs_WF cmd _ rs [] m GoMap.WF_nil hc
    subst he
    refine ⟨fun h0 => hne (List.map_eq_nil_iff.1 h0), ?_, ?_⟩
    · have hperm : (((perm m).map fun e => ("ticketId/".toList ++ e.1, e.2)).map (·.1)).Perm (m.keys.map ("ticketId/".toList ++ ·)) := by
        have := (hp m).map fun e => "ticketId/".toList ++ e.1
        simpa only [GoMap.keys, List.map_map, Function.comp_def] using this
      rw [hperm.nodup_iff]
      exact List.pairwise_map.2 (List.Pairwise.imp (fun h hab => h (List.append_cancel_left hab)) hwf)
    · intro v hv
      obtain ⟨⟨k, d⟩, hkd, rfl⟩ := List.mem_map.1 hv
      have hl := GoMap.load_of_mem hwf ((hp m).mem_iff.1 hkd)
      rcases collectErrs_last cmd _ rs [] m hc k d hl with ⟨i, id, r, t, h1, h2, h3, h4, h5, h6⟩ | ⟨h1, -⟩
      · refine ⟨i, id, r, t, h1, h2, h3, by rw [h4], by rw [h5]; exact explains_updateErrMsg cmd id t, ?_⟩
        rw [h4]; exact h6
      · cases h1

/-! ## C17, exactly -/

private theorem text_cancel {a b : Str} (ha : IsText a) (h : IsText (a ++ b)) : IsText b := by
  rw [← Wire.utf8Valid_iff] at ha h ⊢
  unfold Wire.utf8Valid at ha h ⊢
  rw [List.foldl_append] at h
  split at ha
  · rename_i lo hi he
    rw [he] at h
    rcases Wire.utf8_start lo hi b with e | e
    · rwa [e] at h
    · rw [e]; rfl
  · cases ha

private theorem updateErrMsg_text {cmd : Cmd} {id said : Str} (hi : IsText id) : IsText (updateErrMsg cmd id said) ↔ IsText said := by
  refine ⟨fun h => ?_, isText_updateErrMsg cmd hi⟩
  have h0 := isText_updateErrMsg cmd hi Wire.isText_nil
  unfold updateErrMsg at h h0
  rw [List.append_nil] at h0
  exact text_cancel h0 h

/-- **C17, exactly, for every storage.** Partial: the full claim is that the first alternative is the only
one.  After an accepted request, with one response per update sent, the call returns OK exactly when no
response carries an error, or some failure that would be told (the last of its name) is told in bytes
that are no text: then none is told. -/
theorem C17_exact_partial (cmd : Cmd) (ids : List Str) (rs : List StateResponse)
    (perm : GoMap Str → GoMap Str) (hp : ∀ m, (perm m).Perm m)
    (hl : rs.length = (validateTicketIds ids).1.length) (hi : ∀ id ∈ ids, IsText id) :
    activeStateReturn cmd ids rs perm = some none ↔ (∀ r ∈ rs, r.err = none) ∨
      ∃ (i : Nat) (r : StateResponse) (said : Str), rs[i]? = some r ∧ r.err = some said ∧ ¬ (IsText r.result ∧ IsText said) ∧
        ∀ j r', i < j → rs[j]? = some r' → r'.err ≠ none → r'.result ≠ r.result := by
  obtain ⟨m, h1, h2⟩ := collectErrs_spec cmd (validateTicketIds ids).1 rs [] hl
  have hwf : m.WF := collectErrs_WF cmd _ rs [] m GoMap.WF_nil h1
  have hid : ∀ i id, (validateTicketIds ids).1[i]? = some id → IsText id := fun i id h => by
    have := List.mem_of_getElem? h
    rw [validateTicketIds_eq] at this
    exact hi id (List.mem_of_mem_filter this)
  have hpre : IsText "ticketId/".toList := Wire.isText_ascii (by decide)
  have e : activeStateReturn cmd ids rs perm = some (addStateUpdateErrorDetails (perm m)) := by simp [activeStateReturn, h1]
  rw [e, Option.some.injEq]
  have last : ∀ k d, m.load k = some d → ∃ (i : Nat) (r : StateResponse) (said : Str), rs[i]? = some r ∧ r.err = some said ∧
      r.result = k ∧ (IsText d ↔ IsText said) ∧ ∀ j r', i < j → rs[j]? = some r' → r'.err ≠ none → r'.result ≠ k := by
    intro k d hk
    rcases collectErrs_last cmd _ rs [] m h1 k d hk with ⟨i, id, r, t, g1, g2, g3, g4, g5, g6⟩ | ⟨h, -⟩
    · refine ⟨i, r, t, g2, g3, g4, by rw [g5]; exact updateErrMsg_text (hid i id g1), fun j r' hj hr' => ?_⟩
      refine g6 j hj ?_ r' hr'
      rw [← hl]
      exact (List.getElem?_eq_some_iff.mp hr').1
    · cases h
  constructor
  · intro h
    by_cases hm : m = []
    · exact .inl ((errs_nil_iff h2).mp hm)
    right
    have hne : ¬ ∀ x ∈ perm m, IsText x.1 ∧ IsText x.2 := by
      intro ht
      rw [addDetails_text ht (fun h0 => hm (List.nil_perm.1 (h0 ▸ hp m)))] at h
      cases h
    push Not at hne
    obtain ⟨⟨k, d⟩, hx, hn⟩ := hne
    obtain ⟨i, r, said, g1, g2, g3, g4, g5⟩ := last k d (GoMap.load_of_mem hwf ((hp m).mem_iff.mp hx))
    refine ⟨i, r, said, g1, g2, fun ⟨t1, t2⟩ => hn (g3 ▸ t1) (g4.mpr t2), fun j r' hj hr' he => ?_⟩
    rw [g3]; exact g5 j r' hj hr' he
  · rintro (h | ⟨i, r, said, g1, g2, g3, g4⟩)
    · rw [(errs_nil_iff h2).mpr h, List.perm_nil.1 (hp [])]; rfl
    · have hk : r.result ∈ m.keys := (h2 _).mpr (.inr ⟨r, List.mem_of_getElem? g1, by rw [g2]; rfl, rfl⟩)
      obtain ⟨d, hd⟩ := Option.isSome_iff_exists.mp (GoMap.load_isSome_iff.mpr hk)
      obtain ⟨i', r', said', k1, k2, k3, k4, k5⟩ := last _ d hd
      have hii : i' = i := by
        rcases Nat.lt_trichotomy i' i with hlt | heq | hgt
        · exact absurd rfl (k5 i r hlt g1 (by rw [g2]; simp))
        · exact heq
        · exact absurd k3 (g4 i' r' hgt k1 (by rw [k2]; simp))
      subst hii
      rw [g1] at k1
      cases k1
      rw [g2] at k2
      cases k2
      unfold addStateUpdateErrorDetails
      split
      · refine if_neg fun hall => ?_
        rw [List.all_eq_true] at hall
        have := hall ("ticketId/".toList ++ r.result, d) (List.mem_map.mpr ⟨(r.result, d), (hp m).mem_iff.mpr (GoMap.mem_of_load hd), rfl⟩)
        rw [Bool.and_eq_true, Wire.utf8Valid_iff, Wire.utf8Valid_iff] at this
        exact g3 ⟨text_cancel hpre this.1, k4.mp this.2⟩
      · rfl

example : ∃ rs : List StateResponse, rs.length = 2 ∧ rs[1]? = some ⟨[], some [Char.ofNat 0xE9]⟩ ∧ ¬ IsText [Char.ofNat 0xE9] :=
  ⟨[⟨[], some "READONLY".toList⟩, ⟨[], some [Char.ofNat 0xE9]⟩], rfl, rfl, fun h => by
    rw [← Wire.utf8Valid_iff] at h; revert h; decide⟩

/-! ## With Redis -/

theorem execCmds_reply (s : Stream) (fs : List (List Str)) (es : List CmdEnv) (hl : fs.length ≤ es.length) (i : Nat) (hi : i < fs.length) :
    ∃ en, es[i]? = some en ∧ ((∃ m, en.fail = some m ∧ (execCmds s fs es).2[i]? = some (.err m)) ∨
      (en.fail = none ∧ ∃ t, (execCmds s fs es).2[i]? = some (.str t))) := by
  induction fs generalizing s es i with
  | nil => exact absurd hi (Nat.not_lt_zero i)
  | cons f fs ih =>
    cases es with
    | nil => exact absurd hl (Nat.not_succ_le_zero _)
    | cons e es =>
      have hl' : fs.length ≤ es.length := Nat.le_of_succ_le_succ hl
      cases he : e.fail with
      | some m =>
        simp only [execCmds, he]
        cases i with
        | zero => exact ⟨e, rfl, .inl ⟨m, he, rfl⟩⟩
        | succ i => exact ih s es hl' i (Nat.lt_of_succ_lt_succ hi)
      | none =>
        simp only [execCmds, he]
        cases i with
        | zero => exact ⟨e, rfl, .inr ⟨he, _, rfl⟩⟩
        | succ i => exact ih _ es hl' i (Nat.lt_of_succ_lt_succ hi)

/-- **C18 (what a caller learns with Redis).** When Redis refuses some of a call's updates, there is one detail, whose
field names no ticket; its description names the last ticket that was refused and has Redis's words. -/
theorem C18_redis_details (cfg : Config) (env : SendEnv) (s : Stream) (cmd : Cmd) (ids : List Str)
    (hcmd : cmd = .activate ∨ cmd = .deactivate) (hn : env.lost = none)
    (hl : (validateTicketIds ids).1.length ≤ env.cmds.length)
    (perm : GoMap Str → GoMap Str) (hp : ∀ m, (perm m).Perm m) (e : RpcErr)
    (h : activeStateReturn cmd ids (redisSend cfg env s (stateUpdatesFor cmd (validateTicketIds ids).1)).2 perm = some (some e)) :
    ∃ (i : Nat) (id : Str) (en : CmdEnv) (said d : Str), (validateTicketIds ids).1[i]? = some id ∧ env.cmds[i]? = some en ∧
      en.fail = some said ∧ (∀ j, i < j → j < (validateTicketIds ids).1.length → ∀ en', env.cmds[j]? = some en' → en'.fail = none) ∧
      e.violations = [("ticketId/".toList, d)] ∧ Explains cmd id ("Redis output string conversion error: ".toList ++ said) d := by
  have hdash : ∀ id ∈ (validateTicketIds ids).1, id ≠ [] := by
    intro id hid h0
    rw [validateTicketIds_eq] at hid
    have := (dash_mem_iff_matchString id).1 (List.mem_filter.1 hid).2
    rw [h0] at this
    cases this
  have hfields : ∀ id ∈ (validateTicketIds ids).1, ∃ f, redisFields ⟨cmd, id, []⟩ = .ok f := by
    intro id hid
    have := hdash id hid
    rcases hcmd with rfl | rfl <;> simp only [redisFields, if_neg this] <;> exact ⟨_, rfl⟩
  generalize hvs : (validateTicketIds ids).1 = vs at *
  have hus : ∀ u ∈ stateUpdatesFor cmd vs, redisValid u = true := by
    intro u hu
    obtain ⟨id, hid, rfl⟩ := List.mem_map.1 hu
    exact (redisValid_iff _).2 (hfields id hid)
  have hlen : (redisCmds (stateUpdatesFor cmd vs)).length = vs.length := by
    rw [redisCmds_length_valid hus, stateUpdatesFor, List.length_map]
  have hresp : ∀ (i : Nat) (id : Str), vs[i]? = some id → ∃ en, env.cmds[i]? = some en ∧
      ((∃ m, en.fail = some m ∧ (redisSend cfg env s (stateUpdatesFor cmd vs)).2[i]? = some ⟨[], some ("Redis output string conversion error: ".toList ++ m)⟩) ∨
        (en.fail = none ∧ ∃ t, (redisSend cfg env s (stateUpdatesFor cmd vs)).2[i]? = some ⟨t, none⟩)) := by
    intro i id hid
    have hi : i < vs.length := (List.getElem?_eq_some_iff.1 hid).1
    obtain ⟨f, hf⟩ := hfields id (List.mem_of_getElem? hid)
    obtain ⟨en, h1, h2⟩ := execCmds_reply s (redisCmds (stateUpdatesFor cmd vs)) env.cmds (by rw [hlen]; exact hl) i (by rw [hlen]; exact hi)
    have hu : (stateUpdatesFor cmd vs)[i]? = some ⟨cmd, id, []⟩ := by rw [stateUpdatesFor, List.getElem?_map, hid]; rfl
    refine ⟨en, h1, ?_⟩
    have hs : (redisSend cfg env s (stateUpdatesFor cmd vs)).2 = respLoop (stateUpdatesFor cmd vs) (execCmds s (redisCmds (stateUpdatesFor cmd vs)) env.cmds).2 := by
      simp only [redisSend, hn, redisResponses]
    rw [hs]
    rcases h2 with ⟨m, h2, h3⟩ | ⟨h2, t, h3⟩
    · refine .inl ⟨m, h2, ?_⟩
      rw [respLoop_getElem? _ _ i _ _ hu h3, respond, hf]
      rfl
    · refine .inr ⟨h2, t, ?_⟩
      rw [respLoop_getElem? _ _ i _ _ hu h3, respond, hf]
      rfl
  obtain ⟨hne, hnd, hall⟩ := C18_descriptions cmd ids _ perm hp e h
  rw [hvs] at hall
  have hone : ∀ v ∈ e.violations, v.1 = "ticketId/".toList ++ [] ∧ ∃ (i : Nat) (id : Str) (en : CmdEnv) (said : Str), vs[i]? = some id ∧
      env.cmds[i]? = some en ∧ en.fail = some said ∧
      (∀ j, i < j → j < vs.length → ∀ en', env.cmds[j]? = some en' → en'.fail = none) ∧
      Explains cmd id ("Redis output string conversion error: ".toList ++ said) v.2 := by
    intro v hv
    obtain ⟨i, id, r, said, h1, h2, h3, h4, h5, h6⟩ := hall v hv
    obtain ⟨en, he, hcase⟩ := hresp i id h1
    rcases hcase with ⟨m, hm, hr⟩ | ⟨hm, t, hr⟩
    · rw [h2] at hr
      cases hr
      cases h3
      refine ⟨h4, i, id, en, m, h1, he, hm, ?_, h5⟩
      intro j hij hj en' hen'
      obtain ⟨en2, he2, hc2⟩ := hresp j vs[j] (List.getElem?_eq_getElem hj)
      rw [hen'] at he2
      cases he2
      rcases hc2 with ⟨m', hm', hr'⟩ | ⟨hm', -⟩
      · exact (h6 j hij hj ⟨[], some ("Redis output string conversion error: ".toList ++ m')⟩ hr' (fun h => by cases h) rfl).elim
      · exact hm'
    · rw [h2] at hr
      cases hr
      cases h3
  match hv : e.violations, hne with
  | [v], _ =>
    obtain ⟨hf, i, id, en, said, h1, h2, h3, h4, h5⟩ := hone v (by rw [hv]; exact List.mem_singleton.2 rfl)
    refine ⟨i, id, en, said, v.2, h1, h2, h3, h4, ?_, h5⟩
    rw [List.append_nil] at hf
    rw [← hf]
  | v :: w :: vs', _ =>
    exfalso
    have e1 := (hone v (by rw [hv]; exact List.mem_cons_self)).1
    have e2 := (hone w (by rw [hv]; exact List.mem_cons_of_mem _ List.mem_cons_self)).1
    rw [hv, List.map_cons, List.map_cons, List.nodup_cons] at hnd
    exact hnd.1 (by rw [e1, ← e2]; exact List.mem_cons_self)

/-- Three activations, of which Redis refuses the first and the second. -/
example : (activeStateReturn .activate ["1-0".toList, "2-0".toList, "3-0".toList]
    (redisSend Config.default ⟨[⟨5, some "OOM".toList⟩, ⟨5, some "NOPERM".toList⟩, ⟨6, none⟩], 9, none, none⟩ Stream.empty
      (stateUpdatesFor .activate ["1-0".toList, "2-0".toList, "3-0".toList])).2 id) =
    some (some ⟨.invalidArgument, "One or more state update arguments were invalid".toList,
      [("ticketId/".toList, "Unable to update ticket 2-0 state to active : Redis output string conversion error: NOPERM".toList)]⟩) := by
  decide +kernel

end OM.Props
