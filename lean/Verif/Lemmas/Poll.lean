import Verif.Lemmas.Redis
/-! # Lemmas: reading the stream by polling -/
namespace OM

structure RInv (H : Nat) (w : RWorld) : Prop where
  inv : w.stream.Inv
  ms : ∀ e ∈ w.stream.entries, H ≤ e.1.1
  split : ∃ pre post, w.stream.entries = pre ++ post ∧ w.read = pre.map decoded ∧
    (∀ e ∈ pre, ¬ RId.lt w.replId e.1) ∧ (∀ e ∈ post, RId.lt w.replId e.1)
  low : w.replId = w.stream.last ∨ RId.lt w.replId w.stream.last ∨ w.replId = (0, 0)

theorem execCmds_added_above {s : Stream} (fs : List (List Str)) (es : List CmdEnv) :
    ∃ added, (execCmds s fs es).1.entries = s.entries ++ added ∧ (∀ e ∈ added, RId.lt s.last e.1) ∧
      ((execCmds s fs es).1.last = s.last ∨ RId.lt s.last (execCmds s fs es).1.last) := by
  induction fs generalizing s es with
  | nil => exact ⟨[], by simp [execCmds]⟩
  | cons f fs ih =>
    cases es with
    | nil => exact ⟨[], by simp [execCmds]⟩
    | cons c es =>
      simp only [execCmds]
      cases c.fail with
      | some m => exact ih es
      | none =>
        obtain ⟨a, h1, h2, h3⟩ := ih (s := s.xadd c.nowMs f) es
        have hlt : RId.lt s.last (s.xadd c.nowMs f).last := lt_nextId _ _
        refine ⟨(nextId s.last c.nowMs, f) :: a, by rw [h1]; simp [Stream.xadd], ?_, ?_⟩
        · intro e he
          rcases List.mem_cons.1 he with rfl | he
          · exact lt_nextId _ _
          · exact RId.lt_trans hlt (h2 e he)
        · rcases h3 with h3 | h3
          · exact Or.inr (h3 ▸ hlt)
          · exact Or.inr (RId.lt_trans hlt h3)

theorem send_above {cfg : Config} {env : SendEnv} {H : Nat} {s : Stream} (us : List StateUpdate)
    (h0 : ∀ e ∈ s.entries, H ≤ e.1.1) (hp : env.Plausible cfg H) :
    ∃ added, (redisSend cfg env s us).1.entries = s.entries ++ added ∧ (∀ e ∈ added, RId.lt s.last e.1) ∧
      ((redisSend cfg env s us).1.last = s.last ∨ RId.lt s.last (redisSend cfg env s us).1.last) := by
  unfold redisSend
  cases env.lost with
  | some k =>
    dsimp only
    rw [execPart_eq us k h0 hp]
    exact execCmds_added_above _ _
  | none =>
    have hm := execCmds_ms H s (redisCmds us) env.cmds h0 hp.1
    have : (execTrim cfg env.nowS env.trimFail (execCmds s (redisCmds us) env.cmds).1).1
        = (execCmds s (redisCmds us) env.cmds).1 :=
      execTrim_noop fun e he => by have := hm e he; have := hp.2; omega
    dsimp only
    rw [this]
    exact execCmds_added_above _ _

/-- A poll of the first `k` entries keeps the invariant, and one of all entries that finds
nothing means that everything has been read. -/
theorem poll_inv {H : Nat} {w : RWorld} (h : RInv H w) (k n : Nat) :
    ∃ us r, pollUpdates (w.stream.lagging k) n w.replId = some (us, r) ∧
      RInv H ⟨w.stream, r, w.read ++ us⟩ ∧
      (w.stream.entries.length ≤ k → us = [] → w.read = w.stream.entries.map decoded) := by
  obtain ⟨pre, post, e1, e2, e3, e4⟩ := h.split
  have hfil : (w.stream.entries.take k).filter (fun e => decide (RId.lt w.replId e.1)) =
      post.take (k - pre.length) := by
    rw [e1, List.take_append, List.filter_append]
    have f1 : (pre.take k).filter (fun e => decide (RId.lt w.replId e.1)) = [] := by
      rw [List.filter_eq_nil_iff]; intro e he; simpa using e3 e (List.mem_of_mem_take he)
    have f2 : (post.take (k - pre.length)).filter (fun e => decide (RId.lt w.replId e.1)) =
        post.take (k - pre.length) :=
      List.filter_eq_self.2 fun e he => by simpa using e4 e (List.mem_of_mem_take he)
    rw [f1, f2]; rfl
  obtain ⟨a, b, hab, hread, hempty⟩ : ∃ a b, post = a ++ b ∧ (w.stream.lagging k).xread n w.replId = a ∧
      (w.stream.entries.length ≤ k → a = [] → b = []) := by
    unfold Stream.xread Stream.lagging
    dsimp only
    rw [hfil]
    have hfull : w.stream.entries.length ≤ k → post.take (k - pre.length) = post := fun hk => by
      rw [e1, List.length_append] at hk
      exact List.take_of_length_le (by omega)
    by_cases hn : n = 0
    · refine ⟨post.take (k - pre.length), post.drop (k - pre.length), by simp, by simp [hn], fun hk ha => ?_⟩
      rw [hfull hk] at ha
      simp [ha]
    · refine ⟨(post.take (k - pre.length)).take n, post.drop (min n (k - pre.length)), by simp [List.take_take],
        by simp [hn], fun hk ht => ?_⟩
      rw [hfull hk] at ht
      rcases List.take_eq_nil_iff.1 ht with h | h
      · exact absurd h hn
      · simp [h]
  have hgood : ∀ e ∈ a, GoodEntry e := fun e he => h.inv.good e (by rw [e1, hab]; simp [he])
  have hstep : pollUpdates (w.stream.lagging k) n w.replId =
      some (a.map decoded, (a.getLast?.map (·.1)).getD w.replId) := by
    simp only [pollUpdates, hread, mapM_decode hgood, Option.map_some]
  refine ⟨_, _, hstep, ⟨h.inv, h.ms, ?_, ?_⟩, ?_⟩
  · refine ⟨pre ++ a, b, by simp [e1, hab], by simp [e2], ?_, ?_⟩
    · have hsorted := h.inv.sorted
      rw [e1, hab] at hsorted
      intro e he
      cases hl : a.getLast? with
      | none =>
        have : a = [] := List.getLast?_eq_none_iff.1 hl
        subst this
        simpa using e3 e (by simpa using he)
      | some l =>
        simp only [Option.map_some, Option.getD_some]
        obtain ⟨a', rfl⟩ := List.getLast?_eq_some_iff.1 hl
        have hp : (pre ++ (a' ++ [l])).Pairwise (fun a b => RId.lt a.1 b.1) := by
          rw [← List.append_assoc] at hsorted
          exact (List.pairwise_append.1 hsorted).1
        rw [← List.append_assoc] at hp he
        rcases List.mem_append.1 he with he | he
        · have := (List.pairwise_append.1 hp).2.2 e he l (by simp)
          exact RId.lt_asymm this
        · simp at he; subst he; exact RId.lt_irrefl _
    · have hsorted := h.inv.sorted
      rw [e1, hab] at hsorted
      intro e he
      cases hl : a.getLast? with
      | none => simpa using e4 e (by rw [hab]; simp [he])
      | some l =>
        simp only [Option.map_some, Option.getD_some]
        have hla : l ∈ a := List.mem_of_getLast? hl
        rw [← List.append_assoc] at hsorted
        exact (List.pairwise_append.1 hsorted).2.2 l (by simp [hla]) e he
  · cases hl : a.getLast? with
    | none => simpa using h.low
    | some l =>
      have hla : l ∈ a := List.mem_of_getLast? hl
      rcases h.inv.bound l (by rw [e1, hab]; simp [hla]) with h | h
      · exact Or.inl (by simpa using h)
      · exact Or.inr (Or.inl (by simpa using h))
  · intro hk ha
    have ha' : a = [] := by simpa using ha
    rw [e1, hab, ha', hempty hk ha', e2]; simp

theorem rstep_inv {cfg : Config} {H : Nat} {w : RWorld} (h : RInv H w) (e : REv)
    (hp : ∀ env us, e = .send env us → env.Plausible cfg H) :
    ∃ w', rstep cfg w e = some w' ∧ RInv H w' ∧ (∃ added, w'.stream.entries = w.stream.entries ++ added) ∧
      (∀ n, e = .poll n → w'.read = w.read → w'.read = w'.stream.entries.map decoded) := by
  cases e with
  | pollFail => exact ⟨w, rfl, h, ⟨[], by simp⟩, fun n hn => by simp at hn⟩
  | send env us =>
    have hpl := hp env us rfl
    obtain ⟨added, a1, a2, a3⟩ := send_above us h.ms hpl
    refine ⟨_, rfl, ⟨redisSend_inv h.inv cfg env us, (redisSend_append_only us h.ms hpl).2, ?_, ?_⟩,
      ⟨added, a1⟩, fun n hn => by simp at hn⟩
    · obtain ⟨pre, post, e1, e2, e3, e4⟩ := h.split
      refine ⟨pre, post ++ added, by simp [a1, e1], e2, e3, ?_⟩
      intro e he
      rcases List.mem_append.1 he with he | he
      · exact e4 e he
      · have h2 := a2 e he
        rcases h.low with h | h | h
        · show RId.lt w.replId e.1
          rw [h]; exact h2
        · exact RId.lt_trans h h2
        · show RId.lt w.replId e.1
          have hi := (redisSend_inv ‹RInv H w›.inv cfg env us).pos e (by rw [a1]; simp [he])
          rw [h]; exact hi
    · rcases h.low with h | h | h
      · rcases a3 with a3 | a3
        · exact Or.inl (by simp only [a3, h])
        · exact Or.inr (Or.inl (by simp only [h]; exact a3))
      · rcases a3 with a3 | a3
        · exact Or.inr (Or.inl (by simp only [a3]; exact h))
        · exact Or.inr (Or.inl (RId.lt_trans h a3))
      · exact Or.inr (Or.inr h)
  | poll n =>
    obtain ⟨us, r, a, b, c⟩ := poll_inv h w.stream.entries.length n
    have hl : w.stream.lagging w.stream.entries.length = w.stream := by
      simp [Stream.lagging]
    rw [hl] at a
    refine ⟨_, by simp only [rstep, a, Option.map_some], b, ⟨[], by simp⟩, fun m _ heq => ?_⟩
    simp only at heq ⊢
    have hu : us = [] := by simpa using heq
    rw [heq]
    exact c (Nat.le_refl _) hu
  | pollLag k n =>
    obtain ⟨us, r, a, b, -⟩ := poll_inv h k n
    exact ⟨_, by simp only [rstep, a, Option.map_some], b, ⟨[], by simp⟩, fun m hm => by simp at hm⟩

end OM
