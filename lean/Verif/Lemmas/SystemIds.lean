import Verif.Lemmas.System
/-! # Lemmas: the ids handed out in the multi-instance system -/
namespace OM.Sys
open OM.Spec

/-- The id of a successful response. -/
def okId (r : StateResponse) : Option Str :=
  if r.err = none ∧ r.result ≠ [] then some r.result else none

/-- `i ≤ j`. -/
def RId.le (i j : RId) : Prop := ¬ RId.lt j i

theorem RId.le_refl (i : RId) : RId.le i i := RId.lt_irrefl i

theorem RId.le_trans {a b c : RId} (h1 : RId.le a b) (h2 : RId.le b c) : RId.le a c := by
  unfold RId.le RId.lt at *; omega

theorem RId.lt_of_le_of_lt {a b c : RId} (h1 : RId.le a b) (h2 : RId.lt b c) : RId.lt a c := by
  unfold RId.le RId.lt at *; omega

theorem RId.le_of_lt {a b : RId} (h : RId.lt a b) : RId.le a b := RId.lt_asymm h

/-- `ts` are, in order, texts of increasing ids after `a` and up to `b`. -/
def Issued (a b : RId) (ts : List Str) : Prop :=
  ∃ is : List RId, ts = is.map RId.fmt ∧ is.Pairwise RId.lt ∧ ∀ i ∈ is, RId.lt a i ∧ RId.le i b

theorem Issued.sublist {a b : RId} {ts us : List Str} (h : Issued a b us) (hs : ts.Sublist us) : Issued a b ts := by
  obtain ⟨is, rfl, h2, h3⟩ := h
  obtain ⟨js, h4, rfl⟩ := List.sublist_map_iff.1 hs
  exact ⟨js, rfl, h2.sublist h4, fun i hi => h3 i (h4.subset hi)⟩

theorem Issued.nodup {a b : RId} {ts : List Str} (h : Issued a b ts) : ts.Nodup := by
  obtain ⟨is, rfl, h2, -⟩ := h
  refine List.Pairwise.map _ (R := RId.lt) (fun p q hlt e => ?_) h2
  have := RId.fmt_injective e
  subst this
  exact RId.lt_irrefl _ hlt

theorem Issued.nil (a b : RId) : Issued a b [] := ⟨[], rfl, .nil, by simp⟩

/-- The text of a successful reply. -/
def strOf : Reply → Option Str
  | .str t => some t
  | _ => none

theorem execCmds_issued (s : Stream) (fs : List (List Str)) (es : List CmdEnv) :
    RId.le s.last (execCmds s fs es).1.last ∧
    Issued s.last (execCmds s fs es).1.last ((execCmds s fs es).2.filterMap strOf) := by
  induction fs generalizing s es with
  | nil => exact ⟨RId.le_refl _, by simpa [execCmds] using Issued.nil _ _⟩
  | cons f fs ih =>
    cases es with
    | nil => exact ⟨RId.le_refl _, by simpa [execCmds] using Issued.nil _ _⟩
    | cons e es =>
      simp only [execCmds]
      cases he : e.fail with
      | some m =>
        obtain ⟨h1, h2⟩ := ih s es
        exact ⟨h1, by rw [List.filterMap_cons_none rfl]; exact h2⟩
      | none =>
        obtain ⟨h1, is, h2, h3, h4⟩ := ih (s.xadd e.nowMs f) es
        have hlt : RId.lt s.last (nextId s.last e.nowMs) := lt_nextId _ _
        have hx : (s.xadd e.nowMs f).last = nextId s.last e.nowMs := rfl
        rw [hx] at h1 h4
        refine ⟨RId.le_trans (RId.le_of_lt hlt) h1, nextId s.last e.nowMs :: is, ?_, ?_, ?_⟩
        · simp only [List.filterMap_cons, strOf, List.map_cons]
          rw [h2]
        · exact List.pairwise_cons.2 ⟨fun i hi => (h4 i hi).1, h3⟩
        · intro i hi
          rcases List.mem_cons.1 hi with rfl | hi
          · exact ⟨hlt, h1⟩
          · exact ⟨RId.lt_trans hlt (h4 i hi).1, (h4 i hi).2⟩

theorem okId_respond {u : StateUpdate} {r : Reply} {t : Str} (h : okId (respond u r) = some t) : strOf r = some t := by
  unfold respond okId at h
  split at h
  · cases r <;> simp [redisString] at h
    simp [strOf, h.2]
  · simp at h

theorem okId_initial (u : StateUpdate) : okId (initialResponse u) = none := by
  unfold initialResponse okId
  split <;> simp

theorem respLoop_okIds (us : List StateUpdate) (rs : List Reply) :
    ((respLoop us rs).filterMap okId).Sublist (rs.filterMap strOf) := by
  induction us generalizing rs with
  | nil => simp [respLoop]
  | cons u us ih =>
    cases rs with
    | nil =>
      simp only [respLoop, List.filterMap_cons, okId_initial]
      exact ih []
    | cons r rs =>
      simp only [respLoop]
      cases h : okId (respond u r) with
      | none =>
        rw [List.filterMap_cons_none h]
        cases hr : strOf r with
        | none => rw [List.filterMap_cons_none hr]; exact ih rs
        | some t => rw [List.filterMap_cons_some hr]; exact (ih rs).cons _
      | some t =>
        rw [List.filterMap_cons_some h, List.filterMap_cons_some (okId_respond h)]
        exact (ih rs).cons_cons _

theorem execTrim_last (cfg : Config) (nowS : Int) (f : Option Str) (s : Stream) :
    (execTrim cfg nowS f s).1.last = s.last := by
  unfold execTrim
  split
  · rfl
  · split <;> rfl

theorem execPart_last (cfg : Config) (env : SendEnv) (s : Stream) (us : List StateUpdate) (k : Nat) :
    RId.le s.last (execPart cfg env s us k).last := by
  unfold execPart
  dsimp only
  split
  · rw [execTrim_last]; exact (execCmds_issued _ _ _).1
  · exact (execCmds_issued _ _ _).1

/-- One batch: the ids its successful responses carry are new and increasing. -/
theorem redisSend_issued (cfg : Config) (env : SendEnv) (s : Stream) (us : List StateUpdate) :
    RId.le s.last (redisSend cfg env s us).1.last ∧
    Issued s.last (redisSend cfg env s us).1.last ((redisSend cfg env s us).2.filterMap okId) := by
  unfold redisSend
  cases env.lost with
  | some k =>
    refine ⟨execPart_last _ _ _ _ _, ?_⟩
    have : (redisResponses us none).filterMap okId = [] := by
      simp [redisResponses, List.filterMap_map, okId_initial]
    simp only [this]
    exact Issued.nil _ _
  | none =>
    simp only [execTrim_last]
    obtain ⟨h1, h2⟩ := execCmds_issued s (redisCmds us) env.cmds
    exact ⟨h1, h2.sublist (respLoop_okIds _ _)⟩

/-! ## The system -/

/-- The ids that call `c` has received. -/
def gotIds (s : St) (c : Nat) : List Str :=
  match s.calls c with
  | some x => x.got.filterMap okId
  | none => []

/-- What one step does to the ids received. -/
def Grow (s s' : St) : Prop :=
  ∃ new : Nat → List Str, (∀ c, gotIds s' c = gotIds s c ++ new c) ∧
    (∀ c, Issued s.stream.last s'.stream.last (new c)) ∧
    (∀ c d t, t ∈ new c → t ∈ new d → c = d) ∧ RId.le s.stream.last s'.stream.last

theorem grow_same {s s' : St} (h : ∀ c, gotIds s' c = gotIds s c) (hl : RId.le s.stream.last s'.stream.last) :
    Grow s s' :=
  ⟨fun _ => [], fun c => by simp [h c], fun c => Issued.nil _ _, by simp, hl⟩

theorem gotIds_kill (s : St) (i c : Nat) : gotIds (s.kill i) c = gotIds s c := by
  unfold gotIds St.kill
  dsimp only
  cases h : s.calls c with
  | none => rfl
  | some x => simp only [Option.map_some]; split <;> rfl

theorem gotIds_setCall (s : St) (c d : Nat) (x : Call) (h : x.got.filterMap okId = gotIds s c) :
    gotIds (s.setCall c x) d = gotIds s d := by
  unfold gotIds St.setCall
  dsimp only
  by_cases hd : d = c
  · subst hd; simp only [if_true]; exact h
  · simp [hd]

theorem filterMap_unique {α : Type} {f : α → Option Str} {l : List α} (h : (l.filterMap f).Nodup)
    {a b : α} {t : Str} (ha : a ∈ l) (hb : b ∈ l) (h1 : f a = some t) (h2 : f b = some t) : a = b := by
  induction l with
  | nil => simp at ha
  | cons x l ih =>
    cases hx : f x with
    | none =>
      rw [List.filterMap_cons_none hx] at h
      rcases List.mem_cons.1 ha with rfl | ha
      · rw [hx] at h1; cases h1
      · rcases List.mem_cons.1 hb with rfl | hb
        · rw [hx] at h2; cases h2
        · exact ih h ha hb
    | some v =>
      rw [List.filterMap_cons_some hx] at h
      obtain ⟨n1, n2⟩ := List.nodup_cons.1 h
      rcases List.mem_cons.1 ha with ea | ha <;> rcases List.mem_cons.1 hb with eb | hb
      · rw [ea, eb]
      · rw [ea, hx] at h1; injection h1 with h1; subst h1
        exact absurd (List.mem_filterMap.2 ⟨b, hb, h2⟩) n1
      · rw [eb, hx] at h2; injection h2 with h2; subst h2
        exact absurd (List.mem_filterMap.2 ⟨a, ha, h1⟩) n1
      · exact ih n2 ha hb

theorem filter_okIds_sublist (cs : List Nat) (rs : List StateResponse) (c : Nat) :
    ((((cs.zip rs).filter fun d => decide (d.1 = c)).map (·.2)).filterMap okId).Sublist (rs.filterMap okId) := by
  refine List.Sublist.filterMap _ ?_
  refine (List.Sublist.map _ List.filter_sublist).trans ?_
  induction cs generalizing rs with
  | nil => simp
  | cons a cs ih =>
    cases rs with
    | nil => simp
    | cons r rs => simpa using ih rs

theorem zip_okIds_sublist (cs : List Nat) (rs : List StateResponse) :
    ((cs.zip rs).filterMap fun p => okId p.2).Sublist (rs.filterMap okId) := by
  induction cs generalizing rs with
  | nil => simp
  | cons a cs ih =>
    cases rs with
    | nil => simp
    | cons r rs =>
      rw [List.zip_cons_cons]
      cases ho : okId r with
      | none => rw [List.filterMap_cons_none ho, List.filterMap_cons_none (by simpa using ho)]; exact ih rs
      | some v =>
        rw [List.filterMap_cons_some ho, List.filterMap_cons_some (by simpa using ho)]
        exact (ih rs).cons_cons _

theorem grow_flushed (cfg : Config) (s : St) (i : Nat) (env : SendEnv) (b : List Req) :
    Grow s (flushed cfg s i env b) := by
  obtain ⟨h1, h2⟩ := redisSend_issued cfg env s.stream (b.map Req.update)
  refine ⟨fun c => match s.calls c with
    | none => []
    | some _ => ((((b.map Req.caller).zip (redisSend cfg env s.stream (b.map Req.update)).2).filter
        fun d => decide (d.1 = c)).map (·.2)).filterMap okId, ?_, ?_, ?_, h1⟩
  · intro c
    simp only [gotIds, flushed, St.give, St.setInst]
    cases s.calls c with
    | none => rfl
    | some x => simp [List.filterMap_append]
  · intro c
    dsimp only
    split
    · exact Issued.nil _ _
    · exact h2.sublist (filter_okIds_sublist _ _ _)
  · intro c d t hc hd
    dsimp only at hc hd
    split at hc
    · simp at hc
    split at hd
    · simp at hd
    have key : ∀ c : Nat, t ∈ ((((b.map Req.caller).zip (redisSend cfg env s.stream (b.map Req.update)).2).filter
        fun d => decide (d.1 = c)).map (·.2)).filterMap okId →
        ∃ p ∈ (b.map Req.caller).zip (redisSend cfg env s.stream (b.map Req.update)).2, p.1 = c ∧ okId p.2 = some t := by
      intro c hc
      obtain ⟨r, hr, ht⟩ := List.mem_filterMap.1 hc
      obtain ⟨p, hp, rfl⟩ := List.mem_map.1 hr
      obtain ⟨hp, he⟩ := List.mem_filter.1 hp
      exact ⟨p, hp, by simpa using he, ht⟩
    obtain ⟨p, p1, p2, p3⟩ := key c hc
    obtain ⟨q, q1, q2, q3⟩ := key d hd
    have hn : (((b.map Req.caller).zip (redisSend cfg env s.stream (b.map Req.update)).2).filterMap
        fun p => okId p.2).Nodup := h2.nodup.sublist (zip_okIds_sublist _ _)
    have := filterMap_unique hn p1 q1 p3 q3
    rw [← p2, ← q2, this]

theorem grow_outgoing (cfg : Config) (s : St) (i : Nat) (env : SendEnv) (e : OutEv) :
    Grow s (outgoing cfg s i env e) := by
  rcases outgoing_cases cfg s i env e with h | h <;> rw [h]
  · exact grow_same (fun c => rfl) (RId.le_refl _)
  · exact grow_flushed cfg s i env _

theorem grow_of_eq {s s1 s' : St} (hg : ∀ c, gotIds s1 c = gotIds s c) (hs : s1.stream = s.stream)
    (h : Grow s1 s') : Grow s s' := by
  obtain ⟨new, h1, h2, h3, h4⟩ := h
  rw [hs] at h2 h4
  exact ⟨new, fun c => by rw [h1, hg], h2, h3, h4⟩

theorem grow_step {cd : Codec} {cfg : Config} {s s' : St} (l : Label) (hs : step cd cfg s l = some s') : Grow s s' := by
  cases l with
  | call c i rpc =>
    simp only [step] at hs
    split at hs
    · rename_i hg
      simp only [Bool.and_eq_true, Option.isNone_iff_eq_none] at hg
      injection hs with hs; subst hs
      refine grow_same (fun d => gotIds_setCall s c d _ ?_) (RId.le_refl _)
      simp only [gotIds, hg.2]
      split <;> rfl
    · cases hs
  | submit c env =>
    simp only [step] at hs
    split at hs
    · cases hs
    · rename_i x hx
      split at hs
      · cases hs
      · split at hs
        · injection hs with hs; subst hs
          refine grow_of_eq (s1 := s.setCall c { x with todo := _ }) (fun d => gotIds_setCall s c d _ ?_) rfl
            (grow_outgoing _ _ _ _ _)
          simp [gotIds, hx]
        · cases hs
  | timeout i env =>
    simp only [step] at hs
    split at hs
    · injection hs with hs; subst hs; exact grow_outgoing _ _ _ _ _
    · cases hs
  | finish c order =>
    simp only [step] at hs
    split at hs
    · cases hs
    · rename_i x hx
      split at hs
      · cases hr : x.result order with
        | none => rw [hr] at hs; cases hs
        | some o =>
          rw [hr] at hs
          injection hs with hs; subst hs
          refine grow_same (fun d => gotIds_setCall s c d _ ?_) (RId.le_refl _)
          simp [gotIds, hx]
      · cases hs
  | poll i =>
    simp only [step] at hs
    split at hs
    · split at hs
      · injection hs with hs; subst hs
        exact grow_same (fun c => gotIds_kill s i c) (RId.le_refl _)
      · injection hs with hs; subst hs
        exact grow_same (fun c => rfl) (RId.le_refl _)
    · cases hs
  | pollLag i k =>
    simp only [step] at hs
    split at hs
    · split at hs
      · injection hs with hs; subst hs
        exact grow_same (fun c => gotIds_kill s i c) (RId.le_refl _)
      · injection hs with hs; subst hs
        exact grow_same (fun c => rfl) (RId.le_refl _)
    · cases hs
  | apply i =>
    simp only [step] at hs
    split at hs
    · split at hs
      · cases hs
      · injection hs with hs; subst hs
        exact grow_same (fun c => rfl) (RId.le_refl _)
    · cases hs
  | expire i cy =>
    simp only [step] at hs
    split at hs
    · split at hs
      · injection hs with hs; subst hs
        exact grow_same (fun c => rfl) (RId.le_refl _)
      · cases hs
    · cases hs
  | crash i =>
    simp only [step] at hs
    split at hs
    · injection hs with hs; subst hs
      exact grow_same (fun c => gotIds_kill s i c) (RId.le_refl _)
    · cases hs
  | crashMid i env k =>
    simp only [step] at hs
    split at hs
    · injection hs with hs; subst hs
      refine grow_same (fun c => ?_) (execPart_last _ _ _ _ _)
      rw [gotIds_kill]; rfl
    · cases hs
  | start i =>
    simp only [step] at hs
    split at hs
    · cases hs
    · injection hs with hs; subst hs
      exact grow_same (fun c => rfl) (RId.le_refl _)

/-- All ids received so far: texts of ids up to the stream's last, no id twice. -/
structure IdsOk (s : St) : Prop where
  nodup : ∀ c, (gotIds s c).Nodup
  disj : ∀ c d t, t ∈ gotIds s c → t ∈ gotIds s d → c = d
  le : ∀ c t, t ∈ gotIds s c → ∃ i, t = i.fmt ∧ RId.le i s.stream.last

theorem idsOk_grow {s s' : St} (h : IdsOk s) (hg : Grow s s') : IdsOk s' := by
  obtain ⟨new, h1, h2, h3, h4⟩ := hg
  have hnew : ∀ c t, t ∈ new c → ∃ i, t = i.fmt ∧ RId.lt s.stream.last i ∧ RId.le i s'.stream.last := by
    intro c t ht
    obtain ⟨is, e, -, e3⟩ := h2 c
    rw [e] at ht
    obtain ⟨i, hi, rfl⟩ := List.mem_map.1 ht
    exact ⟨i, rfl, e3 i hi⟩
  have hold : ∀ c d t, t ∈ gotIds s c → t ∈ new d → False := by
    intro c d t hc hd
    obtain ⟨i, hi, hle⟩ := h.le c t hc
    obtain ⟨j, hj, hlt, -⟩ := hnew d t hd
    rw [hi] at hj
    have := RId.fmt_injective hj
    subst this
    exact hle hlt
  refine ⟨fun c => ?_, fun c d t hc hd => ?_, fun c t hc => ?_⟩
  · rw [h1]
    exact List.nodup_append.2 ⟨h.nodup c, (h2 c).nodup, fun a ha b hb e => hold c c a ha (e ▸ hb)⟩
  · rw [h1] at hc hd
    rcases List.mem_append.1 hc with hc | hc <;> rcases List.mem_append.1 hd with hd | hd
    · exact h.disj c d t hc hd
    · exact (hold c d t hc hd).elim
    · exact (hold d c t hd hc).elim
    · exact h3 c d t hc hd
  · rw [h1] at hc
    rcases List.mem_append.1 hc with hc | hc
    · obtain ⟨i, hi, hle⟩ := h.le c t hc
      exact ⟨i, hi, RId.le_trans hle h4⟩
    · obtain ⟨i, hi, -, hle⟩ := hnew c t hc
      exact ⟨i, hi, hle⟩

theorem idsOk_init : IdsOk init :=
  ⟨fun _ => .nil, fun _ _ _ h => by simp [gotIds, init] at h, fun _ _ h => by simp [gotIds, init] at h⟩

theorem idsOk_run {cd : Codec} {cfg : Config} (ls : List Label) : ∀ {s s' : St}, IdsOk s →
    run cd cfg s ls = some s' → IdsOk s' := by
  induction ls with
  | nil => intro s s' h hr; simp only [run, Option.some.injEq] at hr; exact hr ▸ h
  | cons l ls ih =>
    intro s s' h hr
    simp only [run] at hr
    cases hs : step cd cfg s l with
    | none => rw [hs] at hr; cases hr
    | some s1 =>
      rw [hs] at hr
      exact ih (idsOk_grow h (grow_step l hs)) hr

/-- Ids received after `s` are greater than all before. -/
theorem later_ids {cd : Codec} {cfg : Config} (ls : List Label) : ∀ {s s' : St},
    run cd cfg s ls = some s' → RId.le s.stream.last s'.stream.last ∧
      ∀ c, ∃ new, gotIds s' c = gotIds s c ++ new ∧ ∀ t ∈ new, ∃ i, t = i.fmt ∧ RId.lt s.stream.last i := by
  induction ls with
  | nil =>
    intro s s' hr
    simp only [run, Option.some.injEq] at hr
    subst hr
    exact ⟨RId.le_refl _, fun c => ⟨[], by simp⟩⟩
  | cons l ls ih =>
    intro s s' hr
    simp only [run] at hr
    cases hs : step cd cfg s l with
    | none => rw [hs] at hr; cases hr
    | some s1 =>
      rw [hs] at hr
      obtain ⟨a1, a2⟩ := ih hr
      obtain ⟨new, b1, b2, -, b4⟩ := grow_step l hs
      refine ⟨RId.le_trans b4 a1, fun c => ?_⟩
      obtain ⟨n2, c1, c2⟩ := a2 c
      refine ⟨new c ++ n2, by rw [c1, b1, List.append_assoc], ?_⟩
      intro t ht
      rcases List.mem_append.1 ht with ht | ht
      · obtain ⟨is, e, -, e3⟩ := b2 c
        rw [e] at ht
        obtain ⟨i, hi, rfl⟩ := List.mem_map.1 ht
        exact ⟨i, rfl, (e3 i hi).1⟩
      · obtain ⟨i, hi, hlt⟩ := c2 t ht
        exact ⟨i, hi, RId.lt_of_le_of_lt b4 hlt⟩

/-! ## What the caller is told -/

/-- An id that a call returned is one it received. -/
def ToldIds (s : St) : Prop :=
  ∀ c x k, s.calls c = some x → x.outcome = some (.id k) → k ≠ [] → k ∈ gotIds s c

theorem result_id {x : Call} {order : GoMap Str} {k : Str} (h : x.result order = some (.id k)) (hk : k ≠ []) :
    k ∈ x.got.filterMap okId := by
  unfold Call.result at h
  split at h
  · cases hg : x.got with
    | nil => rw [hg] at h; simp at h
    | cons r rest =>
      rw [hg] at h
      simp only [List.head?_cons, Option.map_some, Option.some.injEq, createTicketReturn] at h
      cases he : r.err with
      | some e => rw [he] at h; simp at h
      | none =>
        rw [he] at h
        simp only [Outcome.id.injEq] at h
        subst h
        exact List.mem_filterMap.2 ⟨r, by simp, by simp [okId, he, hk]⟩
  · rename_i cmd ids _
    cases hc : collectErrs cmd (validateTicketIds ids).1 x.got [] with
    | none => rw [hc] at h; cases h
    | some errs =>
      rw [hc] at h
      simp only [Option.bind_some] at h
      split at h
      · injection h with h
        split at h <;> cases h
      · cases h
  · injection h with h
    split at h <;> cases h
  · injection h with h; cases h

theorem told_calls {s s' : St} (h : ToldIds s) (hg : Grow s s')
    (hc : ∀ c x', s'.calls c = some x' → (∃ k, x'.outcome = some (.id k)) →
      ∃ x, s.calls c = some x ∧ x.outcome = x'.outcome) : ToldIds s' := by
  intro c x' k hx ho hk
  obtain ⟨x, h1, h2⟩ := hc c x' hx ⟨k, ho⟩
  obtain ⟨new, e, -⟩ := hg
  rw [e]
  exact List.mem_append_left _ (h c x k h1 (by rw [h2, ho]) hk)

theorem told_kill {s : St} (i : Nat) : ∀ c x', (s.kill i).calls c = some x' → (∃ k, x'.outcome = some (.id k)) →
      ∃ x, s.calls c = some x ∧ x.outcome = x'.outcome := by
  intro c x' hx ⟨k, hk⟩
  simp only [St.kill, Option.map_eq_some_iff] at hx
  obtain ⟨x, h1, h2⟩ := hx
  split at h2
  · subst h2; simp at hk
  · subst h2; exact ⟨x, h1, rfl⟩

theorem told_outgoing {cfg : Config} {s : St} {i : Nat} {env : SendEnv} {e : OutEv} :
    ∀ c x', (outgoing cfg s i env e).calls c = some x' →
      ∃ x, s.calls c = some x ∧ x.outcome = x'.outcome := by
  intro c x' hx
  rcases outgoing_cases cfg s i env e with h | h <;> rw [h] at hx
  · exact ⟨x', hx, rfl⟩
  · simp only [flushed, St.give, St.setInst, Option.map_eq_some_iff] at hx
    obtain ⟨x, h1, rfl⟩ := hx
    exact ⟨x, h1, rfl⟩

theorem told_step {cd : Codec} {cfg : Config} {s s' : St} (h : ToldIds s) (l : Label)
    (hs : step cd cfg s l = some s') : ToldIds s' := by
  have hg := grow_step l hs
  cases l with
  | call c i rpc =>
    simp only [step] at hs
    split at hs
    · injection hs with hs; subst hs
      refine told_calls h hg fun d x' hx hk => ?_
      simp only [St.setCall] at hx
      split at hx
      · injection hx with hx; subst hx
        obtain ⟨k, hk⟩ := hk
        split at hk <;> simp at hk
      · exact ⟨x', hx, rfl⟩
    · cases hs
  | submit c env =>
    simp only [step] at hs
    split at hs
    · cases hs
    · rename_i x hx
      split at hs
      · cases hs
      · split at hs
        · injection hs with hs; subst hs
          refine told_calls h hg fun d x' hx' _ => ?_
          obtain ⟨y, h1, h2⟩ := told_outgoing d x' hx'
          simp only [St.setCall] at h1
          split at h1
          · rename_i hd
            injection h1 with h1; subst h1
            exact ⟨x, by rw [hd]; exact hx, h2⟩
          · exact ⟨y, h1, h2⟩
        · cases hs
  | timeout i env =>
    simp only [step] at hs
    split at hs
    · injection hs with hs; subst hs
      exact told_calls h hg fun d x' hx' _ => told_outgoing d x' hx'
    · cases hs
  | finish c order =>
    simp only [step] at hs
    split at hs
    · cases hs
    · rename_i x hx
      split at hs
      · cases hr : x.result order with
        | none => rw [hr] at hs; cases hs
        | some o =>
          rw [hr] at hs
          injection hs with hs; subst hs
          intro d x' k hx' ho hk
          simp only [St.setCall] at hx'
          split at hx'
          · rename_i hd
            injection hx' with hx'; subst hx'
            simp only [Option.some.injEq] at ho
            subst ho
            have := result_id hr hk
            simpa [gotIds, St.setCall, hd] using this
          · rename_i hd
            have := h d x' k hx' ho hk
            simpa [gotIds, St.setCall, hd] using this
      · cases hs
  | poll i =>
    simp only [step] at hs
    split at hs
    · split at hs
      · injection hs with hs; subst hs
        exact told_calls h hg (told_kill (s := s) i)
      · injection hs with hs; subst hs
        exact told_calls h hg fun d x' hx' _ => ⟨x', hx', rfl⟩
    · cases hs
  | pollLag i k =>
    simp only [step] at hs
    split at hs
    · split at hs
      · injection hs with hs; subst hs
        exact told_calls h hg (told_kill (s := s) i)
      · injection hs with hs; subst hs
        exact told_calls h hg fun d x' hx' _ => ⟨x', hx', rfl⟩
    · cases hs
  | apply i =>
    simp only [step] at hs
    split at hs
    · split at hs
      · cases hs
      · injection hs with hs; subst hs
        exact told_calls h hg fun d x' hx' _ => ⟨x', hx', rfl⟩
    · cases hs
  | expire i cy =>
    simp only [step] at hs
    split at hs
    · split at hs
      · injection hs with hs; subst hs
        exact told_calls h hg fun d x' hx' _ => ⟨x', hx', rfl⟩
      · cases hs
    · cases hs
  | crash i =>
    simp only [step] at hs
    split at hs
    · injection hs with hs; subst hs
      exact told_calls h hg (told_kill (s := s) i)
    · cases hs
  | crashMid i env k =>
    simp only [step] at hs
    split at hs
    · injection hs with hs; subst hs
      exact told_calls h hg (told_kill (s := { s with stream := _ }) i)
    · cases hs
  | start i =>
    simp only [step] at hs
    split at hs
    · cases hs
    · injection hs with hs; subst hs
      exact told_calls h hg fun d x' hx' _ => ⟨x', hx', rfl⟩

theorem told_run {cd : Codec} {cfg : Config} (ls : List Label) : ∀ {s s' : St}, ToldIds s →
    run cd cfg s ls = some s' → ToldIds s' := by
  induction ls with
  | nil => intro s s' h hr; simp only [run, Option.some.injEq] at hr; exact hr ▸ h
  | cons l ls ih =>
    intro s s' h hr
    simp only [run] at hr
    cases hs : step cd cfg s l with
    | none => rw [hs] at hr; cases hr
    | some s1 =>
      rw [hs] at hr
      exact ih (told_step h l hs) hr

theorem told_init : ToldIds init := fun _ _ _ h => by simp [init] at h

end OM.Sys
