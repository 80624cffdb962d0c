import Verif.Model.System
import Verif.Lemmas.Outgoing
import Verif.Lemmas.Poll
import Verif.Lemmas.Cache
import Verif.Props.Redis
import Verif.Lemmas.Handlers
/-! # Lemmas: the multi-instance system -/
namespace OM.Sys
open OM.Spec OM.Props

/-- The batch the outgoing goroutine holds after taking an event. -/
def held (s : St) (i : Nat) : OutEv → List Req
  | .recv r => (s.insts i).pending ++ [r]
  | .timeout => (s.insts i).pending

/-- The batch is kept. -/
def hold (s : St) (i : Nat) (b : List Req) : St := s.setInst i { s.insts i with pending := b }

/-- The batch is sent and answered. -/
def flushed (cfg : Config) (s : St) (i : Nat) (env : SendEnv) (b : List Req) : St :=
  (({ s with stream := (redisSend cfg env s.stream (b.map Req.update)).1 }).setInst i
    { s.insts i with pending := [] }).give
      ((b.map Req.caller).zip (redisSend cfg env s.stream (b.map Req.update)).2)

theorem give_nil (s : St) : s.give [] = s := by
  unfold St.give
  have : (fun c => (s.calls c).map fun x => { x with got := x.got ++ (([] : List (Nat × StateResponse)).filter fun d => decide (d.1 = c)).map (·.2) }) = s.calls := by
    funext c
    cases s.calls c with
    | none => rfl
    | some x => simp
  rw [this]

theorem outgoing_cases (cfg : Config) (s : St) (i : Nat) (env : SendEnv) (e : OutEv) :
    outgoing cfg s i env e = hold s i (held s i e) ∨
    (outgoing cfg s i env e = flushed cfg s i env (held s i e)) := by
  have hfl : ∀ b : List Req, (⟨s.stream, b, [], []⟩ : OutSt Stream).flush (redisSend cfg env) =
      if b.length > 0 then some ⟨(redisSend cfg env s.stream (b.map (·.update))).1, [], [b.map (·.update)],
        (b.map (·.caller)).zip (redisSend cfg env s.stream (b.map (·.update))).2⟩
      else some ⟨s.stream, b, [], []⟩ := by
    intro b
    unfold OutSt.flush
    dsimp only
    split
    · rw [deliver_eq_zip (by rw [redisSend_length]; simp)]
      simp
    · rfl
  unfold outgoing
  cases e with
  | timeout =>
    simp only [outStep, hfl, held]
    split
    · rename_i h; split at h <;> cases h
    · rename_i o h
      split at h
      · injection h with h; subst h; exact Or.inr rfl
      · injection h with h; subst h
        left
        exact give_nil _
  | recv r =>
    simp only [outStep, hfl, held]
    split
    · rename_i h
      split at h
      · split at h <;> cases h
      · cases h
    · rename_i o h
      split at h
      · split at h
        · injection h with h; subst h; exact Or.inr rfl
        · rename_i hn; simp at hn
      · injection h with h; subst h
        left
        exact give_nil _

/-! ## What always holds (with plausible clocks) -/

/-- Clocks as in `SendEnv.Plausible`, wherever a label carries them. -/
def Label.Plausible (cfg : Config) (H : Nat) : Label → Prop
  | .submit _ env => env.Plausible cfg H
  | .timeout _ env => env.Plausible cfg H
  | .crashMid _ env _ => env.Plausible cfg H
  | _ => True

structure Base (cd : Codec) (cfg : Config) (H : Nat) (s : St) : Prop where
  read : ∀ i, RInv H ⟨s.stream, (s.insts i).replId, updatesOf (s.insts i).hist ++ (s.insts i).inbox⟩
  cache : ∀ i, (s.insts i).cache = runEvs cd cfg Cache.empty (s.insts i).hist ∧
    ValidEvs cd cfg Cache.empty (s.insts i).hist
  upd : ∀ c x, s.calls c = some x → x.rpc.queue cd cfg = .ok x.updates ∨
    (x.updates = [] ∧ ∃ e, x.rpc.queue cd cfg = .error e ∧ x.outcome = some (.err e))
  live : ∀ c x, s.calls c = some x → x.outcome = none → (s.insts x.inst).up = true ∧
    ∃ ans, x.updates = ans ++ ((s.insts x.inst).pending.filter fun r => decide (r.caller = c)).map (·.update) ++ x.todo ∧
      ans.length = x.got.length
  pend : ∀ i r, r ∈ (s.insts i).pending → ∃ x, s.calls r.caller = some x ∧ x.inst = i ∧ x.outcome = none
  since : ∀ c x, s.calls c = some x → x.since ≤ s.stream.entries.length
  prov : ∀ e ∈ s.stream.entries, ∃ c x u, s.calls c = some x ∧ u ∈ x.updates ∧ redisFields u = .ok e.2
  fin : ∀ c x o, s.calls c = some x → x.outcome = some o → o = .gone ∨
    (x.updates = [] ∧ ∃ e, x.rpc.queue cd cfg = .error e ∧ o = .err e) ∨
    (x.got.length = x.updates.length ∧ ∃ order, x.result order = some o)
  panics : s.panics = []

theorem RInv.start {H : Nat} {w : RWorld} (h : RInv H w) : RInv H ⟨w.stream, (0, 0), []⟩ :=
  ⟨h.inv, h.ms, ⟨[], w.stream.entries, by simp, rfl, by simp, fun e he => h.inv.pos e he⟩, Or.inr (Or.inr rfl)⟩

theorem base_init (cd : Codec) (cfg : Config) (H : Nat) : Base cd cfg H init := by
  constructor
  · intro i
    exact ⟨Stream.inv_empty, by simp [init, Stream.empty], ⟨[], [], by simp [init, Stream.empty, Inst.down, updatesOf]⟩,
      Or.inr (Or.inr rfl)⟩
  · intro i; exact ⟨rfl, trivial⟩
  · intro c x h; simp [init] at h
  · intro c x h; simp [init] at h
  · intro i r h; simp [init, Inst.down] at h
  · intro c x h; simp [init] at h
  · intro e h; simp [init, Stream.empty] at h
  · intro c x o h; simp [init] at h
  · rfl

variable {cd : Codec} {cfg : Config} {H : Nat} {s : St}

/-- A call arrives. -/
theorem base_call (h : Base cd cfg H s) (c i : Nat) (rpc : Rpc) (hup : (s.insts i).up = true)
    (hc : s.calls c = none) :
    Base cd cfg H (s.setCall c
        (match rpc.queue cd cfg with
         | .ok us => ⟨i, rpc, us, us, [], none, s.stream.entries.length⟩
         | .error e => ⟨i, rpc, [], [], [], some (.err e), s.stream.entries.length⟩)) := by
  have hno : ∀ j, ∀ r ∈ (s.insts j).pending, r.caller ≠ c := by
    intro j r hr he
    obtain ⟨x, hx, -⟩ := h.pend j r hr
    rw [he, hc] at hx; simp at hx
  constructor
  · exact h.read
  · exact h.cache
  · intro d x hx
    simp only [St.setCall] at hx
    split at hx
    · injection hx with hx
      subst hx
      cases hq : rpc.queue cd cfg with
      | ok us => left; exact hq
      | error e => right; exact ⟨rfl, e, hq, rfl⟩
    · exact h.upd d x hx
  · intro d x hx ho
    simp only [St.setCall] at hx ⊢
    split at hx
    · rename_i hd
      subst hd
      injection hx with hx
      subst hx
      cases hq : rpc.queue cd cfg with
      | ok us =>
        refine ⟨hup, [], ?_, rfl⟩
        have : (s.insts i).pending.filter (fun r => decide (r.caller = d)) = [] := by
          rw [List.filter_eq_nil_iff]; intro r hr; simpa using hno i r hr
        simp [this]
      | error e => rw [hq] at ho; simp at ho
    · exact h.live d x hx ho
  · intro j r hr
    obtain ⟨x, hx, h2⟩ := h.pend j r hr
    refine ⟨x, ?_, h2⟩
    simp only [St.setCall]
    rw [if_neg (hno j r hr)]; exact hx
  · intro d x hx
    simp only [St.setCall] at hx ⊢
    split at hx
    · injection hx with hx
      subst hx
      cases rpc.queue cd cfg <;> exact Nat.le_refl _
    · exact h.since d x hx
  · intro e he
    obtain ⟨d, x, u, h1, h2⟩ := h.prov e he
    refine ⟨d, x, u, ?_, h2⟩
    simp only [St.setCall]
    rw [if_neg (by rintro rfl; rw [hc] at h1; simp at h1)]; exact h1
  · intro d x o hx ho
    simp only [St.setCall] at hx
    split at hx
    · injection hx with hx
      subst hx
      cases hq : rpc.queue cd cfg with
      | ok us => rw [hq] at ho; simp at ho
      | error e =>
        rw [hq] at ho
        injection ho with ho
        exact Or.inr (Or.inl ⟨rfl, e, hq, ho.symm⟩)
    · exact h.fin d x o hx ho
  · exact h.panics

/-- A call hands over its next update. -/
theorem base_hold (h : Base cd cfg H s) (c : Nat) (x : Call) (hx : s.calls c = some x) (ho : x.outcome = none)
    (u : StateUpdate) (rest : List StateUpdate) (ht : x.todo = u :: rest) :
    Base cd cfg H (hold (s.setCall c { x with todo := rest }) x.inst ((s.insts x.inst).pending ++ [⟨c, u⟩])) := by
  have hinst : ∀ j, (hold (s.setCall c { x with todo := rest }) x.inst ((s.insts x.inst).pending ++ [⟨c, u⟩])).insts j =
      if j = x.inst then { s.insts x.inst with pending := (s.insts x.inst).pending ++ [⟨c, u⟩] } else s.insts j := by
    intro j; rfl
  have hcall : ∀ d, (hold (s.setCall c { x with todo := rest }) x.inst ((s.insts x.inst).pending ++ [⟨c, u⟩])).calls d =
      if d = c then some { x with todo := rest } else s.calls d := by intro d; rfl
  have hstream : (hold (s.setCall c { x with todo := rest }) x.inst ((s.insts x.inst).pending ++ [⟨c, u⟩])).stream = s.stream := rfl
  constructor
  · intro j
    rw [hstream, hinst]
    split
    · rename_i hj; subst hj; exact h.read _
    · exact h.read j
  · intro j
    rw [hinst]
    split
    · rename_i hj; subst hj; exact h.cache _
    · exact h.cache j
  · intro d y hy
    rw [hcall] at hy
    split at hy
    · injection hy with hy; subst hy; rename_i hd; exact h.upd c x hx
    · exact h.upd d y hy
  · intro d y hy hoy
    rw [hcall] at hy
    split at hy
    · rename_i hd
      injection hy with hy; subst hy
      obtain ⟨l1, ans, l2, l3⟩ := h.live c x hx ho
      rw [hinst, if_pos rfl]
      refine ⟨l1, ans, ?_, l3⟩
      rw [hd] at *
      rw [ht] at l2
      simpa [List.filter_append] using l2
    · rename_i hd
      obtain ⟨l1, ans, l2, l3⟩ := h.live d y hy hoy
      rw [hinst]
      split
      · rename_i hj
        rw [hj] at l1 l2
        refine ⟨l1, ans, ?_, l3⟩
        rw [List.filter_append]
        simp only [List.filter_cons, List.filter_nil]
        rw [if_neg (by simpa using fun e => hd e.symm)]
        simpa using l2
      · exact ⟨l1, ans, l2, l3⟩
  · intro j r hr
    rw [hinst] at hr
    rw [hcall]
    have old : ∀ r ∈ (s.insts j).pending, ∃ y, (if r.caller = c then some { x with todo := rest } else s.calls r.caller) = some y ∧
        y.inst = j ∧ y.outcome = none := by
      intro r hr
      obtain ⟨y, hy, h2⟩ := h.pend j r hr
      by_cases hrc : r.caller = c
      · rw [if_pos hrc]
        rw [hrc, hx] at hy
        injection hy with hy; subst hy
        exact ⟨_, rfl, h2⟩
      · rw [if_neg hrc]; exact ⟨y, hy, h2⟩
    split at hr
    · rename_i hj
      subst hj
      rcases List.mem_append.1 hr with hr | hr
      · exact old r hr
      · simp only [List.mem_singleton] at hr
        subst hr
        rw [if_pos rfl]
        exact ⟨_, rfl, rfl, ho⟩
    · exact old r hr
  · intro d y hy
    rw [hstream]
    rw [hcall] at hy
    split at hy
    · injection hy with hy; subst hy; exact h.since c x hx
    · exact h.since d y hy
  · intro e he
    obtain ⟨d, y, v, h1, h2⟩ := h.prov e he
    by_cases hd : d = c
    · rw [hd, hx] at h1
      injection h1 with h1; subst h1
      exact ⟨c, { x with todo := rest }, v, by rw [hcall, if_pos rfl], h2⟩
    · exact ⟨d, y, v, by rw [hcall, if_neg hd]; exact h1, h2⟩
  · intro d y o hy hoy
    rw [hcall] at hy
    split at hy
    · injection hy with hy; subst hy
      dsimp only at hoy
      rw [ho] at hoy; simp at hoy
    · exact h.fin d y o hy hoy
  · exact h.panics

/-! ### Batches -/

/-- A pending update belongs to a running call. -/
theorem pend_update (h : Base cd cfg H s) {i : Nat} {r : Req} (hr : r ∈ (s.insts i).pending) :
    ∃ x, s.calls r.caller = some x ∧ x.inst = i ∧ x.outcome = none ∧ r.update ∈ x.updates := by
  obtain ⟨x, h1, h2, h3⟩ := h.pend i r hr
  refine ⟨x, h1, h2, h3, ?_⟩
  obtain ⟨-, ans, l2, -⟩ := h.live _ x h1 h3
  rw [l2]
  apply List.mem_append_left
  apply List.mem_append_right
  exact List.mem_map.2 ⟨r, List.mem_filter.2 ⟨by rw [h2]; exact hr, by simp⟩, rfl⟩

/-- Entries added by executing commands carry those commands' fields. -/
theorem execCmds_fields (st : Stream) (fs : List (List Str)) (es : List CmdEnv) :
    ∃ added, (execCmds st fs es).1.entries = st.entries ++ added ∧ ∀ e ∈ added, e.2 ∈ fs := by
  induction fs generalizing st es with
  | nil => exact ⟨[], by simp [execCmds]⟩
  | cons f fs ih =>
    cases es with
    | nil => exact ⟨[], by simp [execCmds]⟩
    | cons e es =>
      simp only [execCmds]
      cases e.fail with
      | some m =>
        obtain ⟨a, h1, h2⟩ := ih st es
        exact ⟨a, h1, fun e he => List.mem_cons_of_mem _ (h2 e he)⟩
      | none =>
        obtain ⟨a, h1, h2⟩ := ih (st.xadd e.nowMs f) es
        refine ⟨(nextId st.last e.nowMs, f) :: a, by rw [h1]; simp [Stream.xadd], ?_⟩
        intro e he
        rcases List.mem_cons.1 he with rfl | he
        · simp
        · exact List.mem_cons_of_mem _ (h2 e he)

/-- A batch adds only entries of its own updates. -/
theorem send_fields {env : SendEnv} {st : Stream} (us : List StateUpdate)
    (h0 : ∀ e ∈ st.entries, H ≤ e.1.1) (hp : env.Plausible cfg H) :
    ∃ added, (redisSend cfg env st us).1.entries = st.entries ++ added ∧
      ∀ e ∈ added, ∃ u ∈ us, redisFields u = .ok e.2 := by
  have key : ∀ f ∈ redisCmds us, ∃ u ∈ us, redisFields u = .ok f := by
    intro f hf
    simp only [redisCmds, List.mem_filterMap] at hf
    obtain ⟨u, hu, h⟩ := hf
    split at h
    · rename_i f' h'; injection h with h; exact ⟨u, hu, by rw [h', h]⟩
    · simp at h
  unfold redisSend
  cases env.lost with
  | some k =>
    dsimp only
    rw [execPart_eq us k h0 hp]
    obtain ⟨a, h1, h2⟩ := execCmds_fields st ((redisCmds us).take k) env.cmds
    exact ⟨a, h1, fun e he => key _ (List.mem_of_mem_take (h2 e he))⟩
  | none =>
    have hm := execCmds_ms H st (redisCmds us) env.cmds h0 hp.1
    have : (execTrim cfg env.nowS env.trimFail (execCmds st (redisCmds us) env.cmds).1).1
        = (execCmds st (redisCmds us) env.cmds).1 :=
      execTrim_noop fun e he => by have := hm e he; have := hp.2; omega
    dsimp only
    rw [this]
    obtain ⟨a, h1, h2⟩ := execCmds_fields st (redisCmds us) env.cmds
    exact ⟨a, h1, fun e he => key _ (h2 e he)⟩

/-- Readers keep their invariant when a batch of anyone is executed. -/
theorem read_send {env : SendEnv} {w : RWorld} (h : RInv H w) (us : List StateUpdate) (hp : env.Plausible cfg H) :
    RInv H ⟨(redisSend cfg env w.stream us).1, w.replId, w.read⟩ := by
  obtain ⟨w', h1, h2, -⟩ := rstep_inv (cfg := cfg) h (.send env us)
    (fun e v he => by injection he with e1 e2; subst e1; exact hp)
  simp only [rstep] at h1
  injection h1 with h1; subst h1
  exact h2

/-- The stream grew by entries of updates of recorded calls; nothing else changed. -/
theorem base_grow (h : Base cd cfg H s) (i : Nat) (env : SendEnv) (hp : env.Plausible cfg H) :
    Base cd cfg H { s with stream := (redisSend cfg env s.stream ((s.insts i).pending.map (·.update))).1 } := by
  obtain ⟨added, a1, a2⟩ := send_fields (cfg := cfg) (env := env) ((s.insts i).pending.map (·.update)) (h.read 0).ms hp
  constructor
  · intro j; exact read_send (h.read j) _ hp
  · exact h.cache
  · exact h.upd
  · exact h.live
  · exact h.pend
  · intro c x hx
    have := h.since c x hx
    simp only [a1, List.length_append]
    omega
  · intro e he
    simp only [a1] at he
    rcases List.mem_append.1 he with he | he
    · exact h.prov e he
    · obtain ⟨u, hu, hf⟩ := a2 e he
      obtain ⟨r, hr, rfl⟩ := List.mem_map.1 hu
      obtain ⟨x, hx, -, -, hm⟩ := pend_update h hr
      exact ⟨r.caller, x, r.update, hx, hm, hf⟩
  · exact h.fin
  · exact h.panics

theorem zip_filter_length (b : List Req) (rs : List StateResponse) (hl : rs.length = b.length) (c : Nat) :
    (((b.map (·.caller)).zip rs).filter fun d => decide (d.1 = c)).length =
      (b.filter fun r => decide (r.caller = c)).length := by
  induction b generalizing rs with
  | nil => simp
  | cons r b ih =>
    cases rs with
    | nil => simp at hl
    | cons q rs =>
      simp only [List.map_cons, List.zip_cons_cons, List.filter_cons]
      have := ih rs (by simpa using hl)
      by_cases hc : r.caller = c
      · simp [hc, this]
      · simp [hc, this]

/-- The responses are delivered and the batch is cleared. -/
theorem base_give (h : Base cd cfg H s) (i : Nat) (rs : List StateResponse)
    (hl : rs.length = (s.insts i).pending.length) :
    Base cd cfg H ((s.setInst i { s.insts i with pending := [] }).give (((s.insts i).pending.map (·.caller)).zip rs)) := by
  generalize hs' : (s.setInst i { s.insts i with pending := [] }).give (((s.insts i).pending.map (·.caller)).zip rs) = s'
  have hstream : s'.stream = s.stream := by subst hs'; rfl
  have hinst : ∀ j, s'.insts j = if j = i then { s.insts i with pending := [] } else s.insts j := by
    intro j; subst hs'; rfl
  have hcall : ∀ c, s'.calls c = (s.calls c).map fun x => { x with got := x.got ++
      ((((s.insts i).pending.map (·.caller)).zip rs).filter fun d => decide (d.1 = c)).map (·.2) } := by
    intro c; subst hs'; rfl
  have hpan : s'.panics = s.panics := by subst hs'; rfl
  constructor
  · intro j
    rw [hstream, hinst]
    split
    · rename_i hj; subst hj; exact h.read _
    · exact h.read j
  · intro j
    rw [hinst]
    split
    · rename_i hj; subst hj; exact h.cache _
    · exact h.cache j
  · intro c x hx
    rw [hcall] at hx
    obtain ⟨y, hy, rfl⟩ := Option.map_eq_some_iff.1 hx
    exact h.upd c y hy
  · intro c x hx ho
    rw [hcall] at hx
    obtain ⟨y, hy, rfl⟩ := Option.map_eq_some_iff.1 hx
    obtain ⟨l1, ans, l2, l3⟩ := h.live c y hy ho
    have hlen := zip_filter_length (s.insts i).pending rs hl c
    rw [hinst]
    dsimp only
    split
    · rename_i hj
      rw [hj] at l1 l2
      refine ⟨l1, ans ++ ((s.insts i).pending.filter fun r => decide (r.caller = c)).map (·.update), by simpa using l2, ?_⟩
      simp only [List.length_append, List.length_map, hlen, l3]
    · rename_i hj
      refine ⟨l1, ans, l2, ?_⟩
      have : (s.insts i).pending.filter (fun r => decide (r.caller = c)) = [] := by
        rw [List.filter_eq_nil_iff]
        intro r hr hrc
        obtain ⟨z, hz, hzi, -⟩ := h.pend i r hr
        have hrc' : r.caller = c := by simpa using hrc
        rw [hrc', hy] at hz
        injection hz with hz; subst hz
        exact hj hzi
      rw [this] at hlen
      simp only [List.length_append, List.length_map, hlen, l3, List.length_nil, Nat.add_zero]
  · intro j r hr
    rw [hinst] at hr
    split at hr
    · simp at hr
    · obtain ⟨x, hx, h2⟩ := h.pend j r hr
      rw [hcall, hx]
      exact ⟨_, rfl, h2⟩
  · intro c x hx
    rw [hcall] at hx
    obtain ⟨y, hy, rfl⟩ := Option.map_eq_some_iff.1 hx
    rw [hstream]; exact h.since c y hy
  · intro e he
    rw [hstream] at he
    obtain ⟨c, x, u, h1, h2⟩ := h.prov e he
    obtain ⟨y, hy, hyu⟩ : ∃ y, s'.calls c = some y ∧ y.updates = x.updates := by
      rw [hcall, h1]; exact ⟨_, rfl, rfl⟩
    exact ⟨c, y, u, hy, by rw [hyu]; exact h2.1, h2.2⟩
  · intro c x o hx ho
    rw [hcall] at hx
    obtain ⟨y, hy, rfl⟩ := Option.map_eq_some_iff.1 hx
    have : (s.insts i).pending.filter (fun r => decide (r.caller = c)) = [] := by
      rw [List.filter_eq_nil_iff]
      intro r hr hrc
      obtain ⟨z, hz, -, hzo⟩ := h.pend i r hr
      have hrc' : r.caller = c := by simpa using hrc
      rw [hrc', hy] at hz
      injection hz with hz; subst hz
      dsimp only at ho
      rw [hzo] at ho; simp at ho
    have hlen := zip_filter_length (s.insts i).pending rs hl c
    rw [this] at hlen
    rw [List.length_eq_zero_iff.1 hlen]
    simpa using h.fin c y o hy ho
  · rw [hpan]; exact h.panics

theorem base_flushed (h : Base cd cfg H s) (i : Nat) (env : SendEnv) (hp : env.Plausible cfg H) :
    Base cd cfg H (flushed cfg s i env (s.insts i).pending) := by
  have := base_give (base_grow h i env hp) i (redisSend cfg env s.stream ((s.insts i).pending.map (·.update))).2
    (by rw [redisSend_length]; simp)
  exact this

/-- Process death. -/
theorem base_kill (h : Base cd cfg H s) (i : Nat) : Base cd cfg H (s.kill i) := by
  have hinst : ∀ j, (s.kill i).insts j = if j = i then Inst.down else s.insts j := fun j => rfl
  have hcall : ∀ c, (s.kill i).calls c = (s.calls c).map fun x =>
      if x.inst = i ∧ x.outcome.isNone then { x with outcome := some .gone } else x := fun c => rfl
  have keep : ∀ x : Call, (if x.inst = i ∧ x.outcome.isNone then { x with outcome := some Outcome.gone } else x).updates = x.updates ∧
      (if x.inst = i ∧ x.outcome.isNone then { x with outcome := some Outcome.gone } else x).rpc = x.rpc ∧
      (if x.inst = i ∧ x.outcome.isNone then { x with outcome := some Outcome.gone } else x).since = x.since := by
    intro x; split <;> simp
  constructor
  · intro j
    rw [hinst]
    split
    · exact RInv.start (h.read j)
    · exact h.read j
  · intro j
    rw [hinst]
    split
    · exact ⟨rfl, trivial⟩
    · exact h.cache j
  · intro c x hx
    rw [hcall] at hx
    obtain ⟨y, hy, rfl⟩ := Option.map_eq_some_iff.1 hx
    rw [(keep y).1, (keep y).2.1]
    rcases h.upd c y hy with h | ⟨h1, e, h2, h3⟩
    · exact Or.inl h
    · refine Or.inr ⟨h1, e, h2, ?_⟩
      rw [if_neg (by simp [h3])]; exact h3
  · intro c x hx ho
    rw [hcall] at hx
    obtain ⟨y, hy, rfl⟩ := Option.map_eq_some_iff.1 hx
    split at ho
    · simp at ho
    · rename_i hn
      rw [if_neg hn]
      have hne : y.inst ≠ i := fun e => hn ⟨e, by simp [ho]⟩
      rw [hinst, if_neg hne]
      exact h.live c y hy ho
  · intro j r hr
    rw [hinst] at hr
    split at hr
    · simp [Inst.down] at hr
    · rename_i hj
      obtain ⟨x, hx, h2, h3⟩ := h.pend j r hr
      rw [hcall, hx]
      refine ⟨x, ?_, h2, h3⟩
      simp only [Option.map_some, Option.some.injEq]
      rw [if_neg (by rw [h2]; simp [hj])]
  · intro c x hx
    rw [hcall] at hx
    obtain ⟨y, hy, rfl⟩ := Option.map_eq_some_iff.1 hx
    rw [(keep y).2.2]; exact h.since c y hy
  · intro e he
    obtain ⟨c, x, u, h1, h2, h3⟩ := h.prov e he
    obtain ⟨y, hy, hyu⟩ : ∃ y, (s.kill i).calls c = some y ∧ y.updates = x.updates := by
      rw [hcall, h1]; exact ⟨_, rfl, (keep x).1⟩
    exact ⟨c, y, u, hy, by rw [hyu]; exact h2, h3⟩
  · intro c x o hx ho
    rw [hcall] at hx
    obtain ⟨y, hy, rfl⟩ := Option.map_eq_some_iff.1 hx
    split at ho
    · injection ho with ho; exact Or.inl ho.symm
    · rename_i hn
      rw [if_neg hn]; exact h.fin c y o hy ho
  · exact h.panics

/-- Only reader state of one instance changes. -/
theorem base_reader (h : Base cd cfg H s) (i : Nat) (x : Inst) (h1 : x.up = (s.insts i).up)
    (h2 : x.pending = (s.insts i).pending)
    (h3 : RInv H ⟨s.stream, x.replId, updatesOf x.hist ++ x.inbox⟩)
    (h4 : x.cache = runEvs cd cfg Cache.empty x.hist ∧ ValidEvs cd cfg Cache.empty x.hist) :
    Base cd cfg H (s.setInst i x) := by
  have hinst : ∀ j, (s.setInst i x).insts j = if j = i then x else s.insts j := fun j => rfl
  constructor
  · intro j
    rw [hinst]
    split
    · exact h3
    · exact h.read j
  · intro j
    rw [hinst]
    split
    · exact h4
    · exact h.cache j
  · exact h.upd
  · intro c y hy ho
    obtain ⟨l1, l2⟩ := h.live c y hy ho
    rw [hinst]
    split
    · rename_i hj
      rw [h1, h2, ← hj]
      exact ⟨l1, l2⟩
    · exact ⟨l1, l2⟩
  · intro j r hr
    rw [hinst] at hr
    split at hr
    · rename_i hj; rw [h2, ← hj] at hr; exact h.pend j r hr
    · exact h.pend j r hr
  · exact h.since
  · exact h.prov
  · exact h.fin
  · exact h.panics

theorem updatesOf_append (a b : List Ev) : updatesOf (a ++ b) = updatesOf a ++ updatesOf b := by
  simp [updatesOf]

theorem down_of_not_up (h : Base cd cfg H s) {i : Nat} (hu : (s.insts i).up = false) : (s.insts i).pending = [] := by
  by_contra hne
  obtain ⟨r, hr⟩ := List.exists_mem_of_ne_nil _ hne
  obtain ⟨x, h1, h2, h3⟩ := h.pend i r hr
  have := (h.live _ x h1 h3).1
  rw [h2, hu] at this
  simp at this

/-- Sending a batch that was just held. -/
theorem flushed_hold (cfg : Config) (s : St) (env : SendEnv) (x : Call) (c : Nat) (u : StateUpdate)
    (rest : List StateUpdate) :
    (flushed cfg (hold (s.setCall c { x with todo := rest }) x.inst
        ((s.insts x.inst).pending ++ [⟨c, u⟩])) x.inst env
        ((hold (s.setCall c { x with todo := rest }) x.inst ((s.insts x.inst).pending ++ [⟨c, u⟩])).insts x.inst).pending) =
      flushed cfg (s.setCall c { x with todo := rest }) x.inst env
        (held (s.setCall c { x with todo := rest }) x.inst (.recv ⟨c, u⟩)) := by
  unfold flushed hold held St.setInst St.setCall St.give
  simp only [if_true]
  congr 1
  funext j
  split <;> rfl

theorem base_step (h : Base cd cfg H s) (l : Label) (hp : l.Plausible cfg H) (s' : St)
    (hs : step cd cfg s l = some s') : Base cd cfg H s' := by
  cases l with
  | call c i rpc =>
    simp only [step] at hs
    split at hs
    · rename_i hg
      injection hs with hs; subst hs
      simp only [Bool.and_eq_true, Option.isNone_iff_eq_none] at hg
      exact base_call h c i rpc hg.1 hg.2
    · simp at hs
  | submit c env =>
    simp only [step] at hs
    cases hx : s.calls c with
    | none => simp [hx] at hs
    | some x =>
      simp only [hx] at hs
      cases ht : x.todo with
      | nil => simp [ht] at hs
      | cons u rest =>
        simp only [ht] at hs
        split at hs
        · rename_i hg
          injection hs with hs; subst hs
          have hb := base_hold h c x hx (by simpa using hg.1) u rest ht
          rcases outgoing_cases cfg (s.setCall c { x with todo := rest }) x.inst env (.recv ⟨c, u⟩) with e | e
          · rw [e]; exact hb
          · rw [e]
            have := base_flushed hb x.inst env hp
            rw [← flushed_hold]; exact this
        · simp at hs
  | timeout i env =>
    simp only [step] at hs
    split at hs
    · injection hs with hs; subst hs
      rcases outgoing_cases cfg s i env .timeout with e | e
      · rw [e]
        exact base_reader h i _ rfl rfl (h.read i) (h.cache i)
      · rw [e]; exact base_flushed h i env hp
    · simp at hs
  | finish c order =>
    simp only [step] at hs
    cases hx : s.calls c with
    | none => simp [hx] at hs
    | some x =>
      simp only [hx] at hs
      split at hs
      · rename_i hg
        obtain ⟨o, ho, rfl⟩ := Option.map_eq_some_iff.1 hs
        have hxo : x.outcome = none := by simpa using hg.1
        have hcall : ∀ d, (s.setCall c { x with outcome := some o }).calls d =
          if d = c then some { x with outcome := some o } else s.calls d := fun d => rfl
        -- a finished call has nothing pending
        have hnone : ∀ i r, r ∈ (s.insts i).pending → r.caller ≠ c := by
          intro i r hr hrc
          obtain ⟨y, hy, hyi, -⟩ := h.pend i r hr
          rw [hrc, hx] at hy
          injection hy with hy; subst hy
          obtain ⟨-, ans, l2, l3⟩ := h.live c x hx hxo
          have hl : x.updates.length = x.got.length := hg.2.2.symm
          rw [l2, hg.2.1] at hl
          simp only [List.length_append, List.length_map, List.append_nil, l3] at hl
          have hz : ((s.insts x.inst).pending.filter fun r => decide (r.caller = c)) = [] :=
            List.length_eq_zero_iff.1 (by omega)
          rw [List.filter_eq_nil_iff] at hz
          exact hz r (by rw [hyi]; exact hr) (by simpa using hrc)
        constructor
        · exact h.read
        · exact h.cache
        · intro d y hy
          rw [hcall] at hy
          split at hy
          · injection hy with hy; subst hy
            rcases h.upd c x hx with h | ⟨h1, e, h2, h3⟩
            · exact Or.inl h
            · rw [hxo] at h3; simp at h3
          · exact h.upd d y hy
        · intro d y hy hoy
          rw [hcall] at hy
          split at hy
          · injection hy with hy; subst hy; simp at hoy
          · exact h.live d y hy hoy
        · intro i r hr
          rw [hcall, if_neg (hnone i r hr)]
          exact h.pend i r hr
        · intro d y hy
          rw [hcall] at hy
          split at hy
          · injection hy with hy; subst hy; exact h.since c x hx
          · exact h.since d y hy
        · intro e he
          obtain ⟨d, y, v, h1, h2⟩ := h.prov e he
          by_cases hd : d = c
          · rw [hd, hx] at h1
            injection h1 with h1; subst h1
            exact ⟨c, { x with outcome := some o }, v, by rw [hcall, if_pos rfl], h2⟩
          · exact ⟨d, y, v, by rw [hcall, if_neg hd]; exact h1, h2⟩
        · intro d y o' hy hoy
          rw [hcall] at hy
          split at hy
          · injection hy with hy; subst hy
            injection hoy with hoy
            exact Or.inr (Or.inr ⟨hg.2.2, order, by rw [← hoy]; exact ho⟩)
          · exact h.fin d y o' hy hoy
        · exact h.panics
      · simp at hs
  | poll i =>
    simp only [step] at hs
    split at hs
    · obtain ⟨w', a, b, -⟩ := rstep_inv (cfg := cfg) (h.read i) (.poll cfg.inMax) (by simp)
      simp only [rstep] at a
      cases hpu : pollUpdates s.stream cfg.inMax (s.insts i).replId with
      | none => simp [hpu] at a
      | some p =>
        obtain ⟨us, r⟩ := p
        simp only [hpu, Option.map_some] at a
        injection a with a; subst a
        simp only [hpu] at hs
        injection hs with hs; subst hs
        refine base_reader h i _ rfl rfl ?_ (h.cache i)
        simpa [List.append_assoc] using b
    · simp at hs
  | pollLag i k =>
    simp only [step] at hs
    split at hs
    · obtain ⟨w', a, b, -⟩ := rstep_inv (cfg := cfg) (h.read i) (.pollLag k cfg.inMax) (by simp)
      simp only [rstep] at a
      cases hpu : pollUpdates (s.stream.lagging k) cfg.inMax (s.insts i).replId with
      | none => simp [hpu] at a
      | some p =>
        obtain ⟨us, r⟩ := p
        simp only [hpu, Option.map_some] at a
        injection a with a; subst a
        simp only [hpu] at hs
        injection hs with hs; subst hs
        refine base_reader h i _ rfl rfl ?_ (h.cache i)
        simpa [List.append_assoc] using b
    · simp at hs
  | apply i =>
    simp only [step] at hs
    split at hs
    · cases hb : (s.insts i).inbox with
      | nil => simp [hb] at hs
      | cons u us =>
        simp only [hb] at hs
        injection hs with hs; subst hs
        refine base_reader h i _ rfl rfl ?_ ?_
        · have := h.read i
          rw [hb] at this
          simpa [updatesOf_append, updatesOf] using this
        · obtain ⟨c1, c2⟩ := h.cache i
          refine ⟨?_, ?_⟩
          · simp only [runEvs_append, ← c1]
            rfl
          · rw [validEvs_append]
            exact ⟨c2, trivial, trivial⟩
    · simp at hs
  | expire i cy =>
    simp only [step] at hs
    split at hs
    · split at hs
      · rename_i hv
        injection hs with hs; subst hs
        refine base_reader h i _ rfl rfl ?_ ?_
        · simpa [updatesOf_append, updatesOf] using h.read i
        · obtain ⟨c1, c2⟩ := h.cache i
          refine ⟨?_, ?_⟩
          · simp only [runEvs_append, ← c1]
            rfl
          · rw [validEvs_append]
            refine ⟨c2, ?_, trivial⟩
            show cy.Visits cfg _
            rw [← c1]; exact hv
      · simp at hs
    · simp at hs
  | crash i =>
    simp only [step] at hs
    split at hs
    · injection hs with hs; subst hs; exact base_kill h i
    · simp at hs
  | crashMid i env k =>
    simp only [step] at hs
    split at hs
    · injection hs with hs; subst hs
      have := base_grow h i { env with lost := some k } hp
      exact base_kill this i
    · simp at hs
  | start i =>
    simp only [step] at hs
    split at hs
    · simp at hs
    · rename_i hu
      injection hs with hs; subst hs
      have hu' : (s.insts i).up = false := by simpa using hu
      have hpend := down_of_not_up h hu'
      have hinst : ∀ j, (s.setInst i Inst.fresh).insts j = if j = i then Inst.fresh else s.insts j := fun j => rfl
      constructor
      · intro j
        rw [hinst]
        split
        · exact RInv.start (h.read j)
        · exact h.read j
      · intro j
        rw [hinst]
        split
        · exact ⟨rfl, trivial⟩
        · exact h.cache j
      · exact h.upd
      · intro c y hy ho
        obtain ⟨l1, l2⟩ := h.live c y hy ho
        rw [hinst]
        split
        · rename_i hj; rw [hj, hu'] at l1; simp at l1
        · exact ⟨l1, l2⟩
      · intro j r hr
        rw [hinst] at hr
        split at hr
        · simp [Inst.fresh] at hr
        · exact h.pend j r hr
      · exact h.since
      · exact h.prov
      · exact h.fin
      · exact h.panics

theorem base_run (ls : List Label) : ∀ {s : St}, Base cd cfg H s → (∀ l ∈ ls, l.Plausible cfg H) →
    ∀ s', run cd cfg s ls = some s' → Base cd cfg H s' := by
  induction ls with
  | nil => intro s h _ s' hs; injection hs with hs; subst hs; exact h
  | cons l ls ih =>
    intro s h hp s' hs
    simp only [run] at hs
    cases h1 : step cd cfg s l with
    | none => simp [h1] at hs
    | some s1 =>
      rw [h1] at hs
      exact ih (base_step h l (hp l (by simp)) s1 h1) (fun l hl => hp l (by simp [hl])) s' hs

/-! ## What acknowledged updates are

Needs connections that work and updates that Redis accepts (see C10, C11 for what goes
wrong otherwise). -/

/-- No batch loses its connection. -/
def Label.Connected : Label → Prop
  | .submit _ env => env.lost = none
  | .timeout _ env => env.lost = none
  | _ => True

/-- Calls queue only updates that `SendUpdates` accepts. -/
def Label.Accepted (cd : Codec) (cfg : Config) : Label → Prop
  | .call _ _ rpc => ∀ us, rpc.queue cd cfg = .ok us → ∀ u ∈ us, Storable u
  | _ => True

/-- The texts that go into answers are UTF-8: the ids of a request (true of every request that comes off
the wire) and what Redis says when it refuses a command. -/
def Label.Readable : Label → Prop
  | .call _ _ (.setState _ ids) => ∀ id ∈ ids, IsText id
  | .submit _ env => ∀ c ∈ env.cmds, ∀ e, c.fail = some e → IsText e
  | .timeout _ env => ∀ c ∈ env.cmds, ∀ e, c.fail = some e → IsText e
  | _ => True

/-- A response without error names a stream entry, not older than the call, that decodes
to the update. -/
def Ack (es : List (RId × List Str)) (since : Nat) (u : StateUpdate) (r : StateResponse) : Prop :=
  r.err = none → ∃ n e, since ≤ n ∧ es[n]? = some e ∧ e.1.fmt = r.result ∧
    decodeEntry e = some (replicated u r.result)

theorem Ack.mono {es more : List (RId × List Str)} {since : Nat} {u : StateUpdate} {r : StateResponse}
    (h : Ack es since u r) : Ack (es ++ more) since u r := by
  intro hr
  obtain ⟨n, e, h1, h2, h3⟩ := h hr
  refine ⟨n, e, h1, ?_, h3⟩
  have hn := (List.getElem?_eq_some_iff.1 h2).1
  rw [List.getElem?_append_left hn]; exact h2

structure Acks (s : St) : Prop where
  stor : ∀ c x, s.calls c = some x → ∀ u ∈ x.updates, Storable u
  ack : ∀ c x, s.calls c = some x →
    List.Forall₂ (Ack s.stream.entries x.since) (x.updates.take x.got.length) x.got
  ids : ∀ c x cmd ids, s.calls c = some x → x.rpc = .setState cmd ids → ∀ id ∈ ids, IsText id
  txt : ∀ c x, s.calls c = some x → ∀ r ∈ x.got, TextErr r

/-- `Acks`, of one call. -/
structure AcksOf (s : St) (c : Nat) : Prop where
  ack : ∀ x, s.calls c = some x →
    List.Forall₂ (Ack s.stream.entries x.since) (x.updates.take x.got.length) x.got
  ids : ∀ x cmd ids, s.calls c = some x → x.rpc = .setState cmd ids → ∀ id ∈ ids, IsText id
  txt : ∀ x, s.calls c = some x → ∀ r ∈ x.got, TextErr r

theorem Acks.of (h : Acks s) (c : Nat) : AcksOf s c := ⟨h.ack c, h.ids c, h.txt c⟩

theorem acks_init : Acks init :=
  ⟨fun c x h => by simp [init] at h, fun c x h => by simp [init] at h, fun c x _ _ h => by simp [init] at h,
    fun c x h => by simp [init] at h⟩

/-- The stream only grows, the calls stay. -/
theorem acks_grow (h : Acks s) {st : Stream} {added : List (RId × List Str)}
    (hst : st.entries = s.stream.entries ++ added) : Acks { s with stream := st } := by
  refine ⟨h.stor, fun c x hx => ?_, h.ids, h.txt⟩
  rw [hst]
  exact (h.ack c x hx).imp fun _ _ => Ack.mono

/-- Calls keep their updates, responses and beginnings. -/
theorem acks_calls (h : Acks s) (s' : St) (hst : s'.stream = s.stream)
    (hc : ∀ c x, s'.calls c = some x → ∃ y, s.calls c = some y ∧ y.updates = x.updates ∧ y.got = x.got ∧ y.since = x.since ∧
      y.rpc = x.rpc) : Acks s' := by
  refine ⟨fun c x hx => ?_, fun c x hx => ?_, fun c x cmd ids hx hr => ?_, fun c x hx => ?_⟩
  · obtain ⟨y, h1, h2, -⟩ := hc c x hx
    rw [← h2]; exact h.stor c y h1
  · obtain ⟨y, h1, h2, h3, h4, -⟩ := hc c x hx
    rw [hst, ← h2, ← h3, ← h4]; exact h.ack c y h1
  · obtain ⟨y, h1, -, -, -, h5⟩ := hc c x hx
    exact h.ids c y cmd ids h1 (h5.trans hr)
  · obtain ⟨y, h1, -, h3, -⟩ := hc c x hx
    rw [← h3]; exact h.txt c y h1

theorem acks_setInst (h : Acks s) (i : Nat) (x : Inst) : Acks (s.setInst i x) := ⟨h.stor, h.ack, h.ids, h.txt⟩

theorem acks_kill (h : Acks s) (i : Nat) : Acks (s.kill i) := by
  refine acks_calls h _ rfl fun c x hx => ?_
  obtain ⟨y, hy, rfl⟩ := Option.map_eq_some_iff.1 hx
  refine ⟨y, hy, ?_⟩
  split <;> simp

/-- One batch: every response is an acknowledgement. -/
theorem send_acks {st : Stream} {env : SendEnv} (us : List StateUpdate) (hst : ∀ u ∈ us, Storable u)
    (hlost : env.lost = none) (hcm : us.length ≤ env.cmds.length)
    (h0 : ∀ e ∈ st.entries, H ≤ e.1.1) (hp : env.Plausible cfg H) :
    List.Forall₂ (Ack (redisSend cfg env st us).1.entries st.entries.length) us (redisSend cfg env st us).2 := by
  rw [List.forall₂_iff_get]
  refine ⟨by rw [redisSend_length], fun n h1 h2 hr => ?_⟩
  have hsplit : us = us.take n ++ us[n] :: us.drop (n + 1) := by simp
  have hpl : (us.take n).length = n := by simp; omega
  have hget : (redisSend cfg env st us).2[(us.take n).length]? = some ((redisSend cfg env st us).2.get ⟨n, h2⟩) := by
    rw [hpl]; simp
  obtain ⟨id, a, b, f, e1, e2, e3⟩ := C10_redis_id_is_stored_id_partial cfg env H st (us.take n) us[n] (us.drop (n + 1))
    (fun v hv => hst v (List.mem_of_mem_take hv)) (hst _ (List.getElem_mem h1)) hlost
    (by rw [← hsplit]; exact hcm) h0 hp ((redisSend cfg env st us).2.get ⟨n, h2⟩)
    (by rw [← hsplit]; exact hget) hr
  rw [← hsplit] at e1
  refine ⟨(st.entries ++ a).length, (id, f), by simp, ?_, e2.symm, e3⟩
  rw [e1]
  simp

theorem execCmds_text {fs : List (List Str)} {cs : List CmdEnv} (h : ∀ c ∈ cs, ∀ e, c.fail = some e → IsText e) :
    ∀ {st : Stream}, ∀ r ∈ (execCmds st fs cs).2, (∃ t, r = .str t) ∨ ∃ e, r = .err e ∧ IsText e := by
  induction fs generalizing cs with
  | nil => intro st r hr; cases cs <;> simp [execCmds] at hr
  | cons f fs ih =>
    cases cs with
    | nil => intro st r hr; simp [execCmds] at hr
    | cons c cs =>
      intro st r hr
      have ih' := @ih cs (fun c' hc => h c' (List.mem_cons_of_mem _ hc))
      simp only [execCmds] at hr
      cases hf : c.fail with
      | none =>
        rw [hf] at hr
        rcases List.mem_cons.1 hr with rfl | hr
        · exact Or.inl ⟨_, rfl⟩
        · exact ih' r hr
      | some e =>
        rw [hf] at hr
        rcases List.mem_cons.1 hr with rfl | hr
        · exact Or.inr ⟨e, rfl, h c (by simp) e hf⟩
        · exact ih' r hr

theorem respLoop_text {us : List StateUpdate} {rs : List Reply} (hst : ∀ u ∈ us, Storable u)
    (h : ∀ r ∈ rs, (∃ t, r = .str t) ∨ ∃ e, r = .err e ∧ IsText e) : ∀ r ∈ respLoop us rs, TextErr r := by
  induction us generalizing rs with
  | nil => intro r hr; simp [respLoop] at hr
  | cons u us ih =>
    have hu : ∃ f, redisFields u = .ok f := by
      have := (storable_iff u).1 (hst u (by simp))
      unfold redisValid at this
      cases hf : redisFields u with
      | ok f => exact ⟨f, rfl⟩
      | error e => rw [hf] at this; simp at this
    obtain ⟨f, hf⟩ := hu
    have ih' := fun rs h => @ih rs (fun v hv => hst v (List.mem_cons_of_mem _ hv)) h
    cases rs with
    | nil =>
      intro r hr
      rcases List.mem_cons.1 hr with rfl | hr
      · intro e he; simp [initialResponse, hf] at he
      · exact ih' [] (by simp) r hr
    | cons p rs =>
      intro r hr
      rcases List.mem_cons.1 hr with rfl | hr
      · intro e he
        rcases h p (by simp) with ⟨t, rfl⟩ | ⟨x, rfl, hx⟩
        · simp [respond, hf, redisString] at he
        · simp only [respond, hf, redisString] at he ⊢
          injection he with he
          have hp : IsText "Redis output string conversion error: ".toList := Wire.isText_ascii (by decide)
          rw [← he]
          exact ⟨Wire.isText_nil, Wire.isText_append hp hx⟩
      · exact ih' rs (fun x hx => h x (List.mem_cons_of_mem _ hx)) r hr

/-- One batch: errors carry texts. -/
theorem send_text {st : Stream} {env : SendEnv} (us : List StateUpdate) (hst : ∀ u ∈ us, Storable u)
    (hlost : env.lost = none) (ht : ∀ c ∈ env.cmds, ∀ e, c.fail = some e → IsText e) :
    ∀ r ∈ (redisSend cfg env st us).2, TextErr r := by
  unfold redisSend
  rw [hlost]
  exact respLoop_text hst (execCmds_text ht)

theorem zip_filter_forall₂ {R : StateUpdate → StateResponse → Prop} (c : Nat) (b : List Req) (rs : List StateResponse)
    (h : List.Forall₂ R (b.map (·.update)) rs) :
    List.Forall₂ R ((b.filter fun r => decide (r.caller = c)).map (·.update))
      ((((b.map (·.caller)).zip rs).filter fun d => decide (d.1 = c)).map (·.2)) := by
  induction b generalizing rs with
  | nil => cases h; exact .nil
  | cons r b ih =>
    cases h with
    | cons h1 h2 =>
      have := ih _ h2
      simp only [List.map_cons, List.zip_cons_cons, List.filter_cons]
      by_cases hc : r.caller = c
      · simp only [hc, decide_true, if_true, List.map_cons]
        exact .cons h1 this
      · simp only [hc, decide_false, Bool.false_eq_true, if_false]
        exact this

theorem acks_flushed (hb : Base cd cfg H s) (h : Acks s) (i : Nat) (env : SendEnv) (hp : env.Plausible cfg H)
    (hlost : env.lost = none) (htx : ∀ c ∈ env.cmds, ∀ e, c.fail = some e → IsText e)
    (hcm : (s.insts i).pending.length ≤ env.cmds.length) : Acks (flushed cfg s i env (s.insts i).pending) := by
  obtain ⟨added, ha, -⟩ := send_fields (cfg := cfg) (env := env) ((s.insts i).pending.map (·.update)) (hb.read 0).ms hp
  have hstor : ∀ u ∈ (s.insts i).pending.map (·.update), Storable u := by
    intro u hu
    obtain ⟨r, hr, rfl⟩ := List.mem_map.1 hu
    obtain ⟨x, hx, -, -, hm⟩ := pend_update hb hr
    exact h.stor _ x hx _ hm
  have hsend := send_acks (cfg := cfg) (H := H) (st := s.stream) (env := env) _ hstor hlost (by simpa using hcm)
    (hb.read 0).ms hp
  have hcall : ∀ c, (flushed cfg s i env (s.insts i).pending).calls c = (s.calls c).map fun x => { x with got := x.got ++
      ((((s.insts i).pending.map (·.caller)).zip (redisSend cfg env s.stream ((s.insts i).pending.map (·.update))).2).filter fun d => decide (d.1 = c)).map (·.2) } := fun c => rfl
  have hst : (flushed cfg s i env (s.insts i).pending).stream =
    (redisSend cfg env s.stream ((s.insts i).pending.map (·.update))).1 := rfl
  refine ⟨fun c x hx => ?_, fun c x hx => ?_, fun c x cmd ids hx hr => ?_, fun c x hx => ?_⟩
  · rw [hcall] at hx
    obtain ⟨y, hy, rfl⟩ := Option.map_eq_some_iff.1 hx
    exact h.stor c y hy
  · rw [hcall] at hx
    obtain ⟨y, hy, rfl⟩ := Option.map_eq_some_iff.1 hx
    rw [hst]
    dsimp only
    have hold' : List.Forall₂ (Ack (redisSend cfg env s.stream ((s.insts i).pending.map (·.update))).1.entries y.since)
        (y.updates.take y.got.length) y.got := by
      rw [ha]; exact (h.ack c y hy).imp fun _ _ => Ack.mono
    have hnew := zip_filter_forall₂ c (s.insts i).pending _ (hsend.imp
      (S := Ack (redisSend cfg env s.stream ((s.insts i).pending.map (·.update))).1.entries y.since)
      (fun u r hur hr => by
        obtain ⟨n, e, e1, e2⟩ := hur hr
        exact ⟨n, e, Nat.le_trans (hb.since c y hy) e1, e2⟩))
    have hlen := zip_filter_length (s.insts i).pending
      (redisSend cfg env s.stream ((s.insts i).pending.map (·.update))).2 (by rw [redisSend_length]; simp) c
    by_cases hl : y.inst = i ∧ y.outcome = none
    · obtain ⟨-, ans, l2, l3⟩ := hb.live c y hy hl.2
      rw [hl.1] at l2
      have t1 : y.updates.take y.got.length = ans := by
        rw [l2, ← l3, List.append_assoc, List.take_left]
      have t2 : y.updates.take (y.got ++ ((((s.insts i).pending.map (·.caller)).zip
          (redisSend cfg env s.stream ((s.insts i).pending.map (·.update))).2).filter
          fun d => decide (d.1 = c)).map (·.2)).length =
          ans ++ ((s.insts i).pending.filter fun r => decide (r.caller = c)).map (·.update) := by
        rw [l2]
        apply List.take_left'
        simp only [List.length_append, List.length_map, hlen, l3]
      rw [t1] at hold'
      rw [t2]
      exact List.rel_append hold' hnew
    · have hnil : (s.insts i).pending.filter (fun r => decide (r.caller = c)) = [] := by
        rw [List.filter_eq_nil_iff]
        intro r hr hrc
        obtain ⟨z, hz, hz2⟩ := hb.pend i r hr
        have hrc' : r.caller = c := by simpa using hrc
        rw [hrc', hy] at hz
        injection hz with hz; subst hz
        exact hl hz2
      rw [hnil] at hlen
      have := List.length_eq_zero_iff.1 hlen
      rw [this]
      simpa using hold'
  · rw [hcall] at hx
    obtain ⟨y, hy, rfl⟩ := Option.map_eq_some_iff.1 hx
    exact h.ids c y cmd ids hy hr
  · rw [hcall] at hx
    obtain ⟨y, hy, rfl⟩ := Option.map_eq_some_iff.1 hx
    intro r hr
    rcases List.mem_append.1 hr with hr | hr
    · exact h.txt c y hy r hr
    · obtain ⟨d, hd, rfl⟩ := List.mem_map.1 hr
      exact send_text (cfg := cfg) (st := s.stream) _ hstor hlost htx _ (List.of_mem_zip (List.mem_of_mem_filter hd)).2

theorem acks_step (hb : Base cd cfg H s) (h : Acks s) (l : Label) (hp : l.Plausible cfg H)
    (hco : l.Connected) (hac : l.Accepted cd cfg) (hre : l.Readable) (s' : St)
    (hs : step cd cfg s l = some s') : Acks s' := by
  cases l with
  | call c i rpc =>
    simp only [step] at hs
    split at hs
    · injection hs with hs; subst hs
      refine ⟨fun d x hx => ?_, fun d x hx => ?_, fun d x cmd ids hx hr => ?_, fun d x hx => ?_⟩
      · simp only [St.setCall] at hx
        split at hx
        · injection hx with hx; subst hx
          cases hq : rpc.queue cd cfg with
          | ok us => exact hac us hq
          | error e => simp
        · exact h.stor d x hx
      · simp only [St.setCall] at hx ⊢
        split at hx
        · injection hx with hx; subst hx
          cases rpc.queue cd cfg <;> exact .nil
        · exact h.ack d x hx
      · simp only [St.setCall] at hx
        split at hx
        · injection hx with hx; subst hx
          have hr' : rpc = .setState cmd ids := by cases hq : rpc.queue cd cfg <;> simpa [hq] using hr
          subst hr'
          exact hre
        · exact h.ids d x cmd ids hx hr
      · simp only [St.setCall] at hx
        split at hx
        · injection hx with hx; subst hx
          cases rpc.queue cd cfg <;> simp
        · exact h.txt d x hx
    · simp at hs
  | submit c env =>
    simp only [step] at hs
    cases hx : s.calls c with
    | none => simp [hx] at hs
    | some x =>
      simp only [hx] at hs
      cases ht : x.todo with
      | nil => simp [ht] at hs
      | cons u rest =>
        simp only [ht] at hs
        split at hs
        · rename_i hg
          injection hs with hs; subst hs
          have hb' := base_hold hb c x hx (by simpa using hg.1) u rest ht
          have ha' : Acks (hold (s.setCall c { x with todo := rest }) x.inst ((s.insts x.inst).pending ++ [⟨c, u⟩])) := by
            refine acks_calls h _ rfl fun d y hy => ?_
            simp only [hold, St.setInst, St.setCall] at hy
            split at hy
            · rename_i hd; injection hy with hy; subst hy; exact ⟨x, by rw [hd]; exact hx, rfl, rfl, rfl, rfl⟩
            · exact ⟨y, hy, rfl, rfl, rfl, rfl⟩
          rcases outgoing_cases cfg (s.setCall c { x with todo := rest }) x.inst env (.recv ⟨c, u⟩) with e | e
          · rw [e]; exact ha'
          · rw [e, ← flushed_hold]
            refine acks_flushed hb' ha' x.inst env hp hco hre ?_
            simp [hold, St.setInst, St.setCall]
            exact hg.2
        · simp at hs
  | timeout i env =>
    simp only [step] at hs
    split at hs
    · rename_i hg
      injection hs with hs; subst hs
      rcases outgoing_cases cfg s i env .timeout with e | e
      · rw [e]; exact acks_setInst h i _
      · rw [e]; exact acks_flushed hb h i env hp hco hre hg.2
    · simp at hs
  | finish c order =>
    simp only [step] at hs
    cases hx : s.calls c with
    | none => simp [hx] at hs
    | some x =>
      simp only [hx] at hs
      split at hs
      · obtain ⟨o, -, rfl⟩ := Option.map_eq_some_iff.1 hs
        refine acks_calls h _ rfl fun d y hy => ?_
        simp only [St.setCall] at hy
        split at hy
        · rename_i hd; injection hy with hy; subst hy; exact ⟨x, by rw [hd]; exact hx, rfl, rfl, rfl, rfl⟩
        · exact ⟨y, hy, rfl, rfl, rfl, rfl⟩
      · simp at hs
  | poll i =>
    simp only [step] at hs
    split at hs
    · split at hs
      · injection hs with hs; subst hs
        have := acks_kill h i
        exact ⟨this.stor, this.ack, this.ids, this.txt⟩
      · injection hs with hs; subst hs; exact acks_setInst h i _
    · simp at hs
  | pollLag i k =>
    simp only [step] at hs
    split at hs
    · split at hs
      · injection hs with hs; subst hs
        have := acks_kill h i
        exact ⟨this.stor, this.ack, this.ids, this.txt⟩
      · injection hs with hs; subst hs; exact acks_setInst h i _
    · simp at hs
  | apply i =>
    simp only [step] at hs
    split at hs
    · split at hs
      · simp at hs
      · injection hs with hs; subst hs; exact acks_setInst h i _
    · simp at hs
  | expire i cy =>
    simp only [step] at hs
    split at hs
    · split at hs
      · injection hs with hs; subst hs; exact acks_setInst h i _
      · simp at hs
    · simp at hs
  | crash i =>
    simp only [step] at hs
    split at hs
    · injection hs with hs; subst hs; exact acks_kill h i
    · simp at hs
  | crashMid i env k =>
    simp only [step] at hs
    split at hs
    · injection hs with hs; subst hs
      obtain ⟨added, ha, -⟩ := send_fields (cfg := cfg) (env := { env with lost := some k })
        ((s.insts i).pending.map (·.update)) (hb.read 0).ms hp
      exact acks_kill (acks_grow h ha) i
    · simp at hs
  | start i =>
    simp only [step] at hs
    split at hs
    · simp at hs
    · injection hs with hs; subst hs; exact acks_setInst h i _

/-- An execution as a user would have it: plausible clocks, working connections,
updates that Redis accepts, texts in UTF-8. -/
def Label.Healthy (cd : Codec) (cfg : Config) (H : Nat) (l : Label) : Prop :=
  l.Plausible cfg H ∧ l.Connected ∧ l.Accepted cd cfg ∧ l.Readable

theorem acks_run (ls : List Label) : ∀ {s : St}, Base cd cfg H s → Acks s → (∀ l ∈ ls, l.Healthy cd cfg H) →
    ∀ s', run cd cfg s ls = some s' → Base cd cfg H s' ∧ Acks s' := by
  induction ls with
  | nil => intro s h h2 _ s' hs; injection hs with hs; subst hs; exact ⟨h, h2⟩
  | cons l ls ih =>
    intro s h h2 hp s' hs
    simp only [run] at hs
    cases h1 : step cd cfg s l with
    | none => simp [h1] at hs
    | some s1 =>
      rw [h1] at hs
      obtain ⟨p1, p2, p3, p4⟩ := hp l (by simp)
      exact ih (base_step h l p1 s1 h1) (acks_step h h2 l p1 p2 p3 p4 s1 h1) (fun l hl => hp l (by simp [hl])) s' hs

theorem run_append (cd : Codec) (cfg : Config) (s : St) (a b : List Label) :
    run cd cfg s (a ++ b) = (run cd cfg s a).bind fun s' => run cd cfg s' b := by
  induction a generalizing s with
  | nil => rfl
  | cons l a ih =>
    simp only [List.cons_append, run]
    cases step cd cfg s l with
    | none => rfl
    | some s1 => exact ih s1

/-! ## Growth -/

/-- What an execution keeps: the stream's entries; calls, with their content; outcomes. -/
structure Later (s s' : St) : Prop where
  entries : ∃ more, s'.stream.entries = s.stream.entries ++ more
  calls : ∀ c x, s.calls c = some x → ∃ y, s'.calls c = some y ∧ y.inst = x.inst ∧ y.rpc = x.rpc ∧
    y.updates = x.updates ∧ y.since = x.since ∧ (∀ o, x.outcome = some o → y.outcome = some o)
  fresh : ∀ c y, s'.calls c = some y → s.calls c = none → s.stream.entries.length ≤ y.since

theorem Later.refl (s : St) : Later s s :=
  ⟨⟨[], by simp⟩, fun c x hx => ⟨x, hx, rfl, rfl, rfl, rfl, fun _ h => h⟩, fun c y hy hn => by rw [hn] at hy; simp at hy⟩

theorem Later.trans {a b c : St} (h1 : Later a b) (h2 : Later b c) : Later a c := by
  obtain ⟨m1, e1⟩ := h1.entries
  obtain ⟨m2, e2⟩ := h2.entries
  refine ⟨⟨m1 ++ m2, by rw [e2, e1, List.append_assoc]⟩, fun d x hx => ?_, fun d y hy hn => ?_⟩
  · obtain ⟨y, y1, y2, y3, y4, y5, y6⟩ := h1.calls d x hx
    obtain ⟨z, z1, z2, z3, z4, z5, z6⟩ := h2.calls d y y1
    exact ⟨z, z1, z2.trans y2, z3.trans y3, z4.trans y4, z5.trans y5, fun o ho => z6 o (y6 o ho)⟩
  · cases hb : b.calls d with
    | none =>
      have := h2.fresh d y hy hb
      rw [e1, List.length_append] at this
      omega
    | some z =>
      have := h1.fresh d z hb hn
      obtain ⟨w, w1, -, -, -, w5, -⟩ := h2.calls d z hb
      rw [hy] at w1; injection w1 with w1; subst w1
      rw [w5]; exact this

/-- Calls only change in what `Later` allows. -/
theorem Later.of_calls {s s' : St} (he : ∃ more, s'.stream.entries = s.stream.entries ++ more)
    (hc : ∀ c, (s'.calls c = none ↔ s.calls c = none) ∧ ∀ x, s.calls c = some x → ∃ y, s'.calls c = some y ∧
      y.inst = x.inst ∧ y.rpc = x.rpc ∧ y.updates = x.updates ∧ y.since = x.since ∧
      (∀ o, x.outcome = some o → y.outcome = some o)) : Later s s' :=
  ⟨he, fun c x hx => (hc c).2 x hx, fun c y hy hn => by rw [(hc c).1.2 hn] at hy; simp at hy⟩

theorem later_setInst (s : St) (i : Nat) (x : Inst) : Later s (s.setInst i x) :=
  .of_calls ⟨[], by simp [St.setInst]⟩ fun c => ⟨Iff.rfl, fun y hy => ⟨y, hy, rfl, rfl, rfl, rfl, fun _ h => h⟩⟩

theorem later_kill (s : St) (i : Nat) : Later s (s.kill i) := by
  refine .of_calls ⟨[], by simp [St.kill]⟩ fun c => ⟨by simp [St.kill], fun x hx => ?_⟩
  simp only [St.kill, hx, Option.map_some]
  refine ⟨_, rfl, ?_⟩
  split
  · rename_i hn
    refine ⟨rfl, rfl, rfl, rfl, fun o ho => ?_⟩
    rw [ho] at hn; simp at hn
  · exact ⟨rfl, rfl, rfl, rfl, fun _ h => h⟩

theorem later_stream (s : St) {st : Stream} (he : ∃ more, st.entries = s.stream.entries ++ more) :
    Later s { s with stream := st } :=
  .of_calls he fun _ => ⟨Iff.rfl, fun y hy => ⟨y, hy, rfl, rfl, rfl, rfl, fun _ h => h⟩⟩

theorem later_give (s : St) (ds : List (Nat × StateResponse)) : Later s (s.give ds) := by
  refine .of_calls ⟨[], by simp [St.give]⟩ fun c => ⟨by simp [St.give], fun x hx => ?_⟩
  simp only [St.give, hx, Option.map_some]
  exact ⟨_, rfl, rfl, rfl, rfl, rfl, fun _ h => h⟩

theorem later_setCall (s : St) (c : Nat) (x y : Call) (hx : s.calls c = some x)
    (hy : y.inst = x.inst ∧ y.rpc = x.rpc ∧ y.updates = x.updates ∧ y.since = x.since ∧
      (∀ o, x.outcome = some o → y.outcome = some o)) : Later s (s.setCall c y) := by
  refine .of_calls ⟨[], by simp [St.setCall]⟩ fun d => ?_
  simp only [St.setCall]
  split
  · rename_i hd
    subst hd
    refine ⟨by simp [hx], fun z hz => ?_⟩
    rw [hx] at hz; injection hz with hz; subst hz
    exact ⟨y, rfl, hy⟩
  · exact ⟨Iff.rfl, fun z hz => ⟨z, hz, rfl, rfl, rfl, rfl, fun _ h => h⟩⟩

theorem later_flushed (h0 : ∀ e ∈ s.stream.entries, H ≤ e.1.1) (i : Nat) (env : SendEnv) (b : List Req)
    (hp : env.Plausible cfg H) : Later s (flushed cfg s i env b) := by
  obtain ⟨added, ha, -⟩ := send_fields (cfg := cfg) (env := env) (b.map (·.update)) h0 hp
  exact ((later_stream s ⟨added, ha⟩).trans (later_setInst _ i _)).trans (later_give _ _)

theorem later_outgoing (h0 : ∀ e ∈ s.stream.entries, H ≤ e.1.1) (i : Nat) (env : SendEnv) (e : OutEv)
    (hp : env.Plausible cfg H) : Later s (outgoing cfg s i env e) := by
  rcases outgoing_cases cfg s i env e with h | h
  · rw [h]; exact later_setInst _ _ _
  · rw [h]; exact later_flushed h0 i env _ hp

theorem later_step (h : Base cd cfg H s) (l : Label) (hp : l.Plausible cfg H) (s' : St)
    (hs : step cd cfg s l = some s') : Later s s' := by
  have h0 := (h.read 0).ms
  cases l with
  | call c i rpc =>
    simp only [step] at hs
    split at hs
    · rename_i hg
      simp only [Bool.and_eq_true, Option.isNone_iff_eq_none] at hg
      injection hs with hs; subst hs
      refine ⟨⟨[], by simp [St.setCall]⟩, fun d x hx => ?_, fun d y hy hn => ?_⟩
      · simp only [St.setCall]
        rw [if_neg (by rintro rfl; rw [hg.2] at hx; simp at hx)]
        exact ⟨x, hx, rfl, rfl, rfl, rfl, fun _ h => h⟩
      · simp only [St.setCall] at hy
        split at hy
        · injection hy with hy; subst hy
          cases rpc.queue cd cfg <;> exact Nat.le_refl _
        · rw [hn] at hy; simp at hy
    · simp at hs
  | submit c env =>
    simp only [step] at hs
    cases hx : s.calls c with
    | none => simp [hx] at hs
    | some x =>
      simp only [hx] at hs
      cases ht : x.todo with
      | nil => simp [ht] at hs
      | cons u rest =>
        simp only [ht] at hs
        split at hs
        · injection hs with hs; subst hs
          exact (later_setCall s c x { x with todo := rest } hx ⟨rfl, rfl, rfl, rfl, fun _ h => h⟩).trans
            (later_outgoing (s := s.setCall c { x with todo := rest }) h0 _ _ _ hp)
        · simp at hs
  | timeout i env =>
    simp only [step] at hs
    split at hs
    · injection hs with hs; subst hs; exact later_outgoing h0 _ _ _ hp
    · simp at hs
  | finish c order =>
    simp only [step] at hs
    cases hx : s.calls c with
    | none => simp [hx] at hs
    | some x =>
      simp only [hx] at hs
      split at hs
      · rename_i hg
        obtain ⟨o, -, rfl⟩ := Option.map_eq_some_iff.1 hs
        refine later_setCall s c x { x with outcome := some o } hx ⟨rfl, rfl, rfl, rfl, fun o' h => ?_⟩
        rw [h] at hg; simp at hg
      · simp at hs
  | poll i =>
    simp only [step] at hs
    split at hs
    · split at hs
      · injection hs with hs; subst hs
        have := later_kill s i
        exact ⟨this.entries, this.calls, this.fresh⟩
      · injection hs with hs; subst hs; exact later_setInst _ _ _
    · simp at hs
  | pollLag i k =>
    simp only [step] at hs
    split at hs
    · split at hs
      · injection hs with hs; subst hs
        have := later_kill s i
        exact ⟨this.entries, this.calls, this.fresh⟩
      · injection hs with hs; subst hs; exact later_setInst _ _ _
    · simp at hs
  | apply i =>
    simp only [step] at hs
    split at hs
    · split at hs
      · simp at hs
      · injection hs with hs; subst hs; exact later_setInst _ _ _
    · simp at hs
  | expire i cy =>
    simp only [step] at hs
    split at hs
    · split at hs
      · injection hs with hs; subst hs; exact later_setInst _ _ _
      · simp at hs
    · simp at hs
  | crash i =>
    simp only [step] at hs
    split at hs
    · injection hs with hs; subst hs; exact later_kill s i
    · simp at hs
  | crashMid i env k =>
    simp only [step] at hs
    split at hs
    · injection hs with hs; subst hs
      obtain ⟨added, ha, -⟩ := send_fields (cfg := cfg) (env := { env with lost := some k })
        ((s.insts i).pending.map (·.update)) h0 hp
      exact (later_stream s (st := execPart cfg env s.stream ((s.insts i).pending.map Req.update) k) ⟨added, ha⟩).trans
        (later_kill _ i)
    · simp at hs
  | start i =>
    simp only [step] at hs
    split at hs
    · simp at hs
    · injection hs with hs; subst hs; exact later_setInst _ _ _

theorem later_run (ls : List Label) : ∀ {s : St}, Base cd cfg H s → (∀ l ∈ ls, l.Plausible cfg H) →
    ∀ s', run cd cfg s ls = some s' → Base cd cfg H s' ∧ Later s s' := by
  induction ls with
  | nil => intro s h _ s' hs; injection hs with hs; subst hs; exact ⟨h, .refl _⟩
  | cons l ls ih =>
    intro s h hp s' hs
    simp only [run] at hs
    cases h1 : step cd cfg s l with
    | none => simp [h1] at hs
    | some s1 =>
      rw [h1] at hs
      have p1 := hp l (by simp)
      obtain ⟨a, b⟩ := ih (base_step h l p1 s1 h1) (fun l hl => hp l (by simp [hl])) s' hs
      exact ⟨a, (later_step h l p1 s1 h1).trans b⟩

/-! ## Where entries come from -/

/-- Entries added by a step carry updates of calls running before it. -/
theorem added_step (h : Base cd cfg H s) (l : Label) (hp : l.Plausible cfg H) (s' : St)
    (hs : step cd cfg s l = some s') :
    ∃ added, s'.stream.entries = s.stream.entries ++ added ∧
      ∀ e ∈ added, ∃ c x u, s.calls c = some x ∧ x.outcome = none ∧ u ∈ x.updates ∧ redisFields u = .ok e.2 := by
  have h0 := (h.read 0).ms
  have none_added : s'.stream = s.stream → ∃ added, s'.stream.entries = s.stream.entries ++ added ∧
      ∀ e ∈ added, ∃ c x u, s.calls c = some x ∧ x.outcome = none ∧ u ∈ x.updates ∧ redisFields u = .ok e.2 :=
    fun e => ⟨[], by rw [e]; simp, by simp⟩
  have batch : ∀ (i : Nat) (env : SendEnv) (b : List Req), env.Plausible cfg H →
      (∀ r ∈ b, ∃ x, s.calls r.caller = some x ∧ x.outcome = none ∧ r.update ∈ x.updates) →
      s'.stream = (redisSend cfg env s.stream (b.map (·.update))).1 →
      ∃ added, s'.stream.entries = s.stream.entries ++ added ∧
      ∀ e ∈ added, ∃ c x u, s.calls c = some x ∧ x.outcome = none ∧ u ∈ x.updates ∧ redisFields u = .ok e.2 := by
    intro i env b hpl hb he
    obtain ⟨added, a1, a2⟩ := send_fields (cfg := cfg) (env := env) (b.map (·.update)) h0 hpl
    refine ⟨added, by rw [he]; exact a1, fun e he => ?_⟩
    obtain ⟨u, hu, hf⟩ := a2 e he
    obtain ⟨r, hr, rfl⟩ := List.mem_map.1 hu
    obtain ⟨x, x1, x2, x3⟩ := hb r hr
    exact ⟨_, x, _, x1, x2, x3, hf⟩
  have pendb : ∀ i, ∀ r ∈ (s.insts i).pending, ∃ x, s.calls r.caller = some x ∧ x.outcome = none ∧ r.update ∈ x.updates := by
    intro i r hr
    obtain ⟨x, x1, -, x3, x4⟩ := pend_update h hr
    exact ⟨x, x1, x3, x4⟩
  cases l with
  | call c i rpc =>
    simp only [step] at hs
    split at hs
    · injection hs with hs; subst hs; exact none_added rfl
    · simp at hs
  | submit c env =>
    simp only [step] at hs
    cases hx : s.calls c with
    | none => simp [hx] at hs
    | some x =>
      simp only [hx] at hs
      cases ht : x.todo with
      | nil => simp [ht] at hs
      | cons u rest =>
        simp only [ht] at hs
        split at hs
        · rename_i hg
          injection hs with hs
          have hxo : x.outcome = none := by simpa using hg.1
          rcases outgoing_cases cfg (s.setCall c { x with todo := rest }) x.inst env (.recv ⟨c, u⟩) with e | e
          · rw [e] at hs; subst hs; exact none_added rfl
          · rw [e] at hs
            refine batch x.inst env ((s.insts x.inst).pending ++ [⟨c, u⟩]) hp ?_ (by rw [← hs]; rfl)
            intro r hr
            rcases List.mem_append.1 hr with hr | hr
            · exact pendb _ r hr
            · simp only [List.mem_singleton] at hr
              subst hr
              refine ⟨x, hx, hxo, ?_⟩
              obtain ⟨-, ans, l2, -⟩ := h.live c x hx hxo
              rw [l2, ht]; simp
        · simp at hs
  | timeout i env =>
    simp only [step] at hs
    split at hs
    · injection hs with hs
      rcases outgoing_cases cfg s i env .timeout with e | e
      · rw [e] at hs; subst hs; exact none_added rfl
      · rw [e] at hs
        exact batch i env (s.insts i).pending hp (pendb i) (by rw [← hs]; rfl)
    · simp at hs
  | finish c order =>
    simp only [step] at hs
    cases hx : s.calls c with
    | none => simp [hx] at hs
    | some x =>
      simp only [hx] at hs
      split at hs
      · obtain ⟨o, -, rfl⟩ := Option.map_eq_some_iff.1 hs; exact none_added rfl
      · simp at hs
  | poll i =>
    simp only [step] at hs
    split at hs
    · split at hs <;> (injection hs with hs; subst hs; exact none_added rfl)
    · simp at hs
  | pollLag i k =>
    simp only [step] at hs
    split at hs
    · split at hs <;> (injection hs with hs; subst hs; exact none_added rfl)
    · simp at hs
  | apply i =>
    simp only [step] at hs
    split at hs
    · split at hs
      · simp at hs
      · injection hs with hs; subst hs; exact none_added rfl
    · simp at hs
  | expire i cy =>
    simp only [step] at hs
    split at hs
    · split at hs
      · injection hs with hs; subst hs; exact none_added rfl
      · simp at hs
    · simp at hs
  | crash i =>
    simp only [step] at hs
    split at hs
    · injection hs with hs; subst hs; exact none_added rfl
    · simp at hs
  | crashMid i env k =>
    simp only [step] at hs
    split at hs
    · injection hs with hs
      exact batch i { env with lost := some k } (s.insts i).pending hp (pendb i) (by rw [← hs]; rfl)
    · simp at hs
  | start i =>
    simp only [step] at hs
    split at hs
    · simp at hs
    · injection hs with hs; subst hs; exact none_added rfl

/-- Entries added by an execution carry updates of calls that were running at its
beginning or began during it. -/
theorem added_run (ls : List Label) : ∀ {s : St}, Base cd cfg H s → (∀ l ∈ ls, l.Plausible cfg H) →
    ∀ s', run cd cfg s ls = some s' →
    ∃ added, s'.stream.entries = s.stream.entries ++ added ∧
      ∀ e ∈ added, ∃ c y u, s'.calls c = some y ∧ u ∈ y.updates ∧ redisFields u = .ok e.2 ∧
        ∀ x, s.calls c = some x → x.outcome = none := by
  induction ls with
  | nil => intro s h _ s' hs; injection hs with hs; subst hs; exact ⟨[], by simp, by simp⟩
  | cons l ls ih =>
    intro s h hp s' hs
    simp only [run] at hs
    cases h1 : step cd cfg s l with
    | none => simp [h1] at hs
    | some s1 =>
      rw [h1] at hs
      have p1 := hp l (by simp)
      have hb1 := base_step h l p1 s1 h1
      have hp2 : ∀ l ∈ ls, l.Plausible cfg H := fun l hl => hp l (by simp [hl])
      obtain ⟨a1, e1, f1⟩ := added_step h l p1 s1 h1
      obtain ⟨a2, e2, f2⟩ := ih hb1 hp2 s' hs
      have hl1 := later_step h l p1 s1 h1
      have hl2 := (later_run ls hb1 hp2 s' hs).2
      refine ⟨a1 ++ a2, by rw [e2, e1, List.append_assoc], fun e he => ?_⟩
      rcases List.mem_append.1 he with he | he
      · obtain ⟨c, x, u, x1, x2, x3, x4⟩ := f1 e he
        obtain ⟨y, y1, -, -, y4, -⟩ := hl1.calls c x x1
        obtain ⟨z, z1, -, -, z4, -⟩ := hl2.calls c y y1
        refine ⟨c, z, u, z1, by rw [z4, y4]; exact x3, x4, fun w hw => ?_⟩
        rw [x1] at hw; injection hw with hw; subst hw; exact x2
      · obtain ⟨c, y, u, y1, y2, y3, y4⟩ := f2 e he
        refine ⟨c, y, u, y1, y2, y3, fun x hx => ?_⟩
        obtain ⟨z, z1, -, -, -, -, z6⟩ := hl1.calls c x hx
        have := y4 z z1
        cases hxo : x.outcome with
        | none => rfl
        | some o => rw [z6 o hxo] at this; simp at this

/-! ## What an instance has applied -/

theorem applied_prefix (h : Base cd cfg H s) (i : Nat) :
    ∃ k, updatesOf (s.insts i).hist ++ (s.insts i).inbox = (s.stream.entries.take k).map decoded := by
  obtain ⟨pre, post, h1, h2, -⟩ := (h.read i).split
  dsimp only at h1 h2
  exact ⟨pre.length, by rw [h2, h1, List.take_left]⟩

/-- The `n`-th applied update is the `n`-th stream entry. -/
theorem applied_get (h : Base cd cfg H s) {i n : Nat} (hn : n < (updatesOf (s.insts i).hist).length) :
    ∃ e, s.stream.entries[n]? = some e ∧ (updatesOf (s.insts i).hist)[n]? = some (decoded e) := by
  obtain ⟨k, hk⟩ := applied_prefix h i
  have h1 : (updatesOf (s.insts i).hist ++ (s.insts i).inbox)[n]? = (updatesOf (s.insts i).hist)[n]? :=
    List.getElem?_append_left hn
  rw [hk, List.getElem?_map, List.getElem?_take] at h1
  rw [List.getElem?_eq_getElem hn] at h1 ⊢
  split at h1
  · obtain ⟨e, he, hd⟩ := Option.map_eq_some_iff.1 h1
    exact ⟨e, he, by rw [hd]⟩
  · simp at h1

end OM.Sys
