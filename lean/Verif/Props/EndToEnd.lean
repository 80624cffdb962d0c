import Verif.Lemmas.System
import Verif.Props.Snapshot
import Verif.Props.Handlers
import Verif.Props.Invoke
/-!
# Properties C03, C69, C70, C79: the whole system

Any number of om-core instances, clients, crashes and restarts over one Redis stream
(`Model/System.lean`).  `run cd cfg init evs = some s`: the events `evs` can happen in
this order from the beginning and lead to `s`.
-/
namespace OM.Props
open OM.Spec OM.Sys

/-! ## Answers to calls -/

/-- CreateTicket's answer `k` names the stream entry of its update. -/
theorem create_acked {cd : Codec} {cfg : Config} {H : Nat} {s : St} (hb : Base cd cfg H s) {c : Nat} (ha : AcksOf s c)
    {x : Call} {now : Int} {t : Option Ticket} {k : Str} (hx : s.calls c = some x)
    (hr : x.rpc = .create now t) (ho : x.outcome = some (.id k)) :
    ∃ u n e, createTicketQueue cd cfg now t = .ok u ∧ x.updates = [u] ∧ x.since ≤ n ∧
      s.stream.entries[n]? = some e ∧ e.1.fmt = k ∧ decodeEntry e = some (replicated u k) := by
  rcases hb.fin c x _ hx ho with h | ⟨-, e, -, h⟩ | ⟨hl, order, h⟩
  · cases h
  · cases h
  · rcases hb.upd c x hx with hq | ⟨-, e, -, h3⟩
    · rw [hr] at hq
      simp only [Rpc.queue] at hq
      cases hcq : createTicketQueue cd cfg now t with
      | error e => rw [hcq] at hq; simp [Except.map] at hq
      | ok u =>
        rw [hcq] at hq
        simp only [Except.map, Except.ok.injEq] at hq
        have hack := ha.ack x hx
        rw [hl, List.take_length, ← hq] at hack
        simp only [Call.result, hr] at h
        cases hg : x.got with
        | nil => rw [hg] at h; simp at h
        | cons r rest =>
          rw [hg] at h hack
          simp only [List.head?_cons, Option.map_some, Option.some.injEq, createTicketReturn] at h
          cases hack with
          | cons h1 h2 =>
            cases her : r.err with
            | some e => rw [her] at h; simp at h
            | none =>
              rw [her] at h
              simp only [Outcome.id.injEq] at h
              obtain ⟨n, e, n1, n2, n3, n4⟩ := h1 her
              exact ⟨u, n, e, rfl, hq.symm, n1, n2, by rw [n3, h], by rw [n4, h]⟩
    · rw [ho] at h3; simp at h3

theorem forall₂_left {α β : Type} {R : α → β → Prop} {l1 : List α} {l2 : List β}
    (h : List.Forall₂ R l1 l2) {a : α} (ha : a ∈ l1) : ∃ b ∈ l2, R a b := by
  induction h with
  | nil => simp at ha
  | cons h1 _ ih =>
    rcases List.mem_cons.1 ha with rfl | ha
    · exact ⟨_, by simp, h1⟩
    · obtain ⟨b, hb, hr⟩ := ih ha
      exact ⟨b, by simp [hb], hr⟩

/-- An OK of ActivateTickets or DeactivateTickets means an entry for each update. -/
theorem setState_acked {cd : Codec} {cfg : Config} {H : Nat} {s : St} (hb : Base cd cfg H s) {c : Nat} (ha : AcksOf s c)
    {x : Call} {cmd : Cmd} {ids : List Str} (hx : s.calls c = some x)
    (hr : x.rpc = .setState cmd ids) (ho : x.outcome = some .ok) :
    activeStateQueue cfg cmd ids = .ok x.updates ∧
    ∀ u ∈ x.updates, ∃ n e, x.since ≤ n ∧ s.stream.entries[n]? = some e ∧
      decodeEntry e = some (replicated u e.1.fmt) := by
  rcases hb.fin c x _ hx ho with h | ⟨-, e, -, h⟩ | ⟨hl, order, h⟩
  · cases h
  · cases h
  · rcases hb.upd c x hx with hq | ⟨-, e, -, h3⟩
    · rw [hr] at hq
      simp only [Rpc.queue] at hq
      refine ⟨hq, fun u hu => ?_⟩
      have hlen : x.updates.length = (validateTicketIds ids).1.length := by
        unfold activeStateQueue at hq
        split at hq
        · simp at hq
        · split at hq
          · simp at hq
          · injection hq with hq; rw [← hq]; simp [stateUpdatesFor]
      simp only [Call.result, hr] at h
      obtain ⟨m, m1, m2⟩ := collectErrs_spec cmd (validateTicketIds ids).1 x.got [] (by omega)
      rw [m1] at h
      simp only [Option.bind_some] at h
      split at h
      · rename_i hperm
        have htx := collectErrs_text cmd (validateTicketIds ids).1 x.got [] m
          (fun id hid => ha.ids x cmd ids hx hr id (by rw [validateTicketIds_eq] at hid; exact List.mem_of_mem_filter hid))
          (ha.txt x hx) (by simp) m1
        have hno : order = [] := by
          by_contra hne
          rw [addDetails_text (fun e he => htx e (hperm.mem_iff.1 he)) hne] at h
          simp at h
        subst hno
        have hm : m = [] := List.nil_perm.1 hperm
        have herr : ∀ r ∈ x.got, r.err = none := by
          intro r hr
          by_contra hne
          have : r.result ∈ m.keys := (m2 _).2 (Or.inr ⟨r, hr, by simpa [Option.isSome_iff_ne_none] using hne, rfl⟩)
          rw [hm] at this; simp [GoMap.keys] at this
        have hack := ha.ack x hx
        rw [hl, List.take_length] at hack
        obtain ⟨r, hr, hur⟩ := forall₂_left hack hu
        obtain ⟨n, e, n1, n2, n3, n4⟩ := hur (herr r hr)
        exact ⟨n, e, n1, n2, by rw [n3]; exact n4⟩
      · simp at h
    · rw [ho] at h3; simp at h3

/-! ## C79 -/

/-- **C79.** In no execution does an instance's replication panic, whatever the clients
ask for, whatever fails and whoever crashes (with plausible clocks; entries written to
the stream by other programs are C34). -/
theorem C79_replication_never_panics (cd : Codec) (cfg : Config) (H : Nat) (evs : List Label) (s : St)
    (hp : ∀ l ∈ evs, l.Plausible cfg H) (hr : run cd cfg init evs = some s) : s.panics = [] :=
  (base_run evs (base_init cd cfg H) hp s hr).panics

/-- `l` is the death of instance `i`. -/
def _root_.OM.Sys.Label.Kills (i : Nat) : Label → Prop
  | .crash j => j = i
  | .crashMid j _ _ => j = i
  | _ => False

theorem up_outgoing (cfg : Config) (s : St) (j : Nat) (env : SendEnv) (e : OutEv) (i : Nat) :
    ((outgoing cfg s j env e).insts i).up = (s.insts i).up := by
  rcases outgoing_cases cfg s j env e with h | h
  · rw [h]; simp only [hold, St.setInst]; split
    · rename_i hj; rw [hj]
    · rfl
  · rw [h]; simp only [flushed, St.give, St.setInst]; split
    · rename_i hj; rw [hj]
    · rfl

theorem up_step {cd : Codec} {cfg : Config} {H : Nat} {s s' : St} (h : Base cd cfg H s) (l : Label) (i : Nat)
    (hs : step cd cfg s l = some s') (hl : ¬ l.Kills i) (hu : (s.insts i).up = true) : (s'.insts i).up = true := by
  have hset : ∀ (j : Nat) (x : Inst), x.up = (s.insts j).up → ((s.setInst j x).insts i).up = true := by
    intro j x hx
    simp only [St.setInst]
    split
    · rename_i hj; rw [hx, ← hj]; exact hu
    · exact hu
  have hkill : ∀ (t : St) (j : Nat), j ≠ i → t.insts = s.insts → ((t.kill j).insts i).up = true := by
    intro t j hj ht
    simp only [St.kill, ht]
    rw [if_neg (fun e => hj e.symm)]; exact hu
  cases l with
  | call c j rpc =>
    simp only [step] at hs
    split at hs
    · injection hs with hs; subst hs; exact hu
    · simp at hs
  | submit c env =>
    simp only [step] at hs
    split at hs
    · simp at hs
    · split at hs
      · simp at hs
      · split at hs
        · injection hs with hs; subst hs; rw [up_outgoing]; exact hu
        · simp at hs
  | timeout j env =>
    simp only [step] at hs
    split at hs
    · injection hs with hs; subst hs; rw [up_outgoing]; exact hu
    · simp at hs
  | finish c order =>
    simp only [step] at hs
    split at hs
    · simp at hs
    · split at hs
      · obtain ⟨o, -, rfl⟩ := Option.map_eq_some_iff.1 hs
        exact hu
      · simp at hs
  | poll j =>
    simp only [step] at hs
    split at hs
    · obtain ⟨w', a, -⟩ := rstep_inv (cfg := cfg) (h.read j) (.poll cfg.inMax) (by simp)
      simp only [rstep] at a
      cases hpu : pollUpdates s.stream cfg.inMax (s.insts j).replId with
      | none => simp [hpu] at a
      | some p =>
        simp only [hpu] at hs
        injection hs with hs; subst hs
        exact hset _ _ rfl
    · simp at hs
  | pollLag j k =>
    simp only [step] at hs
    split at hs
    · obtain ⟨w', a, -⟩ := rstep_inv (cfg := cfg) (h.read j) (.pollLag k cfg.inMax) (by simp)
      simp only [rstep] at a
      cases hpu : pollUpdates (s.stream.lagging k) cfg.inMax (s.insts j).replId with
      | none => simp [hpu] at a
      | some p =>
        simp only [hpu] at hs
        injection hs with hs; subst hs
        exact hset _ _ rfl
    · simp at hs
  | apply j =>
    simp only [step] at hs
    split at hs
    · split at hs
      · simp at hs
      · injection hs with hs; subst hs; exact hset _ _ rfl
    · simp at hs
  | expire j cy =>
    simp only [step] at hs
    split at hs
    · split at hs
      · injection hs with hs; subst hs; exact hset _ _ rfl
      · simp at hs
    · simp at hs
  | crash j =>
    simp only [step] at hs
    split at hs
    · injection hs with hs; subst hs; exact hkill _ _ hl rfl
    · simp at hs
  | crashMid j env k =>
    simp only [step] at hs
    split at hs
    · injection hs with hs; subst hs; exact hkill _ _ hl rfl
    · simp at hs
  | start j =>
    simp only [step] at hs
    split at hs
    · simp at hs
    · injection hs with hs; subst hs
      simp only [St.setInst]
      split
      · rfl
      · exact hu

/-- **C79**, from the outside: a running instance keeps running, through any number of
calls, batches, polls, expirations and other instances' crashes, until it is itself
killed from the outside. -/
theorem C79_only_crashes_stop_an_instance (cd : Codec) (cfg : Config) (H : Nat) (evs evs' : List Label) (s s' : St)
    (hp : ∀ l ∈ evs ++ evs', l.Plausible cfg H) (hr : run cd cfg init evs = some s)
    (hr' : run cd cfg s evs' = some s') (i : Nat) (hu : (s.insts i).up = true) (hk : ∀ l ∈ evs', ¬ l.Kills i) :
    (s'.insts i).up = true := by
  have hb := base_run evs (base_init cd cfg H) (fun l hl => hp l (by simp [hl])) s hr
  have hp' : ∀ l ∈ evs', l.Plausible cfg H := fun l hl => hp l (by simp [hl])
  clear hr hp
  induction evs' generalizing s with
  | nil => injection hr' with hr'; subst hr'; exact hu
  | cons l ls ih =>
    obtain ⟨t, ht, hr'⟩ := Option.bind_eq_some_iff.1 hr'
    exact ih t hr' (up_step hb l i ht (hk l (by simp)) hu) (fun m hm => hk m (by simp [hm]))
      (base_step hb l (hp' l (by simp)) t ht) (fun m hm => hp' m (by simp [hm]))

/-! ## C70 -/

/-- The caller was told that the call succeeded, in a way that depends on the responses
(CreateAssignments always returns OK, see C19). -/
def ToldSuccess (x : Call) : Prop :=
  (∃ now t k, x.rpc = .create now t ∧ x.outcome = some (.id k)) ∨
  (∃ cmd ids, x.rpc = .setState cmd ids ∧ x.outcome = some .ok)

/-- `u` is in the stream for good: an entry of every later state, and what every instance
that has applied that many updates has applied there. -/
def Survives (cd : Codec) (cfg : Config) (H : Nat) (s : St) (u : StateUpdate) : Prop :=
  ∃ n e, decodeEntry e = some (replicated u e.1.fmt) ∧
    ∀ (evs : List Label) (s' : St), (∀ l ∈ evs, l.Plausible cfg H) → run cd cfg s evs = some s' →
      s'.stream.entries[n]? = some e ∧
      ∀ i, n < (updatesOf (s'.insts i).hist).length →
        (updatesOf (s'.insts i).hist)[n]? = some (replicated u e.1.fmt)

/-- The full claim C70 for executions whose labels are `good`. -/
def C70Statement (cd : Codec) (cfg : Config) (H : Nat) (good : Label → Prop) (told : Call → Prop) : Prop :=
  ∀ (evs : List Label) (s : St), (∀ l ∈ evs, good l) → run cd cfg init evs = some s →
    ∀ c x, s.calls c = some x → told x → ∀ u ∈ x.updates, Survives cd cfg H s u

theorem survives_of_entry {cd : Codec} {cfg : Config} {H : Nat} {s : St} (hb : Base cd cfg H s) {u : StateUpdate}
    {n : Nat} {e : RId × List Str} (he : s.stream.entries[n]? = some e)
    (hd : decodeEntry e = some (replicated u e.1.fmt)) : Survives cd cfg H s u := by
  refine ⟨n, e, hd, fun evs s' hp hr => ?_⟩
  obtain ⟨hb', hl⟩ := later_run evs hb hp s' hr
  obtain ⟨more, hm⟩ := hl.entries
  have he' : s'.stream.entries[n]? = some e := by
    rw [hm, List.getElem?_append_left (List.getElem?_eq_some_iff.1 he).1]; exact he
  refine ⟨he', fun i hi => ?_⟩
  obtain ⟨e2, h1, h2⟩ := applied_get hb' hi
  rw [he'] at h1; injection h1 with h1; subst h1
  rw [h2]; simp [decoded, hd]

/-- **C70 (what holds).** Partial: full C70 has no conditions on connections and updates
(`C70_lost_connection_refuted`, `C70_assignments_refuted`).  In executions in which no
batch loses its connection and all queued updates are acceptable to Redis, whatever
crashes: if the caller was told success, each update of the call is in the stream in all
later states, under the id the caller got, and every instance applies it. -/
theorem C70_acknowledged_updates_survive_partial (cd : Codec) (cfg : Config) (H : Nat) :
    C70Statement cd cfg H (Label.Healthy cd cfg H) ToldSuccess := by
  intro evs s hh hr c x hx ht u hu
  obtain ⟨hb, ha⟩ := acks_run evs (base_init cd cfg H) acks_init hh s hr
  rcases ht with ⟨now, t, k, h1, h2⟩ | ⟨cmd, ids, h1, h2⟩
  · obtain ⟨u', n, e, -, h4, -, h6, h7, h8⟩ := create_acked hb (ha.of c) hx h1 h2
    rw [h4, List.mem_singleton] at hu
    subst hu
    exact survives_of_entry hb h6 (by rw [h7]; exact h8)
  · obtain ⟨-, h3⟩ := setState_acked hb (ha.of c) hx h1 h2
    obtain ⟨n, e, -, h5, h6⟩ := h3 u hu
    exact survives_of_entry hb h5 h6

/-- C70, the answer to CreateTicket: the id is that of the entry holding the ticket. -/
theorem C70_created_id_names_the_entry_partial (cd : Codec) (cfg : Config) (H : Nat) (evs : List Label) (s : St)
    (hh : ∀ l ∈ evs, l.Healthy cd cfg H) (hr : run cd cfg init evs = some s)
    (c : Nat) (x : Call) (now : Int) (t : Option Ticket) (k : Str)
    (hx : s.calls c = some x) (h1 : x.rpc = .create now t) (h2 : x.outcome = some (.id k)) :
    ∃ u e, createTicketQueue cd cfg now t = .ok u ∧ e ∈ s.stream.entries ∧ e.1.fmt = k ∧
      decodeEntry e = some (replicated u k) := by
  obtain ⟨hb, ha⟩ := acks_run evs (base_init cd cfg H) acks_init hh s hr
  obtain ⟨u, n, e, h3, -, -, h6, h7, h8⟩ := create_acked hb (ha.of c) hx h1 h2
  exact ⟨u, e, h3, List.mem_of_getElem? h6, h7, h8⟩

/-- **C70 (catching up).** From any reachable state, an instance that is up can, by
polling and applying alone, apply every entry of the stream. -/
theorem C70_instances_can_catch_up (cd : Codec) (cfg : Config) (H : Nat) (evs : List Label) (s : St)
    (hp : ∀ l ∈ evs, l.Plausible cfg H) (hr : run cd cfg init evs = some s) (i : Nat)
    (hup : (s.insts i).up = true) :
    ∃ (ls : List Label) (s' : St), (∀ l ∈ ls, l = .poll i ∨ l = .apply i) ∧ run cd cfg s ls = some s' ∧
      s'.stream = s.stream ∧ updatesOf (s'.insts i).hist = s.stream.entries.map decoded := by
  have hb := base_run evs (base_init cd cfg H) hp s hr
  clear hr hp evs
  -- measure: polls still needed, then updates waiting
  obtain ⟨n, hn⟩ : ∃ n, n = 2 * (s.stream.entries.length - (updatesOf (s.insts i).hist ++ (s.insts i).inbox).length) +
      (s.stream.entries.length - (updatesOf (s.insts i).hist).length) := ⟨_, rfl⟩
  induction n using Nat.strongRecOn generalizing s with
  | ind n ih =>
    obtain ⟨k, hk⟩ := applied_prefix hb i
    have hlen : (updatesOf (s.insts i).hist ++ (s.insts i).inbox).length ≤ s.stream.entries.length := by
      rw [hk]; simp
    cases hin : (s.insts i).inbox with
    | cons u us =>
      -- apply
      have hstep : step cd cfg s (.apply i) = some (s.setInst i { s.insts i with
          inbox := us, cache := applyUpdate cd (s.insts i).cache u, hist := (s.insts i).hist ++ [.upd u] }) := by
        simp only [step, hup, hin]; rfl
      generalize hs1 : s.setInst i { s.insts i with
          inbox := us, cache := applyUpdate cd (s.insts i).cache u, hist := (s.insts i).hist ++ [.upd u] } = s1 at hstep
      have hb1 := base_step hb (.apply i) trivial s1 hstep
      have e1 : s1.stream = s.stream := by subst hs1; rfl
      have e2 : (s1.insts i).inbox = us := by subst hs1; simp [St.setInst]
      have e3 : updatesOf (s1.insts i).hist = updatesOf (s.insts i).hist ++ [u] := by
        subst hs1; simp [St.setInst, updatesOf]
      have e4 : (s1.insts i).up = true := by subst hs1; simp [St.setInst, hup]
      rw [hin] at hn hlen
      obtain ⟨ls, s', l1, l2, l3, l4⟩ := ih _ (by
        simp only [List.length_append, List.length_cons] at hn hlen ⊢
        rw [hn]
        show 2 * (s1.stream.entries.length - ((updatesOf (s1.insts i).hist).length + (s1.insts i).inbox.length)) +
          (s1.stream.entries.length - (updatesOf (s1.insts i).hist).length) < _
        rw [e1, e2, e3, List.length_append]
        simp only [List.length_cons, List.length_nil]
        omega) s1 e4 hb1 (by rw [List.length_append])
      refine ⟨.apply i :: ls, s', ?_, by simp [run, hstep, l2], l3.trans e1, by rw [l4, e1]⟩
      intro l hl
      rcases List.mem_cons.1 hl with rfl | hl
      · exact Or.inr rfl
      · exact l1 l hl
    | nil =>
      by_cases hdone : updatesOf (s.insts i).hist = s.stream.entries.map decoded
      · exact ⟨[], s, by simp, rfl, rfl, hdone⟩
      · -- poll
        obtain ⟨w', a, b, -, hcatch⟩ := rstep_inv (cfg := cfg) (hb.read i) (.poll cfg.inMax) (by simp)
        simp only [rstep] at a
        cases hpu : pollUpdates s.stream cfg.inMax (s.insts i).replId with
        | none => simp [hpu] at a
        | some p =>
          obtain ⟨us, r⟩ := p
          simp only [hpu, Option.map_some] at a
          injection a with a; subst a
          have hne : us ≠ [] := by
            rintro rfl
            have := hcatch cfg.inMax rfl (by simp)
            rw [hin] at this
            simp only [List.append_nil] at this
            exact hdone this
          have hstep : step cd cfg s (.poll i) = some (s.setInst i { s.insts i with
              replId := r, inbox := (s.insts i).inbox ++ us }) := by
            simp only [step, hup, hpu]; rfl
          generalize hs1 : s.setInst i { s.insts i with
              replId := r, inbox := (s.insts i).inbox ++ us } = s1 at hstep
          have hb1 := base_step hb (.poll i) trivial s1 hstep
          have e1 : s1.stream = s.stream := by subst hs1; rfl
          have e2 : (s1.insts i).inbox = us := by subst hs1; simp [St.setInst, hin]
          have e3 : (s1.insts i).hist = (s.insts i).hist := by
            subst hs1; simp [St.setInst]
          have e4 : (s1.insts i).up = true := by subst hs1; simp [St.setInst, hup]
          have hus : 0 < us.length := List.length_pos_iff.2 hne
          obtain ⟨k1, hk1⟩ := applied_prefix hb1 i
          have hlen1 : (updatesOf (s1.insts i).hist ++ (s1.insts i).inbox).length ≤ s1.stream.entries.length := by
            rw [hk1]; simp
          rw [hin] at hn hlen
          obtain ⟨ls, s', l1, l2, l3, l4⟩ := ih _ (by
            rw [hn, e3, e2, e1]
            rw [e3, e2, e1] at hlen1
            simp only [List.length_append, List.length_nil] at hlen hlen1 ⊢
            omega) s1 e4 hb1 rfl
          refine ⟨.poll i :: ls, s', ?_, by simp [run, hstep, l2], l3.trans e1, by rw [l4, e1]⟩
          intro l hl
          rcases List.mem_cons.1 hl with rfl | hl
          · exact Or.inl rfl
          · exact l1 l hl

/-! ## C69 -/

/-- The call asks to deactivate `k`: DeactivateTickets, or a match that contains it. -/
def Deactivates (rpc : Rpc) (k : Str) : Prop :=
  match rpc with
  | .setState .deactivate ids => k ∈ ids
  | .matched ids => k ∈ ids
  | _ => False

/-- The call asks to activate `k`. -/
def Activates (rpc : Rpc) (k : Str) : Prop :=
  match rpc with
  | .setState .activate ids => k ∈ ids
  | _ => False

/-- `ct` has the content of the request `t` made at `now`, under the id `k` (see C06). -/
def ContentOf (now : Int) (t : Ticket) (k : Str) (ct : Ticket) : Prop :=
  ct.id = k ∧ ∃ (d : FilterableData) (cr : Timestamp), ct.attributes = some d ∧
    d.tags = reqTags t ∧ d.stringArgs.Perm (reqStrings t) ∧ d.doubleArgs.Perm (reqDoubles t) ∧
    ct.extensions.Perm t.extensions ∧ d.creationTime = some cr ∧ CreationFor now t cr

/-- `m` is what a pool snapshot taken by instance `i` may hold, when it starts after the
incoming goroutine did `pre` and ends no later than the present. -/
def SnapshotOf (cd : Codec) (cfg : Config) (s : St) (i : Nat) (pre : List Ev) (m : GoMap Ticket) : Prop :=
  ∃ es sn, (s.insts i).hist = pre ++ es ∧
    IsSnapshot (runEvs cd cfg Cache.empty pre) (traceOps cd cfg (runEvs cd cfg Cache.empty pre) es) sn m

/-- The full claim C69 (first half) for executions whose labels are `good`.  `s1`:
CreateTicket has returned `k`.  `s2`: an activation naming `k`, begun after that, has
returned OK.  `s3`: now.  All calls that ask to deactivate `k` had ended by `s1`. -/
def C69Statement (cd : Codec) (cfg : Config) (H : Nat) (good : Label → Prop) : Prop :=
  ∀ (evs1 evs2 evs3 : List Label) (s1 s2 s3 : St),
    (∀ l ∈ evs1 ++ evs2, good l) → (∀ l ∈ evs3, l.Plausible cfg H) →
    run cd cfg init evs1 = some s1 → run cd cfg s1 evs2 = some s2 → run cd cfg s2 evs3 = some s3 →
    ∀ (c1 : Nat) (x1 : Call) (now : Int) (t : Ticket) (k : Str),
    s1.calls c1 = some x1 → x1.rpc = .create now (some t) → x1.outcome = some (.id k) →
    ∀ (c2 : Nat) (x2 : Call), s1.calls c2 = none → s2.calls c2 = some x2 →
    Activates x2.rpc k → x2.outcome = some .ok →
    (∀ c y, s3.calls c = some y → Deactivates y.rpc k → ∃ x, s1.calls c = some x ∧ x.outcome ≠ none) →
    ∀ (j : Nat) (pre : List Ev) (m : GoMap Ticket), SnapshotOf cd cfg s3 j pre m →
    s2.stream.entries.length ≤ (updatesOf pre).length → Fresh cd cfg (s3.insts j).hist k →
    ∃ ct, m.load k = some ct ∧ ContentOf now t k ct

/-! ### What the applied updates say -/

theorem replicated_cmd (u : StateUpdate) (i : Str) : (replicated u i).cmd = u.cmd := by
  obtain ⟨c, k, v⟩ := u
  cases c <;> rfl

theorem replicated_key {u : StateUpdate} {i : Str} (h : u.cmd ≠ .ticket) : (replicated u i).key = u.key := by
  obtain ⟨c, k, v⟩ := u
  cases c <;> first | rfl | exact absurd rfl h

/-- An entry that decodes to a creation of `k` has id `k`. -/
private theorem creation_id {e : RId × List Str} {u : StateUpdate} (hf : redisFields u = .ok e.2)
    (hc : (decoded e).cmd = .ticket) : (decoded e).key = e.1.fmt := by
  have := decodeEntry_fields hf e.1
  simp only [decoded, this, Option.getD_some] at hc ⊢
  unfold replicated at hc ⊢
  split <;> simp_all

private theorem sorted_unique {es : List (RId × List Str)} (h : es.Pairwise fun a b => RId.lt a.1 b.1)
    {m n : Nat} {a b : RId × List Str} (ha : es[m]? = some a) (hb : es[n]? = some b) (hab : a.1 = b.1) : m = n := by
  obtain ⟨hm, ha⟩ := List.getElem?_eq_some_iff.1 ha
  obtain ⟨hn, hb⟩ := List.getElem?_eq_some_iff.1 hb
  have irr : ∀ r : RId, ¬ RId.lt r r := fun r h => by unfold RId.lt at h; omega
  rcases Nat.lt_trichotomy m n with h1 | h1 | h1
  · have := List.pairwise_iff_getElem.1 h m n hm hn h1
    rw [ha, hb, hab] at this
    exact absurd this (irr _)
  · exact h1
  · have := List.pairwise_iff_getElem.1 h n m hn hm h1
    rw [ha, hb, hab] at this
    exact absurd this (irr _)

/-- Two applied creations with the same key are the same one. -/
theorem creation_unique {cd : Codec} {cfg : Config} {H : Nat} {s : St} (hb : Base cd cfg H s) {i m n : Nat}
    {u v : StateUpdate} (hu : (updatesOf (s.insts i).hist)[m]? = some u) (hv : (updatesOf (s.insts i).hist)[n]? = some v)
    (hcu : u.cmd = .ticket) (hcv : v.cmd = .ticket) (hk : u.key = v.key) : m = n := by
  obtain ⟨e1, a1, a2⟩ := applied_get hb (List.getElem?_eq_some_iff.1 hu).1
  obtain ⟨e2, b1, b2⟩ := applied_get hb (List.getElem?_eq_some_iff.1 hv).1
  rw [hu] at a2; injection a2 with a2
  rw [hv] at b2; injection b2 with b2
  obtain ⟨_, _, w1, -, -, f1⟩ := hb.prov e1 (List.mem_of_getElem? a1)
  obtain ⟨_, _, w2, -, -, f2⟩ := hb.prov e2 (List.mem_of_getElem? b1)
  have k1 := creation_id f1 (by rw [← a2]; exact hcu)
  have k2 := creation_id f2 (by rw [← b2]; exact hcv)
  rw [← a2] at k1
  rw [← b2] at k2
  exact sorted_unique (hb.read i).inv.sorted a1 b1 (RId.fmt_injective (by rw [← k1, ← k2, hk]))

theorem split_at {α : Type} {l : List α} {n : Nat} {a : α} (h : l[n]? = some a) :
    l = l.take n ++ a :: l.drop (n + 1) := by
  obtain ⟨hn, ha⟩ := List.getElem?_eq_some_iff.1 h
  rw [← ha]; simp

/-- The last word on `k` is an activation when nothing after one speaks against it. -/
theorem markers_last {h : List StateUpdate} {n : Nat} {v k : Str} (hn : h[n]? = some ⟨.activate, k, v⟩)
    (hafter : ∀ m u, n < m → h[m]? = some u → u.key = k → u.cmd ≠ .ticket ∧ u.cmd ≠ .deactivate) :
    (markers h k).getLast? = some .activate := by
  have hs := split_at hn
  have hm : markers h k = markers (h.take n) k ++ .activate :: markers (h.drop (n + 1)) k := by
    conv => lhs; rw [hs]
    simp [markers]
  rw [hm]
  have hall : ∀ c ∈ markers (h.drop (n + 1)) k, c = .activate := by
    intro c hc
    simp only [markers, List.mem_map, List.mem_filter, decide_eq_true_eq] at hc
    obtain ⟨u, ⟨hu, hk, hcase⟩, rfl⟩ := hc
    obtain ⟨m, hmu⟩ := List.mem_iff_getElem?.1 hu
    rw [List.getElem?_drop] at hmu
    obtain ⟨h1, h2⟩ := hafter (n + 1 + m) u (by omega) hmu hk
    rcases hcase with h | h | h
    · exact absurd h h1
    · exact h
    · exact absurd h h2
  rw [List.getLast?_append]
  have : (Cmd.activate :: markers (h.drop (n + 1)) k).getLast? = some .activate := by
    cases hl : (Cmd.activate :: markers (h.drop (n + 1)) k).getLast? with
    | none => simp at hl
    | some c =>
      have hc := List.mem_of_getLast? hl
      rcases List.mem_cons.1 hc with h | h
      · rw [h]
      · rw [hall c h]
  rw [this]; rfl

theorem creations_last {h : List StateUpdate} {k v : Str} {n : Nat} (hn : h[n]? = some ⟨.ticket, k, v⟩)
    (huniq : ∀ m u, h[m]? = some u → u.cmd = .ticket → u.key = k → m = n) :
    (creations h k).getLast? = some v := by
  have hmem : v ∈ creations h k := by
    simp only [creations, List.mem_map, List.mem_filter, decide_eq_true_eq]
    exact ⟨_, ⟨List.mem_of_getElem? hn, rfl, rfl⟩, rfl⟩
  cases hl : (creations h k).getLast? with
  | none => rw [List.getLast?_eq_none_iff] at hl; rw [hl] at hmem; simp at hmem
  | some w =>
    have := List.mem_of_getLast? hl
    simp only [creations, List.mem_map, List.mem_filter, decide_eq_true_eq] at this
    obtain ⟨u, ⟨hu, hk, hc⟩, rfl⟩ := this
    obtain ⟨m, hm⟩ := List.mem_iff_getElem?.1 hu
    have := huniq m u hm hc hk
    subst this
    rw [hn] at hm; injection hm with hm; subst hm
    rfl

/-- Queued deactivations of `k` come from calls that ask for it. -/
private theorem deactivates_of_update {cd : Codec} {cfg : Config} {rpc : Rpc} {us : List StateUpdate}
    (hq : rpc.queue cd cfg = .ok us) {u : StateUpdate} (hu : u ∈ us) (hc : u.cmd = .deactivate) :
    Deactivates rpc u.key := by
  cases rpc with
  | create now t =>
    simp only [Rpc.queue] at hq
    cases h : createTicketQueue cd cfg now t with
    | error e => rw [h] at hq; simp [Except.map] at hq
    | ok w =>
      rw [h] at hq
      simp only [Except.map, Except.ok.injEq] at hq
      rw [← hq, List.mem_singleton] at hu
      subst hu
      unfold createTicketQueue at h
      split at h
      · simp at h
      · split at h
        · simp at h
        · injection h with h; rw [← h] at hc; simp at hc
  | setState cmd ids =>
    simp only [Rpc.queue] at hq
    classical
    rw [C15_valid_ids_sent cfg cmd ids us hq] at hu
    obtain ⟨id, hid, rfl⟩ := List.mem_map.1 hu
    dsimp only at hc
    subst hc
    exact (List.mem_filter.1 hid).1
  | assign r =>
    simp only [Rpc.queue, createAssignmentsQueue] at hq
    split at hq
    · simp at hq
    · split at hq
      · simp at hq
      · split at hq
        · simp at hq
        · injection hq with hq
          rw [← hq, List.mem_filterMap] at hu
          obtain ⟨t, -, ht⟩ := hu
          split at ht
          · simp at ht
          · injection ht with ht; rw [← ht] at hc; simp at hc
  | matched ids =>
    simp only [Rpc.queue, Except.ok.injEq] at hq
    rw [← hq] at hu
    simp only [stateUpdatesFor, List.mem_map] at hu
    obtain ⟨id, hid, rfl⟩ := hu
    exact hid

/-- Queued activations of `k` come from calls that ask for it. -/
theorem activates_of_update {cd : Codec} {cfg : Config} {rpc : Rpc} {us : List StateUpdate}
    (hq : rpc.queue cd cfg = .ok us) {u : StateUpdate} (hu : u ∈ us) (hc : u.cmd = .activate) :
    Activates rpc u.key := by
  cases rpc with
  | create now t =>
    simp only [Rpc.queue] at hq
    cases h : createTicketQueue cd cfg now t with
    | error e => rw [h] at hq; simp [Except.map] at hq
    | ok w =>
      rw [h] at hq
      simp only [Except.map, Except.ok.injEq] at hq
      rw [← hq, List.mem_singleton] at hu
      subst hu
      unfold createTicketQueue at h
      split at h
      · simp at h
      · split at h
        · simp at h
        · injection h with h; rw [← h] at hc; simp at hc
  | setState cmd ids =>
    simp only [Rpc.queue] at hq
    classical
    rw [C15_valid_ids_sent cfg cmd ids us hq] at hu
    obtain ⟨id, hid, rfl⟩ := List.mem_map.1 hu
    dsimp only at hc
    subst hc
    exact (List.mem_filter.1 hid).1
  | assign r =>
    simp only [Rpc.queue, createAssignmentsQueue] at hq
    split at hq
    · simp at hq
    · split at hq
      · simp at hq
      · split at hq
        · simp at hq
        · injection hq with hq
          rw [← hq, List.mem_filterMap] at hu
          obtain ⟨t, -, ht⟩ := hu
          split at ht
          · simp at ht
          · injection ht with ht; rw [← ht] at hc; simp at hc
  | matched ids =>
    simp only [Rpc.queue, Except.ok.injEq] at hq
    rw [← hq] at hu
    simp only [stateUpdatesFor, List.mem_map] at hu
    obtain ⟨id, hid, rfl⟩ := hu
    simp at hc

theorem dash_in_fmt (i : RId) : '-' ∈ i.fmt := by
  unfold RId.fmt fmtReplId
  simp

/-- C69, given that the two calls' answers are true. -/
theorem served_core {cd : Codec} (hl : cd.Lawful) {cfg : Config} {H : Nat} (evs1 evs2 evs3 : List Label) (s1 s2 s3 : St)
    (hp1 : ∀ l ∈ evs1, l.Plausible cfg H) (hp2 : ∀ l ∈ evs2, l.Plausible cfg H) (hp3 : ∀ l ∈ evs3, l.Plausible cfg H)
    (hr1 : run cd cfg init evs1 = some s1) (hr2 : run cd cfg s1 evs2 = some s2) (hr3 : run cd cfg s2 evs3 = some s3)
    (c1 : Nat) (x1 : Call) (now : Int) (t : Ticket) (k : Str) (a1 : AcksOf s1 c1)
    (hc1 : s1.calls c1 = some x1) (hrpc1 : x1.rpc = .create now (some t)) (ho1 : x1.outcome = some (.id k))
    (c2 : Nat) (x2 : Call) (a2 : AcksOf s2 c2) (hn2 : s1.calls c2 = none) (hc2 : s2.calls c2 = some x2)
    (hact : Activates x2.rpc k) (ho2 : x2.outcome = some .ok)
    (hde : ∀ c y, s3.calls c = some y → Deactivates y.rpc k → ∃ x, s1.calls c = some x ∧ x.outcome ≠ none)
    (j : Nat) (pre : List Ev) (m : GoMap Ticket) (hsn : SnapshotOf cd cfg s3 j pre m)
    (hcons : s2.stream.entries.length ≤ (updatesOf pre).length) (hfresh : Fresh cd cfg (s3.insts j).hist k) :
    ∃ ct, m.load k = some ct ∧ ContentOf now t k ct := by
  obtain ⟨es, sn, hhist, hsnap⟩ := hsn
  have b1 := base_run evs1 (base_init cd cfg H) hp1 s1 hr1
  obtain ⟨b2, l12⟩ := later_run evs2 b1 hp2 s2 hr2
  obtain ⟨b3, l23⟩ := later_run evs3 b2 hp3 s3 hr3
  obtain ⟨m12, e12⟩ := l12.entries
  obtain ⟨m23, e23⟩ := l23.entries
  -- the creation
  obtain ⟨u, n1, e1, q1, -, -, g1, f1, d1⟩ := create_acked b1 a1 hc1 hrpc1 ho1
  have hn1 := (List.getElem?_eq_some_iff.1 g1).1
  have hu : u.cmd = .ticket := by
    unfold createTicketQueue at q1
    split at q1
    · simp at q1
    · split at q1
      · simp at q1
      · injection q1 with q1; rw [← q1]
  have g1' : s3.stream.entries[n1]? = some e1 := by
    rw [e23, e12, List.append_assoc, List.getElem?_append_left hn1]; exact g1
  -- the activation
  cases hrpc2 : x2.rpc with
  | create now t => rw [hrpc2] at hact; exact absurd hact (by simp [Activates])
  | assign r => rw [hrpc2] at hact; exact absurd hact (by simp [Activates])
  | matched ids => rw [hrpc2] at hact; exact absurd hact (by simp [Activates])
  | setState cmd ids =>
    have hcmd : cmd = .activate := by
      rw [hrpc2] at hact
      cases cmd <;> first | rfl | simp [Activates] at hact
    subst hcmd
    have hk : k ∈ ids := by rw [hrpc2] at hact; exact hact
    obtain ⟨hq2, hall⟩ := setState_acked b2 a2 hc2 hrpc2 ho2
    classical
    have hin : (⟨.activate, k, []⟩ : StateUpdate) ∈ x2.updates := by
      rw [C15_valid_ids_sent cfg .activate ids _ hq2]
      refine List.mem_map.2 ⟨k, List.mem_filter.2 ⟨hk, ?_⟩, rfl⟩
      simpa using (regexMatches_iff k).2 (by rw [← f1]; exact dash_in_fmt _)
    obtain ⟨n2, e2, hsince, g2, d2⟩ := hall _ hin
    have hn2' := (List.getElem?_eq_some_iff.1 g2).1
    have hge : s1.stream.entries.length ≤ n2 := Nat.le_trans (l12.fresh c2 x2 hc2 hn2) hsince
    have g2' : s3.stream.entries[n2]? = some e2 := by
      rw [e23, List.getElem?_append_left hn2']; exact g2
    -- the history of instance `j`, and its first part
    have hpre : updatesOf pre = (updatesOf (s3.insts j).hist).take (updatesOf pre).length := by
      rw [hhist, updatesOf_append, List.take_left]
    have hlen : (updatesOf pre).length ≤ (updatesOf (s3.insts j).hist).length := by
      rw [hhist, updatesOf_append, List.length_append]; omega
    have hget : ∀ (n : Nat) (e : RId × List Str), n < (updatesOf (s3.insts j).hist).length → s3.stream.entries[n]? = some e →
        (updatesOf (s3.insts j).hist)[n]? = some (decoded e) := by
      intro n e hn he
      obtain ⟨e', h1, h2⟩ := applied_get b3 hn
      rw [he] at h1; injection h1 with h1; subst h1; exact h2
    have hA : (updatesOf (s3.insts j).hist)[n1]? = some ⟨.ticket, k, u.value⟩ := by
      rw [hget n1 e1 (by rw [e12] at hcons; simp at hcons; omega) g1']
      simp [decoded, d1, replicated, hu]
    have hB : (updatesOf (s3.insts j).hist)[n2]? = some ⟨.activate, k, []⟩ := by
      rw [hget n2 e2 (by omega) g2']
      simp [decoded, d2, replicated]
    -- nothing after the activation speaks against it
    have hafter : ∀ (n : Nat) (w : StateUpdate), n2 < n → (updatesOf (s3.insts j).hist)[n]? = some w → w.key = k →
        w.cmd ≠ .ticket ∧ w.cmd ≠ .deactivate := by
      intro n w hn hw hwk
      refine ⟨fun hc => ?_, fun hc => ?_⟩
      · have := creation_unique b3 hw hA hc rfl hwk
        omega
      · obtain ⟨e, h1, h2⟩ := applied_get b3 (List.getElem?_eq_some_iff.1 hw).1
        rw [hw] at h2; injection h2 with h2
        -- the entry was added after `s1`
        obtain ⟨added, ha, hfrom⟩ := added_run (evs2 ++ evs3) b1
          (fun l hl => (List.mem_append.1 hl).elim (hp2 l) (hp3 l)) s3 (by
            rw [run_append, hr2]; exact hr3)
        have hmem : e ∈ added := by
          rw [ha, List.getElem?_append_right (by omega)] at h1
          exact List.mem_of_getElem? h1
        obtain ⟨c, y, v, y1, y2, y3, y4⟩ := hfrom e hmem
        have hdv := decodeEntry_fields y3 e.1
        have hvw : w = replicated v e.1.fmt := by rw [h2]; simp [decoded, hdv]
        have hvc : v.cmd = .deactivate ∧ v.key = k := by
          rw [hvw, replicated_cmd] at hc
          rw [hvw, replicated_key (by rw [hc]; simp)] at hwk
          exact ⟨hc, hwk⟩
        have hyq : y.rpc.queue cd cfg = .ok y.updates := by
          rcases b3.upd c y y1 with h | ⟨h, -⟩
          · exact h
          · rw [h] at y2; simp at y2
        have hd := deactivates_of_update hyq y2 hvc.1
        rw [hvc.2] at hd
        obtain ⟨x, hx, hxo⟩ := hde c y y1 hd
        exact hxo (y4 x hx)
    have hAp : (updatesOf pre)[n1]? = some ⟨.ticket, k, u.value⟩ := by
      rw [hpre, List.getElem?_take, if_pos (by rw [e12] at hcons; simp at hcons; omega)]; exact hA
    have hBp : (updatesOf pre)[n2]? = some ⟨.activate, k, []⟩ := by
      rw [hpre, List.getElem?_take, if_pos (by omega)]; exact hB
    have hlift : ∀ (n : Nat) (w : StateUpdate), (updatesOf pre)[n]? = some w → (updatesOf (s3.insts j).hist)[n]? = some w := by
      intro n w hw
      have hnl := (List.getElem?_eq_some_iff.1 hw).1
      rw [hpre, List.getElem?_take, if_pos hnl] at hw; exact hw
    have hmark := markers_last hBp (fun n w hn hw => hafter n w hn (hlift n w hw))
    have hcreate := creations_last hAp (fun n w hw hc hwk => creation_unique b3 (hlift n w hw) hA hc rfl hwk)
    -- the cache after `pre`
    obtain ⟨-, hvalid⟩ := b3.cache j
    rw [hhist, validEvs_append] at hvalid
    have hf : Fresh cd cfg pre k := by
      intro cy hcy
      obtain ⟨f1, f2, f3⟩ := hfresh cy (by rw [hhist]; exact List.mem_append_left _ hcy)
      refine ⟨f1, f2, fun w hw => f3 w ?_⟩
      rw [hhist, updatesOf_append]; exact List.mem_append_left _ hw
    have hconv := C23_instances_converge cd cfg pre pre k rfl hvalid.1 hvalid.1 hf hf
    obtain ⟨-, -, -, ht, hi, -⟩ := hconv
    obtain ⟨c24a, -, c24c, -⟩ := C24_life_cycle cd (updatesOf pre) k
    have hactive : Active (updatesOf pre) k := ⟨by
      intro hnil; rw [hnil] at hcreate; simp at hcreate, hmark⟩
    have hcont : content cd (updatesOf pre) k = some { cd.decT u.value with id := k } := by
      simp [content, hcreate]
    have htick : (runEvs cd cfg Cache.empty pre).tickets.load k = some { cd.decT u.value with id := k } := by
      rw [ht]; rw [c24c]; exact hcont
    have hinact : (runEvs cd cfg Cache.empty pre).inactive.load k = none := by
      rw [hi]
      have wf : (List.foldl (applyUpdate cd) Cache.empty (updatesOf pre)).WF := by
        have := WF_runEvs (cd := cd) (cfg := cfg) WF_empty ((updatesOf pre).map Ev.upd)
        simp only [runEvs, List.foldl_map] at this
        exact this
      rw [candidates_load wf, if_pos hactive, hcont] at c24a
      split at c24a
      · simp at c24a
      · rename_i hn
        cases hz : (List.foldl (applyUpdate cd) Cache.empty (updatesOf pre)).inactive.load k with
        | none => rfl
        | some v => simp [proj, hz] at hn
    refine ⟨{ cd.decT u.value with id := k }, ?_, ?_⟩
    · refine C27_active_stays_in cd cfg _ es k _ hinact htick hvalid.2 ?_ ?_ sn m hsnap
      · intro w hw hwk
        obtain ⟨n, hn⟩ := List.mem_iff_getElem?.1 hw
        refine hafter ((updatesOf pre).length + n) w (by omega) ?_ hwk
        rw [hhist, updatesOf_append, List.getElem?_append_right (by omega)]
        simpa using hn
      · intro cy hcy
        exact (hfresh cy (by rw [hhist]; exact List.mem_append_right _ hcy)).2.2 ⟨.ticket, k, u.value⟩
          (List.mem_of_getElem? hA) rfl rfl
    · obtain ⟨ct, d, cr, h1, h2, h3⟩ := C06_stored_content cd hl cfg now t u q1 Cache.empty k
      have : ct = { cd.decT u.value with id := k } := by
        have hp := congrArg KState.t (applyUpdate_proj cd Cache.empty (replicated u k) k)
        simp only [replicated, hu, if_true] at hp
        change (applyUpdate cd Cache.empty ⟨.ticket, k, u.value⟩).tickets.load k = _ at hp
        simp only [replicated, hu] at h1
        rw [hp] at h1
        injection h1 with h1
        exact h1.symm
      subst this
      exact ⟨h2, d, cr, h3⟩

/-- **C69 (served).** Partial: as C70, in executions in which no batch loses its
connection and all queued updates are acceptable to Redis (`C69_refuted` otherwise);
while the ticket is served nothing is assumed about connections. -/
theorem C69_created_and_activated_is_served_partial (cd : Codec) (hl : cd.Lawful) (cfg : Config) (H : Nat) :
    C69Statement cd cfg H (Label.Healthy cd cfg H) := by
  intro evs1 evs2 evs3 s1 s2 s3 hh hp3 hr1 hr2 hr3 c1 x1 now t k hc1 hrpc1 ho1 c2 x2 hn2 hc2 hact ho2 hde j pre m hsn
    hcons hfresh
  obtain ⟨b1, a1⟩ := acks_run evs1 (base_init cd cfg H) acks_init
    (fun l hl => hh l (List.mem_append_left _ hl)) s1 hr1
  obtain ⟨b2, a2⟩ := acks_run evs2 b1 a1 (fun l hl => hh l (List.mem_append_right _ hl)) s2 hr2
  exact served_core hl evs1 evs2 evs3 s1 s2 s3 (fun l hl => (hh l (List.mem_append_left _ hl)).1)
    (fun l hl => (hh l (List.mem_append_right _ hl)).1) hp3 hr1 hr2 hr3 c1 x1 now t k (a1.of c1) hc1 hrpc1 ho1 c2 x2
    (a2.of c2) hn2 hc2 hact ho2 hde j pre m hsn hcons hfresh

/-- **C69 (not before).** Partial: a snapshot that overlaps the application of the creation
itself is excluded (`C25_race_refuted`).  Once an instance has applied a creation of `k`,
no later snapshot holds `k` unless the instance has by then applied an activation of `k`,
and a client had asked for that activation. -/
theorem C69_not_before_activation_partial (cd : Codec) (cfg : Config) (H : Nat) (evs : List Label) (s : St)
    (hp : ∀ l ∈ evs, l.Plausible cfg H) (hr : run cd cfg init evs = some s)
    (j : Nat) (before : List Ev) (u : StateUpdate) (after : List Ev) (hu : u.cmd = .ticket)
    (hh : (s.insts j).hist = before ++ .upd u :: after)
    (sn : Snap) (m : GoMap Ticket)
    (hm : IsSnapshot (runEvs cd cfg Cache.empty (before ++ [.upd u]))
      (traceOps cd cfg (runEvs cd cfg Cache.empty (before ++ [.upd u])) after) sn m)
    (t : Ticket) (hload : m.load u.key = some t) :
    (∃ w ∈ updatesOf after, w.cmd = .activate ∧ w.key = u.key) ∧
    ∃ c x, s.calls c = some x ∧ Activates x.rpc u.key := by
  have hb := base_run evs (base_init cd cfg H) hp s hr
  have hA : (updatesOf (s.insts j).hist)[(updatesOf before).length]? = some u := by
    rw [hh]; simp [updatesOf]
  have hafter : ∃ w ∈ updatesOf after, w.cmd = .activate ∧ w.key = u.key := by
    by_contra hno
    obtain ⟨-, hv⟩ := hb.cache j
    rw [hh, validEvs_append] at hv
    have e1 : runEvs cd cfg Cache.empty (before ++ [.upd u]) =
        applyUpdate cd (runEvs cd cfg Cache.empty before) u := by
      rw [runEvs_append]; rfl
    rw [e1] at hm
    have := C25_not_before_activation_partial cd cfg (runEvs cd cfg Cache.empty before) u hu after hv.2.2
      (fun w hw hwk => ⟨fun hc => ?_, fun hc => hno ⟨w, hw, hc, hwk⟩⟩) sn m hm
    · rw [this] at hload; simp at hload
    · obtain ⟨n, hn⟩ := List.mem_iff_getElem?.1 hw
      have hW : (updatesOf (s.insts j).hist)[(updatesOf before).length + 1 + n]? = some w := by
        rw [hh, updatesOf_append, List.getElem?_append_right (by omega)]
        have : (updatesOf before).length + 1 + n - (updatesOf before).length = n + 1 := by omega
        rw [this]
        simpa [updatesOf] using hn
      have := creation_unique hb hW hA hc hu hwk
      omega
  refine ⟨hafter, ?_⟩
  obtain ⟨w, hw, hwc, hwk⟩ := hafter
  have hmem : w ∈ updatesOf (s.insts j).hist := by
    rw [hh, updatesOf_append]
    refine List.mem_append_right _ ?_
    simp only [updatesOf, List.filterMap_cons]
    exact List.mem_cons_of_mem _ hw
  obtain ⟨n, hn⟩ := List.mem_iff_getElem?.1 hmem
  obtain ⟨e, h1, h2⟩ := applied_get hb (List.getElem?_eq_some_iff.1 hn).1
  rw [hn] at h2; injection h2 with h2
  obtain ⟨c, x, v, hx, hvx, hf⟩ := hb.prov e (List.mem_of_getElem? h1)
  have hdv := decodeEntry_fields hf e.1
  have hvw : w = replicated v e.1.fmt := by rw [h2]; simp [decoded, hdv]
  have hvc : v.cmd = .activate ∧ v.key = u.key := by
    rw [hvw, replicated_cmd] at hwc
    rw [hvw, replicated_key (by rw [hwc]; simp)] at hwk
    exact ⟨hwc, hwk⟩
  have hxq : x.rpc.queue cd cfg = .ok x.updates := by
    rcases hb.upd c x hx with h | ⟨h, -⟩
    · exact h
    · rw [h] at hvx; simp at hvx
  refine ⟨c, x, hx, ?_⟩
  rw [← hvc.2]
  exact activates_of_update hxq hvx hvc.1

/-! ## C03, and pools -/

/-- Every ticket a snapshot holds was created by an applied update. -/
private theorem snapshot_from {cd : Codec} {cfg : Config} {pre es : List Ev}
    (hv : ValidEvs cd cfg Cache.empty (pre ++ es)) {sn : Snap} {m : GoMap Ticket}
    (hm : IsSnapshot (runEvs cd cfg Cache.empty pre) (traceOps cd cfg (runEvs cd cfg Cache.empty pre) es) sn m)
    {k : Str} {t : Ticket} (h : m.load k = some t) :
    ∃ u ∈ updatesOf (pre ++ es), u.cmd = .ticket ∧ u.key = k ∧ t = { cd.decT u.value with id := k } := by
  let Q : Cache → Prop := fun c => ∀ k t, c.tickets.load k = some t →
    ∃ u ∈ updatesOf (pre ++ es), u.cmd = .ticket ∧ u.key = k ∧ t = { cd.decT u.value with id := k }
  have hdel : ∀ (c : Cache) (k : Str), Q c → Q ((MOp.delTicket k).run c) := by
    intro c k hc k' t' h'
    simp only [MOp.run, GoMap.load_delete] at h'
    split at h'
    · simp at h'
    · exact hc k' t' h'
  have hall : AllPre Q Cache.empty (traceOps cd cfg Cache.empty (pre ++ es)) := by
    refine trace_allPre _ _ (by intro k t h; simp [Cache.empty] at h) hv ?_
    intro e he c hc _
    cases e with
    | expire cy =>
      refine cycle_allPre cfg cy c hc hdel ?_ ?_
      · intro c k hc; exact hc
      · intro c k hc; exact hc
    | upd u =>
      have hu : u ∈ updatesOf (pre ++ es) := by
        simp only [updatesOf, List.mem_filterMap]; exact ⟨_, he, rfl⟩
      refine allPre_of_step hc ?_
      intro o ho c hc
      simp only [evOps, updateOps] at ho
      cases hcmd : u.cmd <;> simp [hcmd] at ho
      · rcases ho with rfl | rfl
        · exact hc
        · intro k' t' h'
          simp only [MOp.run, GoMap.load_store] at h'
          split at h'
          · rename_i hk
            injection h' with h'
            exact ⟨u, hu, hcmd, hk.symm, by rw [← h', hk]⟩
          · exact hc k' t' h'
      all_goals subst ho; exact hc
  obtain ⟨-, -, h3⟩ := hm
  rw [h3] at h
  unfold snapLoad at h
  split at h
  · simp at h
  · have e : cacheAt (runEvs cd cfg Cache.empty pre) (traceOps cd cfg (runEvs cd cfg Cache.empty pre) es) (sn.r2 k) =
        cacheAt Cache.empty (traceOps cd cfg Cache.empty (pre ++ es))
          ((traceOps cd cfg Cache.empty pre).length + sn.r2 k) := by
      rw [traceOps_append, cacheAt_append_right, runOps_traceOps]
    rw [e] at h
    exact hall _ k t h

/-- Tickets of snapshots have the content of a ticket some client asked to create. -/
theorem snapshot_tickets_are_created {cd : Codec} {cfg : Config} {H : Nat} {s : St} (hb : Base cd cfg H s)
    {j : Nat} {pre : List Ev} {m : GoMap Ticket} (hm : SnapshotOf cd cfg s j pre m) {k : Str} {ct : Ticket}
    (h : m.load k = some ct) :
    ∃ c x now t b, s.calls c = some x ∧ x.rpc = .create now (some t) ∧
      cd.encT (builtTicket cfg now t) = some b ∧ ct = { cd.decT b with id := k } := by
  obtain ⟨es, sn, hh, hsn⟩ := hm
  have hv := (hb.cache j).2
  rw [hh] at hv
  obtain ⟨w, hw, hwc, -, rfl⟩ := snapshot_from hv hsn h
  rw [← hh] at hw
  obtain ⟨n, hn⟩ := List.mem_iff_getElem?.1 hw
  obtain ⟨e, h1, h2⟩ := applied_get hb (List.getElem?_eq_some_iff.1 hn).1
  rw [hn] at h2; injection h2 with h2
  obtain ⟨c, x, v, hx, hvx, hf⟩ := hb.prov e (List.mem_of_getElem? h1)
  have hdv := decodeEntry_fields hf e.1
  have hvw : w = replicated v e.1.fmt := by rw [h2]; simp [decoded, hdv]
  have hvc : v.cmd = .ticket := by rw [hvw, replicated_cmd] at hwc; exact hwc
  have hval : w.value = v.value := by rw [hvw]; simp [replicated, hvc]
  have hxq : x.rpc.queue cd cfg = .ok x.updates := by
    rcases hb.upd c x hx with h | ⟨h, -⟩
    · exact h
    · rw [h] at hvx; simp at hvx
  rw [hval]
  cases hrpc : x.rpc with
  | create now t =>
    rw [hrpc] at hxq
    simp only [Rpc.queue] at hxq
    cases t with
    | none => simp [createTicketQueue, Except.map] at hxq
    | some t =>
      simp only [createTicketQueue] at hxq
      cases hb : cd.encT (builtTicket cfg now t) with
      | none => simp [hb, Except.map] at hxq
      | some b =>
        simp only [hb, Except.map, Except.ok.injEq] at hxq
        rw [← hxq, List.mem_singleton] at hvx
        exact ⟨c, x, now, t, b, hx, hrpc, hb, by rw [hvx]⟩
  | setState cmd ids =>
    rw [hrpc] at hxq
    simp only [Rpc.queue] at hxq
    classical
    rw [C15_valid_ids_sent cfg cmd ids _ hxq] at hvx
    obtain ⟨id, hid, rfl⟩ := List.mem_map.1 hvx
    dsimp only at hvc
    subst hvc
    simp [redisFields] at hf
  | assign r =>
    rw [hrpc] at hxq
    simp only [Rpc.queue, createAssignmentsQueue] at hxq
    split at hxq
    · simp at hxq
    · split at hxq
      · simp at hxq
      · split at hxq
        · simp at hxq
        · injection hxq with hxq
          rw [← hxq, List.mem_filterMap] at hvx
          obtain ⟨t, -, ht⟩ := hvx
          split at ht
          · simp at ht
          · injection ht with ht; rw [← ht] at hvc; simp at hvc
  | matched ids =>
    rw [hrpc] at hxq
    simp only [Rpc.queue, Except.ok.injEq] at hxq
    rw [← hxq] at hvx
    simp only [stateUpdatesFor, List.mem_map] at hvx
    obtain ⟨id, hid, rfl⟩ := hvx
    simp at hvc

/-- Tickets of snapshots are under the id of a stream entry. -/
theorem snapshot_key {cd : Codec} {cfg : Config} {H : Nat} {s : St} (hb : Base cd cfg H s)
    {j : Nat} {pre : List Ev} {m : GoMap Ticket} (hm : SnapshotOf cd cfg s j pre m) {k : Str} {ct : Ticket}
    (h : m.load k = some ct) : ∃ e ∈ s.stream.entries, k = e.1.fmt := by
  obtain ⟨es, sn, hh, hsn⟩ := hm
  have hv := (hb.cache j).2
  rw [hh] at hv
  obtain ⟨w, hw, hwc, hwk, -⟩ := snapshot_from hv hsn h
  rw [← hh] at hw
  obtain ⟨n, hn⟩ := List.mem_iff_getElem?.1 hw
  obtain ⟨e, h1, h2⟩ := applied_get hb (List.getElem?_eq_some_iff.1 hn).1
  rw [hn] at h2; injection h2 with h2
  obtain ⟨c, x, v, hx, hvx, hf⟩ := hb.prov e (List.mem_of_getElem? h1)
  have hdv := decodeEntry_fields hf e.1
  have hvw : w = replicated v e.1.fmt := by rw [h2]; simp [decoded, hdv]
  have hvc : v.cmd = .ticket := by rw [hvw, replicated_cmd] at hwc; exact hwc
  refine ⟨e, List.mem_of_getElem? h1, ?_⟩
  rw [← hwk, hvw]
  simp [replicated, hvc]

/-- Tickets of snapshots have attributes. -/
theorem snapshot_attributes {cd : Codec} (hl : cd.Lawful) {cfg : Config} {H : Nat} {s : St} (hb : Base cd cfg H s)
    {j : Nat} {pre : List Ev} {m : GoMap Ticket} (hm : SnapshotOf cd cfg s j pre m) {k : Str} {ct : Ticket}
    (h : m.load k = some ct) : ct.attributes.isSome := by
  obtain ⟨c, x, now, t, b, -, -, he, rfl⟩ := snapshot_tickets_are_created hb hm h
  have := (hl.ticket _ _ he).attributes
  show (cd.decT b).attributes.isSome
  cases hd : (cd.decT b).attributes with
  | none => rw [hd] at this; simp [builtTicket, SameOpt] at this
  | some d => rfl

/-- **C03.** In every execution, at every instance, evaluating any pool against any ticket
of any snapshot gives an answer. -/
theorem C03_cached_tickets_never_panic (cd : Codec) (hl : cd.Lawful) (cfg : Config) (H : Nat)
    (evs : List Label) (s : St) (hp : ∀ l ∈ evs, l.Plausible cfg H) (hr : run cd cfg init evs = some s)
    (j : Nat) (pre : List Ev) (m : GoMap Ticket) (hm : SnapshotOf cd cfg s j pre m)
    (k : Str) (t : Ticket) (h : m.load k = some t) (p : Pool) : (Filter.In (some p) (some t)).isSome :=
  C03_filtering_never_panics p t (snapshot_attributes hl (base_run evs (base_init cd cfg H) hp s hr) hm h)

/-- **C69 (in the pools).** In every execution, when instance `j` invokes an MMF for
profile `p` on a snapshot holding `k` with content `ct`, the MMF receives `ct` in every
pool (with legal times) whose filters admit it. -/
theorem C69_served_means_in_matching_pools (cd : Codec) (hl : cd.Lawful) (cfg : Config) (H : Nat)
    (evs : List Label) (s : St) (hp : ∀ l ∈ evs, l.Plausible cfg H) (hr : run cd cfg init evs = some s)
    (j : Nat) (pre : List Ev) (m : GoMap Ticket) (hm : SnapshotOf cd cfg s j pre m)
    (k : Str) (ct : Ticket) (h : m.load k = some ct)
    (p : Profile) (hwf : p.pools.WF) (work : List (Ticket × List Str)) (hw : WorkFor p (m.map (·.2)) work)
    (n : Str) (pool : Pool) (hn : p.pools.load n = some pool) (hbad : ¬ BadTimes pool)
    (hin : Filter.In (some pool) (some ct) = some true) :
    ∃ sent, chunkedRequest p work = some sent ∧
      (sent.length < 2 ^ 31 → ∀ got rest, List.Forall₂ Received sent got →
        ∃ q sp r, getChunkedRequest (got ++ rest) = some (.profile (some q), rest) ∧
          q.pools.load n = some sp ∧ sp.participants = some r ∧ ct ∈ r.tickets) := by
  have hb := base_run evs (base_init cd cfg H) hp s hr
  have hmwf : m.WF := by obtain ⟨es, sn, -, h⟩ := hm; exact h.2.1
  have hattr : ∀ t ∈ m.map (·.2), t.attributes.isSome := by
    intro t ht
    obtain ⟨⟨k', t'⟩, hkt, rfl⟩ := List.mem_map.1 ht
    exact snapshot_attributes hl hb hm (GoMap.load_of_mem hmwf hkt)
  obtain ⟨sent, h1, h2⟩ := C38_mmf_receives_exactly_the_matching_tickets p hwf (m.map (·.2)) hattr work hw
  refine ⟨sent, h1, fun hlen got rest hg => ?_⟩
  obtain ⟨q, q1, q2, -⟩ := h2 hlen got rest hg
  have hmem : ct ∈ participants pool (m.map (·.2)) := by
    refine List.mem_filter.2 ⟨List.mem_map.2 ⟨(k, ct), GoMap.mem_of_load h, rfl⟩, ?_⟩
    simpa using hin
  obtain ⟨sp, r, r1, r2, r3⟩ := q2 n pool hn hbad (List.ne_nil_of_mem hmem)
  exact ⟨q, sp, r, q1, r1, r2, by rw [r3]; exact hmem⟩

/-! ## Which calls queue only acceptable updates -/

/-- Calls whose updates Redis accepts: all but an empty assignment message (which
marshals to no bytes) and a match with a ticket without id. -/
def Benign : Rpc → Prop
  | .create _ _ => True
  | .setState cmd _ => cmd = .activate ∨ cmd = .deactivate
  | .assign r => ∀ ro a, r = some ro → ro.assignment = some a → a.connection ≠ [] ∨ a.extensions ≠ []
  | .matched ids => ∀ k ∈ ids, k ≠ []

private theorem varint_ne_nil (n : Nat) : Wire.varint n ≠ [] := by
  unfold Wire.varint
  cases n.log2 / 7 with
  | zero => simp [Wire.varintF]
  | succ f => unfold Wire.varintF; split <;> simp

private theorem ser_ne_nil {fs : List Wire.Field} (h : fs ≠ []) : Wire.ser fs ≠ [] := by
  cases fs with
  | nil => exact absurd rfl h
  | cons f fs =>
    obtain ⟨i, v⟩ := f
    have := varint_ne_nil
    cases v <;> simp [Wire.ser, Wire.encField, this]

/-- With protobuf's wire format, benign calls meet the condition `Accepted` of C69, C70. -/
theorem benign_accepted (cfg : Config) (c i : Nat) (rpc : Rpc) (h : Benign rpc) :
    (Label.call c i rpc).Accepted Wire.codec cfg := by
  intro us hq u hu
  cases rpc with
  | create now t =>
    cases t with
    | none => simp [Rpc.queue, createTicketQueue, Except.map] at hq
    | some t =>
      simp only [Rpc.queue, createTicketQueue] at hq
      cases he : Wire.codec.encT (builtTicket cfg now t) with
      | none => simp [he, Except.map] at hq
      | some b =>
        simp only [he, Except.map, Except.ok.injEq] at hq
        rw [← hq, List.mem_singleton] at hu
        subst hu
        simp only [Wire.codec] at he
        split at he
        · injection he with he
          show b ≠ []
          rw [← he]
          apply ser_ne_nil
          simp [Wire.ticketF, builtTicket, Wire.msgField]
        · simp at he
  | setState cmd ids =>
    have hq' := C16_well_formed_sent_partial cfg cmd ids us hq
    classical
    have hus := C15_valid_ids_sent cfg cmd ids us hq
    have hkey := (hq'.2.1 u hu).2
    have hne : u.key ≠ [] := by intro h; rw [h] at hkey; simp at hkey
    rw [hus] at hu
    obtain ⟨k, -, rfl⟩ := List.mem_map.1 hu
    rcases h with rfl | rfl <;> exact hne
  | assign r =>
    simp only [Rpc.queue, createAssignmentsQueue] at hq
    cases r with
    | none => simp at hq
    | some ro =>
      dsimp only at hq
      cases ha : ro.assignment with
      | none => simp [ha] at hq
      | some a =>
        simp only [ha] at hq
        cases he : Wire.codec.encA a with
        | none => simp [he] at hq
        | some b =>
          simp only [he, Except.ok.injEq] at hq
          rw [← hq, List.mem_filterMap] at hu
          obtain ⟨t, -, ht⟩ := hu
          split at ht
          · simp at ht
          · rename_i hid
            injection ht with ht
            rw [← ht]
            refine ⟨hid, ?_⟩
            simp only [Wire.codec] at he
            split at he
            · injection he with he
              show b ≠ []
              rw [← he]
              apply ser_ne_nil
              rcases h ro a rfl ha with h | h
              · simp [Wire.assignmentF, Wire.strField, h]
              · simp [Wire.assignmentF, Wire.extF, Wire.mapField, h]
            · simp at he
  | matched ids =>
    simp only [Rpc.queue, Except.ok.injEq] at hq
    rw [← hq] at hu
    simp only [stateUpdatesFor, List.mem_map] at hu
    obtain ⟨k, hk, rfl⟩ := hu
    exact h k hk

/-! ## Sample executions -/

def reqA : Ticket := ⟨[], none, some ⟨["a".toList], [], [], none⟩, []⟩
def reqB : Ticket := ⟨[], none, some ⟨["b".toList], [], [], none⟩, []⟩
def startNs : Int := 1700000000000000000

/-- Ticket A is created at instance 0, in one batch with an assignment. -/
def evsCreate : List Label :=
  [.start 0, .start 1, .call 0 0 (.create startNs (some reqA)), .submit 0 (okEnv 1),
   .call 7 0 (.assign (some ⟨[], some ⟨"h:1".toList, []⟩, [⟨"5-1".toList, none, none, []⟩], []⟩)), .submit 7 (okEnv 2),
   .timeout 0 (okEnv 2), .finish 0 []]
def idA : Str := "1700000000000-0".toList
/-- It is activated at instance 1; instance 0 crashes meanwhile. -/
def evsActivate : List Label :=
  [.call 1 1 (.setState .activate [idA]), .crash 0, .submit 1 (okEnv 1), .timeout 1 (okEnv 1), .finish 1 []]
/-- Both instances catch up, after instance 0 has restarted. -/
def evsRead : List Label :=
  [.start 0, .poll 0, .apply 0, .pollLag 1 1, .pollLag 1 0, .poll 1, .apply 0, .apply 0, .apply 1, .apply 1, .apply 1]

/-- What the caller of `c` was told. -/
def told (s : St) (c : Nat) : Option Str :=
  match s.calls c with
  | some x => (match x.outcome with | some (.id k) => some k | some .ok => some "OK".toList | _ => none)
  | none => none

theorem told_id {s : St} {c : Nat} {k : Str} (h : told s c = some k) (hk : k ≠ "OK".toList) :
    ∃ x, s.calls c = some x ∧ x.outcome = some (.id k) := by
  unfold told at h
  split at h
  · rename_i x hx
    refine ⟨x, hx, ?_⟩
    split at h
    · rename_i k' hk'; injection h with h; subst h; exact hk'
    · injection h with h; exact absurd h.symm hk
    · simp at h
  · simp at h

/-- The texts of a label, looked at. -/
def readableB : Label → Bool
  | .call _ _ (.setState _ ids) => ids.all Wire.utf8Valid
  | .submit _ env => env.cmds.all fun c => c.fail.all Wire.utf8Valid
  | .timeout _ env => env.cmds.all fun c => c.fail.all Wire.utf8Valid
  | _ => true

theorem readable_of {l : Label} (h : readableB l = true) : l.Readable := by
  have henv : ∀ env : SendEnv, (env.cmds.all fun c => c.fail.all Wire.utf8Valid) = true →
      ∀ c ∈ env.cmds, ∀ e, c.fail = some e → IsText e := by
    intro env he c hc e hf
    have := List.all_eq_true.1 he c hc
    rw [hf] at this
    exact (Wire.utf8Valid_iff e).1 this
  cases l with
  | call c i rpc =>
    cases rpc with
    | setState cmd ids => exact fun id hid => (Wire.utf8Valid_iff id).1 (List.all_eq_true.1 h id hid)
    | _ => trivial
  | submit c env => exact henv env h
  | timeout i env => exact henv env h
  | _ => trivial

theorem okEnv_readable (n : Nat) : ∀ c ∈ (okEnv n).cmds, ∀ e, c.fail = some e → IsText e := by
  intro c hc e he
  rw [(List.mem_replicate.1 hc).2] at he
  simp at he

theorem okEnv_plausible (n : Nat) : (okEnv n).Plausible Config.default 1600000000000 := by
  refine ⟨fun c hc => ?_, ?_⟩
  · rw [(List.mem_replicate.1 hc).2]; decide
  · show (1700000000 : Int) - 600 ≤ 1600000000000
    decide

/-- C79: instance 0 dies, and instance 1, which has a call to serve, goes on. -/
example : (run Wire.codec Config.default init (evsCreate ++ evsActivate)).map
      (fun s => (s.panics, (s.insts 0).up, (s.insts 1).up)) = some ([], false, true) ∧
    (∀ l ∈ evsActivate, ¬ l.Kills 1) := by
  refine ⟨by decide +kernel, ?_⟩
  intro l hl
  simp only [evsActivate, List.mem_cons, List.not_mem_nil, or_false] at hl
  rcases hl with rfl | rfl | rfl | rfl | rfl <;> simp [Label.Kills]

/-- A case of C69 and C70: ticket A is created and activated as above, an instance
crashes and restarts, and both instances serve it. -/
example : ∃ s1 s2 s3 : St,
    (∀ l ∈ evsCreate ++ evsActivate, l.Healthy Wire.codec Config.default 1600000000000) ∧
    (∀ l ∈ evsRead, l.Plausible Config.default 1600000000000) ∧
    run Wire.codec Config.default init evsCreate = some s1 ∧
    run Wire.codec Config.default s1 evsActivate = some s2 ∧ run Wire.codec Config.default s2 evsRead = some s3 ∧
    told s1 0 = some idA ∧ (s1.calls 1).isNone ∧ told s2 1 = some "OK".toList ∧
    (∀ j < 2, s2.stream.entries.length ≤ (updatesOf (s3.insts j).hist).length) := by
  have h1 : (run Wire.codec Config.default init evsCreate).map (fun s => (told s 0, (s.calls 1).isNone)) =
      some (some idA, true) := by decide +kernel
  have h2 : (run Wire.codec Config.default init (evsCreate ++ evsActivate)).map
      (fun s => (told s 1, s.stream.entries.length)) = some (some "OK".toList, 3) := by decide +kernel
  have h3 : (run Wire.codec Config.default init (evsCreate ++ evsActivate ++ evsRead)).map
      (fun s => ((updatesOf (s.insts 0).hist).length, (updatesOf (s.insts 1).hist).length)) = some (3, 3) := by
    decide +kernel
  obtain ⟨s1, r1, e1⟩ := Option.map_eq_some_iff.1 h1
  obtain ⟨s2, r2, e2⟩ := Option.map_eq_some_iff.1 h2
  obtain ⟨s3, r3, e3⟩ := Option.map_eq_some_iff.1 h3
  rw [Prod.mk.injEq] at e1 e2 e3
  rw [run_append, r2] at r3
  rw [run_append, r1] at r2
  refine ⟨s1, s2, s3, ?_, ?_, r1, r2, r3, e1.1, e1.2, e2.1, ?_⟩
  · have hpl := okEnv_plausible
    intro l hl
    simp only [evsCreate, evsActivate, List.cons_append, List.nil_append, List.mem_cons, List.not_mem_nil, or_false] at hl
    rcases hl with rfl | rfl | rfl | rfl | rfl | rfl | rfl | rfl | rfl | rfl | rfl | rfl | rfl
    · exact ⟨trivial, trivial, trivial, trivial⟩
    · exact ⟨trivial, trivial, trivial, trivial⟩
    · exact ⟨trivial, trivial, benign_accepted _ _ _ _ trivial, readable_of (by decide +kernel)⟩
    · exact ⟨hpl 1, rfl, trivial, okEnv_readable _⟩
    · refine ⟨trivial, trivial, benign_accepted _ _ _ _ ?_, readable_of (by decide +kernel)⟩
      intro ro a h1 h2
      injection h1 with h1; subst h1
      injection h2 with h2; subst h2
      left; decide
    · exact ⟨hpl 2, rfl, trivial, okEnv_readable _⟩
    · exact ⟨hpl 2, rfl, trivial, okEnv_readable _⟩
    · exact ⟨trivial, trivial, trivial, trivial⟩
    · exact ⟨trivial, trivial, benign_accepted _ _ _ _ (Or.inl rfl), readable_of (by decide +kernel)⟩
    · exact ⟨trivial, trivial, trivial, trivial⟩
    · exact ⟨hpl 1, rfl, trivial, okEnv_readable _⟩
    · exact ⟨hpl 1, rfl, trivial, okEnv_readable _⟩
    · exact ⟨trivial, trivial, trivial, trivial⟩
  · intro l hl
    simp only [evsRead, List.mem_cons, List.not_mem_nil, or_false] at hl
    rcases hl with rfl | rfl | rfl | rfl | rfl | rfl | rfl | rfl | rfl | rfl | rfl <;> trivial
  · intro j hj
    rw [e2.2]
    have : j = 0 ∨ j = 1 := by omega
    rcases this with rfl | rfl
    · rw [e3.1]
    · rw [e3.2]

/-! ## What goes wrong -/

/-- A batch sent over a connection that fails before the server executes anything. -/
def lostEnv : SendEnv := { okEnv 1 with lost := some 0 }

def evsLost : List Label :=
  [.start 0, .call 0 0 (.create startNs (some reqA)), .submit 0 (okEnv 1), .timeout 0 lostEnv, .finish 0 []]

/-- **C70 is false of the code** when a connection to Redis fails: `SendUpdates` returns
responses without error (redis.go:188-192 only logs), so the caller is told success for
an update that is nowhere. -/
theorem C70_lost_connection_refuted :
    ¬ C70Statement Wire.codec Config.default 1600000000000
      (fun l => l.Plausible Config.default 1600000000000 ∧ l.Accepted Wire.codec Config.default) ToldSuccess := by
  intro h
  have h1 : (run Wire.codec Config.default init evsLost).map (fun s => (told s 0, s.stream.entries.length,
      (s.calls 0).map fun x => x.updates.length)) = some (some [], 0, some 1) := by decide +kernel
  obtain ⟨s, r, e⟩ := Option.map_eq_some_iff.1 h1
  rw [Prod.mk.injEq, Prod.mk.injEq] at e
  obtain ⟨x, hx, ho⟩ := told_id e.1 (by decide)
  have hb := base_run evsLost (base_init Wire.codec Config.default 1600000000000) (by
    intro l hl
    simp only [evsLost, List.mem_cons, List.not_mem_nil, or_false] at hl
    rcases hl with rfl | rfl | rfl | rfl | rfl
    · trivial
    · trivial
    · exact okEnv_plausible 1
    · exact okEnv_plausible 1
    · trivial) s r
  have hrpc : ∃ now t, x.rpc = .create now t := by
    rcases hb.fin 0 x _ hx ho with h | ⟨-, e, -, h⟩ | ⟨-, order, h⟩
    · cases h
    · cases h
    · cases hc : x.rpc with
      | create now t => exact ⟨now, t, rfl⟩
      | setState cmd ids =>
        simp only [Call.result, hc, Option.bind_eq_some_iff] at h
        obtain ⟨_, -, h⟩ := h
        split at h
        · injection h with h; split at h <;> cases h
        · simp at h
      | assign r =>
        simp only [Call.result, hc, createAssignmentsReturn] at h
        injection h with h; cases h
      | matched ids => simp only [Call.result, hc] at h; injection h with h; cases h
  obtain ⟨now, t, hrpc⟩ := hrpc
  have hlen := e.2.2
  rw [hx] at hlen
  simp only [Option.map_some, Option.some.injEq] at hlen
  obtain ⟨u, hu⟩ := List.exists_mem_of_length_pos (show 0 < x.updates.length by omega)
  obtain ⟨n, en, -, hsurv⟩ := h evsLost s (by
    intro l hl
    simp only [evsLost, List.mem_cons, List.not_mem_nil, or_false] at hl
    rcases hl with rfl | rfl | rfl | rfl | rfl
    · exact ⟨trivial, trivial⟩
    · exact ⟨trivial, benign_accepted _ _ _ _ trivial⟩
    · exact ⟨okEnv_plausible 1, trivial⟩
    · exact ⟨okEnv_plausible 1, trivial⟩
    · exact ⟨trivial, trivial⟩) r 0 x hx (Or.inl ⟨now, t, [], hrpc, ho⟩) u hu
  have := (hsurv [] s (by simp) rfl).1
  rw [List.length_eq_zero_iff.1 e.2.1] at this
  simp at this

/-- The one XADD of the batch fails. -/
def failEnv : SendEnv := ⟨[⟨1700000000000, some "OOM".toList⟩], 1700000000, none, none⟩

def evsAssign : List Label :=
  [.start 0, .call 0 0 (.assign (some ⟨[], some ⟨"h:1".toList, []⟩, [⟨"5-1".toList, none, none, []⟩], []⟩)),
   .submit 0 (okEnv 1), .timeout 0 failEnv, .finish 0 []]

/-- **C70 is false of the code** for CreateAssignments, even with working connections:
it returns OK whatever the store answered (C19, C57). -/
theorem C70_assignments_refuted :
    ¬ C70Statement Wire.codec Config.default 1600000000000 (Label.Healthy Wire.codec Config.default 1600000000000)
      (fun x => ∃ r, x.rpc = .assign r ∧ x.outcome = some .ok) := by
  intro h
  let isAssign : Call → Bool := fun x => match x.rpc, x.outcome with | .assign _, some .ok => true | _, _ => false
  have h1 : (run Wire.codec Config.default init evsAssign).map (fun s => (s.stream.entries.length,
      (s.calls 0).map fun x => (isAssign x, x.updates.length))) = some (0, some (true, 1)) := by decide +kernel
  obtain ⟨s, r, e⟩ := Option.map_eq_some_iff.1 h1
  rw [Prod.mk.injEq] at e
  obtain ⟨x, hx, e2⟩ := Option.map_eq_some_iff.1 e.2
  rw [Prod.mk.injEq] at e2
  have htold : ∃ r, x.rpc = .assign r ∧ x.outcome = some .ok := by
    have := e2.1
    simp only [isAssign] at this
    split at this
    · rename_i r a b; exact ⟨r, a, b⟩
    · simp at this
  obtain ⟨u, hu⟩ := List.exists_mem_of_length_pos (show 0 < x.updates.length by rw [e2.2]; decide)
  obtain ⟨n, en, -, hsurv⟩ := h evsAssign s (by
    intro l hl
    simp only [evsAssign, List.mem_cons, List.not_mem_nil, or_false] at hl
    rcases hl with rfl | rfl | rfl | rfl | rfl
    · exact ⟨trivial, trivial, trivial, trivial⟩
    · refine ⟨trivial, trivial, benign_accepted _ _ _ _ ?_, readable_of (by decide +kernel)⟩
      intro ro a h1 h2
      injection h1 with h1; subst h1
      injection h2 with h2; subst h2
      left; decide
    · exact ⟨okEnv_plausible 1, rfl, trivial, okEnv_readable _⟩
    · refine ⟨⟨?_, by decide⟩, rfl, trivial, readable_of (by decide +kernel)⟩
      intro c hc
      simp only [failEnv, List.mem_singleton] at hc
      subst hc; decide
    · exact ⟨trivial, trivial, trivial, trivial⟩) r 0 x hx htold u hu
  have := (hsurv [] s (by simp) rfl).1
  rw [List.length_eq_zero_iff.1 e.1] at this
  simp at this

/-- The one XADD of the batch is refused with a text that is not UTF-8: it names a user in Latin-1. -/
def latinEnv : SendEnv :=
  ⟨[⟨1700000000000, some ("NOPERM User andr".toList ++ [Char.ofNat 0xE9] ++ " has no permissions".toList)⟩], 1700000000, none, none⟩

theorem latinEnv_plausible : latinEnv.Plausible Config.default 1600000000000 := by
  refine ⟨?_, by decide⟩
  intro c hc
  simp only [latinEnv, List.mem_singleton] at hc
  subst hc; decide

def evsLatin : List Label :=
  [.start 0, .call 0 0 (.setState .activate ["5-1".toList]), .submit 0 (okEnv 1), .timeout 0 latinEnv,
   .finish 0 [([], "Unable to update ticket 5-1 state to active : Redis output string conversion error: NOPERM User andr".toList ++
     [Char.ofNat 0xE9] ++ " has no permissions".toList)]]

/-- **C70 is false of the code** when Redis refuses an update with a text that is not UTF-8, even with working
connections: the error's details cannot be marshalled, and ActivateTickets says OK (core/main.go:918-923, C17). -/
theorem C70_unreadable_error_refuted :
    ¬ C70Statement Wire.codec Config.default 1600000000000
      (fun l => l.Plausible Config.default 1600000000000 ∧ l.Connected ∧ l.Accepted Wire.codec Config.default) ToldSuccess := by
  intro h
  let isActive : Call → Bool := fun x => match x.rpc, x.outcome with | .setState _ _, some .ok => true | _, _ => false
  have h1 : (run Wire.codec Config.default init evsLatin).map (fun s => (s.stream.entries.length,
      (s.calls 0).map fun x => (isActive x, x.updates.length))) = some (0, some (true, 1)) := by decide +kernel
  obtain ⟨s, r, e⟩ := Option.map_eq_some_iff.1 h1
  rw [Prod.mk.injEq] at e
  obtain ⟨x, hx, e2⟩ := Option.map_eq_some_iff.1 e.2
  rw [Prod.mk.injEq] at e2
  have htold : ToldSuccess x := by
    have := e2.1
    simp only [isActive] at this
    split at this
    · rename_i cmd ids a b; exact Or.inr ⟨cmd, ids, a, b⟩
    · simp at this
  obtain ⟨u, hu⟩ := List.exists_mem_of_length_pos (show 0 < x.updates.length by rw [e2.2]; decide)
  obtain ⟨n, en, -, hsurv⟩ := h evsLatin s (by
    intro l hl
    simp only [evsLatin, List.mem_cons, List.not_mem_nil, or_false] at hl
    rcases hl with rfl | rfl | rfl | rfl | rfl
    · exact ⟨trivial, trivial, trivial⟩
    · exact ⟨trivial, trivial, benign_accepted _ _ _ _ (Or.inl rfl)⟩
    · exact ⟨okEnv_plausible 1, rfl, trivial⟩
    · exact ⟨latinEnv_plausible, rfl, trivial⟩
    · exact ⟨trivial, trivial, trivial⟩) r 0 x hx htold u hu
  have := (hsurv [] s (by simp) rfl).1
  rw [List.length_eq_zero_iff.1 e.1] at this
  simp at this

/-! ### Every call of an execution was begun by one of its labels -/

def rpcAt (s : St) (c : Nat) : Option Rpc := (s.calls c).map (·.rpc)

private theorem rpcAt_kill (s : St) (i c : Nat) : rpcAt (s.kill i) c = rpcAt s c := by
  simp only [rpcAt, St.kill, Option.map_map]
  congr 1
  funext x
  simp only [Function.comp]
  split <;> rfl

private theorem rpcAt_give (s : St) (ds : List (Nat × StateResponse)) (c : Nat) : rpcAt (s.give ds) c = rpcAt s c := by
  simp only [rpcAt, St.give, Option.map_map]
  rfl

private theorem rpcAt_outgoing (cfg : Config) (s : St) (i : Nat) (env : SendEnv) (e : OutEv) (c : Nat) :
    rpcAt (outgoing cfg s i env e) c = rpcAt s c := by
  unfold outgoing
  split
  · exact rpcAt_kill s i c
  · rw [rpcAt_give]; rfl

private theorem rpcAt_setCall {s : St} {c : Nat} {x y : Call} (hx : s.calls c = some x) (h : y.rpc = x.rpc) (d : Nat) :
    rpcAt (s.setCall c y) d = rpcAt s d := by
  simp only [rpcAt, St.setCall]
  split
  · rename_i hd; subst hd; simp [hx, h]
  · rfl

theorem rpcAt_step {cd : Codec} {cfg : Config} {s s' : St} {l : Label} (hs : step cd cfg s l = some s') (c : Nat) (r : Rpc)
    (h : rpcAt s' c = some r) : rpcAt s c = some r ∨ ∃ i, l = .call c i r := by
  cases l with
  | call d i rpc =>
    simp only [step] at hs
    split at hs
    · injection hs with hs; subst hs
      simp only [rpcAt, St.setCall] at h
      split at h
      · rename_i hd; subst hd
        right
        refine ⟨i, ?_⟩
        cases hq : rpc.queue cd cfg <;> simp [hq] at h <;> rw [h]
      · exact .inl h
    · simp at hs
  | submit d env =>
    left
    simp only [step] at hs
    split at hs
    · simp at hs
    · rename_i x hx
      split at hs
      · simp at hs
      · split at hs
        · injection hs with hs; subst hs
          rw [rpcAt_outgoing] at h
          rename_i rest _ _
          exact (rpcAt_setCall (y := { x with todo := rest }) hx rfl c).symm.trans h
        · simp at hs
  | timeout i env =>
    left
    simp only [step] at hs
    split at hs
    · injection hs with hs; subst hs
      rwa [rpcAt_outgoing] at h
    · simp at hs
  | finish d order =>
    left
    simp only [step] at hs
    split at hs
    · simp at hs
    · rename_i x hx
      split at hs
      · obtain ⟨o, -, rfl⟩ := Option.map_eq_some_iff.1 hs
        exact (rpcAt_setCall (y := { x with outcome := some o }) hx rfl c).symm.trans h
      · simp at hs
  | poll i =>
    left
    simp only [step] at hs
    split at hs
    · split at hs
      · injection hs with hs; subst hs
        exact (rpcAt_kill s i c).symm.trans h
      · injection hs with hs; subst hs; exact h
    · simp at hs
  | pollLag i k =>
    left
    simp only [step] at hs
    split at hs
    · split at hs
      · injection hs with hs; subst hs
        exact (rpcAt_kill s i c).symm.trans h
      · injection hs with hs; subst hs; exact h
    · simp at hs
  | apply i =>
    left
    simp only [step] at hs
    split at hs
    · split at hs
      · simp at hs
      · injection hs with hs; subst hs; exact h
    · simp at hs
  | expire i cy =>
    left
    simp only [step] at hs
    split at hs
    · split at hs
      · injection hs with hs; subst hs; exact h
      · simp at hs
    · simp at hs
  | crash i =>
    left
    simp only [step] at hs
    split at hs
    · injection hs with hs; subst hs
      rwa [rpcAt_kill] at h
    · simp at hs
  | crashMid i env k =>
    left
    simp only [step] at hs
    split at hs
    · injection hs with hs; subst hs
      rw [rpcAt_kill] at h; exact h
    · simp at hs
  | start i =>
    left
    simp only [step] at hs
    split at hs
    · simp at hs
    · injection hs with hs; subst hs; exact h

theorem rpcAt_run {cd : Codec} {cfg : Config} (ls : List Label) : ∀ {s s' : St}, run cd cfg s ls = some s' →
    ∀ c r, rpcAt s' c = some r → rpcAt s c = some r ∨ ∃ i, Label.call c i r ∈ ls := by
  induction ls with
  | nil => intro s s' hs c r h; injection hs with hs; subst hs; exact .inl h
  | cons l ls ih =>
    intro s s' hs c r h
    simp only [run] at hs
    cases h1 : step cd cfg s l with
    | none => simp [h1] at hs
    | some s1 =>
      rw [h1] at hs
      rcases ih hs c r h with h2 | ⟨i, h2⟩
      · rcases rpcAt_step h1 c r h2 with h3 | ⟨i, rfl⟩
        · exact .inl h3
        · exact .inr ⟨i, by simp⟩
      · exact .inr ⟨i, by simp [h2]⟩

/-- One batch with an empty assignment, ticket A and ticket B. -/
def evsMixed : List Label :=
  [.start 0, .call 0 0 (.assign (some ⟨[], some ⟨[], []⟩, [⟨"5-1".toList, none, none, []⟩], []⟩)), .submit 0 (okEnv 1),
   .call 1 0 (.create startNs (some reqA)), .submit 1 (okEnv 2),
   .call 2 0 (.create startNs (some reqB)), .submit 2 (okEnv 3), .timeout 0 (okEnv 3), .finish 1 []]
def idB : Str := "1700000000000-1".toList
def evsMixedActivate : List Label :=
  [.call 3 0 (.setState .activate [idB]), .submit 3 (okEnv 1), .timeout 0 (okEnv 1), .finish 3 []]
def evsMixedRead : List Label := [.poll 0, .apply 0, .apply 0, .apply 0]

def evU : Ev → Option StateUpdate
  | .upd u => some u
  | _ => none

theorem evU_eq : ∀ {es : List Ev} {us : List StateUpdate}, es.map evU = us.map some → es = us.map Ev.upd
  | [], [], _ => rfl
  | .upd u :: es, v :: us, h => by
    simp only [List.map_cons, List.cons.injEq, evU, Option.some.injEq] at h
    rw [List.map_cons, h.1, evU_eq h.2]
  | .expire _ :: _, _ :: _, h => by simp [evU] at h
  | [], _ :: _, h => by simp at h
  | _ :: _, [], h => by simp at h

/-- Bytes of a stored ticket. -/
def storedBytes (t : Ticket) : Str := Wire.ser (Wire.ticketF (builtTicket Config.default startNs t))

/-- **C69 is false of the code**: an update that Redis does not accept (here an assignment
without content) shifts the answers of its batch (redis.go:195, C10), so the client that
created ticket A is given the id of ticket B, and what is served under that id is B. -/
theorem C69_refuted :
    ¬ C69Statement Wire.codec Config.default 1600000000000
      (fun l => l.Plausible Config.default 1600000000000 ∧ l.Connected) := by
  intro h
  let isCreateA : Call → Bool := fun x => match x.rpc, x.outcome with
    | .create n (some t), some (.id k) => decide (n = startNs ∧ t = reqA ∧ k = idB)
    | _, _ => false
  let isActivate : Call → Bool := fun x => match x.rpc, x.outcome with
    | .setState .activate ids, some .ok => decide (ids = [idB])
    | _, _ => false
  have h1 : (run Wire.codec Config.default init evsMixed).map (fun s => ((s.calls 1).map isCreateA, (s.calls 3).isNone))
      = some (some true, true) := by decide +kernel
  have h2 : (run Wire.codec Config.default init (evsMixed ++ evsMixedActivate)).map
      (fun s => ((s.calls 3).map isActivate, s.stream.entries.length)) = some (some true, 3) := by decide +kernel
  have h3 : (run Wire.codec Config.default init (evsMixed ++ evsMixedActivate ++ evsMixedRead)).map
      (fun s => ((s.insts 0).hist.map evU)) =
      some [some ⟨.ticket, idA, storedBytes reqA⟩, some ⟨.ticket, idB, storedBytes reqB⟩, some ⟨.activate, idB, []⟩] := by
    decide +kernel
  obtain ⟨s1, r1, e1⟩ := Option.map_eq_some_iff.1 h1
  obtain ⟨s2, r2, e2⟩ := Option.map_eq_some_iff.1 h2
  obtain ⟨s3, r3, e3⟩ := Option.map_eq_some_iff.1 h3
  rw [Prod.mk.injEq] at e1 e2
  rw [run_append, r1, Option.bind_some] at r2
  have r3' := r3
  rw [run_append, run_append, r1, Option.bind_some, r2, Option.bind_some] at r3
  obtain ⟨x1, hx1, c1⟩ := Option.map_eq_some_iff.1 e1.1
  obtain ⟨x2, hx2, c2⟩ := Option.map_eq_some_iff.1 e2.1
  have hist : (s3.insts 0).hist = [⟨.ticket, idA, storedBytes reqA⟩, ⟨.ticket, idB, storedBytes reqB⟩, ⟨.activate, idB, []⟩].map Ev.upd :=
    evU_eq e3
  obtain ⟨q1, q2⟩ : x1.rpc = .create startNs (some reqA) ∧ x1.outcome = some (.id idB) := by
    simp only [isCreateA] at c1
    split at c1
    · rename_i n t k a b
      obtain ⟨rfl, rfl, rfl⟩ := of_decide_eq_true c1
      exact ⟨a, b⟩
    · simp at c1
  obtain ⟨q3, q4⟩ : x2.rpc = .setState .activate [idB] ∧ x2.outcome = some .ok := by
    simp only [isActivate] at c2
    split at c2
    · rename_i n a b
      have := of_decide_eq_true c2
      subst this
      exact ⟨a, b⟩
    · simp at c2
  have hpl := okEnv_plausible
  obtain ⟨ct, hct, -, d, cr, hd, htags, -⟩ := h evsMixed evsMixedActivate evsMixedRead s1 s2 s3 (by
      intro l hl
      simp only [evsMixed, evsMixedActivate, List.mem_append, List.mem_cons, List.not_mem_nil, or_false] at hl
      rcases hl with (rfl | rfl | rfl | rfl | rfl | rfl | rfl | rfl | rfl) | rfl | rfl | rfl | rfl <;>
        first | exact ⟨trivial, trivial⟩ | exact ⟨hpl _, rfl⟩) (by
      intro l hl
      simp only [evsMixedRead, List.mem_cons, List.not_mem_nil, or_false] at hl
      rcases hl with rfl | rfl | rfl | rfl <;> trivial)
    r1 r2 r3 1 x1 startNs reqA idB hx1 q1 q2 3 x2 (by simpa using e1.2) hx2 (by rw [q3]; simp [Activates]) q4
    (by
      intro c y hy hde
      exfalso
      rcases rpcAt_run _ r3' c y.rpc (by simp [rpcAt, hy]) with h4 | ⟨i, h4⟩
      · simp [rpcAt, init] at h4
      · simp only [evsMixed, evsMixedActivate, evsMixedRead, List.mem_append, List.mem_cons, List.not_mem_nil, or_false,
          Label.call.injEq, reduceCtorEq, false_or] at h4
        rcases h4 with (⟨-, -, e⟩ | ⟨-, -, e⟩ | ⟨-, -, e⟩) | ⟨-, -, e⟩ <;> rw [e] at hde <;> simp [Deactivates] at hde)
    0 (s3.insts 0).hist (candidates (runEvs Wire.codec Config.default Cache.empty (s3.insts 0).hist))
    ⟨[], _, by simp, candidates_isSnapshot _ (WF_runEvs WF_empty _)⟩
    (by rw [e2.2, hist]; decide)
    (by intro cy hcy; rw [hist] at hcy; simp at hcy)
  rw [hist] at hct
  have hlc := (C24_life_cycle Wire.codec
    [⟨.ticket, idA, storedBytes reqA⟩, ⟨.ticket, idB, storedBytes reqB⟩, ⟨.activate, idB, []⟩] idB).1
  have hfold : ∀ us : List StateUpdate, runEvs Wire.codec Config.default Cache.empty (us.map Ev.upd) =
      us.foldl (applyUpdate Wire.codec) Cache.empty := fun us => by
    simp only [runEvs, List.foldl_map]; rfl
  rw [hfold, hlc, if_pos (by decide)] at hct
  have hcr : creations [⟨.ticket, idA, storedBytes reqA⟩, ⟨.ticket, idB, storedBytes reqB⟩, ⟨.activate, idB, []⟩] idB =
      [storedBytes reqB] := by decide
  simp only [content, hcr, List.getLast?_singleton, Option.map_some, Option.some.injEq] at hct
  rw [Wire.codec_decT (t := builtTicket Config.default startNs reqB) (by decide +kernel)] at hct
  subst hct
  have hb : (builtTicket Config.default startNs reqB).attributes.map (·.tags) = some ["b".toList] := by decide +kernel
  dsimp only at hd
  rw [hd] at hb
  simp only [Option.map_some, Option.some.injEq] at hb
  rw [hb] at htags
  revert htags
  decide

end OM.Props
