import Verif.Lemmas.Wire
import Verif.Lemmas.Cache
import Verif.Lemmas.Redis
import Verif.Spec.Redis
/-!
# Properties C06–C09, C14–C18, C56, C57: the unary RPC handlers
-/
namespace OM.Props
open OM.Spec

/-! ## C06: the stored content -/

/-- The ticket attributes a request carries; absent attributes are empty ones. -/
def reqTags (t : Ticket) : List Str := match t.attributes with | none => [] | some d => d.tags
def reqStrings (t : Ticket) : GoMap Str := match t.attributes with | none => [] | some d => d.stringArgs
def reqDoubles (t : Ticket) : GoMap F64 := match t.attributes with | none => [] | some d => d.doubleArgs
def reqCreation (t : Ticket) : Option Timestamp := match t.attributes with | none => none | some d => d.creationTime

/-- The request's creation time when it is legal, else the server's clock. -/
def CreationFor (now : Int) (t : Ticket) (cr : Timestamp) : Prop :=
  (∃ c, reqCreation t = some c ∧ LegalTime c ∧ cr = c) ∨
  ((∀ c, reqCreation t = some c → ¬ LegalTime c) ∧ nanosOf cr = now)

private theorem creationTime_eq (t : Ticket) : t.creationTime = reqCreation t := by
  unfold Ticket.creationTime reqCreation
  cases t.attributes <;> rfl

theorem storedCreation_spec (now : Int) (t : Ticket) : CreationFor now t (storedCreation now t) := by
  unfold storedCreation CreationFor
  rw [creationTime_eq]
  by_cases h : Timestamp.isValid (reqCreation t) = true
  · obtain ⟨c, h1, h2⟩ := (isValid_iff _).1 h
    left; exact ⟨c, h1, h2, by rw [if_pos h, h1]; rfl⟩
  · right
    refine ⟨fun c h1 h2 => h ((isValid_iff _).2 ⟨c, h1, h2⟩), ?_⟩
    rw [if_neg h, nanosOf_newTimestamp]

/-- **C06.** Once the update queued by CreateTicket reaches a cache under a server-assigned
id, the cached ticket has that id and exactly the request's tags, arguments and extensions
(maps as maps), and the creation time the documentation promises. -/
theorem C06_stored_content (cd : Codec) (hl : cd.Lawful) (cfg : Config) (now : Int) (t : Ticket) (u : StateUpdate)
    (hq : createTicketQueue cd cfg now (some t) = .ok u) (c : Cache) (id : Str) :
    ∃ (ct : Ticket) (d : FilterableData) (cr : Timestamp),
      (applyUpdate cd c (replicated u id)).tickets.load id = some ct ∧ ct.id = id ∧ ct.attributes = some d ∧
      d.tags = reqTags t ∧ d.stringArgs.Perm (reqStrings t) ∧ d.doubleArgs.Perm (reqDoubles t) ∧
      ct.extensions.Perm t.extensions ∧ d.creationTime = some cr ∧ CreationFor now t cr := by
  simp only [createTicketQueue] at hq
  cases he : cd.encT (builtTicket cfg now t) with
  | none => simp [he] at hq
  | some b =>
    simp only [he, Except.ok.injEq] at hq
    subst hq
    have hs := hl.ticket _ _ he
    have hatt := hs.attributes
    cases hd : (cd.decT b).attributes with
    | none => rw [hd] at hatt; simp [builtTicket, SameOpt] at hatt
    | some d =>
      rw [hd] at hatt
      simp only [builtTicket, SameOpt] at hatt
      refine ⟨{ cd.decT b with id := id }, d, storedCreation now t, ?_, rfl, hd, ?_, ?_, ?_, hs.extensions,
        hatt.creationTime, storedCreation_spec now t⟩
      · have := congrArg KState.t (applyUpdate_proj cd c (replicated ⟨.ticket, [], b⟩ id) id)
        simpa [replicated, proj] using this
      · rw [hatt.tags]; unfold reqTags; cases t.attributes <;> rfl
      · have := hatt.stringArgs; unfold reqStrings; revert this; cases t.attributes <;> exact fun h => h
      · have := hatt.doubleArgs; unfold reqDoubles; revert this; cases t.attributes <;> exact fun h => h

/-- A request with a client-chosen id, arguments of both kinds and no creation time. -/
def sampleReq : Ticket :=
  { id := "mine".toList, expirationTime := some ⟨1200, 0⟩,
    attributes := some ⟨["tag".toList], [("mode".toList, "duel".toList)], [("mmr".toList, 0x4059000000000000#64)], none⟩,
    extensions := [("ext".toList, ⟨"type".toList, "\x08\x01".toList⟩)] }

example : Wire.codec.Lawful ∧ ∃ u, createTicketQueue Wire.codec Config.default 1000000000000 (some sampleReq) = .ok u ∧
    ((applyUpdate Wire.codec Cache.empty (replicated u "1000-1".toList)).tickets.load "1000-1".toList).map
      (fun t => (t.attributes.map (·.tags), t.expirationTime)) = some (some ["tag".toList], some ⟨1200, 0⟩) := by
  refine ⟨Wire.codec_lawful, ?_⟩
  have hok : Wire.ticketOk (builtTicket Config.default 1000000000000 sampleReq) = true := by decide
  refine ⟨⟨.ticket, [], Wire.ser (Wire.ticketF (builtTicket Config.default 1000000000000 sampleReq))⟩, ?_, ?_⟩
  · simp [createTicketQueue, Wire.codec, hok]
  · have hd : Wire.codec.decT (Wire.ser (Wire.ticketF (builtTicket Config.default 1000000000000 sampleReq)))
        = builtTicket Config.default 1000000000000 sampleReq := Wire.codec_decT (by simp [Wire.codec, hok])
    simp only [replicated, applyUpdate, updateOps, hd]
    decide

/-! ## C07: the stored expiration time -/

/-- The expiration in terms of the `Duration` that the TTL becomes. -/
theorem stored_expiration (cd : Codec) (hl : cd.Lawful) (cfg : Config) (now : Int) (t : Ticket) (u : StateUpdate)
    (hq : createTicketQueue cd cfg now (some t) = .ok u) (c : Cache) (id : Str) :
    ∃ (ct : Ticket) (cr ex : Timestamp),
      (applyUpdate cd c (replicated u id)).tickets.load id = some ct ∧
      (ct.attributes.bind (·.creationTime)) = some cr ∧ ct.expirationTime = some ex ∧
      (∀ r, t.expirationTime = some r → LegalTime r → nanosOf r ≤ nanosOf cr + goSecs cfg.ttl → ex = r) ∧
      (¬ (∃ r, t.expirationTime = some r ∧ LegalTime r ∧ nanosOf r ≤ nanosOf cr + goSecs cfg.ttl) →
        nanosOf ex = nanosOf cr + goSecs cfg.ttl) ∧
      nanosOf ex ≤ nanosOf cr + goSecs cfg.ttl := by
  obtain ⟨ct, d, cr, h1, -, h3, -⟩ := C06_stored_content cd hl cfg now t u hq c id
  simp only [createTicketQueue] at hq
  cases he : cd.encT (builtTicket cfg now t) with
  | none => simp [he] at hq
  | some b =>
    simp only [he, Except.ok.injEq] at hq
    subst hq
    have hs := hl.ticket _ _ he
    have h1' : (applyUpdate cd c (replicated ⟨.ticket, [], b⟩ id)).tickets.load id = some { cd.decT b with id := id } := by
      have := congrArg KState.t (applyUpdate_proj cd c (replicated ⟨.ticket, [], b⟩ id) id)
      simpa [replicated, proj] using this
    rw [h1'] at h1
    injection h1 with h1
    have hatt := hs.attributes
    have hd : (cd.decT b).attributes = some d := by rw [← h1] at h3; exact h3
    rw [hd] at hatt
    simp only [builtTicket, SameOpt] at hatt
    refine ⟨ct, storedCreation now t, storedExpiration cfg (storedCreation now t) t.expirationTime,
      h1' ▸ (congrArg some h1), ?_, ?_, ?_⟩
    · rw [h3]; exact hatt.creationTime
    · rw [← h1]; exact hs.expirationTime
    generalize storedCreation now t = cr'
    have hdef : defaultExpiration cfg cr' = nanosOf cr' + goSecs cfg.ttl := by
      rw [defaultExpiration, asTime_some]
    unfold storedExpiration
    rw [hdef]
    by_cases hv : Timestamp.isValid t.expirationTime = true
    · obtain ⟨r, hr, hleg⟩ := (isValid_iff _).1 hv
      by_cases hle : nanosOf r ≤ nanosOf cr' + goSecs cfg.ttl
      · have : ¬ ((!Timestamp.isValid t.expirationTime || decide (asTime t.expirationTime > nanosOf cr' + goSecs cfg.ttl)) = true) := by
          rw [hv, hr, asTime_some]; simp; exact hle
        rw [if_neg this, hr]
        refine ⟨fun r' h _ _ => by simpa using h, fun h => absurd ⟨r, rfl, hleg, hle⟩ h, hle⟩
      · have : (!Timestamp.isValid t.expirationTime || decide (asTime t.expirationTime > nanosOf cr' + goSecs cfg.ttl)) = true := by
          rw [hv, hr, asTime_some]; simp; omega
        rw [if_pos this, nanosOf_newTimestamp, hr]
        refine ⟨fun r' h _ h2 => ?_, fun _ => rfl, le_refl _⟩
        injection h with h; subst h; exact absurd h2 hle
    · have : (!Timestamp.isValid t.expirationTime || decide (asTime t.expirationTime > nanosOf cr' + goSecs cfg.ttl)) = true := by
        simp [hv]
      rw [if_pos this, nanosOf_newTimestamp]
      exact ⟨fun r' h h2 _ => absurd ((isValid_iff _).2 ⟨r', h, h2⟩) hv, fun _ => rfl, le_refl _⟩

/-- **C07.** The stored expiration is the requested one when that is legal and not later
than creation + TTL, otherwise exactly creation + TTL; so never later than that.  (TTLs of up to 292 years; C117 is about longer ones.) -/
theorem C07_expiration_clamped (cd : Codec) (hl : cd.Lawful) (cfg : Config) (now : Int) (t : Ticket) (u : StateUpdate)
    (hq : createTicketQueue cd cfg now (some t) = .ok u) (httl : -9223372036 ≤ cfg.ttl ∧ cfg.ttl ≤ 9223372036) (c : Cache) (id : Str) :
    ∃ (ct : Ticket) (cr ex : Timestamp),
      (applyUpdate cd c (replicated u id)).tickets.load id = some ct ∧
      (ct.attributes.bind (·.creationTime)) = some cr ∧ ct.expirationTime = some ex ∧
      (∀ r, t.expirationTime = some r → LegalTime r → nanosOf r ≤ nanosOf cr + cfg.ttl * 1000000000 → ex = r) ∧
      (¬ (∃ r, t.expirationTime = some r ∧ LegalTime r ∧ nanosOf r ≤ nanosOf cr + cfg.ttl * 1000000000) →
        nanosOf ex = nanosOf cr + cfg.ttl * 1000000000) ∧
      nanosOf ex ≤ nanosOf cr + cfg.ttl * 1000000000 := by
  have := stored_expiration cd hl cfg now t u hq c id
  rwa [goSecs_exact httl.1 httl.2] at this

/-- The requested 1200 s is before creation + TTL (1000 s + 600 s) and is kept; 9999 s is not. -/
example : ∀ x ∈ [((1200 : Int), (1200 : Int)), (9999, 1600)],
    ∃ u, createTicketQueue Wire.codec Config.default 1000000000000
      (some { sampleReq with expirationTime := some ⟨x.1, 0⟩ }) = .ok u ∧
    ((applyUpdate Wire.codec Cache.empty (replicated u "1000-1".toList)).tickets.load "1000-1".toList).map
      (·.expirationTime) = some (some ⟨x.2, 0⟩) := by
  intro x hx
  have hall : ∀ x ∈ [((1200 : Int), (1200 : Int)), (9999, 1600)],
      ((createTicketQueue Wire.codec Config.default 1000000000000
        (some { sampleReq with expirationTime := some ⟨x.1, 0⟩ })).toOption.bind fun u =>
        ((applyUpdate Wire.codec Cache.empty (replicated u "1000-1".toList)).tickets.load "1000-1".toList).map
          (·.expirationTime)) = some (some ⟨x.2, 0⟩) := by decide +kernel
  obtain ⟨u, hu, h⟩ := Option.bind_eq_some_iff.1 (hall x hx)
  refine ⟨u, ?_, h⟩
  revert hu
  cases createTicketQueue Wire.codec Config.default 1000000000000 (some { sampleReq with expirationTime := some ⟨x.1, 0⟩ }) with
  | ok v => intro hu; injection hu with hu; rw [hu]
  | error e => intro hu; cases hu

/-! ## C08: no ticket outlives its TTL -/

/-- A request whose creation time lies in the future of the server's clock. -/
def futureReq : Ticket := ⟨[], none, some ⟨[], [], [], some ⟨5000, 0⟩⟩, []⟩

/-- **C08 is false of the code**: CreateTicket believes a creation time in the future, and
the expiration is computed from it. -/
theorem C08_ttl_refuted :
    ¬ ∀ (cd : Codec) (cfg : Config) (now : Int) (t : Ticket) (u : StateUpdate) (id : Str) (cy : Cycle),
      cd.Lawful → createTicketQueue cd cfg now (some t) = .ok u →
      let c := applyUpdate cd (applyUpdate cd Cache.empty (replicated u id)) ⟨.activate, id, []⟩
      cy.Visits cfg c → now + cfg.ttl * 1000000000 < cy.tix id →
      (candidates (expire cfg cy c)).load id = none := by
  intro h
  have hok : Wire.ticketOk (builtTicket Config.default 1000000000000 futureReq) = true := by decide
  have hd : Wire.codec.decT (Wire.ser (Wire.ticketF (builtTicket Config.default 1000000000000 futureReq)))
      = builtTicket Config.default 1000000000000 futureReq := Wire.codec_decT (by simp [Wire.codec, hok])
  have := h Wire.codec Config.default 1000000000000 futureReq
    ⟨.ticket, [], Wire.ser (Wire.ticketF (builtTicket Config.default 1000000000000 futureReq))⟩ "1000-1".toList
    ⟨[], ["1000-1".toList], [], fun _ => 2000, fun _ => 2000000000000, fun _ => 2000⟩
    Wire.codec_lawful (by simp [createTicketQueue, Wire.codec, hok])
  simp only [replicated, applyUpdate, updateOps, hd] at this
  exact absurd (this ⟨List.Perm.of_eq (by decide), List.Perm.of_eq (by decide), List.Perm.of_eq (by decide)⟩ (by decide))
    (by decide)

/-- No later creation of `id` among the events. -/
def NoCreation (id : Str) (es : List Ev) : Prop := ∀ u, Ev.upd u ∈ es → u.cmd = .ticket → u.key ≠ id

private theorem runEv_load {cd : Codec} {cfg : Config} {c : Cache} {e : Ev} {k : Str} {t : Ticket}
    (hv : match e with | .expire cy => cy.Visits cfg c | .upd _ => True)
    (hn : ∀ u, e = .upd u → u.cmd = .ticket → u.key ≠ k)
    (h : (runEv cd cfg c e).tickets.load k = some t) : c.tickets.load k = some t := by
  cases e with
  | expire cy =>
    have : (expire cfg cy c).tickets.load k = some t := h
    rw [expire_tickets hv] at this
    split at this
    · simp at this
    · exact (Option.filter_eq_some_iff.1 this).1
  | upd u =>
    have h' : (proj (applyUpdate cd c u) k).t = some t := h
    rw [applyUpdate_proj] at h'
    split at h'
    · rename_i hk
      cases hc : u.cmd <;> simp only [hc] at h'
      · exact absurd hk.symm (hn u rfl hc)
      all_goals exact h'
    · exact h'

private theorem runEvs_load {cd : Codec} {cfg : Config} (es : List Ev) {c : Cache} {k : Str} {t : Ticket}
    (hv : ValidEvs cd cfg c es) (hn : NoCreation k es) (h : (runEvs cd cfg c es).tickets.load k = some t) :
    c.tickets.load k = some t := by
  induction es generalizing c with
  | nil => exact h
  | cons e es ih =>
    rw [runEvs_cons] at h
    exact runEv_load hv.1 (fun u hu => hn u (by simp [hu])) (ih hv.2 (fun u hu => hn u (by simp [hu])) h)

/-- A cycle that visits one active ticket at 1601 s. -/
def sweep : Cycle := ⟨[], ["1000-1".toList], [], fun _ => 1601, fun _ => 1601000000000, fun _ => 1601⟩

/-- **C08, with the creation time.** No ticket outlives the later of the call and the
creation time it was given by more than the TTL: after a cycle that visits it later than
that, it is never served again.  (`C08_ttl_refuted`: the creation time cannot be dropped
from the bound.) -/
theorem C08_ttl_after_creation (cd : Codec) (hl : cd.Lawful) (cfg : Config) (now : Int) (t : Ticket) (u : StateUpdate)
    (hq : createTicketQueue cd cfg now (some t) = .ok u)
    (latest : Int) (hnow : now ≤ latest)
    (hpast : ∀ c, reqCreation t = some c → LegalTime c → nanosOf c ≤ latest)
    (c0 : Cache) (wf : c0.WF) (id : Str) (mid post : List Ev) (cy : Cycle)
    (hv : ValidEvs cd cfg c0 ([.upd (replicated u id)] ++ mid ++ [.expire cy] ++ post))
    (hmid : NoCreation id mid) (hpost : NoCreation id post)
    (httl : -9223372036 ≤ cfg.ttl) (hcy : latest + cfg.ttl * 1000000000 < cy.tix id) :
    (candidates (runEvs cd cfg c0 ([.upd (replicated u id)] ++ mid ++ [.expire cy] ++ post))).load id = none := by
  rw [candidates_load (WF_runEvs wf _)]
  split
  · rfl
  obtain ⟨ct, cr, ex, h1, h2, h3, -, -, h4⟩ := stored_expiration cd hl cfg now t u hq c0 id
  have h4' := goSecs_le httl
  obtain ⟨ct', d, cr', e1, -, e3, -, -, -, -, e5, e6⟩ := C06_stored_content cd hl cfg now t u hq c0 id
  rw [h1] at e1; injection e1 with e1; subst e1
  have : cr = cr' := by rw [e3] at h2; simp [e5] at h2; exact h2.symm
  subst this
  have hcr : nanosOf cr ≤ latest := by
    rcases e6 with ⟨c, a, b, rfl⟩ | ⟨-, h⟩
    · exact hpast _ a b
    · omega
  show (runEvs cd cfg c0 _).tickets.load id = none
  obtain ⟨hv1, hv2⟩ := validEvs_append.1 hv
  obtain ⟨hv3, hv4⟩ := validEvs_append.1 hv1
  obtain ⟨-, hv5⟩ := validEvs_append.1 hv3
  rw [Option.eq_none_iff_forall_ne_some]
  intro t' ht'
  rw [runEvs_append] at ht'
  have ht2 := runEvs_load post hv2 hpost ht'
  rw [runEvs_append] at ht2
  have ht3 : (expire cfg cy (runEvs cd cfg c0 ([.upd (replicated u id)] ++ mid))).tickets.load id = some t' := ht2
  rw [expire_tickets hv4.1] at ht3
  split at ht3
  · simp at ht3
  · obtain ⟨ht4, hex⟩ := Option.filter_eq_some_iff.1 ht3
    rw [runEvs_append] at ht4
    have ht5 := runEvs_load mid hv5 hmid ht4
    have : t' = ct := by
      have h1' : (runEvs cd cfg c0 [.upd (replicated u id)]).tickets.load id = some ct := h1
      rw [h1'] at ht5; injection ht5 with h; exact h.symm
    subst this
    simp only [ticketExpired, h3, asTime_some, Bool.not_eq_true', decide_eq_false_iff_not] at hex
    omega

/-- **C08 (what holds).** Partial: full C08 has no condition on the creation time.  If the
request's creation time is absent, illegal or not in the server's future, then after any
updates and expiration cycles, a cycle that visits the ticket later than `now` + TTL, and
any further updates and cycles, the ticket is not served (ids are not reused, C12). -/
theorem C08_ttl_partial (cd : Codec) (hl : cd.Lawful) (cfg : Config) (now : Int) (t : Ticket) (u : StateUpdate)
    (hq : createTicketQueue cd cfg now (some t) = .ok u)
    (hpast : ∀ c, reqCreation t = some c → LegalTime c → nanosOf c ≤ now)
    (c0 : Cache) (wf : c0.WF) (id : Str) (mid post : List Ev) (cy : Cycle)
    (hv : ValidEvs cd cfg c0 ([.upd (replicated u id)] ++ mid ++ [.expire cy] ++ post))
    (hmid : NoCreation id mid) (hpost : NoCreation id post)
    (httl : -9223372036 ≤ cfg.ttl) (hcy : now + cfg.ttl * 1000000000 < cy.tix id) :
    (candidates (runEvs cd cfg c0 ([.upd (replicated u id)] ++ mid ++ [.expire cy] ++ post))).load id = none :=
  C08_ttl_after_creation cd hl cfg now t u hq now (Int.le_refl _) hpast c0 wf id mid post cy hv hmid hpost httl hcy

/-- Created at 1000 s, activated, and swept at 1601 s, one second after the TTL. -/
example : ∃ u, createTicketQueue Wire.codec Config.default 1000000000000 (some sampleReq) = .ok u ∧
    (∀ c, reqCreation sampleReq = some c → LegalTime c → nanosOf c ≤ 1000000000000) ∧
    ValidEvs Wire.codec Config.default Cache.empty
      ([.upd (replicated u "1000-1".toList)] ++ [.upd ⟨.activate, "1000-1".toList, []⟩] ++ [.expire sweep] ++ []) ∧
    (candidates (runEvs Wire.codec Config.default Cache.empty
      ([.upd (replicated u "1000-1".toList)] ++ [.upd ⟨.activate, "1000-1".toList, []⟩]))).keys = ["1000-1".toList] ∧
    (1000000000000 : Int) + Config.default.ttl * 1000000000 < sweep.tix "1000-1".toList := by
  have hok : Wire.ticketOk (builtTicket Config.default 1000000000000 sampleReq) = true := by decide
  refine ⟨⟨.ticket, [], Wire.ser (Wire.ticketF (builtTicket Config.default 1000000000000 sampleReq))⟩,
    by simp [createTicketQueue, Wire.codec, hok], by simp [reqCreation, sampleReq],
    ⟨trivial, trivial, ⟨?_, ?_, ?_⟩, trivial⟩, by decide +kernel, by decide⟩ <;>
    exact List.Perm.of_eq (by decide +kernel)

/-! ## C09: missing ticket -/

/-- **C09 (refusal).** No ticket: InvalidArgument, nothing queued. -/
theorem C09_nil_refused (cd : Codec) (cfg : Config) (now : Int) :
    ∃ e, createTicketQueue cd cfg now none = .error e ∧ e.code = .invalidArgument := ⟨_, rfl, rfl⟩

theorem legal_tsOk {t : Timestamp} (h : LegalTime t) : Wire.tsOk t = true := by
  simp only [LegalTime] at h
  simp only [Wire.tsOk, decide_eq_true_eq]
  norm_num
  omega

/-- The timestamps of the stored ticket can be marshalled. -/
theorem stored_times (cfg : Config) (now : Int) (t : Ticket)
    (hnow : LegalTime (newTimestamp now)) :
    LegalTime (storedCreation now t) ∧
      Wire.tsOk (storedExpiration cfg (storedCreation now t) t.expirationTime) = true := by
  have hcr : LegalTime (storedCreation now t) := by
    unfold storedCreation
    split
    · rename_i h
      obtain ⟨c, h1, h2⟩ := (isValid_iff _).1 h
      rw [h1]; exact h2
    · exact hnow
  have hex : Wire.tsOk (storedExpiration cfg (storedCreation now t) t.expirationTime) = true := by
    unfold storedExpiration
    split
    · have hr := goSecs_range cfg.ttl
      simp only [defaultExpiration, asTime, newTimestamp, nsPerSec]
      simp only [LegalTime] at hcr
      simp only [Wire.tsOk, decide_eq_true_eq]
      norm_num at hr ⊢
      omega
    · rename_i h
      simp only [Bool.or_eq_true, Bool.not_eq_true', not_or, Bool.not_eq_false] at h
      obtain ⟨r, h1, h2⟩ := (isValid_iff _).1 h.1
      rw [h1]; exact legal_tsOk h2
  exact ⟨hcr, hex⟩

/-- **C09 (acceptance).** With the real wire format, every ticket message that a client
can send is accepted and queues exactly one creation, of a ticket with its content:
nothing about timestamps, ids or attributes makes CreateTicket refuse.  (Hypothesis: the
clock shows a legal date.) -/
theorem C09_every_ticket_accepted (cfg : Config) (now : Int) (t : Ticket) (ht : Wire.ticketOk t = true)
    (hnow : LegalTime (newTimestamp now)) :
    ∃ b, createTicketQueue Wire.codec cfg now (some t) = .ok ⟨.ticket, [], b⟩ ∧
      Wire.codec.decT b = builtTicket cfg now t := by
  obtain ⟨hcr, hex⟩ := stored_times cfg now t hnow
  have hok : Wire.ticketOk (builtTicket cfg now t) = true := by
    simp only [Wire.ticketOk, Bool.and_eq_true] at ht ⊢
    obtain ⟨⟨⟨-, -⟩, hat⟩, hext⟩ := ht
    refine ⟨⟨⟨rfl, by simpa [builtTicket] using hex⟩, ?_⟩, hext⟩
    simp only [builtTicket, Option.all_some, Wire.dataOk, Bool.and_eq_true]
    cases ha : t.attributes with
    | none => exact ⟨⟨⟨rfl, by decide⟩, by decide⟩, by simpa using legal_tsOk hcr⟩
    | some d =>
      rw [ha] at hat
      simp only [Option.all_some, Wire.dataOk, Bool.and_eq_true] at hat
      exact ⟨hat.1, by simpa using legal_tsOk hcr⟩
  refine ⟨Wire.ser (Wire.ticketF (builtTicket cfg now t)), by simp [createTicketQueue, Wire.codec, hok], ?_⟩
  exact Wire.codec_decT (by simp [Wire.codec, hok])

example : Wire.ticketOk sampleReq = true ∧ LegalTime (newTimestamp 1700000000000000000) := by
  refine ⟨by decide, ?_⟩
  simp only [LegalTime, newTimestamp, nsPerSec]; omega

/-! ## C14: batch sizes -/

/-- **C14.** A (de)activation request is refused, with InvalidArgument and nothing queued,
exactly when it has no ids or more than the configured maximum. -/
theorem C14_batch_size (cfg : Config) (cmd : Cmd) (ids : List Str) :
    (ids = [] ∨ (ids.length : Int) > cfg.maxUpdates → ∃ e, activeStateQueue cfg cmd ids = .error e ∧ e.code = .invalidArgument) ∧
    (ids ≠ [] ∧ (ids.length : Int) ≤ cfg.maxUpdates → ∃ us, activeStateQueue cfg cmd ids = .ok us) := by
  unfold activeStateQueue
  constructor
  · intro h
    by_cases h0 : ids.length = 0
    · rw [if_pos h0]; exact ⟨_, rfl, rfl⟩
    · rw [if_neg h0, if_pos]
      · exact ⟨_, rfl, rfl⟩
      · rcases h with rfl | h
        · simp at h0
        · exact h
  · rintro ⟨h0, h1⟩
    rw [if_neg (by simpa using h0), if_neg (by omega)]
    exact ⟨_, rfl⟩

example : ∃ us, activeStateQueue Config.default .activate ["5-1".toList] = .ok us := ⟨_, rfl⟩

/-! ## C15, C16: id validation -/

open Classical in
/-- **C15.** An accepted request sends exactly the ids that match the store's format
`\d*-\d*` (unanchored), as updates of the requested kind, in order and with multiplicity. -/
theorem C15_valid_ids_sent (cfg : Config) (cmd : Cmd) (ids : List Str) (us : List StateUpdate)
    (h : activeStateQueue cfg cmd ids = .ok us) :
    us = (ids.filter fun id => decide (RegexMatches id)).map fun id => ⟨cmd, id, []⟩ := by
  have key : (validateTicketIds ids).1 = ids.filter fun id => decide (RegexMatches id) := by
    rw [validateTicketIds_eq]
    apply List.filter_congr
    intro id _
    rw [Bool.eq_iff_iff, dash_mem_iff_matchString, decide_eq_true_iff, regexMatches_iff]
  unfold activeStateQueue at h
  split at h
  · simp at h
  · split at h
    · simp at h
    · injection h with h
      rw [← h, stateUpdatesFor, key]

/-- **C15 (partition).** Valid and invalid ids together are the request, and no id is both. -/
theorem C15_partition (ids : List Str) :
    ((validateTicketIds ids).1 ++ (validateTicketIds ids).2).Perm ids ∧
    ∀ id, id ∈ (validateTicketIds ids).1 → id ∉ (validateTicketIds ids).2 := by
  rw [validateTicketIds_eq]
  refine ⟨List.filter_append_perm _ _, ?_⟩
  intro id h1 h2
  simp only [List.mem_filter, Bool.not_eq_true'] at h1 h2
  rw [h1.2] at h2; simp at h2

/-- **C16 is false of the code**: the pattern is not anchored and its parts may be empty,
so malformed ids are sent; -/
theorem C16_malformed_refused_refuted :
    ¬ ∀ (cfg : Config) (cmd : Cmd) (ids : List Str) (us : List StateUpdate),
      activeStateQueue cfg cmd ids = .ok us → ∀ u ∈ us, WellFormedId u.key := by
  intro h
  have := h Config.default .activate ["x-y".toList] [⟨.activate, "x-y".toList, []⟩] (by decide)
    ⟨.activate, "x-y".toList, []⟩ (by simp)
  obtain ⟨a, b, h1, h2, -, h4, -⟩ := this
  cases a with
  | nil => exact h4 rfl
  | cons c a =>
    have : c = 'x' := by simp at h1; exact h1.1.symm
    subst this
    exact absurd (h2 'x' (by simp)) (by decide)

/-- **C16 is false of the code**: …and ids without a dash are dropped silently: the call
returns OK without having acted on them. -/
theorem C16_ok_means_acted_refuted :
    ¬ ∀ (cfg : Config) (cmd : Cmd) (ids : List Str) (us : List StateUpdate) (rs : List StateResponse)
        (perm : GoMap Str → GoMap Str), (∀ m, (perm m).Perm m) → rs.length = us.length →
      activeStateQueue cfg cmd ids = .ok us → activeStateReturn cmd ids rs perm = some none →
      ∀ id ∈ ids, ⟨cmd, id, []⟩ ∈ us := by
  intro h
  exact absurd (h Config.default .activate ["xyz".toList] [] [] id (fun _ => .refl _) rfl (by decide) (by decide)
    "xyz".toList (by simp)) (by simp)

/-- **C16 (what holds).** Partial: full C16 wants exactly the well-formed ids, and an error
otherwise.  Every well-formed id of an accepted request is sent; nothing without a dash is;
and if all ids are well-formed, every id is acted on. -/
theorem C16_well_formed_sent_partial (cfg : Config) (cmd : Cmd) (ids : List Str) (us : List StateUpdate)
    (h : activeStateQueue cfg cmd ids = .ok us) :
    (∀ id ∈ ids, WellFormedId id → ⟨cmd, id, []⟩ ∈ us) ∧
    (∀ u ∈ us, u.key ∈ ids ∧ '-' ∈ u.key) ∧
    ((∀ id ∈ ids, WellFormedId id) → us = ids.map fun id => ⟨cmd, id, []⟩) := by
  classical
  have hus := C15_valid_ids_sent cfg cmd ids us h
  have hwf : ∀ id, WellFormedId id → RegexMatches id := by
    rintro id ⟨a, b, rfl, ha, hb, -⟩
    exact ⟨[], a, b, [], by simp, ha, hb⟩
  refine ⟨?_, ?_, ?_⟩
  · intro id hid hw
    rw [hus]
    exact List.mem_map.2 ⟨id, List.mem_filter.2 ⟨hid, by simpa using hwf id hw⟩, rfl⟩
  · intro u hu
    rw [hus] at hu
    obtain ⟨id, hid, rfl⟩ := List.mem_map.1 hu
    obtain ⟨h1, h2⟩ := List.mem_filter.1 hid
    exact ⟨h1, (regexMatches_iff id).1 (by simpa using h2)⟩
  · intro hall
    rw [hus, List.filter_eq_self.2]
    intro id hid
    simpa using hwf id (hall id hid)

/-- **C16, exactly.** What an accepted request queues: one update per listed id that
contains a dash, in the order of the request, repeated ids repeated; nothing else. -/
theorem C16_exactly (cfg : Config) (cmd : Cmd) (ids : List Str) (us : List StateUpdate)
    (h : activeStateQueue cfg cmd ids = .ok us) :
    us = (ids.filter fun id => decide ('-' ∈ id)).map fun id => ⟨cmd, id, []⟩ := by
  classical
  rw [C15_valid_ids_sent cfg cmd ids us h]
  congr 1
  apply List.filter_congr
  intro id _
  simp only [decide_eq_decide]
  exact regexMatches_iff id

example : activeStateQueue Config.default .deactivate ["-".toList, "x".toList, "1-2".toList, "-".toList] =
    .ok [⟨.deactivate, "-".toList, []⟩, ⟨.deactivate, "1-2".toList, []⟩, ⟨.deactivate, "-".toList, []⟩] := by decide

example : WellFormedId "1700000000-12".toList :=
  ⟨"1700000000".toList, "12".toList, rfl, by unfold Digits; decide, by unfold Digits; decide, by simp, by simp⟩

/-! ## C17, C18: reporting storage errors -/

theorem errs_nil_iff {rs : List StateResponse} {m : GoMap Str}
    (h2 : ∀ k, k ∈ m.keys ↔ k ∈ GoMap.keys ([] : GoMap Str) ∨ ∃ r ∈ rs, r.err.isSome ∧ r.result = k) :
    m = [] ↔ ∀ r ∈ rs, r.err = none := by
  constructor
  · intro hm r hr
    by_contra hne
    have : r.result ∈ m.keys := (h2 _).2 (Or.inr ⟨r, hr, by simpa [Option.isSome_iff_ne_none] using hne, rfl⟩)
    rw [hm] at this; simp [GoMap.keys] at this
  · intro h
    cases m with
    | nil => rfl
    | cons e m =>
      have : e.1 ∈ GoMap.keys (e :: m) := by simp [GoMap.keys]
      rcases (h2 _).1 this with h' | ⟨r, hr, h', -⟩
      · simp [GoMap.keys] at h'
      · rw [h r hr] at h'; simp at h'

/-- **C17 (what holds).** After an accepted request, with one response per update sent, the call
returns OK exactly when no response carries an error; otherwise InvalidArgument.  Partial: full C17
is for every error text, but a text that is not UTF-8 is lost (`C17_ok_iff_no_error_refuted`).  Ids are
texts in every request that comes off the wire. -/
theorem C17_ok_iff_no_error_partial (cmd : Cmd) (ids : List Str) (rs : List StateResponse)
    (perm : GoMap Str → GoMap Str) (hp : ∀ m, (perm m).Perm m)
    (hl : rs.length = (validateTicketIds ids).1.length) (hi : ∀ id ∈ ids, IsText id)
    (ht : ∀ r ∈ rs, ∀ e, r.err = some e → IsText r.result ∧ IsText e) :
    ∃ out, activeStateReturn cmd ids rs perm = some out ∧
      (out = none ↔ ∀ r ∈ rs, r.err = none) ∧ (∀ e, out = some e → e.code = .invalidArgument) := by
  obtain ⟨m, h1, h2⟩ := collectErrs_spec cmd (validateTicketIds ids).1 rs [] hl
  refine ⟨addStateUpdateErrorDetails (perm m), by simp [activeStateReturn, h1], ?_, fun e he => ?_⟩
  · rw [← errs_nil_iff h2]
    have htx := collectErrs_text cmd (validateTicketIds ids).1 rs [] m
      (fun id hid => hi id (by rw [validateTicketIds_eq] at hid; exact List.mem_of_mem_filter hid)) ht (by simp) h1
    constructor
    · intro h
      by_contra hne
      have hne' : perm m ≠ [] := fun h => hne (List.nil_perm.1 (h ▸ hp m))
      rw [addDetails_text (fun e he => htx e ((hp m).mem_iff.1 he)) hne'] at h
      simp at h
    · rintro rfl
      rw [List.perm_nil.1 (hp [])]
      rfl
  · rw [(addDetails_some he).2]

/-- **C17 (no false alarms).** An error, whatever the texts, is InvalidArgument with this message and means that some
response carries an error. -/
theorem C17_error_is_failure (cmd : Cmd) (ids : List Str) (rs : List StateResponse)
    (perm : GoMap Str → GoMap Str) (hp : ∀ m, (perm m).Perm m)
    (hl : rs.length = (validateTicketIds ids).1.length) (e : RpcErr)
    (h : activeStateReturn cmd ids rs perm = some (some e)) :
    e.code = .invalidArgument ∧ e.msg = "One or more state update arguments were invalid".toList ∧ ∃ r ∈ rs, r.err ≠ none := by
  obtain ⟨m, h1, h2⟩ := collectErrs_spec cmd (validateTicketIds ids).1 rs [] hl
  simp only [activeStateReturn, h1, Option.map_some, Option.some.injEq] at h
  obtain ⟨hne, he⟩ := addDetails_some h
  refine ⟨by rw [he], by rw [he], ?_⟩
  by_contra hno
  push Not at hno
  rw [(errs_nil_iff h2).2 hno] at hne
  exact hne (List.perm_nil.1 (hp []))

/-- **C17 is false**: Redis refuses an activation with a text that is not UTF-8 (as when it names a user
whose name is in Latin-1), the details cannot be marshalled, and the call returns OK. -/
theorem C17_ok_iff_no_error_refuted :
    ¬ ∀ (cfg : Config) (env : SendEnv) (s : Stream) (cmd : Cmd) (ids : List Str) (us : List StateUpdate),
      us.length ≤ env.cmds.length → env.lost = none → activeStateQueue cfg cmd ids = .ok us →
      activeStateReturn cmd ids (redisSend cfg env s us).2 id = some none →
      ∀ r ∈ (redisSend cfg env s us).2, r.err = none := by
  intro h
  have := h Config.default
    ⟨[⟨5000, some ("NOPERM User andr".toList ++ [Char.ofNat 0xE9] ++ " has no permissions".toList)⟩], 5, none, none⟩
    Stream.empty .activate ["4-1".toList] [⟨.activate, "4-1".toList, []⟩]
    (by decide) rfl (by decide) (by decide +kernel)
    ⟨[], some ("Redis output string conversion error: NOPERM User andr".toList ++ [Char.ofNat 0xE9] ++
      " has no permissions".toList)⟩ (by decide +kernel)
  simp at this

example : activeStateReturn .activate ["5-1".toList, "5-2".toList]
    [⟨"6-0".toList, none⟩, ⟨"5-2".toList, some "boom".toList⟩] id
    = some (some ⟨.invalidArgument, "One or more state update arguments were invalid".toList,
        [("ticketId/5-2".toList, "Unable to update ticket 5-2 state to active : boom".toList)]⟩) := by decide +kernel

example : IsText "5-2".toList ∧ IsText "boom".toList :=
  ⟨Wire.isText_ascii (by decide), Wire.isText_ascii (by decide)⟩

/-- **C18 is false with the Redis replicator**: the response to a failed XADD carries an
empty result instead of the ticket id, so all failures collapse into one nameless entry. -/
theorem C18_details_name_failures_refuted :
    ¬ ∀ (cfg : Config) (env : SendEnv) (s : Stream) (cmd : Cmd) (ids : List Str) (us : List StateUpdate)
        (e : RpcErr), us.length ≤ env.cmds.length → env.lost = none →
      activeStateQueue cfg cmd ids = .ok us →
      activeStateReturn cmd ids (redisSend cfg env s us).2 id = some (some e) →
      ∀ (i : Nat) (u : StateUpdate) (r : StateResponse), us[i]? = some u →
        (redisSend cfg env s us).2[i]? = some r → r.err.isSome → "ticketId/".toList ++ u.key ∈ e.violations.map (·.1) := by
  intro h
  have := h Config.default ⟨[⟨5000, some "OOM".toList⟩, ⟨5000, some "OOM".toList⟩], 5, none, none⟩ Stream.empty .activate
    ["4-1".toList, "4-2".toList] [⟨.activate, "4-1".toList, []⟩, ⟨.activate, "4-2".toList, []⟩]
    ⟨.invalidArgument, "One or more state update arguments were invalid".toList,
      [("ticketId/".toList, "Unable to update ticket 4-2 state to active : Redis output string conversion error: OOM".toList)]⟩
    (by decide) rfl (by decide) (by decide +kernel) 0 ⟨.activate, "4-1".toList, []⟩
    ⟨[], some "Redis output string conversion error: OOM".toList⟩ rfl (by decide) rfl
  revert this; decide

/-- **C18 (what holds).** Partial: full C18 covers every store.  For a store that obeys the
contract of `StateResponse` (store.go:31-32: on error, `Result` is the failed update's
key), the details have exactly one entry per distinct failed id. -/
theorem C18_details_name_failures_partial (cmd : Cmd) (ids : List Str) (rs : List StateResponse)
    (perm : GoMap Str → GoMap Str) (hp : ∀ m, (perm m).Perm m) (e : RpcErr)
    (hcontract : List.Forall₂ (fun id r => r.err.isSome = true → r.result = id) (validateTicketIds ids).1 rs)
    (h : activeStateReturn cmd ids rs perm = some (some e)) :
    (e.violations.map (·.1)).Nodup ∧
    ∀ f, f ∈ e.violations.map (·.1) ↔
      ∃ (i : Nat) (id : Str) (r : StateResponse), (validateTicketIds ids).1[i]? = some id ∧ rs[i]? = some r ∧
        r.err.isSome = true ∧ f = "ticketId/".toList ++ id := by
  unfold activeStateReturn at h
  generalize (validateTicketIds ids).1 = vs at *
  obtain ⟨m, h1, h2⟩ := collectErrs_spec cmd vs rs [] hcontract.length_eq.symm
  have hwf : m.WF := collectErrs_WF cmd vs rs [] m GoMap.WF_nil h1
  rw [h1] at h
  simp only [Option.map_some, Option.some.injEq] at h
  · have hv : e.violations.map (·.1) = (perm m).map (fun e => "ticketId/".toList ++ e.1) := by
      rw [(addDetails_some h).2]; simp
    have hperm : ((perm m).map fun e => "ticketId/".toList ++ e.1).Perm (m.keys.map ("ticketId/".toList ++ ·)) := by
      have := (hp m).map fun e => "ticketId/".toList ++ e.1
      simpa [GoMap.keys, Function.comp_def] using this
    refine ⟨?_, fun f => ?_⟩
    · rw [hv, hperm.nodup_iff]
      exact List.pairwise_map.2 (List.Pairwise.imp (fun h hab => h (List.append_cancel_left hab)) hwf)
    · rw [hv, hperm.mem_iff, List.mem_map]
      have hget := List.forall₂_iff_get.1 hcontract
      constructor
      · rintro ⟨k, hk, rfl⟩
        rcases (h2 k).1 hk with hk | ⟨r, hr, hr1, hr2⟩
        · simp [GoMap.keys] at hk
        · obtain ⟨i, hi, rfl⟩ := List.getElem_of_mem hr
          have hi' : i < vs.length := by rw [hget.1]; exact hi
          refine ⟨i, vs[i], rs[i], List.getElem?_eq_getElem hi', List.getElem?_eq_getElem hi, hr1, ?_⟩
          rw [← hr2]
          have := hget.2 i hi' hi hr1
          simp only [List.get_eq_getElem] at this
          rw [this]
      · rintro ⟨i, id, r, hid, hr, hr1, rfl⟩
        obtain ⟨hi, rfl⟩ := List.getElem?_eq_some_iff.1 hr
        obtain ⟨hi', rfl⟩ := List.getElem?_eq_some_iff.1 hid
        refine ⟨vs[i], (h2 _).2 (Or.inr ⟨rs[i], List.getElem_mem hi, hr1, ?_⟩), rfl⟩
        have := hget.2 i hi' hi hr1
        simpa using this

example : List.Forall₂ (fun (id : Str) (r : StateResponse) => r.err.isSome = true → r.result = id)
    (validateTicketIds ["5-1".toList, "5-2".toList]).1 [⟨"6-0".toList, none⟩, ⟨"5-2".toList, some "boom".toList⟩] := by
  have : (validateTicketIds ["5-1".toList, "5-2".toList]).1 = ["5-1".toList, "5-2".toList] := by decide
  rw [this]
  exact .cons (by simp) (.cons (by simp) .nil)

/-! ## C56, C57: CreateAssignments -/

/-- **C56 (refusal).** Without roster or assignment: InvalidArgument, nothing queued. -/
theorem C56_missing_refused (cd : Codec) (roster : Option Roster)
    (h : roster = none ∨ ∃ r, roster = some r ∧ r.assignment = none) :
    ∃ e, createAssignmentsQueue cd roster = .error e ∧ e.code = .invalidArgument := by
  rcases h with rfl | ⟨r, rfl, h⟩
  · exact ⟨_, rfl, rfl⟩
  · simp only [createAssignmentsQueue, h]; exact ⟨_, rfl, rfl⟩

/-- **C56.** An accepted call queues one assignment per roster ticket with an id, in order,
and nothing else; each carries the roster's assignment. -/
theorem C56_assignments_queued (cd : Codec) (hl : cd.Lawful) (r : Roster) (a : Assignment) (us : List StateUpdate)
    (ha : r.assignment = some a) (h : createAssignmentsQueue cd (some r) = .ok us) :
    us.map (·.key) = (r.tickets.map (·.id)).filter (fun id => decide (id ≠ [])) ∧
    ∀ u ∈ us, u.cmd = .assign ∧ SameAssignment (cd.decA u.value) a := by
  simp only [createAssignmentsQueue, ha] at h
  cases he : cd.encA a with
  | none => simp [he] at h
  | some b =>
    simp only [he, Except.ok.injEq] at h
    subst h
    constructor
    · generalize r.tickets = ts
      induction ts with
      | nil => rfl
      | cons t ts ih => by_cases ht : t.id = [] <;> simp [ht] at ih ⊢ <;> exact ih
    · intro u hu
      obtain ⟨t, -, ht⟩ := List.mem_filterMap.1 hu
      split at ht
      · simp at ht
      · injection ht with ht
        subst ht
        exact ⟨rfl, hl.assignment _ _ he⟩

example : createAssignmentsQueue Wire.codec (some ⟨[], some ⟨"h:1".toList, []⟩,
      [⟨"5-1".toList, none, none, []⟩, ⟨[], none, none, []⟩, ⟨"5-3".toList, none, none, []⟩], []⟩)
    = .ok [⟨.assign, "5-1".toList, "\n\x03h:1".toList⟩, ⟨.assign, "5-3".toList, "\n\x03h:1".toList⟩] := by decide

/-- Something the caller of CreateAssignments ought to hear about. -/
def AssignmentTrouble (cfg : Config) (r : Roster) (rs : List StateResponse) : Prop :=
  (∃ t ∈ r.tickets, t.id = []) ∨ (∃ p ∈ rs, p.err.isSome) ∨ (r.tickets.length : Int) > cfg.maxUpdates

/-- **C57 is false of the code**: errors are logged and then dropped; in all three cases
the call returns OK. -/
theorem C57_reports_failures_refuted :
    ¬ ∀ (cd : Codec) (cfg : Config) (r : Roster) (us : List StateUpdate) (rs : List StateResponse), cd.Lawful →
      createAssignmentsQueue cd (some r) = .ok us → rs.length = us.length → AssignmentTrouble cfg r rs →
      createAssignmentsReturn rs ≠ none := by
  intro h
  exact h Wire.codec Config.default ⟨[], some ⟨"h".toList, []⟩, [⟨"5-1".toList, none, none, []⟩], []⟩
    [⟨.assign, "5-1".toList, "\n\x01h".toList⟩] [⟨"5-1".toList, some "boom".toList⟩] Wire.codec_lawful (by decide) rfl
    (Or.inr (Or.inl ⟨⟨"5-1".toList, some "boom".toList⟩, by simp, rfl⟩)) rfl

/-- **C57 (what the caller is told).** Partial: full C57 wants an error in each troubled
case.  The only refusals are those made before anything is queued: no roster, no
assignment, or an assignment that cannot be marshalled. -/
theorem C57_reports_failures_partial (cd : Codec) (roster : Option Roster) :
    (∃ e, createAssignmentsQueue cd roster = .error e) ↔
      ∀ r a, roster = some r → r.assignment = some a → cd.encA a = none := by
  constructor
  · rintro ⟨e, he⟩ r a rfl ha
    simp only [createAssignmentsQueue, ha] at he
    cases hx : cd.encA a with
    | none => rfl
    | some b => simp [hx] at he
  · intro h
    cases roster with
    | none => exact ⟨_, rfl⟩
    | some r =>
      cases ha : r.assignment with
      | none => simp only [createAssignmentsQueue, ha]; exact ⟨_, rfl⟩
      | some a => simp only [createAssignmentsQueue, ha, h r a rfl ha]; exact ⟨_, rfl⟩

example : (createAssignmentsQueue Wire.codec (some ⟨[], none, [], []⟩)).toOption.isNone ∧
    (createAssignmentsQueue Wire.codec (some ⟨[], some ⟨[Char.ofNat 0xC3], []⟩, [], []⟩)).toOption.isNone ∧
    (createAssignmentsQueue Wire.codec (some ⟨[], some ⟨"h".toList, []⟩, [⟨[], none, none, []⟩], []⟩)).toOption.isSome := by
  decide +kernel

end OM.Props
