import Verif.Lemmas.JsonStrings
import Verif.Lemmas.ProtoJsonTypes
import Verif.Lemmas.JsonBlank
import Verif.Props.Matchmaker
import Verif.Props.Mmf
import Verif.Props.Schema
/-!
# Properties C109, C110 and C111: the API over REST

`Spec/Json.lean` and `Spec/ProtoJson.lean` say which texts hold which message.  The environment `e`
stands for the parameters: decimal numbers, extension types and options.  Where one program writes
and another reads, `e` has the writer's `types.enc` and `opts.emit` and the reader's `types.dec`,
`opts.discard` and `opts.lax`: writing and reading have no other part of `types` and `opts` in common.
-/
namespace OM.Props
open OM.Spec OM.PJ

/-! ## C109 -/

/-- **C109.** Over REST, every call takes a body for the message that its text is JSON for, and nothing
else: blank bodies are the empty message, and what follows the message does not matter. -/
theorem C109_requests_read (e : Env) (t : Str) :
    (∀ v, Gw.requestOf none (decodeBody (asCreateTicket e) t) = .ok v ↔ BodyJ (CreateTicketRequestJ e) none v t) ∧
    (∀ v, Gw.requestOf [] (decodeBody (asIds e) t) = .ok v ↔ BodyJ (IdsRequestJ e "ActivateTicketsRequest") [] v t) ∧
    (∀ v, Gw.requestOf [] (decodeBody (asIds e) t) = .ok v ↔ BodyJ (IdsRequestJ e "DeactivateTicketsRequest") [] v t) ∧
    (∀ v, Gw.requestOf [] (decodeBody (asIds e) t) = .ok v ↔ BodyJ (IdsRequestJ e "WatchAssignmentsRequest") [] v t) ∧
    (∀ v, Gw.requestOf (none, []) (decodeBody (asMmfRequest e) t) = .ok v ↔ BodyJ (MmfRequestJ e) (none, []) v t) ∧
    (∀ v, Gw.requestOf none (decodeBody (asCreateAssignments e) t) = .ok v ↔ BodyJ (CreateAssignmentsRequestJ e) none v t) :=
  ⟨body_iff (asCreateTicket_iff e) (fun _ _ ⟨ms, h, _⟩ => ⟨ms, h⟩) none t, body_iff (asIds_activate_iff e) (fun _ _ ⟨ms, h, _⟩ => ⟨ms, h⟩) [] t,
    body_iff (asIds_deactivate_iff e) (fun _ _ ⟨ms, h, _⟩ => ⟨ms, h⟩) [] t, body_iff (asIds_watch_iff e) (fun _ _ ⟨ms, h, _⟩ => ⟨ms, h⟩) [] t,
    body_iff (asMmfRequest_iff e) (fun _ _ ⟨ms, h, _⟩ => ⟨ms, h⟩) (none, []) t, body_iff (asCreateAssignments_iff e) (fun _ _ ⟨ms, h, _⟩ => ⟨ms, h⟩) none t⟩

/-- **C109 (refused).** Every other body is answered with HTTP status 400. -/
theorem C109_refused (e : Env) (t : Str) :
    ((∀ v, ¬ BodyJ (CreateTicketRequestJ e) none v t) → Gw.requestOf none (decodeBody (asCreateTicket e) t) = .error 400) ∧
    (∀ m ∈ ["ActivateTicketsRequest", "DeactivateTicketsRequest", "WatchAssignmentsRequest"],
      (∀ v, ¬ BodyJ (IdsRequestJ e m) [] v t) → Gw.requestOf [] (decodeBody (asIds e) t) = .error 400) ∧
    ((∀ v, ¬ BodyJ (MmfRequestJ e) (none, []) v t) → Gw.requestOf (none, []) (decodeBody (asMmfRequest e) t) = .error 400) ∧
    ((∀ v, ¬ BodyJ (CreateAssignmentsRequestJ e) none v t) → Gw.requestOf none (decodeBody (asCreateAssignments e) t) = .error 400) := by
  obtain ⟨h1, h2, h3, h4, h5, h6⟩ := C109_requests_read e t
  refine ⟨fun h => body_error _ _ _ fun v k => h v ((h1 v).mp k), fun m hm h => body_error _ _ _ fun v k => ?_,
    fun h => body_error _ _ _ fun v k => h v ((h5 v).mp k), fun h => body_error _ _ _ fun v k => h v ((h6 v).mp k)⟩
  simp only [List.mem_cons, List.not_mem_nil, or_false] at hm
  rcases hm with rfl | rfl | rfl
  · exact h v ((h2 v).mp k)
  · exact h v ((h3 v).mp k)
  · exact h v ((h4 v).mp k)

/-- A member's name that no message declares, under any spelling. -/
def Undeclared (k : Str) : Prop := ∀ m f ty n, Declared m f ty n → k ≠ f.toList ∧ k ≠ camel f.toList

theorem hasJ_undeclared {m f ty : String} {l r : List (Str × Json)} {x : Str × Json} {R : List Json → Prop} (hx : Undeclared x.1) :
    HasJ m f ty (l ++ x :: r) R ↔ HasJ m f ty (l ++ r) R := by
  refine and_congr_right ?_
  rintro ⟨n, hd⟩
  obtain ⟨h1, h2⟩ := hx m f ty n hd
  have : occJ f (l ++ x :: r) = occJ f (l ++ r) := by simp [occJ, h1, h2]
  rw [this]

/-- **C109 (unknown members).** Members with names that the API does not have do not matter to the gateway,
in any part of a request. -/
theorem C109_undeclared_ignored (fl : FloatText) (types : AnyTypes) (lax : Bool) (l r : List (Str × Json)) (x : Str × Json)
    (hx : Undeclared x.1) :
    let e : Env := ⟨fl, types, gatewayOpts lax⟩
    let with_ := Json.obj (l ++ x :: r)
    let without := Json.obj (l ++ r)
    (∀ v, CreateTicketRequestJ e v with_ ↔ CreateTicketRequestJ e v without) ∧
    (∀ m v, IdsRequestJ e m v with_ ↔ IdsRequestJ e m v without) ∧
    (∀ v, MmfRequestJ e v with_ ↔ MmfRequestJ e v without) ∧
    (∀ v, CreateAssignmentsRequestJ e v with_ ↔ CreateAssignmentsRequestJ e v without) ∧
    (∀ v, TicketJ e v with_ ↔ TicketJ e v without) ∧
    (∀ v, DataJ e v with_ ↔ DataJ e v without) ∧
    (∀ v, AssignmentJ e v with_ ↔ AssignmentJ e v without) ∧
    (∀ v, RosterJ e v with_ ↔ RosterJ e v without) ∧
    (∀ v, ProfileJ e v with_ ↔ ProfileJ e v without) ∧
    (∀ v, PoolJ e v with_ ↔ PoolJ e v without) ∧
    (∀ v, TagFilterJ e v with_ ↔ TagFilterJ e v without) ∧
    (∀ v, StrFilterJ e v with_ ↔ StrFilterJ e v without) ∧
    (∀ v, DblFilterJ e v with_ ↔ DblFilterJ e v without) ∧
    (∀ v, CtFilterJ e v with_ ↔ CtFilterJ e v without) ∧
    (∀ v, SpecJ e v with_ ↔ SpecJ e v without) := by
  intro e a b
  have hk : ∀ m ms, KnownJ e m ms := fun _ _ => .inl rfl
  refine ⟨?_, ?_, ?_, ?_, ?_, ?_, ?_, ?_, ?_, ?_, ?_, ?_, ?_, ?_, ?_⟩ <;> intros <;>
    simp only [a, b, CreateTicketRequestJ, IdsRequestJ, MmfRequestJ, CreateAssignmentsRequestJ, TicketJ, DataJ, AssignmentJ, RosterJ, ProfileJ,
      PoolJ, TagFilterJ, StrFilterJ, DblFilterJ, CtFilterJ, SpecJ, Json.obj.injEq, exists_eq_left', hk, true_and, hasJ_undeclared hx]

example : Undeclared "colour".toList := by
  rintro m f ty n ⟨d, hd, -, hf⟩
  have : ∀ d ∈ published, ∀ x ∈ d.2, "colour".toList ≠ x.1.toList ∧ "colour".toList ≠ camel x.1.toList := by decide +kernel
  exact this d hd _ hf

/-- What is written is read as it was. -/
theorem passed_on {α : Type} {enc : α → List Wire.Field} {okb : α → Bool} {subs : Wire.Content} {dec : List Wire.Field → α} {v : α}
    {R : α → Str → Prop} {ok go : α → Prop} {texts : List Str} (hw : Spec.Writes (Wire.marshal enc okb v) (R v) texts) (ht : ∀ s ∈ texts, IsText s)
    (hc : Wire.Cpl R subs ok) (hd : ∀ v b, R v b → go v → dec (Wire.parse b) = v) (hk : ok v) (hg : go v) :
    ∃ b, Wire.marshal enc okb v = some b ∧ (b.length < 2 ^ 64 → Wire.receive subs dec b = some v) := by
  obtain ⟨b, h1, h2⟩ := hw.1 ht
  exact ⟨b, h1, fun hl => Wire.receive_of hc hd (h2 hl) hk hg⟩

theorem passed_ticket {v : Option Ticket} (hk : Wire.createTicketOk v = true) : ∃ b, Wire.marshal Wire.createTicketF Wire.createTicketOk v = some b ∧
    (b.length < 2 ^ 64 → Wire.receive Wire.createTicketC Wire.toCreateTicket b = some v) := by
  have h := Wire.opt_good (o := v) Wire.ticket_good hk
  obtain ⟨hg, ht⟩ := (Wire.optV_iff v).1 h
  exact passed_on (C107_written_as_published.2.2.2.2.1 v hg) ht Wire.createTicket_cpl Wire.createTicket_of h hg

/-- **C109 (to the server).** The gateway can send on every request that it has read, and the server
receives the same message (no program can write 2^64 bytes). -/
theorem C109_reaches_server {e : Env} (hB : BytesOk e) (t : Str) :
    (∀ v, Gw.requestOf none (decodeBody (asCreateTicket e) t) = .ok v → ∃ b,
      Wire.marshal Wire.createTicketF Wire.createTicketOk v = some b ∧
        (b.length < 2 ^ 64 → Wire.receive Wire.createTicketC Wire.toCreateTicket b = some v)) ∧
    (∀ v, Gw.requestOf [] (decodeBody (asIds e) t) = .ok v → ∃ b,
      Wire.marshal Wire.idsF Wire.idsOk v = some b ∧ (b.length < 2 ^ 64 → Wire.receive Wire.idsC Wire.toIds b = some v)) ∧
    (∀ v, Gw.requestOf (none, []) (decodeBody (asMmfRequest e) t) = .ok v → ∃ b,
      Wire.marshal Wire.mmfRequestF Wire.mmfRequestOk v = some b ∧
        (b.length < 2 ^ 64 → Wire.receive Wire.mmfRequestC Wire.toMmfRequest b = some v)) ∧
    (∀ v, Gw.requestOf none (decodeBody (asCreateAssignments e) t) = .ok v → ∃ b,
      Wire.marshal Wire.createAssignmentsF Wire.createAssignmentsOk v = some b ∧
        (b.length < 2 ^ 64 → Wire.receive Wire.createAssignmentsC Wire.toCreateAssignments b = some v)) := by
  obtain ⟨h1, h2, -, -, h5, h6⟩ := C109_requests_read e t
  refine ⟨fun v h => ?_, fun v h => ?_, fun v h => ?_, fun v h => ?_⟩
  · exact passed_ticket (body_ok (ok := Wire.createTicketOk) (createTicketJ_ok hB) rfl ((h1 v).mp h))
  · have ht := idsOk_iff.1 (body_ok (ok := Wire.idsOk) (idsJ_ok hB) rfl ((h2 v).mp h))
    exact passed_on (C107_written_as_published.2.2.2.2.2.1 "ActivateTicketsRequest" (by simp) v) ht
      (Wire.ids_cpl (m := "ActivateTicketsRequest") (by simp)) (Wire.ids_of (by simp)) ht trivial
  · have hk := body_ok (ok := Wire.mmfRequestOk) (mmfRequestJ_ok hB) rfl ((h5 v).mp h)
    simp only [Wire.mmfRequestOk, Bool.and_eq_true, List.all_eq_true] at hk
    have hp := Wire.opt_good (o := v.1) Wire.profile_good hk.1
    have hs : ∀ s ∈ v.2, Wire.SpecV s := fun s hs => Wire.spec_good (hk.2 s hs)
    obtain ⟨hg, ht⟩ := (Wire.optV_iff v.1).1 hp
    exact passed_on (C107_written_as_published.2.2.2.2.2.2.1 v.1 v.2 hg fun s h => (hs s h).1)
      (List.forall_mem_append.2 ⟨ht, Wire.list_texts.2 fun s h => (hs s h).2⟩) Wire.mmfRequest_cpl Wire.mmfRequest_of ⟨hp, hs⟩
      ⟨hg, fun s h => (hs s h).1⟩
  · have hk := Wire.opt_good (o := v) Wire.roster_good (body_ok (ok := Wire.createAssignmentsOk) (createAssignmentsJ_ok hB) rfl ((h6 v).mp h))
    obtain ⟨hg, ht⟩ := (Wire.optV_iff v).1 hk
    exact passed_on (C107_written_as_published.2.2.2.2.2.2.2 v hg) ht Wire.createAssignments_cpl Wire.createAssignments_of hk hg

/-- A gateway that knows the types of the example's extensions. -/
def sampleEnv : Env := ⟨bitsText, wellKnown, gatewayOpts false⟩

example : EnvOk sampleEnv ∧ BytesOk sampleEnv := ⟨wellKnown_ok (fun x _ _ _ => bitsText_ok x) _, wellKnown_bytes _ _⟩

/-- A body as a client may write it: either name, any order, null, white space, something unknown, and
something after the message. -/
def sampleBody : Str :=
  " {\"ticket\": {\"extensions\": null, \"colour\": [1, {}], \"attributes\": {\"string_args\": {\"mode\": \"d\\u0075el\"},\n  \"tags\": [\"a\"], \"creationTime\": \"2024-02-29T01:00:00.5+01:00\"}}} trailing".toList

def sampleData : FilterableData := ⟨["a".toList], [("mode".toList, "duel".toList)], [], some ⟨1709164800, 500000000⟩⟩

example : Gw.requestOf none (decodeBody (asCreateTicket sampleEnv) sampleBody) = .ok (some ⟨[], none, some sampleData, []⟩) := by decide +kernel
example : Gw.requestOf none (decodeBody (asCreateTicket ⟨bitsText, wellKnown, exampleOpts⟩) sampleBody) = .error 400 := by decide +kernel
example : Gw.requestOf none (decodeBody (asCreateTicket sampleEnv) " \n".toList) = .ok none := by decide +kernel
example : Gw.requestOf none (decodeBody (asCreateTicket sampleEnv) "{\"ticket\": {\"id\": \"a\", \"id\": \"a\"}}".toList) = .error 400 := by decide +kernel
example : Gw.requestOf [] (decodeBody (asIds sampleEnv) "{\"ticket_ids\": [\"1-0\"], \"ticketIds\": []}".toList) = .error 400 := by decide +kernel
example : Gw.requestOf [] (decodeBody (asIds sampleEnv) "{\"ticket_ids\": [\"1-0\", \"2-0\"]}".toList) = .ok ["1-0".toList, "2-0".toList] := by decide +kernel

def skillUrl : Str := "type.googleapis.com/acme.Skill".toList

theorem skillUrl_ne : skillUrl ≠ [] := by decide

/-- A ticket with an extension of the game's own type. -/
def gameTicket : Ticket := ⟨[], none, none, [("skill".toList, ⟨skillUrl, []⟩)]⟩

/-- **C109, where REST falls short of gRPC.** A ticket with an extension of a type that om-core does
not have cannot be created over REST, whatever the body; over gRPC it can. -/
theorem C109_any_ticket_refuted (e : Env) (h : ∀ ms, e.types.dec skillUrl ms = none) (t : Str) :
    Gw.requestOf none (decodeBody (asCreateTicket e) t) ≠ .ok (some gameTicket) ∧
    ∃ b, Wire.marshal Wire.createTicketF Wire.createTicketOk (some gameTicket) = some b ∧
      Wire.receive Wire.createTicketC Wire.toCreateTicket b = some (some gameTicket) := by
  constructor
  · rw [Ne, (C109_requests_read e t).1]
    rintro (⟨-, h0⟩ | ⟨w, x, r, j, -, -, -, -, ms, -, -, -, j1, -, -, ms1, -, -, -, -, -, -, hext⟩)
    · cases h0
    · rcases hext with ⟨l, -, -, hl⟩ | ⟨h0, -⟩
      · cases hl with
        | cons hx _ =>
          obtain ⟨-, ms2, -, h3 | h3 | h3⟩ := hx
          · exact absurd (congrArg AnyPb.typeUrl h3.1) skillUrl_ne
          · exact absurd (congrArg AnyPb.typeUrl h3.1) skillUrl_ne
          · rw [h] at h3
            cases h3.2
      · cases h0
  · exact ⟨_, rfl, by decide +kernel⟩

example : ∀ ms, sampleEnv.types.dec skillUrl ms = none := by
  intro ms
  rw [sampleEnv, wellKnown_dec, if_neg (by decide +kernel), if_neg (by decide +kernel), if_neg (by decide +kernel)]

/-! ## C110 -/

/-- **C110.** A message can be written as JSON exactly if its strings are texts, its times are in the years
1 to 9999 and its extensions are of known types; and then the text is JSON for the message. -/
theorem C110_answers {e : Env} (he : EnvOk e) (html : Bool) (sep : Str) (hs : Ws sep) :
    (∀ id, ((∃ t, marshal (createdJson e) html sep id = some t) ↔ IsText id) ∧
      ∀ t, marshal (createdJson e) html sep id = some t → DocJ (CreateTicketResponseJ e) id t) ∧
    (∀ m, ((∃ t, marshal (mmfResponseJson e) html sep m = some t) ↔ OptAll (MatchOk e) m) ∧
      ∀ t, OptAll (MatchGo e) m → marshal (mmfResponseJson e) html sep m = some t → DocJ (MmfResponseJ e) m t) ∧
    (∀ a, ((∃ t, marshal (watchResponseJson e) html sep a = some t) ↔ OptAll (AssignmentOk e) a.1 ∧ IsText a.2) ∧
      ∀ t, OptAll (AssignmentGo e) a.1 → marshal (watchResponseJson e) html sep a = some t → DocJ (WatchResponseJ e) a t) :=
  ⟨fun id => ⟨marshal_iff (createdW he) html sep id, fun _ h => marshal_doc (createdW he) hs trivial h⟩,
    fun m => ⟨marshal_iff (mmfResponseW he) html sep m, fun _ hg h => marshal_doc (mmfResponseW he) hs hg h⟩,
    fun a => ⟨marshal_iff (watchResponseW he) html sep a, fun _ hg h => marshal_doc (watchResponseW he) hs hg h⟩⟩

def sampleMatch : Match :=
  ⟨"duel-1".toList, [("all".toList, ⟨"all".toList, none, [⟨"1-0".toList, none, some sampleData, []⟩], []⟩)], [("score".toList, Mmf.anyInt32 3)]⟩

example : (marshal (mmfResponseJson sampleEnv) true [] (some sampleMatch)).bind (unmarshal (asMmfResponse sampleEnv)) = some (some sampleMatch) := by decide +kernel

theorem sampleEnv_ok : EnvOk sampleEnv := wellKnown_ok (fun x _ _ _ => bitsText_ok x) _

theorem sampleMatch_ok : OptAll (MatchOk sampleEnv) (some sampleMatch) ∧ OptAll (MatchGo sampleEnv) (some sampleMatch) := by
  constructor
  · exact (((C110_answers sampleEnv_ok true [] (by intro c hc; cases hc)).2.1 _).1).mp (Option.isSome_iff_exists.mp (by decide +kernel))
  · intro m hm
    cases hm
    refine ⟨⟨by decide, ?_⟩, by decide, ?_⟩
    · intro x hx
      rw [List.mem_singleton.mp hx]
      refine ⟨(fun a ha => by cases ha), ?_, by decide, (fun x hx => by cases hx)⟩
      intro t ht
      rw [List.mem_singleton.mp ht]
      refine ⟨?_, by decide, (fun x hx => by cases hx)⟩
      intro d hd
      cases hd
      exact ⟨⟨by decide, fun _ _ => trivial⟩, by decide, fun x hx => by cases hx⟩
    · intro x hx
      rw [List.mem_singleton.mp hx]
      exact (anyInt32_ok ⟨by decide, by decide⟩).2

/-- **C110, the streams.** Over REST the client gets JSON for each match, up to the first one that cannot
be written; there, and only there, the gateway ends the stream with an error.  Assignments likewise. -/
theorem C110_streams_partial {e : Env} (he : EnvOk e) :
    (∀ ms, (∀ m ∈ ms, OptAll (MatchOk e) m) → (streamed (mmfResponseJson e) ms).2 = false ∧
      ((∀ m ∈ ms, OptAll (MatchGo e) m) → List.Forall₂ (DocJ (MmfResponseJ e)) ms (streamed (mmfResponseJson e) ms).1)) ∧
    (∀ ms m ms', (∀ m ∈ ms, OptAll (MatchOk e) m) → ¬ OptAll (MatchOk e) m →
      streamed (mmfResponseJson e) (ms ++ m :: ms') = ((streamed (mmfResponseJson e) ms).1, true)) ∧
    (∀ as, (∀ a ∈ as, OptAll (AssignmentOk e) a.1 ∧ IsText a.2) → (streamed (watchResponseJson e) as).2 = false ∧
      ((∀ a ∈ as, OptAll (AssignmentGo e) a.1) → List.Forall₂ (DocJ (WatchResponseJ e)) as (streamed (watchResponseJson e) as).1)) ∧
    (∀ as a as', (∀ a ∈ as, OptAll (AssignmentOk e) a.1 ∧ IsText a.2) → ¬ (OptAll (AssignmentOk e) a.1 ∧ IsText a.2) →
      streamed (watchResponseJson e) (as ++ a :: as') = ((streamed (watchResponseJson e) as).1, true)) :=
  ⟨streamed_all (mmfResponseW he), streamed_until (mmfResponseW he), streamed_all (watchResponseW he), streamed_until (watchResponseW he)⟩

/-- A match with an extension of the game's own type. -/
def gameMatch : Match := ⟨"m".toList, [], [("skill".toList, ⟨skillUrl, []⟩)]⟩

/-- **C110 is false as it stands** (the client gets the same matches over REST as over gRPC): a match with
an extension of a type that om-core does not have is sent over gRPC, but ends the REST stream, and the
matches after it are lost with it. -/
theorem C110_same_matches_refuted {e : Env} (he : EnvOk e) (h : ∀ v, e.types.enc skillUrl v = none) (ms ms' : List (Option Match))
    (hms : ∀ m ∈ ms, OptAll (MatchOk e) m) :
    (∃ b, Wire.encResponse (some gameMatch) = some b ∧ Wire.decResponse b = some gameMatch) ∧
    streamed (mmfResponseJson e) (ms ++ some gameMatch :: ms') = ((streamed (mmfResponseJson e) ms).1, true) := by
  constructor
  · have hk : Wire.matchOk gameMatch = true := by decide +kernel
    have hb : Wire.encResponse (some gameMatch) = some (Wire.ser (Wire.responseF (some gameMatch))) := if_pos hk
    exact ⟨_, hb, Wire.decResponse_encResponse hb⟩
  · refine (C110_streams_partial he).2.1 ms _ ms' hms fun hk => ?_
    obtain ⟨-, -, hx⟩ := hk gameMatch rfl
    obtain ⟨-, h1 | ⟨-, -, ms, t, h2, -⟩⟩ := hx ("skill".toList, ⟨skillUrl, []⟩) (by simp [gameMatch])
    · exact absurd (congrArg AnyPb.typeUrl h1) skillUrl_ne
    · rw [h] at h2; cases h2

example : ∀ v, sampleEnv.types.enc skillUrl v = none := by
  intro v
  rw [sampleEnv, wellKnown_enc]
  cases Wire.parseAll v with
  | none => rfl
  | some fs =>
    rw [Option.bind_some, if_neg (by decide +kernel), if_neg (by decide +kernel), if_neg (by decide +kernel)]

/-- The tickets of a profile's pools. -/
def InPools (p : Profile) (t : Ticket) : Prop := ∃ x ∈ p.pools, ∃ r, x.2.participants = some r ∧ t ∈ r.tickets

theorem inPools_participants {p : Profile} {name : Str} {t : Ticket} (h : t ∈ Mmf.participants (p.pools.load name)) : InPools p t := by
  unfold Mmf.participants at h
  cases hl : p.pools.load name with
  | none => rw [hl] at h; cases h
  | some q =>
    rw [hl] at h
    cases hp : q.participants with
    | none => rw [Option.bind_some, hp] at h; cases h
    | some r =>
      rw [Option.bind_some, hp] at h
      exact ⟨(name, q), GoMap.mem_of_load hl, r, hp, h⟩

theorem extensionsFor_ok {fl : FloatText} {o : Opts} {name prof : Str} (hn : IsText name) (hp : IsText prof) :
    (∀ x ∈ Mmf.extensionsFor name prof, IsText x.1 ∧ AnyOk ⟨fl, wellKnown, o⟩ x.2) ∧
    (∀ x ∈ Mmf.extensionsFor name prof, AnyGo ⟨fl, wellKnown, o⟩ x.2) := by
  have key : ∀ x ∈ Mmf.extensionsFor name prof, IsText x.1 ∧ AnyOk ⟨fl, wellKnown, o⟩ x.2 ∧ AnyGo ⟨fl, wellKnown, o⟩ x.2 := by
    intro x hx
    simp only [Mmf.extensionsFor, List.mem_cons, List.not_mem_nil, or_false] at hx
    rcases hx with rfl | rfl | rfl
    · exact ⟨isText_ascii (s := "score".toList) (by decide), anyInt32_ok ⟨by decide, by decide⟩⟩
    · exact ⟨isText_ascii (s := "mmfName".toList) (by decide), anyString_ok hn⟩
    · exact ⟨isText_ascii (s := "profileName".toList) (by decide), anyString_ok hp⟩
  exact ⟨fun x hx => ⟨(key x hx).1, (key x hx).2.1⟩, fun x hx => (key x hx).2.2⟩

theorem rosterName_text {name : Str} (h : IsText name) (n : Nat) : IsText (Mmf.rosterName name n) :=
  isText_append (isText_append h (isText_ascii (by decide))) (isText_fmtNatPad 4 n)

theorem matchId_text {name t : Str} (h : IsText name) (ht : IsText t) (n : Nat) : IsText (Mmf.matchId name t n) :=
  isText_append (isText_append (isText_append (isText_append (isText_append (isText_ascii (by decide)) h) (isText_ascii (by decide))) ht)
    (isText_ascii (by decide))) (isText_fmtNat n)

/-- **C110, the MMFs of this repository.** All their matches can be written as JSON, if the tickets of the
pools and the profile's name can. -/
theorem C110_example_functions {fl : FloatText} {o : Opts} (ok : Nat → Bool) (t : Str) (times : Nat → Str) (now : Nat → Timestamp) (p : Profile)
    (ord : GoMap Pool) (hord : ord.Perm p.pools) (ht : IsText t) (hts : ∀ n, IsText (times n)) (hnow : ∀ n, TimeOk (now n)) (hp : IsText p.name)
    (htk : ∀ x, InPools p x → TicketOk ⟨fl, wellKnown, o⟩ x ∧ TicketGo ⟨fl, wellKnown, o⟩ x) :
    ∀ r, (Mmf.soloduel ok t now ord (some p) = some r ∨ Mmf.battleroyale ok t now (some p) = some r ∨
      Mmf.teamshooter ok times now (some p) = some r) →
    ∀ m ∈ r.sent, MatchOk ⟨fl, wellKnown, o⟩ m ∧ MatchGo ⟨fl, wellKnown, o⟩ m := by
  have one : ∀ (name : Str) (n : Nat) (ts : List Ticket), IsText name → (∀ x ∈ ts, InPools p x) →
      let m : Match := { id := Mmf.matchId name t n, rosters := [(Mmf.rosterName name n, { name := Mmf.rosterName name n, assignment := none, tickets := ts, extensions := [("CreationTime".toList, Mmf.anyTime (now n))] })], extensions := Mmf.extensionsFor name p.name }
      MatchOk ⟨fl, wellKnown, o⟩ m ∧ MatchGo ⟨fl, wellKnown, o⟩ m := by
    intro name n ts hn hin
    have hx := extensionsFor_ok (fl := fl) (o := o) hn hp
    have hr := rosterName_text hn n
    have htime := anyTime_ok (fl := fl) (o := o) (hnow n)
    refine ⟨⟨matchId_text hn ht n, ?_, hx.1⟩, ⟨by simp, ?_⟩, ⟨by simp [Mmf.extensionsFor], hx.2⟩⟩
    · intro x hx
      rw [List.mem_singleton.mp hx]
      refine ⟨hr, hr, (fun a ha => by cases ha), fun x hx => (htk x (hin x hx)).1, ?_⟩
      intro y hy
      rw [List.mem_singleton.mp hy]
      exact ⟨isText_ascii (s := "CreationTime".toList) (by decide), htime.1⟩
    · intro x hx
      rw [List.mem_singleton.mp hx]
      refine ⟨(fun a ha => by cases ha), fun x hx => (htk x (hin x hx)).2, by simp, ?_⟩
      intro y hy
      rw [List.mem_singleton.mp hy]
      exact htime.2
  rintro r (h | h | h) m hm
  · obtain ⟨r', k, h1, -, h3⟩ := solo_run ok t now ord p
    rw [h] at h1
    cases h1
    rw [h3] at hm
    obtain ⟨n, -, rfl⟩ := List.mem_map.1 hm
    refine one Mmf.soloName n _ (isText_ascii (by decide)) fun x hx => ?_
    obtain ⟨y, hy, q⟩ := mem_allTickets.mp (List.mem_of_mem_drop (List.mem_of_mem_take hx))
    exact ⟨y, hord.mem_iff.mp hy, q⟩
  · obtain ⟨r', k, h1, -, h3⟩ := br_run ok t now p
    rw [h] at h1
    cases h1
    rw [h3] at hm
    obtain ⟨n, -, rfl⟩ := List.mem_map.1 hm
    refine one Mmf.brName n _ (isText_ascii (by decide)) fun x hx => ?_
    have hx := List.mem_of_mem_drop (List.mem_of_mem_take hx)
    rw [← Mmf.participants_load] at hx
    exact inPools_participants hx
  · obtain ⟨r', k, h1, -, h3⟩ := ts_run ok times now p
    rw [h] at h1
    cases h1
    rw [h3] at hm
    obtain ⟨n, -, rfl⟩ := List.mem_map.1 hm
    have hn : IsText Mmf.tsName := isText_ascii (by decide)
    have hx := extensionsFor_ok (fl := fl) (o := o) hn hp
    have htime := anyTime_ok (fl := fl) (o := o) (hnow n)
    have hteam : ∀ i, ∀ x ∈ Mmf.team p.pools n i, InPools p x := by
      intro i x hx
      unfold Mmf.team at hx
      rcases List.mem_append.mp hx with hx | hx
      · rcases List.mem_append.mp hx with hx | hx
        · exact inPools_participants (List.mem_of_mem_drop (List.mem_of_mem_take hx))
        · exact inPools_participants (List.mem_of_mem_drop (List.mem_of_mem_take hx))
      · exact inPools_participants (List.mem_of_mem_drop (List.mem_of_mem_take hx))
    have hname : ∀ i, IsText (Mmf.teamName i) := fun i => isText_append (isText_ascii (by decide)) (isText_fmtNatPad 2 i)
    have hro : ∀ i j, RosterOk ⟨fl, wellKnown, o⟩ ⟨Mmf.teamName i, none, Mmf.team p.pools n j, []⟩ ∧
        RosterGo ⟨fl, wellKnown, o⟩ ⟨Mmf.teamName i, none, Mmf.team p.pools n j, []⟩ := fun i j =>
      ⟨⟨hname i, (fun a ha => by cases ha), fun x hx => (htk x (hteam j x hx)).1, fun x hx => by cases hx⟩,
        (fun a ha => by cases ha), fun x hx => (htk x (hteam j x hx)).2, List.nodup_nil, fun x hx => by cases hx⟩
    refine ⟨⟨matchId_text hn (hts n) n, ?_, ?_⟩, ⟨(by decide +kernel : [Mmf.teamName 1, Mmf.teamName 2].Nodup), ?_⟩,
      ⟨(by decide : ["score".toList, "mmfName".toList, "profileName".toList, "creationTime".toList].Nodup), ?_⟩⟩
    · intro x hx
      simp only [List.mem_cons, List.not_mem_nil, or_false] at hx
      rcases hx with rfl | rfl
      · exact ⟨hname 1, (hro 1 0).1⟩
      · exact ⟨hname 2, (hro 2 1).1⟩
    · intro x hx'
      rcases List.mem_append.mp hx' with hx' | hx'
      · exact hx.1 x hx'
      · rw [List.mem_singleton.mp hx']
        exact ⟨isText_ascii (s := "creationTime".toList) (by decide), htime.1⟩
    · intro x hx
      simp only [List.mem_cons, List.not_mem_nil, or_false] at hx
      rcases hx with rfl | rfl
      · exact (hro 1 0).2
      · exact (hro 2 1).2
    · intro x hx'
      rcases List.mem_append.mp hx' with hx' | hx'
      · exact hx.2 x hx'
      · rw [List.mem_singleton.mp hx']
        exact htime.2

/-! ## C111 -/

/-- **C111.** What the example posts to om-core over REST is read as the request it meant, if the request
can be written; if not, om-core reads the empty request. -/
theorem C111_requests_arrive {e : Env} (he : EnvOk e) (sep : Str) (hs : Ws sep) :
    (∀ t, OptAll (TicketGo e) t →
      (OptAll (TicketOk e) t → Gw.requestOf none (decodeBody (asCreateTicket e) (postBody (createTicketJson e) sep t)) = .ok t) ∧
      (¬ OptAll (TicketOk e) t → Gw.requestOf none (decodeBody (asCreateTicket e) (postBody (createTicketJson e) sep t)) = .ok none)) ∧
    (∀ ids, (ListAll IsText ids → Gw.requestOf [] (decodeBody (asIds e) (postBody (idsJson e) sep ids)) = .ok ids) ∧
      (¬ ListAll IsText ids → Gw.requestOf [] (decodeBody (asIds e) (postBody (idsJson e) sep ids)) = .ok [])) ∧
    (∀ q : Option Profile × List Serve.MmfSpec, OptAll (ProfileGo e) q.1 → ListAll SpecGo q.2 →
      (OptAll (ProfileOk e) q.1 ∧ ListAll SpecOk q.2 →
        Gw.requestOf (none, []) (decodeBody (asMmfRequest e) (postBody (mmfRequestJson e) sep q)) = .ok q) ∧
      (¬ (OptAll (ProfileOk e) q.1 ∧ ListAll SpecOk q.2) →
        Gw.requestOf (none, []) (decodeBody (asMmfRequest e) (postBody (mmfRequestJson e) sep q)) = .ok (none, []))) := by
  have key : ∀ {α : Type} {enc : α → Option Json} {ok go : α → Prop} {R : α → Json → Prop} (w : Writes enc ok go R) {dec : Json → Option α}
      (zero : α) (_ : ∀ t v, Gw.requestOf zero (decodeBody dec t) = .ok v ↔ BodyJ R zero v t) (v : α), go v →
      (ok v → Gw.requestOf zero (decodeBody dec (postBody enc sep v)) = .ok v) ∧
      (¬ ok v → Gw.requestOf zero (decodeBody dec (postBody enc sep v)) = .ok zero) := by
    intro α enc ok go R w dec zero hd v hg
    constructor
    · intro hk
      obtain ⟨t, ht⟩ := (marshal_iff w false sep v).mpr hk
      rw [postBody, ht, Option.getD_some, hd]
      exact doc_body (marshal_doc w hs hg ht)
    · intro hk
      have : marshal enc false sep v = none := by
        cases hm : marshal enc false sep v with
        | none => rfl
        | some t => exact absurd ((marshal_iff w false sep v).mp ⟨t, hm⟩) hk
      rw [postBody, this]
      rfl
  exact ⟨fun t => key (createTicketW he) none (fun t => (C109_requests_read e t).1) t,
    fun ids => key (activateIdsW he) [] (fun t => (C109_requests_read e t).2.1) ids trivial,
    fun q h1 h2 => key (mmfRequestW he) (none, []) (fun t => (C109_requests_read e t).2.2.2.2.1) q ⟨h1, h2⟩⟩

/-- **C111.** The example reads the id of a ticket created over REST as om-core sent it. -/
theorem C111_id_returns {e : Env} (he : EnvOk e) (sep : Str) (hs : Ws sep) (id : Str) (h : IsText id) :
    ∃ t, marshal (createdJson e) false sep id = some t ∧ unmarshal (asCreated e) t = some id := by
  obtain ⟨h1, h2⟩ := (C110_answers he false sep hs).1 id
  obtain ⟨t, ht⟩ := h1.mpr h
  exact ⟨t, ht, (unmarshal_iff (asCreated_iff e) t id).mpr (h2 t ht)⟩

/-- The written lines, in code points. -/
theorem stream_lines {e : Env} (he : EnvOk e) (ms : List (Option Match)) (hk : ∀ m ∈ ms, OptAll (MatchOk e) m)
    (hg : ∀ m ∈ ms, OptAll (MatchGo e) m) :
    ∃ (cs : List Str) (js : List Json), streamed (mmfResponseJson e) ms = (cs.map fun c => c.flatMap charBytes, false) ∧
      List.Forall₂ (MmfResponseJ e) ms js ∧ List.Forall₂ (fun j c => JDoc j (c.flatMap charBytes)) js cs ∧
      (∀ c ∈ cs, '\n' ∉ c) ∧ ((∃ c ∈ cs, ∃ x ∈ c, White x) ↔ ∃ m ∈ ms, HasBlank (optStrings (matchStrings e) m)) := by
  induction ms with
  | nil => exact ⟨[], [], rfl, .nil, .nil, by simp, by simp⟩
  | cons m ms ih =>
    obtain ⟨cs, js, h1, h2, h3, h4, h5⟩ := ih (fun x hx => hk x (List.mem_cons_of_mem _ hx)) fun x hx => hg x (List.mem_cons_of_mem _ hx)
    have w := mmfResponseW he
    obtain ⟨j, hj, ht⟩ := (w.exact_ m).mpr (hk m (by simp))
    have hn := (w.shape _ _ hj).1
    obtain ⟨c, hc, hcn, hcw⟩ := Json.write_line j hn ht
    refine ⟨c :: cs, j :: js, ?_, .cons (w.means _ _ hj (hg m (by simp))) h2, .cons ?_ h3, ?_, ?_⟩
    · rw [streamed]
      have : marshal (mmfResponseJson e) true [] m = some (Json.write true [] j) := by
        rw [marshal, hj, Option.bind_some, if_pos ht]
      rw [this]
      simp only [h1, hc, List.map_cons]
    · rw [← hc]
      exact Json.write_doc true (by intro c hc; cases hc) hn ht
    · intro x hx
      rcases List.mem_cons.mp hx with rfl | hx
      · exact hcn
      · exact h4 x hx
    · have hf : (∃ s ∈ strings j, Blank s) ↔ HasBlank (optStrings (matchStrings e) m) := mmfResponseJson_faithful e m j hj
      simp only [List.mem_cons, or_and_right, exists_or, exists_eq_left, h5, hcw, hf]

/-- **C111, the matches.** The example over REST decodes exactly the matches that om-core sent, in order,
unless one of them has a string with a blank (or another white space character that is not written as an
escape) in it: then it exits. -/
theorem C111_matches_partial {e : Env} (he : EnvOk e) (ms : List (Option Match)) (hk : ∀ m ∈ ms, OptAll (MatchOk e) m)
    (hg : ∀ m ∈ ms, OptAll (MatchGo e) m) :
    ∃ (cs : List Str) (js : List Json), streamed (mmfResponseJson e) ms = (cs.map fun c => c.flatMap charBytes, false) ∧
      List.Forall₂ (MmfResponseJ e) ms js ∧ List.Forall₂ (fun j c => JDoc j (c.flatMap charBytes)) js cs ∧
      ((∀ m ∈ ms, ¬ HasBlank (optStrings (matchStrings e) m)) →
        Mm.readStream ((cs.flatMap Mm.envelope).length + 1) (cs.flatMap Mm.envelope) = some cs ∧
        cs.map (fun c => unmarshal (asMmfResponse e) (c.flatMap charBytes)) = ms.map some) ∧
      ((∃ m ∈ ms, HasBlank (optStrings (matchStrings e) m)) → ∀ fuel, Mm.readStream fuel (cs.flatMap Mm.envelope) = none) := by
  obtain ⟨cs, js, h1, h2, h3, h4, h5⟩ := stream_lines he ms hk hg
  refine ⟨cs, js, h1, h2, h3, ?_, fun hb => (C76_exactly cs h4).2 (h5.mpr hb)⟩
  intro hb
  refine ⟨(C76_exactly cs h4).1 fun c hc x hx hw => ?_, ?_⟩
  · obtain ⟨m, hm, hb'⟩ := h5.mp ⟨c, hc, x, hx, hw⟩
    exact hb m hm hb'
  · clear h1 h4 h5 hb hk hg
    induction h2 generalizing cs with
    | nil => cases h3; rfl
    | cons hm _ ih =>
      cases h3 with
      | cons hj h3 =>
        rw [List.map_cons, List.map_cons, ih _ h3]
        congr 1
        exact (unmarshal_iff (asMmfResponse_iff e) _ _).mpr ⟨_, hj, hm⟩

/-- A match whose id has a blank in it. -/
def blankMatch : Match := ⟨"duel 1".toList, [], []⟩

theorem blank_id : Blank blankMatch.id :=
  ⟨"duel 1".toList, by decide +kernel, ' ', by decide, by simp [White, whiteSpace], by decide, by decide, by decide⟩

/-- **C111 is false as it stands** (the example decodes the matches that om-core sent): a match with a
blank in its id ends the program. -/
theorem C111_any_match_refuted {e : Env} (he : EnvOk e) :
    ∃ cs : List Str, streamed (mmfResponseJson e) [some blankMatch] = (cs.map fun c => c.flatMap charBytes, false) ∧
      ∀ fuel, Mm.readStream fuel (cs.flatMap Mm.envelope) = none := by
  obtain ⟨cs, js, h1, -, -, -, h5⟩ := C111_matches_partial he [some blankMatch]
    (by
      intro m hm x hx
      rw [List.mem_singleton.mp hm] at hx
      cases hx
      exact ⟨⟨"duel 1".toList, by decide +kernel⟩, (by intro x hx; cases hx), (by intro x hx; cases hx)⟩)
    (by
      intro m hm x hx
      rw [List.mem_singleton.mp hm] at hx
      cases hx
      exact ⟨⟨List.nodup_nil, (by intro x hx; cases hx)⟩, List.nodup_nil, by intro x hx; cases hx⟩)
  exact ⟨cs, h1, h5 ⟨_, List.mem_singleton.2 rfl, blankMatch.id, by simp [optStrings, matchStrings], blank_id⟩⟩

/-- A line with white space inside cannot be scanned. -/
theorem fscanf_error {a b : Str} {c : Char} (ha : ∀ x ∈ a, Mm.isSpace x = false) (hc : Mm.isSpace c = true) (hn : '\n' ∉ c :: b) :
    Mm.fscanf ('{' :: a ++ c :: (b ++ ['}'])) = .err := by
  have hsk : Mm.skipBlanks ('{' :: a ++ c :: (b ++ ['}'])) = some ('{' :: a ++ c :: (b ++ ['}'])) := by
    show Mm.skipBlanks ('{' :: _) = some ('{' :: _)
    rw [Mm.skipBlanks, if_neg (by decide), if_neg (by decide)]
  obtain ⟨-, h2⟩ := takeWhile_all (p := fun c => !Mm.isSpace c) ('{' :: a) c (b ++ ['}'])
    (by
      intro x hx
      rcases List.mem_cons.mp hx with rfl | hx
      · rfl
      · rw [ha x hx]; rfl)
    (by rw [hc]; rfl)
  have h3 : ∀ l : Str, '\n' ∉ l → Mm.expectNewline (l ++ ['}']) = none := by
    intro l
    induction l with
    | nil => intro _; rfl
    | cons x l ih =>
      intro hl
      rw [List.cons_append, Mm.expectNewline, if_neg (by rintro rfl; exact hl (by simp))]
      split
      · exact ih fun hx => hl (List.mem_cons_of_mem _ hx)
      · rfl
  unfold Mm.fscanf
  rw [hsk]
  show (match Mm.expectNewline (('{' :: a ++ c :: (b ++ ['}'])).dropWhile fun c => !Mm.isSpace c) with
    | none => Mm.ScanRes.err
    | some rest => .word _ rest) = .err
  rw [h2, show c :: (b ++ ['}']) = (c :: b) ++ ['}'] from rfl, h3 _ hn]

theorem readStream_error (cs : List Str) (hn : ∀ c ∈ cs, '\n' ∉ c) {x : Str} (hx : Mm.fscanf x = .err) : ∀ fuel, Mm.readStream fuel (cs.flatMap Mm.envelope ++ x) = none := by
  induction cs with
  | nil =>
    intro fuel
    cases fuel with
    | zero => rfl
    | succ fuel =>
      rw [List.flatMap_nil, List.nil_append, Mm.readStream, hx]
  | cons c cs ih =>
    intro fuel
    cases fuel with
    | zero => rfl
    | succ fuel =>
      rw [List.flatMap_cons, List.append_assoc, Mm.readStream]
      by_cases hc : ∀ d ∈ c, Mm.isSpace d = false
      · rw [fscanf_envelope _ _ hc]
        dsimp only
        rw [ih (fun d hd => hn d (List.mem_cons_of_mem _ hd)) fuel]
        cases Mm.trim (Mm.resultPrefix ++ c ++ ['}']) <;> rfl
      · rw [fscanf_blank c _ (hn c (by simp))]
        simp only [not_forall] at hc
        obtain ⟨d, hd, hs⟩ := hc
        exact ⟨d, hd, by simpa using hs⟩

theorem first_white (l : Str) (h : ∃ c ∈ l, White c) : ∃ a c b, l = a ++ c :: b ∧ (∀ x ∈ a, Mm.isSpace x = false) ∧ Mm.isSpace c = true := by
  induction l with
  | nil => obtain ⟨c, hc, -⟩ := h; cases hc
  | cons x l ih =>
    cases hx : Mm.isSpace x with
    | true => exact ⟨[], x, l, rfl, by simp, hx⟩
    | false =>
      obtain ⟨c, hc, hs⟩ := h
      rcases List.mem_cons.1 hc with rfl | hc
      · rw [(isSpace_iff _).mpr hs] at hx; cases hx
      · obtain ⟨a, c, b, rfl, ha, hs⟩ := ih ⟨c, hc, hs⟩
        refine ⟨x :: a, c, b, rfl, fun y hy => ?_, hs⟩
        rcases List.mem_cons.1 hy with rfl | hy
        · exact hx
        · exact ha y hy

/-- **C111, matches that cannot be written.** If om-core cannot write one of the matches, the example exits
while reading the stream; the message of the error, which is protobuf's, has a blank in it. -/
theorem C111_unwritable_match {e : Env} (he : EnvOk e) (ms ms' : List (Option Match)) (m : Option Match) (hk : ∀ m ∈ ms, OptAll (MatchOk e) m)
    (hg : ∀ m ∈ ms, OptAll (MatchGo e) m) (hm : ¬ OptAll (MatchOk e) m) (msg : Str) (hmsg : IsText msg) (hb : Blank msg) :
    ∃ (cs : List Str) (line : Str), streamed (mmfResponseJson e) (ms ++ m :: ms') = (cs.map fun c => c.flatMap charBytes, true) ∧
      errorLine msg = line.flatMap charBytes ∧ ∀ fuel, Mm.readStream fuel (cs.flatMap Mm.envelope ++ line) = none := by
  obtain ⟨cs, js, h1, -, -, h4, -⟩ := stream_lines he ms hk hg
  have h2 := (C110_streams_partial he).2.1 ms m ms' hk hm
  rw [h1] at h2
  let j : Json := .obj [("code".toList, .num "2".toList), ("message".toList, .str msg), ("details".toList, .arr [])]
  have hn : j.numsOk := ⟨⟨false, ['2'], [], 0, [], [], rfl, ⟨by simp, by decide⟩, .inr (by decide), .inl ⟨rfl, rfl⟩, .inl ⟨rfl, rfl⟩⟩, trivial, trivial, trivial⟩
  have ht : j.textOk = true := by
    rw [Json.textOk, Json.textOkm_iff]
    intro x hx
    simp only [List.mem_cons, List.not_mem_nil, or_false] at hx
    rcases hx with rfl | rfl | rfl
    · exact ⟨by decide +kernel, rfl⟩
    · exact ⟨(by decide +kernel : Wire.utf8Valid "message".toList = true), (Wire.utf8Valid_iff msg).mpr hmsg⟩
    · exact ⟨by decide +kernel, rfl⟩
  obtain ⟨text, ht1, ht2, ht3⟩ := Json.line_append (Json.writeStr_line (s := "error".toList) (by decide +kernel))
    (Json.line_cons (c := ':') (by decide) (by decide) (Json.write_line j hn ht))
  obtain ⟨a, c, b, rfl, ha, hc⟩ := first_white text (ht3.mpr (.inr ⟨msg, by simp [j, strings, memberStrings], hb⟩))
  refine ⟨cs, '{' :: a ++ c :: (b ++ ['}']), h2, ?_, readStream_error cs h4 (fscanf_error ha hc fun hx => ht2 (List.mem_append_right _ hx))⟩
  have : errorLine msg = '{' :: (Json.writeStr true "error".toList ++ ':' :: Json.write true [] j) ++ ['}'] := rfl
  rw [this, ht1]
  simp only [List.cons_append, List.flatMap_cons, List.flatMap_append, Json.charBytes_ascii (c := '{') (by decide), List.append_assoc]
  rw [Json.charBytes_ascii (c := '}') (by decide)]
  rfl

example : IsText "proto: google.protobuf.Any: unable to resolve".toList ∧ Blank "proto: google.protobuf.Any: unable to resolve".toList :=
  ⟨isText_ascii (by decide +kernel), "proto: google.protobuf.Any: unable to resolve".toList, by decide +kernel, ' ', by decide +kernel,
    by simp [White, whiteSpace], by decide, by decide, by decide⟩

end OM.Props
