import Verif.Lemmas.Errors
import Verif.Lemmas.Handlers
import Verif.Model.MainLoop
import Verif.Model.Relay
/-!
# A failed call says so

C119: the error that a handler returns is what clients get, over gRPC and over REST.
-/
namespace OM.Props
open OM.Spec OM.PJ OM.Wire

/-! ## Messages -/

/-- **C119 (messages).** An error's message is sent as printable ASCII, whatever bytes it holds, and the client
reads the message: all of a text, and U+FFFD in place of bytes that are not UTF-8. -/
theorem C119_messages (m : Str) (hb : ∀ c ∈ m, c.toNat < 256) :
    (∀ x ∈ Err.encode m, 0x20 ≤ x.toNat ∧ x.toNat ≤ 0x7E) ∧ Repaired m (Err.decode (Err.encode m)) ∧
      (IsText m → Err.decode (Err.encode m) = m) :=
  ⟨Err.encode_printable hb, Err.decode_encode hb, fun h => Err.repaired_of_text (Err.decode_encode hb) h⟩

/-- "andré 100%" in Latin-1: one byte is repaired, the percent sign comes back. -/
example : Err.encode ("andr".toList ++ [Char.ofNat 0xE9] ++ " 100%".toList) = "andr%EF%BF%BD 100%25".toList ∧
    Err.decode "andr%EF%BF%BD 100%25".toList = "andr".toList ++ charBytes (Char.ofNat 0xFFFD) ++ " 100%".toList := by decide +kernel
/-- The same in UTF-8. -/
example : Err.encode ("andr".toList ++ charBytes 'é' ++ " 100%".toList) = "andr%C3%A9 100%25".toList ∧
    Err.decode "andr%C3%A9 100%25".toList = "andr".toList ++ charBytes 'é' ++ " 100%".toList := by decide +kernel
/-- What looks like an escape is not taken for one. -/
example : Err.decode (Err.encode "50%25 off".toList) = "50%25 off".toList ∧ Err.decode "50% off".toList = "50% off".toList := by decide +kernel

/-! ## What clients get -/

/-- Over gRPC: the code with that name, the message and the violations. -/
def GetsGrpc (name : String) (msg : Str) (vs : List (Str × Str)) (s : Err.StatusPb) : Prop :=
  (∃ h, (name, s.code, h) ∈ rpcCodes) ∧ Repaired msg s.msg ∧ s.violations = vs

/-- Over REST: the HTTP status that goes with the code, and the error as JSON. -/
def GetsRest (name : String) (msg : Str) (vs : List (Str × Str)) (a : Nat × Str) : Prop :=
  ∃ n r j, (name, n, a.1) ∈ rpcCodes ∧ Repaired msg r ∧ JDoc j a.2 ∧ StatusJ n r vs j

/-- At the end of a stream over REST: the same under "error". -/
def GetsLast (name : String) (msg : Str) (vs : List (Str × Str)) (a : Nat × Option Str) : Prop :=
  ∃ b n r j, a.2 = some b ∧ (name, n, a.1) ∈ rpcCodes ∧ Repaired msg r ∧ JDoc (.obj [("error".toList, j)]) b ∧ StatusJ n r vs j

/-- **C119 (HTTP).** The gateway's HTTP statuses are those of google/rpc/code.proto; 200 means OK and nothing else does. -/
theorem C119_http :
    (∀ x ∈ rpcCodes, Err.httpStatus x.2.1 = x.2.2) ∧ (∀ code : Int, Err.httpStatus code = 200 ↔ code = 0) ∧
      (∀ c : Code, ∃ n, (codeName c, n, Gw.httpStatus c) ∈ rpcCodes) ∧
      ∀ c : Code, (codeName c, (Err.codeNum c : Int), Err.httpStatus (Err.codeNum c)) ∈ rpcCodes := by
  refine ⟨by decide, fun code => ?_, fun c => ?_, fun c => by cases c <;> decide⟩
  · by_cases h : 0 ≤ code ∧ code ≤ 16
    · have key : ∀ n ∈ List.range 17, Err.httpStatus (n : Int) = 200 ↔ (n : Int) = 0 := by decide
      have := key code.toNat (by rw [List.mem_range]; omega)
      rwa [Int.toNat_of_nonneg h.1] at this
    · unfold Err.httpStatus
      iterate 17 rw [if_neg (by omega)]
      omega
  · cases c
    · exact ⟨0, by decide⟩
    · exact ⟨3, by decide⟩
    · exact ⟨13, by decide⟩
    · exact ⟨2, by decide⟩

theorem codeNum_go (c : Code) : GoInt32 (Err.codeNum c) := by cases c <;> exact ⟨by decide, by decide⟩

/-- The status that arrives: the parts of the error. -/
theorem client_status (e : RpcErr) (hb : ∀ c ∈ e.msg, c.toNat < 256) (hm : e.violations ≠ [] → IsText e.msg)
    (ht : ∀ v ∈ e.violations, IsText v.1 ∧ IsText v.2) :
    ∃ r, Repaired e.msg r ∧ Err.clientSees e = ⟨Err.codeNum e.code, r, Err.packed e.violations⟩ := by
  by_cases hv : e.violations = []
  · refine ⟨_, Err.decode_encode hb, ?_⟩
    rw [Err.clientSees_plain hv, hv]; rfl
  · have hr := Err.decode_encode hb
    rw [Err.repaired_of_text hr (hm hv)] at hr
    exact ⟨e.msg, hr, Err.clientSees_details hv (hm hv) ht⟩

theorem packed_violations {vs : List (Str × Str)} (ht : ∀ v ∈ vs, IsText v.1 ∧ IsText v.2) (code : Int) (msg : Str) :
    (Err.StatusPb.mk code msg (Err.packed vs)).violations = vs :=
  Err.violations_statusOf (e := ⟨.ok, msg, vs⟩) ht

/-- **C119.** An error of a handler reaches clients: the code, the message (repaired if it is not UTF-8) and the
violations, over gRPC, over REST with the HTTP status of the code, and at the end of a REST stream. -/
theorem C119_errors_reported (e : RpcErr) (hb : ∀ c ∈ e.msg, c.toNat < 256) (hm : e.violations ≠ [] → IsText e.msg)
    (ht : ∀ v ∈ e.violations, IsText v.1 ∧ IsText v.2) (sep : Str) (hs : Ws sep) :
    GetsGrpc (codeName e.code) e.msg e.violations (Err.clientSees e) ∧
    GetsRest (codeName e.code) e.msg e.violations (Err.restError sep (Err.clientSees e)) ∧
    GetsLast (codeName e.code) e.msg e.violations (Err.streamError (Err.clientSees e)) := by
  obtain ⟨r, hr, hc⟩ := client_status e hb hm ht
  have hrt := Err.repaired_text hr
  have hcode := C119_http.2.2.2 e.code
  obtain ⟨j, j1, j2, j3, j4⟩ := Err.statusJson_ok (codeNum_go e.code) hrt ht
  rw [hc]
  refine ⟨⟨⟨_, hcode⟩, hr, packed_violations ht _ _⟩, ⟨Err.codeNum e.code, r, j, ?_⟩, ?_⟩
  · have : Err.restError sep ⟨Err.codeNum e.code, r, Err.packed e.violations⟩ = (Err.httpStatus (Err.codeNum e.code), Json.write false sep j) := by
      unfold Err.restError PJ.marshal
      rw [j1, Option.bind_some, if_pos j3]
    rw [this]
    exact ⟨hcode, hr, Json.write_doc false hs j2 j3, j4⟩
  · have ho : (Json.obj [("error".toList, j)]).numsOk := ⟨j2, trivial⟩
    have he : utf8Valid "error".toList = true := by decide +kernel
    have hx : (Json.obj [("error".toList, j)]).textOk = true := by
      rw [Json.textOk]
      refine (Json.textOkm_iff _).mpr fun m hm => ?_
      rw [List.mem_singleton.mp hm]
      exact ⟨he, j3⟩
    refine ⟨Json.write true [] (.obj [("error".toList, j)]), Err.codeNum e.code, r, j, ?_, hcode, hr, Json.write_doc true (by simp [Ws]) ho hx, j4⟩
    show PJ.marshal _ _ _ _ = _
    unfold PJ.marshal
    rw [j1, Option.map_some, Option.bind_some, if_pos hx]

/-- An error with a violation, over REST. -/
example : Err.restError [] (Err.clientSees ⟨.invalidArgument, "bad".toList, [("ticketId/4-1".toList, "50% \"off\"".toList)]⟩) =
    (400, ("{\"code\":3,\"message\":\"bad\",\"details\":[{\"@type\":\"type.googleapis.com/google.rpc.BadRequest\"," ++
      "\"fieldViolations\":[{\"field\":\"ticketId/4-1\",\"description\":\"50% \\\"off\\\"\"}]}]}").toList) := by decide +kernel
example : (Err.streamError (Err.clientSees (.simple .invalidArgument "profile is required"))) =
    (400, some "{\"error\":{\"code\":3,\"message\":\"profile is required\",\"details\":[]}}".toList) := by decide +kernel

/-! ## The handlers' errors -/

theorem simple_reported (c : Code) (m : String) (hm : ∀ x ∈ m.toList, x.toNat < 0x80) (sep : Str) (hs : Ws sep) :
    GetsGrpc (codeName c) m.toList [] (Err.clientSees (.simple c m)) ∧
    GetsRest (codeName c) m.toList [] (Err.restError sep (Err.clientSees (.simple c m))) ∧
    GetsLast (codeName c) m.toList [] (Err.streamError (Err.clientSees (.simple c m))) :=
  C119_errors_reported (.simple c m) (fun x hx => Nat.lt_trans (hm x hx) (by decide)) (by simp [RpcErr.simple]) (by simp [RpcErr.simple]) sep hs

/-- **C119 (CreateTicket).** If storage fails a creation, the client is told: UNKNOWN, HTTP 500, and the text of
the storage error. -/
theorem C119_create_ticket (r : StateResponse) (err : Str) (h : r.err = some err) (hb : ∀ c ∈ err, c.toNat < 256) (sep : Str) (hs : Ws sep) :
    ∃ e, createTicketReturn r = .error e ∧ GetsGrpc "UNKNOWN" err [] (Err.clientSees e) ∧
      GetsRest "UNKNOWN" err [] (Err.restError sep (Err.clientSees e)) ∧ (Err.restError sep (Err.clientSees e)).1 = 500 := by
  refine ⟨⟨.unknown, err, []⟩, by rw [createTicketReturn, h], ?_⟩
  obtain ⟨h1, h2, -⟩ := C119_errors_reported ⟨.unknown, err, []⟩ hb (by simp) (by simp) sep hs
  refine ⟨h1, h2, ?_⟩
  obtain ⟨n, -, -, hn, -⟩ := h2
  generalize (Err.restError sep (Err.clientSees ⟨.unknown, err, []⟩)).1 = k at hn
  have : ∀ x ∈ rpcCodes, x.1 = "UNKNOWN" → x.2.2 = 500 := by decide
  exact this _ hn rfl

/-- **C119 ((de)activation).** The error of a (de)activation reaches the client with its code, message and all its
violations (which, C17 and C18 say); HTTP 400. -/
theorem C119_activation (cmd : Cmd) (ids : List Str) (rs : List StateResponse) (perm : GoMap Str → GoMap Str) (e : RpcErr)
    (h : activeStateReturn cmd ids rs perm = some (some e)) (sep : Str) (hs : Ws sep) :
    e.violations ≠ [] ∧ GetsGrpc "INVALID_ARGUMENT" "One or more state update arguments were invalid".toList e.violations (Err.clientSees e) ∧
      GetsRest "INVALID_ARGUMENT" "One or more state update arguments were invalid".toList e.violations (Err.restError sep (Err.clientSees e)) ∧
      (Err.restError sep (Err.clientSees e)).1 = 400 := by
  unfold activeStateReturn at h
  obtain ⟨m, -, h⟩ := Option.map_eq_some_iff.mp h
  have hmsg : ∀ c ∈ "One or more state update arguments were invalid".toList, c.toNat < 0x80 := by decide
  generalize hM : "One or more state update arguments were invalid".toList = M at hmsg ⊢
  unfold addStateUpdateErrorDetails at h
  rw [hM] at h
  split at h
  · rename_i hlen
    dsimp only at h
    split at h
    · rename_i hall
      cases h
      have ht : ∀ v ∈ (perm m).map (fun e => ("ticketId/".toList ++ e.1, e.2)), IsText v.1 ∧ IsText v.2 := by
        intro v hv
        have := List.all_eq_true.mp hall v hv
        rw [Bool.and_eq_true] at this
        exact ⟨(utf8Valid_iff _).mp this.1, (utf8Valid_iff _).mp this.2⟩
      obtain ⟨h1, h2, -⟩ := C119_errors_reported ⟨.invalidArgument, M, (perm m).map (fun e => ("ticketId/".toList ++ e.1, e.2))⟩
        (fun c hc => Nat.lt_trans (hmsg c hc) (by decide)) (fun _ => isText_ascii hmsg) ht sep hs
      refine ⟨?_, h1, h2, ?_⟩
      · intro h0
        rw [List.map_eq_nil_iff] at h0
        rw [h0] at hlen
        exact absurd hlen (by decide)
      · obtain ⟨n, -, -, hn, -⟩ := h2
        have : ∀ x ∈ rpcCodes, x.1 = "INVALID_ARGUMENT" → x.2.2 = 400 := by decide
        exact this _ hn rfl
    · cases h
  · cases h

theorem ascii_append {a b : Str} (ha : ∀ x ∈ a, x.toNat < 0x80) (hb : ∀ x ∈ b, x.toNat < 0x80) : ∀ x ∈ a ++ b, x.toNat < 0x80 :=
  fun x hx => (List.mem_append.mp hx).elim (ha x) (hb x)

theorem ascii_fmtNat (n : Nat) : ∀ x ∈ fmtNat n, x.toNat < 0x80 := by
  intro x hx
  have := isDigit_fmtNat hx
  simp only [Char.isDigit, Bool.and_eq_true, decide_eq_true_eq] at this
  have h9 : x.toNat ≤ 57 := this.2
  omega

theorem ascii_fmtInt : ∀ (n : Int), ∀ x ∈ fmtInt n, x.toNat < 0x80
  | .ofNat n => ascii_fmtNat n
  | .negSucc n => by
    intro x hx
    rcases List.mem_cons.mp hx with rfl | hx
    · decide
    · exact ascii_fmtNat _ x hx

/-- The refusal of a request that is too large is plain text. -/
theorem tooMany_ascii (cfg : Config) (cmd : Cmd) (n : Nat) : ∀ x ∈ tooMany cfg cmd n, x.toNat < 0x80 := by
  unfold tooMany
  refine ascii_append (ascii_append (ascii_append (ascii_append (ascii_append (ascii_append (by decide) ?_) (by decide)) (ascii_fmtInt _))
    (by decide)) (ascii_fmtNat n)) (by decide)
  have h1 : ∀ x ∈ "deactivations".toList, x.toNat < 0x80 := by decide
  have h2 : ∀ x ∈ "activations".toList, x.toNat < 0x80 := by decide
  cases cmd <;> first | exact h1 | exact h2

/-- **C119 (refusals).** A call that is refused before anything is queued is refused towards the client: a code
that is not OK, an HTTP status of 400 or more, and the handler's message unchanged. -/
theorem C119_refusals (cd : Codec) (cfg : Config) (now : Int) (t : Option Ticket) (cmd : Cmd) (ids : List Str) (roster : Option Roster)
    (profile : Option Profile) (mmfs : List Relay.Mmf) (e : RpcErr)
    (h : createTicketQueue cd cfg now t = .error e ∨ activeStateQueue cfg cmd ids = .error e ∨ createAssignmentsQueue cd roster = .error e ∨
      Relay.validate profile mmfs = some e) (sep : Str) (hs : Ws sep) :
    (Err.clientSees e).code ≠ 0 ∧ (Err.clientSees e).msg = e.msg ∧ GetsGrpc (codeName e.code) e.msg [] (Err.clientSees e) ∧
      GetsRest (codeName e.code) e.msg [] (Err.restError sep (Err.clientSees e)) ∧ 400 ≤ (Err.restError sep (Err.clientSees e)).1 ∧
      GetsLast (codeName e.code) e.msg [] (Err.streamError (Err.clientSees e)) := by
  have key : (∃ m, e = .simple .invalidArgument m ∧ ∀ x ∈ m.toList, x.toNat < 0x80) ∨ (∃ m, e = .simple .unknown m ∧ ∀ x ∈ m.toList, x.toNat < 0x80) := by
    rcases h with h | h | h | h
    · unfold createTicketQueue at h
      split at h
      · cases h; exact .inl ⟨_, rfl, by decide⟩
      · split at h
        · cases h; exact .inr ⟨_, rfl, by decide⟩
        · cases h
    · unfold activeStateQueue at h
      split at h
      · cases h; exact .inl ⟨_, rfl, by decide⟩
      · split at h
        · cases h
          exact .inl ⟨String.ofList (tooMany cfg cmd ids.length), by rw [RpcErr.simple, String.toList_ofList],
            by rw [String.toList_ofList]; exact tooMany_ascii cfg cmd ids.length⟩
        · cases h
    · unfold createAssignmentsQueue at h
      split at h
      · cases h; exact .inl ⟨_, rfl, by decide⟩
      · split at h
        · cases h; exact .inl ⟨_, rfl, by decide⟩
        · split at h
          · cases h; exact .inr ⟨_, rfl, by decide⟩
          · cases h
    · unfold Relay.validate at h
      split at h
      · cases h; exact .inl ⟨_, rfl, by decide⟩
      · split at h
        · cases h; exact .inl ⟨_, rfl, by decide⟩
        · cases h
  have fin : ∀ (c : Code) (m : String), c ≠ .ok → (∀ x ∈ m.toList, x.toNat < 0x80) → e = .simple c m →
      (Err.clientSees e).code ≠ 0 ∧ (Err.clientSees e).msg = e.msg ∧ GetsGrpc (codeName e.code) e.msg [] (Err.clientSees e) ∧
      GetsRest (codeName e.code) e.msg [] (Err.restError sep (Err.clientSees e)) ∧ 400 ≤ (Err.restError sep (Err.clientSees e)).1 ∧
      GetsLast (codeName e.code) e.msg [] (Err.streamError (Err.clientSees e)) := by
    rintro c m hc hm rfl
    obtain ⟨h1, h2, h3⟩ := simple_reported c m hm sep hs
    refine ⟨?_, ?_, h1, h2, ?_, h3⟩
    · rw [Err.clientSees_plain rfl]
      have : ∀ c : Code, c ≠ .ok → (Err.codeNum c : Int) ≠ 0 := by intro c hc; cases c <;> first | exact absurd rfl hc | decide
      exact this c hc
    · rw [Err.clientSees_plain rfl]
      exact (C119_messages m.toList fun x hx => Nat.lt_trans (hm x hx) (by decide)).2.2 (isText_ascii hm)
    · obtain ⟨n, -, -, hn, -⟩ := h2
      have : ∀ x ∈ rpcCodes, x.1 ≠ "OK" → 400 ≤ x.2.2 := by decide
      have hne : ∀ c : Code, c ≠ .ok → codeName c ≠ "OK" := by intro c hc; cases c <;> first | exact absurd rfl hc | decide
      exact this _ hn (hne c hc)
  rcases key with ⟨m, he, hm⟩ | ⟨m, he, hm⟩
  · exact fin _ m (by decide) hm he
  · exact fin _ m (by decide) hm he

example : Err.restError [] (Err.clientSees (.simple .invalidArgument "ticket is required")) =
    (400, "{\"code\":3,\"message\":\"ticket is required\",\"details\":[]}".toList) := by decide +kernel

example : Err.restError [] (Err.clientSees ⟨.invalidArgument, tooMany { Config.default with maxUpdates := 2 } .deactivate 3, []⟩) =
    (400, "{\"code\":3,\"message\":\"Too many ticket deactivations requested in a single call (configured maximum 2, requested 3)\",\"details\":[]}".toList) := by
  decide +kernel

/-! ## The example -/

/-- What the client of a refused call gets: INVALID_ARGUMENT, over REST with the status 400, and the text `m`. -/
def ToldMissing (e : RpcErr) (m : Str) (sep : Str) : Prop :=
  GetsGrpc "INVALID_ARGUMENT" m [] (Err.clientSees e) ∧ GetsRest "INVALID_ARGUMENT" m [] (Err.restError sep (Err.clientSees e)) ∧
    (Err.restError sep (Err.clientSees e)).1 = 400 ∧ GetsLast "INVALID_ARGUMENT" m [] (Err.streamError (Err.clientSees e))

/-- **C119 (what is missing).** A call without what it needs is refused, and the client is told what is missing. -/
theorem C119_missing (cd : Codec) (cfg : Config) (now : Int) (cmd : Cmd) (roster : Option Roster)
    (hro : ∀ r, roster = some r → r.assignment = none) (mmfs : List Relay.Mmf) (p : Profile) (sep : Str) (hs : Ws sep) :
    (∃ e, createTicketQueue cd cfg now none = .error e ∧ ToldMissing e "ticket is required".toList sep) ∧
    (∃ e, activeStateQueue cfg cmd [] = .error e ∧ ToldMissing e "No Ticket IDs in update request".toList sep) ∧
    (∃ e, createAssignmentsQueue cd roster = .error e ∧ ToldMissing e "roster with assignment is required".toList sep) ∧
    (∃ e, Relay.validate none mmfs = some e ∧ ToldMissing e "profile is required".toList sep) ∧
    ∃ e, Relay.validate (some p) [] = some e ∧ ToldMissing e "list of mmfs to invoke is required".toList sep := by
  have key : ∀ m : Str, (∀ c ∈ m, c.toNat < 128) → ToldMissing ⟨.invalidArgument, m, []⟩ m sep := by
    intro m hm
    obtain ⟨h1, h2, h3⟩ := C119_errors_reported ⟨.invalidArgument, m, []⟩ (fun c hc => by have := hm c hc; dsimp only at *; omega)
      (fun h => absurd rfl h) (by simp) sep hs
    refine ⟨h1, h2, ?_, h3⟩
    obtain ⟨n, -, -, hn, -⟩ := h2
    have : ∀ x ∈ rpcCodes, x.1 = "INVALID_ARGUMENT" → x.2.2 = 400 := by decide
    exact this _ hn rfl
  refine ⟨⟨_, rfl, key _ (by decide)⟩, ⟨_, rfl, key _ (by decide)⟩, ?_, ⟨_, rfl, key _ (by decide)⟩, ⟨_, rfl, key _ (by decide)⟩⟩
  cases roster with
  | none => exact ⟨_, rfl, key _ (by decide)⟩
  | some r =>
    simp only [createAssignmentsQueue, hro r rfl]
    exact ⟨_, rfl, key _ (by decide)⟩

/-- **C119 (example).** The bodies that the example is modelled to get for errors without details (C112, C115) are
those of the gateway. -/
theorem C119_example (env : Env) (sep : Str) (code : Nat) (m : Str) :
    Front.restBody env sep (.error ⟨code, m⟩) = (Err.restError sep ⟨code, m, []⟩).2 ∧
      (IsText m → (Err.streamError ⟨code, m, []⟩).2 = some (Loop.errLine ⟨code, m⟩)) := by
  constructor
  · unfold Front.restBody Err.restError PJ.marshal
    show ((if (Front.statusJson ⟨code, m⟩).textOk then some (Json.write false sep (Front.statusJson ⟨code, m⟩)) else none).getD Front.fallback) =
      (match (if (Front.statusJson ⟨code, m⟩).textOk then some (Json.write false sep (Front.statusJson ⟨code, m⟩)) else none) with
        | none => (500, Front.fallback)
        | some b => (Err.httpStatus code, b)).2
    split <;> rfl
  · intro hm
    have h1 := (Err.top_ok (code := 0) ⟨by decide, by decide⟩ hm (ds := []) (vs := []) (by simp) (by simp) (.inl ⟨rfl, rfl⟩)).2.1
    have he : utf8Valid "error".toList = true := by decide +kernel
    have hx : (Json.obj [("error".toList, Front.statusJson ⟨code, m⟩)]).textOk = true := by
      rw [Json.textOk]
      refine (Json.textOkm_iff _).mpr fun x hx => ?_
      rw [List.mem_singleton.mp hx]
      refine ⟨he, ?_⟩
      rw [Front.statusJson, Json.textOk, Json.textOkm_iff]
      rw [Json.textOk, Json.textOkm_iff] at h1
      intro x hx
      rcases List.mem_cons.mp hx with rfl | hx
      · exact ⟨(h1 ("code".toList, .num (fmtInt 0)) (by simp [Err.top, members, PJ.P])).1, rfl⟩
      · exact h1 x (by
          rcases List.mem_cons.mp hx with rfl | hx
          · simp [Err.top, members, PJ.P]
          · rw [List.mem_singleton.mp hx]; simp [Err.top, members, PJ.P])
    unfold Err.streamError PJ.marshal
    show (if (Json.obj [("error".toList, Front.statusJson ⟨code, m⟩)]).textOk then _ else _) = _
    rw [if_pos hx]
    rfl

end OM.Props
