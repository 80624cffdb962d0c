import Verif.Lemmas.Messages
import Verif.Props.Round
/-!
# Property C85: requests and matches survive the wire

`proto.Marshal` and `proto.Unmarshal` of the chunks om-core streams to MMFs and of the
matches MMFs stream back, byte by byte (`Model/Wire.lean`, `Model/Messages.lean`).  The
marshaller writes map entries in an order of its choice.
-/
namespace OM.Props
open OM.Spec

/-- `b` is what marshalling the chunk may give. -/
def ChunkBytes (c : ChunkedMmfRunRequest) (b : Str) : Prop := ∃ c', Received c c' ∧ Wire.encChunk c' = some b
/-- `b` is what marshalling the match may give. -/
def MatchBytes (m : Match) (b : Str) : Prop := ∃ m', SameMatch m (some m') ∧ Wire.encResponse (some m') = some b

/-- **C85 (requests).** For every profile and every snapshot of tickets that can themselves
be marshalled, and whatever the iteration orders: om-core can marshal every chunk of the
request, and whichever bytes it sends, the MMF unmarshals the same chunk from them. -/
theorem C85_requests_survive (p : Profile) (hp : Wire.profileOk p = true) (ts : List Ticket) (ha : ∀ t ∈ ts, t.attributes.isSome)
    (ht : ∀ t ∈ ts, Wire.ticketOk t = true) (work : List (Ticket × List Str)) (hw : WorkFor p ts work) :
    ∃ sent, chunkedRequest p work = some sent ∧
      (sent.length < 2 ^ 31 → ∀ c ∈ sent,
        (∀ c', Received c c' → (Wire.encChunk c').isSome) ∧ ∀ b, ChunkBytes c b → Received c (Wire.decChunk b)) := by
  have hpp := hp
  simp only [Wire.profileOk, Bool.and_eq_true] at hpp
  have hwf := (Wire.mapOk_iff.1 hpp.1.2).1
  obtain ⟨segs, -, -, -, -, h5⟩ := chunkedRequest_eq hwf ha hw
  refine ⟨_, h5, fun hl c hc => ⟨fun c' hr => ?_, ?_⟩⟩
  · have := Wire.chunkOk_received (Wire.chunkedRequest_ok hp ha ht hw h5 hl c hc) hr
    simp [Wire.encChunk, this]
  · rintro b ⟨c', hr, hb⟩
    rw [Wire.decChunk_encChunk hb]
    exact hr

theorem chunks_decode {sent : List ChunkedMmfRunRequest} {bs : List Str} (h : List.Forall₂ ChunkBytes sent bs) :
    List.Forall₂ Received sent (bs.map Wire.decChunk) := by
  induction h with
  | nil => exact .nil
  | cons h1 _ ih =>
    obtain ⟨c', hr, hb⟩ := h1
    refine .cons ?_ ih
    rw [Wire.decChunk_encChunk hb]; exact hr

theorem matches_decode {l : List Match} {bs : List Str} (h : List.Forall₂ MatchBytes l bs) :
    List.Forall₂ SameMatch l (bs.map Wire.decResponse) := by
  induction h with
  | nil => exact .nil
  | cons h1 _ ih =>
    obtain ⟨m', hr, hb⟩ := h1
    refine .cons ?_ ih
    rw [Wire.decResponse_encResponse hb]; exact hr

/-- **C85 (matches).** Whatever bytes an MMF received, as long as the messages it
unmarshals from them are valid (strings UTF-8, as `Unmarshal` checks): every match the
example MMFs stream can be marshalled, and om-core unmarshals the same match. -/
theorem C85_matches_survive (msgs : List ChunkedMmfRunRequest) (hm : ∀ c ∈ msgs, Wire.chunkOk c = true)
    (ok : Nat → Bool) (t : Str) (ht : Wire.utf8Valid t = true) (times : Nat → Str) (hts : ∀ n, Wire.utf8Valid (times n) = true)
    (now : Nat → Timestamp) (ord : GoMap Pool → GoMap Pool) (hord : ∀ m, (ord m).Perm m) (r : Mmf.RunRes)
    (hr : some r ∈ mmfRuns ok t times now ord msgs)
    (m : Match) (hmem : m ∈ r.sent) :
    (∀ m', SameMatch m (some m') → (Wire.encResponse (some m')).isSome) ∧
      ∀ b, MatchBytes m b → SameMatch m (Wire.decResponse b) := by
  have key : Wire.matchOk m = true := by
    have h0 := no_request ok t times now ord hord msgs
    simp only [mmfRuns, List.mem_cons, List.not_mem_nil, or_false] at hr
    replace hr := (hr.imp Eq.symm (Or.imp Eq.symm Eq.symm))
    cases hg : getChunkedRequest msgs with
    | none => simp [Mmf.withRequest, hg, Go.panic] at hr
    | some x =>
      obtain ⟨res, rest⟩ := x
      cases res with
      | err =>
        have : r.sent = [] := by
          rcases hr with h | h | h
          · have := h0 rest hg _ (List.mem_cons_self ..); rw [h] at this; cases this; rfl
          · have := h0 rest hg _ (List.mem_cons_of_mem _ (List.mem_cons_self ..)); rw [h] at this; cases this; rfl
          · have := h0 rest hg _ (List.mem_cons_of_mem _ (List.mem_cons_of_mem _ (List.mem_cons_self ..)))
            rw [h] at this; cases this; rfl
        rw [this] at hmem; cases hmem
      | profile q =>
        cases q with
        | none =>
          simp only [Mmf.withRequest, hg] at hr
          have h0 : ∀ a b c : Go Mmf.RunRes, a = some ⟨[], false⟩ → b = some ⟨[], false⟩ → c = some ⟨[], false⟩ →
              (a = some r ∨ b = some r ∨ c = some r) → r.sent = [] := by
            rintro a b c rfl rfl rfl (h | h | h) <;> (cases h; rfl)
          have hsolo : Mmf.soloduel ok t now (ord (Mmf.pools none)) none = some ⟨[], false⟩ := by
            have : ord [] = [] := (hord []).eq_nil
            simp [Mmf.soloduel, Mmf.pools, this, Mmf.soloLoop]
          have hbr : Mmf.battleroyale ok t now none = some ⟨[], false⟩ := by
            unfold Mmf.battleroyale Mmf.brLoop
            rw [if_neg (by simp [Mmf.participants, Mmf.pools, Mmf.brPlayers])]
          have htsn : Mmf.teamshooter ok times now none = some ⟨[], false⟩ := by
            unfold Mmf.teamshooter Mmf.maxNumMatches Mmf.tsLoop
            rfl
          rw [h0 _ _ _ hsolo hbr htsn hr] at hmem; cases hmem
        | some q =>
          have hq := Wire.getChunks_ok' msgs 1 [] q rest (by decide) hm hg
          have hqn : Wire.utf8Valid q.name = true := by
            simp only [Wire.profileOk, Bool.and_eq_true] at hq; exact hq.1.1
          simp only [Mmf.withRequest, hg] at hr
          rcases hr with h | h | h
          · refine Wire.soloLoop_ok (fun n ts m hts' hmk => ?_) _ _ _ r ?_ (fun x hx => by cases hx) h m hmem
            · exact Wire.oneRoster_ok (by decide +kernel) ht now hqn n hts' hmk
            · intro x hx
              obtain ⟨e, he, hx⟩ := List.mem_flatMap.1 hx
              exact Wire.participants_ok hq e ((hord _).mem_iff.1 he) x hx
          · refine Wire.brLoop_ok (fun n ts m hts' hmk => ?_) _ ?_ _ _ r h m hmem
            · exact Wire.oneRoster_ok (by decide +kernel) ht now hqn n hts' hmk
            · exact Wire.participants_load_ok hq _
          · exact Wire.tsLoop_ok (fun n a b m ha hb hmk => Wire.twoTeams_ok hts now hqn n ha hb hmk)
              (fun n => Wire.participants_load_ok hq n) _ _ _ r h m hmem
  refine ⟨fun m' hs => ?_, ?_⟩
  · have := Wire.matchOk_same key hs
    simp [Wire.encResponse, this]
  · rintro b ⟨m', hs, hb⟩
    rw [Wire.decResponse_encResponse hb]; exact hs

/-- The invoked `f` is an MMF with this `Run`, connected by byte streams: om-core
marshals the chunks `sent`, the MMF unmarshals the first `k`; it marshals its matches, and
om-core unmarshals the first of them. -/
def ServesOnWire (Run : List ChunkedMmfRunRequest → Mmf.RunRes → Prop) (sent : List ChunkedMmfRunRequest) (f : Relay.Mmf) : Prop :=
  ∃ (req : List Str) (k : Nat) (r : Mmf.RunRes) (l : List Match) (resp : List Str),
    List.Forall₂ ChunkBytes sent req ∧ Run ((req.take k).map Wire.decChunk) r ∧ l <+: r.sent ∧
    List.Forall₂ MatchBytes l resp ∧ f.results = resp.map Wire.decResponse

/-- **C85 (an MMF on the wire serves).** The assumption of C84 about messages arriving as
sent is met by the wire format. -/
theorem C85_wire_serves (Run : List ChunkedMmfRunRequest → Mmf.RunRes → Prop) (sent : List ChunkedMmfRunRequest)
    (f : Relay.Mmf) (h : ServesOnWire Run sent f) : Serves Run sent f := by
  obtain ⟨req, k, r, l, resp, h1, h2, h3, h4, h5⟩ := h
  refine ⟨req.map Wire.decChunk, k, r, l, chunks_decode h1, ?_, h3, ?_⟩
  · rw [← List.map_take]; exact h2
  · rw [h5]; exact matches_decode h4

/-- Tickets of snapshots can be marshalled again. -/
theorem snapshot_ticketOk {cfg : Config} {H : Nat} {st : Sys.St} (hb : Sys.Base Wire.codec cfg H st)
    {j : Nat} {pre : List Ev} {m : GoMap Ticket} (hm : SnapshotOf Wire.codec cfg st j pre m) :
    ∀ t ∈ m.map (·.2), t.attributes.isSome ∧ Wire.ticketOk t = true := by
  have hmwf : m.WF := by obtain ⟨es, sn, -, h⟩ := hm; exact h.2.1
  intro t ht
  obtain ⟨⟨k, t'⟩, hkt, rfl⟩ := List.mem_map.1 ht
  have hk := GoMap.load_of_mem hmwf hkt
  refine ⟨snapshot_attributes Wire.codec_lawful hb hm hk, ?_⟩
  obtain ⟨e, -, rfl⟩ := snapshot_key hb hm hk
  obtain ⟨c, x, now, t, b, -, -, he, rfl⟩ := snapshot_tickets_are_created hb hm hk
  rw [Wire.codec_decT he]
  have hok : Wire.ticketOk (builtTicket cfg now t) = true := by
    simp only [Wire.codec] at he
    split at he
    · assumption
    · cases he
  simp only [Wire.ticketOk, Bool.and_eq_true] at hok ⊢
  exact ⟨⟨⟨Wire.utf8Valid_fmtReplId _ _, hok.1.1.2⟩, hok.1.2⟩, hok.2⟩

/-- **C85 (from Redis to the matchmaker, bytes all the way).** In every execution of any
number of instances, clients and faults: when an instance invokes MMFs for a profile the
matchmaker could marshal, on any snapshot of its cache, then om-core can marshal every
chunk of the request; and with soloduel at the other end of the wire, every match the
matchmaker gets consists of two tickets of the snapshot that fit a pool of the profile. -/
theorem C85_round_on_the_wire (cfg : Config) (H : Nat) (evs : List Sys.Label) (st : Sys.St)
    (hpl : ∀ l ∈ evs, l.Plausible cfg H) (hrun : Sys.run Wire.codec cfg Sys.init evs = some st)
    (j : Nat) (pre : List Ev) (m : GoMap Ticket) (hm : SnapshotOf Wire.codec cfg st j pre m)
    (p : Profile) (hp : Wire.profileOk p = true) (work : List (Ticket × List Str)) (hw : WorkFor p (m.map (·.2)) work) :
    ∃ sent, chunkedRequest p work = some sent ∧ (sent.length < 2 ^ 31 →
      (∀ c ∈ sent, ∀ c', Received c c' → (Wire.encChunk c').isSome) ∧
      ∀ (wait : Bool) (fs : List Relay.Mmf), (∀ f ∈ fs, f.starts = true → ServesOnWire SoloRun sent f) →
      ∀ (ls : List Relay.Label) (s : Relay.St), Relay.run wait fs (Relay.init fs) ls = some s →
        ∀ o ∈ Relay.handed s, IsDuel p (m.map (·.2)) o) := by
  have hb := Sys.base_run evs (Sys.base_init Wire.codec cfg H) hpl st hrun
  have hts := snapshot_ticketOk hb hm
  obtain ⟨sent, h1, h2⟩ := C85_requests_survive p hp _ (fun t ht => (hts t ht).1) (fun t ht => (hts t ht).2) work hw
  refine ⟨sent, h1, fun hl => ⟨fun c hc => (h2 hl c hc).1, fun wait fs hfs ls s hr => ?_⟩⟩
  have hpp := hp
  simp only [Wire.profileOk, Bool.and_eq_true] at hpp
  exact C84_duels p (Wire.mapOk_iff.1 hpp.1.2).1 _ (fun t ht => (hts t ht).1) work hw sent h1 hl wait fs
    (fun f hf hst => C85_wire_serves _ _ f (hfs f hf hst)) ls s hr

/-! ### Cases -/

/-- A profile with every kind of filter, a non-ASCII name and an extension. -/
def wireProfile : Profile :=
  { name := [Char.ofNat 0xC3, Char.ofNat 0xA9, 'x']
    pools := [("a".toList,
      { name := "a".toList, tagPresentFilters := [⟨"t".toList⟩], stringEqualsFilters := [⟨"k".toList, "v".toList⟩]
        doubleRangeFilters := [⟨"lvl".toList, 0, 0x4014000000000000, 3⟩]
        creationTimeRangeFilter := some ⟨some ⟨-5, 7⟩, none, -1⟩
        participants := none, extensions := [] }), ("b".toList, plainPool)]
    extensions := [("e".toList, ⟨"u".toList, [Char.ofNat 255]⟩)] }

example : Wire.profileOk wireProfile = true := by decide +kernel
example : (Wire.encChunk ⟨some wireProfile, 2⟩).map Wire.decChunk = some ⟨some wireProfile, 2⟩ := by decide +kernel
example : (Wire.encResponse (some duelMatch)).map Wire.decResponse = some (some duelMatch) := by decide +kernel
example : ∀ t ∈ duelTickets, t.attributes.isSome ∧ Wire.ticketOk t = true := by decide +kernel
/-- A name that is not UTF-8 cannot be sent. -/
example : Wire.encChunk ⟨some { wireProfile with name := [Char.ofNat 0xC3] }, 1⟩ = none := by decide +kernel

theorem duel_serves_on_wire : ServesOnWire SoloRun duelSent duelMmf := by
  have h1 : (Wire.encChunk (chunkRequest duelProfile 1 [("all".toList, duelTickets)])).isSome := by decide +kernel
  have h2 : (Wire.encResponse (some duelMatch)).isSome := by decide +kernel
  obtain ⟨b, hb⟩ := Option.isSome_iff_exists.1 h1
  obtain ⟨b', hb'⟩ := Option.isSome_iff_exists.1 h2
  refine ⟨[b], 1, ⟨[duelMatch], false⟩, [duelMatch], [b'], .cons ⟨_, ⟨_, _, rfl, rfl, rfl, rfl, .refl _, .refl _⟩, hb⟩ .nil, ?_,
    List.prefix_refl _, .cons ⟨_, ⟨_, rfl, rfl, .refl _, .refl _⟩, hb'⟩ .nil, ?_⟩
  · simp only [List.take_succ_cons, List.take_zero, List.map_cons, List.map_nil, Wire.decChunk_encChunk hb]
    exact ⟨fun _ => true, [], fun _ => ⟨0, 0⟩, id, fun _ => .refl _, by decide +kernel⟩
  · simp only [List.map_cons, List.map_nil, Wire.decResponse_encResponse hb']; rfl

end OM.Props
