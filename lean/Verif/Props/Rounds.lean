import Verif.Props.Round
import Verif.Props.Lifecycle
import Verif.Spec.Rounds
/-!
# Property C104: successive rounds

A ticket in a match is deactivated before the match is handed to the matchmaker.  Is it
therefore never in a match of a later round?
-/
namespace OM.Props
open OM.Spec OM.Sys

/-- One of the example MMFs. -/
def ServesExample (sent : List ChunkedMmfRunRequest) (f : Relay.Mmf) : Prop :=
  Serves SoloRun sent f ∨ Serves RoyaleRun sent f ∨ Serves TeamRun sent f

/-- The matchmaker is handed `o` in a round (a call of InvokeMatchmakingFunctions naming any
number of the example MMFs) on the snapshot `m`; `wait` is OM_MATCH_TICKET_DEACTIVATION_WAIT. -/
def InRound (wait : Bool) (m : GoMap Ticket) (o : Option Match) : Prop :=
  ∃ (p : Profile) (work : List (Ticket × List Str)) (sent : List ChunkedMmfRunRequest)
    (fs : List Relay.Mmf) (ls : List Relay.Label) (s : Relay.St),
    p.pools.WF ∧ WorkFor p (m.map (·.2)) work ∧ chunkedRequest p work = some sent ∧ sent.length < 2 ^ 31 ∧
    (∀ f ∈ fs, f.starts = true → ServesExample sent f) ∧
    Relay.run wait fs (Relay.init fs) ls = some s ∧ o ∈ Relay.handed s

/-- `s1`: a round on a snapshot of instance `i` makes the match `o`, of tickets whose ids
CreateTicket has returned.  `s2`: om-core has deactivated the players of `o` (call `x2`, begun
after `s1`) and met no error; only now the matchmaker gets `o` (C44).  `s3`: now.  All calls
that ask to activate a player of `o` had ended by `s1`.  The claim: no match of a round on a
snapshot that an instance `j` takes now has a player of `o`.  `fresh s2 pre` restricts the
snapshots: `pre` is what `j` had applied when it took it. -/
def NoDoubleBooking (cd : Codec) (cfg : Config) (H : Nat) (wait : Bool) (fresh : St → List Ev → Prop) : Prop :=
  ∀ (evs1 evs2 evs3 : List Label) (s1 s2 s3 : St),
    (∀ l ∈ evs1 ++ evs2, l.Healthy cd cfg H) → (∀ l ∈ evs3, l.Plausible cfg H) →
    run cd cfg init evs1 = some s1 → run cd cfg s1 evs2 = some s2 → run cd cfg s2 evs3 = some s3 →
    ∀ (i : Nat) (pre1 : List Ev) (m1 : GoMap Ticket) (o : Option Match), SnapshotOf cd cfg s1 i pre1 m1 → InRound wait m1 o →
    (∀ t ∈ players o, ∃ c x now req, s1.calls c = some x ∧ x.rpc = .create now req ∧ x.outcome = some (.id t.id)) →
    ∀ (c2 : Nat) (x2 : Call) (ids : List Str), s1.calls c2 = none → s2.calls c2 = some x2 →
    x2.rpc = .matched ids → ids.Perm ((players o).map (·.id)) → x2.outcome = some .ok → (∀ r ∈ x2.got, r.err = none) →
    (∀ t ∈ players o, ∀ c y, s3.calls c = some y → Activates y.rpc t.id → ∃ x, s1.calls c = some x ∧ x.outcome ≠ none) →
    ∀ (j : Nat) (pre : List Ev) (m : GoMap Ticket), SnapshotOf cd cfg s3 j pre m → fresh s2 pre →
    ∀ o', InRound wait m o' → NoCommonPlayer o o'

theorem fromPools_of_duel {p : Profile} {ts : List Ticket} {o : Option Match} (h : IsDuel p ts o) : FromPools p ts o := by
  obtain ⟨x, n, ro, a, b, rfl, h1, h2, ha, hb⟩ := h
  intro t ht
  simp only [players, matchTickets, h1, h2, List.flatMap_cons, List.flatMap_nil, List.append_nil, List.mem_cons,
    List.not_mem_nil, or_false] at ht
  rcases ht with rfl | rfl
  · exact ha
  · exact hb

theorem fromPools_of_royale {p : Profile} {ts : List Ticket} {o : Option Match} (h : IsRoyale p ts o) : FromPools p ts o := by
  obtain ⟨x, n, ro, rfl, h1, -, h2⟩ := h
  intro t ht
  simp only [players, matchTickets, h1, List.flatMap_cons, List.flatMap_nil, List.append_nil] at ht
  exact ⟨_, h2 t ht⟩

theorem fromPools_of_teams {p : Profile} {ts : List Ticket} {o : Option Match} (h : IsFiveVFive p ts o) : FromPools p ts o := by
  obtain ⟨x, a, b, rfl, h1, ha, hb⟩ := h
  intro t ht
  have hm : t ∈ [("team01".toList, a), ("team02".toList, b)].flatMap fun r => r.2.tickets :=
    ((h1.flatMap_right _).mem_iff).1 ht
  simp only [List.flatMap_cons, List.flatMap_nil, List.append_nil, List.mem_append] at hm
  have team : ∀ l, IsTeam p ts l → t ∈ l → ∃ n, Fits p ts n t := by
    rintro l ⟨v, w, x, y, z, rfl, f1, f2, f3, f4, f5⟩ hl
    simp only [List.mem_cons, List.not_mem_nil, or_false] at hl
    rcases hl with rfl | rfl | rfl | rfl | rfl
    · exact ⟨_, f1⟩
    · exact ⟨_, f2⟩
    · exact ⟨_, f3⟩
    · exact ⟨_, f4⟩
    · exact ⟨_, f5⟩
  exact hm.elim (team _ ha) (team _ hb)

/-- **C104 (players come from the snapshot).** Whatever mix of the example MMFs is invoked:
every player of a match handed to the matchmaker is a ticket of the snapshot. -/
theorem C104_players_from_snapshot (wait : Bool) (m : GoMap Ticket) (ha : ∀ t ∈ m.map (·.2), t.attributes.isSome) (o : Option Match)
    (h : InRound wait m o) : ∃ p, FromPools p (m.map (·.2)) o := by
  obtain ⟨p, work, sent, fs, ls, s, hwf, hw, hs, hl, hfs, hr, ho⟩ := h
  obtain ⟨f, hf, hst, hof⟩ := handed_from hr ho
  refine ⟨p, ?_⟩
  rcases hfs f hf hst with h | h | h
  · exact fromPools_of_duel (duels_of_serves hwf ha hw hs hl h o hof)
  · exact fromPools_of_royale (royales_of_serves hwf ha hw hs hl h o hof)
  · exact fromPools_of_teams (teams_of_serves hwf ha hw hs hl h o hof)

/-- Tickets that are not in the snapshot are not matched. -/
theorem noCommon_of_out {cd : Codec} (hl : cd.Lawful) {cfg : Config} {H : Nat} {wait : Bool} {s3 : St} (hb : Base cd cfg H s3)
    {j : Nat} {pre : List Ev} {m : GoMap Ticket} (hsn : SnapshotOf cd cfg s3 j pre m) {o o' : Option Match}
    (hout : ∀ t ∈ players o, m.load t.id = none) (hin' : InRound wait m o') : NoCommonPlayer o o' := by
  intro t ht t' ht' hid
  have hout := hout t ht
  have hmwf : m.WF := by obtain ⟨es, sn, -, h⟩ := hsn; exact h.2.1
  have hattr : ∀ t ∈ m.map (·.2), t.attributes.isSome := by
    intro t ht
    obtain ⟨⟨k', t'⟩, hkt, rfl⟩ := List.mem_map.1 ht
    exact snapshot_attributes hl hb hsn (GoMap.load_of_mem hmwf hkt)
  obtain ⟨p, hfrom⟩ := C104_players_from_snapshot wait m hattr o' hin'
  obtain ⟨n, hts, -⟩ := hfrom t' ht'
  obtain ⟨⟨k, t''⟩, hkt, rfl⟩ := List.mem_map.1 hts
  have hload := GoMap.load_of_mem hmwf hkt
  obtain ⟨_, _, _, _, _, _, _, _, hdec⟩ := snapshot_tickets_are_created hb hsn hload
  have hk : t''.id = k := by rw [hdec]
  dsimp only at hid
  rw [hid, hk, hload] at hout
  cases hout

/-- **C104 (what holds).** Partial: full C104 has no condition on the snapshot
(`C104_double_booked_refuted`).  If the instance that runs the later round had applied what
was in the stream when the match was handed out, none of its players is matched again. -/
theorem C104_no_double_booking_partial (cd : Codec) (hl : cd.Lawful) (cfg : Config) (H : Nat) (wait : Bool) :
    NoDoubleBooking cd cfg H wait (fun s2 pre => s2.stream.entries.length ≤ (updatesOf pre).length) := by
  intro evs1 evs2 evs3 s1 s2 s3 hh hp3 hr1 hr2 hr3 i pre1 m1 o hsn1 hin1 hcr c2 x2 ids hn2 hc2 hrpc hids ho2 hg hact
    j pre m hsn hfresh o' hin'
  have hp : ∀ l ∈ evs1 ++ evs2 ++ evs3, l.Plausible cfg H := fun l hl =>
    (List.mem_append.1 hl).elim (fun h => (hh l h).1) (hp3 l)
  have hb : Base cd cfg H s3 := base_run (evs1 ++ evs2 ++ evs3) (base_init cd cfg H) hp s3 (by
    rw [run_append, run_append, hr1, Option.bind_some, hr2, Option.bind_some, hr3])
  refine noCommon_of_out hl hb hsn (fun t ht => ?_) hin'
  obtain ⟨c1, x1, now, req, q1, q2, q3⟩ := hcr t ht
  have hde : Deactivates x2.rpc t.id := by
    rw [hrpc]
    exact hids.mem_iff.2 (List.mem_map_of_mem ht)
  exact C95_matched_stays_out_partial cd cfg H evs1 evs2 evs3 s1 s2 s3 hh hp3 hr1 hr2 hr3 c1 x1 now req t.id q1 q2 q3
    c2 x2 hn2 hc2 hde ho2 ⟨⟨ids, hrpc⟩, hg⟩ (hact t ht) j pre m hsn hfresh

/-! ### Two rounds on one snapshot -/

/-- A and B are created and activated, and instance 0 has seen it. -/
def evsPair : List Label :=
  [.start 0, .call 0 0 (.create startNs (some reqA)), .submit 0 (okEnv 1), .timeout 0 (okEnv 1), .finish 0 [],
   .call 1 0 (.create startNs (some reqB)), .submit 1 (okEnv 1), .timeout 0 (okEnv 1), .finish 1 [],
   .call 2 0 (.setState .activate [idA, idB]), .submit 2 (okEnv 1), .submit 2 (okEnv 2), .timeout 0 (okEnv 2), .finish 2 [],
   .poll 0, .apply 0, .apply 0, .apply 0, .apply 0]
/-- The round makes a match of A and B; its goroutine deactivates both. -/
def evsPairMatched : List Label :=
  [.call 3 0 (.matched [idA, idB]), .submit 3 (okEnv 1), .submit 3 (okEnv 2), .timeout 0 (okEnv 2), .finish 3 []]

def idC : Str := "1700000000000-6".toList
def idD : Str := "1700000000000-7".toList
/-- Then C and D are created and activated, and instance 0 catches up. -/
def evsPairNext : List Label :=
  [.call 4 0 (.create startNs (some reqA)), .submit 4 (okEnv 1), .timeout 0 (okEnv 1), .finish 4 [],
   .call 5 0 (.create startNs (some reqB)), .submit 5 (okEnv 1), .timeout 0 (okEnv 1), .finish 5 [],
   .call 6 0 (.setState .activate [idC, idD]), .submit 6 (okEnv 1), .submit 6 (okEnv 2), .timeout 0 (okEnv 2), .finish 6 [],
   .poll 0, .apply 0, .apply 0, .apply 0, .apply 0, .apply 0, .apply 0]

/-- The tickets as cached. -/
def cachedA (k : Str) : Ticket := { Wire.codec.decT (storedBytes reqA) with id := k }
def cachedB (k : Str) : Ticket := { Wire.codec.decT (storedBytes reqB) with id := k }
/-- A snapshot of two tickets, and what soloduel makes of them. -/
def pairMap (a b : Ticket) : GoMap Ticket := [(a.id, a), (b.id, b)]
def pairMatch (a b : Ticket) : Match :=
  { id := Mmf.matchId Mmf.soloName [] 0
    rosters := [(Mmf.rosterName Mmf.soloName 0,
      { name := Mmf.rosterName Mmf.soloName 0, assignment := none, tickets := [a, b],
        extensions := [("CreationTime".toList, Mmf.anyTime ⟨0, 0⟩)] })]
    extensions := Mmf.extensionsFor Mmf.soloName "prof".toList }
def pairSent (a b : Ticket) : List ChunkedMmfRunRequest := [chunkRequest duelProfile 1 [("all".toList, [a, b])]]

theorem pair_in_round {wait : Bool} {a b : Ticket}
    (h1 : chunkedRequest duelProfile [(a, ["all".toList]), (b, ["all".toList])] = some (pairSent a b))
    (h2 : Mmf.withRequest (fun req => Mmf.soloduel (fun _ => true) [] (fun _ => ⟨0, 0⟩) (Mmf.pools req) req) (pairSent a b) =
      some ⟨[pairMatch a b], false⟩)
    (h3 : (Relay.run wait [⟨true, [some (pairMatch a b)], true⟩] (Relay.init [⟨true, [some (pairMatch a b)], true⟩])
      ([.recv 0 (pairMatch a b).rosters] ++ upToSend 0 ++ (if wait then [.go 0 false] else []) ++ [.hand 0])).map
      Relay.handed = some [some (pairMatch a b)]) :
    InRound wait (pairMap a b) (some (pairMatch a b)) := by
  obtain ⟨s, hs, hh⟩ := Option.map_eq_some_iff.1 h3
  refine ⟨duelProfile, _, _, _, _, s, by unfold GoMap.WF; decide, ?_, h1, by show 1 < 2 ^ 31; decide, ?_, hs, by rw [hh]; simp⟩
  · refine ⟨by simp [pairMap], ?_⟩
    have : validPools duelProfile.pools = ["all".toList] := by decide
    rw [this]
    intro w hw
    simp only [List.mem_cons, List.not_mem_nil, or_false] at hw
    rcases hw with rfl | rfl <;> exact List.Perm.refl _
  · intro f hf _
    rw [List.mem_singleton.1 hf]
    exact .inl ⟨_, 1, _, _, .cons (received_refl ..) .nil, ⟨_, _, _, id, fun _ => List.Perm.refl _, h2⟩, List.prefix_refl _,
      .cons ⟨_, rfl, rfl, List.Perm.refl _, List.Perm.refl _⟩ .nil⟩

theorem round_AB (wait : Bool) : InRound wait (pairMap (cachedA idA) (cachedB idB)) (some (pairMatch (cachedA idA) (cachedB idB))) :=
  pair_in_round (by decide +kernel) (by decide +kernel) (by cases wait <;> decide +kernel)

theorem round_CD (wait : Bool) : InRound wait (pairMap (cachedA idC) (cachedB idD)) (some (pairMatch (cachedA idC) (cachedB idD))) :=
  pair_in_round (by decide +kernel) (by decide +kernel) (by cases wait <;> decide +kernel)

theorem two_healthy : ∀ l ∈ evsPair ++ evsPairMatched, l.Healthy Wire.codec Config.default 1600000000000 := by
  intro l hl
  have hpl := okEnv_plausible
  simp only [evsPair, evsPairMatched, List.cons_append, List.nil_append, List.mem_cons, List.not_mem_nil, or_false] at hl
  rcases hl with rfl | rfl | rfl | rfl | rfl | rfl | rfl | rfl | rfl | rfl | rfl | rfl | rfl | rfl | rfl | rfl | rfl | rfl |
    rfl | rfl | rfl | rfl | rfl | rfl
  all_goals first
    | exact ⟨trivial, trivial, trivial, trivial⟩
    | exact ⟨hpl _, rfl, trivial, okEnv_readable _⟩
    | exact ⟨trivial, trivial, benign_accepted _ _ _ _ trivial, readable_of (by decide +kernel)⟩
    | exact ⟨trivial, trivial, benign_accepted _ _ _ _ (Or.inl rfl), readable_of (by decide +kernel)⟩
    | refine ⟨trivial, trivial, benign_accepted _ _ _ _ ?_, readable_of (by decide +kernel)⟩
      intro k hk
      simp only [List.mem_cons, List.not_mem_nil, or_false] at hk
      rcases hk with rfl | rfl <;> decide

/-- What happens in the sample executions: the premises of `NoDoubleBooking`. -/
theorem two_facts (wait : Bool) (evs3 : List Label) (hp3 : ∀ l ∈ evs3, l.Plausible Config.default 1600000000000)
    (hact : ∀ c i r, Label.call c i r ∈ evs3 → ∀ t ∈ players (some (pairMatch (cachedA idA) (cachedB idB))), ¬ Activates r t.id)
    (s3 : St) (hr : run Wire.codec Config.default init (evsPair ++ evsPairMatched ++ evs3) = some s3)
    (fresh : St → List Ev → Prop) (h : NoDoubleBooking Wire.codec Config.default 1600000000000 wait fresh) :
    ∃ s2, run Wire.codec Config.default init (evsPair ++ evsPairMatched) = some s2 ∧ s2.stream.entries.length = 6 ∧
      ∀ j pre m, SnapshotOf Wire.codec Config.default s3 j pre m → fresh s2 pre →
        ∀ o', InRound wait m o' → NoCommonPlayer (some (pairMatch (cachedA idA) (cachedB idB))) o' := by
  have h1 : (run Wire.codec Config.default init evsPair).map (fun s => (told s 0, told s 1, (s.calls 3).isNone,
      (s.calls 2).map fun x => x.outcome.isSome)) = some (some idA, some idB, true, some true) := by decide +kernel
  have h1' : (run Wire.codec Config.default init evsPair).map (fun s => (s.insts 0).hist.map evU) =
      some [some ⟨.ticket, idA, storedBytes reqA⟩, some ⟨.ticket, idB, storedBytes reqB⟩, some ⟨.activate, idA, []⟩,
        some ⟨.activate, idB, []⟩] := by decide +kernel
  have h2 : (run Wire.codec Config.default init (evsPair ++ evsPairMatched)).map (fun s => ((s.calls 3).map (isOut (.matched [idA, idB])),
      (s.calls 3).map (fun x => x.got.map (·.err.isNone)), s.stream.entries.length)) = some (some true, some [true, true], 6) := by
    decide +kernel
  obtain ⟨s1, r1, e1⟩ := Option.map_eq_some_iff.1 h1
  obtain ⟨s2, r2, e2⟩ := Option.map_eq_some_iff.1 h2
  rw [r1, Option.map_some, Option.some.injEq] at h1'
  rw [Prod.mk.injEq, Prod.mk.injEq, Prod.mk.injEq] at e1
  rw [Prod.mk.injEq, Prod.mk.injEq] at e2
  refine ⟨s2, r2, e2.2.2, ?_⟩
  have hr' := hr
  rw [run_append, r2, Option.bind_some] at hr
  rw [run_append, r1, Option.bind_some] at r2
  have hb1 := base_run evsPair (base_init Wire.codec Config.default 1600000000000)
    (fun l hl => (two_healthy l (List.mem_append_left _ hl)).1) s1 r1
  obtain ⟨xa, hxa, hoa⟩ := told_id e1.1 (by decide)
  obtain ⟨xb, hxb, hob⟩ := told_id e1.2.1 (by decide)
  obtain ⟨x2, hx2, c2⟩ := Option.map_eq_some_iff.1 e2.1
  obtain ⟨x2', hx2', g2⟩ := Option.map_eq_some_iff.1 e2.2.1
  obtain rfl : x2 = x2' := Option.some.inj (hx2.symm.trans hx2')
  obtain ⟨q1, q2⟩ : x2.rpc = .matched [idA, idB] ∧ x2.outcome = some .ok := by
    simp only [isOut] at c2
    split at c2
    · rename_i h _ _; simp at h
    · rename_i ids ids' a b e
      cases a
      rw [of_decide_eq_true c2]; exact ⟨b, e⟩
    · simp at c2
  have hist : (s1.insts 0).hist = [⟨.ticket, idA, storedBytes reqA⟩, ⟨.ticket, idB, storedBytes reqB⟩, ⟨.activate, idA, []⟩,
      ⟨.activate, idB, []⟩].map Ev.upd := evU_eq h1'
  have hsn1 : SnapshotOf Wire.codec Config.default s1 0 (s1.insts 0).hist (pairMap (cachedA idA) (cachedB idB)) := by
    have := candidates_isSnapshot _ (WF_runEvs (cd := Wire.codec) (cfg := Config.default) WF_empty (s1.insts 0).hist)
    have he : candidates (runEvs Wire.codec Config.default Cache.empty (s1.insts 0).hist) = pairMap (cachedA idA) (cachedB idB) := by
      rw [hist]; decide +kernel
    rw [he] at this
    exact ⟨[], _, by simp, this⟩
  refine h evsPair evsPairMatched evs3 s1 s2 s3 two_healthy hp3 r1 r2 hr 0 (s1.insts 0).hist
    (pairMap (cachedA idA) (cachedB idB)) (some (pairMatch (cachedA idA) (cachedB idB))) hsn1 (round_AB wait) ?_ 3 x2
    [idA, idB] (by simpa using e1.2.2.1) hx2 q1 (List.Perm.refl _) q2 ?_ ?_
  · intro t ht
    simp only [players, matchTickets, pairMatch, List.flatMap_cons, List.flatMap_nil, List.append_nil, List.mem_cons,
      List.not_mem_nil, or_false] at ht
    rcases ht with rfl | rfl
    · obtain ⟨now, t, hrpc⟩ := id_means_create hb1 hxa hoa
      exact ⟨0, xa, now, t, hxa, hrpc, hoa⟩
    · obtain ⟨now, t, hrpc⟩ := id_means_create hb1 hxb hob
      exact ⟨1, xb, now, t, hxb, hrpc, hob⟩
  · intro r hrr
    have : r.err.isNone ∈ x2.got.map (·.err.isNone) := List.mem_map_of_mem hrr
    rw [g2] at this
    simpa using this
  · intro t ht c y hy hac
    rcases rpcAt_run _ hr' c y.rpc (by simp [rpcAt, hy]) with h4 | ⟨i, h4⟩
    · simp [rpcAt, init] at h4
    · rcases List.mem_append.1 h4 with h4 | h4
      · simp only [evsPair, evsPairMatched, List.mem_append, List.mem_cons, List.not_mem_nil, or_false,
          Label.call.injEq, reduceCtorEq, false_or] at h4
        rcases h4 with (⟨-, -, e⟩ | ⟨-, -, e⟩ | ⟨e', -, -⟩) | ⟨-, -, e⟩
        · rw [e] at hac; simp [Activates] at hac
        · rw [e] at hac; simp [Activates] at hac
        · obtain ⟨x, hx, ho⟩ := Option.map_eq_some_iff.1 e1.2.2.2
          rw [e']
          exact ⟨x, hx, by intro hn; rw [hn] at ho; simp at ho⟩
        · rw [e] at hac; simp [Activates] at hac
      · exact absurd hac (hact c i y.rpc h4 t ht)

/-- **C104 is false of the code**: om-core deactivates the players of a match in the stream,
not in its own cache (core/main.go:629-689), so a round that an instance starts
before it has read its own deactivations back from Redis (here at once, on the instance
that ran the first round) can match the same players again.  OM_MATCH_TICKET_DEACTIVATION_WAIT
does not prevent it (C47). -/
theorem C104_double_booked_refuted (wait : Bool) :
    ¬ NoDoubleBooking Wire.codec Config.default 1600000000000 wait (fun _ _ => True) := by
  intro h
  have h1 : (run Wire.codec Config.default init (evsPair ++ evsPairMatched ++ [])).map (fun s => (s.insts 0).hist.map evU) =
      some [some ⟨.ticket, idA, storedBytes reqA⟩, some ⟨.ticket, idB, storedBytes reqB⟩, some ⟨.activate, idA, []⟩,
        some ⟨.activate, idB, []⟩] := by decide +kernel
  obtain ⟨s3, r3, e3⟩ := Option.map_eq_some_iff.1 h1
  obtain ⟨s2, -, -, hno⟩ := two_facts wait [] (by simp) (by simp) s3 r3 _ h
  have hist : (s3.insts 0).hist = [⟨.ticket, idA, storedBytes reqA⟩, ⟨.ticket, idB, storedBytes reqB⟩, ⟨.activate, idA, []⟩,
      ⟨.activate, idB, []⟩].map Ev.upd := evU_eq e3
  have he : candidates (runEvs Wire.codec Config.default Cache.empty (s3.insts 0).hist) = pairMap (cachedA idA) (cachedB idB) := by
    rw [hist]; decide +kernel
  have hs := candidates_isSnapshot _ (WF_runEvs (cd := Wire.codec) (cfg := Config.default) WF_empty (s3.insts 0).hist)
  rw [he] at hs
  exact hno 0 _ _ ⟨[], _, by simp, hs⟩ trivial _ (round_AB wait) (cachedA idA) (by simp [players, matchTickets, pairMatch]) (cachedA idA)
    (by simp [players, matchTickets, pairMatch]) rfl

/-- A case of C104: after the match of A and B, instance 0 catches up and matches C and D. -/
example (wait : Bool) : ∃ s3 m, run Wire.codec Config.default init (evsPair ++ evsPairMatched ++ evsPairNext) = some s3 ∧
    SnapshotOf Wire.codec Config.default s3 0 (s3.insts 0).hist m ∧ 6 ≤ (updatesOf (s3.insts 0).hist).length ∧
    InRound wait m (some (pairMatch (cachedA idC) (cachedB idD))) ∧
    NoCommonPlayer (some (pairMatch (cachedA idA) (cachedB idB))) (some (pairMatch (cachedA idC) (cachedB idD))) := by
  have h1 : (run Wire.codec Config.default init (evsPair ++ evsPairMatched ++ evsPairNext)).map (fun s => (s.insts 0).hist.map evU) =
      some ([⟨.ticket, idA, storedBytes reqA⟩, ⟨.ticket, idB, storedBytes reqB⟩, ⟨.activate, idA, []⟩, ⟨.activate, idB, []⟩,
        ⟨.deactivate, idA, []⟩, ⟨.deactivate, idB, []⟩, ⟨.ticket, idC, storedBytes reqA⟩, ⟨.ticket, idD, storedBytes reqB⟩,
        ⟨.activate, idC, []⟩, ⟨.activate, idD, []⟩].map some) := by decide +kernel
  obtain ⟨s3, r3, e3⟩ := Option.map_eq_some_iff.1 h1
  have hist := evU_eq e3
  have he : candidates (runEvs Wire.codec Config.default Cache.empty (s3.insts 0).hist) = pairMap (cachedA idC) (cachedB idD) := by
    rw [hist]; decide +kernel
  have hs := candidates_isSnapshot _ (WF_runEvs (cd := Wire.codec) (cfg := Config.default) WF_empty (s3.insts 0).hist)
  rw [he] at hs
  have hlen : 6 ≤ (updatesOf (s3.insts 0).hist).length := by rw [hist]; decide
  refine ⟨s3, _, r3, ⟨[], _, by simp, hs⟩, hlen, (round_CD wait), ?_⟩
  have hpl3 : ∀ l ∈ evsPairNext, l.Plausible Config.default 1600000000000 := by
    intro l hl
    simp only [evsPairNext, List.mem_cons, List.not_mem_nil, or_false] at hl
    rcases hl with rfl | rfl | rfl | rfl | rfl | rfl | rfl | rfl | rfl | rfl | rfl | rfl | rfl | rfl | rfl | rfl | rfl | rfl |
      rfl | rfl
    all_goals trivial
  have hact : ∀ c i r, Label.call c i r ∈ evsPairNext →
      ∀ t ∈ players (some (pairMatch (cachedA idA) (cachedB idB))), ¬ Activates r t.id := by
    intro c i r hc t ht hac
    simp only [players, matchTickets, pairMatch, List.flatMap_cons, List.flatMap_nil, List.append_nil, List.mem_cons,
      List.not_mem_nil, or_false] at ht
    simp only [evsPairNext, List.mem_cons, List.not_mem_nil, or_false, Label.call.injEq, reduceCtorEq, false_or] at hc
    rcases hc with ⟨-, -, rfl⟩ | ⟨-, -, rfl⟩ | ⟨-, -, rfl⟩
    · simp [Activates] at hac
    · simp [Activates] at hac
    · rcases ht with rfl | rfl <;>
      · simp only [Activates, List.mem_cons, List.not_mem_nil, or_false] at hac
        revert hac
        decide
  obtain ⟨s2, -, h6, hno⟩ := two_facts wait evsPairNext hpl3 hact s3 r3 _
    (C104_no_double_booking_partial Wire.codec Wire.codec_lawful Config.default 1600000000000 wait)
  exact hno 0 _ _ ⟨[], _, by simp, hs⟩ (by rw [h6]; exact hlen) _ (round_CD wait)

end OM.Props
