import Verif.Model.Example
import Verif.Spec.Example
import Verif.Props.Round
import Verif.Props.Matchmaker
import Verif.Props.SystemIds
/-!
# Properties C88-C92: the example matchmaker's set-up

The mock frontend, the profile, the three example MMFs and om-core together.
-/
namespace OM.Props
open OM.Spec OM.Mm

/-! ## C89: classes and pools -/

theorem mockClass_isClass (d : Nat) : IsClass (mockClass d) := by
  unfold mockClass IsClass
  split
  · exact .inl rfl
  · split
    · exact .inr (.inl rfl)
    · exact .inr (.inr rfl)

theorem content_plays {now : Int} {s : Str} {f : F64} {cr : Timestamp} {d : Nat} {k : Str} {ct : Ticket}
    (h : ContentOf now (mockTicket s f cr d) k ct) : Plays ct (mockClass d) := by
  obtain ⟨-, a, _, h1, -, h3, -⟩ := h
  refine ⟨a, h1, fun v => ?_⟩
  rw [h3.mem_iff]
  simp [reqStrings, mockTicket, classArg]

theorem content_wf {now : Int} {s : Str} {f : F64} {cr : Timestamp} {d : Nat} {k : Str} {ct : Ticket}
    (h : ContentOf now (mockTicket s f cr d) k ct) : ∃ a, ct.attributes = some a ∧ WFAttrs a := by
  obtain ⟨-, a, _, h1, -, h3, h4, -⟩ := h
  refine ⟨a, h1, ?_, ?_⟩
  · rw [(h4.map _).nodup_iff]; simp [reqDoubles, mockTicket]
  · rw [(h3.map _).nodup_iff]; simp [reqStrings, mockTicket]

theorem isClass_iff (n : Str) : IsClass n ↔ n = tank ∨ n = healer ∨ n = dps := Iff.rfl

theorem load_example {n : Str} {pool : Pool} :
    exampleProfile.pools.load n = some pool ↔ IsClass n ∧ pool = classPool n := by
  rw [isClass_iff]
  refine ⟨fun h => ?_, ?_⟩
  · have hm : (n, pool) ∈ [(tank, classPool tank), (dps, classPool dps), (healer, classPool healer)] := GoMap.mem_of_load h
    simp only [List.mem_cons, List.not_mem_nil, or_false, Prod.mk.injEq] at hm
    rcases hm with ⟨h1, h2⟩ | ⟨h1, h2⟩ | ⟨h1, h2⟩
    · exact ⟨.inl h1, by rw [h1, h2]⟩
    · exact ⟨.inr (.inr h1), by rw [h1, h2]⟩
    · exact ⟨.inr (.inl h1), by rw [h1, h2]⟩
  · rintro ⟨h, rfl⟩
    rcases h with h | h | h <;> rw [h] <;> decide +kernel

theorem fits_example {ts : List Ticket} {t : Ticket} (ht : t ∈ ts) {c : Str} (hc : IsClass c) (hp : Plays t c)
    (hwf : ∃ a, t.attributes = some a ∧ WFAttrs a) (n : Str) : Fits exampleProfile ts n t ↔ n = c := by
  obtain ⟨a, h1, hw⟩ := hwf
  obtain ⟨d, h2, h3⟩ := hp
  obtain rfl : a = d := Option.some.inj (h1.symm.trans h2)
  have key : ∀ n, Filter.In (some (classPool n)) (some t) = some true ↔ n = c := by
    intro n
    rw [(C01_membership_is_conjunction (classPool n) t a h1 hw rfl).1, ← h3]
    simp [Meets, classPool, classArg]
  constructor
  · rintro ⟨-, pool, hl, -, hin⟩
    obtain ⟨-, rfl⟩ := load_example.1 hl
    exact (key n).1 hin
  · rintro rfl
    exact ⟨ht, classPool n, load_example.2 ⟨hc, rfl⟩, by simp [BadTimes, classPool], (key n).2 rfl⟩

/-- All tickets created so far were made by the mock frontend. -/
def OnlyMocks (st : Sys.St) : Prop :=
  ∀ c x now t, st.calls c = some x → x.rpc = .create now (some t) → ∃ s f cr d, t = mockTicket s f cr d

theorem snapshot_content {cd : Codec} (hl : cd.Lawful) {cfg : Config} {H : Nat} {st : Sys.St} (hb : Sys.Base cd cfg H st)
    {j : Nat} {pre : List Ev} {m : GoMap Ticket} (hm : SnapshotOf cd cfg st j pre m) {k : Str} {ct : Ticket}
    (h : m.load k = some ct) :
    ∃ c x now t, st.calls c = some x ∧ x.rpc = .create now (some t) ∧ ContentOf now t k ct := by
  obtain ⟨c, x, now, t, bts, hc, hrpc, henc, hdec⟩ := snapshot_tickets_are_created hb hm h
  refine ⟨c, x, now, t, hc, hrpc, ?_⟩
  obtain ⟨ct', d, cr, h1, h2, h3⟩ := C06_stored_content cd hl cfg now t ⟨.ticket, [], bts⟩
    (by simp [createTicketQueue, henc]) Cache.empty k
  have : ct' = ct := by
    have hp := congrArg KState.t (applyUpdate_proj cd Cache.empty (replicated ⟨.ticket, [], bts⟩ k) k)
    simp only [replicated, if_true] at hp
    change (applyUpdate cd Cache.empty ⟨.ticket, k, bts⟩).tickets.load k = _ at hp
    simp only [replicated] at h1
    rw [hp] at h1
    injection h1 with h1
    rw [← h1, hdec]
  subst this
  exact ⟨by rw [hdec], d, cr, h3⟩

/-- **C89 (one pool each).** In every execution in which all players come from the mock
frontend, every ticket of every snapshot plays exactly one class, and of the pools of the
example profile it fits that of its class and no other. -/
theorem C89_exactly_one_pool (cd : Codec) (hl : cd.Lawful) (cfg : Config) (H : Nat)
    (evs : List Sys.Label) (st : Sys.St) (hp : ∀ l ∈ evs, l.Plausible cfg H) (hrun : Sys.run cd cfg Sys.init evs = some st)
    (hmock : OnlyMocks st) (j : Nat) (pre : List Ev) (m : GoMap Ticket) (hm : SnapshotOf cd cfg st j pre m)
    (t : Ticket) (ht : t ∈ m.map (·.2)) :
    ∃ c, IsClass c ∧ Plays t c ∧ ∀ n, Fits exampleProfile (m.map (·.2)) n t ↔ n = c := by
  have hb := Sys.base_run evs (Sys.base_init cd cfg H) hp st hrun
  have hmwf : m.WF := by obtain ⟨es, sn, -, h⟩ := hm; exact h.2.1
  obtain ⟨⟨k, t'⟩, hkt, rfl⟩ := List.mem_map.1 ht
  obtain ⟨c, x, now, t, hc, hrpc, hcon⟩ := snapshot_content hl hb hm (GoMap.load_of_mem hmwf hkt)
  obtain ⟨s, f, cr, d, rfl⟩ := hmock c x now t hc hrpc
  exact ⟨mockClass d, mockClass_isClass d, content_plays hcon,
    fits_example ht (mockClass_isClass d) (content_plays hcon) (content_wf hcon)⟩

/-- An MMF of the example. -/
def ExampleMmf (sent : List ChunkedMmfRunRequest) (f : Relay.Mmf) : Prop :=
  Serves SoloRun sent f ∨ Serves RoyaleRun sent f ∨ Serves TeamRun sent f

/-- **C89 (no player twice).** So each of the three MMFs on its own puts no player into two
places, whatever the schedule. -/
theorem C89_each_player_once (cd : Codec) (hl : cd.Lawful) (cfg : Config) (H : Nat)
    (evs : List Sys.Label) (st : Sys.St) (hp : ∀ l ∈ evs, l.Plausible cfg H) (hrun : Sys.run cd cfg Sys.init evs = some st)
    (hmock : OnlyMocks st) (j : Nat) (pre : List Ev) (m : GoMap Ticket) (hm : SnapshotOf cd cfg st j pre m)
    (work : List (Ticket × List Str)) (hw : WorkFor exampleProfile (m.map (·.2)) work) (sent : List ChunkedMmfRunRequest)
    (hs : chunkedRequest exampleProfile work = some sent) (hlen : sent.length < 2 ^ 31)
    (wait : Bool) (f : Relay.Mmf) (hf : ExampleMmf sent f)
    (ls : List Relay.Label) (s : Relay.St) (hr : Relay.run wait [f] (Relay.init [f]) ls = some s) :
    (((Relay.handed s).flatMap players).map (·.id)).Nodup := by
  have hb := Sys.base_run evs (Sys.base_init cd cfg H) hp st hrun
  have hmwf : m.WF := by obtain ⟨es, sn, -, h⟩ := hm; exact h.2.1
  have hattr : ∀ t ∈ m.map (·.2), t.attributes.isSome := by
    intro t ht
    obtain ⟨⟨k', t'⟩, hkt, rfl⟩ := List.mem_map.1 ht
    exact snapshot_attributes hl hb hm (GoMap.load_of_mem hmwf hkt)
  have hts : ((m.map (·.2)).map (·.id)).Nodup := by
    have : (m.map (·.2)).map (·.id) = m.map (·.1) := by
      rw [List.map_map]
      refine List.map_congr_left fun e he => ?_
      obtain ⟨_, _, _, _, _, _, hcon⟩ := snapshot_content hl hb hm (GoMap.load_of_mem hmwf (k := e.1) (v := e.2) he)
      exact hcon.1
    rw [this]; exact hmwf
  have hdis : ∀ t n n', Fits exampleProfile (m.map (·.2)) n t → Fits exampleProfile (m.map (·.2)) n' t → n = n' := by
    intro t n n' h h'
    obtain ⟨c, -, -, hc⟩ := C89_exactly_one_pool cd hl cfg H evs st hp hrun hmock j pre m hm t h.1
    rw [(hc n).1 h, (hc n').1 h']
  have hwf : exampleProfile.pools.WF := by unfold GoMap.WF; decide
  rcases hf with hf | hf | hf
  · exact C84_each_player_once _ hwf _ hattr hts hdis work hw sent hs hlen wait f hf ls s hr
  · exact C84_each_player_once_royale _ hwf _ hattr hts hdis work hw sent hs hlen wait f hf ls s hr
  · exact C84_each_player_once_teams _ hwf _ hattr hts hdis work hw sent hs hlen wait f hf ls s hr

/-- A tank is created and activated; instance 0 has read both updates. -/
def evsMock : List Sys.Label :=
  [.start 0, .call 0 0 (.create startNs (some (mockTicket "1".toList 1 ⟨1700000000, 0⟩ 1))), .submit 0 (okEnv 1),
   .timeout 0 (okEnv 1), .finish 0 [], .call 1 0 (.setState .activate [idA]), .submit 1 (okEnv 1), .timeout 0 (okEnv 1),
   .finish 1 [], .poll 0, .apply 0, .apply 0]

example : ∃ st, (∀ l ∈ evsMock, l.Plausible Config.default 1600000000000) ∧
    Sys.run Wire.codec Config.default Sys.init evsMock = some st ∧ OnlyMocks st ∧
    ((candidates (st.insts 0).cache).map fun e => (e.1, (e.2.attributes.map (·.stringArgs)).getD [])) =
      [(idA, [(classArg, tank)])] := by
  have h : (Sys.run Wire.codec Config.default Sys.init evsMock).map
      (fun st => (candidates (st.insts 0).cache).map fun e => (e.1, (e.2.attributes.map (·.stringArgs)).getD [])) =
      some [(idA, [(classArg, tank)])] := by decide +kernel
  obtain ⟨st, hs, he⟩ := Option.map_eq_some_iff.1 h
  refine ⟨st, ?_, hs, ?_, he⟩
  · have hpl := okEnv_plausible
    intro l hl
    simp only [evsMock, List.mem_cons, List.not_mem_nil, or_false] at hl
    rcases hl with rfl | rfl | rfl | rfl | rfl | rfl | rfl | rfl | rfl | rfl | rfl | rfl <;> first | exact hpl 1 | trivial
  · intro c x now t hc hx
    rcases rpcAt_run _ hs c x.rpc (by simp [rpcAt, hc]) with h4 | ⟨i, h4⟩
    · simp [rpcAt, Sys.init] at h4
    · simp only [evsMock, List.mem_cons, List.not_mem_nil, or_false, Sys.Label.call.injEq, reduceCtorEq, false_or] at h4
      rcases h4 with ⟨-, -, e⟩ | ⟨-, -, e⟩
      · rw [hx] at e; injection e with _ e; injection e with e
        exact ⟨_, _, _, _, e⟩
      · rw [hx] at e; cases e

/-! ## C90: accepted and rejected matches -/

theorem judge_perm (r : Nat → Nat) : ∀ (ms : List (Option Match)) (n : Nat),
    ((judge r n ms).1 ++ (judge r n ms).2).Perm ms
  | [], _ => List.Perm.refl _
  | m :: ms, n => by
    have ih := judge_perm r ms (n + 1)
    simp only [judge]
    split
    · exact List.perm_middle.trans (ih.cons m)
    · exact ih.cons m

theorem rejectedIds_perm (ord : GoMap Roster → GoMap Roster) (hord : ∀ g, (ord g).Perm g) (rej : List (Option Match)) :
    (rejectedIds ord rej).Perm ((rej.flatMap players).map (·.id)) := by
  induction rej with
  | nil => exact List.Perm.refl _
  | cons m rej ih =>
    simp only [rejectedIds, List.flatMap_cons, List.map_append] at ih ⊢
    refine List.Perm.append ?_ ih
    cases m with
    | none => exact List.Perm.refl _
    | some m =>
      simp only [players, matchTickets, List.map_flatMap]
      exact (hord _).flatMap_right _

/-- The full claim C90: the players of accepted matches stay out of the pools, for every
round of the example's MMFs on a population in which each player plays one class. -/
def C90Statement (good : List Relay.Mmf → Prop) : Prop :=
  ∀ (ts : List Ticket), (ts.map (·.id)).Nodup →
    (∀ t ∈ ts, (∃ a, t.attributes = some a ∧ WFAttrs a) ∧ ∃ c, IsClass c ∧ Plays t c) →
    ∀ (work : List (Ticket × List Str)), WorkFor exampleProfile ts work →
    ∀ (sent : List ChunkedMmfRunRequest), chunkedRequest exampleProfile work = some sent → sent.length < 2 ^ 31 →
    ∀ (wait : Bool) (fs : List Relay.Mmf), good fs → (∀ f ∈ fs, ExampleMmf sent f) →
    ∀ (ls : List Relay.Label) (s : Relay.St), Relay.run wait fs (Relay.init fs) ls = some s →
    ∀ (r : Nat → Nat) (ord : GoMap Roster → GoMap Roster), (∀ g, (ord g).Perm g) →
      KeepsAccepted (judge r 0 (Relay.handed s)).1 (rejectedIds ord (judge r 0 (Relay.handed s)).2)

/-- **C90, the part that holds**: when one MMF is invoked. -/
theorem C90_one_mmf_partial : C90Statement (fun fs => ∃ f, fs = [f]) := by
  rintro ts hts hcls work hw sent hs hlen wait fs ⟨f, rfl⟩ hf ls s hr r ord hord
  have hattr : ∀ t ∈ ts, t.attributes.isSome := by
    intro t ht
    obtain ⟨⟨a, h, -⟩, -⟩ := hcls t ht
    rw [h]; rfl
  have hdis : ∀ t n n', Fits exampleProfile ts n t → Fits exampleProfile ts n' t → n = n' := by
    intro t n n' h h'
    obtain ⟨hw', c, hc, hp⟩ := hcls t h.1
    rw [(fits_example h.1 hc hp hw' n).1 h, (fits_example h.1 hc hp hw' n').1 h']
  have hwf : exampleProfile.pools.WF := by unfold GoMap.WF; decide
  have hnd : (((Relay.handed s).flatMap players).map (·.id)).Nodup := by
    rcases hf f (List.mem_singleton.2 rfl) with hf | hf | hf
    · exact C84_each_player_once _ hwf _ hattr hts hdis work hw sent hs hlen wait f hf ls s hr
    · exact C84_each_player_once_royale _ hwf _ hattr hts hdis work hw sent hs hlen wait f hf ls s hr
    · exact C84_each_player_once_teams _ hwf _ hattr hts hdis work hw sent hs hlen wait f hf ls s hr
  intro m hm t ht hin
  rw [(rejectedIds_perm ord hord _).mem_iff] at hin
  rw [← (((judge_perm r (Relay.handed s) 0).flatMap_right players).map _).nodup_iff, List.flatMap_append, List.map_append,
    List.nodup_append] at hnd
  exact hnd.2.2 t.id (List.mem_map_of_mem (List.mem_flatMap.2 ⟨m, hm, ht⟩)) t.id hin rfl

/-! ### A population of two tanks, two healers and six dps -/

def mockAt (i d : Nat) : Ticket := { mockTicket (fmtNat i) 0 ⟨1700000000, 0⟩ d with id := "1700000000000-".toList ++ fmtNat i }
def popTickets : List Ticket :=
  [mockAt 0 1, mockAt 1 1, mockAt 2 2, mockAt 3 2, mockAt 4 3, mockAt 5 4, mockAt 6 5, mockAt 7 3, mockAt 8 4, mockAt 9 5]
def popWork : List (Ticket × List Str) := popTickets.map fun t => (t, [healer, tank, dps])
def popSent : List ChunkedMmfRunRequest := (chunkedRequest exampleProfile popWork).getD []
def popSolo : Mmf.RunRes :=
  (Mmf.withRequest (fun req => Mmf.soloduel (fun _ => true) [] (fun _ => ⟨0, 0⟩) (id (Mmf.pools req)) req) popSent).getD ⟨[], true⟩
def popTeam : Mmf.RunRes :=
  (Mmf.withRequest (Mmf.teamshooter (fun _ => true) (fun _ => []) fun _ => ⟨0, 0⟩) popSent).getD ⟨[], true⟩
def popDuel : Match := popSolo.sent.headD default
def popFive : Match := popTeam.sent.headD default
def popMmfs : List Relay.Mmf := [⟨true, [some popDuel], true⟩, ⟨true, [some popFive], true⟩]
def popLabels : List Relay.Label :=
  [.recv 0 popDuel.rosters] ++ upToSend 0 ++ [.hand 0, .fanEnd, .recv 1 popFive.rosters] ++
    List.replicate 22 (.go 1 true) ++ [.hand 1]

theorem popSent_eq : chunkedRequest exampleProfile popWork = some popSent := by decide +kernel

theorem popSent_received : List.Forall₂ Received popSent popSent := by
  obtain ⟨cs, h⟩ : ∃ cs : List Chunk, popSent = cs.map (chunkRequest exampleProfile cs.length) := by
    refine ⟨[[(tank, [mockAt 0 1, mockAt 1 1]), (healer, [mockAt 2 2, mockAt 3 2]),
      (dps, [mockAt 4 3, mockAt 5 4, mockAt 6 5, mockAt 7 3, mockAt 8 4, mockAt 9 5])]], by decide +kernel⟩
  rw [h]
  generalize cs.length = n
  clear h
  induction cs with
  | nil => exact .nil
  | cons c cs ih => exact .cons (received_refl ..) ih

theorem pop_solo : Serves SoloRun popSent ⟨true, [some popDuel], true⟩ := by
  refine ⟨popSent, popSent.length, popSolo, [popDuel], popSent_received,
    ⟨fun _ => true, [], fun _ => ⟨0, 0⟩, id, fun _ => List.Perm.refl _, ?_⟩, ?_, sameMatch_refl [popDuel]⟩
  · rw [List.take_length]; decide +kernel
  · refine ⟨popSolo.sent.drop 1, ?_⟩
    decide +kernel

theorem pop_team : Serves TeamRun popSent ⟨true, [some popFive], true⟩ := by
  refine ⟨popSent, popSent.length, popTeam, [popFive], popSent_received, ⟨fun _ => true, fun _ => [], fun _ => ⟨0, 0⟩, ?_⟩,
    ?_, sameMatch_refl [popFive]⟩
  · rw [List.take_length]; decide +kernel
  · refine ⟨popTeam.sent.drop 1, ?_⟩
    decide +kernel

theorem popWork_ok : WorkFor exampleProfile popTickets popWork := by
  refine ⟨by decide, fun w hw => ?_⟩
  obtain ⟨t, -, rfl⟩ := List.mem_map.1 hw
  have : validPools exampleProfile.pools = [tank, dps, healer] := by decide
  rw [this]
  change List.Perm [healer, tank, dps] [tank, dps, healer]
  decide

theorem mockAt_ok (i d : Nat) : (∃ a, (mockAt i d).attributes = some a ∧ WFAttrs a) ∧ ∃ c, IsClass c ∧ Plays (mockAt i d) c :=
  ⟨⟨_, rfl, by simp [WFAttrs]⟩, mockClass d, mockClass_isClass d, _, rfl, fun v => by simp [classArg]⟩

theorem pop_ok : ∀ t ∈ popTickets, (∃ a, t.attributes = some a ∧ WFAttrs a) ∧ ∃ c, IsClass c ∧ Plays t c := by
  intro t ht
  simp only [popTickets, List.mem_cons, List.not_mem_nil, or_false] at ht
  rcases ht with rfl | rfl | rfl | rfl | rfl | rfl | rfl | rfl | rfl | rfl <;> exact mockAt_ok _ _

/-- **C90 is false of the example**: soloduel and teamshooter work on the same pools, so the
same player may be in a duel that is accepted and in a 5v5 that is rejected; that player is
re-activated. -/
theorem C90_accepted_stay_out_refuted : ¬ C90Statement (fun _ => True) := by
  intro h
  have h1 : (Relay.run false popMmfs (Relay.init popMmfs) popLabels).map Relay.handed =
      some [some popDuel, some popFive] := by decide +kernel
  obtain ⟨s, hs, he⟩ := Option.map_eq_some_iff.1 h1
  have := h popTickets (by decide +kernel) pop_ok popWork popWork_ok popSent popSent_eq (by decide +kernel) false popMmfs trivial
    (by
      intro f hf
      simp only [popMmfs, List.mem_cons, List.not_mem_nil, or_false] at hf
      rcases hf with rfl | rfl
      · exact .inl pop_solo
      · exact .inr (.inr pop_team))
    popLabels s hs (fun n => if n = 1 then 0 else 50) id (fun _ => List.Perm.refl _)
  rw [he] at this
  have hj : judge (fun n => if n = 1 then 0 else 50) 0 [some popDuel, some popFive] = ([some popDuel], [some popFive]) := rfl
  rw [hj] at this
  exact this (some popDuel) (by simp) (mockAt 0 1) (by decide +kernel) (by decide +kernel)

/-- The case of C89 and C90: one MMF on this population, its match handed over. -/
example : (popTickets.map (·.id)).Nodup ∧ WorkFor exampleProfile popTickets popWork ∧
    chunkedRequest exampleProfile popWork = some popSent ∧ ExampleMmf popSent ⟨true, [some popFive], true⟩ ∧
    (matchTickets popFive).length = 10 ∧
    ∃ s, Relay.run false [⟨true, [some popFive], true⟩] (Relay.init [⟨true, [some popFive], true⟩])
      ([.recv 0 popFive.rosters] ++ List.replicate 22 (.go 0 true) ++ [.hand 0]) = some s ∧
      Relay.handed s = [some popFive] := by
  refine ⟨by decide +kernel, popWork_ok, popSent_eq, .inr (.inr pop_team), by decide +kernel, ?_⟩
  have h : (Relay.run false [⟨true, [some popFive], true⟩] (Relay.init [⟨true, [some popFive], true⟩])
      ([.recv 0 popFive.rosters] ++ List.replicate 22 (.go 0 true) ++ [.hand 0])).map Relay.handed = some [some popFive] := by
    decide +kernel
  exact Option.map_eq_some_iff.1 h

/-! ## C91: which of the example's functions can make matches -/

/-- **C91 is false of the example**: the battle-royale function looks for a pool
"competitive", which the example profile does not have, so no population whatsoever gives
it a match. -/
theorem C91_royale_never (ts : List Ticket) (ha : ∀ t ∈ ts, t.attributes.isSome)
    (work : List (Ticket × List Str)) (hw : WorkFor exampleProfile ts work) (sent : List ChunkedMmfRunRequest)
    (hs : chunkedRequest exampleProfile work = some sent) (hl : sent.length < 2 ^ 31)
    (wait : Bool) (fs : List Relay.Mmf) (hfs : ∀ f ∈ fs, f.starts = true → Serves RoyaleRun sent f)
    (ls : List Relay.Label) (s : Relay.St) (hr : Relay.run wait fs (Relay.init fs) ls = some s) :
    Relay.handed s = [] := by
  have h := C84_royales exampleProfile (by unfold GoMap.WF; decide) ts ha work hw sent hs hl wait fs hfs ls s hr
  refine List.eq_nil_iff_forall_not_mem.2 fun o ho => ?_
  obtain ⟨x, n, ro, -, -, hlen, hfit⟩ := h o ho
  obtain ⟨t, ht⟩ := List.exists_mem_of_length_pos (l := ro.tickets) (by omega)
  obtain ⟨-, pool, hload, -⟩ := hfit t ht
  exact absurd (load_example.1 hload).1 (by rw [isClass_iff]; decide)

/-- A function the example invokes with its profile can make a match. -/
def CanMatch (Run : List ChunkedMmfRunRequest → Mmf.RunRes → Prop) : Prop :=
  ∃ ts work sent f ls s, (∀ t ∈ ts, ∃ i d, t = mockAt i d) ∧ WorkFor exampleProfile ts work ∧
    chunkedRequest exampleProfile work = some sent ∧ sent.length < 2 ^ 31 ∧ f.starts = true ∧ Serves Run sent f ∧
    Relay.run false [f] (Relay.init [f]) ls = some s ∧ Relay.handed s ≠ []

theorem C91_all_can_match_refuted : ¬ (CanMatch SoloRun ∧ CanMatch RoyaleRun ∧ CanMatch TeamRun) := by
  rintro ⟨-, ⟨ts, work, sent, f, ls, s, h1, h2, h3, h4, h5, h6, h7, h8⟩, -⟩
  refine h8 (C91_royale_never ts (fun t ht => ?_) work h2 sent h3 h4 false [f] (fun g hg _ => ?_) ls s h7)
  · obtain ⟨i, d, rfl⟩ := h1 t ht; rfl
  · rw [List.mem_singleton.1 hg]; exact h6

/-- **C91, the part that holds.** -/
theorem C91_others_can_match_partial : CanMatch SoloRun ∧ CanMatch TeamRun := by
  have hts : ∀ t ∈ popTickets, ∃ i d, t = mockAt i d := by
    intro t ht
    simp only [popTickets, List.mem_cons, List.not_mem_nil, or_false] at ht
    rcases ht with h | h | h | h | h | h | h | h | h | h <;> exact ⟨_, _, h⟩
  constructor
  · have h : (Relay.run false [⟨true, [some popDuel], true⟩] (Relay.init [⟨true, [some popDuel], true⟩])
        ([.recv 0 popDuel.rosters] ++ upToSend 0 ++ [.hand 0])).map Relay.handed = some [some popDuel] := by decide +kernel
    obtain ⟨s, hs, he⟩ := Option.map_eq_some_iff.1 h
    exact ⟨_, _, _, _, _, s, hts, popWork_ok, popSent_eq, by decide +kernel, rfl, pop_solo, hs, by rw [he]; simp⟩
  · have h : (Relay.run false [⟨true, [some popFive], true⟩] (Relay.init [⟨true, [some popFive], true⟩])
        ([.recv 0 popFive.rosters] ++ List.replicate 22 (.go 0 true) ++ [.hand 0])).map Relay.handed = some [some popFive] := by
      decide +kernel
    obtain ⟨s, hs, he⟩ := Option.map_eq_some_iff.1 h
    exact ⟨_, _, _, _, _, s, hts, popWork_ok, popSent_eq, by decide +kernel, rfl, pop_team, hs, by rw [he]; simp⟩

/-! ## C92: failed creations -/

/-- **C92.** In every execution, whatever mixture of created and failed tickets the mock
frontend collects in one batch: if om-core accepts the batch's activation, it activates
exactly the tickets whose creation returned an id, in order; the failed ones (sent as the
empty id) do no harm. -/
theorem C92_failed_creations_harmless (cd : Codec) (cfg : Config) (evs : List Sys.Label) (s : Sys.St)
    (hr : Sys.run cd cfg Sys.init evs = some s) (outs : List Sys.Outcome)
    (ho : ∀ o ∈ outs, ∃ c x now t, s.calls c = some x ∧ x.rpc = .create now t ∧ x.outcome = some o)
    (us : List StateUpdate) (h : activeStateQueue cfg .activate (outs.map proxyCreate) = .ok us) :
    us = (outs.filterMap fun o => match o with | .id k => if k = [] then none else some k | _ => none).map
      fun k => ⟨.activate, k, []⟩ := by
  rw [C15_valid_ids_sent cfg .activate _ us h]
  congr 1
  clear h
  induction outs with
  | nil => rfl
  | cons o outs ih =>
    have ih := ih fun o' h' => ho o' (List.mem_cons_of_mem _ h')
    have hempty : ¬ RegexMatches [] := by rw [regexMatches_iff]; simp
    cases o with
    | id k =>
      by_cases hk : k = []
      · subst hk
        simpa [proxyCreate, hempty] using ih
      · obtain ⟨c, x, now, t, hc, -, hx⟩ := ho (.id k) (List.mem_cons_self ..)
        have hw := (C83_ids_can_be_used cd cfg evs s hr c k hk ⟨x, hc, hx⟩).1
        have hm : RegexMatches k := by
          obtain ⟨a, b, rfl, -⟩ := hw
          rw [regexMatches_iff]; simp
        simp only [List.map_cons, proxyCreate, List.filter_cons, List.filterMap_cons, hk, if_false]
        rw [if_pos (by simpa using hm), ih]
    | ok => simpa [proxyCreate, hempty] using ih
    | err e => simpa [proxyCreate, hempty] using ih
    | gone => simpa [proxyCreate, hempty] using ih

/-- Creation of A succeeds; B's connection to Redis breaks, and its id is empty. -/
def evsOneLost : List Sys.Label :=
  [.start 0, .call 0 0 (.create startNs (some reqA)), .submit 0 (okEnv 1), .timeout 0 (okEnv 1), .finish 0 [],
   .call 1 0 (.create startNs (some reqB)), .submit 1 lostEnv, .timeout 0 lostEnv, .finish 1 []]

example : ∃ s, Sys.run Wire.codec Config.default Sys.init evsOneLost = some s ∧
    told s 0 = some idA ∧ told s 1 = some [] ∧
    activeStateQueue Config.default .activate ([.id [], .id idA, .gone].map proxyCreate) = .ok [⟨.activate, idA, []⟩] := by
  have h : (Sys.run Wire.codec Config.default Sys.init evsOneLost).map (fun s => (told s 0, told s 1)) =
      some (some idA, some []) := by decide +kernel
  obtain ⟨s, hs, he⟩ := Option.map_eq_some_iff.1 h
  rw [Prod.mk.injEq] at he
  refine ⟨s, hs, he.1, he.2, ?_⟩
  exact congrArg Except.ok (by decide +kernel : stateUpdatesFor .activate (validateTicketIds [[], idA, []]).1 = _)

/-! ## C88: the players of rejected matches -/

/-- **C88.** Partial: in the executions of C69.  `s1`: the matchmaker has the cycle's
matches, and every call deactivating `k` has ended (C44: before its match is handed over).
The matchmaker draws random numbers `r`, queues the players of the rejected matches and
runs `activateTickets`, whose calls go to any instances and have returned OK by `s2`.
Then every player `k` of a rejected match is in every snapshot taken by every instance
that has caught up, with the content it was created with. -/
theorem C88_rejected_players_return_partial (cd : Codec) (hl : cd.Lawful) (cfg : Config) (H : Nat)
    (evs1 evs2 evs3 : List Sys.Label) (s1 s2 s3 : Sys.St)
    (hh : ∀ l ∈ evs1 ++ evs2, l.Healthy cd cfg H) (hp3 : ∀ l ∈ evs3, l.Plausible cfg H)
    (hr1 : Sys.run cd cfg Sys.init evs1 = some s1) (hr2 : Sys.run cd cfg s1 evs2 = some s2)
    (hr3 : Sys.run cd cfg s2 evs3 = some s3)
    (c1 : Nat) (x1 : Sys.Call) (now : Int) (t : Ticket) (k : Str)
    (hc1 : s1.calls c1 = some x1) (hrpc1 : x1.rpc = .create now (some t)) (ho1 : x1.outcome = some (.id k))
    (ms : List (Option Match)) (r : Nat → Nat) (ord : GoMap Roster → GoMap Roster) (hord : ∀ g, (ord g).Perm g)
    (m : Option Match) (hm : m ∈ (judge r 0 ms).2) (tk : Ticket) (htk : tk ∈ players m) (hk : tk.id = k)
    (q : List Str) (hq : requeue [] (rejectedIds ord (judge r 0 ms).2) = some q)
    (ls : List Lbl) (a : Mm.St) (ha : (Mm.St.init q).run ls = some a) (hpush : pushed ls = []) (hret : a.pc = .returned)
    (hcalls : ∀ b ∈ a.calls, ∃ c2 x2, s1.calls c2 = none ∧ s2.calls c2 = some x2 ∧
      x2.rpc = .setState .activate b ∧ x2.outcome = some .ok)
    (hde : ∀ c y, s3.calls c = some y → Deactivates y.rpc k → ∃ x, s1.calls c = some x ∧ x.outcome ≠ none)
    (j : Nat) (pre : List Ev) (snap : GoMap Ticket) (hsn : SnapshotOf cd cfg s3 j pre snap)
    (hcons : s2.stream.entries.length ≤ (updatesOf pre).length) (hfresh : Fresh cd cfg (s3.insts j).hist k) :
    ∃ ct, snap.load k = some ct ∧ ContentOf now t k ct := by
  obtain ⟨hq1, hq2⟩ := (C66_up_to_capacity_partial (rejectedIds ord (judge r 0 ms).2)).2 q hq
  obtain ⟨-, hall⟩ := hq2 ls a ha hpush hret
  have hin : k ∈ a.calls.flatten := by
    rw [hall, (rejectedIds_perm ord hord _).mem_iff, ← hk]
    exact List.mem_map_of_mem (List.mem_flatMap.2 ⟨m, hm, htk⟩)
  obtain ⟨b, hb, hkb⟩ := List.mem_flatten.1 hin
  obtain ⟨c2, x2, e1, e2, e3, e4⟩ := hcalls b hb
  exact C69_created_and_activated_is_served_partial cd hl cfg H evs1 evs2 evs3 s1 s2 s3 hh hp3 hr1 hr2 hr3 c1 x1 now t k
    hc1 hrpc1 ho1 c2 x2 e1 e2 (by rw [e3]; exact hkb) e4 hde j pre snap hsn hcons hfresh

/-- **C88 (nobody is forgotten or activated for nothing).** Whatever is drawn, each match is
judged once, the queue holds exactly the players of the rejected ones, and each call of
`activateTickets` is one that om-core does not refuse for its size. -/
theorem C88_queue_is_rejected (cfg : Config) (hcfg : 500 ≤ cfg.maxUpdates)
    (ms : List (Option Match)) (r : Nat → Nat) (ord : GoMap Roster → GoMap Roster) (hord : ∀ g, (ord g).Perm g) :
    ((judge r 0 ms).1 ++ (judge r 0 ms).2).Perm ms ∧
    (rejectedIds ord (judge r 0 ms).2).Perm (((judge r 0 ms).2.flatMap players).map (·.id)) ∧
    ∀ q ls a, requeue [] (rejectedIds ord (judge r 0 ms).2) = some q → (Mm.St.init q).run ls = some a →
      ∀ b ∈ a.calls, ∃ us, activeStateQueue cfg .activate b = .ok us := by
  refine ⟨judge_perm r ms 0, rejectedIds_perm ord hord _, fun q ls a hq ha b hb => ?_⟩
  obtain ⟨h1, h2⟩ := (C63_batches q ls a ha).1 b hb
  exact (C14_batch_size cfg .activate b).2 ⟨fun h => by simp [h] at h1, by omega⟩

/-- Which matches are rejected: those for which 0 or 1 is drawn, whatever is in them; all others are accepted, and both
stay in the order in which they came. -/
theorem C88_judged (r : Nat → Nat) (ms : List (Option Match)) :
    (judge r 0 ms).2 = (ms.zipIdx.filter fun p => r p.2 = 0 ∨ r p.2 = 1).map (·.1) ∧
    (judge r 0 ms).1 = (ms.zipIdx.filter fun p => ¬ (r p.2 = 0 ∨ r p.2 = 1)).map (·.1) := by
  suffices h : ∀ n, (judge r n ms).2 = ((ms.zipIdx n).filter fun p => r p.2 = 0 ∨ r p.2 = 1).map (·.1) ∧
      (judge r n ms).1 = ((ms.zipIdx n).filter fun p => ¬ (r p.2 = 0 ∨ r p.2 = 1)).map (·.1) from h 0
  induction ms with
  | nil => intro n; exact ⟨rfl, rfl⟩
  | cons m ms ih =>
    intro n
    obtain ⟨h1, h2⟩ := ih (n + 1)
    have hrej : rejects (r n) = decide (r n = 0 ∨ r n = 1) := by
      unfold rejects
      exact decide_eq_decide.2 (by omega)
    simp only [judge, List.zipIdx_cons, hrej]
    by_cases h : r n = 0 ∨ r n = 1
    · simp only [decide_eq_true h, if_true, List.filter_cons, decide_not, Bool.not_true, Bool.false_eq_true, if_false, List.map_cons]
      exact ⟨by rw [h1], by rw [h2]; simp only [decide_not]⟩
    · simp only [decide_eq_false h, Bool.false_eq_true, if_false, List.filter_cons, decide_not, Bool.not_false, if_true, List.map_cons]
      exact ⟨h1, by rw [h2]; simp only [decide_not]⟩

/-- The example means to reject one match in a hundred (matchmaker-example/main.go:248); it rejects two. -/
theorem C88_rejection_rate_refuted : ¬ ((List.range 100).countP rejects = 1) := by decide
example : (List.range 100).countP rejects = 2 := by decide

/-- A is created, activated and in a match, whose deactivation has ended. -/
def evsMatched : List Sys.Label :=
  [.start 0, .start 1, .call 0 0 (.create startNs (some reqA)), .submit 0 (okEnv 1), .timeout 0 (okEnv 1), .finish 0 [],
   .call 1 1 (.setState .activate [idA]), .submit 1 (okEnv 1), .timeout 1 (okEnv 1), .finish 1 [],
   .call 2 0 (.matched [idA]), .submit 2 (okEnv 1), .timeout 0 (okEnv 1), .finish 2 []]
def evsBack : List Sys.Label :=
  [.call 3 1 (.setState .activate [idA]), .submit 3 (okEnv 1), .timeout 1 (okEnv 1), .finish 3 []]
def evsWatch : List Sys.Label := [.poll 0, .apply 0, .apply 0, .apply 0, .apply 0]
def matchA : Match := ⟨"m".toList, [("r".toList, ⟨"r".toList, none, [{ reqA with id := idA }], []⟩)], []⟩
def mmSchedule : List Lbl := [.main, .main, .main, .main, .main, .begin 0, .finish 0, .main, .main]

/-- A case of C88: the match with A and another one are received, the former is rejected. -/
example : ∃ s1 s2 s3 : Sys.St, ∃ a : Mm.St,
    (∀ l ∈ evsMatched ++ evsBack, l.Healthy Wire.codec Config.default 1600000000000) ∧
    (∀ l ∈ evsWatch, l.Plausible Config.default 1600000000000) ∧
    Sys.run Wire.codec Config.default Sys.init evsMatched = some s1 ∧
    Sys.run Wire.codec Config.default s1 evsBack = some s2 ∧ Sys.run Wire.codec Config.default s2 evsWatch = some s3 ∧
    told s1 0 = some idA ∧ told s1 2 = some "OK".toList ∧ (s1.calls 3).isNone ∧ told s2 3 = some "OK".toList ∧
    (judge (fun n => n) 0 [some matchA, none, some popFive]).2 = [some matchA, none] ∧
    requeue [] (rejectedIds id [some matchA, none]) = some [idA] ∧
    (Mm.St.init [idA]).run mmSchedule = some a ∧ a.pc = .returned ∧ a.calls = [[idA]] ∧
    s2.stream.entries.length ≤ (updatesOf (s3.insts 0).hist).length := by
  have h1 : (Sys.run Wire.codec Config.default Sys.init evsMatched).map (fun s => (told s 0, told s 2, (s.calls 3).isNone)) =
      some (some idA, some "OK".toList, true) := by decide +kernel
  have h2 : (Sys.run Wire.codec Config.default Sys.init (evsMatched ++ evsBack)).map
      (fun s => (told s 3, s.stream.entries.length)) = some (some "OK".toList, 4) := by decide +kernel
  have h3 : (Sys.run Wire.codec Config.default Sys.init (evsMatched ++ evsBack ++ evsWatch)).map
      (fun s => (updatesOf (s.insts 0).hist).length) = some 4 := by decide +kernel
  have h4 : ((Mm.St.init [idA]).run mmSchedule).map (fun a => (a.pc, a.calls)) = some (.returned, [[idA]]) := by
    decide +kernel
  obtain ⟨s1, r1, e1⟩ := Option.map_eq_some_iff.1 h1
  obtain ⟨s2, r2, e2⟩ := Option.map_eq_some_iff.1 h2
  obtain ⟨s3, r3, e3⟩ := Option.map_eq_some_iff.1 h3
  obtain ⟨a, r4, e4⟩ := Option.map_eq_some_iff.1 h4
  simp only [Prod.mk.injEq] at e1 e2 e4
  rw [Sys.run_append, r2] at r3
  rw [Sys.run_append, r1] at r2
  refine ⟨s1, s2, s3, a, ?_, ?_, r1, r2, r3, e1.1, e1.2.1, e1.2.2, e2.1, rfl, rfl, r4, e4.1, e4.2, ?_⟩
  · have hpl := okEnv_plausible
    intro l hl
    simp only [evsMatched, evsBack, List.cons_append, List.nil_append, List.mem_cons, List.not_mem_nil, or_false] at hl
    rcases hl with rfl | rfl | rfl | rfl | rfl | rfl | rfl | rfl | rfl | rfl | rfl | rfl | rfl | rfl | rfl | rfl | rfl | rfl <;>
      first
        | exact ⟨trivial, trivial, trivial, trivial⟩
        | exact ⟨hpl 1, rfl, trivial, okEnv_readable _⟩
        | exact ⟨trivial, trivial, benign_accepted _ _ _ _ trivial, readable_of (by decide +kernel)⟩
        | exact ⟨trivial, trivial, benign_accepted _ _ _ _ (Or.inl rfl), readable_of (by decide +kernel)⟩
        | exact ⟨trivial, trivial, benign_accepted _ _ _ _ (by intro k hk; rw [List.mem_singleton.1 hk]; decide), readable_of (by decide +kernel)⟩
  · intro l hl
    simp only [evsWatch, List.mem_cons, List.not_mem_nil, or_false] at hl
    rcases hl with rfl | rfl | rfl | rfl | rfl <;> trivial
  · rw [e2.2, e3]

end OM.Props
