import Verif.Props.OwnBatches
import Verif.Props.Rounds
import Verif.Props.Restart
import Verif.Props.Example
/-!
# Properties C88, C104, C137: only a call's own batches need a working connection

The versions of these claims in which, as in `Props/OwnBatches.lean`, connections to Redis may fail, except those over
which the updates of the calls in question were sent.
-/
namespace OM.Props
open OM.Spec OM.Sys

open OM.Mm in
/-- **C88 (own batches).** Partial, as C70: of connections and of what can be stored it is assumed only that the batches with
the updates of the CreateTicket call (until it returned) and of the calls of `activateTickets` were well sent. -/
theorem C88_own_batches_partial (cd : Codec) (hl : cd.Lawful) (cfg : Config) (H : Nat)
    (evs1 evs2 evs3 : List Sys.Label) (s1 s2 s3 : Sys.St) (hp : ∀ l ∈ evs1 ++ evs2 ++ evs3, l.Plausible cfg H)
    (hr1 : Sys.run cd cfg Sys.init evs1 = some s1) (hr2 : Sys.run cd cfg s1 evs2 = some s2)
    (hr3 : Sys.run cd cfg s2 evs3 = some s3)
    (c1 : Nat) (x1 : Sys.Call) (now : Int) (t : Ticket) (k : Str) (hw1 : Along cd cfg (WellSent cfg c1) Sys.init evs1)
    (hc1 : s1.calls c1 = some x1) (hrpc1 : x1.rpc = .create now (some t)) (ho1 : x1.outcome = some (.id k))
    (ms : List (Option Match)) (r : Nat → Nat) (ord : GoMap Roster → GoMap Roster) (hord : ∀ g, (ord g).Perm g)
    (m : Option Match) (hm : m ∈ (judge r 0 ms).2) (tk : Ticket) (htk : tk ∈ players m) (hk : tk.id = k)
    (q : List Str) (hq : requeue [] (rejectedIds ord (judge r 0 ms).2) = some q)
    (ls : List Lbl) (a : Mm.St) (ha : (Mm.St.init q).run ls = some a) (hpush : pushed ls = []) (hret : a.pc = .returned)
    (hcalls : ∀ b ∈ a.calls, k ∈ b → ∃ c2 x2, s1.calls c2 = none ∧ Along cd cfg (WellSent cfg c2) s1 evs2 ∧
      s2.calls c2 = some x2 ∧ x2.rpc = .setState .activate b ∧ ReadableIds x2.rpc ∧ x2.outcome = some .ok)
    (hde : ∀ c y, s3.calls c = some y → Deactivates y.rpc k → ∃ x, s1.calls c = some x ∧ x.outcome ≠ none)
    (j : Nat) (pre : List Ev) (snap : GoMap Ticket) (hsn : SnapshotOf cd cfg s3 j pre snap)
    (hcons : s2.stream.entries.length ≤ (updatesOf pre).length) (hfresh : Fresh cd cfg (s3.insts j).hist k) :
    ∃ ct, snap.load k = some ct ∧ ContentOf now t k ct := by
  obtain ⟨hq1, hq2⟩ := (C66_up_to_capacity_partial (rejectedIds ord (judge r 0 ms).2)).2 q hq
  obtain ⟨-, hall⟩ := hq2 ls a ha hpush hret
  have hin : k ∈ a.calls.flatten := by
    rw [hall, (rejectedIds_perm ord hord _).mem_iff, ← hk]
    exact List.mem_map_of_mem (List.mem_flatMap.2 ⟨m, hm, htk⟩)
  obtain ⟨b, hb, hkb⟩ := List.mem_flatten.1 hin
  obtain ⟨c2, x2, e1, e2, e3, e4, e5, e6⟩ := hcalls b hb hkb
  exact C69_own_batches_partial cd hl cfg H evs1 evs2 evs3 s1 s2 s3 hp hr1 hr2 hr3 c1 x1 now t k hw1 hc1 hrpc1 ho1
    c2 x2 e1 e2 e3 (by rw [e4]; exact hkb) e5 e6 hde j pre snap hsn hcons hfresh

/-- **C104 (own batches).** Partial: full C104 has no condition on the snapshot (`C104_double_booked_refuted`); connections
may fail, except over the batches with the players' creations and with their deactivations. -/
theorem C104_own_batches_partial (cd : Codec) (hl : cd.Lawful) (cfg : Config) (H : Nat) (wait : Bool)
    (evs1 evs2 evs3 : List Label) (s1 s2 s3 : St) (hp : ∀ l ∈ evs1 ++ evs2 ++ evs3, l.Plausible cfg H)
    (hr1 : run cd cfg init evs1 = some s1) (hr2 : run cd cfg s1 evs2 = some s2) (hr3 : run cd cfg s2 evs3 = some s3)
    (o : Option Match)
    (hcr : ∀ t ∈ players o, ∃ c x now req, Along cd cfg (WellSent cfg c) init evs1 ∧ s1.calls c = some x ∧
      x.rpc = .create now req ∧ x.outcome = some (.id t.id))
    (c2 : Nat) (x2 : Call) (ids : List Str) (hn2 : s1.calls c2 = none) (hw2 : Along cd cfg (WellSent cfg c2) s1 evs2)
    (hc2 : s2.calls c2 = some x2) (hrpc : x2.rpc = .matched ids) (hids : ids.Perm ((players o).map (·.id)))
    (ho2 : x2.outcome = some .ok) (hg : ∀ r ∈ x2.got, r.err = none)
    (hact : ∀ t ∈ players o, ∀ c y, s3.calls c = some y → Activates y.rpc t.id → ∃ x, s1.calls c = some x ∧ x.outcome ≠ none)
    (j : Nat) (pre : List Ev) (m : GoMap Ticket) (hsn : SnapshotOf cd cfg s3 j pre m)
    (hcons : s2.stream.entries.length ≤ (updatesOf pre).length) (o' : Option Match) (hin' : InRound wait m o') :
    NoCommonPlayer o o' := by
  have hb : Base cd cfg H s3 := base_run (evs1 ++ evs2 ++ evs3) (base_init cd cfg H) hp s3 (by
    rw [run_append, run_append, hr1, Option.bind_some, hr2, Option.bind_some, hr3])
  refine noCommon_of_out hl hb hsn (fun t ht => ?_) hin'
  obtain ⟨c1, x1, now, req, q0, q1, q2, q3⟩ := hcr t ht
  have hde : Deactivates x2.rpc t.id := by
    rw [hrpc]
    exact hids.mem_iff.2 (List.mem_map_of_mem ht)
  exact C95_own_batches_partial cd cfg H evs1 evs2 evs3 s1 s2 s3 hp hr1 hr2 hr3 c1 x1 now req t.id q0 q1 q2 q3
    c2 x2 hn2 hw2 hc2 hde (by rw [hrpc]; trivial) ho2 (.inr ⟨⟨ids, hrpc⟩, hg⟩) (hact t ht) j pre m hsn hcons

/-- **C137 (own batches).** Partial: full C137 has no condition on what the instance has read
(`C137_offers_matched_players_refuted`); connections may fail, except over the batches with the ticket's creation and with
its deactivation, which may also be one that DeactivateTickets was asked for. -/
theorem C137_own_batches_partial (cd : Codec) (cfg : Config) (H : Nat)
    (evs1 evs2 evs3 : List Label) (s1 s2 s3 : St) (j : Nat) (hp : ∀ l ∈ evs1 ++ evs2 ++ evs3, l.Plausible cfg H)
    (hr1 : run cd cfg init evs1 = some s1) (hr2 : run cd cfg s1 evs2 = some s2)
    (hr3 : run cd cfg s2 (.start j :: evs3) = some s3)
    (c1 : Nat) (x1 : Call) (now : Int) (t : Option Ticket) (k : Str) (hw1 : Along cd cfg (WellSent cfg c1) init evs1)
    (hc1 : s1.calls c1 = some x1) (hrpc1 : x1.rpc = .create now t) (ho1 : x1.outcome = some (.id k))
    (c2 : Nat) (x2 : Call) (hn2 : s1.calls c2 = none) (hw2 : Along cd cfg (WellSent cfg c2) s1 evs2)
    (hc2 : s2.calls c2 = some x2) (hde : Deactivates x2.rpc k) (hi2 : ReadableIds x2.rpc) (ho2 : x2.outcome = some .ok)
    (htold : (∃ ids, x2.rpc = .setState .deactivate ids) ∨ ((∃ ids, x2.rpc = .matched ids) ∧ ∀ r ∈ x2.got, r.err = none))
    (hact : ∀ c y, s3.calls c = some y → Activates y.rpc k → ∃ x, s1.calls c = some x ∧ x.outcome ≠ none)
    (pre : List Ev) (m : GoMap Ticket) (hsn : SnapshotOf cd cfg s3 j pre m)
    (hcons : s2.stream.entries.length ≤ (updatesOf pre).length) : m.load k = none := by
  refine C95_own_batches_partial cd cfg H evs1 evs2 (.start j :: evs3) s1 s2 s3 ?_ hr1 hr2 hr3 c1 x1 now t k hw1 hc1 hrpc1 ho1
    c2 x2 hn2 hw2 hc2 hde hi2 ho2 htold hact j pre m hsn hcons
  intro l hl
  rcases List.mem_append.1 hl with hl | hl
  · exact hp l (List.mem_append_left _ hl)
  · rcases List.mem_cons.1 hl with rfl | hl
    · trivial
    · exact hp l (List.mem_append_right _ hl)

/-! ### A sample execution -/

/-- Instance 1 loses its connection over a batch with a ticket; A and B are created and activated at instance 0. -/
def evsLostAndPair : List Label :=
  [.start 1, .call 9 1 (.create startNs (some reqB)), .submit 9 (okEnv 1), .timeout 1 lostEnv, .finish 9 []] ++ evsPair

/-- The match of A and B is made, while instance 1 fails again; then instance 1 is restarted. -/
def evsLostAndMatched : List Label :=
  [.call 8 1 (.create startNs (some reqB)), .submit 8 (okEnv 1), .timeout 1 lostEnv, .crash 1] ++ evsPairMatched

/-- A case of `C104_own_batches_partial` and `C137_own_batches_partial` that the claims with healthy connections do not
cover.  It goes on with `.start 1`, with what instance 1 reads, and with `evsPairNext`. -/
example :
    (¬ ∀ l ∈ evsLostAndPair, l.Healthy Wire.codec Config.default 1600000000000) ∧
    (∀ l ∈ evsLostAndPair ++ evsLostAndMatched ++ (.start 1 :: .poll 1 :: evsPairNext), l.Plausible Config.default 1600000000000) ∧
    Along Wire.codec Config.default (WellSent Config.default 0) init evsLostAndPair ∧
    Along Wire.codec Config.default (WellSent Config.default 1) init evsLostAndPair ∧
    ∃ s1 s2, run Wire.codec Config.default init evsLostAndPair = some s1 ∧
      run Wire.codec Config.default s1 evsLostAndMatched = some s2 ∧ (s2.insts 1).up = false ∧
      Along Wire.codec Config.default (WellSent Config.default 3) s1 evsLostAndMatched ∧
      told s1 0 = some idA ∧ told s1 1 = some idB ∧ told s1 9 = some [] ∧
      (s2.calls 3).map (fun x => x.got.map (·.err.isNone)) = some [true, true] ∧
      (run Wire.codec Config.default s2 (.start 1 :: .poll 1 :: evsPairNext)).isSome := by
  have hp : ∀ l ∈ evsLostAndPair ++ evsLostAndMatched ++ (.start 1 :: .poll 1 :: evsPairNext),
      l.Plausible Config.default 1600000000000 := by
    intro l hl
    simp only [evsLostAndPair, evsLostAndMatched, evsPair, evsPairMatched, evsPairNext, List.cons_append, List.nil_append,
      List.mem_cons, List.not_mem_nil, or_false] at hl
    repeat (rcases hl with rfl | hl; trivial)
  refine ⟨fun h => ?_, hp, along_of _ _ _ (by decide +kernel), along_of _ _ _ (by decide +kernel), ?_⟩
  · have := (h (.timeout 1 lostEnv) (by simp [evsLostAndPair])).2.1
    cases this
  · have h1 : (run Wire.codec Config.default init evsLostAndPair).map (fun s => (told s 0, told s 1, told s 9)) =
        some (some idA, some idB, some []) := by decide +kernel
    have h2 : ((run Wire.codec Config.default init evsLostAndPair).bind fun s1 =>
        (run Wire.codec Config.default s1 evsLostAndMatched).map fun s2 =>
          (((s2.insts 1).up, alongB Wire.codec Config.default (wellSentB Config.default 3) s1 evsLostAndMatched),
            (s2.calls 3).map (fun x => x.got.map (·.err.isNone)),
            (run Wire.codec Config.default s2 (.start 1 :: .poll 1 :: evsPairNext)).isSome)) =
        some ((false, true), some [true, true], true) := by decide +kernel
    obtain ⟨s1, r1, h2⟩ := Option.bind_eq_some_iff.1 h2
    obtain ⟨s2, r2, e⟩ := Option.map_eq_some_iff.1 h2
    rw [r1, Option.map_some, Option.some.injEq] at h1
    simp only [Prod.mk.injEq] at e h1
    obtain ⟨⟨e1, e2⟩, e3, e4⟩ := e
    exact ⟨s1, s2, r1, r2, e1, along_of _ _ _ e2, h1.1, h1.2.1, h1.2.2, e3, e4⟩

/-- A call that asked for activations of A and B, and was told OK. -/
def activatedBoth (x : Call) : Bool :=
  match x.rpc, x.outcome with | .setState .activate ids, some .ok => decide (ids = [idA, idB]) | _, _ => false

/-- A case of what `C88_own_batches_partial` asks of the calls: call 2 of this execution activates A and B, as
`activateTickets` does when their match was rejected, and its batch is well sent, while that of call 9 is not. -/
example : ∃ s1, run Wire.codec Config.default init (evsLostAndPair.take 14) = some s1 ∧ (s1.calls 2).isNone = true ∧
    told s1 0 = some idA ∧ told s1 9 = some [] ∧
    Along Wire.codec Config.default (WellSent Config.default 0) init (evsLostAndPair.take 14) ∧
    alongB Wire.codec Config.default (wellSentB Config.default 9) init (evsLostAndPair.take 14) = false ∧
    Along Wire.codec Config.default (WellSent Config.default 2) s1 (evsLostAndPair.drop 14) ∧
    (run Wire.codec Config.default s1 (evsLostAndPair.drop 14)).map
      (fun s2 => (s2.calls 2).map activatedBoth) = some (some true) ∧
    ReadableIds (.setState .activate [idA, idB]) := by
  have h1 : (run Wire.codec Config.default init (evsLostAndPair.take 14)).map (fun s =>
      (((s.calls 2).isNone, told s 0, told s 9), alongB Wire.codec Config.default (wellSentB Config.default 2) s (evsLostAndPair.drop 14),
        (run Wire.codec Config.default s (evsLostAndPair.drop 14)).map
          (fun s2 => (s2.calls 2).map activatedBoth))) =
      some ((true, some idA, some []), true, some (some true)) := by decide +kernel
  obtain ⟨s1, r1, e⟩ := Option.map_eq_some_iff.1 h1
  simp only [Prod.mk.injEq] at e
  obtain ⟨⟨e1, e2, e3⟩, e4, e5⟩ := e
  refine ⟨s1, r1, e1, e2, e3, along_of _ _ _ (by decide +kernel), by decide +kernel, along_of _ _ _ e4, e5, ?_⟩
  intro id hid
  simp only [List.mem_cons, List.not_mem_nil, or_false] at hid
  rcases hid with rfl | rfl
  · exact ⟨idA, by decide +kernel⟩
  · exact ⟨idB, by decide +kernel⟩

end OM.Props
