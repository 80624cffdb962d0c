import Verif.Props.EndToEnd
import Verif.Props.Watch
/-!
# Properties C95, C96: deactivations and assignments, end to end

Like C69, over all executions of any number of instances (`Model/System.lean`).
-/
namespace OM.Props
open OM.Spec OM.Sys

variable {cd : Codec} {cfg : Config} {H : Nat}

/-! ## What was applied, and who asked for it -/

/-- An update applied by an instance and written to the stream after `s1` is one of a call
that had not ended at `s1`. -/
theorem applied_since {s1 s3 : St} (b1 : Base cd cfg H s1) {evs : List Label} (hp : ∀ l ∈ evs, l.Plausible cfg H)
    (hr : run cd cfg s1 evs = some s3) {j n : Nat} {w : StateUpdate} (hn : s1.stream.entries.length ≤ n)
    (hw : (updatesOf (s3.insts j).hist)[n]? = some w) :
    ∃ c y v i, s3.calls c = some y ∧ y.rpc.queue cd cfg = .ok y.updates ∧ v ∈ y.updates ∧ w = replicated v i ∧
      (∃ f, redisFields v = .ok f) ∧ ∀ x, s1.calls c = some x → x.outcome = none := by
  have b3 := base_run evs b1 hp s3 hr
  obtain ⟨e, h1, h2⟩ := applied_get b3 (List.getElem?_eq_some_iff.1 hw).1
  rw [hw] at h2; injection h2 with h2
  obtain ⟨added, ha, hfrom⟩ := added_run evs b1 hp s3 hr
  have hmem : e ∈ added := by
    rw [ha, List.getElem?_append_right hn] at h1
    exact List.mem_of_getElem? h1
  obtain ⟨c, y, v, y1, y2, y3, y4⟩ := hfrom e hmem
  have hdv := decodeEntry_fields y3 e.1
  refine ⟨c, y, v, e.1.fmt, y1, ?_, y2, by rw [h2]; simp [decoded, hdv], ⟨_, y3⟩, y4⟩
  rcases b3.upd c y y1 with h | ⟨h, -⟩
  · exact h
  · rw [h] at y2; simp at y2

/-- Updates of a call whose responses are without error are in the stream. -/
theorem errorless_acked {s : St} (hb : Base cd cfg H s) {c : Nat} (ha : AcksOf s c) {x : Call} (hx : s.calls c = some x)
    (ho : x.outcome = some .ok) (hg : ∀ r ∈ x.got, r.err = none) :
    x.rpc.queue cd cfg = .ok x.updates ∧ ∀ u ∈ x.updates, ∃ n e, x.since ≤ n ∧ s.stream.entries[n]? = some e ∧
      decodeEntry e = some (replicated u e.1.fmt) := by
  rcases hb.fin c x _ hx ho with h | ⟨-, e, -, h⟩ | ⟨hl, order, h⟩
  · cases h
  · cases h
  · rcases hb.upd c x hx with hq | ⟨-, e, -, h3⟩
    · refine ⟨hq, fun u hu => ?_⟩
      have hack := ha.ack x hx
      rw [hl, List.take_length] at hack
      obtain ⟨r, hr, hur⟩ := forall₂_left hack hu
      obtain ⟨n, e, n1, n2, n3, n4⟩ := hur (hg r hr)
      exact ⟨n, e, n1, n2, by rw [n3]; exact n4⟩
    · rw [ho] at h3; simp at h3

/-- Only CreateTicket answers with an id. -/
theorem id_means_create {s : St} (hb : Base cd cfg H s) {c : Nat} {x : Call} {k : Str} (hx : s.calls c = some x)
    (ho : x.outcome = some (.id k)) : ∃ now t, x.rpc = .create now t := by
  rcases hb.fin c x _ hx ho with h | ⟨-, e, -, h⟩ | ⟨-, order, h⟩
  · cases h
  · cases h
  · cases hc : x.rpc with
    | create now t => exact ⟨now, t, rfl⟩
    | setState cmd ids =>
      simp only [Call.result, hc, Option.bind_eq_some_iff] at h
      obtain ⟨_, -, h⟩ := h
      split at h
      · injection h with h; split at h <;> cases h
      · simp at h
    | assign r =>
      simp only [Call.result, hc, createAssignmentsReturn] at h
      injection h with h; cases h
    | matched ids => simp only [Call.result, hc] at h; injection h with h; cases h

/-! ## C95 -/

/-- The last word on `k` is a deactivation when nothing after one speaks against it. -/
theorem markers_last_deactivate {h : List StateUpdate} {n : Nat} {v k : Str}
    (hn : h[n]? = some ⟨.deactivate, k, v⟩)
    (hafter : ∀ m u, n < m → h[m]? = some u → u.key = k → u.cmd ≠ .ticket ∧ u.cmd ≠ .activate) :
    ¬ Active h k := by
  rintro ⟨-, hl⟩
  have hs := split_at hn
  have hm : markers h k = markers (h.take n) k ++ .deactivate :: markers (h.drop (n + 1)) k := by
    conv => lhs; rw [hs]
    simp [markers]
  rw [hm, List.getLast?_append] at hl
  have hall : ∀ c ∈ Cmd.deactivate :: markers (h.drop (n + 1)) k, c = .deactivate := by
    intro c hc
    rcases List.mem_cons.1 hc with rfl | hc
    · rfl
    simp only [markers, List.mem_map, List.mem_filter, decide_eq_true_eq] at hc
    obtain ⟨u, ⟨hu, hk, hcase⟩, rfl⟩ := hc
    obtain ⟨m, hmu⟩ := List.mem_iff_getElem?.1 hu
    rw [List.getElem?_drop] at hmu
    obtain ⟨h1, h2⟩ := hafter (n + 1 + m) u (by omega) hmu hk
    rcases hcase with h | h | h
    · exact absurd h h1
    · exact absurd h h2
    · exact h
  cases hg : (Cmd.deactivate :: markers (h.drop (n + 1)) k).getLast? with
  | none => simp at hg
  | some c =>
    rw [hg] at hl
    have := hall c (List.mem_of_getLast? hg)
    subst this
    simp at hl

/-- `s1`: CreateTicket has returned `k`.  `s2`: a call `x2` begun after that, which asks to
deactivate `k`, has ended.  `s3`: now.  All calls that ask to activate `k` had ended by `s1`.
A snapshot that an instance starts once it has applied what was in the stream at `s2` does
not hold `k`. -/
def StaysOut (cd : Codec) (cfg : Config) (H : Nat) (good : Label → Prop) (told : Call → Prop) : Prop :=
  ∀ (evs1 evs2 evs3 : List Label) (s1 s2 s3 : St),
    (∀ l ∈ evs1 ++ evs2, good l) → (∀ l ∈ evs3, l.Plausible cfg H) →
    run cd cfg init evs1 = some s1 → run cd cfg s1 evs2 = some s2 → run cd cfg s2 evs3 = some s3 →
    ∀ (c1 : Nat) (x1 : Call) (now : Int) (t : Option Ticket) (k : Str),
    s1.calls c1 = some x1 → x1.rpc = .create now t → x1.outcome = some (.id k) →
    ∀ (c2 : Nat) (x2 : Call), s1.calls c2 = none → s2.calls c2 = some x2 →
    Deactivates x2.rpc k → x2.outcome = some .ok → told x2 →
    (∀ c y, s3.calls c = some y → Activates y.rpc k → ∃ x, s1.calls c = some x ∧ x.outcome ≠ none) →
    ∀ (j : Nat) (pre : List Ev) (m : GoMap Ticket), SnapshotOf cd cfg s3 j pre m →
    s2.stream.entries.length ≤ (updatesOf pre).length → m.load k = none

/-- C95, given that the first call's answer is true and the deactivation is in the stream. -/
theorem out_core (evs1 evs2 evs3 : List Label) (s1 s2 s3 : St)
    (hp1 : ∀ l ∈ evs1, l.Plausible cfg H) (hp2 : ∀ l ∈ evs2, l.Plausible cfg H) (hp3 : ∀ l ∈ evs3, l.Plausible cfg H)
    (hr1 : run cd cfg init evs1 = some s1) (hr2 : run cd cfg s1 evs2 = some s2) (hr3 : run cd cfg s2 evs3 = some s3)
    (c1 : Nat) (x1 : Call) (now : Int) (t : Option Ticket) (k : Str) (a1 : AcksOf s1 c1)
    (hc1 : s1.calls c1 = some x1) (hrpc1 : x1.rpc = .create now t) (ho1 : x1.outcome = some (.id k))
    (c2 : Nat) (x2 : Call) (hn2 : s1.calls c2 = none) (hc2 : s2.calls c2 = some x2)
    (hstored : ∃ n e, x2.since ≤ n ∧ s2.stream.entries[n]? = some e ∧ decodeEntry e = some ⟨.deactivate, k, []⟩)
    (hact : ∀ c y, s3.calls c = some y → Activates y.rpc k → ∃ x, s1.calls c = some x ∧ x.outcome ≠ none)
    (j : Nat) (pre : List Ev) (m : GoMap Ticket) (hsn : SnapshotOf cd cfg s3 j pre m)
    (hcons : s2.stream.entries.length ≤ (updatesOf pre).length) : m.load k = none := by
  obtain ⟨es, sn, hhist, hsnap⟩ := hsn
  have b1 := base_run evs1 (base_init cd cfg H) hp1 s1 hr1
  obtain ⟨b2, l12⟩ := later_run evs2 b1 hp2 s2 hr2
  obtain ⟨b3, l23⟩ := later_run evs3 b2 hp3 s3 hr3
  obtain ⟨m12, e12⟩ := l12.entries
  obtain ⟨m23, e23⟩ := l23.entries
  obtain ⟨u, n1, e1, q1, -, -, g1, f1, d1⟩ := create_acked b1 a1 hc1 hrpc1 ho1
  have hn1 := (List.getElem?_eq_some_iff.1 g1).1
  have hu : u.cmd = .ticket := by
    unfold createTicketQueue at q1
    split at q1
    · simp at q1
    · split at q1
      · simp at q1
      · injection q1 with q1; rw [← q1]
  have g1' : s3.stream.entries[n1]? = some e1 := by
    rw [e23, e12, List.append_assoc, List.getElem?_append_left hn1]; exact g1
  obtain ⟨n2, e2, hsince, g2, d2⟩ := hstored
  have hn2' := (List.getElem?_eq_some_iff.1 g2).1
  have hge : s1.stream.entries.length ≤ n2 := Nat.le_trans (l12.fresh c2 x2 hc2 hn2) hsince
  have g2' : s3.stream.entries[n2]? = some e2 := by
    rw [e23, List.getElem?_append_left hn2']; exact g2
  have hpre : updatesOf pre = (updatesOf (s3.insts j).hist).take (updatesOf pre).length := by
    rw [hhist, updatesOf_append, List.take_left]
  have hlen : (updatesOf pre).length ≤ (updatesOf (s3.insts j).hist).length := by
    rw [hhist, updatesOf_append, List.length_append]; omega
  have hget : ∀ (n : Nat) (e : RId × List Str), n < (updatesOf (s3.insts j).hist).length → s3.stream.entries[n]? = some e →
      (updatesOf (s3.insts j).hist)[n]? = some (decoded e) := by
    intro n e hn he
    obtain ⟨e', h1, h2⟩ := applied_get b3 hn
    rw [he] at h1; injection h1 with h1; subst h1; exact h2
  have hA : (updatesOf (s3.insts j).hist)[n1]? = some ⟨.ticket, k, u.value⟩ := by
    rw [hget n1 e1 (by rw [e12] at hcons; simp at hcons; omega) g1']
    simp [decoded, d1, replicated, hu]
  have hB : (updatesOf (s3.insts j).hist)[n2]? = some ⟨.deactivate, k, []⟩ := by
    rw [hget n2 e2 (by omega) g2']
    simp [decoded, d2]
  have hrun : run cd cfg s1 (evs2 ++ evs3) = some s3 := by rw [run_append, hr2]; exact hr3
  have hp23 : ∀ l ∈ evs2 ++ evs3, l.Plausible cfg H := fun l hl => (List.mem_append.1 hl).elim (hp2 l) (hp3 l)
  have hafter : ∀ (n : Nat) (w : StateUpdate), n2 < n → (updatesOf (s3.insts j).hist)[n]? = some w → w.key = k →
      w.cmd ≠ .ticket ∧ w.cmd ≠ .activate := by
    intro n w hn hw hwk
    refine ⟨fun hc => ?_, fun hc => ?_⟩
    · have := creation_unique b3 hw hA hc rfl hwk
      omega
    · obtain ⟨c, y, v, i, y1, y2, y3, y4, -, y5⟩ := applied_since b1 hp23 hrun (by omega) hw
      rw [y4, replicated_cmd] at hc
      rw [y4, replicated_key (by rw [hc]; simp)] at hwk
      have := activates_of_update y2 y3 hc
      rw [hwk] at this
      obtain ⟨x, hx, hxo⟩ := hact c y y1 this
      exact hxo (y5 x hx)
  have hBp : (updatesOf pre)[n2]? = some ⟨.deactivate, k, []⟩ := by
    rw [hpre, List.getElem?_take, if_pos (by omega)]; exact hB
  have hlift : ∀ (n : Nat) (w : StateUpdate), (updatesOf pre)[n]? = some w → (updatesOf (s3.insts j).hist)[n]? = some w := by
    intro n w hw
    have hnl := (List.getElem?_eq_some_iff.1 hw).1
    rw [hpre, List.getElem?_take, if_pos hnl] at hw; exact hw
  have hna := markers_last_deactivate hBp (fun n w hn hw => hafter n w hn (hlift n w hw))
  obtain ⟨-, hvalid⟩ := b3.cache j
  rw [hhist, validEvs_append] at hvalid
  have hcand : (candidates (runEvs cd cfg Cache.empty pre)).load k = none := by
    cases hl : (candidates (runEvs cd cfg Cache.empty pre)).load k with
    | none => rfl
    | some t =>
      have h1 := C23_expiration_only_drops cd cfg pre k t hvalid.1 hl
      exact absurd ((C24_life_cycle cd (updatesOf pre) k).2.1.1 (by rw [h1]; simp)) hna
  have wf := WF_runEvs (cd := cd) (cfg := cfg) WF_empty pre
  rw [candidates_load wf] at hcand
  obtain ⟨o1, -, o3⟩ := hsnap
  rw [o3]
  refine not_served cd cfg _ es k ?_ hvalid.2 ?_ sn o1
  · split at hcand
    · left; assumption
    · right; exact hcand
  · intro w hw hwk
    obtain ⟨n, hn⟩ := List.mem_iff_getElem?.1 hw
    refine hafter ((updatesOf pre).length + n) w (by omega) ?_ hwk
    rw [hhist, updatesOf_append, List.getElem?_append_right (by omega)]
    simpa using hn

/-- The deactivations of a DeactivateTickets whose answer is true are in the stream. -/
theorem deactivated_stored {s1 s2 : St} (b1 : Base cd cfg H s1) (b2 : Base cd cfg H s2) {c1 : Nat} (a1 : AcksOf s1 c1)
    {x1 : Call} {now : Int} {t : Option Ticket} {k : Str} (hc1 : s1.calls c1 = some x1) (hrpc1 : x1.rpc = .create now t)
    (ho1 : x1.outcome = some (.id k)) {c2 : Nat} (a2 : AcksOf s2 c2) {x2 : Call} (hc2 : s2.calls c2 = some x2)
    (hde : Deactivates x2.rpc k) (ho2 : x2.outcome = some .ok) {ids : List Str} (hrpc2 : x2.rpc = .setState .deactivate ids) :
    ∃ n e, x2.since ≤ n ∧ s2.stream.entries[n]? = some e ∧ decodeEntry e = some ⟨.deactivate, k, []⟩ := by
  obtain ⟨hq, hall⟩ := setState_acked b2 a2 hc2 hrpc2 ho2
  obtain ⟨u, n1, e1, q1, -, -, g1, f1, d1⟩ := create_acked b1 a1 hc1 hrpc1 ho1
  classical
  have hin : (⟨.deactivate, k, []⟩ : StateUpdate) ∈ x2.updates := by
    rw [C15_valid_ids_sent cfg .deactivate ids _ hq]
    refine List.mem_map.2 ⟨k, List.mem_filter.2 ⟨by rw [hrpc2] at hde; exact hde, ?_⟩, rfl⟩
    simpa using (regexMatches_iff k).2 (by rw [← f1]; exact dash_in_fmt _)
  obtain ⟨n, e, h1, h2, h3⟩ := hall _ hin
  exact ⟨n, e, h1, h2, by rw [h3]; rfl⟩

/-- The deactivations of a match that met no error are in the stream. -/
theorem matched_stored {s2 : St} (b2 : Base cd cfg H s2) {k : Str} {c2 : Nat} (a2 : AcksOf s2 c2) {x2 : Call}
    (hc2 : s2.calls c2 = some x2) (hde : Deactivates x2.rpc k) (ho2 : x2.outcome = some .ok) {ids : List Str}
    (hrpc2 : x2.rpc = .matched ids) (hg : ∀ r ∈ x2.got, r.err = none) :
    ∃ n e, x2.since ≤ n ∧ s2.stream.entries[n]? = some e ∧ decodeEntry e = some ⟨.deactivate, k, []⟩ := by
  obtain ⟨hq, hall⟩ := errorless_acked b2 a2 hc2 ho2 hg
  rw [hrpc2] at hde hq
  simp only [Rpc.queue, Except.ok.injEq] at hq
  obtain ⟨n, e, h1, h2, h3⟩ := hall ⟨.deactivate, k, []⟩ (by
    rw [← hq]
    exact List.mem_map.2 ⟨k, hde, rfl⟩)
  exact ⟨n, e, h1, h2, by rw [h3]; rfl⟩

/-- **C95 (what holds of DeactivateTickets).** Partial: full C95 has no conditions on
connections and updates (`C95_lost_deactivation_refuted`).  An OK of DeactivateTickets keeps the
ticket out. -/
theorem C95_deactivated_stays_out_partial (cd : Codec) (cfg : Config) (H : Nat) :
    StaysOut cd cfg H (Label.Healthy cd cfg H) (fun x => ∃ ids, x.rpc = .setState .deactivate ids) := by
  intro evs1 evs2 evs3 s1 s2 s3 hh hp3 hr1 hr2 hr3 c1 x1 now t k hc1 hrpc1 ho1 c2 x2 hn2 hc2 hde ho2 ⟨ids, hrpc2⟩ hact
    j pre m hsn hcons
  obtain ⟨b1, a1⟩ := acks_run evs1 (base_init cd cfg H) acks_init
    (fun l hl => hh l (List.mem_append_left _ hl)) s1 hr1
  obtain ⟨b2, a2⟩ := acks_run evs2 b1 a1 (fun l hl => hh l (List.mem_append_right _ hl)) s2 hr2
  exact out_core evs1 evs2 evs3 s1 s2 s3 (fun l hl => (hh l (List.mem_append_left _ hl)).1)
    (fun l hl => (hh l (List.mem_append_right _ hl)).1) hp3 hr1 hr2 hr3 c1 x1 now t k (a1.of c1) hc1 hrpc1 ho1 c2 x2 hn2 hc2
    (deactivated_stored b1 b2 (a1.of c1) hc1 hrpc1 ho1 (a2.of c2) hc2 hde ho2 hrpc2) hact j pre m hsn hcons

/-- **C95 (what holds of matches).** Partial: as above, and om-core ignores errors when it
deactivates the tickets of a match (`C95_matched_refuted`).  A match whose deactivations met
no error keeps its tickets out. -/
theorem C95_matched_stays_out_partial (cd : Codec) (cfg : Config) (H : Nat) :
    StaysOut cd cfg H (Label.Healthy cd cfg H) (fun x => (∃ ids, x.rpc = .matched ids) ∧ ∀ r ∈ x.got, r.err = none) := by
  intro evs1 evs2 evs3 s1 s2 s3 hh hp3 hr1 hr2 hr3 c1 x1 now t k hc1 hrpc1 ho1 c2 x2 hn2 hc2 hde ho2 ⟨⟨ids, hrpc2⟩, hg⟩ hact
    j pre m hsn hcons
  obtain ⟨b1, a1⟩ := acks_run evs1 (base_init cd cfg H) acks_init
    (fun l hl => hh l (List.mem_append_left _ hl)) s1 hr1
  obtain ⟨b2, a2⟩ := acks_run evs2 b1 a1 (fun l hl => hh l (List.mem_append_right _ hl)) s2 hr2
  exact out_core evs1 evs2 evs3 s1 s2 s3 (fun l hl => (hh l (List.mem_append_left _ hl)).1)
    (fun l hl => (hh l (List.mem_append_right _ hl)).1) hp3 hr1 hr2 hr3 c1 x1 now t k (a1.of c1) hc1 hrpc1 ho1 c2 x2 hn2 hc2
    (matched_stored b2 (a2.of c2) hc2 hde ho2 hrpc2 hg) hact j pre m hsn hcons

/-! ### Sample executions, and what goes wrong -/

/-- Ticket A is created and activated. -/
def evsIn : List Label :=
  [.start 0, .call 0 0 (.create startNs (some reqA)), .submit 0 (okEnv 1), .timeout 0 (okEnv 1), .finish 0 [],
   .call 1 0 (.setState .activate [idA]), .submit 1 (okEnv 1), .timeout 0 (okEnv 1), .finish 1 []]
/-- A call with one update, sent in the circumstances `env`. -/
def evsOut (rpc : Rpc) (env : SendEnv) : List Label := [.call 2 0 rpc, .submit 2 (okEnv 1), .timeout 0 env, .finish 2 []]
def evsSee (n : Nat) : List Label := .poll 0 :: List.replicate n (.apply 0)

/-- A case of C95: after DeactivateTickets, or a match, the ticket is gone; before, it was there. -/
example :
    (∀ rpc ∈ [Rpc.setState .deactivate [idA], .matched [idA]],
      ∀ l ∈ evsIn ++ evsOut rpc (okEnv 1), l.Healthy Wire.codec Config.default 1600000000000) ∧
    (∀ rpc ∈ [Rpc.setState .deactivate [idA], .matched [idA]],
      (run Wire.codec Config.default init (evsIn ++ evsOut rpc (okEnv 1) ++ evsSee 3)).map
      (fun s => (told s 0, told s 2, (s.insts 0).cache.tickets.keys, (s.insts 0).cache.inactive.keys)) =
      some (some idA, some "OK".toList, [idA], [idA])) ∧
    (run Wire.codec Config.default init (evsIn ++ evsSee 2)).map
      (fun s => ((s.insts 0).cache.tickets.keys, (s.insts 0).cache.inactive.keys)) = some ([idA], []) := by
  refine ⟨?_, ?_, by decide +kernel⟩
  · intro rpc hrpc l hl
    have hpl := okEnv_plausible 1
    have hb : Benign rpc := by
      simp only [List.mem_cons, List.not_mem_nil, or_false] at hrpc
      rcases hrpc with rfl | rfl
      · exact Or.inr rfl
      · intro k hk; rw [List.mem_singleton.1 hk]; decide
    have hre : (Label.call 2 0 rpc).Readable := by
      simp only [List.mem_cons, List.not_mem_nil, or_false] at hrpc
      rcases hrpc with rfl | rfl <;> exact readable_of (by decide +kernel)
    simp only [evsIn, evsOut, List.cons_append, List.nil_append, List.mem_cons, List.not_mem_nil, or_false] at hl
    rcases hl with rfl | rfl | rfl | rfl | rfl | rfl | rfl | rfl | rfl | rfl | rfl | rfl | rfl
    · exact ⟨trivial, trivial, trivial, trivial⟩
    · exact ⟨trivial, trivial, benign_accepted _ _ _ _ trivial, readable_of (by decide +kernel)⟩
    · exact ⟨hpl, rfl, trivial, okEnv_readable _⟩
    · exact ⟨hpl, rfl, trivial, okEnv_readable _⟩
    · exact ⟨trivial, trivial, trivial, trivial⟩
    · exact ⟨trivial, trivial, benign_accepted _ _ _ _ (Or.inl rfl), readable_of (by decide +kernel)⟩
    · exact ⟨hpl, rfl, trivial, okEnv_readable _⟩
    · exact ⟨hpl, rfl, trivial, okEnv_readable _⟩
    · exact ⟨trivial, trivial, trivial, trivial⟩
    · exact ⟨trivial, trivial, benign_accepted _ _ _ _ hb, hre⟩
    · exact ⟨hpl, rfl, trivial, okEnv_readable _⟩
    · exact ⟨hpl, rfl, trivial, okEnv_readable _⟩
    · exact ⟨trivial, trivial, trivial, trivial⟩
  · intro rpc hrpc
    simp only [List.mem_cons, List.not_mem_nil, or_false] at hrpc
    rcases hrpc with rfl | rfl <;> decide +kernel

/-- What the call `c` asked and was told. -/
def isOut (rpc : Rpc) (x : Call) : Bool :=
  match rpc, x.rpc, x.outcome with
  | .setState .deactivate ids, .setState .deactivate ids', some .ok => decide (ids = ids')
  | .matched ids, .matched ids', some .ok => decide (ids = ids')
  | _, _, _ => false

private theorem out_refuted (good : Label → Prop) (told' : Call → Prop) (rpc : Rpc) (env : SendEnv)
    (hgood : ∀ l ∈ evsIn ++ evsOut rpc env, good l) (hde : Deactivates rpc idA)
    (htold : ∀ x : Call, x.rpc = rpc → told' x)
    (hlast : (run Wire.codec Config.default init (evsIn ++ evsOut rpc env)).map
      (fun s => ((s.calls 2).map (isOut rpc), s.stream.entries.length)) = some (some true, 2))
    (hsee : (run Wire.codec Config.default init (evsIn ++ evsOut rpc env ++ evsSee 2)).map
      (fun s => ((s.insts 0).hist.map evU)) = some [some ⟨.ticket, idA, storedBytes reqA⟩, some ⟨.activate, idA, []⟩]) :
    ¬ StaysOut Wire.codec Config.default 1600000000000 good told' := by
  intro h
  have h1 : (run Wire.codec Config.default init evsIn).map (fun s => (told s 0, (s.calls 2).isNone,
      (s.calls 1).map fun x => x.outcome.isSome)) = some (some idA, true, some true) := by decide +kernel
  obtain ⟨s1, r1, e1⟩ := Option.map_eq_some_iff.1 h1
  obtain ⟨s2, r2, e2⟩ := Option.map_eq_some_iff.1 hlast
  obtain ⟨s3, r3, e3⟩ := Option.map_eq_some_iff.1 hsee
  rw [Prod.mk.injEq, Prod.mk.injEq] at e1
  rw [Prod.mk.injEq] at e2
  have r3' := r3
  rw [run_append, r2, Option.bind_some] at r3
  rw [run_append, r1, Option.bind_some] at r2
  obtain ⟨x1, hx1, ho1⟩ := told_id e1.1 (by decide)
  have hb1 := base_run evsIn (base_init Wire.codec Config.default 1600000000000) (by
    intro l hl
    simp only [evsIn, List.mem_cons, List.not_mem_nil, or_false] at hl
    rcases hl with rfl | rfl | rfl | rfl | rfl | rfl | rfl | rfl | rfl <;> trivial) s1 r1
  obtain ⟨now, t, hrpc1⟩ := id_means_create hb1 hx1 ho1
  obtain ⟨x2, hx2, c2⟩ := Option.map_eq_some_iff.1 e2.1
  obtain ⟨q1, q2⟩ : x2.rpc = rpc ∧ x2.outcome = some .ok := by
    simp only [isOut] at c2
    split at c2
    · rename_i ids ids' a b
      rw [of_decide_eq_true c2]; exact ⟨a, b⟩
    · rename_i ids ids' a b
      rw [of_decide_eq_true c2]; exact ⟨a, b⟩
    · simp at c2
  have hist : (s3.insts 0).hist = [⟨.ticket, idA, storedBytes reqA⟩, ⟨.activate, idA, []⟩].map Ev.upd := evU_eq e3
  have hm := h evsIn (evsOut rpc env) (evsSee 2) s1 s2 s3 hgood (by
      intro l hl
      simp only [evsSee, List.replicate, List.mem_cons, List.not_mem_nil, or_false] at hl
      rcases hl with rfl | rfl | rfl <;> trivial)
    r1 r2 r3 0 x1 now t idA hx1 hrpc1 ho1 2 x2 (by simpa using e1.2.1) hx2 (by rw [q1]; exact hde) q2 (htold x2 q1)
    (by
      intro c y hy hac
      rcases rpcAt_run _ r3' c y.rpc (by simp [rpcAt, hy]) with h4 | ⟨i, h4⟩
      · simp [rpcAt, init] at h4
      · simp only [evsIn, evsOut, evsSee, List.replicate, List.mem_append, List.mem_cons, List.not_mem_nil, or_false,
          Label.call.injEq, reduceCtorEq, false_or] at h4
        rcases h4 with (⟨-, -, e⟩ | ⟨e', -, e⟩) | ⟨-, -, e⟩
        · rw [e] at hac; simp [Activates] at hac
        · obtain ⟨x, hx, ho⟩ := Option.map_eq_some_iff.1 e1.2.2
          rw [e']
          exact ⟨x, hx, by intro hn; rw [hn] at ho; simp at ho⟩
        · rw [e] at hac
          exfalso
          unfold Deactivates at hde
          unfold Activates at hac
          split at hde <;> simp_all)
    0 (s3.insts 0).hist (candidates (runEvs Wire.codec Config.default Cache.empty (s3.insts 0).hist))
    ⟨[], _, by simp, candidates_isSnapshot _ (WF_runEvs WF_empty _)⟩
    (by rw [e2.2, hist]; decide)
  rw [hist] at hm
  have hlc := (C24_life_cycle Wire.codec [⟨.ticket, idA, storedBytes reqA⟩, ⟨.activate, idA, []⟩] idA).2.1
  have hfold : ∀ us : List StateUpdate, runEvs Wire.codec Config.default Cache.empty (us.map Ev.upd) =
      us.foldl (applyUpdate Wire.codec) Cache.empty := fun us => by
    simp only [runEvs, List.foldl_map]; rfl
  rw [hfold] at hm
  exact hlc.2 (by decide) hm

/-- **C95 is false of the code** when a connection to Redis fails: DeactivateTickets says
OK (redis.go:188-192 only logs), and the ticket stays in the pools. -/
theorem C95_lost_deactivation_refuted :
    ¬ StaysOut Wire.codec Config.default 1600000000000
      (fun l => l.Plausible Config.default 1600000000000 ∧ l.Accepted Wire.codec Config.default)
      (fun x => ∃ ids, x.rpc = .setState .deactivate ids) := by
  refine out_refuted _ _ (.setState .deactivate [idA]) lostEnv ?_ (by simp [Deactivates]) (fun x hx => ⟨_, hx⟩)
    (by decide +kernel) (by decide +kernel)
  intro l hl
  have hpl := okEnv_plausible 1
  simp only [evsIn, evsOut, List.cons_append, List.nil_append, List.mem_cons, List.not_mem_nil, or_false] at hl
  rcases hl with rfl | rfl | rfl | rfl | rfl | rfl | rfl | rfl | rfl | rfl | rfl | rfl | rfl
  · exact ⟨trivial, trivial⟩
  · exact ⟨trivial, benign_accepted _ _ _ _ trivial⟩
  · exact ⟨hpl, trivial⟩
  · exact ⟨hpl, trivial⟩
  · exact ⟨trivial, trivial⟩
  · exact ⟨trivial, benign_accepted _ _ _ _ (Or.inl rfl)⟩
  · exact ⟨hpl, trivial⟩
  · exact ⟨hpl, trivial⟩
  · exact ⟨trivial, trivial⟩
  · exact ⟨trivial, benign_accepted _ _ _ _ (Or.inr rfl)⟩
  · exact ⟨hpl, trivial⟩
  · exact ⟨hpl, trivial⟩
  · exact ⟨trivial, trivial⟩

/-- **C95 is false of the code** for matches, even with working connections: the errors
Redis answers to the deactivations are only logged (core/main.go:639-642), the match is handed out
and its tickets stay in the pools. -/
theorem C95_matched_refuted :
    ¬ StaysOut Wire.codec Config.default 1600000000000 (Label.Healthy Wire.codec Config.default 1600000000000)
      (fun x => ∃ ids, x.rpc = .matched ids) := by
  refine out_refuted _ _ (.matched [idA]) failEnv ?_ (by simp [Deactivates]) (fun x hx => ⟨_, hx⟩)
    (by decide +kernel) (by decide +kernel)
  intro l hl
  have hpl := okEnv_plausible 1
  simp only [evsIn, evsOut, List.cons_append, List.nil_append, List.mem_cons, List.not_mem_nil, or_false] at hl
  rcases hl with rfl | rfl | rfl | rfl | rfl | rfl | rfl | rfl | rfl | rfl | rfl | rfl | rfl
  · exact ⟨trivial, trivial, trivial, trivial⟩
  · exact ⟨trivial, trivial, benign_accepted _ _ _ _ trivial, readable_of (by decide +kernel)⟩
  · exact ⟨hpl, rfl, trivial, okEnv_readable _⟩
  · exact ⟨hpl, rfl, trivial, okEnv_readable _⟩
  · exact ⟨trivial, trivial, trivial, trivial⟩
  · exact ⟨trivial, trivial, benign_accepted _ _ _ _ (Or.inl rfl), readable_of (by decide +kernel)⟩
  · exact ⟨hpl, rfl, trivial, okEnv_readable _⟩
  · exact ⟨hpl, rfl, trivial, okEnv_readable _⟩
  · exact ⟨trivial, trivial, trivial, trivial⟩
  · exact ⟨trivial, trivial, benign_accepted _ _ _ _ (by intro k hk; rw [List.mem_singleton.1 hk]; decide), readable_of (by decide +kernel)⟩
  · exact ⟨hpl, rfl, trivial, okEnv_readable _⟩
  · refine ⟨⟨?_, by decide⟩, rfl, trivial, readable_of (by decide +kernel)⟩
    intro c hc
    simp only [failEnv, List.mem_singleton] at hc
    subst hc; decide
  · exact ⟨trivial, trivial, trivial, trivial⟩

/-! ## C96 -/

/-- The call asks to assign `a` to `k`. -/
def Assigns (rpc : Rpc) (k : Str) (a : Assignment) : Prop :=
  ∃ r, rpc = .assign (some r) ∧ r.assignment = some a ∧ ∃ t ∈ r.tickets, t.id = k

/-- No expiration cycle finds the assignment of `k` older than TTL + additional TTL. -/
def AsgFresh (cfg : Config) (es : List Ev) (k : Str) : Prop :=
  ∀ cy, Ev.expire cy ∈ es → cy.asg k - idSecond k ≤ cfg.ttl + cfg.addTtl

/-! ### Who asked for an assignment -/

private theorem assigns_of_update {rpc : Rpc} {us : List StateUpdate} {v : StateUpdate} (hl : cd.Lawful)
    (hq : rpc.queue cd cfg = .ok us) (hv : v ∈ us) (hc : v.cmd = .assign)
    (hf : ∃ f, redisFields v = .ok f) :
    ∃ a, Assigns rpc v.key a ∧ SameAssignment (cd.decA v.value) a := by
  cases rpc with
  | create now t =>
    simp only [Rpc.queue] at hq
    cases hk : createTicketQueue cd cfg now t with
    | error e => rw [hk] at hq; simp [Except.map] at hq
    | ok u =>
      rw [hk] at hq
      simp only [Except.map, Except.ok.injEq] at hq
      rw [← hq, List.mem_singleton] at hv
      subst hv
      unfold createTicketQueue at hk
      split at hk
      · simp at hk
      · split at hk
        · simp at hk
        · injection hk with hk; rw [← hk] at hc; simp at hc
  | setState cmd ids =>
    simp only [Rpc.queue] at hq
    have := C15_valid_ids_sent cfg cmd ids us hq
    rw [this] at hv
    obtain ⟨k, -, rfl⟩ := List.mem_map.1 hv
    obtain ⟨f, hf⟩ := hf
    dsimp only at hc
    simp only [redisFields, hc] at hf
    split at hf <;> simp at hf
  | assign r =>
    simp only [Rpc.queue] at hq
    cases r with
    | none => simp [createAssignmentsQueue] at hq
    | some ro =>
      cases ha : ro.assignment with
      | none => simp [createAssignmentsQueue, ha] at hq
      | some a =>
        obtain ⟨h1, h2⟩ := C56_assignments_queued cd hl ro a us ha hq
        refine ⟨a, ⟨ro, rfl, ha, ?_⟩, (h2 v hv).2⟩
        have : v.key ∈ us.map (·.key) := List.mem_map.2 ⟨v, hv, rfl⟩
        rw [h1, List.mem_filter, List.mem_map] at this
        obtain ⟨⟨t, h3, h4⟩, -⟩ := this
        exact ⟨t, h3, h4⟩
  | matched ids =>
    simp only [Rpc.queue, Except.ok.injEq] at hq
    rw [← hq] at hv
    simp only [stateUpdatesFor, List.mem_map] at hv
    obtain ⟨k, -, rfl⟩ := hv
    simp at hc

/-- Assignments through updates and cycles, next to the updates alone. -/
theorem asg_run (cd : Codec) (cfg : Config) (k : Str) : ∀ (es : List Ev) (c d : Cache), ValidEvs cd cfg c es →
    (∀ a, c.assignments.load k = some a → d.assignments.load k = some a) →
    (∀ a, (runEvs cd cfg c es).assignments.load k = some a →
      ((updatesOf es).foldl (applyUpdate cd) d).assignments.load k = some a) ∧
    (AsgFresh cfg es k → c.assignments.load k = d.assignments.load k →
      (runEvs cd cfg c es).assignments.load k = ((updatesOf es).foldl (applyUpdate cd) d).assignments.load k) := by
  intro es
  induction es with
  | nil => intro c d _ h; exact ⟨h, fun _ e => e⟩
  | cons e es ih =>
    intro c d hv hcd
    rw [runEvs_cons]
    cases e with
    | upd u =>
      have hstep : ∀ x : Cache, (applyUpdate cd x u).assignments.load k =
          if k = u.key ∧ u.cmd = .assign then some (cd.decA u.value) else x.assignments.load k := by
        intro x
        have := congrArg KState.a (applyUpdate_proj cd x u k)
        simp only [proj] at this
        rw [this]
        by_cases hk : k = u.key <;> cases hc : u.cmd <;> simp [hk]
      have h := ih (applyUpdate cd c u) (applyUpdate cd d u) hv.2 (by
        intro a; rw [hstep, hstep]; split
        · exact id
        · exact hcd a)
      refine ⟨h.1, fun hf e => h.2 (fun cy hc => hf cy (by simp [hc])) ?_⟩
      rw [hstep, hstep, e]
    | expire cy =>
      have hx : (expire cfg cy c).assignments.load k = if asgAged cfg cy k = true then none else c.assignments.load k :=
        expire_assignments hv.1 k
      have h := ih (expire cfg cy c) d hv.2 (by
        intro a ha; rw [hx] at ha
        split at ha
        · simp at ha
        · exact hcd a ha)
      refine ⟨h.1, fun hf e => h.2 (fun cy hc => hf cy (by simp [hc])) ?_⟩
      have := hf cy (by simp)
      rw [hx, if_neg (by simp [asgAged]; omega), e]

/-- **C96 (authenticity).** Whatever happens (lost connections, refused updates, crashes), an
assignment that an instance holds for `k` was asked for by a CreateAssignments call that names `k`. -/
theorem C96_assignments_authentic (cd : Codec) (hl : cd.Lawful) (cfg : Config) (H : Nat) (evs : List Label) (s : St)
    (hp : ∀ l ∈ evs, l.Plausible cfg H) (hr : run cd cfg init evs = some s) (j : Nat) (k : Str) (a' : Assignment)
    (ha : (s.insts j).cache.assignments.load k = some a') :
    ∃ c x a, s.calls c = some x ∧ Assigns x.rpc k a ∧ SameAssignment a' a := by
  have hb := base_run evs (base_init cd cfg H) hp s hr
  obtain ⟨hc, hv⟩ := hb.cache j
  rw [hc] at ha
  have h1 := (asg_run cd cfg k _ Cache.empty Cache.empty hv (fun _ => id)).1 a' ha
  rw [(C24_life_cycle cd (updatesOf (s.insts j).hist) k).2.2.2] at h1
  obtain ⟨v, h2, h3⟩ := Option.map_eq_some_iff.1 h1
  have h4 := List.mem_of_getLast? h2
  simp only [assigns, List.mem_map, List.mem_filter, decide_eq_true_eq] at h4
  obtain ⟨w, ⟨hw, hwk, hwc⟩, rfl⟩ := h4
  obtain ⟨n, hn⟩ := List.mem_iff_getElem?.1 hw
  obtain ⟨c, y, u, i, y1, y2, y3, y4, y5, -⟩ := applied_since (base_init cd cfg H) hp hr (Nat.zero_le n) hn
  rw [y4, replicated_cmd] at hwc
  obtain ⟨a, z1, z2⟩ := assigns_of_update hl y2 y3 hwc y5
  rw [y4, replicated_key (by rw [hwc]; simp)] at hwk
  refine ⟨c, y, a, y1, hwk ▸ z1, ?_⟩
  have : w.value = u.value := by
    rw [y4]; obtain ⟨uc, uk, uv⟩ := u; dsimp only at hwc; subst hwc; rfl
  rw [← h3, this]; exact z2

/-- **C96 (watchers).** What WatchAssignments sends is authentic too: if the maps a watch saw
are those of instance `j` at moments of an execution, each response carries an assignment that a
CreateAssignments call of the execution asked for, for that id. -/
theorem C96_watched_authentic (cd : Codec) (hl : cd.Lawful) (cfg : Config) (H : Nat) (evs : List Label) (s : St)
    (hp : ∀ l ∈ evs, l.Plausible cfg H) (hr : run cd cfg init evs = some s) (j : Nat)
    (wcfg : Config) (now0 : Int) (ids : List Str) (c0 : GoMap Assignment) (ls : List Watch.Label) (w : Watch.St)
    (hw : Watch.run wcfg now0 ids (Watch.init now0 c0) ls = some w)
    (hseen : ∀ m ∈ w.hist, ∃ evs1 evs2 s1, evs = evs1 ++ evs2 ∧ run cd cfg init evs1 = some s1 ∧
      m = (s1.insts j).cache.assignments) :
    ∀ r ∈ w.sent, r.1 ∈ ids ∧ ∃ c x a, s.calls c = some x ∧ Assigns x.rpc r.1 a ∧ SameAssignment r.2 a := by
  intro r hrs
  obtain ⟨h1, h2⟩ := C58_at_most_once wcfg now0 ids c0 ls w hw
  refine ⟨h1.subset (List.mem_map.2 ⟨r, hrs, rfl⟩), ?_⟩
  obtain ⟨m, hm, hload⟩ := h2 r hrs
  obtain ⟨evs1, evs2, s1, rfl, hr1, rfl⟩ := hseen m hm
  obtain ⟨c, x, a, x1, x2, x3⟩ := C96_assignments_authentic cd hl cfg H evs1 s1
    (fun l hl => hp l (List.mem_append_left _ hl)) hr1 j r.1 r.2 hload
  rw [run_append, hr1, Option.bind_some] at hr
  have hb1 := base_run evs1 (base_init cd cfg H) (fun l hl => hp l (List.mem_append_left _ hl)) s1 hr1
  obtain ⟨-, hlater⟩ := later_run evs2 hb1 (fun l hl => hp l (List.mem_append_right _ hl)) s hr
  obtain ⟨y, y1, -, y2, -⟩ := hlater.calls c x x1
  exact ⟨c, y, a, y1, by rw [y2]; exact x2, x3⟩

/-- `s1`: before.  `s2`: a CreateAssignments call begun after `s1`, which assigns `a` to `k`, has
returned OK.  `s3`: now.  All other calls that assign something to `k` had ended by `s1`.  Then every
instance that has applied what was in the stream at `s2`, and did not age the assignment out,
holds `a` for `k`. -/
def AssignedIsHeld (cd : Codec) (cfg : Config) (H : Nat) (good : Label → Prop) (told : Call → Prop) : Prop :=
  ∀ (evs1 evs2 evs3 : List Label) (s1 s2 s3 : St),
    (∀ l ∈ evs1 ++ evs2, good l) → (∀ l ∈ evs3, l.Plausible cfg H) →
    run cd cfg init evs1 = some s1 → run cd cfg s1 evs2 = some s2 → run cd cfg s2 evs3 = some s3 →
    ∀ (c2 : Nat) (x2 : Call) (k : Str) (a : Assignment), s1.calls c2 = none → s2.calls c2 = some x2 →
    Assigns x2.rpc k a → k ≠ [] → x2.outcome = some .ok → told x2 →
    (∀ c y b, s3.calls c = some y → Assigns y.rpc k b → c = c2 ∨ ∃ x, s1.calls c = some x ∧ x.outcome ≠ none) →
    ∀ j : Nat, s2.stream.entries.length ≤ (updatesOf (s3.insts j).hist).length → AsgFresh cfg (s3.insts j).hist k →
    ∃ a', (s3.insts j).cache.assignments.load k = some a' ∧ SameAssignment a' a

/-- The last assignment, given one at position `n`, is at that position or later. -/
private theorem assigns_last {h : List StateUpdate} {n : Nat} {k : Str} {u : StateUpdate} (hn : h[n]? = some u)
    (hk : u.key = k) (hc : u.cmd = .assign) :
    ∃ m w, n ≤ m ∧ h[m]? = some w ∧ w.key = k ∧ w.cmd = .assign ∧ (assigns h k).getLast? = some w.value := by
  have hs := split_at hn
  have hm : assigns h k = assigns (h.take n) k ++ assigns (h.drop n) k := by
    simp only [assigns, ← List.map_append, ← List.filter_append, List.take_append_drop]
  have hd : h.drop n = u :: h.drop (n + 1) := by
    obtain ⟨hlt, hu⟩ := List.getElem?_eq_some_iff.1 hn
    rw [List.drop_eq_getElem_cons hlt, hu]
  have hne : assigns (h.drop n) k ≠ [] := by
    rw [hd]; simp [assigns, hk, hc]
  obtain ⟨v, hv⟩ : ∃ v, (assigns (h.drop n) k).getLast? = some v := by
    cases hg : (assigns (h.drop n) k).getLast? with
    | none => exact absurd (List.getLast?_eq_none_iff.1 hg) hne
    | some v => exact ⟨v, rfl⟩
  have hmem := List.mem_of_getLast? hv
  simp only [assigns, List.mem_map, List.mem_filter, decide_eq_true_eq] at hmem
  obtain ⟨w, ⟨hw, hwk, hwc⟩, hwv⟩ := hmem
  obtain ⟨m, hmw⟩ := List.mem_iff_getElem?.1 hw
  rw [List.getElem?_drop] at hmw
  exact ⟨n + m, w, by omega, hmw, hwk, hwc, by rw [hm, List.getLast?_append, hv, hwv]; rfl⟩

/-- C96 (delivery), given that the call's answer is true. -/
theorem held_core (hl : cd.Lawful) (evs1 evs2 evs3 : List Label) (s1 s2 s3 : St)
    (hp1 : ∀ l ∈ evs1, l.Plausible cfg H) (hp2 : ∀ l ∈ evs2, l.Plausible cfg H) (hp3 : ∀ l ∈ evs3, l.Plausible cfg H)
    (hr1 : run cd cfg init evs1 = some s1) (hr2 : run cd cfg s1 evs2 = some s2) (hr3 : run cd cfg s2 evs3 = some s3)
    (c2 : Nat) (x2 : Call) (k : Str) (a : Assignment) (a2 : AcksOf s2 c2) (hn2 : s1.calls c2 = none)
    (hc2 : s2.calls c2 = some x2) (has : Assigns x2.rpc k a) (hk0 : k ≠ []) (ho2 : x2.outcome = some .ok)
    (hg : ∀ r ∈ x2.got, r.err = none)
    (hother : ∀ c y b, s3.calls c = some y → Assigns y.rpc k b → c = c2 ∨ ∃ x, s1.calls c = some x ∧ x.outcome ≠ none)
    (j : Nat) (hcons : s2.stream.entries.length ≤ (updatesOf (s3.insts j).hist).length)
    (hfresh : AsgFresh cfg (s3.insts j).hist k) :
    ∃ a', (s3.insts j).cache.assignments.load k = some a' ∧ SameAssignment a' a := by
  have b1 := base_run evs1 (base_init cd cfg H) hp1 s1 hr1
  obtain ⟨b2, l12⟩ := later_run evs2 b1 hp2 s2 hr2
  obtain ⟨b3, l23⟩ := later_run evs3 b2 hp3 s3 hr3
  obtain ⟨m23, e23⟩ := l23.entries
  obtain ⟨hq, hall⟩ := errorless_acked b2 a2 hc2 ho2 hg
  obtain ⟨r, hrpc, hra, t, ht, htk⟩ := has
  rw [hrpc] at hq
  obtain ⟨hk1, hk2⟩ := C56_assignments_queued cd hl r a x2.updates hra hq
  have hmem : k ∈ x2.updates.map (·.key) := by
    rw [hk1, List.mem_filter]
    exact ⟨List.mem_map.2 ⟨t, ht, htk⟩, by simpa using hk0⟩
  obtain ⟨u, hu, huk⟩ := List.mem_map.1 hmem
  obtain ⟨n2, e2, hsince, g2, d2⟩ := hall u hu
  have hn2' := (List.getElem?_eq_some_iff.1 g2).1
  have hge : s1.stream.entries.length ≤ n2 := Nat.le_trans (l12.fresh c2 x2 hc2 hn2) hsince
  have g2' : s3.stream.entries[n2]? = some e2 := by
    rw [e23, List.getElem?_append_left hn2']; exact g2
  have hB : ∃ w, (updatesOf (s3.insts j).hist)[n2]? = some w ∧ w.key = k ∧ w.cmd = .assign := by
    obtain ⟨e', h1, h2⟩ := applied_get b3 (show n2 < (updatesOf (s3.insts j).hist).length by omega)
    rw [g2'] at h1; injection h1 with h1; subst h1
    refine ⟨_, h2, ?_⟩
    have hcu := (hk2 u hu).1
    simp only [decoded, d2, Option.getD_some]
    rw [replicated_cmd, replicated_key (by rw [hcu]; simp)]
    exact ⟨huk, hcu⟩
  obtain ⟨w0, w1, w2, w3⟩ := hB
  obtain ⟨m, w, hm, hw, hwk, hwc, hlast⟩ := assigns_last w1 w2 w3
  obtain ⟨hc, hv⟩ := b3.cache j
  have heq := (asg_run cd cfg k _ Cache.empty Cache.empty hv (fun _ => id)).2 hfresh rfl
  rw [(C24_life_cycle cd (updatesOf (s3.insts j).hist) k).2.2.2, assignment, hlast, ← hc] at heq
  refine ⟨_, heq, ?_⟩
  have hrun : run cd cfg s1 (evs2 ++ evs3) = some s3 := by rw [run_append, hr2]; exact hr3
  have hp23 : ∀ l ∈ evs2 ++ evs3, l.Plausible cfg H := fun l hl => (List.mem_append.1 hl).elim (hp2 l) (hp3 l)
  obtain ⟨c, y, v, i, y1, y2, y3, y4, y5, y6⟩ := applied_since b1 hp23 hrun (Nat.le_trans hge hm) hw
  rw [y4, replicated_cmd] at hwc
  have hwv : w.value = v.value := by
    rw [y4]; obtain ⟨uc, uk, uv⟩ := v; dsimp only at hwc; subst hwc; rfl
  rw [y4, replicated_key (by rw [hwc]; simp)] at hwk
  obtain ⟨b, z1, z2⟩ := assigns_of_update hl y2 y3 hwc y5
  rw [hwk] at z1
  rcases hother c y b y1 z1 with rfl | ⟨x, hx, hxo⟩
  · obtain ⟨y', q1, -, q2, -⟩ := l23.calls c x2 hc2
    rw [y1] at q1; injection q1 with q1; subst q1
    obtain ⟨r', p1, p2, -⟩ := z1
    rw [q2, hrpc] at p1
    simp only [Rpc.assign.injEq, Option.some.injEq] at p1
    rw [← p1, hra] at p2; injection p2 with p2; subst p2
    rw [hwv]; exact z2
  · exact absurd (y6 x hx) hxo

/-- **C96 (what holds of delivery).** Partial: full C96 has no conditions on connections, updates
and error answers, which CreateAssignments drops (`C96_assigned_is_held_refuted`). -/
theorem C96_assigned_is_held_partial (cd : Codec) (hl : cd.Lawful) (cfg : Config) (H : Nat) :
    AssignedIsHeld cd cfg H (Label.Healthy cd cfg H) (fun x => ∀ r ∈ x.got, r.err = none) := by
  intro evs1 evs2 evs3 s1 s2 s3 hh hp3 hr1 hr2 hr3 c2 x2 k a hn2 hc2 has hk0 ho2 hg hother j hcons hfresh
  obtain ⟨b1, a1⟩ := acks_run evs1 (base_init cd cfg H) acks_init
    (fun l hl => hh l (List.mem_append_left _ hl)) s1 hr1
  obtain ⟨b2, a2⟩ := acks_run evs2 b1 a1 (fun l hl => hh l (List.mem_append_right _ hl)) s2 hr2
  exact held_core hl evs1 evs2 evs3 s1 s2 s3 (fun l hl => (hh l (List.mem_append_left _ hl)).1)
    (fun l hl => (hh l (List.mem_append_right _ hl)).1) hp3 hr1 hr2 hr3 c2 x2 k a (a2.of c2) hn2 hc2 has hk0 ho2 hg hother j
    hcons hfresh

/-- **C96 (delivery to a watcher).** A WatchAssignments call that waits at an instance holding `a`
for `k`, and has not served `k`, can pick it up and send it. -/
theorem C96_held_is_sent (cfg : Config) (now0 : Int) (ids : List Str) (c0 : GoMap Assignment) (ls : List Watch.Label)
    (w : Watch.St) (hw : Watch.run cfg now0 ids (Watch.init now0 c0) ls = some w) (i n : Nat) (k : Str)
    (hm : w.main = .select i) (hj : w.gos[n]? = some ⟨k, .poll⟩) (s : St) (j : Nat) (a' : Assignment)
    (hcache : w.cache = (s.insts j).cache.assignments) (ha : (s.insts j).cache.assignments.load k = some a') :
    ∃ w', Watch.run cfg now0 ids w [.poll n, .take n, .sent] = some w' ∧ (k, a') ∈ w'.sent := by
  obtain ⟨w', h1, h2⟩ := C58_assignment_is_picked_up cfg now0 ids c0 ls w hw i hm n ⟨k, .poll⟩ hj rfl a'
    (by rw [hcache]; exact ha)
  have hinv := Watch.inv_run (Watch.inv_run (Watch.inv_init cfg now0 ids c0) hw) h1
  have hc : w'.crashed = false := by
    cases hc : w'.crashed with
    | false => rfl
    | true => have := hinv.crash hc; rw [h2] at this; cases this
  refine ⟨{ w' with main := .select (i + 1), sent := w'.sent ++ [(k, a')] }, ?_, by simp⟩
  have happ : ∀ (ls : List Watch.Label) (x : Watch.St) (l : Watch.Label), Watch.run cfg now0 ids x (ls ++ [l]) =
      (Watch.run cfg now0 ids x ls).bind fun y => Watch.step cfg now0 ids y l := by
    intro ls
    induction ls with
    | nil => intro x l; simp [Watch.run]
    | cons e ls ih =>
      intro x l
      simp only [List.cons_append, Watch.run]
      cases Watch.step cfg now0 ids x e with
      | none => rfl
      | some y => exact ih y l
  have := happ [.poll n, .take n] w .sent
  simp only [List.cons_append, List.nil_append] at this
  rw [this, h1, Option.bind_some]
  simp [Watch.step, hc, h2]

/-! ### A sample execution, and what goes wrong -/

def hostA : Assignment := ⟨"h:1".toList, []⟩
def rosterA : Roster := ⟨[], some hostA, [⟨idA, none, none, []⟩], []⟩

/-- A case of C96: the assignment of ticket A, made at instance 0, is held by both instances. -/
example :
    (∀ l ∈ evsIn ++ evsOut (.assign (some rosterA)) (okEnv 1), l.Healthy Wire.codec Config.default 1600000000000) ∧
    Assigns (.assign (some rosterA)) idA hostA ∧
    (run Wire.codec Config.default init (evsIn ++ evsOut (.assign (some rosterA)) (okEnv 1) ++
        .start 1 :: .poll 1 :: evsSee 3 ++ List.replicate 3 (.apply 1))).map
      (fun s => (told s 2, (s.calls 2).map (fun x => x.got.all fun r => r.err.isNone), (s.insts 0).cache.assignments.keys,
        (s.insts 1).cache.assignments.keys)) =
      some (some "OK".toList, some true, [idA], [idA]) := by
  refine ⟨?_, ⟨rosterA, rfl, rfl, _, List.mem_singleton.2 rfl, rfl⟩, by decide +kernel⟩
  intro l hl
  have hpl := okEnv_plausible 1
  simp only [evsIn, evsOut, List.cons_append, List.nil_append, List.mem_cons, List.not_mem_nil, or_false] at hl
  rcases hl with rfl | rfl | rfl | rfl | rfl | rfl | rfl | rfl | rfl | rfl | rfl | rfl | rfl
  · exact ⟨trivial, trivial, trivial, trivial⟩
  · exact ⟨trivial, trivial, benign_accepted _ _ _ _ trivial, readable_of (by decide +kernel)⟩
  · exact ⟨hpl, rfl, trivial, okEnv_readable _⟩
  · exact ⟨hpl, rfl, trivial, okEnv_readable _⟩
  · exact ⟨trivial, trivial, trivial, trivial⟩
  · exact ⟨trivial, trivial, benign_accepted _ _ _ _ (Or.inl rfl), readable_of (by decide +kernel)⟩
  · exact ⟨hpl, rfl, trivial, okEnv_readable _⟩
  · exact ⟨hpl, rfl, trivial, okEnv_readable _⟩
  · exact ⟨trivial, trivial, trivial, trivial⟩
  · refine ⟨trivial, trivial, benign_accepted _ _ _ _ ?_, readable_of (by decide +kernel)⟩
    intro ro a h1 h2
    injection h1 with h1; subst h1
    injection h2 with h2; subst h2
    left; decide
  · exact ⟨hpl, rfl, trivial, okEnv_readable _⟩
  · exact ⟨hpl, rfl, trivial, okEnv_readable _⟩
  · exact ⟨trivial, trivial, trivial, trivial⟩

/-- A case of the watcher theorems: the watch waits while the map is empty, then the assignment
arrives and is sent. -/
example : (Watch.run Config.default 0 [idA] (Watch.init 0 [])
      [.launch, .begin, .cacheSet [(idA, hostA)], .poll 0, .take 0, .sent]).map (fun w => (w.sent, w.hist)) =
    some ([(idA, hostA)], [[], [(idA, hostA)]]) := by decide

/-- **C96 is false of the code**, even with working connections: CreateAssignments returns OK
when Redis answered with an error (core/main.go:775-794), and no instance ever holds the assignment. -/
theorem C96_assigned_is_held_refuted :
    ¬ AssignedIsHeld Wire.codec Config.default 1600000000000 (Label.Healthy Wire.codec Config.default 1600000000000)
      (fun _ => True) := by
  intro h
  let isAssign : Call → Bool := fun x => match x.rpc, x.outcome with
    | .assign (some r), some .ok =>
      decide (r.assignment = some ⟨"h:1".toList, []⟩ ∧ r.tickets.map (·.id) = ["5-1".toList])
    | _, _ => false
  have h1 : (run Wire.codec Config.default init evsAssign).map (fun s => (s.stream.entries.length,
      (s.calls 0).map isAssign, (s.insts 0).hist.length, (s.insts 0).cache.assignments.length)) =
      some (0, some true, 0, 0) := by decide +kernel
  obtain ⟨s, r, e⟩ := Option.map_eq_some_iff.1 h1
  rw [Prod.mk.injEq, Prod.mk.injEq, Prod.mk.injEq] at e
  obtain ⟨x, hx, e2⟩ := Option.map_eq_some_iff.1 e.2.1
  have hx2 : Assigns x.rpc "5-1".toList ⟨"h:1".toList, []⟩ ∧ x.outcome = some .ok := by
    simp only [isAssign] at e2
    split at e2
    · rename_i ro p q
      obtain ⟨z1, z2⟩ := of_decide_eq_true e2
      refine ⟨⟨ro, p, z1, ?_⟩, q⟩
      have : "5-1".toList ∈ ro.tickets.map (·.id) := by rw [z2]; simp
      obtain ⟨t, t1, t2⟩ := List.mem_map.1 this
      exact ⟨t, t1, t2⟩
    · simp at e2
  have hhist : (s.insts 0).hist = [] := List.length_eq_zero_iff.1 e.2.2.1
  obtain ⟨a', ha', -⟩ := h [] evsAssign [] init s s (by
    intro l hl
    simp only [evsAssign, List.nil_append, List.mem_cons, List.not_mem_nil, or_false] at hl
    rcases hl with rfl | rfl | rfl | rfl | rfl
    · exact ⟨trivial, trivial, trivial, trivial⟩
    · refine ⟨trivial, trivial, benign_accepted _ _ _ _ ?_, readable_of (by decide +kernel)⟩
      intro ro a h1 h2
      injection h1 with h1; subst h1
      injection h2 with h2; subst h2
      left; decide
    · exact ⟨okEnv_plausible 1, rfl, trivial, okEnv_readable _⟩
    · refine ⟨⟨?_, by decide⟩, rfl, trivial, readable_of (by decide +kernel)⟩
      intro c hc
      simp only [failEnv, List.mem_singleton] at hc
      subst hc; decide
    · exact ⟨trivial, trivial, trivial, trivial⟩) (by simp) rfl r rfl 0 x "5-1".toList _ rfl hx hx2.1 (by decide) hx2.2 trivial
    (by
      intro c y b hy hb
      left
      rcases rpcAt_run _ r c y.rpc (by simp [rpcAt, hy]) with h4 | ⟨i, h4⟩
      · simp [rpcAt, init] at h4
      · simp only [evsAssign, List.mem_cons, List.not_mem_nil, or_false, Label.call.injEq, reduceCtorEq, false_or] at h4
        exact h4.1)
    0 (by rw [e.1]; exact Nat.zero_le _) (by intro cy hcy; rw [hhist] at hcy; simp at hcy)
  have : (s.insts 0).cache.assignments = [] := List.length_eq_zero_iff.1 e.2.2.2
  rw [this] at ha'
  simp [GoMap.load] at ha'

end OM.Props
