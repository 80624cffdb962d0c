import Verif.Lemmas.OwnBatches
import Verif.Props.Lifecycle
/-!
# Properties C69, C70, C95, C96 again: only a call's own batches matter

`Props/EndToEnd.lean` and `Props/Lifecycle.lean` prove these for executions in which no batch at all loses its connection
and everything queued anywhere can be stored.  Here the conditions are about the batches that carry updates of the calls in
question; elsewhere connections may break and Redis may refuse what it likes.
-/
namespace OM.Props
open OM.Spec OM.Sys

variable {cd : Codec} {cfg : Config} {H : Nat}

/-- **C70.** The conditions here are weaker: they hold of every call of an execution as assumed there. -/
theorem C70_healthy_is_well_sent (evs : List Label) (hh : ∀ l ∈ evs, l.Healthy cd cfg H) (c : Nat) :
    ∀ s, Base cd cfg H s → Acks s → Along cd cfg (WellSent cfg c) s evs := by
  induction evs with
  | nil => intro s _ _; trivial
  | cons l ls ih =>
    intro s hb ha
    obtain ⟨p1, p2, p3, p4⟩ := hh l (by simp)
    refine ⟨?_, fun s' hs => ih (fun l hl => hh l (by simp [hl])) s' (base_step hb l p1 s' hs)
      (acks_step hb ha l p1 p2 p3 p4 s' hs)⟩
    have hpend : ∀ i, ∀ q ∈ (s.insts i).pending, Storable q.update := by
      intro i q hq
      obtain ⟨x, hx, -, -, hm⟩ := pend_update hb hq
      exact ha.stor _ x hx _ hm
    intro env b hsd pre r post hbe _
    have hmem : ∀ q ∈ pre ++ [r], q ∈ b := by
      intro q hq
      rw [hbe]
      rcases List.mem_append.1 hq with hq | hq
      · exact List.mem_append_left _ hq
      · rw [List.mem_singleton.1 hq]; simp
    cases l with
    | submit d e =>
      simp only [sends] at hsd
      cases hx : s.calls d with
      | none => simp [hx] at hsd
      | some x =>
        simp only [hx] at hsd
        cases ht : x.todo with
        | nil => simp [ht] at hsd
        | cons u rest =>
          simp only [ht] at hsd
          split at hsd
          · rename_i hg
            simp only [Option.some.injEq, Prod.mk.injEq] at hsd
            obtain ⟨rfl, rfl⟩ := hsd
            refine ⟨p2, fun q hq => ?_, p4⟩
            rcases List.mem_append.1 (hmem q hq) with h | h
            · exact hpend _ q h
            · rw [List.mem_singleton.1 h]
              refine ha.stor d x hx u ?_
              obtain ⟨-, ans, l2, -⟩ := hb.live d x hx (Option.isNone_iff_eq_none.1 hg.1)
              rw [l2, ht]; simp
          · simp at hsd
    | timeout i e =>
      simp only [sends, Option.some.injEq, Prod.mk.injEq] at hsd
      obtain ⟨rfl, rfl⟩ := hsd
      exact ⟨p2, fun q hq => hpend i q (hmem q hq), p4⟩
    | _ => simp [sends] at hsd

/-- The answers of call `c` in state `s2`, if the batches with its updates were well sent since a state `s1` in which it
had not begun. -/
theorem own_since {evs : List Label} {s1 s2 : St} (hb : Base cd cfg H s1) (hp : ∀ l ∈ evs, l.Plausible cfg H)
    (hr : run cd cfg s1 evs = some s2) {c : Nat} (hn : s1.calls c = none) (hw : Along cd cfg (WellSent cfg c) s1 evs)
    {x : Call} (hx : s2.calls c = some x) (hi : ReadableIds x.rpc) : AcksOf s2 c :=
  (own_run evs hb ⟨fun x h => absurd h (by rw [hn]; simp), fun x h => absurd h (by rw [hn]; simp)⟩ hp hw s2 hr).acksOf hx hi

/-- **C70 (own batches).** Partial: full C70 has no condition on the call's batches (`C70_lost_connection_refuted`).  If the
batches that carried the updates of call `c` kept their connection and could be stored up to these updates, whatever
happened to all others: if its caller was told success, each update is in the stream in all later states, and every instance
applies it. -/
theorem C70_own_batches_partial (cd : Codec) (cfg : Config) (H : Nat) (evs : List Label) (s : St)
    (hp : ∀ l ∈ evs, l.Plausible cfg H) (hr : run cd cfg init evs = some s) (c : Nat) (x : Call)
    (hw : Along cd cfg (WellSent cfg c) init evs) (hx : s.calls c = some x) (hi : ReadableIds x.rpc) (ht : ToldSuccess x) :
    ∀ u ∈ x.updates, Survives cd cfg H s u := by
  intro u hu
  have hb := base_run evs (base_init cd cfg H) hp s hr
  have ha := own_since (base_init cd cfg H) hp hr rfl hw hx hi
  rcases ht with ⟨now, t, k, h1, h2⟩ | ⟨cmd, ids, h1, h2⟩
  · obtain ⟨u', n, e, -, h4, -, h6, h7, h8⟩ := create_acked hb ha hx h1 h2
    rw [h4, List.mem_singleton] at hu
    subst hu
    exact survives_of_entry hb h6 (by rw [h7]; exact h8)
  · obtain ⟨-, h3⟩ := setState_acked hb ha hx h1 h2
    obtain ⟨n, e, -, h5, h6⟩ := h3 u hu
    exact survives_of_entry hb h5 h6

/-- **C69 (own batches).** Partial, as C70: of connections and of what can be stored it is assumed only that the batches with
the updates of the CreateTicket call (until it returned) and of the ActivateTickets call were well sent. -/
theorem C69_own_batches_partial (cd : Codec) (hl : cd.Lawful) (cfg : Config) (H : Nat)
    (evs1 evs2 evs3 : List Label) (s1 s2 s3 : St) (hp : ∀ l ∈ evs1 ++ evs2 ++ evs3, l.Plausible cfg H)
    (hr1 : run cd cfg init evs1 = some s1) (hr2 : run cd cfg s1 evs2 = some s2) (hr3 : run cd cfg s2 evs3 = some s3)
    (c1 : Nat) (x1 : Call) (now : Int) (t : Ticket) (k : Str) (hw1 : Along cd cfg (WellSent cfg c1) init evs1)
    (hc1 : s1.calls c1 = some x1) (hrpc1 : x1.rpc = .create now (some t)) (ho1 : x1.outcome = some (.id k))
    (c2 : Nat) (x2 : Call) (hn2 : s1.calls c2 = none) (hw2 : Along cd cfg (WellSent cfg c2) s1 evs2)
    (hc2 : s2.calls c2 = some x2) (hact : Activates x2.rpc k) (hi2 : ReadableIds x2.rpc) (ho2 : x2.outcome = some .ok)
    (hde : ∀ c y, s3.calls c = some y → Deactivates y.rpc k → ∃ x, s1.calls c = some x ∧ x.outcome ≠ none)
    (j : Nat) (pre : List Ev) (m : GoMap Ticket) (hsn : SnapshotOf cd cfg s3 j pre m)
    (hcons : s2.stream.entries.length ≤ (updatesOf pre).length) (hfresh : Fresh cd cfg (s3.insts j).hist k) :
    ∃ ct, m.load k = some ct ∧ ContentOf now t k ct := by
  have hp1 : ∀ l ∈ evs1, l.Plausible cfg H := fun l h => hp l (by simp [h])
  have hp2 : ∀ l ∈ evs2, l.Plausible cfg H := fun l h => hp l (by simp [h])
  have b1 := base_run evs1 (base_init cd cfg H) hp1 s1 hr1
  exact served_core hl evs1 evs2 evs3 s1 s2 s3 hp1 hp2 (fun l h => hp l (by simp [h])) hr1 hr2 hr3 c1 x1 now t k
    (own_since (base_init cd cfg H) hp1 hr1 rfl hw1 hc1 (by rw [hrpc1]; trivial)) hc1 hrpc1 ho1 c2 x2
    (own_since b1 hp2 hr2 hn2 hw2 hc2 hi2) hn2 hc2 hact ho2 hde j pre m hsn hcons hfresh

/-- **C95 (own batches).** Partial, as C70, and om-core ignores errors when it deactivates the tickets of a match
(`C95_matched_refuted`): an OK of DeactivateTickets, or a match whose deactivations met no error, keeps the ticket out, if
the batches with the updates of the CreateTicket call and of this call were well sent. -/
theorem C95_own_batches_partial (cd : Codec) (cfg : Config) (H : Nat)
    (evs1 evs2 evs3 : List Label) (s1 s2 s3 : St) (hp : ∀ l ∈ evs1 ++ evs2 ++ evs3, l.Plausible cfg H)
    (hr1 : run cd cfg init evs1 = some s1) (hr2 : run cd cfg s1 evs2 = some s2) (hr3 : run cd cfg s2 evs3 = some s3)
    (c1 : Nat) (x1 : Call) (now : Int) (t : Option Ticket) (k : Str) (hw1 : Along cd cfg (WellSent cfg c1) init evs1)
    (hc1 : s1.calls c1 = some x1) (hrpc1 : x1.rpc = .create now t) (ho1 : x1.outcome = some (.id k))
    (c2 : Nat) (x2 : Call) (hn2 : s1.calls c2 = none) (hw2 : Along cd cfg (WellSent cfg c2) s1 evs2)
    (hc2 : s2.calls c2 = some x2) (hde : Deactivates x2.rpc k) (hi2 : ReadableIds x2.rpc) (ho2 : x2.outcome = some .ok)
    (htold : (∃ ids, x2.rpc = .setState .deactivate ids) ∨ ((∃ ids, x2.rpc = .matched ids) ∧ ∀ r ∈ x2.got, r.err = none))
    (hact : ∀ c y, s3.calls c = some y → Activates y.rpc k → ∃ x, s1.calls c = some x ∧ x.outcome ≠ none)
    (j : Nat) (pre : List Ev) (m : GoMap Ticket) (hsn : SnapshotOf cd cfg s3 j pre m)
    (hcons : s2.stream.entries.length ≤ (updatesOf pre).length) : m.load k = none := by
  have hp1 : ∀ l ∈ evs1, l.Plausible cfg H := fun l h => hp l (by simp [h])
  have hp2 : ∀ l ∈ evs2, l.Plausible cfg H := fun l h => hp l (by simp [h])
  have b1 := base_run evs1 (base_init cd cfg H) hp1 s1 hr1
  have b2 := base_run evs2 b1 hp2 s2 hr2
  have a1 := own_since (base_init cd cfg H) hp1 hr1 rfl hw1 hc1 (by rw [hrpc1]; trivial)
  have a2 := own_since b1 hp2 hr2 hn2 hw2 hc2 hi2
  refine out_core evs1 evs2 evs3 s1 s2 s3 hp1 hp2 (fun l h => hp l (by simp [h])) hr1 hr2 hr3 c1 x1 now t k a1 hc1 hrpc1 ho1
    c2 x2 hn2 hc2 ?_ hact j pre m hsn hcons
  rcases htold with ⟨ids, h⟩ | ⟨⟨ids, h⟩, hg⟩
  · exact deactivated_stored b1 b2 a1 hc1 hrpc1 ho1 a2 hc2 hde ho2 h
  · exact matched_stored b2 a2 hc2 hde ho2 h hg

/-- **C96 (own batches).** Partial, as C70, and CreateAssignments drops errors (`C96_assigned_is_held_refuted`). -/
theorem C96_own_batches_partial (cd : Codec) (hl : cd.Lawful) (cfg : Config) (H : Nat)
    (evs1 evs2 evs3 : List Label) (s1 s2 s3 : St) (hp : ∀ l ∈ evs1 ++ evs2 ++ evs3, l.Plausible cfg H)
    (hr1 : run cd cfg init evs1 = some s1) (hr2 : run cd cfg s1 evs2 = some s2) (hr3 : run cd cfg s2 evs3 = some s3)
    (c2 : Nat) (x2 : Call) (k : Str) (a : Assignment) (hn2 : s1.calls c2 = none)
    (hw2 : Along cd cfg (WellSent cfg c2) s1 evs2) (hc2 : s2.calls c2 = some x2) (has : Assigns x2.rpc k a) (hk0 : k ≠ [])
    (ho2 : x2.outcome = some .ok) (hg : ∀ r ∈ x2.got, r.err = none)
    (hother : ∀ c y b, s3.calls c = some y → Assigns y.rpc k b → c = c2 ∨ ∃ x, s1.calls c = some x ∧ x.outcome ≠ none)
    (j : Nat) (hcons : s2.stream.entries.length ≤ (updatesOf (s3.insts j).hist).length)
    (hfresh : AsgFresh cfg (s3.insts j).hist k) :
    ∃ a', (s3.insts j).cache.assignments.load k = some a' ∧ SameAssignment a' a := by
  have hp1 : ∀ l ∈ evs1, l.Plausible cfg H := fun l h => hp l (by simp [h])
  have hp2 : ∀ l ∈ evs2, l.Plausible cfg H := fun l h => hp l (by simp [h])
  have b1 := base_run evs1 (base_init cd cfg H) hp1 s1 hr1
  refine held_core hl evs1 evs2 evs3 s1 s2 s3 hp1 hp2 (fun l h => hp l (by simp [h])) hr1 hr2 hr3 c2 x2 k a
    (own_since b1 hp2 hr2 hn2 hw2 hc2 ?_) hn2 hc2 has hk0 ho2 hg hother j hcons hfresh
  obtain ⟨r, hrpc, -⟩ := has
  rw [hrpc]; trivial

/-! ### A sample execution -/

def wellSentB (cfg : Config) (c : Nat) (s : St) (l : Label) : Bool :=
  match sends cfg s l with
  | none => true
  | some (env, b) => !(b.any fun r => decide (r.caller = c)) ||
    (env.lost.isNone && (b.all fun r => redisValid r.update) && env.cmds.all fun cm => cm.fail.isNone)

theorem wellSent_of (cfg : Config) (c : Nat) (s : St) (l : Label) (h : wellSentB cfg c s l = true) :
    WellSent cfg c s l := by
  intro env b hsd pre r post hbe hc
  simp only [wellSentB, hsd, Bool.or_eq_true, Bool.not_eq_true', Bool.and_eq_true, List.all_eq_true] at h
  rcases h with h | ⟨⟨h1, h2⟩, h3⟩
  · rw [List.any_eq_false] at h
    exact absurd (decide_eq_true hc) (h r (by rw [hbe]; simp))
  · refine ⟨Option.isNone_iff_eq_none.1 h1, fun q hq => (storable_iff _).2 (h2 q ?_), fun cm hcm e he => ?_⟩
    · rw [hbe]
      rcases List.mem_append.1 hq with hq | hq
      · exact List.mem_append_left _ hq
      · rw [List.mem_singleton.1 hq]; simp
    · have := h3 cm hcm
      rw [he] at this; cases this

def alongB (cd : Codec) (cfg : Config) (p : St → Label → Bool) : St → List Label → Bool
  | _, [] => true
  | s, l :: ls => p s l && match step cd cfg s l with | none => true | some s' => alongB cd cfg p s' ls

theorem along_of (c : Nat) (ls : List Label) : ∀ s, alongB cd cfg (wellSentB cfg c) s ls = true →
    Along cd cfg (WellSent cfg c) s ls := by
  induction ls with
  | nil => intro _ _; trivial
  | cons l ls ih =>
    intro s h
    simp only [alongB, Bool.and_eq_true] at h
    refine ⟨wellSent_of cfg c s l h.1, fun s' hs => ih s' ?_⟩
    have := h.2
    rw [hs] at this
    exact this

/-- What holds of all steps holds of each. -/
theorem along_at {P : St → Label → Prop} (a : List Label) (l : Label) (b : List Label) : ∀ (s t : St),
    Along cd cfg P s (a ++ l :: b) → run cd cfg s a = some t → P t l := by
  induction a with
  | nil => intro s t h hr; injection hr with hr; subst hr; exact h.1
  | cons m a ih =>
    intro s t h hr
    obtain ⟨s1, h1, hr⟩ := Option.bind_eq_some_iff.1 hr
    exact ih s1 t (h.2 s1 h1) hr

/-- Ticket A is created at instance 0, while instance 1 loses its connection over a batch with another ticket, and Redis
refuses a third one. -/
def evsElsewhere : List Label :=
  [.start 0, .start 1, .call 0 0 (.create startNs (some reqA)), .submit 0 (okEnv 1),
   .call 1 1 (.create startNs (some reqB)), .submit 1 (okEnv 1), .timeout 1 lostEnv, .finish 1 [],
   .timeout 0 (okEnv 1), .finish 0 [],
   .call 2 1 (.create startNs (some reqB)), .submit 2 (okEnv 1), .timeout 1 failEnv, .finish 2 []]

/-- A case of `C70_own_batches_partial` that `C70_acknowledged_updates_survive_partial` does not cover. -/
example :
    (¬ ∀ l ∈ evsElsewhere, l.Healthy Wire.codec Config.default 1600000000000) ∧
    (∀ l ∈ evsElsewhere, l.Plausible Config.default 1600000000000) ∧
    Along Wire.codec Config.default (WellSent Config.default 0) init evsElsewhere ∧
    ¬ Along Wire.codec Config.default (WellSent Config.default 1) init evsElsewhere ∧
    (run Wire.codec Config.default init evsElsewhere).map (fun s => (told s 0, told s 1, told s 2, s.stream.entries.length)) =
      some (some idA, some [], none, 1) := by
  have hp : ∀ l ∈ evsElsewhere, l.Plausible Config.default 1600000000000 := by
    intro l hl
    simp only [evsElsewhere, List.mem_cons, List.not_mem_nil, or_false] at hl
    rcases hl with rfl | rfl | rfl | rfl | rfl | rfl | rfl | rfl | rfl | rfl | rfl | rfl | rfl | rfl <;> trivial
  refine ⟨fun h => ?_, hp, along_of _ _ _ (by decide +kernel), fun h => ?_, by decide +kernel⟩
  · have := (h (.timeout 1 lostEnv) (by simp [evsElsewhere])).2.1
    cases this
  · have h1 : (run Wire.codec Config.default init (evsElsewhere.take 6)).map (fun t => (t.insts 1).pending.map (·.caller)) =
        some [1] := by decide +kernel
    obtain ⟨t, ht, e⟩ := Option.map_eq_some_iff.1 h1
    obtain ⟨q, hq⟩ : ∃ q, (t.insts 1).pending = [q] := by
      cases hl : (t.insts 1).pending with
      | nil => rw [hl] at e; cases e
      | cons q l =>
        cases l with
        | nil => exact ⟨q, rfl⟩
        | cons r l => rw [hl] at e; simp at e
    rw [hq] at e
    have := along_at (evsElsewhere.take 6) (.timeout 1 lostEnv) (evsElsewhere.drop 7) init t h ht lostEnv [q]
      (by simp [sends, hq]) [] q [] rfl (by simpa using e)
    cases this.1

end OM.Props
