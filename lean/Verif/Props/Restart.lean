import Verif.Props.Lifecycle
/-!
# Properties C137, C138: starting instances and repeated calls

Over all executions of any number of instances (`Model/System.lean`).
-/
namespace OM.Props
open OM.Spec OM.Sys

variable {cd : Codec} {cfg : Config} {H : Nat}

/-! ## C137: an instance that starts -/

/-- `s1`: CreateTicket has returned `k`.  `s2`: a call `x2` begun after that, which asks to deactivate `k`, has ended with
success, and instance `j` is not running.  `s3`: `j` was started after `s2`.  All calls that ask to activate `k` had ended by
`s1`.  A snapshot that `j` starts when it has done `pre` does not hold `k`, if `ready` says that this is enough. -/
def StartsClean (cd : Codec) (cfg : Config) (H : Nat) (told : Call → Prop) (ready : St → List Ev → Prop) : Prop :=
  ∀ (evs1 evs2 evs3 : List Label) (s1 s2 s3 : St) (j : Nat),
    (∀ l ∈ evs1 ++ evs2, l.Healthy cd cfg H) → (∀ l ∈ evs3, l.Healthy cd cfg H) →
    run cd cfg init evs1 = some s1 → run cd cfg s1 evs2 = some s2 →
    (s2.insts j).up = false → run cd cfg s2 (.start j :: evs3) = some s3 →
    ∀ (c1 : Nat) (x1 : Call) (now : Int) (t : Option Ticket) (k : Str),
    s1.calls c1 = some x1 → x1.rpc = .create now t → x1.outcome = some (.id k) →
    ∀ (c2 : Nat) (x2 : Call), s1.calls c2 = none → s2.calls c2 = some x2 →
    Deactivates x2.rpc k → x2.outcome = some .ok → (∀ r ∈ x2.got, r.err = none) → told x2 →
    (∀ c y, s3.calls c = some y → Activates y.rpc k → ∃ x, s1.calls c = some x ∧ x.outcome ≠ none) →
    ∀ (pre : List Ev) (m : GoMap Ticket), SnapshotOf cd cfg s3 j pre m → ready s2 pre → m.load k = none

def isMatched (x : Call) : Prop := ∃ ids, x.rpc = .matched ids

/-- **C137 (what holds).** Partial: full C137 has no condition on what the instance has read
(`C137_offers_matched_players_refuted`).  An instance that has applied what was in the stream when it was started offers
nobody who was matched before. -/
theorem C137_once_caught_up_partial (cd : Codec) (cfg : Config) (H : Nat) :
    StartsClean cd cfg H isMatched (fun s2 pre => s2.stream.entries.length ≤ (updatesOf pre).length) := by
  intro evs1 evs2 evs3 s1 s2 s3 j hh h3 hr1 hr2 _ hr3 c1 x1 now t k hc1 hrpc1 ho1 c2 x2 hn2 hc2 hde ho2 hg htold hact pre m
    hsn hready
  refine C95_matched_stays_out_partial cd cfg H evs1 evs2 (.start j :: evs3) s1 s2 s3 hh ?_ hr1 hr2 hr3 c1 x1 now t k hc1
    hrpc1 ho1 c2 x2 hn2 hc2 hde ho2 ⟨htold, hg⟩ hact j pre m hsn hready
  intro l hl
  rcases List.mem_cons.1 hl with rfl | hl
  · trivial
  · exact (h3 l hl).1

/-! ### Every past state is shown again -/

/-- Steps of the incoming goroutine of `j` apply at most one update. -/
private theorem own_step {s s' : St} {j : Nat} {l : Label} (hl : l = .poll j ∨ l = .apply j)
    (hs : step cd cfg s l = some s') :
    (updatesOf (s'.insts j).hist).length ≤ (updatesOf (s.insts j).hist).length + 1 ∧
    ((∃ us : List StateUpdate, (s.insts j).hist = us.map Ev.upd) → ∃ us : List StateUpdate, (s'.insts j).hist = us.map Ev.upd) := by
  rcases hl with rfl | rfl
  · simp only [step] at hs
    split at hs
    · split at hs
      · injection hs with hs; subst hs
        simp only [St.panic, St.kill, if_true, Inst.down]
        exact ⟨by simp [updatesOf], fun _ => ⟨[], rfl⟩⟩
      · injection hs with hs; subst hs
        simp only [St.setInst, if_true]
        exact ⟨by omega, id⟩
    · simp at hs
  · simp only [step] at hs
    split at hs
    · split at hs
      · simp at hs
      · rename_i u us _
        injection hs with hs; subst hs
        simp only [St.setInst, if_true]
        refine ⟨by simp [updatesOf], ?_⟩
        rintro ⟨vs, hv⟩
        exact ⟨vs ++ [u], by rw [hv]; simp⟩
    · simp at hs

/-- On the way to many applied updates there is a state with any smaller number. -/
private theorem stop_at (j n : Nat) : ∀ (ls : List Label) (s s' : St), (∀ l ∈ ls, l = .poll j ∨ l = .apply j) →
    run cd cfg s ls = some s' → (∃ us : List StateUpdate, (s.insts j).hist = us.map Ev.upd) →
    (updatesOf (s.insts j).hist).length ≤ n → n ≤ (updatesOf (s'.insts j).hist).length →
    ∃ ls1 ls2 s1, ls = ls1 ++ ls2 ∧ run cd cfg s ls1 = some s1 ∧ (updatesOf (s1.insts j).hist).length = n ∧
      ∃ us : List StateUpdate, (s1.insts j).hist = us.map Ev.upd := by
  intro ls
  induction ls with
  | nil =>
    intro s s' _ hr hp h1 h2
    injection hr with hr; subst hr
    exact ⟨[], [], s, rfl, rfl, by omega, hp⟩
  | cons l ls ih =>
    intro s s' hl hr hp h1 h2
    rcases Nat.eq_or_lt_of_le h1 with h | h
    · exact ⟨[], l :: ls, s, rfl, rfl, h, hp⟩
    · obtain ⟨t, ht, hr'⟩ := Option.bind_eq_some_iff.1 hr
      obtain ⟨o1, o2⟩ := own_step (hl l (by simp)) ht
      obtain ⟨ls1, ls2, s1, a, b, c, d⟩ := ih t s' (fun l h => hl l (by simp [h])) hr' (o2 hp) (by omega) h2
      exact ⟨l :: ls1, ls2, s1, by rw [a]; rfl, by simp [run, ht, b], c, d⟩

/-- **C137 (every past state is shown again).** From every reachable state, an instance that is started can come, before
anything else happens, into a state in which its cache is that of the first `n` updates ever made, for every `n` (and, for
`n = 0`, is empty): it answers calls from the first moment on (core/main.go:118-123), while it replays the stream
(redis.go:42). -/
theorem C137_every_past_state (cd : Codec) (cfg : Config) (H : Nat) (evs : List Label) (s : St)
    (hp : ∀ l ∈ evs, l.Plausible cfg H) (hr : run cd cfg init evs = some s) (j : Nat) (hdown : (s.insts j).up = false)
    (n : Nat) (hn : n ≤ s.stream.entries.length) :
    ∃ (ls : List Label) (s' : St), (∀ l ∈ ls, l = .poll j ∨ l = .apply j) ∧ run cd cfg s (.start j :: ls) = some s' ∧
      (s'.insts j).up = true ∧
      (s'.insts j).cache = ((s.stream.entries.take n).map decoded).foldl (applyUpdate cd) Cache.empty := by
  obtain ⟨s0, hs0⟩ : ∃ s0, step cd cfg s (.start j) = some s0 := ⟨s.setInst j Inst.fresh, by simp [step, hdown]⟩
  have e0 : s0 = s.setInst j Inst.fresh := by
    simp only [step, hdown, Bool.false_eq_true, if_false] at hs0; injection hs0 with hs0; exact hs0.symm
  have hr0 : run cd cfg init (evs ++ [.start j]) = some s0 := by
    rw [run_append, hr]; simp [run, hs0]
  have hp0 : ∀ l ∈ evs ++ [.start j], l.Plausible cfg H := by
    intro l hl
    rcases List.mem_append.1 hl with hl | hl
    · exact hp l hl
    · rw [List.mem_singleton.1 hl]; trivial
  have hup0 : (s0.insts j).up = true := by rw [e0]; simp [St.setInst, Inst.fresh]
  obtain ⟨ls, s', l1, l2, l3, l4⟩ := C70_instances_can_catch_up cd cfg H _ s0 hp0 hr0 j hup0
  have hstream : s0.stream = s.stream := by rw [e0]; rfl
  obtain ⟨ls1, ls2, s1, a, b, c, us, d⟩ := stop_at (cd := cd) (cfg := cfg) j n ls s0 s' l1 l2
    ⟨[], by rw [e0]; simp [St.setInst, Inst.fresh]⟩ (by rw [e0]; simp [St.setInst, Inst.fresh, updatesOf])
    (by rw [l4, hstream]; simpa using hn)
  have hl1 : ∀ l ∈ ls1, l = .poll j ∨ l = .apply j := fun l hl => l1 l (by rw [a]; simp [hl])
  have hpl1 : ∀ l ∈ ls1, l.Plausible cfg H := by
    intro l hl
    rcases hl1 l hl with rfl | rfl <;> trivial
  obtain ⟨b1, lat1⟩ := later_run ls1 (base_run _ (base_init cd cfg H) hp0 s0 hr0) hpl1 s1 b
  refine ⟨ls1, s1, hl1, by simp [run, hs0, b], ?_, ?_⟩
  · refine C79_only_crashes_stop_an_instance cd cfg H (evs ++ [.start j]) ls1 s0 s1 ?_ hr0 b j hup0 ?_
    · intro l hl
      rcases List.mem_append.1 hl with hl | hl
      · exact hp0 l hl
      · exact hpl1 l hl
    · intro l hl
      rcases hl1 l hl with rfl | rfl <;> exact id
  · obtain ⟨more, hm⟩ := lat1.entries
    obtain ⟨hc, -⟩ := b1.cache j
    have hu : updatesOf (s1.insts j).hist = (s.stream.entries.take n).map decoded := by
      refine List.ext_getElem? fun i => ?_
      by_cases hi : i < n
      · obtain ⟨e, g1, g2⟩ := applied_get b1 (i := j) (n := i) (by omega)
        rw [g2, List.getElem?_map, List.getElem?_take, if_pos hi]
        rw [hm, hstream, List.getElem?_append_left (by omega)] at g1
        rw [g1]; rfl
      · rw [List.getElem?_eq_none (by omega), List.getElem?_eq_none (by simp; omega)]
    have huu : updatesOf (us.map Ev.upd) = us := by
      simp [updatesOf, List.filterMap_map]
    rw [d, huu] at hu
    rw [hc, d, ← hu]
    simp only [runEvs, List.foldl_map]; rfl

/-- A case: after four updates instance 1 can show the states after none, two and all of them. -/
example : ∃ s, run Wire.codec Config.default init (evsIn ++ evsOut (.matched [idA]) (okEnv 1)) = some s ∧
    (s.insts 1).up = false ∧ s.stream.entries.length = 3 ∧
    [0, 2, 3].map (fun n => (candidates (((s.stream.entries.take n).map decoded).foldl (applyUpdate Wire.codec) Cache.empty)).keys) =
      [[], [idA], []] := by
  have h : (run Wire.codec Config.default init (evsIn ++ evsOut (.matched [idA]) (okEnv 1))).map (fun s =>
      ((s.insts 1).up, s.stream.entries.length, [0, 2, 3].map (fun n =>
        (candidates (((s.stream.entries.take n).map decoded).foldl (applyUpdate Wire.codec) Cache.empty)).keys))) =
      some (false, 3, [[], [idA], []]) := by decide +kernel
  obtain ⟨s, h1, h2⟩ := Option.map_eq_some_iff.1 h
  rw [Prod.mk.injEq, Prod.mk.injEq] at h2
  exact ⟨s, h1, h2⟩

/-! ### What goes wrong -/

/-- The first part of the executions below is fine. -/
private theorem healthy_matched : ∀ l ∈ evsIn ++ evsOut (.matched [idA]) (okEnv 1),
    l.Healthy Wire.codec Config.default 1600000000000 := by
  intro l hl
  have hpl := okEnv_plausible 1
  simp only [evsIn, evsOut, List.cons_append, List.nil_append, List.mem_cons, List.not_mem_nil, or_false] at hl
  rcases hl with rfl | rfl | rfl | rfl | rfl | rfl | rfl | rfl | rfl | rfl | rfl | rfl | rfl
  · exact ⟨trivial, trivial, trivial, trivial⟩
  · exact ⟨trivial, trivial, benign_accepted _ _ _ _ trivial, readable_of (by decide +kernel)⟩
  · exact ⟨hpl, rfl, trivial, okEnv_readable _⟩
  · exact ⟨hpl, rfl, trivial, okEnv_readable _⟩
  · exact ⟨trivial, trivial, trivial, trivial⟩
  · exact ⟨trivial, trivial, benign_accepted _ _ _ _ (Or.inl rfl), readable_of (by decide +kernel)⟩
  · exact ⟨hpl, rfl, trivial, okEnv_readable _⟩
  · exact ⟨hpl, rfl, trivial, okEnv_readable _⟩
  · exact ⟨trivial, trivial, trivial, trivial⟩
  · exact ⟨trivial, trivial, benign_accepted _ _ _ _ (by intro k hk; rw [List.mem_singleton.1 hk]; decide),
      readable_of (by decide +kernel)⟩
  · exact ⟨hpl, rfl, trivial, okEnv_readable _⟩
  · exact ⟨hpl, rfl, trivial, okEnv_readable _⟩
  · exact ⟨trivial, trivial, trivial, trivial⟩

/-- Whether a match was handed out and its deactivations met no error. -/
def cleanMatch (x : Call) : Bool := isOut (.matched [idA]) x && x.got.all (·.err.isNone)

private theorem cleanMatch_iff {x : Call} (h : cleanMatch x = true) :
    x.rpc = .matched [idA] ∧ x.outcome = some .ok ∧ ∀ r ∈ x.got, r.err = none := by
  simp only [cleanMatch, Bool.and_eq_true, List.all_eq_true, Option.isNone_iff_eq_none] at h
  obtain ⟨h1, h2⟩ := h
  have h3 : x.rpc = .matched [idA] ∧ x.outcome = some .ok := by
    simp only [isOut] at h1
    split at h1
    · rename_i ids ids' e a b; cases e
    · rename_i ids ids' e a b
      injection e with e
      rw [e, of_decide_eq_true h1]; exact ⟨a, b⟩
    · simp at h1
  exact ⟨h3.1, h3.2, h2⟩

/-- Instance 1 is started, and has applied two of the three updates. -/
def evsHalf : List Label := [.poll 1, .apply 1, .apply 1]

/-- **C137 is false of the code**: an instance answers calls as soon as it runs (core/main.go:118-123), while it is still
replaying the stream from its beginning (redis.go:42).  When it has applied the activation of a ticket and not yet its
deactivation, it offers a player who was matched before it was started. -/
theorem C137_offers_matched_players_refuted :
    ¬ StartsClean Wire.codec Config.default 1600000000000 isMatched (fun _ _ => True) := by
  intro h
  have h1 : (run Wire.codec Config.default init evsIn).map (fun s => (told s 0, (s.calls 2).isNone,
      (s.calls 1).map fun x => x.outcome.isSome)) = some (some idA, true, some true) := by decide +kernel
  have h2 : (run Wire.codec Config.default init (evsIn ++ evsOut (.matched [idA]) (okEnv 1))).map
      (fun s => ((s.calls 2).map cleanMatch, (s.insts 1).up)) = some (some true, false) := by decide +kernel
  have h3 : (run Wire.codec Config.default init (evsIn ++ evsOut (.matched [idA]) (okEnv 1) ++ (.start 1 :: evsHalf))).map
      (fun s => ((s.insts 1).hist.map evU)) = some [some ⟨.ticket, idA, storedBytes reqA⟩, some ⟨.activate, idA, []⟩] := by
    decide +kernel
  obtain ⟨s1, r1, e1⟩ := Option.map_eq_some_iff.1 h1
  obtain ⟨s2, r2, e2⟩ := Option.map_eq_some_iff.1 h2
  obtain ⟨s3, r3, e3⟩ := Option.map_eq_some_iff.1 h3
  rw [Prod.mk.injEq, Prod.mk.injEq] at e1
  rw [Prod.mk.injEq] at e2
  have r3' := r3
  rw [run_append, r2, Option.bind_some] at r3
  rw [run_append, r1, Option.bind_some] at r2
  obtain ⟨x1, hx1, ho1⟩ := told_id e1.1 (by decide)
  have hb1 := base_run evsIn (base_init Wire.codec Config.default 1600000000000)
    (fun l hl => (healthy_matched l (List.mem_append_left _ hl)).1) s1 r1
  obtain ⟨now, t, hrpc1⟩ := id_means_create hb1 hx1 ho1
  obtain ⟨x2, hx2, c2⟩ := Option.map_eq_some_iff.1 e2.1
  obtain ⟨q1, q2, q3⟩ := cleanMatch_iff c2
  have hist : (s3.insts 1).hist = [⟨.ticket, idA, storedBytes reqA⟩, ⟨.activate, idA, []⟩].map Ev.upd := evU_eq e3
  have hm := h evsIn (evsOut (.matched [idA]) (okEnv 1)) evsHalf s1 s2 s3 1 healthy_matched (by
      intro l hl
      simp only [evsHalf, List.mem_cons, List.not_mem_nil, or_false] at hl
      rcases hl with rfl | rfl | rfl <;> exact ⟨trivial, trivial, trivial, trivial⟩)
    r1 r2 e2.2 r3 0 x1 now t idA hx1 hrpc1 ho1 2 x2 (by simpa using e1.2.1) hx2 (by rw [q1]; simp [Deactivates]) q2 q3 ⟨_, q1⟩
    (by
      intro c y hy hac
      rcases rpcAt_run _ r3' c y.rpc (by simp [rpcAt, hy]) with h4 | ⟨i, h4⟩
      · simp [rpcAt, init] at h4
      · simp only [evsIn, evsOut, evsHalf, List.mem_append, List.mem_cons, List.not_mem_nil, or_false,
          Label.call.injEq, reduceCtorEq, false_or] at h4
        rcases h4 with (⟨-, -, e⟩ | ⟨e', -, e⟩) | ⟨-, -, e⟩
        · rw [e] at hac; simp [Activates] at hac
        · obtain ⟨x, hx, ho⟩ := Option.map_eq_some_iff.1 e1.2.2
          rw [e']
          exact ⟨x, hx, by intro hn; rw [hn] at ho; simp at ho⟩
        · rw [e] at hac; simp [Activates] at hac)
    (s3.insts 1).hist (candidates (runEvs Wire.codec Config.default Cache.empty (s3.insts 1).hist))
    ⟨[], _, by simp, candidates_isSnapshot _ (WF_runEvs WF_empty _)⟩ trivial
  rw [hist] at hm
  have hlc := (C24_life_cycle Wire.codec [⟨.ticket, idA, storedBytes reqA⟩, ⟨.activate, idA, []⟩] idA).2.1
  have hfold : ∀ us : List StateUpdate, runEvs Wire.codec Config.default Cache.empty (us.map Ev.upd) =
      us.foldl (applyUpdate Wire.codec) Cache.empty := fun us => by
    simp only [runEvs, List.foldl_map]; rfl
  rw [hfold] at hm
  exact hlc.2 (by decide) hm

/-! ## C138: repeated calls -/

/-- What an instance shows of `k` after the updates `h`: its ticket, whether it is a pool candidate, its assignment. -/
def Shown (cd : Codec) (h : List StateUpdate) (k : Str) : Option Ticket × Option Ticket × Option Assignment :=
  let c := h.foldl (applyUpdate cd) Cache.empty
  (c.tickets.load k, (candidates c).load k, c.assignments.load k)

/-- `w` undoes `u`: another creation, the opposite change of state, another assignment of the same id. -/
def Undoes (w u : StateUpdate) : Prop :=
  w.key = u.key ∧ match u.cmd with
    | .activate => w.cmd = .ticket ∨ w.cmd = .deactivate
    | .deactivate => w.cmd = .ticket ∨ w.cmd = .activate
    | .assign => w.cmd = .assign ∧ w.value ≠ u.value
    | _ => False

private theorem shown_of_proj {c d : Cache} (hc : c.WF) (hd : d.WF) {k : Str} (h : proj c k = proj d k) :
    (c.tickets.load k, (candidates c).load k, c.assignments.load k) =
      (d.tickets.load k, (candidates d).load k, d.assignments.load k) := by
  rw [candidates_load hc, candidates_load hd, h]
  have h1 : c.tickets.load k = d.tickets.load k := congrArg KState.t h
  have h3 : c.assignments.load k = d.assignments.load k := congrArg KState.a h
  rw [h1, h3]

/-- **C138 (nothing in between).** Partial: full C138 is about calls, whatever happened in between
(`C138_activate_again_refuted`).  Making a change of state or an assignment again changes nothing that anybody can see,
unless something that undoes it came in between. -/
theorem C138_again_partial (cd : Codec) (h1 h2 : List StateUpdate) (u : StateUpdate) (hcmd : u.cmd ≠ .ticket)
    (hbetween : ∀ w ∈ h2, ¬ Undoes w u) (k : Str) :
    Shown cd (h1 ++ u :: h2 ++ [u]) k = Shown cd (h1 ++ u :: h2) k := by
  have wf : ∀ us : List StateUpdate, (us.foldl (applyUpdate cd) Cache.empty).WF := by
    intro us
    have := WF_runEvs (cd := cd) (cfg := Config.default) WF_empty (us.map Ev.upd)
    simp only [runEvs, List.foldl_map] at this
    exact this
  unfold Shown
  refine shown_of_proj (wf _) (wf _) ?_
  rw [List.foldl_append, List.foldl_cons, List.foldl_nil, applyUpdate_proj]
  by_cases hk : k = u.key
  · rw [if_pos hk]
    rw [List.foldl_append, List.foldl_cons]
    generalize h1.foldl (applyUpdate cd) Cache.empty = c
    -- what `u` has done is still so after `h2`
    have keep : ∀ (h2 : List StateUpdate) (c : Cache), (∀ w ∈ h2, ¬ Undoes w u) →
        (u.cmd = .activate → (proj c k).i = false) → (u.cmd = .deactivate → (proj c k).i = true) →
        (u.cmd = .assign → (proj c k).a = some (cd.decA u.value)) →
        (u.cmd = .activate → (proj (h2.foldl (applyUpdate cd) c) k).i = false) ∧
        (u.cmd = .deactivate → (proj (h2.foldl (applyUpdate cd) c) k).i = true) ∧
        (u.cmd = .assign → (proj (h2.foldl (applyUpdate cd) c) k).a = some (cd.decA u.value)) := by
      intro h2
      induction h2 with
      | nil => intro c _ a b d; exact ⟨a, b, d⟩
      | cons w h2 ih =>
        intro c hb a b d
        rw [List.foldl_cons]
        have hw := hb w (by simp)
        have hstep := applyUpdate_proj cd c w k
        refine ih _ (fun x hx => hb x (by simp [hx])) ?_ ?_ ?_ <;> intro hc <;> rw [hstep] <;> split
        · rename_i hkw
          simp only [Undoes, hc, hkw.symm.trans hk, true_and, not_or] at hw
          cases hwc : w.cmd <;> simp_all
        · exact a hc
        · rename_i hkw
          simp only [Undoes, hc, hkw.symm.trans hk, true_and, not_or] at hw
          cases hwc : w.cmd <;> simp_all
        · exact b hc
        · rename_i hkw
          simp only [Undoes, hc, hkw.symm.trans hk, true_and, not_and, not_not] at hw
          cases hwc : w.cmd <;> simp_all
        · exact d hc
    have hfirst := applyUpdate_proj cd c u k
    rw [if_pos hk] at hfirst
    obtain ⟨a, b, d⟩ := keep h2 (applyUpdate cd c u) hbetween
      (fun hc => by rw [hfirst, hc]) (fun hc => by rw [hfirst, hc]) (fun hc => by rw [hfirst, hc])
    generalize proj (h2.foldl (applyUpdate cd) (applyUpdate cd c u)) k = p at a b d ⊢
    obtain ⟨pt, pi, pa⟩ := p
    cases hc : u.cmd with
    | ticket => exact absurd hc hcmd
    | activate => simp only at a ⊢; rw [a hc]
    | deactivate => simp only at b ⊢; rw [b hc]
    | assign => simp only at d ⊢; rw [d hc]
    | other n => rfl
  · rw [if_neg hk]

/-- A case: a deactivation made again after an assignment of the same ticket. -/
example : (∀ w ∈ [(⟨.assign, idA, "x".toList⟩ : StateUpdate), ⟨.activate, "5-1".toList, []⟩], ¬ Undoes w ⟨.deactivate, idA, []⟩) := by
  intro w hw
  simp only [List.mem_cons, List.not_mem_nil, or_false] at hw
  rcases hw with rfl | rfl
  · rintro ⟨-, h | h⟩ <;> simp at h
  · rintro ⟨h, -⟩; exact absurd h (by decide)

/-- **C138 (creating again).** Partial: a snapshot that overlaps the application of the creation itself is excluded
(`C25_race_refuted`).  A ticket whose creator was never told its id, so that nobody asks to activate it, is in no pool:
CreateTicket may be called again when its answer was lost. -/
theorem C138_create_again_partial (cd : Codec) (cfg : Config) (H : Nat) (evs : List Label) (s : St)
    (hp : ∀ l ∈ evs, l.Plausible cfg H) (hr : run cd cfg init evs = some s)
    (j : Nat) (before : List Ev) (u : StateUpdate) (after : List Ev) (hu : u.cmd = .ticket)
    (hh : (s.insts j).hist = before ++ .upd u :: after)
    (hnobody : ∀ c x, s.calls c = some x → ¬ Activates x.rpc u.key)
    (sn : Snap) (m : GoMap Ticket)
    (hm : IsSnapshot (runEvs cd cfg Cache.empty (before ++ [.upd u]))
      (traceOps cd cfg (runEvs cd cfg Cache.empty (before ++ [.upd u])) after) sn m) : m.load u.key = none := by
  cases hload : m.load u.key with
  | none => rfl
  | some t =>
    obtain ⟨-, c, x, hx, ha⟩ := C69_not_before_activation_partial cd cfg H evs s hp hr j before u after hu hh sn m hm t hload
    exact absurd ha (hnobody c x hx)

/-- The full claim C138 for ActivateTickets.  `s1`: CreateTicket has returned `k`, and a call `c2` that asks to activate `k` has
ended without telling success.  `s2`: a match with `k` was made, and its deactivations met no error.  `s3`: the call of
`c2` was made again, as `c3`, and nobody else has asked to activate `k`.  Instances that have applied everything do not
offer `k` again. -/
def ActivateAgain (cd : Codec) (cfg : Config) (H : Nat) : Prop :=
  ∀ (evs1 evs2 evs3 : List Label) (s1 s2 s3 : St),
    (∀ l ∈ evs1 ++ evs2 ++ evs3, l.Healthy cd cfg H) →
    run cd cfg init evs1 = some s1 → run cd cfg s1 evs2 = some s2 → run cd cfg s2 evs3 = some s3 →
    ∀ (c1 : Nat) (x1 : Call) (now : Int) (t : Option Ticket) (k : Str),
    s1.calls c1 = some x1 → x1.rpc = .create now t → x1.outcome = some (.id k) →
    ∀ (c2 : Nat) (x2 : Call), s1.calls c2 = some x2 → Activates x2.rpc k → x2.outcome = some .gone →
    ∀ (c3 : Nat) (x3 : Call), s1.calls c3 = none → s2.calls c3 = some x3 → isMatched x3 → Deactivates x3.rpc k →
    x3.outcome = some .ok → (∀ r ∈ x3.got, r.err = none) →
    ∀ (c4 : Nat) (x4 : Call), s2.calls c4 = none → s3.calls c4 = some x4 → x4.rpc = x2.rpc → x4.outcome = some .ok →
    (∀ c y, s3.calls c = some y → Activates y.rpc k → c = c2 ∨ c = c4) →
    ∀ (j : Nat) (pre : List Ev) (m : GoMap Ticket), SnapshotOf cd cfg s3 j pre m →
    s3.stream.entries.length ≤ (updatesOf pre).length → m.load k = none

/-- Ticket A is created at instance 0, which is asked to activate it and dies before it can answer. -/
def evsLostAnswer : List Label :=
  [.start 0, .start 1, .call 0 0 (.create startNs (some reqA)), .submit 0 (okEnv 1), .timeout 0 (okEnv 1), .finish 0 [],
   .call 1 0 (.setState .activate [idA]), .submit 1 (okEnv 1), .timeout 0 (okEnv 1), .crash 0]
/-- Instance 1 makes a match with it. -/
def evsMatch1 : List Label := [.call 2 1 (.matched [idA]), .submit 2 (okEnv 1), .timeout 1 (okEnv 1), .finish 2 []]
/-- The client asks instance 1. -/
def evsRetry : List Label :=
  [.call 3 1 (.setState .activate [idA]), .submit 3 (okEnv 1), .timeout 1 (okEnv 1), .finish 3 [],
   .poll 1, .apply 1, .apply 1, .apply 1, .apply 1]

private theorem healthy_retry : ∀ l ∈ evsLostAnswer ++ evsMatch1 ++ evsRetry,
    l.Healthy Wire.codec Config.default 1600000000000 := by
  intro l hl
  have hpl := okEnv_plausible 1
  simp only [evsLostAnswer, evsMatch1, evsRetry, List.cons_append, List.nil_append, List.mem_cons, List.not_mem_nil, or_false] at hl
  rcases hl with rfl | rfl | rfl | rfl | rfl | rfl | rfl | rfl | rfl | rfl | rfl | rfl | rfl | rfl | rfl | rfl | rfl | rfl |
    rfl | rfl | rfl | rfl | rfl
  · exact ⟨trivial, trivial, trivial, trivial⟩
  · exact ⟨trivial, trivial, trivial, trivial⟩
  · exact ⟨trivial, trivial, benign_accepted _ _ _ _ trivial, readable_of (by decide +kernel)⟩
  · exact ⟨hpl, rfl, trivial, okEnv_readable _⟩
  · exact ⟨hpl, rfl, trivial, okEnv_readable _⟩
  · exact ⟨trivial, trivial, trivial, trivial⟩
  · exact ⟨trivial, trivial, benign_accepted _ _ _ _ (Or.inl rfl), readable_of (by decide +kernel)⟩
  · exact ⟨hpl, rfl, trivial, okEnv_readable _⟩
  · exact ⟨hpl, rfl, trivial, okEnv_readable _⟩
  · exact ⟨trivial, trivial, trivial, trivial⟩
  · exact ⟨trivial, trivial, benign_accepted _ _ _ _ (by intro k hk; rw [List.mem_singleton.1 hk]; decide),
      readable_of (by decide +kernel)⟩
  · exact ⟨hpl, rfl, trivial, okEnv_readable _⟩
  · exact ⟨hpl, rfl, trivial, okEnv_readable _⟩
  · exact ⟨trivial, trivial, trivial, trivial⟩
  · exact ⟨trivial, trivial, benign_accepted _ _ _ _ (Or.inl rfl), readable_of (by decide +kernel)⟩
  · exact ⟨hpl, rfl, trivial, okEnv_readable _⟩
  · exact ⟨hpl, rfl, trivial, okEnv_readable _⟩
  all_goals exact ⟨trivial, trivial, trivial, trivial⟩

/-- Whether the call asked to activate A, and was told OK (`some true`) or got no answer (`some false`). -/
def activation (x : Call) : Option Bool :=
  match x.rpc, x.outcome with
  | .setState .activate ids, some .ok => if ids = [idA] then some true else none
  | .setState .activate ids, some .gone => if ids = [idA] then some false else none
  | _, _ => none

private theorem activation_iff {x : Call} {b : Bool} (h : activation x = some b) :
    x.rpc = .setState .activate [idA] ∧ x.outcome = some (if b then .ok else .gone) := by
  unfold activation at h
  split at h
  · rename_i ids a c
    split at h
    · rename_i e; injection h with h; subst h; exact ⟨by rw [a, e], c⟩
    · cases h
  · rename_i ids a c
    split at h
    · rename_i e; injection h with h; subst h; exact ⟨by rw [a, e], c⟩
    · cases h
  · cases h

/-- **C138 is false of the code** for ActivateTickets: an instance dies after Redis has the activation and before it answers.
The ticket is matched; the client, who knows nothing of this, calls again, is told OK, and the player is in the pools again
although they are in a match.  Activations carry nothing by which a repetition could be told (replicatedticketcache.go:204-205). -/
theorem C138_activate_again_refuted : ¬ ActivateAgain Wire.codec Config.default 1600000000000 := by
  intro h
  have h1 : (run Wire.codec Config.default init evsLostAnswer).map (fun s => (told s 0, (s.calls 1).bind activation,
      (s.calls 2).isNone)) = some (some idA, some false, true) := by decide +kernel
  have h2 : (run Wire.codec Config.default init (evsLostAnswer ++ evsMatch1)).map
      (fun s => ((s.calls 2).map cleanMatch, (s.calls 3).isNone)) = some (some true, true) := by decide +kernel
  have h3 : (run Wire.codec Config.default init (evsLostAnswer ++ evsMatch1 ++ evsRetry)).map
      (fun s => ((s.calls 3).bind activation, (s.insts 1).hist.map evU, s.stream.entries.length)) =
      some (some true, [some ⟨.ticket, idA, storedBytes reqA⟩, some ⟨.activate, idA, []⟩, some ⟨.deactivate, idA, []⟩,
        some ⟨.activate, idA, []⟩], 4) := by decide +kernel
  obtain ⟨s1, r1, e1⟩ := Option.map_eq_some_iff.1 h1
  obtain ⟨s2, r2, e2⟩ := Option.map_eq_some_iff.1 h2
  obtain ⟨s3, r3, e3⟩ := Option.map_eq_some_iff.1 h3
  rw [Prod.mk.injEq, Prod.mk.injEq] at e1
  rw [Prod.mk.injEq] at e2
  rw [Prod.mk.injEq, Prod.mk.injEq] at e3
  have r3' := r3
  rw [run_append, r2, Option.bind_some] at r3
  rw [run_append, r1, Option.bind_some] at r2
  obtain ⟨x1, hx1, ho1⟩ := told_id e1.1 (by decide)
  have hb1 := base_run evsLostAnswer (base_init Wire.codec Config.default 1600000000000)
    (fun l hl => (healthy_retry l (by simp [hl])).1) s1 r1
  obtain ⟨now, t, hrpc1⟩ := id_means_create hb1 hx1 ho1
  obtain ⟨x2, hx2, c2⟩ := Option.bind_eq_some_iff.1 e1.2.1
  obtain ⟨a1, a2⟩ := activation_iff c2
  obtain ⟨x3, hx3, c3⟩ := Option.map_eq_some_iff.1 e2.1
  obtain ⟨q1, q2, q3⟩ := cleanMatch_iff c3
  obtain ⟨x4, hx4, c4⟩ := Option.bind_eq_some_iff.1 e3.1
  obtain ⟨b1, b2⟩ := activation_iff c4
  have hist : (s3.insts 1).hist = [⟨.ticket, idA, storedBytes reqA⟩, ⟨.activate, idA, []⟩, ⟨.deactivate, idA, []⟩,
      ⟨.activate, idA, []⟩].map Ev.upd := evU_eq e3.2.1
  have hm := h evsLostAnswer evsMatch1 evsRetry s1 s2 s3 healthy_retry r1 r2 r3 0 x1 now t idA hx1 hrpc1 ho1
    1 x2 hx2 (by rw [a1]; simp [Activates]) a2 2 x3 (by simpa using e1.2.2) hx3 ⟨_, q1⟩ (by rw [q1]; simp [Deactivates]) q2 q3
    3 x4 (by simpa using e2.2) hx4 (by rw [a1, b1]) b2
    (by
      intro c y hy hac
      rcases rpcAt_run _ r3' c y.rpc (by simp [rpcAt, hy]) with h4 | ⟨i, h4⟩
      · simp [rpcAt, init] at h4
      · simp only [evsLostAnswer, evsMatch1, evsRetry, List.mem_append, List.mem_cons, List.not_mem_nil, or_false,
          Label.call.injEq, reduceCtorEq, false_or] at h4
        rcases h4 with ((⟨-, -, e⟩ | ⟨e', -, e⟩) | ⟨-, -, e⟩) | ⟨e', -, -⟩
        · rw [e] at hac; simp [Activates] at hac
        · exact Or.inl e'
        · rw [e] at hac; simp [Activates] at hac
        · exact Or.inr e')
    1 (s3.insts 1).hist (candidates (runEvs Wire.codec Config.default Cache.empty (s3.insts 1).hist))
    ⟨[], _, by simp, candidates_isSnapshot _ (WF_runEvs WF_empty _)⟩ (by rw [hist, e3.2.2]; decide)
  rw [hist] at hm
  have hlc := (C24_life_cycle Wire.codec [⟨.ticket, idA, storedBytes reqA⟩, ⟨.activate, idA, []⟩, ⟨.deactivate, idA, []⟩,
    ⟨.activate, idA, []⟩] idA).2.1
  have hfold : ∀ us : List StateUpdate, runEvs Wire.codec Config.default Cache.empty (us.map Ev.upd) =
      us.foldl (applyUpdate Wire.codec) Cache.empty := fun us => by
    simp only [runEvs, List.foldl_map]; rfl
  rw [hfold] at hm
  exact hlc.2 (by decide) hm

end OM.Props
