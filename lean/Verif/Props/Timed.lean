import Verif.Model.Timed
import Verif.Props.Load
import Verif.Props.Lifecycle
/-!
# Property C142: within the time of C139 the pools of every instance show what was done
-/
namespace OM.Props
open OM.Spec OM.Delay

/-! ## What an instance has done -/

private theorem lag_did {T R E N : Nat} {s t : Lag.St} {l : Lag.Lbl} (h : s.step T R E N l = some t) :
    t.applied.map (·.1) = s.applied.map (·.1) ++ (s.did l).filterMap id := by
  obtain ⟨now, next, st, poll, chan, mode, ap⟩ := s
  cases l <;> simp only [Lag.St.step] at h <;> (repeat' split at h) <;>
    first
    | (cases h; done)
    | (injection h with h; subst h; simp [Lag.St.did])

private theorem did_step {p : Par} {s t : Delay.St} {l : Delay.Lbl} (h : s.step p l = some t) {j : Nat} {a b : Delay.Inst} (ha : s.insts[j]? = some a)
    (hb : t.insts[j]? = some b) : b.inn.applied.map (·.1) = a.inn.applied.map (·.1) ++ (s.did j l).filterMap id := by
  rcases proj_step h j with ⟨h0, -⟩ | ⟨a', b', ha', hb', -, hi⟩
  · rw [ha] at h0; cases h0
  rw [ha] at ha'; cases ha'
  rw [hb] at hb'; cases hb'
  have one : ∀ x, innRun p a.inn [x] = some b.inn → b.inn.applied.map (·.1) = a.inn.applied.map (·.1) ++ (a.inn.did x).filterMap id := by
    intro x hx
    obtain ⟨u, hu, hh⟩ := Option.bind_eq_some_iff.1 hx
    cases hh; exact lag_did hu
  cases l with
  | tick => have := one _ hi; simpa [St.did, Lag.St.did] using this
  | store i => have := one _ hi; simpa [St.did, Lag.St.did] using this
  | out i l => simp only [innOf, innRun, Lag.St.run, Option.some.injEq] at hi; simp [St.did, hi]
  | inn i l =>
    by_cases hij : i = j
    · simp only [innOf, if_pos hij] at hi
      have := one _ hi
      simpa [St.did, hij, ha] using this
    · simp only [innOf, if_neg hij, innRun, Lag.St.run, Option.some.injEq] at hi; simp [St.did, hij, hi]

private theorem deeds_run {p : Par} {j : Nat} (ls : List Delay.Lbl) : ∀ {s t : Delay.St}, s.run p ls = some t → ∀ {a b : Delay.Inst}, s.insts[j]? = some a →
    t.insts[j]? = some b → b.inn.applied.map (·.1) = a.inn.applied.map (·.1) ++ (s.deeds p j ls).filterMap id := by
  induction ls with
  | nil => intro s t h a b ha hb; cases h; rw [ha] at hb; cases hb; simp [St.deeds]
  | cons l ls ih =>
    intro s t h a b ha hb
    obtain ⟨u, hu, h⟩ := Option.bind_eq_some_iff.1 h
    rcases proj_step hu j with ⟨h0, -⟩ | ⟨a', c, ha', hc, -⟩
    · rw [ha] at h0; cases h0
    rw [ih h hc hb, did_step hu ha hc]
    simp [St.deeds, hu]

theorem deeds_append {p : Par} {j : Nat} (as bs : List Delay.Lbl) : ∀ {s t : Delay.St}, s.run p as = some t →
    s.deeds p j (as ++ bs) = s.deeds p j as ++ t.deeds p j bs := by
  induction as with
  | nil => intro s t h; cases h; simp [St.deeds]
  | cons l as ih =>
    intro s t h
    obtain ⟨u, hu, h⟩ := Option.bind_eq_some_iff.1 h
    simp [St.deeds, hu, ih h]

private theorem deeds_updates {what : Nat × Nat → StateUpdate} {log : List (Nat × Nat)} {ds : List (Option Nat)} {es : List Ev}
    (h : Deeds what log ds es) : (updatesOf es).map some = (ds.filterMap id).map fun k => log[k]?.map what := by
  induction h with
  | nil => rfl
  | @cons d e ds es hd _ ih =>
    cases d with
    | none => obtain ⟨cy, rfl⟩ := hd; simpa [updatesOf] using ih
    | some k =>
      obtain ⟨x, hx, rfl⟩ := hd
      simp only [updatesOf, List.filterMap_cons, List.map_cons, id] at ih ⊢
      rw [ih, hx]; rfl

/-- What instance `j` has applied is the beginning of the stream. -/
theorem applied_are {p : Par} {n : Nat} {ls : List Delay.Lbl} {s : Delay.St} (h : (St.init p n).run p ls = some s) {j : Nat} {b : Delay.Inst}
    (hb : s.insts[j]? = some b) {what : Nat × Nat → StateUpdate} {log : List (Nat × Nat)} {es : List Ev}
    (hd : Deeds what log ((St.init p n).deeds p j ls) es) :
    (updatesOf es).length = b.inn.applied.length ∧ b.inn.applied.map (·.1) = List.range b.inn.applied.length ∧
    ∀ q, q < b.inn.applied.length → (updatesOf es)[q]? = log[q]?.map what := by
  have hj : j < n := by
    have := (List.getElem?_eq_some_iff.1 hb).1
    rw [insts_len ls h] at this
    simpa [St.init] using this
  obtain ⟨b', hb', -, p1⟩ := Delay.proj_run ls h (init_get hj)
  rw [hb] at hb'; cases hb'
  have ho := C132_in_order _ _ _ _ _ _ p1
  have hr : b.inn.applied.map (·.1) = List.range b.inn.applied.length := by
    have := congrArg (List.take b.inn.applied.length) ho
    rw [List.append_assoc, List.append_assoc, List.take_left' (by simp)] at this
    rw [this, List.take_range]
    congr 1
    have := congrArg List.length ho
    simp only [List.length_append, List.length_map, List.length_range] at this
    omega
  have hu := deeds_updates hd
  have hda := deeds_run ls h (init_get hj) hb
  simp only [Lag.St.init, List.map_nil, List.nil_append] at hda
  rw [← hda, hr] at hu
  refine ⟨by simpa using congrArg List.length hu, hr, fun q hq => ?_⟩
  have := congrArg (·[q]?) hu
  simp only [List.getElem?_map, List.getElem?_range hq, Option.map_some] at this
  cases hx : (updatesOf es)[q]? with
  | none => rw [hx] at this; cases this
  | some u => rw [hx] at this; simpa using this

/-- Each update is in the stream once. -/
private theorem log_once {p : Par} {n : Nat} {ls : List Delay.Lbl} {s : Delay.St} (h : (St.init p n).run p ls = some s) {q q' : Nat} {e : Nat × Nat}
    (hq : s.log[q]? = some e) (hq' : s.log[q']? = some e) : q = q' := by
  -- the instance of an entry exists
  have hex : ∀ (ls : List Delay.Lbl) (s : Delay.St), (St.init p n).run p ls = some s → ∀ e ∈ s.log, e.1 < n := by
    intro ls s h e he
    have h0 : e ∉ (St.init p n).log := by simp [St.init]
    obtain ⟨ls1, ls2, t, t', a, -, h1, -, -, ha, -⟩ := stored_at ls h h0 he
    have := (List.getElem?_eq_some_iff.1 ha).1
    rw [insts_len ls1 h1] at this
    simpa [St.init] using this
  have hi := hex ls s h e (List.mem_of_getElem? hq)
  obtain ⟨a, ha, -, -⟩ := Delay.proj_run ls h (init_get hi)
  have g := good_run ls (good_init p n) h e.1 a ha
  have ho := queue_in_order h ha
  have hnd : ((s.log.filter (·.1 = e.1)).map (·.2)).Nodup := by
    rw [g.log]
    have hsub : (a.out.answered.map (·.1) ++ a.out.held.take a.stored).Sublist (List.range a.out.next) := by
      rw [← ho, List.append_assoc]
      exact List.Sublist.append_left ((List.take_sublist _ _).trans (List.sublist_append_left _ _)) _
    exact hsub.nodup List.nodup_range
  by_contra hne
  have key : ∀ q q' : Nat, q < q' → s.log[q]? = some e → s.log[q']? = some e → False := by
    intro q q' hlt h1 h2
    have hs := split_at h1
    have h3 : e ∈ s.log.drop (q + 1) := by
      have : (s.log.drop (q + 1))[q' - (q + 1)]? = some e := by
        rw [List.getElem?_drop, show q + 1 + (q' - (q + 1)) = q' by omega]; exact h2
      exact List.mem_of_getElem? this
    rw [hs] at hnd
    simp only [List.filter_append, List.map_append, List.filter_cons, decide_true, if_true, List.map_cons] at hnd
    have := (List.nodup_cons.1 (List.nodup_append.1 hnd).2.1).1
    exact this (List.mem_map.2 ⟨e, List.mem_filter.2 ⟨h3, by simp⟩, rfl⟩)
  rcases Nat.lt_or_gt_of_ne hne with h | h
  · exact key q q' h hq hq'
  · exact key q' q h hq' hq

/-! ## What a cache with these updates shows -/

private theorem shown {cd : Codec} {cfg : Config} {es1 es2 : List Ev} {k v : Str} {n1 n2 : Nat} (hv : ValidEvs cd cfg Cache.empty (es1 ++ es2))
    (hf : Fresh cd cfg (es1 ++ es2) k) (h1 : (updatesOf es1)[n1]? = some ⟨.ticket, k, v⟩) (h2 : (updatesOf es1)[n2]? = some ⟨.activate, k, []⟩)
    (hone : ∀ q u, (updatesOf (es1 ++ es2))[q]? = some u → u.key = k → u.cmd = .ticket → q = n1)
    (hlt : n1 < n2) (hde : ∀ q u, n2 < q → (updatesOf (es1 ++ es2))[q]? = some u → u.key = k → u.cmd ≠ .deactivate)
    {sn : Snap} {m : GoMap Ticket} (hm : IsSnapshot (runEvs cd cfg Cache.empty es1) (traceOps cd cfg (runEvs cd cfg Cache.empty es1) es2) sn m) :
    m.load k = some { cd.decT v with id := k } := by
  have hlift : ∀ (n : Nat) (w : StateUpdate), (updatesOf es1)[n]? = some w → (updatesOf (es1 ++ es2))[n]? = some w := by
    intro n w hw
    rw [OM.Sys.updatesOf_append, List.getElem?_append_left (List.getElem?_eq_some_iff.1 hw).1]; exact hw
  have hafter : ∀ (n : Nat) (w : StateUpdate), n2 < n → (updatesOf (es1 ++ es2))[n]? = some w → w.key = k → w.cmd ≠ .ticket ∧ w.cmd ≠ .deactivate := by
    intro n w hn hw hk
    refine ⟨fun hc => ?_, hde n w hn hw hk⟩
    have := hone n w hw hk hc
    omega
  have hmark := markers_last h2 (fun n w hn hw => hafter n w hn (hlift n w hw))
  have hcreate := creations_last h1 (fun n w hw hc hwk => hone n w (hlift n w hw) hwk hc)
  rw [validEvs_append] at hv
  have hf1 : Fresh cd cfg es1 k := by
    intro cy hcy
    obtain ⟨f1, f2, f3⟩ := hf cy (List.mem_append_left _ hcy)
    refine ⟨f1, f2, fun w hw => f3 w ?_⟩
    rw [OM.Sys.updatesOf_append]; exact List.mem_append_left _ hw
  obtain ⟨-, -, -, ht, hi, -⟩ := C23_instances_converge cd cfg es1 es1 k rfl hv.1 hv.1 hf1 hf1
  obtain ⟨c24a, -, c24c, -⟩ := C24_life_cycle cd (updatesOf es1) k
  have hactive : Active (updatesOf es1) k := ⟨by intro hnil; rw [hnil] at hcreate; simp at hcreate, hmark⟩
  have hcont : content cd (updatesOf es1) k = some { cd.decT v with id := k } := by simp [content, hcreate]
  have htick : (runEvs cd cfg Cache.empty es1).tickets.load k = some { cd.decT v with id := k } := by rw [ht, c24c]; exact hcont
  have hinact : (runEvs cd cfg Cache.empty es1).inactive.load k = none := by
    rw [hi]
    have wf : (List.foldl (applyUpdate cd) Cache.empty (updatesOf es1)).WF := by
      have := WF_runEvs (cd := cd) (cfg := cfg) WF_empty ((updatesOf es1).map Ev.upd)
      simp only [runEvs, List.foldl_map] at this
      exact this
    rw [candidates_load wf, if_pos hactive, hcont] at c24a
    split at c24a
    · simp at c24a
    · rename_i hn
      cases hz : (List.foldl (applyUpdate cd) Cache.empty (updatesOf es1)).inactive.load k with
      | none => rfl
      | some v => simp [proj, hz] at hn
  refine C27_active_stays_in cd cfg _ es2 k _ hinact htick hv.2 ?_ ?_ sn m hm
  · intro w hw hwk
    obtain ⟨n, hn⟩ := List.mem_iff_getElem?.1 hw
    have := (List.getElem?_eq_some_iff.1 h2).1
    refine hafter ((updatesOf es1).length + n) w (by omega) ?_ hwk
    rw [OM.Sys.updatesOf_append, List.getElem?_append_right (by omega)]
    simpa using hn
  · intro cy hcy
    exact (hf cy (List.mem_append_right _ hcy)).2.2 ⟨.ticket, k, v⟩ (List.mem_of_getElem? (hlift _ _ h1)) rfl rfl

private theorem hidden {cd : Codec} {cfg : Config} {es1 es2 : List Ev} {k : Str} {n2 : Nat} (hv : ValidEvs cd cfg Cache.empty (es1 ++ es2))
    (h2 : (updatesOf es1)[n2]? = some ⟨.deactivate, k, []⟩)
    (hafter : ∀ q u, n2 < q → (updatesOf (es1 ++ es2))[q]? = some u → u.key = k → u.cmd ≠ .ticket ∧ u.cmd ≠ .activate)
    {sn : Snap} {m : GoMap Ticket} (hm : IsSnapshot (runEvs cd cfg Cache.empty es1) (traceOps cd cfg (runEvs cd cfg Cache.empty es1) es2) sn m) :
    m.load k = none := by
  have hlift : ∀ (n : Nat) (w : StateUpdate), (updatesOf es1)[n]? = some w → (updatesOf (es1 ++ es2))[n]? = some w := by
    intro n w hw
    rw [OM.Sys.updatesOf_append, List.getElem?_append_left (List.getElem?_eq_some_iff.1 hw).1]; exact hw
  have hna := markers_last_deactivate h2 (fun n w hn hw => hafter n w hn (hlift n w hw))
  rw [validEvs_append] at hv
  have hcand : (candidates (runEvs cd cfg Cache.empty es1)).load k = none := by
    cases hl : (candidates (runEvs cd cfg Cache.empty es1)).load k with
    | none => rfl
    | some t =>
      have h1 := C23_expiration_only_drops cd cfg es1 k t hv.1 hl
      exact absurd ((C24_life_cycle cd (updatesOf es1) k).2.1.1 (by rw [h1]; simp)) hna
  have wf := WF_runEvs (cd := cd) (cfg := cfg) WF_empty es1
  rw [candidates_load wf] at hcand
  obtain ⟨o1, -, o3⟩ := hm
  rw [o3]
  refine not_served cd cfg _ es2 k ?_ hv.2 ?_ sn o1
  · split at hcand
    · left; assumption
    · right; exact hcand
  · intro w hw hwk
    obtain ⟨n, hn⟩ := List.mem_iff_getElem?.1 hw
    have := (List.getElem?_eq_some_iff.1 h2).1
    refine hafter ((updatesOf es1).length + n) w (by omega) ?_ hwk
    rw [OM.Sys.updatesOf_append, List.getElem?_append_right (by omega)]
    simpa using hn

/-! ## The property -/

/-- Somebody looks at the pools of instance `j` after `ls1`, and is done by the end of `ls2`.  `es1`, `es2`: what `j` has done to its
cache before and during the look; `m`: the tickets it finds. -/
structure Look (cd : Codec) (cfg : Config) (p : Par) (n : Nat) (what : Nat × Nat → StateUpdate) (j : Nat) (ls1 ls2 : List Delay.Lbl)
    (s1 s2 : Delay.St) (es1 es2 : List Ev) (m : GoMap Ticket) : Prop where
  run1 : (St.init p n).run p ls1 = some s1
  run2 : s1.run p ls2 = some s2
  done1 : Deeds what s1.log ((St.init p n).deeds p j ls1) es1
  done2 : Deeds what s2.log (s1.deeds p j ls2) es2
  valid : ValidEvs cd cfg Cache.empty (es1 ++ es2)
  found : ∃ sn, IsSnapshot (runEvs cd cfg Cache.empty es1) (traceOps cd cfg (runEvs cd cfg Cache.empty es1) es2) sn m

private theorem prefix_get {α : Type} {a b : List α} (hp : a <+: b) {k : Nat} {x : α} (h : a[k]? = some x) : b[k]? = some x := by
  obtain ⟨w, rfl⟩ := hp
  rw [List.getElem?_append_left (List.getElem?_eq_some_iff.1 h).1]; exact h

theorem deeds_mono {what : Nat × Nat → StateUpdate} {a b : List (Nat × Nat)} (hp : a <+: b) {ds : List (Option Nat)} {es : List Ev}
    (h : Deeds what a ds es) : Deeds what b ds es := by
  refine List.Forall₂.imp (fun d e hd => ?_) h
  cases d with
  | none => exact hd
  | some k => obtain ⟨x, hx, he⟩ := hd; exact ⟨x, prefix_get hp hx, he⟩

/-- The updates that an instance has applied, for a look. -/
private theorem look_updates {cd : Codec} {cfg : Config} {p : Par} {n : Nat} {what : Nat × Nat → StateUpdate} {j : Nat} {ls1 ls2 : List Delay.Lbl}
    {s1 s2 : Delay.St} {es1 es2 : List Ev} {m : GoMap Ticket} (h : Look cd cfg p n what j ls1 ls2 s1 s2 es1 es2 m) (hj : j < n)
    {i r u : Nat} (happ : AppliedBy s1 i r j u) :
    ∃ q : Nat, s1.log[q]? = some (i, r) ∧ (updatesOf es1)[q]? = some (what (i, r)) ∧
      (∀ (q' : Nat) (e : Nat × Nat), q' ≤ q → s1.log[q']? = some e → (updatesOf es1)[q']? = some (what e)) ∧
      (∀ (q' : Nat) (w : StateUpdate), (updatesOf (es1 ++ es2))[q']? = some w → ∃ e : Nat × Nat, s2.log[q']? = some e ∧ w = what e) := by
  obtain ⟨q, x, t, hq, hx, hm, -⟩ := happ
  obtain ⟨l1, l2, l3⟩ := applied_are h.run1 hx h.done1
  have hlt : q < x.inn.applied.length := by
    have : q ∈ x.inn.applied.map (·.1) := List.mem_map.2 ⟨_, hm, rfl⟩
    rw [l2] at this; simpa using this
  have hall : ∀ (q' : Nat) (e : Nat × Nat), q' ≤ q → s1.log[q']? = some e → (updatesOf es1)[q']? = some (what e) := by
    intro q' e hle he
    rw [l3 q' (by omega), he]; rfl
  refine ⟨q, hq, hall q _ (Nat.le_refl _) hq, hall, ?_⟩
  intro q' w hw
  have hrun : (St.init p n).run p (ls1 ++ ls2) = some s2 := by rw [run_append, h.run1]; exact h.run2
  obtain ⟨y, hy, -, -⟩ := Delay.proj_run _ hrun (init_get hj)
  have hd : Deeds what s2.log ((St.init p n).deeds p j (ls1 ++ ls2)) (es1 ++ es2) := by
    rw [deeds_append _ _ h.run1]
    exact List.rel_append (deeds_mono (log_run ls2 h.run2) h.done1) h.done2
  obtain ⟨k1, -, k3⟩ := applied_are hrun hy hd
  have hql := (List.getElem?_eq_some_iff.1 hw).1
  rw [k3 q' (by omega)] at hw
  obtain ⟨e, he, rfl⟩ := Option.map_eq_some_iff.1 hw
  exact ⟨e, he, rfl⟩

private theorem offered_core {cd : Codec} {cfg : Config} {p : Par} {n : Nat} {what : Nat × Nat → StateUpdate} {j : Nat} {ls ls1 ls2 : List Delay.Lbl}
    {s0 s1 s2 : Delay.St} {es1 es2 : List Ev} {m : GoMap Ticket} (h : Look cd cfg p n what j (ls ++ ls1) ls2 s1 s2 es1 es2 m) (hj : j < n)
    {i r u : Nat} (happ : AppliedBy s1 i r j u) (h0 : (St.init p n).run p ls = some s0) (hnot : (i, r) ∉ s0.log) {c : Nat × Nat} {k v : Str}
    (hc : c ∈ s0.log) (hcr : what c = ⟨.ticket, k, v⟩) (hact : what (i, r) = ⟨.activate, k, []⟩)
    (hone : ∀ e ∈ s2.log, (what e).key = k → (what e).cmd = .ticket → e = c)
    (hde : ∀ e ∈ s2.log, (what e).key = k → (what e).cmd = .deactivate → e ∈ s0.log) (hf : Fresh cd cfg (es1 ++ es2) k) :
    m.load k = some { cd.decT v with id := k } := by
  obtain ⟨q, hq, hqu, hall, hback⟩ := look_updates h hj happ
  obtain ⟨sn, hsn⟩ := h.found
  have hr1 : s0.run p ls1 = some s1 := by
    have := h.run1
    rw [run_append, h0] at this; exact this
  have hrun : (St.init p n).run p (ls ++ ls1 ++ ls2) = some s2 := by rw [run_append, h.run1]; exact h.run2
  have p01 := log_run ls1 hr1
  have p12 := log_run ls2 h.run2
  obtain ⟨q0, hq0⟩ := List.mem_iff_getElem?.1 hc
  have hq0l := (List.getElem?_eq_some_iff.1 hq0).1
  have hlt : s0.log.length ≤ q := by
    by_contra hlt
    obtain ⟨w, hw⟩ := p01
    rw [← hw, List.getElem?_append_left (by omega)] at hq
    exact hnot (List.mem_of_getElem? hq)
  have hq0' := prefix_get p01 hq0
  have h1 := hall q0 c (by omega) hq0'
  rw [hcr] at h1
  rw [hact] at hqu
  refine shown h.valid hf h1 hqu ?_ (by omega) ?_ hsn
  · intro q' w hw hk hcmd
    obtain ⟨e, he, rfl⟩ := hback q' w hw
    have := hone e (List.mem_of_getElem? he) hk hcmd
    subst this
    exact log_once hrun he (prefix_get p12 hq0')
  · intro q' w hlt' hw hk hcmd
    obtain ⟨e, he, rfl⟩ := hback q' w hw
    obtain ⟨q2, hq2⟩ := List.mem_iff_getElem?.1 (hde e (List.mem_of_getElem? he) hk hcmd)
    have := log_once hrun he (prefix_get p12 (prefix_get p01 hq2))
    have := (List.getElem?_eq_some_iff.1 hq2).1
    omega

private theorem withdrawn_core {cd : Codec} {cfg : Config} {p : Par} {n : Nat} {what : Nat × Nat → StateUpdate} {j : Nat} {ls ls1 ls2 : List Delay.Lbl}
    {s0 s1 s2 : Delay.St} {es1 es2 : List Ev} {m : GoMap Ticket} (h : Look cd cfg p n what j (ls ++ ls1) ls2 s1 s2 es1 es2 m) (hj : j < n)
    {i r u : Nat} (happ : AppliedBy s1 i r j u) (h0 : (St.init p n).run p ls = some s0) (hnot : (i, r) ∉ s0.log) {k : Str}
    (hact : what (i, r) = ⟨.deactivate, k, []⟩)
    (hno : ∀ e ∈ s2.log, (what e).key = k → (what e).cmd = .ticket ∨ (what e).cmd = .activate → e ∈ s0.log) : m.load k = none := by
  obtain ⟨q, hq, hqu, hall, hback⟩ := look_updates h hj happ
  obtain ⟨sn, hsn⟩ := h.found
  have hr1 : s0.run p ls1 = some s1 := by
    have := h.run1
    rw [run_append, h0] at this; exact this
  have hrun : (St.init p n).run p (ls ++ ls1 ++ ls2) = some s2 := by rw [run_append, h.run1]; exact h.run2
  have p01 := log_run ls1 hr1
  have p12 := log_run ls2 h.run2
  have hlt : s0.log.length ≤ q := by
    by_contra hlt
    obtain ⟨w, hw⟩ := p01
    rw [← hw, List.getElem?_append_left (by omega)] at hq
    exact hnot (List.mem_of_getElem? hq)
  rw [hact] at hqu
  refine hidden h.valid hqu ?_ hsn
  intro q' w hlt' hw hk
  obtain ⟨e, he, rfl⟩ := hback q' w hw
  have key : (what e).cmd = .ticket ∨ (what e).cmd = .activate → False := by
    intro hc
    obtain ⟨q2, hq2⟩ := List.mem_iff_getElem?.1 (hno e (List.mem_of_getElem? he) hk hc)
    have := log_once hrun he (prefix_get p12 (prefix_get p01 hq2))
    have := (List.getElem?_eq_some_iff.1 hq2).1
    omega
  exact ⟨fun hc => key (.inl hc), fun hc => key (.inr hc)⟩

/-- An update that a handler is about to have is not in the stream. -/
private theorem not_yet {p : Par} {n : Nat} {ls : List Delay.Lbl} {s : Delay.St} (h : (St.init p n).run p ls = some s) {i : Nat} {a : Delay.Inst}
    (ha : s.insts[i]? = some a) : (i, a.out.next) ∉ s.log := by
  intro hm
  have g := good_run ls (good_init p n) h i a ha
  have : a.out.next ∈ (s.log.filter (·.1 = i)).map (·.2) := List.mem_map.2 ⟨_, List.mem_filter.2 ⟨hm, by simp⟩, rfl⟩
  rw [g.log] at this
  have hmem : a.out.next ∈ List.range a.out.next := by
    rw [← queue_in_order h ha]
    rcases List.mem_append.1 this with h | h
    · exact List.mem_append_left _ (List.mem_append_left _ h)
    · exact List.mem_append_left _ (List.mem_append_right _ (List.mem_of_mem_take h))
  simp at hmem

/-- **C142 (offered).** A handler of instance `i` has the activation of a ticket `k` that is in the stream.  If in no stretch of time of
length `toAll p B` the handlers of all instances have more than `B` updates, then whoever looks at the pools of any instance later
than that time finds the ticket, with its content, as long as it has not expired and nobody asked to deactivate it since. -/
theorem C142_offered_in_time (cd : Codec) (cfg : Config) (p : Par) (n B : Nat) (hT : 0 < p.outT) (hN : 0 < p.max) (hR : p.read < p.inT)
    (what : Nat × Nat → StateUpdate) (pre post later : List Delay.Lbl) (s0 s1 s2 : Delay.St) (i j : Nat) (a : Delay.Inst) (es1 es2 : List Ev)
    (m : GoMap Ticket) (h0 : (St.init p n).run p pre = some s0) (ha : s0.insts[i]? = some a)
    (hl : Traffic p n (toAll p B) B (pre ++ .out i .arrive :: post)) (hj : j < n)
    (hlook : Look cd cfg p n what j (pre ++ .out i .arrive :: post) later s1 s2 es1 es2 m) (hlate : s0.now + toAll p B < s1.now)
    (k v : Str) (c : Nat × Nat) (hc : c ∈ s0.log) (hcr : what c = ⟨.ticket, k, v⟩) (hact : what (i, a.out.next) = ⟨.activate, k, []⟩)
    (hone : ∀ e ∈ s2.log, (what e).key = k → (what e).cmd = .ticket → e = c)
    (hde : ∀ e ∈ s2.log, (what e).key = k → (what e).cmd = .deactivate → e ∈ s0.log) (hf : Fresh cd cfg (es1 ++ es2) k) :
    m.load k = some { cd.decT v with id := k } := by
  have hr : s0.run p (.out i .arrive :: post) = some s1 := by
    have := hlook.run1
    rw [run_append, h0] at this; exact this
  rcases C140_seen_in_time p n B hT hN hR pre post s0 s1 i a h0 ha hr hl j hj with h | h
  · omega
  · exact offered_core hlook hj h h0 (not_yet h0 ha) hc hcr hact hone hde hf

/-- **C142 (withdrawn).** The same for a deactivation, by a call or for a match: later than that time no instance offers the ticket,
unless it is activated again. -/
theorem C142_withdrawn_in_time (cd : Codec) (cfg : Config) (p : Par) (n B : Nat) (hT : 0 < p.outT) (hN : 0 < p.max) (hR : p.read < p.inT)
    (what : Nat × Nat → StateUpdate) (pre post later : List Delay.Lbl) (s0 s1 s2 : Delay.St) (i j : Nat) (a : Delay.Inst) (es1 es2 : List Ev)
    (m : GoMap Ticket) (h0 : (St.init p n).run p pre = some s0) (ha : s0.insts[i]? = some a)
    (hl : Traffic p n (toAll p B) B (pre ++ .out i .arrive :: post)) (hj : j < n)
    (hlook : Look cd cfg p n what j (pre ++ .out i .arrive :: post) later s1 s2 es1 es2 m) (hlate : s0.now + toAll p B < s1.now)
    (k : Str) (hact : what (i, a.out.next) = ⟨.deactivate, k, []⟩)
    (hno : ∀ e ∈ s2.log, (what e).key = k → (what e).cmd = .ticket ∨ (what e).cmd = .activate → e ∈ s0.log) : m.load k = none := by
  have hr : s0.run p (.out i .arrive :: post) = some s1 := by
    have := hlook.run1
    rw [run_append, h0] at this; exact this
  rcases C140_seen_in_time p n B hT hN hR pre post s0 s1 i a h0 ha hr hl j hj with h | h
  · omega
  · exact withdrawn_core hlook hj h h0 (not_yet h0 ha) hact hno

/-- **C142 (answered).** When a handler has the answer for an update, the update is in the stream: what `C142_offered_in_time` asks of
the creation is so as soon as `CreateTicket` is answered. -/
theorem C142_answered_is_stored (p : Par) (n : Nat) (ls : List Delay.Lbl) (s : Delay.St) (h : (St.init p n).run p ls = some s) (i r t : Nat)
    (a : Delay.Inst) (ha : s.insts[i]? = some a) (hr : (r, t) ∈ a.out.answered) : (i, r) ∈ s.log := by
  have g := good_run ls (good_init p n) h i a ha
  have : r ∈ (s.log.filter (·.1 = i)).map (·.2) := by
    rw [g.log]
    exact List.mem_append_left _ (List.mem_map.2 ⟨_, hr, rfl⟩)
  obtain ⟨⟨x, y⟩, hm, rfl⟩ := List.mem_map.1 this
  obtain ⟨h1, h2⟩ := List.mem_filter.1 hm
  simp only [decide_eq_true_eq] at h2
  rw [← h2]; exact h1

/-! A case: instance 0 has a ticket, instance 1 its activation; five ticks later somebody looks at the pools of instance 1. -/

private def exPar : Par := ⟨1, 0, 1, 3, 0, 0, 2⟩
private def exPre : List Delay.Lbl := [.out 0 .arrive, .out 0 .take, .store 0, .out 0 .done]
private def exPost : List Delay.Lbl :=
  [.out 1 .take, .store 1, .out 1 .done, .inn 0 .read, .inn 0 .push, .inn 0 .push, .inn 1 .read, .inn 1 .push, .inn 1 .push, .tick,
    .out 0 .fire, .out 1 .fire, .tick, .out 0 .fire, .out 1 .fire, .tick, .inn 0 .wake, .inn 0 .take, .inn 0 .take, .inn 0 .empty,
    .inn 0 .slept, .inn 1 .wake, .inn 1 .take, .inn 1 .take, .inn 1 .empty, .inn 1 .slept, .out 0 .fire, .out 1 .fire, .tick,
    .out 0 .fire, .out 1 .fire, .tick]
private def exWhat : Nat × Nat → StateUpdate
  | (0, _) => ⟨.ticket, kA, "x".toList⟩
  | _ => ⟨.activate, kA, []⟩
private def exCycle : Cycle := ⟨[], [kA], [], fun _ => 901, fun _ => 901000000000, fun _ => 901⟩
private def exEvs : List Ev := [.upd (exWhat (0, 0)), .upd (exWhat (1, 0)), .expire exCycle]

theorem traffic_of_few {p : Par} {n W B : Nat} {ls : List Delay.Lbl} (h : ls.countP isNew ≤ B) : Traffic p n W B ls := by
  intro a b c s t he _ _ _
  subst he
  simp only [List.countP_append] at h
  omega

private theorem exRun0 : ((St.init exPar 2).run exPar exPre).map (fun s => (s.now, s.log, s.insts[1]?.map (·.out.next))) =
    some (0, [(0, 0)], some 0) := by decide +kernel
private theorem exRun1 : ((St.init exPar 2).run exPar (exPre ++ .out 1 .arrive :: exPost)).map (fun s => (s.now, s.log)) =
    some (5, [(0, 0), (1, 0)]) := by decide +kernel
private theorem exDeeds : (St.init exPar 2).deeds exPar 1 (exPre ++ .out 1 .arrive :: exPost) = [some 0, some 1, none] := by decide +kernel

private theorem exLook : ∃ s1 m, Look toyCodec Config.default exPar 2 exWhat 1 (exPre ++ .out 1 .arrive :: exPost) [] s1 s1 exEvs [] m ∧
    s1.now = 5 ∧ s1.log = [(0, 0), (1, 0)] := by
  obtain ⟨s1, h1, e⟩ := Option.map_eq_some_iff.1 exRun1
  obtain ⟨e1, e2⟩ := Prod.mk.inj e
  refine ⟨s1, _, ⟨h1, rfl, ?_, .nil, ?_, ⟨_, candidates_isSnapshot _ (WF_runEvs WF_empty exEvs)⟩⟩, e1, e2⟩
  · rw [exDeeds, e2]
    exact .cons ⟨(0, 0), rfl, rfl⟩ (.cons ⟨(1, 0), rfl, rfl⟩ (.cons ⟨_, rfl⟩ .nil))
  · refine ⟨trivial, trivial, ⟨?_, ?_, ?_⟩, trivial⟩ <;> decide +kernel

example : ∃ s0 s1 m, (St.init exPar 2).run exPar exPre = some s0 ∧
    Look toyCodec Config.default exPar 2 exWhat 1 (exPre ++ .out 1 .arrive :: exPost) [] s1 s1 exEvs [] m ∧
    s0.now + toAll exPar 2 < s1.now ∧ m.load kA = some { toyCodec.decT "x".toList with id := kA } := by
  obtain ⟨s0, h0, e⟩ := Option.map_eq_some_iff.1 exRun0
  obtain ⟨e1, e2⟩ := Prod.mk.inj e
  obtain ⟨e2, e3⟩ := Prod.mk.inj e2
  obtain ⟨a, ha, e3⟩ := Option.map_eq_some_iff.1 e3
  obtain ⟨s1, m, hlook, hnow, hlog⟩ := exLook
  have hlate : s0.now + toAll exPar 2 < s1.now := by rw [e1, hnow]; decide
  refine ⟨s0, s1, m, h0, hlook, hlate, ?_⟩
  refine C142_offered_in_time toyCodec Config.default exPar 2 2 (by decide) (by decide) (by decide) exWhat exPre exPost [] s0 s1 s1 1 1 a exEvs []
    m h0 ha (traffic_of_few (by decide)) (by decide) hlook hlate kA "x".toList (0, 0) (by rw [e2]; simp) rfl (by rw [e3]; rfl) ?_ ?_ ?_
  · rw [hlog]; decide +kernel
  · rw [hlog, e2]; decide +kernel
  · intro cy hcy
    have : cy = exCycle := by simpa [exEvs] using hcy
    subst this
    refine ⟨by decide +kernel, by decide +kernel, ?_⟩
    decide +kernel

/-! The same execution, where instance 1 has a deactivation. -/

private def exWhatD : Nat × Nat → StateUpdate
  | (0, _) => ⟨.ticket, kA, "x".toList⟩
  | _ => ⟨.deactivate, kA, []⟩
private def exEvsD : List Ev := [.upd (exWhatD (0, 0)), .upd (exWhatD (1, 0)), .expire { exCycle with visI := [kA] }]

example : ∃ s0 s1 m, (St.init exPar 2).run exPar exPre = some s0 ∧
    Look toyCodec Config.default exPar 2 exWhatD 1 (exPre ++ .out 1 .arrive :: exPost) [] s1 s1 exEvsD [] m ∧
    s0.now + toAll exPar 2 < s1.now ∧ m.load kA = none := by
  obtain ⟨s0, h0, e⟩ := Option.map_eq_some_iff.1 exRun0
  obtain ⟨e1, e2⟩ := Prod.mk.inj e
  obtain ⟨e2, e3⟩ := Prod.mk.inj e2
  obtain ⟨a, ha, e3⟩ := Option.map_eq_some_iff.1 e3
  obtain ⟨s1, h1, e⟩ := Option.map_eq_some_iff.1 exRun1
  obtain ⟨hnow, hlog⟩ := Prod.mk.inj e
  have hlook : ∃ m, Look toyCodec Config.default exPar 2 exWhatD 1 (exPre ++ .out 1 .arrive :: exPost) [] s1 s1 exEvsD [] m := by
    refine ⟨_, ⟨h1, rfl, ?_, .nil, ?_, ⟨_, candidates_isSnapshot _ (WF_runEvs WF_empty exEvsD)⟩⟩⟩
    · rw [exDeeds, hlog]
      exact .cons ⟨(0, 0), rfl, rfl⟩ (.cons ⟨(1, 0), rfl, rfl⟩ (.cons ⟨_, rfl⟩ .nil))
    · refine ⟨trivial, trivial, ⟨?_, ?_, ?_⟩, trivial⟩ <;> decide +kernel
  obtain ⟨m, hlook⟩ := hlook
  have hlate : s0.now + toAll exPar 2 < s1.now := by rw [e1, hnow]; decide
  refine ⟨s0, s1, m, h0, hlook, hlate, ?_⟩
  refine C142_withdrawn_in_time toyCodec Config.default exPar 2 2 (by decide) (by decide) (by decide) exWhatD exPre exPost [] s0 s1 s1 1 1 a
    exEvsD [] m h0 ha (traffic_of_few (by decide)) (by decide) hlook hlate kA (by rw [e3]; rfl) ?_
  rw [hlog, e2]; decide +kernel

/-- The default settings (config.go:99-102), if batches take at most 20 ms, reads 100 ms and cycles 200 ms, and there are at most 1000
updates in 3 seconds: an activated player is in the pools of all instances, and a matched one in none, after 3 seconds. -/
example : toAll ⟨500, 20, 50, 1500, 100, 200, 10000⟩ 1000 < 3000 := by decide

end OM.Props
