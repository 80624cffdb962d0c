import Verif.Lemmas.RelayTerm
import Verif.Props.Snapshot
import Mathlib.Data.List.Perm.Subperm
/-! # Properties C43–C49, C71, C72: relaying matches -/
namespace OM.Props
open OM.Spec OM.Relay

/-! ## Sample data -/

def tk (id : String) : Ticket := ⟨id.toList, none, none, []⟩

def duel (id a b : String) : Option Match :=
  some ⟨id.toList, [("red".toList, ⟨[], none, [tk a], []⟩), ("blue".toList, ⟨[], none, [tk b], []⟩)], []⟩

theorem duel_red (i a b : String) : InMatch (tk a) (duel i a b) :=
  ⟨_, rfl, ("red".toList, ⟨[], none, [tk a], []⟩), List.mem_cons_self, List.mem_cons_self⟩

theorem duel_blue (i a b : String) : InMatch (tk b) (duel i a b) :=
  ⟨_, rfl, ("blue".toList, ⟨[], none, [tk b], []⟩), List.mem_cons_of_mem _ List.mem_cons_self, List.mem_cons_self⟩

/-- Two MMFs that end normally and one that cannot be invoked. -/
def sampleMmfs : List Mmf :=
  [⟨true, [duel "m1" "1-1" "2-1", duel "m2" "3-1" "4-1"], true⟩, ⟨false, [], true⟩, ⟨true, [duel "m3" "5-1" "6-1"], true⟩]

/-- A match goroutine up to its hand-over: two updates queued, two answers. -/
def upToSend (j : Nat) : List Label := List.replicate 6 (.go j true)

/-- A complete run in which the handler returns with everything delivered. -/
def sampleRun : List Label :=
  [.recv 0 (rostersOf (duel "m1" "1-1" "2-1")), .recv 2 (rostersOf (duel "m3" "5-1" "6-1")).reverse,
   .recv 0 (rostersOf (duel "m2" "3-1" "4-1"))] ++ upToSend 2 ++ upToSend 0 ++
  [.hand 2, .recv 2 [], .fanEnd, .hand 0, .go 2 true, .fanEnd, .go 0 false] ++ upToSend 1 ++
  [.recv 0 [], .hand 1, .go 1 true, .tdDone 0, .tdDone 2, .mainClose, .fanEnd, .mainReturn]

theorem sampleRun_ok : ∃ s, run false sampleMmfs (init sampleMmfs) sampleRun = some s ∧
    s.out = [duel "m2" "3-1" "4-1", duel "m1" "1-1" "2-1", duel "m3" "5-1" "6-1"] ∧ s.main = .returned := by
  cases h : run false sampleMmfs (init sampleMmfs) sampleRun with
  | none => exact absurd (congrArg Option.isSome h) (by decide +kernel)
  | some s =>
    have h1 : (run false sampleMmfs (init sampleMmfs) sampleRun).map (·.out) =
      some [duel "m2" "3-1" "4-1", duel "m1" "1-1" "2-1", duel "m3" "5-1" "6-1"] := by decide +kernel
    have h2 : (run false sampleMmfs (init sampleMmfs) sampleRun).map (·.main) = some .returned := by decide +kernel
    rw [h] at h1 h2
    exact ⟨s, rfl, Option.some.inj h1, Option.some.inj h2⟩

/-! ## C43 -/

private theorem subperm_map {α β : Type} (f : α → β) {a b : List α} (h : a.Subperm b) : (a.map f).Subperm (b.map f) := by
  obtain ⟨l, h1, h2⟩ := h
  exact ⟨l.map f, h1.map f, h2.map f⟩

/-- **C43.** Whatever the schedule, the matches sent to the matchmaker (with the one being
sent) are, with multiplicity, among those the invoked MMFs returned. -/
theorem C43_faithful_at_most_once (wait : Bool) (fs : List Mmf) (ls : List Label) (s : St)
    (hr : run wait fs (init fs) ls = some s) : (handed s).Subperm (returned fs) := by
  have h := inv_run (inv_init fs) hr
  have h1 : (handedKeys s).Subperm (allKeys (·.starts) fs) :=
    List.subperm_of_subset (handedKeys_nodup h) (handedKeys_sub h)
  have h2 := subperm_map (lookup fs) h1
  rw [handedKeys_lookup h, allKeys_lookup] at h2
  have h3 := subperm_map (fun o => o.getD none) h2
  simpa [List.map_map, Function.comp_def, returned] using h3

/-- `stream.Send` calls do not overlap: between two hand-overs the first send ends. -/
theorem C43_sends_do_not_overlap (wait : Bool) (fs : List Mmf) (l1 mid l2 : List Label) (j j' : Nat) (s s' : St)
    (hr : run wait fs s (l1 ++ .hand j :: mid ++ .hand j' :: l2) = some s') : .fanEnd ∈ mid := by
  have app : ∀ (a b : List Label) (s s' : St), run wait fs s (a ++ b) = some s' →
      ∃ s1, run wait fs s a = some s1 ∧ run wait fs s1 b = some s' := by
    intro a
    induction a with
    | nil => intro b s s' h; exact ⟨s, rfl, h⟩
    | cons x a ih =>
      intro b s s' h
      simp only [List.cons_append, run, Option.bind_eq_some_iff] at h
      obtain ⟨s1, h1, h2⟩ := h
      obtain ⟨s2, h3, h4⟩ := ih b s1 s' h2
      exact ⟨s2, by simp only [run, h1, Option.bind_some, h3], h4⟩
  have busy : ∀ (a : List Label) (s s' : St) (n : Nat) (m : Option Match), .fanEnd ∉ a → s.fan = .busy n m →
      run wait fs s a = some s' → s'.fan = .busy n m := by
    intro a
    induction a with
    | nil => intro s s' n m _ hf h; cases h; exact hf
    | cons x a ih =>
      intro s s' n m hn hf h
      simp only [run, Option.bind_eq_some_iff] at h
      obtain ⟨s1, h1, h2⟩ := h
      simp only [List.mem_cons, not_or] at hn
      refine ih s1 s' n m hn.2 ?_ h2
      unfold step at h1
      split at h1
      · cases h1
      cases x with
      | recv i ord =>
        simp only [recvStep] at h1
        repeat' split at h1
        all_goals first | (cases h1; exact hf) | cases h1
      | tdDone i => simp only at h1; repeat' split at h1
                    all_goals first | (cases h1; exact hf) | cases h1
      | go i b => simp only at h1; repeat' split at h1
                  all_goals first | (cases h1; exact hf) | cases h1
      | hand i =>
        simp only [hf] at h1
        split at h1
        · split at h1
          · rename_i hc; exact absurd hc.2 (by simp)
          · cases h1
        · cases h1
      | fanEnd => exact absurd rfl hn.1
      | mainClose => simp only at h1; split at h1
                     all_goals first | (cases h1; exact hf) | cases h1
      | fanClose => simp only [hf] at h1; split at h1
                    · rename_i hc; exact absurd hc.2 (by simp)
                    · cases h1
      | mainReturn => simp only at h1; split at h1
                      all_goals first | (cases h1; exact hf) | cases h1
  by_contra hno
  rw [List.append_assoc] at hr
  obtain ⟨s1, -, h2⟩ := app _ _ _ _ hr
  rw [List.cons_append] at h2
  simp only [run, Option.bind_eq_some_iff] at h2
  obtain ⟨s2, h3, h4⟩ := h2
  obtain ⟨s3, h5, h6⟩ := app _ _ _ _ h4
  have hb : ∃ m, s2.fan = .busy j m := by
    simp only [step] at h3
    split at h3
    · cases h3
    · split at h3
      · split at h3
        · cases h3; exact ⟨_, rfl⟩
        · cases h3
      · cases h3
  obtain ⟨m, hb⟩ := hb
  have hb' := busy _ _ _ _ _ hno hb h5
  simp only [run, Option.bind_eq_some_iff] at h6
  obtain ⟨s4, h7, -⟩ := h6
  simp only [step, hb'] at h7
  split at h7
  · cases h7
  · split at h7
    · split at h7
      · rename_i hc; exact absurd hc.2 (by simp)
      · cases h7
    · cases h7

/-- Both runs above: three matches relayed. -/
example : ∃ s, run false sampleMmfs (init sampleMmfs) sampleRun = some s ∧ (handed s).length = 3 := by
  obtain ⟨s, h, ho, -⟩ := sampleRun_ok
  refine ⟨s, h, ?_⟩
  have h2 : (run false sampleMmfs (init sampleMmfs) sampleRun).map (fun s => decide ((handed s).length = 3)) = some true := by
    decide +kernel
  rw [h] at h2
  simpa using h2

/-! ## C44 -/

private theorem handed_goro {fs : List Mmf} {s : St} (h : Inv fs s) {m : Option Match} (hm : m ∈ handed s) :
    ∃ (j : Nat) (g : Goro), s.gos[j]? = some g ∧ g.m = m ∧ g.pc.past = true := by
  have h1 : some m ∈ (s.sent ++ s.fan.inFlight).map fun j => (s.gos.map (·.m))[j]? := by
    have : (handed s).map some = (s.sent ++ s.fan.inFlight).map fun j => (s.gos.map (·.m))[j]? := by
      simp only [handed, List.map_append, h.out]
      congr 1
      cases hf : s.fan with
      | busy j m => simp only [Fan.inFlight, List.map_cons, List.map_nil, h.busy j m hf]
      | _ => rfl
    rw [← this]; exact List.mem_map_of_mem hm
  obtain ⟨j, hj, he⟩ := List.mem_map.1 h1
  obtain ⟨g, hg, hp⟩ := (h.sentPast j).1 hj
  refine ⟨j, g, hg, ?_, hp⟩
  simpa [hg] using he

private theorem mem_collect {t : Ticket} {m : Option Match} (ht : InMatch t m) {ord : GoMap Roster}
    (hp : ord.Perm (rostersOf m)) : t.id ∈ collectIds ord := by
  obtain ⟨x, rfl, e, he, hte⟩ := ht
  unfold collectIds
  rw [List.mem_flatMap]
  exact ⟨e, hp.mem_iff.2 (by simpa [rostersOf] using he), List.mem_map_of_mem hte⟩

/-- **C44.** Whenever a match is sent or being sent to the matchmaker, for every ticket of
every roster of it a deactivation has been put on the outgoing queue and, after that,
the response to it received. -/
theorem C44_deactivated_before_returned (wait : Bool) (fs : List Mmf) (ls : List Label) (s : St)
    (hr : run wait fs (init fs) ls = some s) (m : Option Match) (hm : m ∈ handed s) (t : Ticket) (ht : InMatch t m) :
    ∃ j k, [QEv.queue j k ⟨.deactivate, t.id, []⟩, QEv.answer j k].Sublist s.log := by
  have h := inv_run (inv_init fs) hr
  obtain ⟨j, g, hg, rfl, hp⟩ := handed_goro h hm
  obtain ⟨f, ms, -, -, -, -, -, ord, ho, hids⟩ := h.origin g (List.mem_of_getElem? hg)
  have hmem := mem_collect ht ho
  rw [← hids] at hmem
  obtain ⟨k, hk⟩ := List.mem_iff_getElem?.1 hmem
  have hl := (List.getElem?_eq_some_iff.1 hk).1
  have := h.logged j g hg k t.id hk
  refine ⟨j, k, this.2 ?_⟩
  revert hp
  cases g.pc <;> simp [Pc.past, Pc.answeredUpTo, hl]

example : ∃ s, run false sampleMmfs (init sampleMmfs) sampleRun = some s ∧
    duel "m1" "1-1" "2-1" ∈ handed s ∧ InMatch (tk "2-1") (duel "m1" "1-1" "2-1") := by
  obtain ⟨s, h, ho, -⟩ := sampleRun_ok
  refine ⟨s, h, by simp [handed, ho], duel_blue _ _ _⟩

/-! ## C45 -/

/-- What C45 asks. -/
def C45_statement : Prop := ∀ (wait : Bool) (fs : List Mmf) (ls : List Label) (s : St),
  run wait fs (init fs) ls = some s → s.main = .returned → (finished fs).Subperm s.out

def oneMmf : List Mmf := [⟨true, [duel "m1" "1-1" "2-1"], true⟩]

/-- **C45 is false of the code**: the handler does not wait for the fan-in goroutine, which
can still be inside `stream.Send` with the last match when the handler returns. -/
theorem C45_all_delivered_refuted : ¬ C45_statement := by
  intro h
  let ls : List Label := [.recv 0 (rostersOf (duel "m1" "1-1" "2-1"))] ++ upToSend 0 ++
    [.hand 0, .go 0 true, .recv 0 [], .tdDone 0, .mainClose, .mainReturn]
  have h1 : (run false oneMmf (init oneMmf) ls).map (fun s => (s.main, s.out)) = some (.returned, []) := by decide +kernel
  obtain ⟨s, hs, he⟩ := Option.map_eq_some_iff.1 h1
  rw [Prod.mk.injEq] at he
  have := (h false oneMmf ls s hs he.1).length_le
  rw [he.2] at this
  exact absurd this (by decide)

/-- **C45 (what holds).** Partial: full C45 has `s.out` for `handed s`.  When the call
returns, every match of every MMF that ended normally has been sent or is the one being
sent. -/
theorem C45_all_delivered_or_in_flight_partial (wait : Bool) (fs : List Mmf) (ls : List Label) (s : St)
    (hr : run wait fs (init fs) ls = some s) (hm : s.main = .returned) :
    (finished fs).Subperm (handed s) ∧ (handed s).length ≤ s.out.length + 1 := by
  have h := inv_run (inv_init fs) hr
  refine ⟨?_, ?_⟩
  · have hsub : ∀ x ∈ allKeys (fun f => f.starts && f.eof) fs, x ∈ handedKeys s := by
      intro x hx
      obtain ⟨f, hf, hp, hk⟩ := mem_allKeys.1 hx
      simp only [Bool.and_eq_true] at hp
      have hlt : x.1 < s.mmfs.length := by rw [h.len]; exact (List.getElem?_eq_some_iff.1 hf).1
      have hms := List.getElem?_eq_getElem hlt
      have hd := h.main (by rw [hm]; simp) _ (List.getElem_mem hlt)
      obtain ⟨e1, e2⟩ := (h.phases x.1 _ f hms hf).2.2.2 hd hp.1
      have hc := h.complete x.1 _ hms x.2 (by rw [e1]; exact hk)
      obtain ⟨g, hg, hgk⟩ := List.mem_map.1 hc
      have hpc := e2 hp.2 g hg (congrArg Prod.fst hgk)
      obtain ⟨j, hj⟩ := List.mem_iff_getElem?.1 hg
      refine List.mem_filterMap.2 ⟨j, (h.sentPast j).2 ⟨g, hj, by rw [hpc]; rfl⟩, ?_⟩
      simp [hj, hgk]
    have h1 := subperm_map (lookup fs) (List.subperm_of_subset (nodup_allKeys _ fs) hsub)
    rw [handedKeys_lookup h, allKeys_lookup] at h1
    have h3 := subperm_map (fun o => o.getD none) h1
    simpa [List.map_map, Function.comp_def, finished] using h3
  · unfold handed; cases s.fan <;> simp

example : ∃ s, run false sampleMmfs (init sampleMmfs) sampleRun = some s ∧ s.main = .returned ∧
    (finished sampleMmfs).length = 3 := by
  obtain ⟨s, h, -, hm⟩ := sampleRun_ok
  exact ⟨s, h, hm, by decide⟩

/-! ## C46 -/

/-- What C46 asks. -/
def C46_statement : Prop := ∀ (wait : Bool) (fs : List Mmf) (ls : List Label) (s : St),
  run wait fs (init fs) ls = some s → s.crashed = false

/-- **C46 is false of the code**: a match without tickets makes
`ticketIdsToDeactivate[len(ticketIdsToDeactivate)-1]` panic, with either setting of the
wait option. -/
theorem C46_empty_match_refuted : ¬ C46_statement ∧
    ∀ wait, ∃ ls s, run wait [⟨true, [none], true⟩] (init [⟨true, [none], true⟩]) ls = some s ∧ s.crashed = true := by
  have key : ∀ wait, ∃ ls s, run wait [⟨true, [none], true⟩] (init [⟨true, [none], true⟩]) ls = some s ∧ s.crashed = true := by
    intro wait
    cases wait with
    | true =>
      have : (run true [⟨true, [none], true⟩] (init [⟨true, [none], true⟩])
        [.recv 0 [], .go 0 true, .go 0 true, .go 0 true]).map (·.crashed) = some true := by decide +kernel
      obtain ⟨s, h1, h2⟩ := Option.map_eq_some_iff.1 this
      exact ⟨_, s, h1, h2⟩
    | false =>
      have : (run false [⟨true, [none], true⟩] (init [⟨true, [none], true⟩])
        [.recv 0 [], .go 0 true, .go 0 true, .hand 0, .fanEnd, .go 0 true]).map (·.crashed) = some true := by decide +kernel
      obtain ⟨s, h1, h2⟩ := Option.map_eq_some_iff.1 this
      exact ⟨_, s, h1, h2⟩
  refine ⟨fun h => ?_, key⟩
  obtain ⟨ls, s, h1, h2⟩ := key true
  rw [h _ _ _ _ h1] at h2; cases h2

/-- A second way: the stream of an MMF fails after a match.  Its goroutine returns without
waiting for the match goroutine, the handler finishes, `matchChan` is closed, and the
match goroutine then sends on a closed channel. -/
theorem C46_failing_stream_refuted : ∃ fs ls s, (∀ f ∈ fs, ∀ m ∈ f.results, ∃ t, InMatch t m) ∧
    run false fs (init fs) ls = some s ∧ s.main = .returned ∧ s.crashed = true := by
  let fs : List Mmf := [⟨true, [duel "m1" "1-1" "2-1"], false⟩]
  have : (run false fs (init fs) ([.recv 0 (rostersOf (duel "m1" "1-1" "2-1")), .recv 0 [], .mainClose, .mainReturn, .fanClose] ++
      upToSend 0 ++ [.go 0 true])).map (fun s => (s.main, s.crashed)) = some (.returned, true) := by decide +kernel
  obtain ⟨s, h1, h2⟩ := Option.map_eq_some_iff.1 this
  rw [Prod.mk.injEq] at h2
  refine ⟨fs, _, s, ?_, h1, h2⟩
  intro f hf m hm
  simp only [fs, List.mem_singleton] at hf
  subst hf
  simp only [List.mem_singleton] at hm
  subst hm
  exact ⟨_, duel_red _ _ _⟩

/-- **C46 (what holds).** Partial: full C46 has neither hypothesis.  If every match names a
ticket and no stream fails after its first match, om-core does not panic. -/
theorem C46_no_crash_partial (wait : Bool) (fs : List Mmf)
    (htk : ∀ f ∈ fs, f.starts = true → ∀ m ∈ f.results, ∃ t, InMatch t m)
    (hend : ∀ f ∈ fs, f.starts = true → f.eof = false → f.results = [])
    (ls : List Label) (s : St) (hr : run wait fs (init fs) ls = some s) : s.crashed = false := by
  refine run_induct (P := fun s => s.crashed = false) ?_ (inv_init fs) rfl hr
  intro s l s' h hc hs
  have hids : ∀ g ∈ s.gos, g.ids.length ≠ 0 := by
    intro g hg h0
    obtain ⟨f, ms, a, -, c, -, e, ord, ho, hi⟩ := h.origin g hg
    obtain ⟨t, ht⟩ := htk f (List.mem_of_getElem? a) e g.m (List.mem_of_getElem? c)
    have := mem_collect ht ho
    rw [← hi, List.eq_nil_of_length_eq_zero h0] at this
    cases this
  have hopen : ∀ g ∈ s.gos, g.pc = .send → s.fan ≠ .closed := by
    intro g hg hpc hf
    obtain ⟨f, ms, a, b, c, -, e, -⟩ := h.origin g hg
    have hd := h.main (h.fan hf) ms (List.mem_of_getElem? b)
    have := (h.phases g.mmf ms f b a).2.2.2 hd e
    cases he : f.eof with
    | true => have := this.2 he g hg rfl; rw [hpc] at this; cases this
    | false => rw [hend f (List.mem_of_getElem? a) e he] at c; simp at c
  unfold step at hs
  split at hs
  · cases hs
  cases l with
  | recv i ord =>
    simp only [recvStep] at hs
    repeat' split at hs
    all_goals first | (cases hs; exact hc) | cases hs
  | tdDone i => simp only at hs; repeat' split at hs
                all_goals first | (cases hs; exact hc) | cases hs
  | go j b =>
    simp only at hs
    split at hs
    · rename_i g hj
      have hg := List.mem_of_getElem? hj
      split at hs
      · cases hs
      · rename_i hgo
        exfalso
        unfold goStep at hgo
        split at hgo
        · split at hgo <;> cases hgo
        · split at hgo <;> cases hgo
        · split at hgo
          · rename_i h0; exact hids g hg h0
          · cases hgo
        · rename_i hpc
          split at hgo
          · rename_i h0; exact hopen g hg hpc h0
          · cases hgo
        · split at hgo
          · rename_i h0; exact hids g hg h0
          · cases hgo
        · cases hgo
      · cases hs; exact hc
    · cases hs
  | hand i => simp only at hs; repeat' split at hs
              all_goals first | (cases hs; exact hc) | cases hs
  | fanEnd => simp only at hs; split at hs
              all_goals first | (cases hs; exact hc) | cases hs
  | mainClose => simp only at hs; split at hs
                 all_goals first | (cases hs; exact hc) | cases hs
  | fanClose => simp only at hs; split at hs
                all_goals first | (cases hs; exact hc) | cases hs
  | mainReturn => simp only at hs; split at hs
                  all_goals first | (cases hs; exact hc) | cases hs

example : (∀ f ∈ sampleMmfs, f.starts = true → ∀ m ∈ f.results, ∃ t, InMatch t m) ∧
    (∀ f ∈ sampleMmfs, f.starts = true → f.eof = false → f.results = []) := by
  have duelOk : ∀ i a b, ∃ t, InMatch t (duel i a b) := fun i a b => ⟨_, duel_red i a b⟩
  constructor
  · intro f hf _ m hm
    simp only [sampleMmfs, List.mem_cons, List.not_mem_nil, or_false] at hf
    rcases hf with rfl | rfl | rfl
    · simp only [List.mem_cons, List.not_mem_nil, or_false] at hm
      rcases hm with rfl | rfl <;> exact duelOk _ _ _
    · cases hm
    · simp only [List.mem_cons, List.not_mem_nil, or_false] at hm
      subst hm; exact duelOk _ _ _
  · intro f hf _ he
    simp only [sampleMmfs, List.mem_cons, List.not_mem_nil, or_false] at hf
    rcases hf with rfl | rfl | rfl <;> cases he

/-! ## C47 -/

/-- What C47 asks, in terms of what the cache check of the match's goroutine saw. -/
def C47_statement : Prop := ∀ (fs : List Mmf) (ls : List Label) (s : St),
  run true fs (init fs) ls = some s → ∀ j ∈ s.sent, ∀ g, s.gos[j]? = some g → g.obs = some true

/-- **C47 is false of the code**: `deactivationCheck` looks at the cache once, 100 ms later,
and returns whatever it saw. -/
theorem C47_wait_refuted : ¬ C47_statement := by
  intro h
  have h1 : (run true oneMmf (init oneMmf) ([.recv 0 (rostersOf (duel "m1" "1-1" "2-1"))] ++ upToSend 0 ++
    [.go 0 false, .hand 0, .fanEnd])).map (fun s => (s.sent, s.gos.map (·.obs))) = some ([0], [some false]) := by decide +kernel
  obtain ⟨s, hs, he⟩ := Option.map_eq_some_iff.1 h1
  rw [Prod.mk.injEq] at he
  have h2 := h oneMmf _ s hs 0 (by rw [he.1]; simp)
  cases hg : s.gos with
  | nil => rw [hg] at he; simp at he
  | cons g gs =>
    have := h2 g (by simp [hg])
    rw [hg, List.map_cons, this] at he
    simp at he

/-- **C47 (what holds).** Partial: full C47 has `some true`.  With the wait option on, no
match is sent before its goroutine has looked at the local cache once after the
deactivations were answered. -/
theorem C47_one_check_before_return_partial (fs : List Mmf) (ls : List Label) (s : St)
    (hr : run true fs (init fs) ls = some s) (j : Nat) (hj : j ∈ s.sent) :
    ∃ g, s.gos[j]? = some g ∧ g.obs.isSome = true := by
  have h := inv_run (inv_init fs) hr
  obtain ⟨g, hg, hp⟩ := (h.sentPast j).1 (List.mem_append_left _ hj)
  refine ⟨g, hg, ?_⟩
  have key := run_induct (P := fun s => ∀ g ∈ s.gos, (g.pc = .send ∨ g.pc.past = true) → g.obs.isSome = true)
    (wait := true) ?_ (inv_init fs) (by simp [init]) hr
  · exact key g (List.mem_of_getElem? hg) (Or.inr hp)
  · intro s l s' _ hI hs
    unfold step at hs
    split at hs
    · cases hs
    cases l with
    | recv i ord =>
      simp only [recvStep] at hs
      repeat' split at hs
      any_goals cases hs
      · intro g hg
        simp only [List.mem_append, List.mem_singleton] at hg
        rcases hg with hg | rfl
        · exact hI g hg
        · rintro (hc | hc) <;> cases hc
      · exact hI
      · exact hI
    | tdDone i =>
      simp only at hs
      repeat' split at hs
      any_goals cases hs
      exact hI
    | go j b =>
      simp only at hs
      split at hs
      · rename_i g hj
        have hg := List.mem_of_getElem? hj
        split at hs
        · cases hs
        · cases hs; exact hI
        · rename_i g' q hgo
          cases hs
          intro x hx
          rcases mem_set hx with rfl | hx
          · unfold goStep at hgo
            split at hgo
            · split at hgo <;> cases hgo <;> (rintro (hc | hc) <;> cases hc)
            · split at hgo
              · cases hgo; rintro (hc | hc) <;> cases hc
              · cases hgo; rintro (hc | hc) <;> cases hc
            · split at hgo
              · cases hgo
              · cases hgo; intro _; rfl
            · split at hgo <;> cases hgo
            · split at hgo
              · cases hgo
              · cases hgo; intro _; rfl
            · cases hgo
          · exact hI x hx
      · cases hs
    | hand i =>
      simp only at hs
      split at hs
      · rename_i g hj
        split at hs
        · rename_i hc
          cases hs
          intro x hx
          rcases mem_set hx with rfl | hx
          · intro _; exact hI g (List.mem_of_getElem? hj) (Or.inl hc.1)
          · exact hI x hx
        · cases hs
      · cases hs
    | fanEnd =>
      simp only at hs
      split at hs
      · cases hs; exact hI
      · cases hs
    | mainClose =>
      simp only at hs
      split at hs
      · cases hs; exact hI
      · cases hs
    | fanClose =>
      simp only at hs
      split at hs
      · cases hs; exact hI
      · cases hs
    | mainReturn =>
      simp only at hs
      split at hs
      · cases hs; exact hI
      · cases hs

example : ∃ s, run true oneMmf (init oneMmf) ([.recv 0 (rostersOf (duel "m1" "1-1" "2-1"))] ++ upToSend 0 ++
    [.go 0 true, .hand 0, .fanEnd]) = some s ∧ 0 ∈ s.sent := by
  have h1 : (run true oneMmf (init oneMmf) ([.recv 0 (rostersOf (duel "m1" "1-1" "2-1"))] ++ upToSend 0 ++
    [.go 0 true, .hand 0, .fanEnd])).map (·.sent) = some [0] := by decide +kernel
  obtain ⟨s, hs, he⟩ := Option.map_eq_some_iff.1 h1
  exact ⟨s, hs, by rw [he]; simp⟩

/-! ## C48 -/

private theorem markers_append (h1 h2 : List StateUpdate) (k : Str) : markers (h1 ++ h2) k = markers h1 k ++ markers h2 k := by
  simp [markers]

/-- After a deactivation, without a later activation, `k` is not active. -/
private theorem not_active (h1 h2 : List StateUpdate) (k : Str) (hno : ∀ w ∈ h2, w.key = k → w.cmd ≠ .activate) :
    ¬ Active (h1 ++ ⟨.deactivate, k, []⟩ :: h2) k := by
  rintro ⟨-, hl⟩
  have e : markers (h1 ++ ⟨.deactivate, k, []⟩ :: h2) k = markers h1 k ++ .deactivate :: markers h2 k := by
    simp [markers]
  rw [e, List.getLast?_append_cons] at hl
  have hm := List.mem_of_getLast? hl
  rcases List.mem_cons.1 hm with hm | hm
  · cases hm
  · simp only [markers, List.mem_map, List.mem_filter, decide_eq_true_eq] at hm
    obtain ⟨w, ⟨hw, hk, -⟩, hc⟩ := hm
    exact hno w hw hk hc

/-- **C48.** For every ticket of every match sent to the matchmaker an update has been put
on the outgoing queue such that, on any instance that has applied it, the ticket is not a
pool candidate as long as no later update activates it — whatever else was applied
before and after, expiration cycles included. -/
theorem C48_matched_tickets_leave_pools (wait : Bool) (fs : List Mmf) (ls : List Label) (s : St)
    (hr : run wait fs (init fs) ls = some s) (m : Option Match) (hm : m ∈ handed s) (t : Ticket) (ht : InMatch t m) :
    ∃ j k u, QEv.queue j k u ∈ s.log ∧
      ∀ (cd : Codec) (cfg : Config) (es1 es2 : List Ev), ValidEvs cd cfg Cache.empty (es1 ++ .upd u :: es2) →
        (∀ w ∈ updatesOf es2, w.key = t.id → w.cmd ≠ .activate) →
        (candidates (runEvs cd cfg Cache.empty (es1 ++ .upd u :: es2))).load t.id = none := by
  obtain ⟨j, k, hsub⟩ := C44_deactivated_before_returned wait fs ls s hr m hm t ht
  refine ⟨j, k, ⟨.deactivate, t.id, []⟩, hsub.subset (by simp), ?_⟩
  intro cd cfg es1 es2 hv hno
  cases hl : (candidates (runEvs cd cfg Cache.empty (es1 ++ .upd ⟨.deactivate, t.id, []⟩ :: es2))).load t.id with
  | none => rfl
  | some x =>
    have h1 := C23_expiration_only_drops cd cfg _ t.id x hv hl
    have h2 := ((C24_life_cycle cd (updatesOf (es1 ++ .upd ⟨.deactivate, t.id, []⟩ :: es2)) t.id).2.1).1 (by rw [h1]; simp)
    have e : updatesOf (es1 ++ .upd ⟨.deactivate, t.id, []⟩ :: es2) = updatesOf es1 ++ ⟨.deactivate, t.id, []⟩ :: updatesOf es2 := by
      simp [updatesOf]
    rw [e] at h2
    exact absurd h2 (not_active _ _ _ hno)

/-- An instance where the ticket was an active candidate before the update. -/
example : let es1 : List Ev := [.upd ⟨.ticket, "2-1".toList, "x".toList⟩, .upd ⟨.activate, "2-1".toList, []⟩]
    let es2 : List Ev := [.upd ⟨.assign, "2-1".toList, "y".toList⟩]
    ValidEvs toyCodec Config.default Cache.empty (es1 ++ .upd ⟨.deactivate, "2-1".toList, []⟩ :: es2) ∧
    (∀ w ∈ updatesOf es2, w.key = "2-1".toList → w.cmd ≠ .activate) ∧
    (candidates (runEvs toyCodec Config.default Cache.empty es1)).load "2-1".toList ≠ none := by
  refine ⟨⟨trivial, trivial, trivial, trivial, trivial⟩, ?_, by decide⟩
  intro w hw _
  simp [updatesOf] at hw
  subst hw; simp

/-! ## C49 -/

/-- What C49 asks. -/
def C49_statement : Prop := ∀ (wait : Bool) (fs : List Mmf) (ls : List Label) (s : St),
  run wait fs (init fs) ls = some s → (∃ f ∈ fs, f.starts = false ∨ f.eof = false) →
  ∀ e, status s = some e → e ≠ none

/-- **C49 is false of the code**: the handler returns nil although its only MMF could not be
invoked, or failed. -/
theorem C49_failures_reported_refuted : ¬ C49_statement ∧
    (∃ ls s, run false [⟨true, [], false⟩] (init [⟨true, [], false⟩]) ls = some s ∧ status s = some none) := by
  constructor
  · intro h
    have h1 : (run false [⟨false, [], true⟩] (init [⟨false, [], true⟩]) [.mainClose, .mainReturn]).map status =
      some (some none) := by decide +kernel
    obtain ⟨s, hs, he⟩ := Option.map_eq_some_iff.1 h1
    exact h false _ _ s hs ⟨_, List.mem_singleton.2 rfl, Or.inl rfl⟩ none he rfl
  · have h1 : (run false [⟨true, [], false⟩] (init [⟨true, [], false⟩]) [.recv 0 [], .mainClose, .mainReturn]).map status =
      some (some none) := by decide +kernel
    obtain ⟨s, hs, he⟩ := Option.map_eq_some_iff.1 h1
    exact ⟨_, s, hs, he⟩

/-- **C49 (what holds).** Partial: nothing an MMF does is reported; only a request without
profile or without MMFs is refused, with InvalidArgument. -/
theorem C49_only_invalid_requests_refused_partial (p : Option Profile) (fs : List Mmf) :
    (validate p fs = none ↔ p ≠ none ∧ fs ≠ []) ∧
    (∀ e, validate p fs = some e → e.code = .invalidArgument) := by
  unfold validate
  constructor
  · split
    · simp_all
    · split <;> simp_all
  · intro e he
    split at he
    · cases he; rfl
    · split at he
      · cases he; rfl
      · cases he

example : validate (some ⟨[], [], []⟩) sampleMmfs = none ∧ validate none sampleMmfs ≠ none := by decide

/-! ## C71: the match counter -/

/-- What C71 asks: when the call has returned, the counter holds the number of matches
of the MMFs that ended normally. -/
def C71_statement : Prop := ∀ (wait : Bool) (fs : List Mmf) (ls : List Label) (s : St),
  run wait fs (init fs) ls = some s → s.main = .returned → s.counter = (finished fs).length

/-- **C71 (what holds).** Partial: full C71 has no second summand.  The loop variable is 1
when the stream ends without a match, so every MMF that ends normally counts one match
too many. -/
theorem C71_counts_one_too_many_partial (wait : Bool) (fs : List Mmf) (ls : List Label) (s : St)
    (hr : run wait fs (init fs) ls = some s) (hm : s.main ≠ .waiting) :
    s.counter = (finished fs).length + (fs.filter fun f => f.starts && f.eof).length := by
  have h := inv_run (inv_init fs) hr
  have hc := run_induct (P := fun s => s.counter = ((fs.zip s.mmfs).map counted).sum)
    (fun s l s' h hp hs => counter_step h hp hs) (inv_init fs) (counter_init fs) hr
  rw [hc]
  have hd := h.main hm
  have hl := h.len
  revert hd hl
  generalize s.mmfs = mmfs
  clear hc h hr hm
  unfold finished
  induction fs generalizing mmfs with
  | nil => intro _ _; rfl
  | cons f fs ih =>
    intro hd hl
    cases mmfs with
    | nil => simp at hl
    | cons x mmfs =>
      have hx := hd x (by simp)
      have := ih mmfs (fun y hy => hd y (by simp [hy])) (by simpa using hl)
      simp only [List.zip_cons_cons, List.map_cons, List.sum_cons, this, counted, hx]
      cases hb : (f.starts && f.eof) with
      | true => simp [hb]; omega
      | false => simp [hb]

/-- **C71 is false of the code.** -/
theorem C71_exact_count_refuted : ¬ C71_statement := by
  intro h
  have h1 : (run false [⟨true, [], true⟩] (init [⟨true, [], true⟩]) [.recv 0 [], .tdDone 0, .mainClose, .mainReturn]).map
    (·.main) = some .returned := by decide +kernel
  obtain ⟨s, hs, he⟩ := Option.map_eq_some_iff.1 h1
  have a := h false _ _ s hs he
  have b := C71_counts_one_too_many_partial false _ _ s hs (by rw [he]; simp)
  rw [b] at a
  exact absurd a (by decide)

example : ∃ s, run false sampleMmfs (init sampleMmfs) sampleRun = some s ∧ s.main ≠ .waiting ∧
    (finished sampleMmfs).length + (sampleMmfs.filter fun f => f.starts && f.eof).length = 5 := by
  obtain ⟨s, h, -, hm⟩ := sampleRun_ok
  exact ⟨s, h, by rw [hm]; simp, by decide⟩

/-! ## C72: the call returns -/

/-- **C72.** If the outgoing queue answers, `stream.Send` returns and every MMF's stream
ends (each as soon as scheduled), every schedule comes to an end: the number of steps is
bounded by what the MMFs return. -/
theorem C72_terminates (wait : Bool) (fs : List Mmf) (ls : List Label) (s : St)
    (hr : run wait fs (init fs) ls = some s) :
    ls.length ≤ ((fs.filter (·.starts)).map fun f =>
      (f.results.map fun m => 2 * (collectIds (rostersOf m)).length + 7).sum + 2).sum + 4 := by
  have := left_run (inv_init fs) hr
  rw [left_init] at this
  have e : ∀ m, matchCost m + 1 = 2 * (collectIds (rostersOf m)).length + 7 := fun _ => rfl
  simp only [e] at this
  omega

/-- No deadlock: as long as the process has not panicked and the call has not returned,
some goroutine can move. -/
theorem C72_no_deadlock (wait : Bool) (fs : List Mmf) (ls : List Label) (s : St)
    (hr : run wait fs (init fs) ls = some s) (hc : s.crashed = false) (hm : s.main ≠ .returned) :
    ∃ l s', run wait fs (init fs) (ls ++ [l]) = some s' := by
  obtain ⟨l, s', hs⟩ := progress (wait := wait) (inv_run (inv_init fs) hr) hc hm
  refine ⟨l, s', ?_⟩
  clear hc hm
  generalize init fs = s0 at hr
  induction ls generalizing s0 with
  | nil => cases hr; simp [run, hs]
  | cons x ls ih =>
    simp only [run, Option.bind_eq_some_iff] at hr
    obtain ⟨s1, h1, h2⟩ := hr
    simp only [List.cons_append, run, h1, Option.bind_some]
    exact ih _ h2

/-- The sample run is within the bound, and halfway through it nothing has returned. -/
example : sampleRun.length ≤ 44 ∧
    ∃ s, run false sampleMmfs (init sampleMmfs) (sampleRun.take 10) = some s ∧ s.crashed = false ∧ s.main ≠ .returned := by
  refine ⟨by decide, ?_⟩
  have h1 : (run false sampleMmfs (init sampleMmfs) (sampleRun.take 10)).map (fun s => (s.crashed, s.main)) =
    some (false, .waiting) := by decide +kernel
  obtain ⟨s, hs, he⟩ := Option.map_eq_some_iff.1 h1
  rw [Prod.mk.injEq] at he
  exact ⟨s, hs, he.1, by rw [he.2]; simp⟩

end OM.Props
