import Verif.Props.Relay
/-! # Property C97: no ticket is taken out of the pools for a match nobody gets -/
namespace OM.Props
open OM.Spec OM.Relay

/-- The full claim C97: when InvokeMatchmakingFunctions has returned, every ticket it asked to
deactivate is in a match that the matchmaker got, however long the matchmaker stayed. -/
def C97_statement : Prop := ∀ (wait : Bool) (fs : List Mmf) (ls : List Label) (s : St) (n : Nat),
  run wait fs (init fs) ls = some s → s.main = .returned →
  ∀ j k u, QEv.queue j k u ∈ s.log → ∃ m ∈ received s n, ∃ t, InMatch t m ∧ t.id = u.key

/-- Every update put on the outgoing queue deactivates a ticket of the goroutine's match. -/
private theorem queued_origin {wait : Bool} {fs : List Mmf} {ls : List Label} {s : St} (hr : run wait fs (init fs) ls = some s) :
    ∀ j k u, QEv.queue j k u ∈ s.log → ∃ g, s.gos[j]? = some g ∧ g.ids[k]? = some u.key ∧ u.cmd = .deactivate := by
  refine run_induct (P := fun s => ∀ j k u, QEv.queue j k u ∈ s.log →
    ∃ g, s.gos[j]? = some g ∧ g.ids[k]? = some u.key ∧ u.cmd = .deactivate) (wait := wait) ?_ (inv_init fs) (by simp [init]) hr
  intro s l s' _ hI hs
  have keep : ∀ (i : Nat) (g g' : Goro), s.gos[i]? = some g → g'.ids = g.ids → ∀ j k u, QEv.queue j k u ∈ s.log →
      ∃ x, (s.gos.set i g')[j]? = some x ∧ x.ids[k]? = some u.key ∧ u.cmd = .deactivate := by
    intro i g g' hi hids j k u hq
    obtain ⟨x, x1, x2, x3⟩ := hI j k u hq
    by_cases hij : i = j
    · subst hij
      rw [hi] at x1; injection x1 with x1; subst x1
      exact ⟨g', by rw [List.getElem?_set_self (List.getElem?_eq_some_iff.1 hi).1], by rw [hids]; exact x2, x3⟩
    · exact ⟨x, by rw [List.getElem?_set_ne hij]; exact x1, x2, x3⟩
  unfold step at hs
  split at hs
  · cases hs
  cases l with
  | recv i ord =>
    simp only [recvStep] at hs
    repeat' split at hs
    any_goals cases hs
    · intro j k u hq
      obtain ⟨g, h1, h2⟩ := hI j k u hq
      exact ⟨g, by rw [List.getElem?_append_left (List.getElem?_eq_some_iff.1 h1).1]; exact h1, h2⟩
    · exact hI
    · exact hI
  | tdDone i =>
    simp only at hs
    repeat' split at hs
    any_goals cases hs
    exact hI
  | go i b =>
    simp only at hs
    split at hs
    · rename_i g hi
      split at hs
      · cases hs
      · cases hs; exact hI
      · rename_i g' q hgo
        cases hs
        have hself : (s.gos.set i g')[i]? = some g' := List.getElem?_set_self (List.getElem?_eq_some_iff.1 hi).1
        have hshape : g'.ids = g.ids ∧ ∀ j k u, q = some (.queue j k u) → j = i ∧ g.ids[k]? = some u.key ∧ u.cmd = .deactivate := by
          unfold goStep at hgo
          split at hgo
          · split at hgo
            · rename_i id hid
              cases hgo
              refine ⟨rfl, fun j k u h => ?_⟩
              cases h
              exact ⟨rfl, hid, rfl⟩
            · cases hgo; exact ⟨rfl, fun j k u h => by cases h⟩
          · split at hgo <;> cases hgo <;> exact ⟨rfl, fun j k u h => by cases h⟩
          · split at hgo
            · cases hgo
            · cases hgo; exact ⟨rfl, fun j k u h => by cases h⟩
          · split at hgo <;> cases hgo
          · split at hgo
            · cases hgo
            · cases hgo; exact ⟨rfl, fun j k u h => by cases h⟩
          · cases hgo
        intro j k u hq
        rcases List.mem_append.1 hq with hq | hq
        · exact keep i g g' hi hshape.1 j k u hq
        · obtain ⟨rfl, h2, h3⟩ := hshape.2 j k u (by simpa using hq)
          exact ⟨g', hself, by rw [hshape.1]; exact h2, h3⟩
    · cases hs
  | hand i =>
    simp only at hs
    split at hs
    · rename_i g hi
      split at hs
      · cases hs
        exact keep i g _ hi rfl
      · cases hs
    · cases hs
  | fanEnd =>
    simp only at hs
    split at hs
    · cases hs; exact hI
    · cases hs
  | mainClose =>
    simp only at hs
    split at hs
    · cases hs; exact hI
    · cases hs
  | fanClose =>
    simp only at hs
    split at hs
    · cases hs; exact hI
    · cases hs
  | mainReturn =>
    simp only at hs
    split at hs
    · cases hs; exact hI
    · cases hs

/-- **C97 (one match).** Partial: full C97 has only the first two hypotheses.  The tickets of a match whose own MMF's stream
ended normally, and which the fan-in goroutine is not still sending, are in a match that was sent: the `i`-th, which the
matchmaker got if it stayed until then.  What other MMFs do does not matter. -/
theorem C97_own_stream_partial (wait : Bool) (fs : List Mmf) (ls : List Label) (s : St)
    (hr : run wait fs (init fs) ls = some s) (hm : s.main = .returned) (j k : Nat) (u : StateUpdate)
    (hq : QEv.queue j k u ∈ s.log)
    (hend : ∀ g f, s.gos[j]? = some g → fs[g.mmf]? = some f → f.eof = true) (hidle : ∀ m, s.fan ≠ .busy j m) :
    ∃ (i : Nat) (m : Option Match), s.sent[i]? = some j ∧ s.out[i]? = some m ∧ (∀ n, i < n → m ∈ received s n) ∧
      ∃ t, InMatch t m ∧ t.id = u.key := by
  have h := inv_run (inv_init fs) hr
  obtain ⟨g, hg, hk, -⟩ := queued_origin hr j k u hq
  obtain ⟨f, ms, a, b, c, -, e, ord, ho, hids⟩ := h.origin g (List.mem_of_getElem? hg)
  have hd := h.main (by rw [hm]; simp) ms (List.mem_of_getElem? b)
  have hpc := ((h.phases g.mmf ms f b a).2.2.2 hd e).2 (hend g f hg a) g (List.mem_of_getElem? hg) rfl
  have hsent : j ∈ s.sent := by
    have := (h.sentPast j).2 ⟨g, hg, by rw [hpc]; rfl⟩
    cases hf : s.fan with
    | busy j' m =>
      have hne : j ≠ j' := fun h => hidle m (h ▸ hf)
      simpa [hf, Fan.inFlight, hne] using this
    | idle => simpa [hf, Fan.inFlight] using this
    | closed => simpa [hf, Fan.inFlight] using this
  obtain ⟨i, hi⟩ := List.mem_iff_getElem?.1 hsent
  have hout : (s.out.map some)[i]? = some (some g.m) := by
    rw [h.out, List.getElem?_map, hi]
    simp [hg]
  rw [List.getElem?_map] at hout
  obtain ⟨m, hm', hmm⟩ := Option.map_eq_some_iff.1 hout
  injection hmm with hmm
  subst hmm
  refine ⟨i, g.m, hi, hm', fun n hn => ?_, ?_⟩
  · rw [received]
    exact List.mem_of_getElem? (i := i) (by rw [List.getElem?_take, if_pos hn]; exact hm')
  have hmem : u.key ∈ collectIds ord := by rw [← hids]; exact List.mem_of_getElem? hk
  simp only [collectIds, List.mem_flatMap, List.mem_map] at hmem
  obtain ⟨x, hx, t, ht, htk⟩ := hmem
  cases hgm : g.m with
  | none => rw [hgm] at ho; simp [rostersOf] at ho; subst ho; cases hx
  | some mm =>
    refine ⟨t, ⟨mm, rfl, x, ?_, ht⟩, htk⟩
    have := ho.mem_iff.1 hx
    simpa [rostersOf, hgm] using this

/-- **C97 (what holds).** Partial: full C97 has only the first two hypotheses.  If the streams of
all MMFs ended normally, the fan-in goroutine is not still sending, and the matchmaker was
connected throughout, every ticket deactivated is in a match that the matchmaker got. -/
theorem C97_nobody_stranded_partial (wait : Bool) (fs : List Mmf) (ls : List Label) (s : St) (n : Nat)
    (hr : run wait fs (init fs) ls = some s) (hm : s.main = .returned)
    (hend : ∀ f ∈ fs, f.starts = true → f.eof = true) (hidle : ∀ j m, s.fan ≠ .busy j m) (hn : s.out.length ≤ n)
    (j k : Nat) (u : StateUpdate) (hq : QEv.queue j k u ∈ s.log) :
    ∃ m ∈ received s n, ∃ t, InMatch t m ∧ t.id = u.key := by
  obtain ⟨i, m, -, h2, h3, h4⟩ := C97_own_stream_partial wait fs ls s hr hm j k u hq (fun g f hg hf => by
    obtain ⟨f', ms, a, -, -, -, e, -⟩ := (inv_run (inv_init fs) hr).origin g (List.mem_of_getElem? hg)
    rw [hf] at a; injection a with a; subst a
    exact hend f (List.mem_of_getElem? hf) e) (hidle j)
  exact ⟨m, h3 n (Nat.lt_of_lt_of_le (List.getElem?_eq_some_iff.1 h2).1 hn), h4⟩

private def asked : QEv → Option (Nat × Str)
  | .queue j _ u => some (j, u.key)
  | _ => none

def mixedMmfs : List Mmf := [⟨true, [duel "m1" "1-1" "2-1"], true⟩, ⟨true, [duel "m2" "3-1" "4-1"], false⟩]

/-- A case of `C97_own_stream_partial` next to an MMF whose stream fails: the first one's match is sent, the other one's
tickets are deactivated for nothing. -/
example :
    (run false mixedMmfs (init mixedMmfs) [.recv 0 (rostersOf (duel "m1" "1-1" "2-1")), .recv 1 (rostersOf (duel "m2" "3-1" "4-1")),
      .recv 1 [], .go 1 true, .go 0 true, .go 0 true, .go 0 true, .go 0 true, .go 0 true, .go 0 true, .hand 0, .fanEnd, .go 0 true,
      .recv 0 [], .tdDone 0, .mainClose, .mainReturn]).map
      (fun s => (s.main, s.out.map (·.map (·.id)), s.log.filterMap asked)) =
    some (.returned, [some "m1".toList], [(1, "3-1".toList), (0, "1-1".toList), (0, "2-1".toList)]) := by
  decide +kernel

/-- The sample run meets the hypotheses; six deactivations were queued in it. -/
example : ∃ s, run false sampleMmfs (init sampleMmfs) sampleRun = some s ∧ s.main = .returned ∧ s.fan = .idle ∧
    (s.log.filter fun e => match e with | .queue _ _ _ => true | _ => false).length = 6 := by
  have h1 : (run false sampleMmfs (init sampleMmfs) sampleRun).map (fun s => (s.main, s.fan,
      (s.log.filter fun e => match e with | .queue _ _ _ => true | _ => false).length)) = some (.returned, .idle, 6) := by
    decide +kernel
  obtain ⟨s, hs, he⟩ := Option.map_eq_some_iff.1 h1
  rw [Prod.mk.injEq, Prod.mk.injEq] at he
  exact ⟨s, hs, he⟩

/-- **C97 is false of the code**: when the matchmaker's stream is gone, `stream.Send` fails, the
error is dropped (core/main.go:493), the MMFs run on, and the tickets of their matches stay deactivated
although nobody has the matches. -/
theorem C97_matchmaker_gone_refuted : ¬ C97_statement := by
  intro h
  have h1 : (run false sampleMmfs (init sampleMmfs) sampleRun).map (fun s => (s.main, s.log.head?)) =
      some (.returned, some (.queue 2 0 ⟨.deactivate, "3-1".toList, []⟩)) := by decide +kernel
  obtain ⟨s, hs, he⟩ := Option.map_eq_some_iff.1 h1
  rw [Prod.mk.injEq] at he
  obtain ⟨m, hm, -⟩ := h false sampleMmfs sampleRun s 0 hs he.1 _ _ _ (List.mem_of_head? he.2)
  simp [received] at hm

/-- A second way, with a patient matchmaker: the stream of an MMF fails after a match. -/
theorem C97_failing_stream_refuted : ∃ fs ls s j k u, run false fs (init fs) ls = some s ∧ s.main = .returned ∧
    s.crashed = false ∧ QEv.queue j k u ∈ s.log ∧ ∀ n, received s n = [] := by
  let fs : List Mmf := [⟨true, [duel "m1" "1-1" "2-1"], false⟩]
  have h1 : (run false fs (init fs) ([.recv 0 (rostersOf (duel "m1" "1-1" "2-1")), .recv 0 [], .go 0 true, .mainClose,
      .mainReturn])).map (fun s => (s.main, s.crashed, s.log.head?, s.out)) =
      some (.returned, false, some (.queue 0 0 ⟨.deactivate, "1-1".toList, []⟩), []) := by decide +kernel
  obtain ⟨s, hs, he⟩ := Option.map_eq_some_iff.1 h1
  rw [Prod.mk.injEq, Prod.mk.injEq, Prod.mk.injEq] at he
  exact ⟨fs, _, s, _, _, _, hs, he.1, he.2.1, List.mem_of_head? he.2.2.1, fun n => by rw [received, he.2.2.2]; simp⟩

end OM.Props
