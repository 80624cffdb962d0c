import Verif.Model.CycleLines
import Verif.Props.MainLoop
import Verif.Lemmas.Serve
/-!
# Property C155: what the example says of each cycle
-/
namespace OM.Props
open OM.Spec OM.PJ

/-- The lines that end a cycle. -/
def cycleLinesOf (ls : List Loop.Line) : List Loop.CycleLine := ls.filterMap fun l => match l with | .cycle x => some x | _ => none

/-- The errors of streams that are reported. -/
def failuresIn (ls : List Loop.Line) : List Front.Status := ls.filterMap fun l => match l with | .failed s => some s | _ => none

/-- How many of the first `n` numbers drawn reject a match (0 and 1 do), and how many do not. -/
def rejecting (draws : Nat → Nat) (n : Nat) : Nat := ((List.range n).filter fun i => draws i < 2).length
def approving (draws : Nat → Nat) (n : Nat) : Nat := ((List.range n).filter fun i => 2 ≤ draws i).length

/-- What is said of the `k`-th of `n` cycles (from 0): nothing if its answer ends the process. -/
def saidOf (e : Env) (junk : Str → Option Match) (n : Nat) (x : Loop.Cycle × Nat) : Option Loop.CycleLine :=
  (Loop.received e junk x.1.answer).map fun ms =>
    ⟨x.2 + 1, n, ms.length, approving x.1.draws ms.length, rejecting x.1.draws ms.length, none⟩

private theorem judge_counts (r : Nat → Nat) (ms : List (Option Match)) :
    (Mm.judge r 0 ms).1.length = approving r ms.length ∧ (Mm.judge r 0 ms).2.length = rejecting r ms.length ∧
      (Mm.judge r 0 ms).1.length + (Mm.judge r 0 ms).2.length = ms.length := by
  have key : ∀ (ms : List (Option Match)) (n : Nat),
      (Mm.judge r n ms).1.length = ((List.range' n ms.length).filter fun i => decide (2 ≤ r i)).length ∧
      (Mm.judge r n ms).2.length = ((List.range' n ms.length).filter fun i => decide (r i < 2)).length ∧
      (Mm.judge r n ms).1.length + (Mm.judge r n ms).2.length = ms.length := by
    intro ms
    induction ms with
    | nil => intro n; exact ⟨rfl, rfl, rfl⟩
    | cons m ms ih =>
      intro n
      obtain ⟨h1, h2, h3⟩ := ih (n + 1)
      rw [List.length_cons, List.range'_succ]
      simp only [Mm.judge, Mm.rejects]
      by_cases h : r n ≤ 1
      · simp only [decide_eq_true h, if_true, List.filter_cons, decide_eq_false (show ¬ 2 ≤ r n by omega), Bool.false_eq_true,
          if_false, decide_eq_true (show r n < 2 by omega), List.length_cons]
        exact ⟨h1, by omega, by omega⟩
      · simp only [decide_eq_false h, Bool.false_eq_true, if_false, List.filter_cons, decide_eq_true (show 2 ≤ r n by omega),
          if_true, decide_eq_false (show ¬ r n < 2 by omega), List.length_cons]
        exact ⟨by omega, h2, by omega⟩
  have := key ms 0
  rw [← List.range_eq_range'] at this
  exact this

private theorem cycleLinesOf_append (a b : List Loop.Line) : cycleLinesOf (a ++ b) = cycleLinesOf a ++ cycleLinesOf b :=
  List.filterMap_append

private theorem answer_none (e : Env) (recv : Option Front.Status) (a : Loop.Invoked) : cycleLinesOf (Loop.answerLines e recv a) = [] := by
  unfold Loop.answerLines cycleLinesOf
  split
  · rfl
  · cases recv <;> rfl
  · rfl
  · refine List.filterMap_eq_nil_iff.2 fun l hl => ?_
    obtain ⟨t, -, ht⟩ := List.mem_filterMap.1 hl
    split at ht
    · cases ht; rfl
    · cases ht

private theorem cycle_said (e : Env) (junk : Str → Option Match) (ig : Bool) (n k : Nat) (s : Loop.St) (c : Loop.Cycle)
    (recv : Option Front.Status) (h : s.left + k = n) :
    cycleLinesOf (Loop.cycleLines e junk ig n s c recv) = (saidOf e junk n (c, k)).toList := by
  unfold Loop.cycleLines saidOf
  cases hr : Loop.received e junk c.answer with
  | none => rfl
  | some ms =>
    obtain ⟨h1, h2, h3⟩ := judge_counts c.draws ms
    simp only [Option.map_some, Option.toList_some]
    rw [cycleLinesOf_append, answer_none, List.nil_append, ← h1, ← h2, h3]
    have hk : n + 1 - s.left = k + 1 := by omega
    rw [hk]
    have tail : ∀ t : List Loop.Line, cycleLinesOf t = [] → ∀ x, cycleLinesOf (.cycle x :: t) = [x] := by
      intro t ht x
      have : cycleLinesOf (.cycle x :: t) = x :: cycleLinesOf t := rfl
      rw [this, ht]
    refine tail _ ?_ _
    split
    · split <;> rfl
    · split <;> rfl

private def Inv (n k : Nat) (s : Loop.St) : Prop :=
  (s.phase = .idle → s.left + k = n) ∧ (∀ a, s.phase = .activating a → s.left + k = n + 1 ∧ 0 < s.left)

private theorem inv_cycle (e : Env) (junk : Str → Option Match) (ig : Bool) (n k : Nat) (s : Loop.St) (c : Loop.Cycle)
    (h : s.left + k = n) (hl : 0 < s.left) (hi : s.phase = .idle) : Inv n (k + 1) (s.cycle e junk ig c) := by
  unfold Loop.St.cycle
  split
  · exact ⟨fun h => (by cases h), fun a h => by cases h⟩
  · simp only
    split
    · split
      · exact ⟨fun h => (by cases h), fun a h => by cases h⟩
      · refine ⟨fun _ => by simp only; omega, fun a ha => ?_⟩
        rw [show ({ s with } : Loop.St).phase = .idle from hi] at ha
        cases ha
    · split
      · exact ⟨fun h => (by cases h), fun a h => by cases h⟩
      · exact ⟨fun h => (by cases h), fun a _ => ⟨by simp only; omega, hl⟩⟩

private theorem lines_from (e : Env) (junk : Str → Option Match) (f : Loop.Flags) (evs : List (Loop.Lbl × Option Front.Status)) :
    ∀ (s t : Loop.St) (k : Nat), Inv f.cycles.toNat k s → s.run e junk f.ignoreEmpty (evs.map (·.1)) = some t →
      cycleLinesOf (Loop.lines e junk f s evs) =
        ((cyclesOf (evs.map (·.1))).zipIdx k).filterMap (saidOf e junk f.cycles.toNat) := by
  induction evs with
  | nil => intro s t k _ _; rfl
  | cons l ls ih =>
    intro s t k hinv hr
    obtain ⟨l, recv⟩ := l
    rw [List.map_cons, Loop.St.run] at hr
    cases hst : s.step e junk f.ignoreEmpty l with
    | none => rw [hst] at hr; cases hr
    | some s1 =>
      rw [hst] at hr
      have hr' : s1.run e junk f.ignoreEmpty (ls.map (·.1)) = some t := hr
      rw [Loop.lines]
      simp only [hst]
      rw [cycleLinesOf_append]
      cases hp : s.phase with
      | ended x =>
        exfalso
        unfold Loop.St.step at hst
        rw [hp] at hst
        cases l <;> cases hst
      | idle =>
        cases l with
        | cycle c =>
          unfold Loop.St.step at hst
          simp only [hp] at hst
          split at hst
          · rename_i hl
            cases hst
            have hk := hinv.1 hp
            rw [ih _ t (k + 1) (inv_cycle e junk _ _ k s c hk hl hp) hr']
            have h1 : cycleLinesOf (Loop.stepLines e junk f s (.cycle c, recv)) = _ :=
              cycle_said e junk f.ignoreEmpty f.cycles.toNat k s c recv hk
            rw [h1, List.map_cons, cyclesOf, List.zipIdx_cons, List.filterMap_cons]
            cases saidOf e junk f.cycles.toNat (c, k) <;> rfl
          · cases hst
        | stop =>
          unfold Loop.St.step at hst
          simp only [hp] at hst
          split at hst
          · cases hst
          · cases hst
            rw [ih _ t k ⟨fun h => (by cases h), fun a h => by cases h⟩ hr', List.map_cons]
            rfl
        | inner l => unfold Loop.St.step at hst; rw [hp] at hst; cases hst
        | back => unfold Loop.St.step at hst; rw [hp] at hst; cases hst
      | activating a =>
        have hk := hinv.2 a hp
        cases l with
        | cycle c => unfold Loop.St.step at hst; rw [hp] at hst; cases hst
        | stop => unfold Loop.St.step at hst; rw [hp] at hst; cases hst
        | inner l =>
          unfold Loop.St.step at hst
          simp only [hp] at hst
          have : ∃ a', s1 = { s with phase := .activating a' } := by
            split at hst
            · cases hst
            · obtain ⟨a', -, rfl⟩ := Option.map_eq_some_iff.1 hst
              exact ⟨a', rfl⟩
          obtain ⟨a', rfl⟩ := this
          have hi : Inv f.cycles.toNat k { s with phase := .activating a' } := ⟨fun h => (by cases h), fun _ _ => hk⟩
          rw [ih _ t k hi hr', List.map_cons]
          rfl
        | back =>
          unfold Loop.St.step at hst
          simp only [hp] at hst
          split at hst
          · cases hst
            rw [ih _ t k ⟨fun _ => by simp only; omega, fun a h => by cases h⟩ hr', List.map_cons]
            rfl
          · cases hst

/-- **C155 (what is said).** In every execution of the example's loop, over gRPC or REST, the lines that end a cycle are those of the
cycles whose answer could be taken, in order: the cycle's number from 1 up, the number of -cycles, how many matches were received,
how many numbers drawn approve one and how many reject one; and no error, ever. -/
theorem C155_lines_partial (e : Env) (junk : Str → Option Match) (f : Loop.Flags) (evs : List (Loop.Lbl × Option Front.Status))
    (s : Loop.St) (hr : (Loop.St.init f).run e junk f.ignoreEmpty (evs.map (·.1)) = some s) :
    cycleLinesOf (Loop.lines e junk f (Loop.St.init f) evs) =
      (cyclesOf (evs.map (·.1))).zipIdx.filterMap (saidOf e junk f.cycles.toNat) :=
  lines_from e junk f evs _ s 0 ⟨fun _ => rfl, fun _ h => by cases h⟩ hr

private theorem said_sums (e : Env) (junk : Str → Option Match) (n : Nat) (cs : List Loop.Cycle) : ∀ k,
    (((cs.zipIdx k).filterMap (saidOf e junk n)).map (·.rejected)).sum = (cs.flatMap fun c => (Mm.judge c.draws 0 (gotIn e junk c)).2).length ∧
    (((cs.zipIdx k).filterMap (saidOf e junk n)).map (·.approved)).sum
      + (((cs.zipIdx k).filterMap (saidOf e junk n)).map (·.rejected)).sum = (cs.flatMap (gotIn e junk)).length := by
  induction cs with
  | nil => intro k; exact ⟨rfl, rfl⟩
  | cons c cs ih =>
    intro k
    obtain ⟨h1, h2⟩ := ih (k + 1)
    rw [List.zipIdx_cons, List.filterMap_cons, List.flatMap_cons, List.flatMap_cons, List.length_append, List.length_append]
    cases hr : Loop.received e junk c.answer with
    | none =>
      have : saidOf e junk n (c, k) = none := by unfold saidOf; rw [hr]; rfl
      rw [this]
      have hg : gotIn e junk c = [] := by unfold gotIn; rw [hr]; rfl
      rw [hg]
      exact ⟨by simpa [Mm.judge] using h1, by simpa using h2⟩
    | some ms =>
      have : saidOf e junk n (c, k) = some ⟨k + 1, n, ms.length, approving c.draws ms.length, rejecting c.draws ms.length, none⟩ := by
        unfold saidOf; rw [hr]; rfl
      rw [this]
      have hg : gotIn e junk c = ms := by unfold gotIn; rw [hr]; rfl
      obtain ⟨g1, g2, g3⟩ := judge_counts c.draws ms
      rw [hg]
      simp only [List.map_cons, List.sum_cons]
      exact ⟨by omega, by omega⟩

/-- **C155 (totals).** The approvals and rejections in the lines of an execution add up to the example's two counters. -/
theorem C155_totals (e : Env) (junk : Str → Option Match) (f : Loop.Flags) (evs : List (Loop.Lbl × Option Front.Status))
    (s : Loop.St) (hr : (Loop.St.init f).run e junk f.ignoreEmpty (evs.map (·.1)) = some s) :
    s.accepted = ((cycleLinesOf (Loop.lines e junk f (Loop.St.init f) evs)).map (·.approved)).sum ∧
    s.rejected = ((cycleLinesOf (Loop.lines e junk f (Loop.St.init f) evs)).map (·.rejected)).sum := by
  rw [C155_lines_partial e junk f evs s hr]
  have hi : LoopInv e junk ([] ++ cyclesOf (evs.map (·.1))) s := loop_inv _ (loop_inv0 f) hr
  rw [List.nil_append] at hi
  obtain ⟨h1, h2⟩ := said_sums e junk f.cycles.toNat (cyclesOf (evs.map (·.1))) 0
  have h3 := hi.sum
  have h4 := hi.rej
  exact ⟨by omega, by omega⟩

/-! ## In terms of what om-core did -/

/-- The error that om-core ended the call with. -/
def endedWith : Loop.Served → Option Front.Status
  | .unreachable => none
  | .refused s => some s
  | .streamed _ err => err

/-- The cycles of an execution, each with the error of `Recv`. -/
def cycleEvents : List (Loop.Lbl × Option Front.Status) → List (Loop.Cycle × Option Front.Status)
  | [] => []
  | (.cycle c, r) :: ls => (c, r) :: cycleEvents ls
  | _ :: ls => cycleEvents ls

/-- This is what om-core did with the calls of the execution, made over gRPC. -/
def ServedAs (svs : List Loop.Served) (evs : List (Loop.Lbl × Option Front.Status)) : Prop :=
  List.Forall₂ (fun sv (x : Loop.Cycle × Option Front.Status) => x.1.answer = Loop.overGrpc sv ∧ x.2 = endedWith sv) svs (cycleEvents evs)

/-- The full claim: after each cycle the example says which it was, how many matches om-core sent, and the error that om-core
ended the call with, if it did. -/
def C155_statement : Prop :=
  ∀ (e : Env) (junk : Str → Option Match) (f : Loop.Flags) (evs : List (Loop.Lbl × Option Front.Status)) (s : Loop.St)
    (svs : List Loop.Served), (Loop.St.init f).run e junk f.ignoreEmpty (evs.map (·.1)) = some s → ServedAs svs evs →
    ∀ (i : Nat) (sv : Loop.Served), svs[i]? = some sv → sv ≠ .unreachable →
      ∃ x ∈ cycleLinesOf (Loop.lines e junk f (Loop.St.init f) evs),
        x.number = i + 1 ∧ x.of = f.cycles.toNat ∧ x.received = (sentMatches sv).length ∧ x.approved + x.rejected = x.received ∧
          x.error = endedWith sv

private theorem cycleEvents_fst (evs : List (Loop.Lbl × Option Front.Status)) : (cycleEvents evs).map (·.1) = cyclesOf (evs.map (·.1)) := by
  induction evs with
  | nil => rfl
  | cons l ls ih =>
    obtain ⟨l, r⟩ := l
    cases l with
    | cycle c => simp only [cycleEvents, List.map_cons, cyclesOf, ih]
    | _ => simpa only [cycleEvents, List.map_cons, cyclesOf] using ih

private theorem failures_append (a b : List Loop.Line) : failuresIn (a ++ b) = failuresIn a ++ failuresIn b := List.filterMap_append

private theorem failures_cycle (e : Env) (junk : Str → Option Match) (ig : Bool) (n : Nat) (s : Loop.St) (c : Loop.Cycle)
    (sv : Loop.Served) (h : c.answer = Loop.overGrpc sv) :
    failuresIn (Loop.cycleLines e junk ig n s c (endedWith sv)) = (endedWith sv).toList := by
  have tail : ∀ (x : Loop.CycleLine) (t : List Loop.Line), failuresIn t = [] → failuresIn (.cycle x :: t) = [] := fun x t ht => ht
  unfold Loop.cycleLines
  rw [h]
  cases sv with
  | unreachable => rfl
  | refused st =>
    simp only [Loop.overGrpc, Loop.received]
    rw [failures_append, tail _ _ (by split <;> split <;> rfl)]
    rfl
  | streamed ms err =>
    simp only [Loop.overGrpc, Loop.received]
    rw [failures_append, tail _ _ (by split <;> split <;> rfl)]
    cases err <;> rfl

private theorem failures_from (e : Env) (junk : Str → Option Match) (f : Loop.Flags) (evs : List (Loop.Lbl × Option Front.Status)) :
    ∀ (s t : Loop.St) (svs : List Loop.Served), s.run e junk f.ignoreEmpty (evs.map (·.1)) = some t → ServedAs svs evs →
      failuresIn (Loop.lines e junk f s evs) = svs.filterMap endedWith := by
  induction evs with
  | nil => intro s t svs _ h; cases h; rfl
  | cons l ls ih =>
    intro s t svs hr h
    obtain ⟨l, recv⟩ := l
    rw [List.map_cons, Loop.St.run] at hr
    cases hst : s.step e junk f.ignoreEmpty l with
    | none => rw [hst] at hr; cases hr
    | some s1 =>
      rw [hst] at hr
      have hr' : s1.run e junk f.ignoreEmpty (ls.map (·.1)) = some t := hr
      rw [Loop.lines]
      simp only [hst]
      rw [failures_append]
      cases l with
      | cycle c =>
        cases h with
        | @cons sv _ svs _ h1 h2 =>
          obtain ⟨h1, rfl⟩ := h1
          rw [ih s1 t svs hr' h2, List.filterMap_cons]
          have := failures_cycle e junk f.ignoreEmpty f.cycles.toNat s c sv h1
          rw [show failuresIn (Loop.stepLines e junk f s (.cycle c, endedWith sv)) = _ from this]
          cases endedWith sv <;> rfl
      | stop => rw [ih s1 t svs hr' h]; rfl
      | inner l => rw [ih s1 t svs hr' h]; rfl
      | back => rw [ih s1 t svs hr' h]; rfl

/-- **C155 (over gRPC).** Partial: the full claim, `C155_statement`, has the error in the cycle's line.  For every call to an om-core
that is there, a line says the number of the cycle and how many matches om-core sent, all of them approved or rejected; and the
errors that om-core ended calls with are in the log in lines of their own, each once, in order, and no others. -/
theorem C155_grpc_partial (e : Env) (junk : Str → Option Match) (f : Loop.Flags) (evs : List (Loop.Lbl × Option Front.Status))
    (s : Loop.St) (svs : List Loop.Served) (hr : (Loop.St.init f).run e junk f.ignoreEmpty (evs.map (·.1)) = some s)
    (hs : ServedAs svs evs) :
    (∀ (i : Nat) (sv : Loop.Served), svs[i]? = some sv → sv ≠ .unreachable →
      ∃ x ∈ cycleLinesOf (Loop.lines e junk f (Loop.St.init f) evs),
        x.number = i + 1 ∧ x.of = f.cycles.toNat ∧ x.received = (sentMatches sv).length ∧ x.approved + x.rejected = x.received) ∧
    failuresIn (Loop.lines e junk f (Loop.St.init f) evs) = svs.filterMap endedWith := by
  refine ⟨fun i sv hi hu => ?_, failures_from e junk f evs _ s svs hr hs⟩
  rw [C155_lines_partial e junk f evs s hr]
  obtain ⟨hl, hall⟩ := List.forall₂_iff_get.1 hs
  obtain ⟨hlt, hget⟩ := List.getElem?_eq_some_iff.1 hi
  have h1 := hall i hlt (hl ▸ hlt)
  simp only [List.get_eq_getElem, hget] at h1
  have hc : (cyclesOf (evs.map (·.1)))[i]? = some (cycleEvents evs)[i].1 := by
    rw [← cycleEvents_fst, List.getElem?_map, List.getElem?_eq_getElem (hl ▸ hlt)]
    rfl
  have hrec : Loop.received e junk (cycleEvents evs)[i].1.answer = some (sentMatches sv) := by
    rw [h1.1]
    cases sv with
    | unreachable => exact absurd rfl hu
    | refused st => rfl
    | streamed ms err => rfl
  refine ⟨⟨i + 1, f.cycles.toNat, (sentMatches sv).length, approving (cycleEvents evs)[i].1.draws (sentMatches sv).length,
      rejecting (cycleEvents evs)[i].1.draws (sentMatches sv).length, none⟩,
    List.mem_filterMap.2 ⟨((cycleEvents evs)[i].1, i), List.mem_zipIdx_iff_getElem?.2 hc, ?_⟩, ?_⟩
  · unfold saidOf
    rw [hrec]
    rfl
  · obtain ⟨g1, g2, g3⟩ := judge_counts (cycleEvents evs)[i].1.draws (sentMatches sv)
    exact ⟨rfl, rfl, rfl, by rw [← g1, ← g2]; exact g3⟩

/-- How the calls ended, by the log: none for a complete one. -/
def endsIn (ls : List Loop.Line) : List (Option Front.Status) :=
  ls.filterMap fun l => match l with | .complete => some none | .failed s => some (some s) | _ => none

/-- How a call ended that reached om-core. -/
def endOf : Loop.Served → Option (Option Front.Status)
  | .unreachable => none
  | .refused s => some (some s)
  | .streamed _ err => some err

private theorem ends_append (a b : List Loop.Line) : endsIn (a ++ b) = endsIn a ++ endsIn b := List.filterMap_append

private theorem ends_cycle (e : Env) (junk : Str → Option Match) (ig : Bool) (n : Nat) (s : Loop.St) (c : Loop.Cycle)
    (sv : Loop.Served) (h : c.answer = Loop.overGrpc sv) :
    endsIn (Loop.cycleLines e junk ig n s c (endedWith sv)) = (endOf sv).toList := by
  have tail : ∀ (x : Loop.CycleLine) (t : List Loop.Line), endsIn t = [] → endsIn (.cycle x :: t) = [] := fun x t ht => ht
  unfold Loop.cycleLines
  rw [h]
  cases sv with
  | unreachable => rfl
  | refused st =>
    simp only [Loop.overGrpc, Loop.received]
    rw [ends_append, tail _ _ (by split <;> split <;> rfl)]
    rfl
  | streamed ms err =>
    simp only [Loop.overGrpc, Loop.received]
    rw [ends_append, tail _ _ (by split <;> split <;> rfl)]
    cases err <;> rfl

/-- **C155 (how calls end, over gRPC).** The log says of every call that reached om-core, in order and once, whether it was complete, and
with which error it ended if not. -/
theorem C155_calls (e : Env) (junk : Str → Option Match) (f : Loop.Flags) (evs : List (Loop.Lbl × Option Front.Status))
    (t : Loop.St) (svs : List Loop.Served) (hr : (Loop.St.init f).run e junk f.ignoreEmpty (evs.map (·.1)) = some t)
    (hs : ServedAs svs evs) : endsIn (Loop.lines e junk f (Loop.St.init f) evs) = svs.filterMap endOf := by
  have key : ∀ (evs : List (Loop.Lbl × Option Front.Status)) (s : Loop.St) (svs : List Loop.Served),
      s.run e junk f.ignoreEmpty (evs.map (·.1)) = some t → ServedAs svs evs → endsIn (Loop.lines e junk f s evs) = svs.filterMap endOf := by
    intro evs
    induction evs with
    | nil => intro s svs _ h; cases h; rfl
    | cons l ls ih =>
      intro s svs hr h
      obtain ⟨l, recv⟩ := l
      rw [List.map_cons, Loop.St.run] at hr
      cases hst : s.step e junk f.ignoreEmpty l with
      | none => rw [hst] at hr; cases hr
      | some s1 =>
        rw [hst] at hr
        have hr' : s1.run e junk f.ignoreEmpty (ls.map (·.1)) = some t := hr
        rw [Loop.lines]
        simp only [hst]
        rw [ends_append]
        cases l with
        | cycle c =>
          cases h with
          | @cons sv _ svs _ h1 h2 =>
            obtain ⟨h1, rfl⟩ := h1
            rw [ih s1 svs hr' h2, List.filterMap_cons]
            have := ends_cycle e junk f.ignoreEmpty f.cycles.toNat s c sv h1
            rw [show endsIn (Loop.stepLines e junk f s (.cycle c, endedWith sv)) = _ from this]
            cases endOf sv <;> rfl
        | stop => rw [ih s1 svs hr' h]; rfl
        | inner l => rw [ih s1 svs hr' h]; rfl
        | back => rw [ih s1 svs hr' h]; rfl
  exact key evs _ svs hr hs

/-- **C155 (over REST).** Partial, as above: of a call over REST whose stream could be read, the line says one match more than om-core
sent if the stream ended with an error, and nothing of the error. -/
theorem C155_rest_partial {e : Env} (he : EnvOk e) (junk : Str → Option Match) (hj : ∀ t, junk ('"' :: t) = none) (f : Loop.Flags)
    (evs : List (Loop.Lbl × Option Front.Status)) (s : Loop.St)
    (hr : (Loop.St.init f).run e junk f.ignoreEmpty (evs.map (·.1)) = some s) (i : Nat) (c : Loop.Cycle)
    (hc : (cyclesOf (evs.map (·.1)))[i]? = some c) (ms : List (Option Match)) (err : Option Front.Status)
    (ho : OverRest e (.streamed ms err) c.answer) (hok : ∀ m ∈ ms, OptAll (MatchOk e) m) (hgo : ∀ m ∈ ms, OptAll (MatchGo e) m)
    (ht : ∀ s, err = some s → IsText s.msg)
    (hb : ¬ ((∃ m ∈ ms, HasBlank (optStrings (matchStrings e) m)) ∨ ∃ s, err = some s ∧ Blank s.msg)) :
    ∃ x ∈ cycleLinesOf (Loop.lines e junk f (Loop.St.init f) evs),
      x.number = i + 1 ∧ x.received = ms.length + (if err = none then 0 else 1) ∧ x.error = none := by
  have hrec := (((C114_exactly_partial he junk hj).2.2.2 ms err c.answer ho hok hgo ht).2 hb)
  rw [C155_lines_partial e junk f evs s hr]
  refine ⟨_, List.mem_filterMap.2 ⟨(c, i), List.mem_zipIdx_iff_getElem?.2 hc, by unfold saidOf; rw [hrec]; rfl⟩, rfl, ?_, rfl⟩
  simp only [List.length_append]
  cases err <;> rfl

private def oneCycle : Loop.Flags := { Loop.Flags.default with cycles := 1 }
private def busy : Front.Status := ⟨14, "busy".toList⟩
private def refusedCycle : Loop.Cycle := ⟨.grpc (some []), fun _ => 50, id⟩

/-- **C155, refuted**: the error in the line is another variable: a call that om-core refuses ends with `error: <nil>`. -/
theorem C155_error_refuted : ¬ C155_statement := by
  intro h
  obtain ⟨x, hx, -, -, -, -, he⟩ := h sampleEnv (fun _ => none) oneCycle [(.cycle refusedCycle, some busy)] _ [.refused busy] rfl
    (.cons ⟨rfl, rfl⟩ .nil) 0 (.refused busy) rfl (by intro h; cases h)
  rw [C155_lines_partial sampleEnv (fun _ => none) oneCycle [(.cycle refusedCycle, some busy)] _ rfl] at hx
  obtain ⟨y, -, hy⟩ := List.mem_filterMap.1 hx
  unfold saidOf at hy
  obtain ⟨ms, -, rfl⟩ := Option.map_eq_some_iff.1 hy
  cases he

-- The run of the refutation: the failure has a line of its own.
example : Loop.lines sampleEnv (fun _ => none) oneCycle (Loop.St.init oneCycle) [(.cycle refusedCycle, some busy), (.stop, none)] =
    [.failed busy, .cycle ⟨1, 1, 0, 0, 0, none⟩, .exiting] := by decide +kernel

-- Two matches, one of them nil, both rejected; one ticket is queued again.
example : Loop.lines sampleEnv (fun _ => none) { Loop.Flags.default with cycles := 12 } (Loop.St.init { Loop.Flags.default with cycles := 12 })
    [(.cycle ⟨.grpc (some [some ⟨"m1".toList, [("r".toList, ⟨"r".toList, none, [⟨"1-0".toList, none, none, []⟩], []⟩)], []⟩, none]),
      fun i => i, id⟩, none)] = [.complete, .cycle ⟨1, 12, 2, 0, 2, none⟩, .queued 1] := by decide +kernel

/-! ## How it ends -/

private theorem answer_ends (e : Env) (recv : Option Front.Status) (a : Loop.Invoked) :
    Loop.Line.exiting ∉ Loop.answerLines e recv a ∧ Loop.Line.noMatches ∉ Loop.answerLines e recv a := by
  unfold Loop.answerLines
  split
  · exact ⟨by simp, by simp⟩
  · cases recv <;> exact ⟨by simp, by simp⟩
  · exact ⟨by simp, by simp⟩
  · constructor
    all_goals
      intro hl
      obtain ⟨t, -, ht⟩ := List.mem_filterMap.1 hl
      split at ht <;> cases ht

private theorem step_ends (e : Env) (junk : Str → Option Match) (f : Loop.Flags) (s t : Loop.St) (l : Loop.Lbl × Option Front.Status)
    (h : s.step e junk f.ignoreEmpty l.1 = some t) :
    (Loop.Line.exiting ∈ Loop.stepLines e junk f s l ↔ t.phase = .ended .budget ∨ t.phase = .ended .empty) ∧
    (Loop.Line.noMatches ∈ Loop.stepLines e junk f s l ↔ t.phase = .ended .empty) := by
  obtain ⟨l, recv⟩ := l
  have hans := answer_ends e recv
  cases hp : s.phase with
  | ended x =>
    exfalso
    unfold Loop.St.step at h
    rw [hp] at h
    cases l <;> cases h
  | idle =>
    cases l with
    | cycle c =>
      unfold Loop.St.step at h
      simp only [hp] at h
      split at h
      · cases h
        simp only [Loop.stepLines, Loop.cycleLines, Loop.St.cycle]
        cases hr : Loop.received e junk c.answer with
        | none => simp
        | some ms =>
          simp only
          have ha := hans c.answer
          by_cases hz : (Mm.judge c.draws 0 ms).1.length + (Mm.judge c.draws 0 ms).2.length = 0
          · rw [if_pos hz, if_pos hz]
            by_cases he : (!f.ignoreEmpty && decide (s.emptyCycles ≥ 3)) = true
            · rw [if_pos he, if_pos he]; simp
            · rw [if_neg he, if_neg he]; simp [ha.1, ha.2, hp]
          · rw [if_neg hz, if_neg hz]
            cases hq : Mm.requeue s.queue (Mm.rejectedIds c.ord (Mm.judge c.draws 0 ms).2) with
            | none => simp [ha.1, ha.2]
            | some q => simp [ha.1, ha.2]
      · cases h
    | stop =>
      unfold Loop.St.step at h
      simp only [hp] at h
      split at h
      · cases h
      · cases h
        simp [Loop.stepLines]
    | inner l => unfold Loop.St.step at h; rw [hp] at h; cases h
    | back => unfold Loop.St.step at h; rw [hp] at h; cases h
  | activating a =>
    cases l with
    | cycle c => unfold Loop.St.step at h; rw [hp] at h; cases h
    | stop => unfold Loop.St.step at h; rw [hp] at h; cases h
    | inner l =>
      unfold Loop.St.step at h
      simp only [hp] at h
      have : ∃ a', t = { s with phase := .activating a' } := by
        split at h
        · cases h
        · obtain ⟨a', -, rfl⟩ := Option.map_eq_some_iff.1 h
          exact ⟨a', rfl⟩
      obtain ⟨a', rfl⟩ := this
      simp [Loop.stepLines]
    | back =>
      unfold Loop.St.step at h
      simp only [hp] at h
      split at h
      · cases h; simp [Loop.stepLines]
      · cases h

/-- **C155 (the last words).** The log says that the example exits exactly when the loop has ended in the regular way, and that there
were no matches exactly when that is why. -/
theorem C155_last_words (e : Env) (junk : Str → Option Match) (f : Loop.Flags) (evs : List (Loop.Lbl × Option Front.Status))
    (t : Loop.St) (hr : (Loop.St.init f).run e junk f.ignoreEmpty (evs.map (·.1)) = some t) :
    (Loop.Line.exiting ∈ Loop.lines e junk f (Loop.St.init f) evs ↔ t.phase = .ended .budget ∨ t.phase = .ended .empty) ∧
    (Loop.Line.noMatches ∈ Loop.lines e junk f (Loop.St.init f) evs ↔ t.phase = .ended .empty) := by
  have key : ∀ (evs : List (Loop.Lbl × Option Front.Status)) (s t : Loop.St), (∀ x, s.phase ≠ .ended x) →
      s.run e junk f.ignoreEmpty (evs.map (·.1)) = some t →
      (Loop.Line.exiting ∈ Loop.lines e junk f s evs ↔ t.phase = .ended .budget ∨ t.phase = .ended .empty) ∧
      (Loop.Line.noMatches ∈ Loop.lines e junk f s evs ↔ t.phase = .ended .empty) := by
    intro evs
    induction evs with
    | nil =>
      intro s t hs h
      cases h
      simp [Loop.lines, hs]
    | cons l ls ih =>
      intro s t hs h
      rw [List.map_cons, Loop.St.run] at h
      cases hst : s.step e junk f.ignoreEmpty l.1 with
      | none => rw [hst] at h; cases h
      | some s1 =>
        rw [hst] at h
        have h' : s1.run e junk f.ignoreEmpty (ls.map (·.1)) = some t := h
        have h1 := step_ends e junk f s s1 l hst
        rw [Loop.lines]
        simp only [hst, List.mem_append]
        by_cases hx : ∃ x, s1.phase = .ended x
        · obtain ⟨x, hx⟩ := hx
          cases ls with
          | nil =>
            cases h'
            simpa [Loop.lines] using h1
          | cons l' ls =>
            exfalso
            rw [List.map_cons, Loop.St.run] at h'
            have : s1.step e junk f.ignoreEmpty l'.1 = none := by
              unfold Loop.St.step
              rw [hx]
            rw [this] at h'
            cases h'
        · have hx' : ∀ x, s1.phase ≠ .ended x := fun x h => hx ⟨x, h⟩
          have h2 := ih s1 t hx' h'
          rw [h1.1, h1.2, h2.1, h2.2]
          simp [hx']
  exact key evs _ t (fun x h => by cases h) hr

private theorem run_split (e : Env) (junk : Str → Option Match) (f : Loop.Flags) (a b : List (Loop.Lbl × Option Front.Status)) :
    ∀ (s t : Loop.St), s.run e junk f.ignoreEmpty ((a ++ b).map (·.1)) = some t → ∃ u, s.run e junk f.ignoreEmpty (a.map (·.1)) = some u ∧
      u.run e junk f.ignoreEmpty (b.map (·.1)) = some t ∧ Loop.lines e junk f s (a ++ b) = Loop.lines e junk f s a ++ Loop.lines e junk f u b := by
  induction a with
  | nil => intro s t h; exact ⟨s, rfl, h, rfl⟩
  | cons l a ih =>
    intro s t h
    rw [List.cons_append, List.map_cons, Loop.St.run] at h
    cases hst : s.step e junk f.ignoreEmpty l.1 with
    | none => rw [hst] at h; cases h
    | some s1 =>
      rw [hst] at h
      obtain ⟨u, h1, h2, h3⟩ := ih s1 t h
      refine ⟨u, ?_, h2, ?_⟩
      · rw [List.map_cons, Loop.St.run, hst]; exact h1
      · rw [List.cons_append, Loop.lines, Loop.lines]
        simp only [hst, h3, List.append_assoc]

/-- **C155 (nothing after the last words).** A loop that ends in the regular way says so in its last line, and nowhere else; if it ends for
lack of matches, the line before says that. -/
theorem C155_end (e : Env) (junk : Str → Option Match) (f : Loop.Flags) (evs : List (Loop.Lbl × Option Front.Status))
    (t : Loop.St) (hr : (Loop.St.init f).run e junk f.ignoreEmpty (evs.map (·.1)) = some t) :
    (t.phase = .ended .budget → ∃ ls, Loop.lines e junk f (Loop.St.init f) evs = ls ++ [.exiting] ∧ .exiting ∉ ls ∧ .noMatches ∉ ls) ∧
    (t.phase = .ended .empty →
      ∃ ls, Loop.lines e junk f (Loop.St.init f) evs = ls ++ [.noMatches, .exiting] ∧ .exiting ∉ ls ∧ .noMatches ∉ ls) := by
  rcases List.eq_nil_or_concat evs with rfl | ⟨a, l, rfl⟩
  · cases hr
    exact ⟨fun h => (by cases h), fun h => (by cases h)⟩
  · rw [List.concat_eq_append] at hr ⊢
    obtain ⟨u, h1, h2, h3⟩ := run_split e junk f a [l] _ t hr
    have hlast : u.step e junk f.ignoreEmpty l.1 = some t := by
      rw [List.map_cons, Loop.St.run] at h2
      cases hst : u.step e junk f.ignoreEmpty l.1 with
      | none => rw [hst] at h2; cases h2
      | some x => rw [hst] at h2; exact h2
    have hne : ∀ x, u.phase ≠ .ended x := by
      intro x hx
      unfold Loop.St.step at hlast
      rw [hx] at hlast
      cases hlast
    have hu := C155_last_words e junk f a u h1
    have n1 : .exiting ∉ Loop.lines e junk f (Loop.St.init f) a := fun h => (hu.1.1 h).elim (hne _) (hne _)
    have n2 : .noMatches ∉ Loop.lines e junk f (Loop.St.init f) a := fun h => hne _ (hu.2.1 h)
    have hl : Loop.lines e junk f u [l] = Loop.stepLines e junk f u l := by
      rw [Loop.lines]
      simp only [hlast, Loop.lines, List.append_nil]
    rw [h3, hl]
    obtain ⟨l, recv⟩ := l
    have hans : ∀ a, Loop.Line.exiting ∉ Loop.answerLines e recv a ∧ Loop.Line.noMatches ∉ Loop.answerLines e recv a := answer_ends e recv
    cases hp : u.phase with
    | ended x => exact absurd hp (hne x)
    | idle =>
      cases l with
      | cycle c =>
        unfold Loop.St.step at hlast
        simp only [hp] at hlast
        split at hlast
        · cases hlast
          simp only [Loop.stepLines, Loop.cycleLines, Loop.St.cycle]
          cases hrec : Loop.received e junk c.answer with
          | none => exact ⟨fun h => (by cases h), fun h => (by cases h)⟩
          | some ms =>
            simp only
            have ha := hans c.answer
            by_cases hz : (Mm.judge c.draws 0 ms).1.length + (Mm.judge c.draws 0 ms).2.length = 0
            · rw [if_pos hz, if_pos hz]
              by_cases he : (!f.ignoreEmpty && decide (u.emptyCycles ≥ 3)) = true
              · rw [if_pos he, if_pos he]
                refine ⟨fun h => (by cases h), fun _ => ?_⟩
                refine ⟨Loop.lines e junk f (Loop.St.init f) a ++ (Loop.answerLines e recv c.answer ++
                  [.cycle ⟨f.cycles.toNat + 1 - u.left, f.cycles.toNat, (Mm.judge c.draws 0 ms).1.length + (Mm.judge c.draws 0 ms).2.length,
                    (Mm.judge c.draws 0 ms).1.length, (Mm.judge c.draws 0 ms).2.length, Loop.errAtStatus recv⟩]), ?_, ?_, ?_⟩
                · simp only [List.append_assoc, List.cons_append, List.nil_append]
                · simp [n1, ha.1]
                · simp [n2, ha.2]
              · rw [if_neg he]
                exact ⟨fun h => (by rw [show _ = Loop.Phase.idle from hp] at h; cases h), fun h => (by rw [show _ = Loop.Phase.idle from hp] at h; cases h)⟩
            · rw [if_neg hz]
              cases hq : Mm.requeue u.queue (Mm.rejectedIds c.ord (Mm.judge c.draws 0 ms).2) with
              | none => exact ⟨fun h => (by cases h), fun h => (by cases h)⟩
              | some q => exact ⟨fun h => (by cases h), fun h => (by cases h)⟩
        · cases hlast
      | stop =>
        unfold Loop.St.step at hlast
        simp only [hp] at hlast
        split at hlast
        · cases hlast
        · cases hlast
          exact ⟨fun _ => ⟨_, rfl, n1, n2⟩, fun h => (by cases h)⟩
      | inner l => unfold Loop.St.step at hlast; rw [hp] at hlast; cases hlast
      | back => unfold Loop.St.step at hlast; rw [hp] at hlast; cases hlast
    | activating x =>
      have : t.phase = .idle ∨ ∃ y, t.phase = .activating y := by
        unfold Loop.St.step at hlast
        rw [hp] at hlast
        cases l with
        | cycle c => cases hlast
        | stop => cases hlast
        | inner l =>
          simp only at hlast
          split at hlast
          · cases hlast
          · obtain ⟨y, -, rfl⟩ := Option.map_eq_some_iff.1 hlast
            exact .inr ⟨y, rfl⟩
        | back =>
          simp only at hlast
          split at hlast
          · cases hlast; exact .inl rfl
          · cases hlast
      rcases this with h | ⟨y, h⟩
      · rw [h]; exact ⟨fun h => (by cases h), fun h => (by cases h)⟩
      · rw [h]; exact ⟨fun h => (by cases h), fun h => (by cases h)⟩

/-! ## What is said of the tickets of rejected matches -/

/-- The numbers of tickets that the log says were queued. -/
def queuedIn (ls : List Loop.Line) : List Nat := ls.filterMap fun l => match l with | .queued n => some n | _ => none

/-- The tickets of the matches that the numbers drawn reject, in a cycle that got a match. -/
def ticketsRejected (e : Env) (junk : Str → Option Match) (c : Loop.Cycle) : Option Nat :=
  match Loop.received e junk c.answer with
  | none | some [] => none
  | some (m :: ms) => some (((((m :: ms).zipIdx).filter fun x => decide (c.draws x.2 < 2)).flatMap fun x => players x.1).length)

private theorem judge_rejected (r : Nat → Nat) (ms : List (Option Match)) : ∀ n,
    (Mm.judge r n ms).2 = ((ms.zipIdx n).filter fun x => decide (r x.2 < 2)).map (·.1) := by
  induction ms with
  | nil => intro n; rfl
  | cons m ms ih =>
    intro n
    rw [List.zipIdx_cons]
    simp only [Mm.judge, Mm.rejects, List.filter_cons]
    by_cases h : r n ≤ 1
    · simp only [decide_eq_true h, if_true, decide_eq_true (show r n < 2 by omega), List.map_cons, ih (n + 1)]
    · simp only [decide_eq_false h, decide_eq_false (show ¬ r n < 2 by omega), Bool.false_eq_true, if_false, ih (n + 1)]

private theorem queued_append (a b : List Loop.Line) : queuedIn (a ++ b) = queuedIn a ++ queuedIn b := List.filterMap_append

private theorem answer_queued (e : Env) (recv : Option Front.Status) (a : Loop.Invoked) : queuedIn (Loop.answerLines e recv a) = [] := by
  unfold Loop.answerLines queuedIn
  split
  · rfl
  · cases recv <;> rfl
  · rfl
  · refine List.filterMap_eq_nil_iff.2 fun l hl => ?_
    obtain ⟨t, -, ht⟩ := List.mem_filterMap.1 hl
    split at ht
    · cases ht; rfl
    · cases ht

private theorem cycle_queued (e : Env) (junk : Str → Option Match) (ig : Bool) (n : Nat) (s : Loop.St) (c : Loop.Cycle)
    (recv : Option Front.Status) (hord : ∀ g, (c.ord g).Perm g) (hb : (s.cycle e junk ig c).phase ≠ .ended .blocked) :
    queuedIn (Loop.cycleLines e junk ig n s c recv) = (ticketsRejected e junk c).toList := by
  unfold Loop.cycleLines ticketsRejected
  unfold Loop.St.cycle at hb
  cases hr : Loop.received e junk c.answer with
  | none => rfl
  | some ms =>
    obtain ⟨-, -, h3⟩ := judge_counts c.draws ms
    simp only [hr] at hb ⊢
    rw [queued_append, answer_queued, List.nil_append]
    cases ms with
    | nil =>
      rw [if_pos (show _ = 0 from h3)]
      split <;> rfl
    | cons m ms =>
      have hz : ¬ (Mm.judge c.draws 0 (m :: ms)).1.length + (Mm.judge c.draws 0 (m :: ms)).2.length = 0 := by
        rw [h3, List.length_cons]; omega
      rw [if_neg hz] at hb ⊢
      cases hq : Mm.requeue s.queue (Mm.rejectedIds c.ord (Mm.judge c.draws 0 (m :: ms)).2) with
      | none => rw [hq] at hb; exact absurd rfl hb
      | some q =>
        have hl := (rejectedIds_perm c.ord hord (Mm.judge c.draws 0 (m :: ms)).2).length_eq
        rw [List.length_map, judge_rejected, List.flatMap_map] at hl
        simp only [Option.toList_some]
        rw [← hl, ← judge_rejected]
        rfl

/-- **C155 (tickets of rejected matches).** Unless the loop hangs for too many of them (C114), the log says after each cycle that got a
match how many tickets the rejected matches have, whatever order their rosters are visited in. -/
theorem C155_queued (e : Env) (junk : Str → Option Match) (f : Loop.Flags) (evs : List (Loop.Lbl × Option Front.Status))
    (t : Loop.St) (hr : (Loop.St.init f).run e junk f.ignoreEmpty (evs.map (·.1)) = some t)
    (hord : ∀ c ∈ cyclesOf (evs.map (·.1)), ∀ g, (c.ord g).Perm g) (hb : t.phase ≠ .ended .blocked) :
    queuedIn (Loop.lines e junk f (Loop.St.init f) evs) = (cyclesOf (evs.map (·.1))).filterMap (ticketsRejected e junk) := by
  have key : ∀ (evs : List (Loop.Lbl × Option Front.Status)) (s : Loop.St),
      (∀ c ∈ cyclesOf (evs.map (·.1)), ∀ g, (c.ord g).Perm g) → s.run e junk f.ignoreEmpty (evs.map (·.1)) = some t →
      queuedIn (Loop.lines e junk f s evs) = (cyclesOf (evs.map (·.1))).filterMap (ticketsRejected e junk) := by
    intro evs
    induction evs with
    | nil => intro s _ _; rfl
    | cons l ls ih =>
      intro s ho h
      obtain ⟨l, recv⟩ := l
      rw [List.map_cons, Loop.St.run] at h
      cases hst : s.step e junk f.ignoreEmpty l with
      | none => rw [hst] at h; cases h
      | some s1 =>
        rw [hst] at h
        have h' : s1.run e junk f.ignoreEmpty (ls.map (·.1)) = some t := h
        have hnb : s1.phase ≠ .ended .blocked := by
          intro hx
          cases ls with
          | nil => cases h'; exact hb hx
          | cons l' ls =>
            rw [List.map_cons, Loop.St.run] at h'
            have : s1.step e junk f.ignoreEmpty l'.1 = none := by
              unfold Loop.St.step
              rw [hx]
            rw [this] at h'
            cases h'
        rw [Loop.lines]
        simp only [hst]
        rw [queued_append]
        cases l with
        | cycle c =>
          have ho' := ho
          rw [List.map_cons, cyclesOf] at ho'
          rw [ih s1 (fun c hc => ho' c (List.mem_cons_of_mem _ hc)) h', List.map_cons, cyclesOf, List.filterMap_cons]
          have hs1 : s1 = s.cycle e junk f.ignoreEmpty c := by
            unfold Loop.St.step at hst
            split at hst <;> try cases hst
            · rename_i heq
              cases heq
              split at hst <;> cases hst
              rfl
            all_goals (rename_i heq; cases heq)
          rw [hs1] at hnb
          have hc : queuedIn (Loop.stepLines e junk f s (.cycle c, recv)) = _ :=
            cycle_queued e junk f.ignoreEmpty f.cycles.toNat s c recv (ho' c List.mem_cons_self) hnb
          rw [hc]
          cases ticketsRejected e junk c <;> rfl
        | stop => rw [ih s1 ho h']; rfl
        | inner l => rw [ih s1 ho h']; rfl
        | back => rw [ih s1 ho h']; rfl
  exact key evs _ hord hr

/-! ## What is said of an error over REST -/

/-- How often the log says that a part of an answer could not be read. -/
def unreadIn (ls : List Loop.Line) : Nat := (ls.filter fun l => decide (l = .unread)).length

/-- The texts that the example takes from the body of a stream: those of the matches, and one that starts with a quote for an error. -/
private theorem stream_texts {e : Env} (he : EnvOk e) (ms : List (Option Match)) (err : Option Front.Status) (body : Str)
    (hb : body.flatMap charBytes = Loop.bodyBytes e ms err) (hk : ∀ m ∈ ms, OptAll (MatchOk e) m) (hg : ∀ m ∈ ms, OptAll (MatchGo e) m)
    (ht : ∀ s, err = some s → IsText s.msg)
    (hbl : ¬ ((∃ m ∈ ms, HasBlank (optStrings (matchStrings e) m)) ∨ ∃ s, err = some s ∧ Blank s.msg)) :
    ∃ (cs : List Str) (r : Str),
      Mm.readStream (body.length + 1) body = some (cs ++ (if err = none then [] else ['"' :: r])) ∧
      ∀ c ∈ cs, unmarshal (asMmfResponse e) (c.flatMap charBytes) ≠ none := by
  obtain ⟨cs, js, h1, h2, h3, h4, h5⟩ := stream_lines he ms hk hg
  have hdec : ∀ c ∈ cs, unmarshal (asMmfResponse e) (c.flatMap charBytes) ≠ none := by
    clear h1 h4 h5 hk hg hb ht hbl
    induction h2 generalizing cs with
    | nil => cases h3; intro c hc; cases hc
    | cons hm _ ih =>
      cases h3 with
      | cons hj3 h3 =>
        intro c hc
        rcases List.mem_cons.1 hc with rfl | hc
        · rw [(unmarshal_iff (asMmfResponse_iff e) _ _).mpr ⟨_, hj3, hm⟩]
          exact Option.some_ne_none _
        · exact ih _ h3 c hc
  rw [not_or] at hbl
  unfold Loop.bodyBytes at hb
  rw [h1, envelope_bytes] at hb
  cases err with
  | none =>
    have hbody : body = cs.flatMap Mm.envelope := by
      rw [List.append_nil] at hb
      exact Json.flatMap_charBytes_inj hb
    subst hbody
    refine ⟨cs, [], ?_, hdec⟩
    rw [(C76_exactly cs h4).1 fun c hc x hx hw => hbl.1 (h5.mp ⟨c, hc, x, hx, hw⟩), if_pos rfl, List.append_nil]
  | some s =>
    obtain ⟨r, hr, hrn, hrw⟩ := errLine_text s (ht s rfl)
    have hbody : body = cs.flatMap Mm.envelope ++ ("{\"error\":{\"".toList ++ r ++ ['}', '}']) := by
      apply Json.flatMap_charBytes_inj
      rw [hb, List.flatMap_append, ← hr]
    subst hbody
    refine ⟨cs, r ++ ['}'], ?_, hdec⟩
    have hwhite : ∀ c ∈ cs, ∀ x ∈ c, Mm.isSpace x = false := by
      intro c hc x hx
      cases hsx : Mm.isSpace x with
      | false => rfl
      | true => exact absurd (h5.mp ⟨c, hc, x, hx, (isSpace_iff x).mp hsx⟩) hbl.1
    have hr0 : ∀ c ∈ r, Mm.isSpace c = false := by
      intro c hc
      cases hsc : Mm.isSpace c with
      | false => rfl
      | true => exact absurd ⟨s, rfl, hrw.mp ⟨c, hc, (isSpace_iff c).mp hsc⟩⟩ hbl.2
    have hx : ∀ c ∈ "{\"error\":{\"".toList ++ r ++ ['}', '}'], Mm.isSpace c = false := by
      intro c hc
      rcases List.mem_append.1 hc with hc | hc
      · rcases List.mem_append.1 hc with hc | hc
        · exact (by decide +kernel : ∀ x ∈ "{\"error\":{\"".toList, Mm.isSpace x = false) c hc
        · exact hr0 c hc
      · exact (by decide : ∀ x ∈ ['}', '}'], Mm.isSpace x = false) c hc
    have hp : "{\"error\":{\"".toList = "{\"error\":{".toList ++ ['"'] := by decide +kernel
    have hlen : ("{\"error\":{\"".toList ++ r ++ ['}', '}']).length = r.length + 13 := by
      rw [List.length_append, List.length_append]
      have : "{\"error\":{\"".toList.length = 11 := by decide +kernel
      rw [this]
      simp
      omega
    have hall := read_lines cs hwhite _ _ _ (read_last hx (by omega))
    have hle : ∀ cs : List Str, cs.length ≤ (cs.flatMap Mm.envelope).length := by
      intro cs
      induction cs with
      | nil => simp
      | cons c cs ih =>
        rw [List.flatMap_cons, List.length_append, List.length_cons]
        have : 1 ≤ (Mm.envelope c).length := by simp only [Mm.envelope, List.length_append, List.length_cons]; omega
        omega
    have hle := hle cs
    rw [read_more hall (by rw [List.length_append (as := cs.flatMap Mm.envelope)]; omega), if_neg (by simp)]
    have h10 : "{\"error\":{".toList.length = 10 := by decide +kernel
    rw [hlen, hp, List.append_assoc, List.append_assoc, List.drop_left' h10]
    have : (['"'] ++ (r ++ ['}', '}'])).take (r.length + 13 - 11) = '"' :: (r ++ ['}']) := by
      rw [show r.length + 13 - 11 = (r.length + 1) + 1 by omega]
      show '"' :: ((r ++ (['}'] ++ ['}'])).take (r.length + 1)) = _
      rw [← List.append_assoc, List.take_left' (by simp)]
    rw [this]

/-- **C155 (an error over REST).** Partial: the full claim has the error in the log.  Of the error that ends a stream over REST the log has
nothing but a line that a part of the answer could not be read, and there is such a line only then. -/
theorem C155_unread_partial {e : Env} (he : EnvOk e) (junk : Str → Option Match) (ig : Bool) (n : Nat) (s : Loop.St) (c : Loop.Cycle)
    (recv : Option Front.Status) (ms : List (Option Match)) (err : Option Front.Status) (ho : OverRest e (.streamed ms err) c.answer)
    (hok : ∀ m ∈ ms, OptAll (MatchOk e) m) (hgo : ∀ m ∈ ms, OptAll (MatchGo e) m) (ht : ∀ s, err = some s → IsText s.msg)
    (hb : ¬ ((∃ m ∈ ms, HasBlank (optStrings (matchStrings e) m)) ∨ ∃ s, err = some s ∧ Blank s.msg)) :
    unreadIn (Loop.cycleLines e junk ig n s c recv) = (if err = none then 0 else 1) ∧
      failuresIn (Loop.cycleLines e junk ig n s c recv) = [] := by
  cases ha : c.answer with
  | grpc r => rw [ha] at ho; cases ho
  | rest r =>
    rw [ha] at ho
    cases ho with
    | streamed hne hbody =>
      rename_i body
      obtain ⟨cs, r, h1, h2⟩ := stream_texts he ms err body hbody hok hgo ht hb
      have hans : Loop.answerLines e recv (.rest (some (200, body))) = if err = none then [] else [.unread] := by
        simp only [Loop.answerLines, appendRunes]
        rw [h1, Option.getD_some, List.filterMap_append]
        refine (congrArg (· ++ _) (List.filterMap_eq_nil_iff.2 fun t htc => ?_)).trans ?_
        · have := h2 t htc
          split
          · rename_i hu; exact absurd hu this
          · rfl
        rw [List.nil_append]
        by_cases h0 : err = none
        · rw [if_pos h0, if_pos h0]; rfl
        · rw [if_neg h0, if_neg h0, List.filterMap_cons, List.flatMap_cons, Json.charBytes_ascii (c := '"') (by decide)]
          rw [show (['"'] ++ r.flatMap charBytes) = '"' :: r.flatMap charBytes from rfl, quote_unread]
          rfl
      have hrec : ∃ xs, Loop.received e junk (.rest (some (200, body))) = some xs := by
        simp only [Loop.received, if_true, h1, Option.map_some]
        exact ⟨_, rfl⟩
      obtain ⟨xs, hrec⟩ := hrec
      have ut : ∀ (x : Loop.CycleLine) (t : List Loop.Line), unreadIn t = 0 → failuresIn t = [] →
          unreadIn ((if err = none then [] else [.unread]) ++ .cycle x :: t) = (if err = none then 0 else 1) ∧
          failuresIn ((if err = none then [] else [.unread]) ++ .cycle x :: t) = [] := by
        intro x t h1 h2
        by_cases h0 : err = none
        · rw [if_pos h0, if_pos h0]
          exact ⟨h1, h2⟩
        · rw [if_neg h0, if_neg h0]
          refine ⟨?_, h2⟩
          show (unreadIn t) + 1 = 1
          rw [h1]
      unfold Loop.cycleLines
      rw [ha, hrec, hans]
      refine ut _ _ ?_ ?_
      · split <;> split <;> rfl
      · split <;> split <;> rfl

-- The run of C114's case: a match, and then an error.
example : Loop.lines sampleEnv (fun _ => none) Loop.Flags.default (Loop.St.init Loop.Flags.default)
    [(.cycle ⟨.rest (some (200, Loop.bodyBytes sampleEnv [some sampleMatch] (some lateError))), fun _ => 50, id⟩, none)] =
    [.unread, .cycle ⟨1, 2147483647, 2, 2, 0, none⟩, .queued 0] := by decide +kernel

private theorem pad_digits {w n : Nat} {c : Char} (h : c ∈ fmtNatPad w n) : c.isDigit = true := by
  unfold fmtNatPad at h
  rcases List.mem_append.1 h with h | h
  · rw [List.eq_of_mem_replicate h]; rfl
  · exact isDigit_fmtNat h

/-- **C155 (text).** The line tells its five numbers, whatever the text of an error; with fewer than 100 cycles the numbers of the
cycles take two digits each. -/
theorem C155_text (said : Front.Status → Str) (l : Loop.CycleLine) :
    (∀ l' : Loop.CycleLine, Loop.cycleText said l = Loop.cycleText said l' →
      l.number = l'.number ∧ l.of = l'.of ∧ l.received = l'.received ∧ l.approved = l'.approved ∧ l.rejected = l'.rejected ∧
        (l.error = none → l'.error = none → l = l')) ∧
    (l.number ≤ l.of → l.of < 100 →
      ∃ a b c d : Char, ∃ t, Loop.cycleText said l = [a, b, '/', c, d, ' '] ++ t ∧
        Nat.ofDigitChars 10 [a, b] 0 = l.number ∧ Nat.ofDigitChars 10 [c, d] 0 = l.of) := by
  have hp : ∀ (x : Char) (w n : Nat), x.isDigit = false → x ∉ fmtNatPad w n := fun x w n hx hm => by
    rw [pad_digits hm] at hx; cases hx
  have hn : ∀ (x : Char) (n : Nat), x.isDigit = false → x ∉ fmtNat n := fun x n hx hm => by
    rw [isDigit_fmtNat hm] at hx; cases hx
  have cutP : ∀ (x : Char) (a b : Nat) (t u : Str), x.isDigit = false →
      fmtNatPad 2 a ++ (x :: t) = fmtNatPad 2 b ++ (x :: u) → a = b ∧ t = u := by
    intro x a b t u hx h
    have := congrArg (splitFirst x) h
    rw [splitFirst_append _ _ _ (hp x 2 a hx), splitFirst_append _ _ _ (hp x 2 b hx)] at this
    cases fmtNatPad_injective this
    exact ⟨rfl, (List.cons.inj (List.append_cancel_left h)).2⟩
  have cut : ∀ (a b : Nat) (s t u : Str), fmtNat a ++ (' ' :: s ++ t) = fmtNat b ++ (' ' :: s ++ u) → a = b ∧ t = u := by
    intro a b s t u h
    have := congrArg (splitFirst ' ') h
    rw [List.cons_append, List.cons_append, splitFirst_append _ _ _ (hn ' ' a rfl), splitFirst_append _ _ _ (hn ' ' b rfl)] at this
    cases fmtNat_injective this
    exact ⟨rfl, List.append_cancel_left (List.append_cancel_left h)⟩
  constructor
  · intro l' h
    unfold Loop.cycleText at h
    simp only [List.append_assoc] at h
    obtain ⟨e1, h⟩ := cutP '/' _ _ _ _ rfl h
    obtain ⟨e2, h⟩ := cutP ' ' _ _ _ _ rfl h
    replace h := List.append_cancel_left (as := "Invokingmmfs complete, ".toList) h
    obtain ⟨e3, h⟩ := cut _ _ "matches received, ".toList _ _ h
    obtain ⟨e4, h⟩ := cut _ _ "approved ".toList _ _ h
    obtain ⟨e5, h⟩ := cut _ _ "rejected, error: ".toList _ _ h
    refine ⟨e1, e2, e3, e4, e5, fun h1 h2 => ?_⟩
    cases l; cases l'
    cases e1; cases e2; cases e3; cases e4; cases e5; cases h1; cases h2
    rfl
  · intro h1 h2
    have two : ∀ n, n < 100 → ∃ a b : Char, fmtNatPad 2 n = [a, b] ∧ Nat.ofDigitChars 10 [a, b] 0 = n := by
      intro n hlt
      have hl : (fmtNatPad 2 n).length = 2 := Serve.fmtNatPad_length (by omega) (by omega)
      have hv := fmtNatPad_ofDigitChars 2 n
      match hx : fmtNatPad 2 n, hl with
      | [a, b], _ => exact ⟨a, b, rfl, by rw [← hx]; exact hv⟩
    obtain ⟨a, b, hab, va⟩ := two l.number (by omega)
    obtain ⟨c, d, hcd, vc⟩ := two l.of h2
    have ht : ∃ t, Loop.cycleText said l = [a, b, '/', c, d, ' '] ++ t := by
      unfold Loop.cycleText
      rw [hab, hcd]
      simp only [List.append_assoc]
      exact ⟨_, rfl⟩
    obtain ⟨t, ht⟩ := ht
    exact ⟨a, b, c, d, t, ht, va, vc⟩

-- The text of a line.
example : Loop.cycleText (fun _ => []) ⟨3, 12, 10, 9, 1, none⟩ =
    "03/12 Invokingmmfs complete, 10 matches received, 9 approved 1 rejected, error: <nil>".toList := by decide +kernel

end OM.Props
