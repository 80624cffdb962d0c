import Verif.Spec.Text
import Verif.Lemmas.Matchmaker
/-!
# Properties C63-C67, C76: the example matchmaker
-/
namespace OM.Props
open OM.Mm

/-! ## C63 -/

/-- **C63 (batches).** In every execution, with any other goroutines filling the channel
meanwhile: each call carries between 1 and 500 ids, all but the last exactly 500; the
ids of the calls, followed by the batch being gathered and what is still in the
channel, are exactly the ids that were ever put in the channel, in order — so each is
activated at most once and none is lost; and if nothing was added, all queued ids are
in the calls on return. -/
theorem C63_batches (q0 : List Str) (ls : List Lbl) (s : St) (h : (St.init q0).run ls = some s) :
    (∀ c ∈ s.calls, 0 < c.length ∧ c.length ≤ 500) ∧
      (∀ c ∈ s.calls.dropLast, c.length = 500) ∧
      (∃ gathering, s.calls.flatten ++ gathering ++ s.queue = q0 ++ pushed ls) ∧
      (s.pc = .returned → s.calls.flatten ++ s.queue = q0 ++ pushed ls) ∧
      (s.pc = .returned → pushed ls = [] → s.calls.flatten = q0) := by
  have hi := inv h
  refine ⟨hi.legal, hi.full', ⟨_, hi.split⟩, fun hr => ?_, fun hr hp => ?_⟩
  · have := hi.split
    simpa [pend, hr] using this
  · have := hi.split
    have he := hi.ended (.inr hr)
    rw [hi.drained hp he.1 he.2, hp] at this
    simpa [pend, hr] using this

/-- **C63 (termination).** If nobody adds to the channel meanwhile, every execution has
at most `8 n + 10` steps, the goroutines' included, and is never stuck before
`activateTickets` has returned. -/
theorem C63_terminates (q0 : List Str) (ls : List Lbl) (s : St) (h : (St.init q0).run ls = some s)
    (hl : pushed ls = []) :
    ls.length ≤ 8 * q0.length + 10 ∧
      (s.pc = .returned ∨ ∃ l, (∀ id, l ≠ .push id) ∧ (s.step l).isSome) := by
  have hn : ∀ l ∈ ls, isPush l = false := by
    clear h
    induction ls with
    | nil => intro l h; simp at h
    | cons x ls ih =>
      intro l hm
      cases x with
      | push id => simp [pushed] at hl
      | main => rcases List.mem_cons.1 hm with rfl | hm; exacts [rfl, ih hl l hm]
      | «begin» i => rcases List.mem_cons.1 hm with rfl | hm; exacts [rfl, ih hl l hm]
      | finish i => rcases List.mem_cons.1 hm with rfl | hm; exacts [rfl, ih hl l hm]
  refine ⟨by have := run_bound q0 ls s h hn; omega, ?_⟩
  by_cases hr : s.pc = .returned
  · exact .inl hr
  · obtain ⟨l, h1, h2⟩ := not_stuck h hr
    refine .inr ⟨l, fun id e => ?_, h2⟩
    rw [e] at h1; cases h1

/-- **C63 (the channel).** The channel never holds more than 10000 ids, and a producer waits exactly while it holds
that many. -/
theorem C63_channel (q0 : List Str) (h0 : q0.length ≤ 10000) (ls : List Lbl) (s : St) (h : (St.init q0).run ls = some s) :
    s.queue.length ≤ 10000 ∧ ∀ id, (s.step (.push id)).isSome ↔ s.queue.length < 10000 := by
  have hs : ∀ (ls : List Lbl) (s s' : St), s.queue.length ≤ 10000 → s.run ls = some s' → s'.queue.length ≤ 10000 := by
    intro ls
    induction ls with
    | nil => intro s s' h hr; cases hr; exact h
    | cons l ls ih =>
      intro s s' h hr
      obtain ⟨s1, h1, h2⟩ := Option.bind_eq_some_iff.1 hr
      refine ih s1 s' ?_ h2
      cases l with
      | push id =>
        have h1 : (if s.queue.length < chanCap then some { s with queue := s.queue ++ [id] } else none) = some s1 := h1
        have hc : chanCap = 10000 := rfl
        by_cases hq : s.queue.length < chanCap
        · rw [if_pos hq] at h1
          cases h1; simp only [List.length_append, List.length_singleton]; omega
        · rw [if_neg hq] at h1; cases h1
      | «begin» i => simp only [St.step] at h1; split at h1 <;> cases h1; exact h
      | finish i => simp only [St.step] at h1; split at h1 <;> cases h1; exact h
      | main =>
        simp only [St.step, St.main] at h1
        repeat' split at h1
        all_goals first | (cases h1; done) | (cases h1; first | exact h | (simp_all only [List.length_cons]; omega))
  refine ⟨hs ls _ _ h0 h, fun id => ?_⟩
  show (if s.queue.length < chanCap then some { s with queue := s.queue ++ [id] } else none : Option St).isSome ↔ s.queue.length < chanCap
  by_cases hq : s.queue.length < chanCap
  · simp [hq]
  · simp [hq]

/-- A schedule in which only `activateTickets` itself runs. -/
def soloSchedule (n : Nat) : List Lbl := List.replicate n .main

example : ((St.init [['a'], ['b']]).run (soloSchedule 8)).map (fun s => (s.calls, s.queue, s.pc)) =
    some ([[['a'], ['b']]], [], .returned) := by decide +kernel
example : ((St.init []).run (soloSchedule 6)).map (fun s => (s.calls, s.pc)) = some ([], .returned) := by decide +kernel

/-! ## C64 -/

/-- The full claim: when `activateTickets` has returned, its calls have completed. -/
def C64_statement : Prop :=
  ∀ (q0 : List Str) (ls : List Lbl) (s : St), (St.init q0).run ls = some s → s.pc = .returned →
    ∀ g ∈ s.phases, g = .finished

/-- **C64, refuted.** `activationWg.Add` runs inside the goroutine: if it has not been
scheduled yet, `Wait` returns at once, before the call has even started. -/
theorem C64_waits_refuted : ¬ C64_statement := by
  intro h
  have h1 : ((St.init [['a']]).run (soloSchedule 7)).map (fun s => (s.pc, s.phases)) =
      some (.returned, [.created]) := by decide +kernel
  obtain ⟨s, hs, he⟩ := Option.map_eq_some_iff.1 h1
  rw [Prod.mk.injEq] at he
  have := h _ _ s hs he.1 .created (by rw [he.2]; simp)
  cases this

/-- **C64, the part that holds**: at the moment `Wait` returns, every call that had begun
has completed; only calls not begun yet can be outstanding. -/
theorem C64_begun_calls_complete_partial (q0 : List Str) (ls : List Lbl) (s s' : St)
    (h : (St.init q0).run ls = some s) (hw : s.pc = .wait) (hs : s.step .main = some s') :
    s'.pc = .returned ∧ s'.phases.length = s'.calls.length ∧ ∀ g ∈ s'.phases, g = .created ∨ g = .finished := by
  have hi := inv h
  simp only [St.step, St.main, hw] at hs
  split at hs
  · rename_i h0
    cases hs
    refine ⟨rfl, hi.len, fun g hg => ?_⟩
    have hc := hi.wg
    rw [h0] at hc
    cases g with
    | created => exact .inl rfl
    | finished => exact .inr rfl
    | calling =>
      have := List.count_pos_iff.2 hg
      dsimp only at this
      omega
  · cases hs

/-- One step of `activateTickets` while no goroutine has begun. -/
private theorem main_alone {s : St} (hw : s.wg = 0) (hp : ∀ g ∈ s.phases, g = .created) :
    s.pc = .returned ∨ ∃ s', s.step .main = some s' ∧ s'.wg = 0 ∧ ∀ g ∈ s'.phases, g = .created := by
  simp only [St.step, St.main]
  cases hpc : s.pc with
  | outer =>
    right
    dsimp only
    split
    · exact ⟨_, rfl, hw, hp⟩
    · exact ⟨_, rfl, hw, hp⟩
  | collect =>
    right
    dsimp only
    split
    · exact ⟨_, rfl, hw, hp⟩
    · split
      · exact ⟨_, rfl, hw, hp⟩
      · exact ⟨_, rfl, hw, hp⟩
  | send =>
    right
    dsimp only
    split
    · refine ⟨_, rfl, hw, fun g hg => ?_⟩
      rcases List.mem_append.1 hg with hg | hg
      · exact hp g hg
      · exact List.mem_singleton.1 hg
    · exact ⟨_, rfl, hw, hp⟩
  | wait =>
    right
    dsimp only
    rw [if_pos hw]
    exact ⟨_, rfl, hw, hp⟩
  | returned => exact .inl rfl

private theorem run_snoc (s : St) (ls : List Lbl) (l : Lbl) :
    s.run (ls ++ [l]) = (s.run ls).bind fun s' => s'.step l := by
  induction ls generalizing s with
  | nil => simp [St.run]
  | cons m ls ih =>
    simp only [List.cons_append, St.run]
    cases s.step m with
    | none => rfl
    | some s' => exact ih s'

/-- **C64, how bad it is**: whatever is queued, `activateTickets` can return when not one of its calls has begun. -/
theorem C64_may_wait_for_nothing (q0 : List Str) :
    ∃ ls s, (St.init q0).run ls = some s ∧ s.pc = .returned ∧ s.calls.flatten = q0 ∧ s.phases.length = s.calls.length ∧
      ∀ g ∈ s.phases, g = .created := by
  have hk : ∀ k, ∃ j s, (St.init q0).run (List.replicate j .main) = some s ∧ s.wg = 0 ∧ (∀ g ∈ s.phases, g = .created) ∧
      (j = k ∨ s.pc = .returned) := by
    intro k
    induction k with
    | zero => exact ⟨0, _, rfl, rfl, by simp [St.init], .inl rfl⟩
    | succ k ih =>
      obtain ⟨j, s, h1, h2, h3, h4⟩ := ih
      rcases h4 with rfl | h4
      · rcases main_alone h2 h3 with h | ⟨s', h5, h6, h7⟩
        · exact ⟨j, s, h1, h2, h3, .inr h⟩
        · exact ⟨j + 1, s', by rw [List.replicate_succ', run_snoc, h1]; exact h5, h6, h7, .inl rfl⟩
      · exact ⟨j, s, h1, h2, h3, .inr h4⟩
  obtain ⟨j, s, h1, -, h3, h4⟩ := hk (8 * q0.length + 11)
  have hpush : pushed (List.replicate j .main) = [] := by
    clear h1 h4
    induction j with
    | zero => rfl
    | succ j ih => rw [List.replicate_succ]; exact ih
  have hr : s.pc = .returned := by
    rcases h4 with rfl | h4
    · have := (C63_terminates q0 _ s h1 hpush).1
      simp at this
    · exact h4
  exact ⟨_, s, h1, hr, (C63_batches q0 _ s h1).2.2.2.2 hr hpush, (inv h1).len, h3⟩

example : ∃ s, (St.init [['a']]).run (List.replicate 5 .main ++ [.begin 0, .main, .finish 0]) = some s ∧ s.pc = .wait ∧
    (s.step .main).isSome := by
  have h1 : ((St.init [['a']]).run (List.replicate 5 .main ++ [.begin 0, .main, .finish 0])).map
      (fun s => (s.pc, (s.step .main).isSome)) = some (.wait, true) := by decide +kernel
  obtain ⟨s, hs, he⟩ := Option.map_eq_some_iff.1 h1
  rw [Prod.mk.injEq] at he
  exact ⟨s, hs, he.1, he.2⟩

/-! ## C66 -/

/-- The full claim: re-queueing never blocks, starting from an empty channel. -/
def C66_statement : Prop := ∀ ids : List Str, (requeue [] ids).isSome

theorem requeue_eq (ids : List Str) : ∀ q : List Str, q.length ≤ chanCap →
    requeue q ids = if q.length + ids.length ≤ chanCap then some (q ++ ids) else none := by
  induction ids with
  | nil => intro q hq; simp [requeue, hq]
  | cons id ids ih =>
    intro q hq
    unfold requeue
    by_cases hlt : q.length < chanCap
    · rw [if_pos hlt, ih _ (by simp; omega)]
      simp only [List.length_append, List.length_cons, List.length_nil, List.append_assoc, List.singleton_append]
      congr 1
      rw [eq_iff_iff]; omega
    · rw [if_neg hlt, if_neg (by simp; omega)]

/-- **C66, refuted**: with more than 10000 rejected tickets in a cycle the loop, the
channel's only receiver, blocks on its own send. -/
theorem C66_never_blocks_refuted : ¬ C66_statement := by
  intro h
  have := h (List.replicate 10001 [])
  rw [requeue_eq _ _ (by simp), if_neg (by rw [List.length_replicate]; decide)] at this
  cases this

/-- **C66, exactly when it holds**: a cycle reaches `activateTickets` iff it rejected at
most 10000 tickets, whatever happened in earlier cycles: then all their ids are in
the channel in order, and after `activateTickets` the channel is empty again. -/
theorem C66_up_to_capacity_partial (ids : List Str) :
    ((requeue [] ids).isSome ↔ ids.length ≤ 10000) ∧
      (∀ q, requeue [] ids = some q → q = ids ∧
        ∀ ls s, (St.init q).run ls = some s → pushed ls = [] → s.pc = .returned → s.queue = [] ∧ s.calls.flatten = ids) := by
  rw [requeue_eq _ _ (by simp)]
  simp only [List.length_nil, Nat.zero_add, List.nil_append]
  refine ⟨by split <;> simp_all [chanCap], fun q hq => ?_⟩
  split at hq
  · cases hq
    refine ⟨rfl, fun ls s h hp hr => ?_⟩
    have he := (inv h).ended (.inr hr)
    exact ⟨(inv h).drained hp he.1 he.2, (C63_batches _ ls s h).2.2.2.2 hr hp⟩
  · cases hq

example : requeue [] (List.replicate 3 ['a']) = some (List.replicate 3 ['a']) := by decide

/-! ## C67 -/

/-- The last `n` of the first `i` cycles had no matches. -/
def Streak (received : Nat → Nat) (n i : Nat) : Prop := n ≤ i ∧ ∀ j, i - n ≤ j → j < i → received j = 0

/-- The loop ends after the first streak of `n` empty cycles, else after its budget. -/
def StopsAfter (n : Nat) (received : Nat → Nat) (budget : Nat) (r : Nat × Exit) : Prop :=
  (r.2 = .empty ∧ r.1 ≤ budget ∧ Streak received n r.1 ∧ ∀ i < r.1, ¬ Streak received n i) ∨
    (r = (budget, .budget) ∧ ∀ i ≤ budget, ¬ Streak received n i)

/-- The full claim. -/
def C67_statement : Prop :=
  ∀ (received : Nat → Nat) (budget : Nat), StopsAfter 3 received budget (cycles false received budget 0 0)

/-- **C67, refuted**: after three empty cycles the loop goes on; it stops at the fourth. -/
theorem C67_stops_at_three_refuted : ¬ C67_statement := by
  intro h
  rcases h (fun _ => 0) 10 with ⟨-, -, -, h4⟩ | ⟨h1, -⟩
  · exact h4 3 (by decide) ⟨by omega, fun _ _ _ => rfl⟩
  · exact absurd h1 (by decide)

theorem cycles_spec (received : Nat → Nat) (budget : Nat) : ∀ left i e, i + left = budget → e ≤ 3 →
    Streak received e i → ¬ Streak received (e + 1) i → (∀ j ≤ i, ¬ Streak received 4 j) →
    StopsAfter 4 received budget (cycles false received left i e) := by
  intro left
  induction left with
  | zero =>
    intro i e hb _ _ _ hno
    obtain rfl : i = budget := by omega
    exact .inr ⟨rfl, hno⟩
  | succ left ih =>
    intro i e hb he hst hnst hno
    unfold cycles
    by_cases h0 : received i = 0
    · rw [if_pos h0]
      have hext : Streak received (e + 1) (i + 1) := by
        refine ⟨by have := hst.1; omega, fun j h1 h2 => ?_⟩
        by_cases hj : j = i
        · rw [hj]; exact h0
        · exact hst.2 j (by omega) (by omega)
      by_cases h3 : e = 3
      · subst h3
        rw [if_pos (by decide)]
        exact .inl ⟨rfl, by dsimp only; omega, hext, fun j hj => hno j (by dsimp only at hj; omega)⟩
      · rw [if_neg (by simp; omega)]
        have hnext : ¬ Streak received (e + 1 + 1) (i + 1) := by
          intro hs
          exact hnst ⟨by have := hs.1; omega, fun j h1 h2 => hs.2 j (by omega) (by omega)⟩
        refine ih (i + 1) (e + 1) (by omega) (by omega) hext hnext fun j hj hs => ?_
        by_cases hji : j ≤ i
        · exact hno j hji hs
        · obtain rfl : j = i + 1 := by omega
          exact hnext ⟨by have := hs.1; omega, fun j h1 h2 => hs.2 j (by omega) h2⟩
    · rw [if_neg h0]
      refine ih (i + 1) 0 (by omega) (by omega) ⟨by omega, fun j h1 h2 => by omega⟩
        (fun hs => h0 (hs.2 i (by omega) (by omega))) fun j hj hs => ?_
      by_cases hji : j ≤ i
      · exact hno j hji hs
      · obtain rfl : j = i + 1 := by omega
        exact h0 (hs.2 i (by omega) (by omega))

/-- **C67, what holds**: the loop stops after the first four consecutive empty cycles, and
otherwise only when its budget is used up; with -ignoreempty only then. -/
theorem C67_stops_at_four_partial (received : Nat → Nat) (budget : Nat) :
    StopsAfter 4 received budget (cycles false received budget 0 0) ∧
      cycles true received budget 0 0 = (budget, .budget) := by
  constructor
  · refine cycles_spec received budget budget 0 0 (by omega) (by omega) ⟨by omega, fun j h1 h2 => by omega⟩
      (fun hs => by have := hs.1; omega) fun j hj hs => by have := hs.1; omega
  · have : ∀ left i e, cycles true received left i e = (i + left, .budget) := by
      intro left
      induction left with
      | zero => intro i e; rfl
      | succ left ih =>
        intro i e
        unfold cycles
        by_cases h0 : received i = 0
        · rw [if_pos h0, show (!true && decide (e ≥ 3)) = false from rfl, if_neg (by decide), ih]
          congr 1; omega
        · rw [if_neg h0, ih]
          congr 1; omega
    simpa using this budget 0 0

example : cycles false (fun i => if i = 2 then 5 else 0) 100 0 0 = (7, .empty) := by decide

/-! ## C65 -/

theorem takeWhile_all {p : Char → Bool} (a : Str) (c : Char) (b : Str) (h : ∀ x ∈ a, p x = true) (hc : p c = false) :
    (a ++ c :: b).takeWhile p = a ∧ (a ++ c :: b).dropWhile p = c :: b := by
  induction a with
  | nil => simp [hc]
  | cons x a ih =>
    have hx := h x (by simp)
    have := ih fun y hy => h y (List.mem_cons_of_mem _ hy)
    simp [hx, this]

theorem takeWhile_whole {p : Char → Bool} (a : Str) (h : ∀ x ∈ a, p x = true) :
    a.takeWhile p = a ∧ a.dropWhile p = [] := by
  induction a with
  | nil => simp
  | cons x a ih =>
    have hx := h x (by simp)
    have := ih fun y hy => h y (List.mem_cons_of_mem _ hy)
    simp [hx, this]

theorem prefix_plain : (resultPrefix.all fun c => !isSpace c) = true := by decide

theorem fscanf_envelope (json rest : Str) (h : ∀ c ∈ json, isSpace c = false) :
    fscanf (envelope json ++ rest) = .word (resultPrefix ++ json ++ ['}']) rest := by
  have hsk : skipBlanks (envelope json ++ rest) = some (envelope json ++ rest) := by
    show skipBlanks ('{' :: _) = some ('{' :: _)
    rw [skipBlanks, if_neg (by decide), if_neg (by decide)]
  have hsplit : envelope json ++ rest = (resultPrefix ++ json ++ ['}']) ++ '\n' :: rest := by
    simp [envelope, resultPrefix]
  have hns : ∀ c ∈ resultPrefix ++ json ++ ['}'], (!isSpace c) = true := by
    intro c hc
    rcases List.mem_append.1 hc with hc | hc
    · rcases List.mem_append.1 hc with hc | hc
      · exact List.all_eq_true.1 prefix_plain c hc
      · rw [h c hc]; rfl
    · obtain rfl : c = '}' := by simpa using hc
      decide
  obtain ⟨h1, h2⟩ := takeWhile_all (p := fun c => !isSpace c) _ '\n' rest hns (by decide)
  unfold fscanf
  rw [hsk]
  have hne : envelope json ++ rest = '{' :: (envelope json ++ rest).tail := rfl
  rw [hne]
  dsimp only
  rw [← hne, hsplit, h1, h2]
  rfl

theorem trim_envelope (json : Str) : trim (resultPrefix ++ json ++ ['}']) = some json := by
  have hlen : (resultPrefix ++ json ++ ['}']).length = json.length + 11 := by simp [resultPrefix]
  unfold trim
  rw [if_pos (by omega), hlen, List.append_assoc, List.drop_left' (by decide)]
  simp

theorem isSpace_iff (c : Char) : isSpace c = true ↔ Spec.White c := by
  simp only [isSpace, Spec.White, Spec.whiteSpace, Bool.or_eq_true, Bool.and_eq_true, decide_eq_true_eq, beq_iff_eq,
    List.mem_cons, List.not_mem_nil, or_false]
  omega

theorem isSpace_false (c : Char) : isSpace c = false ↔ ¬ Spec.White c := by rw [← isSpace_iff]; simp

/-- **C65.** From any sequence of results whose JSON texts contain no white space, the
matchmaker hands exactly those texts, in order, to the JSON decoder, and stops. -/
theorem C65_decodes (jsons : List Str) (h : ∀ j ∈ jsons, ∀ c ∈ j, ¬ Spec.White c) :
    readStream ((jsons.flatMap envelope).length + 1) (jsons.flatMap envelope) = some jsons := by
  simp only [← isSpace_false] at h
  have key : ∀ (js : List Str) (fuel : Nat), (∀ j ∈ js, ∀ c ∈ j, isSpace c = false) → js.length < fuel →
      readStream fuel (js.flatMap envelope) = some js := by
    intro js
    induction js with
    | nil =>
      intro fuel _ hf
      obtain ⟨f, rfl⟩ : ∃ f, fuel = f + 1 := ⟨fuel - 1, by simp at hf; omega⟩
      rfl
    | cons j js ih =>
      intro fuel hj hf
      obtain ⟨f, rfl⟩ : ∃ f, fuel = f + 1 := ⟨fuel - 1, by simp at hf; omega⟩
      rw [List.flatMap_cons, readStream, fscanf_envelope _ _ (hj j (by simp))]
      dsimp only
      rw [trim_envelope, Option.bind_some,
        ih f (fun k hk => hj k (List.mem_cons_of_mem _ hk)) (by simp at hf; omega)]
      rfl
  apply key jsons _ h
  have : ∀ l : List Str, l.length ≤ (l.flatMap envelope).length := by
    intro l
    induction l with
    | nil => simp
    | cons a l ih =>
      have : 1 ≤ (envelope a).length := by simp [envelope, resultPrefix]
      simp only [List.flatMap_cons, List.length_append, List.length_cons]; omega
  have := this jsons
  omega

/-- **C65**, a stream that ends without the last newline (the connection closed after
the closing brace): nothing is lost. -/
theorem C65_last_line (jsons : List Str) (last : Str) (h : ∀ j ∈ jsons ++ [last], ∀ c ∈ j, ¬ Spec.White c) :
    readStream ((jsons.flatMap envelope).length + 2)
      (jsons.flatMap envelope ++ (resultPrefix ++ last ++ ['}'])) = some (jsons ++ [last]) := by
  simp only [← isSpace_false] at h
  have hfin : fscanf (resultPrefix ++ last ++ ['}']) = .word (resultPrefix ++ last ++ ['}']) [] := by
    have hsk : skipBlanks (resultPrefix ++ last ++ ['}']) = some (resultPrefix ++ last ++ ['}']) := by
      show skipBlanks ('{' :: _) = some ('{' :: _)
      rw [skipBlanks, if_neg (by decide), if_neg (by decide)]
    have hns : ∀ c ∈ resultPrefix ++ last ++ ['}'], (!isSpace c) = true := by
      intro c hc
      rcases List.mem_append.1 hc with hc | hc
      · rcases List.mem_append.1 hc with hc | hc
        · exact List.all_eq_true.1 prefix_plain c hc
        · rw [h last (by simp) c hc]; rfl
      · obtain rfl : c = '}' := by simpa using hc
        decide
    have h1 : (resultPrefix ++ last ++ ['}']).takeWhile (fun c => !isSpace c) = resultPrefix ++ last ++ ['}'] :=
      (takeWhile_whole _ hns).1
    have h2 : (resultPrefix ++ last ++ ['}']).dropWhile (fun c => !isSpace c) = [] :=
      (takeWhile_whole _ hns).2
    unfold fscanf
    rw [hsk]
    have hne : resultPrefix ++ last ++ ['}'] = '{' :: (resultPrefix ++ last ++ ['}']).tail := rfl
    rw [hne]
    dsimp only
    rw [← hne, h1, h2]
    rfl
  have key : ∀ (js : List Str) (fuel : Nat), (∀ j ∈ js, ∀ c ∈ j, isSpace c = false) → js.length + 2 ≤ fuel →
      readStream fuel (js.flatMap envelope ++ (resultPrefix ++ last ++ ['}'])) = some (js ++ [last]) := by
    intro js
    induction js with
    | nil =>
      intro fuel _ hf
      obtain ⟨f, rfl⟩ : ∃ f, fuel = f + 2 := ⟨fuel - 2, by simp at hf; omega⟩
      rw [List.flatMap_nil, List.nil_append, readStream, hfin]
      dsimp only
      rw [trim_envelope]
      rfl
    | cons j js ih =>
      intro fuel hj hf
      obtain ⟨f, rfl⟩ : ∃ f, fuel = f + 1 := ⟨fuel - 1, by simp at hf; omega⟩
      rw [List.flatMap_cons, List.append_assoc, readStream, fscanf_envelope _ _ (hj j (by simp))]
      dsimp only
      rw [trim_envelope, Option.bind_some,
        ih f (fun k hk => hj k (List.mem_cons_of_mem _ hk)) (by simp at hf; omega)]
      rfl
  apply key jsons _ fun j hj => h j (by simp [hj])
  have : ∀ l : List Str, l.length ≤ (l.flatMap envelope).length := by
    intro l
    induction l with
    | nil => simp
    | cons a l ih =>
      have : 1 ≤ (envelope a).length := by simp [envelope, resultPrefix]
      simp only [List.flatMap_cons, List.length_append, List.length_cons]; omega
  have := this jsons
  omega

example : readStream 200 (envelope ['{', '}'] ++ (resultPrefix ++ ['{', '1', '}'] ++ ['}'])) =
    some [['{', '}'], ['{', '1', '}']] := by decide +kernel

example : readStream 200 (envelope "{\"match\":{\"id\":\"a\"}}".toList ++ envelope "{}".toList) =
    some ["{\"match\":{\"id\":\"a\"}}".toList, "{}".toList] := by decide +kernel

/-! ## C76 -/

/-- The full claim: any JSON text on one line. -/
def C76_statement : Prop :=
  ∀ jsons : List Str, (∀ j ∈ jsons, '\n' ∉ j) →
    readStream ((jsons.flatMap envelope).length + 1) (jsons.flatMap envelope) = some jsons

theorem expectNewline_blank {c d : Char} {s : Str} (hc : isSpace c = true) (hn : c ≠ '\n') (hd : isSpace d = false) :
    expectNewline (c :: d :: s) = none := by
  have hdn : d ≠ '\n' := by rintro rfl; exact absurd hd (by decide)
  rw [expectNewline, if_neg hn, if_pos hc, expectNewline, if_neg hdn, hd]
  rfl

/-- **C76, refuted**, and how: whenever a result contains a blank followed by a non-blank
(a space in any ticket, match or profile text is enough) the program exits at the first
such result (`Fatalf`). -/
theorem C76_blanks_kill_refuted :
    ¬ C76_statement ∧
    ∀ (a : Str) (c d : Char) (b rest : Str), (∀ x ∈ a, ¬ Spec.White x) → Spec.White c → c ≠ '\n' →
      ¬ Spec.White d → ∀ fuel, readStream fuel (envelope (a ++ c :: d :: b) ++ rest) = none := by
  have key : ∀ (a : Str) (c d : Char) (b rest : Str), (∀ x ∈ a, isSpace x = false) → isSpace c = true → c ≠ '\n' →
      isSpace d = false → ∀ fuel, readStream fuel (envelope (a ++ c :: d :: b) ++ rest) = none := by
    intro a c d b rest ha hc hn hd fuel
    cases fuel with
    | zero => rfl
    | succ fuel =>
      have hsk : skipBlanks (envelope (a ++ c :: d :: b) ++ rest) = some (envelope (a ++ c :: d :: b) ++ rest) := by
        show skipBlanks ('{' :: _) = some ('{' :: _)
        rw [skipBlanks, if_neg (by decide), if_neg (by decide)]
      have hsplit : envelope (a ++ c :: d :: b) ++ rest =
          (resultPrefix ++ a) ++ c :: (d :: (b ++ ['}', '\n'] ++ rest)) := by simp [envelope, resultPrefix]
      have hns : ∀ x ∈ resultPrefix ++ a, (!isSpace x) = true := by
        intro x hx
        rcases List.mem_append.1 hx with hx | hx
        · exact List.all_eq_true.1 prefix_plain x hx
        · rw [ha x hx]; rfl
      obtain ⟨-, h2⟩ := takeWhile_all (p := fun c => !isSpace c) _ c (d :: (b ++ ['}', '\n'] ++ rest)) hns (by simp [hc])
      have hf : fscanf (envelope (a ++ c :: d :: b) ++ rest) = .err := by
        unfold fscanf
        rw [hsk]
        have hne : envelope (a ++ c :: d :: b) ++ rest = '{' :: (envelope (a ++ c :: d :: b) ++ rest).tail := rfl
        rw [hne]
        dsimp only
        rw [← hne, hsplit, h2, expectNewline_blank hc hn hd]
      rw [readStream, hf]
  refine ⟨fun h => ?_, by simpa only [isSpace_false, isSpace_iff] using key⟩
  have h1 := h [['a', ' ', 'b']] (by decide)
  rw [show [['a', ' ', 'b']].flatMap envelope = envelope (['a'] ++ ' ' :: 'b' :: []) ++ [] from rfl,
    key ['a'] ' ' 'b' [] [] (by decide) (by decide) (by decide) (by decide)] at h1
  cases h1

/-- Without a line break before the next visible character, the newline the scan expects
is missing. -/
theorem expectNewline_visible (l r : Str) (d : Char) (hl : '\n' ∉ l) (hd : isSpace d = false) :
    expectNewline (l ++ d :: r) = none := by
  have hdn : d ≠ '\n' := by rintro rfl; exact absurd hd (by decide)
  induction l with
  | nil => rw [List.nil_append, expectNewline, if_neg hdn, hd]; rfl
  | cons x l ih =>
    have hx : x ≠ '\n' := by rintro rfl; exact hl (by simp)
    rw [List.cons_append, expectNewline, if_neg hx]
    split
    · exact ih fun h => hl (List.mem_cons_of_mem _ h)
    · rfl

theorem fscanf_blank (j rest : Str) (hn : '\n' ∉ j) (hw : ∃ c ∈ j, isSpace c = true) :
    fscanf (envelope j ++ rest) = .err := by
  obtain ⟨a, c, b, rfl, ha, hc⟩ : ∃ a c b, j = a ++ c :: b ∧ (∀ x ∈ a, isSpace x = false) ∧ isSpace c = true := by
    clear hn
    induction j with
    | nil => simp at hw
    | cons x j ih =>
      cases hx : isSpace x with
      | true => exact ⟨[], x, j, rfl, by simp, hx⟩
      | false =>
        obtain ⟨c, hc, hs⟩ := hw
        rcases List.mem_cons.1 hc with rfl | hc
        · rw [hx] at hs; cases hs
        · obtain ⟨a, c, b, rfl, ha, hs⟩ := ih ⟨c, hc, hs⟩
          refine ⟨x :: a, c, b, rfl, fun y hy => ?_, hs⟩
          rcases List.mem_cons.1 hy with rfl | hy
          · exact hx
          · exact ha y hy
  have hsk : skipBlanks (envelope (a ++ c :: b) ++ rest) = some (envelope (a ++ c :: b) ++ rest) := by
    show skipBlanks ('{' :: _) = some ('{' :: _)
    rw [skipBlanks, if_neg (by decide), if_neg (by decide)]
  have hsplit : envelope (a ++ c :: b) ++ rest = (resultPrefix ++ a) ++ c :: (b ++ '}' :: ('\n' :: rest)) := by
    simp [envelope, resultPrefix]
  have hns : ∀ x ∈ resultPrefix ++ a, (!isSpace x) = true := by
    intro x hx
    rcases List.mem_append.1 hx with hx | hx
    · exact List.all_eq_true.1 prefix_plain x hx
    · rw [ha x hx]; rfl
  obtain ⟨-, h2⟩ := takeWhile_all (p := fun c => !isSpace c) _ c (b ++ '}' :: ('\n' :: rest)) hns (by simp [hc])
  unfold fscanf
  rw [hsk]
  have hne : envelope (a ++ c :: b) ++ rest = '{' :: (envelope (a ++ c :: b) ++ rest).tail := rfl
  rw [hne]
  dsimp only
  rw [← hne, hsplit, h2, show c :: (b ++ '}' :: ('\n' :: rest)) = (c :: b) ++ '}' :: ('\n' :: rest) from rfl,
    expectNewline_visible _ _ _ (fun h => hn (List.mem_append_right _ h)) (by decide)]

/-- **C76, exactly.** A stream of one-line results is decoded if and only if no result
contains any white space; otherwise the program exits (`Fatalf`), whatever it had read
before. -/
theorem C76_exactly (jsons : List Str) (h : ∀ j ∈ jsons, '\n' ∉ j) :
    ((∀ j ∈ jsons, ∀ c ∈ j, ¬ Spec.White c) →
      readStream ((jsons.flatMap envelope).length + 1) (jsons.flatMap envelope) = some jsons) ∧
    ((∃ j ∈ jsons, ∃ c ∈ j, Spec.White c) → ∀ fuel, readStream fuel (jsons.flatMap envelope) = none) := by
  refine ⟨C65_decodes jsons, ?_⟩
  simp only [← isSpace_iff]
  induction jsons with
  | nil => simp
  | cons j js ih =>
    intro hw fuel
    cases fuel with
    | zero => rfl
    | succ fuel =>
      rw [List.flatMap_cons, readStream]
      by_cases hj : ∃ c ∈ j, isSpace c = true
      · rw [fscanf_blank j _ (h j (by simp)) hj]
      · have hj' : ∀ c ∈ j, isSpace c = false := fun c hc => by
          cases hs : isSpace c with
          | false => rfl
          | true => exact absurd ⟨c, hc, hs⟩ hj
        rw [fscanf_envelope _ _ hj']
        dsimp only
        have : ∃ k ∈ js, ∃ c ∈ k, isSpace c = true := by
          obtain ⟨k, hk, hc⟩ := hw
          rcases List.mem_cons.1 hk with rfl | hk
          · exact absurd hc hj
          · exact ⟨k, hk, hc⟩
        rw [ih (fun k hk => h k (List.mem_cons_of_mem _ hk)) this, trim_envelope]
        rfl

/-- Two results, the second with two blanks in a row before its end. -/
example : (∀ j ∈ [['a'], ['b', ' ', '\t']], '\n' ∉ j) ∧
    ∃ j ∈ [['a'], ['b', ' ', '\t']], ∃ c ∈ j, Spec.White c :=
  ⟨by decide, ['b', ' ', '\t'], by simp, ' ', by simp, by simp [Spec.White, Spec.whiteSpace]⟩

end OM.Props
