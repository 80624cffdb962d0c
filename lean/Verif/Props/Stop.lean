import Verif.Lemmas.Stop
import Mathlib.Tactic.ByContra
/-!
# Properties C141 and C146: an instance that is told to stop; clients that give up
-/
namespace OM.Props
open OM.Stop

/-- **C141 (nothing confirmed is lost).** When a client has been told that its call succeeded, all its updates are in Redis, whenever the
process was told to stop. -/
theorem C141_confirmed_stored (ls : List Lbl) (s : St) (h : St.init.run ls = some s) (c : Call) (hc : c ∈ s.calls) (hok : c.outcome = .ok) :
    c.stored = c.want := by
  obtain ⟨i, hi, rfl⟩ := List.mem_iff_getElem.1 hc
  have inv := inv_run ls inv_init h
  obtain ⟨a, b, d, e, f⟩ := inv.good i _ (List.getElem?_eq_getElem hi)
  have hb := e hok
  have hle : (s.held.take (s.sending.getD 0)).count i ≤ s.held.count i := (List.take_sublist _ _).count_le _
  omega

/-- **C141 (everybody is told).** When the server has stopped, no client waits any more. -/
theorem C141_all_told (ls : List Lbl) (s : St) (h : St.init.run ls = some s) (hp : s.phase = .stopping ∨ s.phase = .ended) (c : Call)
    (hc : c ∈ s.calls) : c.outcome = .ok ∨ c.outcome = .unavailable ∨ c.outcome = .gone := by
  obtain ⟨i, hi, rfl⟩ := List.mem_iff_getElem.1 hc
  have := ((inv_run ls inv_init h).good i _ (List.getElem?_eq_getElem hi)).told hp
  cases ho : s.calls[i].outcome with
  | none => exact absurd ho this
  | ok => exact .inl rfl
  | unavailable => exact .inr (.inl rfl)
  | gone => exact .inr (.inr rfl)

/-- **C141 (at most once).** No update is stored more than once, and only updates of calls that were accepted. -/
theorem C141_stored_once (ls : List Lbl) (s : St) (h : St.init.run ls = some s) (c : Call) (hc : c ∈ s.calls) : c.stored ≤ c.want := by
  obtain ⟨i, hi, rfl⟩ := List.mem_iff_getElem.1 hc
  obtain ⟨a, b, d, -, -⟩ := (inv_run ls inv_init h).good i _ (List.getElem?_eq_getElem hi)
  have hle : (s.held.take (s.sending.getD 0)).count i ≤ s.held.count i := (List.take_sublist _ _).count_le _
  omega

private theorem modify_same (f : Call → Call) (hf : ∀ c, (f c).outcome = c.outcome) (l : List Call) (i : Nat) :
    (l.modify i f).map (·.outcome) = l.map (·.outcome) := by
  apply List.ext_getElem?
  intro k
  simp only [List.getElem?_map, List.getElem?_modify]
  cases l[k]? with
  | none => rfl
  | some c => by_cases hk : i = k <;> simp [hk, hf]

private theorem results_same (held : List Nat) (cs : List Call) : (results held cs).map (·.outcome) = cs.map (·.outcome) := by
  apply List.ext_getElem?
  intro k
  simp only [List.getElem?_map, results_get]
  cases cs[k]? <;> rfl

/-- **C141 (no new calls).** After the stop no call is accepted and no client is told anything any more; its calls are the same. -/
theorem C141_closed (s s' : St) (l : Lbl) (hp : s.phase = .stopping ∨ s.phase = .ended) (h : s.step l = some s') :
    (s'.phase = .stopping ∨ s'.phase = .ended) ∧ s'.calls.map (·.outcome) = s.calls.map (·.outcome) := by
  obtain ⟨phase, signal, calls, held, sending⟩ := s
  simp only at hp
  have h1 : phase ≠ .serving := by rintro rfl; simp at hp
  have h2 : phase ≠ .starting := by rintro rfl; simp at hp
  cases l <;> simp only [St.step] at h
  case signal => split at h <;> cases h; exact ⟨hp, rfl⟩
  case serve => rw [if_neg h2] at h; cases h
  case call => rw [if_neg h1] at h; cases h
  case take i =>
    split at h
    · cases h
    split at h
    · split at h
      · rename_i c hc _
        cases h
        refine ⟨hp, ?_⟩
        apply List.ext_getElem?
        intro k
        simp only [List.getElem?_map, List.getElem?_set]
        by_cases hk : i = k
        · subst hk; obtain ⟨hlt, e⟩ := List.getElem?_eq_some_iff.1 hc; simp [hlt, e]
        · simp [hk]
      · cases h
    · cases h
  case send => split at h; · cases h
               split at h <;> cases h; exact ⟨hp, rfl⟩
  case exec =>
    split at h
    · split at h
      · cases h; exact ⟨hp, modify_same (fun c => { c with stored := c.stored + 1 }) (fun _ => rfl) _ _⟩
      · cases h
    · cases h
  case done =>
    split at h
    · cases h
    split at h
    · cases h; exact ⟨hp, results_same _ _⟩
    · cases h
  case answer i => split at h; · exact absurd rfl h1
                   cases h
  case giveUp i => split at h; · exact absurd rfl h1
                   cases h
  case stop => rw [if_neg (fun hh => h1 hh.1)] at h; cases h
  case exit => split at h <;> cases h; exact ⟨.inr rfl, rfl⟩

/-- **C141 (no signal is lost).** From when `start` has asked for signals (server.go:37), a signal that comes ends the process, whatever the
calls and the queue are doing: nothing but the steps of `start` itself is needed. -/
theorem C141_ends (ls : List Lbl) (s : St) (h : St.init.run ls = some s) (hs : .signal ∈ ls) :
    ∃ own s', (∀ l ∈ own, l = .serve ∨ l = .stop ∨ l = .exit) ∧ own.length ≤ 3 ∧ s.run own = some s' ∧ s'.phase = .ended := by
  have hsig : s.signal = true := by
    have gen : ∀ (ls : List Lbl) (s s' : St), s.run ls = some s' → (.signal ∈ ls ∨ s.signal = true) → s'.signal = true := by
      intro ls
      induction ls with
      | nil => intro s s' h hs; cases h; simpa using hs
      | cons l ls ih =>
        intro s s' h hs
        obtain ⟨t, ht, h'⟩ := Option.bind_eq_some_iff.1 h
        refine ih t s' h' ?_
        by_cases hm : Lbl.signal ∈ ls
        · exact .inl hm
        refine .inr ?_
        obtain ⟨phase, signal, calls, held, sending⟩ := s
        have hs' : l = .signal ∨ signal = true := by
          rcases hs with hs | hs
          · rcases List.mem_cons.1 hs with hs | hs
            · exact .inl hs.symm
            · exact absurd hs hm
          · exact .inr hs
        cases l <;> simp only [St.step] at ht <;> (repeat' split at ht) <;>
          first | (cases ht; done) | (injection ht with ht; subst ht; simp_all)
    exact gen ls _ s h (.inl hs)
  obtain ⟨phase, signal, calls, held, sending⟩ := s
  simp only at hsig
  subst hsig
  cases phase with
  | starting => exact ⟨[.serve, .stop, .exit], _, by simp, by decide, rfl, rfl⟩
  | serving => exact ⟨[.stop, .exit], _, by simp, by decide, rfl, rfl⟩
  | stopping => exact ⟨[.exit], _, by simp, by decide, rfl, rfl⟩
  | ended => exact ⟨[], _, by simp, by decide, rfl, rfl⟩

/-- **C141 (it can always be told).** As long as the process runs a signal can come, and then the steps of `start` alone end it. -/
theorem C141_can_be_told (ls : List Lbl) (s : St) (h : St.init.run ls = some s) (hp : s.phase ≠ .ended) :
    ∃ own s', (∀ l ∈ own, l = .serve ∨ l = .stop ∨ l = .exit) ∧ own.length ≤ 3 ∧ s.run (.signal :: own) = some s' ∧ s'.phase = .ended := by
  have hs : s.step .signal = some { s with signal := true } := by simp only [St.step, if_neg hp]
  have hr : St.init.run (ls ++ [.signal]) = some { s with signal := true } := by
    have app : ∀ (ls : List Lbl) (a b c : St) (l : Lbl), a.run ls = some b → b.step l = some c → a.run (ls ++ [l]) = some c := by
      intro ls
      induction ls with
      | nil => intro a b c l ha hb; cases ha; simp [St.run, hb]
      | cons x xs ih =>
        intro a b c l ha hb
        obtain ⟨t, ht, h'⟩ := Option.bind_eq_some_iff.1 ha
        show (a.step x).bind _ = _
        rw [ht]
        exact ih t b c l h' hb
    exact app ls _ _ _ _ h hs
  obtain ⟨own, s', h1, h2, h3, h4⟩ := C141_ends _ _ hr (by simp)
  refine ⟨own, s', h1, h2, ?_, h4⟩
  show (s.step .signal).bind _ = _
  rw [hs]
  exact h3

/-- **C141 (only by a signal).** The server stops only if it was told to. -/
theorem C141_only_by_signal (ls : List Lbl) (s : St) (h : St.init.run ls = some s) (hp : s.phase = .stopping ∨ s.phase = .ended) : .signal ∈ ls := by
  have gen : ∀ (ls : List Lbl) (s s' : St), s.run ls = some s' → .signal ∉ ls → s.signal = false → s.phase ≠ .stopping → s.phase ≠ .ended →
      s'.phase ≠ .stopping ∧ s'.phase ≠ .ended := by
    intro ls
    induction ls with
    | nil => intro s s' h _ _ h1 h2; cases h; exact ⟨h1, h2⟩
    | cons l ls ih =>
      intro s s' h hn h0 h1 h2
      obtain ⟨t, ht, h'⟩ := Option.bind_eq_some_iff.1 h
      have hl : l ≠ .signal := fun e => hn (e ▸ List.mem_cons_self ..)
      have key : t.signal = false ∧ t.phase ≠ .stopping ∧ t.phase ≠ .ended := by
        obtain ⟨phase, signal, calls, held, sending⟩ := s
        simp only at h0 h1 h2
        subst h0
        cases l <;> simp only [St.step] at ht <;> (repeat' split at ht) <;>
          first | (cases ht; done) | (injection ht with ht; subst ht; simp_all)
      exact ih t s' h' (fun e => hn (List.mem_cons_of_mem _ e)) key.1 key.2.1 key.2.2
  by_contra hn
  have := gen ls _ s h hn rfl (by simp [St.init]) (by simp [St.init])
  rcases hp with hp | hp
  · exact this.1 hp
  · exact this.2 hp

/-- **C141 (calls in progress): violated.** `Stop` (server.go:76) does not wait for the calls in progress, nor does `main` for the queue.
A CreateTicket call is told `Unavailable` although its ticket is in Redis and every instance will have it, and of two activations of one
call the first takes effect and the second never does. -/
theorem C141_completed_refuted :
    (∃ ls s, St.init.run ls = some s ∧ s.phase = .ended ∧ s.calls = [⟨1, 1, 1, 0, .unavailable⟩]) ∧
    (∃ ls s, St.init.run ls = some s ∧ s.phase = .ended ∧ s.calls = [⟨2, 1, 1, 1, .unavailable⟩]) :=
  ⟨⟨[.serve, .call 1, .take 0, .send, .signal, .exec, .stop, .exit], _, rfl, rfl, rfl⟩,
    ⟨[.serve, .call 2, .take 0, .send, .exec, .done, .signal, .stop, .exit], _, rfl, rfl, rfl⟩⟩

/-- **C141 (what holds).** When the server has stopped, each call is either confirmed and all of it is in Redis, or its client is told
`Unavailable` or had given up, and then some of it may be in Redis or still get there: of the latter nothing more is said.  The full claim would be that
then none of it is or ever will be. -/
theorem C141_completed_partial (ls : List Lbl) (s : St) (h : St.init.run ls = some s) (hp : s.phase = .stopping ∨ s.phase = .ended) (c : Call)
    (hc : c ∈ s.calls) : (c.outcome = .ok ∧ c.stored = c.want) ∨ ((c.outcome = .unavailable ∨ c.outcome = .gone) ∧ c.stored ≤ c.want) := by
  rcases C141_all_told ls s h hp c hc with ho | ho
  · exact .inl ⟨ho, C141_confirmed_stored ls s h c hc ho⟩
  · exact .inr ⟨ho, C141_stored_once ls s h c hc⟩

/-- A call that is answered while the signal is on its way; another that comes too late for its batch, and is told so. -/
example : ∃ ls s, St.init.run ls = some s ∧ s.phase = .ended ∧ s.calls = [⟨2, 2, 2, 2, .ok⟩, ⟨1, 1, 0, 0, .unavailable⟩] :=
  ⟨[.serve, .call 2, .take 0, .take 0, .send, .exec, .exec, .signal, .done, .answer 0, .call 1, .take 1, .signal, .stop, .exit], _, rfl, rfl, rfl⟩

/-- The same calls, perhaps further on. -/
private def Kept (s s' : St) : Prop :=
  s'.phase = s.phase ∧ ∀ (i : Nat) (c : Call), s.calls[i]? = some c → ∃ c', s'.calls[i]? = some c' ∧ c'.want = c.want ∧ c'.outcome = c.outcome ∧ c'.sent = c.sent

private theorem Kept.trans {a b c : St} (h : Kept a b) (g : Kept b c) : Kept a c := by
  refine ⟨g.1.trans h.1, fun i x hx => ?_⟩
  obtain ⟨y, hy, e1, e2, e3⟩ := h.2 i x hx
  obtain ⟨z, hz, f1, f2, f3⟩ := g.2 i y hy
  exact ⟨z, hz, f1.trans e1, f2.trans e2, f3.trans e3⟩

private theorem run_append (a b : List Lbl) : ∀ s : St, s.run (a ++ b) = (s.run a).bind fun t => t.run b := by
  induction a with
  | nil => intro s; rfl
  | cons l a ih =>
    intro s
    simp only [List.cons_append, St.run]
    cases s.step l with
    | none => rfl
    | some t => exact ih t

private def queues : Lbl → Bool
  | .send | .exec | .done => true
  | _ => false

private theorem execs (m : Nat) : ∀ (s : St) (k : Nat), Inv s → s.sending = some k → s.held.length - k = m →
    ∃ own s', own.all queues = true ∧ s.run own = some s' ∧ s'.sending = some s'.held.length ∧ Kept s s' := by
  induction m with
  | zero =>
    intro s k hi hk hm
    have := hi.within
    rw [hk] at this
    exact ⟨[], s, rfl, rfl, by rw [hk]; simp at this; congr 1; omega, rfl, fun i c h => ⟨c, h, rfl, rfl, rfl⟩⟩
  | succ m ih =>
    intro s k hi hk hm
    have hlt : k < s.held.length := by omega
    have hstep : s.step .exec = some { s with calls := s.calls.modify s.held[k] fun c => { c with stored := c.stored + 1 }, sending := some (k + 1) } := by
      simp [St.step, hk, List.getElem?_eq_getElem hlt]
    obtain ⟨own, s', h1, h2, h3, h4⟩ := ih _ (k + 1) (inv_step hi hstep) rfl (by simp only; omega)
    refine ⟨.exec :: own, s', by simp [queues, h1], by simp only [St.run, hstep, Option.bind_some, h2], h3, ?_⟩
    refine Kept.trans ?_ h4
    refine ⟨rfl, fun i c hc => ?_⟩
    simp only [List.getElem?_modify, hc]
    by_cases he : s.held[k] = i
    · exact ⟨{ c with stored := c.stored + 1 }, by simp [he], rfl, rfl, rfl⟩
    · exact ⟨c, by simp [he], rfl, rfl, rfl⟩

/-- The queue can send all that it has. -/
private theorem flush (s : St) (hi : Inv s) (hp : s.phase = .serving) :
    ∃ own s', own.all queues = true ∧ s.run own = some s' ∧ s'.sending = none ∧ s'.held = [] ∧ Kept s s' := by
  have fin : ∀ (s : St) (k : Nat), Inv s → s.phase = .serving → s.sending = some k →
      ∃ own s', own.all queues = true ∧ s.run own = some s' ∧ s'.sending = none ∧ s'.held = [] ∧ Kept s s' := by
    intro s k hi hp hk
    obtain ⟨own, s1, h1, h2, h3, h4⟩ := execs _ s k hi hk rfl
    have hp1 : s1.phase = .serving := h4.1.trans hp
    have hstep : s1.step .done = some { s1 with calls := results s1.held s1.calls, held := [], sending := none } := by
      simp [St.step, hp1, h3]
    refine ⟨own ++ [.done], { s1 with calls := results s1.held s1.calls, held := [], sending := none }, by simp [h1, queues], by rw [run_append, h2]; simp only [Option.bind_some, St.run, hstep], rfl, rfl,
      Kept.trans h4 ?_⟩
    refine ⟨rfl, fun i c hc => ?_⟩
    simp only [results_get, hc]
    exact ⟨_, rfl, rfl, rfl, rfl⟩
  cases hk : s.sending with
  | some k => exact fin s k hi hp hk
  | none =>
    by_cases hh : s.held = []
    · exact ⟨[], s, rfl, rfl, hk, hh, rfl, fun i c h => ⟨c, h, rfl, rfl, rfl⟩⟩
    · have hstep : s.step .send = some { s with sending := some 0 } := by simp [St.step, hp, hk, hh]
      obtain ⟨own, s', h1, h2, h3, h4, h5⟩ := fin _ 0 (inv_step hi hstep) hp rfl
      exact ⟨.send :: own, s', by simp [queues, h1], by simp only [St.run, hstep, Option.bind_some, h2], h3, h4, h5⟩

private theorem own_of (i : Nat) {own : List Lbl} (h : own.all queues = true) : ∀ l ∈ own, l = .take i ∨ l = .send ∨ l = .exec ∨ l = .done := by
  intro l hl
  have := List.all_eq_true.1 h l hl
  cases l <;> simp [queues] at this <;> simp

/-- A call can be carried out, by steps of its handler and of the queue. -/
private theorem carry (i : Nat) (m : Nat) : ∀ (s : St) (c : Call), Inv s → s.phase = .serving → s.calls[i]? = some c → c.want - c.sent = m →
    ∃ own s' c', (∀ l ∈ own, l = .take i ∨ l = .send ∨ l = .exec ∨ l = .done) ∧ s.run own = some s' ∧ Inv s' ∧ s'.phase = .serving ∧
      s'.calls[i]? = some c' ∧ c'.outcome = c.outcome ∧ c'.want = c.want ∧ c'.back = c'.want := by
  induction m with
  | zero =>
    intro s c hi hp hc hm
    obtain ⟨own, s1, h1, h2, h3, h4, h5⟩ := flush s hi hp
    have hi1 := inv_run own hi h2
    obtain ⟨c1, g1, g2, g3, g4⟩ := h5.2 i c hc
    have hg := hi.good i c hc
    have hg1 := hi1.good i c1 g1
    refine ⟨own, s1, c1, own_of i h1, h2, hi1, h5.1.trans hp, g1, g3, g2, ?_⟩
    have := hg1.held; rw [h4] at this; simp at this
    have := hg.sent; have := hg1.sent
    omega
  | succ m ih =>
    intro s c hi hp hc hm
    obtain ⟨own, s1, h1, h2, h3, h4, h5⟩ := flush s hi hp
    have hi1 := inv_run own hi h2
    obtain ⟨c1, g1, g2, g3, g4⟩ := h5.2 i c hc
    have hp1 : s1.phase = .serving := h5.1.trans hp
    have hlt : c1.sent < c1.want := by omega
    have hstep : s1.step (.take i) = some { s1 with calls := s1.calls.set i { c1 with sent := c1.sent + 1 }, held := s1.held ++ [i] } := by
      simp [St.step, hp1, h3, g1, hlt]
    obtain ⟨own', s', c', k1, k2, k3, k4, k5, k6, k7, k8⟩ := ih _ { c1 with sent := c1.sent + 1 } (inv_step hi1 hstep) hp1
      (by simp [(List.getElem?_eq_some_iff.1 g1).1]) (by simp only; omega)
    refine ⟨own ++ .take i :: own', s', c', ?_, by rw [run_append, h2]; simp only [Option.bind_some, St.run, hstep, k2], k3, k4, k5, k6.trans g3, k7.trans g2, k8⟩
    intro l hl
    rcases List.mem_append.1 hl with hl | hl
    · exact own_of i h1 l hl
    · rcases List.mem_cons.1 hl with hl | hl
      · simp [hl]
      · exact k1 l hl

/-- **C141 (served until then).** As long as the server has not stopped, every call in progress can be carried out and confirmed, by
steps of its own and of the queue alone; a signal that has come does not prevent it. -/
theorem C141_served (ls : List Lbl) (s : St) (h : St.init.run ls = some s) (hp : s.phase = .serving) (i : Nat) (c : Call)
    (hc : s.calls[i]? = some c) (ho : c.outcome = .none) :
    ∃ own s' c', (∀ l ∈ own, l = .take i ∨ l = .send ∨ l = .exec ∨ l = .done ∨ l = .answer i) ∧ s.run own = some s' ∧
      s'.calls[i]? = some c' ∧ c'.outcome = .ok ∧ c'.want = c.want ∧ c'.stored = c.want := by
  obtain ⟨own, s1, c1, k1, k2, k3, k4, k5, k6, k7, k8⟩ := carry i _ s c (inv_run ls inv_init h) hp hc rfl
  have hstep : s1.step (.answer i) = some { s1 with calls := s1.calls.set i { c1 with outcome := .ok } } := by
    simp [St.step, k4, k5, k8, k6, ho]
  have hget : ({ s1 with calls := s1.calls.set i { c1 with outcome := .ok } } : St).calls[i]? = some { c1 with outcome := .ok } := by
    simp [(List.getElem?_eq_some_iff.1 k5).1]
  have hr : s.run (own ++ [.answer i]) = some { s1 with calls := s1.calls.set i { c1 with outcome := .ok } } := by
    rw [run_append, k2]; simp only [Option.bind_some, St.run, hstep]
  refine ⟨own ++ [.answer i], _, _, ?_, hr, hget, rfl, k7, ?_⟩
  · intro l hl
    rcases List.mem_append.1 hl with hl | hl
    · rcases k1 l hl with h | h | h | h <;> simp [h]
    · simp at hl; simp [hl]
  · have hr' : St.init.run (ls ++ (own ++ [.answer i])) = some { s1 with calls := s1.calls.set i { c1 with outcome := .ok } } := by
      rw [run_append, h]; exact hr
    exact (C141_confirmed_stored _ _ hr' _ (List.mem_of_getElem? hget) rfl).trans k7

/-- Two calls in progress when the signal has come; the second one is confirmed before the server stops. -/
example : ∃ ls s, St.init.run ls = some s ∧ s.phase = .serving ∧ s.signal = true ∧ s.calls = [⟨2, 1, 0, 0, .none⟩, ⟨1, 0, 0, 0, .none⟩] ∧
    ∃ own s', s.run own = some s' ∧ s'.calls = [⟨2, 1, 1, 1, .none⟩, ⟨1, 1, 1, 1, .ok⟩] :=
  ⟨[.serve, .call 2, .call 1, .take 0, .send, .signal], _, rfl, rfl, rfl, rfl,
    [.exec, .done, .take 1, .send, .exec, .done, .answer 1], _, rfl, rfl⟩

/-! ## C146: a client that gives up -/

/-- The same call, but for what its client got if that had given up. -/
def SameCall (c d : Call) : Prop :=
  d.want = c.want ∧ d.sent = c.sent ∧ d.stored = c.stored ∧ d.back = c.back ∧ (d.outcome = c.outcome ∨ c.outcome = .gone)

/-- The same instance, but for that. -/
structure SameBut (s t : St) : Prop where
  phase : t.phase = s.phase
  signal : t.signal = s.signal
  held : t.held = s.held
  sending : t.sending = s.sending
  size : t.calls.length = s.calls.length
  calls : ∀ (i : Nat) (c d : Call), s.calls[i]? = some c → t.calls[i]? = some d → SameCall c d

private theorem SameBut.get {s t : St} (h : SameBut s t) {i : Nat} {c : Call} (hc : s.calls[i]? = some c) :
    ∃ d, t.calls[i]? = some d ∧ SameCall c d := by
  have hi := (List.getElem?_eq_some_iff.1 hc).1
  have ht : i < t.calls.length := h.size ▸ hi
  exact ⟨_, List.getElem?_eq_getElem ht, h.calls i c _ hc (List.getElem?_eq_getElem ht)⟩

private theorem same_step {s t s' : St} {l : Lbl} (hs : SameBut s t) (hl : ∀ i, l ≠ .giveUp i) (h : s.step l = some s') :
    ∃ t', t.step l = some t' ∧ SameBut s' t' := by
  obtain ⟨phase, signal, calls, held, sending⟩ := s
  obtain ⟨phase', signal', calls', held', sending'⟩ := t
  have hget := @SameBut.get _ _ hs
  obtain ⟨h1, h2, h3, h4, h5, h6⟩ := hs
  simp only at h1 h2 h3 h4 h5 h6 hget
  subst h1 h2 h3 h4
  cases l with
  | signal =>
    simp only [St.step] at h ⊢
    split at h
    · cases h
    · rename_i hc; rw [if_neg hc]; cases h; exact ⟨_, rfl, rfl, rfl, rfl, rfl, h5, h6⟩
  | serve =>
    simp only [St.step] at h ⊢
    split at h
    · rename_i hc; rw [if_pos hc]; cases h; exact ⟨_, rfl, rfl, rfl, rfl, rfl, h5, h6⟩
    · cases h
  | call w =>
    simp only [St.step] at h ⊢
    split at h
    · rename_i hp
      rw [if_pos hp]
      cases h
      refine ⟨_, rfl, rfl, rfl, rfl, rfl, by simp [h5], fun i c d hc hd => ?_⟩
      simp only [List.getElem?_append, h5] at hc hd
      split at hc
      · rename_i hlt
        rw [if_pos hlt] at hd
        exact h6 i c d hc hd
      · rename_i hlt
        rw [if_neg hlt] at hd
        rw [hc] at hd; cases hd
        exact ⟨rfl, rfl, rfl, rfl, .inl rfl⟩
    · cases h
  | take j =>
    simp only [St.step] at h ⊢
    split at h
    · cases h
    rename_i hn
    rw [if_neg hn]
    split at h
    · rename_i c hc
      split at h
      · rename_i hlt
        cases h
        obtain ⟨d, hd, e1, e2, e3, e4, e5⟩ := hget hc
        rw [hd]
        simp only
        rw [if_pos (by omega)]
        refine ⟨_, rfl, rfl, rfl, rfl, rfl, by simp [h5], fun i c' d' hc' hd' => ?_⟩
        simp only [List.getElem?_set] at hc' hd'
        by_cases hij : j = i
        · subst hij
          have h1 := (List.getElem?_eq_some_iff.1 hc).1
          have h2 := (List.getElem?_eq_some_iff.1 hd).1
          simp only [if_true, h1, h2, Option.some.injEq] at hc' hd'
          subst hc'; subst hd'
          exact ⟨e1, by simp [e2], e3, e4, e5⟩
        · rw [if_neg hij] at hc' hd'
          exact h6 i c' d' hc' hd'
      · cases h
    · cases h
  | send =>
    simp only [St.step] at h ⊢
    split at h
    · cases h
    rename_i hn
    rw [if_neg hn]
    split at h
    · rename_i hc; rw [if_pos hc]; cases h; exact ⟨_, rfl, rfl, rfl, rfl, rfl, h5, h6⟩
    · cases h
  | exec =>
    simp only [St.step] at h ⊢
    split at h
    · split at h
      · rename_i k hk j hj
        cases h
        refine ⟨_, rfl, rfl, rfl, rfl, rfl, by simp [h5], fun i c d hc hd => ?_⟩
        simp only [List.getElem?_modify] at hc hd
        obtain ⟨c0, hc0, rfl⟩ := Option.map_eq_some_iff.1 hc
        obtain ⟨d0, hd0, rfl⟩ := Option.map_eq_some_iff.1 hd
        obtain ⟨e1, e2, e3, e4, e5⟩ := h6 i c0 d0 hc0 hd0
        split
        · exact ⟨e1, e2, by simp [e3], e4, e5⟩
        · exact ⟨e1, e2, e3, e4, e5⟩
      · cases h
    · cases h
  | done =>
    simp only [St.step] at h ⊢
    split at h
    · cases h
    rename_i hn
    rw [if_neg hn]
    split at h
    · rename_i hp
      rw [if_pos hp]
      cases h
      have hlen : ∀ (held : List Nat) (cs : List Call), (results held cs).length = cs.length := by
        intro held
        induction held with
        | nil => intro cs; rfl
        | cons j held ih => intro cs; simp only [results, List.foldl_cons] at ih ⊢; rw [ih]; simp
      refine ⟨_, rfl, rfl, rfl, rfl, rfl, by simp [hlen, h5], fun i c d hc hd => ?_⟩
      simp only [results_get] at hc hd
      obtain ⟨c0, hc0, rfl⟩ := Option.map_eq_some_iff.1 hc
      obtain ⟨d0, hd0, rfl⟩ := Option.map_eq_some_iff.1 hd
      obtain ⟨e1, e2, e3, e4, e5⟩ := h6 i c0 d0 hc0 hd0
      exact ⟨e1, e2, e3, by simp [e4], e5⟩
    · cases h
  | answer j =>
    simp only [St.step] at h ⊢
    split at h
    · rename_i c hc
      split at h
      · rename_i hb
        cases h
        obtain ⟨d, hd, e1, e2, e3, e4, e5⟩ := hget hc
        have ho : d.outcome = .none := by
          rcases e5 with e5 | e5
          · exact e5.trans hb.2
          · rw [hb.2] at e5; cases e5
        rw [hd]
        simp only
        rw [if_pos ⟨by rw [e4, e1]; exact hb.1, ho⟩]
        refine ⟨_, rfl, rfl, rfl, rfl, rfl, by simp [h5], fun i c' d' hc' hd' => ?_⟩
        simp only [List.getElem?_set] at hc' hd'
        by_cases hij : j = i
        · subst hij
          have h1 := (List.getElem?_eq_some_iff.1 hc).1
          have h2 := (List.getElem?_eq_some_iff.1 hd).1
          simp only [if_true, h1, h2, Option.some.injEq] at hc' hd'
          subst hc'; subst hd'
          exact ⟨e1, e2, e3, e4, .inl rfl⟩
        · rw [if_neg hij] at hc' hd'
          exact h6 i c' d' hc' hd'
      · cases h
    · cases h
  | giveUp i => exact absurd rfl (hl i)
  | stop =>
    simp only [St.step] at h ⊢
    split at h
    · rename_i hp
      rw [if_pos hp]
      cases h
      refine ⟨_, rfl, rfl, rfl, rfl, rfl, by simp [h5], fun i c d hc hd => ?_⟩
      simp only [List.getElem?_map] at hc hd
      obtain ⟨c0, hc0, rfl⟩ := Option.map_eq_some_iff.1 hc
      obtain ⟨d0, hd0, rfl⟩ := Option.map_eq_some_iff.1 hd
      obtain ⟨e1, e2, e3, e4, e5⟩ := h6 i c0 d0 hc0 hd0
      unfold Call.cut
      split <;> split
      · exact ⟨e1, e2, e3, e4, .inl rfl⟩
      · rename_i h1 h2
        rcases e5 with e5 | e5
        · exact absurd (e5.trans h1) h2
        · rw [h1] at e5; cases e5
      · rename_i h1 h2
        rcases e5 with e5 | e5
        · exact absurd (e5.symm.trans h2) h1
        · exact ⟨e1, e2, e3, e4, .inr e5⟩
      · exact ⟨e1, e2, e3, e4, e5⟩
    · cases h
  | exit =>
    simp only [St.step] at h ⊢
    split at h
    · rename_i hc; rw [if_pos hc]; cases h; exact ⟨_, rfl, rfl, rfl, rfl, rfl, h5, h6⟩
    · cases h

private theorem same_gone {s t s' : St} {j : Nat} (hs : SameBut s t) (h : s.step (.giveUp j) = some s') : SameBut s' t := by
  simp only [St.step] at h
  split at h
  · rename_i c hp hc
    split at h
    · cases h
      refine ⟨by simpa [hp] using hs.phase, hs.signal, hs.held, hs.sending, by simp [hs.size], fun i c' d' hc' hd' => ?_⟩
      simp only [List.getElem?_set] at hc'
      by_cases hij : j = i
      · subst hij
        simp only [if_true, (List.getElem?_eq_some_iff.1 hc).1, Option.some.injEq] at hc'
        subst hc'
        obtain ⟨e1, e2, e3, e4, e5⟩ := hs.calls j c d' hc hd'
        exact ⟨e1, e2, e3, e4, .inr rfl⟩
      · rw [if_neg hij] at hc'
        exact hs.calls i c' d' hc' hd'
    · cases h
  · cases h

/-- Clients that wait. -/
def patient : List Lbl → List Lbl := List.filter fun | .giveUp _ => false | _ => true

/-- **C146 (giving up changes nothing).** Whenever clients give up, the instance does the same at every point of time as it would have done
had they waited: the same updates are taken, sent, stored and confirmed, for their calls and for all others, and the other clients are
told the same. -/
theorem C146_nothing_changes (ls : List Lbl) (s : St) (h : St.init.run ls = some s) :
    ∃ t, St.init.run (patient ls) = some t ∧ SameBut s t := by
  have gen : ∀ (ls : List Lbl) (s s' t : St), SameBut s t → s.run ls = some s' → ∃ t', t.run (patient ls) = some t' ∧ SameBut s' t' := by
    intro ls
    induction ls with
    | nil => intro s s' t hs h; cases h; exact ⟨t, rfl, hs⟩
    | cons l ls ih =>
      intro s s' t hs h
      obtain ⟨s1, h1, h2⟩ := Option.bind_eq_some_iff.1 h
      by_cases hl : ∃ i, l = .giveUp i
      · obtain ⟨i, rfl⟩ := hl
        exact ih s1 s' t (same_gone hs h1) h2
      · have hl' : ∀ i, l ≠ .giveUp i := fun i e => hl ⟨i, e⟩
        obtain ⟨t1, g1, g2⟩ := same_step hs hl' h1
        obtain ⟨t', k1, k2⟩ := ih s1 s' t1 g2 h2
        refine ⟨t', ?_, k2⟩
        have : patient (l :: ls) = l :: patient ls := by
          cases l <;> first | rfl | exact absurd rfl (hl' _)
        rw [this]
        simp only [St.run, g1, Option.bind_some, k1]
  exact gen ls _ s _ ⟨rfl, rfl, rfl, rfl, rfl, fun i c d hc => by simp [St.init] at hc⟩ h

/-- **C146 (carried out).** As long as the server has not stopped, all of a call whose client has given up can still be stored, by steps of
its handler and of the queue alone. -/
theorem C146_carried_out (ls : List Lbl) (s : St) (h : St.init.run ls = some s) (hp : s.phase = .serving) (i : Nat) (c : Call)
    (hc : s.calls[i]? = some c) (ho : c.outcome = .gone) :
    ∃ own s' c', (∀ l ∈ own, l = .take i ∨ l = .send ∨ l = .exec ∨ l = .done) ∧ s.run own = some s' ∧ s'.calls[i]? = some c' ∧
      c'.outcome = .gone ∧ c'.want = c.want ∧ c'.stored = c.want := by
  obtain ⟨own, s1, c1, k1, k2, k3, k4, k5, k6, k7, k8⟩ := carry i _ s c (inv_run ls inv_init h) hp hc rfl
  refine ⟨own, s1, c1, k1, k2, k5, k6.trans ho, k7, ?_⟩
  obtain ⟨a, b, d, -, -⟩ := k3.good i c1 k5
  have hle : (s1.held.take (s1.sending.getD 0)).count i ≤ s1.held.count i := (List.take_sublist _ _).count_le _
  omega

/-- **C146 (nothing follows from giving up).** A client that has given up cannot know whether all, some or none of its call is stored at that
moment. -/
theorem C146_unknown (n k : Nat) (hk : k ≤ n) : ∃ ls s, St.init.run ls = some s ∧ s.calls = [⟨n, k, k, k, .gone⟩] := by
  have gen : ∀ k, k ≤ n → St.init.run (.serve :: .call n :: (List.replicate k [Lbl.take 0, .send, .exec, .done]).flatten) =
      some ⟨.serving, false, [⟨n, k, k, k, .none⟩], [], none⟩ := by
    intro k
    induction k with
    | zero => intro _; rfl
    | succ k ih =>
      intro hk
      have e : Lbl.serve :: .call n :: (List.replicate (k + 1) [Lbl.take 0, .send, .exec, .done]).flatten =
          (Lbl.serve :: .call n :: (List.replicate k [Lbl.take 0, .send, .exec, .done]).flatten) ++ [.take 0, .send, .exec, .done] := by
        rw [List.replicate_succ']; simp
      have hlt : k < n := hk
      rw [e, run_append, ih (by omega)]
      simp [St.run, St.step, hlt, results, Call.result]
  refine ⟨(.serve :: .call n :: (List.replicate k [Lbl.take 0, .send, .exec, .done]).flatten) ++ [.giveUp 0],
    ⟨.serving, false, [⟨n, k, k, k, .gone⟩], [], none⟩, ?_, rfl⟩
  rw [run_append, gen k hk]
  rfl

/-- A client gives up when one of its two updates is stored; the other is stored later, in a batch with that of a client that waits. -/
example : ∃ ls s, St.init.run ls = some s ∧ s.phase = .serving ∧ s.calls = [⟨2, 1, 1, 0, .gone⟩, ⟨1, 0, 0, 0, .none⟩] ∧
    ∃ own s', s.run own = some s' ∧ s'.calls = [⟨2, 2, 2, 2, .gone⟩, ⟨1, 1, 1, 1, .ok⟩] :=
  ⟨[.serve, .call 2, .take 0, .send, .exec, .call 1, .giveUp 0], _, rfl, rfl, rfl,
    [.done, .take 1, .take 0, .send, .exec, .exec, .done, .answer 1], _, rfl, rfl⟩

end OM.Props
