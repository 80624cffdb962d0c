import Verif.Lemmas.Outgoing
import Verif.Lemmas.Store
/-!
# Properties C19, C20: the outgoing queue
-/
namespace OM.Props
open OM.Spec
variable {S : Type} {send : S → List StateUpdate → S × List StateResponse}

/-- The in-memory replicator as a `send`, with an arbitrary supply of clock readings:
`clk i` gives the two readings available to the `i`-th id issued. -/
def memSend (clk : Nat → Int × Int) (s : MemRepl × Nat) (us : List StateUpdate) :
    (MemRepl × Nat) × List StateResponse :=
  let l := us.zipIdx s.2 |>.map fun p => (p.1, clk p.2)
  (((s.1.sendUpdates l).1, s.2 + us.length), (s.1.sendUpdates l).2.2)

theorem memSend_onePerUpdate (clk : Nat → Int × Int) : OnePerUpdate (memSend clk) := by
  intro s us
  simp only [memSend]
  rw [(MemRepl.sendUpdates_lengths _ _).2]; simp

/-- **C20.** For every schedule of arrivals and timeouts and every threshold, the queue
does not panic, and the batches handed to state storage, concatenated, followed by what
is still pending, are exactly the updates received, in order.  Every batch holds at
least one update and at most max(1, threshold); fewer than max(1, threshold) updates
are left pending; and a timeout leaves nothing pending. -/
theorem C20_batching (h1 : OnePerUpdate send) (thr : Int) (s0 : S) (evs : List OutEv) :
    ∃ st, outRun thr send (OutSt.init s0) evs = some st ∧
      st.batches.flatten ++ st.pending.map (·.update) = (received evs).map (·.update) ∧
      (∀ b ∈ st.batches, 1 ≤ b.length ∧ (b.length : Int) ≤ max 1 thr) ∧
      (st.pending.length : Int) < max 1 thr := by
  obtain ⟨st, hr, hi⟩ := run_inv h1 evs (init_inv (send := send) thr s0)
  refine ⟨st, hr, ?_, hi.sizes, by have := hi.pend; omega⟩
  obtain ⟨fl, e1, e2, -⟩ := hi.split
  simp only [List.nil_append] at e1
  rw [e1, e2]; simp

/-- **C20 (timeout).** After a timeout everything received has been handed over. -/
theorem C20_timeout_flushes (h1 : OnePerUpdate send) (thr : Int) (s0 : S) (evs : List OutEv) :
    ∃ st, outRun thr send (OutSt.init s0) (evs ++ [.timeout]) = some st ∧ st.pending = [] ∧
      st.batches.flatten = (received evs).map (·.update) := by
  obtain ⟨st, hr, hi⟩ := run_inv h1 evs (init_inv (send := send) thr s0)
  obtain ⟨st', a, b, c⟩ := step_inv h1 hi .timeout
  have hp := c rfl
  refine ⟨st', by rw [outRun_append, hr]; simp [outRun, a], hp, ?_⟩
  obtain ⟨fl, e1, e2, -⟩ := b.split
  rw [hp] at e1
  simp [received] at e1
  rw [e2]; simp [received, e1]

/-- **C19.** For every interleaving of callers and every split into batches, the
responses put on caller `c`'s channel are, in order, the storage's responses to `c`'s
own updates: take the updates received, pair each with the storage's response to it,
and keep `c`'s.  Updates still pending have no response yet. -/
theorem C19_own_results_in_order (h1 : OnePerUpdate send) (thr : Int) (s0 : S) (evs : List OutEv) :
    ∃ st, outRun thr send (OutSt.init s0) evs = some st ∧
      (answers send s0 st.batches).length + st.pending.length = (received evs).length ∧
      ∀ c : Nat, (st.delivered.filter fun d => decide (d.1 = c)).map (·.2) =
        (((received evs).zip (answers send s0 st.batches)).filter fun p => decide (p.1.caller = c)).map (·.2) := by
  obtain ⟨st, hr, hi⟩ := run_inv h1 evs (init_inv (send := send) thr s0)
  obtain ⟨fl, e1, e2, e3⟩ := hi.split
  simp only [List.nil_append] at e1
  have hlen : (answers send s0 st.batches).length = fl.length := by
    rw [answers_length h1, e2]; simp
  refine ⟨st, hr, by rw [e1, hlen]; simp, ?_⟩
  intro c
  rw [e3, e1]
  generalize answers send s0 st.batches = rs at hlen
  generalize st.pending = pend
  clear e1 e2 e3 hi hr h1
  induction fl generalizing rs with
  | nil => cases rs with
    | nil => simp
    | cons r rs => simp at hlen
  | cons q fl ih => cases rs with
    | nil => simp at hlen
    | cons r rs =>
      simp only [List.map_cons, List.cons_append, List.zip_cons_cons, List.filter_cons]
      have := ih rs (by simpa using hlen)
      split <;> simp [this]

/-- **C19 (count).** Once a timeout has passed, each caller has received exactly as many
responses as it queued updates. -/
theorem C19_one_response_each (h1 : OnePerUpdate send) (thr : Int) (s0 : S) (evs : List OutEv) :
    ∃ st, outRun thr send (OutSt.init s0) (evs ++ [.timeout]) = some st ∧
      ∀ c : Nat, (st.delivered.filter fun d => decide (d.1 = c)).length =
        ((received evs).filter fun r => decide (r.caller = c)).length := by
  obtain ⟨st, hr, hi⟩ := run_inv h1 evs (init_inv (send := send) thr s0)
  obtain ⟨st', a, b, c⟩ := step_inv h1 hi .timeout
  have hp := c rfl
  refine ⟨st', by rw [outRun_append, hr]; simp [outRun, a], ?_⟩
  obtain ⟨fl, e1, e2, e3⟩ := b.split
  rw [hp] at e1
  have e1' : received evs = fl := by simpa [received] using e1
  intro c
  have hlen : (answers send s0 st'.batches).length = fl.length := by
    rw [answers_length h1, e2]; simp
  rw [e3, e1']
  generalize answers send s0 st'.batches = rs at hlen
  clear e1 e2 e3 e1' hi b a hr h1
  induction fl generalizing rs with
  | nil => cases rs <;> simp_all
  | cons q fl ih => cases rs with
    | nil => simp at hlen
    | cons r rs =>
      simp only [List.map_cons, List.zip_cons_cons, List.filter_cons]
      have := ih rs (by simpa using hlen)
      split <;> simp [this]

/-- Two callers interleaved, threshold 2: batches of 2 and (after a timeout) 1; caller 7
gets the ids of its own two updates. -/
example :
    let up (k : String) : StateUpdate := ⟨.activate, k.toList, []⟩
    let evs : List OutEv := [.recv ⟨7, up "a-1"⟩, .recv ⟨8, up "b-1"⟩, .recv ⟨7, up "c-1"⟩, .timeout]
    ((outRun 2 (memSend fun _ => (100, 100)) (OutSt.init (MemRepl.new 100, 0)) evs).map fun st =>
      (st.batches.map List.length, (st.delivered.filter fun d => decide (d.1 = 7)).map (·.2.result))) =
    some ([2, 1], ["100-1".toList, "100-3".toList]) := by decide

end OM.Props
