import Verif.Lemmas.Pipeline
import Verif.Model.Handlers
import Verif.Lemmas.Redis
/-!
# Properties of the channels between handlers, queues and cache
-/
namespace OM.Props

open OM.Pipe OM.Spec

variable {b : Backend} {thr : Int} {inMax : Nat} {m : MemRepl} {ls : List Lab} {s : St}

/-- C80.  Whatever calls were begun and however the process was scheduled so far: nothing
has panicked (no result was sent on a closed channel); only boundedly many steps can
follow without new calls, remote updates or empty timeouts; and wherever they stop,
every call has returned with one response per update it asked for. -/
theorem C80_every_call_returns (hk : ∀ k ∈ kinds ls, k.Ok)
    (hr : run b thr inMax (St.init m) ls = some s) :
    s.panicked = false ∧
    (∃ N, ∀ ls' s', Headway b thr inMax s ls' s' → ls'.length ≤ N) ∧
    ∀ ls' s', Headway b thr inMax s ls' s' → Quiet b thr inMax s' →
      s'.panicked = false ∧
      s'.calls.map (·.ups) = (kinds ls).map Kind.updates ∧
      ∀ c ∈ s'.calls, c.done = true ∧ c.got.length = c.ups.length := by
  have h := inv_run ls (inv_init m) hk hr
  refine ⟨h.np, ⟨weight s, fun ls' s' H => ?_⟩, fun ls' s' H q => ?_⟩
  · have := (headway_inv H h).2; omega
  · have h' := (headway_inv H h).1
    refine ⟨h'.np, ?_, ?_⟩
    · rw [headway_ups H, run_ups ls hr]; simp [St.init]
    · intro c hc
      obtain ⟨i, hi, rfl⟩ := List.mem_iff_getElem.1 hc
      have hi' : s'.calls[i]? = some s'.calls[i] := List.getElem?_eq_getElem hi
      have H := h'.calls i _ hi'
      have hd := (quiet_done h' q).2.2.2 i _ hi'
      have := H.done hd
      have := H.need
      exact ⟨hd, by omega⟩

/-- C80.  A call that has not returned never waits for nothing: some headway step is
enabled. -/
theorem C80_no_deadlock (hk : ∀ k ∈ kinds ls, k.Ok)
    (hr : run b thr inMax (St.init m) ls = some s) {c : Call} (hc : c ∈ s.calls) (hd : c.done = false) :
    ∃ l s', headway s l = true ∧ step b thr inMax s l = some s' := by
  have h := inv_run ls (inv_init m) hk hr
  refine Classical.byContradiction fun hn => ?_
  have q : Quiet b thr inMax s := by
    intro l hl
    cases e : step b thr inMax s l with
    | none => rfl
    | some s' => exact absurd ⟨l, s', hl, e⟩ hn
  obtain ⟨i, hi, rfl⟩ := List.mem_iff_getElem.1 hc
  have := (quiet_done h q).2.2.2 i _ (List.getElem?_eq_getElem hi)
  rw [hd] at this; cases this

/-- C80.  The handlers' calls are of the shapes considered: CreateAssignments makes its
channel for the whole roster, from which its updates are taken. -/
theorem C80_roster_fits (cd : Codec) (r : Roster) (us : List StateUpdate)
    (h : createAssignmentsQueue cd (some r) = .ok us) : (Kind.assigns us r.tickets.length).Ok := by
  unfold createAssignmentsQueue at h
  simp only at h
  split at h
  · cases h
  · split at h
    · cases h
    · cases h; exact List.length_filterMap_le _ _

/-- C80.  The Redis replicator answers every update of a batch, also when the connection
fails, as the model's `sent` step requires. -/
theorem C80_redis_answers (cfg : Config) (env : SendEnv) (st : Stream) (us : List StateUpdate) :
    (redisSend cfg env st us).2.length = us.length := redisSend_length cfg env st us

/-- How many updates the outgoing goroutine holds, by where it is. -/
def heldWithin (thr : Int) : Out → Prop
  | .collect p => (p.length : Int) < max thr 1
  | .send rest acc => ((rest.length + acc.length : Nat) : Int) ≤ max thr 1
  | .deliver ds => (ds.length : Int) ≤ max thr 1

private theorem held_afterReceive (thr : Int) {p : List Req} (h : (p.length : Int) ≤ max thr 1) (hp : p ≠ []) :
    heldWithin thr (.afterReceive thr p) := by
  cases p with
  | nil => exact absurd rfl hp
  | cons q qs =>
    unfold Out.afterReceive
    split
    · simpa [Out.flush, heldWithin] using h
    · rename_i h'
      simp only [heldWithin]
      omega

private theorem held_afterDeliver (thr : Int) {l : List (Nat × StateResponse)} (h : (l.length : Int) ≤ max thr 1) :
    heldWithin thr (.afterDeliver l) := by
  cases l with
  | nil => simp only [Out.afterDeliver, heldWithin, List.length_nil]; omega
  | cons d ds => simpa [Out.afterDeliver, heldWithin] using h

private theorem held_step {s s' : St} {l : Lab} (h : heldWithin thr s.out) (e : step b thr inMax s l = some s') :
    heldWithin thr s'.out := by
  unfold step at e
  split at e
  · cases e
  cases l with
  | call k => cases e; exact h
  | submit i =>
    simp only [submitStep] at e
    split at e
    · rename_i p c ho _
      rw [ho] at h
      simp only [heldWithin] at h
      split at e
      · cases e
      · cases e
        exact held_afterReceive thr (by simp; omega) (by simp)
    · cases e
  | tick =>
    dsimp only at e
    split at e
    · rename_i p ho
      rw [ho] at h
      simp only [heldWithin] at h
      cases e
      cases p with
      | nil => simpa [Out.flush, heldWithin] using h
      | cons q qs => simp only [Out.flush, heldWithin, List.length_nil]; omega
    · cases e
  | publish n1 n2 =>
    dsimp only at e
    split at e
    · simp only [publishStep] at e
      split at e
      · rename_i q qs acc g ho _
        rw [ho] at h
        simp only [heldWithin, List.length_cons] at h
        cases e
        cases qs with
        | nil => exact held_afterDeliver thr (by simp at h ⊢; omega)
        | cons q' qs => simp only [Out.afterSend, heldWithin, List.length_append, List.length_cons, List.length_nil] at h ⊢; omega
      · cases e
    · cases e
  | sent rs =>
    dsimp only at e
    split at e
    · simp only [sentStep] at e
      split at e
      · rename_i q qs acc ho
        rw [ho] at h
        simp only [heldWithin, List.length_cons] at h
        split at e
        · rename_i hl
          cases e
          refine held_afterDeliver thr ?_
          simp only [List.length_append, List.length_zipWith, List.length_cons] at hl ⊢
          omega
        · cases e
      · cases e
    · cases e
  | polled us =>
    dsimp only at e
    split at e
    · split at e
      · cases e; exact h
      · cases e
    · cases e
  | getTick =>
    dsimp only at e
    split at e
    · split at e
      · cases e; exact h
      · cases e
    · cases e
  | push =>
    simp only [pushStep] at e
    split at e
    · split at e
      · cases e; exact h
      · cases e
    · cases e
  | drain =>
    simp only [drainStep] at e
    split at e
    · cases e; exact h
    · split at e
      · cases e; exact h
      · cases e
    · cases e
  | deliver =>
    simp only [deliverStep] at e
    split at e
    · rename_i i r ds ho
      rw [ho] at h
      simp only [heldWithin, List.length_cons] at h
      split at e
      · cases e
      · split at e
        · cases e
          simp only [ho, heldWithin, List.length_cons]; omega
        · split at e
          · cases e; exact held_afterDeliver thr (by omega)
          · split at e
            · cases e; exact held_afterDeliver thr (by omega)
            · cases e
    · cases e
  | recv i =>
    simp only [recvStep] at e
    split at e
    · cases e
    · split at e
      · split at e
        · cases e
        · cases e; exact h
      · cases e
  | ret i =>
    simp only [retStep] at e
    split at e
    · cases e
    · split at e
      · cases e; exact h
      · cases e

/-- C20, in the process with its channels: the outgoing goroutine never waits for more
updates while it holds a full batch, and no batch it sends exceeds the threshold (or 1). -/
theorem C20_batches_of_the_process (hr : run b thr inMax (St.init m) ls = some s) :
    (∀ p, s.out = .collect p → (p.length : Int) < max thr 1) ∧
      ∀ rest acc, s.out = .send rest acc → ((rest.length + acc.length : Nat) : Int) ≤ max thr 1 := by
  have h : heldWithin thr s.out := by
    have gen : ∀ (ls : List Lab) (s0 : St), heldWithin thr s0.out → run b thr inMax s0 ls = some s → heldWithin thr s.out := by
      intro ls
      induction ls with
      | nil => intro s0 h e; cases e; exact h
      | cons l ls ih =>
        intro s0 h e
        simp only [run] at e
        cases e' : step b thr inMax s0 l with
        | none => rw [e'] at e; cases e
        | some s1 => rw [e'] at e; exact ih s1 (held_step h e') e
    refine gen ls _ ?_ hr
    simp only [St.init, heldWithin, List.length_nil]
    omega
  exact ⟨fun p hp => by rw [hp] at h; exact h, fun r a hp => by rw [hp] at h; exact h⟩

/-- C81.  The results a call has received are the answers to its own updates, in the
order it sent them. -/
theorem C81_answers_in_order (hk : ∀ k ∈ kinds ls, k.Ok)
    (hr : run b thr inMax (St.init m) ls = some s) (i : Nat) (c : Call) (hc : s.calls[i]? = some c)
    (j : Nat) (r : StateResponse) (hj : c.got[j]? = some r) :
    ∃ u, c.ups[j]? = some u ∧ ((s.log.filter fun x => decide (x.1 = i)).map (·.2))[j]? = some (u, r) := by
  have h := inv_run ls (inv_init m) hk hr
  have H := h.calls i c hc
  have e1 : ((s.log.filter fun x => decide (x.1 = i)).map (·.2.2))[j]? = some r := by
    have := H.resps
    unfold respsOf at this
    rw [this, List.append_assoc, List.getElem?_append_left (List.getElem?_eq_some_iff.1 hj).1, hj]
  rw [List.getElem?_map, Option.map_eq_some_iff] at e1
  obtain ⟨x, hx, rfl⟩ := e1
  refine ⟨x.2.1, ?_, by rw [List.getElem?_map, hx]; rfl⟩
  have e2 : (updsOf i s.log)[j]? = some x.2.1 := by
    unfold updsOf; rw [List.getElem?_map, hx]; rfl
  have hl := (List.getElem?_eq_some_iff.1 e2).1
  rw [← H.upds, List.append_assoc, List.getElem?_append_left hl, e2]

/-- C82.  With the in-memory store, what has been applied to the cache is at all times a
first part of what has been answered, in order and unchanged, a ticket under the id its
creator was given. -/
theorem C82_memory_in_order (hr : run .memory thr inMax (St.init m) ls = some s) :
    s.applied <+: s.log.map (fun x => replicatedAs x.2.1 x.2.2) := by
  have h := fifo_run ls (s := St.init m) (by simp [FIFO, St.init, Inp.items]) hr
  rw [h, List.append_assoc]
  exact List.prefix_append _ _

/-- C82.  And when the process comes to rest, all of it. -/
theorem C82_memory_all_applied (hk : ∀ k ∈ kinds ls, k.Ok)
    (hr : run .memory thr inMax (St.init m) ls = some s) (q : Quiet .memory thr inMax s) :
    s.applied = s.log.map (fun x => replicatedAs x.2.1 x.2.2) := by
  have h := fifo_run ls (s := St.init m) (by simp [FIFO, St.init, Inp.items]) hr
  obtain ⟨-, h1, h2, -⟩ := quiet_done (inv_run ls (inv_init m) hk hr) q
  rw [h, h1, h2 rfl]
  simp [Inp.items]

/-- C82.  A batch given to the in-memory `SendUpdates` is published in order and
unchanged, each ticket under the id in its response. -/
theorem C82_memory_batch (r : MemRepl) : ∀ (us : List (StateUpdate × Int × Int)),
    (r.sendUpdates us).2.2.length = us.length ∧
    (r.sendUpdates us).2.1 =
      List.zipWith (fun (u : StateUpdate × Int × Int) a => replicatedAs u.1 a) us (r.sendUpdates us).2.2
  | [] => ⟨rfl, rfl⟩
  | (u, n1, n2) :: us => by
    obtain ⟨h1, h2⟩ := C82_memory_batch (r.getReplId n1 n2).2 us
    simp only [MemRepl.sendUpdates, List.length_cons, List.zipWith_cons_cons]
    exact ⟨by rw [h1], by rw [← h2, memPublished_eq _ _ none]⟩

/-! ## Concrete schedules -/

private def up (c : Cmd) (k v : String) : StateUpdate := ⟨c, k.toList, v.toList⟩

/-- A creation and an activation of two ids, batched together at threshold 3; the
activation's first result arrives while the creation has not yet looked at its own. -/
private def demo : List Lab :=
  [.call (.create (up .ticket "" "T")), .call (.states [up .activate "7-0" "", up .activate "7-1" ""]),
   .submit 1, .submit 0, .submit 1, .publish 7 7, .publish 7 7, .getTick, .push, .drain, .push, .publish 8 8,
   .deliver, .deliver, .deliver, .recv 1, .ret 0, .recv 1, .ret 1, .getTick, .drain, .push, .drain]

example : (∀ k ∈ kinds demo, k.Ok) ∧
    (run .memory 3 1 (St.init ⟨7, 0⟩) demo).map (fun s => (s.calls.map (·.done), s.calls.map fun c => c.got.map (·.result))) =
      some ([true, true], [["7-2".toList], ["7-1".toList, "8-0".toList]]) ∧
    (run .memory 3 1 (St.init ⟨7, 0⟩) demo).map (fun s => (s.applied.map (·.key), s.stream.length)) =
      some (["7-0".toList, "7-2".toList, "7-1".toList], 0) := by
  refine ⟨by simp [kinds, demo, Kind.Ok], by decide +kernel, by decide +kernel⟩

/-- Were the results channel of a call with two updates unbuffered, the process would
stop for ever: the handler offering its second update, the queue its first result. -/
private def stuck : St :=
  ⟨[⟨[up .activate "7-0" "", up .activate "7-1" ""], 0, true, [up .activate "7-1" ""], [], [], 2, false⟩],
    .deliver [(0, ⟨"7-0".toList, none⟩)], ⟨7, 0⟩, .reading [], [], [up .activate "7-0" ""],
    [(0, up .activate "7-0" "", ⟨"7-0".toList, none⟩)], false⟩

example : Quiet .memory 1 10 stuck ∧ stuck.calls.map (·.done) = [false] := by
  refine ⟨fun l hl => ?_, rfl⟩
  cases l with
  | submit i => rfl
  | recv i => cases i <;> rfl
  | ret i => cases i <;> rfl
  | call k => cases hl
  | polled us => cases hl
  | getTick => cases hl
  | _ => rfl

end OM.Props
