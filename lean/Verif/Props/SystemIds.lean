import Verif.Lemmas.SystemIds
import Verif.Props.EndToEnd
import Verif.Props.Ids
/-!
# Property C83: the ids that clients receive

In the multi-instance system over Redis (`Model/System.lean`): any instances, calls,
crashes, Redis errors, lost connections and clocks (also clocks that step back).  Nothing
is assumed about the labels.
-/
namespace OM.Props
open OM.Spec OM.Sys

/-- The client that made call `c` was given the ticket id `k`. -/
def ToldId (s : St) (c : Nat) (k : Str) : Prop :=
  ∃ x, s.calls c = some x ∧ x.outcome = some (.id k)

/-- `a` comes before `b`, as pairs of numbers. -/
def Earlier (a b : Nat × Nat) : Prop := a.1 < b.1 ∨ (a.1 = b.1 ∧ a.2 < b.2)

theorem idText_fmt (i : RId) : i.fmt = idText i := rfl

theorem idText_wellFormed (p : Nat × Nat) : WellFormedId (idText p) := by
  have hd : ∀ n, Digits (Nat.toDigits 10 n) := by
    intro n c hc
    have h := Nat.isDigit_of_mem_toDigits (by decide) (by decide) hc
    unfold Char.isDigit at h
    simp only [Bool.and_eq_true, decide_eq_true_eq] at h
    have h1 : 48 ≤ c.toNat := h.1
    have h2 : c.toNat ≤ 57 := h.2
    have hc : c = Char.ofNat c.toNat := (Char.ofNat_toNat c).symm
    rw [hc]
    generalize c.toNat = n at h1 h2
    have : n = 48 ∨ n = 49 ∨ n = 50 ∨ n = 51 ∨ n = 52 ∨ n = 53 ∨ n = 54 ∨ n = 55 ∨ n = 56 ∨ n = 57 := by omega
    rcases this with rfl | rfl | rfl | rfl | rfl | rfl | rfl | rfl | rfl | rfl <;> decide
  exact ⟨Nat.toDigits 10 p.1, Nat.toDigits 10 p.2, rfl, hd _, hd _, Nat.toDigits_ne_nil, Nat.toDigits_ne_nil⟩

/-- **C83 (no id twice).** Two calls never receive the same ticket id.  (The empty id is
what a client gets when the connection to Redis is lost, C11.) -/
theorem C83_no_id_twice (cd : Codec) (cfg : Config) (evs : List Label) (s : St)
    (hr : run cd cfg init evs = some s) (c d : Nat) (k : Str) (hk : k ≠ [])
    (hc : ToldId s c k) (hd : ToldId s d k) : c = d := by
  obtain ⟨x, hx, ho⟩ := hc
  obtain ⟨y, hy, ho'⟩ := hd
  have ht := told_run evs told_init hr
  exact (idsOk_run evs idsOk_init hr).disj c d k (ht c x k hx ho hk) (ht d y k hy ho' hk)

/-- **C83 (ids increase).** A call that began after another one had returned its id gets a
later id, whichever instances they were made at and whatever the clocks did. -/
theorem C83_ids_increase (cd : Codec) (cfg : Config) (evs1 evs2 : List Label) (s1 s2 : St)
    (hr1 : run cd cfg init evs1 = some s1) (hr2 : run cd cfg s1 evs2 = some s2)
    (c d : Nat) (k l : Str) (hk : k ≠ []) (hl : l ≠ [])
    (hc : ToldId s1 c k) (hnew : s1.calls d = none) (hd : ToldId s2 d l) :
    ∃ p q, k = idText p ∧ l = idText q ∧ Earlier p q := by
  obtain ⟨x, hx, ho⟩ := hc
  obtain ⟨y, hy, ho'⟩ := hd
  have ht1 := told_run evs1 told_init hr1
  have ht2 := told_run evs2 ht1 hr2
  obtain ⟨i, hi, hle⟩ := (idsOk_run evs1 idsOk_init hr1).le c k (ht1 c x k hx ho hk)
  obtain ⟨-, hlat⟩ := later_ids evs2 hr2
  obtain ⟨new, e1, e2⟩ := hlat d
  have hm := ht2 d y l hy ho' hl
  rw [e1] at hm
  have : gotIds s1 d = [] := by simp [gotIds, hnew]
  rw [this, List.nil_append] at hm
  obtain ⟨j, hj, hlt⟩ := e2 l hm
  exact ⟨i, j, hi, hj, RId.lt_of_le_of_lt hle hlt⟩

/-- **C83 (ids can be used).** Every id a client receives has the documented form, and
ActivateTickets and DeactivateTickets act on it whenever they accept the request. -/
theorem C83_ids_can_be_used (cd : Codec) (cfg : Config) (evs : List Label) (s : St)
    (hr : run cd cfg init evs = some s) (c : Nat) (k : Str) (hk : k ≠ []) (hc : ToldId s c k) :
    WellFormedId k ∧ ∀ (cmd : Cmd) (ids : List Str) (us : List StateUpdate), k ∈ ids →
      activeStateQueue cfg cmd ids = .ok us → ⟨cmd, k, []⟩ ∈ us := by
  obtain ⟨x, hx, ho⟩ := hc
  obtain ⟨i, hi, -⟩ := (idsOk_run evs idsOk_init hr).le c k (told_run evs told_init hr c x k hx ho hk)
  have hw : WellFormedId k := by rw [hi, idText_fmt]; exact idText_wellFormed i
  exact ⟨hw, fun cmd ids us hm hq => (C16_well_formed_sent_partial cfg cmd ids us hq).1 k hm hw⟩

/-- The same for the in-memory store. -/
theorem C83_memory_ids_can_be_used (cfg : Config) (t0 : Int) (l : List (StateUpdate × Int × Int)) (h0 : 0 ≤ t0)
    (hc : NonDecreasing t0 l) (r : StateResponse) (hr : r ∈ (memRun t0 l).2.2) :
    WellFormedId r.result ∧ ∀ (cmd : Cmd) (ids : List Str) (us : List StateUpdate), r.result ∈ ids →
      activeStateQueue cfg cmd ids = .ok us → ⟨cmd, r.result, []⟩ ∈ us := by
  obtain ⟨ps, e1, -⟩ := MemRepl.sendUpdates_ids (MemRepl.new t0) l h0 hc
  have hm : r.result ∈ (memRun t0 l).2.2.map (·.result) := List.mem_map_of_mem hr
  unfold memRun at hm
  rw [e1] at hm
  obtain ⟨p, -, hp⟩ := List.mem_map.1 hm
  have hw : WellFormedId r.result := by
    rw [← hp]; exact idText_wellFormed p
  exact ⟨hw, fun cmd ids us hm hq => (C16_well_formed_sent_partial cfg cmd ids us hq).1 _ hm hw⟩

/-! ## A case -/

/-- Redis' clock has stepped back by one minute. -/
def backEnv : SendEnv := ⟨[⟨1699999940000, none⟩], 1699999940, none, none⟩

/-- Ticket A is created at instance 0, then B at instance 1 while the clock is behind. -/
def evsTwo : List Label :=
  [.start 0, .start 1, .call 0 0 (.create startNs (some reqA)), .submit 0 (okEnv 1), .timeout 0 (okEnv 1), .finish 0 []]
def evsTwo' : List Label :=
  [.call 1 1 (.create startNs (some reqB)), .submit 1 backEnv, .timeout 1 backEnv, .finish 1 []]

example : ∃ s1 s2, run Wire.codec Config.default init evsTwo = some s1 ∧
    run Wire.codec Config.default s1 evsTwo' = some s2 ∧
    ToldId s1 0 "1700000000000-0".toList ∧ s1.calls 1 = none ∧ ToldId s2 1 "1700000000000-1".toList := by
  have h1 : (run Wire.codec Config.default init evsTwo).map (fun s => (told s 0, (s.calls 1).isNone)) =
      some (some "1700000000000-0".toList, true) := by decide +kernel
  have h2 : (run Wire.codec Config.default init (evsTwo ++ evsTwo')).map (fun s => told s 1) =
      some (some "1700000000000-1".toList) := by decide +kernel
  obtain ⟨s1, r1, e1⟩ := Option.map_eq_some_iff.1 h1
  obtain ⟨s2, r2, e2⟩ := Option.map_eq_some_iff.1 h2
  rw [Prod.mk.injEq] at e1
  rw [run_append, r1] at r2
  exact ⟨s1, s2, r1, r2, told_id e1.1 (by decide), by simpa using e1.2, told_id e2 (by decide)⟩

end OM.Props
