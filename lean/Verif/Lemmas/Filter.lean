import Verif.Model.Filter
import Verif.Spec.Filter
import Verif.Lemmas.Go
import Mathlib.Tactic.Ring
import Mathlib.Tactic.Linarith
/-! # Lemmas: float order and filter loops -/
namespace OM
open Spec

/-- The scaled magnitude denoted by exponent/fraction bits `m < 2047 * 2^52`. -/
def scaledMag (m : Nat) : Nat :=
  if m / 2 ^ 52 = 0 then m % 2 ^ 52 else (2 ^ 52 + m % 2 ^ 52) * 2 ^ (m / 2 ^ 52 - 1)

theorem scaledMag_step (m : Nat) : scaledMag m < scaledMag (m + 1) := by
  unfold scaledMag
  by_cases h : (m + 1) % 2 ^ 52 = 0
  · have h1 : m % 2 ^ 52 = 2 ^ 52 - 1 := by omega
    have h2 : (m + 1) / 2 ^ 52 = m / 2 ^ 52 + 1 := by omega
    rw [h, h1, h2]
    by_cases h0 : m / 2 ^ 52 = 0
    · rw [h0]; norm_num
    · simp only [h0, if_false, Nat.add_one_ne_zero, Nat.add_sub_cancel, Nat.add_zero]
      obtain ⟨k, hk⟩ : ∃ k, m / 2 ^ 52 = k + 1 := ⟨m / 2 ^ 52 - 1, by omega⟩
      rw [hk, Nat.add_sub_cancel, Nat.pow_succ 2 k]
      have : 0 < 2 ^ k := Nat.pos_of_ne_zero (by simp)
      generalize 2 ^ k = q at *
      omega
  · have h1 : (m + 1) % 2 ^ 52 = m % 2 ^ 52 + 1 := by omega
    have h2 : (m + 1) / 2 ^ 52 = m / 2 ^ 52 := by omega
    rw [h1, h2]
    split
    · omega
    · have : 0 < 2 ^ (m / 2 ^ 52 - 1) := Nat.pos_of_ne_zero (by simp)
      nlinarith

theorem scaledMag_lt {a b : Nat} (h : a < b) : scaledMag a < scaledMag b := by
  induction b with
  | zero => omega
  | succ b ih =>
    rcases Nat.lt_or_ge a b with h1 | h1
    · exact Nat.lt_trans (ih h1) (scaledMag_step b)
    · have : a = b := by omega
      subst this; exact scaledMag_step a

theorem scaledMag_lt_iff {a b : Nat} : scaledMag a < scaledMag b ↔ a < b := by
  constructor
  · intro h
    rcases Nat.lt_trichotomy a b with h1 | h1 | h1
    · exact h1
    · subst h1; omega
    · have := scaledMag_lt h1; omega
  · exact scaledMag_lt

theorem scaledMag_le_iff {a b : Nat} : scaledMag a ≤ scaledMag b ↔ a ≤ b := by
  have := @scaledMag_lt_iff b a; omega

theorem scaledMag_eq_iff {a b : Nat} : scaledMag a = scaledMag b ↔ a = b := by
  have := @scaledMag_le_iff b a; have := @scaledMag_le_iff a b; omega

theorem scaledMag_zero : scaledMag 0 = 0 := by simp [scaledMag]

/-- Characterisation of the specification's `num` by the model's sign/magnitude. -/
theorem num_eq (x : F64) :
    num x =
      if F64.isNaN x then none
      else if F64.mag x = 0x7FF0000000000000 then some (if F64.neg x then .negInf else .posInf)
      else some (.fin (if F64.neg x then -(scaledMag (F64.mag x) : Int) else scaledMag (F64.mag x))) := by
  have hlt : x.toNat < 2 ^ 64 := x.isLt
  have hs : x.getLsbD 63 = F64.neg x := by
    unfold F64.neg
    rw [← BitVec.msb_eq_getLsbD_last, BitVec.msb_eq_decide]
  have he : x.toNat / 2 ^ 52 % 2 ^ 11 = F64.mag x / 2 ^ 52 := by unfold F64.mag; omega
  have hf : x.toNat % 2 ^ 52 = F64.mag x % 2 ^ 52 := by unfold F64.mag; omega
  have hm : F64.mag x < 2 ^ 63 := by unfold F64.mag; omega
  unfold num
  simp only [hs, he, hf]
  generalize F64.neg x = s
  unfold F64.isNaN
  generalize F64.mag x = m at *
  by_cases h1 : m / 2 ^ 52 = 2047
  · by_cases h2 : m % 2 ^ 52 = 0
    · have : m = 0x7FF0000000000000 := by omega
      subst this; simp
    · have h3 : 0x7FF0000000000000 < m := by omega
      simp only [h1, if_true, h2, if_false, decide_eq_true h3]
  · have h3 : ¬ 0x7FF0000000000000 < m := by omega
    have h4 : m ≠ 0x7FF0000000000000 := by intro h; subst h; simp at h1
    simp only [h1, if_false, h3, decide_false, Bool.false_eq_true, h4]
    unfold scaledMag
    by_cases h5 : m / 2 ^ 52 = 0
    · simp only [h5, if_true]
    · simp only [h5, if_false]; push_cast; rfl

theorem numLe_iff (x y : F64) : numLe x y ↔ F64.le x y = true := by
  unfold numLe F64.le F64.key
  rw [num_eq, num_eq]
  have key : ∀ x : F64, F64.isNaN x = false → F64.mag x ≤ 0x7FF0000000000000 := by
    intro x h; unfold F64.isNaN at h; simpa using h
  cases hx : F64.isNaN x
  · cases hy : F64.isNaN y
    · have kx := key x hx
      have ky := key y hy
      simp only [Bool.false_eq_true, if_false, Bool.not_false, Bool.true_and, decide_eq_true_eq]
      generalize F64.mag x = mx at *
      generalize F64.mag y = my at *
      have l1 := @scaledMag_le_iff mx my
      have l2 := @scaledMag_le_iff my mx
      have z1 := @scaledMag_eq_iff mx 0
      have z2 := @scaledMag_eq_iff my 0
      rw [scaledMag_zero] at z1 z2
      by_cases h1 : mx = 0x7FF0000000000000 <;> by_cases h2 : my = 0x7FF0000000000000 <;>
        simp only [h1, h2, if_true, if_false] <;>
        cases F64.neg x <;> cases F64.neg y <;>
        simp [Num.le] <;> omega
    · simp
  · simp

theorem numLt_iff (x y : F64) : numLt x y ↔ F64.lt x y = true := by
  unfold numLt F64.lt F64.key
  rw [num_eq, num_eq]
  have key : ∀ x : F64, F64.isNaN x = false → F64.mag x ≤ 0x7FF0000000000000 := by
    intro x h; unfold F64.isNaN at h; simpa using h
  cases hx : F64.isNaN x
  · cases hy : F64.isNaN y
    · have kx := key x hx
      have ky := key y hy
      simp only [Bool.false_eq_true, if_false, Bool.not_false, Bool.true_and, decide_eq_true_eq]
      generalize F64.mag x = mx at *
      generalize F64.mag y = my at *
      have l1 := @scaledMag_le_iff mx my
      have l2 := @scaledMag_le_iff my mx
      have z1 := @scaledMag_eq_iff mx 0
      have z2 := @scaledMag_eq_iff my 0
      rw [scaledMag_zero] at z1 z2
      by_cases h1 : mx = 0x7FF0000000000000 <;> by_cases h2 : my = 0x7FF0000000000000 <;>
        simp only [h1, h2, if_true, if_false] <;>
        cases F64.neg x <;> cases F64.neg y <;>
        simp [Num.le] <;> omega
    · simp
  · simp

namespace Filter

theorem doubleRejects_eq_false (f : DoubleRangeFilter) (v : F64) :
    doubleRejects f v = false ↔
      (KnownBounds f.bounds → InRange f.bounds f.minimum f.maximum v) := by
  unfold doubleRejects KnownBounds InRange excludeNone excludeMin excludeMax excludeBoth F64.ge F64.gt
  simp only [numLe_iff, numLt_iff]
  by_cases h0 : f.bounds = 0
  · simp [h0]
  · by_cases h1 : f.bounds = 1
    · simp [h1]
    · by_cases h2 : f.bounds = 2
      · simp [h2]
      · by_cases h3 : f.bounds = 3
        · simp [h3]
        · simp [h0, h1, h2, h3]

theorem doubleLoop_some (a : FilterableData) (fs : List DoubleRangeFilter) :
    ∃ b, doubleLoop (some a) fs = some b ∧
      (b = true ↔ ∀ f ∈ fs, ∃ v, a.doubleArgs.load f.doubleArg = some v ∧ doubleRejects f v = false) := by
  induction fs with
  | nil => exact ⟨true, rfl, by simp⟩
  | cons f fs ih =>
    obtain ⟨b, hb, hiff⟩ := ih
    simp only [doubleLoop]
    cases hl : a.doubleArgs.load f.doubleArg with
    | none => exact ⟨false, rfl, by simp [hl]⟩
    | some v =>
      cases hr : doubleRejects f v with
      | true => exact ⟨false, by simp [hr], by simp [hl, hr]⟩
      | false => exact ⟨b, by simpa [hr] using hb, by simp [hl, hr, hiff]⟩

theorem stringLoop_some (a : FilterableData) (fs : List StringEqualsFilter) :
    ∃ b, stringLoop (some a) fs = some b ∧
      (b = true ↔ ∀ f ∈ fs, a.stringArgs.load f.stringArg = some f.value) := by
  induction fs with
  | nil => exact ⟨true, rfl, by simp⟩
  | cons f fs ih =>
    obtain ⟨b, hb, hiff⟩ := ih
    simp only [stringLoop]
    cases hl : a.stringArgs.load f.stringArg with
    | none => exact ⟨false, rfl, by simp [hl]⟩
    | some v =>
      by_cases hr : f.value = v
      · exact ⟨b, by simpa [hr] using hb, by simp [hl, hr, hiff]⟩
      · refine ⟨false, by simp [hr], ?_⟩
        simp [hl]; intro h; exact absurd h.symm hr

theorem tagLoop_iff (tags : List Str) (fs : List TagPresentFilter) :
    tagLoop tags fs = true ↔ ∀ f ∈ fs, f.tag ∈ tags := by
  induction fs with
  | nil => simp [tagLoop]
  | cons f fs ih =>
    unfold tagLoop
    by_cases h : f.tag ∈ tags
    · have : tags.any (fun v => decide (v = f.tag)) = true := by simpa using h
      rw [if_pos this, ih]; simp [h]
    · have : ¬ tags.any (fun v => decide (v = f.tag)) = true := by simpa using h
      rw [if_neg this]; simp [h]

/-- Everything `In` decides, in one place: with attributes present it answers, and
the answer is the conjunction of the sections. -/
theorem In_some (p : Pool) (t : Ticket) (a : FilterableData) (ha : t.attributes = some a) :
    ∃ b, In (some p) (some t) = some b ∧
      (b = true ↔ timeRejects (some p) (some a) = false ∧
        (∀ f ∈ p.doubleRangeFilters, ∃ v, a.doubleArgs.load f.doubleArg = some v ∧
          doubleRejects f v = false) ∧
        (∀ f ∈ p.stringEqualsFilters, a.stringArgs.load f.stringArg = some f.value) ∧
        (∀ f ∈ p.tagPresentFilters, f.tag ∈ a.tags)) := by
  obtain ⟨bd, hd, hdi⟩ := doubleLoop_some a p.doubleRangeFilters
  obtain ⟨bs, hs, hsi⟩ := stringLoop_some a p.stringEqualsFilters
  have ht := tagLoop_iff a.tags p.tagPresentFilters
  unfold In
  simp only [Option.bind_some, ha, Option.map_some, Option.getD_some]
  cases timeRejects (some p) (some a) with
  | true => exact ⟨false, rfl, by simp⟩
  | false =>
    simp only [Bool.false_eq_true, if_false, hd, hs]
    rw [← hdi, ← hsi, ← ht]
    cases bd <;> cases bs <;> simp

end Filter
end OM
