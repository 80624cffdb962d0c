import Verif.Model.Go
/-! Helper lemmas about the Go primitives. -/
namespace OM

namespace GoMap
variable {V : Type}

@[simp] theorem load_nil (k : Str) : load ([] : GoMap V) k = none := rfl

theorem load_cons (e : Str × V) (m : GoMap V) (k : Str) :
    load (e :: m) k = if e.1 = k then some e.2 else load m k := rfl

@[simp] theorem keys_nil : keys ([] : GoMap V) = [] := rfl
@[simp] theorem keys_cons (e : Str × V) (m : GoMap V) : keys (e :: m) = e.1 :: keys m := rfl

theorem load_append (m n : GoMap V) (k : Str) :
    load (m ++ n) k = (load m k).or (load n k) := by
  induction m with
  | nil => simp
  | cons e m ih =>
    simp only [List.cons_append, load_cons, ih]
    split <;> simp

theorem load_delete (m : GoMap V) (k k' : Str) :
    load (delete m k) k' = if k' = k then none else load m k' := by
  induction m with
  | nil => simp [delete]
  | cons e m ih =>
    simp only [delete, List.filter_cons] at *
    by_cases h : e.1 = k
    · simp only [h, ne_eq, not_true_eq_false, decide_false, Bool.false_eq_true, if_false, ih, load_cons]
      by_cases h2 : k' = k
      · simp [h2]
      · simp [h2, Ne.symm h2]
    · simp only [ne_eq, h, not_false_eq_true, decide_true, if_true, load_cons, ih]
      by_cases h2 : k' = k
      · subst h2; simp [h]
      · simp [h2]

@[simp] theorem load_delete_same (m : GoMap V) (k : Str) : load (delete m k) k = none := by
  simp [load_delete]

theorem load_delete_ne (m : GoMap V) {k k' : Str} (h : k' ≠ k) :
    load (delete m k) k' = load m k' := by simp [load_delete, h]

theorem load_store (m : GoMap V) (k : Str) (v : V) (k' : Str) :
    load (store m k v) k' = if k' = k then some v else load m k' := by
  simp only [store, load_append, load_delete, load_cons, load_nil]
  by_cases h : k' = k
  · simp [h]
  · simp [h, Ne.symm h]

@[simp] theorem load_store_same (m : GoMap V) (k : Str) (v : V) :
    load (store m k v) k = some v := by simp [load_store]

theorem load_store_ne (m : GoMap V) {k k' : Str} (v : V) (h : k' ≠ k) :
    load (store m k v) k' = load m k' := by simp [load_store, h]

theorem mem_keys {m : GoMap V} {k : Str} : k ∈ keys m ↔ ∃ v, (k, v) ∈ m := by
  simp [keys]

theorem load_eq_none_iff {m : GoMap V} {k : Str} : load m k = none ↔ k ∉ keys m := by
  induction m with
  | nil => simp
  | cons e m ih =>
    simp only [load_cons, keys_cons, List.mem_cons, not_or]
    by_cases h : e.1 = k
    · simp [h]
    · simp [h, ih, Ne.symm h]

theorem load_isSome_iff {m : GoMap V} {k : Str} : (load m k).isSome ↔ k ∈ keys m := by
  have := @load_eq_none_iff V m k
  cases h : load m k <;> simp_all

theorem mem_of_load {m : GoMap V} {k : Str} {v : V} (h : load m k = some v) : (k, v) ∈ m := by
  induction m with
  | nil => simp at h
  | cons e m ih =>
    simp only [load_cons] at h
    split at h
    · rename_i he; cases h; subst he; simp
    · exact List.mem_cons_of_mem _ (ih h)

theorem load_of_mem {m : GoMap V} (wf : m.WF) {k : Str} {v : V} (h : (k, v) ∈ m) :
    load m k = some v := by
  induction m with
  | nil => simp at h
  | cons e m ih =>
    have hn : e.1 ∉ keys m ∧ WF m := by
      simpa [WF] using wf
    simp only [load_cons]
    rcases List.mem_cons.1 h with h | h
    · subst h; simp
    · have : e.1 ≠ k := fun he => hn.1 (he ▸ mem_keys.2 ⟨v, h⟩)
      simp [this, ih hn.2 h]

theorem mem_iff_load {m : GoMap V} (wf : m.WF) {k : Str} {v : V} :
    (k, v) ∈ m ↔ load m k = some v := ⟨load_of_mem wf, mem_of_load⟩

theorem WF_nil : WF ([] : GoMap V) := List.nodup_nil

theorem keys_append (m n : GoMap V) : keys (m ++ n) = keys m ++ keys n := by simp [keys]

theorem keys_delete_sublist (m : GoMap V) (k : Str) : (keys (delete m k)).Sublist (keys m) :=
  (List.filter_sublist).map _

theorem WF_delete {m : GoMap V} (wf : m.WF) (k : Str) : (delete m k).WF :=
  List.Nodup.sublist (keys_delete_sublist m k) wf

theorem mem_keys_delete {m : GoMap V} {k k' : Str} :
    k' ∈ keys (delete m k) ↔ k' ∈ keys m ∧ k' ≠ k := by
  rw [← load_isSome_iff, ← load_isSome_iff, load_delete]
  by_cases h : k' = k <;> simp [h]

theorem WF_store {m : GoMap V} (wf : m.WF) (k : Str) (v : V) : (store m k v).WF := by
  unfold WF store
  rw [keys_append]
  refine List.nodup_append.2 ⟨WF_delete wf k, by simp, ?_⟩
  intro a ha b hb
  simp at hb
  rw [hb]
  exact (mem_keys_delete.1 ha).2

theorem mem_keys_store {m : GoMap V} {k k' : Str} {v : V} :
    k' ∈ keys (store m k v) ↔ k' = k ∨ k' ∈ keys m := by
  rw [← load_isSome_iff, ← load_isSome_iff, load_store]
  by_cases h : k' = k <;> simp [h]

/-- Two representations of one map: same keys to same values. -/
theorem load_perm {m n : GoMap V} (hp : m.Perm n) (wf : m.WF) (k : Str) :
    load m k = load n k := by
  have wfn : WF n := (hp.map Prod.fst).nodup_iff.1 wf
  cases h : load m k with
  | some v =>
    exact (load_of_mem wfn (hp.mem_iff.1 (mem_of_load h))).symm
  | none =>
    cases h' : load n k with
    | none => rfl
    | some v =>
      rw [load_of_mem wf (hp.mem_iff.2 (mem_of_load h'))] at h
      cases h

theorem WF_perm {m n : GoMap V} (hp : m.Perm n) (wf : m.WF) : n.WF :=
  (hp.map Prod.fst).nodup_iff.1 wf

theorem WF_filter {m : GoMap V} (wf : m.WF) (p : Str × V → Bool) : WF (m.filter p) :=
  List.Nodup.sublist (List.filter_sublist.map _) wf

theorem load_filter {m : GoMap V} (wf : m.WF) (p : Str × V → Bool) (k : Str) :
    load (m.filter p) k = (load m k).filter (fun v => p (k, v)) := by
  cases h : load m k with
  | none =>
    have := load_eq_none_iff.1 h
    simp only [Option.filter_none]
    rw [load_eq_none_iff, mem_keys]
    rintro ⟨v, hv⟩
    exact this (mem_keys.2 ⟨v, (List.mem_filter.1 hv).1⟩)
  | some v =>
    have hm := mem_of_load h
    by_cases hp : p (k, v)
    · simp only [Option.filter_some, hp, if_true]
      exact load_of_mem (WF_filter wf p) (List.mem_filter.2 ⟨hm, hp⟩)
    · simp only [Option.filter_some, hp]
      simp only [Bool.false_eq_true, if_false]
      rw [load_eq_none_iff, mem_keys]
      rintro ⟨w, hw⟩
      have hw' := List.mem_filter.1 hw
      have := load_of_mem wf hw'.1
      rw [h] at this; cases this
      exact hp hw'.2

end GoMap

/-! ### split -/

theorem split_ne_nil (sep : Char) (s : Str) : split sep s ≠ [] := by
  cases s with
  | nil => simp [split]
  | cons c cs =>
    simp only [split]
    split
    · simp
    · split <;> simp

theorem splitFirst_nil (sep : Char) : splitFirst sep [] = [] := rfl

theorem splitFirst_cons (sep c : Char) (s : Str) :
    splitFirst sep (c :: s) = if c = sep then [] else c :: splitFirst sep s := by
  unfold splitFirst
  simp only [split]
  split
  · rfl
  · have := split_ne_nil sep s
    split
    · rename_i h; exact absurd h this
    · rename_i w ws h; simp [h]

/-- `strings.Split(s, sep)[0]` is the part of `s` before the first separator. -/
theorem splitFirst_eq_takeWhile (sep : Char) (s : Str) :
    splitFirst sep s = s.takeWhile (fun c => decide (c ≠ sep)) := by
  induction s with
  | nil => rfl
  | cons c cs ih =>
    rw [splitFirst_cons, List.takeWhile_cons]
    by_cases h : c = sep <;> simp [h, ih]

theorem splitFirst_append (sep : Char) (a b : Str) (h : sep ∉ a) :
    splitFirst sep (a ++ sep :: b) = a := by
  induction a with
  | nil => simp [splitFirst_cons]
  | cons c cs ih =>
    simp only [List.mem_cons, not_or] at h
    simp only [List.cons_append, splitFirst_cons]
    rw [if_neg (Ne.symm h.1), ih h.2]

/-! ### decimal formatting and parsing -/

theorem digitVal_of_isDigit {c : Char} (h : c.isDigit = true) :
    digitVal c = some (c.toNat - '0'.toNat) := by
  unfold digitVal
  have : '0' ≤ c ∧ c ≤ '9' := by
    simp only [Char.isDigit, Bool.and_eq_true, decide_eq_true_eq, ge_iff_le] at h
    exact h
  rw [if_pos this]

theorem isDigit_fmtNat {n : Nat} {c : Char} (h : c ∈ fmtNat n) : c.isDigit = true :=
  Nat.isDigit_of_mem_toDigits (by decide) (by decide) h

theorem fmtNat_ne_nil (n : Nat) : fmtNat n ≠ [] := Nat.toDigits_ne_nil

theorem dash_not_mem_fmtNat (n : Nat) : '-' ∉ fmtNat n := by
  intro h
  have := isDigit_fmtNat h
  revert this; decide

theorem ofDigitChars_fmtNat (n : Nat) : Nat.ofDigitChars 10 (fmtNat n) 0 = n :=
  Nat.ofDigitChars_ten_toDigits

theorem fmtNat_injective {a b : Nat} (h : fmtNat a = fmtNat b) : a = b := by
  rw [← ofDigitChars_fmtNat a, h, ofDigitChars_fmtNat]

theorem ofDigitChars_ge (cs : Str) (n : Nat) : n ≤ Nat.ofDigitChars 10 cs n := by
  induction cs generalizing n with
  | nil => simp
  | cons c cs ih =>
    rw [Nat.ofDigitChars_cons]
    refine Nat.le_trans ?_ (ih _)
    omega

/-- The digit loop reads a digit string exactly when the value fits in uint64. -/
theorem parseUintLoop_digits (cs : Str) (n : Nat) (us : Bool)
    (hd : ∀ c ∈ cs, c.isDigit = true) (hb : Nat.ofDigitChars 10 cs n ≤ maxUint64) :
    parseUintLoop 10 false cs n us = .ok (Nat.ofDigitChars 10 cs n) us := by
  induction cs generalizing n with
  | nil => simp [parseUintLoop]
  | cons c cs ih =>
    have hc := hd c (by simp)
    rw [Nat.ofDigitChars_cons] at hb ⊢
    simp only [parseUintLoop]
    rw [if_neg (by simp), digitVal_of_isDigit hc]
    have hlt : c.toNat - '0'.toNat < 10 := by
      simp only [Char.isDigit, Bool.and_eq_true, decide_eq_true_eq, ge_iff_le] at hc
      have h2 : c.toNat ≤ '9'.toNat := hc.2
      have : '9'.toNat = 57 := rfl
      have : '0'.toNat = 48 := rfl
      omega
    have hge := ofDigitChars_ge cs (10 * n + (c.toNat - '0'.toNat))
    simp only
    rw [if_neg (by omega), if_neg (by omega)]
    rw [Nat.mul_comm n 10]
    exact ih _ (fun c' h' => hd c' (by simp [h'])) hb

theorem parseInt10_fmtNat {n : Nat} (h : n < 2 ^ 63) : parseInt10 (fmtNat n) = .ok (n : Int) := by
  have hne := fmtNat_ne_nil n
  have hdig : ∀ c ∈ fmtNat n, c.isDigit = true := fun c hc => isDigit_fmtNat hc
  have hval := ofDigitChars_fmtNat n
  revert hne hdig hval
  generalize fmtNat n = s
  intro hne hdig hval
  cases s with
  | nil => exact absurd rfl hne
  | cons c cs =>
    have hc := hdig c (by simp)
    have h1 : c ≠ '+' := by rintro rfl; revert hc; decide
    have h2 : c ≠ '-' := by rintro rfl; revert hc; decide
    simp only [parseInt10, h1, h2, or_self, if_false]
    rw [if_neg (by simp)]
    rw [parseUintLoop_digits (c :: cs) 0 false hdig (by rw [hval]; simp [maxUint64]; omega), hval]
    simp only [signedOf, decide_false, Bool.false_eq_true, if_false]
    rw [if_neg (by omega)]

theorem fmtNatPad_ofDigitChars (w n : Nat) : Nat.ofDigitChars 10 (fmtNatPad w n) 0 = n := by
  unfold fmtNatPad
  rw [Nat.ofDigitChars_append]
  rw [Nat.ofDigitChars_replicate_zero]
  simp [ofDigitChars_fmtNat]

theorem fmtNatPad_injective {w a b : Nat} (h : fmtNatPad w a = fmtNatPad w b) : a = b := by
  rw [← fmtNatPad_ofDigitChars w a, h, fmtNatPad_ofDigitChars]

end OM
