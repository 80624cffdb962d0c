import Verif.Spec.Config
import Verif.Lemmas.Numbers
import Verif.Lemmas.Watch
/-! # Lemmas about reading the configuration -/
namespace OM.Conf
open OM.Spec

theorem trimRev_noDot (whole : Str) : ∀ (s : Str) (f : Bool), '.' ∉ s → trimRev whole f s = whole
  | [], _, _ => rfl
  | c :: cs, f, h => by
    have hc : c ≠ '.' := fun e => h (by simp [e])
    have hcs : '.' ∉ cs := fun e => h (by simp [e])
    simp only [trimRev, hc, if_false]
    split
    · exact trimRev_noDot whole cs true hcs
    · rfl

theorem dot_fmtInt (n : Int) : '.' ∉ fmtInt n := by
  intro h
  unfold fmtInt at h
  split at h
  · exact absurd (isDigit_fmtNat h) (by decide)
  · rcases List.mem_cons.mp h with h | h
    · exact absurd h (by decide)
    · exact absurd (isDigit_fmtNat h) (by decide)

theorem trim_fmtInt (n : Int) : trimZeroDecimal (fmtInt n) = fmtInt n :=
  trimRev_noDot _ _ _ (by simpa using dot_fmtInt n)

theorem fmtInt_ne_nil (n : Int) : fmtInt n ≠ [] := by
  unfold fmtInt
  split
  · exact fmtNat_ne_nil _
  · simp

theorem parseInt10_fmtInt {n : Int} (h1 : -2 ^ 63 ≤ n) (h2 : n < 2 ^ 63) : parseInt10 (fmtInt n) = .ok n := by
  cases n with
  | ofNat k => exact parseInt10_fmtNat (by simp only [Int.ofNat_eq_natCast] at h2; omega)
  | negSucc k =>
    have hk : k + 1 ≤ 2 ^ 63 := by omega
    have hd : ∀ c ∈ fmtNat (k + 1), c.isDigit = true := fun c hc => isDigit_fmtNat hc
    have hv := ofDigitChars_fmtNat (k + 1)
    simp only [fmtInt, parseInt10, or_true, if_true, decide_true]
    rw [if_neg (fmtNat_ne_nil _),
      parseUintLoop_digits _ 0 false hd (by rw [hv]; simp [maxUint64]; omega), hv]
    simp only [signedOf, if_true]
    rw [if_neg (by omega)]
    simp [Int.negSucc_eq]

theorem redisInt_fmtInt {n : Int} (h1 : -2 ^ 63 ≤ n) (h2 : n < 2 ^ 63) : redisInt (fmtInt n) = some n := by
  simp [redisInt, parseInt10_fmtInt h1 h2]

theorem signedOf_range {neg : Bool} {r : UintRes} {n : Int} (h : signedOf neg r = .ok n) :
    -2 ^ 63 ≤ n ∧ n < 2 ^ 63 := by
  unfold signedOf at h
  split at h
  · cases h
  · split at h <;> cases h
  · split at h
    · split at h
      · cases h
      · cases h; omega
    · split at h
      · cases h
      · cases h; omega

theorem redisInt_some {s : Str} {n : Int} (h : redisInt s = some n) :
    s = fmtInt n ∧ -2 ^ 63 ≤ n ∧ n < 2 ^ 63 := by
  unfold redisInt at h
  split at h
  · rename_i m e
    split at h
    · rename_i es
      cases h
      refine ⟨es.symm, ?_⟩
      unfold parseInt10 at e
      split at e
      · cases e
      · dsimp only at e
        repeat' split at e
        all_goals first | exact signedOf_range e | cases e
    · cases h
  · cases h

theorem toInt_str {n : Int} (h1 : -2 ^ 63 ≤ n) (h2 : n < 2 ^ 63) : toInt (some (.str (fmtInt n))) = n := by
  simp [toInt, trim_fmtInt, Watch.parseInt0_fmtInt h1 h2]

theorem get_unset {env : GoMap Str} {key : Str} (h : Unset env key) : get env key = defaults.load key := by
  rcases h with h | h <;> simp [get, h]

theorem get_set {env : GoMap Str} {key v : Str} (h : env.load key = some v) (hv : v ≠ []) :
    get env key = some (.str v) := by
  cases v with
  | nil => exact absurd rfl hv
  | cons c cs => simp [get, h]

theorem default_documented {key : Str} {n : Int} (h : (key, n) ∈ documented) :
    defaults.load key = some (.int n) := by
  have all : documented.all (fun p => decide (defaults.load p.1 = some (.int p.2))) = true := by decide +kernel
  simpa using List.all_eq_true.mp all _ h

theorem documented_range {key : Str} {n : Int} (h : (key, n) ∈ documented) : 0 ≤ n ∧ n < 2 ^ 63 := by
  have all : documented.all (fun p => decide (0 ≤ p.2 ∧ p.2 < 2 ^ 63)) = true := by decide +kernel
  simpa using List.all_eq_true.mp all _ h

theorem says_range {env : GoMap Str} {key : Str} {n : Int} (h : Says env key n) : -2 ^ 63 ≤ n ∧ n < 2 ^ 63 := by
  rcases h with h | ⟨-, h⟩
  · exact h.2
  · have := documented_range h; omega

theorem getInt_says {env : GoMap Str} {key : Str} {n : Int} (h : Says env key n) : getInt env key = n := by
  rcases h with ⟨h, h1, h2⟩ | ⟨hu, hd⟩
  · rw [getInt, get_set h (fmtInt_ne_nil n), toInt_str h1 h2]
  · rw [getInt, get_unset hu, default_documented hd]; rfl

theorem getString_says {env : GoMap Str} {key : Str} {n : Int} (h : Says env key n) :
    getString env key = fmtInt n := by
  rcases h with ⟨h, h1, h2⟩ | ⟨hu, hd⟩
  · rw [getString, get_set h (fmtInt_ne_nil n)]; rfl
  · rw [getString, get_unset hu, default_documented hd]; rfl

/-- Whatever Redis reads from the text, om-core reads from the value. -/
theorem toInt_of_redisInt {v : Option Val} {n : Int} (h : redisInt (toStr v) = some n) : toInt v = n := by
  obtain ⟨e, h1, h2⟩ := redisInt_some h
  match v with
  | none => exact absurd e.symm (fmtInt_ne_nil n)
  | some (.str s) => have : s = fmtInt n := e; subst this; exact toInt_str h1 h2
  | some (.int m) =>
    have e' : fmtInt m = fmtInt n := e
    show m = n
    cases m <;> cases n
    · simp only [fmtInt] at e'; rw [fmtNat_injective e']
    · simp only [fmtInt] at e'
      exact absurd (isDigit_fmtNat (n := _) (c := '-') (by rw [e']; simp)) (by decide)
    · simp only [fmtInt] at e'
      exact absurd (isDigit_fmtNat (n := _) (c := '-') (by rw [← e']; simp)) (by decide)
    · simp only [fmtInt, List.cons.injEq, true_and] at e'
      have := fmtNat_injective e'
      rw [show _ = _ from Nat.succ.inj this]
  | some (.bool true) =>
    exfalso
    rw [show redisInt (toStr (some (.bool true))) = none by decide] at h
    cases h
  | some (.bool false) =>
    exfalso
    rw [show redisInt (toStr (some (.bool false))) = none by decide] at h
    cases h

/-! ## Zero decimals -/

theorem trimRev_dots (whole : Str) (j : Nat) (r : Str) : trimRev whole false (List.replicate j '.' ++ r) = trimRev whole false r := by
  induction j with
  | zero => rfl
  | succ j ih => rw [List.replicate_succ, List.cons_append, trimRev]; simpa using ih

theorem trimRev_zeros (whole : Str) (k : Nat) : ∀ (f : Bool) (r : Str),
    trimRev whole f (List.replicate k '0' ++ r) = trimRev whole (f || decide (0 < k)) r := by
  induction k with
  | zero => intro f r; simp
  | succ k ih =>
    intro f r
    rw [List.replicate_succ, List.cons_append, trimRev, if_neg (by decide), if_pos rfl, ih]
    simp

theorem trim_zeroDecimal {v w : Str} (h : ZeroDecimal v w) : trimZeroDecimal v = w := by
  obtain ⟨k, j, hk, rfl⟩ := h
  unfold trimZeroDecimal
  generalize hw : w ++ '.' :: (List.replicate k '0' ++ List.replicate j '.') = whole
  have : (w ++ '.' :: (List.replicate k '0' ++ List.replicate j '.')).reverse =
      List.replicate j '.' ++ (List.replicate k '0' ++ '.' :: w.reverse) := by simp
  rw [← hw, this, trimRev_dots, trimRev_zeros]
  simp [trimRev, hk]

theorem trimRev_cases_true (whole : Str) : ∀ r : Str,
    trimRev whole true r = whole ∨ ∃ k cs, r = List.replicate k '0' ++ '.' :: cs
  | [] => .inl rfl
  | c :: r => by
    rw [trimRev]
    split
    · rename_i h; subst h; exact .inr ⟨0, r, rfl⟩
    · split
      · rename_i h; subst h
        rcases trimRev_cases_true whole r with h | ⟨k, cs, rfl⟩
        · exact .inl h
        · exact .inr ⟨k + 1, cs, rfl⟩
      · exact .inl rfl

theorem trimRev_cases (whole : Str) : ∀ r : Str,
    trimRev whole false r = whole ∨ ∃ j k cs, 0 < k ∧ r = List.replicate j '.' ++ (List.replicate k '0' ++ '.' :: cs)
  | [] => .inl rfl
  | c :: r => by
    rw [trimRev]
    split
    · rename_i h; subst h
      rcases trimRev_cases whole r with h | ⟨j, k, cs, hk, rfl⟩
      · exact .inl h
      · exact .inr ⟨j + 1, k, cs, hk, rfl⟩
    · split
      · rename_i h; subst h
        rcases trimRev_cases_true whole r with h | ⟨k, cs, rfl⟩
        · exact .inl h
        · exact .inr ⟨0, k + 1, cs, by omega, rfl⟩
      · exact .inl rfl

theorem trim_other {v : Str} (h : ∀ w, ¬ ZeroDecimal v w) : trimZeroDecimal v = v := by
  rcases trimRev_cases v v.reverse with h' | ⟨j, k, cs, hk, hr⟩
  · exact h'
  · refine absurd ⟨k, j, hk, ?_⟩ (h cs.reverse)
    rw [← List.reverse_reverse v, hr]
    simp

theorem intLit_no_dot {v : Str} {n : Int} (h : IntLit v n) : '.' ∉ v := by
  have num : ∀ {b s m}, b ≤ 16 → Numeral b s m → '.' ∉ s := by
    intro b s m hb h hm
    rcases Watch.numeral_chars h _ hm with k | ⟨d, k⟩
    · exact absurd k (by decide)
    · have := ((Watch.digit_iff hb).1 k).1
      revert this
      rw [show digitVal '.' = none by decide]; simp
  have lit : ∀ {s m}, UintLit s m → '.' ∉ s := by
    intro s m h
    cases h with
    | dec h _ => exact num (by decide) h
    | oct h => exact num (by decide) h
    | pre hp h =>
      simp only [List.mem_cons, Prod.mk.injEq, List.not_mem_nil, or_false] at hp
      rcases hp with ⟨rfl, rfl⟩ | ⟨rfl, rfl⟩ | ⟨rfl, rfl⟩ | ⟨rfl, rfl⟩ | ⟨rfl, rfl⟩ | ⟨rfl, rfl⟩ <;>
        simpa using num (by decide) h
    | pre_ hp h =>
      simp only [List.mem_cons, Prod.mk.injEq, List.not_mem_nil, or_false] at hp
      rcases hp with ⟨rfl, rfl⟩ | ⟨rfl, rfl⟩ | ⟨rfl, rfl⟩ | ⟨rfl, rfl⟩ | ⟨rfl, rfl⟩ | ⟨rfl, rfl⟩ <;>
        simpa using num (by decide) h
  cases h with
  | plain h => exact lit h
  | plus h => simpa using lit h
  | minus h => simpa using lit h

theorem denotes_iff (v : Str) (n : Int) : Denotes v n ↔ IntLit (trimZeroDecimal v) n := by
  by_cases h : ∃ w, ZeroDecimal v w
  · obtain ⟨w, hw⟩ := h
    rw [trim_zeroDecimal hw]
    constructor
    · rintro (h | ⟨w', hw', h⟩)
      · refine absurd ?_ (intLit_no_dot h)
        obtain ⟨k, j, -, rfl⟩ := hw
        simp
      · rwa [← trim_zeroDecimal hw, trim_zeroDecimal hw']
    · exact fun h => .inr ⟨w, hw, h⟩
  · have h : ∀ w, ¬ ZeroDecimal v w := fun w hw => h ⟨w, hw⟩
    rw [trim_other h]
    constructor
    · rintro (h' | ⟨w, hw, -⟩)
      · exact h'
      · exact absurd hw (h w)
    · exact .inl

end OM.Conf
