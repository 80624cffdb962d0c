import Verif.Lemmas.ProtoJson
/-! Lemmas on `Model/ProtoJson`: times are written as RFC 3339 has them. -/
namespace OM.PJ
open OM.Spec

theorem monthDay_ok (ls : List Nat) (d : Nat) (h : d < ls.sum) :
    1 ≤ (monthDay ls d).1 ∧ 1 ≤ (monthDay ls d).2 ∧ (∃ l, ls[(monthDay ls d).1 - 1]? = some l ∧ (monthDay ls d).2 ≤ l) ∧
      (ls.take ((monthDay ls d).1 - 1)).sum + (monthDay ls d).2 = d + 1 := by
  induction ls generalizing d with
  | nil => simp at h
  | cons l ls ih =>
    simp only [monthDay]
    by_cases hd : d < l
    · rw [if_pos hd]
      refine ⟨by simp, by simp, ⟨l, rfl, hd⟩, ?_⟩
      simp
    · rw [if_neg hd]
      obtain ⟨h1, h2, ⟨l', h3, h4⟩, h5⟩ := ih (d - l) (by simp at h; omega)
      generalize monthDay ls (d - l) = r at *
      simp only [Nat.add_sub_cancel]
      obtain ⟨k, hk⟩ : ∃ k, r.1 = k + 1 := ⟨r.1 - 1, by omega⟩
      rw [hk] at h3 h5 ⊢
      rw [Nat.add_sub_cancel] at h3 h5
      refine ⟨by omega, h2, ⟨l', by simpa using h3, h4⟩, ?_⟩
      rw [List.take_succ_cons, List.sum_cons]
      omega

theorem monthLengths_sum (y : Nat) : (monthLengths y).sum = if Leap y then 366 else 365 := by
  unfold monthLengths
  by_cases h : Leap y <;> simp [h]

/-- The days before a year, by cycles of 400, 100, 4 years and 1 year. -/
theorem daysBefore_cycles {a b c d : Nat} (hb : b ≤ 3) (hc : c ≤ 24) (hd : d ≤ 3) :
    daysBeforeYear (400 * a + 100 * b + 4 * c + d + 1) = 146097 * a + 36524 * b + 1461 * c + 365 * d := by
  unfold daysBeforeYear
  rw [Nat.add_sub_cancel]
  have h4 : (400 * a + 100 * b + 4 * c + d) / 4 = 100 * a + 25 * b + c := by omega
  have h100 : (400 * a + 100 * b + 4 * c + d) / 100 = 4 * a + b := by omega
  have h400 : (400 * a + 100 * b + 4 * c + d) / 400 = a := by omega
  rw [h4, h100, h400]
  omega

theorem century_step {n b : Nat} (hn : n < 146097) (hb : min (n / 36524) 3 = b) :
    b ≤ 3 ∧ b * 36524 ≤ n ∧ n - b * 36524 ≤ 36524 ∧ (n - b * 36524 = 36524 → b = 3) := by omega

theorem year_step {n d : Nat} (hn : n < 1461) (hd : min (n / 365) 3 = d) :
    d ≤ 3 ∧ d * 365 ≤ n ∧ n - d * 365 ≤ 365 ∧ (n - d * 365 = 365 → d = 3) := by omega

/-- The date `n` days after the first of January of the year 1. -/
theorem civil_ok (n : Nat) : 1 ≤ (civil n).1 ∧ 1 ≤ (civil n).2.1 ∧ 1 ≤ (civil n).2.2 ∧
    (∃ l, (monthLengths (civil n).1)[(civil n).2.1 - 1]? = some l ∧ (civil n).2.2 ≤ l) ∧
    dayNumber (civil n).1 (civil n).2.1 (civil n).2.2 = n + 1 ∧ (n < 3652059 → (civil n).1 < 10000) := by
  unfold civil
  simp only
  rw [← monthLengths_range]
  obtain ⟨a, n1, ha, hn1, hn⟩ : ∃ a n1, n / 146097 = a ∧ n % 146097 = n1 ∧ n = 146097 * a + n1 := ⟨_, _, rfl, rfl, by omega⟩
  rw [ha, hn1]
  have hl1 : n1 < 146097 := by omega
  obtain ⟨b, hb⟩ : ∃ b, min (n1 / 36524) 3 = b := ⟨_, rfl⟩
  rw [hb]
  obtain ⟨hb3, hb1, hb2⟩ := century_step hl1 hb
  obtain ⟨n2, hn2⟩ : ∃ n2, n1 - b * 36524 = n2 := ⟨_, rfl⟩
  rw [hn2] at hb2 ⊢
  obtain ⟨c, n3, hc, hn3, hn2'⟩ : ∃ c n3, n2 / 1461 = c ∧ n2 % 1461 = n3 ∧ n2 = 1461 * c + n3 := ⟨_, _, rfl, rfl, by omega⟩
  rw [hc, hn3]
  have hl3 : n3 < 1461 := by omega
  have hc24 : c ≤ 24 := by omega
  obtain ⟨d, hd⟩ : ∃ d, min (n3 / 365) 3 = d := ⟨_, rfl⟩
  rw [hd]
  obtain ⟨hd3, hd1, hd2⟩ := year_step hl3 hd
  obtain ⟨r, hr⟩ : ∃ r, n3 - d * 365 = r := ⟨_, rfl⟩
  rw [hr] at hd2 ⊢
  have htot : n = 146097 * a + 36524 * b + 1461 * c + 365 * d + r := by omega
  have hyear := daysBefore_cycles (a := a) hb3 hc24 hd3
  clear ha hn1 hb hc hn3 hd
  obtain ⟨Y, hY⟩ : ∃ Y, 400 * a + 100 * b + 4 * c + d + 1 = Y := ⟨_, rfl⟩
  have hleap : r = 365 → Leap Y := by
    intro h365
    have h3 := hd2.2 h365
    subst h3
    unfold Leap
    by_cases hc' : c = 24
    · have : n2 = 36524 := by omega
      have := hb2.2 this
      omega
    · omega
  rw [hY] at hyear ⊢
  have hsum : r < (monthLengths Y).sum := by
    rw [monthLengths_sum]
    by_cases hL : Leap Y
    · rw [if_pos hL]; omega
    · rw [if_neg hL]
      have : r ≠ 365 := fun h => hL (hleap h)
      omega
  obtain ⟨h1, h2, h3, h4⟩ := monthDay_ok (monthLengths Y) r hsum
  generalize monthDay (monthLengths Y) r = p at *
  refine ⟨by omega, h1, h2, h3, ?_, by omega⟩
  unfold dayNumber
  rw [hyear]
  omega

theorem dayNumber_400 {y : Nat} (hy : 1 ≤ y) (m d : Nat) : dayNumber (y + 400) m d = dayNumber y m d + 146097 := by
  unfold dayNumber daysBeforeYear
  rw [monthLengths_400]
  obtain ⟨z, rfl⟩ : ∃ z, y = z + 1 := ⟨y - 1, by omega⟩
  rw [Nat.add_sub_cancel, show z + 1 + 400 - 1 = z + 400 from by omega]
  have h4 : (z + 400) / 4 = z / 4 + 100 := by omega
  have h100 : (z + 400) / 100 = z / 100 + 4 := by omega
  have h400 : (z + 400) / 400 = z / 400 + 1 := by omega
  rw [h4, h100, h400]
  have : z / 100 ≤ z / 4 := by omega
  omega

theorem month_two {y m l : Nat} (h1 : 1 ≤ m) (h : (monthLengths y)[m - 1]? = some l) : m < 100 ∧ l < 100 := by
  obtain ⟨h2, rfl⟩ := (month_range h1).mp h
  refine ⟨by omega, ?_⟩
  unfold Serve.daysIn
  repeat' split
  all_goals omega

theorem timeText_ok {t : Timestamp} (h1 : minTimestampSec ≤ t.seconds) (h2 : t.seconds ≤ maxTimestampSec) (h3 : 0 ≤ t.nanos)
    (h4 : t.nanos ≤ 999999999) : Rfc3339 t (timeText t) := by
  unfold minTimestampSec at h1
  unfold maxTimestampSec at h2
  obtain ⟨s, hs⟩ : ∃ s : Nat, t.seconds = (s : Int) - 62135596800 := ⟨(t.seconds + 62135596800).toNat, by omega⟩
  obtain ⟨n, hn⟩ : ∃ n : Nat, t.nanos = n := ⟨t.nanos.toNat, by omega⟩
  have e1 : (t.seconds - minTimestampSec).toNat = s := by unfold minTimestampSec; omega
  have e2 : t.nanos.toNat = n := by omega
  unfold timeText
  simp only
  rw [e1, e2]
  have hday : s / 86400 < 3652059 := by omega
  obtain ⟨c1, c2, c3, ⟨l, c4, c5⟩, c6, c7⟩ := civil_ok (s / 86400)
  have c7 := c7 hday
  have c8 := month_two c2 c4
  generalize civil (s / 86400) = x at *
  obtain ⟨y, m, d⟩ := x
  simp only at *
  refine ⟨y, m, d, s / 3600 % 24, s / 60 % 60, s % 60, _, _, _, _, _, _, _, ['Z'], l, 0, Serve.digits_pad (by decide) (by omega),
    Serve.digits_pad (by decide) (by omega), Serve.digits_pad (by decide) (by omega), Serve.digits_pad (by decide) (by omega),
    Serve.digits_pad (by decide) (by omega), Serve.digits_pad (by decide) (by omega), rfl, c2, c4, c3, c5, by omega, by omega, by omega,
    ?_, .inl ⟨rfl, rfl⟩, ?_⟩
  · have key : ∀ w k, 0 < w → w ≤ 9 → k < 10 ^ w → n = k * 10 ^ (9 - w) → FracText n ('.' :: fmtNatPad w k) := by
      intro w k hw0 hw hk hnk
      obtain ⟨p1, p2, p3⟩ := Serve.digits_pad hw0 hk
      exact .inr ⟨_, rfl, p2, by omega, by rw [p3, p1, hnk]⟩
    rw [hn]
    split
    · exact key 9 n (by decide) (by decide) (by omega) (by omega)
    · split
      · exact key 6 (n / 1000) (by decide) (by decide) (by omega) (by omega)
      · split
        · exact key 3 (n / 1000000) (by decide) (by decide) (by omega) (by omega)
        · exact .inl ⟨rfl, by omega⟩
  · rw [dayNumber_400 c1, c6, hs, show dayNumber 2370 1 1 = 865260 from by decide]
    omega

theorem timeJson_some {t : Timestamp} {j : Json} (h : timeJson t = some j) : TimeJ t j ∧ j ≠ .null := by
  unfold timeJson at h
  split at h
  · rename_i hc
    cases h
    exact ⟨⟨_, rfl, timeText_ok hc.1 hc.2.1 hc.2.2.1 hc.2.2.2, hc.1, hc.2.1⟩, by simp⟩
  · cases h

end OM.PJ
