import Verif.Model.Proto
/-! # Lemmas: seconds as int64 nanoseconds -/
namespace OM

theorem wrap64_id {x : Int} (h1 : -2 ^ 63 ≤ x) (h2 : x < 2 ^ 63) : wrap64 x = x := by
  unfold wrap64
  rw [Int.emod_eq_of_lt (by omega) (by omega)]
  omega

theorem wrap64_range (x : Int) : -2 ^ 63 ≤ wrap64 x ∧ wrap64 x < 2 ^ 63 := by
  unfold wrap64
  omega

/-- Up to 292 years a number of seconds lasts as long as it says. -/
theorem goSecs_exact {n : Int} (h1 : -9223372036 ≤ n) (h2 : n ≤ 9223372036) : goSecs n = n * 1000000000 := by
  rw [goSecs, nsPerSec]
  exact wrap64_id (by omega) (by omega)

/-- No number of seconds lasts longer than it says, except for negative ones that overflow. -/
theorem goSecs_le {n : Int} (h1 : -9223372036 ≤ n) : goSecs n ≤ n * 1000000000 := by
  rw [goSecs, nsPerSec]
  have := wrap64_range (n * 1000000000)
  by_cases h : n ≤ 9223372036
  · rw [wrap64_id (by omega) (by omega)]; omega
  · omega

theorem goSecs_range (n : Int) : -2 ^ 63 ≤ goSecs n ∧ goSecs n < 2 ^ 63 := wrap64_range _

end OM
