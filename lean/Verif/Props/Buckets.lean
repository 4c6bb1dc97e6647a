import Verif.Model.Stats
import Mathlib.Analysis.SpecialFunctions.Log.Basic
/-!
C72: limits of the histogram buckets, with real instead of float64 arithmetic, for any factor (for the
code's see `Props/FloatBuckets.lean`).
-/
namespace Finch

/-- `math.Log(d/base) / logFactor` rounded down (stats/stats.go:58), over the real numbers with
`logFactor = log F`; `math.Log` of 0 is minus infinity. -/
noncomputable def lgReal (F : ℝ) (d : Int) : Int :=
  if d ≤ 0 then -1 else ⌊Real.log ((d : ℝ) / 10) / Real.log F⌋

theorem le_lgReal {F : ℝ} (hF : 1 < F) {d : Int} (hd : 0 < d) (i : Nat) :
    (i : Int) ≤ lgReal F d ↔ 10 * F ^ i ≤ d := by
  have hl : 0 < Real.log F := Real.log_pos hF
  have hF0 : (0 : ℝ) < F := by linarith
  have hdr : (0 : ℝ) < d := by exact_mod_cast hd
  rw [lgReal, if_neg (by omega), Int.le_floor, le_div_iff₀ hl]
  push_cast
  rw [← Real.log_pow, Real.log_le_log_iff (by positivity) (by positivity), le_div_iff₀ (by norm_num)]
  rw [mul_comm]

/-- **C72** (real arithmetic). A latency is in one of the buckets 0 to `i`, for any bucket but the
last, exactly if it is below `10·F^i` µs, the value that percentiles report for bucket `i`.
With float64 arithmetic and the code's constants: `C72_bucket_limit`. -/
theorem C72_real_bucket_limit (F : ℝ) (hF : 1 < F) (d : Int) (h0 : 0 ≤ d) (i : Nat)
    (hi : i < nBuckets - 1) : bucketNo (lgReal F) d ≤ i ↔ (d : ℝ) < 10 * F ^ i := by
  have hnb : nBuckets = 450 := rfl
  by_cases hd : d = 0
  · subst hd
    have h1 : lgReal F 0 = -1 := by simp [lgReal]
    have : (0 : ℝ) < 10 * F ^ i := by positivity
    simp [bucketNo, h1, hnb, this]
  · have hdp : 0 < d := by omega
    rw [← not_le, ← le_lgReal hF hdp i]
    simp only [bucketNo, hnb]
    split <;> split <;> omega

/-- **C72** (real arithmetic). Bucket 0 holds the latencies below 10 µs, each further bucket `i` but
the last those from `10·F^(i-1)` up to but without `10·F^i`, and the last one all longer ones. -/
theorem C72_real_buckets (F : ℝ) (hF : 1 < F) (d : Int) (h0 : 0 ≤ d) :
    (bucketNo (lgReal F) d = 0 ↔ d < 10) ∧
    (∀ i, 1 ≤ i → i < nBuckets - 1 →
      (bucketNo (lgReal F) d = i ↔ 10 * F ^ (i - 1) ≤ (d : ℝ) ∧ (d : ℝ) < 10 * F ^ i)) ∧
    (bucketNo (lgReal F) d = nBuckets - 1 ↔ 10 * F ^ (nBuckets - 2) ≤ (d : ℝ)) := by
  have hnb : nBuckets = 450 := rfl
  have hlim := C72_real_bucket_limit F hF d h0
  have hlt : bucketNo (lgReal F) d < nBuckets := by
    simp only [bucketNo, nBuckets]; split <;> split <;> omega
  refine ⟨?_, ?_, ?_⟩
  · have := hlim 0 (by omega)
    simp only [Nat.le_zero, pow_zero, mul_one] at this
    rw [this]; exact_mod_cast Iff.rfl
  · intro i h1 h2
    rw [← not_lt, ← hlim (i - 1) (by omega), ← hlim i h2]
    omega
  · rw [← not_lt, ← hlim (nBuckets - 2) (by omega)]
    omega

/-- The factor of the code is above 1, and 300 µs is a latency. -/
example : (1 : ℝ) < 1.0471285480508996 ∧ (0 : Int) ≤ 300 := by norm_num

end Finch
