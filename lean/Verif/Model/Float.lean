import Mathlib.Data.Rat.Floor
import Mathlib.Data.Int.Log
import Mathlib.Tactic.Linarith
import Mathlib.Tactic.NormNum
import Mathlib.Tactic.Positivity
/-!
Go's float64 arithmetic on finite numbers: every operation is the exact rational result rounded to
53 significant bits, ties to even. Overflow, subnormal numbers, infinities and NaN are not
modelled (no modelled computation reaches them, except where noted). Fused multiply-add, which Go
permits on some architectures, is not used (amd64).
-/
namespace Finch

/-- Round to the nearest integer, ties to even. -/
def roundEven (q : ℚ) : ℤ :=
  let f := ⌊q⌋
  if q - f < 1 / 2 then f
  else if 1 / 2 < q - f then f + 1
  else if f % 2 = 0 then f else f + 1

/-- The float64 nearest to `x`. -/
def f64 (x : ℚ) : ℚ :=
  if x = 0 then 0
  else
    let e := Int.log 2 |x| - 52
    (roundEven (x / 2 ^ e) : ℚ) * 2 ^ e

theorem roundEven_err (q : ℚ) : |(roundEven q : ℚ) - q| ≤ 1 / 2 := by
  unfold roundEven
  have h1 := Int.floor_le q
  have h2 := Int.lt_floor_add_one q
  simp only
  rw [abs_le]
  split
  · constructor <;> linarith
  · split
    · push_cast; constructor <;> linarith
    · split
      · constructor <;> linarith
      · push_cast; constructor <;> linarith

theorem roundEven_int (z : ℤ) : roundEven (z : ℚ) = z := by
  unfold roundEven
  simp

/-- What the proofs use about rounding: relative error at most 2^-53, and integers up to 2^53 are
exact. `f64` has these properties (`f64_spec`), and so has exact arithmetic (`exact_spec`). -/
structure RoundSpec (rnd : ℚ → ℚ) : Prop where
  err : ∀ x, |rnd x - x| ≤ |x| / 2 ^ 53
  int : ∀ z : ℤ, |z| ≤ 2 ^ 53 → rnd z = z

theorem exact_spec : RoundSpec (fun x => x) :=
  ⟨fun x => by simp only [sub_self, abs_zero]; positivity, fun _ _ => rfl⟩

theorem f64_err (x : ℚ) : |f64 x - x| ≤ |x| / 2 ^ 53 := by
  unfold f64
  by_cases hx : x = 0
  · simp [hx]
  · simp only [if_neg hx]
    have hpos : 0 < |x| := abs_pos.2 hx
    have hlog := Int.zpow_log_le_self (b := 2) (by norm_num) hpos
    generalize Int.log 2 |x| = l at hlog ⊢
    have hp : (0 : ℚ) < 2 ^ (l - 52) := zpow_pos (by norm_num) _
    have he := roundEven_err (x / 2 ^ (l - 52))
    have : (roundEven (x / 2 ^ (l - 52)) : ℚ) * 2 ^ (l - 52) - x =
        ((roundEven (x / 2 ^ (l - 52)) : ℚ) - x / 2 ^ (l - 52)) * 2 ^ (l - 52) := by
      field_simp
    rw [this, abs_mul, abs_of_pos hp]
    have h2 : (2 : ℚ) ^ (l - 52) = 2 ^ l / 2 ^ 52 := by
      rw [zpow_sub₀ (by norm_num)]; norm_num
    have h3 : (2 : ℚ) ^ l ≤ |x| := by exact_mod_cast hlog
    have h4 := mul_le_mul_of_nonneg_right he hp.le
    rw [h2] at h4 ⊢
    refine le_trans h4 ?_
    have : (1 : ℚ) / 2 * (2 ^ l / 2 ^ 52) = 2 ^ l / 2 ^ 53 := by ring
    rw [this]
    exact div_le_div_of_nonneg_right h3 (by norm_num)

theorem f64_int (z : ℤ) (hz : |z| ≤ 2 ^ 53) : f64 (z : ℚ) = z := by
  unfold f64
  by_cases h0 : z = 0
  · simp [h0]
  have hq : (z : ℚ) ≠ 0 := by exact_mod_cast h0
  simp only [if_neg hq]
  have hpos : (0 : ℚ) < |(z : ℚ)| := abs_pos.2 hq
  have hlog := Int.zpow_log_le_self (b := 2) (by norm_num) hpos
  have hge : (1 : ℚ) ≤ |(z : ℚ)| := by
    have : 1 ≤ |z| := Int.one_le_abs h0
    exact_mod_cast this
  have hub : |(z : ℚ)| ≤ 2 ^ 53 := by exact_mod_cast hz
  generalize hl : Int.log 2 |(z : ℚ)| = l at hlog ⊢
  have hl53 : l ≤ 53 := by
    by_contra hc
    have : (2 : ℚ) ^ (54 : ℤ) ≤ 2 ^ l := zpow_le_zpow_right₀ (by norm_num) (by omega)
    have h3 : (2 : ℚ) ^ l ≤ 2 ^ 53 := le_trans (by exact_mod_cast hlog) hub
    have : (2 : ℚ) ^ (54 : ℤ) ≤ 2 ^ 53 := le_trans this h3
    norm_num at this
  -- the scaled number is an integer
  have hint : ∃ w : ℤ, (z : ℚ) / 2 ^ (l - 52) = w := by
    by_cases h52 : l ≤ 52
    · refine ⟨z * 2 ^ (52 - l).toNat, ?_⟩
      push_cast
      have e1 : ((52 - l).toNat : ℤ) = 52 - l := Int.toNat_of_nonneg (by omega)
      have e2 : (2 : ℚ) ^ (52 - l).toNat = 2 ^ (52 - l) := by
        rw [← zpow_natCast, e1]
      rw [e2, div_eq_mul_inv, ← zpow_neg]
      congr 2
      omega
    · have hl' : l = 53 := by omega
      subst hl'
      have hz53 : |z| = 2 ^ 53 := by
        apply le_antisymm hz
        have h3 : (2 : ℚ) ^ (53 : ℤ) ≤ |(z : ℚ)| := by exact_mod_cast hlog
        have h4 : ((2 ^ 53 : ℤ) : ℚ) ≤ ((|z| : ℤ) : ℚ) := by
          push_cast
          refine le_trans (le_of_eq ?_) h3
          norm_num
        exact_mod_cast h4
      rcases abs_eq (by norm_num) |>.1 hz53 with h | h <;> rw [h]
      · exact ⟨2 ^ 52, by norm_num⟩
      · exact ⟨-(2 ^ 52), by norm_num⟩
  obtain ⟨w, hw⟩ := hint
  rw [hw, roundEven_int, ← hw]
  have : (2 : ℚ) ^ (l - 52) ≠ 0 := ne_of_gt (zpow_pos (by norm_num) _)
  field_simp

theorem f64_spec : RoundSpec f64 := ⟨f64_err, f64_int⟩

/-- Evaluation rule: the binary exponent of a positive number determines the rounding. -/
theorem f64_eq_of_exp {x : ℚ} {l : ℤ} (h1 : (2 : ℚ) ^ l ≤ x) (h2 : x < 2 ^ (l + 1)) :
    f64 x = (roundEven (x / 2 ^ (l - 52)) : ℚ) * 2 ^ (l - 52) := by
  have hx : 0 < x := lt_of_lt_of_le (zpow_pos (by norm_num) _) h1
  unfold f64
  rw [if_neg (ne_of_gt hx)]
  have : Int.log 2 |x| = l := by
    rw [abs_of_pos hx]
    apply le_antisymm
    · have := (Int.lt_zpow_iff_log_lt (b := 2) (by norm_num) hx (x := l + 1)).1
        (by exact_mod_cast h2)
      omega
    · exact (Int.zpow_le_iff_le_log (b := 2) (by norm_num) hx).1 (by exact_mod_cast h1)
  rw [this]

end Finch
