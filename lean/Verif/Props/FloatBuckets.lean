import Verif.Model.FloatBuckets
import Verif.Props.Percentile
import Mathlib.Analysis.SpecialFunctions.Log.Basic
import Mathlib.Analysis.Complex.Exponential
import Mathlib.Algebra.BigOperators.Fin
/-!
C72: limits of the histogram buckets, as computed in float64 with the constants of the code.
-/
namespace Finch

/-! ## Rounding is monotone -/

theorem roundEven_mono {p q : ℚ} (h : p ≤ q) : roundEven p ≤ roundEven q := by
  have h1 := Int.floor_le p
  have h2 := Int.lt_floor_add_one p
  have h3 := Int.floor_le q
  have h4 := Int.lt_floor_add_one q
  have hf : ⌊p⌋ ≤ ⌊q⌋ := Int.floor_le_floor h
  have hub : roundEven p ≤ ⌊p⌋ + 1 := by
    unfold roundEven; simp only; split <;> [omega; (split <;> [omega; (split <;> omega)])]
  have hlb : ⌊q⌋ ≤ roundEven q := by
    unfold roundEven; simp only; split <;> [omega; (split <;> [omega; (split <;> omega)])]
  by_cases hc : ⌊p⌋ = ⌊q⌋
  · unfold roundEven
    simp only [hc] at *
    split
    · split <;> [omega; (split <;> [omega; (split <;> omega)])]
    · split
      · rw [if_neg (by linarith), if_pos (by linarith)]
      · have hq : ¬ q - ⌊q⌋ < 1 / 2 := by linarith
        simp only [if_neg hq]
        split <;> split <;> omega
  · omega

theorem f64_pos_eq {x : ℚ} (hx : 0 < x) :
    f64 x = (roundEven (x / 2 ^ (Int.log 2 x - 52)) : ℚ) * 2 ^ (Int.log 2 x - 52) := by
  unfold f64
  rw [if_neg (ne_of_gt hx), abs_of_pos hx]

theorem zpow_52 (l : ℤ) : (2 : ℚ) ^ (l - 52) * 2 ^ (52 : ℕ) = 2 ^ l := by
  rw [← zpow_natCast, ← zpow_add₀ (by norm_num)]; congr 1; push_cast; ring

/-- Rounding to float64 is monotone (for positive numbers). -/
theorem f64_mono {x y : ℚ} (hx : 0 < x) (h : x ≤ y) : f64 x ≤ f64 y := by
  have hy : 0 < y := lt_of_lt_of_le hx h
  have hlog : Int.log 2 x ≤ Int.log 2 y := Int.log_mono_right hx h
  rw [f64_pos_eq hx, f64_pos_eq hy]
  have hxu := Int.lt_zpow_succ_log_self (b := 2) (by norm_num) x
  have hyl := Int.zpow_log_le_self (b := 2) (by norm_num) hy
  generalize Int.log 2 x = l at *
  generalize Int.log 2 y = m at *
  have hp : (0 : ℚ) < 2 ^ (l - 52) := zpow_pos (by norm_num) _
  have hq : (0 : ℚ) < 2 ^ (m - 52) := zpow_pos (by norm_num) _
  rcases eq_or_lt_of_le hlog with rfl | hlt
  · refine mul_le_mul_of_nonneg_right ?_ hp.le
    exact_mod_cast roundEven_mono (div_le_div_of_nonneg_right h hp.le)
  · have h1 : roundEven (x / 2 ^ (l - 52)) ≤ 2 ^ 53 := by
      rw [← roundEven_int (2 ^ 53)]
      refine roundEven_mono ?_
      rw [div_le_iff₀ hp]
      have : (2 : ℚ) ^ (l + 1) = 2 ^ 53 * 2 ^ (l - 52) := by
        rw [zpow_add₀ (by norm_num), ← zpow_52 l]; ring
      have e : ((2 ^ 53 : ℤ) : ℚ) = 2 ^ 53 := by norm_num
      rw [e, ← this]
      exact_mod_cast hxu.le
    have h2 : 2 ^ 52 ≤ roundEven (y / 2 ^ (m - 52)) := by
      rw [← roundEven_int (2 ^ 52)]
      refine roundEven_mono ?_
      rw [le_div_iff₀ hq]
      have e : ((2 ^ 52 : ℤ) : ℚ) = 2 ^ 52 := by norm_num
      rw [e, mul_comm, zpow_52]
      exact_mod_cast hyl
    have h1' : (roundEven (x / 2 ^ (l - 52)) : ℚ) ≤ 2 ^ 53 := by exact_mod_cast h1
    have h2' : (2 ^ 52 : ℚ) ≤ roundEven (y / 2 ^ (m - 52)) := by exact_mod_cast h2
    calc _ ≤ (2 : ℚ) ^ 53 * 2 ^ (l - 52) := mul_le_mul_of_nonneg_right h1' hp.le
      _ = 2 ^ (l + 1) := by rw [zpow_add₀ (by norm_num), ← zpow_52 l]; ring
      _ ≤ 2 ^ m := zpow_le_zpow_right₀ (by norm_num) (by omega)
      _ = 2 ^ 52 * 2 ^ (m - 52) := by rw [← zpow_52 m]; ring
      _ ≤ _ := mul_le_mul_of_nonneg_right h2' hq.le

/-! ## The limits as integers -/

/-- `10^16 * factor`. -/
def facN : Nat := 10471285480508996

/-- The largest number below `10·factor^i`. -/
def limN (i : Nat) : Nat := (10 * facN ^ i + 10 ^ (16 * i) - 1) / 10 ^ (16 * i) - 1

/-- `10^30` times bounds of `factor` that take rounding into account. -/
def hiN : Nat := 1047128548050899639914166310520
def loN : Nat := 1047128548050899602436388447226

theorem lim_hi : ∀ i < 449, i ≠ 0 →
    10 * hiN ^ i * 2 ^ 53 ≤ (limN i + 1) * 10 ^ (30 * i) * (2 ^ 53 - 1) := by
  decide +kernel

theorem lim_lo : ∀ i < 449, limN i * 10 ^ (30 * i) * (2 ^ 53 + 1) < 10 * loN ^ i * 2 ^ 53 := by
  decide +kernel

theorem lim_exact : ∀ i < 449, limN i * 10 ^ (16 * i) < 10 * facN ^ i ∧
    10 * facN ^ i ≤ (limN i + 1) * 10 ^ (16 * i) ∧ 9 ≤ limN i ∧ limN i < 2 ^ 52 := by
  decide +kernel

theorem lim_div : ∀ i < 449, i ≠ 0 → limN i = 10 * facN ^ i / 10 ^ (16 * i) := by
  decide +kernel

/-- 63 rounds are enough for all bucket numbers, and no power is below the limit by rounding. -/
theorem hv_all : ∀ i < 450, hvF i = 10 * facN ^ i / 10 ^ (16 * i) := by
  decide +kernel

/-! ## Exponentials -/

theorem exp_hi : Real.exp 0.046051701859881015339 ≤ (hiN : ℝ) / 10 ^ 30 := by
  refine le_trans (Real.exp_bound' (by norm_num) (by norm_num) (n := 16) (by norm_num)) ?_
  norm_num [Finset.sum_range_succ, Nat.factorial, hiN]

theorem exp_lo : (loN : ℝ) / 10 ^ 30 ≤ Real.exp 0.046051701859880979548 := by
  refine le_trans ?_ (Real.sum_le_exp_of_nonneg (by norm_num) 16)
  norm_num [Finset.sum_range_succ, Nat.factorial, loN]

/-- `logFactor` as float64. -/
theorem logFactor_err : |((f64 logFactorC : ℚ) : ℝ) - 0.046051701859881| ≤
    0.046051701859881 / 2 ^ 53 := by
  have h := f64_err logFactorC
  rw [abs_of_pos (show (0 : ℚ) < logFactorC by norm_num [logFactorC])] at h
  have h' : ((|f64 logFactorC - logFactorC| : ℚ) : ℝ) ≤ ((logFactorC / 2 ^ 53 : ℚ) : ℝ) := by
    exact_mod_cast h
  rw [Rat.cast_abs] at h'
  have e : ((logFactorC : ℚ) : ℝ) = 0.046051701859881 := by norm_num [logFactorC]
  push_cast at h'
  rwa [e] at h'

/-- What is used about `math.Log`: the error is at most one unit in the last place (2^-52 of the
result). -/
def LogSpec (ln : ℚ → ℚ) : Prop :=
  ∀ y : ℚ, 0 < y → |((ln y : ℚ) : ℝ) - Real.log y| ≤ |Real.log y| / 2 ^ 52

theorem f64_ten : f64 10 = 10 := by
  have := f64_int 10 (by norm_num); exact_mod_cast this

/-- What rounding does to a quotient that is at least an integer. -/
theorem f64_ge_nat {q : ℚ} {i : Nat} (hi : i < 449) (h : (i : ℚ) ≤ q) : (i : ℚ) ≤ f64 q := by
  rcases Nat.eq_zero_or_pos i with rfl | hpos
  · have h0 : (0 : ℚ) ≤ q := by simpa using h
    have he := f64_err q
    rw [abs_of_nonneg h0, abs_le] at he
    have : q / 2 ^ 53 ≤ q := div_le_self h0 (by norm_num)
    push_cast
    linarith [he.1]
  · have h1 : f64 (i : ℚ) = i := by
      have := f64_int (i : ℤ) (by rw [abs_of_nonneg (by omega)]; omega)
      exact_mod_cast this
    rw [← h1]
    exact f64_mono (by exact_mod_cast hpos) h

theorem quot_ge {ln : ℚ → ℚ} (hln : LogSpec ln) {y : ℚ} (i : Nat) (hi : i < 449)
    (hy : ((hiN : ℝ) / 10 ^ 30) ^ i ≤ y) : (i : ℚ) ≤ f64 (ln y / f64 logFactorC) := by
  refine f64_ge_nat hi ?_
  have hG : Real.exp ((i : ℝ) * 0.046051701859881015339) ≤ y := by
    rw [Real.exp_nat_mul]
    exact le_trans (pow_le_pow_left₀ (Real.exp_pos _).le exp_hi _) hy
  have hy0 : (0 : ℝ) < y := lt_of_lt_of_le (Real.exp_pos _) hG
  have hly : (i : ℝ) * 0.046051701859881015339 ≤ Real.log y := by
    rw [Real.le_log_iff_exp_le hy0]; exact hG
  have hi0 : (0 : ℝ) ≤ i := by positivity
  have hl0 : 0 ≤ Real.log y := le_trans (by positivity) hly
  have h1 := hln y (by exact_mod_cast hy0)
  rw [abs_of_nonneg hl0, abs_le] at h1
  have h2 := logFactor_err
  rw [abs_le] at h2
  have hLF : (0 : ℝ) < (f64 logFactorC : ℚ) := by
    have : (0.046051701859881 : ℝ) / 2 ^ 53 < 0.046051701859881 := by norm_num
    linarith [h2.1]
  have hq : (i : ℝ) ≤ ((ln y / f64 logFactorC : ℚ) : ℝ) := by
    rw [Rat.cast_div, le_div_iff₀ hLF]
    have h3 : ((f64 logFactorC : ℚ) : ℝ) ≤ 0.046051701859881015339 * (1 - 1 / 2 ^ 52) := by
      refine le_trans (show _ ≤ (0.046051701859881 : ℝ) + 0.046051701859881 / 2 ^ 53 by
        linarith [h2.2]) (by norm_num)
    calc (i : ℝ) * (f64 logFactorC : ℚ)
        ≤ i * (0.046051701859881015339 * (1 - 1 / 2 ^ 52)) := mul_le_mul_of_nonneg_left h3 hi0
      _ = (i * 0.046051701859881015339) * (1 - 1 / 2 ^ 52) := by ring
      _ ≤ Real.log y * (1 - 1 / 2 ^ 52) := mul_le_mul_of_nonneg_right hly (by norm_num)
      _ = Real.log y - Real.log y / 2 ^ 52 := by ring
      _ ≤ _ := by linarith [h1.1]
  exact_mod_cast hq

theorem quot_lt {ln : ℚ → ℚ} (hln : LogSpec ln) {y : ℚ} (hy0 : 0 < y) (i : Nat)
    (hy : (y : ℝ) < ((loN : ℝ) / 10 ^ 30) ^ i) : f64 (ln y / f64 logFactorC) < i := by
  have hy0' : (0 : ℝ) < y := by exact_mod_cast hy0
  have hG : (y : ℝ) < Real.exp ((i : ℝ) * 0.046051701859880979548) := by
    rw [Real.exp_nat_mul]
    exact lt_of_lt_of_le hy (pow_le_pow_left₀ (by positivity) exp_lo _)
  have hly : Real.log y < (i : ℝ) * 0.046051701859880979548 := by
    rw [Real.log_lt_iff_lt_exp hy0']; exact hG
  have hi0 : (0 : ℝ) ≤ i := by positivity
  have h1 := hln y hy0
  have h2 := logFactor_err
  rw [abs_le] at h2
  have hLF : (0 : ℝ) < (f64 logFactorC : ℚ) := by
    have : (0.046051701859881 : ℝ) / 2 ^ 53 < 0.046051701859881 := by norm_num
    linarith [h2.1]
  have hferr : |((f64 (ln y / f64 logFactorC) : ℚ) : ℝ) - ((ln y / f64 logFactorC : ℚ) : ℝ)| ≤
      |((ln y / f64 logFactorC : ℚ) : ℝ)| / 2 ^ 53 := by
    exact_mod_cast f64_err (ln y / f64 logFactorC)
  generalize hqd : ((ln y / f64 logFactorC : ℚ) : ℝ) = q at hferr
  have hqv : q * (f64 logFactorC : ℚ) = (ln y : ℚ) := by
    rw [← hqd, Rat.cast_div]; field_simp
  have hgoal : ((f64 (ln y / f64 logFactorC) : ℚ) : ℝ) < i := by
    rcases lt_or_ge (Real.log y) 0 with hneg | hnn
    · rw [abs_of_neg hneg, abs_le] at h1
      have hl : ((ln y : ℚ) : ℝ) < 0 := by
        have : -Real.log y / 2 ^ 52 < -Real.log y := div_lt_self (by linarith) (by norm_num)
        linarith [h1.2]
      have hq : q < 0 := by
        by_contra hc
        have := mul_nonneg (not_lt.1 hc) hLF.le
        linarith
      rw [abs_of_neg hq, abs_le] at hferr
      have : -q / 2 ^ 53 < -q := div_lt_self (by linarith) (by norm_num)
      linarith [hferr.2]
    · rw [abs_of_nonneg hnn, abs_le] at h1
      have hl : (0 : ℝ) ≤ (ln y : ℚ) := by
        have : Real.log y / 2 ^ 52 ≤ Real.log y := div_le_self hnn (by norm_num)
        linarith [h1.1]
      have hq : 0 ≤ q := by
        by_contra hc
        have := mul_neg_of_neg_of_pos (not_le.1 hc) hLF
        linarith
      rw [abs_of_nonneg hq, abs_le] at hferr
      have h3 : (0.046051701859880979548 : ℝ) * (1 + 1 / 2 ^ 52) * (1 + 1 / 2 ^ 53) ≤
          (f64 logFactorC : ℚ) := by
        refine le_trans ?_ (show (0.046051701859881 : ℝ) - 0.046051701859881 / 2 ^ 53 ≤ _ by
          linarith [h2.1])
        norm_num
      have h4 : q * (1 + 1 / 2 ^ 53) * (f64 logFactorC : ℚ) < i * (f64 logFactorC : ℚ) := by
        calc q * (1 + 1 / 2 ^ 53) * (f64 logFactorC : ℚ)
            = (ln y : ℚ) * (1 + 1 / 2 ^ 53) := by rw [← hqv]; ring
          _ ≤ (Real.log y * (1 + 1 / 2 ^ 52)) * (1 + 1 / 2 ^ 53) :=
              mul_le_mul_of_nonneg_right (by linarith [h1.2]) (by norm_num)
          _ < (i * 0.046051701859880979548 * (1 + 1 / 2 ^ 52)) * (1 + 1 / 2 ^ 53) := by
              refine mul_lt_mul_of_pos_right ?_ (by norm_num)
              exact mul_lt_mul_of_pos_right hly (by norm_num)
          _ = i * (0.046051701859880979548 * (1 + 1 / 2 ^ 52) * (1 + 1 / 2 ^ 53)) := by ring
          _ ≤ _ := mul_le_mul_of_nonneg_left h3 hi0
      have h5 := lt_of_mul_lt_mul_right h4 hLF.le
      linarith [hferr.2]
  exact_mod_cast hgoal

/-- The latency in units of 10 µs, rounded. -/
theorem arg_ge {d : Int} {D : Nat} (hD : 0 < D) (hD2 : D < 2 ^ 53) (h : (D : Int) ≤ d) :
    f64 ((D : ℚ) / 10) ≤ f64 (f64 d / f64 10) := by
  have e : f64 (D : ℚ) = D := by
    have := f64_int (D : ℤ) (by rw [abs_of_nonneg (by omega)]; omega)
    exact_mod_cast this
  have hDq : (0 : ℚ) < D := by exact_mod_cast hD
  have h1 : (D : ℚ) ≤ f64 d := by
    rw [← e]; exact f64_mono hDq (by exact_mod_cast h)
  rw [f64_ten]
  exact f64_mono (by positivity) (by linarith)

theorem arg_le {d : Int} {D : Nat} (hd : 0 < d) (hD2 : D < 2 ^ 53) (h : d ≤ D) :
    f64 (f64 d / f64 10) ≤ f64 ((D : ℚ) / 10) ∧ 0 < f64 (f64 d / f64 10) := by
  have e : f64 (d : ℚ) = d := f64_int d (by rw [abs_of_nonneg (by omega)]; omega)
  have hdq : (0 : ℚ) < d := by exact_mod_cast hd
  have hp : (0 : ℚ) < d / 10 := by positivity
  rw [f64_ten, e]
  have hle : (d : ℚ) ≤ D := by exact_mod_cast h
  refine ⟨f64_mono hp (by linarith), ?_⟩
  have he := f64_err (d / 10 : ℚ)
  rw [abs_of_pos hp, abs_le] at he
  have : (d / 10 : ℚ) / 2 ^ 53 < d / 10 := div_lt_self hp (by norm_num)
  linarith [he.1]

/-- The bucket of a latency from the largest integer below the limit. -/
theorem lgF_lt {ln : ℚ → ℚ} (hln : LogSpec ln) {d : Int} (hd : 0 < d) {i : Nat} (hi : i < 449) :
    lgF ln d < i ↔ d ≤ limN i := by
  obtain ⟨_, _, h9, h52⟩ := lim_exact i hi
  rw [lgF, if_neg (by omega)]
  constructor
  · intro h
    by_contra hc
    have hge : ((limN i + 1 : Nat) : Int) ≤ d := by push_cast; omega
    have harg := arg_ge (D := limN i + 1) (by omega) (by omega) hge
    have : (i : ℚ) ≤ f64 (ln (f64 (f64 d / f64 10)) / f64 logFactorC) := by
      refine quot_ge hln i hi ?_
      have hr : ((f64 (((limN i + 1 : Nat) : ℚ) / 10) : ℚ) : ℝ) ≤
          ((f64 (f64 d / f64 10) : ℚ) : ℝ) := by exact_mod_cast harg
      refine le_trans ?_ hr
      rcases Nat.eq_zero_or_pos i with rfl | hpos
      · have e1 : limN 0 = 9 := by decide
        have e2 : f64 (((limN 0 + 1 : Nat) : ℚ) / 10) = 1 := by
          rw [e1]
          have := f64_int 1 (by norm_num)
          norm_num
          exact_mod_cast this
        rw [e2]; norm_num
      · have hchk := lim_hi i hi (by omega)
        generalize limN i + 1 = D at *
        have hDn : (0 : ℚ) ≤ (D : ℚ) / 10 := by positivity
        have he := f64_err ((D : ℚ) / 10)
        rw [abs_of_nonneg hDn, abs_le] at he
        have he' : (D : ℝ) / 10 - (D : ℝ) / 10 / 2 ^ 53 ≤ ((f64 ((D : ℚ) / 10) : ℚ) : ℝ) := by
          have : (D : ℚ) / 10 - (D : ℚ) / 10 / 2 ^ 53 ≤ f64 ((D : ℚ) / 10) := by linarith [he.1]
          have := (Rat.cast_le (K := ℝ)).2 this
          push_cast at this
          exact this
        refine le_trans ?_ he'
        have hc' : (10 : ℝ) * hiN ^ i * 2 ^ 53 ≤ D * 10 ^ (30 * i) * (2 ^ 53 - 1) := by
          have : ((10 * hiN ^ i * 2 ^ 53 : Nat) : ℝ) ≤ ((D * 10 ^ (30 * i) * (2 ^ 53 - 1) : Nat) : ℝ) := by
            exact_mod_cast hchk
          push_cast at this
          norm_num at this ⊢
          linarith
        rw [div_pow, ← pow_mul, div_le_iff₀ (by positivity)]
        have : ((D : ℝ) / 10 - (D : ℝ) / 10 / 2 ^ 53) * 10 ^ (30 * i) =
          (D * 10 ^ (30 * i) * (2 ^ 53 - 1)) / (10 * 2 ^ 53) := by field_simp
        rw [this, le_div_iff₀ (by norm_num)]
        linarith
    have : (i : Int) ≤ ⌊f64 (ln (f64 (f64 d / f64 10)) / f64 logFactorC)⌋ := by
      rw [Int.le_floor]; exact_mod_cast this
    omega
  · intro h
    obtain ⟨harg, hpos⟩ := arg_le hd (D := limN i) (by omega) h
    rw [Int.floor_lt]
    have : f64 (ln (f64 (f64 d / f64 10)) / f64 logFactorC) < i := by
      refine quot_lt hln hpos i ?_
      have hr : ((f64 (f64 d / f64 10) : ℚ) : ℝ) ≤ ((f64 ((limN i : ℚ) / 10) : ℚ) : ℝ) := by
        exact_mod_cast harg
      refine lt_of_le_of_lt hr ?_
      have hchk := lim_lo i hi
      generalize limN i = D at *
      have hDn : (0 : ℚ) ≤ (D : ℚ) / 10 := by positivity
      have he := f64_err ((D : ℚ) / 10)
      rw [abs_of_nonneg hDn, abs_le] at he
      have he' : ((f64 ((D : ℚ) / 10) : ℚ) : ℝ) ≤ (D : ℝ) / 10 + (D : ℝ) / 10 / 2 ^ 53 := by
        have : f64 ((D : ℚ) / 10) ≤ (D : ℚ) / 10 + (D : ℚ) / 10 / 2 ^ 53 := by linarith [he.2]
        have := (Rat.cast_le (K := ℝ)).2 this
        push_cast at this
        exact this
      refine lt_of_le_of_lt he' ?_
      have hc' : (D : ℝ) * 10 ^ (30 * i) * (2 ^ 53 + 1) < 10 * loN ^ i * 2 ^ 53 := by
        exact_mod_cast hchk
      rw [div_pow, ← pow_mul, lt_div_iff₀ (by positivity)]
      have : ((D : ℝ) / 10 + (D : ℝ) / 10 / 2 ^ 53) * 10 ^ (30 * i) =
        (D * 10 ^ (30 * i) * (2 ^ 53 + 1)) / (10 * 2 ^ 53) := by field_simp
      rw [this, div_lt_iff₀ (by norm_num)]
      linarith
    exact_mod_cast this

theorem le_limN {i : Nat} (hi : i < 449) (d : Int) :
    d ≤ limN i ↔ (d : ℝ) < 10 * 1.0471285480508996 ^ i := by
  obtain ⟨h1, h2, _, _⟩ := lim_exact i hi
  have e : (10 : ℝ) * 1.0471285480508996 ^ i = 10 * facN ^ i / 10 ^ (16 * i) := by
    have : (1.0471285480508996 : ℝ) = facN / 10 ^ 16 := by norm_num [facN]
    rw [this, div_pow, ← pow_mul]; ring
  have hp : (0 : ℝ) < 10 ^ (16 * i) := by positivity
  rw [e, lt_div_iff₀ hp]
  constructor
  · intro h
    have h' : (d : ℝ) ≤ limN i := by exact_mod_cast h
    have h1' : (limN i : ℝ) * 10 ^ (16 * i) < 10 * facN ^ i := by exact_mod_cast h1
    exact lt_of_le_of_lt (mul_le_mul_of_nonneg_right h' hp.le) h1'
  · intro h
    by_contra hc
    have h' : ((limN i : ℝ) + 1) ≤ d := by
      have : (limN i : Int) + 1 ≤ d := by omega
      exact_mod_cast this
    have h2' : (10 : ℝ) * facN ^ i ≤ (limN i + 1) * 10 ^ (16 * i) := by exact_mod_cast h2
    have := mul_le_mul_of_nonneg_right h' hp.le
    linarith

/-- **C72**. With the code's constants and float64 arithmetic, for any logarithm function accurate to
one unit in the last place: a latency is in one of the buckets 0 to `i`, for any bucket but the last,
exactly if it is below `10·1.0471285480508996^i` µs. -/
theorem C72_bucket_limit {ln : ℚ → ℚ} (hln : LogSpec ln) (d : Int) (h0 : 0 ≤ d) (i : Nat)
    (hi : i < nBuckets - 1) :
    bucketNo (lgF ln) d ≤ i ↔ (d : ℝ) < 10 * 1.0471285480508996 ^ i := by
  have hnb : nBuckets = 450 := rfl
  have hi' : i < 449 := by omega
  rw [← le_limN hi']
  rcases Int.lt_or_eq_of_le h0 with hd | rfl
  · rw [← lgF_lt hln hd hi']
    simp only [bucketNo, hnb]
    split <;> split <;> omega
  · have h1 : lgF ln 0 = -1 := by simp [lgF]
    simp [bucketNo, h1, hnb]

/-- **C72**. Bucket 0 holds the latencies below 10 µs, each further bucket `i` but the last those
from `10·F^(i-1)` up to but without `10·F^i` for `F = 1.0471285480508996`, and the last one all
longer ones. -/
theorem C72_buckets {ln : ℚ → ℚ} (hln : LogSpec ln) (d : Int) (h0 : 0 ≤ d) :
    (bucketNo (lgF ln) d = 0 ↔ d < 10) ∧
    (∀ i, 1 ≤ i → i < nBuckets - 1 →
      (bucketNo (lgF ln) d = i ↔ 10 * 1.0471285480508996 ^ (i - 1) ≤ (d : ℝ) ∧
        (d : ℝ) < 10 * 1.0471285480508996 ^ i)) ∧
    (bucketNo (lgF ln) d = nBuckets - 1 ↔ 10 * 1.0471285480508996 ^ (nBuckets - 2) ≤ (d : ℝ)) := by
  have hnb : nBuckets = 450 := rfl
  have hlim := C72_bucket_limit hln d h0
  have hlt : bucketNo (lgF ln) d < nBuckets := by
    simp only [bucketNo, nBuckets]; split <;> split <;> omega
  refine ⟨?_, ?_, ?_⟩
  · have := hlim 0 (by omega)
    simp only [Nat.le_zero, pow_zero, mul_one] at this
    rw [this]; exact_mod_cast Iff.rfl
  · intro i h1 h2
    rw [← not_lt, ← hlim (i - 1) (by omega), ← hlim i h2]
    omega
  · rw [← not_lt, ← hlim (nBuckets - 2) (by omega)]
    omega

/-- **C72**. The value that percentiles report for bucket `i`, computed by Go's `math.Pow` in
float64, is the bucket's upper limit `10·F^i` rounded down to whole µs. -/
theorem C72_value (i : Nat) (hi : i < nBuckets) :
    (hvF i : Int) = ⌊(10 : ℝ) * 1.0471285480508996 ^ i⌋ := by
  rw [hv_all i hi]
  have e : (10 : ℝ) * 1.0471285480508996 ^ i = ((10 * facN ^ i : Nat) : ℝ) / ((10 ^ (16 * i) : Nat) : ℝ) := by
    have : (1.0471285480508996 : ℝ) = facN / 10 ^ 16 := by norm_num [facN]
    rw [this, div_pow, ← pow_mul]; push_cast; ring
  rw [e, Int.floor_div_natCast, Int.floor_natCast]
  push_cast
  rfl

/-- **C72**. Together: the latencies in the buckets 0 to `i` are those up to the value reported for
bucket `i`, except that the first bucket is reported as 10 µs and does not hold it. -/
theorem C72_reported {ln : ℚ → ℚ} (hln : LogSpec ln) (d : Int) (h0 : 0 ≤ d) (i : Nat)
    (hi : i < nBuckets - 1) : bucketNo (lgF ln) d ≤ i ↔ if i = 0 then d < hvF 0 else d ≤ hvF i := by
  have hnb : nBuckets = 450 := rfl
  rw [C72_bucket_limit hln d h0 i hi, ← le_limN (by omega)]
  by_cases hz : i = 0
  · subst hz
    have e1 : limN 0 = 9 := by decide
    have e2 : hvF 0 = 10 := by decide +kernel
    rw [e1, e2, if_pos rfl]; push_cast; omega
  · rw [if_neg hz, hv_all i (by omega)]
    rw [lim_div i (by omega) hz]

/-- **C72**. The percentage that `Percentiles` compares a percentile with at bucket `i` is that of the
events with latency at most the value reported for the bucket, up to float64 rounding. -/
theorem C72_percentage {ln : ℚ → ℚ} (hln : LogSpec ln) (evs : List TrxEvent) (h : NonNeg evs) (t : Ev)
    (hne : latencies t evs ≠ []) (i : Nat) (hi : i < nBuckets - 1) (h1 : 1 ≤ i) :
    |percentUpTo f64 ((recordAll (lgF ln) .new evs).ev t) i -
        100 * ((latencies t evs).countP fun d => d ≤ (hvF i : Int) : ℚ) / (latencies t evs).length| ≤
      300 / 2 ^ 53 := by
  have hc := C27_percentage_is_of_events f64_spec (lgF ln) evs h t hne i
  have : ((latencies t evs).countP fun d => decide (bucketNo (lgF ln) d ≤ i)) =
      (latencies t evs).countP fun d => decide (d ≤ (hvF i : Int)) := by
    refine List.countP_congr fun d hd => ?_
    have h0 : 0 ≤ d := latencies_nonneg h d hd
    have := C72_reported hln d h0 i hi
    rw [if_neg (by omega)] at this
    simp [this]
  rwa [this] at hc

/-- **C27 is false for lists**, with the code's buckets and values. -/
theorem C27_list_code_false {ln : ℚ → ℚ} (hln : LogSpec ln) :
    ¬ ∀ (evs : List TrxEvent), NonNeg evs → ∀ (t : Ev) (ps : List ℚ),
        latencies t evs ≠ [] → ps.Pairwise (· < ·) → (∀ p ∈ ps, p ≤ 100) →
        (recordAll (lgF ln) .new evs).percentiles f64 hvF t ps =
          (ps.map fun p => (recordAll (lgF ln) .new evs).percentiles f64 hvF t [p]).flatten := by
  have hnb : nBuckets = 450 := rfl
  have h := C72_reported hln 20000000000 (by norm_num) 448 (by omega)
  have h2 : hvF 448 < 20000000000 := by decide +kernel
  rw [if_neg (by omega)] at h
  have hlt : bucketNo (lgF ln) 20000000000 < nBuckets := by
    simp only [bucketNo, nBuckets]; split <;> split <;> omega
  refine C27_list_false f64 f64_spec hvF (lgF ln) (by omega) ?_ ?_ <;> decide +kernel

/-- There is a logarithm function as accurate as required. -/
example : ∃ ln, LogSpec ln := by
  have : ∀ y : ℚ, ∃ q : ℚ, 0 < y → |((q : ℚ) : ℝ) - Real.log y| ≤ |Real.log y| / 2 ^ 52 := by
    intro y
    by_cases h : Real.log y = 0
    · exact ⟨0, fun _ => by simp [h]⟩
    · have hp : 0 < |Real.log y| / 2 ^ 52 := by positivity
      obtain ⟨q, h1, h2⟩ := exists_rat_btwn (show Real.log y - |Real.log y| / 2 ^ 52 <
        Real.log y + |Real.log y| / 2 ^ 52 by linarith)
      exact ⟨q, fun _ => by rw [abs_le]; constructor <;> linarith⟩
  choose ln h using this
  exact ⟨ln, h⟩

/-- The values of some buckets: 50 buckets are a factor of ten. -/
example : hvF 0 = 10 ∧ hvF 1 = 10 ∧ hvF 2 = 10 ∧ hvF 3 = 11 ∧ hvF 50 = 100 ∧ hvF 250 = 1000000 := by
  decide +kernel

end Finch
