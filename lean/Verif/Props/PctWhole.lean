import Verif.Props.PctAccuracy
/-!
C135 without rounding, for percentiles with at most one digit after the point.
-/
namespace Finch

/-- The percentage of a bucket, from the latencies. -/
theorem percentUpTo_count {ln : ℚ → ℚ} (evs : List TrxEvent) (h : NonNeg evs) (t : Ev) (i : Nat) :
    percentUpTo f64 ((recordAll (lgF ln) .new evs).ev t) i =
      f64 (f64 ((((latencies t evs).countP fun d => bucketNo (lgF ln) d ≤ i : Nat) : ℚ) /
        (latencies t evs).length) * 100) := by
  have hs := C24_statistics_are_exact (lgF ln) evs h t
  have hcount : eventsUpTo ((recordAll (lgF ln) .new evs).ev t) i =
      (latencies t evs).countP fun d => bucketNo (lgF ln) d ≤ i := by
    unfold eventsUpTo
    rw [Finset.sum_congr rfl fun i _ => hs.bucket i]
    generalize latencies t evs = ds
    induction ds with
    | nil => simp
    | cons d ds ih =>
      simp only [List.countP_cons, Finset.sum_add_distrib, ih, decide_eq_true_eq]
      congr 1
      by_cases hd : bucketNo (lgF ln) d ≤ i
      · rw [if_pos hd, Finset.sum_eq_single (bucketNo (lgF ln) d)]
        · simp
        · intro b _ hb; simp [Ne.symm hb]
        · intro hb; exact absurd (Finset.mem_range.2 (by omega)) hb
      · rw [if_neg hd]
        refine Finset.sum_eq_zero fun b hb => ?_
        have := Finset.mem_range.1 hb
        rw [if_neg]; omega
  unfold percentUpTo
  rw [hcount, hs.count]

/-- Latencies in the buckets up to that of a percentile are not longer than its value. -/
theorem pct_upper {ln : ℚ → ℚ} (hln : LogSpec ln) (evs : List TrxEvent) (h : NonNeg evs) (t : Ev) (i v : Nat)
    (hi8 : i ≤ 448) (hv : v = hvF i ∨ 0 < i ∧ v = (hvF i + hvF (i - 1)) / 2) :
    ((latencies t evs).countP fun d => bucketNo (lgF ln) d ≤ i) ≤
      (latencies t evs).countP fun d : Int => (d : ℚ) ≤ 1.0471285480508996 * (v + 1) := by
  have hnb : nBuckets = 450 := rfl
  obtain ⟨b1, b2, b3⟩ := pct_value_bounds i v (by omega) hv
  have hfac : (1.0471285480508996 : ℚ) = facN / 10 ^ 16 := by norm_num [facN]
  refine List.countP_mono_left fun d hd hb => ?_
  simp only [decide_eq_true_eq] at hb ⊢
  have h0 := latencies_nonneg h d hd
  have hr := (C72_reported hln d h0 i (by omega)).1 hb
  have hdi : d ≤ hvF i := by
    split at hr
    · rename_i hz; subst hz; omega
    · exact hr
  have b2' : (10 : ℚ) ^ 16 * hvF i ≤ facN * (v + 1) := by exact_mod_cast b2
  have hd' : (d : ℚ) ≤ hvF i := by exact_mod_cast hdi
  rw [hfac]
  rw [div_mul_eq_mul_div, le_div_iff₀ (by norm_num)]
  linarith

/-- Latencies that are shorter than the value of a percentile are in the buckets before its bucket. -/
theorem pct_lower {ln : ℚ → ℚ} (hln : LogSpec ln) (evs : List TrxEvent) (h : NonNeg evs) (t : Ev) (i v : Nat)
    (hi8 : i ≤ 448) (hv : v = hvF i ∨ 0 < i ∧ v = (hvF i + hvF (i - 1)) / 2) (hv10 : 10 < v) :
    0 < i ∧ ((latencies t evs).countP fun d : Int => 1.0471285480508996 * ((d : ℚ) + 1) ≤ v) ≤
      (latencies t evs).countP fun d => bucketNo (lgF ln) d ≤ i - 1 := by
  have hnb : nBuckets = 450 := rfl
  obtain ⟨b1, b2, b3⟩ := pct_value_bounds i v (by omega) hv
  have hf : facN = 10471285480508996 := rfl
  have hfac : (1.0471285480508996 : ℚ) = facN / 10 ^ 16 := by norm_num [facN]
  have hi0 : 0 < i := by
    rcases Nat.eq_zero_or_pos i with rfl | h0
    · have : hvF 0 = 10 := by decide +kernel
      omega
    · exact h0
  refine ⟨hi0, List.countP_mono_left fun d hd hb => ?_⟩
  simp only [decide_eq_true_eq] at hb ⊢
  have h0 := latencies_nonneg h d hd
  rw [hfac, div_mul_eq_mul_div, div_le_iff₀ (by norm_num)] at hb
  have hb' : (facN : Int) * (d + 1) ≤ v * 10 ^ 16 := by exact_mod_cast hb
  have hn := (hv_next (i - 1) (by omega)).1
  rw [Nat.sub_add_cancel hi0] at hn
  have hlt : d < hvF (i - 1) := by
    rw [hf] at hb' hn
    omega
  refine (C72_reported hln d h0 (i - 1) (by omega)).2 ?_
  split
  · rename_i hz; rw [hz] at hlt; exact hlt
  · omega

/-- **C135** (exact). For a percentile with at most one digit after the point, `a/10`, up to 2^40 events, and if
the percentage `a/10` is not rounded to less than the percentile, the percentile is the true one: at least
`a/10` percent of the events took no longer than its value, and less than `a/10` percent less, to the width of a
bucket. The condition is met by all whole percentiles except 29, 57 and 58, and by the default 99.9. -/
theorem C135_exact {ln : ℚ → ℚ} (hln : LogSpec ln) (evs : List TrxEvent) (h : NonNeg evs)
    (t : Ev) (hne : latencies t evs ≠ []) (hl : ∀ d ∈ latencies t evs, d ≤ 8300000000)
    (hN : (latencies t evs).length ≤ 2 ^ 40) (a : Nat) (ha : a ≤ 1000)
    (hr : f64 ((a : ℚ) / 10) ≤ f64 (f64 ((a : ℚ) / 1000) * 100)) :
    ∃ v : Nat, (recordAll (lgF ln) .new evs).percentiles f64 hvF t [f64 ((a : ℚ) / 10)] = [v] ∧
      (a : ℚ) / 10 ≤
        100 * ((latencies t evs).countP fun d : Int => (d : ℚ) ≤ 1.0471285480508996 * (v + 1) : ℚ) /
          (latencies t evs).length ∧
      (10 < v →
        100 * ((latencies t evs).countP fun d : Int => 1.0471285480508996 * ((d : ℚ) + 1) ≤ v : ℚ) /
          (latencies t evs).length < (a : ℚ) / 10) := by
  have ha0 : (0 : ℚ) ≤ (a : ℚ) / 10 := by positivity
  have haq : (a : ℚ) ≤ 1000 := by exact_mod_cast ha
  have herr := f64_err ((a : ℚ) / 10)
  rw [abs_of_nonneg ha0] at herr
  have herr := abs_le.1 herr
  have hp : f64 ((a : ℚ) / 10) ≤ 100 := by
    rcases Nat.lt_or_ge a 1000 with h1 | h1
    · have h2 : (a : ℚ) ≤ 999 := by exact_mod_cast (by omega : a ≤ 999)
      norm_num at herr ⊢
      linarith [herr.2]
    · have h2 : a = 1000 := by omega
      have h3 := f64_spec.int 100 (by norm_num)
      rw [h2]
      norm_num at h3 ⊢
      rw [h3]
  obtain ⟨i, v, e1, hi, hv⟩ := C27_single_percentile f64_spec hvF (lgF ln) evs h t hne _ hp
  have hi8 := pct_not_last hln evs h t hne hl _ hp i hi
  have hpos : (0 : ℚ) < (latencies t evs).length := by exact_mod_cast List.length_pos_iff.2 hne
  have hNq : ((latencies t evs).length : ℚ) ≤ 2 ^ 40 := by exact_mod_cast hN
  -- a percentage that is not `a/10` is far from it
  have hgap : (1 : ℚ) / 2 ^ 40 / 10 ≤ 1 / (latencies t evs).length / 10 := by
    refine div_le_div_of_nonneg_right ?_ (by norm_num)
    exact one_div_le_one_div_of_le hpos hNq
  refine ⟨v, e1, ?_, fun hv10 => ?_⟩
  · have hu := pct_upper hln evs h t i v hi8 hv
    have hc := abs_le.1 (C27_percentage_is_of_events f64_spec (lgF ln) evs h t hne i)
    have hge := hi.ge
    generalize (latencies t evs).countP (fun d => bucketNo (lgF ln) d ≤ i) = c at *
    generalize (latencies t evs).countP (fun d : Int => (d : ℚ) ≤ 1.0471285480508996 * (v + 1)) = c' at *
    generalize (latencies t evs).length = N at *
    have hcc : (c : ℚ) ≤ c' := by exact_mod_cast hu
    have hle : (a : ℚ) / 10 ≤ 100 * c / N := by
      by_contra hlt
      rw [not_le, div_lt_div_iff₀ hpos (by norm_num)] at hlt
      have h1 : 100 * c * 10 < a * N := by exact_mod_cast hlt
      have h2 : 100 * c * 10 + 1 ≤ a * N := h1
      have h3 : (100 : ℚ) * c * 10 + 1 ≤ a * N := by exact_mod_cast h2
      have h4 : 100 * (c : ℚ) / N ≤ (a : ℚ) / 10 - 1 / N / 10 := by
        rw [div_le_iff₀ hpos]
        have : ((a : ℚ) / 10 - 1 / N / 10) * N = (a * N - 1) / 10 := by field_simp
        rw [this]
        linarith
      generalize (1 : ℚ) / N / 10 = g at *
      norm_num at hgap herr hc
      linarith [herr.1, hc.2]
    refine le_trans hle ?_
    exact div_le_div_of_nonneg_right (by linarith) hpos.le
  · obtain ⟨hi0, hu⟩ := pct_lower hln evs h t i v hi8 hv hv10
    have hc := abs_le.1 (C27_percentage_is_of_events f64_spec (lgF ln) evs h t hne (i - 1))
    have hlt := hi.first (i - 1) (by omega)
    have hpc := percentUpTo_count (ln := ln) evs h t (i - 1)
    generalize (latencies t evs).countP (fun d => bucketNo (lgF ln) d ≤ i - 1) = c at *
    generalize (latencies t evs).countP (fun d : Int => 1.0471285480508996 * ((d : ℚ) + 1) ≤ v) = c' at *
    generalize (latencies t evs).length = N at *
    have hcc : (c' : ℚ) ≤ c := by exact_mod_cast hu
    have hle : 100 * (c : ℚ) / N < (a : ℚ) / 10 := by
      by_contra hge
      rw [not_lt, div_le_div_iff₀ (by norm_num) hpos] at hge
      have h1 : a * N ≤ 100 * c * 10 := by exact_mod_cast hge
      rcases Nat.lt_or_ge (a * N) (100 * c * 10) with h2 | h2
      · have h3 : (a : ℚ) * N + 1 ≤ 100 * c * 10 := by exact_mod_cast h2
        have h4 : (a : ℚ) / 10 + 1 / N / 10 ≤ 100 * (c : ℚ) / N := by
          rw [le_div_iff₀ hpos]
          have : ((a : ℚ) / 10 + 1 / N / 10) * N = (a * N + 1) / 10 := by field_simp
          rw [this]
          linarith
        generalize (1 : ℚ) / N / 10 = g at *
        norm_num at hgap herr hc
        linarith [herr.2, hc.1]
      · have h3 : (a : ℚ) * N = 100 * c * 10 := by exact_mod_cast le_antisymm h1 h2
        have h4 : (c : ℚ) / N = (a : ℚ) / 1000 := by
          rw [div_eq_div_iff hpos.ne' (by norm_num)]
          linarith
        rw [hpc, h4] at hlt
        linarith
    refine lt_of_le_of_lt ?_ hle
    exact div_le_div_of_nonneg_right (by linarith) hpos.le

/-- **C135** (which percentiles). The condition holds for whole percentiles except 29, 57 and 58, for
which it does not, and for 99.9. -/
theorem C135_exact_for :
    (∀ p : Nat, p ≤ 100 → (f64 (((10 * p : Nat) : ℚ) / 10) ≤ f64 (f64 (((10 * p : Nat) : ℚ) / 1000) * 100) ↔
      p ≠ 29 ∧ p ≠ 57 ∧ p ≠ 58)) ∧
    f64 (((999 : Nat) : ℚ) / 10) ≤ f64 (f64 (((999 : Nat) : ℚ) / 1000) * 100) := by
  have h : ∀ p : Nat, p < 101 → (f64 (((10 * p : Nat) : ℚ) / 10) ≤ f64 (f64 (((10 * p : Nat) : ℚ) / 1000) * 100) ↔
      p ≠ 29 ∧ p ≠ 57 ∧ p ≠ 58) := by decide +kernel
  exact ⟨fun p hp => h p (by omega), by decide +kernel⟩

/-- The default percentile 99.9 of the example of C135. -/
example {ln : ℚ → ℚ} (hln : LogSpec ln) :
    ∃ v : Nat, (recordAll (lgF ln) .new exPct).percentiles f64 hvF .read [f64 (((999 : Nat) : ℚ) / 10)] = [v] := by
  obtain ⟨v, h, _⟩ := C135_exact hln exPct exPct_nonNeg .read (by rw [exPct_latencies]; simp)
    (by
      rw [exPct_latencies]; intro d hd
      simp only [List.mem_append, List.mem_replicate] at hd
      rcases hd with ⟨_, rfl⟩ | ⟨_, rfl⟩ <;> norm_num) (by rw [exPct_latencies]; simp) 999 (by norm_num)
    C135_exact_for.2
  exact ⟨v, h⟩

end Finch
