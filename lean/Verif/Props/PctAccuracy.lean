import Verif.Props.FloatBuckets
/-!
C135: how far a reported percentile is from the latencies that were recorded.
-/
namespace Finch

/-- Values of neighbouring buckets. -/
theorem hv_next : ∀ i < 449, 10 ^ 16 * hvF (i + 1) < facN * (hvF i + 1) ∧ hvF i ≤ hvF (i + 1) := by
  decide +kernel

/-- Where the value reported for bucket `i` lies. -/
theorem pct_value_bounds (i v : Nat) (hi : i < nBuckets)
    (hv : v = hvF i ∨ 0 < i ∧ v = (hvF i + hvF (i - 1)) / 2) :
    v ≤ hvF i ∧ 10 ^ 16 * hvF i ≤ facN * (v + 1) ∧ (0 < i → hvF (i - 1) ≤ v) := by
  have hnb : nBuckets = 450 := rfl
  have hf : facN = 10471285480508996 := rfl
  rcases hv with rfl | ⟨h0, rfl⟩
  · refine ⟨le_rfl, by rw [hf]; omega, fun h0 => ?_⟩
    have := (hv_next (i - 1) (by omega)).2
    rwa [Nat.sub_add_cancel h0] at this
  · obtain ⟨h1, h2⟩ := hv_next (i - 1) (by omega)
    rw [Nat.sub_add_cancel h0] at h1 h2
    rw [hf] at *
    refine ⟨by omega, by omega, fun _ => by omega⟩

/-- Every latency up to 2.3 hours is in a bucket below the last one. -/
theorem below_last {ln : ℚ → ℚ} (hln : LogSpec ln) (d : Int) (h0 : 0 ≤ d) (hd : d ≤ 8300000000) :
    bucketNo (lgF ln) d ≤ 448 := by
  have hnb : nBuckets = 450 := rfl
  have := C72_reported hln d h0 448 (by omega)
  rw [this, if_neg (by omega)]
  have : 8300000000 ≤ hvF 448 := by decide +kernel
  omega

/-- The bucket of a percentile is not the last one if no latency is in that. -/
theorem pct_not_last {ln : ℚ → ℚ} (hln : LogSpec ln) (evs : List TrxEvent) (h : NonNeg evs) (t : Ev)
    (hne : latencies t evs ≠ []) (hl : ∀ d ∈ latencies t evs, d ≤ 8300000000) (p : ℚ) (hp : p ≤ 100) (i : Nat)
    (hi : IsPctBucket f64 ((recordAll (lgF ln) .new evs).ev t) p i) : i ≤ 448 := by
  have hnb : nBuckets = 450 := rfl
  by_contra hc
  have h1 := hi.first 448 (by omega)
  have hs := C24_statistics_are_exact (lgF ln) evs h t
  have h2 := C24_histogram_sums_to_count (lgF ln) evs h t
  have h3 : ((recordAll (lgF ln) .new evs).ev t).buckets 449 = 0 := by
    rw [hs.bucket]
    rw [List.countP_eq_zero]
    intro d hd
    have := below_last hln d (latencies_nonneg h d hd) (hl d hd)
    simp; omega
  rw [hnb, Finset.sum_range_succ, h3, Nat.add_zero] at h2
  have hN : 0 < ((recordAll (lgF ln) .new evs).ev t).n := by
    rw [hs.count]; exact List.length_pos_iff.2 hne
  have h4 : eventsUpTo ((recordAll (lgF ln) .new evs).ev t) 448 =
      ((recordAll (lgF ln) .new evs).ev t).n := h2
  have hne' : (((recordAll (lgF ln) .new evs).ev t).n : ℚ) ≠ 0 := by exact_mod_cast hN.ne'
  have e1 := f64_spec.int 1 (by norm_num)
  have e2 := f64_spec.int 100 (by norm_num)
  push_cast at e1 e2
  unfold percentUpTo at h1
  rw [h4, div_self hne', e1, one_mul, e2] at h1
  linarith

/-- **C135**. The value that is reported for percentile `p`, if no latency is more than 2.3 hours: at
least `p` percent of the recorded events took no longer than it, and if it is more than the least value
(10 us) then less than `p` percent took less than it, both to a factor of 1.0472, one microsecond, and
the rounding of a percentage. -/
theorem C135_percentile_partial {ln : ℚ → ℚ} (hln : LogSpec ln) (evs : List TrxEvent) (h : NonNeg evs)
    (t : Ev) (hne : latencies t evs ≠ []) (hl : ∀ d ∈ latencies t evs, d ≤ 8300000000) (p : ℚ)
    (hp : p ≤ 100) :
    ∃ v : Nat, (recordAll (lgF ln) .new evs).percentiles f64 hvF t [p] = [v] ∧
      p - 300 / 2 ^ 53 ≤
        100 * ((latencies t evs).countP fun d : Int => (d : ℚ) ≤ 1.0471285480508996 * (v + 1) : ℚ) /
          (latencies t evs).length ∧
      (10 < v →
        100 * ((latencies t evs).countP fun d : Int => 1.0471285480508996 * ((d : ℚ) + 1) ≤ v : ℚ) /
          (latencies t evs).length < p + 300 / 2 ^ 53) := by
  have hnb : nBuckets = 450 := rfl
  obtain ⟨i, v, e1, hi, hv⟩ := C27_single_percentile f64_spec hvF (lgF ln) evs h t hne p hp
  have hi8 := pct_not_last hln evs h t hne hl p hp i hi
  obtain ⟨b1, b2, b3⟩ := pct_value_bounds i v hi.lt hv
  have hpos : (0 : ℚ) < (latencies t evs).length := by
    exact_mod_cast List.length_pos_iff.2 hne
  have hf : facN = 10471285480508996 := rfl
  have hfac : (1.0471285480508996 : ℚ) = facN / 10 ^ 16 := by norm_num [facN]
  refine ⟨v, e1, ?_, fun hv10 => ?_⟩
  · have hc := abs_le.1 (C27_percentage_is_of_events f64_spec (lgF ln) evs h t hne i)
    have hm : ((latencies t evs).countP fun d => bucketNo (lgF ln) d ≤ i) ≤
        (latencies t evs).countP fun d : Int => (d : ℚ) ≤ 1.0471285480508996 * (v + 1) := by
      refine List.countP_mono_left fun d hd hb => ?_
      simp only [decide_eq_true_eq] at hb ⊢
      have h0 := latencies_nonneg h d hd
      have hr := (C72_reported hln d h0 i (by omega)).1 hb
      have hdi : d ≤ hvF i := by
        split at hr
        · rename_i hz; subst hz; omega
        · exact hr
      have b2' : (10 : ℚ) ^ 16 * hvF i ≤ facN * (v + 1) := by exact_mod_cast b2
      have hd' : (d : ℚ) ≤ hvF i := by exact_mod_cast hdi
      rw [hfac]
      rw [div_mul_eq_mul_div, le_div_iff₀ (by norm_num)]
      linarith
    have hm' : (((latencies t evs).countP fun d => bucketNo (lgF ln) d ≤ i : Nat) : ℚ) ≤
        ((latencies t evs).countP fun d : Int => (d : ℚ) ≤ 1.0471285480508996 * (v + 1) : Nat) := by
      exact_mod_cast hm
    have hq := div_le_div_of_nonneg_right (mul_le_mul_of_nonneg_left hm' (by norm_num : (0:ℚ) ≤ 100)) hpos.le
    have := hi.ge
    linarith [hc.2]
  · have hi0 : 0 < i := by
      rcases Nat.eq_zero_or_pos i with rfl | h0
      · have : hvF 0 = 10 := by decide +kernel
        omega
      · exact h0
    have hc := abs_le.1 (C27_percentage_is_of_events f64_spec (lgF ln) evs h t hne (i - 1))
    have hm : ((latencies t evs).countP fun d : Int => 1.0471285480508996 * ((d : ℚ) + 1) ≤ v) ≤
        (latencies t evs).countP fun d => bucketNo (lgF ln) d ≤ i - 1 := by
      refine List.countP_mono_left fun d hd hb => ?_
      simp only [decide_eq_true_eq] at hb ⊢
      have h0 := latencies_nonneg h d hd
      rw [hfac, div_mul_eq_mul_div, div_le_iff₀ (by norm_num)] at hb
      have hb' : (facN : Int) * (d + 1) ≤ v * 10 ^ 16 := by exact_mod_cast hb
      have hn := (hv_next (i - 1) (by omega)).1
      rw [Nat.sub_add_cancel hi0] at hn
      have hlt : d < hvF (i - 1) := by
        rw [hf] at hb' hn
        omega
      refine (C72_reported hln d h0 (i - 1) (by omega)).2 ?_
      split
      · rename_i hz; rw [hz] at hlt; exact hlt
      · omega
    have hm' : (((latencies t evs).countP fun d : Int => 1.0471285480508996 * ((d : ℚ) + 1) ≤ v : Nat) : ℚ) ≤
        ((latencies t evs).countP fun d => bucketNo (lgF ln) d ≤ i - 1 : Nat) := by
      exact_mod_cast hm
    have hq := div_le_div_of_nonneg_right (mul_le_mul_of_nonneg_left hm' (by norm_num : (0:ℚ) ≤ 100)) hpos.le
    have := hi.first (i - 1) (by omega)
    linarith [hc.1]

/-- Percentiles depend on the buckets and the count only. -/
theorem pctLoop_congr (rnd : ℚ → ℚ) (hv : Nat → Nat) (e e' : EvStats) (hn : e.n = e'.n)
    (hb : e.buckets = e'.buckets) (left i n : Nat) (ps : List ℚ) : pctLoop rnd hv e left i n ps = pctLoop rnd hv e' left i n ps := by
  induction left generalizing i n ps with
  | zero => rfl
  | succ left ih =>
    cases ps with
    | nil => rfl
    | cons p ps => simp only [pctLoop, hb, hn, ih]

/-- **C135** (several clients). The same for the combined statistics of any number of clients, with the
events of all of them. -/
theorem C135_combined_partial {ln : ℚ → ℚ} (hln : LogSpec ln) (L : List (List TrxEvent))
    (h : ∀ evs ∈ L, NonNeg evs) (t : Ev) (hne : latencies t L.flatten ≠ [])
    (hl : ∀ d ∈ latencies t L.flatten, d ≤ 8300000000) (p : ℚ) (hp : p ≤ 100) :
    ∃ v : Nat, (combineAll (L.map (recordAll (lgF ln) .new))).percentiles f64 hvF t [p] = [v] ∧
      p - 300 / 2 ^ 53 ≤
        100 * ((latencies t L.flatten).countP fun d : Int => (d : ℚ) ≤ 1.0471285480508996 * (v + 1) : ℚ) /
          (latencies t L.flatten).length ∧
      (10 < v →
        100 * ((latencies t L.flatten).countP fun d : Int => 1.0471285480508996 * ((d : ℚ) + 1) ≤ v : ℚ) /
          (latencies t L.flatten).length < p + 300 / 2 ^ 53) := by
  have hfl : NonNeg L.flatten := by
    intro e hm
    obtain ⟨evs, he, hm⟩ := List.mem_flatten.1 hm
    exact h evs he e hm
  obtain ⟨v, h1, h2⟩ := C135_percentile_partial hln L.flatten hfl t hne hl p hp
  refine ⟨v, ?_, h2⟩
  rw [← h1]
  have hs := (C25_combine_is_record_all_partial (lgF ln) L h).1
  exact pctLoop_congr _ _ _ _ (hs.n t) (funext (hs.buckets t)) ..

/-- 57 events of 20 us, then 43 of one second. -/
def exPct : List TrxEvent :=
  List.replicate 57 (.query .read 20) ++ List.replicate 43 (.query .read 1000000)

theorem exPct_nonNeg : NonNeg exPct := by
  intro e he
  simp only [exPct, List.mem_append, List.mem_replicate] at he
  rcases he with ⟨_, rfl⟩ | ⟨_, rfl⟩ <;> simp

theorem exPct_latencies : latencies .read exPct = List.replicate 57 20 ++ List.replicate 43 1000000 := by
  decide

/-- **C135 is false without the rounding.** 57 of 100 events took 20 us, the other events one second:
the percentile 57 should be about 20 us. But 57/100·100 is less than 57 in float64, and about one second
is reported. -/
theorem C135_rounding_false {ln : ℚ → ℚ} (hln : LogSpec ln) :
    ¬ ∀ (evs : List TrxEvent), NonNeg evs → ∀ t, latencies t evs ≠ [] →
      (∀ d ∈ latencies t evs, d ≤ 8300000000) → ∀ p : ℚ, p ≤ 100 → ∀ v : Nat,
      (recordAll (lgF ln) .new evs).percentiles f64 hvF t [p] = [v] → 10 < v →
      100 * ((latencies t evs).countP fun d : Int => 1.0471285480508996 * ((d : ℚ) + 1) ≤ v : ℚ) /
        (latencies t evs).length < p := by
  intro hall
  have hnb : nBuckets = 450 := rfl
  have hne : latencies .read exPct ≠ [] := by rw [exPct_latencies]; simp
  have hl : ∀ d ∈ latencies .read exPct, d ≤ 8300000000 := by
    rw [exPct_latencies]; intro d hd
    simp only [List.mem_append, List.mem_replicate] at hd
    rcases hd with ⟨_, rfl⟩ | ⟨_, rfl⟩ <;> norm_num
  obtain ⟨i, v, e1, hi, hv⟩ := C27_single_percentile f64_spec hvF (lgF ln) exPct exPct_nonNeg .read hne 57
    (by norm_num)
  have hi8 := pct_not_last hln exPct exPct_nonNeg .read hne hl 57 (by norm_num) i hi
  obtain ⟨b1, b2, b3⟩ := pct_value_bounds i v hi.lt hv
  -- the bucket is not below that of one second
  have hi2 : 100 < i := by
    by_contra hc
    have hs := C24_statistics_are_exact (lgF ln) exPct exPct_nonNeg .read
    have hbig : ∀ k ≤ 100, bucketNo (lgF ln) 1000000 ≠ k := by
      intro k hk hk'
      have h1 := (C72_reported hln 1000000 (by norm_num) 100 (by omega)).1 (by omega)
      have h2 : hvF 100 < 1000000 := by decide +kernel
      rw [if_neg (by omega)] at h1
      omega
    have hle : eventsUpTo ((recordAll (lgF ln) .new exPct).ev .read) i ≤ 57 := by
      have : eventsUpTo ((recordAll (lgF ln) .new exPct).ev .read) i =
          ∑ k ∈ Finset.range (i + 1), if bucketNo (lgF ln) 20 = k then 57 else 0 := by
        unfold eventsUpTo
        refine Finset.sum_congr rfl fun k hk => ?_
        rw [hs.bucket, exPct_latencies, List.countP_append, List.countP_replicate, List.countP_replicate]
        have := hbig k (by have := Finset.mem_range.1 hk; omega)
        simp [this]
      rw [this, Finset.sum_ite_eq]
      split <;> omega
    have hn : ((recordAll (lgF ln) .new exPct).ev .read).n = 100 := by
      rw [hs.count, exPct_latencies]; rfl
    have hge := hi.ge
    unfold percentUpTo at hge
    rw [hn] at hge
    have hall' : ∀ c : Nat, c < 58 → f64 (f64 ((c : ℚ) / (100 : Nat)) * 100) < 57 := by decide +kernel
    exact absurd (hall' _ (by omega)) (not_lt.2 hge)
  have hv900 : 900 < v := by
    have h1 := b3 (by omega)
    have h2 : ∀ j < 449, 100 ≤ j → 900 < hvF j := by decide +kernel
    have := h2 (i - 1) (by omega) (by omega)
    omega
  have := hall exPct exPct_nonNeg .read hne hl 57 (by norm_num) v e1 (by omega)
  have hcnt : 57 ≤ (latencies .read exPct).countP fun d : Int => 1.0471285480508996 * ((d : ℚ) + 1) ≤ v := by
    rw [exPct_latencies, List.countP_append, List.countP_replicate, if_pos]
    · omega
    · have : (900 : ℚ) < v := by exact_mod_cast hv900
      simp only [decide_eq_true_eq]
      push_cast
      norm_num
      linarith
  rw [show (latencies .read exPct).length = 100 by rw [exPct_latencies]; rfl] at this
  have hcnt' : (57 : ℚ) ≤ ((latencies .read exPct).countP fun d : Int => 1.0471285480508996 * ((d : ℚ) + 1) ≤ v : Nat) := by
    exact_mod_cast hcnt
  push_cast at this
  linarith

/-- In this example the percentile 95 is at least 954000 us. -/
example {ln : ℚ → ℚ} (hln : LogSpec ln) :
    ∃ v : Nat, (recordAll (lgF ln) .new exPct).percentiles f64 hvF .read [95] = [v] ∧ 954000 ≤ v := by
  have hl : ∀ d ∈ latencies .read exPct, d ≤ 8300000000 := by
    rw [exPct_latencies]; intro d hd
    simp only [List.mem_append, List.mem_replicate] at hd
    rcases hd with ⟨_, rfl⟩ | ⟨_, rfl⟩ <;> norm_num
  obtain ⟨v, h1, h2, _⟩ := C135_percentile_partial hln exPct exPct_nonNeg .read
    (by rw [exPct_latencies]; simp) hl 95 (by norm_num)
  refine ⟨v, h1, ?_⟩
  by_contra hc
  have hv : (v : ℚ) < 954000 := by exact_mod_cast not_le.1 hc
  rw [exPct_latencies, List.countP_append, List.countP_replicate, List.countP_replicate,
    if_neg (c := decide (((1000000 : Int) : ℚ) ≤ 1.0471285480508996 * ((v : ℚ) + 1)) = true) (by
      simp only [decide_eq_true_eq]; push_cast; norm_num; linarith)] at h2
  split at h2 <;> norm_num at h2

/-- A client without events and one with the events of the example. -/
example {ln : ℚ → ℚ} (hln : LogSpec ln) :
    ∃ v : Nat, (combineAll ([[], exPct].map (recordAll (lgF ln) .new))).percentiles f64 hvF .read [95] =
      [v] := by
  have e : latencies .read ([[], exPct] : List (List TrxEvent)).flatten = latencies .read exPct := by simp
  obtain ⟨v, h, _⟩ := C135_combined_partial hln [[], exPct]
    (by intro evs he; simp at he; rcases he with rfl | rfl; · simp [NonNeg]
        · exact exPct_nonNeg) .read (by rw [e, exPct_latencies]; simp)
    (by
      rw [e, exPct_latencies]; intro d hd
      simp only [List.mem_append, List.mem_replicate] at hd
      rcases hd with ⟨_, rfl⟩ | ⟨_, rfl⟩ <;> norm_num) 95 (by norm_num)
  exact ⟨v, h⟩

end Finch
