import Verif.Model.Stats
import Verif.Props.Stats
import Mathlib.Algebra.Order.BigOperators.Group.Finset
import Mathlib.Tactic.Linarith
import Mathlib.Tactic.Positivity
import Mathlib.Tactic.FieldSimp
import Mathlib.Tactic.NormNum
import Mathlib.Tactic.IntervalCases
import Verif.Model.Float
/-!
C27: percentiles.
-/
namespace Finch

/-- Number of events in buckets `0` to `i`. -/
def eventsUpTo (e : EvStats) (i : Nat) : Nat := ∑ k ∈ Finset.range (i + 1), e.buckets k

/-- Percentage of events in buckets `0` to `i`, as a float computation. -/
def percentUpTo (rnd : ℚ → ℚ) (e : EvStats) (i : Nat) : ℚ :=
  rnd (rnd ((eventsUpTo e i : ℚ) / e.n) * 100)

/-- `i` is the first bucket up to which there are at least `p` percent of all events. -/
structure IsPctBucket (rnd : ℚ → ℚ) (e : EvStats) (p : ℚ) (i : Nat) : Prop where
  lt : i < nBuckets
  ge : p ≤ percentUpTo rnd e i
  first : ∀ k < i, percentUpTo rnd e k < p

theorem pctLoop_spec (rnd : ℚ → ℚ) (hv : Nat → Nat) (e : EvStats) (hN : 0 < e.n) (left i : Nat)
    (hi : left + i = nBuckets) (ps : List ℚ) (bs : List Nat)
    (hb : List.Forall₂ (IsPctBucket rnd e) ps bs) (hs : bs.Pairwise (· < ·)) (hge : ∀ b ∈ bs, i ≤ b) :
    pctLoop rnd hv e left i (∑ k ∈ Finset.range i, e.buckets k) ps =
      List.zipWith (fun p b => pctValue hv p (percentUpTo rnd e b) b) ps bs := by
  induction left generalizing i ps bs with
  | zero =>
    cases hb with
    | nil => rfl
    | cons h _ =>
      have := hge _ (List.mem_cons_self ..)
      have := h.lt
      omega
  | succ left ih =>
    cases hb with
    | nil => rfl
    | @cons p b ps bs h hrest =>
      have hN' : e.n ≠ 0 := by omega
      have hsum : (∑ k ∈ Finset.range i, e.buckets k) + e.buckets i =
          ∑ k ∈ Finset.range (i + 1), e.buckets k := (Finset.sum_range_succ ..).symm
      have hib : i ≤ b := hge b (by simp)
      rw [pctLoop]
      simp only [freq, hN', if_false, hsum]
      have hf : rnd (rnd (((∑ k ∈ Finset.range (i + 1), e.buckets k : Nat) : ℚ) / e.n) * 100) =
          percentUpTo rnd e i := rfl
      rw [hf]
      obtain ⟨hs1, hs2⟩ := List.pairwise_cons.1 hs
      by_cases hcase : i = b
      · subst hcase
        rw [if_pos h.ge, ih (i + 1) (by omega) ps bs hrest hs2 (fun b' hb' => hs1 b' hb')]
        rfl
      · have hlt : i < b := by omega
        rw [if_neg (by have := h.first i hlt; exact not_le.2 this),
          ih (i + 1) (by omega) (p :: ps) (b :: bs) (.cons h hrest) hs]
        intro b' hb'
        rcases List.mem_cons.1 hb' with rfl | hb'
        · omega
        · have := hs1 b' hb'; omega

theorem pctLoop_single (rnd : ℚ → ℚ) (hv : Nat → Nat) (s : Stats) (t : Ev) (hN : 0 < (s.ev t).n)
    (p : ℚ) (b : Nat) (h : IsPctBucket rnd (s.ev t) p b) :
    s.percentiles rnd hv t [p] = [pctValue hv p (percentUpTo rnd (s.ev t) b) b] := by
  have := pctLoop_spec rnd hv (s.ev t) hN nBuckets 0 (by simp) [p] [b] (.cons h .nil)
    (by simp) (by simp)
  simpa [Stats.percentiles] using this

theorem pctValue_cases (hv : Nat → Nat) (p f : ℚ) (i : Nat) :
    pctValue hv p f i = hv i ∨ 0 < i ∧ pctValue hv p f i = (hv i + hv (i - 1)) / 2 := by
  unfold pctValue
  split
  · rename_i h; exact .inr ⟨h.2, rfl⟩
  · split
    · rename_i h; subst h; exact .inl rfl
    · exact .inl rfl

/-- A percentile up to 100 has a bucket if the histogram is complete. -/
theorem pctBucket_exists {rnd : ℚ → ℚ} (hr : RoundSpec rnd) (e : EvStats) (hN : 0 < e.n)
    (hsum : (∑ i ∈ Finset.range nBuckets, e.buckets i) = e.n) (p : ℚ) (hp : p ≤ 100) :
    ∃ i, IsPctBucket rnd e p i := by
  have hlast : p ≤ percentUpTo rnd e (nBuckets - 1) := by
    have h1 : eventsUpTo e (nBuckets - 1) = e.n := by
      unfold eventsUpTo; rw [← hsum]; rfl
    have hne : (e.n : ℚ) ≠ 0 := by exact_mod_cast hN.ne'
    have h2 := hr.int 1 (by norm_num)
    have h3 := hr.int 100 (by norm_num)
    push_cast at h2 h3
    unfold percentUpTo
    rw [h1, div_self hne, h2, one_mul, h3]
    exact hp
  classical
  have hex : ∃ i, p ≤ percentUpTo rnd e i := ⟨_, hlast⟩
  refine ⟨Nat.find hex, ?_, Nat.find_spec hex, fun k hk => not_le.1 (Nat.find_min hex hk)⟩
  have : Nat.find hex ≤ nBuckets - 1 := Nat.find_min' hex hlast
  have h0 : 0 < nBuckets := by decide
  omega

/-- **C27** (one percentile). For any recorded events and any percentile `p` up to 100, the reported
value is that of the first bucket up to which there are at least `p` percent of the events: the
upper end of that bucket or the middle between its ends. -/
theorem C27_single_percentile {rnd : ℚ → ℚ} (hr : RoundSpec rnd) (hv : Nat → Nat) (lg : Int → Int)
    (evs : List TrxEvent) (h : NonNeg evs) (t : Ev) (hne : latencies t evs ≠ []) (p : ℚ)
    (hp : p ≤ 100) :
    ∃ i v, (recordAll lg .new evs).percentiles rnd hv t [p] = [v] ∧
      IsPctBucket rnd ((recordAll lg .new evs).ev t) p i ∧
      (v = hv i ∨ 0 < i ∧ v = (hv i + hv (i - 1)) / 2) := by
  have hN : 0 < ((recordAll lg .new evs).ev t).n := by
    rw [(C24_statistics_are_exact lg evs h t).count]; exact List.length_pos_iff.2 hne
  obtain ⟨i, hi⟩ := pctBucket_exists hr _ hN (C24_histogram_sums_to_count lg evs h t) p hp
  exact ⟨i, _, pctLoop_single rnd hv _ t hN p i hi, hi, pctValue_cases ..⟩

/-- The percentage is that of the events with latency in those buckets, up to float64 rounding. -/
theorem C27_percentage_is_of_events {rnd : ℚ → ℚ} (hr : RoundSpec rnd) (lg : Int → Int)
    (evs : List TrxEvent) (h : NonNeg evs) (t : Ev) (hne : latencies t evs ≠ []) (i : Nat) :
    |percentUpTo rnd ((recordAll lg .new evs).ev t) i -
        100 * ((latencies t evs).countP fun d => bucketNo lg d ≤ i : ℚ) / (latencies t evs).length| ≤
      300 / 2 ^ 53 := by
  have hs := C24_statistics_are_exact lg evs h t
  have hcount : eventsUpTo ((recordAll lg .new evs).ev t) i =
      (latencies t evs).countP fun d => bucketNo lg d ≤ i := by
    unfold eventsUpTo
    rw [Finset.sum_congr rfl fun i _ => hs.bucket i]
    generalize latencies t evs = ds
    induction ds with
    | nil => simp
    | cons d ds ih =>
      simp only [List.countP_cons, Finset.sum_add_distrib, ih, decide_eq_true_eq]
      congr 1
      by_cases hd : bucketNo lg d ≤ i
      · rw [if_pos hd, Finset.sum_eq_single (bucketNo lg d)]
        · simp
        · intro b _ hb; simp [Ne.symm hb]
        · intro hb; exact absurd (Finset.mem_range.2 (by omega)) hb
      · rw [if_neg hd]
        refine Finset.sum_eq_zero fun b hb => ?_
        have := Finset.mem_range.1 hb
        rw [if_neg]; omega
  unfold percentUpTo
  rw [hcount, hs.count]
  have hle : ((latencies t evs).countP fun d => bucketNo lg d ≤ i) ≤ (latencies t evs).length :=
    List.countP_le_length
  have hpos : 0 < (latencies t evs).length := List.length_pos_iff.2 hne
  generalize ((latencies t evs).countP fun d => bucketNo lg d ≤ i) = c at *
  generalize (latencies t evs).length = N at *
  have hNq : (0 : ℚ) < N := by exact_mod_cast hpos
  have hcq : (c : ℚ) ≤ N := by exact_mod_cast hle
  have hx0 : (0 : ℚ) ≤ (c : ℚ) / N := by positivity
  have hx1 : (c : ℚ) / N ≤ 1 := by rw [div_le_one hNq]; exact hcq
  rw [mul_div_assoc]
  generalize (c : ℚ) / N = x at *
  have e1 := hr.err x
  have e2 := hr.err (rnd x * 100)
  rw [abs_of_nonneg hx0] at e1
  have hu : (0 : ℚ) < 1 / 2 ^ 53 := by positivity
  have b1 : |rnd x - x| ≤ 1 / 2 ^ 53 := le_trans e1 (by
    rw [div_le_div_iff_of_pos_right (by positivity)]; exact hx1)
  have b2 : |rnd x * 100| ≤ 200 := by
    have := abs_le.1 b1
    have hs : (1 : ℚ) / 2 ^ 53 ≤ 1 := by norm_num
    rw [abs_le]; constructor <;> linarith [this.1, this.2]
  have b3 : |rnd (rnd x * 100) - rnd x * 100| ≤ 200 / 2 ^ 53 := le_trans e2 (by
    rw [div_le_div_iff_of_pos_right (by positivity)]; exact b2)
  have h1 := abs_le.1 b1
  have h3 := abs_le.1 b3
  rw [abs_le]
  constructor
  · have := h1.1; have := h3.1; linarith
  · have := h1.2; have := h3.2; linarith

/-- **C27** (several percentiles in different buckets). If the percentiles' buckets are strictly
increasing, the list reports for each percentile what it reports alone. Missing: percentiles that
share a bucket, for which it is false (`C27_list_false`). -/
theorem C27_list_partial (rnd : ℚ → ℚ) (hv : Nat → Nat) (s : Stats) (t : Ev) (hN : 0 < (s.ev t).n)
    (ps : List ℚ) (bs : List Nat) (hb : List.Forall₂ (IsPctBucket rnd (s.ev t)) ps bs)
    (hs : bs.Pairwise (· < ·)) :
    s.percentiles rnd hv t ps = (ps.map fun p => s.percentiles rnd hv t [p]).flatten := by
  have h := pctLoop_spec rnd hv (s.ev t) hN nBuckets 0 (by simp) ps bs hb hs (by simp)
  simp only [Finset.range_zero, Finset.sum_empty] at h
  rw [Stats.percentiles, h]
  clear h hs
  induction hb with
  | nil => rfl
  | cons h _ ih =>
    simp only [List.zipWith_cons_cons, List.map_cons, List.flatten_cons, ih,
      pctLoop_single rnd hv s t hN _ _ h, List.singleton_append]

/-- The loop up to the bucket of the first percentile. -/
theorem pctLoop_first (rnd : ℚ → ℚ) (hv : Nat → Nat) (e : EvStats) (hN : 0 < e.n) (left i : Nat)
    (hi : left + i = nBuckets) (p : ℚ) (ps : List ℚ) (b : Nat) (h : IsPctBucket rnd e p b)
    (hib : i ≤ b) :
    pctLoop rnd hv e left i (∑ k ∈ Finset.range i, e.buckets k) (p :: ps) =
      pctValue hv p (percentUpTo rnd e b) b ::
        pctLoop rnd hv e (nBuckets - (b + 1)) (b + 1)
          (∑ k ∈ Finset.range (b + 1), e.buckets k) ps := by
  induction left generalizing i with
  | zero => have := h.lt; omega
  | succ left ih =>
    have hN' : e.n ≠ 0 := by omega
    have hsum : (∑ k ∈ Finset.range i, e.buckets k) + e.buckets i =
        ∑ k ∈ Finset.range (i + 1), e.buckets k := (Finset.sum_range_succ ..).symm
    rw [pctLoop]
    simp only [freq, hN', if_false, hsum]
    have hf : rnd (rnd (((∑ k ∈ Finset.range (i + 1), e.buckets k : Nat) : ℚ) / e.n) * 100) =
        percentUpTo rnd e i := rfl
    rw [hf]
    by_cases hcase : i = b
    · subst hcase
      rw [if_pos h.ge, show nBuckets - (i + 1) = left from by omega]
    · rw [if_neg (by have := h.first i (by omega); exact not_le.2 this), ih (i + 1) (by omega) (by omega)]

/-- **C27 is false for lists**: if all events are slower than 10 seconds they are in the last
bucket, and every percentile but the first is reported as 0. -/
theorem C27_list_false (rnd : ℚ → ℚ) (hr : RoundSpec rnd) (hv : Nat → Nat) (lg : Int → Int)
    (hlg : bucketNo lg 20000000000 = nBuckets - 1) (h449 : 0 < hv 449) (h448 : 0 < hv 448) :
    ¬ ∀ (evs : List TrxEvent), NonNeg evs → ∀ (t : Ev) (ps : List ℚ),
        latencies t evs ≠ [] → ps.Pairwise (· < ·) → (∀ p ∈ ps, p ≤ 100) →
        (recordAll lg .new evs).percentiles rnd hv t ps =
          (ps.map fun p => (recordAll lg .new evs).percentiles rnd hv t [p]).flatten := by
  intro hall
  have hnn : NonNeg [.query .read 20000000000] := by simp [NonNeg]
  have h := hall [.query .read 20000000000] hnn .read [50, 95]
    (by simp [latencies]) (by norm_num) (by norm_num)
  set s := recordAll lg .new [.query .read 20000000000] with hsd
  have hN : (s.ev .read).n = 1 := rfl
  have hbk : ∀ i, (s.ev .read).buckets i = if i = 449 then 1 else 0 := fun i => by
    have : (s.ev .read).buckets i = if i = bucketNo lg 20000000000 then 0 + 1 else 0 := rfl
    rw [this, hlg]; rfl
  have hup : ∀ i, eventsUpTo (s.ev .read) i = if i < 449 then 0 else 1 := by
    intro i
    unfold eventsUpTo
    simp only [hbk]
    split
    · rename_i hi
      refine Finset.sum_eq_zero fun k hk => ?_
      have := Finset.mem_range.1 hk
      rw [if_neg]; omega
    · rename_i hi
      rw [Finset.sum_eq_single 449]
      · simp
      · intro b _ hb; simp [hb]
      · intro hb; exact absurd (Finset.mem_range.2 (by omega)) hb
  have r0 := hr.int 0 (by norm_num)
  have r1 := hr.int 1 (by norm_num)
  have r100 := hr.int 100 (by norm_num)
  push_cast at r0 r1 r100
  have hp0 : ∀ k < 449, percentUpTo rnd (s.ev .read) k = 0 := by
    intro k hk
    simp [percentUpTo, hup, hk, r0]
  have hp1 : percentUpTo rnd (s.ev .read) 449 = 100 := by
    simp [percentUpTo, hup, hN, r1, r100]
  have hb : ∀ p : ℚ, 0 < p → p ≤ 100 → IsPctBucket rnd (s.ev .read) p 449 := by
    intro p h1 h2
    exact ⟨by decide, by rw [hp1]; exact h2, fun k hk => by rw [hp0 k hk]; exact h1⟩
  have hNpos : 0 < (s.ev .read).n := by rw [hN]; decide
  have hl := pctLoop_first rnd hv (s.ev .read) hNpos nBuckets 0 (by simp) 50 [95] 449
    (hb 50 (by norm_num) (by norm_num)) (by omega)
  rw [show nBuckets - (449 + 1) = 0 from rfl] at hl
  simp only [Finset.range_zero, Finset.sum_empty, pctLoop, List.map_cons, List.map_nil] at hl
  rw [Stats.percentiles, hl] at h
  simp only [List.map_cons, List.map_nil, List.flatten_cons, List.flatten_nil,
    pctLoop_single rnd hv s .read hNpos _ 449 (hb 50 (by norm_num) (by norm_num)),
    pctLoop_single rnd hv s .read hNpos _ 449 (hb 95 (by norm_num) (by norm_num))] at h
  simp only [List.append_nil, List.singleton_append, List.cons.injEq, true_and, and_true] at h
  rcases pctValue_cases hv 95 (percentUpTo rnd (s.ev .read) 449) 449 with hc | ⟨_, hc⟩
  · rw [hc] at h; omega
  · rw [hc] at h; simp only [Nat.add_one_sub_one] at h; omega

/-- Nine reads of 5 µs and one of 12 µs: P50 and P99 are in different buckets. -/
example : let evs := List.replicate 9 (TrxEvent.query .read 5) ++ [.query .read 12]
    let s := recordAll (fun d => if d < 10 then -1 else 3) .new evs
    0 < (s.ev .read).n ∧ ∃ bs, List.Forall₂ (IsPctBucket (fun x => x) (s.ev .read)) [50, 99] bs ∧
      bs.Pairwise (· < ·) := by
  intro evs s
  have hN : (s.ev .read).n = 10 := rfl
  have hup : ∀ i, i < 5 → eventsUpTo (s.ev .read) i = if i < 4 then 9 else 10 := by
    intro i hi
    interval_cases i <;> rfl
  refine ⟨by rw [hN]; decide, [0, 4], ?_, by decide⟩
  refine .cons ⟨by decide, ?_, by omega⟩ (.cons ⟨by decide, ?_, ?_⟩ .nil)
  · simp [percentUpTo, hup, hN]; norm_num
  · simp [percentUpTo, hup, hN]; norm_num
  · intro k hk
    have := hup k (by omega)
    simp [percentUpTo, this, hN, hk]; norm_num

end Finch
