import Verif.Props.Integer
/-!
# C11: int-gaps, with Go's float64 rounding
-/
namespace Finch

/-- Unfolded constructor. -/
theorem newIntGaps_spec {rnd : ℚ → ℚ} {p : Params} {g : IntGaps}
    (h : newIntGaps rnd p = some g) :
    ∃ mn mx pct, int64From p "min" 1 = some mn ∧ int64From p "max" 100000 = some mx ∧
      int64From p "p" 20 = some pct ∧ 1 ≤ pct ∧ pct ≤ 100 ∧
      0 < i64 (i64 (mx - mn) + 1) ∧
      g.inputMax = truncRat (rnd (rnd (i64 (i64 (mx - mn) + 1)) * rnd (rnd pct / 100))) ∧
      g.outputStart = rnd mn ∧
      (g.inputMax ≠ 1 → g.slope = some (rnd (rnd ((i64 (mx - mn) : Int) : ℚ) /
        rnd ((g.inputMax - 1 : Int) : ℚ)))) := by
  unfold newIntGaps at h
  simp only [Option.bind_eq_bind, Option.bind_eq_some_iff] at h
  obtain ⟨mn, h1, mx, h2, h⟩ := h
  split at h
  · cases h
  rename_i hsz
  simp only [Option.pure_def, Option.bind_eq_some_iff] at h
  obtain ⟨pct, h3, h⟩ := h
  split at h
  · cases h
  cases h
  refine ⟨mn, mx, pct, h1, h2, h3, by omega, by omega, by omega, rfl, rfl, ?_⟩
  intro hne
  simp only at hne ⊢
  rw [if_neg hne]

/-- Relative error in one-sided form for nonnegative numbers. -/
theorem RoundSpec.bounds {rnd : ℚ → ℚ} (R : RoundSpec rnd) {x : ℚ} (hx : 0 ≤ x) :
    x - x / 2 ^ 53 ≤ rnd x ∧ rnd x ≤ x + x / 2 ^ 53 := by
  have := R.err x
  rw [abs_of_nonneg hx, abs_le] at this
  constructor <;> linarith [this.1, this.2]

theorem RoundSpec.nonneg {rnd : ℚ → ℚ} (R : RoundSpec rnd) {x : ℚ} (hx : 0 ≤ x) : 0 ≤ rnd x := by
  have := (R.bounds hx).1
  have h2 : x / 2 ^ 53 ≤ x := div_le_self hx (by norm_num)
  linarith

/-- Error of the value computed for index k: at most 6 * max / 2^53 from the exact point
min + k * (max-min)/n. -/
theorem gaps_point_err {rnd : ℚ → ℚ} (R : RoundSpec rnd) (a m n k : ℤ) (ha : 0 ≤ a) (hm : 0 ≤ m)
    (hn : 0 < n) (hk : 0 ≤ k) (hkn : k ≤ n) :
    |rnd ((a : ℚ) + rnd ((k : ℚ) * rnd ((m : ℚ) / n))) - ((a : ℚ) + k * ((m : ℚ) / n))|
      ≤ 6 * ((a : ℚ) + m) / 2 ^ 53 := by
  have ha' : (0 : ℚ) ≤ a := by exact_mod_cast ha
  have hm' : (0 : ℚ) ≤ m := by exact_mod_cast hm
  have hn' : (0 : ℚ) < n := by exact_mod_cast hn
  have hk' : (0 : ℚ) ≤ k := by exact_mod_cast hk
  have hkn' : (k : ℚ) ≤ n := by exact_mod_cast hkn
  have hs0 : (0 : ℚ) ≤ m / n := div_nonneg hm' hn'.le
  have hsn : (n : ℚ) * (m / n) = m := by field_simp
  generalize (m : ℚ) / n = s0 at *
  obtain ⟨s1, s2⟩ := R.bounds hs0
  have s3 := R.nonneg hs0
  generalize rnd s0 = s at *
  have hks : 0 ≤ (k : ℚ) * s := mul_nonneg hk' s3
  obtain ⟨y1, y2⟩ := R.bounds hks
  have y3 := R.nonneg hks
  generalize rnd ((k : ℚ) * s) = y at *
  obtain ⟨z1, z2⟩ := R.bounds (add_nonneg ha' y3)
  -- bounds on the products
  have p1 : (k : ℚ) * s0 ≤ m := by
    rw [← hsn]; exact mul_le_mul_of_nonneg_right hkn' hs0
  have p2 : (k : ℚ) * s ≤ k * s0 + (k * s0) / 2 ^ 53 := by
    have := mul_le_mul_of_nonneg_left s2 hk'
    rw [mul_add, mul_div_assoc'] at this
    exact this
  have p3 : (k : ℚ) * s0 - (k * s0) / 2 ^ 53 ≤ k * s := by
    have := mul_le_mul_of_nonneg_left s1 hk'
    rw [mul_sub, mul_div_assoc'] at this
    exact this
  have p0 : 0 ≤ (k : ℚ) * s0 := mul_nonneg hk' hs0
  generalize (k : ℚ) * s0 = w at *
  generalize (k : ℚ) * s = ks at *
  rw [abs_le]
  norm_num at z1 z2 y1 y2 p2 p3 ⊢
  constructor <;> linarith

theorem truncRat_of_bounds {q : ℚ} {lo hi : ℤ} (h0 : 0 ≤ lo) (hhi : hi < 2 ^ 63 - 1)
    (h1 : (lo : ℚ) ≤ q) (h2 : q < hi + 1) :
    truncRat q = ⌊q⌋ ∧ lo ≤ ⌊q⌋ ∧ ⌊q⌋ ≤ hi := by
  have h3 : lo ≤ ⌊q⌋ := Int.le_floor.2 h1
  have h4 : ⌊q⌋ < hi + 1 := Int.floor_lt.2 (by exact_mod_cast h2)
  have hq : (0 : ℚ) ≤ q := le_trans (by exact_mod_cast h0) h1
  refine ⟨?_, h3, by omega⟩
  unfold truncRat toI64
  rw [if_pos hq]
  omega

/-- Everything about one generator with in-range params and at least two indexes. -/
theorem gaps_main {rnd : ℚ → ℚ} (R : RoundSpec rnd) (p : Params) (g : IntGaps)
    (h : newIntGaps rnd p = some g) (mn mx : Int) (hmn : int64From p "min" 1 = some mn)
    (hmx : int64From p "max" 100000 = some mx) (h0 : 0 ≤ mn) (hv : mn ≤ mx)
    (hbig : mx ≤ 2 ^ 48) (h2 : 2 ≤ g.inputMax) :
    mn < mx ∧ g.inputMax ≤ mx - mn + 1 ∧
    ∀ k : ℤ, 0 ≤ k → k < g.inputMax →
      ∃ q : ℚ, (∀ r : Nat, (r : Int) % g.inputMax = k → g.values rnd r = .ok [some ⌊q⌋]) ∧
        mn ≤ ⌊q⌋ ∧ ⌊q⌋ ≤ mx ∧ (k = 0 → ⌊q⌋ = mn) ∧
        |q - ((mn : ℚ) + k * (((mx - mn : ℤ) : ℚ) / ((g.inputMax - 1 : ℤ) : ℚ)))|
          ≤ 6 * (mx : ℚ) / 2 ^ 53 ∧
        (g.inputMax = mx - mn + 1 → q = mn + k) := by
  obtain ⟨mn', mx', pct, e1, e2, _, hp1, hp2, hsz, him, hst, hsl⟩ := newIntGaps_spec h
  rw [hmn] at e1; rw [hmx] at e2; cases e1; cases e2
  have hI : IsI64 mn ∧ IsI64 mx := by
    have hi : ∀ k d z, IsI64 d → int64From p k d = some z → IsI64 z := by
      intro k d z hd hz
      unfold int64From at hz
      split at hz
      · cases hz; exact hd
      · exact parseInt64_isI64 hz
    exact ⟨hi _ _ _ (by unfold IsI64; decide) hmn, hi _ _ _ (by unfold IsI64; decide) hmx⟩
  have hd : i64 (mx - mn) = mx - mn := i64_id (by unfold IsI64 at *; omega)
  have hs : i64 (mx - mn + 1) = mx - mn + 1 := i64_id (by unfold IsI64 at *; omega)
  rw [hd, hs] at him
  rw [hd] at hsl
  rw [hd, hs] at hsz
  -- input_max is at most the size
  have hle : g.inputMax ≤ mx - mn + 1 := by
    have r1 : rnd ((mx - mn + 1 : ℤ) : ℚ) = ((mx - mn + 1 : ℤ) : ℚ) :=
      R.int _ (by rw [abs_of_nonneg (by omega)]; omega)
    have r2 : rnd (pct : ℚ) = pct := R.int _ (by rw [abs_of_nonneg (by omega)]; omega)
    rw [r1, r2] at him
    have hszq : (0 : ℚ) ≤ ((mx - mn + 1 : ℤ) : ℚ) := by exact_mod_cast hsz.le
    have hszq2 : ((mx - mn + 1 : ℤ) : ℚ) ≤ 2 ^ 49 := by
      have : mx - mn + 1 ≤ 2 ^ 49 := by omega
      exact_mod_cast this
    have hx : rnd (((mx - mn + 1 : ℤ) : ℚ) * rnd ((pct : ℚ) / 100)) <
        ((mx - mn + 1 : ℤ) : ℚ) + 1 := by
      by_cases h100 : pct = 100
      · have : rnd ((pct : ℚ) / 100) = 1 := by
          rw [h100]
          have := R.int 1 (by norm_num)
          norm_num at this ⊢
          exact this
        rw [this, mul_one, r1]
        linarith
      · have hp : (pct : ℚ) / 100 ≤ 99 / 100 := by
          have : (pct : ℚ) ≤ 99 := by exact_mod_cast (by omega : pct ≤ 99)
          linarith
        have hp0 : (0 : ℚ) ≤ (pct : ℚ) / 100 := by
          have : (0 : ℚ) ≤ pct := by exact_mod_cast (by omega : 0 ≤ pct)
          linarith
        obtain ⟨b1, b2⟩ := R.bounds hp0
        have b0 := R.nonneg hp0
        generalize rnd ((pct : ℚ) / 100) = w at *
        have hw : w ≤ 1 := by
          norm_num at b2 ⊢
          linarith
        have hsw : ((mx - mn + 1 : ℤ) : ℚ) * w ≤ ((mx - mn + 1 : ℤ) : ℚ) :=
          mul_le_of_le_one_right hszq hw
        obtain ⟨_, c2⟩ := R.bounds (mul_nonneg hszq b0)
        generalize ((mx - mn + 1 : ℤ) : ℚ) * w = v at *
        norm_num at c2 hszq2 ⊢
        push_cast at *
        linarith
    generalize rnd (((mx - mn + 1 : ℤ) : ℚ) * rnd ((pct : ℚ) / 100)) = w at him hx
    by_cases hneg : w < 1
    · exfalso
      have : truncRat (w) ≤ 1 := by
        unfold truncRat toI64
        split
        · have := Int.floor_le_floor hneg.le
          simp at this
          omega
        · have := Int.ceil_le_ceil hneg.le
          simp at this
          omega
      omega
    · have := (truncRat_of_bounds (lo := 1) (hi := mx - mn + 1) (by omega) (by omega)
        (by push_cast; linarith) hx)
      rw [him, this.1]
      exact this.2.2
  have hlt : mn < mx := by omega
  refine ⟨hlt, hle, ?_⟩
  intro k hk0 hk
  have hslope := hsl (by omega)
  have rm : rnd ((mx - mn : ℤ) : ℚ) = ((mx - mn : ℤ) : ℚ) :=
    R.int _ (by rw [abs_of_nonneg (by omega)]; omega)
  have rn : rnd ((g.inputMax - 1 : ℤ) : ℚ) = ((g.inputMax - 1 : ℤ) : ℚ) :=
    R.int _ (by rw [abs_of_nonneg (by omega)]; omega)
  have ra : rnd (mn : ℚ) = mn := R.int _ (by rw [abs_of_nonneg (by omega)]; omega)
  have rk : rnd (k : ℚ) = k := R.int _ (by rw [abs_of_nonneg (by omega)]; omega)
  rw [rm, rn] at hslope
  rw [ra] at hst
  have hstep : ∀ r : Nat, (r : Int) % g.inputMax = k → g.values rnd r =
      .ok [some (truncRat (rnd ((mn : ℚ) + rnd ((k : ℚ) *
        rnd (((mx - mn : ℤ) : ℚ) / ((g.inputMax - 1 : ℤ) : ℚ))))))] := by
    intro r hr
    simp only [IntGaps.values, int63n, if_neg (show ¬ g.inputMax ≤ 0 by omega), hr, hslope, hst, rk]
  have herr := gaps_point_err R mn (mx - mn) (g.inputMax - 1) k h0 (by omega) (by omega) hk0
    (by omega)
  have hsum : (mn : ℚ) + ((mx - mn : ℤ) : ℚ) = mx := by push_cast; ring
  rw [hsum] at herr
  have hexact0 : k = 0 → rnd ((mn : ℚ) + rnd ((k : ℚ) *
        rnd (((mx - mn : ℤ) : ℚ) / ((g.inputMax - 1 : ℤ) : ℚ)))) = mn := by
    intro hk
    have r0 : rnd 0 = 0 := by have := R.int 0 (by norm_num); simpa using this
    rw [hk, Int.cast_zero, zero_mul, r0, add_zero, ra]
  have hexact1 : g.inputMax = mx - mn + 1 → rnd ((mn : ℚ) + rnd ((k : ℚ) *
        rnd (((mx - mn : ℤ) : ℚ) / ((g.inputMax - 1 : ℤ) : ℚ)))) = mn + k := by
    intro hfull
    have hne : ((mx - mn : ℤ) : ℚ) ≠ 0 := by
      have : mx - mn ≠ 0 := by omega
      exact_mod_cast this
    have r1 : rnd 1 = 1 := by have := R.int 1 (by norm_num); simpa using this
    rw [hfull, show mx - mn + 1 - 1 = mx - mn by omega, div_self hne, r1, mul_one, rk]
    have := R.int (mn + k) (by rw [abs_of_nonneg (by omega)]; omega)
    push_cast at this
    exact this
  -- the exact point lies in [mn, mx], and at least 1 above mn for k > 0
  have hmxq : (mx : ℚ) ≤ 2 ^ 48 := by exact_mod_cast hbig
  have hn0 : (0 : ℚ) < ((g.inputMax - 1 : ℤ) : ℚ) := by
    exact_mod_cast (by omega : 0 < g.inputMax - 1)
  have hsl1 : (1 : ℚ) ≤ ((mx - mn : ℤ) : ℚ) / ((g.inputMax - 1 : ℤ) : ℚ) := by
    rw [le_div_iff₀ hn0, one_mul]
    exact_mod_cast (by omega : g.inputMax - 1 ≤ mx - mn)
  have hup : (k : ℚ) * (((mx - mn : ℤ) : ℚ) / ((g.inputMax - 1 : ℤ) : ℚ)) ≤ ((mx - mn : ℤ) : ℚ) := by
    rw [mul_div_assoc', div_le_iff₀ hn0, mul_comm]
    apply mul_le_mul_of_nonneg_left
    · exact_mod_cast (by omega : k ≤ g.inputMax - 1)
    · exact_mod_cast (by omega : 0 ≤ mx - mn)
  have hdn : (k : ℚ) ≤ (k : ℚ) * (((mx - mn : ℤ) : ℚ) / ((g.inputMax - 1 : ℤ) : ℚ)) :=
    le_mul_of_one_le_right (by exact_mod_cast hk0) hsl1
  generalize hq : rnd ((mn : ℚ) + rnd ((k : ℚ) *
        rnd (((mx - mn : ℤ) : ℚ) / ((g.inputMax - 1 : ℤ) : ℚ)))) = q at *
  generalize hpt : (k : ℚ) * (((mx - mn : ℤ) : ℚ) / ((g.inputMax - 1 : ℤ) : ℚ)) = pt at *
  have hlow : (mn : ℚ) ≤ q := by
    by_cases hz : k = 0
    · rw [hexact0 hz]
    · have hk1 : (1 : ℚ) ≤ k := by exact_mod_cast (by omega : 1 ≤ k)
      rw [abs_le] at herr
      norm_num at herr hmxq
      linarith [herr.1]
  have hhigh : q < mx + 1 := by
    rw [abs_le] at herr
    norm_num at herr hmxq hup
    linarith [herr.2]
  obtain ⟨t1, t2, t3⟩ := truncRat_of_bounds (lo := mn) (hi := mx) h0 (by omega) hlow hhigh
  refine ⟨q, ?_, t2, t3, ?_, herr, hexact1⟩
  · intro r hr
    rw [hstep r hr, t1]
  · intro hz
    rw [hexact0 hz]; simp

/-- The value returned for index `k`, for a generator whose calls return one int. -/
def GapsValue (rnd : ℚ → ℚ) (g : IntGaps) (k : ℤ) (v : ℤ) : Prop :=
  ∀ r : Nat, (r : Int) % g.inputMax = k → g.values rnd r = .ok [some v]

/-- **C11 (partial).** With Go's float64 arithmetic: for every configuration 0 <= min <= max <=
2^48 whose number of indexes (input_max) is at least 2, every draw returns a value in [min, max],
and min itself is returned for index 0.
Missing: input_max 0 (panics) and 1 (NaN), see `C11_small_range_panics`, `C11_single_index_is_nan`;
max is not always reachable, see `C11_max_not_reached`. -/
theorem C11_int_gaps_in_range_partial (p : Params) (g : IntGaps)
    (h : newIntGaps f64 p = some g) (mn mx : Int) (hmn : int64From p "min" 1 = some mn)
    (hmx : int64From p "max" 100000 = some mx) (h0 : 0 ≤ mn) (hv : mn ≤ mx)
    (hbig : mx ≤ 2 ^ 48) (h2 : 2 ≤ g.inputMax) :
    (∀ r, ∃ v, g.values f64 r = .ok [some v] ∧ mn ≤ v ∧ v ≤ mx) ∧
    (∃ r, g.values f64 r = .ok [some mn]) := by
  obtain ⟨_, _, hk⟩ := gaps_main f64_spec p g h mn mx hmn hmx h0 hv hbig h2
  refine ⟨?_, ?_⟩
  · intro r
    obtain ⟨q, h1, h3, h4, _⟩ := hk ((r : Int) % g.inputMax)
      (Int.emod_nonneg _ (by omega)) (Int.emod_lt_of_pos _ (by omega))
    exact ⟨_, h1 r rfl, h3, h4⟩
  · obtain ⟨q, h1, _, _, h5, _⟩ := hk 0 (le_refl _) (by omega)
    exact ⟨0, by rw [h1 0 (by simp), h5 rfl]⟩

/-- **C11 (partial).** With float64 arithmetic and max * input_max <= 2^49, different indexes give
different values, in increasing order; so the generator returns exactly input_max different values.
input_max is the float64 value of size*p/100, truncated; `C11_fewer_values_than_percentage` shows
that it can be one less than the exact floor(size*p/100). -/
theorem C11_int_gaps_strictly_increasing_partial (p : Params) (g : IntGaps)
    (h : newIntGaps f64 p = some g) (mn mx : Int) (hmn : int64From p "min" 1 = some mn)
    (hmx : int64From p "max" 100000 = some mx) (h0 : 0 ≤ mn) (hv : mn ≤ mx)
    (hbig : mx ≤ 2 ^ 48) (h2 : 2 ≤ g.inputMax) (hprod : mx * g.inputMax ≤ 2 ^ 49) :
    ∃ val : ℤ → ℤ, (∀ k, 0 ≤ k → k < g.inputMax → GapsValue f64 g k (val k)) ∧
      ∀ j k, 0 ≤ j → j < k → k < g.inputMax → val j < val k := by
  obtain ⟨hlt, hle, hk⟩ := gaps_main f64_spec p g h mn mx hmn hmx h0 hv hbig h2
  choose! q h1 h3 h4 h5 herr hfull using hk
  refine ⟨fun k => ⌊q k⌋, fun k a b => h1 k a b, ?_⟩
  -- neighbours differ by at least one
  have step : ∀ k, 0 ≤ k → k + 1 < g.inputMax → ⌊q k⌋ < ⌊q (k + 1)⌋ := by
    intro k hk0 hk1
    have hge : q k + 1 ≤ q (k + 1) := by
      by_cases hf : g.inputMax = mx - mn + 1
      · rw [hfull k hk0 (by omega) hf, hfull (k + 1) (by omega) hk1 hf]
        push_cast; linarith
      · have e1 := herr k hk0 (by omega)
        have e2 := herr (k + 1) (by omega) hk1
        rw [abs_le] at e1 e2
        have hn0 : (0 : ℚ) < ((g.inputMax - 1 : ℤ) : ℚ) := by
          exact_mod_cast (by omega : 0 < g.inputMax - 1)
        have hsl : 1 + 1 / ((g.inputMax - 1 : ℤ) : ℚ) ≤
            ((mx - mn : ℤ) : ℚ) / ((g.inputMax - 1 : ℤ) : ℚ) := by
          rw [le_div_iff₀ hn0, add_mul, one_mul, div_mul_cancel₀ _ (ne_of_gt hn0)]
          exact_mod_cast (by omega : g.inputMax - 1 + 1 ≤ mx - mn)
        have hpq : (mx : ℚ) * ((g.inputMax - 1 : ℤ) : ℚ) ≤ 2 ^ 49 := by
          have h6 : mx * (g.inputMax - 1) ≤ 2 ^ 49 := by
            rw [Int.mul_sub, Int.mul_one]; omega
          exact_mod_cast h6
        have hm : (mx : ℚ) ≤ 2 ^ 49 * (1 / ((g.inputMax - 1 : ℤ) : ℚ)) := by
          rw [mul_one_div, le_div_iff₀ hn0]; exact hpq
        have hpos : 0 < 1 / ((g.inputMax - 1 : ℤ) : ℚ) := by positivity
        have hexp : (((k + 1 : ℤ)) : ℚ) * (((mx - mn : ℤ) : ℚ) / ((g.inputMax - 1 : ℤ) : ℚ)) =
            (k : ℚ) * (((mx - mn : ℤ) : ℚ) / ((g.inputMax - 1 : ℤ) : ℚ)) +
              ((mx - mn : ℤ) : ℚ) / ((g.inputMax - 1 : ℤ) : ℚ) := by push_cast; ring
        rw [hexp] at e2
        generalize ((mx - mn : ℤ) : ℚ) / ((g.inputMax - 1 : ℤ) : ℚ) = sl at *
        generalize 1 / ((g.inputMax - 1 : ℤ) : ℚ) = iv at *
        generalize (k : ℚ) * sl = ks at *
        norm_num at e1 e2 hm
        linarith [e1.2, e2.1]
    have := Int.floor_le (q k)
    have h7 : ⌊q k⌋ + 1 ≤ ⌊q (k + 1)⌋ := by
      apply Int.le_floor.2
      push_cast
      linarith
    omega
  intro j k hj hjk hk
  obtain ⟨d, rfl⟩ : ∃ d : Nat, k = j + 1 + d := ⟨(k - j - 1).toNat, by omega⟩
  clear hjk
  induction d with
  | zero => simpa using step j hj (by simpa using hk)
  | succ d ih =>
    have h8 := ih (by push_cast at hk; omega)
    have h9 := step (j + 1 + d) (by omega) (by push_cast at hk; omega)
    simp only at h8 h9 ⊢
    push_cast
    rw [← add_assoc]
    omega

/-- **C11 (partial, exact arithmetic).** Without rounding the claim holds in full: input_max is
exactly floor(size*p/100) and the last index returns max. This shows that the two deviations below
come from float rounding alone. -/
theorem C11_exact_arithmetic_partial (p : Params) (g : IntGaps)
    (h : newIntGaps (fun x => x) p = some g) (mn mx pct : Int)
    (hmn : int64From p "min" 1 = some mn) (hmx : int64From p "max" 100000 = some mx)
    (hp : int64From p "p" 20 = some pct) (h0 : 0 ≤ mn) (hv : mn ≤ mx) (hbig : mx ≤ 2 ^ 48)
    (h2 : 2 ≤ g.inputMax) :
    g.inputMax = (mx - mn + 1) * pct / 100 ∧
    GapsValue (fun x => x) g (g.inputMax - 1) mx ∧
    ∀ k, 0 ≤ k → k < g.inputMax →
      GapsValue (fun x => x) g k (mn + k * (mx - mn) / (g.inputMax - 1)) := by
  obtain ⟨hlt, hle, hk⟩ := gaps_main exact_spec p g h mn mx hmn hmx h0 hv hbig h2
  have hall : ∀ k, 0 ≤ k → k < g.inputMax →
      GapsValue (fun x => x) g k (mn + k * (mx - mn) / (g.inputMax - 1)) := by
    intro k hk0 hk1
    have hsl := (newIntGaps_spec h)
    obtain ⟨mn', mx', pct', e1, e2, _, hp1, hp2, hsz, him, hst, hsl⟩ := hsl
    rw [hmn] at e1; rw [hmx] at e2; cases e1; cases e2
    have hI : IsI64 (mx - mn) := by unfold IsI64; omega
    have hs := hsl (by omega)
    rw [i64_id hI] at hs
    intro r hr
    have hpt : (mn : ℚ) + (k : ℚ) * (((mx - mn : ℤ) : ℚ) / ((g.inputMax - 1 : ℤ) : ℚ)) =
        ((mn : ℤ) : ℚ) + ((k * (mx - mn) : ℤ) : ℚ) / ((g.inputMax - 1 : ℤ) : ℚ) := by
      push_cast; ring
    have hfl : ⌊((k * (mx - mn) : ℤ) : ℚ) / ((g.inputMax - 1 : ℤ) : ℚ)⌋ =
        k * (mx - mn) / (g.inputMax - 1) := by
      have hn : (((g.inputMax - 1).toNat : Nat) : ℤ) = g.inputMax - 1 :=
        Int.toNat_of_nonneg (by omega)
      rw [← hn]
      have := Rat.floor_intCast_div_natCast (k * (mx - mn)) (g.inputMax - 1).toNat
      exact_mod_cast this
    have hb1 : 0 ≤ k * (mx - mn) / (g.inputMax - 1) :=
      Int.ediv_nonneg (Int.mul_nonneg hk0 (by omega)) (by omega)
    have hb2 : k * (mx - mn) / (g.inputMax - 1) ≤ mx - mn := by
      apply Int.ediv_le_of_le_mul (by omega)
      rw [Int.mul_comm]
      exact Int.mul_le_mul_of_nonneg_left (by omega) (by omega)
    simp only [IntGaps.values, int63n, if_neg (show ¬ g.inputMax ≤ 0 by omega), hr, hs, hst]
    rw [hpt]
    have hnn : (0 : ℚ) ≤ ((mn : ℤ) : ℚ) + ((k * (mx - mn) : ℤ) : ℚ) / ((g.inputMax - 1 : ℤ) : ℚ) := by
      apply add_nonneg
      · exact_mod_cast h0
      · apply div_nonneg
        · exact_mod_cast Int.mul_nonneg hk0 (by omega)
        · exact_mod_cast (by omega : 0 ≤ g.inputMax - 1)
    unfold truncRat toI64
    rw [if_pos hnn, Int.floor_intCast_add, hfl]
    congr 3
    omega
  refine ⟨?_, ?_, hall⟩
  · obtain ⟨mn', mx', pct', e1, e2, e3, hp1, hp2, hsz, him, hst, hsl⟩ := newIntGaps_spec h
    rw [hmn] at e1; rw [hmx] at e2; rw [hp] at e3; cases e1; cases e2; cases e3
    rw [i64_id (show IsI64 (mx - mn) by unfold IsI64; omega),
      i64_id (show IsI64 (mx - mn + 1) by unfold IsI64; omega)] at him
    have hx : ((mx - mn + 1 : ℤ) : ℚ) * ((pct : ℚ) / 100) =
        (((mx - mn + 1) * pct : ℤ) : ℚ) / ((100 : Nat) : ℚ) := by push_cast; ring
    rw [him, hx]
    have h3 : 0 ≤ (mx - mn + 1) * pct := Int.mul_nonneg (by omega) (by omega)
    have h4 : (mx - mn + 1) * pct ≤ (mx - mn + 1) * 100 :=
      Int.mul_le_mul_of_nonneg_left hp2 (by omega)
    have hnn : (0 : ℚ) ≤ (((mx - mn + 1) * pct : ℤ) : ℚ) / ((100 : Nat) : ℚ) := by
      apply div_nonneg
      · exact_mod_cast h3
      · norm_num
    unfold truncRat toI64
    rw [if_pos hnn, Rat.floor_intCast_div_natCast]
    push_cast
    omega
  · have := hall (g.inputMax - 1) (by omega) (by omega)
    rw [Int.mul_comm, Int.mul_ediv_cancel _ (by omega)] at this
    rw [show mn + (mx - mn) = mx by omega] at this
    exact this

theorem newIntGaps_of {rnd : ℚ → ℚ} {p : Params} {mn mx pct : ℤ}
    (h1 : int64From p "min" 1 = some mn) (h2 : int64From p "max" 100000 = some mx)
    (h3 : int64From p "p" 20 = some pct) (h4 : 0 < i64 (i64 (mx - mn) + 1)) (h5 : 1 ≤ pct)
    (h6 : pct ≤ 100) : ∃ g, newIntGaps rnd p = some g := by
  unfold newIntGaps
  simp only [h1, h2, h3, Option.bind_eq_bind, Option.bind_some, if_neg (not_le.2 h4),
    if_neg (show ¬ (pct < 1 ∨ pct > 100) by omega), Option.pure_def]
  exact ⟨_, rfl⟩

/-- The float computation of input_max is within relative error 3*2^-53 of size*p/100. -/
theorem inputMax_bounds {p : Params} {g : IntGaps} (h : newIntGaps f64 p = some g)
    {mn mx pct : ℤ} (hmn : int64From p "min" 1 = some mn)
    (hmx : int64From p "max" 100000 = some mx) (hp : int64From p "p" 20 = some pct)
    (h0 : 0 ≤ mn) (hv : mn ≤ mx) (hbig : mx ≤ 2 ^ 48) :
    ∃ q : ℚ, g.inputMax = truncRat q ∧ 0 ≤ q ∧
      |q - (((mx - mn + 1) * pct : ℤ) : ℚ) / 100| ≤
        3 * ((((mx - mn + 1) * pct : ℤ) : ℚ) / 100) / 2 ^ 53 := by
  obtain ⟨mn', mx', pct', e1, e2, e3, hp1, hp2, hsz, him, _, _⟩ := newIntGaps_spec h
  rw [hmn] at e1; rw [hmx] at e2; rw [hp] at e3; cases e1; cases e2; cases e3
  rw [i64_id (show IsI64 (mx - mn) by unfold IsI64; omega),
    i64_id (show IsI64 (mx - mn + 1) by unfold IsI64; omega)] at him
  have R := f64_spec
  have r1 : f64 ((mx - mn + 1 : ℤ) : ℚ) = ((mx - mn + 1 : ℤ) : ℚ) :=
    R.int _ (by rw [abs_of_nonneg (by omega)]; omega)
  have r2 : f64 (pct : ℚ) = pct := R.int _ (by rw [abs_of_nonneg (by omega)]; omega)
  rw [r1, r2] at him
  have hszq : (0 : ℚ) ≤ ((mx - mn + 1 : ℤ) : ℚ) := by
    exact_mod_cast (by omega : 0 ≤ mx - mn + 1)
  have hp0 : (0 : ℚ) ≤ (pct : ℚ) / 100 := by
    have : (0 : ℚ) ≤ pct := by exact_mod_cast (by omega : 0 ≤ pct)
    linarith
  obtain ⟨b1, b2⟩ := R.bounds hp0
  have b0 := R.nonneg hp0
  have hx : (((mx - mn + 1) * pct : ℤ) : ℚ) / 100 =
      ((mx - mn + 1 : ℤ) : ℚ) * ((pct : ℚ) / 100) := by push_cast; ring
  rw [hx]
  generalize ((mx - mn + 1 : ℤ) : ℚ) = sz at *
  generalize (pct : ℚ) / 100 = w0 at *
  generalize f64 w0 = w at *
  obtain ⟨c1, c2⟩ := R.bounds (mul_nonneg hszq b0)
  refine ⟨f64 (sz * w), him, R.nonneg (mul_nonneg hszq b0), ?_⟩
  have m1 := mul_le_mul_of_nonneg_left b1 hszq
  have m2 := mul_le_mul_of_nonneg_left b2 hszq
  rw [mul_sub, mul_div_assoc'] at m1
  rw [mul_add, mul_div_assoc'] at m2
  have m0 : 0 ≤ sz * w0 := mul_nonneg hszq hp0
  generalize sz * w0 = t0 at *
  generalize sz * w = t at *
  rw [abs_le]
  norm_num at c1 c2 m1 m2 ⊢
  constructor <;> linarith

/-- **C11 (negation).** Whenever p percent of the range is less than one value (size*p < 100), the
configuration is accepted but every call panics. -/
theorem C11_small_range_panics (p : Params) (mn mx pct : ℤ)
    (hmn : int64From p "min" 1 = some mn) (hmx : int64From p "max" 100000 = some mx)
    (hp : int64From p "p" 20 = some pct) (hp1 : 1 ≤ pct) (hp2 : pct ≤ 100) (h0 : 0 ≤ mn)
    (hv : mn ≤ mx) (hbig : mx ≤ 2 ^ 48) (hsmall : (mx - mn + 1) * pct < 100) :
    ∃ g, newIntGaps f64 p = some g ∧ ∀ r, g.values f64 r = .panic := by
  obtain ⟨g, hg⟩ := newIntGaps_of (rnd := f64) hmn hmx hp (by
    rw [i64_id (show IsI64 (mx - mn) by unfold IsI64; omega),
      i64_id (show IsI64 (mx - mn + 1) by unfold IsI64; omega)]; omega) hp1 hp2
  refine ⟨g, hg, ?_⟩
  obtain ⟨q, hq, hq0, herr⟩ := inputMax_bounds hg hmn hmx hp h0 hv hbig
  have hs : (((mx - mn + 1) * pct : ℤ) : ℚ) ≤ 99 := by
    exact_mod_cast (by omega : (mx - mn + 1) * pct ≤ 99)
  have hs0 : (0 : ℚ) ≤ (((mx - mn + 1) * pct : ℤ) : ℚ) := by
    exact_mod_cast Int.mul_nonneg (by omega) (by omega)
  have h1 : q < ((0 : ℤ) : ℚ) + 1 := by
    generalize (((mx - mn + 1) * pct : ℤ) : ℚ) = t at *
    rw [abs_le] at herr
    norm_num at herr ⊢
    linarith [herr.2]
  have h2 := truncRat_of_bounds (lo := 0) (hi := 0) (le_refl _) (by norm_num)
    (by simpa using hq0) h1
  have h3 : g.inputMax ≤ 0 := by rw [hq, h2.1]; exact h2.2.2
  intro r
  simp [IntGaps.values, int63n, h3]

example : int64From (mkParams [("max", "4")]) "max" 100000 = some 4 ∧
    int64From (mkParams [("max", "4")]) "p" 20 = some 20 := by decide

/-- **C11 (negation).** If size*p/100 is between 1.01 and 1.99, there is a single index, the slope
is a division by zero, and every call converts NaN to an integer. -/
theorem C11_single_index_is_nan (p : Params) (mn mx pct : ℤ)
    (hmn : int64From p "min" 1 = some mn) (hmx : int64From p "max" 100000 = some mx)
    (hp : int64From p "p" 20 = some pct) (hp1 : 1 ≤ pct) (hp2 : pct ≤ 100) (h0 : 0 ≤ mn)
    (hv : mn ≤ mx) (hbig : mx ≤ 2 ^ 48) (hs1 : 100 < (mx - mn + 1) * pct)
    (hs2 : (mx - mn + 1) * pct < 200) :
    ∃ g, newIntGaps f64 p = some g ∧ ∀ r, g.values f64 r = .ok [none] := by
  have hsz : 0 < i64 (i64 (mx - mn) + 1) := by
    rw [i64_id (show IsI64 (mx - mn) by unfold IsI64; omega),
      i64_id (show IsI64 (mx - mn + 1) by unfold IsI64; omega)]; omega
  obtain ⟨g, hg⟩ := newIntGaps_of (rnd := f64) hmn hmx hp hsz hp1 hp2
  refine ⟨g, hg, ?_⟩
  obtain ⟨q, hq, hq0, herr⟩ := inputMax_bounds hg hmn hmx hp h0 hv hbig
  have hsl : g.inputMax = 1 → g.slope = none := by
    intro h1
    unfold newIntGaps at hg
    simp only [hmn, hmx, hp, Option.bind_eq_bind, Option.bind_some, if_neg (not_le.2 hsz),
      if_neg (show ¬ (pct < 1 ∨ pct > 100) by omega), Option.pure_def, Option.some.injEq] at hg
    subst hg
    simp only at h1 ⊢
    rw [if_pos h1]
  have hsa : (((mx - mn + 1) * pct : ℤ) : ℚ) ≤ 199 := by
    exact_mod_cast (by omega : (mx - mn + 1) * pct ≤ 199)
  have hsb : (101 : ℚ) ≤ (((mx - mn + 1) * pct : ℤ) : ℚ) := by
    exact_mod_cast (by omega : 101 ≤ (mx - mn + 1) * pct)
  generalize (((mx - mn + 1) * pct : ℤ) : ℚ) = t at *
  have h1 : q < ((1 : ℤ) : ℚ) + 1 := by
    rw [abs_le] at herr
    norm_num at herr ⊢
    linarith [herr.2]
  have h1' : ((1 : ℤ) : ℚ) ≤ q := by
    rw [abs_le] at herr
    norm_num at herr ⊢
    linarith [herr.1]
  have h2 := truncRat_of_bounds (lo := 1) (hi := 1) (by norm_num) (by norm_num) h1' h1
  have h3 : g.inputMax = 1 := by rw [hq, h2.1]; omega
  intro r
  simp [IntGaps.values, int63n, h3, hsl h3]

example : int64From (mkParams [("max", "9")]) "max" 100000 = some 9 ∧
    (100 : ℤ) < (9 - 1 + 1) * 20 ∧ ((9 : ℤ) - 1 + 1) * 20 < 200 := by decide

theorem f64_eval {x : ℚ} (l z : ℤ) (h1 : (2 : ℚ) ^ l ≤ x) (h2 : x < 2 ^ (l + 1))
    (h3 : |x / 2 ^ (l - 52) - z| < 1 / 2) : f64 x = z * 2 ^ (l - 52) := by
  rw [f64_eq_of_exp h1 h2]
  have h4 := roundEven_err (x / 2 ^ (l - 52))
  generalize x / 2 ^ (l - 52) = q at *
  have : roundEven q = z := by
    rw [abs_lt] at h3
    rw [abs_le] at h4
    have a : ((roundEven q : ℤ) : ℚ) < z + 1 := by linarith [h3.1, h3.2, h4.1, h4.2]
    have b : ((z : ℤ) : ℚ) < roundEven q + 1 := by linarith [h3.1, h3.2, h4.1, h4.2]
    have a' : roundEven q < z + 1 := by exact_mod_cast a
    have b' : z < roundEven q + 1 := by exact_mod_cast b
    omega
  rw [this]

/-- **C11 (negation).** 29 percent of [1, 100] is 29 values, but float64 rounding makes it 28. -/
theorem C11_fewer_values_than_percentage :
    ∃ g, newIntGaps f64 (mkParams [("max", "100"), ("p", "29")]) = some g ∧ g.inputMax = 28 := by
  have e1 : int64From (mkParams [("max", "100"), ("p", "29")]) "min" 1 = some 1 := by decide
  have e2 : int64From (mkParams [("max", "100"), ("p", "29")]) "max" 100000 = some 100 := by decide
  have e3 : int64From (mkParams [("max", "100"), ("p", "29")]) "p" 20 = some 29 := by decide
  obtain ⟨g, hg⟩ := newIntGaps_of (rnd := f64) e1 e2 e3 (by decide) (by decide) (by decide)
  refine ⟨g, hg, ?_⟩
  obtain ⟨mn, mx, pct, a1, a2, a3, _, _, _, him, _, _⟩ := newIntGaps_spec hg
  rw [e1] at a1; rw [e2] at a2; rw [e3] at a3; cases a1; cases a2; cases a3
  have i1 : i64 (i64 (100 - 1) + 1) = 100 := by decide
  have r1 : f64 ((100 : ℤ) : ℚ) = 100 := by
    have := f64_int 100 (by norm_num); simpa using this
  have r2 : f64 ((29 : ℤ) : ℚ) = 29 := by
    have := f64_int 29 (by norm_num); simpa using this
  have r3 : f64 (29 / 100) = 5224175567749775 / 2 ^ 54 := by
    rw [f64_eval (-2) 5224175567749775 (by norm_num) (by norm_num)
      (by rw [abs_lt]; constructor <;> norm_num)]
    norm_num
  have r4 : f64 (100 * (5224175567749775 / 2 ^ 54)) = 8162774324609023 / 2 ^ 48 := by
    rw [f64_eval 4 8162774324609023 (by norm_num) (by norm_num)
      (by rw [abs_lt]; constructor <;> norm_num)]
    norm_num
  rw [i1, r1, r2, r3, r4] at him
  have := truncRat_of_bounds (q := 8162774324609023 / 2 ^ 48) (lo := 28) (hi := 28) (by norm_num)
    (by norm_num) (by norm_num) (by norm_num)
  rw [him, this.1]
  omega

/-- **C11 (negation).** For [1, 100] and p=50 the value 100 is never returned: the last index
gives 99.99999999999999, truncated to 99. -/
theorem C11_max_not_reached :
    ∃ g, newIntGaps f64 (mkParams [("max", "100"), ("p", "50")]) = some g ∧ g.inputMax = 50 ∧
      ∀ r, g.values f64 r ≠ .ok [some 100] := by
  have e1 : int64From (mkParams [("max", "100"), ("p", "50")]) "min" 1 = some 1 := by decide
  have e2 : int64From (mkParams [("max", "100"), ("p", "50")]) "max" 100000 = some 100 := by decide
  have e3 : int64From (mkParams [("max", "100"), ("p", "50")]) "p" 20 = some 50 := by decide
  obtain ⟨g, hg⟩ := newIntGaps_of (rnd := f64) e1 e2 e3 (by decide) (by decide) (by decide)
  obtain ⟨mn, mx, pct, a1, a2, a3, _, _, _, him, hst, hsl⟩ := newIntGaps_spec hg
  rw [e1] at a1; rw [e2] at a2; rw [e3] at a3; cases a1; cases a2; cases a3
  have i1 : i64 (i64 (100 - 1) + 1) = 100 := by decide
  have i2 : i64 (100 - 1) = 99 := by decide
  have fint : ∀ z : ℤ, |z| ≤ 2 ^ 53 → f64 (z : ℚ) = z := f64_int
  have r1 : f64 ((100 : ℤ) : ℚ) = 100 := by simpa using fint 100 (by norm_num)
  have r2 : f64 ((50 : ℤ) : ℚ) = 50 := by simpa using fint 50 (by norm_num)
  have r3 : f64 (50 / 100) = 1 / 2 := by
    rw [f64_eval (-1) 4503599627370496 (by norm_num) (by norm_num)
      (by rw [abs_lt]; constructor <;> norm_num)]
    norm_num
  have r4 : f64 (100 * (1 / 2)) = 50 := by
    have := fint 50 (by norm_num); norm_num at this ⊢; exact this
  rw [i1, r1, r2, r3, r4] at him
  have him' : g.inputMax = 50 := by
    rw [him]
    have := truncRat_of_bounds (q := 50) (lo := 50) (hi := 50) (by norm_num) (by norm_num)
      (by norm_num) (by norm_num)
    rw [this.1]; omega
  refine ⟨g, hg, him', ?_⟩
  have hs := hsl (by rw [him']; decide)
  rw [i2, him'] at hs
  have r5 : f64 ((99 : ℤ) : ℚ) = 99 := by simpa using fint 99 (by norm_num)
  have r6 : f64 ((50 - 1 : ℤ) : ℚ) = 49 := by
    have := fint 49 (by norm_num); norm_num at this ⊢; exact this
  have r7 : f64 (99 / 49) = 4549554725608970 / 2 ^ 51 := by
    rw [f64_eval 1 4549554725608970 (by norm_num) (by norm_num)
      (by rw [abs_lt]; constructor <;> norm_num)]
    norm_num
  rw [r5, r6, r7] at hs
  -- the value at the last index
  have hlast : GapsValue f64 g 49 99 := by
    intro r hr
    have s0 : f64 ((1 : ℤ) : ℚ) = 1 := by simpa using fint 1 (by norm_num)
    have s1 : f64 ((49 : ℤ) : ℚ) = 49 := by simpa using fint 49 (by norm_num)
    have s2 : f64 (49 * (4549554725608970 / 2 ^ 51)) = 6966505673588735 / 2 ^ 46 := by
      rw [f64_eval 6 6966505673588735 (by norm_num) (by norm_num)
        (by rw [abs_lt]; constructor <;> norm_num)]
      norm_num
    have s3 : f64 (1 + 6966505673588735 / 2 ^ 46) = 7036874417766399 / 2 ^ 46 := by
      rw [f64_eval 6 7036874417766399 (by norm_num) (by norm_num)
        (by rw [abs_lt]; constructor <;> norm_num)]
      norm_num
    rw [him'] at hr
    simp only [IntGaps.values, int63n, him', if_neg (show ¬ (50 : ℤ) ≤ 0 by omega), hr, hs, hst,
      s0, s1, s2, s3]
    have := truncRat_of_bounds (q := 7036874417766399 / 2 ^ 46) (lo := 99) (hi := 99) (by norm_num)
      (by norm_num) (by norm_num) (by norm_num)
    rw [this.1]
    have : ⌊(7036874417766399 / 2 ^ 46 : ℚ)⌋ = 99 := by omega
    rw [this]
  obtain ⟨val, hval, hmono⟩ := C11_int_gaps_strictly_increasing_partial _ g hg 1 100 e1 e2
    (by decide) (by decide) (by decide) (by omega) (by rw [him']; decide)
  have hv49 : val 49 = 99 := by
    have a := hval 49 (by decide) (by omega) 49 (by rw [him']; decide)
    rw [hlast 49 (by rw [him']; decide)] at a
    simp only [Res.ok.injEq, List.cons.injEq, Option.some.injEq, and_true] at a
    exact a.symm
  intro r hc
  have hk0 := Int.emod_nonneg (r : ℤ) (show g.inputMax ≠ 0 by omega)
  have hk1 := Int.emod_lt_of_pos (r : ℤ) (show 0 < g.inputMax by omega)
  have hv := hval _ hk0 hk1 r rfl
  rw [hv] at hc
  simp only [Res.ok.injEq, List.cons.injEq, Option.some.injEq, and_true] at hc
  by_cases hl : (r : ℤ) % g.inputMax = 49
  · rw [hl] at hc; omega
  · have := hmono _ 49 hk0 (by omega) (by omega)
    omega

/-- Non-vacuity of the positive theorems: the configuration of `C11_max_not_reached` has 50
indexes and satisfies all hypotheses. -/
example : ∃ g, newIntGaps f64 (mkParams [("max", "100"), ("p", "50")]) = some g ∧
    2 ≤ g.inputMax ∧ (100 : ℤ) * g.inputMax ≤ 2 ^ 49 := by
  obtain ⟨g, hg, h50, _⟩ := C11_max_not_reached
  exact ⟨g, hg, by omega, by omega⟩

end Finch
