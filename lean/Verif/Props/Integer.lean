import Verif.Model.Integer
import Mathlib.Data.Nat.ModEq
import Mathlib.Data.List.Nodup
import Mathlib.Data.Int.ModEq
import Mathlib.Tactic.Linarith
import Mathlib.Tactic.NormNum
/-!
# C09, C10, C12, C13, C14, C66: integer generators
-/
namespace Finch

/-! ### C09, C66: uniform int -/

/-- A param list from literals. -/
def mkParams (l : List (String × String)) : Params := l.map (fun x => (x.1.toList, x.2.toList))

/-- No float params are needed in the examples. -/
def noFloat : List Char → Option (Option ℚ) := fun _ => none

theorem newInt_fields {rnd : ℚ → ℚ} {pf : List Char → Option (Option ℚ)} {p : Params} {g : IntGen}
    (h : newInt rnd pf p = some g) :
    int64From p "min" 1 = some g.min ∧ int64From p "max" 100000 = some g.max := by
  unfold newInt at h
  simp only [Option.bind_eq_bind, Option.bind_eq_some_iff] at h
  obtain ⟨mn, h1, mx, h2, h⟩ := h
  split at h
  · simp only [Option.bind_eq_some_iff] at h
    obtain ⟨m, _, h⟩ := h
    split at h
    · simp only [Option.bind_eq_some_iff] at h
      obtain ⟨sd, _, h⟩ := h; cases h; exact ⟨h1, h2⟩
    · cases h; exact ⟨h1, h2⟩
  · cases h; exact ⟨h1, h2⟩

/-- **C09 (partial).** A uniform int generator made from params `min` = mn and `max` = mx with
mn <= mx and mx > 0 returns one value in [mn, mx] for every random draw and does not panic.
Missing: configurations with max <= 0, which are accepted and panic
(`C09_uniform_max_not_positive_panics`). -/
theorem C09_uniform_in_range_partial (rnd : ℚ → ℚ) (pf : List Char → Option (Option ℚ)) (u : Int)
    (p : Params) (g : IntGen)
    (h : newInt rnd pf p = some g) (hu : g.normal = none) (mn mx : Int)
    (hmn : int64From p "min" 1 = some mn) (hmx : int64From p "max" 100000 = some mx)
    (hle : mn ≤ mx) (hpos : 0 < mx) (d : IntDraw) :
    ∃ v, g.values rnd u d = .ok [v] ∧ mn ≤ v ∧ v ≤ mx := by
  obtain ⟨h1, h2⟩ := newInt_fields h
  rw [hmn] at h1; rw [hmx] at h2
  cases h1; cases h2
  simp only [IntGen.values, hu, int63n, if_neg (not_le.2 hpos)]
  have a := Int.emod_nonneg (d.r : Int) (ne_of_gt hpos)
  have b := Int.emod_lt_of_pos (d.r : Int) hpos
  refine ⟨_, rfl, ?_, ?_⟩ <;> split <;> omega

/-- **C09 (negation).** An accepted uniform configuration with max <= 0 panics on every call. -/
theorem C09_uniform_max_not_positive_panics (rnd : ℚ → ℚ) (pf : List Char → Option (Option ℚ)) (u : Int)
    (p : Params) (g : IntGen)
    (h : newInt rnd pf p = some g) (hu : g.normal = none) (mx : Int)
    (hmx : int64From p "max" 100000 = some mx) (hneg : mx ≤ 0) (d : IntDraw) :
    g.values rnd u d = .panic := by
  obtain ⟨_, h2⟩ := newInt_fields h
  rw [hmx] at h2; cases h2
  simp [IntGen.values, hu, int63n, hneg]

/-- The configuration min=0, max=0 (valid by the documentation: min >= 0) is accepted. -/
theorem C09_zero_range_is_accepted :
    ∃ g, newInt f64 noFloat (mkParams [("min", "0"), ("max", "0")]) = some g ∧ g.normal = none ∧
      g.min = 0 ∧ g.max = 0 :=
  ⟨⟨0, 0, none⟩, by rfl, rfl, rfl, rfl⟩

example : ∃ g, newInt f64 noFloat (mkParams [("min", "5"), ("max", "1000")]) = some g ∧
    g.normal = none ∧ g.min = 5 ∧ g.max = 1000 :=
  ⟨⟨5, 1000, none⟩, by rfl, rfl, rfl, rfl⟩

/-- **C66 (negation).** The uniform int generator never returns `max`, unless min = max. -/
theorem C66_uniform_never_returns_max (rnd : ℚ → ℚ) (u : Int) (g : IntGen) (hu : g.normal = none) (hlt : g.min < g.max)
    (d : IntDraw) : g.values rnd u d ≠ .ok [g.max] := by
  simp only [IntGen.values, hu, int63n]
  by_cases hpos : g.max ≤ 0
  · simp [hpos]
  · have b := Int.emod_lt_of_pos (d.r : Int) (not_le.1 hpos)
    simp only [if_neg hpos]
    intro hc
    simp only [Res.ok.injEq, List.cons.injEq, and_true] at hc
    split at hc <;> omega

/-- **C66 (negation, lower end).** Negative values are never returned, also not when
min is negative. -/
theorem C66_uniform_never_negative (rnd : ℚ → ℚ) (u : Int) (g : IntGen) (hu : g.normal = none)
    (d : IntDraw) (v : Int) (h : g.values rnd u d = .ok [v]) : 0 ≤ v := by
  simp only [IntGen.values, hu, int63n] at h
  by_cases hpos : g.max ≤ 0
  · simp [hpos] at h
  · simp only [if_neg hpos, Res.ok.injEq, List.cons.injEq, and_true] at h
    have a := Int.emod_nonneg (d.r : Int) (ne_of_gt (not_le.1 hpos))
    split at h <;> omega

/-- **C66 (partial).** Every value v with min <= v < max and 0 <= v is returned for some draw.
Missing: max itself and negative values, see the negations. -/
theorem C66_uniform_hits_every_value_partial (rnd : ℚ → ℚ) (u : Int) (g : IntGen)
    (hu : g.normal = none) (v : Int) (h0 : 0 ≤ v) (h1 : g.min ≤ v) (h2 : v < g.max) :
    ∃ d, g.values rnd u d = .ok [v] := by
  refine ⟨⟨v.toNat, 0, 0⟩, ?_⟩
  have hv : ((v.toNat : Nat) : Int) = v := Int.toNat_of_nonneg h0
  simp only [IntGen.values, hu, int63n, if_neg (show ¬ g.max ≤ 0 by omega), hv,
    Int.emod_eq_of_lt h0 h2, if_neg (show ¬ v < g.min by omega)]

example : ∃ d, (⟨-3, 10, none⟩ : IntGen).values f64 0 d = .ok [4] := ⟨⟨14, 0, 0⟩, by rfl⟩

/-! ### C10: normal int -/

/-- The configured mean, data/integer.go:50-56: half the width if it is 0 or not set. -/
def meanOf (p : Params) (mn mx : Int) : Option Int :=
  (int64From p "mean" 0).map fun m => if m = 0 then Int.tdiv (i64 (mx - mn + 1)) 2 else m

theorem newInt_normal {rnd : ℚ → ℚ} {pf : List Char → Option (Option ℚ)} {p : Params} {g : IntGen}
    (h : newInt rnd pf p = some g) {mean : ℚ} {sd : Option ℚ} (hn : g.normal = some (mean, sd)) :
    ∃ m, meanOf p g.min g.max = some m ∧ mean = rnd m := by
  unfold newInt at h
  simp only [Option.bind_eq_bind, Option.bind_eq_some_iff] at h
  obtain ⟨mn, h1, mx, h2, h⟩ := h
  split at h
  · simp only [Option.bind_eq_some_iff] at h
    obtain ⟨m, hm, h⟩ := h
    split at h
    · simp only [Option.bind_eq_some_iff] at h
      obtain ⟨sd, _, h⟩ := h
      cases h; cases hn
      exact ⟨_, by simp only [meanOf, hm, Option.map_some], rfl⟩
    · cases h; cases hn
      exact ⟨_, by simp only [meanOf, hm, Option.map_some], rfl⟩
  · cases h; cases hn

/-- **C10 (partial).** If the mean lies in [min, max] and is at most 2^53, the normal int generator
returns one value in [min, max] for all draws, in float64 arithmetic, whatever the standard deviation
and whatever conversions outside the range of int64 give. Missing: means outside the range, among them
default means, see `C10_default_mean_outside_range`, and large means, see
`C10_large_mean_false`. -/
theorem C10_normal_in_range_partial {rnd : ℚ → ℚ} (hr : RoundSpec rnd)
    (pf : List Char → Option (Option ℚ)) (u : Int) (p : Params) (g : IntGen)
    (h : newInt rnd pf p = some g) (hn : g.normal.isSome) (m : Int)
    (hm : meanOf p g.min g.max = some m) (h1 : g.min ≤ m) (h2 : m ≤ g.max) (h3 : |m| ≤ 2 ^ 53)
    (d : IntDraw) : ∃ v, g.values rnd u d = .ok [v] ∧ g.min ≤ v ∧ v ≤ g.max := by
  obtain ⟨⟨mean, sd⟩, hn⟩ := Option.isSome_iff_exists.1 hn
  obtain ⟨m', hm', rfl⟩ := newInt_normal h hn
  rw [hm] at hm'; cases hm'
  have hc : convI64 u ⌊rnd (m : ℚ)⌋ = m := by
    rw [hr.int m h3, Int.floor_intCast, convI64, if_pos]
    rw [abs_le] at h3
    omega
  simp only [IntGen.values, hn, hc]
  split
  · split
    · exact ⟨_, rfl, h1, h2⟩
    · exact ⟨_, rfl, by omega, by omega⟩
  · exact ⟨_, rfl, by omega, by omega⟩

/-- **C10.** In every case the value is in range or is the mean, rounded to float64. -/
theorem C10_normal_in_range_or_mean (rnd : ℚ → ℚ) (pf : List Char → Option (Option ℚ)) (u : Int)
    (p : Params) (g : IntGen) (h : newInt rnd pf p = some g) (hn : g.normal.isSome) (d : IntDraw) :
    ∃ v m, g.values rnd u d = .ok [v] ∧ meanOf p g.min g.max = some m ∧
      ((g.min ≤ v ∧ v ≤ g.max) ∨ v = convI64 u ⌊rnd m⌋) := by
  obtain ⟨⟨mean, sd⟩, hn⟩ := Option.isSome_iff_exists.1 hn
  obtain ⟨m, hm, rfl⟩ := newInt_normal h hn
  simp only [IntGen.values, hn]
  split
  · split
    · exact ⟨_, m, rfl, hm, .inr rfl⟩
    · exact ⟨_, m, rfl, hm, .inl ⟨by omega, by omega⟩⟩
  · exact ⟨_, m, rfl, hm, .inl ⟨by omega, by omega⟩⟩

/-- **C10 (negation).** With min=100000, max=200000 and all else default the mean is 50000
(half the width instead of the middle), and two draws below the mean return 50000, which is less
than min. -/
theorem C10_default_mean_outside_range (u : Int) :
    ∃ g, newInt f64 noFloat (mkParams [("dist", "normal"), ("min", "100000"), ("max", "200000")]) =
        some g ∧ g.values f64 u ⟨0, -1, -1⟩ = .ok [50000] ∧ (50000 : Int) < g.min := by
  refine ⟨⟨100000, 200000, some (f64 ((50000 : Int) : ℚ),
    some (f64 (f64 (f64 ((200000 : Int) : ℚ) - f64 ((100000 : Int) : ℚ)) / 8)))⟩, by rfl, ?_, by decide⟩
  have e1 : f64 ((50000 : Int) : ℚ) = 50000 := by decide +kernel
  have e2 : f64 (f64 (f64 ((200000 : Int) : ℚ) - f64 ((100000 : Int) : ℚ)) / 8) = 12500 := by
    decide +kernel
  have e3 : ⌊f64 (f64 (-1 * 12500) + 50000)⌋ = 37500 := by decide +kernel
  have e4 : ⌊(50000 : ℚ)⌋ = 50000 := by decide +kernel
  simp only [IntGen.values, normDraw, e1, e2, e3, e4]
  rfl

/-- **C10 (negation).** With max and mean 2^53+3 the mean as a float64 is 2^53+4, and two draws above it
return this number, which is more than max. -/
theorem C10_large_mean_false (u : Int) :
    ∃ g, newInt f64 noFloat (mkParams [("dist", "normal"), ("max", "9007199254740995"),
          ("mean", "9007199254740995")]) = some g ∧ g.max = 9007199254740995 ∧
      g.values f64 u ⟨0, 1, 1⟩ = .ok [9007199254740996] := by
  refine ⟨⟨1, 9007199254740995, some (f64 ((9007199254740995 : Int) : ℚ),
    some (f64 (f64 (f64 ((9007199254740995 : Int) : ℚ) - f64 ((1 : Int) : ℚ)) / 8)))⟩, by rfl, rfl, ?_⟩
  have e1 : f64 ((9007199254740995 : Int) : ℚ) = 9007199254740996 := by decide +kernel
  have e2 : f64 (f64 (9007199254740996 - f64 ((1 : Int) : ℚ)) / 8) = 9007199254740996 / 8 := by decide +kernel
  have e3 : ⌊f64 (f64 (1 * (9007199254740996 / 8)) + 9007199254740996)⌋ = 10133099161583620 := by
    decide +kernel
  have e4 : ⌊(9007199254740996 : ℚ)⌋ = 9007199254740996 := by decide +kernel
  simp only [IntGen.values, normDraw, e2, e3, e1, e4]
  rfl

example : ∃ g, newInt f64 noFloat (mkParams [("dist", "normal"), ("max", "100"), ("mean", "50")]) =
      some g ∧ g.normal.isSome ∧
      meanOf (mkParams [("dist", "normal"), ("max", "100"), ("mean", "50")]) g.min g.max = some 50 ∧
      g.min ≤ 50 ∧ 50 ≤ g.max :=
  ⟨⟨1, 100, some (f64 ((50 : Int) : ℚ), some (f64 (f64 (f64 ((100 : Int) : ℚ) - f64 ((1 : Int) : ℚ)) / 8)))⟩,
    by rfl, rfl, by rfl, by decide, by decide⟩

/-! ### C12: int-range -/

theorem newIntRange_spec {p : Params} {g : IntRange} (h : newIntRange p = some g) :
    g.min < g.max ∧ g.size ≤ i64 (g.max - g.min) ∧ IsI64 g.min ∧ IsI64 g.max ∧
      int64From p "size" 100 = some g.size := by
  have hi : ∀ k d z, IsI64 d → int64From p k d = some z → IsI64 z := by
    intro k d z hd hz
    unfold int64From at hz
    split at hz
    · cases hz; exact hd
    · exact parseInt64_isI64 hz
  unfold newIntRange at h
  simp only [Option.bind_eq_bind, Option.bind_eq_some_iff] at h
  obtain ⟨sz, h1, mn, h2, mx, h3, h⟩ := h
  split at h
  · cases h
  simp only [Option.pure_def] at h
  split at h
  · cases h
  cases h
  exact ⟨by simp only; omega, by simp only; omega, hi _ _ _ (by unfold IsI64; decide) h2,
    hi _ _ _ (by unfold IsI64; decide) h3, h1⟩

/-- **C12 (partial).** An accepted int-range generator with size >= 1 whose range does not end at
the limit of int64 (max + size <= 2^63) returns lower <= upper inside [min, max], with exactly
`size` numbers unless cut off at max, and never panics.
Missing: size <= 0 (accepted, `C12_size_zero_is_accepted_and_reversed`) and ranges up to the
largest int64 (`C12_overflow_at_int64_limit`). -/
theorem C12_int_range_well_formed_partial (p : Params) (g : IntRange)
    (h : newIntRange p = some g) (hs : 1 ≤ g.size) (hov : g.max + g.size ≤ 2 ^ 63) (r : Nat) :
    ∃ lo up, g.values r = .ok (lo, up) ∧ g.min ≤ lo ∧ lo ≤ up ∧ up ≤ g.max ∧
      (up - lo + 1 = g.size ∨ (up = g.max ∧ up - lo + 1 < g.size)) := by
  obtain ⟨h1, h2, h3, h4, _⟩ := newIntRange_spec h
  have hd : i64 (g.max - g.min) = g.max - g.min := by
    apply i64_id
    have := i64_isI64 (g.max - g.min)
    unfold i64 at h2 this
    unfold IsI64 at *
    by_contra hc
    have hb : Int.bmod (g.max - g.min) (2 ^ 64) = g.max - g.min - 2 ^ 64 := by
      rw [Int.bmod_eq_iff (by omega)]
      refine ⟨by omega, by omega, ?_⟩
      exact ⟨-1, by omega⟩
    omega
  simp only [IntRange.values, int63n, hd, if_neg (show ¬ g.max - g.min ≤ 0 by omega)]
  have a := Int.emod_nonneg (r : Int) (show g.max - g.min ≠ 0 by omega)
  have b := Int.emod_lt_of_pos (r : Int) (show 0 < g.max - g.min by omega)
  generalize (r : Int) % (g.max - g.min) = k at a b ⊢
  unfold IsI64 at h3 h4
  have e1 : i64 (g.min + k) = g.min + k := i64_id (by unfold IsI64; omega)
  have e2 : i64 (g.min + k + g.size) = g.min + k + g.size := i64_id (by unfold IsI64; omega)
  have e3 : i64 (g.min + k + g.size - 1) = g.min + k + g.size - 1 :=
    i64_id (by unfold IsI64; omega)
  simp only [e1, e2, e3]
  refine ⟨_, _, rfl, by omega, ?_, ?_, ?_⟩ <;> split <;> omega

/-- **C12.** Every lower bound in [min, max) is possible. -/
theorem C12_every_lower_bound_possible (g : IntRange) (hi : IsI64 g.min ∧ IsI64 g.max)
    (hd : IsI64 (g.max - g.min)) (lo : Int) (h1 : g.min ≤ lo) (h2 : lo < g.max) :
    ∃ r up, g.values r = .ok (lo, up) := by
  refine ⟨(lo - g.min).toNat, ?_⟩
  have hk : (((lo - g.min).toNat : Nat) : Int) = lo - g.min := Int.toNat_of_nonneg (by omega)
  simp only [IntRange.values, int63n, i64_id hd, if_neg (show ¬ g.max - g.min ≤ 0 by omega), hk,
    Int.emod_eq_of_lt (show 0 ≤ lo - g.min by omega) (show lo - g.min < g.max - g.min by omega)]
  have e1 : i64 (g.min + (lo - g.min)) = lo := by
    rw [show g.min + (lo - g.min) = lo by omega]
    exact i64_id (by unfold IsI64 at *; omega)
  rw [e1]
  exact ⟨_, rfl⟩

/-- **C12 (negation).** size=0 is accepted and gives a pair whose upper bound is below the lower
bound. -/
theorem C12_size_zero_is_accepted_and_reversed :
    ∃ g, newIntRange (mkParams [("size", "0")]) = some g ∧ g.values 5 = .ok (6, 5) :=
  ⟨⟨0, 1, 100000⟩, by rfl, by rfl⟩

/-- **C12 (negation).** With max = 2^63-1 the upper bound wraps around to a negative number. -/
theorem C12_overflow_at_int64_limit :
    ∃ g, newIntRange (mkParams [("max", "9223372036854775807")]) = some g ∧
      g.values (2 ^ 63 - 4) = .ok (2 ^ 63 - 3, -(2 ^ 63) + 96) :=
  ⟨⟨100, 1, 2 ^ 63 - 1⟩, by rfl, by rfl⟩

example : ∃ g, newIntRange (mkParams [("size", "3"), ("min", "-5"), ("max", "7")]) = some g ∧
    1 ≤ g.size ∧ g.max + g.size ≤ 2 ^ 63 ∧ g.values 11 = .ok (6, 7) :=
  ⟨⟨3, -5, 7⟩, by rfl, by decide, by decide, by rfl⟩

/-! ### C13: int-range-seq -/

/-- Spec: the number of chunks of `size` numbers needed for [b, e]. -/
def chunkCount (b e size : Int) : Nat := ((e - b) / size).toNat + 1

/-- Spec: chunk number `j` of [b, e]. -/
def chunk (b e size : Int) (j : Nat) : Int × Int :=
  (b + j * size, min (b + j * size + size - 1) e)

theorem chunk_start_le_end {b e size : Int} (hbe : b ≤ e) (hs : 1 ≤ size) (j : Nat) :
    b + j * size ≤ e ↔ j < chunkCount b e size := by
  unfold chunkCount
  have hq : 0 ≤ (e - b) / size := Int.ediv_nonneg (by omega) (by omega)
  have hl : (j : Int) ≤ (e - b) / size ↔ (j : Int) * size ≤ e - b :=
    Int.le_ediv_iff_mul_le (by omega)
  constructor
  · intro h
    have := hl.2 (by omega)
    omega
  · intro h
    have := hl.1 (by omega)
    omega

theorem seq_calls_from {b e size : Int} (hbe : b ≤ e) (hs : 1 ≤ size) (hlo : -(2 ^ 63) ≤ b)
    (hov : e + size < 2 ^ 63) : ∀ (k : Nat) (j : Nat), j ≤ chunkCount b e size →
    (⟨b, e, size, b + j * size⟩ : IntRangeSeq).calls k =
      (List.range k).map (fun i => chunk b e size ((j + i) % chunkCount b e size)) := by
  intro k
  induction k with
  | zero => intro j _; rfl
  | succ k ih =>
    intro j hj
    have hN : 0 < chunkCount b e size := by unfold chunkCount; omega
    -- the chunk actually used
    obtain ⟨j', hj', hlt, hn0⟩ : ∃ j', j' % chunkCount b e size = j % chunkCount b e size ∧
        j' < chunkCount b e size ∧
        (if b + (j : Int) * size > e then b else b + (j : Int) * size) = b + (j' : Int) * size := by
      by_cases hje : j < chunkCount b e size
      · refine ⟨j, rfl, hje, ?_⟩
        have := (chunk_start_le_end hbe hs j).2 hje
        rw [if_neg (by omega)]
      · have : j = chunkCount b e size := by omega
        refine ⟨0, by rw [this]; simp, hN, ?_⟩
        have := mt (chunk_start_le_end hbe hs j).1 hje
        rw [if_pos (by omega)]; simp
    have hle := (chunk_start_le_end hbe hs j').2 hlt
    have hge : b ≤ b + (j' : Int) * size := by
      have : 0 ≤ (j' : Int) * size := Int.mul_nonneg (by omega) (by omega)
      omega
    have e1 : i64 (b + (j' : Int) * size + size) = b + (j' : Int) * size + size :=
      i64_id (by unfold IsI64; omega)
    have e2 : i64 (b + (j' : Int) * size + size - 1) = b + (j' : Int) * size + size - 1 :=
      i64_id (by unfold IsI64; omega)
    simp only [IntRangeSeq.calls, IntRangeSeq.values]
    rw [hn0, e1, e2]
    have hnext : b + (j' : Int) * size + size = b + ((j' + 1 : Nat) : Int) * size := by
      push_cast
      ring
    rw [hnext, ih (j' + 1) (by omega), List.range_succ_eq_map, List.map_cons, List.map_map]
    congr 1
    · unfold chunk
      rw [show (j + 0) % chunkCount b e size = j' by
        rw [Nat.add_zero, ← hj', Nat.mod_eq_of_lt hlt], ← hnext]
      congr 1
      omega
    · apply List.map_congr_left
      intro i _
      simp only [Function.comp]
      congr 1
      rw [show j + i.succ = j + (i + 1) by omega, Nat.add_mod j, ← hj', ← Nat.add_mod]
      congr 1
      omega

/-- **C13 (partial).** For an accepted int-range-seq generator with size >= 1 that does not reach
the limit of int64, the i-th call (in the order in which calls take the lock, whatever the
clients) returns chunk number i mod n of [begin, end], where n is the number of chunks.
Missing: size <= 0 (accepted) and ends near 2^63, see the negations. -/
theorem C13_sequential_chunks_partial (p : Params) (g : IntRangeSeq)
    (h : newIntRangeSeq p = some g) (hs : 1 ≤ g.size) (hov : g.end_ + g.size < 2 ^ 63) (k : Nat) :
    g.calls k = (List.range k).map
      (fun i => chunk g.begin g.end_ g.size (i % chunkCount g.begin g.end_ g.size)) := by
  have hi : ∀ k d z, IsI64 d → int64From p k d = some z → IsI64 z := by
    intro k d z hd hz
    unfold int64From at hz
    split at hz
    · cases hz; exact hd
    · exact parseInt64_isI64 hz
  unfold newIntRangeSeq at h
  simp only [Option.bind_eq_bind, Option.bind_eq_some_iff] at h
  obtain ⟨sz, h1, b, h2, e, h3, h⟩ := h
  split at h
  · cases h
  simp only [Option.pure_def] at h
  split at h
  · cases h
  cases h
  simp only at hs hov ⊢
  have hb := hi _ _ _ (by unfold IsI64; decide) h2
  have := seq_calls_from (b := b) (e := e) (size := sz) (by omega) hs hb.1 hov k 0 (by omega)
  simpa using this

/-- **C13.** The chunks of one cycle cover [begin, end] without gap or overlap: every number of the
range lies in exactly one chunk, and a chunk contains no other numbers; consecutive chunks are
adjacent; all chunks but the last have exactly `size` numbers and the last one ends at `end`. -/
theorem C13_chunks_partition_range (b e size : Int) (hbe : b ≤ e) (hs : 1 ≤ size) :
    (∀ x, b ≤ x → x ≤ e → ∃! j, j < chunkCount b e size ∧
        (chunk b e size j).1 ≤ x ∧ x ≤ (chunk b e size j).2) ∧
    (∀ j, j < chunkCount b e size → b ≤ (chunk b e size j).1 ∧
        (chunk b e size j).1 ≤ (chunk b e size j).2 ∧ (chunk b e size j).2 ≤ e) ∧
    (∀ j, j + 1 < chunkCount b e size →
        (chunk b e size (j + 1)).1 = (chunk b e size j).2 + 1 ∧
        (chunk b e size j).2 - (chunk b e size j).1 + 1 = size) ∧
    (chunk b e size (chunkCount b e size - 1)).2 = e ∧ (chunk b e size 0).1 = b := by
  have key : ∀ j, j + 1 < chunkCount b e size → b + (j : Int) * size + size - 1 ≤ e := by
    intro j hj
    have := (chunk_start_le_end hbe hs (j + 1)).2 hj
    push_cast at this
    rw [Int.add_mul] at this
    omega
  refine ⟨?_, ?_, ?_, ?_, by simp [chunk]⟩
  · intro x hx1 hx2
    have hq : 0 ≤ (x - b) / size := Int.ediv_nonneg (by omega) (by omega)
    have hdm := Int.emod_add_mul_ediv (x - b) size
    have hm0 := Int.emod_nonneg (x - b) (show size ≠ 0 by omega)
    have hm1 := Int.emod_lt_of_pos (x - b) (show 0 < size by omega)
    have hc : (((x - b) / size).toNat : Int) = (x - b) / size := Int.toNat_of_nonneg hq
    refine ⟨((x - b) / size).toNat, ⟨?_, ?_, ?_⟩, ?_⟩
    · refine (chunk_start_le_end hbe hs _).1 ?_
      rw [hc, Int.mul_comm]; omega
    · simp only [chunk, hc]
      rw [Int.mul_comm]; omega
    · simp only [chunk, hc]
      rw [Int.mul_comm]; omega
    · rintro j ⟨hj, h1, h2⟩
      simp only [chunk] at h1 h2
      have : (j : Int) = (x - b) / size := by
        symm
        have e1 : x - b = (x - b - j * size) + j * size := by omega
        rw [e1, Int.add_mul_ediv_right _ _ (by omega),
          Int.ediv_eq_zero_of_lt (by omega) (by omega)]
        omega
      omega
  · intro j hj
    have h1 := (chunk_start_le_end hbe hs j).2 hj
    have : 0 ≤ (j : Int) * size := Int.mul_nonneg (by omega) (by omega)
    simp only [chunk]
    omega
  · intro j hj
    have := key j hj
    simp only [chunk]
    push_cast
    rw [Int.add_mul]
    omega
  · simp only [chunk]
    have hN : chunkCount b e size - 1 + 1 = chunkCount b e size := by unfold chunkCount; omega
    have := mt (chunk_start_le_end hbe hs (chunkCount b e size)).1 (by omega)
    rw [← hN] at this
    push_cast at this
    rw [Int.add_mul] at this
    omega

example : ∃ g, newIntRangeSeq (mkParams [("begin", "1"), ("end", "10"), ("size", "4")]) = some g ∧
    1 ≤ g.size ∧ g.end_ + g.size < 2 ^ 63 ∧
    g.calls 5 = [(1, 4), (5, 8), (9, 10), (1, 4), (5, 8)] :=
  ⟨⟨1, 10, 4, 1⟩, by rfl, by decide, by decide, by rfl⟩

/-- **C13 (negation).** size=0 is accepted and every call returns the empty range (1, 0): the table
is never scanned. -/
theorem C13_size_zero_never_advances :
    ∃ g, newIntRangeSeq (mkParams [("size", "0")]) = some g ∧
      ∀ k, g.calls k = List.replicate k (1, 0) := by
  refine ⟨⟨1, 100000, 0, 1⟩, by rfl, ?_⟩
  intro k
  induction k with
  | zero => rfl
  | succ k ih =>
    have hv : (⟨1, 100000, 0, 1⟩ : IntRangeSeq).values = (⟨1, 100000, 0, 1⟩, (1, 0)) := by rfl
    simp only [IntRangeSeq.calls, hv, List.replicate_succ, ih]

/-- **C13 (negation).** A range that ends at 2^63-1 overflows: after the last chunk the next one
starts at a negative number instead of `begin`. -/
theorem C13_overflow_at_int64_limit :
    ∃ g, newIntRangeSeq (mkParams [("begin", "9223372036854775800"),
        ("end", "9223372036854775807"), ("size", "5")]) = some g ∧
      g.calls 3 = [(9223372036854775800, 9223372036854775804),
        (9223372036854775805, -9223372036854775807), (-9223372036854775806, -9223372036854775802)] :=
  ⟨⟨9223372036854775800, 9223372036854775807, 5, 9223372036854775800⟩, by rfl, by rfl⟩

/-! ### C14: auto-inc -/

/-- Spec: the value of a uint64 param with its default. -/
def uintParam (p : Params) (key : String) (dflt : Nat) : Option Nat :=
  match p.get key with
  | none => some dflt
  | some s => parseUint64 s

theorem auto_inc_calls (g : AutoInc) (k : Nat) :
    g.calls k = (List.range k).map (fun i => (g.i + (i + 1) * g.step) % 2 ^ 64) := by
  induction k generalizing g with
  | zero => rfl
  | succ k ih =>
    simp only [AutoInc.calls, AutoInc.values, u64]
    rw [ih, List.range_succ_eq_map, List.map_cons, List.map_map]
    congr 1
    · simp
    · apply List.map_congr_left
      intro i _
      simp only [Function.comp]
      rw [Nat.mod_add_mod]
      congr 1
      rw [show i.succ + 1 = (i + 1) + 1 by omega, Nat.add_mul (i + 1) 1]
      omega

/-- **C14.** The k-th call (0-based, in the order of the atomic adds) returns
(start + (k+1)*step) mod 2^64, where start and step are the params (defaults 0 and 1); invalid
params are rejected. -/
theorem C14_auto_inc_values (p : Params) :
    (∀ a b, uintParam p "start" 0 = some a → uintParam p "step" 1 = some b →
      ∃ g, newAutoInc p = some g ∧ ∀ k,
        g.calls k = (List.range k).map (fun i => (a + (i + 1) * b) % 2 ^ 64)) ∧
    (uintParam p "start" 0 = none ∨ uintParam p "step" 1 = none → newAutoInc p = none) := by
  have hn : newAutoInc p = (uintParam p "start" 0).bind (fun i =>
      (uintParam p "step" 1).bind (fun st => some ⟨i, st⟩)) := by
    unfold newAutoInc uintParam
    cases p.get "start" <;> cases p.get "step" <;> rfl
  refine ⟨?_, ?_⟩
  · intro a b ha hb
    exact ⟨⟨a, b⟩, by rw [hn, ha, hb]; rfl, fun k => auto_inc_calls ⟨a, b⟩ k⟩
  · intro h
    rw [hn]
    rcases h with h | h
    · rw [h]; rfl
    · rw [h]; cases uintParam p "start" 0 <;> rfl

/-- **C14.** No value is repeated within 2^64 / gcd(2^64, step) calls, so for any assignment of
calls to clients no two of them get the same value. -/
theorem C14_auto_inc_unique (p : Params) (g : AutoInc) (_ : newAutoInc p = some g) (k : Nat)
    (hk : k ≤ 2 ^ 64 / Nat.gcd (2 ^ 64) g.step) : (g.calls k).Nodup := by
  rw [auto_inc_calls]
  refine List.Nodup.map_on ?_ List.nodup_range
  intro i hi j hj he
  rw [List.mem_range] at hi hj
  have h1 : g.i + (i + 1) * g.step ≡ g.i + (j + 1) * g.step [MOD 2 ^ 64] := he
  have h2 := (Nat.ModEq.add_left_cancel' g.i h1)
  have h3 := Nat.ModEq.cancel_right_div_gcd (by norm_num : 0 < 2 ^ 64) h2
  have h4 : i ≡ j [MOD 2 ^ 64 / Nat.gcd (2 ^ 64) g.step] := Nat.ModEq.add_right_cancel' 1 h3
  exact Nat.ModEq.eq_of_lt_of_lt h4 (by omega) (by omega)

/-- **C14 (boundary).** After exactly 2^64 / gcd(2^64, step) further calls the value repeats, so
the bound of `C14_auto_inc_unique` is the best possible. -/
theorem C14_auto_inc_period (a step i : Nat) :
    (a + (i + 2 ^ 64 / Nat.gcd (2 ^ 64) step + 1) * step) % 2 ^ 64 =
      (a + (i + 1) * step) % 2 ^ 64 := by
  have hd : 2 ^ 64 / Nat.gcd (2 ^ 64) step * step = 2 ^ 64 * (step / Nat.gcd (2 ^ 64) step) := by
    rw [Nat.div_mul_right_comm (Nat.gcd_dvd_left _ _), Nat.mul_div_assoc _ (Nat.gcd_dvd_right _ _)]
  have : a + (i + 2 ^ 64 / Nat.gcd (2 ^ 64) step + 1) * step =
      a + (i + 1) * step + 2 ^ 64 * (step / Nat.gcd (2 ^ 64) step) := by
    rw [← hd]; ring
  rw [this, Nat.add_mul_mod_self_left]

example : ∃ g, newAutoInc (mkParams [("start", "100"), ("step", "5")]) = some g ∧
    g.calls 3 = [105, 110, 115] ∧ 3 ≤ 2 ^ 64 / Nat.gcd (2 ^ 64) g.step :=
  ⟨⟨100, 5⟩, by rfl, by rfl, by decide⟩

end Finch
