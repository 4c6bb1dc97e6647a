import Verif.Model.Stats
/-!
The histogram's bucket numbers and values as computed in float64: stats/stats.go:50-65 and 159-171,
with the constants of the code. `Model/Stats.lean` takes both as inputs (`lg` and `hv`).
`math.Log` is a parameter, `math.Pow` is modelled for integral exponents.
-/
namespace Finch

/-- stats/stats.go:52 `factor`. -/
def factorC : ℚ := 1.0471285480508996

/-- stats/stats.go:53 `logFactor`. -/
def logFactorC : ℚ := 0.046051701859881

/-- stats/stats.go:58 `math.Log(float64(d)/base) / logFactor` rounded down, for a function `ln` in
the place of `math.Log`. The constants are rounded to float64, as are the conversion of `d` and both
quotients. For `d = 0` the logarithm is minus infinity and the bucket 0 (stats/stats.go:60-62);
for negative `d` it is NaN, which is not modelled (latencies are not negative). -/
def lgF (ln : ℚ → ℚ) (d : Int) : Int :=
  if d ≤ 0 then -1 else ⌊f64 (ln (f64 (f64 d / f64 10)) / f64 logFactorC)⌋

/-- The loop of Go's `math.Pow` for an integral exponent: `a1` and `ae` are significand and exponent
of the result, `x1` and `xe` those of the current square; `i` is the rest of the exponent. The number
of rounds is the number of bits of the exponent (at most `fuel`). -/
def powLoop : (fuel i : Nat) → (a1 x1 : ℚ) → (ae xe : Int) → ℚ × Int
  | 0, _, a1, _, ae, _ => (a1, ae)
  | fuel + 1, i, a1, x1, ae, xe =>
    if i = 0 then (a1, ae)
    else
      let a := if i % 2 = 1 then (f64 (a1 * x1), ae + xe) else (a1, ae)
      let s := f64 (x1 * x1)
      if s < 1 / 2 then powLoop fuel (i / 2) a.1 (f64 (s + s)) a.2 (2 * xe - 1)
      else powLoop fuel (i / 2) a.1 s a.2 (2 * xe)

/-- `math.Pow(x, i)` for `1 ≤ x < 2`, of which `math.Frexp` is `x/2` and 1, and an exponent `i` that
is a bucket number (so that the results are normal numbers): Go's algorithm. -/
def goPow (x : ℚ) (i : Nat) : ℚ :=
  if i = 0 then 1
  else if i = 1 then x
  else
    let r := powLoop 63 i 1 (x / 2) 0 1
    r.1 * 2 ^ r.2

/-- stats/stats.go:159, 168 and 171 `uint64(base * math.Pow(factor, float64(i)))`. -/
def hvF (i : Nat) : Nat := ⌊f64 (f64 10 * goPow (f64 factorC) i)⌋.toNat

end Finch
