import Verif.Model.Parse
import Verif.Model.Float
/-!
Model of data/integer.go. Go's `int64` arithmetic wraps around (`i64`); random draws are inputs.
Constructors return `none` for an error.
-/
namespace Finch

/-- data/generator.go:107-122 `int64From` with `required = false`: `n` is the default. -/
def int64From (p : Params) (key : String) (n : Int) : Option Int :=
  match p.get key with
  | none => some n
  | some s => parseInt64 s

/-- `rand.Int63n(n)`: panics if `n <= 0`; otherwise some number in `[0, n)`, chosen by the random
word `r`. Every number in `[0, n)` is produced by some word. -/
def int63n (n : Int) (r : Nat) : Res Int :=
  if n ≤ 0 then .panic else .ok ((r : Int) % n)

/-- Conversion `int64(f)` of a float `f` that is integral, given as an exact integer. Out-of-range
conversions are implementation specific in Go; here they saturate. -/
def toI64 (z : Int) : Int := max (-(2 ^ 63)) (min z (2 ^ 63 - 1))

/-- data/integer.go:18-24 `Int`. `normal = none` is `dist_uniform`, `some (mean, stddev)` is
`dist_normal`. The standard deviation is `none` if it is not a finite number. -/
structure IntGen where
  min : Int
  max : Int
  normal : Option (ℚ × Option ℚ)

/-- `strings.ToLower` of ASCII letters. -/
def lowerAscii (s : List Char) : List Char := s.map Char.toLower

/-- data/integer.go:33-76 `NewInt`. `parseFloat` is `strconv.ParseFloat`: `none` is an error and
`some none` is an infinity or NaN. `rnd` rounds the result of every float operation: `f64` is the code,
the identity is exact arithmetic. -/
def newInt (rnd : ℚ → ℚ) (parseFloat : List Char → Option (Option ℚ)) (p : Params) :
    Option IntGen := do
  let mn ← int64From p "min" 1
  let mx ← int64From p "max" 100000
  if (p.get "dist").map lowerAscii = some "normal".toList then
    let mean0 ← int64From p "mean" 0
    -- Go's integer division truncates towards zero
    let mean := if mean0 = 0 then Int.tdiv (i64 (mx - mn + 1)) 2 else mean0
    match p.get "stddev" with
    | some s =>
      let sd ← parseFloat s
      return ⟨mn, mx, some (rnd mean, sd)⟩
    | none => return ⟨mn, mx, some (rnd mean, some (rnd (rnd (rnd mx - rnd mn) / 8)))⟩
  else return ⟨mn, mx, none⟩

/-- The random draws one call of `Int.Values` may use: `r` for `Int63n`, `x1`, `x2` for
`NormFloat64`. -/
structure IntDraw where
  r : Nat
  x1 : ℚ
  x2 : ℚ

/-- `int64(f)` of an integral float; `undef` is what the conversion gives for numbers outside the
range of int64, which Go leaves to the implementation. -/
def convI64 (undef z : Int) : Int := if -(2 ^ 63) ≤ z ∧ z < 2 ^ 63 then z else undef

/-- data/integer.go:90: `int64(math.Floor(x*stddev + mean))`. -/
def normDraw (rnd : ℚ → ℚ) (undef : Int) (mean : ℚ) (sd : Option ℚ) (x : ℚ) : Int :=
  match sd with
  | none => undef
  | some sd => convI64 undef ⌊rnd (rnd (x * sd) + mean)⌋

/-- `int64(mean)` for a float: truncation towards zero. -/
def truncRat (q : ℚ) : Int := toI64 (if 0 ≤ q then ⌊q⌋ else ⌈q⌉)

/-- data/integer.go:87-105 `Int.Values`. The mean is integral, so that its conversion to int64 does not
truncate. -/
def IntGen.values (rnd : ℚ → ℚ) (undef : Int) (g : IntGen) (d : IntDraw) : Res (List Int) :=
  match g.normal with
  | some (mean, sd) =>
    let v := normDraw rnd undef mean sd d.x1
    if v < g.min ∨ v > g.max then
      let v := normDraw rnd undef mean sd d.x2
      if v < g.min ∨ v > g.max then .ok [convI64 undef ⌊mean⌋] else .ok [v]
    else .ok [v]
  | none =>
    match int63n g.max d.r with
    | .panic => .panic
    | .ok v => .ok [if v < g.min then g.min else v]

/-- data/integer.go:110-115 `IntGaps`. A division by zero (input_max = 1) gives an infinite or NaN
slope in Go, which is `none` here. -/
structure IntGaps where
  inputMax : Int
  outputStart : ℚ
  slope : Option ℚ

/-- data/integer.go:119-151 `NewIntGaps`. `rnd` rounds the result of every float operation: `f64`
is the code, the identity is exact arithmetic. -/
def newIntGaps (rnd : ℚ → ℚ) (p : Params) : Option IntGaps := do
  let mn ← int64From p "min" 1
  let mx ← int64From p "max" 100000
  let size := i64 (i64 (mx - mn) + 1)
  if size ≤ 0 then none
  let pct ← int64From p "p" 20
  if pct < 1 ∨ pct > 100 then none
  let inputMax := truncRat (rnd (rnd size * rnd (rnd pct / 100)))
  return ⟨inputMax, rnd mn, if inputMax = 1 then none else
    some (rnd (rnd ((i64 (mx - mn) : Int) : ℚ) / rnd ((inputMax - 1 : Int) : ℚ)))⟩

/-- data/integer.go:162-164 `IntGaps.Values`. `none` as value: int64 of NaN (0 * Inf or NaN), which
Go does not define. -/
def IntGaps.values (rnd : ℚ → ℚ) (g : IntGaps) (r : Nat) : Res (List (Option Int)) :=
  match int63n g.inputMax r with
  | .panic => .panic
  | .ok k =>
    match g.slope with
    | none => .ok [none]
    | some s => .ok [some (truncRat (rnd (g.outputStart + rnd (rnd k * s))))]

/-- data/integer.go:169-175 `IntRange`. -/
structure IntRange where
  size : Int
  min : Int
  max : Int
  deriving DecidableEq, Repr

/-- data/integer.go:179-203 `NewIntRange`. -/
def newIntRange (p : Params) : Option IntRange := do
  let size ← int64From p "size" 100
  let mn ← int64From p "min" 1
  let mx ← int64From p "max" 100000
  if mn ≥ mx then none
  if size > i64 (mx - mn) then none
  return ⟨size, mn, mx⟩

/-- data/integer.go:214-224 `IntRange.Values`: (lower, upper). -/
def IntRange.values (g : IntRange) (r : Nat) : Res (Int × Int) :=
  match int63n (i64 (g.max - g.min)) r with
  | .panic => .panic
  | .ok k =>
    let lower := i64 (g.min + k)
    let upper := i64 (i64 (lower + g.size) - 1)
    .ok (lower, if upper > g.max then g.max else upper)

/-- data/integer.go:229-236 `IntRangeSeq`. -/
structure IntRangeSeq where
  begin : Int
  end_ : Int
  size : Int
  n : Int
  deriving DecidableEq, Repr

/-- data/integer.go:240-266 `NewIntRangeSeq`. -/
def newIntRangeSeq (p : Params) : Option IntRangeSeq := do
  let size ← int64From p "size" 100
  let b ← int64From p "begin" 1
  let e ← int64From p "end" 100000
  if b > e then none
  if size > i64 (e - b) then none
  return ⟨b, e, size, b⟩

/-- data/integer.go:277-289 `IntRangeSeq.Values`; the whole body is under the generator's lock, so
a call is one atomic step. -/
def IntRangeSeq.values (g : IntRangeSeq) : IntRangeSeq × (Int × Int) :=
  let n0 := if g.n > g.end_ then g.begin else g.n
  let m := i64 (i64 (n0 + g.size) - 1)
  ({ g with n := i64 (n0 + g.size) }, (n0, if m > g.end_ then g.end_ else m))

/-- Values of successive calls (by any clients). -/
def IntRangeSeq.calls (g : IntRangeSeq) : Nat → List (Int × Int)
  | 0 => []
  | k + 1 => let r := g.values; r.2 :: r.1.calls k

/-- data/integer.go:294-297 `AutoInc`. -/
structure AutoInc where
  i : Nat
  step : Nat
  deriving DecidableEq, Repr

/-- data/integer.go:301-323 `NewAutoInc`. -/
def newAutoInc (p : Params) : Option AutoInc := do
  let i ← match p.get "start" with
    | some s => parseUint64 s
    | none => some 0
  let step ← match p.get "step" with
    | some s => parseUint64 s
    | none => some 1
  return ⟨i, step⟩

/-- data/integer.go:336-338 `AutoInc.Values`: one atomic add. -/
def AutoInc.values (g : AutoInc) : AutoInc × Nat :=
  let i := u64 (g.i + g.step)
  ({ g with i := i }, i)

/-- Values of successive calls, in the order of the atomic adds. -/
def AutoInc.calls (g : AutoInc) : Nat → List Nat
  | 0 => []
  | k + 1 => let r := g.values; r.2 :: r.1.calls k

end Finch
