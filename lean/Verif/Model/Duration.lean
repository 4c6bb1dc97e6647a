import Verif.Model.Validate
import Verif.Model.Float
/-!
`time.ParseDuration`, which reads the settings `runtime` and `stats.freq` (config/config.go:157-172,
stage/stage.go:131, stats/collector.go:77, workload/workload.go:156) and the modifier `idle`
(trx/trx.go:266). It is written down from the source of Go 1.20 (time/format.go), which is not in this
sandbox. Bytes are characters here: no byte of a character other than the ASCII ones is a digit, a point or a
sign. `none` is an error.
-/
namespace Finch

/-- `unitMap`, in nanoseconds. Both characters for micro are there. -/
def durUnit (u : Text) : Option Nat :=
  if u = "ns".toList then some 1
  else if u = "us".toList ∨ u = ['µ', 's'] ∨ u = ['μ', 's'] then some 1000
  else if u = "ms".toList then some 1000000
  else if u = "s".toList then some 1000000000
  else if u = "m".toList then some 60000000000
  else if u = "h".toList then some 3600000000000
  else none

/-- `leadingInt`: `x` is what was read so far. -/
def leadInt (x : Nat) : Text → Option (Nat × Text)
  | [] => some (x, [])
  | c :: s =>
    if isDigit c then
      if x > 9223372036854775808 / 10 then none
      else
        let y := x * 10 + (c.toNat - 48)
        if y > 9223372036854775808 then none else leadInt y s
    else some (x, c :: s)

/-- `leadingFraction`: the digits as a number `x`, the power of ten `scale`; once the number does not fit
(`over`), further digits are skipped. -/
def leadFrac (over : Bool) (x scale : Nat) : Text → Nat × Nat × Text
  | [] => (x, scale, [])
  | c :: s =>
    if isDigit c then
      if over then leadFrac true x scale s
      else if x > 9223372036854775807 / 10 then leadFrac true x scale s
      else
        let y := x * 10 + (c.toNat - 48)
        if y > 9223372036854775808 then leadFrac true x scale s else leadFrac false y (scale * 10) s
    else (x, scale, c :: s)

/-- A character at which a unit ends. -/
def unitEnd (c : Char) : Bool := c = '.' || isDigit c

/-- The optional point and the digits after it: the number, its power of ten, the rest, and whether there
were digits. -/
def durFrac (s : Text) : Nat × Nat × Text × Bool :=
  match s with
  | [] => (0, 1, [], false)
  | c :: s2 =>
    if c = '.' then
      let q := leadFrac false 0 1 s2
      (q.1, q.2.1, q.2.2, decide (q.2.2.length ≠ s2.length))
    else (0, 1, c :: s2, false)

/-- The nanoseconds of a number `v` and a fraction `f/scale` of a unit: `v *= unit` and, with float64,
`v += uint64(float64(f) * (float64(unit) / scale))`, with the checks for overflow. -/
def durValue (v f scale unit : Nat) : Option Nat :=
  if v > 9223372036854775808 / unit then none
  else
    let v := v * unit
    if f > 0 then
      let v := v + ⌊f64 (f64 f * f64 ((unit : ℚ) / scale))⌋.toNat
      if v > 9223372036854775808 then none else some v
    else some v

/-- The body of the loop: one number with its unit. Result: its nanoseconds and the rest. -/
def durPart (s : Text) : Option (Nat × Text) :=
  match s with
  | [] => none
  | c :: _ =>
    if !unitEnd c then none
    else
      match leadInt 0 s with
      | none => none
      | some (v, s1) =>
        let q := durFrac s1
        if s1.length = s.length ∧ q.2.2.2 = false then none
        else
          let u := q.2.2.1.takeWhile fun c => !unitEnd c
          if u = [] then none
          else
            match durUnit u with
            | none => none
            | some unit =>
              match durValue v q.1 q.2.1 unit with
              | none => none
              | some w => some (w, q.2.2.1.dropWhile fun c => !unitEnd c)

/-- The loop: `d` is the sum so far, a uint64; `left` bounds the number of rounds. -/
def durLoop (left : Nat) (d : Nat) (s : Text) : Option Nat :=
  match left, s with
  | _, [] => some d
  | 0, _ => none
  | left + 1, s =>
    match durPart s with
    | none => none
    | some (v, rest) =>
      let d := (d + v) % 18446744073709551616
      if d > 9223372036854775808 then none else durLoop left d rest

/-- `time.ParseDuration` after the sign. -/
def durAbs (s : Text) : Option Nat :=
  if s = ['0'] then some 0
  else if s = [] then none
  else durLoop s.length 0 s

/-- `time.ParseDuration`, in nanoseconds. -/
def parseDuration (s : Text) : Option Int :=
  match s with
  | '-' :: s => (durAbs s).map fun d => -(d : Int)
  | '+' :: s => (durAbs s).bind fun d => if d > 9223372036854775807 then none else some (d : Int)
  | s => (durAbs s).bind fun d => if d > 9223372036854775807 then none else some (d : Int)

end Finch
