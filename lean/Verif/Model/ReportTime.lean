import Verif.Model.Report
import Verif.Model.Integer
import Verif.Model.Float
/-!
Times and rates in reports: the clock of stats/collector.go, and the numbers that stats/csv.go and
stats/stdout.go print for them. Readings of the clock (monotonic) are nanoseconds.
-/
namespace Finch

/-- `time.Duration.Seconds` of package time:
`sec := d / Second; nsec := d % Second; return float64(sec) + float64(nsec)/1e9`. -/
def durSeconds (d : ℤ) : ℚ :=
  f64 (f64 (d.tdiv 1000000000) + f64 (f64 (d.tmod 1000000000) / 1000000000))

/-- stats/collector.go:68-69 `start`, `last`; and `local.Interval`. -/
structure CollClock where
  start : ℤ
  last : ℤ
  interval : Nat
  deriving DecidableEq

/-- stats/collector.go:136-139 `Start`. -/
def CollClock.new (now : ℤ) : CollClock := ⟨now, now, 0⟩

/-- What Collect notes: interval, seconds of the interval, seconds since the start. -/
structure CollTime where
  interval : Nat
  seconds : ℚ
  runtime : ℚ
  deriving DecidableEq

/-- stats/collector.go:294-300 `Collect`. -/
def CollClock.collect (c : CollClock) (now : ℤ) : CollClock × CollTime :=
  (⟨c.start, now, c.interval + 1⟩, ⟨c.interval + 1, durSeconds (now - c.last), durSeconds (now - c.start)⟩)

/-- Calls of Collect at these times. -/
def CollClock.run (c : CollClock) : List ℤ → List CollTime
  | [] => []
  | now :: later => (c.collect now).2 :: (c.collect now).1.run later

/-- stats/csv.go:87, stats/stdout.go:101: `int64(float64(n)/seconds)`. With no seconds the quotient is
infinite or not a number; `undef` is what the conversion gives then and for what is no int64. -/
def goRate (undef : Int) (n : Nat) (s : ℚ) : Int :=
  if s = 0 then undef else convI64 undef ⌊f64 (f64 n / s)⌋

/-- `%.1f` of a number that is not negative: the nearest number of tenths, ties to even, of the exact
value (strconv.FormatFloat with format 'f'). -/
def f1Text (x : ℚ) : Text :=
  let k := (roundEven (x * 10)).toNat
  decimal (k / 10) ++ '.' :: decimal (k % 10)

/-- The texts and rates of the lines as Go computes them. -/
def goLineEnv (undef : Int) (pct : Stats → Ev → List Nat) : LineEnv := ⟨f1Text, goRate undef, pct⟩

end Finch
