import Verif.Model.Limit
import Mathlib.Data.Rat.Defs
import Mathlib.Algebra.Order.Field.Rat
/-!
Model of the progress lines that data limits log (limit/data.go:94-104, 241-252). Floats are exact here. The clock is an
input, in nanoseconds; the two times that one line takes are one. How the line is written is left out.
-/
namespace Finch

/-- What a progress line says. -/
structure ProgLine where
  /-- when it is logged -/
  time : Int
  /-- rows or bytes -/
  done : Int
  max : Int
  pct : ℚ
  /-- since the line before -/
  took : Int
  wrote : Int
  /-- nanoseconds; `none` if Go does not say what it is -/
  eta : Option Int
  deriving DecidableEq

/-- The fields for progress of limit/data.go:64-72 `Rows` and limit/data.go:122-136 `Size`; `last` is `pn` or `bytes`.
`none` is the zero time. -/
structure Prog where
  max : Int
  r : Nat
  p : ℚ
  t : Option Int
  last : Int

/-- limit/data.go:97-98 and 245-246: `time.Duration(float64(left)/rate) * time.Second`, where `rate` is
`float64(wrote) / d.Seconds()`. Without time the rate is infinite. A float that is no int64 can become anything. -/
def progEta (left wrote took : Int) : Option Int :=
  if wrote = 0 then none
  else if took = 0 then some 0
  else
    let s := (left * took).tdiv (wrote * 1000000000)
    if i64 s = s then some (i64 (s * 1000000000)) else none

/-- limit/data.go:94-104 and 241-252: `n` is done, `left` is what is left. `time.Time.Sub` of the zero time is the longest
duration. -/
def Prog.tell (g : Prog) (now n left : Int) : Prog × Option ProgLine :=
  let p : ℚ := n / g.max * 100
  if p - g.p > g.r then
    let took := match g.t with
      | some t => now - t
      | none => 9223372036854775807
    ({ g with p, t := some now, last := n },
      some { time := now, done := n, max := g.max, pct := p, took, wrote := n - g.last
             eta := progEta left (n - g.last) took })
  else (g, none)

/-- limit/data.go:64-72 `Rows` with all fields. -/
structure RowsLog where
  rows : Rows
  prog : Prog

/-- limit/data.go:76-88 `NewRows`. -/
def RowsLog.new (max offset : Int) : Option RowsLog :=
  (Rows.new max offset).map fun rows => ⟨rows, { max, r := 5, p := 0, t := none, last := offset }⟩

/-- limit/data.go:90-106 `Rows.Affected`. -/
def RowsLog.affected (lm : RowsLog) (now k : Int) : RowsLog × Option ProgLine :=
  let rows := lm.rows.affected k
  let (prog, line) := lm.prog.tell now rows.n (i64 (rows.max - rows.n))
  (⟨rows, prog⟩, line)

/-- limit/data.go:108-116 `Rows.More`. -/
def RowsLog.more (lm : RowsLog) (now : Int) : RowsLog × Bool :=
  ({ lm with prog := { lm.prog with t := lm.prog.t <|> some now } }, lm.rows.more)

/-- limit/data.go:148-157: how often progress of a size limit is reported. -/
def sizeEvery (max : Nat) : Nat :=
  let r := 5
  let r := if max ≤ 1073741824 then 10 else r
  let r := if max ≥ 107374182400 then 2 else r
  r

/-- limit/data.go:159-168, 221: the fields for progress after the first call of `Size.More` at time `now`. -/
def sizeProg (max : Nat) (now : Int) : Prog := { max, r := sizeEvery max, p := 0, t := some now, last := 0 }

/-- limit/data.go:240-252: a check of the size found `bytes`; the rest is a difference of uint64. -/
def Prog.size (g : Prog) (now : Int) (bytes : Nat) : Prog × Option ProgLine :=
  g.tell now bytes ((g.max - bytes) % 18446744073709551616)

/-- Calls of `Affected` at these times with these numbers of rows: the lines logged. -/
def RowsLog.run (lm : RowsLog) : List (Int × Int) → RowsLog × List ProgLine
  | [] => (lm, [])
  | (now, k) :: rest =>
    let (lm, l) := lm.affected now k
    let (lm, ls) := lm.run rest
    (lm, l.toList ++ ls)

/-- Checks of a size limit at these times that found these sizes: the lines logged. -/
def Prog.sizes (g : Prog) : List (Int × Nat) → Prog × List ProgLine
  | [] => (g, [])
  | (now, bytes) :: rest =>
    let (g, l) := g.size now bytes
    let (g, ls) := g.sizes rest
    (g, l.toList ++ ls)

end Finch
