import Verif.Model.Collector
import Verif.Model.Text
import Verif.Model.Parse
import Verif.Model.Generators
import Verif.Model.Config
/-!
Model of the reporters: stats/reporter.go (percentiles, header), stats/csv.go and stats/stdout.go. The
text of a float64 (`%.1f`) and a rate (`int64(float64(n) / seconds)`) are inputs; go-humanize's `Comma` is
modelled from its documentation (commas after every three digits); the alignment of columns by text/tabwriter is not modelled: a line is the text written to the tabwriter.
-/
namespace Finch

/-! ## Percentiles: stats/reporter.go:93-120 -/

/-- A float64 as far as comparisons with 0 and 100 are concerned. -/
inductive FVal where
  | nan
  | inf (neg : Bool)
  | fin (q : ℚ)
  deriving DecidableEq, Repr

/-- stats/reporter.go:113: `f < 0.0 || f > 100.0`; comparisons with NaN are false. -/
def FVal.outside : FVal → Bool
  | .nan => false
  | .inf _ => true
  | .fin q => decide (q < 0 ∨ q > 100)

/-- stats/reporter.go:108: `strings.TrimLeft(strings.TrimSpace(raw), "Pp")`. -/
def percentileText (raw : Text) : Text := (trimSpace raw).dropWhile fun c => c == 'P' || c == 'p'

/-- stats/reporter.go:20-21 -/
def defaultPercentiles : List (Text × FVal) := [("P999".toList, .fin (999 / 10))]

/-- The loop stats/reporter.go:107-118. `pf` is `strconv.ParseFloat(_, 64)`. The two slices that are
returned are one list of pairs here, they grow together at stats/reporter.go:116-117. -/
def percentileLoop (pf : Text → Option FVal) : List Text → Option (List (Text × FVal))
  | [] => some []
  | raw :: rest =>
    let t := percentileText raw
    match pf t with
    | none => none
    | some f =>
      if f.outside then none
      else (percentileLoop pf rest).map fun l => ('P' :: t, f) :: l

/-- stats/reporter.go:97-120 `ParsePercentiles`. -/
def parsePercentiles (pf : Text → Option FVal) (csv : Text) : Option (List (Text × FVal)) :=
  if trimSpace csv = [] then some defaultPercentiles
  else percentileLoop pf (splitOn1 ',' csv)

/-! ## Lines -/

/-- What package fmt writes for a percent sign at the end of a format. -/
def noVerb : Text := "%!(NOVERB)".toList

/-- What package fmt writes for a verb without argument. -/
def missingArg (c : Char) : Text := "%!".toList ++ c :: "(MISSING)".toList

/-- `fmt.Sprintf` with verbs `%d`, `%s` and `%.1f`, for texts of the arguments: each verb is replaced by
the next argument. `inVerb` is true after `%`. Without an argument the verb is reported as missing,
`%%` is a percent sign, and a percent sign at the end is reported as having no verb. Arguments without
verb (`%!(EXTRA ...)`) do not occur. -/
def sprintfAux : Bool → Text → List Text → Text
  | false, [], _ => []
  | true, [], _ => noVerb
  | false, c :: cs, args => if c = '%' then sprintfAux true cs args else c :: sprintfAux false cs args
  | true, c :: cs, args =>
    if c = '%' then '%' :: sprintfAux false cs args
    else if c = '.' ∨ c.isDigit then sprintfAux true cs args
    else match args with
      | a :: args => a ++ sprintfAux false cs args
      | [] => missingArg c ++ sprintfAux false cs []

/-- `fmt.Sprintf`. -/
def sprintf (format : Text) (args : List Text) : Text := sprintfAux false format args

/-- stats/reporter.go:17 -/
def headerFormat : Text :=
  "interval,duration,runtime,clients,QPS,min,%s,max,r_QPS,r_min,%s,r_max,w_QPS,w_min,%s,w_max,TPS,c_min,%s,c_max,errors,compute".toList

/-- stats/reporter.go:18 -/
def csvFormat : Text :=
  "%d,%.1f,%.1f,%d,%d,%d,P,%d,%d,%d,P,%d,%d,%d,P,%d,%d,%d,P,%d,%d,%s".toList

/-- stats/stdout.go:94 -/
def stdoutFormat : Text :=
  "%d\t%.1f\t%.1f\t%d\t%s\t%s\tP\t%s\t%s\t%s\tP\t%s\t%s\t%s\tP\t%s\t%s\t%s\tP\t%s\t%s\t%s\n".toList

/-- stats/csv.go:47-52 and stats/stdout.go:45-50: the header with the names of the percentiles. -/
def reportHeader (names : List Text) : Text :=
  sprintf headerFormat
    [join [','] names,
     join [','] (names.map ("r_".toList ++ ·)),
     join [','] (names.map ("w_".toList ++ ·)),
     join [','] (names.map ("c_".toList ++ ·))]

/-- stats/stdout.go:51: `strings.ReplaceAll(header, ",", "\t")`. -/
def stdoutHeader (names : List Text) : Text :=
  (reportHeader names).map fun c => if c = ',' then '\t' else c

/-- stats/collector.go:21-29 `Instance`, what a line needs: `errs` is the sum of the error counts
(stats/csv.go:72-75). -/
structure InstLine where
  hostname : Text
  clients : Nat
  interval : Nat
  seconds : ℚ
  runtime : ℚ
  total : Stats
  errs : Nat

/-- What the formatting of numbers and the arithmetic of floats give: `f1` is `%.1f`, `rate n s` is
`int64(float64(n)/s)`, `pct` the percentiles of an event (stats/stats.go:141-179). -/
structure LineEnv where
  f1 : ℚ → Text
  rate : Nat → ℚ → Int
  pct : Stats → Ev → List Nat

/-- `%d` of an int64. -/
def decInt (n : Int) : Text := if n < 0 then '-' :: decimal n.natAbs else decimal n.natAbs

/-- Commas after every three digits, from the last digit on. -/
def commaRev : Text → Text
  | a :: b :: c :: d :: rest => a :: b :: c :: ',' :: commaRev (d :: rest)
  | l => l

/-- `humanize.Comma`. -/
def comma (n : Int) : Text :=
  (if n < 0 then ['-'] else []) ++ (commaRev (decimal n.natAbs).reverse).reverse

/-- stats/reporter.go:123-144 `intsToString`; `int` is `decInt` or `comma`. -/
def intsToString (int : Int → Text) (sep : Text) (l : List Nat) : Text :=
  join sep (l.map fun n : Nat => int n)

/-- stats/csv.go:79-111 and stats/stdout.go:94-128: the arguments of the format. The interval and the
number of clients are `%d` in both. -/
def lineArgs (v : LineEnv) (int : Int → Text) (i : InstLine) (compute : Text) : List Text :=
  let e := i.total.ev
  [decimal i.interval, v.f1 i.seconds, v.f1 i.runtime, decimal i.clients,
   int (v.rate (e .total).n i.seconds), int (e .total).min, int (e .total).max,
   int (v.rate (e .read).n i.seconds), int (e .read).min, int (e .read).max,
   int (v.rate (e .write).n i.seconds), int (e .write).min, int (e .write).max,
   int (v.rate (e .commit).n i.seconds), int (e .commit).min, int (e .commit).max,
   int i.errs, compute]

/-- stats/csv.go:79-117 and stats/stdout.go:94-134: the line, with the percentiles in the place of the
first four `P` one after the other. -/
def reportLine (v : LineEnv) (int : Int → Text) (format sep : Text) (i : InstLine) (compute : Text) : Text :=
  let line := sprintf format (lineArgs v int i compute)
  let line := replaceFirst ['P'] (intsToString int sep (v.pct i.total .total)) line
  let line := replaceFirst ['P'] (intsToString int sep (v.pct i.total .read)) line
  let line := replaceFirst ['P'] (intsToString int sep (v.pct i.total .write)) line
  replaceFirst ['P'] (intsToString int sep (v.pct i.total .commit)) line

/-- stats/csv.go:59-120 `CSV.Report`: the line, `none` if there is no instance (index out of range). The
time, interval number and so on are those of the first instance. `errs` is the sum of the error counts of
the combined statistics. -/
def csvReport (v : LineEnv) (errs : Stats → Nat) (from' : List InstLine) : Option Text :=
  match from' with
  | [] => none
  | i :: rest =>
    let total := rest.foldl (fun s j => s.combine j.total) (Stats.new.copy i.total)
    let clients := rest.foldl (fun n j => n + j.clients) i.clients
    let compute := if from'.length > 1 then decimal from'.length ++ " combined".toList else i.hostname
    some (reportLine v decInt csvFormat [','] { i with total, clients, errs := errs total } compute)

/-- stats/stdout.go:87-137 `Stdout.print`: the text written. The line is used as a format. -/
def stdoutPrint (v : LineEnv) (i : InstLine) : Text :=
  sprintf (reportLine v comma stdoutFormat ['\t'] i i.hostname) []

/-! ## The stdout reporter -/

/-- The options of `Stdout`: lines for each instance, a combined line. -/
structure StdoutOpts where
  each : Bool
  combined : Bool
  deriving DecidableEq, Repr

/-- The names of the options, stats/stdout.go:56-60. -/
def optEach : Text := "each-instance".toList
def optCombined : Text := "combined".toList

/-- stats/stdout.go:52-67. -/
def newStdout (opts : TMap Text) : StdoutOpts :=
  let o : StdoutOpts :=
    { each := goBool ((opts.get? optEach).getD []), combined := goBool ((opts.get? optCombined).getD []) }
  if (opts.get? optEach).isNone ∧ (opts.get? optCombined).isNone then { each := true, combined := true }
  else o

/-- A line of a report on stdout: that of instance number `i`, or the combined one. -/
inductive StdoutRow where
  | inst (i : Nat)
  | combined
  deriving DecidableEq, Repr

/-- stats/stdout.go:72-85 `Stdout.Report`: the lines after the header, for `n` instances. -/
def StdoutOpts.rows (o : StdoutOpts) (n : Nat) : List StdoutRow :=
  (if o.each then (List.range n).map .inst else []) ++
  (if o.combined ∧ n > 1 then [.combined] else [])

end Finch
