import Verif.Model.Report
/-!
Model of the table that stats/stdout.go:72-85 prints: `text/tabwriter` as stats/stdout.go:54 uses it
(`NewWriter(os.Stdout, 1, 0, 1, ' ', AlignRight|Debug)`: minimal width 1, padding 1, spaces, cells to the right, a bar
between columns). Written down from the documentation and the source of the package, which is not in this sandbox. A
character has width 1. Vertical tabs and form feeds, which it treats like tabs and newlines, are not modelled. Failing
writes are not modelled.
-/
namespace Finch

/-- Cells of column `j` of neighbouring lines are a block if each of the lines has a tab after the cell. The block
of line `i`. -/
def tabBlock (lines : List (List Text)) (i j : Nat) : List (List Text) :=
  ((lines.take i).reverse.takeWhile fun l => decide (j + 1 < l.length)).reverse ++
    (lines.drop i).takeWhile fun l => decide (j + 1 < l.length)

/-- `Writer.format`: the width of a block is the width of the widest cell and the padding 1, at least 1. -/
def tabWidth (lines : List (List Text)) (i j : Nat) : Nat :=
  ((tabBlock lines i j).map fun l => (l[j]?.getD []).length + 1).foldl max 1

/-- `Writer.writeLines`: one line from cell number `j` on. Cells with a tab after them are filled with spaces on the
left, and a bar is written before each cell but the first. -/
def tabLine (width : Nat → Nat) : Nat → List Text → Text
  | _, [] => []
  | _, [c] => c
  | j, c :: cs => List.replicate (width j - c.length) ' ' ++ c ++ '|' :: tabLine width (j + 1) cs

/-- `Writer.Write` and `Writer.Flush`: cells end with a tab, lines with a newline. -/
def tabFlush (t : Text) : Text :=
  let lines := (splitOn1 '\n' t).map (splitOn1 '\t')
  join ['\n'] (lines.mapIdx fun i l => tabLine (tabWidth lines i) 0 l)

/-- stats/collector.go:39-50 `Instance.Combine`: the line of all instances, `none` if there is none (index out of
range). `all` is what the reporter keeps from report to report (stats/stdout.go:63-67), `errs` the sum of the error
counts. -/
def combinedLine (errs : Stats → Nat) (all : Stats) : List InstLine → Option InstLine
  | [] => none
  | i :: rest =>
    let total := rest.foldl (fun s j => s.combine j.total) (all.copy i.total)
    let clients := rest.foldl (fun n j => n + j.clients) i.clients
    some { i with
      hostname := '(' :: decimal (rest.length + 1) ++ " combined)".toList
      total
      clients
      errs := errs total }

/-- stats/stdout.go:74-83: the lines for the instances, and for all of them combined. -/
def StdoutOpts.lines (o : StdoutOpts) (errs : Stats → Nat) (all : Stats) (insts : List InstLine) : List InstLine :=
  (o.rows insts.length).filterMap fun
    | .inst i => insts[i]?
    | .combined => combinedLine errs all insts

/-- stats/stdout.go:72-85 `Stdout.Report`: what is written to stdout; `names` are the percentiles. -/
def stdoutReport (v : LineEnv) (names : List Text) (o : StdoutOpts) (errs : Stats → Nat) (all : Stats)
    (insts : List InstLine) : Text :=
  tabFlush (stdoutHeader names ++ '\n' :: ((o.lines errs all insts).map (stdoutPrint v)).flatten) ++ ['\n']

end Finch
