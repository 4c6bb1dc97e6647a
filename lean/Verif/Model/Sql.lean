import Verif.Model.Gen
import Verif.Model.Report
import Verif.Model.Client
/-!
Model of the SQL text a client sends for a statement that is not prepared: client/client.go:285,319
`fmt.Sprintf(c.Statements[i].Query, c.values[i]...)`.
-/
namespace Finch

/-- What package fmt does that is not modelled: a value with another verb than `%d`, `%s` and `%v` or
with one that does not suit its type, and the rest of a format after a flag, width, precision or
argument index. Theorems hold for every choice. -/
structure FmtOther where
  verb : Char → GoVal → Text
  flags : Text → List GoVal → Text

/-- `%v` of a value. -/
def goText : GoVal → Text
  | .num _ n => decInt n
  | .str s => s
  | .nil => "<nil>".toList

/-- A value with a verb (package fmt, `printArg`). -/
def verbText (o : FmtOther) (c : Char) (v : GoVal) : Text :=
  if c = 'v' then goText v
  else
    match v with
    | .num _ n => if c = 'd' then decInt n else o.verb c v
    | .str s => if c = 's' then s else o.verb c v
    | .nil => "%!".toList ++ c :: "(<nil>)".toList

/-- An argument nothing used: type and value. -/
def extraArg : GoVal → Text
  | .num t n => t ++ '=' :: decInt n
  | .str s => "string=".toList ++ s
  | .nil => "<nil>".toList

/-- Arguments separated by comma and space. -/
def commaSep : List Text → Text
  | [] => []
  | [x] => x
  | x :: xs => x ++ ", ".toList ++ commaSep xs

/-- What package fmt writes at the end for arguments that no verb used. -/
def extraArgs (args : List GoVal) : Text :=
  if args = [] then [] else "%!(EXTRA ".toList ++ commaSep (args.map extraArg) ++ [')']

/-- Is the character after `%` a flag, width, precision or argument index. -/
def isFmtFlag (c : Char) : Bool := "+-# 0123456789.*[".toList.contains c

/-- `fmt.Sprintf`: `inVerb` is true after `%`. -/
def goSprintfAux (o : FmtOther) : Bool → Text → List GoVal → Text
  | false, [], args => extraArgs args
  | true, [], args => noVerb ++ extraArgs args
  | false, c :: cs, args =>
    if c = '%' then goSprintfAux o true cs args else c :: goSprintfAux o false cs args
  | true, c :: cs, args =>
    if c = '%' then '%' :: goSprintfAux o false cs args
    else if isFmtFlag c then o.flags (c :: cs) args
    else
      match args with
      | [] => missingArg c ++ goSprintfAux o false cs []
      | a :: args => verbText o c a ++ goSprintfAux o false cs args

/-- `fmt.Sprintf`. -/
def goSprintf (o : FmtOther) (format : Text) (args : List GoVal) : Text :=
  goSprintfAux o false format args

/-- client/client.go:262-285,319: the text of a statement that is not prepared, given the values of the
previous execution and what the generators of its data keys return now. -/
def sentText (o : FmtOther) (s : Stmt) (old : List GoVal) (vs : List (List GoVal)) : Text :=
  goSprintf o s.query (fillValues old vs)

end Finch
