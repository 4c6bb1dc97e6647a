import Verif.Model.Config
/-!
Model of config/config.go:196-275, replacing `$params.foo`, `${params.foo}`, `$ENV` and human numbers
in settings. The environment, the built-in params and the parsing of a human number
(github.com/dustin/go-humanize `ParseBytes`) are inputs.
-/
namespace Finch

structure VarEnv where
  params : TMap Text
  /-- `finch.SystemParams` -/
  sys : Text → Option Text
  /-- `os.LookupEnv` -/
  env : Text → Option Text
  /-- `human.ParseBytes` -/
  human : Text → Option Nat

/-- Length of the match of `\${([^}]+)}` at the beginning of the text. -/
def braceLen : Text → Option Nat
  | '$' :: '{' :: rest =>
    let n := rest.takeWhile (· != '}')
    if n = [] then none
    else if (rest.drop n.length).head? = some '}' then some (n.length + 3) else none
  | _ => none

/-- `[^\s"']` -/
def isVarChar (c : Char) : Bool := !(isReSpace c || c == '"' || c == '\'')

/-- Length of the match of `\$([^\s"']+)` at the beginning of the text. -/
def dollarLen : Text → Option Nat
  | '$' :: rest =>
    let n := rest.takeWhile isVarChar
    if n = [] then none else some (n.length + 1)
  | _ => none

/-- `FindAllString`: leftmost matches that do not overlap. The number counts the characters that still
belong to the last match. -/
def findAllAux (ml : Text → Option Nat) : Nat → Text → List Text
  | _, [] => []
  | k + 1, _ :: cs => findAllAux ml k cs
  | 0, c :: cs =>
    match ml (c :: cs) with
    | some n => (c :: cs).take n :: findAllAux ml (n - 1) cs
    | none => findAllAux ml 0 cs

def findAll (ml : Text → Option Nat) (s : Text) : List Text := findAllAux ml 0 s

/-- config/config.go:217-241: the value of a variable; `none` is an error. -/
def VarEnv.resolve (e : VarEnv) (p : Text) : Option Text :=
  if "params.".toList.isPrefixOf p then e.params.get? (p.drop 7)
  else if "sys.".toList.isPrefixOf p then e.sys (p.drop 4)
  else e.env p

/-- The pairs for the replacer; an error if a variable is not defined. -/
def VarEnv.pairs (e : VarEnv) (name : Text → Text) : List Text → Option (List (Text × Text))
  | [] => some []
  | m :: ms =>
    match e.resolve (name m) with
    | none => none
    | some v => (e.pairs name ms).map fun r => (m, v) :: r

/-- config/config.go:208-244 for one of the two regular expressions; `name` is its first group. -/
def VarEnv.pass (e : VarEnv) (ml : Text → Option Nat) (name : Text → Text) (s : Text) : Option Text :=
  (e.pairs name (findAll ml s)).map fun r => replacer r s

/-- First group of `\${([^}]+)}`. -/
def braceName (m : Text) : Text := (m.drop 2).dropLast

/-- First group of `\$([^\s"']+)`. -/
def dollarName (m : Text) : Text := m.drop 1

/-- `(?i:[MKGBI])`; case folding adds the Kelvin sign. -/
def isUnit (c : Char) : Bool := "mkgbiMKGBI\u212a".toList.contains c

/-- Length of the match of `[\d,]*\d+(?i:[MKGBI]*)` at the beginning of the text. -/
def humanLen (s : Text) : Option Nat :=
  let run := s.takeWhile fun c => isDigit c || c == ','
  let num := trimRight (· == ',') run
  if num = [] then none
  else some (num.length + ((s.drop num.length).takeWhile isUnit).length)

/-- config/config.go:256-268. -/
def VarEnv.numPairs (e : VarEnv) : List Text → Option (List (Text × Text))
  | [] => some []
  | m :: ms =>
    if m.all isDigit then e.numPairs ms
    else
      match e.human m with
      | none => none
      | some d => (e.numPairs ms).map fun r => (m, decimal d) :: r

/-- config/config.go:251-274. -/
def VarEnv.numbers (e : VarEnv) (s : Text) : Option Text :=
  (e.numPairs (findAll humanLen s)).map fun r => replacer r s

/-- config/config.go:206-275. -/
def VarEnv.vars (e : VarEnv) (numbers : Bool) (s : Text) : Option Text :=
  match e.pass braceLen braceName s with
  | none => none
  | some s1 =>
    match e.pass dollarLen dollarName s1 with
    | none => none
    | some s2 => if numbers then e.numbers s2 else some s2

end Finch
