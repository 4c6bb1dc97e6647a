import Verif.Model.Parse
/-!
Go standard library functions and regular expressions on text that the trx file parser and the
config code use. Text is a list of characters (Go strings are assumed to be valid UTF-8).
-/
namespace Finch

/-- A text. -/
abbrev Text := List Char

/-- `unicode.IsSpace`. -/
def isSpace (c : Char) : Bool :=
  c == '\t' || c == '\n' || c == '\x0b' || c == '\x0c' || c == '\r' || c == ' ' ||
  c == '\u0085' || c == '\u00a0' || c == '\u1680' || (0x2000 ≤ c.toNat && c.toNat ≤ 0x200a) ||
  c == '\u2028' || c == '\u2029' || c == '\u202f' || c == '\u205f' || c == '\u3000'

/-- `strings.TrimRight(s, cutset)` for a cutset given as a predicate. -/
def trimRight (p : Char → Bool) (s : Text) : Text := (s.reverse.dropWhile p).reverse

/-- `strings.Trim(s, cutset)`. -/
def trim (p : Char → Bool) (s : Text) : Text := trimRight p (s.dropWhile p)

/-- `strings.TrimSpace`. -/
def trimSpace (s : Text) : Text := trim isSpace s

/-- `strings.Fields`, with the field being read. -/
def fieldsAux : Text → Text → List Text
  | [], [] => []
  | w, [] => [w]
  | w, c :: cs =>
    if isSpace c then (if w = [] then fieldsAux [] cs else w :: fieldsAux [] cs)
    else fieldsAux (w ++ [c]) cs

/-- `strings.Fields`. -/
def fields (s : Text) : List Text := fieldsAux [] s

/-- `strings.TrimSuffix`. -/
def trimSuffix (suf s : Text) : Text :=
  if suf.isSuffixOf s then s.take (s.length - suf.length) else s

/-- `strings.Replace(s, old, new, 1)` for a non-empty `old`. -/
def replaceFirst (old new : Text) : Text → Text
  | [] => []
  | c :: cs =>
    if old.isPrefixOf (c :: cs) then new ++ (c :: cs).drop old.length
    else c :: replaceFirst old new cs

/-- The first pair whose key is a prefix of the text. -/
def firstMatch (pairs : List (Text × Text)) (s : Text) : Option (Text × Text) :=
  pairs.find? (fun kv => kv.1.isPrefixOf s)

/-- `strings.NewReplacer(pairs...).Replace(s)`: replacements are done in the order they appear in the
text, without overlapping matches; at each position the pairs are tried in argument order. `skip` is
the number of characters that still belong to the last match. Keys are not empty. -/
def replacerAux (pairs : List (Text × Text)) : Nat → Text → Text
  | _, [] => []
  | skip + 1, _ :: cs => replacerAux pairs skip cs
  | 0, c :: cs =>
    match firstMatch pairs (c :: cs) with
    | some (k, v) => v ++ replacerAux pairs (k.length - 1) cs
    | none => c :: replacerAux pairs 0 cs

/-- `strings.NewReplacer(pairs...).Replace(s)`. -/
def replacer (pairs : List (Text × Text)) (s : Text) : Text := replacerAux pairs 0 s

/-- `strings.ReplaceAll(s, old, new)` for a non-empty `old`. -/
def replaceAll (old new s : Text) : Text := replacer [(old, new)] s

/-- `\w` of Go's regexp. -/
def isWord (c : Char) : Bool :=
  ('0' ≤ c && c ≤ '9') || ('a' ≤ c && c ≤ 'z') || ('A' ≤ c && c ≤ 'Z') || c == '_'

/-- `[\w_-]` of `DataKeyPattern`, trx/trx.go:30. -/
def isKeyChar (c : Char) : Bool := isWord c || c == '-'

/-- `\d` of Go's regexp. -/
def isDigit (c : Char) : Bool := '0' ≤ c && c ≤ '9'

/-- `\s` of Go's regexp. -/
def isReSpace (c : Char) : Bool := c == '\t' || c == '\n' || c == '\x0c' || c == '\r' || c == ' '

/-- A piece of a query: a character or a data key (name without `@`; `call`: followed by `()`). -/
inductive Tok where
  | lit (c : Char)
  | key (name : Text) (call : Bool)
  deriving DecidableEq, Repr

/-- Is the text continued by `()`. -/
def startsCall : Text → Bool
  | '(' :: ')' :: _ => true
  | _ => false

/-- The data key that starts here, if any: one match of `@[\w_-]+(?:\(\))?` (trx/trx.go:30). -/
def keyAt : Text → Option (Text × Bool)
  | '@' :: cs =>
    let n := cs.takeWhile isKeyChar
    if n = [] then none else some (n, startsCall (cs.dropWhile isKeyChar))
  | _ => none

/-- Text of a data key as it matched. -/
def keyText (n : Text) (call : Bool) : Text := '@' :: n ++ (if call then ['(', ')'] else [])

/-- `DataKeyPattern.FindAllString`, with the characters between the matches. `skip` is the number of
characters that still belong to the last match. -/
def tokenizeAux : Nat → Text → List Tok
  | _, [] => []
  | skip + 1, _ :: cs => tokenizeAux skip cs
  | 0, c :: cs =>
    match keyAt (c :: cs) with
    | some (n, call) => .key n call :: tokenizeAux ((keyText n call).length - 1) cs
    | none => .lit c :: tokenizeAux 0 cs

/-- `DataKeyPattern` applied to a text. -/
def tokenize (s : Text) : List Tok := tokenizeAux 0 s

/-- The text of a piece. -/
def Tok.text : Tok → Text
  | .lit c => [c]
  | .key n call => keyText n call

/-- The text of pieces. -/
def render (ts : List Tok) : Text := ts.flatMap Tok.text

/-- The data keys of the pieces: name with `@` and whether it is an explicit call. -/
def tokKeys : List Tok → List (Text × Bool)
  | [] => []
  | .lit _ :: ts => tokKeys ts
  | .key n call :: ts => ('@' :: n, call) :: tokKeys ts

/-- `DataKeyPattern.FindAllString(s, -1)`. -/
def findKeys (s : Text) : List Text := (tokKeys (tokenize s)).map fun k => k.1 ++ (if k.2 then ['(', ')'] else [])

/-- Remove an explicit call mark, trx/trx.go:434-436. -/
def Tok.strip : Tok → Tok
  | .lit c => .lit c
  | .key n _ => .key n false

/-- trx/trx.go:434-436: `ExplicitCallPattern.ReplaceAllStringFunc(query, TrimSuffix "()")`.
`ExplicitCallPattern` matches exactly the matches of `DataKeyPattern` that end in `()`, because the
name part of both is the longest run of name characters. -/
def stripCalls (s : Text) : Text := render ((tokenize s).map Tok.strip)

/-- Decimal digits of a number, `fmt.Sprintf("%d", n)`. -/
def decimal (n : Nat) : Text := (Nat.repr n).toList

/-- The text before and after the last occurrence of `*/`, or none. -/
def splitLastClose : Text → Option (Text × Text)
  | [] => none
  | c :: cs =>
    match splitLastClose cs with
    | some (a, b) => some (c :: a, b)
    | none => if ['*', '/'].isPrefixOf (c :: cs) then some ([], (c :: cs).drop 2) else none

/-- A match of `reCSV` (trx/trx.go:218): the number, the trimmed template and the text after the
match. -/
structure CsvMatch where
  digits : Text
  template : Text
  rest : Text
  deriving DecidableEq, Repr

/-- `reCSV` = `\/\*\!csv\s+(\d+)\s+(.+)\*\/` at this position. `.+` is greedy, so the match extends
to the last `*/` of the text (which has no line breaks). If `.+` would be empty the preceding `\s+`
gives one space back, if it has two or more; the template is trimmed in any case
(trx/trx.go:385). -/
def csvAt (s : Text) : Option CsvMatch :=
  let open_ := "/*!csv".toList
  if open_.isPrefixOf s then
    let s1 := s.drop open_.length
    let sp1 := s1.takeWhile isReSpace
    let s2 := s1.dropWhile isReSpace
    let ds := s2.takeWhile isDigit
    let s3 := s2.dropWhile isDigit
    let sp2 := s3.takeWhile isReSpace
    let s4 := s3.dropWhile isReSpace
    if sp1 = [] ∨ ds = [] ∨ sp2 = [] then none
    else
      match splitLastClose s4 with
      | none => none
      | some (t, rest) =>
        if t = [] ∧ sp2.length < 2 then none
        else some ⟨ds, trimSpace t, rest⟩
  else none

/-- The leftmost match of `reCSV`: the text before it and the match. -/
def findCsv : Text → Option (Text × CsvMatch)
  | [] => none
  | c :: cs =>
    match csvAt (c :: cs) with
    | some m => some ([], m)
    | none =>
      match findCsv cs with
      | some (a, m) => some (c :: a, m)
      | none => none

/-- `strings.Join`. -/
def join (sep : Text) : List Text → Text
  | [] => []
  | [s] => s
  | s :: t :: ss => s ++ sep ++ join sep (t :: ss)

/-- `strings.ToUpper` for ASCII text. -/
def upperAscii (s : Text) : Text :=
  s.map fun c => if 'a' ≤ c ∧ c ≤ 'z' then Char.ofNat (c.toNat - 32) else c

/-- `reFirstWord.FindString` (trx/trx.go:219): `^(\w+)`. -/
def firstWord (s : Text) : Text := s.takeWhile isWord

end Finch
