import Verif.Model.Duration
/-!
`humanize.ParseBytes`, which reads the size of the modifiers `table-size` and `database-size`
(trx/trx.go:289). It is written down from the source of github.com/dustin/go-humanize (bytes.go), which is
not in this sandbox. The text is a word of a modifier (trx/trx.go:256), so it has no white space. Digits and
letters are those of ASCII. `strconv.ParseFloat` gives the float64 nearest to the number.
-/
namespace Finch

/-- `bytesSizeTable`. -/
def byteTable : List (Text × Nat) :=
  [("b".toList, 1),
   ("kib".toList, 1024), ("kb".toList, 1000),
   ("mib".toList, 1048576), ("mb".toList, 1000000),
   ("gib".toList, 1073741824), ("gb".toList, 1000000000),
   ("tib".toList, 1099511627776), ("tb".toList, 1000000000000),
   ("pib".toList, 1125899906842624), ("pb".toList, 1000000000000000),
   ("eib".toList, 1152921504606846976), ("eb".toList, 1000000000000000000),
   ([], 1),
   ("ki".toList, 1024), ("k".toList, 1000),
   ("mi".toList, 1048576), ("m".toList, 1000000),
   ("gi".toList, 1073741824), ("g".toList, 1000000000),
   ("ti".toList, 1099511627776), ("t".toList, 1000000000000),
   ("pi".toList, 1125899906842624), ("p".toList, 1000000000000000),
   ("ei".toList, 1152921504606846976), ("e".toList, 1000000000000000000)]

/-- Lookup in `bytesSizeTable`. -/
def byteUnit (u : Text) : Option Nat := (byteTable.find? fun e => e.1 = u).map (·.2)

/-- A character of the number: a digit, a point or a comma. -/
def numChar (c : Char) : Bool := isDigit c || c = '.' || c = ','

/-- The number that digits stand for. -/
def digitsNum (ds : Text) : Nat := ds.foldl (fun a c => a * 10 + (c.toNat - 48)) 0

/-- The number that `strconv.ParseFloat` reads from a text of digits and points: digits, of which there
is at least one, with at most one point. -/
def parseDec (s : Text) : Option ℚ :=
  let a := s.takeWhile isDigit
  match s.dropWhile isDigit with
  | [] => if a = [] then none else some (digitsNum a)
  | c :: b =>
    if c = '.' ∧ b.all isDigit = true ∧ (a ≠ [] ∨ b ≠ []) then
      some ((digitsNum a : ℚ) + (digitsNum b : ℚ) / 10 ^ b.length)
    else none

/-- `humanize.ParseBytes`. -/
def parseBytes (s : Text) : Option Nat :=
  let num := (s.takeWhile numChar).filter fun c => c ≠ ','
  match parseDec num with
  | none => none
  | some x =>
    if f64 x ≥ 2 ^ 1024 then none
    else
      match byteUnit ((s.dropWhile numChar).map Char.toLower) with
      | none => none
      | some m =>
        let f := f64 (f64 x * m)
        if f ≥ 18446744073709551616 then none else some ⌊f⌋.toNat

end Finch
