import Verif.Model.Base
/-!
Go standard library functions on strings that the modelled code uses. Strings are lists of
characters (`String.toList` of the Go string; Go strings are assumed to be valid UTF-8).
-/
namespace Finch

/-- Value of a decimal digit. -/
def digitVal (c : Char) : Option Nat :=
  if '0' ≤ c ∧ c ≤ '9' then some (c.toNat - '0'.toNat) else none

/-- Value of a digit string read after `acc`; `none` if some character is not a digit. -/
def digitsVal (acc : Nat) : List Char → Option Nat
  | [] => some acc
  | c :: cs =>
    match digitVal c with
    | none => none
    | some d => digitsVal (acc * 10 + d) cs

/-- `strconv.ParseUint(s, 10, 64)`: `none` for an error (syntax or range). -/
def parseUint64 (s : List Char) : Option Nat :=
  match s with
  | [] => none
  | s =>
    match digitsVal 0 s with
    | none => none
    | some n => if n < 2 ^ 64 then some n else none

/-- `strconv.ParseInt(s, 10, 64)`: `none` for an error (syntax or range). -/
def parseInt64 (s : List Char) : Option Int :=
  match s with
  | '-' :: cs =>
    match parseUint64 cs with
    | none => none
    | some n => if n ≤ 2 ^ 63 then some (-(n : Int)) else none
  | '+' :: cs =>
    match parseUint64 cs with
    | none => none
    | some n => if n < 2 ^ 63 then some (n : Int) else none
  | cs =>
    match parseUint64 cs with
    | none => none
    | some n => if n < 2 ^ 63 then some (n : Int) else none

theorem parseInt64_isI64 {s : List Char} {z : Int} (h : parseInt64 s = some z) : IsI64 z := by
  unfold parseInt64 at h
  split at h <;> split at h
  · cases h
  · split at h
    · cases h; unfold IsI64; omega
    · cases h
  · cases h
  · split at h
    · cases h; unfold IsI64; omega
    · cases h
  · cases h
  · split at h
    · cases h; unfold IsI64; omega
    · cases h

theorem parseUint64_lt {s : List Char} {n : Nat} (h : parseUint64 s = some n) : n < 2 ^ 64 := by
  unfold parseUint64 at h
  split at h
  · cases h
  · split at h
    · cases h
    · split at h
      · cases h; assumption
      · cases h

/-- `strings.Split(s, sep)` for a one-character separator. -/
def splitOn1 (sep : Char) : List Char → List (List Char)
  | [] => [[]]
  | c :: cs =>
    if c = sep then [] :: splitOn1 sep cs
    else match splitOn1 sep cs with
      | [] => [[c]]
      | w :: ws => (c :: w) :: ws

/-- A Go `map[string]string` of params, as an association list with distinct keys. -/
abbrev Params := List (List Char × List Char)

/-- `params[key]`, `ok`. -/
def Params.get (p : Params) (key : String) : Option (List Char) := List.lookup key.toList p

end Finch
