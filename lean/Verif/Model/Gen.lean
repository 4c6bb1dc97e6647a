import Verif.Model.Generators
import Verif.Model.Trx
/-!
Model of the data generator interface (data/generator.go): how generators are registered and made, and
`Format`, `Values`, `Scan` and `Copy` of all built-in generators.
-/
namespace Finch

/-- A value of a generator or column: a number with the name of its Go type, a string, or nil. -/
inductive GoVal where
  | num (typ : Text) (n : Int)
  | str (s : Text)
  | nil
  deriving DecidableEq, Repr

/-- What floats do (`newInt`, `newIntGaps`): rounding, `strconv.ParseFloat`, and what the conversion of a
float outside the range of int64 (or NaN) gives. -/
structure GenEnv where
  rnd : ℚ → ℚ
  parseFloat : List Char → Option (Option ℚ)
  undef : Int

/-- A built-in generator. Three of them keep their params (data/integer.go:111,170,234). The source of
random words of str-fill-az and the last value of xid are not state here: the words are inputs. -/
inductive Gen where
  | int (g : IntGen)
  | gaps (p : Params) (g : IntGaps)
  | range (p : Params) (g : IntRange)
  | rangeSeq (p : Params) (g : IntRangeSeq)
  | autoInc (g : AutoInc)
  | strFill (len : Nat)
  | xid
  | clientId (ids : List Nat)
  | column (g : Column)
  | noop

/-- data/generator.go:55-87 `factory.Make`; `none` is an error. -/
def builtinGen (env : GenEnv) (name : String) (p : Params) : Option Gen :=
  if name = "int" then (newInt env.rnd env.parseFloat p).map .int
  else if name = "int-gaps" then (newIntGaps env.rnd p).map (.gaps p)
  else if name = "int-range" then (newIntRange p).map (.range p)
  else if name = "int-range-seq" then (newIntRangeSeq p).map (.rangeSeq p)
  else if name = "auto-inc" then (newAutoInc p).map .autoInc
  else if name = "str-fill-az" then (newStrFillAz p).map .strFill
  else if name = "xid" then some .xid
  else if name = "client-id" then (newClientId p).map .clientId
  else if name = "column" then some (.column (newColumn p))
  else none

/-- data/generator.go:53 `Factory`: makes a generator from name, data key and params. -/
abbrev GenFactory (G : Type) := String → String → Params → Option G

/-- data/generator.go:98-105 `Register`: true if the name was registered, false for the error. -/
def genRegister {G : Type} (r : GoMap String (GenFactory G)) (name : String) (f : GenFactory G) :
    GoMap String (GenFactory G) × Bool :=
  match r name with
  | some _ => (r, false)
  | none => (r.set name f, true)

/-- data/generator.go:32-42: the names `init` registers, in order. -/
def builtinNames : List String :=
  ["int", "int-gaps", "int-range", "int-range-seq", "auto-inc", "str-fill-az", "xid", "client-id",
    "column"]

/-- data/generator.go:25-43 `init` and then registrations of further factories. -/
def registerAll {G : Type} (r : GoMap String (GenFactory G)) (l : List (String × GenFactory G)) :
    GoMap String (GenFactory G) :=
  l.foldl (fun r nf => (genRegister r nf.1 nf.2).1) r

/-- data/generator.go:25-43 `init`: the built-in factory `f` is registered for every built-in name. -/
def genInit {G : Type} (f : GenFactory G) : GoMap String (GenFactory G) :=
  registerAll GoMap.empty (builtinNames.map fun n => (n, f))

/-- data/generator.go:108-114 `Make`. -/
def genMake {G : Type} (r : GoMap String (GenFactory G)) (name key : String) (p : Params) :
    Option G :=
  match r name with
  | none => none
  | some f => f name key p

/-- `Format`: data/integer.go:79,154,206,269,326, data/string.go:43, data/id.go:26,79,
data/column.go:32-37,80. -/
def Gen.format : Gen → Nat × Text
  | .int _ => (1, "%d".toList)
  | .gaps _ _ => (1, "%d".toList)
  | .range _ _ => (2, "%d".toList)
  | .rangeSeq _ _ => (2, "%d".toList)
  | .autoInc _ => (1, "%d".toList)
  | .strFill _ => (1, "'%s'".toList)
  | .xid => (1, "'%s'".toList)
  | .clientId ids => (ids.length, "%d".toList)
  | .column g => (1, if g.quoteValue then "'%v'".toList else "%v".toList)
  | .noop => (0, [])

/-- `Copy`: data/integer.go:82-85,157-160,209-212,272-275,329-334, data/string.go:46-51, data/id.go:29-31,81,
data/column.go:39-43,81. `none`: the constructor fails and `Copy` returns a nil generator. -/
def Gen.copy (env : GenEnv) : Gen → Option Gen
  | .int g => some (.int g)
  | .gaps p _ => (newIntGaps env.rnd p).map (.gaps p)
  | .range p _ => (newIntRange p).map (.range p)
  | .rangeSeq p _ => (newIntRangeSeq p).map (.rangeSeq p)
  | .autoInc g => some (.autoInc ⟨g.i, g.step⟩)
  | .strFill len => some (.strFill len)
  | .xid => some .xid
  | .clientId ids => some (.clientId ids)
  | .column g => some (.column g.copy)
  | .noop => some .noop

/-- What one call of `Values` may draw: random numbers, random words, a new xid, and the run count of
the caller. -/
structure GenDraw where
  int : IntDraw
  r : Nat
  words : List Nat
  xid : Text
  rc : RunCount

/-- Outcome of `Values`: values, a panic, or the given random words did not suffice (the code would draw
more). -/
inductive GenRes where
  | vals (g : Gen) (vs : List GoVal)
  | panic
  | words

/-- Bytes as text. -/
def bytesText (b : List Nat) : Text := b.map Char.ofNat

/-- The value of a column as Go value. -/
def ColVal.goVal : ColVal → GoVal
  | .nil => .nil
  | .str b => .str (bytesText b)
  | .other v => .num "int64".toList v

/-- An int64. -/
def goI64 (n : Int) : GoVal := .num "int64".toList n

/-- `Values`: data/integer.go:87-105,162-164,214-224,277-289,336-338, data/string.go:53-69,
data/id.go:33-35,83-93, data/column.go:63-68,82. -/
def Gen.values (env : GenEnv) (d : GenDraw) : Gen → GenRes
  | .int g =>
    match g.values env.rnd env.undef d.int with
    | .panic => .panic
    | .ok vs => .vals (.int g) (vs.map goI64)
  | .gaps p g =>
    match g.values env.rnd d.r with
    | .panic => .panic
    | .ok vs => .vals (.gaps p g) (vs.map fun v => goI64 (v.getD env.undef))
  | .range p g =>
    match g.values d.r with
    | .panic => .panic
    | .ok (a, b) => .vals (.range p g) [goI64 a, goI64 b]
  | .rangeSeq p g =>
    let x := g.values
    .vals (.rangeSeq p x.1) [goI64 x.2.1, goI64 x.2.2]
  | .autoInc g =>
    let x := g.values
    .vals (.autoInc x.1) [.num "uint64".toList x.2]
  | .strFill len =>
    match strFillAz len d.words with
    | none => .words
    | some s => .vals (.strFill len) [.str s]
  | .xid => .vals .xid [.str d.xid]
  | .clientId ids =>
    .vals (.clientId ids) ((clientIdValues ids d.rc).map fun n : Nat => .num "uint".toList (n : Int))
  | .column g => .vals (.column g) [g.values.goVal]
  | .noop => .vals .noop []

/-- `Scan`: only a column keeps the value (data/column.go:45-61); the others ignore it. -/
def Gen.scan (m : Mem) (x : Scanned) : Gen → Gen
  | .column g => .column (g.scan m x)
  | g => g

/-- What trx/trx.go needs to know of a made generator. -/
def Gen.info (g : Gen) : GenInfo := ⟨g.format.1, g.format.2⟩

end Finch
