import Verif.Model.Integer
import Verif.Model.Scope
/-!
Model of data/string.go, data/id.go (client-id) and data/column.go.
-/
namespace Finch

/-! ### str-fill-az -/

/-- data/string.go:21 `letterBytes`. -/
def letterBytes : List Char :=
  ['a', 'b', 'c', 'd', 'e', 'f', 'g', 'h', 'i', 'j', 'k', 'l', 'm',
   'n', 'o', 'p', 'q', 'r', 's', 't', 'u', 'v', 'w', 'x', 'y', 'z',
   'A', 'B', 'C', 'D', 'E', 'F', 'G', 'H', 'I', 'J', 'K', 'L', 'M',
   'N', 'O', 'P', 'Q', 'R', 'S', 'T', 'U', 'V', 'W', 'X', 'Y', 'Z']

/-- `letterBytes[idx]`, used for `idx < 52` only. -/
def letterAt (idx : Nat) : Char := letterBytes.getD idx ' '

/-- data/string.go:57-67, the loop of `Values`. `ws` are the words the random source will return
(63-bit), `need` is i+1, the number of letters still to write. `none`: the given words were not
enough. Taking a new word and using it are two steps here; in Go they are in one iteration. -/
def strLoop (ws : List Nat) (need cache remain : Nat) : Option (List Char) :=
  if need = 0 then some []
  else
    match remain, ws with
    | 0, [] => none
    | 0, w :: ws' => strLoop ws' need w 10
    | r + 1, ws =>
      let idx := cache % 64
      if idx < 52 then (strLoop ws (need - 1) (cache / 64) r).map (letterAt idx :: ·)
      else strLoop ws need (cache / 64) r
termination_by (ws.length, remain)

/-- data/string.go:53-69 `StrFillAz.Values` with the words the source returns. -/
def strFillAz (len : Nat) (ws : List Nat) : Option (List Char) :=
  match ws with
  | [] => none
  | w :: ws => strLoop ws len w 10

/-- data/string.go:28-40 `NewStrFillAz`: the length, `none` for an error. -/
def newStrFillAz (p : Params) : Option Nat := do
  let len ← int64From p "len" 100
  if len ≤ 0 then none
  return len.toNat

/-! ### client-id -/

/-- data/id.go:53-72: the run counter index of an id name. -/
def clientIdIndex (r : List Char) : Option Nat :=
  if r = "statement".toList then some 0
  else if r = "trx".toList then some 1
  else if r = "iter".toList then some 2
  else if r = "conn".toList then some 3
  else if r = "client".toList then some 4
  else if r = "client-group".toList then some 5
  else if r = "exec-group".toList then some 6
  else none

/-- data/id.go:46-76 `NewClientId`: the indexes, `none` for an error. -/
def newClientId (p : Params) : Option (List Nat) :=
  if p.length = 0 then some [4]
  else
    match p.get "ids" with
    | none => some []
    | some [] => some []
    | some csv => (splitOn1 ',' csv).mapM clientIdIndex

/-- data/id.go:84-94 `ClientId.Values`. -/
def clientIdValues (ids : List Nat) (rc : RunCount) : List Nat := ids.map rc.get

/-! ### column -/

/-- A value scanned from MySQL: NULL, bytes (a reference to a driver buffer that is reused) or another
value, which Go copies. The buffer is given by its address in `Mem`. -/
inductive Scanned where
  | null
  | bytes (buf : Nat)
  | other (v : Int)
  deriving DecidableEq, Repr

/-- What a column returns: nil, a string made of the bytes, or the other value. -/
inductive ColVal where
  | nil
  | str (b : List Nat)
  | other (v : Int)
  deriving DecidableEq, Repr

/-- Contents of the driver's buffers. -/
abbrev Mem := Nat → List Nat

/-- data/column.go:14-19 `Column`. -/
structure Column where
  quoteValue : Bool
  val : ColVal
  bytes : List Nat
  useBytes : Bool
  deriving DecidableEq, Repr

/-- finch.go:152-155 `Bool`. -/
def goBool (s : List Char) : Bool :=
  let v := lowerAscii s
  v == "true".toList || v == "yes".toList || v == "on".toList || v == "aye".toList

/-- data/column.go:24-28 `NewColumn`. -/
def newColumn (p : Params) : Column :=
  ⟨goBool ((p.get "quote-value").getD []), .nil, [], false⟩

/-- data/column.go:39-43 `Copy`. -/
def Column.copy (g : Column) : Column := ⟨g.quoteValue, .nil, [], false⟩

/-- data/column.go:45-61 `Scan`; the bytes are read from the driver's buffer now. -/
def Column.scan (g : Column) (m : Mem) : Scanned → Column
  | .null => { g with useBytes := false, val := .nil }
  | .bytes b => { g with useBytes := true, bytes := m b }
  | .other v => { g with useBytes := false, val := .other v }

/-- data/column.go:63-68 `Values`. -/
def Column.values (g : Column) : ColVal :=
  if g.useBytes then .str g.bytes else g.val

/-- data/column.go:32-37 `Format`: true if the placeholder is quoted. -/
def Column.format (g : Column) : Bool := g.quoteValue

/-- What happens to a column in a run: a query result is scanned, the driver overwrites buffers,
a client uses the data key (through the scoped generator). -/
inductive ColEvent where
  | scan (s : Scanned)
  | write (buf : Nat) (b : List Nat)
  | use (u : Use)
  deriving DecidableEq, Repr

/-- The real generator's `Values` for a column (no state change). -/
def colFun : GenFun Column ColVal := fun g _ => (g, g.values)

/-- State: driver memory and the scoped column generator (data/scope.go:193 `Scan` passes the
value on to the column). -/
structure ColState where
  mem : Mem
  gen : ScopedGen Column ColVal

/-- One event; a use returns the values. -/
def ColState.step (s : ColState) : ColEvent → ColState × Option (Option ColVal)
  | .scan x => ({ s with gen := { s.gen with g := s.gen.g.scan s.mem x } }, none)
  | .write b l => ({ s with mem := fun i => if i = b then l else s.mem i }, none)
  | .use u => let r := s.gen.use colFun u; ({ s with gen := r.1 }, some r.2)

/-- Run events; the outputs of the uses in order. -/
def ColState.run (s : ColState) : List ColEvent → ColState × List (Option ColVal)
  | [] => (s, [])
  | e :: es =>
    let r := s.step e
    let rs := r.1.run es
    (rs.1, r.2.toList ++ rs.2)

end Finch
