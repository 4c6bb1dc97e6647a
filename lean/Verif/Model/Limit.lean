import Verif.Model.Base
/-!
Model of the data limits (limit/data.go) and of the `-- rows`, `-- table-size`, `-- database-size`
modifiers that create them (trx/trx.go:271-299).
-/
namespace Finch

/-! ## Rows: limit/data.go:64-116 -/

/-- limit/data.go:64-72 `Rows`. The fields `p`, `r`, `t`, `pn` only drive the progress log line and
are left out; the mutex is represented by `more` and `affected` being single steps. -/
structure Rows where
  max : Int
  n : Int
  deriving DecidableEq, Repr

/-- limit/data.go:76-88 `NewRows`; `none` is the nil pointer. -/
def Rows.new (max offset : Int) : Option Rows :=
  if max = 0 then none else some { max := max, n := offset }

/-- limit/data.go:90-106 `Rows.Affected` (`lm.n += n` in int64; progress log left out). -/
def Rows.affected (lm : Rows) (k : Int) : Rows := { lm with n := i64 (lm.n + k) }

/-- limit/data.go:108-116 `Rows.More`. -/
def Rows.more (lm : Rows) : Bool := decide (lm.n < lm.max)

/-! ## Size: limit/data.go:120-257 -/

/-- What MySQL answers on one connection at the time of one call of `Size.More`. -/
structure Conn where
  /-- rows of SHOW FULL TABLES (name, table type), or an error -/
  showTables : Option (List (String × String))
  /-- SELECT DATABASE(), or an error -/
  database : Option String
  /-- does this statement execute without error -/
  exec : String → Bool
  /-- rows (first column) of this query, or an error -/
  rows : String → Option (List Nat)

/-- limit/data.go:122-136 `Size`. The fields `maxStr`, `p`, `r`, `t`, `bytes` only drive log lines
and are left out; `query = ""` before the first call, as in Go. -/
structure Size where
  max : Nat
  db : String
  tbl : String
  query : String
  analyze : String
  n : Nat
  m : Nat
  deriving DecidableEq, Repr

/-- limit/data.go:148-157: how often the size is checked. -/
def sizeCadence (max : Nat) : Nat :=
  let m := 5
  let m := if max ≤ 1073741824 then 3 else m
  let m := if max ≥ 107374182400 then 1000 else m
  m

/-- limit/data.go:140-170 `NewSize`. -/
def Size.new (max : Nat) (db tbl : String) : Res Size :=
  if db = "" ∧ tbl = "" then .panic
  else .ok { max := max, db := db, tbl := tbl, query := "", analyze := "", n := 0
             m := sizeCadence max }

/-- The rows that `for rows.Next()` visits: none if the rows were closed before
(database/sql: Next returns false on closed Rows). -/
def nextRows {α : Type} (closed : Bool) (rows : List α) : List α := if closed then [] else rows

/-- limit/data.go:184. -/
def sizeQueryPrefix : String :=
  "SELECT COALESCE(data_length + index_length, 0) AS bytes FROM information_schema.TABLES WHERE "

/-- limit/data.go:183-222, the setup on the first call of `Size.More`. Returns the new state and
whether the call goes on (`false`: the call returns false at once). The scan error of line 199-201
is left out because the loop body is never reached: line 195 closes the rows first. -/
def Size.setup (c : Conn) (lm : Size) : Size × Bool :=
  if lm.query ≠ "" then (lm, true)
  else if lm.db ≠ "" then
    let q := sizeQueryPrefix ++ "table_schema='" ++ lm.db ++ "'"
    match c.showTables with
    | none => ({ lm with query := q }, false)
    | some rows =>
      let tbls := ((nextRows true rows).filter (fun r => r.2 = "BASE TABLE")).map (·.1)
      ({ lm with query := q, analyze := "ANALYZE TABLE " ++ String.intercalate ", " tbls }, true)
  else
    match c.database with
    | none => ({ lm with query := sizeQueryPrefix }, false)
    | some db =>
      ({ lm with
          db := db
          query := sizeQueryPrefix ++ "table_schema='" ++ db ++ "' AND table_name='" ++ lm.tbl ++ "'"
          analyze := "ANALYZE TABLE " ++ lm.tbl }, true)

/-- limit/data.go:224-256: the rest of `Size.More`. `n` is a 64-bit uint. `QueryRow(...).Scan` takes
the first row and fails if there is none. -/
def Size.check (c : Conn) (lm : Size) : Size × Bool :=
  let lm := { lm with n := u64 (lm.n + 1) }
  if lm.n % lm.m ≠ 0 then (lm, true)
  else if c.exec lm.analyze = false then (lm, false)
  else
    match c.rows lm.query with
    | none => (lm, false)
    | some [] => (lm, false)
    | some (bytes :: _) => (lm, decide (bytes < lm.max))

/-- limit/data.go:175-257 `Size.More`. -/
def Size.more (c : Conn) (lm : Size) : Size × Bool :=
  match lm.setup c with
  | (lm, false) => (lm, false)
  | (lm, true) => lm.check c

/-! ## Data: interface values and `or`: limit/data.go:16-60 -/

/-- A non-nil value of the interface `limit.Data`. `rows none` is the typed nil pointer
`(*Rows)(nil)` stored in the interface, which Go does not regard as a nil interface. -/
inductive Lim where
  | rows (lm : Option Rows)
  | size (lm : Size)
  | or (a b : Lim)
  deriving Repr

/-- A value of type `limit.Data`; `none` is the nil interface. -/
abbrev Data := Option Lim

/-- limit/data.go:35-51 `Or`. -/
def Data.or (a b : Data) : Data :=
  match a, b with
  | none, none => none
  | none, some b => some b
  | some a, none => some a
  | some a, some b => some (.or a b)

/-- `Affected` of every limit type: limit/data.go:53-56, 90-106, 172-173. A nil `*Rows` panics on
`lm.Lock()`. -/
def Lim.affected (k : Int) : Lim → Res Lim
  | .rows none => .panic
  | .rows (some r) => .ok (.rows (some (r.affected k)))
  | .size s => .ok (.size s)
  | .or a b =>
    match a.affected k with
    | .panic => .panic
    | .ok a' =>
      match b.affected k with
      | .panic => .panic
      | .ok b' => .ok (.or a' b')

/-- `More` of every limit type: limit/data.go:58-60 (`&&` short-circuits), 108-116, 175-257. -/
def Lim.more (c : Conn) : Lim → Res (Lim × Bool)
  | .rows none => .panic
  | .rows (some r) => .ok (.rows (some r), r.more)
  | .size s => let (s', b) := s.more c; .ok (.size s', b)
  | .or a b =>
    match a.more c with
    | .panic => .panic
    | .ok (a', false) => .ok (.or a' b, false)
    | .ok (a', true) =>
      match b.more c with
      | .panic => .panic
      | .ok (b', r) => .ok (.or a' b', r)

/-- A limit modifier line of a trx file. -/
inductive LimitMod where
  /-- `-- rows: max offset` -/
  | rows (max offset : Nat)
  /-- `-- table-size: tbl max` -/
  | tableSize (tbl : String) (max : Nat)
  /-- `-- database-size: db max` -/
  | databaseSize (db : String) (max : Nat)
  deriving DecidableEq, Repr

/-- trx/trx.go:271-299: one modifier added to the limit of a statement. `max` and `offset` are
uint64 values, converted to int64 for rows. Splitting and parsing of the modifier text is left
out here. -/
def LimitMod.apply (d : Data) : LimitMod → Res Data
  | .rows max offset => .ok (d.or (some (.rows (Rows.new (i64 max) (i64 offset)))))
  | .tableSize tbl max =>
    match Size.new max "" tbl with
    | .panic => .panic
    | .ok s => .ok (d.or (some (.size s)))
  | .databaseSize db max =>
    match Size.new max db "" with
    | .panic => .panic
    | .ok s => .ok (d.or (some (.size s)))

/-- The limit of a statement with the given modifiers, in order (trx/trx.go:255-299). -/
def limitOf (d : Data) : List LimitMod → Res Data
  | [] => .ok d
  | m :: ms =>
    match m.apply d with
    | .panic => .panic
    | .ok d' => limitOf d' ms

/-! ## Clients sharing the limits of a statement: client/client.go:310-344 -/

/-- A single limit inside a combination. -/
inductive Leaf where
  | rows (lm : Rows)
  | size (lm : Size)
  deriving DecidableEq, Repr

/-- `More` of one limit (limit/data.go:108-116, 175-257), one step under its mutex. -/
def Leaf.more (c : Conn) : Leaf → Leaf × Bool
  | .rows r => (.rows r, r.more)
  | .size s => let (s', b) := s.more c; (.size s', b)

/-- `Affected` of one limit (limit/data.go:90-106, 172-173), one step under its mutex. -/
def Leaf.affected (k : Int) : Leaf → Leaf
  | .rows r => .rows (r.affected k)
  | .size s => .size s

/-- The limits of a combination in the order in which `or.More` asks them and `or.Affected` tells
them (limit/data.go:53-60); `none` if one of them is a nil `*Rows`. -/
def Lim.leaves : Lim → Option (List Leaf)
  | .rows none => none
  | .rows (some r) => some [.rows r]
  | .size s => some [.size s]
  | .or a b =>
    match a.leaves, b.leaves with
    | some x, some y => some (x ++ y)
    | _, _ => none

/-- Where a client is with respect to the limited statement. -/
inductive LimPc where
  /-- about to call `More` (client/client.go:311) -/
  | idle
  /-- the limits before number `k` said there is more; limit `k` is asked next -/
  | asking (k : Nat)
  /-- all limits said there is more; the statement executes (client/client.go:316-320) -/
  | executing
  /-- statement done with `rows` affected; limit `k` is told next (client/client.go:336-339) -/
  | telling (k : Nat) (rows : Int)
  /-- the client returned (client/client.go:312) -/
  | stopped
  deriving DecidableEq, Repr

/-- The shared limits and all clients that execute the limited statement. -/
structure LimRun where
  leaves : List Leaf
  pcs : List LimPc
  /-- number of statement executions started so far -/
  started : Nat
  /-- number of rows affected by all statements finished so far (what MySQL did; history only) -/
  written : Int

/-- One atomic action of one client. -/
inductive LimStep where
  /-- the client reaches the statement -/
  | arrive (c : Nat)
  /-- the client asks the next limit; `conn` is what MySQL answers -/
  | ask (c : Nat) (conn : Conn)
  /-- the statement finished and affected `rows` rows -/
  | done (c : Nat) (rows : Int)
  /-- the statement failed and the client goes on (client/client.go:333-335, 347-356) -/
  | failed (c : Nat)
  /-- the next limit is told the number of affected rows -/
  | tell (c : Nat)

/-- Effect of one action (client/client.go:310-344 split at the mutexes of limit/data.go). A step
that the client cannot take leaves the state unchanged. -/
def LimRun.step (s : LimRun) : LimStep → LimRun
  | .arrive c =>
    if s.pcs[c]? = some .idle then { s with pcs := s.pcs.set c (.asking 0) } else s
  | .ask c conn =>
    match s.pcs[c]? with
    | some (.asking k) =>
      match s.leaves[k]? with
      | none => { s with pcs := s.pcs.set c .executing, started := s.started + 1 }
      | some lf =>
        match lf.more conn with
        | (lf', true) =>
          { s with leaves := s.leaves.set k lf', pcs := s.pcs.set c (.asking (k + 1)) }
        | (lf', false) => { s with leaves := s.leaves.set k lf', pcs := s.pcs.set c .stopped }
    | _ => s
  | .done c rows =>
    if s.pcs[c]? = some .executing then
      { s with pcs := s.pcs.set c (.telling 0 rows), written := s.written + rows }
    else s
  | .failed c =>
    if s.pcs[c]? = some .executing then { s with pcs := s.pcs.set c .idle } else s
  | .tell c =>
    match s.pcs[c]? with
    | some (.telling k rows) =>
      match s.leaves[k]? with
      | none => { s with pcs := s.pcs.set c .idle }
      | some lf =>
        { s with
          leaves := s.leaves.set k (lf.affected rows)
          pcs := s.pcs.set c (.telling (k + 1) rows) }
    | _ => s

/-- The results of a sequence of calls of `Size.More` on these connections. -/
def Size.calls (lm : Size) : List Conn → List Bool
  | [] => []
  | c :: cs => (lm.more c).2 :: Size.calls (lm.more c).1 cs

/-- A whole schedule. -/
def LimRun.run (s : LimRun) (steps : List LimStep) : LimRun := steps.foldl LimRun.step s

/-- `n` clients about to execute the statement with these limits. -/
def LimRun.init (leaves : List Leaf) (n : Nat) : LimRun :=
  { leaves := leaves, pcs := List.replicate n .idle, started := 0, written := 0 }

end Finch
