import Verif.Model.Scan
import Verif.Model.Gen
import Verif.Model.Vars
import Verif.Model.Workload
/-!
Go unit tests run on the model: trx/trx_test.go, config/config_test.go and finch_test.go. Each example
has the inputs and the expected results of the Go test it names and is evaluated by the kernel. These
are tests of the model, not proofs of properties: they compare the model with what the authors of the
code say it does.
-/
namespace Finch.Conformance

/-- `config.Vars` with the params of a test. `human.ParseBytes` on the numbers in the tests. -/
def varEnv (params : TMap Text) : VarEnv :=
  { params := params, sys := fun _ => none
    env := fun n => if n = "HOME".toList then some "/root".toList else none
    human := fun t =>
      if t = "1K".toList then some 1000
      else if t = "1,000".toList then some 1000
      else if t = "1,000,000".toList then some 1000000
      else if t = "1GiB".toList then some 1073741824
      else none }

/-- Floats with rounding of package strconv on the percentages in the tests. -/
def genEnv : GenEnv := { rnd := f64, parseFloat := fun _ => none, undef := -(2 ^ 63) }

/-- What trx.Load is given in the tests: no params, the built-in generators. -/
def trxEnv (name : String) : TrxEnv :=
  { trx := name, vars := (varEnv []).vars true, duration := fun _ => none, bytes := fun _ => none
    make := fun g _ p => (builtinGen genEnv g p).map Gen.info
    rowOrder := id, repOrder := id }

/-- A file of test/trx. -/
def file (name : String) (data : GoMap String DataCfg) (content : String) : TrxFile :=
  ⟨trxEnv name, data, some (fileLines content.toList)⟩

/-- One data key. -/
def oneKey (k : String) (c : DataCfg) : GoMap String DataCfg := fun n => if n = k then some c else none

/-- The fields of a statement that the tests compare. -/
structure StmtView where
  trx : String
  query : String
  inputs : List String
  outputs : List String
  calls : List Bool
  resultSet : Bool
  write : Bool
  prepare : Bool
  prepareMulti : Nat
  deriving DecidableEq, Repr

/-- The view of a statement. -/
def stmtView (s : Stmt) : StmtView :=
  { trx := s.trx, query := String.ofList s.query, inputs := s.inputs, outputs := s.outputs
    calls := s.calls, resultSet := s.resultSet, write := s.write, prepare := s.prepare
    prepareMulti := s.prepareMulti }

/-- The fields of a data key that the tests compare. -/
structure KeyView where
  name : String
  trx : String
  line : Nat
  statement : Nat
  column : Int
  scope : String
  deriving DecidableEq, Repr

/-- The view of a data key. -/
def keyView (k : TKey) : KeyView := ⟨k.name, k.trx, k.line, k.statement, k.column, k.scope⟩

/-- What the tests compare of a set: order, statements, DDL and a data key of one trx file. -/
def setView (name key : String) (o : Out TrxSet) :
    Option (List String × Option (List StmtView) × Option Bool × Option KeyView) :=
  match o with
  | .ok s =>
    some (s.order, (s.statements name).map (·.map stmtView), s.ddl name, (s.keys key).map keyView)
  | _ => none

/-- An empty set, trx/trx.go:71-77. -/
def emptySet : TrxSet := ⟨[], GoMap.empty, GoMap.empty, GoMap.empty⟩

/-- A statement with the defaults of Go. -/
def stmt0 : StmtView :=
  { trx := "", query := "", inputs := [], outputs := [], calls := [], resultSet := false
    write := false, prepare := false, prepareMulti := 0 }

/-- test/trx/001.sql. -/
def f001 : String := "select c from t where id=@id\n"
/-- test/trx/002.sql. -/
def f002 : String := "\nSELECT c FROM t WHERE id BETWEEN @d AND @PREV\n"
/-- test/trx/003.sql. -/
def f003 : String :=
  "\n\n-- save-columns: @c\nselect c from t1 where id=1\n\n\ninsert into t2 values (@c)\n"
/-- test/trx/copy3-1.sql. -/
def fCopy1 : String := "\n-- copies: 3\n-- prepare\nselect c from t where id=@id\n"
/-- test/trx/copy3-2.sql. -/
def fCopy2 : String := "\n-- prepare\n-- copies: 3\nselect c from t where id=@id\n"
/-- test/trx/copy-no.sql. -/
def fCopyNo : String := "\n-- copies: 2\nselect c from t/*!copy-number*/ where id=1\n"
/-- test/trx/rowscope-csv.sql. -/
def fCsv : String :=
  "SELECT 1 -- /*!csv 2 (@d, @d %% 1000, '@d', '@d')*/\n\nSELECT 1 -- /*!csv 2 (@d(), @d %% 1000, '@d', '@d')*/\n"

/-- TestLoad_001, trx/trx_test.go:18-73. -/
example : setView "001.sql" "@id" (loadTrx emptySet [file "001.sql" (oneKey "id" ⟨"int", "", []⟩) f001]) =
    some (["001.sql"],
      some [{ stmt0 with trx := "001.sql", query := "select c from t where id=%d", inputs := ["@id"],
                         resultSet := true, calls := [false] }],
      some false, some ⟨"@id", "001.sql", 1, 1, -1, "statement"⟩) := by decide +kernel

/-- TestLoad_002, trx/trx_test.go:75-133. -/
example : setView "002.sql" "@d" (loadTrx emptySet [file "002.sql" (oneKey "d" ⟨"int", "", []⟩) f002]) =
    some (["002.sql"],
      some [{ stmt0 with trx := "002.sql", query := "SELECT c FROM t WHERE id BETWEEN %d AND %d",
                         inputs := ["@d", "@PREV"], resultSet := true, calls := [false, false] }],
      some false, some ⟨"@d", "002.sql", 2, 1, -1, "statement"⟩) := by decide +kernel

/-- TestLoad_003, trx/trx_test.go:135-202. -/
example : setView "003.sql" "@c" (loadTrx emptySet [file "003.sql"
      (oneKey "c" ⟨"str-not-null", "", [("quote-value".toList, "yes".toList)]⟩) f003]) =
    some (["003.sql"],
      some [{ stmt0 with trx := "003.sql", query := "select c from t1 where id=1", outputs := ["@c"],
                         resultSet := true },
            { stmt0 with trx := "003.sql", query := "insert into t2 values ('%v')", inputs := ["@c"],
                         write := true, calls := [false] }],
      some false, some ⟨"@c", "003.sql", 4, 1, 0, ""⟩) := by decide +kernel

/-- The statements expected by TestLoad_copy3. -/
def copy3Stmts : List StmtView :=
  let s := { stmt0 with trx := "copy3", query := "select c from t where id=?", inputs := ["@id"],
                        resultSet := true, prepare := true, calls := [false] }
  [{ s with prepareMulti := 3 }, s, s]

/-- TestLoad_copy3, trx/trx_test.go:204-307: the modifiers in both orders. -/
example : setView "copy3" "@id"
      (loadTrx emptySet [file "copy3" (oneKey "id" ⟨"int", "trx", []⟩) fCopy1]) =
    some (["copy3"], some copy3Stmts, some false, some ⟨"@id", "copy3", 4, 1, -1, "trx"⟩) := by
  decide +kernel
example : setView "copy3" "@id"
      (loadTrx emptySet [file "copy3" (oneKey "id" ⟨"int", "trx", []⟩) fCopy2]) =
    some (["copy3"], some copy3Stmts, some false, some ⟨"@id", "copy3", 4, 1, -1, "trx"⟩) := by
  decide +kernel

/-- TestLoad_COPY_NUMBER, trx/trx_test.go:309-358. -/
example : setView "copyNo" "@id"
      (loadTrx emptySet [file "copyNo" (oneKey "id" ⟨"int", "trx", []⟩) fCopyNo]) =
    some (["copyNo"],
      some [{ stmt0 with trx := "copyNo", query := "select c from t1 where id=1", resultSet := true },
            { stmt0 with trx := "copyNo", query := "select c from t2 where id=1", resultSet := true }],
      some false, none) := by decide +kernel

/-- The statement expected twice by TestLoad_RowScopeCSV. -/
def csvStmt : StmtView :=
  { stmt0 with
    trx := "rowscope-csv.sql"
    query := "SELECT 1 -- (%d, %d %% 1000, '%d', '%d'), (%d, %d %% 1000, '%d', '%d')"
    inputs := List.replicate 8 "@d"
    calls := [true, false, false, false, true, false, false, false]
    resultSet := true }

/-- TestLoad_RowScopeCSV, trx/trx_test.go:360-423. -/
example : setView "rowscope-csv.sql" "@d"
      (loadTrx emptySet [file "rowscope-csv.sql" (oneKey "d" ⟨"auto-inc", "", []⟩) fCsv]) =
    some (["rowscope-csv.sql"], some [csvStmt, csvStmt], some false,
      some ⟨"@d", "rowscope-csv.sql", 1, 1, -1, "row"⟩) := by decide +kernel

/-- TestCalls, trx/trx_test.go:425-445. The model gets the calls from the tokens of the query. -/
example : ([["@d"], ["@d", "@d"], ["@d()"], ["@d()", "@d"], ["@d", "@x", "@d()"],
      ["@d()", "@d()", "@d()"]] : List (List String)).map
        (fun l => (tokKeys (tokenize (join [' '] (l.map String.toList)))).map (·.2)) =
    [[false], [false, false], [true], [true, false], [false, false, true], [true, true, true]] := by
  decide +kernel

/-- TestRowScope, trx/trx_test.go:447-472, for both orders of the map. -/
example : ∀ keys ∈ [["@d".toList, "@x".toList], ["@x".toList, "@d".toList]],
    (["(@d)", "(@d())", "(@d(), @d)", "(@d, @d)", "(@d, @x, @d)", "(@d, @x(), @d)"].map
      fun s => String.ofList (rowScope keys s.toList)) =
    ["(@d())", "(@d())", "(@d(), @d)", "(@d(), @d)", "(@d(), @x(), @d)", "(@d(), @x(), @d)"] := by
  decide +kernel

/-- The params of TestVars. -/
def testParams : TMap Text :=
  [("foo".toList, "bar".toList), ("n".toList, "100".toList), ("a-b".toList, "val".toList)]

/-- TestVars, config/config_test.go:27-67. -/
example : ["rows: 5", "rows: $params.n", "rows: ${params.n}", "p: \"${params.foo}\"",
      "p: _${params.foo}_", "r: $params.a-b", "key: $params.n $params.foo", "home: $HOME", "rows: 1K",
      "rows: 1,000", "size: 1GiB", "(1, 2, 'foo')"].map
        (fun s => ((varEnv testParams).vars true s.toList).map String.ofList) =
    ["rows: 5", "rows: 100", "rows: 100", "p: \"bar\"", "p: _bar_", "r: val", "key: 100 bar",
      "home: /root", "rows: 1000", "rows: 1000", "size: 1073741824", "(1, 2, 'foo')"].map some := by
  decide +kernel
example : (varEnv testParams).vars false "db.abd6b.us-east-1.rds.amazonaws.com".toList =
    some "db.abd6b.us-east-1.rds.amazonaws.com".toList := by decide +kernel

/-- TestUint, finch_test.go:9-29. -/
example : ["", "0", "1", "10", "-10", "x"].map finchUint = [0, 0, 1, 10, 0, 0] := by decide +kernel

/-- TestWithPort, finch_test.go:31-51. -/
example : ["", "0", "local", "local:1234", "local:5678"].map
      (fun s => String.ofList (withPort s.toList "1234".toList)) =
    [":1234", "0:1234", "local:1234", "local:1234", "local:5678"] := by decide +kernel

/-- TestRunLevelGreaterThan, finch_test.go:53-82. -/
example :
    let prev : RunLevel := ⟨1, 1, 1, 1, 1, 1⟩
    let rl := { prev with client := 2 }
    [prev.greaterThan prev .statement, prev.greaterThan prev .client, rl.greaterThan prev .statement,
      rl.greaterThan prev .trx, rl.greaterThan prev .iter] = [false, false, true, true, true] := by
  decide +kernel

end Finch.Conformance
