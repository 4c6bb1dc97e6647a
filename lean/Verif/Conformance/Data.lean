import Verif.Conformance.Trx
import Verif.Model.Prepare
/-!
Go unit tests run on the model: data/integer_test.go, data/id_test.go, data/scope_test.go,
workload/workload_test.go and stage/stage_test.go. Tests of the model, not proofs of properties (see
Conformance/Trx.lean).
-/
namespace Finch.Conformance

/-- Params of a generator. -/
def params (l : List (String × String)) : Params := l.map fun p => (p.1.toList, p.2.toList)

/-- TestInteger_AutoInc, data/integer_test.go:49-102. -/
example : (newAutoInc []).map (·.calls 3) = some [1, 2, 3] ∧
    (newAutoInc (params [("start", "5")])).map (·.calls 2) = some [6, 7] ∧
    (newAutoInc (params [("step", "2")])).map (·.calls 2) = some [2, 4] ∧
    (newAutoInc (params [("start", "10"), ("step", "2")])).map (·.calls 2) = some [12, 14] := by
  decide +kernel

/-- TestInteger_IntRangeSeq, data/integer_test.go:133-184. -/
example : (newIntRangeSeq (params [("begin", "1"), ("end", "9"), ("size", "3")])).map (·.calls 4) =
      some [(1, 3), (4, 6), (7, 9), (1, 3)] ∧
    (newIntRangeSeq (params [("begin", "1"), ("end", "9"), ("size", "4")])).map (·.calls 4) =
      some [(1, 4), (5, 8), (9, 9), (1, 4)] := by decide +kernel

/-- The value, if there is one. -/
def gapsValue : Res (List (Option Int)) → List (Option Int)
  | .ok l => l
  | .panic => []

/-- TestInteger_IntGaps, data/integer_test.go:186-216: the values for all random numbers. -/
example : (newIntGaps f64 (params [("min", "1"), ("max", "100"), ("p", "20")])).map
      (fun g => (List.range 20).flatMap fun r => gapsValue (g.values f64 r)) =
    some ([1, 6, 11, 16, 21, 27, 32, 37, 42, 47, 53, 58, 63, 68, 73, 79, 84, 89, 94, 100].map some) := by
  decide +kernel

/-- The run count of TestClientId. -/
def rcT : RunCount := ⟨1, 1, 1, 1, 5, 6, 7, 8⟩

/-- TestClientId, data/id_test.go:55-94. -/
example : (newClientId []).map (fun g => (clientIdValues g rcT, (Gen.clientId g).format.1)) =
      some ([5], 1) ∧
    (newClientId (params [("ids", "client,client-group,exec-group")])).map
      (fun g => (clientIdValues g rcT, (Gen.clientId g).format.1)) = some ([5, 6, 7], 3) := by
  decide +kernel

/-- A generator that returns a new value at every call. -/
def fresh : GenFun Nat Nat := fun g _ => (g + 1, g)

/-- TestXid_TrxScope, data/id_test.go:14-53: calls in trx 1, 1, 2, 2. -/
example : ((ScopedGen.new (V := Nat) .trx 7).uses fresh
      ([1, 1, 2, 2].map fun t => ⟨false, ⟨0, t, 0, 0, 0, 0, 0, 0⟩⟩)).2 =
    [some 7, some 7, some 8, some 8] := by decide +kernel

/-- Where a key of trx scope is copied in TestScope_Trx: the address and the copy number of the
generator after each call, and the run level of the last copy. -/
def copies (s : DataScope) (key : String) :
    List RunLevel → List (Option Nat × Option Nat × Option RunLevel)
  | [] => []
  | rl :: rls =>
    match s.copy key rl with
    | .panic => []
    | .ok (s', g) =>
      (g, (g.bind s'.made).map (·.copyNo), s'.copiedAt key) :: copies s' key rls

/-- TestScope_Trx, data/scope_test.go:13-112. -/
example :
    copies { DataScope.new with keys := GoMap.empty.set "@d" ⟨some .trx, false⟩ } "@d"
      [⟨1, 1, 1, 1, 1, 1⟩, ⟨1, 1, 1, 1, 1, 2⟩, ⟨1, 1, 1, 1, 2, 1⟩, ⟨1, 1, 1, 1, 2, 2⟩, ⟨1, 1, 1, 2, 1, 1⟩] =
    [(some 0, some 1, some ⟨1, 1, 1, 1, 1, 1⟩), (some 0, some 1, some ⟨1, 1, 1, 1, 1, 1⟩),
     (some 1, some 2, some ⟨1, 1, 1, 1, 2, 1⟩), (some 1, some 2, some ⟨1, 1, 1, 1, 2, 1⟩),
     (some 2, some 3, some ⟨1, 1, 1, 2, 1, 1⟩)] := by decide +kernel

/-- TestScope_PREV, data/scope_test.go:114-147. -/
example :
    copies { DataScope.new with keys := GoMap.empty.set "@d" ⟨none, false⟩ } "@d" [⟨0, 0, 0, 1, 1, 1⟩] =
      [(some 0, some 1, some ⟨0, 0, 0, 1, 1, 1⟩)] ∧
    (copies { DataScope.new with keys := GoMap.empty.set "@d" ⟨none, false⟩ } "@PREV"
      [⟨0, 0, 0, 1, 1, 1⟩]).map (·.1) = [none] := by decide +kernel

/-! ### Workload -/

/-- A prepared stage without rate limits. -/
def prepT (files : List TrxFile) (w : List CGCfg) (withStats : Bool) : Out Prepared :=
  prepare { files := files, workload := w, qps := 0, tps := 0, stage := 1, withStats := withStats,
            makeOk := true, pingOk := true, dbFails := fun _ _ => false } DataScope.new GoMap.empty

/-- What the tests compare: workload, execution groups, and the run levels of the clients. -/
def prepView (o : Out Prepared) :
    Option (List CGCfg × List (List Nat) × List (List (List RunLevel))) :=
  match o with
  | .ok p => some (p.workload, p.groups, p.execGroups.map (·.map (·.clients.map (·.rl))))
  | _ => none

/-- What a test compares of a client: statements, marks of trx, number of inputs, statistics. -/
structure ClientView where
  stmts : List StmtView
  marks : List (Bool × Bool)
  inputs : List Nat
  stats : List (Option String)
  iter : Nat
  deriving DecidableEq, Repr

/-- The view of the only client. -/
def clientView (o : Out Prepared) : Option ClientView :=
  match o with
  | .ok ⟨_, _, _, _, [[⟨_, _, [c]⟩]], _⟩ =>
    some ⟨c.statements.map stmtView, c.data.map (fun d => (d.begin_, d.end_)),
      c.data.map (fun d => d.inputs.length), c.stats, c.iter⟩
  | _ => none

/-- 001.sql with one data key. -/
def files001 (gen : String) : List TrxFile := [file "001.sql" (oneKey "id" ⟨gen, "", []⟩) f001]

/-- TestGroups_SetupOne, workload/workload_test.go:23-182: groups. Also TestPreapre_NoWorkload,
stage/stage_test.go:12-56. -/
example : prepView (prepT (files001 "int") [] false) =
    some ([{ group := "dml1", clients := "1", trx := ["001.sql"] }], [[0]], [[[⟨1, 1, 1, 1, 0, 0⟩]]]) := by
  decide +kernel

/-- TestGroups_SetupOne: the client. -/
example : clientView (prepT (files001 "int") [] false) =
    some ⟨[{ stmt0 with trx := "001.sql", query := "select c from t where id=%d", inputs := ["@id"],
                        resultSet := true, calls := [false] }], [(true, true)], [1], [none], 0⟩ := by
  decide +kernel

/-- TestGroups_PartialAlloc, workload/workload_test.go:184-239. -/
example : prepView (prepT (files001 "auto-inc") [{ clients := "1" }] false) =
    some ([{ group := "dml1", clients := "1", trx := ["001.sql"] }], [[0]], [[[⟨1, 1, 1, 1, 0, 0⟩]]]) := by
  decide +kernel

/-- A statement of test/run/scope. -/
def scopeInsert : String :=
  "INSERT INTO finch.scopetest (a, r, eg, cg, c, iter, trx, s) VALUES (@a, @r, @clientid, @PREV, @PREV, @PREV, @PREV, @PREV)\n"

/-- The data keys of test/run/scope with the scope of `a` and `r`. -/
def scopeData (scope : String) : GoMap String DataCfg := fun n =>
  if n = "a" then some ⟨"auto-inc", scope, []⟩
  else if n = "r" then some ⟨"int", scope, params [("dist", "uniform"), ("max", "1000000")]⟩
  else if n = "clientid" then
    some ⟨"client-id", "statement", params [("ids", "exec-group,client-group,client,iter,trx,statement")]⟩
  else none

/-- test/run/scope/001.sql and 002.sql. -/
def scope001 (scope : String) : TrxFile :=
  file "001.sql" (scopeData scope) (scopeInsert ++ "\n" ++ scopeInsert)
def scope002 : TrxFile := file "002.sql" GoMap.empty scopeInsert

/-- TestGroups_ClientGroups, workload/workload_test.go:241-307. -/
example : (prepView (prepT [scope001 "statement"]
      [{ clients := "2", group := "__A__" }, { clients := "2", group := "__A__" }] false)).map (·.2.2) =
    some [[[⟨1, 1, 1, 1, 0, 0⟩, ⟨1, 1, 1, 2, 0, 0⟩], [⟨1, 1, 2, 1, 0, 0⟩, ⟨1, 1, 2, 2, 0, 0⟩]]] := by
  decide +kernel

end Finch.Conformance
