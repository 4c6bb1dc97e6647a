import Verif.Model.Trx
import Verif.Model.Scope
import Verif.Model.Rate
/-!
Model of workload/workload.go: assigning trx to client groups, grouping client groups into execution
groups, and allocating clients. Debug output is left out. Heap addresses (generators, iteration
counters, rate limiters) are numbers.
-/
namespace Finch

/-- finch.go:175-179 `Uint`: `strconv.ParseUint` with the error ignored. A syntax error gives 0, a
value out of range the largest `uint64`. -/
def finchUint (s : String) : Nat :=
  match parseUint64 s.toList with
  | some n => n
  | none =>
    match s.toList, digitsVal 0 s.toList with
    | _ :: _, some _ => 2 ^ 64 - 1
    | _, _ => 0

/-- config/file.go:358-384 `ClientGroup`, the fields that the allocator reads. -/
structure CGCfg where
  clients : String := ""
  db : String := ""
  disableStats : Bool := false
  group : String := ""
  iter : String := ""
  iterClients : String := ""
  iterExecGroup : String := ""
  qps : String := ""
  qpsClients : String := ""
  qpsExecGroup : String := ""
  tps : String := ""
  tpsClients : String := ""
  tpsExecGroup : String := ""
  runtime : String := ""
  trx : List String := []
  deriving DecidableEq, Repr

/-! ### Groups: workload/workload.go:48-113 and 289-329 -/

/-- workload/workload.go:322-329 `hasDDL`. A missing `Meta` entry is the zero value. -/
def hasDDL (ddl : GoMap String Bool) (trx : List String) : Bool :=
  trx.any fun n => (ddl n).getD false

/-- `cg[last].Trx = append(cg[last].Trx, trxName)`: an index panic if there is no client group. -/
def appendTrx (trx : String) : List CGCfg → Out (List CGCfg)
  | [] => .panic
  | [c] => .ok [{ c with trx := c.trx ++ [trx] }]
  | c :: c' :: cs =>
    match appendTrx trx (c' :: cs) with
    | .ok l => .ok (c :: l)
    | .err => .err
    | .panic => .panic

/-- workload/workload.go:289-320 `AutoAssign`: the loop over the trx, with the client groups so far
and `prevHasDDL`. -/
def autoAssignLoop (ddl : GoMap String Bool) (cg : List CGCfg) (prevHasDDL : Bool) :
    List String → Out (List CGCfg)
  | [] => .ok cg
  | t :: ts =>
    if (ddl t).getD false then
      autoAssignLoop ddl (cg ++ [{ clients := "1", iter := "1", trx := [t] }]) true ts
    else if prevHasDDL then
      autoAssignLoop ddl (cg ++ [{ clients := "1", trx := [t] }]) false ts
    else
      match appendTrx t cg with
      | .ok cg => autoAssignLoop ddl cg false ts
      | .err => .err
      | .panic => .panic

/-- workload/workload.go:289-320 `AutoAssign`. -/
def autoAssign (ddl : GoMap String Bool) (order : List String) : Out (List CGCfg) :=
  autoAssignLoop ddl [] true order

/-- The variables of the naming loop, workload/workload.go:56-59. -/
structure NameSt where
  autoNo : Nat
  ddlNo : Nat
  prevHasDDL : Bool
  prev : String
  deriving DecidableEq, Repr

/-- `fmt.Sprintf("%s%d", pre, n)` for the two prefixes of workload/workload.go:79,84. -/
def autoName (pre : String) (n : Nat) : String := pre ++ String.ofList (decimal n)

/-- workload/workload.go:61-70: defaults of a client group. -/
def cgDefaults (ddl : GoMap String Bool) (order : List String) (cg : CGCfg) : CGCfg :=
  let cg := if cg.trx = [] then { cg with trx := order } else cg
  if hasDDL ddl cg.trx = true ∧ finchUint cg.iter = 0 then { cg with iter := "1" } else cg

/-- workload/workload.go:72-90: the group name of one client group (with defaults filled in). -/
def nameStep (ddl : GoMap String Bool) (st : NameSt) (cg : CGCfg) : NameSt × CGCfg :=
  if cg.group ≠ "" then (st, cg)
  else if hasDDL ddl cg.trx then
    let name := autoName "ddl" (st.ddlNo + 1)
    ({ st with ddlNo := st.ddlNo + 1, prevHasDDL := true, prev := name }, { cg with group := name })
  else if st.prevHasDDL then
    let name := autoName "dml" (st.autoNo + 1)
    ({ st with autoNo := st.autoNo + 1, prevHasDDL := false, prev := name },
      { cg with group := name })
  else (st, { cg with group := st.prev })

/-- workload/workload.go:60-91: the loop over the client groups. -/
def nameLoop (ddl : GoMap String Bool) (order : List String) (st : NameSt) :
    List CGCfg → List CGCfg
  | [] => []
  | cg :: cgs =>
    let r := nameStep ddl st (cgDefaults ddl order cg)
    r.2 :: nameLoop ddl order r.1 cgs

/-- `groups[groupNo] = append(groups[groupNo], i)` for the last group; an index panic if there is
none. -/
def appendLast (i : Nat) : List (List Nat) → Out (List (List Nat))
  | [] => .panic
  | [g] => .ok [g ++ [i]]
  | g :: g' :: gs =>
    match appendLast i (g' :: gs) with
    | .ok l => .ok (g :: l)
    | .err => .err
    | .panic => .panic

/-- workload/workload.go:97-104: the loop that forms execution groups; `i` is the index of the first
client group left. -/
def groupLoop (groups : List (List Nat)) (name : String) (i : Nat) :
    List CGCfg → Out (List (List Nat))
  | [] => .ok groups
  | cg :: cgs =>
    let groups := if name ≠ cg.group then groups ++ [[]] else groups
    match appendLast i groups with
    | .ok groups => groupLoop groups cg.group (i + 1) cgs
    | .err => .err
    | .panic => .panic

/-- workload/workload.go:48-113 `Groups`: the completed workload and the execution groups. -/
def allocGroups (ddl : GoMap String Bool) (order : List String) (w : List CGCfg) :
    Out (List CGCfg × List (List Nat)) := do
  let w ← if w = [] then autoAssign ddl order else .ok w
  let w := nameLoop ddl order ⟨0, 0, true, ""⟩ w
  let g ← groupLoop [] "" 0 w
  pure (w, g)

/-! ### Clients: workload/workload.go:115-287 -/

/-- One value function of a statement: the data key, the generator and whether it is called
explicitly. (The code keeps only the method value; the generator knows its key.) -/
structure InRef where
  key : String
  gen : Nat
  explicit : Bool
  deriving DecidableEq, Repr

/-- client/client.go:63-68 `StatementData`. -/
structure StmtData where
  inputs : List InRef
  outputs : List (Option Nat)
  insertId : Option Nat
  begin_ : Bool
  end_ : Bool
  deriving DecidableEq, Repr

/-- client/client.go:30-47, the fields set by the allocator. `iterClients` and `iterExecGroup` are the
limit and the address of the shared counter; `qps`, `tps` rate limiters by number; `stats` the trx
names for which statistics are kept. -/
structure AClient where
  rl : RunLevel
  db : String
  iter : Nat
  iterClients : Option (Nat × Nat)
  iterExecGroup : Option (Nat × Nat)
  qps : Option Nat
  tps : Option Nat
  statements : List Stmt
  data : List StmtData
  stats : List (Option String)

/-- workload/workload.go:40-44 `ClientGroup` (runnable). -/
structure ACGroup where
  runtime : String
  dataLimit : Bool
  clients : List AClient

/-- The data scope and, as history, the `Copy` calls made so far. -/
structure ScopeLog where
  scope : DataScope
  log : List CopyObs

/-- `a.TrxSet.Data.Copy(dataKey, runlevel)`. -/
def ScopeLog.copy (s : ScopeLog) (key : String) (rl : RunLevel) : Out (ScopeLog × Option Nat) :=
  match s.scope.copy key rl with
  | .panic => .panic
  | .ok (d, g) => .ok (⟨d, s.log ++ [⟨key, rl, g⟩]⟩, g)

/-- workload/workload.go:230-243: the inputs of a statement with their call marks. -/
def allocInputs (rl : RunLevel) (s : ScopeLog) : List String → List Bool →
    Out (ScopeLog × List InRef)
  | [], _ => .ok (s, [])
  | k :: ks, cs => do
    let (s, g) ← s.copy k rl
    match g, cs with
    | none, _ => allocInputs rl s ks (cs.drop 1)
    | some _, [] => .panic
    | some a, c :: cs => do
      let (s, l) ← allocInputs rl s ks cs
      pure (s, ⟨k, a, c⟩ :: l)

/-- workload/workload.go:246-260: the outputs of a statement, except the insert id. -/
def allocOutputs (rl : RunLevel) (insertId : String) (s : ScopeLog) :
    List String → Out (ScopeLog × List (Option Nat))
  | [] => .ok (s, [])
  | k :: ks =>
    if k = insertId then do
      let (s, l) ← allocOutputs rl insertId s ks
      pure (s, none :: l)
    else do
      let (s, g) ← s.copy k rl
      let (s, l) ← allocOutputs rl insertId s ks
      pure (s, g :: l)

/-- workload/workload.go:262-266: the insert id. A nil generator is dereferenced. -/
def allocInsertId (rl : RunLevel) (insertId : String) (s : ScopeLog) :
    Out (ScopeLog × Option Nat) :=
  if insertId = "" then .ok (s, none)
  else do
    let (s, g) ← s.copy insertId rl
    match g with
    | none => .panic
    | some a => pure (s, some a)

/-- workload/workload.go:226-271: one statement. `begin_`: the BEGIN mark was set before. -/
def allocStmt (rl : RunLevel) (begin_ : Bool) (s : ScopeLog) (stmt : Stmt) :
    Out (ScopeLog × StmtData) := do
  let (s, ins) ← allocInputs rl s stmt.inputs stmt.calls
  let (s, outs) ← allocOutputs rl stmt.insertId s stmt.outputs
  let (s, id) ← allocInsertId rl stmt.insertId s
  pure (s, ⟨ins, outs, id, begin_, false⟩)

/-- workload/workload.go:223-274: the statements of a trx; `q` statements of it were done. -/
def allocStmts (rl : RunLevel) (begin_ : Bool) (q : Nat) (s : ScopeLog) :
    List Stmt → Out (ScopeLog × List StmtData)
  | [] => .ok (s, [])
  | stmt :: rest => do
    let (s, d) ← allocStmt { rl with query := q + 1 } begin_ s stmt
    let (s, ds) ← allocStmts rl false (q + 1) s rest
    pure (s, d :: ds)

/-- Set the END mark of the last entry. -/
def markEnd : List StmtData → List StmtData
  | [] => []
  | [d] => [{ d with end_ := true }]
  | d :: d' :: ds => d :: markEnd (d' :: ds)

/-- workload/workload.go:210-276: the trx of a client, `t` of them done. `total` is the length of
`c.Data`, `done` its filled part. Indexes out of range panic. (A trx without statements leaves a BEGIN
mark on an entry that the next trx marks anyway.) -/
def allocTrx (stmts : GoMap String (List Stmt)) (rl : RunLevel) (total : Nat) (t : Nat)
    (done : List StmtData) (s : ScopeLog) : List String → Out (ScopeLog × List StmtData)
  | [] => .ok (s, done)
  | name :: rest =>
    let ss := (stmts name).getD []
    if total ≤ done.length then .panic
    else do
      let (s, ds) ← allocStmts { rl with trx := t + 1 } true 0 s ss
      let done := done ++ ds
      if done = [] then .panic
      else allocTrx stmts rl total (t + 1) (markEnd done) s rest

/-- What the allocator is given: `TrxSet.Statements`, the stage number, whether statistics are wanted
and (unmodelled) for which client group `dbconn.Make` fails. -/
structure WEnv where
  stmts : GoMap String (List Stmt)
  stage : Nat
  withStats : Bool
  dbFails : Nat → Nat → Bool

/-- What the allocator changes: data scope, rate limiters for QPS and TPS, and the address of the next
iteration counter. -/
structure WState where
  sl : ScopeLog
  gq : RGraph
  gt : RGraph
  nextPtr : Nat

/-- `c.IterX = uint32(n); c.IterXPtr = &ptr` if `n > 0`, workload/workload.go:180-187. -/
def sharedIter (n ptr : Nat) : Option (Nat × Nat) :=
  if n > 0 then some (n % 2 ^ 32, ptr) else none

/-- workload/workload.go:219-221: names of the trx with statistics. -/
def statsFor (env : WEnv) (cg : CGCfg) : List (Option String) :=
  cg.trx.map fun n => if env.withStats && !cg.disableStats then some n else none

/-- workload/workload.go:168-282: one client. -/
def allocClient (env : WEnv) (cg : CGCfg) (rl : RunLevel) (pq pt : Option Nat) (cgPtr egPtr : Nat)
    (st : WState) : Out (WState × AClient) := do
  let q := andNew st.gq pq (finchUint cg.qps)
  let t := andNew st.gt pt (finchUint cg.tps)
  let ss := cg.trx.flatMap fun n => (env.stmts n).getD []
  let (sl, data) ← allocTrx env.stmts rl ss.length 0 [] st.sl cg.trx
  pure ({ st with sl := sl, gq := q.1, gt := t.1 },
    { rl := rl, db := cg.db, iter := finchUint cg.iter
      iterClients := sharedIter (finchUint cg.iterClients) cgPtr
      iterExecGroup := sharedIter (finchUint cg.iterExecGroup) egPtr
      qps := q.2, tps := t.2, statements := ss, data := data, stats := statsFor env cg })

/-- workload/workload.go:168-282: `k` clients from number `c + 1` on. -/
def allocClientLoop (env : WEnv) (cg : CGCfg) (rl : RunLevel) (pq pt : Option Nat)
    (cgPtr egPtr : Nat) (c : Nat) (st : WState) : Nat → Out (WState × List AClient)
  | 0 => .ok (st, [])
  | k + 1 => do
    let (st, a) ← allocClient env cg { rl with client := c + 1 } pq pt cgPtr egPtr st
    let (st, l) ← allocClientLoop env cg rl pq pt cgPtr egPtr (c + 1) st k
    pure (st, a :: l)

/-- workload/workload.go:268-271: does a client group have a data limit. -/
def cgDataLimit (env : WEnv) (cg : CGCfg) : Bool :=
  finchUint cg.clients > 0 &&
    cg.trx.any fun n => ((env.stmts n).getD []).any fun s => s.limit.isSome

/-- workload/workload.go:146-283: the client groups of an execution group, `j` of them done. -/
def allocCGLoop (env : WEnv) (w : List CGCfg) (rl : RunLevel) (pq pt : Option Nat) (egPtr : Nat)
    (j : Nat) (st : WState) : List Nat → Out (WState × List ACGroup)
  | [] => .ok (st, [])
  | ref :: refs =>
    match w[ref]? with
    | none => .panic
    | some cg => do
      let q := andNew st.gq pq (finchUint cg.qpsClients)
      let t := andNew st.gt pt (finchUint cg.tpsClients)
      if env.dbFails (rl.execGroup - 1) j then .err
      else
        let (st, cs) ← allocClientLoop env cg { rl with clientGroup := j + 1 } q.2 t.2 st.nextPtr egPtr
          0 { st with gq := q.1, gt := t.1, nextPtr := st.nextPtr + 1 } (finchUint cg.clients)
        let (st, gs) ← allocCGLoop env w rl pq pt egPtr (j + 1) st refs
        pure (st, ⟨cg.runtime, cgDataLimit env cg, cs⟩ :: gs)

/-- workload/workload.go:131-284: the execution groups, `e` of them done. -/
def allocEGLoop (env : WEnv) (w : List CGCfg) (pq pt : Option Nat) (e : Nat) (st : WState) :
    List (List Nat) → Out (WState × List (List ACGroup))
  | [] => .ok (st, [])
  | g :: gs =>
    match g.head? with
    | none => .panic
    | some ref =>
      match w[ref]? with
      | none => .panic
      | some first => do
        let q := andNew st.gq pq (finchUint first.qpsExecGroup)
        let t := andNew st.gt pt (finchUint first.tpsExecGroup)
        let (st, cgs) ← allocCGLoop env w ⟨env.stage, e + 1, 0, 0, 0, 0⟩ q.2 t.2 st.nextPtr 0
          { st with gq := q.1, gt := t.1, nextPtr := st.nextPtr + 1 } g
        let (st, rest) ← allocEGLoop env w pq pt (e + 1) st gs
        pure (st, cgs :: rest)

/-- workload/workload.go:115-287 `Clients`, with the rate limiters of the stage
(stage/stage.go:86-87). -/
def allocClients (env : WEnv) (w : List CGCfg) (stageQps stageTps : Nat) (s : DataScope)
    (groups : List (List Nat)) : Out (WState × List (List ACGroup)) :=
  let q := newRate [] stageQps
  let t := newRate [] stageTps
  allocEGLoop env w q.2 t.2 0 ⟨⟨s, []⟩, q.1, t.1, 0⟩ groups

end Finch
