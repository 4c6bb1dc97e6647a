import Verif.Model.Workload
/-!
Model of `client/client.go`: one client as a machine that makes one step for each interaction with
MySQL, the context or a shared counter. What the world answers is an input of the step, so a run is a
list of answers and every list is allowed. Not modelled: durations (sleeps, latencies), log lines and
the time a client waits for a rate limiter (the wait itself is an event).
-/
namespace Finch

/-! ### Error handling: finch.go:187-205 -/

/-- finch.go:187-193, bits of the flags (`1 << iota` with iota = 1, 2, …). -/
def eAbort : Nat := 0
def eReconnect : Nat := 2
def eContinue : Nat := 4
def eSilent : Nat := 8
def eRollback : Nat := 16

/-- `errFlags & flag != 0`. -/
def hasFlag (flags flag : Nat) : Bool := decide (flags &&& flag ≠ 0)

/-- finch.go:195-205 `MySQLErrorHandling`. -/
def mysqlErrorHandling : GoMap Nat Nat := fun c =>
  if c = 1046 ∨ c = 1062 ∨ c = 1064 ∨ c = 1146 then some eAbort
  else if c = 1205 ∨ c = 1290 ∨ c = 1836 then some (eRollback ||| eContinue)
  else if c = 1213 ∨ c = 1317 then some eContinue
  else none

/-! ### Client -/

/-- client/client.go:30-47: what a client is given by the allocator, and the table of errors. -/
structure Cli where
  rl : RunLevel
  tbl : GoMap Nat Nat
  statements : List Stmt
  data : List StmtData
  stats : List (Option String)
  db : String
  iter : Nat
  iterClients : Nat
  iterExecGroup : Nat
  qps : Bool
  tps : Bool

/-- The client made by the allocator (workload/workload.go:168-193). -/
def AClient.cli (a : AClient) (tbl : GoMap Nat Nat) : Cli :=
  { rl := a.rl, tbl := tbl, statements := a.statements, data := a.data, stats := a.stats, db := a.db
    iter := a.iter, iterClients := (a.iterClients.map (·.1)).getD 0
    iterExecGroup := (a.iterExecGroup.map (·.1)).getD 0
    qps := a.qps.isSome, tps := a.tps.isSome }

/-- What the world answers to one step; a step looks only at the parts it needs. -/
structure Ans where
  /-- `ctx.Err() != nil` -/
  ctxDone : Bool
  /-- error of a call to MySQL: its error code, 0 if it is not an error of the server -/
  err : Option Nat
  /-- did `DB.Conn` give a connection -/
  connOk : Bool
  /-- `Limit.More` -/
  more : Bool
  /-- results of `atomic.AddUint32` -/
  egCount : Nat
  cgCount : Nat

/-- Why a client stopped. -/
inductive CEnd where
  | regular       -- iterations or data limit reached
  | ctx           -- context cancelled or deadline exceeded
  | query (code : Nat) | ddl | rollbackFailed | use | prepare   -- errors
  | panic         -- recovered in the deferred function
  deriving DecidableEq, Repr

/-- client/client.go:191-194: is it reported as an error. -/
def CEnd.isError : CEnd → Bool
  | .regular | .ctx => false
  | _ => true

/-- Class of an event for statistics, stats/stats.go. -/
inductive EvClass where
  | read | write | commit | total
  deriving DecidableEq, Repr

/-- What a client does, in order. `gen i cnt`: values of statement `i` are generated with run count
`cnt`. `exec i conn ps`: statement `i` is executed on connection `conn`,
with `ps` the connection and the statement number it was prepared on, if a prepared statement is
used. `failed`: its error (`none`: the context was done). -/
inductive CEv where
  | connected (conn : Nat)
  | closed (conn : Nat)
  | useDb (conn : Nat)
  | prepared (i conn : Nat)
  | iterBegin (n : Nat)
  | slept (i : Nat)
  | gen (i : Nat) (cnt : RunCount)
  | waitTps
  | waitQps
  | exec (i : Nat) (conn : Nat) (ps : Option (Nat × Nat))
  | failed (i : Nat) (code : Option Nat)
  | record (trx : String) (c : EvClass)
  | errorStat (trx : String) (code : Nat)
  | scanned (i : Nat)
  | insertId (i : Nat)
  | affected (i : Nat)
  | rollback (conn : Nat)
  | done
  deriving DecidableEq, Repr

/-- Where a client is. `err`: the error that made it call `Connect` (`none` in `some none`: context),
with the statement number. -/
inductive CPc where
  | connect (err : Option (Option Nat × Nat))     -- line 83
  | rollback (flags : Nat) (code : Nat) (i : Nat) -- line 103
  | close (first : Bool)                          -- line 117
  | connLoop (first : Bool)                       -- line 124
  | connected (first : Bool)                      -- line 134
  | use (first : Bool)                            -- line 142
  | prep (first : Bool) (k : Nat)                 -- line 150
  | head                                          -- line 227
  | stmt (i : Nat)                                -- line 240
  | limit (i : Nat)                               -- line 310
  | exec (i : Nat)                                -- line 281, 315
  | scan (i : Nat)                                -- line 298
  | error (i : Nat) (code : Option Nat)           -- line 348
  | stopped (e : CEnd)
  deriving DecidableEq, Repr

structure CState where
  pc : CPc
  conn : Option Nat
  nextConn : Nat
  ps : Nat → Option (Nat × Nat)
  iter : Nat            -- rc[ITER]
  trxCount : Nat        -- rc[TRX]
  stmtCount : Nat       -- rc[STATEMENT]
  connCount : Nat       -- rc[CONN]
  trxNo : Int
  trxActive : Bool
  trace : List CEv

/-- client/client.go:70-80 and 173-220: a client that is about to connect for the first time. -/
def CState.init : CState :=
  { pc := .connect none, conn := none, nextConn := 0, ps := fun _ => none, iter := 0, trxCount := 0
    stmtCount := 0, connCount := 1, trxNo := -1, trxActive := false, trace := [] }

def CState.log (s : CState) (e : CEv) : CState := { s with trace := s.trace ++ [e] }

def CState.goto (s : CState) (pc : CPc) : CState := { s with pc := pc }

/-- Return from `Run` (client/client.go:176-196): the deferred function sends to `DoneChan`. -/
def CState.stop (s : CState) (e : CEnd) : CState := (s.log .done).goto (.stopped e)

/-- `Connect` returned nil: client/client.go:202 the first time, else lines 355-356. -/
def CState.resume (s : CState) (first : Bool) : CState :=
  if first then s.goto .head else { s with connCount := s.connCount + 1 }.goto .head

/-- client/client.go:83-115: `Connect` until the old connection is closed. `trxActive` is the argument
of line 351. -/
def CState.connect (c : Cli) (s : CState) (err : Option (Option Nat × Nat)) (a : Ans) : CState :=
  if a.ctxDone then s.stop .ctx
  else
    match err with
    | none => s.goto (.close true)
    | some (code, i) =>
      let code := code.getD 0
      match c.statements[i]?, c.tbl code with
      | none, _ => s.stop .panic
      | some st, none => if st.ddl then s.stop .ddl else s.goto (.close false)
      | some _, some flags =>
        if hasFlag flags eAbort then s.stop (.query code)
        else if hasFlag flags eRollback && s.trxActive then s.goto (.rollback flags code i)
        else if hasFlag flags eContinue then s.resume false
        else s.goto (.close false)

/-- client/client.go:101-109: `ROLLBACK`. -/
def CState.doRollback (s : CState) (flags : Nat) (a : Ans) : CState :=
  let s := s.log (.rollback (s.conn.getD 0))
  if a.err.isSome || a.ctxDone then s.stop .rollbackFailed
  else if hasFlag flags eContinue then s.resume false
  else s.goto (.close false)

/-- client/client.go:117-121. -/
def CState.close (s : CState) (first : Bool) : CState :=
  match s.conn with
  | some n => ({ s with conn := none }.log (.closed n)).goto (.connLoop first)
  | none => s.goto (.connLoop first)

/-- client/client.go:124-132: one round of the loop. -/
def CState.connLoop (s : CState) (first : Bool) (a : Ans) : CState :=
  if a.ctxDone then s.stop .ctx
  else if a.connOk then
    ({ s with conn := some s.nextConn, nextConn := s.nextConn + 1 }.log
      (.connected s.nextConn)).goto (.connected first)
  else s

/-- client/client.go:134-142. -/
def CState.connected (c : Cli) (s : CState) (first : Bool) (a : Ans) : CState :=
  if a.ctxDone then s.stop .ctx
  else if c.db = "" then s.goto (.prep first 0)
  else s.goto (.use first)

/-- client/client.go:143-146. -/
def CState.use (s : CState) (first : Bool) (a : Ans) : CState :=
  let s := s.log (.useDb (s.conn.getD 0))
  if a.ctxDone then s.stop .ctx
  else if a.err.isSome then s.stop .use
  else s.goto (.prep first 0)

/-- client/client.go:163-168: copy a prepared statement into the entries `i + j`, `1 ≤ j < n`. -/
def copyPs (ps : Nat → Option (Nat × Nat)) (i n : Nat) (p : Nat × Nat) : Nat → Option (Nat × Nat) :=
  fun k => if k = i ∨ (i < k ∧ k < i + n) then some p else ps k

/-- client/client.go:149-170: one statement of the loop that prepares. A context that is done makes
`PrepareContext` fail. -/
def CState.prepare (c : Cli) (s : CState) (first : Bool) (i : Nat) (a : Ans) : CState :=
  match c.statements[i]? with
  | none => s.resume first
  | some st =>
    if !st.prepare || (s.ps i).isSome then s.goto (.prep first (i + 1))
    else if a.err.isSome || a.ctxDone then s.stop .prepare
    else
      let p := (s.conn.getD 0, i)
      let s := s.log (.prepared i (s.conn.getD 0))
      if c.statements.length < i + st.prepareMulti then
        { s with ps := copyPs s.ps i (c.statements.length - i) p }.stop .panic
      else { s with ps := copyPs s.ps i st.prepareMulti p }.goto (.prep first (i + 1))

/-- client/client.go:227-238: the beginning of an iteration. -/
def CState.head (c : Cli) (s : CState) (a : Ans) : CState :=
  if c.iterExecGroup > 0 && decide (a.egCount > c.iterExecGroup) then s.stop .regular
  else if c.iterClients > 0 && decide (a.cgCount > c.iterClients) then s.stop .regular
  else if c.iter > 0 && decide (s.iter = c.iter) then s.stop .regular
  else
    ({ s with iter := s.iter + 1, trxNo := -1, trxActive := false }.log
      (.iterBegin (s.iter + 1))).goto (.stmt 0)

/-- client/client.go:250-256: the marks of finch trx. -/
def CState.boundary (s : CState) (d : StmtData) : CState :=
  if d.begin_ then { s with trxCount := s.trxCount + 1, trxNo := s.trxNo + 1, trxActive := true }
  else if d.end_ then { s with trxActive := false }
  else s

/-- client/client.go:258-266: wait for the rate limiters. -/
def CState.waits (c : Cli) (s : CState) (st : Stmt) : CState :=
  let s := if c.tps && st.begin_ then s.log .waitTps else s
  if c.qps then s.log .waitQps else s

/-- client/client.go:202-209, 236, 251, 271, 355: the run count. -/
def CState.rc (c : Cli) (s : CState) : RunCount :=
  { statement := s.stmtCount, trx := s.trxCount, iter := s.iter, conn := s.connCount
    client := c.rl.client, clientGroup := c.rl.clientGroup, execGroup := c.rl.execGroup
    stage := c.rl.stage }

/-- client/client.go:240-275: a statement until it is executed. What the value functions return is
treated in `fillValues`. -/
def CState.stmt (c : Cli) (s : CState) (i : Nat) : CState :=
  match c.statements[i]?, c.data[i]? with
  | none, _ => s.goto .head
  | some st, d =>
    if st.idle ≠ 0 then (s.log (.slept i)).goto (.stmt (i + 1))
    else
      match d with
      | none => s.stop .panic
      | some d =>
        let s := (s.boundary d).waits c st
        let s := { s with stmtCount := s.stmtCount + 1 }
        let s := s.log (.gen i (s.rc c))
        if !st.resultSet && st.limit.isSome then s.goto (.limit i) else s.goto (.exec i)

/-- client/client.go:310-314. -/
def CState.limit (s : CState) (i : Nat) (a : Ans) : CState :=
  if a.more then s.goto (.exec i) else s.stop .regular

/-- client/client.go:288, 322-331: the class under which an execution is recorded. -/
def evClass (st : Stmt) : EvClass :=
  if st.resultSet then .read
  else if st.write then .write
  else if st.commit then .commit
  else .total

/-- `c.Stats[trxNo]`: `none` is an index out of range. -/
def Cli.statsAt (c : Cli) (n : Int) : Option (Option String) :=
  if n < 0 then none else c.stats[n.toNat]?

/-- client/client.go:293-305, 336-345: what follows a successful execution. -/
def CState.succeeded (s : CState) (st : Stmt) (d : StmtData) (i : Nat) : CState :=
  if st.resultSet then
    if d.outputs ≠ [] then s.goto (.scan i) else s.goto (.stmt (i + 1))
  else
    let s := if st.limit.isSome then s.log (.affected i) else s
    let s := if d.insertId.isSome then s.log (.insertId i) else s
    s.goto (.stmt (i + 1))

/-- client/client.go:277-345: execute a statement. With the context done, the call returns its error
(database/sql and the driver, not modelled, check the context first). -/
def CState.exec (c : Cli) (s : CState) (i : Nat) (a : Ans) : CState :=
  match c.statements[i]?, c.data[i]? with
  | some st, some d =>
    let s := s.log (.exec i (s.conn.getD 0) (s.ps i))
    match c.statsAt s.trxNo with
    | none => s.stop .panic
    | some stat =>
      let s := match stat with
        | some name => s.log (.record name (evClass st))
        | none => s
      if a.ctxDone then (s.log (.failed i none)).goto (.error i none)
      else
        match a.err with
        | some code => (s.log (.failed i (some code))).goto (.error i (some code))
        | none => s.succeeded st d i
  | _, _ => s.stop .panic

/-- client/client.go:293-305: read the rows. `err` is an error of `Scan`; `rows.Err()` is not looked at,
so an error while reading rows only ends the loop. -/
def CState.scan (s : CState) (i : Nat) (a : Ans) : CState :=
  match a.err with
  | some code => (s.log (.failed i (some code))).goto (.error i (some code))
  | none => (s.log (.scanned i)).goto (.stmt (i + 1))

/-- client/client.go:347-351. -/
def CState.error (c : Cli) (s : CState) (i : Nat) (code : Option Nat) (a : Ans) : CState :=
  match c.statsAt s.trxNo with
  | none => s.stop .panic
  | some stat =>
    let s := match stat with
      | some name => if a.ctxDone then s else s.log (.errorStat name (code.getD 0))
      | none => s
    s.goto (.connect (some (code, i)))

/-- client/client.go:82-359: one step. -/
def CState.step (c : Cli) (s : CState) (a : Ans) : CState :=
  match s.pc with
  | .connect err => s.connect c err a
  | .rollback flags _ _ => s.doRollback flags a
  | .close first => s.close first
  | .connLoop first => s.connLoop first a
  | .connected first => s.connected c first a
  | .use first => s.use first a
  | .prep first k => s.prepare c first k a
  | .head => s.head c a
  | .stmt i => s.stmt c i
  | .limit i => s.limit i a
  | .exec i => s.exec c i a
  | .scan i => s.scan i a
  | .error i code => s.error c i code a
  | .stopped _ => s

/-- A run. -/
def CState.run (c : Cli) (s : CState) (as : List Ans) : CState := as.foldl (CState.step c) s

/-! ### Values of a query: client/client.go:268-275 -/

/-- `copy(dst[d:], src)`: the new `dst`. -/
def copyAt {V : Type} (dst : List V) (d : Nat) (src : List V) : List V :=
  dst.take d ++ (src.take (dst.length - d) ++ dst.drop (d + src.length))

/-- client/client.go:271-275: write what the value functions return into `c.values[i]`, from index `d`
on. `dst` are the values of the previous execution (nil values at first). -/
def fillFrom {V : Type} (dst : List V) (d : Nat) : List (List V) → List V
  | [] => dst
  | v :: vs => fillFrom (copyAt dst d v) (d + min v.length (dst.length - d)) vs

/-- client/client.go:270-275. -/
def fillValues {V : Type} (dst : List V) (vs : List (List V)) : List V := fillFrom dst 0 vs

/-! ### Iteration limits of several clients: client/client.go:227-236 -/

/-- Limits of client number `c` of an execution group, and its client group. -/
structure IterCfg where
  egLimit : Nat → Nat
  cgLimit : Nat → Nat
  cg : Nat → Nat
  iter : Nat → Nat

/-- Where a client is in the loop head. -/
inductive IPc where
  | atEG | atCG | atIter | running | stopped
  deriving DecidableEq, Repr

/-- Shared counters and, for each client, its place and number of iterations begun. -/
structure IState where
  egCount : Nat
  cgCount : Nat → Nat
  pc : Nat → IPc
  done : Nat → Nat

def IState.init : IState := ⟨0, fun _ => 0, fun _ => .atEG, fun _ => 0⟩

/-- A step of client `c`; if it is running an iteration, `again` tells whether it goes on with the
next one or stops for another reason (error, cancellation, data limit). -/
def IState.step (g : IterCfg) (s : IState) (c : Nat) (again : Bool) : IState :=
  match s.pc c with
  | .atEG =>
    if g.egLimit c > 0 then
      let n := u32 (s.egCount + 1)
      { s with egCount := n, pc := upd s.pc c (if n > g.egLimit c then .stopped else .atCG) }
    else { s with pc := upd s.pc c .atCG }
  | .atCG =>
    if g.cgLimit c > 0 then
      let n := u32 (s.cgCount (g.cg c) + 1)
      { s with cgCount := upd s.cgCount (g.cg c) n
               pc := upd s.pc c (if n > g.cgLimit c then .stopped else .atIter) }
    else { s with pc := upd s.pc c .atIter }
  | .atIter =>
    if g.iter c > 0 ∧ s.done c = g.iter c then { s with pc := upd s.pc c .stopped }
    else { s with pc := upd s.pc c .running, done := upd s.done c (s.done c + 1) }
  | .running => { s with pc := upd s.pc c (if again then .atEG else .stopped) }
  | .stopped => s

/-- A schedule. -/
def IState.run (g : IterCfg) (s : IState) : List (Nat × Bool) → IState
  | [] => s
  | (c, again) :: l => (s.step g c again).run g l

end Finch
