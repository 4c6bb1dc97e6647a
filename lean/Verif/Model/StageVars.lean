import Verif.Model.Vars
/-!
Model of the `Vars` methods of config/file.go: which settings of a stage have their variables replaced.
`none` is an error. Where the code ranges over a map and the rounds do not depend on each other, the
order of the list stands for the order of the map; for the params of a stage the order is an argument.
-/
namespace Finch

/-- `for k, v := range m { m[k], err = f(v) }`. -/
def TMap.mapVals {α : Type} (f : α → Option α) : TMap α → Option (TMap α)
  | [] => some []
  | (k, v) :: rest => do
    let v ← f v
    let r ← TMap.mapVals f rest
    pure ((k, v) :: r)

/-- The same for the entries of a slice. -/
def mapEach {α : Type} (f : α → Option α) : List α → Option (List α)
  | [] => some []
  | a :: as => do
    let a ← f a
    let r ← mapEach f as
    pure (a :: r)

/-- config/file.go:647-662. -/
def TLSCfg.vars (e : VarEnv) (c : TLSCfg) : Option TLSCfg := do
  let cert ← e.vars false c.cert
  let key ← e.vars false c.key
  let ca ← e.vars false c.ca
  pure { c with cert := cert, key := key, ca := ca }

/-- config/file.go:533-567. -/
def MySQLCfg.vars (e : VarEnv) (c : MySQLCfg) : Option MySQLCfg := do
  let db ← e.vars false c.db
  let dsn ← e.vars false c.dsn
  let mycnf ← e.vars false c.mycnf
  let username ← e.vars false c.username
  let password ← e.vars false c.password
  let passwordFile ← e.vars false c.passwordFile
  let timeoutConnect ← e.vars false c.timeoutConnect
  let tls ← c.tls.vars e
  pure { c with
    db := db, dsn := dsn, mycnf := mycnf, username := username, password := password
    passwordFile := passwordFile, timeoutConnect := timeoutConnect, tls := tls }

/-- config/file.go:742-757. -/
def StatsCfg.vars (e : VarEnv) (c : StatsCfg) : Option StatsCfg := do
  let freq ← e.vars false c.freq
  let report ← c.report.mapVals (TMap.mapVals (e.vars false))
  pure { c with freq := freq, report := report }

/-- config/file.go:343-364. -/
def DataConf.vars (e : VarEnv) (c : DataConf) : Option DataConf := do
  let name ← e.vars false c.name
  let generator ← e.vars false c.generator
  let scope ← e.vars false c.scope
  let params ← c.params.mapVals (e.vars true)
  pure { c with name := name, generator := generator, scope := scope, params := params }

/-- config/file.go:316-334. -/
def TrxConf.vars (e : VarEnv) (c : TrxConf) : Option TrxConf := do
  let name ← e.vars false c.name
  let file ← e.vars false c.file
  let data ← c.data.mapVals (DataConf.vars e)
  pure { c with name := name, file := file, data := data }

/-- config/file.go:430-479. -/
def CGConf.vars (e : VarEnv) (c : CGConf) : Option CGConf := do
  let db ← e.vars false c.db
  let clients ← e.vars true c.clients
  let qps ← e.vars true c.qps
  let qpsClients ← e.vars true c.qpsClients
  let qpsExecGroup ← e.vars true c.qpsExecGroup
  let tps ← e.vars true c.tps
  let tpsClients ← e.vars true c.tpsClients
  let tpsExecGroup ← e.vars true c.tpsExecGroup
  let runtime ← e.vars false c.runtime
  let group ← e.vars false c.group
  let trx ← mapEach (e.vars false) c.trx
  pure { c with
    db := db, clients := clients, qps := qps, qpsClients := qpsClients, qpsExecGroup := qpsExecGroup
    tps := tps, tpsClients := tpsClients, tpsExecGroup := tpsExecGroup, runtime := runtime
    group := group, trx := trx }

/-- config/file.go:110-116: the params, in the order in which Go takes them. -/
def paramsLoop (e : VarEnv) (m : TMap Text) : List Text → Option (TMap Text)
  | [] => some m
  | k :: ks =>
    match { e with params := m }.vars true ((m.get? k).getD []) with
    | none => none
    | some v => paramsLoop e (m.set k v) ks

/-- config/file.go:107-155. `order` is the order of the params. -/
def StageConf.vars (e : VarEnv) (order : List Text) (c : StageConf) : Option StageConf := do
  let params ← paramsLoop e c.params order
  let e := { e with params := params }
  let name ← e.vars false c.name
  let runtime ← e.vars false c.runtime
  let qps ← e.vars true c.qps
  let tps ← e.vars true c.tps
  let instances ← e.vars true c.instances
  let mysql ← c.mysql.vars e
  let stats ← c.stats.vars e
  let trx ← mapEach (TrxConf.vars e) c.trx
  let workload ← mapEach (CGConf.vars e) c.workload
  pure { c with
    params := params, name := name, runtime := runtime, qps := qps, tps := tps, instances := instances
    mysql := mysql, stats := stats, trx := trx, workload := workload }

end Finch
