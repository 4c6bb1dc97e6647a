import Verif.Model.Prepare
import Verif.Model.Validate
import Verif.Model.Vars
/-!
Model of what stage/stage.go:46-90 takes from the configuration of a stage: trx files with their content, data
keys and params (trx/trx.go:71-84, 107-125), client groups and rates.
-/
namespace Finch

/-- What is not in the configuration: the number of the stage, files, MySQL, and library functions as in
`TrxEnv` and `VarEnv`. -/
structure StageRest where
  /-- `cfg.N` -/
  n : Nat
  /-- `s.stats != nil` -/
  withStats : Bool
  /-- lines of a file, `none` if it cannot be opened -/
  content : Text → Option (List Text)
  makeOk : Bool
  pingOk : Bool
  dbFails : Nat → Nat → Bool
  /-- `finch.SystemParams` -/
  sys : Text → Option Text
  /-- `os.LookupEnv` -/
  lookupEnv : Text → Option Text
  /-- `human.ParseBytes` -/
  human : Text → Option Nat
  duration : Text → Option Int
  make : String → String → Params → Option GenInfo
  rowOrder : List Text → List Text
  repOrder : List (Text × Text) → List (Text × Text)

/-- config/file.go:336-341 as trx/trx.go reads it. -/
def DataConf.cfg (d : DataConf) : DataCfg := ⟨String.ofList d.generator, String.ofList d.scope, d.params⟩

/-- trx/trx.go:107-125 `NewFile` and `os.Open`: a trx file of a stage with these params. -/
def TrxConf.trxFile (r : StageRest) (params : TMap Text) (t : TrxConf) : TrxFile :=
  { env :=
      { trx := String.ofList t.name
        vars := VarEnv.vars ⟨params, r.sys, r.lookupEnv, r.human⟩ true
        duration := r.duration, bytes := r.human, make := r.make, rowOrder := r.rowOrder
        repOrder := r.repOrder }
    data := fun k => (t.data.get? k.toList).map DataConf.cfg
    lines := r.content t.file }

/-- config/file.go:368-384 as the allocator reads it. -/
def CGConf.cfg (g : CGConf) : CGCfg :=
  { clients := String.ofList g.clients, db := String.ofList g.db, disableStats := g.disableStats
    group := String.ofList g.group
    iter := String.ofList g.iter, iterClients := String.ofList g.iterClients
    iterExecGroup := String.ofList g.iterExecGroup
    qps := String.ofList g.qps, qpsClients := String.ofList g.qpsClients, qpsExecGroup := String.ofList g.qpsExecGroup
    tps := String.ofList g.tps, tpsClients := String.ofList g.tpsClients, tpsExecGroup := String.ofList g.tpsExecGroup
    runtime := String.ofList g.runtime, trx := g.trx.map String.ofList }

/-- stage/stage.go:46-90: what `Prepare` reads of the configuration. -/
def StageConf.prepEnv (r : StageRest) (c : StageConf) : PrepEnv :=
  { files := c.trx.map (TrxConf.trxFile r c.params)
    workload := c.workload.map CGConf.cfg
    qps := finchUint (String.ofList c.qps), tps := finchUint (String.ofList c.tps)
    stage := r.n, withStats := r.withStats, makeOk := r.makeOk, pingOk := r.pingOk, dbFails := r.dbFails }

end Finch
