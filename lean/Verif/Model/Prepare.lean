import Verif.Model.Workload
import Verif.Model.Trx
import Verif.Model.Collector
/-!
Model of stage/stage.go `Stage.Prepare` and of stats/collector.go `Collector.Watch`: what happens between
the configuration of a stage and its run. It puts together loading of trx files (Model/Trx), the
allocator (Model/Workload) and the data scope (Model/Scope).
-/
namespace Finch

/-- data/scope.go:37-45: what `Scope.Copy` reads of a loaded key. The scope is a valid name or empty
(config/file.go:187-204 refuses others). A key without a scope is a column, because trx/trx.go:474-477
sets one for all others. -/
def TKey.key (k : TKey) : Key := ⟨Scope.ofString? k.scope, decide (k.column ≥ 0)⟩

/-- `trxSet.Data`, i.e. `s.gds` after trx.Load (stage/stage.go:71): loading only adds keys. -/
def prepScope (s : DataScope) (keys : GoMap String TKey) : DataScope :=
  { s with keys := fun n => match s.keys n with
      | some k => some k
      | none => (keys n).map TKey.key }

/-- stats/collector.go:55-73, what `Watch` changes: `c.trx` (a row per client; here the name of each
trx, `none` for a nil pointer), `c.local.Clients` and `c.local.Trx`. -/
structure WatchSt where
  rows : List (List (Option String))
  clients : Nat
  trx : GoMap String Stats

/-- stats/collector.go:75-96 `NewCollector`. -/
def WatchSt.new : WatchSt := ⟨[], 0, GoMap.empty⟩

/-- stats/collector.go:117-128: the loop over the trx from index `i` on. The row has `n` elements and is
assigned at the index of the trx, which panics beyond. -/
def watchLoop (row : List (Option String)) (trx : GoMap String Stats) (i : Nat) :
    List (Option String) → Out (List (Option String) × GoMap String Stats)
  | [] => .ok (row, trx)
  | none :: rest => watchLoop row trx (i + 1) rest
  | some name :: rest =>
    if row.length ≤ i then .panic
    else
      watchLoop (row.set i (some name)) (if (trx name).isNone then trx.set name Stats.new else trx)
        (i + 1) rest

/-- stats/collector.go:100-128 `Watch`. -/
def WatchSt.watch (c : WatchSt) (stats : List (Option String)) : Out WatchSt :=
  let n := stats.countP Option.isSome
  if n = 0 then .ok c
  else do
    let (row, trx) ← watchLoop (List.replicate n none) c.trx 0 stats
    pure ⟨c.rows ++ [row], c.clients + 1, trx⟩

/-- stage/stage.go:102-113: watch one client after another. `Client.Init` (client/client.go:70-80) makes
slices and never fails. -/
def WatchSt.watchAll (c : WatchSt) : List AClient → Out WatchSt
  | [] => .ok c
  | a :: as => do
    let c ← c.watch a.stats
    c.watchAll as

/-- All clients in the order in which they are initialised, stage/stage.go:102-104. -/
def allClients (egs : List (List ACGroup)) : List AClient := egs.flatten.flatMap (·.clients)

/-- What `Prepare` is given: the trx files (`s.cfg.Trx` with their content), workload, rates and number
of the stage, whether there is a collector, and (unmodelled) how MySQL and its driver behave. -/
structure PrepEnv where
  files : List TrxFile
  workload : List CGCfg
  qps : Nat
  tps : Nat
  stage : Nat
  withStats : Bool
  /-- stage/stage.go:53-56 -/
  makeOk : Bool
  /-- stage/stage.go:59-61 -/
  pingOk : Bool
  /-- `dbconn.Make` in the allocator -/
  dbFails : Nat → Nat → Bool

/-- A prepared stage: the allocator's state (with the data scope), the clients, and the collector. -/
structure Prepared where
  set : TrxSet
  workload : List CGCfg
  groups : List (List Nat)
  st : WState
  execGroups : List (List ACGroup)
  watch : WatchSt

/-- stage/stage.go:46-116 `Stage.Prepare`. `s` is `s.gds` and `keys` its keys as trx.Load sees them. -/
def prepare (p : PrepEnv) (s : DataScope) (keys : GoMap String TKey) : Out Prepared :=
  if p.files = [] then .panic
  else if p.makeOk = false then .err
  else if p.pingOk = false then .err
  else do
    let set ← loadTrx ⟨[], GoMap.empty, GoMap.empty, keys⟩ p.files
    let (w, groups) ← allocGroups set.ddl set.order p.workload
    let (st, egs) ← allocClients ⟨set.statements, p.stage, p.withStats, p.dbFails⟩ w p.qps p.tps
      (prepScope s set.keys) groups
    let watch ← if p.withStats then WatchSt.new.watchAll (allClients egs) else .ok WatchSt.new
    pure ⟨set, w, groups, st, egs, watch⟩

end Finch
