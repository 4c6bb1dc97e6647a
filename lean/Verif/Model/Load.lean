import Verif.Model.StageVars
import Verif.Model.Validate
/-!
Model of `config.Load`, config/config.go:36-145, for any number of stage files, with the maps it shares.
The params and the reporters of a config are Go maps, that is references, and the base config of a
directory (`_all.yaml`) is decoded once and used by all its stages. Here such maps are cells of a memory
and configs hold references to them, so that a stage that kept a map of the base would be seen to change
the stages after it. Reading files, decoding YAML and `filepath` are inputs. Maps that only one config can
have (data of a trx) are values, as in the other models. A map that is not in a file is nil; an empty map in a
file is taken as nil too, which the code does not tell apart. Writing to a nil map panics.
-/
namespace Finch

/-- The maps: `map[string]string`, and `map[string]map[string]string` whose values are references. -/
structure Heap where
  ms : List (TMap Text) := []
  rs : List (TMap (Option Nat)) := []
  deriving DecidableEq

/-- The content of a map; a nil map is empty. -/
def Heap.m (h : Heap) : Option Nat → TMap Text
  | none => []
  | some i => h.ms.getD i []

def Heap.r (h : Heap) : Option Nat → TMap (Option Nat)
  | none => []
  | some i => h.rs.getD i []

/-- `m[k] = v` -/
def Heap.putM (h : Heap) (i : Option Nat) (k v : Text) : Out Heap :=
  match i with
  | none => .panic
  | some j => .ok { h with ms := h.ms.set j ((h.m i).set k v) }

def Heap.putR (h : Heap) (i : Option Nat) (k : Text) (v : Option Nat) : Out Heap :=
  match i with
  | none => .panic
  | some j => .ok { h with rs := h.rs.set j ((h.r i).set k v) }

/-- `map[string]string{}` -/
def Heap.newM (h : Heap) : Option Nat × Heap := (some h.ms.length, { h with ms := h.ms ++ [[]] })

def Heap.newR (h : Heap) : Option Nat × Heap := (some h.rs.length, { h with rs := h.rs ++ [[]] })

/-- The content of a map of maps. -/
def Heap.report (h : Heap) (i : Option Nat) : TMap (TMap Text) := (h.r i).map fun p => (p.1, h.m p.2)

/-- `config.Base`; the maps are `params` and `report`, the rest is in `val`. -/
structure HBase where
  val : BaseCfg := {}
  params : Option Nat := none
  report : Option Nat := none
  deriving DecidableEq

/-- `config.Stage`; `n` is `N`. -/
structure HStage where
  n : Nat := 0
  val : StageConf := {}
  params : Option Nat := none
  report : Option Nat := none
  deriving DecidableEq

/-- What one sees of a stage. -/
def HStage.read (h : Heap) (s : HStage) : StageConf :=
  { s.val with params := h.m s.params, stats := { s.val.stats with report := h.report s.report } }

def HBase.read (h : Heap) (b : HBase) : BaseCfg :=
  { b.val with params := h.m b.params, stats := { b.val.stats with report := h.report b.report } }

/-! ### Decoding -/

/-- A new map with this content. -/
def Heap.decodeM (h : Heap) (m : TMap Text) : Option Nat × Heap :=
  if m.isEmpty then (none, h) else (some h.ms.length, { h with ms := h.ms ++ [m] })

def Heap.decodeInner (h : Heap) : TMap (TMap Text) → TMap (Option Nat) × Heap
  | [] => ([], h)
  | (k, m) :: rest =>
    let (i, h) := h.decodeM m
    let (r, h) := h.decodeInner rest
    ((k, i) :: r, h)

def Heap.decodeR (h : Heap) (r : TMap (TMap Text)) : Option Nat × Heap :=
  if r.isEmpty then (none, h)
  else
    let (o, h) := h.decodeInner r
    (some h.rs.length, { h with rs := h.rs ++ [o] })

/-- config/config.go:76-79: `yaml.UnmarshalStrict` into a new `Base`. -/
def Heap.decodeBase (h : Heap) (b : BaseCfg) : HBase × Heap :=
  let (p, h) := h.decodeM b.params
  let (r, h) := h.decodeR b.stats.report
  (⟨b, p, r⟩, h)

/-- config/config.go:109-115: the same into a new `Stage`. -/
def Heap.decodeStage (h : Heap) (n : Nat) (c : StageConf) : HStage × Heap :=
  let (p, h) := h.decodeM c.params
  let (r, h) := h.decodeR c.stats.report
  (⟨n, c, p, r⟩, h)

/-! ### Command line params -/

def Heap.putAll (h : Heap) (i : Option Nat) : TMap Text → Out Heap
  | [] => .ok h
  | (k, v) :: rest => do
    let h ← h.putM i k v
    h.putAll i rest

/-- config/config.go:88-95 -/
def HBase.withParams (h : Heap) (b : HBase) (params : TMap Text) : Out (HBase × Heap) :=
  if (h.m b.params).isEmpty then .ok (b, h)
  else do
    let h ← h.putAll b.params params
    .ok (b, h)

/-! ### `Stage.With` -/

/-- config/file.go:60-64 -/
def Heap.addParams (h : Heap) (i : Option Nat) : TMap Text → Out Heap
  | [] => .ok h
  | (k, v) :: rest =>
    if ((h.m i).get? k).isSome then h.addParams i rest
    else do
      let h ← h.putM i k v
      h.addParams i rest

/-- config/file.go:74-79: a copy of every map of the base. -/
def Heap.copyReport (h : Heap) (o : Option Nat) : TMap (Option Nat) → Out Heap
  | [] => .ok h
  | (k, i) :: rest => do
    let (j, h) := h.newM
    let h ← h.putR o k j
    let h ← h.putAll j (h.m i)
    h.copyReport o rest

/-- config/file.go:56-65 -/
def HStage.addBase (h : Heap) (c : HStage) (b : HBase) : Out (HStage × Heap) :=
  if (h.m b.params).isEmpty then .ok (c, h)
  else do
    let (p, h) := if c.params = none then h.newM else (c.params, h)
    let h ← h.addParams p (h.m b.params)
    .ok ({ c with params := p }, h)

/-- config/file.go:67-71 -/
def HStage.addSettings (c : HStage) (b : HBase) : HStage :=
  { c with val := { c.val with
    mysql := c.val.mysql.withDef b.val.mysql
    stats := { c.val.stats with
      disable := setBool c.val.stats.disable b.val.stats.disable
      freq := b.val.stats.freq } } }

/-- config/file.go:53-82. -/
def HStage.withBase (h : Heap) (c : HStage) (b : HBase) : Out (HStage × Heap) := do
  let (c, h) ← c.addBase h b
  let c := c.addSettings b
  if (h.r b.report).isEmpty then .ok (c, h)
  else do
    let (o, h) := h.newR
    let h ← h.copyReport o (h.r b.report)
    .ok ({ c with report := o }, h)

/-! ### `Stage.Vars` -/

/-- config/file.go:110-116 -/
def Heap.varsParams (e : VarEnv) (h : Heap) (i : Option Nat) : List Text → Out Heap
  | [] => .ok h
  | k :: ks =>
    match { e with params := h.m i }.vars true (((h.m i).get? k).getD []) with
    | none => .err
    | some v => do
      let h ← h.putM i k v
      h.varsParams e i ks

/-- config/file.go:749-754: one reporter. -/
def Heap.varsMap (e : VarEnv) (h : Heap) (i : Option Nat) : List Text → Out Heap
  | [] => .ok h
  | k :: ks =>
    match e.vars false (((h.m i).get? k).getD []) with
    | none => .err
    | some v => do
      let h ← h.putM i k v
      h.varsMap e i ks

/-- config/file.go:748-755 -/
def Heap.varsReport (e : VarEnv) (h : Heap) : TMap (Option Nat) → Out Heap
  | [] => .ok h
  | (_, i) :: rest => do
    let h ← h.varsMap e i ((h.m i).map (·.1))
    h.varsReport e rest

/-- config/file.go:107-155. `order` is the order of the params. -/
def HStage.vars (e : VarEnv) (order : List Text) (h : Heap) (c : HStage) : Out (HStage × Heap) := do
  let h ← h.varsParams e c.params order
  let e := { e with params := h.m c.params }
  let name ← Out.ofOption (e.vars false c.val.name)
  let runtime ← Out.ofOption (e.vars false c.val.runtime)
  let qps ← Out.ofOption (e.vars true c.val.qps)
  let tps ← Out.ofOption (e.vars true c.val.tps)
  let instances ← Out.ofOption (e.vars true c.val.instances)
  let mysql ← Out.ofOption (c.val.mysql.vars e)
  let freq ← Out.ofOption (e.vars false c.val.stats.freq)
  let h ← h.varsReport e (h.r c.report)
  let trx ← Out.ofOption (mapEach (TrxConf.vars e) c.val.trx)
  let workload ← Out.ofOption (mapEach (CGConf.vars e) c.val.workload)
  .ok ({ c with val := { c.val with
    name := name, runtime := runtime, qps := qps, tps := tps, instances := instances
    mysql := mysql, stats := { c.val.stats with freq := freq }, trx := trx, workload := workload } }, h)

/-! ### `Stage.Validate` -/

/-- config/file.go:732-737 -/
def Heap.fillNil (h : Heap) (o : Option Nat) : TMap (Option Nat) → Out Heap
  | [] => .ok h
  | (k, i) :: rest =>
    if i ≠ none then h.fillNil o rest
    else do
      let (j, h) := h.newM
      let h ← h.putR o k j
      h.fillNil o rest

/-- config/file.go:157-280; what it does to settings that are not maps is `StageConf.validate`,
which does not look at the maps. -/
def HStage.validate (env : ValEnv) (h : Heap) (c : HStage) : Out (HStage × Heap) :=
  match (c.read h).validate env with
  | none => .err
  | some v =>
    if c.val.disable then .ok (c, h)
    else if (h.r c.report).isEmpty then do
      let (o, h) := h.newR
      let (j, h) := h.newM
      let h ← h.putR o "stdout".toList j
      let h ← h.putM j "each-instance".toList "true".toList
      .ok ({ c with val := v, report := o }, h)
    else do
      let h ← h.fillNil c.report (h.r c.report)
      .ok ({ c with val := v }, h)

/-! ### `Load` -/

/-- A base file: there is none, it cannot be read or decoded, or it is decoded. -/
inductive BaseFile
  | missing
  | bad
  | ok (b : BaseCfg)

/-- The world: files are looked up relative to the working directory. -/
structure LoadEnv where
  /-- `filepath.Dir` -/
  dir : Text → Text
  /-- working directory → directory → `_all.yaml` in it -/
  base : Text → Text → BaseFile
  /-- working directory → file → the stage decoded from it, if it can be read and decoded -/
  file : Text → Text → Option StageConf
  /-- `filepath.Abs` -/
  abs : Text → Text → Text
  /-- `os.Chdir`: the working directory afterwards; it is the same if that failed, which the code
  does not look at -/
  chdir : Text → Text → Text
  /-- what validation sees, in a working directory -/
  val : Text → ValEnv
  vars : VarEnv
  /-- the order in which Go takes the params of stage `n` -/
  order : Nat → TMap Text → List Text
  /-- `--dsn`, `--database` -/
  dsn : Text
  db : Text

structure LoadSt where
  h : Heap := {}
  cwd : Text
  base : TMap HBase := []
  stages : List HStage := []

/-- config/config.go:63-98: the base of a directory, read unless it is remembered. -/
def loadBase (E : LoadEnv) (params : TMap Text) (st : LoadSt) (dir : Text) : Out (HBase × LoadSt) :=
  match st.base.get? dir with
  | some b => .ok (b, st)
  | none =>
    match E.base st.cwd dir with
    | .bad => .err
    | .missing => do
      let (b, h) ← HBase.withParams st.h {} params
      .ok (b, { st with h := h, base := st.base.set dir b })
    | .ok b => do
      let (b, h) := st.h.decodeBase b
      let (b, h) ← b.withParams h params
      .ok (b, { st with h := h, base := st.base.set dir b })

/-- config/config.go:61-141, one round. -/
def loadRound (E : LoadEnv) (params : TMap Text) (cwd0 : Text) (st : LoadSt) (n : Nat) (file : Text) :
    Out LoadSt := do
  let (b, st) ← loadBase E params st (E.dir file)
  let c ← Out.ofOption (E.file st.cwd file)
  let (s, h) := st.h.decodeStage (n + 1) { c with file := E.abs st.cwd file }
  let (s, h) ← s.withBase h b
  let s := { s with val := s.val.commandLine E.dsn E.db }
  let (s, h) ← s.vars E.vars (E.order n (h.m s.params)) h
  let cwd := E.chdir st.cwd (E.dir file)
  let (s, h) ← s.validate (E.val cwd) h
  .ok { st with h := h, cwd := E.chdir cwd cwd0, stages := st.stages ++ [s] }

/-- config/config.go:61-143 -/
def loadLoop (E : LoadEnv) (params : TMap Text) (cwd0 : Text) (st : LoadSt) :
    Nat → List Text → Out LoadSt
  | _, [] => .ok st
  | n, file :: files => do
    let st ← loadRound E params cwd0 st n file
    loadLoop E params cwd0 st (n + 1) files

/-- config/config.go:36-144: the stages with their numbers, as they are when `Load` returns. -/
def load (E : LoadEnv) (cwd0 : Text) (files kvparams : List Text) : Out (List (Nat × StageConf)) := do
  let st ← loadLoop E (cmdParams kvparams) cwd0 { cwd := cwd0 } 0 files
  .ok (st.stages.map fun s => (s.n, s.read st.h))

end Finch
