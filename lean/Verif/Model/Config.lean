import Verif.Model.Text
/-!
Model of the config package (config/config.go, config/file.go) and of two helpers of finch.go.
Go maps of strings are association lists with distinct keys; where the code ranges over a map, the
order of the list stands for the iteration order Go happens to take, so statements for all lists are
statements for all orders. YAML decoding is not modelled: the decoded structures are inputs; a string
that a file does not set is empty and a bool that it does not set is `none` (the code tells them apart
by a nil pointer).
-/
namespace Finch

/-- finch.go:164, the regular expression `:\d+$` matches: digits at the very end, at least one, after a colon. -/
def portRe (s : Text) : Bool :=
  let r := s.reverse
  !(r.takeWhile isDigit).isEmpty && (r.dropWhile isDigit).head? == some ':'

/-- finch.go:166-173. -/
def withPort (s p : Text) : Text := if portRe s then s else s ++ ':' :: p

/-! ### Maps -/

/-- A Go `map[string]α`. -/
abbrev TMap (α : Type) := List (Text × α)

/-- `m[k] = v`. -/
def TMap.set {α : Type} (m : TMap α) (k : Text) (v : α) : TMap α :=
  match m with
  | [] => [(k, v)]
  | (x, w) :: rest => if x = k then (k, v) :: rest else (x, w) :: TMap.set rest k v

/-- `m[k]`, `ok`. -/
def TMap.get? {α : Type} (m : TMap α) (k : Text) : Option α := List.lookup k m

/-! ### Structures -/

/-- config/config.go:281-287. -/
def setBool (c b : Option Bool) : Option Bool :=
  if c = none ∧ b ≠ none then b else c

/-- config/config.go:180-185. -/
def isTrue (b : Option Bool) : Bool := b.getD false

/-- config/file.go:582-591. -/
structure TLSCfg where
  ca : Text := []
  cert : Text := []
  key : Text := []
  skipVerify : Option Bool := none
  disable : Option Bool := none
  mode : Text := []
  deriving DecidableEq

/-- config/file.go:593-608. -/
def TLSCfg.withDef (c d : TLSCfg) : TLSCfg :=
  { cert := if c.cert = [] then d.cert else c.cert
    key := if c.key = [] then d.key else c.key
    ca := if c.ca = [] then d.ca else c.ca
    mode := if c.mode = [] then d.mode else c.mode
    skipVerify := setBool c.skipVerify d.skipVerify
    disable := setBool c.disable d.disable }

/-- config/file.go:667-669. -/
def TLSCfg.isSet (c : TLSCfg) : Bool :=
  !isTrue c.disable && c.mode ≠ "DISABLED".toList && (c.ca ≠ [] || c.cert ≠ [] || c.key ≠ [])

/-- config/file.go:483-496. -/
structure MySQLCfg where
  db : Text := []
  dsn : Text := []
  hostname : Text := []
  mycnf : Text := []
  password : Text := []
  passwordFile : Text := []
  socket : Text := []
  timeoutConnect : Text := []
  tls : TLSCfg := {}
  username : Text := []
  disableAutoTLS : Option Bool := none
  deriving DecidableEq

/-- config/file.go:501-531. -/
def MySQLCfg.withDef (c d : MySQLCfg) : MySQLCfg :=
  { db := if c.db = [] then d.db else c.db
    dsn := if c.dsn = [] then d.dsn else c.dsn
    hostname := if c.hostname = [] then d.hostname else c.hostname
    mycnf := if c.mycnf = [] ∧ d.mycnf ≠ [] then d.mycnf else c.mycnf
    password := if c.password = [] ∧ d.password ≠ [] then d.password else c.password
    passwordFile := if c.passwordFile = [] ∧ d.passwordFile ≠ [] then d.passwordFile else c.passwordFile
    socket := if c.socket = [] then d.socket else c.socket
    timeoutConnect :=
      if c.timeoutConnect = [] ∧ d.timeoutConnect ≠ [] then d.timeoutConnect else c.timeoutConnect
    username := if c.username = [] ∧ d.username ≠ [] then d.username else c.username
    disableAutoTLS := setBool c.disableAutoTLS d.disableAutoTLS
    tls := c.tls.withDef d.tls }

/-- config/file.go:711-715. -/
structure StatsCfg where
  disable : Option Bool := none
  freq : Text := []
  report : TMap (TMap Text) := []
  deriving DecidableEq

/-- config/file.go:17-21. -/
structure BaseCfg where
  mysql : MySQLCfg := {}
  params : TMap Text := []
  stats : StatsCfg := {}
  deriving DecidableEq

/-- config/file.go:336-341. -/
structure DataConf where
  name : Text := []
  generator : Text := []
  scope : Text := []
  params : TMap Text := []
  deriving DecidableEq

/-- config/file.go:310-314. -/
structure TrxConf where
  name : Text := []
  file : Text := []
  data : TMap DataConf := []
  deriving DecidableEq

/-- config/file.go:368-384. -/
structure CGConf where
  clients : Text := []
  db : Text := []
  disableStats : Bool := false
  iter : Text := []
  iterClients : Text := []
  iterExecGroup : Text := []
  group : Text := []
  qps : Text := []
  qpsClients : Text := []
  qpsExecGroup : Text := []
  runtime : Text := []
  tps : Text := []
  tpsClients : Text := []
  tpsExecGroup : Text := []
  trx : List Text := []
  deriving DecidableEq

/-- config/file.go:35-51 without `N`, `Id` and `Test` (numbers given by the program). -/
structure StageConf where
  disableLocal : Bool := false
  instances : Text := []
  disable : Bool := false
  file : Text := []
  name : Text := []
  mysql : MySQLCfg := {}
  params : TMap Text := []
  qps : Text := []
  runtime : Text := []
  stats : StatsCfg := {}
  tps : Text := []
  trx : List TrxConf := []
  workload : List CGConf := []
  deriving DecidableEq

/-! ### Base config and command line -/

/-- config/file.go:60-64: params of the base that the stage does not have. -/
def addParams (c : TMap Text) : TMap Text → TMap Text
  | [] => c
  | (k, v) :: rest => addParams (if (c.get? k).isSome then c else c.set k v) rest

/-- config/file.go:53-82. -/
def StageConf.withBase (c : StageConf) (b : BaseCfg) : StageConf :=
  { c with
    params := addParams c.params b.params
    mysql := c.mysql.withDef b.mysql
    stats :=
      { disable := setBool c.stats.disable b.stats.disable
        freq := b.stats.freq
        report := if b.stats.report.isEmpty then c.stats.report else b.stats.report } }

/-- config/file.go:84-105. -/
def StageConf.commandLine (c : StageConf) (dsn db : Text) : StageConf :=
  let c := if dsn = [] then c else { c with mysql := { c.mysql with dsn := dsn } }
  if db = [] then c
  else { c with
    mysql := { c.mysql with db := db }
    workload := c.workload.map fun g => { g with db := db } }

/-- `strings.SplitN(s, sep, 2)` for a one-character separator: the two parts if there is one. -/
def splitN2 (sep : Char) : Text → Option (Text × Text)
  | [] => none
  | c :: cs => if c = sep then some ([], cs) else (splitN2 sep cs).map fun p => (c :: p.1, p.2)

/-- config/config.go:51-59. -/
def cmdParams (kvs : List Text) : TMap Text :=
  kvs.foldl (fun m kv => match splitN2 '=' kv with | none => m | some (k, v) => m.set k v) []

/-- config/config.go:85-93: `b.Params[k] = v` for all command line params. -/
def BaseCfg.withParams (b : BaseCfg) (params : TMap Text) : BaseCfg :=
  if b.params.isEmpty then b else { b with params := params.foldl (fun m kv => m.set kv.1 kv.2) b.params }

/-- config/config.go:61-119 for one stage file: the stage before variables are replaced. `base` is the
content of `_all.yaml` in the directory of the file, empty if there is none. Model/Load is the loop over all
files, in which the base is read once per directory and remembered together with the merged params. -/
def loadStage (base : BaseCfg) (params : TMap Text) (dsn db : Text) (f : StageConf) : StageConf :=
  (f.withBase (base.withParams params)).commandLine dsn db

end Finch
