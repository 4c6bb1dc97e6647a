import Verif.Model.Json
import Verif.Model.Config
/-!
The configuration of a stage (`Model/Config.lean`) as the JSON value that encoding/json writes for it
(compute/api.go:197). `none` of a `*bool` is a nil pointer; `nil` tells whether empty lists and maps are nil (both
occur: a nil map if a file does not have it, an empty map if it was made).
-/
namespace Finch

/-- A text in UTF-8. -/
def utf8Text (t : Text) : Bytes := t.flatMap fun c => utf8Rune c.toNat

def jText (t : Text) : JVal := .str (utf8Text t)

def jPtrBool : Option Bool → JVal
  | none => .null
  | some b => .bool b

def jList {α : Type} (nil : Bool) (f : α → JVal) (l : List α) : JVal :=
  if l.isEmpty && nil then .null else .arr (l.map f)

def jMap {α : Type} (nil : Bool) (f : α → JVal) (m : TMap α) : JVal :=
  if m.isEmpty && nil then .null else .obj (m.map fun e => (utf8Text e.1, f e.2))

/-- config/file.go:582-591 -/
def TLSCfg.toJson (c : TLSCfg) : JVal :=
  .obj [(ascii "CA", jText c.ca), (ascii "Cert", jText c.cert), (ascii "Key", jText c.key),
    (ascii "SkipVerify", jPtrBool c.skipVerify), (ascii "Disable", jPtrBool c.disable), (ascii "MySQLMode", jText c.mode)]

/-- config/file.go:483-496 -/
def MySQLCfg.toJson (c : MySQLCfg) : JVal :=
  .obj [(ascii "Db", jText c.db), (ascii "DSN", jText c.dsn), (ascii "Hostname", jText c.hostname),
    (ascii "MyCnf", jText c.mycnf), (ascii "Password", jText c.password), (ascii "PasswordFile", jText c.passwordFile),
    (ascii "Socket", jText c.socket), (ascii "TimeoutConnect", jText c.timeoutConnect), (ascii "TLS", c.tls.toJson),
    (ascii "Username", jText c.username), (ascii "DisableAutoTLS", jPtrBool c.disableAutoTLS)]

/-- config/file.go:711-715 -/
def StatsCfg.toJson (nil : Bool) (c : StatsCfg) : JVal :=
  .obj [(ascii "Disable", jPtrBool c.disable), (ascii "Freq", jText c.freq), (ascii "Report", jMap nil (jMap nil jText) c.report)]

/-- config/file.go:336-341 -/
def DataConf.toJson (nil : Bool) (c : DataConf) : JVal :=
  .obj [(ascii "Name", jText c.name), (ascii "Generator", jText c.generator), (ascii "Scope", jText c.scope),
    (ascii "Params", jMap nil jText c.params)]

/-- config/file.go:310-314 -/
def TrxConf.toJson (nil : Bool) (c : TrxConf) : JVal :=
  .obj [(ascii "Name", jText c.name), (ascii "File", jText c.file), (ascii "Data", jMap nil (DataConf.toJson nil) c.data)]

/-- config/file.go:368-384 -/
def CGConf.toJson (nil : Bool) (c : CGConf) : JVal :=
  .obj [(ascii "Clients", jText c.clients), (ascii "Db", jText c.db), (ascii "DisableStats", .bool c.disableStats),
    (ascii "Iter", jText c.iter), (ascii "IterClients", jText c.iterClients), (ascii "IterExecGroup", jText c.iterExecGroup),
    (ascii "Group", jText c.group), (ascii "QPS", jText c.qps), (ascii "QPSClients", jText c.qpsClients),
    (ascii "QPSExecGroup", jText c.qpsExecGroup), (ascii "Runtime", jText c.runtime), (ascii "TPS", jText c.tps),
    (ascii "TPSClients", jText c.tpsClients), (ascii "TPSExecGroup", jText c.tpsExecGroup), (ascii "Trx", jList nil jText c.trx)]

/-- config/file.go:35-51; `id`, `n` and `test` are the fields that the program sets (`Id`, `N`, `Test`). -/
def StageConf.toJson (nil : Bool) (id : Text) (n : Nat) (test : Bool) (c : StageConf) : JVal :=
  .obj [(ascii "Compute", .obj [(ascii "DisableLocal", .bool c.disableLocal), (ascii "Instances", jText c.instances)]),
    (ascii "Disable", .bool c.disable), (ascii "File", jText c.file), (ascii "Id", jText id), (ascii "Name", jText c.name),
    (ascii "MySQL", c.mysql.toJson), (ascii "N", .num (decimalBytes n)), (ascii "Params", jMap nil jText c.params),
    (ascii "QPS", jText c.qps), (ascii "Runtime", jText c.runtime), (ascii "Stats", c.stats.toJson nil),
    (ascii "TPS", jText c.tps), (ascii "Test", .bool test), (ascii "Trx", jList nil (TrxConf.toJson nil) c.trx),
    (ascii "Workload", jList nil (CGConf.toJson nil) c.workload)]

end Finch
