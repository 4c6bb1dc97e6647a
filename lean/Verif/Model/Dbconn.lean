import Verif.Model.Config
import Verif.Model.Trx
/-!
Model of the dbconn package (dbconn/factory.go, dbconn/mycnf.go) and of `TLS.LoadTLS` and `TLS.Validate`
(config/file.go). Files are read through `DbEnv`; parsing of ini files and of certificates is not
modelled (its results are inputs). `parseDSN` models how the MySQL driver (github.com/go-sql-driver/mysql
v1.7, not part of the repository) splits a DSN; it is used only by the properties that say so.
-/
namespace Finch

/-- The settings in the section `[client]` of a my.cnf file that are read (dbconn/mycnf.go:24-32, 50-72). -/
structure MyCnf where
  user : Text := []
  password : Text := []
  host : Text := []
  port : Text := []
  socket : Text := []
  sslMode : Text := []
  sslCa : Text := []
  sslCert : Text := []
  sslKey : Text := []
  deriving DecidableEq

/-- The file system: my.cnf files, other files, and whether two files are a certificate and its key. -/
structure DbEnv where
  mycnf : Text → Option MyCnf
  read : Text → Option Text
  keyPair : Text → Text → Bool

/-- dbconn/mycnf.go:47-80 (`strings.ToUpper` for ASCII only). -/
def mysqlTLS (m : MyCnf) (socket : Text) : TLSCfg :=
  let up := m.sslMode.map Char.toUpper
  let mode := if up = [] then "PREFERRED".toList else up
  let tls : TLSCfg := { mode := mode }
  if mode = "DISABLED".toList then tls
  else if socket ≠ [] ∧ mode = "PREFERRED".toList then tls
  else { tls with ca := m.sslCa, cert := m.sslCert, key := m.sslKey }

/-- dbconn/mycnf.go:16-45. The result of `mysqlTLS` is not used (line 41). -/
def parseMyCnf (m : MyCnf) : MySQLCfg :=
  let cfg : MySQLCfg :=
    { username := m.user, password := m.password, socket := m.socket
      hostname := if m.port ≠ [] then m.host ++ ':' :: m.port else m.host }
  let _tls := mysqlTLS m cfg.socket
  cfg

/-- The parts of `tls.Config` that are set. -/
structure TLSConf where
  server : Text
  skipVerify : Bool
  ca : Option Text
  cert : Option (Text × Text)
  deriving DecidableEq

/-- config/file.go:671-706: `none` is an error, `some none` no TLS. -/
def TLSCfg.load (env : DbEnv) (c : TLSCfg) (server : Text) : Option (Option TLSConf) :=
  if !c.isSet then some none
  else
    let t : TLSConf := { server := server, skipVerify := isTrue c.skipVerify, ca := none, cert := none }
    let r : Option TLSConf :=
      if c.ca ≠ [] then
        match env.read c.ca with
        | none => none
        | some b => some { t with ca := some b }
      else some t
    match r with
    | none => none
    | some t =>
      if c.cert ≠ [] ∧ c.key ≠ [] then
        if env.keyPair c.cert c.key then some (some { t with cert := some (c.cert, c.key) }) else none
      else some (some t)

/-- config/file.go:610-645: `true` if accepted. -/
def TLSCfg.valid (fileExists : Text → Bool) (c : TLSCfg) : Bool :=
  if isTrue c.disable || (c.cert = [] && c.key = [] && c.ca = []) then true
  else if c.ca ≠ [] && !fileExists c.ca then false
  else if c.cert ≠ [] && !fileExists c.cert then false
  else if c.key ≠ [] && !fileExists c.key then false
  else if c.ca ≠ [] && (c.cert = [] && c.key = []) then true
  else if c.cert ≠ [] && c.key ≠ [] then true
  else if c.ca ≠ [] && c.cert ≠ [] && c.key ≠ [] then true
  else false

/-- config/file.go:569-571: nothing is checked. -/
def MySQLCfg.valid (_c : MySQLCfg) : Bool := true

/-- dbconn/factory.go:30,113: the text without a suffix `:\d+`. -/
def stripPort (s : Text) : Text :=
  if portRe s then ((s.reverse.dropWhile isDigit).drop 1).reverse else s

/-- dbconn/factory.go:26: `rds\.amazonaws\.com(:\d+)?$` matches. -/
def rdsAddr (s : Text) : Bool :=
  "rds.amazonaws.com".toList.isSuffixOf s || "rds.amazonaws.com".toList.isSuffixOf (stripPort s)

/-- dbconn/factory.go:34-37 with the TLS configuration registered as "benchmark" (`mysql.RegisterTLSConfig`). -/
structure Factory where
  cfg : MySQLCfg := {}
  dsn : Text := []
  benchmark : Option TLSConf := none
  deriving DecidableEq

/-- dbconn/factory.go:39-42. -/
def Factory.setConfig (f : Factory) (cfg : MySQLCfg) : Factory := { f with cfg := cfg, dsn := [] }

/-- dbconn/factory.go:81-96: network, address and the configuration with the default hostname. -/
def netAddr (cfg : MySQLCfg) : Text × Text × MySQLCfg :=
  if cfg.socket ≠ [] then ("unix".toList, cfg.socket, cfg)
  else
    let cfg := if cfg.hostname = [] then { cfg with hostname := "127.0.0.1".toList } else cfg
    ("tcp".toList, cfg.hostname, cfg)

/-- dbconn/factory.go:135-157: user and password; `none` is an error. -/
def credentials (env : DbEnv) (cfg : MySQLCfg) : Option (Text × Text) :=
  let pw : Option Text := if cfg.passwordFile ≠ [] then env.read cfg.passwordFile else some cfg.password
  match pw with
  | none => none
  | some password =>
    if cfg.username = [] then
      some ("finch".toList, if cfg.password = [] ∧ password = [] then "amazing".toList else password)
    else some (cfg.username, password)

/-- dbconn/factory.go:81-169: the DSN from the configuration with the settings of my.cnf. The factory
after the call and whether there was no error. -/
def Factory.setDSNWith (env : DbEnv) (f : Factory) (cfg : MySQLCfg) : Factory × Bool :=
  let (net, addr, cfg) := netAddr cfg
  let cfg :=
    if net = "unix".toList ∧ cfg.tls.isSet ∧ cfg.hostname = [] ∧ !isTrue cfg.tls.skipVerify then
      { cfg with tls := { cfg.tls with skipVerify := some true } }
    else cfg
  let f := { f with cfg := cfg }
  match cfg.tls.load env (stripPort cfg.hostname) with
  | none => (f, false)
  | some t =>
    let f := if t.isSome then { f with benchmark := t } else f
    let tls : Text :=
      if t.isSome then "&tls=benchmark".toList
      else if rdsAddr addr && !isTrue cfg.disableAutoTLS then "&tls=rds".toList else []
    match credentials env cfg with
    | none => (f, false)
    | some (user, password) =>
      let cred := if password ≠ [] then user ++ ':' :: password else user
      ({ f with
          cfg := { cfg with username := user }
          dsn := cred ++ '@' :: net ++ '(' :: addr ++ ")/".toList ++ cfg.db ++
            '?' :: ("parseTime=true".toList ++ tls) }, true)

/-- dbconn/factory.go:63-169. -/
def Factory.setDSN (env : DbEnv) (f : Factory) : Factory × Bool :=
  if f.cfg.dsn ≠ [] then ({ f with dsn := f.cfg.dsn }, true)
  else if f.cfg.mycnf ≠ [] then
    match env.mycnf f.cfg.mycnf with
    | none => (f, false)
    | some m => f.setDSNWith env (f.cfg.withDef (parseMyCnf m))
  else f.setDSNWith env f.cfg

/-! ### The driver -/

/-- What a DSN says. -/
structure DSN where
  user : Text := []
  passwd : Text := []
  net : Text := []
  addr : Text := []
  db : Text := []
  params : Text := []
  deriving DecidableEq

/-- Split at the last `c`. -/
def splitLast (c : Char) (s : Text) : Option (Text × Text) :=
  let r := s.reverse
  if c ∈ r then some (((r.dropWhile (· != c)).drop 1).reverse, (r.takeWhile (· != c)).reverse) else none

/-- Split at the first `c`; without `c` the second part is empty. -/
def splitFirst (c : Char) (s : Text) : Text × Text :=
  (s.takeWhile (· != c), (s.dropWhile (· != c)).drop 1)

/-- `mysql.ParseDSN` (go-sql-driver/mysql dsn.go), without defaults and without parsing the parameters:
`[user[:password]@][net[(addr)]]/dbname[?params]`. `none` is an error. -/
def parseDSN (s : Text) : Option DSN :=
  match splitLast '/' s with
  | none => if s = [] then some {} else none
  | some (left, right) =>
    let (db, params) := splitFirst '?' right
    let (cred, netaddr) :=
      match splitLast '@' left with
      | none => ([], left)
      | some (c, n) => (c, n)
    let (user, passwd) := splitFirst ':' cred
    if '(' ∈ netaddr then
      if netaddr.getLast? = some ')' then
        let (net, addr) := splitFirst '(' netaddr
        some { user, passwd, net, addr := addr.dropLast, db, params }
      else none
    else some { user, passwd, net := netaddr, db, params }

/-- dbconn/factory.go:220-228: if the DSN cannot be parsed the driver returns nil, which is used. -/
def redactedDSN (s : Text) : Out DSN :=
  match parseDSN s with
  | none => .panic
  | some d => .ok { d with passwd := "...".toList }

/-- dbconn/factory.go:44-61: the DSN used for the connection pool. `sql.Open` fails only if the driver
cannot parse the DSN, which panics before (line 52). -/
def Factory.make (env : DbEnv) (f : Factory) : Factory × Out Text :=
  let (f, ok) := if f.dsn = [] then f.setDSN env else (f, true)
  if !ok then (f, .err)
  else
    match redactedDSN f.dsn with
    | .ok _ => (f, .ok f.dsn)
    | _ => (f, .panic)

end Finch
