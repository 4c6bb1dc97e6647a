import Verif.Model.Dbconn
import Verif.Props.ConfigBase
import Mathlib.Tactic.Common
/-!
C63, C64, C80, C81: the MySQL connection.
-/
namespace Finch

/-! ### Splitting -/

theorem takeWhile_ne_append (c : Char) : ∀ (a b : Text), c ∉ a →
    (a ++ c :: b).takeWhile (· != c) = a ∧ (a ++ c :: b).dropWhile (· != c) = c :: b
  | [], b, _ => by simp
  | x :: a, b, h => by
    have hx : x ≠ c := fun h' => h (h' ▸ List.mem_cons_self)
    obtain ⟨h1, h2⟩ := takeWhile_ne_append c a b (fun h' => h (List.mem_cons_of_mem _ h'))
    constructor
    · simp [hx, h1]
    · simp [hx, h2]

theorem takeWhile_ne_all (c : Char) : ∀ (a : Text), c ∉ a →
    a.takeWhile (· != c) = a ∧ a.dropWhile (· != c) = []
  | [], _ => by simp
  | x :: a, h => by
    have hx : x ≠ c := fun h' => h (h' ▸ List.mem_cons_self)
    obtain ⟨h1, h2⟩ := takeWhile_ne_all c a (fun h' => h (List.mem_cons_of_mem _ h'))
    constructor
    · simp [hx, h1]
    · simp [hx, h2]

theorem splitFirst_append {c : Char} {a b : Text} (h : c ∉ a) : splitFirst c (a ++ c :: b) = (a, b) := by
  obtain ⟨h1, h2⟩ := takeWhile_ne_append c a b h
  simp [splitFirst, h1, h2]

theorem splitFirst_none {c : Char} {a : Text} (h : c ∉ a) : splitFirst c a = (a, []) := by
  obtain ⟨h1, h2⟩ := takeWhile_ne_all c a h
  simp [splitFirst, h1, h2]

theorem splitLast_append {c : Char} {a b : Text} (h : c ∉ b) :
    splitLast c (a ++ c :: b) = some (a, b) := by
  have hr : (a ++ c :: b).reverse = b.reverse ++ c :: a.reverse := by simp
  obtain ⟨h1, h2⟩ := takeWhile_ne_append c b.reverse a.reverse (by simpa using h)
  unfold splitLast
  rw [hr]
  simp only [h1, h2]
  rw [if_pos (by simp)]
  simp

/-- The driver reads a DSN of the form the factory writes. -/
theorem parseDSN_format (user pw net addr db params : Text) (hu : ':' ∉ user) (hn : '@' ∉ net)
    (hn2 : '(' ∉ net) (ha : '@' ∉ addr) (hdb1 : '/' ∉ db) (hdb2 : '?' ∉ db) (hp : '/' ∉ params) :
    parseDSN ((if pw ≠ [] then user ++ ':' :: pw else user) ++ '@' :: net ++ '(' :: addr ++ ")/".toList ++ db ++
      '?' :: params) = some { user := user, passwd := pw, net := net, addr := addr, db := db, params := params } := by
  have hsl : ")/".toList = [')', '/'] := by rfl
  generalize hc : (if pw ≠ [] then user ++ ':' :: pw else user) = cred
  have hcred : splitFirst ':' cred = (user, pw) := by
    rw [← hc]
    by_cases h : pw = []
    · simp only [h, ne_eq, not_true_eq_false, if_false]; exact splitFirst_none hu
    · rw [if_pos h]; exact splitFirst_append hu
  have h1 : cred ++ '@' :: net ++ '(' :: addr ++ ")/".toList ++ db ++ '?' :: params =
      (cred ++ '@' :: (net ++ '(' :: (addr ++ [')']))) ++ '/' :: (db ++ '?' :: params) := by
    rw [hsl]; simp
  rw [h1]
  unfold parseDSN
  rw [splitLast_append (by simp [hdb1, hp])]
  simp only []
  rw [splitFirst_append hdb2, splitLast_append (by simp [hn, ha])]
  simp only [hcred]
  rw [if_pos (by simp), if_pos (by rw [show net ++ '(' :: (addr ++ [')']) = (net ++ '(' :: addr) ++ [')'] by simp]; exact List.getLast?_concat)]
  rw [splitFirst_append hn2]
  simp

/-! ### Specification -/

/-- The my.cnf file that is used. -/
def cnfOf (env : DbEnv) (cfg : MySQLCfg) : Option MyCnf :=
  if cfg.mycnf = [] then some {} else env.mycnf cfg.mycnf

/-- Spec: socket of the connection. -/
def effSocket (cfg : MySQLCfg) (m : MyCnf) : Text := firstSet cfg.socket m.socket

/-- Spec: host and port of my.cnf. -/
def cnfHost (m : MyCnf) : Text := m.host ++ (if m.port = [] then [] else ':' :: m.port)

/-- Spec: host of the connection. -/
def effHost (cfg : MySQLCfg) (m : MyCnf) : Text :=
  firstSet (firstSet cfg.hostname (cnfHost m)) "127.0.0.1".toList

/-- Spec: user. -/
def effUser (cfg : MySQLCfg) (m : MyCnf) : Text := firstSet (firstSet cfg.username m.user) "finch".toList

/-- Spec: password if there is no password file. -/
def effPassword (cfg : MySQLCfg) (m : MyCnf) : Text :=
  firstSet (firstSet cfg.password m.password)
    (if firstSet cfg.username m.user = [] then "amazing".toList else [])

/-- Spec: TLS parameter of the connection. -/
def effTLS (cfg : MySQLCfg) (addr : Text) : Text :=
  if cfg.tls.isSet then "&tls=benchmark".toList
  else if rdsAddr addr ∧ isTrue cfg.disableAutoTLS = false then "&tls=rds".toList else []

/-! ### The configuration after my.cnf -/

theorem withDef_cnf (cfg : MySQLCfg) (m : MyCnf) :
    let c := cfg.withDef (parseMyCnf m)
    c.socket = effSocket cfg m ∧ c.hostname = firstSet cfg.hostname (cnfHost m) ∧
    c.username = firstSet cfg.username m.user ∧ c.password = firstSet cfg.password m.password ∧
    c.passwordFile = cfg.passwordFile ∧ c.db = cfg.db ∧ c.tls = cfg.tls ∧
    c.disableAutoTLS = cfg.disableAutoTLS ∧ c.dsn = cfg.dsn ∧ c.mycnf = cfg.mycnf := by
  have hb : ∀ b : Option Bool, setBool b none = b := by intro b; simp [setBool]
  refine ⟨?_, ?_, ?_, ?_, ?_, ?_, ?_, ?_, ?_, ?_⟩
  · show (if cfg.socket = [] then m.socket else cfg.socket) = _
    unfold effSocket firstSet
    by_cases h1 : cfg.socket = [] <;> simp [h1]
  · show (if cfg.hostname = [] then _ else _) = _
    simp only [firstSet, cnfHost, parseMyCnf]
    by_cases h1 : m.port = [] <;> by_cases h2 : cfg.hostname = [] <;> simp [h1, h2]
  · show (if cfg.username = [] ∧ m.user ≠ [] then m.user else cfg.username) = _
    unfold firstSet
    by_cases h1 : cfg.username = [] <;> by_cases h2 : m.user = [] <;> simp [h1, h2]
  · show (if cfg.password = [] ∧ m.password ≠ [] then m.password else cfg.password) = _
    unfold firstSet
    by_cases h1 : cfg.password = [] <;> by_cases h2 : m.password = [] <;> simp [h1, h2]
  · show (if cfg.passwordFile = [] ∧ ([] : Text) ≠ [] then ([] : Text) else cfg.passwordFile) = _
    simp
  · show (if cfg.db = [] then ([] : Text) else cfg.db) = _
    split
    · rename_i h; exact h.symm
    · rfl
  · show cfg.tls.withDef {} = cfg.tls
    simp only [TLSCfg.withDef, hb]
    cases cfg.tls
    simp
  · exact hb _
  · show (if cfg.dsn = [] then ([] : Text) else cfg.dsn) = _
    split
    · rename_i h; exact h.symm
    · rfl
  · show (if cfg.mycnf = [] ∧ ([] : Text) ≠ [] then ([] : Text) else cfg.mycnf) = _
    simp

theorem withDef_empty (cfg : MySQLCfg) : cfg.withDef (parseMyCnf {}) = cfg := by
  obtain ⟨h1, h2, h3, h4, h5, h6, h7, h8, h9, h10⟩ := withDef_cnf cfg {}
  have hf : ∀ a : Text, firstSet a [] = a := by
    intro a; unfold firstSet; split
    · rfl
    · rename_i h; exact (Classical.not_not.mp h).symm
  have ht : (cfg.withDef (parseMyCnf {})).timeoutConnect = cfg.timeoutConnect := by
    show (if cfg.timeoutConnect = [] ∧ ([] : Text) ≠ [] then ([] : Text) else cfg.timeoutConnect) = _
    simp
  have e1 : effSocket cfg {} = cfg.socket := hf _
  have e2 : firstSet cfg.hostname (cnfHost {}) = cfg.hostname := hf _
  have e3 : firstSet cfg.username ({} : MyCnf).user = cfg.username := hf _
  have e4 : firstSet cfg.password ({} : MyCnf).password = cfg.password := hf _
  rw [e1] at h1; rw [e2] at h2; rw [e3] at h3; rw [e4] at h4
  generalize hx : cfg.withDef (parseMyCnf {}) = x at *
  cases x; cases cfg
  simp only [MySQLCfg.mk.injEq]
  simp only at *
  simp_all

theorem TLSCfg.load_isSome {env : DbEnv} {c : TLSCfg} {server : Text} {t : Option TLSConf}
    (h : c.load env server = some t) : t.isSome = c.isSet := by
  unfold TLSCfg.load at h
  cases hs : c.isSet with
  | false => rw [hs] at h; simp only [Bool.not_false, if_true] at h; cases h; rfl
  | true =>
    rw [hs] at h
    simp only [Bool.not_true, Bool.false_eq_true, if_false] at h
    split at h
    · cases h
    · split at h
      · split at h
        · cases h; rfl
        · cases h
      · cases h; rfl

theorem setDSN_eq (env : DbEnv) (f : Factory) (hd : f.cfg.dsn = []) :
    f.setDSN env = match cnfOf env f.cfg with
      | none => (f, false)
      | some m => f.setDSNWith env (f.cfg.withDef (parseMyCnf m)) := by
  unfold Factory.setDSN cnfOf
  rw [if_neg (by simpa using hd)]
  by_cases hm : f.cfg.mycnf = []
  · rw [if_neg (by simpa using hm), if_pos hm]
    simp only [withDef_empty]
  · rw [if_pos hm, if_neg hm]
    cases env.mycnf f.cfg.mycnf <;> rfl

theorem netAddr_cfg (cfg : MySQLCfg) :
    (netAddr cfg).2.2 = cfg ∨ (netAddr cfg).2.2 = { cfg with hostname := "127.0.0.1".toList } := by
  unfold netAddr
  split
  · exact Or.inl rfl
  · simp only []
    split
    · exact Or.inr rfl
    · exact Or.inl rfl

/-- What is in the DSN. -/
theorem setDSNWith_dsn (env : DbEnv) (f : Factory) (cfg : MySQLCfg)
    (h : (f.setDSNWith env cfg).2 = true) :
    ∃ user password, credentials env cfg = some (user, password) ∧
      (f.setDSNWith env cfg).1.dsn =
        (if password ≠ [] then user ++ ':' :: password else user) ++ '@' :: (netAddr cfg).1 ++
          '(' :: (netAddr cfg).2.1 ++ ")/".toList ++ cfg.db ++
          '?' :: ("parseTime=true".toList ++ effTLS cfg (netAddr cfg).2.1) := by
  have hcred : ∀ c2 : MySQLCfg, c2.passwordFile = cfg.passwordFile → c2.password = cfg.password →
      c2.username = cfg.username → credentials env c2 = credentials env cfg := by
    intro c2 h1 h2 h3; unfold credentials; rw [h1, h2, h3]
  unfold Factory.setDSNWith at h ⊢
  obtain ⟨net, addr, c1, hna, hc1⟩ : ∃ net addr c1, netAddr cfg = (net, addr, c1) ∧
      (c1 = cfg ∨ c1 = { cfg with hostname := "127.0.0.1".toList }) :=
    ⟨_, _, _, rfl, netAddr_cfg cfg⟩
  rw [hna] at h ⊢
  simp only [] at h ⊢
  have hset : c1.tls = cfg.tls ∧ c1.passwordFile = cfg.passwordFile ∧ c1.password = cfg.password ∧
      c1.username = cfg.username ∧ c1.db = cfg.db ∧ c1.disableAutoTLS = cfg.disableAutoTLS := by
    rcases hc1 with rfl | rfl <;> exact ⟨rfl, rfl, rfl, rfl, rfl, rfl⟩
  generalize hc2 : (if net = "unix".toList ∧ c1.tls.isSet = true ∧ c1.hostname = [] ∧
    (!isTrue c1.tls.skipVerify) = true then { c1 with tls := { c1.tls with skipVerify := some true } }
    else c1) = c2 at h ⊢
  have hset2 : c2.tls.isSet = cfg.tls.isSet ∧ c2.passwordFile = cfg.passwordFile ∧
      c2.password = cfg.password ∧ c2.username = cfg.username ∧ c2.db = cfg.db ∧
      c2.disableAutoTLS = cfg.disableAutoTLS := by
    rw [← hc2]
    split
    · exact ⟨by rw [← hset.1]; rfl, hset.2⟩
    · exact ⟨by rw [← hset.1], hset.2⟩
  obtain ⟨s1, s2, s3, s4, s5, s6⟩ := hset2
  cases ht : c2.tls.load env (stripPort c2.hostname) with
  | none => rw [ht] at h; cases h
  | some t =>
    rw [ht] at h
    have htl := TLSCfg.load_isSome ht
    simp only [] at h ⊢
    rw [hcred c2 s2 s3 s4] at h ⊢
    cases hcr : credentials env cfg with
    | none => rw [hcr] at h; cases h
    | some up =>
      obtain ⟨user, password⟩ := up
      refine ⟨user, password, rfl, ?_⟩
      simp only [effTLS, htl, s1, s5, s6]
      congr 3
      cases cfg.tls.isSet <;> cases rdsAddr addr <;> cases isTrue cfg.disableAutoTLS <;> rfl

theorem netAddr_cnf (cfg : MySQLCfg) (m : MyCnf) :
    ((netAddr (cfg.withDef (parseMyCnf m))).1, (netAddr (cfg.withDef (parseMyCnf m))).2.1) =
      if effSocket cfg m ≠ [] then ("unix".toList, effSocket cfg m) else ("tcp".toList, effHost cfg m) := by
  obtain ⟨h1, h2, _⟩ := withDef_cnf cfg m
  unfold netAddr
  rw [h1]
  by_cases hs : effSocket cfg m = []
  · simp only [hs, ne_eq, not_true_eq_false, if_false]
    unfold effHost
    rw [h2]
    by_cases hh : firstSet cfg.hostname (cnfHost m) = []
    · rw [if_pos hh]; rw [hh]; rfl
    · rw [if_neg hh]
      rw [h2]
      generalize firstSet cfg.hostname (cnfHost m) = x at hh
      unfold firstSet
      rw [if_pos hh]
  · simp only [ne_eq, hs, not_false_eq_true, if_true]

theorem credentials_cnf (env : DbEnv) (cfg : MySQLCfg) (m : MyCnf) (user password : Text)
    (h : credentials env (cfg.withDef (parseMyCnf m)) = some (user, password)) :
    user = effUser cfg m ∧
    (cfg.passwordFile = [] → password = effPassword cfg m) ∧
    (cfg.passwordFile ≠ [] → ∃ b, env.read cfg.passwordFile = some b ∧ (b ≠ [] → password = b)) := by
  obtain ⟨_, _, h3, h4, h5, _⟩ := withDef_cnf cfg m
  unfold credentials at h
  rw [h3, h4, h5] at h
  simp only [] at h
  by_cases hp : cfg.passwordFile = []
  · rw [if_neg (by simpa using hp)] at h
    simp only [] at h
    unfold effUser effPassword
    generalize firstSet cfg.username m.user = u at h ⊢
    generalize firstSet cfg.password m.password = p at h ⊢
    by_cases hu : u = []
    · rw [if_pos hu] at h
      injection h with h
      injection h with ha hb
      refine ⟨by simp [← ha, hu, firstSet], fun _ => ?_, fun h => absurd hp h⟩
      rw [← hb]
      by_cases hpp : p = [] <;> simp [firstSet, hpp, hu]
    · rw [if_neg hu] at h
      injection h with h
      injection h with ha hb
      refine ⟨by simp [← ha, hu, firstSet], fun _ => ?_, fun h => absurd hp h⟩
      rw [← hb]
      by_cases hpp : p = [] <;> simp [firstSet, hpp, hu]
  · rw [if_pos hp] at h
    cases hr : env.read cfg.passwordFile with
    | none => rw [hr] at h; cases h
    | some b =>
      rw [hr] at h
      simp only [] at h
      unfold effUser
      generalize firstSet cfg.username m.user = u at h ⊢
      by_cases hu : u = []
      · rw [if_pos hu] at h
        injection h with h
        injection h with ha hb
        refine ⟨by simp [← ha, hu, firstSet], fun h => absurd h hp, fun _ => ⟨b, rfl, fun hb0 => ?_⟩⟩
        rw [← hb, if_neg (fun hh => hb0 hh.2)]
      · rw [if_neg hu] at h
        injection h with h
        injection h with ha hb
        exact ⟨by simp [← ha, hu, firstSet], fun h => absurd h hp, fun _ => ⟨b, rfl, fun _ => hb.symm⟩⟩

/-! ### C63 -/

/-- **C63.** An explicit DSN is used as it is, whatever else is set. -/
theorem C63_dsn_wins (env : DbEnv) (f : Factory) (cfg : MySQLCfg) (h : cfg.dsn ≠ []) :
    ((f.setConfig cfg).setDSN env).2 = true ∧ ((f.setConfig cfg).setDSN env).1.dsn = cfg.dsn := by
  simp [Factory.setDSN, Factory.setConfig, h]

/-- **C63.** Without an explicit DSN the driver is told: the user, password, socket or host of the
configuration, else of my.cnf, else the default; the database of the configuration. The password file
wins over the password. What is missing: the socket is used even if a hostname is set; names that contain
the characters which separate the parts of a DSN. -/
theorem C63_precedence_partial (env : DbEnv) (f : Factory) (cfg : MySQLCfg) (m : MyCnf) (hd : cfg.dsn = [])
    (hm : cnfOf env cfg = some m) (hok : ((f.setConfig cfg).setDSN env).2 = true)
    (hu : ':' ∉ effUser cfg m) (hs : '@' ∉ effSocket cfg m) (hh : '@' ∉ effHost cfg m)
    (hdb1 : '/' ∉ cfg.db) (hdb2 : '?' ∉ cfg.db) :
    ∃ d, parseDSN ((f.setConfig cfg).setDSN env).1.dsn = some d ∧
      d.user = effUser cfg m ∧
      (cfg.passwordFile = [] → d.passwd = effPassword cfg m) ∧
      (cfg.passwordFile ≠ [] → ∃ b, env.read cfg.passwordFile = some b ∧ (b ≠ [] → d.passwd = b)) ∧
      (effSocket cfg m = [] → d.net = "tcp".toList ∧ d.addr = effHost cfg m) ∧
      (effSocket cfg m ≠ [] → d.net = "unix".toList ∧ d.addr = effSocket cfg m) ∧
      d.db = cfg.db ∧ d.params = "parseTime=true".toList ++ effTLS cfg d.addr := by
  rw [setDSN_eq env (f.setConfig cfg) hd] at hok ⊢
  rw [show (f.setConfig cfg).cfg = cfg from rfl, hm] at hok ⊢
  simp only [] at hok ⊢
  obtain ⟨user, password, hc, hdsn⟩ := setDSNWith_dsn env _ _ hok
  obtain ⟨c1, c2, c3⟩ := credentials_cnf env cfg m user password hc
  obtain ⟨_, _, _, _, _, w6, w7, w8, _⟩ := withDef_cnf cfg m
  have hna := netAddr_cnf cfg m
  have hps : ∀ a, '/' ∉ "parseTime=true".toList ++ effTLS (cfg.withDef (parseMyCnf m)) a := by
    intro a
    rw [List.mem_append]
    rintro (h | h)
    · exact absurd h (by decide +kernel)
    · unfold effTLS at h
      split at h
      · exact absurd h (by decide +kernel)
      · split at h
        · exact absurd h (by decide +kernel)
        · cases h
  have heff : ∀ a, effTLS (cfg.withDef (parseMyCnf m)) a = effTLS cfg a := by
    intro a; unfold effTLS; rw [w7, w8]
  rw [hdsn, c1, w6]
  by_cases hsock : effSocket cfg m = []
  · rw [if_neg (by simpa using hsock)] at hna
    injection hna with n1 n2
    rw [n1, n2]
    rw [parseDSN_format _ _ _ _ _ _ hu (by decide +kernel) (by decide +kernel) hh hdb1 hdb2 (hps _)]
    exact ⟨_, rfl, rfl, c2, c3, fun _ => ⟨rfl, rfl⟩, fun h => absurd hsock h, rfl, by rw [heff]⟩
  · rw [if_pos hsock] at hna
    injection hna with n1 n2
    rw [n1, n2]
    rw [parseDSN_format _ _ _ _ _ _ hu (by decide +kernel) (by decide +kernel) hs hdb1 hdb2 (hps _)]
    exact ⟨_, rfl, rfl, c2, c3, fun h => absurd h hsock, fun _ => ⟨rfl, rfl⟩, rfl, by rw [heff]⟩

/-- The file system of the examples. -/
def exDbEnv (m : MyCnf) : DbEnv :=
  { mycnf := fun f => if f = "my.cnf".toList then some m else none
    read := fun f => if f = "pw".toList then some "secret\n".toList else if f = "ca.pem".toList then some "CA".toList
      else none
    keyPair := fun _ _ => false }

/-- **C63 is false for the socket.** The hostname that the stage sets is not used if my.cnf sets a socket. -/
theorem C63_socket_false : ∃ (env : DbEnv) (cfg : MySQLCfg), cfg.hostname = "db1".toList ∧ cfg.socket = [] ∧
    ((({} : Factory).setConfig cfg).setDSN env).1.dsn =
      "finch:amazing@unix(/tmp/mysql.sock)/?parseTime=true".toList :=
  ⟨exDbEnv { socket := "/tmp/mysql.sock".toList }, { hostname := "db1".toList, mycnf := "my.cnf".toList },
    rfl, rfl, by decide +kernel⟩

/-- **C63 is false for the port.** With a port but no host in my.cnf there is no default host. -/
theorem C63_port_false : ∃ (env : DbEnv) (cfg : MySQLCfg), cfg.hostname = [] ∧ cfg.socket = [] ∧
    ((({} : Factory).setConfig cfg).setDSN env).1.dsn = "finch:amazing@tcp(:3307)/?parseTime=true".toList :=
  ⟨exDbEnv { port := "3307".toList }, { mycnf := "my.cnf".toList }, rfl, rfl, by decide +kernel⟩

/-- **C63 is false for the password.** The password that the stage file sets loses against a password
file that the base file sets, and the newline at its end is part of the password. -/
theorem C63_password_false : ∃ (env : DbEnv) (c : StageConf) (b : BaseCfg),
    c.mysql.password = "mine".toList ∧ c.mysql.passwordFile = [] ∧
    ((({} : Factory).setConfig (c.withBase b).mysql).setDSN env).1.dsn =
      "me:secret\n@tcp(127.0.0.1)/?parseTime=true".toList :=
  ⟨exDbEnv {}, { mysql := { username := "me".toList, password := "mine".toList } },
    { mysql := { passwordFile := "pw".toList } }, rfl, rfl, by decide +kernel⟩

/-- **C63 is false for user names with a colon.** The driver takes the rest of the name for the password. -/
theorem C63_colon_false : ∃ (env : DbEnv) (cfg : MySQLCfg) (d : DSN), cfg.username = "a:b".toList ∧
    cfg.password = "c".toList ∧ parseDSN ((({} : Factory).setConfig cfg).setDSN env).1.dsn = some d ∧
    d.user = "a".toList ∧ d.passwd = "b:c".toList :=
  ⟨exDbEnv {}, { username := "a:b".toList, password := "c".toList },
    { user := "a".toList, passwd := "b:c".toList, net := "tcp".toList, addr := "127.0.0.1".toList, db := [],
      params := "parseTime=true".toList }, rfl, rfl, by decide +kernel, rfl, rfl⟩

/-- The hypotheses of `C63_precedence_partial` can be met: passwords may contain any character. -/
example :
    let cfg : MySQLCfg := { password := "p@ss:w/rd".toList, mycnf := "my.cnf".toList, db := "test".toList }
    let m : MyCnf := { user := "me".toList, password := "no".toList, host := "db2".toList, port := "3307".toList }
    let env := exDbEnv m
    cnfOf env cfg = some m ∧ ((({} : Factory).setConfig cfg).setDSN env).2 = true ∧
    ':' ∉ effUser cfg m ∧ '@' ∉ effSocket cfg m ∧ '@' ∉ effHost cfg m ∧
    parseDSN ((({} : Factory).setConfig cfg).setDSN env).1.dsn =
      some { user := "me".toList, passwd := "p@ss:w/rd".toList, net := "tcp".toList, addr := "db2:3307".toList,
             db := "test".toList, params := "parseTime=true".toList } := by decide +kernel

/-! ### C64 -/

/-- A my.cnf file without its TLS settings. -/
def MyCnf.noTLS (m : MyCnf) : MyCnf := { m with sslMode := [], sslCa := [], sslCert := [], sslKey := [] }

/-- **C64 is false.** The TLS settings of my.cnf have no effect at all: files that differ only in these
give the same connection. -/
theorem C64_ignored_false (env env' : DbEnv) (f : Factory) (hr : env.read = env'.read)
    (hk : env.keyPair = env'.keyPair)
    (hm : ∀ file, (env.mycnf file).map MyCnf.noTLS = (env'.mycnf file).map MyCnf.noTLS) :
    f.setDSN env = f.setDSN env' := by
  have hp : ∀ m m' : MyCnf, m.noTLS = m'.noTLS → parseMyCnf m = parseMyCnf m' := by
    intro m m' h
    simp only [MyCnf.noTLS, MyCnf.mk.injEq] at h
    obtain ⟨h1, h2, h3, h4, h5, _⟩ := h
    simp only [parseMyCnf, h1, h2, h3, h4, h5]
  have hw : ∀ cfg, f.setDSNWith env cfg = f.setDSNWith env' cfg := by
    intro cfg
    have hl : ∀ (t : TLSCfg) s, t.load env s = t.load env' s := by
      intro t s; unfold TLSCfg.load; rw [hr, hk]
    have hc : ∀ c, credentials env c = credentials env' c := by
      intro c; unfold credentials; rw [hr]
    unfold Factory.setDSNWith
    simp only [hl, hc]
  by_cases hd : f.cfg.dsn = []
  · rw [setDSN_eq env f hd, setDSN_eq env' f hd]
    unfold cnfOf
    by_cases hc : f.cfg.mycnf = []
    · simp only [hc, if_true]; exact hw _
    · simp only [hc, if_false]
      have := hm f.cfg.mycnf
      cases h1 : env.mycnf f.cfg.mycnf with
      | none =>
        rw [h1] at this
        cases h2 : env'.mycnf f.cfg.mycnf with
        | none => rfl
        | some m' => rw [h2] at this; cases this
      | some m =>
        rw [h1] at this
        cases h2 : env'.mycnf f.cfg.mycnf with
        | none => rw [h2] at this; cases this
        | some m' =>
          rw [h2] at this
          simp only [Option.map_some, Option.some.injEq] at this
          simp only []
          rw [hp m m' this]
          exact hw _
  · unfold Factory.setDSN; rw [if_pos hd, if_pos hd]

/-- **C64 is false.** my.cnf requires TLS, the connection does not use it. -/
theorem C64_required_false : ∃ (m : MyCnf) (cfg : MySQLCfg), m.sslMode = "REQUIRED".toList ∧
    m.sslCa = "ca.pem".toList ∧ cfg.tls = {} ∧ cfg.mycnf = "my.cnf".toList ∧
    ((exDbEnv m).read m.sslCa).isSome ∧
    ((({} : Factory).setConfig cfg).setDSN (exDbEnv m)).1.dsn =
      "finch:amazing@tcp(db1)/?parseTime=true".toList :=
  ⟨{ sslMode := "REQUIRED".toList, sslCa := "ca.pem".toList, host := "db1".toList }, { mycnf := "my.cnf".toList },
    rfl, rfl, rfl, rfl, by decide +kernel, by decide +kernel⟩

/-- **C64.** The TLS settings of the stage are used: the registered configuration has the certificates
of the stage. What is missing: those of my.cnf. -/
theorem C64_stage_tls_partial (env : DbEnv) (f : Factory) (cfg : MySQLCfg) (hd : cfg.dsn = [])
    (hok : ((f.setConfig cfg).setDSN env).2 = true) (ht : cfg.tls.isSet = true) :
    ∃ t, ((f.setConfig cfg).setDSN env).1.benchmark = some t ∧
      (cfg.tls.ca ≠ [] → t.ca = env.read cfg.tls.ca ∧ t.ca.isSome) ∧
      (cfg.tls.cert ≠ [] → cfg.tls.key ≠ [] → t.cert = some (cfg.tls.cert, cfg.tls.key)) ∧
      (isTrue cfg.tls.skipVerify = true → t.skipVerify = true) := by
  rw [setDSN_eq env (f.setConfig cfg) hd] at hok ⊢
  rw [show (f.setConfig cfg).cfg = cfg from rfl] at hok ⊢
  cases hm : cnfOf env cfg with
  | none => rw [hm] at hok; cases hok
  | some m =>
    rw [hm] at hok
    simp only [] at hok ⊢
    obtain ⟨_, _, _, _, _, _, w7, _⟩ := withDef_cnf cfg m
    generalize cfg.withDef (parseMyCnf m) = c0 at *
    unfold Factory.setDSNWith at hok ⊢
    obtain ⟨net, addr, c1, hna, hc1⟩ : ∃ net addr c1, netAddr c0 = (net, addr, c1) ∧ c1.tls = c0.tls := by
      refine ⟨(netAddr c0).1, (netAddr c0).2.1, (netAddr c0).2.2, rfl, ?_⟩
      rcases netAddr_cfg c0 with h | h <;> rw [h]
    rw [hna] at hok ⊢
    simp only [] at hok ⊢
    rw [w7] at hc1
    generalize hc2 : (if net = "unix".toList ∧ c1.tls.isSet = true ∧ c1.hostname = [] ∧
      (!isTrue c1.tls.skipVerify) = true then { c1 with tls := { c1.tls with skipVerify := some true } }
      else c1) = c2 at hok ⊢
    have hset2 : c2.tls.isSet = cfg.tls.isSet ∧ c2.tls.ca = cfg.tls.ca ∧ c2.tls.cert = cfg.tls.cert ∧
        c2.tls.key = cfg.tls.key ∧ (isTrue cfg.tls.skipVerify = true → isTrue c2.tls.skipVerify = true) := by
      rw [← hc2]
      split
      · exact ⟨by rw [← hc1]; rfl, by rw [← hc1], by rw [← hc1], by rw [← hc1], fun _ => rfl⟩
      · rw [hc1]; exact ⟨rfl, rfl, rfl, rfl, id⟩
    obtain ⟨s1, s2, s3, s4, s5⟩ := hset2
    cases hl : c2.tls.load env (stripPort c2.hostname) with
    | none => rw [hl] at hok; cases hok
    | some t =>
      rw [hl] at hok
      simp only [] at hok ⊢
      cases hcr : credentials env c2 with
      | none => rw [hcr] at hok; cases hok
      | some up =>
        have hts := TLSCfg.load_isSome hl
        rw [s1, ht] at hts
        cases t with
        | none => cases hts
        | some t =>
          refine ⟨t, rfl, ?_⟩
          unfold TLSCfg.load at hl
          rw [s1, ht, s2, s3, s4] at hl
          simp only [Bool.not_true, Bool.false_eq_true, if_false] at hl
          by_cases hca : cfg.tls.ca = []
          · rw [if_neg (by simpa using hca)] at hl
            simp only [] at hl
            refine ⟨fun h => absurd hca h, ?_⟩
            split at hl
            · split at hl
              · cases hl; exact ⟨fun _ _ => rfl, s5⟩
              · cases hl
            · rename_i h
              cases hl; exact ⟨fun h1 h2 => absurd ⟨h1, h2⟩ h, s5⟩
          · rw [if_pos hca] at hl
            cases hrd : env.read cfg.tls.ca with
            | none => rw [hrd] at hl; cases hl
            | some b =>
              rw [hrd] at hl
              simp only [] at hl
              split at hl
              · split at hl
                · cases hl; exact ⟨fun _ => ⟨rfl, rfl⟩, fun _ _ => rfl, s5⟩
                · cases hl
              · rename_i h
                cases hl; exact ⟨fun _ => ⟨rfl, rfl⟩, fun h1 h2 => absurd ⟨h1, h2⟩ h, s5⟩

example :
    let cfg : MySQLCfg := { tls := { ca := "ca.pem".toList }, socket := "/s".toList }
    (({} : Factory).setConfig cfg).setDSN (exDbEnv {}) =
      ({ cfg := { cfg with username := "finch".toList, tls := { ca := "ca.pem".toList, skipVerify := some true } }
         dsn := "finch:amazing@unix(/s)/?parseTime=true&tls=benchmark".toList
         benchmark := some { server := [], skipVerify := true, ca := some "CA".toList, cert := none } }, true) := by
  decide +kernel

/-! ### Hosts with a port -/

/-- Spec: the text ends with a colon and a port. -/
def PortAfter (s host : Text) : Prop := ∃ ds, ds ≠ [] ∧ (∀ c ∈ ds, isDigit c = true) ∧ s = host ++ ':' :: ds

theorem digits_reverse (ds host : Text) (hd : ∀ c ∈ ds, isDigit c = true) :
    (host ++ ':' :: ds).reverse.dropWhile isDigit = ':' :: host.reverse ∧
    (host ++ ':' :: ds).reverse.takeWhile isDigit = ds.reverse := by
  have e : (host ++ ':' :: ds).reverse = ds.reverse ++ ':' :: host.reverse := by simp
  have hr : ∀ c ∈ ds.reverse, isDigit c = true := fun c hc => hd c (List.mem_reverse.mp hc)
  have hc : isDigit ':' = false := by decide
  rw [e, List.dropWhile_append_of_pos hr, List.takeWhile_append_of_pos hr]
  simp [hc]

/-- **C63, TLS of the server name.** The port is cut off from the host name, and nothing else. -/
theorem C63_host_without_port (s : Text) :
    (∀ host, PortAfter s host → stripPort s = host) ∧ ((∀ host, ¬ PortAfter s host) → stripPort s = s) := by
  constructor
  · rintro host ⟨ds, hne, hd, rfl⟩
    obtain ⟨h1, h2⟩ := digits_reverse ds host hd
    have : portRe (host ++ ':' :: ds) = true := by
      simp only [portRe, h1, h2]
      simp [hne]
    rw [stripPort, if_pos this, h1]
    simp
  · intro hno
    rw [stripPort, if_neg]
    intro hp
    simp only [portRe, Bool.and_eq_true, Bool.not_eq_true', List.isEmpty_eq_false_iff, beq_iff_eq] at hp
    obtain ⟨h1, h2⟩ := hp
    cases hr : s.reverse.dropWhile isDigit with
    | nil => rw [hr] at h2; cases h2
    | cons c r =>
      rw [hr] at h2
      cases h2
      have hs := List.takeWhile_append_dropWhile (p := isDigit) (l := s.reverse)
      rw [hr] at hs
      refine hno r.reverse ⟨(s.reverse.takeWhile isDigit).reverse, by simpa using h1, ?_, ?_⟩
      · intro c hc
        have ha := List.all_takeWhile (p := isDigit) (l := s.reverse)
        exact List.all_eq_true.mp ha c (List.mem_reverse.mp hc)
      · have := congrArg List.reverse hs
        rw [List.reverse_reverse] at this
        exact this.symm.trans (by simp)

/-- **C63, hosts of Amazon RDS.** A host is one of Amazon RDS if its name, with or without a port, ends with
`rds.amazonaws.com`. -/
theorem C63_rds_hosts (s : Text) :
    rdsAddr s = true ↔ ∃ pre, s = pre ++ "rds.amazonaws.com".toList ∨ PortAfter s (pre ++ "rds.amazonaws.com".toList) := by
  have hsuf : ∀ t : Text, "rds.amazonaws.com".toList.isSuffixOf t = true ↔ ∃ pre, t = pre ++ "rds.amazonaws.com".toList := by
    intro t
    rw [List.isSuffixOf_iff_suffix]
    exact ⟨fun ⟨p, h⟩ => ⟨p, h.symm⟩, fun ⟨p, h⟩ => ⟨p, h.symm⟩⟩
  rw [rdsAddr, Bool.or_eq_true, hsuf, hsuf]
  obtain ⟨h1, h2⟩ := C63_host_without_port s
  by_cases hp : ∃ host, PortAfter s host
  · obtain ⟨host, hh⟩ := hp
    rw [h1 host hh]
    constructor
    · rintro (⟨p, h⟩ | ⟨p, rfl⟩)
      · exact ⟨p, .inl h⟩
      · exact ⟨p, .inr hh⟩
    · rintro ⟨p, h | h⟩
      · exact .inl ⟨p, h⟩
      · exact .inr ⟨p, by rw [← h1 host hh, h1 _ h]⟩
  · rw [h2 fun host h => hp ⟨host, h⟩]
    constructor
    · rintro (⟨p, h⟩ | ⟨p, h⟩) <;> exact ⟨p, .inl h⟩
    · rintro ⟨p, h | h⟩
      · exact .inl ⟨p, h⟩
      · exact absurd ⟨_, h⟩ hp

example : rdsAddr "db1.us-east-1.rds.amazonaws.com:3306".toList = true ∧ rdsAddr "rds.amazonaws.com:33a".toList = false ∧
    stripPort "db1:3306".toList = "db1".toList ∧ stripPort "db1:".toList = "db1:".toList := by decide +kernel

end Finch
