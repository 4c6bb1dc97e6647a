import Verif.Props.Dbconn
import Verif.Props.Validate
/-!
C80 (TLS files), C81 (one DSN per stage), C82 (invalid DSN).
-/
namespace Finch

/-! ### C80 -/

/-- **C80 is false.** A stage with a certificate but no key is accepted, and its connections are
made without the certificate. -/
theorem C80_unchecked_false : ∃ (venv : ValEnv) (env : DbEnv) (c c' : StageConf) (t : TLSConf),
    c.mysql.tls.cert = "cert.pem".toList ∧ c.validate venv = some c' ∧
    ((({} : Factory).setConfig c'.mysql).setDSN env).2 = true ∧
    ((({} : Factory).setConfig c'.mysql).setDSN env).1.benchmark = some t ∧ t.cert = none :=
  ⟨exValEnv, exDbEnv {},
    { trx := [{ file := "read.sql".toList }], mysql := { tls := { cert := "cert.pem".toList } } },
    { trx := [{ file := "read.sql".toList, name := "read.sql".toList }], name := ".".toList,
      instances := "1".toList,
      stats := { freq := "0s".toList, report := [("stdout".toList, [("each-instance".toList, "true".toList)])] },
      mysql := { tls := { cert := "cert.pem".toList } } },
    { server := "127.0.0.1".toList, skipVerify := false, ca := none, cert := none },
    rfl, by decide +kernel, by decide +kernel, by decide +kernel, rfl⟩

/-- The check itself: accepted are disabled TLS, and files that exist in one of the combinations ca;
cert and key; all three. -/
theorem C80_valid_iff (ex : Text → Bool) (c : TLSCfg) :
    c.valid ex = true ↔ isTrue c.disable = true ∨
      ((∀ f ∈ [c.ca, c.cert, c.key], f = [] ∨ ex f = true) ∧ (c.cert = [] ↔ c.key = [])) := by
  unfold TLSCfg.valid
  cases isTrue c.disable
  · by_cases h1 : c.ca = [] <;> by_cases h2 : c.cert = [] <;> by_cases h3 : c.key = [] <;>
      simp [h1, h2, h3]
  · simp

/-- **C80.** If the TLS settings pass the check (which is not called) every file they name is used for the
connection. What is missing: the check itself. -/
theorem C80_files_used_partial (ex : Text → Bool) (env : DbEnv) (f : Factory) (cfg : MySQLCfg)
    (hd : cfg.dsn = []) (hv : cfg.tls.valid ex = true) (ht : cfg.tls.isSet = true)
    (hok : ((f.setConfig cfg).setDSN env).2 = true) :
    ∃ t, ((f.setConfig cfg).setDSN env).1.benchmark = some t ∧
      (cfg.tls.ca ≠ [] → t.ca = env.read cfg.tls.ca ∧ t.ca.isSome) ∧
      (cfg.tls.cert ≠ [] ∨ cfg.tls.key ≠ [] → t.cert = some (cfg.tls.cert, cfg.tls.key)) := by
  obtain ⟨t, h1, h2, h3, _⟩ := C64_stage_tls_partial env f cfg hd hok ht
  have hdis : isTrue cfg.tls.disable = false := by
    unfold TLSCfg.isSet at ht
    cases h : isTrue cfg.tls.disable
    · rfl
    · rw [h] at ht; simp only [Bool.not_true, Bool.false_and] at ht; cases ht
  refine ⟨t, h1, h2, fun h => ?_⟩
  rcases (C80_valid_iff ex cfg.tls).mp hv with h' | ⟨_, h'⟩
  · rw [hdis] at h'; cases h'
  · have hc : cfg.tls.cert ≠ [] := by
      rcases h with h | h
      · exact h
      · exact fun hx => h (h'.mp hx)
    exact h3 hc (fun hx => hc (h'.mpr hx))

example : let cfg : MySQLCfg := { tls := { ca := "ca.pem".toList } }
    cfg.tls.valid (fun f => f == "ca.pem".toList) = true ∧ cfg.tls.isSet = true ∧
    ((({} : Factory).setConfig cfg).setDSN (exDbEnv {})).2 = true := by decide +kernel

/-! ### C81 -/

theorem setDSN_ne_nil (env : DbEnv) (f : Factory) (h : (f.setDSN env).2 = true) :
    (f.setDSN env).1.dsn ≠ [] := by
  by_cases hd : f.cfg.dsn = []
  · rw [setDSN_eq env f hd] at h ⊢
    cases hm : cnfOf env f.cfg with
    | none => rw [hm] at h; cases h
    | some m =>
      rw [hm] at h
      simp only [] at h ⊢
      obtain ⟨u, p, _, h2⟩ := setDSNWith_dsn env f _ h
      rw [h2]; simp
  · unfold Factory.setDSN
    rw [if_pos hd]
    exact hd

/-- **C81.** All connection pools of a stage are made with the same DSN, even if the files change
meanwhile. -/
theorem C81_same_dsn (env env' : DbEnv) (f : Factory) (d : Text) (h : (f.make env).2 = .ok d) :
    (f.make env).1.make env' = f.make env := by
  unfold Factory.make at h ⊢
  by_cases hd : f.dsn = []
  · simp only [hd, if_true] at h ⊢
    cases hok : (f.setDSN env).2 with
    | false => simp only [hok, Bool.not_false, if_true] at h; cases h
    | true =>
      have hne := setDSN_ne_nil env f hok
      cases hr : redactedDSN (f.setDSN env).1.dsn with
      | ok x => simp [hr, hne]
      | err => simp only [hok, Bool.not_true, Bool.false_eq_true, if_false, hr] at h; cases h
      | panic => simp only [hok, Bool.not_true, Bool.false_eq_true, if_false, hr] at h; cases h
  · simp only [hd, if_false, Bool.not_true, Bool.false_eq_true] at h ⊢
    cases hr : redactedDSN f.dsn with
    | ok x => simp [hr, hd]
    | err => rw [hr] at h; cases h
    | panic => rw [hr] at h; cases h

theorem setDSNWith_res (env : DbEnv) (f g : Factory) (cfg : MySQLCfg) :
    (f.setDSNWith env cfg).2 = (g.setDSNWith env cfg).2 ∧
    ((f.setDSNWith env cfg).2 = true → (f.setDSNWith env cfg).1.dsn = (g.setDSNWith env cfg).1.dsn) := by
  unfold Factory.setDSNWith
  obtain ⟨net, addr, c1⟩ := netAddr cfg
  simp only []
  generalize (if net = "unix".toList ∧ c1.tls.isSet = true ∧ c1.hostname = [] ∧
      (!isTrue c1.tls.skipVerify) = true then { c1 with tls := { c1.tls with skipVerify := some true } }
      else c1) = c2
  cases c2.tls.load env (stripPort c2.hostname) with
  | none => exact ⟨rfl, fun h => by cases h⟩
  | some t =>
    cases credentials env c2 with
    | none => exact ⟨rfl, fun h => by cases h⟩
    | some up => exact ⟨rfl, fun _ => rfl⟩

/-- **C81.** The DSN of a stage depends only on its own configuration, not on those of stages before it. -/
theorem C81_own_config (env : DbEnv) (f g : Factory) (cfg : MySQLCfg) :
    ((f.setConfig cfg).make env).2 = ((g.setConfig cfg).make env).2 := by
  have key : ((f.setConfig cfg).setDSN env).2 = ((g.setConfig cfg).setDSN env).2 ∧
      (((f.setConfig cfg).setDSN env).2 = true →
        ((f.setConfig cfg).setDSN env).1.dsn = ((g.setConfig cfg).setDSN env).1.dsn) := by
    by_cases hd : cfg.dsn = []
    · rw [setDSN_eq env (f.setConfig cfg) hd, setDSN_eq env (g.setConfig cfg) hd]
      rw [show (f.setConfig cfg).cfg = cfg from rfl, show (g.setConfig cfg).cfg = cfg from rfl]
      cases cnfOf env cfg with
      | none => exact ⟨rfl, fun h => by cases h⟩
      | some m => exact setDSNWith_res env _ _ _
    · simp [Factory.setDSN, Factory.setConfig, hd]
  have he : ∀ x : Factory, (x.setConfig cfg).dsn = [] := fun _ => rfl
  unfold Factory.make
  simp only [he, if_true]
  cases hf : ((f.setConfig cfg).setDSN env).2 with
  | false =>
    have hg : ((g.setConfig cfg).setDSN env).2 = false := by rw [← key.1, hf]
    simp [hg]
  | true =>
    have hg : ((g.setConfig cfg).setDSN env).2 = true := by rw [← key.1, hf]
    have hd := key.2 hf
    simp only [hg, Bool.not_true, Bool.false_eq_true, if_false, ← hd]
    cases redactedDSN ((f.setConfig cfg).setDSN env).1.dsn <;> rfl

example : ((({} : Factory).setConfig { hostname := "db".toList }).make (exDbEnv {})).2 =
    .ok "finch:amazing@tcp(db)/?parseTime=true".toList := by decide +kernel

/-! ### C82 -/

theorem split_at_first (c : Char) : ∀ r : Text, c ∈ r →
    r = r.takeWhile (· != c) ++ c :: (r.dropWhile (· != c)).drop 1
  | [], h => absurd h (by simp)
  | x :: r, h => by
    by_cases hx : x = c
    · subst hx; simp
    · have hr : c ∈ r := by
        rcases List.mem_cons.mp h with h | h
        · exact absurd h.symm hx
        · exact h
      have ih := split_at_first c r hr
      have hb : (x != c) = true := by simp [hx]
      simp only [List.takeWhile_cons, List.dropWhile_cons, hb, if_true, List.cons_append]
      rw [← ih]

theorem splitLast_some {c : Char} {s a b : Text} (h : splitLast c s = some (a, b)) : s = a ++ c :: b := by
  unfold splitLast at h
  simp only [] at h
  split at h
  · rename_i hm
    injection h with h
    injection h with h1 h2
    have := split_at_first c s.reverse hm
    have h3 := congrArg List.reverse this
    rw [List.reverse_reverse] at h3
    rw [h3, ← h1, ← h2]
    simp
  · cases h

theorem parseDSN_isSome (x db params : Text) (hdb : '/' ∉ db) (hp : '/' ∉ params) :
    (parseDSN (x ++ ")/".toList ++ db ++ '?' :: params)).isSome := by
  have h1 : x ++ ")/".toList ++ db ++ '?' :: params = (x ++ [')']) ++ '/' :: (db ++ '?' :: params) := by
    rw [show ")/".toList = [')', '/'] from rfl]; simp
  rw [h1]
  unfold parseDSN
  rw [splitLast_append (by simp [hdb, hp])]
  simp only []
  cases hs : splitLast '@' (x ++ [')']) with
  | none =>
    simp only [List.getLast?_concat]
    split <;> rfl
  | some cn =>
    obtain ⟨c, n⟩ := cn
    simp only []
    have he := splitLast_some hs
    by_cases hpn : '(' ∈ n
    · rw [if_pos hpn]
      have hne : n ≠ [] := by rintro rfl; cases hpn
      have hl : n.getLast? = some ')' := by
        have h2 : (x ++ [')']).getLast? = some ')' := List.getLast?_concat
        rw [he, show c ++ '@' :: n = (c ++ ['@']) ++ n by simp] at h2
        rw [List.getLast?_append] at h2
        cases hn : n.getLast? with
        | none => exact absurd (List.getLast?_eq_none_iff.mp hn) hne
        | some y => rw [hn] at h2; simpa using h2
      rw [if_pos hl]
      rfl
    · rw [if_neg hpn]; rfl

/-- **C82 is false.** A DSN that the driver cannot parse is not reported: the program panics. -/
theorem C82_invalid_dsn_false (env : DbEnv) (f : Factory) (cfg : MySQLCfg) (hd : cfg.dsn ≠ [])
    (hp : parseDSN cfg.dsn = none) : ((f.setConfig cfg).make env).2 = .panic := by
  simp [Factory.make, Factory.setConfig, Factory.setDSN, hd, redactedDSN, hp]

/-- A DSN without a slash is one. -/
example : parseDSN "user:pw@tcp(db1:3306)".toList = none := by decide +kernel

/-- **C82 is false.** The same with a database name that contains a slash. -/
theorem C82_db_slash_false : ∃ cfg : MySQLCfg, cfg.dsn = [] ∧ cfg.db = "a/b".toList ∧
    ((({} : Factory).setConfig cfg).make (exDbEnv {})).2 = .panic :=
  ⟨{ db := "a/b".toList }, rfl, rfl, by decide +kernel⟩

/-- **C82.** Otherwise (settings instead of a DSN, no slash in the database name) there is no panic:
files that cannot be read give an error. What is missing: invalid DSN. -/
theorem C82_settings_partial (env : DbEnv) (f : Factory) (cfg : MySQLCfg) (hd : cfg.dsn = [])
    (hdb : '/' ∉ cfg.db) : ((f.setConfig cfg).make env).2 ≠ .panic := by
  unfold Factory.make
  simp only [show (f.setConfig cfg).dsn = [] from rfl, if_true]
  cases hok : ((f.setConfig cfg).setDSN env).2 with
  | false => simp
  | true =>
    have hsome : (parseDSN ((f.setConfig cfg).setDSN env).1.dsn).isSome := by
      rw [setDSN_eq env (f.setConfig cfg) hd] at hok ⊢
      rw [show (f.setConfig cfg).cfg = cfg from rfl] at hok ⊢
      cases hm : cnfOf env cfg with
      | none => rw [hm] at hok; cases hok
      | some m =>
        rw [hm] at hok
        simp only [] at hok ⊢
        obtain ⟨u, p, _, h2⟩ := setDSNWith_dsn env _ _ hok
        obtain ⟨_, _, _, _, _, w6, _⟩ := withDef_cnf cfg m
        rw [h2, w6]
        refine parseDSN_isSome _ _ _ hdb ?_
        rw [List.mem_append]
        rintro (h | h)
        · exact absurd h (by decide +kernel)
        · unfold effTLS at h
          split at h
          · exact absurd h (by decide +kernel)
          · split at h
            · exact absurd h (by decide +kernel)
            · cases h
    cases hp : parseDSN ((f.setConfig cfg).setDSN env).1.dsn with
    | none => rw [hp] at hsome; cases hsome
    | some d => simp [redactedDSN, hp]

end Finch
