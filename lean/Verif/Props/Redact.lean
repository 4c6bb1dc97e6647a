import Verif.Props.DbconnMake
import Verif.Props.Vars
import Verif.Props.Proto
/-!
C92: passwords are not shown. Further parts of C60 (kinds of variables) and C56 (files the server sends).
-/
namespace Finch

theorem mem_splitLast {c : Char} : ∀ {b : Text}, c ∈ b → ∃ b1 b2, b = b1 ++ c :: b2 ∧ c ∉ b2
  | [], h => by cases h
  | x :: xs, h => by
    by_cases hx : c ∈ xs
    · obtain ⟨b1, b2, e, hn⟩ := mem_splitLast hx
      exact ⟨x :: b1, b2, by rw [e]; rfl, hn⟩
    · have : x = c := by
        rcases List.mem_cons.mp h with h | h
        · exact h.symm
        · exact absurd h hx
      subst this
      exact ⟨[], xs, rfl, hx⟩

theorem redacted_dsn (user pw pw' rest : Text) (hu : ':' ∉ user) (hr : '/' ∈ rest) :
    redactedDSN (user ++ ':' :: (pw ++ '@' :: rest)) = redactedDSN (user ++ ':' :: (pw' ++ '@' :: rest)) := by
  obtain ⟨r1, r2, e, hn⟩ := mem_splitLast hr
  have ha : '@' ∈ '@' :: r1 := by simp
  obtain ⟨x, y, e2, hy⟩ := mem_splitLast ha
  have h1 : ∀ p : Text, splitLast '/' (user ++ ':' :: (p ++ '@' :: rest)) =
      some (user ++ ':' :: (p ++ '@' :: r1), r2) := by
    intro p
    rw [e, show user ++ ':' :: (p ++ '@' :: (r1 ++ '/' :: r2)) = (user ++ ':' :: (p ++ '@' :: r1)) ++ '/' :: r2 by
      simp]
    exact splitLast_append hn
  have h2 : ∀ p : Text, splitLast '@' (user ++ ':' :: (p ++ '@' :: r1)) = some (user ++ ':' :: (p ++ x), y) := by
    intro p
    rw [e2, show user ++ ':' :: (p ++ (x ++ '@' :: y)) = (user ++ ':' :: (p ++ x)) ++ '@' :: y by simp]
    exact splitLast_append hy
  have h3 : ∀ p : Text, splitFirst ':' (user ++ ':' :: (p ++ x)) = (user, p ++ x) := fun p => splitFirst_append hu
  have h4 : ∀ p : Text, parseDSN (user ++ ':' :: (p ++ '@' :: rest)) =
      (parseDSN (user ++ ':' :: ('@' :: rest))).map fun d => { d with passwd := p ++ x } := by
    intro p
    have h1' := h1 []
    have h2' := h2 []
    have h3' := h3 []
    simp only [List.nil_append] at h1' h2' h3'
    unfold parseDSN
    simp only [h1, h1', h2, h2', h3, h3']
    split
    · split <;> rfl
    · rfl
  unfold redactedDSN
  rw [h4 pw, h4 pw']
  cases parseDSN (user ++ ':' :: ('@' :: rest)) <;> rfl

theorem make_dsn {env : DbEnv} {f : Factory} {d : Text} (hf : f.dsn = []) (h : (f.make env).2 = .ok d) :
    (f.setDSN env).2 = true ∧ (f.setDSN env).1.dsn = d := by
  unfold Factory.make at h
  simp only [hf, if_true] at h
  cases hok : (f.setDSN env).2 with
  | false => simp only [hok, Bool.not_false, if_true] at h; cases h
  | true =>
    simp only [hok, Bool.not_true, Bool.false_eq_true, if_false] at h
    split at h
    · exact ⟨rfl, by injection h⟩
    · cases h

/-- **C92.** What is printed for a DSN does not depend on the password, for every user, every password and every
text after it: with another password the same is printed. -/
theorem C92_dsn (user pw pw' rest : Text) (hr : '/' ∈ rest) :
    redactedDSN (user ++ ':' :: (pw ++ '@' :: rest)) = redactedDSN (user ++ ':' :: (pw' ++ '@' :: rest)) := by
  by_cases hu : ':' ∈ user
  · have e := split_at_first ':' user hu
    have hn : ':' ∉ user.takeWhile (· != ':') := by
      intro h
      have hall := List.all_takeWhile (p := (· != ':')) (l := user)
      have := List.all_eq_true.mp hall _ h
      simp at this
    generalize user.takeWhile (· != ':') = a at *
    generalize (user.dropWhile (· != ':')).drop 1 = b at *
    subst e
    have h := redacted_dsn a (b ++ ':' :: pw) (b ++ ':' :: pw') rest hn hr
    simpa only [List.append_assoc, List.cons_append] using h
  · exact redacted_dsn user pw pw' rest hu hr

/-- A password is given: in a file that is not empty, or among the settings. -/
def PasswordGiven (env : DbEnv) (cfg : MySQLCfg) : Prop :=
  (cfg.passwordFile = [] → cfg.password ≠ []) ∧
  (cfg.passwordFile ≠ [] → env.read cfg.passwordFile ≠ some [])

theorem credentials_given {env : DbEnv} {c : MySQLCfg} (h : PasswordGiven env c) {u p : Text}
    (hc : credentials env c = some (u, p)) : u = (if c.username = [] then "finch".toList else c.username) ∧ p ≠ [] := by
  unfold credentials at hc
  by_cases hf : c.passwordFile = []
  · have hp := h.1 hf
    simp only [hf, ne_eq, not_true_eq_false, if_false, hp, false_and] at hc
    split at hc <;> cases hc <;> simp_all
  · have hp := h.2 hf
    simp only [ne_eq, hf, not_false_eq_true, if_true] at hc
    split at hc
    · cases hc
    · rename_i q hq
      have hq' : q ≠ [] := fun e => hp (by rw [hq, e])
      simp only [hq', and_false, if_false] at hc
      split at hc <;> cases hc <;> simp_all

/-- **C92.** The same for the settings of a stage: if only the password differs, whether it is in the settings,
in a password file or in my.cnf (none of them empty), the same is printed when the stage connects. -/
theorem C92_settings (env env' : DbEnv) (f f' : Factory) (pw pf : Text) (d d' : Text)
    (hf : f.dsn = []) (hf' : f'.dsn = []) (hcfg : f'.cfg = { f.cfg with password := pw, passwordFile := pf })
    (hm : ∀ n, (env'.mycnf n).map (fun m => { m with password := [] }) =
      (env.mycnf n).map (fun m => { m with password := [] }))
    (hd : f.cfg.dsn = []) (hp : PasswordGiven env f.cfg) (hp' : PasswordGiven env' f'.cfg)
    (h : (f.make env).2 = .ok d) (h' : (f'.make env').2 = .ok d') : redactedDSN d = redactedDSN d' := by
  obtain ⟨h1, h2⟩ := make_dsn hf h
  obtain ⟨h1', h2'⟩ := make_dsn hf' h'
  have hd' : f'.cfg.dsn = [] := by rw [hcfg]; exact hd
  have hcnf : (cnfOf env' f'.cfg).map (fun m => { m with password := [] }) =
      (cnfOf env f.cfg).map (fun m => { m with password := [] }) := by
    have e : f'.cfg.mycnf = f.cfg.mycnf := by rw [hcfg]
    unfold cnfOf
    rw [e]
    split
    · rfl
    · exact hm _
  rw [setDSN_eq env f hd] at h1 h2
  rw [setDSN_eq env' f' hd'] at h1' h2'
  cases hm1 : cnfOf env f.cfg with
  | none => rw [hm1] at h1; cases h1
  | some m =>
  cases hm2 : cnfOf env' f'.cfg with
  | none => rw [hm2] at h1'; cases h1'
  | some m' =>
    rw [hm1, hm2] at hcnf
    simp only [Option.map_some, Option.some.injEq, MyCnf.mk.injEq] at hcnf
    rw [hm1] at h1 h2
    rw [hm2] at h1' h2'
    simp only [] at h1 h2 h1' h2'
    obtain ⟨u, p, c1, e1⟩ := setDSNWith_dsn env _ _ h1
    obtain ⟨u', p', c1', e1'⟩ := setDSNWith_dsn env' _ _ h1'
    obtain ⟨w1, w2, w3, w4, w5, w6, w7, w8, -, -⟩ := withDef_cnf f.cfg m
    obtain ⟨v1, v2, v3, v4, v5, v6, v7, v8, -, -⟩ := withDef_cnf f'.cfg m'
    generalize f.cfg.withDef (parseMyCnf m) = c at *
    generalize f'.cfg.withDef (parseMyCnf m') = c' at *
    have given : ∀ (env : DbEnv) (a c : MySQLCfg) (q : Text), PasswordGiven env a → c.passwordFile = a.passwordFile →
        c.password = firstSet a.password q → PasswordGiven env c := by
      intro env a c q ha e1 e2
      refine ⟨fun hx => ?_, fun hx => ?_⟩
      · rw [e1] at hx
        rw [e2]
        simp [firstSet, ha.1 hx]
      · rw [e1] at hx ⊢
        exact ha.2 hx
    obtain ⟨hu, hpn⟩ := credentials_given (given env _ _ _ hp w5 w4) c1
    obtain ⟨hu', hpn'⟩ := credentials_given (given env' _ _ _ hp' v5 v4) c1'
    rw [if_pos hpn] at e1
    rw [if_pos hpn'] at e1'
    have hs : c'.socket = c.socket := by rw [v1, w1, hcfg]; simp only [effSocket, hcnf]
    have hh : c'.hostname = c.hostname := by rw [v2, w2, hcfg]; simp only [cnfHost, hcnf]
    have hn1 : (netAddr c').1 = (netAddr c).1 := by
      unfold netAddr; rw [hs]; split <;> rfl
    have hn2 : (netAddr c').2.1 = (netAddr c).2.1 := by
      unfold netAddr
      rw [hs]
      split
      · rfl
      · dsimp only
        rw [hh]
        split
        · rfl
        · exact hh
    have ht : effTLS c' (netAddr c).2.1 = effTLS c (netAddr c).2.1 := by
      unfold effTLS; rw [w7, w8, v7, v8, hcfg]
    have hun : c'.username = c.username := by rw [v3, w3, hcfg]; simp only [hcnf]
    have hdb : c'.db = c.db := by rw [v6, w6, hcfg]
    rw [hn1, hn2, ht, hdb, hu', hun] at e1'
    rw [hu] at e1
    rw [← h2, ← h2', e1, e1']
    have key := C92_dsn (if c.username = [] then "finch".toList else c.username) p p'
      ((netAddr c).1 ++ '(' :: (netAddr c).2.1 ++ ")/".toList ++ c.db ++
        '?' :: ("parseTime=true".toList ++ effTLS c (netAddr c).2.1)) (by simp)
    simpa only [List.append_assoc, List.cons_append] using key

/-- Two passwords, the second with special characters: the same is printed. -/
example : redactedDSN "app:secret@tcp(db1:3306)/test?parseTime=true".toList =
      .ok { user := "app".toList, passwd := "...".toList, net := "tcp".toList, addr := "db1:3306".toList,
            db := "test".toList, params := "parseTime=true".toList } ∧
    redactedDSN "app:s/c:r@t@tcp(db1:3306)/test?parseTime=true".toList =
      redactedDSN "app:secret@tcp(db1:3306)/test?parseTime=true".toList := by
  constructor <;> decide +kernel

/-- The hypotheses of `C92_settings` are met by a stage with user and password. -/
example : let f : Factory := ({} : Factory).setConfig { username := "app".toList, password := "x".toList, hostname := "db".toList }
    f.dsn = [] ∧ f.cfg.dsn = [] ∧ PasswordGiven (exDbEnv {}) f.cfg ∧
    (f.make (exDbEnv {})).2 = .ok "app:x@tcp(db)/?parseTime=true".toList := by
  refine ⟨rfl, rfl, ⟨fun _ h => (by cases h), fun h => absurd rfl h⟩, ?_⟩
  decide +kernel

/-- **C60.** Names beginning with `sys.` are built-in params, all others environment variables. -/
theorem C60_sys_env (e : VarEnv) (n : Text) :
    e.resolve ("sys.".toList ++ n) = e.sys n ∧
    (¬ "params.".toList <+: n → ¬ "sys.".toList <+: n → e.resolve n = e.env n) := by
  constructor
  · have h1 : "params.".toList.isPrefixOf ("sys.".toList ++ n) = false := by
      simp only [show "params.".toList = ['p', 'a', 'r', 'a', 'm', 's', '.'] from rfl,
        show "sys.".toList = ['s', 'y', 's', '.'] from rfl]
      rfl
    have h2 : "sys.".toList.isPrefixOf ("sys.".toList ++ n) = true := by
      rw [List.isPrefixOf_iff_prefix]; exact List.prefix_append _ _
    simp only [VarEnv.resolve, h1, h2, if_true, Bool.false_eq_true, if_false]
    rfl
  · intro h1 h2
    rw [← List.isPrefixOf_iff_prefix, Bool.not_eq_true] at h1 h2
    simp only [VarEnv.resolve, h1, h2, Bool.false_eq_true, if_false]

/-- **C56.** The server sends exactly the file of the trx with this number, and an error for every other number. -/
theorem C56_served (files : FS) (trx : List TrxConf) (i : Nat) :
    (∀ t, trx[i]? = some t → serveFile files trx i = files t.file) ∧
    (trx.length ≤ i → serveFile files trx i = none) := by
  constructor
  · intro t h; simp [serveFile, h]
  · intro h; simp [serveFile, List.getElem?_eq_none h]

example : serveFile (fun n => if n = "a.sql".toList then some [1] else none)
    [{ file := "a.sql".toList }] 0 = some [1] ∧
    serveFile (fun n => if n = "a.sql".toList then some [1] else none) [{ file := "a.sql".toList }] 1 = none := by
  constructor <;> decide +kernel

end Finch
