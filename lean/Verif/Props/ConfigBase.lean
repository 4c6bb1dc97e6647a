import Verif.Model.Config
import Mathlib.Tactic.Common
/-!
C58, C59: base file, stage file, command line.
-/
namespace Finch

/-- Spec: the first setting that is made. -/
def firstSet (a b : Text) : Text := if a ≠ [] then a else b

/-- Spec: the first bool that is set. -/
def firstBool (a b : Option Bool) : Option Bool := a.orElse fun _ => b

theorem setBool_eq (c b : Option Bool) : setBool c b = firstBool c b := by
  cases c <;> cases b <;> rfl

theorem ite_firstSet (a b : Text) : (if a = [] then b else a) = firstSet a b := by
  unfold firstSet; split <;> simp_all

theorem ite_firstSet' (a b : Text) : (if a = [] ∧ b ≠ [] then b else a) = firstSet a b := by
  unfold firstSet
  by_cases ha : a = [] <;> by_cases hb : b = [] <;> simp [ha, hb]

/-- **C58.** Every MySQL and TLS setting comes from the stage file if it sets it, else from the base
file. -/
theorem C58_mysql (c : StageConf) (b : BaseCfg) :
    (c.withBase b).mysql =
      { db := firstSet c.mysql.db b.mysql.db
        dsn := firstSet c.mysql.dsn b.mysql.dsn
        hostname := firstSet c.mysql.hostname b.mysql.hostname
        mycnf := firstSet c.mysql.mycnf b.mysql.mycnf
        password := firstSet c.mysql.password b.mysql.password
        passwordFile := firstSet c.mysql.passwordFile b.mysql.passwordFile
        socket := firstSet c.mysql.socket b.mysql.socket
        timeoutConnect := firstSet c.mysql.timeoutConnect b.mysql.timeoutConnect
        username := firstSet c.mysql.username b.mysql.username
        disableAutoTLS := firstBool c.mysql.disableAutoTLS b.mysql.disableAutoTLS
        tls :=
          { ca := firstSet c.mysql.tls.ca b.mysql.tls.ca
            cert := firstSet c.mysql.tls.cert b.mysql.tls.cert
            key := firstSet c.mysql.tls.key b.mysql.tls.key
            skipVerify := firstBool c.mysql.tls.skipVerify b.mysql.tls.skipVerify
            disable := firstBool c.mysql.tls.disable b.mysql.tls.disable
            mode := firstSet c.mysql.tls.mode b.mysql.tls.mode } } := by
  simp only [StageConf.withBase, MySQLCfg.withDef, TLSCfg.withDef, ite_firstSet, ite_firstSet', setBool_eq]

theorem firstSet_assoc (a b c : Text) : firstSet (firstSet a b) c = firstSet a (firstSet b c) := by
  unfold firstSet
  by_cases ha : a = [] <;> by_cases hb : b = [] <;> simp [ha, hb]

theorem firstBool_assoc (a b c : Option Bool) : firstBool (firstBool a b) c = firstBool a (firstBool b c) := by
  cases a <;> cases b <;> cases c <;> rfl

/-- **C58.** Applying defaults is associative: stage over (base over my.cnf) is (stage over base) over
my.cnf, which is the order in which the program does it. -/
theorem C58_mysql_assoc (a b c : MySQLCfg) : (a.withDef b).withDef c = a.withDef (b.withDef c) := by
  simp only [MySQLCfg.withDef, TLSCfg.withDef, ite_firstSet, ite_firstSet', setBool_eq,
    firstSet_assoc, firstBool_assoc]

theorem lookup_set {α : Type} (k : Text) (v : α) (x : Text) : ∀ m : TMap α,
    (m.set k v).get? x = if x = k then some v else m.get? x
  | [] => by
    simp only [TMap.set, TMap.get?, List.lookup]
    by_cases h : x = k
    · simp [h]
    · simp [h, beq_eq_false_iff_ne.mpr h]
  | (y, w) :: rest => by
    have ih := lookup_set k v x rest
    simp only [TMap.get?] at ih ⊢
    simp only [TMap.set]
    by_cases hy : y = k
    · subst hy
      simp only [if_true, List.lookup]
      by_cases h : x = y
      · simp [h]
      · simp [h, beq_eq_false_iff_ne.mpr h]
    · simp only [if_neg hy, List.lookup]
      by_cases h : x = y
      · subst h; simp [hy]
      · simp only [beq_eq_false_iff_ne.mpr h]
        exact ih

theorem lookup_addParams (x : Text) : ∀ (b c : TMap Text), (b.map (·.1)).Nodup →
    (addParams c b).get? x = (c.get? x).orElse fun _ => b.get? x
  | [], c, _ => by
    simp only [addParams]
    cases h : c.get? x <;> simp [TMap.get?, List.lookup]
  | (k, v) :: rest, c, hnd => by
    have hnd' : (rest.map (·.1)).Nodup := (List.nodup_cons.mp hnd).2
    have hk : k ∉ rest.map (·.1) := (List.nodup_cons.mp hnd).1
    simp only [addParams]
    rw [lookup_addParams x rest _ hnd']
    by_cases hx : x = k
    · subst hx
      have hget : TMap.get? ((x, v) :: rest) x = some v := by simp [TMap.get?, List.lookup]
      cases hc : c.get? x with
      | some w => simp [hc]
      | none => simp [lookup_set, hget]
    · have hget : TMap.get? ((k, v) :: rest) x = TMap.get? rest x := by
        simp [TMap.get?, List.lookup, beq_eq_false_iff_ne.mpr hx]
      rw [hget]
      split
      · rfl
      · rw [lookup_set, if_neg hx]

/-- **C58.** Every param comes from the stage file if it sets it, else from the base file. -/
theorem C58_params (c : StageConf) (b : BaseCfg) (hb : (b.params.map (·.1)).Nodup) (k : Text) :
    (c.withBase b).params.get? k = (c.params.get? k).orElse fun _ => b.params.get? k :=
  lookup_addParams k b.params c.params hb

/-- **C58.** What the base file cannot set stays as in the stage file; `stats.disable` is that of the
stage file if it sets it. What is missing: `stats.freq` and `stats.report`, see
`C58_freq_false`, `C58_report_false`. -/
theorem C58_rest_partial (c : StageConf) (b : BaseCfg) :
    (c.withBase b).stats.disable = firstBool c.stats.disable b.stats.disable ∧
    (c.withBase b).trx = c.trx ∧ (c.withBase b).workload = c.workload ∧
    (c.withBase b).name = c.name ∧ (c.withBase b).qps = c.qps ∧ (c.withBase b).tps = c.tps ∧
    (c.withBase b).runtime = c.runtime ∧ (c.withBase b).instances = c.instances ∧
    (c.withBase b).disableLocal = c.disableLocal ∧ (c.withBase b).disable = c.disable ∧
    (c.withBase b).file = c.file :=
  ⟨setBool_eq _ _, rfl, rfl, rfl, rfl, rfl, rfl, rfl, rfl, rfl, rfl⟩

/-- **C58 is false for `stats.freq`**: that of the stage file is always lost, even if there is no base
file at all; the base file wins if both set it. -/
theorem C58_freq_false : ∀ (c : StageConf), (c.withBase {}).stats.freq = [] ∧
    ∃ (c : StageConf) (b : BaseCfg), c.stats.freq = "5s".toList ∧ b.stats.freq = "1s".toList ∧
      (c.withBase b).stats.freq = "1s".toList :=
  fun _ => ⟨rfl, { stats := { freq := "5s".toList } }, { stats := { freq := "1s".toList } }, by decide⟩

/-- **C58 is false for `stats.report`**: the base file wins. -/
theorem C58_report_false : ∃ (c : StageConf) (b : BaseCfg),
    c.stats.report.map (·.1) = ["csv".toList] ∧ b.stats.report.map (·.1) = ["stdout".toList] ∧
    (c.withBase b).stats.report = b.stats.report :=
  ⟨{ stats := { report := [("csv".toList, [])] } }, { stats := { report := [("stdout".toList, [])] } },
    by decide⟩

/-! ### Command line -/

theorem lookup_foldl_set (x : Text) : ∀ (ps m : TMap Text), (ps.map (·.1)).Nodup →
    TMap.get? (ps.foldl (fun m kv => TMap.set m kv.1 kv.2) m) x =
      (TMap.get? ps x).orElse fun _ => TMap.get? m x
  | [], m, _ => by simp [TMap.get?]
  | (k, v) :: rest, m, hnd => by
    have hnd' : (rest.map (·.1)).Nodup := (List.nodup_cons.mp hnd).2
    have hk : k ∉ rest.map (·.1) := (List.nodup_cons.mp hnd).1
    simp only [List.foldl_cons]
    rw [lookup_foldl_set x rest _ hnd', lookup_set]
    by_cases hx : x = k
    · subst hx
      have hnone : TMap.get? rest x = none := by
        simp only [TMap.get?]
        rw [List.lookup_eq_none_iff]
        intro p hp
        by_contra h
        simp at h
        rw [h] at hk
        exact hk (List.mem_map_of_mem hp)
      rw [hnone]
      simp [TMap.get?, List.lookup]
    · simp [TMap.get?, List.lookup, beq_eq_false_iff_ne.mpr hx, hx]

/-- The keys of a map remain distinct. -/
theorem keys_set {α : Type} (k : Text) (v : α) : ∀ m : TMap α, (m.map (·.1)).Nodup →
    ((m.set k v).map (·.1)).Nodup ∧ ∀ x, x ∈ (m.set k v).map (·.1) → x = k ∨ x ∈ m.map (·.1)
  | [], _ => by simp [TMap.set]
  | (y, w) :: rest, hnd => by
    have hnd' : (rest.map (·.1)).Nodup := (List.nodup_cons.mp hnd).2
    have hy : y ∉ rest.map (·.1) := (List.nodup_cons.mp hnd).1
    obtain ⟨ih1, ih2⟩ := keys_set k v rest hnd'
    simp only [TMap.set]
    by_cases h : y = k
    · subst h
      simp only [if_true]
      exact ⟨hnd, fun x hx => Or.inr hx⟩
    · simp only [if_neg h]
      constructor
      · rw [List.map_cons, List.nodup_cons]
        refine ⟨fun hm => ?_, ih1⟩
        rcases ih2 y hm with h1 | h1
        · exact h h1
        · exact hy h1
      · intro x hx
        rw [List.map_cons] at hx ⊢
        rcases List.mem_cons.mp hx with h1 | h1
        · exact Or.inr (List.mem_cons.mpr (Or.inl h1))
        · rcases ih2 x h1 with h2 | h2
          · exact Or.inl h2
          · exact Or.inr (List.mem_cons_of_mem _ h2)

theorem keys_cmdParams (kvs : List Text) : ((cmdParams kvs).map (·.1)).Nodup := by
  unfold cmdParams
  suffices h : ∀ (kvs : List Text) (m : TMap Text), (m.map (·.1)).Nodup →
      ((kvs.foldl (fun m kv => match splitN2 '=' kv with | none => m | some (k, v) => m.set k v) m).map
        (·.1)).Nodup from h kvs [] (by simp)
  intro kvs
  induction kvs with
  | nil => intro m hm; exact hm
  | cons kv kvs ih =>
    intro m hm
    simp only [List.foldl_cons]
    apply ih
    split
    · exact hm
    · exact (keys_set _ _ m hm).1

theorem splitN2_append (k v : Text) (hk : '=' ∉ k) : splitN2 '=' (k ++ '=' :: v) = some (k, v) := by
  induction k with
  | nil => simp [splitN2]
  | cons c k ih =>
    simp only [List.mem_cons, not_or] at hk
    simp [splitN2, Ne.symm hk.1, ih hk.2]

theorem splitN2_some {sep : Char} : ∀ {s k v : Text}, splitN2 sep s = some (k, v) → s = k ++ sep :: v
  | [], k, v, h => by simp [splitN2] at h
  | c :: cs, k, v, h => by
    simp only [splitN2] at h
    split at h
    · rename_i hc; cases h; simp [hc]
    · cases hp : splitN2 sep cs with
      | none => rw [hp] at h; simp at h
      | some p =>
        rw [hp] at h
        simp only [Option.map_some, Option.some.injEq, Prod.mk.injEq] at h
        obtain ⟨rfl, rfl⟩ := h
        have := splitN2_some (k := p.1) (v := p.2) hp
        rw [this]; rfl

/-- The command line `k=v` sets `k` to `v`, also if `v` contains `=`; of several the last counts. -/
theorem C59_param_syntax (kvs kvs' : List Text) (k v : Text) (hk : '=' ∉ k)
    (hlast : ∀ v', k ++ '=' :: v' ∉ kvs') : (cmdParams (kvs ++ (k ++ '=' :: v) :: kvs')).get? k = some v := by
  unfold cmdParams
  rw [List.foldl_append, List.foldl_cons, splitN2_append k v hk]
  suffices h : ∀ (kvs' : List Text) (m : TMap Text), (∀ v', k ++ '=' :: v' ∉ kvs') →
      TMap.get? m k = some v → TMap.get? (kvs'.foldl
        (fun m kv => match splitN2 '=' kv with | none => m | some (k, v) => m.set k v) m) k = some v by
    exact h kvs' _ hlast (by rw [lookup_set, if_pos rfl])
  intro kvs'
  induction kvs' with
  | nil => intro m _ hm; exact hm
  | cons kv kvs' ih =>
    intro m hl hm
    simp only [List.foldl_cons]
    apply ih
    · intro v' hv'; exact hl v' (List.mem_cons_of_mem _ hv')
    · split
      · exact hm
      · rename_i k' v' hsp
        rw [lookup_set]
        split
        · rename_i heq
          subst heq
          have : kv = k ++ '=' :: v' := splitN2_some hsp
          exact absurd (List.mem_cons.mpr (Or.inl this.symm)) (hl v')
        · exact hm

theorem loadStage_params (base : BaseCfg) (params : TMap Text) (dsn db : Text) (f : StageConf) :
    (loadStage base params dsn db f).params = addParams f.params (base.withParams params).params := by
  simp only [loadStage, StageConf.commandLine]
  (repeat' split) <;> rfl

/-- **C59.** If the base file has params and the stage file does not set the param, the command line
wins. What is missing: a base file without params and a param that the stage file sets, see
`C59_no_base_false`, `C59_stage_false`. -/
theorem C59_param_partial (base : BaseCfg) (kvs : List Text) (dsn db : Text) (f : StageConf) (k v : Text)
    (hb : base.params ≠ []) (hnd : (base.params.map (·.1)).Nodup)
    (hcmd : (cmdParams kvs).get? k = some v) (hf : f.params.get? k = none) :
    (loadStage base (cmdParams kvs) dsn db f).params.get? k = some v := by
  have hp := loadStage_params base (cmdParams kvs) dsn db f
  have hempty : base.params.isEmpty = false := by cases h : base.params <;> simp_all
  have hnd2 : ((base.withParams (cmdParams kvs)).params.map (·.1)).Nodup := by
    simp only [BaseCfg.withParams, hempty]
    suffices h : ∀ (ps m : TMap Text), (m.map (·.1)).Nodup →
        ((ps.foldl (fun m kv => TMap.set m kv.1 kv.2) m).map (·.1)).Nodup from h _ _ hnd
    intro ps
    induction ps with
    | nil => intro m hm; exact hm
    | cons p ps ih => intro m hm; exact ih _ (keys_set _ _ m hm).1
  rw [hp, lookup_addParams k _ _ hnd2, hf]
  simp only [BaseCfg.withParams, hempty, Option.orElse_none]
  rw [if_neg (by simp), lookup_foldl_set k _ _ (keys_cmdParams kvs), hcmd]
  rfl

/-- **C59 is false without base params**: the command line params are ignored altogether. -/
theorem C59_no_base_false (kvs : List Text) (dsn db : Text) (f : StageConf) :
    (loadStage {} (cmdParams kvs) dsn db f).params = f.params := by
  rw [loadStage_params]
  rfl

/-- **C59 is false for params that the stage file sets**: the stage file wins. -/
theorem C59_stage_false : ∃ (base : BaseCfg) (kvs : List Text) (f : StageConf),
    (cmdParams kvs).get? "rows".toList = some "10".toList ∧
    (loadStage base (cmdParams kvs) [] [] f).params.get? "rows".toList = some "500".toList :=
  ⟨{ params := [("rows".toList, "1".toList)] }, ["rows=10".toList],
    { params := [("rows".toList, "500".toList)] }, by decide⟩

/-- **C59.** `--dsn` and `--database` do override the files, the latter also in every client group. -/
theorem C59_dsn_db (base : BaseCfg) (params : TMap Text) (dsn db : Text) (f : StageConf) :
    (dsn ≠ [] → (loadStage base params dsn db f).mysql.dsn = dsn) ∧
    (db ≠ [] → (loadStage base params dsn db f).mysql.db = db ∧
      ∀ g ∈ (loadStage base params dsn db f).workload, g.db = db) ∧
    (dsn = [] → (loadStage base params dsn db f).mysql.dsn = firstSet f.mysql.dsn base.mysql.dsn) ∧
    (db = [] → (loadStage base params dsn db f).mysql.db = firstSet f.mysql.db base.mysql.db ∧
      (loadStage base params dsn db f).workload = f.workload) := by
  have hm : (base.withParams params).mysql = base.mysql := by
    simp only [BaseCfg.withParams]; split <;> rfl
  refine ⟨?_, ?_, ?_, ?_⟩
  · intro h
    simp only [loadStage, StageConf.commandLine, if_neg h]
    split <;> rfl
  · intro h
    simp only [loadStage, StageConf.commandLine, if_neg h]
    refine ⟨trivial, ?_⟩
    intro g hg
    obtain ⟨x, _, rfl⟩ := List.mem_map.mp hg
    rfl
  · intro h
    simp only [loadStage, StageConf.commandLine, h, if_true]
    split <;> simp only [StageConf.withBase, MySQLCfg.withDef, ite_firstSet, hm]
  · intro h
    simp only [loadStage, StageConf.commandLine, h, if_true]
    split <;> simp only [StageConf.withBase, MySQLCfg.withDef, ite_firstSet, hm, and_self]

/-! ### Examples -/

example : (loadStage { params := [("a".toList, "1".toList)] } (cmdParams ["b=x=y".toList]) [] []
    { params := [("c".toList, "3".toList)] }).params.get? "b".toList = some "x=y".toList := by decide

example : (StageConf.withBase { mysql := { username := "me".toList } }
    { mysql := { username := "you".toList, socket := "/s".toList } }).mysql.username = "me".toList ∧
    (StageConf.withBase { mysql := { username := "me".toList } }
    { mysql := { username := "you".toList, socket := "/s".toList } }).mysql.socket = "/s".toList := by
  decide

end Finch
