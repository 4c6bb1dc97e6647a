import Verif.Model.StageVars
import Verif.Props.Validate
import Verif.Props.Vars
/-!
C83, C84: variables in all settings of a stage, and params that refer to params.
-/
namespace Finch

/-! ### The settings of a stage -/

inductive MyField where
  | db | dsn | mycnf | username | password | passwordFile | timeoutConnect | hostname | socket
  | cert | key | ca
  deriving DecidableEq, Repr

inductive CGField where
  | db | clients | iter | iterClients | iterExecGroup | qps | qpsClients | qpsExecGroup
  | tps | tpsClients | tpsExecGroup | runtime | group
  deriving DecidableEq, Repr

/-- Every text in a stage file other than the params: `report r k` is option `k` of reporter `r`,
`trxName i` the name of trx `i`, `dataParam i k p` param `p` of data key `k` in trx `i`, `cgTrx j i` the
trx number `i` of client group `j`. -/
inductive Setting where
  | name | runtime | qps | tps | instances | freq
  | mysql (f : MyField)
  | report (r k : Text)
  | trxName (i : Nat) | trxFile (i : Nat)
  | dataName (i : Nat) (k : Text) | dataGenerator (i : Nat) (k : Text) | dataScope (i : Nat) (k : Text)
  | dataParam (i : Nat) (k p : Text)
  | group (j : Nat) (f : CGField)
  | groupTrx (j i : Nat)
  deriving DecidableEq, Repr

def MyField.get : MyField → MySQLCfg → Text
  | .db, c => c.db | .dsn, c => c.dsn | .mycnf, c => c.mycnf | .username, c => c.username
  | .password, c => c.password | .passwordFile, c => c.passwordFile
  | .timeoutConnect, c => c.timeoutConnect | .hostname, c => c.hostname | .socket, c => c.socket
  | .cert, c => c.tls.cert | .key, c => c.tls.key | .ca, c => c.tls.ca

def CGField.get : CGField → CGConf → Text
  | .db, c => c.db | .clients, c => c.clients | .iter, c => c.iter | .iterClients, c => c.iterClients
  | .iterExecGroup, c => c.iterExecGroup | .qps, c => c.qps | .qpsClients, c => c.qpsClients
  | .qpsExecGroup, c => c.qpsExecGroup | .tps, c => c.tps | .tpsClients, c => c.tpsClients
  | .tpsExecGroup, c => c.tpsExecGroup | .runtime, c => c.runtime | .group, c => c.group

/-- The value of a setting, `none` if there is no such entry. -/
def Setting.get : Setting → StageConf → Option Text
  | .name, c => some c.name
  | .runtime, c => some c.runtime
  | .qps, c => some c.qps
  | .tps, c => some c.tps
  | .instances, c => some c.instances
  | .freq, c => some c.stats.freq
  | .mysql f, c => some (f.get c.mysql)
  | .report r k, c => (c.stats.report.get? r).bind fun o => o.get? k
  | .trxName i, c => c.trx[i]?.map (·.name)
  | .trxFile i, c => c.trx[i]?.map (·.file)
  | .dataName i k, c => c.trx[i]?.bind fun t => (t.data.get? k).map (·.name)
  | .dataGenerator i k, c => c.trx[i]?.bind fun t => (t.data.get? k).map (·.generator)
  | .dataScope i k, c => c.trx[i]?.bind fun t => (t.data.get? k).map (·.scope)
  | .dataParam i k p, c => c.trx[i]?.bind fun t => (t.data.get? k).bind fun d => d.params.get? p
  | .group j f, c => c.workload[j]?.map f.get
  | .groupTrx j i, c => c.workload[j]?.bind fun g => g.trx[i]?

/-- The settings that are numbers and may be written like 10k (docs/content/syntax/values.md). -/
def Setting.numeric : Setting → Bool
  | .qps | .tps | .instances => true
  | .dataParam _ _ _ => true
  | .group _ .db | .group _ .runtime | .group _ .group => false
  | .group _ _ => true
  | _ => false

/-- The settings that the code forgets. -/
def Setting.forgotten : Setting → Bool
  | .mysql .hostname | .mysql .socket => true
  | .group _ .iter | .group _ .iterClients | .group _ .iterExecGroup => true
  | _ => false

/-! ### Lemmas -/

theorem mapVals_get {α : Type} {f : α → Option α} : ∀ {m m' : TMap α}, m.mapVals f = some m' →
    ∀ k, m'.get? k = (m.get? k).bind f ∧ ((m.get? k).isSome → (m'.get? k).isSome)
  | [], m', h, k => by
    cases h
    simp [TMap.get?]
  | (x, v) :: rest, m', h, k => by
    unfold TMap.mapVals at h
    cases hv : f v with
    | none => simp [hv] at h
    | some v' =>
      cases hr : TMap.mapVals f rest with
      | none => simp [hv, hr] at h
      | some r =>
        simp [hv, hr] at h
        subst h
        have ih := mapVals_get hr k
        unfold TMap.get? at *
        by_cases hk : k = x
        · subst hk
          simp [hv]
        · have hb : (k == x) = false := by simpa using hk
          simpa [List.lookup_cons, hb] using ih

theorem mapEach_get {α : Type} {f : α → Option α} : ∀ {l l' : List α}, mapEach f l = some l' →
    ∀ i : Nat, l'[i]? = l[i]?.bind f ∧ (l[i]?.isSome → l'[i]?.isSome)
  | [], l', h, i => by
    cases h
    simp
  | a :: as, l', h, i => by
    unfold mapEach at h
    cases hv : f a with
    | none => simp [hv] at h
    | some a' =>
      cases hr : mapEach f as with
      | none => simp [hv, hr] at h
      | some r =>
        simp [hv, hr] at h
        subst h
        cases i with
        | zero => simp [hv]
        | succ i => simpa using mapEach_get hr i

theorem mapEach_length {α : Type} {f : α → Option α} : ∀ {l l' : List α}, mapEach f l = some l' →
    l'.length = l.length
  | [], l', h => by cases h; rfl
  | a :: as, l', h => by
    unfold mapEach at h
    cases hv : f a with
    | none => simp [hv] at h
    | some a' =>
      cases hr : mapEach f as with
      | none => simp [hv, hr] at h
      | some r =>
        simp [hv, hr] at h
        subst h
        simp [mapEach_length hr]

theorem tls_vars_ok {e : VarEnv} {c c' : TLSCfg} (h : c.vars e = some c') :
    e.vars false c.cert = some c'.cert ∧ e.vars false c.key = some c'.key ∧
    e.vars false c.ca = some c'.ca := by
  unfold TLSCfg.vars at h
  simp only [Option.bind_eq_bind, Option.bind_eq_some_iff, Option.pure_def, Option.some.injEq] at h
  obtain ⟨_, h1, _, h2, _, h3, rfl⟩ := h
  exact ⟨h1, h2, h3⟩

theorem mysql_vars_ok {e : VarEnv} {c c' : MySQLCfg} (h : c.vars e = some c') :
    (∀ f : MyField, f ≠ .hostname → f ≠ .socket → e.vars false (f.get c) = some (f.get c')) ∧
    c'.hostname = c.hostname ∧ c'.socket = c.socket ∧ c'.disableAutoTLS = c.disableAutoTLS ∧
    c'.tls.skipVerify = c.tls.skipVerify ∧ c'.tls.disable = c.tls.disable := by
  unfold MySQLCfg.vars at h
  simp only [Option.bind_eq_bind, Option.bind_eq_some_iff, Option.pure_def, Option.some.injEq] at h
  obtain ⟨_, h1, _, h2, _, h3, _, h4, _, h5, _, h6, _, h7, t, h8, rfl⟩ := h
  obtain ⟨t1, t2, t3⟩ := tls_vars_ok h8
  refine ⟨?_, rfl, rfl, rfl, ?_, ?_⟩
  · intro f hf1 hf2
    cases f <;> first | exact absurd rfl hf1 | exact absurd rfl hf2 | assumption
  all_goals
    unfold TLSCfg.vars at h8
    simp only [Option.bind_eq_bind, Option.bind_eq_some_iff, Option.pure_def, Option.some.injEq] at h8
    obtain ⟨_, _, _, _, _, _, rfl⟩ := h8
    rfl

theorem cg_vars_ok {e : VarEnv} {c c' : CGConf} (h : c.vars e = some c') :
    (∀ f : CGField, f ≠ .iter → f ≠ .iterClients → f ≠ .iterExecGroup →
      e.vars (Setting.group 0 f).numeric (f.get c) = some (f.get c')) ∧
    c'.iter = c.iter ∧ c'.iterClients = c.iterClients ∧ c'.iterExecGroup = c.iterExecGroup ∧
    mapEach (e.vars false) c.trx = some c'.trx ∧ c'.disableStats = c.disableStats := by
  unfold CGConf.vars at h
  simp only [Option.bind_eq_bind, Option.bind_eq_some_iff, Option.pure_def, Option.some.injEq] at h
  obtain ⟨_, h1, _, h2, _, h3, _, h4, _, h5, _, h6, _, h7, _, h8, _, h9, _, h10, _, h11, rfl⟩ := h
  refine ⟨?_, rfl, rfl, rfl, h11, rfl⟩
  intro f hf1 hf2 hf3
  cases f <;> first | exact absurd rfl hf1 | exact absurd rfl hf2 | exact absurd rfl hf3 | assumption

theorem data_vars_ok {e : VarEnv} {c c' : DataConf} (h : c.vars e = some c') :
    e.vars false c.name = some c'.name ∧ e.vars false c.generator = some c'.generator ∧
    e.vars false c.scope = some c'.scope ∧ c.params.mapVals (e.vars true) = some c'.params := by
  unfold DataConf.vars at h
  simp only [Option.bind_eq_bind, Option.bind_eq_some_iff, Option.pure_def, Option.some.injEq] at h
  obtain ⟨_, h1, _, h2, _, h3, _, h4, rfl⟩ := h
  exact ⟨h1, h2, h3, h4⟩

theorem trx_vars_ok {e : VarEnv} {c c' : TrxConf} (h : c.vars e = some c') :
    e.vars false c.name = some c'.name ∧ e.vars false c.file = some c'.file ∧
    c.data.mapVals (DataConf.vars e) = some c'.data := by
  unfold TrxConf.vars at h
  simp only [Option.bind_eq_bind, Option.bind_eq_some_iff, Option.pure_def, Option.some.injEq] at h
  obtain ⟨_, h1, _, h2, _, h3, rfl⟩ := h
  exact ⟨h1, h2, h3⟩

theorem stats_vars_ok {e : VarEnv} {c c' : StatsCfg} (h : c.vars e = some c') :
    e.vars false c.freq = some c'.freq ∧
    c.report.mapVals (TMap.mapVals (e.vars false)) = some c'.report ∧ c'.disable = c.disable := by
  unfold StatsCfg.vars at h
  simp only [Option.bind_eq_bind, Option.bind_eq_some_iff, Option.pure_def, Option.some.injEq] at h
  obtain ⟨_, h1, _, h2, rfl⟩ := h
  exact ⟨h1, h2, rfl⟩

/-- What `Stage.Vars` does, part by part. -/
theorem stage_vars_ok {e : VarEnv} {order : List Text} {c c' : StageConf} (h : c.vars e order = some c') :
    paramsLoop e c.params order = some c'.params ∧
    (let e' : VarEnv := { e with params := c'.params }
     e'.vars false c.name = some c'.name ∧ e'.vars false c.runtime = some c'.runtime ∧
     e'.vars true c.qps = some c'.qps ∧ e'.vars true c.tps = some c'.tps ∧
     e'.vars true c.instances = some c'.instances ∧ c.mysql.vars e' = some c'.mysql ∧
     c.stats.vars e' = some c'.stats ∧ mapEach (TrxConf.vars e') c.trx = some c'.trx ∧
     mapEach (CGConf.vars e') c.workload = some c'.workload) ∧
    c'.disable = c.disable ∧ c'.disableLocal = c.disableLocal ∧ c'.file = c.file := by
  unfold StageConf.vars at h
  simp only [Option.bind_eq_bind, Option.bind_eq_some_iff, Option.pure_def, Option.some.injEq] at h
  obtain ⟨_, h0, _, h1, _, h2, _, h3, _, h4, _, h5, _, h6, _, h7, _, h8, _, h9, rfl⟩ := h
  exact ⟨h0, ⟨h1, h2, h3, h4, h5, h6, h7, h8, h9⟩, rfl, rfl, rfl⟩

/-! ### C83 -/

/-- A setting of the new stage comes from the same setting of the old one. -/
def Replaced (e : VarEnv) (num : Bool) (old new : Option Text) : Prop :=
  match old with
  | none => new = none
  | some t => ∃ t', e.vars num t = some t' ∧ new = some t'

theorem replaced_map {α : Type} {e : VarEnv} {num : Bool} {g : α → Text} {f : α → Option α}
    {o o' : Option α} (h : o' = o.bind f ∧ (o.isSome → o'.isSome))
    (hf : ∀ a a', f a = some a' → e.vars num (g a) = some (g a')) :
    Replaced e num (o.map g) (o'.map g) := by
  obtain ⟨rfl, h2⟩ := h
  cases o with
  | none => rfl
  | some a =>
    have := h2 rfl
    simp only [Option.bind_some] at this ⊢
    cases hfa : f a with
    | none => rw [hfa] at this; cases this
    | some a' => exact ⟨_, hf a a' hfa, rfl⟩

theorem replaced_bind {α : Type} {e : VarEnv} {num : Bool} {g : α → Option Text} {f : α → Option α}
    {o o' : Option α} (h : o' = o.bind f ∧ (o.isSome → o'.isSome))
    (hf : ∀ a a', f a = some a' → Replaced e num (g a) (g a')) :
    Replaced e num (o.bind g) (o'.bind g) := by
  obtain ⟨rfl, h2⟩ := h
  cases o with
  | none => rfl
  | some a =>
    have := h2 rfl
    simp only [Option.bind_some] at this ⊢
    cases hfa : f a with
    | none => rw [hfa] at this; cases this
    | some a' => exact hf a a' hfa

theorem replaced_self {e : VarEnv} {num : Bool} {o o' : Option Text}
    (h : o' = o.bind (e.vars num) ∧ (o.isSome → o'.isSome)) : Replaced e num o o' := by
  obtain ⟨rfl, h2⟩ := h
  cases o with
  | none => rfl
  | some a =>
    have := h2 rfl
    simp only [Option.bind_some] at this ⊢
    cases hfa : e.vars num a with
    | none => rw [hfa] at this; cases this
    | some a' => exact ⟨_, hfa, rfl⟩

/-- **C83**, for all settings but five: in a loaded stage, every setting is the text of the file with its
variables replaced (and numbers like 10k only where numbers are expected), using the final params; no
entry is added or lost. -/
theorem C83_replaced_partial {e : VarEnv} {order : List Text} {c c' : StageConf}
    (h : c.vars e order = some c') (f : Setting) (hf : f.forgotten = false) :
    Replaced { e with params := c'.params } f.numeric (f.get c) (f.get c') := by
  obtain ⟨_, ⟨h1, h2, h3, h4, h5, h6, h7, h8, h9⟩, _⟩ := stage_vars_ok h
  have hm := mysql_vars_ok h6
  have hs := stats_vars_ok h7
  cases f with
  | name => exact ⟨_, h1, rfl⟩
  | runtime => exact ⟨_, h2, rfl⟩
  | qps => exact ⟨_, h3, rfl⟩
  | tps => exact ⟨_, h4, rfl⟩
  | instances => exact ⟨_, h5, rfl⟩
  | freq => exact ⟨_, hs.1, rfl⟩
  | mysql f =>
    refine ⟨_, hm.1 f ?_ ?_, rfl⟩ <;> (rintro rfl; cases hf)
  | report r k =>
    exact replaced_bind (mapVals_get hs.2.1 r) fun a a' ha => replaced_self (mapVals_get ha k)
  | trxName i => exact replaced_map (mapEach_get h8 i) fun a a' ha => (trx_vars_ok ha).1
  | trxFile i => exact replaced_map (mapEach_get h8 i) fun a a' ha => (trx_vars_ok ha).2.1
  | dataName i k =>
    exact replaced_bind (mapEach_get h8 i) fun a a' ha =>
      replaced_map (mapVals_get (trx_vars_ok ha).2.2 k) fun d d' hd => (data_vars_ok hd).1
  | dataGenerator i k =>
    exact replaced_bind (mapEach_get h8 i) fun a a' ha =>
      replaced_map (mapVals_get (trx_vars_ok ha).2.2 k) fun d d' hd => (data_vars_ok hd).2.1
  | dataScope i k =>
    exact replaced_bind (mapEach_get h8 i) fun a a' ha =>
      replaced_map (mapVals_get (trx_vars_ok ha).2.2 k) fun d d' hd => (data_vars_ok hd).2.2.1
  | dataParam i k p =>
    exact replaced_bind (mapEach_get h8 i) fun a a' ha =>
      replaced_bind (mapVals_get (trx_vars_ok ha).2.2 k) fun d d' hd =>
        replaced_self (mapVals_get (data_vars_ok hd).2.2.2 p)
  | group j f =>
    refine replaced_map (mapEach_get h9 j) fun a a' ha => ?_
    have := (cg_vars_ok ha).1 f (by rintro rfl; cases hf) (by rintro rfl; cases hf) (by rintro rfl; cases hf)
    cases f <;> first | exact this | cases hf
  | groupTrx j i =>
    exact replaced_bind (mapEach_get h9 j) fun a a' ha =>
      replaced_self (mapEach_get (cg_vars_ok ha).2.2.2.2.1 i)

/-- **C83**: a variable that is not defined is an error wherever it is used (except in the five settings):
no stage is loaded with it. -/
theorem C83_undefined {e : VarEnv} {order : List Text} {c c' : StageConf} (h : c.vars e order = some c')
    (f : Setting) (hf : f.forgotten = false) (t : Text) (ht : f.get c = some t) :
    ({ e with params := c'.params }.vars f.numeric t).isSome := by
  have := C83_replaced_partial h f hf
  unfold Replaced at this
  rw [ht] at this
  obtain ⟨t', h1, _⟩ := this
  rw [h1]; rfl

/-- **C83**: nothing but texts changes. -/
theorem C83_rest {e : VarEnv} {order : List Text} {c c' : StageConf} (h : c.vars e order = some c') :
    c'.disable = c.disable ∧ c'.disableLocal = c.disableLocal ∧ c'.file = c.file ∧
    c'.trx.length = c.trx.length ∧ c'.workload.length = c.workload.length ∧
    c'.stats.disable = c.stats.disable ∧ c'.mysql.disableAutoTLS = c.mysql.disableAutoTLS ∧
    c'.mysql.tls.skipVerify = c.mysql.tls.skipVerify ∧ c'.mysql.tls.disable = c.mysql.tls.disable ∧
    ∀ (j : Nat) (g g' : CGConf), c.workload[j]? = some g → c'.workload[j]? = some g' → g'.disableStats = g.disableStats := by
  obtain ⟨_, ⟨h1, h2, h3, h4, h5, h6, h7, h8, h9⟩, r1, r2, r3⟩ := stage_vars_ok h
  have hm := mysql_vars_ok h6
  refine ⟨r1, r2, r3, mapEach_length h8, mapEach_length h9, (stats_vars_ok h7).2.2, hm.2.2.2.1,
    hm.2.2.2.2.1, hm.2.2.2.2.2, ?_⟩
  intro j g g' hg hg'
  have := (mapEach_get h9 j).1
  rw [hg, hg', Option.bind_some] at this
  exact (cg_vars_ok this.symm).2.2.2.2.2

/-- **C83 is false** for five settings: hostname, socket, iter, iter-clients and iter-exec-group are taken
literally, whatever is in them. -/
theorem C83_forgotten_false {e : VarEnv} {order : List Text} {c c' : StageConf}
    (h : c.vars e order = some c') (f : Setting) (hf : f.forgotten = true) : f.get c' = f.get c := by
  obtain ⟨_, ⟨h1, h2, h3, h4, h5, h6, h7, h8, h9⟩, _⟩ := stage_vars_ok h
  have hm := mysql_vars_ok h6
  have hlen := mapEach_length h9
  cases f with
  | mysql f => cases f <;> first | cases hf | skip
               · exact congrArg some hm.2.1
               · exact congrArg some hm.2.2.1
  | group j f =>
    have hj := mapEach_get h9 j
    cases hw : c.workload[j]? with
    | none => simp [Setting.get, hw, hj.1]
    | some g =>
      rw [hw] at hj
      have h2 := hj.2 rfl
      rw [hj.1, Option.bind_some] at h2
      cases hg : g.vars { e with params := c'.params } with
      | none => rw [hg] at h2; cases h2
      | some g' =>
        have hk := cg_vars_ok hg
        have hn : c'.workload[j]? = some g' := by rw [hj.1, Option.bind_some, hg]
        simp only [Setting.get, hw, hn, Option.map_some, Option.some.injEq]
        cases f <;> first | cases hf | skip
        · exact hk.2.1
        · exact hk.2.2.1
        · exact hk.2.2.2.1
  | _ => cases hf

theorem digitsVal_dollar : ∀ (s : Text) (a : Nat), '$' ∈ s → digitsVal a s = none
  | [], a, h => by cases h
  | c :: cs, a, h => by
    unfold digitsVal
    by_cases hc : c = '$'
    · subst hc; rfl
    · have : '$' ∈ cs := by
        rcases List.mem_cons.1 h with h | h
        · exact absurd h.symm hc
        · exact h
      split
      · rfl
      · exact digitsVal_dollar cs _ this

theorem not_number_dollar {s : Text} (h : '$' ∈ s) : ¬ IsNumber s := by
  rintro (rfl | ⟨n, hn, _⟩)
  · cases h
  · unfold parseUint64 at hn
    cases s with
    | nil => cases h
    | cons c cs => simp [digitsVal_dollar (c :: cs) 0 h] at hn

/-- A stage that uses a variable in iter, iter-clients or iter-exec-group is never accepted (unless it
is disabled), however the params are set. -/
theorem C83_iter_refused_false {e : VarEnv} {order : List Text} {c c' : StageConf} (env : ValEnv)
    (h : c.vars e order = some c') (hd : c.disable = false) (g : CGConf) (hg : g ∈ c.workload)
    (hv : '$' ∈ g.iter ∨ '$' ∈ g.iterClients ∨ '$' ∈ g.iterExecGroup) : c'.validate env = none := by
  have hd' : c'.disable = false := by rw [(C83_rest h).1]; exact hd
  obtain ⟨j, hj, hjg⟩ := List.mem_iff_getElem.1 hg
  have hw : c.workload[j]? = some g := by rw [List.getElem?_eq_getElem hj, hjg]
  have hf := fun f hf => C83_forgotten_false h (.group j f) hf
  cases hw' : c'.workload[j]? with
  | none =>
    have := hf .iter rfl
    simp [Setting.get, hw, hw'] at this
  | some g' =>
    have h1 := hf .iter rfl
    have h2 := hf .iterClients rfl
    have h3 := hf .iterExecGroup rfl
    simp only [Setting.get, hw, hw', Option.map_some, Option.some.injEq, CGField.get] at h1 h2 h3
    cases hr : c'.validate env with
    | none => rfl
    | some r =>
      exfalso
      have hwf := (C61_accepted_iff env c' hd').1 (by rw [hr]; rfl)
      have hmem : g' ∈ c'.workload := List.mem_of_getElem? hw'
      have hn := hwf.numbers.1 g' hmem
      rcases hv with hv | hv | hv
      · exact not_number_dollar (h1 ▸ hv) (hn g'.iter (by simp [CGConf.numeric]))
      · exact not_number_dollar (h2 ▸ hv) (hn g'.iterClients (by simp [CGConf.numeric]))
      · exact not_number_dollar (h3 ▸ hv) (hn g'.iterExecGroup (by simp [CGConf.numeric]))

/-! ### C84: params that refer to params -/

/-- A name refers to a param. -/
def isParamRef (n : Text) : Bool := "params.".toList.isPrefixOf n

/-- The value does not refer to params: neither as written nor after its braced references (built-in
params and environment variables) are replaced. -/
def NoParamRef (e : VarEnv) (v : Text) : Prop :=
  (∀ m ∈ findAll braceLen v, isParamRef (braceName m) = false) ∧
  ∀ s, { e with params := [] }.pass braceLen braceName v = some s →
    ∀ m ∈ findAll dollarLen s, isParamRef (dollarName m) = false

theorem pairs_noParam (e : VarEnv) (p p' : TMap Text) (name : Text → Text) : ∀ ms : List Text,
    (∀ m ∈ ms, isParamRef (name m) = false) →
    { e with params := p }.pairs name ms = { e with params := p' }.pairs name ms
  | [], _ => rfl
  | m :: ms, h => by
    have h1 : isParamRef (name m) = false := h m (by simp)
    have ih := pairs_noParam e p p' name ms fun x hx => h x (by simp [hx])
    unfold isParamRef at h1
    unfold VarEnv.pairs
    rw [ih]
    have : VarEnv.resolve { e with params := p } (name m) = VarEnv.resolve { e with params := p' } (name m) := by
      simp only [VarEnv.resolve, h1, Bool.false_eq_true, if_false]
    rw [this]

theorem vars_noParam {e : VarEnv} {v : Text} (h : NoParamRef e v) (num : Bool) (p : TMap Text) :
    { e with params := p }.vars num v = { e with params := [] }.vars num v := by
  have h1 : { e with params := p }.pass braceLen braceName v =
      { e with params := [] }.pass braceLen braceName v := by
    unfold VarEnv.pass
    rw [pairs_noParam e p [] braceName _ h.1]
  unfold VarEnv.vars
  rw [h1]
  cases hs : VarEnv.pass { e with params := [] } braceLen braceName v with
  | none => rfl
  | some s =>
    simp only []
    have h2 : { e with params := p }.pass dollarLen dollarName s =
        { e with params := [] }.pass dollarLen dollarName s := by
      unfold VarEnv.pass
      rw [pairs_noParam e p [] dollarName _ (h.2 s hs)]
    rw [h2]
    cases VarEnv.pass { e with params := [] } dollarLen dollarName s with
    | none => rfl
    | some t =>
      simp only []
      have hn : ∀ l, VarEnv.numPairs { e with params := p } l = VarEnv.numPairs { e with params := [] } l := by
        intro l
        induction l with
        | nil => rfl
        | cons a l ih => simp only [VarEnv.numPairs, ih]
      unfold VarEnv.numbers
      rw [hn]

theorem get_set {α : Type} (m : TMap α) (k : Text) (v : α) (x : Text) :
    (m.set k v).get? x = if x = k then some v else m.get? x := lookup_set k v x m

/-- **C84**, for params that do not refer to each other: whatever the order in which Go takes the params,
loading succeeds exactly if each value can be resolved, and then each param has its own value with
variables replaced. In particular the result does not depend on the order. -/
theorem C84_order_partial (e : VarEnv) : ∀ (order : List Text) (m : TMap Text), order.Nodup →
    (∀ k ∈ order, (m.get? k).isSome) → (∀ k ∈ order, ∀ v, m.get? k = some v → NoParamRef e v) →
    ((paramsLoop e m order).isSome ↔
      ∀ k ∈ order, ∀ v, m.get? k = some v → ({ e with params := [] }.vars true v).isSome) ∧
    ∀ m', paramsLoop e m order = some m' → ∀ k, m'.get? k =
      if k ∈ order then (m.get? k).bind ({ e with params := [] }.vars true) else m.get? k
  | [], m, _, _, _ => by
    refine ⟨by simp [paramsLoop], ?_⟩
    intro m' h k
    cases h
    simp
  | k :: ks, m, hnd, hk, hv => by
    obtain ⟨v, hkv⟩ := Option.isSome_iff_exists.1 (hk k (by simp))
    have hnr := hv k (by simp) v hkv
    have hks : k ∉ ks := (List.nodup_cons.1 hnd).1
    have hne : ∀ x ∈ ks, x ≠ k := fun x hx hxk => hks (hxk ▸ hx)
    have he := vars_noParam hnr true m
    unfold paramsLoop
    rw [hkv, Option.getD_some, he]
    cases hr : VarEnv.vars { e with params := [] } true v with
    | none =>
      simp only []
      refine ⟨⟨by simp, ?_⟩, by simp⟩
      intro h
      have := h k (by simp) v hkv
      rw [hr] at this
      cases this
    | some v' =>
      simp only []
      have ih := C84_order_partial e ks (m.set k v') (List.nodup_cons.1 hnd).2
        (by
          intro x hx
          rw [get_set, if_neg (hne x hx)]
          exact hk x (by simp [hx]))
        (by
          intro x hx w hw
          rw [get_set, if_neg (hne x hx)] at hw
          exact hv x (by simp [hx]) w hw)
      constructor
      · rw [ih.1]
        constructor
        · intro h x hx w hw
          rcases List.mem_cons.1 hx with rfl | hx
          · rw [hkv] at hw; cases hw; rw [hr]; rfl
          · exact h x hx w (by rw [get_set, if_neg (hne x hx)]; exact hw)
        · intro h x hx w hw
          rw [get_set, if_neg (hne x hx)] at hw
          exact h x (by simp [hx]) w hw
      · intro m' hm' x
        rw [ih.2 m' hm' x, get_set]
        by_cases hx : x = k
        · subst hx
          simp [hks, hkv, hr]
        · simp [hx]

/-- The environment of the examples. -/
def exVarsEnv : VarEnv := ⟨[], fun _ => none, fun _ => none, fun s => if s = "1k".toList then some 1000 else none⟩

def exParams : TMap Text :=
  [("a".toList, "$params.b".toList), ("b".toList, "$params.c".toList), ("c".toList, "1k".toList)]

/-- **C84 is false** for params that refer to params: a stage named `$params.a` is called `1000` or `$params.c`,
depending on the order in which Go happens to take the params. -/
theorem C84_order_false :
    ((StageConf.vars exVarsEnv ["c".toList, "b".toList, "a".toList]
      { name := "$params.a".toList, params := exParams }).map (·.name)) = some "1000".toList ∧
    ((StageConf.vars exVarsEnv ["a".toList, "b".toList, "c".toList]
      { name := "$params.a".toList, params := exParams }).map (·.name)) = some "$params.c".toList := by
  decide +kernel

/-- Without references the order has no effect, also for the whole stage. -/
def exPlainParams : TMap Text := [("rows".toList, "1k".toList), ("db".toList, "test".toList)]

example : (∀ k v, exPlainParams.get? k = some v → v = "1k".toList ∨ v = "test".toList) ∧
    NoParamRef exVarsEnv "1k".toList ∧ NoParamRef exVarsEnv "test".toList := by
  refine ⟨?_, ?_, ?_⟩
  · intro k v h
    simp only [exPlainParams, TMap.get?, List.lookup_cons, List.lookup_nil] at h
    split at h
    · cases h; exact Or.inl rfl
    · split at h
      · cases h; exact Or.inr rfl
      · cases h
  · exact ⟨by decide +kernel, fun s hs => by
      have : s = "1k".toList := by
        have h2 : VarEnv.pass { exVarsEnv with params := [] } braceLen braceName "1k".toList =
          some "1k".toList := by decide +kernel
        rw [h2] at hs; cases hs; rfl
      subst this; decide +kernel⟩
  · exact ⟨by decide +kernel, fun s hs => by
      have : s = "test".toList := by
        have h2 : VarEnv.pass { exVarsEnv with params := [] } braceLen braceName "test".toList =
          some "test".toList := by decide +kernel
        rw [h2] at hs; cases hs; rfl
      subst this; decide +kernel⟩

/-- A stage in which many settings use params. -/
def exVarsStage : StageConf :=
  { name := "load $params.db".toList, qps := "${params.rows}".toList, params := exPlainParams
    trx := [{ file := "${params.db}.sql".toList
              data := [("id".toList, { generator := "int".toList
                                       params := [("max".toList, "$params.rows".toList)] })] }]
    workload := [{ clients := "1k".toList, iter := "$params.rows".toList, trx := ["$params.db".toList] }] }

/-- The loaded stage. -/
def exVarsGot : StageConf := (exVarsStage.vars exVarsEnv ["db".toList, "rows".toList]).getD {}

example : (exVarsStage.vars exVarsEnv ["db".toList, "rows".toList]).isSome = true ∧
    exVarsGot.name = "load test".toList ∧ exVarsGot.qps = "1000".toList ∧
    exVarsGot.trx.map (·.file) = ["test.sql".toList] ∧
    (Setting.dataParam 0 "id".toList "max".toList).get exVarsGot = some "1000".toList ∧
    (Setting.group 0 .clients).get exVarsGot = some "1000".toList ∧
    (Setting.groupTrx 0 0).get exVarsGot = some "test".toList ∧
    (Setting.group 0 .iter).get exVarsGot = some "$params.rows".toList := by
  decide +kernel

example : (StageConf.vars exVarsEnv ["db".toList, "rows".toList]
    { exVarsStage with tps := "$nope".toList }).isSome = false := by
  decide +kernel

end Finch
