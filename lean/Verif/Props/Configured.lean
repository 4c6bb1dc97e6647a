import Verif.Model.Configured
import Verif.Props.Validate
import Verif.Props.Prepare
import Verif.Props.AllocScope
import Verif.Props.SessionStages
import Verif.Props.TrxFormat
/-!
C116: a stage that was accepted is prepared as it is configured.
-/
namespace Finch

/-- Spec: the number that a setting says; 0 if it is not set. -/
def numberOf (s : Text) : Nat := s.foldl (fun n c => 10 * n + (c.toNat - '0'.toNat)) 0

/-- Spec: these are the statements of this file, whatever data keys were loaded before. -/
def LoadedFrom (tf : TrxFile) (ss : List Stmt) : Prop :=
  ∃ set set', loadFile set tf = .ok set' ∧ set'.statements tf.env.trx = some ss

/-- Statements of a trx of a prepared stage. -/
def Prepared.stmtsOf (r : Prepared) (t : Text) : List Stmt := (r.set.statements (String.ofList t)).getD []

/-- Spec: these clients (by their rate limiters) together get no more than this rate, if it is set: they wait for
the same limiter. (That they then get no more permits than it has ticks is C22.) -/
def RateOf (g : RGraph) (rate : Nat) (clients : List (Option Nat)) : Prop :=
  0 < rate → ∃ i, g[i]? = some (.rate rate) ∧ ∀ r ∈ clients, ∃ l, r = some l ∧ LimitedBy g i l

/-! ### Lemmas -/

theorem digitsVal_number (s : Text) : ∀ {acc n : Nat}, digitsVal acc s = some n →
    n = s.foldl (fun n c => 10 * n + (c.toNat - '0'.toNat)) acc := by
  induction s with
  | nil => intro acc n h; cases h; rfl
  | cons c s ih =>
    intro acc n h
    rw [digitsVal] at h
    unfold digitVal at h
    split at h
    · cases h
    · rename_i d hd
      split at hd
      · cases hd
        rw [ih h, List.foldl_cons, Nat.mul_comm]
      · cases hd

theorem parseUint64_number {s : Text} {n : Nat} (h : parseUint64 s = some n) : n = numberOf s := by
  unfold parseUint64 at h
  split at h
  · cases h
  · split at h
    · cases h
    · rename_i m hm
      split at h
      · cases h; exact digitsVal_number s hm
      · cases h

theorem finchUint_number {s : Text} (h : IsNumber s) : finchUint (String.ofList s) = numberOf s ∧ numberOf s < 2 ^ 32 := by
  unfold finchUint
  rw [String.toList_ofList]
  rcases h with rfl | ⟨n, h1, h2⟩
  · exact ⟨rfl, by decide⟩
  · rw [h1]
    have := parseUint64_number h1
    exact ⟨this, this ▸ h2⟩

/-- The trx files and client groups of an accepted stage. -/
theorem prepEnv_names {env : ValEnv} {c c' : StageConf} (hd : c.disable = false) (h : c.validate env = some c')
    (rest : StageRest) :
    (c'.prepEnv rest).files ≠ [] ∧
    (c'.prepEnv rest).files.map (·.env.trx) = c.trx.map (fun t => String.ofList (trxName t)) ∧
    ∀ cg ∈ (c'.prepEnv rest).workload, ∀ n ∈ cg.trx, n ∈ (c'.prepEnv rest).files.map (·.env.trx) := by
  have hw := (C61_accepted_iff env c hd).1 (by rw [h]; rfl)
  obtain ⟨h1, h2, -⟩ := C61_result env c c' hd h
  have hnames : (c'.prepEnv rest).files.map (·.env.trx) = c.trx.map (fun t => String.ofList (trxName t)) := by
    simp [StageConf.prepEnv, h1, TrxConf.trxFile, Function.comp_def]
  refine ⟨?_, hnames, ?_⟩
  · simp [StageConf.prepEnv, h1, hw.hasTrx]
  · rw [hnames]
    intro cg hcg n hn
    simp only [StageConf.prepEnv, h2, List.map_map, List.mem_map, Function.comp_apply] at hcg
    obtain ⟨g, hg, rfl⟩ := hcg
    obtain ⟨x, hx, rfl⟩ := List.mem_map.1 hn
    obtain ⟨t, ht, rfl⟩ := hw.defined g hg x hx
    exact List.mem_map.2 ⟨t, ht, rfl⟩

theorem cgDefaults_fields (ddl : GoMap String Bool) (order : List String) (c : CGCfg) :
    (cgDefaults ddl order c).trx = (if c.trx = [] then order else c.trx) ∧
    (cgDefaults ddl order c).iter =
      (if hasDDL ddl (cgDefaults ddl order c).trx = true ∧ finchUint c.iter = 0 then "1" else c.iter) ∧
    (cgDefaults ddl order c).clients = c.clients ∧ (cgDefaults ddl order c).runtime = c.runtime ∧
    (cgDefaults ddl order c).db = c.db ∧ (cgDefaults ddl order c).iterClients = c.iterClients ∧
    (cgDefaults ddl order c).iterExecGroup = c.iterExecGroup ∧
    (cgDefaults ddl order c).disableStats = c.disableStats ∧
    ((cgDefaults ddl order c).qps = c.qps ∧ (cgDefaults ddl order c).qpsClients = c.qpsClients ∧
      (cgDefaults ddl order c).qpsExecGroup = c.qpsExecGroup) ∧
    (cgDefaults ddl order c).tps = c.tps ∧ (cgDefaults ddl order c).tpsClients = c.tpsClients ∧
      (cgDefaults ddl order c).tpsExecGroup = c.tpsExecGroup := by
  unfold cgDefaults
  by_cases h1 : c.trx = []
  · by_cases h2 : hasDDL ddl order = true ∧ finchUint c.iter = 0 <;> simp [h1, h2]
  · by_cases h2 : hasDDL ddl c.trx = true ∧ finchUint c.iter = 0 <;> simp [h1, h2]

theorem allocGroups_get {ddl : GoMap String Bool} {order : List String} {w w' : List CGCfg} {gs : List (List Nat)}
    (h : allocGroups ddl order w = .ok (w', gs)) {i : Nat} {c : CGCfg} (hc : w[i]? = some c) :
    ∃ c', w'[i]? = some c' ∧ c' = { cgDefaults ddl order c with group := c'.group } := by
  obtain ⟨w0, gs', h1, -, h3, -⟩ := allocGroups_spec ddl order w
  rw [h] at h3
  simp only [Out.ok.injEq, Prod.mk.injEq] at h3
  have hw : w ≠ [] := by rintro rfl; simp at hc
  have hw0 := h1 hw
  subst hw0
  obtain ⟨c', g1, g2, -⟩ := nameLoop_get (ddl := ddl) (order := order) w0 (st := ⟨0, 0, true, ""⟩) hc
  rw [← h3.1] at g1
  exact ⟨c', g1, g2⟩

theorem mem_flatten_at {i : Nat} : ∀ {gs : List (List Nat)}, i ∈ gs.flatten →
    ∃ (e j : Nat) (eg : List Nat), gs[e]? = some eg ∧ eg[j]? = some i := by
  intro gs h
  obtain ⟨eg, h1, h2⟩ := List.mem_flatten.1 h
  obtain ⟨e, h3⟩ := List.mem_iff_getElem?.1 h1
  obtain ⟨j, h4⟩ := List.mem_iff_getElem?.1 h2
  exact ⟨e, j, eg, h3, h4⟩

theorem loadTrx_from {tfs : List TrxFile} : ∀ {set set' : TrxSet}, loadTrx set tfs = .ok set' →
    (tfs.map (·.env.trx)).Nodup → ∀ tf ∈ tfs, ∃ ss, set'.statements tf.env.trx = some ss ∧ LoadedFrom tf ss := by
  induction tfs with
  | nil => intro set set' _ _ tf h; simp at h
  | cons x xs ih =>
    intro set set' h hnd tf htf
    have hall := h
    simp only [loadTrx] at h
    rw [List.map_cons, List.nodup_cons] at hnd
    cases hl : loadFile set x with
    | err => rw [hl] at h; cases h
    | panic => rw [hl] at h; cases h
    | ok set1 =>
      rw [hl] at h
      rcases List.mem_cons.1 htf with rfl | htf
      · obtain ⟨-, -, ss, h3, -⟩ := loadFile_ok hl
        refine ⟨ss, ?_, set, set1, hl, by rw [h3, GoMap.set_same]⟩
        rw [C75_statements_kept set1 set' xs tf.env.trx (fun y hy he => hnd.1 (List.mem_map.2 ⟨y, hy, he⟩)) h, h3,
          GoMap.set_same]
      · exact ih h hnd.2 tf htf

theorem rates_parts {q : Nat} {groups : List (List Nat)} {w : List CGCfg} {fe fc fo fn : CGCfg → String}
    {gr : RGraph} {res : List (List (List (Option Nat)))}
    (h : (gr, res) = buildStage q (groups.map (rateEG fe fc fo fn w))) :
    RateOf gr q res.flatten.flatten ∧
    ∀ (e : Nat) (eg : List Nat), groups[e]? = some eg → ∃ rss, res[e]? = some rss ∧
      (∀ cg, (eg.head?.bind (w[·]?)) = some cg → RateOf gr (finchUint (fe cg)) rss.flatten) ∧
      ∀ (j i : Nat) (cg : CGCfg), eg[j]? = some i → w[i]? = some cg → ∃ rs, rss[j]? = some rs ∧
        RateOf gr (finchUint (fc cg)) rs ∧ (∀ r ∈ rs, RateOf gr (finchUint (fo cg)) [r]) ∧
        (q = 0 → (∀ x ∈ w, finchUint (fe x) = 0) → finchUint (fc cg) = 0 → finchUint (fo cg) = 0 →
          ∀ r ∈ rs, r = none) := by
  obtain ⟨-, -, hf, hs, hs0⟩ := buildStage_wf q (groups.map (rateEG fe fc fo fn w))
  have h1 : gr = (buildStage q (groups.map (rateEG fe fc fo fn w))).1 := congrArg Prod.fst h
  have h2 : res = (buildStage q (groups.map (rateEG fe fc fo fn w))).2 := congrArg Prod.snd h
  rw [← h1, ← h2] at hf
  rw [← h1] at hs
  constructor
  · intro hq
    obtain ⟨s1, s2⟩ := hs hq
    refine ⟨0, s2, fun r hr => ?_⟩
    obtain ⟨rs, h3, h4⟩ := List.mem_flatten.1 hr
    obtain ⟨rss, h5, h6⟩ := List.mem_flatten.1 h3
    obtain ⟨k, hk⟩ := List.mem_iff_getElem?.mp h5
    obtain ⟨eg, -, heg⟩ := forall2_mem hf hk
    exact heg.fromParent 0 s1 rs h6 r h4
  · intro e eg he
    have he' : (groups.map (rateEG fe fc fo fn w))[e]? = some (rateEG fe fc fo fn w eg) := by
      rw [List.getElem?_map, he]; rfl
    obtain ⟨rss, hrss, hok⟩ := forall2_mem hf.flip he'
    refine ⟨rss, hrss, fun cg hcg hq => ?_, fun j i cg hj hi => ?_⟩
    · have hx : (rateEG fe fc fo fn w eg).qps = finchUint (fe cg) := by
        unfold rateEG; rw [hcg]; rfl
      obtain ⟨n, e1, e2⟩ := hok.group (by rw [hx]; exact hq)
      refine ⟨n, by rw [e1, hx], fun r hr => ?_⟩
      obtain ⟨rs, h3, h4⟩ := List.mem_flatten.1 hr
      exact e2 rs h3 r h4
    · obtain ⟨p, hp, hg⟩ := hok.groups
      have hj' : (rateEG fe fc fo fn w eg).groups[j]? =
          some ⟨finchUint (fc cg), finchUint (fo cg), finchUint (fn cg)⟩ := by
        unfold rateEG
        rw [List.getElem?_map, hj, Option.map_some]
        unfold rateCG
        rw [hi]
      obtain ⟨rs, hrs, hcok⟩ := forall2_mem hg.flip hj'
      refine ⟨rs, hrs, hcok.group, fun r hr hq => ?_, fun q0 qe qc qo r hr => ?_⟩
      · obtain ⟨n, l, e1, e2, e3⟩ := hcok.client hq r hr
        exact ⟨n, e1, fun r' hr' => ⟨l, by rw [List.mem_singleton.1 hr', e2], e3⟩⟩
      · refine hcok.unlimited (hp (hs0 q0) ?_) qc qo r hr
        unfold rateEG
        dsimp only
        cases hx : eg.head?.bind (w[·]?) with
        | none => rfl
        | some x =>
          obtain ⟨y, -, hy⟩ := Option.bind_eq_some_iff.1 hx
          exact qe x (List.mem_of_getElem? hy)

theorem allClients_map (pr : AClient → Option Nat) (res : List (List ACGroup)) :
    (res.map fun cgs => cgs.map fun g => g.clients.map pr).flatten.flatten = (allClients res).map pr := by
  unfold allClients
  rw [List.map_flatMap, List.flatMap_def, List.map_flatten]

theorem rates_kind {q : Nat} {groups : List (List Nat)} {w : List CGCfg} {fe fc fo fn : CGCfg → String}
    {gr : RGraph} {res : List (List ACGroup)} {pr : AClient → Option Nat}
    (h : (gr, res.map fun cgs => cgs.map fun g => g.clients.map pr) =
      buildStage q (groups.map (rateEG fe fc fo fn w))) :
    RateOf gr q ((allClients res).map pr) ∧
    ∀ (e : Nat) (eg : List Nat), groups[e]? = some eg → ∃ cgs, res[e]? = some cgs ∧
      (∀ cg, (eg.head?.bind (w[·]?)) = some cg → RateOf gr (finchUint (fe cg)) ((allClients [cgs]).map pr)) ∧
      ∀ (j i : Nat) (cg : CGCfg), eg[j]? = some i → w[i]? = some cg → ∃ acg, cgs[j]? = some acg ∧
        RateOf gr (finchUint (fc cg)) (acg.clients.map pr) ∧
        ∀ a ∈ acg.clients, RateOf gr (finchUint (fo cg)) [pr a] ∧
          (q = 0 → (∀ x ∈ w, finchUint (fe x) = 0) → finchUint (fc cg) = 0 → finchUint (fo cg) = 0 →
            pr a = none) := by
  obtain ⟨h1, h2⟩ := rates_parts h
  refine ⟨by rw [← allClients_map]; exact h1, fun e eg he => ?_⟩
  obtain ⟨rss, h3, h4, h5⟩ := h2 e eg he
  rw [List.getElem?_map] at h3
  obtain ⟨cgs, h6, rfl⟩ := Option.map_eq_some_iff.1 h3
  refine ⟨cgs, h6, fun cg hcg => ?_, fun j i cg hj hi => ?_⟩
  · have := h4 cg hcg
    rw [← allClients_map]
    simpa using this
  · obtain ⟨rs, g1, g2, g3, g4⟩ := h5 j i cg hj hi
    rw [List.getElem?_map] at g1
    obtain ⟨acg, g5, rfl⟩ := Option.map_eq_some_iff.1 g1
    exact ⟨acg, g5, g2, fun a ha => ⟨g3 _ (List.mem_map_of_mem ha),
      fun x1 x2 x3 x4 => g4 x1 x2 x3 x4 _ (List.mem_map_of_mem ha)⟩⟩

/-! ### The property -/

/-- **C116.** An accepted stage can be prepared: if MySQL can be reached and the trx files load, it is prepared,
or `dbconn.Make` fails for a client group. It is a partial result because of the insert ids of C97. -/
theorem C116_prepared_partial {env : ValEnv} {c c' : StageConf} (hd : c.disable = false)
    (h : c.validate env = some c') (rest : StageRest) (s : DataScope) (keys : GoMap String TKey) (hs : ScopeSound s)
    (hst : 0 < rest.n) (hm : rest.makeOk = true) (hp : rest.pingOk = true) (set : TrxSet)
    (hl : loadTrx ⟨[], GoMap.empty, GoMap.empty, keys⟩ (c'.prepEnv rest).files = .ok set)
    (hid : ∀ n ss, set.statements n = some ss → ∀ st ∈ ss, st.insertId = "" ∨
      HasGen (prepScope s set.keys) st.insertId) :
    (prepare (c'.prepEnv rest) s keys = .err ∧ ∃ i j, rest.dbFails i j = true) ∨
    ∃ r, prepare (c'.prepEnv rest) s keys = .ok r ∧ ScopeSound r.st.sl.scope := by
  obtain ⟨h1, -, h2⟩ := prepEnv_names hd h rest
  exact C97_prepared_partial (c'.prepEnv rest) s keys hs hst h1 hm hp set hl h2 hid

/-- **C116 (files).** If the trx of an accepted stage have different names, the statements of each trx are those
of its file. (False if two have the same name, `C116_same_name_false`.) -/
theorem C116_files_partial {env : ValEnv} {c c' : StageConf} (hd : c.disable = false) (h : c.validate env = some c')
    (rest : StageRest) {s : DataScope} {keys : GoMap String TKey} {r : Prepared}
    (hr : prepare (c'.prepEnv rest) s keys = .ok r) (hnd : (c.trx.map trxName).Nodup) :
    ∀ t ∈ c.trx, LoadedFrom (TrxConf.trxFile rest c.params { t with name := trxName t }) (r.stmtsOf (trxName t)) := by
  obtain ⟨-, h2, -⟩ := prepEnv_names hd h rest
  obtain ⟨-, h1, -⟩ := prepare_parts hr
  obtain ⟨h3, -, -, -, -, h4, -⟩ := C61_result env c c' hd h
  have hnd' : ((c'.prepEnv rest).files.map (·.env.trx)).Nodup := by
    rw [h2]
    have := hnd.map (f := String.ofList) (fun a b h => ofList_inj h)
    rwa [List.map_map] at this
  intro t ht
  have hmem : TrxConf.trxFile rest c.params { t with name := trxName t } ∈ (c'.prepEnv rest).files := by
    simp only [StageConf.prepEnv, h3, h4, List.map_map, List.mem_map, Function.comp_apply]
    exact ⟨t, ht, rfl⟩
  obtain ⟨ss, e1, e2⟩ := loadTrx_from h1 hnd' _ hmem
  have : r.stmtsOf (trxName t) = ss := by
    unfold Prepared.stmtsOf
    have e1' : r.set.statements (String.ofList (trxName t)) = some ss := e1
    rw [e1']; rfl
  rw [this]
  exact e2

/-- **C116 (client groups).** Every client group of an accepted stage has the configured number of clients (one if
it is not set) and runtime. Its clients have the configured default database and iteration limits (one iteration
if there is DDL and no limit), and execute the trx that the group names, in this order, or all trx in the order of
the stage. -/
theorem C116_client_groups {env : ValEnv} {c c' : StageConf} (hd : c.disable = false)
    (h : c.validate env = some c') (rest : StageRest) {s : DataScope} {keys : GoMap String TKey} {r : Prepared}
    (hr : prepare (c'.prepEnv rest) s keys = .ok r) {i : Nat} {g : CGConf} (hg : c.workload[i]? = some g) :
    ∃ (e j : Nat) (eg : List Nat) (cgs : List ACGroup) (acg : ACGroup), r.groups[e]? = some eg ∧
      eg[j]? = some i ∧ r.execGroups[e]? = some cgs ∧ cgs[j]? = some acg ∧
      acg.clients.length = (if g.clients = [] then 1 else numberOf g.clients) ∧
      acg.runtime = String.ofList g.runtime ∧
      ∀ a ∈ acg.clients, a.db = String.ofList g.db ∧
        a.statements = (if g.trx = [] then c.trx.map trxName else g.trx).flatMap r.stmtsOf ∧
        a.iter = (if numberOf g.iter = 0 ∧ ∃ n ∈ (if g.trx = [] then c.trx.map trxName else g.trx),
            r.set.ddl (String.ofList n) = some true then 1 else numberOf g.iter) ∧
        (a.iterClients.map (·.1)).getD 0 = numberOf g.iterClients ∧
        (a.iterExecGroup.map (·.1)).getD 0 = numberOf g.iterExecGroup := by
  have hwf := (C61_accepted_iff env c hd).1 (by rw [h]; rfl)
  obtain ⟨p1, p2, p3⟩ := prepEnv_names hd h rest
  obtain ⟨-, w2, -⟩ := C61_result env c c' hd h
  obtain ⟨hf, h1, h2, h3, -, -⟩ := prepare_parts hr
  have hord := C75_order _ _ _ h1
  simp only [List.nil_append] at hord
  have hmem := List.mem_of_getElem? hg
  have hnum : ∀ f ∈ g.numeric, IsNumber f := hwf.numbers.1 g hmem
  simp only [CGConf.numeric, List.mem_cons, List.not_mem_nil, or_false, forall_eq_or_imp, forall_eq] at hnum
  -- the client group as the allocator gets it
  have hpi : (c'.prepEnv rest).workload[i]? =
      some (CGConf.cfg { g with clients := if g.clients = [] then "1".toList else g.clients }) := by
    simp [StageConf.prepEnv, w2, hg]
  obtain ⟨cg, hcg, hdef⟩ := allocGroups_get h2 hpi
  -- its place
  obtain ⟨w1, gs1, q1, -, q2, -⟩ := C39_groups_partition r.set.ddl r.set.order (c'.prepEnv rest).workload
  rw [h2] at q1
  simp only [Out.ok.injEq, Prod.mk.injEq] at q1
  obtain ⟨rfl, rfl⟩ := q1
  obtain ⟨e, j, eg, he, hj⟩ := mem_flatten_at (i := i) (gs := r.groups) (by
    rw [q2]; exact List.mem_range.2 (List.getElem?_eq_some_iff.1 hcg).1)
  have hat : CfgAt r.workload r.groups e j cg := ⟨eg, i, he, hj, hcg⟩
  obtain ⟨k1, k2⟩ := loadTrx_keys_exist _ _ (c'.prepEnv rest).files (by intro n ss h; simp [GoMap.empty] at h) (by simp) h1
  have htrx := allocGroups_trx h2 (by rw [hord]; simpa using hf) (by rw [hord]; exact p3)
  have hne : NoEmptyTrx ⟨r.set.statements, (c'.prepEnv rest).stage, (c'.prepEnv rest).withStats,
      (c'.prepEnv rest).dbFails⟩ r.workload := by
    intro cg hcg n hn
    have hx := k1 n ((htrx cg hcg).2 n hn)
    cases hss : r.set.statements n with
    | none => exact absurd hss hx
    | some ss =>
      show (r.set.statements n).getD [] ≠ []
      rw [hss]
      exact (k2 n ss hss).1
  obtain ⟨-, hcc⟩ := C42_client_counts hne h3
  obtain ⟨cgs, c1, -, c2⟩ := hcc e eg he
  obtain ⟨acg, c3, c4, c5, -⟩ := c2 j cg hat
  -- what the allocator fills in
  have horder : r.set.order = (c.trx.map trxName).map String.ofList := by
    rw [hord, p2, List.map_map]; rfl
  obtain ⟨f1, f2, f3, f4, f5, f6, f7, -⟩ := cgDefaults_fields r.set.ddl r.set.order
    (CGConf.cfg { g with clients := if g.clients = [] then "1".toList else g.clients })
  have hcgt : cg.trx = (cgDefaults r.set.ddl r.set.order
      (CGConf.cfg { g with clients := if g.clients = [] then "1".toList else g.clients })).trx := by rw [hdef]
  have hdtrx : cg.trx = (if g.trx = [] then c.trx.map trxName else g.trx).map String.ofList := by
    rw [hcgt, f1]
    by_cases hx : g.trx = []
    · rw [if_pos hx, if_pos (by simp [CGConf.cfg, hx])]
      exact horder
    · rw [if_neg hx, if_neg (by simpa [CGConf.cfg] using hx)]
      rfl
  have hclients : cg.clients = String.ofList (if g.clients = [] then "1".toList else g.clients) := by
    rw [hdef]; exact f3
  have hrun : cg.runtime = String.ofList g.runtime := by rw [hdef]; exact f4
  have hdb : cg.db = String.ofList g.db := by rw [hdef]; exact f5
  have hic : cg.iterClients = String.ofList g.iterClients := by rw [hdef]; exact f6
  have hie : cg.iterExecGroup = String.ofList g.iterExecGroup := by rw [hdef]; exact f7
  have hddl : hasDDL r.set.ddl cg.trx = true ↔ ∃ n ∈ (if g.trx = [] then c.trx.map trxName else g.trx),
      r.set.ddl (String.ofList n) = some true := by
    unfold hasDDL
    rw [hdtrx]
    simp only [List.any_map, List.any_eq_true, Function.comp_apply]
    constructor
    · rintro ⟨n, h1, h2⟩
      refine ⟨n, h1, ?_⟩
      cases hx : r.set.ddl (String.ofList n) with
      | none => rw [hx] at h2; simp at h2
      | some b => rw [hx] at h2; simpa using h2
    · rintro ⟨n, h1, h2⟩
      exact ⟨n, h1, by rw [h2]; rfl⟩
  have hiter : finchUint cg.iter = (if numberOf g.iter = 0 ∧ ∃ n ∈ (if g.trx = [] then c.trx.map trxName else g.trx),
            r.set.ddl (String.ofList n) = some true then 1 else numberOf g.iter) := by
    have hgi := (finchUint_number hnum.2.1).1
    rw [← hgi]
    have e1 : cg.iter = (if hasDDL r.set.ddl cg.trx = true ∧ finchUint (String.ofList g.iter) = 0 then "1"
        else String.ofList g.iter) := by
      rw [hcgt]
      rw [hdef]
      exact f2
    rw [e1]
    by_cases hx : hasDDL r.set.ddl cg.trx = true ∧ finchUint (String.ofList g.iter) = 0
    · rw [if_pos hx, if_pos ⟨hx.2, hddl.1 hx.1⟩]; rfl
    · rw [if_neg hx, if_neg (fun hy => hx ⟨hddl.2 hy.2, hy.1⟩)]
  refine ⟨e, j, eg, cgs, acg, he, hj, c1, c3, ?_, by rw [c5, hrun], ?_⟩
  · rw [c4, hclients]
    by_cases hx : g.clients = []
    · rw [if_pos hx, if_pos hx]; rfl
    · rw [if_neg hx, if_neg hx]; exact (finchUint_number hnum.1).1
  · intro a ha
    obtain ⟨k, hk⟩ := List.mem_iff_getElem?.1 ha
    have hca : ClientAt r.execGroups e j k a := ⟨cgs, acg, c1, c3, hk⟩
    obtain ⟨cg', hat', -, d1, d2, -⟩ := C42_statements_in_order hne h3 hca
    have : cg' = cg := by
      obtain ⟨_, _, a1, a2, a3⟩ := hat'
      rw [he] at a1; cases a1
      rw [hj] at a2; cases a2
      rw [hcg] at a3; cases a3
      rfl
    subst this
    have n1 := finchUint_number hnum.2.2.1
    have n2 := finchUint_number hnum.2.2.2.1
    obtain ⟨l1, l2, l3, l4, l5⟩ := C43_limits_partial hne h3 hca hat (by rw [hic, n1.1]; exact n1.2)
      (by rw [hie, n2.1]; exact n2.2)
    refine ⟨by rw [d1, hdb], ?_, by rw [l1, hiter], ?_, ?_⟩
    · rw [d2, hdtrx, List.flatMap_map]; rfl
    · rw [hic, n1.1] at l2 l3
      cases hx : a.iterClients with
      | none => simp only [Option.map_none, Option.getD_none]; exact (l2.1 hx).symm
      | some v => obtain ⟨n, q⟩ := v; exact l3 n q hx
    · rw [hie, n2.1] at l4 l5
      cases hx : a.iterExecGroup with
      | none => simp only [Option.map_none, Option.getD_none]; exact (l4.1 hx).symm
      | some v => obtain ⟨n, q⟩ := v; exact l5 n q hx

/-- What the rate settings of a client group in the allocator are. -/
theorem group_rates {env : ValEnv} {c c' : StageConf} (hd : c.disable = false)
    (h : c.validate env = some c') (rest : StageRest) {s : DataScope} {keys : GoMap String TKey} {r : Prepared}
    (hr : prepare (c'.prepEnv rest) s keys = .ok r) {i : Nat} {g : CGConf} (hg : c.workload[i]? = some g) :
    ∃ cg, r.workload[i]? = some cg ∧
      (finchUint cg.qps = numberOf g.qps ∧ finchUint cg.qpsClients = numberOf g.qpsClients ∧
        finchUint cg.qpsExecGroup = numberOf g.qpsExecGroup) ∧
      finchUint cg.tps = numberOf g.tps ∧ finchUint cg.tpsClients = numberOf g.tpsClients ∧
        finchUint cg.tpsExecGroup = numberOf g.tpsExecGroup := by
  have hwf := (C61_accepted_iff env c hd).1 (by rw [h]; rfl)
  obtain ⟨-, w2, -⟩ := C61_result env c c' hd h
  obtain ⟨-, -, h2, -⟩ := prepare_parts hr
  have hnum : ∀ f ∈ g.numeric, IsNumber f := hwf.numbers.1 g (List.mem_of_getElem? hg)
  simp only [CGConf.numeric, List.mem_cons, List.not_mem_nil, or_false, forall_eq_or_imp, forall_eq] at hnum
  obtain ⟨-, -, -, -, n1, n2, n3, n4, n5, n6⟩ := hnum
  have hpi : (c'.prepEnv rest).workload[i]? =
      some (CGConf.cfg { g with clients := if g.clients = [] then "1".toList else g.clients }) := by
    simp [StageConf.prepEnv, w2, hg]
  obtain ⟨cg, hcg, hdef⟩ := allocGroups_get h2 hpi
  obtain ⟨-, -, -, -, -, -, -, -, ⟨f1, f2, f3⟩, f4, f5, f6⟩ := cgDefaults_fields r.set.ddl r.set.order
    (CGConf.cfg { g with clients := if g.clients = [] then "1".toList else g.clients })
  refine ⟨cg, hcg, ?_⟩
  rw [hdef]
  dsimp only
  rw [f1, f2, f3, f4, f5, f6]
  exact ⟨⟨(finchUint_number n1).1, (finchUint_number n2).1, (finchUint_number n3).1⟩,
    (finchUint_number n4).1, (finchUint_number n5).1, (finchUint_number n6).1⟩

/-- **C116 (rates).** All clients of an accepted stage share the configured QPS and TPS of the stage, those of an
execution group the ones of its first client group, those of a client group their `qps-clients` and
`tps-clients`, and every client has its own `qps` and `tps`; without any of them there is no limit. -/
theorem C116_rates {env : ValEnv} {c c' : StageConf} (hd : c.disable = false)
    (h : c.validate env = some c') (rest : StageRest) {s : DataScope} {keys : GoMap String TKey} {r : Prepared}
    (hr : prepare (c'.prepEnv rest) s keys = .ok r) :
    RateOf r.st.gq (numberOf c.qps) ((allClients r.execGroups).map (·.qps)) ∧
    RateOf r.st.gt (numberOf c.tps) ((allClients r.execGroups).map (·.tps)) ∧
    ∀ (e : Nat) (eg : List Nat), r.groups[e]? = some eg → ∃ cgs, r.execGroups[e]? = some cgs ∧
      (∀ i g, eg[0]? = some i → c.workload[i]? = some g →
        RateOf r.st.gq (numberOf g.qpsExecGroup) ((allClients [cgs]).map (·.qps)) ∧
        RateOf r.st.gt (numberOf g.tpsExecGroup) ((allClients [cgs]).map (·.tps))) ∧
      ∀ (j i : Nat) (g : CGConf), eg[j]? = some i → c.workload[i]? = some g → ∃ acg, cgs[j]? = some acg ∧
        RateOf r.st.gq (numberOf g.qpsClients) (acg.clients.map (·.qps)) ∧
        RateOf r.st.gt (numberOf g.tpsClients) (acg.clients.map (·.tps)) ∧
        ∀ a ∈ acg.clients, RateOf r.st.gq (numberOf g.qps) [a.qps] ∧ RateOf r.st.gt (numberOf g.tps) [a.tps] ∧
          (numberOf c.qps = 0 → (∀ x ∈ c.workload, numberOf x.qpsExecGroup = 0) → numberOf g.qpsClients = 0 →
            numberOf g.qps = 0 → a.qps = none) ∧
          (numberOf c.tps = 0 → (∀ x ∈ c.workload, numberOf x.tpsExecGroup = 0) → numberOf g.tpsClients = 0 →
            numberOf g.tps = 0 → a.tps = none) := by
  have hwf := (C61_accepted_iff env c hd).1 (by rw [h]; rfl)
  obtain ⟨-, w2, -, -, -, -, w6, w7, -⟩ := C61_result env c c' hd h
  obtain ⟨-, -, h2, h3, -, -⟩ := prepare_parts hr
  obtain ⟨r1, r2⟩ := C43_rate_limiters h3
  have hq : (c'.prepEnv rest).qps = numberOf c.qps := by
    show finchUint (String.ofList c'.qps) = _
    rw [w6]; exact (finchUint_number hwf.numbers.2.1).1
  have ht : (c'.prepEnv rest).tps = numberOf c.tps := by
    show finchUint (String.ofList c'.tps) = _
    rw [w7]; exact (finchUint_number hwf.numbers.2.2.1).1
  rw [hq] at r1
  rw [ht] at r2
  obtain ⟨a1, a2⟩ := rates_kind r1
  obtain ⟨b1, b2⟩ := rates_kind r2
  -- the workload of the allocator has the client groups of the stage
  have hlen : r.workload.length = c.workload.length ∨ c.workload = [] := by
    by_cases hw : c.workload = []
    · exact .inr hw
    · left
      obtain ⟨w1, gs1, q1, q2, -⟩ := C39_groups_partition r.set.ddl r.set.order (c'.prepEnv rest).workload
      rw [h2] at q1
      simp only [Out.ok.injEq, Prod.mk.injEq] at q1
      obtain ⟨rfl, rfl⟩ := q1
      rw [q2 (by simp [StageConf.prepEnv, w2, hw])]
      simp [StageConf.prepEnv, w2]
  refine ⟨a1, b1, fun e eg he => ?_⟩
  obtain ⟨cgs, a3, a4, a5⟩ := a2 e eg he
  obtain ⟨cgs', b3, b4, b5⟩ := b2 e eg he
  rw [a3] at b3
  cases b3
  refine ⟨cgs, a3, fun i g hi hg => ?_, fun j i g hj hg => ?_⟩
  · obtain ⟨cg, c1, ⟨-, -, c2⟩, -, -, c3⟩ := group_rates hd h rest hr hg
    have hx : (eg.head?.bind (r.workload[·]?)) = some cg := by
      rw [List.head?_eq_getElem?, hi]; exact c1
    exact ⟨by rw [← c2]; exact a4 cg hx, by rw [← c3]; exact b4 cg hx⟩
  · obtain ⟨cg, c1, ⟨c2, c3, -⟩, c4, c5, -⟩ := group_rates hd h rest hr hg
    obtain ⟨acg, a6, a7, a8⟩ := a5 j i cg hj c1
    obtain ⟨acg', b6, b7, b8⟩ := b5 j i cg hj c1
    rw [a6] at b6
    cases b6
    have hall : ∀ x ∈ r.workload, ∃ g' ∈ c.workload, finchUint x.qpsExecGroup = numberOf g'.qpsExecGroup ∧
        finchUint x.tpsExecGroup = numberOf g'.tpsExecGroup := by
      intro x hx
      obtain ⟨k, hk⟩ := List.mem_iff_getElem?.1 hx
      have hkl := (List.getElem?_eq_some_iff.1 hk).1
      rcases hlen with hlen | hlen
      · obtain ⟨cg', d1, ⟨-, -, d2⟩, -, -, d3⟩ :=
          group_rates hd h rest hr (List.getElem?_eq_getElem (hlen ▸ hkl))
        rw [hk] at d1
        cases d1
        exact ⟨_, List.getElem_mem _, d2, d3⟩
      · rw [hlen] at hg; simp at hg
    refine ⟨acg, a6, by rw [← c3]; exact a7, by rw [← c5]; exact b7, fun a ha => ?_⟩
    obtain ⟨e1, e2⟩ := a8 a ha
    obtain ⟨e3, e4⟩ := b8 a ha
    refine ⟨by rw [← c2]; exact e1, by rw [← c4]; exact e3, fun x1 x2 x3 x4 => ?_, fun x1 x2 x3 x4 => ?_⟩
    · exact e2 x1 (fun x hx => by obtain ⟨g', y1, y2, -⟩ := hall x hx; rw [y2]; exact x2 g' y1)
        (by rw [c3]; exact x3) (by rw [c2]; exact x4)
    · exact e4 x1 (fun x hx => by obtain ⟨g', y1, -, y2⟩ := hall x hx; rw [y2]; exact x2 g' y1)
        (by rw [c5]; exact x3) (by rw [c4]; exact x4)

/-- **C116 (DDL).** A trx is known to have DDL if one of its statements is DDL. So a client with DDL and no
iteration limit executes its trx once. -/
theorem C116_ddl_once {env : ValEnv} {c c' : StageConf} (hd : c.disable = false)
    (h : c.validate env = some c') (rest : StageRest) {s : DataScope} {keys : GoMap String TKey} {r : Prepared}
    (hr : prepare (c'.prepEnv rest) s keys = .ok r) {i : Nat} {g : CGConf} (hg : c.workload[i]? = some g)
    (hi : numberOf g.iter = 0) :
    ∃ (e j : Nat) (eg : List Nat) (cgs : List ACGroup) (acg : ACGroup), r.groups[e]? = some eg ∧
      eg[j]? = some i ∧ r.execGroups[e]? = some cgs ∧ cgs[j]? = some acg ∧
      ∀ a ∈ acg.clients, (∃ st ∈ a.statements, st.ddl = true) → a.iter = 1 := by
  obtain ⟨e, j, eg, cgs, acg, h1, h2, h3, h4, -, -, h5⟩ := C116_client_groups hd h rest hr hg
  refine ⟨e, j, eg, cgs, acg, h1, h2, h3, h4, fun a ha ⟨st, hst, hddl⟩ => ?_⟩
  obtain ⟨-, e2, e3, -, -⟩ := h5 a ha
  rw [e3]
  refine if_pos ⟨hi, ?_⟩
  rw [e2] at hst
  obtain ⟨n, hn, hst⟩ := List.mem_flatMap.1 hst
  refine ⟨n, hn, ?_⟩
  obtain ⟨-, hl, -⟩ := prepare_parts hr
  unfold Prepared.stmtsOf at hst
  cases hss : r.set.statements (String.ofList n) with
  | none => rw [hss] at hst; simp at hst
  | some ss =>
    rw [hss] at hst
    obtain ⟨b, b1, b2⟩ := loadTrx_lift
      (Q := fun ss b => (∃ s ∈ ss, s.ddl = true) → b = true) (M := fun _ => True)
      (fun _ _ _ _ _ _ _ _ => trivial) (fun _ hc => (chunks_ddl_set hc).2)
      (by intro n ss h; cases h) hl _ ss hss
    rw [b1, b2 ⟨st, hst, hddl⟩]

/-- **C116 (no workload).** If an accepted stage has no workload, every execution group has one client, and one
execution group after the other executes all trx once each, in the order of the stage. -/
theorem C116_no_workload {env : ValEnv} {c c' : StageConf} (hd : c.disable = false)
    (h : c.validate env = some c') (rest : StageRest) {s : DataScope} {keys : GoMap String TKey} {r : Prepared}
    (hr : prepare (c'.prepEnv rest) s keys = .ok r) (hg : c.workload = []) :
    (r.execGroups.flatMap fun cgs => cgs.flatMap fun acg => acg.clients.flatMap fun a => a.statements) =
      (c.trx.map trxName).flatMap r.stmtsOf ∧
    ∀ cgs ∈ r.execGroups, ∃ acg a, cgs = [acg] ∧ acg.clients = [a] ∧ acg.runtime = "" ∧
      ((∃ st ∈ a.statements, st.ddl = true) → a.iter = 1) := by
  obtain ⟨p1, p2, p3⟩ := prepEnv_names hd h rest
  obtain ⟨-, w2, -⟩ := C61_result env c c' hd h
  obtain ⟨hf, h1, h2, h3, -, -⟩ := prepare_parts hr
  have hord := C75_order _ _ _ h1
  simp only [List.nil_append] at hord
  obtain ⟨k1, k2⟩ := loadTrx_keys_exist _ _ (c'.prepEnv rest).files (by intro n ss h; simp [GoMap.empty] at h) (by simp) h1
  have htrx := allocGroups_trx h2 (by rw [hord]; simpa using hf) (by rw [hord]; exact p3)
  have hne : NoEmptyTrx ⟨r.set.statements, (c'.prepEnv rest).stage, (c'.prepEnv rest).withStats,
      (c'.prepEnv rest).dbFails⟩ r.workload := by
    intro cg hcg n hn
    have hx := k1 n ((htrx cg hcg).2 n hn)
    cases hss : r.set.statements n with
    | none => exact absurd hss hx
    | some ss =>
      show (r.set.statements n).getD [] ≠ []
      rw [hss]
      exact (k2 n ss hss).1
  have hw0 : (c'.prepEnv rest).workload = [] := by simp [StageConf.prepEnv, w2, hg]
  obtain ⟨w1, gs1, q1, q2, q3, -, q5⟩ := C41_auto_assign r.set.ddl r.set.order
  rw [hw0, q1] at h2
  simp only [Out.ok.injEq, Prod.mk.injEq] at h2
  obtain ⟨rfl, rfl⟩ := h2
  obtain ⟨hlen, hcc⟩ := C42_client_counts hne h3
  -- one group
  have key : ∀ (e : Nat) (cg : CGCfg), r.workload[e]? = some cg → ∃ acg a, r.execGroups[e]? = some [acg] ∧
      acg.clients = [a] ∧ acg.runtime = "" ∧ a.statements = cg.trx.flatMap (fun n => (r.set.statements n).getD []) ∧
      a.iter = finchUint cg.iter := by
    intro e cg he
    have hge : r.groups[e]? = some [e] := by
      rw [q5, List.getElem?_map, List.getElem?_range (List.getElem?_eq_some_iff.1 he).1]; rfl
    have hat : CfgAt r.workload r.groups e 0 cg := ⟨[e], e, hge, rfl, he⟩
    obtain ⟨cgs, c1, c2, c3⟩ := hcc e _ hge
    obtain ⟨acg, c4, c5, c6, -⟩ := c3 0 cg hat
    obtain ⟨x1, x2, x3, x4, -⟩ := q3 cg (List.mem_of_getElem? he)
    have hcgs : cgs = [acg] := by
      match cgs, c2, c4 with
      | [x], _, c4 => simpa using c4
    have hcl : acg.clients.length = 1 := by rw [c5, x1]; rfl
    obtain ⟨a, ha⟩ := List.length_eq_one_iff.1 hcl
    have hca : ClientAt r.execGroups e 0 0 a := ⟨cgs, acg, c1, c4, by rw [ha]; rfl⟩
    obtain ⟨cg', hat', -, -, d2, -⟩ := C42_statements_in_order hne h3 hca
    have : cg' = cg := by
      obtain ⟨_, _, a1, a2, a3⟩ := hat'
      rw [hge] at a1; cases a1
      cases a2
      rw [he] at a3; cases a3
      rfl
    subst this
    obtain ⟨l1, -⟩ := C43_limits_partial hne h3 hca hat (by rw [x2]; decide) (by rw [x3]; decide)
    exact ⟨acg, a, by rw [c1, hcgs], ha, by rw [c6, x4], d2, l1⟩
  have hl2 : r.execGroups.length = r.workload.length := by rw [hlen, q5]; simp
  constructor
  · have hmap : (r.execGroups.map fun cgs => cgs.flatMap fun acg => acg.clients.flatMap fun a => a.statements) =
        r.workload.map fun cg => cg.trx.flatMap (fun n => (r.set.statements n).getD []) := by
      apply List.ext_getElem?
      intro e
      rw [List.getElem?_map, List.getElem?_map]
      cases he : r.workload[e]? with
      | none =>
        rw [List.getElem?_eq_none_iff] at he
        rw [List.getElem?_eq_none_iff.2 (by omega)]
        rfl
      | some cg =>
        obtain ⟨acg, a, b1, b2, -, b3, -⟩ := key e cg he
        rw [b1]
        simp [b2, b3]
    rw [List.flatMap_def, hmap, ← List.flatMap_def, ← List.flatMap_assoc, q2, hord, p2, List.flatMap_map,
      List.flatMap_map]
    rfl
  · intro cgs hcgs
    obtain ⟨e, he⟩ := List.mem_iff_getElem?.1 hcgs
    have hlt : e < r.workload.length := by
      rw [← hl2]; exact (List.getElem?_eq_some_iff.1 he).1
    obtain ⟨acg, a, b1, b2, b3, b4, b5⟩ := key e _ (List.getElem?_eq_getElem hlt)
    rw [he] at b1
    cases b1
    refine ⟨acg, a, rfl, b2, b3, ?_⟩
    rintro ⟨st, hst, hddl⟩
    rw [b4] at hst
    obtain ⟨n, hn, hst⟩ := List.mem_flatMap.1 hst
    have hdn : r.set.ddl n = some true := by
      cases hss : r.set.statements n with
      | none => rw [hss] at hst; simp at hst
      | some ss =>
        rw [hss] at hst
        obtain ⟨b, b1, b2⟩ := loadTrx_lift
          (Q := fun ss b => (∃ s ∈ ss, s.ddl = true) → b = true) (M := fun _ => True)
          (fun _ _ _ _ _ _ _ _ => trivial) (fun _ hc => (chunks_ddl_set hc).2)
          (by intro n ss h; cases h) h1 _ ss hss
        rw [b1, b2 ⟨st, hst, hddl⟩]
    rw [b5]
    obtain ⟨-, -, -, -, -, x5⟩ := q3 _ (List.getElem_mem hlt)
    rcases x5 with ⟨t, -, -, x6⟩ | ⟨x6, -⟩
    · rw [x6]; rfl
    · exact absurd hdn (x6 n hn)

/-- **C116 (benchmark).** The stages of a benchmark that were accepted, numbered and prepared are a benchmark as
C114 and C115 want it: these hold of all clients of accepted stages. -/
theorem C116_benchmark {cs : List (StageConf × StageRest)} {rs : List Prepared}
    (hv : ∀ x ∈ cs, ∃ env c, c.disable = false ∧ StageConf.validate env c = some x.1)
    (hn : ∀ x ∈ cs, 0 < x.2.n) (hinc : (cs.map (·.2.n)).Pairwise (· < ·))
    (hr : StagesSt.new.all (cs.map fun x => x.1.prepEnv x.2) = .ok rs) :
    Benchmark (cs.map fun x => x.1.prepEnv x.2) rs := by
  refine ⟨hr, ?_, by rw [List.map_map]; exact hinc, ?_⟩
  · intro p hp
    obtain ⟨x, hx, rfl⟩ := List.mem_map.1 hp
    exact hn x hx
  · intro p hp
    obtain ⟨x, hx, rfl⟩ := List.mem_map.1 hp
    obtain ⟨env, c, h1, h2⟩ := hv x hx
    exact (prepEnv_names h1 h2 x.2).2.2

/-! ### Examples -/

/-- Files of the examples: `read.sql` and `dir/write.sql`, and two files `x.sql` in different directories. -/
def exRest : StageRest :=
  { n := 1, withStats := true
    content := fun f =>
      if f = "read.sql".toList then some ["SELECT c FROM t WHERE id=@id".toList]
      else if f = "dir/write.sql".toList then some ["UPDATE t SET c=1 WHERE id=@id".toList]
      else if f = "a/x.sql".toList then some ["SELECT 1".toList]
      else if f = "b/x.sql".toList then some ["SELECT 2".toList]
      else none
    makeOk := true, pingOk := true, dbFails := fun _ _ => false, sys := fun _ => none, lookupEnv := fun _ => none
    human := demoEnv.bytes, duration := demoEnv.duration, make := demoEnv.make, rowOrder := demoEnv.rowOrder
    repOrder := demoEnv.repOrder }

/-- What a prepared stage executes: the statements of the clients of the client groups of the execution groups. -/
def execsOf : Out Prepared → List (List (List (List Text)))
  | .ok r => r.execGroups.map fun cgs => cgs.map fun g => g.clients.map fun a =>
      a.statements.map fun st => st.query
  | _ => []

/-- The hypotheses are met: a stage with two trx and three client groups is accepted and prepared. -/
example : ∃ c' r, exStageConf.validate exValEnv = some c' ∧
    prepare (c'.prepEnv exRest) DataScope.new GoMap.empty = .ok r ∧
    (exStageConf.trx.map trxName).Nodup := by
  have h : (match exStageConf.validate exValEnv with
    | none => false
    | some c' => match prepare (c'.prepEnv exRest) DataScope.new GoMap.empty with
      | .ok _ => true
      | _ => false) = true := by decide +kernel
  revert h
  cases h1 : exStageConf.validate exValEnv with
  | none => simp
  | some c' =>
    dsimp only
    cases h2 : prepare (c'.prepEnv exRest) DataScope.new GoMap.empty with
    | ok r => intro _; exact ⟨c', r, rfl, h2, by decide +kernel⟩
    | err => simp
    | panic => simp

/-- Two trx files with the same name in different directories. -/
def exSameName : StageConf := { trx := [{ file := "a/x.sql".toList }, { file := "b/x.sql".toList }] }

def exSameEnv : ValEnv := ⟨fun f => f == "a/x.sql".toList || f == "b/x.sql".toList, fun _ => none⟩

/-- C116 is false for trx of the same name, which are accepted: the second file is executed twice, the first one
never. -/
theorem C116_same_name_false : ∃ c', exSameName.validate exSameEnv = some c' ∧
    execsOf (prepare (c'.prepEnv exRest) DataScope.new GoMap.empty) =
      [[[["SELECT 2".toList, "SELECT 2".toList]]]] := by
  have h : (match exSameName.validate exSameEnv with
    | none => false
    | some c' => decide (execsOf (prepare (c'.prepEnv exRest) DataScope.new GoMap.empty) =
      [[[["SELECT 2".toList, "SELECT 2".toList]]]])) = true := by decide +kernel
  revert h
  cases h1 : exSameName.validate exSameEnv with
  | none => simp
  | some c' => intro h; exact ⟨c', rfl, of_decide_eq_true h⟩

end Finch
