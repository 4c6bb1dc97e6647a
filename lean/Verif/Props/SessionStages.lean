import Verif.Model.Stages
import Verif.Props.SessionSent
/-!
C114 and C115 for the clients of every stage of a benchmark.
-/
namespace Finch

variable {G : Type}

/-! ### Histories of the data scope over stages -/

/-- Operations that only load keys. -/
def OnlyLoads (l : List ScopeOp) : Prop := ∀ o ∈ l, ∃ k key, o = ScopeOp.load k key

theorem ordered_only_loads {cur : Nat} {l : List ScopeOp} (hl : OnlyLoads l) (ops : List ScopeOp) :
    ∀ {last}, AllocOrdered cur last (l ++ ops) ↔ AllocOrdered cur last ops := by
  induction l with
  | nil => intro last; simp
  | cons o l ih =>
    intro last
    obtain ⟨k, key, rfl⟩ := hl o List.mem_cons_self
    exact ih (fun o ho => hl o (List.mem_cons_of_mem _ ho))

/-- After a history a stage with a higher number can begin. -/
theorem ordered_next {n : Nat} {l ops : List ScopeOp} (hl : OnlyLoads l) : ∀ {cur : Nat} {last : RunLevel},
    AllocOrdered cur last ops → cur < n → last.stage < n → (∀ m, ScopeOp.reset m ∈ ops → m < n) →
    AllocOrdered cur last (ops ++ .reset n :: l ++ [.copy "" ⟨n, 0, 0, 0, 0, 0⟩]) := by
  induction ops with
  | nil =>
    intro cur last _ h1 h2 _
    refine ⟨h1, (ordered_only_loads hl _).2 ⟨rfl, ?_, trivial⟩⟩
    simp [AllocLe]; omega
  | cons op ops ih =>
    intro cur last h h1 h2 h3
    have h3' : ∀ m, ScopeOp.reset m ∈ ops → m < n := fun m hm => h3 m (List.mem_cons_of_mem _ hm)
    cases op with
    | reset m => exact ⟨h.1, ih h.2 (h3 m List.mem_cons_self) h2 h3'⟩
    | load k key => exact ih h h1 h2 h3'
    | copy k rl => exact ⟨h.1, h.2.1, ih h.2.2 h1 (by rw [h.1]; exact h1) h3'⟩

/-- One stage, after the operations `pre0`. -/
theorem prepared_after {p : PrepEnv} {r : Prepared} {s : DataScope} {keys : GoMap String TKey} {pre0 : List ScopeOp}
    {obs : List CopyObs} {stage1 : Nat} (h : prepare p s keys = .ok r) (hst : 0 < stage1)
    (hw : ∀ cg ∈ p.workload, ∀ n ∈ cg.trx, n ∈ p.files.map (·.env.trx))
    (hrun : DataScope.new.run pre0 = .ok (s, obs)) (hfin : FinKeys keys)
    (hbeg : ∀ l, OnlyLoads l → StageBegins stage1 (pre0 ++ l) p.stage) :
    ∃ l, (∀ o ∈ l, ∃ k tk, r.set.keys k = some tk ∧ o = ScopeOp.load k tk.key) ∧
      Staged (pre0 ++ l) ⟨r.set.statements, p.stage, p.withStats, p.dbFails⟩ r.workload r.groups r.st r.execGroups ∧
      (∃ obs', DataScope.new.run (pre0 ++ l ++ r.st.sl.log.map fun o => ScopeOp.copy o.key o.rl) =
        .ok (r.st.sl.scope, obs')) ∧
      AllocOrdered stage1 RunLevel.zero (pre0 ++ l ++ r.st.sl.log.map fun o => ScopeOp.copy o.key o.rl) ∧
      FinKeys r.set.keys := by
  obtain ⟨hf, h1, h2, h3, -, -⟩ := prepare_parts h
  have hord := C75_order _ _ _ h1
  simp only [List.nil_append] at hord
  obtain ⟨k1, k2⟩ := loadTrx_keys_exist _ _ p.files (by intro n ss h; simp [GoMap.empty] at h) (by simp) h1
  have htrx := allocGroups_trx h2 (by rw [hord]; simpa using hf) (by rw [hord]; exact hw)
  obtain ⟨hfin', -⟩ := loadTrx_known hfin (by intro n ss h; simp [GoMap.empty] at h) h1
  obtain ⟨l, hl⟩ := hfin'
  have hloads := run_loads r.set.keys l s
  have hscope : prepScope s r.set.keys = { s with
      keys := fun n => (match s.keys n with
        | some k => some k
        | none => if n ∈ l then (r.set.keys n).map TKey.key else none : Option Key) } := by
    unfold prepScope
    congr 1
    funext n
    cases s.keys n with
    | some k => rfl
    | none =>
      dsimp only
      by_cases hn : n ∈ l
      · rw [if_pos hn]
      · rw [if_neg hn]
        cases hx : r.set.keys n with
        | none => rfl
        | some v => exact absurd (hl n (by rw [hx]; simp)) hn
  replace hloads : s.run (l.filterMap fun k => (r.set.keys k).map fun tk => ScopeOp.load k tk.key) =
      .ok (prepScope s r.set.keys, []) := by
    rw [hscope]; exact hloads
  have hkind : ∀ o ∈ (l.filterMap fun k => (r.set.keys k).map fun tk => ScopeOp.load k tk.key),
      ∃ k tk, r.set.keys k = some tk ∧ o = ScopeOp.load k tk.key := by
    intro o ho
    obtain ⟨k, -, hk⟩ := List.mem_filterMap.1 ho
    obtain ⟨tk, h4, rfl⟩ := Option.map_eq_some_iff.1 hk
    exact ⟨k, tk, h4, rfl⟩
  have hall := scopeRun_append hrun hloads
  have hb := hbeg (l.filterMap fun k => (r.set.keys k).map fun tk => ScopeOp.load k tk.key) (by
    intro o ho
    obtain ⟨k, tk, -, rfl⟩ := hkind o ho
    exact ⟨_, _, rfl⟩)
  have hne : NoEmptyTrx ⟨r.set.statements, p.stage, p.withStats, p.dbFails⟩ r.workload := by
    intro cg hcg n hn
    have hx := k1 n ((htrx cg hcg).2 n hn)
    cases hss : r.set.statements n with
    | none => exact absurd hss hx
    | some ss =>
      show (r.set.statements n).getD [] ≠ []
      rw [hss]
      exact (k2 n ss hss).1
  obtain ⟨g1, g2⟩ := alloc_history hne h3 hall hb
  exact ⟨_, hkind, ⟨hne, stage1, _, _, _, _, hst, hall, hb, h3⟩, ⟨_, g1⟩, g2, l, hl⟩

/-- Spec: in these stages data key `k` has no scope but `sc`. -/
def OneScope (k : String) (sc : Scope) (rs : List Prepared) : Prop :=
  ∀ r ∈ rs, ∀ tk, r.set.keys k = some tk → docScope tk.key = sc

/-- Later stages. -/
theorem stages_later {ps : List PrepEnv} : ∀ {b : StagesSt} {rs : List Prepared} {ops : List ScopeOp} {stage1 n : Nat},
    b.all ps = .ok rs → 0 < stage1 → stage1 ≤ n → (∃ obs, DataScope.new.run ops = .ok (b.scope, obs)) →
    AllocOrdered stage1 RunLevel.zero ops → (∀ m, ScopeOp.reset m ∈ ops → m ≤ n) → FinKeys b.keys →
    (∀ p ∈ ps, n < p.stage) → (ps.map (·.stage)).Pairwise (· < ·) →
    (∀ p ∈ ps, ∀ cg ∈ p.workload, ∀ t ∈ cg.trx, t ∈ p.files.map (·.env.trx)) →
    ∀ {m : Nat} {p : PrepEnv} {r : Prepared}, ps[m]? = some p → rs[m]? = some r →
    ∃ pre, Staged pre ⟨r.set.statements, p.stage, p.withStats, p.dbFails⟩ r.workload r.groups r.st r.execGroups ∧
      (∀ k sc, LoadsWith k sc ops → OneScope k sc (rs.take (m + 1)) → LoadsWith k sc pre) ∧
      ∃ s keys, FinKeys keys ∧ prepare p s keys = .ok r := by
  induction ps with
  | nil => intro b rs ops stage1 n h _ _ _ _ _ _ _ _ _ m p r hp _; simp at hp
  | cons p0 ps ih =>
    intro b rs ops stage1 n h h1 h2 h3 h4 h5 h6 h7 h8 h9 m p r hp hr
    rw [StagesSt.all] at h
    obtain ⟨⟨b', r0⟩, hb, h⟩ := Out.bind_ok h
    obtain ⟨rs', hrs, h⟩ := Out.bind_ok h
    cases h
    rw [StagesSt.prepare] at hb
    obtain ⟨r0', hprep, hb⟩ := Out.bind_ok hb
    cases hb
    obtain ⟨obs, h3⟩ := h3
    have hn := h7 p0 List.mem_cons_self
    have hreset : DataScope.new.run (ops ++ [.reset p0.stage]) = .ok (b.scope.reset, obs ++ []) :=
      scopeRun_append h3 rfl
    have hfin : FinKeys (fun n => if (b.scope.reset.keys n).isSome then b.keys n else none) := by
        obtain ⟨l, hl⟩ := h6
        refine ⟨l, fun k hk => hl k ?_⟩
        intro hx
        dsimp only at hk
        rw [hx, ite_self] at hk
        exact hk rfl
    obtain ⟨l, e1, e2, e3, e4, e5⟩ := prepared_after hprep h1 (h9 p0 List.mem_cons_self) hreset hfin (by
        intro l hl
        have := ordered_next (n := p0.stage) (l := l) hl h4 (by omega) (by simp [RunLevel.zero]; omega)
          (fun m hm => by have := h5 m hm; omega)
        simpa [StageBegins] using this)
    have hcopy : ∀ m, ScopeOp.reset m ∉ (r0.st.sl.log.map fun o => ScopeOp.copy o.key o.rl) := by
      intro m hm
      obtain ⟨o, -, ho⟩ := List.mem_map.1 hm
      cases ho
    have hl1 : ∀ m, ScopeOp.reset m ∉ l := by
      intro m hm
      obtain ⟨_, _, -, ho⟩ := e1 _ hm
      cases ho
    have hload0 : ∀ k sc, LoadsWith k sc ops → OneScope k sc [r0] → LoadsWith k sc (ops ++ [.reset p0.stage] ++ l) := by
      intro k sc ho h1 key hm
      rcases List.mem_append.1 hm with hm | hm
      · rcases List.mem_append.1 hm with hm | hm
        · exact ho key hm
        · simp at hm
      · obtain ⟨k', tk, t1, t2⟩ := e1 _ hm
        cases t2
        exact h1 r0 (by simp) tk t1
    cases m with
    | zero =>
      cases hp; cases hr
      exact ⟨_, e2, fun k sc ho h1 => hload0 k sc ho (by simpa using h1), _, _, hfin, hprep⟩
    | succ m =>
      rw [List.getElem?_cons_succ] at hp hr
      rw [List.map_cons, List.pairwise_cons] at h8
      obtain ⟨pre, f1, f2, f3⟩ := ih (n := p0.stage) hrs h1 (by omega) e3 e4 (by
          intro m hm
          rcases List.mem_append.1 hm with hm | hm
          · rcases List.mem_append.1 hm with hm | hm
            · rcases List.mem_append.1 hm with hm | hm
              · have := h5 m hm; omega
              · simp at hm; omega
            · exact absurd hm (hl1 m)
          · exact absurd hm (hcopy m)) e5
        (fun q hq => h8.1 q.stage (List.mem_map.2 ⟨q, hq, rfl⟩)) h8.2
        (fun q hq => h9 q (List.mem_cons_of_mem _ hq)) hp hr
      refine ⟨pre, f1, fun k sc ho h1 => f2 k sc ?_ ?_, f3⟩
      · intro key hm
        rcases List.mem_append.1 hm with hm | hm
        · exact hload0 k sc ho (fun r hr => h1 r (by simp at hr ⊢; exact Or.inl hr)) key hm
        · obtain ⟨o, -, ho⟩ := List.mem_map.1 hm
          cases ho
      · intro r hr
        exact h1 r (by rw [List.take_succ_cons]; exact List.mem_cons_of_mem _ hr)

theorem reset_new : DataScope.new.reset = DataScope.new := by
  unfold DataScope.reset DataScope.new
  congr 1

/-- Spec: the stages of a benchmark were prepared, one after the other. Stages are numbered upwards, and
workloads name only trx that are loaded (config.Validate checks this). -/
def Benchmark (ps : List PrepEnv) (rs : List Prepared) : Prop :=
  StagesSt.new.all ps = .ok rs ∧ (∀ p ∈ ps, 0 < p.stage) ∧ (ps.map (·.stage)).Pairwise (· < ·) ∧
    ∀ p ∈ ps, ∀ cg ∈ p.workload, ∀ n ∈ cg.trx, n ∈ p.files.map (·.env.trx)

theorem benchmark_parts {ps : List PrepEnv} {rs : List Prepared} (h : Benchmark ps rs) {m : Nat} {p : PrepEnv}
    {r : Prepared} (hp : ps[m]? = some p) (hr : rs[m]? = some r) :
    ∃ pre, Staged pre ⟨r.set.statements, p.stage, p.withStats, p.dbFails⟩ r.workload r.groups r.st r.execGroups ∧
      (∀ k sc, OneScope k sc (rs.take (m + 1)) → LoadsWith k sc pre) ∧
      ∃ s keys, FinKeys keys ∧ prepare p s keys = .ok r := by
  obtain ⟨h, hst, hinc, hw⟩ := h
  cases ps with
  | nil => simp at hp
  | cons p0 ps =>
    rw [StagesSt.all] at h
    obtain ⟨⟨b', r0⟩, hb, h⟩ := Out.bind_ok h
    obtain ⟨rs', hrs, h⟩ := Out.bind_ok h
    cases h
    rw [StagesSt.prepare] at hb
    obtain ⟨r0', hprep, hb⟩ := Out.bind_ok hb
    cases hb
    dsimp only [StagesSt.new] at hprep
    have h0 := hst p0 List.mem_cons_self
    have hfin : FinKeys (fun n => if (DataScope.new.reset.keys n).isSome then (GoMap.empty : GoMap String TKey) n else none) :=
      ⟨[], fun k hk => absurd (ite_self _) hk⟩
    obtain ⟨l, e1, e2, e3, e4, e5⟩ := prepared_after (pre0 := []) hprep h0 (hw p0 List.mem_cons_self)
      (by rw [reset_new]; rfl) hfin (fun l hl => by simpa using ordered_loads l hl)
    rw [List.nil_append] at e2 e3 e4
    have hl1 : ∀ m, ScopeOp.reset m ∉ l := by
      intro m hm
      obtain ⟨_, _, -, ho⟩ := e1 _ hm
      cases ho
    have hload0 : ∀ k sc, OneScope k sc [r0] → LoadsWith k sc l := by
      intro k sc h1 key hm
      obtain ⟨k', tk, t1, t2⟩ := e1 _ hm
      cases t2
      exact h1 r0 (by simp) tk t1
    cases m with
    | zero => cases hp; cases hr; exact ⟨_, e2, fun k sc h1 => hload0 k sc (by simpa using h1), _, _, hfin, hprep⟩
    | succ m =>
      rw [List.getElem?_cons_succ] at hp hr
      rw [List.map_cons, List.pairwise_cons] at hinc
      obtain ⟨pre, f1, f2, f3⟩ := stages_later (n := p0.stage) hrs h0 le_rfl e3 e4 (by
          intro m hm
          rcases List.mem_append.1 hm with hm | hm
          · exact absurd hm (hl1 m)
          · obtain ⟨o, -, ho⟩ := List.mem_map.1 hm
            cases ho) e5
        (fun q hq => hinc.1 q.stage (List.mem_map.2 ⟨q, hq, rfl⟩)) hinc.2
        (fun q hq => hw q (List.mem_cons_of_mem _ hq)) hp hr
      refine ⟨pre, f1, fun k sc h1 => f2 k sc ?_ ?_, f3⟩
      · intro key hm
        rcases List.mem_append.1 hm with hm | hm
        · exact hload0 k sc (fun r hr => h1 r (by simp at hr ⊢; exact Or.inl hr)) key hm
        · obtain ⟨o, -, ho⟩ := List.mem_map.1 hm
          cases ho
      · intro r hr
        exact h1 r (by rw [List.take_succ_cons]; exact List.mem_cons_of_mem _ hr)

/-- **C114 for all stages.** The clients of every stage of a benchmark are allocated in a data scope with the
data keys of the trx files and their scopes. Hypothesis of what follows from it: the data key has the same
scope in all stages up to this one. -/
theorem C114_benchmark {ps : List PrepEnv} {rs : List Prepared} (h : Benchmark ps rs) {m : Nat} {p : PrepEnv}
    {r : Prepared} (hp : ps[m]? = some p) (hr : rs[m]? = some r) :
    ∃ pre, Staged pre ⟨r.set.statements, p.stage, p.withStats, p.dbFails⟩ r.workload r.groups r.st r.execGroups ∧
      ∀ k sc, OneScope k sc (rs.take (m + 1)) → LoadsWith k sc pre := by
  obtain ⟨pre, h1, h2, -⟩ := benchmark_parts h hp hr
  exact ⟨pre, h1, h2⟩

/-- **C114 for all stages (values).** As for the first stage, in every stage: a data key with a single-client
scope that is used twice in the same statement execution, trx execution, iteration or connection has the same
values. The key has this scope in all stages up to this one, is no saved column, and the client has no explicit
calls of it; for trx scope no trx begins with idle time. -/
theorem C114_benchmark_same_value_partial (o : FmtOther) (ops : GenOps G) (tbl : GoMap Nat Nat)
    (g : GenStart G) (xs : List SIn) {ps : List PrepEnv} {rs : List Prepared} (hb : Benchmark ps rs)
    {m : Nat} {p : PrepEnv} {r : Prepared} (hpm : ps[m]? = some p) (hrm : rs[m]? = some r)
    {k : String} {sc : Scope} (hsc : IsSingle sc) (hk : OneScope k sc (rs.take (m + 1))) (hg : IsGenerated r k)
    (hp : k ≠ "@PREV") (hn : k ≠ "_") (he : k ≠ "")
    (hidle : sc = .trx → ∀ t ss stmt, r.set.statements t = some ss → ss[0]? = some stmt → stmt.idle = 0)
    {n : ClientNo}
    (himp : ∀ d ∈ (cliAt tbl r.execGroups n).data, ∀ r ∈ d.inputs, r.key = k → r.explicit = false)
    {i i' : Nat} {cnt cnt' : RunCount} {vs vs' : List (InRef × Option (List GoVal))} {x x' : InRef}
    {v v' : Option (List GoVal)}
    (h1 : SEv.gen n i cnt vs ∈ (preparedSession o ops tbl r g xs).hist)
    (h2 : SEv.gen n i' cnt' vs' ∈ (preparedSession o ops tbl r g xs).hist)
    (hv : (x, v) ∈ vs) (hv' : (x', v') ∈ vs') (hx : x.key = k) (hx' : x'.key = k)
    (hsame : scopeCounter sc cnt = scopeCounter sc cnt') : v = v' ∧ v ≠ none := by
  obtain ⟨pre, hs, hl, s, keys, hfin, h⟩ := benchmark_parts hb hpm hrm
  exact C114_same_value_partial o ops tbl g xs hs (hl k sc hk) hp hn hsc
    (prepared_saved_nowhere h hfin hn he hg _ _ _) hidle himp h1 h2 hv hv' hx hx' hsame

/-- **C114 for all stages (what is sent).** As for the first stage, in every stage: every statement is sent with
its query and, at each place of the query, the value of the data key at this place, generated just before.
Hypotheses: the keys of the statement have a scope other than global in all stages up to this one, and every
key gives as many values as there are places for it. -/
theorem C114_benchmark_sent_partial (o : FmtOther) (ops : GenOps G) (tbl : GoMap Nat Nat)
    (g : GenStart G) (xs : List SIn) {ps : List PrepEnv} {rs : List Prepared} (hb : Benchmark ps rs)
    {m : Nat} {p : PrepEnv} {r : Prepared} (hpm : ps[m]? = some p) (hrm : rs[m]? = some r)
    (hprev : r.set.keys "@PREV" = none)
    {e j c : Nat} {a : AClient} (ha : ClientAt r.execGroups e j c a) {i pos conn : Nat} {stmt : Stmt}
    {what : Sent} (hstmt : a.statements[i]? = some stmt)
    (hglob : ∀ k ∈ stmt.inputs, k ≠ "@PREV" → ∃ sc, sc ≠ .global ∧ OneScope k sc (rs.take (m + 1)))
    (hsent : (preparedSession o ops tbl r g xs).hist[pos]? = some (.sent (e, j, c) i conn what))
    (hfit : ∀ q cnt vs, (preparedSession o ops tbl r g xs).hist[q]? = some (.gen (e, j, c) i cnt vs) → q < pos →
      (∀ q' e', q < q' → q' < pos → (preparedSession o ops tbl r g xs).hist[q']? = some e' →
        e'.client ≠ (e, j, c)) →
      vs.map (fun x => (x.2.getD []).length) = (prevAfter stmt.inputs).map (· + 1)) :
    ∃ q cnt vs args, q < pos ∧
      (preparedSession o ops tbl r g xs).hist[q]? = some (.gen (e, j, c) i cnt vs) ∧
      (∀ q' e', q < q' → q' < pos → (preparedSession o ops tbl r g xs).hist[q']? = some e' →
        e'.client ≠ (e, j, c)) ∧
      what = (if stmt.prepare then .prepared stmt.query args else .text (goSprintf o stmt.query args)) ∧
      args.length = stmt.inputs.length ∧
      ∀ x < stmt.inputs.length, ∃ r v y, vs[keyOf stmt.inputs x]? = some (r, v) ∧
        (v.getD [])[prevsTo stmt.inputs x]? = some y ∧ args[x]? = some y ∧
        ∀ k, stmt.inputs[x]? = some k → k ≠ "@PREV" → r.key = k ∧ prevsTo stmt.inputs x = 0 := by
  obtain ⟨pre, hs, hl, s, keys, hfin, h⟩ := benchmark_parts hb hpm hrm
  refine staged_sent o ops tbl g xs h hfin hs hprev ha hstmt (fun k hk tk htk => ?_) hsent hfit
  obtain ⟨sc, h1, h2⟩ := hglob k hk (by rintro rfl; rw [hprev] at htk; cases htk)
  exact ⟨sc, h1, hl k sc h2⟩

/-- **C115 for all stages (the value saved last).** -/
theorem C115_benchmark_last_saved_partial (o : FmtOther) (genv : GenEnv) (tbl : GoMap Nat Nat)
    (g : GenStart DGen) (xs : List SIn) {ps : List PrepEnv} {rs : List Prepared} (hb : Benchmark ps rs)
    {m : Nat} {p : PrepEnv} {r : Prepared} (hpm : ps[m]? = some p) (hrm : rs[m]? = some r)
    {k : String} {sc : Scope} (hsc : IsSingle sc) (hk : OneScope k sc (rs.take (m + 1)))
    (hp : k ≠ "@PREV") (hn : k ≠ "_") (he : k ≠ "")
    (hidle : sc = .trx → ∀ t ss stmt, r.set.statements t = some ss → ss[0]? = some stmt → stmt.idle = 0)
    (hcol : ∀ a, HoldsCol (g.new k a) .nil)
    {n : ClientNo} {cg : CGCfg} (hcg : CfgAt r.workload r.groups n.1 n.2.1 cg)
    {q i : Nat} {cnt : RunCount} {vs : List (InRef × Option (List GoVal))} {x : InRef} {v : Option (List GoVal)}
    (h1 : (preparedSession o (dgenOps genv) tbl r g xs).hist[q]? = some (.gen n i cnt vs)) (hv : (x, v) ∈ vs)
    (hx : x.key = k)
    (hfirst : x.explicit = true ∨ ∀ (q' i' : Nat) cnt' vs', q' < q →
      (preparedSession o (dgenOps genv) tbl r g xs).hist[q']? = some (.gen n i' cnt' vs') →
      (∃ y ∈ vs', y.1.key = k) → scopeCounter sc cnt' ≠ scopeCounter sc cnt) :
    v = some [lastSavedFor (cliAt tbl r.execGroups) ⟨r.set.statements, p.stage, p.withStats, p.dbFails⟩ cg sc n i k q
      (preparedSession o (dgenOps genv) tbl r g xs).saves] := by
  obtain ⟨pre, hs, hl, -⟩ := benchmark_parts hb hpm hrm
  exact C115_last_saved_partial o genv tbl g xs hs (hl k sc hk) hp hn he hsc hidle hcol hcg h1 hv hx hfirst

/-- **C115 for all stages (the same value).** -/
theorem C115_benchmark_same_value_partial (o : FmtOther) (genv : GenEnv) (tbl : GoMap Nat Nat)
    (g : GenStart DGen) (xs : List SIn) {ps : List PrepEnv} {rs : List Prepared} (hb : Benchmark ps rs)
    {m : Nat} {p : PrepEnv} {r : Prepared} (hpm : ps[m]? = some p) (hrm : rs[m]? = some r)
    {k : String} {sc : Scope} (hsc : IsSingle sc) (hk : OneScope k sc (rs.take (m + 1)))
    (hp : k ≠ "@PREV") (hn : k ≠ "_")
    (hidle : sc = .trx → ∀ t ss stmt, r.set.statements t = some ss → ss[0]? = some stmt → stmt.idle = 0)
    (hcol : ∀ a, HoldsCol (g.new k a) .nil)
    {n : ClientNo} {cg : CGCfg} (hcg : CfgAt r.workload r.groups n.1 n.2.1 cg)
    (himp : ∀ d ∈ (cliAt tbl r.execGroups n).data, ∀ r ∈ d.inputs, r.key = k → r.explicit = false)
    {i i' : Nat} {cnt cnt' : RunCount} {vs vs' : List (InRef × Option (List GoVal))} {x x' : InRef}
    {v v' : Option (List GoVal)}
    (h1 : SEv.gen n i cnt vs ∈ (preparedSession o (dgenOps genv) tbl r g xs).hist)
    (h2 : SEv.gen n i' cnt' vs' ∈ (preparedSession o (dgenOps genv) tbl r g xs).hist)
    (hv : (x, v) ∈ vs) (hv' : (x', v') ∈ vs') (hx : x.key = k) (hx' : x'.key = k)
    (hin : sameScope sc ⟨r.set.statements, p.stage, p.withStats, p.dbFails⟩ cg i i' = true)
    (hsame : scopeCounter sc cnt = scopeCounter sc cnt') : v = v' := by
  obtain ⟨pre, hs, hl, -⟩ := benchmark_parts hb hpm hrm
  exact C115_same_value_partial o genv tbl g xs hs (hl k sc hk) hp hn hsc hidle hcol hcg himp h1 h2 hv hv' hx hx'
    hin hsame

/-- **C115 for all stages (own values).** -/
theorem C115_benchmark_own_values_partial (o : FmtOther) (genv : GenEnv) (tbl : GoMap Nat Nat)
    (g : GenStart DGen) (xs : List SIn) {ps : List PrepEnv} {rs : List Prepared} (hb : Benchmark ps rs)
    {m : Nat} {p : PrepEnv} {r : Prepared} (hpm : ps[m]? = some p) (hrm : rs[m]? = some r)
    {k : String} {sc : Scope} (hsc : IsSingle sc) (hk : OneScope k sc (rs.take (m + 1)))
    (hp : k ≠ "@PREV") (hn : k ≠ "_") (he : k ≠ "")
    (hidle : sc = .trx → ∀ t ss stmt, r.set.statements t = some ss → ss[0]? = some stmt → stmt.idle = 0)
    (hcol : ∀ a, HoldsCol (g.new k a) .nil)
    {n : ClientNo} {cg : CGCfg} (hcg : CfgAt r.workload r.groups n.1 n.2.1 cg)
    {q i : Nat} {cnt : RunCount} {vs : List (InRef × Option (List GoVal))} {x : InRef} {v : Option (List GoVal)}
    (h1 : (preparedSession o (dgenOps genv) tbl r g xs).hist[q]? = some (.gen n i cnt vs)) (hv : (x, v) ∈ vs)
    (hx : x.key = k) :
    ∃ y, v = some [y] ∧ (y = .nil ∨ ∃ s ∈ (preparedSession o (dgenOps genv) tbl r g xs).saves,
      s.n = n ∧ savedKey (cliAt tbl r.execGroups) s = some k ∧
      sameScope sc ⟨r.set.statements, p.stage, p.withStats, p.dbFails⟩ cg s.i i = true ∧ s.time ≤ q ∧ s.val = y) := by
  obtain ⟨pre, hs, hl, -⟩ := benchmark_parts hb hpm hrm
  exact C115_own_values_partial o genv tbl g xs hs (hl k sc hk) hp hn he hsc hidle hcol hcg h1 hv hx

/-- A second stage like the first, or with this scope of its column. -/
def secondStage (scope : String) (lines : List String) : PrepEnv :=
  { prepDemo (prepFile scope lines) with stage := 2 }

/-- The hypotheses are met: two stages with the same trx file. The client of the second stage sends its
statements; its generators are other ones than those of the first stage. -/
example : ∃ r1 r2, Benchmark [prepDemo (prepFile "" sesLines), secondStage "" sesLines] [r1, r2] ∧
    OneScope "@d" .statement [r1, r2] ∧ IsGenerated r2 "@d" ∧ r2.set.keys "@PREV" = none ∧
    SEv.sent (0, 0, 0) 1 0 (.prepared "UPDATE t SET a=? WHERE b BETWEEN ? AND ?".toList
        [.num "int".toList 3000, .num "int".toList 3000, .num "int".toList 3000]) ∈
      (preparedSession ⟨fun _ _ => [], fun _ _ => []⟩
        (⟨fun g _ => (g + 1, [.num "int".toList g]), fun _ _ g => g⟩ : GenOps Nat) GoMap.empty r2 ⟨fun _ a => 1000 * a, fun _ => none⟩
        (List.replicate 14 (sesStep (0, 0, 0)))).hist := by
  have h : (match StagesSt.new.all [prepDemo (prepFile "" sesLines), secondStage "" sesLines] with
    | .ok [r1, r2] => decide ((r1.set.keys "@d").map (fun tk => docScope tk.key) = some .statement) &&
        decide ((r2.set.keys "@d").map (fun tk => (docScope tk.key, tk.column)) = some (.statement, -1)) &&
        (r2.set.keys "@PREV").isNone &&
        decide (SEv.sent (0, 0, 0) 1 0 (.prepared "UPDATE t SET a=? WHERE b BETWEEN ? AND ?".toList
        [.num "int".toList 3000, .num "int".toList 3000, .num "int".toList 3000]) ∈
          (preparedSession ⟨fun _ _ => [], fun _ _ => []⟩
          (⟨fun g _ => (g + 1, [.num "int".toList g]), fun _ _ g => g⟩ : GenOps Nat) GoMap.empty r2 ⟨fun _ a => 1000 * a, fun _ => none⟩
          (List.replicate 14 (sesStep (0, 0, 0)))).hist)
    | _ => false) = true := by decide +kernel
  split at h
  · rename_i r1 r2 hr
    simp only [Bool.and_eq_true, decide_eq_true_eq, Option.isNone_iff_eq_none] at h
    obtain ⟨⟨⟨h0, h1⟩, h2⟩, h3⟩ := h
    obtain ⟨tk0, g0, g1⟩ := Option.map_eq_some_iff.1 h0
    obtain ⟨tk, h4, h5⟩ := Option.map_eq_some_iff.1 h1
    simp only [Prod.mk.injEq] at h5
    refine ⟨r1, r2, ⟨hr, by simp [prepDemo, secondStage], by simp [prepDemo, secondStage], ?_⟩, ?_, ⟨tk, h4, by omega⟩, h2, h3⟩
    · simp [prepDemo, secondStage]
    · intro r hr tk' htk
      simp only [List.mem_cons, List.not_mem_nil, or_false] at hr
      rcases hr with rfl | rfl
      · rw [g0] at htk; cases htk; exact g1
      · rw [h4] at htk; cases htk; exact h5.1
  · cases h

end Finch
