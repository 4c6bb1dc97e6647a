import Verif.Props.Session
import Verif.Props.TrxKnown
import Verif.Props.Prepare
/-!
C114 for prepared stages: from trx files and workload to what MySQL gets.
-/
namespace Finch

variable {G : Type}

/-- Running only `load`s. -/
theorem run_loads (keys : GoMap String TKey) (l : List String) : ∀ s : DataScope,
    s.run (l.filterMap fun k => (keys k).map fun tk => ScopeOp.load k tk.key) =
      .ok ({ s with keys := fun n => match s.keys n with
        | some k => some k
        | none => if n ∈ l then (keys n).map TKey.key else none }, []) := by
  induction l with
  | nil =>
    intro s
    simp only [List.filterMap_nil, DataScope.run, List.not_mem_nil, if_false]
    congr 2
    cases s
    simp only [DataScope.mk.injEq, and_true]
    funext n
    split <;> simp_all
  | cons k l ih =>
    intro s
    cases hk : keys k with
    | none =>
      rw [List.filterMap_cons_none (by simp [hk]), ih]
      congr 3
      funext n
      split
      · rfl
      · by_cases hn : n = k
        · subst hn; simp [hk]
        · simp [hn]
    | some tk =>
      rw [List.filterMap_cons_some (b := ScopeOp.load k tk.key) (by simp [hk])]
      simp only [DataScope.run]
      rw [ih]
      unfold DataScope.load
      cases hs : s.keys k with
      | some v =>
        dsimp only
        congr 3
        funext n
        split
        · rfl
        · rename_i h0
          by_cases hn : n = k
          · subst hn; rw [hs] at h0; cases h0
          · simp [hn]
      | none =>
        dsimp only
        congr 3
        funext n
        by_cases hn : n = k
        · subst hn
          rw [GoMap.set_same, hs]
          simp [hk]
        · rw [GoMap.set_other _ _ hn]
          simp [hn]

theorem ordered_loads {stage : Nat} (l : List ScopeOp) (h : ∀ o ∈ l, ∃ k key, o = .load k key) :
    StageBegins stage l stage := by
  unfold StageBegins
  induction l with
  | nil => simp [AllocOrdered, AllocLe, RunLevel.zero]; omega
  | cons o l ih =>
    obtain ⟨k, key, rfl⟩ := h o List.mem_cons_self
    exact ih fun o ho => h o (List.mem_cons_of_mem _ ho)

/-- **C114.** The clients of a prepared first stage are allocated in a data scope with the data keys of the trx
files and their scopes, so all of C114 holds of them. -/
theorem C114_prepared {p : PrepEnv} {r : Prepared} (h : prepare p DataScope.new GoMap.empty = .ok r)
    (hst : 0 < p.stage) (hw : ∀ cg ∈ p.workload, ∀ n ∈ cg.trx, n ∈ p.files.map (·.env.trx)) :
    ∃ pre, Staged pre ⟨r.set.statements, p.stage, p.withStats, p.dbFails⟩ r.workload r.groups r.st r.execGroups ∧
      ∀ k tk, r.set.keys k = some tk → LoadsWith k (docScope tk.key) pre := by
  obtain ⟨hf, h1, h2, h3, -, -⟩ := prepare_parts h
  have hord := C75_order _ _ _ h1
  simp only [List.nil_append] at hord
  obtain ⟨k1, k2⟩ := C73_loaded_keys_exist _ p.files h1
  have htrx := allocGroups_trx h2 (by rw [hord]; simpa using hf) (by rw [hord]; exact hw)
  obtain ⟨⟨l, hl⟩, -⟩ := loadTrx_known ⟨[], by simp [GoMap.empty]⟩ (by intro n ss h; simp [GoMap.empty] at h) h1
  have hrun := run_loads r.set.keys l DataScope.new
  have hscope : prepScope DataScope.new r.set.keys = { DataScope.new with
      keys := fun n => (match (DataScope.new).keys n with
        | some k => some k
        | none => if n ∈ l then (r.set.keys n).map TKey.key else none : Option Key) } := by
    unfold prepScope
    congr 1
    funext n
    simp only [DataScope.new, GoMap.empty]
    by_cases hn : n ∈ l
    · rw [if_pos hn]
    · rw [if_neg hn]
      cases hx : r.set.keys n with
      | none => rfl
      | some v => exact absurd (hl n (by rw [hx]; simp)) hn
  rw [← hscope] at hrun
  refine ⟨_, ⟨?_, p.stage, _, _, _, _, hst, hrun, ordered_loads _ ?_, h3⟩, ?_⟩
  · intro cg hcg n hn
    have hx := k1 n ((htrx cg hcg).2 n hn)
    cases hss : r.set.statements n with
    | none => exact absurd hss hx
    | some ss =>
      show (r.set.statements n).getD [] ≠ []
      rw [hss]
      exact (k2 n ss hss).1
  · intro o ho
    obtain ⟨k, -, hk⟩ := List.mem_filterMap.1 ho
    obtain ⟨tk, -, rfl⟩ := Option.map_eq_some_iff.1 hk
    exact ⟨_, _, rfl⟩
  · intro k tk hk key hm
    obtain ⟨k', -, hk'⟩ := List.mem_filterMap.1 hm
    obtain ⟨tk', h4, h5⟩ := Option.map_eq_some_iff.1 hk'
    cases h5
    rw [hk] at h4; cases h4
    rfl

/-- Spec: the scope of a data key of the trx files. -/
def keyScope (r : Prepared) (k : String) (sc : Scope) : Prop := ∃ tk, r.set.keys k = some tk ∧ docScope tk.key = sc

/-- Spec: a data key that is not a saved column. -/
def IsGenerated (r : Prepared) (k : String) : Prop := ∃ tk, r.set.keys k = some tk ∧ tk.column < 0

theorem prepared_saved_nowhere {p : PrepEnv} {r : Prepared} {s : DataScope} {keys : GoMap String TKey}
    (h : prepare p s keys = .ok r) (hfin : FinKeys keys)
    {k : String} (hk : k ≠ noopColumn) (hk' : k ≠ "") (hg : IsGenerated r k) (stage : Nat) (ws : Bool)
    (df : Nat → Nat → Bool) : SavedNowhere ⟨r.set.statements, stage, ws, df⟩ k := by
  obtain ⟨-, h1, -⟩ := prepare_parts h
  obtain ⟨-, k2⟩ := loadTrx_keys_exist _ _ p.files (by intro n ss h; simp [GoMap.empty] at h) (by simp) h1
  obtain ⟨-, hst⟩ := loadTrx_known hfin (by intro n ss h; simp [GoMap.empty] at h) h1
  obtain ⟨tk, ht, hc⟩ := hg
  intro n ss hn stmt hm
  have h2 : k ∉ stmt.outputs := by
    intro ho
    rcases (hst n ss hn stmt hm).outs k ho with h | ⟨v, hv, h⟩
    · exact hk h
    · rw [ht] at hv; cases hv; omega
  refine ⟨h2, fun he => ?_⟩
  rcases ((k2 n ss hn).2 stmt hm).2.2.1 with h | h
  · exact hk' (he ▸ h)
  · exact h2 (he ▸ h)

/-- Spec: a session of the clients of a prepared stage. -/
def preparedSession (o : FmtOther) (ops : GenOps G) (tbl : GoMap Nat Nat) (r : Prepared) (g : GenStart G)
    (xs : List SIn) : Sess G := sessionOf o ops tbl r.st r.execGroups g xs

/-- **C114 for trx files (values).** A client of a prepared first stage that uses a data key with a
single-client scope twice in the same statement execution, trx execution, iteration or connection
(whichever the scope says) gets the same values. The key is no saved column and the client has no explicit
calls of it; for trx scope no trx begins with idle time. -/
theorem C114_prepared_same_value_partial (o : FmtOther) (ops : GenOps G) (tbl : GoMap Nat Nat)
    (g : GenStart G) (xs : List SIn) {p : PrepEnv} {r : Prepared}
    (h : prepare p DataScope.new GoMap.empty = .ok r) (hst : 0 < p.stage)
    (hw : ∀ cg ∈ p.workload, ∀ n ∈ cg.trx, n ∈ p.files.map (·.env.trx))
    {k : String} {sc : Scope} (hsc : IsSingle sc) (hk : keyScope r k sc) (hg : IsGenerated r k)
    (hp : k ≠ "@PREV") (hn : k ≠ "_") (he : k ≠ "")
    (hidle : sc = .trx → ∀ t ss stmt, r.set.statements t = some ss → ss[0]? = some stmt → stmt.idle = 0)
    {n : ClientNo}
    (himp : ∀ d ∈ (cliAt tbl r.execGroups n).data, ∀ r ∈ d.inputs, r.key = k → r.explicit = false)
    {i i' : Nat} {cnt cnt' : RunCount} {vs vs' : List (InRef × Option (List GoVal))} {x x' : InRef}
    {v v' : Option (List GoVal)}
    (h1 : SEv.gen n i cnt vs ∈ (preparedSession o ops tbl r g xs).hist)
    (h2 : SEv.gen n i' cnt' vs' ∈ (preparedSession o ops tbl r g xs).hist)
    (hv : (x, v) ∈ vs) (hv' : (x', v') ∈ vs') (hx : x.key = k) (hx' : x'.key = k)
    (hsame : scopeCounter sc cnt = scopeCounter sc cnt') : v = v' ∧ v ≠ none := by
  obtain ⟨pre, hs, hl⟩ := C114_prepared h hst hw
  obtain ⟨tk, ht, hd⟩ := hk
  exact C114_same_value_partial o ops tbl g xs hs (hd ▸ hl k tk ht) hp hn hsc
    (prepared_saved_nowhere h ⟨[], by simp [GoMap.empty]⟩ hn he hg _ _ _) hidle himp h1 h2 hv hv' hx hx' hsame

theorem staged_sent (o : FmtOther) (ops : GenOps G) (tbl : GoMap Nat Nat)
    (g : GenStart G) (xs : List SIn) {p : PrepEnv} {r : Prepared}
    {s : DataScope} {keys : GoMap String TKey} (h : prepare p s keys = .ok r) (hfin : FinKeys keys)
    {pre : List ScopeOp}
    (hs : Staged pre ⟨r.set.statements, p.stage, p.withStats, p.dbFails⟩ r.workload r.groups r.st r.execGroups)
    (hprev : r.set.keys "@PREV" = none)
    {e j c : Nat} {a : AClient} (ha : ClientAt r.execGroups e j c a) {i pos conn : Nat} {stmt : Stmt}
    {what : Sent} (hstmt : a.statements[i]? = some stmt)
    (hl : ∀ k ∈ stmt.inputs, ∀ tk, r.set.keys k = some tk → ∃ sc, sc ≠ .global ∧ LoadsWith k sc pre)
    (hsent : (preparedSession o ops tbl r g xs).hist[pos]? = some (.sent (e, j, c) i conn what))
    (hfit : ∀ q cnt vs, (preparedSession o ops tbl r g xs).hist[q]? = some (.gen (e, j, c) i cnt vs) → q < pos →
      (∀ q' e', q < q' → q' < pos → (preparedSession o ops tbl r g xs).hist[q']? = some e' →
        e'.client ≠ (e, j, c)) →
      vs.map (fun x => (x.2.getD []).length) = (prevAfter stmt.inputs).map (· + 1)) :
    ∃ q cnt vs args, q < pos ∧
      (preparedSession o ops tbl r g xs).hist[q]? = some (.gen (e, j, c) i cnt vs) ∧
      (∀ q' e', q < q' → q' < pos → (preparedSession o ops tbl r g xs).hist[q']? = some e' →
        e'.client ≠ (e, j, c)) ∧
      what = (if stmt.prepare then .prepared stmt.query args else .text (goSprintf o stmt.query args)) ∧
      args.length = stmt.inputs.length ∧
      ∀ x < stmt.inputs.length, ∃ r v y, vs[keyOf stmt.inputs x]? = some (r, v) ∧
        (v.getD [])[prevsTo stmt.inputs x]? = some y ∧ args[x]? = some y ∧
        ∀ k, stmt.inputs[x]? = some k → k ≠ "@PREV" → r.key = k ∧ prevsTo stmt.inputs x = 0 := by
  obtain ⟨-, h1, -⟩ := prepare_parts h
  obtain ⟨-, k2⟩ := loadTrx_keys_exist _ _ p.files (by intro n ss h; simp [GoMap.empty] at h) (by simp) h1
  obtain ⟨-, hkn⟩ := loadTrx_known hfin (by intro n ss h; simp [GoMap.empty] at h) h1
  have hmem : ∃ t ss, r.set.statements t = some ss ∧ stmt ∈ ss := by
    obtain ⟨hne, _, _, _, _, _, -, -, -, hal⟩ := hs
    obtain ⟨cg, -, -, hok⟩ := allocClients_at hne hal ha
    have := List.mem_of_getElem? hstmt
    rw [hok.statements] at this
    obtain ⟨t, -, hm⟩ := List.mem_flatMap.1 this
    cases hss : r.set.statements t with
    | none => simp [hss] at hm
    | some ss => simp [hss] at hm; exact ⟨t, ss, hss, hm⟩
  obtain ⟨t, ss, hss, hm⟩ := hmem
  obtain ⟨i1, -, -, i4⟩ := (k2 t ss hss).2 stmt hm
  have hok := hkn t ss hss stmt hm
  refine C114_placeholders_partial o ops tbl g xs hs h1 rfl ha hstmt i4 ?_ ?_ hsent hfit
  · intro hh
    rcases hok.first hh with hx | ⟨v, hv, -⟩
    · exact absurd hx (by decide)
    · rw [hprev] at hv; cases hv
  · intro k hk
    rcases i1 k hk with hx | hx
    · exact Or.inl hx
    · right
      cases htk : r.set.keys k with
      | none => exact absurd htk hx
      | some tk =>
        refine ⟨?_, hl k hk tk htk⟩
        rintro rfl
        obtain ⟨n, hn⟩ := hok.ins _ hk
        have := congrArg String.toList hn
        simp [noopColumn] at this

/-- **C114 for trx files (what is sent).** Every statement of a client of a prepared first stage is sent with its
query and, at each place of the query, the value of the data key at this place, generated just before.
Hypotheses: no key of the statement has global scope (false otherwise, `C02_global_scope_never_gets_a_generator`),
`@PREV` is not saved as a column, and each key gave one value for itself and for each `@PREV` after it. -/
theorem C114_prepared_sent_partial (o : FmtOther) (ops : GenOps G) (tbl : GoMap Nat Nat)
    (g : GenStart G) (xs : List SIn) {p : PrepEnv} {r : Prepared}
    (h : prepare p DataScope.new GoMap.empty = .ok r) (hst : 0 < p.stage)
    (hw : ∀ cg ∈ p.workload, ∀ n ∈ cg.trx, n ∈ p.files.map (·.env.trx))
    (hprev : r.set.keys "@PREV" = none)
    {e j c : Nat} {a : AClient} (ha : ClientAt r.execGroups e j c a) {i pos conn : Nat} {stmt : Stmt}
    {what : Sent} (hstmt : a.statements[i]? = some stmt)
    (hglob : ∀ k ∈ stmt.inputs, ¬ keyScope r k .global)
    (hsent : (preparedSession o ops tbl r g xs).hist[pos]? = some (.sent (e, j, c) i conn what))
    (hfit : ∀ q cnt vs, (preparedSession o ops tbl r g xs).hist[q]? = some (.gen (e, j, c) i cnt vs) → q < pos →
      (∀ q' e', q < q' → q' < pos → (preparedSession o ops tbl r g xs).hist[q']? = some e' →
        e'.client ≠ (e, j, c)) →
      vs.map (fun x => (x.2.getD []).length) = (prevAfter stmt.inputs).map (· + 1)) :
    ∃ q cnt vs args, q < pos ∧
      (preparedSession o ops tbl r g xs).hist[q]? = some (.gen (e, j, c) i cnt vs) ∧
      (∀ q' e', q < q' → q' < pos → (preparedSession o ops tbl r g xs).hist[q']? = some e' →
        e'.client ≠ (e, j, c)) ∧
      what = (if stmt.prepare then .prepared stmt.query args else .text (goSprintf o stmt.query args)) ∧
      args.length = stmt.inputs.length ∧
      ∀ x < stmt.inputs.length, ∃ r v y, vs[keyOf stmt.inputs x]? = some (r, v) ∧
        (v.getD [])[prevsTo stmt.inputs x]? = some y ∧ args[x]? = some y ∧
        ∀ k, stmt.inputs[x]? = some k → k ≠ "@PREV" → r.key = k ∧ prevsTo stmt.inputs x = 0 := by
  obtain ⟨pre, hs, hl⟩ := C114_prepared h hst hw
  exact staged_sent o ops tbl g xs h ⟨[], by simp [GoMap.empty]⟩ hs hprev ha hstmt
    (fun k hk tk htk => ⟨docScope tk.key, fun hx => hglob k hk ⟨tk, htk, hx⟩, hl k tk htk⟩) hsent hfit

/-- Statements with one key, used in two places of the second. -/
def sesLines : List String := ["SELECT c FROM t WHERE a=@d", "", "-- prepare", "UPDATE t SET a=@d WHERE b BETWEEN @d AND @d"]

/-- The hypotheses are met: a stage of one trx file, whose client sends its statements. -/
example : ∃ r, prepare (prepDemo (prepFile "" sesLines)) DataScope.new GoMap.empty = .ok r ∧
    (prepDemo (prepFile "" sesLines)).workload = [] ∧ keyScope r "@d" .statement ∧ IsGenerated r "@d" ∧
    r.set.keys "@PREV" = none ∧
    ∃ conn, SEv.sent (0, 0, 0) 1 conn (.prepared "UPDATE t SET a=? WHERE b BETWEEN ? AND ?".toList
        [.num "int".toList 1000, .num "int".toList 1000, .num "int".toList 1000]) ∈
      (preparedSession ⟨fun _ _ => [], fun _ _ => []⟩
        (⟨fun g _ => (g + 1, [.num "int".toList g]), fun _ _ g => g⟩ : GenOps Nat) GoMap.empty r ⟨fun _ a => 1000 * a, fun _ => none⟩
        (List.replicate 14 (sesStep (0, 0, 0)))).hist := by
  have h : (match prepare (prepDemo (prepFile "" sesLines)) DataScope.new GoMap.empty with
    | .ok r => decide ((r.set.keys "@d").map (fun tk => (docScope tk.key, tk.column)) = some (.statement, -1)) &&
        (r.set.keys "@PREV").isNone &&
        decide (SEv.sent (0, 0, 0) 1 0 (.prepared "UPDATE t SET a=? WHERE b BETWEEN ? AND ?".toList
        [.num "int".toList 1000, .num "int".toList 1000, .num "int".toList 1000]) ∈
          (preparedSession ⟨fun _ _ => [], fun _ _ => []⟩
          (⟨fun g _ => (g + 1, [.num "int".toList g]), fun _ _ g => g⟩ : GenOps Nat) GoMap.empty r ⟨fun _ a => 1000 * a, fun _ => none⟩
          (List.replicate 14 (sesStep (0, 0, 0)))).hist)
    | _ => false) = true := by decide +kernel
  split at h
  · rename_i r hr
    simp only [Bool.and_eq_true, decide_eq_true_eq, Option.isNone_iff_eq_none] at h
    obtain ⟨⟨h1, h2⟩, h3⟩ := h
    obtain ⟨tk, h4, h5⟩ := Option.map_eq_some_iff.1 h1
    simp only [Prod.mk.injEq] at h5
    exact ⟨r, hr, rfl, ⟨tk, h4, h5.1⟩, ⟨tk, h4, by omega⟩, h2, 0, h3⟩
  · cases h

end Finch
