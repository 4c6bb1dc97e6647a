import Verif.Props.Joint
import Verif.Props.Configured
/-!
C121 for stages as they are configured.
-/
namespace Finch

/-- Spec: the trx that the clients of a client group execute: those that the group names, or all of the stage. -/
def groupTrx (c : StageConf) (g : CGConf) : List String :=
  (if g.trx = [] then c.trx.map trxName else g.trx).map String.ofList

/-- What the allocator gets of a client group that is configured. -/
theorem group_conf {env : ValEnv} {c c' : StageConf} (hd : c.disable = false)
    (h : c.validate env = some c') (rest : StageRest) {s : DataScope} {keys : GoMap String TKey} {r : Prepared}
    (hr : prepare (c'.prepEnv rest) s keys = .ok r) :
    NoEmptyTrx ⟨r.set.statements, rest.n, rest.withStats, rest.dbFails⟩ r.workload ∧
    allocClients ⟨r.set.statements, rest.n, rest.withStats, rest.dbFails⟩ r.workload (c'.prepEnv rest).qps
      (c'.prepEnv rest).tps (prepScope s r.set.keys) r.groups = .ok (r.st, r.execGroups) ∧
    (∀ cg ∈ r.workload, ∀ n ∈ cg.trx, n ∈ c.trx.map fun t => String.ofList (trxName t)) ∧
    ∀ (i : Nat) (g : CGConf), c.workload[i]? = some g →
      ∃ (e j : Nat) (eg : List Nat) (cg : CGCfg), r.groups[e]? = some eg ∧ eg[j]? = some i ∧
        CfgAt r.workload r.groups e j cg ∧ cg.trx = groupTrx c g ∧ cg.disableStats = g.disableStats ∧
        finchUint cg.clients = (if g.clients = [] then 1 else numberOf g.clients) ∧
        finchUint cg.iterClients = numberOf g.iterClients ∧
        finchUint cg.iterExecGroup = numberOf g.iterExecGroup ∧
        ((∀ n ∈ groupTrx c g, r.set.ddl n ≠ some true) → finchUint cg.iter = numberOf g.iter) := by
  have hwf := (C61_accepted_iff env c hd).1 (by rw [h]; rfl)
  obtain ⟨p1, p2, p3⟩ := prepEnv_names hd h rest
  obtain ⟨-, w2, -⟩ := C61_result env c c' hd h
  obtain ⟨hf, h1, h2, h3, -, -⟩ := prepare_parts hr
  have hord := C75_order _ _ _ h1
  simp only [List.nil_append] at hord
  obtain ⟨k1, k2⟩ := loadTrx_keys_exist _ _ (c'.prepEnv rest).files (by intro n ss h; simp [GoMap.empty] at h) (by simp) h1
  have htrx := allocGroups_trx h2 (by rw [hord]; simpa using hf) (by rw [hord]; exact p3)
  have horder : r.set.order = (c.trx.map trxName).map String.ofList := by
    rw [hord, p2, List.map_map]; rfl
  refine ⟨?_, h3, ?_, ?_⟩
  · intro cg hcg n hn
    have hx := k1 n ((htrx cg hcg).2 n hn)
    cases hss : r.set.statements n with
    | none => exact absurd hss hx
    | some ss =>
      show (r.set.statements n).getD [] ≠ []
      rw [hss]
      exact (k2 n ss hss).1
  · intro cg hcg n hn
    have := (htrx cg hcg).2 n hn
    rw [hord, p2] at this
    simpa using this
  intro i g hg
  have hmem := List.mem_of_getElem? hg
  have hnum : ∀ f ∈ g.numeric, IsNumber f := hwf.numbers.1 g hmem
  simp only [CGConf.numeric, List.mem_cons, List.not_mem_nil, or_false, forall_eq_or_imp, forall_eq] at hnum
  have hpi : (c'.prepEnv rest).workload[i]? =
      some (CGConf.cfg { g with clients := if g.clients = [] then "1".toList else g.clients }) := by
    simp [StageConf.prepEnv, w2, hg]
  obtain ⟨cg, hcg, hdef⟩ := allocGroups_get h2 hpi
  obtain ⟨w1, gs1, q1, -, q2, -⟩ := C39_groups_partition r.set.ddl r.set.order (c'.prepEnv rest).workload
  rw [h2] at q1
  simp only [Out.ok.injEq, Prod.mk.injEq] at q1
  obtain ⟨rfl, rfl⟩ := q1
  obtain ⟨e, j, eg, he, hj⟩ := mem_flatten_at (i := i) (gs := r.groups) (by
    rw [q2]; exact List.mem_range.2 (List.getElem?_eq_some_iff.1 hcg).1)
  obtain ⟨f1, f2, f3, f4, f5, f6, f7, f8, -⟩ := cgDefaults_fields r.set.ddl r.set.order
    (CGConf.cfg { g with clients := if g.clients = [] then "1".toList else g.clients })
  have hcgt : cg.trx = (cgDefaults r.set.ddl r.set.order
      (CGConf.cfg { g with clients := if g.clients = [] then "1".toList else g.clients })).trx := by rw [hdef]
  have hdtrx : cg.trx = groupTrx c g := by
    unfold groupTrx
    rw [hcgt, f1]
    by_cases hx : g.trx = []
    · rw [if_pos hx, if_pos (by simp [CGConf.cfg, hx])]
      exact horder
    · rw [if_neg hx, if_neg (by simpa [CGConf.cfg] using hx)]
      rfl
  have hclients : cg.clients = String.ofList (if g.clients = [] then "1".toList else g.clients) := by
    rw [hdef]; exact f3
  have hds : cg.disableStats = g.disableStats := by rw [hdef]; exact f8
  have hic : cg.iterClients = String.ofList g.iterClients := by rw [hdef]; exact f6
  have hie : cg.iterExecGroup = String.ofList g.iterExecGroup := by rw [hdef]; exact f7
  refine ⟨e, j, eg, cg, he, hj, ⟨eg, i, he, hj, hcg⟩, hdtrx, hds, ?_, ?_, ?_, ?_⟩
  · rw [hclients]
    by_cases hx : g.clients = []
    · rw [if_pos hx, if_pos hx]; rfl
    · rw [if_neg hx, if_neg hx]; exact (finchUint_number hnum.1).1
  · rw [hic]; exact (finchUint_number hnum.2.2.1).1
  · rw [hie]; exact (finchUint_number hnum.2.2.2.1).1
  · intro hno
    have hddl : hasDDL r.set.ddl cg.trx = false := by
      rw [Bool.eq_false_iff]
      intro hc
      unfold hasDDL at hc
      obtain ⟨n, n1, n2⟩ := List.any_eq_true.mp hc
      rw [hdtrx] at n1
      refine hno n n1 ?_
      cases hx : r.set.ddl n with
      | none => rw [hx] at n2; simp at n2
      | some b => rw [hx] at n2; simpa using n2
    have e1 : cg.iter = (if hasDDL r.set.ddl cg.trx = true ∧ finchUint (String.ofList g.iter) = 0 then "1"
        else String.ofList g.iter) := by
      rw [hcgt]
      rw [hdef]
      exact f2
    rw [e1, hddl]
    simp only [Bool.false_eq_true, false_and, if_false]
    exact (finchUint_number hnum.2.1).1

/-- **C121, as configured.** A stage that was accepted and prepared, with statistics, and one of its client groups:
its only limit is iter-clients, its trx have no DDL and no data limits and, as all trx files, do not begin with an idle
entry. When everything goes well for its clients, and each makes enough steps, in any order among themselves and with
all other clients of the stage: then all of them have stopped by themselves, they have together begun exactly as many
iterations as the stage file says, and the number of queries recorded by them, for any trx and any class, is that
number times the number of statements of that class in the trx (for each time the trx is listed). -/
theorem C121_configured_partial {env : ValEnv} {c c' : StageConf} (hd : c.disable = false)
    (h : c.validate env = some c') (rest : StageRest) {s : DataScope} {keys : GoMap String TKey} {r : Prepared}
    (hr : prepare (c'.prepEnv rest) s keys = .ok r) (hw : rest.withStats = true)
    (hidle : ∀ t ∈ c.trx, ∀ x, (r.stmtsOf (trxName t))[0]? = some x → x.idle = 0)
    {i : Nat} {g : CGConf} (hg : c.workload[i]? = some g) (hds : g.disableStats = false)
    (hlim : ∀ n ∈ groupTrx c g, ∀ x ∈ (r.set.statements n).getD [], x.limit = none)
    (hddl : ∀ n ∈ groupTrx c g, r.set.ddl n ≠ some true)
    (h0 : g.clients = [] ∨ 0 < numberOf g.clients)
    (h1 : numberOf g.iter = 0) (h2 : numberOf g.iterExecGroup = 0) (h3 : 0 < numberOf g.iterClients)
    (h4 : numberOf g.iterClients + (stageClients r.execGroups).length < 2 ^ 32) :
    ∃ e j eg, r.groups[e]? = some eg ∧ eg[j]? = some i ∧ ∀ (tbl : GoMap Nat Nat) (l : List (Nat × Ans)),
      (∀ (k : Nat) x, (stageClients r.execGroups)[k]? = some x → InGroup e j x →
        (∀ y ∈ l, y.1 = k → GoesWell y.2) ∧
        3 * (numberOf g.iterClients * (4 * x.statements.length + 2) + x.statements.length + 7) <
          l.countP fun y => y.1 = k) →
      (∀ (k : Nat) x, (stageClients r.execGroups)[k]? = some x → InGroup e j x →
        ((Joint.init.run tbl (stageClients r.execGroups) l).cl k).pc = .stopped .regular) ∧
      begunBy (stageClients r.execGroups) (InGroup e j) (Joint.init.run tbl (stageClients r.execGroups) l) =
        numberOf g.iterClients ∧
      ∀ name cls, recordedBy (stageClients r.execGroups) (InGroup e j)
          (Joint.init.run tbl (stageClients r.execGroups) l) name cls =
        numberOf g.iterClients * (perIteration r.set.statements (groupTrx c g)).count (name, cls) := by
  obtain ⟨hne, hal, hnames, hgr⟩ := group_conf hd h rest hr
  obtain ⟨-, hl, -⟩ := prepare_parts hr
  obtain ⟨e, j, eg, cg, he, hj, hat, g1, g2, g3, g4, g5, g6⟩ := hgr i g hg
  refine ⟨e, j, eg, he, hj, fun tbl l hwell => ?_⟩
  rw [← g4] at h3 h4 hwell
  rw [← g1, ← g4]
  refine C121_completes_partial hl rfl hne ?_ hal hat hw (by rw [g2, hds])
    (by rw [g1]; exact hlim) (by rw [g6 hddl, h1]) (by rw [g5, h2]) h3 h4 ?_ tbl l hwell
  · intro cg' hcg' n hn x hx
    obtain ⟨t, ht, rfl⟩ := List.mem_map.mp (hnames cg' hcg' n hn)
    exact hidle t ht x hx
  obtain ⟨-, hcc⟩ := C42_client_counts hne hal
  obtain ⟨cgs, c1, -, c2⟩ := hcc e eg he
  obtain ⟨acg, c3, c4, -⟩ := c2 j cg hat
  have hpos : 0 < acg.clients.length := by
    rw [c4, g3]
    rcases h0 with h0 | h0
    · rw [if_pos h0]; decide
    · split
      · decide
      · exact h0
  have hk : acg.clients[0]? = some acg.clients[0] := List.getElem?_eq_getElem hpos
  obtain ⟨cg', hat', -, hok⟩ := allocClients_at hne hal (⟨cgs, acg, c1, c3, hk⟩ : ClientAt r.execGroups e j 0 _)
  refine ⟨acg.clients[0], ?_, by rw [InGroup, hok.at_]; exact ⟨rfl, rfl⟩⟩
  exact List.mem_flatMap.mpr ⟨acg, List.mem_flatten.mpr ⟨cgs, List.mem_of_getElem? c1, List.mem_of_getElem? c3⟩,
    List.getElem_mem _⟩

/-! ### Examples -/

/-- Two clients that make three iterations together, and one without statistics that makes two. -/
def exJointConf : StageConf :=
  { trx := [{ file := "a/x.sql".toList }]
    workload := [{ clients := "2".toList, iterClients := "3".toList },
      { iter := "2".toList, disableStats := true }] }

/-- What the theorem asks of the stage holds. -/
example : ∃ c' r, exJointConf.validate exSameEnv = some c' ∧
    prepare (c'.prepEnv exRest) DataScope.new GoMap.empty = .ok r ∧
    (∀ t ∈ exJointConf.trx, ∀ x, (r.stmtsOf (trxName t))[0]? = some x → x.idle = 0) ∧
    ∃ g, exJointConf.workload[0]? = some g ∧ g.disableStats = false ∧
      (∀ n ∈ groupTrx exJointConf g, ∀ x ∈ (r.set.statements n).getD [], x.limit = none) ∧
      (∀ n ∈ groupTrx exJointConf g, r.set.ddl n ≠ some true) ∧ 0 < numberOf g.clients ∧
      numberOf g.iter = 0 ∧ numberOf g.iterExecGroup = 0 ∧ numberOf g.iterClients = 3 ∧
      (stageClients r.execGroups).length = 3 ∧
      (perIteration r.set.statements (groupTrx exJointConf g)) = [("x.sql", .read)] := by
  have h : (match exJointConf.validate exSameEnv with
    | none => false
    | some c' => match prepare (c'.prepEnv exRest) DataScope.new GoMap.empty with
      | .ok r => (exJointConf.trx.all fun t => (r.stmtsOf (trxName t))[0]?.all fun x => decide (x.idle = 0)) &&
          ((groupTrx exJointConf exJointConf.workload[0]).all fun n =>
            ((r.set.statements n).getD []).all (·.limit.isNone) && decide (r.set.ddl n ≠ some true)) &&
          decide ((stageClients r.execGroups).length = 3) &&
          decide ((perIteration r.set.statements (groupTrx exJointConf exJointConf.workload[0])) = [("x.sql", .read)])
      | _ => false) = true := by decide +kernel
  revert h
  cases h1 : exJointConf.validate exSameEnv with
  | none => simp
  | some c' =>
    dsimp only
    cases h2 : prepare (c'.prepEnv exRest) DataScope.new GoMap.empty with
    | ok r =>
      dsimp only
      intro h
      simp only [Bool.and_eq_true, decide_eq_true_eq, List.all_eq_true, Option.all_eq_true,
        Option.isNone_iff_eq_none] at h
      obtain ⟨⟨⟨a1, a2⟩, a4⟩, a5⟩ := h
      exact ⟨c', r, rfl, h2, a1, _, rfl, rfl, fun n hn => (a2 n hn).1, fun n hn => (a2 n hn).2, by decide, by decide, by decide, by decide, a4, a5⟩
    | err => simp
    | panic => simp

end Finch
