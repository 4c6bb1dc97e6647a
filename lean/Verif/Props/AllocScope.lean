import Verif.Props.Alloc
import Verif.Props.Rate
/-!
# C42, C43 and, for allocated clients, C01, C02

Statements of a client, iteration limits, rate limits and which generator serves which input of
which statement of which client.
-/
namespace Finch

/-! ### Structure of the result -/

/-- Spec: trx number and statement number (from 1 on) of each statement of a client; `t` trx come
before. -/
def stmtPositions (stmts : GoMap String (List Stmt)) : Nat → List String → List (Nat × Nat)
  | _, [] => []
  | t, n :: ns => (List.range ((stmts n).getD []).length).map (fun q => (t + 1, q + 1)) ++
      stmtPositions stmts (t + 1) ns

theorem TrxProv.at {stmts : GoMap String (List Stmt)} {rl : RunLevel} {l : List CopyObs}
    {ns : List String} : ∀ {t : Nat} {ds : List StmtData}, TrxProv stmts rl t l ns ds →
    ds.length = (stmtPositions stmts t ns).length ∧
    ds.length = (ns.flatMap fun n => (stmts n).getD []).length ∧
    ∀ (i : Nat) d, ds[i]? = some d → ∃ t' q stmt li,
      (stmtPositions stmts t ns)[i]? = some (t', q) ∧
      (ns.flatMap fun n => (stmts n).getD [])[i]? = some stmt ∧ List.Sublist li l ∧
      StmtAlloc { rl with trx := t', query := q } stmt d li := by
  induction ns with
  | nil => intro t ds h; cases h; simp [stmtPositions]
  | cons n ns ih =>
    intro t ds h
    obtain ⟨d1, d2, rfl, h2, h3, h4⟩ := h
    obtain ⟨i1, i2, i3⟩ := ih h4
    refine ⟨by simp [stmtPositions, h2, i1], by simp [h2, i2], ?_⟩
    intro i d hi
    by_cases hlt : i < d1.length
    · rw [List.getElem?_append_left hlt] at hi
      have hq := List.getElem?_eq_getElem (h2 ▸ hlt : i < ((stmts n).getD []).length)
      obtain ⟨d', li, e1, e2, e3⟩ := h3 i _ hq
      rw [hi] at e1
      cases e1
      refine ⟨t + 1, i + 1, _, li, ?_, ?_, e2, e3⟩
      · rw [stmtPositions, List.getElem?_append_left (by simp; omega)]
        rw [List.getElem?_map, List.getElem?_range (by omega)]; rfl
      · rw [List.flatMap_cons, List.getElem?_append_left (by omega), hq]
    · rw [List.getElem?_append_right (by omega)] at hi
      obtain ⟨t', q, stmt, li, e1, e2, e3, e4⟩ := i3 _ d hi
      refine ⟨t', q, stmt, li, ?_, ?_, e3, e4⟩
      · rw [stmtPositions, List.getElem?_append_right (by simp; omega)]
        simpa [h2] using e1
      · rw [List.flatMap_cons, List.getElem?_append_right (by omega), ← h2]
        exact e2

/-- Spec: client `c` of client group `j` of execution group `e` in an allocation. -/
def ClientAt (res : List (List ACGroup)) (e j c : Nat) (a : AClient) : Prop :=
  ∃ cgs acg, res[e]? = some cgs ∧ cgs[j]? = some acg ∧ acg.clients[c]? = some a

/-- Spec: the configuration of client group `j` of execution group `e`. -/
def CfgAt (w : List CGCfg) (groups : List (List Nat)) (e j : Nat) (cg : CGCfg) : Prop :=
  ∃ g ref, groups[e]? = some g ∧ g[j]? = some ref ∧ w[ref]? = some cg

/-- Spec: every trx of the workload has a statement (true for a loaded trx set, C73). -/
def NoEmptyTrx (env : WEnv) (w : List CGCfg) : Prop :=
  ∀ cg ∈ w, ∀ n ∈ cg.trx, (env.stmts n).getD [] ≠ []

theorem allocClients_at {env : WEnv} {w : List CGCfg} {q t : Nat} {s : DataScope}
    {groups : List (List Nat)} {st : WState} {res : List (List ACGroup)} (hne : NoEmptyTrx env w)
    (h : allocClients env w q t s groups = .ok (st, res)) {e j c : Nat} {a : AClient}
    (ha : ClientAt res e j c a) : ∃ cg, CfgAt w groups e j cg ∧ c < finchUint cg.clients ∧
      ClientOk env cg (egPtr groups e + 1 + j) (egPtr groups e)
        ⟨env.stage, e + 1, j + 1, c + 1, 0, 0⟩ st.sl.log a := by
  obtain ⟨h1, l, h2, h3, h4, h5⟩ := allocEGLoop_log hne h
  obtain ⟨cgs, acg, ha1, ha2, ha3⟩ := ha
  have he : e < groups.length := h1 ▸ (List.getElem?_eq_some_iff.mp ha1).1
  obtain ⟨cgs', f1, f2, f3⟩ := h5 e _ (List.getElem?_eq_getElem he)
  rw [ha1] at f1
  cases f1
  have hj := (List.getElem?_eq_some_iff.mp ha2).1
  obtain ⟨cg, acg', g1, g2, g3⟩ := f3 j _ (List.getElem?_eq_getElem (f2 ▸ hj))
  rw [ha2] at g2
  cases g2
  have hlog : st.sl.log = l := by rw [h2]; rfl
  refine ⟨cg, ⟨_, _, List.getElem?_eq_getElem he, List.getElem?_eq_getElem (f2 ▸ hj), g1⟩, ?_, ?_⟩
  · rw [← g3.count]; exact (List.getElem?_eq_some_iff.mp ha3).1
  · have := g3.clients c a ha3
    rw [hlog]
    simpa using this

/-- **C42.** For every workload whose trx are not empty and every allocation that succeeds: there is
one group of clients for each client group of each execution group, with the configured number of
clients. -/
theorem C42_client_counts {env : WEnv} {w : List CGCfg} {q t : Nat} {s : DataScope}
    {groups : List (List Nat)} {st : WState} {res : List (List ACGroup)} (hne : NoEmptyTrx env w)
    (h : allocClients env w q t s groups = .ok (st, res)) :
    res.length = groups.length ∧
    ∀ (e : Nat) g, groups[e]? = some g → ∃ cgs, res[e]? = some cgs ∧ cgs.length = g.length ∧
      ∀ (j : Nat) cg, CfgAt w groups e j cg → ∃ acg, cgs[j]? = some acg ∧
        acg.clients.length = finchUint cg.clients ∧ acg.runtime = cg.runtime ∧
        (acg.dataLimit = true ↔ 0 < acg.clients.length ∧
          ∃ n ∈ cg.trx, ∃ st ∈ (env.stmts n).getD [], st.limit ≠ none) := by
  obtain ⟨h1, l, h2, h3, h4, h5⟩ := allocEGLoop_log hne h
  refine ⟨h1, ?_⟩
  intro e g hg
  obtain ⟨cgs, f1, f2, f3⟩ := h5 e g hg
  refine ⟨cgs, f1, f2, ?_⟩
  rintro j cg ⟨g', ref, e1, e2, e3⟩
  rw [hg] at e1
  cases e1
  obtain ⟨cg', acg, g1, g2, g3⟩ := f3 j ref e2
  rw [e3] at g1
  cases g1
  exact ⟨acg, g2, g3.count, g3.runtime, g3.limit⟩

/-- **C42.** Every client of an allocation has the statements of its trx one after another, each
trx marked at its first and at its last statement and nowhere else, its position (numbers from 1 on)
as id, its database and one entry of statistics for each trx if they are wanted. -/
theorem C42_statements_in_order {env : WEnv} {w : List CGCfg} {q t : Nat} {s : DataScope}
    {groups : List (List Nat)} {st : WState} {res : List (List ACGroup)} (hne : NoEmptyTrx env w)
    (h : allocClients env w q t s groups = .ok (st, res)) {e j c : Nat} {a : AClient}
    (ha : ClientAt res e j c a) : ∃ cg, CfgAt w groups e j cg ∧
      a.rl = ⟨env.stage, e + 1, j + 1, c + 1, 0, 0⟩ ∧ a.db = cg.db ∧
      a.statements = cg.trx.flatMap (fun n => (env.stmts n).getD []) ∧
      a.data.length = a.statements.length ∧
      a.data.map (fun d => (d.begin_, d.end_)) = cg.trx.flatMap (fun n =>
        (List.range ((env.stmts n).getD []).length).map fun i =>
          (decide (i = 0), decide (i + 1 = ((env.stmts n).getD []).length))) ∧
      a.stats = cg.trx.map (fun n => if env.withStats && !cg.disableStats then some n else none) := by
  obtain ⟨cg, h1, -, h2⟩ := allocClients_at hne h ha
  exact ⟨cg, h1, h2.at_, h2.db, h2.statements, by rw [h2.statements]; exact h2.prov.at.2.1,
    h2.marks, h2.stats⟩

/-- **C42.** No two clients of an allocation have the same id. -/
theorem C42_unique_ids {env : WEnv} {w : List CGCfg} {q t : Nat} {s : DataScope}
    {groups : List (List Nat)} {st : WState} {res : List (List ACGroup)} (hne : NoEmptyTrx env w)
    (h : allocClients env w q t s groups = .ok (st, res)) {e j c e' j' c' : Nat} {a b : AClient}
    (ha : ClientAt res e j c a) (hb : ClientAt res e' j' c' b) (hid : a.rl = b.rl) :
    e = e' ∧ j = j' ∧ c = c' := by
  obtain ⟨_, _, _, h1⟩ := allocClients_at hne h ha
  obtain ⟨_, _, _, h2⟩ := allocClients_at hne h hb
  rw [h1.at_, h2.at_] at hid
  injection hid with _ h1 h2 h3 _ _
  omega

/-! ### Iteration limits -/

theorem egPtr_mono {groups : List (List Nat)} {e e' j : Nat} {g : List Nat} (he : e < e')
    (hg : groups[e]? = some g) (hj : j < g.length) : egPtr groups e + 1 + j < egPtr groups e' := by
  have hs := egPtr_succ hg
  have : egPtr groups (e + 1) ≤ egPtr groups e' := by
    obtain ⟨k, rfl⟩ := Nat.exists_eq_add_of_le (show e + 1 ≤ e' by omega)
    unfold egPtr
    have hta : groups.take (e + 1 + k) = groups.take (e + 1) ++ (groups.drop (e + 1)).take k :=
      List.take_add
    rw [hta, List.map_append, List.sum_append]
    omega
  omega

theorem cfgAt_lt {w : List CGCfg} {groups : List (List Nat)} {e j : Nat} {cg : CGCfg}
    (h : CfgAt w groups e j cg) : ∃ g, groups[e]? = some g ∧ j < g.length := by
  obtain ⟨g, ref, h1, h2, h3⟩ := h
  exact ⟨g, h1, (List.getElem?_eq_some_iff.mp h2).1⟩

/-- **C43.** `iter` limits each client by itself and is unlimited (0) if it is not a positive number;
the shared limits are absent unless they are positive numbers, and below 2^32 they are as
configured. -/
theorem C43_limits_partial {env : WEnv} {w : List CGCfg} {q t : Nat} {s : DataScope}
    {groups : List (List Nat)} {st : WState} {res : List (List ACGroup)} (hne : NoEmptyTrx env w)
    (h : allocClients env w q t s groups = .ok (st, res)) {e j c : Nat} {a : AClient} {cg : CGCfg}
    (ha : ClientAt res e j c a) (hcg : CfgAt w groups e j cg)
    (h1 : finchUint cg.iterClients < 2 ^ 32) (h2 : finchUint cg.iterExecGroup < 2 ^ 32) :
    a.iter = finchUint cg.iter ∧
    (a.iterClients = none ↔ finchUint cg.iterClients = 0) ∧
    (∀ n p, a.iterClients = some (n, p) → n = finchUint cg.iterClients) ∧
    (a.iterExecGroup = none ↔ finchUint cg.iterExecGroup = 0) ∧
    (∀ n p, a.iterExecGroup = some (n, p) → n = finchUint cg.iterExecGroup) := by
  obtain ⟨cg', ⟨g, ref, e1, e2, e3⟩, -, hok⟩ := allocClients_at hne h ha
  obtain ⟨g', ref', f1, f2, f3⟩ := hcg
  rw [e1] at f1; cases f1
  rw [e2] at f2; cases f2
  rw [e3] at f3; cases f3
  rw [hok.iter, hok.iterClients, hok.iterExecGroup]
  unfold sharedIter
  refine ⟨rfl, ?_, ?_, ?_, ?_⟩
  · split <;> simp <;> omega
  · intro n p hn
    split at hn
    · cases hn; exact Nat.mod_eq_of_lt h1
    · cases hn
  · split <;> simp <;> omega
  · intro n p hn
    split at hn
    · cases hn; exact Nat.mod_eq_of_lt h2
    · cases hn

/-- **C43.** The counters: two clients that have the iter-clients limit count on the same variable
iff they are in the same client group; two clients that have the iter-exec-group limit count on the
same variable iff they are in the same execution group; the two kinds never share a variable. -/
theorem C43_counters_shared {env : WEnv} {w : List CGCfg} {q t : Nat} {s : DataScope}
    {groups : List (List Nat)} {st : WState} {res : List (List ACGroup)} (hne : NoEmptyTrx env w)
    (h : allocClients env w q t s groups = .ok (st, res)) {e j c e' j' c' : Nat} {a b : AClient}
    (ha : ClientAt res e j c a) (hb : ClientAt res e' j' c' b) :
    (∀ n p n' p', a.iterClients = some (n, p) → b.iterClients = some (n', p') →
      (p = p' ↔ e = e' ∧ j = j')) ∧
    (∀ n p n' p', a.iterExecGroup = some (n, p) → b.iterExecGroup = some (n', p') →
      (p = p' ↔ e = e')) ∧
    (∀ n p n' p', a.iterClients = some (n, p) → b.iterExecGroup = some (n', p') → p ≠ p') := by
  obtain ⟨cg, hc, -, hok⟩ := allocClients_at hne h ha
  obtain ⟨cg', hc', -, hok'⟩ := allocClients_at hne h hb
  obtain ⟨g, hg, hj⟩ := cfgAt_lt hc
  obtain ⟨g', hg', hj'⟩ := cfgAt_lt hc'
  have ptr : ∀ {n p x y : Nat}, sharedIter x y = some (n, p) → p = y := by
    intro n p x y hs
    unfold sharedIter at hs
    split at hs
    · cases hs; rfl
    · cases hs
  have trich : (e < e' ∨ e = e') ∨ e' < e := by omega
  refine ⟨?_, ?_, ?_⟩
  · intro n p n' p' h1 h2
    rw [hok.iterClients] at h1
    rw [hok'.iterClients] at h2
    rw [ptr h1, ptr h2]
    rcases trich with (hlt | rfl) | hlt
    · have := egPtr_mono hlt hg hj; omega
    · omega
    · have := egPtr_mono hlt hg' hj'; omega
  · intro n p n' p' h1 h2
    rw [hok.iterExecGroup] at h1
    rw [hok'.iterExecGroup] at h2
    rw [ptr h1, ptr h2]
    rcases trich with (hlt | rfl) | hlt
    · have := egPtr_mono hlt hg hj; omega
    · omega
    · have := egPtr_mono hlt hg' hj'; omega
  · intro n p n' p' h1 h2
    rw [hok.iterClients] at h1
    rw [hok'.iterExecGroup] at h2
    rw [ptr h1, ptr h2]
    rcases trich with (hlt | rfl) | hlt
    · have := egPtr_mono hlt hg hj; omega
    · omega
    · have := egPtr_mono hlt hg' hj'; omega

/-! ### Rate limits -/

/-- The rate limits of a client group, for QPS and for TPS. -/
def rateCG (clients own count : CGCfg → String) (w : List CGCfg) (ref : Nat) : RateCG :=
  match w[ref]? with
  | some cg => ⟨finchUint (clients cg), finchUint (own cg), finchUint (count cg)⟩
  | none => ⟨0, 0, 0⟩

/-- The rate limits of an execution group: its own is that of its first client group. -/
def rateEG (group clients own count : CGCfg → String) (w : List CGCfg) (g : List Nat) : RateEG :=
  ⟨((g.head?.bind (w[·]?)).map (fun cg => finchUint (group cg))).getD 0,
    g.map (rateCG clients own count w)⟩

theorem allocClientLoop_rates {env : WEnv} {cg : CGCfg} {pq pt : Option Nat} {pc pe : Nat}
    {k : Nat} : ∀ {rl : RunLevel} {c : Nat} {st st' : WState} {as : List AClient},
    allocClientLoop env cg rl pq pt pc pe c st k = .ok (st', as) →
    (st'.gq, as.map AClient.qps) = buildClients st.gq pq (finchUint cg.qps) k ∧
    (st'.gt, as.map AClient.tps) = buildClients st.gt pt (finchUint cg.tps) k := by
  induction k with
  | zero => intro rl c st st' as h; cases h; exact ⟨rfl, rfl⟩
  | succ k ih =>
    intro rl c st st' as h
    obtain ⟨⟨st1, a⟩, h1, h⟩ := Out.bind_ok h
    obtain ⟨⟨st2, as'⟩, h2, h⟩ := Out.bind_ok h
    cases Out.pure_ok h
    obtain ⟨_, -, h1⟩ := Out.bind_ok h1
    cases Out.pure_ok h1
    obtain ⟨e1, e2⟩ := ih h2
    simp only [buildClients]
    dsimp only at e1 e2 ⊢
    rw [← e1, ← e2]
    exact ⟨rfl, rfl⟩

theorem allocCGLoop_rates {env : WEnv} {w : List CGCfg} {pq pt : Option Nat} {pe : Nat}
    {refs : List Nat} : ∀ {rl : RunLevel} {j : Nat} {st st' : WState} {gs : List ACGroup},
    allocCGLoop env w rl pq pt pe j st refs = .ok (st', gs) →
    (st'.gq, gs.map fun g => g.clients.map AClient.qps) =
      buildGroups st.gq pq (refs.map (rateCG CGCfg.qpsClients CGCfg.qps CGCfg.clients w)) ∧
    (st'.gt, gs.map fun g => g.clients.map AClient.tps) =
      buildGroups st.gt pt (refs.map (rateCG CGCfg.tpsClients CGCfg.tps CGCfg.clients w)) := by
  induction refs with
  | nil => intro rl j st st' gs h; cases h; exact ⟨rfl, rfl⟩
  | cons ref refs ih =>
    intro rl j st st' gs h
    simp only [allocCGLoop] at h
    split at h
    · cases h
    · rename_i cg hcg
      split at h
      · cases h
      · obtain ⟨⟨st1, cs⟩, h1, h⟩ := Out.bind_ok h
        obtain ⟨⟨st2, gs'⟩, h2, h⟩ := Out.bind_ok h
        cases Out.pure_ok h
        obtain ⟨a1, a2⟩ := allocClientLoop_rates h1
        obtain ⟨b1, b2⟩ := ih h2
        simp only [List.map_cons, buildGroups, rateCG, hcg]
        dsimp only at a1 a2 b1 b2 ⊢
        rw [← a1, ← a2]
        dsimp only
        rw [← b1, ← b2]
        exact ⟨rfl, rfl⟩

theorem allocEGLoop_rates {env : WEnv} {w : List CGCfg} {pq pt : Option Nat}
    {gs : List (List Nat)} : ∀ {e : Nat} {st st' : WState} {res : List (List ACGroup)},
    allocEGLoop env w pq pt e st gs = .ok (st', res) →
    (st'.gq, res.map fun cgs => cgs.map fun g => g.clients.map AClient.qps) = buildExecGroups st.gq pq
      (gs.map (rateEG CGCfg.qpsExecGroup CGCfg.qpsClients CGCfg.qps CGCfg.clients w)) ∧
    (st'.gt, res.map fun cgs => cgs.map fun g => g.clients.map AClient.tps) = buildExecGroups st.gt pt
      (gs.map (rateEG CGCfg.tpsExecGroup CGCfg.tpsClients CGCfg.tps CGCfg.clients w)) := by
  induction gs with
  | nil => intro e st st' res h; cases h; exact ⟨rfl, rfl⟩
  | cons g gs ih =>
    intro e st st' res h
    simp only [allocEGLoop] at h
    split at h
    · cases h
    · rename_i ref href
      split at h
      · cases h
      · rename_i first hf
        obtain ⟨⟨st1, cgs⟩, h1, h⟩ := Out.bind_ok h
        obtain ⟨⟨st2, rest⟩, h2, h⟩ := Out.bind_ok h
        cases Out.pure_ok h
        obtain ⟨a1, a2⟩ := allocCGLoop_rates h1
        obtain ⟨b1, b2⟩ := ih h2
        simp only [List.map_cons, buildExecGroups, rateEG, href, Option.bind_some, hf,
          Option.map_some, Option.getD_some]
        dsimp only at a1 a2 b1 b2 ⊢
        rw [← a1, ← a2]
        dsimp only
        rw [← b1, ← b2]
        exact ⟨rfl, rfl⟩

/-- **C43, C22.** The rate limiters of allocated clients (by execution group, client group, client)
are the tree of limiters of C22 for the configured limits, for QPS and for TPS. So every bound
proved there holds for them. -/
theorem C43_rate_limiters {env : WEnv} {w : List CGCfg} {q t : Nat} {s : DataScope}
    {groups : List (List Nat)} {st : WState} {res : List (List ACGroup)}
    (h : allocClients env w q t s groups = .ok (st, res)) :
    (st.gq, res.map fun cgs => cgs.map fun g => g.clients.map AClient.qps) = buildStage q
      (groups.map (rateEG CGCfg.qpsExecGroup CGCfg.qpsClients CGCfg.qps CGCfg.clients w)) ∧
    (st.gt, res.map fun cgs => cgs.map fun g => g.clients.map AClient.tps) = buildStage t
      (groups.map (rateEG CGCfg.tpsExecGroup CGCfg.tpsClients CGCfg.tps CGCfg.clients w)) :=
  allocEGLoop_rates h

/-! ### Which generator serves which input -/

/-- The new part of the history is what running the copies gives. -/
def Traced (s s' : ScopeLog) : Prop :=
  ∃ l, s'.log = s.log ++ l ∧
    s.scope.run (l.map fun o => ScopeOp.copy o.key o.rl) = .ok (s'.scope, l)

theorem scopeRun_append {a b : List ScopeOp} : ∀ {s s1 s2 : DataScope} {o1 o2 : List CopyObs},
    s.run a = .ok (s1, o1) → s1.run b = .ok (s2, o2) → s.run (a ++ b) = .ok (s2, o1 ++ o2) := by
  induction a with
  | nil => intro s s1 s2 o1 o2 h1 h2; cases h1; exact h2
  | cons op a ih =>
    intro s s1 s2 o1 o2 h1 h2
    cases op with
    | reset n => exact ih (s := s.reset) h1 h2
    | load k kk => exact ih (s := s.load k kk) h1 h2
    | copy k rl =>
      simp only [DataScope.run, List.cons_append] at h1 ⊢
      split at h1
      · cases h1
      · rename_i s' out hc
        split at h1
        · cases h1
        · rename_i s'' obs hr
          cases h1
          rw [ih hr h2]
          rfl

theorem Traced.refl (s : ScopeLog) : Traced s s := ⟨[], by simp, rfl⟩

theorem Traced.trans {a b c : ScopeLog} (h1 : Traced a b) (h2 : Traced b c) : Traced a c := by
  obtain ⟨l, e1, e2⟩ := h1
  obtain ⟨m, f1, f2⟩ := h2
  refine ⟨l ++ m, by rw [f1, e1]; simp, ?_⟩
  rw [List.map_append]
  exact scopeRun_append e2 f2

theorem copy_traced {s s' : ScopeLog} {k : String} {rl : RunLevel} {g : Option Nat}
    (h : s.copy k rl = .ok (s', g)) : Traced s s' := by
  unfold ScopeLog.copy at h
  split at h
  · cases h
  · rename_i d g' hc
    cases h
    refine ⟨[⟨k, rl, g⟩], rfl, ?_⟩
    simp only [List.map_cons, List.map_nil, DataScope.run, hc]

theorem allocInputs_traced {rl : RunLevel} {ks : List String} : ∀ {s s' : ScopeLog} {cs : List Bool}
    {l : List InRef}, allocInputs rl s ks cs = .ok (s', l) → Traced s s' := by
  induction ks with
  | nil => intro s s' cs l h; cases h; exact .refl _
  | cons k ks ih =>
    intro s s' cs l h
    obtain ⟨⟨s1, g⟩, h1, h⟩ := Out.bind_ok h
    have hl := copy_traced h1
    dsimp only at h
    split at h
    · exact hl.trans (ih h)
    · cases h
    · obtain ⟨⟨s2, l2⟩, h2, h⟩ := Out.bind_ok h
      cases Out.pure_ok h
      exact hl.trans (ih h2)

theorem allocOutputs_traced {rl : RunLevel} {id : String} {ks : List String} : ∀ {s s' : ScopeLog}
    {l : List (Option Nat)}, allocOutputs rl id s ks = .ok (s', l) → Traced s s' := by
  induction ks with
  | nil => intro s s' l h; cases h; exact .refl _
  | cons k ks ih =>
    intro s s' l h
    simp only [allocOutputs] at h
    split at h
    · obtain ⟨⟨s1, l1⟩, h1, h⟩ := Out.bind_ok h
      cases Out.pure_ok h
      exact ih h1
    · obtain ⟨⟨s0, g⟩, h0, h⟩ := Out.bind_ok h
      obtain ⟨⟨s1, l1⟩, h1, h⟩ := Out.bind_ok h
      cases Out.pure_ok h
      exact (copy_traced h0).trans (ih h1)

theorem allocInsertId_traced {rl : RunLevel} {id : String} {s s' : ScopeLog} {g : Option Nat}
    (h : allocInsertId rl id s = .ok (s', g)) : Traced s s' := by
  unfold allocInsertId at h
  split at h
  · cases h; exact .refl _
  · obtain ⟨⟨s1, g1⟩, h1, h⟩ := Out.bind_ok h
    dsimp only at h
    cases g1 with
    | none => cases h
    | some a => cases Out.pure_ok h; exact copy_traced h1

theorem allocStmts_traced {rl : RunLevel} {ss : List Stmt} : ∀ {b : Bool} {q : Nat} {s s' : ScopeLog}
    {ds : List StmtData}, allocStmts rl b q s ss = .ok (s', ds) → Traced s s' := by
  induction ss with
  | nil => intro b q s s' ds h; cases h; exact .refl _
  | cons stmt ss ih =>
    intro b q s s' ds h
    obtain ⟨⟨s1, d⟩, h1, h⟩ := Out.bind_ok h
    obtain ⟨⟨s2, ds'⟩, h2, h⟩ := Out.bind_ok h
    cases Out.pure_ok h
    obtain ⟨⟨t1, ins⟩, e1, h1⟩ := Out.bind_ok h1
    obtain ⟨⟨t2, outs⟩, e2, h1⟩ := Out.bind_ok h1
    obtain ⟨⟨t3, id⟩, e3, h1⟩ := Out.bind_ok h1
    cases Out.pure_ok h1
    exact (((allocInputs_traced e1).trans (allocOutputs_traced e2)).trans
      (allocInsertId_traced e3)).trans (ih h2)

theorem allocTrx_traced {stmts : GoMap String (List Stmt)} {rl : RunLevel} {total : Nat}
    {ns : List String} : ∀ {t : Nat} {done : List StmtData} {s s' : ScopeLog} {ds : List StmtData},
    allocTrx stmts rl total t done s ns = .ok (s', ds) → Traced s s' := by
  induction ns with
  | nil => intro t done s s' ds h; cases h; exact .refl _
  | cons n ns ih =>
    intro t done s s' ds h
    simp only [allocTrx] at h
    split at h
    · cases h
    · obtain ⟨⟨s1, d1⟩, h1, h⟩ := Out.bind_ok h
      dsimp only at h
      split at h
      · cases h
      · exact (allocStmts_traced h1).trans (ih h)

theorem allocClientLoop_traced {env : WEnv} {cg : CGCfg} {pq pt : Option Nat} {pc pe : Nat}
    {k : Nat} : ∀ {rl : RunLevel} {c : Nat} {st st' : WState} {as : List AClient},
    allocClientLoop env cg rl pq pt pc pe c st k = .ok (st', as) → Traced st.sl st'.sl := by
  induction k with
  | zero => intro rl c st st' as h; cases h; exact .refl _
  | succ k ih =>
    intro rl c st st' as h
    obtain ⟨⟨st1, a⟩, h1, h⟩ := Out.bind_ok h
    obtain ⟨⟨st2, as'⟩, h2, h⟩ := Out.bind_ok h
    cases Out.pure_ok h
    obtain ⟨⟨sl, ds⟩, h3, h1⟩ := Out.bind_ok h1
    cases Out.pure_ok h1
    exact (allocTrx_traced h3).trans (ih h2)

theorem allocCGLoop_traced {env : WEnv} {w : List CGCfg} {pq pt : Option Nat} {pe : Nat}
    {refs : List Nat} : ∀ {rl : RunLevel} {j : Nat} {st st' : WState} {gs : List ACGroup},
    allocCGLoop env w rl pq pt pe j st refs = .ok (st', gs) → Traced st.sl st'.sl := by
  induction refs with
  | nil => intro rl j st st' gs h; cases h; exact .refl _
  | cons ref refs ih =>
    intro rl j st st' gs h
    simp only [allocCGLoop] at h
    split at h
    · cases h
    · split at h
      · cases h
      · obtain ⟨⟨st1, cs⟩, h1, h⟩ := Out.bind_ok h
        obtain ⟨⟨st2, gs'⟩, h2, h⟩ := Out.bind_ok h
        cases Out.pure_ok h
        exact (allocClientLoop_traced h1).trans (ih h2)

theorem allocEGLoop_traced {env : WEnv} {w : List CGCfg} {pq pt : Option Nat}
    {gs : List (List Nat)} : ∀ {e : Nat} {st st' : WState} {res : List (List ACGroup)},
    allocEGLoop env w pq pt e st gs = .ok (st', res) → Traced st.sl st'.sl := by
  induction gs with
  | nil => intro e st st' res h; cases h; exact .refl _
  | cons g gs ih =>
    intro e st st' res h
    simp only [allocEGLoop] at h
    split at h
    · cases h
    · split at h
      · cases h
      · obtain ⟨⟨st1, cgs⟩, h1, h⟩ := Out.bind_ok h
        obtain ⟨⟨st2, rest⟩, h2, h⟩ := Out.bind_ok h
        cases Out.pure_ok h
        exact (allocCGLoop_traced h1).trans (ih h2)

/-- Spec: after the history `pre` a stage with this number can begin: nothing of it or of a later
stage has been allocated. -/
def StageBegins (stage1 : Nat) (pre : List ScopeOp) (stage : Nat) : Prop :=
  AllocOrdered stage1 RunLevel.zero (pre ++ [.copy "" ⟨stage, 0, 0, 0, 0, 0⟩])

theorem sorted_ordered {stage : Nat} {l : List CopyObs} : ∀ {last : RunLevel}, LogSorted l →
    (∀ o ∈ l, o.rl.stage = stage ∧ AllocLe last o.rl) →
    AllocOrdered stage last (l.map fun o => ScopeOp.copy o.key o.rl) := by
  induction l with
  | nil => intros; trivial
  | cons o l ih =>
    intro last hs ho
    obtain ⟨h1, h2⟩ := ho o (by simp)
    obtain ⟨h3, h4⟩ := List.pairwise_cons.mp hs
    exact ⟨h1, h2, ih h4 fun x hx => ⟨(ho x (by simp [hx])).1, h3 x hx⟩⟩

theorem ordered_append {stage : Nat} {l : List CopyObs} {pre : List ScopeOp} :
    ∀ {cur : Nat} {last : RunLevel},
    AllocOrdered cur last (pre ++ [.copy "" ⟨stage, 0, 0, 0, 0, 0⟩]) → LogSorted l →
    (∀ o ∈ l, o.rl.stage = stage) →
    AllocOrdered cur last (pre ++ l.map fun o => ScopeOp.copy o.key o.rl) := by
  induction pre with
  | nil =>
    intro cur last h hs ho
    obtain ⟨rfl, h2, -⟩ := h
    refine sorted_ordered hs fun o ho' => ⟨ho o ho', allocLe_trans h2 ?_⟩
    have := ho o ho'
    simp [AllocLe]; omega
  | cons op pre ih =>
    intro cur last h hs ho
    cases op with
    | reset n => exact ⟨h.1, ih h.2 hs ho⟩
    | load k kk => exact ih (last := last) h hs ho
    | copy k rl => exact ⟨h.1, h.2.1, ih h.2.2 hs ho⟩

/-- Everything about the history of an allocation. -/
theorem alloc_history {env : WEnv} {w : List CGCfg} {q t : Nat} {s : DataScope}
    {groups : List (List Nat)} {st : WState} {res : List (List ACGroup)} (hne : NoEmptyTrx env w)
    (h : allocClients env w q t s groups = .ok (st, res)) {stage1 : Nat} {pre : List ScopeOp}
    {obs : List CopyObs} (hpre : DataScope.new.run pre = .ok (s, obs))
    (hbeg : StageBegins stage1 pre env.stage) :
    DataScope.new.run (pre ++ st.sl.log.map fun o => ScopeOp.copy o.key o.rl) =
      .ok (st.sl.scope, obs ++ st.sl.log) ∧
    AllocOrdered stage1 RunLevel.zero (pre ++ st.sl.log.map fun o => ScopeOp.copy o.key o.rl) := by
  obtain ⟨h1, l, h2, h3, h4, h5⟩ := allocEGLoop_log hne h
  obtain ⟨l', g1, g2⟩ := allocEGLoop_traced h
  have e1 : st.sl.log = l := by rw [h2]; rfl
  have e2 : st.sl.log = l' := by rw [g1]; rfl
  constructor
  · rw [← e2] at g2
    exact scopeRun_append hpre g2
  · rw [e1]
    refine ordered_append hbeg h3 ?_
    intro o ho
    obtain ⟨x, j, c, t, q, -, he⟩ := h4 o ho
    rw [he]

/-- Spec: `r` is input number `x` of statement number `i` of a client; `rl` is the position of the
statement. -/
def InputAt (env : WEnv) (w : List CGCfg) (groups : List (List Nat)) (res : List (List ACGroup))
    (e j c i x : Nat) (rl : RunLevel) (r : InRef) : Prop :=
  ∃ a cg d t q, ClientAt res e j c a ∧ CfgAt w groups e j cg ∧ a.data[i]? = some d ∧
    d.inputs[x]? = some r ∧ (stmtPositions env.stmts 0 cg.trx)[i]? = some (t, q) ∧
    rl = ⟨env.stage, e + 1, j + 1, c + 1, t, q⟩

theorem pick_at {ks : List String} : ∀ {cs : List Bool} {gs : List (Option Nat)} {x : Nat} {r : InRef},
    (pick ks cs gs)[x]? = some r →
    ∃ n, x ≤ n ∧ ks[n]? = some r.key ∧ gs[n]? = some (some r.gen) ∧ cs[n]? = some r.explicit ∧
      ∀ y r', x < y → (pick ks cs gs)[y]? = some r' →
        ∃ m, n < m ∧ ks[m]? = some r'.key ∧ gs[m]? = some (some r'.gen) := by
  induction ks with
  | nil => intro cs gs x r h; simp [pick] at h
  | cons k ks ih =>
    intro cs gs x r h
    cases gs with
    | nil => cases cs <;> simp [pick] at h
    | cons g gs =>
      cases g with
      | none =>
        simp only [pick] at h ⊢
        obtain ⟨n, h0, h1, h2, h3, h4⟩ := ih h
        refine ⟨n + 1, by omega, by simpa using h1, by simpa using h2, ?_, ?_⟩
        · rw [List.getElem?_drop] at h3
          rw [Nat.add_comm]; exact h3
        · intro y r' hy hr'
          obtain ⟨m, e1, e2, e3⟩ := h4 y r' hy hr'
          exact ⟨m + 1, by omega, by simpa using e2, by simpa using e3⟩
      | some a =>
        cases cs with
        | nil => simp [pick] at h
        | cons c cs =>
          simp only [pick] at h ⊢
          cases x with
          | zero =>
            simp only [List.getElem?_cons_zero, Option.some.injEq] at h
            subst h
            refine ⟨0, by omega, rfl, rfl, rfl, ?_⟩
            intro y r' hy hr'
            obtain ⟨y, rfl⟩ := Nat.exists_eq_succ_of_ne_zero (show y ≠ 0 by omega)
            simp only [List.getElem?_cons_succ] at hr'
            obtain ⟨n, -, h1, h2, -, -⟩ := ih hr'
            exact ⟨n + 1, by omega, by simpa using h1, by simpa using h2⟩
          | succ x =>
            simp only [List.getElem?_cons_succ] at h
            obtain ⟨n, h0, h1, h2, h3, h4⟩ := ih h
            refine ⟨n + 1, by omega, by simpa using h1, by simpa using h2, by simpa using h3, ?_⟩
            intro y r' hy hr'
            obtain ⟨y, rfl⟩ := Nat.exists_eq_succ_of_ne_zero (show y ≠ 0 by omega)
            simp only [List.getElem?_cons_succ] at hr'
            obtain ⟨m, e1, e2, e3⟩ := h4 y r' (by omega) hr'
            exact ⟨m + 1, by omega, by simpa using e2, by simpa using e3⟩

theorem stmtPositions_gt {stmts : GoMap String (List Stmt)} {ns : List String} : ∀ {t : Nat},
    ∀ p ∈ stmtPositions stmts t ns, t < p.1 := by
  induction ns with
  | nil => intro t p hp; simp [stmtPositions] at hp
  | cons n ns ih =>
    intro t p hp
    simp only [stmtPositions, List.mem_append, List.mem_map, List.mem_range] at hp
    rcases hp with ⟨q, -, rfl⟩ | hp
    · exact Nat.lt_succ_self t
    · have := ih p hp; omega

theorem stmtPositions_nodup {stmts : GoMap String (List Stmt)} {ns : List String} : ∀ {t : Nat},
    (stmtPositions stmts t ns).Nodup := by
  induction ns with
  | nil => intro t; exact List.nodup_nil
  | cons n ns ih =>
    intro t
    refine List.nodup_append.mpr ⟨?_, ih, ?_⟩
    · refine List.Nodup.map ?_ List.nodup_range
      intro a b h
      simpa using h
    · intro a ha b hb hab
      obtain ⟨q, -, rfl⟩ := List.mem_map.mp ha
      have := stmtPositions_gt b hb
      rw [← hab] at this
      exact absurd this (Nat.lt_irrefl _)

/-- One input of an allocated client comes from a `Copy` call at its position. -/
theorem inputAt_log {env : WEnv} {w : List CGCfg} {q t : Nat} {s : DataScope}
    {groups : List (List Nat)} {st : WState} {res : List (List ACGroup)} (hne : NoEmptyTrx env w)
    (h : allocClients env w q t s groups = .ok (st, res)) {e j c i x : Nat} {rl : RunLevel}
    {r : InRef} (hr : InputAt env w groups res e j c i x rl r) :
    ∃ z : List CopyObs, List.Sublist z st.sl.log ∧ (∃ n : Nat, z[n]? = some ⟨r.key, rl, some r.gen⟩ ∧
      ∀ y rl' r', x < y → InputAt env w groups res e j c i y rl' r' →
        ∃ m, n < m ∧ z[m]? = some ⟨r'.key, rl', some r'.gen⟩) := by
  obtain ⟨a, cg, d, t', q', ha, hcg, hd, hx, hp, rfl⟩ := hr
  obtain ⟨cg', hcg', -, hok⟩ := allocClients_at hne h ha
  have uniq : ∀ {c1 c2 : CGCfg}, CfgAt w groups e j c1 → CfgAt w groups e j c2 → c1 = c2 := by
    rintro c1 c2 ⟨g, ref, e1, e2, e3⟩ ⟨g', ref', f1, f2, f3⟩
    rw [e1] at f1; cases f1
    rw [e2] at f2; cases f2
    rw [e3] at f3; cases f3
    rfl
  cases uniq hcg hcg'
  obtain ⟨t2, q2, stmt, li, p1, p2, p3, p4⟩ := hok.prov.at.2.2 i d hd
  rw [hp] at p1
  cases p1
  obtain ⟨gs, g1, g2, g3⟩ := p4.inputs
  refine ⟨_, g3.trans p3, ?_⟩
  rw [g2] at hx
  obtain ⟨n, -, n1, n2, -, n4⟩ := pick_at hx
  refine ⟨n, by rw [List.getElem?_zipWith, n1, n2], ?_⟩
  rintro y rl' r' hy ⟨a', cg2, d', t3, q3, ha', hcg2, hd', hy', hp', rfl⟩
  cases uniq hcg hcg2
  have : a' = a := by
    obtain ⟨_, _, u1, u2, u3⟩ := ha
    obtain ⟨_, _, v1, v2, v3⟩ := ha'
    rw [u1] at v1; cases v1
    rw [u2] at v2; cases v2
    rw [u3] at v3; cases v3
    rfl
  subst this
  rw [hd] at hd'
  cases hd'
  rw [hp] at hp'
  cases hp'
  rw [g2] at hy'
  obtain ⟨m, m1, m2, m3⟩ := n4 y r' hy hy'
  exact ⟨m, m1, by rw [List.getElem?_zipWith, m2, m3]⟩

/-- **C01 for allocated clients.** Let `pre` be the scope operations before the stage (loading keys,
earlier stages), and let the allocation of the stage succeed. Then any two different inputs with the
same data key (of any scope but global), of whatever statements of whatever clients, are served by the
same generator if and only if their statements lie in the same instance of the scope. -/
theorem C01_allocated_clients (k : String) (sc : Scope) (hp : k ≠ "@PREV") (hk : k ≠ noopColumn)
    (hg : sc ≠ .global) {stage1 : Nat} (h1 : 0 < stage1) {pre : List ScopeOp} {obs : List CopyObs}
    {s : DataScope} (hpre : DataScope.new.run pre = .ok (s, obs)) (hload : LoadsWith k sc pre)
    {env : WEnv} (hbeg : StageBegins stage1 pre env.stage) {w : List CGCfg} {qps tps : Nat}
    {groups : List (List Nat)} {st : WState} {res : List (List ACGroup)} (hne : NoEmptyTrx env w)
    (h : allocClients env w qps tps s groups = .ok (st, res))
    {e j c i x e' j' c' i' x' : Nat} {rl rl' : RunLevel} {r r' : InRef}
    (hr : InputAt env w groups res e j c i x rl r)
    (hr' : InputAt env w groups res e' j' c' i' x' rl' r')
    (hrk : r.key = k) (hrk' : r'.key = k) (hdiff : (e, j, c, i, x) ≠ (e', j', c', i', x')) :
    r.gen = r'.gen ↔ SameInstance sc rl rl' := by
  obtain ⟨hrun, hord⟩ := alloc_history hne h hpre hbeg
  have hload' : LoadsWith k sc (pre ++ st.sl.log.map fun o => ScopeOp.copy o.key o.rl) := by
    intro key hm
    rcases List.mem_append.mp hm with hm | hm
    · exact hload key hm
    · simp at hm
  have hpair := (C01_same_generator_iff_same_scope_instance k sc hp hk hg stage1 h1 _ hord hload' _ _
    hrun).1
  rw [List.pairwise_filter] at hpair
  have hpair := (List.pairwise_append.mp hpair).2.1
  have hsame : ∀ (y z : Nat), y ≠ z → ∀ (rl rl' : RunLevel) (r r' : InRef),
      InputAt env w groups res e j c i y rl r → InputAt env w groups res e j c i z rl' r' →
      r.key = k → r'.key = k → (r.gen = r'.gen ↔ SameInstance sc rl rl') := by
    have hlt : ∀ (y z : Nat), y < z → ∀ (rl rl' : RunLevel) (r r' : InRef),
        InputAt env w groups res e j c i y rl r → InputAt env w groups res e j c i z rl' r' →
        r.key = k → r'.key = k → (r.gen = r'.gen ↔ SameInstance sc rl rl') := by
      intro y z hyz rl rl' r r' hr hr' hrk hrk'
      obtain ⟨l, l1, n, l2, l3⟩ := inputAt_log hne h hr
      obtain ⟨m, m1, m2⟩ := l3 z rl' r' hyz hr'
      have hl := hpair.sublist l1
      obtain ⟨b1, b2⟩ := List.getElem?_eq_some_iff.mp l2
      obtain ⟨c1, c2⟩ := List.getElem?_eq_some_iff.mp m2
      have := List.pairwise_iff_getElem.mp hl n m b1 c1 m1
      rw [b2, c2] at this
      have := this (by simp [hrk]) (by simp [hrk'])
      simpa using this
    intro y z hyz rl rl' r r' hr hr' hrk hrk'
    rcases Nat.lt_or_gt_of_ne hyz with hyz | hyz
    · exact hlt y z hyz rl rl' r r' hr hr' hrk hrk'
    · have := hlt z y hyz rl' rl r' r hr' hr hrk' hrk
      constructor
      · intro he; exact sameInstance_symm (this.mp he.symm)
      · intro he; exact (this.mpr (sameInstance_symm he)).symm
  by_cases hst : (e, j, c, i) = (e', j', c', i')
  · cases hst
    refine hsame x x' ?_ rl rl' r r' hr hr' hrk hrk'
    intro hx; exact hdiff (by rw [hx])
  · have hrl : rl ≠ rl' := by
      obtain ⟨a, cg, d, t, q, -, hcg, -, -, hpos, rfl⟩ := hr
      obtain ⟨a', cg', d', t', q', -, hcg', -, -, hpos', rfl⟩ := hr'
      intro he
      injection he with _ he1 he2 he3 he4 he5
      obtain rfl : e = e' := by omega
      obtain rfl : j = j' := by omega
      obtain rfl : c = c' := by omega
      obtain ⟨g, ref, u1, u2, u3⟩ := hcg
      obtain ⟨g', ref', v1, v2, v3⟩ := hcg'
      rw [u1] at v1; cases v1
      rw [u2] at v2; cases v2
      rw [u3] at v3; cases v3
      obtain ⟨b1, b2⟩ := List.getElem?_eq_some_iff.mp hpos
      obtain ⟨c1, c2⟩ := List.getElem?_eq_some_iff.mp hpos'
      have := (stmtPositions_nodup (stmts := env.stmts) (ns := cg.trx) (t := 0)).getElem_inj_iff
        (hi := b1) (hj := c1)
      rw [b2, c2, he4, he5] at this
      have hi := this.mp rfl
      exact hst (by rw [hi])
    obtain ⟨l, l1, n, l2, -⟩ := inputAt_log hne h hr
    obtain ⟨l', l1', n', l2', -⟩ := inputAt_log hne h hr'
    have hm := l1.subset (List.mem_of_getElem? l2)
    have hm' := l1'.subset (List.mem_of_getElem? l2')
    have hsym : ∀ {x y : CopyObs}, ((x.key == k) = true → (y.key == k) = true →
        (x.out = y.out ↔ SameInstance sc x.rl y.rl)) →
        ((y.key == k) = true → (x.key == k) = true →
        (y.out = x.out ↔ SameInstance sc y.rl x.rl)) := by
      intro x y hxy hy hx
      have := hxy hx hy
      constructor
      · intro he; exact sameInstance_symm (this.mp he.symm)
      · intro he; exact (this.mpr (sameInstance_symm he)).symm
    have : Std.Symm (fun x y : CopyObs => (x.key == k) = true → (y.key == k) = true →
        (x.out = y.out ↔ SameInstance sc x.rl y.rl)) := ⟨fun _ _ => hsym⟩
    have := hpair.forall hm hm' (by intro he; injection he; contradiction)
      (by simp [hrk]) (by simp [hrk'])
    simpa using this

/-- Spec: `g` is what saves column `k` (output or insert id) in statement number `i` of a client. -/
def SaverAt (env : WEnv) (w : List CGCfg) (groups : List (List Nat)) (res : List (List ACGroup))
    (e j c i : Nat) (rl : RunLevel) (k : String) (g : Nat) : Prop :=
  ∃ a cg d stmt t q, ClientAt res e j c a ∧ CfgAt w groups e j cg ∧ a.data[i]? = some d ∧
    a.statements[i]? = some stmt ∧
    ((∃ x : Nat, stmt.outputs[x]? = some k ∧ k ≠ stmt.insertId ∧ d.outputs[x]? = some (some g)) ∨
      (stmt.insertId = k ∧ d.insertId = some g)) ∧
    (stmtPositions env.stmts 0 cg.trx)[i]? = some (t, q) ∧
    rl = ⟨env.stage, e + 1, j + 1, c + 1, t, q⟩

theorem saverAt_log {env : WEnv} {w : List CGCfg} {q t : Nat} {s : DataScope}
    {groups : List (List Nat)} {st : WState} {res : List (List ACGroup)} (hne : NoEmptyTrx env w)
    (h : allocClients env w q t s groups = .ok (st, res)) {e j c i : Nat} {rl : RunLevel}
    {k : String} {g : Nat} (hr : SaverAt env w groups res e j c i rl k g) :
    ⟨k, rl, some g⟩ ∈ st.sl.log := by
  obtain ⟨a, cg, d, stmt, t', q', ha, hcg, hd, hstmt, hx, hp, rfl⟩ := hr
  obtain ⟨cg', hcg', -, hok⟩ := allocClients_at hne h ha
  have : cg = cg' := by
    obtain ⟨g, ref, e1, e2, e3⟩ := hcg
    obtain ⟨g', ref', f1, f2, f3⟩ := hcg'
    rw [e1] at f1; cases f1
    rw [e2] at f2; cases f2
    rw [e3] at f3; cases f3
    rfl
  cases this
  obtain ⟨t2, q2, stmt', li, p1, p2, p3, p4⟩ := hok.prov.at.2.2 i d hd
  rw [hp] at p1
  cases p1
  rw [hok.statements, p2] at hstmt
  cases hstmt
  rcases hx with ⟨x, x1, x2, x3⟩ | ⟨rfl, x2⟩
  · obtain ⟨g', y1, y2⟩ := p4.outputs.2.1 x k x1 x2
    rw [x3] at y1
    cases y1
    exact p3.subset y2
  · rcases p4.insertId with ⟨-, y⟩ | ⟨g', y1, y2⟩
    · rw [x2] at y; cases y
    · rw [x2] at y1
      cases y1
      exact p3.subset y2

/-- **C01 for saved columns.** What saves a column and the input that uses it are the same generator
if and only if the two statements lie in the same instance of the column's scope (by default the
trx). -/
theorem C01_saved_columns (k : String) (sc : Scope) (hp : k ≠ "@PREV") (hk : k ≠ noopColumn)
    (hg : sc ≠ .global) (hv : sc ≠ .value) {stage1 : Nat} (h1 : 0 < stage1) {pre : List ScopeOp}
    {obs : List CopyObs} {s : DataScope} (hpre : DataScope.new.run pre = .ok (s, obs))
    (hload : LoadsWith k sc pre) {env : WEnv} (hbeg : StageBegins stage1 pre env.stage)
    {w : List CGCfg} {qps tps : Nat} {groups : List (List Nat)} {st : WState}
    {res : List (List ACGroup)} (hne : NoEmptyTrx env w)
    (h : allocClients env w qps tps s groups = .ok (st, res))
    {e j c i e' j' c' i' x' : Nat} {rl rl' : RunLevel} {g : Nat} {r' : InRef}
    (hr : SaverAt env w groups res e j c i rl k g)
    (hr' : InputAt env w groups res e' j' c' i' x' rl' r') (hrk' : r'.key = k) :
    g = r'.gen ↔ SameInstance sc rl rl' := by
  obtain ⟨hrun, hord⟩ := alloc_history hne h hpre hbeg
  have hload' : LoadsWith k sc (pre ++ st.sl.log.map fun o => ScopeOp.copy o.key o.rl) := by
    intro key hm
    rcases List.mem_append.mp hm with hm | hm
    · exact hload key hm
    · simp at hm
  have hpair := (C01_same_generator_iff_same_scope_instance k sc hp hk hg stage1 h1 _ hord hload' _ _
    hrun).1
  rw [List.pairwise_filter] at hpair
  have hpair := (List.pairwise_append.mp hpair).2.1
  have hm := saverAt_log hne h hr
  obtain ⟨l', l1', n', l2', -⟩ := inputAt_log hne h hr'
  have hm' := l1'.subset (List.mem_of_getElem? l2')
  have : Std.Symm (fun x y : CopyObs => (x.key == k) = true → (y.key == k) = true →
      (x.out = y.out ↔ SameInstance sc x.rl y.rl)) := by
    refine ⟨fun x y hxy hy hx => ?_⟩
    have := hxy hx hy
    constructor
    · intro he; exact sameInstance_symm (this.mp he.symm)
    · intro he; exact (this.mpr (sameInstance_symm he)).symm
  have := hpair.forall_of_forall (by
    intro x _ _ _
    have : SameInstance sc x.rl x.rl := by cases sc <;> simp_all [SameInstance]
    simp [this]) hm hm' (by simp) (by simp [hrk'])
  simpa using this

theorem prev_none {ops : List ScopeOp} : ∀ {s s' : DataScope} {obs : List CopyObs},
    s.run ops = .ok (s', obs) → ∀ o ∈ obs, o.key = "@PREV" → o.out = none := by
  induction ops with
  | nil => intro s s' obs h; cases h; simp
  | cons op ops ih =>
    intro s s' obs h
    cases op with
    | reset n => exact ih (s := s.reset) h
    | load k kk => exact ih (s := s.load k kk) h
    | copy k rl =>
      simp only [DataScope.run] at h
      split at h
      · cases h
      · rename_i s1 out hc
        split at h
        · cases h
        · rename_i s2 obs' hr
          cases h
          intro o ho hk
          rcases List.mem_cons.mp ho with rfl | ho
          · subst hk
            rw [C02_prev_has_no_generator] at hc
            cases hc
            rfl
          · exact ih hr o ho hk

theorem pick_all {rl : RunLevel} {ks : List String} : ∀ {cs : List Bool} {gs : List (Option Nat)},
    cs.length = ks.length → gs.length = ks.length →
    (∀ o ∈ List.zipWith (fun k g => (⟨k, rl, g⟩ : CopyObs)) ks gs, o.key = "@PREV" ↔ o.out = none) →
    (pick ks cs gs).map (fun r => (r.key, r.explicit)) = (ks.zip cs).filter (·.1 ≠ "@PREV") := by
  induction ks with
  | nil => intro cs gs _ _ _; simp [pick]
  | cons k ks ih =>
    intro cs gs hc hg ho
    cases cs with
    | nil => simp at hc
    | cons c cs =>
      cases gs with
      | nil => simp at hg
      | cons g gs =>
        have hi := ih (cs := cs) (gs := gs) (by simpa using hc) (by simpa using hg)
          (fun o h => ho o (by simp [h]))
        have hk := ho ⟨k, rl, g⟩ (by simp)
        dsimp only at hk
        cases g with
        | none => simp [pick, hk.mpr rfl, hi]
        | some a =>
          have : k ≠ "@PREV" := fun he => by have := hk.mp he; cases this
          simp [pick, this, hi]

/-- **C02 for allocated clients.** If no data key of the stage has global scope, then every data key
of every statement of every client, other than `@PREV`, has a generator, in the order of the query
and with its call mark. What is missing from the full claim: keys of global scope, for which it is
false (`C02_global_scope_never_gets_a_generator`). -/
theorem C02_allocated_clients_partial {stage1 : Nat} (h1 : 0 < stage1) {pre : List ScopeOp}
    {obs : List CopyObs} {s : DataScope} (hpre : DataScope.new.run pre = .ok (s, obs))
    {env : WEnv} (hbeg : StageBegins stage1 pre env.stage)
    {w : List CGCfg} {qps tps : Nat} {groups : List (List Nat)} {st : WState}
    {res : List (List ACGroup)} (hne : NoEmptyTrx env w)
    (h : allocClients env w qps tps s groups = .ok (st, res))
    {e j c i : Nat} {a : AClient} {stmt : Stmt} {d : StmtData} (ha : ClientAt res e j c a)
    (hst : a.statements[i]? = some stmt) (hd : a.data[i]? = some d)
    (hcalls : stmt.calls.length = stmt.inputs.length)
    (hscope : ∀ k ∈ stmt.inputs, k = "@PREV" ∨
      (k ≠ noopColumn ∧ ∃ sc, sc ≠ .global ∧ LoadsWith k sc pre)) :
    d.inputs.map (fun r => (r.key, r.explicit)) =
      (stmt.inputs.zip stmt.calls).filter (·.1 ≠ "@PREV") := by
  obtain ⟨hrun, hord⟩ := alloc_history hne h hpre hbeg
  obtain ⟨cg, -, -, hok⟩ := allocClients_at hne h ha
  obtain ⟨t2, q2, stmt', li, p1, p2, p3, p4⟩ := hok.prov.at.2.2 i d hd
  rw [hok.statements, p2] at hst
  cases hst
  obtain ⟨gs, g1, g2, g3⟩ := p4.inputs
  rw [g2]
  refine pick_all (rl := ⟨env.stage, e + 1, j + 1, c + 1, t2, q2⟩) hcalls g1 ?_
  intro o ho
  have hmem : o ∈ obs ++ st.sl.log := List.mem_append.mpr (Or.inr ((g3.trans p3).subset ho))
  have hkey : o.key ∈ stmt.inputs := by
    obtain ⟨n, hn⟩ := List.mem_iff_getElem?.mp ho
    rw [List.getElem?_zipWith] at hn
    split at hn
    · rename_i a b ha hb
      cases hn
      exact List.mem_of_getElem? ha
    · cases hn
  constructor
  · exact prev_none hrun o hmem
  · intro hnone
    rcases hscope _ hkey with hk | ⟨hk, sc, hsc, hload⟩
    · exact hk
    · by_contra hp
      have hload' : LoadsWith o.key sc (pre ++ st.sl.log.map fun o => ScopeOp.copy o.key o.rl) := by
        intro key hm
        rcases List.mem_append.mp hm with hm | hm
        · exact hload key hm
        · simp at hm
      have := (C01_same_generator_iff_same_scope_instance o.key sc hp hk hsc stage1 h1 _ hord hload'
        _ _ hrun).2 o hmem rfl
      rw [hnone] at this
      cases this

/-! ### Example -/

/-- Two execution groups; the first has a group of two clients and a group of one, which share a
limit of iterations. -/
def demoW : List CGCfg :=
  [{ clients := "2", group := "a", trx := ["t", "u"], iterExecGroup := "10", iterClients := "6" },
   { clients := "1", group := "a", trx := ["t"], iterExecGroup := "10" },
   { clients := "1", group := "b", trx := ["u"], iter := "3" }]

def demoStmt (ins : List String) (calls : List Bool) (outs : List String) : Stmt :=
  ⟨"t", [], true, false, 0, false, false, false, false, 0, ins, outs, "", none, calls⟩

/-- A trx of two statements that saves and uses a column and one of a single statement. -/
def demoStmts : GoMap String (List Stmt) :=
  (GoMap.empty.set "t"
    [demoStmt [] [] ["@c"], demoStmt ["@c", "@d", "@PREV"] [false, true, false] []]).set
    "u" [demoStmt ["@d"] [false] []]

def demoEnvW : WEnv := ⟨demoStmts, 1, true, fun _ _ => false⟩

def demoPre : List ScopeOp := [.load "@c" ⟨none, true⟩, .load "@d" ⟨some .client, false⟩]

/-- Result of an `Out` computation, if any. -/
def Out.toOption {α : Type} : Out α → Option α
  | .ok a => some a
  | _ => none

def demoAlloc : Option (WState × List (List ACGroup)) :=
  (allocClients demoEnvW demoW 0 0
    ((DataScope.new.load "@c" ⟨none, true⟩).load "@d" ⟨some .client, false⟩) [[0, 1], [2]]).toOption

/-- The demo workload: the inputs of each client (data key and generator) and the counters. -/
example : (demoAlloc.map fun r => r.2.flatten.flatMap fun g => g.clients.map fun a =>
      a.data.flatMap fun d => d.inputs.map fun r => (r.key, r.gen)) =
    some [[("@c", 0), ("@d", 1), ("@d", 1)], [("@c", 2), ("@d", 3), ("@d", 3)],
      [("@c", 4), ("@d", 5)], [("@d", 6)]] := by decide +kernel

example : (demoAlloc.map fun r => r.2.flatten.flatMap fun g => g.clients.map fun a => a.rl) =
    some [⟨1, 1, 1, 1, 0, 0⟩, ⟨1, 1, 1, 2, 0, 0⟩, ⟨1, 1, 2, 1, 0, 0⟩, ⟨1, 2, 1, 1, 0, 0⟩] := by
  decide +kernel

example : (demoAlloc.map fun r => r.2.flatten.flatMap fun g => g.clients.map fun a =>
      [a.iterClients, a.iterExecGroup]) =
    some [[some (6, 1), some (10, 0)], [some (6, 1), some (10, 0)], [none, some (10, 0)],
      [none, none]] := by decide +kernel

example : StageBegins 1 demoPre 1 ∧ NoEmptyTrx demoEnvW demoW ∧
    LoadsWith "@c" .trx demoPre ∧ LoadsWith "@d" .client demoPre := by
  refine ⟨by simp [StageBegins, demoPre, AllocOrdered, AllocLe, RunLevel.zero], ?_, ?_, ?_⟩
  · unfold NoEmptyTrx; decide
  · intro key h; simp [demoPre] at h; subst h; rfl
  · intro key h; simp [demoPre] at h; subst h; rfl

/-- **C43 (negation).** A shared limit of 2^32 iterations is stored as 0, which the client takes for
"unlimited" (client/client.go:228). -/
theorem C43_large_limit_false : ∃ (cg : CGCfg) (r : WState × List (List ACGroup)),
    finchUint cg.iterClients = 2 ^ 32 ∧
    allocClients demoEnvW [cg] 0 0 (DataScope.new.load "@d" ⟨none, false⟩) [[0]] = .ok r ∧
    r.2.map (·.map (·.clients.map (·.iterClients))) = [[[some (0, 1)]]] :=
  ⟨{ clients := "1", trx := ["u"], iterClients := "4294967296" }, _, by decide +kernel, rfl, by decide +kernel⟩

end Finch
