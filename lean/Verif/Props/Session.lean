import Verif.Props.SessionTrx
/-!
# C114: clients, their data generators and what they send

For all clients of a stage running in any order, with whatever answers of MySQL: the values of a data key
with a single-client scope depend only on the run of the one client that uses them, they are the same
within one iteration of the scope, and every statement is sent with the values generated for it just
before.
-/
namespace Finch

variable {G : Type}

/-- Spec: all clients of an allocation and their generators, after steps `xs`. -/
def sessionOf (o : FmtOther) (ops : GenOps G) (tbl : GoMap Nat Nat) (st : WState)
    (res : List (List ACGroup)) (g : GenStart G) (xs : List SIn) : Sess G :=
  (Sess.init (cliAt tbl res) st.sl.scope.made g).run o ops (cliAt tbl res) xs

variable {pre : List ScopeOp} {env : WEnv} {w : List CGCfg} {groups : List (List Nat)} {st : WState}
  {res : List (List ACGroup)}

theorem Staged.beginsBusy (hs : Staged pre env w groups st res) (hb : NoIdleFirst env)
    {e j c i x : Nat} {rl : RunLevel} {r : InRef} (hr : InputAt env w groups res e j c i x rl r)
    (tbl : GoMap Nat Nat) : BeginsBusy (cliAt tbl res (e, j, c)) := by
  obtain ⟨a, cg, d, t, q, ha, hcg, -, -, -, -⟩ := hr
  rw [cliAt_eq ha]
  exact (hs.trxNumbers hb ha hcg tbl).beginsBusy

theorem Staged.initial {k : String} {sc : Scope} (hs : Staged pre env w groups st res)
    (hload : LoadsWith k sc pre) (hk : k ≠ noopColumn) (hnk : ¬ (sc = .stage ∨ sc = .global)) {e j c i x : Nat}
    {rl : RunLevel} {r : InRef} (hr : InputAt env w groups res e j c i x rl r) (hrk : r.key = k) (cs : ClientNo → Cli)
    (g : GenStart G) :
    (Sess.init cs st.sl.scope.made g).gens r.gen = ScopedGen.new sc (g.new k r.gen) := by
  obtain ⟨i, h1, -, h3⟩ := hs.madeFor hload (hs.input_log hr) rfl
  dsimp only at h1 h3
  rw [hrk] at h3
  obtain ⟨h4, h5⟩ := h3 hk
  simp only [Sess.init, h1, Option.map_some, Option.getD_some, h4, h5 rfl]
  rw [if_neg hnk]

/-- **C114 (refinement).** For every data key with a single-client scope that is not a saved column, and
every input of a client with this key: its generator is used by this client only, in the order in which
the client runs its statements, and the values it returns are those of the key's data generator called on
each explicit use and at the first use in each statement, trx, iteration or connection (whichever the
scope says). The other clients, the rows they read and the order in which all clients run do not matter.

For trx scope no trx begins with idle time (false otherwise, `C79_idle_first_false`). -/
theorem C114_values_partial (o : FmtOther) (ops : GenOps G) (tbl : GoMap Nat Nat) (g : GenStart G)
    (xs : List SIn) {k : String} {sc : Scope} (hs : Staged pre env w groups st res)
    (hload : LoadsWith k sc pre) (hp : k ≠ "@PREV") (hk : k ≠ noopColumn) (hsc : IsSingle sc)
    (hsv : SavedNowhere env k) (hb : sc = .trx → NoIdleFirst env)
    {e j c i x : Nat} {rl : RunLevel} {r : InRef} (hr : InputAt env w groups res e j c i x rl r)
    (hrk : r.key = k) :
    let cli := cliAt tbl res (e, j, c)
    let us := usesOf cli r.gen (CState.init.run cli (answersTo (e, j, c) xs)).trace
    usesIn r.gen (sessionOf o ops tbl st res g xs).hist =
      us.zip ((expected ops.values sc none (g.new k r.gen) us).map some) := by
  intro cli us
  have hg : sc ≠ .global := by rcases hsc with rfl | rfl | rfl | rfl | rfl <;> simp
  have h1 := usesIn_eq_usesOf o ops (cliAt tbl res) st.sl.scope.made g xs r.gen (e, j, c)
    (hs.one_client hload hp hk (Or.inr hsc) hr hrk tbl)
  have h2 := hist_values o ops (cliAt tbl res) st.sl.scope.made g xs r.gen
    (hs.notSaved hload hk hg hsv hr hrk tbl)
  dsimp only at h2
  rw [h1, hs.initial hload hk (by rcases hsc with rfl | rfl | rfl | rfl | rfl <;> simp) hr hrk] at h2
  have h3 := C79_generator_values_partial cli (answersTo (e, j, c) xs) r.gen ops.values sc hsc
    (fun ht => hs.beginsBusy (hb ht) hr tbl) (g.new k r.gen)
  have h4 := congrArg Prod.snd h2
  dsimp only at h4
  have h5 := h4.symm.trans h3
  show usesIn r.gen (sessionOf o ops tbl st res g xs).hist = _
  rw [← h5]
  show _ = (usesOf cli r.gen (CState.init.run cli (answersTo (e, j, c) xs)).trace).zip _
  rw [← h1]
  simp only [sessionOf]
  generalize usesIn r.gen _ = l
  rw [List.zip_map']
  simp

/-- **C114.** So what the other clients do makes no difference: in two runs of the stage in which a client
gets the same answers, its data keys of single-client scopes have the same values. -/
theorem C114_values_do_not_depend_on_others_partial (o o' : FmtOther) (ops : GenOps G) (tbl : GoMap Nat Nat)
    (g : GenStart G) (xs xs' : List SIn) {k : String} {sc : Scope}
    (hs : Staged pre env w groups st res) (hload : LoadsWith k sc pre) (hp : k ≠ "@PREV")
    (hk : k ≠ noopColumn) (hsc : IsSingle sc) (hsv : SavedNowhere env k) (hb : sc = .trx → NoIdleFirst env)
    {e j c i x : Nat} {rl : RunLevel} {r : InRef} (hr : InputAt env w groups res e j c i x rl r)
    (hrk : r.key = k) (hx : answersTo (e, j, c) xs = answersTo (e, j, c) xs') :
    usesIn r.gen (sessionOf o ops tbl st res g xs).hist =
      usesIn r.gen (sessionOf o' ops tbl st res g xs').hist := by
  rw [C114_values_partial o ops tbl g xs hs hload hp hk hsc hsv hb hr hrk,
    C114_values_partial o' ops tbl g xs' hs hload hp hk hsc hsv hb hr hrk, hx]

/-! ### Value scope -/

/-- Spec: a new value on each use. -/
def eachUse {V : Type} (f : GenFun G V) : G → List Use → List V
  | _, [] => []
  | g, u :: us => (f g u.cnt).2 :: eachUse f (f g u.cnt).1 us

theorem uses_value {V : Type} (f : GenFun G V) : ∀ (us : List Use) (s : ScopedGen G V), s.kind = .value →
    (s.uses f us).2 = (eachUse f s.g us).map some := by
  intro us
  induction us with
  | nil => intro s _; rfl
  | cons u us ih =>
    intro s hs
    have h1 : (s.use f u).1.kind = .value ∧ (s.use f u).1.g = (f s.g u.cnt).1 ∧
        (s.use f u).2 = some (f s.g u.cnt).2 := by
      unfold ScopedGen.use ScopedGen.call ScopedGen.values
      split <;> simp [hs]
    simp only [ScopedGen.uses, eachUse, List.map_cons]
    rw [ih _ h1.1, h1.2.1, h1.2.2]

/-- **C114.** A data key of value scope has its own generator for each place where it is used, and a new
value on each use. -/
theorem C114_value_scope (o : FmtOther) (ops : GenOps G) (tbl : GoMap Nat Nat) (g : GenStart G)
    (xs : List SIn) {k : String} (hs : Staged pre env w groups st res) (hload : LoadsWith k .value pre)
    (hp : k ≠ "@PREV") (hk : k ≠ noopColumn) (hsv : SavedNowhere env k)
    {e j c i x : Nat} {rl : RunLevel} {r : InRef} (hr : InputAt env w groups res e j c i x rl r)
    (hrk : r.key = k) :
    (∀ e' j' c' i' x' rl' r', InputAt env w groups res e' j' c' i' x' rl' r' → r'.gen = r.gen →
      (e', j', c', i', x') = (e, j, c, i, x)) ∧
    let cli := cliAt tbl res (e, j, c)
    let us := usesOf cli r.gen (CState.init.run cli (answersTo (e, j, c) xs)).trace
    usesIn r.gen (sessionOf o ops tbl st res g xs).hist =
      us.zip ((eachUse ops.values (g.new k r.gen) us).map some) := by
  have hg : Scope.value ≠ .global := by simp
  constructor
  · intro e' j' c' i' x' rl' r' hr' he
    rcases (hs.same_gen hload hp hk hg hr hr' hrk).1 he.symm with h | ⟨-, h⟩
    · exact h.symm
    · exact absurd h (by simp [SameInstance])
  · intro cli us
    have h1 := usesIn_eq_usesOf o ops (cliAt tbl res) st.sl.scope.made g xs r.gen (e, j, c)
      (hs.one_client hload hp hk (Or.inl rfl) hr hrk tbl)
    have h2 := hist_values o ops (cliAt tbl res) st.sl.scope.made g xs r.gen
      (hs.notSaved hload hk hg hsv hr hrk tbl)
    dsimp only at h2
    rw [h1, hs.initial hload hk (by simp) hr hrk] at h2
    have h3 := uses_value ops.values us (ScopedGen.new .value (g.new k r.gen)) rfl
    have h4 := congrArg Prod.snd h2
    dsimp only at h4
    have h5 := h4.symm.trans h3
    show usesIn r.gen (sessionOf o ops tbl st res g xs).hist =
      us.zip ((eachUse ops.values (ScopedGen.new .value (g.new k r.gen) : ScopedGen G (List GoVal)).g us).map some)
    rw [← h5]
    show _ = (usesOf cli r.gen (CState.init.run cli (answersTo (e, j, c) xs)).trace).zip _
    rw [← h1]
    simp only [sessionOf]
    generalize usesIn r.gen _ = l
    rw [List.zip_map']
    simp

/-! ### One value in one iteration of the scope -/

theorem expected_same {V : Type} (f : GenFun G V) (s : Scope) : ∀ (us : List Use) (cur : Option (Nat × V)) (g : G),
    us.Pairwise (fun a b => scopeCounter s a.cnt ≤ scopeCounter s b.cnt) → (∀ u ∈ us, u.explicit = false) →
    (∀ n v, cur = some (n, v) → ∀ u ∈ us, n ≤ scopeCounter s u.cnt) →
    (∀ n v, cur = some (n, v) → ∀ p ∈ us.zip (expected f s cur g us), scopeCounter s p.1.cnt = n → p.2 = v) ∧
    (us.zip (expected f s cur g us)).Pairwise
      (fun x y => scopeCounter s x.1.cnt = scopeCounter s y.1.cnt → x.2 = y.2) := by
  intro us
  induction us with
  | nil => intro cur g _ _ _; simp
  | cons u us ih =>
    intro cur g ho hi hc
    obtain ⟨ho1, ho2⟩ := List.pairwise_cons.1 ho
    have hi' : ∀ u ∈ us, u.explicit = false := fun x hx => hi x (List.mem_cons_of_mem _ hx)
    have hagain : (∀ n v, cur = some (n, v) → scopeCounter s u.cnt ≠ n) →
        (∀ n v, cur = some (n, v) → ∀ p ∈ (u :: us).zip ((f g u.cnt).2 ::
          expected f s (some (scopeCounter s u.cnt, (f g u.cnt).2)) (f g u.cnt).1 us),
          scopeCounter s p.1.cnt = n → p.2 = v) ∧
        ((u :: us).zip ((f g u.cnt).2 ::
          expected f s (some (scopeCounter s u.cnt, (f g u.cnt).2)) (f g u.cnt).1 us)).Pairwise
          (fun x y => scopeCounter s x.1.cnt = scopeCounter s y.1.cnt → x.2 = y.2) := by
      intro hne
      obtain ⟨h1, h2⟩ := ih (some (scopeCounter s u.cnt, (f g u.cnt).2)) (f g u.cnt).1 ho2 hi'
        (by rintro n v ⟨⟩ x hx; exact ho1 x hx)
      constructor
      · intro n v hcur p hp he
        have hge := hc n v hcur u List.mem_cons_self
        have := hne n v hcur
        rcases List.mem_cons.1 hp with rfl | hp
        · exact absurd he this
        · have := ho1 p.1 (List.of_mem_zip hp).1
          omega
      · rw [List.zip_cons_cons]
        refine List.pairwise_cons.2 ⟨?_, h2⟩
        intro p hp he
        exact (h1 _ _ rfl p hp he.symm).symm
    simp only [expected]
    cases cur with
    | none => exact hagain (by simp)
    | some nv =>
      obtain ⟨n, v⟩ := nv
      dsimp only
      by_cases hif : u.explicit = false ∧ scopeCounter s u.cnt = n
      · rw [if_pos hif]
        obtain ⟨h1, h2⟩ := ih (some (n, v)) g ho2 hi' (by
          rintro n' v' ⟨⟩ x hx; exact hc n v rfl x (List.mem_cons_of_mem _ hx))
        rw [List.zip_cons_cons]
        constructor
        · rintro n' v' ⟨⟩ p hp he
          rcases List.mem_cons.1 hp with rfl | hp
          · rfl
          · exact h1 n v rfl p hp he
        · refine List.pairwise_cons.2 ⟨?_, h2⟩
          intro p hp he
          exact (h1 n v rfl p hp (by rw [← he]; exact hif.2)).symm
      · rw [if_neg hif]
        refine hagain ?_
        rintro n' v' ⟨⟩ he
        exact hif ⟨hi u List.mem_cons_self, he⟩

theorem hist_trace (o : FmtOther) (ops : GenOps G) (cs : ClientNo → Cli) (made : GoMap Nat GenId)
    (g : GenStart G) (xs : List SIn) {n : ClientNo} {i : Nat} {cnt : RunCount}
    {vs : List (InRef × Option (List GoVal))}
    (h : SEv.gen n i cnt vs ∈ ((Sess.init cs made g).run o ops cs xs).hist) :
    CEv.gen i cnt ∈ (CState.init.run (cs n) (answersTo n xs)).trace := by
  have h1 := hist_events o ops cs made g xs n
  dsimp only at h1
  have h2 : StmtEv.gen i cnt ∈ ((((Sess.init cs made g).run o ops cs xs).hist.filter
      (fun e => e.client == n)).map SEv.stmtEv) :=
    List.mem_map.2 ⟨_, List.mem_filter.2 ⟨h, by simp [SEv.client]⟩, rfl⟩
  rw [h1] at h2
  obtain ⟨e, he, hx⟩ := List.mem_filterMap.1 h2
  cases e <;> simp [CEv.stmtEv] at hx
  obtain ⟨rfl, rfl⟩ := hx
  exact he

/-- Calls of value functions with the same statement count are one call. -/
theorem same_statement_count {c : Cli} {as : List Ans} {i i' : Nat} {cnt cnt' : RunCount}
    (h : CEv.gen i cnt ∈ (CState.init.run c as).trace) (h' : CEv.gen i' cnt' ∈ (CState.init.run c as).trace)
    (he : cnt.statement = cnt'.statement) : i = i' := by
  obtain ⟨p, hp⟩ := List.mem_iff_getElem?.1 h
  obtain ⟨q, hq⟩ := List.mem_iff_getElem?.1 h'
  have hc := C79_run_counts c as
  have h1 := (hc p i cnt hp).statement
  have h2 := (hc q i' cnt' hq).statement
  have hlt : ∀ {p q i i' cnt cnt'}, (CState.init.run c as).trace[p]? = some (.gen i cnt) →
      (CState.init.run c as).trace[q]? = some (.gen i' cnt') → p < q →
      ((CState.init.run c as).trace.take p).countP CEv.isGen <
        ((CState.init.run c as).trace.take q).countP CEv.isGen := by
    intro p q i i' cnt cnt' hp hq hpq
    have := countP_take_le (f := CEv.isGen) (tr := (CState.init.run c as).trace) (p := p + 1) (q := q) hpq
    rw [List.take_add_one, hp, List.countP_append] at this
    simp [CEv.isGen] at this
    omega
  have hpq : p = q := by
    rcases Nat.lt_trichotomy p q with hx | hx | hx
    · have := hlt hp hq hx; omega
    · exact hx
    · have := hlt hq hp hx; omega
  subst hpq
  rw [hp] at hq
  cases hq
  rfl

/-- **C114.** For every data key with a single-client scope that is not a saved column and that the client
uses without explicit calls: if a client uses the key twice, in whatever statements, in the same statement
execution, trx execution, iteration or connection (whichever the scope says), it gets the same values.

For trx scope no trx begins with idle time. -/
theorem C114_same_value_partial (o : FmtOther) (ops : GenOps G) (tbl : GoMap Nat Nat) (g : GenStart G)
    (xs : List SIn) {k : String} {sc : Scope} (hs : Staged pre env w groups st res)
    (hload : LoadsWith k sc pre) (hp : k ≠ "@PREV") (hk : k ≠ noopColumn) (hsc : IsSingle sc)
    (hsv : SavedNowhere env k) (hb : sc = .trx → NoIdleFirst env) {n : ClientNo}
    (himp : ∀ d ∈ (cliAt tbl res n).data, ∀ r ∈ d.inputs, r.key = k → r.explicit = false)
    {i i' : Nat} {cnt cnt' : RunCount} {vs vs' : List (InRef × Option (List GoVal))} {r r' : InRef}
    {v v' : Option (List GoVal)}
    (h : SEv.gen n i cnt vs ∈ (sessionOf o ops tbl st res g xs).hist)
    (h' : SEv.gen n i' cnt' vs' ∈ (sessionOf o ops tbl st res g xs).hist)
    (hv : (r, v) ∈ vs) (hv' : (r', v') ∈ vs') (hrk : r.key = k) (hrk' : r'.key = k)
    (hsame : scopeCounter sc cnt = scopeCounter sc cnt') : v = v' ∧ v ≠ none := by
  have hg : sc ≠ .global := by rcases hsc with rfl | rfl | rfl | rfl | rfl <;> simp
  have hin : ∀ {i cnt vs r v}, SEv.gen n i cnt vs ∈ (sessionOf o ops tbl st res g xs).hist → (r, v) ∈ vs →
      ∃ x rl, InputAt env w groups res n.1 n.2.1 n.2.2 i x rl r := by
    intro i cnt vs r v h hv
    have h1 := hist_inputs o ops (cliAt tbl res) st.sl.scope.made g xs h
    have h2 : r ∈ vs.map (·.1) := List.mem_map.2 ⟨_, hv, rfl⟩
    rw [h1] at h2
    cases hd : (cliAt tbl res n).data[i]? with
    | none => rw [hd] at h2; cases h2
    | some d =>
      rw [hd] at h2
      obtain ⟨x, hx⟩ := List.mem_iff_getElem?.1 h2
      obtain ⟨rl, hr⟩ := hs.inputAt hd hx
      exact ⟨x, rl, hr⟩
  obtain ⟨x, rl, hr⟩ := hin h hv
  obtain ⟨x', rl', hr'⟩ := hin h' hv'
  have ht := hist_trace o ops (cliAt tbl res) st.sl.scope.made g xs h
  have ht' := hist_trace o ops (cliAt tbl res) st.sl.scope.made g xs h'
  have hgen : r.gen = r'.gen := by
    refine (hs.same_gen hload hp hk hg hr hr' hrk).2 (Or.inr ⟨hrk', ?_⟩)
    obtain ⟨a, cg, d, t, q, u1, u2, u3, u4, u5, rfl⟩ := hr
    obtain ⟨a', cg', d', t', q', v1, v2, v3, v4, v5, rfl⟩ := hr'
    cases cfgAt_unique u2 v2
    rcases hsc with rfl | rfl | rfl | rfl | rfl
    · cases same_statement_count ht ht' hsame
      rw [u5] at v5; cases v5
      simp [SameInstance]
    · cases same_statement_count ht ht' hsame
      rw [u5] at v5; cases v5
      simp [SameInstance]
    · rw [cliAt_eq u1] at ht ht'
      have hx := (trxCountInv_run (hs.trxNumbers (hb rfl) u1 u2 tbl) _).same i cnt i' cnt' ht ht' hsame
      simp only [trxNumber, u5, v5, Option.map_some, Option.getD_some] at hx
      simp [SameInstance, hx]
    · simp [SameInstance]
    · simp [SameInstance]
  have hval := C114_values_partial o ops tbl g xs hs hload hp hk hsc hsv hb hr hrk
  dsimp only at hval
  have hu : ∀ {i cnt vs r0 v}, SEv.gen n i cnt vs ∈ (sessionOf o ops tbl st res g xs).hist → (r0, v) ∈ vs →
      r0.gen = r.gen → ((⟨r0.explicit, cnt⟩ : Use), v) ∈ usesIn r.gen (sessionOf o ops tbl st res g xs).hist := by
    intro i cnt vs r0 v h hv hr0
    refine List.mem_flatMap.2 ⟨_, h, ?_⟩
    refine List.mem_map.2 ⟨(r0, v), List.mem_filter.2 ⟨hv, by simp [hr0]⟩, rfl⟩
  have hm := hu h hv rfl
  have hm' := hu h' hv' hgen.symm
  rw [hval] at hm hm'
  have hord := C79_counters_ordered_partial (cliAt tbl res (n.1, n.2.1, n.2.2))
    (answersTo (n.1, n.2.1, n.2.2) xs) r.gen sc hsc (fun ht => hs.beginsBusy (hb ht) hr tbl)
  have himpl : ∀ u ∈ usesOf (cliAt tbl res (n.1, n.2.1, n.2.2)) r.gen (CState.init.run
      (cliAt tbl res (n.1, n.2.1, n.2.2)) (answersTo (n.1, n.2.1, n.2.2) xs)).trace, u.explicit = false := by
    intro u hu
    obtain ⟨ev, -, hu⟩ := List.mem_flatMap.1 hu
    cases ev <;> try (exact absurd hu List.not_mem_nil)
    rename_i i0 cnt0
    obtain ⟨r0, hr0, rfl⟩ := List.mem_map.1 hu
    obtain ⟨hr0, hr0g⟩ := List.mem_filter.1 hr0
    cases hd : (cliAt tbl res n).data[i0]? with
    | none => rw [hd] at hr0; cases hr0
    | some d =>
      rw [hd] at hr0
      obtain ⟨x0, hx0⟩ := List.mem_iff_getElem?.1 hr0
      obtain ⟨rl0, hin0⟩ := hs.inputAt hd hx0
      have hkey : r0.key = k := by
        rcases (hs.same_gen hload hp hk hg hr hin0 hrk).1 (by simpa using hr0g : r0.gen = r.gen).symm
          with heq | ⟨h, -⟩
        · simp only [Prod.mk.injEq, true_and] at heq
          obtain ⟨rfl, rfl⟩ := heq
          obtain ⟨a, cg, d1, t, q, u1, u2, u3, u4, -, -⟩ := hr
          obtain ⟨a', cg', d', t', q', v1, v2, v3, v4, -, -⟩ := hin0
          cases clientAt_unique u1 v1
          rw [u3] at v3; cases v3
          rw [u4] at v4; cases v4
          exact hrk
        · exact h
      exact himp d (List.mem_of_getElem? hd) r0 hr0 hkey
  have hpair := (expected_same ops.values sc _ none (g.new k r.gen) hord.2 himpl (by simp)).2
  rw [List.zip_map_right] at hm hm'
  obtain ⟨⟨u1, v1⟩, hm1, he1⟩ := List.mem_map.1 hm
  obtain ⟨⟨u2, v2⟩, hm2, he2⟩ := List.mem_map.1 hm'
  simp only [Prod.map_apply, id_eq, Prod.mk.injEq] at he1 he2
  obtain ⟨rfl, rfl⟩ := he1
  obtain ⟨rfl, rfl⟩ := he2
  have : Std.Symm (fun x y : Use × List GoVal => scopeCounter sc x.1.cnt = scopeCounter sc y.1.cnt → x.2 = y.2) :=
    ⟨fun x y h he => (h he.symm).symm⟩
  have := hpair.forall_of_forall (by intro x _ _; rfl) hm1 hm2 hsame
  dsimp only at this
  exact ⟨by rw [this], by simp⟩

/-! ### What is sent -/

theorem filter_last {α : Type} (f : α → Bool) (l : List α) : ∀ {x}, (l.filter f).getLast? = some x →
    ∃ q : Nat, l[q]? = some x ∧ ∀ (q' : Nat) (y : α), q < q' → l[q']? = some y → f y = false := by
  induction l using List.reverseRecOn with
  | nil => intro x h; simp at h
  | append_singleton l a ih =>
    intro x h
    rw [List.filter_append] at h
    by_cases ha : f a = true
    · rw [List.filter_cons_of_pos ha, List.filter_nil, List.getLast?_concat] at h
      cases h
      refine ⟨l.length, by simp, ?_⟩
      intro q' y hq hy
      rw [List.getElem?_eq_none (by simp; omega)] at hy
      cases hy
    · rw [List.filter_cons_of_neg ha, List.filter_nil, List.append_nil] at h
      obtain ⟨q, h1, h2⟩ := ih h
      have hlt := (List.getElem?_eq_some_iff.1 h1).1
      refine ⟨q, by rw [List.getElem?_append_left hlt]; exact h1, ?_⟩
      intro q' y hq hy
      by_cases hlt' : q' < l.length
      · rw [List.getElem?_append_left hlt'] at hy
        exact h2 q' y hq hy
      · rw [List.getElem?_append_right (by omega)] at hy
        by_cases h0 : q' - l.length = 0
        · rw [h0] at hy; cases hy
          simpa using ha
        · rw [List.getElem?_eq_none (by simp; omega)] at hy; cases hy

theorem valuesIn_other (n : ClientNo) (i : Nat) (h : List SEv) (hn : ∀ e ∈ h, e.client ≠ n) :
    ∀ v, valuesIn n i v h = v := by
  induction h with
  | nil => intro v; rfl
  | cons e h ih =>
    intro v
    have h1 := hn e List.mem_cons_self
    show valuesIn n i _ h = v
    rw [ih (fun e he => hn e (List.mem_cons_of_mem _ he))]
    cases e with
    | sent => rfl
    | gen m j cnt vs =>
      dsimp only
      rw [if_neg]
      rintro ⟨rfl, -⟩
      exact h1 rfl

/-- **C114.** Whatever the clients are, however they run and whatever MySQL answers: each execution of a
statement by a client comes after a call of all value functions of this statement, with nothing done by
this client between. What is sent is the query of the statement with the values returned: as text if the
statement is not prepared, else as arguments of the prepared statement. (`old` are the values of the
execution before; see `C114_placeholders`.) -/
theorem C114_sent (o : FmtOther) (ops : GenOps G) (cs : ClientNo → Cli) (made : GoMap Nat GenId)
    (g : GenStart G) (xs : List SIn) {n : ClientNo} {p i conn : Nat} {what : Sent}
    (hm : MultiOk (cs n).statements)
    (h : ((Sess.init cs made g).run o ops cs xs).hist[p]? = some (.sent n i conn what)) :
    ∃ stmt q cnt vs old, (cs n).statements[i]? = some stmt ∧
      ((Sess.init cs made g).run o ops cs xs).hist[q]? = some (.gen n i cnt vs) ∧ q < p ∧
      (∀ q' e, q < q' → q' < p → ((Sess.init cs made g).run o ops cs xs).hist[q']? = some e → e.client ≠ n) ∧
      vs.map (·.1) = (((cs n).data[i]?).map (·.inputs)).getD [] ∧ old.length = stmt.inputs.length ∧
      what = if stmt.prepare then .prepared stmt.query (fillValues old (vs.map fun x => x.2.getD []))
        else .text (sentText o stmt old (vs.map fun x => x.2.getD [])) := by
  obtain ⟨ps, hex, hw⟩ := hist_sent o ops cs made g xs h
  have hev := hist_events o ops cs made g xs n
  have hgb := genBeforeExec_run (cs n) (answersTo n xs)
  dsimp only at hev
  rw [← hev] at hgb
  have hin := fun (q : Nat) cnt vs (hq : ((Sess.init cs made g).run o ops cs xs).hist[q]? = some (SEv.gen n i cnt vs)) =>
    hist_inputs o ops cs made g xs (List.mem_of_getElem? hq)
  generalize ((Sess.init cs made g).run o ops cs xs).hist = hist at *
  have hlt := (List.getElem?_eq_some_iff.1 h).1
  have hsplit : hist = hist.take p ++ SEv.sent n i conn what :: hist.drop (p + 1) := by
    conv_lhs => rw [← List.take_append_drop p hist, List.drop_eq_getElem_cons hlt]
    rw [(List.getElem?_eq_some_iff.1 h).2]
  have hlast : ∃ cnt vs, ((hist.take p).filter (fun e => e.client == n)).getLast? = some (.gen n i cnt vs) := by
    rw [hsplit, List.filter_append, List.filter_cons_of_pos (by simp [SEv.client]), List.map_append,
      List.map_cons] at hgb
    obtain ⟨q, cnt, h1, h2⟩ := hgb ((hist.take p).filter (fun e => e.client == n)).length i conn (by
      rw [List.getElem?_append_right (by simp)]; simp [SEv.stmtEv])
    rw [List.getElem?_append_left (by simp; omega), List.getElem?_map, Option.map_eq_some_iff] at h2
    obtain ⟨e, h3, h4⟩ := h2
    have hmem := (List.mem_filter.1 (List.mem_of_getElem? h3)).2
    rw [List.getLast?_eq_getElem?, h1, Nat.add_sub_cancel, h3]
    cases e with
    | sent => simp [SEv.stmtEv] at h4
    | gen m j cnt' vs =>
      simp only [SEv.stmtEv, StmtEv.gen.injEq] at h4
      simp only [SEv.client, beq_iff_eq] at hmem
      obtain ⟨rfl, rfl⟩ := h4
      subst hmem
      exact ⟨_, _, rfl⟩
  obtain ⟨cnt, vs, hl⟩ := hlast
  obtain ⟨q, hq, hafter⟩ := filter_last _ _ hl
  have hqp : q < p := by
    have := (List.getElem?_eq_some_iff.1 hq).1
    simp at this; omega
  have hq' : hist[q]? = some (.gen n i cnt vs) := by
    rw [List.getElem?_take_of_lt hqp] at hq; exact hq
  have hno : ∀ q' e, q < q' → q' < p → hist[q']? = some e → e.client ≠ n := by
    intro q' e h1 h2 h3
    have := hafter q' e h1 (by rw [List.getElem?_take_of_lt h2]; exact h3)
    simpa using this
  have hvals : valuesIn n i ((Sess.init cs made g).vals n i) (hist.take p) =
      fillValues (valuesIn n i ((Sess.init cs made g).vals n i) (hist.take q)) (vs.map fun x => x.2.getD []) := by
    have hsp : hist.take p = hist.take q ++ SEv.gen n i cnt vs :: (hist.take p).drop (q + 1) := by
      have hlt := (List.getElem?_eq_some_iff.1 hq).1
      conv_lhs => rw [← List.take_append_drop q (hist.take p), List.drop_eq_getElem_cons hlt]
      rw [(List.getElem?_eq_some_iff.1 hq).2, List.take_take, Nat.min_eq_left (by omega)]
    rw [hsp, valuesIn, List.foldl_append, List.foldl_cons]
    dsimp only
    rw [if_pos ⟨rfl, rfl⟩]
    refine valuesIn_other n i _ ?_ _
    intro e he
    obtain ⟨m, hm⟩ := List.mem_iff_getElem?.1 he
    rw [List.getElem?_drop] at hm
    have hmp : q + 1 + m < p := by
      have := (List.getElem?_eq_some_iff.1 hm).1
      simp at this; omega
    rw [List.getElem?_take_of_lt hmp] at hm
    exact hno _ e (by omega) hmp hm
  obtain ⟨pe, hpe⟩ := List.mem_iff_getElem?.1 hex
  obtain ⟨stmt, hst, hps⟩ := C47_same_query (cs n) hm _ pe i conn ps hpe
  refine ⟨stmt, q, cnt, vs, valuesIn n i ((Sess.init cs made g).vals n i) (hist.take q), hst, hq', hqp, hno,
    hin q cnt vs hq', ?_, ?_⟩
  · rw [valuesIn_length]
    simp [Sess.init, hst]
  · rw [hw, hvals]
    cases ps with
    | none =>
      dsimp only at hps
      simp [sentFor, hst, hps, sentText]
    | some mk =>
      obtain ⟨m, k⟩ := mk
      dsimp only at hps
      obtain ⟨h1, -, st', h2, h3⟩ := hps
      simp [sentFor, h1, h2, h3]

/-- **C114.** In a stage whose trx were loaded from trx files: if, at the last call of its value functions,
every key of a statement gave as many values as it has places in the query (itself and each `@PREV` after
it), then the statement is sent with exactly these values, each at its place, and none of an earlier
execution. The keys of the statement have scopes other than global (`C02_global_scope_never_gets_a_generator`). -/
theorem C114_placeholders_partial (o : FmtOther) (ops : GenOps G) (tbl : GoMap Nat Nat) (g : GenStart G)
    (xs : List SIn) (hs : Staged pre env w groups st res) {tfs : List TrxFile} {set : TrxSet}
    {keys : GoMap String TKey} (hset : loadTrx ⟨[], GoMap.empty, GoMap.empty, keys⟩ tfs = .ok set)
    (hst : env.stmts = set.statements) {e j c : Nat} {a : AClient} (ha : ClientAt res e j c a)
    {i p conn : Nat} {stmt : Stmt} {what : Sent} (hstmt : a.statements[i]? = some stmt)
    (hcalls : stmt.calls.length = stmt.inputs.length) (hfirst : stmt.inputs.head? ≠ some "@PREV")
    (hscope : ∀ k ∈ stmt.inputs, k = "@PREV" ∨
      (k ≠ noopColumn ∧ ∃ sc, sc ≠ .global ∧ LoadsWith k sc pre))
    (h : (sessionOf o ops tbl st res g xs).hist[p]? = some (.sent (e, j, c) i conn what))
    (hfit : ∀ q cnt vs, (sessionOf o ops tbl st res g xs).hist[q]? = some (.gen (e, j, c) i cnt vs) → q < p →
      (∀ q' e', q < q' → q' < p → (sessionOf o ops tbl st res g xs).hist[q']? = some e' →
        e'.client ≠ (e, j, c)) →
      vs.map (fun x => (x.2.getD []).length) = (prevAfter stmt.inputs).map (· + 1)) :
    ∃ q cnt vs args, q < p ∧
      (sessionOf o ops tbl st res g xs).hist[q]? = some (.gen (e, j, c) i cnt vs) ∧
      (∀ q' e', q < q' → q' < p → (sessionOf o ops tbl st res g xs).hist[q']? = some e' →
        e'.client ≠ (e, j, c)) ∧
      what = (if stmt.prepare then .prepared stmt.query args else .text (goSprintf o stmt.query args)) ∧
      args.length = stmt.inputs.length ∧
      ∀ x < stmt.inputs.length, ∃ r v y, vs[keyOf stmt.inputs x]? = some (r, v) ∧
        (v.getD [])[prevsTo stmt.inputs x]? = some y ∧ args[x]? = some y ∧
        ∀ k, stmt.inputs[x]? = some k → k ≠ "@PREV" → r.key = k ∧ prevsTo stmt.inputs x = 0 := by
  have hs' := hs
  obtain ⟨hne, stage1, obs, s, qps, tps, h1, hpre, hbeg, hal⟩ := hs'
  have hm := C47_loaded_client hset hst hne hal ha tbl
  rw [← cliAt_eq ha] at hm
  obtain ⟨stmt', q, cnt, vs, old, e1, e2, e3, e4, e5, e6, e7⟩ :=
    C114_sent o ops (cliAt tbl res) st.sl.scope.made g xs hm h
  have : stmt' = stmt := by
    rw [cliAt_eq ha] at e1
    have e1' : a.statements[i]? = some stmt' := e1
    rw [hstmt] at e1'; cases e1'; rfl
  subst this
  have hk := hfit q cnt vs e2 e3 e4
  have hlen : (vs.map fun x => x.2.getD []).map List.length = (prevAfter stmt'.inputs).map (· + 1) := by
    rw [List.map_map]; exact hk
  obtain ⟨f1, f2⟩ := C37_values_line_up stmt'.inputs old (vs.map fun x => x.2.getD []) e6 hfirst hlen
  refine ⟨q, cnt, vs, fillValues old (vs.map fun x => x.2.getD []), e3, e2, e4, by rw [e7]; rfl, f1, ?_⟩
  intro x hx
  obtain ⟨v, y, g1, g2, g3⟩ := f2 x hx
  rw [List.getElem?_map, Option.map_eq_some_iff] at g1
  obtain ⟨⟨r, v'⟩, g4, g5⟩ := g1
  dsimp only at g5
  subst g5
  refine ⟨r, v', y, g4, g2, g3, ?_⟩
  intro k hk hkp
  have hok := (allocClients_at hne hal ha)
  obtain ⟨cg, -, -, hok⟩ := hok
  have hil : i < a.data.length := by
    have := (List.getElem?_eq_some_iff.1 hstmt).1
    rw [hok.statements, ← hok.prov.at.2.1] at this
    exact this
  have hd := List.getElem?_eq_getElem hil
  have hins := C02_allocated_clients_partial h1 hpre hbeg hne hal ha hstmt hd hcalls hscope
  obtain ⟨r', r1, r2, -, r4⟩ := C37_value_function_of_placeholder hcalls hins hk
    (List.getElem?_eq_getElem (hcalls ▸ hx)) hkp
  have hrefs : vs.map (·.1) = a.data[i].inputs := by
    rw [e5, cliAt_eq ha]
    show ((a.data[i]?).map (·.inputs)).getD [] = _
    rw [hd]; rfl
  rw [← hrefs, List.getElem?_map, g4] at r1
  simp only [Option.map_some, Option.some.injEq] at r1
  exact ⟨by rw [r1]; exact r2, r4⟩

/-! ### The hypotheses are met -/

/-- A trx of two statements that use `@d` (the second is prepared and uses a second value of it) and a trx
of one. -/
def sesStmts : GoMap String (List Stmt) :=
  (GoMap.empty.set "t"
    [{ demoStmt ["@d"] [false] [] with query := "A %d".toList },
     { demoStmt ["@d", "@PREV"] [false, false] [] with query := "B ? ?".toList, prepare := true, prepareMulti := 1 }]).set
    "u" [{ demoStmt ["@d"] [false] [] with query := "C %d".toList }]

def sesEnv : WEnv := ⟨sesStmts, 1, true, fun _ _ => false⟩

/-- Two clients. -/
def sesW : List CGCfg := [{ clients := "2", group := "a", trx := ["t", "u"], iter := "2" }]

def sesPre (sc : Scope) : List ScopeOp := [.load "@d" ⟨some sc, false⟩]

def sesAlloc (sc : Scope) : Option (WState × List (List ACGroup)) :=
  (allocClients sesEnv sesW 0 0 (DataScope.new.load "@d" ⟨some sc, false⟩) [[0]]).toOption

/-- A generator of two values, new at every call. -/
def sesOps : GenOps Nat := ⟨fun g _ => (g + 1, [.num "int".toList g, .num "int".toList (g + 100)]), fun _ _ g => g⟩

/-- A step without errors. -/
def sesStep (n : ClientNo) : SIn := ⟨n, okAns, fun _ => [], [], 0⟩

/-- Two clients taking turns: what the first one sends. -/
def sesSent (sc : Scope) : Option (List Sent) :=
  (sesAlloc sc).map fun r => (sessionOf ⟨fun _ _ => [], fun _ _ => []⟩ sesOps GoMap.empty r.1 r.2
      ⟨fun _ a => 1000 * a, fun _ => none⟩ ((List.replicate 24 [sesStep (0, 0, 0), sesStep (0, 0, 1)]).flatten)).hist.filterMap
    fun e => match e with
      | .sent (0, 0, 0) _ _ x => some x
      | _ => none

/-- With trx scope both statements of trx "t" have the same value, and the next iteration another. -/
example : (sesSent .trx).map (·.take 4) =
    some [.text "A 0".toList, .prepared "B ? ?".toList [.num "int".toList 0, .num "int".toList 100],
      .text "C 1000".toList, .text "A 1".toList] := by decide +kernel

/-- The hypotheses of the theorems about values hold of it. -/
example : ∃ st res rl r, sesAlloc .trx = some (st, res) ∧ Staged (sesPre .trx) sesEnv sesW [[0]] st res ∧
    LoadsWith "@d" .trx (sesPre .trx) ∧ SavedNowhere sesEnv "@d" ∧ NoIdleFirst sesEnv ∧
    InputAt sesEnv sesW [[0]] res 0 0 1 2 0 rl r ∧ r.key = "@d" ∧
    (∀ n, ∀ d ∈ (cliAt GoMap.empty res n).data, ∀ r ∈ d.inputs, r.key = "@d" → r.explicit = false) := by
  have h : ∃ x, sesAlloc .trx = some x := by
    rw [← Option.isSome_iff_exists]; decide +kernel
  obtain ⟨⟨st, res⟩, h⟩ := h
  have hall : allocClients sesEnv sesW 0 0 (DataScope.new.load "@d" ⟨some .trx, false⟩) [[0]] = .ok (st, res) := by
    unfold sesAlloc at h
    cases hx : allocClients sesEnv sesW 0 0 (DataScope.new.load "@d" ⟨some .trx, false⟩) [[0]] with
    | ok a => rw [hx] at h; cases h; rfl
    | err => rw [hx] at h; cases h
    | panic => rw [hx] at h; cases h
  have hstmts : ∀ n ss, sesEnv.stmts n = some ss → ∀ stmt ∈ ss,
      stmt.outputs = [] ∧ stmt.insertId = "" ∧ stmt.idle = 0 := by
    intro n ss hn stmt hm
    simp only [sesEnv, sesStmts, GoMap.set] at hn
    split at hn
    · cases hn; simp only [List.mem_singleton] at hm; subst hm; decide
    · split at hn
      · cases hn
        simp only [List.mem_cons, List.not_mem_nil, or_false] at hm
        rcases hm with rfl | rfl <;> decide
      · cases hn
  have hdata : ((sesAlloc .trx).map fun x => x.2.map (·.map (·.clients.map (·.data.map (·.inputs))))) =
      some [[[[[⟨"@d", 0, false⟩], [⟨"@d", 0, false⟩], [⟨"@d", 1, false⟩]],
        [[⟨"@d", 2, false⟩], [⟨"@d", 2, false⟩], [⟨"@d", 3, false⟩]]]]] := by decide +kernel
  have himp : ((sesAlloc .trx).map fun x => x.2.all (·.all (·.clients.all (·.data.all (·.inputs.all (! ·.explicit)))))) =
      some true := by decide +kernel
  rw [h, Option.map_some, Option.some.injEq] at hdata himp
  dsimp only at hdata
  obtain ⟨acgs, r1, rfl, e1, e2⟩ := List.map_eq_cons_iff.1 hdata
  rw [List.map_eq_nil_iff] at e2
  subst e2
  obtain ⟨acg, r2, rfl, e3, e4⟩ := List.map_eq_cons_iff.1 e1
  rw [List.map_eq_nil_iff] at e4
  subst e4
  obtain ⟨a0, r3, e5, e6, e7⟩ := List.map_eq_cons_iff.1 e3
  obtain ⟨a1, r4, rfl, e8, e9⟩ := List.map_eq_cons_iff.1 e7
  rw [List.map_eq_nil_iff] at e9
  subst e9
  obtain ⟨d0, t0, e10, e11, e12⟩ := List.map_eq_cons_iff.1 e8
  obtain ⟨d1, t1, rfl, e13, e14⟩ := List.map_eq_cons_iff.1 e12
  obtain ⟨d2, t2, rfl, e15, e16⟩ := List.map_eq_cons_iff.1 e14
  have hns : NoEmptyTrx sesEnv sesW := by unfold NoEmptyTrx; decide
  refine ⟨st, _, ⟨1, 1, 1, 2, 2, 1⟩, ⟨"@d", 3, false⟩, h, ⟨hns, 1, [], _, 0, 0, by omega, rfl, ?_, hall⟩, ?_, ?_, ?_,
    ⟨a1, sesW[0], d2, 2, 1, ⟨_, acg, rfl, rfl, by rw [e5]; rfl⟩, ⟨_, _, rfl, rfl, rfl⟩, by rw [e10]; rfl,
      by rw [e15]; rfl, by decide +kernel, rfl⟩, rfl, ?_⟩
  · simp [StageBegins, sesPre, AllocOrdered, AllocLe, RunLevel.zero, sesEnv]
  · intro key hk; simp [sesPre] at hk; subst hk; rfl
  · intro n ss hn stmt hm
    obtain ⟨h1, h2, -⟩ := hstmts n ss hn stmt hm
    rw [h1, h2]; decide
  · intro n ss stmt hn h0
    exact (hstmts n ss hn stmt (List.mem_of_getElem? h0)).2.2
  · intro n d hd r hr _
    rcases cliAt_cases GoMap.empty [[acg]] n with ⟨a, ha, he⟩ | he
    · rw [he] at hd
      obtain ⟨cgs, g, h1, h2, h3⟩ := ha
      have := List.all_eq_true.1 himp cgs (List.mem_of_getElem? h1)
      have := List.all_eq_true.1 this g (List.mem_of_getElem? h2)
      have := List.all_eq_true.1 this a (List.mem_of_getElem? h3)
      have := List.all_eq_true.1 this d hd
      simpa using List.all_eq_true.1 this r hr
    · rw [he.1] at hd; cases hd

end Finch
