import Verif.Props.SessionSaves
import Verif.Props.SessionPrep
/-!
# C115: clients send what they saved

For all clients of a stage running in any order, with whatever rows and insert ids MySQL returns: the values
a client sends for a saved column are values this client saved itself, in the same instance of the scope of
the column (by default the trx). The first use in each execution of the scope gets the value saved last, and
the uses after it get the same.
-/
namespace Finch

variable {pre : List ScopeOp} {env : WEnv} {w : List CGCfg} {groups : List (List Nat)} {st : WState}
  {res : List (List ACGroup)}

/-! ### Specification -/

/-- Spec: the data key that a value was saved under. -/
def savedKey (cs : ClientNo → Cli) (s : SaveEv) : Option String :=
  ((cs s.n).statements[s.i]?).bind fun st => match s.col with
    | some y => (st.outputs[y]?).bind fun k => if k = st.insertId then none else some k
    | none => if st.insertId = "" then none else some st.insertId

/-- Spec: statements `i` and `i'` of a client lie in the same instance of a scope. -/
def sameScope (sc : Scope) (env : WEnv) (cg : CGCfg) (i i' : Nat) : Bool :=
  match sc with
  | .row | .statement => i == i'
  | .trx => trxNumber env cg i == trxNumber env cg i'
  | .iter | .client => true
  | _ => false

/-- Spec: client `n` saved a value for key `k` in the same instance of its scope as statement `i`. -/
def SavedFor (cs : ClientNo → Cli) (env : WEnv) (cg : CGCfg) (sc : Scope) (n : ClientNo) (i : Nat) (k : String)
    (s : SaveEv) : Prop :=
  s.n = n ∧ savedKey cs s = some k ∧ sameScope sc env cg s.i i = true

instance (cs : ClientNo → Cli) (env : WEnv) (cg : CGCfg) (sc : Scope) (n : ClientNo) (i : Nat) (k : String)
    (s : SaveEv) : Decidable (SavedFor cs env cg sc n i k s) := by unfold SavedFor; infer_instance

/-- Spec: the value that client `n` saved last for key `k` before event number `p`, in the same instance of
its scope as statement `i`; nil if there is none. -/
def lastSavedFor (cs : ClientNo → Cli) (env : WEnv) (cg : CGCfg) (sc : Scope) (n : ClientNo) (i : Nat) (k : String)
    (p : Nat) (saves : List SaveEv) : GoVal :=
  lastVal ((saves.filter fun s => decide (SavedFor cs env cg sc n i k s ∧ s.time ≤ p)).map (·.val))

/-! ### Generators of saved columns -/

theorem sameInstance_sameScope {sc : Scope} (hsc : IsSingle sc) {cg : CGCfg} {e j c e' j' c' i i' t q t' q' : Nat}
    (h : (stmtPositions env.stmts 0 cg.trx)[i]? = some (t, q))
    (h' : e = e' → j = j' → (stmtPositions env.stmts 0 cg.trx)[i']? = some (t', q')) :
    SameInstance sc ⟨env.stage, e + 1, j + 1, c + 1, t, q⟩ ⟨env.stage, e' + 1, j' + 1, c' + 1, t', q'⟩ ↔
      (e, j, c) = (e', j', c') ∧ sameScope sc env cg i i' = true := by
  by_cases hn : (e, j, c) = (e', j', c')
  · cases hn
    have h2 := h' rfl rfl
    have hiff : (t = t' ∧ q = q') ↔ i = i' := by
      constructor
      · rintro ⟨rfl, rfl⟩
        obtain ⟨b1, b2⟩ := List.getElem?_eq_some_iff.mp h
        obtain ⟨c1, c2⟩ := List.getElem?_eq_some_iff.mp h2
        exact ((stmtPositions_nodup (stmts := env.stmts) (ns := cg.trx) (t := 0)).getElem_inj_iff
          (hi := b1) (hj := c1)).1 (by rw [b2, c2])
      · rintro rfl
        rw [h] at h2
        cases h2
        exact ⟨rfl, rfl⟩
    rcases hsc with rfl | rfl | rfl | rfl | rfl
    · simpa [SameInstance, sameScope] using hiff
    · simpa [SameInstance, sameScope] using hiff
    · simp [SameInstance, sameScope, trxNumber, h, h2]
    · simp [SameInstance, sameScope]
    · simp [SameInstance, sameScope]
  · simp only [hn, false_and, iff_false]
    intro hx
    apply hn
    rcases hsc with rfl | rfl | rfl | rfl | rfl <;> simp [SameInstance] at hx <;>
      simp only [Prod.mk.injEq] <;> omega

/-- A value is saved in the generator of an input if and only if the client of the input saved it under the
key of the input, in the same instance of the scope. -/
theorem Staged.savedIn_iff {k : String} {sc : Scope} (hs : Staged pre env w groups st res)
    (hload : LoadsWith k sc pre) (hp : k ≠ "@PREV") (hk : k ≠ noopColumn) (hne' : k ≠ "")
    (hsc : IsSingle sc) {e j c i x : Nat} {rl : RunLevel} {r : InRef} (hr : InputAt env w groups res e j c i x rl r)
    (hrk : r.key = k) {cg : CGCfg} (hcg : CfgAt w groups e j cg) (tbl : GoMap Nat Nat) (s : SaveEv) :
    savedIn (cliAt tbl res) s = some r.gen ↔ SavedFor (cliAt tbl res) env cg sc (e, j, c) i k s := by
  have hg : sc ≠ .global := by rcases hsc with rfl | rfl | rfl | rfl | rfl <;> simp
  have hv : sc ≠ .value := by rcases hsc with rfl | rfl | rfl | rfl | rfl <;> simp
  have hm := hs.madeFor hload (hs.input_log hr) rfl
  dsimp only at hm
  rw [hrk] at hm
  have hs' := hs
  obtain ⟨hne, stage1, obs, s0, qps, tps, h1, hpre, hbeg, h⟩ := hs'
  obtain ⟨time, ⟨e', j', c'⟩, si, col, val⟩ := s
  have hbridge : ∀ (a : AClient) (cg' : CGCfg) (t q : Nat) (gg : Nat), ClientAt res e' j' c' a → CfgAt w groups e' j' cg' →
      (stmtPositions env.stmts 0 cg'.trx)[si]? = some (t, q) →
      SaverAt env w groups res e' j' c' si ⟨env.stage, e' + 1, j' + 1, c' + 1, t, q⟩ k gg →
      (gg = r.gen ↔ (e', j', c') = (e, j, c) ∧ sameScope sc env cg si i = true) := by
    intro a cg' t q gg ha hcg' hpos hsav
    rw [C01_saved_columns k sc hp hk hg hv h1 hpre hload hbeg hne h hsav hr hrk]
    obtain ⟨a0, cg0, d0, t0, q0, u1, u2, u3, u4, u5, rfl⟩ := hr
    cases cfgAt_unique hcg u2
    by_cases hn : e' = e ∧ j' = j
    · obtain ⟨rfl, rfl⟩ := hn
      cases cfgAt_unique hcg hcg'
      exact sameInstance_sameScope hsc hpos (fun _ _ => u5)
    · constructor
      · intro hx
        exfalso; apply hn
        rcases hsc with rfl | rfl | rfl | rfl | rfl <;> simp [SameInstance] at hx <;> omega
      · rintro ⟨hx, -⟩
        cases hx
        exact absurd ⟨rfl, rfl⟩ hn
  rcases cliAt_cases tbl res (e', j', c') with ⟨a, ha, he⟩ | ⟨he1, he2⟩
  swap
  · constructor
    · intro hx
      simp only [savedIn, he1] at hx
      cases col <;> simp at hx
    · rintro ⟨-, hx, -⟩
      simp only [savedKey, he2] at hx
      simp at hx
  obtain ⟨cg', hcg', -, hok⟩ := allocClients_at hne h ha
  have hdat : (cliAt tbl res (e', j', c')).data = a.data := by rw [he]; rfl
  have hsta : (cliAt tbl res (e', j', c')).statements = a.statements := by rw [he]; rfl
  have hlen : a.data.length = a.statements.length := by rw [hok.statements]; exact hok.prov.at.2.1
  simp only [savedIn, SavedFor, savedKey, hdat, hsta]
  cases hd : a.data[si]? with
  | none =>
    have : a.statements[si]? = none := by
      rw [List.getElem?_eq_none_iff] at hd ⊢; omega
    rw [this]
    cases col <;> simp
  | some d =>
    obtain ⟨t, q, stmt, li, p1, p2, p3, p4⟩ := hok.prov.at.2.2 si d hd
    have hst : a.statements[si]? = some stmt := by rw [hok.statements, p2]
    rw [hst]
    have hrunall := alloc_history hne h hpre hbeg
    cases col with
    | some y =>
      simp only [Option.bind_some]
      obtain ⟨o1, o2, o3⟩ := p4.outputs
      cases hy : stmt.outputs[y]? with
      | none =>
        have : d.outputs[y]? = none := by
          rw [List.getElem?_eq_none_iff] at hy ⊢; omega
        rw [this]; simp
      | some k' =>
        simp only [Option.bind_some]
        by_cases hid : k' = stmt.insertId
        · rw [o3 y (by rw [hy, hid])]; simp [hid]
        · obtain ⟨gg, g1, g2⟩ := o2 y k' hy hid
          rw [g1, if_neg hid]
          simp only [Option.join_some, Option.some.injEq]
          by_cases hkk : k' = k
          · subst hkk
            have hsome : gg.isSome := by
              have hload' : LoadsWith k' sc (pre ++ st.sl.log.map fun o => ScopeOp.copy o.key o.rl) := by
                intro key hm
                rcases List.mem_append.mp hm with hm | hm
                · exact hload key hm
                · simp at hm
              exact (C01_same_generator_iff_same_scope_instance k' sc hp hk hg stage1 h1 _ hrunall.2 hload' _ _
                hrunall.1).2 _ (List.mem_append_right _ (p3.subset g2)) rfl
            obtain ⟨gg, rfl⟩ := Option.isSome_iff_exists.1 hsome
            have := hbridge a cg' t q gg ha hcg' p1 ⟨a, cg', d, stmt, t, q, ha, hcg', hd, hst,
              Or.inl ⟨y, hy, hid, g1⟩, p1, rfl⟩
            simp [this]
          · simp only [hkk, false_and, and_false, iff_false]
            rintro rfl
            exact hkk (MadeFor.key_eq hk hg hm (hs.madeFor hload (p3.subset g2) rfl))
    | none =>
      simp only [Option.bind_some]
      rcases p4.insertId with ⟨y1, y2⟩ | ⟨gg, y1, y2⟩
      · rw [y2, if_pos y1]; simp
      · rw [y1]
        by_cases hkk : stmt.insertId = k
        · have := hbridge a cg' t q gg ha hcg' p1 ⟨a, cg', d, stmt, t, q, ha, hcg', hd, hst,
              Or.inr ⟨hkk, y1⟩, p1, rfl⟩
          simp [hkk, hne', this]
        · simp only [Option.some.injEq]
          constructor
          · rintro rfl
            exact absurd (MadeFor.key_eq hk hg hm (hs.madeFor hload (p3.subset y2) rfl)) hkk
          · rintro ⟨-, hx, -⟩
            split at hx
            · cases hx
            · cases hx; exact absurd rfl hkk

/-! ### Theorems -/

/-- An input in a history is an input of the allocation. -/
theorem Staged.inputIn {G : Type} (hs : Staged pre env w groups st res) {o : FmtOther} {ops : GenOps G}
    {tbl : GoMap Nat Nat} {g : GenStart G} {xs : List SIn} {n : ClientNo} {i : Nat} {cnt : RunCount}
    {vs : List (InRef × Option (List GoVal))} {r : InRef} {v : Option (List GoVal)}
    (h : SEv.gen n i cnt vs ∈ (sessionOf o ops tbl st res g xs).hist) (hv : (r, v) ∈ vs) :
    ∃ x rl, InputAt env w groups res n.1 n.2.1 n.2.2 i x rl r := by
  have h1 := hist_inputs o ops (cliAt tbl res) st.sl.scope.made g xs h
  have h2 : r ∈ vs.map (·.1) := List.mem_map.2 ⟨_, hv, rfl⟩
  rw [h1] at h2
  cases hd : (cliAt tbl res n).data[i]? with
  | none => rw [hd] at h2; cases h2
  | some d =>
    rw [hd] at h2
    obtain ⟨x, hx⟩ := List.mem_iff_getElem?.1 h2
    obtain ⟨rl, hr⟩ := hs.inputAt hd hx
    exact ⟨x, rl, hr⟩

theorem Staged.colInv (o : FmtOther) (genv : GenEnv) (tbl : GoMap Nat Nat) (g : GenStart DGen)
    (xs : List SIn) {k : String} {sc : Scope} (hs : Staged pre env w groups st res)
    (hload : LoadsWith k sc pre) (hp : k ≠ "@PREV") (hk : k ≠ noopColumn) (hsc : IsSingle sc)
    (hb : sc = .trx → NoIdleFirst env) (hcol : ∀ a, HoldsCol (g.new k a) .nil)
    {e j c i x : Nat} {rl : RunLevel} {r : InRef} (hr : InputAt env w groups res e j c i x rl r) (hrk : r.key = k) :
    ColInv (cliAt tbl res) r.gen sc ((sessionOf o (dgenOps genv) tbl st res g xs).gens r.gen)
      (sessionOf o (dgenOps genv) tbl st res g xs).hist (sessionOf o (dgenOps genv) tbl st res g xs).saves := by
  refine hist_column o genv (cliAt tbl res) st.sl.scope.made g xs r.gen sc hsc
    ⟨_, hs.initial hload hk (by rcases hsc with rfl | rfl | rfl | rfl | rfl <;> simp) hr hrk _ g, hcol _⟩ ?_
  rw [usesIn_eq_usesOf o (dgenOps genv) (cliAt tbl res) st.sl.scope.made g xs r.gen (e, j, c)
    (hs.one_client hload hp hk (Or.inr hsc) hr hrk tbl)]
  exact C79_counters_ordered_partial _ _ r.gen sc hsc (fun ht => hs.beginsBusy (hb ht) hr tbl)

theorem Staged.savedBefore_eq {k : String} {sc : Scope} (hs : Staged pre env w groups st res)
    (hload : LoadsWith k sc pre) (hp : k ≠ "@PREV") (hk : k ≠ noopColumn) (hne : k ≠ "") (hsc : IsSingle sc)
    {e j c i x : Nat} {rl : RunLevel} {r : InRef} (hr : InputAt env w groups res e j c i x rl r)
    (hrk : r.key = k) {cg : CGCfg} (hcg : CfgAt w groups e j cg) (tbl : GoMap Nat Nat) (p : Nat) (saves : List SaveEv) :
    savedBefore (cliAt tbl res) r.gen p saves = lastSavedFor (cliAt tbl res) env cg sc (e, j, c) i k p saves := by
  unfold savedBefore lastSavedFor
  congr 2
  refine List.filter_congr ?_
  intro s _
  have := hs.savedIn_iff hload hp hk hne hsc hr hrk hcg tbl s
  rw [Bool.eq_iff_iff]
  simp [this]

/-- **C115 (the value saved last).** However the clients of a stage run and whatever rows and insert ids MySQL
returns: if a client uses a saved column explicitly (`@col()`), or for the first time in an execution of its
scope (by default the trx), it gets exactly one value, the one that this client saved last under this key in
the same instance of the scope; nil if it saved none. What other clients save does not matter.

The scope is a single-client scope; for trx scope no trx begins with idle time. -/
theorem C115_last_saved_partial (o : FmtOther) (genv : GenEnv) (tbl : GoMap Nat Nat) (g : GenStart DGen)
    (xs : List SIn) {k : String} {sc : Scope} (hs : Staged pre env w groups st res)
    (hload : LoadsWith k sc pre) (hp : k ≠ "@PREV") (hk : k ≠ noopColumn) (hne : k ≠ "") (hsc : IsSingle sc)
    (hb : sc = .trx → NoIdleFirst env) (hcol : ∀ a, HoldsCol (g.new k a) .nil)
    {n : ClientNo} {cg : CGCfg} (hcg : CfgAt w groups n.1 n.2.1 cg)
    {p i : Nat} {cnt : RunCount} {vs : List (InRef × Option (List GoVal))} {r : InRef} {v : Option (List GoVal)}
    (h : (sessionOf o (dgenOps genv) tbl st res g xs).hist[p]? = some (.gen n i cnt vs)) (hv : (r, v) ∈ vs)
    (hrk : r.key = k)
    (hfirst : r.explicit = true ∨ ∀ (p' i' : Nat) cnt' vs', p' < p →
      (sessionOf o (dgenOps genv) tbl st res g xs).hist[p']? = some (.gen n i' cnt' vs') →
      (∃ q ∈ vs', q.1.key = k) → scopeCounter sc cnt' ≠ scopeCounter sc cnt) :
    v = some [lastSavedFor (cliAt tbl res) env cg sc n i k p (sessionOf o (dgenOps genv) tbl st res g xs).saves] := by
  have hg : sc ≠ .global := by rcases hsc with rfl | rfl | rfl | rfl | rfl <;> simp
  obtain ⟨x, rl, hr⟩ := hs.inputIn (List.mem_of_getElem? h) hv
  have hinv := hs.colInv o genv tbl g xs hload hp hk hsc hb hcol hr hrk
  rw [← hs.savedBefore_eq hload hp hk hne hsc hr hrk hcg tbl]
  obtain ⟨e1, e2, -⟩ := hinv.ev p n i cnt vs h r v hv rfl
  rcases hfirst with hex | hfirst
  · exact e1 hex
  · refine e2 ?_
    rintro p' n' i' cnt' vs' hlt hp' ⟨r', v'⟩ hq hqa
    obtain ⟨x', rl', hr'⟩ := hs.inputIn (List.mem_of_getElem? hp') hq
    have hin : r' ∈ (((cliAt tbl res n').data[i']?).map (·.inputs)).getD [] := by
      rw [← hist_inputs o (dgenOps genv) (cliAt tbl res) st.sl.scope.made g xs (List.mem_of_getElem? hp')]
      exact List.mem_map.2 ⟨_, hq, rfl⟩
    have hn : n' = n := by
      cases hd : (cliAt tbl res n').data[i']? with
      | none => rw [hd] at hin; cases hin
      | some d =>
        rw [hd] at hin
        exact hs.one_client hload hp hk (Or.inr hsc) hr hrk tbl n' d (List.mem_of_getElem? hd) r' hin hqa
    subst hn
    refine hfirst p' i' cnt' vs' hlt hp' ⟨_, hq, ?_⟩
    have hm := hs.madeFor hload (hs.input_log hr) rfl
    have hm' := hs.madeFor hload (hs.input_log hr') rfl
    dsimp only at hm hm' hqa
    rw [hrk] at hm
    rw [hqa] at hm'
    exact MadeFor.key_eq hk hg hm hm'

/-- **C115 (the same value).** If the client does not call the column explicitly, all its uses of the column in
one execution of the scope, in the same instance of the scope, get the same value, also if it saves another
value between them. -/
theorem C115_same_value_partial (o : FmtOther) (genv : GenEnv) (tbl : GoMap Nat Nat) (g : GenStart DGen)
    (xs : List SIn) {k : String} {sc : Scope} (hs : Staged pre env w groups st res)
    (hload : LoadsWith k sc pre) (hp : k ≠ "@PREV") (hk : k ≠ noopColumn) (hsc : IsSingle sc)
    (hb : sc = .trx → NoIdleFirst env) (hcol : ∀ a, HoldsCol (g.new k a) .nil)
    {n : ClientNo} {cg : CGCfg} (hcg : CfgAt w groups n.1 n.2.1 cg)
    (himp : ∀ d ∈ (cliAt tbl res n).data, ∀ r ∈ d.inputs, r.key = k → r.explicit = false)
    {i i' : Nat} {cnt cnt' : RunCount} {vs vs' : List (InRef × Option (List GoVal))} {r r' : InRef}
    {v v' : Option (List GoVal)}
    (h : SEv.gen n i cnt vs ∈ (sessionOf o (dgenOps genv) tbl st res g xs).hist)
    (h' : SEv.gen n i' cnt' vs' ∈ (sessionOf o (dgenOps genv) tbl st res g xs).hist)
    (hv : (r, v) ∈ vs) (hv' : (r', v') ∈ vs') (hrk : r.key = k) (hrk' : r'.key = k)
    (hin : sameScope sc env cg i i' = true) (hsame : scopeCounter sc cnt = scopeCounter sc cnt') : v = v' := by
  have hg : sc ≠ .global := by rcases hsc with rfl | rfl | rfl | rfl | rfl <;> simp
  obtain ⟨x, rl, hr⟩ := hs.inputIn h hv
  obtain ⟨x', rl', hr'⟩ := hs.inputIn h' hv'
  have hinv := hs.colInv o genv tbl g xs hload hp hk hsc hb hcol hr hrk
  have hgen : r.gen = r'.gen := by
    refine (hs.same_gen hload hp hk hg hr hr' hrk).2 (Or.inr ⟨hrk', ?_⟩)
    obtain ⟨a, cg1, d, t, q, u1, u2, u3, u4, u5, rfl⟩ := hr
    obtain ⟨a', cg2, d', t', q', v1, v2, v3, v4, v5, rfl⟩ := hr'
    cases cfgAt_unique hcg u2
    cases cfgAt_unique hcg v2
    exact (sameInstance_sameScope hsc u5 (fun _ _ => v5)).2 ⟨rfl, hin⟩
  obtain ⟨p, hp1⟩ := List.mem_iff_getElem?.1 h
  obtain ⟨p', hp2⟩ := List.mem_iff_getElem?.1 h'
  have hm := mem_usesIn hp1 hv (a := r.gen) rfl
  have hm' := mem_usesIn hp2 hv' (a := r.gen) hgen.symm
  refine hinv.same ?_ _ hm _ hm' hsame
  intro u hu
  obtain ⟨p0, n0, i0, vs0, f1, ⟨r0, v0⟩, f2, f3, -, f5⟩ := of_mem_usesIn hu
  have hin0 := hist_inputs o (dgenOps genv) (cliAt tbl res) st.sl.scope.made g xs (List.mem_of_getElem? f1)
  have hr0 : r0 ∈ (((cliAt tbl res n0).data[i0]?).map (·.inputs)).getD [] := by
    rw [← hin0]; exact List.mem_map.2 ⟨_, f2, rfl⟩
  obtain ⟨x0, rl0, hr0'⟩ := hs.inputIn (List.mem_of_getElem? f1) f2
  cases hd : (cliAt tbl res n0).data[i0]? with
  | none => rw [hd] at hr0; cases hr0
  | some d =>
    rw [hd] at hr0
    have hn := hs.one_client hload hp hk (Or.inr hsc) hr hrk tbl n0 d (List.mem_of_getElem? hd) r0 hr0 f3
    have hn' : n0 = n := hn
    subst hn'
    rw [← f5]
    refine himp d (List.mem_of_getElem? hd) r0 hr0 ?_
    have hm := hs.madeFor hload (hs.input_log hr) rfl
    have hm' := hs.madeFor hload (hs.input_log hr0') rfl
    dsimp only at hm hm' f3
    rw [hrk] at hm
    rw [f3] at hm'
    exact MadeFor.key_eq hk hg hm hm'

/-- **C115 (own values).** Each use of a saved column by a client gets exactly one value: nil, or a value that
this client saved before under this key, in the same instance of the scope. So a client never sends what
another client saved. -/
theorem C115_own_values_partial (o : FmtOther) (genv : GenEnv) (tbl : GoMap Nat Nat) (g : GenStart DGen)
    (xs : List SIn) {k : String} {sc : Scope} (hs : Staged pre env w groups st res)
    (hload : LoadsWith k sc pre) (hp : k ≠ "@PREV") (hk : k ≠ noopColumn) (hne : k ≠ "") (hsc : IsSingle sc)
    (hb : sc = .trx → NoIdleFirst env) (hcol : ∀ a, HoldsCol (g.new k a) .nil)
    {n : ClientNo} {cg : CGCfg} (hcg : CfgAt w groups n.1 n.2.1 cg)
    {p i : Nat} {cnt : RunCount} {vs : List (InRef × Option (List GoVal))} {r : InRef} {v : Option (List GoVal)}
    (h : (sessionOf o (dgenOps genv) tbl st res g xs).hist[p]? = some (.gen n i cnt vs)) (hv : (r, v) ∈ vs)
    (hrk : r.key = k) :
    ∃ x, v = some [x] ∧ (x = .nil ∨ ∃ s ∈ (sessionOf o (dgenOps genv) tbl st res g xs).saves,
      s.n = n ∧ savedKey (cliAt tbl res) s = some k ∧ sameScope sc env cg s.i i = true ∧ s.time ≤ p ∧ s.val = x) := by
  obtain ⟨x, rl, hr⟩ := hs.inputIn (List.mem_of_getElem? h) hv
  have hinv := hs.colInv o genv tbl g xs hload hp hk hsc hb hcol hr hrk
  obtain ⟨-, -, z, z1, z2⟩ := hinv.ev p n i cnt vs h r v hv rfl
  refine ⟨z, z1, z2.imp id ?_⟩
  rintro ⟨s, s1, s2, s3, s4⟩
  obtain ⟨t1, t2, t3⟩ := (hs.savedIn_iff hload hp hk hne hsc hr hrk hcg tbl s).1 s2
  exact ⟨s, s1, t1, t2, t3, s3, s4⟩

/-- **C115 (columns with statement scope).** A statement that does not save the column itself always gets nil
for it, whatever was saved. -/
theorem C115_statement_scope_nil_partial (o : FmtOther) (genv : GenEnv) (tbl : GoMap Nat Nat) (g : GenStart DGen)
    (xs : List SIn) {k : String} (hs : Staged pre env w groups st res)
    (hload : LoadsWith k .statement pre) (hp : k ≠ "@PREV") (hk : k ≠ noopColumn) (hne : k ≠ "")
    (hcol : ∀ a, HoldsCol (g.new k a) .nil)
    {n : ClientNo} {cg : CGCfg} (hcg : CfgAt w groups n.1 n.2.1 cg) {stmt : Stmt}
    {p i : Nat} {cnt : RunCount} {vs : List (InRef × Option (List GoVal))} {r : InRef} {v : Option (List GoVal)}
    (h : (sessionOf o (dgenOps genv) tbl st res g xs).hist[p]? = some (.gen n i cnt vs)) (hv : (r, v) ∈ vs)
    (hrk : r.key = k) (hst : (cliAt tbl res n).statements[i]? = some stmt) (hout : k ∉ stmt.outputs)
    (hid : k ≠ stmt.insertId) : v = some [.nil] := by
  have hsc : IsSingle .statement := by simp [IsSingle]
  obtain ⟨x, rfl, hx⟩ := C115_own_values_partial o genv tbl g xs hs hload hp hk hne hsc (by simp) hcol hcg h hv hrk
  rcases hx with rfl | ⟨s, -, s1, s2, s3, -, -⟩
  · rfl
  · exfalso
    have hi : s.i = i := by simpa [sameScope] using s3
    unfold savedKey at s2
    rw [s1, hi, hst, Option.bind_some] at s2
    split at s2
    · obtain ⟨k', h1, h2⟩ := Option.bind_eq_some_iff.1 s2
      split at h2
      · cases h2
      · cases h2; exact hout (List.mem_of_getElem? h1)
    · split at s2
      · cases s2
      · cases s2; exact hid rfl

/-- What `Copy` makes of a column generator holds no value. -/
theorem C115_copy_holds_nothing (genv : GenEnv) (c : Column) {x : Gen} (h : (Gen.column c).copy genv = some x)
    (calls : Nat) (draw : Nat → GenDraw) : HoldsCol ⟨x, calls, draw⟩ .nil := by
  cases h
  exact ⟨_, rfl, rfl⟩

/-- **C115 for trx files (the value saved last).** -/
theorem C115_prepared_last_saved_partial (o : FmtOther) (genv : GenEnv) (tbl : GoMap Nat Nat)
    (g : GenStart DGen) (xs : List SIn) {p : PrepEnv} {r : Prepared}
    (h : prepare p DataScope.new GoMap.empty = .ok r) (hst : 0 < p.stage)
    (hw : ∀ cg ∈ p.workload, ∀ n ∈ cg.trx, n ∈ p.files.map (·.env.trx))
    {k : String} {sc : Scope} (hsc : IsSingle sc) (hk : keyScope r k sc)
    (hp : k ≠ "@PREV") (hn : k ≠ "_") (he : k ≠ "")
    (hidle : sc = .trx → ∀ t ss stmt, r.set.statements t = some ss → ss[0]? = some stmt → stmt.idle = 0)
    (hcol : ∀ a, HoldsCol (g.new k a) .nil)
    {n : ClientNo} {cg : CGCfg} (hcg : CfgAt r.workload r.groups n.1 n.2.1 cg)
    {q i : Nat} {cnt : RunCount} {vs : List (InRef × Option (List GoVal))} {x : InRef} {v : Option (List GoVal)}
    (h1 : (preparedSession o (dgenOps genv) tbl r g xs).hist[q]? = some (.gen n i cnt vs)) (hv : (x, v) ∈ vs)
    (hx : x.key = k)
    (hfirst : x.explicit = true ∨ ∀ (q' i' : Nat) cnt' vs', q' < q →
      (preparedSession o (dgenOps genv) tbl r g xs).hist[q']? = some (.gen n i' cnt' vs') →
      (∃ y ∈ vs', y.1.key = k) → scopeCounter sc cnt' ≠ scopeCounter sc cnt) :
    v = some [lastSavedFor (cliAt tbl r.execGroups) ⟨r.set.statements, p.stage, p.withStats, p.dbFails⟩ cg sc n i k q
      (preparedSession o (dgenOps genv) tbl r g xs).saves] := by
  obtain ⟨pre, hs, hl⟩ := C114_prepared h hst hw
  obtain ⟨tk, ht, hd⟩ := hk
  exact C115_last_saved_partial o genv tbl g xs hs (hd ▸ hl k tk ht) hp hn he hsc hidle hcol hcg h1 hv hx hfirst

/-- **C115 for trx files (the same value).** -/
theorem C115_prepared_same_value_partial (o : FmtOther) (genv : GenEnv) (tbl : GoMap Nat Nat)
    (g : GenStart DGen) (xs : List SIn) {p : PrepEnv} {r : Prepared}
    (h : prepare p DataScope.new GoMap.empty = .ok r) (hst : 0 < p.stage)
    (hw : ∀ cg ∈ p.workload, ∀ n ∈ cg.trx, n ∈ p.files.map (·.env.trx))
    {k : String} {sc : Scope} (hsc : IsSingle sc) (hk : keyScope r k sc)
    (hp : k ≠ "@PREV") (hn : k ≠ "_")
    (hidle : sc = .trx → ∀ t ss stmt, r.set.statements t = some ss → ss[0]? = some stmt → stmt.idle = 0)
    (hcol : ∀ a, HoldsCol (g.new k a) .nil)
    {n : ClientNo} {cg : CGCfg} (hcg : CfgAt r.workload r.groups n.1 n.2.1 cg)
    (himp : ∀ d ∈ (cliAt tbl r.execGroups n).data, ∀ r ∈ d.inputs, r.key = k → r.explicit = false)
    {i i' : Nat} {cnt cnt' : RunCount} {vs vs' : List (InRef × Option (List GoVal))} {x x' : InRef}
    {v v' : Option (List GoVal)}
    (h1 : SEv.gen n i cnt vs ∈ (preparedSession o (dgenOps genv) tbl r g xs).hist)
    (h2 : SEv.gen n i' cnt' vs' ∈ (preparedSession o (dgenOps genv) tbl r g xs).hist)
    (hv : (x, v) ∈ vs) (hv' : (x', v') ∈ vs') (hx : x.key = k) (hx' : x'.key = k)
    (hin : sameScope sc ⟨r.set.statements, p.stage, p.withStats, p.dbFails⟩ cg i i' = true)
    (hsame : scopeCounter sc cnt = scopeCounter sc cnt') : v = v' := by
  obtain ⟨pre, hs, hl⟩ := C114_prepared h hst hw
  obtain ⟨tk, ht, hd⟩ := hk
  exact C115_same_value_partial o genv tbl g xs hs (hd ▸ hl k tk ht) hp hn hsc hidle hcol hcg himp h1 h2 hv hv' hx hx'
    hin hsame

/-- **C115 for trx files (own values).** -/
theorem C115_prepared_own_values_partial (o : FmtOther) (genv : GenEnv) (tbl : GoMap Nat Nat)
    (g : GenStart DGen) (xs : List SIn) {p : PrepEnv} {r : Prepared}
    (h : prepare p DataScope.new GoMap.empty = .ok r) (hst : 0 < p.stage)
    (hw : ∀ cg ∈ p.workload, ∀ n ∈ cg.trx, n ∈ p.files.map (·.env.trx))
    {k : String} {sc : Scope} (hsc : IsSingle sc) (hk : keyScope r k sc)
    (hp : k ≠ "@PREV") (hn : k ≠ "_") (he : k ≠ "")
    (hidle : sc = .trx → ∀ t ss stmt, r.set.statements t = some ss → ss[0]? = some stmt → stmt.idle = 0)
    (hcol : ∀ a, HoldsCol (g.new k a) .nil)
    {n : ClientNo} {cg : CGCfg} (hcg : CfgAt r.workload r.groups n.1 n.2.1 cg)
    {q i : Nat} {cnt : RunCount} {vs : List (InRef × Option (List GoVal))} {x : InRef} {v : Option (List GoVal)}
    (h1 : (preparedSession o (dgenOps genv) tbl r g xs).hist[q]? = some (.gen n i cnt vs)) (hv : (x, v) ∈ vs)
    (hx : x.key = k) :
    ∃ y, v = some [y] ∧ (y = .nil ∨ ∃ s ∈ (preparedSession o (dgenOps genv) tbl r g xs).saves,
      s.n = n ∧ savedKey (cliAt tbl r.execGroups) s = some k ∧
      sameScope sc ⟨r.set.statements, p.stage, p.withStats, p.dbFails⟩ cg s.i i = true ∧ s.time ≤ q ∧ s.val = y) := by
  obtain ⟨pre, hs, hl⟩ := C114_prepared h hst hw
  obtain ⟨tk, ht, hd⟩ := hk
  exact C115_own_values_partial o genv tbl g xs hs (hd ▸ hl k tk ht) hp hn he hsc hidle hcol hcg h1 hv hx

/-! ### What is false -/

/-- Reads an id and uses it. -/
def colLines : List String := ["-- save-columns: @id", "SELECT id FROM t", "", "UPDATE t SET a=1 WHERE id=@id"]

def colGenEnv : GenEnv := ⟨id, fun _ => none, 0⟩

/-- New column generators. -/
def colGen : GenStart DGen where
  new _ _ := ⟨.column ⟨false, .nil, [], false⟩, 0, fun _ => ⟨⟨0, 0, 0⟩, 0, [], [], ⟨0, 0, 0, 0, 0, 0, 0, 0⟩⟩⟩
  kept _ := none

/-- A step without errors, with one row of one value if it reads rows, and this insert id. -/
def colStep (row : Option Int) (id : Int) : SIn :=
  ⟨(0, 0, 0), okAns, fun _ => [], (row.map fun v => [Scanned.other v]).toList, id⟩

/-- Prepare a stage of one trx file (data key `@id` has this scope) and let its client run. -/
def colSession (sc : String) (lines : List String) (xs : List SIn) : Option (Sess DGen) :=
  match prepare (prepDemo (prepFile sc lines)) DataScope.new GoMap.empty with
  | .ok r => some (preparedSession ⟨fun _ _ => [], fun _ _ => []⟩ (dgenOps colGenEnv) GoMap.empty r colGen xs)
  | _ => none

/-- The texts sent. -/
def colSent (s : Sess DGen) : List Text :=
  s.hist.filterMap fun e => match e with
    | .sent _ _ _ (.text t) => some t
    | _ => none

/-- Each trx uses the id it read. -/
example : ((colSession "" colLines ((List.range 20).map fun t => colStep (some t) 0)).map colSent) =
    some ["SELECT id FROM t".toList, "UPDATE t SET a=1 WHERE id=10".toList,
      "SELECT id FROM t".toList, "UPDATE t SET a=1 WHERE id=17".toList] := by decide +kernel

/-- **Not nil if no row matches.** client/client.go:294-297 says that a column returns nil if no row was
read. In the second trx here no row is read, and the client sends the id of the first trx. -/
theorem C115_no_row_sends_old_value_false :
    (colSession "" colLines ((List.range 20).map fun t => colStep (if t < 12 then some t else none) 0)).map
      (fun s => (colSent s, s.saves.map (·.val))) =
    some (["SELECT id FROM t".toList, "UPDATE t SET a=1 WHERE id=10".toList,
      "SELECT id FROM t".toList, "UPDATE t SET a=1 WHERE id=10".toList], [goI64 10]) := by decide +kernel

/-- **Not the value saved last**: with client scope the client sends the first id it read for ever. -/
theorem C115_client_scope_sends_first_value_false :
    (colSession "client" colLines ((List.range 20).map fun t => colStep (some t) 0)).map
      (fun s => (colSent s, s.saves.map (·.val))) =
    some (["SELECT id FROM t".toList, "UPDATE t SET a=1 WHERE id=10".toList,
      "SELECT id FROM t".toList, "UPDATE t SET a=1 WHERE id=10".toList], [goI64 10, goI64 17]) := by decide +kernel

/-- **Not the value saved last**: a statement that uses the column it saves makes the rest of the trx use
the old value. -/
theorem C115_own_column_sends_old_value_false :
    (colSession "" ["-- save-insert-id: @id", "INSERT INTO t SET b=@id", "", "UPDATE t SET a=1 WHERE id=@id"]
      ((List.range 19).map fun t => colStep none t)).map (fun s => (colSent s, s.saves.map (·.val))) =
    some (["INSERT INTO t SET b=<nil>".toList, "UPDATE t SET a=1 WHERE id=<nil>".toList,
      "INSERT INTO t SET b=9".toList, "UPDATE t SET a=1 WHERE id=9".toList], [goI64 9, goI64 15]) := by decide +kernel

/-- **Not a saved value**: a column with statement scope is nil in every other statement. -/
theorem C115_statement_scope_sends_nil_false :
    (colSession "statement" colLines ((List.range 13).map fun t => colStep (some t) 0)).map
      (fun s => (colSent s, s.saves.map (·.val))) =
    some (["SELECT id FROM t".toList, "UPDATE t SET a=1 WHERE id=<nil>".toList], [goI64 10]) := by decide +kernel

/-! ### The hypotheses are met -/

example : ∀ a, HoldsCol (colGen.new "@id" a) .nil := fun _ => ⟨_, rfl, rfl⟩

/-- A stage in which a client uses `@id` in two iterations, for the first time in each trx. -/
example : ∃ r, prepare (prepDemo (prepFile "" colLines)) DataScope.new GoMap.empty = .ok r ∧ keyScope r "@id" .trx ∧
    (∀ t ss stmt, r.set.statements t = some ss → ss[0]? = some stmt → stmt.idle = 0) ∧
    (∃ cg, CfgAt r.workload r.groups 0 0 cg) ∧
    ∃ cnt cnt' x, (preparedSession ⟨fun _ _ => [], fun _ _ => []⟩ (dgenOps colGenEnv) GoMap.empty r colGen
        ((List.range 20).map fun t => colStep (some t) 0)).hist.filter (fun e => match e with
          | .gen _ 1 _ _ => true
          | _ => false) =
      [.gen (0, 0, 0) 1 cnt [(x, some [goI64 10])], .gen (0, 0, 0) 1 cnt' [(x, some [goI64 17])]] ∧
      scopeCounter .trx cnt ≠ scopeCounter .trx cnt' ∧ x.key = "@id" ∧ x.explicit = false := by
  have h : (match prepare (prepDemo (prepFile "" colLines)) DataScope.new GoMap.empty with
    | .ok r => decide ((r.set.keys "@id").map (fun tk => docScope tk.key) = some .trx) &&
        decide ((r.set.statements "t").map (·.map (·.idle)) = some [0, 0]) &&
        (((r.groups[0]?).bind (·[0]?)).bind (r.workload[·]?)).isSome &&
        decide ((preparedSession ⟨fun _ _ => [], fun _ _ => []⟩ (dgenOps colGenEnv) GoMap.empty r colGen
          ((List.range 20).map fun t => colStep (some t) 0)).hist.filter (fun e => match e with
            | .gen _ 1 _ _ => true
            | _ => false) =
          [.gen (0, 0, 0) 1 ⟨2, 1, 1, 1, 1, 1, 1, 1⟩ [(⟨"@id", 0, false⟩, some [goI64 10])],
            .gen (0, 0, 0) 1 ⟨4, 2, 2, 1, 1, 1, 1, 1⟩ [(⟨"@id", 0, false⟩, some [goI64 17])]])
    | _ => false) = true := by decide +kernel
  split at h
  · rename_i r hr
    simp only [Bool.and_eq_true, decide_eq_true_eq, Option.isSome_iff_exists] at h
    obtain ⟨⟨⟨h1, h2⟩, cg, h3⟩, h4⟩ := h
    obtain ⟨tk, h5, h6⟩ := Option.map_eq_some_iff.1 h1
    refine ⟨r, hr, ⟨tk, h5, h6⟩, ?_, ⟨cg, ?_⟩, _, _, _, h4, by decide, rfl, rfl⟩
    · intro t ss stmt ht h0
      obtain ⟨-, hl, -⟩ := prepare_parts hr
      by_cases he : t = "t"
      · subst he
        obtain ⟨ss', e1, e2⟩ := Option.map_eq_some_iff.1 h2
        rw [ht] at e1; cases e1
        have := congrArg (·[0]?) e2
        simpa [h0] using this
      · have := C75_statements_kept _ _ _ t (by
          intro tf htf; simp only [prepDemo, List.mem_singleton] at htf; subst htf; exact fun h => he h.symm) hl
        rw [ht] at this; cases this
    · obtain ⟨ref, e1, e2⟩ := Option.bind_eq_some_iff.1 h3
      obtain ⟨g, e3, e4⟩ := Option.bind_eq_some_iff.1 e1
      exact ⟨g, ref, e3, e4, e2⟩
  · cases h

end Finch
