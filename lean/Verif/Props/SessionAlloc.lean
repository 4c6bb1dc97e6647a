import Verif.Props.SessionBase
import Verif.Props.ClientPs
/-!
C114, second part: the generators of the clients of an allocation. A generator of a data key of a
single-client scope is used by one client only, and by nothing that saves columns unless the key is saved.
-/
namespace Finch

/-! ### Generators and their ids -/

/-- What the generators made so far are, with attention to key `k` of scope `sc`. -/
structure MadeInv (k : String) (sc : Scope) (s : DataScope) : Prop where
  keyScope : ∀ key, s.keys k = some key → key.effScope = sc
  copies : ∀ n a, s.copyOf n = some a →
    ∃ i, s.made a = some i ∧ i.dataKey = n ∧ n ≠ noopColumn ∧ (n = k → i.scope = sc)
  noop_ : ∀ a, s.noop = some a → s.made a = some noopId
  fresh : ∀ a, s.next ≤ a → s.made a = none

/-- The generator returned by a copy of key `n`. -/
def MadeFor (k : String) (sc : Scope) (made : GoMap Nat GenId) (n : String) (a : Nat) : Prop :=
  ∃ i, made a = some i ∧ (n = noopColumn → i = noopId) ∧
    (n ≠ noopColumn → i.dataKey = n ∧ (n = k → i.scope = sc))

theorem MadeInv.copy {k : String} {sc : Scope} {s s' : DataScope} {key : String} {rl : RunLevel}
    {out : Option Nat} (h : MadeInv k sc s) (hc : s.copy key rl = .ok (s', out)) :
    MadeInv k sc s' ∧ (∀ a i, s.made a = some i → s'.made a = some i) ∧
      ∀ a, out = some a → MadeFor k sc s'.made key a := by
  have hne : ∀ a i, s.made a = some i → a ≠ s.next := by
    intro a i ha he; subst he; rw [h.fresh _ (Nat.le_refl _)] at ha; cases ha
  unfold DataScope.copy at hc
  split at hc
  · cases hc; exact ⟨h, fun _ _ h => h, by simp⟩
  · split at hc
    · cases hc
    rename_i kk hkk
    split at hc
    · rename_i hno
      split at hc
      · rename_i a ha
        cases hc
        refine ⟨h, fun _ _ h => h, ?_⟩
        rintro a' ⟨⟩
        exact ⟨_, h.noop_ a ha, fun _ => rfl, fun hx => absurd hno hx⟩
      · cases hc
        refine ⟨⟨h.keyScope, ?_, ?_, ?_⟩, ?_, ?_⟩
        · intro n a ha
          obtain ⟨i, h4, h5⟩ := h.copies n a ha
          exact ⟨i, by simp [GoMap.set, hne a i h4, h4], h5⟩
        · intro a ha
          cases ha
          exact GoMap.set_same _ _ _
        · intro a ha
          simp at ha
          simp [GoMap.set, show a ≠ s.next by omega, h.fresh a (by omega)]
        · intro a i ha
          simp [GoMap.set, hne a i ha, ha]
        · intro a ha
          cases ha
          exact ⟨_, GoMap.set_same _ _ _, fun _ => rfl, fun hx => absurd hno hx⟩
    · rename_i hno
      dsimp only at hc
      have hks : ∀ key', (s.keys.set key { kk with scope := some kk.effScope }) k = some key' →
          key'.effScope = sc := by
        intro key' hk'
        simp only [GoMap.set] at hk'
        split at hk'
        · rename_i he
          subst he
          cases hk'
          exact h.keyScope kk hkk
        · exact h.keyScope key' hk'
      have hksc : key = k → kk.effScope = sc := by rintro rfl; exact h.keyScope kk hkk
      split at hc
      · cases hc
        refine ⟨⟨hks, ?_, ?_, ?_⟩, ?_, ?_⟩
        · intro n a ha
          simp only [GoMap.set] at ha
          split at ha
          · rename_i he; cases ha; subst he
            exact ⟨_, GoMap.set_same _ _ _, rfl, hno, hksc⟩
          · obtain ⟨i, h4, h5⟩ := h.copies n a ha
            exact ⟨i, by simp [GoMap.set, hne a i h4, h4], h5⟩
        · intro a ha
          have := h.noop_ a ha
          simp [GoMap.set, hne a _ this, this]
        · intro a ha
          simp at ha
          simp [GoMap.set, show a ≠ s.next by omega, h.fresh a (by omega)]
        · intro a i ha
          simp [GoMap.set, hne a i ha, ha]
        · intro a ha
          cases ha
          exact ⟨_, GoMap.set_same _ _ _, fun hx => absurd hx hno, fun _ => ⟨rfl, hksc⟩⟩
      · cases hc
        refine ⟨⟨hks, h.copies, h.noop_, h.fresh⟩, fun _ _ h => h, fun a ha => ?_⟩
        obtain ⟨i, h1, h2, h3, h4⟩ := h.copies key a ha
        exact ⟨i, h1, fun hx => absurd hx hno, fun _ => ⟨h2, h4⟩⟩

theorem MadeInv.run {k : String} {sc : Scope} : ∀ (ops : List ScopeOp) {s s' : DataScope}
    {obs : List CopyObs}, MadeInv k sc s → LoadsWith k sc ops → s.run ops = .ok (s', obs) →
    (∀ a i, s.made a = some i → s'.made a = some i) ∧
    ∀ o ∈ obs, ∀ a, o.out = some a → MadeFor k sc s'.made o.key a := by
  intro ops
  induction ops with
  | nil => intro s s' obs _ _ hr; simp only [DataScope.run] at hr; cases hr; simp
  | cons op ops ih =>
    intro s s' obs h hl hr
    have hl' : LoadsWith k sc ops := fun key hm => hl key (List.mem_cons_of_mem _ hm)
    cases op with
    | reset n =>
      simp only [DataScope.run] at hr
      refine ih (s := s.reset) ⟨?_, ?_, h.noop_, h.fresh⟩ hl' hr
      · intro key hk
        apply h.keyScope key
        revert hk; simp only [DataScope.reset]; split <;> simp
      · intro n a ha
        apply h.copies n a
        revert ha; simp only [DataScope.reset]; split <;> simp
    | load key kk =>
      simp only [DataScope.run] at hr
      have h1 : MadeInv k sc (s.load key kk) := by
        unfold DataScope.load
        split
        · exact h
        · refine ⟨?_, h.copies, h.noop_, h.fresh⟩
          intro key' hk'
          simp only [GoMap.set] at hk'
          split at hk'
          · rename_i he
            subst he
            cases hk'
            rw [effScope_eq]
            exact hl _ List.mem_cons_self
          · exact h.keyScope key' hk'
      have := ih h1 hl' hr
      have h3 : (s.load key kk).made = s.made := by unfold DataScope.load; split <;> rfl
      rw [h3] at this; exact this
    | copy key rl =>
      simp only [DataScope.run] at hr
      split at hr
      · cases hr
      rename_i s1 out hc
      split at hr
      · cases hr
      rename_i s2 obs' hr'
      cases hr
      obtain ⟨g1, g2, g3⟩ := h.copy hc
      have := ih g1 hl' hr'
      refine ⟨fun a i ha => this.1 a i (g2 a i ha), ?_⟩
      intro o ho a ha
      rcases List.mem_cons.1 ho with he | he
      · subst he
        obtain ⟨i, hi, hk⟩ := g3 a ha
        exact ⟨i, this.1 a i hi, hk⟩
      · exact this.2 o he a ha

/-! ### Stages -/

/-- Spec: after the scope operations `pre` (keys loaded, earlier stages), the clients of a stage were
allocated. -/
def Staged (pre : List ScopeOp) (env : WEnv) (w : List CGCfg) (groups : List (List Nat)) (st : WState)
    (res : List (List ACGroup)) : Prop :=
  NoEmptyTrx env w ∧ ∃ (stage1 : Nat) (obs : List CopyObs) (s : DataScope) (qps tps : Nat), 0 < stage1 ∧
    DataScope.new.run pre = .ok (s, obs) ∧ StageBegins stage1 pre env.stage ∧
    allocClients env w qps tps s groups = .ok (st, res)

variable {pre : List ScopeOp} {env : WEnv} {w : List CGCfg} {groups : List (List Nat)} {st : WState}
  {res : List (List ACGroup)}

/-- Every `Copy` of the allocation returned a generator of its data key. -/
theorem Staged.madeFor {k : String} {sc : Scope} (hs : Staged pre env w groups st res)
    (hload : LoadsWith k sc pre) {o : CopyObs} (ho : o ∈ st.sl.log) {a : Nat} (ha : o.out = some a) :
    MadeFor k sc st.sl.scope.made o.key a := by
  obtain ⟨hne, stage1, obs, s, qps, tps, h1, hpre, hbeg, h⟩ := hs
  obtain ⟨hrun, -⟩ := alloc_history hne h hpre hbeg
  refine (MadeInv.run (k := k) (sc := sc) _ ⟨by simp [DataScope.new], by simp [DataScope.new],
    by simp [DataScope.new], by simp [DataScope.new]⟩ ?_ hrun).2 o
    (List.mem_append_right _ ho) a ha
  intro key hm
  rcases List.mem_append.mp hm with hm | hm
  · exact hload key hm
  · simp at hm

/-- Two keys with the same generator are one key. -/
theorem MadeFor.key_eq {k n : String} {sc : Scope} {made : GoMap Nat GenId} {a : Nat}
    (hk : k ≠ noopColumn) (hg : sc ≠ .global) (h1 : MadeFor k sc made k a) (h2 : MadeFor k sc made n a) :
    n = k := by
  obtain ⟨i, a1, -, a3⟩ := h1
  obtain ⟨j, b1, b2, b3⟩ := h2
  rw [a1] at b1
  cases b1
  obtain ⟨c1, c2⟩ := a3 hk
  by_cases hn : n = noopColumn
  · exact absurd (by rw [← c2 rfl, b2 hn]; rfl) hg
  · rw [← (b3 hn).1, c1]

theorem cfgAt_unique {e j : Nat} {c1 c2 : CGCfg} (h1 : CfgAt w groups e j c1) (h2 : CfgAt w groups e j c2) :
    c1 = c2 := by
  obtain ⟨g, ref, e1, e2, e3⟩ := h1
  obtain ⟨g', ref', f1, f2, f3⟩ := h2
  rw [e1] at f1; cases f1
  rw [e2] at f2; cases f2
  rw [e3] at f3; cases f3
  rfl

theorem clientAt_unique {e j c : Nat} {a b : AClient} (ha : ClientAt res e j c a) (hb : ClientAt res e j c b) :
    a = b := by
  obtain ⟨_, _, u1, u2, u3⟩ := ha
  obtain ⟨_, _, v1, v2, v3⟩ := hb
  rw [u1] at v1; cases v1
  rw [u2] at v2; cases v2
  rw [u3] at v3; cases v3
  rfl

theorem cliAt_eq {tbl : GoMap Nat Nat} {e j c : Nat} {a : AClient} (ha : ClientAt res e j c a) :
    cliAt tbl res (e, j, c) = a.cli tbl := by
  obtain ⟨_, _, u1, u2, u3⟩ := ha
  simp [cliAt, u1, u2, u3]

theorem cliAt_cases (tbl : GoMap Nat Nat) (res : List (List ACGroup)) (n : ClientNo) :
    (∃ a, ClientAt res n.1 n.2.1 n.2.2 a ∧ cliAt tbl res n = a.cli tbl) ∨
      ((cliAt tbl res n).data = [] ∧ (cliAt tbl res n).statements = []) := by
  unfold cliAt
  split
  · rename_i a ha
    simp only [Option.bind_eq_some_iff] at ha
    obtain ⟨acg, ⟨cgs, h1, h2⟩, h3⟩ := ha
    exact Or.inl ⟨a, ⟨cgs, acg, h1, h2, h3⟩, rfl⟩
  · exact Or.inr ⟨rfl, rfl⟩

/-- An input of a client of the session is an input of the allocation. -/
theorem Staged.inputAt (hs : Staged pre env w groups st res) {tbl : GoMap Nat Nat} {n : ClientNo} {i x : Nat}
    {d : StmtData} {r : InRef} (hd : (cliAt tbl res n).data[i]? = some d) (hr : d.inputs[x]? = some r) :
    ∃ rl, InputAt env w groups res n.1 n.2.1 n.2.2 i x rl r := by
  obtain ⟨hne, stage1, obs, s, qps, tps, h1, hpre, hbeg, h⟩ := hs
  rcases cliAt_cases tbl res n with ⟨a, ha, he⟩ | ⟨he, -⟩
  · rw [he] at hd
    obtain ⟨cg, hcg, -, hok⟩ := allocClients_at hne h ha
    obtain ⟨t, q, stmt, li, p1, -, -, -⟩ := hok.prov.at.2.2 i d hd
    exact ⟨_, a, cg, d, t, q, ha, hcg, hd, hr, p1, rfl⟩
  · rw [he] at hd; cases hd

theorem Staged.input_log (hs : Staged pre env w groups st res) {e j c i x : Nat} {rl : RunLevel}
    {r : InRef} (hr : InputAt env w groups res e j c i x rl r) : ⟨r.key, rl, some r.gen⟩ ∈ st.sl.log := by
  obtain ⟨hne, stage1, obs, s, qps, tps, h1, hpre, hbeg, h⟩ := hs
  obtain ⟨l', l1', n', l2', -⟩ := inputAt_log hne h hr
  exact l1'.subset (List.mem_of_getElem? l2')

/-- Spec: no statement saves a column or insert id under this key. -/
def SavedNowhere (env : WEnv) (k : String) : Prop :=
  ∀ n ss, env.stmts n = some ss → ∀ stmt ∈ ss, k ∉ stmt.outputs ∧ stmt.insertId ≠ k

theorem Staged.notSaved {k : String} {sc : Scope} (hs : Staged pre env w groups st res)
    (hload : LoadsWith k sc pre) (hk : k ≠ noopColumn) (hg : sc ≠ .global) (hsv : SavedNowhere env k)
    {e j c i x : Nat} {rl : RunLevel} {r : InRef} (hr : InputAt env w groups res e j c i x rl r)
    (hrk : r.key = k) (tbl : GoMap Nat Nat) : NotSaved (cliAt tbl res) r.gen := by
  intro n d hd
  obtain ⟨i', hd⟩ := List.mem_iff_getElem?.1 hd
  have hm := hs.madeFor hload (hs.input_log hr) rfl
  dsimp only at hm
  rw [hrk] at hm
  have hs' := hs
  obtain ⟨hne, stage1, obs, s, qps, tps, h1, hpre, hbeg, h⟩ := hs'
  rcases cliAt_cases tbl res n with ⟨a, ha, he⟩ | ⟨he, -⟩
  swap
  · rw [he] at hd; cases hd
  rw [he] at hd
  obtain ⟨cg, hcg, -, hok⟩ := allocClients_at hne h ha
  obtain ⟨t, q, stmt, li, p1, p2, p3, p4⟩ := hok.prov.at.2.2 i' d hd
  obtain ⟨nm, -, hnm⟩ := List.mem_flatMap.1 (List.mem_of_getElem? p2)
  have hstmt : k ∉ stmt.outputs ∧ stmt.insertId ≠ k := by
    cases hx : env.stmts nm with
    | none => rw [hx] at hnm; cases hnm
    | some ss => rw [hx] at hnm; exact hsv nm ss hx stmt hnm
  constructor
  · intro hmem
    obtain ⟨y, hy⟩ := List.mem_iff_getElem?.1 hmem
    obtain ⟨o1, o2, o3⟩ := p4.outputs
    have hlt : y < stmt.outputs.length := by rw [← o1]; exact (List.getElem?_eq_some_iff.1 hy).1
    have hout := List.getElem?_eq_getElem hlt
    by_cases hid : stmt.outputs[y] = stmt.insertId
    · rw [o3 y (by rw [hout, hid])] at hy; cases hy
    · obtain ⟨g, g1, g2⟩ := o2 y _ hout hid
      rw [hy] at g1
      cases g1
      have := hs.madeFor hload (p3.subset g2) rfl
      have := MadeFor.key_eq hk hg hm this
      dsimp only at this
      exact hstmt.1 (by rw [← this]; exact List.getElem_mem hlt)
  · intro hid
    rcases p4.insertId with ⟨-, y⟩ | ⟨g', y1, y2⟩
    · rw [hid] at y; cases y
    · rw [hid] at y1
      cases y1
      exact hstmt.2 (MadeFor.key_eq hk hg hm (hs.madeFor hload (p3.subset y2) rfl))

/-- Inputs with the same generator have the same key and lie in the same instance of its scope; and
conversely. -/
theorem Staged.same_gen {k : String} {sc : Scope} (hs : Staged pre env w groups st res)
    (hload : LoadsWith k sc pre) (hp : k ≠ "@PREV") (hk : k ≠ noopColumn) (hg : sc ≠ .global)
    {e j c i x e' j' c' i' x' : Nat} {rl rl' : RunLevel} {r r' : InRef}
    (hr : InputAt env w groups res e j c i x rl r) (hr' : InputAt env w groups res e' j' c' i' x' rl' r')
    (hrk : r.key = k) :
    r.gen = r'.gen ↔ (e, j, c, i, x) = (e', j', c', i', x') ∨ (r'.key = k ∧ SameInstance sc rl rl') := by
  have hs' := hs
  obtain ⟨hne, stage1, obs, s, qps, tps, h1, hpre, hbeg, h⟩ := hs'
  by_cases hd : (e, j, c, i, x) = (e', j', c', i', x')
  · refine iff_of_true ?_ (Or.inl hd)
    cases hd
    obtain ⟨a, cg, d, t, q, u1, u2, u3, u4, -, -⟩ := hr
    obtain ⟨a', cg', d', t', q', v1, v2, v3, v4, -, -⟩ := hr'
    cases clientAt_unique u1 v1
    rw [u3] at v3; cases v3
    rw [u4] at v4; cases v4
    rfl
  · by_cases hrk' : r'.key = k
    · rw [C01_allocated_clients k sc hp hk hg h1 hpre hload hbeg hne h hr hr' hrk hrk' hd]
      simp [hd, hrk']
    · have hm := hs.madeFor hload (hs.input_log hr) rfl
      have hm' := hs.madeFor hload (hs.input_log hr') rfl
      dsimp only at hm hm'
      rw [hrk] at hm
      simp only [hd, hrk', false_and, or_false, iff_false]
      intro he
      rw [← he] at hm'
      exact hrk' (MadeFor.key_eq hk hg hm hm')

/-- A generator of a single-client scope is used by one client. -/
theorem Staged.one_client {k : String} {sc : Scope} (hs : Staged pre env w groups st res)
    (hload : LoadsWith k sc pre) (hp : k ≠ "@PREV") (hk : k ≠ noopColumn) (hsc : sc = .value ∨ IsSingle sc)
    {e j c i x : Nat} {rl : RunLevel} {r : InRef} (hr : InputAt env w groups res e j c i x rl r)
    (hrk : r.key = k) (tbl : GoMap Nat Nat) :
    ∀ m, ∀ d ∈ (cliAt tbl res m).data, ∀ r' ∈ d.inputs, r'.gen = r.gen → m = (e, j, c) := by
  intro m d hd r' hr'm he
  obtain ⟨i', hd⟩ := List.mem_iff_getElem?.1 hd
  obtain ⟨x', hx⟩ := List.mem_iff_getElem?.1 hr'm
  obtain ⟨rl', hr'⟩ := hs.inputAt hd hx
  have hg : sc ≠ .global := by
    rcases hsc with rfl | rfl | rfl | rfl | rfl | rfl <;> simp
  rcases (hs.same_gen hload hp hk hg hr hr' hrk).1 he.symm with heq | ⟨-, hsame⟩
  · simp only [Prod.mk.injEq] at heq
    obtain ⟨h1, h2, h3, -, -⟩ := heq
    rw [h1, h2, h3]
  · obtain ⟨a, cg, d, t, q, u1, u2, u3, u4, -, rfl⟩ := hr
    obtain ⟨a', cg', d', t', q', v1, v2, v3, v4, -, rfl⟩ := hr'
    obtain ⟨m1, m2, m3⟩ := m
    rcases hsc with rfl | rfl | rfl | rfl | rfl | rfl <;> simp [SameInstance] at hsame ⊢ <;> omega

end Finch
