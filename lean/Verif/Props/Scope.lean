import Verif.Model.Scope
/-!
# C01, C02, C08: which generator serves which data key

Specification (independent of the comparison code): when are two allocation positions in the same
instance of a scope, and in which order are positions visited.
-/
namespace Finch

/-- Spec: two allocation positions lie in the same instance of scope `s`. Value-scoped keys are
unique per occurrence, so no two occurrences share an instance. -/
def SameInstance (s : Scope) (a b : RunLevel) : Prop :=
  let sameStage := a.stage = b.stage
  let sameExec := sameStage ∧ a.execGroup = b.execGroup
  let sameGroup := sameExec ∧ a.clientGroup = b.clientGroup
  let sameClient := sameGroup ∧ a.client = b.client
  let sameTrx := sameClient ∧ a.trx = b.trx
  let sameStmt := sameTrx ∧ a.query = b.query
  match s with
  | .value => False
  | .row | .statement => sameStmt
  | .trx => sameTrx
  | .iter | .client => sameClient
  | .clientGroup => sameGroup
  | .execGroup => sameExec
  | .workload | .stage => sameStage
  | .global => True

/-- Spec: the order in which positions are allocated (stage, exec group, client group, client,
trx, query; lexicographic, non-strict). -/
def AllocLe (a b : RunLevel) : Prop :=
  a.stage < b.stage ∨ (a.stage = b.stage ∧ (a.execGroup < b.execGroup ∨
    (a.execGroup = b.execGroup ∧ (a.clientGroup < b.clientGroup ∨
      (a.clientGroup = b.clientGroup ∧ (a.client < b.client ∨
        (a.client = b.client ∧ (a.trx < b.trx ∨ (a.trx = b.trx ∧ a.query ≤ b.query)))))))))

/-- Spec: a history visits positions in allocation order; `cur` is the current stage number,
`last` the last position. A reset starts a stage with a higher number. -/
def AllocOrdered (cur : Nat) (last : RunLevel) : List ScopeOp → Prop
  | [] => True
  | .reset n :: ops => cur < n ∧ AllocOrdered n last ops
  | .load _ _ :: ops => AllocOrdered cur last ops
  | .copy _ rl :: ops => rl.stage = cur ∧ AllocLe last rl ∧ AllocOrdered cur rl ops

/-- Spec: the scope of a key is the configured one; by default it is trx for a column and statement
for anything else. -/
def docScope : Key → Scope
  | ⟨some sc, _⟩ => sc
  | ⟨none, true⟩ => .trx
  | ⟨none, false⟩ => .statement

theorem effScope_eq (key : Key) : key.effScope = docScope key := by
  obtain ⟨sc, c⟩ := key
  cases sc <;> cases c <;> rfl

/-- Spec: in this history every load of key `k` configures (or defaults to) scope `sc`. -/
def LoadsWith (k : String) (sc : Scope) (ops : List ScopeOp) : Prop :=
  ∀ key, ScopeOp.load k key ∈ ops → docScope key = sc

theorem greaterThan_iff {s : Scope} {prev rl : RunLevel} (hs : s ≠ .global)
    (h : AllocLe prev rl) : rl.greaterThan prev s = true ↔ ¬ SameInstance s prev rl := by
  cases s <;>
    simp [RunLevel.greaterThan, RunLevel.array, runLevelNumber, anyGreater, SameInstance,
      AllocLe] at * <;> omega

theorem greaterThan_zero {s : Scope} {rl : RunLevel} (hs : s ≠ .global) (h : 0 < rl.stage) :
    rl.greaterThan RunLevel.zero s = true := by
  cases s <;>
    simp [RunLevel.greaterThan, RunLevel.array, runLevelNumber, anyGreater, RunLevel.zero] at * <;>
    omega

theorem sameInstance_symm {s : Scope} {a b : RunLevel} (h : SameInstance s a b) :
    SameInstance s b a := by
  cases s <;> simp [SameInstance] at * <;> omega

theorem sameInstance_trans {s : Scope} {a b c : RunLevel} (h : SameInstance s a b)
    (h' : SameInstance s b c) : SameInstance s a c := by
  cases s <;> simp [SameInstance] at * <;> omega

theorem not_sameInstance_of_le {s : Scope} {a b c : RunLevel} (hs : s ≠ .global)
    (hab : AllocLe a b) (hbc : AllocLe b c) (h : ¬ SameInstance s b c) : ¬ SameInstance s a c := by
  cases s <;> simp [SameInstance, AllocLe] at * <;> omega

theorem not_sameInstance_of_stage {s : Scope} {a b : RunLevel} (hs : s ≠ .global)
    (h : a.stage < b.stage) : ¬ SameInstance s a b := by
  cases s <;> simp [SameInstance] at * <;> omega

theorem allocLe_refl (a : RunLevel) : AllocLe a a := by simp [AllocLe]

theorem allocLe_trans {a b c : RunLevel} (h : AllocLe a b) (h' : AllocLe b c) : AllocLe a c := by
  simp [AllocLe] at *; omega

theorem allocLe_stage {a b : RunLevel} (h : AllocLe a b) : a.stage ≤ b.stage := by
  simp [AllocLe] at *; omega

/-- Invariant for key `k` of scope `sc` after observing the copies `H` (oldest first). -/
structure CopyInv (k : String) (sc : Scope) (cur : Nat) (last : RunLevel)
    (H : List CopyObs) (s : DataScope) : Prop where
  keyScope : ∀ key, s.keys k = some key → key.effScope = sc
  lastStage : last.stage ≤ cur
  pos : 0 < cur
  isSome : ∀ o ∈ H, o.key = k → ∃ a, o.out = some a ∧ a < s.next
  le : ∀ o ∈ H, o.key = k → AllocLe o.rl last
  cur_ : (s.copiedAt k = none ∧ s.copyOf k = none ∧ ∀ o ∈ H, o.key = k → o.rl.stage < cur) ∨
    ∃ r0 a0, s.copiedAt k = some r0 ∧ s.copyOf k = some a0 ∧ a0 < s.next ∧ AllocLe r0 last ∧
      ∀ o ∈ H, o.key = k → (SameInstance sc o.rl r0 ∨ AllocLe o.rl r0) ∧
        (sc ≠ .value → (o.out = some a0 ↔ SameInstance sc o.rl r0))
  pairs : (H.filter (fun o => o.key == k)).Pairwise
    (fun x y => x.out = y.out ↔ SameInstance sc x.rl y.rl)


theorem copyInv_reset {k sc cur last H s n} (h : CopyInv k sc cur last H s) (hn : cur < n) :
    CopyInv k sc n last H s.reset := by
  have hcase : (s.reset.copyOf k = s.copyOf k ∧ s.reset.copiedAt k = s.copiedAt k) ∨
      (s.reset.copyOf k = none ∧ s.reset.copiedAt k = none) := by
    simp only [DataScope.reset]
    split <;> simp
  refine ⟨?_, by have := h.lastStage; omega, by omega, h.isSome, h.le, ?_, h.pairs⟩
  · intro key hk
    apply h.keyScope key
    revert hk
    simp only [DataScope.reset]
    split <;> simp
  · have hst : ∀ o ∈ H, o.key = k → o.rl.stage < n := fun o ho hk => by
      have := allocLe_stage (h.le o ho hk); have := h.lastStage; omega
    rcases hcase with ⟨h1, h2⟩ | ⟨h1, h2⟩
    · rcases h.cur_ with ⟨h3, h4, h5⟩ | ⟨r0, a0, h3, h4, h5⟩
      · left; exact ⟨by rw [h2, h3], by rw [h1, h4], hst⟩
      · right; exact ⟨r0, a0, by rw [h2, h3], by rw [h1, h4], h5⟩
    · left; exact ⟨h2, h1, hst⟩

theorem copyInv_load {k sc cur last H s key kk} (h : CopyInv k sc cur last H s)
    (hl : key = k → kk.effScope = sc) : CopyInv k sc cur last H (s.load key kk) := by
  unfold DataScope.load
  split
  · exact h
  · refine ⟨?_, h.lastStage, h.pos, h.isSome, h.le, h.cur_, h.pairs⟩
    intro key' hk
    simp only [GoMap.set] at hk
    split at hk
    · rename_i he
      cases hk; exact hl he.symm
    · exact h.keyScope key' hk

/-- A copy of another key (or of `@PREV`, or of the no-op column) does not disturb key `k`. -/
theorem copyInv_other {k sc cur last H s key rl s' out} (h : CopyInv k sc cur last H s)
    (hne : key ≠ k) (hst : rl.stage = cur) (hle : AllocLe last rl)
    (hc : s.copy key rl = .ok (s', out)) :
    CopyInv k sc cur rl (H ++ [⟨key, rl, out⟩]) s' := by
  have hf : (H ++ [(⟨key, rl, out⟩ : CopyObs)]).filter (fun o => o.key == k)
      = H.filter (fun o => o.key == k) := by simp [hne]
  have hmem : ∀ o ∈ H ++ [(⟨key, rl, out⟩ : CopyObs)], o.key = k → o ∈ H := by
    intro o ho hk
    rcases List.mem_append.1 ho with h1 | h1
    · exact h1
    · simp at h1; subst h1; exact absurd hk hne
  have key_fact : s.next ≤ s'.next ∧ s'.copyOf k = s.copyOf k ∧ s'.copiedAt k = s.copiedAt k ∧
      s'.keys k = s.keys k := by
    unfold DataScope.copy at hc
    split at hc
    · cases hc; simp
    · split at hc
      · cases hc
      · split at hc
        · split at hc <;> cases hc <;> simp
        · dsimp only at hc
          split at hc <;> cases hc <;> simp [GoMap.set, Ne.symm hne]
  obtain ⟨h1, h2, h3, h4⟩ := key_fact
  refine ⟨by rw [h4]; exact h.keyScope, by omega, h.pos, ?_, ?_, ?_, by rw [hf]; exact h.pairs⟩
  · intro o ho hk
    obtain ⟨a, ha, hlt⟩ := h.isSome o (hmem o ho hk) hk
    exact ⟨a, ha, by omega⟩
  · intro o ho hk
    exact allocLe_trans (h.le o (hmem o ho hk) hk) hle
  · rcases h.cur_ with ⟨h5, h6, h7⟩ | ⟨r0, a0, h5, h6, h7, h8, h9⟩
    · left; exact ⟨by rw [h3, h5], by rw [h2, h6], fun o ho hk => h7 o (hmem o ho hk) hk⟩
    · right
      exact ⟨r0, a0, by rw [h3, h5], by rw [h2, h6], by omega, allocLe_trans h8 hle,
        fun o ho hk => h9 o (hmem o ho hk) hk⟩

theorem copyInv_copy {k sc cur last H s rl s' out} (h : CopyInv k sc cur last H s)
    (hp : k ≠ "@PREV") (hk' : k ≠ noopColumn) (hg : sc ≠ .global)
    (hst : rl.stage = cur) (hle : AllocLe last rl)
    (hc : s.copy k rl = .ok (s', out)) :
    CopyInv k sc cur rl (H ++ [⟨k, rl, out⟩]) s' := by
  unfold DataScope.copy at hc
  rw [if_neg hp] at hc
  split at hc
  · cases hc
  rename_i key hkey
  rw [if_neg hk'] at hc
  have hsc := h.keyScope key hkey
  rw [hsc] at hc
  dsimp only at hc
  have hmem : ∀ o ∈ H ++ [(⟨k, rl, out⟩ : CopyObs)], o ∈ H ∨ o = ⟨k, rl, out⟩ := by
    intro o ho; simpa using ho
  have hfil : (H ++ [(⟨k, rl, out⟩ : CopyObs)]).filter (fun o => o.key == k)
      = H.filter (fun o => o.key == k) ++ [⟨k, rl, out⟩] := by simp
  -- facts about the past
  have hold : ∀ o ∈ H, o.key = k → AllocLe o.rl rl := fun o ho hk =>
    allocLe_trans (h.le o ho hk) hle
  have hks : ∀ (key' : Key), (GoMap.set s.keys k { key with scope := some sc }) k = some key' →
      key'.effScope = sc := by
    intro key' hh; simp at hh; subst hh; simp [Key.effScope]
  split at hc
  · -- a new generator is allocated
    rename_i hgt
    cases hc
    have hnew : ∀ o ∈ H, o.key = k → ¬ SameInstance sc o.rl rl := by
      intro o ho hk
      rcases h.cur_ with ⟨h5, h6, h7⟩ | ⟨r0, a0, h5, h6, h7, h8, h9⟩
      · exact not_sameInstance_of_stage hg (by have := h7 o ho hk; omega)
      · rw [h5] at hgt
        simp only [Option.getD_some] at hgt
        have hr0 : AllocLe r0 rl := allocLe_trans h8 hle
        have hns := (greaterThan_iff hg hr0).1 hgt
        rcases (h9 o ho hk).1 with h10 | h10
        · intro hcon; exact hns (sameInstance_trans (sameInstance_symm h10) hcon)
        · exact not_sameInstance_of_le hg h10 hr0 hns
    refine ⟨hks, by omega, h.pos, ?_, ?_, ?_, ?_⟩
    · intro o ho hk
      rcases hmem o ho with h1 | h1
      · obtain ⟨a, ha, hlt⟩ := h.isSome o h1 hk
        exact ⟨a, ha, by simp; omega⟩
      · subst h1; exact ⟨s.next, rfl, by simp⟩
    · intro o ho hk
      rcases hmem o ho with h1 | h1
      · exact hold o h1 hk
      · subst h1; exact allocLe_refl _
    · right
      refine ⟨rl, s.next, by simp, by simp, by simp, allocLe_refl _, ?_⟩
      intro o ho hk
      rcases hmem o ho with h1 | h1
      · refine ⟨Or.inr (hold o h1 hk), fun _ => ?_⟩
        obtain ⟨a, ha, hlt⟩ := h.isSome o h1 hk
        rw [ha]
        constructor
        · intro he; simp at he; omega
        · intro he; exact absurd he (hnew o h1 hk)
      · subst h1
        refine ⟨Or.inr (allocLe_refl _), fun hv => ?_⟩
        simp
        cases sc <;> simp_all [SameInstance]
    · rw [hfil, List.pairwise_append]
      refine ⟨h.pairs, by simp, ?_⟩
      intro x hx y hy
      simp at hx hy
      subst hy
      obtain ⟨a, ha, hlt⟩ := h.isSome x hx.1 hx.2
      rw [ha]
      constructor
      · intro he; simp at he; omega
      · intro he; exact absurd he (hnew x hx.1 hx.2)
  · -- the current generator is reused
    rename_i hgt
    cases hc
    rcases h.cur_ with ⟨h5, h6, h7⟩ | ⟨r0, a0, h5, h6, h7, h8, h9⟩
    · exfalso
      apply hgt
      rw [h5]
      exact greaterThan_zero hg (by have := h.pos; omega)
    · rw [h5] at hgt
      simp only [Option.getD_some] at hgt
      have hr0 : AllocLe r0 rl := allocLe_trans h8 hle
      have hsame : SameInstance sc r0 rl := by
        apply Classical.byContradiction
        intro hcon
        exact hgt ((greaterThan_iff hg hr0).2 hcon)
      have hv : sc ≠ .value := by
        intro hcon; subst hcon; simp [SameInstance] at hsame
      have hsame' := sameInstance_symm hsame
      refine ⟨hks, by omega, h.pos, ?_, ?_, ?_, ?_⟩
      · intro o ho hk
        rcases hmem o ho with h1 | h1
        · exact h.isSome o h1 hk
        · subst h1; exact ⟨a0, h6, h7⟩
      · intro o ho hk
        rcases hmem o ho with h1 | h1
        · exact hold o h1 hk
        · subst h1; exact allocLe_refl _
      · right
        refine ⟨r0, a0, h5, h6, h7, hr0, ?_⟩
        intro o ho hk
        rcases hmem o ho with h1 | h1
        · exact h9 o h1 hk
        · subst h1
          refine ⟨Or.inl hsame', fun _ => ?_⟩
          simp [h6, hsame']
      · rw [hfil, List.pairwise_append]
        refine ⟨h.pairs, by simp, ?_⟩
        intro x hx y hy
        simp at hx hy
        subst hy
        have := (h9 x hx.1 hx.2).2 hv
        show x.out = s.copyOf k ↔ _
        rw [h6, this]
        exact ⟨fun hh => sameInstance_trans hh hsame, fun hh => sameInstance_trans hh hsame'⟩

theorem copyInv_run {k sc} (hp : k ≠ "@PREV") (hk' : k ≠ noopColumn) (hg : sc ≠ .global) :
    ∀ (ops : List ScopeOp) {cur last H s s' obs}, CopyInv k sc cur last H s →
    AllocOrdered cur last ops → LoadsWith k sc ops → s.run ops = .ok (s', obs) →
    ∃ cur' last', CopyInv k sc cur' last' (H ++ obs) s' := by
  intro ops
  induction ops with
  | nil =>
    intro cur last H s s' obs h _ _ hr
    simp only [DataScope.run] at hr
    cases hr
    exact ⟨cur, last, by simpa using h⟩
  | cons op ops ih =>
    intro cur last H s s' obs h ho hl hr
    have hl' : LoadsWith k sc ops := fun key hm => hl key (List.mem_cons_of_mem _ hm)
    cases op with
    | reset n =>
      simp only [DataScope.run] at hr
      exact ih (copyInv_reset h ho.1) ho.2 hl' hr
    | load key kk =>
      simp only [DataScope.run] at hr
      exact ih (copyInv_load h (fun he => by rw [effScope_eq]; exact hl kk (by subst he; simp))) ho hl' hr
    | copy key rl =>
      simp only [DataScope.run] at hr
      split at hr
      · cases hr
      rename_i s1 out hc
      split at hr
      · cases hr
      rename_i s2 obs' hr'
      cases hr
      have h1 : CopyInv k sc cur rl (H ++ [⟨key, rl, out⟩]) s1 := by
        by_cases he : key = k
        · subst he; exact copyInv_copy h hp hk' hg ho.1 ho.2.1 hc
        · exact copyInv_other h he ho.1 ho.2.1 hc
      obtain ⟨c, l, h2⟩ := ih h1 ho.2.2 hl' hr'
      exact ⟨c, l, by simpa using h2⟩

/-- **C01.** Start from a fresh data scope. For every history of resets (one per stage, with
increasing stage numbers), key loads and copies in allocation order, and every data key `k` of any
scope but global: any two copies of `k` (the earlier first) return the same generator if and only
if the two positions lie in the same instance of the key's scope, and every copy returns a
generator. -/
theorem C01_same_generator_iff_same_scope_instance
    (k : String) (sc : Scope) (hp : k ≠ "@PREV") (hk : k ≠ noopColumn) (hg : sc ≠ .global)
    (stage1 : Nat) (h1 : 0 < stage1) (ops : List ScopeOp)
    (hord : AllocOrdered stage1 RunLevel.zero ops) (hload : LoadsWith k sc ops)
    (s' : DataScope) (obs : List CopyObs) (hrun : DataScope.new.run ops = .ok (s', obs)) :
    (obs.filter (fun o => o.key == k)).Pairwise
      (fun x y => x.out = y.out ↔ SameInstance sc x.rl y.rl) ∧
    ∀ o ∈ obs, o.key = k → o.out.isSome := by
  have h0 : CopyInv k sc stage1 RunLevel.zero [] DataScope.new := by
    refine ⟨?_, by simp [RunLevel.zero], h1, by simp, by simp, ?_, by simp⟩
    · intro key hk; simp [DataScope.new] at hk
    · left; simp [DataScope.new]
  obtain ⟨c, l, h⟩ := copyInv_run hp hk hg ops h0 hord hload hrun
  simp only [List.nil_append] at h
  refine ⟨h.pairs, fun o ho hk => ?_⟩
  obtain ⟨a, ha, _⟩ := h.isSome o ho hk
  simp [ha]


/-- Non-vacuity of C01: two stages, two clients in stage 1, a trx-scoped key used in two statements
of one trx and in another client, and again after a reset. The observed generators are
0 0 1 (stage 1) and 2 (stage 2). -/
def c01Demo : List ScopeOp :=
  [.load "@d" ⟨some .trx, false⟩,
   .copy "@d" ⟨1, 1, 1, 1, 1, 1⟩, .copy "@d" ⟨1, 1, 1, 1, 1, 2⟩, .copy "@d" ⟨1, 1, 1, 2, 1, 1⟩,
   .reset 2, .load "@d" ⟨some .trx, false⟩, .copy "@d" ⟨2, 1, 1, 1, 1, 1⟩]

example : AllocOrdered 1 RunLevel.zero c01Demo ∧ LoadsWith "@d" .trx c01Demo ∧
    (∃ s' obs, DataScope.new.run c01Demo = .ok (s', obs) ∧
      obs.map (·.out) = [some 0, some 0, some 1, some 2]) := by
  refine ⟨by simp [AllocOrdered, c01Demo, AllocLe, RunLevel.zero], ?_, ?_⟩
  · intro key h
    simp [c01Demo] at h
    subst h; rfl
  · exact ⟨_, _, rfl, by decide⟩

/-- Distinct keys are never served by the same generator: every address handed out for key `k`
belongs to a generator whose id names `k`. -/
theorem madeInv_copy {s : DataScope} {key rl s' out}
    (h : (∀ n a, s.copyOf n = some a → a < s.next ∧ ∃ i, s.made a = some i ∧ i.dataKey = n) ∧
      ∀ a, s.next ≤ a → s.made a = none)
    (hk : key ≠ noopColumn) (hn : s.keys key ≠ none)
    (hc : s.copy key rl = .ok (s', out)) :
    (∀ n a, s'.copyOf n = some a → a < s'.next ∧ ∃ i, s'.made a = some i ∧ i.dataKey = n) ∧
      (∀ a, s'.next ≤ a → s'.made a = none) ∧ (∀ a i, s.made a = some i → s'.made a = some i) ∧
      (∀ a, out = some a → ∃ i, s'.made a = some i ∧ i.dataKey = key) := by
  obtain ⟨h1, h2⟩ := h
  unfold DataScope.copy at hc
  split at hc
  · cases hc; exact ⟨h1, h2, fun _ _ h => h, by simp⟩
  · split at hc
    · cases hc
    rename_i kk hkk
    dsimp only at hc
    split at hc
    · cases hc
      have hne : ∀ a i, s.made a = some i → a ≠ s.next := by
        intro a i ha he; subst he; rw [h2 _ (Nat.le_refl _)] at ha; cases ha
      refine ⟨?_, ?_, ?_, ?_⟩
      · intro n a ha
        simp only [GoMap.set] at ha
        split at ha
        · rename_i he; cases ha; subst he
          exact ⟨by simp, _, GoMap.set_same _ _ _, rfl⟩
        · obtain ⟨h3, i, h4, h5⟩ := h1 n a ha
          exact ⟨by simp; omega, i, by simp [GoMap.set, hne a i h4, h4], h5⟩
      · intro a ha
        simp at ha
        simp [GoMap.set, show a ≠ s.next by omega, h2 a (by omega)]
      · intro a i ha
        simp [GoMap.set, hne a i ha, ha]
      · intro a ha
        cases ha
        exact ⟨_, GoMap.set_same _ _ _, rfl⟩
    · cases hc
      exact ⟨h1, h2, fun _ _ h => h, fun a ha => (h1 key a ha).2⟩

theorem madeInv_run : ∀ (ops : List ScopeOp) {s s' : DataScope} {obs},
    (∀ n a, s.copyOf n = some a → a < s.next ∧ ∃ i, s.made a = some i ∧ i.dataKey = n) ∧
      (∀ a, s.next ≤ a → s.made a = none) →
    (∀ rl, ScopeOp.copy noopColumn rl ∉ ops) →
    s.run ops = .ok (s', obs) →
    (∀ a i, s.made a = some i → s'.made a = some i) ∧
    ∀ o ∈ obs, ∀ a, o.out = some a → ∃ i, s'.made a = some i ∧ i.dataKey = o.key := by
  intro ops
  induction ops with
  | nil => intro s s' obs _ _ hr; simp only [DataScope.run] at hr; cases hr; simp
  | cons op ops ih =>
    intro s s' obs h hno hr
    have hno' : ∀ rl, ScopeOp.copy noopColumn rl ∉ ops :=
      fun rl hm => hno rl (List.mem_cons_of_mem _ hm)
    cases op with
    | reset n =>
      simp only [DataScope.run] at hr
      refine ih (s := s.reset) ⟨?_, h.2⟩ hno' hr
      intro n a ha
      apply h.1 n a
      revert ha; simp only [DataScope.reset]; split <;> simp
    | load key kk =>
      simp only [DataScope.run] at hr
      have := ih (s := s.load key kk) (by unfold DataScope.load; split <;> exact h) hno' hr
      refine ⟨?_, this.2⟩
      have h3 : (s.load key kk).made = s.made := by unfold DataScope.load; split <;> rfl
      rw [h3] at this; exact this.1
    | copy key rl =>
      simp only [DataScope.run] at hr
      split at hr
      · cases hr
      rename_i s1 out hc
      split at hr
      · cases hr
      rename_i s2 obs' hr'
      cases hr
      have hkn : key ≠ noopColumn := by
        intro he; subst he; exact hno rl (by simp)
      by_cases hprev : key = "@PREV"
      · subst hprev
        simp [DataScope.copy] at hc
        obtain ⟨rfl, rfl⟩ := hc
        have := ih h hno' hr'
        refine ⟨this.1, ?_⟩
        intro o ho a ha
        rcases List.mem_cons.1 ho with he | he
        · subst he; cases ha
        · exact this.2 o he a ha
      have hkey : s.keys key ≠ none := by
        intro he
        simp [DataScope.copy, hprev, he] at hc
      obtain ⟨g1, g2, g3, g4⟩ := madeInv_copy h hkn hkey hc
      have := ih ⟨g1, g2⟩ hno' hr'
      refine ⟨fun a i ha => this.1 a i (g3 a i ha), ?_⟩
      intro o ho a ha
      rcases List.mem_cons.1 ho with he | he
      · subst he
        obtain ⟨i, hi, hk⟩ := g4 a ha
        exact ⟨i, this.1 a i hi, hk⟩
      · exact this.2 o he a ha

/-- **C01.** Different data keys never share a generator. -/
theorem C01_different_keys_different_generators
    (ops : List ScopeOp) (hno : ∀ rl, ScopeOp.copy noopColumn rl ∉ ops)
    (s' : DataScope) (obs : List CopyObs) (hrun : DataScope.new.run ops = .ok (s', obs))
    (x y : CopyObs) (hx : x ∈ obs) (hy : y ∈ obs) (a : Nat)
    (hxa : x.out = some a) (hya : y.out = some a) : x.key = y.key := by
  have h := madeInv_run ops (s := DataScope.new) (by simp [DataScope.new]) hno hrun
  obtain ⟨i, hi, h1⟩ := h.2 x hx a hxa
  obtain ⟨j, hj, h2⟩ := h.2 y hy a hya
  rw [hi] at hj; cases hj
  rw [← h1, ← h2]

example : ∃ s' obs, DataScope.new.run
    [.load "@a" ⟨none, false⟩, .load "@b" ⟨some .client, false⟩,
     .copy "@a" ⟨1, 1, 1, 1, 1, 1⟩, .copy "@b" ⟨1, 1, 1, 1, 1, 1⟩] = .ok (s', obs) ∧
    obs.map (·.out) = [some 0, some 1] := ⟨_, _, rfl, by decide⟩

/-! ### C02 -/

/-- **C02 (negation for global scope).** The claim "every data key has a value source" is false of
the code: a key with global scope never gets a generator, in any history, because the comparison
of run levels at global level compares 1 with 1. `workload.go:231` then silently drops the input. -/
theorem C02_global_scope_never_gets_a_generator
    (k : String) (hp : k ≠ "@PREV") (hk : k ≠ noopColumn) (ops : List ScopeOp)
    (hload : LoadsWith k .global ops)
    (s' : DataScope) (obs : List CopyObs) (hrun : DataScope.new.run ops = .ok (s', obs)) :
    ∀ o ∈ obs, o.key = k → o.out = none := by
  have gen : ∀ (ops : List ScopeOp) (s s' : DataScope) (obs), LoadsWith k .global ops →
      (∀ key, s.keys k = some key → key.effScope = .global) → s.copyOf k = none →
      s.run ops = .ok (s', obs) → ∀ o ∈ obs, o.key = k → o.out = none := by
    intro ops
    induction ops with
    | nil => intro s s' obs _ _ _ hr; simp only [DataScope.run] at hr; cases hr; simp
    | cons op ops ih =>
      intro s s' obs hl hks hc hr
      have hl' : LoadsWith k .global ops := fun key hm => hl key (List.mem_cons_of_mem _ hm)
      cases op with
      | reset n =>
        simp only [DataScope.run] at hr
        refine ih s.reset s' obs hl' ?_ ?_ hr
        · intro key hk; apply hks key; revert hk; simp only [DataScope.reset]; split <;> simp
        · simp only [DataScope.reset]; split <;> simp [hc]
      | load key kk =>
        simp only [DataScope.run] at hr
        refine ih (s.load key kk) s' obs hl' ?_ ?_ hr
        · unfold DataScope.load
          split
          · exact hks
          · intro key' hk'
            simp only [GoMap.set] at hk'
            split at hk'
            · rename_i he; cases hk'; rw [effScope_eq]; exact hl kk (by subst he; simp)
            · exact hks key' hk'
        · unfold DataScope.load; split <;> exact hc
      | copy key rl =>
        simp only [DataScope.run] at hr
        split at hr
        · cases hr
        rename_i s1 out hcp
        split at hr
        · cases hr
        rename_i s2 obs' hr'
        simp only [Res.ok.injEq, Prod.mk.injEq] at hr
        obtain ⟨rfl, rfl⟩ := hr
        have hstep : (∀ key', s1.keys k = some key' → key'.effScope = .global) ∧
            s1.copyOf k = none ∧ (key = k → out = none) := by
          unfold DataScope.copy at hcp
          split at hcp
          · cases hcp; exact ⟨hks, hc, fun _ => rfl⟩
          · split at hcp
            · cases hcp
            rename_i kk hkk
            split at hcp
            · rename_i hnoop
              split at hcp <;> cases hcp <;>
                exact ⟨hks, hc, fun he => absurd (he.symm.trans hnoop) hk⟩
            · dsimp only at hcp
              by_cases he : key = k
              · subst he
                have hg := hks kk hkk
                rw [hg] at hcp
                simp [RunLevel.greaterThan, runLevelNumber, RunLevel.array, anyGreater] at hcp
                obtain ⟨rfl, rfl⟩ := hcp
                refine ⟨?_, hc, fun _ => hc⟩
                intro key' hk'
                simp at hk'; subst hk'; simp [Key.effScope]
              · split at hcp <;> cases hcp <;>
                  exact ⟨by simpa [GoMap.set, Ne.symm he] using hks,
                    by simpa [GoMap.set, Ne.symm he] using hc, fun h => absurd h he⟩
        intro o ho hok
        rcases List.mem_cons.1 ho with he | he
        · subst he; exact hstep.2.2 hok
        · exact ih s1 s2 obs' hl' hstep.1 hstep.2.1 hr' o he hok
  exact gen ops DataScope.new s' obs hload (by simp [DataScope.new]) rfl hrun

/-- **C02 (partial).** For every scope except global, `Scope.Copy` of a loaded key at any position
of a stage with number at least 1 returns a generator. Missing for the full claim: global scope,
for which `C02_global_scope_never_gets_a_generator` shows the opposite. -/
theorem C02_every_key_has_a_generator_partial
    (k : String) (sc : Scope) (hp : k ≠ "@PREV") (hk : k ≠ noopColumn) (hg : sc ≠ .global)
    (stage1 : Nat) (h1 : 0 < stage1) (ops : List ScopeOp)
    (hord : AllocOrdered stage1 RunLevel.zero ops) (hload : LoadsWith k sc ops)
    (s' : DataScope) (obs : List CopyObs) (hrun : DataScope.new.run ops = .ok (s', obs)) :
    ∀ o ∈ obs, o.key = k → o.out.isSome :=
  (C01_same_generator_iff_same_scope_instance k sc hp hk hg stage1 h1 ops hord hload s' obs
    hrun).2

/-- `@PREV` never has a generator of its own, and copying it changes nothing. -/
theorem C02_prev_has_no_generator (s : DataScope) (rl : RunLevel) :
    s.copy "@PREV" rl = .ok (s, none) := by simp [DataScope.copy]

/-- A witness of the global-scope problem as a concrete run. -/
example : ∃ s' obs, DataScope.new.run
    [.load "@g" ⟨some .global, false⟩, .copy "@g" ⟨1, 1, 1, 1, 1, 1⟩] = .ok (s', obs) ∧
    obs.map (·.out) = [none] := ⟨_, _, rfl, by decide⟩

/-! ### C08 -/

/-- **C08.** Reset keeps exactly the keys of stage and global scope with their copies, removes all
others with their copies and copy positions, and keeps copy counters. -/
theorem C08_reset_keeps_exactly_stage_and_global (s : DataScope) (n : String) (k : Key)
    (hk : s.keys n = some k) :
    if k.scope = some .stage ∨ k.scope = some .global then
      s.reset.keys n = some k ∧ s.reset.copyOf n = s.copyOf n ∧
        s.reset.copiedAt n = s.copiedAt n
    else
      s.reset.keys n = none ∧ s.reset.copyOf n = none ∧ s.reset.copiedAt n = none := by
  by_cases h : k.scope = some .stage ∨ k.scope = some .global
  · rw [if_pos h]; simp [DataScope.reset, resetKeeps, hk, h]
  · rw [if_neg h]
    simp only [not_or] at h
    simp [DataScope.reset, resetKeeps, hk, h]

/-- **C08.** Names that are no loaded keys, the copy counters, the no-op generator and the
generators themselves are unaffected by a reset. -/
theorem C08_reset_touches_nothing_else (s : DataScope) :
    (∀ n, s.keys n = none → s.reset.keys n = none ∧ s.reset.copyOf n = s.copyOf n ∧
      s.reset.copiedAt n = s.copiedAt n) ∧
    s.reset.copyCount = s.copyCount ∧ s.reset.noop = s.noop ∧ s.reset.made = s.made ∧
    s.reset.next = s.next := by
  refine ⟨?_, rfl, rfl, rfl, rfl⟩
  intro n hn
  simp [DataScope.reset, resetKeeps, hn]

/-- **C08.** Reset is idempotent. -/
theorem C08_reset_idempotent (s : DataScope) : s.reset.reset = s.reset := by
  unfold DataScope.reset
  simp only [DataScope.mk.injEq, and_true]
  refine ⟨?_, ?_, ?_⟩ <;> funext n <;> by_cases h : resetKeeps (s.keys n) = true <;> simp [h]

/-- Non-vacuity: a stage-scoped key survives, a trx-scoped one does not. -/
example : ∃ s' obs, DataScope.new.run
    [.load "@s" ⟨some .stage, false⟩, .load "@t" ⟨some .trx, false⟩, .reset 2] = .ok (s', obs) ∧
    s'.keys "@s" = some ⟨some .stage, false⟩ ∧ s'.keys "@t" = none :=
  ⟨_, _, rfl, by decide, by decide⟩

end Finch
