import Verif.Props.Groups
import Mathlib.Data.List.Induction
/-!
C40: the names of execution groups that have none in the config, and which of them belong together.
-/
namespace Finch

/-- Spec: does a client group of the config run DDL; without trx it runs all of them. -/
def CGCfg.runsDDL (ddl : GoMap String Bool) (order : List String) (c : CGCfg) : Bool :=
  (if c.trx = [] then order else c.trx).any fun t => ddl t == some true

/-- Spec: for each client group without a name, whether it runs DDL. -/
def unnamedKinds (ddl : GoMap String Bool) (order : List String) (w : List CGCfg) : List Bool :=
  (w.filter fun c => c.group == "").map (CGCfg.runsDDL ddl order)

/-- Spec: the number of blocks without DDL, for a list of kinds; `start`: is a block about to begin. -/
def dmlBlocks (start : Bool) : List Bool → Nat
  | [] => 0
  | true :: ks => dmlBlocks true ks
  | false :: ks => (if start then 1 else 0) + dmlBlocks false ks

/-- Does a new block begin after these. -/
def blockStarts (start : Bool) (ks : List Bool) : Bool := (ks.getLast?).getD start

theorem dmlBlocks_snoc (b : Bool) : ∀ (ks : List Bool) (start : Bool),
    dmlBlocks start (ks ++ [b]) =
      dmlBlocks start ks + if b = false ∧ blockStarts start ks = true then 1 else 0
  | [], start => by cases b <;> cases start <;> rfl
  | true :: ks, start => by
    have : blockStarts start (true :: ks) = blockStarts true ks := by
      simp [blockStarts, List.getLast?_cons]
    rw [this]
    exact dmlBlocks_snoc b ks true
  | false :: ks, start => by
    have : blockStarts start (false :: ks) = blockStarts false ks := by
      simp [blockStarts, List.getLast?_cons]
    rw [this]
    simp only [List.cons_append, dmlBlocks]
    rw [dmlBlocks_snoc b ks false]
    omega

/-- The state of the naming loop after client groups of these kinds. -/
structure NameSt.After (st : NameSt) (ks : List Bool) : Prop where
  ddlNo : st.ddlNo = ks.count true
  autoNo : st.autoNo = dmlBlocks true ks
  prevHas : st.prevHasDDL = blockStarts true ks
  prev : st.prevHasDDL = false → st.prev = autoName "dml" st.autoNo

theorem getD_beq (o : Option Bool) : o.getD false = (o == some true) := by
  cases o with
  | none => rfl
  | some b => cases b <;> rfl

theorem cgDefaults_hasDDL (ddl : GoMap String Bool) (order : List String) (c : CGCfg) :
    hasDDL ddl (cgDefaults ddl order c).trx = c.runsDDL ddl order := by
  have : (cgDefaults ddl order c).trx = if c.trx = [] then order else c.trx := by
    unfold cgDefaults; dsimp only; split <;> split <;> rfl
  rw [this]
  simp only [hasDDL, CGCfg.runsDDL]
  congr 1
  funext t
  exact getD_beq _

/-- Spec: the name of the last of the unnamed client groups of these kinds. -/
def lastName (ks : List Bool) : String :=
  if ks.getLast? = some true then autoName "ddl" (ks.count true) else autoName "dml" (dmlBlocks true ks)

theorem nameStep_named {ddl : GoMap String Bool} {order : List String} {st : NameSt} {c : CGCfg}
    (h : c.group ≠ "") : (nameStep ddl st (cgDefaults ddl order c)).1 = st := by
  unfold nameStep
  rw [if_pos (by rw [cgDefaults_group]; exact h)]

theorem nameStep_unnamed {ddl : GoMap String Bool} {order : List String} {st : NameSt} {c : CGCfg}
    {ks : List Bool} (hst : st.After ks) (h : c.group = "") :
    (nameStep ddl st (cgDefaults ddl order c)).1.After (ks ++ [c.runsDDL ddl order]) ∧
    (nameStep ddl st (cgDefaults ddl order c)).2.group = lastName (ks ++ [c.runsDDL ddl order]) := by
  obtain ⟨h1, h2, h3, h4⟩ := hst
  have hbs : ∀ b, blockStarts true (ks ++ [b]) = b := by intro b; simp [blockStarts]
  unfold nameStep
  rw [if_neg (by rw [cgDefaults_group]; simp [h]), cgDefaults_hasDDL]
  cases hd : c.runsDDL ddl order with
  | true =>
    simp only [if_true]
    refine ⟨⟨?_, ?_, ?_, ?_⟩, ?_⟩
    · simp [h1]
    · simp [dmlBlocks_snoc, h2]
    · rw [hbs]
    · intro h; cases h
    · simp [lastName, h1]
  | false =>
    simp only [Bool.false_eq_true, if_false]
    cases hp : st.prevHasDDL with
    | true =>
      have hs : dmlBlocks true (ks ++ [false]) = st.autoNo + 1 := by
        rw [dmlBlocks_snoc, ← h3, hp, h2]; simp
      simp only [if_true]
      refine ⟨⟨?_, ?_, ?_, ?_⟩, ?_⟩
      · simp [h1]
      · exact hs.symm
      · rw [hbs]
      · intro _; rfl
      · simp [lastName, hs]
    | false =>
      have hs : dmlBlocks true (ks ++ [false]) = st.autoNo := by
        rw [dmlBlocks_snoc, ← h3, hp, h2]; simp
      simp only [Bool.false_eq_true, if_false]
      refine ⟨⟨?_, ?_, ?_, h4⟩, ?_⟩
      · simp [h1]
      · exact hs.symm
      · rw [hbs, hp]
      · simp [lastName, hs, h4 hp]

theorem unnamedKinds_cons_named {ddl : GoMap String Bool} {order : List String} {c : CGCfg}
    (w : List CGCfg) (h : c.group ≠ "") :
    unnamedKinds ddl order (c :: w) = unnamedKinds ddl order w := by
  simp [unnamedKinds, h]

theorem unnamedKinds_cons {ddl : GoMap String Bool} {order : List String} {c : CGCfg}
    (w : List CGCfg) (h : c.group = "") :
    unnamedKinds ddl order (c :: w) = c.runsDDL ddl order :: unnamedKinds ddl order w := by
  simp [unnamedKinds, h]

theorem nameLoop_name {ddl : GoMap String Bool} {order : List String} (w : List CGCfg) :
    ∀ {st : NameSt} {ks : List Bool}, st.After ks → ∀ (i : Nat) (x c : CGCfg), w[i]? = some x →
    x.group = "" → (nameLoop ddl order st w)[i]? = some c →
    c.group = lastName (ks ++ unnamedKinds ddl order (w.take (i + 1))) := by
  induction w with
  | nil => intro st ks _ i x c h; simp at h
  | cons y ys ih =>
    intro st ks hst i x c hx hg hc
    by_cases hy : y.group = ""
    · obtain ⟨a1, a2⟩ := nameStep_unnamed (ddl := ddl) (order := order) hst hy
      cases i with
      | zero =>
        simp only [List.getElem?_cons_zero, Option.some.injEq, nameLoop] at hx hc
        subst hx hc
        rw [a2]
        simp [unnamedKinds_cons, hy]
        simp [unnamedKinds]
      | succ i =>
        simp only [List.getElem?_cons_succ, nameLoop] at hx hc
        have := ih a1 i x c hx hg hc
        rw [this, List.take_succ_cons, unnamedKinds_cons _ hy]
        simp
    · cases i with
      | zero =>
        simp only [List.getElem?_cons_zero, Option.some.injEq] at hx
        subst hx
        exact absurd hg hy
      | succ i =>
        simp only [List.getElem?_cons_succ, nameLoop] at hx hc
        rw [nameStep_named hy] at hc
        rw [List.take_succ_cons, unnamedKinds_cons_named _ hy]
        exact ih hst i x c hx hg hc

/-- **C40.** Client groups without a name are numbered: those with DDL one by one, those without by
blocks that end at the next unnamed client group with DDL. -/
theorem C40_names (ddl : GoMap String Bool) (order : List String) (w w' : List CGCfg)
    (gs : List (List Nat)) (h : allocGroups ddl order w = .ok (w', gs)) (i : Nat) (x c : CGCfg)
    (hx : w[i]? = some x) (hg : x.group = "") (hc : w'[i]? = some c) :
    c.group = lastName (unnamedKinds ddl order (w.take (i + 1))) := by
  obtain ⟨w0, gs', h1, -, h3, -⟩ := allocGroups_spec ddl order w
  rw [h] at h3
  simp only [Out.ok.injEq, Prod.mk.injEq] at h3
  obtain ⟨rfl, -⟩ := h3
  have hw : w ≠ [] := by rintro rfl; simp at hx
  rw [h1 hw] at hc
  exact nameLoop_name w (st := ⟨0, 0, true, ""⟩) (ks := []) ⟨rfl, rfl, rfl, fun h => by cases h⟩ i x c hx hg hc

theorem dmlName_inj {n m : Nat} (h : autoName "dml" n = autoName "dml" m) : n = m := by
  have := congrArg String.toList h
  rw [autoName_toList, autoName_toList] at this
  exact decimal_inj (List.append_cancel_left this)

theorem unnamedKinds_append (ddl : GoMap String Bool) (order : List String) (a b : List CGCfg) :
    unnamedKinds ddl order (a ++ b) = unnamedKinds ddl order a ++ unnamedKinds ddl order b := by
  simp [unnamedKinds]

theorem take_kinds {ddl : GoMap String Bool} {order : List String} {w : List CGCfg} {i : Nat} {x : CGCfg}
    (hx : w[i]? = some x) (hg : x.group = "") :
    unnamedKinds ddl order (w.take (i + 1)) =
      unnamedKinds ddl order (w.take i) ++ [x.runsDDL ddl order] := by
  rw [List.take_add_one, hx, unnamedKinds_append]
  simp [unnamedKinds, hg]

theorem dmlBlocks_append (a : List Bool) : ∀ (start : Bool) (b : List Bool),
    dmlBlocks start (a ++ b) = dmlBlocks start a + dmlBlocks (blockStarts start a) b := by
  induction a with
  | nil => intro start b; simp [dmlBlocks, blockStarts]
  | cons k ks ih =>
    intro start b
    have hb : blockStarts start (k :: ks) = blockStarts k ks := by
      simp [blockStarts, List.getLast?_cons]
    rw [hb]
    cases k with
    | true => simp only [List.cons_append, dmlBlocks]; exact ih true b
    | false => simp only [List.cons_append, dmlBlocks]; rw [ih false b]; omega

theorem blockStarts_append (a b : List Bool) (start : Bool) :
    blockStarts start (a ++ b) = blockStarts (blockStarts start a) b := by
  unfold blockStarts
  rw [List.getLast?_append]
  cases b.getLast? <;> rfl

theorem no_ddl_of_no_block : ∀ (ks : List Bool) (start : Bool), dmlBlocks start ks = 0 →
    blockStarts start ks = false → true ∉ ks := by
  intro ks
  induction ks using List.reverseRecOn with
  | nil => intro _ _ _; simp
  | append_singleton ks k ih =>
    intro start h1 h2
    have hk : k = false := by simpa [blockStarts] using h2
    subst hk
    rw [dmlBlocks_snoc] at h1
    cases hs : blockStarts start ks with
    | true => rw [hs] at h1; simp at h1
    | false =>
      have := ih start (by omega) hs
      simpa using this

/-- **C40.** Neighbours without a name and without DDL run together. -/
theorem C40_dml_together (ddl : GoMap String Bool) (order : List String) (w w' : List CGCfg)
    (gs : List (List Nat)) (h : allocGroups ddl order w = .ok (w', gs)) (i : Nat) (x y : CGCfg)
    (hx : w[i]? = some x) (hy : w[i + 1]? = some y) (hxg : x.group = "") (hyg : y.group = "")
    (hxd : x.runsDDL ddl order = false) (hyd : y.runsDDL ddl order = false) :
    ∃ g ∈ gs, i ∈ g ∧ i + 1 ∈ g := by
  obtain ⟨w1, gs1, h1, hl, -, -, hs⟩ := C39_groups_partition ddl order w
  rw [h] at h1
  simp only [Out.ok.injEq, Prod.mk.injEq] at h1
  obtain ⟨rfl, rfl⟩ := h1
  have hw : w ≠ [] := by rintro rfl; simp at hx
  have h0 := (List.getElem?_eq_some_iff.mp hy).1
  have hl := hl hw
  have ha := List.getElem?_eq_getElem (l := w') (i := i) (by omega)
  have hb := List.getElem?_eq_getElem (l := w') (i := i + 1) (by omega)
  refine (hs i _ _ ha hb).mpr ?_
  rw [C40_names ddl order w w' gs h i x _ hx hxg ha, C40_names ddl order w w' gs h (i + 1) y _ hy hyg hb]
  rw [take_kinds (i := i + 1) hy hyg, take_kinds hx hxg, hxd, hyd]
  simp only [lastName, List.getLast?_append, List.getLast?_singleton, Option.some_or,
    Option.some.injEq, Bool.false_eq_true, if_false]
  rw [dmlBlocks_snoc false (_ ++ [false])]
  simp [blockStarts]

/-- **C40.** Client groups without a name that come before and after an unnamed client group with DDL
have different names. -/
theorem C40_ddl_between (ddl : GoMap String Bool) (order : List String) (w w' : List CGCfg)
    (gs : List (List Nat)) (h : allocGroups ddl order w = .ok (w', gs)) (i j k : Nat)
    (hij : i < j) (hjk : j < k) (x y z a b : CGCfg)
    (hx : w[i]? = some x) (hy : w[j]? = some y) (hz : w[k]? = some z)
    (hxg : x.group = "") (hyg : y.group = "") (hzg : z.group = "") (hyd : y.runsDDL ddl order = true)
    (ha : w'[i]? = some a) (hb : w'[k]? = some b) : a.group ≠ b.group := by
  have hmono : ∀ {p : Nat}, p + 1 ≤ k → ∃ r, unnamedKinds ddl order (w.take k) =
      unnamedKinds ddl order (w.take (p + 1)) ++ r := by
    intro p hp
    obtain ⟨t, ht⟩ : w.take (p + 1) <+: w.take k := List.take_prefix_take_left hp
    exact ⟨unnamedKinds ddl order t, by rw [← ht, unnamedKinds_append]⟩
  have hij' : ∃ r, unnamedKinds ddl order (w.take j) =
      unnamedKinds ddl order (w.take (i + 1)) ++ r := by
    obtain ⟨t, ht⟩ : w.take (i + 1) <+: w.take j := List.take_prefix_take_left hij
    exact ⟨unnamedKinds ddl order t, by rw [← ht, unnamedKinds_append]⟩
  obtain ⟨r1, e1⟩ := hij'
  obtain ⟨r2, e2⟩ := hmono hjk
  rw [take_kinds hy hyg, hyd] at e2
  rw [C40_names ddl order w w' gs h i x _ hx hxg ha, C40_names ddl order w w' gs h k z _ hz hzg hb,
    take_kinds hz hzg, e2, e1]
  generalize unnamedKinds ddl order (w.take (i + 1)) = u at *
  intro he
  unfold lastName at he
  simp only [List.getLast?_append, List.getLast?_singleton, Option.some_or, Option.some.injEq] at he
  cases hd : z.runsDDL ddl order with
  | true =>
    rw [hd] at he
    simp only [if_true] at he
    split at he
    · have := ddlName_inj he
      simp at this
    · exact ddl_ne_dml _ _ he.symm
  | false =>
    rw [hd] at he
    simp only [Bool.false_eq_true, if_false] at he
    split at he
    · exact ddl_ne_dml _ _ he
    · have := dmlName_inj he
      rw [dmlBlocks_snoc, List.append_assoc, List.append_assoc, dmlBlocks_append,
        blockStarts_append] at this
      cases hb : blockStarts (blockStarts true u) (r1 ++ ([true] ++ r2)) with
      | true => rw [hb] at this; simp at this; omega
      | false =>
        have h0 : dmlBlocks (blockStarts true u) (r1 ++ ([true] ++ r2)) = 0 := by omega
        exact no_ddl_of_no_block _ _ h0 hb (by simp)

/-- The hypotheses of the theorems can be met. -/
example : ∃ w' gs, allocGroups (fun n => if n = "d" then some true else none) ["a", "d"]
    [{ trx := ["a"] }, { trx := ["a"], clients := "4" }, { trx := ["d"] }, { group := "x" },
      { trx := ["a"] }] = .ok (w', gs) ∧ w'.map (·.group) = ["dml1", "dml1", "ddl1", "x", "dml2"] ∧
    gs = [[0, 1], [2], [3], [4]] :=
  ⟨_, _, rfl, by decide, by decide⟩

/-- The hypotheses of C40 can be met, and an automatic assignment as an example. -/
example : allocGroups (fun n => if n = "d" then some true else none) ["a", "b", "d", "d", "c"] [] =
    .ok ([{ clients := "1", trx := ["a", "b"], group := "dml1" },
      { clients := "1", iter := "1", trx := ["d"], group := "ddl1" },
      { clients := "1", iter := "1", trx := ["d"], group := "ddl2" },
      { clients := "1", trx := ["c"], group := "dml2" }], [[0], [1], [2], [3]]) := by decide

example : allocGroups (fun n => if n = "d" then some true else none) ["a", "d"]
    [{ trx := ["a"] }, { trx := ["a"], clients := "4" }, { trx := ["d"] }, {}, { group := "x" }] =
    .ok ([{ trx := ["a"], group := "dml1" }, { trx := ["a"], clients := "4", group := "dml1" },
      { trx := ["d"], iter := "1", group := "ddl1" },
      { trx := ["a", "d"], iter := "1", group := "ddl2" },
      { trx := ["a", "d"], iter := "1", group := "x" }], [[0, 1], [2], [3], [4]]) := by decide

end Finch
