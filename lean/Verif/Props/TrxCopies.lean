import Verif.Props.TrxFrame
/-!
C33: the `copies` modifier.

The main work is to show that a copy is not influenced by the copies before it: parsing a statement in a
state that earlier copies already changed (`Ahead`) gives the same statement.
-/
namespace Finch

/-! ### Names with and without `@` -/

/-- A data key name: starts with `@`. -/
def AtName (n : String) : Prop := ∃ t, n = String.ofList ('@' :: t)

theorem trim_head {p : Char → Bool} (s : Text) : ∀ c ∈ (trim p s).head?, p c = false := by
  unfold trim trimRight
  generalize hm : s.dropWhile p = m
  intro c hc
  have hpre : (m.reverse.dropWhile p).reverse <+: m := by
    have := List.dropWhile_suffix p (l := m.reverse)
    rw [← List.reverse_suffix]; simpa using this
  obtain ⟨t, ht⟩ := hpre
  have hhead : ∀ c ∈ m.head?, p c = false := by
    rw [← hm]
    clear hm ht hc
    induction s with
    | nil => simp
    | cons x xs ih =>
      simp only [List.dropWhile_cons]
      split
      · exact ih
      · simp_all
  apply hhead
  rw [← ht]
  cases hr : (m.reverse.dropWhile p).reverse with
  | nil => rw [hr] at hc; simp at hc
  | cons x xs => rw [hr] at hc; simpa using hc

theorem cfgKey_not_at (s : Text) : ¬ AtName (cfgKey s) := by
  rintro ⟨t, ht⟩
  have h1 : trim (fun c => c == '@' || c == '(' || c == ')') s = '@' :: t := ofList_inj ht
  have := trim_head (p := fun c => c == '@' || c == '(' || c == ')') s '@' (by rw [h1]; simp)
  simp at this

/-! ### The relation -/

/-- The same configuration, but an unset scope may have become row scope. -/
def CfgRel : Option DataCfg → Option DataCfg → Prop
  | some c, some c' => c'.generator = c.generator ∧ c'.params = c.params ∧
      (c'.scope = c.scope ∨ (c.scope = "" ∧ c'.scope = "row"))
  | none, none => True
  | _, _ => False

/-- The keys of a state and of one that is ahead: the same generator, or one that the state behind
would make. -/
def KeyRel (env : TrxEnv) (data : GoMap String DataCfg) (t : Text) :
    Option TKey → Option TKey → Prop
  | some k, some k' => k'.gen = k.gen ∧ k'.column = k.column
  | none, none => True
  | none, some k' => k'.column = -1 ∧ t ≠ "@PREV".toList ∧
      ∃ c, data (cfgKey t) = some c ∧ env.make c.generator (String.ofList t) c.params = some k'.gen
  | some _, none => False

/-- `f'` is `f` after some copies of the statement were parsed. -/
structure Ahead (env : TrxEnv) (f f' : FileSt) : Prop where
  str : f'.str = f.str
  copyNo : f'.copyNo = f.copyNo
  data : ∀ n, ¬ AtName n → CfgRel (f.data n) (f'.data n)
  mono : ∀ n, f'.keys n = none → f.keys n = none
  keys : ∀ t : Text, t.head? = some '@' →
    KeyRel env f.data t (f.keys (String.ofList t)) (f'.keys (String.ofList t))

theorem CfgRel.refl (c : Option DataCfg) : CfgRel c c := by
  cases c <;> simp [CfgRel]

theorem KeyRel.refl (env : TrxEnv) (d : GoMap String DataCfg) (t : Text) (k : Option TKey) :
    KeyRel env d t k k := by
  cases k <;> simp [KeyRel]

theorem Ahead.refl (env : TrxEnv) (f : FileSt) : Ahead env f f :=
  ⟨rfl, rfl, fun _ _ => .refl _, fun _ h => h, fun _ _ => .refl _ _ _ _⟩

theorem CfgRel.trans {a b c : Option DataCfg} (h1 : CfgRel a b) (h2 : CfgRel b c) : CfgRel a c := by
  cases a <;> cases b <;> cases c <;> simp only [CfgRel] at h1 h2 ⊢
  obtain ⟨g1, p1, s1⟩ := h1
  obtain ⟨g2, p2, s2⟩ := h2
  refine ⟨g2.trans g1, p2.trans p1, ?_⟩
  rcases s1 with s1 | ⟨s1, s1'⟩
  · rcases s2 with s2 | ⟨s2, s2'⟩
    · exact Or.inl (s2.trans s1)
    · exact Or.inr ⟨s1 ▸ s2, s2'⟩
  · rcases s2 with s2 | ⟨s2, s2'⟩
    · exact Or.inr ⟨s1, s2.trans s1'⟩
    · exact Or.inr ⟨s1, s2'⟩

theorem CfgRel.isSome {a b : Option DataCfg} (h : CfgRel a b) {c' : DataCfg} (hb : b = some c') :
    ∃ c, a = some c ∧ c'.generator = c.generator ∧ c'.params = c.params ∧
      (c'.scope = c.scope ∨ (c.scope = "" ∧ c'.scope = "row")) := by
  subst hb
  cases a with
  | none => exact h.elim
  | some c => exact ⟨c, rfl, h⟩

/-- A change of the configuration of the state behind that keeps generators and parameters. -/
theorem KeyRel.data {env : TrxEnv} {d d' : GoMap String DataCfg} {t : Text} {a b : Option TKey}
    (hd : CfgRel (d (cfgKey t)) (d' (cfgKey t))) (h : KeyRel env d t a b) : KeyRel env d' t a b := by
  cases a with
  | some _ => cases b <;> exact h
  | none =>
    cases b with
    | none => exact h
    | some k' =>
      obtain ⟨h1, h2, c, h3, h4⟩ := h
      rw [h3] at hd
      cases hc : d' (cfgKey t) with
      | none => rw [hc] at hd; exact hd.elim
      | some c' =>
        rw [hc] at hd
        obtain ⟨g, p, -⟩ := hd
        exact ⟨h1, h2, c', hc, by rw [g, p]; exact h4⟩

theorem KeyRel.data' {env : TrxEnv} {d d' : GoMap String DataCfg} {t : Text} {a b : Option TKey}
    (hd : CfgRel (d' (cfgKey t)) (d (cfgKey t))) (h : KeyRel env d t a b) : KeyRel env d' t a b := by
  cases a with
  | some _ => cases b <;> exact h
  | none =>
    cases b with
    | none => exact h
    | some k' =>
      obtain ⟨h1, h2, c, h3, h4⟩ := h
      rw [h3] at hd
      obtain ⟨c', hc, g, p, -⟩ := hd.isSome rfl
      exact ⟨h1, h2, c', hc, by rw [← g, ← p]; exact h4⟩

/-! ### Simulation: what succeeds in the state ahead succeeds in the state behind, equally -/

theorem ahead_column {env : TrxEnv} {f f' f1' : FileSt} {n : Nat} {col : Text} {k : String}
    (ha : Ahead env f f') (h : f'.column env n col = .ok (f1', k)) :
    ∃ f1, f.column env n col = .ok (f1, k) ∧ Ahead env f1 f1' := by
  unfold FileSt.column at h ⊢
  dsimp only at h ⊢
  generalize trimSpace (trimSuffix [','] col) = c at h ⊢
  have hnoop : ∀ t : Text, t.head? = some '@' → String.ofList t ≠ noopCol := by
    intro t ht he
    have : t = ['_'] := ofList_inj (by rw [he]; rfl)
    rw [this] at ht; simp at ht
  by_cases hc : String.ofList c = noopCol
  · rw [if_pos hc] at h ⊢
    -- "_" is not a data key name; whether it is there does not matter
    have key : ∀ (a b : GoMap String TKey),
        (a = f.keys ∨ ∃ v, a = f.keys.set noopCol v) → a noopCol ≠ none →
        (b = f'.keys ∨ ∃ v, b = f'.keys.set noopCol v) → b noopCol ≠ none →
        Ahead env { f with keys := a } { f' with keys := b } := by
      intro a b haa ha0 hbb hb0
      refine ⟨ha.str, ha.copyNo, ha.data, ?_, ?_⟩
      · intro m hm
        by_cases hmn : m = noopCol
        · subst hmn; exact absurd hm hb0
        · have e1 : a m = f.keys m := by
            rcases haa with rfl | ⟨v, rfl⟩
            · rfl
            · exact GoMap.set_other _ _ hmn
          have e2 : b m = f'.keys m := by
            rcases hbb with rfl | ⟨v, rfl⟩
            · rfl
            · exact GoMap.set_other _ _ hmn
          show a m = none
          rw [e1]
          exact ha.mono m (by rw [← e2]; exact hm)
      · intro t ht
        have hmn := hnoop t ht
        have e1 : a (String.ofList t) = f.keys (String.ofList t) := by
          rcases haa with rfl | ⟨v, rfl⟩
          · rfl
          · exact GoMap.set_other _ _ hmn
        have e2 : b (String.ofList t) = f'.keys (String.ofList t) := by
          rcases hbb with rfl | ⟨v, rfl⟩
          · rfl
          · exact GoMap.set_other _ _ hmn
        show KeyRel env f.data t (a _) (b _)
        rw [e1, e2]
        exact ha.keys t ht
    cases h' : f'.keys noopCol with
    | some v' =>
      rw [h'] at h
      cases h
      cases hf : f.keys noopCol with
      | some v => exact ⟨f, rfl, ha⟩
      | none =>
        exact ⟨_, rfl, key _ f'.keys (Or.inr ⟨_, rfl⟩) (by rw [GoMap.set_same]; simp)
          (Or.inl rfl) (by rw [h']; simp)⟩
    | none =>
      rw [h'] at h
      cases h
      rw [ha.mono _ h']
      exact ⟨_, rfl, key _ _ (Or.inr ⟨_, rfl⟩) (by rw [GoMap.set_same]; simp)
          (Or.inr ⟨_, rfl⟩) (by rw [GoMap.set_same]; simp)⟩
  · rw [if_neg hc] at h ⊢
    cases h' : f'.keys (String.ofList c) with
    | some v' => rw [h'] at h; cases h
    | none =>
      rw [h'] at h
      rw [ha.mono _ h']
      dsimp only at h ⊢
      have hp : ((f'.data (cfgKey c)).getD ⟨"column", "trx", []⟩).params =
          ((f.data (cfgKey c)).getD ⟨"column", "trx", []⟩).params := by
        have hr := ha.data _ (cfgKey_not_at c)
        cases e : f'.data (cfgKey c) with
        | some c' =>
          obtain ⟨c0, h0, -, hp, -⟩ := hr.isSome e
          rw [h0]; exact hp
        | none =>
          rw [e] at hr
          cases e0 : f.data (cfgKey c) with
          | none => rfl
          | some c0 => rw [e0] at hr; exact hr.elim
      rw [hp] at h
      cases hm : env.make "column" (String.ofList c)
          ((f.data (cfgKey c)).getD ⟨"column", "trx", []⟩).params with
      | none => rw [hm] at h; cases h
      | some g =>
        rw [hm] at h
        cases h
        refine ⟨_, rfl, ha.str, ha.copyNo, ha.data, ?_, ?_⟩
        · intro m hm
          by_cases hmc : m = String.ofList c
          · subst hmc
            have : GoMap.set f'.keys (String.ofList c) _ (String.ofList c) = none := hm
            rw [GoMap.set_same] at this; cases this
          · have : GoMap.set f'.keys (String.ofList c) _ m = none := hm
            rw [GoMap.set_other _ _ hmc] at this
            show GoMap.set f.keys (String.ofList c) _ m = none
            rw [GoMap.set_other _ _ hmc]
            exact ha.mono m this
        · intro t ht
          show KeyRel env f.data t (GoMap.set f.keys _ _ _) (GoMap.set f'.keys _ _ _)
          by_cases htc : String.ofList t = String.ofList c
          · rw [htc, GoMap.set_same, GoMap.set_same]
            exact ⟨rfl, rfl⟩
          · rw [GoMap.set_other _ _ htc, GoMap.set_other _ _ htc]
            exact ha.keys t ht

theorem ahead_columns {env : TrxEnv} {cols : List Text} : ∀ {f f' f1' : FileSt} {n : Nat}
    {ks : List String}, Ahead env f f' → f'.columns env n cols = .ok (f1', ks) →
    ∃ f1, f.columns env n cols = .ok (f1, ks) ∧ Ahead env f1 f1' := by
  induction cols with
  | nil => intro f f' f1' n ks ha h; cases h; exact ⟨f, rfl, ha⟩
  | cons c cs ih =>
    intro f f' f1' n ks ha h
    obtain ⟨⟨f2', k⟩, h1, h⟩ := Out.bind_ok h
    obtain ⟨⟨f3', ks'⟩, h2, h⟩ := Out.bind_ok h
    cases Out.pure_ok h
    obtain ⟨f2, e2, ha2⟩ := ahead_column ha h1
    obtain ⟨f3, e3, ha3⟩ := ih ha2 h2
    refine ⟨f3, ?_, ha3⟩
    simp only [FileSt.columns, bind, Out.bind, e2, e3, pure]

theorem ahead_modStep {env : TrxEnv} {f f' f1' : FileSt} {s s1 : Stmt} {mod : Text} {c : Option Nat}
    (ha : Ahead env f f') (h : modStep env f' s mod = .ok (f1', s1, c)) :
    ∃ f1, modStep env f s mod = .ok (f1, s1, c) ∧ Ahead env f1 f1' := by
  unfold modStep at h ⊢
  split at h
  · cases h
  · dsimp only at h ⊢
    split at h
    · rename_i hn; rw [if_pos hn]; cases h; exact ⟨f, rfl, ha⟩
    rename_i hn; rw [if_neg hn]
    split at h
    · rename_i hn; rw [if_pos hn]
      obtain ⟨_, e1, h⟩ := Out.bind_ok h
      obtain ⟨_, e2, h⟩ := Out.bind_ok h
      cases Out.pure_ok h
      exact ⟨f, by simp only [bind, Out.bind, e1, e2, pure], ha⟩
    rename_i hn; rw [if_neg hn]
    split at h
    · rename_i hn; rw [if_pos hn]
      obtain ⟨_, e1, h⟩ := Out.bind_ok h
      obtain ⟨_, e2, h⟩ := Out.bind_ok h
      obtain ⟨_, e3, h⟩ := Out.bind_ok h
      obtain ⟨_, e4, h⟩ := Out.bind_ok h
      cases Out.pure_ok h
      exact ⟨f, by simp only [bind, Out.bind, e1, e2, e3, e4, pure], ha⟩
    rename_i hn; rw [if_neg hn]
    split at h
    · rename_i hn; rw [if_pos hn]
      split at h
      · rename_i hm
        obtain ⟨_, e1, h⟩ := Out.bind_ok h
        obtain ⟨_, e2, h⟩ := Out.bind_ok h
        cases Out.pure_ok h
        exact ⟨f, by simp only [bind, Out.bind, e1, e2, pure], ha⟩
      · cases h
    rename_i hn; rw [if_neg hn]
    split at h
    · rename_i hn; rw [if_pos hn]
      split at h
      · cases h
      · rename_i hrs; rw [if_neg hrs]
        obtain ⟨_, e1, h⟩ := Out.bind_ok h
        obtain ⟨⟨f2, k⟩, h2, h⟩ := Out.bind_ok h
        cases Out.pure_ok h
        obtain ⟨f3, e3, ha3⟩ := ahead_column ha h2
        exact ⟨f3, by simp only [bind, Out.bind, e1, e3, pure], ha3⟩
    rename_i hn; rw [if_neg hn]
    split at h
    · rename_i hn; rw [if_pos hn]
      obtain ⟨⟨f2, k⟩, h2, h⟩ := Out.bind_ok h
      cases Out.pure_ok h
      obtain ⟨f3, e3, ha3⟩ := ahead_columns ha h2
      exact ⟨f3, by simp only [bind, Out.bind, e3, pure], ha3⟩
    rename_i hn; rw [if_neg hn]
    split at h
    · rename_i hn; rw [if_pos hn]
      obtain ⟨_, e1, h⟩ := Out.bind_ok h
      obtain ⟨_, e2, h⟩ := Out.bind_ok h
      split at h
      · cases h
      rename_i hneg
      split at h
      · rename_i h1
        cases Out.pure_ok h
        exact ⟨f, by simp only [bind, Out.bind, e1, e2, pure, if_neg hneg, if_pos h1], ha⟩
      · rename_i h1
        cases Out.pure_ok h
        exact ⟨f, by simp only [bind, Out.bind, e1, e2, pure, if_neg hneg, if_neg h1], ha⟩
    · cases h

theorem ahead_modLoop {env : TrxEnv} {mods : List Text} : ∀ {f f' f1' : FileSt} {s s1 : Stmt}
    {c : Option Nat}, Ahead env f f' → modLoop env f' s mods = .ok (f1', s1, c) →
    ∃ f1, modLoop env f s mods = .ok (f1, s1, c) ∧ Ahead env f1 f1' := by
  induction mods with
  | nil => intro f f' f1' s s1 c ha h; cases h; exact ⟨f, rfl, ha⟩
  | cons m ms ih =>
    intro f f' f1' s s1 c ha h
    obtain ⟨⟨f2', s2, c2⟩, h1, h⟩ := Out.bind_ok h
    obtain ⟨f2, e2, ha2⟩ := ahead_modStep ha h1
    dsimp only at h
    cases c2 with
    | some n =>
      cases Out.pure_ok h
      exact ⟨f2, by simp only [modLoop, bind, Out.bind, e2, pure], ha2⟩
    | none =>
      obtain ⟨f3, e3, ha3⟩ := ih ha2 h
      exact ⟨f3, by simp only [modLoop, bind, Out.bind, e2, e3], ha3⟩

/-- Configurations of a state and of one that is ahead. -/
def DataRel (d d' : GoMap String DataCfg) : Prop := ∀ n, ¬ AtName n → CfgRel (d n) (d' n)

theorem ahead_csvKeys {ks : List Text} : ∀ {d d' d1' : GoMap String DataCfg} {keys keys1 : List Text},
    DataRel d d' → csvKeys d' keys ks = .ok (d1', keys1) →
    DataRel d d1' ∧ ∃ d1, csvKeys d keys ks = .ok (d1, keys1) ∧ DataRel d1 d1' ∧ DataRel d d1 := by
  induction ks with
  | nil =>
    intro d d' d1' keys keys1 hr h
    cases h
    exact ⟨hr, d, rfl, hr, fun _ _ => .refl _⟩
  | cons k ks ih =>
    intro d d' d1' keys keys1 hr h
    simp only [csvKeys] at h ⊢
    cases hd' : d' (cfgKey k) with
    | none => rw [hd'] at h; cases h
    | some c' =>
      rw [hd'] at h
      obtain ⟨c, hd, hg, hp, hs⟩ := (hr _ (cfgKey_not_at k)).isSome hd'
      rw [hd]
      dsimp only at h ⊢
      -- the effective scope is the same
      have hsc : (if c'.scope = "" then { c' with scope := "row" } else c').scope =
          (if c.scope = "" then { c with scope := "row" } else c).scope := by
        rcases hs with hs | ⟨h1, h2⟩
        · rw [hs]; split
          · rfl
          · exact hs
        · rw [if_pos h1, h2]; rw [if_neg (by decide)]; exact h2
      rw [hsc] at h
      -- the changed configurations are related
      have step : ∀ (a : GoMap String DataCfg) (x : DataCfg), a (cfgKey k) = some x →
          DataRel a (if x.scope = "" then a.set (cfgKey k) (if x.scope = "" then { x with scope := "row" } else x)
            else a) := by
        intro a x hx n hn
        split
        · rename_i hx0
          by_cases hnk : n = cfgKey k
          · subst hnk
            rw [GoMap.set_same, hx]
            exact ⟨rfl, rfl, Or.inr ⟨hx0, rfl⟩⟩
          · rw [GoMap.set_other _ _ hnk]; exact .refl _
        · exact .refl _
      have hdd := step d c hd
      have hdd' := step d' c' hd'
      have hrel : DataRel
          (if c.scope = "" then d.set (cfgKey k) (if c.scope = "" then { c with scope := "row" } else c) else d)
          (if c'.scope = "" then d'.set (cfgKey k) (if c'.scope = "" then { c' with scope := "row" } else c')
            else d') := by
        intro n hn
        by_cases hnk : n = cfgKey k
        · subst hnk
          have e1 : (if c.scope = "" then d.set (cfgKey k) (if c.scope = "" then { c with scope := "row" } else c)
              else d) (cfgKey k) = some (if c.scope = "" then { c with scope := "row" } else c) := by
            split
            · exact GoMap.set_same _ _ _
            · exact hd
          have e2 : (if c'.scope = "" then d'.set (cfgKey k) (if c'.scope = "" then { c' with scope := "row" } else c')
              else d') (cfgKey k) = some (if c'.scope = "" then { c' with scope := "row" } else c') := by
            split
            · exact GoMap.set_same _ _ _
            · exact hd'
          rw [e1, e2]
          refine ⟨?_, ?_, Or.inl hsc⟩
          · split <;> split <;> exact hg
          · split <;> split <;> exact hp
        · have e1 : (if c.scope = "" then d.set (cfgKey k) (if c.scope = "" then { c with scope := "row" } else c)
              else d) n = d n := by
            split
            · exact GoMap.set_other _ _ hnk
            · rfl
          have e2 : (if c'.scope = "" then d'.set (cfgKey k) (if c'.scope = "" then { c' with scope := "row" } else c')
              else d') n = d' n := by
            split
            · exact GoMap.set_other _ _ hnk
            · rfl
          rw [e1, e2]; exact hr n hn
      obtain ⟨-, d1, e1, r1, r2⟩ := ih hrel h
      obtain ⟨r3, -⟩ := ih (d := d) (fun n hn => (hr n hn).trans (hdd' n hn)) h
      exact ⟨r3, d1, e1, r1, fun n hn => (hdd n hn).trans (r2 n hn)⟩

theorem ahead_expandCsv {env : TrxEnv} {d d' d1' : GoMap String DataCfg} {q q1 : Text}
    (hr : DataRel d d') (h : expandCsv env d' q = .ok (d1', q1)) :
    DataRel d d1' ∧ ∃ d1, expandCsv env d q = .ok (d1, q1) ∧ DataRel d1 d1' ∧ DataRel d d1 := by
  unfold expandCsv at h ⊢
  split at h
  · cases h; exact ⟨hr, d, rfl, hr, fun _ _ => .refl _⟩
  · obtain ⟨n, e1, h⟩ := Out.bind_ok h
    obtain ⟨⟨d2', ks⟩, e2, h⟩ := Out.bind_ok h
    cases Out.pure_ok h
    obtain ⟨r0, d1, e3, r1, r2⟩ := ahead_csvKeys hr e2
    exact ⟨r0, d1, by simp only [bind, Out.bind, e1, e3, pure], r1, r2⟩

theorem atName_iff {t : Text} (h : t.head? = some '@') : AtName (String.ofList t) := by
  cases t with
  | nil => cases h
  | cons c cs => simp at h; subst h; exact ⟨cs, rfl⟩

theorem set_at {d : GoMap String DataCfg} {t : Text} {x : DataCfg} (ht : t.head? = some '@')
    {n : String} (hn : ¬ AtName n) : d.set (String.ofList t) x n = d n :=
  GoMap.set_other _ _ (by rintro rfl; exact hn (atName_iff ht))

/-- Adding the same key to both states, or to the state behind what the state ahead has. -/
theorem Ahead.addKeys {env : TrxEnv} {f f' g g' : FileSt} {t : Text}
    (ha : Ahead env f f')
    (h1 : g.str = f.str ∧ g.copyNo = f.copyNo)
    (h2 : g'.str = f'.str ∧ g'.copyNo = f'.copyNo)
    (hd : ∀ n, ¬ AtName n → g.data n = f.data n) (hd' : ∀ n, ¬ AtName n → g'.data n = f'.data n)
    (hk : ∀ n, n ≠ String.ofList t → g.keys n = f.keys n)
    (hk' : ∀ n, n ≠ String.ofList t → g'.keys n = f'.keys n)
    (hmono : g'.keys (String.ofList t) = none → g.keys (String.ofList t) = none)
    (hrel : KeyRel env f.data t (g.keys (String.ofList t)) (g'.keys (String.ofList t))) :
    Ahead env g g' := by
  refine ⟨?_, ?_, ?_, ?_, ?_⟩
  · rw [h2.1, ha.str, h1.1]
  · rw [h2.2, ha.copyNo, h1.2]
  · intro n hn; rw [hd n hn, hd' n hn]; exact ha.data n hn
  · intro n hn
    by_cases h : n = String.ofList t
    · subst h; exact hmono hn
    · rw [hk n h]; rw [hk' n h] at hn; exact ha.mono n hn
  · intro u hu
    have hdata : ∀ {a b}, KeyRel env f.data u a b → KeyRel env g.data u a b :=
      fun h => h.data (by rw [hd _ (cfgKey_not_at u)]; exact .refl _)
    by_cases h : String.ofList u = String.ofList t
    · rw [ofList_inj h] at hdata ⊢
      exact hdata hrel
    · rw [hk _ h, hk' _ h]; exact hdata (ha.keys u hu)

/-- What the generator of a data key is, in the state ahead and in the state behind. -/
theorem ahead_genOf {env : TrxEnv} {f f' f1' : FileSt} {before : List Text} {name : Text} {g : GenInfo}
    (ha : Ahead env f f') (hn : name.head? = some '@') (hb : ∀ p ∈ before, p.head? = some '@')
    (hbk : ∀ p ∈ before, p ≠ "@PREV".toList → f.keys (String.ofList p) ≠ none)
    (h : genOf env f' before name = .ok (f1', g)) :
    ∃ f1, genOf env f before name = .ok (f1, g) ∧ Ahead env f1 f1' := by
  have hrel := ha.keys name hn
  unfold genOf at h ⊢
  dsimp only at h ⊢
  cases hcol : savedCol f'.keys (String.ofList name) with
  | some k' =>
    rw [hcol] at h
    cases h
    obtain ⟨hk', hc'⟩ := savedCol_some hcol
    rw [hk'] at hrel
    cases hk : f.keys (String.ofList name) with
    | none =>
      rw [hk] at hrel
      obtain ⟨h1, -⟩ := hrel
      rw [h1] at hc'; exact absurd hc' (by decide)
    | some k =>
      rw [hk] at hrel
      obtain ⟨h1, h2⟩ := hrel
      have : savedCol f.keys (String.ofList name) = some k := by
        unfold savedCol; rw [hk]; simp only; rw [if_pos (by rw [← h2]; exact hc')]
      rw [this]
      refine ⟨_, by rw [h1], ?_⟩
      exact ⟨ha.str, ha.copyNo, ha.data, ha.mono, ha.keys⟩
  | none =>
    rw [hcol] at h
    have hcol0 : savedCol f.keys (String.ofList name) = none := by
      unfold savedCol at hcol ⊢
      cases hk : f.keys (String.ofList name) with
      | none => rfl
      | some k =>
        rw [hk] at hrel
        cases hk' : f'.keys (String.ofList name) with
        | none => rw [hk'] at hrel; exact hrel.elim
        | some k' =>
          rw [hk'] at hrel hcol
          dsimp only at hcol ⊢
          split at hcol
          · cases hcol
          · rename_i hc; rw [hrel.2] at hc; rw [if_neg hc]
    rw [hcol0]
    dsimp only at h ⊢
    by_cases hp : name = "@PREV".toList
    · rw [if_pos hp] at h ⊢
      split at h
      · cases h
      · rename_i hb0
        rw [if_neg hb0]
        split at h
        · cases h
        · rename_i p hf
          have hpm : p ∈ before := by
            have := List.mem_of_find?_eq_some hf
            simpa using this
          have hpn : p ≠ "@PREV".toList := by
            have := List.find?_some hf
            simpa using this
          have hr := ha.keys p (hb p hpm)
          split at h
          · rename_i k' hk'
            cases h
            rw [hk'] at hr
            cases hk : f.keys (String.ofList p) with
            | none => exact absurd hk (hbk p hpm hpn)
            | some k =>
              rw [hk] at hr
              exact ⟨f, by rw [hr.1], ha⟩
          · cases h
    · rw [if_neg hp] at h ⊢
      cases hk' : f'.keys (String.ofList name) with
      | some k' =>
        rw [hk'] at h hrel
        cases h
        cases hk : f.keys (String.ofList name) with
        | some k =>
          rw [hk] at hrel
          exact ⟨f, by rw [hrel.1], ha⟩
        | none =>
          rw [hk] at hrel
          obtain ⟨h1, h2, c, h3, h4⟩ := hrel
          dsimp only
          rw [h3]
          dsimp only
          rw [h4]
          refine ⟨_, rfl, ?_⟩
          refine ha.addKeys (t := name) ⟨rfl, rfl⟩ ⟨rfl, rfl⟩ ?_ (fun _ _ => rfl)
            (fun n hne => GoMap.set_other _ _ hne) (fun _ _ => rfl) ?_ ?_
          · intro n hat
            show (if c.scope = "" then _ else _ : GoMap String DataCfg) n = _
            split
            · exact set_at hn hat
            · rfl
          · intro h0; rw [hk'] at h0; cases h0
          · rw [hk']
            show KeyRel env f.data name (GoMap.set _ _ _ _) _
            rw [GoMap.set_same]
            exact ⟨rfl, h1⟩
      | none =>
        rw [hk'] at h
        rw [ha.mono _ hk']
        dsimp only at h ⊢
        cases hd' : f'.data (cfgKey name) with
        | none => rw [hd'] at h; cases h
        | some c' =>
          rw [hd'] at h
          obtain ⟨c, hd, hg, hpar, -⟩ := (ha.data _ (cfgKey_not_at name)).isSome hd'
          rw [hd]
          dsimp only at h ⊢
          rw [hg, hpar] at h
          cases hm : env.make c.generator (String.ofList name) c.params with
          | none => rw [hm] at h; cases h
          | some g' =>
            rw [hm] at h
            cases h
            refine ⟨_, rfl, ?_⟩
            refine ha.addKeys (t := name) ⟨rfl, rfl⟩ ⟨rfl, rfl⟩ ?_ ?_
              (fun n hne => GoMap.set_other _ _ hne) (fun n hne => GoMap.set_other _ _ hne) ?_ ?_
            · intro n hat
              show (if c.scope = "" then _ else _ : GoMap String DataCfg) n = _
              split
              · exact set_at hn hat
              · rfl
            · intro n hat
              show (if c'.scope = "" then _ else _ : GoMap String DataCfg) n = _
              split
              · exact set_at hn hat
              · rfl
            · intro h0
              have : GoMap.set f'.keys (String.ofList name) _ (String.ofList name) = none := h0
              rw [GoMap.set_same] at this; cases this
            · show KeyRel env f.data name (GoMap.set _ _ _ _) (GoMap.set _ _ _ _)
              rw [GoMap.set_same, GoMap.set_same]
              exact ⟨rfl, rfl⟩

/-- The state ahead may go on alone. -/
theorem further_genOf {env : TrxEnv} {f f' f1' : FileSt} {before : List Text} {name : Text} {g : GenInfo}
    (ha : Ahead env f f') (hn : name.head? = some '@')
    (h : genOf env f' before name = .ok (f1', g)) : Ahead env f f1' := by
  unfold genOf at h
  dsimp only at h
  split at h
  · cases h; exact ⟨ha.str, ha.copyNo, ha.data, ha.mono, ha.keys⟩
  split at h
  · split at h
    · cases h
    · split at h
      · cases h
      · split at h
        · cases h; exact ha
        · cases h
  · rename_i hp
    split at h
    · cases h; exact ha
    · rename_i hk'
      split at h
      · cases h
      · rename_i c' hd'
        obtain ⟨c, hd, hg, hpar, -⟩ := (ha.data _ (cfgKey_not_at name)).isSome hd'
        split at h
        · cases h
        · rename_i g' hm
          cases h
          refine ha.addKeys (t := name) ⟨rfl, rfl⟩ ⟨rfl, rfl⟩ (fun _ _ => rfl) ?_
            (fun _ _ => rfl) (fun n hne => GoMap.set_other _ _ hne) ?_ ?_
          · intro n hat
            show (if c'.scope = "" then _ else _ : GoMap String DataCfg) n = _
            split
            · exact set_at hn hat
            · rfl
          · intro h0
            have : GoMap.set f'.keys (String.ofList name) _ (String.ofList name) = none := h0
            rw [GoMap.set_same] at this; cases this
          · show KeyRel env f.data name _ (GoMap.set _ _ _ _)
            rw [GoMap.set_same, ha.mono _ hk']
            exact ⟨rfl, hp, c, hd, by rw [← hg, ← hpar]; exact hm⟩

theorem ahead_keyLoop {env : TrxEnv} {p : Bool} {names : List Text} :
    ∀ {f f' f1' : FileSt} {before : List Text} {fmts fmts1 : List (Text × Text)},
    Ahead env f f' → (∀ n ∈ names, n.head? = some '@') → (∀ p ∈ before, p.head? = some '@') →
    (∀ p ∈ before, p ≠ "@PREV".toList → f.keys (String.ofList p) ≠ none) →
    keyLoop env p f' before fmts names = .ok (f1', fmts1) →
    ∃ f1, keyLoop env p f before fmts names = .ok (f1, fmts1) ∧ Ahead env f1 f1' := by
  induction names with
  | nil => intro f f' f1' before fmts fmts1 ha _ _ _ h; cases h; exact ⟨f, rfl, ha⟩
  | cons n ns ih =>
    intro f f' f1' before fmts fmts1 ha hn hb hbk h
    obtain ⟨⟨f2', g⟩, h1, h⟩ := Out.bind_ok h
    obtain ⟨f2, e2, ha2⟩ := ahead_genOf ha (hn n (by simp)) hb hbk h1
    obtain ⟨f3, e3, ha3⟩ := ih ha2 (fun m hm => hn m (by simp [hm])) (by
        intro q hq
        simp only [List.mem_append, List.mem_singleton] at hq
        rcases hq with hq | rfl
        · exact hb q hq
        · exact hn q (by simp)) (by
        intro q hq hqp
        simp only [List.mem_append, List.mem_singleton] at hq
        rcases hq with hq | rfl
        · have := hbk q hq hqp
          cases hv : f.keys (String.ofList q) with
          | none => exact absurd hv this
          | some v => rw [(genOf_frame e2).grow _ _ hv]; simp
        · obtain ⟨k, hk⟩ := (genOf_ok e2).2.2 hqp
          rw [hk]; simp) h
    exact ⟨f3, by simp only [keyLoop, bind, Out.bind, e2, e3], ha3⟩

theorem further_keyLoop {env : TrxEnv} {p : Bool} {names : List Text} :
    ∀ {f f' f1' : FileSt} {before : List Text} {fmts fmts1 : List (Text × Text)},
    Ahead env f f' → (∀ n ∈ names, n.head? = some '@') →
    keyLoop env p f' before fmts names = .ok (f1', fmts1) → Ahead env f f1' := by
  induction names with
  | nil => intro f f' f1' before fmts fmts1 ha _ h; cases h; exact ha
  | cons n ns ih =>
    intro f f' f1' before fmts fmts1 ha hn h
    obtain ⟨⟨f2', g⟩, h1, h⟩ := Out.bind_ok h
    exact ih (further_genOf ha (hn n (by simp)) h1) (fun m hm => hn m (by simp [hm])) h

theorem tokKeys_at (ts : List Tok) : ∀ n ∈ (tokKeys ts).map (·.1), n.head? = some '@' := by
  induction ts with
  | nil => simp [tokKeys]
  | cons t ts ih =>
    cases t with
    | lit c => simpa [tokKeys] using ih
    | key m b =>
      intro n hn
      simp only [tokKeys, List.map_cons, List.mem_cons] at hn
      rcases hn with rfl | hn
      · rfl
      · exact ih n hn

theorem Ahead.withData {env : TrxEnv} {f f' : FileSt} {d d' : GoMap String DataCfg}
    (ha : Ahead env f f') (h1 : DataRel f.data d) (h2 : DataRel d d') :
    Ahead env { f with data := d } { f' with data := d' } :=
  ⟨ha.str, ha.copyNo, h2, ha.mono, fun t ht => (ha.keys t ht).data (h1 _ (cfgKey_not_at t))⟩

theorem ahead_finish {env : TrxEnv} {f f' f1' : FileSt} {s s1 : Stmt} {q : Text}
    (ha : Ahead env f f') (h : finish env f' s q = .ok (f1', s1)) :
    Ahead env f f1' ∧ ∃ f1, finish env f s q = .ok (f1, s1) ∧ Ahead env f1 f1' := by
  unfold finish at h ⊢
  obtain ⟨⟨d1', q2⟩, e1, h⟩ := Out.bind_ok h
  rw [ha.copyNo] at e1
  obtain ⟨r0, d1, e2, r1, r2⟩ := ahead_expandCsv ha.data e1
  have ha0 : Ahead env f { f' with data := d1' } :=
    ⟨ha.str, ha.copyNo, r0, ha.mono, ha.keys⟩
  have ha1 := ha.withData r2 r1
  simp only [bind, Out.bind, e2]
  dsimp only at h
  split at h
  · rename_i hk
    cases Out.pure_ok h
    rw [if_pos hk]
    exact ⟨ha0, _, rfl, ha1⟩
  · rename_i hk
    obtain ⟨⟨f3', fm⟩, e3, h⟩ := Out.bind_ok h
    cases Out.pure_ok h
    rw [if_neg hk]
    refine ⟨further_keyLoop ha0 (tokKeys_at _) e3, ?_⟩
    obtain ⟨f3, e4, ha3⟩ := ahead_keyLoop ha1 (tokKeys_at _) (by simp) (by simp) e3
    simp only [e4]
    exact ⟨f3, rfl, ha3⟩

/-! ### Saved columns and copies -/

/-- Only the no-op column may have been added, the configuration is the same. -/
def NoopOnly (f f1 : FileSt) : Prop := f1.data = f.data ∧ ∀ n, n ≠ noopCol → f1.keys n = f.keys n

theorem NoopOnly.trans {a b c : FileSt} (h1 : NoopOnly a b) (h2 : NoopOnly b c) : NoopOnly a c :=
  ⟨h2.1.trans h1.1, fun n hn => (h2.2 n hn).trans (h1.2 n hn)⟩

/-- A column that can be saved a second time is the no-op column. -/
theorem column_twice {env : TrxEnv} {f f1 f2 f3 : FileSt} {n m : Nat} {col : Text} {k k2 : String}
    (h1 : f.column env n col = .ok (f1, k)) (h12 : ∀ n, f1.keys n ≠ none → f2.keys n ≠ none)
    (h2 : f2.column env m col = .ok (f3, k2)) : NoopOnly f f1 := by
  unfold FileSt.column at h1 h2
  dsimp only at h1 h2
  generalize trimSpace (trimSuffix [','] col) = c at h1 h2
  by_cases hc : String.ofList c = noopCol
  · rw [if_pos hc] at h1
    split at h1
    · cases h1; exact ⟨rfl, fun _ _ => rfl⟩
    · cases h1; exact ⟨rfl, fun _ hn => GoMap.set_other _ _ hn⟩
  · rw [if_neg hc] at h1 h2
    split at h1
    · cases h1
    · split at h1
      · cases h1
      · cases h1
        split at h2
        · cases h2
        · rename_i h0
          refine absurd h0 (h12 _ ?_)
          show GoMap.set _ _ _ _ ≠ none
          rw [GoMap.set_same]; simp

theorem columns_twice {env : TrxEnv} {cols : List Text} : ∀ {f f1 f2 f3 : FileSt} {n m : Nat}
    {ks ks2 : List String}, f.columns env n cols = .ok (f1, ks) →
    (∀ n, f1.keys n ≠ none → f2.keys n ≠ none) → f2.columns env m cols = .ok (f3, ks2) →
    NoopOnly f f1 := by
  induction cols with
  | nil => intro f f1 f2 f3 n m ks ks2 h1 _ _; cases h1; exact ⟨rfl, fun _ _ => rfl⟩
  | cons c cs ih =>
    intro f f1 f2 f3 n m ks ks2 h1 h12 h2
    obtain ⟨⟨fa, k⟩, a1, h1⟩ := Out.bind_ok h1
    obtain ⟨⟨fb, ks'⟩, a2, h1⟩ := Out.bind_ok h1
    cases Out.pure_ok h1
    obtain ⟨⟨fc, k'⟩, b1, h2⟩ := Out.bind_ok h2
    obtain ⟨⟨fd, ks''⟩, b2, h2⟩ := Out.bind_ok h2
    have grow : ∀ {x y : FileSt}, Frame x y → ∀ n, x.keys n ≠ none → y.keys n ≠ none := by
      intro x y hxy n hn
      cases hv : x.keys n with
      | none => exact absurd hv hn
      | some v => rw [hxy.grow _ _ hv]; simp
    refine (column_twice a1 ?_ b1).trans (ih a2 ?_ b2)
    · intro n hn; exact h12 n (grow (columns_frame a2) n hn)
    · intro n hn; exact grow (column_frame b1) n (h12 n hn)

/-- The effect of a `copies` modifier on the loop over the modifiers. -/
def cOf (mod : Text) : Option Nat :=
  match fields mod with
  | m0 :: n :: _ =>
    if trim (· == ':') m0 = "copies".toList then
      match parseInt64 n with
      | some v => if v = 1 then none else some v.toNat
      | none => none
    else none
  | _ => none

theorem modStep_cOf {env : TrxEnv} {f f1 : FileSt} {s s1 : Stmt} {mod : Text} {c : Option Nat}
    (h : modStep env f s mod = .ok (f1, s1, c)) : c = cOf mod := by
  unfold modStep at h
  unfold cOf
  split at h
  · cases h
  · rename_i m0 ms hf
    rw [hf]
    have key : ∀ {x : Option Nat}, trim (· == ':') m0 ≠ "copies".toList → c = none →
        c = (match (m0 :: ms) with
          | m0 :: n :: _ =>
            if trim (· == ':') m0 = "copies".toList then
              match parseInt64 n with
              | some v => if v = 1 then none else some v.toNat
              | none => none
            else none
          | _ => none) := by
      intro _ hne hc
      rw [hc]
      cases ms with
      | nil => rfl
      | cons y ys => dsimp only; rw [if_neg hne]
    dsimp only at h
    split at h
    · rename_i hn; cases h
      exact key (x := none) (by rcases hn with hn | hn <;> rw [hn] <;> decide) rfl
    split at h
    · rename_i hn
      obtain ⟨_, -, h⟩ := Out.bind_ok h
      obtain ⟨_, -, h⟩ := Out.bind_ok h
      cases Out.pure_ok h
      exact key (x := none) (by rw [hn]; decide) rfl
    split at h
    · rename_i hn
      obtain ⟨_, -, h⟩ := Out.bind_ok h
      obtain ⟨_, -, h⟩ := Out.bind_ok h
      obtain ⟨_, -, h⟩ := Out.bind_ok h
      obtain ⟨_, -, h⟩ := Out.bind_ok h
      cases Out.pure_ok h
      exact key (x := none) (by rw [hn]; decide) rfl
    split at h
    · rename_i hn
      split at h
      · obtain ⟨_, -, h⟩ := Out.bind_ok h
        obtain ⟨_, -, h⟩ := Out.bind_ok h
        cases Out.pure_ok h
        exact key (x := none) (by rcases hn with hn | hn <;> rw [hn] <;> decide) rfl
      · cases h
    split at h
    · rename_i hn
      split at h
      · cases h
      · obtain ⟨_, -, h⟩ := Out.bind_ok h
        obtain ⟨⟨f2, k⟩, h2, h⟩ := Out.bind_ok h
        cases Out.pure_ok h
        exact key (x := none) (by rw [hn]; decide) rfl
    split at h
    · rename_i hn
      obtain ⟨⟨f2, k⟩, h2, h⟩ := Out.bind_ok h
      cases Out.pure_ok h
      exact key (x := none) (by rw [hn]; decide) rfl
    split at h
    · rename_i hn
      obtain ⟨num, e1, h8⟩ := Out.bind_ok h
      obtain ⟨v, e2, h9⟩ := Out.bind_ok h8
      cases ms with
      | nil => cases e1
      | cons y ys =>
        cases e1
        dsimp only
        rw [if_pos hn, Out.ofOption_ok e2]
        dsimp only
        split at h9
        · cases h9
        split at h9
        · rename_i h1; cases Out.pure_ok h9; rw [if_pos h1]
        · rename_i h1; cases Out.pure_ok h9; rw [if_neg h1]
    · cases h

theorem modLoop_cOf {env : TrxEnv} {mods : List Text} : ∀ {f f1 : FileSt} {s s1 : Stmt}
    {c : Option Nat}, modLoop env f s mods = .ok (f1, s1, c) → c = mods.findSome? cOf := by
  induction mods with
  | nil => intro f f1 s s1 c h; cases h; rfl
  | cons m ms ih =>
    intro f f1 s s1 c h
    obtain ⟨⟨f2, s2, c2⟩, h1, h⟩ := Out.bind_ok h
    have hc := modStep_cOf h1
    dsimp only at h
    rw [List.findSome?_cons, ← hc]
    cases c2 with
    | some n => cases Out.pure_ok h; rfl
    | none => exact ih h

theorem modStep_twice {env : TrxEnv} {f f1 f2 f3 : FileSt} {s s1 s2 s3 : Stmt} {mod : Text}
    {c c2 : Option Nat} (h1 : modStep env f s mod = .ok (f1, s1, c))
    (h12 : ∀ n, f1.keys n ≠ none → f2.keys n ≠ none)
    (h2 : modStep env f2 s2 mod = .ok (f3, s3, c2)) : NoopOnly f f1 := by
  unfold modStep at h1 h2
  cases hf : fields mod with
  | nil => rw [hf] at h1; cases h1
  | cons m0 ms =>
    rw [hf] at h1 h2
    dsimp only at h1 h2
    split at h1
    · cases h1; exact ⟨rfl, fun _ _ => rfl⟩
    rename_i hn; rw [if_neg hn] at h2
    split at h1
    · obtain ⟨_, -, h⟩ := Out.bind_ok h1
      obtain ⟨_, -, h⟩ := Out.bind_ok h
      cases Out.pure_ok h; exact ⟨rfl, fun _ _ => rfl⟩
    rename_i hn; rw [if_neg hn] at h2
    split at h1
    · obtain ⟨_, -, h⟩ := Out.bind_ok h1
      obtain ⟨_, -, h⟩ := Out.bind_ok h
      obtain ⟨_, -, h⟩ := Out.bind_ok h
      obtain ⟨_, -, h⟩ := Out.bind_ok h
      cases Out.pure_ok h; exact ⟨rfl, fun _ _ => rfl⟩
    rename_i hn; rw [if_neg hn] at h2
    split at h1
    · split at h1
      · obtain ⟨_, -, h⟩ := Out.bind_ok h1
        obtain ⟨_, -, h⟩ := Out.bind_ok h
        cases Out.pure_ok h; exact ⟨rfl, fun _ _ => rfl⟩
      · cases h1
    rename_i hn; rw [if_neg hn] at h2
    split at h1
    · rename_i hn; rw [if_pos hn] at h2
      split at h1
      · cases h1
      · split at h2
        · cases h2
        · obtain ⟨x, e1, h⟩ := Out.bind_ok h1
          obtain ⟨⟨fa, k⟩, e2, h⟩ := Out.bind_ok h
          cases Out.pure_ok h
          obtain ⟨y, e3, h⟩ := Out.bind_ok h2
          obtain ⟨⟨fb, k2⟩, e4, h⟩ := Out.bind_ok h
          rw [e1] at e3
          cases e3
          exact column_twice e2 h12 e4
    rename_i hn; rw [if_neg hn] at h2
    split at h1
    · rename_i hn; rw [if_pos hn] at h2
      obtain ⟨⟨fa, k⟩, e2, h⟩ := Out.bind_ok h1
      cases Out.pure_ok h
      obtain ⟨⟨fb, k2⟩, e4, h⟩ := Out.bind_ok h2
      exact columns_twice e2 h12 e4
    rename_i hn; rw [if_neg hn] at h2
    split at h1
    · obtain ⟨_, -, h⟩ := Out.bind_ok h1
      obtain ⟨_, -, h⟩ := Out.bind_ok h
      split at h
      · cases h
      split at h
      · cases Out.pure_ok h; exact ⟨rfl, fun _ _ => rfl⟩
      · cases Out.pure_ok h; exact ⟨rfl, fun _ _ => rfl⟩
    · cases h1

theorem Frame.someKeys {x y : FileSt} (h : Frame x y) (n : String) (hn : x.keys n ≠ none) :
    y.keys n ≠ none := by
  cases hv : x.keys n with
  | none => exact absurd hv hn
  | some v => rw [h.grow _ _ hv]; simp

theorem modLoop_twice {env : TrxEnv} {mods : List Text} : ∀ {f f1 f2 f3 : FileSt} {s s1 s2 s3 : Stmt}
    {c c2 : Option Nat}, modLoop env f s mods = .ok (f1, s1, c) →
    (∀ n, f1.keys n ≠ none → f2.keys n ≠ none) →
    modLoop env f2 s2 mods = .ok (f3, s3, c2) → NoopOnly f f1 := by
  induction mods with
  | nil => intro f f1 f2 f3 s s1 s2 s3 c c2 h _ _; cases h; exact ⟨rfl, fun _ _ => rfl⟩
  | cons m ms ih =>
    intro f f1 f2 f3 s s1 s2 s3 c c2 h1 h12 h2
    obtain ⟨⟨fa, sa, ca⟩, a1, h1⟩ := Out.bind_ok h1
    obtain ⟨⟨fb, sb, cb⟩, b1, h2⟩ := Out.bind_ok h2
    have hc : ca = cb := by rw [modStep_cOf a1, modStep_cOf b1]
    subst hc
    dsimp only at h1 h2
    cases ca with
    | some n =>
      cases Out.pure_ok h1
      exact modStep_twice a1 h12 b1
    | none =>
      dsimp only at h1 h2
      refine (modStep_twice a1 ?_ b1).trans (ih h1 ?_ h2)
      · intro n hn; exact h12 n ((modLoop_frame h1).someKeys n hn)
      · intro n hn; exact (modStep_frame b1).someKeys n (h12 n hn)

/-- The state in which the modifiers of a statement are handled. -/
def FileSt.prep (env : TrxEnv) (f : FileSt) : FileSt :=
  { f with stmtNo := f.stmtNo + 1, hasDDL := f.hasDDL || (classify env.trx (trimSpace f.str)).ddl }

/-- A `copies` modifier that the recursion does not find never ends. -/
theorem statements_never {env : TrxEnv} {n : Nat} {fuel : Nat} : ∀ {f f' : FileSt} {ss : List Stmt},
    (∀ m ∈ f.mods, keepInCopies m = true) → f.mods.findSome? cOf = some (n + 1) →
    statements env fuel f ≠ .ok (f', ss) := by
  induction fuel with
  | zero => intro f f' ss _ _ h; cases h
  | succ fuel ih =>
    intro f f' ss hk hc h
    unfold statements at h
    obtain ⟨⟨f2, s2, c⟩, h1, h⟩ := Out.bind_ok h
    have hf := modLoop_frame h1
    have hc1 := modLoop_cOf h1
    rw [hc] at hc1
    subst hc1
    dsimp only at h
    obtain ⟨⟨f3, ss'⟩, h2, h⟩ := Out.bind_ok h
    obtain ⟨⟨f4, ms⟩, h4, -⟩ := Out.bind_ok h2
    have hmods : f2.mods.filter keepInCopies = f.mods := by
      rw [hf.mods]
      exact List.filter_eq_self.mpr hk
    refine ih ?_ ?_ h4
    · show ∀ m ∈ f2.mods.filter keepInCopies, _
      rw [hmods]; exact hk
    · show (f2.mods.filter keepInCopies).findSome? cOf = _
      rw [hmods]; exact hc

/-- One statement without copies. -/
theorem statements_one {env : TrxEnv} {fuel : Nat} {f f' : FileSt} {s : Stmt} {ss : List Stmt}
    (hk : ∀ m ∈ f.mods, keepInCopies m = true) (h : statements env fuel f = .ok (f', s :: ss)) :
    ss = [] ∧ ∃ f1 s1, modLoop env (f.prep env) (classify env.trx (trimSpace f.str)) f.mods =
        .ok (f1, s1, none) ∧ finish env f1 s1 (trimSpace f.str) = .ok (f', s) := by
  cases hc : f.mods.findSome? cOf with
  | some n =>
    cases n with
    | succ n => exact absurd h (statements_never hk hc)
    | zero =>
      cases fuel with
      | zero => cases h
      | succ fuel =>
        unfold statements at h
        obtain ⟨⟨f2, s2, c⟩, h1, h⟩ := Out.bind_ok h
        have hc1 := modLoop_cOf h1
        rw [hc] at hc1
        subst hc1
        cases Out.pure_ok h
  | none =>
    cases fuel with
    | zero => cases h
    | succ fuel =>
      unfold statements at h
      obtain ⟨⟨f2, s2, c⟩, h1, h⟩ := Out.bind_ok h
      have hc1 := modLoop_cOf h1
      rw [hc] at hc1
      subst hc1
      obtain ⟨⟨f3, s3⟩, h2, h⟩ := Out.bind_ok h
      cases Out.pure_ok h
      exact ⟨rfl, f2, s2, h1, h2⟩

theorem statements_one' {env : TrxEnv} {fuel : Nat} {f f1 f' : FileSt} {s s1 : Stmt}
    (h1 : modLoop env (f.prep env) (classify env.trx (trimSpace f.str)) f.mods = .ok (f1, s1, none))
    (h2 : finish env f1 s1 (trimSpace f.str) = .ok (f', s)) :
    statements env (fuel + 1) f = .ok (f', [s]) := by
  unfold statements
  unfold FileSt.prep at h1
  simp only [bind, Out.bind, h1, h2, pure]

theorem Ahead.prep {env : TrxEnv} {f f' : FileSt} (ha : Ahead env f f') :
    Ahead env (f.prep env) (f'.prep env) :=
  ⟨ha.str, ha.copyNo, ha.data, ha.mono, ha.keys⟩

theorem Ahead.copy {env : TrxEnv} {f f' : FileSt} (n : Nat) (ha : Ahead env f f') :
    Ahead env { f with copyNo := n } { f' with copyNo := n } :=
  ⟨ha.str, rfl, ha.data, ha.mono, ha.keys⟩

/-- The copies: each is what the statement gives in the state before the first copy. -/
theorem copyLoop_each {env : TrxEnv} {fuel : Nat} {k : Nat} : ∀ {f0 f f' : FileSt} {i : Nat}
    {ss : List Stmt}, f.mods = f0.mods →
    (∀ n, Ahead env { f0 with copyNo := n } { f with copyNo := n }) →
    (∀ m ∈ f.mods, keepInCopies m = true) →
    copyLoop (statements env fuel) f i k = .ok (f', ss) →
    ss.length = k ∧ ∀ j, j < k → ∃ f1 s, ss[j]? = some s ∧
      ∀ fl, statements env (fl + 1) { f0 with copyNo := i + j + 1 } = .ok (f1, [s]) := by
  induction k with
  | zero => intro f0 f f' i ss _ _ _ h; cases h; exact ⟨rfl, fun j hj => absurd hj (Nat.not_lt_zero _)⟩
  | succ k ih =>
    intro f0 f f' i ss hmods0 ha hk h
    obtain ⟨⟨f2, ms⟩, h1, h⟩ := Out.bind_ok h
    dsimp only at h
    cases ms with
    | nil => cases h
    | cons s rest =>
      obtain ⟨⟨f3, ss'⟩, h3, h⟩ := Out.bind_ok h
      cases Out.pure_ok h
      obtain ⟨-, f4, s4, e1, e2⟩ := statements_one (f := { f with copyNo := i + 1 }) hk h1
      have hmods : f4.mods = f.mods := (modLoop_frame e1).mods
      have hstr : f4.str = f.str := (modLoop_frame e1).str
      have hfin := finish_frame e2
      have ha1 := ha (i + 1)
      have hstr0 : f.str = f0.str := ha1.str
      obtain ⟨g4, g1, hg⟩ := ahead_modLoop ha1.prep e1
      obtain ⟨-, g5, g2, -⟩ := ahead_finish hg e2
      have hfirst : ∀ fl, statements env (fl + 1) { f0 with copyNo := i + 0 + 1 } = .ok (g5, [s]) := by
        intro fl
        refine statements_one' (f1 := g4) (s1 := s4) ?_ ?_
        · show modLoop env (FileSt.prep env { f0 with copyNo := i + 1 })
            (classify env.trx (trimSpace f0.str)) f0.mods = _
          have g1' : modLoop env (FileSt.prep env { f0 with copyNo := i + 1 })
            (classify env.trx (trimSpace f.str)) f.mods = .ok (g4, s4, none) := g1
          rw [hstr0, hmods0] at g1'
          exact g1'
        · show finish env g4 s4 (trimSpace f0.str) = _
          rw [← hstr0]; exact g2
      have hmods2 : f2.mods = f.mods := hfin.mods.trans hmods
      -- the state after this copy is ahead of the first one, if there is another copy
      have hrest : ss'.length = k ∧ ∀ j, j < k → ∃ f1 s, ss'[j]? = some s ∧
          ∀ fl, statements env (fl + 1) { f0 with copyNo := (i + 1) + j + 1 } = .ok (f1, [s]) := by
        cases k with
        | zero =>
          cases h3
          exact ⟨rfl, fun j hj => absurd hj (Nat.not_lt_zero _)⟩
        | succ k =>
          refine ih (f0 := f0) (f := f2) (hmods2.trans hmods0) ?_ ?_ h3
          · -- the next copy succeeded, so the modifiers only save the no-op column
            obtain ⟨⟨f6, ms6⟩, h6, h7⟩ := Out.bind_ok h3
            dsimp only at h7
            cases ms6 with
            | nil => cases h7
            | cons s6 rest6 =>
              obtain ⟨-, f8, s8, e8, -⟩ := statements_one (f := { f2 with copyNo := i + 1 + 1 })
                (by show ∀ m ∈ f2.mods, _; rw [hmods2]; exact hk) h6
              have e8' : modLoop env (FileSt.prep env { f2 with copyNo := i + 1 + 1 })
                  (classify env.trx (trimSpace f2.str)) f.mods = .ok (f8, s8, none) := by
                rw [← hmods2]; exact e8
              have hno := modLoop_twice
                (f2 := FileSt.prep env { f2 with copyNo := i + 1 + 1 }) e1
                (fun n hn => hfin.someKeys n hn) e8'
              have hfr := modLoop_frame e1
              -- ahead after the modifiers
              have hamod : Ahead env { f0 with copyNo := i + 1 } f4 := by
                refine ⟨hstr.trans hstr0, hfr.copyNo, ?_, ?_, ?_⟩
                · intro n hn
                  have : f4.data = f.data := hno.1
                  rw [this]; exact ha1.data n hn
                · intro n hn
                  apply ha1.mono n
                  cases hv : f.keys n with
                  | none => rfl
                  | some v =>
                    have := hfr.grow n v hv
                    rw [this] at hn; cases hn
                · intro t ht
                  have hne : String.ofList t ≠ noopCol := by
                    intro he
                    have : t = ['_'] := ofList_inj (by rw [he]; rfl)
                    rw [this] at ht; simp at ht
                  have : f4.keys (String.ofList t) = f.keys (String.ofList t) := hno.2 _ hne
                  rw [this]
                  exact ha1.keys t ht
              have hafin := (ahead_finish hamod e2).1
              intro n
              exact ⟨hafin.str, rfl, hafin.data, hafin.mono, hafin.keys⟩
          · rw [hmods2]; exact hk
      refine ⟨by simp [hrest.1], fun j hj => ?_⟩
      cases j with
      | zero => exact ⟨g5, s, rfl, hfirst⟩
      | succ j =>
        obtain ⟨f1, s1, x1, x2⟩ := hrest.2 j (by omega)
        refine ⟨f1, s1, by simpa using x1, fun fl => ?_⟩
        have := x2 fl
        rwa [show i + 1 + j + 1 = i + (j + 1) + 1 by omega] at this

end Finch
