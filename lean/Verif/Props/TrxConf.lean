import Verif.Props.TrxKnown
import Verif.Props.TrxCopies
import Verif.Props.Configured
/-!
C132: each data key of the loaded trx files has the generator, params and scope that are configured for it.
-/
namespace Finch

/-- The key `k` is what the configuration `d` says of the data key `n`. A data key (column -1) is made of the
generator and params configured under its name without `@`, with the configured scope, or statement or row scope if
none is configured. A saved column is made of the column generator with the configured params, with the configured
scope, or trx scope if the column is not configured. The column `_` is not saved. -/
structure KeyConf (env : TrxEnv) (d : GoMap String DataCfg) (n : String) (k : TKey) : Prop where
  name : k.name = n
  trx : k.trx = env.trx
  made : k.column = -1 → ∃ c, d (cfgKey n.toList) = some c ∧ env.make c.generator n c.params = some k.gen ∧
    (c.scope ≠ "" → k.scope = c.scope) ∧ (c.scope = "" → k.scope = "statement" ∨ k.scope = "row")
  column : k.column ≠ -1 → n ≠ noopCol →
    (d (cfgKey n.toList) = none ∧ env.make "column" n [] = some k.gen ∧ k.scope = "trx") ∨
    ∃ c, d (cfgKey n.toList) = some c ∧ env.make "column" n c.params = some k.gen ∧
      (c.scope ≠ "" → k.scope = c.scope) ∧ (c.scope = "" → k.scope = "" ∨ k.scope = "row")
  noop : n = noopCol → k.column ≠ -1 ∧ k.scope = "global"

/-- All keys were there or are configured; the configuration is the given one up to default scopes. -/
structure ConfInv (env : TrxEnv) (k0 : GoMap String TKey) (d : GoMap String DataCfg) (f : FileSt) : Prop where
  keys : ∀ n k, f.keys n = some k → k0 n = some k ∨ KeyConf env d n k
  data : DataRel d f.data

theorem ConfInv.set {env : TrxEnv} {k0 : GoMap String TKey} {d : GoMap String DataCfg} {f f' : FileSt}
    (h : ConfInv env k0 d f) {n : String} {k : TKey} (hk : KeyConf env d n k) (hf : f'.keys = f.keys.set n k)
    (hd : DataRel d f'.data) : ConfInv env k0 d f' := by
  refine ⟨fun x v hx => ?_, hd⟩
  rw [hf] at hx
  by_cases he : x = n
  · subst he; rw [GoMap.set_same] at hx; cases hx; exact Or.inr hk
  · rw [GoMap.set_other _ _ he] at hx; exact h.keys x v hx

theorem ConfInv.same {env : TrxEnv} {k0 : GoMap String TKey} {d : GoMap String DataCfg} {f f' : FileSt}
    (h : ConfInv env k0 d f) (hk : f'.keys = f.keys) (hd : f'.data = f.data) : ConfInv env k0 d f' :=
  ⟨fun n k hn => h.keys n k (hk ▸ hn), by rw [hd]; exact h.data⟩

theorem cfgRel_none {a b : Option DataCfg} (h : CfgRel a b) (hb : b = none) : a = none := by
  subst hb; cases a
  · rfl
  · exact h.elim

theorem column_conf {env : TrxEnv} {k0 : GoMap String TKey} {d : GoMap String DataCfg} {f f1 : FileSt} {n : Nat}
    {col : Text} {k : String} (hf : ConfInv env k0 d f) (h : f.column env n col = .ok (f1, k)) :
    ConfInv env k0 d f1 := by
  unfold FileSt.column at h
  dsimp only at h
  split at h
  · split at h
    · cases h; exact hf
    · cases h
      refine hf.set ?_ rfl hf.data
      refine ⟨rfl, rfl, ?_, ?_, ?_⟩
      · intro h; simp [colKey] at h
      · intro _ h; exact absurd rfl h
      · intro _; refine ⟨?_, rfl⟩
        simp only [colKey]; omega
  · rename_i hn
    generalize trimSpace (trimSuffix [','] col) = t at h hn
    split at h
    · cases h
    · split at h
      · cases h
      · rename_i g hg
        cases h
        refine hf.set ?_ rfl hf.data
        refine ⟨rfl, rfl, ?_, ?_, fun h => absurd h hn⟩
        · intro h
          simp only [colKey] at h
          omega
        · intro _ _
          rw [String.toList_ofList]
          have hr := hf.data (cfgKey t) (cfgKey_not_at t)
          cases hd : f.data (cfgKey t) with
          | none =>
            rw [hd] at hg
            refine Or.inl ⟨cfgRel_none hr hd, hg, ?_⟩
            simp [colKey]
          | some c' =>
            obtain ⟨c, h1, h2, h3, h4⟩ := hr.isSome hd
            rw [hd] at hg
            refine Or.inr ⟨c, h1, by rw [← h3]; exact hg, ?_, ?_⟩
            · intro hne
              simp only [colKey, Option.getD_some]
              rcases h4 with h4 | h4
              · exact h4
              · exact absurd h4.1 hne
            · intro he
              simp only [colKey, Option.getD_some]
              rcases h4 with h4 | h4
              · exact Or.inl (h4.trans he)
              · exact Or.inr h4.2

theorem columns_conf {env : TrxEnv} {k0 : GoMap String TKey} {d : GoMap String DataCfg} {cols : List Text} :
    ∀ {f f1 : FileSt} {n : Nat} {ks : List String}, ConfInv env k0 d f → f.columns env n cols = .ok (f1, ks) →
    ConfInv env k0 d f1 := by
  induction cols with
  | nil => intro f f1 n ks hf h; cases h; exact hf
  | cons c cs ih =>
    intro f f1 n ks hf h
    obtain ⟨⟨f2, k⟩, h1, h⟩ := Out.bind_ok h
    obtain ⟨⟨f3, ks'⟩, h2, h⟩ := Out.bind_ok h
    cases Out.pure_ok h
    exact ih (column_conf hf h1) h2

theorem modStep_conf {env : TrxEnv} {k0 : GoMap String TKey} {d : GoMap String DataCfg} {f f1 : FileSt} {s s1 : Stmt}
    {mod : Text} {c : Option Nat} (hf : ConfInv env k0 d f) (h : modStep env f s mod = .ok (f1, s1, c)) :
    ConfInv env k0 d f1 := by
  unfold modStep at h
  split at h
  · cases h
  · dsimp only at h
    split at h
    · cases h; exact hf
    split at h
    · obtain ⟨_, -, h⟩ := Out.bind_ok h
      obtain ⟨_, -, h⟩ := Out.bind_ok h
      cases Out.pure_ok h; exact hf
    split at h
    · obtain ⟨_, -, h⟩ := Out.bind_ok h
      obtain ⟨_, -, h⟩ := Out.bind_ok h
      obtain ⟨_, -, h⟩ := Out.bind_ok h
      obtain ⟨s2, h2, h⟩ := Out.bind_ok h
      cases Out.pure_ok h; exact hf
    split at h
    · split at h
      · obtain ⟨_, -, h⟩ := Out.bind_ok h
        obtain ⟨s2, h2, h⟩ := Out.bind_ok h
        cases Out.pure_ok h; exact hf
      · cases h
    split at h
    · split at h
      · cases h
      · obtain ⟨_, -, h⟩ := Out.bind_ok h
        obtain ⟨⟨f2, k⟩, h2, h⟩ := Out.bind_ok h
        cases Out.pure_ok h
        exact column_conf hf h2
    split at h
    · obtain ⟨⟨f2, k⟩, h2, h⟩ := Out.bind_ok h
      cases Out.pure_ok h
      exact columns_conf hf h2
    split at h
    · obtain ⟨_, -, h⟩ := Out.bind_ok h
      obtain ⟨_, -, h⟩ := Out.bind_ok h
      split at h
      · cases h
      split at h
      · cases Out.pure_ok h; exact hf
      · cases Out.pure_ok h; exact hf
    · cases h

theorem modLoop_conf {env : TrxEnv} {k0 : GoMap String TKey} {d : GoMap String DataCfg} {mods : List Text} :
    ∀ {f f1 : FileSt} {s s1 : Stmt} {c : Option Nat}, ConfInv env k0 d f →
    modLoop env f s mods = .ok (f1, s1, c) → ConfInv env k0 d f1 := by
  induction mods with
  | nil => intro f f1 s s1 c hf h; cases h; exact hf
  | cons m ms ih =>
    intro f f1 s s1 c hf h
    obtain ⟨⟨f2, s2, c2⟩, h1, h⟩ := Out.bind_ok h
    have g1 := modStep_conf hf h1
    dsimp only at h
    split at h
    · cases Out.pure_ok h; exact g1
    · exact ih g1 h

theorem genOf_conf {env : TrxEnv} {k0 : GoMap String TKey} {d : GoMap String DataCfg} {f f1 : FileSt}
    {before : List Text} {name : Text} {g : GenInfo} (hn : name.head? = some '@') (hf : ConfInv env k0 d f)
    (h : genOf env f before name = .ok (f1, g)) : ConfInv env k0 d f1 := by
  unfold genOf at h
  dsimp only at h
  split at h
  · cases h; exact hf.same rfl rfl
  split at h
  · split at h
    · cases h
    · split at h
      · cases h
      · split at h
        · cases h; exact hf
        · cases h
  · split at h
    · cases h; exact hf
    · split at h
      · cases h
      · rename_i c' hd
        split at h
        · cases h
        · rename_i g' hg
          cases h
          obtain ⟨c, h1, h2, h3, h4⟩ := (hf.data (cfgKey name) (cfgKey_not_at name)).isSome hd
          refine hf.set ?_ rfl ?_
          rotate_left
          · intro x hx
            dsimp only
            split
            · rw [set_at hn hx]; exact hf.data x hx
            · exact hf.data x hx
          refine ⟨rfl, rfl, ?_, ?_, ?_⟩
          · intro _
            rw [String.toList_ofList]
            refine ⟨c, h1, by rw [← h2, ← h3]; exact hg, ?_, ?_⟩
            · intro hne
              rcases h4 with h4 | h4
              · have : c'.scope ≠ "" := h4 ▸ hne
                simp only [if_neg this]; exact h4
              · exact absurd h4.1 hne
            · intro he
              rcases h4 with h4 | h4
              · have : c'.scope = "" := h4.trans he
                simp only [if_pos this]; exact Or.inl trivial
              · have : c'.scope ≠ "" := by rw [h4.2]; decide
                simp only [if_neg this]; exact Or.inr h4.2
          · intro h; exact absurd rfl h
          · intro h
            exfalso
            obtain ⟨t, ht⟩ := atName_iff hn
            rw [h] at ht
            have := congrArg String.toList ht
            rw [String.toList_ofList] at this
            cases this

theorem keyLoop_conf {env : TrxEnv} {k0 : GoMap String TKey} {d : GoMap String DataCfg} {p : Bool}
    {names : List Text} : ∀ {f f1 : FileSt} {before : List Text} {fmts fmts1 : List (Text × Text)},
    (∀ n ∈ names, n.head? = some '@') → ConfInv env k0 d f →
    keyLoop env p f before fmts names = .ok (f1, fmts1) → ConfInv env k0 d f1 := by
  induction names with
  | nil => intro f f1 before fmts fmts1 _ hf h; cases h; exact hf
  | cons n ns ih =>
    intro f f1 before fmts fmts1 hn hf h
    obtain ⟨⟨f2, g⟩, h1, h⟩ := Out.bind_ok h
    exact ih (fun x hx => hn x (List.mem_cons_of_mem _ hx)) (genOf_conf (hn n List.mem_cons_self) hf h1) h

theorem expandCsv_conf {env : TrxEnv} {d d1 d2 : GoMap String DataCfg} {q q1 : Text} (hd : DataRel d d1)
    (h : expandCsv env d1 q = .ok (d2, q1)) : DataRel d d2 := by
  unfold expandCsv at h
  split at h
  · cases h; exact hd
  · obtain ⟨n, -, h⟩ := Out.bind_ok h
    obtain ⟨⟨d3, ks⟩, h3, h⟩ := Out.bind_ok h
    cases Out.pure_ok h
    exact (ahead_csvKeys hd h3).1

theorem finish_conf {env : TrxEnv} {k0 : GoMap String TKey} {d : GoMap String DataCfg} {f f1 : FileSt} {s s1 : Stmt}
    {q : Text} (hf : ConfInv env k0 d f) (h : finish env f s q = .ok (f1, s1)) : ConfInv env k0 d f1 := by
  unfold finish at h
  obtain ⟨⟨d2, q2⟩, h1, h⟩ := Out.bind_ok h
  have hd := expandCsv_conf hf.data h1
  have hf2 : ConfInv env k0 d { f with data := d2 } := ⟨hf.keys, hd⟩
  dsimp only at h
  split at h
  · cases Out.pure_ok h; exact hf2
  · obtain ⟨⟨f3, fm⟩, h2, h⟩ := Out.bind_ok h
    cases Out.pure_ok h
    exact keyLoop_conf (tokKeys_at _) hf2 h2

theorem statements_conf {env : TrxEnv} {k0 : GoMap String TKey} {d : GoMap String DataCfg} {fuel : Nat} :
    ∀ {f f' : FileSt} {ss : List Stmt}, ConfInv env k0 d f → statements env fuel f = .ok (f', ss) →
    ConfInv env k0 d f' := by
  induction fuel with
  | zero => intro f f' ss _ h; cases h
  | succ fuel ih =>
    have hcopy : ∀ (k : Nat) {f f' : FileSt} {i : Nat} {ss : List Stmt}, ConfInv env k0 d f →
        copyLoop (statements env fuel) f i k = .ok (f', ss) → ConfInv env k0 d f' := by
      intro k
      induction k with
      | zero => intro f f' i ss hf h; cases h; exact hf
      | succ k ihk =>
        intro f f' i ss hf h
        obtain ⟨⟨f2, ms⟩, h1, h⟩ := Out.bind_ok h
        dsimp only at h
        have g1 := ih (f := { f with copyNo := i + 1 }) (hf.same rfl rfl) h1
        cases ms with
        | nil => cases h
        | cons s rest =>
          obtain ⟨⟨f3, ss'⟩, h3, h⟩ := Out.bind_ok h
          cases Out.pure_ok h
          exact ihk g1 h3
    intro f f' ss hf h
    unfold statements at h
    obtain ⟨⟨f2, s2, c⟩, h1, h⟩ := Out.bind_ok h
    dsimp only at h
    have g1 := modLoop_conf (k0 := k0) (d := d) (by exact hf.same rfl rfl) h1
    split at h
    · obtain ⟨⟨f3, s3⟩, h2, h⟩ := Out.bind_ok h
      cases Out.pure_ok h
      exact finish_conf g1 h2
    · cases Out.pure_ok h
      exact g1
    · obtain ⟨⟨f3, ss'⟩, h2, h⟩ := Out.bind_ok h
      cases Out.pure_ok h
      exact (hcopy _ (by exact g1.same rfl rfl) h2).same rfl rfl

theorem line_conf {env : TrxEnv} {k0 : GoMap String TKey} {d : GoMap String DataCfg} {f f' : FileSt} {l : Text}
    (hf : ConfInv env k0 d f)
    (h : f.line env (FileSt.statements env) l = .ok (.next f') ∨
      f.line env (FileSt.statements env) l = .ok (.eof f')) : ConfInv env k0 d f' := by
  unfold FileSt.line at h
  dsimp only at h
  split at h
  · split at h
    · split at h
      · rcases h with h | h <;> cases h; exact hf.same rfl rfl
      · split at h
        · rcases h with h | h <;> cases h
        · rcases h with h | h <;> cases h; exact hf.same rfl rfl
    · rcases h with h | h <;> cases h; exact hf.same rfl rfl
  · split at h
    · rcases h with h | h <;> cases h; exact hf.same rfl rfl
    · split at h
      · rename_i f2 ss hst
        rcases h with h | h <;> cases h
        exact (statements_conf (f := { f with lineNo := f.lineNo + 1 }) (hf.same rfl rfl) hst).same rfl rfl
      · rcases h with h | h <;> cases h
      · rcases h with h | h <;> cases h

theorem lines_conf {env : TrxEnv} {k0 : GoMap String TKey} {d : GoMap String DataCfg} {ls : List Text} :
    ∀ {f f' : FileSt}, ConfInv env k0 d f → f.lines env (FileSt.statements env) ls = .ok f' →
    ConfInv env k0 d f' := by
  have hlast : ∀ {f f' : FileSt}, ConfInv env k0 d f →
      (match f.line env (FileSt.statements env) [] with
        | .ok (.next f) => (.ok f : Out FileSt)
        | .ok (.eof f) => .ok f
        | .err => .err
        | .panic => .panic) = .ok f' → ConfInv env k0 d f' := by
    intro f f' hf h
    cases hr : f.line env (FileSt.statements env) [] with
    | err => rw [hr] at h; cases h
    | panic => rw [hr] at h; cases h
    | ok r =>
      rw [hr] at h
      cases r with
      | next f2 => cases h; exact line_conf hf (Or.inl hr)
      | eof f2 => cases h; exact line_conf hf (Or.inr hr)
  induction ls with
  | nil => intro f f' hf h; exact hlast hf h
  | cons l ls ih =>
    intro f f' hf h
    simp only [FileSt.lines] at h
    cases hr : f.line env (FileSt.statements env) (trimSpace l) with
    | err => rw [hr] at h; cases h
    | panic => rw [hr] at h; cases h
    | ok r =>
      rw [hr] at h
      cases r with
      | next f2 => exact ih (line_conf hf (Or.inl hr)) h
      | eof f2 => exact hlast (line_conf hf (Or.inr hr)) h

theorem loadFile_conf {set set' : TrxSet} {tf : TrxFile} (h : loadFile set tf = .ok set') :
    ∀ n k, set'.keys n = some k → set.keys n = some k ∨ KeyConf tf.env tf.data n k := by
  unfold loadFile at h
  split at h
  · cases h
  · split at h
    · cases h
    · cases h
    · rename_i f hl
      split at h
      · cases h
      · split at h
        · cases h
        · cases h
          exact (lines_conf (f := FileSt.new tf.data set.keys) ⟨fun n k h => Or.inl h, fun _ _ => .refl _⟩ hl).keys

/-- **C132.** After loading trx files every data key is one that was there before, or it is a key of one of the
files, with the generator, params and scope that the configuration of this file has for it. -/
theorem C132_keys (tfs : List TrxFile) : ∀ (set set' : TrxSet), loadTrx set tfs = .ok set' →
    ∀ n k, set'.keys n = some k → set.keys n = some k ∨ ∃ tf ∈ tfs, KeyConf tf.env tf.data n k := by
  induction tfs with
  | nil => intro set set' h n k hk; cases h; exact Or.inl hk
  | cons tf tfs ih =>
    intro set set' h n k hk
    simp only [loadTrx] at h
    cases hl : loadFile set tf with
    | err => rw [hl] at h; cases h
    | panic => rw [hl] at h; cases h
    | ok set1 =>
      rw [hl] at h
      rcases ih set1 set' h n k hk with h1 | ⟨x, hx, h1⟩
      · rcases loadFile_conf hl n k h1 with h2 | h2
        · exact Or.inl h2
        · exact Or.inr ⟨tf, List.mem_cons_self, h2⟩
      · exact Or.inr ⟨x, List.mem_cons_of_mem _ hx, h1⟩

/-- The name of a data key in the configuration: without `@`. -/
def confName (n : String) : Text := (cfgKey n.toList).toList

/-- **C132 (configured stage).** Every data key of a prepared stage that was not there before (of an earlier stage)
comes from one of the configured trx. If it is not a saved column, the configuration of this trx has the key, and
it has the configured generator, made of the configured params, and the configured scope. A key without configured
scope has statement or row scope. -/
theorem C132_configured {env : ValEnv} {c c' : StageConf} (hd : c.disable = false) (h : c.validate env = some c')
    (rest : StageRest) {s : DataScope} {keys : GoMap String TKey} {r : Prepared}
    (hr : prepare (c'.prepEnv rest) s keys = .ok r) {n : String} {k : TKey} (hk : r.set.keys n = some k)
    (hnew : keys n = none) (hcol : k.column = -1) :
    ∃ t ∈ c.trx, k.name = n ∧ k.trx = String.ofList (trxName t) ∧ ∃ dc : DataConf,
      t.data.get? (confName n) = some dc ∧ rest.make (String.ofList dc.generator) n dc.params = some k.gen ∧
      (dc.scope ≠ [] → k.scope.toList = dc.scope) ∧
      (dc.scope = [] → k.scope = "statement" ∨ k.scope = "row") := by
  obtain ⟨-, h1, -⟩ := prepare_parts hr
  obtain ⟨h3, -, -, -, -, h4, -⟩ := C61_result env c c' hd h
  rcases C132_keys _ _ _ h1 n k hk with h5 | ⟨tf, htf, h5⟩
  · exact absurd (hnew.symm.trans h5) (by simp)
  · simp only [StageConf.prepEnv, h3, h4, List.map_map, List.mem_map, Function.comp_apply] at htf
    obtain ⟨t, ht, rfl⟩ := htf
    obtain ⟨x, e1, e2, e3, e4⟩ := h5.made hcol
    simp only [TrxConf.trxFile, Option.map_eq_some_iff] at e1
    obtain ⟨dc, e5, rfl⟩ := e1
    refine ⟨t, ht, h5.name, h5.trx, dc, e5, e2, ?_, ?_⟩
    · intro hne
      have : (DataConf.cfg dc).scope ≠ "" := by
        intro he
        have := congrArg String.toList he
        simp only [DataConf.cfg, String.toList_ofList] at this
        exact hne this
      rw [e3 this]
      simp [DataConf.cfg]
    · intro he
      exact e4 (by simp [DataConf.cfg, he])

/-- **C132 (saved columns).** Every saved column of a prepared stage that was not there before comes from one of
the configured trx. If the trx has a configuration for the column, the params and the scope are the configured
ones, whatever generator is configured; otherwise it has trx scope. -/
theorem C132_columns {env : ValEnv} {c c' : StageConf} (hd : c.disable = false) (h : c.validate env = some c')
    (rest : StageRest) {s : DataScope} {keys : GoMap String TKey} {r : Prepared}
    (hr : prepare (c'.prepEnv rest) s keys = .ok r) {n : String} {k : TKey} (hk : r.set.keys n = some k)
    (hnew : keys n = none) (hcol : k.column ≠ -1) (hn : n ≠ "_") :
    ∃ t ∈ c.trx, k.name = n ∧ k.trx = String.ofList (trxName t) ∧
      ((t.data.get? (confName n) = none ∧ rest.make "column" n [] = some k.gen ∧ k.scope = "trx") ∨
       ∃ dc : DataConf, t.data.get? (confName n) = some dc ∧ rest.make "column" n dc.params = some k.gen ∧
        (dc.scope ≠ [] → k.scope.toList = dc.scope) ∧ (dc.scope = [] → k.scope = "" ∨ k.scope = "row")) := by
  obtain ⟨-, h1, -⟩ := prepare_parts hr
  obtain ⟨h3, -, -, -, -, h4, -⟩ := C61_result env c c' hd h
  rcases C132_keys _ _ _ h1 n k hk with h5 | ⟨tf, htf, h5⟩
  · exact absurd (hnew.symm.trans h5) (by simp)
  · simp only [StageConf.prepEnv, h3, h4, List.map_map, List.mem_map, Function.comp_apply] at htf
    obtain ⟨t, ht, rfl⟩ := htf
    refine ⟨t, ht, h5.name, h5.trx, ?_⟩
    rcases h5.column hcol hn with ⟨e1, e2⟩ | ⟨x, e1, e2, e3, e4⟩
    · simp only [TrxConf.trxFile, Option.map_eq_none_iff] at e1
      exact Or.inl ⟨e1, e2⟩
    · simp only [TrxConf.trxFile, Option.map_eq_some_iff] at e1
      obtain ⟨dc, e5, rfl⟩ := e1
      refine Or.inr ⟨dc, e5, e2, ?_, ?_⟩
      · intro hne
        have : (DataConf.cfg dc).scope ≠ "" := by
          intro he
          have := congrArg String.toList he
          simp only [DataConf.cfg, String.toList_ofList] at this
          exact hne this
        rw [e3 this]
        simp [DataConf.cfg]
      · intro he
        exact e4 (by simp [DataConf.cfg, he])

theorem lookup_mem_data {m : TMap DataConf} {k : Text} {dc : DataConf} (h : m.get? k = some dc) : (k, dc) ∈ m := by
  unfold TMap.get? at h
  induction m with
  | nil => cases h
  | cons e m ih =>
    obtain ⟨k', d'⟩ := e
    simp only [List.lookup_cons] at h
    split at h
    · rename_i hb
      cases h
      rw [beq_iff_eq] at hb
      subst hb
      exact List.mem_cons_self
    · exact List.mem_cons_of_mem _ (ih h)

/-- **C132 (scope).** A data key of a prepared stage that was not there before has the scope that is configured,
in every trx that configures the key. -/
theorem C132_scope {env : ValEnv} {c c' : StageConf} (hd : c.disable = false) (h : c.validate env = some c')
    (rest : StageRest) {s : DataScope} {keys : GoMap String TKey} {r : Prepared}
    (hr : prepare (c'.prepEnv rest) s keys = .ok r) {n : String} {k : TKey} (hk : r.set.keys n = some k)
    (hnew : keys n = none) (hcol : k.column = -1) :
    ∀ t ∈ c.trx, ∀ dc : DataConf, t.data.get? (confName n) = some dc →
      (dc.scope ≠ [] → k.scope.toList = dc.scope) ∧ (dc.scope = [] → k.scope = "statement" ∨ k.scope = "row") := by
  have hw := (C61_accepted_iff env c hd).1 (by rw [h]; rfl)
  obtain ⟨t0, ht0, -, -, dc0, h1, -, h3, h4⟩ := C132_configured hd h rest hr hk hnew hcol
  intro t ht dc hdc
  have := hw.scopes _ (List.mem_flatMap.2 ⟨t, ht, lookup_mem_data hdc⟩) _
    (List.mem_flatMap.2 ⟨t0, ht0, lookup_mem_data h1⟩) rfl
  dsimp only at this
  rw [this]
  exact ⟨h3, h4⟩

/-- **C132 (generator).** If all trx that configure a data key configure the same generator with the same params,
the key has this generator. (False if they differ, `C132_other_generator_false`.) -/
theorem C132_generator_partial {env : ValEnv} {c c' : StageConf} (hd : c.disable = false)
    (h : c.validate env = some c') (rest : StageRest) {s : DataScope} {keys : GoMap String TKey} {r : Prepared}
    (hr : prepare (c'.prepEnv rest) s keys = .ok r) {n : String} {k : TKey} (hk : r.set.keys n = some k)
    (hnew : keys n = none) (hcol : k.column = -1)
    (hagree : ∀ t ∈ c.trx, ∀ t' ∈ c.trx, ∀ dc dc' : DataConf, t.data.get? (confName n) = some dc →
      t'.data.get? (confName n) = some dc' → dc.generator = dc'.generator ∧ dc.params = dc'.params) :
    ∀ t ∈ c.trx, ∀ dc : DataConf, t.data.get? (confName n) = some dc →
      rest.make (String.ofList dc.generator) n dc.params = some k.gen := by
  obtain ⟨t0, ht0, -, -, dc0, h1, h2, -⟩ := C132_configured hd h rest hr hk hnew hcol
  intro t ht dc hdc
  obtain ⟨e1, e2⟩ := hagree t ht t0 ht0 dc dc0 hdc h1
  rw [e1, e2]; exact h2

/-! ### Examples -/

/-- The key `@id` of a prepared stage: generator format, scope and trx. -/
def exKeyOf (n : String) : Out Prepared → Option (Text × String × String)
  | .ok r => (r.set.keys n).map fun k => (k.gen.fmt, k.scope, k.trx)
  | _ => none

/-- The hypotheses are met: the key `@id` of a stage with two trx. -/
example : ∃ c' r k, exStageConf.validate exValEnv = some c' ∧
    prepare (c'.prepEnv exRest) DataScope.new GoMap.empty = .ok r ∧ r.set.keys "@id" = some k ∧ k.column = -1 ∧
    confName "@id" = "id".toList := by
  have h : (match exStageConf.validate exValEnv with
    | none => false
    | some c' => match prepare (c'.prepEnv exRest) DataScope.new GoMap.empty with
      | .ok r => (match r.set.keys "@id" with | some k => decide (k.column = -1) | none => false)
      | _ => false) = true := by decide +kernel
  revert h
  cases h1 : exStageConf.validate exValEnv with
  | none => simp
  | some c' =>
    dsimp only
    cases h2 : prepare (c'.prepEnv exRest) DataScope.new GoMap.empty with
    | ok r =>
      dsimp only
      cases h3 : r.set.keys "@id" with
      | none => simp
      | some k => intro h; exact ⟨c', r, k, rfl, h2, h3, of_decide_eq_true h, by decide +kernel⟩
    | err => simp
    | panic => simp

/-- A column that is saved and used, configured with client scope, and a key with configured scope. -/
def exColConf : StageConf :=
  { trx := [{ file := "read.sql".toList, data := [("id".toList, { generator := "int".toList, scope := "iter".toList }),
      ("c".toList, { generator := "column".toList, scope := "client".toList })] }] }

def exColRest : StageRest :=
  { exRest with content := fun _ => some ["-- save-columns: @c".toList, "SELECT c FROM t WHERE id=@id".toList, [],
      "SELECT 1 FROM t WHERE c=@c".toList] }

example : (exColConf.validate exValEnv).map (fun c' =>
      (["@id", "@c"].map fun n => exKeyOf n (prepare (c'.prepEnv exColRest) DataScope.new GoMap.empty))) =
    some [some ("%d".toList, "iter", "read.sql"), some ("%v".toList, "client", "read.sql")] := by decide +kernel

/-- Two trx that configure the key `@id` with different generators. -/
def exOtherGen : StageConf :=
  { trx := [{ file := "read.sql".toList, data := [("id".toList, { generator := "int".toList })] },
      { file := "dir/write.sql".toList, data := [("id".toList, { generator := "str-fill-az".toList })] }] }

/-- C132 is false for trx that configure different generators for the same key, which are accepted: also the
second trx uses the generator of the first one, without quotes around the value. -/
theorem C132_other_generator_false : ∃ c', exOtherGen.validate exValEnv = some c' ∧
    exRest.make "str-fill-az" "@id" [] = some ⟨1, "'%s'".toList⟩ ∧
    execsOf (prepare (c'.prepEnv exRest) DataScope.new GoMap.empty) =
      [[[["SELECT c FROM t WHERE id=%d".toList, "UPDATE t SET c=1 WHERE id=%d".toList]]]] := by
  have h : (match exOtherGen.validate exValEnv with
    | none => false
    | some c' => decide (execsOf (prepare (c'.prepEnv exRest) DataScope.new GoMap.empty) =
      [[[["SELECT c FROM t WHERE id=%d".toList, "UPDATE t SET c=1 WHERE id=%d".toList]]]])) = true := by
    decide +kernel
  revert h
  cases h1 : exOtherGen.validate exValEnv with
  | none => simp
  | some c' => intro h; exact ⟨c', rfl, by decide +kernel, of_decide_eq_true h⟩

end Finch
