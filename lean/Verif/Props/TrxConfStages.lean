import Verif.Props.TrxConf
import Verif.Model.Stages
/-!
C132 for the stages of a benchmark: a data key comes from the configuration of the stage, or it has stage or global
scope and comes from the configuration of an earlier stage.
-/
namespace Finch

/-- The scopes of the data keys are those of the loaded keys. -/
def SameScope (b : StagesSt) : Prop := ∀ n, (b.scope.keys n).map Key.effScope = (b.keys n).map fun k => k.key.effScope

theorem copy_scopes {s s' : DataScope} {key : String} {rl : RunLevel} {g : Option Nat}
    (h : s.copy key rl = .ok (s', g)) (n : String) : (s'.keys n).map Key.effScope = (s.keys n).map Key.effScope := by
  unfold DataScope.copy at h
  split at h
  · cases h; rfl
  · split at h
    · cases h
    · rename_i k hk
      split at h
      · split at h <;> cases h <;> rfl
      · dsimp only at h
        have hset : ((s.keys.set key { k with scope := some k.effScope }) n).map Key.effScope =
            (s.keys n).map Key.effScope := by
          by_cases he : n = key
          · subst he; rw [GoMap.set_same, hk]; rfl
          · rw [GoMap.set_other _ _ he]
        split at h <;> cases h <;> exact hset

theorem run_scopes {l : List CopyObs} : ∀ {s s' : DataScope} {obs : List CopyObs},
    s.run (l.map fun o => ScopeOp.copy o.key o.rl) = .ok (s', obs) →
    ∀ n, (s'.keys n).map Key.effScope = (s.keys n).map Key.effScope := by
  induction l with
  | nil => intro s s' obs h n; cases h; rfl
  | cons o l ih =>
    intro s s' obs h n
    simp only [List.map_cons, DataScope.run] at h
    cases hc : s.copy o.key o.rl with
    | panic => rw [hc] at h; cases h
    | ok x =>
      obtain ⟨s1, g⟩ := x
      rw [hc] at h
      dsimp only at h
      cases hr : s1.run (l.map fun o => ScopeOp.copy o.key o.rl) with
      | panic => rw [hr] at h; cases h
      | ok y =>
        rw [hr] at h
        cases h
        rw [ih hr n, copy_scopes hc n]

theorem loadTrx_grows {tfs : List TrxFile} : ∀ {set set' : TrxSet}, loadTrx set tfs = .ok set' →
    Grow set.keys set'.keys := by
  induction tfs with
  | nil => intro set set' h; cases h; exact fun _ _ h => h
  | cons tf tfs ih =>
    intro set set' h
    simp only [loadTrx] at h
    cases hl : loadFile set tf with
    | err => rw [hl] at h; cases h
    | panic => rw [hl] at h; cases h
    | ok set1 =>
      rw [hl] at h
      obtain ⟨-, hg, -⟩ := loadFile_ok hl
      exact fun n v hn => ih h n v (hg n v hn)

theorem prepare_scopes {p : PrepEnv} {s : DataScope} {keys : GoMap String TKey} {r : Prepared}
    (hs : ∀ n, (s.keys n).map Key.effScope = (keys n).map fun k => k.key.effScope)
    (h : prepare p s keys = .ok r) : SameScope ⟨r.st.sl.scope, r.set.keys⟩ := by
  obtain ⟨-, h1, -, h3, -⟩ := prepare_parts h
  obtain ⟨l, -, h4⟩ := allocEGLoop_traced h3
  intro n
  rw [run_scopes h4 n]
  dsimp only [prepScope]
  have hg : ∀ v, keys n = some v → r.set.keys n = some v := loadTrx_grows h1 n
  cases hk : s.keys n with
  | none => cases r.set.keys n <;> rfl
  | some k =>
    have := hs n
    rw [hk] at this
    cases hv : keys n with
    | none => rw [hv] at this; cases this
    | some v => rw [hg v hv]; rw [hv] at this; exact this

/-- A key that stays for the next stage. -/
def StaysKey (k : TKey) : Prop := k.scope = "stage" ∨ k.scope = "global"

theorem ofString?_str {x : String} {c : Scope} (h : Scope.ofString? x = some c) : x = c.str := by
  unfold Scope.ofString? at h
  have := List.find?_some h
  exact (by simpa using this : c.str = x).symm

theorem stays_iff {k : TKey} (h : k.key.effScope = .stage ∨ k.key.effScope = .global) : StaysKey k := by
  unfold Key.effScope TKey.key at h
  dsimp only at h
  split at h
  · rename_i c hc
    have := ofString?_str hc
    rcases h with rfl | rfl
    · exact Or.inl this
    · exact Or.inr this
  · split at h <;> rcases h with h | h <;> cases h

/-- What is left of the keys for the next stage. -/
theorem kept_keys {b : StagesSt} (hb : SameScope b) {n : String} {k : TKey}
    (h : (if (b.scope.reset.keys n).isSome then b.keys n else none) = some k) : b.keys n = some k ∧ StaysKey k := by
  split at h
  · rename_i hs
    refine ⟨h, ?_⟩
    have hb := hb n
    rw [h] at hb
    simp only [DataScope.reset] at hs
    split at hs
    · rename_i hr
      cases hk : b.scope.keys n with
      | none => rw [hk] at hb; cases hb
      | some x =>
        rw [hk] at hb hr
        simp only [Option.map_some, Option.some.injEq] at hb
        simp only [resetKeeps, Bool.or_eq_true, decide_eq_true_eq] at hr
        apply stays_iff
        rw [← hb]
        rcases hr with hr | hr
        · left; unfold Key.effScope; rw [hr]
        · right; unfold Key.effScope; rw [hr]
    · cases hs
  · cases h

theorem stages_conf {ps : List PrepEnv} : ∀ {b : StagesSt} {rs : List Prepared}, SameScope b → b.all ps = .ok rs →
    ∀ {i : Nat} {r : Prepared} {n : String} {k : TKey}, rs[i]? = some r → r.set.keys n = some k →
    (b.keys n = some k ∧ StaysKey k) ∨
    ∃ j p, j ≤ i ∧ ps[j]? = some p ∧ (∃ tf ∈ p.files, KeyConf tf.env tf.data n k) ∧ (j < i → StaysKey k) := by
  induction ps with
  | nil => intro b rs _ h i r n k hr; cases h; cases hr
  | cons p ps ih =>
    intro b rs hb h i r n k hr hk
    rw [StagesSt.all] at h
    obtain ⟨⟨b', r0⟩, hp, h⟩ := Out.bind_ok h
    obtain ⟨rs', hrs, h⟩ := Out.bind_ok h
    cases Out.pure_ok h
    rw [StagesSt.prepare] at hp
    obtain ⟨r0', hprep, hp⟩ := Out.bind_ok hp
    cases Out.pure_ok hp
    have h1 := (prepare_parts hprep).2.1
    have hsame : SameScope ⟨r0.st.sl.scope, r0.set.keys⟩ := by
      refine prepare_scopes ?_ hprep
      intro m
      have := hb m
      cases hx : b.scope.reset.keys m with
      | none => simp
      | some x =>
        simp only [Option.isSome_some, if_true]
        simp only [DataScope.reset] at hx
        split at hx
        · rw [hx] at this; exact this
        · cases hx
    have hfirst : r0.set.keys n = some k → (b.keys n = some k ∧ StaysKey k) ∨
        ∃ tf ∈ p.files, KeyConf tf.env tf.data n k := by
      intro hk
      rcases C132_keys _ _ _ h1 n k hk with h2 | h2
      · exact Or.inl (kept_keys hb h2)
      · exact Or.inr h2
    cases i with
    | zero =>
      cases hr
      rcases hfirst hk with h2 | h2
      · exact Or.inl h2
      · exact Or.inr ⟨0, p, le_rfl, rfl, h2, fun h => absurd h (lt_irrefl 0)⟩
    | succ i =>
      rw [List.getElem?_cons_succ] at hr
      rcases ih hsame hrs hr hk with ⟨h2, h3⟩ | ⟨j, q, h2, h3, h4, h5⟩
      · rcases hfirst h2 with h4 | h4
        · exact Or.inl h4
        · exact Or.inr ⟨0, p, Nat.zero_le _, rfl, h4, fun _ => h3⟩
      · exact Or.inr ⟨j + 1, q, by omega, by rw [List.getElem?_cons_succ]; exact h3, h4, fun h => h5 (by omega)⟩

/-- **C132 (stages).** Every data key of every stage of a benchmark is what a trx file of this stage configures; or
it has stage or global scope and is what a trx file of an earlier stage configures. -/
theorem C132_stages (ps : List PrepEnv) (rs : List Prepared) (h : StagesSt.new.all ps = .ok rs) (i : Nat)
    (r : Prepared) (hr : rs[i]? = some r) (n : String) (k : TKey) (hk : r.set.keys n = some k) :
    ∃ j p, j ≤ i ∧ ps[j]? = some p ∧ (∃ tf ∈ p.files, KeyConf tf.env tf.data n k) ∧
      (j < i → k.scope = "stage" ∨ k.scope = "global") := by
  rcases stages_conf (b := StagesSt.new) (fun n => rfl) h hr hk with ⟨h1, -⟩ | h1
  · cases h1
  · exact h1

/-! ### Examples -/

/-- A stage whose key `@id` has this generator and scope. -/
def exStageGen (gen scope : String) : StageConf :=
  { trx := [{ file := "read.sql".toList
              data := [("id".toList, { generator := gen.toList, scope := scope.toList })] }] }

/-- What the clients of two stages execute; nothing if a stage is not accepted. -/
def exTwoStages (c1 c2 : StageConf) : List (List (List (List (List Text)))) :=
  match c1.validate exValEnv, c2.validate exValEnv with
  | some c1, some c2 =>
    match StagesSt.new.all [c1.prepEnv exRest, c2.prepEnv { exRest with n := 2 }] with
    | .ok rs => rs.map fun r => execsOf (.ok r)
    | _ => []
  | _, _ => []

/-- The hypotheses are met: two stages with different generators for the same key of trx scope. -/
example : exTwoStages (exStageGen "int" "trx") (exStageGen "str-fill-az" "trx") =
    [[[[["SELECT c FROM t WHERE id=%d".toList]]]], [[[["SELECT c FROM t WHERE id='%s'".toList]]]]] := by decide +kernel

/-- C132 is false over stages for keys with stage scope: the key of the first stage stays, and the second stage, which
is accepted, uses its generator instead of the configured one. -/
theorem C132_next_stage_false : exTwoStages (exStageGen "int" "stage") (exStageGen "str-fill-az" "stage") =
    [[[[["SELECT c FROM t WHERE id=%d".toList]]]], [[[["SELECT c FROM t WHERE id=%d".toList]]]]] := by
  decide +kernel

end Finch
