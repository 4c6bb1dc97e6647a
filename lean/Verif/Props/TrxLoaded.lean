import Verif.Props.TrxC33
import Verif.Props.TrxSet
/-!
What holds of all statements of a loaded trx file: copies that share a prepared statement have the
same query (used by C47), DDL flag (C76), saved columns (C77).
-/
namespace Finch

/-! ### A loaded file is a sequence of parsed statements -/

/-- `ss` is the statements of a run of blocks, each parsed by `File.statements`, with modifiers that
satisfy `M`. -/
inductive Chunks (env : TrxEnv) (M : Text → Prop) : FileSt → FileSt → List Stmt → Prop where
  | nil (f f' : FileSt) (h : f'.hasDDL = f.hasDDL) : Chunks env M f f' []
  | cons {f g f1 f' : FileSt} {c ss : List Stmt} (hg : g.hasDDL = f.hasDDL)
      (hm : ∀ m ∈ g.mods, M m)
      (h : FileSt.statements env g = .ok (f1, c)) (ht : Chunks env M f1 f' ss) :
      Chunks env M f f' (c ++ ss)

theorem Chunks.skip {env : TrxEnv} {M : Text → Prop} {f g f' : FileSt} {ss : List Stmt} (h : g.hasDDL = f.hasDDL)
    (hc : Chunks env M g f' ss) : Chunks env M f f' ss := by
  cases hc with
  | nil _ _ h1 => exact .nil _ _ (h1.trans h)
  | cons hg hm h1 ht => exact .cons (hg.trans h) hm h1 ht

theorem line_chunk {env : TrxEnv} {M : Text → Prop} {f : FileSt} {l : Text} {r : LineRes}
    (hf : ∀ m ∈ f.mods, M m) (hl : ∀ m, env.vars (trimSpace (l.drop 2)) = some m → M m)
    (h : f.line env (FileSt.statements env) l = .ok r) :
    ∃ f', (r = .next f' ∨ r = .eof f') ∧ (∀ m ∈ f'.mods, M m) ∧
      ((f'.stmts = f.stmts ∧ f'.hasDDL = f.hasDDL) ∨
        ∃ g f1 c, g.hasDDL = f.hasDDL ∧ (∀ m ∈ g.mods, M m) ∧ FileSt.statements env g = .ok (f1, c) ∧
          f'.stmts = f.stmts ++ c ∧ f'.hasDDL = f1.hasDDL) := by
  unfold FileSt.line at h
  dsimp only at h
  split at h
  · split at h
    · split at h
      · cases h; exact ⟨_, Or.inr rfl, hf, Or.inl ⟨rfl, rfl⟩⟩
      · split at h
        · cases h
        · rename_i mod hv
          cases h
          refine ⟨_, Or.inl rfl, ?_, Or.inl ⟨rfl, rfl⟩⟩
          intro m hm
          rcases List.mem_append.mp hm with h | h
          · exact hf m h
          · rw [List.mem_singleton.mp h]; exact hl _ hv
    · cases h; exact ⟨_, Or.inl rfl, hf, Or.inl ⟨rfl, rfl⟩⟩
  · split at h
    · cases h; exact ⟨_, Or.inl rfl, hf, Or.inl ⟨rfl, rfl⟩⟩
    · split at h
      · rename_i f2 ss hst
        cases h
        have hs := statements_ok hst
        have hst' : f2.stmts = f.stmts := hs.stmts
        exact ⟨_, Or.inl rfl, by simp, Or.inr ⟨{ f with lineNo := f.lineNo + 1 }, f2, ss, rfl, hf, hst, by rw [← hst'], rfl⟩⟩
      · cases h
      · cases h

/-- The modifiers of these lines satisfy `M`. -/
def ModLines (env : TrxEnv) (M : Text → Prop) (ls : List Text) : Prop :=
  ∀ l ∈ ls, ∀ m, env.vars (trimSpace ((trimSpace l).drop 2)) = some m → M m

theorem lines_chunks {env : TrxEnv} {M : Text → Prop} {ls : List Text} : ∀ {f f' : FileSt},
    ModLines env M ls → (∀ m ∈ f.mods, M m) → f.lines env (FileSt.statements env) ls = .ok f' →
    ∃ ss, f'.stmts = f.stmts ++ ss ∧ Chunks env M f f' ss := by
  have hlast : ∀ {f f' : FileSt}, (∀ m ∈ f.mods, M m) →
      (match f.line env (FileSt.statements env) [] with
        | .ok (.next f) => (.ok f : Out FileSt)
        | .ok (.eof f) => .ok f
        | .err => .err
        | .panic => .panic) = .ok f' →
      ∃ ss, f'.stmts = f.stmts ++ ss ∧ Chunks env M f f' ss := by
    intro f f' hm h
    have hr : (f.str = [] ∧ f'.stmts = f.stmts ∧ f'.hasDDL = f.hasDDL) ∨
        ∃ f1 c, FileSt.statements env { f with lineNo := f.lineNo + 1 } = .ok (f1, c) ∧
          f'.stmts = f1.stmts ++ c ∧ f'.hasDDL = f1.hasDDL := by
      unfold FileSt.line at h
      simp only [ne_eq, not_true_eq_false, if_false] at h
      by_cases hs : f.str = []
      · simp only [hs, if_true] at h
        cases h
        exact Or.inl ⟨hs, rfl, rfl⟩
      · simp only [hs, if_false] at h
        cases hst : FileSt.statements env { f with lineNo := f.lineNo + 1 } with
        | ok r => rw [hst] at h; cases h; exact Or.inr ⟨r.1, r.2, rfl, rfl, rfl⟩
        | err => rw [hst] at h; cases h
        | panic => rw [hst] at h; cases h
    rcases hr with ⟨-, h1, h2⟩ | ⟨f1, c, h1, h2, h3⟩
    · exact ⟨[], by simp [h1], .nil _ _ h2⟩
    · have hs := (statements_ok h1).stmts
      have hs' : f1.stmts = f.stmts := hs
      refine ⟨c, by rw [h2, hs'], ?_⟩
      have := Chunks.cons (M := M) (f := f) (g := { f with lineNo := f.lineNo + 1 }) (ss := []) rfl hm h1 (.nil f1 f' h3)
      simpa using this
  induction ls with
  | nil => intro f f' _ hm h; exact hlast hm h
  | cons l ls ih =>
    intro f f' hls hm h
    simp only [FileSt.lines] at h
    cases hr : f.line env (FileSt.statements env) (trimSpace l) with
    | err => rw [hr] at h; cases h
    | panic => rw [hr] at h; cases h
    | ok r =>
      obtain ⟨f2, h1, hm2, h2⟩ := line_chunk hm (hls l (by simp)) hr
      have h6 : ∃ ss, f'.stmts = f2.stmts ++ ss ∧ Chunks env M f2 f' ss := by
        rw [hr] at h
        rcases h1 with rfl | rfl
        · exact ih (fun l hl => hls l (by simp [hl])) hm2 h
        · exact hlast hm2 h
      obtain ⟨ss, h7, h8⟩ := h6
      rcases h2 with ⟨h2, h3⟩ | ⟨g, f1, c, h2, hgm, h3, h4, h5⟩
      · exact ⟨ss, by rw [h7, h2], h8.skip h3⟩
      · exact ⟨c ++ ss, by rw [h7, h4, List.append_assoc], .cons h2 hgm h3 (h8.skip h5)⟩

theorem loadFile_chunks {set set' : TrxSet} {tf : TrxFile} {M : Text → Prop}
    (hM : ∀ ls, tf.lines = some ls → ModLines tf.env M ls) (h : loadFile set tf = .ok set') :
    ∃ f0 f' ss, f0.hasDDL = false ∧ set'.statements = set.statements.set tf.env.trx ss ∧
      set'.ddl = set.ddl.set tf.env.trx f'.hasDDL ∧ Chunks tf.env M f0 f' ss := by
  unfold loadFile at h
  split at h
  · cases h
  · rename_i ls hls
    split at h
    · cases h
    · cases h
    · rename_i f hl
      split at h
      · cases h
      · split at h
        · cases h
        · cases h
          obtain ⟨ss, h1, h2⟩ := lines_chunks (M := M) (hM ls hls) (by simp [FileSt.new]) hl
          refine ⟨_, f, ss, rfl, ?_, rfl, h2⟩
          rw [show f.stmts = ss from h1]

/-- A property of the statements and the DDL flag that holds of every file holds of every trx of a
loaded set. -/
theorem loadTrx_lift {Q : List Stmt → Bool → Prop} {M : Text → Prop} {tfs : List TrxFile}
    (hM : ∀ tf ∈ tfs, ∀ ls, tf.lines = some ls → ModLines tf.env M ls)
    (hQ : ∀ {env f f' ss}, f.hasDDL = false → Chunks env M f f' ss → Q ss f'.hasDDL) :
    ∀ {set set' : TrxSet},
      (∀ n ss, set.statements n = some ss → ∃ b, set.ddl n = some b ∧ Q ss b) →
      loadTrx set tfs = .ok set' →
      ∀ n ss, set'.statements n = some ss → ∃ b, set'.ddl n = some b ∧ Q ss b := by
  induction tfs with
  | nil => intro set set' h0 h; cases h; exact h0
  | cons tf tfs ih =>
    intro set set' h0 h
    simp only [loadTrx] at h
    split at h
    · rename_i set1 h1
      refine ih (fun tf ht => hM tf (by simp [ht])) ?_ h
      obtain ⟨f0, f', ss, h2, h3, h4, h5⟩ := loadFile_chunks (hM tf (by simp)) h1
      intro n ss' hn
      rw [h3] at hn
      rw [h4]
      unfold GoMap.set at hn ⊢
      split at hn
      · rename_i hx
        cases hn
        exact ⟨f'.hasDDL, by rw [if_pos hx], hQ h2 h5⟩
      · rename_i hx
        rw [if_neg hx]
        exact h0 n ss' hn
    · cases h
    · cases h

/-! ### The copy number matters only for queries that have the marker -/

theorem column_copyNo {env : TrxEnv} {f f1 : FileSt} {n : Nat} {col : Text} {k : String} (m : Nat)
    (h : f.column env n col = .ok (f1, k)) :
    FileSt.column env { f with copyNo := m } n col = .ok ({ f1 with copyNo := m }, k) := by
  unfold FileSt.column at h ⊢
  dsimp only at h ⊢
  split at h
  · rename_i hn
    rw [if_pos hn]
    split at h
    · rename_i hk; cases h; rfl
    · rename_i hk; cases h; rfl
  · rename_i hn
    rw [if_neg hn]
    split at h
    · cases h
    · rename_i hk
      try dsimp only
      split at h
      · cases h
      · rename_i g hg
        cases h; rfl

theorem columns_copyNo {env : TrxEnv} {cols : List Text} (m : Nat) : ∀ {f f1 : FileSt} {n : Nat}
    {ks : List String}, f.columns env n cols = .ok (f1, ks) →
    FileSt.columns env { f with copyNo := m } n cols = .ok ({ f1 with copyNo := m }, ks) := by
  induction cols with
  | nil => intro f f1 n ks h; cases h; rfl
  | cons c cs ih =>
    intro f f1 n ks h
    obtain ⟨⟨f2, k⟩, h1, h⟩ := Out.bind_ok h
    obtain ⟨⟨f3, ks'⟩, h2, h⟩ := Out.bind_ok h
    cases Out.pure_ok h
    have e1 := column_copyNo m h1
    have e2 := ih h2
    simp only [FileSt.columns, bind, Out.bind, e1, e2, pure]

theorem modStep_copyNo {env : TrxEnv} {f f1 : FileSt} {s s1 : Stmt} {mod : Text} {c : Option Nat}
    (m : Nat) (h : modStep env f s mod = .ok (f1, s1, c)) :
    modStep env { f with copyNo := m } s mod = .ok ({ f1 with copyNo := m }, s1, c) := by
  unfold modStep at h ⊢
  split at h
  · cases h
  · rename_i m0 ms hf
    dsimp only at h ⊢
    split at h
    · rename_i hx; rw [if_pos hx]; cases h; rfl
    · rename_i hx; rw [if_neg hx]
      split at h
      · rename_i hx; rw [if_pos hx]
        obtain ⟨a, e1, h⟩ := Out.bind_ok h
        obtain ⟨b, e2, h⟩ := Out.bind_ok h
        cases Out.pure_ok h
        simp only [bind, Out.bind, e1, e2, pure]
      · rename_i hx; rw [if_neg hx]
        split at h
        · rename_i hx; rw [if_pos hx]
          obtain ⟨a, e1, h⟩ := Out.bind_ok h
          obtain ⟨b, e2, h⟩ := Out.bind_ok h
          obtain ⟨o, e3, h⟩ := Out.bind_ok h
          obtain ⟨s2, e4, h⟩ := Out.bind_ok h
          cases Out.pure_ok h
          simp only [bind, Out.bind, e1, e2, e3, e4, pure]
        · rename_i hx; rw [if_neg hx]
          split at h
          · rename_i hx; rw [if_pos hx]
            split at h
            · rename_i hl
              obtain ⟨b, e2, h⟩ := Out.bind_ok h
              obtain ⟨s2, e4, h⟩ := Out.bind_ok h
              cases Out.pure_ok h
              simp only [bind, Out.bind, e2, e4, pure]
            · cases h
          · rename_i hx; rw [if_neg hx]
            split at h
            · rename_i hx; rw [if_pos hx]
              split at h
              · cases h
              · rename_i hr; rw [if_neg hr]
                obtain ⟨a, e1, h⟩ := Out.bind_ok h
                obtain ⟨⟨f2, k⟩, e2, h⟩ := Out.bind_ok h
                cases Out.pure_ok h
                have e3 := column_copyNo m e2
                simp only [bind, Out.bind, e1, e3, pure]
            · rename_i hx; rw [if_neg hx]
              split at h
              · rename_i hx; rw [if_pos hx]
                obtain ⟨⟨f2, ks⟩, e2, h⟩ := Out.bind_ok h
                cases Out.pure_ok h
                have e3 := columns_copyNo m e2
                simp only [bind, Out.bind, e3, pure]
              · rename_i hx; rw [if_neg hx]
                split at h
                · rename_i hx; rw [if_pos hx]
                  obtain ⟨a, e1, h⟩ := Out.bind_ok h
                  obtain ⟨b, e2, h⟩ := Out.bind_ok h
                  simp only [bind, Out.bind, e1, e2, pure]
                  split at h
                  · cases h
                  · rename_i hy
                    rw [if_neg hy]
                    split at h
                    · rename_i hz; rw [if_pos hz]; cases Out.pure_ok h; rfl
                    · rename_i hz; rw [if_neg hz]; cases Out.pure_ok h; rfl
                · cases h

theorem modLoop_copyNo {env : TrxEnv} {mods : List Text} (m : Nat) : ∀ {f f1 : FileSt} {s s1 : Stmt}
    {c : Option Nat}, modLoop env f s mods = .ok (f1, s1, c) →
    modLoop env { f with copyNo := m } s mods = .ok ({ f1 with copyNo := m }, s1, c) := by
  induction mods with
  | nil => intro f f1 s s1 c h; cases h; rfl
  | cons x xs ih =>
    intro f f1 s s1 c h
    obtain ⟨⟨f2, s2, c2⟩, h1, h⟩ := Out.bind_ok h
    have e1 := modStep_copyNo m h1
    dsimp only at h
    cases c2 with
    | some n =>
      cases Out.pure_ok h
      simp only [modLoop, bind, Out.bind, e1, pure]
    | none =>
      have e2 := ih h
      simp only [modLoop, bind, Out.bind, e1, e2]

theorem genOf_copyNo {env : TrxEnv} {f f1 : FileSt} {before : List Text} {name : Text} {g : GenInfo}
    (m : Nat) (h : genOf env f before name = .ok (f1, g)) :
    genOf env { f with copyNo := m } before name = .ok ({ f1 with copyNo := m }, g) := by
  unfold genOf at h ⊢
  dsimp only at h ⊢
  split at h
  · rename_i k hk; cases h; rfl
  · rename_i hk
    try dsimp only
    split at h
    · rename_i hx; rw [if_pos hx]
      split at h
      · cases h
      · rename_i hy; rw [if_neg hy]
        split at h
        · cases h
        · rename_i p hp
          try dsimp only
          split at h
          · rename_i k2 hk2; cases h; rfl
          · cases h
    · rename_i hx; rw [if_neg hx]
      split at h
      · rename_i k hk; cases h; rfl
      · rename_i hk
        try dsimp only
        split at h
        · cases h
        · rename_i cfg hcfg
          try dsimp only
          split at h
          · cases h
          · rename_i g' hg'
            cases h; rfl

theorem keyLoop_copyNo {env : TrxEnv} {p : Bool} {names : List Text} (m : Nat) : ∀ {f f1 : FileSt}
    {before : List Text} {fmts fmts1 : List (Text × Text)},
    keyLoop env p f before fmts names = .ok (f1, fmts1) →
    keyLoop env p { f with copyNo := m } before fmts names = .ok ({ f1 with copyNo := m }, fmts1) := by
  induction names with
  | nil => intro f f1 before fmts fmts1 h; cases h; rfl
  | cons x xs ih =>
    intro f f1 before fmts fmts1 h
    obtain ⟨⟨f2, g⟩, h1, h⟩ := Out.bind_ok h
    have e1 := genOf_copyNo m h1
    have e2 := ih h
    simp only [keyLoop, bind, Out.bind, e1, e2]

theorem finish_copyNo {env : TrxEnv} {f f1 : FileSt} {s s1 : Stmt} {q : Text} (m : Nat)
    (hq : ¬ copyNumber <:+: q) (h : finish env f s q = .ok (f1, s1)) :
    finish env { f with copyNo := m } s q = .ok ({ f1 with copyNo := m }, s1) := by
  unfold finish at h ⊢
  dsimp only at h ⊢
  rw [replaceAll_absent _ hq] at h ⊢
  obtain ⟨⟨d, q2⟩, h1, h⟩ := Out.bind_ok h
  dsimp only at h
  simp only [bind, Out.bind, h1]
  split at h
  · rename_i hx
    rw [if_pos hx]
    cases Out.pure_ok h; rfl
  · rename_i hx
    rw [if_neg hx]
    obtain ⟨⟨f2, fm⟩, h2, h⟩ := Out.bind_ok h
    cases Out.pure_ok h
    have e2 := keyLoop_copyNo m h2
    dsimp only at e2
    simp only [e2, pure]

/-! ### Copies that share a prepared statement -/

/-- Spec: a statement that is prepared for `n` has `n - 1` statements after it with the same query. -/
def MultiOk (ss : List Stmt) : Prop :=
  ∀ (k : Nat) st, ss[k]? = some st → ∀ j, j < st.prepareMulti →
    ∃ st', ss[k + j]? = some st' ∧ st'.query = st.query ∧ st'.prepare = st.prepare

theorem MultiOk.append {a b : List Stmt} (ha : MultiOk a) (hb : MultiOk b) : MultiOk (a ++ b) := by
  intro k st hk j hj
  by_cases hlt : k < a.length
  · rw [List.getElem?_append_left hlt] at hk
    obtain ⟨st', h1, h2⟩ := ha k st hk j hj
    have : k + j < a.length := by
      by_contra hge
      rw [List.getElem?_eq_none (by omega)] at h1
      cases h1
    exact ⟨st', by rw [List.getElem?_append_left this]; exact h1, h2⟩
  · rw [List.getElem?_append_right (by omega)] at hk
    obtain ⟨st', h1, h2⟩ := hb _ st hk j hj
    refine ⟨st', ?_, h2⟩
    rw [List.getElem?_append_right (by omega)]
    rw [show k + j - a.length = k - a.length + j by omega]
    exact h1

theorem MultiOk.of_zero {ss : List Stmt} (h : ∀ s ∈ ss, s.prepareMulti = 0) : MultiOk ss := by
  intro k st hk j hj
  rw [h st (List.mem_of_getElem? hk)] at hj
  omega

theorem modLoop_multi {env : TrxEnv} {f f1 : FileSt} {s s1 : Stmt} {mods : List Text} {c : Option Nat}
    (h : modLoop env f s mods = .ok (f1, s1, c)) :
    s1.prepareMulti = s.prepareMulti ∧ s1.ddl = s.ddl := by
  induction mods generalizing f s with
  | nil => cases h; exact ⟨rfl, rfl⟩
  | cons x xs ih =>
    obtain ⟨⟨f2, s2, c2⟩, h1, h⟩ := Out.bind_ok h
    have e : s2.prepareMulti = s.prepareMulti ∧ s2.ddl = s.ddl := by
      unfold modStep at h1
      split at h1
      · cases h1
      · dsimp only at h1
        have hadd : ∀ {s s' : Stmt} {m : LimitMod}, addLimit s m = .ok s' →
            s'.prepareMulti = s.prepareMulti ∧ s'.ddl = s.ddl := by
          intro s s' m h
          unfold addLimit at h
          split at h
          · cases h; exact ⟨rfl, rfl⟩
          · cases h
        split at h1
        · cases h1; exact ⟨rfl, rfl⟩
        · split at h1
          · obtain ⟨a, -, h1⟩ := Out.bind_ok h1
            obtain ⟨b, -, h1⟩ := Out.bind_ok h1
            cases Out.pure_ok h1; exact ⟨rfl, rfl⟩
          · split at h1
            · obtain ⟨a, -, h1⟩ := Out.bind_ok h1
              obtain ⟨b, -, h1⟩ := Out.bind_ok h1
              obtain ⟨o, -, h1⟩ := Out.bind_ok h1
              obtain ⟨s3, e4, h1⟩ := Out.bind_ok h1
              cases Out.pure_ok h1
              exact hadd e4
            · split at h1
              · split at h1
                · obtain ⟨b, -, h1⟩ := Out.bind_ok h1
                  obtain ⟨s3, e4, h1⟩ := Out.bind_ok h1
                  cases Out.pure_ok h1
                  exact hadd e4
                · cases h1
              · split at h1
                · split at h1
                  · cases h1
                  · obtain ⟨a, -, h1⟩ := Out.bind_ok h1
                    obtain ⟨b, -, h1⟩ := Out.bind_ok h1
                    cases Out.pure_ok h1; exact ⟨rfl, rfl⟩
                · split at h1
                  · obtain ⟨a, -, h1⟩ := Out.bind_ok h1
                    cases Out.pure_ok h1; exact ⟨rfl, rfl⟩
                  · split at h1
                    · obtain ⟨a, -, h1⟩ := Out.bind_ok h1
                      obtain ⟨b, -, h1⟩ := Out.bind_ok h1
                      split at h1
                      · cases h1
                      · split at h1
                        · cases Out.pure_ok h1; exact ⟨rfl, rfl⟩
                        · cases Out.pure_ok h1; exact ⟨rfl, rfl⟩
                    · cases h1
    dsimp only at h
    cases c2 with
    | some n => cases Out.pure_ok h; exact e
    | none => exact ⟨(ih h).1.trans e.1, (ih h).2.trans e.2⟩

theorem finish_multi {env : TrxEnv} {f f1 : FileSt} {s s1 : Stmt} {q : Text}
    (h : finish env f s q = .ok (f1, s1)) :
    s1.prepareMulti = s.prepareMulti ∧ s1.prepare = s.prepare ∧ s1.ddl = s.ddl ∧
      s1.outputs = s.outputs := by
  unfold finish at h
  dsimp only at h
  obtain ⟨⟨d, q2⟩, -, h⟩ := Out.bind_ok h
  dsimp only at h
  split at h
  · cases Out.pure_ok h; exact ⟨rfl, rfl, rfl, rfl⟩
  · obtain ⟨⟨f2, fm⟩, -, h⟩ := Out.bind_ok h
    cases Out.pure_ok h; exact ⟨rfl, rfl, rfl, rfl⟩

theorem statements_multi {env : TrxEnv} {fuel : Nat} {f f1 : FileSt} {c : List Stmt}
    (h : statements env fuel f = .ok (f1, c)) : MultiOk c := by
  cases fuel with
  | zero => cases h
  | succ fuel =>
    unfold statements at h
    obtain ⟨⟨f2, s2, cc⟩, h1, h⟩ := Out.bind_ok h
    dsimp only at h
    cases cc with
    | none =>
      obtain ⟨⟨f3, s3⟩, h2, h⟩ := Out.bind_ok h
      cases Out.pure_ok h
      refine MultiOk.of_zero (fun s hs => ?_)
      rw [List.mem_singleton.mp hs, (finish_multi h2).1, (modLoop_multi h1).1]
      rfl
    | some n =>
      cases n with
      | zero => cases Out.pure_ok h; exact MultiOk.of_zero (by simp)
      | succ n =>
        obtain ⟨⟨f3, ss⟩, h2, h⟩ := Out.bind_ok h
        cases Out.pure_ok h
        have hk : ∀ m ∈ f2.mods.filter keepInCopies, keepInCopies m = true :=
          fun m hm => (List.mem_filter.mp hm).2
        have hfr := modLoop_frame h1
        have hstr : f2.str = f.str := hfr.str
        have hmods : f2.mods = f.mods := hfr.mods
        generalize hg : ({ f2 with mods := f2.mods.filter keepInCopies, stmtNo := f2.stmtNo - 1 } : FileSt)
          = g at h2
        have hgm : g.mods = f2.mods.filter keepInCopies := by rw [← hg]
        have hgs : g.str = f.str := by rw [← hg]; exact hstr
        obtain ⟨hlen, heach⟩ := copyLoop_each (f0 := g) (f := g) rfl
          (fun n => .refl _ _) (by rw [hgm]; exact hk) h2
        have hone : ∀ j, j < n + 1 → ∃ s f4 f5 s5, ss[j]? = some s ∧
            modLoop env (FileSt.prep env { g with copyNo := j + 1 })
              (classify env.trx (trimSpace g.str)) g.mods = .ok (f4, s5, none) ∧
            finish env f4 s5 (trimSpace g.str) = .ok (f5, s) := by
          intro j hj
          obtain ⟨f4, s, e1, e2⟩ := heach j hj
          have e3 := e2 0
          simp only [Nat.zero_add] at e3
          obtain ⟨-, f5, s5, e4, e5⟩ := statements_one (f := { g with copyNo := j + 1 })
            (by show ∀ m ∈ g.mods, _; rw [hgm]; exact hk) e3
          have e4' : modLoop env (FileSt.prep env { g with copyNo := j + 1 })
              (classify env.trx (trimSpace g.str)) g.mods = .ok (f5, s5, none) := e4
          have e5' : finish env f5 s5 (trimSpace g.str) = .ok (f4, s) := e5
          exact ⟨s, f5, f4, s5, e1, e4', e5'⟩
        have hzero : ∀ s ∈ ss, s.prepareMulti = 0 := by
          intro s hs
          obtain ⟨j, hj⟩ := List.mem_iff_getElem?.mp hs
          have hjl : j < n + 1 := by
            by_contra hge
            rw [List.getElem?_eq_none (by omega)] at hj
            cases hj
          obtain ⟨s', f4, f5, s5, e1, e2, e3⟩ := hone j hjl
          rw [hj] at e1; cases e1
          rw [(finish_multi e3).1, (modLoop_multi e2).1]; rfl
        by_cases hpo : prepareOnce (trimSpace f.str) f2.mods = true
        · rw [if_pos hpo]
          have hmark : ¬ copyNumber <:+: trimSpace g.str := by
            rw [hgs]; exact ((C33_prepare_once _ _).mp hpo).2
          -- all copies are the same statement
          obtain ⟨s0, f40, f50, s50, e10, e20, e30⟩ := hone 0 (by omega)
          have hsame : ∀ j, j < n + 1 → ss[j]? = some s0 := by
            intro j hj
            obtain ⟨s, f4, f5, s5, e1, e2, e3⟩ := hone j hj
            have a1 := modLoop_copyNo (j + 1) e20
            have a1' : modLoop env (FileSt.prep env { g with copyNo := j + 1 })
              (classify env.trx (trimSpace g.str)) g.mods =
                .ok ({ f40 with copyNo := j + 1 }, s50, none) := a1
            rw [a1'] at e2
            cases e2
            have a2 := finish_copyNo (j + 1) hmark e30
            rw [a2] at e3
            cases e3
            exact e1
          cases ss with
          | nil => simp at hlen
          | cons x xs =>
            have hx : x = s0 := by simpa using hsame 0 (by omega)
            intro k st hst j hj
            cases k with
            | zero =>
              simp only [setPrepareMulti, List.getElem?_cons_zero, Option.some.injEq] at hst
              subst hst
              dsimp only at hj
              cases j with
              | zero => exact ⟨_, rfl, rfl, rfl⟩
              | succ j =>
                have := hsame (j + 1) hj
                refine ⟨s0, ?_, by rw [hx], by rw [hx]⟩
                simpa [setPrepareMulti] using this
            | succ k =>
              simp only [setPrepareMulti, List.getElem?_cons_succ] at hst
              rw [hzero st (List.mem_cons_of_mem _ (List.mem_of_getElem? hst))] at hj
              omega
        · rw [if_neg hpo]
          exact MultiOk.of_zero hzero

/-- In every loaded trx, statements that share a prepared statement have the same query. -/
theorem loaded_multi {tfs : List TrxFile} {set' : TrxSet} {keys : GoMap String TKey}
    (h : loadTrx ⟨[], GoMap.empty, GoMap.empty, keys⟩ tfs = .ok set') (n : String)
    (ss : List Stmt) (hn : set'.statements n = some ss) : MultiOk ss := by
  obtain ⟨_, -, h⟩ := loadTrx_lift (Q := fun ss _ => MultiOk ss) (M := fun _ => True)
    (fun _ _ _ _ _ _ _ _ => trivial) (fun h0 hc => by
      clear h0
      induction hc with
      | nil _ _ _ => exact MultiOk.of_zero (by simp)
      | cons _ _ h1 _ ih => exact (statements_multi h1).append ih) (by intro n ss h; cases h) h n ss hn
  exact h

/-! ### C76: the DDL flag of a trx -/

theorem modLoop_zero {env : TrxEnv} {mods : List Text} {f f1 : FileSt} {s s1 : Stmt}
    (h : modLoop env f s mods = .ok (f1, s1, some 0)) : ∃ m ∈ mods, IsCopies m 0 := by
  induction mods generalizing f s with
  | nil => cases h
  | cons x xs ih =>
    obtain ⟨⟨f2, s2, c2⟩, h1, h⟩ := Out.bind_ok h
    dsimp only at h
    cases c2 with
    | none =>
      obtain ⟨m, h2, h3⟩ := ih h
      exact ⟨m, by simp [h2], h3⟩
    | some n =>
      cases Out.pure_ok h
      refine ⟨x, by simp, ?_⟩
      have hc := modStep_cOf h1
      unfold cOf at hc
      split at hc
      · rename_i m0 num rest hf
        split at hc
        · rename_i hn
          split at hc
          · rename_i v hv
            split at hc
            · cases hc
            · have hneg : ¬ v < 0 := by
                intro hlt
                unfold modStep at h1
                rw [hf] at h1
                dsimp only at h1
                rw [hn, if_neg (by decide), if_neg (by decide), if_neg (by decide),
                  if_neg (by decide), if_neg (by decide), if_neg (by decide), if_pos rfl] at h1
                simp only [field1, bind, Out.bind, hv, Out.ofOption] at h1
                rw [if_pos hlt] at h1
                cases h1
              have hv0 : v = 0 := by
                simp only [Option.some.injEq] at hc
                omega
              refine ⟨?_, num, by rw [hf]; rfl, by rw [hv, hv0]⟩
              unfold modName
              rw [hf]
              simp [hn]
          · cases hc
        · cases hc
      · cases hc

/-- What a parsed block says about DDL. -/
theorem statements_ddl {env : TrxEnv} {fuel : Nat} {f f1 : FileSt} {c : List Stmt}
    (h : statements env fuel f = .ok (f1, c)) :
    f1.hasDDL = (f.hasDDL || (classify env.trx (trimSpace f.str)).ddl) ∧
    (∀ s ∈ c, s.ddl = (classify env.trx (trimSpace f.str)).ddl) ∧
    (c = [] → ∃ m ∈ f.mods, IsCopies m 0) := by
  induction fuel generalizing f f1 c with
  | zero => cases h
  | succ fuel ih =>
    unfold statements at h
    obtain ⟨⟨f2, s2, cc⟩, h1, h⟩ := Out.bind_ok h
    have hfr := modLoop_frame h1
    have hd : f2.hasDDL = (f.hasDDL || (classify env.trx (trimSpace f.str)).ddl) := hfr.hasDDL
    dsimp only at h
    cases cc with
    | none =>
      obtain ⟨⟨f3, s3⟩, h2, h⟩ := Out.bind_ok h
      cases Out.pure_ok h
      refine ⟨(finish_frame h2).hasDDL.trans hd, fun s hs => ?_, by simp⟩
      rw [List.mem_singleton.mp hs, (finish_multi h2).2.2.1, (modLoop_multi h1).2]
    | some n =>
      cases n with
      | zero =>
        cases Out.pure_ok h
        exact ⟨hd, by simp, fun _ => modLoop_zero h1⟩
      | succ n =>
        obtain ⟨⟨f3, ss⟩, h2, h⟩ := Out.bind_ok h
        cases Out.pure_ok h
        have hloop : ∀ (k : Nat) {g g' : FileSt} {i : Nat} {ss : List Stmt}, g.str = f.str →
            g.mods = f2.mods.filter keepInCopies →
            copyLoop (statements env fuel) g i k = .ok (g', ss) →
            (g'.hasDDL = g.hasDDL ∨
              g'.hasDDL = (g.hasDDL || (classify env.trx (trimSpace f.str)).ddl)) ∧
            (∀ s ∈ ss, s.ddl = (classify env.trx (trimSpace f.str)).ddl) ∧ ss.length = k := by
          intro k
          induction k with
          | zero => intro g g' i ss _ _ h; cases h; exact ⟨Or.inl rfl, by simp, rfl⟩
          | succ k ihk =>
            intro g g' i ss hs hm h
            obtain ⟨⟨g2, ms⟩, h3, h⟩ := Out.bind_ok h
            dsimp only at h
            cases ms with
            | nil => cases h
            | cons s rest =>
              obtain ⟨⟨g4, ss'⟩, h4, h⟩ := Out.bind_ok h
              cases Out.pure_ok h
              obtain ⟨a1, a2, -⟩ := ih h3
              obtain ⟨-, f5, s5, e4, e5⟩ := statements_one (f := { g with copyNo := i + 1 })
                (by show ∀ m ∈ g.mods, _; rw [hm]; exact fun m hm => (List.mem_filter.mp hm).2) h3
              have b1 : g2.str = f.str :=
                ((finish_frame e5).str.trans (modLoop_frame e4).str).trans hs
              have b2 : g2.mods = f2.mods.filter keepInCopies :=
                ((finish_frame e5).mods.trans (modLoop_frame e4).mods).trans hm
              obtain ⟨c1, c2, c3⟩ := ihk b1 b2 h4
              have a1' : g2.hasDDL = (g.hasDDL || (classify env.trx (trimSpace f.str)).ddl) := by
                rw [a1]
                show (g.hasDDL || (classify env.trx (trimSpace g.str)).ddl) = _
                rw [hs]
              refine ⟨Or.inr ?_, ?_, by simp [c3]⟩
              · rcases c1 with c1 | c1
                · rw [c1, a1']
                · rw [c1, a1']
                  cases g.hasDDL <;> cases (classify env.trx (trimSpace f.str)).ddl <;> rfl
              · intro x hx
                rcases List.mem_cons.mp hx with hx | hx
                · subst hx
                  have := a2 x (by simp)
                  rw [this]
                  show (classify env.trx (trimSpace g.str)).ddl = _
                  rw [hs]
                · exact c2 x hx
        obtain ⟨d1, d2, d3⟩ := hloop (n + 1)
          (g := { f2 with mods := f2.mods.filter keepInCopies, stmtNo := f2.stmtNo - 1 })
          hfr.str rfl h2
        refine ⟨?_, ?_, ?_⟩
        · show f3.hasDDL = _
          have d1' : f3.hasDDL = f2.hasDDL ∨
            f3.hasDDL = (f2.hasDDL || (classify env.trx (trimSpace f.str)).ddl) := d1
          rcases d1' with d | d
          · rw [d, hd]
          · rw [d, hd]
            cases f.hasDDL <;> cases (classify env.trx (trimSpace f.str)).ddl <;> rfl
        · split
          · cases ss with
            | nil => simp [setPrepareMulti]
            | cons x xs =>
              intro s hs
              rcases List.mem_cons.mp hs with hs | hs
              · rw [hs]; exact d2 x (by simp)
              · exact d2 s (by simp [hs])
          · exact d2
        · intro he
          exfalso
          split at he
          · cases ss with
            | nil => simp at d3
            | cons x xs => simp [setPrepareMulti] at he
          · have he : ss = [] := he
            rw [he] at d3; simp at d3

theorem chunks_ddl_set {env : TrxEnv} {M : Text → Prop} {f f' : FileSt} {ss : List Stmt}
    (h : Chunks env M f f' ss) :
    (f.hasDDL = true → f'.hasDDL = true) ∧ ((∃ s ∈ ss, s.ddl = true) → f'.hasDDL = true) := by
  induction h with
  | nil _ _ h => exact ⟨fun h' => by rw [h, h'], by rintro ⟨_, h, _⟩; cases h⟩
  | cons hg _ h1 _ ih =>
    obtain ⟨a1, a2, -⟩ := statements_ddl h1
    refine ⟨fun h' => ih.1 (by rw [a1, hg, h']; rfl), ?_⟩
    rintro ⟨s, hs, hd⟩
    rcases List.mem_append.mp hs with hs | hs
    · refine ih.1 ?_
      rw [a1, ← a2 s hs, hd]
      cases FileSt.hasDDL _ <;> rfl
    · exact ih.2 ⟨s, hs, hd⟩

/-- **C76.** A loaded trx that has a DDL statement is marked as DDL. -/
theorem C76_ddl_marked {tfs : List TrxFile} {set' : TrxSet}
    (h : loadTrx ⟨[], GoMap.empty, GoMap.empty, GoMap.empty⟩ tfs = .ok set') (n : String)
    (ss : List Stmt) (hn : set'.statements n = some ss) (hs : ∃ s ∈ ss, s.ddl = true) :
    set'.ddl n = some true := by
  obtain ⟨b, h1, h2⟩ := loadTrx_lift
    (Q := fun ss b => (∃ s ∈ ss, s.ddl = true) → b = true) (M := fun _ => True)
    (fun _ _ _ _ _ _ _ _ => trivial) (fun _ hc => (chunks_ddl_set hc).2)
    (by intro n ss h; cases h) h n ss hn
  rw [h1, h2 hs]

/-- **C76.** A loaded trx that is marked as DDL has a DDL statement, if no statement is removed with
`copies: 0`. With `copies: 0` it is false (`C76_removed_ddl_false`). -/
theorem C76_only_ddl_marked_partial {tfs : List TrxFile} {set' : TrxSet}
    (hM : ∀ tf ∈ tfs, ∀ ls, tf.lines = some ls → ModLines tf.env (fun m => ¬ IsCopies m 0) ls)
    (h : loadTrx ⟨[], GoMap.empty, GoMap.empty, GoMap.empty⟩ tfs = .ok set') (n : String)
    (ss : List Stmt) (hn : set'.statements n = some ss) (hs : set'.ddl n = some true) :
    ∃ s ∈ ss, s.ddl = true := by
  have key : ∀ {env f f' ss}, Chunks env (fun m => ¬ IsCopies m 0) f f' ss →
      f'.hasDDL = true → f.hasDDL = true ∨ ∃ s ∈ ss, s.ddl = true := by
    intro env f f' ss hc
    induction hc with
    | nil _ _ h => exact fun h' => Or.inl (by rw [← h, h'])
    | cons hg hm h1 _ ih =>
      rename_i f g f1 f' c ss _
      intro h'
      obtain ⟨a1, a2, a3⟩ := statements_ddl h1
      rcases ih h' with h2 | ⟨s, h2, h3⟩
      · rw [a1, hg, Bool.or_eq_true] at h2
        rcases h2 with h2 | h2
        · exact Or.inl h2
        · right
          cases hc : c with
          | nil =>
            obtain ⟨m, hm1, hm2⟩ := a3 hc
            exact absurd hm2 (hm m hm1)
          | cons x xs =>
            refine ⟨x, by simp, ?_⟩
            rw [a2 x (by simp [hc]), h2]
      · exact Or.inr ⟨s, List.mem_append_right _ h2, h3⟩
  obtain ⟨b, h1, h2⟩ := loadTrx_lift
    (Q := fun ss b => b = true → ∃ s ∈ ss, s.ddl = true) (M := fun m => ¬ IsCopies m 0) hM
    (fun h0 hc h' => by
      rcases key hc h' with h | h
      · rw [h0] at h; cases h
      · exact h)
    (by intro n ss h; cases h) h n ss hn
  rw [h1] at hs
  cases hs
  exact h2 rfl

/-- A file with a statement and a DDL statement that is removed. -/
def removedDdl : TrxFile :=
  { env := demoEnv, data := demoData
    lines := some (["SELECT @d", "", "-- copies: 0", "CREATE TABLE t (a INT)"].map String.toList) }

/-- **C76 is false with `copies: 0`**: the trx is marked as DDL without a DDL statement. -/
theorem C76_removed_ddl_false :
    ∃ set', loadTrx ⟨[], GoMap.empty, GoMap.empty, GoMap.empty⟩ [removedDdl] = .ok set' ∧
      set'.ddl demoEnv.trx = some true ∧
      ∃ ss, set'.statements demoEnv.trx = some ss ∧ ∀ s ∈ ss, s.ddl = false := by
  have h : (match loadTrx ⟨[], GoMap.empty, GoMap.empty, GoMap.empty⟩ [removedDdl] with
    | .ok set' => decide (set'.ddl demoEnv.trx = some true) &&
        (match set'.statements demoEnv.trx with
        | some ss => ss.all (fun s => !s.ddl)
        | none => false)
    | _ => false) = true := by decide +kernel
  split at h
  · rename_i set' hs
    simp only [Bool.and_eq_true, decide_eq_true_eq] at h
    refine ⟨set', hs, h.1, ?_⟩
    have h2 := h.2
    split at h2
    · rename_i ss hss
      refine ⟨ss, hss, fun s hs => ?_⟩
      simpa using List.all_eq_true.mp h2 s hs
    · cases h2
  · cases h

/-! ### C77: saved columns -/

/-- Spec: the name written for a column: without a comma at its end. -/
def colName (col : Text) : String := String.ofList (trimSpace (trimSuffix [','] col))

/-- Spec: the names a modifier saves, in the order written. -/
def savedBy (m : Text) : List String :=
  if modName m = some "save-columns".toList then (fields m).tail.map colName
  else if modName m = some "save-insert-id".toList then ((fields m)[1]?.map colName).toList
  else []

theorem column_name {env : TrxEnv} {f f1 : FileSt} {n : Nat} {col : Text} {k : String}
    (h : f.column env n col = .ok (f1, k)) : k = colName col := by
  unfold FileSt.column at h
  dsimp only at h
  split at h
  · rename_i hn
    split at h
    · cases h; exact hn.symm
    · cases h; exact hn.symm
  · split at h
    · cases h
    · split at h
      · cases h
      · cases h; rfl

theorem columns_names {env : TrxEnv} {cols : List Text} : ∀ {f f1 : FileSt} {n : Nat}
    {ks : List String}, f.columns env n cols = .ok (f1, ks) → ks = cols.map colName := by
  induction cols with
  | nil => intro f f1 n ks h; cases h; rfl
  | cons c cs ih =>
    intro f f1 n ks h
    obtain ⟨⟨f2, k⟩, h1, h⟩ := Out.bind_ok h
    obtain ⟨⟨f3, ks'⟩, h2, h⟩ := Out.bind_ok h
    cases Out.pure_ok h
    rw [column_name h1, ih h2]; rfl

theorem modStep_outputs {env : TrxEnv} {f f1 : FileSt} {s s1 : Stmt} {mod : Text} {c : Option Nat}
    (h : modStep env f s mod = .ok (f1, s1, c)) : s1.outputs = s.outputs ++ savedBy mod := by
  unfold modStep at h
  unfold savedBy modName
  split at h
  · cases h
  · rename_i m0 ms hf
    rw [hf]
    have hadd : ∀ {s s' : Stmt} {m : LimitMod}, addLimit s m = .ok s' → s'.outputs = s.outputs := by
      intro s s' m h
      unfold addLimit at h
      split at h
      · cases h; rfl
      · cases h
    dsimp only at h
    simp only [List.head?_cons, Option.map_some, Option.some.injEq, List.tail_cons]
    generalize hn : trim (fun x => x == ':') m0 = name at h ⊢
    split at h
    · rename_i hx
      cases h
      rw [if_neg (by rcases hx with rfl | rfl <;> decide), if_neg (by rcases hx with rfl | rfl <;> decide)]
      simp
    · split at h
      · rename_i hx
        obtain ⟨a, -, h⟩ := Out.bind_ok h
        obtain ⟨b, -, h⟩ := Out.bind_ok h
        cases Out.pure_ok h
        rw [if_neg (by rw [hx]; decide), if_neg (by rw [hx]; decide)]
        simp
      · split at h
        · rename_i hx
          obtain ⟨a, -, h⟩ := Out.bind_ok h
          obtain ⟨b, -, h⟩ := Out.bind_ok h
          obtain ⟨o, -, h⟩ := Out.bind_ok h
          obtain ⟨s3, e4, h⟩ := Out.bind_ok h
          cases Out.pure_ok h
          rw [if_neg (by rw [hx]; decide), if_neg (by rw [hx]; decide), hadd e4]
          simp
        · split at h
          · rename_i hx
            split at h
            · obtain ⟨b, -, h⟩ := Out.bind_ok h
              obtain ⟨s3, e4, h⟩ := Out.bind_ok h
              cases Out.pure_ok h
              rw [if_neg (by rcases hx with rfl | rfl <;> decide),
                if_neg (by rcases hx with rfl | rfl <;> decide), hadd e4]
              simp
            · cases h
          · split at h
            · rename_i hx
              split at h
              · cases h
              · obtain ⟨a, e1, h⟩ := Out.bind_ok h
                obtain ⟨⟨f2, k⟩, e2, h⟩ := Out.bind_ok h
                cases Out.pure_ok h
                rw [if_neg (by rw [hx]; decide), if_pos hx]
                cases ms with
                | nil => cases e1
                | cons y ys =>
                  cases e1
                  simp [column_name e2]
            · split at h
              · rename_i hx
                obtain ⟨⟨f2, ks⟩, e2, h⟩ := Out.bind_ok h
                cases Out.pure_ok h
                rw [if_pos hx, columns_names e2]
              · split at h
                · rename_i hx
                  obtain ⟨a, -, h⟩ := Out.bind_ok h
                  obtain ⟨b, -, h⟩ := Out.bind_ok h
                  rw [if_neg (by rw [hx]; decide), if_neg (by rw [hx]; decide), List.append_nil]
                  split at h
                  · cases h
                  · split at h
                    · cases Out.pure_ok h; rfl
                    · cases Out.pure_ok h; rfl
                · cases h

theorem modLoop_outputs {env : TrxEnv} {mods : List Text} {f f1 : FileSt} {s s1 : Stmt}
    (h : modLoop env f s mods = .ok (f1, s1, none)) :
    s1.outputs = s.outputs ++ mods.flatMap savedBy := by
  induction mods generalizing f s with
  | nil => cases h; simp
  | cons x xs ih =>
    obtain ⟨⟨f2, s2, c2⟩, h1, h⟩ := Out.bind_ok h
    dsimp only at h
    cases c2 with
    | some n => cases Out.pure_ok h
    | none =>
      rw [ih h, modStep_outputs h1, List.flatMap_cons, List.append_assoc]

theorem trim_colon_head {x : Char} {t : Text} (hx : x ≠ ':') :
    (trim (fun x => x == ':') (x :: t)).head? = some x := by
  have hx' : (x == ':') = false := by simpa using hx
  unfold trim trimRight
  simp only [List.dropWhile_cons, hx', Bool.false_eq_true, if_false, List.reverse_cons]
  induction t.reverse with
  | nil => simp [hx]
  | cons y ys ih =>
    simp only [List.cons_append, List.dropWhile_cons]
    split
    · exact ih
    · simp

theorem fieldsAux_nil (a : Char) (b : Text) : fieldsAux (a :: b) [] = [a :: b] := rfl

theorem fieldsAux_cons (a : Char) (b : Text) (c : Char) (cs : Text) :
    fieldsAux (a :: b) (c :: cs) =
      if isSpace c then (if (a :: b) = [] then fieldsAux [] cs else (a :: b) :: fieldsAux [] cs)
      else fieldsAux (a :: (b ++ [c])) cs := rfl

theorem fieldsAux_head (cs : Text) : ∀ (a : Char) (b : Text),
    ∃ t rest, fieldsAux (a :: b) cs = (a :: (b ++ t)) :: rest := by
  induction cs with
  | nil =>
    intro a b
    refine Exists.intro [] (Exists.intro [] ?_)
    rw [fieldsAux_nil, List.append_nil]
  | cons c cs ih =>
    intro a b
    rw [fieldsAux_cons]
    split
    · rw [if_neg (by simp)]
      exact Exists.intro [] (Exists.intro _ (by rw [List.append_nil]))
    · obtain ⟨t, rest, h⟩ := ih a (b ++ [c])
      exact Exists.intro (c :: t) (Exists.intro rest (by rw [h]; simp))

theorem savedBy_copies {m : Text} (h : keepInCopies m = false) : savedBy m = [] := by
  unfold keepInCopies at h
  simp only [Bool.not_eq_false', List.isPrefixOf_iff_prefix] at h
  obtain ⟨t, rfl⟩ := h
  have hf : ∃ u rest, fields ("copies".toList ++ t) = ('c' :: u) :: rest := by
    obtain ⟨u, rest, h⟩ := fieldsAux_head ("opies".toList ++ t) 'c' []
    refine ⟨u, rest, ?_⟩
    have h' : fieldsAux ['c'] ("opies".toList ++ t) = ('c' :: u) :: rest := h
    rw [← h']
    rfl
  obtain ⟨u, rest, hf⟩ := hf
  unfold savedBy modName
  rw [hf]
  simp only [List.head?_cons, Option.map_some, Option.some.injEq]
  have hh := trim_colon_head (x := 'c') (t := u) (by decide)
  rw [if_neg, if_neg]
  · intro he; rw [he] at hh; revert hh; decide
  · intro he; rw [he] at hh; revert hh; decide

theorem flatMap_savedBy_filter (mods : List Text) :
    (mods.filter keepInCopies).flatMap savedBy = mods.flatMap savedBy := by
  induction mods with
  | nil => rfl
  | cons m ms ih =>
    rw [List.filter_cons]
    split
    · rw [List.flatMap_cons, List.flatMap_cons, ih]
    · rename_i h
      rw [List.flatMap_cons, savedBy_copies (by simpa using h), ih, List.nil_append]

/-- **C77.** The columns that a statement saves are those its modifiers name, in the order in which
they are written: the column of the result set with number `i` is saved into the `i`-th. The same for
each copy of the statement. -/
theorem C77_saved_in_order (env : TrxEnv) (f f1 : FileSt) (c : List Stmt)
    (h : FileSt.statements env f = .ok (f1, c)) :
    ∀ s ∈ c, s.outputs = f.mods.flatMap savedBy := by
  unfold FileSt.statements at h
  unfold statements at h
  obtain ⟨⟨f2, s2, cc⟩, h1, h⟩ := Out.bind_ok h
  have hfr := modLoop_frame h1
  dsimp only at h
  cases cc with
  | none =>
    obtain ⟨⟨f3, s3⟩, h2, h⟩ := Out.bind_ok h
    cases Out.pure_ok h
    intro s hs
    rw [List.mem_singleton.mp hs, (finish_multi h2).2.2.2, modLoop_outputs h1]
    rfl
  | some n =>
    cases n with
    | zero => cases Out.pure_ok h; simp
    | succ n =>
      obtain ⟨⟨f3, ss⟩, h2, h⟩ := Out.bind_ok h
      cases Out.pure_ok h
      have hmods : f2.mods = f.mods := hfr.mods
      have hall : ∀ s ∈ ss, s.outputs = f.mods.flatMap savedBy := by
        obtain ⟨hlen, heach⟩ := copyLoop_each
          (f0 := { f2 with mods := f2.mods.filter keepInCopies, stmtNo := f2.stmtNo - 1 })
          (f := { f2 with mods := f2.mods.filter keepInCopies, stmtNo := f2.stmtNo - 1 }) rfl
          (fun n => .refl _ _) (fun m hm => (List.mem_filter.mp hm).2) h2
        intro s hs
        obtain ⟨j, hj⟩ := List.mem_iff_getElem?.mp hs
        have hjl : j < n + 1 := by
          by_contra hge
          rw [List.getElem?_eq_none (by omega)] at hj
          cases hj
        obtain ⟨f4, s', e1, e2⟩ := heach j hjl
        rw [hj] at e1
        cases e1
        obtain ⟨-, f5, s5, e4, e5⟩ := statements_one (fun m hm => (List.mem_filter.mp hm).2) (e2 0)
        rw [(finish_multi e5).2.2.2, modLoop_outputs e4]
        show [] ++ (f2.mods.filter keepInCopies).flatMap savedBy = _
        rw [flatMap_savedBy_filter, hmods]
        rfl
      intro s hs
      split at hs
      · cases ss with
        | nil => cases hs
        | cons x xs =>
          rcases List.mem_cons.mp hs with hs | hs
          · rw [hs]; exact hall x (by simp)
          · exact hall s (by simp [hs])
      · exact hall s hs

example : (["save-columns: @a, @b".toList, "copies: 2".toList].flatMap savedBy) = ["@a", "@b"] := by
  decide +kernel

end Finch
