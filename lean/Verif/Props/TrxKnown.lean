import Verif.Props.TrxSet
/-!
The data keys of loaded trx files: there are finitely many, and what a statement saves is a column. Used by
C114.
-/
namespace Finch

/-- Finitely many keys. -/
def FinKeys (keys : GoMap String TKey) : Prop := ∃ l : List String, ∀ k, keys k ≠ none → k ∈ l

/-- A saved column. -/
def ColKey (keys : GoMap String TKey) (o : String) : Prop :=
  o = noopCol ∨ ∃ v, keys o = some v ∧ 0 ≤ v.column

/-- What a statement saves are saved columns. -/
def OutOk (keys : GoMap String TKey) (s : Stmt) : Prop := ∀ o ∈ s.outputs, ColKey keys o

def Grow (k1 k2 : GoMap String TKey) : Prop := ∀ k v, k1 k = some v → k2 k = some v

theorem FinKeys.set {keys : GoMap String TKey} (h : FinKeys keys) (k : String) (v : TKey) :
    FinKeys (keys.set k v) := by
  obtain ⟨l, hl⟩ := h
  refine ⟨k :: l, fun x hx => ?_⟩
  by_cases he : x = k
  · simp [he]
  · rw [GoMap.set_other _ _ he] at hx
    exact List.mem_cons_of_mem _ (hl x hx)

theorem ColKey.grow {k1 k2 : GoMap String TKey} {o : String} (h : ColKey k1 o) (hg : Grow k1 k2) :
    ColKey k2 o := by
  rcases h with h | ⟨v, h1, h2⟩
  · exact Or.inl h
  · exact Or.inr ⟨v, hg o v h1, h2⟩

theorem OutOk.grow {k1 k2 : GoMap String TKey} {s : Stmt} (h : OutOk k1 s) (hg : Grow k1 k2) : OutOk k2 s :=
  fun o ho => (h o ho).grow hg

theorem column_known {env : TrxEnv} {f f1 : FileSt} {n : Nat} {col : Text} {k : String}
    (hf : FinKeys f.keys) (h : f.column env n col = .ok (f1, k)) : FinKeys f1.keys ∧ ColKey f1.keys k := by
  unfold FileSt.column at h
  dsimp only at h
  split at h
  · split at h
    · cases h; exact ⟨hf, Or.inl rfl⟩
    · cases h; exact ⟨hf.set _ _, Or.inl rfl⟩
  · split at h
    · cases h
    · split at h
      · cases h
      · cases h
        exact ⟨hf.set _ _, Or.inr ⟨_, GoMap.set_same _ _ _, by simp [colKey]⟩⟩

theorem columns_known {env : TrxEnv} {cols : List Text} : ∀ {f f1 : FileSt} {n : Nat}
    {ks : List String}, FinKeys f.keys → f.columns env n cols = .ok (f1, ks) →
    FinKeys f1.keys ∧ ∀ k ∈ ks, ColKey f1.keys k := by
  induction cols with
  | nil => intro f f1 n ks hf h; cases h; exact ⟨hf, by simp⟩
  | cons c cs ih =>
    intro f f1 n ks hf h
    obtain ⟨⟨f2, k⟩, h1, h⟩ := Out.bind_ok h
    obtain ⟨⟨f3, ks'⟩, h2, h⟩ := Out.bind_ok h
    cases Out.pure_ok h
    obtain ⟨g1, g2⟩ := column_known hf h1
    obtain ⟨g3, g4⟩ := ih g1 h2
    refine ⟨g3, ?_⟩
    intro x hx
    rcases List.mem_cons.1 hx with rfl | hx
    · exact g2.grow (columns_frame h2).grow
    · exact g4 x hx

theorem addLimit_outputs {s s' : Stmt} {m : LimitMod} (h : addLimit s m = .ok s') : s'.outputs = s.outputs := by
  unfold addLimit at h
  split at h
  · cases h; rfl
  · cases h

theorem modStep_known {env : TrxEnv} {f f1 : FileSt} {s s1 : Stmt} {mod : Text} {c : Option Nat}
    (hf : FinKeys f.keys) (hs : OutOk f.keys s) (h : modStep env f s mod = .ok (f1, s1, c)) :
    FinKeys f1.keys ∧ OutOk f1.keys s1 := by
  unfold modStep at h
  split at h
  · cases h
  · dsimp only at h
    split at h
    · cases h; exact ⟨hf, hs⟩
    split at h
    · obtain ⟨_, -, h⟩ := Out.bind_ok h
      obtain ⟨_, -, h⟩ := Out.bind_ok h
      cases Out.pure_ok h; exact ⟨hf, hs⟩
    split at h
    · obtain ⟨_, -, h⟩ := Out.bind_ok h
      obtain ⟨_, -, h⟩ := Out.bind_ok h
      obtain ⟨_, -, h⟩ := Out.bind_ok h
      obtain ⟨s2, h2, h⟩ := Out.bind_ok h
      cases Out.pure_ok h
      exact ⟨hf, fun o ho => hs o (by rw [← addLimit_outputs h2]; exact ho)⟩
    split at h
    · split at h
      · obtain ⟨_, -, h⟩ := Out.bind_ok h
        obtain ⟨s2, h2, h⟩ := Out.bind_ok h
        cases Out.pure_ok h
        exact ⟨hf, fun o ho => hs o (by rw [← addLimit_outputs h2]; exact ho)⟩
      · cases h
    split at h
    · split at h
      · cases h
      · obtain ⟨_, -, h⟩ := Out.bind_ok h
        obtain ⟨⟨f2, k⟩, h2, h⟩ := Out.bind_ok h
        cases Out.pure_ok h
        obtain ⟨g1, g2⟩ := column_known hf h2
        refine ⟨g1, fun o ho => ?_⟩
        rcases List.mem_append.1 ho with ho | ho
        · exact (hs o ho).grow (column_frame h2).grow
        · rw [List.mem_singleton.1 ho]; exact g2
    split at h
    · obtain ⟨⟨f2, k⟩, h2, h⟩ := Out.bind_ok h
      cases Out.pure_ok h
      obtain ⟨g1, g2⟩ := columns_known hf h2
      refine ⟨g1, fun o ho => ?_⟩
      rcases List.mem_append.1 ho with ho | ho
      · exact (hs o ho).grow (columns_frame h2).grow
      · exact g2 o ho
    split at h
    · obtain ⟨_, -, h⟩ := Out.bind_ok h
      obtain ⟨_, -, h⟩ := Out.bind_ok h
      split at h
      · cases h
      split at h
      · cases Out.pure_ok h; exact ⟨hf, hs⟩
      · cases Out.pure_ok h; exact ⟨hf, hs⟩
    · cases h

theorem modLoop_known {env : TrxEnv} {mods : List Text} : ∀ {f f1 : FileSt} {s s1 : Stmt}
    {c : Option Nat}, FinKeys f.keys → OutOk f.keys s → modLoop env f s mods = .ok (f1, s1, c) →
    FinKeys f1.keys ∧ OutOk f1.keys s1 := by
  induction mods with
  | nil => intro f f1 s s1 c hf hs h; cases h; exact ⟨hf, hs⟩
  | cons m ms ih =>
    intro f f1 s s1 c hf hs h
    obtain ⟨⟨f2, s2, c2⟩, h1, h⟩ := Out.bind_ok h
    obtain ⟨g1, g2⟩ := modStep_known hf hs h1
    dsimp only at h
    split at h
    · cases Out.pure_ok h; exact ⟨g1, g2⟩
    · exact ih g1 g2 h

theorem genOf_known {env : TrxEnv} {f f1 : FileSt} {before : List Text} {name : Text} {g : GenInfo}
    (hf : FinKeys f.keys) (h : genOf env f before name = .ok (f1, g)) : FinKeys f1.keys := by
  unfold genOf at h
  dsimp only at h
  split at h
  · cases h; exact hf
  split at h
  · split at h
    · cases h
    · split at h
      · cases h
      · split at h
        · cases h; exact hf
        · cases h
  · split at h
    · cases h; exact hf
    · split at h
      · cases h
      · split at h
        · cases h
        · cases h; exact hf.set _ _

theorem keyLoop_known {env : TrxEnv} {p : Bool} {names : List Text} : ∀ {f f1 : FileSt}
    {before : List Text} {fmts fmts1 : List (Text × Text)}, FinKeys f.keys →
    keyLoop env p f before fmts names = .ok (f1, fmts1) → FinKeys f1.keys := by
  induction names with
  | nil => intro f f1 before fmts fmts1 hf h; cases h; exact hf
  | cons n ns ih =>
    intro f f1 before fmts fmts1 hf h
    obtain ⟨⟨f2, g⟩, h1, h⟩ := Out.bind_ok h
    exact ih (genOf_known hf h1) h

/-- What is known of a statement: what it saves are columns, its inputs begin with `@`, and the first is not
`@PREV` (unless that is a column). -/
structure StOk (keys : GoMap String TKey) (s : Stmt) : Prop where
  outs : OutOk keys s
  ins : ∀ k ∈ s.inputs, ∃ n, k = String.ofList ('@' :: n)
  first : s.inputs.head? = some "@PREV" → ColKey keys "@PREV"

theorem StOk.grow {k1 k2 : GoMap String TKey} {s : Stmt} (h : StOk k1 s) (hg : Grow k1 k2) : StOk k2 s :=
  ⟨h.outs.grow hg, h.ins, fun hx => (h.first hx).grow hg⟩

theorem tokKeys_begin : ∀ (ts : List Tok), ∀ x ∈ tokKeys ts, ∃ n, x.1 = '@' :: n
  | [], x, h => by cases h
  | .lit _ :: ts, x, h => tokKeys_begin ts x h
  | .key n c :: ts, x, h => by
    rcases List.mem_cons.1 h with rfl | h
    · exact ⟨n, rfl⟩
    · exact tokKeys_begin ts x h

theorem genOf_first {env : TrxEnv} {f f1 : FileSt} {g : GenInfo}
    (h : genOf env f [] "@PREV".toList = .ok (f1, g)) : ColKey f.keys "@PREV" := by
  unfold genOf at h
  dsimp only at h
  rw [prevStr] at h
  cases hc : savedCol f.keys "@PREV" with
  | none => rw [hc] at h; simp at h
  | some k =>
    unfold savedCol at hc
    split at hc
    · rename_i v hv
      split at hc
      · rename_i hp; exact Or.inr ⟨v, hv, hp⟩
      · cases hc
    · cases hc

theorem finish_known {env : TrxEnv} {f f1 : FileSt} {s s1 : Stmt} {q : Text}
    (hf : FinKeys f.keys) (hs : OutOk f.keys s) (hi : s.inputs = []) (h : finish env f s q = .ok (f1, s1)) :
    FinKeys f1.keys ∧ StOk f1.keys s1 := by
  have hfr := finish_frame h
  unfold finish at h
  obtain ⟨⟨d, q2⟩, -, h⟩ := Out.bind_ok h
  dsimp only at h
  split at h
  · cases Out.pure_ok h; exact ⟨hf, hs, by simp [hi], by simp [hi]⟩
  · obtain ⟨⟨f3, fm⟩, h2, h⟩ := Out.bind_ok h
    cases Out.pure_ok h
    refine ⟨keyLoop_known (f := { f with data := d }) hf h2, OutOk.grow (s := s) hs hfr.grow, ?_, ?_⟩
    · intro k hk
      obtain ⟨t, ht, rfl⟩ := List.mem_map.1 hk
      obtain ⟨x, hx, rfl⟩ := List.mem_map.1 ht
      obtain ⟨n, hn⟩ := tokKeys_begin _ x hx
      exact ⟨n, by rw [hn]⟩
    · intro hh
      dsimp only at hh
      cases hl : (tokKeys (tokenize q2)).map (·.1) with
      | nil => rw [hl] at hh; cases hh
      | cons n ns =>
        rw [hl] at hh h2
        simp only [List.map_cons, List.head?_cons, Option.some.injEq] at hh
        have hn : n = "@PREV".toList := by rw [← hh]; simp
        subst hn
        obtain ⟨⟨f4, g⟩, h4, h5⟩ := Out.bind_ok h2
        exact (genOf_first h4).grow hfr.grow

theorem statements_known {env : TrxEnv} {fuel : Nat} : ∀ {f f' : FileSt} {ss : List Stmt},
    FinKeys f.keys → statements env fuel f = .ok (f', ss) →
    FinKeys f'.keys ∧ ∀ s ∈ ss, StOk f'.keys s := by
  induction fuel with
  | zero => intro f f' ss _ h; cases h
  | succ fuel ih =>
    have hcopy : ∀ (k : Nat) {f f' : FileSt} {i : Nat} {ss : List Stmt}, FinKeys f.keys →
        copyLoop (statements env fuel) f i k = .ok (f', ss) →
        FinKeys f'.keys ∧ Grow f.keys f'.keys ∧ ∀ s ∈ ss, StOk f'.keys s := by
      intro k
      induction k with
      | zero => intro f f' i ss hf h; cases h; exact ⟨hf, fun _ _ h => h, by simp⟩
      | succ k ihk =>
        intro f f' i ss hf h
        obtain ⟨⟨f2, ms⟩, h1, h⟩ := Out.bind_ok h
        dsimp only at h
        have hg := (statements_ok h1).grow
        obtain ⟨g1, g2⟩ := ih (f := { f with copyNo := i + 1 }) hf h1
        cases ms with
        | nil => cases h
        | cons s rest =>
          obtain ⟨⟨f3, ss'⟩, h3, h⟩ := Out.bind_ok h
          cases Out.pure_ok h
          obtain ⟨g3, g4, g5⟩ := ihk g1 h3
          refine ⟨g3, fun x v hx => g4 x v (hg x v hx), ?_⟩
          intro x hx
          rcases List.mem_cons.1 hx with rfl | hx
          · exact (g2 _ List.mem_cons_self).grow g4
          · exact g5 x hx
    intro f f' ss hf h
    unfold statements at h
    obtain ⟨⟨f2, s2, c⟩, h1, h⟩ := Out.bind_ok h
    dsimp only at h
    obtain ⟨g1, g2⟩ := modLoop_known (by exact hf) (by intro o ho; simp [classify] at ho) h1
    split at h
    · obtain ⟨⟨f3, s3⟩, h2, h⟩ := Out.bind_ok h
      cases Out.pure_ok h
      obtain ⟨g3, g4⟩ := finish_known g1 g2 ((modLoop_ok h1).inputs.1.trans rfl) h2
      exact ⟨g3, by intro s hs; rw [List.mem_singleton.1 hs]; exact g4⟩
    · cases Out.pure_ok h
      exact ⟨g1, by simp⟩
    · obtain ⟨⟨f3, ss'⟩, h2, h⟩ := Out.bind_ok h
      cases Out.pure_ok h
      obtain ⟨g3, -, g5⟩ := hcopy _ (by exact g1) h2
      refine ⟨g3, ?_⟩
      split
      · cases ss' with
        | nil => simp [setPrepareMulti]
        | cons x xs =>
          intro s hs
          rcases List.mem_cons.1 hs with rfl | hs
          · have := g5 x List.mem_cons_self
            exact ⟨this.outs, this.ins, this.first⟩
          · exact g5 s (List.mem_cons_of_mem _ hs)
      · exact g5

/-- The invariant of the loop over the lines of a file. -/
def Known (f : FileSt) : Prop := FinKeys f.keys ∧ ∀ s ∈ f.stmts, StOk f.keys s

theorem line_known {env : TrxEnv} {f f' : FileSt} {l : Text} (hf : Known f)
    (h : f.line env (FileSt.statements env) l = .ok (.next f') ∨
      f.line env (FileSt.statements env) l = .ok (.eof f')) : Known f' := by
  unfold FileSt.line at h
  dsimp only at h
  split at h
  · split at h
    · split at h
      · rcases h with h | h <;> cases h; exact hf
      · split at h
        · rcases h with h | h <;> cases h
        · rcases h with h | h <;> cases h; exact hf
    · rcases h with h | h <;> cases h; exact hf
  · split at h
    · rcases h with h | h <;> cases h; exact hf
    · split at h
      · rename_i f2 ss hst
        rcases h with h | h <;> cases h
        have hs := statements_ok hst
        obtain ⟨g1, g2⟩ := statements_known (f := { f with lineNo := f.lineNo + 1 }) hf.1 hst
        refine ⟨g1, ?_⟩
        intro s hmem
        rcases List.mem_append.1 hmem with hm | hm
        · rw [hs.stmts] at hm; exact (hf.2 s hm).grow hs.grow
        · exact g2 s hm
      · rcases h with h | h <;> cases h
      · rcases h with h | h <;> cases h

theorem lines_known {env : TrxEnv} {ls : List Text} : ∀ {f f' : FileSt}, Known f →
    f.lines env (FileSt.statements env) ls = .ok f' → Known f' := by
  have hlast : ∀ {f f' : FileSt}, Known f →
      (match f.line env (FileSt.statements env) [] with
        | .ok (.next f) => (.ok f : Out FileSt)
        | .ok (.eof f) => .ok f
        | .err => .err
        | .panic => .panic) = .ok f' → Known f' := by
    intro f f' hf h
    cases hr : f.line env (FileSt.statements env) [] with
    | err => rw [hr] at h; cases h
    | panic => rw [hr] at h; cases h
    | ok r =>
      rw [hr] at h
      cases r with
      | next f2 => cases h; exact line_known hf (Or.inl hr)
      | eof f2 => cases h; exact line_known hf (Or.inr hr)
  induction ls with
  | nil => intro f f' hf h; exact hlast hf h
  | cons l ls ih =>
    intro f f' hf h
    simp only [FileSt.lines] at h
    cases hr : f.line env (FileSt.statements env) (trimSpace l) with
    | err => rw [hr] at h; cases h
    | panic => rw [hr] at h; cases h
    | ok r =>
      rw [hr] at h
      cases r with
      | next f2 => exact ih (line_known hf (Or.inl hr)) h
      | eof f2 => exact hlast (line_known hf (Or.inr hr)) h

theorem loadFile_known {set set' : TrxSet} {tf : TrxFile} (hk : FinKeys set.keys)
    (h : loadFile set tf = .ok set') : FinKeys set'.keys ∧
    ∃ ss, set'.statements = set.statements.set tf.env.trx ss ∧ ∀ s ∈ ss, StOk set'.keys s := by
  unfold loadFile at h
  split at h
  · cases h
  · split at h
    · cases h
    · cases h
    · rename_i f hl
      split at h
      · cases h
      · split at h
        · cases h
        · cases h
          obtain ⟨g1, g2⟩ := lines_known (f := FileSt.new tf.data set.keys) ⟨hk, by simp [FileSt.new]⟩ hl
          exact ⟨g1, f.stmts, rfl, g2⟩

/-- Loaded trx files have finitely many data keys, and all that their statements save are columns. -/
theorem loadTrx_known {tfs : List TrxFile} : ∀ {set set' : TrxSet}, FinKeys set.keys →
    (∀ n ss, set.statements n = some ss → ∀ s ∈ ss, StOk set.keys s) → loadTrx set tfs = .ok set' →
    FinKeys set'.keys ∧ ∀ n ss, set'.statements n = some ss → ∀ s ∈ ss, StOk set'.keys s := by
  induction tfs with
  | nil => intro set set' hk hs h; cases h; exact ⟨hk, hs⟩
  | cons tf tfs ih =>
    intro set set' hk hs h
    simp only [loadTrx] at h
    cases hl : loadFile set tf with
    | err => rw [hl] at h; cases h
    | panic => rw [hl] at h; cases h
    | ok set1 =>
      rw [hl] at h
      obtain ⟨g1, ss1, g2, g3⟩ := loadFile_known hk hl
      obtain ⟨-, hg, -⟩ := loadFile_ok hl
      refine ih g1 ?_ h
      intro n ss hn s hm
      rw [g2] at hn
      by_cases he : n = tf.env.trx
      · subst he
        rw [GoMap.set_same] at hn; cases hn
        exact g3 s hm
      · rw [GoMap.set_other _ _ he] at hn
        exact (hs n ss hn s hm).grow hg

end Finch
