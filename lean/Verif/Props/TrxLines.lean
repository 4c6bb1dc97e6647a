import Verif.Props.TrxFrame
import Mathlib.Tactic.Common
/-!
C32: how the lines of a trx file become statements.
-/
namespace Finch

/-! ### The claim's vocabulary, independent of the parser -/

/-- A modifier line. -/
def isModLine (l : Text) : Bool := "-- ".toList.isPrefixOf l

/-- Paragraphs of trimmed lines: split at blank lines, up to the line `-- EOF`. Each comes with the
number of the line that ends it; `n` lines were read before, `cur` belong to the current paragraph. -/
def paragraphs (n : Nat) (cur : List Text) : List Text → List (List Text × Nat)
  | [] => [(cur, n + 1)]
  | l :: ls =>
    if l = "-- EOF".toList then [(cur, n + 2)]
    else if l = [] then (cur, n + 1) :: paragraphs (n + 1) [] ls
    else paragraphs (n + 1) (cur ++ [l]) ls

/-- A statement as it is written: its modifier lines, its text lines, the line where it ends. -/
structure Block where
  mods : List Text
  text : List Text
  endLine : Nat
  deriving DecidableEq, Repr

/-- The statements of the paragraphs: a paragraph with text is a statement. Modifiers of paragraphs
without text belong to the next statement. The second component are the modifiers after the last
statement. -/
def blocks (carry : List Text) : List (List Text × Nat) → List Block × List Text
  | [] => ([], carry)
  | (p, n) :: ps =>
    if p.filter (fun l => !isModLine l) = [] then blocks (carry ++ p.filter isModLine) ps
    else
      let r := blocks [] ps
      (⟨carry ++ p.filter isModLine, p.filter (fun l => !isModLine l), n⟩ :: r.1, r.2)

/-- The modifiers of modifier lines: without the dashes, trimmed, parameters replaced. -/
def modsOf (env : TrxEnv) : List Text → Option (List Text)
  | [] => some []
  | l :: ls =>
    match env.vars (trimSpace (l.drop 2)), modsOf env ls with
    | some m, some ms => some (m :: ms)
    | _, _ => none

/-- Parse the statements one after another. -/
def runBlocks (env : TrxEnv) (stmts : FileSt → Out (FileSt × List Stmt)) (f : FileSt) :
    List Block × List Text → Out FileSt
  | ([], rest) => if (modsOf env rest).isNone then .err else .ok f
  | (b :: bs, rest) =>
    match modsOf env b.mods with
    | none => .err
    | some ms =>
      match stmts { f with lineNo := b.endLine, mods := ms, str := b.text.flatMap (· ++ [' ']) } with
      | .ok (f', ss) => runBlocks env stmts { f' with stmts := f'.stmts ++ ss } (bs, rest)
      | .err => .err
      | .panic => .panic

/-- The parser state without its line buffer. -/
def FileSt.core (f : FileSt) : FileSt := { f with lineNo := 0, str := [], mods := [] }

/-- Apply a function to a result. -/
def Out.mapOk {α β : Type} (g : α → β) : Out α → Out β
  | .ok a => .ok (g a)
  | .err => .err
  | .panic => .panic

/-! ### Proof -/

theorem modsOf_append (env : TrxEnv) (a b : List Text) :
    modsOf env (a ++ b) = match modsOf env a, modsOf env b with
      | some x, some y => some (x ++ y)
      | _, _ => none := by
  induction a with
  | nil => simp only [List.nil_append, modsOf]; cases modsOf env b <;> rfl
  | cons l ls ih =>
    simp only [List.cons_append, modsOf, ih]
    cases env.vars (trimSpace (l.drop 2)) <;> cases modsOf env ls <;> cases modsOf env b <;> rfl

/-- A modifier whose parameters cannot be replaced is an error wherever the statement ends. -/
theorem runBlocks_bad (env : TrxEnv) (stmts : FileSt → Out (FileSt × List Stmt)) (ls : List Text) :
    ∀ (f : FileSt) (carry cur : List Text) (n : Nat),
    modsOf env (carry ++ cur.filter isModLine) = none →
    runBlocks env stmts f (blocks carry (paragraphs n cur ls)) = .err := by
  have hone : ∀ (f : FileSt) (carry cur : List Text) (n : Nat) (ps : List (List Text × Nat)),
      modsOf env (carry ++ cur.filter isModLine) = none →
      (∀ c, modsOf env c = none → runBlocks env stmts f (blocks c ps) = .err) →
      runBlocks env stmts f (blocks carry ((cur, n) :: ps)) = .err := by
    intro f carry cur n ps h hps
    simp only [blocks]
    split
    · exact hps _ h
    · simp only [runBlocks, h]
  induction ls with
  | nil =>
    intro f carry cur n h
    simp only [paragraphs]
    apply hone _ _ _ _ _ h
    intro c hc
    simp [blocks, runBlocks, hc]
  | cons l ls ih =>
    intro f carry cur n h
    simp only [paragraphs]
    split
    · apply hone _ _ _ _ _ h
      intro c hc
      simp [blocks, runBlocks, hc]
    · split
      · apply hone _ _ _ _ _ h
        intro c hc
        apply ih
        simpa using hc
      · apply ih
        rw [List.filter_append, ← List.append_assoc, modsOf_append, h]

/-- `File.statements` does not use or change the line buffer other than shown. -/
def KeepsBuf (stmts : FileSt → Out (FileSt × List Stmt)) : Prop :=
  ∀ f f' ss, stmts f = .ok (f', ss) → f'.lineNo = f.lineNo

theorem lines_blocks (env : TrxEnv) (stmts : FileSt → Out (FileSt × List Stmt)) (hk : KeepsBuf stmts)
    (ls : List Text) : ∀ (f : FileSt) (carry cur : List Text) (g : FileSt),
    modsOf env (carry ++ cur.filter isModLine) = some f.mods →
    f.str = (cur.filter (fun l => !isModLine l)).flatMap (· ++ [' ']) →
    (∀ l ∈ cur, l ≠ []) →
    f.core = g.core →
    Out.mapOk FileSt.core (f.lines env stmts ls) =
      Out.mapOk FileSt.core
        (runBlocks env stmts g (blocks carry (paragraphs f.lineNo cur (ls.map trimSpace)))) := by
  have hstr : ∀ (f : FileSt) (cur : List Text),
      f.str = (cur.filter (fun l => !isModLine l)).flatMap (· ++ [' ']) →
      (f.str = [] ↔ cur.filter (fun l => !isModLine l) = []) := by
    intro f cur h
    rw [h]
    constructor
    · intro h0
      cases hc : cur.filter (fun l => !isModLine l) with
      | nil => rfl
      | cons x xs => rw [hc] at h0; simp at h0
    · intro h0; rw [h0]; rfl
  -- what happens when a paragraph ends, given what happens after it
  have hend : ∀ (f : FileSt) (carry cur : List Text) (g : FileSt) (ps : List (List Text × Nat))
      (k : FileSt → Out FileSt) (n : Nat),
      modsOf env (carry ++ cur.filter isModLine) = some f.mods →
      f.str = (cur.filter (fun l => !isModLine l)).flatMap (· ++ [' ']) →
      f.core = g.core → n = f.lineNo + 1 →
      (∀ (f1 g1 : FileSt) (c : List Text), modsOf env c = some f1.mods → f1.str = [] →
        f1.core = g1.core → f1.lineNo = f.lineNo + 1 →
        Out.mapOk FileSt.core (k f1) = Out.mapOk FileSt.core (runBlocks env stmts g1 (blocks c ps))) →
      Out.mapOk FileSt.core (match f.line env stmts [] with
        | .ok (.next f) => k f
        | .ok (.eof f) => k f
        | .err => .err
        | .panic => .panic) =
      Out.mapOk FileSt.core (runBlocks env stmts g (blocks carry ((cur, n) :: ps))) := by
    intro f carry cur g ps k n hm hs hc hn hnext
    subst hn
    by_cases h0 : cur.filter (fun l => !isModLine l) = []
    · have hs0 := (hstr f cur hs).mpr h0
      simp only [FileSt.line, ne_eq, not_true_eq_false, if_false, hs0, if_true, blocks, h0]
      exact hnext _ _ _ hm rfl hc rfl
    · have hs0 : f.str ≠ [] := fun h => h0 ((hstr f cur hs).mp h)
      simp only [FileSt.line, ne_eq, not_true_eq_false, if_false, hs0, blocks, h0, runBlocks, hm]
      have hsame : ({ g with
          lineNo := f.lineNo + 1
          mods := f.mods
          str := (cur.filter (fun l => !isModLine l)).flatMap (· ++ [' ']) } : FileSt) =
          { f with lineNo := f.lineNo + 1 } := by
        rw [← hs]
        cases f; cases g
        simp only [FileSt.core, FileSt.mk.injEq] at hc
        obtain ⟨h1, h2, h3, -, -, -, h4, h5, h6, h7⟩ := hc
        subst h1 h2 h3 h4 h5 h6 h7
        rfl
      rw [hsame]
      cases hst : stmts { f with lineNo := f.lineNo + 1 } with
      | err => rfl
      | panic => rfl
      | ok r =>
        obtain ⟨f', ss⟩ := r
        have hl : f'.lineNo = f.lineNo + 1 := hk _ _ _ hst
        exact hnext _ { f' with stmts := f'.stmts ++ ss } [] rfl rfl rfl hl
  induction ls with
  | nil =>
    intro f carry cur g hm hs _ hc
    simp only [FileSt.lines, List.map_nil, paragraphs]
    refine hend f carry cur g [] (fun f => .ok f) _ hm hs hc rfl ?_
    intro f1 g1 c hm1 _ hc1 _
    simp [blocks, runBlocks, hm1, Out.mapOk, hc1]
  | cons l ls ih =>
    intro f carry cur g hm hs hne hc
    simp only [FileSt.lines, List.map_cons]
    generalize trimSpace l = l
    simp only [paragraphs]
    by_cases he : l = "-- EOF".toList
    · subst he
      simp only [if_true]
      have : f.line env stmts "-- EOF".toList = .ok (.eof { f with lineNo := f.lineNo + 1 }) := by
        simp [FileSt.line]
      rw [this]
      refine hend { f with lineNo := f.lineNo + 1 } carry cur g [] (fun f => .ok f) _ hm hs hc rfl ?_
      intro f1 g1 c hm1 _ hc1 _
      simp [blocks, runBlocks, hm1, Out.mapOk, hc1]
    · simp only [he, if_false]
      by_cases h0 : l = []
      · subst h0
        simp only [if_true]
        have hno : ∀ f2, f.line env stmts [] ≠ .ok (.eof f2) := by
          intro f2
          simp only [FileSt.line, ne_eq, not_true_eq_false, if_false]
          split
          · simp
          · split <;> simp
        have := hend f carry cur g (paragraphs (f.lineNo + 1) [] (ls.map trimSpace))
          (fun f => f.lines env stmts ls) _ hm hs hc rfl (by
            intro f1 g1 c hm1 hs1 hc1 hn1
            rw [← hn1]
            exact ih f1 c [] g1 (by simpa using hm1) (by simpa using hs1) (by simp) hc1)
        rw [← this]
        cases hr : f.line env stmts [] with
        | err => rfl
        | panic => rfl
        | ok r =>
          cases r with
          | next f2 => rfl
          | eof f2 => exact absurd hr (hno f2)
      · simp only [h0, if_false]
        by_cases hmod : isModLine l = true
        · have hp : "-- ".toList.isPrefixOf l = true := hmod
          cases hv : env.vars (trimSpace (l.drop 2)) with
          | none =>
            have : f.line env stmts l = .err := by
              simp only [FileSt.line, ne_eq, h0, not_false_eq_true, if_true, hp, he, if_false, hv]
            rw [this, runBlocks_bad]
            rw [List.filter_append, ← List.append_assoc, modsOf_append, hm]
            simp [List.filter, hmod, modsOf, hv]
          | some m =>
            have : f.line env stmts l =
                .ok (.next { f with lineNo := f.lineNo + 1, mods := f.mods ++ [m] }) := by
              simp only [FileSt.line, ne_eq, h0, not_false_eq_true, if_true, hp, he, if_false, hv]
            rw [this]
            refine ih { f with lineNo := f.lineNo + 1, mods := f.mods ++ [m] } carry (cur ++ [l]) g
              ?_ ?_ ?_ ?_
            · rw [List.filter_append, ← List.append_assoc, modsOf_append, hm]
              simp [List.filter, hmod, modsOf, hv]
            · simp only [hs, List.filter_append, List.filter, hmod, Bool.not_true, List.append_nil]
            · intro x hx
              simp only [List.mem_append, List.mem_singleton] at hx
              rcases hx with h | rfl
              · exact hne _ h
              · exact h0
            · exact hc
        · have hp : "-- ".toList.isPrefixOf l = false := by simpa only [isModLine, Bool.not_eq_true] using hmod
          have hmod' : isModLine l = false := hp
          have : f.line env stmts l =
              .ok (.next { f with lineNo := f.lineNo + 1, str := f.str ++ l ++ [' '] }) := by
            simp only [FileSt.line, ne_eq, h0, not_false_eq_true, if_true, hp, Bool.false_eq_true,
              if_false]
          rw [this]
          refine ih { f with lineNo := f.lineNo + 1, str := f.str ++ l ++ [' '] } carry (cur ++ [l]) g
            ?_ ?_ ?_ ?_
          · rw [List.filter_append]
            simpa [List.filter, hmod'] using hm
          · simp only [hs, List.filter_append, List.filter, hmod', Bool.not_false, List.flatMap_append]
            simp
          · intro x hx
            simp only [List.mem_append, List.mem_singleton] at hx
            rcases hx with h | rfl
            · exact hne _ h
            · exact h0
          · exact hc

/-! ### The text of a statement -/

/-- A non-empty text without space at either end. -/
def Trimmed (l : Text) : Prop :=
  l ≠ [] ∧ (∀ c ∈ l.head?, isSpace c = false) ∧ (∀ c ∈ l.getLast?, isSpace c = false)

theorem dropWhile_head {p : Char → Bool} (l : Text) : ∀ c ∈ (l.dropWhile p).head?, p c = false := by
  induction l with
  | nil => simp
  | cons x xs ih =>
    simp only [List.dropWhile_cons]
    split
    · exact ih
    · simp_all

theorem dropWhile_eq_self {p : Char → Bool} {l : Text} (h : ∀ c ∈ l.head?, p c = false) :
    l.dropWhile p = l := by
  cases l with
  | nil => rfl
  | cons c cs =>
    have := h c (by simp)
    simp [this]

theorem trimmed_trimSpace (l : Text) : trimSpace l = [] ∨ Trimmed (trimSpace l) := by
  by_cases h : trimSpace l = []
  · exact Or.inl h
  · refine Or.inr ⟨h, ?_, ?_⟩
    · -- the head survives trimming on the right
      unfold trimSpace trim trimRight at h ⊢
      generalize hm : l.dropWhile isSpace = m at h ⊢
      have hhead : ∀ c ∈ m.head?, isSpace c = false := by rw [← hm]; exact dropWhile_head l
      have hpre : (m.reverse.dropWhile isSpace).reverse <+: m := by
        have := List.dropWhile_suffix isSpace (l := m.reverse)
        rw [← List.reverse_suffix]; simpa using this
      obtain ⟨t, ht⟩ := hpre
      intro c hc
      apply hhead
      rw [← ht]
      cases hr : (m.reverse.dropWhile isSpace).reverse with
      | nil => exact absurd hr h
      | cons x xs => rw [hr] at hc; simpa using hc
    · unfold trimSpace trim trimRight
      intro c hc
      rw [List.getLast?_reverse] at hc
      exact dropWhile_head _ c hc

theorem flatMap_space_join (ls : List Text) (h : ls ≠ []) :
    ls.flatMap (· ++ [' ']) = join [' '] ls ++ [' '] := by
  induction ls with
  | nil => exact absurd rfl h
  | cons x xs ih =>
    cases xs with
    | nil => simp [join]
    | cons y ys =>
      rw [List.flatMap_cons, ih (by simp), join]
      simp

theorem join_trimmed (ls : List Text) (h0 : ls ≠ []) (h : ∀ l ∈ ls, Trimmed l) :
    Trimmed (join [' '] ls) := by
  induction ls with
  | nil => exact absurd rfl h0
  | cons x xs ih =>
    cases xs with
    | nil => exact h x (by simp)
    | cons y ys =>
      have hx := h x (by simp)
      have hr := ih (by simp) (fun l hl => h l (by simp [hl]))
      rw [join]
      refine ⟨by simp [hx.1], ?_, ?_⟩
      · intro c hc
        apply hx.2.1
        cases x with
        | nil => exact absurd rfl hx.1
        | cons a as => simpa using hc
      · intro c hc
        apply hr.2.2
        rw [List.getLast?_append] at hc
        cases hl : (join [' '] (y :: ys)).getLast? with
        | none => exact absurd (List.getLast?_eq_none_iff.mp hl) hr.1
        | some z => rw [hl] at hc; simpa using hc

theorem trimSpace_space {t : Text} (h : Trimmed t) : trimSpace (t ++ [' ']) = t := by
  unfold trimSpace trim trimRight
  rw [dropWhile_eq_self (l := t ++ [' '])]
  · rw [List.reverse_append]
    have : isSpace ' ' = true := by decide
    simp only [List.reverse_singleton, List.singleton_append, List.dropWhile_cons, this, if_true]
    rw [dropWhile_eq_self, List.reverse_reverse]
    intro c hc
    rw [List.head?_reverse] at hc
    exact h.2.2 c hc
  · intro c hc
    apply h.2.1
    obtain ⟨h0, -⟩ := h
    cases t with
    | nil => exact absurd rfl h0
    | cons x xs => simpa using hc

/-- Text lines of the statements of a file are trimmed and there is at least one. -/
theorem blocks_text (ls : List Text) (hls : ∀ l ∈ ls, l = [] ∨ Trimmed l) :
    ∀ (carry cur : List Text) (n : Nat), (∀ l ∈ cur, Trimmed l) →
    ∀ b ∈ (blocks carry (paragraphs n cur ls)).1, b.text ≠ [] ∧ ∀ l ∈ b.text, Trimmed l ∧ isModLine l = false := by
  have hone : ∀ (carry cur : List Text) (n : Nat) (ps : List (List Text × Nat)),
      (∀ l ∈ cur, Trimmed l) →
      (∀ c, ∀ b ∈ (blocks c ps).1, b.text ≠ [] ∧ ∀ l ∈ b.text, Trimmed l ∧ isModLine l = false) →
      ∀ b ∈ (blocks carry ((cur, n) :: ps)).1, b.text ≠ [] ∧ ∀ l ∈ b.text, Trimmed l ∧ isModLine l = false := by
    intro carry cur n ps hcur hps b hb
    simp only [blocks] at hb
    split at hb
    · exact hps _ b hb
    · rename_i h0
      rcases List.mem_cons.mp hb with rfl | hb
      · refine ⟨h0, fun l hl => ?_⟩
        have := List.mem_filter.mp hl
        exact ⟨hcur l this.1, by simpa using this.2⟩
      · exact hps _ b hb
  induction ls with
  | nil =>
    intro carry cur n hcur
    apply hone _ _ _ _ hcur
    intro c b hb; simp [blocks] at hb
  | cons l ls ih =>
    intro carry cur n hcur
    have hls' : ∀ l ∈ ls, l = [] ∨ Trimmed l := fun x hx => hls x (by simp [hx])
    simp only [paragraphs]
    split
    · apply hone _ _ _ _ hcur
      intro c b hb; simp [blocks] at hb
    · split
      · apply hone _ _ _ _ hcur
        intro c
        exact ih hls' c [] _ (by simp)
      · rename_i h0
        apply ih hls'
        intro x hx
        simp only [List.mem_append, List.mem_singleton] at hx
        rcases hx with h | rfl
        · exact hcur x h
        · exact (hls x (by simp)).resolve_left h0

/-- C32. Loading the lines of a file does the same as parsing, one after another, the statements
they consist of: one statement per paragraph with text, with exactly the modifiers written since the
previous statement, up to the line `-- EOF` (`paragraphs`, `blocks`). -/
theorem C32_lines_are_statements (env : TrxEnv) (data : GoMap String DataCfg)
    (keys : GoMap String TKey) (ls : List Text) :
    Out.mapOk FileSt.core ((FileSt.new data keys).lines env (FileSt.statements env) ls) =
      Out.mapOk FileSt.core (runBlocks env (FileSt.statements env) (FileSt.new data keys)
        (blocks [] (paragraphs 0 [] (ls.map trimSpace)))) :=
  lines_blocks env (FileSt.statements env) (fun _ _ _ h => statements_lineNo h) ls
    (FileSt.new data keys) [] [] (FileSt.new data keys) rfl rfl (by simp) rfl

/-- C32. The query of such a statement is its text lines joined by single spaces. -/
theorem C32_statement_text (ls : List Text) :
    ∀ b ∈ (blocks [] (paragraphs 0 [] (ls.map trimSpace))).1,
      trimSpace (b.text.flatMap (· ++ [' '])) = join [' '] b.text ∧ join [' '] b.text ≠ [] := by
  intro b hb
  obtain ⟨h0, h⟩ := blocks_text (ls.map trimSpace) (by
    intro l hl
    obtain ⟨x, -, rfl⟩ := List.mem_map.mp hl
    exact trimmed_trimSpace x) [] [] 0 (by simp) b hb
  have hj := join_trimmed b.text h0 (fun l hl => (h l hl).1)
  exact ⟨by rw [flatMap_space_join _ h0, trimSpace_space hj], hj.1⟩

/-- C32. Lines after `-- EOF` are ignored. -/
theorem C32_eof (env : TrxEnv) (stmts : FileSt → Out (FileSt × List Stmt)) (f : FileSt)
    (ls a b : List Text) (eof : Text) (he : trimSpace eof = "-- EOF".toList) :
    f.lines env stmts (ls ++ eof :: a) = f.lines env stmts (ls ++ eof :: b) := by
  induction ls generalizing f with
  | nil =>
    simp only [List.nil_append, FileSt.lines, he]
    have : ∀ f : FileSt, f.line env stmts "-- EOF".toList =
        .ok (.eof { f with lineNo := f.lineNo + 1 }) := by
      intro f; simp [FileSt.line]
    rw [this]
  | cons l ls ih =>
    simp only [List.cons_append, FileSt.lines]
    split <;> simp_all

/-- C32. Every line that is neither blank nor after `-- EOF` is part of exactly one statement or of
the modifiers after the last one: the statements' lines, put together, are all those lines. -/
theorem C32_no_line_lost (ls : List Text) (hls : ∀ l ∈ ls, l ≠ "-- EOF".toList) :
    ∀ (carry cur : List Text) (n : Nat),
    List.Perm
      ((blocks carry (paragraphs n cur ls)).1.flatMap (fun b => b.mods ++ b.text) ++
        (blocks carry (paragraphs n cur ls)).2)
      (carry ++ cur ++ ls.filter (fun l => l ≠ [])) := by
  have hone : ∀ (carry cur : List Text) (n : Nat) (ps : List (List Text × Nat)) (rest : List Text),
      (∀ c, List.Perm ((blocks c ps).1.flatMap (fun b => b.mods ++ b.text) ++ (blocks c ps).2)
        (c ++ rest)) →
      List.Perm ((blocks carry ((cur, n) :: ps)).1.flatMap (fun b => b.mods ++ b.text) ++
        (blocks carry ((cur, n) :: ps)).2) (carry ++ cur ++ rest) := by
    intro carry cur n ps rest hps
    have hsplit : List.Perm (cur.filter isModLine ++ cur.filter (fun l => !isModLine l)) cur :=
      List.filter_append_perm isModLine cur
    simp only [blocks]
    split
    · rename_i h0
      rw [h0, List.append_nil] at hsplit
      exact (hps _).trans ((hsplit.append_left carry).append_right rest)
    · simp only [List.flatMap_cons, List.append_assoc]
      have h2 := hps []
      simp only [List.nil_append] at h2
      have h3 : List.Perm (cur.filter isModLine ++ (cur.filter (fun l => !isModLine l) ++
          ((blocks [] ps).1.flatMap (fun b => b.mods ++ b.text) ++ (blocks [] ps).2)))
          (cur ++ rest) := by
        rw [← List.append_assoc]
        exact (hsplit.append_right _).trans (h2.append_left cur)
      simpa [List.append_assoc] using h3.append_left carry
  induction ls with
  | nil =>
    intro carry cur n
    simp only [paragraphs, List.filter_nil]
    apply hone
    intro c
    simp [blocks]
  | cons l ls ih =>
    intro carry cur n
    have hls' : ∀ l ∈ ls, l ≠ "-- EOF".toList := fun x hx => hls x (by simp [hx])
    have hl : l ≠ "-- EOF".toList := hls l (by simp)
    simp only [paragraphs, hl, if_false]
    split
    · rename_i h0
      subst h0
      simp only [ne_eq, not_true_eq_false, decide_false, Bool.false_eq_true, not_false_eq_true,
        List.filter_cons_of_neg]
      apply hone
      intro c
      simpa using ih hls' c [] _
    · rename_i h0
      have := ih hls' carry (cur ++ [l]) (n + 1)
      simpa [h0, List.append_assoc] using this

/-- A file with two statements: carried modifiers, joined lines, EOF. -/
example : blocks [] (paragraphs 0 []
    (["-- prepare", "", "SELECT 1", "  FROM t", "", "-- rows: 9", "INSERT", "-- EOF", "DROP"].map
      (fun s => trimSpace s.toList))) =
    ([⟨["-- prepare".toList], ["SELECT 1".toList, "FROM t".toList], 5⟩,
      ⟨["-- rows: 9".toList], ["INSERT".toList], 9⟩], []) := by
  decide +kernel

end Finch
