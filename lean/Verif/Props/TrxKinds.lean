import Verif.Props.TrxFrame
/-!
C38: statement kinds.
-/
namespace Finch

/-- The kinds of statements that Finch distinguishes. -/
inductive Kind where
  | read | begin | commit | write | ddl | other
  deriving DecidableEq, Repr

/-- The documented kind of a statement that starts with this word (upper case): reads are `SELECT`
(docs/content/benchmark/statistics.md), transactions are measured on `COMMIT`. -/
def kindOfWord (w : String) : Kind :=
  if w = "SELECT" then .read
  else if w = "BEGIN" ∨ w = "START" then .begin
  else if w = "COMMIT" then .commit
  else if w = "INSERT" ∨ w = "UPDATE" ∨ w = "DELETE" ∨ w = "REPLACE" then .write
  else if w = "ALTER" ∨ w = "CREATE" ∨ w = "DROP" ∨ w = "RENAME" ∨ w = "TRUNCATE" then .ddl
  else .other

/-- A statement is marked as this kind and as no other. -/
def MarkedAs (s : Stmt) (k : Kind) : Prop :=
  s.resultSet = decide (k = .read) ∧ s.begin_ = decide (k = .begin) ∧
  s.commit = decide (k = .commit) ∧ s.write = decide (k = .write) ∧ s.ddl = decide (k = .ddl)

theorem ofList_eq {t : Text} {s : String} : String.ofList t = s ↔ t = s.toList := by
  constructor
  · intro h; rw [← h]; simp
  · intro h; rw [h]; simp

theorem upper_word (c : Char) :
    isWord (if 'a' ≤ c ∧ c ≤ 'z' then Char.ofNat (c.toNat - 32) else c) = isWord c := by
  split
  · rename_i h
    obtain ⟨h1, h2⟩ := h
    have h1' : 97 ≤ c.toNat := h1
    have h2' : c.toNat ≤ 122 := h2
    have hn : c = Char.ofNat c.toNat := (Char.ofNat_toNat c).symm
    rw [hn]
    generalize c.toNat = n at h1' h2'
    have key : ∀ n ∈ (List.range 26).map (· + 97),
        isWord (Char.ofNat ((Char.ofNat n).toNat - 32)) = isWord (Char.ofNat n) := by decide
    exact key n (by simp only [List.mem_map, List.mem_range]; exact ⟨n - 97, by omega, by omega⟩)
  · rfl

theorem firstWord_upper (q : Text) : firstWord (upperAscii q) = upperAscii (firstWord q) := by
  unfold firstWord upperAscii
  induction q with
  | nil => rfl
  | cons c cs ih =>
    simp only [List.map_cons, List.takeWhile_cons, upper_word]
    split
    · simp only [List.map_cons, ih]
    · rfl

/-- C38. A statement is marked as the kind of its first word, in any case, and as no other kind:
`w` is the first word, `rest` what follows it.

Partial: a statement whose first characters are not the deciding word is marked as `other`
(`C38_select_not_first_false`). -/
theorem C38_first_word_partial (trx : String) (w rest : Text) (hw : ∀ c ∈ w, isWord c = true)
    (hr : ∀ c ∈ rest.head?, isWord c = false) :
    MarkedAs (classify trx (w ++ rest)) (kindOfWord (String.ofList (upperAscii w))) := by
  have hf : firstWord (w ++ rest) = w := by
    unfold firstWord
    exact (takeWhile_append_stop hw hr).1
  unfold MarkedAs classify command
  rw [hf]
  generalize upperAscii w = u
  simp only [kindOfWord, ofList_eq, List.mem_cons, List.not_mem_nil, or_false]
  by_cases h1 : u = "SELECT".toList
  · subst h1; decide
  by_cases h2 : u = "BEGIN".toList ∨ u = "START".toList
  · rcases h2 with rfl | rfl <;> decide
  by_cases h3 : u = "COMMIT".toList
  · subst h3; decide
  by_cases h4 : u = "INSERT".toList ∨ u = "UPDATE".toList ∨ u = "DELETE".toList ∨ u = "REPLACE".toList
  · rcases h4 with rfl | rfl | rfl | rfl <;> decide
  by_cases h5 : u = "ALTER".toList ∨ u = "CREATE".toList ∨ u = "DROP".toList ∨ u = "RENAME".toList ∨
      u = "TRUNCATE".toList
  · rcases h5 with rfl | rfl | rfl | rfl | rfl <;> decide
  · simp only [h1, h2, h3, h4, h5, if_false]
    decide

/-- C38. Upper and lower case do not matter. -/
theorem C38_any_case (trx : String) (q1 q2 : Text) (h : upperAscii q1 = upperAscii q2) :
    classify trx q1 = classify trx q2 := by
  unfold classify command
  rw [← firstWord_upper, ← firstWord_upper, h]

/-- C38. The kind of a loaded statement is that of its query text: modifiers and data keys do not
change it. -/
theorem C38_kind_kept (env : TrxEnv) (f f1 f2 : FileSt) (s1 s2 : Stmt) (q : Text) (k : Kind)
    (mods : List Text) (c : Option Nat)
    (h1 : modLoop env f (classify env.trx q) mods = .ok (f1, s1, c))
    (h2 : finish env f1 s1 q = .ok (f2, s2)) (hk : MarkedAs (classify env.trx q) k) : MarkedAs s2 k := by
  have hadd : ∀ (s s' : Stmt) (m : LimitMod), addLimit s m = .ok s' → MarkedAs s k → MarkedAs s' k := by
    intro s s' m h hk
    unfold addLimit at h
    split at h
    · cases h; exact hk
    · cases h
  have hstep : ∀ (f f1 : FileSt) (s s1 : Stmt) (m : Text) (c : Option Nat),
      modStep env f s m = .ok (f1, s1, c) → MarkedAs s k → MarkedAs s1 k := by
    intro f f1 s s1 m c h hk
    unfold modStep at h
    split at h
    · cases h
    · dsimp only at h
      split at h
      · cases h; exact hk
      split at h
      · obtain ⟨_, -, h⟩ := Out.bind_ok h
        obtain ⟨_, -, h⟩ := Out.bind_ok h
        cases Out.pure_ok h; exact hk
      split at h
      · obtain ⟨_, -, h⟩ := Out.bind_ok h
        obtain ⟨_, -, h⟩ := Out.bind_ok h
        obtain ⟨_, -, h⟩ := Out.bind_ok h
        obtain ⟨s', ha, h⟩ := Out.bind_ok h
        cases Out.pure_ok h; exact hadd _ _ _ ha hk
      split at h
      · split at h
        · obtain ⟨_, -, h⟩ := Out.bind_ok h
          obtain ⟨s', ha, h⟩ := Out.bind_ok h
          cases Out.pure_ok h; exact hadd _ _ _ ha hk
        · cases h
      split at h
      · split at h
        · cases h
        · obtain ⟨_, -, h⟩ := Out.bind_ok h
          obtain ⟨⟨f2, k⟩, h2, h⟩ := Out.bind_ok h
          cases Out.pure_ok h; exact hk
      split at h
      · obtain ⟨⟨f2, k⟩, h2, h⟩ := Out.bind_ok h
        cases Out.pure_ok h; exact hk
      split at h
      · obtain ⟨_, -, h⟩ := Out.bind_ok h
        obtain ⟨_, -, h⟩ := Out.bind_ok h
        split at h
        · cases h
        split at h
        · cases Out.pure_ok h; exact hk
        · cases Out.pure_ok h; exact hk
      · cases h
  have hloop : ∀ (mods : List Text) (f f1 : FileSt) (s s1 : Stmt) (c : Option Nat),
      modLoop env f s mods = .ok (f1, s1, c) → MarkedAs s k → MarkedAs s1 k := by
    intro mods
    induction mods with
    | nil => intro f f1 s s1 c h hk; cases h; exact hk
    | cons m ms ih =>
      intro f f1 s s1 c h hk
      obtain ⟨⟨f2, s2, c2⟩, h1, h⟩ := Out.bind_ok h
      have := hstep _ _ _ _ _ _ h1 hk
      dsimp only at h
      split at h
      · cases Out.pure_ok h; exact this
      · exact ih _ _ _ _ _ h this
  have hm := hloop _ _ _ _ _ _ h1 hk
  unfold finish at h2
  obtain ⟨⟨d, q2⟩, -, h⟩ := Out.bind_ok h2
  dsimp only at h
  split at h
  · cases Out.pure_ok h; exact hm
  · obtain ⟨⟨f3, fm⟩, -, h⟩ := Out.bind_ok h
    cases Out.pure_ok h
    exact hm

/-- A statement with mixed case and a space after the first word. -/
example : MarkedAs (classify "t" "sElEcT 1".toList) .read :=
  C38_first_word_partial "t" "sElEcT".toList " 1".toList (by decide) (by decide)

/-- Statements that read rows but do not begin with the word SELECT are not reads, so they are executed
as statements without a result: a comment first, a parenthesis, a common table expression. -/
theorem C38_select_not_first_false :
    ∀ q ∈ ["/* x */ SELECT 1", "(SELECT 1) UNION (SELECT 2)", "WITH a AS (SELECT 1) SELECT 2"],
      MarkedAs (classify "t" q.toList) .other := by
  unfold MarkedAs
  decide

end Finch
