import Verif.Props.ClientWaits
/-!
C90: what follows an execution, and when values are saved for later statements.
-/
namespace Finch

/-! ### Specification -/

/-- Spec: the execution is recorded, if statistics are kept. -/
def recordOf : Option String → EvClass → List CEv
  | some name, k => [.record name k]
  | none, _ => []

/-- Spec: what is saved after a successful statement without result set: rows affected for its limit,
the insert id if another statement uses it. -/
def savedOf (st : Stmt) (d : StmtData) (i : Nat) : List CEv :=
  match st.limit.isSome, d.insertId.isSome with
  | true, true => [.affected i, .insertId i]
  | true, false => [.affected i]
  | false, true => [.insertId i]
  | false, false => []

/-- Spec: what happened after statement `i` was executed. -/
def AfterExec (c : Cli) (i : Nat) (post : List CEv) : Prop :=
  ∃ st d, c.statements[i]? = some st ∧ c.data[i]? = some d ∧
    (post = [.done] ∨
      ∃ stat rest, post = recordOf stat (evClass st) ++ rest ∧
        ((∃ code rest', rest = .failed i code :: rest') ∨
          (st.resultSet = true ∧ d.outputs = []) ∨
          (st.resultSet = true ∧ d.outputs ≠ [] ∧ (rest = [] ∨ ∃ rest', rest = .scanned i :: rest')) ∨
          (st.resultSet = false ∧ ∃ rest', rest = savedOf st d i ++ rest')))

/-- Spec: what happened before the values of a statement are saved. -/
def BeforeSaved (c : Cli) (pre : List CEv) : CEv → Prop
  | .insertId i => ∃ l n ps stat st d, c.statements[i]? = some st ∧ c.data[i]? = some d ∧
      st.resultSet = false ∧ d.insertId.isSome = true ∧
      pre = l ++ .exec i n ps :: (recordOf stat (evClass st) ++
        if st.limit.isSome then [.affected i] else [])
  | .affected i => ∃ l n ps stat st, c.statements[i]? = some st ∧
      st.resultSet = false ∧ st.limit.isSome = true ∧
      pre = l ++ .exec i n ps :: recordOf stat (evClass st)
  | .scanned i => ∃ l n ps stat st d, c.statements[i]? = some st ∧ c.data[i]? = some d ∧
      st.resultSet = true ∧ d.outputs ≠ [] ∧
      pre = l ++ .exec i n ps :: recordOf stat (evClass st)
  | _ => True

/-- Spec: `Q` holds of every event and what happened before it. -/
def AtEv (Q : List CEv → CEv → Prop) (tr : List CEv) : Prop :=
  ∀ (p : Nat) (e : CEv), tr[p]? = some e → Q (tr.take p) e

/-! ### Proofs -/

theorem recEv_eq (stat : Option String) (k : EvClass) : recEv stat k = recordOf stat k := by
  cases stat <;> rfl

theorem okEv_eq (st : Stmt) (d : StmtData) (i : Nat) : okEv st d i = savedOf st d i := by
  unfold okEv savedOf
  cases st.limit.isSome <;> cases d.insertId.isSome <;> rfl

theorem AtEv.append {Q : List CEv → CEv → Prop} {tr l : List CEv} (h : AtEv Q tr)
    (hl : ∀ q e, l[q]? = some e → Q (tr ++ l.take q) e) : AtEv Q (tr ++ l) := by
  intro p e hp
  by_cases hlt : p < tr.length
  · rw [List.getElem?_append_left hlt] at hp
    rw [List.take_append_of_le_length (by omega)]
    exact h p e hp
  · rw [List.getElem?_append_right (by omega)] at hp
    have := hl _ e hp
    rwa [List.take_append, List.take_of_length_le (by omega)]

def CEv.isSaved : CEv → Bool
  | .insertId _ | .affected _ | .scanned _ => true
  | _ => false

theorem BeforeSaved.of_not {c : Cli} {pre : List CEv} {e : CEv} (h : e.isSaved = false) :
    BeforeSaved c pre e := by
  cases e <;> first | exact trivial | cases h

theorem AtEv.plain {c : Cli} {tr l : List CEv} (h : AtEv (BeforeSaved c) tr)
    (hl : ∀ e ∈ l, e.isSaved = false) : AtEv (BeforeSaved c) (tr ++ l) :=
  h.append fun _ e he => BeforeSaved.of_not (hl e (List.mem_of_getElem? he))

/-- Where a client is between an execution and reading its rows. -/
structure AfterInv (c : Cli) (s : CState) : Prop where
  saved : AtEv (BeforeSaved c) s.trace
  scan : ∀ i, s.pc = .scan i → ∃ l n ps stat st d, c.statements[i]? = some st ∧
    c.data[i]? = some d ∧ st.resultSet = true ∧ d.outputs ≠ [] ∧
    s.trace = l ++ .exec i n ps :: recordOf stat (evClass st)
  after : ∀ p i n ps, s.trace[p]? = some (.exec i n ps) →
    (s.pc = .stopped .panic ∧ ∃ st d, c.statements[i]? = some st ∧ c.data[i]? = some d ∧
      s.trace.drop (p + 1) = [.done]) ∨
    (∃ st d stat, c.statements[i]? = some st ∧ c.data[i]? = some d ∧ s.pc = .scan i ∧
      st.resultSet = true ∧ d.outputs ≠ [] ∧ s.trace.drop (p + 1) = recordOf stat (evClass st)) ∨
    (∃ st d stat rest, c.statements[i]? = some st ∧ c.data[i]? = some d ∧
      s.trace.drop (p + 1) = recordOf stat (evClass st) ++ rest ∧
      ((∃ code rest', rest = .failed i code :: rest') ∨
        (st.resultSet = true ∧ d.outputs = []) ∨
        (st.resultSet = true ∧ d.outputs ≠ [] ∧ ∃ rest', rest = .scanned i :: rest') ∨
        (st.resultSet = false ∧ ∃ rest', rest = savedOf st d i ++ rest')))

/-- A step from a place where nothing is pending that adds events and no execution. -/
theorem AfterInv.plain {c : Cli} {s s' : CState} {l : List CEv} (hs : AfterInv c s)
    (h1 : s'.trace = s.trace ++ l) (hl : ∀ e ∈ l, e.isSaved = false)
    (hx : ∀ e ∈ l, e.isExec = false) (hp : s.pc ≠ .stopped .panic) (hsc : ∀ i, s.pc ≠ .scan i)
    (hsc' : ∀ i, s'.pc ≠ .scan i) : AfterInv c s' := by
  refine ⟨by rw [h1]; exact hs.saved.plain hl, fun i hi => absurd hi (hsc' i), ?_⟩
  intro p i n ps hpe
  rw [h1] at hpe ⊢
  by_cases hlt : p < s.trace.length
  · rw [List.getElem?_append_left hlt] at hpe
    rw [List.drop_append_of_le_length (by omega)]
    rcases hs.after p i n ps hpe with ⟨h, -⟩ | ⟨_, _, _, _, _, h, -⟩ | ⟨st, d, stat, rest, a1, a2, a3, a4⟩
    · exact absurd h hp
    · exact absurd h (hsc i)
    · refine Or.inr (Or.inr ⟨st, d, stat, rest ++ l, a1, a2, by rw [a3, List.append_assoc], ?_⟩)
      rcases a4 with ⟨code, r, rfl⟩ | h | ⟨b1, b2, r, rfl⟩ | ⟨b1, r, rfl⟩
      · exact Or.inl ⟨code, r ++ l, by simp⟩
      · exact Or.inr (Or.inl h)
      · exact Or.inr (Or.inr (Or.inl ⟨b1, b2, r ++ l, by simp⟩))
      · exact Or.inr (Or.inr (Or.inr ⟨b1, r ++ l, by simp⟩))
  · rw [List.getElem?_append_right (by omega)] at hpe
    cases hx _ (List.mem_of_getElem? hpe)

/-- A step that executes. -/
theorem AfterInv.execd {c : Cli} {s s' : CState} {l : List CEv} {i n : Nat} {ps : Option (Nat × Nat)}
    (hs : AfterInv c s) (hpc : s.pc = .exec i)
    (h1 : s'.trace = s.trace ++ .exec i n ps :: l) (hx : ∀ e ∈ l, e.isExec = false)
    (hl : ∀ q e, l[q]? = some e → BeforeSaved c (s.trace ++ .exec i n ps :: l.take q) e)
    (hscan : ∀ j, s'.pc = .scan j → ∃ l n ps stat st d, c.statements[j]? = some st ∧
      c.data[j]? = some d ∧ st.resultSet = true ∧ d.outputs ≠ [] ∧
      s'.trace = l ++ .exec j n ps :: recordOf stat (evClass st))
    (hafter : (s'.pc = .stopped .panic ∧ ∃ st d, c.statements[i]? = some st ∧ c.data[i]? = some d ∧
        l = [.done]) ∨
      (∃ st d stat, c.statements[i]? = some st ∧ c.data[i]? = some d ∧ s'.pc = .scan i ∧
        st.resultSet = true ∧ d.outputs ≠ [] ∧ l = recordOf stat (evClass st)) ∨
      (∃ st d stat rest, c.statements[i]? = some st ∧ c.data[i]? = some d ∧
        l = recordOf stat (evClass st) ++ rest ∧
        ((∃ code rest', rest = .failed i code :: rest') ∨
          (st.resultSet = true ∧ d.outputs = []) ∨
          (st.resultSet = true ∧ d.outputs ≠ [] ∧ ∃ rest', rest = .scanned i :: rest') ∨
          (st.resultSet = false ∧ ∃ rest', rest = savedOf st d i ++ rest')))) :
    AfterInv c s' := by
  refine ⟨?_, hscan, ?_⟩
  · rw [h1]
    refine hs.saved.append ?_
    intro q e he
    cases q with
    | zero =>
      simp only [List.getElem?_cons_zero, Option.some.injEq] at he
      subst he
      exact trivial
    | succ q =>
      rw [List.getElem?_cons_succ] at he
      rw [List.take_succ_cons]
      exact hl q e he
  · intro p j m ps' hpe
    rw [h1] at hpe ⊢
    by_cases hlt : p < s.trace.length
    · rw [List.getElem?_append_left hlt] at hpe
      rw [List.drop_append_of_le_length (by omega)]
      rcases hs.after p j m ps' hpe with ⟨h, -⟩ | ⟨_, _, _, _, _, h, -⟩ |
        ⟨st, d, stat, rest, a1, a2, a3, a4⟩
      · rw [hpc] at h; cases h
      · rw [hpc] at h; cases h
      · refine Or.inr (Or.inr ⟨st, d, stat, _, a1, a2, by rw [a3, List.append_assoc], ?_⟩)
        rcases a4 with ⟨code, r, rfl⟩ | h | ⟨b1, b2, r, rfl⟩ | ⟨b1, r, rfl⟩
        · exact Or.inl ⟨code, r ++ _, rfl⟩
        · exact Or.inr (Or.inl h)
        · exact Or.inr (Or.inr (Or.inl ⟨b1, b2, r ++ _, rfl⟩))
        · exact Or.inr (Or.inr (Or.inr ⟨b1, r ++ _, List.append_assoc ..⟩))
    · rw [List.getElem?_append_right (by omega)] at hpe
      cases hq : p - s.trace.length with
      | succ q =>
        rw [hq, List.getElem?_cons_succ] at hpe
        cases hx _ (List.mem_of_getElem? hpe)
      | zero =>
        rw [hq] at hpe
        cases hpe
        have : (s.trace ++ CEv.exec i n ps :: l).drop (p + 1) = l := by
          rw [List.drop_append, List.drop_of_length_le (by omega), List.nil_append,
            show p + 1 - s.trace.length = 1 by omega]
          rfl
        rw [this]
        exact hafter

theorem AfterInv.step {c : Cli} {s s' : CState} {a : Ans} (h : CStep c s a s') (hs : AfterInv c s) :
    AfterInv c s' := by
  have hrec : ∀ {stat : Option String} {k : EvClass}, ∀ e ∈ recEv stat k,
      e.isSaved = false ∧ e.isExec = false := fun e h => by
    obtain ⟨n, _, rfl⟩ := mem_recEv h; exact ⟨rfl, rfl⟩
  cases h
  case stmt i st d hpc hst hi hd =>
    refine hs.plain rfl (fun e he => ?_) (fun e he => ?_) (by simp [hpc]) (by simp [hpc]) ?_
    · rcases List.mem_append.mp he with he | he
      · rcases mem_waitEv he with rfl | rfl <;> rfl
      · rw [List.mem_singleton.mp he]; rfl
    · rcases List.mem_append.mp he with he | he
      · rcases mem_waitEv he with rfl | rfl <;> rfl
      · rw [List.mem_singleton.mp he]; rfl
    · intro j
      dsimp only
      split <;> simp
  case execNoStats i st d hpc hst hd hstat =>
    refine hs.execd hpc rfl (by simp [CEv.isExec]) ?_ (by simp) (Or.inl ⟨rfl, st, d, hst, hd, rfl⟩)
    intro q e he
    exact BeforeSaved.of_not (by rw [List.mem_singleton.mp (List.mem_of_getElem? he)]; rfl)
  case execFail i st d stat code hpc hst hd hstat he =>
    refine hs.execd hpc rfl (fun e he => ?_) ?_ (by simp)
      (Or.inr (Or.inr ⟨st, d, stat, [.failed i code], hst, hd, by rw [recEv_eq],
        Or.inl ⟨code, [], rfl⟩⟩))
    · rcases List.mem_append.mp he with he | he
      · exact (hrec e he).2
      · rw [List.mem_singleton.mp he]; rfl
    · intro q e he
      refine BeforeSaved.of_not ?_
      rcases List.mem_append.mp (List.mem_of_getElem? he) with he | he
      · exact (hrec e he).1
      · rw [List.mem_singleton.mp he]; rfl
  case execRows i st d stat hpc hst hd hstat hc he hr =>
    refine hs.execd hpc rfl (fun e he => (hrec e he).2)
      (fun q e he => BeforeSaved.of_not (hrec e (List.mem_of_getElem? he)).1) ?_ ?_
    · intro j hj
      dsimp only at hj
      split at hj
      · rename_i ho
        cases hj
        exact ⟨s.trace, _, _, stat, st, d, hst, hd, hr, ho, by rw [recEv_eq]⟩
      · cases hj
    · by_cases ho : d.outputs ≠ []
      · refine Or.inr (Or.inl ⟨st, d, stat, hst, hd, ?_, hr, ho, by rw [recEv_eq]⟩)
        dsimp only; rw [if_pos ho]
      · refine Or.inr (Or.inr ⟨st, d, stat, [], hst, hd, by rw [recEv_eq, List.append_nil], ?_⟩)
        exact Or.inr (Or.inl ⟨hr, by simpa using ho⟩)
  case execOk i st d stat hpc hst hd hstat hc he hr =>
    refine hs.execd hpc rfl (fun e he => ?_) ?_ (by simp)
      (Or.inr (Or.inr ⟨st, d, stat, savedOf st d i, hst, hd, by rw [recEv_eq, okEv_eq],
        Or.inr (Or.inr (Or.inr ⟨hr, [], by simp⟩))⟩))
    · rcases List.mem_append.mp he with he | he
      · exact (hrec e he).2
      · rcases mem_okEv he with rfl | rfl <;> rfl
    · intro q e he
      rw [okEv_eq, recEv_eq] at he ⊢
      by_cases hlt : q < (recordOf stat (evClass st)).length
      · rw [List.getElem?_append_left hlt] at he
        refine BeforeSaved.of_not ?_
        have := List.mem_of_getElem? he
        rw [← recEv_eq] at this
        exact (hrec e this).1
      · rw [List.getElem?_append_right (by omega)] at he
        rw [List.take_append, List.take_of_length_le (by omega)]
        generalize q - (recordOf stat (evClass st)).length = k at he ⊢
        unfold savedOf at he ⊢
        cases hlim : st.limit.isSome <;> cases hins : d.insertId.isSome <;> rw [hlim, hins] at he
        · cases he
        · cases k with
          | succ k => cases he
          | zero =>
            cases he
            exact ⟨s.trace, s.conn.getD 0, s.ps i, stat, st, d, hst, hd, hr, hins, by simp [hlim]⟩
        · cases k with
          | succ k => cases he
          | zero =>
            cases he
            exact ⟨s.trace, s.conn.getD 0, s.ps i, stat, st, hst, hr, hlim, by simp⟩
        · cases k with
          | zero =>
            cases he
            exact ⟨s.trace, s.conn.getD 0, s.ps i, stat, st, hst, hr, hlim, by simp⟩
          | succ k =>
            cases k with
            | succ k => cases he
            | zero =>
              cases he
              exact ⟨s.trace, s.conn.getD 0, s.ps i, stat, st, d, hst, hd, hr, hins, by simp [hlim]⟩
  case scanFail i e hpc he =>
    obtain ⟨l, n, ps, stat, st, d, hst, hd, hr, ho, htr⟩ := hs.scan i hpc
    refine ⟨hs.saved.plain (by simp [CEv.isSaved]), by simp, ?_⟩
    intro p j m ps' hpe
    dsimp only at hpe ⊢
    by_cases hlt : p < s.trace.length
    · rw [List.getElem?_append_left hlt] at hpe
      rw [List.drop_append_of_le_length (by omega)]
      rcases hs.after p j m ps' hpe with ⟨h, -⟩ | ⟨st', d', stat', b1, b2, b3, b4, b5, b6⟩ |
        ⟨st, d, stat, rest, a1, a2, a3, a4⟩
      · rw [hpc] at h; cases h
      · rw [hpc] at b3
        cases b3
        exact Or.inr (Or.inr ⟨st', d', stat', _, b1, b2, by rw [b6], Or.inl ⟨_, [], rfl⟩⟩)
      · refine Or.inr (Or.inr ⟨st, d, stat, _, a1, a2, by rw [a3, List.append_assoc], ?_⟩)
        rcases a4 with ⟨code, r, rfl⟩ | h | ⟨b1, b2, r, rfl⟩ | ⟨b1, r, rfl⟩
        · exact Or.inl ⟨code, r ++ _, rfl⟩
        · exact Or.inr (Or.inl h)
        · exact Or.inr (Or.inr (Or.inl ⟨b1, b2, r ++ _, rfl⟩))
        · exact Or.inr (Or.inr (Or.inr ⟨b1, r ++ _, List.append_assoc ..⟩))
    · rw [List.getElem?_append_right (by omega)] at hpe
      cases List.mem_singleton.mp (List.mem_of_getElem? hpe)
  case scanOk i hpc he =>
    obtain ⟨l, n, ps, stat, st, d, hst, hd, hr, ho, htr⟩ := hs.scan i hpc
    refine ⟨hs.saved.append ?_, by simp, ?_⟩
    · intro q e hq
      cases q with
      | succ q => cases hq
      | zero =>
        cases hq
        exact ⟨l, n, ps, stat, st, d, hst, hd, hr, ho, by rw [htr]; simp⟩
    intro p j m ps' hpe
    dsimp only at hpe ⊢
    by_cases hlt : p < s.trace.length
    · rw [List.getElem?_append_left hlt] at hpe
      rw [List.drop_append_of_le_length (by omega)]
      rcases hs.after p j m ps' hpe with ⟨h, -⟩ | ⟨st', d', stat', b1, b2, b3, b4, b5, b6⟩ |
        ⟨st, d, stat, rest, a1, a2, a3, a4⟩
      · rw [hpc] at h; cases h
      · rw [hpc] at b3
        cases b3
        exact Or.inr (Or.inr ⟨st', d', stat', _, b1, b2, by rw [b6],
          Or.inr (Or.inr (Or.inl ⟨b4, b5, [], rfl⟩))⟩)
      · refine Or.inr (Or.inr ⟨st, d, stat, _, a1, a2, by rw [a3, List.append_assoc], ?_⟩)
        rcases a4 with ⟨code, r, rfl⟩ | h | ⟨b1, b2, r, rfl⟩ | ⟨b1, r, rfl⟩
        · exact Or.inl ⟨code, r ++ _, rfl⟩
        · exact Or.inr (Or.inl h)
        · exact Or.inr (Or.inr (Or.inl ⟨b1, b2, r ++ _, rfl⟩))
        · exact Or.inr (Or.inr (Or.inr ⟨b1, r ++ _, List.append_assoc ..⟩))
    · rw [List.getElem?_append_right (by omega)] at hpe
      cases List.mem_singleton.mp (List.mem_of_getElem? hpe)
  case error i code stat hpc hstat =>
    refine hs.plain rfl (fun e he => ?_) (fun e he => ?_) (by simp [hpc]) (by simp [hpc]) (by simp)
    · obtain ⟨n, rfl⟩ := mem_errEv he; rfl
    · obtain ⟨n, rfl⟩ := mem_errEv he; rfl
  case ctxStop hc hpc =>
    refine hs.plain rfl (by simp [CEv.isSaved]) (by simp [CEv.isExec]) ?_ ?_ (by simp)
    · rcases hpc with ⟨_, h⟩ | ⟨_, h⟩ | ⟨_, h⟩ <;> simp [h]
    · rcases hpc with ⟨_, h⟩ | ⟨_, h⟩ | ⟨_, h⟩ <;> simp [h]
  all_goals first
    | exact hs
    | (refine hs.plain (List.append_nil _).symm (by simp) (by simp) (by simp [*]) (by simp [*]) (by simp); done)
    | (refine hs.plain rfl (by simp [CEv.isSaved]) (by simp [CEv.isExec]) (by simp [*]) (by simp [*])
        (by simp); done)

theorem afterInv_run (c : Cli) (as : List Ans) : AfterInv c (CState.init.run c as) :=
  CState.run_inv (P := AfterInv c) (fun s a s' h hs => hs.step h) as CState.init
    ⟨fun p e h => by simp [CState.init] at h, by simp [CState.init], fun p i n ps h => by
      simp [CState.init] at h⟩

/-- **C90.** After a statement is executed, first the execution is recorded (if statistics are kept);
then either it failed, or its rows are read (if columns are saved), or the rows affected and the
insert id are saved, exactly those that are used. (`done`: there are no statistics at this
index, which panics.) -/
theorem C90_after_execution (c : Cli) (as : List Ans) (p i n : Nat) (ps : Option (Nat × Nat))
    (h : (CState.init.run c as).trace[p]? = some (.exec i n ps)) :
    AfterExec c i ((CState.init.run c as).trace.drop (p + 1)) := by
  rcases (afterInv_run c as).after p i n ps h with ⟨-, st, d, h1, h2, h3⟩ |
    ⟨st, d, stat, h1, h2, -, h4, h5, h6⟩ | ⟨st, d, stat, rest, h1, h2, h3, h4⟩
  · exact ⟨st, d, h1, h2, Or.inl h3⟩
  · exact ⟨st, d, h1, h2, Or.inr ⟨stat, [], by rw [h6, List.append_nil],
      Or.inr (Or.inr (Or.inl ⟨h4, h5, Or.inl rfl⟩))⟩⟩
  · refine ⟨st, d, h1, h2, Or.inr ⟨stat, rest, h3, ?_⟩⟩
    rcases h4 with h | h | ⟨a1, a2, a3⟩ | h
    · exact Or.inl h
    · exact Or.inr (Or.inl h)
    · exact Or.inr (Or.inr (Or.inl ⟨a1, a2, Or.inr a3⟩))
    · exact Or.inr (Or.inr (Or.inr h))

/-- **C90.** Values are saved only right after the statement was executed without error: the insert id
and the rows affected of a statement without result set, the columns of one with a result set; never
for a statement whose values are not used. -/
theorem C90_saved_only_after_success (c : Cli) (as : List Ans) :
    AtEv (BeforeSaved c) (CState.init.run c as).trace :=
  (afterInv_run c as).saved

/-- A client that saves the insert id of its second statement. -/
def exInsertId : Cli :=
  { exClient false with
    data := [exData true false, { exData false false with insertId := some 0 }, exData false true] }

/-- The insert id is saved; an error later changes nothing. -/
example :
    let tr := (CState.init.run exInsertId (List.replicate 12 okAns ++ [failAns 1213])).trace
    CEv.insertId 1 ∉ tr ∧ CEv.failed 1 (some 1213) ∈ tr := by
  decide +kernel

example :
    let tr := (CState.init.run exInsertId (List.replicate 14 okAns)).trace
    CEv.insertId 1 ∈ tr := by
  decide +kernel

end Finch
