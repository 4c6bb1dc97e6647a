import Verif.Props.ClientPs
/-!
C48: every executed query is recorded once, under its trx and class.
-/
namespace Finch

/-! ### Specification -/

/-- Spec: the number of trx begun by the first `n` statements. -/
def begun (data : List StmtData) (n : Nat) : Nat := (data.take n).countP (·.begin_)

/-- Spec: the entry of the statistics for the trx that statement `i` belongs to. -/
def statOf (c : Cli) (i : Nat) : Option (Option String) :=
  match begun c.data (i + 1) with
  | 0 => none
  | t + 1 => c.stats[t]?

/-- Spec: the class of a statement: queries with a result set are reads, then writes, commits and
the rest. -/
def ClassSpec (st : Stmt) : EvClass → Prop
  | .read => st.resultSet = true
  | .write => st.resultSet = false ∧ st.write = true
  | .commit => st.resultSet = false ∧ st.write = false ∧ st.commit = true
  | .total => st.resultSet = false ∧ st.write = false ∧ st.commit = false

/-- Spec: no trx begins with an idle "statement". -/
def NoIdleBegin (c : Cli) : Prop :=
  ∀ (i : Nat) st d, c.statements[i]? = some st → c.data[i]? = some d → d.begin_ = true → st.idle = 0

/-- Spec: every execution of a statement is followed at once by a record of it (if statistics
are kept for its trx), and every record follows an execution. -/
structure RecordedOnce (c : Cli) (tr : List CEv) : Prop where
  fwd : ∀ (p i n : Nat) (ps : Option (Nat × Nat)) (name : String),
    tr[p]? = some (.exec i n ps) → statOf c i = some (some name) →
    ∃ st k, c.statements[i]? = some st ∧ ClassSpec st k ∧ tr[p + 1]? = some (.record name k)
  bwd : ∀ (p : Nat) (name : String) (k : EvClass), tr[p]? = some (.record name k) →
    ∃ q i n ps st, p = q + 1 ∧ tr[q]? = some (.exec i n ps) ∧ c.statements[i]? = some st ∧
      ClassSpec st k ∧ statOf c i = some (some name)

/-- Spec: every error in the statistics follows at once the failure of a statement of that trx. -/
def ErrorsOnce (c : Cli) (tr : List CEv) : Prop :=
  ∀ (p : Nat) (name : String) (code : Nat), tr[p]? = some (.errorStat name code) →
    ∃ q i e, p = q + 1 ∧ tr[q]? = some (.failed i e) ∧ code = e.getD 0 ∧
      statOf c i = some (some name)

/-! ### Proofs -/

theorem evClass_spec (st : Stmt) : ClassSpec st (evClass st) := by
  unfold evClass
  cases h1 : st.resultSet <;> cases h2 : st.write <;> cases h3 : st.commit <;>
    simp [ClassSpec, h1, h2, h3]

theorem begun_succ (data : List StmtData) (n : Nat) :
    begun data (n + 1) = begun data n + (if (data[n]?.map (·.begin_)).getD false then 1 else 0) := by
  unfold begun
  rw [List.take_add_one, List.countP_append]
  cases h : data[n]? with
  | none => simp
  | some d => cases h2 : d.begin_ <;> simp [h2]

theorem statsAt_begun (c : Cli) (i : Nat) :
    c.statsAt ((begun c.data (i + 1) : Int) - 1) = statOf c i := by
  unfold Cli.statsAt statOf
  cases h : begun c.data (i + 1) with
  | zero => rfl
  | succ t =>
    rw [if_neg (by omega)]
    congr 1
    omega

/-- `trxNo` counts the trx begun in this iteration. -/
def trxNoInv (c : Cli) (s : CState) : Prop :=
  match s.pc with
  | .stmt i => s.trxNo = (begun c.data i : Int) - 1
  | .limit i | .exec i | .scan i | .error i _ => s.trxNo = (begun c.data (i + 1) : Int) - 1
  | _ => True

theorem trxNoInv.step {c : Cli} (hidle : NoIdleBegin c) {s s' : CState} {a : Ans}
    (h : CStep c s a s') (hs : trxNoInv c s) : trxNoInv c s' := by
  unfold trxNoInv at hs
  cases h
  case iterate => simp [trxNoInv, begun]
  case idle i st hpc hst hi =>
    rw [hpc] at hs
    show s.trxNo = _
    rw [hs, begun_succ]
    cases hd : c.data[i]? with
    | none => simp
    | some d =>
      cases hb : d.begin_ with
      | false => simp [hb]
      | true => exact absurd (hidle i st d hst hd hb) hi
  case stmt i st d hpc hst hi hd =>
    rw [hpc] at hs
    have hs : s.trxNo = (begun c.data i : Int) - 1 := hs
    have key : (if d.begin_ then s.trxNo + 1 else s.trxNo) = (begun c.data (i + 1) : Int) - 1 := by
      rw [begun_succ, hs, hd]
      cases hb : d.begin_ <;> simp [hb]
    cases hl : (!st.resultSet && st.limit.isSome) <;> simpa [trxNoInv, hl] using key
  case more i hpc hm => rw [hpc] at hs; exact hs
  case execFail i st d stat code hpc hst hd hstat he => rw [hpc] at hs; exact hs
  case execRows i st d stat hpc hst hd hstat hc he hr =>
    rw [hpc] at hs
    by_cases ho : d.outputs = [] <;> simpa [trxNoInv, ho] using hs
  case execOk i st d stat hpc hst hd hstat hc he hr => rw [hpc] at hs; exact hs
  case scanFail i e hpc he => rw [hpc] at hs; exact hs
  case scanOk i hpc he => rw [hpc] at hs; exact hs
  case connFail => exact hs
  case stopped => exact hs
  all_goals trivial

theorem RecordedOnce.nil (c : Cli) : RecordedOnce c [] :=
  ⟨by simp, by simp⟩

theorem RecordedOnce.append {c : Cli} {a b : List CEv} (ha : RecordedOnce c a)
    (hb : RecordedOnce c b) : RecordedOnce c (a ++ b) := by
  constructor
  · intro p i n ps name hp hn
    by_cases hlt : p < a.length
    · rw [List.getElem?_append_left hlt] at hp
      obtain ⟨st, k, h1, h2, h3⟩ := ha.fwd p i n ps name hp hn
      refine ⟨st, k, h1, h2, ?_⟩
      rw [List.getElem?_append_left (List.getElem?_eq_some_iff.mp h3).1]
      exact h3
    · rw [List.getElem?_append_right (by omega)] at hp
      obtain ⟨st, k, h1, h2, h3⟩ := hb.fwd _ i n ps name hp hn
      refine ⟨st, k, h1, h2, ?_⟩
      rw [List.getElem?_append_right (by omega), show p + 1 - a.length = p - a.length + 1 by omega]
      exact h3
  · intro p name k hp
    by_cases hlt : p < a.length
    · rw [List.getElem?_append_left hlt] at hp
      obtain ⟨q, i, n, ps, st, h1, h2, h3⟩ := ha.bwd p name k hp
      refine ⟨q, i, n, ps, st, h1, ?_, h3⟩
      rw [List.getElem?_append_left (by omega)]
      exact h2
    · rw [List.getElem?_append_right (by omega)] at hp
      obtain ⟨q, i, n, ps, st, h1, h2, h3⟩ := hb.bwd _ name k hp
      refine ⟨q + a.length, i, n, ps, st, by omega, ?_, h3⟩
      rw [List.getElem?_append_right (by omega), Nat.add_sub_cancel]
      exact h2

/-- Neither an execution nor a record. -/
def CEv.quiet : CEv → Bool
  | .exec .. | .record .. => false
  | _ => true

theorem RecordedOnce.quiet {c : Cli} {l : List CEv} (h : ∀ e ∈ l, e.quiet = true) :
    RecordedOnce c l :=
  ⟨fun _ _ _ _ _ hp _ => (by cases h _ (List.mem_of_getElem? hp)),
   fun _ _ _ hp => (by cases h _ (List.mem_of_getElem? hp))⟩

theorem RecordedOnce.exec {c : Cli} {i n : Nat} {ps : Option (Nat × Nat)} {st : Stmt}
    {stat : Option String} {l : List CEv} (hst : c.statements[i]? = some st)
    (hstat : statOf c i = some stat) (h : ∀ e ∈ l, e.quiet = true) :
    RecordedOnce c (.exec i n ps :: (recEv stat (evClass st) ++ l)) := by
  have hq : RecordedOnce c l := .quiet h
  rw [show CEv.exec i n ps :: (recEv stat (evClass st) ++ l) =
    (.exec i n ps :: recEv stat (evClass st)) ++ l by simp]
  refine RecordedOnce.append ?_ hq
  constructor
  · intro p j m ps' name hp hn
    cases stat with
    | none =>
      match p, hp with
      | 0, hp => cases hp; rw [hstat] at hn; cases hn
    | some nm =>
      match p, hp with
      | 0, hp =>
        cases hp
        rw [hstat] at hn
        cases hn
        exact ⟨st, _, hst, evClass_spec st, rfl⟩
      | 1, hp => cases hp
  · intro p name k hp
    cases stat with
    | none =>
      match p, hp with
      | 0, hp => cases hp
    | some nm =>
      match p, hp with
      | 0, hp => cases hp
      | 1, hp =>
        cases hp
        exact ⟨0, i, n, ps, st, rfl, rfl, hst, evClass_spec st, hstat⟩

theorem recordedOnce_step {c : Cli} {s s' : CState} {a : Ans}
    (h : CStep c s a s') (hs : trxNoInv c s) (hr : RecordedOnce c s.trace) :
    RecordedOnce c s'.trace := by
  unfold trxNoInv at hs
  cases h
  case execNoStats i st d hpc hst hd hstat =>
    rw [hpc] at hs
    rw [show s.trxNo = _ from hs, statsAt_begun] at hstat
    refine hr.append ?_
    constructor
    · intro p j m ps' name hp hn
      match p, hp with
      | 0, hp => cases hp; rw [hstat] at hn; cases hn
      | 1, hp => cases hp
    · intro p name k hp
      match p, hp with
      | 0, hp => cases hp
      | 1, hp => cases hp
  case execFail i st d stat code hpc hst hd hstat he =>
    rw [hpc] at hs
    rw [show s.trxNo = _ from hs, statsAt_begun] at hstat
    exact hr.append (.exec hst hstat (by simp [CEv.quiet]))
  case execRows i st d stat hpc hst hd hstat hc he hr' =>
    rw [hpc] at hs
    rw [show s.trxNo = _ from hs, statsAt_begun] at hstat
    have := RecordedOnce.exec (n := s.conn.getD 0) (ps := s.ps i) (l := []) hst hstat (by simp)
    rw [List.append_nil] at this
    exact hr.append this
  case execOk i st d stat hpc hst hd hstat hc he hr' =>
    rw [hpc] at hs
    rw [show s.trxNo = _ from hs, statsAt_begun] at hstat
    refine hr.append (.exec hst hstat ?_)
    intro e he
    rcases mem_okEv he with rfl | rfl <;> rfl
  case stmt =>
    refine hr.append (.quiet ?_)
    intro e he
    rcases List.mem_append.mp he with he | he
    · rcases mem_waitEv he with rfl | rfl <;> rfl
    · rw [List.mem_singleton.mp he]; rfl
  case error =>
    refine hr.append (.quiet ?_)
    intro e he
    obtain ⟨n, rfl⟩ := mem_errEv he
    rfl
  all_goals first
    | exact hr
    | (refine hr.append (.quiet ?_); simp [CEv.quiet])

/-- **C48, recorded once.** For every client whose trx do not begin with an idle entry and every run:
each execution of a statement is followed by exactly one record, under the trx the statement belongs to
and with the class of the statement; and there are no other records. -/
theorem C48_recorded_once_partial (c : Cli) (hidle : NoIdleBegin c) (as : List Ans) :
    RecordedOnce c (CState.init.run c as).trace :=
  (CState.run_inv (P := fun s => trxNoInv c s ∧ RecordedOnce c s.trace)
    (fun _ _ _ h hs => ⟨hs.1.step hidle h, recordedOnce_step h hs.1 hs.2⟩) as _
    ⟨by simp [trxNoInv, CState.init], .nil c⟩).2

/-! ### Errors -/

theorem ErrorsOnce.quiet {c : Cli} {tr l : List CEv} (h : ErrorsOnce c tr)
    (hl : ∀ e ∈ l, match e with | .errorStat .. => false | _ => true) : ErrorsOnce c (tr ++ l) := by
  intro p name code hp
  by_cases hlt : p < tr.length
  · rw [List.getElem?_append_left hlt] at hp
    obtain ⟨q, i, e, h1, h2, h3⟩ := h p name code hp
    refine ⟨q, i, e, h1, ?_, h3⟩
    rw [List.getElem?_append_left (by omega)]
    exact h2
  · rw [List.getElem?_append_right (by omega)] at hp
    cases hl _ (List.mem_of_getElem? hp)

theorem ErrorsOnce.one {c : Cli} {tr : List CEv} {i : Nat} {e : Option Nat} {name : String}
    (h : ErrorsOnce c tr) (hlast : tr.getLast? = some (.failed i e))
    (hn : statOf c i = some (some name)) : ErrorsOnce c (tr ++ [.errorStat name (e.getD 0)]) := by
  intro p nm code hp
  by_cases hlt : p < tr.length
  · rw [List.getElem?_append_left hlt] at hp
    obtain ⟨q, i, e, h1, h2, h3⟩ := h p nm code hp
    refine ⟨q, i, e, h1, ?_, h3⟩
    rw [List.getElem?_append_left (by omega)]
    exact h2
  · rw [List.getElem?_append_right (by omega)] at hp
    have hp0 : p - tr.length = 0 := by
      by_contra hne
      rw [List.getElem?_eq_none (by simp; omega)] at hp
      cases hp
    rw [hp0] at hp
    cases hp
    rw [List.getLast?_eq_getElem?] at hlast
    have hpos : tr.length ≠ 0 := by
      intro h0
      rw [List.length_eq_zero_iff.mp h0] at hlast
      cases hlast
    refine ⟨tr.length - 1, i, e, by omega, ?_, rfl, hn⟩
    rw [List.getElem?_append_left (by omega)]
    exact hlast

/-- In front of the error handling, the failure is the last event. -/
def failedLast (s : CState) : Prop :=
  ∀ i e, s.pc = .error i e → s.trace.getLast? = some (.failed i e)

theorem failedLast.step {c : Cli} {s s' : CState} {a : Ans} (h : CStep c s a s')
    (hs : failedLast s) : failedLast s' := by
  intro j e hj
  cases h
  case execFail i st d stat code hpc hst hd hstat he =>
    cases hj
    simp [List.getLast?_append, List.getLast?_cons]
  case scanFail => cases hj; simp
  case execRows => exfalso; revert hj; dsimp only; split <;> simp
  case stmt => exfalso; revert hj; dsimp only; split <;> simp
  case connFail => exact hs j e hj
  case stopped => exact hs j e hj
  all_goals cases hj

theorem errorsOnce_step {c : Cli} {s s' : CState} {a : Ans} (h : CStep c s a s')
    (hs : trxNoInv c s) (hf : failedLast s) (hr : ErrorsOnce c s.trace) : ErrorsOnce c s'.trace := by
  unfold trxNoInv at hs
  cases h
  case error i code stat hpc hstat =>
    rw [hpc] at hs
    rw [show s.trxNo = _ from hs, statsAt_begun] at hstat
    unfold errEv
    cases stat with
    | none => dsimp only; rw [List.append_nil]; exact hr
    | some name =>
      dsimp only
      split
      · rw [List.append_nil]; exact hr
      · exact hr.one (hf _ _ hpc) hstat
  case stmt =>
    refine hr.quiet ?_
    intro e he
    rcases List.mem_append.mp he with he | he
    · rcases mem_waitEv he with rfl | rfl <;> rfl
    · rw [List.mem_singleton.mp he]
  case execFail =>
    refine hr.quiet ?_
    intro e he
    rcases List.mem_cons.mp he with he | he
    · subst he; rfl
    · rcases List.mem_append.mp he with he | he
      · obtain ⟨n, _, rfl⟩ := mem_recEv he; rfl
      · rw [List.mem_singleton.mp he]
  case execRows =>
    refine hr.quiet ?_
    intro e he
    rcases List.mem_cons.mp he with he | he
    · subst he; rfl
    · obtain ⟨n, _, rfl⟩ := mem_recEv he; rfl
  case execOk =>
    refine hr.quiet ?_
    intro e he
    rcases List.mem_cons.mp he with he | he
    · subst he; rfl
    · rcases List.mem_append.mp he with he | he
      · obtain ⟨n, _, rfl⟩ := mem_recEv he; rfl
      · rcases mem_okEv he with rfl | rfl <;> rfl
  all_goals first
    | exact hr
    | (refine hr.quiet ?_; simp)

theorem errorsInv_run (c : Cli) (hidle : NoIdleBegin c) (as : List Ans) :
    trxNoInv c (CState.init.run c as) ∧ failedLast (CState.init.run c as) ∧
      ErrorsOnce c (CState.init.run c as).trace :=
  CState.run_inv (P := fun s => trxNoInv c s ∧ failedLast s ∧ ErrorsOnce c s.trace)
    (fun _ _ _ h hs => ⟨hs.1.step hidle h, hs.2.1.step h, errorsOnce_step h hs.1 hs.2.1 hs.2.2⟩)
    as _ ⟨by simp [trxNoInv, CState.init], (by intro i e h; cases h),
      (by intro p n k h; simp [CState.init] at h)⟩

/-- **C48, errors.** Every error counted belongs to a failure just before it, of a statement of that
trx and with its code. -/
theorem C48_errors_once_partial (c : Cli) (hidle : NoIdleBegin c) (as : List Ans) :
    ErrorsOnce c (CState.init.run c as).trace := (errorsInv_run c hidle as).2.2

/-- **C48, errors.** When a statement has just failed and the context is not done, the next thing the
client does is to count one error, under the trx of the statement and with the code. -/
theorem C48_failure_is_counted_partial (c : Cli) (hidle : NoIdleBegin c) (as : List Ans) (a b : Ans)
    (i : Nat) (code : Option Nat) (name : String)
    (hf : ∃ l, (CState.init.run c (as ++ [b])).trace =
      (CState.init.run c as).trace ++ (l ++ [.failed i code]))
    (hn : statOf c i = some (some name)) (ha : a.ctxDone = false) :
    (CState.init.run c (as ++ [b] ++ [a])).trace =
      (CState.init.run c (as ++ [b])).trace ++ [.errorStat name (code.getD 0)] := by
  have hpc : (CState.init.run c (as ++ [b])).pc = .error i code := by
    obtain ⟨l, hl⟩ := hf
    rw [CState.run_append] at hl ⊢
    revert hl
    generalize CState.init.run c as = s
    intro hl
    have hst := s.step_cases c b
    show (s.step c b).pc = _
    replace hl : (s.step c b).trace = s.trace ++ (l ++ [.failed i code]) := hl
    revert hl hst
    generalize s.step c b = s'
    intro hst hl
    have hlast : ∀ {m : List CEv}, s'.trace = s.trace ++ m → m.getLast? = some (.failed i code) := by
      intro m hm
      rw [hm] at hl
      rw [List.append_cancel_left hl]
      simp
    cases hst
    case execFail hpc hst hd hstat he =>
      have := hlast rfl
      simp only [List.getLast?_cons, List.getLast?_append, List.getLast?_singleton] at this
      simp at this
      obtain ⟨rfl, rfl⟩ := this
      rfl
    case scanFail hpc he =>
      have := hlast rfl
      simp at this
      obtain ⟨rfl, rfl⟩ := this
      rfl
    case stmt => have := hlast rfl; simp at this
    case execRows i st d stat _ _ _ _ _ _ _ =>
      have := hlast rfl
      cases stat <;> simp [recEv] at this
    case execOk i' st d stat _ _ _ _ _ _ _ =>
      have := hlast rfl
      have hm := List.mem_of_getLast? this
      rcases List.mem_cons.mp hm with hm | hm
      · cases hm
      · rcases List.mem_append.mp hm with hm | hm
        · obtain ⟨n, _, h⟩ := mem_recEv hm; cases h
        · rcases mem_okEv hm with h | h <;> cases h
    case error =>
      have := hlast rfl
      obtain ⟨n, h⟩ := mem_errEv (List.mem_of_getLast? this)
      cases h
    all_goals first
      | (have := hlast rfl; simp at this; done)
      | (have := hlast (List.append_nil _).symm; simp at this; done)
  have hinv := (errorsInv_run c hidle (as ++ [b])).1
  rw [CState.run_append c _ (as ++ [b])]
  generalize CState.init.run c (as ++ [b]) = s at hpc hinv
  unfold trxNoInv at hinv
  rw [hpc] at hinv
  show (s.step c a).trace = _
  simp only [CState.step, hpc, CState.error]
  rw [show s.trxNo = _ from hinv, statsAt_begun, hn]
  simp [ha, CState.log, CState.goto]

/-! ### Allocated clients -/

/-- Spec: statement `i` of a client with these trx is statement number `q` of trx number `t`, which
is `name`. -/
def StmtPos (stmts : GoMap String (List Stmt)) (trx : List String) (i t q : Nat) (name : String)
    (st : Stmt) : Prop :=
  trx[t]? = some name ∧ ((stmts name).getD [])[q]? = some st ∧
    i = ((trx.take t).flatMap fun n => (stmts n).getD []).length + q

theorem stmtPos_of {stmts : GoMap String (List Stmt)} {trx : List String} : ∀ {i : Nat} {st : Stmt},
    (trx.flatMap fun n => (stmts n).getD [])[i]? = some st →
    ∃ t q name, StmtPos stmts trx i t q name st := by
  induction trx with
  | nil => intro i st h; simp at h
  | cons x xs ih =>
    intro i st h
    rw [List.flatMap_cons] at h
    by_cases hlt : i < ((stmts x).getD []).length
    · rw [List.getElem?_append_left hlt] at h
      exact ⟨0, i, x, rfl, h, by simp⟩
    · rw [List.getElem?_append_right (by omega)] at h
      obtain ⟨t, q, name, h1, h2, h3⟩ := ih h
      refine ⟨t + 1, q, name, by simpa using h1, h2, ?_⟩
      rw [List.take_succ_cons, List.flatMap_cons, List.length_append]
      omega

theorem marks_take (n q : Nat) (h : q < n) :
    ((marks n).take (q + 1)).countP (·.1) = 1 := by
  unfold marks
  rw [← List.map_take, List.take_range, Nat.min_eq_left (by omega), List.range_succ_eq_map,
    List.map_cons, List.countP_cons, List.map_map, List.countP_map]
  have : List.countP ((fun x : Bool × Bool => x.1) ∘ (fun i => (decide (i = 0), decide (i + 1 = n))) ∘
      Nat.succ) (List.range q) = 0 := by
    rw [List.countP_eq_zero]
    intro x _
    simp
  rw [this]
  simp

theorem marks_length (n : Nat) : (marks n).length = n := by simp [marks]

theorem marks_begun {f : String → Nat} {trx : List String} (hpos : ∀ n ∈ trx, 0 < f n) :
    ∀ {t q : Nat} {name : String}, trx[t]? = some name → q < f name →
    ((trx.flatMap fun n => marks (f n)).take (((trx.take t).map f).sum + q + 1)).countP (·.1) =
      t + 1 := by
  induction trx with
  | nil => intro t q name h; simp at h
  | cons x xs ih =>
    intro t q name h hq
    rw [List.flatMap_cons]
    cases t with
    | zero =>
      cases h
      rw [List.take_append_of_le_length (by rw [marks_length]; simp; omega)]
      simpa using marks_take (f x) q hq
    | succ t =>
      have h : xs[t]? = some name := by simpa using h
      have := ih (fun n hn => hpos n (by simp [hn])) h hq
      rw [List.take_succ_cons, List.map_cons, List.sum_cons, List.take_append, marks_length,
        List.take_of_length_le (by rw [marks_length]; omega), List.countP_append,
        show f x + ((xs.take t).map f).sum + q + 1 - f x = ((xs.take t).map f).sum + q + 1 by omega,
        this]
      have h1 := marks_take (f x) (f x - 1) (by have := hpos x (by simp); omega)
      have hx := hpos x (by simp)
      rw [show f x - 1 + 1 = f x by omega, List.take_of_length_le (by rw [marks_length])] at h1
      rw [h1]
      omega

/-- **C48.** In an allocated client, the entry of the statistics used for a statement is the one of the
trx (file) the statement comes from. -/
theorem C48_own_trx {env : WEnv} {w : List CGCfg} {q t : Nat} {s : DataScope}
    {groups : List (List Nat)} {st : WState} {res : List (List ACGroup)} (hne : NoEmptyTrx env w)
    (h : allocClients env w q t s groups = .ok (st, res)) {e j c : Nat} {a : AClient}
    (ha : ClientAt res e j c a) (tbl : GoMap Nat Nat) : ∃ cg, CfgAt w groups e j cg ∧
      (∀ i x, a.statements[i]? = some x → ∃ t q name, StmtPos env.stmts cg.trx i t q name x) ∧
      ∀ i t q name x, StmtPos env.stmts cg.trx i t q name x → a.statements[i]? = some x ∧
        statOf (a.cli tbl) i =
          some (if env.withStats && !cg.disableStats then some name else none) := by
  obtain ⟨cg, hcg, -, hok⟩ := allocClients_at hne h ha
  have hmem : cg ∈ w := by
    obtain ⟨g, ref, -, -, h3⟩ := hcg
    exact List.mem_of_getElem? h3
  refine ⟨cg, hcg, ?_, ?_⟩
  · intro i x hx
    rw [hok.statements] at hx
    exact stmtPos_of hx
  · rintro i t q name x ⟨h1, h2, h3⟩
    have hlen : ∀ l : List String, (l.flatMap fun n => (env.stmts n).getD []).length =
        (l.map fun n => ((env.stmts n).getD []).length).sum := by
      intro l
      rw [List.length_flatMap]
    constructor
    · rw [hok.statements, h3]
      have := List.getElem?_eq_some_iff.mp h1
      obtain ⟨htl, hte⟩ := this
      have hsplit : cg.trx.flatMap (fun n => (env.stmts n).getD []) =
          ((cg.trx.take t) ++ (cg.trx.drop t)).flatMap (fun n => (env.stmts n).getD []) := by
        rw [List.take_append_drop]
      rw [hsplit, List.flatMap_append, List.getElem?_append_right (by omega), Nat.add_sub_cancel_left,
        List.drop_eq_getElem_cons htl, hte, List.flatMap_cons,
        List.getElem?_append_left (List.getElem?_eq_some_iff.mp h2).1]
      exact h2
    · have hb : begun a.data (i + 1) = t + 1 := by
        have := marks_begun (f := fun n => ((env.stmts n).getD []).length)
          (fun n hn => List.length_pos_iff.mpr (hne cg hmem n hn)) h1
          (List.getElem?_eq_some_iff.mp h2).1
        rw [← hlen, ← h3, ← hok.marks, ← List.map_take, List.countP_map] at this
        exact this
      unfold statOf
      rw [show (a.cli tbl).data = a.data from rfl, hb]
      show a.stats[t]? = _
      rw [hok.stats, List.getElem?_map, h1]
      rfl

theorem C48_no_idle_first {env : WEnv} {w : List CGCfg} {q t : Nat} {s : DataScope}
    {groups : List (List Nat)} {st : WState} {res : List (List ACGroup)} (hne : NoEmptyTrx env w)
    (hidle : ∀ cg ∈ w, ∀ n ∈ cg.trx, ∀ x, ((env.stmts n).getD [])[0]? = some x → x.idle = 0)
    (h : allocClients env w q t s groups = .ok (st, res)) {e j c : Nat} {a : AClient}
    (ha : ClientAt res e j c a) (tbl : GoMap Nat Nat) : NoIdleBegin (a.cli tbl) := by
  obtain ⟨cg, hcg, -, hok⟩ := allocClients_at hne h ha
  have hmem : cg ∈ w := by
    obtain ⟨g, ref, -, -, h3⟩ := hcg
    exact List.mem_of_getElem? h3
  have key : ∀ (trx : List String), (∀ n ∈ trx, n ∈ cg.trx) → ∀ (i : Nat) x b,
      (trx.flatMap fun n => (env.stmts n).getD [])[i]? = some x →
      (trx.flatMap fun n => marks ((env.stmts n).getD []).length)[i]? = some (true, b) →
      x.idle = 0 := by
    intro trx
    induction trx with
    | nil => intro _ i x b h; simp at h
    | cons y ys ih =>
      intro hsub i x b h1 h2
      rw [List.flatMap_cons] at h1 h2
      by_cases hlt : i < ((env.stmts y).getD []).length
      · rw [List.getElem?_append_left hlt] at h1
        rw [List.getElem?_append_left (by rw [marks_length]; exact hlt)] at h2
        have : i = 0 := by
          unfold marks at h2
          rw [List.getElem?_map, List.getElem?_range hlt] at h2
          simp at h2
          exact h2.1
        subst this
        exact hidle cg hmem y (hsub y (by simp)) x h1
      · rw [List.getElem?_append_right (by omega)] at h1
        rw [List.getElem?_append_right (by rw [marks_length]; omega), marks_length] at h2
        exact ih (fun n hn => hsub n (by simp [hn])) _ x b h1 h2
  intro i x d hx hd hb
  have hx : a.statements[i]? = some x := hx
  have hd : a.data[i]? = some d := hd
  rw [hok.statements] at hx
  refine key cg.trx (fun _ h => h) i x d.end_ hx ?_
  rw [← hok.marks, List.getElem?_map, hd]
  simp [hb]

/-- **C48, all together.** A client allocated from trx that do not begin with idle entries, with
statistics: each time it executes a statement, the next event is one record under the name of the
statement's trx with the statement's class. -/
theorem C48_allocated_client_partial {env : WEnv} {w : List CGCfg} {q t : Nat} {s : DataScope}
    {groups : List (List Nat)} {st : WState} {res : List (List ACGroup)} (hne : NoEmptyTrx env w)
    (hidle : ∀ cg ∈ w, ∀ n ∈ cg.trx, ∀ x, ((env.stmts n).getD [])[0]? = some x → x.idle = 0)
    (h : allocClients env w q t s groups = .ok (st, res)) {e j c : Nat} {a : AClient}
    (ha : ClientAt res e j c a) (tbl : GoMap Nat Nat) (as : List Ans) :
    ∃ cg, CfgAt w groups e j cg ∧ (env.withStats = true → cg.disableStats = false →
      ∀ (p i n : Nat) ps, (CState.init.run (a.cli tbl) as).trace[p]? = some (.exec i n ps) →
        ∃ t q name x k, StmtPos env.stmts cg.trx i t q name x ∧ ClassSpec x k ∧
          (CState.init.run (a.cli tbl) as).trace[p + 1]? = some (.record name k)) := by
  obtain ⟨cg, h1, h2, h3⟩ := C48_own_trx hne h ha tbl
  refine ⟨cg, h1, ?_⟩
  intro hw hd p i n ps hp
  have hex : ∃ x, a.statements[i]? = some x := by
    have := run_atExec (c := a.cli tbl) (P := fun _ => True)
      (Q := fun _ i _ _ => ∃ x, a.statements[i]? = some x) trivial (fun _ _ _ _ _ => trivial)
      (fun s i st d _ _ hst _ => ⟨st, hst⟩) as
    exact this p i n ps hp
  obtain ⟨x, hx⟩ := hex
  obtain ⟨t, q, name, hpos⟩ := h2 i x hx
  have hst := (h3 i t q name x hpos).2
  rw [hw, hd] at hst
  obtain ⟨y, k, f1, f2, f3⟩ := (C48_recorded_once_partial (a.cli tbl)
    (C48_no_idle_first hne hidle h ha tbl) as).fwd p i n ps name hp hst
  have f1 : a.statements[i]? = some y := f1
  rw [hx] at f1
  cases f1
  exact ⟨t, q, name, x, k, hpos, f2, f3⟩

/-- An idle entry. -/
def exIdle : Stmt := { exStmt "" false false false false false with idle := 1 }

/-- **C48 is false for idle entries at the beginning of a trx.** Such an entry carries the BEGIN mark,
and the client does not look at it. Two trx `a` and `b`, the second begins with an idle entry: its
query is counted under `a`. If the first begins so, the client stops with an index out of range after
its first query. -/
theorem C48_idle_first_false :
    (let c : Cli := { exClient false with
        statements := [exStmt "SELECT 1" true false false false false, exIdle,
          exStmt "SELECT 2" true false false false false]
        data := [exData true true, exData true false, exData false true]
        stats := [some "a", some "b"] }
     let s := CState.init.run c (List.replicate 14 okAns)
     statOf c 2 = some (some "b") ∧
     s.trace.filter (fun e => !e.quiet) = [.exec 0 0 none, .record "a" .read,
       .exec 2 0 none, .record "a" .read]) ∧
    (let c : Cli := { exClient false with
        statements := [exIdle, exStmt "SELECT 2" true false false false false]
        data := [exData true false, exData false true]
        stats := [some "a"] }
     (CState.init.run c (List.replicate 30 okAns)).pc = .stopped .panic) := by
  decide +kernel

/-- The hypotheses are met by a client of a demo workload; its second statement is counted under its
trx. -/
example : NoIdleBegin (exClient true) := by
  intro i st d hst _ _
  match i, hst with
  | 0, hst => cases hst; rfl
  | 1, hst => cases hst; rfl
  | 2, hst => cases hst; rfl

end Finch
