import Verif.Props.ClientPs
/-!
C49: a client stops when the context is cancelled or the data limit is reached, and says so once.
C78: cancellation is not an error.
-/
namespace Finch

/-- Has the client stopped. -/
def CPc.isStopped : CPc → Bool
  | .stopped _ => true
  | _ => false

/-! ### Done exactly once -/

theorem count_done_append {l m : List CEv} (h : CEv.done ∉ m) :
    (l ++ m).count .done = l.count .done := by
  rw [List.count_append, List.count_eq_zero.mpr h, Nat.add_zero]

theorem done_step {c : Cli} {s s' : CState} {a : Ans} (h : CStep c s a s')
    (hs : s.trace.count .done = if s.pc.isStopped then 1 else 0) :
    s'.trace.count .done = if s'.pc.isStopped then 1 else 0 := by
  have h0 : s.pc.isStopped = false → s.trace.count .done = 0 := fun h => by rw [hs, h]; rfl
  cases h
  case ctxStop hc hpc =>
    rw [List.count_append, h0 (by rcases hpc with ⟨e, h⟩ | ⟨e, h⟩ | ⟨e, h⟩ <;> rw [h] <;> rfl)]
    rfl
  case stmt i st d hpc hst hi hd =>
    dsimp only
    rw [count_done_append, h0 (by rw [hpc]; rfl)]
    · cases (!st.resultSet && st.limit.isSome) <;> rfl
    · intro hm
      rcases List.mem_append.mp hm with hm | hm
      · rcases mem_waitEv hm with h | h <;> cases h
      · cases List.mem_singleton.mp hm
  case execFail hpc hst hd hstat he =>
    rw [count_done_append, h0 (by rw [hpc]; rfl)]
    · rfl
    · intro hm
      rcases List.mem_cons.mp hm with hm | hm
      · cases hm
      · rcases List.mem_append.mp hm with hm | hm
        · obtain ⟨n, _, h⟩ := mem_recEv hm; cases h
        · cases List.mem_singleton.mp hm
  case execRows i st d stat hpc hst hd hstat hc he hr =>
    dsimp only
    rw [count_done_append, h0 (by rw [hpc]; rfl)]
    · by_cases ho : d.outputs = [] <;> simp [ho, CPc.isStopped]
    · intro hm
      rcases List.mem_cons.mp hm with hm | hm
      · cases hm
      · obtain ⟨n, _, h⟩ := mem_recEv hm; cases h
  case execOk hpc hst hd hstat hc he hr =>
    rw [count_done_append, h0 (by rw [hpc]; rfl)]
    · rfl
    · intro hm
      rcases List.mem_cons.mp hm with hm | hm
      · cases hm
      · rcases List.mem_append.mp hm with hm | hm
        · obtain ⟨n, _, h⟩ := mem_recEv hm; cases h
        · rcases mem_okEv hm with h | h <;> cases h
  case error hpc hstat =>
    rw [count_done_append, h0 (by rw [hpc]; rfl)]
    · rfl
    · intro hm
      obtain ⟨n, h⟩ := mem_errEv hm
      cases h
  case connFail => exact hs
  case stopped => exact hs
  all_goals
    dsimp only
    first
    | (rw [List.count_append, h0 (by simp only [*]; rfl)]; rfl)
    | (rw [h0 (by simp only [*]; rfl)]; rfl)

/-- **C49, done once.** In every run, a client has signalled done once if it has stopped, and not at
all before. -/
theorem C49_done_once (c : Cli) (as : List Ans) :
    (CState.init.run c as).trace.count .done =
      if (CState.init.run c as).pc.isStopped then 1 else 0 :=
  CState.run_inv (P := fun s => s.trace.count .done = if s.pc.isStopped then 1 else 0)
    (fun _ _ _ h hs => done_step h hs) as _ rfl

/-- **C49, done is last.** A client that has stopped does nothing any more. -/
theorem C49_nothing_after_done (c : Cli) (as bs : List Ans)
    (h : CEv.done ∈ (CState.init.run c as).trace) :
    (CState.init.run c (as ++ bs)).trace = (CState.init.run c as).trace := by
  have h1 := C49_done_once c as
  have h2 : (CState.init.run c as).pc.isStopped = true := by
    cases h3 : (CState.init.run c as).pc.isStopped with
    | true => rfl
    | false =>
      rw [h3] at h1
      exact absurd h (List.count_eq_zero.mp h1)
  rw [CState.run_append]
  generalize CState.init.run c as = s at h2
  have : s.run c bs = s := by
    induction bs with
    | nil => rfl
    | cons b bs ih =>
      rw [CState.run_cons]
      have : s.step c b = s := by
        unfold CState.step
        split <;> rename_i hpc <;> rw [hpc] at h2 <;> first | rfl | cases h2
      rw [this, ih]
  rw [this]

/-! ### After cancellation -/

/-- How many calls may still be made once the context is done. -/
def execCap : CPc → Nat
  | .error .. | .connect _ | .rollback .. | .close _ | .connLoop _ | .connected _ | .use _
  | .stopped _ => 0
  | _ => 1

/-- The number of executions. -/
def execs (tr : List CEv) : Nat := tr.countP CEv.isExec

theorem execs_append_none {l m : List CEv} (h : ∀ e ∈ m, e.isExec = false) :
    execs (l ++ m) = execs l := by
  unfold execs
  have h0 : m.countP CEv.isExec = 0 := List.countP_eq_zero.mpr (fun e he => by rw [h e he]; simp)
  rw [List.countP_append, h0, Nat.add_zero]

theorem execCap_step {c : Cli} {s s' : CState} {a : Ans} (h : CStep c s a s') (ha : a.ctxDone = true) :
    execs s'.trace + execCap s'.pc ≤ execs s.trace + execCap s.pc := by
  cases h
  case stmt i st d hpc hst hi hd =>
    dsimp only
    rw [execs_append_none, hpc]
    · cases (!st.resultSet && st.limit.isSome) <;> simp [execCap]
    · intro e he
      rcases List.mem_append.mp he with he | he
      · exact noExec_waitEv e he
      · rw [List.mem_singleton.mp he]; rfl
  case execFail i st d stat code hpc hst hd hstat he =>
    dsimp only
    rw [hpc, show s.trace ++ (CEv.exec i (s.conn.getD 0) (s.ps i) ::
      (recEv stat (evClass st) ++ [.failed i code])) = (s.trace ++ [.exec i (s.conn.getD 0) (s.ps i)]) ++
        (recEv stat (evClass st) ++ [.failed i code]) by simp, execs_append_none]
    · simp [execs, execCap, CEv.isExec]
    · intro e he
      rcases List.mem_append.mp he with he | he
      · exact noExec_recEv e he
      · rw [List.mem_singleton.mp he]; rfl
  case execNoStats hpc _ _ _ => rw [hpc]; simp [execs, execCap, CEv.isExec, List.countP_cons]
  case execRows hc _ _ => rw [ha] at hc; cases hc
  case execOk hc _ _ => rw [ha] at hc; cases hc
  case error hpc hstat =>
    dsimp only
    rw [execs_append_none noExec_errEv, hpc]
    exact Nat.le_refl _
  case ctxStop =>
    dsimp only
    rw [execs_append_none (by simp [CEv.isExec])]
    simp [execCap]
  case connFail => exact Nat.le_refl _
  case stopped => exact Nat.le_refl _
  case prepOk he _ => rw [ha] at he; simp at he
  case prepPanic he _ => rw [ha] at he; simp at he
  case rollbackCont he _ => rw [ha] at he; simp at he
  case rollbackClose he _ => rw [ha] at he; simp at he
  case useOk hc _ => rw [ha] at hc; cases hc
  case noDb hc _ => rw [ha] at hc; cases hc
  case connOk hc _ => rw [ha] at hc; cases hc
  case cont hc _ _ _ _ => rw [ha] at hc; cases hc
  all_goals
    dsimp only
    first
    | (rw [execs_append_none (by simp [CEv.isExec])]; simp only [*, execCap]; omega)
    | (simp only [*, execCap]; omega)

/-- **C49, cancelled.** After the context is cancelled a client makes at most one more call for a
statement, whatever else is answered; none if it was handling an error or connecting. -/
theorem C49_cancelled (c : Cli) (as bs : List Ans) (hb : ∀ b ∈ bs, b.ctxDone = true) :
    execs (CState.init.run c (as ++ bs)).trace ≤
      execs (CState.init.run c as).trace + execCap (CState.init.run c as).pc ∧
    execCap (CState.init.run c as).pc ≤ 1 := by
  refine ⟨?_, by generalize (CState.init.run c as).pc = pc; cases pc <;> simp [execCap]⟩
  rw [CState.run_append]
  generalize CState.init.run c as = s
  have : execs (s.run c bs).trace + execCap (s.run c bs).pc ≤ execs s.trace + execCap s.pc := by
    induction bs generalizing s with
    | nil => exact Nat.le_refl _
    | cons b bs ih =>
      rw [CState.run_cons]
      exact Nat.le_trans (ih (fun b hb' => hb b (by simp [hb'])) _)
        (execCap_step (s.step_cases c b) (hb b (by simp)))
  omega

/-- Is there a statement from `i` on that is not idle time. -/
def busyFrom (c : Cli) (i : Nat) : Bool := (c.statements.drop i).any fun st => decide (st.idle = 0)

theorem busyFrom_cons {c : Cli} {i : Nat} {st : Stmt} (h : c.statements[i]? = some st) :
    busyFrom c i = (decide (st.idle = 0) || busyFrom c (i + 1)) := by
  unfold busyFrom
  obtain ⟨hlt, he⟩ := List.getElem?_eq_some_iff.mp h
  rw [List.drop_eq_getElem_cons hlt, List.any_cons, he]

/-- Steps left once the context is done. -/
def stopIn (c : Cli) : CPc → Nat
  | .stopped _ => 0
  | .connect _ | .connLoop _ | .connected _ | .use _ | .rollback .. => 1
  | .close _ => 2
  | .error .. => 2
  | .exec _ => 3
  | .limit _ => 4
  | .head => c.statements.length + 6
  | .stmt i => if busyFrom c i then c.statements.length - i + 5
      else c.statements.length - i + 7 + c.statements.length
  | .scan i => 1 + if busyFrom c (i + 1) then c.statements.length - (i + 1) + 5
      else c.statements.length - (i + 1) + 7 + c.statements.length
  | .prep _ k => c.statements.length - k + 7 + c.statements.length

theorem stopIn_step {c : Cli} (hbusy : busyFrom c 0 = true) {s s' : CState} {a : Ans}
    (h : CStep c s a s') (ha : a.ctxDone = true) : stopIn c s'.pc ≤ stopIn c s.pc - 1 := by
  cases h
  case stopped hpc => rw [hpc]; simp [stopIn]
  case connFail hc _ => rw [ha] at hc; cases hc
  case prepOk he _ => rw [ha] at he; simp at he
  case prepPanic he _ => rw [ha] at he; simp at he
  case rollbackCont he _ => rw [ha] at he; simp at he
  case rollbackClose he _ => rw [ha] at he; simp at he
  case useOk hc _ => rw [ha] at hc; cases hc
  case noDb hc _ => rw [ha] at hc; cases hc
  case toUse hc _ => rw [ha] at hc; cases hc
  case connOk hc _ => rw [ha] at hc; cases hc
  case cont hc _ _ _ _ => rw [ha] at hc; cases hc
  case handledClose hc _ _ _ _ => rw [ha] at hc; cases hc
  case toRollback hc _ _ _ _ => rw [ha] at hc; cases hc
  case unknown hc _ _ _ => rw [ha] at hc; cases hc
  case connectFirst hc => rw [ha] at hc; cases hc
  case execRows hc _ _ => rw [ha] at hc; cases hc
  case execOk hc _ _ => rw [ha] at hc; cases hc
  case iterate hpc _ => rw [hpc]; simp [stopIn, hbusy]
  case stmtEnd i hpc hst =>
    have : busyFrom c i = false := by
      unfold busyFrom
      rw [List.drop_eq_nil_of_le (List.getElem?_eq_none_iff.mp hst)]
      rfl
    rw [hpc]
    simp [stopIn, this]
    omega
  case idle i st hpc hst hi =>
    have h1 := busyFrom_cons hst
    rw [decide_eq_false hi, Bool.false_or] at h1
    have hlt := (List.getElem?_eq_some_iff.mp hst).1
    rw [hpc]
    simp only [stopIn, h1]
    split <;> omega
  case stmt i st d hpc hst hi hd =>
    have h1 := busyFrom_cons hst
    rw [decide_eq_true hi, Bool.true_or] at h1
    rw [hpc]
    dsimp only
    cases (!st.resultSet && st.limit.isSome) <;> simp [stopIn, h1]
  case scanOk hpc he => rw [hpc]; simp only [stopIn]; omega
  case scanFail i e hpc he =>
    rw [hpc]
    simp only [stopIn]
    split <;> omega
  case prepSkip f k st hpc hst hp =>
    have hlt := (List.getElem?_eq_some_iff.mp hst).1
    rw [hpc]
    simp only [stopIn]
    omega
  case prepEnd hpc hst => rw [hpc]; simp only [stopIn]; omega
  case prepEndFirst hpc hst => rw [hpc]; simp only [stopIn]; omega
  all_goals
    dsimp only
    first
    | (simp only [*, stopIn]; omega)
    | (simp only [stopIn]; omega)

/-- **C49, it stops.** If a client has a statement that is not idle time, then once the context is
cancelled it stops within a number of steps that depends only on the number of its statements. -/
theorem C49_stops_partial (c : Cli) (hbusy : ∃ st ∈ c.statements, st.idle = 0) (as bs : List Ans)
    (hb : ∀ b ∈ bs, b.ctxDone = true) (hlen : 2 * c.statements.length + 8 ≤ bs.length) :
    (CState.init.run c (as ++ bs)).pc.isStopped = true := by
  have hbusy : busyFrom c 0 = true := by
    obtain ⟨st, h1, h2⟩ := hbusy
    unfold busyFrom
    rw [List.drop_zero, List.any_eq_true]
    exact ⟨st, h1, by simpa using h2⟩
  rw [CState.run_append]
  generalize CState.init.run c as = s
  have hle : stopIn c s.pc ≤ bs.length := by
    refine Nat.le_trans ?_ hlen
    generalize s.pc = pc
    cases pc <;> simp only [stopIn] <;> (try split) <;> omega
  have : stopIn c (s.run c bs).pc = 0 := by
    clear hlen
    induction bs generalizing s with
    | nil => exact Nat.le_zero.mp hle
    | cons b bs ih =>
      rw [CState.run_cons]
      refine ih (fun b hb' => hb b (by simp [hb'])) _ ?_
      have := stopIn_step hbusy (s.step_cases c b) (hb b (by simp))
      rw [List.length_cons] at hle
      omega
  revert this
  generalize (s.run c bs).pc = pc
  cases pc <;> simp only [stopIn, CPc.isStopped] <;> (try split) <;> intro h <;> first | rfl | omega

/-- **C49 is false for clients that only sleep.** A client whose statements are all idle time and that
has no limit of iterations does not stop when the context is cancelled: nothing in its loop looks at
the context. -/
theorem C49_only_idle_false (c : Cli) (hidle : ∀ st ∈ c.statements, st.idle ≠ 0) (h1 : c.iter = 0)
    (h2 : c.iterClients = 0) (h3 : c.iterExecGroup = 0) (as bs : List Ans)
    (hh : (CState.init.run c as).pc = .head) :
    (CState.init.run c (as ++ bs)).pc.isStopped = false := by
  rw [CState.run_append]
  have := CState.run_inv (c := c) (P := fun s => s.pc = .head ∨ ∃ i, s.pc = .stmt i)
    (fun s a s' h hs => ?_) bs _ (Or.inl hh)
  · rcases this with h | ⟨i, h⟩ <;> rw [h] <;> rfl
  · cases h
    case ctxStop hpc =>
      rcases hs with h | ⟨i, h⟩ <;> rw [h] at hpc <;> simp at hpc
    case limits hpc hl => simp [h1, h2, h3] at hl
    case iterate => exact Or.inr ⟨_, rfl⟩
    case stmtEnd => exact Or.inl rfl
    case idle => exact Or.inr ⟨_, rfl⟩
    case stmtPanic st hpc hst hi hd => exact absurd hi (hidle st (List.mem_of_getElem? hst))
    case stmt st d hpc hst hi hd => exact absurd hi (hidle st (List.mem_of_getElem? hst))
    case connFail hpc _ _ => exact hs
    case stopped => exact hs
    all_goals (rcases hs with h | ⟨i, h⟩ <;> simp only [*] at h <;> cases h)

/-- **C49, data limit.** When the data limit says that there is no more to write, the client stops
without executing the statement or any other. -/
theorem C49_data_limit (c : Cli) (as bs : List Ans) (a : Ans) (i : Nat)
    (hpc : (CState.init.run c as).pc = .limit i) (ha : a.more = false) :
    (CState.init.run c (as ++ a :: bs)).trace = (CState.init.run c as).trace ++ [.done] ∧
    (CState.init.run c (as ++ a :: bs)).pc = .stopped .regular := by
  have e1 : CState.init.run c (as ++ [a]) = (CState.init.run c as).stop .regular := by
    rw [CState.run_append]
    generalize CState.init.run c as = s at hpc
    show s.step c a = _
    simp only [CState.step, hpc, CState.limit, ha]
    rfl
  have e2 : (CState.init.run c (as ++ [a])).trace = (CState.init.run c as).trace ++ [.done] := by
    rw [e1]; rfl
  have e3 := C49_nothing_after_done c (as ++ [a]) bs (by rw [e2]; simp)
  rw [show as ++ a :: bs = as ++ [a] ++ bs by simp]
  refine ⟨e3.trans e2, ?_⟩
  rw [CState.run_append, e1]
  have : ∀ bs : List Ans, ((CState.init.run c as).stop .regular).run c bs =
      (CState.init.run c as).stop .regular := by
    intro bs
    induction bs with
    | nil => rfl
    | cons b bs ih => rw [CState.run_cons]; exact ih
  rw [this]
  rfl

/-- **C49, data limit.** A statement with a data limit is executed only after the limit allowed it. -/
theorem C49_limit_asked (c : Cli) (s : CState) (a : Ans) (i : Nat) (st : Stmt)
    (hst : c.statements[i]? = some st) (hl : st.resultSet = false) (hlim : st.limit.isSome = true)
    (h : (s.step c a).pc = .exec i) : s.pc = .limit i ∧ a.more = true := by
  have hs := s.step_cases c a
  revert h hs
  generalize s.step c a = s'
  intro h hs
  cases hs
  case more hpc hm => cases h; exact ⟨hpc, hm⟩
  case stmt j st' d hpc hst' hi hd =>
    dsimp only at h
    split at h
    · cases h
    · rename_i hx
      cases h
      rw [hst] at hst'
      cases hst'
      simp [hl, hlim] at hx
  case execRows => dsimp only at h; split at h <;> cases h
  case connFail hpc _ _ => rw [hpc] at h; cases h
  case stopped hpc => rw [hpc] at h; cases h
  all_goals cases h

/-! ### C78: cancellation is not an error -/

/-- **C78.** A client that stops at a step with the context done reports no error, unless it was
preparing a statement or rolling back (or the program panicked). What is missing: these two, see
`C78_prepare_false` and `C78_rollback_false`. -/
theorem C78_cancelled_no_error_partial (c : Cli) (as : List Ans) (a : Ans) (e : CEnd)
    (ha : a.ctxDone = true) (h0 : (CState.init.run c as).pc.isStopped = false)
    (h : (CState.init.run c (as ++ [a])).pc = .stopped e) :
    e.isError = false ∨ e = .panic ∨
      (e = .prepare ∧ ∃ f k, (CState.init.run c as).pc = .prep f k) ∨
      (e = .rollbackFailed ∧ ∃ f k i, (CState.init.run c as).pc = .rollback f k i) := by
  rw [CState.run_append] at h
  generalize CState.init.run c as = s at h h0
  have h : (s.step c a).pc = .stopped e := h
  have hs := s.step_cases c a
  revert h hs
  generalize s.step c a = s'
  intro h hs
  cases hs
  case ctxStop => cases h; exact Or.inl rfl
  case ddl hc _ _ _ => rw [ha] at hc; cases hc
  case useFail hc _ => rw [ha] at hc; cases hc
  case useCtx => cases h; exact Or.inl rfl
  case limits => cases h; exact Or.inl rfl
  case noMore => cases h; exact Or.inl rfl
  case rollbackFail hpc _ => cases h; exact Or.inr (Or.inr (Or.inr ⟨rfl, _, _, _, hpc⟩))
  case prepFail hpc _ _ _ _ => cases h; exact Or.inr (Or.inr (Or.inl ⟨rfl, _, _, hpc⟩))
  case connFail hpc _ _ => rw [hpc] at h; cases h
  case stopped hpc => rw [hpc] at h0; cases h0
  case stmt => dsimp only at h; split at h <;> cases h
  case execRows => dsimp only at h; split at h <;> cases h
  all_goals first
    | (cases h; exact Or.inr (Or.inl rfl))
    | (exfalso; cases h; done)

def cancelAns : Ans := { okAns with ctxDone := true }

/-- **C78 is false while preparing.** No error happens, the context is cancelled while the client
prepares; `fmt.Errorf("prepare: %s", err)` hides that it was the context. -/
theorem C78_prepare_false : ∃ (c : Cli) (as : List Ans) (e : CEnd), (∀ a ∈ as, a.err = none) ∧
    (CState.init.run c as).pc = .stopped e ∧ e.isError = true :=
  ⟨exClient true, List.replicate 5 okAns ++ [cancelAns], .prepare, by decide, by decide +kernel, rfl⟩

/-- **C78 is false while rolling back.** A lock wait timeout (which the client handles), then the
context is cancelled during `ROLLBACK`. -/
theorem C78_rollback_false : ∃ (c : Cli) (as : List Ans) (e : CEnd),
    (∀ a ∈ as, a.err = none ∨ a.err = some 1205) ∧
    (CState.init.run c as).pc = .stopped e ∧ e.isError = true :=
  ⟨exClient false, List.replicate 12 okAns ++ [failAns 1205, okAns, okAns, cancelAns],
    .rollbackFailed, by decide, by decide +kernel, rfl⟩

/-- The hypotheses are met: a client in the middle of its statements; after cancellation it makes
one call more. -/
example :
    let s := CState.init.run (exClient true) (List.replicate 12 okAns)
    let s' := s.run (exClient true) (List.replicate 20 cancelAns)
    s.pc = .exec 1 ∧ execs s'.trace = execs s.trace + 1 ∧ s'.pc = .stopped .ctx := by
  decide +kernel

example :
    let c := { exClient false with
      statements := [{ exStmt "INSERT" false true false false false with limit := some (.rows none) }]
      data := [exData true true] }
    (CState.init.run c (List.replicate 8 okAns)).pc = .limit 0 := by
  decide +kernel

example :
    let c := { exClient false with statements := [{ exStmt "" false false false false false with
      idle := 5 }] }
    (CState.init.run c (List.replicate 6 okAns)).pc = .head := by
  decide +kernel

end Finch
