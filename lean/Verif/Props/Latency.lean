import Verif.Model.Latency
import Verif.Props.ClientStats
import Verif.Props.ClientStop
import Verif.Props.Stats
/-!
# C113: response times
-/
namespace Finch

/-- Times of a step are in order, and steps one after the other. -/
def InTime : ℤ → List TAns → Prop
  | _, [] => True
  | now, x :: xs => now ≤ x.began ∧ x.began ≤ x.start ∧ x.start ≤ x.sent ∧ x.sent ≤ x.answered ∧
      x.answered ≤ x.stop ∧ x.stop ≤ x.ended ∧ InTime x.ended xs

/-- The queries among what was recorded. -/
def queries (es : List (String × TrxEvent)) : List ℤ :=
  es.filterMap fun e =>
    match e.2 with
    | .query _ us => some us
    | .error _ => none

/-- The time of a run in steps that execute a statement. -/
def execTime (c : Cli) : CState → List TAns → ℤ
  | _, [] => 0
  | s, x :: xs =>
    (match s.pc with
      | .exec _ => x.ended - x.began
      | _ => 0) + execTime c (s.step c x.ans) xs

/-- The time of a run in which MySQL executes a statement whose trx has statistics. -/
def mysqlTime (c : Cli) : CState → List TAns → ℤ
  | _, [] => 0
  | s, x :: xs =>
    (match s.pc with
      | .exec i =>
        if c.statements[i]?.isSome ∧ c.data[i]?.isSome ∧ (c.statsAt s.trxNo).join.isSome then x.answered - x.sent
        else 0
      | _ => 0) + mysqlTime c (s.step c x.ans) xs

/-- The number of executions of statements whose trx have statistics. -/
def execCount (c : Cli) : CState → List TAns → Nat
  | _, [] => 0
  | s, x :: xs =>
    (match s.pc with
      | .exec i =>
        if c.statements[i]?.isSome ∧ c.data[i]?.isSome ∧ (c.statsAt s.trxNo).join.isSome then 1 else 0
      | _ => 0) + execCount c (s.step c x.ans) xs

theorem recorded_exec (us : ℤ) (i n : Nat) (ps : Option (Nat × Nat)) (l : List CEv) :
    (CEv.exec i n ps :: l).filterMap (CEv.recorded us) = l.filterMap (CEv.recorded us) := rfl

theorem recorded_record (us : ℤ) (name : String) (k : EvClass) (l : List CEv) :
    (CEv.record name k :: l).filterMap (CEv.recorded us) =
      (name, .query k.ev us) :: l.filterMap (CEv.recorded us) := rfl

/-- What one step records. -/
theorem recorded_step (c : Cli) (s : CState) (a : Ans) :
    ∃ ev, (s.step c a).trace = s.trace ++ ev ∧
      ((∃ i st d name code, s.pc = .exec i ∧ c.statements[i]? = some st ∧ c.data[i]? = some d ∧
          c.statsAt s.trxNo = some (some name) ∧ code = evClass st ∧
          ∀ us, ev.filterMap (CEv.recorded us) = [(name, .query code.ev us)]) ∨
        ((∀ us, queries (ev.filterMap (CEv.recorded us)) = []) ∧
          ∀ i, s.pc = .exec i → ¬ (c.statements[i]?.isSome ∧ c.data[i]?.isSome ∧
            (c.statsAt s.trxNo).join.isSome))) := by
  have h := CState.step_cases c s a
  generalize s.step c a = s' at h
  cases h
  case execFail i st d stat code hpc hst hd hstat he =>
    refine ⟨_, rfl, ?_⟩
    cases stat with
    | none => exact Or.inr ⟨fun us => by simp [recEv, CEv.recorded, queries], fun j hj => by simp [hstat]⟩
    | some name =>
      exact Or.inl ⟨i, st, d, name, _, hpc, hst, hd, hstat, rfl, fun us => rfl⟩
  case execRows i st d stat hpc hst hd hstat hc he hr =>
    refine ⟨_, rfl, ?_⟩
    cases stat with
    | none => exact Or.inr ⟨fun us => by simp [recEv, CEv.recorded, queries], fun j hj => by simp [hstat]⟩
    | some name =>
      exact Or.inl ⟨i, st, d, name, _, hpc, hst, hd, hstat, rfl, fun us => rfl⟩
  case execOk i st d stat hpc hst hd hstat hc he hr =>
    have hok : ∀ us, (okEv st d i).filterMap (CEv.recorded us) = [] := by
      intro us
      simp only [okEv]
      split <;> split <;> simp [CEv.recorded]
    refine ⟨_, rfl, ?_⟩
    cases stat with
    | none => exact Or.inr ⟨fun us => by rw [recorded_exec]; simp [recEv, hok, queries], fun j hj => by simp [hstat]⟩
    | some name =>
      exact Or.inl ⟨i, st, d, name, _, hpc, hst, hd, hstat, rfl, fun us => by
        rw [recorded_exec]; simp only [recEv, List.singleton_append]; rw [recorded_record, hok]⟩
  case stmt i st d hpc hst hi hd =>
    refine ⟨_, rfl, Or.inr ⟨fun us => ?_, fun j hj => by rw [hpc] at hj; cases hj⟩⟩
    simp only [waitEv]
    split <;> split <;> simp [CEv.recorded, queries]
  case error i code stat hpc hstat =>
    refine ⟨_, rfl, Or.inr ⟨fun us => ?_, fun j hj => by rw [hpc] at hj; cases hj⟩⟩
    cases stat with
    | none => simp [errEv, queries]
    | some name => simp only [errEv]; split <;> simp [CEv.recorded, queries]
  case execPanic i hpc hn =>
    refine ⟨_, rfl, Or.inr ⟨fun us => by simp [CEv.recorded, queries], fun j hj => ?_⟩⟩
    rw [hpc] at hj; cases hj
    rcases hn with hn | hn <;> simp [hn]
  case execNoStats i st d hpc hst hd hstat =>
    refine ⟨_, rfl, Or.inr ⟨fun us => by simp [CEv.recorded, queries], fun j hj => ?_⟩⟩
    simp [hstat]
  case ctxStop hc hpc =>
    refine ⟨_, rfl, Or.inr ⟨fun us => by simp [CEv.recorded, queries], fun j hj => ?_⟩⟩
    rcases hpc with ⟨_, h⟩ | ⟨_, h⟩ | ⟨_, h⟩ <;> (rw [h] at hj; cases hj)
  all_goals
    rename_i hpc
    first
    | (refine ⟨_, rfl, Or.inr ⟨fun us => by simp [CEv.recorded, queries], fun j hj => ?_⟩⟩
       simp_all)
    | (refine ⟨[], (List.append_nil _).symm, Or.inr ⟨fun us => by simp [queries], fun j hj => ?_⟩⟩
       simp_all)

/-- Spec: the event type of a statement. -/
def TypeSpec (st : Stmt) : Ev → Prop
  | .read => st.resultSet = true
  | .write => st.resultSet = false ∧ st.write = true
  | .commit => st.resultSet = false ∧ st.write = false ∧ st.commit = true
  | .total => st.resultSet = false ∧ st.write = false ∧ st.commit = false

theorem evClass_type (st : Stmt) : TypeSpec st (evClass st).ev := by
  unfold evClass
  cases h1 : st.resultSet <;> cases h2 : st.write <;> cases h3 : st.commit <;> simp [TypeSpec, EvClass.ev, h1, h2, h3]

theorem queries_append (a b : List (String × TrxEvent)) : queries (a ++ b) = queries a ++ queries b := by
  simp [queries]

theorem step_events (c : Cli) (l : LState) (x : TAns) :
    (l.step c x).s = l.s.step c x.ans ∧
    ((∃ i st d name, l.s.pc = .exec i ∧ c.statements[i]? = some st ∧ c.data[i]? = some d ∧
        c.statsAt l.s.trxNo = some (some name) ∧
        (l.step c x).events = l.events ++ [(name, .query (evClass st).ev ((x.stop - x.start).tdiv 1000))]) ∨
      (queries (l.step c x).events = queries l.events ∧
        ∀ i, l.s.pc = .exec i → ¬ (c.statements[i]?.isSome ∧ c.data[i]?.isSome ∧
          (c.statsAt l.s.trxNo).join.isSome))) := by
  refine ⟨rfl, ?_⟩
  obtain ⟨ev, h1, h2⟩ := recorded_step c l.s x.ans
  rcases h2 with ⟨i, st, d, name, code, hpc, hst, hd, hstat, rfl, h3⟩ | ⟨h3, h4⟩
  · left
    refine ⟨i, st, d, name, hpc, hst, hd, hstat, ?_⟩
    simp only [LState.step, h1, List.drop_left', hpc]
    rw [h3]
  · right
    refine ⟨?_, h4⟩
    simp only [LState.step, h1, List.drop_left', queries_append]
    rw [h3]; simp

/-- **C113.** A statement that is executed for a trx with statistics is recorded under that trx and with
the class of the statement. The response time is the time between the readings of the clock directly
before and after the call, in whole microseconds.

Partial: this also holds of statements that MySQL did not execute (`C113_cancelled_false`). -/
theorem C113_response_time_partial (c : Cli) (l : LState) (x : TAns) (i : Nat) (st : Stmt) (d : StmtData) (name : String)
    (hpc : l.s.pc = .exec i) (hst : c.statements[i]? = some st) (hd : c.data[i]? = some d)
    (hstat : c.statsAt l.s.trxNo = some (some name)) (hx : x.start ≤ x.sent ∧ x.sent ≤ x.answered ∧ x.answered ≤ x.stop) :
    ∃ us t, (l.step c x).events = l.events ++ [(name, .query t us)] ∧ TypeSpec st t ∧ 0 ≤ us ∧
      us * 1000 ≤ x.stop - x.start ∧ x.answered - x.sent < (us + 1) * 1000 := by
  rcases (step_events c l x).2 with ⟨i', st', d', name', hpc', hst', hd', hstat', h⟩ | ⟨-, h⟩
  · rw [hpc] at hpc'; cases hpc'
    rw [hst] at hst'; cases hst'
    rw [hstat] at hstat'; cases hstat'
    have e : (x.stop - x.start).tdiv 1000 = (x.stop - x.start) / 1000 :=
      Int.tdiv_eq_ediv_of_nonneg (by omega)
    exact ⟨_, _, h, evClass_type st, by omega, by omega, by omega⟩
  · exact absurd ⟨by simp [hst], by simp [hd], by simp [hstat]⟩ (h i hpc)

theorem latency_sum (c : Cli) (xs : List TAns) : ∀ (l : LState) (now : ℤ), InTime now xs →
    (queries (l.run c xs).events).sum * 1000 ≤ (queries l.events).sum * 1000 + execTime c l.s xs ∧
    (queries l.events).sum * 1000 + mysqlTime c l.s xs ≤
      ((queries (l.run c xs).events).sum + execCount c l.s xs) * 1000 ∧
    (queries (l.run c xs).events).length = (queries l.events).length + execCount c l.s xs ∧
    execTime c l.s xs + now ≤ (xs.getLast?.map TAns.ended).getD now := by
  induction xs with
  | nil =>
    intro l now _
    simp [LState.run, execTime, mysqlTime, execCount]
  | cons x xs ih =>
    intro l now h
    obtain ⟨t0, t1, t2, t3, t4, t5, ht⟩ := h
    obtain ⟨i1, i2, i3, i4⟩ := ih (l.step c x) x.ended ht
    have hrun : l.run c (x :: xs) = (l.step c x).run c xs := rfl
    have hlast : ((x :: xs).getLast?.map TAns.ended).getD now = (xs.getLast?.map TAns.ended).getD x.ended := by
      cases xs with
      | nil => rfl
      | cons y ys =>
        rw [List.getLast?_cons_cons]
        cases hl : (y :: ys).getLast? with
        | none => simp at hl
        | some z => rfl
    rw [hrun, hlast]
    obtain ⟨hs, hcase⟩ := step_events c l x
    rw [hs] at i1 i2 i3 i4
    rcases hcase with ⟨i, st, d, name, hpc, hst, hd, hstat, he⟩ | ⟨he, hno⟩
    · have e : (x.stop - x.start).tdiv 1000 = (x.stop - x.start) / 1000 :=
        Int.tdiv_eq_ediv_of_nonneg (by omega)
      have hq : queries (l.step c x).events = queries l.events ++ [(x.stop - x.start) / 1000] := by
        rw [he, queries_append, e]; rfl
      rw [hq] at i1 i2 i3
      simp only [List.sum_append, List.sum_singleton, List.length_append, List.length_singleton] at i1 i2 i3
      have c1 : execTime c l.s (x :: xs) = (x.ended - x.began) + execTime c (l.s.step c x.ans) xs := by
        simp [execTime, hpc]
      have c2 : mysqlTime c l.s (x :: xs) = (x.answered - x.sent) + mysqlTime c (l.s.step c x.ans) xs := by
        simp [mysqlTime, hpc, hst, hd, hstat]
      have c3 : execCount c l.s (x :: xs) = 1 + execCount c (l.s.step c x.ans) xs := by
        simp [execCount, hpc, hst, hd, hstat]
      rw [c1, c2, c3]
      refine ⟨by omega, ?_, by omega, by omega⟩
      push_cast
      omega
    · rw [he] at i1 i2 i3
      have c1 : execTime c (l.s.step c x.ans) xs ≤ execTime c l.s (x :: xs) ∧
          execTime c l.s (x :: xs) ≤ (x.ended - x.began) + execTime c (l.s.step c x.ans) xs := by
        simp only [execTime]
        split <;> constructor <;> omega
      have c2 : mysqlTime c l.s (x :: xs) = mysqlTime c (l.s.step c x.ans) xs := by
        simp only [mysqlTime]
        split
        · next i hpc => rw [if_neg (hno i hpc)]; omega
        · omega
      have c3 : execCount c l.s (x :: xs) = execCount c (l.s.step c x.ans) xs := by
        simp only [execCount]
        split
        · next i hpc => rw [if_neg (hno i hpc)]; omega
        · omega
      rw [c2, c3]
      refine ⟨by omega, i2, i3, by omega⟩

/-- **C113, sum.** The response times that a client records in a run add up to at most the time it spent
executing statements, which is at most the time it ran: waiting for rate limits, data generation, idle
times, reading rows and reconnecting are not included. They add up to at least the time in which MySQL
executed statements, less one microsecond for each. -/
theorem C113_sum (c : Cli) (xs : List TAns) (now : ℤ) (h : InTime now xs) :
    (queries (LState.init.run c xs).events).sum * 1000 ≤ execTime c CState.init xs ∧
    execTime c CState.init xs + now ≤ (xs.getLast?.map TAns.ended).getD now ∧
    mysqlTime c CState.init xs ≤
      ((queries (LState.init.run c xs).events).sum + execCount c CState.init xs) * 1000 ∧
    (queries (LState.init.run c xs).events).length = execCount c CState.init xs := by
  obtain ⟨h1, h2, h3, h4⟩ := latency_sum c xs LState.init now h
  have e : queries LState.init.events = [] := rfl
  rw [e] at h1 h2 h3
  simp only [List.sum_nil, zero_mul, zero_add, List.length_nil] at h1 h2 h3
  exact ⟨h1, h4, h2, h3⟩

/-- The events of one trx. -/
def eventsOf (name : String) (es : List (String × TrxEvent)) : List TrxEvent :=
  (es.filter fun e => e.1 = name).map (·.2)

theorem queries_nonneg (c : Cli) (xs : List TAns) : ∀ (l : LState) (now : ℤ), InTime now xs →
    (∀ q ∈ queries l.events, 0 ≤ q) → ∀ q ∈ queries (l.run c xs).events, 0 ≤ q := by
  induction xs with
  | nil => intro l now _ h; exact h
  | cons x xs ih =>
    intro l now h hq
    obtain ⟨t0, t1, t2, t3, t4, t5, ht⟩ := h
    refine ih (l.step c x) x.ended ht ?_
    rcases (step_events c l x).2 with ⟨i, st, d, name, -, -, -, -, he⟩ | ⟨he, -⟩
    · rw [he, queries_append]
      intro q hq'
      rcases List.mem_append.1 hq' with h1 | h1
      · exact hq q h1
      · simp only [queries, List.filterMap_cons, List.filterMap_nil, List.mem_singleton] at h1
        subst h1
        exact Int.tdiv_nonneg (by omega) (by omega)
    · rw [he]; exact hq

theorem latencies_eventsOf (t : Ev) (name : String) (es : List (String × TrxEvent)) :
    (latencies t (eventsOf name es)).Sublist (queries es) := by
  induction es with
  | nil => simp [latencies, eventsOf, queries]
  | cons e es ih =>
    obtain ⟨n, ev⟩ := e
    by_cases hn : n = name
    · subst hn
      have h1 : eventsOf n ((n, ev) :: es) = ev :: eventsOf n es := by simp [eventsOf]
      rw [h1]
      cases ev with
      | error k => simpa [latencies, queries] using ih
      | query t' us =>
        have h2 : queries ((n, TrxEvent.query t' us) :: es) = us :: queries es := rfl
        rw [h2]
        simp only [latencies, List.filterMap_cons]
        by_cases hc : t = .total ∨ t' = t
        · simp only [hc, if_true]; exact ih.cons_cons us
        · simp only [hc, if_false]; exact ih.cons us
    · have h1 : eventsOf name ((n, ev) :: es) = eventsOf name es := by simp [eventsOf, hn]
      rw [h1]
      cases ev with
      | error k => simpa [queries] using ih
      | query t' us =>
        have h2 : queries ((n, TrxEvent.query t' us) :: es) = us :: queries es := rfl
        rw [h2]; exact ih.cons us

theorem sum_le_of_sublist {a b : List ℤ} (h : a.Sublist b) (hb : ∀ x ∈ b, 0 ≤ x) : a.sum ≤ b.sum := by
  induction h with
  | slnil => exact le_refl _
  | cons x _ ih =>
    have h1 := ih fun y hy => hb y (by simp [hy])
    have h2 := hb x (by simp)
    simp only [List.sum_cons]; omega
  | cons_cons x _ ih =>
    have h1 := ih fun y hy => hb y (by simp [hy])
    simp only [List.sum_cons]; omega

theorem min_mul_le_sum (m : ℤ) (l : List ℤ) (h : ∀ x ∈ l, m ≤ x) : m * l.length ≤ l.sum := by
  induction l with
  | nil => simp
  | cons x l ih =>
    have h1 := ih fun y hy => h y (by simp [hy])
    have h2 := h x (by simp)
    simp only [List.sum_cons, List.length_cons]
    push_cast
    linarith

/-- **C113, statistics.** In the statistics of any trx of a client, for any event type: the maximum is at
most the time the client ran, and the minimum times the number of events too. -/
theorem C113_statistics (lg : Int → Int) (c : Cli) (xs : List TAns) (now : ℤ) (h : InTime now xs) (name : String)
    (t : Ev) :
    let e := (recordAll lg .new (eventsOf name (LState.init.run c xs).events)).ev t
    0 ≤ e.min ∧ e.max * 1000 ≤ (xs.getLast?.map TAns.ended).getD now - now ∧
      e.min * e.n * 1000 ≤ (xs.getLast?.map TAns.ended).getD now - now := by
  obtain ⟨h1, h2, -, -⟩ := C113_sum c xs now h
  have hq := queries_nonneg c xs LState.init now h (by intro q hq; cases hq)
  generalize (LState.init.run c xs).events = es at *
  have hsub := latencies_eventsOf t name es
  have hnn : NonNeg (eventsOf name es) := by
    intro e he
    cases e with
    | error k => trivial
    | query t' us =>
      apply hq
      refine (latencies_eventsOf .total name es).subset ?_
      simp only [latencies, List.mem_filterMap]
      exact ⟨_, he, by simp⟩
  have hsum := C24_statistics_are_exact lg (eventsOf name es) hnn t
  intro e
  have hle := sum_le_of_sublist hsub hq
  have hl0 : ∀ x ∈ latencies t (eventsOf name es), 0 ≤ x := latencies_nonneg hnn
  have hs0 : 0 ≤ (latencies t (eventsOf name es)).sum := List.sum_nonneg hl0
  by_cases hne : latencies t (eventsOf name es) = []
  · have a1 : e.min = 0 := hsum.none_min hne
    have a2 : e.max = 0 := hsum.none_max hne
    rw [a1, a2]
    refine ⟨le_refl _, by omega, by simp; omega⟩
  · have a1 := hsum.max_mem hne
    have a2 := hsum.min_mem hne
    have a3 := List.single_le_sum hl0 _ a1
    have a4 := min_mul_le_sum _ _ hsum.min_le
    rw [← hsum.count] at a4
    refine ⟨hl0 _ a2, ?_, ?_⟩
    · have : e.max ≤ (queries es).sum := le_trans a3 hle
      omega
    · have : e.min * e.n ≤ (queries es).sum := le_trans a4 hle
      omega

/-- A step that takes `n` nanoseconds from time `t` on. -/
def exStep (a : Ans) (t n : ℤ) : TAns := ⟨a, t, t, t, t + n, t + n, t + n⟩

/-- **C113 is false of the code** for statements that MySQL does not execute: the context is cancelled
before the first statement is sent, and it is counted as a query with a response time of 0. -/
theorem C113_cancelled_false :
    let xs := (List.range 10).map (fun k : Nat => exStep okAns k 1) ++ [exStep cancelAns 10 0]
    let l := LState.init.run (exClient false) xs
    InTime 0 xs ∧ l.events = [("t", .query .total 0)] ∧
      l.s.trace.getLast? = some (.failed 0 none) ∧
      ((recordAll (fun _ => 0) .new (eventsOf "t" l.events)).ev .total).n = 1 := by
  refine ⟨by simp [InTime, exStep, List.range, List.range.loop], ?_, ?_, ?_⟩ <;> decide +kernel

/-- The hypotheses are met: `BEGIN` takes 1.5 ms and `UPDATE` 3.2 ms. -/
example :
    let xs := (List.range 10).map (fun k : Nat => exStep okAns k 1) ++
      [exStep okAns 10 1500000, exStep okAns 1500010 10, exStep okAns 1500020 3200000]
    let l := LState.init.run (exClient false) xs
    InTime 0 xs ∧ l.events = [("t", .query .total 1500), ("t", .query .write 3200)] ∧
      execTime (exClient false) CState.init xs = 4700000 := by
  refine ⟨by simp [InTime, exStep, List.range, List.range.loop], ?_, ?_⟩ <;> decide +kernel

end Finch
