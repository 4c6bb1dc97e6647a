import Verif.Model.Client
/-!
The steps of a client, case by case: what `CState.step` does in each branch, as an inductive relation
(used to prove invariants). Not a specification: it is proved from `CState.step`.
-/
namespace Finch

/-- Statistics of an execution, if they are kept. -/
def recEv (stat : Option String) (k : EvClass) : List CEv :=
  match stat with
  | some name => [.record name k]
  | none => []

def errEv (stat : Option String) (ctxDone : Bool) (code : Nat) : List CEv :=
  match stat with
  | some name => if ctxDone then [] else [.errorStat name code]
  | none => []

def okEv (st : Stmt) (d : StmtData) (i : Nat) : List CEv :=
  (if st.limit.isSome then [.affected i] else []) ++ (if d.insertId.isSome then [.insertId i] else [])

def waitEv (c : Cli) (st : Stmt) : List CEv :=
  (if c.tps && st.begin_ then [.waitTps] else []) ++ (if c.qps then [.waitQps] else [])

inductive CStep (c : Cli) (s : CState) (a : Ans) : CState → Prop where
  | ctxStop (hc : a.ctxDone = true)
      (hpc : (∃ e, s.pc = .connect e) ∨ (∃ f, s.pc = .connLoop f) ∨ (∃ f, s.pc = .connected f)) :
      CStep c s a { s with pc := .stopped .ctx, trace := s.trace ++ [.done] }
  | connectFirst (hpc : s.pc = .connect none) (hc : a.ctxDone = false) :
      CStep c s a { s with pc := .close true }
  | connectPanic {code : Option Nat} {i : Nat} (hpc : s.pc = .connect (some (code, i)))
      (hc : a.ctxDone = false) (hst : c.statements[i]? = none) :
      CStep c s a { s with pc := .stopped .panic, trace := s.trace ++ [.done] }
  | ddl {code : Option Nat} {i : Nat} {st : Stmt} (hpc : s.pc = .connect (some (code, i)))
      (hc : a.ctxDone = false) (hst : c.statements[i]? = some st) (ht : c.tbl (code.getD 0) = none)
      (hd : st.ddl = true) :
      CStep c s a { s with pc := .stopped .ddl, trace := s.trace ++ [.done] }
  | unknown {code : Option Nat} {i : Nat} {st : Stmt} (hpc : s.pc = .connect (some (code, i)))
      (hc : a.ctxDone = false) (hst : c.statements[i]? = some st) (ht : c.tbl (code.getD 0) = none)
      (hd : st.ddl = false) :
      CStep c s a { s with pc := .close false }
  | toRollback {code : Option Nat} {i flags : Nat} {st : Stmt}
      (hpc : s.pc = .connect (some (code, i)))
      (hc : a.ctxDone = false) (hst : c.statements[i]? = some st)
      (ht : c.tbl (code.getD 0) = some flags)
      (hr : hasFlag flags eRollback = true) (hact : s.trxActive = true) :
      CStep c s a { s with pc := .rollback flags (code.getD 0) i }
  | cont {code : Option Nat} {i flags : Nat} {st : Stmt} (hpc : s.pc = .connect (some (code, i)))
      (hc : a.ctxDone = false) (hst : c.statements[i]? = some st)
      (ht : c.tbl (code.getD 0) = some flags)
      (hr : (hasFlag flags eRollback && s.trxActive) = false) (hcont : hasFlag flags eContinue = true) :
      CStep c s a { s with pc := .head, connCount := s.connCount + 1 }
  | handledClose {code : Option Nat} {i flags : Nat} {st : Stmt}
      (hpc : s.pc = .connect (some (code, i)))
      (hc : a.ctxDone = false) (hst : c.statements[i]? = some st)
      (ht : c.tbl (code.getD 0) = some flags)
      (hr : (hasFlag flags eRollback && s.trxActive) = false)
      (hcont : hasFlag flags eContinue = false) :
      CStep c s a { s with pc := .close false }
  | rollbackFail {flags code i : Nat} (hpc : s.pc = .rollback flags code i)
      (he : (a.err.isSome || a.ctxDone) = true) :
      CStep c s a { s with pc := .stopped .rollbackFailed,
                           trace := s.trace ++ [.rollback (s.conn.getD 0), .done] }
  | rollbackCont {flags code i : Nat} (hpc : s.pc = .rollback flags code i)
      (he : (a.err.isSome || a.ctxDone) = false) (hcont : hasFlag flags eContinue = true) :
      CStep c s a { s with pc := .head, connCount := s.connCount + 1,
                           trace := s.trace ++ [.rollback (s.conn.getD 0)] }
  | rollbackClose {flags code i : Nat} (hpc : s.pc = .rollback flags code i)
      (he : (a.err.isSome || a.ctxDone) = false) (hcont : hasFlag flags eContinue = false) :
      CStep c s a { s with pc := .close false, trace := s.trace ++ [.rollback (s.conn.getD 0)] }
  | close {f : Bool} {n : Nat} (hpc : s.pc = .close f) (hn : s.conn = some n) :
      CStep c s a { s with pc := .connLoop f, conn := none, trace := s.trace ++ [.closed n] }
  | closeNone {f : Bool} (hpc : s.pc = .close f) (hn : s.conn = none) :
      CStep c s a { s with pc := .connLoop f }
  | connOk {f : Bool} (hpc : s.pc = .connLoop f) (hc : a.ctxDone = false) (ho : a.connOk = true) :
      CStep c s a { s with pc := .connected f, conn := some s.nextConn, nextConn := s.nextConn + 1,
                           trace := s.trace ++ [.connected s.nextConn] }
  | connFail {f : Bool} (hpc : s.pc = .connLoop f) (hc : a.ctxDone = false) (ho : a.connOk = false) :
      CStep c s a s
  | noDb {f : Bool} (hpc : s.pc = .connected f) (hc : a.ctxDone = false) (hdb : c.db = "") :
      CStep c s a { s with pc := .prep f 0 }
  | toUse {f : Bool} (hpc : s.pc = .connected f) (hc : a.ctxDone = false) (hdb : c.db ≠ "") :
      CStep c s a { s with pc := .use f }
  | useCtx {f : Bool} (hpc : s.pc = .use f) (hc : a.ctxDone = true) :
      CStep c s a { s with pc := .stopped .ctx,
                           trace := s.trace ++ [.useDb (s.conn.getD 0), .done] }
  | useFail {f : Bool} (hpc : s.pc = .use f) (hc : a.ctxDone = false) (he : a.err.isSome = true) :
      CStep c s a { s with pc := .stopped .use,
                           trace := s.trace ++ [.useDb (s.conn.getD 0), .done] }
  | useOk {f : Bool} (hpc : s.pc = .use f) (hc : a.ctxDone = false) (he : a.err = none) :
      CStep c s a { s with pc := .prep f 0, trace := s.trace ++ [.useDb (s.conn.getD 0)] }
  | prepEndFirst {k : Nat} (hpc : s.pc = .prep true k) (hst : c.statements[k]? = none) :
      CStep c s a { s with pc := .head }
  | prepEnd {k : Nat} (hpc : s.pc = .prep false k) (hst : c.statements[k]? = none) :
      CStep c s a { s with pc := .head, connCount := s.connCount + 1 }
  | prepSkip {f : Bool} {k : Nat} {st : Stmt} (hpc : s.pc = .prep f k)
      (hst : c.statements[k]? = some st) (hp : st.prepare = false ∨ (s.ps k).isSome = true) :
      CStep c s a { s with pc := .prep f (k + 1) }
  | prepFail {f : Bool} {k : Nat} {st : Stmt} (hpc : s.pc = .prep f k)
      (hst : c.statements[k]? = some st) (hp : st.prepare = true) (hps : s.ps k = none)
      (he : (a.err.isSome || a.ctxDone) = true) :
      CStep c s a { s with pc := .stopped .prepare, trace := s.trace ++ [.done] }
  | prepPanic {f : Bool} {k : Nat} {st : Stmt} (hpc : s.pc = .prep f k)
      (hst : c.statements[k]? = some st) (hp : st.prepare = true) (hps : s.ps k = none)
      (he : (a.err.isSome || a.ctxDone) = false) (hlen : c.statements.length < k + st.prepareMulti) :
      CStep c s a { s with pc := .stopped .panic,
                           ps := copyPs s.ps k (c.statements.length - k) (s.conn.getD 0, k),
                           trace := s.trace ++ [.prepared k (s.conn.getD 0), .done] }
  | prepOk {f : Bool} {k : Nat} {st : Stmt} (hpc : s.pc = .prep f k)
      (hst : c.statements[k]? = some st) (hp : st.prepare = true) (hps : s.ps k = none)
      (he : (a.err.isSome || a.ctxDone) = false)
      (hlen : ¬ c.statements.length < k + st.prepareMulti) :
      CStep c s a { s with pc := .prep f (k + 1),
                           ps := copyPs s.ps k st.prepareMulti (s.conn.getD 0, k),
                           trace := s.trace ++ [.prepared k (s.conn.getD 0)] }
  | limits (hpc : s.pc = .head)
      (hl : (c.iterExecGroup > 0 ∧ a.egCount > c.iterExecGroup) ∨
        (c.iterClients > 0 ∧ a.cgCount > c.iterClients) ∨ (c.iter > 0 ∧ s.iter = c.iter)) :
      CStep c s a { s with pc := .stopped .regular, trace := s.trace ++ [.done] }
  | iterate (hpc : s.pc = .head)
      (hl : ¬ ((c.iterExecGroup > 0 ∧ a.egCount > c.iterExecGroup) ∨
        (c.iterClients > 0 ∧ a.cgCount > c.iterClients) ∨ (c.iter > 0 ∧ s.iter = c.iter))) :
      CStep c s a { s with pc := .stmt 0, iter := s.iter + 1, trxNo := -1, trxActive := false,
                           trace := s.trace ++ [.iterBegin (s.iter + 1)] }
  | stmtEnd {i : Nat} (hpc : s.pc = .stmt i) (hst : c.statements[i]? = none) :
      CStep c s a { s with pc := .head }
  | idle {i : Nat} {st : Stmt} (hpc : s.pc = .stmt i) (hst : c.statements[i]? = some st)
      (hi : st.idle ≠ 0) :
      CStep c s a { s with pc := .stmt (i + 1), trace := s.trace ++ [.slept i] }
  | stmtPanic {i : Nat} {st : Stmt} (hpc : s.pc = .stmt i) (hst : c.statements[i]? = some st)
      (hi : st.idle = 0) (hd : c.data[i]? = none) :
      CStep c s a { s with pc := .stopped .panic, trace := s.trace ++ [.done] }
  | stmt {i : Nat} {st : Stmt} {d : StmtData} (hpc : s.pc = .stmt i)
      (hst : c.statements[i]? = some st) (hi : st.idle = 0) (hd : c.data[i]? = some d) :
      CStep c s a
        { s with pc := if !st.resultSet && st.limit.isSome then .limit i else .exec i,
                 stmtCount := s.stmtCount + 1,
                 trxCount := if d.begin_ then s.trxCount + 1 else s.trxCount,
                 trxNo := if d.begin_ then s.trxNo + 1 else s.trxNo,
                 trxActive := if d.begin_ then true else if d.end_ then false else s.trxActive,
                 trace := s.trace ++ (waitEv c st ++ [.gen i
                   { statement := s.stmtCount + 1,
                     trx := if d.begin_ then s.trxCount + 1 else s.trxCount,
                     iter := s.iter, conn := s.connCount, client := c.rl.client,
                     clientGroup := c.rl.clientGroup, execGroup := c.rl.execGroup,
                     stage := c.rl.stage }]) }
  | more {i : Nat} (hpc : s.pc = .limit i) (hm : a.more = true) :
      CStep c s a { s with pc := .exec i }
  | noMore {i : Nat} (hpc : s.pc = .limit i) (hm : a.more = false) :
      CStep c s a { s with pc := .stopped .regular, trace := s.trace ++ [.done] }
  | execPanic {i : Nat} (hpc : s.pc = .exec i) (hn : c.statements[i]? = none ∨ c.data[i]? = none) :
      CStep c s a { s with pc := .stopped .panic, trace := s.trace ++ [.done] }
  | execNoStats {i : Nat} {st : Stmt} {d : StmtData} (hpc : s.pc = .exec i)
      (hst : c.statements[i]? = some st) (hd : c.data[i]? = some d)
      (hstat : c.statsAt s.trxNo = none) :
      CStep c s a { s with pc := .stopped .panic,
                           trace := s.trace ++ [.exec i (s.conn.getD 0) (s.ps i), .done] }
  | execFail {i : Nat} {st : Stmt} {d : StmtData} {stat : Option String} {code : Option Nat}
      (hpc : s.pc = .exec i) (hst : c.statements[i]? = some st) (hd : c.data[i]? = some d)
      (hstat : c.statsAt s.trxNo = some stat)
      (he : (a.ctxDone = true ∧ code = none) ∨
        (a.ctxDone = false ∧ ∃ e, a.err = some e ∧ code = some e)) :
      CStep c s a { s with pc := .error i code,
                           trace := s.trace ++ (.exec i (s.conn.getD 0) (s.ps i) ::
                             (recEv stat (evClass st) ++ [.failed i code])) }
  | execRows {i : Nat} {st : Stmt} {d : StmtData} {stat : Option String} (hpc : s.pc = .exec i)
      (hst : c.statements[i]? = some st) (hd : c.data[i]? = some d)
      (hstat : c.statsAt s.trxNo = some stat) (hc : a.ctxDone = false) (he : a.err = none)
      (hr : st.resultSet = true) :
      CStep c s a { s with pc := if d.outputs ≠ [] then .scan i else .stmt (i + 1),
                           trace := s.trace ++ (.exec i (s.conn.getD 0) (s.ps i) ::
                             recEv stat (evClass st)) }
  | execOk {i : Nat} {st : Stmt} {d : StmtData} {stat : Option String} (hpc : s.pc = .exec i)
      (hst : c.statements[i]? = some st) (hd : c.data[i]? = some d)
      (hstat : c.statsAt s.trxNo = some stat) (hc : a.ctxDone = false) (he : a.err = none)
      (hr : st.resultSet = false) :
      CStep c s a { s with pc := .stmt (i + 1),
                           trace := s.trace ++ (.exec i (s.conn.getD 0) (s.ps i) ::
                             (recEv stat (evClass st) ++ okEv st d i)) }
  | scanFail {i e : Nat} (hpc : s.pc = .scan i) (he : a.err = some e) :
      CStep c s a { s with pc := .error i (some e), trace := s.trace ++ [.failed i (some e)] }
  | scanOk {i : Nat} (hpc : s.pc = .scan i) (he : a.err = none) :
      CStep c s a { s with pc := .stmt (i + 1), trace := s.trace ++ [.scanned i] }
  | errorPanic {i : Nat} {code : Option Nat} (hpc : s.pc = .error i code)
      (hstat : c.statsAt s.trxNo = none) :
      CStep c s a { s with pc := .stopped .panic, trace := s.trace ++ [.done] }
  | error {i : Nat} {code : Option Nat} {stat : Option String} (hpc : s.pc = .error i code)
      (hstat : c.statsAt s.trxNo = some stat) :
      CStep c s a { s with pc := .connect (some (code, i)),
                           trace := s.trace ++ errEv stat a.ctxDone (code.getD 0) }
  | stopped {e : CEnd} (hpc : s.pc = .stopped e) : CStep c s a s

theorem hasFlag_abort (f : Nat) : hasFlag f eAbort = false := by
  simp [hasFlag, eAbort]

theorem CState.step_cases (c : Cli) (s : CState) (a : Ans) : CStep c s a (s.step c a) := by
  unfold CState.step
  split
  · -- connect
    rename_i err hpc
    unfold CState.connect
    split
    · exact .ctxStop (by assumption) (Or.inl ⟨_, hpc⟩)
    · rename_i hc
      have hc : a.ctxDone = false := by simpa using hc
      split
      · exact .connectFirst hpc hc
      · rename_i code i
        dsimp only
        split
        · rename_i hst; exact .connectPanic hpc hc hst
        · rename_i st hst ht
          split
          · exact .ddl hpc hc hst ht (by assumption)
          · rename_i hx; exact .unknown hpc hc hst ht (by simpa using hx)
        · rename_i st flags hst ht
          rw [hasFlag_abort, if_neg (by simp)]
          split
          · rename_i hr
            simp only [Bool.and_eq_true] at hr
            exact .toRollback hpc hc hst ht hr.1 hr.2
          · rename_i hr
            have hr : (hasFlag flags eRollback && s.trxActive) = false := by simpa using hr
            split
            · exact .cont hpc hc hst ht hr (by assumption)
            · rename_i hx; exact .handledClose hpc hc hst ht hr (by simpa using hx)
  · rename_i flags code i hpc
    unfold CState.doRollback
    dsimp only
    split
    · rename_i he
      simpa [CState.stop, CState.goto, CState.log] using CStep.rollbackFail (c := c) hpc he
    · rename_i he
      have he : (a.err.isSome || a.ctxDone) = false := by simpa using he
      split
      · rename_i h; exact .rollbackCont hpc he h
      · rename_i h; exact .rollbackClose hpc he (by simpa using h)
  · rename_i f hpc
    unfold CState.close
    split
    · rename_i n hn; exact .close hpc hn
    · rename_i hn; exact .closeNone hpc hn
  · rename_i f hpc
    unfold CState.connLoop
    split
    · exact .ctxStop (by assumption) (Or.inr (Or.inl ⟨_, hpc⟩))
    · rename_i hc
      have hc : a.ctxDone = false := by simpa using hc
      split
      · exact .connOk hpc hc (by assumption)
      · rename_i hx; exact .connFail hpc hc (by simpa using hx)
  · rename_i f hpc
    unfold CState.connected
    split
    · exact .ctxStop (by assumption) (Or.inr (Or.inr ⟨_, hpc⟩))
    · rename_i hc
      have hc : a.ctxDone = false := by simpa using hc
      split
      · exact .noDb hpc hc (by assumption)
      · exact .toUse hpc hc (by assumption)
  · rename_i f hpc
    unfold CState.use
    dsimp only
    split
    · rename_i hc
      simpa [CState.stop, CState.goto, CState.log] using CStep.useCtx (c := c) hpc hc
    · rename_i hc
      have hc : a.ctxDone = false := by simpa using hc
      split
      · rename_i he
        simpa [CState.stop, CState.goto, CState.log] using CStep.useFail (c := c) hpc hc he
      · rename_i hx; exact .useOk hpc hc (by simpa using hx)
  · rename_i f k hpc
    unfold CState.prepare
    split
    · rename_i hst
      cases f
      · exact .prepEnd hpc hst
      · exact .prepEndFirst hpc hst
    · rename_i st hst
      split
      · rename_i hp
        refine .prepSkip hpc hst ?_
        simpa using hp
      · rename_i hp
        simp only [Bool.or_eq_true, Bool.not_eq_true', not_or, Bool.not_eq_false,
          Option.not_isSome_iff_eq_none] at hp
        split
        · exact .prepFail hpc hst hp.1 hp.2 (by assumption)
        · rename_i he
          have he : (a.err.isSome || a.ctxDone) = false := by simpa using he
          dsimp only
          split
          · rename_i hlen
            simpa [CState.stop, CState.goto, CState.log] using
              CStep.prepPanic hpc hst hp.1 hp.2 he hlen
          · exact .prepOk hpc hst hp.1 hp.2 he (by assumption)
  · rename_i hpc
    unfold CState.head
    split
    · rename_i h
      exact .limits hpc (Or.inl (by simpa using h))
    · rename_i h1
      split
      · rename_i h
        exact .limits hpc (Or.inr (Or.inl (by simpa using h)))
      · rename_i h2
        split
        · rename_i h
          exact .limits hpc (Or.inr (Or.inr (by simpa using h)))
        · rename_i h3
          refine .iterate hpc ?_
          rintro (h | h | h)
          · exact h1 (by simpa using h)
          · exact h2 (by simpa using h)
          · exact h3 (by simpa using h)
  · rename_i i hpc
    unfold CState.stmt
    split
    · rename_i hst; exact .stmtEnd hpc hst
    · rename_i st hst
      split
      · exact .idle hpc hst (by assumption)
      · rename_i hi
        have hi : st.idle = 0 := by simpa using hi
        split
        · rename_i hd; exact .stmtPanic hpc hst hi hd
        · rename_i d hd
          have := CStep.stmt (c := c) (a := a) hpc hst hi hd
          have hE : ∀ x y, x = y → CStep c s a y → CStep c s a x := fun _ _ h => h ▸ id
          refine hE _ _ ?_ this
          cases hb : d.begin_ <;> cases he : d.end_ <;> cases ht : (c.tps && st.begin_) <;>
            cases hq : c.qps <;> cases hl : (!st.resultSet && st.limit.isSome) <;>
            simp [CState.boundary, CState.waits, CState.log, CState.goto, CState.rc, waitEv, hb, he,
              ht, hq]
  · rename_i i hpc
    unfold CState.limit
    split
    · exact .more hpc (by assumption)
    · rename_i hx; exact .noMore hpc (by simpa using hx)
  · rename_i i hpc
    unfold CState.exec
    split
    · rename_i st d hst hd
      dsimp only
      split
      · rename_i hstat
        simpa [CState.stop, CState.goto, CState.log] using CStep.execNoStats hpc hst hd hstat
      · rename_i stat hstat
        have hstat : c.statsAt s.trxNo = some stat := hstat
        split
        · rename_i hc
          have := CStep.execFail (code := none) hpc hst hd hstat (Or.inl ⟨hc, rfl⟩)
          cases stat <;> simpa [CState.goto, CState.log, recEv] using this
        · rename_i hc
          have hc : a.ctxDone = false := by simpa using hc
          split
          · rename_i code he
            have := CStep.execFail (code := some code) hpc hst hd hstat (Or.inr ⟨hc, _, he, rfl⟩)
            cases stat <;> simpa [CState.goto, CState.log, recEv] using this
          · rename_i he
            cases hr : st.resultSet
            · have := CStep.execOk hpc hst hd hstat hc he hr
              cases stat <;> cases hl : st.limit.isSome <;> cases hin : d.insertId.isSome <;>
                simpa [CState.goto, CState.log, recEv, okEv, CState.succeeded, hr, hl, hin] using this
            · have := CStep.execRows hpc hst hd hstat hc he hr
              cases stat <;> by_cases ho : d.outputs = [] <;>
                simpa [CState.goto, CState.log, recEv, CState.succeeded, hr, ho] using this
    · rename_i hno
      refine .execPanic hpc ?_
      cases h1 : c.statements[i]? with
      | none => exact Or.inl rfl
      | some st =>
        cases h2 : c.data[i]? with
        | none => exact Or.inr rfl
        | some d => exact absurd h2 (hno st d h1)
  · rename_i i hpc
    unfold CState.scan
    split
    · rename_i e he; exact .scanFail hpc he
    · rename_i he; exact .scanOk hpc he
  · rename_i i code hpc
    unfold CState.error
    split
    · rename_i hstat; exact .errorPanic hpc hstat
    · rename_i stat hstat
      have := CStep.error (a := a) hpc hstat
      cases stat <;> cases hc : a.ctxDone <;>
        simpa [CState.goto, CState.log, errEv, hc] using this
  · rename_i e hpc
    exact .stopped hpc

theorem CState.run_inv {c : Cli} {P : CState → Prop} (hstep : ∀ s a s', CStep c s a s' → P s → P s') :
    ∀ (as : List Ans) s, P s → P (s.run c as) := by
  intro as
  induction as with
  | nil => intro s h; exact h
  | cons a as ih => intro s h; exact ih _ (hstep s a _ (s.step_cases c a) h)

theorem CState.run_append (c : Cli) (s : CState) (as bs : List Ans) :
    s.run c (as ++ bs) = (s.run c as).run c bs := by
  simp [CState.run, List.foldl_append]

theorem CState.run_cons (c : Cli) (s : CState) (a : Ans) (as : List Ans) :
    s.run c (a :: as) = (s.step c a).run c as := rfl

/-- Events are only added. -/
theorem CStep.trace {c : Cli} {s s' : CState} {a : Ans} (h : CStep c s a s') :
    ∃ ev, s'.trace = s.trace ++ ev := by
  cases h <;> first | exact ⟨_, rfl⟩ | exact ⟨[], (List.append_nil _).symm⟩

end Finch
