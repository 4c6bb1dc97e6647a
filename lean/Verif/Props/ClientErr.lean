import Verif.Props.ClientSteps
import Mathlib.Tactic.Common
/-!
# C45, C46: errors of queries
-/
namespace Finch

/-! ### C45 -/

/-- **C45 is false for errors listed as abort.** Whatever the table of errors says, no client ever
stops because of the error of a query that is in the table: `Eabort` is 0, and `flags & 0` is 0. -/
theorem C45_abort_never_stops_false (c : Cli) (as : List Ans) (code : Nat) :
    (CState.init.run c as).pc ≠ .stopped (.query code) := by
  refine CState.run_inv (P := fun s => s.pc ≠ .stopped (.query code)) ?_ as _ (by simp [CState.init])
  intro s a s' h hs
  cases h
  case stmt => dsimp only; split <;> simp
  case execRows => dsimp only; split <;> simp
  all_goals first | exact hs | simp

theorem error_step {c : Cli} {s : CState} {i : Nat} {code : Option Nat} {stat : Option String}
    (a : Ans) (hpc : s.pc = .error i code) (hstat : c.statsAt s.trxNo = some stat) :
    s.step c a = { s with
      pc := .connect (some (code, i))
      trace := s.trace ++ errEv stat a.ctxDone (code.getD 0) } := by
  simp only [CState.step, hpc, CState.error, hstat]
  cases stat with
  | none => simp [CState.goto, errEv]
  | some x => cases h : a.ctxDone <;> simp [CState.goto, CState.log, errEv]

/-- **C45, continue.** On an error whose flags include continue (and that does not call for a rollback
here) the client keeps its connection and its prepared statements and goes to the next iteration. -/
theorem C45_continue {c : Cli} {s : CState} {i code flags : Nat} {st : Stmt} {stat : Option String}
    {a1 a2 : Ans} (hpc : s.pc = .error i (some code)) (hst : c.statements[i]? = some st)
    (hstat : c.statsAt s.trxNo = some stat) (ht : c.tbl code = some flags)
    (hcont : hasFlag flags eContinue = true) (hr : (hasFlag flags eRollback && s.trxActive) = false)
    (h2 : a2.ctxDone = false) :
    let s' := s.run c [a1, a2]
    s'.pc = .head ∧ s'.conn = s.conn ∧ s'.ps = s.ps ∧ s'.nextConn = s.nextConn ∧
    s'.connCount = s.connCount + 1 ∧
    s'.trace = s.trace ++ errEv stat a1.ctxDone code := by
  have e1 := error_step a1 hpc hstat
  simp only [CState.run, List.foldl_cons, List.foldl_nil]
  rw [e1]
  simp only [CState.step, CState.connect, h2, hst, ht, hasFlag_abort, Option.getD_some, hr, hcont]
  exact ⟨rfl, rfl, rfl, rfl, rfl, rfl⟩

/-- **C45, rollback.** On an error whose flags include rollback, while a trx is active, the client
executes ROLLBACK on its connection; if that fails it stops with an error, else it goes on with the
next iteration on the same connection, if the flags include continue. -/
theorem C45_rollback {c : Cli} {s : CState} {i code flags : Nat} {st : Stmt} {stat : Option String}
    {a1 a2 a3 : Ans} (hpc : s.pc = .error i (some code)) (hst : c.statements[i]? = some st)
    (hstat : c.statsAt s.trxNo = some stat) (ht : c.tbl code = some flags)
    (hr : hasFlag flags eRollback = true) (hact : s.trxActive = true) (h2 : a2.ctxDone = false) :
    let s' := s.run c [a1, a2, a3]
    ((a3.err = none ∧ a3.ctxDone = false) → s'.conn = s.conn ∧ s'.ps = s.ps ∧
      s'.pc = (if hasFlag flags eContinue then .head else .close false) ∧
      s'.trace = s.trace ++ errEv stat a1.ctxDone code ++ [.rollback (s.conn.getD 0)]) ∧
    ((a3.err ≠ none ∨ a3.ctxDone = true) → s'.pc = .stopped .rollbackFailed) := by
  have e1 := error_step a1 hpc hstat
  have e2 : (s.step c a1).step c a2 = { s with
      pc := .rollback flags code i
      trace := s.trace ++ errEv stat a1.ctxDone code } := by
    rw [e1]
    simp only [CState.step, CState.connect, h2, hst, ht, hasFlag_abort, Option.getD_some, hr, hact]
    rfl
  simp only [CState.run, List.foldl_cons, List.foldl_nil]
  rw [e2]
  constructor
  · rintro ⟨h3, h4⟩
    cases hc : hasFlag flags eContinue <;>
      simp [CState.step, CState.doRollback, h3, h4, hc, CState.resume, CState.goto, CState.log]
  · intro h
    have : (a3.err.isSome || a3.ctxDone) = true := by
      rcases h with h | h
      · simp [Option.isSome_iff_ne_none, h]
      · simp [h]
    simp [CState.step, CState.doRollback, this, CState.stop, CState.goto]

/-- **C45, DDL.** An error that is not in the table stops the client with an error if the statement is
DDL. -/
theorem C45_unknown_ddl_stops {c : Cli} {s : CState} {i code : Nat} {st : Stmt} {stat : Option String}
    {a1 a2 : Ans} (hpc : s.pc = .error i (some code)) (hst : c.statements[i]? = some st)
    (hstat : c.statsAt s.trxNo = some stat) (ht : c.tbl code = none) (hd : st.ddl = true)
    (h2 : a2.ctxDone = false) : (s.run c [a1, a2]).pc = .stopped .ddl ∧ CEnd.ddl.isError = true := by
  have e1 := error_step a1 hpc hstat
  simp only [CState.run, List.foldl_cons, List.foldl_nil]
  rw [e1]
  simp only [CState.step, CState.connect, h2, hst, ht, hd, Option.getD_some]
  exact ⟨rfl, rfl⟩

/-- Events other than executing a statement or beginning an iteration. -/
def Quiet : CEv → Prop
  | .exec .. | .iterBegin .. => False
  | _ => True

/-- The error calls for a new connection: it is not in the table, or its flags say neither continue
nor (here) rollback. -/
def Reconnects (c : Cli) (st : Stmt) (code : Nat) (trxActive : Bool) : Prop :=
  (c.tbl code = none ∧ st.ddl = false) ∨
  ∃ flags, c.tbl code = some flags ∧ (hasFlag flags eRollback && trxActive) = false ∧
    hasFlag flags eContinue = false

/-- Where a client is on its way to a new connection; `ev` are the events since the error. -/
inductive Rec (c : Cli) (n N : Nat) (s : CState) (ev : List CEv) : Prop where
  | start {i : Nat} {code : Option Nat} {st : Stmt}
      (hpc : s.pc = .error i code ∨ s.pc = .connect (some (code, i)))
      (hst : c.statements[i]? = some st) (hc : s.conn = some n) (hN : s.nextConn = N)
      (hr : Reconnects c st (code.getD 0) s.trxActive) (hq : ∀ e ∈ ev, Quiet e)
  | closing (hpc : s.pc = .close false) (hc : s.conn = some n) (hN : s.nextConn = N)
      (hq : ∀ e ∈ ev, Quiet e)
  | looping (hpc : s.pc = .connLoop false) (hN : s.nextConn = N) (pre : List CEv)
      (he : ev = pre ++ [.closed n]) (hq : ∀ e ∈ pre, Quiet e)
  | connected (hpc : s.pc = .connected false ∨ s.pc = .use false ∨ (∃ k, s.pc = .prep false k) ∨
        s.pc = .head) (hc : s.conn = some N) (pre mid : List CEv)
      (he : ev = pre ++ .closed n :: .connected N :: mid) (hq : ∀ e ∈ pre ++ mid, Quiet e)
  | running (pre mid post : List CEv) (k : Nat)
      (he : ev = pre ++ .closed n :: .connected N :: (mid ++ .iterBegin k :: post))
      (hq : ∀ e ∈ pre ++ mid, Quiet e)
  | stopped (e : CEnd) (hpc : s.pc = .stopped e) (hq : ∀ e ∈ ev, Quiet e)

theorem quiet_errEv (stat : Option String) (b : Bool) (code : Nat) :
    ∀ e ∈ errEv stat b code, Quiet e := by
  intro e he
  unfold errEv at he
  split at he
  · split at he
    · cases he
    · rw [List.mem_singleton.mp he]; trivial
  · cases he

theorem prep_cases (c : Cli) {s : CState} (a : Ans) {f : Bool} {k : Nat} (hpc : s.pc = .prep f k) :
    s.step c a = s.resume f ∨ s.step c a = s.goto (.prep f (k + 1)) ∨ s.step c a = s.stop .prepare ∨
    (∃ ps, s.step c a = { s with
      ps := ps, pc := .stopped .panic
      trace := s.trace ++ [.prepared k (s.conn.getD 0), .done] }) ∨
    (∃ ps, s.step c a = { s with
      ps := ps, pc := .prep f (k + 1)
      trace := s.trace ++ [.prepared k (s.conn.getD 0)] }) := by
  simp only [CState.step, hpc]
  unfold CState.prepare
  split
  · exact Or.inl rfl
  · split
    · exact Or.inr (Or.inl rfl)
    · split
      · exact Or.inr (Or.inr (Or.inl rfl))
      · dsimp only
        split
        · exact Or.inr (Or.inr (Or.inr (Or.inl ⟨_, by simp [CState.stop, CState.goto, CState.log]; rfl⟩)))
        · exact Or.inr (Or.inr (Or.inr (Or.inr ⟨_, rfl⟩)))

theorem head_cases (c : Cli) {s : CState} (a : Ans) (hpc : s.pc = .head) :
    s.step c a = s.stop .regular ∨ s.step c a = { s with
      iter := s.iter + 1, trxNo := -1, trxActive := false, pc := .stmt 0
      trace := s.trace ++ [.iterBegin (s.iter + 1)] } := by
  simp only [CState.step, hpc]
  unfold CState.head
  (repeat' split) <;> first | exact Or.inl rfl | exact Or.inr rfl

theorem Rec.step {c : Cli} {n N : Nat} {s : CState} {a : Ans} {ev0 ev : List CEv}
    (hr : Rec c n N s ev0) (he : (s.step c a).trace = s.trace ++ ev) :
    Rec c n N (s.step c a) (ev0 ++ ev) := by
  have hQ1 : ∀ {l l' : List CEv}, (∀ e ∈ l, Quiet e) → (∀ e ∈ l', Quiet e) →
      ∀ e ∈ l ++ l', Quiet e := fun h1 h2 e he => (List.mem_append.mp he).elim (h1 e) (h2 e)
  have hnil : ∀ {t : List CEv}, t = s.trace → t = s.trace ++ ev → ev = [] := by
    intro t h1 h2
    rw [h1] at h2
    simpa using h2
  have happ : ∀ {t l : List CEv}, t = s.trace ++ l → t = s.trace ++ ev → ev = l := by
    intro t l h1 h2
    rw [h1] at h2
    exact (List.append_cancel_left h2).symm
  have hdone : ∀ e ∈ [CEv.done], Quiet e := by
    intro e he; rw [List.mem_singleton.mp he]; trivial
  cases hr with
  | start hpc hst hc hN hcl hq =>
    rename_i i code st
    rcases hpc with hpc | hpc
    · cases hstat : c.statsAt s.trxNo with
      | none =>
        have e1 : s.step c a = s.stop .panic := by simp [CState.step, hpc, CState.error, hstat]
        rw [e1] at he ⊢
        rw [happ rfl he]
        exact .stopped .panic rfl (hQ1 hq hdone)
      | some stat =>
        have e1 := error_step a hpc hstat
        rw [e1] at he ⊢
        rw [happ rfl he]
        exact .start (Or.inr rfl) hst hc hN hcl (hQ1 hq (quiet_errEv _ _ _))
    · cases hctx : a.ctxDone with
      | true =>
        have e1 : s.step c a = s.stop .ctx := by simp [CState.step, hpc, CState.connect, hctx]
        rw [e1] at he ⊢
        rw [happ rfl he]
        exact .stopped .ctx rfl (hQ1 hq hdone)
      | false =>
        have e1 : s.step c a = s.goto (.close false) := by
          rcases hcl with ⟨h1, h2⟩ | ⟨flags, h1, h2, h3⟩
          · simp [CState.step, hpc, CState.connect, hctx, hst, h1, h2]
          · simp only [CState.step, hpc, CState.connect, hctx, hst, h1, h2, h3, hasFlag_abort]
            simp
        rw [e1] at he ⊢
        rw [hnil rfl he, List.append_nil]
        exact .closing rfl hc hN hq
  | closing hpc hc hN hq =>
    have e1 : s.step c a = ({ s with conn := none }.log (.closed n)).goto (.connLoop false) := by
      simp [CState.step, hpc, CState.close, hc]
    rw [e1] at he ⊢
    rw [happ rfl he]
    exact .looping rfl hN ev0 rfl hq
  | looping hpc hN pre he' hq =>
    subst he'
    have hcl : ∀ e ∈ pre ++ [.closed n], Quiet e :=
      hQ1 hq (by intro e he; rw [List.mem_singleton.mp he]; trivial)
    cases hctx : a.ctxDone with
    | true =>
      have e1 : s.step c a = s.stop .ctx := by simp [CState.step, hpc, CState.connLoop, hctx]
      rw [e1] at he ⊢
      rw [happ rfl he]
      exact .stopped .ctx rfl (hQ1 hcl hdone)
    | false =>
      cases hok : a.connOk with
      | true =>
        have e1 : s.step c a =
            ({ s with conn := some s.nextConn, nextConn := s.nextConn + 1 }.log
              (.connected s.nextConn)).goto (.connected false) := by
          simp [CState.step, hpc, CState.connLoop, hctx, hok]
        rw [e1] at he ⊢
        rw [happ rfl he]
        exact .connected (Or.inl rfl) (by simp [CState.goto, CState.log, hN]) pre [] (by simp [hN])
          (by simpa using hq)
      | false =>
        have e1 : s.step c a = s := by simp [CState.step, hpc, CState.connLoop, hctx, hok]
        rw [e1] at he ⊢
        rw [hnil rfl he, List.append_nil]
        exact .looping hpc hN pre rfl hq
  | connected hpc hc pre mid he' hq =>
    subst he'
    have hadd : ∀ {l : List CEv}, (∀ e ∈ l, Quiet e) → ∀ e ∈ pre ++ (mid ++ l), Quiet e := by
      intro l hl
      rw [← List.append_assoc]
      exact hQ1 hq hl
    have hall : ∀ e ∈ pre ++ .closed n :: .connected N :: mid, Quiet e := by
      intro e he
      rcases List.mem_append.mp he with h | h
      · exact hq e (List.mem_append_left _ h)
      · rcases List.mem_cons.mp h with h | h
        · subst h; trivial
        · rcases List.mem_cons.mp h with h | h
          · subst h; trivial
          · exact hq e (List.mem_append_right _ h)
    rcases hpc with hpc | hpc | ⟨k, hpc⟩ | hpc
    · cases hctx : a.ctxDone with
      | true =>
        have e1 : s.step c a = s.stop .ctx := by simp [CState.step, hpc, CState.connected, hctx]
        rw [e1] at he ⊢
        rw [happ rfl he]
        exact .stopped .ctx rfl (hQ1 hall hdone)
      | false =>
        by_cases hdb : c.db = ""
        · have e1 : s.step c a = s.goto (.prep false 0) := by
            simp [CState.step, hpc, CState.connected, hctx, hdb]
          rw [e1] at he ⊢
          rw [hnil rfl he, List.append_nil]
          exact .connected (Or.inr (Or.inr (Or.inl ⟨0, rfl⟩))) hc pre mid rfl hq
        · have e1 : s.step c a = s.goto (.use false) := by
            simp [CState.step, hpc, CState.connected, hctx, hdb]
          rw [e1] at he ⊢
          rw [hnil rfl he, List.append_nil]
          exact .connected (Or.inr (Or.inl rfl)) hc pre mid rfl hq
    · have hu : ∀ e ∈ [CEv.useDb (s.conn.getD 0)], Quiet e := by
        intro e he; rw [List.mem_singleton.mp he]; trivial
      by_cases hbad : a.ctxDone = true ∨ a.err.isSome = true
      · have e1 : ∃ x, s.step c a = (s.log (.useDb (s.conn.getD 0))).stop x := by
          cases hctx : a.ctxDone with
          | true => exact ⟨.ctx, by simp [CState.step, hpc, CState.use, hctx]⟩
          | false =>
            have : a.err.isSome = true := by simpa [hctx] using hbad
            exact ⟨.use, by simp [CState.step, hpc, CState.use, hctx, this]⟩
        obtain ⟨x, e1⟩ := e1
        rw [e1] at he ⊢
        have : ev = [.useDb (s.conn.getD 0)] ++ [.done] := by
          refine happ ?_ he
          simp [CState.stop, CState.goto, CState.log]
        rw [this]
        exact .stopped x rfl (hQ1 hall (hQ1 hu hdone))
      · have e1 : s.step c a = (s.log (.useDb (s.conn.getD 0))).goto (.prep false 0) := by
          have h1 : a.ctxDone = false := by simpa using fun h => hbad (Or.inl h)
          have h2 : a.err = none := by simpa using fun h => hbad (Or.inr h)
          simp [CState.step, hpc, CState.use, h1, h2]
        rw [e1] at he ⊢
        rw [happ rfl he]
        exact .connected (Or.inr (Or.inr (Or.inl ⟨0, rfl⟩))) hc pre
          (mid ++ [.useDb (s.conn.getD 0)]) (by simp) (hadd hu)
    · have hp : ∀ e ∈ [CEv.prepared k (s.conn.getD 0)], Quiet e := by
        intro e he; rw [List.mem_singleton.mp he]; trivial
      rcases prep_cases c a hpc with e1 | e1 | e1 | ⟨ps, e1⟩ | ⟨ps, e1⟩
      · rw [e1] at he ⊢
        rw [hnil rfl he, List.append_nil]
        exact .connected (Or.inr (Or.inr (Or.inr rfl))) hc pre mid rfl hq
      · rw [e1] at he ⊢
        rw [hnil rfl he, List.append_nil]
        exact .connected (Or.inr (Or.inr (Or.inl ⟨_, rfl⟩))) hc pre mid rfl hq
      · rw [e1] at he ⊢
        rw [happ rfl he]
        exact .stopped .prepare rfl (hQ1 hall hdone)
      · rw [e1] at he ⊢
        rw [happ rfl he]
        exact .stopped .panic rfl (hQ1 hall (hQ1 hp hdone))
      · rw [e1] at he ⊢
        rw [happ rfl he]
        exact .connected (Or.inr (Or.inr (Or.inl ⟨_, rfl⟩))) hc pre
          (mid ++ [.prepared k (s.conn.getD 0)]) (by simp) (hadd hp)
    · rcases head_cases c a hpc with e1 | e1
      · rw [e1] at he ⊢
        rw [happ rfl he]
        exact .stopped .regular rfl (hQ1 hall hdone)
      · rw [e1] at he ⊢
        rw [happ rfl he]
        exact .running pre mid [] (s.iter + 1) (by simp) hq
  | running pre mid post k he' hq =>
    subst he'
    exact .running pre mid (post ++ ev) k (by simp) hq
  | stopped x hpc hq =>
    have e1 : s.step c a = s := by simp [CState.step, hpc]
    rw [e1] at he ⊢
    rw [hnil rfl he, List.append_nil]
    exact .stopped x hpc hq

theorem Rec.run {c : Cli} {n N : Nat} (as : List Ans) : ∀ {s : CState} {ev0 : List CEv},
    Rec c n N s ev0 → ∃ ev, (s.run c as).trace = s.trace ++ ev ∧ Rec c n N (s.run c as) (ev0 ++ ev) := by
  induction as with
  | nil => intro s ev0 h; exact ⟨[], by simp [CState.run], by simpa [CState.run] using h⟩
  | cons a as ih =>
    intro s ev0 h
    obtain ⟨e1, h1⟩ := (s.step_cases c a).trace
    obtain ⟨e2, h2, h3⟩ := ih (h.step h1)
    refine ⟨e1 ++ e2, ?_, ?_⟩
    · rw [CState.run_cons, h2, h1, List.append_assoc]
    · rw [CState.run_cons, ← List.append_assoc]; exact h3

/-- **C45, reconnect.** After an error that is not in the table (and the statement is not DDL), or
whose flags say neither continue nor, here, rollback, whatever happens next: before the client begins
another iteration or executes a statement it has closed its connection and opened a new one. -/
theorem C45_unknown_reconnects {c : Cli} {s : CState} {i n : Nat} {code : Option Nat} {st : Stmt}
    (hpc : s.pc = .error i code) (hst : c.statements[i]? = some st) (hconn : s.conn = some n)
    (hr : Reconnects c st (code.getD 0) s.trxActive) (as : List Ans) :
    ∃ ev, (s.run c as).trace = s.trace ++ ev ∧
      ((∀ e ∈ ev, Quiet e) ∨
        ∃ pre mid post k, ev = pre ++ .closed n :: .connected s.nextConn ::
          (mid ++ .iterBegin k :: post) ∧ ∀ e ∈ pre ++ mid, Quiet e) := by
  obtain ⟨ev, h1, h2⟩ := Rec.run (c := c) (n := n) (N := s.nextConn) as
    (Rec.start (ev := []) (Or.inl hpc) hst hconn rfl hr (by simp))
  refine ⟨ev, h1, ?_⟩
  rw [List.nil_append] at h2
  have hsing : ∀ x : CEv, Quiet x → ∀ e ∈ [x], Quiet e := by
    intro x hx e he; rw [List.mem_singleton.mp he]; exact hx
  cases h2 with
  | start _ _ _ _ _ hq => exact Or.inl hq
  | closing _ _ _ hq => exact Or.inl hq
  | looping _ _ pre he hq =>
    left; subst he
    intro e he
    rcases List.mem_append.mp he with h | h
    · exact hq e h
    · rw [List.mem_singleton.mp h]; trivial
  | connected _ _ pre mid he hq =>
    left; subst he
    intro e he
    rcases List.mem_append.mp he with h | h
    · exact hq e (List.mem_append_left _ h)
    · rcases List.mem_cons.mp h with h | h
      · subst h; trivial
      · rcases List.mem_cons.mp h with h | h
        · subst h; trivial
        · exact hq e (List.mem_append_right _ h)
  | running pre mid post k he hq => exact Or.inr ⟨pre, mid, post, k, he, hq⟩
  | stopped _ _ hq => exact Or.inl hq

/-- Spec: every prepared statement that stands for several has that many statements after it. -/
def PrepareFits (c : Cli) : Prop :=
  ∀ (k : Nat) st, c.statements[k]? = some st → st.prepare = true →
    k + st.prepareMulti ≤ c.statements.length

theorem prep_progress {c : Cli} (hfit : PrepareFits c) {a : Ans} (hctx : a.ctxDone = false)
    (herr : a.err = none) : ∀ (r k : Nat) (s : CState) (f : Bool), s.pc = .prep f k →
    c.statements.length ≤ k + r →
    ∃ m, (s.run c (List.replicate m a)).pc = .head ∧
      (s.run c (List.replicate m a)).conn = s.conn := by
  intro r
  induction r with
  | zero =>
    intro k s f hpc hk
    refine ⟨1, ?_⟩
    have : c.statements[k]? = none := List.getElem?_eq_none (by omega)
    have e1 : s.step c a = s.resume f := by simp [CState.step, hpc, CState.prepare, this]
    simp only [List.replicate, CState.run, List.foldl_cons, List.foldl_nil]
    rw [e1]
    cases f <;> exact ⟨rfl, rfl⟩
  | succ r ih =>
    intro k s f hpc hk
    have key : (s.step c a).pc = .head ∧ (s.step c a).conn = s.conn ∨
        (s.step c a).pc = .prep f (k + 1) ∧ (s.step c a).conn = s.conn := by
      cases hst : c.statements[k]? with
      | none =>
        left
        have e1 : s.step c a = s.resume f := by simp [CState.step, hpc, CState.prepare, hst]
        rw [e1]; cases f <;> exact ⟨rfl, rfl⟩
      | some st =>
        right
        simp only [CState.step, hpc, CState.prepare, hst]
        split
        · exact ⟨rfl, rfl⟩
        · rename_i hp
          have hp : st.prepare = true := by
            cases h : st.prepare
            · simp [h] at hp
            · rfl
          have := hfit k st hst hp
          rw [if_neg (by simp [hctx, herr]), if_neg (by omega)]
          exact ⟨rfl, rfl⟩
    rcases key with ⟨h1, h2⟩ | ⟨h1, h2⟩
    · exact ⟨1, by simpa [List.replicate, CState.run] using ⟨h1, h2⟩⟩
    · obtain ⟨m, h3, h4⟩ := ih (k + 1) (s.step c a) f h1 (by omega)
      exact ⟨m + 1, by simpa [List.replicate_succ, CState.run_cons] using ⟨h3, h4.trans h2⟩⟩

/-- **C45, reconnect.** And if MySQL answers again, the client gets to its next iteration on the new
connection. -/
theorem C45_unknown_next_iteration {c : Cli} (hfit : PrepareFits c) {s : CState} {i : Nat}
    {code : Option Nat} {st : Stmt} {stat : Option String} {a : Ans}
    (hpc : s.pc = .error i code) (hst : c.statements[i]? = some st)
    (hstat : c.statsAt s.trxNo = some stat)
    (hr : Reconnects c st (code.getD 0) s.trxActive) (hctx : a.ctxDone = false) (herr : a.err = none)
    (hok : a.connOk = true) :
    ∃ m, (s.run c (List.replicate m a)).pc = .head ∧
      (s.run c (List.replicate m a)).conn = some s.nextConn := by
  have e1 := error_step a hpc hstat
  generalize hs1 : s.step c a = s1 at e1
  have e2 : s1.step c a = s1.goto (.close false) := by
    have hpc1 : s1.pc = .connect (some (code, i)) := by rw [e1]
    have hact : s1.trxActive = s.trxActive := by rw [e1]
    rcases hr with ⟨h1, h2⟩ | ⟨flags, h1, h2, h3⟩
    · simp [CState.step, hpc1, CState.connect, hctx, hst, h1, h2]
    · simp only [CState.step, hpc1, CState.connect, hctx, hst, h1, hact, h2, h3, hasFlag_abort]
      simp
  generalize hs2 : s1.step c a = s2 at e2
  have hn2 : s2.nextConn = s.nextConn := by rw [e2, e1]; rfl
  have e3 : (s2.step c a).pc = .connLoop false ∧ (s2.step c a).nextConn = s.nextConn := by
    have hpc2 : s2.pc = .close false := by rw [e2]; rfl
    simp only [CState.step, hpc2, CState.close]
    split
    · exact ⟨rfl, hn2⟩
    · exact ⟨rfl, hn2⟩
  generalize hs3 : s2.step c a = s3 at e3
  have e4 : (s3.step c a).pc = .connected false ∧ (s3.step c a).conn = some s.nextConn := by
    simp only [CState.step, e3.1, CState.connLoop, hctx, hok]
    exact ⟨rfl, congrArg some e3.2⟩
  generalize hs4 : s3.step c a = s4 at e4
  have e5 : ∃ m, (s4.run c (List.replicate m a)).pc = .prep false 0 ∧
      (s4.run c (List.replicate m a)).conn = some s.nextConn := by
    by_cases hdb : c.db = ""
    · refine ⟨1, ?_⟩
      simp only [List.replicate, CState.run, List.foldl_cons, List.foldl_nil]
      simp only [CState.step, e4.1, CState.connected, hctx, hdb]
      exact ⟨rfl, e4.2⟩
    · refine ⟨2, ?_⟩
      have h5 : s4.step c a = s4.goto (.use false) := by
        simp [CState.step, e4.1, CState.connected, hctx, hdb]
      simp only [List.replicate, CState.run, List.foldl_cons, List.foldl_nil]
      rw [h5]
      simp only [CState.step, CState.goto, CState.use, hctx, herr]
      exact ⟨rfl, e4.2⟩
  obtain ⟨m, e5, e6⟩ := e5
  obtain ⟨m', e7, e8⟩ := prep_progress hfit hctx herr c.statements.length 0 _ false e5 (by omega)
  refine ⟨4 + (m + m'), ?_⟩
  have : s.run c (List.replicate (4 + (m + m')) a) =
      (s4.run c (List.replicate m a)).run c (List.replicate m' a) := by
    rw [← List.replicate_append_replicate, ← List.replicate_append_replicate, CState.run_append,
      CState.run_append]
    congr 2
    simp only [List.replicate, CState.run, List.foldl_cons, List.foldl_nil, hs1, hs2, hs3, hs4]
  rw [this]
  exact ⟨e7, e8.trans e6⟩

/-- Spec: the connection an event opens. -/
def CEv.opens : CEv → Option Nat
  | .connected n => some n
  | _ => none

/-- **C45.** Connections are numbered in the order in which they are opened: a connection opened by
a client is another one than all before. -/
theorem C45_connections_distinct (c : Cli) (as : List Ans) :
    let s := CState.init.run c as
    s.trace.filterMap CEv.opens = List.range s.nextConn ∧ (∀ n, s.conn = some n → n < s.nextConn) := by
  refine CState.run_inv (P := fun s => s.trace.filterMap CEv.opens = List.range s.nextConn ∧
    (∀ n, s.conn = some n → n < s.nextConn)) ?_ as _ ⟨rfl, by simp [CState.init]⟩
  intro s a s' h hs
  have hrec : ∀ stat k, (recEv stat k).filterMap CEv.opens = [] := by
    intro stat k; cases stat <;> rfl
  have herr : ∀ stat b k, (errEv stat b k).filterMap CEv.opens = [] := by
    intro stat b k; cases stat <;> cases b <;> rfl
  have hokv : ∀ st d i, (okEv st d i).filterMap CEv.opens = [] := by
    intro st d i; unfold okEv; split <;> split <;> rfl
  have hw : ∀ st, (waitEv c st).filterMap CEv.opens = [] := by
    intro st; unfold waitEv; split <;> split <;> rfl
  cases h
  case connOk =>
    refine ⟨?_, ?_⟩
    · simp only [List.filterMap_append, hs.1, List.range_succ]
      rfl
    · intro n hn
      cases hn
      exact Nat.lt_succ_self _
  case close => exact ⟨by simp only [List.filterMap_append, hs.1]; exact List.append_nil _, by simp⟩
  all_goals
    first
    | exact hs
    | refine ⟨?_, hs.2⟩
      simp only [List.filterMap_append, hs.1, List.filterMap_cons, hrec, herr, hokv, hw, CEv.opens,
        List.filterMap_nil, List.append_nil]

/-- The errors of the default table: what each listed code means here. The codes listed as abort
(1046, 1062, 1064, 1146) reconnect: the part of the claim that they stop the client is false
(`C45_abort_never_stops_false`), so this is partial. -/
theorem C45_default_table_partial (c : Cli) (ht : c.tbl = mysqlErrorHandling) (st : Stmt) (act : Bool) :
    (∀ code, code = 1046 ∨ code = 1062 ∨ code = 1064 ∨ code = 1146 → Reconnects c st code act) ∧
    (∀ code, code = 1213 ∨ code = 1317 → ∃ flags, c.tbl code = some flags ∧
      hasFlag flags eContinue = true ∧ hasFlag flags eRollback = false) ∧
    (∀ code, code = 1205 ∨ code = 1290 ∨ code = 1836 → ∃ flags, c.tbl code = some flags ∧
      hasFlag flags eContinue = true ∧ hasFlag flags eRollback = true) ∧
    (∀ code, code ∉ [1046, 1062, 1064, 1146, 1205, 1213, 1290, 1317, 1836] → st.ddl = false →
      Reconnects c st code act) := by
  refine ⟨?_, ?_, ?_, ?_⟩
  · intro code h
    right
    refine ⟨0, ?_, ?_, ?_⟩
    · rw [ht]; rcases h with rfl | rfl | rfl | rfl <;> rfl
    · simp [hasFlag]
    · simp [hasFlag]
  · intro code h
    refine ⟨4, ?_, by decide, by decide⟩
    rw [ht]; rcases h with rfl | rfl <;> rfl
  · intro code h
    refine ⟨20, ?_, by decide, by decide⟩
    rw [ht]; rcases h with rfl | rfl | rfl <;> rfl
  · intro code h hd
    left
    refine ⟨?_, hd⟩
    rw [ht]
    simp only [List.mem_cons, List.not_mem_nil, or_false, not_or] at h
    simp [mysqlErrorHandling, h]

/-! ### Example -/

/-- A statement for examples. -/
def exStmt (query : String) (resultSet write commit begin_ prepare : Bool) : Stmt :=
  { trx := "t", query := query.toList, resultSet := resultSet, prepare := prepare, prepareMulti := 0
    begin_ := begin_, commit := commit, write := write, ddl := false, idle := 0, inputs := []
    outputs := [], insertId := "", limit := none, calls := [] }

def exData (b e : Bool) : StmtData :=
  { inputs := [], outputs := [], insertId := none, begin_ := b, end_ := e }

/-- One trx `BEGIN`, `UPDATE`, `COMMIT`. -/
def exClient (prepare : Bool) : Cli :=
  { rl := ⟨1, 1, 1, 1, 0, 0⟩, tbl := mysqlErrorHandling
    statements := [exStmt "BEGIN" false false false true false,
      exStmt "UPDATE t SET c=1" false true false false prepare,
      exStmt "COMMIT" false false true false false]
    data := [exData true false, exData false false, exData false true]
    stats := [some "t"], db := "", iter := 0, iterClients := 0, iterExecGroup := 0
    qps := false, tps := false }

/-- Everything goes well. -/
def okAns : Ans := ⟨false, none, true, true, 0, 0⟩

def failAns (code : Nat) : Ans := { okAns with err := some code }

/-- Syntax error, listed as abort, in the second statement: the client reconnects and goes on. -/
example :
    let s := CState.init.run (exClient false)
      (List.replicate 12 okAns ++ [failAns 1064] ++ List.replicate 12 okAns)
    CEv.failed 1 (some 1064) ∈ s.trace ∧ s.conn = some 1 ∧ s.pc = .stmt 1 ∧ s.iter = 2 := by
  decide +kernel

/-! ### C46 -/

/-- Spec: a statement before `m` begins a trx and none after it, before `m`, is the last of a trx of
several statements. (Idle statements have no effect.) -/
def InsideTrxBefore (c : Cli) (m : Nat) : Prop :=
  ∃ j, j < m ∧ (∃ st d, c.statements[j]? = some st ∧ c.data[j]? = some d ∧ st.idle = 0 ∧
      d.begin_ = true) ∧
    ∀ k, j < k → k < m → ∀ st d, c.statements[k]? = some st → c.data[k]? = some d → st.idle = 0 →
      d.begin_ = true ∨ d.end_ = false

/-- Spec: statement `i` is inside a trx, but not the last of a trx of several statements. -/
def InsideTrx (c : Cli) (i : Nat) : Prop := InsideTrxBefore c (i + 1)

/-- Spec: the table says rollback for this error. -/
def RollbackClass (c : Cli) (code : Nat) : Prop :=
  ∃ flags, c.tbl code = some flags ∧ hasFlag flags eRollback = true

def ActInv (c : Cli) (s : CState) : Prop :=
  match s.pc with
  | .stmt i => InsideTrxBefore c i → s.trxActive = true
  | .limit i | .exec i | .scan i | .error i _ => InsideTrx c i → s.trxActive = true
  | .connect (some (_, i)) => InsideTrx c i → s.trxActive = true
  | _ => True

theorem insideTrx_idle {c : Cli} {i : Nat} {st : Stmt} (hst : c.statements[i]? = some st)
    (hi : st.idle ≠ 0) (h : InsideTrxBefore c (i + 1)) : InsideTrxBefore c i := by
  obtain ⟨j, hj, ⟨st', d', h1, h2, h3, h4⟩, h5⟩ := h
  have hne : j ≠ i := by
    intro he
    rw [he, hst] at h1
    cases h1
    exact hi h3
  exact ⟨j, by omega, ⟨st', d', h1, h2, h3, h4⟩, fun k hk1 hk2 => h5 k hk1 (by omega)⟩

theorem ActInv.step {c : Cli} {s s' : CState} {a : Ans} (h : CStep c s a s') (hs : ActInv c s) :
    ActInv c s' := by
  cases h
  case connFail => exact hs
  case stopped => exact hs
  case iterate =>
    show InsideTrxBefore c 0 → _
    rintro ⟨j, hj, _⟩
    omega
  case idle i st hpc hst hi =>
    have hs' : InsideTrxBefore c i → s.trxActive = true := by simpa only [ActInv, hpc] using hs
    exact fun h => hs' (insideTrx_idle hst hi h)
  case stmt i st d hpc hst hi hd =>
    have hs' : InsideTrxBefore c i → s.trxActive = true := by simpa only [ActInv, hpc] using hs
    have key : InsideTrx c i →
        (if d.begin_ then true else if d.end_ then false else s.trxActive) = true := by
      rintro ⟨j, hj, hb, h5⟩
      cases hbeg : d.begin_ with
      | true => rfl
      | false =>
        have hne : j ≠ i := by
          rintro rfl
          obtain ⟨st', d', h1, h2, h3, h4⟩ := hb
          rw [hd] at h2
          cases h2
          rw [hbeg] at h4; cases h4
        have hend : d.end_ = false := by
          rcases h5 i (by omega) (by omega) st d hst hd hi with h | h
          · rw [hbeg] at h; cases h
          · exact h
        rw [hend]
        exact hs' ⟨j, by omega, hb, fun k hk1 hk2 => h5 k hk1 (by omega)⟩
    cases hl : (!st.resultSet && st.limit.isSome)
    · exact key
    · exact key
  case more i hpc hm => simpa only [ActInv, hpc, InsideTrx] using hs
  case execFail i st d stat code hpc hst hd hstat he => simpa only [ActInv, hpc, InsideTrx] using hs
  case execRows i st d stat hpc hst hd hstat hc he hr =>
    have hs' : InsideTrx c i → s.trxActive = true := by simpa only [ActInv, hpc] using hs
    by_cases ho : d.outputs = []
    · simpa only [ActInv, ho, ne_eq, not_true_eq_false, if_false, InsideTrx] using hs'
    · simpa only [ActInv, ho, ne_eq, not_false_eq_true, if_true, InsideTrx] using hs'
  case execOk i st d stat hpc hst hd hstat hc he hr => simpa only [ActInv, hpc, InsideTrx] using hs
  case scanFail i e hpc he => simpa only [ActInv, hpc, InsideTrx] using hs
  case scanOk i hpc he => simpa only [ActInv, hpc, InsideTrx] using hs
  case error i code stat hpc hstat => simpa only [ActInv, hpc, InsideTrx] using hs
  all_goals trivial

/-- A rollback is due: an error that calls for one, and no rollback since. -/
def OwedTr (c : Cli) (tr : List CEv) : Prop :=
  ∃ (p i code : Nat), tr[p]? = some (.failed i (some code)) ∧ RollbackClass c code ∧ InsideTrx c i ∧
    ∀ (r k : Nat), p < r → tr[r]? ≠ some (.rollback k)

/-- Spec: between an error that calls for a rollback and the beginning of an iteration after it there
is a rollback. -/
def RollsBack (c : Cli) (tr : List CEv) : Prop :=
  ∀ (p q i code n : Nat), p < q → tr[p]? = some (.failed i (some code)) →
    tr[q]? = some (.iterBegin n) → RollbackClass c code → InsideTrx c i →
    ∃ r k : Nat, p < r ∧ r < q ∧ tr[r]? = some (.rollback k)

theorem rollsBack_append {c : Cli} {tr l : List CEv} (h : RollsBack c tr)
    (hl : ∀ n, CEv.iterBegin n ∉ l) : RollsBack c (tr ++ l) := by
  intro p q i code n hpq hp hq hc hi
  have hqlt : q < tr.length := by
    by_contra hge
    rw [List.getElem?_append_right (by omega)] at hq
    exact hl n (List.mem_of_getElem? hq)
  rw [List.getElem?_append_left (by omega)] at hp hq
  obtain ⟨r, k, h1, h2, h3⟩ := h p q i code n hpq hp hq hc hi
  exact ⟨r, k, h1, h2, by rw [List.getElem?_append_left (by omega)]; exact h3⟩

theorem rollsBack_iter {c : Cli} {tr : List CEv} {n : Nat} (h : RollsBack c tr) (ho : ¬ OwedTr c tr) :
    RollsBack c (tr ++ [.iterBegin n]) := by
  intro p q i code m hpq hp hq hc hi
  have hqle : q ≤ tr.length := by
    by_contra hge
    rw [List.getElem?_eq_none (by simp; omega)] at hq
    cases hq
  rw [List.getElem?_append_left (by omega)] at hp
  by_cases hqlt : q < tr.length
  · rw [List.getElem?_append_left hqlt] at hq
    obtain ⟨r, k, h1, h2, h3⟩ := h p q i code m hpq hp hq hc hi
    exact ⟨r, k, h1, h2, by rw [List.getElem?_append_left (by omega)]; exact h3⟩
  · by_contra hno
    apply ho
    refine ⟨p, i, code, hp, hc, hi, ?_⟩
    intro r k hr hrk
    have hrlt : r < tr.length := by
      by_contra hge
      rw [List.getElem?_eq_none (by omega)] at hrk
      cases hrk
    exact hno ⟨r, k, hr, by omega, by rw [List.getElem?_append_left hrlt]; exact hrk⟩

theorem owed_append {c : Cli} {tr l : List CEv} (h : OwedTr c (tr ++ l)) :
    (OwedTr c tr ∧ ∀ k, CEv.rollback k ∉ l) ∨
    ∃ i code, CEv.failed i (some code) ∈ l ∧ RollbackClass c code ∧ InsideTrx c i := by
  obtain ⟨p, i, code, hp, hc, hi, hr⟩ := h
  by_cases hlt : p < tr.length
  · left
    rw [List.getElem?_append_left hlt] at hp
    constructor
    · refine ⟨p, i, code, hp, hc, hi, ?_⟩
      intro r k hpr hrk
      have hrlt : r < tr.length := by
        by_contra hge
        rw [List.getElem?_eq_none (by omega)] at hrk
        cases hrk
      exact hr r k hpr (by rw [List.getElem?_append_left hrlt]; exact hrk)
    · intro k hk
      obtain ⟨r, hr'⟩ := List.mem_iff_getElem?.mp hk
      refine hr (tr.length + r) k (by omega) ?_
      rw [List.getElem?_append_right (by omega)]
      simpa using hr'
  · right
    rw [List.getElem?_append_right (by omega)] at hp
    exact ⟨i, code, List.mem_of_getElem? hp, hc, hi⟩

/-- Where a client is while a rollback is due. -/
def OwedPc (c : Cli) : CPc → Prop
  | .error i (some code) => RollbackClass c code ∧ InsideTrx c i
  | .connect (some (some code, i)) => RollbackClass c code ∧ InsideTrx c i
  | .rollback _ _ _ => True
  | .stopped _ => True
  | _ => False

structure RbInv (c : Cli) (s : CState) : Prop where
  act : ActInv c s
  good : RollsBack c s.trace
  owed : OwedTr c s.trace → OwedPc c s.pc

theorem mem_errEv {stat : Option String} {b : Bool} {code : Nat} {e : CEv}
    (h : e ∈ errEv stat b code) : ∃ n, e = .errorStat n code := by
  unfold errEv at h
  split at h
  · split at h
    · cases h
    · exact ⟨_, List.mem_singleton.mp h⟩
  · cases h

theorem mem_recEv {stat : Option String} {k : EvClass} {e : CEv} (h : e ∈ recEv stat k) :
    ∃ n, stat = some n ∧ e = .record n k := by
  unfold recEv at h
  split at h
  · exact ⟨_, rfl, List.mem_singleton.mp h⟩
  · cases h

theorem mem_okEv {st : Stmt} {d : StmtData} {i : Nat} {e : CEv} (h : e ∈ okEv st d i) :
    e = .affected i ∨ e = .insertId i := by
  unfold okEv at h
  rcases List.mem_append.mp h with h | h
  · split at h
    · exact Or.inl (List.mem_singleton.mp h)
    · cases h
  · split at h
    · exact Or.inr (List.mem_singleton.mp h)
    · cases h

theorem mem_waitEv {c : Cli} {st : Stmt} {e : CEv} (h : e ∈ waitEv c st) :
    e = .waitTps ∨ e = .waitQps := by
  unfold waitEv at h
  rcases List.mem_append.mp h with h | h
  · split at h
    · exact Or.inl (List.mem_singleton.mp h)
    · cases h
  · split at h
    · exact Or.inr (List.mem_singleton.mp h)
    · cases h

/-- Events that matter neither for rollbacks. -/
def Plain : CEv → Prop
  | .failed .. | .iterBegin .. | .rollback .. => False
  | _ => True

theorem plain_errEv {stat : Option String} {b : Bool} {code : Nat} :
    ∀ e ∈ errEv stat b code, Plain e := fun e h => by
  obtain ⟨n, rfl⟩ := mem_errEv h; trivial

theorem plain_recEv {stat : Option String} {k : EvClass} : ∀ e ∈ recEv stat k, Plain e :=
  fun e h => by obtain ⟨n, _, rfl⟩ := mem_recEv h; trivial

theorem plain_okEv {st : Stmt} {d : StmtData} {i : Nat} : ∀ e ∈ okEv st d i, Plain e :=
  fun e h => by rcases mem_okEv h with rfl | rfl <;> trivial

theorem plain_waitEv {c : Cli} {st : Stmt} : ∀ e ∈ waitEv c st, Plain e :=
  fun e h => by rcases mem_waitEv h with rfl | rfl <;> trivial

theorem owed_plain {c : Cli} {tr l : List CEv} (hl : ∀ e ∈ l, Plain e) (h : OwedTr c (tr ++ l)) :
    OwedTr c tr := by
  rcases owed_append h with h | ⟨i, code, h, _⟩
  · exact h.1
  · exact absurd (hl _ h) (by simp [Plain])

theorem rollsBack_plain {c : Cli} {tr l : List CEv} (hl : ∀ e ∈ l, Plain e) (h : RollsBack c tr) :
    RollsBack c (tr ++ l) :=
  rollsBack_append h (fun n hn => absurd (hl _ hn) (by simp [Plain]))

theorem RbInv.step {c : Cli} {s s' : CState} {a : Ans} (h : CStep c s a s') (hs : RbInv c s) :
    RbInv c s' := by
  refine ⟨hs.act.step h, ?_, ?_⟩
  · have hp : ∀ {l : List CEv}, (∀ e ∈ l, Plain e) → RollsBack c (s.trace ++ l) :=
      fun hl => rollsBack_plain hl hs.good
    have hg : ∀ {l : List CEv}, (∀ n, CEv.iterBegin n ∉ l) → RollsBack c (s.trace ++ l) :=
      fun hl => rollsBack_append hs.good hl
    cases h
    case iterate hpc hl =>
      refine rollsBack_iter hs.good (fun ho => ?_)
      have := hs.owed ho
      rw [hpc] at this
      exact this
    case stmt =>
      refine hp (fun e he => ?_)
      rcases List.mem_append.mp he with he | he
      · exact plain_waitEv e he
      · rw [List.mem_singleton.mp he]; trivial
    case execFail =>
      refine hg (fun n hn => ?_)
      rcases List.mem_cons.mp hn with hn | hn
      · cases hn
      · rcases List.mem_append.mp hn with hn | hn
        · obtain ⟨_, _, h⟩ := mem_recEv hn; cases h
        · cases List.mem_singleton.mp hn
    case execRows =>
      refine hp (fun e he => ?_)
      rcases List.mem_cons.mp he with he | he
      · subst he; trivial
      · exact plain_recEv e he
    case execOk =>
      refine hp (fun e he => ?_)
      rcases List.mem_cons.mp he with he | he
      · subst he; trivial
      · rcases List.mem_append.mp he with he | he
        · exact plain_recEv e he
        · exact plain_okEv e he
    case error => exact hp plain_errEv
    all_goals first | exact hs.good | exact hg (by simp)
  · have hp : ∀ {l : List CEv}, (∀ e ∈ l, Plain e) → OwedTr c (s.trace ++ l) → OwedPc c s.pc :=
      fun hl ho => hs.owed (owed_plain hl ho)
    cases h
    case ctxStop => exact fun _ => trivial
    case connectFirst hpc _ => intro ho; have := hs.owed ho; rw [hpc] at this; exact this
    case connectPanic => exact fun _ => trivial
    case ddl => exact fun _ => trivial
    case unknown code i st hpc hc hst ht hd =>
      intro ho
      have := hs.owed ho
      rw [hpc] at this
      cases code with
      | none => exact this
      | some code =>
        obtain ⟨⟨flags, h1, _⟩, _⟩ := this
        have ht : c.tbl code = none := ht
        rw [ht] at h1; cases h1
    case toRollback => exact fun _ => trivial
    case cont code i flags st hpc hc hst ht hr hcont =>
      intro ho
      have := hs.owed ho
      rw [hpc] at this
      cases code with
      | none => exact this
      | some code =>
        obtain ⟨⟨flags', h1, h2⟩, h3⟩ := this
        have ht : c.tbl code = some flags := ht
        rw [ht] at h1; cases h1
        have hact := hs.act
        simp only [ActInv, hpc] at hact
        rw [h2, hact h3] at hr
        cases hr
    case handledClose code i flags st hpc hc hst ht hr hcont =>
      intro ho
      have := hs.owed ho
      rw [hpc] at this
      cases code with
      | none => exact this
      | some code =>
        obtain ⟨⟨flags', h1, h2⟩, h3⟩ := this
        have ht : c.tbl code = some flags := ht
        rw [ht] at h1; cases h1
        have hact := hs.act
        simp only [ActInv, hpc] at hact
        rw [h2, hact h3] at hr
        cases hr
    case rollbackFail => exact fun _ => trivial
    case rollbackCont =>
      intro ho
      rcases owed_append ho with h | ⟨i, code, h, _⟩
      · exact absurd (List.mem_singleton.mpr rfl) (h.2 _)
      · cases List.mem_singleton.mp h
    case rollbackClose =>
      intro ho
      rcases owed_append ho with h | ⟨i, code, h, _⟩
      · exact absurd (List.mem_singleton.mpr rfl) (h.2 _)
      · cases List.mem_singleton.mp h
    case execFail i st d stat code hpc hst hd hstat he =>
      intro ho
      rcases owed_append ho with h | ⟨j, code', h, h2, h3⟩
      · have := hs.owed h.1; rw [hpc] at this; exact this.elim
      · rcases List.mem_cons.mp h with h | h
        · cases h
        · rcases List.mem_append.mp h with h | h
          · obtain ⟨_, _, h⟩ := mem_recEv h; cases h
          · cases List.mem_singleton.mp h
            exact ⟨h2, h3⟩
    case scanFail i e hpc he =>
      intro ho
      rcases owed_append ho with h | ⟨j, code', h, h2, h3⟩
      · have := hs.owed h.1; rw [hpc] at this; exact this.elim
      · cases List.mem_singleton.mp h
        exact ⟨h2, h3⟩
    case error i code stat hpc hstat =>
      intro ho
      have := hp plain_errEv ho
      rw [hpc] at this
      cases code <;> exact this
    case connFail => exact hs.owed
    case stopped => exact hs.owed
    case stmt i st d hpc hst hi hd =>
      intro ho
      have := hp (fun e he => by
        rcases List.mem_append.mp he with he | he
        · exact plain_waitEv e he
        · rw [List.mem_singleton.mp he]; trivial) ho
      rw [hpc] at this; exact this.elim
    case execRows i st d stat hpc hst hd hstat hc he hr =>
      intro ho
      have := hp (fun e he => by
        rcases List.mem_cons.mp he with he | he
        · subst he; trivial
        · exact plain_recEv e he) ho
      rw [hpc] at this; exact this.elim
    case execOk i st d stat hpc hst hd hstat hc he hr =>
      intro ho
      have := hp (fun e he => by
        rcases List.mem_cons.mp he with he | he
        · subst he; trivial
        · rcases List.mem_append.mp he with he | he
          · exact plain_recEv e he
          · exact plain_okEv e he) ho
      rw [hpc] at this; exact this.elim
    case iterate hpc hl =>
      intro ho
      rcases owed_append ho with h | ⟨i, code, h, _⟩
      · have := hs.owed h.1; rw [hpc] at this; exact this.elim
      · cases List.mem_singleton.mp h
    case idle i st hpc _ _ =>
      intro ho
      have := hp (by simp [Plain]) ho
      rw [hpc] at this; exact this.elim
    all_goals first
      | exact fun _ => trivial
      | (intro ho
         have := hs.owed ho
         simp only [*, OwedPc] at this)
      | (intro ho
         have := hp (by simp [Plain]) ho
         simp only [*, OwedPc] at this)

/-- **C46.** In every run: if a statement inside a trx fails with an error whose handling includes
rollback, then a ROLLBACK is executed before the next iteration begins. What is missing from the full
claim: the last statement of a trx of several statements, for which it is false
(`C46_last_statement_false`), see `InsideTrx`. -/
theorem C46_rollback_before_next_iteration_partial (c : Cli) (as : List Ans) :
    RollsBack c (CState.init.run c as).trace := by
  have h0 : RbInv c CState.init :=
    ⟨trivial, fun p q i code n _ hp => by simp [CState.init] at hp,
      fun ⟨p, i, code, hp, _⟩ => by simp [CState.init] at hp⟩
  exact (CState.run_inv (P := RbInv c) (fun s a s' h hs => hs.step h) as _ h0).good

/-- Lock wait timeout in the second of three statements: the rollback comes between the error and the
second iteration. -/
example :
    let s := CState.init.run (exClient false)
      (List.replicate 12 okAns ++ [failAns 1205] ++ List.replicate 12 okAns)
    RollbackClass (exClient false) 1205 ∧ InsideTrx (exClient false) 1 ∧
    s.trace.filter (fun e => e = .failed 1 (some 1205) ∨ e = .rollback 0 ∨ e = .iterBegin 2) =
      [.failed 1 (some 1205), .rollback 0, .iterBegin 2] := by
  refine ⟨⟨20, rfl, rfl⟩, ⟨0, by omega, ⟨_, _, rfl, rfl, rfl, rfl⟩, ?_⟩, by decide +kernel⟩
  intro k h1 h2 st d hst hd _
  obtain rfl : k = 1 := by omega
  cases hd
  exact Or.inr rfl

/-- **C46 is false for the last statement.** `BEGIN`, `UPDATE`, `COMMIT` in one trx file; the last
statement fails with a lock wait timeout (1205, handled with rollback). The trx of the client is
already marked as ended, so the next iteration begins without ROLLBACK. -/
theorem C46_last_statement_false :
    ∃ (c : Cli) (as : List Ans), c.tbl = mysqlErrorHandling ∧
      CEv.failed 2 (some 1205) ∈ (CState.init.run c as).trace ∧
      (CState.init.run c as).iter = 2 ∧ ∀ n, CEv.rollback n ∉ (CState.init.run c as).trace := by
  refine ⟨exClient false, List.replicate 14 okAns ++ [failAns 1205] ++ List.replicate 5 okAns, rfl,
    by decide +kernel, by decide +kernel, ?_⟩
  have : (CState.init.run (exClient false)
      (List.replicate 14 okAns ++ [failAns 1205] ++ List.replicate 5 okAns)).trace.all
      (fun e => match e with | .rollback _ => false | _ => true) = true := by decide +kernel
  intro n hn
  have := List.all_eq_true.mp this _ hn
  cases this

end Finch
