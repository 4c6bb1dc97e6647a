import Verif.Props.ClientStop
import Verif.Props.ClientStats
/-!
C119: a client executes its statements in order, iteration after iteration. What a client does is a
sequence of iterations numbered from 1, each of which goes through the statements from the first on
without leaving one out, and ends after the last statement or with one that failed.
-/
namespace Finch

/-- What is looked at: the beginning of an iteration, statement `i` done (executed, or slept if it is
an idle entry), and the failure of statement `i`. -/
inductive OEv where
  | begin_ (n : Nat) | did (i : Nat) | fail (i : Nat)
  deriving DecidableEq, Repr

def CEv.order : CEv → Option OEv
  | .iterBegin n => some (.begin_ n)
  | .slept i | .exec i _ _ => some (.did i)
  | .failed i _ => some (.fail i)
  | _ => none

/-- Spec: an iteration that went through the first `k` statements; `f`: the last of them failed. -/
def iterOf (n : Nat) (k : Nat) (f : Bool) : List OEv :=
  .begin_ n :: ((List.range k).map .did ++ if f then [.fail (k - 1)] else [])

/-- Spec: iterations from number `n` on. -/
def itersFrom : Nat → List (Nat × Bool) → List OEv
  | _, [] => []
  | n, (k, f) :: ks => iterOf n k f ++ itersFrom (n + 1) ks

/-- Spec: an iteration of a client with `len` statements is over: it went through all of them, or the
last one failed. -/
def IterOver (len : Nat) (x : Nat × Bool) : Prop :=
  (x.2 = false ∧ x.1 = len) ∨ (x.2 = true ∧ 0 < x.1 ∧ x.1 ≤ len)

theorem itersFrom_append (n : Nat) (a b : List (Nat × Bool)) :
    itersFrom n (a ++ b) = itersFrom n a ++ itersFrom (n + a.length) b := by
  induction a generalizing n with
  | nil => rfl
  | cons x xs ih =>
    obtain ⟨k, f⟩ := x
    show iterOf n k f ++ itersFrom (n + 1) (xs ++ b) = iterOf n k f ++ itersFrom (n + 1) xs ++ _
    rw [ih, List.append_assoc, List.length_cons, Nat.add_right_comm, Nat.add_assoc]

/-- What the place of a client tells about its iterations: those that are over, and the current one. -/
def orderPc (c : Cli) (iter : Nat) (done : List (Nat × Bool)) (cur : Option (Nat × Bool)) : CPc → Prop
  | .connect none => done = [] ∧ cur = none
  | .connect (some _) | .rollback .. => cur = none
  | .close f | .connLoop f | .connected f | .use f | .prep f _ => cur = none ∧ (f = true → done = [])
  | .head => cur = none
  | .stmt i => cur = some (i, false) ∧ i ≤ c.statements.length
  | .limit i => cur = some (i, false) ∧ i < c.statements.length ∧
      ∃ st, c.statements[i]? = some st ∧ st.limit.isSome = true
  | .exec i => cur = some (i, false) ∧ i < c.statements.length
  | .scan i => cur = some (i + 1, false) ∧ i < c.statements.length
  | .error _ _ => cur = none
  | .stopped .regular => (cur = none ∧ (0 < c.iterExecGroup ∨ 0 < c.iterClients ∨
        (0 < c.iter ∧ iter = c.iter))) ∨
      ∃ i st, cur = some (i, false) ∧ c.statements[i]? = some st ∧ st.limit.isSome = true
  | .stopped _ => ∀ x ∈ cur, x.1 ≤ c.statements.length ∧ x.2 = false

structure OrderInv (c : Cli) (s : CState) (done : List (Nat × Bool)) (cur : Option (Nat × Bool)) : Prop where
  over : ∀ x ∈ done, IterOver c.statements.length x
  items : s.trace.filterMap CEv.order = itersFrom 1 (done ++ cur.toList)
  iter : s.iter = (done ++ cur.toList).length
  pc : orderPc c s.iter done cur s.pc

/-- The current iteration has gone through the first `k` statements: one more. -/
theorem iterOf_did (n k : Nat) : iterOf n (k + 1) false = iterOf n k false ++ [.did k] := by
  simp [iterOf, List.range_succ]

theorem iterOf_fail (n k : Nat) : iterOf n (k + 1) true = iterOf n (k + 1) false ++ [.fail k] := by
  simp [iterOf]

theorem iterOf_zero (n : Nat) : iterOf n 0 false = [.begin_ n] := rfl

theorem itersFrom_snoc (over : List (Nat × Bool)) (k : Nat) (f : Bool) :
    itersFrom 1 (over ++ [(k, f)]) = itersFrom 1 over ++ iterOf (1 + over.length) k f := by
  rw [itersFrom_append]; simp [itersFrom]

theorem order_waitEv (c : Cli) (st : Stmt) : (waitEv c st).filterMap CEv.order = [] := by
  apply List.filterMap_eq_nil_iff.mpr
  intro e he
  rcases mem_waitEv he with rfl | rfl <;> rfl

theorem order_recEv (stat : Option String) (k : EvClass) : (recEv stat k).filterMap CEv.order = [] := by
  apply List.filterMap_eq_nil_iff.mpr
  intro e he
  obtain ⟨n, _, rfl⟩ := mem_recEv he; rfl

theorem order_okEv (st : Stmt) (d : StmtData) (i : Nat) : (okEv st d i).filterMap CEv.order = [] := by
  apply List.filterMap_eq_nil_iff.mpr
  intro e he
  rcases mem_okEv he with rfl | rfl <;> rfl

theorem order_errEv (stat : Option String) (b : Bool) (code : Nat) :
    (errEv stat b code).filterMap CEv.order = [] := by
  apply List.filterMap_eq_nil_iff.mpr
  intro e he
  obtain ⟨n, rfl⟩ := mem_errEv he; rfl

theorem quiet {tr l : List CEv} {o : List OEv} (h : tr.filterMap CEv.order = o)
    (hl : l.filterMap CEv.order = []) : (tr ++ l).filterMap CEv.order = o := by
  rw [List.filterMap_append, hl, List.append_nil, h]

theorem OrderInv.step {c : Cli} {s s' : CState} {a : Ans} (h : CStep c s a s')
    (hs : ∃ over cur, OrderInv c s over cur) : ∃ over cur, OrderInv c s' over cur := by
  obtain ⟨over, cur, ho, hi, hn, hp⟩ := hs
  cases h
  case ctxStop hc hpc =>
    refine ⟨over, cur, ho, quiet hi rfl, hn, ?_⟩
    have hcur : cur = none := by
      rcases hpc with ⟨e, h⟩ | ⟨e, h⟩ | ⟨e, h⟩
      · rw [h] at hp
        cases e with
        | none => exact hp.2
        | some e => exact hp
      · rw [h] at hp; exact hp.1
      · rw [h] at hp; exact hp.1
    intro x hx
    rw [hcur] at hx
    cases hx
  case iterate hpc hl =>
    rw [hpc] at hp
    have hp : cur = none := hp
    subst hp
    refine ⟨over, some (0, false), ho, ?_, ?_, rfl, Nat.zero_le _⟩
    · rw [List.filterMap_append, hi]
      simp only [Option.toList_none, List.append_nil, Option.toList_some] at hn ⊢
      rw [itersFrom_snoc, iterOf_zero, hn, Nat.add_comm 1]
      rfl
    · simp only [Option.toList_none, List.append_nil] at hn
      simp [hn]
  case stmtEnd i hpc hst =>
    rw [hpc] at hp
    obtain ⟨hp, hle⟩ := hp
    subst hp
    refine ⟨over ++ [(i, false)], none, ?_, by simpa using hi, by simpa using hn, rfl⟩
    intro x hx
    rcases List.mem_append.mp hx with hx | hx
    · exact ho x hx
    · rw [List.mem_singleton.mp hx]
      have := List.getElem?_eq_none_iff.mp hst
      exact Or.inl ⟨rfl, by dsimp only; omega⟩
  case idle i st hpc hst hidle =>
    rw [hpc] at hp
    obtain ⟨hp, hle⟩ := hp
    subst hp
    have hlt := (List.getElem?_eq_some_iff.mp hst).1
    refine ⟨over, some (i + 1, false), ho, ?_, by simpa using hn, rfl, hlt⟩
    rw [List.filterMap_append, hi]
    simp only [Option.toList_some, itersFrom_snoc, iterOf_did]
    simp [CEv.order]
  case stmt i st d hpc hst hidle hd =>
    rw [hpc] at hp
    obtain ⟨hp, hle⟩ := hp
    subst hp
    have hlt := (List.getElem?_eq_some_iff.mp hst).1
    refine ⟨over, some (i, false), ho, ?_, by simpa using hn, ?_⟩
    · rw [List.filterMap_append, List.filterMap_append, order_waitEv, hi]
      simp [CEv.order]
    · dsimp only
      by_cases hb : (!st.resultSet && st.limit.isSome) = true
      · rw [if_pos hb]
        rw [Bool.and_eq_true] at hb
        exact ⟨rfl, hlt, st, hst, hb.2⟩
      · rw [if_neg hb]; exact ⟨rfl, hlt⟩
  case execNoStats i st d hpc hst hd hstat =>
    rw [hpc] at hp
    obtain ⟨hp, hlt⟩ := hp
    subst hp
    refine ⟨over, some (i + 1, false), ho, ?_, by simpa using hn, ?_⟩
    · rw [List.filterMap_append, hi]
      simp only [Option.toList_some, itersFrom_snoc, iterOf_did]
      simp [CEv.order]
    · intro x hx
      cases hx
      exact ⟨hlt, rfl⟩
  case execFail i st d stat code hpc hst hd hstat he =>
    rw [hpc] at hp
    obtain ⟨hp, hlt⟩ := hp
    subst hp
    refine ⟨over ++ [(i + 1, true)], none, ?_, ?_, by simpa using hn, rfl⟩
    · intro x hx
      rcases List.mem_append.mp hx with hx | hx
      · exact ho x hx
      · rw [List.mem_singleton.mp hx]
        exact Or.inr ⟨rfl, Nat.succ_pos _, hlt⟩
    · rw [List.filterMap_append, hi, List.filterMap_cons, List.filterMap_append, order_recEv]
      simp only [Option.toList_some, Option.toList_none, List.append_nil, itersFrom_snoc, iterOf_fail,
        iterOf_did]
      simp [CEv.order]
  case execRows i st d stat hpc hst hd hstat hc he hr =>
    rw [hpc] at hp
    obtain ⟨hp, hlt⟩ := hp
    subst hp
    refine ⟨over, some (i + 1, false), ho, ?_, by simpa using hn, ?_⟩
    · rw [List.filterMap_append, hi, List.filterMap_cons, order_recEv]
      simp only [Option.toList_some, itersFrom_snoc, iterOf_did]
      simp [CEv.order]
    · dsimp only
      split
      · exact ⟨rfl, hlt⟩
      · exact ⟨rfl, hlt⟩
  case execOk i st d stat hpc hst hd hstat hc he hr =>
    rw [hpc] at hp
    obtain ⟨hp, hlt⟩ := hp
    subst hp
    refine ⟨over, some (i + 1, false), ho, ?_, by simpa using hn, rfl, hlt⟩
    rw [List.filterMap_append, hi, List.filterMap_cons, List.filterMap_append, order_recEv, order_okEv]
    simp only [Option.toList_some, itersFrom_snoc, iterOf_did]
    simp [CEv.order]
  case scanFail i e hpc he =>
    rw [hpc] at hp
    obtain ⟨hp, hlt⟩ := hp
    subst hp
    refine ⟨over ++ [(i + 1, true)], none, ?_, ?_, by simpa using hn, rfl⟩
    · intro x hx
      rcases List.mem_append.mp hx with hx | hx
      · exact ho x hx
      · rw [List.mem_singleton.mp hx]
        exact Or.inr ⟨rfl, Nat.succ_pos _, hlt⟩
    · rw [List.filterMap_append, hi]
      simp only [Option.toList_some, Option.toList_none, List.append_nil, itersFrom_snoc, iterOf_fail]
      simp [CEv.order]
  case scanOk i hpc he =>
    rw [hpc] at hp
    obtain ⟨hp, hlt⟩ := hp
    refine ⟨over, cur, ho, quiet hi rfl, hn, hp, hlt⟩
  case error i code stat hpc hstat =>
    rw [hpc] at hp
    refine ⟨over, cur, ho, ?_, hn, hp⟩
    rw [List.filterMap_append, order_errEv, List.append_nil, hi]
  case noMore i hpc hm =>
    rw [hpc] at hp
    obtain ⟨hp, hlt, st, hst, hlim⟩ := hp
    exact ⟨over, cur, ho, quiet hi rfl, hn, Or.inr ⟨i, st, hp, hst, hlim⟩⟩
  case more i hpc hm =>
    rw [hpc] at hp
    exact ⟨over, cur, ho, hi, hn, hp.1, hp.2.1⟩
  case limits hpc hl =>
    rw [hpc] at hp
    refine ⟨over, cur, ho, quiet hi rfl, hn, Or.inl ⟨hp, ?_⟩⟩
    rcases hl with h | h | h
    · exact Or.inl h.1
    · exact Or.inr (Or.inl h.1)
    · exact Or.inr (Or.inr h)
  case stopped => exact ⟨over, cur, ho, hi, hn, hp⟩
  case connFail => exact ⟨over, cur, ho, hi, hn, hp⟩
  case stmtPanic i st hpc hst hidle hd =>
    rw [hpc] at hp
    refine ⟨over, cur, ho, quiet hi rfl, hn, ?_⟩
    intro x hx
    rw [hp.1] at hx
    cases hx
    exact ⟨hp.2, rfl⟩
  case execPanic i hpc hnn =>
    rw [hpc] at hp
    refine ⟨over, cur, ho, quiet hi rfl, hn, ?_⟩
    intro x hx
    rw [hp.1] at hx
    cases hx
    exact ⟨Nat.le_of_lt hp.2, rfl⟩
  all_goals
    refine ⟨over, cur, ho, by first | exact hi | exact quiet hi rfl, hn, ?_⟩
    simp_all [orderPc]

theorem orderInv_run (c : Cli) (as : List Ans) :
    ∃ done cur, OrderInv c (CState.init.run c as) done cur :=
  CState.run_inv (P := fun s => ∃ done cur, OrderInv c s done cur) (fun _ _ _ h hs => OrderInv.step h hs) as _
    ⟨[], none, by simp, rfl, rfl, rfl, rfl⟩

/-- **C119.** What any client does in any run is a sequence of iterations, numbered from 1. Each goes
through the statements from the first on, in order and leaving none out. Every iteration but the
current one has gone through all statements, or the last one it executed failed. No other statement
has failed. -/
theorem C119_iterations (c : Cli) (as : List Ans) :
    ∃ (done : List (Nat × Bool)) (cur : Option (Nat × Bool)),
      (CState.init.run c as).trace.filterMap CEv.order = itersFrom 1 (done ++ cur.toList) ∧
      (∀ x ∈ done, IterOver c.statements.length x) ∧
      (∀ x ∈ cur, x.1 ≤ c.statements.length ∧ x.2 = false) := by
  obtain ⟨done, cur, h1, h2, -, h4⟩ := orderInv_run c as
  refine ⟨done, cur, h2, h1, ?_⟩
  intro x hx
  have hx : cur = some x := hx
  subst hx
  revert h4
  cases (CState.init.run c as).pc with
  | connect e => cases e <;> simp [orderPc]
  | stopped e =>
    cases e with
    | regular =>
      rintro (h | ⟨i, st, h, hst, -⟩)
      · cases h.1
      · cases h
        exact ⟨Nat.le_of_lt (List.getElem?_eq_some_iff.mp hst).1, rfl⟩
    | _ => intro h; exact h x rfl
  | stmt i => rintro ⟨h, h'⟩; cases h; exact ⟨h', rfl⟩
  | limit i => rintro ⟨h, h', -⟩; cases h; exact ⟨Nat.le_of_lt h', rfl⟩
  | exec i => rintro ⟨h, h'⟩; cases h; exact ⟨Nat.le_of_lt h', rfl⟩
  | scan i => rintro ⟨h, h'⟩; cases h; exact ⟨h', rfl⟩
  | _ => simp [orderPc]

/-! ### Executed and idle statements -/

/-- Spec: statement `i` is executed (it is not an idle entry). -/
def isBusy (c : Cli) (i : Nat) : Bool :=
  match c.statements[i]? with
  | some st => decide (st.idle = 0)
  | none => false

/-- Spec: the numbers of the executed statements, in order. -/
def executed (tr : List CEv) : List Nat :=
  tr.filterMap fun
    | .exec i _ _ => some i
    | _ => none

/-- Spec: an event is an execution only of a statement, and a sleep only of an idle entry. -/
def KindOk (c : Cli) : CEv → Prop
  | .exec i _ _ => isBusy c i = true
  | .slept i => isBusy c i = false ∧ ∃ st, c.statements[i]? = some st ∧ st.idle ≠ 0
  | _ => True

def kindPc (c : Cli) : CPc → Prop
  | .limit i | .exec i => isBusy c i = true
  | _ => True

theorem kindOk_step {c : Cli} {s s' : CState} {a : Ans} (h : CStep c s a s')
    (hs : (∀ e ∈ s.trace, KindOk c e) ∧ kindPc c s.pc) :
    (∀ e ∈ s'.trace, KindOk c e) ∧ kindPc c s'.pc := by
  obtain ⟨ht, hp⟩ := hs
  have happ : ∀ l : List CEv, (∀ e ∈ l, KindOk c e) → ∀ e ∈ s.trace ++ l, KindOk c e := by
    intro l hl e he
    rcases List.mem_append.mp he with he | he
    · exact ht e he
    · exact hl e he
  cases h
  case idle i st hpc hst hi =>
    refine ⟨happ _ ?_, trivial⟩
    intro e he
    rw [List.mem_singleton.mp he]
    exact ⟨by simp [isBusy, hst, hi], st, hst, hi⟩
  case stmt i st d hpc hst hi hd =>
    refine ⟨happ _ ?_, ?_⟩
    · intro e he
      rcases List.mem_append.mp he with he | he
      · rcases mem_waitEv he with rfl | rfl <;> trivial
      · rw [List.mem_singleton.mp he]; trivial
    · have : isBusy c i = true := by simp [isBusy, hst, hi]
      dsimp only
      split <;> exact this
  case more i hpc hm =>
    rw [hpc] at hp
    exact ⟨ht, hp⟩
  case execNoStats i st d hpc hst hd hstat =>
    rw [hpc] at hp
    refine ⟨happ _ ?_, trivial⟩
    intro e he
    simp only [List.mem_cons, List.not_mem_nil, or_false] at he
    rcases he with rfl | rfl
    · exact hp
    · trivial
  case execFail i st d stat code hpc hst hd hstat he =>
    rw [hpc] at hp
    refine ⟨happ _ ?_, trivial⟩
    intro e he
    rcases List.mem_cons.mp he with rfl | he
    · exact hp
    · rcases List.mem_append.mp he with he | he
      · obtain ⟨n, _, rfl⟩ := mem_recEv he; trivial
      · rw [List.mem_singleton.mp he]; trivial
  case execRows i st d stat hpc hst hd hstat hc he hr =>
    rw [hpc] at hp
    refine ⟨happ _ ?_, by dsimp only; split <;> trivial⟩
    intro e he
    rcases List.mem_cons.mp he with rfl | he
    · exact hp
    · obtain ⟨n, _, rfl⟩ := mem_recEv he; trivial
  case execOk i st d stat hpc hst hd hstat hc he hr =>
    rw [hpc] at hp
    refine ⟨happ _ ?_, trivial⟩
    intro e he
    rcases List.mem_cons.mp he with rfl | he
    · exact hp
    · rcases List.mem_append.mp he with he | he
      · obtain ⟨n, _, rfl⟩ := mem_recEv he; trivial
      · rcases mem_okEv he with rfl | rfl <;> trivial
  case error i code stat hpc hstat =>
    refine ⟨happ _ ?_, trivial⟩
    intro e he
    obtain ⟨n, rfl⟩ := mem_errEv he; trivial
  case stopped => exact ⟨ht, hp⟩
  case connFail => exact ⟨ht, hp⟩
  all_goals
    refine ⟨?_, trivial⟩
    first
    | exact ht
    | (refine happ _ ?_
       intro e he
       simp only [List.mem_cons, List.not_mem_nil, or_false] at he
       first
       | (subst he; trivial)
       | (rcases he with rfl | rfl <;> trivial))

/-- **C119, idle entries.** A client sleeps exactly at the idle entries and executes exactly the other
statements. -/
theorem C119_idle (c : Cli) (as : List Ans) : ∀ e ∈ (CState.init.run c as).trace, KindOk c e :=
  (CState.run_inv (P := fun s => (∀ e ∈ s.trace, KindOk c e) ∧ kindPc c s.pc)
    (fun _ _ _ h hs => kindOk_step h hs) as CState.init ⟨by simp [CState.init], trivial⟩).1

def OEv.exec (c : Cli) : OEv → Option Nat
  | .did i => if isBusy c i then some i else none
  | _ => none

theorem executed_order (c : Cli) (tr : List CEv) (h : ∀ e ∈ tr, KindOk c e) :
    executed tr = (tr.filterMap CEv.order).filterMap (OEv.exec c) := by
  induction tr with
  | nil => rfl
  | cons e tr ih =>
    have ih := ih fun x hx => h x (by simp [hx])
    have he := h e (by simp)
    unfold executed at ih ⊢
    cases e with
    | exec i n ps =>
      have he : isBusy c i = true := he
      rw [List.filterMap_cons, List.filterMap_cons]
      simp only [CEv.order, List.filterMap_cons, OEv.exec, he, if_true]
      rw [ih]
    | slept i =>
      have he : isBusy c i = false := he.1
      rw [List.filterMap_cons, List.filterMap_cons]
      simp only [CEv.order, List.filterMap_cons, OEv.exec, he]
      exact ih
    | iterBegin n =>
      rw [List.filterMap_cons, List.filterMap_cons]
      simp only [CEv.order, List.filterMap_cons, OEv.exec]
      exact ih
    | failed i code =>
      rw [List.filterMap_cons, List.filterMap_cons]
      simp only [CEv.order, List.filterMap_cons, OEv.exec]
      exact ih
    | _ => rw [List.filterMap_cons, List.filterMap_cons]; exact ih

/-- Spec: the statements that are executed in an iteration, by number. -/
def busyIdx (c : Cli) : List Nat := (List.range c.statements.length).filter (isBusy c)

theorem exec_range (c : Cli) (k : Nat) :
    ((List.range k).map OEv.did).filterMap (OEv.exec c) = (List.range k).filter (isBusy c) := by
  rw [List.filterMap_map, ← List.filterMap_eq_filter]
  apply List.filterMap_congr
  intro i _
  simp only [Function.comp, OEv.exec, Option.guard]

theorem exec_iters (c : Cli) : ∀ (m n : Nat),
    (itersFrom n (List.replicate m (c.statements.length, false))).filterMap (OEv.exec c) =
      (List.replicate m (busyIdx c)).flatten := by
  intro m
  induction m with
  | zero => intro n; rfl
  | succ m ih =>
    intro n
    rw [List.replicate_succ, List.replicate_succ, List.flatten_cons]
    show (iterOf n _ false ++ itersFrom (n + 1) _).filterMap _ = _
    rw [List.filterMap_append, ih]
    congr 1
    show List.filterMap (OEv.exec c) (_ :: (_ ++ [])) = _
    rw [List.append_nil, List.filterMap_cons]
    exact exec_range c _

/-- An iteration that is over without a failure has gone through all statements. -/
theorem over_of_no_fail (len : Nat) : ∀ (done rest : List (Nat × Bool)) (n : Nat),
    (∀ x ∈ done, IterOver len x) → (∀ i, OEv.fail i ∉ itersFrom n (done ++ rest)) →
    done = List.replicate done.length (len, false) := by
  intro done
  induction done with
  | nil => intro _ _ _ _; rfl
  | cons x xs ih =>
    intro rest n h hf
    obtain ⟨k, f⟩ := x
    rw [List.length_cons, List.replicate_succ]
    have h1 : k = len ∧ f = false := by
      rcases h (k, f) (by simp) with ⟨h1, h2⟩ | ⟨h1, -⟩
      · exact ⟨h2, h1⟩
      · have h1 : f = true := h1
        subst h1
        refine absurd ?_ (hf (k - 1))
        show _ ∈ iterOf n k true ++ _
        simp [iterOf]
    rw [h1.1, h1.2]
    congr 1
    refine ih rest (n + 1) (fun y hy => h y (by simp [hy])) ?_
    intro i hi
    apply hf i
    show _ ∈ iterOf n k f ++ _
    exact List.mem_append_right _ hi

theorem no_fail_order {tr : List CEv} (h : ∀ i code, CEv.failed i code ∉ tr) (i : Nat) :
    OEv.fail i ∉ tr.filterMap CEv.order := by
  intro hm
  obtain ⟨e, he, heq⟩ := List.mem_filterMap.mp hm
  cases e <;> simp [CEv.order] at heq
  exact h _ _ he

/-- **C119, all iterations.** A client whose only limit is `iter` and none of whose statements failed:
when it has stopped (not because of the context, an error or a data limit), it has executed all its
statements in order, `iter` times, and nothing else. -/
theorem C119_all_iterations (c : Cli) (as : List Ans) (h1 : c.iterExecGroup = 0) (h2 : c.iterClients = 0)
    (hlim : ∀ st ∈ c.statements, st.limit = none)
    (hok : ∀ i code, CEv.failed i code ∉ (CState.init.run c as).trace)
    (hstop : (CState.init.run c as).pc = .stopped .regular) :
    executed (CState.init.run c as).trace = (List.replicate c.iter (busyIdx c)).flatten := by
  obtain ⟨done, cur, i1, i2, i3, i4⟩ := orderInv_run c as
  rw [hstop] at i4
  rcases i4 with ⟨rfl, hl⟩ | ⟨i, st, -, hst, hs⟩
  · have hit : (CState.init.run c as).iter = c.iter := by
      rcases hl with h | h | h
      · omega
      · omega
      · exact h.2
    have hall := over_of_no_fail c.statements.length done [] 1 i1 (by
      intro i
      rw [Option.toList_none] at i2
      rw [← i2]
      exact no_fail_order hok i)
    rw [executed_order c _ (C119_idle c as), i2]
    simp only [Option.toList_none, List.append_nil] at i3 ⊢
    rw [hall, ← i3, hit]
    exact exec_iters c c.iter 1
  · rw [hlim st (List.mem_of_getElem? hst)] at hs; cases hs

/-- **C119, any moment.** A client none of whose statements has failed: what it has executed is its
statements in order, some number of times in full (that of the iterations begun, or one less), and then
the first of them up to some statement. -/
theorem C119_no_failure (c : Cli) (as : List Ans)
    (hok : ∀ i code, CEv.failed i code ∉ (CState.init.run c as).trace) :
    ∃ n k, k ≤ c.statements.length ∧ n ≤ (CState.init.run c as).iter ∧ (CState.init.run c as).iter ≤ n + 1 ∧
      executed (CState.init.run c as).trace =
        (List.replicate n (busyIdx c)).flatten ++ (List.range k).filter (isBusy c) := by
  obtain ⟨done, cur, i2, i1, i5⟩ := C119_iterations c as
  obtain ⟨done', cur', -, j2, j3, -⟩ := orderInv_run c as
  have hlen : (CState.init.run c as).iter = (done ++ cur.toList).length := by
    have hcount : ∀ (l : List (Nat × Bool)) (n : Nat),
        (itersFrom n l).countP (fun e => match e with | .begin_ _ => true | _ => false) = l.length := by
      intro l
      induction l with
      | nil => intro n; rfl
      | cons x xs ih =>
        intro n
        obtain ⟨k, f⟩ := x
        show (iterOf n k f ++ itersFrom (n + 1) xs).countP _ = _
        rw [List.countP_append, ih, List.length_cons]
        have : (iterOf n k f).countP (fun e => match e with | .begin_ _ => true | _ => false) = 1 := by
          unfold iterOf
          rw [List.countP_cons_of_pos rfl, List.countP_append, List.countP_map]
          have e1 : List.countP ((fun e => match e with | OEv.begin_ _ => true | _ => false) ∘ OEv.did)
              (List.range k) = 0 := by
            rw [List.countP_eq_zero]; simp
          rw [e1]
          cases f <;> rfl
        omega
    rw [j3, ← hcount _ 1, ← hcount _ 1, ← i2, ← j2]
  have hall := over_of_no_fail c.statements.length done cur.toList 1 i1 (by
    intro i
    rw [← i2]
    exact no_fail_order hok i)
  rw [executed_order c _ (C119_idle c as), i2, itersFrom_append, List.filterMap_append, hlen]
  have hfirst : (itersFrom 1 done).filterMap (OEv.exec c) = (List.replicate done.length (busyIdx c)).flatten := by
    rw [hall, List.length_replicate]
    exact exec_iters c _ 1
  rw [hfirst]
  cases cur with
  | none => exact ⟨done.length, 0, Nat.zero_le _, by simp, by simp, by simp [itersFrom]⟩
  | some x =>
    obtain ⟨k, f⟩ := x
    obtain ⟨hk, hf⟩ := i5 (k, f) rfl
    have hf : f = false := hf
    subst hf
    refine ⟨done.length, k, hk, by simp, by simp, ?_⟩
    congr 1
    simp only [Option.toList_some, itersFrom, List.append_nil, iterOf, Bool.false_eq_true, if_false,
      List.filterMap_cons, OEv.exec]
    exact exec_range c k

/-! ### When everything goes well -/

/-- Spec: MySQL does what it is asked, the context is not cancelled, no data limit is reached. -/
def GoesWell (a : Ans) : Prop := a.ctxDone = false ∧ a.err = none ∧ a.connOk = true ∧ a.more = true

/-- Spec: no query fails, every connection is made and the run is not cancelled; data limits may be reached. -/
def GoesOk (a : Ans) : Prop := a.ctxDone = false ∧ a.err = none ∧ a.connOk = true

theorem GoesWell.ok {a : Ans} (h : GoesWell a) : GoesOk a := ⟨h.1, h.2.1, h.2.2.1⟩

/-- A bound of the steps that a client, which begins at most `N` iterations, still makes when everything goes
well. -/
def stepsTo (c : Cli) (N : Nat) (s : CState) : Nat :=
  let len := c.statements.length
  let rest := (N - s.iter) * (4 * len + 2) + 1
  match s.pc with
  | .connect _ => rest + len + 6
  | .close _ => rest + len + 5
  | .connLoop _ => rest + len + 4
  | .connected _ => rest + len + 3
  | .use _ => rest + len + 2
  | .prep _ k => rest + (len - k) + 1
  | .head => rest
  | .stmt i => rest + 4 * (len - i) + 1
  | .limit i => rest + 4 * (len - i)
  | .exec i => rest + 4 * (len - i) - 1
  | .scan i => rest + 4 * (len - i) - 2
  | _ => 0

/-- Nothing has gone wrong so far. -/
def wellPc (c : Cli) : CPc → Prop
  | .connect e => e = none
  | .rollback .. | .error .. => False
  | .limit i | .exec i | .scan i => i < c.statements.length
  | .stopped e => e = .regular ∨ e = .panic
  | _ => True

structure WellInv (c : Cli) (N : Nat) (s : CState) : Prop where
  pc : wellPc c s.pc
  iter : s.iter ≤ N
  ok : ∀ i code, CEv.failed i code ∉ s.trace

theorem failed_append {tr l : List CEv} (h : ∀ i code, CEv.failed i code ∉ tr)
    (hl : ∀ i code, CEv.failed i code ∉ l) : ∀ i code, CEv.failed i code ∉ tr ++ l := by
  intro i code hm
  rcases List.mem_append.mp hm with hm | hm
  · exact h i code hm
  · exact hl i code hm

theorem WellInv.step {c : Cli} {N : Nat} {s s' : CState} {a : Ans} (hw : GoesOk a) (h : CStep c s a s')
    (hN : s'.iter ≤ N) (hs : WellInv c N s) :
    WellInv c N s' ∧ (s.pc.isStopped = true ∨ stepsTo c N s' < stepsTo c N s) := by
  obtain ⟨w1, w2, w3⟩ := hw
  obtain ⟨hp, hi, ho⟩ := hs
  cases h
  case stmt i st d hpc hst hidle hd =>
    have hlt := (List.getElem?_eq_some_iff.mp hst).1
    refine ⟨⟨by dsimp only; split <;> exact hlt, hi, failed_append ho ?_⟩, Or.inr ?_⟩
    · intro j code hm
      rcases List.mem_append.mp hm with hm | hm
      · rcases mem_waitEv hm with h | h <;> cases h
      · cases List.mem_singleton.mp hm
    · cases (!st.resultSet && st.limit.isSome) <;>
        simp only [stepsTo, hpc, if_true, Bool.false_eq_true, if_false] <;> omega
  case execRows i st d stat hpc hst hd hstat hc he hr =>
    have hlt := (List.getElem?_eq_some_iff.mp hst).1
    refine ⟨⟨by dsimp only; split <;> first | exact hlt | trivial, hi, failed_append ho ?_⟩, Or.inr ?_⟩
    · intro j code hm
      rcases List.mem_cons.mp hm with hm | hm
      · cases hm
      · obtain ⟨n, _, h⟩ := mem_recEv hm; cases h
    · by_cases hb : d.outputs ≠ []
      · simp only [stepsTo, hpc, if_pos hb]; omega
      · simp only [stepsTo, hpc, if_neg hb]; omega
  case execOk i st d stat hpc hst hd hstat hc he hr =>
    have hlt := (List.getElem?_eq_some_iff.mp hst).1
    refine ⟨⟨trivial, hi, failed_append ho ?_⟩, Or.inr ?_⟩
    · intro j code hm
      rcases List.mem_cons.mp hm with hm | hm
      · cases hm
      · rcases List.mem_append.mp hm with hm | hm
        · obtain ⟨n, _, h⟩ := mem_recEv hm; cases h
        · rcases mem_okEv hm with h | h <;> cases h
    · simp only [stepsTo, hpc]; omega
  case iterate hpc hl =>
    refine ⟨⟨trivial, hN, failed_append ho (by simp)⟩, Or.inr ?_⟩
    · have hN : s.iter + 1 ≤ N := hN
      simp only [stepsTo, hpc]
      have e : N - s.iter = (N - (s.iter + 1)) + 1 := by omega
      rw [e, Nat.add_mul]
      omega
  case stmtEnd i hpc hst =>
    exact ⟨⟨trivial, hi, ho⟩, Or.inr (by simp only [stepsTo, hpc]; omega)⟩
  case idle i st hpc hst hidle =>
    have hlt := (List.getElem?_eq_some_iff.mp hst).1
    exact ⟨⟨trivial, hi, failed_append ho (by simp)⟩, Or.inr (by simp only [stepsTo, hpc]; omega)⟩
  case scanOk i hpc he =>
    rw [hpc] at hp
    have hp : i < _ := hp
    exact ⟨⟨trivial, hi, failed_append ho (by simp)⟩, Or.inr (by simp only [stepsTo, hpc]; omega)⟩
  case more i hpc hm =>
    rw [hpc] at hp
    have hp' : i < c.statements.length := hp
    exact ⟨⟨hp, hi, ho⟩, Or.inr (by simp only [stepsTo, hpc]; omega)⟩
  case prepOk f k st hpc hst hpp hps he hlen =>
    have hlt := (List.getElem?_eq_some_iff.mp hst).1
    exact ⟨⟨trivial, hi, failed_append ho (by simp)⟩, Or.inr (by simp only [stepsTo, hpc]; omega)⟩
  case prepSkip f k st hpc hst hpp =>
    have hlt := (List.getElem?_eq_some_iff.mp hst).1
    exact ⟨⟨trivial, hi, ho⟩, Or.inr (by simp only [stepsTo, hpc]; omega)⟩
  case stopped e hpc =>
    exact ⟨⟨hp, hi, ho⟩, Or.inl (by rw [hpc]; rfl)⟩
  case limits hpc hl =>
    exact ⟨⟨Or.inl rfl, hi, failed_append ho (by simp)⟩, Or.inr (by simp only [stepsTo, hpc]; omega)⟩
  case stmtPanic i st hpc hst hidle hd =>
    exact ⟨⟨Or.inr rfl, hi, failed_append ho (by simp)⟩, Or.inr (by simp only [stepsTo, hpc]; omega)⟩
  case execPanic i hpc hn =>
    rw [hpc] at hp
    have hp : i < _ := hp
    exact ⟨⟨Or.inr rfl, hi, failed_append ho (by simp)⟩, Or.inr (by simp only [stepsTo, hpc]; omega)⟩
  case execNoStats i st d hpc hst hd hstat =>
    rw [hpc] at hp
    have hp : i < _ := hp
    exact ⟨⟨Or.inr rfl, hi, failed_append ho (by simp)⟩, Or.inr (by simp only [stepsTo, hpc]; omega)⟩
  case prepPanic f k st hpc hst hpp hps he hlen =>
    exact ⟨⟨Or.inr rfl, hi, failed_append ho (by simp)⟩, Or.inr (by simp only [stepsTo, hpc]; omega)⟩
  case ctxStop hc hpc => rw [w1] at hc; cases hc
  case connFail hpc hc hno => rw [w3] at hno; cases hno
  case noMore i hpc hm =>
    rw [hpc] at hp
    have hp : i < _ := hp
    exact ⟨⟨Or.inl rfl, hi, failed_append ho (by simp)⟩, Or.inr (by simp only [stepsTo, hpc]; omega)⟩
  case execFail hpc hst hd hstat he =>
    rcases he with he | ⟨_, e, he, _⟩
    · rw [w1] at he; cases he.1
    · rw [w2] at he; cases he
  case scanFail hpc he => rw [w2] at he; cases he
  case useCtx hpc hc => rw [w1] at hc; cases hc
  case useFail hpc hc he => rw [w2] at he; cases he
  case prepFail hpc hst hpp hps he => rw [w1, w2] at he; cases he
  case connectFirst hpc hc => exact ⟨⟨trivial, hi, ho⟩, Or.inr (by simp only [stepsTo, hpc]; omega)⟩
  case close hpc hn =>
    exact ⟨⟨trivial, hi, failed_append ho (by simp)⟩, Or.inr (by simp only [stepsTo, hpc]; omega)⟩
  case closeNone hpc hn => exact ⟨⟨trivial, hi, ho⟩, Or.inr (by simp only [stepsTo, hpc]; omega)⟩
  case connOk hpc hc hoo =>
    exact ⟨⟨trivial, hi, failed_append ho (by simp)⟩, Or.inr (by simp only [stepsTo, hpc]; omega)⟩
  case noDb hpc hc hdb => exact ⟨⟨trivial, hi, ho⟩, Or.inr (by simp only [stepsTo, hpc]; omega)⟩
  case toUse hpc hc hdb => exact ⟨⟨trivial, hi, ho⟩, Or.inr (by simp only [stepsTo, hpc]; omega)⟩
  case useOk hpc hc he =>
    exact ⟨⟨trivial, hi, failed_append ho (by simp)⟩, Or.inr (by simp only [stepsTo, hpc]; omega)⟩
  case prepEndFirst hpc hst => exact ⟨⟨trivial, hi, ho⟩, Or.inr (by simp only [stepsTo, hpc]; omega)⟩
  case prepEnd hpc hst => exact ⟨⟨trivial, hi, ho⟩, Or.inr (by simp only [stepsTo, hpc]; omega)⟩
  all_goals (exfalso; simp_all [wellPc])

theorem iter_step {c : Cli} {s s' : CState} {a : Ans} (h : CStep c s a s') :
    s'.iter = s.iter ∨ (s'.iter = s.iter + 1 ∧ (0 < c.iter → s.iter ≠ c.iter)) := by
  cases h
  case iterate hpc hl => exact Or.inr ⟨rfl, fun h3 h => hl (Or.inr (Or.inr ⟨h3, h⟩))⟩
  all_goals exact Or.inl rfl

theorem well_run {c : Cli} (h3 : 0 < c.iter) :
    ∀ (as : List Ans) (s : CState), (∀ a ∈ as, GoesWell a) → WellInv c c.iter s →
      WellInv c c.iter (s.run c as) ∧ ((s.run c as).pc.isStopped = true ∨
        stepsTo c c.iter (s.run c as) + as.length ≤ stepsTo c c.iter s) := by
  intro as
  induction as with
  | nil => intro s _ hs; exact ⟨hs, Or.inr (Nat.le_refl _)⟩
  | cons a as ih =>
    intro s hw hs
    have hle : (s.step c a).iter ≤ c.iter := by
      have := hs.iter
      rcases iter_step (s.step_cases c a) with h | ⟨h, hne⟩
      · omega
      · have := hne h3; omega
    obtain ⟨i1, i2⟩ := WellInv.step (hw a (by simp)).ok (s.step_cases c a) hle hs
    obtain ⟨j1, j2⟩ := ih (s.step c a) (fun b hb => hw b (by simp [hb])) i1
    refine ⟨j1, ?_⟩
    show ((s.step c a).run c as).pc.isStopped = true ∨ stepsTo c c.iter ((s.step c a).run c as) + _ ≤ _
    rcases j2 with j2 | j2
    · exact Or.inl j2
    · rcases i2 with i2 | i2
      · left
        have hst : ∀ (l : List Ans) (s : CState), s.pc.isStopped = true → s.run c l = s := by
          intro l
          induction l with
          | nil => intro s _; rfl
          | cons b l ihl =>
            intro s h
            have e : s.step c b = s := by
              unfold CState.step
              revert h
              cases s.pc <;> simp [CPc.isStopped]
            show (s.step c b).run c l = s
            rw [e]; exact ihl s h
        have e : (s.step c a).run c as = s := hst (a :: as) s i2
        rw [e]; exact i2
      · right
        rw [List.length_cons]; omega

/-- When everything goes well, a client stops only after its last iteration. -/
theorem well_stop {c : Cli} (h1 : c.iterExecGroup = 0) (h2 : c.iterClients = 0) :
    ∀ (as : List Ans) (s : CState), (∀ a ∈ as, GoesWell a) → (∃ done cur, OrderInv c s done cur) →
      (s.pc = .stopped .regular → ∃ done, OrderInv c s done none ∧ s.iter = c.iter) →
      (s.run c as).pc = .stopped .regular →
      ∃ done, OrderInv c (s.run c as) done none ∧ (s.run c as).iter = c.iter := by
  intro as
  induction as with
  | nil => intro s _ _ hs h; exact hs h
  | cons a as ih =>
    intro s hw ho hs
    have hst := s.step_cases c a
    refine ih (s.step c a) (fun b hb => hw b (by simp [hb])) (OrderInv.step hst ho) ?_
    obtain ⟨done, cur, ho⟩ := ho
    obtain ⟨w1, -, -, w4⟩ := hw a (by simp)
    revert hst
    generalize s.step c a = s'
    intro hst hpc'
    cases hst
    case limits hpc hl =>
      obtain ⟨o1, o2, o3, o4⟩ := ho
      rw [hpc] at o4
      have o4 : cur = none := o4
      subst o4
      refine ⟨done, ⟨o1, quiet o2 rfl, o3, Or.inl ⟨rfl, ?_⟩⟩, ?_⟩
      · rcases hl with h | h | h
        · omega
        · omega
        · exact Or.inr (Or.inr h)
      · rcases hl with h | h | h
        · omega
        · omega
        · exact h.2
    case noMore hpc hm => rw [w4] at hm; cases hm
    case stopped hpc => exact hs hpc'
    case connFail hpc hcc hoo => rw [hpc] at hpc'; cases hpc'
    case stmt => revert hpc'; dsimp only; split <;> simp
    case execRows => revert hpc'; dsimp only; split <;> simp
    all_goals cases hpc'

/-! ### No panic -/

/-- Spec: what the allocator makes (`C119_sound`): data for every statement, prepared statements that
fit, and statistics for the trx of every statement that is executed. -/
structure SoundCli (c : Cli) : Prop where
  data : c.data.length = c.statements.length
  fits : PrepareFits c
  idle : NoIdleBegin c
  stat : ∀ i, isBusy c i = true → statOf c i ≠ none

def soundPc (c : Cli) : CPc → Prop
  | .connect (some (_, i)) => i < c.statements.length
  | .limit i | .exec i | .scan i | .error i _ => i < c.statements.length ∧ isBusy c i = true
  | .stopped e => e ≠ .panic
  | _ => True

theorem sound_step {c : Cli} (hc : SoundCli c) {s s' : CState} {a : Ans} (h : CStep c s a s')
    (hs : soundPc c s.pc ∧ trxNoInv c s) : soundPc c s'.pc ∧ trxNoInv c s' := by
  refine ⟨?_, hs.2.step hc.idle h⟩
  obtain ⟨hp, ht⟩ := hs
  have hstat : ∀ i, isBusy c i = true → s.trxNo = (begun c.data (i + 1) : Int) - 1 →
      c.statsAt s.trxNo ≠ none := by
    intro i hb he
    rw [he, statsAt_begun]
    exact hc.stat i hb
  cases h
  case connectPanic code i hpc hcc hst =>
    rw [hpc] at hp
    have hp : i < _ := hp
    have := List.getElem?_eq_none_iff.mp hst
    omega
  case prepPanic f k st hpc hst hpp hps he hlen =>
    have := hc.fits k st hst hpp
    omega
  case stmtPanic i st hpc hst hi hd =>
    have h1 := (List.getElem?_eq_some_iff.mp hst).1
    have h2 := List.getElem?_eq_none_iff.mp hd
    have := hc.data
    omega
  case execPanic i hpc hn =>
    rw [hpc] at hp
    have hp : i < _ := hp.1
    have := hc.data
    rcases hn with h | h
    · have := List.getElem?_eq_none_iff.mp h; omega
    · have := List.getElem?_eq_none_iff.mp h; omega
  case execNoStats i st d hpc hst hd hs =>
    unfold trxNoInv at ht
    rw [hpc] at hp ht
    exact absurd hs (hstat i hp.2 ht)
  case errorPanic i code hpc hs =>
    unfold trxNoInv at ht
    rw [hpc] at hp ht
    exact absurd hs (hstat i hp.2 ht)
  case stmt i st d hpc hst hi hd =>
    have h1 := (List.getElem?_eq_some_iff.mp hst).1
    have h2 : isBusy c i = true := by simp [isBusy, hst, hi]
    dsimp only
    split <;> exact ⟨h1, h2⟩
  case execRows i st d stat hpc hst hd hstat hcc he hr =>
    rw [hpc] at hp
    dsimp only
    split
    · exact hp
    · trivial
  case execFail hpc hst hd hstat he => rw [hpc] at hp; exact hp
  case scanFail hpc he => rw [hpc] at hp; exact hp
  case more hpc hm => rw [hpc] at hp; exact hp
  case error hpc hs => rw [hpc] at hp; exact hp.1
  case stopped => exact hp
  case connFail => exact hp
  all_goals simp [soundPc]

/-- **C119, no panic.** A client as the allocator makes it never panics, whatever happens. -/
theorem C119_no_panic_partial (c : Cli) (hc : SoundCli c) (as : List Ans) :
    (CState.init.run c as).pc ≠ .stopped .panic := by
  have := CState.run_inv (P := fun s => soundPc c s.pc ∧ trxNoInv c s)
    (fun _ _ _ h hs => sound_step hc h hs) as CState.init ⟨trivial, by simp [trxNoInv, CState.init]⟩
  intro h
  have h1 := this.1
  rw [h] at h1
  exact h1 rfl

/-- **C119, completes.** A client whose only limit is `iter` stops by itself when everything goes well,
after a number of steps known beforehand, and has then executed all its statements in order `iter`
times. -/
theorem C119_completes_partial (c : Cli) (hc : SoundCli c) (h1 : c.iterExecGroup = 0) (h2 : c.iterClients = 0)
    (h3 : 0 < c.iter) (as : List Ans) (hw : ∀ a ∈ as, GoesWell a)
    (hlen : c.iter * (4 * c.statements.length + 2) + c.statements.length + 7 < as.length) :
    (CState.init.run c as).pc = .stopped .regular ∧
    executed (CState.init.run c as).trace = (List.replicate c.iter (busyIdx c)).flatten := by
  obtain ⟨i1, i2⟩ := well_run h3 as CState.init hw ⟨rfl, Nat.zero_le _, by simp [CState.init]⟩
  have hstop : (CState.init.run c as).pc = .stopped .regular := by
    rcases i2 with i2 | i2
    · have hnp := C119_no_panic_partial c hc as
      have hp := i1.pc
      revert i2 hnp hp
      cases (CState.init.run c as).pc with
      | stopped e =>
        intro _ hnp hp
        rcases hp with rfl | rfl
        · rfl
        · exact absurd rfl hnp
      | _ => intro i2; cases i2
    · exfalso
      have : stepsTo c c.iter CState.init = (c.iter - 0) * (4 * c.statements.length + 2) + 1 + c.statements.length + 6 := rfl
      rw [this] at i2
      rw [Nat.sub_zero] at i2
      omega
  refine ⟨hstop, ?_⟩
  obtain ⟨done, ⟨j1, j2, j3, -⟩, j4⟩ := well_stop h1 h2 as CState.init hw
    ⟨[], none, by simp, rfl, rfl, rfl, rfl⟩ (by simp [CState.init]) hstop
  have hall := over_of_no_fail c.statements.length done [] 1 j1 (by
    intro i
    rw [Option.toList_none] at j2
    rw [← j2]
    exact no_fail_order i1.ok i)
  rw [executed_order c _ (C119_idle c as), j2]
  simp only [Option.toList_none, List.append_nil] at j3 ⊢
  rw [hall, ← j3, j4]
  exact exec_iters c c.iter 1

/-! ### Clients that are allocated -/

/-- **C119.** A client allocated from loaded trx files that do not begin with an idle entry is sound.
What is missing: trx files that begin with an idle entry, for which a client can panic
(`C48_idle_first_false`). -/
theorem C119_sound_partial {env : WEnv} {w : List CGCfg} {q t : Nat} {s : DataScope}
    {groups : List (List Nat)} {st : WState} {res : List (List ACGroup)} {tfs : List TrxFile}
    {set : TrxSet} {keys : GoMap String TKey} (hl : loadTrx ⟨[], GoMap.empty, GoMap.empty, keys⟩ tfs = .ok set)
    (hs : env.stmts = set.statements) (hne : NoEmptyTrx env w)
    (hidle : ∀ cg ∈ w, ∀ n ∈ cg.trx, ∀ x, ((env.stmts n).getD [])[0]? = some x → x.idle = 0)
    (h : allocClients env w q t s groups = .ok (st, res)) {e j c : Nat} {a : AClient}
    (ha : ClientAt res e j c a) (tbl : GoMap Nat Nat) : SoundCli (a.cli tbl) := by
  obtain ⟨cg, hcg, -, hok⟩ := allocClients_at hne h ha
  obtain ⟨cg', -, c2, c3⟩ := C48_own_trx hne h ha tbl
  have hm := C47_loaded_client hl hs hne h ha tbl
  refine ⟨?_, ?_, C48_no_idle_first hne hidle h ha tbl, ?_⟩
  · show a.data.length = a.statements.length
    have := congrArg List.length hok.marks
    rw [List.length_map] at this
    rw [this, hok.statements, List.length_flatMap, List.length_flatMap]
    simp only [marks_length]
  · intro k x hx hp
    by_cases h0 : x.prepareMulti = 0
    · rw [h0]; exact Nat.le_of_lt (List.getElem?_eq_some_iff.mp hx).1
    · obtain ⟨x', hx', -⟩ := hm k x hx (x.prepareMulti - 1) (by omega)
      have := (List.getElem?_eq_some_iff.mp hx').1
      omega
  · intro i hb
    unfold isBusy at hb
    split at hb
    · rename_i x hx
      have hx : a.statements[i]? = some x := hx
      obtain ⟨t', q', name, hpos⟩ := c2 i x hx
      rw [(c3 i t' q' name x hpos).2]
      simp
    · cases hb

/-! ### Examples -/

/-- A client with an idle entry, three iterations: with failures in the second. -/
def exOrder : Cli :=
  { exClient false with
    statements := [exStmt "BEGIN" false false false true false, exIdle,
      exStmt "UPDATE t SET c=1" false true false false false, exStmt "COMMIT" false false true false false]
    data := [exData true false, exData false false, exData false false, exData false true]
    iter := 3 }

example : SoundCli exOrder where
  data := rfl
  fits := by
    intro k st hk hp
    match k, hk with
    | 0, hk => cases hk; cases hp
    | 1, hk => cases hk; cases hp
    | 2, hk => cases hk; cases hp
    | 3, hk => cases hk; cases hp
  idle := by
    intro i st d hi hd hb
    match i, hi, hd with
    | 0, hi, _ => cases hi; rfl
    | 1, _, hd => cases hd; cases hb
    | 2, hi, _ => cases hi; rfl
    | 3, hi, _ => cases hi; rfl
  stat := by
    intro i hb
    match i, hb with
    | 0, _ => decide
    | 1, hb => exact absurd hb (by decide)
    | 2, _ => decide
    | 3, _ => decide

example : busyIdx exOrder = [0, 2, 3] ∧
    executed (CState.init.run exOrder (List.replicate 66 okAns)).trace = [0, 2, 3, 0, 2, 3, 0, 2, 3] ∧
    (CState.init.run exOrder (List.replicate 66 okAns)).pc = .stopped .regular := by decide +kernel

/-- Deadlock in the second iteration: it ends there and the third is complete. -/
example : (CState.init.run exOrder (List.replicate 23 okAns ++ [failAns 1213] ++
      List.replicate 30 okAns)).trace.filterMap CEv.order =
    itersFrom 1 [(4, false), (3, true), (4, false)] := by decide +kernel

end Finch
