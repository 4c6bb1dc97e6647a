import Verif.Props.ClientCounts
/-!
C88: waiting for the rate limiters. C89: the default database. C90: what follows an execution.
-/
namespace Finch

/-! ### C88 -/

/-- Spec: the events of a client before it executes statement `st`: one wait for the limiter of trx per
second if the statement begins a trx, then one for the limiter of queries per second, then the values. -/
def waitsFor (c : Cli) (st : Stmt) : List CEv :=
  match c.tps && st.begin_, c.qps with
  | true, true => [.waitTps, .waitQps]
  | true, false => [.waitTps]
  | false, true => [.waitQps]
  | false, false => []

theorem waitEv_eq (c : Cli) (st : Stmt) : waitEv c st = waitsFor c st := by
  unfold waitEv waitsFor
  cases c.tps <;> cases st.begin_ <;> cases c.qps <;> rfl

/-- Spec: what happened last is that the client waited for statement `i` and generated its values, and
before that there was no wait that was not for another statement. -/
def WaitedFor (c : Cli) (pre : List CEv) (i : Nat) : Prop :=
  ∃ l st cnt, c.statements[i]? = some st ∧ pre = l ++ (waitsFor c st ++ [.gen i cnt]) ∧
    l.getLast? ≠ some .waitQps ∧ l.getLast? ≠ some .waitTps

def CEv.isWait : CEv → Bool
  | .waitQps | .waitTps => true
  | _ => false

structure WaitInv (c : Cli) (s : CState) : Prop where
  last : ∀ e, s.trace.getLast? = some e → e.isWait = false
  waited : ∀ i, s.pc = .exec i ∨ s.pc = .limit i → WaitedFor c s.trace i

theorem getLast?_append_notWait {tr l : List CEv} (ht : ∀ e, tr.getLast? = some e → e.isWait = false)
    (hl : ∀ e ∈ l, e.isWait = false) : ∀ e, (tr ++ l).getLast? = some e → e.isWait = false := by
  intro e he
  rw [List.getLast?_append] at he
  cases h : l.getLast? with
  | none => rw [h] at he; exact ht e (by simpa using he)
  | some x =>
    rw [h] at he
    obtain rfl : x = e := by simpa using he
    exact hl _ (List.mem_of_getLast? h)

theorem WaitInv.step {c : Cli} {s s' : CState} {a : Ans} (h : CStep c s a s') (hs : WaitInv c s) :
    WaitInv c s' := by
  have hrec : ∀ {stat : Option String} {k : EvClass}, ∀ e ∈ recEv stat k,
      e.isWait = false := fun e h => by obtain ⟨n, _, rfl⟩ := mem_recEv h; rfl
  cases h
  case stmt i st d hpc hst hi hd =>
    refine ⟨?_, ?_⟩
    · intro e he
      simp only [← List.append_assoc] at he
      rw [List.getLast?_append] at he
      obtain rfl : _ = e := Option.some.inj (by simpa using he)
      rfl
    · intro j hj
      obtain rfl : i = j := by
        by_cases h : (!st.resultSet && st.limit.isSome) = true
        · simp only [h, if_true] at hj
          rcases hj with hj | hj <;> injection hj
        · simp only [h] at hj
          rcases hj with hj | hj <;> injection hj
      refine ⟨s.trace, st, _, hst, congrArg (fun x => s.trace ++ (x ++ _)) (waitEv_eq c st), ?_, ?_⟩
      · intro h; cases hs.last _ h
      · intro h; cases hs.last _ h
  case more i hpc hm =>
    refine ⟨hs.last, ?_⟩
    intro j hj
    refine hs.waited j ?_
    rcases hj with hj | hj
    · cases hj; exact Or.inr hpc
    · cases hj
  case execFail i st d stat code hpc hst hd hstat he =>
    refine ⟨getLast?_append_notWait hs.last fun e he => ?_, by simp⟩
    rcases List.mem_cons.mp he with he | he
    · subst he; rfl
    · rcases List.mem_append.mp he with he | he
      · exact hrec e he
      · rw [List.mem_singleton.mp he]; rfl
  case execRows i st d stat hpc hst hd hstat hc he hr =>
    refine ⟨getLast?_append_notWait hs.last fun e he => ?_, ?_⟩
    · rcases List.mem_cons.mp he with he | he
      · subst he; rfl
      · exact hrec e he
    · intro j hj
      by_cases h : d.outputs ≠ []
      · simp [h] at hj
      · simp [h] at hj
  case execOk i st d stat hpc hst hd hstat hc he hr =>
    refine ⟨getLast?_append_notWait hs.last fun e he => ?_, by simp⟩
    rcases List.mem_cons.mp he with he | he
    · subst he; rfl
    · rcases List.mem_append.mp he with he | he
      · exact hrec e he
      · rcases mem_okEv he with rfl | rfl <;> rfl
  case error i code stat hpc hstat =>
    refine ⟨getLast?_append_notWait hs.last fun e he => ?_, by simp⟩
    obtain ⟨n, rfl⟩ := mem_errEv he
    rfl
  all_goals first
    | exact hs
    | (refine ⟨hs.last, ?_⟩; simp; done)
    | (refine ⟨getLast?_append_notWait hs.last ?_, ?_⟩ <;> (simp [CEv.isWait]; done))

/-- **C88.** Whatever happens, a client executes a statement only right after it waited once for the
limiters of this statement: for trx per second if the statement begins a trx (and there is a limiter),
for queries per second if there is a limiter; there is no other wait. -/
theorem C88_waits (c : Cli) (as : List Ans) :
    AtExec (fun pre i _ _ => WaitedFor c pre i) (CState.init.run c as).trace := by
  refine run_atExec (P := WaitInv c) ⟨?_, ?_⟩ (fun s a s' h hs => hs.step h) ?_ as
  · intro e he; simp [CState.init] at he
  · intro i hi; simp [CState.init] at hi
  · intro s i st d hs hpc _ _
    exact hs.waited i (Or.inl hpc)

/-! Counting. -/

def CEv.isQps : CEv → Bool
  | .waitQps => true
  | _ => false

def CEv.isTps : CEv → Bool
  | .waitTps => true
  | _ => false

/-- Are the values of a statement generated that begins a trx in MySQL. -/
def CEv.isGenBegin (c : Cli) : CEv → Bool
  | .gen i _ => ((c.statements[i]?).map (·.begin_)).getD false
  | _ => false

def CEv.isGenWait : CEv → Bool
  | .gen .. | .waitQps | .waitTps | .exec .. => true
  | _ => false

/-- Is a statement about to be executed. -/
def pendingExec : CPc → Nat
  | .exec _ | .limit _ => 1
  | _ => 0

structure WaitCount (c : Cli) (s : CState) : Prop where
  qps : s.trace.countP CEv.isQps = if c.qps then s.trace.countP CEv.isGen else 0
  tps : s.trace.countP CEv.isTps = if c.tps then s.trace.countP (CEv.isGenBegin c) else 0
  execs : s.pc.isStopped = false →
    s.trace.countP CEv.isGen = s.trace.countP CEv.isExec + pendingExec s.pc
  le1 : s.trace.countP CEv.isExec ≤ s.trace.countP CEv.isGen
  le2 : s.trace.countP CEv.isGen ≤ s.trace.countP CEv.isExec + 1

theorem countP_append_none {f g : CEv → Bool} {l m : List CEv} (hf : ∀ e, g e = false → f e = false)
    (h : ∀ e ∈ m, g e = false) : (l ++ m).countP f = l.countP f := by
  have h0 : m.countP f = 0 := List.countP_eq_zero.mpr (fun e he => by rw [hf e (h e he)]; simp)
  rw [List.countP_append, h0, Nat.add_zero]

/-- A step that adds only events that are not counted. -/
theorem WaitCount.plain {c : Cli} {s s' : CState} {l : List CEv} (hs : WaitCount c s)
    (h1 : s'.trace = s.trace ++ l) (hl : ∀ e ∈ l, e.isGenWait = false)
    (h2 : s'.pc.isStopped = false → s.pc.isStopped = false ∧ pendingExec s'.pc = pendingExec s.pc) :
    WaitCount c s' := by
  have e1 := countP_append_none (l := s.trace) (f := CEv.isQps)
    (by intro e; cases e <;> simp [CEv.isQps, CEv.isGenWait]) hl
  have e2 := countP_append_none (l := s.trace) (f := CEv.isTps)
    (by intro e; cases e <;> simp [CEv.isTps, CEv.isGenWait]) hl
  have e3 := countP_append_none (l := s.trace) (f := CEv.isGen)
    (by intro e; cases e <;> simp [CEv.isGen, CEv.isGenWait]) hl
  have e4 := countP_append_none (l := s.trace) (f := CEv.isExec)
    (by intro e; cases e <;> simp [CEv.isExec, CEv.isGenWait]) hl
  have e5 := countP_append_none (l := s.trace) (f := CEv.isGenBegin c)
    (by intro e; cases e <;> simp [CEv.isGenBegin, CEv.isGenWait]) hl
  refine ⟨?_, ?_, ?_, ?_, ?_⟩
  · rw [h1, e1, e3]; exact hs.qps
  · rw [h1, e2, e5]; exact hs.tps
  · intro h; rw [h1, e3, e4, (h2 h).2]; exact hs.execs (h2 h).1
  · rw [h1, e3, e4]; exact hs.le1
  · rw [h1, e3, e4]; exact hs.le2

/-- A step that executes. -/
theorem WaitCount.execd {c : Cli} {s s' : CState} {l : List CEv} {i n : Nat} {ps : Option (Nat × Nat)}
    (hs : WaitCount c s)
    (h1 : s'.trace = s.trace ++ .exec i n ps :: l) (hl : ∀ e ∈ l, e.isGenWait = false)
    (hpc : s.pc = .exec i) (h2 : pendingExec s'.pc = 0) :
    WaitCount c s' := by
  rw [show s.trace ++ .exec i n ps :: l = (s.trace ++ [CEv.exec i n ps]) ++ l by simp] at h1
  have e1 := countP_append_none (l := s.trace ++ [.exec i n ps]) (f := CEv.isQps)
    (by intro e; cases e <;> simp [CEv.isQps, CEv.isGenWait]) hl
  have e2 := countP_append_none (l := s.trace ++ [.exec i n ps]) (f := CEv.isTps)
    (by intro e; cases e <;> simp [CEv.isTps, CEv.isGenWait]) hl
  have e3 := countP_append_none (l := s.trace ++ [.exec i n ps]) (f := CEv.isGen)
    (by intro e; cases e <;> simp [CEv.isGen, CEv.isGenWait]) hl
  have e4 := countP_append_none (l := s.trace ++ [.exec i n ps]) (f := CEv.isExec)
    (by intro e; cases e <;> simp [CEv.isExec, CEv.isGenWait]) hl
  have e5 := countP_append_none (l := s.trace ++ [.exec i n ps]) (f := CEv.isGenBegin c)
    (by intro e; cases e <;> simp [CEv.isGenBegin, CEv.isGenWait]) hl
  have f1 : (s.trace ++ [CEv.exec i n ps]).countP CEv.isQps = s.trace.countP CEv.isQps := by
    rw [List.countP_append]; rfl
  have f2 : (s.trace ++ [CEv.exec i n ps]).countP CEv.isTps = s.trace.countP CEv.isTps := by
    rw [List.countP_append]; rfl
  have f3 : (s.trace ++ [CEv.exec i n ps]).countP CEv.isGen = s.trace.countP CEv.isGen := by
    rw [List.countP_append]; rfl
  have f4 : (s.trace ++ [CEv.exec i n ps]).countP CEv.isExec = s.trace.countP CEv.isExec + 1 := by
    rw [List.countP_append]; rfl
  have f5 : (s.trace ++ [CEv.exec i n ps]).countP (CEv.isGenBegin c) =
      s.trace.countP (CEv.isGenBegin c) := by
    rw [List.countP_append]; rfl
  have hx := hs.execs (by rw [hpc]; rfl)
  rw [hpc] at hx
  simp only [pendingExec] at hx
  refine ⟨?_, ?_, ?_, ?_, ?_⟩
  · rw [h1, e1, e3, f1, f3]; exact hs.qps
  · rw [h1, e2, e5, f2, f5]; exact hs.tps
  · intro h; rw [h1, e3, e4, f3, f4, h2]; omega
  · rw [h1, e3, e4, f3, f4]; omega
  · rw [h1, e3, e4, f3, f4]; omega

theorem WaitCount.step {c : Cli} {s s' : CState} {a : Ans} (h : CStep c s a s') (hs : WaitCount c s) :
    WaitCount c s' := by
  have hrec : ∀ {stat : Option String} {k : EvClass}, ∀ e ∈ recEv stat k,
      e.isGenWait = false := fun e h => by obtain ⟨n, _, rfl⟩ := mem_recEv h; rfl
  have hnil : ∀ e ∈ ([] : List CEv), e.isGenWait = false := fun e he => absurd he List.not_mem_nil
  cases h
  case stmt i st d hpc hst hi hd =>
    have hx := hs.execs (by rw [hpc]; rfl)
    rw [hpc] at hx
    simp only [pendingExec] at hx
    have hg : ∀ (f : CEv → Bool) (cnt : RunCount),
        (s.trace ++ (waitEv c st ++ [CEv.gen i cnt])).countP f =
        s.trace.countP f + ((waitsFor c st).countP f + [CEv.gen i cnt].countP f) := by
      intro f cnt
      rw [List.countP_append, List.countP_append, waitEv_eq]
    have g1 : (waitsFor c st).countP CEv.isGen = 0 := by unfold waitsFor; split <;> rfl
    have g2 : (waitsFor c st).countP CEv.isExec = 0 := by unfold waitsFor; split <;> rfl
    have g3 : (waitsFor c st).countP (CEv.isGenBegin c) = 0 := by unfold waitsFor; split <;> rfl
    have g4 : (waitsFor c st).countP CEv.isQps = if c.qps then 1 else 0 := by
      unfold waitsFor
      cases c.tps <;> cases st.begin_ <;> cases c.qps <;> rfl
    have g5 : (waitsFor c st).countP CEv.isTps = if c.tps && st.begin_ then 1 else 0 := by
      unfold waitsFor
      cases c.tps <;> cases st.begin_ <;> cases c.qps <;> rfl
    have k1 : ∀ cnt, [CEv.gen i cnt].countP CEv.isGen = 1 := fun _ => rfl
    have k2 : ∀ cnt, [CEv.gen i cnt].countP CEv.isExec = 0 := fun _ => rfl
    have k3 : ∀ cnt, [CEv.gen i cnt].countP (CEv.isGenBegin c) = if st.begin_ then 1 else 0 := by
      intro cnt
      rw [List.countP_singleton]
      simp [CEv.isGenBegin, hst]
    have k4 : ∀ cnt, [CEv.gen i cnt].countP CEv.isQps = 0 := fun _ => rfl
    have k5 : ∀ cnt, [CEv.gen i cnt].countP CEv.isTps = 0 := fun _ => rfl
    have h1 := hs.qps
    have h2 := hs.tps
    refine ⟨?_, ?_, ?_, ?_, ?_⟩
    · dsimp only
      rw [hg, hg, g4, g1, k4, k1, h1]
      cases c.qps <;> simp
    · dsimp only
      rw [hg, hg, g5, g3, k5, k3, h2]
      cases c.tps <;> cases st.begin_ <;> simp
    · intro _
      dsimp only
      rw [hg, hg, g1, g2, k1, k2]
      have : pendingExec (if !st.resultSet && st.limit.isSome then .limit i else .exec i) = 1 := by
        split <;> rfl
      rw [this]; omega
    · dsimp only; rw [hg, hg, g1, g2, k1, k2]; omega
    · dsimp only; rw [hg, hg, g1, g2, k1, k2]; omega
  case more i hpc hm =>
    exact hs.plain (List.append_nil _).symm hnil (fun _ => by rw [hpc]; exact ⟨rfl, rfl⟩)
  case execNoStats i st d hpc hst hd hstat =>
    exact hs.execd rfl (by simp [CEv.isGenWait]) hpc rfl
  case execFail i st d stat code hpc hst hd hstat he =>
    refine hs.execd rfl (fun e he => ?_) hpc rfl
    rcases List.mem_append.mp he with he | he
    · exact hrec e he
    · rw [List.mem_singleton.mp he]; rfl
  case execRows i st d stat hpc hst hd hstat hc he hr =>
    refine hs.execd rfl hrec hpc ?_
    dsimp only
    split <;> rfl
  case execOk i st d stat hpc hst hd hstat hc he hr =>
    refine hs.execd rfl (fun e he => ?_) hpc rfl
    rcases List.mem_append.mp he with he | he
    · exact hrec e he
    · rcases mem_okEv he with rfl | rfl <;> rfl
  case error i code stat hpc hstat =>
    refine hs.plain rfl (fun e he => ?_) (fun _ => by rw [hpc]; exact ⟨rfl, rfl⟩)
    obtain ⟨n, rfl⟩ := mem_errEv he
    rfl
  all_goals first
    | exact hs
    | (refine hs.plain (List.append_nil _).symm hnil (fun _ => ?_)
       simp only [*]; exact ⟨rfl, rfl⟩)
    | (refine hs.plain rfl ?_ ?_
       · simp [CEv.isGenWait]; done
       · intro h; simp only [*]; exact ⟨rfl, rfl⟩)
    | (refine hs.plain rfl ?_ ?_
       · simp [CEv.isGenWait]; done
       · intro h; cases h)

/-- **C88.** The number of waits of a client: with a limiter of queries per second one for each
execution, except that the client can be between the wait and the execution (or was stopped there by
a data limit); with a limiter of trx per second one for each execution of a statement that begins a
trx; none without limiter. -/
theorem C88_number_of_waits (c : Cli) (as : List Ans) :
    let tr := (CState.init.run c as).trace
    (tr.countP CEv.isQps = if c.qps then tr.countP CEv.isGen else 0) ∧
    (tr.countP CEv.isTps = if c.tps then tr.countP (CEv.isGenBegin c) else 0) ∧
    tr.countP CEv.isExec ≤ tr.countP CEv.isGen ∧ tr.countP CEv.isGen ≤ tr.countP CEv.isExec + 1 := by
  have := CState.run_inv (c := c) (P := WaitCount c) (fun s a s' h hs => hs.step h) as CState.init
    ⟨by simp [CState.init], by simp [CState.init], by simp [CState.init, pendingExec], by simp [CState.init],
      by simp [CState.init]⟩
  exact ⟨this.qps, this.tps, this.le1, this.le2⟩

/-- Both limiters: the waits of one iteration of `BEGIN`, `UPDATE`, `COMMIT`. -/
example :
    let tr := (CState.init.run { exClient false with qps := true, tps := true }
      (List.replicate 15 okAns)).trace
    tr.countP CEv.isQps = 3 ∧ tr.countP CEv.isTps = 1 ∧ tr.countP CEv.isExec = 3 := by
  decide +kernel

/-! ### C89 -/

/-- Spec: after these events the default database was set on the connection that is open. -/
def dbSet (tr : List CEv) : Bool :=
  tr.foldl (fun o e => match e with
    | .connected _ | .closed _ => false
    | .useDb _ => true
    | _ => o) false

def CEv.isDb : CEv → Bool
  | .connected _ | .closed _ | .useDb _ => true
  | _ => false

theorem dbSet_append (tr l : List CEv) (hl : ∀ e ∈ l, e.isDb = false) :
    dbSet (tr ++ l) = dbSet tr := by
  unfold dbSet
  rw [List.foldl_append]
  generalize List.foldl _ false tr = o
  induction l generalizing o with
  | nil => rfl
  | cons e es ih =>
    rw [List.foldl_cons]
    have he := hl e (by simp)
    rw [ih (fun e he => hl e (by simp [he]))]
    cases e <;> first | rfl | cases he

/-- Has the client set the database here. -/
def hasDb : CPc → Bool
  | .connect (some _) | .rollback .. | .close false | .prep .. | .head
  | .stmt _ | .limit _ | .exec _ | .scan _ | .error .. => true
  | _ => false

/-- Spec: after these events: `USE` was sent only on the connection open then. -/
def UseOpen (tr : List CEv) : Prop :=
  ∀ (p n : Nat), tr[p]? = some (.useDb n) → openConn (tr.take p) = some n

theorem UseOpen.none {tr l : List CEv} (h : UseOpen tr) (hl : ∀ e ∈ l, e.isDb = false) :
    UseOpen (tr ++ l) := by
  intro p n hp
  by_cases hlt : p < tr.length
  · rw [List.getElem?_append_left hlt] at hp
    rw [List.take_append_of_le_length (by omega)]
    exact h p n hp
  · rw [List.getElem?_append_right (by omega)] at hp
    cases hl _ (List.mem_of_getElem? hp)

theorem UseOpen.one {tr : List CEv} {e : CEv} (h : UseOpen tr)
    (hq : ∀ n, e = .useDb n → openConn tr = some n) : UseOpen (tr ++ [e]) := by
  intro p n hp
  by_cases hlt : p < tr.length
  · rw [List.getElem?_append_left hlt] at hp
    rw [List.take_append_of_le_length (by omega)]
    exact h p n hp
  · rw [List.getElem?_append_right (by omega)] at hp
    have hp0 : p - tr.length = 0 := by
      by_contra hne
      rw [List.getElem?_eq_none (by simp; omega)] at hp
      cases hp
    rw [hp0] at hp
    cases hp
    rw [show p = tr.length by omega, List.take_append_of_le_length (Nat.le_refl _), List.take_length]
    exact hq n rfl

structure DbInv (c : Cli) (s : CState) : Prop where
  conn : ConnInv s
  has : c.db ≠ "" → hasDb s.pc = true → dbSet s.trace = true
  useConn : UseOpen s.trace
  noUse : c.db = "" → ∀ e ∈ s.trace, ∀ n, e ≠ .useDb n
  pcUse : ∀ f, s.pc = .use f → c.db ≠ ""

theorem DbInv.step {c : Cli} {s s' : CState} {a : Ans} (h : CStep c s a s') (hs : DbInv c s) :
    DbInv c s' := by
  have hconn := hs.conn.step h
  have hp : ∀ {l : List CEv}, (∀ e ∈ l, e.isDb = false) → dbSet (s.trace ++ l) = dbSet s.trace :=
    fun hl => dbSet_append _ _ hl
  have hu : ∀ {l : List CEv}, (∀ e ∈ l, e.isDb = false) → UseOpen (s.trace ++ l) :=
    fun hl => hs.useConn.none hl
  have hn : ∀ {l : List CEv}, (∀ e ∈ l, e.isDb = false) → c.db = "" →
      ∀ e ∈ s.trace ++ l, ∀ n, e ≠ .useDb n := by
    intro l hl hdb e he n hen
    subst hen
    rcases List.mem_append.mp he with he | he
    · exact hs.noUse hdb _ he n rfl
    · cases hl _ he
  have hrec : ∀ {stat : Option String} {k : EvClass}, ∀ e ∈ recEv stat k,
      e.isDb = false := fun e h => by obtain ⟨n, _, rfl⟩ := mem_recEv h; rfl
  have hopen : hasConn s.pc = true → openConn s.trace = some (s.conn.getD 0) := by
    intro h
    have := hs.conn.has h
    rw [hs.conn.conn]
    cases hc : s.conn with
    | none => rw [hc] at this; cases this
    | some n => rfl
  -- a step that adds events of no interest
  have plain : ∀ {l : List CEv} {s' : CState}, ConnInv s' → s'.trace = s.trace ++ l →
      (∀ e ∈ l, e.isDb = false) → (hasDb s'.pc = true → hasDb s.pc = true) →
      (∀ f, s'.pc ≠ .use f) → DbInv c s' := by
    intro l s' h0 h1 h2 h3 h4
    refine ⟨h0, ?_, ?_, ?_, fun f hf => absurd hf (h4 f)⟩
    · intro hdb hpc
      rw [h1, hp h2]
      exact hs.has hdb (h3 hpc)
    · rw [h1]; exact hu h2
    · rw [h1]; exact hn h2
  cases h
  case close f n hpc hcn =>
    refine ⟨hconn, ?_, ?_, ?_, by simp⟩
    · intro _ h; simp [hasDb] at h
    · exact hs.useConn.one (by simp)
    · intro hdb e he n hen
      subst hen
      simp only [List.mem_append, List.mem_singleton, reduceCtorEq, or_false] at he
      exact hs.noUse hdb _ he n rfl
  case connOk f hpc hc ho =>
    refine ⟨hconn, ?_, ?_, ?_, by simp⟩
    · intro _ h; simp [hasDb] at h
    · exact hs.useConn.one (by simp)
    · intro hdb e he n hen
      subst hen
      simp only [List.mem_append, List.mem_singleton, reduceCtorEq, or_false] at he
      exact hs.noUse hdb _ he n rfl
  case noDb f hpc hc hdb =>
    exact ⟨hconn, fun h => absurd hdb h, hs.useConn, hs.noUse, by simp⟩
  case toUse f hpc hc hdb =>
    exact ⟨hconn, fun _ h => by simp [hasDb] at h, hs.useConn, hs.noUse, fun _ _ => hdb⟩
  case useCtx f hpc hc =>
    have h1 := hopen (by rw [hpc]; rfl)
    refine ⟨hconn, fun _ h => by simp [hasDb] at h, ?_, ?_, by simp⟩
    · dsimp only
      rw [show s.trace ++ [CEv.useDb (s.conn.getD 0), .done] =
        (s.trace ++ [.useDb (s.conn.getD 0)]) ++ [.done] by simp]
      refine UseOpen.none (hs.useConn.one fun n hn => ?_) (by simp [CEv.isDb])
      injection hn with hn
      rw [← hn]; exact h1
    · intro hdb; exact absurd hdb (hs.pcUse _ hpc)
  case useFail f hpc hc he =>
    have h1 := hopen (by rw [hpc]; rfl)
    refine ⟨hconn, fun _ h => by simp [hasDb] at h, ?_, ?_, by simp⟩
    · dsimp only
      rw [show s.trace ++ [CEv.useDb (s.conn.getD 0), .done] =
        (s.trace ++ [.useDb (s.conn.getD 0)]) ++ [.done] by simp]
      refine UseOpen.none (hs.useConn.one fun n hn => ?_) (by simp [CEv.isDb])
      injection hn with hn
      rw [← hn]; exact h1
    · intro hdb; exact absurd hdb (hs.pcUse _ hpc)
  case useOk f hpc hc he =>
    have h1 := hopen (by rw [hpc]; rfl)
    refine ⟨hconn, ?_, ?_, ?_, by simp⟩
    · intro _ _
      unfold dbSet
      rw [List.foldl_append]
      rfl
    · refine hs.useConn.one fun n hn => ?_
      injection hn with hn
      rw [← hn]; exact h1
    · intro hdb; exact absurd hdb (hs.pcUse _ hpc)
  case stmt i st d hpc hst hi hd =>
    refine plain hconn rfl (fun e he => ?_) (fun _ => by rw [hpc]; rfl) ?_
    · rcases List.mem_append.mp he with he | he
      · rcases mem_waitEv he with rfl | rfl <;> rfl
      · rw [List.mem_singleton.mp he]; rfl
    · intro f
      dsimp only
      split <;> simp
  case execFail i st d stat code hpc hst hd hstat he =>
    refine plain hconn rfl (fun e he => ?_) (fun _ => by rw [hpc]; rfl) (by simp)
    rcases List.mem_cons.mp he with he | he
    · subst he; rfl
    · rcases List.mem_append.mp he with he | he
      · exact hrec e he
      · rw [List.mem_singleton.mp he]; rfl
  case execRows i st d stat hpc hst hd hstat hc he hr =>
    refine plain hconn rfl (fun e he => ?_) (fun _ => by rw [hpc]; rfl) ?_
    · rcases List.mem_cons.mp he with he | he
      · subst he; rfl
      · exact hrec e he
    · intro f
      dsimp only
      split <;> simp
  case execOk i st d stat hpc hst hd hstat hc he hr =>
    refine plain hconn rfl (fun e he => ?_) (fun _ => by rw [hpc]; rfl) (by simp)
    rcases List.mem_cons.mp he with he | he
    · subst he; rfl
    · rcases List.mem_append.mp he with he | he
      · exact hrec e he
      · rcases mem_okEv he with rfl | rfl <;> rfl
  case error i code stat hpc hstat =>
    refine plain hconn rfl (fun e he => ?_) (fun _ => by rw [hpc]; rfl) (by simp)
    obtain ⟨n, rfl⟩ := mem_errEv he
    rfl
  case connectFirst hpc hc =>
    exact plain hconn (List.append_nil _).symm (by simp) (by simp [hasDb]) (by simp)
  case closeNone hpc hc =>
    exact plain hconn (List.append_nil _).symm (by simp) (by simp [hasDb]) (by simp)
  all_goals first
    | exact hs
    | (refine plain hconn (List.append_nil _).symm (by simp) (fun _ => ?_) (by simp)
       simp only [*]; rfl)
    | (refine plain hconn rfl ?_ (fun _ => ?_) (by simp)
       · simp [CEv.isDb]; done
       · simp only [*]; rfl)
    | (refine plain hconn rfl ?_ ?_ (by simp) <;> (simp [CEv.isDb, hasDb]; done))

theorem dbInv_run (c : Cli) (as : List Ans) : DbInv c (CState.init.run c as) :=
  CState.run_inv (P := DbInv c) (fun s a s' h hs => hs.step h) as CState.init
    ⟨⟨rfl, by simp [CState.init, hasConn]⟩, fun _ h => by simp [CState.init, hasDb] at h,
      fun p n h => by simp [CState.init] at h, by simp [CState.init], by simp [CState.init]⟩

/-- **C89.** With a default database, every statement of a client is executed on a connection on which
`USE` was sent since it was opened (also after a reconnect). -/
theorem C89_database_set (c : Cli) (hdb : c.db ≠ "") (as : List Ans) :
    AtExec (fun pre _ n _ => openConn pre = some n ∧ dbSet pre = true)
      (CState.init.run c as).trace := by
  refine run_atExec (P := DbInv c) ⟨⟨rfl, by simp [CState.init, hasConn]⟩,
      fun _ h => by simp [CState.init, hasDb] at h,
      fun p n h => by simp [CState.init] at h, by simp [CState.init], by simp [CState.init]⟩
    (fun s a s' h hs => hs.step h) ?_ as
  intro s i st d hs hpc _ _
  refine ⟨?_, hs.has hdb (by rw [hpc]; rfl)⟩
  have := hs.conn.has (by rw [hpc]; rfl)
  rw [hs.conn.conn]
  cases hc : s.conn with
  | none => rw [hc] at this; cases this
  | some n => rfl

/-- **C89.** `USE` is sent only on the open connection, and never without a default database. -/
theorem C89_use (c : Cli) (as : List Ans) :
    UseOpen (CState.init.run c as).trace ∧
    (c.db = "" → ∀ n, CEv.useDb n ∉ (CState.init.run c as).trace) :=
  ⟨(dbInv_run c as).useConn, fun h n hn => (dbInv_run c as).noUse h _ hn n rfl⟩

/-- A connection lost in the second statement: the database is set again. -/
example :
    let tr := (CState.init.run { exClient false with db := "d" }
      (List.replicate 13 okAns ++ [failAns 2013] ++ List.replicate 20 okAns)).trace
    CEv.useDb 0 ∈ tr ∧ CEv.useDb 1 ∈ tr ∧ CEv.exec 1 1 none ∈ tr := by
  decide +kernel

end Finch
