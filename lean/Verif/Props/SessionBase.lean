import Verif.Model.Session
import Verif.Props.ClientCounts
import Verif.Props.Values
/-!
C114, first part: histories of a session. Clients run as if alone, generators are used in the order of the
history, and a statement is sent with the values generated for it just before.
-/
namespace Finch

variable {G : Type}

/-! ### Specification -/

/-- Spec: the answers given to client `n`. -/
def answersTo (n : ClientNo) (xs : List SIn) : List Ans := (xs.filter (fun x => x.n == n)).map (·.ans)

/-- Spec: the uses of the generator at address `a` in a history, with the values returned. -/
def usesIn (a : Nat) (h : List SEv) : List (Use × Option (List GoVal)) :=
  h.flatMap fun e => match e with
    | .gen _ _ cnt vs => (vs.filter (fun p => p.1.gen == a)).map fun p => (⟨p.1.explicit, cnt⟩, p.2)
    | _ => []

/-- Spec: which client an event is of. -/
def SEv.client : SEv → ClientNo
  | .gen n _ _ _ => n
  | .sent n _ _ _ => n

/-- Spec: a call of the value functions of a statement, or its execution. -/
inductive StmtEv where
  | gen (i : Nat) (cnt : RunCount)
  | exec (i conn : Nat)
  deriving DecidableEq, Repr

def SEv.stmtEv : SEv → StmtEv
  | .gen _ i cnt _ => .gen i cnt
  | .sent _ i conn _ => .exec i conn

def CEv.stmtEv : CEv → Option StmtEv
  | .gen i cnt => some (.gen i cnt)
  | .exec i conn _ => some (.exec i conn)
  | _ => none

/-- Spec: generator `a` is not what any client saves a column in. -/
def NotSaved (cs : ClientNo → Cli) (a : Nat) : Prop :=
  ∀ n, ∀ d ∈ (cs n).data, some a ∉ d.outputs ∧ d.insertId ≠ some a

/-! ### Each client runs as if alone -/

theorem Sess.foldl_event_cli (o : FmtOther) (ops : GenOps G) (c : Cli) (x : SIn) (l : List CEv) :
    ∀ s : Sess G, (l.foldl (Sess.event o ops c x) s).cli = s.cli := by
  induction l with
  | nil => intro s; rfl
  | cons e l ih => intro s; rw [List.foldl_cons, ih]; cases e <;> rfl

theorem Sess.readRows_cli (ops : GenOps G) (c : Cli) (x : SIn) (s : Sess G) :
    (s.readRows ops c x).cli = s.cli := by unfold Sess.readRows; split <;> rfl

theorem Sess.step_cli (o : FmtOther) (ops : GenOps G) (cs : ClientNo → Cli) (s : Sess G) (x : SIn) (n : ClientNo) :
    (s.step o ops cs x).cli n = if n = x.n then (s.cli n).step (cs n) x.ans else s.cli n := by
  show (if n = x.n then _ else _) = _
  split
  · rename_i h; subst h; rfl
  · rw [Sess.foldl_event_cli, Sess.readRows_cli]

theorem Sess.run_cli (o : FmtOther) (ops : GenOps G) (cs : ClientNo → Cli) (n : ClientNo) (xs : List SIn) :
    ∀ s : Sess G, (s.run o ops cs xs).cli n = (s.cli n).run (cs n) (answersTo n xs) := by
  induction xs with
  | nil => intro s; rfl
  | cons x xs ih =>
    intro s
    show ((s.step o ops cs x).run o ops cs xs).cli n = _
    rw [ih, Sess.step_cli]
    by_cases h : n = x.n
    · subst h; simp [answersTo, CState.run]
    · have : (x.n == n) = false := by simpa using fun e => h e.symm
      simp [answersTo, h, this]

/-! ### Invariants of the data part -/

/-- An invariant that holds at every event: of the session and the events done so far by each client. -/
theorem Sess.step_inv {o : FmtOther} {ops : GenOps G} {cs : ClientNo → Cli}
    {P : (ClientNo → List CEv) → (Nat → ScopedGen G (List GoVal)) → (ClientNo → Nat → List GoVal) → List SEv → Prop}
    (hev : ∀ tr (s : Sess G) x e, P tr s.gens s.vals s.hist →
      let s' := s.event o ops (cs x.n) x e
      P (fun n => if n = x.n then tr n ++ [e] else tr n) s'.gens s'.vals s'.hist)
    (hrow : ∀ tr (s : Sess G) x, P tr s.gens s.vals s.hist →
      P tr (s.readRows ops (cs x.n) x).gens s.vals s.hist)
    (s : Sess G) (x : SIn) (h : P (fun n => (s.cli n).trace) s.gens s.vals s.hist) :
    let s' := s.step o ops cs x
    P (fun n => (s'.cli n).trace) s'.gens s'.vals s'.hist := by
  have hfold : ∀ (l : List CEv) (tr : ClientNo → List CEv) (s : Sess G), P tr s.gens s.vals s.hist →
      let s' := l.foldl (Sess.event o ops (cs x.n) x) s
      P (fun n => if n = x.n then tr n ++ l else tr n) s'.gens s'.vals s'.hist := by
    intro l
    induction l with
    | nil => intro tr s h; simpa using h
    | cons e l ih =>
      intro tr s h
      have h1 := ih _ _ (hev tr s x e h)
      have he : (fun n => if n = x.n then (if n = x.n then tr n ++ [e] else tr n) ++ l
          else if n = x.n then tr n ++ [e] else tr n) =
          fun n => if n = x.n then tr n ++ e :: l else tr n := by
        funext n
        split <;> simp
      rw [he] at h1
      exact h1
  obtain ⟨ev, hev'⟩ := ((s.cli x.n).step_cases (cs x.n) x.ans).trace
  have h1 := hrow _ s x h
  have hv : (s.readRows ops (cs x.n) x).vals = s.vals := by unfold Sess.readRows; split <;> rfl
  have hh : (s.readRows ops (cs x.n) x).hist = s.hist := by unfold Sess.readRows; split <;> rfl
  have h2 := hfold (((s.cli x.n).step (cs x.n) x.ans).trace.drop (s.cli x.n).trace.length)
    (fun n => (s.cli n).trace) (s.readRows ops (cs x.n) x) (by rw [hv, hh]; exact h1)
  have he : (fun n => if n = x.n then (s.cli n).trace ++
      ((s.cli x.n).step (cs x.n) x.ans).trace.drop (s.cli x.n).trace.length else (s.cli n).trace) =
      fun n => ((s.step o ops cs x).cli n).trace := by
    funext n
    rw [Sess.step_cli]
    split
    · rename_i hn; subst hn
      rw [hev', List.drop_left]
    · rfl
  rw [he] at h2
  exact h2

theorem Sess.run_inv {o : FmtOther} {ops : GenOps G} {cs : ClientNo → Cli}
    {P : (ClientNo → List CEv) → (Nat → ScopedGen G (List GoVal)) → (ClientNo → Nat → List GoVal) → List SEv → Prop}
    (hev : ∀ tr (s : Sess G) x e, P tr s.gens s.vals s.hist →
      let s' := s.event o ops (cs x.n) x e
      P (fun n => if n = x.n then tr n ++ [e] else tr n) s'.gens s'.vals s'.hist)
    (hrow : ∀ tr (s : Sess G) x, P tr s.gens s.vals s.hist →
      P tr (s.readRows ops (cs x.n) x).gens s.vals s.hist) (xs : List SIn) :
    ∀ s : Sess G, P (fun n => (s.cli n).trace) s.gens s.vals s.hist →
    let s' := s.run o ops cs xs
    P (fun n => (s'.cli n).trace) s'.gens s'.vals s'.hist := by
  induction xs with
  | nil => intro s h; exact h
  | cons x xs ih => intro s h; exact ih _ (Sess.step_inv hev hrow s x h)

/-! ### The history is what the clients did -/

theorem hist_events (o : FmtOther) (ops : GenOps G) (cs : ClientNo → Cli) (made : GoMap Nat GenId)
    (g : GenStart G) (xs : List SIn) (n : ClientNo) :
    let s := (Sess.init cs made g).run o ops cs xs
    (s.hist.filter (fun e => e.client == n)).map SEv.stmtEv =
      (CState.init.run (cs n) (answersTo n xs)).trace.filterMap CEv.stmtEv := by
  have h := Sess.run_inv (o := o) (ops := ops) (cs := cs)
    (P := fun tr _ _ h => (h.filter (fun e => e.client == n)).map SEv.stmtEv =
      (tr n).filterMap CEv.stmtEv) ?_ ?_ xs (Sess.init cs made g) (by simp [Sess.init, CState.init])
  · dsimp only at h ⊢
    rw [Sess.run_cli] at h
    exact h
  · intro tr s x e h
    dsimp only at h ⊢
    by_cases hn : n = x.n
    · subst hn
      rw [if_pos rfl, List.filterMap_append, ← h]
      cases e <;> simp [Sess.event, CEv.stmtEv, SEv.client, SEv.stmtEv]
    · have hx : (x.n == n) = false := by simpa using fun e => hn e.symm
      rw [if_neg hn, ← h]
      cases e <;> simp [Sess.event, SEv.client, hx]
  · intro tr s x h; exact h

theorem callInputs_refs (ops : GenOps G) (cnt : RunCount) (rs : List InRef) :
    ∀ gens, (callInputs ops cnt gens rs).2.map (·.1) = rs := by
  induction rs with
  | nil => intro gens; rfl
  | cons r rs ih => intro gens; simp [callInputs, ih]

/-- Each call of value functions is of the inputs of the statement. -/
theorem hist_inputs (o : FmtOther) (ops : GenOps G) (cs : ClientNo → Cli) (made : GoMap Nat GenId)
    (g : GenStart G) (xs : List SIn) {n : ClientNo} {i : Nat} {cnt : RunCount}
    {vs : List (InRef × Option (List GoVal))}
    (h : SEv.gen n i cnt vs ∈ ((Sess.init cs made g).run o ops cs xs).hist) :
    vs.map (·.1) = (((cs n).data[i]?).map (·.inputs)).getD [] := by
  have h1 := Sess.run_inv (o := o) (ops := ops) (cs := cs)
    (P := fun _ _ _ h => ∀ n i cnt vs, SEv.gen n i cnt vs ∈ h →
      vs.map (·.1) = (((cs n).data[i]?).map (·.inputs)).getD []) ?_ ?_ xs (Sess.init cs made g)
      (by simp [Sess.init])
  · exact h1 n i cnt vs h
  · intro tr s x e h
    dsimp only at h ⊢
    intro n i cnt vs hm
    cases e <;> simp only [Sess.event] at hm <;> try exact h n i cnt vs hm
    · rcases List.mem_append.1 hm with hm | hm
      · exact h n i cnt vs hm
      · simp only [List.mem_singleton, SEv.gen.injEq] at hm
        obtain ⟨rfl, rfl, rfl, rfl⟩ := hm
        exact callInputs_refs _ _ _ _
    · rcases List.mem_append.1 hm with hm | hm
      · exact h n i cnt vs hm
      · simp at hm
  · intro tr s x h; exact h

/-! ### Generators are used in the order of the history -/

theorem ScopedGen.uses_append {V : Type} (f : GenFun G V) (us vs : List Use) :
    ∀ s : ScopedGen G V, s.uses f (us ++ vs) =
      (((s.uses f us).1.uses f vs).1, (s.uses f us).2 ++ ((s.uses f us).1.uses f vs).2) := by
  induction us with
  | nil => intro s; rfl
  | cons u us ih => intro s; simp [ScopedGen.uses, ih]

theorem callInputs_uses (ops : GenOps G) (cnt : RunCount) (a : Nat) (rs : List InRef) :
    ∀ gens, let y := callInputs ops cnt gens rs
      let l := (y.2.filter (fun p => p.1.gen == a)).map fun p => ((⟨p.1.explicit, cnt⟩ : Use), p.2)
      (gens a).uses ops.values (l.map (·.1)) = (y.1 a, l.map (·.2)) := by
  induction rs with
  | nil => intro gens; rfl
  | cons r rs ih =>
    intro gens
    have h := ih (fun b => if b = r.gen then ((gens r.gen).use ops.values ⟨r.explicit, cnt⟩).1 else gens b)
    by_cases hr : r.gen = a
    · subst hr
      simp only [if_true] at h
      simp only [callInputs, List.filter_cons, beq_self_eq_true, if_true, List.map_cons, ScopedGen.uses]
      rw [h]
    · have hr' : (r.gen == a) = false := by simpa using hr
      simp only [if_neg (Ne.symm hr)] at h
      simp only [callInputs, List.filter_cons, hr', Bool.false_eq_true, if_false]
      exact h

theorem scanRow_other (ops : GenOps G) (mem : Mem) (a : Nat) (xs : List (Option Nat × Scanned)) :
    ∀ gens, (∀ x ∈ xs, x.1 ≠ some a) → scanRow ops mem gens xs a = gens a := by
  induction xs with
  | nil => intro gens _; rfl
  | cons x xs ih =>
    intro gens h
    obtain ⟨b, v⟩ := x
    cases b with
    | none => exact ih _ (fun y hy => h y (by simp [hy]))
    | some b =>
      have hb := h _ List.mem_cons_self
      simp only [scanRow]
      rw [ih _ (fun y hy => h y (by simp [hy]))]
      rw [if_neg (fun e => hb (by rw [e]))]

theorem scanRows_other (ops : GenOps G) (mem : Mem) (a : Nat) (outs : List (Option Nat)) (h : some a ∉ outs)
    (rows : List (List Scanned)) : ∀ gens, scanRows ops mem outs gens rows a = gens a := by
  induction rows with
  | nil => intro gens; rfl
  | cons r rows ih =>
    intro gens
    show scanRows ops mem outs (scanRow ops mem gens (outs.zip r)) rows a = _
    rw [ih, scanRow_other]
    intro x hx he
    obtain ⟨b, v⟩ := x
    dsimp only at he; subst he
    exact h (List.of_mem_zip hx).1

/-- The values of a generator that nothing is saved in are those of its uses in the order of the
history. -/
theorem hist_values (o : FmtOther) (ops : GenOps G) (cs : ClientNo → Cli) (made : GoMap Nat GenId)
    (g : GenStart G) (xs : List SIn) (a : Nat) (hns : NotSaved cs a) :
    let s := (Sess.init cs made g).run o ops cs xs
    (((Sess.init cs made g).gens a).uses ops.values ((usesIn a s.hist).map (·.1))) =
      (s.gens a, (usesIn a s.hist).map (·.2)) := by
  refine Sess.run_inv (o := o) (ops := ops) (cs := cs)
    (P := fun _ gens _ h => ((Sess.init cs made g).gens a).uses ops.values ((usesIn a h).map (·.1)) =
      (gens a, (usesIn a h).map (·.2))) ?_ ?_ xs (Sess.init cs made g) rfl
  · intro tr s x e h
    dsimp only at h ⊢
    cases e <;> try exact h
    case gen i cnt =>
      have hc := callInputs_uses ops cnt a ((((cs x.n).data[i]?).map (·.inputs)).getD []) s.gens
      dsimp only at hc
      simp only [Sess.event, usesIn, List.flatMap_append, List.map_append, List.flatMap_cons,
        List.flatMap_nil, List.append_nil] at h ⊢
      rw [ScopedGen.uses_append, h]
      simp only
      rw [hc]
    case exec i conn ps =>
      simp only [Sess.event, usesIn, List.flatMap_append, List.map_append, List.flatMap_cons,
        List.flatMap_nil, List.append_nil] at h ⊢
      exact h
    case insertId i =>
      simp only [Sess.event]
      rw [scanRow_other, h]
      intro y hy he
      simp only [List.mem_singleton] at hy
      subst hy
      dsimp only at he
      rw [Option.bind_eq_some_iff] at he
      obtain ⟨d, hd, hi⟩ := he
      exact (hns x.n d (List.mem_of_getElem? hd)).2 hi
  · intro tr s x h
    unfold Sess.readRows
    split
    · rename_i i hpc
      dsimp only
      rw [scanRows_other, h]
      cases hd : (cs x.n).data[i]? with
      | none => simp
      | some d => exact (hns x.n d (List.mem_of_getElem? hd)).1
    · exact h

/-- A history has no uses of a generator by other clients than `n`. -/
theorem usesIn_eq_usesOf (o : FmtOther) (ops : GenOps G) (cs : ClientNo → Cli) (made : GoMap Nat GenId)
    (g : GenStart G) (xs : List SIn) (a : Nat) (n : ClientNo)
    (hown : ∀ m, ∀ d ∈ (cs m).data, ∀ r ∈ d.inputs, r.gen = a → m = n) :
    (usesIn a ((Sess.init cs made g).run o ops cs xs).hist).map (·.1) =
      usesOf (cs n) a (CState.init.run (cs n) (answersTo n xs)).trace := by
  have h := Sess.run_inv (o := o) (ops := ops) (cs := cs)
    (P := fun tr _ _ h => (usesIn a h).map (·.1) = usesOf (cs n) a (tr n)) ?_ ?_ xs (Sess.init cs made g)
      (by simp [Sess.init, CState.init, usesIn, usesOf])
  · dsimp only at h ⊢
    rw [Sess.run_cli] at h
    exact h
  · intro tr s x e h
    dsimp only at h ⊢
    cases e
    case gen i cnt =>
      simp only [Sess.event, usesIn, List.flatMap_append, List.map_append, List.flatMap_cons,
        List.flatMap_nil, List.append_nil] at h ⊢
      rw [h]
      have hc := callInputs_refs ops cnt ((((cs x.n).data[i]?).map (·.inputs)).getD []) s.gens
      have hm : ((((callInputs ops cnt s.gens ((((cs x.n).data[i]?).map (·.inputs)).getD [])).2.filter
          (fun p => p.1.gen == a)).map fun p => ((⟨p.1.explicit, cnt⟩ : Use), p.2)).map (·.1)) =
          (((((cs x.n).data[i]?).map (·.inputs)).getD []).filter (fun r => r.gen == a)).map
            fun r => (⟨r.explicit, cnt⟩ : Use) := by
        generalize callInputs ops cnt s.gens _ = y at hc
        rw [← hc, List.filter_map, List.map_map, List.map_map]
        rfl
      rw [hm]
      by_cases hn : n = x.n
      · subst hn
        rw [if_pos rfl]
        simp [usesOf]
      · rw [if_neg hn]
        rw [show List.filter (fun r : InRef => r.gen == a) _ = [] from ?_]
        · simp
        rw [List.filter_eq_nil_iff]
        intro r hr hra
        cases hd : (cs x.n).data[i]? with
        | none => rw [hd] at hr; cases hr
        | some d =>
          rw [hd] at hr
          exact hn (hown x.n d (List.mem_of_getElem? hd) r hr (by simpa using hra)).symm
    all_goals
      simp only [Sess.event, usesIn, List.flatMap_append, List.map_append, List.flatMap_cons,
        List.flatMap_nil, List.append_nil] at h ⊢
      rw [h]
      split <;> simp [usesOf]
  · intro tr s x h; exact h

/-! ### Statements are sent with the values generated for them -/

/-- The last statement event of a client that is about to execute statement `i`. -/
def aboutToExec : CPc → Option Nat
  | .limit i | .exec i => some i
  | _ => none

/-- Spec: an execution follows the call of the value functions of the same statement. -/
def GenBeforeExec (l : List StmtEv) : Prop :=
  ∀ p i conn, l[p]? = some (.exec i conn) → ∃ q cnt, p = q + 1 ∧ l[q]? = some (.gen i cnt)

theorem GenBeforeExec.gen {l : List StmtEv} (h : GenBeforeExec l) (i : Nat) (cnt : RunCount) :
    GenBeforeExec (l ++ [.gen i cnt]) := by
  intro p j conn hp
  have hlt : p < l.length := by
    by_contra hge
    rw [List.getElem?_append_right (by omega)] at hp
    have : p - l.length = 0 := by
      by_contra hne
      rw [List.getElem?_eq_none (by simp; omega)] at hp; cases hp
    rw [this] at hp; cases hp
  rw [List.getElem?_append_left hlt] at hp
  obtain ⟨q, cnt', rfl, hq⟩ := h p j conn hp
  exact ⟨q, cnt', rfl, by rw [List.getElem?_append_left (by omega)]; exact hq⟩

theorem GenBeforeExec.exec {l : List StmtEv} (h : GenBeforeExec l) {i : Nat} {cnt : RunCount}
    (hl : l.getLast? = some (.gen i cnt)) (conn : Nat) : GenBeforeExec (l ++ [.exec i conn]) := by
  intro p j conn' hp
  by_cases hlt : p < l.length
  · rw [List.getElem?_append_left hlt] at hp
    obtain ⟨q, cnt', rfl, hq⟩ := h p j conn' hp
    exact ⟨q, cnt', rfl, by rw [List.getElem?_append_left (by omega)]; exact hq⟩
  · rw [List.getElem?_append_right (by omega)] at hp
    have h0 : p - l.length = 0 := by
      by_contra hne
      rw [List.getElem?_eq_none (by simp; omega)] at hp; cases hp
    rw [h0] at hp
    cases hp
    rw [List.getLast?_eq_getElem?] at hl
    have hpos : l.length - 1 < l.length := (List.getElem?_eq_some_iff.1 hl).1
    exact ⟨l.length - 1, cnt, by omega, by rw [List.getElem?_append_left hpos]; exact hl⟩

theorem genBeforeExec_run (c : Cli) (as : List Ans) :
    GenBeforeExec ((CState.init.run c as).trace.filterMap CEv.stmtEv) := by
  refine (CState.run_inv (c := c) (P := fun s => GenBeforeExec (s.trace.filterMap CEv.stmtEv) ∧
    ∀ i, aboutToExec s.pc = some i → ∃ cnt, (s.trace.filterMap CEv.stmtEv).getLast? = some (.gen i cnt))
    ?_ as CState.init ⟨by intro p i conn h; simp [CState.init] at h, by simp [CState.init, aboutToExec]⟩).1
  rintro s a s' h ⟨h1, h2⟩
  cases h
  case stmt i st d hpc hst hi hd =>
    have hw : (waitEv c st).filterMap CEv.stmtEv = [] := by
      unfold waitEv
      split <;> split <;> rfl
    dsimp only
    rw [List.filterMap_append, List.filterMap_append, hw]
    refine ⟨?_, ?_⟩
    · exact h1.gen _ _
    · intro j hj
      have : j = i := by
        revert hj
        split <;> simp [aboutToExec] <;> exact fun h => h.symm
      subst this
      exact ⟨_, List.getLast?_concat⟩
  case more i hpc hm =>
    refine ⟨h1, fun j hj => h2 j ?_⟩
    rw [hpc]; exact hj
  case execNoStats i st d hpc hst hd hstat =>
    obtain ⟨cnt, hc⟩ := h2 i (by rw [hpc]; rfl)
    refine ⟨?_, by simp [aboutToExec]⟩
    have := h1.exec hc (s.conn.getD 0)
    simpa [CEv.stmtEv, List.filterMap_cons] using this
  case execFail i st d stat code hpc hst hd hstat he =>
    obtain ⟨cnt, hc⟩ := h2 i (by rw [hpc]; rfl)
    refine ⟨?_, by simp [aboutToExec]⟩
    have := h1.exec hc (s.conn.getD 0)
    cases stat <;> simpa [List.filterMap_cons, CEv.stmtEv, recEv] using this
  case execRows i st d stat hpc hst hd hstat hc he hr =>
    obtain ⟨cnt, hc⟩ := h2 i (by rw [hpc]; rfl)
    refine ⟨?_, ?_⟩
    · have := h1.exec hc (s.conn.getD 0)
      cases stat <;> simpa [List.filterMap_cons, CEv.stmtEv, recEv] using this
    · intro j hj
      exfalso; revert hj
      dsimp only
      split <;> simp [aboutToExec]
  case execOk i st d stat hpc hst hd hstat hc he hr =>
    obtain ⟨cnt, hc⟩ := h2 i (by rw [hpc]; rfl)
    refine ⟨?_, by simp [aboutToExec]⟩
    have := h1.exec hc (s.conn.getD 0)
    have ho : (okEv st d i).filterMap CEv.stmtEv = [] := by
      unfold okEv; split <;> split <;> rfl
    cases stat <;> simpa [List.filterMap_cons, CEv.stmtEv, recEv, ho] using this
  case error i code stat hpc hstat =>
    have : (errEv stat a.ctxDone (code.getD 0)).filterMap CEv.stmtEv = [] := by
      unfold errEv; cases stat <;> cases a.ctxDone <;> rfl
    dsimp only
    rw [List.filterMap_append, this, List.append_nil]
    exact ⟨h1, by simp [aboutToExec]⟩
  case connFail => exact ⟨h1, h2⟩
  case stopped => exact ⟨h1, h2⟩
  all_goals
    refine ⟨?_, by simp [aboutToExec]⟩
    first
      | exact h1
      | (simpa [CEv.stmtEv, List.filterMap_cons] using h1)

/-- Spec: the values of statement `i` of client `n` after a history: what the value functions returned,
put one after another into the values of the execution before. -/
def valuesIn (n : ClientNo) (i : Nat) (init : List GoVal) (h : List SEv) : List GoVal :=
  h.foldl (fun v e => match e with
    | .gen m j _ vs => if n = m ∧ i = j then fillValues v (vs.map fun p => p.2.getD []) else v
    | _ => v) init

theorem hist_sent (o : FmtOther) (ops : GenOps G) (cs : ClientNo → Cli) (made : GoMap Nat GenId)
    (g : GenStart G) (xs : List SIn) {n : ClientNo} {p i conn : Nat} {w : Sent}
    (h : ((Sess.init cs made g).run o ops cs xs).hist[p]? = some (.sent n i conn w)) :
    ∃ ps, CEv.exec i conn ps ∈ (CState.init.run (cs n) (answersTo n xs)).trace ∧
      w = sentFor o (cs n) i ps (valuesIn n i ((Sess.init cs made g).vals n i)
        (((Sess.init cs made g).run o ops cs xs).hist.take p)) := by
  have h1 := Sess.run_inv (o := o) (ops := ops) (cs := cs)
    (P := fun tr _ vals h => (∀ n i, vals n i = valuesIn n i ((Sess.init cs made g).vals n i) h) ∧
      ∀ (p : Nat) (n : ClientNo) (i conn : Nat) (w : Sent), h[p]? = some (.sent n i conn w) → ∃ ps, CEv.exec i conn ps ∈ tr n ∧
        w = sentFor o (cs n) i ps (valuesIn n i ((Sess.init cs made g).vals n i) (h.take p)))
    ?_ ?_ xs (Sess.init cs made g) ⟨fun n i => rfl, by simp [Sess.init]⟩
  · obtain ⟨ps, h2, h3⟩ := h1.2 p n i conn w h
    dsimp only at h2
    rw [Sess.run_cli] at h2
    exact ⟨ps, h2, h3⟩
  · intro tr s x e h
    dsimp only at h ⊢
    obtain ⟨ha, hb⟩ := h
    have hb' : ∀ (e : CEv) (p : Nat) (n : ClientNo) (i conn : Nat) (w : Sent), s.hist[p]? = some (.sent n i conn w) →
        ∃ ps, CEv.exec i conn ps ∈ (if n = x.n then tr n ++ [e] else tr n) ∧
        w = sentFor o (cs n) i ps (valuesIn n i ((Sess.init cs made g).vals n i) (s.hist.take p)) := by
      intro e p n i conn w hp
      obtain ⟨ps, h2, h3⟩ := hb p n i conn w hp
      refine ⟨ps, ?_, h3⟩
      split
      · exact List.mem_append_left _ h2
      · exact h2
    have hone : ∀ (e : CEv) (v : SEv) (p : Nat) (n : ClientNo) (i conn : Nat) (w : Sent),
        (s.hist ++ [v])[p]? = some (.sent n i conn w) →
        (v = .sent n i conn w → ∃ ps, CEv.exec i conn ps ∈ (if n = x.n then tr n ++ [e] else tr n) ∧
          w = sentFor o (cs n) i ps (valuesIn n i ((Sess.init cs made g).vals n i) s.hist)) →
        ∃ ps, CEv.exec i conn ps ∈ (if n = x.n then tr n ++ [e] else tr n) ∧
        w = sentFor o (cs n) i ps (valuesIn n i ((Sess.init cs made g).vals n i) ((s.hist ++ [v]).take p)) := by
      intro e v p n i conn w hp hv
      by_cases hlt : p < s.hist.length
      · rw [List.getElem?_append_left hlt] at hp
        rw [List.take_append_of_le_length (by omega)]
        exact hb' e p n i conn w hp
      · rw [List.getElem?_append_right (by omega)] at hp
        have h0 : p - s.hist.length = 0 := by
          by_contra hne
          rw [List.getElem?_eq_none (by simp; omega)] at hp; cases hp
        rw [h0] at hp
        rw [show p = s.hist.length by omega, List.take_append_of_le_length (Nat.le_refl _), List.take_length]
        exact hv (by simpa using hp)
    cases e
    case gen i cnt =>
      simp only [Sess.event]
      refine ⟨?_, ?_⟩
      · intro n j
        rw [valuesIn, List.foldl_append]
        simp only [List.foldl_cons, List.foldl_nil]
        rw [ha n j]
        rfl
      · intro p n i conn w hp
        exact hone _ _ p n i conn w hp (by simp)
    case exec i conn ps =>
      simp only [Sess.event]
      refine ⟨?_, ?_⟩
      · intro n j
        rw [valuesIn, List.foldl_append]
        exact ha n j
      · intro p n j conn' w hp
        refine hone _ _ p n j conn' w hp ?_
        intro he
        simp only [SEv.sent.injEq] at he
        obtain ⟨rfl, rfl, rfl, rfl⟩ := he
        exact ⟨ps, by simp, by rw [ha]⟩
    all_goals
      exact ⟨ha, hb' _⟩
  · intro tr s x h; exact h

theorem fillValues_length {V : Type} (dst : List V) (vs : List (List V)) :
    (fillValues dst vs).length = dst.length := by
  rw [fillValues_eq]
  simp only [List.length_append, List.length_take, List.length_drop]
  omega

theorem valuesIn_length (n : ClientNo) (i : Nat) (init : List GoVal) (h : List SEv) :
    (valuesIn n i init h).length = init.length := by
  induction h using List.reverseRecOn with
  | nil => rfl
  | append_singleton h e ih =>
    rw [valuesIn, List.foldl_append]
    simp only [List.foldl_cons, List.foldl_nil]
    cases e with
    | gen m j cnt vs =>
      dsimp only
      split
      · rw [fillValues_length]; exact ih
      · exact ih
    | sent => exact ih

end Finch
