import Verif.Model.Joint
import Verif.Props.ClientOrder
import Verif.Props.IterLimits
import Verif.Props.Latency
/-!
C121: all clients of a stage together execute, and record, exactly what the iteration limits say.
-/
namespace Finch

open Finset

/-! ### What is recorded -/

/-- Spec: what a client recorded, in order: name of the trx and class. -/
def recorded (tr : List CEv) : List (String × EvClass) :=
  tr.filterMap fun | .record n k => some (n, k) | _ => none

/-- Spec: the class of a statement. -/
def classOf (x : Stmt) : EvClass :=
  if x.resultSet then .read else if x.write then .write else if x.commit then .commit else .total

theorem classSpec_iff {x : Stmt} {k : EvClass} : ClassSpec x k ↔ k = classOf x := by
  unfold classOf
  cases k <;> simp only [ClassSpec] <;> split <;> (try split) <;> (try split) <;> simp_all

/-- Each execution is followed by its record, and there are no others. -/
structure Paired (g : Nat → Option (String × EvClass)) (tr : List CEv) : Prop where
  fwd : ∀ (p i n : Nat) (ps : Option (Nat × Nat)), tr[p]? = some (.exec i n ps) →
    ∃ name k, g i = some (name, k) ∧ tr[p + 1]? = some (.record name k)
  bwd : ∀ (p : Nat) (name : String) (k : EvClass), tr[p + 1]? = some (.record name k) →
    ∃ i n ps, tr[p]? = some (.exec i n ps)
  first : ∀ name k, tr[0]? ≠ some (.record name k)

theorem Paired.tail {g : Nat → Option (String × EvClass)} {e : CEv} {tr : List CEv} (h : Paired g (e :: tr))
    (he : ∀ i n ps, e ≠ .exec i n ps) : Paired g tr where
  fwd p i n ps hp := by
    obtain ⟨name, k, h1, h2⟩ := h.fwd (p + 1) i n ps (by simpa using hp)
    exact ⟨name, k, h1, by simpa using h2⟩
  bwd p name k hp := by
    obtain ⟨i, n, ps, h1⟩ := h.bwd (p + 1) name k (by simpa using hp)
    exact ⟨i, n, ps, by simpa using h1⟩
  first name k hp := by
    obtain ⟨i, n, ps, h1⟩ := h.bwd 0 name k (by simpa using hp)
    exact he i n ps (by simpa using h1)

theorem Paired.recorded_eq {g : Nat → Option (String × EvClass)} : ∀ {tr : List CEv}, Paired g tr →
    recorded tr = (executed tr).filterMap g := by
  intro tr
  induction hn : tr.length using Nat.strong_induction_on generalizing tr with
  | _ m ih =>
    intro h
    cases tr with
    | nil => rfl
    | cons e tr =>
      by_cases he : ∃ i n ps, e = .exec i n ps
      · obtain ⟨i, n, ps, rfl⟩ := he
        obtain ⟨name, k, h1, h2⟩ := h.fwd 0 i n ps rfl
        cases tr with
        | nil => cases h2
        | cons e' tr =>
          have h2 : e' = .record name k := by simpa using h2
          subst h2
          have h3 : Paired g tr := by
            refine ⟨?_, ?_, ?_⟩
            · intro p i n ps hp
              obtain ⟨name, k, f1, f2⟩ := h.fwd (p + 2) i n ps (by simpa using hp)
              exact ⟨name, k, f1, by simpa using f2⟩
            · intro p name k hp
              obtain ⟨i, n, ps, f⟩ := h.bwd (p + 2) name k (by simpa using hp)
              exact ⟨i, n, ps, by simpa using f⟩
            · intro name k hp
              obtain ⟨i, n, ps, f⟩ := h.bwd 1 name k (by simpa using hp)
              simp at f
          have := ih tr.length (by rw [← hn]; simp; omega) rfl h3
          show (name, k) :: recorded tr = List.filterMap g (i :: executed tr)
          rw [List.filterMap_cons, h1, this]
      · have h3 := h.tail (fun i n ps hx => he ⟨i, n, ps, hx⟩)
        have := ih tr.length (by rw [← hn]; simp) rfl h3
        have e1 : recorded (e :: tr) = recorded tr := by
          cases e with
          | record name k => exact absurd rfl (h.first name k)
          | _ => rfl
        have e2 : executed (e :: tr) = executed tr := by
          cases e with
          | exec i n ps => exact absurd ⟨i, n, ps, rfl⟩ he
          | _ => rfl
        rw [e1, e2, this]

/-- Spec: what a client that is allocated for a client group records in one iteration: every statement that
is not an idle entry, in order, under the name of its trx. -/
def perIteration (stmts : GoMap String (List Stmt)) (trx : List String) : List (String × EvClass) :=
  trx.flatMap fun n => ((((stmts n).getD []).filter fun x => x.idle = 0).map fun x => (n, classOf x))


theorem filterMap_range {α β : Type} (l : List α) (f : α → Option β) :
    (List.range l.length).filterMap (fun i => l[i]?.bind f) = l.filterMap f := by
  induction l with
  | nil => rfl
  | cons x xs ih =>
    rw [List.length_cons, List.range_succ_eq_map, List.filterMap_cons, List.filterMap_map, List.filterMap_cons]
    have : (List.range xs.length).filterMap ((fun i => (x :: xs)[i]?.bind f) ∘ Nat.succ) =
        xs.filterMap f := by
      rw [← ih]
      apply List.filterMap_congr
      intro i _
      rfl
    rw [this]
    rfl

theorem pairs_at {stmts : GoMap String (List Stmt)} {trx : List String} : ∀ {i : Nat} {n : String} {x : Stmt},
    (trx.flatMap fun n => ((stmts n).getD []).map fun x => (n, x))[i]? = some (n, x) →
    ∃ t q, StmtPos stmts trx i t q n x := by
  induction trx with
  | nil => intro i n x h; simp at h
  | cons y ys ih =>
    intro i n x h
    rw [List.flatMap_cons] at h
    by_cases hlt : i < ((stmts y).getD []).length
    · rw [List.getElem?_append_left (by simpa using hlt), List.getElem?_map] at h
      obtain ⟨z, hz, he⟩ := Option.map_eq_some_iff.mp h
      cases he
      exact ⟨0, i, rfl, hz, by simp⟩
    · rw [List.getElem?_append_right (by simpa using hlt)] at h
      obtain ⟨t, q, h1, h2, h3⟩ := ih h
      refine ⟨t + 1, q, by simpa using h1, h2, ?_⟩
      rw [List.take_succ_cons, List.flatMap_cons, List.length_append]
      rw [List.length_map] at h3
      omega

/-- What a client with these trx records for its statements, by number. -/
theorem busy_perIteration {c : Cli} {stmts : GoMap String (List Stmt)} {trx : List String}
    {g : Nat → Option (String × EvClass)} (hs : c.statements = trx.flatMap fun n => (stmts n).getD [])
    (hg : ∀ i t q name x, StmtPos stmts trx i t q name x → g i = some (name, classOf x)) :
    (busyIdx c).filterMap g = perIteration stmts trx := by
  let pairs := trx.flatMap fun n => ((stmts n).getD []).map fun x => (n, x)
  have hmap : c.statements = pairs.map (·.2) := by
    rw [hs, List.map_flatMap]
    congr 1
    funext n
    rw [List.map_map]
    exact (List.map_id _).symm
  have h1 : (busyIdx c).filterMap g = (List.range pairs.length).filterMap fun i => pairs[i]?.bind
      fun p => if p.2.idle = 0 then some (p.1, classOf p.2) else none := by
    unfold busyIdx
    rw [List.filterMap_filter, hmap, List.length_map]
    apply List.filterMap_congr
    intro i hi
    rw [List.mem_range] at hi
    obtain ⟨t, q, hp⟩ := pairs_at (stmts := stmts) (trx := trx) (i := i) (n := pairs[i].1) (x := pairs[i].2)
      (List.getElem?_eq_getElem hi)
    have hb : isBusy c i = decide (pairs[i].2.idle = 0) := by
      unfold isBusy
      rw [hmap, List.getElem?_map, List.getElem?_eq_getElem hi]
      rfl
    rw [hb, hg _ _ _ _ _ hp, List.getElem?_eq_getElem hi]
    simp
  rw [h1, filterMap_range]
  unfold perIteration
  show (List.flatMap _ _).filterMap _ = _
  rw [List.filterMap_flatMap]
  congr 1
  funext n
  rw [List.filterMap_map, ← List.filterMap_eq_map, List.filterMap_filter]
  apply List.filterMap_congr
  intro x _
  simp [Function.comp]

/-- A client none of whose statements failed or has a data limit, and that stopped regularly, has executed
all its statements in order as often as it has begun an iteration. -/
theorem executed_regular {c : Cli} (as : List Ans) (hlim : ∀ st ∈ c.statements, st.limit = none)
    (hok : ∀ i code, CEv.failed i code ∉ (CState.init.run c as).trace)
    (hstop : (CState.init.run c as).pc = .stopped .regular) :
    executed (CState.init.run c as).trace =
      (List.replicate (CState.init.run c as).iter (busyIdx c)).flatten := by
  obtain ⟨done, cur, i1, i2, i3, i4⟩ := orderInv_run c as
  rw [hstop] at i4
  rcases i4 with ⟨rfl, hl⟩ | ⟨i, st, -, hst, hs⟩
  · have hall := over_of_no_fail c.statements.length done [] 1 i1 (by
      intro i
      rw [Option.toList_none] at i2
      rw [← i2]
      exact no_fail_order hok i)
    rw [executed_order c _ (C119_idle c as), i2]
    simp only [Option.toList_none, List.append_nil] at i3 ⊢
    rw [hall, i3]
    exact exec_iters c done.length 1
  · rw [hlim st (List.mem_of_getElem? hst)] at hs; cases hs

theorem filterMap_replicate_flatten {α β : Type} (f : α → Option β) (n : Nat) (l : List α) :
    ((List.replicate n l).flatten).filterMap f = (List.replicate n (l.filterMap f)).flatten := by
  induction n with
  | zero => rfl
  | succ n ih => rw [List.replicate_succ, List.replicate_succ, List.flatten_cons, List.flatten_cons,
      List.filterMap_append, ih]

/-- **C121, one client.** A client allocated for a client group with statistics, from trx files that do not
begin with an idle entry: if it has stopped by itself, none of its statements failed and none has a data
limit, then what it has recorded is: for each iteration it has begun, each of its statements in order, under
the name of its trx and its class. -/
theorem C121_client_partial {env : WEnv} {w : List CGCfg} {q t : Nat} {s : DataScope}
    {groups : List (List Nat)} {st : WState} {res : List (List ACGroup)} (hne : NoEmptyTrx env w)
    (hidle : ∀ cg ∈ w, ∀ n ∈ cg.trx, ∀ x, ((env.stmts n).getD [])[0]? = some x → x.idle = 0)
    (h : allocClients env w q t s groups = .ok (st, res)) {e j c : Nat} {a : AClient} {cg : CGCfg}
    (ha : ClientAt res e j c a) (hcg : CfgAt w groups e j cg) (hw : env.withStats = true)
    (hd : cg.disableStats = false) (hlim : ∀ n ∈ cg.trx, ∀ x ∈ (env.stmts n).getD [], x.limit = none)
    (tbl : GoMap Nat Nat) (as : List Ans)
    (hok : ∀ i code, CEv.failed i code ∉ (CState.init.run (a.cli tbl) as).trace)
    (hstop : (CState.init.run (a.cli tbl) as).pc = .stopped .regular) :
    recorded (CState.init.run (a.cli tbl) as).trace =
      (List.replicate (CState.init.run (a.cli tbl) as).iter (perIteration env.stmts cg.trx)).flatten := by
  obtain ⟨cg', h1, -, hcok⟩ := allocClients_at hne h ha
  obtain ⟨cg'', h1', h2, h3⟩ := C48_own_trx hne h ha tbl
  have heq : ∀ y, CfgAt w groups e j y → y = cg := by
    rintro y ⟨g1, r1, a1, a2, a3⟩
    obtain ⟨g2, r2, b1, b2, b3⟩ := hcg
    rw [a1] at b1; cases b1
    rw [a2] at b2; cases b2
    rw [a3] at b3; cases b3
    rfl
  rw [heq _ h1'] at h2 h3
  rw [heq _ h1] at hcok
  have hrec := C48_recorded_once_partial (a.cli tbl) (C48_no_idle_first hne hidle h ha tbl) as
  let g : Nat → Option (String × EvClass) := fun i =>
    match statOf (a.cli tbl) i, a.statements[i]? with
    | some (some name), some x => some (name, classOf x)
    | _, _ => none
  have hg : ∀ i t q name x, StmtPos env.stmts cg.trx i t q name x → g i = some (name, classOf x) := by
    intro i t q name x hp
    obtain ⟨e1, e2⟩ := h3 i t q name x hp
    simp only [g, e1, e2, hw, hd]
    rfl
  have hpair : Paired g (CState.init.run (a.cli tbl) as).trace := by
    refine ⟨?_, ?_, ?_⟩
    · intro p i n ps hp
      have hb : isBusy (a.cli tbl) i = true := C119_idle (a.cli tbl) as _ (List.mem_of_getElem? hp)
      unfold isBusy at hb
      split at hb
      · rename_i x hx
        have hx : a.statements[i]? = some x := hx
        obtain ⟨t, q, name, hpos⟩ := h2 i x hx
        have hs := (h3 i t q name x hpos).2
        rw [hw, hd] at hs
        obtain ⟨y, k, f1, f2, f3⟩ := hrec.fwd p i n ps name hp hs
        have f1 : a.statements[i]? = some y := f1
        rw [hx] at f1
        cases f1
        refine ⟨name, k, ?_, f3⟩
        rw [hg i t q name x hpos, classSpec_iff.mp f2]
      · cases hb
    · intro p name k hp
      obtain ⟨q, i, n, ps, x, e1, e2, -⟩ := hrec.bwd (p + 1) name k hp
      cases e1
      exact ⟨i, n, ps, e2⟩
    · intro name k hp
      obtain ⟨q, i, n, ps, x, e1, -⟩ := hrec.bwd 0 name k hp
      cases e1
  rw [hpair.recorded_eq, executed_regular as ?_ hok hstop, filterMap_replicate_flatten,
    busy_perIteration hcok.statements hg]
  intro x hx
  have hx : x ∈ a.statements := hx
  rw [hcok.statements] at hx
  obtain ⟨n, hn, hx⟩ := List.mem_flatMap.mp hx
  exact hlim n hn x hx

/-! ### All clients -/

theorem Joint.run_inv {tbl : GoMap Nat Nat} {cs : List AClient} {P : Joint → Prop}
    (hstep : ∀ s k a, P s → P (s.step tbl cs k a)) (l : List (Nat × Ans)) :
    ∀ s, P s → P (s.run tbl cs l) := by
  induction l with
  | nil => intro s h; exact h
  | cons x l ih => intro s h; exact ih _ (hstep s x.1 x.2 h)

/-- A step of one client does not change the others. -/
theorem Joint.step_other (tbl : GoMap Nat Nat) (cs : List AClient) (s : Joint) {k j : Nat} (a : Ans) (h : j ≠ k) :
    (s.step tbl cs k a).cl j = s.cl j ∧ (s.step tbl cs k a).ph j = s.ph j := by
  unfold Joint.step
  split
  · exact ⟨rfl, rfl⟩
  · dsimp only
    split
    · split <;> (try split) <;> simp [Joint.go, upd_ne _ _ h]
    · simp [Joint.go, upd_ne _ _ h]

/-- What happens in a step to the client that makes it: nothing, or a step of its own. -/
theorem Joint.step_self (tbl : GoMap Nat Nat) {cs : List AClient} (s : Joint) {k : Nat} {x : AClient} (a : Ans)
    (hx : cs[k]? = some x) : (s.step tbl cs k a).cl k = s.cl k ∨
      ∃ b, (s.step tbl cs k a).cl k = (s.cl k).step (x.cli tbl) b := by
  unfold Joint.step
  rw [hx]
  dsimp only
  split
  · split <;> (try split) <;> simp [Joint.go, upd_same]
  · right; exact ⟨_, by simp [Joint.go, upd_same]; rfl⟩

/-- Each client does what it could do alone. -/
theorem Joint.client_run (tbl : GoMap Nat Nat) {cs : List AClient} (l : List (Nat × Ans)) {k : Nat} {x : AClient}
    (hx : cs[k]? = some x) : ∃ as, (Joint.init.run tbl cs l).cl k = CState.init.run (x.cli tbl) as := by
  refine Joint.run_inv (P := fun s => ∃ as, s.cl k = CState.init.run (x.cli tbl) as) ?_ l Joint.init ⟨[], rfl⟩
  rintro s j a ⟨as, h⟩
  by_cases hj : k = j
  · subst hj
    rcases Joint.step_self tbl s a hx with h1 | ⟨b, h1⟩
    · exact ⟨as, h1.trans h⟩
    · refine ⟨as ++ [b], ?_⟩
      rw [h1, h]
      simp [CState.run]
  · exact ⟨as, ((Joint.step_other tbl cs s a hj).1).trans h⟩

/-- The iterations limit `L` with counter `p` is the only limit of a client, for the client group or for the
execution group. -/
def OnlyLimit (x : AClient) (L p : Nat) : Prop :=
  x.iter = 0 ∧ ((x.iterClients = some (L, p) ∧ x.iterExecGroup = none) ∨
    (x.iterClients = none ∧ x.iterExecGroup = some (L, p)))

/-- A client does not use the counter `p`. -/
def NoUse (x : AClient) (p : Nat) : Prop :=
  (∀ n, x.iterClients ≠ some (n, p)) ∧ ∀ n, x.iterExecGroup ≠ some (n, p)

theorem addIter_other {o : Option (Nat × Nat)} {ctr : Nat → Nat} {p : Nat} (h : ∀ n, o ≠ some (n, p)) :
    (addIter o ctr).1 p = ctr p := by
  unfold addIter
  split
  · rfl
  · rename_i lim p'
    split
    · refine upd_ne _ _ ?_
      rintro rfl
      exact h lim rfl
    · rfl

theorem step_noUse (tbl : GoMap Nat Nat) {cs : List AClient} (s : Joint) {k p : Nat} {x : AClient} (a : Ans)
    (hx : cs[k]? = some x) (h : NoUse x p) : (s.step tbl cs k a).ctr p = s.ctr p := by
  unfold Joint.step
  rw [hx]
  dsimp only
  split
  · split <;> (try split) <;> simp only [Joint.go, addIter_other h.1, addIter_other h.2]
  · rfl

theorem addIter_le {lim q : Nat} {ctr : Nat → Nat} (h : (addIter (some (lim, q)) ctr).2.2 = false) :
    (addIter (some (lim, q)) ctr).2.1 ≤ lim := by
  unfold addIter at h ⊢
  dsimp only at h ⊢
  split
  · rename_i hp
    rw [if_pos hp] at h
    simpa using h
  · exact Nat.zero_le _

/-- What holds of a client without data limits whatever it does. -/
structure ClInv (x : AClient) (s : Joint) (k : Nat) : Prop where
  eg : ∀ n lim q, (s.ph k = .eg n ∨ ∃ m, s.ph k = .cg n m) → x.iterExecGroup = some (lim, q) → n ≤ lim
  cg : ∀ n m lim q, s.ph k = .cg n m → x.iterClients = some (lim, q) → m ≤ lim
  ph : s.ph k ≠ .start → (s.cl k).pc = .head
  limit : ∀ i, (s.cl k).pc ≠ .limit i

theorem noLimit_step {c : Cli} (hl : ∀ st ∈ c.statements, st.limit = none) {s : CState} (a : Ans)
    (h : ∀ i, s.pc ≠ .limit i) : ∀ i, (s.step c a).pc ≠ .limit i := by
  intro i hi
  have hstep := CState.step_cases c s a
  generalize s.step c a = s' at hstep hi
  cases hstep
  case stmt i' st d hpc hst hidle hd =>
    have := hl st (List.mem_of_getElem? hst)
    rw [this] at hi
    simp at hi
  case execRows =>
    revert hi
    dsimp only
    split <;> simp
  case stopped hpc => exact h i hi
  case connFail hpc hc ho => exact h i hi
  case more hpc hm => exact h _ hpc
  all_goals cases hi

/-- Away from the loop head a client begins no iteration and, without data limits, does not stop regularly. -/
theorem away_step {c : Cli} {s : CState} (a : Ans) (h : ∀ i, s.pc ≠ .limit i) (hh : s.pc ≠ .head) :
    (s.step c a).iter = s.iter ∧ ((s.step c a).pc = .stopped .regular ↔ s.pc = .stopped .regular) := by
  have hstep := CState.step_cases c s a
  generalize s.step c a = s' at hstep
  cases hstep
  case limits hpc _ => exact absurd hpc hh
  case iterate hpc _ => exact absurd hpc hh
  case noMore hpc _ => exact absurd hpc (h _)
  case more hpc _ => exact absurd hpc (h _)
  case ctxStop hc hpc =>
    refine ⟨rfl, by simp, fun hx => ?_⟩
    rcases hpc with ⟨_, h⟩ | ⟨_, h⟩ | ⟨_, h⟩ <;> (rw [h] at hx; cases hx)
  case stmt i st d hpc hst hidle hd =>
    refine ⟨rfl, ?_⟩
    rw [hpc]
    dsimp only
    split <;> simp
  case execRows i st d stat hpc _ _ _ _ _ _ =>
    refine ⟨rfl, ?_⟩
    rw [hpc]
    dsimp only
    split <;> simp
  case stopped => exact ⟨rfl, Iff.rfl⟩
  case connFail => exact ⟨rfl, Iff.rfl⟩
  all_goals (refine ⟨rfl, ?_⟩; simp_all)

/-- In the loop head a client stops or begins an iteration. -/
theorem head_step {c : Cli} {s : CState} (a : Ans) (hh : s.pc = .head) :
    (((c.iterExecGroup > 0 ∧ a.egCount > c.iterExecGroup) ∨ (c.iterClients > 0 ∧ a.cgCount > c.iterClients) ∨
        (c.iter > 0 ∧ s.iter = c.iter)) ∧ (s.step c a).pc = .stopped .regular ∧ (s.step c a).iter = s.iter) ∨
    (¬ ((c.iterExecGroup > 0 ∧ a.egCount > c.iterExecGroup) ∨ (c.iterClients > 0 ∧ a.cgCount > c.iterClients) ∨
        (c.iter > 0 ∧ s.iter = c.iter)) ∧ (s.step c a).pc = .stmt 0 ∧ (s.step c a).iter = s.iter + 1) := by
  have hstep := CState.step_cases c s a
  generalize s.step c a = s' at hstep
  cases hstep
  case limits _ hl => exact Or.inl ⟨hl, rfl, rfl⟩
  case iterate _ hl => exact Or.inr ⟨hl, rfl, rfl⟩
  case ctxStop hc hpc => rcases hpc with ⟨_, h⟩ | ⟨_, h⟩ | ⟨_, h⟩ <;> (rw [h] at hh; cases hh)
  all_goals simp_all

theorem clInv_step (tbl : GoMap Nat Nat) {cs : List AClient} (s : Joint) {k : Nat} {x : AClient} (j : Nat) (a : Ans)
    (hx : cs[k]? = some x) (hl : ∀ st ∈ x.statements, st.limit = none) (h : ClInv x s k) :
    ClInv x (s.step tbl cs j a) k := by
  by_cases hj : k = j
  · subst hj
    have hlim : ∀ i, ((s.step tbl cs k a).cl k).pc ≠ .limit i := by
      rcases Joint.step_self tbl s a hx with h1 | ⟨b, h1⟩
      · rw [h1]; exact h.limit
      · rw [h1]; exact noLimit_step hl b h.limit
    have key : (∀ n lim q, ((s.step tbl cs k a).ph k = .eg n ∨ ∃ m, (s.step tbl cs k a).ph k = .cg n m) →
          x.iterExecGroup = some (lim, q) → n ≤ lim) ∧
        (∀ n m lim q, (s.step tbl cs k a).ph k = .cg n m → x.iterClients = some (lim, q) → m ≤ lim) ∧
        ((s.step tbl cs k a).ph k ≠ .start → ((s.step tbl cs k a).cl k).pc = .head) := by
      unfold Joint.step
      rw [hx]
      dsimp only
      split
      · rename_i hh
        split
        · split
          · simp [Joint.go, upd_same]
          · rename_i hno
            simp only [upd_same, HPh.eg.injEq, reduceCtorEq, exists_false, or_false, ne_eq, not_false_eq_true,
              forall_const, hh, and_true, false_imp_iff]
            intro n lim q hn hq
            subst hn
            rw [hq] at hno ⊢
            exact addIter_le (by simpa using hno)
        · rename_i n hph
          split
          · simp [Joint.go, upd_same]
          · rename_i hno
            simp only [upd_same, HPh.cg.injEq, reduceCtorEq, false_or, ne_eq, not_false_eq_true,
              forall_const, hh, and_true]
            refine ⟨?_, ?_⟩
            · rintro n' lim q ⟨m, rfl, -⟩ hq
              exact h.eg n lim q (Or.inl hph) hq
            · rintro n' m lim q ⟨-, rfl⟩ hq
              rw [hq] at hno ⊢
              exact addIter_le (by simpa using hno)
        · simp [Joint.go, upd_same]
      · simp [Joint.go, upd_same]
    exact ⟨key.1, key.2.1, key.2.2, hlim⟩
  · obtain ⟨h1, h2⟩ := Joint.step_other tbl cs s a hj
    exact ⟨by rw [h2]; exact h.eg, by rw [h2]; exact h.cg, by rw [h1, h2]; exact h.ph, by rw [h1]; exact h.limit⟩

/-- Iterations begun or about to begin. -/
def jointW (cs : List AClient) (L p : Nat) (s : Joint) (k : Nat) : Nat :=
  match cs[k]? with
  | none => 0
  | some x =>
    if x.iterExecGroup = some (L, p) then (s.cl k).iter + (match s.ph k with | .start => 0 | _ => 1)
    else if x.iterClients = some (L, p) then (s.cl k).iter + (match s.ph k with | .cg _ _ => 1 | _ => 0)
    else 0

/-- Stopped by the limit. -/
def jointSt (cs : List AClient) (L p : Nat) (s : Joint) (k : Nat) : Nat :=
  match cs[k]? with
  | none => 0
  | some x =>
    if (x.iterExecGroup = some (L, p) ∨ x.iterClients = some (L, p)) ∧ (s.cl k).pc = .stopped .regular then 1 else 0

theorem exact_noUse (tbl : GoMap Nat Nat) {cs : List AClient} {s : Joint} {k L p : Nat} {x : AClient} (a : Ans)
    (hx : cs[k]? = some x) (h : NoUse x p) :
    ExactStep L (s.ctr p) ((s.step tbl cs k a).ctr p) (jointW cs L p s k) (jointW cs L p (s.step tbl cs k a) k)
      (jointSt cs L p s k) (jointSt cs L p (s.step tbl cs k a) k) := by
  refine .other (step_noUse tbl s a hx h) ?_ ?_
  · simp only [jointW, hx, if_neg (h.1 L), if_neg (h.2 L)]
  · simp only [jointSt, hx, h.1 L, h.2 L, or_self, false_and, if_false]

theorem exact_only (tbl : GoMap Nat Nat) {cs : List AClient} {s : Joint} {k L p : Nat} {x : AClient} (a : Ans)
    (hx : cs[k]? = some x) (h : OnlyLimit x L p) (hpos : 0 < L) (hi : ClInv x s k) :
    ExactStep L (s.ctr p) ((s.step tbl cs k a).ctr p) (jointW cs L p s k) (jointW cs L p (s.step tbl cs k a) k)
      (jointSt cs L p s k) (jointSt cs L p (s.step tbl cs k a) k) := by
  obtain ⟨h0, h⟩ := h
  by_cases hh : (s.cl k).pc = .head
  · have hns : (s.cl k).pc ≠ .stopped .regular := by rw [hh]; simp
    rcases h with ⟨hc, he⟩ | ⟨hc, he⟩
    · -- client group
      have c1 : (x.cli tbl).iterExecGroup = 0 := by simp [AClient.cli, he]
      have c2 : (x.cli tbl).iterClients = L := by simp [AClient.cli, hc]
      have c3 : (x.cli tbl).iter = 0 := h0
      have hw : jointW cs L p s k = (s.cl k).iter + (match s.ph k with | .cg _ _ => 1 | _ => 0) := by
        simp [jointW, hx, he, hc]
      have hst : jointSt cs L p s k = 0 := by simp [jointSt, hx, hns]
      cases hph : s.ph k with
      | start =>
        have hs : s.step tbl cs k a = { s with ph := upd s.ph k (.eg 0) } := by
          simp [Joint.step, hx, hh, hph, he, addIter]
        rw [hs]
        refine .other rfl ?_ ?_
        · rw [hw, hph]; simp [jointW, hx, he, hc, upd_same]
        · rfl
      | eg n =>
        by_cases hgt : u32 (s.ctr p + 1) > L
        · have hs : s.step tbl cs k a = { s with ctr := upd s.ctr p (u32 (s.ctr p + 1)) }.go (x.cli tbl) k a n
              (u32 (s.ctr p + 1)) := by
            simp [Joint.step, hx, hh, hph, hc, addIter, hpos, hgt]
          rcases head_step (c := x.cli tbl) (s := s.cl k) { a with egCount := n, cgCount := u32 (s.ctr p + 1) } hh with
            ⟨-, g1, g2⟩ | ⟨g, -⟩
          · rw [hs]
            refine .reject (by simp [Joint.go, upd_same]) (by simpa [Joint.go, upd_same] using hgt) ?_ hst ?_
            · rw [hw, hph]; simp [jointW, hx, he, hc, Joint.go, upd_same, g2]
            · simp [jointSt, hx, hc, Joint.go, upd_same, g1]
          · exact absurd (Or.inr (Or.inl ⟨by rw [c2]; exact hpos, by rw [c2]; exact hgt⟩)) g
        · have hs : s.step tbl cs k a = { s with ctr := upd s.ctr p (u32 (s.ctr p + 1)),
                                                 ph := upd s.ph k (.cg n (u32 (s.ctr p + 1))) } := by
            simp [Joint.step, hx, hh, hph, hc, addIter, hpos, hgt]
          rw [hs]
          refine .pass (by simp [upd_same]) (by simpa [upd_same] using hgt) ?_ hst ?_
          · rw [hw, hph]; simp [jointW, hx, he, hc, upd_same]
          · simp [jointSt, hx, hns]
      | cg n m =>
        have hs : s.step tbl cs k a = s.go (x.cli tbl) k a n m := by
          simp [Joint.step, hx, hh, hph]
        rcases head_step (c := x.cli tbl) (s := s.cl k) { a with egCount := n, cgCount := m } hh with
          ⟨g, -⟩ | ⟨-, g1, g2⟩
        · rw [c1, c2, c3] at g
          have := hi.cg n m L p hph hc
          exfalso
          rcases g with g | g | g
          · omega
          · have := g.2; dsimp only at this; omega
          · omega
        · rw [hs]
          refine .other rfl ?_ ?_
          · rw [hw, hph]; simp [jointW, hx, he, hc, Joint.go, upd_same, g2]
          · rw [hst]; simp [jointSt, hx, Joint.go, upd_same, g1]
    · -- execution group
      have c1 : (x.cli tbl).iterExecGroup = L := by simp [AClient.cli, he]
      have c2 : (x.cli tbl).iterClients = 0 := by simp [AClient.cli, hc]
      have c3 : (x.cli tbl).iter = 0 := h0
      have hw : jointW cs L p s k = (s.cl k).iter + (match s.ph k with | .start => 0 | _ => 1) := by
        simp [jointW, hx, he]
      have hst : jointSt cs L p s k = 0 := by simp [jointSt, hx, hns]
      cases hph : s.ph k with
      | start =>
        by_cases hgt : u32 (s.ctr p + 1) > L
        · have hs : s.step tbl cs k a = { s with ctr := upd s.ctr p (u32 (s.ctr p + 1)) }.go (x.cli tbl) k a
              (u32 (s.ctr p + 1)) 0 := by
            simp [Joint.step, hx, hh, hph, he, addIter, hpos, hgt]
          rcases head_step (c := x.cli tbl) (s := s.cl k) { a with egCount := u32 (s.ctr p + 1), cgCount := 0 } hh with
            ⟨-, g1, g2⟩ | ⟨g, -⟩
          · rw [hs]
            refine .reject (by simp [Joint.go, upd_same]) (by simpa [Joint.go, upd_same] using hgt) ?_ hst ?_
            · rw [hw, hph]; simp [jointW, hx, he, Joint.go, upd_same, g2]
            · simp [jointSt, hx, he, Joint.go, upd_same, g1]
          · exact absurd (Or.inl ⟨by rw [c1]; exact hpos, by rw [c1]; exact hgt⟩) g
        · have hs : s.step tbl cs k a = { s with ctr := upd s.ctr p (u32 (s.ctr p + 1)),
                                                 ph := upd s.ph k (.eg (u32 (s.ctr p + 1))) } := by
            simp [Joint.step, hx, hh, hph, he, addIter, hpos, hgt]
          rw [hs]
          refine .pass (by simp [upd_same]) (by simpa [upd_same] using hgt) ?_ hst ?_
          · rw [hw, hph]; simp [jointW, hx, he, upd_same]
          · simp [jointSt, hx, hns]
      | eg n =>
        have hs : s.step tbl cs k a = { s with ph := upd s.ph k (.cg n 0) } := by
          simp [Joint.step, hx, hh, hph, hc, addIter]
        rw [hs]
        refine .other rfl ?_ ?_
        · rw [hw, hph]; simp [jointW, hx, he, upd_same]
        · rfl
      | cg n m =>
        have hs : s.step tbl cs k a = s.go (x.cli tbl) k a n m := by
          simp [Joint.step, hx, hh, hph]
        rcases head_step (c := x.cli tbl) (s := s.cl k) { a with egCount := n, cgCount := m } hh with
          ⟨g, -⟩ | ⟨-, g1, g2⟩
        · rw [c1, c2, c3] at g
          have := hi.eg n L p (Or.inr ⟨m, hph⟩) he
          exfalso
          rcases g with g | g | g
          · have := g.2; dsimp only at this; omega
          · omega
          · omega
        · rw [hs]
          refine .other rfl ?_ ?_
          · rw [hw, hph]; simp [jointW, hx, he, Joint.go, upd_same, g2]
          · rw [hst]; simp [jointSt, hx, Joint.go, upd_same, g1]
  · obtain ⟨g1, g2⟩ := away_step (c := x.cli tbl) { a with egCount := 0, cgCount := 0 } hi.limit hh
    have hph : s.ph k = .start := by
      by_contra hne
      exact hh (hi.ph hne)
    have hs : s.step tbl cs k a = s.go (x.cli tbl) k a 0 0 := by
      simp [Joint.step, hx, hh]
    rw [hs]
    refine .other rfl ?_ ?_
    · simp [jointW, hx, Joint.go, upd_same, g1, hph]
    · simp [jointSt, hx, Joint.go, upd_same, g2]

/-- Spec: the iterations that the clients for which `u` holds have begun together. -/
def begunBy (cs : List AClient) (u : AClient → Prop) [DecidablePred u] (s : Joint) : Nat :=
  ∑ k ∈ range cs.length, match cs[k]? with
    | some x => if u x then (s.cl k).iter else 0
    | none => 0

theorem joint_exact (tbl : GoMap Nat Nat) (cs : List AClient) (L p : Nat) (hpos : 0 < L)
    (hN : L + cs.length < 2 ^ 32)
    (hK : ∀ x ∈ cs, NoUse x p ∨ (OnlyLimit x L p ∧ ∀ st ∈ x.statements, st.limit = none))
    (u : AClient → Prop) (hu : ∀ x ∈ cs, u x ↔ ¬ NoUse x p) (l : List (Nat × Ans)) :
    CountExact cs.length L ((Joint.init.run tbl cs l).ctr p) (jointW cs L p (Joint.init.run tbl cs l))
        (jointSt cs L p (Joint.init.run tbl cs l)) ∧
      ∀ (k : Nat) x, cs[k]? = some x → u x → ClInv x (Joint.init.run tbl cs l) k := by
  refine Joint.run_inv (tbl := tbl) (cs := cs)
    (P := fun s => CountExact cs.length L (s.ctr p) (jointW cs L p s) (jointSt cs L p s) ∧
      ∀ (k : Nat) x, cs[k]? = some x → u x → ClInv x s k) ?_ l Joint.init ?_
  · rintro s k a ⟨hce, hinv⟩
    refine ⟨?_, ?_⟩
    · cases hx : cs[k]? with
      | none =>
        have : s.step tbl cs k a = s := by simp [Joint.step, hx]
        rw [this]; exact hce
      | some x =>
        have hk : k < cs.length := (List.getElem?_eq_some_iff.mp hx).1
        have hm := List.mem_of_getElem? hx
        refine CountExact.step hN ?_ hk ?_ ?_ hce ?_
        · intro j; unfold jointSt; split
          · omega
          · split <;> omega
        · intro j hj
          obtain ⟨o1, o2⟩ := Joint.step_other tbl cs s a hj
          simp only [jointW, o1, o2]
        · intro j hj
          obtain ⟨o1, o2⟩ := Joint.step_other tbl cs s a hj
          simp only [jointSt, o1]
        · rcases hK x hm with h | ⟨h, -⟩
          · exact exact_noUse tbl a hx h
          · refine exact_only tbl a hx h hpos (hinv k x hx ((hu x hm).mpr ?_))
            intro hno
            rcases h.2 with h | h
            · exact hno.1 L h.1
            · exact hno.2 L h.2
    · intro j x hx hux
      rcases hK x (List.mem_of_getElem? hx) with h | ⟨-, h⟩
      · exact absurd h ((hu x (List.mem_of_getElem? hx)).mp hux)
      · exact clInv_step tbl s k a hx h (hinv j x hx hux)
  · refine ⟨⟨?_, ?_, ?_⟩, ?_⟩
    · have : ∀ k ∈ range cs.length, jointW cs L p Joint.init k = 0 := by
        intro k _
        unfold jointW
        split
        · rfl
        · split
          · rfl
          · split <;> rfl
      rw [sum_eq_zero this]
      simp [Joint.init]
    · have : ∀ k ∈ range cs.length, jointSt cs L p Joint.init k = 0 := by
        intro k _
        unfold jointSt
        split
        · rfl
        · simp [Joint.init, CState.init]
      rw [sum_eq_zero this]
      simp
    · simp [Joint.init]
    · intro k x _ _
      refine ⟨?_, ?_, ?_, ?_⟩ <;> simp [Joint.init, CState.init]

/-- **C121, shared limits.** Some of the clients of a stage share a counter of iterations and have no other
limit. Whatever all clients do, in any order, and whatever fails: when all clients that share the counter
have stopped and at least one of them did not stop because of an error or because the run was cancelled,
they have together begun exactly as many iterations as the limit says. -/
theorem C121_shared_limit (tbl : GoMap Nat Nat) (cs : List AClient) (L p : Nat) (hpos : 0 < L)
    (hN : L + cs.length < 2 ^ 32)
    (hK : ∀ x ∈ cs, NoUse x p ∨ (OnlyLimit x L p ∧ ∀ st ∈ x.statements, st.limit = none))
    (u : AClient → Prop) [DecidablePred u] (hu : ∀ x ∈ cs, u x ↔ ¬ NoUse x p) (l : List (Nat × Ans))
    (hstop : ∀ (k : Nat) x, cs[k]? = some x → u x → ∃ e, ((Joint.init.run tbl cs l).cl k).pc = .stopped e)
    (hreg : ∃ (k : Nat) (x : AClient), cs[k]? = some x ∧ u x ∧
      ((Joint.init.run tbl cs l).cl k).pc = .stopped .regular) :
    begunBy cs u (Joint.init.run tbl cs l) = L := by
  obtain ⟨key, hinv⟩ := joint_exact tbl cs L p hpos hN hK u hu l
  generalize Joint.init.run tbl cs l = s at *
  have huse : ∀ (k : Nat) x, cs[k]? = some x → u x → x.iterExecGroup = some (L, p) ∨ x.iterClients = some (L, p) := by
    intro k x hx hux
    rcases hK x (List.mem_of_getElem? hx) with h | ⟨⟨-, h⟩, -⟩
    · exact absurd h ((hu x (List.mem_of_getElem? hx)).mp hux)
    · rcases h with h | h
      · exact Or.inr h.1
      · exact Or.inl h.2
  have h1 : L < s.ctr p := key.stopped (by
    obtain ⟨k, x, hx, hux, hp⟩ := hreg
    have hk : k < cs.length := (List.getElem?_eq_some_iff.mp hx).1
    refine sum_pos' (fun _ _ => Nat.zero_le _) ⟨k, mem_range.mpr hk, ?_⟩
    simp [jointSt, hx, huse k x hx hux, hp])
  have h2 := key.count
  rw [Nat.min_eq_right (by omega)] at h2
  rw [← h2]
  refine sum_congr rfl (fun k hk => ?_)
  rw [mem_range] at hk
  have hx : cs[k]? = some cs[k] := List.getElem?_eq_getElem hk
  unfold jointW
  rw [hx]
  dsimp only
  generalize cs[k] = x at hx
  by_cases hux : u x
  · rw [if_pos hux]
    obtain ⟨e, he⟩ := hstop k x hx hux
    have hph : s.ph k = .start := by
      by_contra hne
      rw [(hinv k x hx hux).ph hne] at he
      cases he
    rw [hph]
    rcases huse k x hx hux with h | h
    · rw [if_pos h]; rfl
    · rw [if_pos h]; split <;> rfl
  · rw [if_neg hux]
    have hno : NoUse x p := by
      by_contra hc
      exact hux ((hu x (List.mem_of_getElem? hx)).mpr hc)
    rw [if_neg (hno.2 L), if_neg (hno.1 L)]

/-! ### It ends -/

/-- A bound of the steps that client `k` still makes, with those in the loop head. -/
def jointSteps (c : Cli) (N : Nat) (s : Joint) (k : Nat) : Nat :=
  3 * stepsTo c N (s.cl k) - (match s.ph k with | .start => 0 | .eg _ => 1 | .cg _ _ => 2)

theorem stepsTo_head (c : Cli) (N : Nat) {s : CState} (h : s.pc = .head) : 0 < stepsTo c N s := by
  simp only [stepsTo, h]; omega

theorem jointSteps_step (tbl : GoMap Nat Nat) {cs : List AClient} {s : Joint} {k N : Nat} {x : AClient} {a : Ans}
    (hx : cs[k]? = some x) (hw : GoesOk a) (hs : WellInv (x.cli tbl) N (s.cl k))
    (hN : ((s.step tbl cs k a).cl k).iter ≤ N) :
    WellInv (x.cli tbl) N ((s.step tbl cs k a).cl k) ∧
      ((s.cl k).pc.isStopped = true ∨ jointSteps (x.cli tbl) N (s.step tbl cs k a) k < jointSteps (x.cli tbl) N s k) := by
  have hgo : ∀ (s0 : Joint) (n m : Nat), s0.cl = s.cl → s0.ph = s.ph →
      s.step tbl cs k a = s0.go (x.cli tbl) k a n m →
      WellInv (x.cli tbl) N ((s.step tbl cs k a).cl k) ∧
      ((s.cl k).pc.isStopped = true ∨
        jointSteps (x.cli tbl) N (s.step tbl cs k a) k < jointSteps (x.cli tbl) N s k) := by
    intro s0 n m h1 h2 h3
    have e1 : (s.step tbl cs k a).cl k = (s.cl k).step (x.cli tbl) { a with egCount := n, cgCount := m } := by
      rw [h3]; simp [Joint.go, upd_same, h1]
    have e2 : (s.step tbl cs k a).ph k = .start := by rw [h3]; simp [Joint.go, upd_same]
    rw [e1] at hN
    obtain ⟨i1, i2⟩ := WellInv.step (a := { a with egCount := n, cgCount := m }) hw (CState.step_cases _ _ _) hN hs
    rw [e1]
    refine ⟨i1, ?_⟩
    rcases i2 with i2 | i2
    · exact Or.inl i2
    · right
      unfold jointSteps
      rw [e1, e2]
      dsimp only
      split <;> omega
  unfold Joint.step at hgo ⊢
  rw [hx] at hgo ⊢
  dsimp only at hgo ⊢
  split
  · rename_i hh
    rw [if_pos hh] at hgo
    have hp := stepsTo_head (x.cli tbl) N hh
    split
    · rename_i hph
      rw [hph] at hgo
      dsimp only at hgo
      split
      · rename_i hc
        rw [if_pos hc] at hgo
        exact hgo { s with ctr := (addIter x.iterExecGroup s.ctr).1 } _ _ rfl rfl rfl
      · refine ⟨hs, Or.inr ?_⟩
        simp only [jointSteps, upd_same, hph]
        omega
    · rename_i n hph
      rw [hph] at hgo
      dsimp only at hgo
      split
      · rename_i hc
        rw [if_pos hc] at hgo
        exact hgo { s with ctr := (addIter x.iterClients s.ctr).1 } _ _ rfl rfl rfl
      · refine ⟨hs, Or.inr ?_⟩
        simp only [jointSteps, upd_same, hph]
        omega
    · rename_i n m hph
      rw [hph] at hgo
      exact hgo _ _ _ rfl rfl rfl
  · rename_i hh
    rw [if_neg hh] at hgo
    exact hgo _ _ _ rfl rfl rfl

theorem Joint.run_append (tbl : GoMap Nat Nat) (cs : List AClient) (s : Joint) (l l' : List (Nat × Ans)) :
    s.run tbl cs (l ++ l') = (s.run tbl cs l).run tbl cs l' := List.foldl_append

theorem stopped_stays (tbl : GoMap Nat Nat) {cs : List AClient} {s : Joint} {k : Nat} (j : Nat) (a : Ans)
    (h : (s.cl k).pc.isStopped = true) : ((s.step tbl cs j a).cl k).pc.isStopped = true := by
  by_cases hj : k = j
  · subst hj
    cases hx : cs[k]? with
    | none =>
      have : s.step tbl cs k a = s := by simp [Joint.step, hx]
      rw [this]; exact h
    | some x =>
      rcases Joint.step_self tbl s a hx with h1 | ⟨b, h1⟩
      · rw [h1]; exact h
      · have e : (s.cl k).step (x.cli tbl) b = s.cl k := by
          unfold CState.step
          revert h
          cases (s.cl k).pc <;> simp [CPc.isStopped]
        rw [h1, e]; exact h
  · rw [(Joint.step_other tbl cs s a hj).1]; exact h

/-- **C121, it ends.** A client that shares a counter of iterations with others and has no other limit: when
everything goes well for it (whatever happens to the others, and whatever they do), it stops by itself after a
number of steps of its own that is known beforehand, none of its statements having failed. -/
theorem C121_shared_ends (tbl : GoMap Nat Nat) (cs : List AClient) (L p : Nat) (hpos : 0 < L)
    (hN : L + cs.length < 2 ^ 32)
    (hK : ∀ x ∈ cs, NoUse x p ∨ (OnlyLimit x L p ∧ ∀ st ∈ x.statements, st.limit = none))
    (l : List (Nat × Ans)) {k : Nat} {x : AClient} (hx : cs[k]? = some x) (hux : ¬ NoUse x p)
    (hsound : SoundCli (x.cli tbl)) (hw : ∀ y ∈ l, y.1 = k → GoesWell y.2)
    (hlen : 3 * (L * (4 * x.statements.length + 2) + x.statements.length + 7) < l.countP fun y => y.1 = k) :
    ((Joint.init.run tbl cs l).cl k).pc = .stopped .regular ∧
      ∀ i code, CEv.failed i code ∉ ((Joint.init.run tbl cs l).cl k).trace := by
  have hiter : ∀ l, ((Joint.init.run tbl cs l).cl k).iter ≤ L := by
    intro l
    obtain ⟨h1, -⟩ := joint_exact tbl cs L p hpos hN hK (fun x => ¬ NoUse x p) (fun _ _ => Iff.rfl) l
    have hk : k < cs.length := (List.getElem?_eq_some_iff.mp hx).1
    have h2 : jointW cs L p (Joint.init.run tbl cs l) k ≤ ∑ c ∈ range cs.length, jointW cs L p (Joint.init.run tbl cs l) c :=
      single_le_sum (f := jointW cs L p (Joint.init.run tbl cs l)) (fun _ _ => Nat.zero_le _) (mem_range.mpr hk)
    rw [h1.count] at h2
    have h3 : ((Joint.init.run tbl cs l).cl k).iter ≤ jointW cs L p (Joint.init.run tbl cs l) k := by
      unfold jointW
      rw [hx]
      dsimp only
      rcases hK x (List.mem_of_getElem? hx) with h | ⟨⟨-, h⟩, -⟩
      · exact absurd h hux
      · split
        · exact Nat.le_add_right _ _
        · split
          · exact Nat.le_add_right _ _
          · rename_i f1 f2
            rcases h with h | h
            · exact absurd h.1 f2
            · exact absurd h.2 f1
    omega
  have key : ∀ l : List (Nat × Ans), (∀ y ∈ l, y.1 = k → GoesWell y.2) →
      WellInv (x.cli tbl) L ((Joint.init.run tbl cs l).cl k) ∧
      (((Joint.init.run tbl cs l).cl k).pc.isStopped = true ∨
        jointSteps (x.cli tbl) L (Joint.init.run tbl cs l) k + l.countP (fun y => y.1 = k) ≤
          jointSteps (x.cli tbl) L Joint.init k) := by
    intro l
    induction l using List.reverseRecOn with
    | nil => intro _; exact ⟨⟨rfl, Nat.zero_le _, by simp [Joint.run, Joint.init, CState.init]⟩, Or.inr (Nat.le_refl _)⟩
    | append_singleton l y ih =>
      intro hw
      obtain ⟨i1, i2⟩ := ih (fun z hz => hw z (by simp [hz]))
      have hit := hiter (l ++ [y])
      have hinv := (joint_exact tbl cs L p hpos hN hK (fun x => ¬ NoUse x p) (fun _ _ => Iff.rfl) l).2 k x hx hux
      rw [Joint.run_append] at hit ⊢
      generalize Joint.init.run tbl cs l = s at *
      have e : s.run tbl cs [y] = s.step tbl cs y.1 y.2 := rfl
      rw [e] at hit ⊢
      rw [List.countP_append, List.countP_singleton]
      by_cases hy : y.1 = k
      · obtain ⟨j1, j2⟩ := jointSteps_step tbl hx (hw y (by simp) hy).ok i1 (by rw [hy] at hit; exact hit)
        rw [hy]
        refine ⟨j1, ?_⟩
        rcases i2 with i2 | i2
        · exact Or.inl (stopped_stays tbl k y.2 i2)
        · rcases j2 with j2 | j2
          · exact Or.inl (stopped_stays tbl k y.2 j2)
          · right; simp; omega
      · obtain ⟨o1, o2⟩ := Joint.step_other tbl cs s y.2 (Ne.symm hy)
        have o3 : jointSteps (x.cli tbl) L (s.step tbl cs y.1 y.2) k = jointSteps (x.cli tbl) L s k := by
          unfold jointSteps; rw [o1, o2]
        rw [o1, o3]
        simpa [hy] using ⟨i1, i2⟩
  obtain ⟨h1, h2⟩ := key l hw
  refine ⟨?_, h1.ok⟩
  rcases h2 with h2 | h2
  · obtain ⟨as, has⟩ := Joint.client_run tbl l hx
    have hnp := C119_no_panic_partial (x.cli tbl) hsound as
    rw [← has] at hnp
    have hp := h1.pc
    revert h2 hnp hp
    cases ((Joint.init.run tbl cs l).cl k).pc with
    | stopped e =>
      intro _ hnp hp
      rcases hp with rfl | rfl
      · rfl
      · exact absurd rfl hnp
    | _ => intro h2; cases h2
  · exfalso
    have : jointSteps (x.cli tbl) L Joint.init k =
      3 * ((L - 0) * (4 * x.statements.length + 2) + 1 + x.statements.length + 6) - 0 := rfl
    rw [this, Nat.sub_zero, Nat.sub_zero] at h2
    omega

/-! ### Clients that are allocated -/

/-- Spec: all clients of a stage, in the order of allocation. -/
def stageClients (res : List (List ACGroup)) : List AClient := res.flatten.flatMap (·.clients)

/-- Spec: a client of client group `j` of execution group `e` (counted from 0). -/
def InGroup (e j : Nat) (x : AClient) : Prop := x.rl.execGroup = e + 1 ∧ x.rl.clientGroup = j + 1

instance (e j : Nat) : DecidablePred (InGroup e j) := fun x => by unfold InGroup; infer_instance

/-- Spec: a client of execution group `e` (counted from 0). -/
def InExecGroup (e : Nat) (x : AClient) : Prop := x.rl.execGroup = e + 1

instance (e : Nat) : DecidablePred (InExecGroup e) := fun x => by unfold InExecGroup; infer_instance

theorem mem_stageClients {res : List (List ACGroup)} {x : AClient} (h : x ∈ stageClients res) :
    ∃ e j c, ClientAt res e j c x := by
  obtain ⟨acg, h1, h2⟩ := List.mem_flatMap.mp h
  obtain ⟨cgs, h3, h4⟩ := List.mem_flatten.mp h1
  obtain ⟨e, he⟩ := List.mem_iff_getElem?.mp h3
  obtain ⟨j, hj⟩ := List.mem_iff_getElem?.mp h4
  obtain ⟨c, hc⟩ := List.mem_iff_getElem?.mp h2
  exact ⟨e, j, c, cgs, acg, he, hj, hc⟩

theorem cfgAt_eq {w : List CGCfg} {groups : List (List Nat)} {e j : Nat} {a b : CGCfg}
    (ha : CfgAt w groups e j a) (hb : CfgAt w groups e j b) : a = b := by
  obtain ⟨g1, r1, a1, a2, a3⟩ := ha
  obtain ⟨g2, r2, b1, b2, b3⟩ := hb
  rw [a1] at b1; cases b1
  rw [a2] at b2; cases b2
  rw [a3] at b3; cases b3
  rfl

theorem sharedIter_ptr {n p lim q : Nat} (h : sharedIter n p = some (lim, q)) : q = p := by
  unfold sharedIter at h
  split at h
  · cases h; rfl
  · cases h

theorem sharedIter_pos {n p : Nat} (h : 0 < n) (hn : n < 2 ^ 32) : sharedIter n p = some (n, p) := by
  unfold sharedIter
  rw [if_pos h, Nat.mod_eq_of_lt hn]

/-- The counters of different groups are different. -/
theorem ptr_distinct {w : List CGCfg} {groups : List (List Nat)} {e j e' j' : Nat} {a b : CGCfg}
    (ha : CfgAt w groups e j a) (hb : CfgAt w groups e' j' b) :
    (egPtr groups e + 1 + j = egPtr groups e' + 1 + j' → e = e' ∧ j = j') ∧
    egPtr groups e' ≠ egPtr groups e + 1 + j ∧ (egPtr groups e = egPtr groups e' → e = e') := by
  obtain ⟨g, hg, hj⟩ := cfgAt_lt ha
  obtain ⟨g', hg', hj'⟩ := cfgAt_lt hb
  rcases Nat.lt_trichotomy e e' with hlt | rfl | hgt
  · have := egPtr_mono hlt hg hj
    omega
  · refine ⟨fun h => ⟨rfl, by omega⟩, by omega, fun _ => rfl⟩
  · have := egPtr_mono hgt hg' hj'
    omega

/-- The clients of a group whose only limit is iter-clients, and the others. -/
theorem group_only {env : WEnv} {w : List CGCfg} {q t : Nat} {s : DataScope}
    {groups : List (List Nat)} {st : WState} {res : List (List ACGroup)} (hne : NoEmptyTrx env w)
    (h : allocClients env w q t s groups = .ok (st, res)) {e j : Nat} {cg : CGCfg} (hcg : CfgAt w groups e j cg)
    (hlim : ∀ n ∈ cg.trx, ∀ x ∈ (env.stmts n).getD [], x.limit = none)
    (h1 : finchUint cg.iter = 0) (h2 : finchUint cg.iterExecGroup = 0) (h3 : 0 < finchUint cg.iterClients)
    (h4 : finchUint cg.iterClients < 2 ^ 32) {x : AClient} (hx : x ∈ stageClients res) :
    (InGroup e j x ∧ OnlyLimit x (finchUint cg.iterClients) (egPtr groups e + 1 + j) ∧
      ∀ st ∈ x.statements, st.limit = none) ∨
    (¬ InGroup e j x ∧ NoUse x (egPtr groups e + 1 + j)) := by
  obtain ⟨e', j', c', hat⟩ := mem_stageClients hx
  obtain ⟨cg', hcg', -, hok⟩ := allocClients_at hne h hat
  obtain ⟨d1, d2, -⟩ := ptr_distinct hcg hcg'
  by_cases hin : e = e' ∧ j = j'
  · left
    obtain ⟨rfl, rfl⟩ := hin
    cases cfgAt_eq hcg hcg'
    refine ⟨by rw [InGroup, hok.at_]; exact ⟨rfl, rfl⟩, ⟨hok.iter.trans h1, Or.inl ⟨?_, ?_⟩⟩, ?_⟩
    · rw [hok.iterClients]; exact sharedIter_pos h3 (by omega)
    · rw [hok.iterExecGroup, h2]; rfl
    · intro y hy
      rw [hok.statements] at hy
      obtain ⟨n, hn, hy⟩ := List.mem_flatMap.mp hy
      exact hlim n hn y hy
  · right
    refine ⟨?_, ?_, ?_⟩
    · rw [InGroup, hok.at_]
      intro hc
      exact hin ⟨by have := hc.1; dsimp only at this; omega, by have := hc.2; dsimp only at this; omega⟩
    · intro n hn
      rw [hok.iterClients] at hn
      exact hin (d1 (sharedIter_ptr hn))
    · intro n hn
      rw [hok.iterExecGroup] at hn
      exact d2 (sharedIter_ptr hn).symm

/-- **C121, iter-clients.** A client group whose only limit is iter-clients, with trx files without data
limits, in any workload. Whatever all clients of the stage do, in any order, and whatever fails: when all
clients of this group have stopped and at least one of them did not stop because of an error or because the
run was cancelled, they have together begun exactly as many iterations as iter-clients says. -/
theorem C121_iter_clients {env : WEnv} {w : List CGCfg} {q t : Nat} {s : DataScope}
    {groups : List (List Nat)} {st : WState} {res : List (List ACGroup)} (hne : NoEmptyTrx env w)
    (h : allocClients env w q t s groups = .ok (st, res)) {e j : Nat} {cg : CGCfg} (hcg : CfgAt w groups e j cg)
    (hlim : ∀ n ∈ cg.trx, ∀ x ∈ (env.stmts n).getD [], x.limit = none)
    (h1 : finchUint cg.iter = 0) (h2 : finchUint cg.iterExecGroup = 0) (h3 : 0 < finchUint cg.iterClients)
    (h4 : finchUint cg.iterClients + (stageClients res).length < 2 ^ 32)
    (tbl : GoMap Nat Nat) (l : List (Nat × Ans))
    (hstop : ∀ (k : Nat) x, (stageClients res)[k]? = some x → InGroup e j x →
      ∃ r, ((Joint.init.run tbl (stageClients res) l).cl k).pc = .stopped r)
    (hreg : ∃ (k : Nat) (x : AClient), (stageClients res)[k]? = some x ∧ InGroup e j x ∧
      ((Joint.init.run tbl (stageClients res) l).cl k).pc = .stopped .regular) :
    begunBy (stageClients res) (InGroup e j) (Joint.init.run tbl (stageClients res) l) = finchUint cg.iterClients := by
  have hcase := fun x hx => group_only hne h hcg hlim h1 h2 h3 (by omega) (x := x) hx
  refine C121_shared_limit tbl (stageClients res) _ (egPtr groups e + 1 + j) h3 h4 ?_ (InGroup e j) ?_ l hstop hreg
  · intro x hx
    rcases hcase x hx with ⟨-, h5⟩ | ⟨-, h5⟩
    · exact Or.inr h5
    · exact Or.inl h5
  · intro x hx
    rcases hcase x hx with ⟨h5, ⟨-, h6⟩, -⟩ | ⟨h5, h6⟩
    · refine iff_of_true h5 (fun hno => ?_)
      rcases h6 with h6 | h6
      · exact hno.1 _ h6.1
      · exact hno.2 _ h6.2
    · exact iff_of_false h5 (fun hc => hc h6)

/-- **C121, iter-exec-group.** The same for an execution group whose client groups have the same limit
iter-exec-group and no other. -/
theorem C121_iter_exec_group {env : WEnv} {w : List CGCfg} {q t : Nat} {s : DataScope}
    {groups : List (List Nat)} {st : WState} {res : List (List ACGroup)} (hne : NoEmptyTrx env w)
    (h : allocClients env w q t s groups = .ok (st, res)) {e L : Nat} (hL : 0 < L)
    (hlim : ∀ j cg, CfgAt w groups e j cg → (∀ n ∈ cg.trx, ∀ x ∈ (env.stmts n).getD [], x.limit = none) ∧
      finchUint cg.iter = 0 ∧ finchUint cg.iterClients = 0 ∧ finchUint cg.iterExecGroup = L)
    (h4 : L + (stageClients res).length < 2 ^ 32) (tbl : GoMap Nat Nat) (l : List (Nat × Ans))
    (hstop : ∀ (k : Nat) x, (stageClients res)[k]? = some x → InExecGroup e x →
      ∃ r, ((Joint.init.run tbl (stageClients res) l).cl k).pc = .stopped r)
    (hreg : ∃ (k : Nat) (x : AClient), (stageClients res)[k]? = some x ∧ InExecGroup e x ∧
      ((Joint.init.run tbl (stageClients res) l).cl k).pc = .stopped .regular) :
    begunBy (stageClients res) (InExecGroup e) (Joint.init.run tbl (stageClients res) l) = L := by
  have hcase : ∀ x ∈ stageClients res,
      (InExecGroup e x ∧ OnlyLimit x L (egPtr groups e) ∧ ∀ st ∈ x.statements, st.limit = none) ∨
      (¬ InExecGroup e x ∧ NoUse x (egPtr groups e)) := by
    obtain ⟨k0, x0, hx0, hin0, -⟩ := hreg
    obtain ⟨e0, j0, c0, hat0⟩ := mem_stageClients (List.mem_of_getElem? hx0)
    obtain ⟨cg0, hcg0, -, hok0⟩ := allocClients_at hne h hat0
    have he0 : e0 = e := by
      rw [InExecGroup, hok0.at_] at hin0
      dsimp only at hin0
      omega
    subst he0
    intro x hx
    obtain ⟨e', j', c', hat⟩ := mem_stageClients hx
    obtain ⟨cg', hcg', -, hok⟩ := allocClients_at hne h hat
    by_cases hin : e0 = e'
    · left
      subst hin
      obtain ⟨f1, f2, f3, f4⟩ := hlim j' cg' hcg'
      refine ⟨by rw [InExecGroup, hok.at_], ⟨hok.iter.trans f2, Or.inr ⟨?_, ?_⟩⟩, ?_⟩
      · rw [hok.iterClients, f3]; rfl
      · rw [hok.iterExecGroup, f4]; exact sharedIter_pos hL (by omega)
      · intro y hy
        rw [hok.statements] at hy
        obtain ⟨n, hn, hy⟩ := List.mem_flatMap.mp hy
        exact f1 n hn y hy
    · right
      refine ⟨?_, ?_, ?_⟩
      · rw [InExecGroup, hok.at_]
        intro hc
        dsimp only at hc
        omega
      · intro n hn
        rw [hok.iterClients] at hn
        exact (ptr_distinct hcg' hcg0).2.1 (sharedIter_ptr hn)
      · intro n hn
        rw [hok.iterExecGroup] at hn
        exact hin ((ptr_distinct hcg0 hcg').2.2 (sharedIter_ptr hn))
  refine C121_shared_limit tbl (stageClients res) L (egPtr groups e) hL h4 ?_ (InExecGroup e) ?_ l hstop hreg
  · intro x hx
    rcases hcase x hx with ⟨-, h5⟩ | ⟨-, h5⟩
    · exact Or.inr h5
    · exact Or.inl h5
  · intro x hx
    rcases hcase x hx with ⟨h5, ⟨-, h6⟩, -⟩ | ⟨h5, h6⟩
    · refine iff_of_true h5 (fun hno => ?_)
      rcases h6 with h6 | h6
      · exact hno.1 _ h6.1
      · exact hno.2 _ h6.2
    · exact iff_of_false h5 (fun hc => hc h6)

/-- Spec: how often a query of trx `name` and class `cls` was recorded by the clients for which `u` holds. -/
def recordedBy (cs : List AClient) (u : AClient → Prop) [DecidablePred u] (s : Joint) (name : String)
    (cls : EvClass) : Nat :=
  ∑ k ∈ range cs.length, match cs[k]? with
    | some x => if u x then (recorded (s.cl k).trace).count (name, cls) else 0
    | none => 0

/-- **C121, what a client group records.** When all clients of a client group have stopped by themselves and no
statement failed, then the number of queries recorded by them together, for any trx and any class, is the
number of iterations that they have begun together times the number of statements of that class in the trx
(for each time the trx is listed). -/
theorem C121_group_records_partial {env : WEnv} {w : List CGCfg} {q t : Nat} {s : DataScope}
    {groups : List (List Nat)} {st : WState} {res : List (List ACGroup)} (hne : NoEmptyTrx env w)
    (hidle : ∀ cg ∈ w, ∀ n ∈ cg.trx, ∀ x, ((env.stmts n).getD [])[0]? = some x → x.idle = 0)
    (h : allocClients env w q t s groups = .ok (st, res)) {e j : Nat} {cg : CGCfg} (hcg : CfgAt w groups e j cg)
    (hw : env.withStats = true) (hd : cg.disableStats = false)
    (hlim : ∀ n ∈ cg.trx, ∀ x ∈ (env.stmts n).getD [], x.limit = none)
    (tbl : GoMap Nat Nat) (l : List (Nat × Ans))
    (hreg : ∀ (k : Nat) (x : AClient), (stageClients res)[k]? = some x → InGroup e j x →
      ((Joint.init.run tbl (stageClients res) l).cl k).pc = .stopped .regular ∧
      ∀ i code, CEv.failed i code ∉ ((Joint.init.run tbl (stageClients res) l).cl k).trace)
    (name : String) (cls : EvClass) :
    recordedBy (stageClients res) (InGroup e j) (Joint.init.run tbl (stageClients res) l) name cls =
      begunBy (stageClients res) (InGroup e j) (Joint.init.run tbl (stageClients res) l) *
        (perIteration env.stmts cg.trx).count (name, cls) := by
  unfold recordedBy begunBy
  rw [sum_mul]
  refine sum_congr rfl (fun k hk => ?_)
  rw [mem_range] at hk
  have hx : (stageClients res)[k]? = some (stageClients res)[k] := List.getElem?_eq_getElem hk
  rw [hx]
  dsimp only
  generalize (stageClients res)[k] = x at hx
  by_cases hin : InGroup e j x
  · rw [if_pos hin, if_pos hin]
    obtain ⟨r1, r2⟩ := hreg k x hx hin
    obtain ⟨as, has⟩ := Joint.client_run tbl l hx
    rw [has] at r1 r2 ⊢
    obtain ⟨e', j', c', hat⟩ := mem_stageClients (List.mem_of_getElem? hx)
    obtain ⟨cg', hcg', -, hok⟩ := allocClients_at hne h hat
    have hej : e' = e ∧ j' = j := by
      rw [InGroup, hok.at_] at hin
      dsimp only at hin
      omega
    obtain ⟨rfl, rfl⟩ := hej
    rw [C121_client_partial hne hidle h hat hcg hw hd hlim tbl as r2 r1]
    generalize (CState.init.run (x.cli tbl) as).iter = n
    rw [List.count_flatten, List.map_replicate]
    simp
  · rw [if_neg hin, if_neg hin, Nat.zero_mul]

/-- **C121, iter.** A client group whose only limit is `iter`: a client of it that has stopped by itself, none
of whose statements failed, has recorded exactly `iter` times all its statements, in order. -/
theorem C121_iter_partial {env : WEnv} {w : List CGCfg} {q t : Nat} {s : DataScope}
    {groups : List (List Nat)} {st : WState} {res : List (List ACGroup)} (hne : NoEmptyTrx env w)
    (hidle : ∀ cg ∈ w, ∀ n ∈ cg.trx, ∀ x, ((env.stmts n).getD [])[0]? = some x → x.idle = 0)
    (h : allocClients env w q t s groups = .ok (st, res)) {e j c : Nat} {a : AClient} {cg : CGCfg}
    (ha : ClientAt res e j c a) (hcg : CfgAt w groups e j cg) (hw : env.withStats = true)
    (hd : cg.disableStats = false) (hlim : ∀ n ∈ cg.trx, ∀ x ∈ (env.stmts n).getD [], x.limit = none)
    (h1 : finchUint cg.iterClients = 0) (h2 : finchUint cg.iterExecGroup = 0)
    (tbl : GoMap Nat Nat) (as : List Ans)
    (hok : ∀ i code, CEv.failed i code ∉ (CState.init.run (a.cli tbl) as).trace)
    (hstop : (CState.init.run (a.cli tbl) as).pc = .stopped .regular) :
    recorded (CState.init.run (a.cli tbl) as).trace =
      (List.replicate (finchUint cg.iter) (perIteration env.stmts cg.trx)).flatten := by
  rw [C121_client_partial hne hidle h ha hcg hw hd hlim tbl as hok hstop]
  obtain ⟨cg', hcg', -, hcok⟩ := allocClients_at hne h ha
  cases cfgAt_eq hcg hcg'
  have c1 : (a.cli tbl).iterClients = 0 := by simp [AClient.cli, hcok.iterClients, h1, sharedIter]
  have c2 : (a.cli tbl).iterExecGroup = 0 := by simp [AClient.cli, hcok.iterExecGroup, h2, sharedIter]
  have c3 : (a.cli tbl).iter = finchUint cg.iter := hcok.iter
  obtain ⟨done, cur, -, -, -, i4⟩ := orderInv_run (a.cli tbl) as
  rw [hstop] at i4
  rcases i4 with ⟨-, hl⟩ | ⟨i, x, -, hst, hs⟩
  · rcases hl with h | h | h
    · omega
    · omega
    · rw [h.2, c3]
  · have hx : x ∈ a.statements := List.mem_of_getElem? hst
    rw [hcok.statements] at hx
    obtain ⟨n, hn, hx⟩ := List.mem_flatMap.mp hx
    rw [hlim n hn x hx] at hs
    cases hs

/-- **C121, completes.** A client group whose only limit is iter-clients, with trx files without data limits that do
not begin with an idle entry. When everything goes well for its clients, and each makes enough steps, in any order
among themselves and with all other clients of the stage, whatever these do and whatever happens to them: then all
clients of the group have stopped by themselves, they have together begun exactly as many iterations as iter-clients
says, and the number of queries recorded by them, for any trx and any class, is that number times the number of
statements of that class in the trx (for each time the trx is listed). -/
theorem C121_completes_partial {env : WEnv} {w : List CGCfg} {q t : Nat} {s : DataScope}
    {groups : List (List Nat)} {st : WState} {res : List (List ACGroup)} {tfs : List TrxFile}
    {set : TrxSet} {keys : GoMap String TKey} (hl : loadTrx ⟨[], GoMap.empty, GoMap.empty, keys⟩ tfs = .ok set)
    (hs : env.stmts = set.statements) (hne : NoEmptyTrx env w)
    (hidle : ∀ cg ∈ w, ∀ n ∈ cg.trx, ∀ x, ((env.stmts n).getD [])[0]? = some x → x.idle = 0)
    (h : allocClients env w q t s groups = .ok (st, res)) {e j : Nat} {cg : CGCfg} (hcg : CfgAt w groups e j cg)
    (hw : env.withStats = true) (hd : cg.disableStats = false)
    (hlim : ∀ n ∈ cg.trx, ∀ x ∈ (env.stmts n).getD [], x.limit = none)
    (h1 : finchUint cg.iter = 0) (h2 : finchUint cg.iterExecGroup = 0) (h3 : 0 < finchUint cg.iterClients)
    (h4 : finchUint cg.iterClients + (stageClients res).length < 2 ^ 32)
    (hone : ∃ x ∈ stageClients res, InGroup e j x)
    (tbl : GoMap Nat Nat) (l : List (Nat × Ans))
    (hwell : ∀ (k : Nat) x, (stageClients res)[k]? = some x → InGroup e j x →
      (∀ y ∈ l, y.1 = k → GoesWell y.2) ∧
      3 * (finchUint cg.iterClients * (4 * x.statements.length + 2) + x.statements.length + 7) <
        l.countP fun y => y.1 = k) :
    (∀ (k : Nat) x, (stageClients res)[k]? = some x → InGroup e j x →
      ((Joint.init.run tbl (stageClients res) l).cl k).pc = .stopped .regular) ∧
    begunBy (stageClients res) (InGroup e j) (Joint.init.run tbl (stageClients res) l) = finchUint cg.iterClients ∧
    ∀ name cls, recordedBy (stageClients res) (InGroup e j) (Joint.init.run tbl (stageClients res) l) name cls =
      finchUint cg.iterClients * (perIteration env.stmts cg.trx).count (name, cls) := by
  have hcase := fun x hx => group_only hne h hcg hlim h1 h2 h3 (by omega) (x := x) hx
  have hK : ∀ x ∈ stageClients res, NoUse x (egPtr groups e + 1 + j) ∨
      (OnlyLimit x (finchUint cg.iterClients) (egPtr groups e + 1 + j) ∧ ∀ st ∈ x.statements, st.limit = none) := by
    intro x hx
    rcases hcase x hx with ⟨-, h5⟩ | ⟨-, h5⟩
    · exact Or.inr h5
    · exact Or.inl h5
  have hreg : ∀ (k : Nat) x, (stageClients res)[k]? = some x → InGroup e j x →
      ((Joint.init.run tbl (stageClients res) l).cl k).pc = .stopped .regular ∧
      ∀ i code, CEv.failed i code ∉ ((Joint.init.run tbl (stageClients res) l).cl k).trace := by
    intro k x hx hin
    have hm := List.mem_of_getElem? hx
    obtain ⟨w1, w2⟩ := hwell k x hx hin
    obtain ⟨e', j', c', hat⟩ := mem_stageClients hm
    refine C121_shared_ends tbl (stageClients res) _ _ h3 h4 hK l hx ?_
      (C119_sound_partial hl hs hne hidle h hat tbl) w1 w2
    intro hno
    rcases hcase x hm with ⟨-, ⟨-, h6⟩, -⟩ | ⟨h5, -⟩
    · rcases h6 with h6 | h6
      · exact hno.1 _ h6.1
      · exact hno.2 _ h6.2
    · exact h5 hin
  have hb := C121_iter_clients hne h hcg hlim h1 h2 h3 h4 tbl l
    (fun k x hx hin => ⟨_, (hreg k x hx hin).1⟩) (by
      obtain ⟨x, hx, hin⟩ := hone
      obtain ⟨k, hk⟩ := List.getElem?_of_mem hx
      exact ⟨k, x, hk, hin, (hreg k x hk hin).1⟩)
  refine ⟨fun k x hx hin => (hreg k x hx hin).1, hb, fun name cls => ?_⟩
  rw [C121_group_records_partial hne hidle h hcg hw hd hlim tbl l hreg, hb]

/-! ### Statistics -/

/-- The queries among what was recorded with times, without the times. -/
def untimed (es : List (String × TrxEvent)) : List (String × Ev) :=
  es.filterMap fun e =>
    match e.2 with
    | .query t _ => some (e.1, t)
    | .error _ => none

theorem untimed_recorded (us : ℤ) (tr : List CEv) :
    untimed (tr.filterMap (CEv.recorded us)) = (recorded tr).map fun p => (p.1, p.2.ev) := by
  induction tr with
  | nil => rfl
  | cons e tr ih =>
    cases e with
    | record n k =>
      show (n, k.ev) :: untimed (tr.filterMap (CEv.recorded us)) = _
      rw [ih]; rfl
    | errorStat n code =>
      show untimed (tr.filterMap (CEv.recorded us)) = _
      rw [ih]; rfl
    | _ => exact ih

theorem LState.run_untimed (c : Cli) (xs : List TAns) : ∀ l : LState,
    untimed l.events = (recorded l.s.trace).map (fun p => (p.1, p.2.ev)) →
    (l.run c xs).s = l.s.run c (xs.map (·.ans)) ∧
    untimed (l.run c xs).events = (recorded (l.run c xs).s.trace).map fun p => (p.1, p.2.ev) := by
  induction xs with
  | nil => intro l h; exact ⟨rfl, h⟩
  | cons x xs ih =>
    intro l h
    have hs : (l.step c x).s = l.s.step c x.ans := rfl
    obtain ⟨i1, i2⟩ := ih (l.step c x) (by
      obtain ⟨ev, h1, -⟩ := recorded_step c l.s x.ans
      rw [hs, h1]
      simp only [LState.step, h1, List.drop_left']
      simp only [untimed, recorded, List.filterMap_append, List.map_append] at h ⊢
      rw [h]
      congr 1
      exact untimed_recorded _ ev)
    exact ⟨i1, i2⟩

theorem latencies_untimed (t : Ev) (name : String) (es : List (String × TrxEvent)) :
    (latencies t (eventsOf name es)).length =
      (untimed es).countP fun p => p.1 = name ∧ (t = .total ∨ p.2 = t) := by
  induction es with
  | nil => rfl
  | cons e es ih =>
    obtain ⟨n, ev⟩ := e
    by_cases hn : n = name
    · subst hn
      have h1 : eventsOf n ((n, ev) :: es) = ev :: eventsOf n es := by simp [eventsOf]
      rw [h1]
      cases ev with
      | error k => exact ih
      | query t' us =>
        have h2 : untimed ((n, TrxEvent.query t' us) :: es) = (n, t') :: untimed es := rfl
        rw [h2, List.countP_cons, ← ih]
        simp only [latencies, List.filterMap_cons]
        by_cases hc : t = .total ∨ t' = t
        · simp [hc]
        · simp [hc]
    · have h1 : eventsOf name ((n, ev) :: es) = eventsOf name es := by simp [eventsOf, hn]
      rw [h1]
      cases ev with
      | error k => exact ih
      | query t' us =>
        have h2 : untimed ((n, TrxEvent.query t' us) :: es) = (n, t') :: untimed es := rfl
        rw [h2, List.countP_cons, ← ih]
        simp [hn]

theorem nonNeg_eventsOf {name : String} {es : List (String × TrxEvent)} (h : ∀ q ∈ queries es, 0 ≤ q) :
    NonNeg (eventsOf name es) := by
  intro e he
  obtain ⟨⟨n, e'⟩, hm, rfl⟩ := List.mem_map.mp he
  cases e' with
  | error k => trivial
  | query t d => exact h d (List.mem_filterMap.mpr ⟨_, (List.mem_filter.mp hm).1, rfl⟩)

/-- **C121, statistics.** A client as in `C121_iter_partial`, with times: the count that its statistics show for a
trx and an event type is `iter` times the number of statements of that type in the trx, for each time the trx is
listed; and for the total, of all statements of the trx that are not idle entries. -/
theorem C121_statistics_partial {env : WEnv} {w : List CGCfg} {q t : Nat} {s : DataScope}
    {groups : List (List Nat)} {st : WState} {res : List (List ACGroup)} (hne : NoEmptyTrx env w)
    (hidle : ∀ cg ∈ w, ∀ n ∈ cg.trx, ∀ x, ((env.stmts n).getD [])[0]? = some x → x.idle = 0)
    (h : allocClients env w q t s groups = .ok (st, res)) {e j c : Nat} {a : AClient} {cg : CGCfg}
    (ha : ClientAt res e j c a) (hcg : CfgAt w groups e j cg) (hw : env.withStats = true)
    (hd : cg.disableStats = false) (hlim : ∀ n ∈ cg.trx, ∀ x ∈ (env.stmts n).getD [], x.limit = none)
    (h1 : finchUint cg.iterClients = 0) (h2 : finchUint cg.iterExecGroup = 0)
    (tbl : GoMap Nat Nat) (xs : List TAns) (now : ℤ) (htime : InTime now xs)
    (hok : ∀ i code, CEv.failed i code ∉ (LState.init.run (a.cli tbl) xs).s.trace)
    (hstop : (LState.init.run (a.cli tbl) xs).s.pc = .stopped .regular) (lg : ℤ → ℤ) (name : String) (ty : Ev) :
    ((recordAll lg .new (eventsOf name (LState.init.run (a.cli tbl) xs).events)).ev ty).n =
      finchUint cg.iter *
        (perIteration env.stmts cg.trx).countP fun p => p.1 = name ∧ (ty = .total ∨ p.2.ev = ty) := by
  have hq := queries_nonneg (a.cli tbl) xs LState.init now htime (by intro q hq; cases hq)
  rw [(C24_statistics_are_exact lg _ (nonNeg_eventsOf hq) ty).count, latencies_untimed]
  obtain ⟨e1, e2⟩ := LState.run_untimed (a.cli tbl) xs LState.init rfl
  rw [e2]
  rw [e1] at hok hstop ⊢
  have e3 : LState.init.s = CState.init := rfl
  rw [e3] at hok hstop ⊢
  rw [C121_iter_partial hne hidle h ha hcg hw hd hlim h1 h2 tbl _ hok hstop, List.countP_map,
    List.countP_flatten, List.map_replicate]
  simp [Function.comp_def]

/-! ### Examples -/

/-- Two client groups in one execution group: three iterations for the two clients of the first together, one
for the client of the second. -/
def exJointW : List CGCfg :=
  [{ clients := "2", group := "a", trx := ["t", "u"], iterClients := "3" },
   { clients := "1", group := "a", trx := ["u"], iter := "1" }]

def exJointRes : List (List ACGroup) :=
  match allocClients demoEnvW exJointW 0 0
    ((DataScope.new.load "@c" ⟨none, true⟩).load "@d" ⟨some .client, false⟩) [[0, 1]] with
  | .ok r => r.2
  | _ => []

/-- A schedule: the clients make steps in turn. -/
def exJointL : List (Nat × Ans) := (List.replicate 50 [(1, okAns), (0, okAns), (2, okAns)]).flatten

def exJoint : Joint := Joint.init.run GoMap.empty (stageClients exJointRes) exJointL

/-- All three clients have stopped; the two clients of the first group have begun three iterations together and
recorded nine queries (two of trx `t` and one of trx `u` in each), all reads. -/
example : (List.range 3).map (fun k => ((exJoint.cl k).pc, (exJoint.cl k).iter)) =
      [(.stopped .regular, 1), (.stopped .regular, 2), (.stopped .regular, 1)] ∧
    begunBy (stageClients exJointRes) (InGroup 0 0) exJoint = 3 ∧
    recordedBy (stageClients exJointRes) (InGroup 0 0) exJoint "t" .read = 6 ∧
    recordedBy (stageClients exJointRes) (InGroup 0 0) exJoint "u" .read = 3 := by
  decide +kernel

/-- The workload is allocated, so that the hypotheses of `C121_iter_clients` hold. -/
theorem exJoint_alloc : ∃ st, allocClients demoEnvW exJointW 0 0
    ((DataScope.new.load "@c" ⟨none, true⟩).load "@d" ⟨some .client, false⟩) [[0, 1]] = .ok (st, exJointRes) := by
  have h : (stageClients exJointRes).length = 3 := by decide +kernel
  unfold exJointRes at h ⊢
  split at h
  · next r hr => exact ⟨r.1, hr⟩
  · cases h

example : begunBy (stageClients exJointRes) (InGroup 0 0) exJoint = 3 := by
  obtain ⟨st, h⟩ := exJoint_alloc
  have hlen : (stageClients exJointRes).length = 3 := by decide +kernel
  have hst : ∀ k < 3, (exJoint.cl k).pc = .stopped .regular := by decide +kernel
  have hin : ∃ x, (stageClients exJointRes)[0]? = some x ∧ InGroup 0 0 x := by
    have hany : ((stageClients exJointRes)[0]?.any fun x => decide (InGroup 0 0 x)) = true := by decide +kernel
    cases hx : (stageClients exJointRes)[0]? with
    | none => rw [hx] at hany; cases hany
    | some x => rw [hx] at hany; exact ⟨x, rfl, of_decide_eq_true hany⟩
  obtain ⟨x, hx, hin⟩ := hin
  unfold exJoint at hst ⊢
  rw [show (3 : Nat) = finchUint (exJointW[0]'(by decide)).iterClients from by decide +kernel]
  have h0 := hst 0 (by decide)
  refine C121_iter_clients (e := 0) (j := 0) (cg := exJointW[0]) ?_ h ⟨[0, 1], 0, rfl, rfl, rfl⟩ ?_ (by decide +kernel)
    (by decide +kernel) (by decide +kernel) (by rw [hlen]; decide +kernel) GoMap.empty exJointL ?_ ⟨0, x, hx, hin, h0⟩
  · unfold NoEmptyTrx; decide +kernel
  · decide +kernel
  · intro k x hx _
    have hk := (List.getElem?_eq_some_iff.mp hx).1
    rw [hlen] at hk
    exact ⟨_, hst k hk⟩

end Finch
