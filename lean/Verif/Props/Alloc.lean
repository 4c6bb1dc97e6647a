import Verif.Props.Scope
import Verif.Props.TrxFrame
import Verif.Props.Groups
import Mathlib.Data.List.Forall2
/-!
C42, C43: the allocated clients. Lemmas about one statement, trx, client and so on; the history of
`Copy` calls is used in `AllocScope`.
-/
namespace Finch

/-! ### Statements -/

/-- Spec: the value functions made of inputs, call marks and the generators that `Copy` returned. -/
def pick : List String → List Bool → List (Option Nat) → List InRef
  | k :: ks, c :: cs, some a :: gs => ⟨k, a, c⟩ :: pick ks cs gs
  | _ :: ks, cs, none :: gs => pick ks (cs.drop 1) gs
  | _, _, _ => []

/-- What allocating one statement does: `l` are the calls of `Copy`. -/
structure StmtAlloc (rl : RunLevel) (stmt : Stmt) (d : StmtData) (l : List CopyObs) : Prop where
  at_ : ∀ o ∈ l, o.rl = rl
  inputs : ∃ gs : List (Option Nat), gs.length = stmt.inputs.length ∧
    d.inputs = pick stmt.inputs stmt.calls gs ∧
    List.Sublist (List.zipWith (fun k g => ⟨k, rl, g⟩) stmt.inputs gs) l
  outputs : d.outputs.length = stmt.outputs.length ∧
    (∀ (i : Nat) k, stmt.outputs[i]? = some k → k ≠ stmt.insertId →
      ∃ g, d.outputs[i]? = some g ∧ ⟨k, rl, g⟩ ∈ l) ∧
    ∀ i : Nat, stmt.outputs[i]? = some stmt.insertId → d.outputs[i]? = some none
  insertId : (stmt.insertId = "" ∧ d.insertId = none) ∨
    ∃ a, d.insertId = some a ∧ ⟨stmt.insertId, rl, some a⟩ ∈ l

theorem copy_log {s s' : ScopeLog} {k : String} {rl : RunLevel} {g : Option Nat}
    (h : s.copy k rl = .ok (s', g)) : s'.log = s.log ++ [⟨k, rl, g⟩] := by
  unfold ScopeLog.copy at h
  split at h
  · cases h
  · cases h; rfl

theorem allocInputs_log {rl : RunLevel} {ks : List String} : ∀ {s s' : ScopeLog} {cs : List Bool}
    {l : List InRef}, allocInputs rl s ks cs = .ok (s', l) →
    ∃ gs : List (Option Nat), gs.length = ks.length ∧ l = pick ks cs gs ∧
      s'.log = s.log ++ List.zipWith (fun k g => ⟨k, rl, g⟩) ks gs := by
  induction ks with
  | nil => intro s s' cs l h; cases h; exact ⟨[], rfl, by simp [pick], by simp⟩
  | cons k ks ih =>
    intro s s' cs l h
    obtain ⟨⟨s1, g⟩, h1, h⟩ := Out.bind_ok h
    have hl := copy_log h1
    dsimp only at h
    split at h
    · obtain ⟨gs, e1, e2, e3⟩ := ih h
      exact ⟨none :: gs, by simp [e1], by rw [e2]; simp [pick], by rw [e3, hl]; simp⟩
    · cases h
    · rename_i a c cs _
      obtain ⟨⟨s2, l2⟩, h2, h⟩ := Out.bind_ok h
      cases Out.pure_ok h
      obtain ⟨gs, e1, e2, e3⟩ := ih h2
      exact ⟨some a :: gs, by simp [e1], by simp [pick, e2], by rw [e3, hl]; simp⟩

theorem allocOutputs_log {rl : RunLevel} {id : String} {ks : List String} : ∀ {s s' : ScopeLog}
    {l : List (Option Nat)}, allocOutputs rl id s ks = .ok (s', l) →
    l.length = ks.length ∧ ∃ ex, s'.log = s.log ++ ex ∧ (∀ o ∈ ex, o.rl = rl) ∧
      (∀ (i : Nat) (k : String), ks[i]? = some k → k ≠ id → ∃ g, l[i]? = some g ∧ ⟨k, rl, g⟩ ∈ ex) ∧
      ∀ i : Nat, ks[i]? = some id → l[i]? = some none := by
  induction ks with
  | nil => intro s s' l h; cases h; exact ⟨rfl, [], by simp, by simp, by simp, by simp⟩
  | cons k ks ih =>
    intro s s' l h
    simp only [allocOutputs] at h
    split at h
    · rename_i hk
      obtain ⟨⟨s1, l1⟩, h1, h⟩ := Out.bind_ok h
      cases Out.pure_ok h
      obtain ⟨e1, ex, e2, e3, e4, e5⟩ := ih h1
      refine ⟨by simp [e1], ex, e2, e3, ?_, ?_⟩
      · intro i k' hi hne
        cases i with
        | zero => simp only [List.getElem?_cons_zero, Option.some.injEq] at hi; exact absurd (hi ▸ hk) hne
        | succ i => simpa using e4 i k' (by simpa using hi) hne
      · intro i hi
        cases i with
        | zero => rfl
        | succ i => simpa using e5 i (by simpa using hi)
    · rename_i hk
      obtain ⟨⟨s0, g⟩, h0, h⟩ := Out.bind_ok h
      obtain ⟨⟨s1, l1⟩, h1, h⟩ := Out.bind_ok h
      cases Out.pure_ok h
      obtain ⟨e1, ex, e2, e3, e4, e5⟩ := ih h1
      refine ⟨by simp [e1], ⟨k, rl, g⟩ :: ex, by rw [e2, copy_log h0]; simp, ?_, ?_, ?_⟩
      · intro o ho
        rcases List.mem_cons.mp ho with rfl | ho
        · rfl
        · exact e3 o ho
      · intro i k' hi hne
        cases i with
        | zero =>
          simp only [List.getElem?_cons_zero, Option.some.injEq] at hi
          subst hi
          exact ⟨g, by simp, by simp⟩
        | succ i =>
          obtain ⟨g', f1, f2⟩ := e4 i k' (by simpa using hi) hne
          exact ⟨g', by simpa using f1, by simp [f2]⟩
      · intro i hi
        cases i with
        | zero => exact absurd (by simpa using hi) hk
        | succ i => simpa using e5 i (by simpa using hi)

theorem allocInsertId_log {rl : RunLevel} {id : String} {s s' : ScopeLog} {g : Option Nat}
    (h : allocInsertId rl id s = .ok (s', g)) :
    ∃ ex, s'.log = s.log ++ ex ∧ (∀ o ∈ ex, o.rl = rl) ∧
      ((id = "" ∧ g = none) ∨ ∃ a, g = some a ∧ ⟨id, rl, some a⟩ ∈ ex) := by
  unfold allocInsertId at h
  split at h
  · rename_i he
    cases h; exact ⟨[], by simp, by simp, Or.inl ⟨he, rfl⟩⟩
  · obtain ⟨⟨s1, g1⟩, h1, h⟩ := Out.bind_ok h
    dsimp only at h
    cases g1 with
    | none => cases h
    | some a =>
      cases Out.pure_ok h
      exact ⟨[⟨id, rl, some a⟩], copy_log h1, by simp, Or.inr ⟨a, rfl, by simp⟩⟩

theorem allocStmt_log {rl : RunLevel} {b : Bool} {s s' : ScopeLog} {stmt : Stmt} {d : StmtData}
    (h : allocStmt rl b s stmt = .ok (s', d)) :
    d.begin_ = b ∧ d.end_ = false ∧ ∃ l, s'.log = s.log ++ l ∧ StmtAlloc rl stmt d l := by
  obtain ⟨⟨s1, ins⟩, h1, h⟩ := Out.bind_ok h
  obtain ⟨⟨s2, outs⟩, h2, h⟩ := Out.bind_ok h
  obtain ⟨⟨s3, id⟩, h3, h⟩ := Out.bind_ok h
  cases Out.pure_ok h
  obtain ⟨gs, a1, a2, a3⟩ := allocInputs_log h1
  obtain ⟨b1, ex2, b2, b3, b4, b5⟩ := allocOutputs_log h2
  obtain ⟨ex3, c1, c2, c3⟩ := allocInsertId_log h3
  refine ⟨rfl, rfl, List.zipWith (fun k g => ⟨k, rl, g⟩) stmt.inputs gs ++ ex2 ++ ex3, ?_, ?_, ?_, ?_, ?_⟩
  · rw [c1, b2, a3]; simp
  · intro o ho
    rcases List.mem_append.mp ho with ho | ho
    · rcases List.mem_append.mp ho with ho | ho
      · obtain ⟨i, hi, rfl⟩ := List.mem_iff_getElem.mp ho
        simp
      · exact b3 o ho
    · exact c2 o ho
  · refine ⟨gs, a1, a2, ?_⟩
    rw [List.append_assoc]
    exact List.sublist_append_left _ _
  · refine ⟨b1, ?_, b5⟩
    intro i k hk hne
    obtain ⟨g, f1, f2⟩ := b4 i k hk hne
    exact ⟨g, f1, by simp [f2]⟩
  · rcases c3 with h | ⟨a, h1, h2⟩
    · exact Or.inl h
    · exact Or.inr ⟨a, h1, by simp [h2]⟩

/-! ### Trx -/

/-- Spec: the history of `Copy` calls is in allocation order. -/
def LogSorted (l : List CopyObs) : Prop := l.Pairwise (fun a b => AllocLe a.rl b.rl)

theorem logSorted_same {rl : RunLevel} {l : List CopyObs} (h : ∀ o ∈ l, o.rl = rl) : LogSorted l := by
  refine List.pairwise_iff_forall_sublist.mpr ?_
  intro a b hs
  have ha : a.rl = rl := h a (hs.subset (by simp))
  have hb : b.rl = rl := h b (hs.subset (by simp))
  rw [ha, hb]
  simp [AllocLe]

/-- Positions of statements of one trx, after statement `q`. -/
def InTrx (rl : RunLevel) (q : Nat) (o : CopyObs) : Prop :=
  ∃ x, q < x ∧ o.rl = { rl with query := x }

theorem allocStmts_log {rl : RunLevel} {ss : List Stmt} : ∀ {b : Bool} {q : Nat} {s s' : ScopeLog}
    {ds : List StmtData}, allocStmts rl b q s ss = .ok (s', ds) →
    ds.length = ss.length ∧
    ds.map (fun d => (d.begin_, d.end_)) =
      (List.range ss.length).map (fun i => (decide (i = 0) && b, false)) ∧
    ∃ l, s'.log = s.log ++ l ∧ LogSorted l ∧ (∀ o ∈ l, InTrx rl q o) ∧
      ∀ (i : Nat) stmt, ss[i]? = some stmt → ∃ (d : StmtData) (li : List CopyObs), ds[i]? = some d ∧
        List.Sublist li l ∧ StmtAlloc { rl with query := q + i + 1 } stmt d li := by
  induction ss with
  | nil =>
    intro b q s s' ds h
    cases h
    exact ⟨rfl, rfl, [], by simp, List.Pairwise.nil, by simp, by simp⟩
  | cons stmt ss ih =>
    intro b q s s' ds h
    obtain ⟨⟨s1, d⟩, h1, h⟩ := Out.bind_ok h
    obtain ⟨⟨s2, ds'⟩, h2, h⟩ := Out.bind_ok h
    cases Out.pure_ok h
    obtain ⟨a1, a2, l1, a3, a4⟩ := allocStmt_log h1
    obtain ⟨b1, b2, l2, b3, b4, b5, b6⟩ := ih h2
    refine ⟨by simp [b1], ?_, l1 ++ l2, by rw [b3, a3]; simp, ?_, ?_, ?_⟩
    · rw [List.map_cons, b2, List.length_cons, List.range_succ_eq_map, List.map_cons, a1, a2]
      simp [Function.comp_def]
    · refine List.pairwise_append.mpr ⟨logSorted_same a4.at_, b4, ?_⟩
      intro x hx y hy
      obtain ⟨n, hn, hy⟩ := b5 y hy
      rw [a4.at_ x hx, hy]
      simp [AllocLe]; omega
    · intro o ho
      rcases List.mem_append.mp ho with ho | ho
      · exact ⟨q + 1, by omega, a4.at_ o ho⟩
      · obtain ⟨x, hx, he⟩ := b5 o ho
        exact ⟨x, by omega, he⟩
    · intro i st hi
      cases i with
      | zero =>
        simp only [List.getElem?_cons_zero, Option.some.injEq] at hi
        subst hi
        exact ⟨d, l1, by simp, List.sublist_append_left _ _, a4⟩
      | succ i =>
        obtain ⟨d', li, f1, f2, f3⟩ := b6 i st (by simpa using hi)
        refine ⟨d', li, by simpa using f1, f2.trans (List.sublist_append_right _ _), ?_⟩
        rw [show q + (i + 1) + 1 = q + 1 + i + 1 by omega]
        exact f3

/-- Spec: begin and end marks of a trx with `n` statements. -/
def marks (n : Nat) : List (Bool × Bool) :=
  (List.range n).map fun i => (decide (i = 0), decide (i + 1 = n))

theorem markEnd_spec (l : List StmtData) (d : StmtData) :
    markEnd (l ++ [d]) = l ++ [{ d with end_ := true }] := by
  induction l with
  | nil => rfl
  | cons x xs ih =>
    cases xs with
    | nil => rfl
    | cons y ys =>
      show x :: markEnd (y :: ys ++ [d]) = _
      rw [ih]; rfl

theorem markEnd_data (l : List StmtData) (i : Nat) (d : StmtData) (h : (markEnd l)[i]? = some d) :
    ∃ d', l[i]? = some d' ∧ d.inputs = d'.inputs ∧ d.outputs = d'.outputs ∧ d.insertId = d'.insertId := by
  rcases List.eq_nil_or_concat l with rfl | ⟨xs, x, rfl⟩
  · simp [markEnd] at h
  · rw [List.concat_eq_append, markEnd_spec] at *
    by_cases hi : i < xs.length
    · rw [List.getElem?_append_left hi] at h ⊢
      exact ⟨d, h, rfl, rfl, rfl⟩
    · rw [List.getElem?_append_right (by omega)] at h ⊢
      cases hj : i - xs.length with
      | zero =>
        rw [hj] at h
        simp only [List.getElem?_cons_zero, Option.some.injEq] at h
        subst h
        exact ⟨x, by simp, rfl, rfl, rfl⟩
      | succ j => rw [hj] at h; simp at h

theorem markEnd_length (l : List StmtData) : (markEnd l).length = l.length := by
  rcases List.eq_nil_or_concat l with rfl | ⟨xs, x, rfl⟩
  · rfl
  · rw [List.concat_eq_append, markEnd_spec]; simp

theorem markEnd_append (done ds : List StmtData) (h : ds ≠ []) :
    markEnd (done ++ ds) = done ++ markEnd ds := by
  rcases List.eq_nil_or_concat ds with rfl | ⟨xs, x, rfl⟩
  · exact absurd rfl h
  · rw [List.concat_eq_append, markEnd_spec, ← List.append_assoc, markEnd_spec]; simp

theorem markEnd_marks (ds : List StmtData) (h : ds.map (fun d => (d.begin_, d.end_)) =
    (List.range ds.length).map (fun i => (decide (i = 0), false))) :
    (markEnd ds).map (fun d => (d.begin_, d.end_)) = marks ds.length := by
  rcases List.eq_nil_or_concat ds with rfl | ⟨xs, x, rfl⟩
  · rfl
  · rw [List.concat_eq_append] at *
    rw [markEnd_spec]
    simp only [List.length_append, List.length_singleton, List.map_append, List.map_cons,
      List.map_nil, List.range_succ] at h ⊢
    have h' := List.append_inj h (by simp)
    unfold marks
    rw [List.range_succ, List.map_append, h'.1]
    congr 1
    · apply List.map_congr_left
      intro i hi
      have := List.mem_range.mp hi
      simp; omega
    · have := h'.2
      simp only [List.map_cons, List.map_nil, List.cons.injEq, Prod.mk.injEq, and_true] at this ⊢
      exact ⟨this.1, by simp⟩

/-- Positions of statements of one client, after trx `t`. -/
def InClient (rl : RunLevel) (t : Nat) (o : CopyObs) : Prop :=
  ∃ x q, t < x ∧ o.rl = { rl with trx := x, query := q }

/-- The data of the trx `names` (numbered from `t + 1` on) of a client. -/
def TrxProv (stmts : GoMap String (List Stmt)) (rl : RunLevel) (t : Nat) (l : List CopyObs) :
    List String → List StmtData → Prop
  | [], ds => ds = []
  | n :: ns, ds => ∃ d1 d2, ds = d1 ++ d2 ∧ d1.length = ((stmts n).getD []).length ∧
      (∀ (q : Nat) stmt, ((stmts n).getD [])[q]? = some stmt → ∃ (d : StmtData) (li : List CopyObs),
        d1[q]? = some d ∧ List.Sublist li l ∧
        StmtAlloc { rl with trx := t + 1, query := q + 1 } stmt d li) ∧
      TrxProv stmts rl (t + 1) l ns d2

theorem TrxProv.mono {stmts : GoMap String (List Stmt)} {rl : RunLevel} {l l' : List CopyObs}
    (hl : List.Sublist l l') {ns : List String} : ∀ {t : Nat} {ds : List StmtData},
    TrxProv stmts rl t l ns ds → TrxProv stmts rl t l' ns ds := by
  induction ns with
  | nil => intro t ds h; exact h
  | cons n ns ih =>
    intro t ds h
    obtain ⟨d1, d2, h1, h2, h3, h4⟩ := h
    refine ⟨d1, d2, h1, h2, ?_, ih h4⟩
    intro q stmt hq
    obtain ⟨d, li, e1, e2, e3⟩ := h3 q stmt hq
    exact ⟨d, li, e1, e2.trans hl, e3⟩

theorem StmtAlloc.congr {rl : RunLevel} {stmt : Stmt} {d d' : StmtData} {l : List CopyObs}
    (h : StmtAlloc rl stmt d l) (h1 : d'.inputs = d.inputs) (h2 : d'.outputs = d.outputs)
    (h3 : d'.insertId = d.insertId) : StmtAlloc rl stmt d' l := by
  obtain ⟨a, b, c, e⟩ := h
  exact ⟨a, by rw [h1]; exact b, by rw [h2]; exact c, by rw [h3]; exact e⟩

theorem allocTrx_log {stmts : GoMap String (List Stmt)} {rl : RunLevel} {total : Nat}
    {ns : List String} : ∀ {t : Nat} {done : List StmtData} {s s' : ScopeLog} {ds : List StmtData},
    (∀ n ∈ ns, (stmts n).getD [] ≠ []) →
    allocTrx stmts rl total t done s ns = .ok (s', ds) →
    ∃ ds', ds = done ++ ds' ∧
      ds'.map (fun d => (d.begin_, d.end_)) = ns.flatMap (fun n => marks ((stmts n).getD []).length) ∧
      ∃ l, s'.log = s.log ++ l ∧ LogSorted l ∧ (∀ o ∈ l, InClient rl t o) ∧
        TrxProv stmts rl t l ns ds' := by
  induction ns with
  | nil =>
    intro t done s s' ds _ h
    cases h
    exact ⟨[], by simp, rfl, [], by simp, List.Pairwise.nil, by simp, rfl⟩
  | cons n ns ih =>
    intro t done s s' ds hne h
    simp only [allocTrx] at h
    split at h
    · cases h
    · obtain ⟨⟨s1, d1⟩, h1, h⟩ := Out.bind_ok h
      dsimp only at h
      split at h
      · cases h
      · obtain ⟨a1, a2, l1, a3, a4, a5, a6⟩ := allocStmts_log h1
        have hss := hne n (by simp)
        have hd1 : d1 ≠ [] := by
          intro he; rw [he] at a1
          exact hss (List.length_eq_zero_iff.mp a1.symm)
        rw [markEnd_append done d1 hd1] at h
        obtain ⟨ds', b1, b2, l2, b3, b4, b5, b6⟩ := ih (fun n hn => hne n (by simp [hn])) h
        refine ⟨markEnd d1 ++ ds', by rw [b1]; simp, ?_, l1 ++ l2, by rw [b3, a3]; simp, ?_, ?_, ?_⟩
        · rw [List.map_append, b2, List.flatMap_cons, markEnd_marks d1 (by rw [a2, a1]; simp), a1]
        · refine List.pairwise_append.mpr ⟨a4, b4, ?_⟩
          intro x hx y hy
          obtain ⟨qx, -, ex⟩ := a5 x hx
          obtain ⟨ty, qy, hty, ey⟩ := b5 y hy
          rw [ex, ey]
          simp [AllocLe]; omega
        · intro o ho
          rcases List.mem_append.mp ho with ho | ho
          · obtain ⟨q, -, e⟩ := a5 o ho
            exact ⟨t + 1, q, by omega, e⟩
          · obtain ⟨x, q, hx, e⟩ := b5 o ho
            exact ⟨x, q, by omega, e⟩
        · refine ⟨markEnd d1, ds', rfl, by rw [markEnd_length, a1], ?_, b6.mono (List.sublist_append_right _ _)⟩
          intro q stmt hq
          obtain ⟨d, li, e1, e2, e3⟩ := a6 q stmt hq
          have hlt : q < (markEnd d1).length := by
            rw [markEnd_length]; exact (List.getElem?_eq_some_iff.mp e1).1
          obtain ⟨d', f1, f2, f3, f4⟩ := markEnd_data d1 q _ (List.getElem?_eq_getElem hlt)
          rw [e1] at f1
          cases f1
          refine ⟨_, li, List.getElem?_eq_getElem hlt, e2.trans (List.sublist_append_left _ _), ?_⟩
          rw [Nat.zero_add] at e3
          exact e3.congr f2 f3 f4

/-! ### Clients -/

/-- Spec: a client allocated at a position for a client group config. `pc`, `pe` are the addresses of
the iteration counters of the client group and of the execution group. -/
structure ClientOk (env : WEnv) (cg : CGCfg) (pc pe : Nat) (rl : RunLevel) (log : List CopyObs)
    (a : AClient) : Prop where
  at_ : a.rl = rl
  db : a.db = cg.db
  iter : a.iter = finchUint cg.iter
  iterClients : a.iterClients = sharedIter (finchUint cg.iterClients) pc
  iterExecGroup : a.iterExecGroup = sharedIter (finchUint cg.iterExecGroup) pe
  statements : a.statements = cg.trx.flatMap fun n => (env.stmts n).getD []
  marks : a.data.map (fun d => (d.begin_, d.end_)) =
    cg.trx.flatMap fun n => marks ((env.stmts n).getD []).length
  stats : a.stats = cg.trx.map fun n => if env.withStats && !cg.disableStats then some n else none
  prov : TrxProv env.stmts rl 0 log cg.trx a.data

theorem ClientOk.mono {env : WEnv} {cg : CGCfg} {pc pe : Nat} {rl : RunLevel} {l l' : List CopyObs}
    {a : AClient} (h : ClientOk env cg pc pe rl l a) (hl : List.Sublist l l') :
    ClientOk env cg pc pe rl l' a :=
  ⟨h.at_, h.db, h.iter, h.iterClients, h.iterExecGroup, h.statements, h.marks, h.stats, h.prov.mono hl⟩

theorem allocClient_log {env : WEnv} {cg : CGCfg} {rl : RunLevel} {pq pt : Option Nat} {pc pe : Nat}
    {st st' : WState} {a : AClient} (hne : ∀ n ∈ cg.trx, (env.stmts n).getD [] ≠ [])
    (h : allocClient env cg rl pq pt pc pe st = .ok (st', a)) :
    st'.nextPtr = st.nextPtr ∧ ∃ l, st'.sl.log = st.sl.log ++ l ∧ LogSorted l ∧
      (∀ o ∈ l, ∃ t q, o.rl = { rl with trx := t, query := q }) ∧ ClientOk env cg pc pe rl l a := by
  obtain ⟨⟨sl, data⟩, h1, h⟩ := Out.bind_ok h
  cases Out.pure_ok h
  obtain ⟨ds, e1, e2, l, e3, e4, e5, e6⟩ := allocTrx_log hne h1
  rw [List.nil_append] at e1
  subst e1
  refine ⟨rfl, l, e3, e4, ?_, ⟨rfl, rfl, rfl, rfl, rfl, rfl, e2, rfl, e6⟩⟩
  intro o ho
  obtain ⟨x, q, -, he⟩ := e5 o ho
  exact ⟨x, q, he⟩

theorem allocClientLoop_log {env : WEnv} {cg : CGCfg} {rl : RunLevel} {pq pt : Option Nat}
    {pc pe : Nat} (hne : ∀ n ∈ cg.trx, (env.stmts n).getD [] ≠ []) {k : Nat} :
    ∀ {c : Nat} {st st' : WState} {as : List AClient},
    allocClientLoop env cg rl pq pt pc pe c st k = .ok (st', as) →
    st'.nextPtr = st.nextPtr ∧ as.length = k ∧ ∃ l, st'.sl.log = st.sl.log ++ l ∧ LogSorted l ∧
      (∀ o ∈ l, ∃ x t q, c < x ∧ o.rl = { rl with client := x, trx := t, query := q }) ∧
      ∀ (i : Nat) a, as[i]? = some a → ClientOk env cg pc pe { rl with client := c + i + 1 } l a := by
  induction k with
  | zero =>
    intro c st st' as h
    cases h
    exact ⟨rfl, rfl, [], by simp, List.Pairwise.nil, by simp, by simp⟩
  | succ k ih =>
    intro c st st' as h
    obtain ⟨⟨st1, a⟩, h1, h⟩ := Out.bind_ok h
    obtain ⟨⟨st2, as'⟩, h2, h⟩ := Out.bind_ok h
    cases Out.pure_ok h
    obtain ⟨a1, l1, a2, a3, a4, a5⟩ := allocClient_log hne h1
    obtain ⟨b1, b2, l2, b3, b4, b5, b6⟩ := ih h2
    dsimp only at *
    refine ⟨by rw [b1, a1], by simp [b2], l1 ++ l2, by rw [b3, a2]; simp, ?_, ?_, ?_⟩
    · refine List.pairwise_append.mpr ⟨a3, b4, ?_⟩
      intro x hx y hy
      obtain ⟨t, q, ex⟩ := a4 x hx
      obtain ⟨c', t', q', hc, ey⟩ := b5 y hy
      rw [ex, ey]
      simp [AllocLe]; omega
    · intro o ho
      rcases List.mem_append.mp ho with ho | ho
      · obtain ⟨t, q, e⟩ := a4 o ho
        exact ⟨c + 1, t, q, by omega, e⟩
      · obtain ⟨x, t, q, hx, e⟩ := b5 o ho
        exact ⟨x, t, q, by omega, e⟩
    · intro i a' hi
      cases i with
      | zero =>
        simp only [List.getElem?_cons_zero, Option.some.injEq] at hi
        subst hi
        exact a5.mono (List.sublist_append_left _ _)
      | succ i =>
        have := (b6 i a' (by simpa using hi)).mono (l' := l1 ++ l2) (List.sublist_append_right _ _)
        rw [show c + (i + 1) + 1 = c + 1 + i + 1 by omega]
        exact this

/-- Spec: an allocated client group. -/
structure GroupAlloc (env : WEnv) (cg : CGCfg) (pc pe : Nat) (rl : RunLevel) (log : List CopyObs)
    (g : ACGroup) : Prop where
  runtime : g.runtime = cg.runtime
  limit : g.dataLimit = true ↔ 0 < g.clients.length ∧
    ∃ n ∈ cg.trx, ∃ s ∈ (env.stmts n).getD [], s.limit ≠ none
  count : g.clients.length = finchUint cg.clients
  clients : ∀ (k : Nat) a, g.clients[k]? = some a →
    ClientOk env cg pc pe { rl with client := k + 1 } log a

theorem GroupAlloc.mono {env : WEnv} {cg : CGCfg} {pc pe : Nat} {rl : RunLevel} {l l' : List CopyObs}
    {g : ACGroup} (h : GroupAlloc env cg pc pe rl l g) (hl : List.Sublist l l') :
    GroupAlloc env cg pc pe rl l' g :=
  ⟨h.runtime, h.limit, h.count, fun k a hk => (h.clients k a hk).mono hl⟩

theorem allocCGLoop_log {env : WEnv} {w : List CGCfg} {rl : RunLevel} {pq pt : Option Nat} {pe : Nat}
    (hne : ∀ cg ∈ w, ∀ n ∈ cg.trx, (env.stmts n).getD [] ≠ []) {refs : List Nat} :
    ∀ {j : Nat} {st st' : WState} {gs : List ACGroup},
    allocCGLoop env w rl pq pt pe j st refs = .ok (st', gs) →
    st'.nextPtr = st.nextPtr + refs.length ∧ gs.length = refs.length ∧
    ∃ l, st'.sl.log = st.sl.log ++ l ∧ LogSorted l ∧
      (∀ o ∈ l, ∃ x c t q, j < x ∧
        o.rl = { rl with clientGroup := x, client := c, trx := t, query := q }) ∧
      ∀ (i : Nat) ref, refs[i]? = some ref → ∃ cg g, w[ref]? = some cg ∧ gs[i]? = some g ∧
        GroupAlloc env cg (st.nextPtr + i) pe { rl with clientGroup := j + i + 1 } l g := by
  induction refs with
  | nil =>
    intro j st st' gs h
    cases h
    exact ⟨rfl, rfl, [], by simp, List.Pairwise.nil, by simp, by simp⟩
  | cons ref refs ih =>
    intro j st st' gs h
    simp only [allocCGLoop] at h
    split at h
    · cases h
    · rename_i cg hcg
      split at h
      · cases h
      · obtain ⟨⟨st1, cs⟩, h1, h⟩ := Out.bind_ok h
        obtain ⟨⟨st2, gs'⟩, h2, h⟩ := Out.bind_ok h
        cases Out.pure_ok h
        obtain ⟨a1, a2, l1, a3, a4, a5, a6⟩ :=
          allocClientLoop_log (hne cg (List.mem_of_getElem? hcg)) h1
        obtain ⟨b1, b2, l2, b3, b4, b5, b6⟩ := ih h2
        dsimp only at *
        refine ⟨by rw [b1, a1, List.length_cons]; omega, by simp [b2], l1 ++ l2,
          by rw [b3, a3]; simp, ?_, ?_, ?_⟩
        · refine List.pairwise_append.mpr ⟨a4, b4, ?_⟩
          intro x hx y hy
          obtain ⟨c, t, q, -, ex⟩ := a5 x hx
          obtain ⟨g', c', t', q', hc, ey⟩ := b5 y hy
          rw [ex, ey]
          simp [AllocLe]; omega
        · intro o ho
          rcases List.mem_append.mp ho with ho | ho
          · obtain ⟨c, t, q, -, e⟩ := a5 o ho
            exact ⟨j + 1, c, t, q, by omega, e⟩
          · obtain ⟨x, c, t, q, hx, e⟩ := b5 o ho
            exact ⟨x, c, t, q, by omega, e⟩
        · intro i r hi
          cases i with
          | zero =>
            simp only [List.getElem?_cons_zero, Option.some.injEq] at hi
            subst hi
            refine ⟨cg, ⟨cg.runtime, cgDataLimit env cg, cs⟩, hcg, by simp, rfl, ?_, a2, ?_⟩
            · simp only [cgDataLimit, a2]
              simp [Option.isSome_iff_ne_none]
            · intro k a hk
              have := (a6 k a hk).mono (l' := l1 ++ l2) (List.sublist_append_left _ _)
              simpa using this
          | succ i =>
            obtain ⟨cg', g, e1, e2, e3⟩ := b6 i r (by simpa using hi)
            refine ⟨cg', g, e1, by simpa using e2, ?_⟩
            have := e3.mono (l' := l1 ++ l2) (List.sublist_append_right _ _)
            rw [a1] at this
            rw [show st.nextPtr + (i + 1) = st.nextPtr + 1 + i by omega,
              show j + (i + 1) + 1 = j + 1 + i + 1 by omega]
            exact this

/-- Address of the iteration counter of execution group `e`. -/
def egPtr (groups : List (List Nat)) (e : Nat) : Nat :=
  ((groups.take e).map (fun g => g.length + 1)).sum

theorem egPtr_succ {groups : List (List Nat)} {e : Nat} {g : List Nat} (h : groups[e]? = some g) :
    egPtr groups (e + 1) = egPtr groups e + g.length + 1 := by
  unfold egPtr
  rw [List.take_add_one, h]
  simp [Nat.add_assoc]

theorem allocEGLoop_log {env : WEnv} {w : List CGCfg} {pq pt : Option Nat}
    (hne : ∀ cg ∈ w, ∀ n ∈ cg.trx, (env.stmts n).getD [] ≠ []) {gs : List (List Nat)} :
    ∀ {e : Nat} {st st' : WState} {res : List (List ACGroup)},
    allocEGLoop env w pq pt e st gs = .ok (st', res) →
    res.length = gs.length ∧
    ∃ l, st'.sl.log = st.sl.log ++ l ∧ LogSorted l ∧
      (∀ o ∈ l, ∃ x j c t q, e < x ∧ o.rl = ⟨env.stage, x, j, c, t, q⟩) ∧
      ∀ (i : Nat) g, gs[i]? = some g → ∃ cgs, res[i]? = some cgs ∧ cgs.length = g.length ∧
        ∀ (j : Nat) ref, g[j]? = some ref → ∃ cg acg, w[ref]? = some cg ∧ cgs[j]? = some acg ∧
          GroupAlloc env cg (st.nextPtr + egPtr gs i + 1 + j) (st.nextPtr + egPtr gs i)
            ⟨env.stage, e + i + 1, j + 1, 0, 0, 0⟩ l acg := by
  induction gs with
  | nil =>
    intro e st st' res h
    cases h
    exact ⟨rfl, [], by simp, List.Pairwise.nil, by simp, by simp⟩
  | cons g gs ih =>
    intro e st st' res h
    simp only [allocEGLoop] at h
    split at h
    · cases h
    · split at h
      · cases h
      · obtain ⟨⟨st1, cgs⟩, h1, h⟩ := Out.bind_ok h
        obtain ⟨⟨st2, rest⟩, h2, h⟩ := Out.bind_ok h
        cases Out.pure_ok h
        obtain ⟨a1, a2, l1, a3, a4, a5, a6⟩ := allocCGLoop_log hne h1
        obtain ⟨b2, l2, b3, b4, b5, b6⟩ := ih h2
        dsimp only at *
        refine ⟨by simp [b2], l1 ++ l2, by rw [b3, a3]; simp, ?_, ?_, ?_⟩
        · refine List.pairwise_append.mpr ⟨a4, b4, ?_⟩
          intro x hx y hy
          obtain ⟨j, c, t, q, -, ex⟩ := a5 x hx
          obtain ⟨e', j', c', t', q', hc, ey⟩ := b5 y hy
          rw [ex, ey]
          simp [AllocLe]; omega
        · intro o ho
          rcases List.mem_append.mp ho with ho | ho
          · obtain ⟨j, c, t, q, -, he⟩ := a5 o ho
            exact ⟨e + 1, j, c, t, q, by omega, he⟩
          · obtain ⟨x, j, c, t, q, hx, he⟩ := b5 o ho
            exact ⟨x, j, c, t, q, by omega, he⟩
        · intro i g' hi
          cases i with
          | zero =>
            simp only [List.getElem?_cons_zero, Option.some.injEq] at hi
            subst hi
            refine ⟨cgs, by simp, a2, ?_⟩
            intro j ref hj
            obtain ⟨cg, acg, e1, e2, e3⟩ := a6 j ref hj
            refine ⟨cg, acg, e1, e2, ?_⟩
            have := e3.mono (l' := l1 ++ l2) (List.sublist_append_left _ _)
            simpa [egPtr] using this
          | succ i =>
            obtain ⟨cgs', e1, e2, e3⟩ := b6 i g' (by simpa using hi)
            refine ⟨cgs', by simpa using e1, e2, ?_⟩
            intro j ref hj
            obtain ⟨cg, acg, f1, f2, f3⟩ := e3 j ref hj
            refine ⟨cg, acg, f1, f2, ?_⟩
            have := f3.mono (l' := l1 ++ l2) (List.sublist_append_right _ _)
            have hp : st.nextPtr + egPtr (g :: gs) (i + 1) = st1.nextPtr + egPtr gs i := by
              rw [a1]; simp [egPtr]; omega
            rw [hp, show e + (i + 1) + 1 = e + 1 + i + 1 by omega]
            exact this

end Finch
