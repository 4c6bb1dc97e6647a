import Verif.Props.Joint
/-!
C121 for execution groups: a workload limited by iter-exec-group completes.
-/
namespace Finch

/-- The clients of an execution group whose only limit is iter-exec-group, and the others. -/
theorem exec_only {env : WEnv} {w : List CGCfg} {q t : Nat} {s : DataScope}
    {groups : List (List Nat)} {st : WState} {res : List (List ACGroup)} (hne : NoEmptyTrx env w)
    (h : allocClients env w q t s groups = .ok (st, res)) {e L : Nat} (hL : 0 < L) (hL' : L < 2 ^ 32)
    (hlim : ∀ j cg, CfgAt w groups e j cg → (∀ n ∈ cg.trx, ∀ x ∈ (env.stmts n).getD [], x.limit = none) ∧
      finchUint cg.iter = 0 ∧ finchUint cg.iterClients = 0 ∧ finchUint cg.iterExecGroup = L)
    (hone : ∃ x ∈ stageClients res, InExecGroup e x) {x : AClient} (hx : x ∈ stageClients res) :
    (InExecGroup e x ∧ OnlyLimit x L (egPtr groups e) ∧ ∀ st ∈ x.statements, st.limit = none) ∨
      (¬ InExecGroup e x ∧ NoUse x (egPtr groups e)) := by
  obtain ⟨x0, hx0, hin0⟩ := hone
  obtain ⟨e0, j0, c0, hat0⟩ := mem_stageClients hx0
  obtain ⟨cg0, hcg0, -, hok0⟩ := allocClients_at hne h hat0
  have he0 : e0 = e := by
    rw [InExecGroup, hok0.at_] at hin0
    dsimp only at hin0
    omega
  subst he0
  obtain ⟨e', j', c', hat⟩ := mem_stageClients hx
  obtain ⟨cg', hcg', -, hok⟩ := allocClients_at hne h hat
  by_cases hin : e0 = e'
  · left
    subst hin
    obtain ⟨f1, f2, f3, f4⟩ := hlim j' cg' hcg'
    refine ⟨by rw [InExecGroup, hok.at_], ⟨hok.iter.trans f2, Or.inr ⟨?_, ?_⟩⟩, ?_⟩
    · rw [hok.iterClients, f3]; rfl
    · rw [hok.iterExecGroup, f4]; exact sharedIter_pos hL hL'
    · intro y hy
      rw [hok.statements] at hy
      obtain ⟨n, hn, hy⟩ := List.mem_flatMap.mp hy
      exact f1 n hn y hy
  · right
    refine ⟨?_, ?_, ?_⟩
    · rw [InExecGroup, hok.at_]
      intro hc
      dsimp only at hc
      omega
    · intro n hn
      rw [hok.iterClients] at hn
      exact (ptr_distinct hcg' hcg0).2.1 (sharedIter_ptr hn)
    · intro n hn
      rw [hok.iterExecGroup] at hn
      exact hin ((ptr_distinct hcg0 hcg').2.2 (sharedIter_ptr hn))

/-- **C121, an execution group completes.** An execution group whose client groups have the same limit
iter-exec-group and no other, with trx files without data limits that do not begin with an idle entry. When everything
goes well for its clients, and each makes enough steps, in any order among themselves and with all other clients of the
stage, whatever these do and whatever happens to them: then all clients of the execution group have stopped by
themselves, they have together begun exactly as many iterations as iter-exec-group says, and for each of its client
groups with statistics, the number of recorded queries of any trx and any class is the number of iterations of that
client group times the number of statements of that class in the trx (for each time the trx is listed). -/
theorem C121_exec_group_completes_partial {env : WEnv} {w : List CGCfg} {q t : Nat} {s : DataScope}
    {groups : List (List Nat)} {st : WState} {res : List (List ACGroup)} {tfs : List TrxFile}
    {set : TrxSet} {keys : GoMap String TKey} (hl : loadTrx ⟨[], GoMap.empty, GoMap.empty, keys⟩ tfs = .ok set)
    (hs : env.stmts = set.statements) (hne : NoEmptyTrx env w)
    (hidle : ∀ cg ∈ w, ∀ n ∈ cg.trx, ∀ x, ((env.stmts n).getD [])[0]? = some x → x.idle = 0)
    (h : allocClients env w q t s groups = .ok (st, res)) {e L : Nat} (hL : 0 < L)
    (hlim : ∀ j cg, CfgAt w groups e j cg → (∀ n ∈ cg.trx, ∀ x ∈ (env.stmts n).getD [], x.limit = none) ∧
      finchUint cg.iter = 0 ∧ finchUint cg.iterClients = 0 ∧ finchUint cg.iterExecGroup = L)
    (h4 : L + (stageClients res).length < 2 ^ 32)
    (hone : ∃ x ∈ stageClients res, InExecGroup e x)
    (tbl : GoMap Nat Nat) (l : List (Nat × Ans))
    (hwell : ∀ (k : Nat) x, (stageClients res)[k]? = some x → InExecGroup e x →
      (∀ y ∈ l, y.1 = k → GoesWell y.2) ∧
      3 * (L * (4 * x.statements.length + 2) + x.statements.length + 7) < l.countP fun y => y.1 = k) :
    (∀ (k : Nat) x, (stageClients res)[k]? = some x → InExecGroup e x →
      ((Joint.init.run tbl (stageClients res) l).cl k).pc = .stopped .regular) ∧
    begunBy (stageClients res) (InExecGroup e) (Joint.init.run tbl (stageClients res) l) = L ∧
    ∀ j cg, CfgAt w groups e j cg → env.withStats = true → cg.disableStats = false → ∀ name cls,
      recordedBy (stageClients res) (InGroup e j) (Joint.init.run tbl (stageClients res) l) name cls =
        begunBy (stageClients res) (InGroup e j) (Joint.init.run tbl (stageClients res) l) *
          (perIteration env.stmts cg.trx).count (name, cls) := by
  have hcase := fun x hx => exec_only hne h hL (by omega) hlim hone (x := x) hx
  have hK : ∀ x ∈ stageClients res, NoUse x (egPtr groups e) ∨
      (OnlyLimit x L (egPtr groups e) ∧ ∀ st ∈ x.statements, st.limit = none) := by
    intro x hx
    rcases hcase x hx with ⟨-, h5⟩ | ⟨-, h5⟩
    · exact Or.inr h5
    · exact Or.inl h5
  have hreg : ∀ (k : Nat) x, (stageClients res)[k]? = some x → InExecGroup e x →
      ((Joint.init.run tbl (stageClients res) l).cl k).pc = .stopped .regular ∧
      ∀ i code, CEv.failed i code ∉ ((Joint.init.run tbl (stageClients res) l).cl k).trace := by
    intro k x hx hin
    have hm := List.mem_of_getElem? hx
    obtain ⟨w1, w2⟩ := hwell k x hx hin
    obtain ⟨e', j', c', hat⟩ := mem_stageClients hm
    refine C121_shared_ends tbl (stageClients res) _ _ hL h4 hK l hx ?_
      (C119_sound_partial hl hs hne hidle h hat tbl) w1 w2
    intro hno
    rcases hcase x hm with ⟨-, ⟨-, h6⟩, -⟩ | ⟨h5, -⟩
    · rcases h6 with h6 | h6
      · exact hno.1 _ h6.1
      · exact hno.2 _ h6.2
    · exact h5 hin
  refine ⟨fun k x hx hin => (hreg k x hx hin).1, ?_, fun j cg hcg hw hd name cls => ?_⟩
  · refine C121_iter_exec_group hne h hL hlim h4 tbl l (fun k x hx hin => ⟨_, (hreg k x hx hin).1⟩) ?_
    obtain ⟨x, hx, hin⟩ := hone
    obtain ⟨k, hk⟩ := List.getElem?_of_mem hx
    exact ⟨k, x, hk, hin, (hreg k x hk hin).1⟩
  · exact C121_group_records_partial hne hidle h hcg hw hd (hlim j cg hcg).1 tbl l
      (fun k x hx hin => hreg k x hx hin.1) name cls

/-- Two client groups in one execution group share five iterations; a third is in another execution group. -/
def exGroupW : List CGCfg :=
  [{ clients := "2", group := "a", trx := ["t", "u"], iterExecGroup := "5" },
   { clients := "1", group := "a", trx := ["u"], iterExecGroup := "5" },
   { clients := "1", group := "b", trx := ["u"], iter := "1" }]

def exGroupRes : List (List ACGroup) :=
  match allocClients demoEnvW exGroupW 0 0
    ((DataScope.new.load "@c" ⟨none, true⟩).load "@d" ⟨some .client, false⟩) [[0, 1], [2]] with
  | .ok r => r.2
  | _ => []

def exGroup : Joint :=
  Joint.init.run GoMap.empty (stageClients exGroupRes) (List.replicate 60 [(1, okAns), (0, okAns), (2, okAns)]).flatten

/-- The three clients of the first execution group have stopped, with five iterations together. -/
example : (List.range 3).map (fun k => ((exGroup.cl k).pc, (exGroup.cl k).iter)) =
      [(.stopped .regular, 1), (.stopped .regular, 1), (.stopped .regular, 3)] ∧
    begunBy (stageClients exGroupRes) (InExecGroup 0) exGroup = 5 := by
  decide +kernel

end Finch
