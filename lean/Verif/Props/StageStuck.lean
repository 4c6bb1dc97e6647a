import Verif.Props.StageRun
/-!
C130 needs connections: a stage with a client that can never connect does not end by itself.
-/
namespace Finch

/-- Where a client is that has never connected. -/
def CPc.unconnected : CPc → Bool
  | .connect none => true
  | .close _ => true
  | .connLoop _ => true
  | _ => false

theorem unconnected_step (c : Cli) (s : CState) (a : Ans) (h : s.pc.unconnected = true) (h1 : a.ctxDone = false)
    (h2 : a.connOk = false) : (s.step c a).pc.unconnected = true := by
  unfold CState.step
  split <;> rename_i hpc <;> rw [hpc] at h <;> try (cases h; done)
  · rename_i err
    cases err with
    | none => simp [CState.connect, h1, CState.goto, CPc.unconnected]
    | some x => simp [CPc.unconnected] at h
  · unfold CState.close
    split <;> rfl
  · simp [CState.connLoop, h1, h2, hpc, CPc.unconnected]

theorem unconnected_joint (tbl : GoMap Nat Nat) (cs : List AClient) (s : Joint) (n k : Nat) (a : Ans)
    (h : (s.cl n).pc.unconnected = true) (ha : k = n → a.ctxDone = false ∧ a.connOk = false) :
    ((s.step tbl cs k a).cl n).pc.unconnected = true := by
  have hgo : ∀ (j : Joint) (x : Cli) (p q : Nat), j.cl = s.cl → ((j.go x k a p q).cl n).pc.unconnected = true := by
    intro j x p q hj
    unfold Joint.go
    dsimp only
    by_cases hk : n = k
    · subst hk
      obtain ⟨h1, h2⟩ := ha rfl
      rw [upd_same, hj]
      exact unconnected_step _ _ _ h h1 h2
    · rw [upd_ne _ _ hk, hj]
      exact h
  unfold Joint.step
  split
  · exact h
  · split
    · split
      · dsimp only
        split
        · exact hgo _ _ _ _ rfl
        · exact h
      · dsimp only
        split
        · exact hgo _ _ _ _ rfl
        · exact h
      · exact hgo _ _ _ _ rfl
    · exact hgo _ _ _ _ rfl

/-- **C130**: connections are needed. A client that can never connect tries without end (client/client.go:124-132), and the
stage does not end by itself, in every schedule without a runtime limit and without CTRL-C. This is so whatever limits are
configured and whatever the other clients do. -/
theorem C130_unconnected {res : List (List ACGroup)} {e k : Nat} (hk : k < clientsOf (clientNums res) e)
    (tbl : GoMap Nat Nat) (acts : List RAct) (hw : ∀ a ∈ acts, a.Quiet)
    (hno : ∀ c a, RAct.client c a ∈ acts → goIndex (clientNums res) c = goIndex (clientNums res) (e, k) →
      a.ctxDone = false ∧ a.connOk = false) :
    (RunSt.init.run tbl (clientNums res) (stageClients res) acts).stage.pc ≠ .ended := by
  intro hend
  have hp := parts_run tbl (clientNums res) (stageClients res) acts hw
  have hun : ∀ (l : List RAct) (s : RunSt), (∀ a ∈ l, a ∈ acts) →
      (s.joint.cl (goIndex (clientNums res) (e, k))).pc.unconnected = true →
      ((s.run tbl (clientNums res) (stageClients res) l).joint.cl (goIndex (clientNums res) (e, k))).pc.unconnected =
        true := by
    intro l
    induction l with
    | nil => intro s _ h; exact h
    | cons a l ih =>
      intro s hl h
      refine ih _ (fun x hx => hl x (List.mem_cons_of_mem _ hx)) ?_
      cases a with
      | stage a => cases a <;> exact h
      | client c a =>
        simp only [RunSt.step]
        split
        · exact unconnected_joint tbl _ _ _ _ _ h (fun hc => hno c a (hl _ List.mem_cons_self) hc)
        · exact h
  have h1 := hun acts RunSt.init (fun _ h => h) rfl
  obtain ⟨as, es⟩ := hp.stage
  have hd := hp.done
  have hrec := C50_all_clients_run (clientNums res) as (by rw [← es]; exact hd) (by rw [← es]; exact hend) (e, k) hk
  rw [← es] at hrec
  have hov := hp.over (e, k) (by rw [hrec]; rfl)
  revert h1 hov
  generalize ((RunSt.init.run tbl (clientNums res) (stageClients res) acts).joint.cl
    (goIndex (clientNums res) (e, k))).pc = pc
  cases pc <;> simp [CPc.unconnected, CPc.isStopped]

/-- The example of C130 when the third client can never connect: the others of its execution group are over, and the next
execution group does not begin. -/
def exStuckRound : List RAct :=
  [.stage .next, .client (0, 1) okAns, .client (0, 0) okAns, .client (0, 2) { okAns with connOk := false },
   .client (1, 0) okAns, .stage (.send (0, 0)), .stage .recv, .stage (.send (0, 1)), .stage .recv,
   .stage (.send (0, 2)), .stage .recv]

def exStuck (n : Nat) : RunSt :=
  RunSt.init.run GoMap.empty (clientNums exGroupRes) (stageClients exGroupRes) (List.replicate n exStuckRound).flatten

example : 2 < clientsOf (clientNums exGroupRes) 0 ∧ (exStuck 50).stage.pc ≠ .ended ∧
    (List.range 4).map (fun k => (((exStuck 50).joint.cl k).pc, ((exStuck 50).joint.cl k).iter)) =
      [(.stopped .regular, 2), (.stopped .regular, 3), (.connLoop true, 0), (.connect none, 0)] := by
  decide +kernel

end Finch
