import Verif.Props.ComputeBoot
/-!
Distributed runs: the end of a stage (C57) and boot tests (C91).
-/
namespace Finch

/-! ### C91 -/

/-- Places of a handler that are not reached in a boot test. -/
def PC.afterStart : PC → Bool
  | .afterRun | .write | .setRunning | .del | .sendDone | .setReady | .recv => true
  | _ => false

/-- What holds in a boot test. -/
structure TInv (s : CSt) : Prop where
  test : s.test = true
  closed : ∀ m, (s.st m).runClosed = false
  objs : ∀ o, (s.objs o).state ≠ .running
  hs : ∀ i hd, s.hs i = some hd → hd.pc.afterStart = false ∧ (hd.pc = .body → hd.kind = .postBoot)
  phase : (∀ m, s.phase ≠ .release m) ∧ (∀ m n, s.phase ≠ .run m n) ∧ (∀ o m n, s.phase ≠ .stopping o m n)

theorem TInv.init : TInv { test := true } := by
  refine ⟨rfl, fun _ => rfl, ?_, ?_, ?_, ?_, ?_⟩ <;> simp

/-- A step that changes one handler, and nothing else of interest. -/
theorem TInv.upd {s s' : CSt} (t : TInv s) (i : Nat) (h0 : Option Handler) (h1 : s'.test = s.test)
    (h2 : ∀ m, (s'.st m).runClosed = (s.st m).runClosed)
    (h3 : ∀ o, (s'.objs o).state ≠ .running) (h4 : s'.hs = updAt s.hs i h0)
    (h5 : ∀ hd, h0 = some hd → hd.pc.afterStart = false ∧ (hd.pc = .body → hd.kind = .postBoot))
    (h6 : s'.phase = s.phase) : TInv s' := by
  refine ⟨by rw [h1]; exact t.test, fun m => by rw [h2]; exact t.closed m, h3, ?_, by rw [h6]; exact t.phase⟩
  intro j hd hj
  rw [h4] at hj
  by_cases e : j = i
  · subst e
    rw [updAt_same] at hj
    exact h5 hd hj
  · rw [updAt_ne _ _ e] at hj
    exact t.hs j hd hj

theorem TInv.goto {s : CSt} (t : TInv s) {i : Nat} {h : Handler} {pc : PC} (h1 : pc.afterStart = false)
    (h2 : pc = .body → h.kind = .postBoot) : TInv (s.goto i h pc) :=
  t.upd i (some { h with pc := pc }) rfl (fun _ => rfl) t.objs rfl
    (fun hd e => by cases e; exact ⟨h1, h2⟩) rfl

theorem TInv.finish {s : CSt} (t : TInv s) (i code : Nat) : TInv (s.finish i code) :=
  t.upd i none rfl (fun _ => rfl) t.objs rfl (fun hd e => by cases e) rfl

theorem TInv.setMeta {s : CSt} (t : TInv s) (m : Nat) (x : SMeta) (hx : x.runClosed = false) :
    TInv (s.setMeta m x) := by
  refine ⟨t.test, fun k => ?_, t.objs, t.hs, t.phase⟩
  by_cases e : k = m
  · subst e; simp only [CSt.setMeta, updAt_same]; exact hx
  · simp only [CSt.setMeta, updAt_ne _ _ e]; exact t.closed k

theorem TInv.obj {s s' : CSt} (t : TInv s) (o : Nat) (x : RObj) (hx : x.state ≠ .running)
    (h1 : s'.test = s.test) (h2 : s'.st = s.st) (h3 : s'.objs = updAt s.objs o x)
    (h4 : s'.hs = s.hs) (h5 : s'.phase = s.phase) : TInv s' := by
  refine ⟨by rw [h1]; exact t.test, by rw [h2]; exact t.closed, fun k => ?_, by rw [h4]; exact t.hs,
    by rw [h5]; exact t.phase⟩
  rw [h3]
  by_cases e : k = o
  · subst e; rw [updAt_same]; exact hx
  · rw [updAt_ne _ _ e]; exact t.objs k

theorem TInv.move {s : CSt} (t : TInv s) (c : Option Nat) (p : Phase) (h1 : ∀ m, p ≠ .release m)
    (h2 : ∀ m n, p ≠ .run m n) (h3 : ∀ o m n, p ≠ .stopping o m n) :
    TInv { s with cur := c, phase := p } :=
  ⟨t.test, t.closed, t.objs, t.hs, h1, h2, h3⟩

theorem TInv.lookup {s : CSt} (t : TInv s) (i : Nat) (h : Handler) : TInv (s.lookupStep i h) := by
  unfold CSt.lookupStep
  split
  · exact t.finish _ _
  split
  · exact t.finish _ _
  split
  · split
    · refine t.upd i _ rfl (fun _ => rfl) ?_ rfl (fun hd e => by cases e; exact ⟨rfl, fun h => by cases h⟩) rfl
      intro o
      dsimp only
      by_cases e : o = s.nObj
      · subst e; rw [updAt_same]; simp
      · rw [updAt_ne _ _ e]; exact t.objs o
    · exact t.finish _ _
  · split
    · exact t.finish _ _
    · exact t.upd i _ rfl (fun _ => rfl) t.objs rfl
        (fun hd e => by cases e; exact ⟨rfl, fun h => by cases h⟩) rfl

theorem TInv.check {s : CSt} (t : TInv s) (i : Nat) (h : Handler) : TInv (s.checkStep i h) := by
  have hne := t.objs h.obj
  unfold CSt.checkStep
  dsimp only
  split
  · exact t.finish _ _
  · split
    · exact t.finish _ _
    · exact t.goto rfl (fun h => by cases h)
  · split
    · exact t.finish _ _
    · rename_i hk _; exact t.goto rfl (fun _ => hk)
  · split
    · exact t.finish _ _
    · exact t.goto rfl (fun h => by cases h)
  · rw [if_pos hne]; exact t.finish _ _
  · rw [if_pos hne]; exact t.finish _ _
  · split <;> exact t.finish _ _
  · split <;> exact t.finish _ _

theorem TInv.hstep {s s' : CSt} (t : TInv s) {i : Nat} {lost : Bool} (h : s.hstep i lost = some s') :
    TInv s' ∧ (∀ m, (s.st m).clients ≠ [] → (s'.st m).clients ≠ []) ∧ s'.cur = s.cur := by
  unfold CSt.hstep at h
  split at h
  · cases h
  rename_i hd hi
  obtain ⟨h1, h2⟩ := t.hs i hd hi
  simp only [] at h
  split at h
  · cases h
    refine ⟨t.lookup i hd, ?_, ?_⟩
    · intro m hm
      have : (s.lookupStep i hd).st = s.st := by
        unfold CSt.lookupStep
        split
        · rfl
        split
        · rfl
        split
        · split <;> rfl
        · split <;> rfl
      rw [this]; exact hm
    · unfold CSt.lookupStep
      split
      · rfl
      split
      · rename_i hc; rw [hc]; exact hc
      rename_i hc
      split
      · split
        · rw [hc]
        · exact rfl
      · split
        · rfl
        · rw [hc]
  · cases h
    refine ⟨t.check i hd, ?_, ?_⟩
    · intro m hm
      have : (s.checkStep i hd).st = s.st := by
        unfold CSt.checkStep
        dsimp only
        split
        · rfl
        all_goals split <;> rfl
      rw [this]; exact hm
    · unfold CSt.checkStep
      dsimp only
      split
      · rfl
      all_goals split <;> rfl
  · split at h
    · cases h
    rename_i c hc
    split at h
    · cases h
    split at h
    · cases h
    cases h
    refine ⟨?_, ?_, ?_⟩
    · refine TInv.finish (TInv.setMeta ?_ _ _ (by exact t.closed c)) _ _
      exact t.obj _ _ (by simp) rfl rfl rfl rfl rfl
    · intro m hm
      simp only [CSt.finish, CSt.setMeta]
      by_cases e : m = c
      · subst e; rw [updAt_same]; simp [cset]
      · rw [updAt_ne _ _ e]; exact hm
    · rfl
  · rename_i hpc
    rw [if_pos (h2 hpc)] at h
    split at h
    · cases h; exact ⟨t.finish _ _, fun _ h => h, rfl⟩
    · cases h; exact ⟨t.goto rfl (fun h => by cases h), fun _ h => h, rfl⟩
    · cases h; exact ⟨t.goto rfl (fun h => by cases h), fun _ h => h, rfl⟩
  · cases h
    refine ⟨TInv.goto (s := s.setState _ _) ?_ rfl (fun h => by cases h), fun _ h => h, rfl⟩
    exact t.obj _ _ (by simp) rfl rfl rfl rfl rfl
  · split at h
    · cases h
      refine ⟨TInv.finish (t.setMeta _ _ (by exact t.closed _)) _ _, ?_, rfl⟩
      intro m hm
      simp only [CSt.finish, CSt.setMeta]
      by_cases e : m = (s.objs hd.obj).stage
      · subst e; rw [updAt_same]; exact hm
      · rw [updAt_ne _ _ e]; exact hm
    · cases h
  · rw [t.closed, if_neg (by simp)] at h; cases h
  all_goals (rename_i hpc; rw [hpc] at h1; cases h1)

theorem TInv.tick {s s' : CSt} (u : UInv s) (t : TInv s) (h : s.tick = some s') :
    TInv s' ∧ (∀ m, (s'.st m).clients = (s.st m).clients) ∧
    (∀ m, s.cur = some m → (s.st m).clients ≠ [] → s'.cur = some m) := by
  have hm : ∀ (m : Nat) (x : SMeta), x.clients = (s.st m).clients → ∀ k,
      ((s.setMeta m x).st k).clients = (s.st k).clients := by
    intro m x hx k
    simp only [CSt.setMeta]
    by_cases e : k = m
    · subst e; rw [updAt_same]; exact hx
    · rw [updAt_ne _ _ e]
  have hcl : ∀ (m : Nat) (x : SMeta), x.runClosed = false → ∀ k,
      ((s.setMeta m x).st k).runClosed = false := by
    intro m x hx k
    simp only [CSt.setMeta]
    by_cases e : k = m
    · subst e; rw [updAt_same]; exact hx
    · rw [updAt_ne _ _ e]; exact t.closed k
  unfold CSt.tick at h
  split at h
  · cases h
  · split at h
    · cases h
      exact ⟨⟨t.test, hcl _ _ (t.closed _), t.objs, t.hs, by simp, by simp, by simp⟩, hm _ _ rfl,
        fun _ h _ => h⟩
    · cases h
  · split at h
    · split at h
      · rename_i hc
        cases h
        exact ⟨⟨t.test, t.closed, t.objs, t.hs, by simp, by simp, by simp⟩, fun _ => rfl,
          fun m h _ => by rw [hc] at h; cases h⟩
      · cases h
        exact ⟨⟨t.test, hcl _ _ (t.closed _), t.objs, t.hs, by simp, by simp, by simp⟩, hm _ _ rfl,
          fun _ h _ => h⟩
    · cases h
      exact ⟨⟨t.test, t.closed, t.objs, t.hs, by simp, by simp, by simp⟩, fun _ => rfl, fun _ h _ => h⟩
  · rename_i old m hph
    have hp := u.phase
    unfold PhaseOk at hp
    rw [hph] at hp
    split at h
    · rename_i hc
      cases h
      refine ⟨⟨t.test, t.closed, t.objs, t.hs, by simp, by simp, by simp⟩, fun _ => rfl, ?_⟩
      intro k hk hne
      rw [hp.2.2.2] at hk
      cases hk
      exact absurd hc hne
    · cases h
  · split at h
    · split at h
      · cases h
      · split at h
        · cases h
          exact ⟨⟨t.test, hcl _ _ (t.closed _), t.objs, t.hs, by simp, by simp, by simp⟩, hm _ _ rfl,
            fun _ h _ => h⟩
        · cases h
          exact ⟨⟨t.test, hcl _ _ (t.closed _), t.objs, t.hs, t.phase⟩, hm _ _ rfl, fun _ h _ => h⟩
    · cases h
      exact ⟨⟨t.test, t.closed, t.objs, t.hs, by simp, by simp, by simp⟩, fun _ => rfl, fun _ h _ => h⟩
  · cases h
    refine ⟨⟨t.test, hcl _ _ (t.closed _), t.objs, t.hs, ?_, ?_, ?_⟩, hm _ _ rfl, fun _ h _ => h⟩ <;>
      simp [t.test]
  · rename_i m hph; exact absurd hph (t.phase.1 m)
  · rename_i m n hph; exact absurd hph (t.phase.2.1 m n)
  · rename_i o m n hph; exact absurd hph (t.phase.2.2 o m n)
  · cases h

theorem TInv.step {s s' : CSt} (u : UInv s) (t : TInv s) {a : CAct} (h : s.step a = some s') :
    TInv s' ∧ (∀ m, s.cur = some m → (s.st m).clients ≠ [] → s'.cur = some m ∧ (s'.st m).clients ≠ []) := by
  cases a with
  | arrive k n sid b =>
    simp only [CSt.step] at h
    cases h
    exact ⟨t.upd _ _ rfl (fun _ => rfl) t.objs rfl
      (fun hd e => by cases e; exact ⟨rfl, fun h => by cases h⟩) rfl, fun m h1 h2 => ⟨h1, h2⟩⟩
  | handler i lost =>
    obtain ⟨h1, h2, h3⟩ := t.hstep h
    exact ⟨h1, fun m hm hne => ⟨by rw [h3]; exact hm, h2 m hne⟩⟩
  | begin nInst hasLocal prepared =>
    simp only [CSt.step, CSt.beginStage] at h
    split at h
    · split at h
      · cases h
        exact ⟨⟨t.test, t.closed, t.objs, t.hs, by simp, by simp, by simp⟩, fun m h1 h2 => ⟨h1, h2⟩⟩
      · cases h
        refine ⟨⟨t.test, fun k => ?_, t.objs, t.hs, ?_, ?_, ?_⟩, fun m h1 h2 => ⟨h1, ?_⟩⟩
        · dsimp only
          by_cases e : k = s.nSt
          · subst e; rw [updAt_same]
          · rw [updAt_ne _ _ e]; exact t.closed k
        · intro m; dsimp only; split <;> simp
        · intro m n; dsimp only; split <;> simp
        · intro o m n; dsimp only; split <;> simp
        · dsimp only
          rw [updAt_ne _ _ (by have := u.cur m h1; omega)]
          exact h2
    · cases h
  | tick =>
    obtain ⟨h1, h2, h3⟩ := TInv.tick u t h
    exact ⟨h1, fun m hm hne => ⟨h3 m hm hne, by rw [h2]; exact hne⟩⟩
  | ctxDone =>
    simp only [CSt.step] at h
    split at h
    · split at h
      · cases h
        exact ⟨⟨t.test, t.closed, t.objs, t.hs, by simp, by simp, by simp⟩, fun m h1 h2 => ⟨h1, h2⟩⟩
      · cases h
    · rename_i m n hph; exact absurd hph (t.phase.2.1 m n)
    · cases h
  | localDone m =>
    simp only [CSt.step, t.closed, Bool.and_false, Bool.false_and] at h
    cases h

theorem step_test {s s' : CSt} {a : CAct} (h : s.step a = some s') : s'.test = s.test := by
  cases a with
  | arrive k n sid b => simp only [CSt.step] at h; cases h; rfl
  | begin nInst hasLocal prepared =>
    simp only [CSt.step, CSt.beginStage] at h
    split at h
    · split at h <;> cases h <;> rfl
    · cases h
  | tick =>
    simp only [CSt.step, CSt.tick] at h
    split at h
    · cases h
    · split at h
      · cases h; rfl
      · cases h
    · split at h
      · split at h <;> cases h <;> rfl
      · cases h; rfl
    · split at h
      · cases h; rfl
      · cases h
    · split at h
      · split at h
        · cases h
        · split at h <;> cases h <;> rfl
      · cases h; rfl
    · cases h; rfl
    · cases h; rfl
    · split at h
      · cases h; rfl
      · split at h
        · cases h
        · cases h; rfl
    · split at h
      · cases h; rfl
      · cases h
    · cases h
  | ctxDone =>
    simp only [CSt.step] at h
    split at h
    · split at h
      · cases h; rfl
      · cases h
    · split at h
      · cases h
      · split at h <;> cases h <;> rfl
    · cases h
  | localDone m =>
    simp only [CSt.step] at h
    split at h
    · cases h; rfl
    · cases h
  | handler i lost =>
    have h : s.hstep i lost = some s' := h
    unfold CSt.hstep at h
    split at h
    · cases h
    rename_i hd hi
    simp only [] at h
    split at h
    · cases h
      unfold CSt.lookupStep
      split
      · rfl
      split
      · rfl
      split
      · split <;> rfl
      · split <;> rfl
    · cases h
      unfold CSt.checkStep
      dsimp only
      split
      · rfl
      all_goals split <;> rfl
    · split at h
      · cases h
      split at h
      · cases h
      split at h
      · cases h
      cases h; rfl
    · split at h
      · split at h <;> cases h <;> rfl
      · cases h; rfl
    · cases h; rfl
    · split at h
      · cases h; rfl
      · cases h
    · split at h
      · cases h; rfl
      · cases h
    · split at h <;> cases h <;> rfl
    · split at h <;> cases h <;> rfl
    · cases h; rfl
    · cases h; rfl
    · split at h
      · cases h; rfl
      · cases h
    · cases h; rfl
    · split at h <;> cases h <;> rfl

theorem CReach.tinv {s : CSt} (h : CReach s) : s.test = true → TInv s := by
  induction h with
  | init test => intro e; cases e; exact TInv.init
  | step hr hs ih =>
    intro e
    rw [step_test hs] at e
    exact ((ih e).step hr.uinv hs).1

/-- **C91.** In a boot test nothing is run: the run signal of no stage is given and no remote instance
gets as far as running (so no statistics are accepted and no instance reports that it is done). -/
theorem C91_runs_none_partial {s : CSt} (h : CReach s) (ht : s.test = true) :
    (∀ m, (s.st m).runClosed = false) ∧ (∀ o, (s.objs o).state ≠ .running) ∧
    (∀ m n, s.phase ≠ .run m n) :=
  ⟨(h.tinv ht).closed, (h.tinv ht).objs, (h.tinv ht).phase.2.1⟩

/-- **C91 is false**: once a remote instance has joined a stage in a boot test, no other stage is ever
offered to remote instances, whatever happens: the instance waits for the run signal of the tested
stage, which is not given (`cfg.Test` is never set), and the server waits for the instance. -/
theorem C91_next_stage_false {s : CSt} (h : CReach s) (ht : s.test = true) {m : Nat}
    (hcur : s.cur = some m) (hc : (s.st m).clients ≠ []) :
    ∀ (as : List CAct) (s' : CSt), s.exec as = some s' → s'.cur = some m ∧ (s'.st m).clients ≠ [] := by
  intro as
  induction as generalizing s with
  | nil => intro s' e; cases e; exact ⟨hcur, hc⟩
  | cons a as ih =>
    intro s' e
    simp only [CSt.exec] at e
    split at e
    · cases e
    · rename_i s1 hs
      obtain ⟨-, h2⟩ := (h.tinv ht).step h.uinv hs
      obtain ⟨h3, h4⟩ := h2 m hcur hc
      exact ih (.step h hs) (by rw [step_test hs]; exact ht) h3 h4 s' e

/-- A boot test of two stages with one remote instance: the first stage is booted, the second has been
begun, and the server waits for the instance. -/
example : ∃ s, CReach s ∧ s.test = true ∧ s.cur = some 0 ∧ (s.st 0).clients ≠ [] ∧ (s.st 0).booted = true ∧
    s.phase = .switching 0 1 ∧ s.tick = none := by
  have h : CReach ((CSt.exec { test := true } ([.begin 2 true true, .tick, .tick, .arrive .getBoot 7 0 .empty] ++
      hsteps 0 3 ++ [.arrive .postBoot 7 1 .empty] ++ hsteps 1 5 ++ [.tick, .tick, .tick, .tick,
      .arrive .getRun 7 1 .empty] ++ hsteps 2 2 ++ [.begin 2 true true, .tick, .tick])).getD {}) := by
    cases e : CSt.exec { test := true } ([.begin 2 true true, .tick, .tick, .arrive .getBoot 7 0 .empty] ++
      hsteps 0 3 ++ [.arrive .postBoot 7 1 .empty] ++ hsteps 1 5 ++ [.tick, .tick, .tick, .tick,
      .arrive .getRun 7 1 .empty] ++ hsteps 2 2 ++ [.begin 2 true true, .tick, .tick]) with
    | none => exact .init false
    | some s' => exact CReach.exec (.init true) e
  refine ⟨_, h, ?_, ?_, ?_, ?_, ?_, ?_⟩ <;> decide +kernel

/-! ### C57: a stage that has ended -/

/-- Handlers that looked up their client, and the clients of a stage, refer to existing objects. -/
structure HObj (s : CSt) : Prop where
  hs : ∀ i hd, s.hs i = some hd → hd.pc = .start ∨ hd.obj < s.nObj
  clients : ∀ m n o, cget n (s.st m).clients = some o → o < s.nObj

/-- A step of the handler `i`, as far as it concerns the end of a stage. -/
structure HEnd (s s' : CSt) (i : Nat) (hd : Handler) (h0 : Option Handler) : Prop where
  nSt : s'.nSt = s.nSt
  nObj : s.nObj ≤ s'.nObj
  done : ∀ m, (s'.st m).done = (s.st m).done
  hs : s'.hs = updAt s.hs i h0
  obj : ∀ h1, h0 = some h1 → h1.obj < s'.nObj
  clients : ∀ m n o, cget n (s'.st m).clients = some o → cget n (s.st m).clients = some o ∨ o < s.nObj
  /-- who is told to run -/
  told : ∀ h1, h0 = some h1 → h1.pc = .write ∨ h1.pc = .setRunning →
    h1.obj = hd.obj ∧ (s'.objs hd.obj).stage = (s.objs hd.obj).stage ∧
    ((hd.pc = .afterRun ∧ (s.st (s.objs hd.obj).stage).done = false) ∨ hd.pc = .write)
  /-- which objects change their stage -/
  stage : ∀ o, (s'.objs o).stage = (s.objs o).stage ∨
    (o = s.nObj ∧ (s'.objs o).state = .ready ∧ hd.pc = .start) ∨
    ((s'.objs o).state = .booting ∧ (s.st (s'.objs o).stage).done = false)
  /-- which objects begin to run -/
  state : ∀ o, (s'.objs o).state = .running → (s.objs o).state = .running ∨ (hd.obj = o ∧ hd.pc = .setRunning)

theorem hend_finish {s : CSt} (i code : Nat) (hd : Handler) : HEnd s (s.finish i code) i hd none :=
  ⟨rfl, Nat.le_refl _, fun _ => rfl, rfl, fun _ h => (by cases h), fun _ _ _ h => Or.inl h,
    fun _ h => (by cases h), fun _ => Or.inl rfl, fun _ h => Or.inl h⟩

theorem hend_goto {s : CSt} (i : Nat) (hd : Handler) (pc : PC) (ho : hd.obj < s.nObj)
    (hpc : pc = .write ∨ pc = .setRunning →
      (hd.pc = .afterRun ∧ (s.st (s.objs hd.obj).stage).done = false) ∨ hd.pc = .write) :
    HEnd s (s.goto i hd pc) i hd (some { hd with pc := pc }) := by
  refine ⟨rfl, Nat.le_refl _, fun _ => rfl, rfl, ?_, fun _ _ _ h => Or.inl h, ?_, fun _ => Or.inl rfl,
    fun _ h => Or.inl h⟩
  · intro h1 e; cases e; exact ho
  · intro h1 e h; cases e; exact ⟨rfl, rfl, hpc h⟩

theorem HEnd.setMeta {s s' : CSt} {i : Nat} {hd : Handler} {h0 : Option Handler} (v : HEnd s s' i hd h0)
    (m : Nat) (x : SMeta) (hx : x.done = (s.st m).done)
    (hc : ∀ n o, cget n x.clients = some o → cget n (s.st m).clients = some o ∨ o < s.nObj) :
    HEnd s (s'.setMeta m x) i hd h0 := by
  refine ⟨v.nSt, v.nObj, fun k => ?_, v.hs, v.obj, ?_, v.told, v.stage, v.state⟩
  swap
  · intro k n o h
    simp only [CSt.setMeta] at h
    by_cases e : k = m
    · subst e; rw [updAt_same] at h; exact hc n o h
    · rw [updAt_ne _ _ e] at h; exact v.clients k n o h
  simp only [CSt.setMeta]
  by_cases e : k = m
  · subst e; rw [updAt_same]; exact hx
  · rw [updAt_ne _ _ e]; exact v.done k

theorem hstep_end {s s' : CSt} (v : HObj s) {i : Nat} {lost : Bool} {hd : Handler} (hi : s.hs i = some hd)
    (h : s.hstep i lost = some s') : ∃ h0, HEnd s s' i hd h0 := by
  have fin : ∀ code, ∃ h0, HEnd s (s.finish i code) i hd h0 := fun code => ⟨_, hend_finish i code hd⟩
  unfold CSt.hstep at h
  rw [hi] at h
  simp only [] at h
  split at h
  · rename_i hpc
    cases h
    unfold CSt.lookupStep
    split
    · exact fin _
    split
    · exact fin _
    split
    · split
      · refine ⟨_, rfl, Nat.le_succ _, fun _ => rfl, rfl, ?_, fun _ _ _ h => Or.inl h, ?_, ?_, ?_⟩
        · intro h1 e; cases e; exact Nat.lt_succ_self _
        · intro h1 e h; cases e; simp at h
        · intro o
          dsimp only
          by_cases e : o = s.nObj
          · subst e; rw [updAt_same]; exact Or.inr (Or.inl ⟨rfl, rfl, hpc⟩)
          · rw [updAt_ne _ _ e]; exact Or.inl rfl
        · intro o ho
          dsimp only at ho
          by_cases e : o = s.nObj
          · subst e; rw [updAt_same] at ho; cases ho
          · rw [updAt_ne _ _ e] at ho; exact Or.inl ho
      · exact fin _
    · split
      · exact fin _
      · rename_i o hget _
        refine ⟨_, rfl, Nat.le_refl _, fun _ => rfl, rfl, ?_, fun _ _ _ h => Or.inl h, ?_, fun _ => Or.inl rfl,
          fun _ h => Or.inl h⟩
        · intro h1 e; cases e; exact v.clients _ _ _ hget
        · intro h1 e h; cases e; simp at h
  all_goals
    rename_i hpc
    have ho : hd.obj < s.nObj := by
      rcases v.hs i hd hi with h | h
      · rw [hpc] at h; cases h
      · exact h
    have go : ∀ pc, pc ≠ .write → pc ≠ .setRunning →
      ∃ h0, HEnd s (s.goto i hd pc) i hd h0 := fun pc h1 h2 =>
        ⟨_, hend_goto i hd pc ho (fun h => by rcases h with h | h <;> contradiction)⟩
  · cases h
    unfold CSt.checkStep
    dsimp only
    split
    · exact fin _
    all_goals split <;> first | exact fin _ | exact go _ (by simp) (by simp)
  · split at h
    · cases h
    rename_i c hc
    split at h
    · cases h
    rename_i hnd
    split at h
    · cases h
    cases h
    refine ⟨none, rfl, Nat.le_refl _, ?_, rfl, fun _ h => (by cases h), ?_, fun _ h => (by cases h), ?_, ?_⟩
    · intro m
      simp only [CSt.finish, CSt.setMeta]
      by_cases e : m = c
      · subst e; rw [updAt_same]
      · rw [updAt_ne _ _ e]
    · intro m n o hg
      simp only [CSt.finish, CSt.setMeta] at hg
      by_cases e : m = c
      · subst e
        rw [updAt_same] at hg
        dsimp only at hg
        by_cases e' : n = hd.name
        · subst e'; rw [cget_cset_same] at hg; cases hg; exact Or.inr ho
        · rw [cget_cset_ne _ e'] at hg; exact Or.inl hg
      · rw [updAt_ne _ _ e] at hg; exact Or.inl hg
    · intro o
      simp only [CSt.finish, CSt.setMeta]
      by_cases e : o = hd.obj
      · subst e; rw [updAt_same]; exact Or.inr (Or.inr ⟨rfl, by simpa using hnd⟩)
      · rw [updAt_ne _ _ e]; exact Or.inl rfl
    · intro o hr
      simp only [CSt.finish, CSt.setMeta] at hr
      by_cases e : o = hd.obj
      · subst e; rw [updAt_same] at hr; cases hr
      · rw [updAt_ne _ _ e] at hr; exact Or.inl hr
  · split at h
    · split at h
      · cases h; exact fin _
      · cases h; exact go _ (by simp) (by simp)
      · cases h; exact go _ (by simp) (by simp)
    · cases h; exact go _ (by simp) (by simp)
  · -- setRunnable
    cases h
    refine ⟨_, rfl, Nat.le_refl _, fun _ => rfl, rfl, ?_, fun _ _ _ h => Or.inl h, ?_, ?_, ?_⟩
    · intro h1 e; cases e; exact ho
    · intro h1 e h; cases e; simp at h
    · intro o
      simp only [CSt.goto, CSt.setState]
      by_cases e : o = hd.obj
      · subst e; rw [updAt_same]; exact Or.inl rfl
      · rw [updAt_ne _ _ e]; exact Or.inl rfl
    · intro o hr
      simp only [CSt.goto, CSt.setState] at hr
      by_cases e : o = hd.obj
      · subst e; rw [updAt_same] at hr; cases hr
      · rw [updAt_ne _ _ e] at hr; exact Or.inl hr
  · split at h
    · cases h
      exact ⟨_, (hend_finish i 200 hd).setMeta _ _ rfl (fun _ _ h => Or.inl h)⟩
    · cases h
  · split at h
    · cases h; exact go _ (by simp) (by simp)
    · cases h
  · split at h
    · cases h
      exact ⟨_, (hend_finish i 205 hd).setMeta _ _ rfl (fun n o h => by
        by_cases e : n = hd.name
        · subst e; rw [cget_cdel_same] at h; cases h
        · rw [cget_cdel_ne e] at h; exact Or.inl h)⟩
    · rename_i hnd
      cases h
      exact ⟨_, hend_goto i hd _ ho (fun _ => Or.inl ⟨hpc, by simpa using hnd⟩)⟩
  · split at h
    · cases h; exact fin _
    · cases h
      have := hend_goto (s := s) i hd .setRunning ho (fun _ => Or.inr hpc)
      exact ⟨_, this.nSt, this.nObj, this.done, this.hs, this.obj, this.clients, this.told, this.stage, this.state⟩
  · -- setRunning
    cases h
    refine ⟨none, rfl, Nat.le_refl _, fun _ => rfl, rfl, fun _ h => (by cases h), fun _ _ _ h => Or.inl h,
      fun _ h => (by cases h), ?_, ?_⟩
    · intro o
      simp only [CSt.setState]
      by_cases e : o = hd.obj
      · subst e; rw [updAt_same]; exact Or.inl rfl
      · rw [updAt_ne _ _ e]; exact Or.inl rfl
    · intro o hr
      simp only [CSt.setState] at hr
      by_cases e : o = hd.obj
      · subst e; exact Or.inr ⟨rfl, hpc⟩
      · rw [updAt_ne _ _ e] at hr; exact Or.inl hr
  · cases h
    have := (hend_goto (s := s) i hd .sendDone ho (fun h => by rcases h with h | h <;> cases h)).setMeta
      (s.objs hd.obj).stage
      { s.st (s.objs hd.obj).stage with clients := cdel hd.name (s.st (s.objs hd.obj).stage).clients } rfl
      (fun n o h => by
        by_cases e : n = hd.name
        · subst e; rw [cget_cdel_same] at h; cases h
        · rw [cget_cdel_ne e] at h; exact Or.inl h)
    exact ⟨_, this⟩
  · split at h
    · cases h
      have := (hend_goto (s := s) i hd .setReady ho (fun h => by rcases h with h | h <;> cases h)).setMeta
        (s.objs hd.obj).stage
        { s.st (s.objs hd.obj).stage with
          doneQ := (s.st (s.objs hd.obj).stage).doneQ ++ [⟨some hd.name, hd.body ≠ .error⟩] } rfl
        (fun n o h => Or.inl h)
      exact ⟨_, this⟩
    · cases h
  · cases h
    refine ⟨none, rfl, Nat.le_refl _, fun _ => rfl, rfl, fun _ h => (by cases h), fun _ _ _ h => Or.inl h,
      fun _ h => (by cases h), ?_, ?_⟩
    · intro o
      simp only [CSt.finish, CSt.setState]
      by_cases e : o = hd.obj
      · subst e; rw [updAt_same]; exact Or.inl rfl
      · rw [updAt_ne _ _ e]; exact Or.inl rfl
    · intro o hr
      simp only [CSt.finish, CSt.setState] at hr
      by_cases e : o = hd.obj
      · subst e; rw [updAt_same] at hr; cases hr
      · rw [updAt_ne _ _ e] at hr; exact Or.inl hr
  · split at h
    · cases h; exact fin _
    · cases h
      have := hend_finish (s := s) i 200 hd
      exact ⟨_, this.nSt, this.nObj, this.done, this.hs, this.obj, this.clients, this.told, this.stage, this.state⟩

/-- A step of the server, the arrival of a request and the end of the local instance. -/
structure SEnd (s s' : CSt) : Prop where
  nSt : s.nSt ≤ s'.nSt
  nObj : s'.nObj = s.nObj
  objs : s'.objs = s.objs
  done : ∀ m, m < s.nSt → (s.st m).done = true → (s'.st m).done = true
  clients : ∀ m n o, cget n (s'.st m).clients = some o → cget n (s.st m).clients = some o
  hs : ∀ i hd, s'.hs i = some hd → s.hs i = some hd ∨ hd.pc = .start

theorem send_meta {s s' : CSt} (m : Nat) (x : SMeta) (h1 : s'.nSt = s.nSt) (h2 : s'.nObj = s.nObj)
    (h3 : s'.objs = s.objs) (h4 : s'.hs = s.hs) (h5 : s'.st = updAt s.st m x)
    (h6 : (s.st m).done = true → x.done = true) (h7 : x.clients = (s.st m).clients) : SEnd s s' := by
  refine ⟨by omega, h2, h3, fun k _ hk => ?_, fun k n o hk => ?_, fun i hd h => Or.inl (by rw [← h4]; exact h)⟩
  · rw [h5]
    by_cases e : k = m
    · subst e; rw [updAt_same]; exact h6 hk
    · rw [updAt_ne _ _ e]; exact hk
  · rw [h5] at hk
    by_cases e : k = m
    · subst e; rw [updAt_same, h7] at hk; exact hk
    · rw [updAt_ne _ _ e] at hk; exact hk

theorem send_same {s s' : CSt} (h1 : s'.nSt = s.nSt) (h2 : s'.nObj = s.nObj) (h3 : s'.objs = s.objs)
    (h4 : s'.hs = s.hs) (h5 : s'.st = s.st) : SEnd s s' :=
  ⟨by omega, h2, h3, fun k _ hk => by rw [h5]; exact hk, fun k n o hk => by rw [h5] at hk; exact hk,
    fun i hd h => Or.inl (by rw [← h4]; exact h)⟩

theorem step_end {s s' : CSt} {a : CAct} (h : s.step a = some s') :
    (∃ i lost hd, s.hs i = some hd ∧ s.hstep i lost = some s') ∨ SEnd s s' := by
  cases a with
  | arrive k n sid b =>
    simp only [CSt.step] at h
    cases h
    refine Or.inr ⟨Nat.le_refl _, rfl, rfl, fun _ _ h => h, fun _ _ _ h => h, ?_⟩
    intro i hd hi
    dsimp only at hi
    by_cases e : i = s.nH
    · subst e; rw [updAt_same] at hi; cases hi; exact Or.inr rfl
    · rw [updAt_ne _ _ e] at hi; exact Or.inl hi
  | handler i lost =>
    cases hi : s.hs i with
    | none => simp [CSt.step, CSt.hstep, hi] at h
    | some hd => exact Or.inl ⟨i, lost, hd, hi, h⟩
  | begin nInst hasLocal prepared =>
    refine Or.inr ?_
    simp only [CSt.step, CSt.beginStage] at h
    split at h
    · split at h
      · cases h; exact send_same rfl rfl rfl rfl rfl
      · cases h
        refine ⟨Nat.le_succ _, rfl, rfl, ?_, ?_, fun _ _ h => Or.inl h⟩
        · intro m hm hd
          dsimp only
          rw [updAt_ne _ _ (by omega)]; exact hd
        · intro m n o hg
          dsimp only at hg
          by_cases e : m = s.nSt
          · subst e; rw [updAt_same] at hg; cases hg
          · rw [updAt_ne _ _ e] at hg; exact hg
    · cases h
  | tick =>
    refine Or.inr ?_
    simp only [CSt.step, CSt.tick] at h
    split at h
    · cases h
    · split at h
      · cases h; exact send_meta _ _ rfl rfl rfl rfl rfl id rfl
      · cases h
    · split at h
      · split at h
        · cases h; exact send_same rfl rfl rfl rfl rfl
        · cases h; exact send_meta _ _ rfl rfl rfl rfl rfl (fun _ => rfl) rfl
      · cases h; exact send_same rfl rfl rfl rfl rfl
    · split at h
      · cases h; exact send_same rfl rfl rfl rfl rfl
      · cases h
    · split at h
      · split at h
        · cases h
        · split at h
          · cases h; exact send_meta _ _ rfl rfl rfl rfl rfl id rfl
          · cases h; exact send_meta _ _ rfl rfl rfl rfl rfl id rfl
      · cases h; exact send_same rfl rfl rfl rfl rfl
    · cases h; exact send_meta _ _ rfl rfl rfl rfl rfl id rfl
    · cases h; exact send_meta _ _ rfl rfl rfl rfl rfl id rfl
    · split at h
      · cases h; exact send_same rfl rfl rfl rfl rfl
      · split at h
        · cases h
        · cases h; exact send_meta _ _ rfl rfl rfl rfl rfl id rfl
    · split at h
      · cases h; exact send_same rfl rfl rfl rfl rfl
      · cases h
    · cases h
  | ctxDone =>
    refine Or.inr ?_
    simp only [CSt.step] at h
    split at h
    · split at h
      · cases h; exact send_same rfl rfl rfl rfl rfl
      · cases h
    · split at h
      · cases h
      · split at h
        · cases h; exact send_same rfl rfl rfl rfl rfl
        · cases h; exact send_meta _ _ rfl rfl rfl rfl rfl (fun _ => rfl) rfl
    · cases h
  | localDone m =>
    refine Or.inr ?_
    simp only [CSt.step] at h
    split at h
    · cases h; exact send_meta _ _ rfl rfl rfl rfl rfl id rfl
    · cases h

theorem HObj.step {s s' : CSt} (v : HObj s) {a : CAct} (h : s.step a = some s') : HObj s' := by
  rcases step_end h with ⟨i, lost, hd, hi, h⟩ | e
  · obtain ⟨h0, w⟩ := hstep_end v hi h
    refine ⟨?_, ?_⟩
    · intro j hj ej
      rw [w.hs] at ej
      by_cases e : j = i
      · subst e; rw [updAt_same] at ej; exact Or.inr (w.obj _ ej)
      · rw [updAt_ne _ _ e] at ej
        rcases v.hs j hj ej with h | h
        · exact Or.inl h
        · exact Or.inr (Nat.lt_of_lt_of_le h w.nObj)
    · intro m n o hg
      rcases w.clients m n o hg with h | h
      · exact Nat.lt_of_lt_of_le (v.clients m n o h) w.nObj
      · exact Nat.lt_of_lt_of_le h w.nObj
  · refine ⟨?_, ?_⟩
    · intro j hj ej
      rw [e.nObj]
      rcases e.hs j hj ej with h | h
      · exact v.hs j hj h
      · exact Or.inl h
    · intro m n o hg
      rw [e.nObj]
      exact v.clients m n o (e.clients m n o hg)

theorem CReach.hobj {s : CSt} (h : CReach s) : HObj s := by
  induction h with
  | init test => exact ⟨fun _ _ h => (by cases h), fun _ _ _ h => (by cases h)⟩
  | step hr hs ih => exact ih.step hs

/-- What holds after stage `m` has ended: nobody is about to be told to run it, and only the instances
`r` run it. -/
structure EndInv (m : Nat) (r : Nat → Prop) (s : CSt) : Prop where
  known : m < s.nSt
  done : (s.st m).done = true
  hs : ∀ i hd, s.hs i = some hd → (s.objs hd.obj).stage = m → hd.pc ≠ .write ∧ hd.pc ≠ .setRunning
  objs : ∀ o, (s.objs o).stage = m → (s.objs o).state = .running → r o

theorem EndInv.step {m : Nat} {r : Nat → Prop} {s s' : CSt} (v : HObj s) (e : EndInv m r s) {a : CAct}
    (h : s.step a = some s') : EndInv m r s' := by
  rcases step_end h with ⟨i, lost, hd, hi, h⟩ | w
  · obtain ⟨h0, w⟩ := hstep_end v hi h
    refine ⟨by rw [w.nSt]; exact e.known, by rw [w.done]; exact e.done, ?_, ?_⟩
    · intro j hj ej hst
      by_contra hcon
      have hcon : hj.pc = .write ∨ hj.pc = .setRunning := by
        by_contra h; exact hcon ⟨fun e => h (Or.inl e), fun e => h (Or.inr e)⟩
      rw [w.hs] at ej
      by_cases eji : j = i
      · subst eji
        rw [updAt_same] at ej
        obtain ⟨t1, t2, t3⟩ := w.told hj ej hcon
        rw [t1, t2] at hst
        rcases t3 with ⟨-, t3⟩ | t3
        · rw [hst, e.done] at t3; cases t3
        · exact (e.hs j hd hi hst).1 t3
      · rw [updAt_ne _ _ eji] at ej
        rcases w.stage hj.obj with h | ⟨h, -, -⟩ | ⟨-, h⟩
        · rw [h] at hst
          obtain ⟨g1, g2⟩ := e.hs j hj ej hst
          rcases hcon with h | h
          · exact g1 h
          · exact g2 h
        · rcases v.hs j hj ej with g | g
          · rw [g] at hcon; rcases hcon with h | h <;> cases h
          · omega
        · rw [hst, e.done] at h; cases h
    · intro o hst hr
      rcases w.stage o with h | ⟨-, h, -⟩ | ⟨h, -⟩
      · rw [h] at hst
        rcases w.state o hr with g | ⟨g1, g2⟩
        · exact e.objs o hst g
        · subst g1
          exact absurd g2 (e.hs i hd hi hst).2
      · rw [hr] at h; cases h
      · rw [hr] at h; cases h
  · refine ⟨Nat.lt_of_lt_of_le e.known w.nSt, w.done m e.known e.done, ?_, ?_⟩
    · intro j hj ej hst
      rw [w.objs] at hst
      rcases w.hs j hj ej with h | h
      · exact e.hs j hj h hst
      · rw [h]; exact ⟨by simp, by simp⟩
    · intro o hst hr
      rw [w.objs] at hst hr
      exact e.objs o hst hr

/-- **C57.** After a stage has ended, no remote instance begins to run it any more, whatever happens
(except one whose positive response was already being written): a waiting instance gets the response 205
instead. -/
theorem C57_ended_not_run {s : CSt} (h : CReach s) {m : Nat} (hdone : (s.st m).done = true)
    (hs : ∀ i hd, s.hs i = some hd → (s.objs hd.obj).stage = m → hd.pc ≠ .write ∧ hd.pc ≠ .setRunning) :
    ∀ (as : List CAct) (s' : CSt), s.exec as = some s' → ∀ o, (s'.objs o).stage = m → (s'.objs o).state = .running →
      (s.objs o).stage = m ∧ (s.objs o).state = .running := by
  intro as s' hx
  have hk : m < s.nSt := by
    by_contra hlt
    have := h.uinv.fresh m (by omega)
    rw [this] at hdone; cases hdone
  have key : ∀ (as : List CAct) (t : CSt), CReach t →
      EndInv m (fun o => (s.objs o).stage = m ∧ (s.objs o).state = .running) t → t.exec as = some s' →
      EndInv m (fun o => (s.objs o).stage = m ∧ (s.objs o).state = .running) s' := by
    intro as
    induction as with
    | nil => intro t _ e hx; cases hx; exact e
    | cons a as ih =>
      intro t ht e hx
      simp only [CSt.exec] at hx
      split at hx
      · cases hx
      · rename_i s1 hs1
        exact ih s1 (.step ht hs1) (e.step ht.hobj hs1) hx
  exact (key as s h ⟨hk, hdone, hs, fun o h1 h2 => ⟨h1, h2⟩⟩ hx).objs

/-- **C57.** The instance that waits for the run signal of a stage that has ended: its request is answered
with 205 and it no longer belongs to the stage, so the server need not wait for it. -/
theorem C57_reset {s : CSt} {i : Nat} {lost : Bool} {hd : Handler} (hi : s.hs i = some hd)
    (hpc : hd.pc = .waitRun) (hdone : (s.st (s.objs hd.obj).stage).done = true)
    (hrun : (s.st (s.objs hd.obj).stage).runClosed = true) :
    ∃ s', s.exec [.handler i lost, .handler i lost] = some s' ∧ s'.resp = (i, 205) :: s.resp ∧ s'.hs i = none ∧
      cget hd.name (s'.st (s.objs hd.obj).stage).clients = none := by
  have h1 : s.step (.handler i lost) = some (s.goto i hd .afterRun) := by
    simp only [CSt.step, CSt.hstep, hi, hpc, hrun, if_true]
  have h2 : (s.goto i hd .afterRun).hs i = some { hd with pc := .afterRun } := by
    simp only [CSt.goto, updAt_same]
  have h3 : (s.goto i hd .afterRun).step (.handler i lost) = some
      (((s.goto i hd .afterRun).setMeta (s.objs hd.obj).stage { s.st (s.objs hd.obj).stage with
        clients := cdel hd.name (s.st (s.objs hd.obj).stage).clients }).finish i 205) := by
    simp only [CSt.step, CSt.hstep, h2]
    have : ((s.goto i hd .afterRun).st ((s.goto i hd .afterRun).objs hd.obj).stage).done = true := hdone
    rw [if_pos this]
    rfl
  have hx : s.exec [.handler i lost, .handler i lost] = some
      (((s.goto i hd .afterRun).setMeta (s.objs hd.obj).stage { s.st (s.objs hd.obj).stage with
        clients := cdel hd.name (s.st (s.objs hd.obj).stage).clients }).finish i 205) := by
    simp only [CSt.exec, h1, h3]
  refine ⟨_, hx, rfl, ?_, ?_⟩
  · simp only [CSt.finish, updAt_same]
  · simp only [CSt.finish, CSt.setMeta, updAt_same, cget_cdel_same]

/-- Finch is stopped while instance 7 waits for the run signal: the stage has ended, no positive response is being
written, and the instance gets 205. -/
def exStop : List CAct := exRelease ++ [.arrive .getRun 7 1 .empty] ++ hsteps 4 2 ++ [.ctxDone]

example : CReach (after exStop) ∧ ((after exStop).st 0).done = true ∧
    (∀ i, i < (after exStop).nH → ∀ hd, (after exStop).hs i = some hd → hd.pc = .waitRun) ∧
    (after (exStop ++ hsteps 4 2)).resp.head? = some (4, 205) := by
  refine ⟨after_reach ?_, ?_, ?_, ?_⟩ <;> decide +kernel

end Finch
