import Verif.Props.Compute
/-!
Distributed runs: states of remote instances (C51).
-/
namespace Finch

/-- A refused request changes nothing: only the request is gone and the response is sent. -/
theorem C51_refused {s s' : CSt} {i code : Nat} {lost : Bool} (h : s.hstep i lost = some s')
    (hr : s'.resp = (i, code) :: s.resp) (hc : 400 ≤ code) :
    s' = { s with hs := updAt s.hs i none, resp := (i, code) :: s.resp } := by
  have fin : ∀ c, (s.finish i c).resp = (i, code) :: s.resp →
      s.finish i c = { s with hs := updAt s.hs i none, resp := (i, code) :: s.resp } := by
    intro c hc
    simp only [CSt.finish, List.cons.injEq, Prod.mk.injEq, true_and, and_true] at hc
    subst hc; rfl
  have no : ∀ {P : Prop}, s.resp = (i, code) :: s.resp → P := by
    intro P e
    have := congrArg List.length e
    simp only [List.length_cons] at this
    omega
  have low : ∀ {P : Prop} (c : Nat), c < 400 → (i, c) :: s.resp = (i, code) :: s.resp → P := by
    intro P c hlt e
    simp only [List.cons.injEq, Prod.mk.injEq, true_and, and_true] at e
    omega
  unfold CSt.hstep at h
  split at h
  · cases h
  rename_i hd hi
  simp only [] at h
  split at h
  · cases h
    unfold CSt.lookupStep at hr ⊢
    split at hr
    · rename_i hb; rw [if_pos hb]; exact fin _ hr
    rename_i hb
    rw [if_neg hb]
    split at hr
    · exact fin _ hr
    split at hr
    · split at hr
      · exact no hr
      · rename_i hk; rw [if_neg hk]; exact fin _ hr
    · split at hr
      · rename_i hk; rw [if_pos hk]; exact fin _ hr
      · exact no hr
  · cases h
    unfold CSt.checkStep at hr ⊢
    simp only [] at hr ⊢
    split at hr
    · exact fin _ hr
    all_goals
      split at hr
      · rename_i hk; rw [if_pos hk]; exact fin _ hr
      · first
        | exact no hr
        | exact low 200 (by omega) hr
  · split at h
    · cases h
    split at h
    · cases h
    split at h
    · cases h
    cases h; exact low 200 (by omega) hr
  · split at h
    · split at h
      · cases h; exact low 200 (by omega) hr
      · cases h; exact no hr
      · cases h; exact no hr
    · cases h; exact no hr
  · cases h; exact no hr
  · split at h
    · cases h; exact low 200 (by omega) hr
    · cases h
  · split at h
    · cases h; exact no hr
    · cases h
  · split at h
    · cases h; exact low 205 (by omega) hr
    · cases h; exact no hr
  · split at h
    · cases h; exact low 200 (by omega) hr
    · cases h; exact low 200 (by omega) hr
  · cases h; exact no hr
  · cases h; exact no hr
  · split at h
    · cases h; exact no hr
    · cases h
  · cases h; exact low 200 (by omega) hr
  · split at h
    · cases h; exact low 200 (by omega) hr
    · cases h; exact low 200 (by omega) hr

/-- The state in which each request is allowed. -/
def ReqKind.needs : ReqKind → Option RemState
  | .getBoot => some .ready
  | .postBoot => some .booting
  | .file => some .booting
  | .getRun => some .runnable
  | .postRun => some .running
  | .stats => some .running
  | .bad => none
  | .ping => none

/-- A request of a client of the current stage in the wrong state is refused, and nothing changes. -/
theorem C51_wrong_state (s : CSt) {m n o : Nat} {k : ReqKind} {c : RemState} (b : HBody)
    (hcur : s.cur = some m) (hget : cget n (s.st m).clients = some o) (hk : k.needs = some c)
    (hst : (s.objs o).state ≠ c) :
    ∃ s', s.exec [.arrive k n (m + 1) b, .handler s.nH false, .handler s.nH false] = some s' ∧
      s'.resp = (s.nH, 412) :: s.resp ∧ s'.st = s.st ∧ s'.objs = s.objs ∧ s'.cur = s.cur ∧ s'.phase = s.phase ∧
      s'.recvd = s.recvd ∧ ∀ i, i < s.nH → s'.hs i = s.hs i := by
  have hbad : k ≠ .bad := by intro e; rw [e] at hk; cases hk
  have h1 : (s.step (.arrive k n (m + 1) b)) = some { s with
      hs := updAt s.hs s.nH (some { kind := k, name := n, sid := m + 1, body := b }), nH := s.nH + 1 } := rfl
  have h2 : ({ s with
      hs := updAt s.hs s.nH (some { kind := k, name := n, sid := m + 1, body := b }), nH := s.nH + 1 } : CSt).step
        (.handler s.nH false) = some { s with
      hs := updAt s.hs s.nH (some { kind := k, name := n, sid := m + 1, body := b, obj := o, pc := .check }),
      nH := s.nH + 1 } := by
    simp only [CSt.step, CSt.hstep, updAt_same, CSt.lookupStep, if_neg hbad, hcur, hget]
    rw [if_neg (by simp)]
    simp only [Option.some.injEq]
    congr 1
    funext x
    by_cases e : x = s.nH
    · subst e; simp only [updAt_same]
    · simp only [updAt_ne _ _ e]
  have h3 : ({ s with
      hs := updAt s.hs s.nH (some { kind := k, name := n, sid := m + 1, body := b, obj := o, pc := .check }),
      nH := s.nH + 1 } : CSt).step (.handler s.nH false) = some { s with
      hs := updAt s.hs s.nH none, nH := s.nH + 1, resp := (s.nH, 412) :: s.resp } := by
    have hh : ∀ v, updAt (updAt s.hs s.nH v) s.nH none = updAt s.hs s.nH none := by
      intro v; funext x
      by_cases e : x = s.nH
      · subst e; simp only [updAt_same]
      · simp only [updAt_ne _ _ e]
    simp only [CSt.step, CSt.hstep, updAt_same, CSt.checkStep]
    cases k <;> simp only [ReqKind.needs, Option.some.injEq, reduceCtorEq] at hk <;> subst hk <;>
      simp only [ne_eq, hst, not_false_eq_true, if_true, CSt.finish, hh]
  refine ⟨{ s with hs := updAt s.hs s.nH none, nH := s.nH + 1, resp := (s.nH, 412) :: s.resp }, ?_, rfl, rfl, rfl, rfl,
    rfl, rfl, ?_⟩
  · simp only [CSt.exec, h1, h2, h3]
  · intro i hi
    exact updAt_ne _ _ (by omega)

/-- The next state, and the request that leads to it. -/
def Advance : ReqKind → RemState → RemState → Prop
  | .getBoot, .ready, .booting => True
  | .postBoot, .booting, .runnable => True
  | .getRun, .runnable, .running => True
  | .postRun, .running, .ready => True
  | _, _, _ => False

/-- A client goes only from ready to booting, to runnable, to running, and back to ready, each with its own request,
if no instance has two requests in flight. Missing: overlapping requests, see `C51_order_false`. -/
theorem C51_order_partial {w : Bool} {s s' : CSt} (h : SReach w s) {a : CAct}
    (hs : s.step a = some s') {o : Nat} (ho : o < s.nObj) (hne : (s'.objs o).state ≠ (s.objs o).state) :
    ∃ i lost hd, a = .handler i lost ∧ s.hs i = some hd ∧ hd.obj = o ∧ hd.name = (s.objs o).name ∧
      Advance hd.kind (s.objs o).state (s'.objs o).state := by
  have u := h.reach.uinv
  have v := h.sinv
  have same : s'.objs = s.objs → ∀ {P : Prop}, P := fun e _ => absurd (by rw [e]) hne
  cases a with
  | arrive => simp only [CSt.step] at hs; cases hs; exact same rfl
  | begin nInst hasLocal prepared =>
    simp only [CSt.step, CSt.beginStage] at hs
    split at hs
    · split at hs <;> cases hs <;> exact same rfl
    · cases hs
  | tick =>
    simp only [CSt.step, CSt.tick] at hs
    refine same ?_
    split at hs
    · cases hs
    · split at hs
      · cases hs; rfl
      · cases hs
    · split at hs
      · split at hs <;> cases hs <;> rfl
      · cases hs; rfl
    · split at hs
      · cases hs; rfl
      · cases hs
    · split at hs
      · split at hs
        · cases hs
        · split at hs <;> cases hs <;> rfl
      · cases hs; rfl
    · cases hs; rfl
    · cases hs; rfl
    · split at hs
      · cases hs; rfl
      · split at hs
        · cases hs
        · cases hs; rfl
    · split at hs
      · cases hs; rfl
      · cases hs
    · cases hs
  | ctxDone =>
    simp only [CSt.step] at hs
    refine same ?_
    split at hs
    · split at hs
      · cases hs; rfl
      · cases hs
    · split at hs
      · cases hs
      · split at hs <;> cases hs <;> rfl
    · cases hs
  | localDone k =>
    simp only [CSt.step] at hs
    split at hs
    · cases hs; exact same rfl
    · cases hs
  | handler i lost =>
    refine ⟨i, lost, ?_⟩
    have hs' : s.hstep i lost = some s' := hs
    clear hs
    unfold CSt.hstep at hs'
    split at hs'
    · cases hs'
    rename_i hd hi
    simp only [] at hs'
    have hp := v.pc i hd hi
    have hobj := v.hobj i hd hi
    have other : ∀ (x : RObj), o ≠ hd.obj → s'.objs = updAt s.objs hd.obj x → False := by
      intro x e e'
      apply hne
      rw [e', updAt_ne _ _ e]
    split at hs' <;> rename_i hpc
    · cases hs'
      unfold CSt.lookupStep at hne
      exfalso
      apply hne
      split
      · rfl
      split
      · rfl
      split
      · split
        · simp only [updAt_ne _ _ (show o ≠ s.nObj by omega)]
        · rfl
      · split <;> rfl
    · cases hs'
      refine same ?_
      unfold CSt.checkStep
      simp only []
      split
      · rfl
      all_goals split <;> rfl
    all_goals
      have hst : hd.pc ≠ .start := by rw [hpc]; simp
      simp only [pcOk, hpc] at hp
    · -- join
      have hk : hd.kind = .getBoot := by
        cases hk : hd.kind <;> rw [hk] at hp <;> simp only [] at hp
      rw [hk] at hp
      simp only [] at hp
      obtain ⟨o1, o2⟩ := hobj (by rw [hk]; rfl) hst
      split at hs'
      · cases hs'
      split at hs'
      · cases hs'
      split at hs'
      · cases hs'
      cases hs'
      by_cases e : o = hd.obj
      · subst e
        refine ⟨hd, rfl, hi, rfl, o2.symm, ?_⟩
        simp only [CSt.finish, CSt.setMeta, updAt_same, hk, hp.1, Advance]
      · exact (other _ e rfl).elim
    · split at hs'
      · split at hs' <;> cases hs' <;> exact same rfl
      · cases hs'; exact same rfl
    · -- setRunnable
      have hk : hd.kind = .postBoot := by
        cases hk : hd.kind <;> rw [hk] at hp <;> simp only [] at hp
      rw [hk] at hp
      simp only [] at hp
      obtain ⟨o1, o2⟩ := hobj (by rw [hk]; rfl) hst
      cases hs'
      by_cases e : o = hd.obj
      · subst e
        refine ⟨hd, rfl, hi, rfl, o2.symm, ?_⟩
        simp only [CSt.goto, CSt.setState, updAt_same, hk, hp.2.1, Advance]
      · exact (other _ e rfl).elim
    · split at hs'
      · cases hs'; exact same rfl
      · cases hs'
    · split at hs'
      · cases hs'; exact same rfl
      · cases hs'
    · split at hs' <;> cases hs' <;> exact same rfl
    · split at hs' <;> cases hs' <;> exact same rfl
    · -- setRunning
      have hk : hd.kind = .getRun := by
        cases hk : hd.kind <;> rw [hk] at hp <;> simp only [] at hp
      rw [hk] at hp
      simp only [] at hp
      obtain ⟨o1, o2⟩ := hobj (by rw [hk]; rfl) hst
      cases hs'
      by_cases e : o = hd.obj
      · subst e
        refine ⟨hd, rfl, hi, rfl, o2.symm, ?_⟩
        simp only [CSt.setState, updAt_same, hk, hp.2.1, Advance]
      · exact (other _ e rfl).elim
    · cases hs'; exact same rfl
    · split at hs'
      · cases hs'; exact same rfl
      · cases hs'
    · -- setReady
      have hk : hd.kind = .postRun := by
        cases hk : hd.kind <;> rw [hk] at hp <;> simp only [] at hp
      rw [hk] at hp
      simp only [] at hp
      obtain ⟨o1, o2⟩ := hobj (by rw [hk]; rfl) hst
      cases hs'
      by_cases e : o = hd.obj
      · subst e
        refine ⟨hd, rfl, hi, rfl, o2.symm, ?_⟩
        simp only [CSt.finish, CSt.setState, updAt_same, hk, hp.1, Advance]
      · exact (other _ e rfl).elim
    · split at hs' <;> cases hs' <;> exact same rfl

/-- A client that is seen for the first time is ready. -/
theorem C51_new_ready {s s' : CSt} {a : CAct} (hs : s.step a = some s') {o : Nat} (h1 : s.nObj ≤ o)
    (h2 : o < s'.nObj) : (s'.objs o).state = .ready := by
  have no : s'.nObj = s.nObj → ∀ {P : Prop}, P := by intro e P; omega
  cases a with
  | arrive => simp only [CSt.step] at hs; cases hs; exact no rfl
  | begin nInst hasLocal prepared =>
    simp only [CSt.step, CSt.beginStage] at hs
    split at hs
    · split at hs <;> cases hs <;> exact no rfl
    · cases hs
  | tick =>
    simp only [CSt.step, CSt.tick] at hs
    refine no ?_
    split at hs
    · cases hs
    · split at hs
      · cases hs; rfl
      · cases hs
    · split at hs
      · split at hs <;> cases hs <;> rfl
      · cases hs; rfl
    · split at hs
      · cases hs; rfl
      · cases hs
    · split at hs
      · split at hs
        · cases hs
        · split at hs <;> cases hs <;> rfl
      · cases hs; rfl
    · cases hs; rfl
    · cases hs; rfl
    · split at hs
      · cases hs; rfl
      · split at hs
        · cases hs
        · cases hs; rfl
    · split at hs
      · cases hs; rfl
      · cases hs
    · cases hs
  | ctxDone =>
    simp only [CSt.step] at hs
    refine no ?_
    split at hs
    · split at hs
      · cases hs; rfl
      · cases hs
    · split at hs
      · cases hs
      · split at hs <;> cases hs <;> rfl
    · cases hs
  | localDone k =>
    simp only [CSt.step] at hs
    split at hs
    · cases hs; exact no rfl
    · cases hs
  | handler i lost =>
    have hs' : s.hstep i lost = some s' := hs
    clear hs
    unfold CSt.hstep at hs'
    split at hs'
    · cases hs'
    rename_i hd hi
    simp only [] at hs'
    split at hs'
    · cases hs'
      unfold CSt.lookupStep at h2 ⊢
      split at h2
      · have : o < s.nObj := h2
        omega
      rename_i hb
      rw [if_neg hb]
      split at h2
      · have : o < s.nObj := h2
        omega
      split at h2
      · split at h2
        · rename_i hk
          rw [if_pos hk]
          have h2' : o < s.nObj + 1 := h2
          have : o = s.nObj := by omega
          subst this
          simp only [updAt_same]
        · have : o < s.nObj := h2
          omega
      · split at h2
        · have : o < s.nObj := h2
          omega
        · have : o < s.nObj := h2
          omega
    · cases hs'
      refine no ?_
      unfold CSt.checkStep
      simp only []
      split
      · rfl
      all_goals split <;> rfl
    all_goals refine no ?_
    · split at hs'
      · cases hs'
      split at hs'
      · cases hs'
      split at hs'
      · cases hs'
      cases hs'; rfl
    · split at hs'
      · split at hs' <;> cases hs' <;> rfl
      · cases hs'; rfl
    · cases hs'; rfl
    · split at hs'
      · cases hs'; rfl
      · cases hs'
    · split at hs'
      · cases hs'; rfl
      · cases hs'
    · split at hs' <;> cases hs' <;> rfl
    · split at hs' <;> cases hs' <;> rfl
    · cases hs'; rfl
    · cases hs'; rfl
    · split at hs'
      · cases hs'; rfl
      · cases hs'
    · cases hs'; rfl
    · split at hs' <;> cases hs' <;> rfl

/-- Statistics are accepted only from a client that is running a stage which was released, if no instance has two
requests in flight (statistics included). Missing: overlapping requests, see `C51_stats_false`. -/
theorem C51_stats_partial {s s' : CSt} (h : SReach true s) {a : CAct} (hs : s.step a = some s') {o m : Nat}
    (hr : s'.recvd = (o, m) :: s.recvd) :
    (s.objs o).state = .running ∧ (s.objs o).stage = m ∧ cget (s.objs o).name (s.st m).clients = some o ∧
      (s.st m).runClosed = true := by
  have v := h.sinv
  have no : s.recvd = (o, m) :: s.recvd → ∀ {P : Prop}, P := by
    intro e P
    have := congrArg List.length e
    simp only [List.length_cons] at this
    omega
  cases a with
  | arrive => simp only [CSt.step] at hs; cases hs; exact no hr
  | begin nInst hasLocal prepared =>
    simp only [CSt.step, CSt.beginStage] at hs
    split at hs
    · split at hs <;> cases hs <;> exact no hr
    · cases hs
  | tick =>
    simp only [CSt.step, CSt.tick] at hs
    refine no ?_
    split at hs
    · cases hs
    · split at hs
      · cases hs; exact hr
      · cases hs
    · split at hs
      · split at hs <;> cases hs <;> exact hr
      · cases hs; exact hr
    · split at hs
      · cases hs; exact hr
      · cases hs
    · split at hs
      · split at hs
        · cases hs
        · split at hs <;> cases hs <;> exact hr
      · cases hs; exact hr
    · cases hs; exact hr
    · cases hs; exact hr
    · split at hs
      · cases hs; exact hr
      · split at hs
        · cases hs
        · cases hs; exact hr
    · split at hs
      · cases hs; exact hr
      · cases hs
    · cases hs
  | ctxDone =>
    simp only [CSt.step] at hs
    refine no ?_
    split at hs
    · split at hs
      · cases hs; exact hr
      · cases hs
    · split at hs
      · cases hs
      · split at hs <;> cases hs <;> exact hr
    · cases hs
  | localDone k =>
    simp only [CSt.step] at hs
    split at hs
    · cases hs; exact no hr
    · cases hs
  | handler i lost =>
    have hs' : s.hstep i lost = some s' := hs
    clear hs
    unfold CSt.hstep at hs'
    split at hs'
    · cases hs'
    rename_i hd hi
    simp only [] at hs'
    have hp := v.pc i hd hi
    split at hs' <;> rename_i hpc
    · cases hs'
      refine no ?_
      unfold CSt.lookupStep at hr
      split at hr
      · exact hr
      split at hr
      · exact hr
      split at hr
      · split at hr <;> exact hr
      · split at hr <;> exact hr
    · cases hs'
      refine no ?_
      unfold CSt.checkStep at hr
      simp only [] at hr
      split at hr
      · exact hr
      all_goals split at hr <;> exact hr
    · refine no ?_
      split at hs'
      · cases hs'
      split at hs'
      · cases hs'
      split at hs'
      · cases hs'
      cases hs'; exact hr
    · refine no ?_
      split at hs'
      · split at hs' <;> cases hs' <;> exact hr
      · cases hs'; exact hr
    · cases hs'; exact no hr
    · split at hs'
      · cases hs'; exact no hr
      · cases hs'
    · split at hs'
      · cases hs'; exact no hr
      · cases hs'
    · split at hs' <;> cases hs' <;> exact no hr
    · split at hs' <;> cases hs' <;> exact no hr
    · cases hs'; exact no hr
    · cases hs'; exact no hr
    · split at hs'
      · cases hs'; exact no hr
      · cases hs'
    · cases hs'; exact no hr
    · split at hs'
      · cases hs'; exact no hr
      · cases hs'
        simp only [pcOk, hpc] at hp
        simp only [List.cons.injEq, Prod.mk.injEq, and_true] at hr
        obtain ⟨e1, e2⟩ := hr
        subst e1 e2
        have hk : hd.kind = .stats := by
          cases hk : hd.kind <;> rw [hk] at hp <;> simp only [] at hp
        rw [hk] at hp
        simp only [] at hp
        have hI := (hp trivial).1
        exact ⟨(hp trivial).2, rfl, hI, (v.obj _ _ _ hI).running (hp trivial).2⟩

/-! ### Overlapping requests -/

/-- Two POST /boot pass the check; after the first one the client runs, the second one sets it back. -/
def exBack : List CAct :=
  [.begin 1 false true, .tick] ++
  [.arrive .getBoot 7 0 .empty] ++ hsteps 0 3 ++
  [.arrive .postBoot 7 1 .empty, .arrive .postBoot 7 1 .empty] ++ hsteps 1 3 ++ hsteps 2 3 ++ hsteps 1 2 ++
  List.replicate 4 .tick ++
  [.arrive .getRun 7 1 .empty] ++ hsteps 3 6

/-- With overlapping requests a client can go back from running to runnable. -/
theorem C51_order_false : ∃ s s' i, CReach s ∧ s.hstep i false = some s' ∧ (s.objs 0).state = .running ∧
    (s'.objs 0).state = .runnable := by
  refine ⟨after exBack, after (exBack ++ hsteps 2 1), 2, after_reach (by decide +kernel), rfl, by decide +kernel,
    by decide +kernel⟩

/-- POST /stats passes the check before POST /run ends the client. -/
def exLate : List CAct :=
  exRun ++ [.arrive .stats 7 1 .empty] ++ hsteps 6 2 ++ [.arrive .postRun 7 1 .empty] ++ hsteps 7 6

/-- With overlapping requests statistics are accepted from a client that is not running. -/
theorem C51_stats_false : ∃ s s' i, CReach s ∧ s.hstep i false = some s' ∧ s'.recvd = (0, 0) :: s.recvd ∧
    (s.objs 0).state = .ready ∧ cget 7 (s.st 0).clients = none := by
  refine ⟨after exLate, after (exLate ++ hsteps 6 1), 6, after_reach (by decide +kernel), rfl, by decide +kernel,
    by decide +kernel, by decide +kernel⟩

/-! ### Examples -/

example : ((after exRun).objs 0).state = .running ∧ ((after exRun).objs 1).state = .running := by decide +kernel

/-- A second GET /run of a client that is running is refused. -/
example : (after exRun).cur = some 0 ∧ cget 7 ((after exRun).st 0).clients = some 0 ∧
    ReqKind.needs .getRun = some .runnable ∧ ((after exRun).objs 0).state ≠ .runnable := by decide +kernel

example : (after (exRun ++ [.arrive .getRun 7 1 .empty] ++ hsteps 6 2)).resp.head? = some (6, 412) := by decide +kernel

/-- Statistics of a running client are accepted. -/
example : (serialExec true {} (exRun ++ [.arrive .stats 7 1 .empty] ++ hsteps 6 3)).isSome ∧
    (afterSerial true (exRun ++ [.arrive .stats 7 1 .empty] ++ hsteps 6 3)).recvd = [(0, 0)] := by decide +kernel

end Finch
