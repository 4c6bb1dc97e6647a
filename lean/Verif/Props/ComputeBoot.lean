import Verif.Props.ComputeStates
/-!
Distributed runs: an instance that failed to boot (C54).
-/
namespace Finch

/-- A handler changes only what belongs to its instance. -/
theorem hstep_nframe {w : Bool} {s s' : CSt} (v : SInv w s) {i : Nat} {lost : Bool} {hd : Handler}
    (hi : s.hs i = some hd) (h : s.hstep i lost = some s') : NFrame hd.name s s' := by
  have hp := v.pc i hd hi
  have hobj := v.hobj i hd hi
  have hfr := hstep_frame h
  have rc : ∀ m, (s.st m).runClosed = true → (s'.st m).runClosed = true := by
    intro m; rw [(hfr.metas m).runClosed]; exact id
  have same : s'.objs = s.objs → s'.nObj = s.nObj → s'.st = s.st → NFrame hd.name s s' := by
    intro e1 e2 e3
    exact ⟨fun o _ _ => by rw [e1], by rw [e2]; exact Nat.le_refl _, fun m k _ => by rw [e3], rc⟩
  have keyO : ∀ (x : RObj), (s.objs hd.obj).name = hd.name → s'.objs = updAt s.objs hd.obj x → s'.nObj = s.nObj →
      (∀ m k, k ≠ hd.name → cget k (s'.st m).clients = cget k (s.st m).clients) → NFrame hd.name s s' := by
    intro x e0 e1 e2 e3
    refine ⟨fun o _ hn => ?_, by rw [e2]; exact Nat.le_refl _, e3, rc⟩
    rw [e1, updAt_ne _ _ (fun e => hn (by rw [e]; exact e0))]
  have keyS : ∀ (m : Nat) (x : SMeta), s'.st = updAt s.st m x →
      (∀ k, k ≠ hd.name → cget k x.clients = cget k (s.st m).clients) →
      ∀ m k, k ≠ hd.name → cget k (s'.st m).clients = cget k (s.st m).clients := by
    intro m x e hx m' k hk
    rw [e]
    by_cases e' : m' = m
    · subst e'; rw [updAt_same]; exact hx k hk
    · rw [updAt_ne _ _ e']
  have keyM : ∀ (m : Nat) (x : SMeta), s'.objs = s.objs → s'.nObj = s.nObj → s'.st = updAt s.st m x →
      (∀ k, k ≠ hd.name → cget k x.clients = cget k (s.st m).clients) → NFrame hd.name s s' := by
    intro m x e1 e2 e3 hx
    exact ⟨fun o _ _ => by rw [e1], by rw [e2]; exact Nat.le_refl _, keyS m x e3 hx, rc⟩
  unfold CSt.hstep at h
  rw [hi] at h
  simp only [] at h
  split at h <;> rename_i hpc
  · cases h
    unfold CSt.lookupStep at same rc ⊢
    split
    · exact ⟨fun _ _ _ => rfl, Nat.le_refl _, fun _ _ _ => rfl, fun _ => id⟩
    split
    · exact ⟨fun _ _ _ => rfl, Nat.le_refl _, fun _ _ _ => rfl, fun _ => id⟩
    split
    · split
      · refine ⟨fun o ho _ => ?_, Nat.le_succ _, fun _ _ _ => rfl, fun _ => id⟩
        simp only [updAt_ne _ _ (show o ≠ s.nObj by omega)]
      · exact ⟨fun _ _ _ => rfl, Nat.le_refl _, fun _ _ _ => rfl, fun _ => id⟩
    · split <;> exact ⟨fun _ _ _ => rfl, Nat.le_refl _, fun _ _ _ => rfl, fun _ => id⟩
  · cases h
    unfold CSt.checkStep
    simp only []
    split
    · exact ⟨fun _ _ _ => rfl, Nat.le_refl _, fun _ _ _ => rfl, fun _ => id⟩
    all_goals split <;> exact ⟨fun _ _ _ => rfl, Nat.le_refl _, fun _ _ _ => rfl, fun _ => id⟩
  all_goals
    have hst : hd.pc ≠ .start := by rw [hpc]; simp
    simp only [pcOk, hpc] at hp
  · have hk : hd.kind = .getBoot := by
      cases hk : hd.kind <;> rw [hk] at hp <;> simp only [] at hp
    obtain ⟨o1, o2⟩ := hobj (by rw [hk]; rfl) hst
    split at h
    · cases h
    split at h
    · cases h
    split at h
    · cases h
    cases h
    exact keyO _ o2 rfl rfl (keyS _ _ rfl (fun k hk => cget_cset_ne _ hk _))
  · split at h
    · split at h <;> cases h <;> exact same rfl rfl rfl
    · cases h; exact same rfl rfl rfl
  · have hk : hd.kind = .postBoot := by
      cases hk : hd.kind <;> rw [hk] at hp <;> simp only [] at hp
    obtain ⟨o1, o2⟩ := hobj (by rw [hk]; rfl) hst
    cases h
    exact keyO _ o2 rfl rfl (fun _ _ _ => rfl)
  · split at h
    · cases h; exact keyM _ _ rfl rfl rfl (fun _ _ => rfl)
    · cases h
  · split at h
    · cases h; exact same rfl rfl rfl
    · cases h
  · split at h
    · cases h; exact keyM _ _ rfl rfl rfl (fun k hk => cget_cdel_ne hk _)
    · cases h; exact same rfl rfl rfl
  · split at h <;> cases h <;> exact same rfl rfl rfl
  · have hk : hd.kind = .getRun := by
      cases hk : hd.kind <;> rw [hk] at hp <;> simp only [] at hp
    obtain ⟨o1, o2⟩ := hobj (by rw [hk]; rfl) hst
    cases h
    exact keyO _ o2 rfl rfl (fun _ _ _ => rfl)
  · cases h; exact keyM _ _ rfl rfl rfl (fun k hk => cget_cdel_ne hk _)
  · split at h
    · cases h; exact keyM _ _ rfl rfl rfl (fun _ _ => rfl)
    · cases h
  · have hk : hd.kind = .postRun := by
      cases hk : hd.kind <;> rw [hk] at hp <;> simp only [] at hp
    obtain ⟨o1, o2⟩ := hobj (by rw [hk]; rfl) hst
    cases h
    exact keyO _ o2 rfl rfl (fun _ _ _ => rfl)
  · split at h <;> cases h <;> exact same rfl rfl rfl

/-- A handler changes only itself, and keeps its request. -/
theorem hstep_hs {s s' : CSt} {i : Nat} {lost : Bool} {hd : Handler} (hi : s.hs i = some hd)
    (h : s.hstep i lost = some s') :
    ∃ x, s'.hs = updAt s.hs i x ∧ ∀ y, x = some y → y.kind = hd.kind ∧ y.name = hd.name := by
  have nn : ∀ y : Handler, (none : Option Handler) = some y → y.kind = hd.kind ∧ y.name = hd.name :=
    fun _ e => by cases e
  have ss : ∀ (p : PC) (ob : Nat) (y : Handler), some { hd with pc := p, obj := ob } = some y →
      y.kind = hd.kind ∧ y.name = hd.name := fun _ _ _ e => by cases e; exact ⟨rfl, rfl⟩
  have ss' : ∀ (p : PC) (y : Handler), some { hd with pc := p } = some y →
      y.kind = hd.kind ∧ y.name = hd.name := fun _ _ e => by cases e; exact ⟨rfl, rfl⟩
  unfold CSt.hstep at h
  rw [hi] at h
  simp only [] at h
  split at h
  · cases h
    unfold CSt.lookupStep
    split
    · exact ⟨_, rfl, nn⟩
    split
    · exact ⟨_, rfl, nn⟩
    split
    · split
      · exact ⟨_, rfl, ss _ _⟩
      · exact ⟨_, rfl, nn⟩
    · split
      · exact ⟨_, rfl, nn⟩
      · exact ⟨_, rfl, ss _ _⟩
  · cases h
    unfold CSt.checkStep
    simp only []
    split
    · exact ⟨_, rfl, nn⟩
    all_goals
      split
      · exact ⟨_, rfl, nn⟩
      · first | exact ⟨_, rfl, nn⟩ | exact ⟨_, rfl, ss' _⟩
  · split at h
    · cases h
    split at h
    · cases h
    split at h
    · cases h
    cases h; exact ⟨_, rfl, nn⟩
  · split at h
    · split at h
      · cases h; exact ⟨_, rfl, nn⟩
      · cases h; exact ⟨_, rfl, ss' _⟩
      · cases h; exact ⟨_, rfl, ss' _⟩
    · cases h; exact ⟨_, rfl, ss' _⟩
  · cases h; exact ⟨_, rfl, ss' _⟩
  · split at h
    · cases h; exact ⟨_, rfl, nn⟩
    · cases h
  · split at h
    · cases h; exact ⟨_, rfl, ss' _⟩
    · cases h
  · split at h
    · cases h; exact ⟨_, rfl, nn⟩
    · cases h; exact ⟨_, rfl, ss' _⟩
  · split at h
    · cases h; exact ⟨_, rfl, nn⟩
    · cases h; exact ⟨_, rfl, ss' _⟩
  · cases h; exact ⟨_, rfl, nn⟩
  · cases h; exact ⟨_, rfl, ss' _⟩
  · split at h
    · cases h; exact ⟨_, rfl, ss' _⟩
    · cases h
  · cases h; exact ⟨_, rfl, nn⟩
  · split at h <;> cases h <;> exact ⟨_, rfl, nn⟩

/-- The instance `n` is a client of the stage `m`, which waits for instances to boot, and has not acknowledged. -/
structure Failed (s : CSt) (m n : Nat) : Prop where
  cur : s.cur = some m
  booted : (s.st m).booted = false
  mem : ∃ o, cget n (s.st m).clients = some o ∧ (s.objs o).state = .booting
  idle : ∀ i h, s.hs i = some h → h.kind = .postBoot → h.name ≠ n

/-- Requests of this instance other than POST /boot do nothing, and GET /boot is not answered with the stage. -/
theorem failed_own {w : Bool} {s s' : CSt} (u : UInv s) (v : SInv w s) {m n : Nat} (f : Failed s m n) {i : Nat}
    {lost : Bool} {hd : Handler} (hi : s.hs i = some hd) (hn : hd.name = n) (h : s.hstep i lost = some s') :
    s'.st = s.st ∧ (∀ o, o < s.nObj → s'.objs o = s.objs o) ∧
      (hd.kind = .getBoot → s'.resp ≠ (i, 200) :: s.resp) := by
  obtain ⟨o, hc, hbt⟩ := f.mem
  have hp := v.pc i hd hi
  have hobj := v.hobj i hd hi
  have npb : hd.kind ≠ .postBoot := fun e => f.idle i hd hi e hn
  have quiet : ∀ {l : List (Nat × Nat)} {c : Nat}, c ≠ 200 → (i, c) :: l ≠ (i, 200) :: l := by
    intro l c hne e
    simp only [List.cons.injEq, Prod.mk.injEq, true_and, and_true] at e
    exact hne e
  have noadd : ∀ {l : List (Nat × Nat)} {c : Nat}, l ≠ (i, c) :: l := by
    intro l c e
    have := congrArg List.length e
    simp only [List.length_cons] at this
    omega
  have noIn : InC s hd.obj → (s.objs hd.obj).name = hd.name → (s.objs hd.obj).state ≠ .booting → False := by
    intro hI hnm hs
    have e := (u.inC_uniq hI (hnm.trans hn) hc).2
    rw [e] at hbt
    exact hs hbt
  unfold CSt.hstep at h
  rw [hi] at h
  simp only [] at h
  split at h <;> rename_i hpc
  · cases h
    unfold CSt.lookupStep
    split
    · exact ⟨rfl, fun _ _ => rfl, fun _ => quiet (by simp)⟩
    split
    · exact ⟨rfl, fun _ _ => rfl, fun _ => quiet (by simp)⟩
    rename_i m' hcur
    split
    · split
      · refine ⟨rfl, fun k hk => ?_, fun _ => noadd⟩
        simp only [updAt_ne _ _ (show k ≠ s.nObj by omega)]
      · exact ⟨rfl, fun _ _ => rfl, fun _ => quiet (by simp)⟩
    · split
      · exact ⟨rfl, fun _ _ => rfl, fun _ => quiet (by simp)⟩
      · exact ⟨rfl, fun _ _ => rfl, fun _ => noadd⟩
  · cases h
    unfold CSt.checkStep
    simp only []
    split
    · exact ⟨rfl, fun _ _ => rfl, fun _ => quiet (by simp)⟩
    · split
      · exact ⟨rfl, fun _ _ => rfl, fun _ => quiet (by simp)⟩
      · exact ⟨rfl, fun _ _ => rfl, fun _ => noadd⟩
    all_goals
      rename_i hk
      split <;> exact ⟨rfl, fun _ _ => rfl, fun e => by rw [hk] at e; cases e⟩
  all_goals
    have hst : hd.pc ≠ .start := by rw [hpc]; simp
    simp only [pcOk, hpc] at hp
  · have hk : hd.kind = .getBoot := by
      cases hk : hd.kind <;> rw [hk] at hp <;> simp only [] at hp
    rw [hk] at hp
    simp only [] at hp
    have := hp.2 m
    rw [hn, hc] at this; cases this
  · cases hk : hd.kind <;> rw [hk] at hp <;> simp only [] at hp
    · exact absurd hk npb
    · exact (noIn hp.1 (hobj (by rw [hk]; rfl) hst).2 (by rw [hp.2]; simp)).elim
  · cases hk : hd.kind <;> rw [hk] at hp <;> simp only [] at hp
    exact absurd hk npb
  · cases hk : hd.kind <;> rw [hk] at hp <;> simp only [] at hp
    exact absurd hk npb
  · cases hk : hd.kind <;> rw [hk] at hp <;> simp only [] at hp
    exact (noIn hp.1 (hobj (by rw [hk]; rfl) hst).2 (by rw [hp.2]; simp)).elim
  · cases hk : hd.kind <;> rw [hk] at hp <;> simp only [] at hp
    exact (noIn hp.1 (hobj (by rw [hk]; rfl) hst).2 (by rw [hp.2.1]; simp)).elim
  · cases hk : hd.kind <;> rw [hk] at hp <;> simp only [] at hp
    exact (noIn hp.1 (hobj (by rw [hk]; rfl) hst).2 (by rw [hp.2.1]; simp)).elim
  · cases hk : hd.kind <;> rw [hk] at hp <;> simp only [] at hp
    exact (noIn hp.1 (hobj (by rw [hk]; rfl) hst).2 (by rw [hp.2.1]; simp)).elim
  · cases hk : hd.kind <;> rw [hk] at hp <;> simp only [] at hp
    exact (noIn hp.1 (hobj (by rw [hk]; rfl) hst).2 (by rw [hp.2]; simp)).elim
  · cases hk : hd.kind <;> rw [hk] at hp <;> simp only [] at hp
    have := hp.2 m
    rw [hn, hc] at this; cases this
  · cases hk : hd.kind <;> rw [hk] at hp <;> simp only [] at hp
    have := hp.2 m
    rw [hn, hc] at this; cases this
  · have hk : hd.kind = .stats := by
      cases hk : hd.kind <;> rw [hk] at hp <;> simp only [] at hp
    split at h <;> cases h <;> exact ⟨rfl, fun _ _ => rfl, fun e => by rw [hk] at e; cases e⟩

/-- The server keeps waiting for this stage. -/
theorem Failed.phase {w : Bool} {s : CSt} (u : UInv s) (v : SInv w s) {m n : Nat} (f : Failed s m n) :
    (∃ k, s.phase = .boot m k ∧ k < (s.st m).nInst) ∨ s.phase = .stopped := by
  obtain ⟨o, hc, hbt⟩ := f.mem
  have hrc : (s.st m).runClosed = false := by
    cases hb : (s.st m).runClosed
    · rfl
    · have := f.booted
      rw [u.closed m hb] at this; cases this
  have hlt := ack_count u v hrc hc (by rw [hbt]; simp)
  have hp := u.phase
  unfold PhaseOk at hp
  rcases u.curb m f.cur f.booted with ⟨k, e⟩ | e | e
  · rw [e] at hp
    exact Or.inl ⟨k, e, by rw [← hp.2.1]; exact hlt⟩
  · rw [e] at hp
    have := hp.2.1
    omega
  · exact Or.inr e

theorem Failed.step {w : Bool} {s s' : CSt} (u : UInv s) (v : SInv w s) {m n : Nat} (f : Failed s m n) {a : CAct}
    (ha : ∀ sid b, a ≠ .arrive .postBoot n sid b) (h : s.step a = some s') : Failed s' m n := by
  obtain ⟨o, hc, hbt⟩ := f.mem
  have hph := f.phase u v
  cases a with
  | arrive k name sid b =>
    simp only [CSt.step] at h
    cases h
    refine ⟨f.cur, f.booted, ⟨o, hc, hbt⟩, ?_⟩
    intro i hd hi hk
    by_cases e : i = s.nH
    · subst e
      simp only [updAt_same, Option.some.injEq] at hi
      subst hi
      intro e'
      simp only at hk e'
      subst hk e'
      exact ha sid b rfl
    · simp only [updAt_ne _ _ e] at hi
      exact f.idle i hd hi hk
  | handler i lost =>
    have h' : s.hstep i lost = some s' := h
    have fr := hstep_frame h'
    cases hi : s.hs i with
    | none => unfold CSt.hstep at h'; rw [hi] at h'; cases h'
    | some hd =>
      have nf := hstep_nframe v hi h'
      refine ⟨by rw [fr.cur]; exact f.cur, by rw [(fr.metas m).booted]; exact f.booted, ?_, ?_⟩
      · by_cases e : hd.name = n
        · obtain ⟨e1, e2, _⟩ := failed_own u v f hi e h'
          refine ⟨o, by rw [e1]; exact hc, ?_⟩
          rw [e2 o (v.obj _ _ _ hc).lt]; exact hbt
        · refine ⟨o, by rw [nf.cl m n (fun h => e h.symm)]; exact hc, ?_⟩
          have a := v.obj _ _ _ hc
          rw [nf.objs o a.lt (by rw [a.name]; exact fun h => e h.symm)]; exact hbt
      · intro j h1 hj hk
        have keep : ∃ h0, s.hs j = some h0 ∧ h0.kind = h1.kind ∧ h0.name = h1.name := by
          obtain ⟨x, e, hx⟩ := hstep_hs hi h'
          rw [e] at hj
          by_cases ej : j = i
          · subst ej
            rw [updAt_same] at hj
            obtain ⟨k1, k2⟩ := hx h1 hj
            exact ⟨hd, hi, k1.symm, k2.symm⟩
          · rw [updAt_ne _ _ ej] at hj
            exact ⟨h1, hj, rfl, rfl⟩
        obtain ⟨h0, e0, e1, e2⟩ := keep
        rw [← e2]
        exact f.idle j h0 e0 (by rw [e1]; exact hk)
  | begin nInst hasLocal prepared =>
    simp only [CSt.step, CSt.beginStage] at h
    rcases hph with ⟨k, e, _⟩ | e <;> rw [e] at h <;> cases h
  | tick =>
    simp only [CSt.step, CSt.tick] at h
    rcases hph with ⟨k, e, hk⟩ | e <;> rw [e] at h <;> simp only [] at h
    · rw [if_pos hk] at h
      split at h
      · cases h
      · split at h
        · cases h
          refine ⟨f.cur, ?_, ⟨o, ?_, hbt⟩, f.idle⟩ <;> simp only [CSt.setMeta, updAt_same]
          · exact f.booted
          · exact hc
        · cases h
          refine ⟨f.cur, ?_, ⟨o, ?_, hbt⟩, f.idle⟩ <;> simp only [CSt.setMeta, updAt_same]
          · exact f.booted
          · exact hc
    · cases h
  | ctxDone =>
    simp only [CSt.step] at h
    rcases hph with ⟨k, e, hk⟩ | e <;> rw [e] at h <;> simp only [] at h
    · rw [if_pos hk] at h
      cases h
      exact ⟨f.cur, f.booted, ⟨o, hc, hbt⟩, f.idle⟩
    · cases h
  | localDone k =>
    simp only [CSt.step] at h
    split at h
    · cases h
      refine ⟨f.cur, ?_, ⟨o, ?_, hbt⟩, f.idle⟩ <;> simp only [CSt.setMeta] <;> by_cases e : m = k
      · subst e; rw [updAt_same]; exact f.booted
      · rw [updAt_ne _ _ e]; exact f.booted
      · subst e; rw [updAt_same]; exact hc
      · rw [updAt_ne _ _ e]; exact hc
    · cases h

/-- Executions without overlapping requests and without POST /boot of the instance `n`. -/
inductive NoAck (w : Bool) (n : Nat) : CSt → CSt → Prop
  | refl (s : CSt) : NoAck w n s s
  | step {s s' s'' : CSt} {a : CAct} : NoAck w n s s' → serialOk w s' a → (∀ sid b, a ≠ .arrive .postBoot n sid b) →
      s'.step a = some s'' → NoAck w n s s''

theorem NoAck.reach {w : Bool} {n : Nat} {s s' : CSt} (h : SReach w s) (r : NoAck w n s s') : SReach w s' := by
  induction r with
  | refl => exact h
  | step _ h1 _ h2 ih => exact .step ih h1 h2

/-- The report of a boot error leaves the instance where it was: a client of the stage in state booting. -/
theorem C54_after_error_false {w : Bool} {s s' : CSt} (h : SReach w s) {i : Nat} {lost : Bool} {hd : Handler} {m : Nat}
    (hi : s.hs i = some hd) (hk : hd.kind = .postBoot) (hpc : hd.pc = .sendBoot) (hb : hd.body = .error)
    (hm : (s.objs hd.obj).stage = m) (hboot : (s.st m).booted = false) (hs : s.hstep i lost = some s') :
    Failed s' m hd.name := by
  have u := h.reach.uinv
  have v := h.sinv
  have hp := v.pc i hd hi
  simp only [pcOk, hpc, hk] at hp
  obtain ⟨o1, o2⟩ := v.hobj i hd hi (by rw [hk]; rfl) (by rw [hpc]; simp)
  have hbt : (s.objs hd.obj).state = .booting := by
    rcases hp.2 with ⟨_, h⟩ | ⟨h, _⟩
    · exact h
    · rw [hb] at h; cases h
  have hI := hp.1
  unfold InC at hI
  rw [o2, hm] at hI
  have hcur : s.cur = some m := by
    by_contra hcon
    rw [u.only m hcon] at hI; cases hI
  unfold CSt.hstep at hs
  rw [hi] at hs
  simp only [hpc] at hs
  split at hs
  · cases hs
    subst hm
    refine ⟨hcur, ?_, ⟨hd.obj, ?_, hbt⟩, ?_⟩
    · simp only [CSt.finish, CSt.setMeta, updAt_same]; exact hboot
    · simp only [CSt.finish, CSt.setMeta, updAt_same]; exact hI
    · intro j h1 hj hk1 hn1
      simp only [CSt.finish, CSt.setMeta] at hj
      by_cases e : j = i
      · subst e; rw [updAt_same] at hj; cases hj
      · rw [updAt_ne _ _ e] at hj
        exact e (v.serial j i h1 hd hj hi (by rw [hk1]; rfl) (by rw [hk]; rfl) hn1)
  · cases hs

/-- After a boot error the instance cannot ask for the stage again, whatever it and the others do (other than POST /boot
without GET /boot, which no instance does, see compute/client.go:114-120): no GET /boot is answered with the stage,
its place is not given to another instance, and the stage never starts. -/
theorem C54_never_boots_false {w : Bool} {s s' : CSt} (h : SReach w s) {m n : Nat} (f : Failed s m n)
    (r : NoAck w n s s') :
    Failed s' m n ∧ (s'.st m).booted = false ∧ (s'.st m).runClosed = false ∧ s'.cur = some m ∧
    (∀ i hd lost s'', s'.hs i = some hd → hd.kind = .getBoot → hd.name = n → s'.hstep i lost = some s'' →
      s''.resp ≠ (i, 200) :: s'.resp) := by
  have hf : Failed s' m n := by
    induction r with
    | refl => exact f
    | step r h1 h2 h3 ih =>
      have hr := r.reach h
      exact ih.step hr.reach.uinv hr.sinv h2 h3
  have hr := r.reach h
  refine ⟨hf, hf.booted, ?_, hf.cur, ?_⟩
  · cases hb : (s'.st m).runClosed
    · rfl
    · have := hf.booted
      rw [hr.reach.uinv.closed m hb] at this; cases this
  · intro i hd lost s'' hi hk hn hs
    exact (failed_own hr.reach.uinv hr.sinv hf hi hn hs).2.2 hk

/-- What is left: the server would accept another POST /boot of this instance (which the client never sends), as long as
there is place for acknowledgements. Missing: GET /boot after a boot error, see `C54_never_boots_false`. -/
theorem C54_ack_again_partial {s : CSt} {m n o : Nat} (hcur : s.cur = some m)
    (hc : cget n (s.st m).clients = some o) (hs : (s.objs o).stage = m) (hst : (s.objs o).state = .booting)
    (hq : (s.st m).bootQ.length < (s.st m).nInst) :
    ∃ s', s.exec ([.arrive .postBoot n (m + 1) .empty] ++ hsteps s.nH 5) = some s' ∧
      (s'.objs o).state = .runnable ∧ (s'.st m).bootQ = (s.st m).bootQ ++ [⟨some n, true⟩] ∧
      s'.resp = (s.nH, 200) :: s.resp := by
  simp only [hsteps, List.replicate, List.cons_append, List.nil_append, CSt.exec, CSt.step, CSt.hstep, updAt_same,
    CSt.lookupStep, hcur, hc, reduceCtorEq, if_false, ne_eq, not_true_eq_false, and_false, CSt.checkStep, hst,
    CSt.goto, CSt.setState, CSt.setMeta, CSt.finish, if_true, hs, hq]
  exact ⟨_, rfl, by simp only [updAt_same], by simp only [updAt_same]; simp, rfl⟩

/-- Instance 7 of two reports an error. -/
def exFail : List CAct :=
  [.begin 2 false true, .tick] ++
  [.arrive .getBoot 7 0 .empty] ++ hsteps 0 3 ++
  [.arrive .getBoot 8 0 .empty] ++ hsteps 1 3 ++
  [.arrive .postBoot 7 1 .error] ++ hsteps 2 3

example : ∃ hd, (afterSerial true exFail).hs 2 = some hd ∧ hd.kind = .postBoot ∧ hd.pc = .sendBoot ∧ hd.body = .error ∧
    ((afterSerial true exFail).objs hd.obj).stage = 0 ∧ ((afterSerial true exFail).st 0).booted = false ∧
    (serialExec true {} exFail).isSome ∧ ((afterSerial true exFail).hstep 2 false).isSome :=
  ⟨_, rfl, by decide +kernel, by decide +kernel, by decide +kernel, by decide +kernel, by decide +kernel,
    by decide +kernel, by decide +kernel⟩

/-- Afterwards GET /boot is refused with and without stage id. -/
example : (after (exFail ++ hsteps 2 1 ++ [.arrive .getBoot 7 0 .empty] ++ hsteps 3 1 ++
    [.arrive .getBoot 7 1 .empty] ++ hsteps 4 2)).resp.take 2 = [(4, 412), (3, 410)] := by decide +kernel

/-! ### A request that the client gave up -/

/-- GET /boot of instance 9 waits for a place; the client gives up after two seconds and leaves (the handler does not
notice); when there is a new stage the handler takes a place in it. The instance tries again and is refused. -/
def exStale : List CAct :=
  [.begin 1 false true, .tick] ++
  [.arrive .getBoot 7 0 .empty] ++ hsteps 0 3 ++
  [.arrive .getBoot 9 0 .empty] ++ hsteps 1 2 ++
  [.arrive .postBoot 7 1 .empty] ++ hsteps 2 5 ++ List.replicate 4 .tick ++
  [.arrive .getRun 7 1 .empty] ++ hsteps 3 6 ++ [.arrive .postRun 7 1 .empty] ++ hsteps 4 6 ++
  [.tick, .tick, .begin 1 false true, .tick, .tick] ++ hsteps 1 1 ++
  [.arrive .getBoot 9 0 .empty] ++ hsteps 5 1

/-- The place in the second stage is taken by a request that nobody waits for, and the instance is refused. -/
theorem C54_stale_request_false : ∃ s, CReach s ∧ s.cur = some 1 ∧ (s.st 1).nRem = 1 ∧
    (s.st 1).clients = [(9, 1)] ∧ (s.objs 1).state = .booting ∧ s.resp.take 2 = [(5, 410), (1, 200)] :=
  ⟨after exStale, after_reach (by decide +kernel), by decide +kernel, by decide +kernel, by decide +kernel,
    by decide +kernel, by decide +kernel⟩

end Finch
