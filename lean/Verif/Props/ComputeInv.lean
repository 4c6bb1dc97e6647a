import Verif.Props.ComputeSerial
/-!
The server of distributed runs when no instance has two requests in flight: the invariant is kept.
-/
set_option linter.unusedTactic false
set_option linter.unreachableTactic false

namespace Finch

theorem NFrame.refl (n : Nat) (s : CSt) : NFrame n s s :=
  ⟨fun _ _ _ => rfl, Nat.le_refl _, fun _ _ _ => rfl, fun _ h => h⟩

theorem SInv.finish {w : Bool} {s : CSt} (v : SInv w s) {i : Nat} {h : Handler} (hi : s.hs i = some h) (code : Nat) :
    SInv w (s.finish i code) :=
  v.same hi none rfl rfl rfl rfl (fun _ e => by cases e) (fun _ e => by cases e)

theorem SInv.goto {w : Bool} {s : CSt} (v : SInv w s) {i : Nat} {h : Handler} (hi : s.hs i = some h)
    (hs : h.pc ≠ .start) (pc : PC) (hp : pcOk w s { h with pc := pc })
    (hn : pc = .sendBoot → h.body ≠ .empty) : SInv w (s.goto i h pc) := by
  refine v.same hi (some { h with pc := pc }) rfl rfl rfl rfl ?_ ?_
  · intro h' e; cases e
    exact ⟨rfl, rfl, hp, fun ht _ => v.hobj i h hi ht hs⟩
  · intro h' e; cases e
    intro _ p2 p3
    exact absurd p3 (hn p2)

theorem SInv.lookup {w : Bool} {s : CSt} (u : UInv s) (v : SInv w s) {i : Nat} {h : Handler} (hi : s.hs i = some h) :
    SInv w (s.lookupStep i h) := by
  have h7 : s.hs i ≠ none := by rw [hi]; simp
  unfold CSt.lookupStep
  split
  · exact v.finish hi _
  rename_i hbad
  split
  · exact v.finish hi _
  rename_i m hcur
  split
  · rename_i hget
    split
    · rename_i hk
      have hno : NoC s h.name := by
        intro k
        by_cases e : k = m
        · rw [e]; exact hget
        · rw [u.only k (by rw [hcur]; intro x; cases x; exact e rfl)]; rfl
      refine v.hand hi (by rw [hk]; rfl) ?_ (HFrame.of_same i _ rfl rfl rfl rfl rfl rfl rfl h7)
        (some { h with obj := s.nObj, pc := .check }) rfl ?_ ?_ ?_ ?_ ?_
      · refine ⟨fun o ho _ => ?_, Nat.le_succ _, fun _ _ _ => rfl, fun _ h => h⟩
        simp only [updAt_ne _ _ (show o ≠ s.nObj by omega)]
      · intro h' e; cases e
        refine ⟨rfl, rfl, ?_, fun _ => ⟨Nat.lt_succ_self _, by simp [updAt_same]⟩⟩
        simp only [pcOk, hk, updAt_same]
        exact Or.inr ⟨trivial, hno⟩
      · intro k o hc
        have := hno k
        simp only [] at hc
        rw [this] at hc; cases hc
      · intro k _; exact Or.inl rfl
      · intro k _ o hc
        rw [hno k] at hc; cases hc
      · intro h' e; cases e
        intro p1 p2; cases p2
    · exact v.finish hi _
  · rename_i o hget
    split
    · exact v.finish hi _
    · have a := v.obj m h.name o hget
      have hI : InC s o := by unfold InC; rw [a.name, a.stage]; exact hget
      refine v.same hi (some { h with obj := o, pc := .check }) rfl rfl rfl rfl ?_ ?_
      · intro h' e; cases e
        refine ⟨rfl, rfl, ?_, fun _ _ => ⟨a.lt, a.name⟩⟩
        cases hk : h.kind <;> simp only [pcOk]
        · exact hbad hk
        · exact Or.inl hI
        · exact hI
        · exact hI
        · exact hI
        · exact fun _ => hI
      · intro h' e; cases e
        intro p1 p2; cases p2

theorem SInv.check {w : Bool} {s : CSt} (v : SInv w s) {i : Nat} {h : Handler} (hi : s.hs i = some h)
    (hpc : h.pc = .check) : SInv w (s.checkStep i h) := by
  have hp := v.pc i h hi
  have hs : h.pc ≠ .start := by rw [hpc]; simp
  unfold CSt.checkStep
  simp only [pcOk, hpc] at hp
  simp only []
  split <;> rename_i hk <;> rw [hk] at hp <;> simp only [] at hp
  · split
    · exact v.finish hi _
    · rename_i hx
      have hx' : (s.objs h.obj).state = .ready := by
        cases hst : (s.objs h.obj).state <;> simp [hst] at hx ⊢
      refine v.goto hi hs _ ?_ (by simp)
      simp only [pcOk, hk]
      rcases hp with hI | hp
      · exact absurd hx' (v.obj _ _ _ hI).state
      · exact hp
  · split
    · exact v.finish hi _
    · rename_i hx
      refine v.goto hi hs _ ?_ (by simp)
      simp only [pcOk, hk]
      exact ⟨hp, by cases hst : (s.objs h.obj).state <;> simp [hst] at hx ⊢⟩
  · split
    · exact v.finish hi _
    · rename_i hx
      refine v.goto hi hs _ ?_ (by simp)
      simp only [pcOk, hk]
      exact ⟨hp, by cases hst : (s.objs h.obj).state <;> simp [hst] at hx ⊢⟩
  · split
    · exact v.finish hi _
    · rename_i hx
      refine v.goto hi hs _ ?_ (by simp)
      simp only [pcOk, hk]
      exact ⟨hp, by cases hst : (s.objs h.obj).state <;> simp [hst] at hx ⊢⟩
  · split
    · exact v.finish hi _
    · rename_i hx
      refine v.goto hi hs _ ?_ (by simp)
      simp only [pcOk, hk]
      exact fun hw => ⟨hp hw, by cases hst : (s.objs h.obj).state <;> simp [hst] at hx ⊢⟩
  · split <;> exact v.finish hi _
  · split <;> exact v.finish hi _

theorem SInv.hstep {w : Bool} {s s' : CSt} (u : UInv s) (v : SInv w s) {i : Nat} {lost : Bool}
    (h : s.hstep i lost = some s') : SInv w s' := by
  have hfr := hstep_frame h
  unfold CSt.hstep at h
  split at h
  · cases h
  rename_i hd hi
  simp only [] at h
  have hp := v.pc i hd hi
  have hobj := v.hobj i hd hi
  split at h <;> rename_i hpc
  · cases h; exact v.lookup u hi
  · cases h; exact v.check hi hpc
  all_goals
    have hs : hd.pc ≠ .start := by rw [hpc]; simp
    simp only [pcOk, hpc] at hp
  · -- join
    have hk : hd.kind = .getBoot := by
      cases hk : hd.kind <;> rw [hk] at hp <;> simp only [] at hp <;> rfl
    rw [hk] at hp
    simp only [] at hp
    obtain ⟨o1, o2⟩ := hobj (by rw [hk]; rfl) hs
    split at h
    · cases h
    rename_i c hc
    split at h
    · cases h
    split at h
    · cases h
    rename_i hdone hfull
    cases h
    have hbc : (s.st c).booted = false := by
      cases hb : (s.st c).booted
      · rfl
      · exact absurd (Or.inl hb) hfull
    refine v.hand hi (by rw [hk]; rfl) ?_ hfr none rfl (fun _ e => by cases e) ?_ ?_ ?_ (fun _ e => by cases e)
    · refine ⟨?_, Nat.le_refl _, ?_, ?_⟩
      · intro o ho hn
        have : o ≠ hd.obj := by intro e; subst e; exact hn o2
        simp only [CSt.finish, CSt.setMeta, updAt_ne _ _ this]
      · intro m k hkn
        simp only [CSt.finish, CSt.setMeta]
        by_cases e : m = c
        · subst e; rw [updAt_same]; exact cget_cset_ne _ hkn _
        · rw [updAt_ne _ _ e]
      · intro m
        rw [(hfr.metas m).runClosed]; exact id
    · intro m o hc'
      simp only [CSt.finish, CSt.setMeta] at hc'
      by_cases e : m = c
      · subst e
        rw [updAt_same] at hc'
        simp only [cget_cset_same, Option.some.injEq] at hc'
        subst hc'
        refine ⟨o1, ?_, ?_, ?_, ?_⟩ <;> simp only [CSt.finish, CSt.setMeta, updAt_same]
        · exact o2
        · simp
        · intro h; cases h
      · rw [updAt_ne _ _ e, hp.2 m] at hc'; cases hc'
    · intro m _
      left
      simp only [CSt.finish, CSt.setMeta]
      by_cases e : m = c
      · subst e; rw [updAt_same]
      · rw [updAt_ne _ _ e]
    · intro m _ o hc'
      rw [hp.2 m] at hc'; cases hc'
  · -- body
    split at h
    · rename_i hk
      rw [hk] at hp
      simp only [] at hp
      split at h
      · cases h; exact v.finish hi _
      · rename_i hb
        cases h
        refine v.goto hi hs _ ?_ (by rw [hb]; simp)
        simp only [pcOk, hk]
        exact ⟨hp.1, Or.inl ⟨hb, hp.2⟩⟩
      · rename_i hb
        cases h
        refine v.goto hi hs _ ?_ (by simp)
        simp only [pcOk, hk]
        exact ⟨hp.1, hp.2, hb⟩
    · rename_i hk
      cases h
      have hk' : hd.kind = .postRun := by
        cases hk' : hd.kind <;> rw [hk'] at hp <;> simp only [] at hp
        · exact absurd hk' hk
      rw [hk'] at hp
      simp only [] at hp
      refine v.goto hi hs _ ?_ (by simp)
      simp only [pcOk, hk']
      exact hp
  · -- setRunnable
    have hk : hd.kind = .postBoot := by
      cases hk : hd.kind <;> rw [hk] at hp <;> simp only [] at hp <;> rfl
    rw [hk] at hp
    simp only [] at hp
    obtain ⟨o1, o2⟩ := hobj (by rw [hk]; rfl) hs
    cases h
    refine v.hand hi (by rw [hk]; rfl) ?_ hfr (some { hd with pc := .sendBoot }) rfl ?_ ?_ (fun _ _ => Or.inl rfl) ?_ ?_
    · refine ⟨?_, Nat.le_refl _, fun _ _ _ => rfl, fun _ h => h⟩
      intro o ho hn
      have : o ≠ hd.obj := by intro e; subst e; exact hn o2
      simp only [CSt.goto, CSt.setState, updAt_ne _ _ this]
    · intro h' e; cases e
      refine ⟨rfl, rfl, ?_, fun _ => ⟨o1, by simp only [CSt.goto, CSt.setState, updAt_same]; exact o2⟩⟩
      simp only [pcOk, hk, InC, CSt.goto, CSt.setState, updAt_same]
      exact ⟨hp.1, Or.inr ⟨hp.2.2, trivial⟩⟩
    · intro m o hc
      have hc' : cget hd.name (s.st m).clients = some o := hc
      obtain ⟨e1, e2⟩ := u.inC_uniq hp.1 o2 hc'
      subst e1 e2
      refine ⟨o1, ?_, ?_, ?_, ?_⟩ <;> simp only [CSt.goto, CSt.setState, updAt_same]
      · exact o2
      · simp
      · intro h; cases h
    · intro m _ o hc hrun
      obtain ⟨e1, e2⟩ := u.inC_uniq hp.1 o2 hc
      subst e1 e2
      rw [hp.2.1] at hrun; cases hrun
    · intro h' e; cases e
      intro _ _ _ m hm hrc hmem
      obtain ⟨o, hc, hrun⟩ := (v.ack m hrc).member _ hmem
      obtain ⟨e1, e2⟩ := u.inC_uniq hp.1 o2 hc
      subst e1 e2
      rw [hp.2.1] at hrun; cases hrun
  · -- sendBoot
    have hk : hd.kind = .postBoot := by
      cases hk : hd.kind <;> rw [hk] at hp <;> simp only [] at hp <;> rfl
    rw [hk] at hp
    simp only [] at hp
    obtain ⟨o1, o2⟩ := hobj (by rw [hk]; rfl) hs
    split at h
    · cases h
      have hcl : ∀ m, ((updAt s.st (s.objs hd.obj).stage { s.st (s.objs hd.obj).stage with
          bootQ := (s.st (s.objs hd.obj).stage).bootQ ++ [⟨some hd.name, decide (hd.body = .empty)⟩] }) m).clients =
            (s.st m).clients := by
        intro m
        by_cases e : m = (s.objs hd.obj).stage
        · subst e; rw [updAt_same]
        · rw [updAt_ne _ _ e]
      refine v.hand hi (by rw [hk]; rfl) ?_ hfr none rfl (fun _ e => by cases e) ?_ ?_ ?_ (fun _ e => by cases e)
      · refine ⟨fun _ _ _ => rfl, Nat.le_refl _, ?_, ?_⟩
        · intro m k _
          simp only [CSt.finish, CSt.setMeta]
          rw [hcl]
        · intro m
          rw [(hfr.metas m).runClosed]; exact id
      · intro m o hc
        simp only [CSt.finish, CSt.setMeta] at hc
        rw [hcl] at hc
        have a := v.obj m _ o hc
        refine ⟨a.lt, a.name, a.stage, a.state, fun h => ?_⟩
        rw [(hfr.metas m).runClosed]; exact a.running h
      · intro m hm
        simp only [CSt.finish, CSt.setMeta]
        by_cases e : m = (s.objs hd.obj).stage
        · subst e
          rcases hp.2 with ⟨hb, _⟩ | ⟨hb, hr⟩
          · left
            rw [updAt_same]
            simp only [okNames_append, hb]
            simp [okNames]
          · right
            refine ⟨?_, ?_, trivial, hd.obj, ?_, hr⟩
            · rw [updAt_same]
              simp only [okNames_append, hb]
              simp [okNames]
            · exact (v.ack _ hm).pending i hd hi hk hpc hb rfl
            · rw [hcl]
              have := hp.1
              unfold InC at this
              rw [o2] at this; exact this
        · left; rw [updAt_ne _ _ e]
      · intro m _ o hc hrun
        refine ⟨o, ?_, hrun⟩
        simp only [CSt.finish, CSt.setMeta]
        rw [hcl]; exact hc
    · cases h
  · -- waitRun
    have hk : hd.kind = .getRun := by
      cases hk : hd.kind <;> rw [hk] at hp <;> simp only [] at hp <;> rfl
    rw [hk] at hp
    simp only [] at hp
    split at h
    · rename_i hrc
      cases h
      refine v.goto hi hs _ ?_ (by simp)
      simp only [pcOk, hk]
      exact ⟨hp.1, hp.2, hrc⟩
    · cases h
  · -- afterRun
    have hk : hd.kind = .getRun := by
      cases hk : hd.kind <;> rw [hk] at hp <;> simp only [] at hp <;> rfl
    rw [hk] at hp
    simp only [] at hp
    obtain ⟨o1, o2⟩ := hobj (by rw [hk]; rfl) hs
    split at h
    · cases h
      refine v.hand hi (by rw [hk]; rfl) ?_ hfr none rfl (fun _ e => by cases e) ?_ ?_ ?_ (fun _ e => by cases e)
      · refine ⟨fun _ _ _ => rfl, Nat.le_refl _, ?_, ?_⟩
        · intro m k hkn
          simp only [CSt.finish, CSt.setMeta]
          by_cases e : m = (s.objs hd.obj).stage
          · subst e; rw [updAt_same]; exact cget_cdel_ne hkn _
          · rw [updAt_ne _ _ e]
        · intro m
          rw [(hfr.metas m).runClosed]; exact id
      · intro m o hc
        simp only [CSt.finish, CSt.setMeta] at hc
        by_cases e : m = (s.objs hd.obj).stage
        · subst e; rw [updAt_same] at hc; simp only [cget_cdel_same] at hc; cases hc
        · rw [updAt_ne _ _ e] at hc
          exact absurd (u.inC_uniq hp.1 o2 hc).1 e
      · intro m _
        left
        simp only [CSt.finish, CSt.setMeta]
        by_cases e : m = (s.objs hd.obj).stage
        · subst e; rw [updAt_same]
        · rw [updAt_ne _ _ e]
      · intro m hm o hc _
        have e := (u.inC_uniq hp.1 o2 hc).1
        subst e
        rw [hp.2.2] at hm; cases hm
    · cases h
      refine v.goto hi hs _ ?_ (by simp)
      simp only [pcOk, hk]
      exact hp
  · -- write
    have hk : hd.kind = .getRun := by
      cases hk : hd.kind <;> rw [hk] at hp <;> simp only [] at hp <;> rfl
    rw [hk] at hp
    simp only [] at hp
    split at h
    · cases h; exact v.finish hi _
    · cases h
      refine v.same hi (some { hd with pc := .setRunning }) rfl rfl rfl rfl ?_ ?_
      · intro h' e; cases e
        refine ⟨rfl, rfl, ?_, fun ht _ => hobj ht hs⟩
        simp only [pcOk, hk]
        exact hp
      · intro h' e; cases e
        intro _ p2; cases p2
  · -- setRunning
    have hk : hd.kind = .getRun := by
      cases hk : hd.kind <;> rw [hk] at hp <;> simp only [] at hp <;> rfl
    rw [hk] at hp
    simp only [] at hp
    obtain ⟨o1, o2⟩ := hobj (by rw [hk]; rfl) hs
    cases h
    refine v.hand hi (by rw [hk]; rfl) ?_ hfr none rfl (fun _ e => by cases e) ?_ (fun _ _ => Or.inl rfl) ?_
      (fun _ e => by cases e)
    · refine ⟨?_, Nat.le_refl _, fun _ _ _ => rfl, fun _ h => h⟩
      intro o ho hn
      have : o ≠ hd.obj := by intro e; subst e; exact hn o2
      simp only [CSt.setState, updAt_ne _ _ this]
    · intro m o hc
      have hc' : cget hd.name (s.st m).clients = some o := hc
      obtain ⟨e1, e2⟩ := u.inC_uniq hp.1 o2 hc'
      subst e1 e2
      refine ⟨o1, ?_, ?_, ?_, ?_⟩ <;> simp only [CSt.setState, updAt_same]
      · exact o2
      · simp
      · exact fun _ => hp.2.2
    · intro m hm o hc _
      have e := (u.inC_uniq hp.1 o2 hc).1
      subst e
      rw [hp.2.2] at hm; cases hm
  · -- del
    have hk : hd.kind = .postRun := by
      cases hk : hd.kind <;> rw [hk] at hp <;> simp only [] at hp <;> rfl
    rw [hk] at hp
    simp only [] at hp
    obtain ⟨o1, o2⟩ := hobj (by rw [hk]; rfl) hs
    have hrc : (s.st (s.objs hd.obj).stage).runClosed = true := (v.obj _ _ _ hp.1).running hp.2
    cases h
    have hno : NoC ((s.setMeta (s.objs hd.obj).stage { s.st (s.objs hd.obj).stage with
        clients := cdel hd.name (s.st (s.objs hd.obj).stage).clients }).goto i hd .sendDone) hd.name := by
      intro m
      simp only [CSt.goto, CSt.setMeta]
      by_cases e : m = (s.objs hd.obj).stage
      · subst e; rw [updAt_same]; exact cget_cdel_same _ _
      · rw [updAt_ne _ _ e]
        cases hc : cget hd.name (s.st m).clients
        · rfl
        · exact absurd (u.inC_uniq hp.1 o2 hc).1 e
    refine v.hand hi (by rw [hk]; rfl) ?_ hfr (some { hd with pc := .sendDone }) rfl ?_ ?_ ?_ ?_ ?_
    · refine ⟨fun _ _ _ => rfl, Nat.le_refl _, ?_, ?_⟩
      · intro m k hkn
        simp only [CSt.goto, CSt.setMeta]
        by_cases e : m = (s.objs hd.obj).stage
        · subst e; rw [updAt_same]; exact cget_cdel_ne hkn _
        · rw [updAt_ne _ _ e]
      · intro m
        rw [(hfr.metas m).runClosed]; exact id
    · intro h' e; cases e
      refine ⟨rfl, rfl, ?_, fun _ => ⟨o1, o2⟩⟩
      simp only [pcOk, hk]
      exact ⟨hp.2, hno⟩
    · intro m o hc
      rw [hno m] at hc; cases hc
    · intro m _
      left
      simp only [CSt.goto, CSt.setMeta]
      by_cases e : m = (s.objs hd.obj).stage
      · subst e; rw [updAt_same]
      · rw [updAt_ne _ _ e]
    · intro m hm o hc _
      have e := (u.inC_uniq hp.1 o2 hc).1
      subst e
      rw [hrc] at hm; cases hm
    · intro h' e; cases e
      intro _ p2; cases p2
  · -- sendDone
    have hk : hd.kind = .postRun := by
      cases hk : hd.kind <;> rw [hk] at hp <;> simp only [] at hp <;> rfl
    rw [hk] at hp
    simp only [] at hp
    obtain ⟨o1, o2⟩ := hobj (by rw [hk]; rfl) hs
    split at h
    · cases h
      have hcl : ∀ m, ((updAt s.st (s.objs hd.obj).stage { s.st (s.objs hd.obj).stage with
          doneQ := (s.st (s.objs hd.obj).stage).doneQ ++ [⟨some hd.name, decide (hd.body ≠ .error)⟩] }) m).clients =
            (s.st m).clients := by
        intro m
        by_cases e : m = (s.objs hd.obj).stage
        · subst e; rw [updAt_same]
        · rw [updAt_ne _ _ e]
      refine v.hand hi (by rw [hk]; rfl) ?_ hfr (some { hd with pc := .setReady }) rfl ?_ ?_ ?_ ?_ ?_
      · refine ⟨fun _ _ _ => rfl, Nat.le_refl _, ?_, ?_⟩
        · intro m k _
          simp only [CSt.goto, CSt.setMeta]
          rw [hcl]
        · intro m
          rw [(hfr.metas m).runClosed]; exact id
      · intro h' e; cases e
        refine ⟨rfl, rfl, ?_, fun _ => ⟨o1, o2⟩⟩
        simp only [pcOk, hk]
        refine ⟨hp.1, fun m => ?_⟩
        simp only [CSt.goto, CSt.setMeta]
        rw [hcl]; exact hp.2 m
      · intro m o hc
        simp only [CSt.goto, CSt.setMeta] at hc
        rw [hcl, hp.2 m] at hc; cases hc
      · intro m _
        left
        simp only [CSt.goto, CSt.setMeta]
        by_cases e : m = (s.objs hd.obj).stage
        · subst e; rw [updAt_same]
        · rw [updAt_ne _ _ e]
      · intro m hm o hc _
        rw [hp.2 m] at hc; cases hc
      · intro h' e; cases e
        intro _ p2; cases p2
    · cases h
  · -- setReady
    have hk : hd.kind = .postRun := by
      cases hk : hd.kind <;> rw [hk] at hp <;> simp only [] at hp <;> rfl
    rw [hk] at hp
    simp only [] at hp
    obtain ⟨o1, o2⟩ := hobj (by rw [hk]; rfl) hs
    cases h
    refine v.hand hi (by rw [hk]; rfl) ?_ hfr none rfl (fun _ e => by cases e) ?_ (fun _ _ => Or.inl rfl) ?_
      (fun _ e => by cases e)
    · refine ⟨?_, Nat.le_refl _, fun _ _ _ => rfl, fun _ h => h⟩
      intro o ho hn
      have : o ≠ hd.obj := by intro e; subst e; exact hn o2
      simp only [CSt.finish, CSt.setState, updAt_ne _ _ this]
    · intro m o hc
      have hc' : cget hd.name (s.st m).clients = some o := hc
      rw [hp.2 m] at hc'; cases hc'
    · intro m hm o hc _
      rw [hp.2 m] at hc; cases hc
  · -- recv
    split at h
    · cases h; exact v.finish hi _
    · cases h
      exact v.same hi none rfl rfl rfl rfl (fun _ e => by cases e) (fun _ e => by cases e)

theorem SInv.tick {w : Bool} {s s' : CSt} (u : UInv s) (v : SInv w s) (h : s.tick = some s') : SInv w s' := by
  have hp := u.phase
  have huc := u.closed
  unfold CSt.tick at h
  unfold PhaseOk at hp
  split at h <;> rename_i hph <;> rw [hph] at hp <;> simp only [] at hp
  · cases h
  · rename_i m
    split at h
    · cases h
      refine v.server rfl rfl rfl ?_ ?_ ?_ ?_ <;> intro k <;> simp only [CSt.setMeta] <;> by_cases e : k = m <;>
        first | (subst e; simp only [updAt_same]) | simp only [updAt_ne _ _ e]
      all_goals first | exact id | exact fun _ => trivial | exact Or.inl trivial | exact fun _ => rfl | exact Or.inl rfl | (intro _; simp [okNames])
    · cases h
  · rename_i m
    split at h
    · split at h
      · cases h
        exact v.server rfl rfl rfl (fun _ => rfl) (fun _ => id) (fun _ _ => rfl) (fun _ => Or.inl rfl)
      · rename_i old _
        cases h
        refine v.server rfl rfl rfl ?_ ?_ ?_ ?_ <;> intro k <;> simp only [CSt.setMeta] <;> by_cases e : k = old <;>
          first | (subst e; simp only [updAt_same]) | simp only [updAt_ne _ _ e]
        all_goals first | exact id | exact fun _ => trivial | exact Or.inl trivial | exact fun _ => rfl | exact Or.inl rfl
    · cases h
      exact v.server rfl rfl rfl (fun _ => rfl) (fun _ => id) (fun _ _ => rfl) (fun _ => Or.inl rfl)
  · split at h
    · cases h
      exact v.server rfl rfl rfl (fun _ => rfl) (fun _ => id) (fun _ _ => rfl) (fun _ => Or.inl rfl)
    · cases h
  · rename_i m n
    have hrc : (s.st m).runClosed = false := by
      cases hb : (s.st m).runClosed
      · rfl
      · rw [u.closed m hb] at hp; cases hp.2.2.2
    split at h
    · split at h
      · cases h
      · rename_i a q hq
        split at h
        · rename_i ha
          cases h
          refine v.server rfl rfl rfl ?_ ?_ ?_ ?_ <;> intro k <;> simp only [CSt.setMeta] <;> by_cases e : k = m <;>
            first | (subst e; simp only [updAt_same]) | simp only [updAt_ne _ _ e]
          all_goals first | exact id | exact fun _ => trivial | exact Or.inl trivial | exact fun _ => rfl | exact Or.inl rfl | exact Or.inr hrc
                          | (intro _; rw [hq]; simp [List.append_assoc])
        · rename_i ha
          cases h
          refine v.server rfl rfl rfl ?_ ?_ ?_ ?_ <;> intro k <;> simp only [CSt.setMeta] <;> by_cases e : k = m <;>
            first | (subst e; simp only [updAt_same]) | simp only [updAt_ne _ _ e]
          all_goals first | exact id | exact fun _ => trivial | exact Or.inl trivial | exact fun _ => rfl | exact Or.inl rfl | exact Or.inr hrc
                          | (intro _; rw [hq]; simp [okNames, ha])
    · cases h
      exact v.server rfl rfl rfl (fun _ => rfl) (fun _ => id) (fun _ _ => rfl) (fun _ => Or.inl rfl)
  · rename_i m
    cases h
    refine v.server rfl rfl rfl ?_ ?_ ?_ ?_ <;> intro k <;> simp only [CSt.setMeta] <;> by_cases e : k = m <;>
      first | (subst e; simp only [updAt_same]) | simp only [updAt_ne _ _ e]
    all_goals first | exact id | exact fun _ => trivial | exact Or.inl trivial | exact fun _ => rfl | exact Or.inl rfl
  · rename_i m
    cases h
    refine v.server rfl rfl rfl ?_ ?_ ?_ ?_ <;> intro k <;> simp only [CSt.setMeta] <;> by_cases e : k = m <;>
      first | (subst e; simp only [updAt_same]) | simp only [updAt_ne _ _ e]
    all_goals first | exact id | exact fun _ => trivial | exact Or.inl trivial | exact fun _ => rfl | exact fun _ => trivial | exact Or.inl rfl
  · rename_i m n
    split at h
    · cases h
      exact v.server rfl rfl rfl (fun _ => rfl) (fun _ => id) (fun _ _ => rfl) (fun _ => Or.inl rfl)
    · split at h
      · cases h
      · cases h
        refine v.server rfl rfl rfl ?_ ?_ ?_ ?_ <;> intro k <;> simp only [CSt.setMeta] <;> by_cases e : k = m <;>
          first | (subst e; simp only [updAt_same]) | simp only [updAt_ne _ _ e]
        all_goals first | exact id | exact fun _ => trivial | exact Or.inl trivial | exact fun _ => rfl | exact Or.inl rfl
  · split at h
    · cases h
      exact v.server rfl rfl rfl (fun _ => rfl) (fun _ => id) (fun _ _ => rfl) (fun _ => Or.inl rfl)
    · cases h
  · cases h

theorem SInv.step {w : Bool} {s s' : CSt} (u : UInv s) (v : SInv w s) {a : CAct} (hser : serialOk w s a)
    (h : s.step a = some s') : SInv w s' := by
  cases a with
  | arrive k name sid b =>
    simp only [CSt.step] at h
    cases h
    have hsj : ∀ j h', (updAt s.hs s.nH (some { kind := k, name := name, sid := sid, body := b })) j = some h' →
        (j = s.nH ∧ h' = { kind := k, name := name, sid := sid, body := b }) ∨ (j ≠ s.nH ∧ s.hs j = some h') := by
      intro j h' hj
      by_cases hji : j = s.nH
      · subst hji; rw [updAt_same] at hj; cases hj; exact Or.inl ⟨rfl, rfl⟩
      · rw [updAt_ne _ _ hji] at hj; exact Or.inr ⟨hji, hj⟩
    refine ⟨fun m n o h => ?_, ?_, ?_, ?_, ?_, v.dist⟩
    · have a := v.obj m n o h
      exact ⟨a.lt, a.name, a.stage, a.state, a.running⟩
    · intro j h' hj ht hs
      rcases hsj j h' hj with ⟨_, e⟩ | ⟨_, e⟩
      · subst e; exact absurd rfl hs
      · exact v.hobj j h' e ht hs
    · intro j h' hj
      rcases hsj j h' hj with ⟨_, e⟩ | ⟨_, e⟩
      · subst e; simp only [pcOk]
      · have := v.pc j h' e
        unfold pcOk InC NoC at this ⊢
        exact this
    · intro j l h1 h2 hj hl t1 t2 hnm
      simp only [serialOk] at hser
      rcases hsj j h1 hj with ⟨ej, e⟩ | ⟨ej, e⟩ <;> rcases hsj l h2 hl with ⟨el, e'⟩ | ⟨el, e'⟩
      · rw [ej, el]
      · subst e
        exact absurd hnm.symm (hser t1 l h2 e' t2)
      · subst e'
        exact absurd hnm (hser t2 j h1 e t1)
      · exact v.serial j l h1 h2 e e' t1 t2 hnm
    · intro m hm
      have a := v.ack m hm
      refine ⟨a.nodup, a.member, ?_⟩
      intro j h' hj p1 p2 p3 p4
      rcases hsj j h' hj with ⟨_, e⟩ | ⟨_, e⟩
      · subst e; cases p2
      · exact a.pending j h' e p1 p2 p3 p4
  | handler i lost => exact v.hstep u h
  | tick => exact v.tick u h
  | begin nInst hasLocal prepared =>
    simp only [CSt.step, CSt.beginStage] at h
    split at h
    · split at h
      · cases h
        exact v.server rfl rfl rfl (fun _ => rfl) (fun _ => id) (fun _ _ => rfl) (fun _ => Or.inl rfl)
      · cases h
        have hf := u.fresh s.nSt (Nat.le_refl _)
        refine v.server rfl rfl rfl ?_ ?_ ?_ ?_ <;> intro k <;> simp only [] <;> by_cases e : k = s.nSt <;>
          first | (subst e; simp only [updAt_same, hf]) | simp only [updAt_ne _ _ e]
        all_goals first | exact id | exact fun _ => trivial | exact Or.inl trivial | exact fun _ => rfl | exact Or.inl rfl | exact fun _ => trivial | (intro h; cases h)
    · cases h
  | ctxDone =>
    simp only [CSt.step] at h
    split at h
    · split at h
      · cases h
        exact v.server rfl rfl rfl (fun _ => rfl) (fun _ => id) (fun _ _ => rfl) (fun _ => Or.inl rfl)
      · cases h
    · split at h
      · cases h
      · split at h
        · cases h; exact v
        · rename_i old _
          cases h
          refine v.server rfl rfl rfl ?_ ?_ ?_ ?_ <;> intro k <;> simp only [CSt.setMeta] <;> by_cases e : k = old <;>
            first | (subst e; simp only [updAt_same]) | simp only [updAt_ne _ _ e]
          all_goals first | exact id | exact fun _ => trivial | exact Or.inl trivial | exact fun _ => rfl | exact Or.inl rfl
    · cases h
  | localDone m =>
    simp only [CSt.step] at h
    split at h
    · cases h
      refine v.server rfl rfl rfl ?_ ?_ ?_ ?_ <;> intro k <;> simp only [CSt.setMeta] <;> by_cases e : k = m <;>
        first | (subst e; simp only [updAt_same]) | simp only [updAt_ne _ _ e]
      all_goals first | exact id | exact fun _ => trivial | exact Or.inl trivial | exact fun _ => rfl | exact Or.inl rfl
    · cases h

theorem SReach.sinv {w : Bool} {s : CSt} (h : SReach w s) : SInv w s := by
  induction h with
  | init test => exact SInv.init w test
  | step hr hser h ih => exact ih.step hr.reach.uinv hser h

end Finch
