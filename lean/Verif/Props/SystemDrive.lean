import Verif.Props.SystemProgress
/-!
A distributed run as a whole: in every state without failure some step leads closer to the end of the stage
(for C102).
-/
namespace Finch

theorem sub_goto (c : CSt) (i : Nat) (h : Handler) (pc : PC) : (c.goto i h pc).sub i = pc.sub := by
  simp [CSt.sub, CSt.goto, updAt_same]

theorem sub_finish (c : CSt) (i code : Nat) : (c.finish i code).sub i = if respResult code = none then 16 else 1 := by
  simp [CSt.sub, CSt.finish, updAt_same]

theorem sub_finish_200 (c : CSt) (i : Nat) : (c.finish i 200).sub i = 1 := by
  rw [sub_finish]; rfl

theorem Good.ctx {P : SysCfg} {s : Sys} {m n i : Nat} {L : List Nat} (G : Good P s m L) {h : Handler}
    (hreq : (s.r n).req = some i) (hi : s.c.hs i = some h) : HCtx P s n i h := by
  have L := (G.I.inst n).link
  unfold Sys.link at L
  rw [hreq] at L
  simp only [hi] at L
  exact ⟨G.I.u, G.I.v, G.I.inst n, hreq, L.1, hi, L.2.1, L.2.2.1, L.2.2.2.1, L.2.2.2.2⟩

/-- Between two requests, an instance can go on. -/
theorem drive_none {P : SysCfg} {s : Sys} {m n : Nat} {L : List Nat} (G : Good P s m L) (hn : n ∈ L)
    (hreq : (s.r n).req = none) (hf : ∀ e, (s.r n).rs.pc ≠ .finished e) : s.advances P m L := by
  cases hrq : s.request P n with
  | some x => exact moves_send (k := x.1) (b := x.2) G hn hrq hreq
  | none =>
    refine moves_work G hn hrq ?_ hf
    rcases G.okay n hn with h | h
    · unfold Sys.request at hrq
      rw [h] at hrq; cases hrq
    · exact h.1

/-- The server finds the client of a request. -/
theorem drive_start {P : SysCfg} {s : Sys} {m n i : Nat} {L : List Nat} (G : Good P s m L) (hn : n ∈ L) {h : Handler}
    (C : HCtx P s n i h) (hpc : h.pc = .start) {x : RemState} (hx : InSt s.c m n x) (hsid : (s.r n).sid = m + 1) :
    s.advances P m L := by
  obtain ⟨o, h1, _⟩ := hx
  have hcur : s.c.cur = some m := by
    by_contra hcon
    rw [G.I.u.only m hcon] at h1; cases h1
  have hk := request_main C.rq
  refine moves_handler G hn C (c' := s.c.lookupStep i h) (by unfold CSt.hstep; rw [C.hs]; simp only [hpc]) ?_
  unfold CSt.lookupStep
  rw [if_neg (by intro e; rw [e] at hk; cases hk)]
  simp only [hcur]
  rw [C.name, h1]
  simp only []
  rw [if_neg (by rw [C.sid, hsid]; simp)]
  simp [CSt.sub, updAt_same, hpc, PC.sub]

/-- An instance that makes another request than GET /boot is in the stage. -/
theorem Good.reqSid {P : SysCfg} {s : Sys} {m n i : Nat} {L : List Nat} (G : Good P s m L) (hn : n ∈ L) {h : Handler}
    (C : HCtx P s n i h) (hk : h.kind ≠ .getBoot) : (s.r n).sid = m + 1 := by
  rcases G.okay n hn with e | e
  · rcases request_pc C.rq with ⟨a, b, _⟩ | ⟨⟨j, a⟩, b, _⟩ | ⟨a, b, _⟩ | ⟨a, b, _⟩ | ⟨a, b, _⟩ | ⟨a, b, _⟩ <;>
      first | exact absurd b hk | (rw [a] at e; cases e)
  · exact e.1

/-- A request is handled while the stage boots. -/
theorem drive_boot {P : SysCfg} {s : Sys} {m n i r : Nat} {L : List Nat} (G : Good P s m L) (hn : n ∈ L) {h : Handler}
    (C : HCtx P s n i h) (hp : s.c.phase = .boot m r) (hr : r < (s.c.st m).nInst) (hq : (s.c.st m).bootQ = [])
    (hna : ¬ Acked s.c m n) : s.advances P m L := by
  have hph := G.I.u.phase
  unfold PhaseOk at hph
  rw [hp] at hph
  simp only [] at hph
  have nb : (s.c.st m).booted = false := hph.2.2.2
  have nrc : (s.c.st m).runClosed = false := by
    cases e : (s.c.st m).runClosed
    · rfl
    · have := G.I.u.closed m e; rw [nb] at this; cases this
  have nd : s.dones m = [] := (G.I.glob.rc0 m nrc).1
  have ndone : (s.c.st m).done = false := by
    cases e : (s.c.st m).done
    · rfl
    · have := G.I.u.done m e; rw [nb] at this; cases this
  have hpos : 0 < (s.c.st m).nRem := by
    rw [← G.len]; exact List.length_pos_of_mem hn
  have hcur : s.c.cur = some m := G.p.bcur m r hp hpos
  have hN := C.hneed
  have hpcok := C.v.pc i h C.hs
  unfold Sys.hneed at hN
  have hat : ∀ {x}, s.at_ n x → InSt s.c m n x ∧ (s.r n).sid = m + 1 := by
    rintro x ⟨k, h1, h2⟩
    have := G.inStage h2
    subst this
    exact ⟨h2, h1⟩
  have hatA : ∀ {x}, s.atA n x → False := by
    rintro x ⟨k, h1, h2, h3⟩
    have := G.inStage h2
    subst this
    exact hna h3
  cases hk : h.kind <;> rw [hk] at hN <;> cases hpc : h.pc <;> rw [hpc] at hN <;> simp only [] at hN <;>
    try exact (hatA hN).elim
  case getBoot.start =>
    refine moves_handler G hn C (c' := s.c.lookupStep i h) (by unfold CSt.hstep; rw [C.hs]; simp only [hpc]) ?_
    unfold CSt.lookupStep
    rw [if_neg (by rw [hk]; simp)]
    simp only [hcur]
    have := hN.1 m
    rw [C.name, this]
    simp only [hk, if_true]
    simp [CSt.sub, updAt_same, hpc, PC.sub]
  case getBoot.check =>
    refine moves_handler G hn C (c' := s.c.checkStep i h) (by unfold CSt.hstep; rw [C.hs]; simp only [hpc]) ?_
    unfold pcOk at hpcok
    rw [hpc, hk] at hpcok
    simp only [] at hpcok
    have hready : (s.c.objs h.obj).state = .ready := by
      rcases hpcok with hin | hh
      · have ho := (C.v.hobj i h C.hs (by rw [hk]; rfl) (by rw [hpc]; simp)).2
        unfold InC at hin
        rw [ho, C.name, hN.1] at hin
        cases hin
      · exact hh.1
    unfold CSt.checkStep
    simp only [hk]
    rw [if_neg (by rw [hready]; simp), sub_goto, hpc]
    simp [PC.sub]
  case getBoot.join =>
    have hlen : (s.c.st m).clients.length ≠ (s.c.st m).nRem := by
      have hnk : n ∉ (s.c.st m).clients.map (·.1) := by
        intro hmem
        obtain ⟨o, ho⟩ := key_cget hmem
        rw [hN.1 m] at ho; cases ho
      have := length_le_of_subset (l := n :: (s.c.st m).clients.map (·.1)) (l' := L)
        (List.nodup_cons.mpr ⟨hnk, G.p.keys m⟩) (by
          intro x hx
          rcases List.mem_cons.mp hx with e | e
          · rw [e]; exact hn
          · obtain ⟨o, ho⟩ := key_cget e
            exact G.mem x o ho)
      rw [List.length_cons, List.length_map, G.len] at this
      omega
    refine moves_handler G hn C (by
      unfold CSt.hstep
      rw [C.hs]
      simp only [hpc, hcur]
      rw [if_neg (by rw [ndone]; simp), if_neg (by rw [nb]; simp [hlen])]) ?_
    rw [sub_finish_200, hpc]
    simp [PC.sub]
  case file.start =>
    obtain ⟨a, b⟩ := hat hN
    exact drive_start G hn C hpc a b
  case file.check =>
    obtain ⟨⟨o, a1, a2⟩, b⟩ := hat hN.1
    obtain ⟨k, hk'⟩ := hN.2
    have ek : k = m := G.inStage ⟨_, hk', rfl⟩
    subst ek
    rw [a1] at hk'
    cases hk'
    refine moves_handler G hn C (c' := s.c.checkStep i h) (by unfold CSt.hstep; rw [C.hs]; simp only [hpc]) ?_
    unfold CSt.checkStep
    simp only [hk]
    rw [if_neg (by rw [a2]; simp), sub_finish_200, hpc]
    simp [PC.sub]
  case postBoot.start =>
    obtain ⟨a, b⟩ := hat hN
    exact drive_start G hn C hpc a b
  case postBoot.check =>
    obtain ⟨a, b⟩ := hat hN
    unfold pcOk at hpcok
    rw [hpc, hk] at hpcok
    simp only [] at hpcok
    obtain ⟨_, _, _, _, e⟩ := C.obj (by rw [hk]; rfl) (by rw [hpc]; simp) hpcok a
    refine moves_handler G hn C (c' := s.c.checkStep i h) (by unfold CSt.hstep; rw [C.hs]; simp only [hpc]) ?_
    unfold CSt.checkStep
    simp only [hk]
    rw [if_neg (by rw [e]; simp), sub_goto, hpc]
    simp [PC.sub]
  case postBoot.body =>
    cases hb : h.body with
    | unreadable =>
      rcases request_pc C.rq with ⟨_, _, c⟩ | ⟨⟨_, _⟩, _, c⟩ | ⟨_, _, c⟩ | ⟨_, _, c⟩ | ⟨_, _, c⟩ | ⟨_, _, c⟩ <;>
        rw [hb] at c <;> cases c
    | error =>
      refine moves_handler G hn C (c' := s.c.goto i h .sendBoot)
        (by unfold CSt.hstep; rw [C.hs]; simp only [hpc, hk, hb, if_true]) ?_
      rw [sub_goto, hpc]; simp [PC.sub]
    | empty =>
      refine moves_handler G hn C (c' := s.c.goto i h .setRunnable)
        (by unfold CSt.hstep; rw [C.hs]; simp only [hpc, hk, hb, if_true]) ?_
      rw [sub_goto, hpc]; simp [PC.sub]
  case postBoot.setRunnable =>
    refine moves_handler G hn C (c' := (s.c.setState h.obj .runnable).goto i h .sendBoot)
      (by unfold CSt.hstep; rw [C.hs]; simp only [hpc]) ?_
    rw [sub_goto, hpc]; simp [PC.sub]
  case postBoot.sendBoot =>
    unfold pcOk at hpcok
    rw [hpc, hk] at hpcok
    simp only [] at hpcok
    have hst : ∃ x, InSt s.c m n x := by
      rcases hN with ⟨_, e⟩ | ⟨_, k, _, e, _⟩
      · exact ⟨_, (hat e).1⟩
      · have := G.inStage e; subst this; exact ⟨_, e⟩
    obtain ⟨x, hx⟩ := hst
    obtain ⟨_, _, e, _, _⟩ := C.obj (by rw [hk]; rfl) (by rw [hpc]; simp) hpcok.1 hx
    refine moves_handler G hn C (by
      unfold CSt.hstep
      rw [C.hs]
      simp only [hpc, e]
      rw [if_pos (by rw [hq]; simp only [List.length_nil]; omega)]) ?_
    rw [sub_finish_200, hpc]
    simp [PC.sub]
  case getRun.setRunning => exact (hatA hN.1).elim
  case postRun.sendDone =>
    obtain ⟨_, k, e1, _, _, _, e5, _, _⟩ := hN
    have := G.reqSid hn C (by rw [hk]; simp)
    have ek : k = m := by omega
    subst ek
    exact absurd (by unfold Acked; rw [okNames_append]; exact List.mem_append.mpr (Or.inl e5)) hna
  case postRun.setReady =>
    obtain ⟨k, h1, _, h3⟩ := hN
    have := G.reqSid hn C (by rw [hk]; simp)
    have ek : k = m := by omega
    rw [ek, nd] at h3; cases h3

/-- A request is handled while the stage runs. -/
theorem drive_run {P : SysCfg} {s : Sys} {m n i r : Nat} {L : List Nat} (G : Good P s m L) (hn : n ∈ L) {h : Handler}
    (C : HCtx P s n i h) (hp : s.c.phase = .run m r) (hq : (s.c.st m).doneQ.length < (s.c.st m).nInst)
    (ha : Acked s.c m n) (hnd : some n ∉ s.dones m) : s.advances P m L := by
  have hrc := (G.I.glob.run m r hp).2.1
  obtain ⟨hsid, _, _, hstate⟩ := (G.I.inst n).acked m ha
  have hst : h.pc ≠ .sendDone → InSt s.c m n .runnable ∨ InSt s.c m n .running := by
    intro hpc
    rcases hstate with e | e | e | ⟨j, h', e1, e2, _, e4⟩
    · exact absurd e hnd
    · exact Or.inl e
    · exact Or.inr e
    · rw [C.req] at e1; cases e1
      rw [C.hs] at e2; cases e2
      exact absurd e4 hpc
  have nbk : ∀ {x}, h.pc ≠ .sendDone → s.at_ n x → x = .runnable ∨ x = .running := by
    rintro x hpc ⟨k, _, h2⟩
    rcases hst hpc with e | e
    · exact Or.inl (h2.uniq G.I.u e).2
    · exact Or.inr (h2.uniq G.I.u e).2
  have nbt : h.pc ≠ .sendDone → s.at_ n .booting → False := by
    intro hpc hb
    rcases nbk hpc hb with e | e <;> cases e
  have hatA : ∀ {x}, s.atA n x → InSt s.c m n x := by
    rintro x ⟨k, h1, h2, _⟩
    have := G.inStage h2
    subst this
    exact h2
  have ndone : ∀ {x}, InSt s.c m n x → (s.c.st m).done = false := by
    rintro x ⟨o, h1, _⟩
    cases e : (s.c.st m).done
    · rfl
    · rw [G.I.glob.done m e] at h1; cases h1
  have hN := C.hneed
  have hpcok := C.v.pc i h C.hs
  unfold Sys.hneed at hN
  cases hk : h.kind <;> rw [hk] at hN <;> cases hpc : h.pc <;> rw [hpc] at hN <;> simp only [] at hN
  case getBoot.start => rw [hsid] at hN; cases hN.2
  case getBoot.check => rw [hsid] at hN; cases hN.2
  case getBoot.join => rw [hsid] at hN; cases hN.2
  case file.start => exact (nbt (by rw [hpc]; simp) hN).elim
  case file.check => exact (nbt (by rw [hpc]; simp) hN.1).elim
  case postBoot.start => exact (nbt (by rw [hpc]; simp) hN).elim
  case postBoot.check => exact (nbt (by rw [hpc]; simp) hN).elim
  case postBoot.body => exact (nbt (by rw [hpc]; simp) hN).elim
  case postBoot.setRunnable => exact (nbt (by rw [hpc]; simp) hN).elim
  case postBoot.sendBoot =>
    rcases hN with ⟨_, e⟩ | ⟨_, k, _, e, e'⟩
    · exact (nbt (by rw [hpc]; simp) e).elim
    · have := G.inStage e
      subst this
      exact absurd ha e'
  case getRun.start => exact drive_start G hn C hpc (hatA hN) hsid
  case getRun.check =>
    unfold pcOk at hpcok
    rw [hpc, hk] at hpcok
    simp only [] at hpcok
    obtain ⟨_, _, _, _, e⟩ := C.obj (by rw [hk]; rfl) (by rw [hpc]; simp) hpcok (hatA hN)
    refine moves_handler G hn C (c' := s.c.checkStep i h) (by unfold CSt.hstep; rw [C.hs]; simp only [hpc]) ?_
    unfold CSt.checkStep
    simp only [hk]
    rw [if_neg (by rw [e]; simp), sub_goto, hpc]
    simp [PC.sub]
  case getRun.waitRun =>
    unfold pcOk at hpcok
    rw [hpc, hk] at hpcok
    simp only [] at hpcok
    obtain ⟨_, _, e, _, _⟩ := C.obj (by rw [hk]; rfl) (by rw [hpc]; simp) hpcok.1 (hatA hN)
    refine moves_handler G hn C (c' := s.c.goto i h .afterRun) (by
      unfold CSt.hstep; rw [C.hs]; simp only [hpc, e]; rw [if_pos hrc]) ?_
    rw [sub_goto, hpc]; simp [PC.sub]
  case getRun.afterRun =>
    unfold pcOk at hpcok
    rw [hpc, hk] at hpcok
    simp only [] at hpcok
    obtain ⟨_, _, e, _, _⟩ := C.obj (by rw [hk]; rfl) (by rw [hpc]; simp) hpcok.1 (hatA hN)
    refine moves_handler G hn C (c' := s.c.goto i h .write) (by
      unfold CSt.hstep; rw [C.hs]; simp only [hpc, e]; rw [if_neg (by rw [ndone (hatA hN)]; simp)]) ?_
    rw [sub_goto, hpc]; simp [PC.sub]
  case getRun.write =>
    refine moves_handler G hn C (c' := { s.c.goto i h .setRunning with resp := (i, 200) :: s.c.resp }) (by
      unfold CSt.hstep; rw [C.hs]; simp only [hpc]; rfl) ?_
    simp [CSt.sub, CSt.goto, updAt_same, hpc, PC.sub]
  case getRun.setRunning =>
    refine moves_handler G hn C (c' := { s.c.setState h.obj .running with hs := updAt s.c.hs i none }) (by
      unfold CSt.hstep; rw [C.hs]; simp only [hpc]) ?_
    simp [CSt.sub, CSt.setState, updAt_same, hN.2, hpc, PC.sub, respResult]
  case postRun.start => exact drive_start G hn C hpc (hatA hN) hsid
  case postRun.check =>
    unfold pcOk at hpcok
    rw [hpc, hk] at hpcok
    simp only [] at hpcok
    obtain ⟨_, _, _, _, e⟩ := C.obj (by rw [hk]; rfl) (by rw [hpc]; simp) hpcok (hatA hN)
    refine moves_handler G hn C (c' := s.c.checkStep i h) (by unfold CSt.hstep; rw [C.hs]; simp only [hpc]) ?_
    unfold CSt.checkStep
    simp only [hk]
    rw [if_neg (by rw [e]; simp), sub_goto, hpc]
    simp [PC.sub]
  case postRun.body =>
    refine moves_handler G hn C (c' := s.c.goto i h .del) (by
      unfold CSt.hstep; rw [C.hs]; simp only [hpc, hk]; rfl) ?_
    rw [sub_goto, hpc]; simp [PC.sub]
  case postRun.del =>
    refine moves_handler G hn C (by unfold CSt.hstep; rw [C.hs]; simp only [hpc]; exact rfl) ?_
    rw [sub_goto, hpc]; simp [PC.sub]
  case postRun.sendDone =>
    obtain ⟨_, k, e1, e2, _, _, _, _, _⟩ := hN
    have ek : k = m := by omega
    subst ek
    refine moves_handler G hn C (by
      unfold CSt.hstep
      rw [C.hs]
      simp only [hpc, e2]
      rw [if_pos hq]) ?_
    rw [sub_goto, hpc]; simp [PC.sub]
  case postRun.setReady =>
    obtain ⟨k, h1, _, h3⟩ := hN
    have ek : k = m := by omega
    rw [ek] at h3
    exact absurd h3 hnd

/-- An instance that has neither acknowledged the boot nor ended can go on while the stage boots. -/
theorem drive_any_boot {P : SysCfg} {s : Sys} {m n r : Nat} {L : List Nat} (G : Good P s m L) (hn : n ∈ L)
    (hp : s.c.phase = .boot m r) (hr : r < (s.c.st m).nInst) (hq : (s.c.st m).bootQ = []) (hna : ¬ Acked s.c m n)
    (hf : ∀ e, (s.r n).rs.pc ≠ .finished e) : s.advances P m L := by
  cases hreq : (s.r n).req with
  | none => exact drive_none G hn hreq hf
  | some i =>
    cases hi : s.c.hs i with
    | none => exact moves_recv G hn hreq hi
    | some h => exact drive_boot G hn (G.ctx hreq hi) hp hr hq hna

theorem drive_any_run {P : SysCfg} {s : Sys} {m n r : Nat} {L : List Nat} (G : Good P s m L) (hn : n ∈ L)
    (hp : s.c.phase = .run m r) (hq : (s.c.st m).doneQ.length < (s.c.st m).nInst) (ha : Acked s.c m n)
    (hnd : some n ∉ s.dones m) (hf : ∀ e, (s.r n).rs.pc ≠ .finished e) : s.advances P m L := by
  cases hreq : (s.r n).req with
  | none => exact drive_none G hn hreq hf
  | some i =>
    cases hi : s.c.hs i with
    | none => exact moves_recv G hn hreq hi
    | some h => exact drive_run G hn (G.ctx hreq hi) hp hq ha hnd

/-- Some step leads on. -/
theorem Good.progress {P : SysCfg} {s : Sys} {m : Nat} {L : List Nat} (G : Good P s m L) : s.advances P m L := by
  have hst := G.stage
  have hph := G.I.u.phase
  unfold PhaseOk at hph
  have hnocur : (s.c.st m).booted = false → (∀ n, s.c.phase ≠ .boot m n) → s.c.phase ≠ .setBooted m →
      s.c.cur ≠ some m := by
    intro hb h1 h2 hc
    rcases G.I.u.curb m hc hb with ⟨n, e⟩ | e | e
    · exact h1 n e
    · exact h2 e
    · rw [e] at hst; cases hst
  have hnd : (s.c.st m).booted = false → s.dones m = [] := by
    intro hb
    refine (G.I.glob.rc0 m ?_).1
    cases e : (s.c.st m).runClosed
    · rfl
    · have := G.I.u.closed m e; rw [hb] at this; cases this
  cases hp : s.c.phase with
  | idle => rw [hp] at hst; cases hst
  | stopped => rw [hp] at hst; cases hst
  | stopping o k r => exact absurd hp (G.I.glob.noStop _ _ _)
  | ackLocal k =>
    rw [hp] at hst hph
    cases hst
    simp only [] at hph
    obtain ⟨_, _, nb, hl, hloc⟩ := hph
    have hcl := G.I.u.only m (hnocur nb (by rw [hp]; simp) (by rw [hp]; simp))
    have hbq : (s.c.st m).bootQ = [] := by
      cases hb : (s.c.st m).bootQ with
      | nil => rfl
      | cons a q =>
        exfalso
        have hmem : a ∈ (s.c.st m).bootQ := by rw [hb]; exact List.mem_cons_self
        have hw : a.who ≠ none := by
          intro e
          have : 0 < nLocal (s.c.st m).bootQ := by
            unfold nLocal
            exact List.countP_pos_iff.mpr ⟨a, hmem, by rw [e]; rfl⟩
          omega
        obtain ⟨n, hn⟩ := Option.ne_none_iff_exists'.mp hw
        cases ho : a.ok with
        | false =>
          obtain ⟨_, ⟨o, h1, _⟩, _⟩ := (G.I.inst n).bad m a hmem ho hn
          rw [hcl] at h1; cases h1
        | true =>
          have hrc : (s.c.st m).runClosed = false := by
            cases e : (s.c.st m).runClosed
            · rfl
            · have := G.I.u.closed m e; rw [nb] at this; cases this
          obtain ⟨o, h1, _⟩ := (G.I.v.ack m hrc).member n (by
            rw [okNames_append]
            exact List.mem_append.mpr (Or.inr (List.mem_filterMap.mpr ⟨a, hmem, by rw [if_pos ho]; exact hn⟩)))
          rw [hcl] at h1; cases h1
    refine G.tick (by
      unfold CSt.tick
      rw [hp]
      simp only []
      rw [if_pos (by rw [hbq]; exact G.pos hl)]) (Or.inr ⟨rfl, ?_⟩)
    rw [hp]; simp [Phase.rk]
  | setStage k =>
    rw [hp] at hst hph
    cases hst
    by_cases hr : (s.c.st m).nRem > 0
    · cases hc : s.c.cur with
      | none =>
        refine G.tick (by unfold CSt.tick; rw [hp]; simp only [hc]; rw [if_pos hr]) (Or.inr ⟨rfl, ?_⟩)
        rw [hp]; simp only [Phase.rk]; omega
      | some old =>
        refine G.tick (by unfold CSt.tick; rw [hp]; simp only [hc]; rw [if_pos hr]) (Or.inr ⟨rfl, ?_⟩)
        rw [hp]; simp only [Phase.rk]; omega
    · refine G.tick (by unfold CSt.tick; rw [hp]; simp only []; rw [if_neg hr]) (Or.inr ⟨rfl, ?_⟩)
      rw [hp]; simp only [Phase.rk]; omega
  | switching old k =>
    rw [hp] at hst hph
    cases hst
    simp only [] at hph
    obtain ⟨_, _, nb, hc⟩ := hph
    have hne : old ≠ m := by
      intro e
      subst e
      exact hnocur nb (by rw [hp]; simp) (by rw [hp]; simp) hc
    have hcl := G.I.overClients (G.I.u.cur old hc) (by rw [hp]; intro e; exact hne (Option.some.inj e).symm)
    refine G.tick (by unfold CSt.tick; rw [hp]; simp only []; rw [if_pos hcl]) (Or.inr ⟨rfl, ?_⟩)
    rw [hp]; simp only [Phase.rk]; omega
  | boot k r =>
    rw [hp] at hst hph
    cases hst
    simp only [] at hph
    obtain ⟨_, hlen, hle, nb⟩ := hph
    have nd := hnd nb
    by_cases hr : r < (s.c.st m).nInst
    swap
    · refine G.tick (by unfold CSt.tick; rw [hp]; simp only []; rw [if_neg hr]) (Or.inr ⟨rfl, ?_⟩)
      rw [hp]; simp only [Phase.rk]; omega
    cases hb : (s.c.st m).bootQ with
    | cons a q =>
      have hok : a.ok = true := by
        by_contra hcon
        have ho : a.ok = false := by simpa using hcon
        have hmem : a ∈ (s.c.st m).bootQ := by rw [hb]; exact List.mem_cons_self
        cases hw : a.who with
        | none => exact hcon (G.p.who m a hmem hw)
        | some n =>
          obtain ⟨_, ⟨o, h1, _⟩, h3⟩ := (G.I.inst n).bad m a hmem ho hw
          rcases G.okay n (G.mem n o h1) with e | ⟨_, e1, e2⟩
          · rw [e] at h3; simp at h3
          · rcases h3 with h3 | ⟨e, h3⟩
            · exact e1 h3
            · have := e2 e h3
              rw [nd] at this; cases this
      refine G.tick (by
        unfold CSt.tick
        rw [hp]
        simp only [hb]
        rw [if_pos hr, if_pos hok]) (Or.inr ⟨rfl, ?_⟩)
      rw [hp]; simp only [Phase.rk]; omega
    | nil =>
      have hex : ∃ n ∈ L, ¬ Acked s.c m n := by
        by_contra hcon
        have hall : ∀ n ∈ L, n ∈ okNames (s.c.st m).oks := by
          intro n hn
          by_contra h
          refine hcon ⟨n, hn, ?_⟩
          unfold Acked
          rw [hb, List.append_nil]
          exact h
        have l1 := length_le_of_subset G.nodup hall
        have l2 := okNames_length _ (G.I.u.oks m)
        have l3 := G.I.u.rem m
        have l4 := G.len
        split at l3 <;> rename_i hl
        · rcases G.p.ackd m hl with h | h
          · rw [hp] at h; cases h
          · rw [hb, List.append_nil] at h
            omega
        · omega
      obtain ⟨n, hn, hna⟩ := hex
      refine drive_any_boot G hn hp hr hb hna ?_
      intro e he
      rcases G.okay n hn with h | ⟨_, _, h⟩
      · rw [he] at h; cases h
      · have := h e he
        rw [nd] at this; cases this
  | setBooted k =>
    rw [hp] at hst
    cases hst
    refine G.tick (by unfold CSt.tick; rw [hp]) (Or.inr ⟨?_, ?_⟩)
    · simp only [G.I.glob.test]; rfl
    · rw [hp]; simp only [G.I.glob.test, Phase.rk, Bool.false_eq_true, if_false]; omega
  | release k =>
    rw [hp] at hst
    cases hst
    refine G.tick (by unfold CSt.tick; rw [hp]) (Or.inr ⟨rfl, ?_⟩)
    rw [hp]; simp only [Phase.rk]; omega
  | run k r =>
    rw [hp] at hst
    cases hst
    obtain ⟨g1, g2, g3⟩ := G.I.glob.run m r hp
    by_cases hr : r = 0
    · exact G.tick (by unfold CSt.tick; rw [hp]; simp only []; rw [if_pos hr]) (Or.inl rfl)
    cases hd : (s.c.st m).doneQ with
    | cons a q =>
      refine G.tick (by unfold CSt.tick; rw [hp]; simp only [hd]; rw [if_neg hr]) (Or.inr ⟨rfl, ?_⟩)
      rw [hp]; simp only [Phase.rk]; omega
    | nil =>
      rw [hd, List.length_nil] at g3
      have hoks := G.I.u.booted m (G.I.u.closed m g2)
      have hex : ∃ w ∈ (s.c.st m).oks.map (·.who), w ∉ s.dones m := by
        by_contra hcon
        have := length_le_of_subset (G.I.whoNodup m) (l' := s.dones m) (by
          intro w hw
          by_contra h
          exact hcon ⟨w, hw, h⟩)
        rw [List.length_map] at this
        omega
      obtain ⟨w, hw, hnw⟩ := hex
      cases w with
      | none =>
        have hl : (s.c.st m).hasLocal = true := by
          have h1 := G.I.u.loc m
          rw [nLocal_append] at h1
          obtain ⟨a, ha, hb⟩ := List.mem_map.mp hw
          have : 0 < nLocal (s.c.st m).oks := by
            unfold nLocal
            exact List.countP_pos_iff.mpr ⟨a, ha, by rw [hb]; rfl⟩
          by_contra hcon
          rw [if_neg hcon] at h1
          omega
        have hld : (s.c.st m).localDone = false := by
          cases e : (s.c.st m).localDone
          · rfl
          · exact absurd ((G.I.glob.loc m).mpr e) hnw
        exact G.localDone hl g2 hld (by rw [hd]; simp only [List.length_nil]; omega)
      | some n =>
        have hack : Acked s.c m n := by
          unfold Acked
          rw [okNames_append]
          exact List.mem_append.mpr (Or.inl (who_okNames (G.I.u.oks m) hw))
        have hn := G.sids n ((G.I.inst n).acked m hack).1
        refine drive_any_run G hn hp (by rw [hd]; simp only [List.length_nil]; omega) hack hnw ?_
        intro e he
        rcases G.okay n hn with h | ⟨_, _, h⟩
        · rw [he] at h; cases h
        · exact hnw (h e he)

/-- The stage can be completed. -/
theorem Good.completes {P : SysCfg} : ∀ (k : Nat) {s : Sys} {m : Nat} {L : List Nat}, Good P s m L →
    s.measure P m L ≤ k → ∃ as s', (∀ a ∈ as, YAct.reliable a = true) ∧ Sys.exec P s as = some s' ∧
      s'.c.phase = .idle ∧ s'.c.nSt = s.c.nSt ∧ L.length = (s'.c.st m).nRem ∧ ∀ k, (s'.r k).sid = m + 1 → k ∈ L
  | k, s, m, L, G, hk => by
    obtain ⟨a, s1, ha, hs, hn, h⟩ := G.progress
    rcases h with h | ⟨G', hlt⟩
    · exact ⟨[a], s1, by simpa using ha, by simp only [Sys.exec, hs], h.1, hn, h.2⟩
    · cases k with
      | zero => omega
      | succ k =>
        obtain ⟨as, s', h1, h2, h3, h4, h5⟩ := Good.completes k G' (by omega)
        refine ⟨a :: as, s', ?_, ?_, h3, h4.trans hn, h5⟩
        · intro b hb
          rcases List.mem_cons.mp hb with e | e
          · rw [e]; exact ha
          · exact h1 b e
        · simp only [Sys.exec, hs]; exact h2

end Finch
