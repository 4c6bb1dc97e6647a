import Verif.Props.SystemBase
/-!
A distributed run as a whole: the steps of the requests of an instance (for C101, C102).
-/
namespace Finch

theorem request_pc {P : SysCfg} {s : Sys} {n : Nat} {k : ReqKind} {b : HBody} (h : s.request P n = some (k, b)) :
    ((s.r n).rs.pc = .getBoot ∧ k = .getBoot ∧ b = .empty) ∨ ((∃ j, (s.r n).rs.pc = .file j) ∧ k = .file ∧ b = .empty) ∨
    ((s.r n).rs.pc = .postErr ∧ k = .postBoot ∧ b = .error) ∨ ((s.r n).rs.pc = .postBoot ∧ k = .postBoot ∧ b = .empty) ∨
    ((s.r n).rs.pc = .getRun ∧ k = .getRun ∧ b = .empty) ∨ ((s.r n).rs.pc = .postRun ∧ k = .postRun ∧ b = .empty) := by
  unfold Sys.request RPc.request at h
  cases hp : (s.r n).rs.pc <;> rw [hp] at h <;> simp only [] at h
  case file j =>
    split at h
    · cases h; exact Or.inr (Or.inl ⟨⟨j, rfl⟩, rfl, rfl⟩)
    · cases h
  all_goals cases h
  all_goals simp

theorem request_main {P : SysCfg} {s : Sys} {n : Nat} {k : ReqKind} {b : HBody} (h : s.request P n = some (k, b)) :
    k.mainKind = true := by
  rcases request_pc h with h | h | h | h | h | h <;> rw [h.2.1] <;> rfl

theorem InSt.uniq {c : CSt} (u : UInv c) {m m' n : Nat} {x y : RemState} (h : InSt c m n x) (h' : InSt c m' n y) :
    m = m' ∧ x = y := by
  obtain ⟨o, h1, h2⟩ := h
  obtain ⟨o', h3, h4⟩ := h'
  have := u.uniq h1 h3
  subst this
  rw [h1] at h3
  cases h3
  exact ⟨rfl, h2.symm.trans h4⟩

theorem InSt.not_noC {c : CSt} {m n : Nat} {x : RemState} (h : InSt c m n x) : ¬ NoC c n := by
  intro hn
  obtain ⟨o, h1, _⟩ := h
  rw [hn m] at h1
  cases h1

/-- A step of the request `i` of the instance `n`. -/
theorem NInv.own_mk {P : SysCfg} {s s' : Sys} {n i : Nat} (I : NInv P s n) (er : s'.r = s.r)
    (hreq : (s.r n).req = some i) {x : Option Handler} (hhs : s'.c.hs = updAt s.c.hs i x)
    (link : s'.link P n)
    (acked : ∀ m, Acked s'.c m n → (s.r n).sid = m + 1 ∧ REv.prepare false ∈ (s.r n).rs.trace ∧
      REv.postBoot true ∉ (s.r n).rs.trace ∧
      (some n ∈ s'.dones m ∨ InSt s'.c m n .runnable ∨ InSt s'.c m n .running ∨ s'.sending n))
    (done : ∀ m, some n ∈ s'.dones m → NoC s'.c n ∧ (s.r n).sid = m + 1 ∧ REv.stopped ∈ (s.r n).rs.trace ∧
      n ∈ okNames (s'.c.st m).oks)
    (bad : ∀ m, ∀ a ∈ (s'.c.st m).bootQ, a.ok = false → a.who = some n → s'.failed n m)
    (hf : HFrame s.c s'.c) : NInv P s' n := by
  refine ⟨link, by rw [er]; exact I.rem, by rw [er]; exact acked, by rw [er]; exact done, ?_, ?_, bad⟩
  · rw [er]
    intro h
    obtain ⟨m, a1, a2, a3⟩ := I.start h
    refine ⟨m, a1, by rw [(hf.metas m).runClosed]; exact a2, ?_⟩
    unfold Acked at a3 ⊢
    obtain ⟨l, e, _⟩ := (hf.metas m).bootQ
    rw [(hf.metas m).oks, e, ← List.append_assoc, okNames_append]
    exact List.mem_append.mpr (Or.inl a3)
  · rw [er]
    intro j h hj hn hk
    rw [hhs] at hj
    by_cases e : j = i
    · rw [e]; exact hreq
    · rw [updAt_ne _ _ e] at hj
      exact I.own j h hj hn hk

/-- A step that leaves the stages and the objects that exist as they are. -/
theorem NInv.own_soft {P : SysCfg} {s s' : Sys} {n i : Nat} {h : Handler} (v : SInv false s.c) (I : NInv P s n)
    (er : s'.r = s.r) (hreq : (s.r n).req = some i) {x : Option Handler} (hhs : s'.c.hs = updAt s.c.hs i x)
    (hi : s.c.hs i = some h) (hpc : h.pc ≠ .sendDone) (hst : s'.c.st = s.c.st)
    (hob : ∀ o, o < s.c.nObj → s'.c.objs o = s.c.objs o) (hdn : s'.dones = s.dones)
    (hf : HFrame s.c s'.c) (link : s'.link P n) : NInv P s' n := by
  have hI : ∀ m x, InSt s.c m n x → InSt s'.c m n x := by
    rintro m x ⟨o, h1, h2⟩
    exact ⟨o, by rw [hst]; exact h1, by rw [hob o (v.obj m n o h1).lt]; exact h2⟩
  refine I.own_mk er hreq hhs link ?_ ?_ ?_ hf
  · intro m hm
    unfold Acked at hm
    rw [hst] at hm
    obtain ⟨a1, a2, a3, a4⟩ := I.acked m hm
    refine ⟨a1, a2, a3, ?_⟩
    rcases a4 with a | a | a | ⟨j, h', a, b, c, d⟩
    · left; rw [hdn]; exact a
    · exact Or.inr (Or.inl (hI _ _ a))
    · exact Or.inr (Or.inr (Or.inl (hI _ _ a)))
    · rw [hreq] at a
      cases a
      rw [hi] at b
      cases b
      exact absurd d hpc
  · intro m hm
    rw [hdn] at hm
    obtain ⟨a1, a2, a3, a4⟩ := I.done m hm
    exact ⟨fun k => by rw [hst]; exact a1 k, a2, a3, by rw [hst]; exact a4⟩
  · intro m a ha ho hw
    rw [hst] at ha
    obtain ⟨b1, b2, b3⟩ := I.bad m a ha ho hw
    exact ⟨by rw [er]; exact b1, hI _ _ b2, by rw [er]; exact b3⟩

theorem link_go {P : SysCfg} {s' : Sys} {n i : Nat} {y : Handler} (hreq : (s'.r n).req = some i) (hn : i < s'.c.nH)
    (hh : s'.c.hs i = some y) (rq : s'.request P n = some (y.kind, y.body)) (h1 : y.name = n)
    (h2 : y.sid = (s'.r n).sid) (h3 : s'.hneed n i y) : s'.link P n := by
  unfold Sys.link
  rw [hreq]
  simp only [hh]
  exact ⟨hn, rq, h1, h2, h3⟩

theorem link_fin {P : SysCfg} {s' : Sys} {n i code : Nat} (hreq : (s'.r n).req = some i) (hn : i < s'.c.nH)
    (hh : s'.c.hs i = none) (rq : (s'.request P n).isSome = true) (h1 : s'.c.resp.lookup i = some code)
    (h2 : s'.post n i code) : s'.link P n := by
  unfold Sys.link
  rw [hreq]
  simp only [hh]
  exact ⟨hn, rq, code, h1, h2⟩

/-- What is known of the request `i` of the instance `n`. -/
structure HCtx (P : SysCfg) (s : Sys) (n i : Nat) (h : Handler) : Prop where
  u : UInv s.c
  v : SInv false s.c
  I : NInv P s n
  req : (s.r n).req = some i
  lt : i < s.c.nH
  hs : s.c.hs i = some h
  rq : s.request P n = some (h.kind, h.body)
  name : h.name = n
  sid : h.sid = (s.r n).sid
  hneed : s.hneed n i h

/-- A request without error is of an instance that did not fail. -/
theorem HCtx.noBad {P : SysCfg} {s : Sys} {n i : Nat} {h : Handler} (C : HCtx P s n i h) (hb : h.body = .empty)
    {m : Nat} {a : BAck} (ha : a ∈ (s.c.st m).bootQ) (ho : a.ok = false) (hw : a.who = some n) : False := by
  obtain ⟨_, _, b⟩ := C.I.bad m a ha ho hw
  rcases request_pc C.rq with ⟨p, _, c⟩ | ⟨⟨j, p⟩, _, c⟩ | ⟨p, _, c⟩ | ⟨p, _, c⟩ | ⟨p, _, c⟩ | ⟨p, _, c⟩ <;>
    rw [p] at b <;> simp at b
  rw [hb] at c; cases c

/-- Requests other than POST /boot have no error. -/
theorem HCtx.body_empty {P : SysCfg} {s : Sys} {n i : Nat} {h : Handler} (C : HCtx P s n i h)
    (hk : h.kind ≠ .postBoot) : h.body = .empty := by
  rcases request_pc C.rq with ⟨p, k, c⟩ | ⟨⟨j, p⟩, k, c⟩ | ⟨p, k, c⟩ | ⟨p, k, c⟩ | ⟨p, k, c⟩ | ⟨p, k, c⟩ <;>
    first | exact c | exact absurd k hk

theorem HCtx.fin {P : SysCfg} {s : Sys} {n i code : Nat} {h : Handler} (C : HCtx P s n i h) (cfg : Nat → Nat)
    (hpc : h.pc ≠ .sendDone)
    (hp : Sys.post ⟨s.c.finish i code, s.r, cfg, s.dones⟩ n i code) :
    NInv P ⟨s.c.finish i code, s.r, cfg, s.dones⟩ n := by
  refine C.I.own_soft (x := none) C.v rfl C.req rfl C.hs hpc rfl (fun _ _ => rfl) rfl
    (hfinish_frame _ _ _ (by rw [C.hs]; simp)) ?_
  refine link_fin (code := code) C.req C.lt ?_ ?_ ?_ hp
  · exact updAt_same _ _ _
  · have := C.rq
    unfold Sys.request at this ⊢
    dsimp only
    rw [this]; rfl
  · simp [CSt.finish]

theorem HCtx.go {P : SysCfg} {s : Sys} {n i : Nat} {h : Handler} (C : HCtx P s n i h) (cfg : Nat → Nat) (pc : PC)
    (hpc : h.pc ≠ .sendDone)
    (hp : Sys.hneed ⟨s.c.goto i h pc, s.r, cfg, s.dones⟩ n i { h with pc := pc }) :
    NInv P ⟨s.c.goto i h pc, s.r, cfg, s.dones⟩ n := by
  refine C.I.own_soft (x := some { h with pc := pc }) C.v rfl C.req rfl C.hs hpc rfl (fun _ _ => rfl) rfl
    (goto_frame _ _ _ _ (by rw [C.hs]; simp)) ?_
  exact link_go C.req C.lt (updAt_same _ _ _) C.rq C.name C.sid hp

/-- API.client. -/
theorem HCtx.lookup {P : SysCfg} {s : Sys} {n i : Nat} {h : Handler} (C : HCtx P s n i h) (cfg : Nat → Nat)
    (hpc : h.pc = .start) : NInv P ⟨s.c.lookupStep i h, s.r, cfg, s.dones⟩ n := by
  have hne : h.pc ≠ .sendDone := by rw [hpc]; simp
  have hN := C.hneed
  have h7 : s.c.hs i ≠ none := by rw [C.hs]; simp
  have hfr := lookup_frame s.c i h h7
  have ref : ∀ code, Refused code → NInv P ⟨s.c.finish i code, s.r, cfg, s.dones⟩ n := by
    intro code hc
    refine C.fin cfg hne ?_
    unfold Sys.hneed at hN
    rw [hpc] at hN
    unfold Sys.post
    rcases request_pc C.rq with ⟨a, b, _⟩ | ⟨⟨j, a⟩, b, _⟩ | ⟨a, b, _⟩ | ⟨a, b, _⟩ | ⟨a, b, _⟩ | ⟨a, b, _⟩ <;>
      rw [b] at hN <;> simp only [] at hN ⊢ <;> rw [a] <;> simp only []
    · exact Or.inr ⟨hc, hN⟩
    · exact hN
    · exact hN
    · exact Or.inr ⟨hc, hN⟩
    · exact Or.inr ⟨hc, hN⟩
    · exact Or.inr ⟨hc, hN⟩
  have hnew : ∀ o c', c'.hs = updAt s.c.hs i (some { h with obj := o, pc := .check }) → c'.st = s.c.st →
      (∀ o, o < s.c.nObj → c'.objs o = s.c.objs o) → c'.nH = s.c.nH → HFrame s.c c' →
      (h.kind = .file → ∃ m, cget n (s.c.st m).clients = some o) → NInv P ⟨c', s.r, cfg, s.dones⟩ n := by
    intro o c' e1 e2 e3 e4 hf hfile
    refine C.I.own_soft (x := some { h with obj := o, pc := .check }) C.v rfl C.req e1 C.hs hne e2 e3 rfl hf ?_
    refine link_go (y := { h with obj := o, pc := .check }) C.req (by dsimp only; rw [e4]; exact C.lt)
      (by dsimp only; rw [e1]; exact updAt_same _ _ _) C.rq C.name C.sid ?_
    have hI : ∀ m x, InSt s.c m n x → InSt c' m n x := by
      rintro m x ⟨o, h1, h2⟩
      exact ⟨o, by rw [e2]; exact h1, by rw [e3 o (C.v.obj m n o h1).lt]; exact h2⟩
    have h1 : ∀ x, s.at_ n x → Sys.at_ ⟨c', s.r, cfg, s.dones⟩ n x := fun x ⟨m, a, b⟩ => ⟨m, a, hI m x b⟩
    have h2 : ∀ x, s.atA n x → Sys.atA ⟨c', s.r, cfg, s.dones⟩ n x :=
      fun x ⟨m, a, b, d⟩ => ⟨m, a, hI m x b, by unfold Acked at d ⊢; rw [e2]; exact d⟩
    unfold Sys.hneed at hN ⊢
    rw [hpc] at hN
    rcases request_pc C.rq with ⟨a, b, _⟩ | ⟨⟨j, a⟩, b, _⟩ | ⟨a, b, _⟩ | ⟨a, b, _⟩ | ⟨a, b, _⟩ | ⟨a, b, _⟩ <;>
      dsimp only <;> rw [b] at hN ⊢ <;> simp only [] at hN ⊢
    · exact ⟨fun k => by rw [e2]; exact hN.1 k, hN.2⟩
    · exact ⟨h1 _ hN, by rw [e2]; exact hfile b⟩
    · exact h1 _ hN
    · exact h1 _ hN
    · exact h2 _ hN
    · exact h2 _ hN
  have hk := request_main C.rq
  unfold CSt.lookupStep at hfr ⊢
  split
  · rename_i hb; rw [hb] at hk; cases hk
  split
  · exact ref 410 ⟨by simp, by simp⟩
  rename_i cm _
  split
  · split
    · rename_i hgb
      refine hnew s.c.nObj _ rfl rfl ?_ rfl ?_ (fun e => by rw [hgb] at e; cases e)
      · intro o ho
        exact updAt_ne _ _ (Nat.ne_of_lt ho)
      · exact HFrame.of_same i _ rfl rfl rfl rfl rfl rfl rfl h7
    · exact ref 410 ⟨by simp, by simp⟩
  · rename_i o ho
    split
    · exact ref 410 ⟨by simp, by simp⟩
    · exact hnew _ _ rfl rfl (fun _ _ => rfl) rfl (HFrame.of_same i _ rfl rfl rfl rfl rfl rfl rfl h7)
        (fun _ => ⟨cm, by rw [← C.name]; exact ho⟩)

/-- The check of the state. -/
theorem HCtx.check {P : SysCfg} {s : Sys} {n i : Nat} {h : Handler} (C : HCtx P s n i h) (cfg : Nat → Nat)
    (hpc : h.pc = .check) : NInv P ⟨s.c.checkStep i h, s.r, cfg, s.dones⟩ n := by
  have hne : h.pc ≠ .sendDone := by rw [hpc]; simp
  have hN := C.hneed
  have ref : Refused 412 := ⟨by simp, by simp⟩
  unfold Sys.hneed at hN
  rw [hpc] at hN
  unfold CSt.checkStep
  rcases request_pc C.rq with ⟨a, b, _⟩ | ⟨⟨j, a⟩, b, _⟩ | ⟨a, b, _⟩ | ⟨a, b, _⟩ | ⟨a, b, _⟩ | ⟨a, b, _⟩ <;>
    rw [b] at hN <;> simp only [] at hN ⊢ <;> simp only [b]
  · split
    · refine C.fin cfg hne ?_
      unfold Sys.post; dsimp only; rw [a]; exact Or.inr ⟨ref, hN⟩
    · refine C.go cfg _ hne ?_
      unfold Sys.hneed; dsimp only; rw [b]; exact hN
  · split
    · refine C.fin cfg hne ?_
      unfold Sys.post; dsimp only; rw [a]; exact hN.1
    · refine C.fin cfg hne ?_
      unfold Sys.post; dsimp only; rw [a]; exact hN.1
  · split
    · refine C.fin cfg hne ?_
      unfold Sys.post; dsimp only; rw [a]; exact hN
    · refine C.go cfg _ hne ?_
      unfold Sys.hneed; dsimp only; rw [b]; exact hN
  · split
    · refine C.fin cfg hne ?_
      unfold Sys.post; dsimp only; rw [a]; exact Or.inr ⟨ref, hN⟩
    · refine C.go cfg _ hne ?_
      unfold Sys.hneed; dsimp only; rw [b]; exact hN
  · split
    · refine C.fin cfg hne ?_
      unfold Sys.post; dsimp only; rw [a]; exact Or.inr ⟨ref, hN⟩
    · refine C.go cfg _ hne ?_
      unfold Sys.hneed; dsimp only; rw [b]; exact hN
  · split
    · refine C.fin cfg hne ?_
      unfold Sys.post; dsimp only; rw [a]; exact Or.inr ⟨ref, hN⟩
    · refine C.go cfg _ hne ?_
      unfold Sys.hneed; dsimp only; rw [b]; exact hN

theorem noteDone_other {s : Sys} {i : Nat} {h : Handler} (hi : s.c.hs i = some h) (hpc : h.pc ≠ .sendDone) :
    s.noteDone i = s.dones := by
  unfold Sys.noteDone
  rw [hi]
  simp only [if_neg hpc]

/-- An instance that has not acknowledged. -/
theorem NInv.not_acked {P : SysCfg} {s : Sys} {n i : Nat} {h : Handler} (C : HCtx P s n i h) (hpc : h.pc ≠ .sendDone)
    {m : Nat} (hb : InSt s.c m n .booting) (k : Nat) : ¬ Acked s.c k n := by
  intro hk
  rcases (C.I.acked k hk).2.2.2 with a | a | a | ⟨j, h', a, b, _, d⟩
  · exact hb.not_noC (C.I.done k a).1
  · exact absurd (hb.uniq C.u a).2 (by simp)
  · exact absurd (hb.uniq C.u a).2 (by simp)
  · rw [C.req] at a; cases a
    rw [C.hs] at b; cases b
    exact hpc d

/-- The client of the request. -/
theorem HCtx.obj {P : SysCfg} {s : Sys} {n i m : Nat} {h : Handler} (C : HCtx P s n i h) {x : RemState}
    (ht : h.kind.tracked false = true) (hst : h.pc ≠ .start) (hI : InC s.c h.obj) (hs : InSt s.c m n x) :
    h.obj < s.c.nObj ∧ (s.c.objs h.obj).name = n ∧ (s.c.objs h.obj).stage = m ∧
    cget n (s.c.st m).clients = some h.obj ∧ (s.c.objs h.obj).state = x := by
  obtain ⟨o, h1, h2⟩ := hs
  obtain ⟨p1, p2⟩ := C.v.hobj i h C.hs ht hst
  rw [C.name] at p2
  obtain ⟨e1, e2⟩ := C.u.inC_uniq hI p2 h1
  subst e2
  exact ⟨p1, p2, e1.symm, h1, h2⟩

theorem cget_setMeta_same {c : CSt} {m : Nat} {x : SMeta} (hx : x.clients = (c.st m).clients) (k n : Nat) :
    cget n ((updAt c.st m x) k).clients = cget n (c.st k).clients := by
  by_cases e : k = m
  · rw [e, updAt_same, hx]
  · rw [updAt_ne _ _ e]

/-- POST /boot: the instance is booted. -/
theorem HCtx.setRunnable {P : SysCfg} {s : Sys} {n i : Nat} {h : Handler} (C : HCtx P s n i h) (cfg : Nat → Nat)
    (hpc : h.pc = .setRunnable) (hk : h.kind = .postBoot) :
    NInv P ⟨(s.c.setState h.obj .runnable).goto i h .sendBoot, s.r, cfg, s.dones⟩ n := by
  have hne : h.pc ≠ .sendDone := by rw [hpc]; simp
  have hN := C.hneed
  have hp := C.v.pc i h C.hs
  unfold Sys.hneed at hN
  unfold pcOk at hp
  rw [hk, hpc] at hN hp
  simp only [] at hN hp
  obtain ⟨m, e1, e2⟩ := hN
  obtain ⟨o1, o2, o3, o4, o5⟩ := C.obj (by rw [hk]; rfl) (by rw [hpc]; simp) hp.1 e2
  have na := NInv.not_acked C hne e2
  have hr : InSt ((s.c.setState h.obj .runnable).goto i h .sendBoot) m n .runnable := by
    refine ⟨h.obj, o4, ?_⟩
    show (updAt s.c.objs h.obj _ h.obj).state = _
    rw [updAt_same]
  refine C.I.own_mk (x := some { h with pc := .sendBoot }) rfl C.req rfl ?_ ?_ ?_
    (fun k a ha ho hw => (C.noBad hp.2.2 ha ho hw).elim) (HFrame.of_same i _ rfl rfl rfl rfl rfl rfl rfl (by rw [C.hs]; simp))
  · refine link_go (y := { h with pc := .sendBoot }) C.req C.lt (updAt_same _ _ _) C.rq C.name C.sid ?_
    unfold Sys.hneed
    dsimp only
    rw [hk]
    exact Or.inr ⟨hp.2.2, m, e1, hr, na m⟩
  · intro k hk'
    exact absurd hk' (na k)
  · intro k hd
    exact absurd (C.I.done k hd).1 e2.not_noC

/-- POST /boot: the ack. -/
theorem HCtx.sendBoot {P : SysCfg} {s : Sys} {n i : Nat} {h : Handler} (C : HCtx P s n i h) (cfg : Nat → Nat)
    (hpc : h.pc = .sendBoot) (hk : h.kind = .postBoot) {c' : CSt}
    (hfr : HFrame s.c c') (hc : c' = ((s.c.setMeta (s.c.objs h.obj).stage { s.c.st (s.c.objs h.obj).stage with
          bootQ := (s.c.st (s.c.objs h.obj).stage).bootQ ++ [⟨some h.name, h.body = .empty⟩] }).finish i 200)) :
    NInv P ⟨c', s.r, cfg, s.dones⟩ n := by
  have hne : h.pc ≠ .sendDone := by rw [hpc]; simp
  have hN := C.hneed
  have hp := C.v.pc i h C.hs
  unfold Sys.hneed at hN
  unfold pcOk at hp
  rw [hk, hpc] at hN hp
  simp only [] at hN hp
  have hcl : ∀ k, cget n (c'.st k).clients = cget n (s.c.st k).clients := by
    intro k; rw [hc]
    exact cget_setMeta_same (c := s.c) (m := (s.c.objs h.obj).stage) (x := { s.c.st (s.c.objs h.obj).stage with
      bootQ := (s.c.st (s.c.objs h.obj).stage).bootQ ++ [⟨some h.name, h.body = .empty⟩] }) rfl k n
  have hob : c'.objs = s.c.objs := by rw [hc]; rfl
  have hI : ∀ k x, InSt s.c k n x → InSt c' k n x := by
    rintro k x ⟨o, a, b⟩; exact ⟨o, by rw [hcl]; exact a, by rw [hob]; exact b⟩
  have hhs : c'.hs = updAt s.c.hs i none := by rw [hc]; rfl
  have lk : Sys.post ⟨c', s.r, cfg, s.dones⟩ n i 200 → Sys.link P ⟨c', s.r, cfg, s.dones⟩ n := by
    intro hpost
    refine link_fin (code := 200) C.req (by dsimp only; rw [hfr.nH]; exact C.lt) ?_ ?_ ?_ hpost
    · dsimp only; rw [hhs]; exact updAt_same _ _ _
    · have := C.rq
      unfold Sys.request at this ⊢
      dsimp only
      rw [this]; rfl
    · rw [hc]; simp [CSt.finish]
  rcases hN with ⟨b1, m, e1, e2⟩ | ⟨b1, m, e1, e2, e3⟩
  · -- an error
    obtain ⟨o1, o2, o3, o4, o5⟩ := C.obj (by rw [hk]; rfl) (by rw [hpc]; simp) hp.1 e2
    have hA : ∀ k, Acked c' k n ↔ Acked s.c k n := by
      intro k
      unfold Acked
      rw [hc]
      simp only [CSt.finish, CSt.setMeta]
      by_cases ek : k = (s.c.objs h.obj).stage
      · rw [ek, updAt_same]
        simp [okNames, b1]
      · rw [updAt_ne _ _ ek]
    refine C.I.own_mk (x := none) rfl C.req hhs ?_ ?_ ?_ ?_ hfr
    · apply lk
      unfold Sys.post
      rcases request_pc C.rq with ⟨a, b, _⟩ | ⟨⟨j, a⟩, b, _⟩ | ⟨a, b, _⟩ | ⟨a, b, c⟩ | ⟨a, b, _⟩ | ⟨a, b, _⟩ <;>
        simp only [b, reduceCtorEq] at hk
      · dsimp only; rw [a]; exact ⟨m, e1, hI _ _ e2⟩
      · rw [b1] at c; cases c
    · intro k hk'
      exact absurd ((hA k).mp hk') (NInv.not_acked C hne e2 k)
    · intro k hd
      exact absurd (C.I.done k hd).1 e2.not_noC
    · intro k a ha ho hw
      have hpe : (s.r n).rs.pc = .postErr := by
        rcases request_pc C.rq with ⟨p, b, c⟩ | ⟨⟨j, p⟩, b, c⟩ | ⟨p, b, c⟩ | ⟨p, b, c⟩ | ⟨p, b, c⟩ | ⟨p, b, c⟩ <;>
          first | exact p | (rw [b1] at c; cases c)
      by_cases ek : k = m
      · subst ek
        exact ⟨e1, hI _ _ e2, Or.inl hpe⟩
      · rw [hc] at ha
        simp only [CSt.finish, CSt.setMeta] at ha
        rw [o3, updAt_ne _ _ ek] at ha
        obtain ⟨b1, b2, b3⟩ := C.I.bad k a ha ho hw
        exact ⟨b1, hI _ _ b2, b3⟩
  · obtain ⟨o1, o2, o3, o4, o5⟩ := C.obj (by rw [hk]; rfl) (by rw [hpc]; simp) hp.1 e2
    have hA : Acked c' m n := by
      unfold Acked
      rw [hc]
      simp only [CSt.finish, CSt.setMeta]
      rw [o3, updAt_same]
      simp [okNames, b1, C.name]
    have hA' : ∀ k, k ≠ m → (Acked c' k n ↔ Acked s.c k n) := by
      intro k hkm
      unfold Acked
      rw [hc]
      simp only [CSt.finish, CSt.setMeta]
      rw [o3, updAt_ne _ _ hkm]
    have hpb : (s.r n).rs.pc = .postBoot := by
      rcases request_pc C.rq with ⟨a, b, _⟩ | ⟨⟨j, a⟩, b, _⟩ | ⟨a, b, c⟩ | ⟨a, b, c⟩ | ⟨a, b, _⟩ | ⟨a, b, _⟩ <;>
        simp only [b, reduceCtorEq] at hk
      · rw [b1] at c; cases c
      · exact a
    refine C.I.own_mk (x := none) rfl C.req hhs ?_ ?_ ?_ ?_ hfr
    · apply lk
      unfold Sys.post
      dsimp only; rw [hpb]; exact Or.inl ⟨rfl, m, e1, hI _ _ e2, hA⟩
    · intro k hk'
      by_cases ek : k = m
      · subst ek
        obtain ⟨r1, r2⟩ := C.I.rem.late (Or.inl hpb)
        exact ⟨e1, r1, r2, Or.inr (Or.inl (hI _ _ e2))⟩
      · have := (C.I.acked k ((hA' k ek).mp hk')).1
        rw [e1] at this
        omega
    · intro k hd
      exact absurd (C.I.done k hd).1 e2.not_noC
    · intro k a ha ho hw
      rw [hc] at ha
      simp only [CSt.finish, CSt.setMeta] at ha
      by_cases ek : k = (s.c.objs h.obj).stage
      · rw [ek, updAt_same] at ha
        rcases List.mem_append.mp ha with ha | ha
        · exact (C.noBad b1 ha ho hw).elim
        · rw [List.mem_singleton.mp ha] at ho
          simp [b1] at ho
      · rw [updAt_ne _ _ ek] at ha
        exact (C.noBad b1 ha ho hw).elim

/-- GET /boot: the instance becomes a client. -/
theorem HCtx.join {P : SysCfg} {s : Sys} {n i cm : Nat} {h : Handler} (C : HCtx P s n i h) {cfg : Nat → Nat}
    (hcfg : cfg i = cm + 1) (hpc : h.pc = .join) (hk : h.kind = .getBoot) {c' : CSt} (hfr : HFrame s.c c')
    (hc : c' = ({ s.c with objs := updAt s.c.objs h.obj { s.c.objs h.obj with stage := cm, state := .booting } }.setMeta cm
            { s.c.st cm with clients := cset h.name h.obj (s.c.st cm).clients }).finish i 200) :
    NInv P ⟨c', s.r, cfg, s.dones⟩ n := by
  have hN := C.hneed
  unfold Sys.hneed at hN
  rw [hk, hpc] at hN
  simp only [] at hN
  have hhs : c'.hs = updAt s.c.hs i none := by rw [hc]; rfl
  have hst : ∀ k, okNames ((c'.st k).oks ++ (c'.st k).bootQ) = okNames ((s.c.st k).oks ++ (s.c.st k).bootQ) := by
    intro k
    rw [hc]
    simp only [CSt.finish, CSt.setMeta]
    by_cases ek : k = cm
    · rw [ek, updAt_same]
    · rw [updAt_ne _ _ ek]
  have hbq : ∀ k, (c'.st k).bootQ = (s.c.st k).bootQ := by
    intro k
    rw [hc]
    simp only [CSt.finish, CSt.setMeta]
    by_cases ek : k = cm
    · rw [ek, updAt_same]
    · rw [updAt_ne _ _ ek]
  have hbe := C.body_empty (by rw [hk]; simp)
  refine C.I.own_mk (x := none) rfl C.req hhs ?_ ?_ ?_
    (fun k a ha ho hw => (C.noBad hbe (by rw [← hbq]; exact ha) ho hw).elim) hfr
  · refine link_fin (code := 200) C.req (by dsimp only; rw [hfr.nH]; exact C.lt) ?_ ?_ ?_ ?_
    · dsimp only; rw [hhs]; exact updAt_same _ _ _
    · have := C.rq
      unfold Sys.request at this ⊢
      dsimp only
      rw [this]; rfl
    · rw [hc]; simp [CSt.finish]
    · unfold Sys.post
      rcases request_pc C.rq with ⟨a, b, _⟩ | ⟨⟨j, a⟩, b, _⟩ | ⟨a, b, _⟩ | ⟨a, b, c⟩ | ⟨a, b, _⟩ | ⟨a, b, _⟩ <;>
        simp only [b, reduceCtorEq] at hk
      dsimp only
      rw [a]
      refine Or.inl ⟨rfl, hN.2, cm, hcfg, h.obj, ?_, ?_⟩
      · rw [hc]
        simp only [CSt.finish, CSt.setMeta]
        rw [updAt_same, C.name]
        exact cget_cset_same _ _ _
      · rw [hc]
        simp only [CSt.finish, CSt.setMeta]
        rw [updAt_same]
  · intro k hk'
    unfold Acked at hk'
    rw [hst] at hk'
    have := (C.I.acked k hk').1
    rw [hN.2] at this
    omega
  · intro k hd
    have := (C.I.done k hd).2.1
    rw [hN.2] at this
    omega

/-- GET /run: the instance was told to run. -/
theorem HCtx.setRunning {P : SysCfg} {s : Sys} {n i : Nat} {h : Handler} (C : HCtx P s n i h) (cfg : Nat → Nat)
    (hpc : h.pc = .setRunning) (hk : h.kind = .getRun) :
    NInv P ⟨{ s.c.setState h.obj .running with hs := updAt s.c.hs i none }, s.r, cfg, s.dones⟩ n := by
  have hN := C.hneed
  have hp := C.v.pc i h C.hs
  unfold Sys.hneed at hN
  unfold pcOk at hp
  rw [hk, hpc] at hN hp
  simp only [] at hN hp
  obtain ⟨⟨m, e1, e2, e3⟩, e4⟩ := hN
  obtain ⟨o1, o2, o3, o4, o5⟩ := C.obj (by rw [hk]; rfl) (by rw [hpc]; simp) hp.1 e2
  have hr : InSt { s.c.setState h.obj .running with hs := updAt s.c.hs i none } m n .running := by
    refine ⟨h.obj, o4, ?_⟩
    show (updAt s.c.objs h.obj _ h.obj).state = _
    rw [updAt_same]
  have hbe := C.body_empty (by rw [hk]; simp)
  refine C.I.own_mk (x := none) rfl C.req rfl ?_ ?_ ?_ (fun k a ha ho hw => (C.noBad hbe ha ho hw).elim)
    (HFrame.of_same i _ rfl rfl rfl rfl rfl rfl rfl (by rw [C.hs]; simp))
  · refine link_fin (code := 200) C.req C.lt ?_ ?_ e4 ?_
    · exact updAt_same _ _ _
    · have := C.rq
      unfold Sys.request at this ⊢
      dsimp only
      rw [this]; rfl
    · unfold Sys.post
      rcases request_pc C.rq with ⟨a, b, _⟩ | ⟨⟨j, a⟩, b, _⟩ | ⟨a, b, _⟩ | ⟨a, b, c⟩ | ⟨a, b, _⟩ | ⟨a, b, _⟩ <;>
        simp only [b, reduceCtorEq] at hk
      dsimp only
      rw [a]
      exact Or.inl ⟨rfl, m, e1, hr, e3⟩
  · intro k hk'
    obtain ⟨a1, a2, a3, _⟩ := C.I.acked k hk'
    have : k = m := by rw [e1] at a1; omega
    subst this
    exact ⟨a1, a2, a3, Or.inr (Or.inr (Or.inl hr))⟩
  · intro k hd
    exact absurd (C.I.done k hd).1 e2.not_noC

/-- POST /run: the client is removed. -/
theorem HCtx.del {P : SysCfg} {s : Sys} {n i : Nat} {h : Handler} (C : HCtx P s n i h) (cfg : Nat → Nat)
    (hpc : h.pc = .del) (hk : h.kind = .postRun)
    (G8 : ∀ m, (s.c.st m).booted = true → ∀ o, cget n (s.c.st m).clients = some o → n ∈ okNames (s.c.st m).oks)
    {c' : CSt} (hfr : HFrame s.c c')
    (hc : c' = (s.c.setMeta (s.c.objs h.obj).stage { s.c.st (s.c.objs h.obj).stage with
      clients := cdel h.name (s.c.st (s.c.objs h.obj).stage).clients }).goto i h .sendDone) :
    NInv P ⟨c', s.r, cfg, s.dones⟩ n := by
  have hN := C.hneed
  have hp := C.v.pc i h C.hs
  unfold Sys.hneed at hN
  unfold pcOk at hp
  rw [hk, hpc] at hN hp
  simp only [] at hN hp
  obtain ⟨m, e1, e2, e3⟩ := hN
  obtain ⟨o1, o2, o3, o4, o5⟩ := C.obj (by rw [hk]; rfl) (by rw [hpc]; simp) hp.1 e2
  have hrc := (C.v.obj m n h.obj o4).running o5
  have hok := G8 m (C.u.closed m hrc) _ o4
  have hnc : NoC c' n := by
    intro k
    rw [hc]
    simp only [CSt.goto, CSt.setMeta]
    rw [o3]
    by_cases ek : k = m
    · rw [ek, updAt_same, C.name]; exact cget_cdel_same _ _
    · rw [updAt_ne _ _ ek]
      cases hg : cget n (s.c.st k).clients with
      | none => rfl
      | some o => exact absurd (C.u.uniq hg o4) ek
  have hst : ∀ k, (c'.st k).oks = (s.c.st k).oks ∧ (c'.st k).bootQ = (s.c.st k).bootQ := by
    intro k
    rw [hc]
    simp only [CSt.goto, CSt.setMeta]
    by_cases ek : k = (s.c.objs h.obj).stage
    · rw [ek, updAt_same]; exact ⟨rfl, rfl⟩
    · rw [updAt_ne _ _ ek]; exact ⟨rfl, rfl⟩
  have hob : c'.objs = s.c.objs := by rw [hc]; rfl
  have hnO : c'.nObj = s.c.nObj := by rw [hc]; rfl
  have hhs : c'.hs = updAt s.c.hs i (some { h with pc := .sendDone }) := by rw [hc]; rfl
  have hbe := C.body_empty (by rw [hk]; simp)
  refine C.I.own_mk (x := some { h with pc := .sendDone }) rfl C.req hhs ?_ ?_ ?_
    (fun k a ha ho hw => (C.noBad hbe (by rw [← (hst k).2]; exact ha) ho hw).elim) hfr
  · refine link_go (y := { h with pc := .sendDone }) C.req (by dsimp only; rw [hfr.nH]; exact C.lt)
      (by dsimp only; rw [hhs]; exact updAt_same _ _ _) C.rq C.name C.sid ?_
    unfold Sys.hneed
    dsimp only
    rw [hk]
    refine ⟨hnc, m, e1, by rw [hob]; exact o3, by rw [hnO]; exact o1, by rw [hob]; exact o2,
      by rw [(hst m).1]; exact hok, by rw [(hfr.metas m).runClosed]; exact hrc, ?_⟩
    intro hd
    exact absurd (C.I.done m hd).1 e2.not_noC
  · intro k hk'
    unfold Acked at hk'
    rw [(hst k).1, (hst k).2] at hk'
    obtain ⟨a1, a2, a3, _⟩ := C.I.acked k hk'
    refine ⟨a1, a2, a3, Or.inr (Or.inr (Or.inr ⟨i, { h with pc := .sendDone }, C.req, ?_, hk, rfl⟩))⟩
    dsimp only; rw [hhs]; exact updAt_same _ _ _
  · intro k hd
    exact absurd (C.I.done k hd).1 e2.not_noC

/-- POST /run: the ack. -/
theorem HCtx.sendDone {P : SysCfg} {s : Sys} {n i : Nat} {h : Handler} (C : HCtx P s n i h) (cfg : Nat → Nat)
    (hpc : h.pc = .sendDone) (hk : h.kind = .postRun) {c' : CSt} (hfr : HFrame s.c c')
    (hc : c' = (s.c.setMeta (s.c.objs h.obj).stage { s.c.st (s.c.objs h.obj).stage with
          doneQ := (s.c.st (s.c.objs h.obj).stage).doneQ ++ [⟨some h.name, h.body ≠ .error⟩] }).goto i h .setReady) :
    NInv P ⟨c', s.r, cfg, s.noteDone i⟩ n := by
  have hN := C.hneed
  unfold Sys.hneed at hN
  rw [hk, hpc] at hN
  simp only [] at hN
  obtain ⟨e0, m, e1, e2, e3, e4, e5, e6, e7⟩ := hN
  have hnd : s.noteDone i = updAt s.dones m (s.dones m ++ [some n]) := by
    unfold Sys.noteDone
    rw [C.hs]
    simp only [if_pos hpc, e2, C.name]
  have hnc : NoC c' n := by
    intro k
    rw [hc]
    exact (cget_setMeta_same (c := s.c) (m := (s.c.objs h.obj).stage) (x := { s.c.st (s.c.objs h.obj).stage with
      doneQ := (s.c.st (s.c.objs h.obj).stage).doneQ ++ [⟨some h.name, h.body ≠ .error⟩] }) rfl k n).trans (e0 k)
  have hst : ∀ k, (c'.st k).oks = (s.c.st k).oks ∧ (c'.st k).bootQ = (s.c.st k).bootQ := by
    intro k
    rw [hc]
    simp only [CSt.goto, CSt.setMeta]
    by_cases ek : k = (s.c.objs h.obj).stage
    · rw [ek, updAt_same]; exact ⟨rfl, rfl⟩
    · rw [updAt_ne _ _ ek]; exact ⟨rfl, rfl⟩
  have hhs : c'.hs = updAt s.c.hs i (some { h with pc := .setReady }) := by rw [hc]; rfl
  have hmem : some n ∈ s.noteDone i m := by
    rw [hnd, updAt_same]; simp
  have hpr : (s.r n).rs.pc = .postRun := by
    rcases request_pc C.rq with ⟨a, b, _⟩ | ⟨⟨j, a⟩, b, _⟩ | ⟨a, b, c⟩ | ⟨a, b, c⟩ | ⟨a, b, _⟩ | ⟨a, b, _⟩ <;>
      simp only [b, reduceCtorEq] at hk
    exact a
  have hbe := C.body_empty (by rw [hk]; simp)
  refine C.I.own_mk (x := some { h with pc := .setReady }) rfl C.req hhs ?_ ?_ ?_
    (fun k a ha ho hw => (C.noBad hbe (by rw [← (hst k).2]; exact ha) ho hw).elim) hfr
  · refine link_go (y := { h with pc := .setReady }) C.req (by dsimp only; rw [hfr.nH]; exact C.lt)
      (by dsimp only; rw [hhs]; exact updAt_same _ _ _) C.rq C.name C.sid ?_
    unfold Sys.hneed
    dsimp only
    rw [hk]
    exact ⟨m, e1, hnc, hmem⟩
  · intro k hk'
    unfold Acked at hk'
    rw [(hst k).1, (hst k).2] at hk'
    obtain ⟨a1, a2, a3, _⟩ := C.I.acked k hk'
    have : k = m := by rw [e1] at a1; omega
    subst this
    exact ⟨a1, a2, a3, Or.inl hmem⟩
  · intro k hd
    dsimp only at hd
    rw [hnd] at hd
    by_cases ek : k = m
    · subst ek
      exact ⟨hnc, e1, C.I.rem.ran hpr, by rw [(hst k).1]; exact e5⟩
    · rw [updAt_ne _ _ ek] at hd
      obtain ⟨_, a2, a3, a4⟩ := C.I.done k hd
      exact ⟨hnc, a2, a3, by rw [(hst k).1]; exact a4⟩

/-- POST /run: the last step. -/
theorem HCtx.setReady {P : SysCfg} {s : Sys} {n i : Nat} {h : Handler} (C : HCtx P s n i h) (cfg : Nat → Nat)
    (hpc : h.pc = .setReady) (hk : h.kind = .postRun) :
    NInv P ⟨(s.c.setState h.obj .ready).finish i 200, s.r, cfg, s.dones⟩ n := by
  have hN := C.hneed
  unfold Sys.hneed at hN
  rw [hk, hpc] at hN
  simp only [] at hN
  obtain ⟨m, e1, e2, e3⟩ := hN
  have hbe := C.body_empty (by rw [hk]; simp)
  refine C.I.own_mk (x := none) rfl C.req rfl ?_ ?_ ?_ (fun k a ha ho hw => (C.noBad hbe ha ho hw).elim)
    (HFrame.of_same i _ rfl rfl rfl rfl rfl rfl rfl (by rw [C.hs]; simp))
  · refine link_fin (code := 200) C.req C.lt ?_ ?_ ?_ ?_
    · exact updAt_same _ _ _
    · have := C.rq
      unfold Sys.request at this ⊢
      dsimp only
      rw [this]; rfl
    · simp [CSt.finish]
    · unfold Sys.post
      rcases request_pc C.rq with ⟨a, b, _⟩ | ⟨⟨j, a⟩, b, _⟩ | ⟨a, b, _⟩ | ⟨a, b, c⟩ | ⟨a, b, _⟩ | ⟨a, b, _⟩ <;>
        simp only [b, reduceCtorEq] at hk
      dsimp only
      rw [a]
      exact Or.inl ⟨rfl, m, e1, e2, e3⟩
  · intro k hk'
    obtain ⟨a1, a2, a3, _⟩ := C.I.acked k hk'
    have : k = m := by rw [e1] at a1; omega
    subst this
    exact ⟨a1, a2, a3, Or.inl e3⟩
  · intro k hd
    exact C.I.done k hd

/-- Every step of the request `i` of the instance `n`. -/
theorem HCtx.step {P : SysCfg} {s : Sys} {n i : Nat} {h : Handler} (C : HCtx P s n i h) {c' : CSt}
    (hdone : ∀ m, (s.c.st m).done = true → (s.c.st m).clients = [])
    (G8 : ∀ m, (s.c.st m).booted = true → ∀ o, cget n (s.c.st m).clients = some o → n ∈ okNames (s.c.st m).oks)
    (hc : s.c.hstep i false = some c') : NInv P ⟨c', s.r, s.noteCfg i, s.noteDone i⟩ n := by
  have hfr := hstep_frame hc
  have hN := C.hneed
  have hp := C.v.pc i h C.hs
  have hsrc := hc
  unfold CSt.hstep at hc
  rw [C.hs] at hc
  simp only [] at hc
  cases hpc : h.pc <;> rw [hpc] at hc <;> simp only [] at hc
  case sendDone =>
    have hk : h.kind = .postRun := by
      unfold pcOk at hp; rw [hpc] at hp
      cases hk : h.kind <;> rw [hk] at hp <;> simp only [] at hp
    split at hc
    · cases hc; exact C.sendDone _ hpc hk hfr rfl
    · cases hc
  all_goals
    have hne : h.pc ≠ .sendDone := by rw [hpc]; simp
    rw [noteDone_other C.hs hne]
  case start => cases hc; exact C.lookup _ hpc
  case check => cases hc; exact C.check _ hpc
  all_goals
    unfold pcOk at hp
    unfold Sys.hneed at hN
    rw [hpc] at hp hN
  case join =>
    have hk : h.kind = .getBoot := by
      cases hk : h.kind <;> rw [hk] at hp <;> simp only [] at hp
    split at hc
    · cases hc
    rename_i cm hcur
    split at hc
    · cases hc
    split at hc
    · cases hc
    cases hc
    refine C.join ?_ hpc hk hfr rfl
    unfold Sys.noteCfg
    rw [C.hs, hcur]
    simp only [if_pos hpc, updAt_same]
  case body =>
    split at hc <;> rename_i hk
    · rw [hk] at hN
      simp only [] at hN
      split at hc <;> rename_i hb
      · cases hc
        rcases request_pc C.rq with ⟨a, b, c⟩ | ⟨⟨j, a⟩, b, c⟩ | ⟨a, b, c⟩ | ⟨a, b, c⟩ | ⟨a, b, c⟩ | ⟨a, b, c⟩ <;>
          rw [hb] at c <;> cases c
      · cases hc
        refine C.go _ _ hne ?_
        unfold Sys.hneed; dsimp only; rw [hk]; exact Or.inl ⟨hb, hN⟩
      · cases hc
        refine C.go _ _ hne ?_
        unfold Sys.hneed; dsimp only; rw [hk]; exact hN
    · have hk' : h.kind = .postRun := by
        cases hk' : h.kind <;> rw [hk'] at hp <;> simp only [] at hp
        · exact absurd hk' hk
      cases hc
      rw [hk'] at hN
      refine C.go _ _ hne ?_
      unfold Sys.hneed; dsimp only; rw [hk']; exact hN
  case setRunnable =>
    have hk : h.kind = .postBoot := by
      cases hk : h.kind <;> rw [hk] at hp <;> simp only [] at hp
    cases hc
    exact C.setRunnable _ hpc hk
  case sendBoot =>
    have hk : h.kind = .postBoot := by
      cases hk : h.kind <;> rw [hk] at hp <;> simp only [] at hp
    split at hc
    · cases hc; exact C.sendBoot _ hpc hk hfr rfl
    · cases hc
  case waitRun =>
    have hk : h.kind = .getRun := by
      cases hk : h.kind <;> rw [hk] at hp <;> simp only [] at hp
    rw [hk] at hN
    split at hc
    · cases hc
      refine C.go _ _ hne ?_
      unfold Sys.hneed; dsimp only; rw [hk]; exact hN
    · cases hc
  case afterRun =>
    have hk : h.kind = .getRun := by
      cases hk : h.kind <;> rw [hk] at hp <;> simp only [] at hp
    rw [hk] at hN hp
    simp only [] at hN hp
    split at hc <;> rename_i hd
    · exfalso
      have e := hdone _ hd
      have := hp.1
      unfold InC at this
      rw [e] at this
      cases this
    · cases hc
      refine C.go _ _ hne ?_
      unfold Sys.hneed; dsimp only; rw [hk]; exact hN
  case write =>
    have hk : h.kind = .getRun := by
      cases hk : h.kind <;> rw [hk] at hp <;> simp only [] at hp
    rw [hk] at hN
    simp only [Bool.false_eq_true, if_false] at hc
    cases hc
    refine C.I.own_soft (x := some { h with pc := .setRunning }) C.v rfl C.req rfl C.hs hne rfl (fun _ _ => rfl) rfl
      hfr ?_
    refine link_go (y := { h with pc := .setRunning }) C.req C.lt (updAt_same _ _ _) C.rq C.name C.sid ?_
    unfold Sys.hneed; dsimp only; rw [hk]
    exact ⟨hN, by simp⟩
  case setRunning =>
    have hk : h.kind = .getRun := by
      cases hk : h.kind <;> rw [hk] at hp <;> simp only [] at hp
    cases hc
    exact C.setRunning _ hpc hk
  case del =>
    have hk : h.kind = .postRun := by
      cases hk : h.kind <;> rw [hk] at hp <;> simp only [] at hp
    cases hc
    exact C.del _ hpc hk G8 hfr rfl
  case setReady =>
    have hk : h.kind = .postRun := by
      cases hk : h.kind <;> rw [hk] at hp <;> simp only [] at hp
    cases hc
    exact C.setReady _ hpc hk
  case recv =>
    exfalso
    rcases request_pc C.rq with ⟨a, b, c⟩ | ⟨⟨j, a⟩, b, c⟩ | ⟨a, b, c⟩ | ⟨a, b, c⟩ | ⟨a, b, c⟩ | ⟨a, b, c⟩ <;>
      rw [b] at hp <;> simp only [] at hp

end Finch
