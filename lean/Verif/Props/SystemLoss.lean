import Verif.Props.SystemPhase
/-!
A distributed run as a whole when responses are lost (for C101): an instance that did not get the response to a
request that changed something sends the request again, but every further one is refused.
-/
namespace Finch

/-! ### What holds for an instance whose response was lost -/

/-- The requests that change something. -/
inductive DKind where
  | boot
  | ack
  | run
  | fin
  deriving DecidableEq, Repr

def DKind.kind : DKind → ReqKind
  | .boot => .getBoot
  | .ack => .postBoot
  | .run => .getRun
  | .fin => .postRun

def DKind.pc : DKind → RPc
  | .boot => .getBoot
  | .ack => .postBoot
  | .run => .getRun
  | .fin => .postRun

/-- Where the server has the instance. -/
def Sys.lostAt (s : Sys) (n : Nat) : DKind → Prop
  | .boot => (s.r n).sid = 0 ∧ ∃ m, InSt s.c m n .booting
  | .ack => s.atA n .runnable
  | .run => s.atA n .running
  | .fin => s.sent n

/-- What holds for the instance `n` after its response was lost. -/
structure DInv (s : Sys) (n : Nat) (d : DKind) : Prop where
  here : s.lostAt n d
  pc : (s.r n).rs.pc = d.pc
  hs : ∀ i h, s.c.hs i = some h → h.name = n → h.kind.mainKind = true → (s.r n).req = some i ∧ h.kind = d.kind ∧
    h.sid = (s.r n).sid ∧ (h.pc = .start ∨
      (h.pc = .check ∧ (d = .ack ∨ d = .run) ∧ ∃ m, cget n (s.c.st m).clients = some h.obj))
  req : ∀ i, (s.r n).req = some i → i < s.c.nH ∧ (∀ h, s.c.hs i = some h → h.name = n ∧ h.kind.mainKind = true) ∧
    (s.c.hs i = none → ∃ code, s.c.resp.lookup i = some code ∧ Refused code)
  acked : ∀ m, Acked s.c m n → (s.r n).sid = m + 1 ∧ REv.prepare false ∈ (s.r n).rs.trace ∧
    REv.postBoot true ∉ (s.r n).rs.trace ∧
    (some n ∈ s.dones m ∨ InSt s.c m n .runnable ∨ InSt s.c m n .running)
  done : ∀ m, some n ∈ s.dones m → NoC s.c n ∧ (s.r n).sid = m + 1 ∧ REv.stopped ∈ (s.r n).rs.trace ∧
    n ∈ okNames (s.c.st m).oks
  start : REv.start ∈ (s.r n).rs.trace → ∃ m, (s.r n).sid = m + 1 ∧ (s.c.st m).runClosed = true ∧ Acked s.c m n

theorem LFrame.lostAt {n : Nat} {s s' : Sys} {w : Bool} (v : SInv w s.c) (f : LFrame n s s') {d : DKind}
    (h : s.lostAt n d) : s'.lostAt n d := by
  cases d with
  | boot => exact ⟨f.sid.trans h.1, h.2.imp fun m hm => f.inSt v hm⟩
  | ack => exact f.atA v h
  | run => exact f.atA v h
  | fin => exact f.sent h

theorem DInv.frame {n : Nat} {s s' : Sys} {w : Bool} {d : DKind} (v : SInv w s.c) (I : DInv s n d)
    (f : LFrame n s s') : DInv s' n d := by
  refine ⟨f.lostAt v I.here, by rw [f.pc]; exact I.pc, ?_, ?_, ?_, ?_, ?_⟩
  · intro i h hi hn hk
    obtain ⟨a1, a2, a3, a4⟩ := I.hs i h (f.own i h hi hn hk) hn hk
    refine ⟨f.req.trans a1, a2, a3.trans f.sid.symm, a4.imp id fun ⟨b1, b2, b3⟩ => ⟨b1, b2, b3.imp fun m hm => ?_⟩⟩
    rw [f.cl]; exact hm
  · intro i hi
    rw [f.req] at hi
    obtain ⟨a1, a2, a3⟩ := I.req i hi
    obtain ⟨e1, e2, _⟩ := f.hs i hi
    rw [e1, e2]
    exact ⟨Nat.lt_of_lt_of_le a1 f.nH, a2, a3⟩
  · intro m hm
    obtain ⟨a1, a2, a3, a4⟩ := I.acked m ((f.acked m).mp hm)
    refine ⟨f.sid.trans a1, (f.trace _ rfl).mpr a2, fun x => a3 ((f.trace _ rfl).mp x), ?_⟩
    exact a4.imp (f.dones m).mpr (Or.imp (f.inSt v) (f.inSt v))
  · intro m hm
    obtain ⟨a1, a2, a3, a4⟩ := I.done m ((f.dones m).mp hm)
    exact ⟨f.noC a1, f.sid.trans a2, (f.trace _ rfl).mpr a3, f.oks m a4⟩
  · intro h
    obtain ⟨m, a1, a2, a3⟩ := I.start ((f.trace _ rfl).mp h)
    exact ⟨m, f.sid.trans a1, f.rc m a2, (f.acked m).mpr a3⟩

/-- A step of the server that changes nothing but the request `i` of the instance. -/
theorem DInv.soft {s : Sys} {n i : Nat} {d : DKind} (I : DInv s n d) {c' : CSt} {x : Option Handler}
    (hreq : (s.r n).req = some i) (cfg : Nat → Nat) (hst : c'.st = s.c.st) (hob : c'.objs = s.c.objs)
    (hhs : c'.hs = updAt s.c.hs i x) (hn : c'.nH = s.c.nH)
    (hx : ∀ h, x = some h → h.name = n ∧ h.kind = d.kind ∧ h.kind.mainKind = true ∧ h.sid = (s.r n).sid ∧
      h.pc = .check ∧ (d = .ack ∨ d = .run) ∧ ∃ m, cget n (s.c.st m).clients = some h.obj)
    (hr : x = none → ∃ code, c'.resp.lookup i = some code ∧ Refused code) :
    DInv ⟨c', s.r, cfg, s.dones⟩ n d := by
  have hI : ∀ m y, InSt s.c m n y → InSt c' m n y := by
    rintro m y ⟨o, h1, h2⟩
    exact ⟨o, by rw [hst]; exact h1, by rw [hob]; exact h2⟩
  have hA : ∀ m, Acked c' m n ↔ Acked s.c m n := fun m => by unfold Acked; rw [hst]
  have hN : NoC s.c n → NoC c' n := fun h m => by rw [hst]; exact h m
  have hA' : ∀ y, s.atA n y → Sys.atA ⟨c', s.r, cfg, s.dones⟩ n y :=
    fun y ⟨m, a, b, e⟩ => ⟨m, a, hI m y b, (hA m).mpr e⟩
  refine ⟨?_, I.pc, ?_, ?_, ?_, ?_, ?_⟩
  · have h := I.here
    cases d with
    | boot => exact ⟨h.1, h.2.imp fun m hm => hI m _ hm⟩
    | ack => exact hA' _ h
    | run => exact hA' _ h
    | fin =>
      obtain ⟨m, a, b, e⟩ := h
      exact ⟨m, a, hN b, e⟩
  · intro j h hj hn hk
    dsimp only at hj
    rw [hhs] at hj
    by_cases e : j = i
    · rw [e, updAt_same] at hj
      obtain ⟨b1, b2, _, b3, b4, b5, b6⟩ := hx h hj
      refine ⟨by rw [e]; exact hreq, b2, b3, Or.inr ⟨b4, b5, ?_⟩⟩
      dsimp only; rw [hst]; exact b6
    · rw [updAt_ne _ _ e] at hj
      have := (I.hs j h hj hn hk).1
      rw [hreq] at this
      cases this
      exact absurd rfl e
  · intro j hj
    dsimp only at hj
    rw [hreq] at hj
    cases hj
    refine ⟨by rw [hn]; exact (I.req i hreq).1, ?_, ?_⟩
    · intro h hh
      dsimp only at hh
      rw [hhs, updAt_same] at hh
      obtain ⟨b1, _, b2, _⟩ := hx h hh
      exact ⟨b1, b2⟩
    · intro hh
      dsimp only at hh
      rw [hhs, updAt_same] at hh
      exact hr hh
  · intro m hm
    obtain ⟨a1, a2, a3, a4⟩ := I.acked m ((hA m).mp hm)
    exact ⟨a1, a2, a3, a4.imp id (Or.imp (hI m _) (hI m _))⟩
  · intro m hm
    obtain ⟨a1, a2, a3, a4⟩ := I.done m hm
    exact ⟨hN a1, a2, a3, by rw [hst]; exact a4⟩
  · intro h
    obtain ⟨m, a1, a2, a3⟩ := I.start h
    exact ⟨m, a1, by rw [hst]; exact a2, (hA m).mpr a3⟩

/-- Every step of its request is one towards a refusal. -/
theorem DInv.own {s : Sys} {n i : Nat} {d : DKind} {hd : Handler} (u : UInv s.c) (g : YInv s) (I : DInv s n d)
    (hi : s.c.hs i = some hd) (hn : hd.name = n) (hk : hd.kind.mainKind = true) {c' : CSt}
    (h : s.c.hstep i false = some c') : DInv ⟨c', s.r, s.noteCfg i, s.noteDone i⟩ n d := by
  obtain ⟨a1, a2, a3, a4⟩ := I.hs i hd hi hn hk
  have hd' : s.noteDone i = s.dones := noteDone_other hi (by rcases a4 with a | ⟨a, _⟩ <;> rw [a] <;> simp)
  rw [hd']
  have ref : ∀ code, Refused code → DInv ⟨s.c.finish i code, s.r, s.noteCfg i, s.dones⟩ n d := by
    intro code hc
    exact I.soft (x := none) a1 _ rfl rfl rfl rfl (fun h e => by cases e) (fun _ => ⟨code, by simp [CSt.finish], hc⟩)
  have r410 : Refused 410 := ⟨by simp, by simp⟩
  have r412 : Refused 412 := ⟨by simp, by simp⟩
  unfold CSt.hstep at h
  rw [hi] at h
  rcases a4 with hp | ⟨hp, hdk, m, hm⟩
  · simp only [hp, Option.some.injEq] at h
    subst h
    have hH := I.here
    unfold CSt.lookupStep
    have hbad : hd.kind ≠ .bad := by rw [a2]; cases d <;> simp [DKind.kind]
    rw [if_neg hbad]
    -- a client of a stage is one of the current stage
    have hcur : ∀ m y, InSt s.c m n y → s.c.cur = some m ∧ (s.c.st m).done = false ∧
        ∃ o, cget n (s.c.st m).clients = some o := by
      rintro m y ⟨o, h1, _⟩
      refine ⟨?_, ?_, o, h1⟩
      · by_contra hcon
        rw [u.only m hcon] at h1; cases h1
      · cases hdn : (s.c.st m).done
        · rfl
        · rw [g.done m hdn] at h1; cases h1
    have hgo : ∀ m y, s.lostAt n d → (d = .ack ∨ d = .run) → (s.r n).sid = m + 1 → InSt s.c m n y →
        DInv ⟨match s.c.cur with
          | none => s.c.finish i 410
          | some m =>
            match cget hd.name (s.c.st m).clients with
            | none =>
              if hd.kind = .getBoot then
                { s.c with
                  objs := updAt s.c.objs s.c.nObj { name := hd.name }
                  nObj := s.c.nObj + 1
                  hs := updAt s.c.hs i (some { hd with obj := s.c.nObj, pc := .check }) }
              else s.c.finish i 410
            | some o =>
              if (s.c.st m).done = false ∧ m + 1 ≠ hd.sid then s.c.finish i 410
              else { s.c with hs := updAt s.c.hs i (some { hd with obj := o, pc := .check }) },
          s.r, s.noteCfg i, s.dones⟩ n d := by
      intro m y _ hdk hsid hm
      obtain ⟨c1, c2, o, c3⟩ := hcur m y hm
      simp only [c1, hn, c3]
      rw [if_neg (by rw [a3, hsid]; simp)]
      refine I.soft (x := some { hd with name := n, obj := o, pc := .check }) a1 _ rfl rfl rfl rfl ?_ (fun e => by cases e)
      intro h e
      cases e
      exact ⟨rfl, a2, hk, a3, rfl, hdk, m, c3⟩
    cases d with
    | boot =>
      obtain ⟨hs0, m, hm⟩ := hH
      obtain ⟨c1, c2, o, c3⟩ := hcur m _ hm
      simp only [c1, hn, c3]
      rw [if_pos ⟨c2, by rw [a3, hs0]; simp⟩]
      exact ref 410 r410
    | ack =>
      obtain ⟨m, b1, b2, _⟩ := id hH
      exact hgo m _ hH (Or.inl rfl) b1 b2
    | run =>
      obtain ⟨m, b1, b2, _⟩ := id hH
      exact hgo m _ hH (Or.inr rfl) b1 b2
    | fin =>
      obtain ⟨m, _, b2, _⟩ := hH
      cases hc : s.c.cur with
      | none => exact ref 410 r410
      | some cm =>
        simp only [hn, b2 cm]
        rw [if_neg (by rw [a2]; simp [DKind.kind])]
        exact ref 410 r410
  · simp only [hp, Option.some.injEq] at h
    subst h
    have hob : ∀ m' y, InSt s.c m' n y → (s.c.objs hd.obj).state = y := by
      rintro m' y ⟨o, e1, e2⟩
      have := u.uniq hm e1
      subst this
      rw [hm] at e1
      cases e1
      exact e2
    unfold CSt.checkStep
    rcases hdk with e | e <;> subst e
    · obtain ⟨m', _, b2, _⟩ := id I.here
      simp only [a2, DKind.kind, hob m' _ b2]
      exact ref 412 r412
    · obtain ⟨m', _, b2, _⟩ := id I.here
      simp only [a2, DKind.kind, hob m' _ b2]
      exact ref 412 r412

/-- The request that it makes. -/
theorem DInv.request {P : SysCfg} {s : Sys} {n : Nat} {d : DKind} (I : DInv s n d) :
    s.request P n = some (d.kind, .empty) := by
  unfold Sys.request
  rw [I.pc]
  cases d <;> rfl

theorem DInv.send {s : Sys} {n : Nat} {d : DKind} (u : UInv s.c) (I : DInv s n d) (hreq : (s.r n).req = none) :
    DInv ⟨s.c.arriveReq d.kind n (s.r n).sid .empty, updAt s.r n { s.r n with req := some s.c.nH }, s.cfg, s.dones⟩
      n d := by
  have er : ∀ x : RInst, updAt s.r n x n = x := fun x => updAt_same _ _ _
  have hnone : s.c.hs s.c.nH = none := by
    cases h : s.c.hs s.c.nH with
    | none => rfl
    | some x => exact absurd (u.hs s.c.nH (by rw [h]; simp)) (Nat.lt_irrefl _)
  refine ⟨?_, by dsimp only; rw [er]; exact I.pc, ?_, ?_, ?_, ?_, ?_⟩
  · have h := I.here
    cases d with
    | boot => exact ⟨by dsimp only; rw [er]; exact h.1, h.2⟩
    | ack => obtain ⟨m, a, b⟩ := h; exact ⟨m, by dsimp only; rw [er]; exact a, b⟩
    | run => obtain ⟨m, a, b⟩ := h; exact ⟨m, by dsimp only; rw [er]; exact a, b⟩
    | fin => obtain ⟨m, a, b⟩ := h; exact ⟨m, by dsimp only; rw [er]; exact a, b⟩
  · intro i h hi hn hk
    dsimp only
    rw [er]
    by_cases e : i = s.c.nH
    · subst e
      simp only [CSt.arriveReq, updAt_same, Option.some.injEq] at hi
      subst hi
      exact ⟨rfl, rfl, rfl, Or.inl rfl⟩
    · simp only [CSt.arriveReq, updAt_ne _ _ e] at hi
      have := (I.hs i h hi hn hk).1
      rw [hreq] at this
      cases this
  · intro i hi
    dsimp only at hi
    rw [er] at hi
    cases hi
    refine ⟨Nat.lt_succ_self _, ?_, ?_⟩
    · intro h hh
      simp only [CSt.arriveReq, updAt_same, Option.some.injEq] at hh
      subst hh
      exact ⟨rfl, by cases d <;> rfl⟩
    · intro hh
      simp only [CSt.arriveReq, updAt_same] at hh
      cases hh
  · intro m hm; dsimp only; rw [er]; exact I.acked m hm
  · intro m hm; dsimp only; rw [er]; exact I.done m hm
  · intro h; dsimp only at h; rw [er] at h; dsimp only; rw [er]; exact I.start h

/-- The request is over; the instance tries again. -/
theorem DInv.drop {s : Sys} {n : Nat} {d : DKind} (I : DInv s n d)
    (hnone : ∀ j, (s.r n).req = some j → s.c.hs j = none) :
    DInv ⟨s.c, updAt s.r n { s.r n with req := none }, s.cfg, s.dones⟩ n d := by
  have er : ∀ x : RInst, updAt s.r n x n = x := fun x => updAt_same _ _ _
  refine ⟨?_, by dsimp only; rw [er]; exact I.pc, ?_, ?_, ?_, ?_, ?_⟩
  · have h := I.here
    cases d with
    | boot => exact ⟨by dsimp only; rw [er]; exact h.1, h.2⟩
    | ack => obtain ⟨m, a, b⟩ := h; exact ⟨m, by dsimp only; rw [er]; exact a, b⟩
    | run => obtain ⟨m, a, b⟩ := h; exact ⟨m, by dsimp only; rw [er]; exact a, b⟩
    | fin => obtain ⟨m, a, b⟩ := h; exact ⟨m, by dsimp only; rw [er]; exact a, b⟩
  · intro i h hi hn hk
    dsimp only at hi
    have := (I.hs i h hi hn hk).1
    rw [hnone i this] at hi
    cases hi
  · intro i hi
    dsimp only at hi
    rw [er] at hi
    cases hi
  · intro m hm; dsimp only; rw [er]; exact I.acked m hm
  · intro m hm; dsimp only; rw [er]; exact I.done m hm
  · intro h; dsimp only at h; rw [er] at h; dsimp only; rw [er]; exact I.start h

theorem DInv.recv {P : SysCfg} {s s' : Sys} {n : Nat} {d : DKind} (I : DInv s n d)
    (h : s.step P (.recv n) = some s') :
    (∃ x, s' = ⟨s.c, updAt s.r n x, s.cfg, s.dones⟩) ∧ DInv s' n d := by
  simp only [Sys.step] at h
  split at h
  · cases h
  rename_i i hreq
  split at h
  swap
  · cases h
  rename_i code hi hl
  obtain ⟨_, _, a3⟩ := I.req i hreq
  obtain ⟨code', b1, b2, b3⟩ := a3 hi
  rw [hl] at b1
  cases b1
  have hr : respResult code = none := by unfold respResult; rw [if_neg b2, if_neg b3]
  rw [hr] at h
  simp only [Option.some.injEq] at h
  subst h
  refine ⟨⟨_, rfl⟩, I.drop ?_⟩
  intro j hj
  rw [hreq] at hj
  cases hj
  exact hi

/-- The response to a request is lost. -/
theorem NInv.lose {P : SysCfg} {s : Sys} {n : Nat} (I : NInv P s n)
    (hnone : ∀ j, (s.r n).req = some j → s.c.hs j = none) :
    NInv P ⟨s.c, updAt s.r n { s.r n with req := none }, s.cfg, s.dones⟩ n ∨
    ∃ d, DInv ⟨s.c, updAt s.r n { s.r n with req := none }, s.cfg, s.dones⟩ n d := by
  have er : ∀ x : RInst, updAt s.r n x n = x := fun x => updAt_same _ _ _
  have L := I.link
  unfold Sys.link at L
  cases hr : (s.r n).req with
  | none =>
    left
    have e : updAt s.r n { s.r n with req := none } = s.r := by
      funext k
      by_cases ek : k = n
      · rw [ek, updAt_same, ← hr]
      · rw [updAt_ne _ _ ek]
    rw [e]
    exact I
  | some i =>
    rw [hr] at L
    simp only [hnone i hr] at L
    obtain ⟨L1, L2, code, L3, L4⟩ := L
    have h1 : ∀ (y : RemState), s.at_ n y →
        Sys.at_ ⟨s.c, updAt s.r n { s.r n with req := none }, s.cfg, s.dones⟩ n y :=
      fun y ⟨m, a, b⟩ => ⟨m, by dsimp only; rw [er]; exact a, b⟩
    have h2 : ∀ (y : RemState), s.atA n y →
        Sys.atA ⟨s.c, updAt s.r n { s.r n with req := none }, s.cfg, s.dones⟩ n y :=
      fun y ⟨m, a, b⟩ => ⟨m, by dsimp only; rw [er]; exact a, b⟩
    have dead : ∀ d : DKind, (s.r n).rs.pc = d.pc →
        Sys.lostAt ⟨s.c, updAt s.r n { s.r n with req := none }, s.cfg, s.dones⟩ n d →
        DInv ⟨s.c, updAt s.r n { s.r n with req := none }, s.cfg, s.dones⟩ n d := by
      intro d hp hl
      refine ⟨hl, by dsimp only; rw [er]; exact hp, ?_, ?_, ?_, ?_, ?_⟩
      · intro j h hj hn hk
        dsimp only at hj
        have := I.own j h hj hn hk
        rw [hnone j this] at hj
        cases hj
      · intro j hj
        dsimp only at hj
        rw [er] at hj
        cases hj
      · intro m hm
        dsimp only
        rw [er]
        obtain ⟨a1, a2, a3, a4⟩ := I.acked m hm
        refine ⟨a1, a2, a3, ?_⟩
        rcases a4 with a | a | a | ⟨j, h, a, b, _⟩
        · exact Or.inl a
        · exact Or.inr (Or.inl a)
        · exact Or.inr (Or.inr a)
        · rw [hnone j a] at b; cases b
      · intro m hm; dsimp only; rw [er]; exact I.done m hm
      · intro h; dsimp only at h; rw [er] at h; dsimp only; rw [er]; exact I.start h
    have alive : Sys.need ⟨s.c, updAt s.r n { s.r n with req := none }, s.cfg, s.dones⟩ n →
        NInv P ⟨s.c, updAt s.r n { s.r n with req := none }, s.cfg, s.dones⟩ n := I.drop hnone
    unfold Sys.need at alive
    dsimp only at alive
    rw [er] at alive
    unfold Sys.post at L4
    cases hp : (s.r n).rs.pc <;> rw [hp] at L4 <;> simp only [] at L4 <;> rw [hp] at alive <;> simp only [] at alive
    · rcases L4 with ⟨_, c0, m, _, c3⟩ | ⟨_, c⟩
      · exact Or.inr ⟨.boot, dead .boot hp ⟨by dsimp only; rw [er]; exact c0, m, c3⟩⟩
      · exact Or.inl (alive c)
    · exact Or.inl (alive (h1 _ L4))
    · exact Or.inl (alive (h1 _ L4))
    · rcases L4 with ⟨_, c⟩ | ⟨_, c⟩
      · exact Or.inr ⟨.ack, dead .ack hp (h2 _ c)⟩
      · exact Or.inl (alive (h1 _ c))
    · rcases L4 with ⟨_, c⟩ | ⟨_, c⟩
      · exact Or.inr ⟨.run, dead .run hp (h2 _ c)⟩
      · exact Or.inl (alive (h2 _ c))
    · rcases L4 with ⟨_, m, a, b⟩ | ⟨_, c⟩
      · exact Or.inr ⟨.fin, dead .fin hp ⟨m, by dsimp only; rw [er]; exact a, b⟩⟩
      · exact Or.inl (alive (h2 _ c))

/-! ### The whole system -/

/-- What holds for each instance. -/
def LInv (P : SysCfg) (s : Sys) (n : Nat) : Prop := NInv P s n ∨ ∃ d, DInv s n d

theorem LInv.frame {P : SysCfg} {n : Nat} {s s' : Sys} {w : Bool} (v : SInv w s.c) (I : LInv P s n)
    (f : LFrame n s s') : LInv P s' n :=
  I.imp (fun h => h.frame v f) (fun ⟨d, h⟩ => ⟨d, h.frame v f⟩)

theorem LInv.own {P : SysCfg} {s : Sys} {n : Nat} (I : LInv P s n) {i : Nat} {h : Handler} (hi : s.c.hs i = some h)
    (hn : h.name = n) (hk : h.kind.mainKind = true) : (s.r n).req = some i := by
  rcases I with I | ⟨d, I⟩
  · exact I.own i h hi hn hk
  · exact (I.hs i h hi hn hk).1

theorem LInv.reqLt {P : SysCfg} {s : Sys} {n : Nat} (I : LInv P s n) {i : Nat} (hi : (s.r n).req = some i) :
    i < s.c.nH := by
  rcases I with I | ⟨d, I⟩
  · exact I.reqLt hi
  · exact (I.req i hi).1

/-- Its request is one of `run`. -/
theorem LInv.reqMain {P : SysCfg} {s : Sys} {n : Nat} (I : LInv P s n) {i : Nat} (hi : (s.r n).req = some i)
    {h : Handler} (hh : s.c.hs i = some h) : h.name = n ∧ h.kind.mainKind = true := by
  rcases I with I | ⟨d, I⟩
  · have L := I.link
    unfold Sys.link at L
    rw [hi] at L
    simp only [hh] at L
    exact ⟨L.2.2.1, request_main L.2.1⟩
  · exact (I.req i hi).2.1 h hh

theorem LInv.done {P : SysCfg} {s : Sys} {n : Nat} (I : LInv P s n) {m : Nat} (h : some n ∈ s.dones m) :
    NoC s.c n ∧ (s.r n).sid = m + 1 ∧ REv.stopped ∈ (s.r n).rs.trace ∧ n ∈ okNames (s.c.st m).oks := by
  rcases I with I | ⟨d, I⟩
  · exact I.done m h
  · exact I.done m h

theorem LInv.acked {P : SysCfg} {s : Sys} {n : Nat} (I : LInv P s n) {m : Nat} (h : Acked s.c m n) :
    (s.r n).sid = m + 1 ∧ REv.prepare false ∈ (s.r n).rs.trace ∧ REv.postBoot true ∉ (s.r n).rs.trace := by
  rcases I with I | ⟨d, I⟩
  · obtain ⟨a1, a2, a3, _⟩ := I.acked m h
    exact ⟨a1, a2, a3⟩
  · obtain ⟨a1, a2, a3, _⟩ := I.acked m h
    exact ⟨a1, a2, a3⟩

theorem LInv.start {P : SysCfg} {s : Sys} {n : Nat} (I : LInv P s n) (h : REv.start ∈ (s.r n).rs.trace) :
    ∃ m, (s.r n).sid = m + 1 ∧ (s.c.st m).runClosed = true ∧ Acked s.c m n := by
  rcases I with I | ⟨d, I⟩
  · exact I.start h
  · exact I.start h

/-- What holds in every execution in which a response is lost only after the request was handled. -/
structure SysInvL (P : SysCfg) (s : Sys) : Prop where
  srv : SReach false s.c
  inst : ∀ n, LInv P s n
  glob : YInv s

theorem SysInvL.w {P : SysCfg} {s : Sys} (I : SysInvL P s) : WInv s := by
  refine ⟨I.srv, I.glob, fun m n h => ((I.inst n).done h).1, ?_⟩
  intro i hd hi hpc
  have hk : hd.kind = .postRun := by
    have hp := I.srv.sinv.pc i hd hi
    unfold pcOk at hp; rw [hpc] at hp
    cases hk : hd.kind <;> rw [hk] at hp <;> simp only [] at hp
  rcases I.inst hd.name with J | ⟨d, J⟩
  · have hreq := J.own i hd hi rfl (by rw [hk]; rfl)
    have L := J.link
    unfold Sys.link at L
    rw [hreq] at L
    simp only [hi] at L
    obtain ⟨_, _, _, _, L⟩ := L
    unfold Sys.hneed at L
    rw [hk, hpc] at L
    obtain ⟨_, m, e1, e2, e3, e4, e5, e6, e7⟩ := L
    exact ⟨m, e2, e5, e6, e7⟩
  · obtain ⟨_, _, _, a⟩ := J.hs i hd hi rfl (by rw [hk]; rfl)
    rw [hpc] at a
    rcases a with a | ⟨a, _⟩ <;> cases a

theorem SysInvL.u {P : SysCfg} {s : Sys} (I : SysInvL P s) : UInv s.c := I.w.u
theorem SysInvL.v {P : SysCfg} {s : Sys} (I : SysInvL P s) : SInv false s.c := I.w.v

theorem SysInvL.init (P : SysCfg) : SysInvL P {} :=
  ⟨(SysInv.init P).srv, fun n => Or.inl ((SysInv.init P).inst n), (SysInv.init P).glob⟩

theorem SysInvL.tframe {P : SysCfg} {s : Sys} (I : SysInvL P s) {c' : CSt} {a : CAct} (hs : s.c.step a = some c')
    (ha : serialOk false s.c a) (f : TFrame s.c c') (dn : Nat → List (Option Nat))
    (hd : ∀ n m, some n ∈ dn m ↔ some n ∈ s.dones m) (g : YInv ⟨c', s.r, s.cfg, dn⟩) :
    SysInvL P ⟨c', s.r, s.cfg, dn⟩ :=
  ⟨.step I.srv ha hs, fun n => (I.inst n).frame I.v (f.lframe n dn (hd n)), g⟩

theorem SysInvL.local {P : SysCfg} {s : Sys} (I : SysInvL P s) {n : Nat} {x : RInst}
    (h : LInv P ⟨s.c, updAt s.r n x, s.cfg, s.dones⟩ n) : SysInvL P ⟨s.c, updAt s.r n x, s.cfg, s.dones⟩ := by
  refine ⟨I.srv, fun k => ?_, I.glob.same rfl rfl rfl rfl rfl⟩
  by_cases e : k = n
  · rw [e]; exact h
  · have er : updAt s.r n x k = s.r k := updAt_ne _ _ e
    exact (I.inst k).frame I.v (other_lframe _ (by rw [er]) (by rw [er]) (by rw [er]) (fun _ _ => by rw [er]))

theorem SysInvL.ping {P : SysCfg} {s : Sys} (I : SysInvL P s) {n : Nat} {x : RInst} (h1 : x.sid = (s.r n).sid)
    (h2 : x.req = (s.r n).req) (h3 : x.rs.pc = (s.r n).rs.pc)
    (h4 : ∀ e : REv, e.isMain = true → (e ∈ x.rs.trace ↔ e ∈ (s.r n).rs.trace)) :
    SysInvL P ⟨s.c, updAt s.r n x, s.cfg, s.dones⟩ := by
  refine I.local ((I.inst n).frame I.v (other_lframe _ ?_ ?_ ?_ ?_)) <;> rw [updAt_same]
  · exact h1
  · exact h2
  · exact h3
  · exact h4

/-- The response is there, or no request waits. -/
def Sys.handled (s : Sys) (n : Nat) : Prop := ∀ i, (s.r n).req = some i → s.c.hs i = none

/-- A step in which a response is lost only after the request was handled. -/
def Sys.stepOk (s : Sys) (a : YAct) : Prop := a.reliable = true ∨ ∃ n, a = .lose n ∧ s.handled n

theorem SysInvL.step {P : SysCfg} {s s' : Sys} (I : SysInvL P s) {a : YAct} (ha : s.stepOk a)
    (h : s.step P a = some s') : SysInvL P s' := by
  cases a with
  | srv a =>
    have hrel : (YAct.srv a).reliable = true := by
      rcases ha with ha | ⟨n, ha, _⟩
      · exact ha
      · cases ha
    simp only [Sys.step] at h
    cases a with
    | arrive k n sid b => cases h
    | handler i lost =>
      simp only [YAct.reliable, Bool.not_eq_true'] at hrel
      subst hrel
      simp only [Sys.srvStep] at h
      cases hc : s.c.hstep i false with
      | none => rw [hc] at h; cases h
      | some c' =>
        rw [hc] at h
        simp only [Option.map_some, Option.some.injEq] at h
        subst h
        obtain ⟨hd, hi⟩ : ∃ hd, s.c.hs i = some hd := by
          cases hi : s.c.hs i with
          | none => unfold CSt.hstep at hc; rw [hi] at hc; cases hc
          | some hd => exact ⟨hd, rfl⟩
        refine ⟨.step (a := .handler i false) I.srv trivial hc, fun k => ?_, I.w.ghstep hi hc⟩
        by_cases hk : k ≠ hd.name ∨ hd.kind.mainKind = false
        · refine (I.inst k).frame I.v (hstep_lframe' I.v ?_ hi hc hk)
          intro j hj e
          rw [e] at hj
          obtain ⟨h1, h2⟩ := (I.inst k).reqMain hj hi
          rcases hk with hk | hk
          · exact hk h1.symm
          · rw [h2] at hk; cases hk
        · have hk1 : k = hd.name := by by_contra hcon; exact hk (Or.inl hcon)
          have hk2 : hd.kind.mainKind = true := by
            cases hm : hd.kind.mainKind
            · exact absurd (Or.inr hm) hk
            · rfl
          rcases I.inst k with J | ⟨d, J⟩
          · have hreq := J.own i hd hi hk1.symm hk2
            have L := J.link
            unfold Sys.link at L
            rw [hreq] at L
            simp only [hi] at L
            have C : HCtx P s k i hd := ⟨I.u, I.v, J, hreq, L.1, hi, L.2.1, L.2.2.1, L.2.2.2.1, L.2.2.2.2⟩
            exact Or.inl (C.step I.glob.done (fun m hb o ho => I.glob.full m hb k o ho) hc)
          · exact Or.inr ⟨d, J.own I.u I.glob hi hk1.symm hk2 hc⟩
    | begin k a b =>
      simp only [Sys.srvStep] at h
      cases hc : s.c.step (.begin k a b) with
      | none => rw [hc] at h; cases h
      | some c' =>
        rw [hc] at h
        simp only [Option.map_some, Option.some.injEq] at h
        subst h
        exact I.tframe hc trivial (begin_tframe I.u hc) s.dones (fun _ _ => Iff.rfl) (I.w.gbegin hc)
    | tick =>
      simp only [Sys.srvStep] at h
      cases hc : s.c.step .tick with
      | none => rw [hc] at h; cases h
      | some c' =>
        rw [hc] at h
        simp only [Option.map_some, Option.some.injEq] at h
        subst h
        exact I.tframe hc trivial (tick_tframe hc) s.dones (fun _ _ => Iff.rfl) (I.w.gtick hc)
    | ctxDone => cases hrel
    | localDone m =>
      simp only [Sys.srvStep] at h
      cases hc : s.c.step (.localDone m) with
      | none => rw [hc] at h; cases h
      | some c' =>
        rw [hc] at h
        simp only [Option.map_some, Option.some.injEq] at h
        subst h
        refine I.tframe hc trivial (localDone_tframe hc) _ (fun n k => ?_) (I.w.glocal hc)
        by_cases e : k = m
        · rw [e, updAt_same]; simp
        · rw [updAt_ne _ _ e]
  | send n =>
    simp only [Sys.step] at h
    split at h
    swap
    · cases h
    rename_i k b hrq hreq
    cases h
    have hser : serialOk false s.c (.arrive k n (s.r n).sid b) := by
      intro _ i hd hi ht en
      have hm : hd.kind.mainKind = true := by
        cases hk : hd.kind <;> rw [hk] at ht <;> first | rfl | cases ht
      have := (I.inst n).own hi en hm
      rw [hreq] at this
      cases this
    refine ⟨.step (a := .arrive k n (s.r n).sid b) I.srv hser rfl, fun j => ?_, I.glob.same rfl rfl rfl rfl rfl⟩
    by_cases e : j = n
    · rw [e]
      rcases I.inst n with J | ⟨d, J⟩
      · exact Or.inl (J.send hrq hreq)
      · rw [J.request] at hrq
        cases hrq
        exact Or.inr ⟨d, J.send I.u hreq⟩
    · have er : updAt s.r n { s.r n with req := some s.c.nH } j = s.r j := updAt_ne _ _ e
      exact (I.inst j).frame I.v
        (arrive_lframe' (fun _ => (I.inst j).reqLt) (Or.inl e) _ (by rw [er]) (by rw [er]) (by rw [er]))
  | recv n =>
    rcases I.inst n with J | ⟨d, J⟩
    · obtain ⟨⟨x, e⟩, hn⟩ := J.recv I.u I.v h
      subst e
      exact I.local (Or.inl hn)
    · obtain ⟨⟨x, e⟩, hn⟩ := J.recv h
      subst e
      exact I.local (Or.inr ⟨d, hn⟩)
  | lose n =>
    rcases ha with ha | ⟨k, ha, hh⟩
    · cases ha
    cases ha
    simp only [Sys.step, Option.some.injEq] at h
    subst h
    refine I.local ?_
    rcases I.inst n with J | ⟨d, J⟩
    · exact J.lose hh
    · exact Or.inr ⟨d, J.drop hh⟩
  | giveUp n => rcases ha with ha | ⟨k, ha, _⟩ <;> cases ha
  | work n a =>
    simp only [Sys.step] at h
    split at h
    · cases h
    rename_i hrq
    cases h
    have hrq' : s.request P n = none := by
      cases hr : s.request P n with
      | none => rfl
      | some x => rw [hr] at hrq; exact absurd rfl hrq
    rcases I.inst n with J | ⟨d, J⟩
    · exact I.local (Or.inl (J.work hrq').2)
    · rw [J.request] at hrq'; cases hrq'
  | pingWait n =>
    simp only [Sys.step] at h
    split at h
    · cases h
      exact I.ping rfl rfl (pingStep_same _ _).1 (pingStep_same _ _).2
    · cases h
  | pingSend n =>
    simp only [Sys.step] at h
    split at h
    swap
    · cases h
    cases h
    refine ⟨.step (a := .arrive .ping n (s.r n).sid .empty) I.srv (fun h => by cases h) rfl, fun j => ?_,
      I.glob.same rfl rfl rfl rfl rfl⟩
    have er : updAt s.r n { s.r n with preq := some s.c.nH } j =
        { s.r j with preq := (updAt s.r n { s.r n with preq := some s.c.nH } j).preq } := by
      by_cases e : j = n
      · rw [e, updAt_same]
      · rw [updAt_ne _ _ e]
    exact (I.inst j).frame I.v
      (arrive_lframe' (fun _ => (I.inst j).reqLt) (Or.inr rfl) _ (by rw [er]) (by rw [er]) (by rw [er]))
  | pingRecv n =>
    simp only [Sys.step] at h
    split at h
    · cases h
    split at h
    swap
    · cases h
    split at h
    · cases h; exact I.ping rfl rfl rfl (fun _ _ => Iff.rfl)
    · cases h; exact I.ping rfl rfl (pingStep_same _ _).1 (pingStep_same _ _).2
  | pingLost n =>
    simp only [Sys.step] at h
    split at h
    · cases h; exact I.ping rfl rfl (pingStep_same _ _).1 (pingStep_same _ _).2
    · cases h
  | stats n =>
    simp only [Sys.step] at h
    cases h
    refine ⟨.step (a := .arrive .stats n (s.r n).sid .empty) I.srv (fun h => by cases h) rfl, fun j => ?_,
      I.glob.same rfl rfl rfl rfl rfl⟩
    exact (I.inst j).frame I.v (arrive_lframe' (fun _ => (I.inst j).reqLt) (Or.inr rfl) _ rfl rfl rfl)
  | ctrlC n =>
    simp only [Sys.step] at h
    cases h
    exact I.ping rfl rfl rfl (fun _ _ => Iff.rfl)

/-- States that can be reached when a response is lost only after the request was handled. -/
inductive Sys.ReachL (P : SysCfg) : Sys → Prop
  | init : Sys.ReachL P {}
  | step {s s' : Sys} {a : YAct} : Sys.ReachL P s → s.stepOk a → s.step P a = some s' → Sys.ReachL P s'

theorem Sys.ReachL.inv {P : SysCfg} {s : Sys} (h : Sys.ReachL P s) : SysInvL P s := by
  induction h with
  | init => exact .init P
  | step _ ha hs ih => exact ih.step ha hs

theorem Sys.ReachL.pinv {P : SysCfg} {s : Sys} (h : Sys.ReachL P s) : PInv s.c := by
  induction h with
  | init => exact .init
  | step hr ha hs ih => exact PInv.step hr.inv.w ih (ha.imp id fun ⟨n, e, _⟩ => ⟨n, e⟩) hs

end Finch
