import Verif.Props.SystemPhase
/-!
A distributed run as a whole: from every state without failure, the stage can be completed (for C102). A measure
decreases with every step that is chosen.
-/
namespace Finch

/-- How far an instance is from the end. -/
def RPc.pos (T : Nat) : RPc → Nat
  | .getBoot => 10 + T
  | .decode => 9 + T
  | .mkdir => 8 + T
  | .file i => 7 + (T - i)
  | .collector => 6
  | .prepare => 5
  | .postErr => 0
  | .postBoot => 4
  | .getRun => 3
  | .running => 2
  | .postRun => 1
  | .finished _ => 0

/-- How far a request is from the end. -/
def PC.sub : PC → Nat
  | .start => 14
  | .check => 13
  | .join => 12
  | .body => 12
  | .waitRun => 12
  | .setRunnable => 11
  | .afterRun => 11
  | .del => 11
  | .sendBoot => 10
  | .write => 10
  | .sendDone => 10
  | .setRunning => 9
  | .setReady => 9
  | .recv => 9

/-- How far the request `i` is from the end. -/
def CSt.sub (c : CSt) (i : Nat) : Nat :=
  match c.hs i with
  | some h => h.pc.sub
  | none =>
    match c.resp.lookup i with
    | some code => if respResult code = none then 16 else 1
    | none => 0

def Sys.rank (P : SysCfg) (s : Sys) (m k : Nat) : Nat :=
  20 * (s.r k).rs.pc.pos (P.nTrx (m + 1)) +
    match (s.r k).req with
    | none => 15
    | some i => s.c.sub i

/-- How far the server is from the end of a stage with `N` instances. -/
def Phase.rk (N : Nat) : Phase → Nat
  | .ackLocal _ => 2 * N + 8
  | .setStage _ => 2 * N + 7
  | .switching _ _ => 2 * N + 6
  | .boot _ n => 2 * N + 5 - n
  | .setBooted _ => N + 4
  | .release _ => N + 3
  | .run _ r => r + 1
  | _ => 0

def CSt.srank (c : CSt) (m : Nat) : Nat := c.phase.rk (c.st m).nInst + if (c.st m).localDone then 0 else 1

def Sys.measure (P : SysCfg) (s : Sys) (m : Nat) (L : List Nat) : Nat := s.c.srank m + (L.map (s.rank P m)).sum

/-- The instance `k` did not fail: it waits for a stage or takes part in stage `m`. -/
def Sys.okay (s : Sys) (m k : Nat) : Prop :=
  (s.r k).rs.pc = .getBoot ∨
    ((s.r k).sid = m + 1 ∧ (s.r k).rs.pc ≠ .postErr ∧ ∀ e, (s.r k).rs.pc = .finished e → some k ∈ s.dones m)

/-- Stage `m` is in progress, with the instances `L`, none of which failed. -/
structure Good (P : SysCfg) (s : Sys) (m : Nat) (L : List Nat) : Prop where
  I : SysInv P s
  p : PInv s.c
  stage : s.c.phase.stage = some m
  nodup : L.Nodup
  len : L.length = (s.c.st m).nRem
  okay : ∀ k ∈ L, s.okay m k
  mem : ∀ k o, cget k (s.c.st m).clients = some o → k ∈ L
  sids : ∀ k, (s.r k).sid = m + 1 → k ∈ L
  pos : (s.c.st m).hasLocal = true → 0 < (s.c.st m).nInst

theorem sys_sum_lt_of {f g : Nat → Nat} {k : Nat} (hk : f k < g k) : ∀ (L : List Nat), (∀ j ∈ L, j ≠ k → f j = g j) →
    (k ∈ L → (L.map f).sum < (L.map g).sum) ∧ (L.map f).sum ≤ (L.map g).sum
  | [], _ => ⟨fun h => (by cases h), Nat.le_refl _⟩
  | j :: L, h => by
    obtain ⟨h1, h2⟩ := sys_sum_lt_of hk L (fun i hi => h i (List.mem_cons_of_mem _ hi))
    simp only [List.map_cons, List.sum_cons]
    by_cases e : j = k
    · subst e
      exact ⟨fun _ => by omega, by omega⟩
    · have := h j List.mem_cons_self e
      refine ⟨fun hm => ?_, by omega⟩
      rcases List.mem_cons.mp hm with hm | hm
      · exact absurd hm.symm e
      · have := h1 hm
        omega

theorem LFrame.rank {P : SysCfg} {s s' : Sys} {m k : Nat} (f : LFrame k s s') : s'.rank P m k = s.rank P m k := by
  unfold Sys.rank
  rw [f.pc, f.req]
  cases hr : (s.r k).req with
  | none => rfl
  | some i =>
    simp only []
    obtain ⟨e1, e2, _⟩ := f.hs i hr
    unfold CSt.sub
    rw [e1, e2]

theorem LFrame.okay {s s' : Sys} {m k : Nat} (f : LFrame k s s') (h : s.okay m k) : s'.okay m k := by
  unfold Sys.okay at h ⊢
  rw [f.pc, f.sid, f.dones m]
  exact h

/-- A step of the instance `k` towards the end. -/
structure Moves (P : SysCfg) (s s' : Sys) (m k : Nat) : Prop where
  act : ∃ a : YAct, a.reliable = true ∧ s.step P a = some s'
  rank : s'.rank P m k < s.rank P m k
  other : ∀ j, j ≠ k → LFrame j s s'
  phase : s'.c.phase = s.c.phase
  nSt : s'.c.nSt = s.c.nSt
  nInst : (s'.c.st m).nInst = (s.c.st m).nInst
  nRem : (s'.c.st m).nRem = (s.c.st m).nRem
  hasLocal : (s'.c.st m).hasLocal = (s.c.st m).hasLocal
  localDone : (s'.c.st m).localDone = (s.c.st m).localDone
  okay : s'.okay m k

theorem Good.moves {P : SysCfg} {s s' : Sys} {m k : Nat} {L : List Nat} (G : Good P s m L) (hk : k ∈ L)
    (M : Moves P s s' m k) : Good P s' m L ∧ s'.measure P m L < s.measure P m L := by
  obtain ⟨a, ha, hs⟩ := M.act
  refine ⟨⟨G.I.step ha hs, PInv.step G.I.w G.p (Or.inl ha) hs, by rw [M.phase]; exact G.stage, G.nodup, by rw [M.nRem]; exact G.len,
    ?_, ?_, ?_, by rw [M.hasLocal, M.nInst]; exact G.pos⟩, ?_⟩
  · intro j hj
    by_cases e : j = k
    · rw [e]; exact M.okay
    · exact (M.other j e).okay (G.okay j hj)
  · intro j o hj
    by_cases e : j = k
    · rw [e]; exact hk
    · rw [(M.other j e).cl] at hj; exact G.mem j o hj
  · intro j hj
    by_cases e : j = k
    · rw [e]; exact hk
    · rw [(M.other j e).sid] at hj; exact G.sids j hj
  · unfold Sys.measure
    have h1 : s'.c.srank m = s.c.srank m := by
      unfold CSt.srank
      rw [M.phase, M.nInst, M.localDone]
    have h2 := (sys_sum_lt_of M.rank L (fun j _ e => (M.other j e).rank)).1 hk
    omega

/-! ### Steps of the server -/

theorem tick_same {c c' : CSt} (h : c.tick = some c') : c'.nSt = c.nSt ∧ ∀ m, (c'.st m).nInst = (c.st m).nInst ∧
    (c'.st m).nRem = (c.st m).nRem ∧ (c'.st m).hasLocal = (c.st m).hasLocal ∧
    (c'.st m).localDone = (c.st m).localDone := by
  have upd : ∀ (k : Nat) (x : SMeta), x.nInst = (c.st k).nInst → x.nRem = (c.st k).nRem →
      x.hasLocal = (c.st k).hasLocal → x.localDone = (c.st k).localDone → ∀ m,
      (updAt c.st k x m).nInst = (c.st m).nInst ∧ (updAt c.st k x m).nRem = (c.st m).nRem ∧
      (updAt c.st k x m).hasLocal = (c.st m).hasLocal ∧ (updAt c.st k x m).localDone = (c.st m).localDone := by
    intro k x h1 h2 h3 h4 m
    by_cases e : m = k
    · rw [e, updAt_same]; exact ⟨h1, h2, h3, h4⟩
    · rw [updAt_ne _ _ e]; exact ⟨rfl, rfl, rfl, rfl⟩
  have tr : ∀ m, (c.st m).nInst = (c.st m).nInst ∧ (c.st m).nRem = (c.st m).nRem ∧
      (c.st m).hasLocal = (c.st m).hasLocal ∧ (c.st m).localDone = (c.st m).localDone := fun _ => ⟨rfl, rfl, rfl, rfl⟩
  unfold CSt.tick at h
  split at h
  · cases h
  · split at h <;> cases h
    exact ⟨rfl, upd _ _ rfl rfl rfl rfl⟩
  · split at h
    · split at h <;> cases h
      · exact ⟨rfl, tr⟩
      · exact ⟨rfl, upd _ _ rfl rfl rfl rfl⟩
    · cases h; exact ⟨rfl, tr⟩
  · split at h <;> cases h
    exact ⟨rfl, tr⟩
  · split at h
    · split at h
      · cases h
      split at h <;> cases h <;> exact ⟨rfl, upd _ _ rfl rfl rfl rfl⟩
    · cases h; exact ⟨rfl, tr⟩
  · cases h; exact ⟨rfl, upd _ _ rfl rfl rfl rfl⟩
  · cases h; exact ⟨rfl, upd _ _ rfl rfl rfl rfl⟩
  · split at h
    · cases h; exact ⟨rfl, tr⟩
    · split at h <;> cases h
      exact ⟨rfl, upd _ _ rfl rfl rfl rfl⟩
  · split at h <;> cases h
    exact ⟨rfl, tr⟩
  · cases h

/-- What a step leads to: the end of the stage, or closer to it. -/
def Sys.advances (P : SysCfg) (s : Sys) (m : Nat) (L : List Nat) : Prop :=
  ∃ (a : YAct) (s' : Sys), a.reliable = true ∧ s.step P a = some s' ∧ s'.c.nSt = s.c.nSt ∧
    ((s'.c.phase = .idle ∧ L.length = (s'.c.st m).nRem ∧ ∀ k, (s'.r k).sid = m + 1 → k ∈ L) ∨ (Good P s' m L ∧ s'.measure P m L < s.measure P m L))

theorem Good.tick {P : SysCfg} {s : Sys} {m : Nat} {L : List Nat} (G : Good P s m L) {c' : CSt}
    (h : s.c.tick = some c')
    (hp : c'.phase = .idle ∨ (c'.phase.stage = some m ∧
      c'.phase.rk (s.c.st m).nInst < s.c.phase.rk (s.c.st m).nInst)) : s.advances P m L := by
  have hstep : s.step P (.srv .tick) = some ⟨c', s.r, s.cfg, s.dones⟩ := by
    simp only [Sys.step, Sys.srvStep, CSt.step, h, Option.map_some]
  obtain ⟨t1, t2⟩ := tick_same h
  refine ⟨.srv .tick, _, rfl, hstep, t1, ?_⟩
  rcases hp with hp | ⟨hp, hr⟩
  · exact Or.inl ⟨hp, by dsimp only; rw [(t2 m).2.1]; exact G.len, G.sids⟩
  right
  have f : ∀ n, LFrame n s ⟨c', s.r, s.cfg, s.dones⟩ := fun n => (tick_tframe h).lframe n s.dones (fun _ => Iff.rfl)
  refine ⟨⟨G.I.step (a := .srv .tick) rfl hstep, PInv.step G.I.w G.p (a := .srv .tick) (Or.inl rfl) hstep, hp, G.nodup, ?_, ?_, ?_, ?_, ?_⟩, ?_⟩
  · dsimp only; rw [(t2 m).2.1]; exact G.len
  · intro k hk; exact (f k).okay (G.okay k hk)
  · intro k o hk; rw [(f k).cl] at hk; exact G.mem k o hk
  · exact G.sids
  · dsimp only; rw [(t2 m).2.2.1, (t2 m).1]; exact G.pos
  · unfold Sys.measure
    have : (L.map (Sys.rank P ⟨c', s.r, s.cfg, s.dones⟩ m)) = L.map (s.rank P m) :=
      List.map_congr_left fun k _ => (f k).rank
    rw [this]
    dsimp only
    have hsr : c'.srank m < s.c.srank m := by
      unfold CSt.srank
      rw [(t2 m).1, (t2 m).2.2.2]
      omega
    omega

theorem Good.localDone {P : SysCfg} {s : Sys} {m : Nat} {L : List Nat} (G : Good P s m L)
    (h1 : (s.c.st m).hasLocal = true) (h2 : (s.c.st m).runClosed = true) (h3 : (s.c.st m).localDone = false)
    (h4 : (s.c.st m).doneQ.length < (s.c.st m).nInst) : s.advances P m L := by
  have hc : s.c.step (.localDone m) = some (s.c.setMeta m { s.c.st m with
      doneQ := (s.c.st m).doneQ ++ [⟨none, true⟩], localDone := true }) := by
    simp only [CSt.step, h1, h2, h3, h4, decide_true, Bool.not_false, Bool.and_self, if_true]
  have hstep : s.step P (.srv (.localDone m)) = some ⟨s.c.setMeta m { s.c.st m with
      doneQ := (s.c.st m).doneQ ++ [⟨none, true⟩], localDone := true }, s.r, s.cfg,
      updAt s.dones m (s.dones m ++ [none])⟩ := by
    simp only [Sys.step, Sys.srvStep, hc, Option.map_some]
  have keym : (s.c.setMeta m { s.c.st m with
      doneQ := (s.c.st m).doneQ ++ [⟨none, true⟩], localDone := true }).st m = { s.c.st m with
      doneQ := (s.c.st m).doneQ ++ [⟨none, true⟩], localDone := true } := updAt_same _ _ _
  refine ⟨_, _, rfl, hstep, rfl, Or.inr ?_⟩
  have f : ∀ n, LFrame n s ⟨s.c.setMeta m { s.c.st m with
      doneQ := (s.c.st m).doneQ ++ [⟨none, true⟩], localDone := true }, s.r, s.cfg,
      updAt s.dones m (s.dones m ++ [none])⟩ := by
    intro n
    refine (localDone_tframe hc).lframe n _ (fun k => ?_)
    by_cases e : k = m
    · rw [e, updAt_same]; simp
    · rw [updAt_ne _ _ e]
  refine ⟨⟨G.I.step (a := .srv (.localDone m)) rfl hstep, PInv.step G.I.w G.p (a := .srv (.localDone m)) (Or.inl rfl) hstep, G.stage, G.nodup, ?_, ?_, ?_, ?_, ?_⟩, ?_⟩
  · dsimp only; rw [keym]; exact G.len
  · intro k hk; exact (f k).okay (G.okay k hk)
  · intro k o hk; rw [(f k).cl] at hk; exact G.mem k o hk
  · exact G.sids
  · dsimp only; rw [keym]; exact G.pos
  · unfold Sys.measure
    have : (L.map (Sys.rank P ⟨s.c.setMeta m { s.c.st m with
        doneQ := (s.c.st m).doneQ ++ [⟨none, true⟩], localDone := true }, s.r, s.cfg,
        updAt s.dones m (s.dones m ++ [none])⟩ m)) = L.map (s.rank P m) :=
      List.map_congr_left fun k _ => (f k).rank
    rw [this]
    have hr : (s.c.setMeta m { s.c.st m with
        doneQ := (s.c.st m).doneQ ++ [⟨none, true⟩], localDone := true }).srank m + 1 = s.c.srank m := by
      unfold CSt.srank
      rw [keym]
      simp only [h3, CSt.setMeta, if_true, Bool.false_eq_true, if_false, Nat.add_zero]
    have hr' := Nat.lt_of_succ_le (Nat.le_of_eq hr)
    exact Nat.add_lt_add_right hr' _

theorem Good.advance {P : SysCfg} {s s' : Sys} {m k : Nat} {L : List Nat} (G : Good P s m L) (hk : k ∈ L)
    (M : Moves P s s' m k) : s.advances P m L := by
  obtain ⟨a, ha, hs⟩ := M.act
  exact ⟨a, s', ha, hs, M.nSt, Or.inr (G.moves hk M)⟩

/-! ### Steps of an instance -/

theorem moves_send {P : SysCfg} {s : Sys} {m n : Nat} {L : List Nat} (G : Good P s m L) (hn : n ∈ L)
    {k : ReqKind} {b : HBody} (hrq : s.request P n = some (k, b)) (hreq : (s.r n).req = none) : s.advances P m L := by
  refine G.advance hn (s' := { s with
        c := s.c.arriveReq k n (s.r n).sid b
        r := updAt s.r n { s.r n with req := some s.c.nH } }) ⟨⟨.send n, rfl, ?_⟩, ?_, ?_, rfl, rfl, rfl, rfl, rfl, rfl, ?_⟩
  · simp only [Sys.step, hrq, hreq]
  · unfold Sys.rank
    dsimp only
    rw [updAt_same, hreq]
    simp only [CSt.sub, CSt.arriveReq, updAt_same, PC.sub]
    omega
  · intro j hj
    have er : updAt s.r n { s.r n with req := some s.c.nH } j = s.r j := updAt_ne _ _ hj
    exact arrive_lframe (G.I.inst j) (Or.inl hj) _ (by rw [er]) (by rw [er]) (by rw [er])
  · have := G.okay n hn
    unfold Sys.okay at this ⊢
    dsimp only
    rw [updAt_same]
    exact this

/-- A step of `run` that leads on. -/
theorem moves_main {P : SysCfg} {s s' : Sys} {m n : Nat} {L : List Nat} (G : Good P s m L) (hn : n ∈ L) {a : YAct}
    (ha : a.reliable = true) (hs : s.step P a = some s') {x : RInst}
    (e : s' = ⟨s.c, updAt s.r n x, s.cfg, s.dones⟩) (hr : x.req = none)
    (hp : x.rs.pc.pos (P.nTrx (m + 1)) < (s.r n).rs.pc.pos (P.nTrx (m + 1)))
    (hok : x.sid = m + 1 ∧ x.rs.pc ≠ .postErr ∧ ∀ e, x.rs.pc = .finished e → some n ∈ s.dones m) :
    s.advances P m L := by
  subst e
  refine G.advance hn ⟨⟨a, ha, hs⟩, ?_, ?_, rfl, rfl, rfl, rfl, rfl, rfl, ?_⟩
  · unfold Sys.rank
    dsimp only
    rw [updAt_same, hr]
    simp only []
    omega
  · intro j hj
    have er : updAt s.r n x j = s.r j := updAt_ne _ _ hj
    exact other_lframe _ (by rw [er]) (by rw [er]) (by rw [er]) (fun _ _ => by rw [er])
  · unfold Sys.okay
    dsimp only
    rw [updAt_same]
    exact Or.inr hok

/-- A step of `run` without failure leads on. -/
theorem main_pos (local_ : Nat → Bool) (T : Nat) (x : RemSt) (a : RRes) (ha : a ≠ .fail) (h1 : x.pc ≠ .postErr)
    (h2 : ∀ e, x.pc ≠ .finished e) (h3 : x.pc = .getRun ∨ x.pc = .decode → a = .ok) :
    (x.main local_ T a).pc.pos T < x.pc.pos T ∧ (x.main local_ T a).pc ≠ .postErr ∧
    ((∃ e, (x.main local_ T a).pc = .finished e) → x.pc = .postRun) := by
  unfold RemSt.main
  cases hp : x.pc <;> simp only [RemSt.goto, RemSt.log, RemSt.finish, if_neg ha]
  case getBoot => exact ⟨by simp [RPc.pos], by simp, by simp⟩
  case decode => rw [if_pos (h3 (Or.inr hp))]; exact ⟨by simp [RPc.pos], by simp, by simp⟩
  case mkdir => exact ⟨by simp [RPc.pos], by simp, by simp⟩
  case file i =>
    split
    · split <;> exact ⟨by simp only [RPc.pos]; omega, by simp, by simp⟩
    · exact ⟨by simp only [RPc.pos]; omega, by simp, by simp⟩
  case collector => exact ⟨by simp [RPc.pos], by simp, by simp⟩
  case prepare => exact ⟨by simp [RPc.pos], by simp, by simp⟩
  case postErr => exact absurd hp h1
  case postBoot => exact ⟨by simp [RPc.pos], by simp, by simp⟩
  case getRun => rw [h3 (Or.inl hp)]; exact ⟨by simp [RPc.pos], by simp, by simp⟩
  case running => exact ⟨by simp [RPc.pos], by simp, by simp⟩
  case postRun => exact ⟨by simp [RPc.pos], by simp, by simp⟩
  case finished e => exact absurd hp (h2 e)

theorem moves_work {P : SysCfg} {s : Sys} {m n : Nat} {L : List Nat} (G : Good P s m L) (hn : n ∈ L)
    (hrq : s.request P n = none) (hsid : (s.r n).sid = m + 1) (hf : ∀ e, (s.r n).rs.pc ≠ .finished e) :
    s.advances P m L := by
  have hstep : s.step P (.work n .ok) = some (s.mainStep P n .ok) := by
    simp only [Sys.step, hrq, Option.isSome_none, Bool.false_eq_true, if_false]
  have hpe : (s.r n).rs.pc ≠ .postErr := by
    intro e
    unfold Sys.request at hrq
    rw [e] at hrq; cases hrq
  obtain ⟨p1, p2, p3⟩ := main_pos (P.local_ n (s.r n).sid) (P.nTrx (s.r n).sid) (s.r n).rs .ok (by simp) hpe hf
    (fun _ => rfl)
  refine moves_main G hn rfl hstep rfl rfl ?_ ⟨hsid, p2, ?_⟩
  · rw [hsid] at p1 ⊢; exact p1
  · intro e he
    have := p3 ⟨e, he⟩
    unfold Sys.request at hrq
    rw [this] at hrq; cases hrq

/-- The stage of a client is the one in progress. -/
theorem Good.inStage {P : SysCfg} {s : Sys} {m n k : Nat} {x : RemState} {L : List Nat} (G : Good P s m L)
    (h : InSt s.c k n x) : k = m := by
  by_contra hne
  obtain ⟨o, h1, _⟩ := h
  have hc : s.c.cur = some k := by
    by_contra hcon
    rw [G.I.u.only k hcon] at h1; cases h1
  have := G.I.overClients (G.I.u.cur k hc) (by rw [G.stage]; intro e; exact hne (Option.some.inj e).symm)
  rw [this] at h1; cases h1

theorem moves_recv {P : SysCfg} {s : Sys} {m n i : Nat} {L : List Nat} (G : Good P s m L) (hn : n ∈ L)
    (hreq : (s.r n).req = some i) (hi : s.c.hs i = none) : s.advances P m L := by
  have L := (G.I.inst n).link
  unfold Sys.link at L
  rw [hreq] at L
  simp only [hi] at L
  obtain ⟨_, l1, code, l2, l3⟩ := L
  cases hr : respResult code with
  | none =>
    have hstep : s.step P (.recv n) = some { s with r := updAt s.r n { s.r n with req := none } } := by
      simp only [Sys.step, hreq, hi, l2, hr]
    refine G.advance hn ⟨⟨_, rfl, hstep⟩, ?_, ?_, rfl, rfl, rfl, rfl, rfl, rfl, ?_⟩
    · unfold Sys.rank
      dsimp only
      rw [updAt_same, hreq]
      simp only [CSt.sub, hi, l2, hr, if_true]
      omega
    · intro j hj
      have er : updAt s.r n { s.r n with req := none } j = s.r j := updAt_ne _ _ hj
      exact other_lframe _ (by rw [er]) (by rw [er]) (by rw [er]) (fun _ _ => by rw [er])
    · have := G.okay n hn
      unfold Sys.okay at this ⊢
      dsimp only
      rw [updAt_same]
      exact this
  | some a =>
    have hc : ¬ Refused code := by
      intro hc
      unfold respResult at hr
      rw [if_neg hc.1, if_neg hc.2] at hr; cases hr
    have ha : a ≠ .fail := by
      unfold respResult at hr
      split at hr
      · cases hr; simp
      · split at hr
        · cases hr; simp
        · cases hr
    have hok : code = 200 → a = .ok := by
      intro e
      rw [e] at hr
      simp only [respResult, if_true, Option.some.injEq] at hr
      exact hr.symm
    have hstep : s.step P (.recv n) = some ({ s with r := updAt s.r n { s.r n with
        sid := if (s.r n).rs.pc = RPc.getBoot then s.cfg i else (s.r n).sid } }.mainStep P n a) := by
      simp only [Sys.step, hreq, hi, l2, hr]
    have hsid : (if (s.r n).rs.pc = .getBoot then s.cfg i else (s.r n).sid) = m + 1 := by
      split
      · rename_i hp
        unfold Sys.post at l3
        rw [hp] at l3
        rcases l3 with ⟨_, _, k, e1, e2⟩ | ⟨h, _⟩
        · rw [e1, G.inStage e2]
        · exact absurd h hc
      · rename_i hp
        rcases G.okay n hn with h | h
        · exact absurd h hp
        · exact h.1
    have hfin : ∀ e, (s.r n).rs.pc ≠ .finished e := by
      intro e he
      unfold Sys.request at l1
      rw [he] at l1; cases l1
    have hpe : (s.r n).rs.pc ≠ .postErr := by
      intro he
      rcases G.okay n hn with h | h
      · rw [he] at h; cases h
      · exact h.2.1 he
    have hdec : (s.r n).rs.pc = .getRun ∨ (s.r n).rs.pc = .decode → a = .ok := by
      rintro (he | he)
      · unfold Sys.post at l3
        rw [he] at l3
        rcases l3 with ⟨h, _⟩ | ⟨h, _⟩
        · exact hok h
        · exact absurd h hc
      · unfold Sys.request at l1
        rw [he] at l1; cases l1
    obtain ⟨p1, p2, p3⟩ := main_pos (P.local_ n (m + 1)) (P.nTrx (m + 1)) (s.r n).rs a ha hpe hfin hdec
    refine moves_main G hn (x := { s.r n with
      sid := m + 1, rs := (s.r n).rs.main (P.local_ n (m + 1)) (P.nTrx (m + 1)) a, req := none }) rfl hstep ?_ rfl p1
      ⟨rfl, p2, ?_⟩
    · rw [hsid]
      simp only [Sys.mainStep, updAt_same]
      congr 1
      funext j
      by_cases e : j = n
      · rw [e, updAt_same, updAt_same]
      · rw [updAt_ne _ _ e, updAt_ne _ _ e, updAt_ne _ _ e]
    · intro e he
      have hp := p3 ⟨e, he⟩
      unfold Sys.post at l3
      rw [hp] at l3
      rw [hp, if_neg (by simp)] at hsid
      rcases l3 with ⟨_, k, e1, _, e2⟩ | ⟨h, _⟩
      · have : k = m := by rw [e1] at hsid; omega
        rw [← this]; exact e2
      · exact absurd h hc

/-- A step of the request of an instance. -/
theorem moves_handler {P : SysCfg} {s : Sys} {m n i : Nat} {L : List Nat} (G : Good P s m L) (hn : n ∈ L)
    {h : Handler} (C : HCtx P s n i h) {c' : CSt} (hc : s.c.hstep i false = some c') (hr : c'.sub i < h.pc.sub) :
    s.advances P m L := by
  have hstep : s.step P (.srv (.handler i false)) = some ⟨c', s.r, s.noteCfg i, s.noteDone i⟩ := by
    simp only [Sys.step, Sys.srvStep, hc, Option.map_some]
  have f := hstep_frame hc
  have hm := hstep_more C.hs hc
  refine G.advance hn ⟨⟨_, rfl, hstep⟩, ?_, ?_, f.phase, f.nSt, (f.metas m).nInst, (f.metas m).nRem, (f.metas m).hasLocal,
    hm.localDone m, ?_⟩
  · unfold Sys.rank
    dsimp only
    rw [C.req]
    simp only []
    have : s.c.sub i = h.pc.sub := by simp only [CSt.sub, C.hs]
    rw [this]
    omega
  · intro j hj
    exact hstep_lframe G.I.v (G.I.inst j) C.hs hc (Or.inl (by rw [C.name]; exact hj))
  · rcases G.okay n hn with h | ⟨h1, h2, _⟩
    · exact Or.inl h
    · refine Or.inr ⟨h1, h2, ?_⟩
      intro e he
      have := C.rq
      unfold Sys.request at this
      dsimp only at he
      rw [he] at this; cases this

end Finch
