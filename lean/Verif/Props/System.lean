import Verif.Props.SystemDrive
import Verif.Props.SystemGiveUp
/-!
Properties of a distributed run as a whole: C101 (the stages are run together and one after the other), C102 (a stage can
always be completed unless one of its instances fails), C103 (stages with 0 instances).
-/
namespace Finch

theorem Sys.Reach.exec {P : SysCfg} : ∀ {as : List YAct} {s s' : Sys}, Sys.Reach P s →
    (∀ a ∈ as, a.reliable = true) → Sys.exec P s as = some s' → Sys.Reach P s'
  | [], s, s', h, _, he => by cases he; exact h
  | a :: as, s, s', h, hr, he => by
    simp only [Sys.exec] at he
    split at he
    · cases he
    · rename_i s1 h1
      exact Sys.Reach.exec (h.step (hr a List.mem_cons_self) h1) (fun b hb => hr b (List.mem_cons_of_mem _ hb)) he

/-- The state after some steps. -/
def sysAfter (P : SysCfg) (as : List YAct) : Sys := (Sys.exec P {} as).getD {}

theorem sysAfter_reach {P : SysCfg} {as : List YAct} (h : (Sys.exec P {} as).isSome = true)
    (hr : as.all YAct.reliable = true) : Sys.Reach P (sysAfter P as) := by
  unfold sysAfter
  cases he : Sys.exec P {} as with
  | none => rw [he] at h; cases h
  | some s => exact Sys.Reach.init.exec (fun a ha => List.all_eq_true.mp hr a ha) he

def hs (i n : Nat) : List YAct := List.replicate n (.srv (.handler i false))

def ticks (n : Nat) : List YAct := List.replicate n (.srv .tick)

/-- One trx file, which no instance has. -/
def exP : SysCfg := { local_ := fun _ _ _ => false, nTrx := fun _ => 1 }

/-- A stage for the local instance and one remote instance, up to the run signal. -/
def exUp : List YAct :=
  [.srv (.begin 2 true true)] ++ ticks 2 ++ [.send 0] ++ hs 0 3 ++ [.recv 0, .work 0 .ok, .work 0 .ok, .send 0] ++
  hs 1 2 ++ [.recv 0, .work 0 .ok, .work 0 .ok, .work 0 .ok, .send 0] ++ hs 2 5 ++ [.recv 0, .send 0] ++ hs 3 2 ++ ticks 5

/-- The remote instance begins to run. -/
def exStarted : List YAct := exUp ++ hs 3 4 ++ [.recv 0]

/-- The whole stage. -/
def exWhole : List YAct :=
  exStarted ++ [.work 0 .ok, .send 0] ++ hs 4 6 ++ [.recv 0, .srv (.localDone 0)] ++ ticks 3

/-! ### C101 -/

/-- When an instance has begun to run a stage, there are as many instances as the stage requires (counting the local one)
that prepared it without error. Responses can be lost and instances can give up. -/
theorem C101_start_partial {P : SysCfg} {s : Sys} (h : Sys.ReachS P s) {n : Nat} (hs : REv.start ∈ (s.r n).rs.trace) :
    ∃ (m : Nat) (L : List Nat), (s.r n).sid = m + 1 ∧ n ∈ L ∧ L.Nodup ∧
      L.length + (if (s.c.st m).hasLocal then 1 else 0) = (s.c.st m).nInst ∧
      ∀ k ∈ L, (s.r k).sid = m + 1 ∧ REv.prepare false ∈ (s.r k).rs.trace ∧ REv.postBoot true ∉ (s.r k).rs.trace := by
  have F := h.facts
  obtain ⟨m, h1, h2, h3⟩ := F.start n hs
  obtain ⟨p1, p2⟩ := F.party m h2
  exact ⟨m, okNames (s.c.st m).oks, h1, h3, p1, p2, F.ok m⟩

/-- When the server is past a stage, all its instances have run it to the end: as many as the stage requires, the
local one and every one that began it among them. When the server was stopped, this is said of stages that
were run and of those before the last. -/
theorem C101_end_partial {P : SysCfg} {s : Sys} (h : Sys.ReachS P s) {m : Nat} (hm : m < s.c.nSt)
    (hp : s.c.phase.stage ≠ some m) (hst : s.c.phase = .stopped → (s.c.st m).runClosed = true ∨ m + 1 < s.c.nSt) :
    ∃ L : List Nat, L.Nodup ∧ L.length + (if (s.c.st m).hasLocal then 1 else 0) = (s.c.st m).nInst ∧
      (∀ k ∈ L, (s.r k).sid = m + 1 ∧ REv.stopped ∈ (s.r k).rs.trace) ∧
      (∀ k, REv.start ∈ (s.r k).rs.trace → (s.r k).sid = m + 1 → k ∈ L) ∧
      ((s.c.st m).hasLocal = true → (s.c.st m).localDone = true) ∧ (s.c.st m).clients = [] := by
  have F := h.facts
  obtain ⟨hrc, o2, o3, o4⟩ := F.over m hm hp hst
  obtain ⟨p1, p2⟩ := F.party m hrc
  refine ⟨okNames (s.c.st m).oks, p1, p2, fun k hk => ⟨(F.ok m k hk).1, o3 k hk⟩, fun k hk hs => ?_, o4, o2⟩
  obtain ⟨j, h1, h2, h3⟩ := F.start k hk
  have : j = m := by omega
  subst this
  exact h3

/-- Stages do not overlap: when an instance has begun to run a stage, every instance that began to run an earlier
one, and its local instance, has ended it. -/
theorem C101_order_partial {P : SysCfg} {s : Sys} (h : Sys.ReachS P s) {n k m m' : Nat} (hn : REv.start ∈ (s.r n).rs.trace)
    (hm : (s.r n).sid = m + 1) (hlt : m' < m) :
    (REv.start ∈ (s.r k).rs.trace → (s.r k).sid = m' + 1 → REv.stopped ∈ (s.r k).rs.trace) ∧
    ((s.c.st m').hasLocal = true → (s.c.st m').localDone = true) := by
  have F := h.facts
  obtain ⟨j, h1, h2, _⟩ := F.start n hn
  have : j = m := by omega
  subst this
  have hmn : j < s.c.nSt := by
    by_contra hcon
    have := F.fresh j (by omega)
    rw [this] at h2; cases h2
  have hp : s.c.phase.stage ≠ some m' := by
    intro e
    have := F.last m' e
    omega
  obtain ⟨L, _, _, l3, l4, l5, _⟩ := C101_end_partial h (Nat.lt_trans hlt hmn) hp (fun _ => Or.inr (by omega))
  exact ⟨fun a b => (l3 k (l4 k a b)).2, l5⟩

/-- The condition of `Sys.serial`, to evaluate examples. -/
def Sys.serialB (s : Sys) : YAct → Bool
  | .lose n =>
    match (s.r n).req with
    | none => true
    | some i => (s.c.hs i).isNone
  | .srv (.handler _ lost) => !lost
  | .srv .ctxDone =>
    match s.c.phase with
    | .boot _ _ => true
    | _ => false
  | _ => true

theorem Sys.serialB_serial {s : Sys} {a : YAct} (h : s.serialB a = true) : s.serial a := by
  cases a with
  | lose n =>
    intro i hi
    simp only [Sys.serialB, hi] at h
    exact Option.isNone_iff_eq_none.mp h
  | srv a =>
    cases a with
    | handler i lost =>
      simp only [Sys.serialB, Bool.not_eq_true'] at h
      exact h
    | ctxDone =>
      simp only [Sys.serialB] at h
      split at h
      · rename_i m n e; exact ⟨m, n, e⟩
      · cases h
    | _ => trivial
  | _ => trivial

def Sys.serialRun (P : SysCfg) (s : Sys) : List YAct → Bool
  | [] => true
  | a :: as =>
    match s.step P a with
    | none => false
    | some s' => s.serialB a && Sys.serialRun P s' as

theorem serialRun_reach {P : SysCfg} : ∀ {as : List YAct} {s : Sys}, Sys.ReachS P s → Sys.serialRun P s as = true →
    ∃ s', Sys.exec P s as = some s' ∧ Sys.ReachS P s'
  | [], s, h, _ => ⟨s, rfl, h⟩
  | a :: as, s, h, hr => by
    simp only [Sys.serialRun] at hr
    simp only [Sys.exec]
    cases hs : s.step P a with
    | none => rw [hs] at hr; cases hr
    | some s' =>
      rw [hs] at hr
      simp only [Bool.and_eq_true] at hr
      exact serialRun_reach (.step h (Sys.serialB_serial hr.1) hs) hr.2

theorem sysAfter_reachS {P : SysCfg} {as : List YAct} (h : Sys.serialRun P {} as = true) :
    Sys.ReachS P (sysAfter P as) := by
  obtain ⟨s', h1, h2⟩ := serialRun_reach .init h
  unfold sysAfter
  rw [h1]
  exact h2

/-- A stage for two remote instances. The response to POST /boot of instance 0 is lost, the second request is refused and it
gives up; the stage begins on instance 1 (and never ends). -/
def exLostAck : List YAct :=
  [.srv (.begin 2 false true)] ++ ticks 1 ++ [.send 0] ++ hs 0 3 ++ [.recv 0, .work 0 .ok, .work 0 .ok, .send 0] ++
  hs 1 2 ++ [.recv 0, .work 0 .ok, .work 0 .ok, .work 0 .ok, .send 0] ++ hs 2 5 ++ [.lose 0, .send 0] ++ hs 3 2 ++
  [.recv 0, .giveUp 0, .send 1] ++ hs 4 3 ++ [.recv 1, .work 1 .ok, .work 1 .ok, .send 1] ++ hs 5 2 ++
  [.recv 1, .work 1 .ok, .work 1 .ok, .work 1 .ok, .send 1] ++ hs 6 5 ++ [.recv 1, .send 1] ++ hs 7 2 ++ ticks 5 ++
  hs 7 4 ++ [.recv 1]

example : Sys.ReachS exP (sysAfter exP exLostAck) ∧ REv.start ∈ ((sysAfter exP exLostAck).r 1).rs.trace ∧
    ((sysAfter exP exLostAck).r 0).rs.pc = .finished true ∧ ((sysAfter exP exLostAck).c.st 0).nInst = 2 ∧
    REv.start ∉ ((sysAfter exP exLostAck).r 0).rs.trace := by
  refine ⟨sysAfter_reachS (by decide +kernel), ?_, ?_, ?_, ?_⟩ <;> decide +kernel

/-- The server is stopped while it waits for the instances of a second stage. -/
def exStopped : List YAct := exWhole ++ [.srv (.begin 1 false true)] ++ ticks 2 ++ [.srv .ctxDone]

example : Sys.ReachS exP (sysAfter exP exStopped) ∧ (sysAfter exP exStopped).c.phase = .stopped ∧
    0 + 1 < (sysAfter exP exStopped).c.nSt := by
  refine ⟨sysAfter_reachS (by decide +kernel), ?_, ?_⟩ <;> decide +kernel

example : Sys.Reach exP (sysAfter exP exStarted) ∧ REv.start ∈ ((sysAfter exP exStarted).r 0).rs.trace ∧
    ((sysAfter exP exStarted).c.st 0).nInst = 2 := by
  refine ⟨sysAfter_reach (by decide +kernel) (by decide +kernel), ?_, ?_⟩ <;> decide +kernel

example : Sys.Reach exP (sysAfter exP exWhole) ∧ 0 < (sysAfter exP exWhole).c.nSt ∧
    (sysAfter exP exWhole).c.phase.stage ≠ some 0 ∧ ((sysAfter exP exWhole).c.st 0).nInst = 2 ∧
    ((sysAfter exP exWhole).c.st 0).localDone = true ∧
    ((sysAfter exP exWhole).r 0).rs.trace = [.getBoot, .decode, .mkdir, .getFile 0, .collector, .prepare false,
      .postBoot false, .getRun, .start, .stopped, .postRun false, .finished false] := by
  refine ⟨sysAfter_reach (by decide +kernel) (by decide +kernel), ?_, ?_, ?_, ?_, ?_⟩ <;> decide +kernel

/-- Two stages, each with one remote instance. -/
def exTwoSys : List YAct :=
  exWhole ++ [.srv (.begin 1 false true)] ++ ticks 2 ++ [.send 1] ++ hs 5 3 ++ [.recv 1, .work 1 .ok, .work 1 .ok, .send 1] ++
  hs 6 2 ++ [.recv 1, .work 1 .ok, .work 1 .ok, .work 1 .ok, .send 1] ++ hs 7 5 ++ [.recv 1, .send 1] ++ hs 8 2 ++ ticks 4 ++
  hs 8 4 ++ [.recv 1]

example : Sys.Reach exP (sysAfter exP exTwoSys) ∧ REv.start ∈ ((sysAfter exP exTwoSys).r 1).rs.trace ∧
    ((sysAfter exP exTwoSys).r 1).sid = 2 ∧ REv.start ∈ ((sysAfter exP exTwoSys).r 0).rs.trace ∧
    ((sysAfter exP exTwoSys).r 0).sid = 1 := by
  refine ⟨sysAfter_reach (by decide +kernel) (by decide +kernel), ?_, ?_, ?_, ?_⟩ <;> decide +kernel

/-- The instance that makes a step. -/
def YAct.who : YAct → Option Nat
  | .srv _ => none
  | .send n => some n
  | .recv n => some n
  | .lose n => some n
  | .giveUp n => some n
  | .work n _ => some n
  | .pingWait n => some n
  | .pingSend n => some n
  | .pingRecv n => some n
  | .pingLost n => some n
  | .stats n => some n
  | .ctrlC n => some n

theorem sys_step_others {P : SysCfg} {s s' : Sys} {a : YAct} {k : Nat} (h : s.step P a = some s') (hk : a.who ≠ some k) :
    s'.r k = s.r k := by
  have ne : ∀ n, some n ≠ some k → k ≠ n := fun n h e => h (by rw [e])
  cases a with
  | srv a =>
    simp only [Sys.step] at h
    cases a <;> simp only [Sys.srvStep] at h <;>
      first | cases h | (obtain ⟨c, _, e⟩ := Option.map_eq_some_iff.mp h; rw [← e])
  | send n =>
    simp only [Sys.step] at h
    split at h <;> cases h
    exact updAt_ne _ _ (ne n hk)
  | recv n =>
    simp only [Sys.step] at h
    split at h
    · cases h
    split at h
    swap
    · cases h
    split at h <;> cases h
    · exact updAt_ne _ _ (ne n hk)
    · exact (updAt_ne _ _ (ne n hk)).trans (updAt_ne _ _ (ne n hk))
  | lose n => cases h; exact updAt_ne _ _ (ne n hk)
  | giveUp n =>
    simp only [Sys.step] at h
    split at h <;> cases h
    exact updAt_ne _ _ (ne n hk)
  | work n a =>
    simp only [Sys.step] at h
    split at h <;> cases h
    exact updAt_ne _ _ (ne n hk)
  | pingWait n =>
    simp only [Sys.step] at h
    split at h <;> cases h
    exact updAt_ne _ _ (ne n hk)
  | pingSend n =>
    simp only [Sys.step] at h
    split at h <;> cases h
    exact updAt_ne _ _ (ne n hk)
  | pingRecv n =>
    simp only [Sys.step] at h
    split at h
    · cases h
    split at h
    swap
    · cases h
    split at h <;> cases h <;> exact updAt_ne _ _ (ne n hk)
  | pingLost n =>
    simp only [Sys.step] at h
    split at h <;> cases h
    exact updAt_ne _ _ (ne n hk)
  | stats n => cases h; rfl
  | ctrlC n => cases h; exact updAt_ne _ _ (ne n hk)

theorem exec_others {P : SysCfg} {k : Nat} : ∀ {as : List YAct} {s s' : Sys}, Sys.exec P s as = some s' →
    (∀ a ∈ as, a.who ≠ some k) → s'.r k = s.r k
  | [], s, s', he, _ => by cases he; rfl
  | a :: as, s, s', he, hk => by
    simp only [Sys.exec] at he
    split at he
    · cases he
    · rename_i s1 h1
      exact (exec_others he (fun b hb => hk b (List.mem_cons_of_mem _ hb))).trans
        (sys_step_others h1 (hk a List.mem_cons_self))

/-- The instance gives up waiting for the response to POST /boot and sends it again while the first is being handled. -/
def exTwiceSys : List YAct :=
  [.srv (.begin 2 false true)] ++ ticks 1 ++ [.send 0] ++ hs 0 3 ++ [.recv 0, .work 0 .ok, .work 0 .ok, .send 0] ++
  hs 1 2 ++ [.recv 0, .work 0 .ok, .work 0 .ok, .work 0 .ok, .send 0] ++ hs 2 2 ++ [.lose 0, .send 0] ++ hs 3 2 ++ hs 2 3 ++
  hs 3 3 ++ [.recv 0, .send 0] ++ hs 4 2 ++ ticks 5 ++ hs 4 4 ++ [.recv 0]

/-- With a lost response, C101 is false: one instance is counted twice and begins to run a stage that requires two,
though no other one prepared it. -/
theorem C101_lost_false : ∃ P as s, Sys.exec P {} as = some s ∧ REv.start ∈ (s.r 0).rs.trace ∧ (s.r 0).sid = 1 ∧
    (s.c.st 0).nInst = 2 ∧ (s.c.st 0).hasLocal = false ∧ ∀ k, k ≠ 0 → ∀ b, REv.prepare b ∉ (s.r k).rs.trace := by
  have h : (Sys.exec exP {} exTwiceSys).isSome = true := by decide +kernel
  have he : Sys.exec exP {} exTwiceSys = some (sysAfter exP exTwiceSys) := by
    unfold sysAfter
    cases he : Sys.exec exP {} exTwiceSys with
    | none => rw [he] at h; cases h
    | some s => rfl
  refine ⟨exP, exTwiceSys, _, he, by decide +kernel, by decide +kernel, by decide +kernel, by decide +kernel, ?_⟩
  intro k hk
  rw [exec_others he]
  · exact fun _ => List.not_mem_nil
  · have : ∀ a ∈ exTwiceSys, a.who = none ∨ a.who = some 0 := by decide +kernel
    intro a ha e
    rcases this a ha with h | h <;> rw [e] at h
    · cases h
    · exact hk (Option.some.inj h)

/-! ### C102 -/

/-- A stage in progress can be completed: if none of the instances that joined it failed and the other places can be taken by
instances that wait for a stage, then there is a way to go on (without any loss) to the end of the stage, after which all of
them have run it. -/
theorem C102_completes {P : SysCfg} {s : Sys} (h : Sys.Reach P s) {m : Nat} {L : List Nat}
    (hst : s.c.phase.stage = some m) (hnd : L.Nodup) (hlen : L.length = (s.c.st m).nRem)
    (hcl : ∀ k o, cget k (s.c.st m).clients = some o → k ∈ L) (hsid : ∀ k, (s.r k).sid = m + 1 → k ∈ L)
    (hok : ∀ k ∈ L, (s.r k).rs.pc = .getBoot ∨
      ((s.r k).sid = m + 1 ∧ (s.r k).rs.pc ≠ .postErr ∧ ∀ e, (s.r k).rs.pc = .finished e → some k ∈ s.dones m))
    (hpos : (s.c.st m).hasLocal = true → 0 < (s.c.st m).nInst) :
    ∃ as s', (∀ a ∈ as, YAct.reliable a = true) ∧ Sys.exec P s as = some s' ∧ s'.c.phase = .idle ∧
      s'.c.nSt = s.c.nSt ∧ (∀ k ∈ L, (s'.r k).sid = m + 1 ∧ REv.stopped ∈ (s'.r k).rs.trace) ∧
      ((s'.c.st m).hasLocal = true → (s'.c.st m).localDone = true) := by
  have G : Good P s m L := ⟨h.inv, h.pinv, hst, hnd, hlen, hok, hcl, hsid, hpos⟩
  obtain ⟨as, s', h1, h2, h3, h4, h5, h6⟩ := G.completes _ (Nat.le_refl _)
  have R : Sys.Reach P s' := h.exec h1 h2
  have hm : m < s'.c.nSt := by
    have := h.pinv.last m hst
    omega
  have hp : s'.c.phase.stage ≠ some m := by rw [h3]; simp [Phase.stage]
  obtain ⟨L', l1, l2, l3, _, l5, _⟩ := C101_end_partial R.serial hm hp (by rw [h3]; simp)
  refine ⟨as, s', h1, h2, h3, h4, fun k hk => l3 k ?_, l5⟩
  refine mem_of_full l1 (fun x hx => h6 x (l3 x hx).1) ?_ hk
  have hrem := R.inv.u.rem m
  rw [h5, hrem]
  split at l2 <;> rename_i hl <;> simp only [hl] at hrem ⊢ <;> simp <;> omega

/-- An instance is in a stage that was begun. -/
theorem Sys.Reach.sidLe {P : SysCfg} {s : Sys} (h : Sys.Reach P s) : ∀ k, (s.r k).sid ≤ s.c.nSt := by
  induction h with
  | init => intro k; exact Nat.le_refl _
  | step hr ha hs ih =>
    rename_i s s' a
    have I := hr.inv
    have hmono : s.c.nSt ≤ s'.c.nSt := by
      cases a with
      | srv a =>
        simp only [Sys.step] at hs
        cases a with
        | arrive k n sid b => cases hs
        | handler i lost =>
          simp only [Sys.srvStep] at hs
          obtain ⟨c, h1, e⟩ := Option.map_eq_some_iff.mp hs
          rw [← e]
          exact Nat.le_of_eq (hstep_frame h1).nSt.symm
        | begin k a b =>
          simp only [Sys.srvStep, CSt.step] at hs
          obtain ⟨c, h1, e⟩ := Option.map_eq_some_iff.mp hs
          rw [← e]
          unfold CSt.beginStage at h1
          split at h1
          · split at h1 <;> cases h1
            · exact Nat.le_refl _
            · exact Nat.le_succ _
          · cases h1
        | tick =>
          simp only [Sys.srvStep, CSt.step] at hs
          obtain ⟨c, h1, e⟩ := Option.map_eq_some_iff.mp hs
          rw [← e]
          exact Nat.le_of_eq (tick_same h1).1.symm
        | ctxDone => cases ha
        | localDone m =>
          simp only [Sys.srvStep, CSt.step] at hs
          obtain ⟨c, h1, e⟩ := Option.map_eq_some_iff.mp hs
          rw [← e]
          split at h1 <;> cases h1
          exact Nat.le_refl _
      | recv n =>
        obtain ⟨⟨x, e⟩, _⟩ := (I.inst n).recv I.u I.v hs
        rw [e]; exact Nat.le_refl _
      | send n => simp only [Sys.step] at hs; split at hs <;> cases hs; exact Nat.le_refl _
      | lose n => cases ha
      | giveUp n => cases ha
      | work n a => simp only [Sys.step] at hs; split at hs <;> cases hs; exact Nat.le_refl _
      | pingWait n => simp only [Sys.step] at hs; split at hs <;> cases hs; exact Nat.le_refl _
      | pingSend n => simp only [Sys.step] at hs; split at hs <;> cases hs; exact Nat.le_refl _
      | pingRecv n =>
        simp only [Sys.step] at hs
        split at hs
        · cases hs
        split at hs
        swap
        · cases hs
        split at hs <;> cases hs <;> exact Nat.le_refl _
      | pingLost n => simp only [Sys.step] at hs; split at hs <;> cases hs; exact Nat.le_refl _
      | stats n => cases hs; exact Nat.le_refl _
      | ctrlC n => cases hs; exact Nat.le_refl _
    have same : ∀ k, (s'.r k).sid = (s.r k).sid → (s'.r k).sid ≤ s'.c.nSt := by
      intro k e
      rw [e]
      exact Nat.le_trans (ih k) hmono
    intro k
    by_cases hw : a.who = some k
    swap
    · exact same k (by rw [sys_step_others hs hw])
    cases a with
    | srv a => cases hw
    | recv n =>
      cases hw
      simp only [Sys.step] at hs
      split at hs
      · cases hs
      rename_i i hreq
      split at hs
      swap
      · cases hs
      rename_i code hi hl
      split at hs <;> cases hs
      · exact same k (by dsimp only; rw [updAt_same])
      · rename_i x hx
        simp only [Sys.mainStep, updAt_same]
        split
        · rename_i hp
          have L := (I.inst k).link
          unfold Sys.link at L
          rw [hreq] at L
          simp only [hi] at L
          obtain ⟨_, _, code', l2, l3⟩ := L
          rw [hl] at l2
          cases l2
          unfold Sys.post at l3
          rw [hp] at l3
          rcases l3 with ⟨_, _, j, e1, ⟨o, e2, _⟩⟩ | ⟨⟨h1, h2⟩, _⟩
          · rw [e1]
            by_contra hcon
            have := I.u.fresh j (by omega)
            rw [this] at e2; cases e2
          · unfold respResult at hx
            rw [if_neg h1, if_neg h2] at hx; cases hx
        · exact ih k
    | send n => cases hw; simp only [Sys.step] at hs; split at hs <;> cases hs; exact same k (by dsimp only; rw [updAt_same])
    | lose n => cases ha
    | giveUp n => cases ha
    | work n a =>
      cases hw; simp only [Sys.step] at hs; split at hs <;> cases hs
      exact same k (by simp only [Sys.mainStep]; rw [updAt_same])
    | pingWait n =>
      cases hw; simp only [Sys.step] at hs; split at hs <;> cases hs; exact same k (by dsimp only; rw [updAt_same])
    | pingSend n =>
      cases hw; simp only [Sys.step] at hs; split at hs <;> cases hs; exact same k (by dsimp only; rw [updAt_same])
    | pingRecv n =>
      cases hw
      simp only [Sys.step] at hs
      split at hs
      · cases hs
      split at hs
      swap
      · cases hs
      split at hs <;> cases hs <;> exact same k (by dsimp only; rw [updAt_same])
    | pingLost n =>
      cases hw; simp only [Sys.step] at hs; split at hs <;> cases hs; exact same k (by dsimp only; rw [updAt_same])
    | stats n => cases hw; cases hs; exact same k rfl
    | ctrlC n => cases hw; cases hs; exact same k (by dsimp only; rw [updAt_same])

/-- The next stage can always be run: between two stages, with as many instances that wait as the stage needs, there is
a way to begin the stage and to complete it on all of them. -/
theorem C102_next {P : SysCfg} {s : Sys} (h : Sys.Reach P s) (hidle : s.c.phase = .idle) {L : List Nat} {N : Nat}
    {hl : Bool} (hnd : L.Nodup) (hlen : L.length + (if hl then 1 else 0) = N)
    (hok : ∀ k ∈ L, (s.r k).rs.pc = .getBoot) :
    ∃ as s', (∀ a ∈ as, YAct.reliable a = true) ∧
      Sys.exec P s (.srv (.begin N hl true) :: as) = some s' ∧ s'.c.phase = .idle ∧ s'.c.nSt = s.c.nSt + 1 ∧
      (∀ k ∈ L, (s'.r k).sid = s.c.nSt + 1 ∧ REv.stopped ∈ (s'.r k).rs.trace) ∧
      ((s'.c.st s.c.nSt).hasLocal = true → (s'.c.st s.c.nSt).localDone = true) := by
  have hb : s.c.beginStage N hl true = some { s.c with
        st := updAt s.c.st s.c.nSt { nInst := N, nRem := if hl then N - 1 else N, hasLocal := hl }
        nSt := s.c.nSt + 1
        phase := if hl then .ackLocal s.c.nSt else .setStage s.c.nSt } := by
    unfold CSt.beginStage
    rw [hidle]
    simp
  have hs : s.step P (.srv (.begin N hl true)) = some ⟨{ s.c with
        st := updAt s.c.st s.c.nSt { nInst := N, nRem := if hl then N - 1 else N, hasLocal := hl }
        nSt := s.c.nSt + 1
        phase := if hl then .ackLocal s.c.nSt else .setStage s.c.nSt }, s.r, s.cfg, s.dones⟩ := by
    simp only [Sys.step, Sys.srvStep, CSt.step, hb, Option.map_some]
  have R := h.step (a := .srv (.begin N hl true)) rfl hs
  obtain ⟨as, s', h1, h2, h3, h4, h5, h6⟩ := C102_completes R (m := s.c.nSt) (L := L) (by cases hl <;> rfl) hnd
    (by
      simp only [updAt_same]
      cases hl <;> simp at hlen ⊢ <;> omega)
    (by simp only [updAt_same]; intro k o e; cases e)
    (by
      intro k hk
      have := h.sidLe k
      dsimp only at hk
      omega)
    (fun k hk => Or.inl (hok k hk))
    (by
      simp only [updAt_same]
      intro e
      rw [e] at hlen
      simp at hlen
      omega)
  refine ⟨as, s', h1, ?_, h3, h4, h5, h6⟩
  simp only [Sys.exec, hs]
  exact h2

/-- Steps that do not concern an instance that has ended. -/
theorem ended_lframe {P : SysCfg} {s s' : Sys} (I : SysInv P s) {a : YAct} (ha : a.reliable = true)
    (h : s.step P a = some s') {n : Nat} {e : Bool} (hn : (s.r n).rs.pc = .finished e) : LFrame n s s' := by
  have hrq : s.request P n = none := by unfold Sys.request; rw [hn]; rfl
  have hreq : (s.r n).req = none := ((I.inst n).work (a := .ok) hrq).1
  have ne : ∀ {k}, k ≠ n → n ≠ k := fun h e => h e.symm
  have oth : ∀ {x : RInst} {k : Nat}, (k = n → x.sid = (s.r n).sid ∧ x.req = (s.r n).req ∧ x.rs.pc = (s.r n).rs.pc ∧
      ∀ e : REv, e.isMain = true → (e ∈ x.rs.trace ↔ e ∈ (s.r n).rs.trace)) →
      LFrame n s ⟨s.c, updAt s.r k x, s.cfg, s.dones⟩ := by
    intro x k hx
    by_cases ek : k = n
    · subst ek
      obtain ⟨x1, x2, x3, x4⟩ := hx rfl
      refine other_lframe _ ?_ ?_ ?_ ?_ <;> rw [updAt_same]
      · exact x1
      · exact x2
      · exact x3
      · exact x4
    · have er : updAt s.r k x n = s.r n := updAt_ne _ _ (ne ek)
      exact other_lframe _ (by rw [er]) (by rw [er]) (by rw [er]) (fun _ _ => by rw [er])
  cases a with
  | srv a =>
    simp only [Sys.step] at h
    cases a with
    | arrive k n sid b => cases h
    | handler i lost =>
      simp only [YAct.reliable, Bool.not_eq_true'] at ha
      subst ha
      simp only [Sys.srvStep] at h
      obtain ⟨c, hc, e⟩ := Option.map_eq_some_iff.mp h
      rw [← e]
      obtain ⟨hd, hi⟩ : ∃ hd, s.c.hs i = some hd := by
        cases hi : s.c.hs i with
        | none => unfold CSt.hstep at hc; rw [hi] at hc; cases hc
        | some hd => exact ⟨hd, rfl⟩
      refine hstep_lframe I.v (I.inst n) hi hc ?_
      by_cases e1 : n = hd.name
      · right
        cases hm : hd.kind.mainKind
        · rfl
        · have := (I.inst n).own i hd hi e1.symm hm
          rw [hreq] at this; cases this
      · exact Or.inl e1
    | begin k a b =>
      simp only [Sys.srvStep] at h
      obtain ⟨c, hc, e⟩ := Option.map_eq_some_iff.mp h
      rw [← e]
      exact (begin_tframe I.u hc).lframe n s.dones (fun _ => Iff.rfl)
    | tick =>
      simp only [Sys.srvStep] at h
      obtain ⟨c, hc, e⟩ := Option.map_eq_some_iff.mp h
      rw [← e]
      exact (tick_tframe hc).lframe n s.dones (fun _ => Iff.rfl)
    | ctxDone => cases ha
    | localDone m =>
      simp only [Sys.srvStep] at h
      obtain ⟨c, hc, e⟩ := Option.map_eq_some_iff.mp h
      rw [← e]
      refine (localDone_tframe hc).lframe n _ (fun k => ?_)
      by_cases ek : k = m
      · rw [ek, updAt_same]; simp
      · rw [updAt_ne _ _ ek]
  | send k =>
    simp only [Sys.step] at h
    split at h
    swap
    · cases h
    rename_i kd b hk _
    cases h
    have ek : n ≠ k := by intro e; subst e; rw [hrq] at hk; cases hk
    have er : updAt s.r k { s.r k with req := some s.c.nH } n = s.r n := updAt_ne _ _ ek
    exact arrive_lframe (I.inst n) (Or.inl ek) _ (by rw [er]) (by rw [er]) (by rw [er])
  | recv k =>
    have ek : k ≠ n := by
      intro e; subst e
      simp only [Sys.step, hreq] at h
      cases h
    obtain ⟨⟨x, e⟩, _⟩ := (I.inst k).recv I.u I.v h
    rw [e]
    exact oth (fun e => absurd e ek)
  | lose k => cases ha
  | giveUp k => cases ha
  | work k a =>
    simp only [Sys.step] at h
    split at h
    · cases h
    cases h
    refine oth (fun e => ?_)
    subst e
    have hm : ∀ l T, (s.r k).rs.main l T a = (s.r k).rs := by intro l T; unfold RemSt.main; rw [hn]
    refine ⟨rfl, hreq.symm, ?_, ?_⟩ <;> dsimp only <;> rw [hm]
    exact fun _ _ => Iff.rfl
  | pingWait k =>
    simp only [Sys.step] at h
    split at h
    · cases h
      exact oth (fun e => by subst e; exact ⟨rfl, rfl, (pingStep_same _ _).1, (pingStep_same _ _).2⟩)
    · cases h
  | pingSend k =>
    simp only [Sys.step] at h
    split at h
    swap
    · cases h
    cases h
    have er : updAt s.r k { s.r k with preq := some s.c.nH } n =
        { s.r n with preq := (updAt s.r k { s.r k with preq := some s.c.nH } n).preq } := by
      by_cases e : n = k
      · rw [e, updAt_same]
      · rw [updAt_ne _ _ e]
    exact arrive_lframe (I.inst n) (Or.inr rfl) _ (by rw [er]) (by rw [er]) (by rw [er])
  | pingRecv k =>
    simp only [Sys.step] at h
    split at h
    · cases h
    split at h
    swap
    · cases h
    split at h
    · cases h
      exact oth (fun e => by subst e; exact ⟨rfl, rfl, rfl, fun _ _ => Iff.rfl⟩)
    · cases h
      exact oth (fun e => by subst e; exact ⟨rfl, rfl, (pingStep_same _ _).1, (pingStep_same _ _).2⟩)
  | pingLost k =>
    simp only [Sys.step] at h
    split at h
    · cases h
      exact oth (fun e => by subst e; exact ⟨rfl, rfl, (pingStep_same _ _).1, (pingStep_same _ _).2⟩)
    · cases h
  | stats k =>
    cases h
    exact arrive_lframe (I.inst n) (Or.inr rfl) _ rfl rfl rfl
  | ctrlC k =>
    cases h
    exact oth (fun e => by subst e; exact ⟨rfl, rfl, rfl, fun _ _ => Iff.rfl⟩)

/-- An instance that failed after it joined a stage (in whatever way, told to the server or not) blocks it: the server
keeps waiting in this stage, and no instance ever begins to run it. -/
theorem C102_failed {P : SysCfg} : ∀ {as : List YAct} {s s' : Sys} {m n o : Nat} {e : Bool}, Sys.Reach P s →
    cget n (s.c.st m).clients = some o → (s.c.objs o).state = .booting → (s.r n).rs.pc = .finished e →
    (∀ a ∈ as, a.reliable = true) → Sys.exec P s as = some s' →
    s'.c.phase.stage = some m ∧ (s'.c.st m).runClosed = false ∧
      ∀ k, REv.start ∈ (s'.r k).rs.trace → (s'.r k).sid ≠ m + 1
  | [], s, s', m, n, o, e, h, h1, h2, h3, _, he => by
    cases he
    have I := h.inv
    have hin : InSt s.c m n .booting := ⟨o, h1, h2⟩
    have hrq : s.request P n = none := by unfold Sys.request; rw [h3]; rfl
    have hreq : (s.r n).req = none := ((I.inst n).work (a := .ok) hrq).1
    have hrc : (s.c.st m).runClosed = false := by
      cases hr : (s.c.st m).runClosed
      · rfl
      · exfalso
        have := I.glob.full m (I.u.closed m hr) n o h1
        rcases ((I.inst n).acked m (acked_of_oks this)).2.2.2 with a | a | a | ⟨i, hd, a, _⟩
        · exact hin.not_noC ((I.inst n).done m a).1
        · exact absurd (hin.uniq I.u a).2 (by simp)
        · exact absurd (hin.uniq I.u a).2 (by simp)
        · rw [hreq] at a; cases a
    have hm : m < s.c.nSt := by
      by_contra hcon
      have := I.u.fresh m (by omega)
      rw [this] at h1; cases h1
    refine ⟨?_, hrc, ?_⟩
    · by_contra hcon
      have := (I.glob.over m hm hcon).2
      rw [hrc] at this; cases this
    · intro k hk hs
      obtain ⟨j, b1, b2, _⟩ := (I.inst k).start hk
      have : j = m := by omega
      rw [this, hrc] at b2; cases b2
  | a :: as, s, s', m, n, o, e, h, h1, h2, h3, hr, he => by
    simp only [Sys.exec] at he
    split at he
    · cases he
    rename_i s1 hs
    have I := h.inv
    have f := ended_lframe I (hr a List.mem_cons_self) hs h3
    obtain ⟨o', b1, b2⟩ := f.inSt I.v ⟨o, h1, h2⟩
    exact C102_failed (h.step (hr a List.mem_cons_self) hs) b1 b2 (f.pc.trans h3)
      (fun b hb => hr b (List.mem_cons_of_mem _ hb)) he

/-- The places of the stage are open and the instances wait. -/
example : Sys.Reach exP (sysAfter exP (exUp.take 9)) ∧ (sysAfter exP (exUp.take 9)).c.phase.stage = some 0 ∧
    ((sysAfter exP (exUp.take 9)).c.st 0).nRem = 1 ∧ ((sysAfter exP (exUp.take 9)).r 0).sid = 1 ∧
    ((sysAfter exP (exUp.take 9)).r 0).rs.pc = .mkdir := by
  refine ⟨sysAfter_reach (by decide +kernel) (by decide +kernel), ?_, ?_, ?_, ?_⟩ <;> decide +kernel

example : Sys.Reach exP (sysAfter exP exWhole) ∧ (sysAfter exP exWhole).c.phase = .idle ∧
    ((sysAfter exP exWhole).r 1).rs.pc = .getBoot ∧ ((sysAfter exP exWhole).r 2).rs.pc = .getBoot := by
  refine ⟨sysAfter_reach (by decide +kernel) (by decide +kernel), ?_, ?_, ?_⟩ <;> decide +kernel

/-- The instance cannot create its directory and ends. -/
def exFailed : List YAct :=
  [.srv (.begin 2 true true)] ++ ticks 2 ++ [.send 0] ++ hs 0 3 ++ [.recv 0, .work 0 .ok, .work 0 .fail]

/-- The instance cannot prepare the stage and tells the server. -/
def exTold : List YAct :=
  [.srv (.begin 2 true true)] ++ ticks 2 ++ [.send 0] ++ hs 0 3 ++ [.recv 0, .work 0 .ok, .work 0 .ok, .send 0] ++
  hs 1 2 ++ [.recv 0, .work 0 .ok, .work 0 .ok, .work 0 .fail, .send 0] ++ hs 2 4 ++ [.recv 0] ++ ticks 2

example : Sys.Reach exP (sysAfter exP exFailed) ∧
    cget 0 ((sysAfter exP exFailed).c.st 0).clients = some 0 ∧
    ((sysAfter exP exFailed).c.objs 0).state = .booting ∧
    ((sysAfter exP exFailed).r 0).rs.pc = .finished true := by
  refine ⟨sysAfter_reach (by decide +kernel) (by decide +kernel), ?_, ?_, ?_⟩ <;> decide +kernel

example : Sys.Reach exP (sysAfter exP exTold) ∧
    cget 0 ((sysAfter exP exTold).c.st 0).clients = some 0 ∧
    ((sysAfter exP exTold).c.objs 0).state = .booting ∧
    ((sysAfter exP exTold).r 0).rs.pc = .finished true ∧
    REv.postBoot true ∈ ((sysAfter exP exTold).r 0).rs.trace := by
  refine ⟨sysAfter_reach (by decide +kernel) (by decide +kernel), ?_, ?_, ?_, ?_⟩ <;> decide +kernel

/-! ### C103 -/

/-- A step leaves the number of instances of the stages that were begun as it is. -/
theorem step_nInst {s s' : CSt} {a : CAct} (h : s.step a = some s') {m : Nat} (hm : m < s.nSt) :
    (s'.st m).nInst = (s.st m).nInst := by
  have set : ∀ (k : Nat) (x : SMeta), x.nInst = (s.st k).nInst → (updAt s.st k x m).nInst = (s.st m).nInst := by
    intro k x e
    by_cases ek : m = k
    · subst ek; rw [updAt_same, e]
    · rw [updAt_ne _ _ ek]
  cases a with
  | arrive k n sid b => cases h; rfl
  | handler i lost => exact ((hstep_frame h).metas m).nInst
  | begin k a b =>
    simp only [CSt.step] at h
    unfold CSt.beginStage at h
    split at h
    · split at h <;> cases h
      · rfl
      · dsimp only
        rw [updAt_ne _ _ (by omega)]
    · cases h
  | tick =>
    simp only [CSt.step] at h
    unfold CSt.tick at h
    repeat' (first | split at h | (cases h; done) | (cases h; first | rfl | exact set _ _ rfl))
  | ctxDone =>
    simp only [CSt.step] at h
    repeat' (first | split at h | (cases h; done) | (cases h; first | rfl | exact set _ _ rfl))
  | localDone k =>
    simp only [CSt.step] at h
    split at h
    · cases h; exact set _ _ rfl
    · cases h

/-- `instances: 0`, which is allowed, with the local instance: the server waits forever for a place in a channel that has
none, whatever happens; CTRL-C does not help. -/
theorem C103_zero_hangs : ∀ {as : List CAct} {s s' : CSt} {m : Nat}, CReach s → s.phase = .ackLocal m →
    (s.st m).nInst = 0 → CSt.exec s as = some s' → s'.phase = .ackLocal m
  | [], s, s', m, _, hp, _, he => by cases he; exact hp
  | a :: as, s, s', m, h, hp, hz, he => by
    unfold CSt.exec at he
    split at he
    · cases he
    rename_i s1 h1
    have hm : m < s.nSt := by
      have := h.uinv.phase
      unfold PhaseOk at this
      rw [hp] at this
      exact this.1
    have hp1 : s1.phase = .ackLocal m := by
      cases a with
      | arrive k n sid b => cases h1; exact hp
      | handler i lost => exact (hstep_frame h1).phase.trans hp
      | begin k a b => simp only [CSt.step, CSt.beginStage, hp] at h1; cases h1
      | tick => simp [CSt.step, CSt.tick, hp, hz] at h1
      | ctxDone => simp [CSt.step, hp] at h1
      | localDone k =>
        simp only [CSt.step] at h1
        split at h1 <;> cases h1
        exact hp
    exact C103_zero_hangs (h.step h1) hp1 ((step_nInst h1 hm).trans hz) he

/-- The documented meaning of `instances: 0` fails: the server begins such a stage and never leaves it. -/
theorem C103_zero_false : ∃ s : CSt, CReach s ∧ CSt.exec {} [.begin 0 true true] = some s ∧ (s.st 0).nInst = 0 ∧
    ∀ as s', CSt.exec s as = some s' → s'.phase ≠ .idle := by
  have hr : CReach (after [.begin 0 true true]) := after_reach rfl
  refine ⟨_, hr, rfl, rfl, fun as s' he => ?_⟩
  rw [C103_zero_hangs (m := 0) hr rfl rfl he]
  intro e; cases e

/-- `instances: 0` without the local instance: the stage is over at once; nobody is asked to run it. -/
theorem C103_zero_remote {s : CSt} (hp : s.phase = .idle) (ht : s.test = false) :
    ∃ s', CSt.exec s [.begin 0 false true, .tick, .tick, .tick, .tick, .tick] = some s' ∧ s'.phase = .idle ∧
      s'.cur = s.cur ∧ s'.hs = s.hs ∧ (s'.st s.nSt).clients = [] ∧ (s'.st s.nSt).oks = [] := by
  simp [CSt.exec, CSt.step, CSt.beginStage, CSt.tick, CSt.setMeta, hp, ht, updAt_same]

/-- No request arrives. -/
def CAct.isArrive : CAct → Bool
  | .arrive .. => true
  | _ => false

/-- Without requests, there are no handlers and only the local instance acknowledges. -/
structure Alone (s : CSt) : Prop where
  hs : ∀ i, s.hs i = none
  who : ∀ m, ∀ a ∈ (s.st m).oks ++ (s.st m).bootQ, a.who = none

theorem Alone.step {s s' : CSt} (A : Alone s) {a : CAct} (ha : a.isArrive = false) (h : s.step a = some s') : Alone s' := by
  have set : ∀ (k : Nat) (x : SMeta), (∀ a ∈ x.oks ++ x.bootQ, a.who = none) →
      ∀ m, ∀ a ∈ (updAt s.st k x m).oks ++ (updAt s.st k x m).bootQ, a.who = none := by
    intro k x e m
    by_cases ek : m = k
    · subst ek; rw [updAt_same]; exact e
    · rw [updAt_ne _ _ ek]; exact A.who m
  cases a with
  | arrive k n sid b => cases ha
  | handler i lost => simp only [CSt.step, CSt.hstep, A.hs i] at h; cases h
  | begin k a b =>
    simp only [CSt.step] at h
    unfold CSt.beginStage at h
    split at h
    · split at h <;> cases h
      · exact ⟨A.hs, A.who⟩
      · exact ⟨A.hs, set _ _ (fun a h => by cases h)⟩
    · cases h
  | tick =>
    simp only [CSt.step] at h
    unfold CSt.tick at h
    split at h
    case h_1 => cases h
    case h_2 m _ =>
      split at h <;> cases h
      refine ⟨A.hs, set _ _ (fun a h => ?_)⟩
      simp only [← List.append_assoc] at h
      rcases List.mem_append.mp h with h | h
      · exact A.who m a h
      · rw [List.mem_singleton.mp h]
    case h_5 m n _ =>
      split at h
      · split at h
        · cases h
        · rename_i a q hq
          have := A.who m
          rw [hq] at this
          split at h <;> cases h
          · refine ⟨A.hs, set _ _ (fun b h => this b ?_)⟩
            simp at h ⊢
            exact h
          · refine ⟨A.hs, set _ _ (fun b h => this b ?_)⟩
            simp at h ⊢
            rcases h with h | h <;> simp [h]
      · cases h; exact ⟨A.hs, A.who⟩
    all_goals
      repeat' (first | split at h | (cases h; done) | (cases h; first | exact ⟨A.hs, A.who⟩ | exact ⟨A.hs, set _ _ (A.who _)⟩))
  | ctxDone =>
    simp only [CSt.step] at h
    repeat' (first | split at h | (cases h; done) | (cases h; first | exact ⟨A.hs, A.who⟩ | exact ⟨A.hs, set _ _ (A.who _)⟩))
  | localDone k =>
    simp only [CSt.step] at h
    split at h
    · cases h; exact ⟨A.hs, set _ _ (A.who _)⟩
    · cases h

theorem Alone.exec : ∀ {as : List CAct} {s s' : CSt}, Alone s → CReach s → (∀ a ∈ as, a.isArrive = false) →
    CSt.exec s as = some s' → Alone s' ∧ CReach s'
  | [], s, s', A, h, _, he => by cases he; exact ⟨A, h⟩
  | a :: as, s, s', A, h, hna, he => by
    unfold CSt.exec at he
    split at he
    · cases he
    rename_i s1 h1
    exact Alone.exec (A.step (hna a List.mem_cons_self) h1) (h.step h1) (fun b hb => hna b (List.mem_cons_of_mem _ hb)) he

/-- A server that nobody connects to (such as one started without `--server`, which has no API) never runs a stage that requires
more than its local instance. -/
theorem C103_alone {as : List CAct} {s : CSt} {test : Bool} (hna : ∀ a ∈ as, a.isArrive = false)
    (he : CSt.exec { test := test } as = some s) {m : Nat}
    (hm : (if (s.st m).hasLocal then 1 else 0) < (s.st m).nInst) :
    (s.st m).booted = false ∧ (s.st m).runClosed = false := by
  obtain ⟨A, R⟩ := Alone.exec (as := as) ⟨fun _ => rfl, fun _ a h => by cases h⟩ (CReach.init test) hna he
  have u := R.uinv
  have hb : (s.st m).booted = false := by
    cases hb : (s.st m).booted
    · rfl
    exfalso
    have h1 := u.booted m hb
    have h2 := u.loc m
    rw [nLocal_append] at h2
    have h3 : nLocal (s.st m).oks = (s.st m).oks.length := by
      unfold nLocal
      rw [List.countP_eq_length]
      intro a ha
      rw [A.who m a (List.mem_append.mpr (Or.inl ha))]
      rfl
    omega
  refine ⟨hb, ?_⟩
  cases hr : (s.st m).runClosed
  · rfl
  · rw [u.closed m hr] at hb; cases hb

example : (CSt.exec {} [.begin 2 true true, .tick, .tick, .tick]).isSome = true := by decide +kernel

end Finch
