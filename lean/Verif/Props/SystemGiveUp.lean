import Verif.Props.SystemLoss
/-!
A distributed run as a whole when instances give up and the server is stopped while it waits for instances to boot (for
C101): for the others it is as if the instance had not received the response.
-/
namespace Finch

/-- Steps in which the requests of an instance do not overlap: a response is lost only after the request was handled (or
the instance gives up). The server is interrupted at most while it waits for the instances to boot. -/
def Sys.serial (s : Sys) : YAct → Prop
  | .lose n => s.handled n
  | .srv (.handler _ lost) => lost = false
  | .srv .ctxDone => ∃ m n, s.c.phase = .boot m n
  | _ => True

/-- States that can be reached by such steps. -/
inductive Sys.ReachS (P : SysCfg) : Sys → Prop
  | init : Sys.ReachS P {}
  | step {s s' : Sys} {a : YAct} : Sys.ReachS P s → s.serial a → s.step P a = some s' → Sys.ReachS P s'

theorem Sys.Reach.serial {P : SysCfg} {s : Sys} (h : Sys.Reach P s) : Sys.ReachS P s := by
  induction h with
  | init => exact .init
  | @step s s' a _ ha hs ih =>
    refine .step ih ?_ hs
    cases a with
    | lose n => cases ha
    | srv a =>
      cases a with
      | handler i lost =>
        simp only [YAct.reliable, Bool.not_eq_true'] at ha
        exact ha
      | ctxDone => cases ha
      | _ => trivial
    | _ => trivial

/-- `y` is the instance `x` after it gave up. -/
structure Gave (x y : RInst) : Prop where
  sid : y.sid = x.sid
  preq : y.preq = x.preq
  req : y.req = none
  pc : ∃ e, y.rs.pc = .finished e
  closed : y.rs.doneClosed = true
  ping : y.rs.ping = .ended ∨ y.rs.ping = x.rs.ping
  trace : ∀ e : REv, e = .prepare false ∨ e = .start ∨ e = .stopped → (e ∈ y.rs.trace ↔ e ∈ x.rs.trace)
  err : REv.postBoot true ∈ y.rs.trace → REv.postBoot true ∈ x.rs.trace ∨ x.rs.pc = .postErr

/-- `t` is the state `s` after some instances gave up and the server was possibly stopped. -/
structure Sim (s t : Sys) : Prop where
  c : ∃ p, t.c = { s.c with phase := p } ∧ (p = s.c.phase ∨ (p = .stopped ∧ ∃ m n, s.c.phase = .boot m n))
  cfg : t.cfg = s.cfg
  dones : t.dones = s.dones
  inst : ∀ n, t.r n = s.r n ∨ Gave (s.r n) (t.r n)

/-- Handlers do not look at the place of the server. -/
theorem hstep_phase (c : CSt) (p : Phase) (i : Nat) (lost : Bool) :
    CSt.hstep { c with phase := p } i lost = (c.hstep i lost).map fun c => { c with phase := p } := by
  unfold CSt.hstep
  dsimp only
  cases hi : c.hs i with
  | none => rfl
  | some h =>
    dsimp only
    cases hp : h.pc <;> dsimp only
    case start =>
      simp only [Option.map_some, Option.some.injEq]
      unfold CSt.lookupStep
      dsimp only
      split
      · rfl
      split
      · rfl
      split
      · split <;> rfl
      · split <;> rfl
    case check =>
      simp only [Option.map_some, Option.some.injEq]
      unfold CSt.checkStep
      dsimp only
      split <;> first | rfl | (split <;> rfl)
    case join =>
      split
      · rfl
      split
      · rfl
      split
      · rfl
      · rfl
    case body =>
      split
      · split <;> rfl
      · rfl
    case setRunnable => rfl
    case sendBoot => split <;> rfl
    case waitRun => split <;> rfl
    case afterRun => split <;> rfl
    case write => split <;> rfl
    case setRunning => rfl
    case del => rfl
    case sendDone => split <;> rfl
    case setReady => rfl
    case recv => split <;> rfl

theorem localDone_phase (c : CSt) (p : Phase) (m : Nat) :
    CSt.step { c with phase := p } (.localDone m) = (c.step (.localDone m)).map fun c => { c with phase := p } := by
  simp only [CSt.step]
  split <;> rfl

theorem localDone_same_phase {c c' : CSt} {m : Nat} (h : c.step (.localDone m) = some c') : c'.phase = c.phase := by
  simp only [CSt.step] at h
  split at h <;> cases h
  rfl

/-- An instance that gives up. -/
theorem Gave.mk' {P : SysCfg} {s : Sys} {n : Nat} (h : (s.request P n).isSome = true) (l : Nat → Bool) (k : Nat)
    (hl : l = P.local_ n (s.r n).sid) (hk : k = P.nTrx (s.r n).sid) :
    Gave (s.r n) { s.r n with rs := (s.r n).rs.main l k .fail, req := none } := by
  obtain ⟨⟨kd, b⟩, hr⟩ := Option.isSome_iff_exists.mp h
  rcases request_pc hr with ⟨a, _, _⟩ | ⟨⟨j, a⟩, _, _⟩ | ⟨a, _, _⟩ | ⟨a, _, _⟩ | ⟨a, _, _⟩ | ⟨a, _, _⟩
  case inr.inl =>
    have hj : j < k ∧ l j = false := by
      unfold Sys.request at hr
      rw [a, ← hl, ← hk] at hr
      simp only [RPc.request] at hr
      split at hr
      · assumption
      · cases hr
    have e : (s.r n).rs.main l k .fail = ((s.r n).rs.log (.getFile j)).finish true := by
      simp [RemSt.main, a, hj.1, hj.2]
    rw [e]
    refine ⟨rfl, rfl, rfl, ⟨_, rfl⟩, rfl, Or.inr rfl, ?_, ?_⟩ <;> simp [RemSt.finish, RemSt.log]
    exact Or.inl
  all_goals
    refine ⟨rfl, rfl, rfl, ?_, ?_, ?_, ?_, ?_⟩ <;> simp [RemSt.main, a, RemSt.finish, RemSt.log]

theorem Gave.request {P : SysCfg} {t : Sys} {n : Nat} {x : RInst} (g : Gave x (t.r n)) : t.request P n = none := by
  obtain ⟨e, he⟩ := g.pc
  unfold Sys.request
  rw [he]
  rfl

/-- The goroutine that pings goes on in both. -/
theorem Gave.pingStep {x y : RInst} (g : Gave x y) (a : RRes) :
    Gave { x with rs := x.rs.pingStep a, preq := none } { y with rs := y.rs.pingStep a, preq := none } := by
  have sx := pingStep_same x.rs a
  have sy := pingStep_same y.rs a
  refine ⟨g.sid, rfl, g.req, ?_, ?_, ?_, ?_, ?_⟩
  · obtain ⟨e, he⟩ := g.pc
    exact ⟨e, sy.1.trans he⟩
  · have := g.closed
    dsimp only
    unfold RemSt.pingStep
    repeat' split
    all_goals exact this
  · have hc := g.closed
    dsimp only
    rcases g.ping with h | h
    · left
      unfold RemSt.pingStep
      rw [h]
      exact h
    · unfold RemSt.pingStep
      rw [h]
      cases hp : x.rs.ping <;> simp only [hc, if_true]
      · exact Or.inr h
      · exact Or.inl trivial
      · split
        · exact Or.inr rfl
        · exact Or.inl rfl
      · exact Or.inl (h.trans hp)
  · intro e he
    have hm : e.isMain = true := by rcases he with rfl | rfl | rfl <;> rfl
    rw [sy.2 e hm, sx.2 e hm]
    exact g.trace e he
  · rw [sy.2 _ rfl, sx.2 _ rfl]
    dsimp only
    rw [sx.1]
    exact g.err

/-- One instance changes in both. -/
theorem Sim.upd {c : CSt} {p : Phase} {r r' : Nat → RInst} {cfg : Nat → Nat} {dn : Nat → List (Option Nat)}
    (hp : p = c.phase ∨ (p = .stopped ∧ ∃ m n, c.phase = .boot m n))
    (hi : ∀ n, r' n = r n ∨ Gave (r n) (r' n)) {n : Nat} {x y : RInst} (h : y = x ∨ Gave x y) :
    Sim ⟨c, updAt r n x, cfg, dn⟩ ⟨{ c with phase := p }, updAt r' n y, cfg, dn⟩ := by
  refine ⟨⟨p, rfl, hp⟩, rfl, rfl, fun k => ?_⟩
  dsimp only
  by_cases e : k = n
  · rw [e, updAt_same, updAt_same]; exact h
  · rw [updAt_ne _ _ e, updAt_ne _ _ e]; exact hi k

theorem Sim.updR {c : CSt} {p : Phase} {r r' : Nat → RInst} {cfg : Nat → Nat} {dn : Nat → List (Option Nat)}
    (hp : p = c.phase ∨ (p = .stopped ∧ ∃ m n, c.phase = .boot m n))
    (hi : ∀ n, r' n = r n ∨ Gave (r n) (r' n)) {n : Nat} {y : RInst} (h : y = r n ∨ Gave (r n) y) :
    Sim ⟨c, r, cfg, dn⟩ ⟨{ c with phase := p }, updAt r' n y, cfg, dn⟩ := by
  refine ⟨⟨p, rfl, hp⟩, rfl, rfl, fun k => ?_⟩
  dsimp only
  by_cases e : k = n
  · rw [e, updAt_same]; exact h
  · rw [updAt_ne _ _ e]; exact hi k

/-- Every step of `t` is one of `s` or none. -/
theorem Sim.step {P : SysCfg} {s t t' : Sys} (h : Sim s t) {a : YAct} (ha : t.serial a) (hst : t.step P a = some t') :
    ∃ s', (s' = s ∨ (s.stepOk a ∧ s.step P a = some s')) ∧ Sim s' t' := by
  obtain ⟨tc, tr, tcfg, tdn⟩ := t
  obtain ⟨sc, sr, scfg, sdn⟩ := s
  obtain ⟨⟨p, h1, hp⟩, h2, h3, hi⟩ := h
  dsimp only at h1 h2 h3 hi hp
  subst h1 h2 h3
  -- a step that is the same in both
  have stay : Sim ⟨sc, sr, tcfg, tdn⟩ ⟨{ sc with phase := p }, tr, tcfg, tdn⟩ := ⟨⟨p, rfl, hp⟩, rfl, rfl, hi⟩
  have hreq : ∀ n, tr n = sr n → Sys.request P ⟨{ sc with phase := p }, tr, tcfg, tdn⟩ n =
      Sys.request P ⟨sc, sr, tcfg, tdn⟩ n := fun n e => by unfold Sys.request; dsimp only; rw [e]
  cases a with
  | srv a =>
    simp only [Sys.step] at hst
    cases a with
    | arrive k n sid b => cases hst
    | handler i lost =>
      have hl : lost = false := ha
      subst hl
      simp only [Sys.srvStep] at hst
      rw [hstep_phase] at hst
      cases hc : sc.hstep i false with
      | none => rw [hc] at hst; cases hst
      | some c' =>
        rw [hc] at hst
        simp only [Option.map_some, Option.some.injEq] at hst
        subst hst
        refine ⟨⟨c', sr, Sys.noteCfg ⟨sc, sr, tcfg, tdn⟩ i, Sys.noteDone ⟨sc, sr, tcfg, tdn⟩ i⟩,
          Or.inr ⟨Or.inl rfl, ?_⟩, ?_⟩
        · simp only [Sys.step, Sys.srvStep, hc, Option.map_some]
        · refine ⟨⟨p, rfl, ?_⟩, rfl, rfl, hi⟩
          rw [(hstep_frame hc).phase]; exact hp
    | begin k a b =>
      rcases hp with hp | ⟨hp, _⟩
      · subst hp
        simp only [Sys.srvStep] at hst
        cases hc : sc.step (.begin k a b) with
        | none => rw [hc] at hst; cases hst
        | some c' =>
          rw [hc] at hst
          simp only [Option.map_some, Option.some.injEq] at hst
          subst hst
          refine ⟨⟨c', sr, tcfg, tdn⟩, Or.inr ⟨Or.inl rfl, ?_⟩, ⟨⟨c'.phase, rfl, Or.inl rfl⟩, rfl, rfl, hi⟩⟩
          simp only [Sys.step, Sys.srvStep, hc, Option.map_some]
      · subst hp
        simp only [Sys.srvStep, CSt.step, CSt.beginStage] at hst
        cases hst
    | tick =>
      rcases hp with hp | ⟨hp, _⟩
      · subst hp
        simp only [Sys.srvStep] at hst
        cases hc : sc.step .tick with
        | none => rw [hc] at hst; cases hst
        | some c' =>
          rw [hc] at hst
          simp only [Option.map_some, Option.some.injEq] at hst
          subst hst
          refine ⟨⟨c', sr, tcfg, tdn⟩, Or.inr ⟨Or.inl rfl, ?_⟩, ⟨⟨c'.phase, rfl, Or.inl rfl⟩, rfl, rfl, hi⟩⟩
          simp only [Sys.step, Sys.srvStep, hc, Option.map_some]
      · subst hp
        simp only [Sys.srvStep, CSt.step, CSt.tick] at hst
        cases hst
    | ctxDone =>
      obtain ⟨m, n, hb⟩ := ha
      dsimp only at hb
      subst hb
      rcases hp with hp | ⟨hp, _⟩
      swap
      · cases hp
      simp only [Sys.srvStep, CSt.step] at hst
      split at hst
      · simp only [Option.map_some, Option.some.injEq] at hst
        subst hst
        exact ⟨_, Or.inl rfl, ⟨⟨.stopped, rfl, Or.inr ⟨rfl, m, n, hp.symm⟩⟩, rfl, rfl, hi⟩⟩
      · cases hst
    | localDone m =>
      simp only [Sys.srvStep] at hst
      rw [localDone_phase] at hst
      cases hc : sc.step (.localDone m) with
      | none => rw [hc] at hst; cases hst
      | some c' =>
        rw [hc] at hst
        simp only [Option.map_some, Option.some.injEq] at hst
        subst hst
        refine ⟨⟨c', sr, tcfg, updAt tdn m (tdn m ++ [none])⟩, Or.inr ⟨Or.inl rfl, ?_⟩, ⟨⟨p, rfl, ?_⟩, rfl, rfl, hi⟩⟩
        · simp only [Sys.step, Sys.srvStep, hc, Option.map_some]
        · rw [localDone_same_phase hc]; exact hp
  | send n =>
    simp only [Sys.step] at hst
    rcases hi n with e | g
    · rw [hreq n e, e] at hst
      split at hst
      swap
      · cases hst
      rename_i k b hrq hq
      cases hst
      refine ⟨_, Or.inr ⟨Or.inl rfl, ?_⟩,
        Sim.upd (c := sc.arriveReq k n (sr n).sid b) (n := n) (x := { sr n with req := some sc.nH }) hp hi (Or.inl rfl)⟩
      simp only [Sys.step, hrq, hq]
    · rw [Gave.request (t := ⟨{ sc with phase := p }, tr, tcfg, tdn⟩) g] at hst
      cases hst
  | recv n =>
    simp only [Sys.step] at hst
    rcases hi n with e | g
    · rw [e] at hst
      split at hst
      · cases hst
      rename_i i hq
      split at hst
      swap
      · cases hst
      rename_i code hh hl
      split at hst
      · rename_i hres
        cases hst
        refine ⟨_, Or.inr ⟨Or.inl rfl, ?_⟩, Sim.upd (n := n) (x := { sr n with req := none }) hp hi (Or.inl rfl)⟩
        simp only [Sys.step, hq, hh, hl, hres]
      · rename_i a hres
        cases hst
        refine ⟨Sys.mainStep P ⟨sc, updAt sr n { sr n with
          sid := if (sr n).rs.pc = .getBoot then tcfg i else (sr n).sid }, tcfg, tdn⟩ n a, Or.inr ⟨Or.inl rfl, ?_⟩, ?_⟩
        · simp only [Sys.step, hq, hh, hl, hres]
        · simp only [Sys.mainStep, updAt_same]
          refine Sim.upd hp (fun k => ?_) (Or.inl rfl)
          by_cases ek : k = n
          · rw [ek, updAt_same, updAt_same]; exact Or.inl rfl
          · rw [updAt_ne _ _ ek, updAt_ne _ _ ek]; exact hi k
    · rw [g.req] at hst
      cases hst
  | lose n =>
    simp only [Sys.step, Option.some.injEq] at hst
    subst hst
    rcases hi n with e | g
    · refine ⟨_, Or.inr ⟨Or.inr ⟨n, rfl, ?_⟩, rfl⟩,
        Sim.upd (n := n) (x := { sr n with req := none }) hp hi (Or.inl (by rw [e]))⟩
      intro i hq
      dsimp only at hq
      exact ha i (by dsimp only; rw [e]; exact hq)
    · refine ⟨_, Or.inl rfl, Sim.updR hp hi (Or.inr ?_)⟩
      have : ({ tr n with req := none } : RInst) = tr n := by rw [← g.req]
      rw [this]
      exact g
  | giveUp n =>
    simp only [Sys.step] at hst
    split at hst
    swap
    · cases hst
    rename_i hrq
    cases hst
    rcases hi n with e | g
    · refine ⟨_, Or.inl rfl, ?_⟩
      simp only [Sys.mainStep]
      refine Sim.updR hp hi (Or.inr ?_)
      rw [hreq n e] at hrq
      rw [e]
      exact Gave.mk' (s := ⟨sc, sr, tcfg, tdn⟩) hrq _ _ rfl rfl
    · rw [Gave.request (t := ⟨{ sc with phase := p }, tr, tcfg, tdn⟩) g] at hrq
      cases hrq
  | work n a =>
    simp only [Sys.step] at hst
    split at hst
    · cases hst
    rename_i hrq
    cases hst
    rcases hi n with e | g
    · rw [hreq n e] at hrq
      refine ⟨Sys.mainStep P ⟨sc, sr, tcfg, tdn⟩ n a, Or.inr ⟨Or.inl rfl, ?_⟩, ?_⟩
      · simp only [Sys.step, if_neg hrq]
      · simp only [Sys.mainStep]
        exact Sim.upd hp hi (Or.inl (by rw [e]))
    · refine ⟨_, Or.inl rfl, ?_⟩
      simp only [Sys.mainStep]
      refine Sim.updR hp hi (Or.inr ?_)
      obtain ⟨b, hb⟩ := g.pc
      have : (tr n).rs.main (P.local_ n (tr n).sid) (P.nTrx (tr n).sid) a = (tr n).rs := by
        unfold RemSt.main; rw [hb]
      rw [this]
      have : ({ tr n with req := none } : RInst) = tr n := by rw [← g.req]
      rw [this]
      exact g
  | pingWait n =>
    simp only [Sys.step] at hst
    split at hst
    swap
    · cases hst
    rename_i hw
    cases hst
    rcases hi n with e | g
    · refine ⟨_, Or.inr ⟨Or.inl rfl, ?_⟩, Sim.upd (n := n) (x := { sr n with rs := (sr n).rs.pingStep .ok }) hp hi
        (Or.inl (by rw [e]))⟩
      rw [e] at hw
      simp only [Sys.step, if_pos hw]
    · refine ⟨_, Or.inl rfl, Sim.updR hp hi (Or.inr ?_)⟩
      obtain ⟨g1, g2, g3, g4, g5, g6, g7, g8⟩ := g
      refine ⟨g1, g2, g3, ?_, ?_, ?_, ?_, ?_⟩ <;> simp only [RemSt.pingStep, hw, g5, if_true]
      · exact g4
      · exact Or.inl trivial
      · exact g7
      · exact g8
  | pingSend n =>
    simp only [Sys.step] at hst
    split at hst
    swap
    · cases hst
    rename_i hw
    simp only [Option.some.injEq] at hst
    subst hst
    have hs : (sr n).rs.ping = .ask ∧ (sr n).preq = none ∧ (tr n).sid = (sr n).sid := by
      rcases hi n with e | g
      · rw [e] at hw; exact ⟨hw.1, hw.2, by rw [e]⟩
      · refine ⟨?_, g.preq.symm.trans hw.2, g.sid⟩
        rcases g.ping with h | h
        · rw [hw.1] at h; cases h
        · rw [← h]; exact hw.1
    rw [hs.2.2]
    refine ⟨_, Or.inr ⟨Or.inl rfl, ?_⟩, Sim.upd (c := sc.arriveReq .ping n (sr n).sid .empty) (n := n)
      (x := { sr n with preq := some sc.nH }) hp hi ?_⟩
    · simp only [Sys.step, if_pos (And.intro hs.1 hs.2.1)]
    · rcases hi n with e | g
      · left; rw [e]
      · obtain ⟨g1, g2, g3, g4, g5, g6, g7, g8⟩ := g
        exact Or.inr ⟨rfl, rfl, g3, g4, g5, g6, g7, g8⟩
  | pingRecv n =>
    have hpq : (tr n).preq = (sr n).preq := by
      rcases hi n with e | g
      · rw [e]
      · exact g.preq
    simp only [Sys.step, hpq] at hst
    split at hst
    · cases hst
    rename_i i hq
    split at hst
    swap
    · cases hst
    rename_i code hh hl
    split at hst
    · rename_i hres
      cases hst
      refine ⟨_, Or.inr ⟨Or.inl rfl, ?_⟩, Sim.upd (n := n) (x := { sr n with preq := none }) hp hi ?_⟩
      · simp only [Sys.step, hq, hh, hl, hres]
      · rcases hi n with e | g
        · left; rw [e]
        · obtain ⟨g1, g2, g3, g4, g5, g6, g7, g8⟩ := g
          exact Or.inr ⟨g1, rfl, g3, g4, g5, g6, g7, g8⟩
    · rename_i a hres
      cases hst
      refine ⟨_, Or.inr ⟨Or.inl rfl, ?_⟩,
        Sim.upd (n := n) (x := { sr n with rs := (sr n).rs.pingStep a, preq := none }) hp hi ?_⟩
      · simp only [Sys.step, hq, hh, hl, hres]
      · rcases hi n with e | g
        · left; rw [e]
        · exact Or.inr (g.pingStep a)
  | pingLost n =>
    simp only [Sys.step] at hst
    split at hst
    swap
    · cases hst
    rename_i hw
    cases hst
    have hs : (sr n).rs.ping = .ask := by
      rcases hi n with e | g
      · rw [e] at hw; exact hw
      · rcases g.ping with h | h
        · rw [hw] at h; cases h
        · rw [← h]; exact hw
    refine ⟨_, Or.inr ⟨Or.inl rfl, ?_⟩,
      Sim.upd (n := n) (x := { sr n with rs := (sr n).rs.pingStep .fail, preq := none }) hp hi ?_⟩
    · simp only [Sys.step, if_pos hs]
    · rcases hi n with e | g
      · left; rw [e]
      · exact Or.inr (g.pingStep _)
  | stats n =>
    simp only [Sys.step, Option.some.injEq] at hst
    subst hst
    have hs : (tr n).sid = (sr n).sid := by
      rcases hi n with e | g
      · rw [e]
      · exact g.sid
    refine ⟨_, Or.inr ⟨Or.inl rfl, rfl⟩, ⟨⟨p, ?_, hp⟩, rfl, rfl, hi⟩⟩
    dsimp only
    rw [hs]
    rfl
  | ctrlC n =>
    simp only [Sys.step, Option.some.injEq] at hst
    subst hst
    refine ⟨_, Or.inr ⟨Or.inl rfl, rfl⟩, Sim.upd hp hi ?_⟩
    rcases hi n with e | g
    · left; rw [e]
    · obtain ⟨g1, g2, g3, g4, g5, g6, g7, g8⟩ := g
      exact Or.inr ⟨g1, g2, g3, g4, g5, g6, g7, g8⟩

theorem Sys.ReachS.sim {P : SysCfg} {t : Sys} (h : Sys.ReachS P t) : ∃ s, Sys.ReachL P s ∧ Sim s t := by
  induction h with
  | init => exact ⟨{}, .init, ⟨⟨.idle, rfl, Or.inl rfl⟩, rfl, rfl, fun _ => Or.inl rfl⟩⟩
  | step _ ha hs ih =>
    obtain ⟨s, r, m⟩ := ih
    obtain ⟨s', h1, h2⟩ := m.step ha hs
    rcases h1 with rfl | ⟨h1, h3⟩
    · exact ⟨_, r, h2⟩
    · exact ⟨s', .step r h1 h3, h2⟩

/-! ### What holds for the instances -/

/-- An instance that acknowledged is not about to report an error. -/
theorem LInv.acked_pc {P : SysCfg} {s : Sys} {n : Nat} (u : UInv s.c) (I : LInv P s n) {m : Nat} (h : Acked s.c m n) :
    (s.r n).rs.pc ≠ .postErr := by
  intro hp
  rcases I with I | ⟨d, I⟩
  swap
  · rw [I.pc] at hp
    cases d <;> cases hp
  -- the server has it as booting
  have hb : s.at_ n .booting ∧ ¬ s.sending n := by
    have L := I.link
    unfold Sys.link at L
    cases hr : (s.r n).req with
    | none =>
      rw [hr] at L
      simp only [] at L
      unfold Sys.need at L
      rw [hp] at L
      exact ⟨L, fun ⟨i, _, e, _⟩ => by rw [hr] at e; cases e⟩
    | some i =>
      rw [hr] at L
      cases hi : s.c.hs i with
      | none =>
        simp only [hi] at L
        obtain ⟨_, _, code, _, l⟩ := L
        unfold Sys.post at l
        rw [hp] at l
        exact ⟨l, fun ⟨j, h, e, e', _⟩ => by rw [hr] at e; cases e; rw [hi] at e'; cases e'⟩
      | some hd =>
        simp only [hi] at L
        obtain ⟨_, rq, _, _, l⟩ := L
        have hk : hd.kind = .postBoot ∧ hd.body = .error := by
          unfold Sys.request at rq
          rw [hp] at rq
          simp only [RPc.request, Option.some.injEq, Prod.mk.injEq] at rq
          exact ⟨rq.1.symm, rq.2.symm⟩
        refine ⟨?_, fun ⟨j, h, e, e', e'', _⟩ => by
          rw [hr] at e; cases e; rw [hi] at e'; cases e'; rw [hk.1] at e''; cases e''⟩
        unfold Sys.hneed at l
        rw [hk.1] at l
        cases hpc : hd.pc <;> rw [hpc] at l <;> simp only [] at l <;> first | exact l | skip
        rcases l with l | l
        · exact l.2
        · rw [hk.2] at l; cases l.1
  obtain ⟨⟨k, _, hk⟩, hns⟩ := hb
  rcases (I.acked m h).2.2.2 with a | a | a | a
  · exact hk.not_noC (I.done m a).1
  · exact absurd (hk.uniq u a).2 (by simp)
  · exact absurd (hk.uniq u a).2 (by simp)
  · exact hns a

/-- An acknowledgement is received before the run signal. -/
theorem SysInvL.ackedClosed {P : SysCfg} {s : Sys} (I : SysInvL P s) {m k : Nat} (hrc : (s.c.st m).runClosed = true)
    (h : Acked s.c m k) : k ∈ okNames (s.c.st m).oks := by
  have hfull : ∀ {x}, InSt s.c m k x → k ∈ okNames (s.c.st m).oks := by
    rintro x ⟨o, h1, _⟩
    exact I.glob.full m (I.u.closed m hrc) k o h1
  rcases I.inst k with J | ⟨d, J⟩
  · obtain ⟨a1, _, _, a4⟩ := J.acked m h
    rcases a4 with a | a | a | ⟨i, hd, b1, b2, b3, b4⟩
    · exact (J.done m a).2.2.2
    · exact hfull a
    · exact hfull a
    · have L := J.link
      unfold Sys.link at L
      rw [b1] at L
      simp only [b2] at L
      have L4 := L.2.2.2.2
      unfold Sys.hneed at L4
      rw [b3, b4] at L4
      obtain ⟨_, j, c1, _, _, _, c5, _⟩ := L4
      have : j = m := by omega
      rw [← this]; exact c5
  · rcases (J.acked m h).2.2.2 with a | a | a
    · exact (J.done m a).2.2.2
    · exact hfull a
    · exact hfull a

/-- The instances that acknowledged a stage after the run signal: as many as configured, all different. -/
theorem WInv.party {s : Sys} (I : WInv s) {m : Nat} (hrc : (s.c.st m).runClosed = true) :
    (okNames (s.c.st m).oks).Nodup ∧
    (okNames (s.c.st m).oks).length + (if (s.c.st m).hasLocal then 1 else 0) = (s.c.st m).nInst := by
  have hb := I.u.closed m hrc
  have h1 := I.u.booted m hb
  have h2 := okNames_length _ (I.u.oks m)
  have h3 := I.u.loc m
  rw [nLocal_append] at h3
  refine ⟨I.v.dist m, ?_⟩
  split <;> rename_i hl
  · have h4 := I.glob.locOk m hb hl
    obtain ⟨a, ha, hw⟩ := List.mem_map.mp h4
    have : 0 < nLocal (s.c.st m).oks := by
      unfold nLocal
      exact List.countP_pos_iff.mpr ⟨a, ha, by rw [hw]; rfl⟩
    rw [if_pos hl] at h3
    omega
  · rw [if_neg hl] at h3
    omega

theorem acked_of_oks {c : CSt} {m k : Nat} (h : k ∈ okNames (c.st m).oks) : Acked c m k := by
  unfold Acked
  rw [okNames_append]
  exact List.mem_append.mpr (Or.inl h)

/-- What the stages and the instances have to do with each other. -/
structure Facts (t : Sys) : Prop where
  fresh : ∀ m, t.c.nSt ≤ m → t.c.st m = {}
  party : ∀ m, (t.c.st m).runClosed = true → (okNames (t.c.st m).oks).Nodup ∧
    (okNames (t.c.st m).oks).length + (if (t.c.st m).hasLocal then 1 else 0) = (t.c.st m).nInst
  ok : ∀ m, ∀ k ∈ okNames (t.c.st m).oks,
    (t.r k).sid = m + 1 ∧ REv.prepare false ∈ (t.r k).rs.trace ∧ REv.postBoot true ∉ (t.r k).rs.trace
  start : ∀ n, REv.start ∈ (t.r n).rs.trace →
    ∃ m, (t.r n).sid = m + 1 ∧ (t.c.st m).runClosed = true ∧ n ∈ okNames (t.c.st m).oks
  over : ∀ m, m < t.c.nSt → t.c.phase.stage ≠ some m →
    (t.c.phase = .stopped → (t.c.st m).runClosed = true ∨ m + 1 < t.c.nSt) →
    (t.c.st m).runClosed = true ∧ (t.c.st m).clients = [] ∧
    (∀ k ∈ okNames (t.c.st m).oks, REv.stopped ∈ (t.r k).rs.trace) ∧
    ((t.c.st m).hasLocal = true → (t.c.st m).localDone = true)
  last : ∀ m, t.c.phase.stage = some m → m + 1 = t.c.nSt

theorem Sys.ReachS.facts {P : SysCfg} {t : Sys} (h : Sys.ReachS P t) : Facts t := by
  obtain ⟨s, hr, m⟩ := h.sim
  have I := hr.inv
  have W := I.w
  obtain ⟨p, hc, hp⟩ := m.c
  have hst : t.c.st = s.c.st := by rw [hc]
  have hn : t.c.nSt = s.c.nSt := by rw [hc]
  have hph : t.c.phase = p := by rw [hc]
  have hsid : ∀ k, (t.r k).sid = (s.r k).sid := by
    intro k
    rcases m.inst k with e | g
    · rw [e]
    · exact g.sid
  have htr : ∀ k (e : REv), e = .prepare false ∨ e = .start ∨ e = .stopped →
      (e ∈ (t.r k).rs.trace ↔ e ∈ (s.r k).rs.trace) := by
    intro k e he
    rcases m.inst k with h | g
    · rw [h]
    · exact g.trace e he
  refine ⟨?_, ?_, ?_, ?_, ?_, ?_⟩
  · rw [hst, hn]; exact I.u.fresh
  · rw [hst]; exact fun m h => W.party h
  · intro j k hk
    rw [hst] at hk
    have hA := acked_of_oks hk
    obtain ⟨a1, a2, a3⟩ := (I.inst k).acked hA
    refine ⟨(hsid k).trans a1, (htr k _ (Or.inl rfl)).mpr a2, ?_⟩
    rcases m.inst k with h | g
    · rw [h]; exact a3
    · intro he
      rcases g.err he with h | h
      · exact a3 h
      · exact (I.inst k).acked_pc I.u hA h
  · intro n hs
    obtain ⟨j, a1, a2, a3⟩ := (I.inst n).start ((htr n _ (Or.inr (Or.inl rfl))).mp hs)
    exact ⟨j, (hsid n).trans a1, by rw [hst]; exact a2, by rw [hst]; exact I.ackedClosed a2 a3⟩
  · intro j hj hp1 hp2
    rw [hn] at hj hp2
    rw [hph] at hp1 hp2
    rw [hst] at hp2 ⊢
    have hps : s.c.phase.stage ≠ some j := by
      rcases hp with rfl | ⟨rfl, k, n, hb⟩
      · exact hp1
      · intro e
        rcases hp2 rfl with h | h
        · rcases W.closedPhase h with ⟨n', h'⟩ | ⟨_, h'⟩
          · rw [hb] at h'; cases h'
          · exact h' e
        · have := hr.pinv.last j e
          omega
    obtain ⟨_, hrc⟩ := I.glob.over j hj hps
    refine ⟨hrc, W.overClients hj hps, fun k hk => ?_, fun hl => ?_⟩
    · have := W.overAll hj hps (okNames_who hk)
      exact (htr k _ (Or.inr (Or.inr rfl))).mpr ((I.inst k).done this).2.2.1
    · exact (I.glob.loc j).mp (W.overAll hj hps (I.glob.locOk j (I.u.closed j hrc) hl))
  · intro j hj
    rw [hn]
    rw [hph] at hj
    rcases hp with rfl | ⟨rfl, _⟩
    · exact hr.pinv.last j hj
    · cases hj

end Finch
