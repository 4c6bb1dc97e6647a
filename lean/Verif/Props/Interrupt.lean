import Verif.Props.System
/-!
C126: CTRL-C on the server while a stage runs (compute/server.go:171-191, compute/api.go:95-152, 293-328, 391-405).
-/
namespace Finch

/-! ### The server cannot leave the stage -/

/-- Nobody can acknowledge the end of stage `m` any more: no stage is set in the API, no request is past the check of the
stage and the local instance is done or not there. -/
structure Nobody (s : CSt) (m n : Nat) : Prop where
  phase : s.phase = .run m (n + 1)
  cur : s.cur = none
  empty : (s.st m).doneQ = []
  hs : ∀ i h, s.hs i = some h → h.pc = .start
  loc : (s.st m).hasLocal = true → (s.st m).localDone = true

theorem lookup_none {s : CSt} (hc : s.cur = none) (i : Nat) (h : Handler) :
    s.lookupStep i h = s.finish i 400 ∨ s.lookupStep i h = s.finish i 410 := by
  unfold CSt.lookupStep
  rw [hc]
  split
  · exact Or.inl rfl
  · exact Or.inr rfl

theorem Nobody.step {s s' : CSt} {m n : Nat} (N : Nobody s m n) {a : CAct} (h : s.step a = some s') : Nobody s' m n := by
  cases a with
  | arrive k name sid b =>
    cases h
    refine ⟨N.phase, N.cur, N.empty, ?_, N.loc⟩
    intro i hd e
    by_cases ei : i = s.nH
    · subst ei
      simp only [updAt_same, Option.some.injEq] at e
      rw [← e]
    · simp only [updAt_ne _ _ ei] at e; exact N.hs i hd e
  | handler i lost =>
    simp only [CSt.step] at h
    unfold CSt.hstep at h
    cases hi : s.hs i with
    | none => rw [hi] at h; cases h
    | some hd =>
      rw [hi] at h
      simp only [N.hs i hd hi] at h
      cases h
      have hfin : ∀ code, Nobody (s.finish i code) m n := by
        intro code
        refine ⟨N.phase, N.cur, N.empty, ?_, N.loc⟩
        intro j hd' e
        by_cases ej : j = i
        · subst ej
          simp only [CSt.finish, updAt_same] at e
          cases e
        · simp only [CSt.finish, updAt_ne _ _ ej] at e
          exact N.hs j hd' e
      rcases lookup_none N.cur i hd with e | e <;> rw [e] <;> exact hfin _
  | begin k b c => simp only [CSt.step, CSt.beginStage, N.phase] at h; cases h
  | tick => simp [CSt.step, CSt.tick, N.phase, N.empty] at h
  | ctxDone =>
    simp [CSt.step, N.phase, N.cur] at h
    rw [← h]; exact N
  | localDone k =>
    simp only [CSt.step] at h
    split at h
    · rename_i hk
      cases h
      simp only [Bool.and_eq_true, Bool.not_eq_true'] at hk
      have hkm : m ≠ k := by
        intro e
        subst e
        have := N.loc hk.1.1.1
        rw [hk.1.2] at this
        cases this
      refine ⟨N.phase, N.cur, ?_, N.hs, ?_⟩
      · simp only [CSt.setMeta, updAt_ne _ _ hkm]; exact N.empty
      · simp only [CSt.setMeta, updAt_ne _ _ hkm]; exact N.loc
    · cases h

/-- If the stage was taken away before all instances acknowledged its end and nobody is left who can, the server waits
forever, whatever happens and whatever requests arrive. -/
theorem C126_hangs : ∀ {as : List CAct} {s s' : CSt} {m n : Nat}, s.phase = .run m (n + 1) → s.cur = none →
    (s.st m).doneQ = [] → (∀ i h, s.hs i = some h → h.pc = .start) →
    ((s.st m).hasLocal = true → (s.st m).localDone = true) → CSt.exec s as = some s' → s'.phase = .run m (n + 1)
  | [], s, s', m, n, h1, _, _, _, _, he => by cases he; exact h1
  | a :: as, s, s', m, n, h1, h2, h3, h4, h5, he => by
    unfold CSt.exec at he
    split at he
    · cases he
    rename_i s1 hs1
    have N := Nobody.step ⟨h1, h2, h3, h4, h5⟩ hs1
    exact C126_hangs N.phase N.cur N.empty N.hs N.loc he

/-- Two remote instances, 7 and 8. Both boot, 7 is told to run and CTRL-C is pressed before 8 asks. Then 7 is told to stop and
reports its end, 8 is told not to run. -/
def exInterrupt : List CAct :=
  [.begin 2 false true, .tick] ++
  [.arrive .getBoot 7 0 .empty] ++ hsteps 0 3 ++ [.arrive .getBoot 8 0 .empty] ++ hsteps 1 3 ++
  [.arrive .postBoot 7 1 .empty] ++ hsteps 2 5 ++ [.arrive .postBoot 8 1 .empty] ++ hsteps 3 5 ++
  List.replicate 5 .tick ++
  [.arrive .getRun 7 1 .empty] ++ hsteps 4 6 ++ [.ctxDone] ++
  [.arrive .ping 7 1 .empty] ++ hsteps 5 2 ++ [.arrive .postRun 7 1 .empty] ++ hsteps 6 6 ++
  [.arrive .getRun 8 1 .empty] ++ hsteps 7 4 ++ [.tick, .tick]

/-- CTRL-C on the server does not end it: a stage of two instances is interrupted, both of them are told so (205) and one
reported its end (200); the server waits for the other one, which never ran, for ever. -/
theorem C126_returns_false : ∃ s, CReach s ∧ (s.st 0).nInst = 2 ∧ (s.st 0).done = true ∧ (s.st 0).clients = [] ∧
    s.resp.take 3 = [(7, 205), (6, 200), (5, 205)] ∧
    ∀ as s', CSt.exec s as = some s' → s'.phase = .run 0 1 := by
  have hr : CReach (after exInterrupt) := after_reach (by decide +kernel)
  refine ⟨_, hr, by decide +kernel, by decide +kernel, by decide +kernel, by decide +kernel, fun as s' he => ?_⟩
  refine C126_hangs (n := 0) (by decide +kernel) (by decide +kernel) (by decide +kernel) ?_ ?_ he
  · intro i h e
    have hi : i < (after exInterrupt).nH := hr.uinv.hs i (by rw [e]; simp)
    have hn : (after exInterrupt).nH = 8 := by decide +kernel
    have key : ∀ i, i < 8 → (after exInterrupt).hs i = none := by decide +kernel
    rw [key i (by omega)] at e
    cases e
  · intro h
    have : ((after exInterrupt).st 0).hasLocal = false := by decide +kernel
    rw [this] at h; cases h

example : (after exInterrupt).phase = .run 0 1 ∧ (after exInterrupt).cur = none ∧ ((after exInterrupt).st 0).doneQ = [] ∧
    ((after exInterrupt).st 0).hasLocal = false := by
  decide +kernel

/-! ### What the instances are told -/

/-- The state right after CTRL-C in `exInterrupt`: 7 is running, 8 is not yet. -/
def exStopping : CSt := after (exInterrupt.take 35)

example : exStopping.phase = .stopping 0 0 2 ∧ exStopping.cur = some 0 ∧ (exStopping.st 0).done = true ∧
    (exStopping.st 0).runClosed = true ∧
    cget 7 (exStopping.st 0).clients = some 0 ∧ (exStopping.objs 0).stage = 0 ∧ (exStopping.objs 0).state = .running ∧
    cget 8 (exStopping.st 0).clients = some 1 ∧ (exStopping.objs 1).stage = 0 ∧ (exStopping.objs 1).state = .runnable := by
  decide +kernel

/-- While the server stops a stage, its clients are told to stop at the next ping, with whatever stage id. -/
theorem C126_ping {s : CSt} {m k o sid : Nat} (hcur : s.cur = some m) (hd : (s.st m).done = true)
    (hc : cget k (s.st m).clients = some o) (hs : (s.objs o).stage = m) :
    ∃ s', CSt.exec s [.arrive .ping k sid .empty, .handler s.nH false, .handler s.nH false] = some s' ∧
      s'.resp = (s.nH, 205) :: s.resp ∧ s'.hs s.nH = none ∧ s'.st = s.st ∧ s'.phase = s.phase := by
  simp [CSt.exec, CSt.step, CSt.hstep, CSt.lookupStep, CSt.checkStep, CSt.finish, updAt_same, hcur, hd, hc, hs]

/-- The instance stops its stage then. -/
theorem C126_ping_cancels {P : SysCfg} {s : Sys} {n i : Nat} (hp : (s.r n).rs.ping = .ask) (hq : (s.r n).preq = some i)
    (hh : s.c.hs i = none) (hr : s.c.resp.lookup i = some 205) :
    ∃ s', s.step P (.pingRecv n) = some s' ∧ (s'.r n).rs.cancelled = true ∧ REv.cancel ∈ (s'.r n).rs.trace ∧
      s'.c = s.c := by
  simp [Sys.step, hq, hh, hr, respResult, updAt_same, RemSt.pingStep, hp, RemSt.log]

/-- An instance that runs stage 0 pings after CTRL-C on the server. -/
def exPinged : List YAct := exStarted ++ [.srv .ctxDone, .pingWait 0, .pingSend 0] ++ hs 4 2

example : ((sysAfter exP exPinged).r 0).rs.ping = .ask ∧ ((sysAfter exP exPinged).r 0).preq = some 4 ∧
    (sysAfter exP exPinged).c.hs 4 = none ∧ (sysAfter exP exPinged).c.resp.lookup 4 = some 205 ∧
    ((sysAfter exP exPinged).r 0).rs.cancelled = false := by
  decide +kernel

/-- A client that asks to run after the interrupt is told not to, and leaves the stage without an acknowledgement. -/
theorem C126_run {s : CSt} {m k o sid : Nat} (hcur : s.cur = some m) (hd : (s.st m).done = true)
    (hrc : (s.st m).runClosed = true)
    (hc : cget k (s.st m).clients = some o) (hs : (s.objs o).stage = m) (hst : (s.objs o).state = .runnable) :
    ∃ s', CSt.exec s (.arrive .getRun k sid .empty :: hsteps s.nH 4) = some s' ∧
      s'.resp = (s.nH, 205) :: s.resp ∧ s'.hs s.nH = none ∧ cget k (s'.st m).clients = none ∧
      (s'.st m).doneQ = (s.st m).doneQ ∧ s'.phase = s.phase := by
  simp [CSt.exec, CSt.step, CSt.hstep, CSt.lookupStep, CSt.checkStep, CSt.finish, CSt.goto, CSt.setMeta, updAt_same,
    hsteps, List.replicate, hcur, hd, hc, hs, hst, hrc, cget_cdel_same]

/-! ### Leaving the stage -/

theorem updAt_twice {α : Type} (f : Nat → α) (k : Nat) (v w : α) : updAt (updAt f k v) k w = updAt f k w := by
  funext x
  by_cases e : x = k
  · subst e; simp only [updAt_same]
  · simp only [updAt_ne _ _ e]

/-- POST /run of a running client is accepted. -/
theorem post_run {s : CSt} {m k o : Nat} (hcur : s.cur = some m) (hd : (s.st m).done = true)
    (hc : cget k (s.st m).clients = some o) (hs : (s.objs o).stage = m) (hst : (s.objs o).state = .running)
    (hlen : (s.st m).doneQ.length < (s.st m).nInst) :
    ∃ s', CSt.exec s (.arrive .postRun k (m + 1) .empty :: hsteps s.nH 6) = some s' ∧
      s'.resp = (s.nH, 200) :: s.resp ∧ s'.phase = s.phase ∧ s'.cur = s.cur ∧
      s'.st = updAt s.st m { s.st m with
        clients := cdel k (s.st m).clients, doneQ := (s.st m).doneQ ++ [⟨some k, true⟩] } ∧
      s'.objs = updAt s.objs o { s.objs o with state := .ready } := by
  simp [CSt.exec, CSt.step, CSt.hstep, CSt.lookupStep, CSt.checkStep, CSt.finish, CSt.goto, CSt.setMeta, CSt.setState,
    updAt_same, hsteps, List.replicate, hcur, hd, hc, hs, hst, hlen, updAt_twice]

/-- The local instance is still running. -/
def SMeta.locs (x : SMeta) : Nat := if x.hasLocal && !x.localDone then 1 else 0

/-- The server stops stage `m`; all its clients are running. -/
structure SrvStopping (s : CSt) (m n : Nat) : Prop where
  phase : s.phase = .stopping m m n
  cur : s.cur = some m
  done : (s.st m).done = true
  closed : (s.st m).runClosed = true
  keys : ((s.st m).clients.map (·.1)).Nodup
  obj : ∀ k o, cget k (s.st m).clients = some o → (s.objs o).stage = m ∧ (s.objs o).state = .running ∧ (s.objs o).name = k
  count : n = (s.st m).doneQ.length + (s.st m).clients.length + (s.st m).locs
  le : n ≤ (s.st m).nInst

/-- The requests in a sequence of steps. -/
def arrivals : List CAct → List (ReqKind × Nat × Nat × HBody)
  | [] => []
  | .arrive k n sid b :: as => (k, n, sid, b) :: arrivals as
  | _ :: as => arrivals as

theorem arrivals_append : ∀ a b : List CAct, arrivals (a ++ b) = arrivals a ++ arrivals b
  | [], b => rfl
  | a :: as, b => by cases a <;> simp [arrivals, arrivals_append as b]

theorem arrivals_hsteps (i : Nat) : ∀ n, arrivals (hsteps i n) = []
  | 0 => rfl
  | n + 1 => by
    have := arrivals_hsteps i n
    simp only [hsteps, List.replicate_succ, arrivals] at this ⊢
    exact this

theorem arrivals_ticks : ∀ n, arrivals (List.replicate n CAct.tick) = []
  | 0 => rfl
  | n + 1 => by simp only [List.replicate_succ, arrivals]; exact arrivals_ticks n

theorem CSt.exec_append' : ∀ (as bs : List CAct) (s s1 : CSt), CSt.exec s as = some s1 → CSt.exec s (as ++ bs) = CSt.exec s1 bs
  | [], bs, s, s1, h => by cases h; rfl
  | a :: as, bs, s, s1, h => by
    simp only [List.cons_append, CSt.exec] at h ⊢
    cases hs : s.step a with
    | none => rw [hs] at h; cases h
    | some s2 => rw [hs] at h; exact CSt.exec_append' as bs s2 s1 h

/-- Each client reports its end. -/
theorem SrvStopping.drain : ∀ (l : List (Nat × Nat)) {s : CSt} {m n : Nat}, SrvStopping s m n → (s.st m).clients = l →
    ∃ as s', arrivals as = l.map (fun e => (ReqKind.postRun, e.1, m + 1, HBody.empty)) ∧ CSt.exec s as = some s' ∧
      SrvStopping s' m n ∧ (s'.st m).clients = []
  | [], s, m, n, S, hl => ⟨[], s, rfl, rfl, S, hl⟩
  | (k, o) :: l, s, m, n, S, hl => by
    have hc : cget k (s.st m).clients = some o := by rw [hl]; simp [cget]
    obtain ⟨h1, h2, h3⟩ := S.obj k o hc
    have hlen : (s.st m).doneQ.length < (s.st m).nInst := by
      have := S.count
      have := S.le
      have : 0 < (s.st m).clients.length := by rw [hl]; exact Nat.succ_pos _
      omega
    obtain ⟨s1, e1, _, e3, e4, e5, e6⟩ := post_run S.cur S.done hc h1 h2 hlen
    have hk : k ∉ l.map (·.1) := by
      have := S.keys
      rw [hl] at this
      exact (List.nodup_cons.mp this).1
    have hdel : cdel k (s.st m).clients = l := by
      rw [hl]
      unfold cdel
      rw [List.filter_cons_of_neg (by simp), List.filter_eq_self]
      intro e he
      simp only [bne_iff_ne, ne_eq]
      intro ek
      exact hk (ek ▸ List.mem_map.mpr ⟨e, he, rfl⟩)
    have hst1 : s1.st m = { s.st m with clients := l, doneQ := (s.st m).doneQ ++ [⟨some k, true⟩] } := by
      rw [e5, updAt_same, hdel]
    have S1 : SrvStopping s1 m n := by
      refine ⟨e3.trans S.phase, e4.trans S.cur, ?_, ?_, ?_, ?_, ?_, ?_⟩
      · rw [hst1]; exact S.done
      · rw [hst1]; exact S.closed
      · rw [hst1]
        have := S.keys
        rw [hl] at this
        exact (List.nodup_cons.mp this).2
      · intro k' o' hc'
        have hne : k' ≠ k := by
          intro e
          subst e
          have := cget_key hc'
          rw [hst1] at this
          exact hk this
        have hc2 : cget k' (s.st m).clients = some o' := by
          rw [← hc', hst1, ← hdel, cget_cdel_ne hne]
        obtain ⟨g1, g2, g3⟩ := S.obj k' o' hc2
        have ho : o' ≠ o := by
          intro e
          subst e
          exact hne (g3.symm.trans h3)
        rw [e6, updAt_ne _ _ ho]
        exact ⟨g1, g2, g3⟩
      · rw [hst1]
        have := S.count
        rw [hl] at this
        simp only [SMeta.locs, List.length_append, List.length_cons, List.length_nil] at this ⊢
        omega
      · rw [hst1]; exact S.le
    obtain ⟨as, s', f1, f2, f3, f4⟩ := SrvStopping.drain l S1 (by rw [hst1])
    refine ⟨.arrive .postRun k (m + 1) .empty :: hsteps s.nH 6 ++ as, s', ?_, ?_, f3, f4⟩
    · rw [arrivals_append, f1]
      simp only [arrivals, arrivals_hsteps, List.map_cons, List.cons_append, List.nil_append]
    · rw [CSt.exec_append' _ _ _ _ e1]; exact f2

/-- The server counts the acknowledgements. -/
theorem count_down : ∀ (q : List BAck) {s : CSt} {m : Nat}, s.phase = .run m q.length → (s.st m).doneQ = q →
    ∃ s', CSt.exec s (List.replicate (q.length + 1) .tick) = some s' ∧ s'.phase = .idle ∧ s'.cur = s.cur
  | [], s, m, hp, hq => by
    refine ⟨{ s with phase := .idle }, ?_, rfl, rfl⟩
    simp [CSt.exec, CSt.step, CSt.tick, hp]
  | a :: q, s, m, hp, hq => by
    have h1 : s.step .tick = some { s.setMeta m { s.st m with doneQ := q } with phase := .run m q.length } := by
      simp [CSt.step, CSt.tick, hp, hq]
    obtain ⟨s', e1, e2, e3⟩ := count_down q
      (s := { s.setMeta m { s.st m with doneQ := q } with phase := .run m q.length }) (m := m) rfl
      (by simp [CSt.setMeta, updAt_same])
    refine ⟨s', ?_, e2, e3⟩
    rw [List.length_cons, List.replicate_succ]
    simp only [CSt.exec, h1]
    exact e1

theorem SrvStopping.leave {s : CSt} {m n : Nat} (S : SrvStopping s m n) :
    ∃ as s', arrivals as = (s.st m).clients.map (fun e => (ReqKind.postRun, e.1, m + 1, HBody.empty)) ∧
      CSt.exec s as = some s' ∧ s'.phase = .idle ∧ s'.cur = none := by
  obtain ⟨as, s1, f1, f2, S1, f4⟩ := S.drain _ rfl
  have h1 : s1.step .tick = some { s1 with cur := none, phase := .run m n } := by
    simp [CSt.step, CSt.tick, S1.phase, f4]
  have hcount := S1.count
  rw [f4] at hcount
  by_cases hl : ((s1.st m).hasLocal && !(s1.st m).localDone) = true
  · have hloc : (s1.st m).locs = 1 := by unfold SMeta.locs; rw [if_pos hl]
    rw [hloc] at hcount
    simp only [List.length_nil] at hcount
    have hlt : (s1.st m).doneQ.length < (s1.st m).nInst := by have := S1.le; omega
    simp only [Bool.and_eq_true, Bool.not_eq_true'] at hl
    let s2 : CSt := { s1 with cur := none, phase := .run m n }
    let s3 : CSt := s2.setMeta m { s1.st m with doneQ := (s1.st m).doneQ ++ [⟨none, true⟩], localDone := true }
    have h2 : s2.step (.localDone m) = some s3 := by
      simp [CSt.step, s2, s3, hl.1, hl.2, S1.closed, hlt]
    obtain ⟨s4, e1, e2, e3⟩ := count_down ((s1.st m).doneQ ++ [⟨none, true⟩]) (s := s3) (m := m)
      (by simp [s3, s2, CSt.setMeta, hcount]) (by simp [s3, CSt.setMeta, updAt_same])
    refine ⟨as ++ (.tick :: .localDone m :: List.replicate ((s1.st m).doneQ.length + 1 + 1) .tick), s4, ?_, ?_, e2, e3⟩
    · rw [arrivals_append, f1]; simp [arrivals, arrivals_ticks]
    · rw [CSt.exec_append' _ _ _ _ f2]
      simp only [CSt.exec, h1]
      show (match s2.step (.localDone m) with | none => none | some s' => CSt.exec s' _) = _
      rw [h2]
      rw [List.length_append] at e1
      exact e1
  · have hloc : (s1.st m).locs = 0 := by unfold SMeta.locs; rw [if_neg hl]
    rw [hloc] at hcount
    simp only [List.length_nil] at hcount
    obtain ⟨s4, e1, e2, e3⟩ := count_down (s1.st m).doneQ (s := { s1 with cur := none, phase := .run m n }) (m := m)
      (by simp [hcount]) rfl
    refine ⟨as ++ (.tick :: List.replicate ((s1.st m).doneQ.length + 1) .tick), s4, ?_, ?_, e2, e3⟩
    · rw [arrivals_append, f1]; simp [arrivals, arrivals_ticks]
    · rw [CSt.exec_append' _ _ _ _ f2]
      simp only [CSt.exec, h1]
      exact e1

/-- If CTRL-C is pressed on the server when all the instances that did not yet report the end of the stage are running it, then
the server can leave the stage when each of them reports, which is accepted although the stage is over. Missing: instances
that did not begin to run it, see `C126_returns_false`. -/
theorem C126_leaves_partial {P : SysCfg} {s : Sys} (h : Sys.Reach P s) {m n : Nat} (hp : s.c.phase = .run m n) (hn : n ≠ 0)
    (hcur : s.c.cur = some m)
    (hrun : ∀ k o, cget k (s.c.st m).clients = some o → (s.c.objs o).state = .running)
    (hsend : ∀ i hd, s.c.hs i = some hd → hd.pc ≠ .sendDone) :
    ∃ as c', arrivals as = (s.c.st m).clients.map (fun e => (ReqKind.postRun, e.1, m + 1, HBody.empty)) ∧
      CSt.exec s.c (.ctxDone :: as) = some c' ∧ c'.phase = .idle ∧ c'.cur = none := by
  have I := h.inv
  have p := h.pinv
  obtain ⟨r1, r2, r3⟩ := I.glob.run m n hp
  have hb := I.u.closed m r2
  let c1 : CSt := { s.c.setMeta m { s.c.st m with done := true } with phase := .stopping m m n }
  have h1 : s.c.step .ctxDone = some c1 := by
    simp [CSt.step, hp, hn, hcur, c1]
  have hst : c1.st m = { s.c.st m with done := true } := updAt_same _ _ _
  have hkeys := p.keys m
  have hall : ((s.c.st m).oks.map (·.who)).length = (s.c.st m).nInst := by
    rw [List.length_map]; exact I.u.booted m hb
  have hloc : (if ((s.c.st m).hasLocal && !(s.c.st m).localDone) = true then [(none : Option Nat)] else []).length =
      (s.c.st m).locs := by
    unfold SMeta.locs
    split <;> rfl
  have hperm : (s.dones m ++ (s.c.st m).clients.map (fun e : Nat × Nat => some e.1) ++
      (if ((s.c.st m).hasLocal && !(s.c.st m).localDone) = true then [none] else [])).Perm
      ((s.c.st m).oks.map BAck.who) := by
    refine (List.perm_ext_iff_of_nodup ?_ (I.whoNodup m)).mpr ?_
    · rw [List.nodup_append, List.nodup_append]
      refine ⟨⟨I.glob.nodup m, ?_, ?_⟩, ?_, ?_⟩
      · have : (s.c.st m).clients.map (fun e : Nat × Nat => some e.1) = ((s.c.st m).clients.map (·.1)).map some := by
          rw [List.map_map]; rfl
        rw [this]
        exact List.Pairwise.map some (fun a b hab e => hab (Option.some.inj e)) hkeys
      · intro a ha b hb' e
        subst e
        obtain ⟨x, hx, rfl⟩ := List.mem_map.mp hb'
        obtain ⟨o, ho⟩ := key_cget (List.mem_map.mpr ⟨x, hx, rfl⟩)
        have := ((I.inst x.1).done m ha).1 m
        rw [this] at ho
        cases ho
      · split
        · exact List.nodup_cons.mpr ⟨List.not_mem_nil, List.nodup_nil⟩
        · exact List.nodup_nil
      · intro a ha b hb' e
        subst e
        split at hb'
        · rename_i hl
          have := List.mem_singleton.mp hb'
          subst this
          simp only [Bool.and_eq_true, Bool.not_eq_true'] at hl
          rcases List.mem_append.mp ha with ha | ha
          · rw [(I.glob.loc m).mp ha] at hl
            exact absurd hl.2 (by simp)
          · obtain ⟨x, _, hx⟩ := List.mem_map.mp ha
            cases hx
        · cases hb'
    · intro w
      rw [List.mem_append, List.mem_append]
      constructor
      · rintro ((hw | hw) | hw)
        · exact I.glob.mem m w hw
        · obtain ⟨x, hx, rfl⟩ := List.mem_map.mp hw
          obtain ⟨o, ho⟩ := key_cget (List.mem_map.mpr ⟨x, hx, rfl⟩)
          exact okNames_who (I.glob.full m hb x.1 o ho)
        · split at hw
          · rename_i hl
            have := List.mem_singleton.mp hw
            subst this
            simp only [Bool.and_eq_true] at hl
            exact I.glob.locOk m hb hl.1
          · cases hw
      · intro hw
        cases w with
        | none =>
          have hl : (s.c.st m).hasLocal = true := by
            cases hl : (s.c.st m).hasLocal with
            | true => rfl
            | false =>
              exfalso
              have h0 := I.u.loc m
              rw [hl, if_neg (by simp), nLocal_append] at h0
              obtain ⟨a, ha, hb'⟩ := List.mem_map.mp hw
              have : 0 < nLocal (s.c.st m).oks := by
                unfold nLocal
                exact List.countP_pos_iff.mpr ⟨a, ha, by simp [hb']⟩
              omega
          cases hd : (s.c.st m).localDone with
          | true => exact Or.inl (Or.inl ((I.glob.loc m).mpr hd))
          | false => exact Or.inr (by simp [hl])
        | some k =>
          have hk := who_okNames (I.u.oks m) hw
          have ha : Acked s.c m k := by
            unfold Acked
            rw [okNames_append]
            exact List.mem_append.mpr (Or.inl hk)
          obtain ⟨_, _, _, h5⟩ := (I.inst k).acked m ha
          rcases h5 with h5 | ⟨o, h5, h6⟩ | ⟨o, h5, _⟩ | ⟨i, hd, _, h6, _, h8⟩
          · exact Or.inl (Or.inl h5)
          · rw [hrun k o h5] at h6; cases h6
          · obtain ⟨x, hx, e⟩ := List.mem_map.mp (cget_key h5)
            exact Or.inl (Or.inr (List.mem_map.mpr ⟨x, hx, by rw [← e]⟩))
          · exact absurd h8 (hsend i hd h6)
  have hcount := hperm.length_eq
  rw [List.length_append, List.length_append, hloc, hall, List.length_map] at hcount
  have S : SrvStopping c1 m n := by
    refine ⟨rfl, hcur, ?_, ?_, ?_, ?_, ?_, ?_⟩
    · rw [hst]
    · rw [hst]; exact r2
    · rw [hst]; exact hkeys
    · intro k o hc
      rw [hst] at hc
      have ob := I.v.obj m k o hc
      exact ⟨ob.stage, hrun k o hc, ob.name⟩
    · rw [hst]
      show n = (s.c.st m).doneQ.length + (s.c.st m).clients.length + (s.c.st m).locs
      omega
    · rw [hst]; exact r1
  obtain ⟨as, c', e1, e2, e3, e4⟩ := S.leave
  rw [hst] at e1
  refine ⟨as, c', e1, ?_, e3, e4⟩
  simp only [CSt.exec, h1]
  exact e2

example : Sys.Reach exP (sysAfter exP exStarted) ∧ (sysAfter exP exStarted).c.phase = .run 0 2 ∧
    (sysAfter exP exStarted).c.cur = some 0 ∧ ((sysAfter exP exStarted).c.st 0).clients = [(0, 0)] ∧
    ((sysAfter exP exStarted).c.objs 0).state = .running ∧ (sysAfter exP exStarted).c.nH = 4 ∧
    ∀ i, i < 4 → (sysAfter exP exStarted).c.hs i = none :=
  ⟨sysAfter_reach (by decide +kernel) (by decide +kernel), by decide +kernel, by decide +kernel, by decide +kernel,
    by decide +kernel, by decide +kernel, by decide +kernel⟩

end Finch
