import Verif.Props.ComputeBase
/-!
The server of distributed runs when no instance has two requests in flight: invariant (for C51, C53, C54).
-/
namespace Finch

/-- Requests that must not overlap: those that change the state of the instance and, if `w`, statistics. -/
def ReqKind.tracked (w : Bool) : ReqKind → Bool
  | .getBoot => true
  | .postBoot => true
  | .getRun => true
  | .postRun => true
  | .stats => w
  | _ => false

/-- A request arrives only when no other tracked request with the same name is being handled. -/
def serialOk (w : Bool) (s : CSt) : CAct → Prop
  | .arrive k name _ _ => k.tracked w = true →
      ∀ i h, s.hs i = some h → h.kind.tracked w = true → h.name ≠ name
  | _ => True

/-- States that can be reached without overlapping requests. -/
inductive SReach (w : Bool) : CSt → Prop
  | init (test : Bool) : SReach w { test := test }
  | step {s s' : CSt} {a : CAct} : SReach w s → serialOk w s a → s.step a = some s' → SReach w s'

theorem SReach.reach {w : Bool} {s : CSt} (h : SReach w s) : CReach s := by
  induction h with
  | init test => exact .init test
  | step _ _ h ih => exact .step ih h

/-- The object is in the clients of its stage. -/
def InC (s : CSt) (o : Nat) : Prop := cget (s.objs o).name (s.st (s.objs o).stage).clients = some o

/-- No stage has a client of this name. -/
def NoC (s : CSt) (n : Nat) : Prop := ∀ m, cget n (s.st m).clients = none

/-- What holds for a handler at each place. -/
def pcOk (w : Bool) (s : CSt) (h : Handler) : Prop :=
  match h.pc, h.kind with
  | .start, _ => True
  | .check, .getBoot => InC s h.obj ∨ ((s.objs h.obj).state = .ready ∧ NoC s h.name)
  | .join, .getBoot => (s.objs h.obj).state = .ready ∧ NoC s h.name
  | .check, .postBoot => InC s h.obj
  | .body, .postBoot => InC s h.obj ∧ (s.objs h.obj).state = .booting
  | .setRunnable, .postBoot => InC s h.obj ∧ (s.objs h.obj).state = .booting ∧ h.body = .empty
  | .sendBoot, .postBoot => InC s h.obj ∧
      (h.body = .error ∧ (s.objs h.obj).state = .booting ∨ h.body = .empty ∧ (s.objs h.obj).state = .runnable)
  | .check, .getRun => InC s h.obj
  | .waitRun, .getRun => InC s h.obj ∧ (s.objs h.obj).state = .runnable
  | .afterRun, .getRun => InC s h.obj ∧ (s.objs h.obj).state = .runnable ∧
      (s.st (s.objs h.obj).stage).runClosed = true
  | .write, .getRun => InC s h.obj ∧ (s.objs h.obj).state = .runnable ∧
      (s.st (s.objs h.obj).stage).runClosed = true
  | .setRunning, .getRun => InC s h.obj ∧ (s.objs h.obj).state = .runnable ∧
      (s.st (s.objs h.obj).stage).runClosed = true
  | .check, .postRun => InC s h.obj
  | .body, .postRun => InC s h.obj ∧ (s.objs h.obj).state = .running
  | .del, .postRun => InC s h.obj ∧ (s.objs h.obj).state = .running
  | .sendDone, .postRun => (s.objs h.obj).state = .running ∧ NoC s h.name
  | .setReady, .postRun => (s.objs h.obj).state = .running ∧ NoC s h.name
  | .check, .stats => w = true → InC s h.obj
  | .recv, .stats => w = true → InC s h.obj ∧ (s.objs h.obj).state = .running
  | .check, .file => True
  | .check, .ping => True
  | _, _ => False

/-- Names of the instances of the successful acks. -/
def okNames (l : List BAck) : List Nat := l.filterMap fun a => if a.ok then a.who else none

theorem okNames_append (a b : List BAck) : okNames (a ++ b) = okNames a ++ okNames b := by
  simp [okNames, List.filterMap_append]

/-- The acks of a stage that was not released. -/
structure AckOk (s : CSt) (m : Nat) : Prop where
  nodup : (okNames ((s.st m).oks ++ (s.st m).bootQ)).Nodup
  member : ∀ n ∈ okNames ((s.st m).oks ++ (s.st m).bootQ),
    ∃ o, cget n (s.st m).clients = some o ∧ (s.objs o).state = .runnable
  pending : ∀ i h, s.hs i = some h → h.kind = .postBoot → h.pc = .sendBoot → h.body = .empty →
    (s.objs h.obj).stage = m → h.name ∉ okNames ((s.st m).oks ++ (s.st m).bootQ)

/-- What holds for an object in the clients of a stage. -/
structure ObjOk (s : CSt) (m n o : Nat) : Prop where
  lt : o < s.nObj
  name : (s.objs o).name = n
  stage : (s.objs o).stage = m
  state : (s.objs o).state ≠ .ready
  running : (s.objs o).state = .running → (s.st m).runClosed = true

structure SInv (w : Bool) (s : CSt) : Prop where
  obj : ∀ m n o, cget n (s.st m).clients = some o → ObjOk s m n o
  hobj : ∀ i h, s.hs i = some h → h.kind.tracked w = true → h.pc ≠ .start →
    h.obj < s.nObj ∧ (s.objs h.obj).name = h.name
  pc : ∀ i h, s.hs i = some h → pcOk w s h
  serial : ∀ i j h h', s.hs i = some h → s.hs j = some h' → h.kind.tracked w = true → h'.kind.tracked w = true →
    h.name = h'.name → i = j
  ack : ∀ m, (s.st m).runClosed = false → AckOk s m
  dist : ∀ m, (okNames (s.st m).oks).Nodup

/-- Only what belongs to the name `n` changed. -/
structure NFrame (n : Nat) (s s' : CSt) : Prop where
  objs : ∀ o, o < s.nObj → (s.objs o).name ≠ n → s'.objs o = s.objs o
  nObj : s.nObj ≤ s'.nObj
  cl : ∀ m k, k ≠ n → cget k (s'.st m).clients = cget k (s.st m).clients
  rc : ∀ m, (s.st m).runClosed = true → (s'.st m).runClosed = true

theorem InC.frame {n : Nat} {s s' : CSt} (f : NFrame n s s') {o : Nat} (ho : o < s.nObj)
    (hn : (s.objs o).name ≠ n) (h : InC s o) : InC s' o := by
  unfold InC at h ⊢
  rw [f.objs o ho hn, f.cl _ _ hn]; exact h

theorem NoC.frame {n k : Nat} {s s' : CSt} (f : NFrame n s s') (hk : k ≠ n) (h : NoC s k) : NoC s' k := by
  intro m; rw [f.cl m k hk]; exact h m

theorem pcOk.frame {w : Bool} {n : Nat} {s s' : CSt} (f : NFrame n s s') {h : Handler}
    (ho : h.kind.tracked w = true → h.pc ≠ .start → h.obj < s.nObj ∧ (s.objs h.obj).name = h.name)
    (hn : h.kind.tracked w = true → h.name ≠ n)
    (hp : pcOk w s h) : pcOk w s' h := by
  cases w with
  | true =>
    unfold pcOk at hp ⊢
    cases hk : h.kind <;> cases hpc : h.pc <;> rw [hk, hpc] at hp <;> simp only [] at hp ⊢ <;>
      simp only [hk, hpc, ReqKind.tracked, ne_eq, reduceCtorEq, not_false_eq_true, forall_const] at ho hn
    all_goals try
      obtain ⟨h1, h2⟩ := ho
      have hne : (s.objs h.obj).name ≠ n := by rw [h2]; exact hn
      have e := f.objs _ h1 hne
      have hI : InC s h.obj → InC s' h.obj := fun x => x.frame f h1 hne
      have hN : NoC s h.name → NoC s' h.name := fun x => x.frame f hn
      have hR := f.rc (s.objs h.obj).stage
      try rw [e]
    · exact hp.imp hI (fun x => ⟨x.1, hN x.2⟩)
    · exact ⟨hp.1, hN hp.2⟩
    · exact hI hp
    · exact ⟨hI hp.1, hp.2⟩
    · exact ⟨hI hp.1, hp.2⟩
    · exact ⟨hI hp.1, hp.2⟩
    · exact hI hp
    · exact ⟨hI hp.1, hp.2⟩
    · exact ⟨hI hp.1, hp.2.1, hR hp.2.2⟩
    · exact ⟨hI hp.1, hp.2.1, hR hp.2.2⟩
    · exact ⟨hI hp.1, hp.2.1, hR hp.2.2⟩
    · exact hI hp
    · exact ⟨hI hp.1, hp.2⟩
    · exact ⟨hI hp.1, hp.2⟩
    · exact ⟨hp.1, hN hp.2⟩
    · exact ⟨hp.1, hN hp.2⟩
    · exact fun _ => hI (hp trivial)
    · exact fun _ => ⟨hI (hp trivial).1, (hp trivial).2⟩
  | false =>
    unfold pcOk at hp ⊢
    cases hk : h.kind <;> cases hpc : h.pc <;> rw [hk, hpc] at hp <;> simp only [] at hp ⊢ <;>
      simp only [hk, hpc, ReqKind.tracked, ne_eq, reduceCtorEq, not_false_eq_true, forall_const] at ho hn
    all_goals try
      obtain ⟨h1, h2⟩ := ho
      have hne : (s.objs h.obj).name ≠ n := by rw [h2]; exact hn
      have e := f.objs _ h1 hne
      have hI : InC s h.obj → InC s' h.obj := fun x => x.frame f h1 hne
      have hN : NoC s h.name → NoC s' h.name := fun x => x.frame f hn
      have hR := f.rc (s.objs h.obj).stage
      try rw [e]
    · exact hp.imp hI (fun x => ⟨x.1, hN x.2⟩)
    · exact ⟨hp.1, hN hp.2⟩
    · exact hI hp
    · exact ⟨hI hp.1, hp.2⟩
    · exact ⟨hI hp.1, hp.2⟩
    · exact ⟨hI hp.1, hp.2⟩
    · exact hI hp
    · exact ⟨hI hp.1, hp.2⟩
    · exact ⟨hI hp.1, hp.2.1, hR hp.2.2⟩
    · exact ⟨hI hp.1, hp.2.1, hR hp.2.2⟩
    · exact ⟨hI hp.1, hp.2.1, hR hp.2.2⟩
    · exact hI hp
    · exact ⟨hI hp.1, hp.2⟩
    · exact ⟨hI hp.1, hp.2⟩
    · exact ⟨hp.1, hN hp.2⟩
    · exact ⟨hp.1, hN hp.2⟩
    · exact fun h => by cases h
    · exact fun h => by cases h

theorem SInv.init (w test : Bool) : SInv w { test := test } := by
  refine ⟨?_, ?_, ?_, ?_, ?_, ?_⟩
  · intro m n o h; cases h
  · intro i h e; cases e
  · intro i h e; cases e
  · intro i j h h' e; cases e
  · intro m _
    refine ⟨List.nodup_nil, ?_, ?_⟩
    · intro n h; cases h
    · intro i h e; cases e
  · intro m; exact List.nodup_nil

/-- The place of a name: all clients belong to the current stage. -/
theorem UInv.uniq {s : CSt} (u : UInv s) {m m' n n' o o' : Nat} (h : cget n (s.st m).clients = some o)
    (h' : cget n' (s.st m').clients = some o') : m = m' := by
  have hc : ∀ k n o, cget n (s.st k).clients = some o → s.cur = some k := by
    intro k n o hk
    by_contra hcon
    rw [u.only k hcon] at hk
    cases hk
  have h1 := hc _ _ _ h
  rw [hc _ _ _ h'] at h1
  exact (Option.some.inj h1).symm

theorem UInv.inC_uniq {s : CSt} (u : UInv s) {m n o o' : Nat} (h : InC s o) (hn : (s.objs o).name = n)
    (h' : cget n (s.st m).clients = some o') : m = (s.objs o).stage ∧ o' = o := by
  unfold InC at h
  rw [hn] at h
  have := u.uniq h' h
  subst this
  rw [h] at h'
  exact ⟨rfl, (Option.some.inj h').symm⟩

/-- A step that changes neither objects nor stages. -/
theorem SInv.same {w : Bool} {s s' : CSt} (v : SInv w s) {i : Nat} {h : Handler} (hi : s.hs i = some h)
    (h0 : Option Handler) (hhs : s'.hs = updAt s.hs i h0) (hst : s'.st = s.st) (hob : s'.objs = s.objs)
    (hn : s'.nObj = s.nObj)
    (hk : ∀ h', h0 = some h' → h'.kind = h.kind ∧ h'.name = h.name ∧ pcOk w s h' ∧
      (h.kind.tracked w = true → h'.pc ≠ .start → h'.obj < s.nObj ∧ (s.objs h'.obj).name = h.name))
    (hown : ∀ h', h0 = some h' → h'.kind = .postBoot → h'.pc = .sendBoot → h'.body = .empty →
      ∀ m, (s.objs h'.obj).stage = m → (s.st m).runClosed = false →
        h'.name ∉ okNames ((s.st m).oks ++ (s.st m).bootQ)) : SInv w s' := by
  have hpc : ∀ h', pcOk w s h' → pcOk w s' h' := by
    intro h' hp
    unfold pcOk InC NoC at hp ⊢
    rw [hst, hob]; exact hp
  have hsj : ∀ j h', s'.hs j = some h' → (j = i ∧ h0 = some h') ∨ (j ≠ i ∧ s.hs j = some h') := by
    intro j h' hj
    rw [hhs] at hj
    by_cases hji : j = i
    · subst hji; rw [updAt_same] at hj; exact Or.inl ⟨rfl, hj⟩
    · rw [updAt_ne _ _ hji] at hj; exact Or.inr ⟨hji, hj⟩
  refine ⟨?_, ?_, ?_, ?_, ?_, ?_⟩
  · intro m n o ho
    rw [hst] at ho
    have := v.obj m n o ho
    exact ⟨by rw [hn]; exact this.lt, by rw [hob]; exact this.name, by rw [hob]; exact this.stage,
      by rw [hob]; exact this.state, by rw [hob, hst]; exact this.running⟩
  · intro j h' hj ht hs
    rw [hn, hob]
    rcases hsj j h' hj with ⟨_, e⟩ | ⟨_, e⟩
    · obtain ⟨k1, k2, _, k3⟩ := hk h' e
      rw [k1] at ht
      rw [k2]
      exact k3 ht hs
    · exact v.hobj j h' e ht hs
  · intro j h' hj
    rcases hsj j h' hj with ⟨_, e⟩ | ⟨_, e⟩
    · exact hpc _ (hk h' e).2.2.1
    · exact hpc _ (v.pc j h' e)
  · intro j k h1 h2 hj hk' t1 t2 hnm
    rcases hsj j h1 hj with ⟨ej, e⟩ | ⟨ej, e⟩ <;> rcases hsj k h2 hk' with ⟨ek, e'⟩ | ⟨ek, e'⟩
    · rw [ej, ek]
    · obtain ⟨k1, k2, _⟩ := hk h1 e
      rw [ej]
      exact v.serial i k h h2 hi e' (by rw [← k1]; exact t1) t2 (by rw [← k2]; exact hnm)
    · obtain ⟨k1, k2, _⟩ := hk h2 e'
      rw [ek]
      exact v.serial j i h1 h e hi t1 (by rw [← k1]; exact t2) (by rw [← k2]; exact hnm)
    · exact v.serial j k h1 h2 e e' t1 t2 hnm
  · intro m hm
    rw [hst] at hm
    have a := v.ack m hm
    refine ⟨by rw [hst]; exact a.nodup, by rw [hst, hob]; exact a.member, ?_⟩
    intro j h' hj p1 p2 p3 p4
    rw [hob] at p4
    rw [hst]
    rcases hsj j h' hj with ⟨_, e⟩ | ⟨_, e⟩
    · exact hown h' e p1 p2 p3 m p4 hm
    · exact a.pending j h' e p1 p2 p3 p4
  · intro m; rw [hst]; exact v.dist m

/-- A step of a tracked handler. -/
theorem SInv.hand {w : Bool} {s s' : CSt} (v : SInv w s) {i : Nat} {h : Handler} (hi : s.hs i = some h)
    (ht : h.kind.tracked w = true) (f : NFrame h.name s s') (hf : HFrame s s')
    (h0 : Option Handler) (hhs : s'.hs = updAt s.hs i h0)
    (hk : ∀ h', h0 = some h' → h'.kind = h.kind ∧ h'.name = h.name ∧ pcOk w s' h' ∧
      (h'.pc ≠ .start → h'.obj < s'.nObj ∧ (s'.objs h'.obj).name = h.name))
    (ho : ∀ m o, cget h.name (s'.st m).clients = some o → ObjOk s' m h.name o)
    (hq : ∀ m, (s.st m).runClosed = false →
      okNames (s'.st m).bootQ = okNames (s.st m).bootQ ∨
      (okNames (s'.st m).bootQ = okNames (s.st m).bootQ ++ [h.name] ∧
        h.name ∉ okNames ((s.st m).oks ++ (s.st m).bootQ) ∧ h0 = none ∧
        ∃ o, cget h.name (s'.st m).clients = some o ∧ (s'.objs o).state = .runnable))
    (hmem : ∀ m, (s.st m).runClosed = false → ∀ o, cget h.name (s.st m).clients = some o →
      (s.objs o).state = .runnable → ∃ o, cget h.name (s'.st m).clients = some o ∧ (s'.objs o).state = .runnable)
    (hown : ∀ h', h0 = some h' → h'.kind = .postBoot → h'.pc = .sendBoot → h'.body = .empty →
      ∀ m, (s'.objs h'.obj).stage = m → (s.st m).runClosed = false →
        h.name ∉ okNames ((s.st m).oks ++ (s.st m).bootQ)) : SInv w s' := by
  have hne : ∀ j h', j ≠ i → s.hs j = some h' → h'.kind.tracked w = true → h'.name ≠ h.name := by
    intro j h' hj e t en
    exact hj (v.serial j i h' h e hi t ht en)
  have hsj : ∀ j h', s'.hs j = some h' → (j = i ∧ h0 = some h') ∨ (j ≠ i ∧ s.hs j = some h') := by
    intro j h' hj
    rw [hhs] at hj
    by_cases hji : j = i
    · subst hji; rw [updAt_same] at hj; exact Or.inl ⟨rfl, hj⟩
    · rw [updAt_ne _ _ hji] at hj; exact Or.inr ⟨hji, hj⟩
  have hrc : ∀ m, (s'.st m).runClosed = (s.st m).runClosed := fun m => (hf.metas m).runClosed
  refine ⟨?_, ?_, ?_, ?_, ?_, ?_⟩
  · intro m n o hc
    by_cases hn : n = h.name
    · subst hn; exact ho m o hc
    · rw [f.cl m n hn] at hc
      have a := v.obj m n o hc
      have e := f.objs o a.lt (by rw [a.name]; exact hn)
      exact ⟨Nat.lt_of_lt_of_le a.lt f.nObj, by rw [e]; exact a.name, by rw [e]; exact a.stage,
        by rw [e]; exact a.state, fun h => f.rc m (a.running (by rw [e] at h; exact h))⟩
  · intro j h' hj t hs
    rcases hsj j h' hj with ⟨_, e⟩ | ⟨ej, e⟩
    · obtain ⟨_, k2, _, k3⟩ := hk h' e
      rw [k2]
      exact k3 hs
    · obtain ⟨p1, p2⟩ := v.hobj j h' e t hs
      refine ⟨Nat.lt_of_lt_of_le p1 f.nObj, ?_⟩
      rw [f.objs _ p1 (by rw [p2]; exact hne j h' ej e t)]
      exact p2
  · intro j h' hj
    rcases hsj j h' hj with ⟨_, e⟩ | ⟨ej, e⟩
    · exact (hk h' e).2.2.1
    · exact (v.pc j h' e).frame f (fun t hs => v.hobj j h' e t hs) (fun t => hne j h' ej e t)
  · intro j k h1 h2 hj hk' t1 t2 hnm
    rcases hsj j h1 hj with ⟨ej, e⟩ | ⟨ej, e⟩ <;> rcases hsj k h2 hk' with ⟨ek, e'⟩ | ⟨ek, e'⟩
    · rw [ej, ek]
    · obtain ⟨k1, k2, _⟩ := hk h1 e
      rw [ej]
      exact v.serial i k h h2 hi e' ht t2 (by rw [← k2]; exact hnm)
    · obtain ⟨k1, k2, _⟩ := hk h2 e'
      rw [ek]
      exact v.serial j i h1 h e hi t1 ht (by rw [← k2]; exact hnm)
    · exact v.serial j k h1 h2 e e' t1 t2 hnm
  · intro m hm
    rw [hrc] at hm
    have a := v.ack m hm
    have oth : ∀ j h', j ≠ i → s.hs j = some h' → h'.kind = .postBoot → h'.pc = .sendBoot → h'.body = .empty →
        (s'.objs h'.obj).stage = m → h'.name ∉ okNames ((s.st m).oks ++ (s.st m).bootQ) := by
      intro j h' ej e p1 p2 p3 p4
      have t : h'.kind.tracked w = true := by rw [p1]; rfl
      obtain ⟨q1, q2⟩ := v.hobj j h' e t (by rw [p2]; simp)
      rw [f.objs _ q1 (by rw [q2]; exact hne j h' ej e t)] at p4
      exact a.pending j h' e p1 p2 p3 p4
    have mem : ∀ n ∈ okNames ((s.st m).oks ++ (s.st m).bootQ),
        ∃ o, cget n (s'.st m).clients = some o ∧ (s'.objs o).state = .runnable := by
      intro n hn
      obtain ⟨o, h1, h2⟩ := a.member n hn
      by_cases e : n = h.name
      · subst e; exact hmem m hm o h1 h2
      · have b := v.obj m n o h1
        refine ⟨o, by rw [f.cl m n e]; exact h1, ?_⟩
        rw [f.objs o b.lt (by rw [b.name]; exact e)]
        exact h2
    rcases hq m hm with e | ⟨e, hnot, hnone, ho'⟩
    · have eL : okNames ((s'.st m).oks ++ (s'.st m).bootQ) = okNames ((s.st m).oks ++ (s.st m).bootQ) := by
        rw [okNames_append, okNames_append, (hf.metas m).oks, e]
      refine ⟨by rw [eL]; exact a.nodup, by rw [eL]; exact mem, ?_⟩
      rw [eL]
      intro j h' hj p1 p2 p3 p4
      rcases hsj j h' hj with ⟨_, e'⟩ | ⟨ej, e'⟩
      · rw [(hk h' e').2.1]; exact hown h' e' p1 p2 p3 m p4 hm
      · exact oth j h' ej e' p1 p2 p3 p4
    · have eL : okNames ((s'.st m).oks ++ (s'.st m).bootQ) =
          okNames ((s.st m).oks ++ (s.st m).bootQ) ++ [h.name] := by
        rw [okNames_append, okNames_append, (hf.metas m).oks, e, List.append_assoc]
      refine ⟨?_, ?_, ?_⟩
      · rw [eL]
        refine List.nodup_append.mpr ⟨a.nodup, by simp, ?_⟩
        intro x hx y hy
        simp only [List.mem_singleton] at hy
        subst hy
        intro exy; subst exy; exact hnot hx
      · rw [eL]
        intro n hn
        rcases List.mem_append.mp hn with h1 | h1
        · exact mem n h1
        · simp only [List.mem_singleton] at h1
          subst h1; exact ho'
      · rw [eL]
        intro j h' hj p1 p2 p3 p4
        rcases hsj j h' hj with ⟨_, e'⟩ | ⟨ej, e'⟩
        · rw [hnone] at e'; cases e'
        · intro hcon
          rcases List.mem_append.mp hcon with h1 | h1
          · exact oth j h' ej e' p1 p2 p3 p4 h1
          · simp only [List.mem_singleton] at h1
            exact hne j h' ej e' (by rw [p1]; rfl) h1
  · intro m; rw [(hf.metas m).oks]; exact v.dist m

/-- A step of the server. -/
theorem SInv.server {w : Bool} {s s' : CSt} (v : SInv w s) (hhs : s'.hs = s.hs) (hob : s'.objs = s.objs)
    (hn : s'.nObj = s.nObj) (hcl : ∀ m, (s'.st m).clients = (s.st m).clients)
    (hrc : ∀ m, (s.st m).runClosed = true → (s'.st m).runClosed = true)
    (hq : ∀ m, (s'.st m).runClosed = false → okNames ((s'.st m).oks ++ (s'.st m).bootQ) =
      okNames ((s.st m).oks ++ (s.st m).bootQ))
    (hd : ∀ m, (s'.st m).oks = (s.st m).oks ∨ (s'.st m).runClosed = false) : SInv w s' := by
  have hfr : ∀ n, NFrame n s s' := fun n =>
    ⟨fun o _ _ => by rw [hob], by rw [hn]; exact Nat.le_refl _, fun m k _ => by rw [hcl], hrc⟩
  have hack : ∀ m, (s'.st m).runClosed = false → AckOk s' m := by
    intro m hm
    have hm' : (s.st m).runClosed = false := by
      cases hb : (s.st m).runClosed
      · rfl
      · rw [hrc m hb] at hm; cases hm
    have a := v.ack m hm'
    refine ⟨by rw [hq m hm]; exact a.nodup, by rw [hq m hm, hcl, hob]; exact a.member, ?_⟩
    rw [hq m hm, hhs, hob]; exact a.pending
  refine ⟨?_, ?_, ?_, ?_, hack, ?_⟩
  · intro m n o h
    rw [hcl] at h
    have a := v.obj m n o h
    exact ⟨by rw [hn]; exact a.lt, by rw [hob]; exact a.name, by rw [hob]; exact a.stage,
        by rw [hob]; exact a.state, fun h => hrc m (a.running (by rw [hob] at h; exact h))⟩
  · rw [hhs, hob, hn]; exact v.hobj
  · intro i h hi
    rw [hhs] at hi
    exact (v.pc i h hi).frame (hfr (h.name + 1)) (fun t hs => v.hobj i h hi t hs) (fun _ => by omega)
  · rw [hhs]; exact v.serial
  · intro m
    rcases hd m with e | e
    · rw [e]; exact v.dist m
    · have := (hack m e).nodup
      rw [okNames_append] at this
      exact (List.nodup_append.mp this).1

end Finch
