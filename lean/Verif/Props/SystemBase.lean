import Verif.Model.System
import Verif.Props.Compute
import Verif.Props.Remote
/-!
A distributed run as a whole (`Model/System.lean`) when no request is lost: what holds for each instance
(for C101, C102).
-/
namespace Finch

/-! ### Executions -/

/-- Steps without loss: no request or response is lost, no instance gives up and the server is not
interrupted. Everything else can fail, in any order. -/
def YAct.reliable : YAct → Bool
  | .lose _ => false
  | .giveUp _ => false
  | .srv (.handler _ lost) => !lost
  | .srv .ctxDone => false
  | _ => true

/-- States that can be reached without loss. -/
inductive Sys.Reach (P : SysCfg) : Sys → Prop
  | init : Sys.Reach P {}
  | step {s s' : Sys} {a : YAct} : Sys.Reach P s → a.reliable = true → s.step P a = some s' → Sys.Reach P s'

/-! ### What holds for one instance -/

/-- The instance `n` is a client of stage `m` in this state. -/
def InSt (c : CSt) (m n : Nat) (x : RemState) : Prop :=
  ∃ o, cget n (c.st m).clients = some o ∧ (c.objs o).state = x

/-- The instance `n` acknowledged that it booted stage `m`. -/
def Acked (c : CSt) (m n : Nat) : Prop := n ∈ okNames ((c.st m).oks ++ (c.st m).bootQ)

/-- In stage `m`, the one of the instance, in this state. -/
def Sys.at_ (s : Sys) (n : Nat) (x : RemState) : Prop := ∃ m, (s.r n).sid = m + 1 ∧ InSt s.c m n x

/-- The same, and it acknowledged. -/
def Sys.atA (s : Sys) (n : Nat) (x : RemState) : Prop := ∃ m, (s.r n).sid = m + 1 ∧ InSt s.c m n x ∧ Acked s.c m n

/-- The acknowledgement of the end was sent. -/
def Sys.sent (s : Sys) (n : Nat) : Prop := ∃ m, (s.r n).sid = m + 1 ∧ NoC s.c n ∧ some n ∈ s.dones m

/-- Where the instance is between two requests. -/
def Sys.need (s : Sys) (n : Nat) : Prop :=
  match (s.r n).rs.pc with
  | .getBoot => NoC s.c n ∧ (s.r n).sid = 0
  | .getRun => s.atA n .runnable
  | .running => s.atA n .running
  | .postRun => s.atA n .running
  | .finished _ => NoC s.c n ∨ s.at_ n .booting
  | _ => s.at_ n .booting

/-- Where the instance is while its request `i` is handled. -/
def Sys.hneed (s : Sys) (n i : Nat) (h : Handler) : Prop :=
  match h.kind, h.pc with
  | .getBoot, .start => NoC s.c n ∧ (s.r n).sid = 0
  | .getBoot, .check => NoC s.c n ∧ (s.r n).sid = 0
  | .getBoot, .join => NoC s.c n ∧ (s.r n).sid = 0
  | .file, .start => s.at_ n .booting
  | .file, .check => s.at_ n .booting ∧ ∃ m, cget n (s.c.st m).clients = some h.obj
  | .postBoot, .start => s.at_ n .booting
  | .postBoot, .check => s.at_ n .booting
  | .postBoot, .body => s.at_ n .booting
  | .postBoot, .setRunnable => s.at_ n .booting
  | .postBoot, .sendBoot => (h.body = .error ∧ s.at_ n .booting) ∨
      (h.body = .empty ∧ ∃ m, (s.r n).sid = m + 1 ∧ InSt s.c m n .runnable ∧ ¬ Acked s.c m n)
  | .getRun, .start => s.atA n .runnable
  | .getRun, .check => s.atA n .runnable
  | .getRun, .waitRun => s.atA n .runnable
  | .getRun, .afterRun => s.atA n .runnable
  | .getRun, .write => s.atA n .runnable
  | .getRun, .setRunning => s.atA n .runnable ∧ s.c.resp.lookup i = some 200
  | .postRun, .start => s.atA n .running
  | .postRun, .check => s.atA n .running
  | .postRun, .body => s.atA n .running
  | .postRun, .del => s.atA n .running
  | .postRun, .sendDone => NoC s.c n ∧ ∃ m, (s.r n).sid = m + 1 ∧ (s.c.objs h.obj).stage = m ∧
      h.obj < s.c.nObj ∧ (s.c.objs h.obj).name = n ∧
      n ∈ okNames (s.c.st m).oks ∧ (s.c.st m).runClosed = true ∧ some n ∉ s.dones m
  | .postRun, .setReady => s.sent n
  | _, _ => False

/-- A response that makes the instance send the request again. -/
def Refused (code : Nat) : Prop := code ≠ 200 ∧ code ≠ 205

/-- Where the instance is when the response to its request is there. -/
def Sys.post (s : Sys) (n i code : Nat) : Prop :=
  match (s.r n).rs.pc with
  | .getBoot => (code = 200 ∧ (s.r n).sid = 0 ∧ ∃ m, s.cfg i = m + 1 ∧ InSt s.c m n .booting) ∨
      (Refused code ∧ NoC s.c n ∧ (s.r n).sid = 0)
  | .file _ => s.at_ n .booting
  | .postErr => s.at_ n .booting
  | .postBoot => (code = 200 ∧ s.atA n .runnable) ∨ (Refused code ∧ s.at_ n .booting)
  | .getRun => (code = 200 ∧ s.atA n .running) ∨ (Refused code ∧ s.atA n .runnable)
  | .postRun => (code = 200 ∧ s.sent n) ∨ (Refused code ∧ s.atA n .running)
  | _ => False

def ReqKind.mainKind : ReqKind → Bool
  | .getBoot => true
  | .postBoot => true
  | .getRun => true
  | .postRun => true
  | .file => true
  | _ => false

def Sys.link (P : SysCfg) (s : Sys) (n : Nat) : Prop :=
  match (s.r n).req with
  | none => s.need n
  | some i => i < s.c.nH ∧
    match s.c.hs i with
    | some h => s.request P n = some (h.kind, h.body) ∧ h.name = n ∧ h.sid = (s.r n).sid ∧ s.hneed n i h
    | none => (s.request P n).isSome = true ∧ ∃ code, s.c.resp.lookup i = some code ∧ s.post n i code

/-- The program of an instance: what it has done at each place. -/
structure RemOk (x : RemSt) : Prop where
  early : x.pc = .getBoot ∨ x.pc = .decode ∨ x.pc = .mkdir ∨ (∃ i, x.pc = .file i) ∨ x.pc = .collector ∨
    x.pc = .prepare → REv.postBoot true ∉ x.trace
  late : x.pc = .postBoot ∨ x.pc = .getRun ∨ x.pc = .running ∨ x.pc = .postRun →
    REv.prepare false ∈ x.trace ∧ REv.postBoot true ∉ x.trace
  ran : x.pc = .postRun → REv.stopped ∈ x.trace

theorem RemOk.same {x y : RemSt} (h : RemOk x) (hp : y.pc = x.pc)
    (ht : ∀ e : REv, e.isMain = true → (e ∈ y.trace ↔ e ∈ x.trace)) : RemOk y := by
  refine ⟨?_, ?_, ?_⟩
  · rw [hp, ht _ rfl]; exact h.early
  · rw [hp, ht _ rfl, ht _ rfl]; exact h.late
  · rw [hp, ht _ rfl]; exact h.ran

/-- The request of the end of the run is between the two parts. -/
def Sys.sending (s : Sys) (n : Nat) : Prop :=
  ∃ i h, (s.r n).req = some i ∧ s.c.hs i = some h ∧ h.kind = .postRun ∧ h.pc = .sendDone

/-- The instance `n` told the server that it could not boot stage `m`. -/
def Sys.failed (s : Sys) (n m : Nat) : Prop :=
  (s.r n).sid = m + 1 ∧ InSt s.c m n .booting ∧ ((s.r n).rs.pc = .postErr ∨ ∃ e, (s.r n).rs.pc = .finished e)

/-- What holds for the instance `n`. -/
structure NInv (P : SysCfg) (s : Sys) (n : Nat) : Prop where
  link : s.link P n
  rem : RemOk (s.r n).rs
  acked : ∀ m, Acked s.c m n → (s.r n).sid = m + 1 ∧ REv.prepare false ∈ (s.r n).rs.trace ∧
    REv.postBoot true ∉ (s.r n).rs.trace ∧
    (some n ∈ s.dones m ∨ InSt s.c m n .runnable ∨ InSt s.c m n .running ∨ s.sending n)
  done : ∀ m, some n ∈ s.dones m → NoC s.c n ∧ (s.r n).sid = m + 1 ∧ REv.stopped ∈ (s.r n).rs.trace ∧
    n ∈ okNames (s.c.st m).oks
  start : REv.start ∈ (s.r n).rs.trace → ∃ m, (s.r n).sid = m + 1 ∧ (s.c.st m).runClosed = true ∧ Acked s.c m n
  own : ∀ i h, s.c.hs i = some h → h.name = n → h.kind.mainKind = true → (s.r n).req = some i
  bad : ∀ m, ∀ a ∈ (s.c.st m).bootQ, a.ok = false → a.who = some n → s.failed n m

theorem NInv.init (P : SysCfg) (n : Nat) : NInv P {} n := by
  refine ⟨⟨fun _ => rfl, rfl⟩, ⟨?_, ?_, ?_⟩, ?_, ?_, ?_, ?_, ?_⟩
  · intro _; exact List.not_mem_nil
  · intro h; rcases h with h | h | h | h <;> cases h
  · intro h; cases h
  · intro m h; cases h
  · intro m h; cases h
  · intro h; cases h
  · intro i h e; cases e
  · intro m a h; cases h

/-! ### Steps that do not concern the instance -/

/-- Nothing that concerns the instance `n` changed. -/
structure LFrame (n : Nat) (s s' : Sys) : Prop where
  sid : (s'.r n).sid = (s.r n).sid
  req : (s'.r n).req = (s.r n).req
  pc : (s'.r n).rs.pc = (s.r n).rs.pc
  trace : ∀ e : REv, e.isMain = true → (e ∈ (s'.r n).rs.trace ↔ e ∈ (s.r n).rs.trace)
  cl : ∀ m, cget n (s'.c.st m).clients = cget n (s.c.st m).clients
  objs : ∀ o, o < s.c.nObj → (s.c.objs o).name = n → s'.c.objs o = s.c.objs o
  nObj : s.c.nObj ≤ s'.c.nObj
  hs : ∀ i, (s.r n).req = some i → s'.c.hs i = s.c.hs i ∧ s'.c.resp.lookup i = s.c.resp.lookup i ∧ s'.cfg i = s.cfg i
  own : ∀ i h, s'.c.hs i = some h → h.name = n → h.kind.mainKind = true → s.c.hs i = some h
  nH : s.c.nH ≤ s'.c.nH
  acked : ∀ m, Acked s'.c m n ↔ Acked s.c m n
  oks : ∀ m, n ∈ okNames (s.c.st m).oks → n ∈ okNames (s'.c.st m).oks
  rc : ∀ m, (s.c.st m).runClosed = true → (s'.c.st m).runClosed = true
  dones : ∀ m, some n ∈ s'.dones m ↔ some n ∈ s.dones m
  bad : ∀ m, ∀ a ∈ (s'.c.st m).bootQ, a.ok = false → a.who = some n → a ∈ (s.c.st m).bootQ

theorem LFrame.inSt {n : Nat} {s s' : Sys} {w : Bool} (v : SInv w s.c) (f : LFrame n s s') {m : Nat} {x : RemState}
    (h : InSt s.c m n x) : InSt s'.c m n x := by
  obtain ⟨o, h1, h2⟩ := h
  have a := v.obj m n o h1
  exact ⟨o, by rw [f.cl]; exact h1, by rw [f.objs o a.lt a.name]; exact h2⟩

theorem LFrame.noC {n : Nat} {s s' : Sys} (f : LFrame n s s') (h : NoC s.c n) : NoC s'.c n :=
  fun m => by rw [f.cl]; exact h m

theorem LFrame.at_ {n : Nat} {s s' : Sys} {w : Bool} (v : SInv w s.c) (f : LFrame n s s') {x : RemState}
    (h : s.at_ n x) : s'.at_ n x := by
  obtain ⟨m, h1, h2⟩ := h
  exact ⟨m, by rw [f.sid]; exact h1, f.inSt v h2⟩

theorem LFrame.atA {n : Nat} {s s' : Sys} {w : Bool} (v : SInv w s.c) (f : LFrame n s s') {x : RemState}
    (h : s.atA n x) : s'.atA n x := by
  obtain ⟨m, h1, h2, h3⟩ := h
  exact ⟨m, by rw [f.sid]; exact h1, f.inSt v h2, (f.acked m).mpr h3⟩

theorem LFrame.sent {n : Nat} {s s' : Sys} (f : LFrame n s s') (h : s.sent n) : s'.sent n := by
  obtain ⟨m, h1, h2, h3⟩ := h
  exact ⟨m, by rw [f.sid]; exact h1, f.noC h2, (f.dones m).mpr h3⟩

theorem NInv.frame {P : SysCfg} {n : Nat} {s s' : Sys} {w : Bool} (v : SInv w s.c) (I : NInv P s n)
    (f : LFrame n s s') : NInv P s' n := by
  have hB := f.noC
  have h1 : ∀ {x}, s.at_ n x → s'.at_ n x := f.at_ v
  have h2 : ∀ {x}, s.atA n x → s'.atA n x := f.atA v
  refine ⟨?_, I.rem.same f.pc f.trace, ?_, ?_, ?_, ?_, ?_⟩
  · have L := I.link
    unfold Sys.link at L ⊢
    rw [f.req]
    cases hr : (s.r n).req with
    | none =>
      rw [hr] at L
      simp only [] at L ⊢
      unfold Sys.need at L ⊢
      rw [f.pc]
      cases hp : (s.r n).rs.pc <;> rw [hp] at L <;> simp only [] at L ⊢ <;>
        first | exact h1 L | exact h2 L | exact ⟨hB L.1, f.sid.trans L.2⟩ | exact L.imp hB h1
    | some i =>
      rw [hr] at L
      simp only [] at L ⊢
      obtain ⟨e1, e2, e3⟩ := f.hs i hr
      rw [e1]
      refine ⟨Nat.lt_of_lt_of_le L.1 f.nH, ?_⟩
      replace L := L.2
      have er : s'.request P n = s.request P n := by unfold Sys.request; rw [f.pc, f.sid]
      cases hh : s.c.hs i with
      | none =>
        rw [hh] at L
        simp only [] at L ⊢
        obtain ⟨l1, code, l2, l3⟩ := L
        refine ⟨by rw [er]; exact l1, code, by rw [e2]; exact l2, ?_⟩
        unfold Sys.post at l3 ⊢
        rw [f.pc]
        cases hp : (s.r n).rs.pc <;> rw [hp] at l3 <;> simp only [] at l3 ⊢
        · rcases l3 with ⟨c1, c0, m, c2, c3⟩ | ⟨c1, c2, c3⟩
          · exact Or.inl ⟨c1, f.sid.trans c0, m, by rw [e3]; exact c2, f.inSt v c3⟩
          · exact Or.inr ⟨c1, hB c2, f.sid.trans c3⟩
        · exact h1 l3
        · exact h1 l3
        · exact l3.imp (fun x => ⟨x.1, h2 x.2⟩) (fun x => ⟨x.1, h1 x.2⟩)
        · exact l3.imp (fun x => ⟨x.1, h2 x.2⟩) (fun x => ⟨x.1, h2 x.2⟩)
        · exact l3.imp (fun x => ⟨x.1, f.sent x.2⟩) (fun x => ⟨x.1, h2 x.2⟩)
      | some h =>
        rw [hh] at L
        simp only [] at L ⊢
        obtain ⟨l1, l2, l3, l4⟩ := L
        refine ⟨by rw [er]; exact l1, l2, l3.trans f.sid.symm, ?_⟩
        unfold Sys.hneed at l4 ⊢
        cases hk : h.kind <;> rw [hk] at l4 <;> cases hpc : h.pc <;> rw [hpc] at l4 <;> simp only [] at l4 ⊢ <;>
          first
          | exact h1 l4
          | exact h2 l4
          | exact ⟨hB l4.1, f.sid.trans l4.2⟩
          | exact ⟨h1 l4.1, l4.2.imp fun m hm => by rw [f.cl]; exact hm⟩
          | exact f.sent l4
          | exact ⟨h2 l4.1, by rw [e2]; exact l4.2⟩
          | exact l4
          | skip
        · rcases l4 with ⟨c1, c2⟩ | ⟨c1, m, c2, c3, c4⟩
          · exact Or.inl ⟨c1, h1 c2⟩
          · exact Or.inr ⟨c1, m, f.sid.trans c2, f.inSt v c3, fun x => c4 ((f.acked m).mp x)⟩
        · obtain ⟨c0, m, c1, c2, c3, c4, c5, c6, c7⟩ := l4
          have e := f.objs _ c3 c4
          exact ⟨hB c0, m, f.sid.trans c1, by rw [e]; exact c2, Nat.lt_of_lt_of_le c3 f.nObj,
            by rw [e]; exact c4, f.oks m c5, f.rc m c6, fun x => c7 ((f.dones m).mp x)⟩
  · intro m hm
    obtain ⟨a1, a2, a3, a4⟩ := I.acked m ((f.acked m).mp hm)
    refine ⟨f.sid.trans a1, (f.trace _ rfl).mpr a2, fun x => a3 ((f.trace _ rfl).mp x), ?_⟩
    rcases a4 with a | a | a | ⟨i, h, a, b, c⟩
    · exact Or.inl ((f.dones m).mpr a)
    · exact Or.inr (Or.inl (f.inSt v a))
    · exact Or.inr (Or.inr (Or.inl (f.inSt v a)))
    · exact Or.inr (Or.inr (Or.inr ⟨i, h, by rw [f.req]; exact a, by rw [(f.hs i a).1]; exact b, c⟩))
  · intro m hm
    obtain ⟨a1, a2, a3, a4⟩ := I.done m ((f.dones m).mp hm)
    exact ⟨hB a1, f.sid.trans a2, (f.trace _ rfl).mpr a3, f.oks m a4⟩
  · intro h
    obtain ⟨m, a1, a2, a3⟩ := I.start ((f.trace _ rfl).mp h)
    exact ⟨m, f.sid.trans a1, f.rc m a2, (f.acked m).mpr a3⟩
  · intro i h hi hn hk
    rw [f.req]
    exact I.own i h (f.own i h hi hn hk) hn hk
  · intro m a ha ho hw
    obtain ⟨b1, b2, b3⟩ := I.bad m a (f.bad m a ha ho hw) ho hw
    exact ⟨f.sid.trans b1, f.inSt v b2, by rw [f.pc]; exact b3⟩

end Finch
