import Verif.Props.TrxFormat
import Mathlib.Tactic.Common
/-!
What the parser of one statement leaves unchanged. Used by C32 and C33.
-/
namespace Finch

/-- The line buffer and the counters are the same, keys are only added. -/
structure Frame (f f' : FileSt) : Prop where
  lineNo : f'.lineNo = f.lineNo
  str : f'.str = f.str
  mods : f'.mods = f.mods
  copyNo : f'.copyNo = f.copyNo
  stmts : f'.stmts = f.stmts
  stmtNo : f'.stmtNo = f.stmtNo
  hasDDL : f'.hasDDL = f.hasDDL
  grow : ∀ k v, f.keys k = some v → f'.keys k = some v

theorem Frame.refl (f : FileSt) : Frame f f := ⟨rfl, rfl, rfl, rfl, rfl, rfl, rfl, fun _ _ h => h⟩

theorem Frame.trans {a b c : FileSt} (h1 : Frame a b) (h2 : Frame b c) : Frame a c :=
  ⟨h2.lineNo.trans h1.lineNo, h2.str.trans h1.str, h2.mods.trans h1.mods, h2.copyNo.trans h1.copyNo,
    h2.stmts.trans h1.stmts, h2.stmtNo.trans h1.stmtNo, h2.hasDDL.trans h1.hasDDL,
    fun k v h => h2.grow k v (h1.grow k v h)⟩

theorem Out.bind_ok {α β : Type} {x : Out α} {g : α → Out β} {b : β} (h : (x >>= g) = .ok b) :
    ∃ a, x = .ok a ∧ g a = .ok b := by
  cases x with
  | ok a => exact ⟨a, rfl, h⟩
  | err => cases h
  | panic => cases h

theorem Out.pure_ok {α : Type} {a b : α} (h : (pure a : Out α) = .ok b) : a = b := by
  cases h; rfl

theorem Out.ofOption_ok {α : Type} {o : Option α} {a : α} (h : Out.ofOption o = .ok a) :
    o = some a := by
  cases o with
  | none => cases h
  | some b => cases h; rfl

theorem column_frame {env : TrxEnv} {f f1 : FileSt} {n : Nat} {col : Text} {k : String}
    (h : f.column env n col = .ok (f1, k)) : Frame f f1 := by
  unfold FileSt.column at h
  dsimp only at h
  split at h
  · split at h
    · cases h; exact .refl _
    · rename_i hnone
      cases h
      refine ⟨rfl, rfl, rfl, rfl, rfl, rfl, rfl, fun k v hk => ?_⟩
      show GoMap.set _ _ _ _ = _
      rw [GoMap.set_other _ _ (by rintro rfl; rw [hnone] at hk; cases hk)]; exact hk
  · split at h
    · cases h
    · rename_i hnone
      split at h
      · cases h
      · cases h
        refine ⟨rfl, rfl, rfl, rfl, rfl, rfl, rfl, fun k v hk => ?_⟩
        show GoMap.set _ _ _ _ = _
        rw [GoMap.set_other _ _ (by rintro rfl; rw [hnone] at hk; cases hk)]; exact hk

theorem columns_frame {env : TrxEnv} {cols : List Text} : ∀ {f f1 : FileSt} {n : Nat}
    {ks : List String}, f.columns env n cols = .ok (f1, ks) → Frame f f1 := by
  induction cols with
  | nil => intro f f1 n ks h; cases h; exact .refl _
  | cons c cs ih =>
    intro f f1 n ks h
    obtain ⟨⟨f2, k⟩, h1, h⟩ := Out.bind_ok h
    obtain ⟨⟨f3, ks'⟩, h2, h⟩ := Out.bind_ok h
    cases Out.pure_ok h
    exact (column_frame h1).trans (ih h2)

theorem modStep_frame {env : TrxEnv} {f f1 : FileSt} {s s1 : Stmt} {mod : Text} {c : Option Nat}
    (h : modStep env f s mod = .ok (f1, s1, c)) : Frame f f1 := by
  unfold modStep at h
  split at h
  · cases h
  · dsimp only at h
    split at h
    · cases h; exact .refl _
    split at h
    · obtain ⟨_, -, h⟩ := Out.bind_ok h
      obtain ⟨_, -, h⟩ := Out.bind_ok h
      cases Out.pure_ok h; exact .refl _
    split at h
    · obtain ⟨_, -, h⟩ := Out.bind_ok h
      obtain ⟨_, -, h⟩ := Out.bind_ok h
      obtain ⟨_, -, h⟩ := Out.bind_ok h
      obtain ⟨_, -, h⟩ := Out.bind_ok h
      cases Out.pure_ok h; exact .refl _
    split at h
    · split at h
      · obtain ⟨_, -, h⟩ := Out.bind_ok h
        obtain ⟨_, -, h⟩ := Out.bind_ok h
        cases Out.pure_ok h; exact .refl _
      · cases h
    split at h
    · split at h
      · cases h
      · obtain ⟨_, -, h⟩ := Out.bind_ok h
        obtain ⟨⟨f2, k⟩, h2, h⟩ := Out.bind_ok h
        cases Out.pure_ok h; exact column_frame h2
    split at h
    · obtain ⟨⟨f2, k⟩, h2, h⟩ := Out.bind_ok h
      cases Out.pure_ok h; exact columns_frame h2
    split at h
    · obtain ⟨_, -, h⟩ := Out.bind_ok h
      obtain ⟨_, -, h⟩ := Out.bind_ok h
      split at h
      · cases h
      split at h
      · cases Out.pure_ok h; exact .refl _
      · cases Out.pure_ok h; exact .refl _
    · cases h

theorem modLoop_frame {env : TrxEnv} {mods : List Text} : ∀ {f f1 : FileSt} {s s1 : Stmt}
    {c : Option Nat}, modLoop env f s mods = .ok (f1, s1, c) → Frame f f1 := by
  induction mods with
  | nil => intro f f1 s s1 c h; cases h; exact .refl _
  | cons m ms ih =>
    intro f f1 s s1 c h
    obtain ⟨⟨f2, s2, c2⟩, h1, h⟩ := Out.bind_ok h
    dsimp only at h
    split at h
    · cases Out.pure_ok h; exact modStep_frame h1
    · exact (modStep_frame h1).trans (ih h)

theorem genOf_frame {env : TrxEnv} {f f1 : FileSt} {before : List Text} {name : Text} {g : GenInfo}
    (h : genOf env f before name = .ok (f1, g)) : Frame f f1 := by
  have hg := (genOf_ok h).1
  unfold genOf at h
  dsimp only at h
  split at h
  · cases h; exact ⟨rfl, rfl, rfl, rfl, rfl, rfl, rfl, hg.1⟩
  split at h
  · split at h
    · cases h
    · split at h
      · cases h
      · split at h
        · cases h; exact .refl _
        · cases h
  · split at h
    · cases h; exact .refl _
    · split at h
      · cases h
      · split at h
        · cases h
        · cases h; exact ⟨rfl, rfl, rfl, rfl, rfl, rfl, rfl, hg.1⟩

theorem keyLoop_frame {env : TrxEnv} {p : Bool} {names : List Text} : ∀ {f f1 : FileSt}
    {before : List Text} {fmts fmts1 : List (Text × Text)},
    keyLoop env p f before fmts names = .ok (f1, fmts1) → Frame f f1 := by
  induction names with
  | nil => intro f f1 before fmts fmts1 h; cases h; exact .refl _
  | cons n ns ih =>
    intro f f1 before fmts fmts1 h
    obtain ⟨⟨f2, g⟩, h1, h⟩ := Out.bind_ok h
    exact (genOf_frame h1).trans (ih h)

theorem finish_frame {env : TrxEnv} {f f1 : FileSt} {s s1 : Stmt} {q : Text}
    (h : finish env f s q = .ok (f1, s1)) : Frame f f1 := by
  unfold finish at h
  obtain ⟨⟨d, q2⟩, -, h⟩ := Out.bind_ok h
  dsimp only at h
  split at h
  · cases Out.pure_ok h; exact ⟨rfl, rfl, rfl, rfl, rfl, rfl, rfl, fun _ _ h => h⟩
  · obtain ⟨⟨f3, fm⟩, h2, h⟩ := Out.bind_ok h
    have := keyLoop_frame h2
    cases Out.pure_ok h
    exact ⟨this.lineNo, this.str, this.mods, this.copyNo, this.stmts, this.stmtNo, this.hasDDL,
      this.grow⟩

theorem copyLoop_lineNo {rec : FileSt → Out (FileSt × List Stmt)}
    (hrec : ∀ f f' ss, rec f = .ok (f', ss) → f'.lineNo = f.lineNo) {k : Nat} :
    ∀ {f f' : FileSt} {i : Nat} {ss : List Stmt}, copyLoop rec f i k = .ok (f', ss) →
    f'.lineNo = f.lineNo := by
  induction k with
  | zero => intro f f' i ss h; cases h; rfl
  | succ k ih =>
    intro f f' i ss h
    obtain ⟨⟨f2, ms⟩, h1, h⟩ := Out.bind_ok h
    dsimp only at h
    split at h
    · cases h
    · obtain ⟨⟨f3, ss'⟩, h2, h⟩ := Out.bind_ok h
      cases Out.pure_ok h
      rw [ih h2, hrec _ _ _ h1]

theorem statements_lineNo {env : TrxEnv} {fuel : Nat} : ∀ {f f' : FileSt} {ss : List Stmt},
    statements env fuel f = .ok (f', ss) → f'.lineNo = f.lineNo := by
  induction fuel with
  | zero => intro f f' ss h; cases h
  | succ fuel ih =>
    intro f f' ss h
    unfold statements at h
    obtain ⟨⟨f2, s2, c⟩, h1, h⟩ := Out.bind_ok h
    have hf := modLoop_frame h1
    dsimp only at h
    split at h
    · obtain ⟨⟨f3, s3⟩, h2, h⟩ := Out.bind_ok h
      cases Out.pure_ok h
      rw [(finish_frame h2).lineNo, hf.lineNo]
    · cases Out.pure_ok h
      exact hf.lineNo
    · obtain ⟨⟨f3, ss'⟩, h2, h⟩ := Out.bind_ok h
      cases Out.pure_ok h
      show f3.lineNo = _
      rw [copyLoop_lineNo (fun _ _ _ h => ih h) h2]
      exact hf.lineNo

end Finch
