import Verif.Props.TrxC33
import Mathlib.Tactic.Tauto
/-!
C73–C75: what a loaded set of trx files is like. The workload allocator relies on it.
-/
namespace Finch

/-- A statement whose data keys all exist. -/
structure StmtOk (keys : GoMap String TKey) (s : Stmt) : Prop where
  inputs : ∀ k ∈ s.inputs, k = "@PREV" ∨ keys k ≠ none
  outputs : ∀ k ∈ s.outputs, keys k ≠ none
  insertId : s.insertId = "" ∨ s.insertId ∈ s.outputs
  calls : s.calls.length = s.inputs.length

/-- Names of the saved columns that are tracked. -/
def refNames (l : List (String × Nat)) : List String := l.map (·.1)

/-- Saved columns that were used. -/
def usedNames (l : List (String × Nat)) (n : String) : Prop := ∃ k, (n, k) ∈ l ∧ 0 < k

/-- What parsing the statements `ss` does to keys and column references. -/
structure StepOk (f f' : FileSt) (ss : List Stmt) : Prop where
  grow : ∀ k v, f.keys k = some v → f'.keys k = some v
  stmts : f'.stmts = f.stmts
  ok : ∀ s ∈ ss, StmtOk f'.keys s
  names : ∀ n ∈ refNames f.colRefs, n ∈ refNames f'.colRefs
  saved : ∀ s ∈ ss, ∀ o ∈ s.outputs, o ≠ noopCol → o ∈ refNames f'.colRefs
  used : ∀ n, usedNames f'.colRefs n → usedNames f.colRefs n ∨ ∃ s ∈ ss, n ∈ s.inputs

theorem StmtOk.grow {k1 k2 : GoMap String TKey} {s : Stmt} (h : StmtOk k1 s)
    (hg : ∀ k v, k1 k = some v → k2 k = some v) : StmtOk k2 s := by
  have hne : ∀ k, k1 k ≠ none → k2 k ≠ none := by
    intro k hk
    cases hv : k1 k with
    | none => exact absurd hv hk
    | some v => rw [hg k v hv]; simp
  exact ⟨fun k hk => (h.inputs k hk).imp id (hne k), fun k hk => hne k (h.outputs k hk), h.insertId,
    h.calls⟩

theorem StepOk.trans {a b c : FileSt} {s1 s2 : List Stmt} (h1 : StepOk a b s1) (h2 : StepOk b c s2) :
    StepOk a c (s1 ++ s2) where
  grow := fun k v h => h2.grow k v (h1.grow k v h)
  stmts := h2.stmts.trans h1.stmts
  ok := by
    intro s hs
    rcases List.mem_append.mp hs with h | h
    · exact (h1.ok s h).grow h2.grow
    · exact h2.ok s h
  names := fun n hn => h2.names n (h1.names n hn)
  saved := by
    intro s hs o ho hne
    rcases List.mem_append.mp hs with h | h
    · exact h2.names _ (h1.saved s h o ho hne)
    · exact h2.saved s h o ho hne
  used := by
    intro n hn
    rcases h2.used n hn with h | ⟨s, hs, h⟩
    · rcases h1.used n h with h | ⟨s, hs, h⟩
      · exact Or.inl h
      · exact Or.inr ⟨s, by simp [hs], h⟩
    · exact Or.inr ⟨s, by simp [hs], h⟩

/-! ### Modifiers -/

/-- What handling modifiers does, with the statement so far. -/
structure ModOk (f f' : FileSt) (s s' : Stmt) : Prop where
  frame : Frame f f'
  outputs : ∀ o ∈ s'.outputs, o ∈ s.outputs ∨ (f'.keys o ≠ none ∧ (o ≠ noopCol → o ∈ refNames f'.colRefs))
  more : ∀ o ∈ s.outputs, o ∈ s'.outputs
  names : ∀ n ∈ refNames f.colRefs, n ∈ refNames f'.colRefs
  used : ∀ n, usedNames f'.colRefs n → usedNames f.colRefs n
  insertId : s'.insertId = s.insertId ∨ s'.insertId ∈ s'.outputs
  inputs : s'.inputs = s.inputs ∧ s'.calls = s.calls

theorem ModOk.refl (f : FileSt) (s : Stmt) : ModOk f f s s :=
  ⟨.refl _, fun _ h => Or.inl h, fun _ h => h, fun _ h => h, fun _ h => h, Or.inl rfl, rfl, rfl⟩

theorem ModOk.trans {a b c : FileSt} {s1 s2 s3 : Stmt} (h1 : ModOk a b s1 s2) (h2 : ModOk b c s2 s3) :
    ModOk a c s1 s3 where
  frame := h1.frame.trans h2.frame
  outputs := by
    intro o ho
    rcases h2.outputs o ho with h | h
    · rcases h1.outputs o h with h | ⟨h, h'⟩
      · exact Or.inl h
      · exact Or.inr ⟨h2.frame.someKeys o h, fun hn => h2.names o (h' hn)⟩
    · exact Or.inr h
  more := fun o ho => h2.more o (h1.more o ho)
  names := fun n hn => h2.names n (h1.names n hn)
  used := fun n hn => h1.used n (h2.used n hn)
  insertId := by
    rcases h2.insertId with h | h
    · rw [h]
      rcases h1.insertId with h' | h'
      · exact Or.inl h'
      · exact Or.inr (h2.more _ h')
    · exact Or.inr h
  inputs := ⟨h2.inputs.1.trans h1.inputs.1, h2.inputs.2.trans h1.inputs.2⟩

theorem column_refs {env : TrxEnv} {f f1 : FileSt} {n : Nat} {col : Text} {k : String}
    (h : f.column env n col = .ok (f1, k)) :
    f1.keys k ≠ none ∧ (k ≠ noopCol → k ∈ refNames f1.colRefs) ∧
    (∀ n ∈ refNames f.colRefs, n ∈ refNames f1.colRefs) ∧
    (∀ n, usedNames f1.colRefs n → usedNames f.colRefs n) := by
  unfold FileSt.column at h
  dsimp only at h
  split at h
  · split at h
    · rename_i v hv
      cases h; exact ⟨by rw [hv]; simp, fun h => absurd rfl h, fun _ h => h, fun _ h => h⟩
    · cases h
      refine ⟨?_, fun h => absurd rfl h, fun _ h => h, fun _ h => h⟩
      simp [GoMap.set]
  · split at h
    · cases h
    · split at h
      · cases h
      · cases h
        refine ⟨?_, ?_, ?_, ?_⟩
        · simp [GoMap.set]
        · intro _; simp [refNames]
        · intro n hn; simp only [refNames, List.map_append, List.mem_append] at hn ⊢; exact Or.inl hn
        · rintro n ⟨k, hk, hpos⟩
          simp only [List.mem_append, List.mem_singleton, Prod.mk.injEq] at hk
          rcases hk with hk | ⟨-, rfl⟩
          · exact ⟨k, hk, hpos⟩
          · omega

theorem columns_refs {env : TrxEnv} {cols : List Text} : ∀ {f f1 : FileSt} {n : Nat}
    {ks : List String}, f.columns env n cols = .ok (f1, ks) →
    (∀ k ∈ ks, f1.keys k ≠ none ∧ (k ≠ noopCol → k ∈ refNames f1.colRefs)) ∧
    (∀ n ∈ refNames f.colRefs, n ∈ refNames f1.colRefs) ∧
    (∀ n, usedNames f1.colRefs n → usedNames f.colRefs n) := by
  induction cols with
  | nil => intro f f1 n ks h; cases h; exact ⟨by simp, fun _ h => h, fun _ h => h⟩
  | cons c cs ih =>
    intro f f1 n ks h
    obtain ⟨⟨f2, k⟩, h1, h⟩ := Out.bind_ok h
    obtain ⟨⟨f3, ks'⟩, h2, h⟩ := Out.bind_ok h
    cases Out.pure_ok h
    obtain ⟨a1, a2, a3, a4⟩ := column_refs h1
    obtain ⟨b1, b2, b3⟩ := ih h2
    refine ⟨?_, fun n hn => b2 n (a3 n hn), fun n hn => a4 n (b3 n hn)⟩
    intro x hx
    rcases List.mem_cons.mp hx with rfl | hx
    · exact ⟨(columns_frame h2).someKeys _ a1, fun hn => b2 _ (a2 hn)⟩
    · exact b1 x hx

theorem modStep_ok {env : TrxEnv} {f f1 : FileSt} {s s1 : Stmt} {mod : Text} {c : Option Nat}
    (h : modStep env f s mod = .ok (f1, s1, c)) : ModOk f f1 s s1 := by
  have hfr := modStep_frame h
  have hadd : ∀ (s s' : Stmt) (m : LimitMod), addLimit s m = .ok s' → ModOk f f s s' := by
    intro s s' m h
    unfold addLimit at h
    split at h
    · cases h
      exact ⟨.refl _, fun _ h => Or.inl h, fun _ h => h, fun _ h => h, fun _ h => h, Or.inl rfl, rfl, rfl⟩
    · cases h
  unfold modStep at h
  split at h
  · cases h
  · dsimp only at h
    split at h
    · cases h
      exact ⟨.refl _, fun _ h => Or.inl h, fun _ h => h, fun _ h => h, fun _ h => h, Or.inl rfl, rfl, rfl⟩
    split at h
    · obtain ⟨_, -, h⟩ := Out.bind_ok h
      obtain ⟨_, -, h⟩ := Out.bind_ok h
      cases Out.pure_ok h
      exact ⟨.refl _, fun _ h => Or.inl h, fun _ h => h, fun _ h => h, fun _ h => h, Or.inl rfl, rfl, rfl⟩
    split at h
    · obtain ⟨_, -, h⟩ := Out.bind_ok h
      obtain ⟨_, -, h⟩ := Out.bind_ok h
      obtain ⟨_, -, h⟩ := Out.bind_ok h
      obtain ⟨s', ha, h⟩ := Out.bind_ok h
      cases Out.pure_ok h; exact hadd _ _ _ ha
    split at h
    · split at h
      · obtain ⟨_, -, h⟩ := Out.bind_ok h
        obtain ⟨s', ha, h⟩ := Out.bind_ok h
        cases Out.pure_ok h; exact hadd _ _ _ ha
      · cases h
    split at h
    · split at h
      · cases h
      · obtain ⟨_, -, h⟩ := Out.bind_ok h
        obtain ⟨⟨f2, k⟩, h2, h⟩ := Out.bind_ok h
        cases Out.pure_ok h
        obtain ⟨a1, a2, a3, a4⟩ := column_refs h2
        refine ⟨hfr, ?_, fun o ho => by simp [ho], a3, a4, Or.inr (by simp), rfl, rfl⟩
        intro o ho
        simp only [List.mem_append, List.mem_singleton] at ho
        rcases ho with h | rfl
        · exact Or.inl h
        · exact Or.inr ⟨a1, a2⟩
    split at h
    · obtain ⟨⟨f2, k⟩, h2, h⟩ := Out.bind_ok h
      cases Out.pure_ok h
      obtain ⟨b1, b2, b3⟩ := columns_refs h2
      refine ⟨hfr, ?_, fun o ho => by simp [ho], b2, b3, Or.inl rfl, rfl, rfl⟩
      intro o ho
      simp only [List.mem_append] at ho
      rcases ho with h | h
      · exact Or.inl h
      · exact Or.inr (b1 o h)
    split at h
    · obtain ⟨_, -, h⟩ := Out.bind_ok h
      obtain ⟨_, -, h⟩ := Out.bind_ok h
      split at h
      · cases h
      split at h
      · cases Out.pure_ok h; exact .refl _ _
      · cases Out.pure_ok h; exact .refl _ _
    · cases h

theorem modLoop_ok {env : TrxEnv} {mods : List Text} : ∀ {f f1 : FileSt} {s s1 : Stmt}
    {c : Option Nat}, modLoop env f s mods = .ok (f1, s1, c) → ModOk f f1 s s1 := by
  induction mods with
  | nil => intro f f1 s s1 c h; cases h; exact .refl _ _
  | cons m ms ih =>
    intro f f1 s s1 c h
    obtain ⟨⟨f2, s2, c2⟩, h1, h⟩ := Out.bind_ok h
    have := modStep_ok h1
    dsimp only at h
    split at h
    · cases Out.pure_ok h; exact this
    · exact this.trans (ih h)

/-! ### Data keys -/

theorem incRef_names (name : String) (l : List (String × Nat)) :
    (∀ n ∈ refNames l, n ∈ refNames (incRef name l)) ∧
    (∀ n, usedNames (incRef name l) n → usedNames l n ∨ n = name) := by
  induction l with
  | nil =>
    refine ⟨by simp [refNames], ?_⟩
    rintro n ⟨k, hk, -⟩
    simp [incRef] at hk
    exact Or.inr hk.1
  | cons x xs ih =>
    obtain ⟨m, j⟩ := x
    simp only [incRef]
    split
    · rename_i hm
      subst hm
      refine ⟨by simp [refNames], ?_⟩
      rintro n ⟨k, hk, hp⟩
      simp only [List.mem_cons, Prod.mk.injEq] at hk
      rcases hk with ⟨rfl, -⟩ | hk
      · exact Or.inr rfl
      · exact Or.inl ⟨k, by simp [hk], hp⟩
    · refine ⟨?_, ?_⟩
      · intro n hn
        simp only [refNames, List.map_cons, List.mem_cons] at hn ⊢
        rcases hn with h | h
        · exact Or.inl h
        · exact Or.inr (ih.1 n h)
      · rintro n ⟨k, hk, hp⟩
        simp only [List.mem_cons, Prod.mk.injEq] at hk
        rcases hk with ⟨rfl, rfl⟩ | hk
        · exact Or.inl ⟨k, by simp, hp⟩
        · rcases ih.2 n ⟨k, hk, hp⟩ with ⟨k', h', hp'⟩ | h
          · exact Or.inl ⟨k', by simp [h'], hp'⟩
          · exact Or.inr h

theorem genOf_refs {env : TrxEnv} {f f1 : FileSt} {before : List Text} {name : Text} {g : GenInfo}
    (h : genOf env f before name = .ok (f1, g)) :
    (∀ n ∈ refNames f.colRefs, n ∈ refNames f1.colRefs) ∧
    (∀ n, usedNames f1.colRefs n → usedNames f.colRefs n ∨ n = String.ofList name) := by
  unfold genOf at h
  dsimp only at h
  split at h
  · cases h; exact incRef_names _ _
  split at h
  · split at h
    · cases h
    · split at h
      · cases h
      · split at h
        · cases h; exact ⟨fun _ h => h, fun _ h => Or.inl h⟩
        · cases h
  · split at h
    · cases h; exact ⟨fun _ h => h, fun _ h => Or.inl h⟩
    · split at h
      · cases h
      · split at h
        · cases h
        · cases h; exact ⟨fun _ h => h, fun _ h => Or.inl h⟩

theorem keyLoop_refs {env : TrxEnv} {p : Bool} {names : List Text} : ∀ {f f1 : FileSt}
    {before : List Text} {fmts fmts1 : List (Text × Text)},
    keyLoop env p f before fmts names = .ok (f1, fmts1) →
    (∀ n ∈ names, n = "@PREV".toList ∨ f1.keys (String.ofList n) ≠ none) ∧
    (∀ n ∈ refNames f.colRefs, n ∈ refNames f1.colRefs) ∧
    (∀ n, usedNames f1.colRefs n → usedNames f.colRefs n ∨ n ∈ names.map String.ofList) := by
  induction names with
  | nil =>
    intro f f1 before fmts fmts1 h
    cases h
    exact ⟨by simp, fun _ h => h, fun _ h => Or.inl h⟩
  | cons n ns ih =>
    intro f f1 before fmts fmts1 h
    obtain ⟨⟨f2, g⟩, h1, h⟩ := Out.bind_ok h
    obtain ⟨a1, a2⟩ := genOf_refs h1
    obtain ⟨b1, b2, b3⟩ := ih h
    refine ⟨?_, fun m hm => b2 m (a1 m hm), ?_⟩
    · intro m hm
      rcases List.mem_cons.mp hm with rfl | hm
      · by_cases hp : m = "@PREV".toList
        · exact Or.inl hp
        · obtain ⟨k, hk⟩ := (genOf_ok h1).2.2 hp
          exact Or.inr ((keyLoop_frame h).someKeys _ (by rw [hk]; simp))
      · exact b1 m hm
    · intro m hm
      rcases b3 m hm with h | h
      · rcases a2 m h with h | rfl
        · exact Or.inl h
        · exact Or.inr (by simp)
      · exact Or.inr (by simp only [List.map_cons, List.mem_cons]; exact Or.inr h)

/-- One statement. -/
theorem one_ok {env : TrxEnv} {f f1 f' : FileSt} {s1 s : Stmt} {q : Text} {mods : List Text}
    {c : Option Nat} (h1 : modLoop env f (classify env.trx q) mods = .ok (f1, s1, c))
    (h2 : finish env f1 s1 q = .ok (f', s)) : StepOk f f' [s] := by
  have hm := modLoop_ok h1
  have hfr := finish_frame h2
  have hin : s1.inputs = [] ∧ s1.calls = [] := ⟨hm.inputs.1.trans rfl, hm.inputs.2.trans rfl⟩
  have hout : ∀ o ∈ s1.outputs, f1.keys o ≠ none ∧ (o ≠ noopCol → o ∈ refNames f1.colRefs) := by
    intro o ho
    rcases hm.outputs o ho with h | h
    · exact absurd h (by simp [classify])
    · exact h
  have hid : s1.insertId = "" ∨ s1.insertId ∈ s1.outputs := hm.insertId.imp (fun h => h.trans rfl) id
  unfold finish at h2
  obtain ⟨⟨d, q2⟩, -, h⟩ := Out.bind_ok h2
  dsimp only at h
  split at h
  · cases Out.pure_ok h
    refine ⟨hm.frame.grow, hm.frame.stmts, ?_, hm.names, ?_, ?_⟩
    · intro s hs
      simp only [List.mem_singleton] at hs
      subst hs
      exact ⟨by simp [hin.1], fun o ho => (hout o ho).1, hid, by simp [hin.1, hin.2]⟩
    · intro s hs o ho hne
      simp only [List.mem_singleton] at hs
      subst hs
      exact (hout o ho).2 hne
    · intro n hn; exact Or.inl (hm.used n hn)
  · obtain ⟨⟨f3, fm⟩, h3, h⟩ := Out.bind_ok h
    cases Out.pure_ok h
    obtain ⟨k1, k2, k3⟩ := keyLoop_refs h3
    have hfr3 := keyLoop_frame h3
    refine ⟨fun k v hk => hfr3.grow k v (hm.frame.grow k v hk), hfr3.stmts.trans hm.frame.stmts, ?_,
      fun n hn => k2 n (hm.names n hn), ?_, ?_⟩
    · intro s hs
      simp only [List.mem_singleton] at hs
      subst hs
      refine ⟨?_, fun o ho => hfr3.someKeys o (hout o ho).1, hid, by simp⟩
      intro k hk
      simp only [List.mem_map] at hk
      obtain ⟨t, ht, rfl⟩ := hk
      rcases k1 t (by simpa using ht) with h | h
      · exact Or.inl (by rw [h]; exact prevStr)
      · exact Or.inr h
    · intro s hs o ho hne
      simp only [List.mem_singleton] at hs
      subst hs
      exact k2 o ((hout o ho).2 hne)
    · intro n hn
      rcases k3 n hn with h | h
      · exact Or.inl (hm.used n h)
      · exact Or.inr ⟨_, List.mem_singleton.mpr rfl, h⟩

theorem copyLoop_ok {env : TrxEnv} {fuel : Nat} {k : Nat} : ∀ {f f' : FileSt} {i : Nat}
    {ss : List Stmt}, (∀ m ∈ f.mods, keepInCopies m = true) →
    copyLoop (statements env fuel) f i k = .ok (f', ss) → StepOk f f' ss := by
  induction k with
  | zero =>
    intro f f' i ss _ h
    cases h
    exact ⟨fun _ _ h => h, rfl, by simp, fun _ h => h, by simp, fun _ h => Or.inl h⟩
  | succ k ih =>
    intro f f' i ss hk h
    obtain ⟨⟨f2, ms⟩, h1, h⟩ := Out.bind_ok h
    dsimp only at h
    cases ms with
    | nil => cases h
    | cons s rest =>
      obtain ⟨⟨f3, ss'⟩, h3, h⟩ := Out.bind_ok h
      cases Out.pure_ok h
      obtain ⟨-, f4, s4, e1, e2⟩ := statements_one (f := { f with copyNo := i + 1 }) hk h1
      have hmods : f2.mods = f.mods := (finish_frame e2).mods.trans (modLoop_frame e1).mods
      have hs := one_ok e1 e2
      have hs' : StepOk f f2 [s] := ⟨hs.grow, hs.stmts, hs.ok, hs.names, hs.saved, hs.used⟩
      exact hs'.trans (ih (by rw [hmods]; exact hk) h3)

theorem setPrepareMulti_ok {f f' : FileSt} {ss : List Stmt} {n : Nat} (h : StepOk f f' ss) :
    StepOk f f' (setPrepareMulti n ss) := by
  cases ss with
  | nil => exact h
  | cons s ss =>
    have hs := h.ok s (by simp)
    refine ⟨h.grow, h.stmts, ?_, h.names, ?_, ?_⟩
    · intro x hx
      rcases List.mem_cons.mp hx with rfl | hx
      · exact ⟨hs.inputs, hs.outputs, hs.insertId, hs.calls⟩
      · exact h.ok x (by simp [hx])
    · intro x hx
      rcases List.mem_cons.mp hx with rfl | hx
      · exact h.saved s (by simp)
      · exact h.saved x (by simp [hx])
    · intro m hm
      rcases h.used m hm with h | ⟨x, hx, hin⟩
      · exact Or.inl h
      · rcases List.mem_cons.mp hx with rfl | hx
        · exact Or.inr ⟨{ x with prepareMulti := n }, by simp [setPrepareMulti], hin⟩
        · exact Or.inr ⟨x, by simp [setPrepareMulti, hx], hin⟩

theorem statements_ok {env : TrxEnv} {fuel : Nat} {f f' : FileSt} {ss : List Stmt}
    (h : statements env fuel f = .ok (f', ss)) : StepOk f f' ss := by
  cases fuel with
  | zero => cases h
  | succ fuel =>
    unfold statements at h
    obtain ⟨⟨f2, s2, c⟩, h1, h⟩ := Out.bind_ok h
    dsimp only at h
    have hm := modLoop_ok h1
    split at h
    · obtain ⟨⟨f3, s3⟩, h2, h⟩ := Out.bind_ok h
      cases Out.pure_ok h
      have := one_ok h1 h2
      exact ⟨this.grow, this.stmts, this.ok, this.names, this.saved, this.used⟩
    · cases Out.pure_ok h
      exact ⟨hm.frame.grow, hm.frame.stmts, by simp, hm.names, by simp, fun n hn => Or.inl (hm.used n hn)⟩
    · obtain ⟨⟨f3, ss'⟩, h2, h⟩ := Out.bind_ok h
      cases Out.pure_ok h
      have hc := copyLoop_ok (fun m hmm => (List.mem_filter.mp hmm).2) h2
      have h3 : StepOk f { f3 with copyNo := 0 } ss' :=
        ⟨fun k v hk => hc.grow k v (hm.frame.grow k v hk), hc.stmts.trans hm.frame.stmts, hc.ok,
          fun n hn => hc.names n (hm.names n hn), hc.saved,
          fun n hn => (hc.used n hn).imp (hm.used n) id⟩
      split
      · exact setPrepareMulti_ok h3
      · exact h3

/-! ### Files -/

/-- The invariant of the loop over the lines of a file. -/
structure FileOk (f : FileSt) : Prop where
  ok : ∀ s ∈ f.stmts, StmtOk f.keys s
  saved : ∀ s ∈ f.stmts, ∀ o ∈ s.outputs, o ≠ noopCol → o ∈ refNames f.colRefs
  used : ∀ n, usedNames f.colRefs n → ∃ s ∈ f.stmts, n ∈ s.inputs

theorem line_ok {env : TrxEnv} {f : FileSt} {l : Text} (hf : FileOk f) :
    match f.line env (FileSt.statements env) l with
    | .ok (.next f') => FileOk f' ∧ ∀ k v, f.keys k = some v → f'.keys k = some v
    | .ok (.eof f') => FileOk f' ∧ ∀ k v, f.keys k = some v → f'.keys k = some v
    | _ => True := by
  unfold FileSt.line
  dsimp only
  split
  · rename_i f' h
    split at h
    · split at h
      · split at h
        · cases h
        · split at h
          · cases h
          · cases h; exact ⟨⟨hf.ok, hf.saved, hf.used⟩, fun _ _ h => h⟩
      · cases h; exact ⟨⟨hf.ok, hf.saved, hf.used⟩, fun _ _ h => h⟩
    · split at h
      · cases h; exact ⟨⟨hf.ok, hf.saved, hf.used⟩, fun _ _ h => h⟩
      · split at h
        · rename_i f2 ss hst
          cases h
          have hs := statements_ok hst
          have hst : f2.stmts = f.stmts := hs.stmts
          refine ⟨⟨?_, ?_, ?_⟩, hs.grow⟩
          · intro s hmem
            rcases List.mem_append.mp hmem with h | h
            · rw [hst] at h; exact (hf.ok s h).grow hs.grow
            · exact hs.ok s h
          · intro s hmem o ho hne
            rcases List.mem_append.mp hmem with h | h
            · rw [hst] at h; exact hs.names o (hf.saved s h o ho hne)
            · exact hs.saved s h o ho hne
          · intro n hn
            rcases hs.used n hn with h | ⟨s, hs1, h⟩
            · obtain ⟨s, hs1, hin⟩ := hf.used n h
              exact ⟨s, List.mem_append.mpr (Or.inl (by rw [hst]; exact hs1)), hin⟩
            · exact ⟨s, List.mem_append.mpr (Or.inr hs1), h⟩
        · cases h
        · cases h
  · rename_i f' h
    split at h
    · split at h
      · split at h
        · cases h; exact ⟨⟨hf.ok, hf.saved, hf.used⟩, fun _ _ h => h⟩
        · split at h
          · cases h
          · cases h
      · cases h
    · split at h
      · cases h
      · split at h <;> cases h
  · trivial

theorem lines_ok {env : TrxEnv} {ls : List Text} : ∀ {f f' : FileSt}, FileOk f →
    f.lines env (FileSt.statements env) ls = .ok f' →
    FileOk f' ∧ ∀ k v, f.keys k = some v → f'.keys k = some v := by
  have hlast : ∀ {f f' : FileSt}, FileOk f →
      (match f.line env (FileSt.statements env) [] with
        | .ok (.next f) => (.ok f : Out FileSt)
        | .ok (.eof f) => .ok f
        | .err => .err
        | .panic => .panic) = .ok f' →
      FileOk f' ∧ ∀ k v, f.keys k = some v → f'.keys k = some v := by
    intro f f' hf h
    have hl := line_ok (env := env) (l := []) hf
    cases hr : f.line env (FileSt.statements env) [] with
    | err => rw [hr] at h; cases h
    | panic => rw [hr] at h; cases h
    | ok r =>
      rw [hr] at h hl
      cases r with
      | next f2 => cases h; exact hl
      | eof f2 => cases h; exact hl
  induction ls with
  | nil => intro f f' hf h; exact hlast hf h
  | cons l ls ih =>
    intro f f' hf h
    simp only [FileSt.lines] at h
    have hl := line_ok (env := env) (l := trimSpace l) hf
    cases hr : f.line env (FileSt.statements env) (trimSpace l) with
    | err => rw [hr] at h; cases h
    | panic => rw [hr] at h; cases h
    | ok r =>
      rw [hr] at h hl
      cases r with
      | next f2 =>
        obtain ⟨h1, h2⟩ := ih hl.1 h
        exact ⟨h1, fun k v hk => h2 k v (hl.2 k v hk)⟩
      | eof f2 =>
        obtain ⟨h1, h2⟩ := hlast hl.1 h
        exact ⟨h1, fun k v hk => h2 k v (hl.2 k v hk)⟩

/-- What one loaded file adds. -/
theorem loadFile_ok {set set' : TrxSet} {tf : TrxFile} (h : loadFile set tf = .ok set') :
    set'.order = set.order ++ [tf.env.trx] ∧
    (∀ k v, set.keys k = some v → set'.keys k = some v) ∧
    ∃ ss, set'.statements = set.statements.set tf.env.trx ss ∧ ss ≠ [] ∧
      (∀ s ∈ ss, StmtOk set'.keys s) ∧
      ∀ s ∈ ss, ∀ o ∈ s.outputs, o ≠ noopCol → ∃ s' ∈ ss, o ∈ s'.inputs := by
  unfold loadFile at h
  split at h
  · cases h
  · rename_i ls _
    split at h
    · cases h
    · cases h
    · rename_i f hl
      split at h
      · cases h
      · rename_i hne
        split at h
        · cases h
        · rename_i href
          cases h
          obtain ⟨hf, hg⟩ := lines_ok (f := FileSt.new tf.data set.keys)
            ⟨by simp [FileSt.new], by simp [FileSt.new], by
              rintro n ⟨k, hk, -⟩; simp [FileSt.new] at hk⟩ hl
          refine ⟨rfl, hg, f.stmts, rfl, hne, hf.ok, ?_⟩
          intro s hs o ho hn
          have hin := hf.saved s hs o ho hn
          simp only [refNames, List.mem_map] at hin
          obtain ⟨⟨n, k⟩, hmem, rfl⟩ := hin
          refine hf.used _ ⟨k, hmem, ?_⟩
          simp only [List.any_eq_true, decide_eq_true_eq, not_exists, not_and] at href
          have := href _ hmem
          dsimp only at this
          omega

/-- Loading more files into a good set gives a good set. -/
theorem loadTrx_keys_exist (set set' : TrxSet) (tfs : List TrxFile)
    (h0 : ∀ n ss, set.statements n = some ss → ss ≠ [] ∧ ∀ s ∈ ss, StmtOk set.keys s)
    (h0' : ∀ n ∈ set.order, set.statements n ≠ none)
    (h : loadTrx set tfs = .ok set') :
    (∀ n ∈ set'.order, set'.statements n ≠ none) ∧
    ∀ n ss, set'.statements n = some ss → ss ≠ [] ∧ ∀ s ∈ ss,
      (∀ k ∈ s.inputs, k = "@PREV" ∨ set'.keys k ≠ none) ∧ (∀ k ∈ s.outputs, set'.keys k ≠ none) ∧
      (s.insertId = "" ∨ s.insertId ∈ s.outputs) ∧ s.calls.length = s.inputs.length := by
  induction tfs generalizing set with
  | nil =>
    cases h
    refine ⟨h0', fun n ss hn => ⟨(h0 n ss hn).1, fun s hs => ?_⟩⟩
    have := (h0 n ss hn).2 s hs
    exact ⟨this.inputs, this.outputs, this.insertId, this.calls⟩
  | cons tf tfs ih =>
    simp only [loadTrx] at h
    cases hl : loadFile set tf with
    | err => rw [hl] at h; cases h
    | panic => rw [hl] at h; cases h
    | ok set1 =>
      rw [hl] at h
      obtain ⟨h1, h2, ss, h3, h4, h5, -⟩ := loadFile_ok hl
      refine ih set1 ?_ ?_ h
      · intro n ss' hn
        rw [h3] at hn
        by_cases hnt : n = tf.env.trx
        · subst hnt
          rw [GoMap.set_same] at hn
          cases hn
          exact ⟨h4, h5⟩
        · rw [GoMap.set_other _ _ hnt] at hn
          obtain ⟨a, b⟩ := h0 n ss' hn
          exact ⟨a, fun s hs => (b s hs).grow h2⟩
      · intro n hn
        rw [h3]
        by_cases hnt : n = tf.env.trx
        · subst hnt; rw [GoMap.set_same]; simp
        · rw [GoMap.set_other _ _ hnt]
          rw [h1] at hn
          simp only [List.mem_append, List.mem_singleton] at hn
          exact h0' n (hn.resolve_right hnt)

/-- C73. In a loaded trx set every trx of the order has at least one statement, every data key that a
statement uses or saves (except `@PREV`) has a generator, the insert id is one of the saved keys, and
there is one call mark per input. -/
theorem C73_loaded_keys_exist (set' : TrxSet) (tfs : List TrxFile)
    (h : loadTrx ⟨[], GoMap.empty, GoMap.empty, GoMap.empty⟩ tfs = .ok set') :
    (∀ n ∈ set'.order, set'.statements n ≠ none) ∧
    ∀ n ss, set'.statements n = some ss → ss ≠ [] ∧ ∀ s ∈ ss,
      (∀ k ∈ s.inputs, k = "@PREV" ∨ set'.keys k ≠ none) ∧ (∀ k ∈ s.outputs, set'.keys k ≠ none) ∧
      (s.insertId = "" ∨ s.insertId ∈ s.outputs) ∧ s.calls.length = s.inputs.length :=
  loadTrx_keys_exist _ _ tfs (by intro n ss h; simp [GoMap.empty] at h) (by simp) h

/-- C74. In a loaded file every saved column (other than the no-op column) is an input of a statement
of the same file. -/
theorem C74_saved_columns_used (set set' : TrxSet) (tf : TrxFile) (h : loadFile set tf = .ok set') :
    ∃ ss, set'.statements tf.env.trx = some ss ∧
      ∀ s ∈ ss, ∀ o ∈ s.outputs, o ≠ "_" → ∃ s' ∈ ss, o ∈ s'.inputs := by
  obtain ⟨-, -, ss, h3, -, -, h6⟩ := loadFile_ok h
  exact ⟨ss, by rw [h3, GoMap.set_same], h6⟩

/-- C75. Loading keeps the order of the files: the order is the list of trx names as configured. -/
theorem C75_order (set set' : TrxSet) (tfs : List TrxFile) (h : loadTrx set tfs = .ok set') :
    set'.order = set.order ++ tfs.map (fun tf => tf.env.trx) := by
  induction tfs generalizing set with
  | nil => cases h; simp
  | cons tf tfs ih =>
    simp only [loadTrx] at h
    cases hl : loadFile set tf with
    | err => rw [hl] at h; cases h
    | panic => rw [hl] at h; cases h
    | ok set1 =>
      rw [hl] at h
      rw [ih set1 h, (loadFile_ok hl).1]
      simp

/-- C75. With distinct trx names, the statements of a file are those of that file alone: files loaded
later do not change them. -/
theorem C75_statements_kept (set set' : TrxSet) (tfs : List TrxFile) (n : String)
    (hn : ∀ tf ∈ tfs, tf.env.trx ≠ n) (h : loadTrx set tfs = .ok set') :
    set'.statements n = set.statements n := by
  induction tfs generalizing set with
  | nil => cases h; rfl
  | cons tf tfs ih =>
    simp only [loadTrx] at h
    cases hl : loadFile set tf with
    | err => rw [hl] at h; cases h
    | panic => rw [hl] at h; cases h
    | ok set1 =>
      rw [hl] at h
      rw [ih set1 (fun tf htf => hn tf (by simp [htf])) h]
      obtain ⟨-, -, ss, h3, -⟩ := loadFile_ok hl
      rw [h3, GoMap.set_other _ _ (fun he => hn tf (by simp) he.symm)]

/-- The empty set. -/
def demoSet : TrxSet := ⟨[], GoMap.empty, GoMap.empty, GoMap.empty⟩

/-- A file with two statements that saves a column and uses it. -/
def demoTrxFile : TrxFile :=
  { env := demoEnv, data := demoData
    lines := some (["-- save-columns: @c", "SELECT c FROM t WHERE id=@d", "",
      "UPDATE t SET c=@c WHERE n BETWEEN @r AND @PREV"].map String.toList) }

/-- Queries and inputs of a trx. -/
def trxOf (n : String) : Out TrxSet → Option (List (String × List String × List String))
  | .ok set => (set.statements n).map fun ss =>
      ss.map fun s => (String.ofList s.query, s.inputs, s.outputs)
  | _ => none

/-- The file loads. -/
example : trxOf "t" (loadTrx demoSet [demoTrxFile]) =
    some [("SELECT c FROM t WHERE id=%d", ["@d"], ["@c"]),
      ("UPDATE t SET c=%v WHERE n BETWEEN %d AND %d", ["@c", "@r", "@PREV"], [])] := by
  decide +kernel

end Finch
