import Verif.Props.TrxLoaded
/-!
C74, the converse: a file is refused because of an unused column only if a column is unused.
-/
namespace Finch

/-- The invariant of the column references; `ss` are the statements so far and `M` holds of the columns
that the modifiers save. -/
structure RefInv (M : String → Prop) (f : FileSt) (ss : List Stmt) : Prop where
  tracked : ∀ p ∈ f.colRefs, ∃ k, f.keys p.1 = some k ∧ 0 ≤ k.column
  nodup : (refNames f.colRefs).Nodup
  zero : ∀ n, (n, 0) ∈ f.colRefs → M n ∧ ∀ s ∈ ss, n ∉ s.inputs
  known : ∀ s ∈ ss, ∀ k ∈ s.inputs, k = "@PREV" ∨ f.keys k ≠ none

theorem RefInv.mono {M : String → Prop} {f : FileSt} {ss ss' : List Stmt} (h : RefInv M f ss)
    (hs : ∀ s ∈ ss', ∃ s' ∈ ss, s'.inputs = s.inputs) : RefInv M f ss' where
  tracked := h.tracked
  nodup := h.nodup
  zero := fun n hn => ⟨(h.zero n hn).1, fun s hss => by
    obtain ⟨s', h1, h2⟩ := hs s hss
    rw [← h2]; exact (h.zero n hn).2 s' h1⟩
  known := fun s hss => by
    obtain ⟨s', h1, h2⟩ := hs s hss
    rw [← h2]; exact h.known s' h1

/-- Only the keys and the column references matter. -/
theorem RefInv.congr {M : String → Prop} {f f' : FileSt} {ss : List Stmt} (h : RefInv M f ss)
    (hk : f'.keys = f.keys) (hc : f'.colRefs = f.colRefs) : RefInv M f' ss :=
  ⟨by rw [hk, hc]; exact h.tracked, by rw [hc]; exact h.nodup, by rw [hc]; exact h.zero,
    by rw [hk]; exact h.known⟩

theorem column_refInv {M : String → Prop} (hM : ¬ M "@PREV") {env : TrxEnv} {f f1 : FileSt} {n : Nat}
    {col : Text} {k : String} {ss : List Stmt} (hi : RefInv M f ss)
    (h : f.column env n col = .ok (f1, k)) (hk : k ≠ "_" → M k) : RefInv M f1 ss := by
  have hgrow := (column_frame h).grow
  unfold FileSt.column at h
  dsimp only at h
  split at h
  · split at h
    · cases h; exact hi
    · cases h
      refine ⟨fun p hp => ?_, hi.nodup, hi.zero, fun s hs x hx => ?_⟩
      · obtain ⟨v, h1, h2⟩ := hi.tracked p hp
        exact ⟨v, hgrow _ _ h1, h2⟩
      · refine (hi.known s hs x hx).imp id (fun hne => ?_)
        obtain ⟨v, hv⟩ := Option.ne_none_iff_exists'.mp hne
        rw [hgrow _ _ hv]; simp
  · rename_i hnoop
    split at h
    · cases h
    · rename_i hnone
      split at h
      · cases h
      · cases h
        have hMk := hk hnoop
        have hnew : String.ofList (trimSpace (trimSuffix [','] col)) ∉ refNames f.colRefs := by
          intro hin
          obtain ⟨p, hp, he⟩ := List.mem_map.mp hin
          obtain ⟨v, hv, -⟩ := hi.tracked p hp
          rw [he, hnone] at hv; cases hv
        refine ⟨fun p hp => ?_, ?_, fun x hx => ?_, fun s hs x hx => ?_⟩
        · rcases List.mem_append.mp hp with hp | hp
          · obtain ⟨v, h1, h2⟩ := hi.tracked p hp
            exact ⟨v, hgrow _ _ h1, h2⟩
          · rw [List.mem_singleton.mp hp]
            refine ⟨_, GoMap.set_same _ _ _, ?_⟩
            simp [colKey]
        · simp only [refNames, List.map_append, List.map_cons, List.map_nil]
          refine List.nodup_append.mpr ⟨hi.nodup, by simp, ?_⟩
          intro a ha b hb
          rw [List.mem_singleton.mp hb]
          rintro rfl
          exact hnew ha
        · rcases List.mem_append.mp hx with hx | hx
          · exact hi.zero x hx
          · have : x = String.ofList (trimSpace (trimSuffix [','] col)) := by
              simpa using hx
            subst this
            refine ⟨hMk, fun s hs hin => ?_⟩
            rcases hi.known s hs _ hin with h | h
            · rw [h] at hMk; exact hM hMk
            · exact h hnone
        · refine (hi.known s hs x hx).imp id (fun hne => ?_)
          obtain ⟨v, hv⟩ := Option.ne_none_iff_exists'.mp hne
          rw [hgrow _ _ hv]; simp

theorem columns_refInv {M : String → Prop} (hM : ¬ M "@PREV") {env : TrxEnv} {ss : List Stmt}
    {cols : List Text} : ∀ {f f1 : FileSt} {n : Nat} {ks : List String}, RefInv M f ss →
    f.columns env n cols = .ok (f1, ks) → (∀ c ∈ cols, colName c ≠ "_" → M (colName c)) →
    RefInv M f1 ss := by
  induction cols with
  | nil => intro f f1 n ks hi h _; cases h; exact hi
  | cons c cs ih =>
    intro f f1 n ks hi h hc
    obtain ⟨⟨f2, k⟩, h1, h⟩ := Out.bind_ok h
    obtain ⟨⟨f3, ks'⟩, h2, h⟩ := Out.bind_ok h
    cases Out.pure_ok h
    exact ih (column_refInv hM hi h1 (by rw [column_name h1]; exact hc c (by simp))) h2
      (fun x hx => hc x (by simp [hx]))

theorem modStep_refInv {M : String → Prop} (hM : ¬ M "@PREV") {env : TrxEnv} {f f1 : FileSt}
    {s s1 : Stmt} {mod : Text} {c : Option Nat} {ss : List Stmt} (hi : RefInv M f ss)
    (hm : ∀ o ∈ savedBy mod, o ≠ "_" → M o) (h : modStep env f s mod = .ok (f1, s1, c)) :
    RefInv M f1 ss := by
  unfold modStep at h
  unfold savedBy modName at hm
  split at h
  · cases h
  · rename_i m0 ms hf
    rw [hf] at hm
    simp only [List.head?_cons, Option.map_some, Option.some.injEq] at hm
    dsimp only at h
    split at h
    · cases h; exact hi
    split at h
    · obtain ⟨_, -, h⟩ := Out.bind_ok h
      obtain ⟨_, -, h⟩ := Out.bind_ok h
      cases Out.pure_ok h; exact hi
    split at h
    · obtain ⟨_, -, h⟩ := Out.bind_ok h
      obtain ⟨_, -, h⟩ := Out.bind_ok h
      obtain ⟨_, -, h⟩ := Out.bind_ok h
      obtain ⟨s', ha, h⟩ := Out.bind_ok h
      cases Out.pure_ok h; exact hi
    split at h
    · split at h
      · obtain ⟨_, -, h⟩ := Out.bind_ok h
        obtain ⟨s', ha, h⟩ := Out.bind_ok h
        cases Out.pure_ok h; exact hi
      · cases h
    split at h
    · rename_i hn
      rw [hn, if_neg (by decide), if_pos rfl] at hm
      split at h
      · cases h
      · obtain ⟨w, hw, h⟩ := Out.bind_ok h
        obtain ⟨⟨f2, k⟩, h2, h⟩ := Out.bind_ok h
        cases Out.pure_ok h
        cases ms with
        | nil => cases hw
        | cons b bs =>
          cases hw
          refine column_refInv hM hi h2 ?_
          rw [column_name h2]
          exact hm _ (by simp)
    split at h
    · rename_i hn
      rw [hn, if_pos rfl] at hm
      obtain ⟨⟨f2, k⟩, h2, h⟩ := Out.bind_ok h
      cases Out.pure_ok h
      exact columns_refInv hM hi h2 (fun c hc => hm _ (List.mem_map.mpr ⟨c, hc, rfl⟩))
    split at h
    · obtain ⟨_, -, h⟩ := Out.bind_ok h
      obtain ⟨_, -, h⟩ := Out.bind_ok h
      split at h
      · cases h
      split at h
      · cases Out.pure_ok h; exact hi
      · cases Out.pure_ok h; exact hi
    · cases h

theorem modLoop_refInv {M : String → Prop} (hM : ¬ M "@PREV") {env : TrxEnv} {ss : List Stmt}
    {mods : List Text} : ∀ {f f1 : FileSt} {s s1 : Stmt} {c : Option Nat}, RefInv M f ss →
    (∀ m ∈ mods, ∀ o ∈ savedBy m, o ≠ "_" → M o) → modLoop env f s mods = .ok (f1, s1, c) →
    RefInv M f1 ss := by
  induction mods with
  | nil => intro f f1 s s1 c hi _ h; cases h; exact hi
  | cons m ms ih =>
    intro f f1 s s1 c hi hm h
    obtain ⟨⟨f2, s2, c2⟩, h1, h⟩ := Out.bind_ok h
    have := modStep_refInv hM hi (hm m (by simp)) h1
    dsimp only at h
    split at h
    · cases Out.pure_ok h; exact this
    · exact ih this (fun m hmm => hm m (by simp [hmm])) h

/-! ### Use of the columns -/

theorem incRef_zero {name : String} {l : List (String × Nat)} (hn : (refNames l).Nodup) :
    (refNames (incRef name l)).Nodup ∧
    (∀ p ∈ incRef name l, p.1 = name ∨ p ∈ l) ∧
    ∀ n, (n, 0) ∈ incRef name l → (n, 0) ∈ l ∧ n ≠ name := by
  induction l with
  | nil => simp [incRef, refNames]
  | cons x xs ih =>
    obtain ⟨m, j⟩ := x
    simp only [refNames, List.map_cons, List.nodup_cons] at hn
    obtain ⟨i1, i2, i3⟩ := ih hn.2
    simp only [incRef]
    split
    · rename_i he
      subst he
      refine ⟨by simpa [refNames] using hn, ?_, ?_⟩
      · intro p hp
        rcases List.mem_cons.mp hp with rfl | hp
        · exact Or.inl rfl
        · exact Or.inr (by simp [hp])
      · intro n hmem
        rcases List.mem_cons.mp hmem with h | h
        · cases h
        · refine ⟨by simp [h], ?_⟩
          rintro rfl
          exact hn.1 (List.mem_map.mpr ⟨_, h, rfl⟩)
    · rename_i hne
      refine ⟨?_, ?_, ?_⟩
      · simp only [refNames, List.map_cons, List.nodup_cons]
        refine ⟨fun hin => ?_, i1⟩
        obtain ⟨p, hp, he⟩ := List.mem_map.mp hin
        rcases i2 p hp with h | h
        · exact hne (he ▸ h)
        · exact hn.1 (List.mem_map.mpr ⟨p, h, he⟩)
      · intro p hp
        rcases List.mem_cons.mp hp with rfl | hp
        · exact Or.inr (by simp)
        · exact (i2 p hp).imp id (by intro h; simp [h])
      · intro n hmem
        rcases List.mem_cons.mp hmem with h | h
        · cases h; exact ⟨by simp, hne⟩
        · exact ⟨by simp [(i3 n h).1], (i3 n h).2⟩

theorem genOf_refInv {M : String → Prop} {env : TrxEnv} {f f1 : FileSt} {before : List Text}
    {name : Text} {g : GenInfo} {ss : List Stmt} (hi : RefInv M f ss)
    (h : genOf env f before name = .ok (f1, g)) :
    RefInv M f1 ss ∧ ∀ n, (n, 0) ∈ f1.colRefs → (n, 0) ∈ f.colRefs ∧ n ≠ String.ofList name := by
  have hgrow := (genOf_frame h).grow
  have hgrow' : ∀ k, f.keys k ≠ none → f1.keys k ≠ none := by
    intro k hk
    obtain ⟨v, hv⟩ := Option.ne_none_iff_exists'.mp hk
    rw [hgrow _ _ hv]; simp
  have hsame : f1.colRefs = f.colRefs → RefInv M f1 ss := by
    intro he
    refine ⟨fun p hp => ?_, by rw [he]; exact hi.nodup, by rw [he]; exact hi.zero,
      fun s hs k hk => (hi.known s hs k hk).imp id (hgrow' k)⟩
    obtain ⟨v, h1, h2⟩ := hi.tracked p (he ▸ hp)
    exact ⟨v, hgrow _ _ h1, h2⟩
  have hother : savedCol f.keys (String.ofList name) = none → ∀ n, (n, 0) ∈ f.colRefs →
      n ≠ String.ofList name := by
    rintro hs n hn rfl
    obtain ⟨v, h1, h2⟩ := hi.tracked _ hn
    unfold savedCol at hs
    dsimp only at h1
    rw [h1] at hs
    simp only at hs
    rw [if_pos h2] at hs
    cases hs
  unfold genOf at h
  dsimp only at h
  split at h
  · rename_i k hk
    cases h
    obtain ⟨i1, i2, i3⟩ := incRef_zero (name := String.ofList name) hi.nodup
    refine ⟨⟨fun p hp => ?_, i1, fun n hn => hi.zero n (i3 n hn).1, hi.known⟩, i3⟩
    rcases i2 p hp with h | h
    · rw [h]
      unfold savedCol at hk
      split at hk
      · rename_i v hv
        split at hk
        · rename_i hge
          exact ⟨v, hv, hge⟩
        · cases hk
      · cases hk
    · exact hi.tracked p h
  · rename_i hs
    have fin : f1.colRefs = f.colRefs →
        RefInv M f1 ss ∧ ∀ n, (n, 0) ∈ f1.colRefs → (n, 0) ∈ f.colRefs ∧ n ≠ String.ofList name :=
      fun he => ⟨hsame he, fun n hn => ⟨he ▸ hn, hother hs n (he ▸ hn)⟩⟩
    split at h
    · split at h
      · cases h
      · split at h
        · cases h
        · split at h
          · cases h; exact fin rfl
          · cases h
    · split at h
      · cases h; exact fin rfl
      · split at h
        · cases h
        · split at h
          · cases h
          · cases h; exact fin rfl

theorem keyLoop_refInv {M : String → Prop} {env : TrxEnv} {p : Bool} {ss : List Stmt}
    {names : List Text} : ∀ {f f1 : FileSt} {before : List Text} {fmts fmts1 : List (Text × Text)},
    RefInv M f ss → keyLoop env p f before fmts names = .ok (f1, fmts1) →
    RefInv M f1 ss ∧ ∀ n, (n, 0) ∈ f1.colRefs → (n, 0) ∈ f.colRefs ∧ n ∉ names.map String.ofList := by
  induction names with
  | nil => intro f f1 before fmts fmts1 hi h; cases h; exact ⟨hi, fun n hn => ⟨hn, by simp⟩⟩
  | cons x xs ih =>
    intro f f1 before fmts fmts1 hi h
    obtain ⟨⟨f2, g⟩, h1, h⟩ := Out.bind_ok h
    obtain ⟨a1, a2⟩ := genOf_refInv hi h1
    obtain ⟨b1, b2⟩ := ih a1 h
    refine ⟨b1, fun n hn => ?_⟩
    obtain ⟨c1, c2⟩ := b2 n hn
    obtain ⟨d1, d2⟩ := a2 n c1
    refine ⟨d1, ?_⟩
    simp only [List.map_cons, List.mem_cons, not_or]
    exact ⟨d2, c2⟩

theorem finish_refInv {M : String → Prop} {env : TrxEnv} {f f1 : FileSt} {s s1 : Stmt} {q : Text}
    {ss : List Stmt} (hs0 : s.inputs = []) (hi : RefInv M f ss)
    (h : finish env f s q = .ok (f1, s1)) : RefInv M f1 (ss ++ [s1]) := by
  unfold finish at h
  obtain ⟨⟨d, q2⟩, -, h⟩ := Out.bind_ok h
  dsimp only at h
  split at h
  · cases Out.pure_ok h
    refine ⟨hi.tracked, hi.nodup, fun n hn => ⟨(hi.zero n hn).1, fun x hx => ?_⟩, fun x hx => ?_⟩
    · rcases List.mem_append.mp hx with hx | hx
      · exact (hi.zero n hn).2 x hx
      · rw [List.mem_singleton.mp hx]; simp [hs0]
    · rcases List.mem_append.mp hx with hx | hx
      · exact hi.known x hx
      · rw [List.mem_singleton.mp hx]; simp [hs0]
  · obtain ⟨⟨f3, fm⟩, h2, h⟩ := Out.bind_ok h
    cases Out.pure_ok h
    obtain ⟨a1, a2⟩ := keyLoop_refInv (hi.congr (f' := { f with data := d }) rfl rfl) h2
    have a3 := (keyLoop_refs h2).1
    refine ⟨a1.tracked, a1.nodup, fun n hn => ⟨(a1.zero n hn).1, fun x hx => ?_⟩, fun x hx => ?_⟩
    · rcases List.mem_append.mp hx with hx | hx
      · exact (a1.zero n hn).2 x hx
      · rw [List.mem_singleton.mp hx]; exact (a2 n hn).2
    · rcases List.mem_append.mp hx with hx | hx
      · exact a1.known x hx
      · rw [List.mem_singleton.mp hx]
        intro k hk
        obtain ⟨n, hn, rfl⟩ := List.mem_map.mp hk
        exact (a3 n hn).imp (fun h => by rw [h]; rfl) id

theorem statements_refInv {M : String → Prop} (hM : ¬ M "@PREV") {env : TrxEnv} {fuel : Nat} :
    ∀ {f f1 : FileSt} {c ss : List Stmt}, RefInv M f ss →
    (∀ m ∈ f.mods, ∀ o ∈ savedBy m, o ≠ "_" → M o) → statements env fuel f = .ok (f1, c) →
    RefInv M f1 (ss ++ c) := by
  induction fuel with
  | zero => intro f f1 c ss _ _ h; cases h
  | succ fuel ih =>
    intro f f1 c ss hi hm h
    unfold statements at h
    obtain ⟨⟨f2, s2, cc⟩, h1, h⟩ := Out.bind_ok h
    have hfr := modLoop_frame h1
    have hmods : f2.mods = f.mods := hfr.mods
    have hi2 : RefInv M f2 ss := modLoop_refInv (f := f.prep env) hM (hi.congr rfl rfl) hm h1
    dsimp only at h
    cases cc with
    | none =>
      obtain ⟨⟨f3, s3⟩, h2, h⟩ := Out.bind_ok h
      cases Out.pure_ok h
      exact finish_refInv ((modLoop_ok h1).inputs.1.trans rfl) hi2 h2
    | some n =>
      cases n with
      | zero => cases Out.pure_ok h; rw [List.append_nil]; exact hi2
      | succ n =>
        obtain ⟨⟨f3, cs⟩, h2, h⟩ := Out.bind_ok h
        cases Out.pure_ok h
        have hloop : ∀ (k : Nat) {g g' : FileSt} {i : Nat} {cs ss : List Stmt}, RefInv M g ss →
            g.mods = f2.mods.filter keepInCopies →
            copyLoop (statements env fuel) g i k = .ok (g', cs) → RefInv M g' (ss ++ cs) := by
          intro k
          induction k with
          | zero => intro g g' i cs ss hi _ h; cases h; rw [List.append_nil]; exact hi
          | succ k ihk =>
            intro g g' i cs ss hi hgm h
            obtain ⟨⟨g2, ms⟩, h3, h⟩ := Out.bind_ok h
            dsimp only at h
            cases ms with
            | nil => cases h
            | cons s rest =>
              obtain ⟨⟨g4, cs'⟩, h4, h⟩ := Out.bind_ok h
              cases Out.pure_ok h
              have hk : ∀ m ∈ g.mods, keepInCopies m = true := by
                rw [hgm]; exact fun m hm => (List.mem_filter.mp hm).2
              obtain ⟨hrest, f5, s5, e4, e5⟩ :=
                statements_one (f := { g with copyNo := i + 1 }) hk h3
              subst hrest
              have b2 : g2.mods = f2.mods.filter keepInCopies :=
                ((finish_frame e5).mods.trans (modLoop_frame e4).mods).trans hgm
              have hi3 := ih (hi.congr (f' := { g with copyNo := i + 1 }) rfl rfl) (by
                show ∀ m ∈ g.mods, _
                rw [hgm, hmods]
                exact fun m hmm => hm m (List.mem_filter.mp hmm).1) h3
              have := ihk hi3 b2 h4
              rw [List.append_assoc] at this
              exact this
        have hall := hloop (n + 1)
          (g := { f2 with mods := f2.mods.filter keepInCopies, stmtNo := f2.stmtNo - 1 })
          (hi2.congr rfl rfl) rfl h2
        refine (hall.congr (f' := { f3 with copyNo := 0 }) rfl rfl).mono ?_
        intro s hs
        rcases List.mem_append.mp hs with hs | hs
        · exact ⟨s, by simp [hs], rfl⟩
        · split at hs
          · cases cs with
            | nil => cases hs
            | cons x xs =>
              rcases List.mem_cons.mp hs with hs | hs
              · exact ⟨x, by simp, by rw [hs]⟩
              · exact ⟨s, by simp [hs], rfl⟩
          · exact ⟨s, by simp [hs], rfl⟩

theorem line_refInv {M : String → Prop} (hM : ¬ M "@PREV") {env : TrxEnv} {f : FileSt} {l : Text}
    {r : LineRes} (hi : RefInv M f f.stmts) (hm : ∀ m ∈ f.mods, ∀ o ∈ savedBy m, o ≠ "_" → M o)
    (hl : ∀ m, env.vars (trimSpace (l.drop 2)) = some m → ∀ o ∈ savedBy m, o ≠ "_" → M o)
    (h : f.line env (FileSt.statements env) l = .ok r) :
    ∃ f', (r = .next f' ∨ r = .eof f') ∧ RefInv M f' f'.stmts ∧
      ∀ m ∈ f'.mods, ∀ o ∈ savedBy m, o ≠ "_" → M o := by
  unfold FileSt.line at h
  dsimp only at h
  split at h
  · split at h
    · split at h
      · cases h; exact ⟨_, Or.inr rfl, hi.congr rfl rfl, hm⟩
      · split at h
        · cases h
        · rename_i m hv
          cases h
          refine ⟨_, Or.inl rfl, hi.congr rfl rfl, fun x hx => ?_⟩
          rcases List.mem_append.mp hx with hx | hx
          · exact hm x hx
          · rw [List.mem_singleton.mp hx]; exact hl m hv
    · cases h; exact ⟨_, Or.inl rfl, hi.congr rfl rfl, hm⟩
  · split at h
    · cases h; exact ⟨_, Or.inl rfl, hi.congr rfl rfl, hm⟩
    · split at h
      · rename_i f2 ss hst
        cases h
        refine ⟨_, Or.inl rfl, ?_, fun m hm => by cases hm⟩
        have h1 := statements_refInv (f := { f with lineNo := f.lineNo + 1 }) hM (hi.congr rfl rfl) hm hst
        have h2 : f2.stmts = f.stmts := (statements_ok hst).stmts
        show RefInv M _ (f2.stmts ++ ss)
        rw [h2]
        exact h1.congr rfl rfl
      · cases h
      · cases h

theorem lines_refInv {M : String → Prop} (hM : ¬ M "@PREV") {env : TrxEnv} {ls : List Text} :
    ∀ {f f' : FileSt}, RefInv M f f.stmts → (∀ m ∈ f.mods, ∀ o ∈ savedBy m, o ≠ "_" → M o) →
    ModLines env (fun m => ∀ o ∈ savedBy m, o ≠ "_" → M o) ls →
    f.lines env (FileSt.statements env) ls = .ok f' → RefInv M f' f'.stmts := by
  have hlast : ∀ {f f' : FileSt}, RefInv M f f.stmts →
      (∀ m ∈ f.mods, ∀ o ∈ savedBy m, o ≠ "_" → M o) →
      (match f.line env (FileSt.statements env) [] with
        | .ok (.next f) => (.ok f : Out FileSt)
        | .ok (.eof f) => .ok f
        | .err => .err
        | .panic => .panic) = .ok f' → RefInv M f' f'.stmts := by
    intro f f' hi hm h
    have hnil : ∀ r, f.line env (FileSt.statements env) [] = .ok r →
        ∃ f', (r = .next f' ∨ r = .eof f') ∧ RefInv M f' f'.stmts := by
      intro r hr
      unfold FileSt.line at hr
      dsimp only at hr
      rw [if_neg (by simp)] at hr
      split at hr
      · cases hr; exact ⟨_, Or.inl rfl, hi.congr rfl rfl⟩
      · split at hr
        · rename_i f2 ss hst
          cases hr
          refine ⟨_, Or.inl rfl, ?_⟩
          have h1 := statements_refInv (f := { f with lineNo := f.lineNo + 1 }) hM (hi.congr rfl rfl) hm hst
          have h2 : f2.stmts = f.stmts := (statements_ok hst).stmts
          show RefInv M _ (f2.stmts ++ ss)
          rw [h2]
          exact h1.congr rfl rfl
        · cases hr
        · cases hr
    split at h
    · rename_i g hg
      cases h
      obtain ⟨x, hx, hxi⟩ := hnil _ hg
      rcases hx with hx | hx
      · cases hx; exact hxi
      · cases hx
    · rename_i g hg
      cases h
      obtain ⟨x, hx, hxi⟩ := hnil _ hg
      rcases hx with hx | hx
      · cases hx
      · cases hx; exact hxi
    · cases h
    · cases h
  induction ls with
  | nil => intro f f' hi hm _ h; exact hlast hi hm h
  | cons l ls ih =>
    intro f f' hi hm hl h
    simp only [FileSt.lines] at h
    split at h
    · rename_i g hg
      obtain ⟨x, hx, hxi, hxm⟩ := line_refInv hM hi hm (hl l (by simp)) hg
      rcases hx with hx | hx
      · cases hx
        exact ih hxi hxm (fun y hy => hl y (by simp [hy])) h
      · cases hx
    · rename_i g hg
      obtain ⟨x, hx, hxi, hxm⟩ := line_refInv hM hi hm (hl l (by simp)) hg
      rcases hx with hx | hx
      · cases hx
      · cases hx
        exact hlast hxi hxm h
    · cases h
    · cases h

/-- **C74, the converse.** A file whose lines are parsed into at least one statement is not refused
because of unused columns if every column that its modifiers save (other than the no-op column, and
not called `@PREV`) is an input of a statement of the file. -/
theorem C74_used_columns_accepted (set : TrxSet) (tf : TrxFile) (ls : List Text) (f : FileSt)
    (hls : tf.lines = some ls)
    (hf : (FileSt.new tf.data set.keys).lines tf.env (FileSt.statements tf.env) ls = .ok f)
    (hne : f.stmts ≠ [])
    (hused : ModLines tf.env (fun m => ∀ o ∈ savedBy m, o ≠ "_" →
      o ≠ "@PREV" ∧ ∃ s ∈ f.stmts, o ∈ s.inputs) ls) :
    ∃ set', loadFile set tf = .ok set' ∧ set'.statements tf.env.trx = some f.stmts := by
  have hinv := lines_refInv (M := fun o => o ≠ "@PREV" ∧ ∃ s ∈ f.stmts, o ∈ s.inputs) (by simp)
    (f := FileSt.new tf.data set.keys)
    ⟨by simp [FileSt.new], by simp [FileSt.new, refNames], by simp [FileSt.new], by simp [FileSt.new]⟩
    (by simp [FileSt.new]) hused hf
  have hz : f.colRefs.any (fun c => c.2 = 0) = false := by
    rw [Bool.eq_false_iff]
    intro h
    simp only [List.any_eq_true, decide_eq_true_eq] at h
    obtain ⟨⟨n, k⟩, h1, h2⟩ := h
    dsimp only at h2
    subst h2
    obtain ⟨⟨-, s, hs, hin⟩, h3⟩ := hinv.zero n h1
    exact h3 s hs hin
  unfold loadFile
  rw [hls]
  simp only [hf, if_neg hne, hz]
  exact ⟨_, rfl, GoMap.set_same _ _ _⟩

/-- The demo file satisfies the hypotheses: its column `@c` is saved and used. -/
example : ∃ f, (FileSt.new demoTrxFile.data demoSet.keys).lines demoTrxFile.env
      (FileSt.statements demoTrxFile.env) (demoTrxFile.lines.getD []) = .ok f ∧
    f.stmts.map (fun s => (s.outputs, s.inputs)) = [(["@c"], ["@d"]), ([], ["@c", "@r", "@PREV"])] ∧
    savedBy "save-columns: @c".toList = ["@c"] := by
  have h : (match (FileSt.new demoTrxFile.data demoSet.keys).lines demoTrxFile.env
      (FileSt.statements demoTrxFile.env) (demoTrxFile.lines.getD []) with
    | .ok f => decide (f.stmts.map (fun s => (s.outputs, s.inputs)) =
        [(["@c"], ["@d"]), ([], ["@c", "@r", "@PREV"])])
    | _ => false) = true := by decide +kernel
  split at h
  · rename_i f hf
    exact ⟨f, hf, of_decide_eq_true h, by decide +kernel⟩
  · cases h

end Finch
