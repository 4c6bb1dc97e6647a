import Verif.Model.Trx
import Verif.Props.Text
/-!
C36: every data key of a query is replaced by the placeholder of its own generator.
-/
namespace Finch

/-- Is this a saved column. -/
def isSaved (keys : GoMap String TKey) (name : Text) : Prop :=
  ∃ k, keys (String.ofList name) = some k ∧ 0 ≤ k.column

/-- The placeholder that belongs to a data key of a query: that of its own generator; for `@PREV`
(unless a saved column has that name) that of the key before it. `before` are the data keys before
it in the query. -/
def OwnFmt (keys : GoMap String TKey) (before : List Text) (name fmt : Text) : Prop :=
  (name = "@PREV".toList ∧ ¬ isSaved keys name ∧
    ∃ p k, before.reverse.find? (fun x => x ≠ "@PREV".toList) = some p ∧
      keys (String.ofList p) = some k ∧ fmt = k.gen.fmt) ∨
  ((name = "@PREV".toList → isSaved keys name) ∧
    ∃ k, keys (String.ofList name) = some k ∧ fmt = k.gen.fmt)

/-- The data keys among pieces, each with the keys before it. -/
def withBefore (before : List Text) : List Text → List (List Text × Text)
  | [] => []
  | n :: ns => (before, n) :: withBefore (before ++ [n]) ns

/-- The query with the placeholders, given the placeholder of the i-th data key: literal characters
stay, data keys are replaced. -/
def fillIn : List Tok → List Text → Text
  | [], _ => []
  | .lit c :: ts, fs => c :: fillIn ts fs
  | .key _ _ :: ts, f :: fs => f ++ fillIn ts fs
  | .key _ _ :: ts, [] => fillIn ts []

/-- Keys are only added, and `@PREV` never is. -/
def KeysGrow (f f' : FileSt) : Prop :=
  (∀ k v, f.keys k = some v → f'.keys k = some v) ∧ f'.keys "@PREV" = f.keys "@PREV"

theorem KeysGrow.refl (f : FileSt) : KeysGrow f f := ⟨fun _ _ h => h, rfl⟩

theorem KeysGrow.trans {a b c : FileSt} (h1 : KeysGrow a b) (h2 : KeysGrow b c) : KeysGrow a c :=
  ⟨fun k v h => h2.1 k v (h1.1 k v h), h2.2.trans h1.2⟩

theorem ofList_inj {a b : Text} (h : String.ofList a = String.ofList b) : a = b := by
  have := congrArg String.toList h
  simpa using this

theorem isSaved_iff {keys : GoMap String TKey} {name : Text} :
    isSaved keys name ↔ ∃ k, savedCol keys (String.ofList name) = some k := by
  unfold isSaved savedCol
  constructor
  · rintro ⟨k, h1, h2⟩
    exact ⟨k, by rw [h1]; simp [h2]⟩
  · rintro ⟨k, h⟩
    split at h
    · rename_i k' hk
      split at h
      · cases h; exact ⟨k, hk, by assumption⟩
      · cases h
    · cases h

theorem savedCol_some {keys : GoMap String TKey} {key : String} {k : TKey}
    (h : savedCol keys key = some k) : keys key = some k ∧ 0 ≤ k.column := by
  unfold savedCol at h
  split at h
  · rename_i k' hk
    split at h
    · cases h; exact ⟨hk, by assumption⟩
    · cases h
  · cases h

theorem prevStr : String.ofList "@PREV".toList = "@PREV" := by simp

theorem OwnFmt.grow {f f' : FileSt} (hg : KeysGrow f f') {before : List Text} {name fmt : Text}
    (h : OwnFmt f.keys before name fmt) : OwnFmt f'.keys before name fmt := by
  have hs : name = "@PREV".toList → (isSaved f'.keys name ↔ isSaved f.keys name) := by
    rintro rfl
    unfold isSaved
    rw [prevStr, hg.2]
  rcases h with ⟨h1, h2, p, k, h3, h4, h5⟩ | ⟨h1, k, h2, h3⟩
  · exact Or.inl ⟨h1, fun hc => h2 ((hs h1).mp hc), p, k, h3, hg.1 _ _ h4, h5⟩
  · exact Or.inr ⟨fun hn => (hs hn).mpr (h1 hn), k, hg.1 _ _ h2, h3⟩

theorem OwnFmt.unique {keys : GoMap String TKey} {before : List Text} {name a b : Text}
    (h1 : OwnFmt keys before name a) (h2 : OwnFmt keys before name b) : a = b := by
  rcases h1 with ⟨h1, h1', p, k, h3, h4, rfl⟩ | ⟨h1, k, h3, rfl⟩ <;>
    rcases h2 with ⟨h2, h2', p', k', h3', h4', rfl⟩ | ⟨h2, k', h3', rfl⟩
  · rw [h3] at h3'; cases h3'
    rw [h4] at h4'; cases h4'; rfl
  · exact absurd (h2 h1) h1'
  · exact absurd (h1 h2) h2'
  · rw [h3] at h3'; cases h3'; rfl

theorem genOf_ok {env : TrxEnv} {f f1 : FileSt} {before : List Text} {name : Text} {g : GenInfo}
    (h : genOf env f before name = .ok (f1, g)) :
    KeysGrow f f1 ∧ OwnFmt f1.keys before name g.fmt ∧
    (name ≠ "@PREV".toList → ∃ k, f1.keys (String.ofList name) = some k) := by
  unfold genOf at h
  dsimp only at h
  cases hcol : savedCol f.keys (String.ofList name) with
  | some k =>
    rw [hcol] at h
    simp only [Out.ok.injEq, Prod.mk.injEq] at h
    obtain ⟨rfl, rfl⟩ := h
    have hk := (savedCol_some hcol).1
    exact ⟨⟨fun _ _ h => h, rfl⟩, Or.inr ⟨fun _ => isSaved_iff.mpr ⟨k, hcol⟩, k, hk, rfl⟩,
      fun _ => ⟨k, hk⟩⟩
  | none =>
    rw [hcol] at h
    dsimp only at h
    have hns : ¬ isSaved f.keys name := by
      rw [isSaved_iff, hcol]; rintro ⟨k, hk⟩; cases hk
    by_cases hp : name = "@PREV".toList
    · rw [if_pos hp] at h
      split at h
      · cases h
      · split at h
        · cases h
        · rename_i p hf
          split at h
          · rename_i k hk
            simp only [Out.ok.injEq, Prod.mk.injEq] at h
            obtain ⟨rfl, rfl⟩ := h
            exact ⟨.refl _, Or.inl ⟨hp, hns, p, k, hf, hk, rfl⟩, fun hn => absurd hp hn⟩
          · cases h
    · rw [if_neg hp] at h
      cases hkey : f.keys (String.ofList name) with
      | some k =>
        rw [hkey] at h
        simp only [Out.ok.injEq, Prod.mk.injEq] at h
        obtain ⟨rfl, rfl⟩ := h
        exact ⟨.refl _, Or.inr ⟨fun hn => absurd hn hp, k, hkey, rfl⟩, fun _ => ⟨k, hkey⟩⟩
      | none =>
        rw [hkey] at h
        dsimp only at h
        split at h
        · cases h
        · split at h
          · cases h
          · rename_i g' hg'
            simp only [Out.ok.injEq, Prod.mk.injEq] at h
            obtain ⟨rfl, rfl⟩ := h
            refine ⟨⟨fun k v hk => ?_, ?_⟩, Or.inr ⟨fun hn => absurd hn hp, _, GoMap.set_same _ _ _, rfl⟩,
              fun _ => ⟨_, GoMap.set_same _ _ _⟩⟩
            · show GoMap.set _ _ _ _ = _
              rw [GoMap.set_other _ _ (by rintro rfl; rw [hkey] at hk; cases hk)]; exact hk
            · show GoMap.set _ _ _ _ = _
              rw [GoMap.set_other]
              intro he
              apply hp
              apply ofList_inj
              rw [prevStr, he]

theorem setFmt_mem {k v : Text} {l : List (Text × Text)} {x : Text × Text} (h : x ∈ setFmt k v l) :
    x = (k, v) ∨ (x ∈ l ∧ x.1 ≠ k) ∨ x ∈ l := by
  induction l with
  | nil => simp [setFmt] at h; exact Or.inl h
  | cons y ys ih =>
    obtain ⟨k', v'⟩ := y
    simp only [setFmt] at h
    split at h
    · rcases List.mem_cons.mp h with h | h
      · exact Or.inl h
      · exact Or.inr (Or.inr (by simp [h]))
    · rcases List.mem_cons.mp h with h | h
      · exact Or.inr (Or.inr (by simp [h]))
      · rcases ih h with h | ⟨h, _⟩ | h
        · exact Or.inl h
        · exact Or.inr (Or.inr (by simp [h]))
        · exact Or.inr (Or.inr (by simp [h]))

theorem setFmt_keys {k v : Text} {l : List (Text × Text)} {x : Text}
    (h : x = k ∨ ∃ y ∈ l, y.1 = x) : ∃ y ∈ setFmt k v l, y.1 = x := by
  induction l with
  | nil =>
    rcases h with rfl | ⟨y, hy, _⟩
    · exact ⟨(x, v), by simp [setFmt], rfl⟩
    · cases hy
  | cons y ys ih =>
    obtain ⟨k', v'⟩ := y
    simp only [setFmt]
    split
    · rename_i hk
      subst hk
      rcases h with rfl | ⟨y, hy, rfl⟩
      · exact ⟨(x, v), by simp, rfl⟩
      · rcases List.mem_cons.mp hy with rfl | hy
        · exact ⟨(k', v), by simp, rfl⟩
        · exact ⟨y, by simp [hy], rfl⟩
    · rcases h with h | ⟨y, hy, rfl⟩
      · obtain ⟨z, hz, hzx⟩ := ih (Or.inl h)
        exact ⟨z, by simp [hz], hzx⟩
      · rcases List.mem_cons.mp hy with rfl | hy
        · exact ⟨(k', v'), by simp, rfl⟩
        · obtain ⟨z, hz, hzx⟩ := ih (Or.inr ⟨y, hy, rfl⟩)
          exact ⟨z, by simp [hz], hzx⟩

/-- What the loop over the data keys computes. -/
theorem keyLoop_ok {env : TrxEnv} {prepare : Bool} {names : List Text} :
    ∀ {f f' : FileSt} {before : List Text} {fmts fmts' : List (Text × Text)},
    keyLoop env prepare f before fmts names = .ok (f', fmts') →
    KeysGrow f f' ∧
    (∀ bn ∈ withBefore before names, ∃ x, OwnFmt f'.keys bn.1 bn.2 x) ∧
    (∀ kv ∈ fmts', kv ∈ fmts ∨ ∃ bn ∈ withBefore before names, bn.2 = kv.1 ∧
      (if prepare then kv.2 = ['?'] else OwnFmt f'.keys bn.1 bn.2 kv.2)) ∧
    (∀ n, (n ∈ names ∨ ∃ kv ∈ fmts, kv.1 = n) → ∃ kv ∈ fmts', kv.1 = n) := by
  induction names with
  | nil =>
    intro f f' before fmts fmts' h
    simp only [keyLoop, Out.ok.injEq, Prod.mk.injEq] at h
    obtain ⟨rfl, rfl⟩ := h
    refine ⟨.refl _, by simp [withBefore], fun kv hkv => Or.inl hkv, fun n hn => ?_⟩
    rcases hn with hn | hn
    · cases hn
    · exact hn
  | cons name rest ih =>
    intro f f' before fmts fmts' h
    simp only [keyLoop, bind] at h
    cases hg : genOf env f before name with
    | err => rw [hg] at h; cases h
    | panic => rw [hg] at h; cases h
    | ok r =>
      obtain ⟨f1, g⟩ := r
      rw [hg] at h
      obtain ⟨hgrow, hown, -⟩ := genOf_ok hg
      obtain ⟨i1, i2, i3, i4⟩ := ih h
      refine ⟨hgrow.trans i1, ?_, ?_, ?_⟩
      · intro bn hbn
        simp only [withBefore, List.mem_cons] at hbn
        rcases hbn with rfl | hbn
        · exact ⟨_, hown.grow i1⟩
        · exact i2 bn hbn
      · intro kv hkv
        rcases i3 kv hkv with hkv | ⟨bn, hbn, h1, h2⟩
        · have hcase : kv = (name, if prepare then ['?'] else g.fmt) ∨ kv ∈ fmts := by
            rcases setFmt_mem hkv with h | ⟨h, _⟩ | h
            · exact Or.inl h
            · exact Or.inr h
            · exact Or.inr h
          rcases hcase with rfl | hkv
          · refine Or.inr ⟨(before, name), by simp [withBefore], rfl, ?_⟩
            cases prepare with
            | true => simp
            | false => simpa using hown.grow i1
          · exact Or.inl hkv
        · exact Or.inr ⟨bn, by simp [withBefore, hbn], h1, h2⟩
      · intro n hn
        apply i4
        rcases hn with hn | hn
        · rcases List.mem_cons.mp hn with rfl | hn
          · exact Or.inr (setFmt_keys (Or.inl rfl))
          · exact Or.inl hn
        · exact Or.inr (setFmt_keys (Or.inr hn))

theorem withBefore_names (before names : List Text) :
    (withBefore before names).map (·.2) = names := by
  induction names generalizing before with
  | nil => rfl
  | cons n ns ih => simp [withBefore, ih]

theorem fillIn_const (fmt : Text → Text) (ts : List Tok) :
    fillIn ts ((keyNames ts).map fmt) = ts.flatMap (Tok.formatted fmt) := by
  induction ts with
  | nil => rfl
  | cons t ts ih =>
    cases t with
    | lit c => simp [fillIn, Tok.formatted, keyNames, tokKeys] at ih ⊢; rw [ih]
    | key n b => simp [fillIn, Tok.formatted, keyNames, tokKeys] at ih ⊢; rw [ih]

theorem tokenize_names_form (s : Text) :
    ∀ n ∈ keyNames (tokenize s), ∃ c m, n = '@' :: c :: m ∧ isKeyChar c = true := by
  have h := proper_tokenize s
  generalize tokenize s = ts at h
  intro n hn
  induction ts with
  | nil => simp [keyNames, tokKeys] at hn
  | cons t ts ih =>
    cases t with
    | lit c => exact ih h.2 (by simpa [keyNames, tokKeys] using hn)
    | key m b =>
      obtain ⟨h1, h2, -, h4⟩ := h
      simp only [keyNames, tokKeys, List.map_cons, List.mem_cons] at hn
      rcases hn with rfl | hn
      · cases m with
        | nil => exact absurd rfl h1
        | cons c m => exact ⟨c, m, rfl, h2 c (by simp)⟩
      · exact ih h4 hn

theorem OwnFmt.indep {keys : GoMap String TKey} {b1 b2 : List Text} {name x y : Text}
    (hn : name ≠ "@PREV".toList) (h1 : OwnFmt keys b1 name x) (h2 : OwnFmt keys b2 name y) :
    x = y := by
  rcases h1 with ⟨h, _⟩ | ⟨-, k, hk, rfl⟩
  · exact absurd h hn
  · rcases h2 with ⟨h, _⟩ | ⟨-, k', hk', rfl⟩
    · exact absurd h hn
    · rw [hk] at hk'; cases hk'; rfl

theorem withBefore_get (before names : List Text) (i : Nat) :
    ((withBefore before names)[i]?).map (·.2) = names[i]? := by
  rw [← List.getElem?_map, withBefore_names]

theorem tokKeys_names (ts : List Tok) : (tokKeys ts).map (·.1) = keyNames ts := rfl

/-- C36. Parsing a statement replaces every data key of its query by the placeholder of its own
generator (`?` if the statement is prepared), leaves all other text as it is, and the result does not
depend on the iteration order of the map of formats; the inputs and explicit-call marks are those of
the data keys in order. `ts` are the pieces of the query after the copy-number and csv substitutions.

Partial: it needs that no data key of the query is the beginning of another one
(`C36_prefix_keys_false`) and that all `@PREV` of the query have the same placeholder
(`C36_prev_false`). -/
theorem C36_own_placeholders_partial (env : TrxEnv) (f f' : FileSt) (s s' : Stmt) (query : Text)
    (data : GoMap String DataCfg) (ts : List Tok) (hts : Proper ts)
    (hs : s.inputs = [] ∧ s.calls = [])
    (hq : expandCsv env f.data (replaceAll copyNumber (decimal f.copyNo) query) =
      .ok (data, render ts))
    (hfin : finish env f s query = .ok (f', s'))
    (horder : ∀ l, (env.repOrder l).Perm l)
    (hpf : PrefixFree (keyNames ts))
    (hprev : s.prepare = false → ∀ b1 b2 x1 x2, (b1, "@PREV".toList) ∈ withBefore [] (keyNames ts) →
      (b2, "@PREV".toList) ∈ withBefore [] (keyNames ts) →
      OwnFmt f'.keys b1 "@PREV".toList x1 → OwnFmt f'.keys b2 "@PREV".toList x2 → x1 = x2) :
    ∃ fmts : List Text, s'.query = fillIn ts fmts ∧ fmts.length = (keyNames ts).length ∧
      (∀ (i : Nat) (bn : List Text × Text) (x : Text),
        (withBefore [] (keyNames ts))[i]? = some bn → fmts[i]? = some x →
        if s.prepare then x = ['?'] else OwnFmt f'.keys bn.1 bn.2 x) ∧
      s'.inputs = (keyNames ts).map String.ofList ∧ s'.calls = (tokKeys ts).map (·.2) := by
  unfold finish at hfin
  simp only [bind, hq, Out.bind, tokenize_render hts, pure] at hfin
  split at hfin
  · rename_i hnil
    simp only [Out.ok.injEq, Prod.mk.injEq] at hfin
    obtain ⟨rfl, rfl⟩ := hfin
    have hk : keyNames ts = [] := by simp [keyNames, hnil]
    refine ⟨[], ?_, by simp [hk], by simp [hk, withBefore], by simp [hk, hs.1], by simp [hnil, hs.2]⟩
    clear hq hpf hprev
    dsimp only
    induction ts with
    | nil => rfl
    | cons t ts ih =>
      cases t with
      | lit c =>
        have := ih hts.2 (by simpa [tokKeys] using hnil) (by simpa [keyNames, tokKeys] using hk)
        simp [render_cons, Tok.text, fillIn, this]
      | key n b => simp [tokKeys] at hnil
  · rename_i hne
    cases hl : keyLoop env s.prepare { f with data := data } [] [] ((tokKeys ts).map (·.1)) with
    | err => rw [hl] at hfin; cases hfin
    | panic => rw [hl] at hfin; cases hfin
    | ok r =>
      obtain ⟨f1, fmts⟩ := r
      rw [hl] at hfin
      simp only [Out.ok.injEq, Prod.mk.injEq] at hfin
      obtain ⟨rfl, rfl⟩ := hfin
      rw [tokKeys_names] at hl
      obtain ⟨k1, k2, k3, k4⟩ := keyLoop_ok hl
      -- every entry belongs to an occurrence
      have k3' : ∀ kv ∈ fmts, ∃ bn ∈ withBefore [] (keyNames ts), bn.2 = kv.1 ∧
          (if s.prepare then kv.2 = ['?'] else OwnFmt f1.keys bn.1 bn.2 kv.2) := by
        intro kv hkv
        rcases k3 kv hkv with h | h
        · cases h
        · exact h
      have hcons : s.prepare = false → ∀ bn1 ∈ withBefore [] (keyNames ts),
          ∀ bn2 ∈ withBefore [] (keyNames ts), ∀ x1 x2, bn1.2 = bn2.2 →
          OwnFmt f1.keys bn1.1 bn1.2 x1 → OwnFmt f1.keys bn2.1 bn2.2 x2 → x1 = x2 := by
        rintro hp ⟨b1, n1⟩ h1 ⟨b2, n2⟩ h2 x1 x2 he ho1 ho2
        dsimp only at he ho1 ho2
        subst he
        by_cases hn : n1 = "@PREV".toList
        · subst hn
          exact hprev hp b1 b2 x1 x2 h1 h2 ho1 ho2
        · exact OwnFmt.indep hn ho1 ho2
      have huniq : ∀ kv1 ∈ fmts, ∀ kv2 ∈ fmts, kv1.1 = kv2.1 → kv1.2 = kv2.2 := by
        intro kv1 h1 kv2 h2 he
        obtain ⟨bn1, hb1, e1, o1⟩ := k3' kv1 h1
        obtain ⟨bn2, hb2, e2, o2⟩ := k3' kv2 h2
        cases hp : s.prepare with
        | true => simp only [hp, if_true] at o1 o2; rw [o1, o2]
        | false =>
          simp only [hp, Bool.false_eq_true, if_false] at o1 o2
          exact hcons hp bn1 hb1 bn2 hb2 _ _ (by rw [e1, e2, he]) o1 o2
      let fmt : Text → Text := fun n => ((fmts.find? (fun kv => kv.1 = n)).map (·.2)).getD []
      have hfmt : ∀ kv ∈ fmts, kv.2 = fmt kv.1 := by
        intro kv hkv
        show kv.2 = ((fmts.find? (fun kv' => kv'.1 = kv.1)).map (·.2)).getD []
        cases hf : fmts.find? (fun kv' => kv'.1 = kv.1) with
        | none =>
          rw [List.find?_eq_none] at hf
          exact absurd (by simp) (hf kv hkv)
        | some kv' =>
          have h1 := List.mem_of_find?_eq_some hf
          have h2 := List.find?_some hf
          simp only [decide_eq_true_eq] at h2
          exact (huniq kv' h1 kv hkv h2).symm
      refine ⟨(keyNames ts).map fmt, ?_, by simp, ?_, rfl, rfl⟩
      · dsimp only
        rw [fillIn_const]
        unfold stripCalls
        rw [tokenize_render hts]
        refine replacer_strip _ fmt (keyNames ts) ?_ ?_ ?_ hpf ts (fun n hn => hn) hts
        · intro kv hkv
          have hkv' := (horder fmts).mem_iff.mp hkv
          obtain ⟨bn, hb, e, -⟩ := k3' kv hkv'
          refine ⟨?_, hfmt kv hkv'⟩
          rw [← e, ← withBefore_names [] (keyNames ts)]
          exact List.mem_map_of_mem hb
        · intro n hn
          obtain ⟨kv, hkv, e⟩ := k4 n (Or.inl hn)
          exact ⟨kv, (horder fmts).mem_iff.mpr hkv, e⟩
        · have := tokenize_names_form (render ts)
          rwa [tokenize_render hts] at this
      · intro i bn x hbn hx
        have hname := withBefore_get [] (keyNames ts) i
        rw [hbn] at hname
        simp only [Option.map_some] at hname
        rw [List.getElem?_map, ← hname] at hx
        simp only [Option.map_some, Option.some.injEq] at hx
        have hmem : bn.2 ∈ keyNames ts := List.mem_of_getElem? hname.symm
        obtain ⟨kv, hkv, e⟩ := k4 bn.2 (Or.inl hmem)
        have hv : kv.2 = x := by rw [hfmt kv hkv, e, hx]
        obtain ⟨bn', hb', e', o'⟩ := k3' kv hkv
        cases hp : s.prepare with
        | true => simp only [hp, if_true] at o' ⊢; rw [← hv, o']
        | false =>
          simp only [hp, Bool.false_eq_true, if_false] at o' ⊢
          have hbm : bn ∈ withBefore [] (keyNames ts) := List.mem_of_getElem? hbn
          obtain ⟨y, hy⟩ := k2 bn hbm
          have := hcons hp bn' hb' bn hbm _ _ (by rw [e', e]) o' hy
          rw [← hv, this]
          exact hy

/-! ### The property is false in general -/

/-- A parser environment: numbers are `%d`, strings `'%s'`, ranges have two numbers. -/
def demoEnv : TrxEnv :=
  { trx := "t", vars := some, duration := fun _ => none, bytes := fun _ => none
    make := fun g _ _ =>
      if g = "int" then some ⟨1, ['%', 'd']⟩
      else if g = "int-range" then some ⟨2, ['%', 'd']⟩
      else if g = "column" then some ⟨1, ['%', 'v']⟩
      else if g = "str-fill-az" then some ⟨1, ['\'', '%', 's', '\'']⟩
      else none
    rowOrder := id, repOrder := id }

/-- The same with map iteration in reverse order. -/
def demoEnvRev : TrxEnv := { demoEnv with rowOrder := List.reverse, repOrder := List.reverse }

/-- `d` and `r` are numbers and number ranges, `d2` and `s` strings. -/
def demoData : GoMap String DataCfg := fun n =>
  if n = "d" then some ⟨"int", "", []⟩
  else if n = "r" then some ⟨"int-range", "", []⟩
  else if n = "d2" ∨ n = "s" then some ⟨"str-fill-az", "", []⟩
  else none

/-- A file about to be parsed. -/
def demoFile : FileSt := .new demoData GoMap.empty

/-- The query of a parsed statement. -/
def queryOf : Out (FileSt × Stmt) → Option String
  | .ok (_, s) => some (String.ofList s.query)
  | _ => none

/-- If a data key is the beginning of another one, the result depends on the iteration order of a
Go map, and in one order `@d2` becomes the placeholder of `@d` followed by `2`. -/
theorem C36_prefix_keys_false :
    queryOf (finish demoEnv demoFile (classify "t" []) "SELECT @d, @d2".toList) =
      some "SELECT %d, %d2" ∧
    queryOf (finish demoEnvRev demoFile (classify "t" []) "SELECT @d, @d2".toList) =
      some "SELECT %d, '%s'" := by
  decide +kernel

/-- All `@PREV` of a query get the placeholder of the last one: the first `@PREV`, which belongs to
the number range `@r`, becomes a quoted string. -/
theorem C36_prev_false :
    queryOf (finish demoEnv demoFile (classify "t" [])
      "SELECT @r, @PREV, @s, @PREV".toList) = some "SELECT %d, '%s', '%s', '%s'" := by
  decide +kernel

/-- The hypotheses of C36 are met by a query with a string, a range and its `@PREV`. -/
example : ∃ s', queryOf (finish demoEnvRev demoFile (classify "t" [])
      "SELECT @s WHERE a BETWEEN @r AND @PREV".toList) = some s' ∧
    ∃ fmts, s' = String.ofList (fillIn (tokenize "SELECT @s WHERE a BETWEEN @r AND @PREV".toList) fmts) ∧
      fmts.length = 3 := by
  have hk : keyNames (tokenize "SELECT @s WHERE a BETWEEN @r AND @PREV".toList) =
      ["@s".toList, "@r".toList, "@PREV".toList] := by decide +kernel
  cases hf : finish demoEnvRev demoFile (classify "t" [])
      "SELECT @s WHERE a BETWEEN @r AND @PREV".toList with
  | err =>
    have : (queryOf (finish demoEnvRev demoFile (classify "t" [])
      "SELECT @s WHERE a BETWEEN @r AND @PREV".toList)).isSome = true := by decide +kernel
    rw [hf] at this; cases this
  | panic =>
    have : (queryOf (finish demoEnvRev demoFile (classify "t" [])
      "SELECT @s WHERE a BETWEEN @r AND @PREV".toList)).isSome = true := by decide +kernel
    rw [hf] at this; cases this
  | ok r =>
    obtain ⟨f', s'⟩ := r
    have hq : expandCsv demoEnvRev demoFile.data (replaceAll copyNumber (decimal demoFile.copyNo)
        "SELECT @s WHERE a BETWEEN @r AND @PREV".toList) =
        .ok (demoFile.data, render (tokenize "SELECT @s WHERE a BETWEEN @r AND @PREV".toList)) := by
      have h1 : replaceAll copyNumber (decimal demoFile.copyNo)
        "SELECT @s WHERE a BETWEEN @r AND @PREV".toList =
        "SELECT @s WHERE a BETWEEN @r AND @PREV".toList := by decide +kernel
      have h2 : findCsv "SELECT @s WHERE a BETWEEN @r AND @PREV".toList = none := by decide +kernel
      rw [h1, render_tokenize]
      unfold expandCsv
      rw [h2]
    obtain ⟨fmts, h1, h2, -⟩ := C36_own_placeholders_partial demoEnvRev demoFile f' (classify "t" []) s'
      _ demoFile.data (tokenize "SELECT @s WHERE a BETWEEN @r AND @PREV".toList)
      (proper_tokenize _) ⟨rfl, rfl⟩ hq hf (fun l => List.reverse_perm l)
      (by rw [hk]; unfold PrefixFree; decide +kernel)
      (by
        intro _ b1 b2 x1 x2 m1 m2 o1 o2
        rw [hk] at m1 m2
        have e1 : b1 = ["@s".toList, "@r".toList] := by
          simp [withBefore] at m1; exact m1
        have e2 : b2 = ["@s".toList, "@r".toList] := by
          simp [withBefore] at m2; exact m2
        subst e1; subst e2
        exact OwnFmt.unique o1 o2)
    exact ⟨_, rfl, fmts, by rw [h1], by rw [h2, hk]; rfl⟩

/-- Spec: a character of a data key: a letter or digit of ASCII, an underscore or a dash. -/
def KeyChar (c : Char) : Prop := c.isAlphanum = true ∨ c = '_' ∨ c = '-'

theorem isKeyChar_iff (c : Char) : isKeyChar c = true ↔ KeyChar c := by
  unfold isKeyChar isWord KeyChar Char.isAlphanum Char.isAlpha Char.isDigit Char.isUpper Char.isLower
  simp only [Bool.or_eq_true, Bool.and_eq_true, decide_eq_true_eq, beq_iff_eq, Char.le_def]
  tauto

theorem tokenizeAux_lits (pre s : Text) (h : '@' ∉ pre) :
    tokenizeAux 0 (pre ++ s) = pre.map Tok.lit ++ tokenizeAux 0 s := by
  induction pre with
  | nil => rfl
  | cons c cs ih =>
    have hc : c ≠ '@' := fun e => h (by simp [e])
    have : keyAt (c :: (cs ++ s)) = none := by
      unfold keyAt
      split
      · rename_i heq; exact absurd (List.cons.inj heq).1 hc
      · rfl
    rw [List.cons_append, tokenizeAux, this, ih (fun e => h (by simp [e]))]
    rfl

theorem tokenizeAux_skip (a s : Text) : tokenizeAux a.length (a ++ s) = tokenizeAux 0 s := by
  induction a with
  | nil => rfl
  | cons c cs ih => exact ih

/-- **C36 (data keys).** A data key of a query is an `@` and all letters, digits, underscores and dashes after it;
the text before and after it is as it would be without it. -/
theorem C36_key_characters (pre n post : Text) (hpre : '@' ∉ pre) (hn : n ≠ []) (hc : ∀ c ∈ n, KeyChar c)
    (hpost : ∀ c ∈ post.head?, ¬ KeyChar c ∧ c ≠ '(') :
    tokenize (pre ++ '@' :: n ++ post) = pre.map Tok.lit ++ .key n false :: tokenize post := by
  have hk := keyAt_keyText (n := n) (b := false) (r := post) hn (fun c h => (isKeyChar_iff c).2 (hc c h))
    (fun _ => ⟨fun d hd => by
      cases hx : isKeyChar d with
      | false => rfl
      | true => exact absurd ((isKeyChar_iff d).1 hx) (hpost d hd).1, by
      cases post with
      | nil => rfl
      | cons d ds =>
        have := (hpost d (by simp)).2
        unfold startsCall
        split
        · rename_i heq; exact absurd (List.cons.inj heq).1 this
        · rfl⟩)
  unfold tokenize
  rw [List.append_assoc, tokenizeAux_lits _ _ hpre]
  have hk' : keyAt ('@' :: (n ++ post)) = some (n, false) := by simpa [keyText] using hk
  rw [List.cons_append, tokenizeAux, hk']
  have : (keyText n false).length - 1 = n.length := by simp [keyText]
  simp only [this]
  rw [tokenizeAux_skip]

example : KeyChar 'a' ∧ KeyChar '9' ∧ KeyChar '_' ∧ KeyChar '-' ∧ ¬ KeyChar ',' := by
  simp only [KeyChar]; decide

end Finch
