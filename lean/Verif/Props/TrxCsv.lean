import Verif.Props.TrxFormat
import Mathlib.Data.List.Induction
import Mathlib.Tactic.Tauto
/-!
C34 and C35: the csv substitution and row scope.
-/
namespace Finch

/-! ### C35: row scope -/

/-- What row scope means for a csv template: the first occurrence of every row-scoped key is an
explicit call, everything else is as written. `seen` are the data keys before. -/
def markRows (rowKeys seen : List Text) : List Tok → List Tok
  | [] => []
  | .lit c :: ts => .lit c :: markRows rowKeys seen ts
  | .key n call :: ts =>
    .key n (call || (decide ('@' :: n ∈ rowKeys) && decide ('@' :: n ∉ seen))) ::
      markRows rowKeys (('@' :: n) :: seen) ts

/-- Mark the first occurrence of one key. -/
def mark1 (k : Text) : List Tok → List Tok
  | [] => []
  | .lit c :: ts => .lit c :: mark1 k ts
  | .key n call :: ts => if '@' :: n = k then .key n true :: ts else .key n call :: mark1 k ts

theorem markRows_seen (done seen : List Text) (k : Text) (hk : k ∈ seen) (ts : List Tok) :
    markRows (done ++ [k]) seen ts = markRows done seen ts := by
  induction ts generalizing seen with
  | nil => rfl
  | cons t ts ih =>
    cases t with
    | lit c => simp [markRows, ih seen hk]
    | key n b =>
      simp only [markRows, ih (('@' :: n) :: seen) (by simp [hk])]
      congr 2
      by_cases hn : '@' :: n = k
      · subst hn; simp [hk]
      · simp [hn]

theorem mark1_markRows (done seen : List Text) (k : Text) (hk : k ∉ seen) (ts : List Tok) :
    mark1 k (markRows done seen ts) = markRows (done ++ [k]) seen ts := by
  induction ts generalizing seen with
  | nil => rfl
  | cons t ts ih =>
    cases t with
    | lit c => simp [markRows, mark1, ih seen hk]
    | key n b =>
      simp only [markRows, mark1]
      by_cases hn : '@' :: n = k
      · subst hn
        simp only [if_true, List.cons.injEq, Tok.key.injEq, true_and]
        refine ⟨by simp [hk], ?_⟩
        rw [markRows_seen _ _ _ (by simp)]
      · rw [if_neg hn, ih (('@' :: n) :: seen) (by
          simp only [List.mem_cons, not_or]; exact ⟨fun h => hn h.symm, hk⟩)]
        congr 2
        simp [hn]

theorem markRows_nil (seen : List Text) (ts : List Tok) : markRows [] seen ts = ts := by
  induction ts generalizing seen with
  | nil => rfl
  | cons t ts ih => cases t <;> simp [markRows, ih]

theorem keyNames_mark1 (k : Text) (ts : List Tok) : keyNames (mark1 k ts) = keyNames ts := by
  induction ts with
  | nil => rfl
  | cons t ts ih =>
    cases t with
    | lit c => simpa [mark1, keyNames, tokKeys] using ih
    | key n b =>
      simp only [mark1]
      split
      · simp [keyNames, tokKeys]
      · simp only [keyNames, tokKeys, List.map_cons, List.cons.injEq, true_and] at ih ⊢
        exact ih

theorem head_mark1 (k : Text) (ts : List Tok) : (render (mark1 k ts)).head? = (render ts).head? := by
  cases ts with
  | nil => rfl
  | cons t ts =>
    cases t with
    | lit c => simp [mark1, render_cons, Tok.text]
    | key n b =>
      simp only [mark1]
      split <;> simp [render_cons, Tok.text, keyText]

theorem startsCall_head {a b : Text} (h : a.head? = b.head?) (h2 : a.tail.head? = b.tail.head?) :
    startsCall a = startsCall b := by
  cases a with
  | nil => cases b with
    | nil => rfl
    | cons => simp at h
  | cons x xs =>
    cases b with
    | nil => simp at h
    | cons y ys =>
      simp only [List.head?_cons, Option.some.injEq] at h
      subst h
      cases xs with
      | nil => cases ys with
        | nil => rfl
        | cons => simp at h2
      | cons x' xs' =>
        cases ys with
        | nil => simp at h2
        | cons y' ys' =>
          simp only [List.tail_cons, List.head?_cons, Option.some.injEq] at h2
          subst h2
          unfold startsCall
          split <;> split <;> simp_all

theorem startsCall_mark1 (k : Text) (ts : List Tok) :
    startsCall (render (mark1 k ts)) = startsCall (render ts) := by
  cases ts with
  | nil => rfl
  | cons t ts =>
    cases t with
    | lit c =>
      apply startsCall_head (head_mark1 _ _)
      simp only [mark1, render_cons, Tok.text, List.singleton_append, List.tail_cons]
      exact head_mark1 _ _
    | key n b =>
      simp only [mark1]
      split <;> simp [render_cons, Tok.text, keyText, startsCall]

theorem proper_mark1 (k : Text) {ts : List Tok} (h : Proper ts) : Proper (mark1 k ts) := by
  induction ts with
  | nil => exact h
  | cons t ts ih =>
    cases t with
    | lit c =>
      refine ⟨fun hc => ?_, ih h.2⟩
      rw [head_mark1]; exact h.1 hc
    | key n b =>
      obtain ⟨h1, h2, h3, h4⟩ := h
      simp only [mark1]
      split
      · exact ⟨h1, h2, (fun hb => absurd hb (by simp)), h4⟩
      · refine ⟨h1, h2, fun hb => ?_, ih h4⟩
        rw [head_mark1, startsCall_mark1]; exact h3 hb

theorem replaceFirst_skip {old new : Text} {o : Char} {os : Text} (ho : old = o :: os) (a b : Text)
    (ha : ∀ c ∈ a, c ≠ o) : replaceFirst old new (a ++ b) = a ++ replaceFirst old new b := by
  induction a with
  | nil => rfl
  | cons c cs ih =>
    have hc := ha c (by simp)
    simp only [List.cons_append, replaceFirst]
    have : old.isPrefixOf (c :: (cs ++ b)) = false := by
      rw [ho]
      simp only [List.isPrefixOf, Bool.and_eq_false_imp, beq_iff_eq]
      exact fun h => absurd h.symm hc
    rw [this]
    simp [ih (fun x hx => ha x (by simp [hx]))]

theorem keyChar_ne {c : Char} (h : isKeyChar c = true) : c ≠ '@' ∧ c ≠ '(' ∧ c ≠ ')' := by
  refine ⟨?_, ?_, ?_⟩ <;> rintro rfl <;> revert h <;> decide

/-- The first token with this name, if any. -/
def firstCall (k : Text) : List Tok → Option Bool
  | [] => none
  | .lit _ :: ts => firstCall k ts
  | .key n call :: ts => if '@' :: n = k then some call else firstCall k ts

theorem mark1_noop {k : Text} {ts : List Tok} (h : firstCall k ts ≠ some false) : mark1 k ts = ts := by
  induction ts with
  | nil => rfl
  | cons t ts ih =>
    cases t with
    | lit c => simp only [mark1, firstCall] at h ⊢; rw [ih h]
    | key n b =>
      simp only [mark1, firstCall] at h ⊢
      split
      · rename_i hn
        rw [if_pos hn] at h
        cases b with
        | true => rfl
        | false => exact absurd rfl h
      · rename_i hn
        rw [if_neg hn] at h
        rw [ih h]

/-- Replacing the first occurrence of the text of a key marks the first token of that key. -/
theorem replaceFirst_mark (names : List Text) (hpf : PrefixFree names) (k : Text) (hk : k ∈ names)
    (hform : ∀ n ∈ names, ∃ c m, n = '@' :: c :: m ∧ isKeyChar c = true)
    (ts : List Tok) (hts : ∀ n ∈ keyNames ts, n ∈ names) (hp : Proper ts)
    (hfirst : firstCall k ts = some false) :
    replaceFirst k (k ++ callSuffix) (render ts) = render (mark1 k ts) := by
  obtain ⟨kc, km, hkform, hkc⟩ := hform k hk
  induction ts with
  | nil => simp [firstCall] at hfirst
  | cons t ts ih =>
    cases t with
    | lit c =>
      have ih' := ih (fun n hn => hts n (by simpa [keyNames, tokKeys] using hn)) hp.2
        (by simpa [firstCall] using hfirst)
      simp only [render_cons, Tok.text, List.singleton_append, mark1, replaceFirst]
      have : k.isPrefixOf (c :: render ts) = false := by
        cases hb : k.isPrefixOf (c :: render ts) with
        | false => rfl
        | true =>
          rw [List.isPrefixOf_iff_prefix, hkform, List.cons_prefix_cons] at hb
          obtain ⟨hc, r, hr⟩ := hb
          have := hp.1 hc.symm kc (by rw [← hr]; rfl)
          rw [hkc] at this; cases this
      rw [this]
      simp [ih']
    | key n b =>
      obtain ⟨h1, h2, h3, h4⟩ := hp
      simp only [firstCall] at hfirst
      simp only [mark1]
      have hmem : ('@' :: n) ∈ names := hts _ (by simp [keyNames, tokKeys])
      by_cases hn : '@' :: n = k
      · rw [if_pos hn] at hfirst ⊢
        cases hfirst
        rw [← hn]
        simp only [render_cons, Tok.text, keyText, Bool.false_eq_true, if_false, List.append_nil,
          List.cons_append, replaceFirst, if_true, callSuffix]
        have : List.isPrefixOf ('@' :: n) ('@' :: (n ++ render ts)) = true := by
          rw [List.isPrefixOf_iff_prefix, List.cons_prefix_cons]
          exact ⟨rfl, List.prefix_append _ _⟩
        rw [this]
        simp
      · rw [if_neg hn] at hfirst ⊢
        have ih' := ih (fun x hx => hts x (by
          simp only [keyNames, tokKeys, List.map_cons, List.mem_cons] at hx ⊢; exact Or.inr hx)) h4 hfirst
        have hno : k.isPrefixOf ('@' :: (n ++ (if b then ['(', ')'] else []) ++ render ts)) = false := by
          cases hb : k.isPrefixOf ('@' :: (n ++ (if b then ['(', ')'] else []) ++ render ts)) with
          | false => rfl
          | true =>
            rw [List.isPrefixOf_iff_prefix] at hb
            have h5 : ('@' :: n) <+: ('@' :: (n ++ (if b then ['(', ')'] else []) ++ render ts)) := by
              rw [List.cons_prefix_cons, List.append_assoc]; exact ⟨rfl, List.prefix_append _ _⟩
            rcases prefix_total hb h5 with h | h
            · exact absurd (hpf _ hk _ hmem h).symm hn
            · exact absurd (hpf _ hmem _ hk h) hn
        rw [render_cons, render_cons]
        simp only [Tok.text, keyText, List.cons_append, replaceFirst]
        rw [hno]
        simp only [Bool.false_eq_true, if_false, List.cons.injEq, true_and]
        rw [replaceFirst_skip hkform _ _ ?_, ih']
        intro c hc
        rcases List.mem_append.mp hc with hc | hc
        · exact (keyChar_ne (h2 c hc)).1
        · cases b with
          | false => simp at hc
          | true =>
            simp only [if_true, List.mem_cons, List.not_mem_nil, or_false] at hc
            rcases hc with rfl | rfl <;> decide

/-- The data keys of a template as `FindAllString` returns them. -/
theorem findKeys_render {ts : List Tok} (h : Proper ts) :
    findKeys (render ts) = (tokKeys ts).map fun k => k.1 ++ (if k.2 then ['(', ')'] else []) := by
  unfold findKeys
  rw [tokenize_render h]

theorem suffix_call {n : Text} (hn : ∀ c ∈ n, isKeyChar c = true) (b : Bool) :
    callSuffix.isSuffixOf (('@' :: n) ++ (if b then ['(', ')'] else [])) = b := by
  cases b with
  | true =>
    have : callSuffix <:+ (('@' :: n) ++ ['(', ')']) := List.suffix_append _ _
    simpa [List.isSuffixOf_iff_suffix] using this
  | false =>
    cases hb : callSuffix.isSuffixOf (('@' :: n) ++ (if false then ['(', ')'] else [])) with
    | false => rfl
    | true =>
      rw [List.isSuffixOf_iff_suffix] at hb
      simp only [Bool.false_eq_true, if_false, List.append_nil, callSuffix] at hb
      have hmem : ')' ∈ '@' :: n := hb.subset (by simp)
      rcases List.mem_cons.mp hmem with h | h
      · exact absurd h (by decide)
      · exact absurd rfl (keyChar_ne (hn _ h)).2.2

/-- The step of `rowScope` for one key: the key found first is its own first occurrence. -/
theorem find_first (names : List Text) (hpf : PrefixFree names) (k : Text) (hk : k ∈ names)
    (ts : List Tok)
    (hts : ∀ n ∈ keyNames ts, n ∈ names) :
    ((tokKeys ts).map fun x => x.1 ++ (if x.2 then ['(', ')'] else [])).find?
      (fun x => k.isPrefixOf x) =
    (firstCall k ts).map fun b => k ++ (if b then ['(', ')'] else []) := by
  induction ts with
  | nil => rfl
  | cons t ts ih =>
    cases t with
    | lit c =>
      have := ih (fun n hn => hts n (by simpa [keyNames, tokKeys] using hn))
      simpa [tokKeys, firstCall] using this
    | key n b =>
      have ih' := ih (fun x hx => hts x (by
          simp only [keyNames, tokKeys, List.map_cons, List.mem_cons] at hx ⊢; exact Or.inr hx))
      have hmem : ('@' :: n) ∈ names := hts _ (by simp [keyNames, tokKeys])
      simp only [tokKeys, List.map_cons, firstCall, List.find?_cons]
      by_cases hn : '@' :: n = k
      · rw [if_pos hn]
        have : k.isPrefixOf (('@' :: n) ++ (if b then ['(', ')'] else [])) = true := by
          rw [hn, List.isPrefixOf_iff_prefix]; exact List.prefix_append _ _
        rw [this, hn]
        rfl
      · rw [if_neg hn]
        have : k.isPrefixOf (('@' :: n) ++ (if b then ['(', ')'] else [])) = false := by
          cases hb : k.isPrefixOf (('@' :: n) ++ (if b then ['(', ')'] else [])) with
          | false => rfl
          | true =>
            rw [List.isPrefixOf_iff_prefix] at hb
            have h5 : ('@' :: n) <+: (('@' :: n) ++ (if b then ['(', ')'] else [])) :=
              List.prefix_append _ _
            rcases prefix_total hb h5 with h | h
            · exact absurd (hpf _ hk _ hmem h).symm hn
            · exact absurd (hpf _ hmem _ hk h) hn
        rw [this]
        exact ih'

theorem keyNames_form {ts : List Tok} (h : Proper ts) :
    (∀ n ∈ keyNames ts, ∃ c m, n = '@' :: c :: m ∧ isKeyChar c = true) ∧
    (∀ n ∈ keyNames ts, ∀ c ∈ n.tail, isKeyChar c = true) := by
  refine ⟨?_, ?_⟩
  · have := tokenize_names_form (render ts)
    rwa [tokenize_render h] at this
  · intro n hn c hc
    rw [mem_keyNames] at hn
    obtain ⟨m, b, hm, rfl⟩ := hn
    simp only [List.tail_cons] at hc
    induction ts with
    | nil => cases hm
    | cons t ts ih =>
      rcases List.mem_cons.mp hm with h' | h'
      · subst h'
        exact h.2.1 c hc
      · cases t with
        | lit => exact ih h.2 h'
        | key => exact ih h.2.2.2 h'

theorem firstCall_markRows (done : List Text) (k : Text) (hk : k ∉ done) (ts : List Tok)
    (seen : List Text) : firstCall k (markRows done seen ts) = firstCall k ts := by
  induction ts generalizing seen with
  | nil => rfl
  | cons t ts ih =>
    cases t with
    | lit c => simpa [markRows, firstCall] using ih seen
    | key n b =>
      simp only [markRows, firstCall]
      split
      · rename_i hn
        subst hn
        simp [hk]
      · exact ih _

theorem markRows_proper_names (done : List Text) {ts : List Tok} (hp : Proper ts) :
    Proper (markRows done [] ts) ∧ keyNames (markRows done [] ts) = keyNames ts := by
  induction done using List.reverseRecOn with
  | nil => rw [markRows_nil]; exact ⟨hp, rfl⟩
  | append_singleton done k ih =>
    rw [← mark1_markRows _ _ _ (by simp)]
    exact ⟨proper_mark1 _ ih.1, by rw [keyNames_mark1, ih.2]⟩

/-- C35. In a csv template the first occurrence of every row-scoped key becomes an explicit call
(once, also if it was written as one), and all other text and keys stay as they are, whatever the
iteration order of the map of row-scoped keys.

Partial: it needs that no data key of the template is the beginning of another one
(`C35_prefix_keys_false`). -/
theorem C35_row_scope_partial (ts : List Tok) (hts : Proper ts) (rowKeys order : List Text)
    (hsub : ∀ k ∈ rowKeys, k ∈ keyNames ts) (hnd : rowKeys.Nodup) (horder : order.Perm rowKeys)
    (hpf : PrefixFree (keyNames ts)) :
    rowScope order (render ts) = render (markRows rowKeys [] ts) := by
  obtain ⟨hf1, hf2⟩ := keyNames_form hts
  have hnames : ∀ order : List Text, (∀ k ∈ order, k ∈ keyNames ts) → ∀ done : List Text,
      (done ++ order).Nodup →
      order.foldl (rowScope1 (findKeys (render ts))) (render (markRows done [] ts)) =
        render (markRows (done ++ order) [] ts) := by
    intro order
    induction order with
    | nil => intro _ done _; simp
    | cons k ks ih =>
      intro hsub done hnd
      have hk := hsub k (by simp)
      have hkd : k ∉ done := by
        intro hc
        rw [List.nodup_append] at hnd
        exact hnd.2.2 k hc k (by simp) rfl
      obtain ⟨hp', hn'⟩ := markRows_proper_names done hts
      have hstep : rowScope1 (findKeys (render ts)) (render (markRows done [] ts)) k =
          render (markRows (done ++ [k]) [] ts) := by
        unfold rowScope1
        rw [findKeys_render hts, find_first (keyNames ts) hpf k hk ts (fun n hn => hn)]
        rw [← mark1_markRows _ _ _ (by simp)]
        cases hfc : firstCall k ts with
        | none =>
          simp only [Option.map_none]
          rw [mark1_noop (by rw [firstCall_markRows _ _ hkd, hfc]; simp)]
        | some b =>
          simp only [Option.map_some]
          obtain ⟨c, m, hkm, -⟩ := hf1 k hk
          rw [hkm, suffix_call (hf2 k hk |> fun h => by rw [hkm] at h; exact h), ← hkm]
          cases b with
          | true =>
            simp only [if_true]
            rw [mark1_noop (by rw [firstCall_markRows _ _ hkd, hfc]; simp)]
          | false =>
            simp only [Bool.false_eq_true, if_false, List.append_nil]
            exact replaceFirst_mark (keyNames ts) hpf k hk hf1 _ (by rw [hn']; exact fun n hn => hn) hp'
              (by rw [firstCall_markRows _ _ hkd, hfc])
      rw [List.foldl_cons, hstep, ih (fun x hx => hsub x (by simp [hx])) (done ++ [k]) (by simpa using hnd)]
      simp
  have h := hnames order (fun k hk => hsub k (horder.mem_iff.mp hk)) [] (by
    simpa using (horder.nodup_iff).mpr hnd)
  rw [markRows_nil, List.nil_append] at h
  unfold rowScope
  rw [h]
  congr 1
  clear h hnames hnd hsub hf1 hf2 hts hpf
  generalize ([] : List Text) = seen
  induction ts generalizing seen with
  | nil => rfl
  | cons t ts ih =>
    cases t with
    | lit c => simp [markRows, ih]
    | key n b => simp [markRows, ih, horder.mem_iff]

/-- The hypotheses of C35 are met: `(@a, @b, @a, 1)` with both keys row-scoped becomes
`(@a(), @b(), @a, 1)`. -/
example : rowScope ["@b".toList, "@a".toList] "(@a, @b, @a, 1)".toList =
    "(@a(), @b(), @a, 1)".toList := by
  have h := C35_row_scope_partial (tokenize "(@a, @b, @a, 1)".toList) (proper_tokenize _)
    ["@a".toList, "@b".toList] ["@b".toList, "@a".toList] (by decide +kernel) (by decide +kernel)
    (List.Perm.swap _ _ _) (by unfold PrefixFree; decide +kernel)
  rw [render_tokenize] at h
  rw [h]
  decide +kernel

/-- If one key is the beginning of another one, the wrong key is marked, even twice, and the other
one is never called again: all rows get the same value of `@d`. -/
theorem C35_prefix_keys_false :
    rowScope ["@d".toList, "@d2".toList] "(@d2, @d)".toList = "(@d2()(), @d)".toList := by
  decide +kernel

/-! ### C34: the csv substitution -/

theorem markRows_congr {a b : List Text} (h : ∀ k, k ∈ a ↔ k ∈ b) (seen : List Text) (ts : List Tok) :
    markRows a seen ts = markRows b seen ts := by
  induction ts generalizing seen with
  | nil => rfl
  | cons t ts ih => cases t <;> simp [markRows, ih, h]

theorem trim_keyText {n : Text} (h0 : n ≠ []) (hn : ∀ c ∈ n, isKeyChar c = true) (b : Bool) :
    cfgKey (('@' :: n) ++ (if b then ['(', ')'] else [])) = String.ofList n := by
  unfold cfgKey trim trimRight
  congr 1
  have hx : ∀ c ∈ n, (c == '@' || c == '(' || c == ')') = false := by
    intro c hc
    obtain ⟨h1, h2, h3⟩ := keyChar_ne (hn c hc)
    simp [h1, h2, h3]
  have h1 : List.dropWhile (fun c => c == '@' || c == '(' || c == ')')
      (('@' :: n) ++ (if b then ['(', ')'] else [])) = n ++ (if b then ['(', ')'] else []) := by
    cases n with
    | nil => exact absurd rfl h0
    | cons c cs =>
      have := hx c (by simp)
      simp [this]
  rw [h1]
  have h2 : List.dropWhile (fun c => c == '@' || c == '(' || c == ')')
      (n ++ (if b then ['(', ')'] else [])).reverse = n.reverse := by
    have h3 : List.dropWhile (fun c => c == '@' || c == '(' || c == ')') n.reverse = n.reverse := by
      cases hr : n.reverse with
      | nil => rfl
      | cons c cs =>
        have := hx c (by rw [← List.mem_reverse, hr]; simp)
        simp [this]
    cases b with
    | false => simpa using h3
    | true => simpa using h3
  rw [h2, List.reverse_reverse]

/-- Is this data key (with `@`) row-scoped in a csv template: configured with row scope or with no
scope. -/
def RowScoped (data : GoMap String DataCfg) (k : Text) : Prop :=
  ∃ cfg, data (String.ofList k.tail) = some cfg ∧ (cfg.scope = "" ∨ cfg.scope = "row")

theorem csvKeys_ok {ks : List (Text × Bool)} :
    ∀ {data : GoMap String DataCfg} {keys : List Text},
    (∀ k ∈ ks, ∃ n, k.1 = '@' :: n ∧ n ≠ [] ∧ (∀ c ∈ n, isKeyChar c = true) ∧
      (data (String.ofList n)).isSome) → keys.Nodup →
    ∃ data' keys', csvKeys data keys (ks.map fun x => x.1 ++ (if x.2 then ['(', ')'] else [])) =
        .ok (data', keys') ∧ keys'.Nodup ∧
      ∀ k, k ∈ keys' ↔ k ∈ keys ∨ (k ∈ ks.map (·.1) ∧ RowScoped data k) := by
  induction ks with
  | nil => intro data keys _ hnd; exact ⟨data, keys, rfl, hnd, by simp⟩
  | cons x xs ih =>
    intro data keys h hnd
    obtain ⟨n, h1, h2, h3, h4⟩ := h x (by simp)
    obtain ⟨k0, b⟩ := x
    dsimp only at h1
    subst h1
    obtain ⟨cfg, hcfg⟩ := Option.isSome_iff_exists.mp h4
    simp only [List.map_cons, csvKeys, trim_keyText h2 h3 b, hcfg]
    -- the new config and keys
    generalize hd' : (if cfg.scope = "" then
      data.set (String.ofList n) (if cfg.scope = "" then { cfg with scope := "row" } else cfg)
      else data) = data1
    have hrow : ∀ m, (data1 (String.ofList m)).isSome = (data (String.ofList m)).isSome := by
      intro m
      rw [← hd']
      split
      · by_cases hm : String.ofList m = String.ofList n
        · rw [hm, GoMap.set_same, hcfg]; rfl
        · rw [GoMap.set_other _ _ hm]
      · rfl
    have hscoped : ∀ k, RowScoped data1 k ↔ RowScoped data k := by
      intro k
      unfold RowScoped
      rw [← hd']
      split
      · rename_i hsc
        by_cases hm : String.ofList k.tail = String.ofList n
        · rw [hm, GoMap.set_same, hcfg]
          simp [hsc]
        · rw [GoMap.set_other _ _ hm]
      · rfl
    have hself : RowScoped data ('@' :: n) ↔
        (if cfg.scope = "" then { cfg with scope := "row" } else cfg).scope = "row" := by
      unfold RowScoped
      simp only [List.tail_cons, hcfg, Option.some.injEq, exists_eq_left']
      split
      · rename_i hsc; simp [hsc]
      · rename_i hsc; simp [hsc]
    generalize (if cfg.scope = "" then { cfg with scope := "row" } else cfg).scope = sc at hself ⊢
    generalize hk' : (if sc = "row"
      then addKey keys ('@' :: (String.ofList n).toList) else keys) = keys1
    have hnd1 : keys1.Nodup := by
      rw [← hk']
      split
      · unfold addKey
        split
        · exact hnd
        · rename_i hnot
          rw [List.nodup_append]
          refine ⟨hnd, by simp, ?_⟩
          intro a ha b' hb'
          simp only [List.mem_singleton] at hb'
          subst hb'
          rintro rfl
          exact hnot ha
      · exact hnd
    have hmem1 : ∀ k, k ∈ keys1 ↔ k ∈ keys ∨ (k = '@' :: n ∧ RowScoped data k) := by
      intro k
      rw [← hk']
      split
      · rename_i hsc
        have hs := hself.mpr hsc
        simp only [String.toList_ofList]
        unfold addKey
        split
        · rename_i hin
          constructor
          · exact Or.inl
          · rintro (h | ⟨rfl, _⟩)
            · exact h
            · exact hin
        · rw [List.mem_append, List.mem_singleton]
          constructor
          · rintro (h | rfl)
            · exact Or.inl h
            · exact Or.inr ⟨rfl, hs⟩
          · rintro (h | ⟨rfl, _⟩)
            · exact Or.inl h
            · exact Or.inr rfl
      · rename_i hsc
        constructor
        · exact Or.inl
        · rintro (h | ⟨rfl, hr⟩)
          · exact h
          · exact absurd (hself.mp hr) hsc
    obtain ⟨data', keys', e1, e2, e3⟩ := ih (data := data1) (keys := keys1) (by
      intro k hk
      obtain ⟨m, m1, m2, m3, m4⟩ := h k (by simp [hk])
      exact ⟨m, m1, m2, m3, by rw [hrow]; exact m4⟩) hnd1
    refine ⟨data', keys', e1, e2, fun k => ?_⟩
    rw [e3, hmem1, hscoped]
    simp only [List.mem_cons]
    tauto

theorem splitLastClose_none {s : Text} (h : ¬ ['*', '/'] <:+: s) : splitLastClose s = none := by
  induction s with
  | nil => rfl
  | cons c cs ih =>
    have h1 : ¬ ['*', '/'] <:+: cs := fun hc => h (hc.trans (List.suffix_cons _ _).isInfix)
    simp only [splitLastClose, ih h1]
    have : ['*', '/'].isPrefixOf (c :: cs) = false := by
      cases hb : ['*', '/'].isPrefixOf (c :: cs) with
      | false => rfl
      | true =>
        rw [List.isPrefixOf_iff_prefix] at hb
        exact absurd hb.isInfix h
    rw [this]; rfl

theorem splitLastClose_append (t after : Text) (h : ¬ ['*', '/'] <:+: after) :
    splitLastClose (t ++ ['*', '/'] ++ after) = some (t, after) := by
  induction t with
  | nil =>
    have h1 : splitLastClose ('/' :: after) = none := by
      have : ['*', '/'].isPrefixOf ('/' :: after) = false := rfl
      simp [splitLastClose, splitLastClose_none h, this]
    have h2 : ['*', '/'].isPrefixOf ('*' :: '/' :: after) = true := rfl
    simp only [List.nil_append, List.cons_append]
    rw [splitLastClose, h1]
    simp [h2]
  | cons c cs ih =>
    simp only [List.cons_append]
    rw [splitLastClose]
    simp only [List.append_assoc] at ih ⊢
    rw [ih]

/-- The csv marker as it is written: the word, spaces, digits, spaces, template, end of comment. -/
def csvMarker (sp1 ds sp2 t : Text) : Text :=
  "/*!csv".toList ++ (sp1 ++ (ds ++ (sp2 ++ (t ++ ['*', '/']))))

theorem csvAt_marker {sp1 ds sp2 t after : Text} (h1 : sp1 ≠ [] ∧ ∀ c ∈ sp1, isReSpace c = true)
    (h2 : ds ≠ [] ∧ ∀ c ∈ ds, isDigit c = true) (h3 : sp2 ≠ [] ∧ ∀ c ∈ sp2, isReSpace c = true)
    (h4 : t ≠ [] ∧ ∀ c ∈ t.head?, isReSpace c = false) (h5 : ¬ ['*', '/'] <:+: after) :
    csvAt (csvMarker sp1 ds sp2 t ++ after) = some ⟨ds, trimSpace t, after⟩ := by
  have dsp : ∀ c, isDigit c = true → isReSpace c = false := by
    intro c hc
    cases hs : isReSpace c with
    | false => rfl
    | true =>
      simp only [isReSpace, Bool.or_eq_true, beq_iff_eq] at hs
      rcases hs with (((rfl | rfl) | rfl) | rfl) | rfl <;> revert hc <;> decide
  have spd : ∀ c, isReSpace c = true → isDigit c = false := by
    intro c hc
    cases hd : isDigit c with
    | false => rfl
    | true => rw [dsp c hd] at hc; cases hc
  unfold csvAt csvMarker
  have e0 : ("/*!csv".toList).isPrefixOf ("/*!csv".toList ++ (sp1 ++ (ds ++ (sp2 ++ (t ++ ['*', '/'])))) ++ after) =
      true := by
    rw [List.isPrefixOf_iff_prefix, List.append_assoc]; exact List.prefix_append _ _
  have e1 : List.drop ("/*!csv".toList).length ("/*!csv".toList ++ (sp1 ++ (ds ++ (sp2 ++ (t ++ ['*', '/'])))) ++ after) =
      sp1 ++ (ds ++ (sp2 ++ (t ++ ['*', '/'] ++ after))) := by
    rw [List.append_assoc, List.drop_left]; simp
  have hd1 : ∀ d ∈ (ds ++ (sp2 ++ (t ++ ['*', '/'] ++ after))).head?, isReSpace d = false := by
    intro d hd
    cases ds with
    | nil => exact absurd rfl h2.1
    | cons x xs =>
      simp at hd; subst hd
      exact dsp _ (h2.2 _ (by simp))
  have hd2 : ∀ d ∈ (sp2 ++ (t ++ ['*', '/'] ++ after)).head?, isDigit d = false := by
    intro d hd
    obtain ⟨h3a, h3b⟩ := h3
    cases sp2 with
    | nil => exact absurd rfl h3a
    | cons x xs =>
      simp at hd; subst hd
      exact spd _ (h3b _ (by simp))
  have hd3 : ∀ d ∈ (t ++ ['*', '/'] ++ after).head?, isReSpace d = false := by
    intro d hd
    obtain ⟨h4a, h4b⟩ := h4
    cases t with
    | nil => exact absurd rfl h4a
    | cons x xs =>
      simp at hd; subst hd
      exact h4b _ (by simp)
  obtain ⟨a1, a2⟩ := takeWhile_append_stop (p := isReSpace) h1.2 hd1
  obtain ⟨b1, b2⟩ := takeWhile_append_stop (p := isDigit) h2.2 hd2
  obtain ⟨c1, c2⟩ := takeWhile_append_stop (p := isReSpace) h3.2 hd3
  simp only [e0, if_true, e1, a1, a2, b1, b2, c1, c2, splitLastClose_append t after h5, h1.1, h2.1,
    h3.1, h4.1, or_self, if_false, false_and]

theorem findCsv_marker {before marker : Text} {m : CsvMatch}
    (hb : ∀ i, i < before.length → ¬ "/*!csv".toList <+: (before ++ marker).drop i)
    (hm : csvAt marker = some m) : findCsv (before ++ marker) = some (before, m) := by
  induction before with
  | nil =>
    cases marker with
    | nil => simp [csvAt] at hm
    | cons c cs => simp [findCsv, hm]
  | cons c cs ih =>
    have h0 := hb 0 (by simp)
    have hno : csvAt (c :: (cs ++ marker)) = none := by
      unfold csvAt
      have : ("/*!csv".toList).isPrefixOf (c :: (cs ++ marker)) = false := by
        cases hp : ("/*!csv".toList).isPrefixOf (c :: (cs ++ marker)) with
        | false => rfl
        | true =>
          rw [List.isPrefixOf_iff_prefix] at hp
          exact absurd hp (by simpa using h0)
      simp only [this, Bool.false_eq_true, if_false]
    have := ih (fun i hi => by
      have := hb (i + 1) (by simp; omega)
      simpa using this)
    simp only [List.cons_append, findCsv, hno, this]

/-- A query with the csv marker, for `C34_csv_rows_partial`. -/
theorem expandCsv_marker (env : TrxEnv) (data : GoMap String DataCfg)
    (before sp1 ds sp2 t after : Text) (N : Nat) (ts : List Tok)
    (h1 : sp1 ≠ [] ∧ ∀ c ∈ sp1, isReSpace c = true)
    (h2 : ds ≠ [] ∧ ∀ c ∈ ds, isDigit c = true) (hN : parseDigits32 ds = some N)
    (h3 : sp2 ≠ [] ∧ ∀ c ∈ sp2, isReSpace c = true)
    (h4 : t ≠ [] ∧ ∀ c ∈ t.head?, isReSpace c = false)
    (h5 : ¬ ['*', '/'] <:+: after)
    (hfirst : ∀ i, i < before.length →
      ¬ "/*!csv".toList <+: (before ++ (csvMarker sp1 ds sp2 t ++ after)).drop i)
    (hts : Proper ts) (ht : trimSpace t = render ts)
    (hconf : ∀ k ∈ keyNames ts, (data (String.ofList k.tail)).isSome)
    (hpf : PrefixFree (keyNames ts)) (horder : ∀ l, (env.rowOrder l).Perm l) :
    ∃ data' rowKeys, (∀ k, k ∈ rowKeys ↔ k ∈ keyNames ts ∧ RowScoped data k) ∧
      expandCsv env data (before ++ (csvMarker sp1 ds sp2 t ++ after)) =
        .ok (data', before ++ join [',', ' '] (List.replicate N (render (markRows rowKeys [] ts))) ++
          after) := by
  obtain ⟨hf1, hf2⟩ := keyNames_form hts
  obtain ⟨data', keys', e1, e2, e3⟩ := csvKeys_ok (ks := tokKeys ts) (data := data) (keys := []) (by
    intro k hk
    have hkn : k.1 ∈ keyNames ts := List.mem_map_of_mem hk
    obtain ⟨c, m, hc, -⟩ := hf1 _ hkn
    have := hf2 _ hkn
    have hcf := hconf _ hkn
    rw [hc] at this hcf
    exact ⟨c :: m, hc, by simp, this, hcf⟩) (by simp)
  refine ⟨data', keys', fun k => ?_, ?_⟩
  · rw [e3]
    simp only [List.not_mem_nil, false_or]
    rfl
  · unfold expandCsv
    rw [findCsv_marker hfirst (csvAt_marker h1 h2 h3 h4 h5)]
    simp only [bind, Out.bind, hN, Out.ofOption, ht, findKeys_render hts, e1, pure]
    rw [C35_row_scope_partial ts hts keys' (env.rowOrder keys') (fun k hk => by
      have := (e3 k).mp hk
      simp only [List.not_mem_nil, false_or] at this
      exact this.1) e2 (horder keys') hpf]

/-- `join` with N copies is N copies with separators between them: one more copy adds one
separator. -/
theorem C34_join_replicate (sep t : Text) (n : Nat) :
    join sep (List.replicate (n + 1) t) = (List.replicate n (t ++ sep)).flatten ++ t := by
  induction n with
  | zero => simp [join]
  | succ n ih =>
    rw [List.replicate_succ, List.replicate_succ, join, ← List.replicate_succ, ih]
    simp [List.replicate_succ, List.append_assoc]

/-- The text of an expanded query. -/
def expandedOf : Out (GoMap String DataCfg × Text) → Option String
  | .ok (_, q) => some (String.ofList q)
  | _ => none

/-- A later comment in the query becomes part of the template: it and the text before it are
repeated N times. -/
theorem C34_later_comment_false :
    expandedOf (expandCsv demoEnv demoData "INSERT INTO t VALUES /*!csv 2 (1)*/ AS x /* y */".toList) =
      some "INSERT INTO t VALUES (1)*/ AS x /* y, (1)*/ AS x /* y" := by
  decide +kernel

/-- Spec: the query has a csv comment: the word, space, a number, space, something, end of a comment. -/
def HasCsv (q : Text) : Prop :=
  ∃ before sp1 ds sp2 t after : Text, q = before ++ csvMarker sp1 ds sp2 t ++ after ∧
    (sp1 ≠ [] ∧ ∀ c ∈ sp1, c ∈ ['\t', '\n', '\x0c', '\r', ' ']) ∧ (ds ≠ [] ∧ ∀ c ∈ ds, c.isDigit = true) ∧
    (sp2 ≠ [] ∧ ∀ c ∈ sp2, c ∈ ['\t', '\n', '\x0c', '\r', ' ']) ∧ t ≠ []

theorem isReSpace_iff (c : Char) : isReSpace c = true ↔ c ∈ ['\t', '\n', '\x0c', '\r', ' '] := by
  simp [isReSpace, or_assoc]

theorem isDigit_iff (c : Char) : isDigit c = true ↔ c.isDigit = true := by
  unfold isDigit Char.isDigit
  simp only [Bool.and_eq_true, decide_eq_true_eq, Char.le_def]

theorem splitLastClose_some {s a b : Text} (h : splitLastClose s = some (a, b)) : s = a ++ ['*', '/'] ++ b := by
  induction s generalizing a b with
  | nil => cases h
  | cons c cs ih =>
    rw [splitLastClose] at h
    cases hx : splitLastClose cs with
    | some p =>
      obtain ⟨a', b'⟩ := p
      rw [hx] at h
      simp only [Option.some.injEq, Prod.mk.injEq] at h
      obtain ⟨rfl, rfl⟩ := h
      rw [ih hx]; rfl
    | none =>
      rw [hx] at h
      simp only at h
      split at h
      · rename_i hp
        simp only [Option.some.injEq, Prod.mk.injEq] at h
        obtain ⟨rfl, rfl⟩ := h
        obtain ⟨r, hr⟩ := List.isPrefixOf_iff_prefix.1 hp
        rw [← hr]; rfl
      · cases h

theorem splitLastClose_isSome (a b : Text) : ∃ p, splitLastClose (a ++ ['*', '/'] ++ b) = some p := by
  induction a with
  | nil =>
    have h2 : ['*', '/'].isPrefixOf ('*' :: '/' :: b) = true := rfl
    show ∃ p, splitLastClose ('*' :: '/' :: b) = some p
    rw [splitLastClose]
    cases splitLastClose ('/' :: b) with
    | some p => exact ⟨_, rfl⟩
    | none => simp only [h2, if_true]; exact ⟨_, rfl⟩
  | cons c cs ih =>
    obtain ⟨p, hp⟩ := ih
    rw [List.cons_append, List.cons_append, splitLastClose, hp]
    exact ⟨_, rfl⟩

theorem csvAt_has {s : Text} {m : CsvMatch} (h : csvAt s = some m) : HasCsv s := by
  unfold csvAt at h
  dsimp only at h
  split at h
  · rename_i hp
    obtain ⟨s1, hs1⟩ := List.isPrefixOf_iff_prefix.1 hp
    have hd : s.drop ("/*!csv".toList).length = s1 := by rw [← hs1, List.drop_left]
    rw [hd] at h
    split at h
    · cases h
    · rename_i hne
      simp only [not_or] at hne
      obtain ⟨n1, n2, n3⟩ := hne
      split at h
      · cases h
      · rename_i t rest hsp
        split at h
        · cases h
        · rename_i hlen
          have e4 := splitLastClose_some hsp
          have ts : ∀ l : Text, ∀ c ∈ l.takeWhile isReSpace, isReSpace c = true :=
            fun l c hc => List.all_eq_true.1 (List.all_takeWhile (p := isReSpace) (l := l)) c hc
          have td : ∀ l : Text, ∀ c ∈ l.takeWhile isDigit, isDigit c = true :=
            fun l c hc => List.all_eq_true.1 (List.all_takeWhile (p := isDigit) (l := l)) c hc
          generalize g1 : s1.takeWhile isReSpace = sp1 at *
          generalize g2 : s1.dropWhile isReSpace = s2 at *
          generalize g3 : s2.takeWhile isDigit = ds at *
          generalize g4 : s2.dropWhile isDigit = s3 at *
          generalize g5 : s3.takeWhile isReSpace = sp2 at *
          generalize g6 : s3.dropWhile isReSpace = s4 at *
          have e1 : sp1 ++ s2 = s1 := by rw [← g1, ← g2]; exact List.takeWhile_append_dropWhile
          have e2 : ds ++ s3 = s2 := by rw [← g3, ← g4]; exact List.takeWhile_append_dropWhile
          have e3 : sp2 ++ s4 = s3 := by rw [← g5, ← g6]; exact List.takeWhile_append_dropWhile
          have p1 : ∀ c ∈ sp1, c ∈ ['\t', '\n', '\x0c', '\r', ' '] :=
            fun c hc => (isReSpace_iff c).1 (ts s1 c (g1 ▸ hc))
          have p2 : ∀ c ∈ ds, c.isDigit = true := fun c hc => (isDigit_iff c).1 (td s2 c (g3 ▸ hc))
          have p3 : ∀ c ∈ sp2, c ∈ ['\t', '\n', '\x0c', '\r', ' '] :=
            fun c hc => (isReSpace_iff c).1 (ts s3 c (g5 ▸ hc))
          by_cases ht : t = []
          · -- the template is the last space
            have hl : 2 ≤ sp2.length := by
              by_contra hx
              exact hlen ⟨ht, by omega⟩
            refine ⟨[], sp1, ds, sp2.dropLast, [sp2.getLast n3], rest, ?_, ⟨n1, p1⟩, ⟨n2, p2⟩, ⟨?_, ?_⟩, by simp⟩
            · rw [← hs1, ← e1, ← e2, ← e3, e4, ht]
              conv_lhs => rw [← List.dropLast_concat_getLast n3]
              simp [csvMarker]
            · intro hx
              have := congrArg List.length hx
              simp at this; omega
            · exact fun c hc => p3 c (List.dropLast_subset _ hc)
          · refine ⟨[], sp1, ds, sp2, t, rest, ?_, ⟨n1, p1⟩, ⟨n2, p2⟩, ⟨n3, p3⟩, ht⟩
            rw [← hs1, ← e1, ← e2, ← e3, e4]
            simp [csvMarker]
  · cases h

theorem csvAt_of {sp1 ds sp2 t after : Text} (h1 : sp1 ≠ [] ∧ ∀ c ∈ sp1, isReSpace c = true)
    (h2 : ds ≠ [] ∧ ∀ c ∈ ds, isDigit c = true) (h3 : sp2 ≠ [] ∧ ∀ c ∈ sp2, isReSpace c = true) (h4 : t ≠ []) :
    csvAt (csvMarker sp1 ds sp2 t ++ after) ≠ none := by
  have dsp : ∀ c, isDigit c = true → isReSpace c = false := by
    intro c hc
    cases hs : isReSpace c with
    | false => rfl
    | true =>
      simp only [isReSpace, Bool.or_eq_true, beq_iff_eq] at hs
      rcases hs with (((rfl | rfl) | rfl) | rfl) | rfl <;> revert hc <;> decide
  have spd : ∀ c, isReSpace c = true → isDigit c = false := by
    intro c hc
    cases hd : isDigit c with
    | false => rfl
    | true => rw [dsp c hd] at hc; cases hc
  -- spaces at the beginning of the template
  obtain ⟨u, v, htuv, hu, hv⟩ : ∃ u v, t = u ++ v ∧ (∀ c ∈ u, isReSpace c = true) ∧
      ∀ d ∈ (v ++ ['*', '/'] ++ after).head?, isReSpace d = false :=
    ⟨t.takeWhile isReSpace, t.dropWhile isReSpace, List.takeWhile_append_dropWhile.symm,
      fun c hc => List.all_eq_true.1 (List.all_takeWhile (p := isReSpace) (l := t)) c hc, by
        intro d hd
        have hx := List.head?_dropWhile_not isReSpace t
        cases hv : t.dropWhile isReSpace with
        | nil => rw [hv] at hd; simp at hd; subst hd; decide
        | cons x xs =>
          rw [hv] at hd hx
          simp at hd hx
          subst hd
          exact hx⟩
  have e0 : ("/*!csv".toList).isPrefixOf (csvMarker sp1 ds sp2 t ++ after) = true := by
    rw [List.isPrefixOf_iff_prefix]; unfold csvMarker; rw [List.append_assoc]; exact List.prefix_append _ _
  have e1 : List.drop ("/*!csv".toList).length (csvMarker sp1 ds sp2 t ++ after) =
      sp1 ++ (ds ++ ((sp2 ++ u) ++ (v ++ ['*', '/'] ++ after))) := by
    unfold csvMarker
    rw [List.append_assoc, List.drop_left, htuv]; simp
  have hd1 : ∀ d ∈ (ds ++ ((sp2 ++ u) ++ (v ++ ['*', '/'] ++ after))).head?, isReSpace d = false := by
    intro d hd
    cases ds with
    | nil => exact absurd rfl h2.1
    | cons x xs =>
      simp at hd; subst hd
      exact dsp _ (h2.2 _ (by simp))
  have hd2 : ∀ d ∈ ((sp2 ++ u) ++ (v ++ ['*', '/'] ++ after)).head?, isDigit d = false := by
    intro d hd
    obtain ⟨h3a, h3b⟩ := h3
    cases sp2 with
    | nil => exact absurd rfl h3a
    | cons x xs =>
      simp at hd; subst hd
      exact spd _ (h3b _ (by simp))
  have hsu : ∀ c ∈ sp2 ++ u, isReSpace c = true := by
    intro c hc
    rcases List.mem_append.1 hc with hc | hc
    · exact h3.2 c hc
    · exact hu c hc
  obtain ⟨a1, a2⟩ := takeWhile_append_stop (p := isReSpace) h1.2 hd1
  obtain ⟨b1, b2⟩ := takeWhile_append_stop (p := isDigit) h2.2 hd2
  obtain ⟨c1, c2⟩ := takeWhile_append_stop (p := isReSpace) hsu hv
  obtain ⟨⟨p, q⟩, hpq⟩ := splitLastClose_isSome v after
  have hne : sp2 ++ u ≠ [] := by simp [h3.1]
  unfold csvAt
  simp only [e0, if_true, e1, a1, a2, b1, b2, c1, c2, hpq, h1.1, h2.1, hne, or_self, if_false]
  rw [if_neg]
  · simp
  · rintro ⟨hp, hlen⟩
    subst hp
    have := splitLastClose_some hpq
    have hvn : v = [] := by
      cases v with
      | nil => rfl
      | cons x xs =>
        exfalso
        -- the last comment end is not at the beginning if there is one later
        obtain ⟨p', hp'⟩ := splitLastClose_isSome xs after
        rw [List.cons_append, List.cons_append, splitLastClose, hp'] at hpq
        cases hpq
    have hun : u ≠ [] := by rintro rfl; exact h4 (by rw [htuv, hvn]; rfl)
    have h5 := List.length_pos_iff.2 h3.1
    have h6 := List.length_pos_iff.2 hun
    simp at hlen
    omega

/-- **C34 (which comments).** The csv substitution is done exactly if the query has a csv comment: the word,
space, a number, space, something, end of a comment. -/
theorem C34_marker_iff (q : Text) : findCsv q ≠ none ↔ HasCsv q := by
  induction q with
  | nil =>
    constructor
    · intro h; exact absurd rfl h
    · rintro ⟨before, sp1, ds, sp2, t, after, h, -⟩
      simp [csvMarker] at h
  | cons c cs ih =>
    rw [findCsv]
    constructor
    · intro h
      cases hx : csvAt (c :: cs) with
      | some m => exact csvAt_has hx
      | none =>
        rw [hx] at h
        simp only at h
        have : findCsv cs ≠ none := by
          intro hy; rw [hy] at h; exact h rfl
        obtain ⟨before, sp1, ds, sp2, t, after, e, r⟩ := ih.1 this
        exact ⟨c :: before, sp1, ds, sp2, t, after, by rw [e]; rfl, r⟩
    · rintro ⟨before, sp1, ds, sp2, t, after, e, h1, h2, h3, h4⟩
      cases hx : csvAt (c :: cs) with
      | some m => simp
      | none =>
        cases before with
        | nil =>
          exfalso
          refine csvAt_of (after := after) ⟨h1.1, fun c hc => (isReSpace_iff c).2 (h1.2 c hc)⟩
            ⟨h2.1, fun c hc => (isDigit_iff c).2 (h2.2 c hc)⟩ ⟨h3.1, fun c hc => (isReSpace_iff c).2 (h3.2 c hc)⟩ h4 ?_
          rw [List.nil_append] at e
          rw [← e, hx]
        | cons b bs =>
          have hcs : cs = bs ++ csvMarker sp1 ds sp2 t ++ after := (List.cons.inj e).2
          have := ih.2 ⟨bs, sp1, ds, sp2, t, after, hcs, h1, h2, h3, h4⟩
          simp only
          cases hy : findCsv cs with
          | none => exact absurd hy this
          | some p => simp

/-- **C34 (no csv comment).** Any other query is unchanged. -/
theorem C34_no_marker (env : TrxEnv) (data : GoMap String DataCfg) (q : Text) (h : ¬ HasCsv q) :
    expandCsv env data q = .ok (data, q) := by
  unfold expandCsv
  cases hx : findCsv q with
  | none => rfl
  | some p => exact absurd ((C34_marker_iff q).1 (by rw [hx]; simp)) h

/-- Not a csv comment: no space after the number. -/
example : ¬ HasCsv "INSERT INTO t VALUES /*!csv 3(@d)*/".toList := by
  rw [← C34_marker_iff]; decide +kernel

end Finch
