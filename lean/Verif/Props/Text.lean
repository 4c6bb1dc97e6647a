import Verif.Model.Text
import Mathlib.Tactic.Common
/-!
Facts about the text functions: pieces of a query, replacement, splitting.
-/
namespace Finch

/-! ### Pieces of a query -/

theorem tokenizeAux_drop (k : Nat) (s : Text) : tokenizeAux k s = tokenizeAux 0 (s.drop k) := by
  induction s generalizing k with
  | nil => cases k <;> simp [tokenizeAux]
  | cons c cs ih =>
    cases k with
    | zero => simp
    | succ k => simp [tokenizeAux, ih k]

theorem replacerAux_drop (ps : List (Text × Text)) (k : Nat) (s : Text) :
    replacerAux ps k s = replacerAux ps 0 (s.drop k) := by
  induction s generalizing k with
  | nil => cases k <;> simp [replacerAux]
  | cons c cs ih =>
    cases k with
    | zero => simp
    | succ k => simp [replacerAux, ih k]

theorem keyText_ne_nil (n : Text) (b : Bool) : keyText n b ≠ [] := by simp [keyText]

theorem startsCall_iff {s : Text} : startsCall s = true ↔ ∃ r, s = '(' :: ')' :: r := by
  constructor
  · intro h
    unfold startsCall at h
    split at h
    · exact ⟨_, rfl⟩
    · cases h
  · rintro ⟨r, rfl⟩; rfl

/-- What `keyAt` finds: the longest possible data key. -/
theorem keyAt_some {s n : Text} {b : Bool} (h : keyAt s = some (n, b)) :
    n ≠ [] ∧ (∀ c ∈ n, isKeyChar c = true) ∧ s = keyText n b ++ s.drop (keyText n b).length ∧
    (b = false → (∀ d ∈ (s.drop (keyText n b).length).head?, isKeyChar d = false) ∧
      startsCall (s.drop (keyText n b).length) = false) := by
  unfold keyAt at h
  split at h
  · rename_i cs
    dsimp only at h
    split at h
    · cases h
    · rename_i hn
      simp only [Option.some.injEq, Prod.mk.injEq] at h
      obtain ⟨rfl, hb⟩ := h
      have hsplit := List.takeWhile_append_dropWhile (p := isKeyChar) (l := cs)
      have hdrop : List.drop (List.takeWhile isKeyChar cs).length cs = cs.dropWhile isKeyChar := by
        have : List.drop (List.takeWhile isKeyChar cs).length
            (cs.takeWhile isKeyChar ++ cs.dropWhile isKeyChar) = cs.dropWhile isKeyChar :=
          List.drop_left
        rwa [hsplit] at this
      refine ⟨hn, fun c hc => ?_, ?_, ?_⟩
      · have := List.all_takeWhile (p := isKeyChar) (l := cs)
        rw [List.all_eq_true] at this
        exact this c hc
      · cases b with
        | false => simp only [keyText, Bool.false_eq_true, if_false, List.append_nil, List.length_cons,
            List.drop_succ_cons, hdrop, List.cons_append, hsplit]
        | true =>
          obtain ⟨r, hr⟩ := startsCall_iff.mp hb
          simp only [keyText, if_true, List.length_append, List.length_cons, List.length_nil]
          have : List.drop ((List.takeWhile isKeyChar cs).length + 1 + 2) ('@' :: cs) = r := by
            rw [show (List.takeWhile isKeyChar cs).length + 1 + 2 =
              ((List.takeWhile isKeyChar cs).length + 2) + 1 by omega, List.drop_succ_cons,
              ← List.drop_drop, hdrop, hr]
            rfl
          rw [this]
          simp only [List.cons_append, List.append_assoc, List.nil_append]
          rw [← hr, hsplit]
      · rintro rfl
        simp only [keyText, Bool.false_eq_true, if_false, List.append_nil, List.length_cons,
            List.drop_succ_cons, hdrop]
        refine ⟨fun d hd => ?_, hb⟩
        have := List.head?_dropWhile_not isKeyChar cs
        cases hdw : cs.dropWhile isKeyChar with
        | nil => simp [hdw] at hd
        | cons x xs =>
          simp only [hdw, List.head?_cons, Option.mem_def, Option.some.injEq] at hd
          rw [hdw] at this
          subst hd
          simpa using this
  · cases h

theorem keyAt_none_lit {c : Char} {cs : Text} (h : keyAt (c :: cs) = none) (hc : c = '@') :
    ∀ d ∈ cs.head?, isKeyChar d = false := by
  subst hc
  have h : (if cs.takeWhile isKeyChar = [] then none
    else some (cs.takeWhile isKeyChar, startsCall (cs.dropWhile isKeyChar))) = none := h
  split at h
  · rename_i hn
    intro d hd
    cases cs with
    | nil => simp at hd
    | cons x xs =>
      simp only [List.head?_cons, Option.mem_def, Option.some.injEq] at hd
      subst hd
      cases hk : isKeyChar x with
      | false => rfl
      | true => simp [hk] at hn
  · cases h

/-- The pieces make up the text. -/
theorem render_tokenize (s : Text) : render (tokenize s) = s := by
  unfold tokenize
  induction hl : s.length using Nat.strongRecOn generalizing s with
  | ind k ih =>
    cases s with
    | nil => simp [tokenizeAux, render]
    | cons c cs =>
      unfold tokenizeAux
      cases hk : keyAt (c :: cs) with
      | none =>
        simp only [render, List.flatMap_cons, Tok.text, List.singleton_append]
        have := ih cs.length (by simp at hl; omega) cs rfl
        rw [render] at this
        rw [this]
      | some nb =>
        obtain ⟨n, b⟩ := nb
        obtain ⟨-, -, h3, -⟩ := keyAt_some hk
        dsimp only
        rw [tokenizeAux_drop]
        have hlen : (keyText n b).length ≠ 0 := by simp [keyText]
        have hd : List.drop ((keyText n b).length - 1) cs = List.drop (keyText n b).length (c :: cs) := by
          obtain ⟨m, hm⟩ : ∃ m, (keyText n b).length = m + 1 := ⟨_, (Nat.succ_pred hlen).symm⟩
          rw [hm]; simp
        rw [hd]
        have := ih (List.drop (keyText n b).length (c :: cs)).length (by simp at hl ⊢; omega) _ rfl
        simp only [render, List.flatMap_cons, Tok.text]
        rw [render] at this
        rw [this]
        exact h3.symm

/-- The pieces are what the pattern `@[\w_-]+(?:\(\))?` finds from left to right: names are not
empty and consist of name characters, they are as long as possible, a call mark after a name belongs
to it, and an `@` followed by a name character always starts a data key. -/
def Proper : List Tok → Prop
  | [] => True
  | .lit c :: ts => (c = '@' → ∀ d ∈ (render ts).head?, isKeyChar d = false) ∧ Proper ts
  | .key n call :: ts =>
    n ≠ [] ∧ (∀ c ∈ n, isKeyChar c = true) ∧
    (call = false → (∀ d ∈ (render ts).head?, isKeyChar d = false) ∧ startsCall (render ts) = false) ∧
    Proper ts

theorem proper_tokenize (s : Text) : Proper (tokenize s) := by
  unfold tokenize
  induction hl : s.length using Nat.strongRecOn generalizing s with
  | ind k ih =>
    cases s with
    | nil => simp [tokenizeAux, Proper]
    | cons c cs =>
      unfold tokenizeAux
      cases hk : keyAt (c :: cs) with
      | none =>
        refine ⟨fun hc => ?_, ih cs.length (by simp at hl; omega) cs rfl⟩
        have := render_tokenize cs
        rw [tokenize] at this
        rw [this]
        exact keyAt_none_lit hk hc
      | some nb =>
        obtain ⟨n, b⟩ := nb
        obtain ⟨h1, h2, h3, h4⟩ := keyAt_some hk
        dsimp only
        rw [tokenizeAux_drop]
        have hlen : (keyText n b).length ≠ 0 := by simp [keyText]
        have hd : List.drop ((keyText n b).length - 1) cs = List.drop (keyText n b).length (c :: cs) := by
          obtain ⟨m, hm⟩ : ∃ m, (keyText n b).length = m + 1 := ⟨_, (Nat.succ_pred hlen).symm⟩
          rw [hm]; simp
        rw [hd]
        have hr := render_tokenize (List.drop (keyText n b).length (c :: cs))
        rw [tokenize] at hr
        refine ⟨h1, h2, fun hb => ?_, ih _ (by simp at hl ⊢; omega) _ rfl⟩
        rw [hr]
        exact h4 hb

theorem render_cons (t : Tok) (ts : List Tok) : render (t :: ts) = t.text ++ render ts := by
  simp [render]

theorem takeWhile_append_stop {p : Char → Bool} {a b : Text} (ha : ∀ c ∈ a, p c = true)
    (hb : ∀ d ∈ b.head?, p d = false) : (a ++ b).takeWhile p = a ∧ (a ++ b).dropWhile p = b := by
  induction a with
  | nil =>
    cases b with
    | nil => simp
    | cons x xs =>
      have := hb x (by simp)
      simp [this]
  | cons x xs ih =>
    have hx := ha x (by simp)
    have := ih (fun c hc => ha c (by simp [hc]))
    simp [hx, this.1, this.2]

theorem keyAt_keyText {n : Text} {b : Bool} {r : Text} (h1 : n ≠ [])
    (h2 : ∀ c ∈ n, isKeyChar c = true)
    (h3 : b = false → (∀ d ∈ r.head?, isKeyChar d = false) ∧ startsCall r = false) :
    keyAt (keyText n b ++ r) = some (n, b) := by
  have hp : isKeyChar '(' = false := by decide
  cases b with
  | false =>
    obtain ⟨h4, h5⟩ := h3 rfl
    have := takeWhile_append_stop h2 h4
    simp [keyText, keyAt, this.1, this.2, h1, h5]
  | true =>
    have := takeWhile_append_stop (p := isKeyChar) (a := n) (b := '(' :: ')' :: r) h2 (by simp [hp])
    simp [keyText, keyAt, this.1, this.2, h1, startsCall]

/-- Pieces of the proper form are found again. -/
theorem tokenize_render {ts : List Tok} (h : Proper ts) : tokenize (render ts) = ts := by
  unfold tokenize
  induction ts with
  | nil => simp [render, tokenizeAux]
  | cons t ts ih =>
    cases t with
    | lit c =>
      obtain ⟨h1, h2⟩ := h
      rw [render_cons]
      simp only [Tok.text, List.singleton_append]
      unfold tokenizeAux
      have hk : keyAt (c :: render ts) = none := by
        unfold keyAt
        split
        · rename_i cs heq
          simp only [List.cons.injEq] at heq
          obtain ⟨rfl, rfl⟩ := heq
          have := h1 rfl
          have hn : List.takeWhile isKeyChar (render ts) = [] := by
            cases hr : render ts with
            | nil => simp
            | cons x xs =>
              have := this x (by simp [hr])
              simp [this]
          simp [hn]
        · rfl
      rw [hk]
      dsimp only
      rw [ih h2]
    | key n b =>
      obtain ⟨h1, h2, h3, h4⟩ := h
      rw [render_cons]
      simp only [Tok.text]
      have hk := keyAt_keyText (r := render ts) h1 h2 h3
      cases hkt : keyText n b with
      | nil => simp [keyText] at hkt
      | cons c cs =>
        rw [hkt] at hk
        simp only [List.cons_append] at hk ⊢
        unfold tokenizeAux
        rw [hk]
        dsimp only
        rw [tokenizeAux_drop, hkt]
        simp only [List.length_cons, Nat.add_sub_cancel, List.drop_left, ih h4]

/-! ### Replacement -/

/-- The text of a piece with data keys replaced by `fmt name` (name with `@`). -/
def Tok.formatted (fmt : Text → Text) : Tok → Text
  | .lit c => [c]
  | .key n _ => fmt ('@' :: n)

/-- No data key of the query is the beginning of another one. -/
def PrefixFree (names : List Text) : Prop :=
  ∀ a ∈ names, ∀ b ∈ names, a <+: b → a = b

theorem render_append (a b : List Tok) : render (a ++ b) = render a ++ render b := by
  simp [render]

theorem head_strip (ts : List Tok) : (render (ts.map Tok.strip)).head? = (render ts).head? := by
  cases ts with
  | nil => rfl
  | cons t ts => cases t <;> simp [render_cons, Tok.strip, Tok.text, keyText]

theorem prefix_total {a b s : Text} (h1 : a <+: s) (h2 : b <+: s) : a <+: b ∨ b <+: a :=
  List.prefix_or_prefix_of_prefix h1 h2

/-- The names of the data keys among the pieces, with `@`. -/
def keyNames (ts : List Tok) : List Text := (tokKeys ts).map (·.1)

theorem mem_keyNames {ts : List Tok} {x : Text} :
    x ∈ keyNames ts ↔ ∃ n b, Tok.key n b ∈ ts ∧ x = '@' :: n := by
  induction ts with
  | nil => simp [keyNames, tokKeys]
  | cons t ts ih =>
    cases t with
    | lit c => simpa [keyNames, tokKeys] using ih
    | key n b =>
      simp only [keyNames, tokKeys, List.map_cons, List.mem_cons] at ih ⊢
      rw [ih]
      constructor
      · rintro (rfl | ⟨n', b', h1, h2⟩)
        · exact ⟨n, b, Or.inl rfl, rfl⟩
        · exact ⟨n', b', Or.inr h1, h2⟩
      · rintro ⟨n', b', h1 | h1, h2⟩
        · cases h1; exact Or.inl h2
        · exact Or.inr ⟨n', b', h1, h2⟩

/-- Replacing by key, with any list of pairs in which exactly the keys of the query occur. -/
theorem replacer_strip (pairs : List (Text × Text)) (fmt : Text → Text) (names : List Text)
    (hnames : ∀ kv ∈ pairs, kv.1 ∈ names ∧ kv.2 = fmt kv.1)
    (hall : ∀ n ∈ names, ∃ kv ∈ pairs, kv.1 = n)
    (hform : ∀ n ∈ names, ∃ c m, n = '@' :: c :: m ∧ isKeyChar c = true)
    (hpf : PrefixFree names)
    (ts : List Tok) (hts : ∀ n ∈ keyNames ts, n ∈ names) (hp : Proper ts) :
    replacer pairs (render (ts.map Tok.strip)) = ts.flatMap (Tok.formatted fmt) := by
  unfold replacer
  induction ts with
  | nil => simp [render, replacerAux]
  | cons t ts ih =>
    cases t with
    | lit c =>
      obtain ⟨h1, h2⟩ := hp
      have ih' := ih (fun n hn => hts n (by simpa [keyNames, tokKeys] using hn)) h2
      simp only [List.map_cons, Tok.strip, render_cons, Tok.text, List.singleton_append,
        List.flatMap_cons, Tok.formatted]
      unfold replacerAux
      have hno : firstMatch pairs (c :: render (ts.map Tok.strip)) = none := by
        unfold firstMatch
        rw [List.find?_eq_none]
        intro kv hkv hpre
        rw [List.isPrefixOf_iff_prefix] at hpre
        obtain ⟨d, m, hd, hdk⟩ := hform _ (hnames kv hkv).1
        rw [hd, List.cons_prefix_cons] at hpre
        obtain ⟨hc, hpre⟩ := hpre
        have := h1 hc.symm d (by
          rw [← head_strip]
          obtain ⟨r, hr⟩ := hpre
          rw [← hr]; rfl)
        rw [hdk] at this
        cases this
      rw [hno]
      dsimp only
      rw [ih']
    | key n b =>
      obtain ⟨h1, h2, h3, h4⟩ := hp
      have hmem : ('@' :: n) ∈ names := hts _ (by simp [keyNames, tokKeys])
      have ih' := ih (fun x hx => hts x (by
        simp only [keyNames, tokKeys, List.map_cons, List.mem_cons] at hx ⊢; exact Or.inr hx)) h4
      simp only [List.map_cons, Tok.strip, render_cons, Tok.text, keyText, Bool.false_eq_true,
        if_false, List.append_nil, List.flatMap_cons, Tok.formatted, List.cons_append]
      unfold replacerAux
      have hm : firstMatch pairs ('@' :: (n ++ render (ts.map Tok.strip))) =
          some ('@' :: n, fmt ('@' :: n)) := by
        unfold firstMatch
        cases hf : pairs.find? (fun kv => kv.1.isPrefixOf ('@' :: (n ++ render (ts.map Tok.strip)))) with
        | none =>
          rw [List.find?_eq_none] at hf
          obtain ⟨kv, hkv, hk⟩ := hall _ hmem
          exact absurd (by
            rw [List.isPrefixOf_iff_prefix, hk, List.cons_prefix_cons]
            exact ⟨rfl, List.prefix_append _ _⟩) (hf kv hkv)
        | some kv =>
          have hkv := List.mem_of_find?_eq_some hf
          have hpre := List.find?_some hf
          rw [List.isPrefixOf_iff_prefix] at hpre
          have hk : kv.1 = '@' :: n := by
            have h5 : ('@' :: n) <+: ('@' :: (n ++ render (ts.map Tok.strip))) := by
              rw [List.cons_prefix_cons]; exact ⟨rfl, List.prefix_append _ _⟩
            rcases prefix_total hpre h5 with h | h
            · exact hpf _ (hnames kv hkv).1 _ hmem h
            · exact (hpf _ hmem _ (hnames kv hkv).1 h).symm
          obtain ⟨k, v⟩ := kv
          dsimp only at hk
          subst hk
          have := (hnames _ hkv).2
          dsimp only at this
          rw [this]
      rw [hm]
      dsimp only
      rw [replacerAux_drop]
      simp only [List.length_cons, Nat.add_sub_cancel, List.drop_left]
      rw [ih']

end Finch
