import Verif.Model.Vars
import Verif.Props.Port
import Verif.Props.ConfigBase
import Mathlib.Tactic.Common
/-!
C60: variables in settings.
-/
namespace Finch

/-- Spec: a text is made of characters and references to variables. -/
inductive VPiece where
  | lit (c : Char)
  | ref (name : Text)
  deriving DecidableEq

/-- Spec: what a piece stands for. -/
def VPiece.value (val : Text → Text) : VPiece → Text
  | .lit c => [c]
  | .ref n => val n

/-- References written as `${name}`. -/
def braceText : List VPiece → Text
  | [] => []
  | .lit c :: ps => c :: braceText ps
  | .ref n :: ps => '$' :: '{' :: (n ++ '}' :: braceText ps)

/-- Names are not empty and have no `}`; a literal `$` is not followed by `{`. -/
def BraceOk : List VPiece → Prop
  | [] => True
  | .lit c :: ps => (c = '$' → (braceText ps).head? ≠ some '{') ∧ BraceOk ps
  | .ref n :: ps => n ≠ [] ∧ '}' ∉ n ∧ BraceOk ps

/-- References written as `$name`. -/
def dollarText : List VPiece → Text
  | [] => []
  | .lit c :: ps => c :: dollarText ps
  | .ref n :: ps => '$' :: (n ++ dollarText ps)

/-- The characters at which a name ends: white space and quotes. -/
def wordEnds : List Char := [' ', '\t', '\n', '\x0c', '\r', '"', '\'']

/-- The next character is a space or quote, or the text ends. -/
def Sep (s : Text) : Prop := ∀ c, s.head? = some c → c ∈ wordEnds

/-- Names are not empty, have no spaces, quotes or braces, and are followed by a space or quote or the
end of the text; so is a literal `$`. -/
def DollarOk : List VPiece → Prop
  | [] => True
  | .lit c :: ps => (c = '$' → Sep (dollarText ps)) ∧ DollarOk ps
  | .ref n :: ps => n ≠ [] ∧ (∀ c ∈ n, c ∉ wordEnds) ∧ '{' ∉ n ∧ Sep (dollarText ps) ∧ DollarOk ps

/-- The names referred to. -/
def refsOf : List VPiece → List Text
  | [] => []
  | .lit _ :: ps => refsOf ps
  | .ref n :: ps => n :: refsOf ps

/-! ### Lemmas -/

theorem isVarChar_iff (c : Char) : isVarChar c = true ↔ c ∉ wordEnds := by
  simp [isVarChar, isReSpace, wordEnds]
  tauto

theorem Sep.stop {s : Text} (h : Sep s) (c : Char) (hc : s.head? = some c) : isVarChar c = false := by
  rw [← Bool.not_eq_true, isVarChar_iff]
  exact fun hn => hn (h c hc)

theorem replacerAux_skip (pairs : List (Text × Text)) : ∀ (u t : Text),
    replacerAux pairs u.length (u ++ t) = replacerAux pairs 0 t
  | [], t => rfl
  | a :: u, t => by
    simp only [List.length_cons, List.cons_append, replacerAux]
    exact replacerAux_skip pairs u t

theorem findAllAux_skip (ml : Text → Option Nat) : ∀ (u t : Text),
    findAllAux ml u.length (u ++ t) = findAllAux ml 0 t
  | [], t => rfl
  | a :: u, t => by
    simp only [List.length_cons, List.cons_append, findAllAux]
    exact findAllAux_skip ml u t

theorem takeWhile_append_stop_v {p : Char → Bool} : ∀ (n : Text) (r : Text), (∀ c ∈ n, p c) →
    (∀ c, r.head? = some c → p c = false) → (n ++ r).takeWhile p = n
  | [], [], _, _ => rfl
  | [], c :: r, _, hr => by simp [hr c rfl]
  | a :: n, r, hn, hr => by
    have := takeWhile_append_stop_v n r (fun c hc => hn c (List.mem_cons_of_mem _ hc)) hr
    simp [hn a List.mem_cons_self, this]

theorem mem_ne_of_not_mem {c : Char} {n : Text} (h : c ∉ n) : ∀ x ∈ n, (x != c) = true := by
  intro x hx
  simp only [bne_iff_ne, ne_eq]
  rintro rfl
  exact h hx

theorem braceLen_ref (n : Text) (r : Text) (hn : n ≠ []) (hb : '}' ∉ n) :
    braceLen ('$' :: '{' :: (n ++ '}' :: r)) = some (n.length + 3) := by
  have : (n ++ '}' :: r).takeWhile (· != '}') = n :=
    takeWhile_append_stop_v n _ (mem_ne_of_not_mem hb) (by simp)
  simp [braceLen, this, hn]

theorem braceLen_lit (c : Char) (r : Text) (h : c = '$' → r.head? ≠ some '{') :
    braceLen (c :: r) = none := by
  unfold braceLen
  split
  · rename_i heq
    cases heq
    simp at h
  · rfl

theorem dollarLen_ref (n : Text) (r : Text) (hn : n ≠ []) (hb : ∀ c ∈ n, isVarChar c) (hr : Sep r) :
    dollarLen ('$' :: (n ++ r)) = some (n.length + 1) := by
  have : (n ++ r).takeWhile isVarChar = n := takeWhile_append_stop_v n _ hb hr.stop
  simp [dollarLen, this, hn]

theorem dollarLen_lit (c : Char) (r : Text) (h : c = '$' → Sep r) : dollarLen (c :: r) = none := by
  unfold dollarLen
  split
  · rename_i heq
    cases heq
    have : r.takeWhile isVarChar = [] := by
      cases r with
      | nil => rfl
      | cons d r => simp [(h rfl).stop d rfl]
    simp [this]
  · rfl

theorem findAll_brace : ∀ ps, BraceOk ps →
    findAll braceLen (braceText ps) = (refsOf ps).map fun n => '$' :: '{' :: (n ++ ['}'])
  | [], _ => rfl
  | .lit c :: ps, h => by
    have ih := findAll_brace ps h.2
    simp only [findAll] at ih ⊢
    simp only [braceText, findAllAux, braceLen_lit c _ h.1]
    exact ih
  | .ref n :: ps, h => by
    obtain ⟨hn, hb, hps⟩ := h
    have ih := findAll_brace ps hps
    simp only [findAll] at ih ⊢
    simp only [braceText, findAllAux, braceLen_ref n _ hn hb, refsOf, List.map_cons]
    have hskip := findAllAux_skip braceLen ('{' :: (n ++ ['}'])) (braceText ps)
    have hl : n.length + 3 - 1 = ('{' :: (n ++ ['}'])).length := by simp
    have ha : '{' :: (n ++ ['}']) ++ braceText ps = '{' :: (n ++ '}' :: braceText ps) := by simp
    rw [ha] at hskip
    rw [hl, hskip, ih]
    simp [List.take_append]
    exact List.take_of_length_le (Nat.le_succ _)

theorem findAll_dollar : ∀ ps, DollarOk ps →
    findAll dollarLen (dollarText ps) = (refsOf ps).map fun n => '$' :: n
  | [], _ => rfl
  | .lit c :: ps, h => by
    have ih := findAll_dollar ps h.2
    simp only [findAll] at ih ⊢
    simp only [dollarText, findAllAux, dollarLen_lit c _ h.1]
    exact ih
  | .ref n :: ps, h => by
    obtain ⟨hn, hb, _, hs, hps⟩ := h
    have ih := findAll_dollar ps hps
    simp only [findAll] at ih ⊢
    simp only [dollarText, findAllAux, dollarLen_ref n _ hn (fun c hc => (isVarChar_iff c).mpr (hb c hc)) hs, refsOf, List.map_cons]
    have hskip := findAllAux_skip dollarLen n (dollarText ps)
    rw [Nat.add_sub_cancel, hskip, ih]
    simp

/-- The pairs in terms of the names. -/
theorem pairs_eq (e : VarEnv) (name : Text → Text) (txt : Text → Text) (hname : ∀ n, name (txt n) = n)
    (val : Text → Text) : ∀ ns : List Text, (∀ n ∈ ns, e.resolve n = some (val n)) →
    e.pairs name (ns.map txt) = some (ns.map fun n => (txt n, val n))
  | [], _ => rfl
  | n :: ns, h => by
    simp only [List.map_cons, VarEnv.pairs, hname, h n List.mem_cons_self]
    rw [pairs_eq e name txt hname val ns (fun m hm => h m (List.mem_cons_of_mem _ hm))]
    rfl

theorem pairs_none (e : VarEnv) (name : Text → Text) (txt : Text → Text) (hname : ∀ n, name (txt n) = n) :
    ∀ ns : List Text, (∃ n ∈ ns, e.resolve n = none) → e.pairs name (ns.map txt) = none
  | [], h => by simp at h
  | n :: ns, h => by
    simp only [List.map_cons, VarEnv.pairs, hname]
    cases hr : e.resolve n with
    | none => rfl
    | some v =>
      obtain ⟨m, hm, hmr⟩ := h
      have : m ∈ ns := by
        rcases List.mem_cons.mp hm with rfl | hm
        · rw [hr] at hmr; cases hmr
        · exact hm
      rw [pairs_none e name txt hname ns ⟨m, this, hmr⟩]
      rfl

theorem brace_prefix {m n r : Text} (hm : '}' ∉ m) (hn : '}' ∉ n)
    (h : m ++ ['}'] <+: n ++ '}' :: r) : m = n := by
  obtain ⟨t, ht⟩ := h
  have h1 : (m ++ '}' :: t).takeWhile (· != '}') = m :=
    takeWhile_append_stop_v m _ (mem_ne_of_not_mem hm) (by simp)
  have h2 : (n ++ '}' :: r).takeWhile (· != '}') = n :=
    takeWhile_append_stop_v n _ (mem_ne_of_not_mem hn) (by simp)
  rw [← h1, ← h2, ← ht]
  simp

theorem firstMatch_unique {pairs : List (Text × Text)} {s k v : Text} (hin : (k, v) ∈ pairs)
    (hp : k.isPrefixOf s) (huniq : ∀ kv ∈ pairs, kv.1.isPrefixOf s → kv = (k, v)) :
    firstMatch pairs s = some (k, v) := by
  unfold firstMatch
  cases h : pairs.find? (fun kv => kv.1.isPrefixOf s) with
  | none =>
    have := List.find?_eq_none.mp h (k, v) hin
    exact absurd hp this
  | some kv =>
    have h1 := List.find?_some h
    have h2 := List.mem_of_find?_eq_some h
    rw [huniq kv h2 h1]

theorem firstMatch_none {pairs : List (Text × Text)} {s : Text}
    (h : ∀ kv ∈ pairs, ¬ kv.1.isPrefixOf s) : firstMatch pairs s = none :=
  List.find?_eq_none.mpr h

theorem replacer_brace (val : Text → Text) (pairs : List (Text × Text)) : ∀ ps, BraceOk ps →
    (∀ n ∈ refsOf ps, ('$' :: '{' :: (n ++ ['}']), val n) ∈ pairs) →
    (∀ kv ∈ pairs, ∃ n, n ≠ [] ∧ '}' ∉ n ∧ kv = ('$' :: '{' :: (n ++ ['}']), val n)) →
    replacer pairs (braceText ps) = ps.flatMap (VPiece.value val)
  | [], _, _, _ => rfl
  | .lit c :: ps, h, hin, hall => by
    have ih := replacer_brace val pairs ps h.2 hin hall
    unfold replacer at ih ⊢
    have hm : firstMatch pairs (c :: braceText ps) = none := by
      apply firstMatch_none
      intro kv hkv hpre
      obtain ⟨n, hn, hb, rfl⟩ := hall kv hkv
      simp only [List.isPrefixOf, Bool.and_eq_true, beq_iff_eq] at hpre
      refine h.1 hpre.1.symm ?_
      cases hb : braceText ps with
      | nil => rw [hb] at hpre; simp [List.isPrefixOf] at hpre
      | cons d r =>
        rw [hb] at hpre
        simp only [List.isPrefixOf, Bool.and_eq_true, beq_iff_eq] at hpre
        rw [← hpre.2.1]; rfl
    simp only [braceText, replacerAux, hm, List.flatMap_cons, VPiece.value]
    rw [ih]; rfl
  | .ref n :: ps, h, hin, hall => by
    obtain ⟨hn, hb, hps⟩ := h
    have ih := replacer_brace val pairs ps hps
      (fun m hm => hin m (by simp only [refsOf]; exact List.mem_cons_of_mem _ hm)) hall
    unfold replacer at ih ⊢
    have hm : firstMatch pairs ('$' :: '{' :: (n ++ '}' :: braceText ps)) =
        some ('$' :: '{' :: (n ++ ['}']), val n) := by
      apply firstMatch_unique (hin n (by simp [refsOf]))
      · rw [List.isPrefixOf_iff_prefix]
        exact ⟨braceText ps, by simp⟩
      · intro kv hkv hpre
        obtain ⟨m, hm, hmb, rfl⟩ := hall kv hkv
        rw [List.isPrefixOf_iff_prefix] at hpre
        have hpre2 : m ++ ['}'] <+: n ++ '}' :: braceText ps := by
          obtain ⟨t, ht⟩ := hpre
          refine ⟨t, ?_⟩
          simpa using ht
        rw [brace_prefix hmb hb hpre2]
    simp only [braceText, replacerAux, hm, List.flatMap_cons, VPiece.value]
    have hskip := replacerAux_skip pairs ('{' :: (n ++ ['}'])) (braceText ps)
    have hl : ('$' :: '{' :: (n ++ ['}'])).length - 1 = ('{' :: (n ++ ['}'])).length := by simp
    have ha : '{' :: (n ++ ['}']) ++ braceText ps = '{' :: (n ++ '}' :: braceText ps) := by simp
    rw [ha] at hskip
    rw [hl, hskip, ih]

theorem dollar_prefix {m n r : Text} (hm : ∀ c ∈ m, isVarChar c) (hr : Sep r) (h : m <+: n ++ r) :
    m <+: n := by
  induction n generalizing m with
  | nil =>
    cases m with
    | nil => exact List.nil_prefix
    | cons a m =>
      obtain ⟨t, ht⟩ := h
      have : isVarChar a = false := hr.stop a (by simp only [List.nil_append] at ht; rw [← ht]; rfl)
      rw [hm a List.mem_cons_self] at this
      cases this
  | cons b n ih =>
    cases m with
    | nil => exact List.nil_prefix
    | cons a m =>
      rw [List.cons_append, List.cons_prefix_cons] at h
      rw [List.cons_prefix_cons]
      exact ⟨h.1, ih (fun c hc => hm c (List.mem_cons_of_mem _ hc)) h.2⟩

theorem replacer_dollar (val : Text → Text) (pairs : List (Text × Text)) : ∀ ps, DollarOk ps →
    (∀ n ∈ refsOf ps, ('$' :: n, val n) ∈ pairs) →
    (∀ kv ∈ pairs, ∃ n, n ≠ [] ∧ (∀ c ∈ n, isVarChar c) ∧ kv = ('$' :: n, val n) ∧
      ∀ m ∈ refsOf ps, n <+: m → n = m) →
    replacer pairs (dollarText ps) = ps.flatMap (VPiece.value val)
  | [], _, _, _ => rfl
  | .lit c :: ps, h, hin, hall => by
    have ih := replacer_dollar val pairs ps h.2 hin hall
    unfold replacer at ih ⊢
    have hm : firstMatch pairs (c :: dollarText ps) = none := by
      apply firstMatch_none
      intro kv hkv hpre
      obtain ⟨n, hn, hb, rfl, _⟩ := hall kv hkv
      simp only [List.isPrefixOf, Bool.and_eq_true, beq_iff_eq] at hpre
      have hsep := h.1 hpre.1.symm
      cases n with
      | nil => exact hn rfl
      | cons a n =>
        cases hd : dollarText ps with
        | nil => rw [hd] at hpre; simp [List.isPrefixOf] at hpre
        | cons d r =>
          rw [hd] at hpre hsep
          simp only [List.isPrefixOf, Bool.and_eq_true, beq_iff_eq] at hpre
          have h1 := hsep.stop d rfl
          rw [← hpre.2.1, hb a List.mem_cons_self] at h1
          cases h1
    simp only [dollarText, replacerAux, hm, List.flatMap_cons, VPiece.value]
    rw [ih]; rfl
  | .ref n :: ps, h, hin, hall => by
    obtain ⟨hn, hb, _, hs, hps⟩ := h
    have ih := replacer_dollar val pairs ps hps
      (fun m hm => hin m (by simp only [refsOf]; exact List.mem_cons_of_mem _ hm))
      (fun kv hkv => by
        obtain ⟨m, h1, h2, h3, h4⟩ := hall kv hkv
        exact ⟨m, h1, h2, h3, fun x hx => h4 x (by simp only [refsOf]; exact List.mem_cons_of_mem _ hx)⟩)
    unfold replacer at ih ⊢
    have hm : firstMatch pairs ('$' :: (n ++ dollarText ps)) = some ('$' :: n, val n) := by
      apply firstMatch_unique (hin n (by simp [refsOf]))
      · rw [List.isPrefixOf_iff_prefix]
        exact ⟨dollarText ps, by simp⟩
      · intro kv hkv hpre
        obtain ⟨m, hm, hmb, rfl, hfree⟩ := hall kv hkv
        rw [List.isPrefixOf_iff_prefix, List.cons_prefix_cons] at hpre
        rw [hfree n (by simp [refsOf]) (dollar_prefix hmb hs hpre.2)]
    simp only [dollarText, replacerAux, hm, List.flatMap_cons, VPiece.value]
    have hskip := replacerAux_skip pairs n (dollarText ps)
    rw [List.length_cons, Nat.add_sub_cancel, hskip, ih]

theorem braceName_txt (n : Text) : braceName ('$' :: '{' :: (n ++ ['}'])) = n := by simp [braceName]

theorem braceOk_refs : ∀ ps, BraceOk ps → ∀ n ∈ refsOf ps, n ≠ [] ∧ '}' ∉ n
  | [], _, n, hn => by simp [refsOf] at hn
  | .lit c :: ps, h, n, hn => braceOk_refs ps h.2 n hn
  | .ref m :: ps, h, n, hn => by
    rcases List.mem_cons.mp hn with rfl | hn
    · exact ⟨h.1, h.2.1⟩
    · exact braceOk_refs ps h.2.2 n hn

theorem dollarOk_refs : ∀ ps, DollarOk ps → ∀ n ∈ refsOf ps, n ≠ [] ∧ ∀ c ∈ n, isVarChar c
  | [], _, n, hn => by simp [refsOf] at hn
  | .lit c :: ps, h, n, hn => dollarOk_refs ps h.2 n hn
  | .ref m :: ps, h, n, hn => by
    rcases List.mem_cons.mp hn with rfl | hn
    · exact ⟨h.1, fun c hc => (isVarChar_iff c).mpr (h.2.1 c hc)⟩
    · exact dollarOk_refs ps h.2.2.2.2 n hn

theorem findAll_none {ml : Text → Option Nat} : ∀ s : Text, (∀ t, t <:+ s → ml t = none) →
    findAll ml s = []
  | [], _ => rfl
  | c :: cs, h => by
    have ih := findAll_none (ml := ml) cs (fun t ht => h t (ht.trans (List.suffix_cons c cs)))
    unfold findAll at ih ⊢
    simp only [findAllAux, h _ (List.suffix_refl _)]
    exact ih

theorem replacer_nil : ∀ s : Text, replacer [] s = s
  | [] => rfl
  | c :: cs => by
    have ih := replacer_nil cs
    unfold replacer at ih ⊢
    simp only [replacerAux, firstMatch, List.find?_nil]
    rw [ih]

theorem pass_none (e : VarEnv) (ml : Text → Option Nat) (name : Text → Text) (s : Text)
    (h : findAll ml s = []) : e.pass ml name s = some s := by
  simp [VarEnv.pass, h, VarEnv.pairs, replacer_nil]

theorem dollar_free (s : Text) (h : '$' ∉ s) :
    findAll braceLen s = [] ∧ findAll dollarLen s = [] := by
  constructor
  · apply findAll_none
    intro t ht
    cases t with
    | nil => rfl
    | cons c t =>
      apply braceLen_lit
      rintro rfl
      exact absurd (ht.subset List.mem_cons_self) h
  · apply findAll_none
    intro t ht
    cases t with
    | nil => rfl
    | cons c t =>
      apply dollarLen_lit
      rintro rfl
      exact absurd (ht.subset List.mem_cons_self) h

/-- No `${` in text with references written as `$name`. -/
theorem findAll_brace_dollar : ∀ ps, DollarOk ps → findAll braceLen (dollarText ps) = [] := by
  have key : ∀ (n r : Text), '{' ∉ n → findAllAux braceLen 0 r = [] → r.head? ≠ some '{' →
      findAllAux braceLen 0 (n ++ r) = [] ∧ (n ++ r).head? ≠ some '{' := by
    intro n r
    induction n with
    | nil => intro _ hr hh; exact ⟨hr, hh⟩
    | cons a n ih =>
      intro hn hr hh
      have hn' : '{' ∉ n := fun h => hn (List.mem_cons_of_mem _ h)
      obtain ⟨i1, i2⟩ := ih hn' hr hh
      refine ⟨?_, ?_⟩
      · simp only [List.cons_append, findAllAux, braceLen_lit a _ (fun _ => i2)]
        exact i1
      · simp only [List.cons_append, List.head?_cons]
        intro h
        cases h
        exact hn List.mem_cons_self
  intro ps
  induction ps with
  | nil => intro _; rfl
  | cons p ps ih =>
    cases p with
    | lit c =>
      intro h
      have hi := ih h.2
      unfold findAll at hi ⊢
      simp only [dollarText, findAllAux]
      rw [braceLen_lit c]
      · exact hi
      · intro hc hh
        have := h.1 hc '{' hh
        simp [wordEnds] at this
    | ref n =>
      rintro ⟨hn, hb, hbr, hs, hps⟩
      have hi := ih hps
      unfold findAll at hi ⊢
      have hh : (dollarText ps).head? ≠ some '{' := by
        intro hh
        have := hs '{' hh
        simp [wordEnds] at this
      obtain ⟨k1, k2⟩ := key n _ hbr hi hh
      simp only [dollarText, findAllAux]
      rw [braceLen_lit '$' _ (fun _ => k2)]
      exact k1

theorem dropWhile_all {p : Char → Bool} : ∀ l : Text, (∀ c ∈ l, p c) → l.dropWhile p = []
  | [], _ => rfl
  | a :: l, h => by
    rw [List.dropWhile_cons, if_pos (h a List.mem_cons_self)]
    exact dropWhile_all l (fun c hc => h c (List.mem_cons_of_mem _ hc))

theorem unit_not_digit (c : Char) (h : isUnit c) : isDigit c = false := by
  unfold isUnit at h
  simp at h
  rcases h with h | h | h | h | h | h | h | h | h | h | h <;> subst h <;> decide

theorem unit_not_comma (c : Char) (h : isUnit c) : c ≠ ',' := by
  rintro rfl
  revert h
  decide

theorem humanLen_digits (ds us : Text) (hne : ds ≠ []) (hd : ∀ c ∈ ds, isDigit c)
    (hu : ∀ c ∈ us, isUnit c) (_hu2 : ∀ c, us.head? = some c → isUnit c) :
    humanLen (ds ++ us) = some (ds.length + us.length) := by
  have hrun : (ds ++ us).takeWhile (fun c => isDigit c || c == ',') = ds := by
    apply takeWhile_append_stop_v
    · intro c hc; simp [hd c hc]
    · intro c hc
      have := hu c (List.mem_of_mem_head? hc)
      simp [unit_not_digit c this, unit_not_comma c this]
  have htrim : trimRight (· == ',') ds = ds := by
    unfold trimRight
    have : ds.reverse.dropWhile (· == ',') = ds.reverse := by
      cases hr : ds.reverse with
      | nil => rfl
      | cons a r =>
        have ha : a ∈ ds := by
          rw [← List.mem_reverse, hr]; exact List.mem_cons_self
        have : (a == ',') = false := by
          have h1 := hd a ha
          cases hc : (a == ',')
          · rfl
          · rw [beq_iff_eq] at hc; subst hc; revert h1; decide
        simp [this]
    rw [this, List.reverse_reverse]
  have hunit : us.takeWhile isUnit = us := by
    have := takeWhile_append_stop_v us [] hu (by simp)
    simpa using this
  simp only [humanLen, hrun, htrim, if_neg hne, List.drop_left, hunit]

/-! ### The property -/

/-- **C60.** Every `${name}` is replaced by the value of exactly that variable and nothing else
changes, whatever the names are (as long as no value contains a `$`, which would be read again). -/
theorem C60_braces (e : VarEnv) (ps : List VPiece) (hok : BraceOk ps) (val : Text → Text)
    (hval : ∀ n ∈ refsOf ps, e.resolve n = some (val n))
    (hno : '$' ∉ ps.flatMap (VPiece.value val)) :
    e.vars false (braceText ps) = some (ps.flatMap (VPiece.value val)) := by
  have h1 : e.pass braceLen braceName (braceText ps) = some (ps.flatMap (VPiece.value val)) := by
    simp only [VarEnv.pass, findAll_brace ps hok]
    rw [pairs_eq e braceName _ braceName_txt val _ hval]
    simp only [Option.map_some, Option.some.injEq]
    apply replacer_brace val _ ps hok
    · intro n hn; exact List.mem_map.mpr ⟨n, hn, rfl⟩
    · intro kv hkv
      obtain ⟨n, hn, rfl⟩ := List.mem_map.mp hkv
      exact ⟨n, (braceOk_refs ps hok n hn).1, (braceOk_refs ps hok n hn).2, rfl⟩
  simp [VarEnv.vars, h1, pass_none e _ _ _ (dollar_free _ hno).2]

/-- **C60.** If one of the names is not known, the setting is rejected. -/
theorem C60_braces_unknown (e : VarEnv) (ps : List VPiece) (hok : BraceOk ps)
    (h : ∃ n ∈ refsOf ps, e.resolve n = none) (b : Bool) : e.vars b (braceText ps) = none := by
  have h1 : e.pass braceLen braceName (braceText ps) = none := by
    simp only [VarEnv.pass, findAll_brace ps hok, pairs_none e braceName _ braceName_txt _ h]
    rfl
  simp [VarEnv.vars, h1]

/-- **C60.** Every `$name` is replaced by the value of exactly that variable and nothing else changes,
if no name used in the text is the beginning of another one. What is missing: names that are
beginnings of others, see `C60_prefix_false`. -/
theorem C60_dollar_partial (e : VarEnv) (ps : List VPiece) (hok : DollarOk ps) (val : Text → Text)
    (hval : ∀ n ∈ refsOf ps, e.resolve n = some (val n))
    (hfree : ∀ n ∈ refsOf ps, ∀ m ∈ refsOf ps, n <+: m → n = m) :
    e.vars false (dollarText ps) = some (ps.flatMap (VPiece.value val)) := by
  have h1 : e.pass dollarLen dollarName (dollarText ps) = some (ps.flatMap (VPiece.value val)) := by
    simp only [VarEnv.pass, findAll_dollar ps hok]
    rw [pairs_eq e dollarName (fun n => '$' :: n) (fun n => rfl) val _ hval]
    simp only [Option.map_some, Option.some.injEq]
    apply replacer_dollar val _ ps hok
    · intro n hn; exact List.mem_map.mpr ⟨n, hn, rfl⟩
    · intro kv hkv
      obtain ⟨n, hn, rfl⟩ := List.mem_map.mp hkv
      exact ⟨n, (dollarOk_refs ps hok n hn).1, (dollarOk_refs ps hok n hn).2, rfl, hfree n hn⟩
  simp [VarEnv.vars, pass_none e _ _ _ (findAll_brace_dollar ps hok), h1]

/-- **C60.** If one of the names is not known, the setting is rejected. -/
theorem C60_dollar_unknown (e : VarEnv) (ps : List VPiece) (hok : DollarOk ps)
    (h : ∃ n ∈ refsOf ps, e.resolve n = none) (b : Bool) : e.vars b (dollarText ps) = none := by
  have h1 : e.pass dollarLen dollarName (dollarText ps) = none := by
    simp only [VarEnv.pass, findAll_dollar ps hok,
      pairs_none e dollarName (fun n => '$' :: n) (fun n => rfl) _ h]
    rfl
  simp [VarEnv.vars, pass_none e _ _ _ (findAll_brace_dollar ps hok), h1]

/-- **C60.** Names beginning with `sys.` are values of the system; all names that do not begin with
`params.` or `sys.` are variables of the environment. -/
theorem C60_other_names (e : VarEnv) :
    (∀ k, e.resolve ("sys.".toList ++ k) = e.sys k) ∧
    ∀ n, ¬ "params.".toList <+: n → ¬ "sys.".toList <+: n → e.resolve n = e.env n := by
  refine ⟨fun k => rfl, fun n h1 h2 => ?_⟩
  rw [← List.isPrefixOf_iff_prefix] at h1 h2
  simp only [VarEnv.resolve, h1, h2, if_false, Bool.false_eq_true]

/-- **C60.** Names beginning with `params.` are params of the stage. -/
theorem C60_params (e : VarEnv) (k : Text) : e.resolve ("params.".toList ++ k) = e.params.get? k := by
  have : "params.".toList.isPrefixOf ("params.".toList ++ k) = true := by
    rw [List.isPrefixOf_iff_prefix]; exact List.prefix_append _ _
  simp only [VarEnv.resolve, this, if_true]
  rfl

/-- **C60.** A text without `$` is not changed (unless it has human numbers). -/
theorem C60_plain (e : VarEnv) (s : Text) (h : '$' ∉ s) : e.vars false s = some s := by
  simp [VarEnv.vars, pass_none e _ _ _ (dollar_free s h).1, pass_none e _ _ _ (dollar_free s h).2]

/-- **C60.** Also where human numbers are allowed, a text without digits or with digits only is not
changed, and a single human number becomes its value. -/
theorem C60_numbers (e : VarEnv) (s : Text) (h : '$' ∉ s) :
    ((∀ c ∈ s, isDigit c = false) → e.vars true s = some s) ∧
    ((∀ c ∈ s, isDigit c) → e.vars true s = some s) ∧
    (∀ ds us d, s = ds ++ us → ds ≠ [] → us ≠ [] → (∀ c ∈ ds, isDigit c) → (∀ c ∈ us, isUnit c) →
      e.human s = some d → e.vars true s = some (decimal d)) := by
  have hv : e.vars true s = e.numbers s := by
    simp [VarEnv.vars, pass_none e _ _ _ (dollar_free s h).1, pass_none e _ _ _ (dollar_free s h).2]
  rw [hv]
  refine ⟨?_, ?_, ?_⟩
  · intro hd
    have : findAll humanLen s = [] := by
      apply findAll_none
      intro t ht
      have hrun : ∀ c ∈ t.takeWhile (fun c => isDigit c || c == ','), (c == ',') = true := by
        intro c hc
        have h1 := hd c (ht.subset (List.takeWhile_subset _ hc))
        have h2 := mem_takeWhile_p t hc
        simpa [h1] using h2
      have hnil : trimRight (· == ',') (t.takeWhile fun c => isDigit c || c == ',') = [] := by
        unfold trimRight
        rw [List.reverse_eq_nil_iff]
        exact dropWhile_all _ (fun c hc => hrun c (List.mem_reverse.mp hc))
      simp [humanLen, hnil]
    simp [VarEnv.numbers, this, VarEnv.numPairs, replacer_nil]
  · intro hd
    cases s with
    | nil => simp [VarEnv.numbers, findAll, findAllAux, VarEnv.numPairs, replacer_nil]
    | cons c cs =>
      have hlen := humanLen_digits (c :: cs) [] (by simp) hd (by simp) (by simp)
      simp only [List.append_nil, List.length_nil, Nat.add_zero] at hlen
      have hskip := findAllAux_skip humanLen cs []
      have hall : (c :: cs).all isDigit = true := List.all_eq_true.mpr hd
      simp only [List.append_nil] at hskip
      simp only [VarEnv.numbers, findAll, findAllAux, hlen, List.length_cons, Nat.add_sub_cancel, hskip]
      rw [show (c :: cs).take (cs.length + 1) = c :: cs by simp]
      simp [VarEnv.numPairs, hall, replacer_nil]
  · intro ds us d hs hdn hun hds hus hh
    have hlen := humanLen_digits ds us hdn hds hus (fun c hc => hus c (List.mem_of_mem_head? hc))
    rw [← hs] at hlen
    cases s with
    | nil =>
      have := congrArg List.length hs
      simp at this
      exact absurd (List.length_eq_zero_iff.mp (by omega)) hdn
    | cons c cs =>
      have hl : ds.length + us.length = cs.length + 1 := by
        have := congrArg List.length hs
        simp at this
        omega
      have hskip := findAllAux_skip humanLen cs []
      simp only [List.append_nil] at hskip
      have hall : (c :: cs).all isDigit = false := by
        rw [hs]
        obtain ⟨u, us', rfl⟩ := List.exists_cons_of_ne_nil hun
        have : isDigit u = false := unit_not_digit u (hus u List.mem_cons_self)
        simp [this]
      simp only [VarEnv.numbers, findAll, findAllAux, hlen, hl, Nat.add_sub_cancel, hskip]
      rw [show (c :: cs).take (cs.length + 1) = c :: cs by simp]
      simp only [VarEnv.numPairs, hall, hh]
      simp only [Bool.false_eq_true, if_false, Option.map_some, Option.some.injEq]
      have hr := replacerAux_skip [(c :: cs, decimal d)] cs []
      simp only [List.append_nil] at hr
      simp [replacer, replacerAux, firstMatch, hr]

/-- An environment with some params for the examples. -/
def exEnv : VarEnv :=
  { params := [("a".toList, "1".toList), ("ab".toList, "2".toList)]
    sys := fun _ => none
    env := fun n => if n = "HOME".toList then some "/root".toList else none
    human := fun t =>
      if t = "8mb".toList then some 8000000
      else if t = "1,2,3".toList then some 123
      else if t = "1k".toList then some 1000 else none }

/-- **C60 is false if one name is the beginning of another**: `$params.ab` becomes the value of
`params.a` followed by `b`. -/
theorem C60_prefix_false :
    exEnv.vars false "$params.a $params.ab".toList = some "1 1b".toList ∧
    exEnv.params.get? "ab".toList = some "2".toList := by decide +kernel

/-- **C60 is false for texts with digits**: in settings that allow human numbers (all params of the
stage and of data generators) letters after a digit and commas between digits are taken for human
numbers. -/
theorem C60_numbers_false :
    exEnv.vars true "utf8mb4".toList = some "utf80000004".toList ∧
    exEnv.vars true "1,2,3".toList = some "123".toList := by decide +kernel

/-! ### Examples -/

/-- `x${params.a}y${params.ab}` -/
def exPieces : List VPiece := [.lit 'x', .ref "params.a".toList, .lit 'y', .ref "params.ab".toList]

def exVal (n : Text) : Text := if n = "params.a".toList then "1".toList else "2".toList

example : BraceOk exPieces ∧ (∀ n ∈ refsOf exPieces, exEnv.resolve n = some (exVal n)) ∧
    '$' ∉ exPieces.flatMap (VPiece.value exVal) ∧
    exPieces.flatMap (VPiece.value exVal) = "x1y2".toList ∧
    braceText exPieces = "x${params.a}y${params.ab}".toList := by
  refine ⟨?_, by decide +kernel, by decide +kernel, by decide +kernel, by decide +kernel⟩
  simp [BraceOk, exPieces]

example : exEnv.vars true "${params.a}-1k-$HOME".toList = some "1-1000-/root".toList ∧
    exEnv.vars false "${params.b}".toList = none := by decide +kernel

/-- `'$params.a' "$HOME"` -/
def exDollar : List VPiece :=
  [.lit '\'', .ref "params.a".toList, .lit '\'', .lit ' ', .lit '"', .ref "HOME".toList, .lit '"']

example : DollarOk exDollar := by
  simp [DollarOk, exDollar, Sep, dollarText, wordEnds]

example : (∀ n ∈ refsOf exDollar, ∀ m ∈ refsOf exDollar, n <+: m → n = m) ∧
    exEnv.vars false (dollarText exDollar) = some "'1' \"/root\"".toList := by
  refine ⟨?_, by decide +kernel⟩
  simp only [← List.isPrefixOf_iff_prefix]
  decide +kernel

end Finch
