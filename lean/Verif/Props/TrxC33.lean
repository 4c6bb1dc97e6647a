import Verif.Props.TrxCopies
import Verif.Props.TrxLines
/-!
C33: the theorems about the `copies` modifier.
-/
namespace Finch

/-- The name of a modifier: its first word without colons. -/
def modName (m : Text) : Option Text := (fields m).head?.map (trim (· == ':'))

/-- A modifier `copies: N`. -/
def IsCopies (m : Text) (N : Int) : Prop :=
  modName m = some "copies".toList ∧ ∃ num, (fields m)[1]? = some num ∧ parseInt64 num = some N

theorem cOf_other {m : Text} (h : modName m ≠ some "copies".toList) : cOf m = none := by
  unfold cOf
  unfold modName at h
  split
  · rename_i m0 n rest hf
    rw [hf] at h
    rw [if_neg (by simpa using h)]
  · rfl

theorem cOf_copies {m : Text} {N : Int} (h : IsCopies m N) :
    cOf m = if N = 1 then none else some N.toNat := by
  obtain ⟨h1, num, h2, h3⟩ := h
  unfold modName at h1
  unfold cOf
  cases hf : fields m with
  | nil => rw [hf] at h2; simp at h2
  | cons m0 ms =>
    rw [hf] at h1 h2
    cases ms with
    | nil => simp at h2
    | cons n rest =>
      simp at h1 h2
      subst h2
      simp only [h1, h3]
      rfl

theorem modStep_copies {env : TrxEnv} {f f1 : FileSt} {s s1 : Stmt} {m : Text} {N : Int}
    {c : Option Nat} (h : IsCopies m N) (hm : modStep env f s m = .ok (f1, s1, c)) :
    0 ≤ N ∧ f1 = f ∧ s1 = s := by
  obtain ⟨h1, num, h2, h3⟩ := h
  unfold modName at h1
  unfold modStep at hm
  cases hf : fields m with
  | nil => rw [hf] at h2; simp at h2
  | cons m0 ms =>
    rw [hf] at h1 h2 hm
    cases ms with
    | nil => simp at h2
    | cons n rest =>
      have h1' : trim (· == ':') m0 = "copies".toList := by simpa using h1
      simp at h2
      subst h2
      dsimp only at hm
      rw [h1'] at hm
      rw [if_neg (by decide), if_neg (by decide), if_neg (by decide), if_neg (by decide),
        if_neg (by decide), if_neg (by decide), if_pos rfl] at hm
      simp only [field1, bind, Out.bind, h3, Out.ofOption] at hm
      split at hm
      · cases hm
      · rename_i hneg
        split at hm
        · cases Out.pure_ok hm; exact ⟨by omega, rfl, rfl⟩
        · cases Out.pure_ok hm; exact ⟨by omega, rfl, rfl⟩

theorem modLoop_append {env : TrxEnv} {a b : List Text} : ∀ {f f1 : FileSt} {s s1 : Stmt}
    {c : Option Nat}, (∀ m ∈ a, cOf m = none) → modLoop env f s (a ++ b) = .ok (f1, s1, c) →
    ∃ f2 s2, modLoop env f s a = .ok (f2, s2, none) ∧ modLoop env f2 s2 b = .ok (f1, s1, c) := by
  induction a with
  | nil => intro f f1 s s1 c _ h; exact ⟨f, s, rfl, h⟩
  | cons m ms ih =>
    intro f f1 s s1 c hc h
    obtain ⟨⟨f2, s2, c2⟩, h1, h⟩ := Out.bind_ok h
    have := modStep_cOf h1
    rw [hc m (by simp)] at this
    subst this
    obtain ⟨f3, s3, e1, e2⟩ := ih (fun m hm => hc m (by simp [hm])) h
    exact ⟨f3, s3, by simp only [modLoop, bind, Out.bind, h1, e1], e2⟩

theorem modLoop_append' {env : TrxEnv} {a b : List Text} : ∀ {f f1 f2 : FileSt} {s s1 s2 : Stmt}
    {c : Option Nat}, modLoop env f s a = .ok (f2, s2, none) →
    modLoop env f2 s2 b = .ok (f1, s1, c) → modLoop env f s (a ++ b) = .ok (f1, s1, c) := by
  induction a with
  | nil => intro f f1 f2 s s1 s2 c h1 h2; cases h1; exact h2
  | cons m ms ih =>
    intro f f1 f2 s s1 s2 c h1 h2
    obtain ⟨⟨f3, s3, c3⟩, e1, h1⟩ := Out.bind_ok h1
    dsimp only at h1
    cases c3 with
    | some n => cases Out.pure_ok h1
    | none =>
      have := ih h1 h2
      simp only [List.cons_append, modLoop, bind, Out.bind, e1, this]

/-! ### The theorems -/

/-- Not a `copies` modifier, nor one that looks like it. -/
def NotCopies (m : Text) : Prop :=
  modName m ≠ some "copies".toList ∧ ¬ "copies".toList <+: m

/-- C33. A statement with the modifier `copies: N`: N is not negative and it yields exactly N
statements; 0 removes it. From 2 on, the i-th one is the statement that is parsed, from the same state,
with the other modifiers and with copy number i; only the first one may differ: it is marked to be
prepared for all N (`C33_prepare_once`). One copy is the statement without the modifier.

Partial: for N = 1 the copy number is not 1 but 0 (`C33_one_copy_false`). -/
theorem C33_copies_partial (env : TrxEnv) (f f' : FileSt) (ss : List Stmt) (a b : List Text)
    (cm : Text) (N : Int) (hm : f.mods = a ++ cm :: b) (hcm : IsCopies cm N)
    (ha : ∀ m ∈ a, NotCopies m) (hb : ∀ m ∈ b, NotCopies m)
    (h : f.statements env = .ok (f', ss)) :
    0 ≤ N ∧ (ss.length : Int) = N ∧
    (2 ≤ N → ∀ i, i < ss.length → ∃ f1 s,
      FileSt.statements env { f with mods := a ++ b, copyNo := i + 1 } = .ok (f1, [s]) ∧
      ss[i]? = some (if i = 0 ∧ prepareOnce (trimSpace f.str) f.mods = true
        then { s with prepareMulti := ss.length } else s)) ∧
    (N = 1 → ∃ f1, FileSt.statements env { f with mods := a ++ b } = .ok (f1, ss)) := by
  have hkeep : ∀ m ∈ a ++ b, keepInCopies m = true := by
    intro m hmem
    have : NotCopies m := by
      rcases List.mem_append.mp hmem with h | h
      · exact ha m h
      · exact hb m h
    unfold keepInCopies
    cases hp : "copies".toList.isPrefixOf m with
    | false => rfl
    | true => exact absurd (List.isPrefixOf_iff_prefix.mp hp) this.2
  have hca : ∀ m ∈ a, cOf m = none := fun m hm => cOf_other (ha m hm).1
  have hcb : ∀ m ∈ b, cOf m = none := fun m hm => cOf_other (hb m hm).1
  have hfind : ∀ l : List Text, (∀ m ∈ l, cOf m = none) → l.findSome? cOf = none := by
    intro l hl
    rw [List.findSome?_eq_none_iff]; exact hl
  unfold FileSt.statements statements at h
  obtain ⟨⟨f2, s2, c⟩, h1, h⟩ := Out.bind_ok h
  have h1' : modLoop env (f.prep env) (classify env.trx (trimSpace f.str)) f.mods = .ok (f2, s2, c) := h1
  rw [hm] at h1'
  obtain ⟨f3, s3, e1, e2⟩ := modLoop_append hca h1'
  obtain ⟨⟨f4, s4, c4⟩, e3, e4⟩ := Out.bind_ok e2
  obtain ⟨hN, rfl, rfl⟩ := modStep_copies hcm e3
  have hc4 := modStep_cOf e3
  rw [cOf_copies hcm] at hc4
  refine ⟨hN, ?_⟩
  dsimp only at h e4
  by_cases hN1 : N = 1
  · -- one copy
    rw [if_pos hN1] at hc4
    subst hc4
    dsimp only at e4
    have hcn : c = none := by rw [modLoop_cOf e4]; exact hfind b hcb
    subst hcn
    obtain ⟨⟨f5, s5⟩, h5, h⟩ := Out.bind_ok h
    cases Out.pure_ok h
    refine ⟨by rw [hN1]; rfl, fun h2 => by omega, fun _ => ?_⟩
    have hah : Ahead env (FileSt.prep env { f with mods := a ++ b }) (f.prep env) :=
      ⟨rfl, rfl, fun _ _ => .refl _, fun _ h => h, fun _ _ => .refl _ _ _ _⟩
    obtain ⟨g, g1, hg⟩ := ahead_modLoop hah (modLoop_append' e1 e4)
    obtain ⟨-, g5, g2, -⟩ := ahead_finish hg h5
    have := statements_one' (env := env) (fuel := (a ++ b).length) (f := { f with mods := a ++ b }) g1 g2
    exact ⟨g5, this⟩
  · rw [if_neg hN1] at hc4
    subst hc4
    cases Out.pure_ok e4
    obtain ⟨n, rfl⟩ : ∃ n : Nat, N = n := ⟨N.toNat, by omega⟩
    simp only [Int.toNat_natCast] at h
    have hmods : f2.mods = f.mods := (modLoop_frame h1).mods
    cases n with
    | zero =>
      cases Out.pure_ok h
      exact ⟨rfl, fun h2 => by omega, fun h1 => by omega⟩
    | succ n =>
      obtain ⟨⟨f5, ss5⟩, h5, h⟩ := Out.bind_ok h
      cases Out.pure_ok h
      -- the modifier itself is removed, else the recursion does not end
      have hcmk : keepInCopies cm = false := by
        cases hk : keepInCopies cm with
        | false => rfl
        | true =>
          exfalso
          obtain ⟨⟨f6, ms⟩, h6, -⟩ := Out.bind_ok h5
          refine statements_never (n := n) ?_ ?_ h6
          · intro m hmm
            exact (List.mem_filter.mp hmm).2
          · show (f2.mods.filter keepInCopies).findSome? cOf = _
            rw [hmods, hm, List.filter_append, List.filter_cons, hk, if_pos rfl,
              List.findSome?_append, hfind _ (fun m hmm => hca m (List.mem_filter.mp hmm).1)]
            rw [List.findSome?_cons, cOf_copies hcm, if_neg hN1]
            simp
      have hfil : f2.mods.filter keepInCopies = a ++ b := by
        rw [hmods, hm, List.filter_append, List.filter_cons, hcmk]
        simp only [Bool.false_eq_true, if_false]
        rw [← List.filter_append]
        exact List.filter_eq_self.mpr hkeep
      rw [hfil] at h5
      -- the first copy succeeds, so the modifiers before only save the no-op column
      have hno : NoopOnly (f.prep env) f2 := by
        obtain ⟨⟨f6, ms⟩, h6, h7⟩ := Out.bind_ok h5
        dsimp only at h7
        cases ms with
        | nil => cases h7
        | cons s6 rest6 =>
          obtain ⟨-, f8, s8, e8, -⟩ := statements_one
            (f := { f2 with mods := a ++ b, stmtNo := f2.stmtNo - 1, copyNo := 0 + 1 }) hkeep h6
          obtain ⟨f9, s9, e9, -⟩ := modLoop_append hca e8
          exact modLoop_twice (f2 := FileSt.prep env
            { f2 with mods := a ++ b, stmtNo := f2.stmtNo - 1, copyNo := 0 + 1 }) e1 (fun n hn => hn) e9
      have hfr := modLoop_frame h1
      have hah : ∀ n, Ahead env { f with mods := a ++ b, copyNo := n }
          { f2 with mods := a ++ b, stmtNo := f2.stmtNo - 1, copyNo := n } := by
        intro n
        refine ⟨hfr.str, rfl, ?_, ?_, ?_⟩
        · intro m _
          show CfgRel (f.data m) (f2.data m)
          rw [hno.1]; exact .refl _
        · intro m hm0
          cases hv : f.keys m with
          | none => rfl
          | some v =>
            have := hfr.grow m v hv
            rw [this] at hm0; cases hm0
        · intro t ht
          have hne : String.ofList t ≠ noopCol := by
            intro he
            have : t = ['_'] := ofList_inj (by rw [he]; rfl)
            rw [this] at ht; simp at ht
          show KeyRel env f.data t (f.keys _) (f2.keys _)
          rw [hno.2 _ hne]
          exact .refl _ _ _ _
      obtain ⟨hlen, heach⟩ := copyLoop_each (f0 := { f with mods := a ++ b })
        (f := { f2 with mods := a ++ b, stmtNo := f2.stmtNo - 1 }) rfl hah hkeep h5
      have hlen' : (if prepareOnce (trimSpace f.str) f2.mods = true then setPrepareMulti (n + 1) ss5 else ss5).length
          = n + 1 := by
        split
        · cases ss5 with
          | nil => simp at hlen
          | cons x xs => simpa [setPrepareMulti] using hlen
        · exact hlen
      refine ⟨by rw [hlen'], fun _ i hi => ?_, fun h1 => absurd h1 hN1⟩
      rw [hlen'] at hi ⊢
      obtain ⟨f1, s, x1, x2⟩ := heach i hi
      have x3 := x2 (a ++ b).length
      simp only [Nat.zero_add] at x3
      refine ⟨f1, s, x3, ?_⟩
      rw [hmods]
      by_cases hpo : prepareOnce (trimSpace f.str) f.mods = true
      · simp only [hpo, if_true, and_true]
        cases ss5 with
        | nil => simp at hlen
        | cons y ys =>
          cases i with
          | zero =>
            simp only [setPrepareMulti, List.getElem?_cons_zero, if_true]
            simp only [List.getElem?_cons_zero, Option.some.injEq] at x1
            rw [x1]
          | succ i => simpa [setPrepareMulti] using x1
      · simp only [hpo, Bool.false_eq_true, and_false, if_false]
        exact x1

/-- C33. The first copy is prepared for all copies exactly if there is a prepare modifier and the
query does not have the copy number marker. -/
theorem C33_prepare_once (query : Text) (mods : List Text) :
    prepareOnce query mods = true ↔
      (∃ m ∈ mods, ¬ "copies".toList <+: m ∧ "prepare".toList <+: m) ∧
        ¬ "/*!copy-number*/".toList <:+: query := by
  change _ ↔ _ ∧ ¬ copyNumber <:+: query
  unfold prepareOnce keepInCopies
  simp only [List.any_eq_true, Bool.and_eq_true, Bool.not_eq_true', decide_eq_false_iff_not,
    List.isPrefixOf_iff_prefix]
  constructor
  · rintro ⟨m, hm, ⟨h1, h2⟩, h3⟩
    exact ⟨⟨m, hm, by rw [← List.isPrefixOf_iff_prefix, h1]; exact Bool.false_ne_true, h2⟩, h3⟩
  · rintro ⟨⟨m, hm, h1, h2⟩, h3⟩
    refine ⟨m, hm, ⟨?_, h2⟩, h3⟩
    rw [← List.isPrefixOf_iff_prefix, Bool.not_eq_true] at h1; exact h1

/-! ### The copy number -/

theorem replaceAll_prefix {k v : Text} (hv : v ≠ []) (hd : ∀ c ∈ k, c ∉ v) (s : Text) :
    ∀ p : Text, (∀ c ∈ p, c ∉ v) → p <+: replacerAux [(k, v)] 0 s → p <+: s := by
  induction s with
  | nil => intro p _ h; simpa [replacerAux] using h
  | cons c cs ih =>
    intro p hp h
    cases p with
    | nil => exact List.nil_prefix
    | cons x xs =>
      simp only [replacerAux, firstMatch] at h
      split at h
      · rename_i k' v' hf
        have : (k', v') = (k, v) := by
          have := List.mem_of_find?_eq_some hf
          simpa using this
        cases this
        cases v with
        | nil => exact absurd rfl hv
        | cons y ys =>
          simp only [List.cons_append] at h
          have := (List.cons_prefix_cons.mp h).1
          subst this
          exact absurd (by simp) (hp x (by simp))
      · have := List.cons_prefix_cons.mp h
        obtain ⟨rfl, h2⟩ := this
        exact List.cons_prefix_cons.mpr ⟨rfl, ih xs (fun c hc => hp c (by simp [hc])) h2⟩

theorem infix_append_disjoint {k v r : Text} (hk : k ≠ []) (hd : ∀ c ∈ k, c ∉ v) (h : k <:+: v ++ r) :
    k <:+: r := by
  induction v with
  | nil => simpa using h
  | cons y ys ih =>
    rw [List.cons_append, List.infix_cons_iff] at h
    rcases h with h | h
    · cases k with
      | nil => exact absurd rfl hk
      | cons x xs =>
        have := (List.cons_prefix_cons.mp h).1
        exact absurd (by simp [this]) (hd x (by simp))
    · exact ih (fun c hc hcy => hd c hc (by simp [hcy])) h

/-- After replacing a text by one that shares no character with it, it does not occur. -/
theorem replaceAll_gone {k v : Text} (hk : k ≠ []) (hv : v ≠ []) (hd : ∀ c ∈ k, c ∉ v) :
    ∀ (n : Nat) (s : Text), s.length ≤ n → ¬ k <:+: replaceAll k v s := by
  intro n
  induction n with
  | zero =>
    intro s hs h
    have : s = [] := List.length_eq_zero_iff.mp (by omega)
    subst this
    unfold replaceAll replacer at h
    simp only [replacerAux, List.infix_nil] at h
    exact hk h
  | succ n ih =>
    intro s hs h
    cases s with
    | nil =>
      unfold replaceAll replacer at h
      simp only [replacerAux, List.infix_nil] at h
      exact hk h
    | cons c cs =>
      have h' := h
      unfold replaceAll replacer at h
      simp only [replacerAux, firstMatch] at h
      split at h
      · rename_i k' v' hf
        have : (k', v') = (k, v) := by
          have := List.mem_of_find?_eq_some hf
          simpa using this
        cases this
        have h2 := infix_append_disjoint hk hd h
        rw [replacerAux_drop] at h2
        refine ih (cs.drop (k.length - 1)) ?_ h2
        rw [List.length_drop]
        simp only [List.length_cons] at hs
        omega
      · rename_i hf
        rw [List.infix_cons_iff] at h
        rcases h with h | h
        · have hp : k <+: c :: cs := by
            refine replaceAll_prefix hv hd (c :: cs) k hd ?_
            simp only [replacerAux, firstMatch, hf]
            exact h
          rw [List.find?_eq_none] at hf
          have := hf (k, v) (by simp)
          rw [Bool.not_eq_true] at this
          have h3 := List.isPrefixOf_iff_prefix.mpr hp
          simp [h3] at this
        · exact ih cs (by simp only [List.length_cons] at hs; omega) h

/-- Replacing a text that does not occur changes nothing. -/
theorem replaceAll_absent {k v : Text} (s : Text) (h : ¬ k <:+: s) : replaceAll k v s = s := by
  unfold replaceAll replacer
  induction s with
  | nil => rfl
  | cons c cs ih =>
    have h1 : ¬ k <+: c :: cs := fun hp => h hp.isInfix
    have h2 : ¬ k <:+: cs := fun hp => h (List.infix_cons_iff.mpr (Or.inr hp))
    have hf : firstMatch [(k, v)] (c :: cs) = none := by
      unfold firstMatch
      rw [List.find?_eq_none]
      intro x hx
      simp only [List.mem_singleton] at hx
      subst hx
      simpa [List.isPrefixOf_iff_prefix] using h1
    simp only [replacerAux, hf, ih h2]

theorem decimal_digits (n : Nat) : decimal n ≠ [] ∧ ∀ c ∈ decimal n, isDigit c = true := by
  unfold decimal
  rw [Nat.toList_repr]
  refine ⟨Nat.toDigits_ne_nil, fun c hc => ?_⟩
  have := Nat.isDigit_of_mem_toDigits (by decide) (by decide) hc
  simpa [Char.isDigit, isDigit, Char.le_def] using this

/-- Spec: `t` is `s` with every occurrence of `k`, from left to right, replaced by `v`. -/
inductive ReplacedAll (k v : Text) : Text → Text → Prop where
  | nil : ReplacedAll k v [] []
  | hit {s t : Text} (h : ReplacedAll k v s t) : ReplacedAll k v (k ++ s) (v ++ t)
  | keep {c : Char} {s t : Text} (hc : ¬ k <+: c :: s) (h : ReplacedAll k v s t) :
      ReplacedAll k v (c :: s) (c :: t)

theorem replaceAll_replaced {k v s t : Text} (hk : k ≠ []) (h : ReplacedAll k v s t) :
    replaceAll k v s = t := by
  unfold replaceAll replacer
  induction h with
  | nil => rfl
  | @hit s t _ ih =>
    cases k with
    | nil => exact absurd rfl hk
    | cons a k =>
      rw [List.cons_append, replacerAux]
      have : firstMatch [(a :: k, v)] (a :: (k ++ s)) = some (a :: k, v) := by
        simp [firstMatch]
      rw [this]
      simp only [List.length_cons, Nat.add_sub_cancel]
      rw [replacerAux_drop, List.drop_left, ih]
  | @keep c s t hc _ ih =>
    rw [replacerAux]
    have : firstMatch [(k, v)] (c :: s) = none := by
      simp [firstMatch, hc]
    rw [this]
    simp only [ih]

/-- C33. In a copy every copy number marker is replaced by the number: parsing the query gives the
same as parsing the query with the number written in place of the marker (which then has no marker
left). -/
theorem C33_copy_number (env : TrxEnv) (f : FileSt) (s : Stmt) (query query' : Text)
    (h : ReplacedAll "/*!copy-number*/".toList (Nat.repr f.copyNo).toList query query') :
    ¬ "/*!copy-number*/".toList <:+: query' ∧ finish env f s query = finish env f s query' := by
  have he : replaceAll copyNumber (decimal f.copyNo) query = query' :=
    replaceAll_replaced (by decide) h
  change ¬ copyNumber <:+: query' ∧ _
  rw [← he]
  obtain ⟨h0, h1⟩ := decimal_digits f.copyNo
  have hd : ∀ c ∈ copyNumber, c ∉ decimal f.copyNo := by
    intro c hc hcd
    have h2 := h1 c hcd
    have : ∀ c ∈ copyNumber, isDigit c = false := by decide
    rw [this c hc] at h2; cases h2
  have hgone := replaceAll_gone (k := copyNumber) (v := decimal f.copyNo) (by decide) h0 hd query.length
    query (Nat.le_refl _)
  refine ⟨hgone, ?_⟩
  unfold finish
  rw [replaceAll_absent _ hgone]

/-- A query with a marker. -/
example : ReplacedAll "/*!copy-number*/".toList (Nat.repr 12).toList "t/*!copy-number*/".toList
    "t12".toList := by
  refine .keep (by rw [← List.isPrefixOf_iff_prefix]; decide) ?_
  exact .hit (s := []) (t := []) .nil

/-- The queries of parsed statements. -/
def queriesOf : Out (FileSt × List Stmt) → Option (List String)
  | .ok (_, ss) => some (ss.map fun s => String.ofList s.query)
  | _ => none

/-- Three copies. -/
example : queriesOf (FileSt.statements demoEnv { demoFile with
      mods := ["prepare".toList, "copies: 3".toList]
      str := "SELECT @d FROM t/*!copy-number*/ ".toList }) =
    some ["SELECT ? FROM t1", "SELECT ? FROM t2", "SELECT ? FROM t3"] := by
  decide +kernel

/-- The hypotheses of C33 are met by this file state. -/
example : IsCopies "copies: 3".toList 3 ∧ NotCopies "prepare".toList := by
  refine ⟨⟨by decide +kernel, "3".toList, by decide +kernel, by decide +kernel⟩, ?_, ?_⟩
  · decide +kernel
  · rw [← List.isPrefixOf_iff_prefix]; decide

/-- One copy has the number 0, not 1. -/
theorem C33_one_copy_false :
    queriesOf (FileSt.statements demoEnv { demoFile with
      mods := ["copies: 1".toList]
      str := "SELECT 1 FROM t/*!copy-number*/ ".toList }) = some ["SELECT 1 FROM t0"] := by
  decide +kernel

/-- Two copies of a statement that saves a column are refused: the second copy finds the column
saved already. -/
theorem C33_saved_column_false :
    Out.mapOk (fun _ => ()) (FileSt.statements demoEnv { demoFile with
      mods := ["save-columns: @c".toList, "copies: 2".toList]
      str := "SELECT c FROM t ".toList }) = .err := by
  decide +kernel

/-- A leading colon hides the modifier from the code that removes it: endless recursion. -/
theorem C33_colon_false (env : TrxEnv) (fuel : Nat) (f : FileSt) (hm : f.mods = [":copies 2".toList]) :
    ∀ f' ss, statements env fuel f ≠ .ok (f', ss) := by
  intro f' ss
  refine statements_never (n := 1) ?_ ?_
  · rw [hm]; decide +kernel
  · rw [hm]; decide +kernel

end Finch
