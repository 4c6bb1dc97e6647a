import Verif.Model.Workload
import Mathlib.Data.List.Basic
import Mathlib.Tactic.Common
/-!
C39, C40: execution groups. C41: automatic assignment of trx.
-/
namespace Finch

/-! ### Forming groups -/

theorem appendLast_concat (i : Nat) (gs : List (List Nat)) (g : List Nat) :
    appendLast i (gs ++ [g]) = .ok (gs ++ [g ++ [i]]) := by
  induction gs with
  | nil => rfl
  | cons x xs ih =>
    cases xs with
    | nil => rfl
    | cons y ys =>
      have : appendLast i (x :: y :: ys ++ [g]) =
        (match appendLast i (y :: ys ++ [g]) with
        | .ok l => (.ok (x :: l) : Out _) | .err => .err | .panic => .panic) := rfl
      rw [this, ih]
      rfl

/-- Are client groups `k` and `k + 1` in the same execution group. -/
def Together (gs : List (List Nat)) (k : Nat) : Prop := ∃ g ∈ gs, k ∈ g ∧ k + 1 ∈ g

/-- The invariant of the loop that forms execution groups: the first `i` of `w` are grouped. -/
structure GInv (w : List CGCfg) (i : Nat) (gs : List (List Nat)) : Prop where
  flat : gs.flatten = List.range i
  ne : ∀ g ∈ gs, g ≠ []
  same : ∀ k a b, k + 1 < i → w[k]? = some a → w[k + 1]? = some b →
    (Together gs k ↔ a.group = b.group)

theorem GInv.new {w : List CGCfg} {i : Nat} {gs : List (List Nat)} {cg : CGCfg} (h : GInv w i gs)
    (hcg : w[i]? = some cg) (hp : ∀ p, i = p + 1 → ∀ a, w[p]? = some a → a.group ≠ cg.group) :
    GInv w (i + 1) (gs ++ [[i]]) where
  flat := by simp [h.flat, List.range_succ]
  ne := by
    intro g hg
    rcases List.mem_append.mp hg with hg | hg
    · exact h.ne g hg
    · simp only [List.mem_singleton] at hg; subst hg; simp
  same := by
    intro k a b hk ha hb
    have hmem : ∀ g ∈ gs, ∀ x ∈ g, x < i := by
      intro g hg x hx
      have : x ∈ gs.flatten := List.mem_flatten.mpr ⟨g, hg, hx⟩
      rw [h.flat] at this
      exact List.mem_range.mp this
    by_cases hki : k + 1 < i
    · rw [← h.same k a b hki ha hb]
      constructor
      · rintro ⟨g, hg, h1, h2⟩
        rcases List.mem_append.mp hg with hg | hg
        · exact ⟨g, hg, h1, h2⟩
        · simp only [List.mem_singleton] at hg; subst hg
          simp only [List.mem_singleton] at h1; omega
      · rintro ⟨g, hg, h1, h2⟩
        exact ⟨g, by simp [hg], h1, h2⟩
    · have hki : k + 1 = i := by omega
      subst hki
      rw [hcg] at hb
      cases hb
      constructor
      · rintro ⟨g, hg, h1, h2⟩
        rcases List.mem_append.mp hg with hg | hg
        · exact absurd (hmem g hg _ h2) (by omega)
        · simp only [List.mem_singleton] at hg; subst hg
          simp only [List.mem_singleton] at h1; omega
      · intro he
        exact absurd he (hp k rfl a ha)

theorem GInv.more {w : List CGCfg} {i : Nat} {gs : List (List Nat)} {g : List Nat} {cg : CGCfg}
    (h : GInv w i (gs ++ [g])) (hcg : w[i]? = some cg)
    (hp : ∀ p, i = p + 1 → ∀ a, w[p]? = some a → a.group = cg.group) :
    GInv w (i + 1) (gs ++ [g ++ [i]]) where
  flat := by
    have := h.flat
    simp only [List.flatten_append, List.flatten_cons, List.flatten_nil, List.append_nil] at this ⊢
    rw [← List.append_assoc, this, List.range_succ]
  ne := by
    intro x hx
    rcases List.mem_append.mp hx with hx | hx
    · exact h.ne x (by simp [hx])
    · simp only [List.mem_singleton] at hx; subst hx; simp
  same := by
    intro k a b hk ha hb
    have hmem : ∀ x ∈ gs ++ [g], ∀ y ∈ x, y < i := by
      intro x hx y hy
      have : y ∈ (gs ++ [g]).flatten := List.mem_flatten.mpr ⟨x, hx, hy⟩
      rw [h.flat] at this
      exact List.mem_range.mp this
    by_cases hki : k + 1 < i
    · rw [← h.same k a b hki ha hb]
      constructor
      · rintro ⟨x, hx, h1, h2⟩
        rcases List.mem_append.mp hx with hx | hx
        · exact ⟨x, by simp [hx], h1, h2⟩
        · simp only [List.mem_singleton] at hx; subst hx
          simp only [List.mem_append, List.mem_singleton] at h1 h2
          exact ⟨g, by simp, h1.resolve_right (by omega), h2.resolve_right (by omega)⟩
      · rintro ⟨x, hx, h1, h2⟩
        rcases List.mem_append.mp hx with hx | hx
        · exact ⟨x, by simp [hx], h1, h2⟩
        · simp only [List.mem_singleton] at hx; subst hx
          exact ⟨x ++ [i], by simp, by simp [h1], by simp [h2]⟩
    · have hki : k + 1 = i := by omega
      subst hki
      rw [hcg] at hb
      cases hb
      refine ⟨fun _ => hp k rfl a ha, fun _ => ⟨g ++ [k + 1], by simp, ?_, by simp⟩⟩
      have hg := h.ne g (by simp)
      have hl : (gs.flatten ++ g).getLast? = some k := by
        have hf := h.flat
        simp only [List.flatten_append, List.flatten_cons, List.flatten_nil, List.append_nil] at hf
        rw [hf, List.range_succ]; simp
      rw [List.getLast?_append, List.getLast?_eq_some_getLast hg] at hl
      simp only [Option.some_or, Option.some.injEq] at hl
      exact List.mem_append.mpr (Or.inl (hl ▸ List.getLast_mem hg))

theorem groupLoop_inv {w : List CGCfg} (hne : ∀ c ∈ w, c.group ≠ "") {rest : List CGCfg} :
    ∀ {i : Nat} {gs : List (List Nat)} {name : String},
    w.drop i = rest → GInv w i gs → (i = 0 → name = "" ∧ gs = []) →
    (∀ p, i = p + 1 → ∃ a, w[p]? = some a ∧ a.group = name) →
    ∃ gs', groupLoop gs name i rest = .ok gs' ∧ GInv w w.length gs' := by
  induction rest with
  | nil =>
    intro i gs name hd h h0 hp
    refine ⟨gs, rfl, ?_⟩
    have hle : w.length ≤ i := by simpa using hd
    have : i ≤ w.length := by
      cases i with
      | zero => omega
      | succ p =>
        obtain ⟨a, ha, -⟩ := hp p rfl
        have := (List.getElem?_eq_some_iff.mp ha).1
        omega
    have : i = w.length := by omega
    subst this; exact h
  | cons cg rest ih =>
    intro i gs name hd h h0 hp
    have hi : w[i]? = some cg := by
      have : (w.drop i)[0]? = some cg := by rw [hd]; rfl
      simpa using this
    have hd' : w.drop (i + 1) = rest := by
      rw [← List.drop_drop, hd]; rfl
    have hcgm : cg ∈ w := List.mem_of_getElem? hi
    have hnext : ∀ p, i + 1 = p + 1 → ∃ a, w[p]? = some a ∧ a.group = cg.group := by
      intro p hpe
      have : p = i := by omega
      subst this
      exact ⟨cg, hi, rfl⟩
    simp only [groupLoop]
    by_cases hn : name = cg.group
    · rw [if_neg (not_not_intro hn)]
      rcases List.eq_nil_or_concat gs with hgs | ⟨gs1, g, rfl⟩
      · exfalso
        cases i with
        | zero => exact hne cg hcgm (hn ▸ (h0 rfl).1)
        | succ p =>
          have := h.flat
          rw [hgs] at this
          simp [List.range_succ] at this
      · rw [List.concat_eq_append] at *
        rw [appendLast_concat]
        refine ih hd' (h.more hi ?_) (by omega) hnext
        intro p hpe a ha
        obtain ⟨a', ha', hg⟩ := hp p hpe
        rw [ha] at ha'; cases ha'
        exact hg.trans hn
    · rw [if_pos hn, appendLast_concat]
      refine ih hd' (h.new hi ?_) (by omega) hnext
      intro p hpe a ha
      obtain ⟨a', ha', hg⟩ := hp p hpe
      rw [ha] at ha'; cases ha'
      exact fun he => hn (hg.symm.trans he)

/-! ### Naming -/

theorem autoName_toList (p : String) (n : Nat) : (autoName p n).toList = p.toList ++ decimal n := by
  simp [autoName]

theorem ddlName_ne_empty (n : Nat) : autoName "ddl" n ≠ "" := by
  intro h
  have := congrArg String.toList h
  rw [autoName_toList] at this
  simp at this

theorem dmlName_ne_empty (n : Nat) : autoName "dml" n ≠ "" := by
  intro h
  have := congrArg String.toList h
  rw [autoName_toList] at this
  simp at this

theorem ddl_ne_dml (n m : Nat) : autoName "ddl" n ≠ autoName "dml" m := by
  intro h
  have := congrArg String.toList h
  rw [autoName_toList, autoName_toList] at this
  have h2 := congrArg (fun l => l[1]?) this
  simp at h2

theorem decimal_inj {n m : Nat} (h : decimal n = decimal m) : n = m := by
  unfold decimal at h
  rw [Nat.toList_repr, Nat.toList_repr] at h
  have h2 := congrArg (fun l => Nat.ofDigitChars 10 l 0) h
  simpa [Nat.ofDigitChars_toDigits] using h2

theorem ddlName_inj {n m : Nat} (h : autoName "ddl" n = autoName "ddl" m) : n = m := by
  have := congrArg String.toList h
  rw [autoName_toList, autoName_toList] at this
  exact decimal_inj (List.append_cancel_left this)

/-- The state of the naming loop is consistent. -/
def NameSt.Ok (st : NameSt) : Prop := st.prevHasDDL = false → ∃ n, st.prev = autoName "dml" n

theorem nameStep_ok {ddl : GoMap String Bool} {st : NameSt} (h : st.Ok) (cg : CGCfg) :
    (nameStep ddl st cg).1.Ok ∧ (nameStep ddl st cg).2.group ≠ "" := by
  unfold nameStep
  split
  · exact ⟨h, by assumption⟩
  · split
    · exact ⟨fun h => absurd h (by simp), ddlName_ne_empty _⟩
    · split
      · exact ⟨fun _ => ⟨_, rfl⟩, dmlName_ne_empty _⟩
      · rename_i hp
        refine ⟨h, ?_⟩
        obtain ⟨n, hn⟩ := h (by simpa using hp)
        show st.prev ≠ ""
        rw [hn]; exact dmlName_ne_empty _

theorem nameLoop_ne {ddl : GoMap String Bool} {order : List String} (w : List CGCfg) :
    ∀ {st : NameSt}, st.Ok → ∀ c ∈ nameLoop ddl order st w, c.group ≠ "" := by
  induction w with
  | nil => intro st _ c hc; simp [nameLoop] at hc
  | cons x xs ih =>
    intro st hst c hc
    have := nameStep_ok (ddl := ddl) hst (cgDefaults ddl order x)
    simp only [nameLoop, List.mem_cons] at hc
    rcases hc with rfl | hc
    · exact this.2
    · exact ih this.1 c hc

theorem nameLoop_length {ddl : GoMap String Bool} {order : List String} (w : List CGCfg) :
    ∀ (st : NameSt), (nameLoop ddl order st w).length = w.length := by
  induction w with
  | nil => intro st; rfl
  | cons x xs ih => intro st; simp [nameLoop, ih]

/-! ### Automatic assignment -/

theorem appendTrx_concat (t : String) (cs : List CGCfg) (c : CGCfg) :
    appendTrx t (cs ++ [c]) = .ok (cs ++ [{ c with trx := c.trx ++ [t] }]) := by
  induction cs with
  | nil => rfl
  | cons x xs ih =>
    cases xs with
    | nil => rfl
    | cons y ys =>
      have : appendTrx t (x :: y :: ys ++ [c]) =
        (match appendTrx t (y :: ys ++ [c]) with
        | .ok l => (.ok (x :: l) : Out _) | .err => .err | .panic => .panic) := rfl
      rw [this, ih]
      rfl

/-- Spec: a client group made for one trx with DDL. -/
def AutoDdl (ddl : GoMap String Bool) (c : CGCfg) : Prop :=
  ∃ t, (ddl t).getD false = true ∧ c = { clients := "1", iter := "1", trx := [t] }

/-- Spec: a client group made for trx without DDL. -/
def AutoDml (ddl : GoMap String Bool) (c : CGCfg) : Prop :=
  c.trx ≠ [] ∧ (∀ t ∈ c.trx, (ddl t).getD false = false) ∧ c = { clients := "1", trx := c.trx }

/-- Spec: an automatic assignment. -/
structure AutoOk (ddl : GoMap String Bool) (order : List String) (w : List CGCfg) : Prop where
  all : w.flatMap (·.trx) = order
  kind : ∀ c ∈ w, AutoDdl ddl c ∨ AutoDml ddl c
  apart : ∀ i a b, w[i]? = some a → w[i + 1]? = some b → ¬ (AutoDml ddl a ∧ AutoDml ddl b)

theorem ddl_not_dml {ddl : GoMap String Bool} {c : CGCfg} (h : AutoDdl ddl c) : ¬ AutoDml ddl c := by
  rintro ⟨-, h2, -⟩
  obtain ⟨t, ht, rfl⟩ := h
  have := h2 t (by simp)
  rw [ht] at this; cases this

theorem autoOk_new {ddl : GoMap String Bool} {done : List String} {w : List CGCfg} {c : CGCfg}
    (h : AutoOk ddl done w) (hk : AutoDdl ddl c ∨ AutoDml ddl c)
    (hl : AutoDml ddl c → ∀ a, w.getLast? = some a → ¬ AutoDml ddl a) :
    AutoOk ddl (done ++ c.trx) (w ++ [c]) where
  all := by simp [h.all]
  kind := by
    intro x hx
    rcases List.mem_append.mp hx with hx | hx
    · exact h.kind x hx
    · simp only [List.mem_singleton] at hx; subst hx; exact hk
  apart := by
    intro i a b ha hb
    by_cases hi : i + 1 < w.length
    · rw [List.getElem?_append_left hi] at hb
      rw [List.getElem?_append_left (by omega)] at ha
      exact h.apart i a b ha hb
    · by_cases hi2 : i + 1 = w.length
      · rw [List.getElem?_append_left (by omega)] at ha
        rw [List.getElem?_append_right (by omega), hi2] at hb
        simp only [Nat.sub_self, List.getElem?_cons_zero, Option.some.injEq] at hb
        subst hb
        rintro ⟨h1, h2⟩
        refine hl h2 a ?_ h1
        rw [List.getLast?_eq_getElem?, ← hi2]
        exact ha
      · rw [List.getElem?_append_right (by omega)] at hb
        rw [List.getElem?_eq_none (by simp; omega)] at hb
        cases hb

theorem autoAssignLoop_ok {ddl : GoMap String Bool} {ts : List String} :
    ∀ {done : List String} {w : List CGCfg} {prev : Bool}, AutoOk ddl done w →
    (prev = false → ∃ ws c, w = ws ++ [c] ∧ AutoDml ddl c) →
    (prev = true → ∀ a, w.getLast? = some a → ¬ AutoDml ddl a) →
    ∃ w', autoAssignLoop ddl w prev ts = .ok w' ∧ AutoOk ddl (done ++ ts) w' := by
  induction ts with
  | nil => intro done w prev h _ _; exact ⟨w, rfl, by simpa using h⟩
  | cons t ts ih =>
    intro done w prev h hf ht
    simp only [autoAssignLoop]
    have hd : done ++ t :: ts = (done ++ [t]) ++ ts := by simp
    rw [hd]
    split
    · rename_i hddl
      have hk : AutoDdl ddl { clients := "1", iter := "1", trx := [t] } := ⟨t, hddl, rfl⟩
      refine ih (autoOk_new h (Or.inl hk) (fun hm => absurd hm (ddl_not_dml hk))) (by simp) ?_
      intro _ a ha
      simp only [List.getLast?_append, List.getLast?_singleton, Option.some_or,
        Option.some.injEq] at ha
      subst ha
      exact ddl_not_dml hk
    · rename_i hddl
      have hnd : (ddl t).getD false = false := by simpa using hddl
      split
      · rename_i hp
        have hk : AutoDml ddl { clients := "1", trx := [t] } := ⟨by simp, by simpa using hnd, rfl⟩
        refine ih (autoOk_new h (Or.inr hk) (fun _ => ht hp)) (fun _ => ⟨w, _, rfl, hk⟩) (by simp)
      · rename_i hp
        obtain ⟨ws, c, rfl, hc⟩ := hf (by simpa using hp)
        rw [appendTrx_concat]
        have hk : AutoDml ddl { c with trx := c.trx ++ [t] } := by
          refine ⟨by simp, ?_, ?_⟩
          · intro x hx
            rcases List.mem_append.mp hx with hx | hx
            · exact hc.2.1 x hx
            · simp only [List.mem_singleton] at hx; subst hx; exact hnd
          · rw [hc.2.2]
        refine ih ?_ (fun _ => ⟨ws, _, rfl, hk⟩) (by simp)
        have ha := h.all
        refine ⟨?_, ?_, ?_⟩
        · rw [← ha]; simp
        · intro x hx
          rcases List.mem_append.mp hx with hx | hx
          · exact h.kind x (by simp [hx])
          · simp only [List.mem_singleton] at hx; subst hx; exact Or.inr hk
        · intro i a b hia hib
          by_cases hi : i + 1 < ws.length
          · rw [List.getElem?_append_left hi] at hib
            rw [List.getElem?_append_left (by omega)] at hia
            exact h.apart i a b (by rw [List.getElem?_append_left (by omega)]; exact hia)
              (by rw [List.getElem?_append_left hi]; exact hib)
          · by_cases hi2 : i + 1 = ws.length
            · rw [List.getElem?_append_left (by omega)] at hia
              rintro ⟨h1, -⟩
              refine h.apart i a c (by rw [List.getElem?_append_left (by omega)]; exact hia) ?_ ⟨h1, hc⟩
              rw [List.getElem?_append_right (by omega), hi2]
              simp
            · rw [List.getElem?_append_right (by omega), List.getElem?_eq_none (by simp; omega)] at hib
              cases hib

theorem autoAssign_ok (ddl : GoMap String Bool) (order : List String) :
    ∃ w, autoAssign ddl order = .ok w ∧ AutoOk ddl order w := by
  have := autoAssignLoop_ok (ddl := ddl) (ts := order) (done := []) (w := []) (prev := true)
    ⟨rfl, by simp, by simp⟩ (by simp) (by simp)
  simpa [autoAssign] using this

/-! ### The properties -/

theorem allocGroups_spec (ddl : GoMap String Bool) (order : List String) (w : List CGCfg) :
    ∃ w0 gs, (w ≠ [] → w0 = w) ∧ (w = [] → AutoOk ddl order w0) ∧
      allocGroups ddl order w = .ok (nameLoop ddl order ⟨0, 0, true, ""⟩ w0, gs) ∧
      GInv (nameLoop ddl order ⟨0, 0, true, ""⟩ w0) w0.length gs := by
  have hst : (⟨0, 0, true, ""⟩ : NameSt).Ok := by intro h; cases h
  have hfin : ∀ w0 : List CGCfg, ∃ gs, groupLoop [] "" 0 (nameLoop ddl order ⟨0, 0, true, ""⟩ w0) = .ok gs ∧
      GInv (nameLoop ddl order ⟨0, 0, true, ""⟩ w0) w0.length gs := by
    intro w0
    obtain ⟨gs, h1, h2⟩ := groupLoop_inv (w := nameLoop ddl order ⟨0, 0, true, ""⟩ w0)
      (nameLoop_ne w0 hst) (i := 0) (gs := []) (name := "") rfl
      ⟨by simp, by simp, by intro k a b hk; omega⟩ (by simp) (by omega)
    rw [nameLoop_length] at h2
    exact ⟨gs, h1, h2⟩
  by_cases hw : w = []
  · obtain ⟨w0, h1, h2⟩ := autoAssign_ok ddl order
    obtain ⟨gs, h3, h4⟩ := hfin w0
    refine ⟨w0, gs, fun h => absurd hw h, fun _ => h2, ?_, h4⟩
    unfold allocGroups
    rw [if_pos hw, h1]
    show (groupLoop [] "" 0 (nameLoop ddl order ⟨0, 0, true, ""⟩ w0)).bind _ = _
    rw [h3]; rfl
  · obtain ⟨gs, h3, h4⟩ := hfin w
    refine ⟨w, gs, fun _ => rfl, fun h => absurd h hw, ?_, h4⟩
    unfold allocGroups
    rw [if_neg hw]
    show (groupLoop [] "" 0 (nameLoop ddl order ⟨0, 0, true, ""⟩ w)).bind _ = _
    rw [h3]; rfl

/-- C39. Grouping never fails. The execution groups are non-empty, their concatenation is the list of
all client groups in order, and neighbours are in the same execution group iff they have the same
name. A non-empty workload keeps its length. -/
theorem C39_groups_partition (ddl : GoMap String Bool) (order : List String) (w : List CGCfg) :
    ∃ w' gs, allocGroups ddl order w = .ok (w', gs) ∧ (w ≠ [] → w'.length = w.length) ∧
      gs.flatten = List.range w'.length ∧ (∀ g ∈ gs, g ≠ []) ∧
      ∀ k a b, w'[k]? = some a → w'[k + 1]? = some b →
        ((∃ g ∈ gs, k ∈ g ∧ k + 1 ∈ g) ↔ a.group = b.group) := by
  obtain ⟨w0, gs, h1, -, h3, h4⟩ := allocGroups_spec ddl order w
  refine ⟨_, gs, h3, ?_, ?_, h4.ne, ?_⟩
  · intro hw; rw [nameLoop_length, h1 hw]
  · rw [nameLoop_length]; exact h4.flat
  · intro k a b ha hb
    have := (List.getElem?_eq_some_iff.mp hb).1
    rw [nameLoop_length] at this
    exact h4.same k a b this ha hb

/-- Everything but name, trx and iterations is as configured; explicit names and trx stay. -/
theorem nameLoop_get {ddl : GoMap String Bool} {order : List String} (w : List CGCfg) :
    ∀ {st : NameSt} {i : Nat} {c : CGCfg}, w[i]? = some c →
    ∃ c' : CGCfg, (nameLoop ddl order st w)[i]? = some c' ∧
      c' = { cgDefaults ddl order c with group := c'.group } ∧ (c.group ≠ "" → c'.group = c.group) := by
  induction w with
  | nil => intro st i c h; simp at h
  | cons x xs ih =>
    intro st i c h
    cases i with
    | zero =>
      simp only [List.getElem?_cons_zero, Option.some.injEq] at h
      subst h
      refine ⟨(nameStep ddl st (cgDefaults ddl order x)).2, by simp [nameLoop], ?_, ?_⟩
      · unfold nameStep; split
        · rfl
        · split
          · rfl
          · split <;> rfl
      · intro hg
        have hd : (cgDefaults ddl order x).group = x.group := by
          unfold cgDefaults; dsimp only; split <;> split <;> rfl
        unfold nameStep
        rw [if_pos (by rw [hd]; exact hg)]
        exact hd
    | succ i =>
      simp only [List.getElem?_cons_succ] at h
      simpa [nameLoop] using ih h

/-- C39. Grouping changes nothing but missing names, missing trx and missing iterations. -/
theorem C39_rest_unchanged (ddl : GoMap String Bool) (order : List String) (w w' : List CGCfg)
    (gs : List (List Nat)) (h : allocGroups ddl order w = .ok (w', gs)) (i : Nat) (c : CGCfg)
    (hc : w[i]? = some c) :
    ∃ c', w'[i]? = some c' ∧
      c' = { c with group := c'.group, trx := c'.trx, iter := c'.iter } ∧
      (c.group ≠ "" → c'.group = c.group) ∧ c'.trx = (if c.trx = [] then order else c.trx) ∧
      (finchUint c.iter ≠ 0 → c'.iter = c.iter) := by
  obtain ⟨w0, gs', h1, -, h3, -⟩ := allocGroups_spec ddl order w
  rw [h] at h3
  simp only [Out.ok.injEq, Prod.mk.injEq] at h3
  have hw : w ≠ [] := by rintro rfl; simp at hc
  have hw0 := h1 hw
  subst hw0
  obtain ⟨c', g1, g2, g3⟩ := nameLoop_get (ddl := ddl) (order := order) w0
    (st := ⟨0, 0, true, ""⟩) hc
  rw [← h3.1] at g1
  have hcd : cgDefaults ddl order c =
      { c with trx := (cgDefaults ddl order c).trx, iter := (cgDefaults ddl order c).iter } ∧
      (cgDefaults ddl order c).trx = (if c.trx = [] then order else c.trx) ∧
      (finchUint c.iter ≠ 0 → (cgDefaults ddl order c).iter = c.iter) := by
    unfold cgDefaults
    dsimp only
    split
    · split
      · rename_i h2; exact ⟨rfl, rfl, fun h => absurd h2.2 h⟩
      · exact ⟨rfl, rfl, fun _ => rfl⟩
    · split
      · rename_i h2; exact ⟨rfl, rfl, fun h => absurd h2.2 h⟩
      · exact ⟨rfl, rfl, fun _ => rfl⟩
  refine ⟨c', g1, ?_, g3, ?_, ?_⟩
  · rw [g2, hcd.1]
  · rw [g2]; exact hcd.2.1
  · intro hi; rw [g2]; exact hcd.2.2 hi

/-- C40. A client group with DDL and without an iteration limit gets a limit of one iteration. -/
theorem C40_ddl_once (ddl : GoMap String Bool) (order : List String) (w w' : List CGCfg)
    (gs : List (List Nat)) (h : allocGroups ddl order w = .ok (w', gs)) (c : CGCfg) (hc : c ∈ w')
    (t : String) (ht : t ∈ c.trx) (hd : ddl t = some true) : finchUint c.iter ≠ 0 := by
  obtain ⟨w0, gs', -, -, h3, -⟩ := allocGroups_spec ddl order w
  rw [h] at h3
  simp only [Out.ok.injEq, Prod.mk.injEq] at h3
  rw [h3.1] at hc
  obtain ⟨i, hi⟩ := List.mem_iff_getElem?.mp hc
  have hlt := (List.getElem?_eq_some_iff.mp hi).1
  rw [nameLoop_length] at hlt
  obtain ⟨c', g1, g2, -⟩ := nameLoop_get (ddl := ddl) (order := order) w0 (st := ⟨0, 0, true, ""⟩)
    (List.getElem?_eq_getElem hlt)
  rw [hi] at g1
  cases g1
  have hh : hasDDL ddl c.trx = true := List.any_eq_true.mpr ⟨t, ht, by rw [hd]; rfl⟩
  rw [g2] at hh ⊢
  dsimp only at hh ⊢
  revert hh
  generalize w0[i] = x
  unfold cgDefaults
  dsimp only
  generalize hy : (if x.trx = [] then { x with trx := order } else x) = y
  split
  · intro _; show finchUint "1" ≠ 0; decide
  · rename_i hn
    intro hh he
    exact hn ⟨hh, he⟩

/-- An explicit name is not one of the automatic names for DDL. -/
def NotDdlName (c : CGCfg) : Prop := c.group = "" ∨ ∀ n, c.group ≠ autoName "ddl" n

/-- What one naming step does. -/
theorem nameStep_cases {ddl : GoMap String Bool} {st : NameSt} (hst : st.Ok) (c : CGCfg) :
    (c.group = "" ∧ hasDDL ddl c.trx = true ∧
      (nameStep ddl st c).2.group = autoName "ddl" (st.ddlNo + 1) ∧
      (nameStep ddl st c).1.ddlNo = st.ddlNo + 1) ∨
    (c.group = "" ∧ hasDDL ddl c.trx = false ∧ ∃ n, (nameStep ddl st c).2.group = autoName "dml" n) ∨
    (c.group ≠ "" ∧ (nameStep ddl st c).2.group = c.group) := by
  unfold nameStep
  split
  · rename_i h; exact Or.inr (Or.inr ⟨h, rfl⟩)
  · rename_i h
    rw [not_not] at h
    split
    · rename_i hd; exact Or.inl ⟨h, hd, rfl, rfl⟩
    · rename_i hd
      refine Or.inr (Or.inl ⟨h, by simpa using hd, ?_⟩)
      split
      · exact ⟨_, rfl⟩
      · rename_i hp; exact hst (by simpa using hp)

theorem cgDefaults_group (ddl : GoMap String Bool) (order : List String) (c : CGCfg) :
    (cgDefaults ddl order c).group = c.group := by
  unfold cgDefaults; dsimp only; split <;> split <;> rfl

theorem nameStep_trx (ddl : GoMap String Bool) (st : NameSt) (c : CGCfg) :
    (nameStep ddl st c).2.trx = c.trx := by
  unfold nameStep
  split
  · rfl
  · split
    · rfl
    · split <;> rfl

/-- An automatically named client group with DDL has another name than its neighbours. -/
theorem names_apart {ddl : GoMap String Bool} {order : List String}
    (w : List CGCfg) : ∀ {st : NameSt}, st.Ok → (∀ c ∈ w, NotDdlName c) →
    ∀ i a b x y, (nameLoop ddl order st w)[i]? = some a →
    (nameLoop ddl order st w)[i + 1]? = some b → w[i]? = some x → w[i + 1]? = some y →
    (x.group = "" ∧ hasDDL ddl a.trx = true) ∨ (y.group = "" ∧ hasDDL ddl b.trx = true) →
    a.group ≠ b.group := by
  induction w with
  | nil => intro st _ _ i a b x y ha; simp [nameLoop] at ha
  | cons x0 xs ih =>
    intro st hst hex i a b x y ha hb hx hy
    cases i with
    | succ i =>
      simp only [nameLoop, List.getElem?_cons_succ] at ha hb hx hy
      exact ih (nameStep_ok hst _).1 (fun c hc => hex c (by simp [hc])) i a b x y ha hb hx hy
    | zero =>
      cases xs with
      | nil => simp [nameLoop] at hb
      | cons y0 ys =>
        simp only [nameLoop, List.getElem?_cons_zero, Option.some.injEq, Nat.zero_add,
          List.getElem?_cons_succ] at ha hb hx hy
        subst hx hy
        have hx := hex x0 (by simp)
        have hy := hex y0 (by simp)
        have hok := (nameStep_ok (ddl := ddl) hst (cgDefaults ddl order x0)).1
        have c1 := nameStep_cases (ddl := ddl) hst (cgDefaults ddl order x0)
        have c2 := nameStep_cases (ddl := ddl) hok (cgDefaults ddl order y0)
        have t1 := nameStep_trx ddl st (cgDefaults ddl order x0)
        have t2 := nameStep_trx ddl (nameStep ddl st (cgDefaults ddl order x0)).1
          (cgDefaults ddl order y0)
        rw [ha] at c1 t1
        rw [hb] at c2 t2
        rw [t1, t2]
        rw [cgDefaults_group] at c1 c2
        intro hor heq
        rcases c1 with ⟨x1, x2, x3, x4⟩ | ⟨x1, x2, n, x3⟩ | ⟨x1, x2⟩ <;>
          rcases c2 with ⟨y1, y2, y3, y4⟩ | ⟨y1, y2, m, y3⟩ | ⟨y1, y2'⟩
        · rw [x3, y3, x4] at heq
          have := ddlName_inj heq
          omega
        · rw [x3, y3] at heq; exact ddl_ne_dml _ _ heq
        · rw [x3, y2'] at heq
          rcases hy with h | h
          · exact y1 h
          · exact h _ heq.symm
        · rw [x3, y3] at heq; exact ddl_ne_dml _ _ heq.symm
        · rcases hor with ⟨-, h⟩ | ⟨-, h⟩
          · rw [x2] at h; cases h
          · rw [y2] at h; cases h
        · rcases hor with ⟨-, h⟩ | ⟨h, -⟩
          · rw [x2] at h; cases h
          · exact y1 h
        · rw [x2, y3] at heq
          rcases hx with h | h
          · exact x1 h
          · exact h _ heq
        · rcases hor with ⟨h, -⟩ | ⟨-, h⟩
          · exact x1 h
          · rw [y2] at h; cases h
        · rcases hor with ⟨h, -⟩ | ⟨h, -⟩
          · exact x1 h
          · exact y1 h

/-- If a client group is apart from its neighbours it is an execution group of its own. -/
theorem alone_of_apart {n : Nat} {gs : List (List Nat)} (hf : gs.flatten = List.range n) {i : Nat}
    (hi : i < n) (h1 : ¬ Together gs i) (h2 : ∀ p, i = p + 1 → ¬ Together gs p) : [i] ∈ gs := by
  have hmem : i ∈ gs.flatten := by rw [hf]; exact List.mem_range.mpr hi
  obtain ⟨g, hg, hig⟩ := List.mem_flatten.mp hmem
  obtain ⟨a, b, rfl⟩ := List.append_of_mem hg
  obtain ⟨c, d, rfl⟩ := List.append_of_mem hig
  have hfl : a.flatten ++ c ++ i :: (d ++ b.flatten) = List.range n := by
    rw [← hf]; simp
  have hlen : (a.flatten ++ c).length = i := by
    have hget : (List.range n)[(a.flatten ++ c).length]? = some i := by
      rw [← hfl]
      rw [List.getElem?_append_right (Nat.le_refl _)]
      simp
    have := (List.getElem?_eq_some_iff.mp hget)
    obtain ⟨hlt, he⟩ := this
    rw [List.getElem_range] at he
    exact he
  have hd : d = [] := by
    cases d with
    | nil => rfl
    | cons x xs =>
      exfalso
      have hget : (List.range n)[i + 1]? = some x := by
        rw [← hfl, List.getElem?_append_right (by omega), hlen]
        simp
      obtain ⟨hlt, he⟩ := List.getElem?_eq_some_iff.mp hget
      rw [List.getElem_range] at he
      subst he
      exact h1 ⟨_, hg, by simp, by simp⟩
  have hc : c = [] := by
    rcases List.eq_nil_or_concat c with h | ⟨c', x, rfl⟩
    · exact h
    · exfalso
      rw [List.concat_eq_append] at *
      have hl2 : (a.flatten ++ c').length + 1 = i := by simpa [Nat.add_assoc] using hlen
      have hget : (List.range n)[(a.flatten ++ c').length]? = some x := by
        rw [← hfl, ← List.append_assoc, List.append_assoc, List.getElem?_append_right (Nat.le_refl _)]
        simp
      obtain ⟨hlt, he⟩ := List.getElem?_eq_some_iff.mp hget
      rw [List.getElem_range] at he
      refine h2 x (by omega) ⟨_, hg, by simp, ?_⟩
      rw [show x + 1 = i by omega]
      simp
  subst hd hc
  simp

/-- If no neighbours are together every group has one element. -/
theorem singletons_of_apart {n : Nat} {gs : List (List Nat)} (hf : gs.flatten = List.range n)
    (hne : ∀ g ∈ gs, g ≠ []) (h : ∀ i, ¬ Together gs i) : gs = (List.range n).map ([·]) := by
  have hlen : ∀ g ∈ gs, ∃ x, g = [x] := by
    intro g hg
    cases hgc : g with
    | nil => exact absurd hgc (hne g hg)
    | cons x xs =>
      cases xs with
      | nil => exact ⟨x, rfl⟩
      | cons y ys =>
        exfalso
        subst hgc
        obtain ⟨a, b, rfl⟩ := List.append_of_mem hg
        have hfl : a.flatten ++ x :: y :: (ys ++ b.flatten) = List.range n := by rw [← hf]; simp
        have h1 : (List.range n)[a.flatten.length]? = some x := by
          rw [← hfl, List.getElem?_append_right (Nat.le_refl _)]; simp
        have h2 : (List.range n)[a.flatten.length + 1]? = some y := by
          rw [← hfl, List.getElem?_append_right (by omega)]; simp
        obtain ⟨_, e1⟩ := List.getElem?_eq_some_iff.mp h1
        obtain ⟨_, e2⟩ := List.getElem?_eq_some_iff.mp h2
        rw [List.getElem_range] at e1 e2
        exact h x ⟨_, hg, by simp, by rw [show x + 1 = y by omega]; simp⟩
  clear h hne
  rw [← hf]
  clear hf
  induction gs with
  | nil => rfl
  | cons g gs ih =>
    obtain ⟨x, rfl⟩ := hlen g (by simp)
    rw [List.flatten_cons, List.map_append, ← ih (fun g hg => hlen g (by simp [hg]))]
    rfl

/-- C40. A client group with DDL that has no group name in the config is an execution group of its
own, provided no configured name is one of the automatic names `ddl1`, `ddl2`, .... -/
theorem C40_ddl_alone_partial (ddl : GoMap String Bool) (order : List String) (w w' : List CGCfg)
    (gs : List (List Nat)) (h : allocGroups ddl order w = .ok (w', gs))
    (hn : ∀ c ∈ w, c.group = "" ∨ ∀ n, c.group ≠ autoName "ddl" n)
    (i : Nat) (x c : CGCfg) (hx : w[i]? = some x) (hg : x.group = "") (hc : w'[i]? = some c)
    (t : String) (ht : t ∈ c.trx) (hd : ddl t = some true) : [i] ∈ gs := by
  obtain ⟨w0, gs', h1, -, h3, h4⟩ := allocGroups_spec ddl order w
  rw [h] at h3
  simp only [Out.ok.injEq, Prod.mk.injEq] at h3
  obtain ⟨rfl, rfl⟩ := h3
  have hw : w ≠ [] := by rintro rfl; simp at hx
  have hw0 := h1 hw
  subst hw0
  have hh : hasDDL ddl c.trx = true := List.any_eq_true.mpr ⟨t, ht, by rw [hd]; rfl⟩
  have hst : (⟨0, 0, true, ""⟩ : NameSt).Ok := by intro h; cases h
  have hlen := nameLoop_length (ddl := ddl) (order := order) w0 ⟨0, 0, true, ""⟩
  have hi := (List.getElem?_eq_some_iff.mp hx).1
  refine alone_of_apart h4.flat hi ?_ ?_
  · intro htog
    have hlt : i + 1 < w0.length := by
      obtain ⟨g, hg, -, h2⟩ := htog
      have : i + 1 ∈ gs.flatten := List.mem_flatten.mpr ⟨g, hg, h2⟩
      rw [h4.flat] at this
      exact List.mem_range.mp this
    have hb := List.getElem?_eq_getElem (l := nameLoop ddl order ⟨0, 0, true, ""⟩ w0) (i := i + 1)
      (by omega)
    refine names_apart w0 hst hn i c _ x _ hc hb hx (List.getElem?_eq_getElem hlt) (Or.inl ⟨hg, hh⟩) ?_
    exact (h4.same i c _ hlt hc hb).mp htog
  · rintro p rfl htog
    have ha := List.getElem?_eq_getElem (l := nameLoop ddl order ⟨0, 0, true, ""⟩ w0) (i := p)
      (by omega)
    refine names_apart w0 hst hn p _ c _ x ha hc (List.getElem?_eq_getElem (by omega)) hx
      (Or.inr ⟨hg, hh⟩) ?_
    exact (h4.same p _ c hi ha hc).mp htog

/-- C40. Without the condition on the names it need not: an unnamed client group with DDL next to one
that is named `ddl1`. -/
theorem C40_name_clash_false :
    ∃ w' gs, allocGroups (fun n => if n = "d" then some true else none) ["d", "q"]
      [{ trx := ["d"] }, { trx := ["q"], group := "ddl1" }] = .ok (w', gs) ∧ gs = [[0, 1]] :=
  ⟨_, _, rfl, by decide⟩

/-- C41. Without a workload section every trx is assigned exactly once, in file order; a trx with DDL
is alone in a client group with one client and one iteration; all others are in client groups with one
client; two client groups without DDL are never neighbours, and every client group is an execution
group of its own. -/
theorem C41_auto_assign (ddl : GoMap String Bool) (order : List String) :
    ∃ w' gs, allocGroups ddl order [] = .ok (w', gs) ∧
      w'.flatMap (·.trx) = order ∧
      (∀ c ∈ w', c.clients = "1" ∧ c.iterClients = "" ∧ c.iterExecGroup = "" ∧ c.runtime = "" ∧
        c.trx ≠ [] ∧
        ((∃ t, c.trx = [t] ∧ ddl t = some true ∧ c.iter = "1") ∨
         ((∀ t ∈ c.trx, ddl t ≠ some true) ∧ c.iter = ""))) ∧
      (∀ i a b, w'[i]? = some a → w'[i + 1]? = some b →
        (∃ t ∈ a.trx, ddl t = some true) ∨ ∃ t ∈ b.trx, ddl t = some true) ∧
      gs = (List.range w'.length).map ([·]) := by
  obtain ⟨w0, gs, -, h2, h3, h4⟩ := allocGroups_spec ddl order []
  have hok := h2 rfl
  have hst : (⟨0, 0, true, ""⟩ : NameSt).Ok := by intro h; cases h
  have hlen := nameLoop_length (ddl := ddl) (order := order) w0 ⟨0, 0, true, ""⟩
  -- defaults change nothing
  have hdef : ∀ c ∈ w0, cgDefaults ddl order c = c := by
    intro c hc
    rcases hok.kind c hc with ⟨t, ht, rfl⟩ | ⟨h1, h2, h3⟩
    · have h1 : ¬ (hasDDL ddl [t] = true ∧ finchUint "1" = 0) := by
        rintro ⟨-, h⟩; revert h; decide
      unfold cgDefaults
      dsimp only
      rw [if_neg (by simp : ¬ [t] = [])]
      dsimp only
      rw [if_neg h1]
    · unfold cgDefaults
      rw [if_neg h1]
      dsimp only
      rw [if_neg]
      rintro ⟨h, -⟩
      obtain ⟨t, ht, he⟩ := List.any_eq_true.mp h
      rw [h2 t ht] at he
      cases he
  have hget : ∀ (i : Nat) (c : CGCfg), (nameLoop ddl order ⟨0, 0, true, ""⟩ w0)[i]? = some c →
      ∃ x : CGCfg, w0[i]? = some x ∧ c = { x with group := c.group } := by
    intro i c hc
    have hlt := (List.getElem?_eq_some_iff.mp hc).1
    rw [hlen] at hlt
    have hx := List.getElem?_eq_getElem hlt
    obtain ⟨c', g1, g2, -⟩ := nameLoop_get (ddl := ddl) (order := order) w0
      (st := ⟨0, 0, true, ""⟩) hx
    rw [hc] at g1; cases g1
    rw [hdef _ (List.mem_of_getElem? hx)] at g2
    exact ⟨_, hx, g2⟩
  have hsome : ∀ t, (ddl t).getD false = true → ddl t = some true := by
    intro t ht
    cases hv : ddl t with
    | none => rw [hv] at ht; cases ht
    | some b => rw [hv] at ht; simp only [Option.getD_some] at ht; rw [ht]
  have hsome' : ∀ t, (ddl t).getD false = false → ddl t ≠ some true := by
    intro t ht he; rw [he] at ht; cases ht
  have hgrp : ∀ c ∈ w0, c.group = "" := by
    intro c hc
    rcases hok.kind c hc with ⟨t, -, rfl⟩ | ⟨-, -, h⟩
    · rfl
    · rw [h]
  have hddl : ∀ i a b, (nameLoop ddl order ⟨0, 0, true, ""⟩ w0)[i]? = some a →
      (nameLoop ddl order ⟨0, 0, true, ""⟩ w0)[i + 1]? = some b →
      (∃ t ∈ a.trx, ddl t = some true) ∨ ∃ t ∈ b.trx, ddl t = some true := by
    intro i a b ha hb
    obtain ⟨x, hx, ea⟩ := hget i a ha
    obtain ⟨y, hy, eb⟩ := hget (i + 1) b hb
    have hat : a.trx = x.trx := by rw [ea]
    have hbt : b.trx = y.trx := by rw [eb]
    rcases hok.kind x (List.mem_of_getElem? hx) with ⟨t, ht, rfl⟩ | hxm
    · exact Or.inl ⟨t, by rw [hat]; simp, hsome t ht⟩
    · rcases hok.kind y (List.mem_of_getElem? hy) with ⟨t, ht, rfl⟩ | hym
      · exact Or.inr ⟨t, by rw [hbt]; simp, hsome t ht⟩
      · exact absurd ⟨hxm, hym⟩ (hok.apart i x y hx hy)
  refine ⟨_, gs, h3, ?_, ?_, hddl, ?_⟩
  · have : (nameLoop ddl order ⟨0, 0, true, ""⟩ w0).map (·.trx) = w0.map (·.trx) := by
      apply List.ext_getElem?
      intro i
      rw [List.getElem?_map, List.getElem?_map]
      cases hc : (nameLoop ddl order ⟨0, 0, true, ""⟩ w0)[i]? with
      | none =>
        have := List.getElem?_eq_none_iff.mp hc
        rw [List.getElem?_eq_none (by omega)]
      | some c =>
        obtain ⟨x, hx, ec⟩ := hget i c hc
        rw [hx, ec]; rfl
    rw [List.flatMap_def, this, ← List.flatMap_def]
    exact hok.all
  · intro c hc
    obtain ⟨i, hi⟩ := List.mem_iff_getElem?.mp hc
    obtain ⟨x, hx, ec⟩ := hget i c hi
    rcases hok.kind x (List.mem_of_getElem? hx) with ⟨t, ht, rfl⟩ | ⟨h1, h2, h3⟩
    · rw [ec]
      exact ⟨rfl, rfl, rfl, rfl, by simp, Or.inl ⟨t, rfl, hsome t ht, rfl⟩⟩
    · rw [ec]
      refine ⟨by rw [h3], by rw [h3], by rw [h3], by rw [h3], h1, Or.inr ⟨?_, by rw [h3]⟩⟩
      intro t ht
      exact hsome' t (h2 t ht)
  · rw [hlen]
    have hapart : ∀ i, ¬ Together gs i := by
      intro i htog
      have hlt : i + 1 < w0.length := by
        obtain ⟨g, hg, -, h2⟩ := htog
        have : i + 1 ∈ gs.flatten := List.mem_flatten.mpr ⟨g, hg, h2⟩
        rw [h4.flat] at this
        exact List.mem_range.mp this
      have ha := List.getElem?_eq_getElem (l := nameLoop ddl order ⟨0, 0, true, ""⟩ w0) (i := i)
        (by omega)
      have hb := List.getElem?_eq_getElem (l := nameLoop ddl order ⟨0, 0, true, ""⟩ w0) (i := i + 1)
        (by omega)
      have hx := List.getElem?_eq_getElem (l := w0) (i := i) (by omega)
      have hy := List.getElem?_eq_getElem hlt
      refine names_apart w0 hst (fun c hc => Or.inl (hgrp c hc)) i _ _ _ _ ha hb hx hy ?_
        ((h4.same i _ _ hlt ha hb).mp htog)
      rcases hddl i _ _ ha hb with ⟨t, ht, hd⟩ | ⟨t, ht, hd⟩
      · exact Or.inl ⟨hgrp _ (List.getElem_mem _), List.any_eq_true.mpr ⟨t, ht, by rw [hd]; rfl⟩⟩
      · exact Or.inr ⟨hgrp _ (List.getElem_mem _), List.any_eq_true.mpr ⟨t, ht, by rw [hd]; rfl⟩⟩
    exact singletons_of_apart h4.flat h4.ne hapart

end Finch
