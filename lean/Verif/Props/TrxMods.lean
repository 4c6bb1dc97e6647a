import Verif.Props.TrxColumns
import Verif.Props.SizeLimit
/-!
C120: what the modifiers of a statement mean.
-/
namespace Finch

/-! ### Specification, from the text of the modifier -/

/-- Spec: the text consists of these words, with white space between and around them. -/
inductive Words : Text → List Text → Prop where
  | none {t : Text} (h : ∀ c ∈ t, isSpace c = true) : Words t []
  | word {sp w rest : Text} {ws : List Text} (hsp : ∀ c ∈ sp, isSpace c = true) (h0 : w ≠ [])
      (hw : ∀ c ∈ w, isSpace c = false) (hr : ∀ c ∈ rest.head?, isSpace c = true)
      (h : Words rest ws) : Words (sp ++ w ++ rest) (w :: ws)

/-- Spec: the word is a modifier name, possibly with colons around it. -/
def Named (w : Text) (name : String) : Prop :=
  ∃ a b : Text, (∀ c ∈ a, c = ':') ∧ (∀ c ∈ b, c = ':') ∧ w = a ++ name.toList ++ b

/-- Spec: the word is a decimal number of 64 bits. -/
def Numeral (w : Text) (n : Nat) : Prop :=
  w ≠ [] ∧ (∀ c ∈ w, '0' ≤ c ∧ c ≤ '9') ∧
    n = w.foldl (fun n c => 10 * n + (c.toNat - '0'.toNat)) 0 ∧ n < 2 ^ 64

/-- Spec: the word names a column, possibly followed by a comma. -/
def NamesColumn (w : Text) (c : String) : Prop :=
  w = c.toList ++ [','] ∨ w = c.toList ∧ ∀ x ∈ w.getLast?, x ≠ ','

/-- What a modifier asks for. -/
inductive ModEff where
  /-- execute as prepared statement -/
  | prepare
  /-- sleep instead of executing -/
  | idle (d : Int)
  /-- stop at a limit -/
  | limit (m : LimitMod)
  /-- save the insert id in this column -/
  | insertId (c : String)
  /-- save the columns of the result set in these columns -/
  | columns (cs : List String)
  /-- nothing -/
  | once
  deriving DecidableEq

/-- Spec: the meaning of a well-formed modifier. -/
inductive Means (env : TrxEnv) : Text → ModEff → Prop where
  | prepare {m w : Text} (h : Words m [w]) (hn : Named w "prepare" ∨ Named w "prepared") :
      Means env m .prepare
  | idle {m w x : Text} {d : Int} (h : Words m [w, x]) (hn : Named w "idle")
      (hd : env.duration x = some d) : Means env m (.idle d)
  | rows {m w x : Text} {n : Nat} (h : Words m [w, x]) (hn : Named w "rows") (hx : Numeral x n) :
      Means env m (.limit (.rows n 0))
  | rowsFrom {m w x y : Text} {n o : Nat} (h : Words m [w, x, y]) (hn : Named w "rows")
      (hx : Numeral x n) (hy : Numeral y o) : Means env m (.limit (.rows n o))
  | tableSize {m w x y : Text} {n : Nat} (h : Words m [w, x, y]) (hn : Named w "table-size")
      (hy : env.bytes y = some n) : Means env m (.limit (.tableSize (String.ofList x) n))
  | databaseSize {m w x y : Text} {n : Nat} (h : Words m [w, x, y]) (hn : Named w "database-size")
      (hy : env.bytes y = some n) : Means env m (.limit (.databaseSize (String.ofList x) n))
  | insertId {m w x : Text} {c : String} (h : Words m [w, x]) (hn : Named w "save-insert-id")
      (hx : NamesColumn x c) : Means env m (.insertId c)
  | columns {m w : Text} {xs : List Text} {cs : List String} (h : Words m (w :: xs))
      (hn : Named w "save-columns") (hx : List.Forall₂ NamesColumn xs cs) : Means env m (.columns cs)
  | once {m w x : Text} (h : Words m [w, x]) (hn : Named w "copies") (hx : Numeral x 1) :
      Means env m .once

/-- The durations asked for. -/
def ModEff.idle? : ModEff → Option Int
  | .idle d => some d
  | _ => none

/-- The limits asked for. -/
def ModEff.limit? : ModEff → Option LimitMod
  | .limit m => some m
  | _ => none

/-- The columns for the insert id. -/
def ModEff.insertId? : ModEff → Option String
  | .insertId c => some c
  | _ => none

/-- The columns to save. -/
def ModEff.saves : ModEff → List String
  | .insertId c => [c]
  | .columns cs => cs
  | _ => []

/-! ### Words -/

theorem fieldsAux_skip (sp t : Text) (h : ∀ c ∈ sp, isSpace c = true) :
    fieldsAux [] (sp ++ t) = fieldsAux [] t := by
  induction sp with
  | nil => rfl
  | cons c sp ih =>
    have : fieldsAux [] (c :: (sp ++ t)) = fieldsAux [] (sp ++ t) := by
      conv_lhs => unfold fieldsAux
      simp [h c (by simp)]
    rw [List.cons_append, this, ih (fun x hx => h x (by simp [hx]))]

theorem fieldsAux_word (w t : Text) (h : ∀ c ∈ w, isSpace c = false) : ∀ a : Text,
    fieldsAux a (w ++ t) = fieldsAux (a ++ w) t := by
  induction w with
  | nil => intro a; simp
  | cons c w ih =>
    intro a
    have : fieldsAux a (c :: (w ++ t)) = fieldsAux (a ++ [c]) (w ++ t) := by
      conv_lhs => unfold fieldsAux
      simp [h c (by simp)]
    rw [List.cons_append, this, ih (fun x hx => h x (by simp [hx]))]
    simp

theorem fields_words {t : Text} {ws : List Text} (h : Words t ws) : fields t = ws := by
  unfold fields
  induction h with
  | none h =>
    rename_i t
    have := fieldsAux_skip t [] h
    rw [List.append_nil] at this
    rw [this]; rfl
  | @word sp w rest ws hsp h0 hw hr h ih =>
    rw [List.append_assoc, fieldsAux_skip _ _ hsp, fieldsAux_word _ _ hw, List.nil_append]
    cases rest with
    | nil =>
      cases w with
      | nil => exact absurd rfl h0
      | cons a b =>
        have : ws = [] := by rw [← ih]; rfl
        rw [this]; rfl
    | cons c cs =>
      have hc : isSpace c = true := hr c (by simp)
      cases w with
      | nil => exact absurd rfl h0
      | cons a b =>
        rw [fieldsAux_cons, if_pos hc, if_neg (by simp), ← ih]
        congr 1
        exact (fieldsAux_skip [c] cs (by simpa using hc)).symm

theorem words_space {t : Text} {ws : List Text} (h : Words t ws) : ∀ w ∈ ws, ∀ c ∈ w, isSpace c = false := by
  induction h with
  | none _ => simp
  | word _ _ hw _ _ ih =>
    intro x hx
    rcases List.mem_cons.mp hx with rfl | hx
    · exact hw
    · exact ih x hx

theorem takeWhile_all (p : Char → Bool) (t : Text) : ∀ c ∈ t.takeWhile p, p c = true := by
  induction t with
  | nil => simp
  | cons a t ih =>
    intro c hc
    rw [List.takeWhile_cons] at hc
    split at hc
    · rename_i ha
      rcases List.mem_cons.mp hc with rfl | hc
      · exact ha
      · exact ih c hc
    · cases hc

theorem dropWhile_first (p : Char → Bool) (t : Text) : ∀ c ∈ (t.dropWhile p).head?, p c = false := by
  induction t with
  | nil => simp
  | cons a t ih =>
    intro c hc
    rw [List.dropWhile_cons] at hc
    split at hc
    · exact ih c hc
    · rename_i ha
      have : a = c := by simpa using hc
      subst this
      simpa using ha

/-- Every text consists of words, in one way. -/
theorem words_exist (t : Text) : Words t (fields t) := by
  suffices h : ∀ (n : Nat) (t : Text), t.length ≤ n → ∃ ws, Words t ws by
    obtain ⟨ws, hw⟩ := h t.length t le_rfl
    rw [fields_words hw]; exact hw
  intro n
  induction n with
  | zero =>
    intro t ht
    have : t = [] := by simpa using ht
    subst this
    exact ⟨[], .none (by simp)⟩
  | succ n ih =>
    intro t ht
    by_cases hall : ∀ c ∈ t, isSpace c = true
    · exact ⟨[], .none hall⟩
    · have hd := List.takeWhile_append_dropWhile (p := isSpace) (l := t)
      generalize hsp : t.takeWhile isSpace = sp at hd
      generalize hu : t.dropWhile isSpace = u at hd
      have hspace : ∀ c ∈ sp, isSpace c = true := by
        intro c hc
        rw [← hsp] at hc
        exact takeWhile_all _ _ c hc
      have hu0 : u ≠ [] := by
        rintro rfl
        rw [List.append_nil] at hd
        exact hall (hd ▸ hspace)
      have hhead : isSpace (u.head hu0) = false := by
        refine dropWhile_first isSpace t _ ?_
        rw [hu]; exact List.head?_eq_some_head hu0
      have he := List.takeWhile_append_dropWhile (p := fun c => !isSpace c) (l := u)
      generalize hw : u.takeWhile (fun c => !isSpace c) = w at he
      generalize hr : u.dropWhile (fun c => !isSpace c) = r at he
      have hw0 : w ≠ [] := by
        rw [← hw]
        cases u with
        | nil => exact absurd rfl hu0
        | cons a b =>
          have : isSpace a = false := hhead
          simp [this]
      have hww : ∀ c ∈ w, isSpace c = false := by
        intro c hc
        rw [← hw] at hc
        simpa using takeWhile_all _ _ c hc
      have hrr : ∀ c ∈ r.head?, isSpace c = true := by
        intro c hc
        rw [← hr] at hc
        simpa using dropWhile_first _ _ c hc
      have hlen : r.length ≤ n := by
        have h1 : t.length = sp.length + (w.length + r.length) := by
          rw [← hd, ← he, List.length_append, List.length_append]
        have : 0 < w.length := List.length_pos_iff.mpr hw0
        omega
      obtain ⟨ws, hws⟩ := ih r hlen
      refine ⟨w :: ws, ?_⟩
      rw [← hd, ← he, ← List.append_assoc]
      exact .word hspace hw0 hww hrr hws

theorem trim_all (p : Char → Bool) (a : Text) {n : Text} (ha : ∀ c ∈ a, p c = true)
    (hn : ∀ c ∈ n.head?, p c = false) : (a ++ n).dropWhile p = n := by
  induction a with
  | nil =>
    cases n with
    | nil => rfl
    | cons x xs => simp [hn x (by simp)]
  | cons c a ih =>
    rw [List.cons_append, List.dropWhile_cons, if_pos (ha c (by simp))]
    exact ih (fun x hx => ha x (by simp [hx]))

theorem trim_named {w : Text} {name : String} (h : Named w name) (h0 : name.toList ≠ [])
    (h1 : ∀ c ∈ name.toList.head?, c ≠ ':') (h2 : ∀ c ∈ name.toList.getLast?, c ≠ ':') :
    trim (· == ':') w = name.toList := by
  obtain ⟨a, b, ha, hb, rfl⟩ := h
  unfold trim trimRight
  rw [List.append_assoc, trim_all _ a (fun c hc => by simp [ha c hc])]
  · rw [List.reverse_append, trim_all _ b.reverse]
    · simp
    · intro c hc
      simp [hb c (List.mem_reverse.mp hc)]
    · intro c hc
      rw [List.head?_reverse] at hc
      simpa using h2 c hc
  · intro c hc
    have hc' : c ∈ name.toList.head? := by
      cases hn : name.toList with
      | nil => exact absurd hn h0
      | cons x xs => rw [hn] at hc; exact hc
    simpa using h1 c hc'

theorem digitsVal_numeral (s : Text) (h : ∀ c ∈ s, '0' ≤ c ∧ c ≤ '9') : ∀ acc : Nat,
    digitsVal acc s = some (s.foldl (fun n c => 10 * n + (c.toNat - '0'.toNat)) acc) := by
  induction s with
  | nil => intro acc; rfl
  | cons c s ih =>
    intro acc
    rw [digitsVal]
    have : digitVal c = some (c.toNat - '0'.toNat) := by
      unfold digitVal; rw [if_pos (h c (by simp))]
    rw [this]
    simp only
    rw [ih (fun x hx => h x (by simp [hx])), List.foldl_cons, Nat.mul_comm acc 10]

theorem parseUint64_numeral {w : Text} {n : Nat} (h : Numeral w n) : parseUint64 w = some n := by
  obtain ⟨h0, h1, h2, h3⟩ := h
  have := digitsVal_numeral w h1 0
  rw [← h2] at this
  unfold parseUint64
  cases w with
  | nil => exact absurd rfl h0
  | cons a b => simp only [this, if_pos h3]

theorem parseInt64_numeral {w : Text} {n : Nat} (h : Numeral w n) (hn : n < 2 ^ 63) :
    parseInt64 w = some (n : Int) := by
  have hp := parseUint64_numeral h
  obtain ⟨h0, h1, -⟩ := h
  unfold parseInt64
  split
  · have := h1 '-' (by simp); exact absurd this (by decide)
  · have := h1 '+' (by simp); exact absurd this (by decide)
  · rw [hp]; simp only [if_pos hn]

theorem colName_names {w : Text} {c : String} (h : NamesColumn w c) (hw : ∀ x ∈ w, isSpace x = false) :
    colName w = c := by
  have htrim : ∀ t : Text, (∀ x ∈ t, isSpace x = false) → trimSpace t = t := by
    intro t ht
    unfold trimSpace trim trimRight
    have h1 := trim_all isSpace [] (n := t) (by simp) (fun c hc => ht c (List.mem_of_mem_head? hc))
    rw [List.nil_append] at h1
    rw [h1]
    have h2 := trim_all isSpace [] (n := t.reverse) (by simp)
      (fun c hc => ht c (List.mem_reverse.mp (List.mem_of_mem_head? hc)))
    rw [List.nil_append] at h2
    rw [h2, List.reverse_reverse]
  unfold colName
  rcases h with rfl | ⟨rfl, hlast⟩
  · have : trimSuffix [','] (c.toList ++ [',']) = c.toList := by
      unfold trimSuffix
      rw [if_pos (by rw [List.isSuffixOf_iff_suffix]; exact List.suffix_append _ _)]
      simp
    rw [this, htrim _ (fun x hx => hw x (by simp [hx])), String.ofList_toList]
  · have : trimSuffix [','] c.toList = c.toList := by
      unfold trimSuffix
      rw [if_neg]
      rw [List.isSuffixOf_iff_suffix]
      rintro ⟨t, ht⟩
      refine hlast ',' ?_ rfl
      rw [← ht]; simp
    rw [this, htrim _ hw, String.ofList_toList]

/-! ### One modifier -/

/-- The statement after a modifier. -/
def ModEff.Did (e : ModEff) (s s1 : Stmt) : Prop :=
  match e with
  | .prepare => s1 = { s with prepare := true }
  | .idle d => s1 = { s with idle := d }
  | .limit m => ∃ l, m.apply s.limit = .ok l ∧ s1 = { s with limit := l }
  | .insertId c => s1 = { s with insertId := c, outputs := s.outputs ++ [c] }
  | .columns cs => s1 = { s with outputs := s.outputs ++ cs }
  | .once => s1 = s

theorem addLimit_did {s s1 : Stmt} {m : LimitMod} (h : addLimit s m = .ok s1) :
    ModEff.Did (.limit m) s s1 := by
  unfold addLimit at h
  split at h
  · rename_i d hd
    cases h; exact ⟨d, hd, rfl⟩
  · cases h

/-- The column `c` is known and numbered. -/
def IsColumn (env : TrxEnv) (f f1 : FileSt) (i : Nat) (c : String) : Prop :=
  c = "_" ∨ f.keys c = none ∧ ∃ k, f1.keys c = some k ∧ k.name = c ∧ k.column = i ∧
    k.trx = env.trx ∧ k.statement = f.stmtNo ∧
    k.scope = ((f.data (cfgKey c.toList)).map (·.scope)).getD "trx"

theorem column_is {env : TrxEnv} {f f1 : FileSt} {n : Nat} {col : Text} {k : String}
    (h : f.column env n col = .ok (f1, k)) : IsColumn env f f1 n k := by
  unfold FileSt.column at h
  dsimp only at h
  split at h
  · split at h
    · cases h; exact Or.inl rfl
    · cases h; exact Or.inl rfl
  · split at h
    · cases h
    · rename_i hnone
      split at h
      · cases h
      · cases h
        refine Or.inr ⟨hnone, _, GoMap.set_same _ _ _, rfl, rfl, rfl, rfl, ?_⟩
        simp only [colKey, String.toList_ofList]
        cases f.data (cfgKey (trimSpace (trimSuffix [','] col))) <;> rfl

theorem column_data {env : TrxEnv} {f f1 : FileSt} {n : Nat} {col : Text} {k : String}
    (h : f.column env n col = .ok (f1, k)) : f1.data = f.data := by
  unfold FileSt.column at h
  dsimp only at h
  split at h
  · split at h
    · cases h; rfl
    · cases h; rfl
  · split at h
    · cases h
    · split at h
      · cases h
      · cases h; rfl

theorem IsColumn.later {env : TrxEnv} {a b c d : FileSt} {i : Nat} {x : String}
    (h1 : Frame a b) (hd : b.data = a.data) (h : IsColumn env b c i x) (h2 : Frame c d) :
    IsColumn env a d i x := by
  rcases h with h | ⟨hnone, k, hk, e1, e2, e3, e4, e5⟩
  · exact Or.inl h
  · refine Or.inr ⟨?_, k, h2.grow _ _ hk, e1, e2, e3, e4.trans h1.stmtNo, by rw [e5, hd]⟩
    cases ha : a.keys x with
    | none => rfl
    | some v => rw [h1.grow _ _ ha] at hnone; cases hnone

theorem columns_are {env : TrxEnv} {cols : List Text} : ∀ {f f1 : FileSt} {n : Nat}
    {ks : List String}, f.columns env n cols = .ok (f1, ks) →
    ks = cols.map colName ∧ f1.data = f.data ∧
      ∀ i c, ks[i]? = some c → IsColumn env f f1 (n + i) c := by
  induction cols with
  | nil => intro f f1 n ks h; cases h; exact ⟨rfl, rfl, by simp⟩
  | cons c cs ih =>
    intro f f1 n ks h
    obtain ⟨⟨f2, k⟩, h1, h⟩ := Out.bind_ok h
    obtain ⟨⟨f3, ks'⟩, h2, h⟩ := Out.bind_ok h
    cases Out.pure_ok h
    obtain ⟨e1, e2, e3⟩ := ih h2
    refine ⟨by rw [List.map_cons, ← e1, column_name h1], e2.trans (column_data h1), ?_⟩
    intro i x hx
    cases i with
    | zero =>
      simp only [List.getElem?_cons_zero, Option.some.injEq] at hx
      subst hx
      exact (column_is h1).later (.refl _) rfl (columns_frame h2)
    | succ i =>
      simp only [List.getElem?_cons_succ] at hx
      have := (e3 i x hx).later (column_frame h1) (column_data h1) (.refl _)
      rw [show n + (i + 1) = n + 1 + i by omega]
      exact this

theorem forall2_colName {xs : List Text} {cs : List String} (h : List.Forall₂ NamesColumn xs cs)
    (hs : ∀ w ∈ xs, ∀ c ∈ w, isSpace c = false) : xs.map colName = cs := by
  induction h with
  | nil => rfl
  | cons hx _ ih =>
    rw [List.map_cons, colName_names hx (hs _ (by simp)), ih (fun w hw => hs w (by simp [hw]))]

/-- One well-formed modifier. -/
theorem modStep_means {env : TrxEnv} {f f1 : FileSt} {s s1 : Stmt} {m : Text} {c : Option Nat}
    {e : ModEff} (hm : Means env m e) (h : modStep env f s m = .ok (f1, s1, c)) :
    c = none ∧ e.Did s s1 ∧ f1.data = f.data ∧
      (∀ i x, e.saves[i]? = some x → IsColumn env f f1 i x) := by
  unfold modStep at h
  cases hm with
  | prepare hw hn =>
    rw [fields_words hw] at h
    dsimp only at h
    have hname : ∀ w', (Named w' "prepare" ∨ Named w' "prepared") →
        trim (· == ':') w' = "prepare".toList ∨ trim (· == ':') w' = "prepared".toList := by
      intro w' h
      exact h.imp (fun h => trim_named h (by decide) (by decide) (by decide))
        (fun h => trim_named h (by decide) (by decide) (by decide))
    rw [if_pos (hname _ hn)] at h
    cases h
    exact ⟨rfl, rfl, rfl, by simp [ModEff.saves]⟩
  | idle hw hn hd =>
    rw [fields_words hw] at h
    dsimp only at h
    rw [trim_named hn (by decide) (by decide) (by decide)] at h
    rw [if_neg (by decide), if_pos rfl] at h
    simp only [field1, bind, Out.bind, hd, Out.ofOption] at h
    cases Out.pure_ok h
    exact ⟨rfl, rfl, rfl, by simp [ModEff.saves]⟩
  | rows hw hn hx =>
    rw [fields_words hw] at h
    dsimp only at h
    rw [trim_named hn (by decide) (by decide) (by decide)] at h
    rw [if_neg (by decide), if_neg (by decide), if_pos rfl] at h
    simp only [field1, bind, Out.bind, parseUint64_numeral hx, Out.ofOption, rowsOffset] at h
    split at h
    · rename_i s' hs'
      cases Out.pure_ok h
      exact ⟨rfl, addLimit_did hs', rfl, by simp [ModEff.saves]⟩
    · cases h
    · cases h
  | rowsFrom hw hn hx hy =>
    rw [fields_words hw] at h
    dsimp only at h
    rw [trim_named hn (by decide) (by decide) (by decide)] at h
    rw [if_neg (by decide), if_neg (by decide), if_pos rfl] at h
    simp only [field1, bind, Out.bind, parseUint64_numeral hx, parseUint64_numeral hy, Out.ofOption,
      rowsOffset] at h
    split at h
    · rename_i s' hs'
      cases Out.pure_ok h
      exact ⟨rfl, addLimit_did hs', rfl, by simp [ModEff.saves]⟩
    · cases h
    · cases h
  | tableSize hw hn hy =>
    rw [fields_words hw] at h
    dsimp only at h
    rw [trim_named hn (by decide) (by decide) (by decide)] at h
    rw [if_neg (by decide), if_neg (by decide), if_neg (by decide), if_pos (Or.inl rfl)] at h
    simp only [bind, Out.bind, hy, Out.ofOption, if_pos] at h
    split at h
    · rename_i s' hs'
      cases Out.pure_ok h
      exact ⟨rfl, addLimit_did hs', rfl, by simp [ModEff.saves]⟩
    · cases h
    · cases h
  | databaseSize hw hn hy =>
    rw [fields_words hw] at h
    dsimp only at h
    rw [trim_named hn (by decide) (by decide) (by decide)] at h
    rw [if_neg (by decide), if_neg (by decide), if_neg (by decide), if_pos (Or.inr rfl)] at h
    have hne : ("database-size".toList = "table-size".toList) = False := by decide
    simp only [bind, Out.bind, hy, Out.ofOption, hne, if_false] at h
    split at h
    · rename_i s' hs'
      cases Out.pure_ok h
      exact ⟨rfl, addLimit_did hs', rfl, by simp [ModEff.saves]⟩
    · cases h
    · cases h
  | insertId hw hn hx =>
    rw [fields_words hw] at h
    dsimp only at h
    rw [trim_named hn (by decide) (by decide) (by decide)] at h
    rw [if_neg (by decide), if_neg (by decide), if_neg (by decide), if_neg (by decide), if_pos rfl] at h
    split at h
    · cases h
    · obtain ⟨w', hw', h⟩ := Out.bind_ok h
      cases hw'
      obtain ⟨⟨f2, k⟩, h2, h⟩ := Out.bind_ok h
      cases Out.pure_ok h
      have hk := column_name h2
      rw [colName_names hx (words_space hw _ (by simp))] at hk
      subst hk
      refine ⟨rfl, rfl, column_data h2, ?_⟩
      intro i x hi
      cases i with
      | zero =>
        simp only [ModEff.saves, List.getElem?_cons_zero, Option.some.injEq] at hi
        subst hi
        exact column_is h2
      | succ i => simp [ModEff.saves] at hi
  | columns hw hn hx =>
    rw [fields_words hw] at h
    dsimp only at h
    rw [trim_named hn (by decide) (by decide) (by decide)] at h
    rw [if_neg (by decide), if_neg (by decide), if_neg (by decide), if_neg (by decide),
      if_neg (by decide), if_pos rfl] at h
    obtain ⟨⟨f2, ks⟩, h2, h⟩ := Out.bind_ok h
    cases Out.pure_ok h
    obtain ⟨e1, e2, e3⟩ := columns_are h2
    rw [forall2_colName hx (fun w hw' => words_space hw w (by simp [hw']))] at e1
    subst e1
    refine ⟨rfl, rfl, e2, fun i x hi => ?_⟩
    have := e3 i x hi
    rwa [Nat.zero_add] at this
  | once hw hn hx =>
    rw [fields_words hw] at h
    dsimp only at h
    rw [trim_named hn (by decide) (by decide) (by decide)] at h
    rw [if_neg (by decide), if_neg (by decide), if_neg (by decide), if_neg (by decide),
      if_neg (by decide), if_neg (by decide), if_pos rfl] at h
    simp only [field1, bind, Out.bind, parseInt64_numeral hx (by decide), Out.ofOption] at h
    rw [if_neg (by decide), if_pos (by decide)] at h
    cases Out.pure_ok h
    exact ⟨rfl, rfl, rfl, by simp [ModEff.saves]⟩

/-! ### All modifiers of a statement -/

/-- The statement after the modifiers. -/
structure Asked (effs : List ModEff) (s s1 : Stmt) : Prop where
  prepare : s1.prepare = (s.prepare || decide (ModEff.prepare ∈ effs))
  idle : s1.idle = (effs.filterMap ModEff.idle?).getLastD s.idle
  insertId : s1.insertId = (effs.filterMap ModEff.insertId?).getLastD s.insertId
  outputs : s1.outputs = s.outputs ++ effs.flatMap ModEff.saves
  limit : limitOf s.limit (effs.filterMap ModEff.limit?) = .ok s1.limit
  rest : s1.trx = s.trx ∧ s1.prepareMulti = s.prepareMulti

theorem Asked.cons {e : ModEff} {es : List ModEff} {s s1 s2 : Stmt} (h : e.Did s s1)
    (h' : Asked es s1 s2) : Asked (e :: es) s s2 := by
  have hl : ∀ {α : Type} (a b : α) (l : List α), (a :: l).getLastD b = l.getLastD a := by
    intro α a b l; cases l <;> rfl
  cases e with
  | prepare =>
    have h : s1 = _ := h
    subst h
    exact ⟨by rw [h'.prepare]; simp, h'.idle, h'.insertId, h'.outputs, h'.limit, h'.rest⟩
  | idle d =>
    have h : s1 = _ := h
    subst h
    refine ⟨by rw [h'.prepare]; simp, ?_, h'.insertId, h'.outputs, h'.limit, h'.rest⟩
    rw [h'.idle]
    exact (hl d s.idle _).symm
  | limit m =>
    obtain ⟨l, h1, rfl⟩ := h
    refine ⟨by rw [h'.prepare]; simp, h'.idle, h'.insertId, h'.outputs, ?_, h'.rest⟩
    show limitOf s.limit (m :: es.filterMap ModEff.limit?) = _
    rw [limitOf, h1]
    exact h'.limit
  | insertId c =>
    have h : s1 = _ := h
    subst h
    refine ⟨by rw [h'.prepare]; simp, h'.idle, ?_, ?_, h'.limit, h'.rest⟩
    · rw [h'.insertId]
      exact (hl c s.insertId _).symm
    · rw [h'.outputs, List.flatMap_cons, List.append_assoc]; rfl
  | columns cs =>
    have h : s1 = _ := h
    subst h
    refine ⟨by rw [h'.prepare]; simp, h'.idle, h'.insertId, ?_, h'.limit, h'.rest⟩
    rw [h'.outputs, List.flatMap_cons, List.append_assoc]; rfl
  | once =>
    have h : s1 = _ := h
    subst h
    exact ⟨by rw [h'.prepare]; simp, h'.idle, h'.insertId, h'.outputs, h'.limit, h'.rest⟩

theorem modLoop_means {env : TrxEnv} {mods : List Text} {effs : List ModEff}
    (hm : List.Forall₂ (Means env) mods effs) : ∀ {f f1 : FileSt} {s s1 : Stmt} {c : Option Nat},
    modLoop env f s mods = .ok (f1, s1, c) →
    c = none ∧ Asked effs s s1 ∧ f1.data = f.data ∧
      ∀ e ∈ effs, ∀ i x, e.saves[i]? = some x → IsColumn env f f1 i x := by
  induction hm with
  | nil =>
    intro f f1 s s1 c h
    cases h
    exact ⟨rfl, ⟨by simp, rfl, rfl, by simp, rfl, rfl, rfl⟩, rfl, by simp⟩
  | cons he _ ih =>
    intro f f1 s s1 c h
    obtain ⟨⟨f2, s2, c2⟩, h1, h⟩ := Out.bind_ok h
    obtain ⟨rfl, a2, a3, a4⟩ := modStep_means he h1
    dsimp only at h
    obtain ⟨b1, b2, b3, b4⟩ := ih h
    refine ⟨b1, .cons a2 b2, b3.trans a3, ?_⟩
    intro e hmem i x hx
    rcases List.mem_cons.mp hmem with rfl | hmem
    · exact (a4 i x hx).later (.refl _) rfl (modLoop_frame h)
    · exact (b4 e hmem i x hx).later (modStep_frame h1) a3 (.refl _)

theorem finish_keeps {env : TrxEnv} {f f1 : FileSt} {s s1 : Stmt} {q : Text}
    (h : finish env f s q = .ok (f1, s1)) :
    s1.idle = s.idle ∧ s1.insertId = s.insertId ∧ s1.limit = s.limit ∧ s1.trx = s.trx := by
  unfold finish at h
  dsimp only at h
  obtain ⟨⟨d, q2⟩, -, h⟩ := Out.bind_ok h
  dsimp only at h
  split at h
  · cases Out.pure_ok h; exact ⟨rfl, rfl, rfl, rfl⟩
  · obtain ⟨⟨f2, fm⟩, -, h⟩ := Out.bind_ok h
    cases Out.pure_ok h; exact ⟨rfl, rfl, rfl, rfl⟩

theorem statements_means {env : TrxEnv} {f f1 : FileSt} {ss : List Stmt} {effs : List ModEff}
    (hm : List.Forall₂ (Means env) f.mods effs) (h : f.statements env = .ok (f1, ss)) :
    ∃ s, ss = [s] ∧ Asked effs (classify env.trx (trimSpace f.str)) s ∧
      ∀ e ∈ effs, ∀ i x, e.saves[i]? = some x →
        IsColumn env { f with stmtNo := f.stmtNo + 1 } f1 i x := by
  unfold FileSt.statements statements at h
  obtain ⟨⟨f2, s2, c⟩, h1, h⟩ := Out.bind_ok h
  obtain ⟨rfl, a2, a3, a4⟩ := modLoop_means hm h1
  dsimp only at h
  obtain ⟨⟨f3, s3⟩, h2, h⟩ := Out.bind_ok h
  cases Out.pure_ok h
  obtain ⟨b1, b2, b3, b4⟩ := finish_keeps h2
  obtain ⟨d1, d2, d3, d4⟩ := finish_multi h2
  refine ⟨s3, rfl, ⟨by rw [d2, a2.prepare], by rw [b1, a2.idle], by rw [b2, a2.insertId],
    by rw [d4, a2.outputs], by rw [b3, a2.limit], by rw [b4, a2.rest.1], by rw [d1, a2.rest.2]⟩, ?_⟩
  intro e he i x hx
  exact (a4 e he i x hx).later ⟨rfl, rfl, rfl, rfl, rfl, rfl, rfl, fun _ _ h => h⟩ rfl (finish_frame h2)

/-! ### The theorems -/

/-- **C120.** A statement whose modifiers are all well-formed, with the meanings `effs`, is loaded as
one statement that
* is prepared iff a modifier asks for it,
* idles for the duration of the last `idle` (0: it does not idle),
* saves the insert id in the column of the last `save-insert-id`,
* saves the columns that the modifiers name, in the order written.

Partial: modifiers with too many words are not refused (`C120_extra_words_false`), and with too few
they crash the program (`C120_missing_word_false`). For limits see `C120_limits_partial`. -/
theorem C120_modifiers_partial (env : TrxEnv) (f f' : FileSt) (ss : List Stmt) (effs : List ModEff)
    (hm : List.Forall₂ (Means env) f.mods effs) (h : f.statements env = .ok (f', ss)) :
    ∃ s, ss = [s] ∧ s.trx = env.trx ∧ s.prepareMulti = 0 ∧
      (s.prepare = true ↔ ModEff.prepare ∈ effs) ∧
      s.idle = (effs.filterMap ModEff.idle?).getLastD 0 ∧
      s.insertId = (effs.filterMap ModEff.insertId?).getLastD "" ∧
      s.outputs = effs.flatMap ModEff.saves := by
  obtain ⟨s, rfl, ha, -⟩ := statements_means hm h
  refine ⟨s, rfl, ha.rest.1, ha.rest.2, ?_, ha.idle, ha.insertId, ha.outputs⟩
  rw [ha.prepare]
  simp [classify]

/-- **C120.** The limit of such a statement consists of exactly the limits that its modifiers ask
for, in order: `rows: max [offset]`, `table-size: table max`, `database-size: database max`. Without
such a modifier it has none.

Partial: for positive values, see C23. -/
theorem C120_limits_partial (env : TrxEnv) (f f' : FileSt) (ss : List Stmt) (effs : List ModEff)
    (hm : List.Forall₂ (Means env) f.mods effs) (h : f.statements env = .ok (f', ss))
    (hpos : ∀ m ∈ effs.filterMap ModEff.limit?, m.Positive) :
    ∃ s, ss = [s] ∧ (effs.filterMap ModEff.limit? = [] → s.limit = none) ∧
      (effs.filterMap ModEff.limit? ≠ [] → ∃ l : Lim, s.limit = some l ∧
        l.leaves = some ((effs.filterMap ModEff.limit?).map LimitMod.leaf)) := by
  obtain ⟨s, rfl, ha, -⟩ := statements_means hm h
  have hl : limitOf none (effs.filterMap ModEff.limit?) = .ok s.limit := ha.limit
  refine ⟨s, rfl, fun h0 => ?_, fun hne => ?_⟩
  · rw [h0] at hl; exact (Res.ok.inj hl).symm
  · obtain ⟨l, h1, h2⟩ := C23_modifiers_combine_partial _ hne hpos
    rw [hl] at h1
    exact ⟨l, Res.ok.inj h1, h2⟩

/-- **C120.** A column that a modifier saves is new, and from then on it is known as the column with
its number in the modifier, of this trx and statement, with the scope configured for its data key
(default: trx). -/
theorem C120_saved_columns_known (env : TrxEnv) (f f' : FileSt) (ss : List Stmt)
    (effs : List ModEff) (hm : List.Forall₂ (Means env) f.mods effs)
    (h : f.statements env = .ok (f', ss)) :
    ∀ e ∈ effs, ∀ (i : Nat) (c : String), e.saves[i]? = some c → c ≠ "_" →
      f.keys c = none ∧ ∃ k, f'.keys c = some k ∧ k.name = c ∧ k.column = i ∧ k.trx = env.trx ∧
        k.statement = f.stmtNo + 1 ∧ k.scope = ((f.data (cfgKey c.toList)).map (·.scope)).getD "trx" := by
  obtain ⟨s, -, -, hc⟩ := statements_means hm h
  intro e he i c hi hne
  exact (hc e he i c hi).resolve_left hne

/-- The names of all modifiers. -/
def modNames : List String :=
  ["prepare", "prepared", "idle", "rows", "table-size", "database-size", "save-insert-id",
    "save-columns", "copies"]

/-- **C120.** A statement with a modifier that is blank or whose name is none of the known ones is not
accepted, unless a `copies` modifier comes before it. -/
theorem C120_unknown_refused (env : TrxEnv) (f : FileSt) (a b : List Text) (m : Text)
    (hmods : f.mods = a ++ m :: b) (ha : ∀ x ∈ a, modName x ≠ some "copies".toList)
    (hm : Words m [] ∨ ∃ w ws, Words m (w :: ws) ∧ ∀ n ∈ modNames, trim (· == ':') w ≠ n.toList) :
    ∀ f' ss, f.statements env ≠ .ok (f', ss) := by
  intro f' ss h
  unfold FileSt.statements statements at h
  obtain ⟨⟨f2, s2, c⟩, h1, -⟩ := Out.bind_ok h
  dsimp only at h1
  rw [hmods] at h1
  obtain ⟨f3, s3, -, h2⟩ := modLoop_append (fun x hx => cOf_other (ha x hx)) h1
  obtain ⟨⟨f4, s4, c4⟩, h3, -⟩ := Out.bind_ok h2
  unfold modStep at h3
  rcases hm with hm | ⟨w, ws, hm, hn⟩
  · rw [fields_words hm] at h3; cases h3
  · rw [fields_words hm] at h3
    dsimp only at h3
    have hno : ∀ n, n ∈ modNames → trim (· == ':') w ≠ n.toList := hn
    rw [if_neg (by
        rintro (h | h)
        · exact hno "prepare" (by decide) h
        · exact hno "prepared" (by decide) h),
      if_neg (hno "idle" (by decide)), if_neg (hno "rows" (by decide)),
      if_neg (by
        rintro (h | h)
        · exact hno "table-size" (by decide) h
        · exact hno "database-size" (by decide) h),
      if_neg (hno "save-insert-id" (by decide)), if_neg (hno "save-columns" (by decide)),
      if_neg (hno "copies" (by decide))] at h3
    cases h3

/-- What is seen of the modifiers in a loaded statement. -/
def shownMods : Out (FileSt × List Stmt) → Option (List (Bool × Int × String × List String))
  | .ok (_, ss) => some (ss.map fun s => (s.prepare, s.idle, s.insertId, s.outputs))
  | _ => none

/-- The row limits (maximum and offset) of the loaded statements. -/
def shownRows : Out (FileSt × List Stmt) → List (Int × Int)
  | .ok (_, ss) => ss.flatMap fun s => match s.limit with
    | some (.rows (some r)) => [(r.max, r.n)]
    | _ => []
  | _ => []

/-- **C120 is false for modifiers with too many words**: they are accepted, what follows is ignored.
`prepare: no` prepares, and a third word after `rows: max offset` makes the offset disappear. -/
theorem C120_extra_words_false :
    shownMods (FileSt.statements demoEnv { demoFile with
      mods := ["prepare: no".toList], str := "SELECT 1 ".toList }) = some [(true, 0, "", [])] ∧
    shownRows (FileSt.statements demoEnv { demoFile with
      mods := ["rows: 100 40".toList], str := "INSERT 1 ".toList }) = [(100, 40)] ∧
    shownRows (FileSt.statements demoEnv { demoFile with
      mods := ["rows: 100 40 rows".toList], str := "INSERT 1 ".toList }) = [(100, 0)] :=
  ⟨by decide +kernel, by decide +kernel, by decide +kernel⟩

/-- **C120 is false for modifiers with too few words**: `rows:`, `idle:` and
`copies:` without a value crash the program (index out of range). -/
theorem C120_missing_word_false (env : TrxEnv) (f : FileSt) (name : String)
    (hn : name ∈ ["rows", "idle", "copies"]) (b : List Text)
    (hmods : f.mods = (name.toList ++ [':']) :: b) : f.statements env = .panic := by
  have hstep : ∀ (f : FileSt) (s : Stmt), modStep env f s (name.toList ++ [':']) = .panic := by
    intro f s
    have hall : name = "rows" ∨ name = "idle" ∨ name = "copies" := by simpa using hn
    unfold modStep
    rcases hall with rfl | rfl | rfl <;> rfl
  unfold FileSt.statements statements
  dsimp only
  rw [hmods]
  simp only [modLoop, hstep]
  rfl

/-- A file that waits and saves. -/
def exModsEnv : TrxEnv := { demoEnv with
  duration := fun t => if t = "1s".toList then some 1000000000 else none
  bytes := fun t => if t = "1MB".toList then some 1000000 else none }

/-- Well-formed modifiers and their meaning. -/
example : List.Forall₂ (Means exModsEnv)
    ["prepare".toList, "rows: 100 40".toList, "table-size: t 1MB".toList, "save-insert-id: @c".toList]
    [.prepare, .limit (.rows 100 40), .limit (.tableSize "t" 1000000), .insertId "@c"] := by
  have hw : ∀ m : Text, Words m (fields m) := words_exist
  have named : ∀ n : String, Named n.toList n := fun n => ⟨[], [], by simp, by simp, by simp⟩
  have colon : ∀ n : String, Named (n.toList ++ [':']) n :=
    fun n => ⟨[], [':'], by simp, by simp, by simp⟩
  refine .cons (.prepare (hw _) (Or.inl (named "prepare"))) (.cons ?_ (.cons ?_ (.cons ?_ .nil)))
  · exact .rowsFrom (hw _) (colon "rows") (x := "100".toList) (y := "40".toList)
      ⟨by decide, by decide, by decide, by decide⟩ ⟨by decide, by decide, by decide, by decide⟩
  · exact .tableSize (hw _) (colon "table-size") (x := "t".toList) (y := "1MB".toList) (by decide)
  · exact .insertId (hw _) (colon "save-insert-id") (x := "@c".toList)
      (Or.inr ⟨by decide, by decide⟩)

/-- ... and the statement that is loaded with them. -/
example : shownMods (FileSt.statements exModsEnv { demoFile with
      mods := ["prepare".toList, "rows: 100 40".toList, "table-size: t 1MB".toList,
        "save-insert-id: @c".toList, "idle: 1s".toList]
      str := "INSERT INTO t VALUES (@d) ".toList }) = some [(true, 1000000000, "@c", ["@c"])] := by
  decide +kernel

/-- An unknown modifier. -/
example : Words "row: 7".toList ["row:".toList, "7".toList] ∧
    ∀ n ∈ modNames, trim (· == ':') "row:".toList ≠ n.toList :=
  ⟨words_exist _, by decide +kernel⟩

end Finch
