import Verif.Model.Sql
import Verif.Props.Gen
import Verif.Props.TrxFormat
import Verif.Props.Values
/-!
# C109: the SQL text that MySQL gets

For a statement that is not prepared, the text sent is the query of the trx file with every data key
replaced by its value.
-/
namespace Finch

/-- Spec: does a generator put its values in quotes. Strings and ids are quoted, numbers are not,
columns as configured. -/
def Gen.quotes : Gen → Bool
  | .strFill _ => true
  | .xid => true
  | .column g => g.quoteValue
  | _ => false

/-- Spec: a value in an SQL statement: a number in decimal, a string as it is; in single quotes if the
generator says so. -/
def sqlLit (quotes : Bool) (v : GoVal) : Text :=
  let t := match v with
    | .num _ n => (toString n).toList
    | .str s => s
    | .nil => "<nil>".toList
  if quotes then '\'' :: t ++ ['\''] else t

/-- Does a placeholder have quotes. -/
def quotedFmt (fmt : Text) : Bool := fmt.head? == some '\''

theorem decInt_toString (n : Int) : decInt n = (toString n).toList := by
  cases n with
  | ofNat n =>
    have h : ¬ (Int.ofNat n < 0) := by simp
    simp only [decInt, h, if_false]
    rfl
  | negSucc n =>
    have h : Int.negSucc n < 0 := Int.negSucc_lt_zero n
    simp only [decInt, h, if_true]
    show _ = ("-" ++ Nat.repr (n + 1)).toList
    rw [String.toList_append]
    rfl

theorem goSprintf_fillIn (o : FmtOther) : ∀ (ts : List Tok) (fmts : List Text) (vals : List GoVal),
    (∀ c, Tok.lit c ∈ ts → c ≠ '%') → (tokKeys ts).length = fmts.length → List.Forall₂ Fits fmts vals →
    goSprintfAux o false (fillIn ts fmts) vals =
      fillIn ts (List.zipWith (fun f v => sqlLit (quotedFmt f) v) fmts vals) := by
  intro ts
  induction ts with
  | nil =>
    intro fmts vals _ hl h
    have : fmts = [] := by simpa [tokKeys] using hl.symm
    subst this
    cases h
    rfl
  | cons t ts ih =>
    intro fmts vals hc hl h
    cases t with
    | lit c =>
      have hne := hc c (by simp)
      have := ih fmts vals (fun d hd => hc d (by simp [hd])) (by simpa [tokKeys] using hl) h
      simp [fillIn, goSprintfAux, hne, this]
    | key n b =>
      cases h with
      | nil => simp [tokKeys] at hl
      | @cons f v fs vs hf hfs =>
        have := ih fs vs (fun d hd => hc d (by simp [hd])) (by simpa [tokKeys] using hl) hfs
        rcases hf with ⟨rfl, t, m, rfl⟩ | ⟨rfl, s, rfl⟩ | ⟨rfl | rfl, hn⟩
        · simp [fillIn, goSprintfAux, isFmtFlag, verbText, sqlLit, quotedFmt, this, decInt_toString]
        · simp [fillIn, goSprintfAux, isFmtFlag, verbText, sqlLit, quotedFmt, this]
        · cases v with
          | nil => exact absurd rfl hn
          | num t m =>
            simp [fillIn, goSprintfAux, isFmtFlag, verbText, goText, sqlLit, quotedFmt, this,
              decInt_toString]
          | str s => simp [fillIn, goSprintfAux, isFmtFlag, verbText, goText, sqlLit, quotedFmt, this]
        · cases v with
          | nil => exact absurd rfl hn
          | num t m =>
            simp [fillIn, goSprintfAux, isFmtFlag, verbText, goText, sqlLit, quotedFmt, this,
              decInt_toString]
          | str s => simp [fillIn, goSprintfAux, isFmtFlag, verbText, goText, sqlLit, quotedFmt, this]

theorem withBefore_getElem? (ns : List Text) : ∀ (b : List Text) (i : Nat),
    (withBefore b ns)[i]? = (ns[i]?).map fun n => (b ++ ns.take i, n) := by
  induction ns with
  | nil => intro b i; simp [withBefore]
  | cons n ns ih =>
    intro b i
    cases i with
    | zero => simp [withBefore]
    | succ i => simp [withBefore, ih, List.append_assoc]

/-- The last key up to placeholder `i` is key number `keyOf`. -/
theorem keyOf_find {ns : List String} {i : Nat} {p : String}
    (h : (ns.take (i + 1)).reverse.find? (fun x => x ≠ "@PREV") = some p) :
    (ns.filter (· ≠ "@PREV"))[keyOf ns i]? = some p := by
  rw [← List.head?_filter, List.filter_reverse, List.head?_reverse, List.getLast?_eq_getElem?] at h
  unfold keyOf
  have hsplit : ns.filter (· ≠ "@PREV") = (ns.take (i + 1)).filter (· ≠ "@PREV") ++
      (ns.drop (i + 1)).filter (· ≠ "@PREV") := by
    rw [← List.filter_append, List.take_append_drop]
  rw [hsplit, List.getElem?_append_left]
  · exact h
  · exact (List.getElem?_eq_some_iff.1 h).1

theorem keyOf_lt {ns : List String} (h0 : ns.head? ≠ some "@PREV") {i : Nat} (hi : i < ns.length) :
    ∃ p, (ns.filter (· ≠ "@PREV"))[keyOf ns i]? = some p ∧
      (ns.take (i + 1)).reverse.find? (fun x => x ≠ "@PREV") = some p := by
  cases ns with
  | nil => simp at hi
  | cons n ns =>
    have hn : n ≠ "@PREV" := fun h => h0 (by simp [h])
    cases h : ((n :: ns).take (i + 1)).reverse.find? (fun x => x ≠ "@PREV") with
    | none =>
      rw [List.find?_eq_none] at h
      have := h n (by simp)
      simp [hn] at this
    | some p => exact ⟨p, keyOf_find h, rfl⟩

theorem ofList_eq_iff {a : Text} {s : String} : String.ofList a = s ↔ a = s.toList := by
  constructor
  · rintro rfl; simp
  · rintro rfl; simp

theorem find_map_ofList (l : List Text) :
    (l.map String.ofList).find? (fun x => x ≠ "@PREV") =
      (l.find? fun x => x ≠ "@PREV".toList).map String.ofList := by
  induction l with
  | nil => rfl
  | cons a l ih =>
    by_cases h : a = "@PREV".toList
    · have : String.ofList a = "@PREV" := ofList_eq_iff.2 h
      rw [List.map_cons, List.find?_cons_of_neg (by simp [this]), List.find?_cons_of_neg (by simp [h])]
      exact ih
    · have : String.ofList a ≠ "@PREV" := fun e => h (ofList_eq_iff.1 e)
      rw [List.map_cons, List.find?_cons_of_pos (by simp [this]),
        List.find?_cons_of_pos (by simpa using h)]
      rfl

/-- The placeholder of `OwnFmt` is that of key number `keyOf`. -/
theorem OwnFmt.key {keys : GoMap String TKey} {ns : List Text} {i : Nat} {bn : List Text × Text}
    {x : Text} (hw : (withBefore [] ns)[i]? = some bn) (hsv : ¬ isSaved keys "@PREV".toList)
    (ho : OwnFmt keys bn.1 bn.2 x) :
    ∃ p k, ((ns.map String.ofList).filter (· ≠ "@PREV"))[keyOf (ns.map String.ofList) i]? = some p ∧
      keys p = some k ∧ x = k.gen.fmt := by
  rw [withBefore_getElem?, Option.map_eq_some_iff] at hw
  obtain ⟨n, hn, rfl⟩ := hw
  have htake : ((ns.map String.ofList).take (i + 1)).reverse =
      ((n :: (ns.take i).reverse)).map String.ofList := by
    rw [← List.map_take, List.take_add_one, hn, ← List.map_reverse]
    simp
  rcases ho with ⟨hp, -, p, k, hb, hk, hx⟩ | ⟨hp, k, hk, hx⟩
  · refine ⟨String.ofList p, k, ?_, hk, hx⟩
    apply keyOf_find
    simp only [List.nil_append] at hb hp
    rw [htake, find_map_ofList, List.find?_cons_of_neg (by simp [hp]), hb]
    rfl
  · have hne : n ≠ "@PREV".toList := by
      intro e
      apply hsv
      have := hp e
      rwa [← e]
    refine ⟨String.ofList n, k, ?_, hk, hx⟩
    apply keyOf_find
    rw [htake, find_map_ofList, List.find?_cons_of_pos (by simpa using hne)]
    rfl

theorem prevAfter_length (ns : List String) :
    (prevAfter ns).length = (ns.filter (· ≠ "@PREV")).length := by
  induction ns with
  | nil => rfl
  | cons n ns ih =>
    by_cases h : n = "@PREV"
    · simp [prevAfter, h, ih]
    · simp [prevAfter, h, ih]

theorem quotedFmt_info {env : GenEnv} {g0 g : Gen} {name : String} {p : Params}
    (hm : builtinGen env name p = some g0) (hr : GenReach env g0 g) :
    quotedFmt g0.info.fmt = g.quotes := by
  have h := (SameGen.of_make hm).reach hr
  cases h <;> simp_all [Gen.info, Gen.format, quotedFmt, Gen.quotes]
  split <;> simp_all

/-- What the client does for one data key of a statement: `g` is the generator it calls, which comes
from one made for the key, and `v` are the values it returns (now or, by its scope, earlier). No value
is nil. -/
def KeyCall (env : GenEnv) (keys : GoMap String TKey) (key : String) (g : Gen) (v : List GoVal) :
    Prop :=
  ∃ k name p g0 d g', keys key = some k ∧ builtinGen env name p = some g0 ∧ k.gen = g0.info ∧
    GenReach env g0 g ∧ g.values env d = .vals g' v ∧ GoVal.nil ∉ v

/-- **C109 (partial).** The text MySQL gets for a statement that is not prepared is the query of the trx
file (after the copy-number and csv substitutions) in which every data key is replaced by its value and
nothing else is changed: key number `j` by the first value of its generator, each `@PREV` after it by
the next value. Numbers are in decimal, strings as they are, in quotes if the generator quotes.

Partial: the query has no percent sign (`C109_percent_false`, `C109_percent_key_false`), no value is nil
(`C109_nil_false`), every key is followed by one `@PREV` less than it has values
(`C109_extra_value_false`), and the
conditions of `C36_own_placeholders_partial`. A quote within a string ends it (`C109_quote_false`). -/
theorem C109_text_partial (o : FmtOther) (ge : GenEnv) (env : TrxEnv) (f f' : FileSt) (s s' : Stmt)
    (query : Text) (data : GoMap String DataCfg) (ts : List Tok) (hts : Proper ts)
    (hs : s.inputs = [] ∧ s.calls = [])
    (hq : expandCsv env f.data (replaceAll copyNumber (decimal f.copyNo) query) =
      .ok (data, render ts))
    (hfin : finish env f s query = .ok (f', s'))
    (horder : ∀ l, (env.repOrder l).Perm l)
    (hpf : PrefixFree (keyNames ts))
    (hprev : ∀ b1 b2 x1 x2, (b1, "@PREV".toList) ∈ withBefore [] (keyNames ts) →
      (b2, "@PREV".toList) ∈ withBefore [] (keyNames ts) →
      OwnFmt f'.keys b1 "@PREV".toList x1 → OwnFmt f'.keys b2 "@PREV".toList x2 → x1 = x2)
    (hsaved : ¬ isSaved f'.keys "@PREV".toList)
    (hprep : s.prepare = false)
    (hpct : ∀ c, Tok.lit c ∈ ts → c ≠ '%')
    (gs : List Gen) (vs : List (List GoVal)) (old : List GoVal)
    (hold : old.length = s'.inputs.length)
    (hgs : gs.length = (s'.inputs.filter (· ≠ "@PREV")).length)
    (hvs : vs.length = gs.length)
    (hcall : ∀ (j : Nat) (key : String) (g : Gen) (v : List GoVal), (s'.inputs.filter (· ≠ "@PREV"))[j]? = some key → gs[j]? = some g →
      vs[j]? = some v → KeyCall ge f'.keys key g v)
    (hn : ∀ (j : Nat) (key : String) (k : TKey), (s'.inputs.filter (· ≠ "@PREV"))[j]? = some key → f'.keys key = some k →
      (prevAfter s'.inputs)[j]?.map (· + 1) = some k.gen.nVals) :
    ∃ lits : List Text, sentText o s' old vs = fillIn ts lits ∧ lits.length = (tokKeys ts).length ∧
      s'.inputs = (tokKeys ts).map (fun k => String.ofList k.1) ∧
      ∀ i, i < s'.inputs.length → ∃ g v x, gs[keyOf s'.inputs i]? = some g ∧
        vs[keyOf s'.inputs i]? = some v ∧ v[prevsTo s'.inputs i]? = some x ∧
        lits[i]? = some (sqlLit g.quotes x) := by
  obtain ⟨fmts, hquery, hlen, hown, hin, -⟩ := C36_own_placeholders_partial env f f' s s' query data ts
    hts hs hq hfin horder hpf (fun _ => hprev)
  simp only [hprep, Bool.false_eq_true, if_false] at hown
  have hkl : (keyNames ts).length = (tokKeys ts).length := by simp [keyNames]
  have hil : s'.inputs.length = fmts.length := by rw [hin, List.length_map, hlen]
  have hfmt : ∀ (i : Nat) (x : Text), fmts[i]? = some x →
      ∃ p k, (s'.inputs.filter (· ≠ "@PREV"))[keyOf s'.inputs i]? = some p ∧
        f'.keys p = some k ∧ x = k.gen.fmt := by
    intro i x hx
    have hi : i < (keyNames ts).length := by
      rw [← hlen]; exact (List.getElem?_eq_some_iff.1 hx).1
    have hw : (withBefore [] (keyNames ts))[i]? = some ((keyNames ts).take i, (keyNames ts)[i]) := by
      rw [withBefore_getElem?, List.getElem?_eq_getElem hi]; rfl
    have := OwnFmt.key hw hsaved (hown i _ x hw hx)
    rwa [← hin] at this
  have hfirst : s'.inputs.head? ≠ some "@PREV" := by
    intro h
    cases hf : fmts with
    | nil =>
      rw [hf] at hil
      have : s'.inputs = [] := List.length_eq_zero_iff.1 hil
      rw [this] at h; cases h
    | cons x xs =>
      have hx : fmts[0]? = some x := by rw [hf]; rfl
      have hi : 0 < (keyNames ts).length := by rw [← hlen, hf]; simp
      have hw : (withBefore [] (keyNames ts))[0]? = some ([], (keyNames ts)[0]) := by
        rw [withBefore_getElem?, List.getElem?_eq_getElem hi]; rfl
      have ho := hown 0 _ x hw hx
      have h0 : (keyNames ts)[0] = "@PREV".toList := by
        rw [hin, List.head?_map, List.head?_eq_getElem?, List.getElem?_eq_getElem hi,
          Option.map_some, Option.some.injEq] at h
        exact ofList_eq_iff.1 h
      rcases ho with ⟨-, -, p, k, hb, -⟩ | ⟨hp, -⟩
      · cases hb
      · exact hsaved (h0 ▸ hp h0)
  -- the number of values
  have hcount : vs.map List.length = (prevAfter s'.inputs).map (· + 1) := by
    apply List.ext_getElem?
    intro j
    rw [List.getElem?_map, List.getElem?_map]
    by_cases hj : j < vs.length
    · have hj2 : j < gs.length := by omega
      have hj3 : j < (s'.inputs.filter (· ≠ "@PREV")).length := by omega
      have hj4 : j < (prevAfter s'.inputs).length := by rw [prevAfter_length]; omega
      obtain ⟨k, name, p, g0, d, g', hk, hm, hi, hr, hv, -⟩ := hcall j _ _ _
        (List.getElem?_eq_getElem hj3) (List.getElem?_eq_getElem hj2) (List.getElem?_eq_getElem hj)
      have := hn j _ k (List.getElem?_eq_getElem hj3) hk
      rw [this, List.getElem?_eq_getElem hj, Option.map_some, (C110_values hm hr hv).1, hi]
      rfl
    · have hj4 : ¬ j < (prevAfter s'.inputs).length := by rw [prevAfter_length]; omega
      rw [List.getElem?_eq_none (by omega), List.getElem?_eq_none (by omega)]
      rfl
  obtain ⟨hvl, hval⟩ := C37_values_line_up s'.inputs old vs hold hfirst hcount
  have hkey : ∀ i, i < s'.inputs.length → ∃ g v x fm, gs[keyOf s'.inputs i]? = some g ∧
      vs[keyOf s'.inputs i]? = some v ∧ v[prevsTo s'.inputs i]? = some x ∧
      (fillValues old vs)[i]? = some x ∧ fmts[i]? = some fm ∧ Fits fm x ∧ quotedFmt fm = g.quotes := by
    intro i hi
    obtain ⟨v, x, h1, h2, h3⟩ := hval i hi
    have hx : fmts[i]? = some fmts[i] := List.getElem?_eq_getElem _
    obtain ⟨p, k, hp, hk, hfm⟩ := hfmt i _ hx
    have hj : keyOf s'.inputs i < gs.length := by
      rw [← hvs]; exact (List.getElem?_eq_some_iff.1 h1).1
    have hg : gs[keyOf s'.inputs i]? = some gs[keyOf s'.inputs i] := List.getElem?_eq_getElem hj
    obtain ⟨k', name, q, g0, d, g', hk', hm, hinf, hr, hv, hnil⟩ := hcall _ _ _ _ hp hg h1
    rw [hk, Option.some.injEq] at hk'
    subst hk'
    refine ⟨_, v, x, _, hg, h1, h2, h3, hx, ?_, ?_⟩
    · rw [hfm, hinf]
      rcases (C110_values hm hr hv).2 x (List.mem_of_getElem? h2) with h | ⟨-, h⟩
      · exact h
      · subst h; exact absurd (List.mem_of_getElem? h2) hnil
    · rw [hfm, hinf]; exact quotedFmt_info hm hr
  have hfits : List.Forall₂ Fits fmts (fillValues old vs) := by
    rw [List.forall₂_iff_get]
    refine ⟨by omega, ?_⟩
    intro i h1 h2
    obtain ⟨g, v, x, fm, -, -, -, h3, h4, h5, -⟩ := hkey i (by omega)
    rw [List.getElem?_eq_some_iff] at h3 h4
    obtain ⟨_, rfl⟩ := h3
    obtain ⟨_, rfl⟩ := h4
    exact h5
  refine ⟨List.zipWith (fun f v => sqlLit (quotedFmt f) v) fmts (fillValues old vs), ?_, ?_, ?_, ?_⟩
  · rw [sentText, goSprintf, hquery]
    exact goSprintf_fillIn o ts fmts _ hpct (by omega) hfits
  · rw [List.length_zipWith]; omega
  · rw [hin, keyNames, List.map_map]; rfl
  · intro i hi
    obtain ⟨g, v, x, fm, h1, h2, h3, h4, h5, -, h7⟩ := hkey i hi
    refine ⟨g, v, x, h1, h2, h3, ?_⟩
    rw [List.getElem?_zipWith, h5, h4]
    simp [h7]

/-- **C109.** A query without data keys and without percent sign is sent as it is in the trx file. -/
theorem C109_no_keys (o : FmtOther) (s : Stmt) (h : ∀ c ∈ s.query, c ≠ '%') :
    sentText o s [] [] = s.query := by
  show goSprintfAux o false s.query [] = s.query
  generalize s.query = q at *
  induction q with
  | nil => rfl
  | cons c q ih =>
    have hc := h c (by simp)
    simp [goSprintfAux, hc, ih fun d hd => h d (by simp [hd])]

/-- **C109.** Written twice, a percent sign is sent once; this is the only way to send one in a statement
that is not prepared. -/
theorem C109_double_percent (o : FmtOther) (s : Stmt) (ps : List Text)
    (h : ∀ p ∈ ps, ∀ c ∈ p, c ≠ '%') (hq : s.query = List.flatten (ps.map (· ++ ['%', '%']))) :
    sentText o s [] [] = List.flatten (ps.map (· ++ ['%'])) := by
  show goSprintfAux o false s.query [] = _
  rw [hq]
  clear hq
  have happ : ∀ (p q : Text), (∀ c ∈ p, c ≠ '%') →
      goSprintfAux o false (p ++ q) [] = p ++ goSprintfAux o false q [] := by
    intro p q hp
    induction p with
    | nil => rfl
    | cons c p ih =>
      have hc := hp c (by simp)
      simp [goSprintfAux, hc, ih fun d hd => hp d (by simp [hd])]
  induction ps with
  | nil => rfl
  | cons p ps ih =>
    simp only [List.map_cons, List.flatten_cons, List.append_assoc]
    rw [happ p _ (h p (by simp))]
    simp [goSprintfAux, ih fun q hq => h q (by simp [hq])]

/-! ### What is false -/

/-- The query and inputs of a parsed statement. -/
def partsOf : Out (FileSt × Stmt) → Option (Text × List String)
  | .ok (_, s) => some (s.query, s.inputs)
  | _ => none

/-- The text sent for a query of a trx file in the first execution, with the given values. -/
def textOf (o : FmtOther) (r : Out (FileSt × Stmt)) (vs : List (List GoVal)) : Option Text :=
  match r with
  | .ok (_, s) => some (sentText o s (s.inputs.map fun _ => .nil) vs)
  | _ => none

theorem textOf_parts {o : FmtOther} {r : Out (FileSt × Stmt)} {vs : List (List GoVal)} {q : Text}
    {ins : List String} (h : partsOf r = some (q, ins)) :
    textOf o r vs = some (goSprintf o q (fillValues (ins.map fun _ => .nil) vs)) := by
  cases r with
  | ok a =>
    obtain ⟨f, s⟩ := a
    simp only [partsOf, Option.some.injEq, Prod.mk.injEq] at h
    obtain ⟨rfl, rfl⟩ := h
    rfl
  | err => cases h
  | panic => cases h

/-- A percent sign in a trx file does not reach MySQL: `LIKE 'a%'`, in a statement without any data key,
is sent as `LIKE 'a%!'(MISSING)`, a different statement, and no error is reported. -/
theorem C109_percent_false (o : FmtOther) :
    textOf o (finish demoEnv demoFile (classify "t" []) "SELECT c FROM t WHERE c LIKE 'a%'".toList) [] =
      some "SELECT c FROM t WHERE c LIKE 'a%!'(MISSING)".toList := by
  have h : partsOf (finish demoEnv demoFile (classify "t" [])
      "SELECT c FROM t WHERE c LIKE 'a%'".toList) =
      some ("SELECT c FROM t WHERE c LIKE 'a%'".toList, []) := by decide +kernel
  rw [textOf_parts h]
  rfl

/-- A percent sign takes the value of a data key: the day of the month becomes the value of `@d` and
the value for `@d` is missing. -/
theorem C109_percent_key_false (o : FmtOther) :
    textOf o (finish demoEnv demoFile (classify "t" [])
      "SELECT date_format(c, '%d') FROM t WHERE id = @d".toList) [[goI64 7]] =
      some "SELECT date_format(c, '7') FROM t WHERE id = %!d(MISSING)".toList := by
  have h : partsOf (finish demoEnv demoFile (classify "t" [])
      "SELECT date_format(c, '%d') FROM t WHERE id = @d".toList) =
      some ("SELECT date_format(c, '%d') FROM t WHERE id = %d".toList, ["@d"]) := by decide +kernel
  rw [textOf_parts h]
  rfl

/-- A data key with two values that is not followed by `@PREV` gives its second value to the next key,
whose own value is dropped: `b = @d` is sent with the upper end of the range `@r`. -/
theorem C109_extra_value_false (o : FmtOther) :
    textOf o (finish demoEnv demoFile (classify "t" [])
      "SELECT c FROM t WHERE a > @r AND b = @d".toList) [[goI64 1, goI64 100], [goI64 7]] =
      some "SELECT c FROM t WHERE a > 1 AND b = 100".toList := by
  have h : partsOf (finish demoEnv demoFile (classify "t" [])
      "SELECT c FROM t WHERE a > @r AND b = @d".toList) =
      some ("SELECT c FROM t WHERE a > %d AND b = %d".toList, ["@r", "@d"]) := by decide +kernel
  rw [textOf_parts h]
  rfl

/-- A column that was not scanned (no row matched) or was NULL becomes `<nil>`. -/
theorem C109_nil_false (o : FmtOther) :
    ∃ g, builtinGen demoGenEnv "column" [] = some g ∧
      ∃ v, (∀ d, g.values demoGenEnv d = .vals g [v]) ∧
        goSprintf o ("SELECT c FROM t WHERE id = ".toList ++ g.format.2) [v] =
          "SELECT c FROM t WHERE id = <nil>".toList :=
  ⟨.column (newColumn []), rfl, .nil, fun _ => rfl, rfl⟩

/-- A quote within a string value is not escaped: it ends the string, and the rest of the value is
SQL. The column got these bytes from MySQL. -/
theorem C109_quote_false (o : FmtOther) :
    ∃ g, builtinGen demoGenEnv "column" [("quote-value".toList, "yes".toList)] = some g ∧
      ∃ g' v, g' = g.scan (fun _ => "' OR 'a'='a".toList.map Char.toNat) (.bytes 0) ∧
        (∀ d, g'.values demoGenEnv d = .vals g' [v]) ∧
        goSprintf o ("DELETE FROM t WHERE c = ".toList ++ g'.format.2) [v] =
          "DELETE FROM t WHERE c = '' OR 'a'='a'".toList := by
  refine ⟨.column (newColumn [("quote-value".toList, "yes".toList)]), by simp [builtinGen], _,
    .str "' OR 'a'='a".toList, rfl, fun _ => rfl, ?_⟩
  have h : (newColumn [("quote-value".toList, "yes".toList)]).quoteValue = true := by decide +kernel
  simp only [Gen.scan, Column.scan, Gen.format, h, if_true]
  rfl

/-! ### Example -/

/-- The built-in generators. -/
def demoSqlEnv : TrxEnv :=
  { demoEnv with make := fun g _ p => (builtinGen demoGenEnv g p).map Gen.info }

/-- `s` is an id, `r` a range of numbers. -/
def demoSqlFile : FileSt :=
  .new (fun n => if n = "s" then some ⟨"xid", "", []⟩ else if n = "r" then some ⟨"int-range", "", []⟩
    else none) GoMap.empty

/-- A query with an id, a range and its `@PREV`. -/
def demoSqlQuery : Text := "SELECT @s WHERE a BETWEEN @r AND @PREV".toList

/-- Inputs and generators of the parsed statement. -/
def demoSqlView (r : Out (FileSt × Stmt)) :
    Option (List String × Option GenInfo × Option GenInfo × Bool) :=
  match r with
  | .ok (f, s) => some (s.inputs, (f.keys "@s").map (·.gen), (f.keys "@r").map (·.gen),
      (f.keys "@PREV").isNone)
  | _ => none

/-- The hypotheses of C109 are met, and this is the text. -/
example (o : FmtOther) : ∃ f' s', finish demoSqlEnv demoSqlFile (classify "t" []) demoSqlQuery =
      .ok (f', s') ∧
    ∃ lits, sentText o s' [.nil, .nil, .nil] [[.str "cabc".toList], [goI64 1, goI64 100]] =
        fillIn (tokenize demoSqlQuery) lits ∧
      lits[0]? = some "'cabc'".toList ∧ lits[1]? = some "1".toList ∧ lits[2]? = some "100".toList ∧
      fillIn (tokenize demoSqlQuery) ["'cabc'".toList, "1".toList, "100".toList] =
        "SELECT 'cabc' WHERE a BETWEEN 1 AND 100".toList := by
  have hview : demoSqlView (finish demoSqlEnv demoSqlFile (classify "t" []) demoSqlQuery) =
      some (["@s", "@r", "@PREV"], some ⟨1, "'%s'".toList⟩, some ⟨2, "%d".toList⟩, true) := by
    decide +kernel
  have hk : keyNames (tokenize demoSqlQuery) = ["@s".toList, "@r".toList, "@PREV".toList] := by
    decide +kernel
  cases hf : finish demoSqlEnv demoSqlFile (classify "t" []) demoSqlQuery with
  | err => rw [hf] at hview; cases hview
  | panic => rw [hf] at hview; cases hview
  | ok a =>
    obtain ⟨f', s'⟩ := a
    rw [hf] at hview
    simp only [demoSqlView, Option.some.injEq, Prod.mk.injEq, Option.map_eq_some_iff,
      Option.isNone_iff_eq_none] at hview
    obtain ⟨hin, ⟨ks, hks, hgs⟩, ⟨kr, hkr, hgr⟩, hp⟩ := hview
    have hq : expandCsv demoSqlEnv demoSqlFile.data (replaceAll copyNumber (decimal demoSqlFile.copyNo)
        demoSqlQuery) = .ok (demoSqlFile.data, render (tokenize demoSqlQuery)) := by
      have h1 : replaceAll copyNumber (decimal demoSqlFile.copyNo) demoSqlQuery = demoSqlQuery := by
        decide +kernel
      have h2 : findCsv demoSqlQuery = none := by decide +kernel
      rw [h1, render_tokenize]
      unfold expandCsv
      rw [h2]
    have hfilter : s'.inputs.filter (· ≠ "@PREV") = ["@s", "@r"] := by rw [hin]; decide
    have hrange : newIntRange [] = some ⟨100, 1, 100000⟩ := by decide +kernel
    obtain ⟨lits, h1, h2, h3, h4⟩ := C109_text_partial o demoGenEnv demoSqlEnv demoSqlFile f'
      (classify "t" []) s' demoSqlQuery demoSqlFile.data (tokenize demoSqlQuery) (proper_tokenize _)
      ⟨rfl, rfl⟩ hq hf (fun l => List.Perm.refl l)
      (by rw [hk]; unfold PrefixFree; decide +kernel)
      (by
        intro b1 b2 x1 x2 m1 m2 o1 o2
        rw [hk] at m1 m2
        have e1 : b1 = ["@s".toList, "@r".toList] := by
          simp [withBefore] at m1; exact m1
        have e2 : b2 = ["@s".toList, "@r".toList] := by
          simp [withBefore] at m2; exact m2
        subst e1; subst e2
        exact OwnFmt.unique o1 o2)
      (by rintro ⟨k, h, -⟩; simp [hp] at h)
      rfl
      (by
        have h : ∀ t ∈ tokenize demoSqlQuery, t ≠ Tok.lit '%' := by decide +kernel
        rintro c hc rfl
        exact h _ hc rfl)
      [.xid, .range [] ⟨100, 1, 100000⟩] [[.str "cabc".toList], [goI64 1, goI64 100]] [.nil, .nil, .nil]
      (by rw [hin]; rfl) (by rw [hfilter]; rfl) rfl
      (by
        intro j key g v hj hg hv
        rw [hfilter] at hj
        match j with
        | 0 =>
          simp only [List.getElem?_cons_zero, Option.some.injEq] at hj hg hv
          subst hj; subst hg; subst hv
          exact ⟨ks, "xid", [], .xid, demoDraw, .xid, hks, rfl, hgs, .refl, rfl, by simp⟩
        | 1 =>
          simp only [List.getElem?_cons_succ, List.getElem?_cons_zero, Option.some.injEq] at hj hg hv
          subst hj; subst hg; subst hv
          exact ⟨kr, "int-range", [], .range [] ⟨100, 1, 100000⟩, { demoDraw with r := 0 }, _, hkr,
            by simp [builtinGen, hrange], hgr, .refl, rfl, by simp [goI64]⟩
        | j + 2 => simp at hj)
      (by
        intro j key k hj hk
        rw [hfilter] at hj
        match j with
        | 0 =>
          simp only [List.getElem?_cons_zero, Option.some.injEq] at hj
          subst hj
          rw [hks, Option.some.injEq] at hk
          subst hk
          rw [hin, hgs]; rfl
        | 1 =>
          simp only [List.getElem?_cons_succ, List.getElem?_cons_zero, Option.some.injEq] at hj
          subst hj
          rw [hkr, Option.some.injEq] at hk
          subst hk
          rw [hin, hgr]; rfl
        | j + 2 => simp at hj)
    refine ⟨f', s', rfl, lits, h1, ?_, ?_, ?_, by decide +kernel⟩
    · obtain ⟨g, v, x, e1, e2, e3, e4⟩ := h4 0 (by rw [hin]; decide)
      rw [hin] at e1 e2 e3
      cases e1; cases e2; cases e3
      exact e4
    · obtain ⟨g, v, x, e1, e2, e3, e4⟩ := h4 1 (by rw [hin]; decide)
      rw [hin] at e1 e2 e3
      cases e1; cases e2; cases e3
      exact e4
    · obtain ⟨g, v, x, e1, e2, e3, e4⟩ := h4 2 (by rw [hin]; decide)
      rw [hin] at e1 e2 e3
      cases e1; cases e2; cases e3
      exact e4

end Finch
