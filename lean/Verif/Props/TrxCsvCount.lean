import Verif.Props.TrxMods
import Verif.Props.TrxCsv
/-!
C34: the number in the csv comment is a decimal number of 31 bits.
-/
namespace Finch

/-- Spec: the number that decimal digits denote. -/
def decimalOf (ds : Text) : Nat := ds.foldl (fun n c => 10 * n + (c.toNat - '0'.toNat)) 0

theorem parseDigits32_decimal {ds : Text} (h0 : ds ≠ []) (h : ∀ c ∈ ds, '0' ≤ c ∧ c ≤ '9') :
    parseDigits32 ds = if decimalOf ds < 2 ^ 31 then some (decimalOf ds) else none := by
  have h1 := digitsVal_numeral ds h 0
  have h2 : parseUint64 ds = if decimalOf ds < 2 ^ 64 then some (decimalOf ds) else none := by
    unfold parseUint64
    cases ds with
    | nil => exact absurd rfl h0
    | cons a b => simp only [h1]; rfl
  unfold parseDigits32
  rw [h2]
  by_cases h3 : decimalOf ds < 2 ^ 31
  · rw [if_pos h3, if_pos (by omega)]; simp only [if_pos h3]
  · rw [if_neg h3]
    by_cases h4 : decimalOf ds < 2 ^ 64
    · rw [if_pos h4]; simp only [if_neg h3]
    · rw [if_neg h4]

theorem isDigit_range {c : Char} (h : '0' ≤ c ∧ c ≤ '9') : isDigit c = true := by
  unfold isDigit
  simpa using h

/-- **C34 (rows).** A query with the csv comment for a number and a template becomes the query with that many
comma-separated copies of the template in its place; all other text is unchanged. In each copy the first
occurrence of each row-scoped key is an explicit call (C35), otherwise the copies are the template.

Partial: it needs that no later comment end occurs in the query (`C34_later_comment_false`) and, as
C35, that no data key of the template is the beginning of another one. -/
theorem C34_csv_rows_partial (env : TrxEnv) (data : GoMap String DataCfg)
    (before sp1 ds sp2 t after : Text) (ts : List Tok)
    (h1 : sp1 ≠ [] ∧ ∀ c ∈ sp1, c ∈ ['\t', '\n', '\x0c', '\r', ' '])
    (h2 : ds ≠ [] ∧ ∀ c ∈ ds, '0' ≤ c ∧ c ≤ '9') (hN : decimalOf ds < 2 ^ 31)
    (h3 : sp2 ≠ [] ∧ ∀ c ∈ sp2, c ∈ ['\t', '\n', '\x0c', '\r', ' '])
    (h4 : t ≠ [] ∧ ∀ c ∈ t.head?, c ∉ ['\t', '\n', '\x0c', '\r', ' '])
    (h5 : ¬ ['*', '/'] <:+: after)
    (hfirst : ∀ i, i < before.length →
      ¬ "/*!csv".toList <+: (before ++ (csvMarker sp1 ds sp2 t ++ after)).drop i)
    (hts : Proper ts) (ht : trimSpace t = render ts)
    (hconf : ∀ k ∈ keyNames ts, (data (String.ofList k.tail)).isSome)
    (hpf : PrefixFree (keyNames ts)) (horder : ∀ l, (env.rowOrder l).Perm l) :
    ∃ data' rowKeys, (∀ k, k ∈ rowKeys ↔ k ∈ keyNames ts ∧ RowScoped data k) ∧
      expandCsv env data (before ++ (csvMarker sp1 ds sp2 t ++ after)) =
        .ok (data', before ++ join [',', ' '] (List.replicate (decimalOf ds)
          (render (markRows rowKeys [] ts))) ++ after) :=
  expandCsv_marker env data before sp1 ds sp2 t after (decimalOf ds) ts
    ⟨h1.1, fun c hc => (isReSpace_iff c).2 (h1.2 c hc)⟩ ⟨h2.1, fun c hc => isDigit_range (h2.2 c hc)⟩
    (by rw [parseDigits32_decimal h2.1 h2.2, if_pos hN])
    ⟨h3.1, fun c hc => (isReSpace_iff c).2 (h3.2 c hc)⟩
    ⟨h4.1, fun c hc => by
      cases hs : isReSpace c with
      | false => rfl
      | true => exact absurd ((isReSpace_iff c).1 hs) (h4.2 c hc)⟩ h5 hfirst hts ht hconf hpf horder

/-- **C34 (too many rows).** A query with the csv comment for a number of more than 31 bits is refused. -/
theorem C34_too_many_refused (env : TrxEnv) (data : GoMap String DataCfg) (before sp1 ds sp2 t after : Text)
    (h1 : sp1 ≠ [] ∧ ∀ c ∈ sp1, c ∈ ['\t', '\n', '\x0c', '\r', ' '])
    (h2 : ds ≠ [] ∧ ∀ c ∈ ds, '0' ≤ c ∧ c ≤ '9') (hN : 2 ^ 31 ≤ decimalOf ds)
    (h3 : sp2 ≠ [] ∧ ∀ c ∈ sp2, c ∈ ['\t', '\n', '\x0c', '\r', ' '])
    (h4 : t ≠ [] ∧ ∀ c ∈ t.head?, c ∉ ['\t', '\n', '\x0c', '\r', ' '])
    (h5 : ¬ ['*', '/'] <:+: after)
    (hfirst : ∀ i, i < before.length →
      ¬ "/*!csv".toList <+: (before ++ (csvMarker sp1 ds sp2 t ++ after)).drop i) :
    expandCsv env data (before ++ (csvMarker sp1 ds sp2 t ++ after)) = .err := by
  unfold expandCsv
  rw [findCsv_marker hfirst (csvAt_marker
    ⟨h1.1, fun c hc => (isReSpace_iff c).2 (h1.2 c hc)⟩ ⟨h2.1, fun c hc => isDigit_range (h2.2 c hc)⟩
    ⟨h3.1, fun c hc => (isReSpace_iff c).2 (h3.2 c hc)⟩
    ⟨h4.1, fun c hc => by
      cases hs : isReSpace c with
      | false => rfl
      | true => exact absurd ((isReSpace_iff c).1 hs) (h4.2 c hc)⟩ h5)]
  simp only [bind, Out.bind, parseDigits32_decimal h2.1 h2.2, if_neg (Nat.not_lt.2 hN), Out.ofOption]

/-- The hypotheses of C34 are met: three rows. -/
example : ∃ data', expandCsv demoEnv demoData "INSERT INTO t VALUES /*!csv 03 (1, @d)*/ AS x".toList =
    .ok (data', "INSERT INTO t VALUES (1, @d()), (1, @d()), (1, @d()) AS x".toList) := by
  obtain ⟨data', rk, hrk, h⟩ := C34_csv_rows_partial demoEnv demoData "INSERT INTO t VALUES ".toList
    [' '] ['0', '3'] [' '] "(1, @d)".toList " AS x".toList (tokenize "(1, @d)".toList)
    (by decide +kernel) (by decide +kernel) (by decide +kernel) (by decide +kernel) (by decide +kernel)
    (by decide +kernel) (by decide +kernel) (proper_tokenize _)
    (by rw [render_tokenize]; decide +kernel) (by decide +kernel)
    (by unfold PrefixFree; decide +kernel) (fun l => List.Perm.refl l)
  refine ⟨data', h.trans ?_⟩
  rw [markRows_congr (b := ["@d".toList]) (fun k => by
    rw [hrk]
    constructor
    · rintro ⟨h, -⟩
      have hk : keyNames (tokenize "(1, @d)".toList) = ["@d".toList] := by decide +kernel
      rwa [hk] at h
    · intro h
      simp only [List.mem_singleton] at h
      subst h
      exact ⟨by decide +kernel, ⟨⟨"int", "", []⟩, by decide +kernel, Or.inl rfl⟩⟩)]
  exact congrArg (fun q => Out.ok (data', q)) (by decide +kernel)

/-- Three thousand million rows are refused. -/
example : expandCsv demoEnv demoData "INSERT INTO t VALUES /*!csv 3000000000 (1, @d)*/".toList = .err :=
  C34_too_many_refused demoEnv demoData "INSERT INTO t VALUES ".toList [' '] "3000000000".toList [' ']
    "(1, @d)".toList [] (by decide +kernel) (by decide +kernel) (by decide +kernel) (by decide +kernel)
    (by decide +kernel) (by decide +kernel) (by decide +kernel)

end Finch
