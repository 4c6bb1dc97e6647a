import Verif.Props.TrxMods
import Verif.Props.SizeText
/-!
C136 and C137 for the modifiers of statements.
-/
namespace Finch

/-- **C136** (idle). A statement with the modifier `idle` and a time that is written as numbers with units
idles for their sum. -/
theorem C136_idle_partial (env : TrxEnv) (he : env.duration = parseDuration) (f f' : FileSt) (ss : List Stmt)
    (m w : Text) (ps : List DurText) (hne : ps ≠ [])
    (hp : ∀ p ∈ ps, ∃ n, p.Ok n ∧ p.num * n ≤ 9223372036854775806)
    (hm : f.mods = [m]) (hw : Words m [w, ps.flatMap DurText.text]) (hn : Named w "idle")
    (h : f.statements env = .ok (f', ss)) :
    ∃ ws : List Nat,
      List.Forall₂ (fun p (w : Nat) => ∃ n, UnitNs p.unit n ∧ |(w : ℚ) - p.num * n| ≤ 101 / 100 ∧
        (p.frac = none → (w : ℚ) = p.num * n)) ps ws ∧
      (ws.sum < 2 ^ 63 → ∃ s, ss = [s] ∧ s.idle = ws.sum ∧ s.limit = none) := by
  obtain ⟨ws, h1, h2, -⟩ := C136_parts_partial ps hne hp
  refine ⟨ws, h1, fun hs => ?_⟩
  rw [if_pos hs] at h2
  have hmean : List.Forall₂ (Means env) f.mods [.idle (ws.sum : Int)] := by
    rw [hm]
    exact .cons (.idle hw hn (by rw [he]; exact h2)) .nil
  obtain ⟨s, e, -, -, -, hi, -⟩ := C120_modifiers_partial env f f' ss _ hmean h
  obtain ⟨s', e', hl, -⟩ := C120_limits_partial env f f' ss _ hmean h (by simp [ModEff.limit?])
  rw [e] at e'
  cases e'
  exact ⟨s, e, by simpa [ModEff.idle?] using hi, hl (by simp [ModEff.limit?])⟩

/-- **C137** (limits). A statement with the modifier `table-size` or `database-size` and a whole number of units has
a limit of exactly this number of bytes. -/
theorem C137_limit_partial (env : TrxEnv) (he : env.bytes = parseBytes) (f f' : FileSt) (ss : List Stmt)
    (m w x : Text) (p : SizeText) (n : Nat) (hp : p.Ok n) (hf : p.frac = none)
    (h53 : decFrom 0 p.int * n ≤ 2 ^ 53)
    (hm : f.mods = [m]) (hw : Words m [w, x, p.num ++ p.unit])
    (h : f.statements env = .ok (f', ss)) :
    (Named w "table-size" → ∃ s l, ss = [s] ∧ s.limit = some l ∧
      l.leaves = some [LimitMod.leaf (.tableSize (String.ofList x) (decFrom 0 p.int * n))]) ∧
    (Named w "database-size" → ∃ s l, ss = [s] ∧ s.limit = some l ∧
      l.leaves = some [LimitMod.leaf (.databaseSize (String.ofList x) (decFrom 0 p.int * n))]) := by
  have hb : env.bytes (p.num ++ p.unit) = some (decFrom 0 p.int * n) := by
    rw [he]; exact (C137_size_partial p n hp).1 hf h53
  have hx : x ≠ [] := by
    cases hw with
    | word _ _ _ _ h => cases h with
      | word _ h0 _ _ _ => exact h0
  refine ⟨fun hn => ?_, fun hn => ?_⟩
  · obtain ⟨s, e, -, hl⟩ := C120_limits_partial env f f' ss
      [.limit (.tableSize (String.ofList x) (decFrom 0 p.int * n))]
      (by rw [hm]; exact .cons (.tableSize hw hn hb) .nil) h
      (by simpa [ModEff.limit?, LimitMod.Positive] using hx)
    obtain ⟨l, h1, h2⟩ := hl (by simp [ModEff.limit?])
    exact ⟨s, l, e, h1, by simpa [ModEff.limit?] using h2⟩
  · obtain ⟨s, e, -, hl⟩ := C120_limits_partial env f f' ss
      [.limit (.databaseSize (String.ofList x) (decFrom 0 p.int * n))]
      (by rw [hm]; exact .cons (.databaseSize hw hn hb) .nil) h
      (by simpa [ModEff.limit?, LimitMod.Positive] using hx)
    obtain ⟨l, h1, h2⟩ := hl (by simp [ModEff.limit?])
    exact ⟨s, l, e, h1, by simpa [ModEff.limit?] using h2⟩

/-- The loaded statements. -/
def onlyStmts : Out (FileSt × List Stmt) → Option (List Stmt)
  | .ok (_, ss) => some ss
  | _ => none

/-- **C136 is false for idle times that are not positive**: other than for runtime and interval these are
accepted. With zero, the statement is the same as without the modifier, so that it is executed. -/
theorem C136_idle_zero_false :
    (¬ ∀ (env : TrxEnv), env.duration = parseDuration → ∀ (f f' : FileSt) (ss : List Stmt) (m w x : Text),
      f.mods = [m] → Words m [w, x] → Named w "idle" → f.statements env = .ok (f', ss) →
      ∀ s ∈ ss, 0 < s.idle) ∧
    onlyStmts (FileSt.statements { demoEnv with duration := parseDuration } { demoFile with
      mods := ["idle: 0s".toList], str := "SELECT 1 ".toList }) =
    onlyStmts (FileSt.statements { demoEnv with duration := parseDuration } { demoFile with
      mods := [], str := "SELECT 1 ".toList }) := by
  refine ⟨fun h => ?_, rfl⟩
  have hok : shownMods (FileSt.statements { demoEnv with duration := parseDuration } { demoFile with
      mods := ["idle: -1s".toList], str := "SELECT 1 ".toList }) = some [(false, -1000000000, "", [])] := by
    decide +kernel
  have hwords : Words "idle: -1s".toList ["idle:".toList, "-1s".toList] :=
    .word (sp := []) (w := "idle:".toList) (rest := " -1s".toList) (by decide) (by decide) (by decide) (by decide)
      (.word (sp := [' ']) (w := "-1s".toList) (rest := []) (by decide) (by decide) (by decide) (by decide)
        (.none (by decide)))
  cases hst : FileSt.statements { demoEnv with duration := parseDuration } { demoFile with
      mods := ["idle: -1s".toList], str := "SELECT 1 ".toList } with
  | ok r =>
    obtain ⟨f', ss⟩ := r
    have hpos := h _ rfl _ f' ss _ _ _ rfl hwords ⟨[], [':'], by simp, by simp, by decide⟩ hst
    rw [hst] at hok
    simp only [shownMods, Option.some.injEq] at hok
    cases ss with
    | nil => simp at hok
    | cons s ss =>
      have h1 := hpos s (by simp)
      simp only [List.map_cons, List.cons.injEq, Prod.mk.injEq] at hok
      rw [hok.1.2.1] at h1
      omega
  | err => rw [hst] at hok; simp [shownMods] at hok
  | panic => rw [hst] at hok; simp [shownMods] at hok

/-- A statement with `idle: 1h30m` idles 5400 seconds. -/
example : shownMods (FileSt.statements { demoEnv with duration := parseDuration } { demoFile with
    mods := ["idle: 1h30m".toList], str := "SELECT 1 ".toList }) = some [(false, 5400000000000, "", [])] := by
  decide +kernel

/-- The maximum of the size limits of the loaded statements. -/
def shownSizes : Out (FileSt × List Stmt) → List Int
  | .ok (_, ss) => ss.flatMap fun s => match s.limit with
    | some (.size r) => [r.max]
    | _ => []
  | _ => []

/-- A statement with `table-size: t 2GiB` has a limit of 2^31 bytes. -/
example : shownSizes (FileSt.statements { demoEnv with bytes := parseBytes } { demoFile with
    mods := ["table-size: t 2GiB".toList], str := "SELECT 1 ".toList }) = [2147483648] := by
  decide +kernel

end Finch
