import Verif.Model.Scan
import Verif.Props.TrxLines
import Verif.Props.TrxSet
import Verif.Props.Report
/-!
C107: a trx file is loaded completely or not at all, whatever the length of its lines.
-/
namespace Finch

/-- The lines are the text between newlines: put together they are the content, up to one newline at the
end. -/
theorem join_splitOn1 (sep : Char) (s : Text) : join [sep] (splitOn1 sep s) = s := by
  induction s with
  | nil => rfl
  | cons c s ih =>
    simp only [splitOn1]
    split
    · rename_i h
      subst h
      cases hs : splitOn1 c s with
      | nil => exact absurd hs (splitOn1_ne_nil c s)
      | cons w ws => rw [hs] at ih; simp only [join, List.nil_append, List.singleton_append, ih]
    · cases hs : splitOn1 sep s with
      | nil => exact absurd hs (splitOn1_ne_nil sep s)
      | cons w ws =>
        rw [hs] at ih
        cases ws with
        | nil => simp only [join] at ih ⊢; rw [ih]
        | cons x xs => simp only [join, List.cons_append, List.cons.injEq, true_and] at ih ⊢; exact ih

theorem join_concat_nil (sep : Text) (ls : List Text) (h : ls ≠ []) : join sep (ls ++ [[]]) = join sep ls ++ sep := by
  induction ls with
  | nil => exact absurd rfl h
  | cons l ls ih =>
    cases ls with
    | nil => simp [join]
    | cons m ls =>
      have := ih (by simp)
      simp only [List.cons_append, join, List.append_assoc] at this ⊢
      rw [this]

/-- C107: the lines that are scanned are those of the file: no line has a newline in it, and put together
with newlines between them they are the content of the file, with or without a newline at the end. -/
theorem C107_lines (content : Text) :
    (∀ l ∈ fileLines content, '\n' ∉ l) ∧
    (content = join ['\n'] (fileLines content) ∨ content = join ['\n'] (fileLines content) ++ ['\n']) := by
  have hj := join_splitOn1 '\n' content
  unfold fileLines
  simp only
  split
  · rename_i h
    have hd : splitOn1 '\n' content = (splitOn1 '\n' content).dropLast ++ [[]] := by
      rw [List.dropLast_append_getLast? _ h]
    refine ⟨fun l hl => (mem_splitOn1 (List.mem_of_mem_dropLast hl)).1, ?_⟩
    by_cases h0 : (splitOn1 '\n' content).dropLast = []
    · left
      rw [h0, List.nil_append] at hd
      rw [h0, ← hj, hd]
      rfl
    · right
      rw [← join_concat_nil _ _ h0, ← hd, hj]
  · exact ⟨fun l hl => (mem_splitOn1 hl).1, Or.inl hj.symm⟩

theorem scanFile_fits (ls : List Text) (h : ∀ l ∈ ls, byteLen l < maxToken) :
    scanFile ls = (ls.map dropCR, false) := by
  induction ls with
  | nil => rfl
  | cons l ls ih =>
    have hl := h l List.mem_cons_self
    simp only [scanFile, Nat.not_le.2 hl, if_false, ih fun x hx => h x (List.mem_cons_of_mem _ hx), List.map_cons]

theorem scanFile_long (pre : List Text) (l : Text) (post : List Text) (hpre : ∀ x ∈ pre, byteLen x < maxToken)
    (hl : maxToken ≤ byteLen l) : scanFile (pre ++ l :: post) = (pre.map dropCR, true) := by
  induction pre with
  | nil => simp only [List.nil_append, scanFile, hl, if_true, List.map_nil]
  | cons x pre ih =>
    have hx := hpre x List.mem_cons_self
    simp only [List.cons_append, scanFile, Nat.not_le.2 hx, if_false,
      ih fun y hy => hpre y (List.mem_cons_of_mem _ hy), List.map_cons]

/-- Either all lines fit, or there is a first one that does not. -/
theorem first_long (ls : List Text) :
    (∀ l ∈ ls, byteLen l < maxToken) ∨
    ∃ pre l post, ls = pre ++ l :: post ∧ (∀ x ∈ pre, byteLen x < maxToken) ∧ maxToken ≤ byteLen l := by
  induction ls with
  | nil => exact Or.inl fun _ h => by cases h
  | cons l ls ih =>
    by_cases hl : maxToken ≤ byteLen l
    · exact Or.inr ⟨[], l, ls, rfl, fun _ h => (by cases h), hl⟩
    · rcases ih with h | ⟨pre, m, post, h1, h2, h3⟩
      · refine Or.inl fun x hx => ?_
        rcases List.mem_cons.1 hx with hx | hx
        · subst hx; omega
        · exact h x hx
      · refine Or.inr ⟨l :: pre, m, post, by rw [h1]; rfl, fun x hx => ?_, h3⟩
        rcases List.mem_cons.1 hx with hx | hx
        · subst hx; omega
        · exact h2 x hx

/-- Lines after an EOF mark do not matter. -/
theorem loadFile_eof (set : TrxSet) (env : TrxEnv) (data : GoMap String DataCfg) (pre post : List Text)
    (h : pre.any eofMark = true) :
    loadFile set ⟨env, data, some pre⟩ = loadFile set ⟨env, data, some (pre ++ post)⟩ := by
  obtain ⟨m, hm, he⟩ := List.any_eq_true.1 h
  obtain ⟨a, b, rfl⟩ := List.append_of_mem hm
  have he' : trimSpace m = "-- EOF".toList := of_decide_eq_true he
  unfold loadFile
  simp only [List.append_assoc, List.cons_append]
  rw [C32_eof env (FileSt.statements env) _ a b (b ++ post) m he']

/-- C107: if every line is shorter than 64 KiB, the file is loaded from all its lines. -/
theorem C107_fits (set : TrxSet) (env : TrxEnv) (data : GoMap String DataCfg) (content : Text)
    (h : ∀ l ∈ fileLines content, byteLen l < 65536) :
    loadContent set env data content = .ret (loadFile set ⟨env, data, some ((fileLines content).map dropCR)⟩) := by
  unfold loadContent
  simp only [scanFile_fits _ h, Bool.false_and, Bool.false_eq_true, if_false]
  split
  · rename_i s hs; rw [hs]
  · rfl

/-- C107: if a file is loaded, it is loaded from all its lines: none is left out, whatever their lengths. -/
theorem C107_all (set s : TrxSet) (env : TrxEnv) (data : GoMap String DataCfg) (content : Text)
    (h : loadContent set env data content = .ret (.ok s)) :
    loadFile set ⟨env, data, some ((fileLines content).map dropCR)⟩ = .ok s := by
  rcases first_long (fileLines content) with hf | ⟨pre, l, post, hls, hpre, hl⟩
  · rw [C107_fits set env data content hf] at h
    exact LoadEnd.ret.inj h
  · unfold loadContent at h
    simp only [hls, scanFile_long pre l post hpre hl, Bool.true_and] at h
    split at h
    · rename_i s' hs
      split at h
      · cases h
      · rename_i hany
        simp only [Bool.not_eq_true', Bool.not_eq_false] at hany
        rw [hls, List.map_append, ← loadFile_eof set env data _ _ hany, hs]
        exact LoadEnd.ret.inj h
    · rename_i o ho
      exact absurd (LoadEnd.ret.inj h) (fun hh => ho s hh)

/-- C107: a file with a line of 64 KiB or more, not after an EOF mark, is never loaded. -/
theorem C107_long (set : TrxSet) (env : TrxEnv) (data : GoMap String DataCfg) (content : Text)
    (pre : List Text) (l : Text) (post : List Text) (hls : fileLines content = pre ++ l :: post)
    (hl : 65536 ≤ byteLen l) (hpre : ∀ x ∈ pre, eofMark (dropCR x) = false) (s : TrxSet) :
    loadContent set env data content ≠ .ret (.ok s) := by
  intro h
  have key : ∃ pre' l' post', fileLines content = pre' ++ l' :: post' ∧ (∀ x ∈ pre', byteLen x < maxToken) ∧
      maxToken ≤ byteLen l' ∧ ∀ x ∈ pre', eofMark (dropCR x) = false := by
    rcases first_long pre with hf | ⟨p, m, q, h1, h2, h3⟩
    · exact ⟨pre, l, post, hls, hf, hl, hpre⟩
    · exact ⟨p, m, q ++ l :: post, by rw [hls, h1]; simp, h2, h3, fun x hx => hpre x (by rw [h1]; simp [hx])⟩
  obtain ⟨p, m, q, h1, h2, h3, h4⟩ := key
  unfold loadContent at h
  have hany : (p.map dropCR).any eofMark = false := by
    rw [List.any_eq_false]
    intro x hx
    obtain ⟨y, hy, rfl⟩ := List.mem_map.1 hx
    rw [h4 y hy]
    exact Bool.false_ne_true
  simp only [h1, scanFile_long p m q h2 h3, hany, Bool.not_false, Bool.and_true, if_true] at h
  split at h
  · cases h
  · rename_i o ho
    exact absurd (LoadEnd.ret.inj h) (fun hh => ho s hh)

/-- C107: such a file is not an error that `Load` returns: if what comes before the long line
can be loaded, the whole process ends (`log.Fatal`, trx/trx.go:160-162), so a remote instance
does not tell the server. -/
theorem C107_exit (set : TrxSet) (env : TrxEnv) (data : GoMap String DataCfg) (content : Text)
    (pre : List Text) (l : Text) (post : List Text) (hls : fileLines content = pre ++ l :: post)
    (hl : 65536 ≤ byteLen l) (hpre : ∀ x ∈ pre, eofMark (dropCR x) = false ∧ byteLen x < 65536) (s : TrxSet)
    (hok : loadFile set ⟨env, data, some (pre.map dropCR)⟩ = .ok s) :
    loadContent set env data content = .exit := by
  unfold loadContent
  have hany : (pre.map dropCR).any eofMark = false := by
    rw [List.any_eq_false]
    intro x hx
    obtain ⟨y, hy, rfl⟩ := List.mem_map.1 hx
    rw [(hpre y hy).1]
    exact Bool.false_ne_true
  simp only [hls, scanFile_long pre l post (fun x hx => (hpre x hx).2) hl, hany, hok, Bool.not_false, Bool.and_true,
    if_true]

/-! ## Examples -/

/-- A line that is too long. -/
def longLine : Text := List.replicate 65536 'x'

theorem byteLen_long : byteLen longLine = 65536 := by
  unfold byteLen longLine
  rw [List.map_replicate, List.sum_replicate]
  rfl

theorem fileLines_long (rest : Text) (h : '\n' ∉ rest) (hr : rest ≠ []) :
    fileLines ("SELECT 1\n\n".toList ++ rest) = ["SELECT 1".toList, [], rest] := by
  have h1 : splitOn1 '\n' ("SELECT 1\n\n".toList ++ rest) = ["SELECT 1".toList, [], rest] := by
    have : "SELECT 1\n\n".toList ++ rest = "SELECT 1".toList ++ '\n' :: ([] ++ '\n' :: rest) := rfl
    rw [this, splitOn1_cons '\n' _ _ (by decide), splitOn1_cons '\n' _ _ (by decide), splitOn1_word '\n' _ h]
  unfold fileLines
  rw [h1]
  simp [hr]

/-- What is before the long line can be loaded. -/
def exScan : Out TrxSet := loadFile demoSet ⟨demoTrxFile.env, demoTrxFile.data, some ["SELECT 1".toList, []]⟩

theorem exScan_ok : ∃ s, exScan = .ok s := by
  cases h : exScan with
  | ok s => exact ⟨s, rfl⟩
  | err => exact absurd (congrArg (fun o : Out TrxSet => match o with | .ok _ => true | _ => false) h) (by decide +kernel)
  | panic => exact absurd (congrArg (fun o : Out TrxSet => match o with | .ok _ => true | _ => false) h) (by decide +kernel)

/-- The hypotheses of C107_long and C107_exit are met. -/
example : loadContent demoSet demoTrxFile.env demoTrxFile.data ("SELECT 1\n\n".toList ++ longLine) = .exit := by
  obtain ⟨s, hs⟩ := exScan_ok
  refine C107_exit _ _ _ _ ["SELECT 1".toList, []] longLine []
    (fileLines_long longLine (by unfold longLine; rw [List.mem_replicate]; simp) (fun h => by have := byteLen_long; rw [h] at this; cases this))
    (by rw [byteLen_long]) (by decide +kernel) s hs

/-- A file with short lines is loaded. -/
example : ∃ s, loadContent demoSet demoTrxFile.env demoTrxFile.data "SELECT 1\n\n-- EOF".toList = .ret (.ok s) := by
  obtain ⟨s, hs⟩ := exScan_ok
  rw [C107_fits _ _ _ _ (by decide +kernel)]
  cases h : loadFile demoSet ⟨demoTrxFile.env, demoTrxFile.data, some ((fileLines "SELECT 1\n\n-- EOF".toList).map dropCR)⟩ with
  | ok s => exact ⟨s, rfl⟩
  | err => exact absurd (congrArg (fun o : Out TrxSet => match o with | .ok _ => true | _ => false) h) (by decide +kernel)
  | panic => exact absurd (congrArg (fun o : Out TrxSet => match o with | .ok _ => true | _ => false) h) (by decide +kernel)

end Finch
