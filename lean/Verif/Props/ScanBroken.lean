import Verif.Model.ScanBroken
import Verif.Props.Scan
/-!
C107 when reading a trx file fails.
-/
namespace Finch

theorem scanFile_prefix (a b : List Text) : ∃ post, (scanFile (a ++ b)).1 = (scanFile a).1 ++ post := by
  induction a with
  | nil => exact ⟨_, rfl⟩
  | cons l a ih =>
    obtain ⟨post, h⟩ := ih
    by_cases hl : maxToken ≤ byteLen l
    · exact ⟨[], by simp [scanFile, hl]⟩
    · exact ⟨post, by simp [scanFile, hl, h]⟩

theorem fileLines_prefix (content more : Text) :
    ∃ post, fileLines (content ++ more) = (splitOn1 '\n' content).dropLast ++ post := by
  have hs : ∀ s : Text, ∃ last, splitOn1 '\n' s = (splitOn1 '\n' s).dropLast ++ [last] := by
    intro s
    cases h : (splitOn1 '\n' s).getLast? with
    | none => exact absurd (List.getLast?_eq_none_iff.1 h) (splitOn1_ne_nil _ _)
    | some x => exact ⟨x, (List.dropLast_append_getLast? _ h).symm⟩
  have key : ∃ post, post ≠ [] ∧ splitOn1 '\n' (content ++ more) = (splitOn1 '\n' content).dropLast ++ post := by
    induction content with
    | nil => exact ⟨splitOn1 '\n' more, splitOn1_ne_nil _ _, rfl⟩
    | cons c cs ih =>
      obtain ⟨post, h1, h2⟩ := ih
      obtain ⟨last, hl⟩ := hs cs
      simp only [List.cons_append, splitOn1]
      split
      · refine ⟨post, h1, ?_⟩
        rw [List.dropLast_cons_of_ne_nil (splitOn1_ne_nil _ _), h2]
        rfl
      · rw [h2]
        cases hd : (splitOn1 '\n' cs).dropLast with
        | nil =>
          rw [hd, List.nil_append] at hl
          rw [hl]
          cases post with
          | nil => exact absurd rfl h1
          | cons p ps => exact ⟨(c :: p) :: ps, by simp, rfl⟩
        | cons w ws =>
          rw [hd] at hl
          rw [hl]
          refine ⟨post, h1, ?_⟩
          simp only [List.cons_append]
          rw [List.dropLast_cons_of_ne_nil (by simp)]
          simp
  obtain ⟨post, h1, h2⟩ := key
  unfold fileLines
  simp only
  split
  · exact ⟨post.dropLast, by rw [h2, List.dropLast_append_of_ne_nil h1]⟩
  · exact ⟨post, h2⟩

/-- **C107**: if a file is loaded although reading it failed, then as if reading had not failed, whatever is in the rest of
the file. -/
theorem C107_broken (set s : TrxSet) (env : TrxEnv) (data : GoMap String DataCfg) (content : Text)
    (h : loadBroken set env data content = .ret (.ok s)) (more : Text) :
    loadContent set env data (content ++ more) = .ret (.ok s) := by
  unfold loadBroken at h
  dsimp only at h
  obtain ⟨p1, e1⟩ := fileLines_prefix content []
  rw [List.append_nil] at e1
  obtain ⟨p2, e2⟩ := fileLines_prefix content more
  obtain ⟨q1, f1⟩ := scanFile_prefix (splitOn1 '\n' content).dropLast p1
  obtain ⟨q2, f2⟩ := scanFile_prefix (splitOn1 '\n' content).dropLast p2
  rw [e1, f1] at h
  split at h
  · rename_i s' hs
    split at h
    · rename_i hany
      cases h
      unfold loadContent
      dsimp only
      rw [e2, f2]
      rw [← loadFile_eof set env data _ _ hany] at hs ⊢
      rw [hs]
      have : ((scanFile (splitOn1 '\n' content).dropLast).1 ++ q2).any eofMark = true := by
        rw [List.any_append, hany]; rfl
      simp [this]
    · cases h
  · rename_i o ho
    exact absurd (LoadEnd.ret.inj h) (fun hh => ho s hh)

/-- **C107**: a file that cannot be read to its end, or to an EOF mark in a line of its own, is never loaded. -/
theorem C107_unread (set s : TrxSet) (env : TrxEnv) (data : GoMap String DataCfg) (content : Text)
    (hno : ∀ l ∈ (splitOn1 '\n' content).dropLast, eofMark (dropCR l) = false) :
    loadBroken set env data content ≠ .ret (.ok s) := by
  intro h
  have hany : (scanFile (splitOn1 '\n' content).dropLast).1.any eofMark = false := by
    generalize (splitOn1 '\n' content).dropLast = ls at hno
    clear h
    induction ls with
    | nil => rfl
    | cons l ls ih =>
      simp only [scanFile]
      split
      · rfl
      · simp only [List.any_cons, hno l List.mem_cons_self, Bool.false_or]
        exact ih fun x hx => hno x (List.mem_cons_of_mem _ hx)
  unfold loadBroken at h
  dsimp only at h
  rw [hany] at h
  split at h
  · simp at h
  · rename_i o ho
    exact absurd (LoadEnd.ret.inj h) (fun hh => ho s hh)

/-- What a load ended with, for the examples. -/
def LoadEnd.loaded : LoadEnd → Option Bool
  | .ret (.ok _) => some true
  | .ret _ => some false
  | .exit => none

/-- Reading fails after an EOF mark: loaded. Within the EOF mark, or before it: the process ends. -/
example : (loadBroken demoSet demoTrxFile.env demoTrxFile.data "SELECT 1\n\n-- EOF\nxy".toList).loaded = some true ∧
    (loadBroken demoSet demoTrxFile.env demoTrxFile.data "SELECT 1\n\n-- EOF".toList).loaded = none ∧
    (loadBroken demoSet demoTrxFile.env demoTrxFile.data "SELECT 1\n\n".toList).loaded = none := by
  refine ⟨by decide +kernel, by decide +kernel, by decide +kernel⟩

end Finch
