import Verif.Model.Collector
import Verif.Props.CollectTrx
/-!
C71: the combined line of a report.
-/
namespace Finch

/-- Statistics as they come from recording: no negative maximum. -/
def MaxNonNeg (s : Stats) : Prop := ∀ t, 0 ≤ (s.ev t).max

theorem combineInto_same (dst : Stats) (from' : List Stats) (hne : from' ≠ [])
    (hmax : ∀ s ∈ from', MaxNonNeg s) (hd : ∀ s ∈ from'.head?, ∀ k, s.errors k = none → (dst.errors k).getD 0 = 0) :
    ∃ s, combineInto dst from' = .ok s ∧ s.Same (combineAll from') := by
  cases from' with
  | nil => exact absurd rfl hne
  | cons c rest =>
    refine ⟨_, rfl, ?_⟩
    have h0 : (dst.copy c).Same (Stats.new.combine c) := by
      refine ⟨?_, fun k => ?_⟩
      · funext t
        have hm := hmax c (by simp) t
        have : (if 0 < (c.ev t).max then (c.ev t).max else 0) = (c.ev t).max := by
          split <;> omega
        simp only [Stats.copy, Stats.combine, EvStats.combine, Stats.new, EvStats.zero]
        simp [this]
      · have := hd c (by simp) k
        simp only [Stats.copy, Stats.combine, Stats.new, GoMap.empty_apply]
        cases hc : c.errors k with
        | none => simp [this hc]
        | some v => simp
    clear hne hd hmax
    have : ∀ (rest : List Stats) (a b : Stats), a.Same b →
        (rest.foldl Stats.combine a).Same (rest.foldl Stats.combine b) := by
      intro rest
      induction rest with
      | nil => intro a b h; exact h
      | cons s rest ih => intro a b h; exact ih _ _ (same_combine h s)
    exact this rest _ _ h0

/-- **C71.** The CSV line of a report of at least one instance shows the combination of the
instances' statistics and nothing else. -/
theorem C71_csv_line_combines (from' : List Stats) (hne : from' ≠ []) (hmax : ∀ s ∈ from', MaxNonNeg s) :
    ∃ s, csvCombined from' = .ok s ∧ s.Same (combineAll from') :=
  combineInto_same .new from' hne hmax (by simp [Stats.new])

/-- **C71** (first report). The same holds of the combined line on stdout of the first report.
Missing: later reports, for which it is false (`C71_stdout_false`). -/
theorem C71_stdout_first_line_partial (from' : List Stats) (later : List (List Stats))
    (hl : 1 < from'.length) (hmax : ∀ s ∈ from', MaxNonNeg s) :
    ∃ s, (stdoutCombined .new (from' :: later)).head? = some (some s) ∧ s.Same (combineAll from') := by
  obtain ⟨s, h1, h2⟩ := combineInto_same .new from' (by rintro rfl; simp at hl) hmax (by simp [Stats.new])
  refine ⟨s, ?_, h2⟩
  rw [stdoutCombined, if_pos hl, h1]; rfl

theorem combineInto_noErrors (dst : Stats) (from' : List Stats) (s : Stats) (hmax : ∀ s ∈ from', MaxNonNeg s)
    (h : combineInto dst from' = .ok s) : s.ev = (combineAll from').ev := by
  have hev : ∀ (rest : List Stats) (a b : Stats), a.ev = b.ev →
      (rest.foldl Stats.combine a).ev = (rest.foldl Stats.combine b).ev := by
    intro rest
    induction rest with
    | nil => intro a b h; exact h
    | cons s rest ih => intro a b h; exact ih _ _ (by simp [Stats.combine, h])
  cases from' with
  | nil => cases h
  | cons c rest =>
    simp only [combineInto, Res.ok.injEq] at h
    subst h
    obtain ⟨s', h1, h2⟩ := combineInto_same .new (c :: rest) (by simp) hmax (by simp [Stats.new])
    simp only [combineInto, Res.ok.injEq] at h1
    rw [← h2.ev, ← h1]
    exact hev rest _ _ rfl

/-- **C71** (all reports, all but errors). In every report the combined line's counts, histograms,
minima and maxima depend on that report's instances only. -/
theorem C71_stdout_counts (all : Stats) (reports : List (List Stats)) (k : Nat) (from' : List Stats)
    (s : Stats) (hk : reports[k]? = some from') (hmax : ∀ s ∈ from', MaxNonNeg s)
    (h : (stdoutCombined all reports)[k]? = some (some s)) : s.ev = (combineAll from').ev := by
  induction reports generalizing all k with
  | nil => simp at hk
  | cons r reports ih =>
    rw [stdoutCombined] at h
    cases k with
    | zero =>
      simp only [List.getElem?_cons_zero, Option.some.injEq] at hk
      subst hk
      split at h
      · split at h
        · rename_i s' hs'
          simp at h; subst h
          exact combineInto_noErrors all r s' hmax hs'
        · simp at h
      · simp at h
    | succ k =>
      simp only [List.getElem?_cons_succ] at hk
      split at h
      · split at h
        · exact ih _ _ hk (by simpa using h)
        · exact ih _ _ hk (by simpa using h)
      · exact ih _ _ hk (by simpa using h)

/-- Two instances with different reads. -/
example : ∀ s ∈ [Stats.new.record (fun _ => 3) .read 20, Stats.new.error 1213], MaxNonNeg s := by
  intro s hs t
  simp only [List.mem_cons, List.not_mem_nil, or_false] at hs
  rcases hs with rfl | rfl <;> cases t <;> decide

/-- **C71 is false for later reports on stdout**: two reports of two instances each; in the first
one instance has an error, in the second there are none, and the second combined line still shows
it. -/
theorem C71_stdout_false : ∃ s, (stdoutCombined .new [[Stats.new.error 1213, .new], [.new, .new]])[1]? =
    some (some s) ∧ (s.errors 1213).getD 0 = 1 ∧ ((combineAll [.new, .new]).errors 1213).getD 0 = 0 := by
  refine ⟨_, rfl, ?_, ?_⟩ <;> decide

end Finch
