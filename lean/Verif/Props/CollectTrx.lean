import Verif.Model.Collector
import Verif.Props.Stats
import Mathlib.Algebra.BigOperators.Group.List.Basic
import Mathlib.Tactic.Tauto
/-!
C70: what one collection computes: per-trx and total statistics.
-/
namespace Finch

/-- Same statistics; an error code with count 0 is the same as an absent one. -/
structure Stats.Same (a b : Stats) : Prop where
  ev : a.ev = b.ev
  errors : ∀ k, (a.errors k).getD 0 = (b.errors k).getD 0

theorem same_combine {a b : Stats} (h : a.Same b) (s : Stats) : (a.combine s).Same (b.combine s) := by
  refine ⟨by simp [Stats.combine, h.ev], fun k => ?_⟩
  have := h.errors k
  simp only [Stats.combine]
  cases s.errors k <;> simp [this]

theorem same_reset (s : Stats) : s.reset.Same Stats.new := by
  refine ⟨rfl, fun k => ?_⟩
  simp only [Stats.reset, Stats.new, GoMap.empty_apply]
  cases s.errors k <;> rfl

/-- What the statistics of trx `name` must be: those of all clients for it, combined. -/
def ofTrx (name : String) (l : List (String × Stats)) : List Stats :=
  (l.filter fun x => x.1 = name).map (·.2)

theorem combineAll_concat (l : List Stats) (s : Stats) : combineAll (l ++ [s]) = (combineAll l).combine s := by
  simp [combineAll]

/-- State after collecting `l`. -/
structure CollectInv (l : List (String × Stats)) (trx : GoMap String Stats) (r : LocalStats) : Prop where
  total : r.total.Same (combineAll (l.map (·.2)))
  known : ∀ name, (trx name).isSome → (r.trx name).isSome
  seen : ∀ name, r.seen name = some () ↔ name ∈ l.map (·.1)
  each : ∀ name ∈ l.map (·.1), ∃ s, r.trx name = some s ∧ s.Same (combineAll (ofTrx name l))

theorem collect_inv (total : Stats) (trx : GoMap String Stats) (l : List (String × Stats))
    (hw : ∀ x ∈ l, (trx x.1).isSome) :
    ∃ r, collectStats total trx l = .ok r ∧ CollectInv l trx r := by
  induction l using List.reverseRecOn with
  | nil =>
    exact ⟨_, rfl, ⟨same_reset total, fun _ h => h, by simp, by simp⟩⟩
  | append_singleton l x ih =>
    obtain ⟨r, hr, hi⟩ := ih fun y hy => hw y (by simp [hy])
    have hcons : collectStats total trx (l ++ [x]) = r.add x.1 x.2 := by
      unfold collectStats at hr ⊢
      rw [List.foldl_append, hr]; rfl
    obtain ⟨cur, hcur⟩ := Option.isSome_iff_exists.1 (hi.known _ (hw x (by simp)))
    obtain ⟨name, s⟩ := x
    simp only at hcur hcons
    refine ⟨_, by rw [hcons, LocalStats.add, hcur], ?_⟩
    refine ⟨?_, ?_, ?_, ?_⟩
    · rw [List.map_append, List.map_singleton, combineAll_concat]
      exact same_combine hi.total s
    · intro n hn
      by_cases h : n = name
      · subst h; simp
      · simp [GoMap.set_other _ _ h]; exact hi.known n hn
    · intro n
      by_cases h : n = name
      · subst h; simp
      · show r.seen.set name () n = some () ↔ _
        rw [GoMap.set_other _ _ h, hi.seen n]; simp [h]
    · intro n hn
      by_cases h : n = name
      · subst h
        refine ⟨_, GoMap.set_same .., ?_⟩
        have hof : ofTrx n (l ++ [(n, s)]) = ofTrx n l ++ [s] := by simp [ofTrx]
        rw [hof, combineAll_concat]
        refine same_combine ?_ s
        by_cases hs : n ∈ l.map (·.1)
        · obtain ⟨s', h1, h2⟩ := hi.each n hs
          rw [hcur] at h1
          cases h1
          have := (hi.seen n).2 hs
          simp [this, h2]
        · have hnone : r.seen n = none := by
            cases hh : r.seen n with
            | none => rfl
            | some u => exact absurd ((hi.seen n).1 hh) hs
          have hempty : ofTrx n l = [] := by
            simp only [ofTrx, List.map_eq_nil_iff, List.filter_eq_nil_iff, decide_eq_true_eq]
            intro y hy he
            exact hs (List.mem_map.2 ⟨y, hy, he⟩)
          rw [hempty, hnone]
          exact same_reset cur
      · have hn' : n ∈ l.map (·.1) := by simpa [h] using hn
        obtain ⟨s', h1, h2⟩ := hi.each n hn'
        refine ⟨s', by rw [← h1]; exact GoMap.set_other _ _ h, ?_⟩
        have : ofTrx n (l ++ [(name, s)]) = ofTrx n l := by
          simp [ofTrx, Ne.symm h]
        rw [this]; exact h2

/-- **C70.** Collecting the statistics `l` of all clients and trx never fails if every trx is known,
and whatever the previous interval left, the total is the combination of all of them and each trx's
statistics the combination of those of its clients. -/
theorem C70_collect_combines (total : Stats) (trx : GoMap String Stats) (l : List (String × Stats))
    (hw : ∀ x ∈ l, (trx x.1).isSome) :
    ∃ r, collectStats total trx l = .ok r ∧ r.total.Same (combineAll (l.map (·.2))) ∧
      ∀ name ∈ l.map (·.1), ∃ s, r.trx name = some s ∧ s.Same (combineAll (ofTrx name l)) := by
  obtain ⟨r, h1, h2⟩ := collect_inv total trx l hw
  exact ⟨r, h1, h2.total, h2.each⟩

theorem combineAll_n (l : List Stats) (t : Ev) :
    ((combineAll l).ev t).n = (l.map fun s => (s.ev t).n).sum := by
  induction l using List.reverseRecOn with
  | nil => rfl
  | append_singleton l s ih => rw [combineAll_concat]; simp [Stats.combine, EvStats.combine, ih]

theorem combineAll_bucket (l : List Stats) (t : Ev) (i : Nat) :
    ((combineAll l).ev t).buckets i = (l.map fun s => (s.ev t).buckets i).sum := by
  induction l using List.reverseRecOn with
  | nil => rfl
  | append_singleton l s ih => rw [combineAll_concat]; simp [Stats.combine, EvStats.combine, ih]

theorem combineAll_errors (l : List Stats) (k : Nat) :
    ((combineAll l).errors k).getD 0 = (l.map fun s => (s.errors k).getD 0).sum := by
  rw [combineAll, foldl_combine_errors]; simp [Stats.new]

theorem sum_by_name (names : List String) (hn : names.Nodup) (l : List (String × Stats))
    (hl : ∀ x ∈ l, x.1 ∈ names) (f : Stats → Nat) :
    (names.map fun name => ((ofTrx name l).map f).sum).sum = ((l.map (·.2)).map f).sum := by
  induction l with
  | nil => simp [ofTrx]
  | cons x l ih =>
    have ihl := ih fun y hy => hl y (by simp [hy])
    have hx := hl x (by simp)
    have h1 : ∀ name, ((ofTrx name (x :: l)).map f).sum =
        (if name = x.1 then f x.2 else 0) + ((ofTrx name l).map f).sum := by
      intro name
      by_cases h : x.1 = name
      · simp [ofTrx, h]
      · simp [ofTrx, h, Ne.symm h]
    simp only [h1, List.sum_map_add, ihl, List.map_cons, List.sum_cons]
    congr 1
    clear ih ihl h1 hl
    induction names with
    | nil => simp at hx
    | cons a names ihn =>
      obtain ⟨ha, hn⟩ := List.nodup_cons.1 hn
      simp only [List.map_cons, List.sum_cons]
      by_cases h : a = x.1
      · subst h
        have : ((names.map fun name => if name = x.1 then f x.2 else 0).sum) = 0 := by
          rw [List.sum_eq_zero]
          intro y hy
          obtain ⟨z, hz, rfl⟩ := List.mem_map.1 hy
          rw [if_neg]; rintro rfl; exact ha hz
        simp [this]
      · have := ihn hn (by simpa [Ne.symm h] using hx)
        simp [h, this]

/-- **C70.** The counts, histograms and error counts of the trx add up to the total. `names` lists
the trx names, each once. -/
theorem C70_trx_add_up_to_total (total : Stats) (trx : GoMap String Stats) (l : List (String × Stats))
    (hw : ∀ x ∈ l, (trx x.1).isSome) (names : List String) (hn : names.Nodup)
    (hl : ∀ name, name ∈ names ↔ name ∈ l.map (·.1)) :
    ∃ r, collectStats total trx l = .ok r ∧
      (∀ t, (names.map fun name => (((r.trx name).getD .new).ev t).n).sum = (r.total.ev t).n) ∧
      (∀ t i, (names.map fun name => (((r.trx name).getD .new).ev t).buckets i).sum =
        (r.total.ev t).buckets i) ∧
      ∀ k, (names.map fun name => (((r.trx name).getD .new).errors k).getD 0).sum =
        (r.total.errors k).getD 0 := by
  obtain ⟨r, h1, h2, h3⟩ := C70_collect_combines total trx l hw
  have hmem : ∀ x ∈ l, x.1 ∈ names := fun x hx => (hl _).2 (List.mem_map.2 ⟨x, hx, rfl⟩)
  have hname : ∀ name ∈ names, ((r.trx name).getD .new).Same (combineAll (ofTrx name l)) := by
    intro name hm
    obtain ⟨s, hs, hsame⟩ := h3 name ((hl _).1 hm)
    rw [hs]; exact hsame
  refine ⟨r, h1, fun t => ?_, fun t i => ?_, fun k => ?_⟩
  · rw [h2.ev, combineAll_n, ← sum_by_name names hn l hmem fun s => (s.ev t).n]
    refine congrArg _ (List.map_congr_left fun name hm => ?_)
    rw [(hname name hm).ev, combineAll_n]
  · rw [h2.ev, combineAll_bucket, ← sum_by_name names hn l hmem fun s => (s.ev t).buckets i]
    refine congrArg _ (List.map_congr_left fun name hm => ?_)
    rw [(hname name hm).ev, combineAll_bucket]
  · rw [h2.errors, combineAll_errors, ← sum_by_name names hn l hmem fun s => (s.errors k).getD 0]
    refine congrArg _ (List.map_congr_left fun name hm => ?_)
    rw [(hname name hm).errors, combineAll_errors]

/-- Two clients that run trx a and b, with leftovers of the last interval. -/
example : let l := [("a", Stats.new.error 1), ("b", Stats.new), ("a", Stats.new), ("b", Stats.new.error 2)]
    let trx : GoMap String Stats := (GoMap.empty.set "a" (Stats.new.error 7)).set "b" .new
    (∀ x ∈ l, (trx x.1).isSome) ∧ ["a", "b"].Nodup ∧
      ∀ name, name ∈ ["a", "b"] ↔ name ∈ l.map (·.1) := by
  intro l trx
  refine ⟨?_, by decide, fun name => ?_⟩
  rotate_left
  · simp only [l, List.map_cons, List.map_nil, List.mem_cons, List.not_mem_nil, or_false]
    tauto
  intro x hx
  simp only [l, List.mem_cons, List.not_mem_nil, or_false] at hx
  rcases hx with rfl | rfl | rfl | rfl <;> simp [trx, GoMap.set]

end Finch
