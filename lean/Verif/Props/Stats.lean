import Verif.Model.Stats
import Mathlib.Algebra.BigOperators.Group.Finset.Basic
import Mathlib.Algebra.BigOperators.Fin
import Mathlib.Tactic.Ring
import Mathlib.Tactic.Linarith
/-!
C24 (recording), C25 (combining), C26 (copying).
-/
namespace Finch

/-- What the statistics `e` of one event type must be for the latencies `ds`, with `bk` assigning
bucket numbers. -/
structure IsSummary (bk : Int → Nat) (ds : List Int) (e : EvStats) : Prop where
  count : e.n = ds.length
  bucket : ∀ i, e.buckets i = ds.countP fun d => bk d = i
  none_min : ds = [] → e.min = 0
  none_max : ds = [] → e.max = 0
  min_mem : ds ≠ [] → e.min ∈ ds
  min_le : ∀ d ∈ ds, e.min ≤ d
  max_mem : ds ≠ [] → e.max ∈ ds
  le_max : ∀ d ∈ ds, d ≤ e.max

/-- Latencies counted under event type `t`: its own, and for the total those of every type. -/
def latencies (t : Ev) (evs : List TrxEvent) : List Int :=
  evs.filterMap fun e =>
    match e with
    | .query t' d => if t = .total ∨ t' = t then some d else none
    | .error _ => none

/-- Latencies are not negative (they are microseconds between two readings of a monotonic clock). -/
def NonNeg (evs : List TrxEvent) : Prop :=
  ∀ e ∈ evs, match e with
    | .query _ d => 0 ≤ d
    | .error _ => True

/-- Recording all events of a list. -/
def recordAll (lg : Int → Int) (s : Stats) (evs : List TrxEvent) : Stats := evs.foldl (Stats.event lg) s

theorem bucketNo_lt (lg : Int → Int) (d : Int) : bucketNo lg d < nBuckets := by
  simp only [bucketNo, nBuckets]
  split <;> split <;> omega

theorem record_summary {bk : Int → Nat} {ds : List Int} {e : EvStats} (h : IsSummary bk ds e)
    (d : Int) (h0 : 0 ≤ d) (hnn : ∀ x ∈ ds, 0 ≤ x) :
    IsSummary bk (ds ++ [d]) (e.record (bk d) d) := by
  have hn := h.count
  refine ⟨by simp [EvStats.record, hn], ?_, by simp, by simp, ?_, ?_, ?_, ?_⟩
  · intro i
    simp only [EvStats.record, List.countP_append, List.countP_singleton, h.bucket i, decide_eq_true_eq]
    by_cases hi : i = bk d
    · simp [hi]
    · rw [if_neg hi, if_neg (fun hh => hi hh.symm)]; rfl
  · intro _
    simp only [EvStats.record]
    split
    · simp
    · rename_i hc
      push Not at hc
      have : ds ≠ [] := by rintro rfl; simp at hn; omega
      simp [h.min_mem this]
  · intro x hx
    simp only [EvStats.record]
    rcases List.mem_append.1 hx with hx | hx
    · have := h.min_le x hx
      have hne : e.n ≠ 0 := by rw [hn]; intro hh; simp [List.length_eq_zero_iff.1 hh] at hx
      split
      · rename_i hc; rcases hc with hc | hc <;> omega
      · exact this
    · simp only [List.mem_singleton] at hx; subst hx
      split
      · exact le_refl _
      · rename_i hc; push Not at hc; exact hc.1
  · intro _
    simp only [EvStats.record]
    split
    · simp
    · rename_i hc
      by_cases hds : ds = []
      · have := h.none_max hds
        have hd : d = 0 := by omega
        simp [this, hd]
      · simp [h.max_mem hds]
  · intro x hx
    simp only [EvStats.record]
    rcases List.mem_append.1 hx with hx | hx
    · have := h.le_max x hx
      split <;> omega
    · simp only [List.mem_singleton] at hx; subst hx
      split <;> omega

theorem zero_summary (bk : Int → Nat) : IsSummary bk [] EvStats.zero :=
  ⟨rfl, fun _ => rfl, fun _ => rfl, fun _ => rfl, by simp, by simp, by simp, by simp⟩

theorem latencies_append (t : Ev) (a b : List TrxEvent) :
    latencies t (a ++ b) = latencies t a ++ latencies t b := by simp [latencies]

theorem latencies_nonneg {t : Ev} {evs : List TrxEvent} (h : NonNeg evs) :
    ∀ d ∈ latencies t evs, 0 ≤ d := by
  intro d hd
  simp only [latencies, List.mem_filterMap] at hd
  obtain ⟨e, he, hm⟩ := hd
  cases e with
  | query t' d' =>
    simp only at hm
    split at hm
    · simp only [Option.some.injEq] at hm; subst hm; exact h _ he
    · cases hm
  | error c => cases hm

/-- **C24.** After recording any events, each event type's count, histogram, minimum and maximum
are exactly those of the latencies of that type, and the total's those of all events. -/
theorem C24_statistics_are_exact (lg : Int → Int) (evs : List TrxEvent) (h : NonNeg evs) (t : Ev) :
    IsSummary (bucketNo lg) (latencies t evs) ((recordAll lg .new evs).ev t) := by
  induction evs using List.reverseRecOn with
  | nil => exact zero_summary _
  | append_singleton evs e ih =>
    have h' : NonNeg evs := fun e hm => h e (by simp [hm])
    have ih := ih h'
    have hnn := latencies_nonneg (t := t) h'
    rw [latencies_append, show recordAll lg .new (evs ++ [e]) =
      (recordAll lg .new evs).event lg e from by simp [recordAll]]
    generalize recordAll lg .new evs = s at ih
    cases e with
    | error c => simpa [latencies, Stats.event, Stats.error] using ih
    | query t' d =>
      have h0 : 0 ≤ d := h (.query t' d) (by simp)
      have key := record_summary ih d h0 hnn
      have hl : latencies t [.query t' d] = if t = .total ∨ t' = t then [d] else [] := by
        simp only [latencies, List.filterMap_cons, List.filterMap_nil]
        split <;> simp_all
      rw [hl]
      simp only [Stats.event, Stats.record]
      by_cases ht : t = .total
      · subst ht
        by_cases ht' : t' = .total
        · subst ht'; simpa [setEv] using key
        · simpa [setEv, ht', Ne.symm ht'] using key
      · by_cases htt : t' = t
        · subst htt; simpa [setEv, ht] using key
        · by_cases ht' : t' = .total
          · subst ht'; simpa [setEv, ht, htt, Ne.symm htt] using ih
          · simpa [setEv, ht, ht', htt, Ne.symm htt] using ih

/-- **C24.** The histogram of each type sums to the count of that type: no event falls outside it. -/
theorem C24_histogram_sums_to_count (lg : Int → Int) (evs : List TrxEvent) (h : NonNeg evs) (t : Ev) :
    (∑ i ∈ Finset.range nBuckets, ((recordAll lg .new evs).ev t).buckets i) =
      ((recordAll lg .new evs).ev t).n := by
  have hs := C24_statistics_are_exact lg evs h t
  rw [hs.count, Finset.sum_congr rfl fun i _ => hs.bucket i]
  have hb := bucketNo_lt lg
  generalize nBuckets = m at hb
  generalize latencies t evs = ds
  induction ds with
  | nil => simp
  | cons d ds ih =>
    simp only [List.countP_cons, Finset.sum_add_distrib, ih, List.length_cons]
    congr 1
    rw [Finset.sum_eq_single (bucketNo lg d)]
    · simp
    · intro b _ hb; simp [Ne.symm hb]
    · intro hn; exact absurd (Finset.mem_range.2 (hb d)) hn

/-- A summary determines the statistics. -/
theorem summary_unique {bk : Int → Nat} {ds ds' : List Int} {e e' : EvStats} (hp : ds.Perm ds')
    (h : IsSummary bk ds e) (h' : IsSummary bk ds' e') : e = e' := by
  have h1 : e.n = e'.n := by rw [h.count, h'.count, hp.length_eq]
  have h2 : e.buckets = e'.buckets := by
    funext i; rw [h.bucket, h'.bucket, hp.countP_eq]
  have h3 : e.min = e'.min ∧ e.max = e'.max := by
    by_cases hd : ds = []
    · have hd' : ds' = [] := by simpa [hd] using hp
      rw [h.none_min hd, h.none_max hd, h'.none_min hd', h'.none_max hd']; exact ⟨rfl, rfl⟩
    · have hd' : ds' ≠ [] := by
        rintro rfl; exact hd (by simpa using hp)
      have a := h.min_le _ (hp.mem_iff.2 (h'.min_mem hd'))
      have b := h'.min_le _ (hp.mem_iff.1 (h.min_mem hd))
      have c := h.le_max _ (hp.mem_iff.2 (h'.max_mem hd'))
      have d := h'.le_max _ (hp.mem_iff.1 (h.max_mem hd))
      exact ⟨by omega, by omega⟩
  cases e; cases e'; simp_all

/-- **C24.** The order of the events does not matter. -/
theorem C24_order_irrelevant (lg : Int → Int) (evs evs' : List TrxEvent) (hp : evs.Perm evs')
    (h : NonNeg evs) : (recordAll lg .new evs).ev = (recordAll lg .new evs').ev := by
  funext t
  have h' : NonNeg evs' := fun e hm => h e (hp.mem_iff.2 hm)
  exact summary_unique (hp.filterMap _) (C24_statistics_are_exact lg evs h t)
    (C24_statistics_are_exact lg evs' h' t)

/-- How often error `code` occurs. -/
def errorCount (code : Nat) (evs : List TrxEvent) : Nat := evs.countP fun e => e = .error code

theorem errors_recordAll (lg : Int → Int) (s : Stats) (evs : List TrxEvent) (code : Nat) :
    ((recordAll lg s evs).errors code).getD 0 = (s.errors code).getD 0 + errorCount code evs := by
  induction evs generalizing s with
  | nil => simp [recordAll, errorCount]
  | cons e evs ih =>
    have : recordAll lg s (e :: evs) = recordAll lg (s.event lg e) evs := rfl
    rw [this, ih]
    simp only [errorCount, List.countP_cons]
    cases e with
    | query t d => simp [Stats.event, Stats.record]
    | error c =>
      by_cases hc : code = c
      · subst hc; simp [Stats.event, Stats.error]; omega
      · simp [Stats.event, Stats.error, GoMap.set_other _ _ hc, Ne.symm hc]

/-- **C24.** Every error is counted under its code. -/
theorem C24_errors_are_counted (lg : Int → Int) (evs : List TrxEvent) (code : Nat) :
    ((recordAll lg .new evs).errors code).getD 0 = errorCount code evs := by
  simpa [Stats.new] using errors_recordAll lg .new evs code

example : let evs := [TrxEvent.query .read 100, .query .write 7, .error 1213, .query .read 50]
    NonNeg evs ∧ latencies .read evs = [100, 50] ∧ latencies .total evs = [100, 7, 50] := by
  exact ⟨by simp [NonNeg], rfl, rfl⟩

/-! ## C25 -/

/-- Combining the statistics of several sources, as the collector does (stats/collector.go:314-333):
start from zero, then combine each. -/
def combineAll (l : List Stats) : Stats := l.foldl Stats.combine .new

/-- All values but the minimum of two statistics are the same; error codes with count 0 are the same
as absent ones. -/
structure SameButMin (a b : Stats) : Prop where
  n : ∀ t, (a.ev t).n = (b.ev t).n
  buckets : ∀ t i, (a.ev t).buckets i = (b.ev t).buckets i
  max : ∀ t, (a.ev t).max = (b.ev t).max
  errors : ∀ k, (a.errors k).getD 0 = (b.errors k).getD 0

theorem combine_summary {bk : Int → Nat} {ds cs : List Int} {e c : EvStats}
    (h : IsSummary bk ds e) (hc : IsSummary bk cs c) (hnn : ∀ x ∈ ds, 0 ≤ x) (hcn : ∀ x ∈ cs, 0 ≤ x)
    (hm : cs ≠ [] ∨ ds = []) : IsSummary bk (ds ++ cs) (e.combine c) := by
  have hn := h.count
  refine ⟨by simp [EvStats.combine, hn, hc.count], ?_, ?_, ?_, ?_, ?_, ?_, ?_⟩
  · intro i; simp [EvStats.combine, h.bucket i, hc.bucket i, List.countP_append]
  · intro hh
    obtain ⟨h1, h2⟩ := List.append_eq_nil_iff.1 hh
    simp [EvStats.combine, h.none_min h1, hc.none_min h2]
  · intro hh
    obtain ⟨h1, h2⟩ := List.append_eq_nil_iff.1 hh
    simp [EvStats.combine, h.none_max h1, hc.none_max h2]
  · intro hne
    simp only [EvStats.combine]
    split
    · have : cs ≠ [] := by
        rcases hm with hm | hm
        · exact hm
        · rintro rfl; exact hne (by simp [hm])
      exact List.mem_append.2 (.inr (hc.min_mem this))
    · rename_i hcond
      push Not at hcond
      have : ds ≠ [] := by rintro rfl; simp at hn; omega
      exact List.mem_append.2 (.inl (h.min_mem this))
  · intro x hx
    simp only [EvStats.combine]
    rcases List.mem_append.1 hx with hx | hx
    · have := h.min_le x hx
      have hne : e.n ≠ 0 := by rw [hn]; intro hh; simp [List.length_eq_zero_iff.1 hh] at hx
      split
      · rename_i hcond; rcases hcond with hcond | hcond <;> omega
      · exact this
    · have := hc.min_le x hx
      split
      · exact this
      · rename_i hcond; push Not at hcond; omega
  · intro hne
    simp only [EvStats.combine]
    split
    · have : cs ≠ [] := by
        intro hcs
        have h1 := hc.none_max hcs
        by_cases hds : ds = []
        · exact hne (by simp [hds, hcs])
        · have := hnn _ (h.max_mem hds); omega
      exact List.mem_append.2 (.inr (hc.max_mem this))
    · by_cases hds : ds = []
      · have h1 := h.none_max hds
        have : cs ≠ [] := by rintro rfl; exact hne (by simp [hds])
        have h2 := hcn _ (hc.max_mem this)
        have h3 : e.max = c.max := by omega
        exact List.mem_append.2 (.inr (h3 ▸ hc.max_mem this))
      · exact List.mem_append.2 (.inl (h.max_mem hds))
  · intro x hx
    simp only [EvStats.combine]
    rcases List.mem_append.1 hx with hx | hx
    · have := h.le_max x hx; split <;> omega
    · have := hc.le_max x hx; split <;> omega

theorem NonNeg.append {a b : List TrxEvent} (ha : NonNeg a) (hb : NonNeg b) : NonNeg (a ++ b) :=
  fun e h => (List.mem_append.1 h).elim (ha e) (hb e)

/-- `EvStats` without the minimum. -/
def EvStats.noMin (e : EvStats) : (Nat → Nat) × Int × Nat := (e.buckets, e.max, e.n)

theorem combine_noMin {bk : Int → Nat} {ds cs : List Int} {e e' c : EvStats}
    (h : IsSummary bk ds e) (he : e'.noMin = e.noMin) (hc : IsSummary bk cs c)
    (hnn : ∀ x ∈ ds, 0 ≤ x) (hcn : ∀ x ∈ cs, 0 ≤ x) {r : EvStats}
    (hr : IsSummary bk (ds ++ cs) r) : (e'.combine c).noMin = r.noMin := by
  simp only [EvStats.noMin, Prod.mk.injEq] at he
  by_cases hm : cs ≠ [] ∨ ds = []
  · have := summary_unique (List.Perm.refl _) (combine_summary h hc hnn hcn hm) hr
    rw [← this]; simp [EvStats.noMin, EvStats.combine, he]
  · push Not at hm
    obtain ⟨hcs, hds⟩ := hm
    subst hcs
    have := summary_unique (List.Perm.refl _) h (by simpa using hr)
    subst this
    simp only [EvStats.noMin, EvStats.combine, he, hc.count, hc.bucket, hc.none_max rfl]
    have := hnn _ (h.max_mem hds)
    simp [this]

theorem foldl_combine_errors (l : List Stats) (s : Stats) (k : Nat) :
    ((l.foldl Stats.combine s).errors k).getD 0 =
      (s.errors k).getD 0 + (l.map fun c => (c.errors k).getD 0).sum := by
  induction l generalizing s with
  | nil => simp
  | cons c l ih =>
    simp only [List.foldl_cons, ih, List.map_cons, List.sum_cons, Stats.combine]
    cases hc : c.errors k with
    | none => simp
    | some v => simp; omega

/-- **C25** (all but the minimum). Combining the statistics of any number of clients gives the
counts, histograms, maxima and error counts of all their events recorded in one place; and the
minima of each event type, provided no client without events of that type is combined after one
with. Missing: the minimum without that proviso, which is false (`C25_minimum_false`). -/
theorem C25_combine_is_record_all_partial (lg : Int → Int) (L : List (List TrxEvent))
    (h : ∀ evs ∈ L, NonNeg evs) :
    SameButMin (combineAll (L.map (recordAll lg .new))) (recordAll lg .new L.flatten) ∧
      ∀ t, L.Pairwise (fun a b => latencies t a ≠ [] → latencies t b ≠ []) →
        ((combineAll (L.map (recordAll lg .new))).ev t).min =
          ((recordAll lg .new L.flatten).ev t).min := by
  have hfl : ∀ L : List (List TrxEvent), (∀ evs ∈ L, NonNeg evs) → NonNeg L.flatten := by
    intro L h e hm
    obtain ⟨evs, he, hm⟩ := List.mem_flatten.1 hm
    exact h evs he e hm
  have hev : ∀ t,
      ((combineAll (L.map (recordAll lg .new))).ev t).noMin =
        ((recordAll lg .new L.flatten).ev t).noMin ∧
      (L.Pairwise (fun a b => latencies t a ≠ [] → latencies t b ≠ []) →
        (combineAll (L.map (recordAll lg .new))).ev t = (recordAll lg .new L.flatten).ev t) := by
    intro t
    induction L using List.reverseRecOn with
    | nil => exact ⟨rfl, fun _ => rfl⟩
    | append_singleton L evs ih =>
      have hL : ∀ evs ∈ L, NonNeg evs := fun e he => h e (by simp [he])
      have hE : NonNeg evs := h evs (by simp)
      obtain ⟨ih1, ih2⟩ := ih hL
      have sL := C24_statistics_are_exact lg L.flatten (hfl L hL) t
      have sE := C24_statistics_are_exact lg evs hE t
      have sR := C24_statistics_are_exact lg (L.flatten ++ evs) ((hfl L hL).append hE) t
      rw [latencies_append] at sR
      have nL := latencies_nonneg (t := t) (hfl L hL)
      have nE := latencies_nonneg (t := t) hE
      have e1 : (combineAll ((L ++ [evs]).map (recordAll lg .new))).ev t =
          ((combineAll (L.map (recordAll lg .new))).ev t).combine ((recordAll lg .new evs).ev t) := by
        simp [combineAll, Stats.combine]
      rw [e1, show (L ++ [evs]).flatten = L.flatten ++ evs from by simp]
      refine ⟨combine_noMin sL ih1 sE nL nE sR, fun hp => ?_⟩
      obtain ⟨hp1, _, hp2⟩ := List.pairwise_append.1 hp
      rw [ih2 hp1]
      refine summary_unique (List.Perm.refl _) (combine_summary sL sE nL nE ?_) sR
      by_cases hne : latencies t L.flatten = []
      · exact .inr hne
      · left
        have : ∃ a ∈ L, latencies t a ≠ [] := by
          by_contra hc
          push Not at hc
          apply hne
          have : ∀ L : List (List TrxEvent), (∀ a ∈ L, latencies t a = []) →
              latencies t L.flatten = [] := by
            intro L
            induction L with
            | nil => intro _; rfl
            | cons a L ih =>
              intro hh
              rw [List.flatten_cons, latencies_append, hh a (by simp),
                ih fun b hb => hh b (by simp [hb])]
              rfl
          exact this L hc
        obtain ⟨a, ha, hane⟩ := this
        exact hp2 a ha evs (by simp) hane
  refine ⟨⟨fun t => ?_, fun t i => ?_, fun t => ?_, fun k => ?_⟩, fun t hp => by rw [(hev t).2 hp]⟩
  · have := (hev t).1; simp only [EvStats.noMin, Prod.mk.injEq] at this; exact this.2.2
  · have := (hev t).1; simp only [EvStats.noMin, Prod.mk.injEq] at this; rw [this.1]
  · have := (hev t).1; simp only [EvStats.noMin, Prod.mk.injEq] at this; exact this.2.1
  · rw [combineAll, foldl_combine_errors, C24_errors_are_counted]
    simp only [Stats.new, GoMap.empty_apply, Option.getD_none, Nat.zero_add, List.map_map]
    clear hev hfl h
    induction L with
    | nil => rfl
    | cons a L ih =>
      simp only [List.map_cons, List.sum_cons, ih, List.flatten_cons, Function.comp]
      rw [show recordAll lg ⟨fun _ => .zero, GoMap.empty⟩ a = recordAll lg .new a from rfl,
        C24_errors_are_counted]
      simp [errorCount, List.countP_append]

/-- Two clients with reads, of which the first had an error. -/
example : let L := [[TrxEvent.query .read 40, .error 1205], [TrxEvent.query .read 20]]
    (∀ evs ∈ L, NonNeg evs) ∧
      L.Pairwise (fun a b => latencies .read a ≠ [] → latencies .read b ≠ []) := by
  exact ⟨by simp [NonNeg], by simp [latencies]⟩

/-- **C25 is false for the minimum**: combining a client that recorded reads (here of 40 µs) with
one that recorded none reports a minimum of 0. -/
theorem C25_minimum_false (lg : Int → Int) :
    ¬ ∀ L : List (List TrxEvent), (∀ evs ∈ L, NonNeg evs) → ∀ t,
        ((combineAll (L.map (recordAll lg .new))).ev t).min =
          ((recordAll lg .new L.flatten).ev t).min := by
  intro h
  have := h [[.query .read 40], []] (by simp [NonNeg]) .read
  simp [combineAll, recordAll, Stats.event, Stats.record, Stats.combine, EvStats.combine,
    EvStats.record, setEv, Stats.new, EvStats.zero] at this

/-! ## C26 -/

/-- **C26** (no leftover errors). If the destination has no error codes that the source lacks, Copy
makes it equal to the source. Missing: other destinations, for which it is false
(`C26_copy_false`). -/
theorem C26_copy_equals_source_partial (s c : Stats)
    (h : ∀ k, c.errors k = none → s.errors k = none) : s.copy c = c := by
  have : (s.copy c).errors = c.errors := by
    funext k
    simp only [Stats.copy]
    cases hc : c.errors k with
    | none => simpa using h k hc
    | some v => rfl
  cases c; simpa [Stats.copy] using this

/-- **C26.** Everything but errors equals the source in any case. -/
theorem C26_copy_counts_equal_source (s c : Stats) : (s.copy c).ev = c.ev := rfl

/-- A destination with leftovers under a code the source has, too. -/
example : ∃ s c : Stats, s.errors 1213 = some 5 ∧ c.errors 1213 = some 2 ∧
    ∀ k, c.errors k = none → s.errors k = none := by
  refine ⟨Stats.new.error 1213 |>.combine ⟨fun _ => .zero, GoMap.empty.set 1213 4⟩,
    ⟨fun _ => .zero, GoMap.empty.set 1213 2⟩, by simp [Stats.combine, Stats.error, Stats.new, GoMap.set],
    by simp [GoMap.set], ?_⟩
  intro k
  simp only [Stats.combine, Stats.error, Stats.new, GoMap.set, GoMap.empty]
  by_cases hk : k = 1213 <;> simp [hk]

/-- **C26 is false in general**: errors left in the destination by an earlier interval stay if the
source has none of that code. -/
theorem C26_copy_false : ¬ ∀ s c : Stats, ∀ k, ((s.copy c).errors k).getD 0 = (c.errors k).getD 0 := by
  intro h
  have := h (Stats.new.error 1213) .new 1213
  simp [Stats.copy, Stats.new, Stats.error, GoMap.empty, GoMap.set] at this

end Finch
