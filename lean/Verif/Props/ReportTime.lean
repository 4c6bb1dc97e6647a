import Verif.Model.ReportTime
import Verif.Props.Report
/-!
# C112: times and rates of reports
-/
namespace Finch

/-! ### Seconds -/

theorem f64_near {x y : ℚ} (hx : 0 ≤ x) (h : f64 x = y) : x * (1 - 1 / 2 ^ 53) ≤ y ∧ y ≤ x * (1 + 1 / 2 ^ 53) := by
  have h1 := abs_le.1 (f64_err x)
  rw [abs_of_nonneg hx] at h1
  constructor <;> rw [← h] <;> linarith [h1.1, h1.2]

/-- **C112, seconds.** The seconds of a duration are the duration, up to the rounding of float64. -/
theorem C112_seconds (d : ℤ) (h0 : 0 ≤ d) (h1 : d < 2 ^ 63) :
    |durSeconds d - d / 1000000000| ≤ (d / 1000000000 : ℚ) / 2 ^ 52 * (1 + 1 / 2 ^ 50) := by
  unfold durSeconds
  have hq : d.tdiv 1000000000 = d / 1000000000 := Int.tdiv_eq_ediv_of_nonneg h0
  have hr : d.tmod 1000000000 = d % 1000000000 := Int.tmod_eq_emod_of_nonneg h0
  rw [hq, hr]
  have a0 : 0 ≤ d / 1000000000 := by omega
  have b0 : 0 ≤ d % 1000000000 := by omega
  have hd : (d : ℚ) / 1000000000 = ((d / 1000000000 : ℤ) : ℚ) + ((d % 1000000000 : ℤ) : ℚ) / 1000000000 := by
    have : d = 1000000000 * (d / 1000000000) + d % 1000000000 := (Int.mul_ediv_add_emod d 1000000000).symm
    have h2 : (d : ℚ) = 1000000000 * ((d / 1000000000 : ℤ) : ℚ) + ((d % 1000000000 : ℤ) : ℚ) := by
      exact_mod_cast this
    rw [h2]; ring
  have ea : f64 ((d / 1000000000 : ℤ) : ℚ) = ((d / 1000000000 : ℤ) : ℚ) := by
    apply f64_int; rw [abs_of_nonneg a0]; omega
  have eb : f64 ((d % 1000000000 : ℤ) : ℚ) = ((d % 1000000000 : ℤ) : ℚ) := by
    apply f64_int; rw [abs_of_nonneg b0]; omega
  rw [ea, eb, hd]
  have a0' : (0 : ℚ) ≤ ((d / 1000000000 : ℤ) : ℚ) := by exact_mod_cast a0
  have b0' : (0 : ℚ) ≤ ((d % 1000000000 : ℤ) : ℚ) / 1000000000 := by
    have : (0 : ℚ) ≤ ((d % 1000000000 : ℤ) : ℚ) := by exact_mod_cast b0
    positivity
  generalize ((d / 1000000000 : ℤ) : ℚ) = a at *
  generalize ((d % 1000000000 : ℤ) : ℚ) / 1000000000 = b at *
  obtain ⟨c1, c2⟩ := f64_near b0' rfl
  have hs : 0 ≤ a + f64 b := by nlinarith
  obtain ⟨c3, c4⟩ := f64_near hs rfl
  rw [abs_le]
  constructor <;> nlinarith

theorem durSeconds_zero : durSeconds 0 = 0 := by decide +kernel

theorem seconds_bounds (d : ℤ) (h0 : 0 ≤ d) (h1 : d < 2 ^ 63) :
    (d / 1000000000 : ℚ) * (1 - 1 / 2 ^ 51) ≤ durSeconds d ∧
    durSeconds d ≤ (d / 1000000000 : ℚ) * (1 + 1 / 2 ^ 51) := by
  have h := abs_le.1 (C112_seconds d h0 h1)
  have hd : (0 : ℚ) ≤ (d / 1000000000 : ℚ) := by
    have : (0 : ℚ) ≤ d := by exact_mod_cast h0
    positivity
  constructor <;> nlinarith [h.1, h.2]

/-! ### Intervals -/

/-- Readings of a clock that does not go back. -/
def Ascending : ℤ → List ℤ → Prop
  | _, [] => True
  | t, t' :: ts => t ≤ t' ∧ Ascending t' ts

theorem ascending_get : ∀ (ts : List ℤ) (t : ℤ), Ascending t ts → ∀ (k : Nat) (u : ℤ), ts[k]? = some u → t ≤ u := by
  intro ts
  induction ts with
  | nil => intro t _ k u h; simp at h
  | cons t' ts ih =>
    intro t h k u hk
    cases k with
    | zero => simp at hk; subst hk; exact h.1
    | succ k => exact le_trans h.1 (ih t' h.2 k u (by simpa using hk))

theorem clock_run_get (ts : List ℤ) : ∀ (c : CollClock) (k : Nat) (t p : ℤ), ts[k]? = some t →
    (c.last :: ts)[k]? = some p →
    (c.run ts)[k]? = some ⟨c.interval + k + 1, durSeconds (t - p), durSeconds (t - c.start)⟩ := by
  induction ts with
  | nil => intro c k t p h; simp at h
  | cons t' ts ih =>
    intro c k t p h hp
    cases k with
    | zero =>
      simp only [List.getElem?_cons_zero, Option.some.injEq] at h hp
      subst h hp
      rfl
    | succ k =>
      simp only [List.getElem?_cons_succ] at h hp
      have := ih (c.collect t').1 k t p h hp
      simp only [CollClock.run, List.getElem?_cons_succ]
      rw [this]
      simp only [CollClock.collect, Option.some.injEq, CollTime.mk.injEq, and_true]
      omega

/-- **C112, times.** Collection `k` of a run that started at `t0` has number `k + 1`. Its seconds are
the time since the collection before, or since the start, and its runtime is the time since the start, up
to the rounding of float64. -/
theorem C112_times (t0 : ℤ) (ts : List ℤ) (hasc : Ascending t0 ts) (hlt : ∀ t ∈ ts, t - t0 < 2 ^ 63)
    (k : Nat) (t p : ℤ) (hk : ts[k]? = some t) (hp : (t0 :: ts)[k]? = some p) :
    ∃ r, ((CollClock.new t0).run ts)[k]? = some r ∧ r.interval = k + 1 ∧ p ≤ t ∧
      |r.seconds - (t - p : ℤ) / 1000000000| ≤ ((t - p : ℤ) / 1000000000 : ℚ) / 2 ^ 51 ∧
      |r.runtime - (t - t0 : ℤ) / 1000000000| ≤ ((t - t0 : ℤ) / 1000000000 : ℚ) / 2 ^ 51 := by
  have hpt : p ≤ t ∧ t0 ≤ p := by
    clear hlt
    induction ts generalizing t0 k with
    | nil => simp at hk
    | cons t' ts ih =>
      cases k with
      | zero =>
        simp only [List.getElem?_cons_zero, Option.some.injEq] at hk hp
        subst hk hp; exact ⟨hasc.1, le_refl _⟩
      | succ k =>
        simp only [List.getElem?_cons_succ] at hk hp
        have := ih t' hasc.2 k hk hp
        exact ⟨this.1, le_trans hasc.1 this.2⟩
  have hl := hlt t (List.mem_of_getElem? hk)
  refine ⟨_, clock_run_get ts (CollClock.new t0) k t p hk hp, by simp [CollClock.new], hpt.1, ?_, ?_⟩
  · obtain ⟨h1, h2⟩ := seconds_bounds (t - p) (by omega) (by omega)
    rw [abs_le]; constructor <;> linarith
  · obtain ⟨h1, h2⟩ := seconds_bounds (t - t0) (by omega) (by omega)
    simp only [CollClock.new]
    rw [abs_le]; constructor <;> linarith

theorem clock_sum (ts : List ℤ) : ∀ (c : CollClock), Ascending c.last ts →
    (∀ t ∈ ts, t - c.last < 2 ^ 63) → ∀ (t : ℤ), ts.getLast? = some t →
    ((t - c.last : ℤ) / 1000000000 : ℚ) * (1 - 1 / 2 ^ 51) ≤ ((c.run ts).map CollTime.seconds).sum ∧
    ((c.run ts).map CollTime.seconds).sum ≤ ((t - c.last : ℤ) / 1000000000 : ℚ) * (1 + 1 / 2 ^ 51) := by
  induction ts with
  | nil => intro c _ _ t h; simp at h
  | cons t' ts ih =>
    intro c hasc hlt t ht
    have h0 := hlt t' (by simp)
    obtain ⟨h1, h2⟩ := seconds_bounds (t' - c.last) (by have := hasc.1; omega) h0
    cases ts with
    | nil =>
      simp only [List.getLast?_singleton, Option.some.injEq] at ht
      subst ht
      simp only [CollClock.run, CollClock.collect, List.map_cons, List.map_nil, List.sum_cons,
        List.sum_nil, add_zero]
      exact ⟨h1, h2⟩
    | cons t'' ts =>
      have ht' : (t'' :: ts).getLast? = some t := by simpa using ht
      obtain ⟨h3, h4⟩ := ih (c.collect t').1 hasc.2
        (fun u hu => by
          have := hlt u (by simp only [List.mem_cons] at hu ⊢; exact Or.inr hu)
          have := hasc.1
          simp only [CollClock.collect]; omega) t ht'
      simp only [CollClock.run, List.map_cons, List.sum_cons] at h3 h4 ⊢
      simp only [CollClock.collect] at h3 h4 ⊢
      push_cast at *
      constructor <;> linarith

/-- **C112, sum.** The seconds of all intervals up to the last are its runtime, up to the rounding of
float64: no time is missing or counted twice. -/
theorem C112_seconds_add_up (t0 : ℤ) (ts : List ℤ) (hasc : Ascending t0 ts)
    (hlt : ∀ t ∈ ts, t - t0 < 2 ^ 63) (r : CollTime) (hr : ((CollClock.new t0).run ts).getLast? = some r) :
    |(((CollClock.new t0).run ts).map CollTime.seconds).sum - r.runtime| ≤ r.runtime / 2 ^ 49 := by
  have hlen : ∀ (ts : List ℤ) (c : CollClock), (c.run ts).length = ts.length := by
    intro ts
    induction ts with
    | nil => intro c; rfl
    | cons t ts ih => intro c; simp [CollClock.run, ih]
  cases hts : ts with
  | nil => subst hts; simp [CollClock.run] at hr
  | cons t' ts' =>
    have hne : ts ≠ [] := by rw [hts]; simp
    rw [← hts]
    have hl : ts.getLast? = some (ts.getLast hne) := List.getLast?_eq_some_getLast hne
    obtain ⟨h1, h2⟩ := clock_sum ts (CollClock.new t0) hasc hlt _ hl
    have hk : ts[ts.length - 1]? = some (ts.getLast hne) := by
      rw [← List.getLast?_eq_getElem?]; exact hl
    obtain ⟨p, hp⟩ : ∃ p, (t0 :: ts)[ts.length - 1]? = some p :=
      ⟨_, List.getElem?_eq_getElem (by simp; omega)⟩
    have h3 := clock_run_get ts (CollClock.new t0) _ _ p hk hp
    rw [List.getLast?_eq_getElem?, hlen, h3] at hr
    simp only [Option.some.injEq] at hr
    have ht0 : t0 ≤ ts.getLast hne := ascending_get ts t0 hasc _ _ hk
    obtain ⟨h4, h5⟩ := seconds_bounds (ts.getLast hne - t0) (by omega)
      (hlt _ (List.getLast_mem hne))
    have hrt : r.runtime = durSeconds (ts.getLast hne - t0) := by rw [← hr]; rfl
    rw [hrt]
    have hD : (0 : ℚ) ≤ ((ts.getLast hne - t0 : ℤ) / 1000000000 : ℚ) := by
      have : (0 : ℚ) ≤ ((ts.getLast hne - t0 : ℤ) : ℚ) := by exact_mod_cast (by omega)
      positivity
    have e : (CollClock.new t0).last = t0 := rfl
    rw [e] at h1 h2
    generalize ((ts.getLast hne - t0 : ℤ) / 1000000000 : ℚ) = D at *
    rw [abs_le]
    constructor <;> nlinarith

/-! ### Texts -/

theorem roundEven_nonneg {x : ℚ} (h : 0 ≤ x) : 0 ≤ roundEven x := by
  have := Int.floor_nonneg.2 h
  unfold roundEven
  simp only
  split <;> (try split) <;> (try split) <;> omega

theorem f1Text_form : F1Text f1Text := by
  intro q c h
  simp only [f1Text, List.mem_append, List.mem_cons] at h
  rcases h with h | h | h
  · exact Or.inl (decimal_mem h)
  · exact Or.inr (Or.inl h)
  · exact Or.inl (decimal_mem h)

/-- **C112, text.** A duration is printed with one digit after the point, and what is printed is at most
0.05 seconds away from the duration (and the rounding of float64). -/
theorem C112_text (d : ℤ) (h0 : 0 ≤ d) (h1 : d < 2 ^ 63) :
    ∃ k : Nat, f1Text (durSeconds d) = decimal (k / 10) ++ '.' :: decimal (k % 10) ∧
      |(k / 10 : ℚ) - d / 1000000000| ≤ 1 / 20 + (d / 1000000000 : ℚ) / 2 ^ 51 := by
  refine ⟨(roundEven (durSeconds d * 10)).toNat, rfl, ?_⟩
  obtain ⟨h2, h3⟩ := seconds_bounds d h0 h1
  have hd : (0 : ℚ) ≤ (d / 1000000000 : ℚ) := by
    have : (0 : ℚ) ≤ d := by exact_mod_cast h0
    positivity
  have hs : 0 ≤ durSeconds d * 10 := by nlinarith
  have e : (((roundEven (durSeconds d * 10)).toNat : Nat) : ℚ) = (roundEven (durSeconds d * 10) : ℚ) := by
    have := Int.toNat_of_nonneg (roundEven_nonneg hs)
    exact_mod_cast this
  rw [e]
  have h4 := abs_le.1 (roundEven_err (durSeconds d * 10))
  rw [abs_le]
  constructor <;> linarith [h4.1, h4.2]

/-! ### Rates -/

/-- **C112, rate.** For `n` queries in a duration that is not zero, the rate is `n` per duration, rounded
down, up to the rounding of float64. -/
theorem C112_rate (undef : Int) (n : Nat) (hn : n ≤ 2 ^ 53) (d : ℤ) (h0 : 0 < d) (h1 : d < 2 ^ 63)
    (hx : (n : ℚ) / (d / 1000000000) ≤ 2 ^ 62) :
    0 ≤ goRate undef n (durSeconds d) ∧
    (goRate undef n (durSeconds d) : ℚ) ≤ n / (d / 1000000000) * (1 + 1 / 2 ^ 50) ∧
    (n : ℚ) / (d / 1000000000) * (1 - 1 / 2 ^ 50) - 1 < goRate undef n (durSeconds d) := by
  obtain ⟨h2, h3⟩ := seconds_bounds d h0.le h1
  have hd : (0 : ℚ) < (d / 1000000000 : ℚ) := by
    have : (0 : ℚ) < d := by exact_mod_cast h0
    positivity
  have hs : 0 < durSeconds d := by nlinarith
  have en : f64 (n : ℚ) = n := by
    have := f64_int (n : ℤ) (by rw [abs_of_nonneg (by omega)]; exact_mod_cast hn)
    simpa using this
  unfold goRate
  rw [if_neg hs.ne', en]
  generalize durSeconds d = s at *
  generalize (d / 1000000000 : ℚ) = D at *
  have hn0 : (0 : ℚ) ≤ n := by positivity
  have hy0 : 0 ≤ (n : ℚ) / s := by positivity
  have u1 : (n : ℚ) / s * (1 - 1 / 2 ^ 51) ≤ n / D := by
    rw [div_mul_eq_mul_div, div_le_div_iff₀ hs hd]; nlinarith
  have u2 : (n : ℚ) / D ≤ n / s * (1 + 1 / 2 ^ 51) := by
    rw [div_mul_eq_mul_div, div_le_div_iff₀ hd hs]; nlinarith
  obtain ⟨v1, v2⟩ := f64_near hy0 rfl
  have hx0 : 0 ≤ (n : ℚ) / D := by positivity
  generalize (n : ℚ) / s = y at *
  generalize (n : ℚ) / D = x at *
  have w1 : f64 y ≤ x * (1 + 1 / 2 ^ 50) := by nlinarith
  have w2 : x * (1 - 1 / 2 ^ 50) ≤ f64 y := by nlinarith
  have w0 : 0 ≤ f64 y := by nlinarith
  have f0 : 0 ≤ ⌊f64 y⌋ := Int.floor_nonneg.2 w0
  have f1 : (⌊f64 y⌋ : ℚ) ≤ f64 y := Int.floor_le _
  have f2 : f64 y < ⌊f64 y⌋ + 1 := Int.lt_floor_add_one _
  have f3 : ⌊f64 y⌋ < 2 ^ 63 := by
    rw [Int.floor_lt]
    push_cast
    nlinarith
  have hc : convI64 undef ⌊f64 y⌋ = ⌊f64 y⌋ := by
    unfold convI64; rw [if_pos ⟨by omega, f3⟩]
  rw [hc]
  exact ⟨f0, by linarith, by linarith⟩

/-- **C112.** Without any time between collections the rate is whatever the conversion of an infinite
number gives. -/
theorem C112_no_time (undef : Int) (n : Nat) : goRate undef n (durSeconds 0) = undef := by
  rw [durSeconds_zero]; simp [goRate]

/-! ### Lines -/

theorem combine_foldl_n (l : List Stats) : ∀ (s : Stats) (t : Ev),
    ((l.foldl Stats.combine s).ev t).n = (s.ev t).n + (l.map fun c => (c.ev t).n).sum := by
  induction l with
  | nil => intro s t; simp
  | cons c l ih =>
    intro s t
    rw [List.foldl_cons, ih]
    simp only [List.map_cons, List.sum_cons, Stats.combine, EvStats.combine]
    omega

theorem csvCombined_n {i : Stats} {l : List Stats} {T : Stats} (h : csvCombined (i :: l) = .ok T) (t : Ev) :
    (T.ev t).n = ((i :: l).map fun c => (c.ev t).n).sum := by
  simp only [csvCombined, combineInto, Res.ok.injEq] at h
  rw [← h, combine_foldl_n]
  simp [Stats.copy]

/-- **C112, CSV lines.** In the line of a report, the second and third fields (duration, runtime) are the
seconds and the runtime of the first instance. QPS, r_QPS, w_QPS and TPS are the rates of all queries,
reads, writes and commits of all instances in the seconds of the first. -/
theorem C112_csv {pf : Text → Option FVal} {csv : Text} {l : List (Text × FVal)}
    (hl : parsePercentiles pf csv = some l) (undef : Int) (pct : Stats → Ev → List Nat)
    (hlen : ∀ s t, (pct s t).length = l.length) (errs : Stats → Nat) (i : InstLine) (rest : List InstLine)
    (hhost : rest = [] → ',' ∉ i.hostname) :
    ∃ line, csvReport (goLineEnv undef pct) errs (i :: rest) = some line ∧
      (splitOn1 ',' line)[1]? = some (f1Text i.seconds) ∧
      (splitOn1 ',' line)[2]? = some (f1Text i.runtime) ∧
      ∀ x ∈ [(4, Ev.total), (7 + l.length, .read), (10 + 2 * l.length, .write), (13 + 3 * l.length, .commit)],
        (splitOn1 ',' line)[x.1]? =
          some (decInt (goRate undef (((i :: rest).map fun j => (j.total.ev x.2).n).sum) i.seconds)) := by
  obtain ⟨line, T, h1, h2, -, h4⟩ := C86_csv_partial hl (goLineEnv undef pct) f1Text_form hlen errs i rest hhost
  refine ⟨line, h1, by rw [h4]; rfl, by rw [h4]; rfl, ?_⟩
  have hn : ∀ t, (T.ev t).n = ((i :: rest).map fun j => (j.total.ev t).n).sum := by
    intro t
    rw [csvCombined_n h2 t]; simp [List.map_map, Function.comp_def]
  have hg : ∀ (w : InstLine) (a b : String) (t : Ev),
      (groupCols (goLineEnv undef pct) decInt (l.map Prod.fst) w a b t).length = 3 + l.length := by
    intro w a b t
    simp [groupCols, goLineEnv, hlen]
    omega
  have hz : ∀ (w : InstLine) (a b : String) (t : Ev) (r : List (Text × Text)),
      (groupCols (goLineEnv undef pct) decInt (l.map Prod.fst) w a b t ++ r)[0]? =
        some (a.toList, decInt (goRate undef (w.total.ev t).n w.seconds)) := by
    intro w a b t r
    simp [groupCols, goLineEnv]
  rw [h4]
  intro x hx
  rw [← hn, List.getElem?_map]
  generalize hw : ({ i with total := T, clients := ((i :: rest).map (·.clients)).sum, errs := errs T } : InstLine) = w
  have e1 : T = w.total := by rw [← hw]
  have e2 : i.seconds = w.seconds := by rw [← hw]
  rw [e1, e2]
  simp only [reportCols, List.append_assoc]
  simp only [List.mem_cons, List.not_mem_nil, or_false] at hx
  rcases hx with rfl | rfl | rfl | rfl
  · rw [List.getElem?_append_right (by simp)]
    simp only [List.length_cons, List.length_nil]
    rw [show 4 - (0 + 1 + 1 + 1 + 1) = 0 by rfl, hz]; rfl
  · rw [List.getElem?_append_right (by simp; omega), List.getElem?_append_right (by simp [hg]; omega), hg]
    simp only [List.length_cons, List.length_nil]
    rw [show 7 + l.length - (0 + 1 + 1 + 1 + 1) - (3 + l.length) = 0 by omega, hz]; rfl
  · rw [List.getElem?_append_right (by simp; omega), List.getElem?_append_right (by simp [hg]; omega), hg,
      List.getElem?_append_right (by simp [hg]; omega), hg]
    simp only [List.length_cons, List.length_nil]
    rw [show 10 + 2 * l.length - (0 + 1 + 1 + 1 + 1) - (3 + l.length) - (3 + l.length) = 0 by omega, hz]; rfl
  · rw [List.getElem?_append_right (by simp; omega), List.getElem?_append_right (by simp [hg]; omega), hg,
      List.getElem?_append_right (by simp [hg]; omega), hg, List.getElem?_append_right (by simp [hg]; omega), hg]
    simp only [List.length_cons, List.length_nil]
    rw [show 13 + 3 * l.length - (0 + 1 + 1 + 1 + 1) - (3 + l.length) - (3 + l.length) - (3 + l.length) = 0 by omega,
      hz]; rfl

/-- Spec: the text of a rate for `n` events in `d` nanoseconds: the number of events per second rounded
down, up to the rounding of float64. -/
def RateText (n : Nat) (d : ℤ) (t : Text) : Prop :=
  ∃ q : Nat, t = decimal q ∧ (q : ℚ) ≤ n / (d / 1000000000) * (1 + 1 / 2 ^ 50) ∧
    (n : ℚ) / (d / 1000000000) * (1 - 1 / 2 ^ 50) - 1 < q

/-- **C112 (partial).** If all instances of a report measured the same duration `d`, QPS, r_QPS, w_QPS and
TPS of its line are the rates of all their queries, reads, writes and commits together.

Partial: for instances with different durations the rates depend on the order in which their statistics
came (`C112_order_false`). -/
theorem C112_combined_rate_partial {pf : Text → Option FVal} {csv : Text} {l : List (Text × FVal)}
    (hl : parsePercentiles pf csv = some l) (undef : Int) (pct : Stats → Ev → List Nat)
    (hlen : ∀ s t, (pct s t).length = l.length) (errs : Stats → Nat) (insts : List InstLine) (hne : insts ≠ [])
    (hhost : ∀ i, insts = [i] → ',' ∉ i.hostname) (d : ℤ) (h0 : 0 < d) (h1 : d < 2 ^ 63)
    (hd : ∀ i ∈ insts, i.seconds = durSeconds d)
    (hn : ∀ t, (insts.map fun j => (j.total.ev t).n).sum ≤ 2 ^ 53)
    (hx : ∀ t, (((insts.map fun j => (j.total.ev t).n).sum : Nat) : ℚ) / (d / 1000000000) ≤ 2 ^ 62) :
    ∃ line, csvReport (goLineEnv undef pct) errs insts = some line ∧
      ∀ x ∈ [(4, Ev.total), (7 + l.length, .read), (10 + 2 * l.length, .write), (13 + 3 * l.length, .commit)],
        ∃ t, (splitOn1 ',' line)[x.1]? = some t ∧
          RateText ((insts.map fun j => (j.total.ev x.2).n).sum) d t := by
  cases insts with
  | nil => exact absurd rfl hne
  | cons i rest =>
    obtain ⟨line, h2, -, -, h3⟩ := C112_csv hl undef pct hlen errs i rest
      (fun h => hhost i (by rw [h]))
    refine ⟨line, h2, fun x hxm => ⟨_, h3 x hxm, ?_⟩⟩
    rw [hd i (by simp)]
    obtain ⟨g0, g1, g2⟩ := C112_rate undef _ (hn x.2) d h0 h1 (hx x.2)
    generalize goRate undef _ (durSeconds d) = q at *
    refine ⟨q.toNat, ?_, ?_, ?_⟩
    · unfold decInt
      rw [if_neg (by omega)]
      congr 1; omega
    · have : ((q.toNat : Nat) : ℚ) = (q : ℚ) := by exact_mod_cast Int.toNat_of_nonneg g0
      rw [this]; exact g1
    · have : ((q.toNat : Nat) : ℚ) = (q : ℚ) := by exact_mod_cast Int.toNat_of_nonneg g0
      rw [this]; exact g2

/-- Statistics of `n` reads. -/
def nReads (n : Nat) : Stats :=
  ⟨fun t => match t with
    | .read => ⟨fun _ => 0, 1, 1, n⟩
    | .total => ⟨fun _ => 0, 1, 1, n⟩
    | _ => ⟨fun _ => 0, 0, 0, 0⟩, fun _ => none⟩

/-- An instance with 100 reads in `d` nanoseconds. -/
def hundred (host : String) (d : ℤ) : InstLine :=
  { hostname := host.toList, clients := 1, interval := 1, seconds := durSeconds d, runtime := durSeconds d
    total := nReads 100, errs := 0 }

/-- **C112 is false of the code** for instances with different durations (possible if stats are reported
at the end only): for 100 queries in 1 second on one and 100 in 100 seconds on the other, the line says
200 or 2 queries per second, depending on whose statistics came first. -/
theorem C112_order_false :
    (csvReport (goLineEnv 0 fun _ _ => [1]) (fun _ => 0)
      [hundred "a" 1000000000, hundred "b" 100000000000]).map (fun t => ((splitOn1 ',' t)[1]?, (splitOn1 ',' t)[4]?)) =
        some (some "1.0".toList, some "200".toList) ∧
    (csvReport (goLineEnv 0 fun _ _ => [1]) (fun _ => 0)
      [hundred "b" 100000000000, hundred "a" 1000000000]).map (fun t => ((splitOn1 ',' t)[1]?, (splitOn1 ',' t)[4]?)) =
        some (some "100.0".toList, some "2".toList) := by
  constructor <;> decide +kernel

/-- The hypotheses are met: two collections, 2.25 and 1.5 seconds, and a line for 7 queries per 2.25
seconds on each of two instances. -/
example : Ascending 5 [2250000005, 3750000005] ∧
    (CollClock.new 5).run [2250000005, 3750000005] = [⟨1, 9 / 4, 9 / 4⟩, ⟨2, 3 / 2, 15 / 4⟩] ∧
    f1Text (9 / 4) = "2.2".toList ∧
    goRate 0 14 (durSeconds 2250000000) = 6 ∧
    (csvReport (goLineEnv 0 fun _ _ => [1]) (fun _ => 0)
      [{ hundred "a" 2250000000 with total := nReads 7 }, { hundred "b" 2250000000 with total := nReads 7 }]).map
        (fun t => (splitOn1 ',' t)[4]?) = some (some "6".toList) := by
  refine ⟨⟨by norm_num, by norm_num, trivial⟩, ?_, ?_, ?_, ?_⟩ <;> decide +kernel

end Finch
