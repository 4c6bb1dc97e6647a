import Verif.Props.PctWhole
import Verif.Props.Report
import Verif.Props.SizeText
/-!
C85 and C135 from the text of the option: percentiles as they are written.
-/
namespace Finch

/-- A decimal number and what it stands for. -/
inductive DecText : Text → ℚ → Prop where
  | whole (a : Text) : (∀ c ∈ a, isDigit c = true) → a ≠ [] → DecText a (decFrom 0 a)
  | point (a b : Text) : (∀ c ∈ a, isDigit c = true) → (∀ c ∈ b, isDigit c = true) → (a ≠ [] ∨ b ≠ []) →
      DecText (a ++ '.' :: b) (decFrom 0 a + (decFrom 0 b : ℚ) / 10 ^ b.length)

/-- What is assumed of `strconv.ParseFloat`, which stats/reporter.go:109 calls: a decimal number, zero or in
the range of normal float64 numbers, is rounded to the nearest float64. -/
def ReadsDecimals (pf : Text → Option FVal) : Prop :=
  ∀ s x, DecText s x → (x = 0 ∨ 1 / 2 ^ 1022 ≤ x) → x ≤ 2 ^ 1023 → pf s = some (.fin (f64 x))

theorem DecText.chars {s : Text} {x : ℚ} (h : DecText s x) :
    s ≠ [] ∧ (∀ c ∈ s, isDigit c = true ∨ c = '.') ∧ 0 ≤ x := by
  cases h with
  | whole _ h1 h2 => exact ⟨h2, fun c hc => .inl (h1 c hc), by positivity⟩
  | point a b h1 h2 h3 =>
    refine ⟨by simp, fun c hc => ?_, by positivity⟩
    simp only [List.mem_append, List.mem_cons] at hc
    rcases hc with hc | hc | hc
    · exact .inl (h1 c hc)
    · exact .inr hc
    · exact .inl (h2 c hc)

/-- Rounding stays in the range of percentiles. -/
theorem f64_percent {x : ℚ} (h0 : 0 ≤ x) (h1 : x ≤ 100) : 0 ≤ f64 x ∧ f64 x ≤ 100 := by
  have h100 : f64 100 = 100 := by
    have := f64_spec.int 100 (by norm_num)
    simpa using this
  have he := abs_le.1 (f64_err x)
  rw [abs_of_nonneg h0] at he
  constructor
  · norm_num at he ⊢
    linarith [he.1]
  · rcases h0.eq_or_lt with h | h
    · subst h
      norm_num at he
      linarith [he.2]
    · rw [← h100]; exact f64_mono h h1

/-- **C85** (numbers). For a list of decimal numbers from 0 to 100, the percentiles in use are these numbers, in
order, to the precision of float64. -/
theorem C85_numbers (pf : Text → Option FVal) (hpf : ReadsDecimals pf) (es : List PEntry) (hne : es ≠ [])
    (hok : ∀ e ∈ es, e.Ok) (vals : PEntry → ℚ) (hv : ∀ e ∈ es, DecText e.num (vals e))
    (hr : ∀ e ∈ es, (vals e = 0 ∨ 1 / 2 ^ 1022 ≤ vals e) ∧ vals e ≤ 100) :
    ∃ l, parsePercentiles pf (join [','] (es.map PEntry.text)) = some l ∧
      List.Forall₂ (fun e (p : Text × FVal) => p.1 = 'P' :: e.num ∧
        ∃ q, p.2 = .fin q ∧ 0 ≤ q ∧ q ≤ 100 ∧ |q - vals e| ≤ vals e / 2 ^ 53) es l := by
  refine ⟨_, C85_listed pf es hne hok (fun e => f64 (vals e)) (fun e he => ?_) (fun e he => ?_), ?_⟩
  · refine hpf _ _ (hv e he) (hr e he).1 ((hr e he).2.trans ?_)
    calc (100 : ℚ) ≤ 2 ^ 7 := by norm_num
      _ ≤ 2 ^ 1023 := pow_le_pow_right₀ (by norm_num) (by norm_num)
  · exact f64_percent (hv e he).chars.2.2 (hr e he).2
  · rw [List.forall₂_map_right_iff, List.forall₂_same]
    intro e he
    have h0 := (hv e he).chars.2.2
    obtain ⟨h1, h2⟩ := f64_percent h0 (hr e he).2
    refine ⟨rfl, _, rfl, h1, h2, ?_⟩
    have := f64_err (vals e)
    rwa [abs_of_nonneg h0] at this

/-- **C135** (from the option). A percentile with at most one digit after the point, written as documented: the value
that is reported for it is exact to a bucket, if rounding allows (`C135_exact_for`). -/
theorem C135_option {ln : ℚ → ℚ} (hln : LogSpec ln) (evs : List TrxEvent) (h : NonNeg evs)
    (t : Ev) (hne : latencies t evs ≠ []) (hl : ∀ d ∈ latencies t evs, d ≤ 8300000000)
    (hN : (latencies t evs).length ≤ 2 ^ 40) (pf : Text → Option FVal) (hpf : ReadsDecimals pf)
    (e : PEntry) (he : e.Ok) (a : Nat) (ha : a ≤ 1000) (hd : DecText e.num ((a : ℚ) / 10))
    (hr : f64 ((a : ℚ) / 10) ≤ f64 (f64 ((a : ℚ) / 1000) * 100)) :
    ∃ q, parsePercentiles pf e.text = some [('P' :: e.num, .fin q)] ∧
    ∃ v : Nat, (recordAll (lgF ln) .new evs).percentiles f64 hvF t [q] = [v] ∧
      (a : ℚ) / 10 ≤
        100 * ((latencies t evs).countP fun d : Int => (d : ℚ) ≤ 1.0471285480508996 * (v + 1) : ℚ) /
          (latencies t evs).length ∧
      (10 < v →
        100 * ((latencies t evs).countP fun d : Int => 1.0471285480508996 * ((d : ℚ) + 1) ≤ v : ℚ) /
          (latencies t evs).length < (a : ℚ) / 10) := by
  have haq : (a : ℚ) ≤ 1000 := by exact_mod_cast ha
  have ha100 : (a : ℚ) / 10 ≤ 100 := by linarith
  refine ⟨f64 ((a : ℚ) / 10), ?_, C135_exact hln evs h t hne hl hN a ha hr⟩
  have := C85_listed pf [e] (by simp) (by simpa using he) (fun _ => f64 ((a : ℚ) / 10))
    (by
      intro e' he'
      rw [List.mem_singleton] at he'
      subst he'
      refine hpf _ _ hd ?_ (ha100.trans ?_)
      · rcases Nat.eq_zero_or_pos a with h0 | h0
        · exact .inl (by rw [h0]; norm_num)
        · right
          have h1 : (1 : ℚ) ≤ a := by exact_mod_cast h0
          calc (1 : ℚ) / 2 ^ 1022 ≤ 1 / 2 ^ 4 :=
                one_div_le_one_div_of_le (by positivity) (pow_le_pow_right₀ (by norm_num) (by norm_num))
            _ ≤ a / 10 := by norm_num; linarith
      · calc (100 : ℚ) ≤ 2 ^ 7 := by norm_num
          _ ≤ 2 ^ 1023 := pow_le_pow_right₀ (by norm_num) (by norm_num))
    (by intro e' _; exact f64_percent (by positivity) ha100)
  simpa [join] using this

/-- **C135** (several clients, exactly). The percentiles of the combined statistics of any number of clients
are exact to a bucket in the same cases. -/
theorem C135_combined_exact {ln : ℚ → ℚ} (hln : LogSpec ln) (L : List (List TrxEvent))
    (h : ∀ evs ∈ L, NonNeg evs) (t : Ev) (hne : latencies t L.flatten ≠ [])
    (hl : ∀ d ∈ latencies t L.flatten, d ≤ 8300000000)
    (hN : (latencies t L.flatten).length ≤ 2 ^ 40) (a : Nat) (ha : a ≤ 1000)
    (hr : f64 ((a : ℚ) / 10) ≤ f64 (f64 ((a : ℚ) / 1000) * 100)) :
    ∃ v : Nat, (combineAll (L.map (recordAll (lgF ln) .new))).percentiles f64 hvF t [f64 ((a : ℚ) / 10)] = [v] ∧
      (a : ℚ) / 10 ≤
        100 * ((latencies t L.flatten).countP fun d : Int => (d : ℚ) ≤ 1.0471285480508996 * (v + 1) : ℚ) /
          (latencies t L.flatten).length ∧
      (10 < v →
        100 * ((latencies t L.flatten).countP fun d : Int => 1.0471285480508996 * ((d : ℚ) + 1) ≤ v : ℚ) /
          (latencies t L.flatten).length < (a : ℚ) / 10) := by
  have hfl : NonNeg L.flatten := by
    intro e hm
    obtain ⟨evs, he, hm⟩ := List.mem_flatten.1 hm
    exact h evs he e hm
  obtain ⟨v, h1, h2⟩ := C135_exact hln L.flatten hfl t hne hl hN a ha hr
  refine ⟨v, ?_, h2⟩
  rw [← h1]
  have hs := (C25_combine_is_record_all_partial (lgF ln) L h).1
  exact pctLoop_congr _ _ _ _ (hs.n t) (funext (hs.buckets t)) ..

/-- Two clients with the events of the example of C135 each, the 95th percentile. -/
example {ln : ℚ → ℚ} (hln : LogSpec ln) :
    ∃ v : Nat, (combineAll ([exPct, exPct].map (recordAll (lgF ln) .new))).percentiles f64 hvF .read
      [f64 (((10 * 95 : Nat) : ℚ) / 10)] = [v] := by
  have e : latencies .read [exPct, exPct].flatten =
      (List.replicate 57 20 ++ List.replicate 43 1000000) ++ (List.replicate 57 20 ++ List.replicate 43 1000000) := by
    have := exPct_latencies
    simp only [List.flatten_cons, List.flatten_nil, List.append_nil]
    rw [← this]
    simp [latencies]
  obtain ⟨v, h, _⟩ := C135_combined_exact hln [exPct, exPct] (by simp [exPct_nonNeg]) .read
    (List.ne_nil_of_length_pos (by rw [e]; simp only [List.length_append, List.length_replicate]; norm_num))
    (by
      rw [e]; intro d hd
      simp only [List.mem_append, List.mem_replicate] at hd
      rcases hd with (⟨_, rfl⟩ | ⟨_, rfl⟩) | (⟨_, rfl⟩ | ⟨_, rfl⟩) <;> norm_num)
    (by rw [e]; simp only [List.length_append, List.length_replicate]; norm_num) (10 * 95) (by norm_num) ((C135_exact_for.1 95 (by norm_num)).2 (by norm_num))
  exact ⟨v, h⟩

/-- A parser as assumed, and the percentile 99.9 as it is written. -/
example : (∃ pf, ReadsDecimals pf) ∧ DecText "99.9".toList (((999 : Nat) : ℚ) / 10) ∧
    (⟨[], ['P'], "99.9".toList, []⟩ : PEntry).Ok := by
  refine ⟨⟨fun s => (parseDec s).map fun x => .fin (f64 x), ?_⟩, ?_, ⟨by simp, by simp, by simp, by decide⟩⟩
  · intro s x h _ _
    have key : parseDec s = some x := by
      cases h with
      | whole _ h1 h2 =>
        have := parseDec_size ⟨s, s, none, []⟩ (m := 1) ⟨by
          simp only [SizeText.fracText, List.append_nil]
          exact List.filter_eq_self.2 fun c hc => by
            have := h1 c hc
            simp only [ne_eq, decide_eq_true_eq]
            rintro rfl
            revert this; decide, h1, by simp, .inl h2, by constructor⟩
        simpa [SizeText.fracText, SizeText.val] using this
      | point a b h1 h2 h3 =>
        have := parseDec_size ⟨a ++ '.' :: b, a, some b, []⟩ (m := 1) ⟨by
          simp only [SizeText.fracText]
          exact List.filter_eq_self.2 fun c hc => by
            simp only [ne_eq, decide_eq_true_eq]
            rintro rfl
            simp only [List.mem_append, List.mem_cons] at hc
            rcases hc with hc | hc | hc
            · have := h1 _ hc; revert this; decide
            · revert hc; decide
            · have := h2 _ hc; revert this; decide, h1, by simpa using h2, by simpa using h3, by constructor⟩
        simpa [SizeText.fracText, SizeText.val] using this
    simp [key]
  · have h := DecText.point ['9', '9'] ['9'] (by decide) (by decide) (by simp)
    have e1 : decFrom 0 ['9', '9'] = 99 := by decide
    have e2 : decFrom 0 ['9'] = 9 := by decide
    rw [e1, e2] at h
    have e3 : (((99 : Nat) : ℚ) + ((9 : Nat) : ℚ) / 10 ^ ['9'].length) = ((999 : Nat) : ℚ) / 10 := by norm_num
    rw [e3] at h
    exact h

end Finch
