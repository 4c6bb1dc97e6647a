import Verif.Props.Duration
/-!
C136 for durations with a part that is too long.
-/
namespace Finch

/-- The nanoseconds of a fraction are at least what is written, less one (and a bit). -/
theorem durFloat_ge (f sc n : Nat) (hn1 : 1 ≤ n) (hn2 : n ≤ 3600000000000) (hfsc : f < sc) :
    (f : ℚ) / sc * n - 501 / 500 ≤ (⌊f64 (f64 f * f64 ((n : ℚ) / sc))⌋.toNat : ℚ) := by
  have hscq : (0 : ℚ) < sc := by exact_mod_cast (by omega : 0 < sc)
  have hnq : (0 : ℚ) < n := by exact_mod_cast hn1
  have hx1 : (f : ℚ) / sc * n ≤ 3600000000000 := by
    have h1 : (f : ℚ) / sc ≤ 1 := by
      rw [div_le_one hscq]; exact_mod_cast hfsc.le
    have h2 : (n : ℚ) ≤ 3600000000000 := by exact_mod_cast hn2
    calc (f : ℚ) / sc * n ≤ 1 * n := mul_le_mul_of_nonneg_right h1 hnq.le
      _ ≤ _ := by linarith
  have ha := abs_le.1 (f64_err (f : ℚ))
  have hb := abs_le.1 (f64_err ((n : ℚ) / sc))
  have hc := abs_le.1 (f64_err (f64 f * f64 ((n : ℚ) / sc)))
  have hfq : (0 : ℚ) ≤ f := by positivity
  have hyq : (0 : ℚ) ≤ (n : ℚ) / sc := by positivity
  rw [abs_of_nonneg hfq] at ha
  rw [abs_of_nonneg hyq] at hb
  have hxy : (f : ℚ) / sc * n = f * ((n : ℚ) / sc) := by ring
  rw [hxy] at hx1 ⊢
  generalize (n : ℚ) / sc = y at *
  generalize f64 (f : ℚ) = a at *
  generalize f64 y = b at *
  generalize f64 (a * b) = c at *
  have ha1 : (f : ℚ) * (1 - 1 / 2 ^ 53) ≤ a := by linarith [ha.1]
  have hb1 : y * (1 - 1 / 2 ^ 53) ≤ b := by linarith [hb.1]
  have ha0 : 0 ≤ a := le_trans (mul_nonneg hfq (by norm_num)) ha1
  have hb0 : 0 ≤ b := le_trans (mul_nonneg hyq (by norm_num)) hb1
  have hab1 : (f : ℚ) * (1 - 1 / 2 ^ 53) * (y * (1 - 1 / 2 ^ 53)) ≤ a * b :=
    mul_le_mul ha1 hb1 (mul_nonneg hyq (by norm_num)) ha0
  rw [abs_of_nonneg (mul_nonneg ha0 hb0)] at hc
  have e1 : (f : ℚ) * (1 - 1 / 2 ^ 53) * (y * (1 - 1 / 2 ^ 53)) = f * y * (1 - 1 / 2 ^ 53) ^ 2 := by ring
  rw [e1] at hab1
  generalize (f : ℚ) * y = x at *
  generalize a * b = z at *
  have hc1 : x - 1 / 500 ≤ c := by
    norm_num at hab1 hc ⊢
    linarith [hc.1]
  have hf2 := Int.lt_floor_add_one c
  have hle : ((⌊c⌋ : ℤ) : ℚ) ≤ ((⌊c⌋.toNat : ℤ) : ℚ) := by exact_mod_cast Int.self_le_toNat ⌊c⌋
  push_cast at hle
  linarith

/-- A number of more than 292 years is refused. -/
theorem durValue_long (v f sc n : Nat) (hn1 : 1 ≤ n) (hn2 : n ≤ 3600000000000) (hf : f < sc ∨ f = 0)
    (hE : (9223372036854775808 : ℚ) + 3 / 2 ≤ (v : ℚ) * n + (f : ℚ) / sc * n) :
    durValue v f sc n = none := by
  unfold durValue
  split
  · rfl
  · rename_i hv
    rw [not_lt, Nat.le_div_iff_mul_le hn1] at hv
    have hvq : (v : ℚ) * n ≤ 9223372036854775808 := by exact_mod_cast hv
    dsimp only
    have hf0 : f ≠ 0 := by
      rintro rfl
      norm_num at hE
      linarith
    have hge := durFloat_ge f sc n hn1 hn2 (by omega)
    rw [if_pos (by omega), if_pos]
    generalize ⌊f64 (f64 f * f64 ((n : ℚ) / sc))⌋.toNat = m at *
    have : (9223372036854775808 : ℚ) < ((v * n + m : Nat) : ℚ) := by push_cast; linarith
    exact_mod_cast this

theorem durLoop_long (ps : List DurText) (h : ∀ p ∈ ps, ∃ n, p.Ok n)
    (hl : ∃ p ∈ ps, ∃ n, p.Ok n ∧ 9223372036854775810 ≤ p.num * n) (left d : Nat) :
    durLoop left d (ps.flatMap DurText.text) = none := by
  induction ps generalizing left d with
  | nil => simp at hl
  | cons p ps ih =>
    have hnext := parts_next ps (fun p hm => h p (by simp [hm]))
    obtain ⟨n, hp⟩ := h p (by simp)
    have hlen := (text_head p hp).1
    obtain ⟨f, sc, hcut, hpart⟩ := durPart_text p hp
    have hpt := hpart _ hnext
    rw [List.flatMap_cons]
    have hne : p.text ++ ps.flatMap DurText.text ≠ [] := by
      intro e
      have := (List.append_eq_nil_iff.1 e).1
      rw [this] at hlen
      simp at hlen
    have step : durPart (p.text ++ ps.flatMap DurText.text) = none ∨
        ∃ w, durPart (p.text ++ ps.flatMap DurText.text) = some (w, ps.flatMap DurText.text) ∧
          ∃ p ∈ ps, ∃ n, p.Ok n ∧ 9223372036854775810 ≤ p.num * n := by
      rw [hpt]
      split
      · cases hw : durValue (decFrom 0 p.int) f sc n with
        | none => exact .inl rfl
        | some w =>
          refine .inr ⟨w, rfl, ?_⟩
          obtain ⟨p', hm, n', hp', hb⟩ := hl
          rcases List.mem_cons.1 hm with e | hm
          · exfalso
            subst e
            have hnn : n' = n := by
              have h1 := (durUnit_iff _ _).2 hp'.unit
              rw [(durUnit_iff _ _).2 hp.unit] at h1
              exact (Option.some.inj h1).symm
            subst hnn
            obtain ⟨-, -, hn1, hn2⟩ := durUnit_ok ((durUnit_iff _ _).2 hp.unit)
            have hnq : (n' : ℚ) ≤ 3600000000000 := by exact_mod_cast hn2
            have hn0 : (0 : ℚ) ≤ n' := by positivity
            have hnum : p'.num * n' = (decFrom 0 p'.int : ℚ) * n' + p'.fr * n' := by
              have : p'.num = decFrom 0 p'.int + p'.fr := rfl
              rw [this]; ring
            have hhi : p'.fr * n' ≤ (f : ℚ) / sc * n' + 1 / 1000 := by
              have := mul_le_mul_of_nonneg_right hcut.near hn0
              rw [add_mul] at this
              have h2 : (1 : ℚ) / 10 ^ 18 * n' ≤ 1 / 1000 := by
                calc (1 : ℚ) / 10 ^ 18 * n' ≤ 1 / 10 ^ 18 * 3600000000000 :=
                      mul_le_mul_of_nonneg_left hnq (by positivity)
                  _ ≤ _ := by norm_num
              linarith
            rw [hnum] at hb
            rw [durValue_long (decFrom 0 p'.int) f sc n' hn1 hn2 hcut.lt (by linarith)] at hw
            cases hw
          · exact ⟨p', hm, n', hp', hb⟩
      · exact .inl rfl
    generalize p.text ++ ps.flatMap DurText.text = s at *
    cases s with
    | nil => exact absurd rfl hne
    | cons c s =>
      cases left with
      | zero => rfl
      | succ left =>
        rcases step with e | ⟨w, e, hl'⟩
        · rw [durLoop, e]; simp
        · have := ih (fun p hm => h p (by simp [hm])) hl' left ((d + w) % 18446744073709551616)
          rw [durLoop, e]
          · simp [this]
          · simp

/-- **C136** (too long). A duration of which one number alone is more than 292 years is refused, whatever
the others are. -/
theorem C136_too_long (ps : List DurText) (h : ∀ p ∈ ps, ∃ n, p.Ok n)
    (hl : ∃ p ∈ ps, ∃ n, p.Ok n ∧ 2 ^ 63 + 2 ≤ p.num * n) :
    parseDuration (ps.flatMap DurText.text) = none ∧
    parseDuration ('+' :: ps.flatMap DurText.text) = none ∧
    parseDuration ('-' :: ps.flatMap DurText.text) = none := by
  have hloop := durLoop_long ps h (by norm_num at hl ⊢; exact hl) (ps.flatMap DurText.text).length 0
  have hlen : 2 ≤ (ps.flatMap DurText.text).length := by
    cases ps with
    | nil => simp at hl
    | cons p ps =>
      obtain ⟨n, hp⟩ := h p (by simp)
      have := (text_head p hp).1
      rw [List.flatMap_cons, List.length_append]; omega
  have hnext := parts_next ps h
  generalize ps.flatMap DurText.text = s at *
  have habs : durAbs s = none := by
    unfold durAbs
    rw [if_neg (by rintro rfl; simp at hlen), if_neg (by rintro rfl; simp at hlen), hloop]
  refine ⟨?_, ?_, ?_⟩
  · cases s with
    | nil => simp at hlen
    | cons c s =>
      have hc := hnext c s rfl
      unfold parseDuration
      split
      · rename_i e; cases e; exact absurd hc (by decide)
      · rename_i e; cases e; exact absurd hc (by decide)
      · rw [habs]; rfl
  · have e : parseDuration ('+' :: s) =
      (durAbs s).bind fun d => if d > 9223372036854775807 then none else some (d : Int) := rfl
    rw [e, habs]; rfl
  · have e : parseDuration ('-' :: s) = (durAbs s).map fun d => -(d : Int) := rfl
    rw [e, habs]; rfl

/-- **C136** (settings that are too long). Such a runtime or interval is refused. -/
theorem C136_setting_too_long (env : ValEnv) (he : env.duration = parseDuration) (ps : List DurText)
    (h : ∀ p ∈ ps, ∃ n, p.Ok n) (hl : ∃ p ∈ ps, ∃ n, p.Ok n ∧ 2 ^ 63 + 2 ≤ p.num * n) :
    env.validFreq (ps.flatMap DurText.text) = false := by
  have hlen : 2 ≤ (ps.flatMap DurText.text).length := by
    cases ps with
    | nil => simp at hl
    | cons p ps =>
      obtain ⟨n, hp⟩ := h p (by simp)
      have := (text_head p hp).1
      rw [List.flatMap_cons, List.length_append]; omega
  unfold ValEnv.validFreq
  rw [if_neg (by intro e; rw [e] at hlen; simp at hlen), if_neg (by intro e; rw [e] at hlen; simp at hlen),
    he, (C136_too_long ps h hl).1]

/-- 1s and 3 million hours, which is 342 years. -/
example : ∃ p ∈ [(⟨['1'], none, ['s']⟩ : DurText), ⟨"3000000".toList, none, ['h']⟩],
    ∃ n, p.Ok n ∧ 2 ^ 63 + 2 ≤ p.num * n := by
  have d : decFrom 0 "3000000".toList = 3000000 := by decide
  exact ⟨⟨"3000000".toList, none, ['h']⟩, by simp, _, ⟨by decide, by simp, by decide, .h⟩,
    by norm_num [DurText.num, d]⟩

end Finch
