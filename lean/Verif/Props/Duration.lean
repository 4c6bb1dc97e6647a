import Verif.Model.Duration
import Mathlib.Tactic.Ring
import Mathlib.Tactic.FieldSimp
import Mathlib.Algebra.Order.Field.Power
/-!
C136: durations in the configuration.
-/
namespace Finch

/-- A part of a duration as it is written: digits, maybe a point and digits, and a unit. -/
structure DurText where
  int : Text
  frac : Option Text
  unit : Text

def DurText.fracText (p : DurText) : Text :=
  match p.frac with
  | none => []
  | some fr => '.' :: fr

def DurText.text (p : DurText) : Text := p.int ++ (p.fracText ++ p.unit)

/-- The number that digits stand for, after the number `x`. -/
def decFrom (x : Nat) (ds : Text) : Nat := ds.foldl (fun a c => a * 10 + (c.toNat - 48)) x

/-- The units: nanoseconds, microseconds, milliseconds, seconds, minutes and hours. -/
inductive UnitNs : Text → Nat → Prop
  | ns : UnitNs ['n', 's'] 1
  | us : UnitNs ['u', 's'] 1000
  | micro : UnitNs ['µ', 's'] 1000
  | mu : UnitNs ['μ', 's'] 1000
  | ms : UnitNs ['m', 's'] (1000 * 1000)
  | s : UnitNs ['s'] (1000 * 1000 * 1000)
  | m : UnitNs ['m'] (60 * (1000 * 1000 * 1000))
  | h : UnitNs ['h'] (60 * 60 * (1000 * 1000 * 1000))

theorem durUnit_iff (u : Text) (n : Nat) : durUnit u = some n ↔ UnitNs u n := by
  constructor
  · intro h
    unfold durUnit at h
    split at h
    · rename_i e; subst e; cases h; exact .ns
    split at h
    · rename_i e; cases h
      rcases e with rfl | rfl | rfl
      · exact .us
      · exact .micro
      · exact .mu
    split at h
    · rename_i e; subst e; cases h; exact .ms
    split at h
    · rename_i e; subst e; cases h; exact .s
    split at h
    · rename_i e; subst e; cases h; exact .m
    split at h
    · rename_i e; subst e; cases h; exact .h
    · cases h
  · intro h
    cases h <;> decide

/-- A part is well formed: digits before or after the point, and one of the units. -/
structure DurText.Ok (p : DurText) (n : Nat) : Prop where
  int : ∀ c ∈ p.int, isDigit c = true
  frac : ∀ fr, p.frac = some fr → ∀ c ∈ fr, isDigit c = true
  digits : p.int ≠ [] ∨ ∃ fr, p.frac = some fr ∧ fr ≠ []
  unit : UnitNs p.unit n

/-- What a part stands for, in units. -/
def DurText.num (p : DurText) : ℚ :=
  decFrom 0 p.int + (match p.frac with
    | none => 0
    | some fr => (decFrom 0 fr : ℚ) / 10 ^ fr.length)

theorem isDigit_val {c : Char} (_h : isDigit c = true) : c.toNat - 48 ≤ 9 := by
  simp only [isDigit, Bool.and_eq_true, decide_eq_true_eq, Char.le_def] at _h
  have h2 := _h.2
  have : c.toNat ≤ 57 := by
    have := UInt32.le_iff_toNat_le.1 h2
    simpa using this
  omega

theorem le_decFrom (x : Nat) (ds : Text) : x ≤ decFrom x ds := by
  unfold decFrom
  induction ds generalizing x with
  | nil => exact le_rfl
  | cons c ds ih => simp only [List.foldl_cons]; exact le_trans (by omega) (ih _)

/-- The text does not begin with a digit. -/
def NoDigit (s : Text) : Prop := ∀ c s', s = c :: s' → isDigit c = false

theorem leadInt_stop (x : Nat) (s : Text) (h : NoDigit s) : leadInt x s = some (x, s) := by
  cases s with
  | nil => rfl
  | cons c s => simp [leadInt, h c s rfl]

theorem leadInt_digits (ds s : Text) (hs : NoDigit s) (hd : ∀ c ∈ ds, isDigit c = true) (x : Nat)
    (hx : x ≤ 9223372036854775808) :
    leadInt x (ds ++ s) = if decFrom x ds ≤ 9223372036854775808 then some (decFrom x ds, s) else none := by
  induction ds generalizing x with
  | nil => simp [leadInt_stop x s hs, decFrom, hx]
  | cons c ds ih =>
    have hc := hd c (by simp)
    have ih := ih (fun c h => hd c (by simp [h]))
    have e : decFrom x (c :: ds) = decFrom (x * 10 + (c.toNat - 48)) ds := rfl
    have hle := le_decFrom (x * 10 + (c.toNat - 48)) ds
    rw [List.cons_append, leadInt, if_pos hc, e]
    dsimp only
    split
    · rw [if_neg (by omega)]
    · split
      · rw [if_neg (by omega)]
      · exact ih _ (by omega)

theorem leadFrac_stop (o : Bool) (x sc : Nat) (s : Text) (h : NoDigit s) : leadFrac o x sc s = (x, sc, s) := by
  cases s with
  | nil => rfl
  | cons c s => simp [leadFrac, h c s rfl]

theorem leadFrac_over (ds s : Text) (hs : NoDigit s) (hd : ∀ c ∈ ds, isDigit c = true) (x sc : Nat) :
    leadFrac true x sc (ds ++ s) = (x, sc, s) := by
  induction ds with
  | nil => exact leadFrac_stop _ _ _ s hs
  | cons c ds ih =>
    rw [List.cons_append, leadFrac, if_pos (hd c (by simp))]
    simpa using ih fun c h => hd c (by simp [h])

/-- Digits after a point are read, all of them or at least 18. -/
theorem leadFrac_digits (ds : Text) (hd : ∀ c ∈ ds, isDigit c = true) (x sc j : Nat) (hx : x < 10 ^ j) :
    ∃ k ≤ ds.length, (k = ds.length ∨ 18 ≤ j + k) ∧
      ∀ s, NoDigit s → leadFrac false x sc (ds ++ s) = (decFrom x (ds.take k), sc * 10 ^ k, s) := by
  induction ds generalizing x sc j with
  | nil => exact ⟨0, le_rfl, .inl rfl, fun s hs => by simp [leadFrac_stop _ _ _ s hs, decFrom]⟩
  | cons c ds ih =>
    have hc := hd c (by simp)
    have hv := isDigit_val hc
    have hd' : ∀ c ∈ ds, isDigit c = true := fun c h => hd c (by simp [h])
    have hbig : 10 ^ 17 ≤ x → 18 ≤ j := by
      intro h
      by_contra hj
      have : (10 : Nat) ^ j ≤ 10 ^ 17 := Nat.pow_le_pow_right (by norm_num) (by omega)
      omega
    by_cases h1 : x > 9223372036854775807 / 10
    · refine ⟨0, by omega, .inr (by have := hbig (by omega); omega), fun s hs => ?_⟩
      rw [List.cons_append, leadFrac, if_pos hc, if_neg (by simp), if_pos h1, leadFrac_over ds s hs hd']
      simp [decFrom]
    · by_cases h2 : x * 10 + (c.toNat - 48) > 9223372036854775808
      · refine ⟨0, by omega, .inr (by have := hbig (by omega); omega), fun s hs => ?_⟩
        rw [List.cons_append, leadFrac, if_pos hc, if_neg (by simp), if_neg h1]
        dsimp only
        rw [if_pos h2, leadFrac_over ds s hs hd']
        simp [decFrom]
      · have hy : x * 10 + (c.toNat - 48) < 10 ^ (j + 1) := by rw [Nat.pow_succ]; omega
        obtain ⟨k, i1, i2, i3⟩ := ih hd' (x * 10 + (c.toNat - 48)) (sc * 10) (j + 1) hy
        refine ⟨k + 1, by simp; omega, ?_, fun s hs => ?_⟩
        · rcases i2 with i2 | i2
          · exact .inl (by simp [i2])
          · exact .inr (by omega)
        · rw [List.cons_append, leadFrac, if_pos hc, if_neg (by simp), if_neg h1]
          dsimp only
          rw [if_neg h2, i3 s hs, List.take_succ_cons, Nat.pow_succ]
          have : sc * 10 * 10 ^ k = sc * (10 ^ k * 10) := by ring
          rw [this]; rfl

theorem decFrom_lt (ds : Text) (hd : ∀ c ∈ ds, isDigit c = true) (x k : Nat) (hx : x < 10 ^ k) :
    decFrom x ds < 10 ^ (k + ds.length) := by
  induction ds generalizing x k with
  | nil => simpa [decFrom] using hx
  | cons c ds ih =>
    have hv := isDigit_val (hd c (by simp))
    have := ih (fun c h => hd c (by simp [h])) (x * 10 + (c.toNat - 48)) (k + 1)
      (by rw [Nat.pow_succ]; omega)
    rw [List.length_cons, show k + (ds.length + 1) = k + 1 + ds.length by omega]
    exact this

theorem decFrom_eq (x : Nat) (ds : Text) : decFrom x ds = x * 10 ^ ds.length + decFrom 0 ds := by
  induction ds generalizing x with
  | nil => simp [decFrom]
  | cons c ds ih =>
    have e : ∀ x, decFrom x (c :: ds) = decFrom (x * 10 + (c.toNat - 48)) ds := fun _ => rfl
    rw [e, e, ih, ih (0 * 10 + _), List.length_cons, Nat.pow_succ]
    ring

/-- Leaving out digits changes a fraction by less than the last digit that stays. -/
theorem frac_take (ds : Text) (hd : ∀ c ∈ ds, isDigit c = true) (k : Nat) (hk : k ≤ ds.length) :
    (decFrom 0 (ds.take k) : ℚ) / 10 ^ k ≤ (decFrom 0 ds : ℚ) / 10 ^ ds.length ∧
    (decFrom 0 ds : ℚ) / 10 ^ ds.length ≤ (decFrom 0 (ds.take k) : ℚ) / 10 ^ k + 1 / 10 ^ k := by
  have e1 : decFrom 0 ds = decFrom 0 (ds.take k) * 10 ^ (ds.length - k) + decFrom 0 (ds.drop k) := by
    have h1 : decFrom 0 ds = decFrom (decFrom 0 (ds.take k)) (ds.drop k) := by
      unfold decFrom
      rw [← List.foldl_append, List.take_append_drop]
    rw [h1, decFrom_eq, List.length_drop]
  have e2 := decFrom_lt (ds.drop k) (fun c h => hd c (List.mem_of_mem_drop h)) 0 0 (by norm_num)
  rw [List.length_drop, Nat.zero_add] at e2
  have e3 : (10 : ℚ) ^ ds.length = 10 ^ k * 10 ^ (ds.length - k) := by rw [← pow_add]; congr 1; omega
  have e4 : (decFrom 0 (ds.drop k) : ℚ) ≤ 10 ^ (ds.length - k) := by exact_mod_cast e2.le
  have e5 : (0 : ℚ) ≤ decFrom 0 (ds.drop k) := by positivity
  have p1 : (0 : ℚ) < 10 ^ k := by positivity
  have p2 : (0 : ℚ) < 10 ^ (ds.length - k) := by positivity
  rw [e1, e3]
  push_cast
  generalize (decFrom 0 (ds.take k) : ℚ) = T at *
  generalize (decFrom 0 (ds.drop k) : ℚ) = R at *
  generalize (10 : ℚ) ^ k = A at *
  generalize (10 : ℚ) ^ (ds.length - k) = B at *
  constructor
  · rw [div_le_div_iff₀ p1 (by positivity)]
    nlinarith [mul_nonneg e5 p1.le]
  · rw [← add_div, div_le_div_iff₀ (by positivity) p1]
    nlinarith [mul_le_mul_of_nonneg_left e4 p1.le]

theorem durUnit_ok {u : Text} {n : Nat} (h : durUnit u = some n) :
    u ≠ [] ∧ (∀ c ∈ u, unitEnd c = false) ∧ 1 ≤ n ∧ n ≤ 3600000000000 := by
  unfold durUnit at h
  split at h
  · rename_i e; subst e; cases h; decide
  split at h
  · rename_i e; cases h; rcases e with rfl | rfl | rfl <;> decide
  split at h
  · rename_i e; subst e; cases h; decide
  split at h
  · rename_i e; subst e; cases h; decide
  split at h
  · rename_i e; subst e; cases h; decide
  split at h
  · rename_i e; subst e; cases h; decide
  · cases h

/-- What comes after a unit: nothing, or the next number. -/
def NextNum (s : Text) : Prop := ∀ c s', s = c :: s' → unitEnd c = true

theorem unit_split {u rest : Text} (hu : ∀ c ∈ u, unitEnd c = false) (hr : NextNum rest) :
    (u ++ rest).takeWhile (fun c => !unitEnd c) = u ∧ (u ++ rest).dropWhile (fun c => !unitEnd c) = rest := by
  have h1 : ∀ c ∈ u, (!unitEnd c) = true := fun c hc => by simp [hu c hc]
  rw [List.takeWhile_append_of_pos h1, List.dropWhile_append_of_pos h1]
  cases rest with
  | nil => simp
  | cons c s => simp [hr c s rfl]

theorem unit_noDigit {u : Text} (rest : Text) (h0 : u ≠ []) (hu : ∀ c ∈ u, unitEnd c = false) :
    ∃ c s, u ++ rest = c :: s ∧ c ≠ '.' ∧ isDigit c = false := by
  cases u with
  | nil => exact absurd rfl h0
  | cons c u =>
    refine ⟨c, u ++ rest, rfl, ?_⟩
    have := hu c (by simp)
    simp only [unitEnd, Bool.or_eq_false_iff, decide_eq_false_iff_not] at this
    exact this

/-- The fraction that is written. -/
def DurText.fr (p : DurText) : ℚ :=
  match p.frac with
  | none => 0
  | some fr => (decFrom 0 fr : ℚ) / 10 ^ fr.length

/-- `f/sc` is the fraction, cut off after at least 18 digits. -/
structure DurText.Cut (p : DurText) (f sc : Nat) : Prop where
  lt : f < sc ∨ f = 0
  pos : 0 < sc
  le : (f : ℚ) / sc ≤ p.fr
  near : p.fr ≤ (f : ℚ) / sc + 1 / 10 ^ 18
  whole : p.frac = none → f = 0

theorem durFrac_text (p : DurText) {n : Nat} (hp : p.Ok n) :
    ∃ f sc b, (p.int = [] → b = true) ∧ p.Cut f sc ∧
      ∀ rest, NoDigit (p.fracText ++ (p.unit ++ rest)) ∧
        durFrac (p.fracText ++ (p.unit ++ rest)) = (f, sc, p.unit ++ rest, b) := by
  obtain ⟨h0, hu, -, -⟩ := durUnit_ok ((durUnit_iff _ _).2 hp.unit)
  have hfr := hp.frac
  have hsome := hp.digits
  have hnd : ∀ rest, NoDigit (p.unit ++ rest) := by
    intro rest
    obtain ⟨c, s, e, hc1, hc2⟩ := unit_noDigit rest h0 hu
    intro c' s' h; rw [e] at h; cases h; exact hc2
  unfold DurText.fracText
  cases hf : p.frac with
  | none =>
    have hz : p.fr = 0 := by unfold DurText.fr; rw [hf]
    refine ⟨0, 1, false, fun hi => ?_, ?_, fun rest => ⟨hnd rest, ?_⟩⟩
    · rw [hf] at hsome; simp [hi] at hsome
    · exact ⟨.inr rfl, by norm_num, by rw [hz]; norm_num, by rw [hz]; norm_num, fun _ => rfl⟩
    · obtain ⟨c, s, e, hc1, hc2⟩ := unit_noDigit rest h0 hu
      dsimp only
      rw [List.nil_append, e, durFrac, if_neg hc1]
  | some fr =>
    obtain ⟨k, hk1, hk3, hk2⟩ := leadFrac_digits fr (hfr fr hf) 0 1 0 (by norm_num)
    have hz : p.fr = (decFrom 0 fr : ℚ) / 10 ^ fr.length := by unfold DurText.fr; rw [hf]
    refine ⟨decFrom 0 (fr.take k), 10 ^ k, decide (fr ≠ []), fun hi => ?_, ?_, fun rest => ⟨?_, ?_⟩⟩
    · rcases hsome with h | ⟨fr', h1, h2⟩
      · exact absurd hi h
      · rw [hf] at h1; cases h1; simp [h2]
    · obtain ⟨t1, t2⟩ := frac_take fr (hfr fr hf) k hk1
      refine ⟨.inl ?_, by positivity, by rw [hz]; push_cast; exact t1, ?_, fun h => by rw [hf] at h; cases h⟩
      · have := decFrom_lt (fr.take k) (fun c h => hfr fr hf c (List.mem_of_mem_take h)) 0 0 (by norm_num)
        rwa [List.length_take, Nat.zero_add, Nat.min_eq_left hk1] at this
      · rw [hz]
        push_cast
        rcases hk3 with h3 | h3
        · rw [h3, List.take_length]
          have : (0 : ℚ) ≤ 1 / 10 ^ 18 := by positivity
          linarith
        · have : (1 : ℚ) / 10 ^ k ≤ 1 / 10 ^ 18 :=
            one_div_le_one_div_of_le (by positivity) (pow_le_pow_right₀ (by norm_num) (by omega))
          linarith
    · intro c' s' h
      simp only [List.cons_append, List.cons.injEq] at h
      rw [← h.1]; rfl
    · dsimp only
      rw [List.cons_append, durFrac, if_pos rfl, hk2 _ (hnd rest)]
      simp only [one_mul, List.length_append, Prod.mk.injEq, true_and]
      rw [decide_eq_decide]
      constructor
      · intro h1 h2; subst h2; simp at h1
      · intro h1 h2
        have : fr.length = 0 := by omega
        exact h1 (List.length_eq_zero_iff.1 this)

theorem durPart_text (p : DurText) {n : Nat} (hp : p.Ok n) :
    ∃ f sc, p.Cut f sc ∧ ∀ rest, NextNum rest → durPart (p.text ++ rest) =
      if decFrom 0 p.int ≤ 9223372036854775808 then
        (durValue (decFrom 0 p.int) f sc n).map fun w => (w, rest)
      else none := by
  obtain ⟨h0, hu, hn1, hn2⟩ := durUnit_ok ((durUnit_iff _ _).2 hp.unit)
  obtain ⟨f, sc, b, hbi, hcut, hrest⟩ := durFrac_text p hp
  refine ⟨f, sc, hcut, fun rest hr => ?_⟩
  obtain ⟨hnd, hb⟩ := hrest rest
  have et : p.text ++ rest = p.int ++ (p.fracText ++ (p.unit ++ rest)) := by simp [DurText.text]
  have hli := leadInt_digits p.int _ hnd hp.int 0 (by norm_num)
  obtain ⟨hs1, hs2⟩ := unit_split hu hr
  have hhead : ∃ c s, p.text ++ rest = c :: s ∧ unitEnd c = true := by
    rw [et]
    cases hi : p.int with
    | nil =>
      rcases hp.digits with h | ⟨fr, h1, -⟩
      · exact absurd hi h
      · exact ⟨'.', fr ++ (p.unit ++ rest), by simp [DurText.fracText, h1], rfl⟩
    | cons c ds =>
      exact ⟨c, _, rfl, by simp [unitEnd, hp.int c (by simp [hi])]⟩
  obtain ⟨c, s, ec, huc⟩ := hhead
  rw [ec, durPart]
  rw [← ec, et, hli]
  simp only [huc, Bool.not_true, Bool.false_eq_true, if_false]
  by_cases hle : decFrom 0 p.int ≤ 9223372036854775808
  · simp only [if_pos hle]
    rw [hb]
    dsimp only
    have hcond : ¬ ((p.fracText ++ (p.unit ++ rest)).length = (p.int ++ (p.fracText ++ (p.unit ++ rest))).length ∧
        b = false) := by
      rintro ⟨h1, h2⟩
      rw [List.length_append (as := p.int)] at h1
      have : p.int = [] := List.length_eq_zero_iff.1 (by omega)
      rw [hbi this] at h2; cases h2
    rw [if_neg hcond, hs1, hs2, if_neg h0, (durUnit_iff _ _).2 hp.unit]
    dsimp only
    cases durValue (decFrom 0 p.int) f sc n <;> rfl
  · simp only [if_neg hle]

theorem durValue_near (v f sc n : Nat) (hn1 : 1 ≤ n) (hn2 : n ≤ 3600000000000) (hf : f < sc ∨ f = 0)
    (hsc : 0 < sc) (hE : (v : ℚ) * n + (f : ℚ) / sc * n ≤ 9223372036854775806) :
    ∃ w, durValue v f sc n = some w ∧ |(w : ℚ) - ((v : ℚ) * n + (f : ℚ) / sc * n)| ≤ 501 / 500 ∧
      (f = 0 → w = v * n) ∧ w < 9223372036854775808 := by
  have hscq : (0 : ℚ) < sc := by exact_mod_cast hsc
  have hnq : (0 : ℚ) < n := by exact_mod_cast hn1
  have hx0 : 0 ≤ (f : ℚ) / sc * n := by positivity
  have hvn : v * n ≤ 9223372036854775806 := by
    have : (v : ℚ) * n ≤ 9223372036854775806 := by linarith
    exact_mod_cast this
  have hv : ¬ v > 9223372036854775808 / n := by
    rw [not_lt, Nat.le_div_iff_mul_le hn1]; omega
  unfold durValue
  rw [if_neg hv]
  dsimp only
  by_cases hf0 : f = 0
  · subst hf0
    refine ⟨v * n, by simp, by push_cast; simp; norm_num, fun _ => rfl, by omega⟩
  · rw [if_pos (by omega)]
    have hfsc : f < sc := by omega
    have hx1 : (f : ℚ) / sc * n ≤ 3600000000000 := by
      have h1 : (f : ℚ) / sc ≤ 1 := by
        rw [div_le_one hscq]; exact_mod_cast hfsc.le
      have h2 : (n : ℚ) ≤ 3600000000000 := by exact_mod_cast hn2
      calc (f : ℚ) / sc * n ≤ 1 * n := mul_le_mul_of_nonneg_right h1 hnq.le
        _ ≤ _ := by linarith
    have ha := abs_le.1 (f64_err (f : ℚ))
    have hb := abs_le.1 (f64_err ((n : ℚ) / sc))
    have hc := abs_le.1 (f64_err (f64 f * f64 ((n : ℚ) / sc)))
    have hfq : (0 : ℚ) ≤ f := by positivity
    have hyq : (0 : ℚ) ≤ (n : ℚ) / sc := by positivity
    rw [abs_of_nonneg hfq] at ha
    rw [abs_of_nonneg hyq] at hb
    have hxy : (f : ℚ) / sc * n = f * ((n : ℚ) / sc) := by ring
    rw [hxy] at hx0 hx1 hE ⊢
    generalize (n : ℚ) / sc = y at *
    generalize hA : f64 (f : ℚ) = a at *
    generalize hB : f64 y = b at *
    generalize f64 (a * b) = c at *
    have ha1 : (f : ℚ) * (1 - 1 / 2 ^ 53) ≤ a := by linarith [ha.1]
    have ha2 : a ≤ (f : ℚ) * (1 + 1 / 2 ^ 53) := by linarith [ha.2]
    have hb1 : y * (1 - 1 / 2 ^ 53) ≤ b := by linarith [hb.1]
    have hb2 : b ≤ y * (1 + 1 / 2 ^ 53) := by linarith [hb.2]
    have ha0 : 0 ≤ a := le_trans (mul_nonneg hfq (by norm_num)) ha1
    have hb0 : 0 ≤ b := le_trans (mul_nonneg hyq (by norm_num)) hb1
    have hab1 : (f : ℚ) * (1 - 1 / 2 ^ 53) * (y * (1 - 1 / 2 ^ 53)) ≤ a * b :=
      mul_le_mul ha1 hb1 (mul_nonneg hyq (by norm_num)) ha0
    have hab2 : a * b ≤ (f : ℚ) * (1 + 1 / 2 ^ 53) * (y * (1 + 1 / 2 ^ 53)) :=
      mul_le_mul ha2 hb2 hb0 (mul_nonneg hfq (by norm_num))
    rw [abs_of_nonneg (mul_nonneg ha0 hb0)] at hc
    have e1 : (f : ℚ) * (1 - 1 / 2 ^ 53) * (y * (1 - 1 / 2 ^ 53)) = f * y * (1 - 1 / 2 ^ 53) ^ 2 := by ring
    have e2 : (f : ℚ) * (1 + 1 / 2 ^ 53) * (y * (1 + 1 / 2 ^ 53)) = f * y * (1 + 1 / 2 ^ 53) ^ 2 := by ring
    rw [e1] at hab1
    rw [e2] at hab2
    generalize (f : ℚ) * y = x at *
    generalize a * b = z at *
    have hc1 : x - 1 / 500 ≤ c := by
      norm_num at hab1 hc ⊢
      linarith [hc.1]
    have hc2 : c ≤ x + 1 / 500 := by
      norm_num at hab2 hc ⊢
      linarith [hc.2]
    have hf1 := Int.floor_le c
    have hf2 := Int.lt_floor_add_one c
    have hfl : (-1 : ℤ) ≤ ⌊c⌋ := by
      rw [Int.le_floor]; push_cast; linarith
    have hz0 : 0 ≤ z := le_trans (mul_nonneg hx0 (by positivity)) hab1
    have hc0 : 0 ≤ c := by
      norm_num at hc
      linarith [hc.1]
    have hfl0 : 0 ≤ ⌊c⌋ := Int.floor_nonneg.2 hc0
    obtain ⟨m, hm⟩ := Int.eq_ofNat_of_zero_le hfl0
    rw [hm] at hf1 hf2 ⊢
    push_cast at hf1 hf2
    simp only [Int.toNat_natCast]
    have hw : v * n + m < 9223372036854775808 := by
      have : ((v * n + m : Nat) : ℚ) < 9223372036854775808 := by push_cast; linarith
      exact_mod_cast this
    rw [if_neg (by omega)]
    refine ⟨_, rfl, ?_, fun h => absurd h hf0, hw⟩
    rw [abs_le]
    push_cast
    constructor <;> linarith

/-- What the loop needs to know about a part with the value `w`. -/
def PartVal (p : DurText) (w : Nat) : Prop :=
  (∀ rest, NextNum rest → durPart (p.text ++ rest) = some (w, rest)) ∧ w < 9223372036854775808

/-- A well formed part is at least two characters and begins with a digit or a point. -/
theorem text_head (p : DurText) {n : Nat} (hp : p.Ok n) :
    2 ≤ p.text.length ∧ ∀ rest, NextNum (p.text ++ rest) := by
  obtain ⟨h0, -, -, -⟩ := durUnit_ok ((durUnit_iff _ _).2 hp.unit)
  have hu : 0 < p.unit.length := List.length_pos_iff.2 h0
  unfold DurText.text
  cases hi : p.int with
  | nil =>
    rcases hp.digits with h | ⟨fr, h1, -⟩
    · exact absurd hi h
    · refine ⟨by simp [DurText.fracText, h1]; omega, fun rest c s e => ?_⟩
      simp only [DurText.fracText, h1, List.nil_append, List.cons_append, List.cons.injEq] at e
      rw [← e.1]; rfl
  | cons c ds =>
    refine ⟨by simp; omega, fun rest c' s e => ?_⟩
    simp only [List.cons_append, List.cons.injEq] at e
    rw [← e.1]
    simp [unitEnd, hp.int c (by simp [hi])]

theorem parts_next (ps : List DurText) (h : ∀ p ∈ ps, ∃ n, p.Ok n) : NextNum (ps.flatMap DurText.text) := by
  cases ps with
  | nil => intro c s e; cases e
  | cons p ps =>
    obtain ⟨n, hp⟩ := h p (by simp)
    rw [List.flatMap_cons]
    exact (text_head p hp).2 _

theorem durLoop_parts (ps : List DurText) (ws : List Nat) (h : ∀ p ∈ ps, ∃ n, p.Ok n)
    (hw : List.Forall₂ PartVal ps ws) (left d : Nat) (hd : d ≤ 9223372036854775808)
    (hl : (ps.flatMap DurText.text).length ≤ left) :
    durLoop left d (ps.flatMap DurText.text) =
      if d + ws.sum ≤ 9223372036854775808 then some (d + ws.sum) else none := by
  induction hw generalizing left d with
  | nil => simp [durLoop, hd]
  | @cons p w ps ws h1 hrest ih =>
    obtain ⟨n, hp⟩ := h p (by simp)
    have hlen := (text_head p hp).1
    rw [List.flatMap_cons, List.length_append] at hl
    rw [List.flatMap_cons]
    have hnext := parts_next ps (fun p hm => h p (by simp [hm]))
    obtain ⟨left, rfl⟩ : ∃ l, left = l + 1 := ⟨left - 1, by omega⟩
    have hne : p.text ++ ps.flatMap DurText.text ≠ [] := by
      intro e
      have := (List.append_eq_nil_iff.1 e).1
      rw [this] at hlen
      simp at hlen
    have e1 : durLoop (left + 1) d (p.text ++ ps.flatMap DurText.text) =
        if (d + w) % 18446744073709551616 > 9223372036854775808 then none
        else durLoop left ((d + w) % 18446744073709551616) (ps.flatMap DurText.text) := by
      have hpart := h1.1 _ hnext
      generalize p.text ++ ps.flatMap DurText.text = s at *
      cases s with
      | nil => exact absurd rfl hne
      | cons c s => rw [durLoop, hpart]; simp
    have hw := h1.2
    rw [e1, Nat.mod_eq_of_lt (by omega), List.sum_cons]
    split
    · rw [if_neg (by omega)]
    · rw [ih (fun p hm => h p (by simp [hm])) left (d + w) (by omega) (by omega)]
      simp only [Nat.add_assoc]

/-- **C136**. A duration that is written as numbers with units,
each of them less than 292 years: it is the sum of these times, where a number without a point counts
exactly and one with a point to a nanosecond (and a hundredth). It is refused exactly if the sum does not
fit. With a minus sign it is negative. -/
theorem C136_parts_partial (ps : List DurText) (hne : ps ≠ [])
    (h : ∀ p ∈ ps, ∃ n, p.Ok n ∧ p.num * n ≤ 9223372036854775806) :
    ∃ ws : List Nat,
      List.Forall₂ (fun p (w : Nat) => ∃ n, UnitNs p.unit n ∧ |(w : ℚ) - p.num * n| ≤ 101 / 100 ∧
        (p.frac = none → (w : ℚ) = p.num * n)) ps ws ∧
      parseDuration (ps.flatMap DurText.text) =
        (if ws.sum < 2 ^ 63 then some (ws.sum : Int) else none) ∧
      parseDuration ('+' :: ps.flatMap DurText.text) =
        (if ws.sum < 2 ^ 63 then some (ws.sum : Int) else none) ∧
      parseDuration ('-' :: ps.flatMap DurText.text) =
        (if ws.sum ≤ 2 ^ 63 then some (-(ws.sum : Int)) else none) := by
  have hok : ∀ p ∈ ps, ∃ n, p.Ok n := fun p hm => by obtain ⟨n, h1, -⟩ := h p hm; exact ⟨n, h1⟩
  have hws : ∃ ws : List Nat, List.Forall₂ PartVal ps ws ∧
      List.Forall₂ (fun p (w : Nat) => ∃ n, UnitNs p.unit n ∧ |(w : ℚ) - p.num * n| ≤ 101 / 100 ∧
        (p.frac = none → (w : ℚ) = p.num * n)) ps ws := by
    clear hne hok
    induction ps with
    | nil => exact ⟨[], .nil, .nil⟩
    | cons p ps ih =>
      obtain ⟨ws, h1, h2⟩ := ih fun p hm => h p (by simp [hm])
      obtain ⟨n, hp, hE⟩ := h p (by simp)
      obtain ⟨-, -, hn1, hn2⟩ := durUnit_ok ((durUnit_iff _ _).2 hp.unit)
      obtain ⟨f, sc, hcut, hpart⟩ := durPart_text p hp
      have hnum : p.num * n = (decFrom 0 p.int : ℚ) * n + p.fr * n := by
        have : p.num = decFrom 0 p.int + p.fr := rfl
        rw [this]; ring
      have hnq : (n : ℚ) ≤ 3600000000000 := by exact_mod_cast hn2
      have hn0 : (0 : ℚ) ≤ n := by positivity
      have hx0 : (0 : ℚ) ≤ (f : ℚ) / sc * n := by positivity
      have hlo : (f : ℚ) / sc * n ≤ p.fr * n := mul_le_mul_of_nonneg_right hcut.le hn0
      have hhi : p.fr * n ≤ (f : ℚ) / sc * n + 1 / 1000 := by
        have := mul_le_mul_of_nonneg_right hcut.near hn0
        rw [add_mul] at this
        have h2 : (1 : ℚ) / 10 ^ 18 * n ≤ 1 / 1000 := by
          calc (1 : ℚ) / 10 ^ 18 * n ≤ 1 / 10 ^ 18 * 3600000000000 :=
                mul_le_mul_of_nonneg_left hnq (by positivity)
            _ ≤ _ := by norm_num
        linarith
      rw [hnum] at hE
      obtain ⟨w, hw1, hw2, hw3, hw4⟩ := durValue_near (decFrom 0 p.int) f sc n hn1 hn2 hcut.lt hcut.pos
        (by linarith)
      have hle : decFrom 0 p.int ≤ 9223372036854775808 := by
        have h1 : (decFrom 0 p.int : ℚ) * n ≤ 9223372036854775806 := by linarith
        have h2 : decFrom 0 p.int * n ≤ 9223372036854775806 := by exact_mod_cast h1
        have := Nat.le_mul_of_pos_right (decFrom 0 p.int) hn1
        omega
      refine ⟨w :: ws, .cons ⟨fun rest hr => ?_, hw4⟩ h1, .cons ⟨n, hp.unit, ?_, fun hf => ?_⟩ h2⟩
      · rw [hpart rest hr, if_pos hle, hw1]; rfl
      · rw [hnum]
        rw [abs_le] at hw2 ⊢
        constructor <;> linarith [hw2.1, hw2.2]
      · have h0 : p.fr = 0 := by unfold DurText.fr; rw [hf]
        rw [hnum, hw3 (hcut.whole hf), h0]; push_cast; simp
  obtain ⟨ws, hv, hsp⟩ := hws
  refine ⟨ws, hsp, ?_⟩
  have hloop := durLoop_parts ps ws hok hv (ps.flatMap DurText.text).length 0 (by norm_num) le_rfl
  rw [Nat.zero_add] at hloop
  have hlen : 2 ≤ (ps.flatMap DurText.text).length := by
    cases ps with
    | nil => exact absurd rfl hne
    | cons p ps =>
      obtain ⟨n, hp⟩ := hok p (by simp)
      have := (text_head p hp).1
      rw [List.flatMap_cons, List.length_append]; omega
  have hnext := parts_next ps hok
  generalize ps.flatMap DurText.text = s at *
  have habs : durAbs s = if ws.sum ≤ 9223372036854775808 then some ws.sum else none := by
    unfold durAbs
    rw [if_neg (by rintro rfl; simp at hlen), if_neg (by rintro rfl; simp at hlen), hloop]
  have hpos : ((durAbs s).bind fun d => if d > 9223372036854775807 then none else some (d : Int)) =
      if ws.sum < 2 ^ 63 then some (ws.sum : Int) else none := by
    rw [habs]
    by_cases h1 : ws.sum < 2 ^ 63
    · rw [if_pos h1, if_pos (by omega)]
      simp only [Option.bind_some]
      rw [if_neg (by omega)]
    · rw [if_neg h1]
      split
      · simp only [Option.bind_some]
        rw [if_pos (by omega)]
      · rfl
  refine ⟨?_, ?_, ?_⟩
  · cases s with
    | nil => simp at hlen
    | cons c s =>
      have hc := hnext c s rfl
      rw [← hpos]
      unfold parseDuration
      split
      · rename_i e; cases e; exact absurd hc (by decide)
      · rename_i e; cases e; exact absurd hc (by decide)
      · rfl
  · exact hpos
  · have e : parseDuration ('-' :: s) = (durAbs s).map fun d => -(d : Int) := rfl
    rw [e, habs]
    norm_num
    split <;> rfl

/-! ## Nothing else is a duration -/

theorem leadInt_inv (s : Text) (x : Nat) {v : Nat} {s1 : Text} (h : leadInt x s = some (v, s1)) :
    ∃ ds, (∀ c ∈ ds, isDigit c = true) ∧ s = ds ++ s1 := by
  induction s generalizing x with
  | nil => simp [leadInt] at h; exact ⟨[], by simp, by simp [h.2]⟩
  | cons c s ih =>
    rw [leadInt] at h
    dsimp only at h
    split at h
    · rename_i hc
      split at h
      · cases h
      · split at h
        · cases h
        · obtain ⟨ds, h1, h2⟩ := ih _ h
          exact ⟨c :: ds, by simpa [hc] using h1, by simp [h2]⟩
    · cases h; exact ⟨[], by simp, rfl⟩

theorem leadFrac_inv (s : Text) (o : Bool) (x sc : Nat) :
    ∃ ds, (∀ c ∈ ds, isDigit c = true) ∧ s = ds ++ (leadFrac o x sc s).2.2 := by
  induction s generalizing o x sc with
  | nil => exact ⟨[], by simp, rfl⟩
  | cons c s ih =>
    by_cases hc : isDigit c = true
    · have : ∃ o' x' sc', leadFrac o x sc (c :: s) = leadFrac o' x' sc' s := by
        rw [leadFrac, if_pos hc]
        dsimp only
        split
        · exact ⟨_, _, _, rfl⟩
        · split
          · exact ⟨_, _, _, rfl⟩
          · split <;> exact ⟨_, _, _, rfl⟩
      obtain ⟨o', x', sc', e⟩ := this
      obtain ⟨ds, h1, h2⟩ := ih o' x' sc'
      rw [e]
      exact ⟨c :: ds, by simpa [hc] using h1, by rw [List.cons_append, ← h2]⟩
    · rw [leadFrac, if_neg hc]
      exact ⟨[], by simp, rfl⟩

theorem durPart_inv {s : Text} {w : Nat} {rest : Text} (h : durPart s = some (w, rest)) :
    ∃ p : DurText, ∃ n, p.Ok n ∧ s = p.text ++ rest := by
  cases s with
  | nil => simp [durPart] at h
  | cons c s0 =>
    rw [durPart] at h
    dsimp only at h
    split at h
    · cases h
    cases hl : leadInt 0 (c :: s0) with
    | none => rw [hl] at h; cases h
    | some r =>
      obtain ⟨v, s1⟩ := r
      rw [hl] at h
      dsimp only at h
      generalize c :: s0 = s at *
      obtain ⟨ds, hds, es⟩ := leadInt_inv s 0 hl
      split at h
      · cases h
      rename_i hcond
      split at h
      · cases h
      cases hu : durUnit ((durFrac s1).2.2.1.takeWhile fun c => !unitEnd c) with
      | none => rw [hu] at h; cases h
      | some n =>
        rw [hu] at h
        dsimp only at h
        cases hv : durValue v (durFrac s1).1 (durFrac s1).2.1 n with
        | none => rw [hv] at h; cases h
        | some w' =>
          rw [hv] at h
          simp only [Option.some.injEq, Prod.mk.injEq] at h
          have hsplit := List.takeWhile_append_dropWhile (p := fun c => !unitEnd c) (l := (durFrac s1).2.2.1)
          rw [h.2] at hsplit
          have hunit := (durUnit_iff _ _).1 hu
          generalize (durFrac s1).2.2.1.takeWhile (fun c => !unitEnd c) = u at *
          have hf : ∃ fr : Option Text, (∀ f, fr = some f → ∀ c ∈ f, isDigit c = true) ∧
              s1 = (match fr with | none => [] | some f => '.' :: f) ++ (durFrac s1).2.2.1 ∧
              ((durFrac s1).2.2.2 = true → ∃ f, fr = some f ∧ f ≠ []) := by
            cases s1 with
            | nil => exact ⟨none, by simp, by simp [durFrac], by simp [durFrac]⟩
            | cons c' s2 =>
              by_cases hc : c' = '.'
              · subst hc
                obtain ⟨f, h1, h2⟩ := leadFrac_inv s2 false 0 1
                refine ⟨some f, ?_, ?_, ?_⟩
                · intro f' e; cases e; exact h1
                · simp only [durFrac, if_pos, List.cons_append]
                  rw [← h2]
                · intro hb
                  refine ⟨f, rfl, ?_⟩
                  rintro rfl
                  simp only [durFrac, if_pos, decide_eq_true_eq] at hb
                  rw [List.nil_append] at h2
                  exact hb (by rw [← h2])
              · exact ⟨none, by simp, by simp [durFrac, hc], by simp [durFrac, hc]⟩
          obtain ⟨fr, hf1, hf2, hf3⟩ := hf
          refine ⟨⟨ds, fr, u⟩, n, ⟨hds, hf1, ?_, hunit⟩, ?_⟩
          · by_cases hd0 : ds = []
            · right
              apply hf3
              by_contra hb
              refine hcond ⟨by rw [es, hd0, List.nil_append], by simpa using hb⟩
            · exact .inl hd0
          · rw [es, hf2, ← hsplit]
            simp [DurText.text, DurText.fracText]

theorem durLoop_inv (left d : Nat) (s : Text) {d' : Nat} (hd : d ≤ 9223372036854775808)
    (h : durLoop left d s = some d') :
    d' ≤ 9223372036854775808 ∧ ∃ ps : List DurText, (∀ p ∈ ps, ∃ n, p.Ok n) ∧ s = ps.flatMap DurText.text := by
  induction left generalizing d s with
  | zero =>
    cases s with
    | nil => simp [durLoop] at h; exact ⟨by omega, [], by simp, rfl⟩
    | cons c s => simp [durLoop] at h
  | succ left ih =>
    cases s with
    | nil => simp [durLoop] at h; exact ⟨by omega, [], by simp, rfl⟩
    | cons c s =>
      cases hp : durPart (c :: s) with
      | none => simp [durLoop, hp] at h
      | some r =>
        obtain ⟨v, rest⟩ := r
        simp only [durLoop, hp] at h
        split at h
        · cases h
        · obtain ⟨h1, ps, h2, h3⟩ := ih _ rest (by omega) h
          obtain ⟨p, n, h4, h5⟩ := durPart_inv hp
          refine ⟨h1, p :: ps, ?_, by rw [List.flatMap_cons, ← h3, h5]⟩
          intro q hq
          rcases List.mem_cons.1 hq with rfl | hq
          · exact ⟨n, h4⟩
          · exact h2 q hq

theorem durAbs_inv {s : Text} {d : Nat} (h : durAbs s = some d) :
    d ≤ 9223372036854775808 ∧ (s = ['0'] ∨ ∃ ps : List DurText, ps ≠ [] ∧ (∀ p ∈ ps, ∃ n, p.Ok n) ∧
      s = ps.flatMap DurText.text) := by
  unfold durAbs at h
  split at h
  · rename_i e; cases h; exact ⟨by norm_num, .inl e⟩
  · split at h
    · cases h
    · rename_i hne
      obtain ⟨h1, ps, h2, h3⟩ := durLoop_inv _ _ _ (by norm_num) h
      refine ⟨h1, .inr ⟨ps, ?_, h2, h3⟩⟩
      rintro rfl
      exact hne h3

/-- **C136** (nothing else). What is accepted as a duration is, after a sign, `0` or numbers with units
without anything between them; and it fits in 64 bits. In particular a number needs a unit. -/
theorem C136_only (s : Text) (d : Int) (h : parseDuration s = some d) :
    |d| ≤ 2 ^ 63 ∧ ∃ sign ∈ [[], ['+'], ['-']], s = sign ++ ['0'] ∨
      ∃ ps : List DurText, ps ≠ [] ∧ (∀ p ∈ ps, ∃ n, p.Ok n) ∧ s = sign ++ ps.flatMap DurText.text := by
  have hpos : ∀ s : Text, ((durAbs s).bind fun d => if d > 9223372036854775807 then none else some (d : Int)) =
      some d → |d| ≤ 2 ^ 63 ∧ (s = ['0'] ∨ ∃ ps : List DurText, ps ≠ [] ∧ (∀ p ∈ ps, ∃ n, p.Ok n) ∧
        s = ps.flatMap DurText.text) := by
    intro s h
    cases ha : durAbs s with
    | none => rw [ha] at h; cases h
    | some e =>
      rw [ha] at h
      simp only [Option.bind_some] at h
      split at h
      · cases h
      · obtain ⟨h1, h2⟩ := durAbs_inv ha
        cases h
        exact ⟨by rw [abs_le]; constructor <;> omega, h2⟩
  unfold parseDuration at h
  split at h
  · rename_i s
    cases ha : durAbs s with
    | none => rw [ha] at h; cases h
    | some e =>
      rw [ha] at h
      have h : -(e : Int) = d := Option.some.inj h
      obtain ⟨h1, h2⟩ := durAbs_inv ha
      refine ⟨by rw [← h, abs_le]; constructor <;> omega, ['-'], by simp, ?_⟩
      rcases h2 with rfl | ⟨ps, a, b, c⟩
      · exact .inl rfl
      · exact .inr ⟨ps, a, b, by rw [c]; rfl⟩
  · rename_i s
    obtain ⟨h1, h2⟩ := hpos s h
    refine ⟨h1, ['+'], by simp, ?_⟩
    rcases h2 with rfl | ⟨ps, a, b, c⟩
    · exact .inl rfl
    · exact .inr ⟨ps, a, b, by rw [c]; rfl⟩
  · obtain ⟨h1, h2⟩ := hpos s h
    refine ⟨h1, [], by simp, ?_⟩
    rcases h2 with rfl | ⟨ps, a, b, c⟩
    · exact .inl rfl
    · exact .inr ⟨ps, a, b, by rw [c]; rfl⟩

/-! ## Settings -/

/-- **C136** (settings). A runtime or interval that is written as numbers with units is accepted exactly
if the sum is positive and fits. -/
theorem C136_setting_partial (env : ValEnv) (he : env.duration = parseDuration) (ps : List DurText) (hne : ps ≠ [])
    (h : ∀ p ∈ ps, ∃ n, p.Ok n ∧ p.num * n ≤ 9223372036854775806) :
    ∃ ws : List Nat,
      List.Forall₂ (fun p (w : Nat) => ∃ n, UnitNs p.unit n ∧ |(w : ℚ) - p.num * n| ≤ 101 / 100 ∧
        (p.frac = none → (w : ℚ) = p.num * n)) ps ws ∧
      (env.validFreq (ps.flatMap DurText.text) = true ↔ 0 < ws.sum ∧ ws.sum < 2 ^ 63) ∧
      env.validFreq ('-' :: ps.flatMap DurText.text) = false := by
  obtain ⟨ws, h1, h2, -, h4⟩ := C136_parts_partial ps hne h
  refine ⟨ws, h1, ?_, ?_⟩
  · have hlen : 2 ≤ (ps.flatMap DurText.text).length := by
      cases ps with
      | nil => exact absurd rfl hne
      | cons p ps =>
        obtain ⟨n, hp, -⟩ := h p (by simp)
        have := (text_head p hp).1
        rw [List.flatMap_cons, List.length_append]; omega
    unfold ValEnv.validFreq
    rw [if_neg (by intro e; rw [e] at hlen; simp at hlen), if_neg (by intro e; rw [e] at hlen; simp at hlen),
      he, h2]
    by_cases hs : ws.sum < 2 ^ 63
    · rw [if_pos hs]; simp; omega
    · rw [if_neg hs]; simp; omega
  · unfold ValEnv.validFreq
    rw [if_neg (by simp), if_neg (by simp), he, h4]
    by_cases hs : ws.sum ≤ 2 ^ 63
    · rw [if_pos hs]; simp
    · rw [if_neg hs]

/-- **C136** (stages). The runtime of a stage that is accepted is not set, or a positive time, written as numbers
with units. -/
theorem C136_runtime (env : ValEnv) (he : env.duration = parseDuration) (c c' : StageConf)
    (hd : c.disable = false) (h : c.validate env = some c') :
    c'.runtime = c.runtime ∧ (c.runtime = [] ∨ ∃ d : Int, parseDuration c.runtime = some d ∧ 0 < d ∧
      ∃ sign ∈ [[], ['+']], ∃ ps : List DurText, ps ≠ [] ∧ (∀ p ∈ ps, ∃ n, p.Ok n) ∧
        c.runtime = sign ++ ps.flatMap DurText.text) := by
  have key : env.validFreq c.runtime = true ∧ c'.runtime = c.runtime := by
    unfold StageConf.validate at h
    rw [if_neg (by simp [hd])] at h
    dsimp only at h
    split at h
    · cases h
    split at h
    · cases h
    split at h
    · cases h
    split at h
    · cases h
    split at h
    · cases h
    rename_i hv
    split at h
    · cases h
    split at h
    · cases h
    split at h
    · cases h
    split at h
    · cases h
    cases h
    exact ⟨by simpa using hv, rfl⟩
  refine ⟨key.2, ?_⟩
  have hv := key.1
  unfold ValEnv.validFreq at hv
  split at hv
  · rename_i e; exact .inl e
  · split at hv
    · cases hv
    · rename_i hz
      rw [he] at hv
      cases hp : parseDuration c.runtime with
      | none => rw [hp] at hv; cases hv
      | some d =>
        rw [hp] at hv
        have hd0 : 0 < d := by simpa using hv
        refine .inr ⟨d, rfl, hd0, ?_⟩
        obtain ⟨-, sign, hs, hcase⟩ := C136_only _ _ hp
        have hneg : sign ≠ ['-'] := by
          rintro rfl
          have : ∃ s, c.runtime = '-' :: s := by
            rcases hcase with e | ⟨ps, -, -, e⟩
            · exact ⟨_, e⟩
            · exact ⟨_, e⟩
          obtain ⟨s, e⟩ := this
          rw [e] at hp
          have e2 : parseDuration ('-' :: s) = (durAbs s).map fun d => -(d : Int) := rfl
          rw [e2] at hp
          cases ha : durAbs s with
          | none => rw [ha] at hp; cases hp
          | some x =>
            rw [ha] at hp
            have : -(x : Int) = d := Option.some.inj hp
            omega
        have hs' : sign ∈ [[], ['+']] := by
          simp only [List.mem_cons, List.not_mem_nil, or_false] at hs ⊢
          rcases hs with h | h | h
          · exact .inl h
          · exact .inr h
          · exact absurd h hneg
        rcases hcase with e | ⟨ps, a, b, e⟩
        · exfalso
          rw [e] at hp
          simp only [List.mem_cons, List.not_mem_nil, or_false] at hs'
          rcases hs' with rfl | rfl
          · exact hz e
          · have : parseDuration (['+'] ++ ['0']) = some 0 := by decide
            rw [this] at hp
            cases hp
            omega
        · exact ⟨sign, hs', ps, a, b, e⟩

/-- **C136 is false if a part is as large as 2^63 nanoseconds.** The sum is computed with 64 bits: two
times of 292 years are zero, and not refused. -/
theorem C136_wrap_false :
    ¬ ∀ ps : List DurText, ps ≠ [] → (∀ p ∈ ps, p.frac = none ∧ p.Ok 1) →
        2 ^ 63 < (ps.map DurText.num).sum → parseDuration ('-' :: ps.flatMap DurText.text) = none := by
  intro h
  have := h (List.replicate 2 ⟨"9223372036854775808".toList, none, "ns".toList⟩) (by simp) (by
    intro p hp
    rw [List.mem_replicate] at hp
    rw [hp.2]
    refine ⟨rfl, by decide, by simp, .inl (by decide), .ns⟩) (by
      have e : decFrom 0 "9223372036854775808".toList = 9223372036854775808 := by decide
      simp only [List.replicate, List.map_cons, List.map_nil, List.sum_cons, List.sum_nil, DurText.num, e]
      norm_num)
  revert this
  decide +kernel

/-- 1h30m is 5400 seconds, 1.5h as well; a number without unit is refused. -/
example : parseDuration "1h30m".toList = some 5400000000000 ∧ parseDuration "1.5h".toList = some 5400000000000 ∧
    parseDuration "60".toList = none ∧ parseDuration "1h 30m".toList = none ∧
    parseDuration "0.000000001h".toList = some 3600 ∧
    parseDuration "0.99999999999999999999999999s".toList = some 1000000000 := by
  decide +kernel

/-- The hypotheses of C136_parts_partial for 1h0.5m. -/
example : ∀ p ∈ [(⟨['1'], none, ['h']⟩ : DurText), ⟨['0'], some ['5'], ['m']⟩],
    ∃ n, p.Ok n ∧ p.num * n ≤ 9223372036854775806 := by
  have d1 : decFrom 0 ['1'] = 1 := by decide
  have d0 : decFrom 0 ['0'] = 0 := by decide
  have d5 : decFrom 0 ['5'] = 5 := by decide
  intro p hp
  simp only [List.mem_cons, List.not_mem_nil, or_false] at hp
  rcases hp with rfl | rfl
  · exact ⟨_, ⟨by decide, by simp, by simp, .h⟩, by norm_num [DurText.num, d1]⟩
  · refine ⟨_, ⟨by decide, ?_, by simp, .m⟩, by norm_num [DurText.num, d0, d5]⟩
    intro fr e c hc
    cases e
    revert c
    decide

end Finch
