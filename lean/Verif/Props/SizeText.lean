import Verif.Model.SizeText
import Verif.Props.Duration
/-!
C137: sizes in modifiers.
-/
namespace Finch

/-- k, m, g, t, p or e, maybe i, maybe b. -/
def sizeUnit (i : Fin 6) (bin b : Bool) : Text :=
  ['k', 'm', 'g', 't', 'p', 'e'][i] :: ((if bin then ['i'] else []) ++ if b then ['b'] else [])

/-- The units in small letters: bytes, and powers of 1000 or, with an i, of 1024. -/
inductive UnitBytes : Text → Nat → Prop
  | none : UnitBytes [] 1
  | byte : UnitBytes ['b'] 1
  | prefixed (i : Fin 6) (bin b : Bool) :
      UnitBytes (sizeUnit i bin b) ((if bin then 1024 else 1000) ^ (i.val + 1))

theorem byteTable_units : ∀ e ∈ byteTable, e = ([], 1) ∨ e = (['b'], 1) ∨
    ∃ (i : Fin 6) (bin b : Bool), e = (sizeUnit i bin b, (if bin then 1024 else 1000) ^ (i.val + 1)) := by
  decide +kernel

theorem byteUnit_iff (u : Text) (m : Nat) : byteUnit u = some m ↔ UnitBytes u m := by
  constructor
  · intro h
    unfold byteUnit at h
    cases hf : byteTable.find? (fun e => decide (e.1 = u)) with
    | none => rw [hf] at h; cases h
    | some e =>
      rw [hf] at h
      have h2 : e.2 = m := Option.some.inj h
      have h1 : e.1 = u := by simpa using List.find?_some hf
      have hm := byteTable_units e (List.mem_of_find?_eq_some hf)
      rcases hm with he | he | ⟨i, bin, b, he⟩
      · rw [he] at h1 h2; rw [← h1, ← h2]; exact .none
      · rw [he] at h1 h2; rw [← h1, ← h2]; exact .byte
      · rw [he] at h1 h2; rw [← h1, ← h2]; exact .prefixed i bin b
  · intro h
    cases h with
    | none => decide
    | byte => decide
    | prefixed i bin b =>
      have : ∀ (i : Fin 6) (bin b : Bool), byteUnit (sizeUnit i bin b) =
          some ((if bin then 1024 else 1000) ^ (i.val + 1)) := by decide +kernel
      exact this i bin b

theorem unitBytes_chars {u : Text} {m : Nat} (h : UnitBytes u m) :
    (∀ c ∈ u, numChar c = false) ∧ 1 ≤ m ∧ m ≤ 1152921504606846976 := by
  cases h with
  | none => decide
  | byte => decide
  | prefixed i bin b =>
    have : ∀ (i : Fin 6) (bin b : Bool), (∀ c ∈ sizeUnit i bin b, numChar c = false) ∧
        1 ≤ (if bin then 1024 else 1000) ^ (i.val + 1) ∧
        (if bin then 1024 else 1000) ^ (i.val + 1) ≤ 1152921504606846976 := by decide +kernel
    exact this i bin b

/-- A size as it is written: a number, in which there may be commas, and a unit. -/
structure SizeText where
  num : Text
  int : Text
  frac : Option Text
  unit : Text

def SizeText.fracText (p : SizeText) : Text :=
  match p.frac with
  | none => []
  | some fr => '.' :: fr

/-- The number without commas is digits, maybe with a point; the unit is one of the units, in small or
capital letters. -/
structure SizeText.Ok (p : SizeText) (m : Nat) : Prop where
  num : p.num.filter (fun c => c ≠ ',') = p.int ++ p.fracText
  int : ∀ c ∈ p.int, isDigit c = true
  frac : ∀ fr, p.frac = some fr → ∀ c ∈ fr, isDigit c = true
  digits : p.int ≠ [] ∨ ∃ fr, p.frac = some fr ∧ fr ≠ []
  unit : UnitBytes (p.unit.map Char.toLower) m

/-- The number that is written. -/
def SizeText.val (p : SizeText) : ℚ :=
  decFrom 0 p.int + (match p.frac with
    | none => 0
    | some fr => (decFrom 0 fr : ℚ) / 10 ^ fr.length)

theorem numChar_lower {c : Char} (h : numChar c = true) : c.toLower = c := by
  have hv : c.toNat ≤ 57 := by
    simp only [numChar, Bool.or_eq_true, decide_eq_true_eq] at h
    rcases h with (h | h) | h
    · simp only [isDigit, Bool.and_eq_true, decide_eq_true_eq, Char.le_def] at h
      simpa using UInt32.le_iff_toNat_le.1 h.2
    · subst h; decide
    · subst h; decide
  unfold Char.toLower
  split
  · rename_i hu
    exfalso
    have := UInt32.le_iff_toNat_le.1 hu.1
    have e : c.val.toNat = c.toNat := rfl
    rw [e] at this
    simp at this
    omega
  · rfl

theorem size_split (p : SizeText) {m : Nat} (hp : p.Ok m) :
    (p.num ++ p.unit).takeWhile numChar = p.num ∧ (p.num ++ p.unit).dropWhile numChar = p.unit := by
  have h1 : ∀ c ∈ p.num, numChar c = true := by
    intro c hc
    by_cases hcc : c = ','
    · subst hcc; decide
    · have : c ∈ p.num.filter (fun c => c ≠ ',') := by simp [hc, hcc]
      rw [hp.num, List.mem_append] at this
      rcases this with h | h
      · simp [numChar, hp.int c h]
      · unfold SizeText.fracText at h
        cases hf : p.frac with
        | none => rw [hf] at h; simp at h
        | some fr =>
          rw [hf] at h
          rcases List.mem_cons.1 h with rfl | h
          · decide
          · simp [numChar, hp.frac fr hf c h]
  rw [List.takeWhile_append_of_pos h1, List.dropWhile_append_of_pos h1]
  cases hu : p.unit with
  | nil => simp
  | cons c u =>
    have hc := (unitBytes_chars hp.unit).1 c.toLower (by rw [hu]; simp)
    have : numChar c = false := by
      by_contra hne
      have hne : numChar c = true := by simpa using hne
      rw [numChar_lower hne] at hc
      rw [hc] at hne; cases hne
    simp [this]

theorem parseDec_size (p : SizeText) {m : Nat} (hp : p.Ok m) :
    parseDec (p.int ++ p.fracText) = some p.val := by
  have hfr := hp.frac
  have hd := hp.digits
  unfold parseDec SizeText.fracText SizeText.val
  cases hf : p.frac with
  | none =>
    rw [hf] at hd
    have hne : p.int ≠ [] := by simpa using hd
    dsimp only
    rw [List.append_nil, show p.int.dropWhile isDigit = [] from by
      have := List.dropWhile_append_of_pos (l₂ := []) hp.int
      simpa using this]
    have e : p.int.takeWhile isDigit = p.int := by
      have := List.takeWhile_append_of_pos (l₂ := []) hp.int
      simpa using this
    dsimp only
    rw [e, if_neg hne]
    simp [digitsNum, decFrom]
  | some fr =>
    dsimp only
    rw [List.takeWhile_append_of_pos hp.int, List.dropWhile_append_of_pos hp.int]
    have hdot : isDigit '.' = false := by decide
    rw [List.takeWhile_cons, List.dropWhile_cons, hdot]
    simp only [Bool.false_eq_true, if_false, List.append_nil]
    rw [if_pos]
    · rfl
    · refine ⟨trivial, List.all_eq_true.2 (hfr fr hf), ?_⟩
      rcases hd with h | ⟨fr', h1, h2⟩
      · exact .inl h
      · rw [hf] at h1; cases h1; exact .inr h2

theorem parseBytes_size (p : SizeText) {m : Nat} (hp : p.Ok m) :
    parseBytes (p.num ++ p.unit) = if f64 p.val ≥ 2 ^ 1024 then none
      else if f64 (f64 p.val * m) ≥ 18446744073709551616 then none
      else some ⌊f64 (f64 p.val * m)⌋.toNat := by
  obtain ⟨h1, h2⟩ := size_split p hp
  unfold parseBytes
  rw [h1, h2, hp.num]
  dsimp only
  rw [parseDec_size p hp, (byteUnit_iff _ _).2 hp.unit]

theorem SizeText.val_nonneg (p : SizeText) : 0 ≤ p.val := by
  unfold SizeText.val
  cases p.frac with
  | none => positivity
  | some fr => positivity

/-- **C137**. A size is the number times the unit: exactly if there is no point and it is not more than 2^53
bytes, and to one byte and the precision of float64 if it fits in 64 bits by that precision. What does not fit in 64 bits
is refused. Commas in the number are ignored. -/
theorem C137_size_partial (p : SizeText) (m : Nat) (hp : p.Ok m) :
    (p.frac = none → decFrom 0 p.int * m ≤ 2 ^ 53 →
      parseBytes (p.num ++ p.unit) = some (decFrom 0 p.int * m)) ∧
    (p.val * m ≤ 2 ^ 64 * (1 - 1 / 2 ^ 51) → ∃ w, parseBytes (p.num ++ p.unit) = some w ∧
      |(w : ℚ) - p.val * m| ≤ 1 + p.val * m / 2 ^ 51) ∧
    (2 ^ 64 * (1 + 1 / 2 ^ 51) ≤ p.val * m → parseBytes (p.num ++ p.unit) = none) := by
  obtain ⟨-, hm1, hm2⟩ := unitBytes_chars hp.unit
  have hmq : (1 : ℚ) ≤ m := by exact_mod_cast hm1
  have hx0 := p.val_nonneg
  rw [parseBytes_size p hp]
  refine ⟨fun hf hv => ?_, fun hv => ?_, fun hv => ?_⟩
  · have e : p.val = ((decFrom 0 p.int : ℤ) : ℚ) := by unfold SizeText.val; rw [hf]; simp
    generalize decFrom 0 p.int = v at *
    have hvm : v ≤ v * m := Nat.le_mul_of_pos_right v hm1
    have e1 : f64 p.val = ((v : ℤ) : ℚ) := by
      rw [e]
      refine f64_spec.int _ ?_
      rw [abs_of_nonneg (by positivity)]
      exact_mod_cast le_trans hvm hv
    have e2 : f64 (f64 p.val * m) = (((v * m : Nat) : ℤ) : ℚ) := by
      rw [e1]
      have : (((v : ℤ) : ℚ) * m) = (((v * m : Nat) : ℤ) : ℚ) := by push_cast; ring
      rw [this]
      refine f64_spec.int _ ?_
      rw [abs_of_nonneg (by positivity)]
      exact_mod_cast hv
    rw [e2, e1]
    have hq : ((v : ℤ) : ℚ) ≤ 2 ^ 53 := by exact_mod_cast le_trans hvm hv
    have hq2 : (((v * m : Nat) : ℤ) : ℚ) ≤ 2 ^ 53 := by exact_mod_cast hv
    have hpow : (2 : ℚ) ^ 53 < 2 ^ 1024 := pow_lt_pow_right₀ (by norm_num) (by norm_num)
    rw [if_neg (not_le.2 (lt_of_le_of_lt hq hpow)), if_neg (not_le.2 (lt_of_le_of_lt hq2 (by norm_num))),
      Int.floor_intCast, Int.toNat_natCast]
  · have hxm : p.val ≤ p.val * m := le_mul_of_one_le_right hx0 hmq
    have hy := abs_le.1 (f64_err p.val)
    have hz := abs_le.1 (f64_err (f64 p.val * m))
    rw [abs_of_nonneg hx0] at hy
    generalize p.val = x at *
    generalize f64 x = y at *
    have hy1 : x * (1 - 1 / 2 ^ 53) ≤ y := by linarith [hy.1]
    have hy2 : y ≤ x * (1 + 1 / 2 ^ 53) := by linarith [hy.2]
    have hy0 : 0 ≤ y := le_trans (mul_nonneg hx0 (by norm_num)) hy1
    have hm0 : (0 : ℚ) ≤ m := by linarith
    have hym1 := mul_le_mul_of_nonneg_right hy1 hm0
    have hym2 := mul_le_mul_of_nonneg_right hy2 hm0
    have hym0 := mul_nonneg hy0 hm0
    rw [abs_of_nonneg hym0] at hz
    have e1 : x * (1 - 1 / 2 ^ 53) * m = x * m * (1 - 1 / 2 ^ 53) := by ring
    have e2 : x * (1 + 1 / 2 ^ 53) * m = x * m * (1 + 1 / 2 ^ 53) := by ring
    rw [e1] at hym1
    rw [e2] at hym2
    have hxm0 : 0 ≤ x * m := mul_nonneg hx0 hm0
    have hylt : ¬ y ≥ 2 ^ 1024 := by
      have hpow : (2 : ℚ) ^ 64 < 2 ^ 1024 := pow_lt_pow_right₀ (by norm_num) (by norm_num)
      have : y ≤ 2 ^ 64 := by
        norm_num at hy2 hv ⊢
        linarith
      exact not_le.2 (lt_of_le_of_lt this hpow)
    rw [if_neg hylt]
    clear hylt hy
    generalize f64 (y * m) = z at *
    generalize y * (m : ℚ) = t at *
    generalize x * (m : ℚ) = q at *
    have hz1 : q - q / 2 ^ 51 ≤ z := by
      norm_num at hz hym1 ⊢
      linarith [hz.1]
    have hz2 : z ≤ q + q / 2 ^ 51 := by
      norm_num at hz hym2 ⊢
      linarith [hz.2]
    have hz0 : 0 ≤ z := by
      have : q / 2 ^ 51 ≤ q := by norm_num; linarith
      linarith
    have hzlt : ¬ z ≥ 18446744073709551616 := by
      rw [ge_iff_le, not_le]
      norm_num at hz2 hv ⊢
      linarith
    rw [if_neg hzlt]
    obtain ⟨k, hk⟩ := Int.eq_ofNat_of_zero_le (Int.floor_nonneg.2 hz0)
    have f1 := Int.floor_le z
    have f2 := Int.lt_floor_add_one z
    rw [hk] at f1 f2 ⊢
    push_cast at f1 f2
    refine ⟨k, by simp, ?_⟩
    rw [abs_le]
    constructor <;> linarith
  · split
    · rfl
    · rw [if_pos]
      have hy := abs_le.1 (f64_err p.val)
      have hz := abs_le.1 (f64_err (f64 p.val * m))
      rw [abs_of_nonneg hx0] at hy
      generalize p.val = x at *
      generalize f64 x = y at *
      have hy1 : x * (1 - 1 / 2 ^ 53) ≤ y := by linarith [hy.1]
      have hy0 : 0 ≤ y := le_trans (mul_nonneg hx0 (by norm_num)) hy1
      have hm0 : (0 : ℚ) ≤ m := by linarith
      have hym1 := mul_le_mul_of_nonneg_right hy1 hm0
      rw [abs_of_nonneg (mul_nonneg hy0 hm0)] at hz
      have e1 : x * (1 - 1 / 2 ^ 53) * m = x * m * (1 - 1 / 2 ^ 53) := by ring
      rw [e1] at hym1
      generalize f64 (y * m) = z at *
      generalize y * (m : ℚ) = t at *
      generalize x * (m : ℚ) = q at *
      norm_num at hz hym1 hv ⊢
      linarith [hz.1]

/-- **C137** (nothing else). What is accepted as a size is a number, maybe with commas, and a unit. -/
theorem C137_only (s : Text) (w : Nat) (h : parseBytes s = some w) :
    w < 2 ^ 64 ∧ ∃ p : SizeText, ∃ m, p.Ok m ∧ s = p.num ++ p.unit := by
  unfold parseBytes at h
  dsimp only at h
  cases hd : parseDec ((s.takeWhile numChar).filter fun c => c ≠ ',') with
  | none => rw [hd] at h; cases h
  | some x =>
    rw [hd] at h
    dsimp only at h
    split at h
    · cases h
    cases hu : byteUnit ((s.dropWhile numChar).map Char.toLower) with
    | none => rw [hu] at h; cases h
    | some m =>
      rw [hu] at h
      dsimp only at h
      split at h
      · cases h
      rename_i hlt
      have hw := Option.some.inj h
      constructor
      · rw [← hw]
        have h1 : ⌊f64 (f64 x * m)⌋ < 2 ^ 64 := by
          rw [Int.floor_lt]; push_cast; norm_num; exact not_le.1 hlt
        omega
      · have key : ∃ (a : Text) (fr : Option Text), (∀ c ∈ a, isDigit c = true) ∧
            (∀ f, fr = some f → ∀ c ∈ f, isDigit c = true) ∧ (a ≠ [] ∨ ∃ f, fr = some f ∧ f ≠ []) ∧
            (s.takeWhile numChar).filter (fun c => c ≠ ',') =
              a ++ (match fr with | none => [] | some f => '.' :: f) := by
          generalize (s.takeWhile numChar).filter (fun c => c ≠ ',') = t at *
          have hsp := List.takeWhile_append_dropWhile (p := isDigit) (l := t)
          have hdig : ∀ c ∈ t.takeWhile isDigit, isDigit c = true := fun c hc =>
            List.all_eq_true.1 (List.all_takeWhile (p := isDigit) (l := t)) c hc
          unfold parseDec at hd
          dsimp only at hd
          split at hd
          · rename_i e
            split at hd
            · cases hd
            · rename_i hne
              rw [e] at hsp
              exact ⟨_, none, hdig, by simp, .inl hne, hsp.symm⟩
          · rename_i c b e
            split at hd
            · rename_i hc
              obtain ⟨rfl, hb, hor⟩ := hc
              rw [e] at hsp
              refine ⟨_, some b, hdig, ?_, ?_, hsp.symm⟩
              · intro f ef; cases ef; exact List.all_eq_true.1 hb
              · rcases hor with h | h
                · exact .inl h
                · exact .inr ⟨b, rfl, h⟩
            · cases hd
        obtain ⟨a, fr, k1, k2, k3, k4⟩ := key
        exact ⟨⟨s.takeWhile numChar, a, fr, s.dropWhile numChar⟩, m,
          ⟨k4, k1, k2, k3, (byteUnit_iff _ _).1 hu⟩, (List.takeWhile_append_dropWhile ..).symm⟩

/-- **C137 is false for commas that do not separate thousands**: 1,5GB is accepted, as 15 GB. -/
theorem C137_comma_false :
    ¬ ∀ (a b unit : Text) (w : Nat), (∀ c ∈ a ++ b, isDigit c = true) → a ≠ [] → b ≠ [] →
        parseBytes (a ++ ',' :: (b ++ unit)) = some w → b.length = 3 := by
  intro h
  have := h ['1'] ['5'] ['G', 'B'] 15000000000 (by decide) (by simp) (by simp) (by decide +kernel)
  simp at this

/-- Sizes as in the documentation, and some that are refused. -/
example : parseBytes "10GB".toList = some 10000000000 ∧ parseBytes "1.5MiB".toList = some 1572864 ∧
    parseBytes "1,000,000".toList = some 1000000 ∧ parseBytes "GB".toList = none ∧
    parseBytes "20EB".toList = none ∧ parseBytes "10 GB".toList = none ∧ parseBytes "1.2.3k".toList = none := by
  decide +kernel

/-- 1,000.5KiB is well formed. -/
example : SizeText.Ok ⟨"1,000.5".toList, "1000".toList, some ['5'], "KiB".toList⟩ 1024 := by
  refine ⟨by decide, by decide, ?_, by simp, ?_⟩
  · intro fr e c hc
    cases e
    revert c
    decide
  · exact UnitBytes.prefixed 0 true true

end Finch
