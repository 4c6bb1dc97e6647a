import Verif.Model.Json
import Verif.Props.Url
/-!
C127: what is sent as JSON arrives.
-/
namespace Finch

/-! ### UTF-8 -/

/-- A Unicode scalar value. -/
def Scalar (n : Nat) : Prop := n < 0x110000 ∧ ¬ (0xD800 ≤ n ∧ n < 0xE000)

/-- The bytes are a text: the UTF-8 encoding of some scalar values. -/
inductive Utf8Text : Bytes → Prop
  | nil : Utf8Text []
  | cons {n : Nat} {s : Bytes} : Scalar n → Utf8Text s → Utf8Text (utf8Rune n ++ s)

theorem ofNat_toNat {n : Nat} (h : n < 256) : (UInt8.ofNat n).toNat = n := by
  rw [UInt8.toNat_ofNat']; exact Nat.mod_eq_of_lt h

theorem runeLen_utf8 {n : Nat} (h : Scalar n) (t : Bytes) :
    runeLen (utf8Rune n ++ t) = (utf8Rune n).length ∧ 0 < (utf8Rune n).length := by
  obtain ⟨h1, h2⟩ := h
  unfold utf8Rune
  split
  · rename_i hn
    simp only [List.cons_append, List.nil_append, runeLen]
    rw [ofNat_toNat (by omega), if_pos hn]
    simp
  split
  · rename_i hn1 hn2
    simp only [List.cons_append, List.nil_append, runeLen]
    rw [ofNat_toNat (by omega), if_neg (by omega), if_neg (by omega), if_pos (by omega), if_pos (by
      simp only [contIn, Bool.and_eq_true, decide_eq_true_eq]
      rw [ofNat_toNat (by omega)]; omega)]
    simp
  rw [if_neg (by simp only [Bool.or_eq_true, Bool.and_eq_true, decide_eq_true_eq]; omega)]
  split
  · rename_i hn1 hn2 hn3
    simp only [List.cons_append, List.nil_append, runeLen]
    rw [ofNat_toNat (by omega), if_neg (by omega), if_neg (by omega),
      if_neg (by omega), if_pos (by omega), if_pos (by
        simp only [contIn, Bool.and_eq_true, decide_eq_true_eq]
        rw [ofNat_toNat (by omega), ofNat_toNat (by omega)]
        (repeat' split) <;> omega)]
    simp
  · rename_i hn1 hn2 hn3
    simp only [List.cons_append, List.nil_append, runeLen]
    rw [ofNat_toNat (by omega), if_neg (by omega),
      if_neg (by omega), if_neg (by omega), if_neg (by omega), if_pos (by omega), if_pos (by
        simp only [contIn, Bool.and_eq_true, decide_eq_true_eq]
        rw [ofNat_toNat (by omega), ofNat_toNat (by omega), ofNat_toNat (by omega)]
        (repeat' split) <;> omega)]
    simp

/-- What `DecodeRune` takes is the encoding of a scalar value. -/
theorem runeLen_scalar {s : Bytes} (h : runeLen s ≠ 0) : ∃ n t, Scalar n ∧ s = utf8Rune n ++ t ∧
    runeLen s = (utf8Rune n).length := by
  cases s with
  | nil => exact absurd rfl h
  | cons a t =>
    have ha : a.toNat < 256 := a.toNat_lt
    have back : ∀ (b : UInt8) (k : Nat), k = b.toNat → UInt8.ofNat k = b := by
      intro b k e; rw [e]; exact UInt8.ofNat_toNat
    simp only [runeLen] at h ⊢
    split at h
    · rename_i h1
      rw [if_pos h1]
      refine ⟨a.toNat, t, ⟨by omega, by omega⟩, ?_, ?_⟩ <;> simp [utf8Rune, h1]
    rename_i h1
    rw [if_neg h1]
    split at h
    · exact absurd rfl h
    rename_i h2
    rw [if_neg h2]
    split at h
    · rename_i h3
      rw [if_pos h3]
      split at h
      · rename_i b t
        split at h
        · rename_i hb
          rw [if_pos hb]
          simp only [contIn, Bool.and_eq_true, decide_eq_true_eq] at hb
          have e : utf8Rune ((a.toNat - 0xC0) * 64 + (b.toNat - 0x80)) = [a, b] := by
            unfold utf8Rune
            rw [if_neg (by omega), if_pos (by omega), back a _ (by omega), back b _ (by omega)]
          refine ⟨(a.toNat - 0xC0) * 64 + (b.toNat - 0x80), t, ⟨by omega, by omega⟩, ?_, ?_⟩ <;> rw [e] <;> rfl
        · exact absurd rfl h
      · exact absurd rfl h
    rename_i h3
    rw [if_neg h3]
    split at h
    · rename_i h4
      rw [if_pos h4]
      split at h
      · rename_i b c t
        by_cases hb : (contIn (if a.toNat = 0xE0 then 0xA0 else 0x80) (if a.toNat = 0xED then 0x9F else 0xBF) b &&
            contIn 0x80 0xBF c) = true
        · rw [if_pos hb]
          simp only [contIn, Bool.and_eq_true, decide_eq_true_eq] at hb
          obtain ⟨⟨hb1, hb2⟩, hc1, hc2⟩ := hb
          have hr : 0x800 ≤ (a.toNat - 0xE0) * 4096 + (b.toNat - 0x80) * 64 + (c.toNat - 0x80) ∧
              ¬ (0xD800 ≤ (a.toNat - 0xE0) * 4096 + (b.toNat - 0x80) * 64 + (c.toNat - 0x80) ∧
                (a.toNat - 0xE0) * 4096 + (b.toNat - 0x80) * 64 + (c.toNat - 0x80) < 0xE000) ∧ 0x80 ≤ b.toNat ∧
              b.toNat ≤ 0xBF := by
            revert hb1 hb2
            split <;> split <;> intros <;> omega
          have e : utf8Rune ((a.toNat - 0xE0) * 4096 + (b.toNat - 0x80) * 64 + (c.toNat - 0x80)) = [a, b, c] := by
            unfold utf8Rune
            rw [if_neg (by omega), if_neg (by omega), if_neg (by
              simp only [Bool.or_eq_true, Bool.and_eq_true, decide_eq_true_eq]; omega), if_pos (by omega),
              back a _ (by omega), back b _ (by omega), back c _ (by omega)]
          refine ⟨_, t, ⟨?_, hr.2.1⟩, ?_, ?_⟩
          · omega
          · rw [e]; rfl
          · rw [e]; rfl
        · rw [if_neg hb] at h; exact absurd rfl h
      · exact absurd rfl h
    rename_i h4
    rw [if_neg h4]
    split at h
    · rename_i h5
      rw [if_pos h5]
      split at h
      · rename_i b c d t
        by_cases hb : (contIn (if a.toNat = 0xF0 then 0x90 else 0x80) (if a.toNat = 0xF4 then 0x8F else 0xBF) b &&
            contIn 0x80 0xBF c && contIn 0x80 0xBF d) = true
        · rw [if_pos hb]
          simp only [contIn, Bool.and_eq_true, decide_eq_true_eq] at hb
          obtain ⟨⟨⟨hb1, hb2⟩, hc1, hc2⟩, hd1, hd2⟩ := hb
          have hr : 0x10000 ≤ (a.toNat - 0xF0) * 262144 + (b.toNat - 0x80) * 4096 + (c.toNat - 0x80) * 64 + (d.toNat - 0x80) ∧
              (a.toNat - 0xF0) * 262144 + (b.toNat - 0x80) * 4096 + (c.toNat - 0x80) * 64 + (d.toNat - 0x80) < 0x110000 ∧
              0x80 ≤ b.toNat ∧ b.toNat ≤ 0xBF := by
            revert hb1 hb2
            split <;> split <;> intros <;> omega
          have e : utf8Rune ((a.toNat - 0xF0) * 262144 + (b.toNat - 0x80) * 4096 + (c.toNat - 0x80) * 64 + (d.toNat - 0x80)) =
              [a, b, c, d] := by
            unfold utf8Rune
            rw [if_neg (by omega), if_neg (by omega), if_neg (by
              simp only [Bool.or_eq_true, Bool.and_eq_true, decide_eq_true_eq]; omega), if_neg (by omega),
              back a _ (by omega), back b _ (by omega), back c _ (by omega), back d _ (by omega)]
          refine ⟨_, t, ⟨hr.2.1, by omega⟩, ?_, ?_⟩
          · rw [e]; rfl
          · rw [e]; rfl
        · rw [if_neg hb] at h; exact absurd rfl h
      · exact absurd rfl h
    · exact absurd rfl h

/-! ### Strings -/

/-- What becomes of a byte string: the encodings of scalar values are kept and each other byte is replaced by U+FFFD. -/
inductive Repaired : Bytes → Bytes → Prop
  | nil : Repaired [] []
  | keep {n : Nat} {s t : Bytes} : Scalar n → Repaired s t → Repaired (utf8Rune n ++ s) (utf8Rune n ++ t)
  | bad {b : UInt8} {s t : Bytes} : (∀ n, Scalar n → ¬ utf8Rune n <+: b :: s) → Repaired s t →
      Repaired (b :: s) ([0xEF, 0xBF, 0xBD] ++ t)

theorem escText_copy (u t : Bytes) : escText false u.length (u ++ t) = u ++ escText false 0 t := by
  induction u with
  | nil => rfl
  | cons b u ih => simp only [List.length_cons, List.cons_append, escText, Bool.false_eq_true, if_false, ih]

theorem escText_true (t : Bytes) : escText true 0 t = escText false 0 t := by
  cases t with
  | nil => simp [escText]
  | cons b t => simp only [escText]

theorem escText_drop (u t : Bytes) : escText true u.length (u ++ t) = escText false 0 t := by
  induction u with
  | nil => exact escText_true t
  | cons b u ih => simp only [List.length_cons, List.cons_append, escText, if_true, ih]

theorem pushText_some (a : Bytes) (t r : Bytes) : pushText a (some (t, r)) = some (a ++ t, r) := rfl

theorem readText_copy (u x : Bytes) {t r : Bytes} (h : readText 0 x = some (t, r)) :
    readText u.length (u ++ x) = some (u ++ t, r) := by
  induction u with
  | nil => exact h
  | cons b u ih => simp only [List.length_cons, List.cons_append, readText, ih, pushText_some, List.nil_append]

theorem readText_quote (rest : Bytes) : readText 0 (34 :: rest) = some ([], rest) := by
  rw [readText.eq_def]; rfl

theorem readText_plain {b : UInt8} (h1 : b ≠ 34) (h2 : b ≠ 92) (h3 : ¬ b < 32) {n : Nat} (bs : Bytes)
    (h : runeLen (b :: bs) = n + 1) : readText 0 (b :: bs) = pushText [b] (readText n bs) := by
  rw [readText.eq_def]
  simp only []
  rw [if_neg h1, if_neg h2, if_neg h3, h]

theorem hex4_low (b : UInt8) : hex4 48 48 (lowHex (b / 16)) (lowHex (b % 16)) = some b.toNat := by
  have := byte_all (p := fun b => hex4 48 48 (lowHex (b / 16)) (lowHex (b % 16)) == some b.toNat) (by decide +kernel) b
  simpa using this

theorem readText_u {a b c d : UInt8} {x t r : Bytes} {n : Nat} (hh : hex4 a b c d = some n)
    (hs : ¬ (0xD800 ≤ n ∧ n < 0xE000)) (h : readText 0 x = some (t, r)) :
    readText 0 (92 :: 117 :: a :: b :: c :: d :: x) = some (utf8Rune n ++ t, r) := by
  rw [readText]
  rw [if_neg (by decide), if_pos rfl]
  simp only [if_true, hh]
  rw [if_neg (by simpa using hs), h, pushText_some]

theorem readText_esc {b : UInt8} (hb : b.toNat < 128) {x t r : Bytes} (h : readText 0 x = some (t, r)) :
    readText 0 (escByte b ++ x) = some (b :: t, r) := by
  have one : ∀ e c : UInt8, e ≠ 117 → oneEscape e = some c → readText 0 ([92, e] ++ x) = some (c :: t, r) := by
    intro e c he hc
    rw [List.cons_append, List.cons_append, List.nil_append, readText.eq_def]
    simp only []
    rw [if_neg (by decide), if_pos trivial, if_neg he]
    simp only [hc, h, pushText_some, List.cons_append, List.nil_append]
  unfold escByte
  split
  · rename_i hq
    simp only [Bool.or_eq_true, decide_eq_true_eq] at hq
    rcases hq with hq | hq <;> subst hq <;> exact one _ _ (by decide) (by decide)
  split
  · rename_i hq; subst hq; exact one _ _ (by decide) (by decide)
  split
  · rename_i hq; subst hq; exact one _ _ (by decide) (by decide)
  split
  · rename_i hq; subst hq; exact one _ _ (by decide) (by decide)
  split
  · have := readText_u (hex4_low b) (by omega) h
    simp only [List.cons_append, List.nil_append]
    rw [this]
    simp [utf8Rune, hb]
  · rename_i h1 h2 h3 h4 h5
    simp only [Bool.or_eq_true, decide_eq_true_eq, not_or] at h1 h5
    have hr : ∀ y, runeLen (b :: y) = 0 + 1 := by
      intro y; simp only [runeLen]; rw [if_pos hb]
    rw [List.cons_append, List.nil_append, readText_plain h1.1 h1.2 h5.1.1.1 _ (hr x), h]
    rfl

theorem utf8_prefix {n : Nat} (hn : Scalar n) {s : Bytes} (h : utf8Rune n <+: s) : runeLen s ≠ 0 := by
  obtain ⟨t, rfl⟩ := h
  obtain ⟨h1, h2⟩ := runeLen_utf8 hn t
  omega

theorem readText_escText : ∀ (k : Nat) (s : Bytes), s.length ≤ k → ∀ rest, ∃ t, Repaired s t ∧
    readText 0 (escText false 0 s ++ 34 :: rest) = some (t, rest) := by
  intro k
  induction k with
  | zero =>
    intro s hs rest
    have : s = [] := List.length_eq_zero_iff.mp (by omega)
    subst this
    exact ⟨[], .nil, by simp only [escText, List.nil_append]; exact readText_quote rest⟩
  | succ k ih =>
    intro s hs rest
    cases s with
    | nil => exact ⟨[], .nil, by simp only [escText, List.nil_append]; exact readText_quote rest⟩
    | cons b bs =>
      simp only [List.length_cons] at hs
      by_cases h0 : runeLen (b :: bs) = 0
      · obtain ⟨t, h1, h2⟩ := ih bs (by omega) rest
        refine ⟨_, .bad (fun n hn hp => utf8_prefix hn hp h0) h1, ?_⟩
        rw [escText]
        simp only [h0, List.cons_append, List.nil_append]
        exact readText_u (n := 0xFFFD) (by decide +kernel) (by omega) h2
      · obtain ⟨n, u, hn, e, hl⟩ := runeLen_scalar h0
        obtain ⟨_, hpos⟩ := runeLen_utf8 hn u
        have hu : u.length ≤ k := by
          have := congrArg List.length e
          rw [List.length_append, List.length_cons] at this
          omega
        obtain ⟨t, h1, h2⟩ := ih u hu rest
        refine ⟨utf8Rune n ++ t, by rw [e]; exact .keep hn h1, ?_⟩
        cases hr : utf8Rune n with
        | nil => rw [hr] at hpos; cases hpos
        | cons b' v =>
          rw [hr] at e hl
          simp only [List.cons_append, List.cons.injEq] at e
          obtain ⟨rfl, rfl⟩ := e
          cases hv : v with
          | nil =>
            subst hv
            simp only [List.length_cons, List.length_nil, List.nil_append] at hl
            have hb : b.toNat < 128 := by
              by_contra hb
              simp only [runeLen] at hl
              rw [if_neg hb] at hl
              (repeat' split at hl) <;> simp at hl
            rw [List.nil_append, escText]
            simp only [hl, List.append_assoc]
            exact readText_esc hb h2
          | cons c w =>
            rw [← hv]
            have hvl : v.length = w.length + 1 := by rw [hv]; rfl
            simp only [List.length_cons] at hl
            have hb : ¬ b.toNat < 128 := by
              intro hb
              simp only [runeLen] at hl
              rw [if_pos hb] at hl
              omega
            rw [escText]
            rw [hl, hvl]
            simp only []
            split
            · rename_i hls
              rw [← hvl, escText_drop]
              match v, u, hl, hls, hvl, hr with
              | [], _, _, _, hvl, _ => simp at hvl
              | [x], [], hl, hls, _, _ => simp [lineSep] at hls
              | x :: y :: z, _, hl, hls, _, hr =>
                simp only [List.cons_append, lineSep, Bool.and_eq_true, Bool.or_eq_true, decide_eq_true_eq] at hls
                obtain ⟨⟨rfl, rfl⟩, hy⟩ := hls
                have hz : z = [] := by
                  have : ∀ q, runeLen (0xE2 :: 0x80 :: y :: q) = 3 := by
                    rcases hy with rfl | rfl <;> exact fun _ => rfl
                  simp only [List.cons_append] at hl
                  rw [this] at hl
                  simp only [List.length_cons] at hl
                  exact List.length_eq_zero_iff.mp (by omega)
                subst hz
                rcases hy with rfl | rfl
                · exact readText_u (n := 0x2028) (by simp [hex4, unhexByte]) (by omega) h2
                · exact readText_u (n := 0x2029) (by simp [hex4, unhexByte]) (by omega) h2
              | [x], y :: u', hl, hls, _, hr =>
                simp only [List.cons_append, List.nil_append, lineSep, Bool.and_eq_true, Bool.or_eq_true, decide_eq_true_eq] at hls
                obtain ⟨⟨rfl, rfl⟩, hy⟩ := hls
                have : runeLen (0xE2 :: 0x80 :: y :: u') = 3 := by
                  rcases hy with rfl | rfl <;> rfl
                simp only [List.cons_append, List.nil_append] at hl
                rw [this] at hl
                simp at hl
            · rw [← hvl, escText_copy]
              simp only [List.cons_append, List.append_assoc]
              have hne : ∀ m : UInt8, m.toNat < 128 → b ≠ m := by
                intro m hm e; subst e; exact hb hm
              have hlt : ¬ b < 32 := by rw [UInt8.lt_iff_toNat_lt]; intro h; exact hb (Nat.lt_trans h (by decide))
              have hl2 : runeLen (b :: (v ++ (escText false 0 u ++ 34 :: rest))) = v.length + 1 := by
                have := (runeLen_utf8 hn (escText false 0 u ++ 34 :: rest)).1
                rw [hr] at this
                exact this
              rw [readText_plain (hne 34 (by decide)) (hne 92 (by decide)) hlt _ hl2, readText_copy v _ h2, pushText_some]
              rfl

theorem utf8_append_inj {n m : Nat} (hn : Scalar n) (hm : Scalar m) {s t : Bytes} (h : utf8Rune n ++ s = utf8Rune m ++ t) :
    utf8Rune n = utf8Rune m ∧ s = t := by
  have h1 := (runeLen_utf8 hn s).1
  rw [h, (runeLen_utf8 hm t).1] at h1
  exact List.append_inj h h1.symm

theorem Utf8Text.tail {n : Nat} (hn : Scalar n) {s : Bytes} (h : Utf8Text (utf8Rune n ++ s)) : Utf8Text s := by
  generalize he : utf8Rune n ++ s = x at h
  cases h with
  | nil =>
    have := (runeLen_utf8 hn s).2
    have h2 := congrArg List.length he
    rw [List.length_append, List.length_nil] at h2
    omega
  | cons hm hs => rw [(utf8_append_inj hn hm he).2]; exact hs

/-- A text is not changed. -/
theorem Repaired.text {s t : Bytes} (h : Repaired s t) (hs : Utf8Text s) : t = s := by
  induction h with
  | nil => rfl
  | keep hn _ ih => rw [ih (hs.tail hn)]
  | @bad b s t hb _ _ =>
    exfalso
    generalize he : b :: s = x at hs
    cases hs with
    | nil => cases he
    | @cons n u hn _ => exact hb n hn ⟨u, he.symm⟩

/-- Only a text is not changed. -/
theorem Repaired.same_text {s t : Bytes} (h : Repaired s t) : Utf8Text t := by
  induction h with
  | nil => exact .nil
  | keep hn _ ih => exact .cons hn ih
  | @bad b s t _ _ ih => exact Utf8Text.cons (n := 0xFFFD) ⟨by decide, by decide⟩ ih

/-! ### Values -/

mutual
/-- The same value with each string and each key repaired. -/
inductive RepVal : JVal → JVal → Prop
  | null : RepVal .null .null
  | bool (b : Bool) : RepVal (.bool b) (.bool b)
  | num (t : Bytes) : RepVal (.num t) (.num t)
  | str {s t : Bytes} : Repaired s t → RepVal (.str s) (.str t)
  | arr {l m : List JVal} : RepList l m → RepVal (.arr l) (.arr m)
  | obj {l m : List (Bytes × JVal)} : RepFields l m → RepVal (.obj l) (.obj m)
inductive RepList : List JVal → List JVal → Prop
  | nil : RepList [] []
  | cons {v w : JVal} {l m : List JVal} : RepVal v w → RepList l m → RepList (v :: l) (w :: m)
inductive RepFields : List (Bytes × JVal) → List (Bytes × JVal) → Prop
  | nil : RepFields [] []
  | cons {k j : Bytes} {v w : JVal} {l m : List (Bytes × JVal)} : Repaired k j → RepVal v w → RepFields l m →
      RepFields ((k, v) :: l) ((j, w) :: m)
end

mutual
/-- The numbers are numbers. -/
def JVal.numsOk : JVal → Prop
  | .num t => validNum t = true
  | .arr l => numsOkL l
  | .obj l => numsOkF l
  | _ => True
def numsOkL : List JVal → Prop
  | [] => True
  | v :: l => v.numsOk ∧ numsOkL l
def numsOkF : List (Bytes × JVal) → Prop
  | [] => True
  | (_, v) :: l => v.numsOk ∧ numsOkF l
end

theorem digit_numByte {b : UInt8} (h : isDigitB b = true) : numByte b = true := by
  unfold numByte; rw [h]; rfl

theorem takeWhile_digits (s : Bytes) : ∀ b ∈ s.takeWhile isDigitB, numByte b = true := fun b hb =>
  digit_numByte (by
    have := List.all_eq_true.mp (List.all_takeWhile (p := isDigitB) (l := s)) b hb
    exact this)

theorem expTail_bytes : ∀ {s : Bytes}, expTail s = true → ∀ b ∈ s, numByte b = true
  | [], _, b, hb => by cases hb
  | e :: r, hr, b, hb => by
    simp only [expTail, Bool.and_eq_true, Bool.or_eq_true, decide_eq_true_eq] at hr
    obtain ⟨he, _, hall⟩ := hr
    rcases List.mem_cons.mp hb with rfl | hb
    · rcases he with rfl | rfl <;> rfl
    · split at hall
      · rename_i hs
        cases r with
        | nil => cases hb
        | cons x r =>
          rcases List.mem_cons.mp hb with rfl | hb
          · simp only [List.head?_cons, Option.some.injEq] at hs
            rcases hs with rfl | rfl <;> rfl
          · exact digit_numByte (List.all_eq_true.mp hall b hb)
      · exact digit_numByte (List.all_eq_true.mp hall b hb)

theorem dropDigits_bytes {s : Bytes} (h : ∀ b ∈ s.dropWhile isDigitB, numByte b = true) : ∀ b ∈ s, numByte b = true := by
  intro b hb
  rw [← List.takeWhile_append_dropWhile (p := isDigitB) (l := s)] at hb
  rcases List.mem_append.mp hb with hb | hb
  · exact takeWhile_digits s b hb
  · exact h b hb

theorem numTail_bytes {s : Bytes} (h : numTail s = true) : ∀ b ∈ s, numByte b = true := by
  unfold numTail at h
  split at h
  · rename_i hd
    cases s with
    | nil => cases hd
    | cons c s =>
      simp only [List.head?_cons, Option.some.injEq] at hd
      subst hd
      simp only [List.tail_cons, Bool.and_eq_true] at h
      intro b hb
      rcases List.mem_cons.mp hb with rfl | hb
      · rfl
      · exact dropDigits_bytes (expTail_bytes h.2) b hb
  · exact expTail_bytes h

/-- A number is not empty, begins with a digit or a minus sign, and has only bytes of numbers. -/
theorem validNum_bytes {t : Bytes} (h : validNum t = true) :
    (∀ b ∈ t, numByte b = true) ∧ ∃ b t', t = b :: t' ∧ (isDigitB b = true ∨ b = 45) := by
  have key : ∀ r : Bytes, (match r with
      | [] => false
      | d :: t => if d = 48 then numTail t else if isDigitB d then numTail (t.dropWhile isDigitB) else false) = true →
      (∀ b ∈ r, numByte b = true) ∧ ∃ b t', r = b :: t' ∧ isDigitB b = true := by
    intro r hr
    cases r with
    | nil => cases hr
    | cons d t =>
      simp only [] at hr
      split at hr
      · rename_i hd
        subst hd
        refine ⟨?_, 48, t, rfl, rfl⟩
        intro b hb
        rcases List.mem_cons.mp hb with rfl | hb
        · rfl
        · exact numTail_bytes hr b hb
      · split at hr
        · rename_i hd
          refine ⟨?_, d, t, rfl, hd⟩
          intro b hb
          rcases List.mem_cons.mp hb with rfl | hb
          · exact digit_numByte hd
          · exact dropDigits_bytes (numTail_bytes hr) b hb
        · cases hr
  unfold validNum at h
  simp only [] at h
  by_cases hs : t.head? = some 45
  · rw [if_pos hs] at h
    cases t with
    | nil => cases hs
    | cons c t =>
      simp only [List.head?_cons, Option.some.injEq] at hs
      subst hs
      obtain ⟨h1, _⟩ := key t h
      refine ⟨?_, 45, t, rfl, Or.inr rfl⟩
      intro b hb
      rcases List.mem_cons.mp hb with rfl | hb
      · rfl
      · exact h1 b hb
  · rw [if_neg hs] at h
    obtain ⟨h1, b, t', h2, h3⟩ := key t h
    exact ⟨h1, b, t', h2, Or.inl h3⟩

theorem skipSpace_cons {b : UInt8} (h : jsonSpace b = false) (t : Bytes) : skipSpace (b :: t) = b :: t := by
  unfold skipSpace
  rw [List.dropWhile_cons_of_neg (by rw [h]; simp)]

/-- How a value begins. -/
theorem enc_head : ∀ v : JVal, v.numsOk → ∃ b t, encVal v = b :: t ∧ jsonSpace b = false ∧ b ≠ 93
  | .null, _ => ⟨110, ascii "ull", by decide +kernel, rfl, by decide⟩
  | .bool true, _ => ⟨116, ascii "rue", by decide +kernel, rfl, by decide⟩
  | .bool false, _ => ⟨102, ascii "alse", by decide +kernel, rfl, by decide⟩
  | .num t, h => by
    obtain ⟨_, b, t', e, hb⟩ := validNum_bytes (t := t) (by simpa only [JVal.numsOk] using h)
    refine ⟨b, t', by rw [encVal, e], ?_⟩
    have := byte_all (p := fun b => !(isDigitB b || b = 45) || (!jsonSpace b && b != 93)) (by decide +kernel) b
    have hb' : (isDigitB b || b = 45) = true := by
      rcases hb with hb | hb
      · rw [hb]; rfl
      · subst hb; rfl
    rw [hb'] at this
    simpa using this
  | .str s, _ => ⟨34, _, by rw [encVal, quoted], rfl, by decide⟩
  | .arr [], _ => ⟨91, [93], by rw [encVal], rfl, by decide⟩
  | .arr (v :: l), _ => ⟨91, _, by rw [encVal], rfl, by decide⟩
  | .obj [], _ => ⟨123, [125], by rw [encVal], rfl, by decide⟩
  | .obj ((k, v) :: l), _ => ⟨123, _, by rw [encVal], rfl, by decide⟩

theorem encRest_head (l : List JVal) : ∃ b t, encRest l = b :: t ∧ (b = 44 ∨ b = 93) := by
  cases l with
  | nil => exact ⟨93, [], by rw [encRest], Or.inr rfl⟩
  | cons v l => exact ⟨44, _, by rw [encRest], Or.inl rfl⟩

theorem encFields_head (l : List (Bytes × JVal)) : ∃ b t, encFields l = b :: t ∧ (b = 44 ∨ b = 125) := by
  cases l with
  | nil => exact ⟨125, [], by rw [encFields], Or.inr rfl⟩
  | cons e l => obtain ⟨k, v⟩ := e; exact ⟨44, _, by rw [encFields], Or.inl rfl⟩

/-- What follows a value is not a part of a number. -/
def Stops (rest : Bytes) : Prop := ∀ b t, rest = b :: t → numByte b = false

theorem Stops.of {b : UInt8} {t : Bytes} (h : numByte b = false) : Stops (b :: t) := by
  intro b' t' e
  cases e
  exact h

theorem read_quoted (s rest : Bytes) : ∃ t, Repaired s t ∧ readText 0 (escText false 0 s ++ 34 :: rest) = some (t, rest) :=
  readText_escText s.length s (Nat.le_refl _) rest

mutual
theorem read_val : ∀ (v : JVal), v.numsOk → ∀ (f : Nat) (rest : Bytes), (encVal v).length < f → Stops rest →
    ∃ w, RepVal v w ∧ readVal f (encVal v ++ rest) = some (w, rest)
  | _, _, 0, _, hf, _ => absurd hf (Nat.not_lt_zero _)
  | .null, _, f + 1, rest, _, _ => by
    refine ⟨.null, .null, ?_⟩
    rw [encVal, show ascii "null" = [110, 117, 108, 108] by decide +kernel]
    simp only [List.cons_append, List.nil_append, readVal]
    rw [skipSpace_cons rfl]
    simp [readLit, show ascii "null" = [110, 117, 108, 108] by decide +kernel, List.isPrefixOf]
  | .bool b, _, f + 1, rest, _, _ => by
    refine ⟨.bool b, .bool b, ?_⟩
    cases b
    · rw [encVal, if_neg (by simp), show ascii "false" = [102, 97, 108, 115, 101] by decide +kernel]
      simp only [List.cons_append, List.nil_append, readVal]
      rw [skipSpace_cons rfl]
      simp [readLit, show ascii "false" = [102, 97, 108, 115, 101] by decide +kernel, List.isPrefixOf]
    · rw [encVal, if_pos rfl, show ascii "true" = [116, 114, 117, 101] by decide +kernel]
      simp only [List.cons_append, List.nil_append, readVal]
      rw [skipSpace_cons rfl]
      simp [readLit, show ascii "true" = [116, 114, 117, 101] by decide +kernel, List.isPrefixOf]
  | .num t, h, f + 1, rest, _, hs => by
    have hv : validNum t = true := by simpa only [JVal.numsOk] using h
    obtain ⟨hall, b, t', e, hb⟩ := validNum_bytes hv
    refine ⟨.num t, .num t, ?_⟩
    have hb' : (isDigitB b || b = 45) = true := by
      rcases hb with hb | hb
      · rw [hb]; rfl
      · subst hb; rfl
    have hbb := byte_all (p := fun b => !(isDigitB b || b = 45) || (!jsonSpace b && b != 34 && b != 91 && b != 123 && b != 110
      && b != 116 && b != 102)) (by decide +kernel) b
    rw [hb'] at hbb
    simp only [Bool.not_true, Bool.false_or, Bool.and_eq_true, bne_iff_ne, ne_eq, Bool.not_eq_true'] at hbb
    obtain ⟨⟨⟨⟨⟨⟨n1, n2⟩, n3⟩, n4⟩, n5⟩, n6⟩, n7⟩ := hbb
    have ht : (t ++ rest).takeWhile numByte = t ∧ (t ++ rest).dropWhile numByte = rest := by
      have h1 : rest.takeWhile numByte = [] ∧ rest.dropWhile numByte = rest := by
        cases rest with
        | nil => exact ⟨rfl, rfl⟩
        | cons x r =>
          have := hs x r rfl
          exact ⟨List.takeWhile_cons_of_neg (by rw [this]; simp), List.dropWhile_cons_of_neg (by rw [this]; simp)⟩
      rw [List.takeWhile_append_of_pos hall, List.dropWhile_append_of_pos hall, h1.1, h1.2, List.append_nil]
      exact ⟨rfl, rfl⟩
    rw [encVal, readVal]
    have e2 : t ++ rest = b :: (t' ++ rest) := by rw [e]; rfl
    rw [e2, skipSpace_cons n1]
    simp only [n2, n3, n4, n5, n6, n7, if_false]
    rw [← e2, ht.1, ht.2, if_pos hv]
  | .str s, _, f + 1, rest, _, _ => by
    obtain ⟨t, h1, h2⟩ := read_quoted s rest
    refine ⟨.str t, .str h1, ?_⟩
    rw [encVal, quoted]
    simp only [List.cons_append, List.append_assoc, List.nil_append, readVal]
    rw [skipSpace_cons rfl]
    simp [h2]
  | .arr [], _, f + 1, rest, _, _ => by
    refine ⟨.arr [], .arr .nil, ?_⟩
    rw [encVal]
    simp only [List.cons_append, List.nil_append, readVal]
    rw [skipSpace_cons rfl]
    simp [skipSpace_cons (b := 93) rfl]
  | .arr (v :: l), h, f + 1, rest, hf, _ => by
    simp only [JVal.numsOk, numsOkL] at h
    rw [encVal, List.length_cons] at hf
    obtain ⟨w, ws, h1, h2, h3⟩ := read_elems v l h.1 h.2 f rest (by omega)
    refine ⟨.arr (w :: ws), .arr (.cons h1 h2), ?_⟩
    obtain ⟨b, t, e1, e2, e3⟩ := enc_head v h.1
    rw [encVal]
    simp only [List.cons_append, List.append_assoc, readVal]
    rw [skipSpace_cons rfl]
    simp only [show ((91 : UInt8) = 34) = False by decide, if_false, if_true, h3]
    rw [e1, List.cons_append, skipSpace_cons e2]
    simp [e3]
  | .obj [], _, f + 1, rest, _, _ => by
    refine ⟨.obj [], .obj .nil, ?_⟩
    rw [encVal]
    simp only [List.cons_append, List.nil_append, readVal]
    rw [skipSpace_cons rfl]
    simp [skipSpace_cons (b := 125) rfl]
  | .obj ((k, v) :: l), h, f + 1, rest, hf, _ => by
    simp only [JVal.numsOk, numsOkF] at h
    rw [encVal, List.length_cons] at hf
    obtain ⟨j, w, ws, h0, h1, h2, h3⟩ := read_fields k v l h.1 h.2 f rest (by omega)
    refine ⟨.obj ((j, w) :: ws), .obj (.cons h0 h1 h2), ?_⟩
    rw [encVal]
    simp only [List.cons_append, List.append_assoc, readVal] at h3 ⊢
    rw [skipSpace_cons rfl]
    simp only [show ((123 : UInt8) = 34) = False by decide, show ((123 : UInt8) = 91) = False by decide, if_false, if_true, h3]
    rw [quoted, List.cons_append, skipSpace_cons rfl]
    simp
theorem read_elems : ∀ (v : JVal) (l : List JVal), v.numsOk → numsOkL l → ∀ (f : Nat) (rest : Bytes),
    (encVal v ++ encRest l).length < f →
    ∃ w ws, RepVal v w ∧ RepList l ws ∧ readElems f (encVal v ++ (encRest l ++ rest)) = some (w :: ws, rest)
  | _, _, _, _, 0, _, hf => absurd hf (Nat.not_lt_zero _)
  | v, l, hv, hl, f + 1, rest, hf => by
    rw [List.length_append] at hf
    obtain ⟨b, t, e1, e2⟩ := encRest_head l
    have hpos : 0 < (encRest l).length := by rw [e1]; exact Nat.succ_pos _
    obtain ⟨w, h1, h2⟩ := read_val v hv f (encRest l ++ rest) (by omega) (by
      rw [e1]
      rcases e2 with rfl | rfl <;> exact Stops.of rfl)
    rw [readElems, h2]
    simp only []
    match l, hl, hf with
    | [], _, _ =>
      refine ⟨w, [], h1, .nil, ?_⟩
      rw [encRest, List.cons_append, skipSpace_cons rfl]
      simp
    | v' :: l', hl, hf =>
      simp only [numsOkL] at hl
      have hlen : (encRest (v' :: l')).length = (encVal v' ++ encRest l').length + 1 := by rw [encRest, List.length_cons]
      obtain ⟨w', ws', g1, g2, g3⟩ := read_elems v' l' hl.1 hl.2 f rest (by omega)
      refine ⟨w, w' :: ws', h1, .cons g1 g2, ?_⟩
      rw [encRest, List.cons_append, skipSpace_cons rfl]
      simp only [if_true, List.append_assoc, g3, Option.map_some]
theorem read_fields : ∀ (k : Bytes) (v : JVal) (l : List (Bytes × JVal)), v.numsOk → numsOkF l → ∀ (f : Nat) (rest : Bytes),
    (quoted k ++ 58 :: (encVal v ++ encFields l)).length < f →
    ∃ j w ws, Repaired k j ∧ RepVal v w ∧ RepFields l ws ∧
      readFields f (quoted k ++ 58 :: (encVal v ++ (encFields l ++ rest))) = some ((j, w) :: ws, rest)
  | _, _, _, _, _, 0, _, hf => absurd hf (Nat.not_lt_zero _)
  | k, v, l, hv, hl, f + 1, rest, hf => by
    rw [List.length_append, List.length_cons, List.length_append] at hf
    obtain ⟨b, t, e1, e2⟩ := encFields_head l
    have hpos : 0 < (encFields l).length := by rw [e1]; exact Nat.succ_pos _
    obtain ⟨w, h1, h2⟩ := read_val v hv f (encFields l ++ rest) (by omega) (by
      rw [e1]
      rcases e2 with rfl | rfl <;> exact Stops.of rfl)
    obtain ⟨j, h3, h4⟩ := read_quoted k (58 :: (encVal v ++ (encFields l ++ rest)))
    have hq : quoted k ++ 58 :: (encVal v ++ (encFields l ++ rest)) =
        34 :: (escText false 0 k ++ 34 :: 58 :: (encVal v ++ (encFields l ++ rest))) := by
      simp [quoted]
    rw [hq, readFields, skipSpace_cons rfl]
    simp only [if_true, h4]
    rw [skipSpace_cons rfl]
    simp only [if_true, h2]
    match l, hl, hf with
    | [], _, _ =>
      refine ⟨j, w, [], h3, h1, .nil, ?_⟩
      rw [encFields, List.cons_append, skipSpace_cons rfl]
      simp
    | (k', v') :: l', hl, hf =>
      simp only [numsOkF] at hl
      have hlen : (encFields ((k', v') :: l')).length = (quoted k' ++ 58 :: (encVal v' ++ encFields l')).length + 1 := by
        rw [encFields, List.length_cons]
      obtain ⟨j', w', ws', g0, g1, g2, g3⟩ := read_fields k' v' l' hl.1 hl.2 f rest (by omega)
      refine ⟨j, w, (j', w') :: ws', h3, h1, .cons g0 g1 g2, ?_⟩
      rw [encFields, List.cons_append, skipSpace_cons rfl]
      simp only [if_true, List.append_assoc, List.cons_append, g3, Option.map_some]
end

theorem parse_marshal (v : JVal) (h : v.numsOk) : ∃ w, RepVal v w ∧ parseJson (marshal v) = some w := by
  unfold parseJson marshal
  obtain ⟨w, h1, h2⟩ := read_val v h ((encVal v ++ [10]).length + 1) [10] (by rw [List.length_append]; omega) (Stops.of rfl)
  refine ⟨w, h1, ?_⟩
  rw [h2]
  rfl

/-- **C127.** Whatever is sent arrives as the same value with the same keys in the same order, with each invalid byte of a
text replaced: no text can end early, begin another field or another value. -/
theorem C127_any (v : JVal) (h : v.numsOk) : ∃ w, RepVal v w ∧ parseJson (marshal v) = some w := parse_marshal v h

mutual
/-- All texts of the value are texts. -/
def JVal.textsOk : JVal → Prop
  | .str s => Utf8Text s
  | .arr l => textsOkL l
  | .obj l => textsOkF l
  | _ => True
def textsOkL : List JVal → Prop
  | [] => True
  | v :: l => v.textsOk ∧ textsOkL l
def textsOkF : List (Bytes × JVal) → Prop
  | [] => True
  | (k, v) :: l => Utf8Text k ∧ v.textsOk ∧ textsOkF l
end

mutual
theorem RepVal.same : ∀ {v w : JVal}, RepVal v w → v.textsOk → w = v
  | _, _, .null, _ => rfl
  | _, _, .bool _, _ => rfl
  | _, _, .num _, _ => rfl
  | _, _, .str h, ht => by
    rw [JVal.textsOk] at ht
    rw [h.text ht]
  | _, _, .arr h, ht => by
    rw [JVal.textsOk] at ht
    rw [RepList.same h ht]
  | _, _, .obj h, ht => by
    rw [JVal.textsOk] at ht
    rw [RepFields.same h ht]
theorem RepList.same : ∀ {l m : List JVal}, RepList l m → textsOkL l → m = l
  | _, _, .nil, _ => rfl
  | _, _, .cons h1 h2, ht => by
    rw [textsOkL] at ht
    rw [RepVal.same h1 ht.1, RepList.same h2 ht.2]
theorem RepFields.same : ∀ {l m : List (Bytes × JVal)}, RepFields l m → textsOkF l → m = l
  | _, _, .nil, _ => rfl
  | _, _, .cons h0 h1 h2, ht => by
    rw [textsOkF] at ht
    rw [h0.text ht.1, RepVal.same h1 ht.2.1, RepFields.same h2 ht.2.2]
end

/-- **C127.** A value whose texts are valid UTF-8 arrives as it is. -/
theorem C127_json (v : JVal) (hn : v.numsOk) (ht : v.textsOk) : parseJson (marshal v) = some v := by
  obtain ⟨w, h1, h2⟩ := C127_any v hn
  rw [h2, h1.same ht]

/-! ### Types -/

theorem ascii_text : ∀ {s : Bytes}, (∀ b ∈ s, b < 128) → Utf8Text s
  | [], _ => .nil
  | b :: s, h => by
    have hb := h b (by simp)
    rw [UInt8.lt_iff_toNat_lt] at hb
    have hb' : b.toNat < 128 := hb
    have := Utf8Text.cons (n := b.toNat) (s := s) ⟨by omega, by omega⟩ (ascii_text fun x hx => h x (by simp [hx]))
    have e : utf8Rune b.toNat = [b] := by
      unfold utf8Rune
      rw [if_pos (by omega)]
      simp
    rwa [e] at this

/-- The digits of a number: no leading zero. -/
theorem decimal_head (n : Nat) (h : 0 < n) : ∃ b t, decimalBytes n = b :: t ∧ b ≠ 48 := by
  induction n using Nat.strongRecOn with
  | _ n ih =>
    rw [decimalBytes_eq]
    by_cases hn : n < 10
    · rw [Nat.toDigits_of_lt_base hn]
      refine ⟨_, [], rfl, ?_⟩
      have : ∀ m < 10, 0 < m → (Nat.digitChar m).toNat.toUInt8 ≠ 48 := by decide
      exact this n hn h
    · obtain ⟨b, t, e, hb⟩ := ih (n / 10) (by omega) (by omega)
      rw [decimalBytes_eq] at e
      rw [Nat.toDigits_of_base_le (by decide) (by omega), List.map_append, e]
      exact ⟨b, _, rfl, hb⟩

theorem decimal_isDigit (n : Nat) : ∀ b ∈ decimalBytes n, isDigitB b = true := by
  intro b hb
  have := decimalBytes_digit n b hb
  unfold isDigitB
  simp [this.1, this.2]

theorem dropDigits_nil : ∀ {t : Bytes}, (∀ b ∈ t, isDigitB b = true) → t.dropWhile isDigitB = []
  | [], _ => rfl
  | b :: t, h => by
    rw [List.dropWhile_cons_of_pos (h b (by simp))]
    exact dropDigits_nil fun x hx => h x (List.mem_cons_of_mem _ hx)

theorem validNum_pos (n : Nat) : (match decimalBytes n with
      | [] => false
      | d :: t => if d = 48 then numTail t else if isDigitB d then numTail (t.dropWhile isDigitB) else false) = true := by
  by_cases hn : n = 0
  · subst hn; decide +kernel
  · obtain ⟨b, t, e, hb⟩ := decimal_head n (by omega)
    have hd := decimal_isDigit n
    rw [e] at hd ⊢
    simp only []
    rw [if_neg hb, if_pos (hd b (by simp))]
    have : t.dropWhile isDigitB = [] := by
      exact dropDigits_nil fun x hx => hd x (by simp [hx])
    rw [this]
    rfl

theorem decimal_head_ne (n : Nat) {c : UInt8} (hc : c < 48) : (decimalBytes n).head? ≠ some c := by
  intro h
  have h1 := (decimalBytes_digit n c (List.mem_of_head? h)).1
  rw [UInt8.le_iff_toNat_le] at h1
  rw [UInt8.lt_iff_toNat_lt] at hc
  omega

theorem validNum_decimal (n : Nat) : validNum (decimalBytes n) = true := by
  unfold validNum
  simp only []
  rw [if_neg (decimal_head_ne n (by decide))]
  exact validNum_pos n

theorem validNum_neg (n : Nat) : validNum (45 :: decimalBytes n) = true := by
  unfold validNum
  simp only [List.head?_cons, if_true, List.tail_cons]
  exact validNum_pos n

theorem atoiDigits_decimal (i : Nat) : atoiDigits (decimalBytes i) = some i := by
  have hf : (decimalBytes i).foldl
      (fun (acc : Option Nat) b => acc.bind fun n => if 48 ≤ b && b ≤ 57 then some (10 * n + (b.toNat - 48)) else none)
      (some 0) = some i := by
    rw [decimalBytes_eq, foldl_digits _ fun c hc => Nat.isDigit_of_mem_toDigits (by decide) (by decide) hc]
    simp [Nat.ofDigitChars_toDigits]
  have hne : (decimalBytes i).isEmpty = false := by
    rw [decimalBytes_eq]
    cases h : Nat.toDigits 10 i with
    | nil => exact absurd h Nat.toDigits_ne_nil
    | cons => rfl
  unfold atoiDigits
  rw [hne, hf]
  rfl

/-- How an int64 is written. -/
def SintText (t : Bytes) : Prop :=
  (∃ n : Nat, n < 2 ^ 63 ∧ t = decimalBytes n) ∨ ∃ n : Nat, 0 < n ∧ n ≤ 2 ^ 63 ∧ t = 45 :: decimalBytes n

mutual
/-- The values of a Go type, as they are encoded: an integer in decimal within its range, a struct with all its fields in
order, a map with distinct keys, a nil pointer, list or map as null; texts are valid UTF-8. -/
def JTy.has : JTy → JVal → Prop
  | .str, .str s => Utf8Text s
  | .bool, .bool _ => True
  | .ptrBool, .bool _ => True
  | .ptrBool, .null => True
  | .uint m, .num t => ∃ n, n ≤ m ∧ t = decimalBytes n
  | .sint, .num t => SintText t
  | .float, .num t => validNum t = true
  | .list _, .null => True
  | .list t, .arr l => ∀ v ∈ l, t.has v
  | .map _, .null => True
  | .map t, .obj l => (l.map (·.1)).Nodup ∧ ∀ e ∈ l, Utf8Text e.1 ∧ t.has e.2
  | .struct fs, .obj l => hasFields fs l
  | _, _ => False
def hasFields : List (Bytes × JTy) → List (Bytes × JVal) → Prop
  | [], [] => True
  | (n, t) :: fs, (k, v) :: l => k = n ∧ t.has v ∧ hasFields fs l
  | _, _ => False
end

mutual
/-- The fields of structs have distinct names, in ASCII. -/
def JTy.wf : JTy → Bool
  | .list t => t.wf
  | .map t => t.wf
  | .struct fs => decide (fs.map (·.1)).Nodup && wfFields fs
  | _ => true
def wfFields : List (Bytes × JTy) → Bool
  | [] => true
  | (n, t) :: fs => n.all (· < 128) && t.wf && wfFields fs
end

theorem okL_of : ∀ {l : List JVal}, (∀ v ∈ l, v.numsOk ∧ v.textsOk) → numsOkL l ∧ textsOkL l
  | [], _ => ⟨trivial, trivial⟩
  | v :: l, h => by
    have h1 := h v (by simp)
    have h2 := okL_of fun x hx => h x (List.mem_cons_of_mem _ hx)
    exact ⟨⟨h1.1, h2.1⟩, h1.2, h2.2⟩

theorem okF_of : ∀ {l : List (Bytes × JVal)}, (∀ e ∈ l, Utf8Text e.1 ∧ e.2.numsOk ∧ e.2.textsOk) → numsOkF l ∧ textsOkF l
  | [], _ => ⟨trivial, trivial⟩
  | (k, v) :: l, h => by
    have h1 := h (k, v) (by simp)
    have h2 := okF_of fun x hx => h x (List.mem_cons_of_mem _ hx)
    exact ⟨⟨h1.2.1, h2.1⟩, h1.1, h1.2.2, h2.2⟩

mutual
theorem has_ok : ∀ (t : JTy), t.wf = true → ∀ v, t.has v → v.numsOk ∧ v.textsOk
  | .str, _, v, h => by
    cases v <;> simp only [JTy.has] at h
    exact ⟨trivial, h⟩
  | .bool, _, v, h => by
    cases v <;> simp only [JTy.has] at h
    exact ⟨trivial, trivial⟩
  | .ptrBool, _, v, h => by
    cases v <;> simp only [JTy.has] at h
    · exact ⟨trivial, trivial⟩
    · exact ⟨trivial, trivial⟩
  | .uint m, _, v, h => by
    cases v <;> simp only [JTy.has] at h
    obtain ⟨n, _, rfl⟩ := h
    exact ⟨validNum_decimal n, trivial⟩
  | .sint, _, v, h => by
    cases v <;> simp only [JTy.has] at h
    rcases h with ⟨n, _, rfl⟩ | ⟨n, _, _, rfl⟩
    · exact ⟨validNum_decimal n, trivial⟩
    · exact ⟨validNum_neg n, trivial⟩
  | .float, _, v, h => by
    cases v <;> simp only [JTy.has] at h
    exact ⟨h, trivial⟩
  | .list t, hw, v, h => by
    cases v <;> simp only [JTy.has] at h
    · exact ⟨trivial, trivial⟩
    · exact okL_of fun v hv => has_ok t (by simpa only [JTy.wf] using hw) v (h v hv)
  | .map t, hw, v, h => by
    cases v <;> simp only [JTy.has] at h
    · exact ⟨trivial, trivial⟩
    · exact okF_of fun e he => ⟨(h.2 e he).1, has_ok t (by simpa only [JTy.wf] using hw) e.2 (h.2 e he).2⟩
  | .struct fs, hw, v, h => by
    cases v <;> simp only [JTy.has] at h
    rw [JTy.wf, Bool.and_eq_true] at hw
    exact hasFields_ok fs hw.2 _ h
theorem hasFields_ok : ∀ (fs : List (Bytes × JTy)), wfFields fs = true → ∀ l, hasFields fs l → numsOkF l ∧ textsOkF l
  | [], _, [], _ => ⟨trivial, trivial⟩
  | [], _, _ :: _, h => by simp only [hasFields] at h
  | _ :: _, _, [], h => by simp only [hasFields] at h
  | (n, t) :: fs, hw, (k, v) :: l, h => by
    simp only [hasFields] at h
    simp only [wfFields, Bool.and_eq_true] at hw
    obtain ⟨rfl, h1, h2⟩ := h
    have g1 := has_ok t hw.1.2 v h1
    have g2 := hasFields_ok fs hw.2 l h2
    refine ⟨⟨g1.1, g2.1⟩, ascii_text ?_, g1.2, g2.2⟩
    intro b hb
    simpa using List.all_eq_true.mp hw.1.1 b hb
end

theorem mapM_same {α : Type} {f : α → Option α} : ∀ {l : List α}, (∀ x ∈ l, f x = some x) → l.mapM f = some l
  | [], _ => rfl
  | x :: l, h => by
    rw [List.mapM_cons, h x (by simp), mapM_same fun y hy => h y (List.mem_cons_of_mem _ hy)]
    rfl

theorem lastWins_nodup : ∀ {l : List (Bytes × JVal)}, (l.map (·.1)).Nodup → lastWins l = l
  | [], _ => rfl
  | e :: l, h => by
    rw [List.map_cons, List.nodup_cons] at h
    rw [lastWins, if_neg, lastWins_nodup h.2]
    intro ha
    obtain ⟨x, hx, hxe⟩ := List.any_eq_true.mp ha
    exact h.1 (List.mem_map.mpr ⟨x, hx, by simpa using hxe⟩)

theorem hasFields_names : ∀ {fs : List (Bytes × JTy)} {l : List (Bytes × JVal)}, hasFields fs l → l.map (·.1) = fs.map (·.1)
  | [], [], _ => rfl
  | [], _ :: _, h => by simp only [hasFields] at h
  | _ :: _, [], h => by simp only [hasFields] at h
  | (n, t) :: fs, (k, v) :: l, h => by
    simp only [hasFields] at h
    rw [List.map_cons, List.map_cons, hasFields_names h.2.2, h.1]

theorem entry_unique : ∀ {l : List (Bytes × JVal)}, (l.map (·.1)).Nodup → ∀ {a b : Bytes × JVal}, a ∈ l → b ∈ l → a.1 = b.1 → a = b
  | [], _, _, _, ha, _, _ => by cases ha
  | e :: l, hn, a, b, ha, hb, hab => by
    rw [List.map_cons, List.nodup_cons] at hn
    rcases List.mem_cons.mp ha with h1 | h1
    · rcases List.mem_cons.mp hb with h2 | h2
      · rw [h1, h2]
      · exact absurd (List.mem_map.mpr ⟨b, h2, by rw [← hab, h1]⟩) hn.1
    · rcases List.mem_cons.mp hb with h2 | h2
      · exact absurd (List.mem_map.mpr ⟨a, h1, by rw [hab, h2]⟩) hn.1
      · exact entry_unique hn.2 h1 h2 hab

theorem find_field {l : List (Bytes × JVal)} (hn : (l.map (·.1)).Nodup) {k : Bytes} {v : JVal} (h : (k, v) ∈ l) :
    (l.reverse.find? fun e => keyMatches (l.map (·.1)) k e.1) = some (k, v) := by
  cases hf : l.reverse.find? fun e => keyMatches (l.map (·.1)) k e.1 with
  | none =>
    have := List.find?_eq_none.mp hf (k, v) (List.mem_reverse.mpr h)
    exact absurd (by simp [keyMatches]) this
  | some e =>
    have hm := List.mem_reverse.mp (List.mem_of_find?_eq_some hf)
    have hk := List.find?_some hf
    have hin : (l.map (·.1)).contains e.1 = true := List.contains_iff_mem.mpr (List.mem_map.mpr ⟨e, hm, rfl⟩)
    simp only [keyMatches, hin, Bool.not_true, Bool.and_false, Bool.or_false, decide_eq_true_eq] at hk
    rw [entry_unique hn hm h hk]

mutual
theorem into_same : ∀ (t : JTy), t.wf = true → ∀ v, t.has v → t.into v = some v
  | .str, _, v, h => by
    cases v <;> simp only [JTy.has] at h
    simp only [JTy.into]
  | .bool, _, v, h => by
    cases v <;> simp only [JTy.has] at h
    simp only [JTy.into]
  | .ptrBool, _, v, h => by
    cases v <;> simp only [JTy.has] at h
    · simp only [JTy.into, JTy.zero]
    · simp only [JTy.into]
  | .uint m, _, v, h => by
    cases v <;> simp only [JTy.has] at h
    obtain ⟨n, hn, rfl⟩ := h
    simp only [JTy.into, intoUint, atoiDigits_decimal, if_pos hn]
  | .sint, _, v, h => by
    cases v <;> simp only [JTy.has] at h
    rcases h with ⟨n, hn, rfl⟩ | ⟨n, h0, hn, rfl⟩
    · simp only [JTy.into, intoSint, atoi_decimal n hn, Option.map_some]
    · have : atoiBytes (45 :: decimalBytes n) = some (-(n : Int)) := by
        unfold atoiBytes
        simp only [List.head?_cons, List.tail_cons, atoiDigits_decimal, Option.bind_some]
        rw [if_neg (by decide), if_pos trivial]
        unfold atoiRange
        rw [if_pos (by omega)]
      simp only [JTy.into, intoSint, this, Option.map_some]
  | .float, _, v, h => by
    cases v <;> simp only [JTy.has] at h
    simp only [JTy.into]
  | .list t, hw, v, h => by
    cases v <;> simp only [JTy.has] at h
    · simp only [JTy.into, JTy.zero]
    · rw [JTy.into, mapM_same fun v hv => into_same t (by simpa only [JTy.wf] using hw) v (h v hv)]
      rfl
  | .map t, hw, v, h => by
    cases v <;> simp only [JTy.has] at h
    · simp only [JTy.into, JTy.zero]
    · rw [JTy.into, mapM_same fun e he => by
        rw [into_same t (by simpa only [JTy.wf] using hw) e.2 (h.2 e he).2]; rfl]
      rw [Option.map_some, lastWins_nodup h.1]
  | .struct fs, hw, v, h => by
    cases v <;> simp only [JTy.has] at h
    rename_i l
    rw [JTy.wf, Bool.and_eq_true] at hw
    rw [JTy.into, ← hasFields_names h, intoFields_same l (by rw [hasFields_names h]; simpa using hw.1) fs hw.2 l h
      fun e he => he]
    rfl
theorem intoFields_same (all : List (Bytes × JVal)) (hn : (all.map (·.1)).Nodup) :
    ∀ (fs : List (Bytes × JTy)), wfFields fs = true → ∀ l, hasFields fs l → (∀ e ∈ l, e ∈ all) →
      intoFields (all.map (·.1)) fs all = some l
  | [], _, [], _, _ => by rw [intoFields]
  | [], _, _ :: _, h, _ => by simp only [hasFields] at h
  | _ :: _, _, [], h, _ => by simp only [hasFields] at h
  | (n, t) :: fs, hw, (k, v) :: l, h, hin => by
    simp only [hasFields] at h
    simp only [wfFields, Bool.and_eq_true] at hw
    obtain ⟨rfl, h1, h2⟩ := h
    rw [intoFields, find_field hn (hin (k, v) (by simp))]
    simp only []
    rw [into_same t hw.1.2 v h1, intoFields_same all hn fs hw.2 l h2 fun e he => hin e (List.mem_cons_of_mem _ he)]
end

/-- **C127.** A value of a Go type is decoded by the receiver, and is the value sent. -/
theorem C127_typed (t : JTy) (hw : t.wf = true) (v : JVal) (h : t.has v) : unmarshal t (marshal v) = some v := by
  have ok := has_ok t hw v h
  rw [unmarshal, C127_json v ok.1 ok.2]
  exact into_same t hw v h

/-- **C127.** The configuration of a stage (compute/api.go:197) is the one that the remote instance runs
(compute/client.go:74). -/
theorem C127_stage (v : JVal) (h : stageTy.has v) : unmarshal stageTy (marshal v) = some v :=
  C127_typed stageTy (by decide +kernel) v h

/-- **C127.** The statistics of an instance (proto/proto.go:61) are those that the server receives (compute/api.go:381). -/
theorem C127_stats (v : JVal) (h : instanceTy.has v) : unmarshal instanceTy (marshal v) = some v :=
  C127_typed instanceTy (by decide +kernel) v h

mutual
theorem RepVal.text : ∀ {v w : JVal}, RepVal v w → w.textsOk
  | _, _, .null => trivial
  | _, _, .bool _ => trivial
  | _, _, .num _ => trivial
  | _, _, .str h => h.same_text
  | _, _, .arr h => RepList.text h
  | _, _, .obj h => RepFields.text h
theorem RepList.text : ∀ {l m : List JVal}, RepList l m → textsOkL m
  | _, _, .nil => trivial
  | _, _, .cons h1 h2 => ⟨RepVal.text h1, RepList.text h2⟩
theorem RepFields.text : ∀ {l m : List (Bytes × JVal)}, RepFields l m → textsOkF m
  | _, _, .nil => trivial
  | _, _, .cons h0 h1 h2 => ⟨h0.same_text, RepVal.text h1, RepFields.text h2⟩
end

/-- **C127.** What is received has only valid texts, so a value with a text that is not valid UTF-8 (a password in the DSN
of the command line can have any bytes) never arrives as it is. -/
theorem C127_bytes_false (v : JVal) (hn : v.numsOk) (ht : ¬ v.textsOk) : parseJson (marshal v) ≠ some v := by
  obtain ⟨w, h1, h2⟩ := C127_any v hn
  rw [h2]
  intro e
  cases e
  exact ht h1.text

/-! ### Examples -/

/-- A stage with this DSN and this name. -/
def exStageJson (name dsn : Bytes) : JVal :=
  let s (l : String) : Bytes × JVal := (ascii l, .str [])
  let n (l : String) : Bytes × JVal := (ascii l, .null)
  .obj [(ascii "Compute", .obj [(ascii "DisableLocal", .bool true), (ascii "Instances", .str [50])]),
    (ascii "Disable", .bool false), s "File", (ascii "Id", .str (ascii "c1")), (ascii "Name", .str name),
    (ascii "MySQL", .obj [s "Db", (ascii "DSN", .str dsn), s "Hostname", s "MyCnf", s "Password", s "PasswordFile", s "Socket",
      s "TimeoutConnect", (ascii "TLS", .obj [s "CA", s "Cert", s "Key", n "SkipVerify", (ascii "Disable", .bool true),
      s "MySQLMode"]), s "Username", n "DisableAutoTLS"]),
    (ascii "N", .num (decimalBytes 1)), (ascii "Params", .obj [(ascii "rows", .str (ascii "1,000")), (ascii "a\"b", .str [60, 38])]),
    s "QPS", s "Runtime", (ascii "Stats", .obj [n "Disable", s "Freq", n "Report"]), s "TPS", (ascii "Test", .bool false),
    (ascii "Trx", .arr [.obj [s "Name", (ascii "File", .str (ascii "a.sql")), n "Data"]]), n "Workload"]

/-- A name that looks like the end of the text and another field, with a line break and U+2028. -/
def exName : Bytes := ascii "x\",\"N\":7,\"y\":\"\n" ++ [0xE2, 0x80, 0xA8]

example : stageTy.has (exStageJson exName (ascii "u:p@/")) := by
  have a : ∀ s : Bytes, (s.all (· < 128)) = true → Utf8Text s := fun s h => ascii_text fun b hb => by
    simpa using List.all_eq_true.mp h b hb
  have hx : Utf8Text exName := by
    have h0 : Utf8Text [0xE2, 0x80, 0xA8] := by
      have := Utf8Text.cons (n := 0x2028) (s := []) ⟨by decide, by decide⟩ .nil
      rwa [show utf8Rune 0x2028 ++ [] = [0xE2, 0x80, 0xA8] by decide +kernel] at this
    have app : ∀ s : Bytes, (s.all (· < 128)) = true → ∀ t, Utf8Text t → Utf8Text (s ++ t) := by
      intro s
      induction s with
      | nil => exact fun _ t ht => ht
      | cons b s ih =>
        intro h t ht
        rw [List.all_cons, Bool.and_eq_true] at h
        have hb : b.toNat < 128 := by
          have := h.1
          rw [decide_eq_true_eq, UInt8.lt_iff_toNat_lt] at this
          exact this
        have := Utf8Text.cons (n := b.toNat) ⟨by omega, by omega⟩ (ih h.2 t ht)
        have e : utf8Rune b.toNat = [b] := by
          unfold utf8Rune
          rw [if_pos (by omega)]
          simp
        rwa [e] at this
    exact app _ (by decide +kernel) _ h0
  have nd : ([ascii "rows", ascii "a\"b"]).Nodup := by decide +kernel
  simp only [exStageJson, stageTy, mysqlTy, tlsTy, fieldsOf, trxTy, List.map_cons, List.map_nil, JTy.has, hasFields, true_and,
    and_true, List.mem_cons, List.not_mem_nil, or_false, forall_eq_or_imp, forall_eq, hx, Utf8Text.nil]
  refine ⟨?_, ?_, ?_, ?_, ?_, ?_⟩
  all_goals first | exact a _ (by decide +kernel) | skip
  · exact ⟨1, by decide, rfl⟩
  · exact ⟨nd, ⟨a _ (by decide +kernel), a _ (by decide +kernel)⟩, a _ (by decide +kernel), a _ (by decide +kernel)⟩

example : (unmarshal stageTy (marshal (exStageJson exName (ascii "u:p@/")))).map marshal =
    some (marshal (exStageJson exName (ascii "u:p@/"))) := by
  decide +kernel

/-- The byte FF in a DSN arrives as the three bytes of U+FFFD. -/
example : (unmarshal stageTy (marshal (exStageJson exName [117, 58, 0xFF]))).map marshal =
    some (marshal (exStageJson exName [117, 58, 0xEF, 0xBF, 0xBD])) := by
  decide +kernel

example : ¬ (JVal.str [0xFF]).textsOk := by
  rw [JVal.textsOk]
  intro h
  have h1 : readText 0 (escText false 0 [0xFF] ++ [34]) = some ([0xEF, 0xBF, 0xBD], []) := by decide +kernel
  obtain ⟨t, h2, h3⟩ := read_quoted [0xFF] []
  rw [h1] at h3
  cases h3
  exact absurd (h2.text h) (by decide)

end Finch
