import Verif.Model.Url
import Verif.Props.Groups
/-!
C122: the server sees what an instance sends in the URL of a request.
-/
namespace Finch

/-- xid: twenty characters from 0-9 and a-v. -/
def XidByte (b : UInt8) : Prop := (48 ≤ b ∧ b ≤ 57) ∨ (97 ≤ b ∧ b ≤ 118)

/-- A byte of the names of parameters in the code: a lower case letter. -/
def KeyByte (b : UInt8) : Prop := 97 ≤ b ∧ b ≤ 122

theorem byte_all {p : UInt8 → Bool} (h : (List.range 256).all fun n => p (UInt8.ofNat n)) (b : UInt8) :
    p b = true := by
  have h1 : b.toNat < 256 := b.toNat_lt
  have := List.all_eq_true.mp h b.toNat (List.mem_range.mpr h1)
  simpa using this

theorem kept_plain (b : UInt8) : keptByte b = true → b ≠ 37 ∧ b ≠ 43 ∧ b ≠ 38 ∧ b ≠ 59 ∧ b ≠ 61 := by
  have := byte_all (p := fun b => !keptByte b || (b != 37 && b != 43 && b != 38 && b != 59 && b != 61))
    (by decide +kernel) b
  intro h
  simp only [h, Bool.not_true, Bool.false_or, Bool.and_eq_true, bne_iff_ne, ne_eq] at this
  tauto

theorem hex_round (b : UInt8) : unhexByte (hexByte (b / 16)) = some (b / 16) ∧
    unhexByte (hexByte (b % 16)) = some (b % 16) ∧ b / 16 * 16 + b % 16 = b := by
  have := byte_all (p := fun b => unhexByte (hexByte (b / 16)) == some (b / 16) &&
    unhexByte (hexByte (b % 16)) == some (b % 16) && b / 16 * 16 + b % 16 == b) (by decide +kernel) b
  simp only [Bool.and_eq_true, beq_iff_eq] at this
  tauto

theorem hex_plain (b : UInt8) : hexByte (b / 16) ≠ 38 ∧ hexByte (b / 16) ≠ 59 ∧ hexByte (b % 16) ≠ 38 ∧
    hexByte (b % 16) ≠ 59 := by
  have := byte_all (p := fun b => hexByte (b / 16) != 38 && hexByte (b / 16) != 59 && hexByte (b % 16) != 38 &&
    hexByte (b % 16) != 59) (by decide +kernel) b
  simp only [Bool.and_eq_true, bne_iff_ne, ne_eq] at this
  tauto

theorem unescape_cons {b : UInt8} (h : b ≠ 37) (bs : Bytes) :
    queryUnescape (b :: bs) = (queryUnescape bs).map ((if b = 43 then 32 else b) :: ·) := by
  rw [queryUnescape.eq_def]
  split <;> simp_all

theorem unescape_escape (s : Bytes) : queryUnescape (queryEscape s) = some s := by
  induction s with
  | nil => rfl
  | cons b bs ih =>
    simp only [queryEscape]
    split
    · rename_i h
      have := kept_plain b h
      rw [unescape_cons this.1, ih, if_neg this.2.1]
      rfl
    · split
      · rename_i h
        rw [unescape_cons (by decide), ih, h]
        rfl
      · have := hex_round b
        simp only [queryUnescape, this.1, this.2.1, ih, this.2.2]

theorem unescape_kept (s : Bytes) (h : ∀ b ∈ s, keptByte b = true) : queryUnescape s = some s := by
  induction s with
  | nil => rfl
  | cons b bs ih =>
    have := kept_plain b (h b (by simp))
    rw [unescape_cons this.1, ih (fun x hx => h x (by simp [hx])), if_neg this.2.1]
    rfl

theorem escape_plain (s : Bytes) : ∀ x ∈ queryEscape s, x ≠ 38 ∧ x ≠ 59 := by
  induction s with
  | nil => simp [queryEscape]
  | cons b bs ih =>
    intro x hx
    simp only [queryEscape] at hx
    split at hx
    · rename_i h
      have := kept_plain b h
      rcases List.mem_cons.mp hx with rfl | hx
      · exact ⟨this.2.2.1, this.2.2.2.1⟩
      · exact ih x hx
    · split at hx
      · rcases List.mem_cons.mp hx with rfl | hx
        · decide
        · exact ih x hx
      · have := hex_plain b
        simp only [List.mem_cons] at hx
        rcases hx with rfl | rfl | rfl | hx
        · decide
        · exact ⟨this.1, this.2.1⟩
        · exact ⟨this.2.2.1, this.2.2.2⟩
        · exact ih x hx

theorem splitByte_ne_nil (c : UInt8) (s : Bytes) : splitByte c s ≠ [] := by
  cases s with
  | nil => simp [splitByte]
  | cons b bs =>
    simp only [splitByte]
    split
    · simp
    · split <;> simp

theorem splitByte_last {c : UInt8} (s : Bytes) (h : ∀ b ∈ s, b ≠ c) : splitByte c s = [s] := by
  induction s with
  | nil => rfl
  | cons b bs ih =>
    simp only [splitByte, if_neg (h b (by simp)), ih fun x hx => h x (by simp [hx])]

theorem splitByte_cons {c : UInt8} (s t : Bytes) (h : ∀ b ∈ s, b ≠ c) :
    splitByte c (s ++ c :: t) = s :: splitByte c t := by
  induction s with
  | nil => simp [splitByte]
  | cons b bs ih =>
    simp only [List.cons_append, splitByte, if_neg (h b (by simp)), ih fun x hx => h x (by simp [hx])]

theorem splitByte_intercalate {c : UInt8} (ls : List Bytes) (hn : ls ≠ []) (h : ∀ l ∈ ls, ∀ b ∈ l, b ≠ c) :
    splitByte c (List.intercalate [c] ls) = ls := by
  induction ls with
  | nil => exact absurd rfl hn
  | cons l ls ih =>
    cases ls with
    | nil => simpa [List.intercalate] using splitByte_last l (h l (by simp))
    | cons l' ls =>
      have h1 : List.intercalate [c] (l :: l' :: ls) = l ++ c :: List.intercalate [c] (l' :: ls) := by
        simp [List.intercalate, List.intersperse]
      rw [h1, splitByte_cons l _ (h l (by simp)), ih (by simp) fun x hx => h x (by simp [hx])]

theorem cutByte_key {c : UInt8} (k v : Bytes) (h : ∀ b ∈ k, b ≠ c) : cutByte c (k ++ c :: v) = (k, v) := by
  induction k with
  | nil => simp [cutByte]
  | cons b bs ih =>
    simp only [List.cons_append, cutByte, if_neg (h b (by simp)), ih fun x hx => h x (by simp [hx])]

theorem parsePair_eq {k w v : Bytes} (hk : ∀ b ∈ k, keptByte b = true) (hw : ∀ b ∈ w, b ≠ 59)
    (hv : queryUnescape w = some v) : parsePair (k ++ 61 :: w) = some (k, v) := by
  have h59 : (k ++ 61 :: w).contains 59 = false := by
    simp only [List.contains_eq_mem, List.mem_append, List.mem_cons, decide_eq_false_iff_not, not_or]
    exact ⟨fun h => (kept_plain _ (hk _ h)).2.2.2.1 rfl, by decide, fun h => hw _ h rfl⟩
  have hne : (k ++ 61 :: w).isEmpty = false := by simp
  unfold parsePair
  rw [h59, hne, cutByte_key k w fun b hb => (kept_plain b (hk b hb)).2.2.2.2]
  simp [unescape_kept k hk, hv]

theorem kept_ascii_name : ∀ b ∈ ascii "name", keptByte b = true := by decide +kernel
theorem kept_ascii_id : ∀ b ∈ ascii "stage-id", keptByte b = true := by decide +kernel

theorem kept_xid {b : UInt8} (h : XidByte b) : keptByte b = true := by
  unfold XidByte at h
  have := byte_all (p := fun b => !((48 ≤ b && b ≤ 57) || (97 ≤ b && b ≤ 118)) || keptByte b)
    (by decide +kernel) b
  rcases h with ⟨h1, h2⟩ | ⟨h1, h2⟩ <;> simpa [h1, h2] using this

theorem kept_key {b : UInt8} (h : KeyByte b) : keptByte b = true := by
  simp [keptByte, h.1, h.2]

theorem mem_key_plain {k w : Bytes} {c : UInt8} (hk : ∀ b ∈ k, b ≠ c) (hc : (61 : UInt8) ≠ c) (hw : ∀ b ∈ w, b ≠ c) :
    ∀ b ∈ k ++ 61 :: w, b ≠ c := by
  intro b hb
  rcases List.mem_append.mp hb with h | h
  · exact hk b h
  · rcases List.mem_cons.mp h with rfl | h
    · exact hc
    · exact hw b h

/-- **C122.** The server parses exactly the parameters that the instance sent: its name, whatever bytes are in it, the
parameters of the request with their values, whatever bytes are in them, and the id of the stage. -/
theorem C122_query (name : Bytes) (params : List (Bytes × Bytes)) (sid : Bytes)
    (hp : ∀ p ∈ params, ∀ b ∈ p.1, KeyByte b) (hs : ∀ b ∈ sid, XidByte b) :
    parseQuery (urlQuery name params sid) =
      (ascii "name", name) :: params ++ [(ascii "stage-id", sid)] := by
  have e1 : ascii "name=" ++ queryEscape name = ascii "name" ++ 61 :: queryEscape name := by
    have : ascii "name=" = ascii "name" ++ [61] := by decide +kernel
    rw [this]; simp
  have e2 : ascii "stage-id=" ++ sid = ascii "stage-id" ++ 61 :: sid := by
    have : ascii "stage-id=" = ascii "stage-id" ++ [61] := by decide +kernel
    rw [this]; simp
  have kk : ∀ {k : Bytes}, (∀ b ∈ k, keptByte b = true) → ∀ b ∈ k, b ≠ 38 :=
    fun h b hb => (kept_plain b (h b hb)).2.2.1
  have hs' : ∀ b ∈ sid, keptByte b = true := fun b hb => kept_xid (hs b hb)
  unfold parseQuery urlQuery
  rw [e1, e2, splitByte_cons _ _ (mem_key_plain (kk kept_ascii_name) (by decide) fun b hb => (escape_plain name b hb).1),
    splitByte_intercalate _ (by simp)]
  · rw [List.filterMap_cons, parsePair_eq kept_ascii_name (fun b hb => (escape_plain name b hb).2) (unescape_escape name)]
    simp only [List.filterMap_append, List.filterMap_map]
    have h1 : params.filterMap (parsePair ∘ fun p => p.1 ++ 61 :: queryEscape p.2) = params := by
      clear e1 e2
      induction params with
      | nil => rfl
      | cons p ps ih =>
        rw [List.filterMap_cons]
        rw [show (parsePair ∘ fun p : Bytes × Bytes => p.1 ++ 61 :: queryEscape p.2) p =
          parsePair (p.1 ++ 61 :: queryEscape p.2) from rfl, parsePair_eq (fun b hb => kept_key (hp p (by simp) b hb)) (fun b hb => (escape_plain p.2 b hb).2)
          (unescape_escape p.2), ih fun q hq => hp q (by simp [hq])]
    rw [h1, List.filterMap_cons, parsePair_eq kept_ascii_id
      (fun b hb => (kept_plain b (hs' b hb)).2.2.2.1) (unescape_kept sid hs')]
    simp
  · intro l hl
    rcases List.mem_append.mp hl with h | h
    · obtain ⟨p, hpm, rfl⟩ := List.mem_map.mp h
      exact mem_key_plain (kk fun b hb => kept_key (hp p hpm b hb)) (by decide)
        fun b hb => (escape_plain p.2 b hb).1
    · rw [List.mem_singleton.mp h]
      exact mem_key_plain (kk kept_ascii_id) (by decide) (kk hs')

/-- **C122.** In every request the server sees the name of the instance without its line breaks, and the id of the stage
as the instance has it. -/
theorem C122_client (name : Bytes) (params : List (Bytes × Bytes)) (sid : Bytes)
    (hp : ∀ p ∈ params, ∀ b ∈ p.1, KeyByte b) (hn : ∀ p ∈ params, p.1 ≠ ascii "name")
    (hs : ∀ b ∈ sid, XidByte b) :
    requestClient (urlQuery name params sid) = some (name.filter (fun b => b ≠ 10 ∧ b ≠ 13), sid) := by
  have hx : ∀ p ∈ params, p.1 ≠ ascii "stage-id" := by
    intro p hpm h
    have h1 : KeyByte 45 := hp p hpm 45 (by rw [h]; decide +kernel)
    exact absurd h1.1 (by decide)
  unfold requestClient
  simp only [C122_query name params sid hp hs]
  have f1 : params.filter (fun p => decide (p.1 = ascii "name")) = [] :=
    List.filter_eq_nil_iff.mpr fun p hpm => by simpa using hn p hpm
  have f2 : params.filter (fun p => decide (p.1 = ascii "stage-id")) = [] :=
    List.filter_eq_nil_iff.mpr fun p hpm => by simpa using hx p hpm
  have d1 : (ascii "name" = ascii "stage-id") = False := by simp only [eq_iff_iff, iff_false]; decide +kernel
  have d2 : (ascii "stage-id" = ascii "name") = False := by simp only [eq_iff_iff, iff_false]; decide +kernel
  simp only [valuesOf, List.cons_append, List.filter_cons, List.filter_append, f1, f2, d1, d2, decide_true,
    decide_false, if_true, List.filter_nil, List.nil_append, List.map_cons, List.map_nil, Bool.false_eq_true, if_false,
    reduceCtorEq, List.append_nil]
  have c1 : ∀ s : Bytes, cleanBytes s = s.filter (fun b => b ≠ 10 ∧ b ≠ 13) := by
    intro s
    simp only [cleanBytes, List.filter_filter]
    congr 1
    funext b
    simp [Bool.and_comm]
  have c2 : sid.filter (fun b => b ≠ 10 ∧ b ≠ 13) = sid := by
    rw [List.filter_eq_self]
    intro b hb
    have h1 := hs b hb
    simp only [ne_eq, decide_eq_true_eq]
    constructor <;> (rintro rfl; revert h1; unfold XidByte; decide)
  rw [c1, c1, c2]

/-- **C122.** Instances with different names are different for the server, unless only line breaks distinguish them. -/
theorem C122_names (name name' : Bytes) (params params' : List (Bytes × Bytes)) (sid sid' : Bytes)
    (hp : ∀ p ∈ params, ∀ b ∈ p.1, KeyByte b) (hn : ∀ p ∈ params, p.1 ≠ ascii "name")
    (hp' : ∀ p ∈ params', ∀ b ∈ p.1, KeyByte b) (hn' : ∀ p ∈ params', p.1 ≠ ascii "name")
    (hs : ∀ b ∈ sid, XidByte b) (hs' : ∀ b ∈ sid', XidByte b) :
    requestClient (urlQuery name params sid) = requestClient (urlQuery name' params' sid') ↔
      name.filter (fun b => b ≠ 10 ∧ b ≠ 13) = name'.filter (fun b => b ≠ 10 ∧ b ≠ 13) ∧ sid = sid' := by
  rw [C122_client name params sid hp hn hs, C122_client name' params' sid' hp' hn' hs']
  simp

theorem digitByte {c : Char} (h : c.isDigit = true) :
    48 ≤ c.toNat.toUInt8 ∧ c.toNat.toUInt8 ≤ 57 ∧ c.toNat.toUInt8.toNat - 48 = c.toNat - '0'.toNat := by
  simp only [Char.isDigit, Bool.and_eq_true, decide_eq_true_eq] at h
  have h1 : 48 ≤ c.toNat := h.1
  have h2 : c.toNat ≤ 57 := h.2
  have h3 : (Nat.toUInt8 c.toNat).toNat = c.toNat := by
    simp only [Nat.toUInt8, UInt8.toNat_ofNat']
    exact Nat.mod_eq_of_lt (by omega)
  refine ⟨?_, ?_, ?_⟩
  · rw [UInt8.le_iff_toNat_le, h3]; exact h1
  · rw [UInt8.le_iff_toNat_le, h3]; exact h2
  · rw [h3]; rfl

theorem foldl_digits (l : List Char) (h : ∀ c ∈ l, c.isDigit = true) (n : Nat) :
    (l.map fun c => c.toNat.toUInt8).foldl
      (fun (acc : Option Nat) b => acc.bind fun n => if 48 ≤ b && b ≤ 57 then some (10 * n + (b.toNat - 48)) else none)
      (some n) = some (Nat.ofDigitChars 10 l n) := by
  induction l generalizing n with
  | nil => simp [Nat.ofDigitChars]
  | cons c cs ih =>
    have hc := digitByte (h c (by simp))
    simp only [List.map_cons, List.foldl_cons, Option.bind_some, hc.1, hc.2.1, decide_true, Bool.and_self, if_true,
      hc.2.2]
    rw [ih fun x hx => h x (by simp [hx])]
    simp [Nat.ofDigitChars]

theorem decimalBytes_eq (i : Nat) : decimalBytes i = (Nat.toDigits 10 i).map fun c => c.toNat.toUInt8 := by
  unfold decimalBytes ascii
  rw [show toString i = Nat.repr i from rfl, Nat.toList_repr]

theorem decimalBytes_digit (i : Nat) : ∀ b ∈ decimalBytes i, 48 ≤ b ∧ b ≤ 57 := by
  rw [decimalBytes_eq]
  intro b hb
  obtain ⟨c, hc, rfl⟩ := List.mem_map.mp hb
  have := digitByte (Nat.isDigit_of_mem_toDigits (by decide) (by decide) hc)
  exact ⟨this.1, this.2.1⟩

theorem atoi_decimal (i : Nat) (h : i < 2 ^ 63) : atoiBytes (decimalBytes i) = some (i : Int) := by
  have hd := decimalBytes_digit i
  have hf : (decimalBytes i).foldl
      (fun (acc : Option Nat) b => acc.bind fun n => if 48 ≤ b && b ≤ 57 then some (10 * n + (b.toNat - 48)) else none)
      (some 0) = some i := by
    rw [decimalBytes_eq, foldl_digits _ fun c hc => Nat.isDigit_of_mem_toDigits (by decide) (by decide) hc]
    simp [Nat.ofDigitChars_toDigits]
  have hne : (decimalBytes i).isEmpty = false := by
    rw [decimalBytes_eq]
    cases h : Nat.toDigits 10 i with
    | nil => exact absurd h Nat.toDigits_ne_nil
    | cons => rfl
  have hh : ∀ c : UInt8, c < 48 → (decimalBytes i).head? ≠ some c := by
    intro c hc h
    have h1 := (hd c (List.mem_of_head? h)).1
    rw [UInt8.le_iff_toNat_le] at h1
    rw [UInt8.lt_iff_toNat_lt] at hc
    omega
  unfold atoiBytes
  rw [if_neg (hh 43 (by decide)), if_neg (hh 45 (by decide))]
  unfold atoiDigits
  rw [hne, hf]
  simp only [Bool.false_eq_true, if_false, Option.bind_some]
  unfold atoiRange
  rw [if_pos (by omega)]

/-- **C122.** A request for the `i`-th file of a stage is a request for the `i`-th file at the server, and is refused if
the stage of the server has no such file. -/
theorem C122_file (name stage sid : Bytes) (i n : Nat) (hi : i < 2 ^ 63) (hs : ∀ b ∈ sid, XidByte b) :
    requestFile (urlQuery name (fileParams stage i) sid) n = if i < n then some i else none := by
  have hp : ∀ p ∈ fileParams stage i, ∀ b ∈ p.1, KeyByte b := by
    intro p hpm
    simp only [fileParams, List.mem_cons, List.not_mem_nil, or_false] at hpm
    unfold KeyByte
    rcases hpm with rfl | rfl
    · show ∀ b ∈ ascii "stage", 97 ≤ b ∧ b ≤ 122
      decide +kernel
    · show ∀ b ∈ ascii "i", 97 ≤ b ∧ b ≤ 122
      decide +kernel
  unfold requestFile
  simp only [C122_query name _ sid hp hs]
  have d1 : (ascii "name" = ascii "stage") = False := by simp only [eq_iff_iff, iff_false]; decide +kernel
  have d2 : (ascii "name" = ascii "i") = False := by simp only [eq_iff_iff, iff_false]; decide +kernel
  have d3 : (ascii "stage" = ascii "i") = False := by simp only [eq_iff_iff, iff_false]; decide +kernel
  have d4 : (ascii "i" = ascii "stage") = False := by simp only [eq_iff_iff, iff_false]; decide +kernel
  have d5 : (ascii "stage-id" = ascii "stage") = False := by simp only [eq_iff_iff, iff_false]; decide +kernel
  have d6 : (ascii "stage-id" = ascii "i") = False := by simp only [eq_iff_iff, iff_false]; decide +kernel
  have hc : cleanBytes (decimalBytes i) = decimalBytes i := by
    have hd := decimalBytes_digit i
    unfold cleanBytes
    rw [List.filter_eq_self.mpr, List.filter_eq_self.mpr]
    · intro b hb
      have := (hd b hb).1
      simp only [ne_eq, decide_not, Bool.not_eq_eq_eq_not, Bool.not_true, decide_eq_false_iff_not]
      rintro rfl
      exact absurd this (by decide)
    · intro b hb
      have := (hd b (List.mem_filter.mp hb).1).1
      simp only [ne_eq, decide_not, Bool.not_eq_eq_eq_not, Bool.not_true, decide_eq_false_iff_not]
      rintro rfl
      exact absurd this (by decide)
  simp only [valuesOf, fileParams, List.cons_append, List.filter_cons, List.nil_append, d1, d2, d3, d4, d5, d6,
    decide_true, decide_false, if_true, List.filter_nil, List.map_cons, List.map_nil, Bool.false_eq_true, if_false,
    hc, atoi_decimal i hi]
  by_cases h : i < n
  · rw [if_neg (by omega), if_neg (by omega), if_pos h]
    simp
  · rw [if_neg (by omega), if_pos (by omega), if_neg h]

/-- Two names that differ in a line break are one name for the server. -/
theorem C122_line_breaks : ascii "a\nb" ≠ ascii "ab" ∧
    requestClient (urlQuery (ascii "a\nb") [] (ascii "c1")) = requestClient (urlQuery (ascii "ab") [] (ascii "c1")) := by
  decide +kernel

/-- The id of the stage is sent as it is: the server would not see one that has an ampersand. -/
theorem C122_raw_id : requestClient (urlQuery (ascii "a") [] (ascii "x&y")) = some (ascii "a", ascii "x") := by
  decide +kernel

/-- A name with spaces, an ampersand, a percent sign, a semicolon and bytes that are not ASCII. -/
example : requestClient (urlQuery (ascii "my box & 100%;" ++ [195, 164]) (fileParams (ascii "a=b&i=7") 12)
    (ascii "cg1v9q8s0t")) = some (ascii "my box & 100%;" ++ [195, 164], ascii "cg1v9q8s0t") := by decide +kernel
example : requestFile (urlQuery (ascii "my box & i=3") (fileParams (ascii "a=b&i=7") 12) (ascii "cg1v9q8s0t")) 13 =
    some 12 := by decide +kernel
example : requestFile (urlQuery (ascii "my box & i=3") (fileParams (ascii "a=b&i=7") 12) (ascii "cg1v9q8s0t")) 12 =
    none := by decide +kernel
example : (∀ b ∈ ascii "cg1v9q8s0t", (48 ≤ b ∧ b ≤ 57) ∨ (97 ≤ b ∧ b ≤ 118)) ∧ 12 < 2 ^ 63 := by
  constructor <;> decide +kernel

end Finch
