import Verif.Model.Generators
import Verif.Props.Integer
/-!
# C15, C16, C17, C67: string, client-id and column generators
-/
namespace Finch

/-! ### C15: str-fill-az -/

/-- Spec: the letters a-z and A-Z. -/
def IsLetter (c : Char) : Prop := ('a' ≤ c ∧ c ≤ 'z') ∨ ('A' ≤ c ∧ c ≤ 'Z')

instance (c : Char) : Decidable (IsLetter c) := by unfold IsLetter; infer_instance

theorem letterBytes_letters : ∀ c ∈ letterBytes, IsLetter c := by decide

theorem letterAt_letter {i : Nat} (h : i < 52) : IsLetter (letterAt i) := by
  have : i < letterBytes.length := by simpa [letterBytes] using h
  unfold letterAt
  rw [List.getD_eq_getElem?_getD, List.getElem?_eq_getElem this, Option.getD_some]
  exact letterBytes_letters _ (List.getElem_mem this)

theorem letter_index {c : Char} (h : IsLetter c) : ∃ i, i < 52 ∧ letterAt i = c := by
  have hmem : c ∈ letterBytes := by
    have hn : c.toNat < 128 := by
      rcases h with ⟨_, h⟩ | ⟨_, h⟩
      · have : c.toNat ≤ 'z'.toNat := h
        have : 'z'.toNat = 122 := by decide
        omega
      · have : c.toNat ≤ 'Z'.toNat := h
        have : 'Z'.toNat = 90 := by decide
        omega
    have key : ∀ n, n < 128 → IsLetter (Char.ofNat n) → Char.ofNat n ∈ letterBytes := by decide
    have := key c.toNat hn
    rw [Char.ofNat_toNat] at this
    exact this h
  obtain ⟨i, hi, he⟩ := List.mem_iff_getElem.1 hmem
  refine ⟨i, by simpa [letterBytes] using hi, ?_⟩
  unfold letterAt
  rw [List.getD_eq_getElem?_getD, List.getElem?_eq_getElem hi, Option.getD_some, he]

theorem strLoop_spec (ws : List Nat) (need cache remain : Nat) (out : List Char)
    (h : strLoop ws need cache remain = some out) :
    out.length = need ∧ ∀ c ∈ out, IsLetter c := by
  induction ws, need, cache, remain using strLoop.induct generalizing out with
  | case1 ws cache remain =>
    unfold strLoop at h
    simp only [if_true] at h
    cases h
    simp
  | case2 need cache hne =>
    unfold strLoop at h
    simp [hne] at h
  | case3 need cache hne w ws' ih =>
    unfold strLoop at h
    simp only [if_neg hne] at h
    exact ih out h
  | case4 need cache hne r ws idx hidx ih =>
    unfold strLoop at h
    simp only [if_neg hne] at h
    rw [if_pos hidx] at h
    simp only [Option.map_eq_some_iff] at h
    obtain ⟨o, ho, rfl⟩ := h
    obtain ⟨h1, h2⟩ := ih o ho
    refine ⟨by simp [h1]; omega, ?_⟩
    intro c hc
    rcases List.mem_cons.1 hc with rfl | hc
    · exact letterAt_letter hidx
    · exact h2 c hc
  | case5 need cache hne r ws idx hidx ih =>
    unfold strLoop at h
    simp only [if_neg hne] at h
    rw [if_neg hidx] at h
    exact ih out h

/-- **C15.** Whenever str-fill-az returns, the string has exactly the configured length and consists
of letters a-z, A-Z only, whatever words the random source returns. -/
theorem C15_str_fill_az (p : Params) (len : Nat) (h : newStrFillAz p = some len) (ws : List Nat)
    (out : List Char) (hv : strFillAz len ws = some out) :
    1 ≤ len ∧ int64From p "len" 100 = some (len : Int) ∧ out.length = len ∧
      ∀ c ∈ out, IsLetter c := by
  have hl : 1 ≤ len ∧ int64From p "len" 100 = some (len : Int) := by
    unfold newStrFillAz at h
    simp only [Option.bind_eq_bind, Option.bind_eq_some_iff] at h
    obtain ⟨l, h1, h⟩ := h
    split at h
    · cases h
    cases h
    rw [h1]
    constructor
    · omega
    · congr 1; omega
  refine ⟨hl.1, hl.2, ?_⟩
  unfold strFillAz at hv
  split at hv
  · cases hv
  · exact strLoop_spec _ _ _ _ _ hv

/-- A word whose lowest six bits are `i` and whose other chunks are all 63 (no letter). -/
def oneLetterWord (i : Nat) : Nat := i + 64 * (64 ^ 9 - 1)

theorem strLoop_skip (ws : List Nat) (need : Nat) (hn : need ≠ 0) : ∀ r,
    strLoop ws need (64 ^ r - 1) r = strLoop ws need 0 0 := by
  intro r
  induction r with
  | zero => rfl
  | succ r ih =>
    conv_lhs => unfold strLoop
    have hp : 0 < 64 ^ r := Nat.pow_pos (by norm_num)
    have h1 : (64 ^ (r + 1) - 1) % 64 = 63 := by
      rw [Nat.pow_succ]; omega
    have h2 : (64 ^ (r + 1) - 1) / 64 = 64 ^ r - 1 := by
      rw [Nat.pow_succ]; omega
    simp only [if_neg hn, h1, h2]
    rw [if_neg (by norm_num)]
    exact ih

theorem strLoop_words (out : List Char) (hl : ∀ c ∈ out, IsLetter c) : ∃ ws : List Nat,
    (∀ w ∈ ws, w < 2 ^ 63) ∧ ∀ w0, strLoop ws out.length w0 0 = some out := by
  induction out with
  | nil => exact ⟨[], by simp, fun w0 => by unfold strLoop; simp⟩
  | cons c cs ih =>
    obtain ⟨ws, hw, hs⟩ := ih (fun x hx => hl x (List.mem_cons_of_mem _ hx))
    obtain ⟨i, hi, hc⟩ := letter_index (hl c (List.mem_cons_self ..))
    refine ⟨oneLetterWord i :: ws, ?_, ?_⟩
    · intro w hm
      rcases List.mem_cons.1 hm with rfl | hm
      · unfold oneLetterWord; omega
      · exact hw w hm
    · intro w0
      unfold strLoop
      simp only [List.length_cons, Nat.succ_ne_zero, if_false]
      unfold strLoop
      have h1 : oneLetterWord i % 64 = i := by unfold oneLetterWord; omega
      have h2 : oneLetterWord i / 64 = 64 ^ 9 - 1 := by unfold oneLetterWord; omega
      simp only [Nat.succ_ne_zero, if_false, h1, h2, if_pos hi, Nat.add_sub_cancel]
      by_cases h0 : cs.length = 0
      · have : cs = [] := List.eq_nil_of_length_eq_zero h0
        subst this
        unfold strLoop
        simp [hc]
      · rw [strLoop_skip ws _ h0 9, hs 0]
        simp [hc]

/-- **C15.** Every string of letters of the configured length is returned for some random words. -/
theorem C15_every_letter_string_possible (out : List Char) (hl : ∀ c ∈ out, IsLetter c)
    (h1 : 1 ≤ out.length) :
    ∃ ws : List Nat, (∀ w ∈ ws, w < 2 ^ 63) ∧ strFillAz out.length ws = some out := by
  obtain ⟨ws, hw, hs⟩ := strLoop_words out hl
  have h := hs 0
  unfold strLoop at h
  rw [if_neg (by omega)] at h
  cases ws with
  | nil => simp at h
  | cons w ws =>
    simp only at h
    exact ⟨w :: ws, hw, h⟩

example : newStrFillAz (mkParams [("len", "2")]) = some 2 ∧
    newStrFillAz (mkParams [("len", "0")]) = none := by decide

example : ∃ ws, strFillAz 3 ws = some ['a', 'Z', 'q'] :=
  (C15_every_letter_string_possible ['a', 'Z', 'q'] (by decide) (by decide)).imp fun _ h => h.2

/-! ### C16: client-id -/

/-- Spec: the run counter that an id name refers to. -/
inductive NamesCounter : String → (RunCount → Nat) → Prop
  | statement : NamesCounter "statement" RunCount.statement
  | trx : NamesCounter "trx" RunCount.trx
  | iter : NamesCounter "iter" RunCount.iter
  | conn : NamesCounter "conn" RunCount.conn
  | client : NamesCounter "client" RunCount.client
  | clientGroup : NamesCounter "client-group" RunCount.clientGroup
  | execGroup : NamesCounter "exec-group" RunCount.execGroup

/-- Spec: joining words with a separator. -/
def joinWith (sep : Char) : List (List Char) → List Char
  | [] => []
  | [w] => w
  | w :: ws => w ++ sep :: joinWith sep ws

theorem splitOn1_ne_nil (sep : Char) (s : List Char) : splitOn1 sep s ≠ [] := by
  cases s with
  | nil => simp [splitOn1]
  | cons c cs =>
    unfold splitOn1
    split
    · simp
    · split <;> simp

theorem splitOn1_word (sep : Char) (w : List Char) (hw : sep ∉ w) : splitOn1 sep w = [w] := by
  induction w with
  | nil => rfl
  | cons c cs ih =>
    simp only [List.mem_cons, not_or] at hw
    simp [splitOn1, Ne.symm hw.1, ih hw.2]

theorem splitOn1_cons (sep : Char) (w s : List Char) (hw : sep ∉ w) :
    splitOn1 sep (w ++ sep :: s) = w :: splitOn1 sep s := by
  induction w with
  | nil => simp [splitOn1]
  | cons c cs ih =>
    simp only [List.mem_cons, not_or] at hw
    simp [splitOn1, Ne.symm hw.1, ih hw.2]

theorem splitOn1_join (sep : Char) (ws : List (List Char)) (hne : ws ≠ [])
    (h : ∀ w ∈ ws, sep ∉ w) : splitOn1 sep (joinWith sep ws) = ws := by
  induction ws with
  | nil => exact absurd rfl hne
  | cons w ws ih =>
    cases ws with
    | nil => exact splitOn1_word sep w (h w (by simp))
    | cons v vs =>
      simp only [joinWith]
      rw [splitOn1_cons sep w _ (h w (by simp)), ih (by simp) (fun x hx => h x (by simp [hx]))]

theorem joinWith_splitOn1 (sep : Char) (s : List Char) : joinWith sep (splitOn1 sep s) = s := by
  induction s with
  | nil => rfl
  | cons c cs ih =>
    unfold splitOn1
    split
    · rename_i h
      subst h
      cases hs : splitOn1 c cs with
      | nil => exact absurd hs (splitOn1_ne_nil _ _)
      | cons w ws => rw [hs] at ih; simp [joinWith, ih]
    · cases hs : splitOn1 sep cs with
      | nil => exact absurd hs (splitOn1_ne_nil _ _)
      | cons w ws =>
        rw [hs] at ih
        cases ws with
        | nil => simp only [joinWith] at ih ⊢; rw [ih]
        | cons v vs => simp only [joinWith] at ih ⊢; rw [← ih]; rfl

theorem names_no_comma {n : String} {f} (h : NamesCounter n f) : ',' ∉ n.toList := by
  cases h <;> decide

theorem names_index {n : String} {f} (h : NamesCounter n f) :
    ∃ i, clientIdIndex n.toList = some i ∧ ∀ rc : RunCount, rc.get i = f rc := by
  cases h
  · exact ⟨0, by decide, fun _ => rfl⟩
  · exact ⟨1, by decide, fun _ => rfl⟩
  · exact ⟨2, by decide, fun _ => rfl⟩
  · exact ⟨3, by decide, fun _ => rfl⟩
  · exact ⟨4, by decide, fun _ => rfl⟩
  · exact ⟨5, by decide, fun _ => rfl⟩
  · exact ⟨6, by decide, fun _ => rfl⟩

/-- **C16.** With `ids` a comma-separated list of known names, client-id returns one value per
name, in order, equal to the calling client's counters of these names. -/
theorem C16_client_id_values (p : Params) (names : List (String × (RunCount → Nat)))
    (hne : names ≠ []) (hn : ∀ x ∈ names, NamesCounter x.1 x.2)
    (hp : p.get "ids" = some (joinWith ',' (names.map (·.1.toList)))) :
    ∃ ids, newClientId p = some ids ∧
      ∀ rc, clientIdValues ids rc = names.map (fun x => x.2 rc) := by
  have hpl : ¬ p.length = 0 := by
    intro h0
    have : p = [] := List.eq_nil_of_length_eq_zero h0
    subst this
    simp [Params.get] at hp
  have hsplit := splitOn1_join ',' (names.map (·.1.toList)) (by simpa using hne) (by
    intro w hw
    simp only [List.mem_map] at hw
    obtain ⟨x, hx, rfl⟩ := hw
    exact names_no_comma (hn x hx))
  have hmap : ∀ l : List (String × (RunCount → Nat)), (∀ x ∈ l, NamesCounter x.1 x.2) →
      ∃ ids, (l.map (·.1.toList)).mapM clientIdIndex = some ids ∧
        ∀ rc, clientIdValues ids rc = l.map (fun x => x.2 rc) := by
    intro l hl
    induction l with
    | nil => exact ⟨[], by simp, fun _ => rfl⟩
    | cons x l ih =>
      obtain ⟨ids, h1, h2⟩ := ih (fun y hy => hl y (List.mem_cons_of_mem _ hy))
      obtain ⟨i, h3, h4⟩ := names_index (hl x (List.mem_cons_self ..))
      refine ⟨i :: ids, by simp [h3, h1], ?_⟩
      intro rc
      simp only [clientIdValues, List.map_cons, h4]
      congr 1
      exact h2 rc
  obtain ⟨ids, h1, h2⟩ := hmap names hn
  refine ⟨ids, ?_, h2⟩
  have hcsv : joinWith ',' (names.map (·.1.toList)) ≠ [] := by
    cases names with
    | nil => exact absurd rfl hne
    | cons x xs =>
      have hx := hn x (by simp)
      have hxx : x.1.toList ≠ [] := by
        generalize x.1 = a at hx
        generalize x.2 = b at hx
        cases hx <;> decide
      cases xs with
      | nil => simpa [joinWith] using hxx
      | cons y ys => simp [joinWith]
  unfold newClientId
  rw [if_neg hpl, hp]
  split
  · rename_i h; cases h
  · rename_i h; simp only [Option.some.injEq] at h; exact absurd h hcsv
  · rename_i csv h
    simp only [Option.some.injEq] at h
    rw [← h, hsplit, h1]

/-- **C16.** Without params client-id returns the client number. -/
theorem C16_client_id_default (rc : RunCount) :
    (newClientId []).map (fun ids => clientIdValues ids rc) = some [rc.client] := rfl

/-- **C16.** A list containing an unknown name is rejected. -/
theorem C16_client_id_unknown_rejected (p : Params) (ws : List (List Char)) (hne : ws ≠ [])
    (hc : ∀ w ∈ ws, ',' ∉ w) (hp : p.get "ids" = some (joinWith ',' ws)) (hcsv : joinWith ',' ws ≠ [])
    (bad : List Char) (hb : bad ∈ ws) (hu : ∀ n f, NamesCounter n f → n.toList ≠ bad) :
    newClientId p = none := by
  have hpl : ¬ p.length = 0 := by
    intro h0
    have : p = [] := List.eq_nil_of_length_eq_zero h0
    subst this
    simp [Params.get] at hp
  have hbad : clientIdIndex bad = none := by
    unfold clientIdIndex
    have h1 := hu _ _ NamesCounter.statement
    have h2 := hu _ _ NamesCounter.trx
    have h3 := hu _ _ NamesCounter.iter
    have h4 := hu _ _ NamesCounter.conn
    have h5 := hu _ _ NamesCounter.client
    have h6 := hu _ _ NamesCounter.clientGroup
    have h7 := hu _ _ NamesCounter.execGroup
    rw [if_neg (Ne.symm h1), if_neg (Ne.symm h2), if_neg (Ne.symm h3), if_neg (Ne.symm h4),
      if_neg (Ne.symm h5), if_neg (Ne.symm h6), if_neg (Ne.symm h7)]
  have hm : ∀ l : List (List Char), bad ∈ l → l.mapM clientIdIndex = none := by
    intro l hl
    induction l with
    | nil => cases hl
    | cons x l ih =>
      rcases List.mem_cons.1 hl with rfl | hl
      · simp [hbad]
      · cases hx : clientIdIndex x <;> simp [hx, ih hl]
  unfold newClientId
  rw [if_neg hpl, hp]
  split
  · rename_i h; cases h
  · rename_i h; simp only [Option.some.injEq] at h; exact absurd h hcsv
  · rename_i csv h
    simp only [Option.some.injEq] at h
    rw [← h, splitOn1_join ',' ws hne hc]
    exact hm ws hb

example : (newClientId (mkParams [("ids", "iter,client-group,client")])).map
    (fun ids => clientIdValues ids ⟨1, 2, 3, 4, 5, 6, 7, 8⟩) = some [3, 6, 5] := by decide
example : newClientId (mkParams [("ids", "iter,stage")]) = none := by decide

/-! ### C17: saved columns -/

/-- Spec: the driver's memory after a history. -/
def memAfter (m : Mem) : List ColEvent → Mem
  | [] => m
  | .write b l :: es => memAfter (fun i => if i = b then l else m i) es
  | _ :: es => memAfter m es

/-- Spec: the value that a result has at the moment it is scanned. -/
def scannedValue (m : Mem) : Scanned → ColVal
  | .null => .nil
  | .bytes b => .str (m b)
  | .other v => .other v

/-- Spec: no save in this part of the history. -/
def NoScan (es : List ColEvent) : Prop := ∀ x, ColEvent.scan x ∉ es

theorem step_mem (s : ColState) (e : ColEvent) : (s.step e).1.mem = memAfter s.mem [e] := by
  cases e <;> rfl

theorem memAfter_append (m : Mem) (a b : List ColEvent) :
    memAfter m (a ++ b) = memAfter (memAfter m a) b := by
  induction a generalizing m with
  | nil => rfl
  | cons e es ih => cases e <;> simp [memAfter, ih]

theorem run_mem (s : ColState) (es : List ColEvent) : (s.run es).1.mem = memAfter s.mem es := by
  induction es generalizing s with
  | nil => rfl
  | cons e es ih =>
    simp only [ColState.run, ih, step_mem]
    cases e <;> rfl

theorem run_append (s : ColState) (a b : List ColEvent) :
    s.run (a ++ b) = (((s.run a).1.run b).1, (s.run a).2 ++ ((s.run a).1.run b).2) := by
  induction a generalizing s with
  | nil => simp [ColState.run]
  | cons e es ih => simp [ColState.run, ih]

theorem use_g (st : ScopedGen Column ColVal) (u : Use) : (st.use colFun u).1.g = st.g := by
  have hcall : (st.call colFun u.cnt).1.g = st.g := by
    unfold ScopedGen.call colFun
    split <;> rfl
  unfold ScopedGen.use
  split
  · exact hcall
  · unfold ScopedGen.values
    split
    · split
      · exact hcall
      · rfl
    · split
      · exact hcall
      · split
        · exact hcall
        · rfl
    · split
      · exact hcall
      · rfl
    · rfl

theorem run_noscan_g (s : ColState) (es : List ColEvent) (h : NoScan es) :
    (s.run es).1.gen.g = s.gen.g := by
  induction es generalizing s with
  | nil => rfl
  | cons e es ih =>
    have h' : NoScan es := fun x hx => h x (List.mem_cons_of_mem _ hx)
    simp only [ColState.run]
    rw [ih _ h']
    cases e with
    | scan x => exact absurd (List.mem_cons_self ..) (h x)
    | write b l => rfl
    | use u => exact use_g _ _

theorem scan_values (g : Column) (m : Mem) (x : Scanned) :
    (g.scan m x).values = scannedValue m x := by
  cases x <;> simp [Column.scan, Column.values, scannedValue]

/-- **C17.** Whatever happened before and whatever the driver does with its buffers afterwards, the
column holds the value of the most recent save, as it was at the moment of the save. -/
theorem C17_column_holds_most_recent_scan (s : ColState) (h1 h2 : List ColEvent) (x : Scanned)
    (hn : NoScan h2) :
    (s.run (h1 ++ .scan x :: h2)).1.gen.g.values = scannedValue (memAfter s.mem h1) x := by
  rw [run_append]
  simp only [ColState.run]
  rw [run_noscan_g _ _ hn]
  simp only [ColState.step]
  rw [scan_values, run_mem]

/-- **C17.** A new column, and a copy of any column, holds nil until the first save. -/
theorem C17_column_nil_before_first_scan (p : Params) (g : Column) (mem : Mem) (s : Scope)
    (h : List ColEvent) (hn : NoScan h) :
    ((⟨mem, ScopedGen.new s (newColumn p)⟩ : ColState).run h).1.gen.g.values = .nil ∧
    ((⟨mem, ScopedGen.new s g.copy⟩ : ColState).run h).1.gen.g.values = .nil := by
  rw [run_noscan_g _ _ hn, run_noscan_g _ _ hn]
  exact ⟨rfl, rfl⟩

/-- Spec: every use in the history is implicit and made in iteration `t` of scope counter `sno`. -/
def UsesIn (sno t : Nat) (es : List ColEvent) : Prop :=
  ∀ u, ColEvent.use u ∈ es → u.explicit = false ∧ u.cnt.get sno = t

/-- **C17 (partial).** Trx (and any single-client) scope: if the key was not yet used in the
current scope iteration when the value is saved, then every use after the save in this iteration
returns the saved value, also if the driver reuses its buffers.
Missing: a save after a use in the same iteration, for which the saved value is not seen
(`C17_second_save_in_same_trx_is_ignored`). -/
theorem C17_saved_value_is_used_partial (s : ColState) (sno t : Nat)
    (hk : s.gen.kind = .single sno) (hlast : s.gen.last < t) (x : Scanned) (es : List ColEvent)
    (hn : NoScan es) (hu : UsesIn sno t es) :
    ∀ o ∈ (s.run (.scan x :: es)).2, o = some (scannedValue s.mem x) := by
  simp only [ColState.run]
  have hg : (s.step (.scan x)).1.gen.g.values = scannedValue s.mem x := by
    simp only [ColState.step]; exact scan_values _ _ _
  have hkind : (s.step (.scan x)).1.gen.kind = .single sno := hk
  have hl : (s.step (.scan x)).1.gen.last < t ∨
      ((s.step (.scan x)).1.gen.last = t ∧
        (s.step (.scan x)).1.gen.vals = some (scannedValue s.mem x)) := .inl hlast
  have hout : (s.step (.scan x)).2 = none := rfl
  rw [hout]
  simp only [Option.toList, List.nil_append]
  generalize scannedValue s.mem x = v at *
  generalize (s.step (.scan x)).1 = s1 at *
  clear hk hlast hout
  induction es generalizing s1 with
  | nil => intro o ho; simp [ColState.run] at ho
  | cons e es ih =>
    have hn' : NoScan es := fun y hy => hn y (List.mem_cons_of_mem _ hy)
    have hu' : UsesIn sno t es := fun y hy => hu y (List.mem_cons_of_mem _ hy)
    cases e with
    | scan y => exact absurd (List.mem_cons_self ..) (hn y)
    | write b l =>
      simp only [ColState.run, ColState.step, Option.toList, List.nil_append]
      exact ih hn' hu' _ hkind hg hl
    | use u =>
      obtain ⟨he, hc⟩ := hu u (List.mem_cons_self ..)
      simp only [ColState.run, ColState.step]
      have huse : (s1.gen.use colFun u).2 = some v ∧ (s1.gen.use colFun u).1.g = s1.gen.g ∧
          (s1.gen.use colFun u).1.kind = .single sno ∧ (s1.gen.use colFun u).1.last = t ∧
          (s1.gen.use colFun u).1.vals = some v := by
        simp only [ScopedGen.use, he, Bool.false_eq_true, if_false, ScopedGen.values, hkind, hc]
        rcases hl with hl | ⟨hl, hv⟩
        · rw [if_pos hl]
          simp [ScopedGen.call, hkind, colFun, hg, hc]
        · rw [if_neg (by omega)]
          simp [hkind, hl, hv]
      intro o ho
      simp only [Option.toList, List.cons_append, List.nil_append, List.mem_cons] at ho
      rcases ho with rfl | ho
      · exact huse.1
      · refine ih hn' hu' _ ?_ ?_ ?_ o ho
        · exact huse.2.2.1
        · simp only; rw [huse.2.1]; exact hg
        · exact .inr huse.2.2.2

/-- **C17 (negation).** If the key was used after a first save, a second save in the same
transaction is not seen by later implicit uses of that transaction: they return the first value. -/
theorem C17_second_save_in_same_trx_is_ignored (s : ColState) (hk : s.gen.kind = genKind .trx)
    (t : Nat) (hlast : s.gen.last < t) (x y : Scanned) (c1 c2 : RunCount) (h1 : c1.trx = t)
    (h2 : c2.trx = t) :
    (s.run [.scan x, .use ⟨false, c1⟩, .scan y, .use ⟨false, c2⟩]).2 =
      [some (scannedValue s.mem x), some (scannedValue s.mem x)] := by
  have hk' : s.gen.kind = .single 1 := hk
  have g1 : c1.get 1 = t := h1
  have g2 : c2.get 1 = t := h2
  simp [ColState.run, ColState.step, ScopedGen.use, ScopedGen.values, ScopedGen.call, hk', g1, g2,
    hlast, colFun, scan_values]

example : ∃ s : ColState, s.gen.kind = genKind .trx ∧ s.gen.last < 1 ∧
    (s.run [.scan (.bytes 0), .write 0 [9], .use ⟨false, ⟨2, 1, 1, 1, 1, 1, 1, 1⟩⟩]).2 =
      [some (.str [7])] :=
  ⟨⟨fun _ => [7], ScopedGen.new .trx (newColumn [])⟩, rfl, by decide, by decide⟩

/-! ### C67: quote-value default -/

/-- **C67 (negation).** Without the quote-value param (documented default: yes) saved values are not
quoted. -/
theorem C67_column_not_quoted_by_default : (newColumn []).format = false := by decide

/-- **C67 (partial).** With the param, quoting follows it, and copies for clients keep it.
Missing: the documented default. -/
theorem C67_column_quote_param_partial (p : Params) (s : List Char)
    (h : p.get "quote-value" = some s) :
    (newColumn p).format = goBool s ∧ (newColumn p).copy.format = goBool s := by
  simp [newColumn, h, Column.format, Column.copy]

example : (newColumn (mkParams [("quote-value", "Yes")])).format = true := by decide

end Finch
