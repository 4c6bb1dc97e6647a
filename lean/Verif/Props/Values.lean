import Verif.Model.Client
import Verif.Props.AllocScope
import Mathlib.Data.List.TakeWhile
/-!
# C37: generated values line up with the placeholders of the query
-/
namespace Finch

variable {V : Type}

theorem length_copyAt (dst : List V) (d : Nat) (src : List V) :
    (copyAt dst d src).length = dst.length := by
  simp only [copyAt, List.length_append, List.length_take, List.length_drop]
  omega

theorem fillFrom_eq (vs : List (List V)) : ∀ (p old : List V),
    fillFrom (p ++ old) p.length vs =
      p ++ (vs.flatten.take old.length ++ old.drop vs.flatten.length) := by
  induction vs with
  | nil => intro p old; simp [fillFrom]
  | cons v vs ih =>
    intro p old
    have hc : copyAt (p ++ old) p.length v =
        (p ++ v.take old.length) ++ old.drop v.length := by
      simp [copyAt, List.drop_append]
    have hl : p.length + min v.length ((p ++ old).length - p.length) =
        (p ++ v.take old.length).length := by
      simp [Nat.min_comm]
    rw [fillFrom, hc, hl, ih]
    simp only [List.append_assoc, List.flatten_cons, List.take_append,
      List.length_drop, List.drop_drop, List.length_append]

/-- The values after an execution: what was generated, in order, as far as there is room, and behind
it what was there before. -/
theorem fillValues_eq (dst : List V) (vs : List (List V)) :
    fillValues dst vs = vs.flatten.take dst.length ++ dst.drop vs.flatten.length := by
  simpa [fillValues] using fillFrom_eq vs [] dst

/-! ### Specification -/

/-- Spec: for each data key of a query, how many `@PREV` follow it before the next key. -/
def prevAfter : List String → List Nat
  | [] => []
  | k :: ks =>
    if k = "@PREV" then prevAfter ks
    else (ks.takeWhile (· = "@PREV")).length :: prevAfter ks

/-- Spec: number (from 0) of the key that placeholder `i` belongs to: the last key up to it. -/
def keyOf (inputs : List String) (i : Nat) : Nat :=
  ((inputs.take (i + 1)).filter (· ≠ "@PREV")).length - 1

/-- Spec: how many `@PREV` up to and including placeholder `i` come after that key. -/
def prevsTo (inputs : List String) (i : Nat) : Nat :=
  ((inputs.take (i + 1)).reverse.takeWhile (· = "@PREV")).length

theorem prevAfter_split (ks : List String) :
    prevAfter ks = prevAfter (ks.dropWhile (· = "@PREV")) := by
  induction ks with
  | nil => rfl
  | cons k ks ih =>
    by_cases hk : k = "@PREV"
    · simp [prevAfter, hk, ih]
    · simp [hk]

theorem takeWhile_prev_eq (ks : List String) : ks.takeWhile (· = "@PREV") =
    List.replicate (ks.takeWhile (· = "@PREV")).length "@PREV" := by
  refine List.eq_replicate_iff.mpr ⟨rfl, ?_⟩
  intro x hx
  simpa using (List.mem_takeWhile_imp hx)

theorem dropWhile_head_ne (ks : List String) :
    (ks.dropWhile (· = "@PREV")).head? ≠ some "@PREV" := by
  intro h
  have := List.head?_dropWhile_not (· = "@PREV") ks
  rw [h] at this
  simp at this

theorem flatten_slots (vs : List (List V)) : ∀ (inputs : List String),
    inputs.head? ≠ some "@PREV" → vs.map List.length = (prevAfter inputs).map (· + 1) →
    ∀ i, i < inputs.length →
      vs.flatten[i]? = (vs[keyOf inputs i]?).bind (·[prevsTo inputs i]?) := by
  induction vs with
  | nil =>
    intro inputs h0 hl i hi
    cases inputs with
    | nil => simp at hi
    | cons k ks =>
      have : k ≠ "@PREV" := fun h => h0 (by simp [h])
      simp [prevAfter, this] at hl
  | cons v vs ih =>
    intro inputs h0 hl i hi
    cases inputs with
    | nil => simp at hi
    | cons k ks =>
      have hk : k ≠ "@PREV" := fun h => h0 (by simp [h])
      rw [prevAfter, if_neg hk] at hl
      simp only [List.map_cons, List.cons.injEq] at hl
      obtain ⟨hv, hl⟩ := hl
      rw [prevAfter_split] at hl
      have hsplit := List.takeWhile_append_dropWhile (p := fun x : String => decide (x = "@PREV"))
        (l := ks)
      rw [takeWhile_prev_eq] at hsplit
      have hne := dropWhile_head_ne ks
      generalize (ks.takeWhile (· = "@PREV")).length = n at *
      generalize ks.dropWhile (· = "@PREV") = r at *
      subst hsplit
      by_cases hin : i < v.length
      · have htake : List.take (i + 1) (k :: (List.replicate n "@PREV" ++ r)) =
            k :: List.replicate i "@PREV" := by
          rw [List.take_succ_cons, List.take_append_of_le_length (by simp; omega),
            List.take_replicate, Nat.min_eq_left (by omega)]
        have h1 : keyOf (k :: (List.replicate n "@PREV" ++ r)) i = 0 := by
          rw [keyOf, htake]
          simp [hk]
        have h2 : prevsTo (k :: (List.replicate n "@PREV" ++ r)) i = i := by
          rw [prevsTo, htake]
          simp [hk]
        rw [h1, h2, List.flatten_cons, List.getElem?_append_left hin]
        rfl
      · obtain ⟨i', rfl⟩ : ∃ i', i = v.length + i' := ⟨i - v.length, by omega⟩
        have hir : i' < r.length := by
          simp at hi; omega
        have htake : List.take (v.length + i' + 1) (k :: (List.replicate n "@PREV" ++ r)) =
            k :: (List.replicate n "@PREV" ++ r.take (i' + 1)) := by
          rw [List.take_succ_cons, List.take_append, List.take_of_length_le (by simp; omega)]
          congr 3
          simp; omega
        obtain ⟨r0, r1, rfl⟩ : ∃ r0 r1, r = r0 :: r1 := by
          cases r with
          | nil => simp at hir
          | cons a b => exact ⟨a, b, rfl⟩
        have hr0 : r0 ≠ "@PREV" := fun h => hne (by simp [h])
        have h1 : keyOf (k :: (List.replicate n "@PREV" ++ r0 :: r1)) (v.length + i') =
            keyOf (r0 :: r1) i' + 1 := by
          rw [keyOf, keyOf, htake]
          simp [hk, hr0]
        have h2 : prevsTo (k :: (List.replicate n "@PREV" ++ r0 :: r1)) (v.length + i') =
            prevsTo (r0 :: r1) i' := by
          rw [prevsTo, prevsTo, htake]
          congr 1
          rw [List.reverse_cons, List.reverse_append, List.append_assoc, List.takeWhile_append,
            if_neg]
          intro hlen
          have hall := List.takeWhile_eq_self_iff.mp
            ((List.takeWhile_prefix _).eq_of_length hlen)
          have := hall r0 (by simp)
          simp [hr0] at this
        rw [h1, h2, List.flatten_cons, List.getElem?_append_right (by omega)]
        simpa using ih (r0 :: r1) hne hl i' hir

theorem flatten_length (vs : List (List V)) : ∀ (inputs : List String),
    inputs.head? ≠ some "@PREV" → vs.map List.length = (prevAfter inputs).map (· + 1) →
    vs.flatten.length = inputs.length := by
  induction vs with
  | nil =>
    intro inputs h0 hl
    cases inputs with
    | nil => rfl
    | cons k ks =>
      have : k ≠ "@PREV" := fun h => h0 (by simp [h])
      simp [prevAfter, this] at hl
  | cons v vs ih =>
    intro inputs h0 hl
    cases inputs with
    | nil => simp [prevAfter] at hl
    | cons k ks =>
      have hk : k ≠ "@PREV" := fun h => h0 (by simp [h])
      rw [prevAfter, if_neg hk] at hl
      simp only [List.map_cons, List.cons.injEq] at hl
      obtain ⟨hv, hl⟩ := hl
      rw [prevAfter_split] at hl
      have := ih _ (dropWhile_head_ne ks) hl
      have hsplit := congrArg List.length
        (List.takeWhile_append_dropWhile (p := fun x : String => decide (x = "@PREV")) (l := ks))
      simp only [List.length_append] at hsplit
      simp only [List.flatten_cons, List.length_append, List.length_cons]
      omega

/-- **C37.** If every key of a query is followed by one `@PREV` less than it yields values, then
whatever the values of the previous execution were, placeholder `i` gets value number
`prevsTo inputs i` of key number `keyOf inputs i`: the first value if it is the key itself, the
`n`-th next value if it is the `n`-th `@PREV` after the key. All values are used and no old one is
left. -/
theorem C37_values_line_up (inputs : List String) (old : List V) (vs : List (List V))
    (hold : old.length = inputs.length) (hfirst : inputs.head? ≠ some "@PREV")
    (hk : vs.map List.length = (prevAfter inputs).map (· + 1)) :
    (fillValues old vs).length = inputs.length ∧
    ∀ i, i < inputs.length →
      ∃ v x, vs[keyOf inputs i]? = some v ∧ v[prevsTo inputs i]? = some x ∧
        (fillValues old vs)[i]? = some x := by
  have hlen := flatten_length vs inputs hfirst hk
  have hfill : fillValues old vs = vs.flatten := by
    rw [fillValues_eq, List.take_of_length_le (by omega), List.drop_of_length_le (by omega),
      List.append_nil]
  refine ⟨by rw [hfill, hlen], ?_⟩
  intro i hi
  have h := flatten_slots vs inputs hfirst hk i hi
  rw [List.getElem?_eq_getElem (by omega)] at h
  obtain ⟨v, h1, h2⟩ := Option.bind_eq_some_iff.mp h.symm
  refine ⟨v, _, h1, h2, ?_⟩
  rw [hfill]
  exact List.getElem?_eq_getElem (by omega)

/-- Three placeholders for key `a` (a range generator, say), one for `b`. -/
example : fillValues [0, 0, 0, 0] [[1, 2, 3], [4]] = [1, 2, 3, 4] ∧
    [[1, 2, 3], [4]].map List.length = (prevAfter ["a", "@PREV", "@PREV", "b"]).map (· + 1) ∧
    (List.range 4).map (keyOf ["a", "@PREV", "@PREV", "b"]) = [0, 0, 0, 1] ∧
    (List.range 4).map (prevsTo ["a", "@PREV", "@PREV", "b"]) = [0, 1, 2, 0] := by decide

/-- **C37 for allocated clients.** The key of placeholder `i` and the value function that is called
for it: number `keyOf inputs i` among the value functions of the statement has the key that is last
up to placeholder `i`, and that is `inputs[i]` itself unless it is `@PREV`. -/
theorem C37_value_function_of_placeholder {stmt : Stmt} {d : StmtData}
    (hcalls : stmt.calls.length = stmt.inputs.length)
    (hin : d.inputs.map (fun r => (r.key, r.explicit)) =
      (stmt.inputs.zip stmt.calls).filter (·.1 ≠ "@PREV"))
    {i : Nat} {k : String} {b : Bool} (hk : stmt.inputs[i]? = some k) (hb : stmt.calls[i]? = some b)
    (hne : k ≠ "@PREV") :
    ∃ r, d.inputs[keyOf stmt.inputs i]? = some r ∧ r.key = k ∧ r.explicit = b ∧
      prevsTo stmt.inputs i = 0 := by
  have hi : i < stmt.inputs.length := (List.getElem?_eq_some_iff.mp hk).1
  have htake : stmt.inputs.take (i + 1) = stmt.inputs.take i ++ [k] := by
    rw [List.take_add_one, hk]; rfl
  have hkey : keyOf stmt.inputs i = ((stmt.inputs.take i).filter (· ≠ "@PREV")).length := by
    rw [keyOf, htake]; simp [hne]
  have hz : (stmt.inputs.zip stmt.calls)[i]? = some (k, b) := by
    rw [List.getElem?_zip_eq_some]; exact ⟨hk, hb⟩
  have hpre : ((stmt.inputs.take i).filter (· ≠ "@PREV")).length =
      (((stmt.inputs.zip stmt.calls).take i).filter (·.1 ≠ "@PREV")).length := by
    have : stmt.inputs.take i = ((stmt.inputs.zip stmt.calls).take i).map (·.1) := by
      rw [List.map_take, List.map_fst_zip (by omega)]
    rw [this, List.filter_map, List.length_map]
    rfl
  have hget : ((stmt.inputs.zip stmt.calls).filter (·.1 ≠ "@PREV"))[keyOf stmt.inputs i]? =
      some (k, b) := by
    have hsplit : stmt.inputs.zip stmt.calls =
        (stmt.inputs.zip stmt.calls).take i ++ (k, b) :: (stmt.inputs.zip stmt.calls).drop (i + 1) := by
      conv_lhs => rw [← List.take_append_drop i (stmt.inputs.zip stmt.calls)]
      rw [List.drop_eq_getElem_cons (by simp; omega)]
      congr 2
      exact (List.getElem?_eq_some_iff.mp hz).2
    conv_lhs => rw [hsplit]
    rw [List.filter_append, hkey, hpre, List.getElem?_append_right (Nat.le_refl _)]
    simp [hne]
  rw [← hin, List.getElem?_map] at hget
  obtain ⟨r, h1, h2⟩ := Option.map_eq_some_iff.mp hget
  simp only [Prod.mk.injEq] at h2
  refine ⟨r, h1, h2.1, h2.2, ?_⟩
  rw [prevsTo, htake]
  simp [hne]

/-- **C37.** The condition is needed. With fewer values than placeholders the values of the next keys
move to the front and the last placeholder keeps a value of the previous execution; with more values,
the values of the next keys are lost. -/
theorem C37_miscounted_values_shift (x y z old1 old2 old3 : V) :
    fillValues [old1, old2, old3] [[x], [y]] = [x, y, old3] ∧
    fillValues [old1, old2] [[x, y], [z]] = [x, y] := ⟨rfl, rfl⟩

end Finch
