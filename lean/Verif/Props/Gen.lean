import Verif.Model.Gen
import Mathlib.Data.List.Basic
/-!
# C110: data generators keep to their format

Whatever is done with a built-in data generator, each call returns as many values as its `Format` says
and each value is of the kind that its placeholder takes; copies are the generator as made.
-/
namespace Finch

/-- Spec: the value is of the kind that the placeholder takes. -/
def Fits (fmt : Text) (v : GoVal) : Prop :=
  (fmt = ['%', 'd'] ∧ ∃ t n, v = .num t n) ∨ (fmt = ['\'', '%', 's', '\''] ∧ ∃ s, v = .str s) ∨
  ((fmt = ['%', 'v'] ∨ fmt = ['\'', '%', 'v', '\'']) ∧ v ≠ .nil)

/-- Generator `g` comes from `g0` by copies, calls and scanned values, in any order. -/
inductive GenReach (env : GenEnv) (g0 : Gen) : Gen → Prop where
  | refl : GenReach env g0 g0
  | copy {g c : Gen} : GenReach env g0 g → g.copy env = some c → GenReach env g0 c
  | values {g g' : Gen} {vs : List GoVal} (d : GenDraw) :
      GenReach env g0 g → g.values env d = .vals g' vs → GenReach env g0 g'
  | scan {g : Gen} (m : Mem) (x : Scanned) : GenReach env g0 g → GenReach env g0 (g.scan m x)

/-- How a generator relates to the one it comes from: it is the same apart from its state. -/
inductive SameGen (env : GenEnv) : Gen → Gen → Prop where
  | int (g) : SameGen env (.int g) (.int g)
  | gaps (p g) (h : newIntGaps env.rnd p = some g) : SameGen env (.gaps p g) (.gaps p g)
  | range (p g) (h : newIntRange p = some g) : SameGen env (.range p g) (.range p g)
  | rangeSeq (p) (g0 g : IntRangeSeq) (h : newIntRangeSeq p = some g0) (hb : g.begin = g0.begin)
      (he : g.end_ = g0.end_) (hs : g.size = g0.size) : SameGen env (.rangeSeq p g0) (.rangeSeq p g)
  | autoInc (g0 g : AutoInc) (h : g.step = g0.step) : SameGen env (.autoInc g0) (.autoInc g)
  | strFill (n) : SameGen env (.strFill n) (.strFill n)
  | xid : SameGen env .xid .xid
  | clientId (ids) : SameGen env (.clientId ids) (.clientId ids)
  | column (p) (g : Column) (h : g.quoteValue = (newColumn p).quoteValue) :
      SameGen env (.column (newColumn p)) (.column g)

theorem SameGen.of_make {env : GenEnv} {name : String} {p : Params} {g : Gen}
    (h : builtinGen env name p = some g) : SameGen env g g := by
  unfold builtinGen at h
  split_ifs at h <;> simp only [Option.map_eq_some_iff, Option.some.injEq] at h
  · obtain ⟨a, _, rfl⟩ := h; exact .int a
  · obtain ⟨a, h, rfl⟩ := h; exact .gaps p a h
  · obtain ⟨a, h, rfl⟩ := h; exact .range p a h
  · obtain ⟨a, h, rfl⟩ := h; exact .rangeSeq p a a h rfl rfl rfl
  · obtain ⟨a, h, rfl⟩ := h; exact .autoInc a a rfl
  · obtain ⟨a, h, rfl⟩ := h; exact .strFill a
  · subst h; exact .xid
  · obtain ⟨a, h, rfl⟩ := h; exact .clientId a
  · subst h; exact .column p _ rfl

theorem SameGen.copy {env : GenEnv} {g0 g : Gen} (h : SameGen env g0 g) :
    ∃ c, g.copy env = some c ∧ (c = g0 ∨ ∃ a, g = .autoInc a ∧ c = g) := by
  cases h with
  | int g => exact ⟨_, rfl, .inl rfl⟩
  | gaps p g h => exact ⟨.gaps p g, by simp [Gen.copy, h], .inl rfl⟩
  | range p g h => exact ⟨.range p g, by simp [Gen.copy, h], .inl rfl⟩
  | rangeSeq p g0 g h _ _ _ => exact ⟨.rangeSeq p g0, by simp [Gen.copy, h], .inl rfl⟩
  | autoInc g0 g h => exact ⟨_, rfl, .inr ⟨g, rfl, rfl⟩⟩
  | strFill n => exact ⟨_, rfl, .inl rfl⟩
  | xid => exact ⟨_, rfl, .inl rfl⟩
  | clientId ids => exact ⟨_, rfl, .inl rfl⟩
  | column p g h =>
    refine ⟨_, rfl, .inl ?_⟩
    simp [Column.copy, newColumn, h]

theorem SameGen.reach {env : GenEnv} {g0 g : Gen} (h0 : SameGen env g0 g0) (h : GenReach env g0 g) :
    SameGen env g0 g := by
  induction h with
  | refl => exact h0
  | copy _ hc ih =>
    obtain ⟨c, hc', h⟩ := ih.copy
    rw [hc', Option.some.injEq] at hc
    subst hc
    rcases h with rfl | ⟨a, rfl, rfl⟩
    · exact h0
    · exact ih
  | values d _ hv ih =>
    cases ih <;> unfold Gen.values at hv <;> dsimp only at hv
    all_goals
      first
      | (split at hv <;> first | (cases hv; done) | (injection hv with h1; subst h1))
      | (injection hv with h1; subst h1)
    all_goals constructor <;> assumption
  | scan m x _ ih =>
    cases ih <;> simp only [Gen.scan] <;> first
      | (constructor; assumption; done)
      | (constructor <;> assumption)
      | constructor
    cases x <;> simpa [Column.scan] using ‹_ = _›

/-- **C110.** Copies, calls and scanned values do not change what `Format` says. -/
theorem C110_format_stays {env : GenEnv} {name : String} {p : Params} {g0 g : Gen}
    (hm : builtinGen env name p = some g0) (hr : GenReach env g0 g) : g.format = g0.format := by
  have h := (SameGen.of_make hm).reach hr
  cases h <;> simp_all [Gen.format]

/-- **C110.** However a generator was used before: a call that returns gives as many values as
`Format` says, each of the kind that the placeholder takes, except that a column may give nil. -/
theorem C110_values {env : GenEnv} {name : String} {p : Params} {g0 g g' : Gen} {d : GenDraw}
    {vs : List GoVal} (hm : builtinGen env name p = some g0) (hr : GenReach env g0 g)
    (hv : g.values env d = .vals g' vs) :
    vs.length = g0.format.1 ∧ ∀ v ∈ vs, Fits g0.format.2 v ∨ (name = "column" ∧ v = .nil) := by
  have hcol : ∀ c, g = .column c → name = "column" := by
    intro c hc
    have h := (SameGen.of_make hm).reach hr
    subst hc
    cases h with
    | column q _ _ =>
      unfold builtinGen at hm
      split_ifs at hm <;> simp_all
  rw [← C110_format_stays hm hr]
  cases g with
  | int g =>
    simp only [Gen.values] at hv
    split at hv
    · cases hv
    · rename_i l hl
      injection hv with h1 h2
      subst h2
      have : l.length = 1 := by
        unfold IntGen.values at hl
        split at hl
        · dsimp only at hl; split_ifs at hl <;> (injection hl with hl; subst hl; rfl)
        · split at hl
          · cases hl
          · injection hl with hl; subst hl; rfl
      refine ⟨by simp [Gen.format, this], ?_⟩
      simp only [List.mem_map]
      rintro v ⟨a, _, rfl⟩
      exact .inl (.inl ⟨rfl, _, _, rfl⟩)
  | gaps p g =>
    simp only [Gen.values] at hv
    split at hv
    · cases hv
    · rename_i l hl
      injection hv with h1 h2
      subst h2
      have : l.length = 1 := by
        unfold IntGaps.values at hl
        split at hl
        · cases hl
        · split at hl <;> (injection hl with hl; subst hl; rfl)
      refine ⟨by simp [Gen.format, this], ?_⟩
      simp only [List.mem_map]
      rintro v ⟨a, _, rfl⟩
      exact .inl (.inl ⟨rfl, _, _, rfl⟩)
  | range p g =>
    simp only [Gen.values] at hv
    split at hv
    · cases hv
    · injection hv with h1 h2
      subst h2
      refine ⟨rfl, ?_⟩
      simp only [List.mem_cons, List.not_mem_nil, or_false]
      rintro v (rfl | rfl) <;> exact .inl (.inl ⟨rfl, _, _, rfl⟩)
  | rangeSeq p g =>
    simp only [Gen.values] at hv
    injection hv with h1 h2
    subst h2
    refine ⟨rfl, ?_⟩
    simp only [List.mem_cons, List.not_mem_nil, or_false]
    rintro v (rfl | rfl) <;> exact .inl (.inl ⟨rfl, _, _, rfl⟩)
  | autoInc g =>
    simp only [Gen.values] at hv
    injection hv with h1 h2
    subst h2
    refine ⟨rfl, ?_⟩
    simp only [List.mem_singleton]
    rintro v rfl
    exact .inl (.inl ⟨rfl, _, _, rfl⟩)
  | strFill n =>
    simp only [Gen.values] at hv
    split at hv
    · cases hv
    · injection hv with h1 h2
      subst h2
      refine ⟨rfl, ?_⟩
      simp only [List.mem_singleton]
      rintro v rfl
      exact .inl (.inr (.inl ⟨rfl, _, rfl⟩))
  | xid =>
    simp only [Gen.values] at hv
    injection hv with h1 h2
    subst h2
    refine ⟨rfl, ?_⟩
    simp only [List.mem_singleton]
    rintro v rfl
    exact .inl (.inr (.inl ⟨rfl, _, rfl⟩))
  | clientId ids =>
    simp only [Gen.values] at hv
    injection hv with h1 h2
    subst h2
    refine ⟨by simp [Gen.format, clientIdValues], ?_⟩
    simp only [List.mem_map]
    rintro v ⟨a, _, rfl⟩
    exact .inl (.inl ⟨rfl, _, _, rfl⟩)
  | column c =>
    simp only [Gen.values] at hv
    injection hv with h1 h2
    subst h2
    refine ⟨rfl, ?_⟩
    simp only [List.mem_singleton]
    rintro v rfl
    by_cases hn : c.values.goVal = .nil
    · exact .inr ⟨hcol c rfl, hn⟩
    · refine .inl (.inr (.inr ⟨?_, hn⟩))
      cases hq : c.quoteValue <;> simp [Gen.format, hq]
  | noop =>
    simp only [Gen.values] at hv
    injection hv with h1 h2
    subst h2
    exact ⟨rfl, by simp⟩

/-- **C110.** A copy is never nil. It is the generator as it was made, whatever happened to the
original, except for auto-inc: its copy goes on from the number the original has reached. -/
theorem C110_copy {env : GenEnv} {name : String} {p : Params} {g0 g : Gen}
    (hm : builtinGen env name p = some g0) (hr : GenReach env g0 g) :
    ∃ c, g.copy env = some c ∧ ((name ≠ "auto-inc" ∧ c = g0) ∨ (name = "auto-inc" ∧ c = g)) := by
  have h := (SameGen.of_make hm).reach hr
  obtain ⟨c, hc, h'⟩ := h.copy
  refine ⟨c, hc, ?_⟩
  by_cases hn : name = "auto-inc"
  · refine .inr ⟨hn, ?_⟩
    subst hn
    simp only [builtinGen, if_false, if_true, String.reduceEq, Option.map_eq_some_iff] at hm
    obtain ⟨a, _, rfl⟩ := hm
    cases h
    simp only [Gen.copy, Option.some.injEq] at hc
    exact hc.symm
  · refine .inl ⟨hn, ?_⟩
    rcases h' with h' | ⟨a, rfl, rfl⟩
    · exact h'
    · exfalso
      cases h
      unfold builtinGen at hm
      split_ifs at hm <;> simp_all

/-- **C110.** A call changes only the generators that count, int-range-seq and auto-inc; with the same
random numbers and run count any other one returns the same values again. -/
theorem C110_calls_keep {env : GenEnv} {name : String} {p : Params} {g0 g g' : Gen} {d : GenDraw}
    {vs : List GoVal} (hm : builtinGen env name p = some g0) (hr : GenReach env g0 g)
    (hv : g.values env d = .vals g' vs) (h1 : name ≠ "int-range-seq") (h2 : name ≠ "auto-inc") :
    g' = g ∧ g'.values env d = .vals g' vs := by
  suffices g' = g by subst this; exact ⟨rfl, hv⟩
  have h := (SameGen.of_make hm).reach hr
  have hno : (∀ q a, g ≠ .rangeSeq q a) ∧ ∀ a, g ≠ .autoInc a := by
    refine ⟨?_, ?_⟩
    · rintro q a rfl
      cases h
      unfold builtinGen at hm
      split_ifs at hm <;> simp_all
    · rintro a rfl
      cases h
      unfold builtinGen at hm
      split_ifs at hm <;> simp_all
  cases g <;> simp only [Gen.values] at hv
  case rangeSeq q a => exact absurd rfl (hno.1 q a)
  case autoInc a => exact absurd rfl (hno.2 a)
  all_goals
    first
    | (split at hv <;> first | (cases hv; done) | (injection hv with h3; exact h3.symm))
    | (injection hv with h3; exact h3.symm)

/-- Spec: the client-id generator is configured with at least one id. -/
def HasIds (p : Params) : Prop := p = [] ∨ ∃ c cs, p.get "ids" = some (c :: cs)

theorem splitOn1_not_nil (c : Char) (s : Text) : splitOn1 c s ≠ [] := by
  induction s with
  | nil => simp [splitOn1]
  | cons d ds ih =>
    unfold splitOn1
    split_ifs
    · simp
    · split <;> simp

/-- **C110 (partial).** Every data key gets at least one value. Partial: a client-id generator must have
ids (`C110_no_values_false`). -/
theorem C110_at_least_one_partial {env : GenEnv} {name : String} {p : Params} {g0 : Gen}
    (hm : builtinGen env name p = some g0) (hid : name = "client-id" → HasIds p) :
    0 < g0.format.1 := by
  unfold builtinGen at hm
  split_ifs at hm <;> simp only [Option.map_eq_some_iff, Option.some.injEq] at hm
  · obtain ⟨a, _, rfl⟩ := hm; simp [Gen.format]
  · obtain ⟨a, h, rfl⟩ := hm; simp [Gen.format]
  · obtain ⟨a, h, rfl⟩ := hm; simp [Gen.format]
  · obtain ⟨a, h, rfl⟩ := hm; simp [Gen.format]
  · obtain ⟨a, h, rfl⟩ := hm; simp [Gen.format]
  · obtain ⟨a, h, rfl⟩ := hm; simp [Gen.format]
  · subst hm; simp [Gen.format]
  · rename_i hn
    obtain ⟨a, h, rfl⟩ := hm
    show 0 < a.length
    rcases hid hn with rfl | ⟨c, cs, hcs⟩
    · simp only [newClientId, List.length_nil, if_true, Option.some.injEq] at h
      subst h; simp
    · unfold newClientId at h
      split_ifs at h
      · injection h with h; subst h; simp
      · rw [hcs] at h
        dsimp only at h
        have hne := splitOn1_not_nil ',' (c :: cs)
        revert h hne
        generalize splitOn1 ',' (c :: cs) = l
        intro h hne
        cases l with
        | nil => exact absurd rfl hne
        | cons y ys =>
          simp only [List.mapM_cons, Option.bind_eq_bind, Option.bind_eq_some_iff, Option.pure_def,
            Option.some.injEq] at h
          obtain ⟨_, _, _, _, rfl⟩ := h
          simp
  · subst hm; simp [Gen.format]

/-- A client-id generator whose params have another name than `ids` is made without error and returns no
value at all, though its placeholder needs one. -/
theorem C110_no_values_false (env : GenEnv) (d : GenDraw) :
    ∃ g, builtinGen env "client-id" [("id".toList, "client".toList)] = some g ∧
      g.format = (0, "%d".toList) ∧ g.values env d = .vals g [] :=
  ⟨.clientId [], by simp [builtinGen]; decide +kernel, rfl, rfl⟩

/-! ### Registration -/

theorem registerAll_some {G : Type} (l : List (String × GenFactory G)) :
    ∀ (r : GoMap String (GenFactory G)) {name f}, r name = some f → registerAll r l name = some f := by
  induction l with
  | nil => intro r name f h; exact h
  | cons x l ih =>
    intro r name f h
    refine ih _ ?_
    dsimp only
    unfold genRegister
    split
    · exact h
    · rename_i hx
      dsimp only
      simp only [GoMap.set]
      split_ifs with e
      · rw [e, hx] at h; cases h
      · exact h

theorem registerAll_none {G : Type} (l : List (String × GenFactory G)) :
    ∀ (r : GoMap String (GenFactory G)) {name}, r name = none →
      registerAll r l name = (l.find? fun nf => nf.1 = name).map (·.2) := by
  induction l with
  | nil => intro r name h; simpa [registerAll] using h
  | cons x l ih =>
    intro r name h
    by_cases e : x.1 = name
    · subst e
      simp only [registerAll, List.foldl_cons, List.find?_cons, decide_true, Option.map_some]
      refine registerAll_some l _ ?_
      simp [genRegister, h, GoMap.set]
    · simp only [registerAll, List.foldl_cons, List.find?_cons, e, decide_false]
      refine ih _ ?_
      unfold genRegister
      split
      · exact h
      · simp [GoMap.set, Ne.symm e, h]

/-- **C110.** Whatever other factories are registered after the start: a built-in name always makes the
built-in generator; another name is made by the factory that was registered for it first; a name that
nobody registered is an error. -/
theorem C110_make {G : Type} (f : GenFactory G) (l : List (String × GenFactory G)) (name key : String)
    (p : Params) :
    genMake (registerAll (genInit f) l) name key p =
      if name ∈ builtinNames then f name key p
      else match l.find? fun nf => nf.1 = name with
        | some nf => nf.2 name key p
        | none => none := by
  have h0 : genInit f name = if name ∈ builtinNames then some f else none := by
    unfold genInit
    rw [registerAll_none _ _ (by rfl)]
    split_ifs with h
    · rw [List.find?_map]
      cases e : List.find? ((fun nf : String × GenFactory G => decide (nf.1 = name)) ∘
          fun n => (n, f)) builtinNames with
      | none =>
        rw [List.find?_eq_none] at e
        exact absurd (by simp) (e name h)
      | some x => rfl
    · rw [List.find?_map, List.find?_eq_none.2]
      · rfl
      · intro x hx
        simp only [Function.comp, decide_eq_true_eq]
        rintro rfl
        exact h hx
  unfold genMake
  split_ifs with h
  · rw [registerAll_some l _ (by rw [h0, if_pos h])]
  · rw [registerAll_none l _ (by rw [h0, if_neg h])]
    cases l.find? fun nf => decide (nf.1 = name) <;> rfl

/-- **C110.** The built-in factory knows exactly the names it is registered for: for those it makes a
generator unless the params are wrong, for others none. -/
theorem C110_builtin_names (env : GenEnv) (name : String) :
    (∃ p g, builtinGen env name p = some g) ↔ name ∈ builtinNames := by
  constructor
  · rintro ⟨p, g, h⟩
    unfold builtinGen at h
    split_ifs at h <;> simp_all [builtinNames]
  · intro h
    refine ⟨[], ?_⟩
    have h64 : ∀ k n, int64From [] k n = some n := fun _ _ => rfl
    simp only [builtinNames, List.mem_cons, List.not_mem_nil, or_false] at h
    rcases h with rfl | rfl | rfl | rfl | rfl | rfl | rfl | rfl | rfl
    · simp [builtinGen, newInt, h64, Params.get]
    · have h : (newIntGaps env.rnd []).isSome = true := rfl
      obtain ⟨a, ha⟩ := Option.isSome_iff_exists.1 h
      exact ⟨.gaps [] a, by simp [builtinGen, ha]⟩
    · exact ⟨_, rfl⟩
    · exact ⟨_, rfl⟩
    · exact ⟨_, rfl⟩
    · exact ⟨_, rfl⟩
    · exact ⟨_, rfl⟩
    · exact ⟨_, rfl⟩
    · exact ⟨_, rfl⟩

/-! ### Examples -/

/-- An environment with exact floats. -/
def demoGenEnv : GenEnv := ⟨id, fun _ => none, 0⟩

/-- Draws. -/
def demoDraw : GenDraw := ⟨⟨7, 0, 0⟩, 7, [], "cabc".toList, ⟨0, 0, 0, 0, 5, 0, 0, 0⟩⟩

/-- An int-range-seq generator after one call: the next call gives the next range, a copy starts at the
beginning. -/
example : ∃ g0 g1 g2 c, builtinGen demoGenEnv "int-range-seq" [("size".toList, "10".toList)] = some g0 ∧
    g0.values demoGenEnv demoDraw = .vals g1 [goI64 1, goI64 10] ∧
    g1.values demoGenEnv demoDraw = .vals g2 [goI64 11, goI64 20] ∧
    g1.copy demoGenEnv = some c ∧ c.values demoGenEnv demoDraw = .vals g1 [goI64 1, goI64 10] ∧
    GenReach demoGenEnv g0 g2 ∧ Fits g0.format.2 (goI64 20) := by
  have h : newIntRangeSeq [("size".toList, "10".toList)] = some ⟨1, 100000, 10, 1⟩ := by decide +kernel
  generalize [("size".toList, "10".toList)] = p at *
  refine ⟨.rangeSeq p ⟨1, 100000, 10, 1⟩, .rangeSeq p ⟨1, 100000, 10, 11⟩, .rangeSeq p ⟨1, 100000, 10, 21⟩,
    .rangeSeq p ⟨1, 100000, 10, 1⟩, by simp [builtinGen, h], rfl, rfl, by simp [Gen.copy, h], rfl,
    ?_, .inl ⟨rfl, _, _, rfl⟩⟩
  exact .values demoDraw (.values demoDraw .refl rfl) rfl

/-- A second registration of a name is refused; a new name can be added. -/
example : genMake (registerAll (genInit fun n _ _ => some n)
      [("int", fun _ _ _ => some "mine"), ("new", fun _ _ _ => some "mine")]) "int" "@d" [] = some "int" ∧
    genMake (registerAll (genInit fun n _ _ => some n)
      [("int", fun _ _ _ => some "mine"), ("new", fun _ _ _ => some "mine")]) "new" "@d" [] = some "mine" ∧
    genMake (genInit fun n _ _ => some n) "new" "@d" [] = none := by
  refine ⟨?_, ?_, ?_⟩ <;> decide +kernel

end Finch
