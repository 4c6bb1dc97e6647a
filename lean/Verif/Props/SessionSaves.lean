import Verif.Props.Session
/-!
C115, first part: histories of saved columns. What a column holds is what was saved last, and the uses of
it return what it held at the first use in the same iteration of its scope.
-/
namespace Finch

/-! ### Specification -/

/-- Spec: the generator that a value was saved in. -/
def savedIn (cs : ClientNo → Cli) (s : SaveEv) : Option Nat :=
  match s.col with
  | some y => ((cs s.n).data[s.i]?).bind fun d => (d.outputs[y]?).join
  | none => ((cs s.n).data[s.i]?).bind (·.insertId)

/-- Spec: the last of these values, nil if there is none. -/
def lastVal (l : List GoVal) : GoVal := (l.getLast?).getD .nil

/-- Spec: what was saved last in generator `a` before event number `p`. -/
def savedBefore (cs : ClientNo → Cli) (a p : Nat) (saves : List SaveEv) : GoVal :=
  lastVal ((saves.filter fun s => savedIn cs s == some a && decide (s.time ≤ p)).map (·.val))

/-- Spec: the column generator holds this value. -/
def HoldsCol (g : DGen) (x : GoVal) : Prop := ∃ col, g.gen = .column col ∧ col.values.goVal = x

/-! ### Saving -/

theorem Column.scan_goVal (g : Column) (m : Mem) (x : Scanned) : (g.scan m x).values.goVal = x.goVal m := by
  cases x <;> rfl

theorem lastVal_append {l l' : List GoVal} : lastVal (l ++ l') = (l'.getLast?).getD (lastVal l) := by
  unfold lastVal
  rw [List.getLast?_append]
  cases l'.getLast? <;> simp

theorem scanRow_append {G : Type} (ops : GenOps G) (mem : Mem) (xs ys : List (Option Nat × Scanned)) :
    ∀ gens, scanRow ops mem gens (xs ++ ys) = scanRow ops mem (scanRow ops mem gens xs) ys := by
  induction xs with
  | nil => intro gens; rfl
  | cons x xs ih =>
    intro gens
    obtain ⟨b, v⟩ := x
    cases b <;> exact ih _

theorem scanRows_eq {G : Type} (ops : GenOps G) (mem : Mem) (outs : List (Option Nat)) (rows : List (List Scanned)) :
    ∀ gens, scanRows ops mem outs gens rows = scanRow ops mem gens (rows.flatMap fun row => outs.zip row) := by
  induction rows with
  | nil => intro gens; rfl
  | cons r rows ih =>
    intro gens
    rw [List.flatMap_cons, scanRow_append, ← ih]
    rfl

theorem scanRow_col (env : GenEnv) (mem : Mem) (a : Nat) (xs : List (Option Nat × Scanned)) :
    ∀ (gens : Nat → ScopedGen DGen (List GoVal)) (vs : List GoVal), HoldsCol (gens a).g (lastVal vs) →
    let s := scanRow (dgenOps env) mem gens xs a
    s.kind = (gens a).kind ∧ s.last = (gens a).last ∧ s.vals = (gens a).vals ∧
      HoldsCol s.g (lastVal (vs ++ (xs.filter fun p => p.1 == some a).map fun p => p.2.goVal mem)) := by
  induction xs with
  | nil => intro gens vs h; exact ⟨rfl, rfl, rfl, by simpa [scanRow] using h⟩
  | cons x xs ih =>
    intro gens vs h
    obtain ⟨b, v⟩ := x
    cases b with
    | none =>
      have := ih gens vs h
      simpa [scanRow, List.filter_cons] using this
    | some b =>
      by_cases hb : b = a
      · subst hb
        obtain ⟨col, h1, h2⟩ := h
        have := ih (fun c => if c = b then (gens b).scan ((dgenOps env).scan mem v) else gens c)
          (vs ++ [v.goVal mem]) (by
            refine ⟨col.scan mem v, ?_, ?_⟩
            · simp [ScopedGen.scan, dgenOps, h1, Gen.scan]
            · rw [Column.scan_goVal]; simp [lastVal])
        simpa [scanRow, ScopedGen.scan, List.append_assoc] using this
      · have := ih (fun c => if c = b then (gens b).scan ((dgenOps env).scan mem v) else gens c) vs (by
          simpa [Ne.symm hb] using h)
        simpa [scanRow, Ne.symm hb, hb, List.filter_cons] using this

/-- The values that a row saves in generator `a`. -/
theorem row_saves (a : Nat) (outs : List (Option Nat)) (row : List Scanned) (mem : Mem) (f : Nat → Option Nat → GoVal → SaveEv)
    (hv : ∀ y o v, (f y o v).val = v) (sv : SaveEv → Option Nat) (hs : ∀ y o v, outs[y]? = some o → sv (f y o v) = o) :
    ((((outs.zip row).zipIdx).map fun p => f p.2 p.1.1 (p.1.2.goVal mem)).filter (fun s => sv s == some a)).map (·.val) =
      ((outs.zip row).filter fun p => p.1 == some a).map fun p => p.2.goVal mem := by
  rw [List.filter_map, List.map_map]
  have h1 : ((outs.zip row).zipIdx).filter ((fun s => sv s == some a) ∘ fun p => f p.2 p.1.1 (p.1.2.goVal mem)) =
      ((outs.zip row).zipIdx).filter ((fun p => p.1 == some a) ∘ Prod.fst) := by
    refine List.filter_congr ?_
    rintro ⟨⟨o, v⟩, y⟩ hm
    have hm := List.mem_zipIdx_iff_getElem?.1 hm
    dsimp only at hm
    have ho : outs[y]? = some o := by
      rw [List.getElem?_zip_eq_some] at hm; exact hm.1
    simp [hs y o _ ho]
  rw [h1]
  have h2 : ((outs.zip row).zipIdx).map Prod.fst = outs.zip row := List.zipIdx_map_fst ..
  conv_rhs => rw [← h2, List.filter_map, List.map_map]
  refine List.map_congr_left ?_
  intro p _
  simp [hv]

/-! ### Using -/

theorem col_use (env : GenEnv) (s : ScopedGen DGen (List GoVal)) (sno : Nat) (hk : s.kind = .single sno)
    (x : GoVal) (hx : HoldsCol s.g x) (e : Bool) (cnt : RunCount) :
    let y := s.use (dgenOps env).values ⟨e, cnt⟩
    y.1.kind = .single sno ∧ HoldsCol y.1.g x ∧
      ((e = true ∨ s.last < cnt.get sno) → y.2 = some [x] ∧ y.1.last = cnt.get sno ∧ y.1.vals = some [x]) ∧
      (e = false → ¬ s.last < cnt.get sno → y.1 = s ∧ y.2 = s.vals) := by
  obtain ⟨col, h1, h2⟩ := hx
  have hc : s.call (dgenOps env).values cnt = ({ s with last := cnt.get sno, g := { s.g with gen := .column col, calls := s.g.calls + 1 }, vals := some [x] }, some [x]) := by
    simp [ScopedGen.call, hk, dgenOps, h1, Gen.values, h2]
  have hcall : ∀ y, y = s.call (dgenOps env).values cnt → y.1.kind = .single sno ∧ HoldsCol y.1.g x ∧
      y.2 = some [x] ∧ y.1.last = cnt.get sno ∧ y.1.vals = some [x] := by
    rintro y rfl
    rw [hc]
    exact ⟨hk, ⟨col, rfl, h2⟩, rfl, rfl, rfl⟩
  cases e with
  | true =>
    obtain ⟨a1, a2, a3⟩ := hcall _ rfl
    exact ⟨a1, a2, fun _ => a3, by simp⟩
  | false =>
    simp only [ScopedGen.use, ScopedGen.values, hk]
    by_cases hlt : s.last < cnt.get sno
    · have : cnt.get sno > s.last := hlt
      simp only [this, if_true, Bool.false_eq_true, if_false]
      obtain ⟨a1, a2, a3⟩ := hcall _ rfl
      exact ⟨a1, a2, fun _ => a3, fun _ h => (h trivial).elim⟩
    · have : ¬ cnt.get sno > s.last := hlt
      simp only [this, if_false, Bool.false_eq_true]
      exact ⟨hk, ⟨col, h1, h2⟩, fun h => by simp at h, fun _ _ => by simp⟩

/-- Uses of a column at one run count. `w` is what the uses before in this iteration of the scope got. -/
theorem col_uses (env : GenEnv) (sno : Nat) (x : GoVal) (cnt : RunCount) (es : List Bool) :
    ∀ s : ScopedGen DGen (List GoVal), s.kind = .single sno → HoldsCol s.g x → s.last ≤ cnt.get sno →
    let y := s.uses (dgenOps env).values (es.map fun e => ⟨e, cnt⟩)
    y.1.kind = .single sno ∧ HoldsCol y.1.g x ∧ (es = [] → y.1 = s) ∧
      (es ≠ [] → y.1.last = cnt.get sno) ∧ y.2.length = es.length ∧
      (∀ p ∈ es.zip y.2, p.1 = true → p.2 = some [x]) ∧
      (s.last < cnt.get sno → (∀ v ∈ y.2, v = some [x]) ∧ (es ≠ [] → y.1.vals = some [x])) ∧
      (s.last = cnt.get sno → (∀ v ∈ y.2, v = s.vals ∨ v = some [x]) ∧ (y.1.vals = s.vals ∨ y.1.vals = some [x]) ∧
        ((∀ e ∈ es, e = false) → (∀ v ∈ y.2, v = s.vals) ∧ y.1.vals = s.vals)) := by
  induction es with
  | nil => intro s hk hx _; exact ⟨hk, hx, fun _ => rfl, by simp, rfl, by simp, by simp [ScopedGen.uses], by simp [ScopedGen.uses]⟩
  | cons e es ih =>
    intro s hk hx hle
    obtain ⟨b1, b2, b3, b4⟩ := col_use env s sno hk x hx e cnt
    simp only [List.map_cons, ScopedGen.uses]
    generalize hs1 : s.use (dgenOps env).values ⟨e, cnt⟩ = s1 at *
    have hl1 : s1.1.last = cnt.get sno := by
      by_cases hc : e = true ∨ s.last < cnt.get sno
      · exact (b3 hc).2.1
      · simp only [not_or, Bool.not_eq_true] at hc
        rw [(b4 hc.1 hc.2).1]; omega
    obtain ⟨c1, c2, c3, c4, c5, c6, c7, c8⟩ := ih s1.1 b1 b2 (by omega)
    generalize hs2 : s1.1.uses (dgenOps env).values (es.map fun e => ⟨e, cnt⟩) = s2 at *
    obtain ⟨d1, d2, d3⟩ := c8 hl1
    refine ⟨c1, c2, by simp, ?_, by simp [c5], ?_, ?_, ?_⟩
    · intro _
      cases es with
      | nil => rw [c3 rfl]; exact hl1
      | cons e' es' => exact c4 (by simp)
    · intro p hp hpe
      rw [List.zip_cons_cons] at hp
      rcases List.mem_cons.1 hp with rfl | hp
      · exact (b3 (Or.inl hpe)).1
      · exact c6 p hp hpe
    · intro hlt
      obtain ⟨e1, e2, e3⟩ := b3 (Or.inr hlt)
      rw [e3] at d1 d2
      refine ⟨?_, fun _ => by simpa using d2⟩
      intro v hv
      rcases List.mem_cons.1 hv with rfl | hv
      · exact e1
      · simpa using d1 v hv
    · intro heq
      cases e with
      | true =>
        obtain ⟨e1, e2, e3⟩ := b3 (Or.inl rfl)
        rw [e3] at d1 d2
        refine ⟨?_, Or.inr (by simpa using d2), fun h => absurd (h true (by simp)) (by simp)⟩
        intro v hv
        rcases List.mem_cons.1 hv with rfl | hv
        · exact Or.inr e1
        · exact Or.inr (by simpa using d1 v hv)
      | false =>
        obtain ⟨e1, e2⟩ := b4 rfl (by omega)
        rw [e1] at d1 d2 d3
        refine ⟨?_, d2, ?_⟩
        · intro v hv
          rcases List.mem_cons.1 hv with rfl | hv
          · exact Or.inl e2
          · exact d1 v hv
        · intro h
          obtain ⟨f1, f2⟩ := d3 (fun e he => h e (List.mem_cons_of_mem _ he))
          refine ⟨?_, f2⟩
          intro v hv
          rcases List.mem_cons.1 hv with rfl | hv
          · exact e2
          · exact f1 v hv

/-! ### Histories -/

theorem Sess.run_data {G : Type} {o : FmtOther} {ops : GenOps G} {cs : ClientNo → Cli}
    {P : (Nat → ScopedGen G (List GoVal)) → List SEv → List SaveEv → Prop}
    (hev : ∀ (s : Sess G) x e, P s.gens s.hist s.saves →
      let s' := s.event o ops (cs x.n) x e
      P s'.gens s'.hist s'.saves)
    (hrow : ∀ (s : Sess G) x, P s.gens s.hist s.saves →
      let s' := s.readRows ops (cs x.n) x
      P s'.gens s'.hist s'.saves) (xs : List SIn) :
    ∀ s : Sess G, P s.gens s.hist s.saves →
    let s' := s.run o ops cs xs
    P s'.gens s'.hist s'.saves := by
  have hfold : ∀ (x : SIn) (l : List CEv) (s : Sess G), P s.gens s.hist s.saves →
      let s' := l.foldl (Sess.event o ops (cs x.n) x) s
      P s'.gens s'.hist s'.saves := by
    intro x l
    induction l with
    | nil => intro s h; exact h
    | cons e l ih => intro s h; exact ih _ (hev s x e h)
  induction xs with
  | nil => intro s h; exact h
  | cons x xs ih => intro s h; exact ih _ (hfold x _ _ (hrow s x h))

/-- What holds of a saved column at address `a`. -/
structure ColInv (cs : ClientNo → Cli) (a : Nat) (sc : Scope) (g : ScopedGen DGen (List GoVal)) (hist : List SEv)
    (saves : List SaveEv) : Prop where
  kind : g.kind = genKind sc
  holds : HoldsCol g.g (lastVal ((saves.filter fun s => savedIn cs s == some a).map (·.val)))
  last : (g.last = 0 ∧ usesIn a hist = []) ∨ ∃ u ∈ usesIn a hist, scopeCounter sc u.1.cnt = g.last
  le : ∀ u ∈ usesIn a hist, scopeCounter sc u.1.cnt ≤ g.last
  cur : (∀ u ∈ usesIn a hist, u.1.explicit = false) → ∀ u ∈ usesIn a hist, scopeCounter sc u.1.cnt = g.last → u.2 = g.vals
  same : (∀ u ∈ usesIn a hist, u.1.explicit = false) → ∀ u ∈ usesIn a hist, ∀ u' ∈ usesIn a hist,
    scopeCounter sc u.1.cnt = scopeCounter sc u'.1.cnt → u.2 = u'.2
  own : g.last ≠ 0 → ∃ v, g.vals = some [v] ∧ (v = .nil ∨ ∃ s ∈ saves, savedIn cs s = some a ∧ s.val = v)
  ev : ∀ (p : Nat) n i cnt vs, hist[p]? = some (.gen n i cnt vs) → ∀ r v, (r, v) ∈ vs → r.gen = a →
    (r.explicit = true → v = some [savedBefore cs a p saves]) ∧
    ((∀ (p' : Nat) n' i' cnt' vs', p' < p → hist[p']? = some (.gen n' i' cnt' vs') → ∀ q ∈ vs', q.1.gen = a →
      scopeCounter sc cnt' ≠ scopeCounter sc cnt) → v = some [savedBefore cs a p saves]) ∧
    ∃ x, v = some [x] ∧ (x = .nil ∨ ∃ s ∈ saves, savedIn cs s = some a ∧ s.time ≤ p ∧ s.val = x)

theorem savedBefore_later {cs : ClientNo → Cli} {a p : Nat} {saves l : List SaveEv} (h : ∀ s ∈ l, p < s.time) :
    savedBefore cs a p (saves ++ l) = savedBefore cs a p saves := by
  unfold savedBefore
  rw [List.filter_append]
  have : l.filter (fun s => savedIn cs s == some a && decide (s.time ≤ p)) = [] := by
    rw [List.filter_eq_nil_iff]
    intro s hs
    have := h s hs
    simp; omega
  rw [this, List.append_nil]

/-- Saving leaves all but the value. -/
theorem ColInv.saved {cs : ClientNo → Cli} {a : Nat} {sc : Scope} {g g' : ScopedGen DGen (List GoVal)} {hist : List SEv}
    {saves l : List SaveEv} (h : ColInv cs a sc g hist saves) (hl : ∀ s ∈ l, s.time = hist.length)
    (h1 : g'.kind = g.kind) (h2 : g'.last = g.last) (h3 : g'.vals = g.vals)
    (h4 : HoldsCol g'.g (lastVal (((saves ++ l).filter fun s => savedIn cs s == some a).map (·.val)))) :
    ColInv cs a sc g' hist (saves ++ l) := by
  refine ⟨h1.trans h.kind, h4, by rw [h2]; exact h.last, by rw [h2]; exact h.le, by rw [h2, h3]; exact h.cur,
    h.same, ?_, ?_⟩
  · rw [h2, h3]
    intro hne
    obtain ⟨v, e1, e2⟩ := h.own hne
    refine ⟨v, e1, e2.imp id ?_⟩
    rintro ⟨s, hs, hs'⟩
    exact ⟨s, List.mem_append_left _ hs, hs'⟩
  · intro p n i cnt vs hp r v hv hr
    have hlt := (List.getElem?_eq_some_iff.1 hp).1
    have hsb : savedBefore cs a p (saves ++ l) = savedBefore cs a p saves :=
      savedBefore_later (by intro s hs; rw [hl s hs]; exact hlt)
    rw [hsb]
    obtain ⟨e1, e2, x, e3, e4⟩ := h.ev p n i cnt vs hp r v hv hr
    refine ⟨e1, e2, x, e3, e4.imp id ?_⟩
    rintro ⟨s, hs, hs'⟩
    exact ⟨s, List.mem_append_left _ hs, hs'⟩

theorem usesIn_append (a : Nat) (h : List SEv) (e : SEv) : usesIn a (h ++ [e]) = usesIn a h ++ usesIn a [e] := by
  simp [usesIn]

theorem countersOrdered_prefix {sc : Scope} {l l' : List Use} (h : CountersOrdered sc (l ++ l')) : CountersOrdered sc l :=
  ⟨fun u hu => h.1 u (List.mem_append_left _ hu), (List.pairwise_append.1 h.2).1⟩

theorem mem_usesIn {a p : Nat} {h : List SEv} {n : ClientNo} {i : Nat} {cnt : RunCount}
    {vs : List (InRef × Option (List GoVal))} (hp : h[p]? = some (.gen n i cnt vs)) {q : InRef × Option (List GoVal)}
    (hq : q ∈ vs) (hqa : q.1.gen = a) : ((⟨q.1.explicit, cnt⟩ : Use), q.2) ∈ usesIn a h := by
  unfold usesIn
  refine List.mem_flatMap.2 ⟨_, List.mem_of_getElem? hp, ?_⟩
  exact List.mem_map.2 ⟨q, List.mem_filter.2 ⟨hq, by simpa using hqa⟩, rfl⟩

theorem of_mem_usesIn {a : Nat} {h : List SEv} {u : Use × Option (List GoVal)} (hu : u ∈ usesIn a h) :
    ∃ (p : Nat) (n : ClientNo) (i : Nat) (vs : List (InRef × Option (List GoVal))),
      h[p]? = some (.gen n i u.1.cnt vs) ∧ ∃ q ∈ vs, q.1.gen = a ∧ q.2 = u.2 ∧ q.1.explicit = u.1.explicit := by
  unfold usesIn at hu
  obtain ⟨e, he, hu⟩ := List.mem_flatMap.1 hu
  obtain ⟨p, hp⟩ := List.mem_iff_getElem?.1 he
  cases e with
  | sent => exact absurd hu List.not_mem_nil
  | gen n i cnt vs =>
    obtain ⟨q, hq, rfl⟩ := List.mem_map.1 hu
    obtain ⟨h1, h2⟩ := List.mem_filter.1 hq
    exact ⟨p, n, i, vs, hp, q, h1, by simpa using h2, rfl, rfl⟩

/-- The invariant of a saved column. -/
theorem hist_column (o : FmtOther) (genv : GenEnv) (cs : ClientNo → Cli) (made : GoMap Nat GenId)
    (g : GenStart DGen) (xs : List SIn) (a : Nat) (sc : Scope) (hsc : IsSingle sc)
    (h0 : ∃ d, (Sess.init cs made g).gens a = ScopedGen.new sc d ∧ HoldsCol d .nil)
    (hord : CountersOrdered sc ((usesIn a ((Sess.init cs made g).run o (dgenOps genv) cs xs).hist).map (·.1))) :
    let s := (Sess.init cs made g).run o (dgenOps genv) cs xs
    ColInv cs a sc (s.gens a) s.hist s.saves := by
  obtain ⟨sno, hsno, hget⟩ := kind_single hsc
  have h := Sess.run_data (o := o) (ops := dgenOps genv) (cs := cs)
    (P := fun gens hist saves => (∀ s ∈ saves, s.time ≤ hist.length) ∧
      (CountersOrdered sc ((usesIn a hist).map (·.1)) → ColInv cs a sc (gens a) hist saves)) ?_ ?_ xs
    (Sess.init cs made g) ?_
  · exact h.2 hord
  · rintro s x e ⟨ht, h⟩
    dsimp only
    cases e
    case gen i cnt =>
      have hc := callInputs_uses (dgenOps genv) cnt a ((((cs x.n).data[i]?).map (·.inputs)).getD []) s.gens
      simp only [Sess.event]
      generalize callInputs (dgenOps genv) cnt s.gens ((((cs x.n).data[i]?).map (·.inputs)).getD []) = y at hc ⊢
      dsimp only at hc
      refine ⟨fun s' hs' => by have := ht s' hs'; simp; omega, fun ho => ?_⟩
      have hu1 : usesIn a [SEv.gen x.n i cnt y.2] =
          (y.2.filter (fun p => p.1.gen == a)).map fun p => (⟨p.1.explicit, cnt⟩, p.2) := by simp [usesIn]
      rw [usesIn_append, List.map_append] at ho
      have h := h (countersOrdered_prefix ho)
      rw [hu1] at ho
      generalize hL : y.2.filter (fun p => p.1.gen == a) = L at hc ho hu1
      have hmap : (L.map fun p => ((⟨p.1.explicit, cnt⟩ : Use), p.2)).map (·.1) =
          (L.map (·.1.explicit)).map fun e => ⟨e, cnt⟩ := by simp
      have hmap2 : (L.map fun p => ((⟨p.1.explicit, cnt⟩ : Use), p.2)).map (·.2) = L.map (·.2) := by simp
      rw [hmap, hmap2] at hc
      have hmem : ∀ u, u ∈ usesIn a (s.hist ++ [SEv.gen x.n i cnt y.2]) →
          u ∈ usesIn a s.hist ∨ (u.1.cnt = cnt ∧ ∃ q ∈ L, u = (⟨q.1.explicit, cnt⟩, q.2)) := by
        intro u hu
        rw [usesIn_append, hu1] at hu
        rcases List.mem_append.1 hu with hu | hu
        · exact Or.inl hu
        · obtain ⟨q, hq, rfl⟩ := List.mem_map.1 hu
          exact Or.inr ⟨rfl, q, hq, rfl⟩
      have hmem1 : ∀ u ∈ usesIn a s.hist, u ∈ usesIn a (s.hist ++ [SEv.gen x.n i cnt y.2]) := by
        intro u hu; rw [usesIn_append]; exact List.mem_append_left _ hu
      have hmem2 : ∀ q ∈ L, ((⟨q.1.explicit, cnt⟩ : Use), q.2) ∈ usesIn a (s.hist ++ [SEv.gen x.n i cnt y.2]) := by
        intro q hq; rw [usesIn_append, hu1]; exact List.mem_append_right _ (List.mem_map.2 ⟨q, hq, rfl⟩)
      have hevold : ∀ (p : Nat) n i' cnt' vs', (s.hist ++ [SEv.gen x.n i cnt y.2])[p]? = some (.gen n i' cnt' vs') →
          p < s.hist.length → s.hist[p]? = some (.gen n i' cnt' vs') := by
        intro p n i' cnt' vs' hp hlt
        rw [List.getElem?_append_left hlt] at hp; exact hp
      by_cases hLn : L = []
      · subst hLn
        simp only [List.map_nil, ScopedGen.uses] at hc
        have hya : y.1 a = s.gens a := (congrArg Prod.fst hc).symm
        have hus : usesIn a (s.hist ++ [SEv.gen x.n i cnt y.2]) = usesIn a s.hist := by
          rw [usesIn_append, hu1]; simp
        rw [hya]
        refine ⟨h.kind, h.holds, by rw [hus]; exact h.last, by rw [hus]; exact h.le, by rw [hus]; exact h.cur,
          by rw [hus]; exact h.same, h.own, ?_⟩
        intro p n i' cnt' vs' hp r v hv hr
        have hlt : p < s.hist.length := by
          by_contra hge
          have hlen := (List.getElem?_eq_some_iff.1 hp).1
          have : p = s.hist.length := by simp at hlen; omega
          subst this
          rw [List.getElem?_concat_length] at hp
          cases hp
          have : (r, v) ∈ y.2.filter (fun p => p.1.gen == a) := List.mem_filter.2 ⟨hv, by simpa using hr⟩
          rw [hL] at this; cases this
        obtain ⟨e1, e2, e3⟩ := h.ev p n i' cnt' vs' (hevold _ _ _ _ _ hp hlt) r v hv hr
        refine ⟨e1, fun hno => e2 ?_, e3⟩
        intro p' n' i'' cnt'' vs'' hp' hg
        exact hno p' n' i'' cnt'' vs'' hp' (by rw [List.getElem?_append_left (by omega)]; exact hg)
      · obtain ⟨q0, hq0⟩ := List.exists_mem_of_ne_nil _ hLn
        have hpos : 0 < scopeCounter sc cnt := ho.1 ⟨q0.1.explicit, cnt⟩ (List.mem_append_right _ (by
          rw [List.map_map]; exact List.mem_map.2 ⟨q0, hq0, rfl⟩))
        have hge : ∀ u ∈ usesIn a s.hist, scopeCounter sc u.1.cnt ≤ scopeCounter sc cnt := by
          intro u hu
          exact (List.pairwise_append.1 ho.2).2.2 u.1 (List.mem_map.2 ⟨u, hu, rfl⟩) ⟨q0.1.explicit, cnt⟩
            (by rw [List.map_map]; exact List.mem_map.2 ⟨q0, hq0, rfl⟩)
        have hle : (s.gens a).last ≤ cnt.get sno := by
          rw [hget]
          rcases h.last with ⟨h1, -⟩ | ⟨u, hu, he⟩
          · omega
          · rw [← he]; exact hge u hu
        obtain ⟨c1, c2, -, c4, c5, c6, c7, c8⟩ := col_uses genv sno _ cnt (L.map (·.1.explicit)) (s.gens a)
          (h.kind.trans hsno) h.holds hle
        rw [hc] at c1 c2 c4 c5 c6 c7 c8
        dsimp only at c1 c2 c4 c5 c6 c7 c8
        rw [hget] at c4 c7 c8
        have hne : L.map (·.1.explicit) ≠ [] := by simpa using hLn
        have hlast := c4 hne
        have hcase : (s.gens a).last < scopeCounter sc cnt ∨ (s.gens a).last = scopeCounter sc cnt := by
          rw [hget] at hle; omega
        have hsb : savedBefore cs a s.hist.length s.saves =
            lastVal ((s.saves.filter fun s => savedIn cs s == some a).map (·.val)) := by
          unfold savedBefore
          congr 2
          refine List.filter_congr ?_
          intro s' hs'
          simp [ht s' hs']
        rw [← hsb] at c2 c6 c7 c8
        have hz : ∀ q ∈ L, q.1.explicit = true → q.2 = some [savedBefore cs a s.hist.length s.saves] := by
          intro q hq he
          refine c6 (q.1.explicit, q.2) ?_ he
          rw [List.zip_map']
          exact List.mem_map.2 ⟨q, hq, rfl⟩
        have hsaved : savedBefore cs a s.hist.length s.saves = .nil ∨
            ∃ s' ∈ s.saves, savedIn cs s' = some a ∧ s'.val = savedBefore cs a s.hist.length s.saves := by
          rw [hsb]
          unfold lastVal
          cases hg : ((s.saves.filter fun s => savedIn cs s == some a).map (·.val)).getLast? with
          | none => exact Or.inl rfl
          | some v =>
            right
            obtain ⟨s', hs', rfl⟩ := List.mem_map.1 (List.mem_of_getLast? hg)
            obtain ⟨h1, h2⟩ := List.mem_filter.1 hs'
            exact ⟨s', h1, by simpa using h2, rfl⟩
        have hown : ∃ v, (y.1 a).vals = some [v] ∧ (v = .nil ∨ ∃ s' ∈ s.saves, savedIn cs s' = some a ∧ s'.val = v) := by
          rcases hcase with hlt | heq
          · exact ⟨_, (c7 hlt).2 hne, hsaved⟩
          · rcases (c8 heq).2.1 with hv | hv
            · rw [hv]; exact h.own (by omega)
            · exact ⟨_, hv, hsaved⟩
        have hvals : ∀ q ∈ L, ∃ v, q.2 = some [v] ∧ (v = .nil ∨ ∃ s' ∈ s.saves, savedIn cs s' = some a ∧ s'.val = v) := by
          intro q hq
          rcases hcase with hlt | heq
          · exact ⟨_, (c7 hlt).1 q.2 (List.mem_map.2 ⟨q, hq, rfl⟩), hsaved⟩
          · rcases (c8 heq).1 q.2 (List.mem_map.2 ⟨q, hq, rfl⟩) with hv | hv
            · rw [hv]; exact h.own (by omega)
            · exact ⟨_, hv, hsaved⟩
        refine ⟨c1.trans hsno.symm, by rw [← hsb]; exact c2, ?_, ?_, ?_, ?_, fun _ => hown, ?_⟩
        · right; exact ⟨_, hmem2 q0 hq0, hlast.symm⟩
        · intro u hu
          rw [hlast]
          rcases hmem u hu with hu | ⟨hu, -⟩
          · exact hge u hu
          · rw [hu]
        · intro himp u hu he
          rw [hlast] at he
          have himp' : ∀ u ∈ usesIn a s.hist, u.1.explicit = false := fun u hu => himp u (hmem1 u hu)
          have hex : ∀ e ∈ L.map (·.1.explicit), e = false := by
            intro e he
            obtain ⟨q, hq, rfl⟩ := List.mem_map.1 he
            exact himp _ (hmem2 q hq)
          rcases hcase with hlt | heq
          · rcases hmem u hu with hu | ⟨-, q, hq, rfl⟩
            · have := h.le u hu; omega
            · rw [(c7 hlt).2 hne]; exact (c7 hlt).1 q.2 (List.mem_map.2 ⟨q, hq, rfl⟩)
          · obtain ⟨d1, d2⟩ := (c8 heq).2.2 hex
            rw [d2]
            rcases hmem u hu with hu | ⟨-, q, hq, rfl⟩
            · exact h.cur himp' u hu (by omega)
            · exact d1 q.2 (List.mem_map.2 ⟨q, hq, rfl⟩)
        · intro himp u hu u' hu' he
          have himp' : ∀ u ∈ usesIn a s.hist, u.1.explicit = false := fun u hu => himp u (hmem1 u hu)
          have hex : ∀ e ∈ L.map (·.1.explicit), e = false := by
            intro e he
            obtain ⟨q, hq, rfl⟩ := List.mem_map.1 he
            exact himp _ (hmem2 q hq)
          have hnew : ∀ u ∈ usesIn a s.hist, ∀ q ∈ L, scopeCounter sc u.1.cnt = scopeCounter sc cnt → u.2 = q.2 := by
            intro u hu q hq he
            rcases hcase with hlt | heq
            · have := h.le u hu; omega
            · rw [h.cur himp' u hu (by omega)]
              exact (((c8 heq).2.2 hex).1 q.2 (List.mem_map.2 ⟨q, hq, rfl⟩)).symm
          rcases hmem u hu with hu | ⟨-, q, hq, rfl⟩ <;> rcases hmem u' hu' with hu' | ⟨-, q', hq', rfl⟩
          · exact h.same himp' u hu u' hu' he
          · exact hnew u hu q' hq' he
          · exact (hnew u' hu' q hq he.symm).symm
          · rcases hcase with hlt | heq
            · exact ((c7 hlt).1 q.2 (List.mem_map.2 ⟨q, hq, rfl⟩)).trans
                ((c7 hlt).1 q'.2 (List.mem_map.2 ⟨q', hq', rfl⟩)).symm
            · exact (((c8 heq).2.2 hex).1 q.2 (List.mem_map.2 ⟨q, hq, rfl⟩)).trans
                (((c8 heq).2.2 hex).1 q'.2 (List.mem_map.2 ⟨q', hq', rfl⟩)).symm
        · intro p n i' cnt' vs' hp r v hv hr
          by_cases hlt : p < s.hist.length
          · obtain ⟨e1, e2, e3⟩ := h.ev p n i' cnt' vs' (hevold _ _ _ _ _ hp hlt) r v hv hr
            refine ⟨e1, fun hno => e2 ?_, e3⟩
            intro p' n' i'' cnt'' vs'' hp' hg
            exact hno p' n' i'' cnt'' vs'' hp' (by rw [List.getElem?_append_left (by omega)]; exact hg)
          · have hlen := (List.getElem?_eq_some_iff.1 hp).1
            have : p = s.hist.length := by simp at hlen; omega
            subst this
            rw [List.getElem?_concat_length] at hp
            cases hp
            have hq : (r, v) ∈ L := by rw [← hL]; exact List.mem_filter.2 ⟨hv, by simpa using hr⟩
            refine ⟨hz (r, v) hq, ?_, ?_⟩
            · intro hno
              rcases hcase with hlt | heq
              · exact (c7 hlt).1 v (List.mem_map.2 ⟨(r, v), hq, rfl⟩)
              · rcases h.last with ⟨h1, -⟩ | ⟨u, hu, he⟩
                · omega
                · obtain ⟨p', n', i'', vs'', f1, q, f2, f3, -, -⟩ := of_mem_usesIn hu
                  have hlt' := (List.getElem?_eq_some_iff.1 f1).1
                  exact absurd (he.trans heq) (hno p' n' i'' _ vs'' hlt' (by
                    rw [List.getElem?_append_left hlt']; exact f1) q f2 f3)
            · obtain ⟨z, z1, z2⟩ := hvals (r, v) hq
              refine ⟨z, z1, z2.imp id ?_⟩
              rintro ⟨s', hs', hs1, hs2⟩
              exact ⟨s', hs', hs1, ht s' hs', hs2⟩
    case exec i conn ps =>
      refine ⟨fun s' hs' => by have := ht s' hs'; simp [Sess.event]; omega, fun ho => ?_⟩
      have hus : usesIn a (s.event o (dgenOps genv) (cs x.n) x (.exec i conn ps)).hist = usesIn a s.hist := by
        simp only [Sess.event]
        rw [usesIn_append]; simp [usesIn]
      rw [hus] at ho
      have h := h ho
      refine ⟨h.kind, h.holds, by rw [hus]; exact h.last, by rw [hus]; exact h.le, by rw [hus]; exact h.cur,
        by rw [hus]; exact h.same, h.own, ?_⟩
      intro p n i' cnt' vs' hp r v hv hr
      simp only [Sess.event] at hp
      have hlt : p < s.hist.length := by
        by_contra hge
        have hlen := (List.getElem?_eq_some_iff.1 hp).1
        have : p = s.hist.length := by simp at hlen; omega
        subst this
        rw [List.getElem?_concat_length] at hp
        cases hp
      rw [List.getElem?_append_left hlt] at hp
      obtain ⟨e1, e2, e3⟩ := h.ev p n i' cnt' vs' hp r v hv hr
      refine ⟨e1, fun hno => e2 ?_, e3⟩
      intro p' n' i'' cnt'' vs'' hp' hg
      exact hno p' n' i'' cnt'' vs'' hp' (by
        simp only [Sess.event]; rw [List.getElem?_append_left (by omega)]; exact hg)
    case insertId i =>
      simp only [Sess.event]
      refine ⟨?_, fun ho => ?_⟩
      · intro s' hs'
        rcases List.mem_append.1 hs' with hs' | hs'
        · exact ht s' hs'
        · simp only [List.mem_singleton] at hs'; subst hs'; exact Nat.le_refl _
      · have h := h ho
        obtain ⟨e1, e2, e3, e4⟩ := scanRow_col genv x.mem a
          [(((cs x.n).data[i]?).bind (·.insertId), .other x.id)] s.gens _ h.holds
        refine h.saved (by intro s' hs'; simp only [List.mem_singleton] at hs'; subst hs'; rfl) e1 e2 e3 ?_
        rw [List.filter_append, List.map_append]
        have : (([⟨s.hist.length, x.n, i, none, goI64 x.id⟩] : List SaveEv).filter fun s => savedIn cs s == some a).map (·.val) =
            ([(((cs x.n).data[i]?).bind (·.insertId), Scanned.other x.id)].filter fun p => p.1 == some a).map
              fun p => p.2.goVal x.mem := by
          simp only [List.filter_cons, List.filter_nil, savedIn]
          split <;> rfl
        rw [this]
        exact e4
    all_goals exact ⟨ht, h⟩
  · rintro s x ⟨ht, h⟩
    dsimp only
    unfold Sess.readRows
    split
    · rename_i i hpc
      dsimp only
      refine ⟨?_, fun ho => ?_⟩
      · intro s' hs'
        rcases List.mem_append.1 hs' with hs' | hs'
        · exact ht s' hs'
        · obtain ⟨row, -, hs'⟩ := List.mem_flatMap.1 hs'
          obtain ⟨q, -, rfl⟩ := List.mem_map.1 hs'
          exact Nat.le_refl _
      · have h := h ho
        rw [scanRows_eq]
        generalize hout : (((cs x.n).data[i]?).map (·.outputs)).getD [] = outs
        obtain ⟨e1, e2, e3, e4⟩ := scanRow_col genv x.mem a (x.rows.flatMap fun row => outs.zip row) s.gens _ h.holds
        refine h.saved ?_ e1 e2 e3 ?_
        · intro s' hs'
          obtain ⟨row, -, hs'⟩ := List.mem_flatMap.1 hs'
          obtain ⟨q, -, rfl⟩ := List.mem_map.1 hs'
          rfl
        · rw [List.filter_append, List.map_append]
          have : ((x.rows.flatMap fun row => ((outs.zip row).zipIdx).map fun p =>
              (⟨s.hist.length, x.n, i, some p.2, p.1.2.goVal x.mem⟩ : SaveEv)).filter fun s => savedIn cs s == some a).map (·.val) =
              ((x.rows.flatMap fun row => outs.zip row).filter fun p => p.1 == some a).map fun p => p.2.goVal x.mem := by
            rw [List.filter_flatMap, List.map_flatMap, List.filter_flatMap, List.map_flatMap]
            congr 1
            funext row
            refine row_saves a outs row x.mem (fun y _ v => ⟨s.hist.length, x.n, i, some y, v⟩) (fun _ _ _ => rfl)
              (savedIn cs) ?_
            intro y o v hy
            cases hd : (cs x.n).data[i]? with
            | none => rw [hd] at hout; subst hout; cases hy
            | some d =>
              rw [hd] at hout
              simp only [Option.map_some, Option.getD_some] at hout
              subst hout
              simp [savedIn, hd, hy]
          rw [this]
          exact e4
    · exact ⟨ht, h⟩
  · refine ⟨by simp [Sess.init], fun _ => ?_⟩
    obtain ⟨d, h1, h2⟩ := h0
    rw [h1]
    exact ⟨rfl, h2, Or.inl ⟨rfl, rfl⟩, by simp [Sess.init, usesIn], by simp [Sess.init, usesIn],
      by simp [Sess.init, usesIn], by simp [ScopedGen.new], by simp [Sess.init]⟩

end Finch
