import Verif.Model.Scope
import Mathlib.Data.Finset.Card
import Mathlib.Data.Finset.Dedup
/-!
# C03 - C07: when a scoped data key generates a new value
-/
namespace Finch

variable {G V : Type}

/-- Spec: the counter that counts iterations of a single-client scope ("data generator called
when", docs/content/data/scope.md): statements, transactions, iterations, connections. -/
def scopeCounter : Scope → RunCount → Nat
  | .row, c => c.statement
  | .statement, c => c.statement
  | .trx, c => c.trx
  | .iter, c => c.iter
  | .client, c => c.conn
  | _, _ => 0

/-- Spec: the single-client scopes. -/
def IsSingle (s : Scope) : Prop := s = .row ∨ s = .statement ∨ s = .trx ∨ s = .iter ∨ s = .client

/-- Spec: `f` instrumented to count its calls. -/
def counted (f : GenFun G V) : GenFun (G × Nat) V :=
  fun g c => (((f g.1 c).1, g.2 + 1), (f g.1 c).2)

/-- Spec: the value sequence a user expects from a single-client scope. `cur` is the scope
iteration and the values of the latest call. A new call is made exactly on an explicit use or in
a new scope iteration. -/
def expected (f : GenFun G V) (s : Scope) : Option (Nat × V) → G → List Use → List V
  | _, _, [] => []
  | cur, g, u :: us =>
    let again := (f g u.cnt).2 :: expected f s (some (scopeCounter s u.cnt, (f g u.cnt).2))
      (f g u.cnt).1 us
    match cur with
    | none => again
    | some (n, v) =>
      if u.explicit = false ∧ scopeCounter s u.cnt = n then v :: expected f s cur g us else again

/-- Uses in the order in which one client makes them: the scope counter starts at 1 or above and
never decreases. -/
def CountersOrdered (s : Scope) (us : List Use) : Prop :=
  (∀ u ∈ us, 0 < scopeCounter s u.cnt) ∧
  us.Pairwise (fun a b => scopeCounter s a.cnt ≤ scopeCounter s b.cnt)

theorem kind_single {s : Scope} (h : IsSingle s) :
    ∃ n, genKind s = .single n ∧ ∀ c : RunCount, c.get n = scopeCounter s c := by
  rcases h with h | h | h | h | h <;> subst h <;>
    exact ⟨_, rfl, fun c => rfl⟩

theorem uses_eq_expected (f : GenFun G V) (s : Scope) (n : Nat)
    (hn : ∀ c : RunCount, c.get n = scopeCounter s c) :
    ∀ (us : List Use) (st : ScopedGen G V) (cur : Option (Nat × V)),
    st.kind = .single n → CountersOrdered s us →
    (match cur with
      | none => st.last = 0 ∧ st.vals = none
      | some (m, v) => st.last = m ∧ st.vals = some v ∧ ∀ u ∈ us, m ≤ scopeCounter s u.cnt) →
    (st.uses f us).2 = (expected f s cur st.g us).map some := by
  intro us
  induction us with
  | nil => intro st cur _ _ _; simp [ScopedGen.uses, expected]
  | cons u us ih =>
    intro st cur hk ho hcur
    have ho' : CountersOrdered s us := ⟨fun x hx => ho.1 x (List.mem_cons_of_mem _ hx),
      (List.pairwise_cons.1 ho.2).2⟩
    have hle := (List.pairwise_cons.1 ho.2).1
    -- the state after a call
    have hcall : (st.uses f (u :: us)).2 = some (f st.g u.cnt).2 ::
        (expected f s (some (scopeCounter s u.cnt, (f st.g u.cnt).2)) (f st.g u.cnt).1 us).map some
        ∨ (u.explicit = false ∧ ¬ (u.cnt.get n > st.last)) := by
      by_cases he : u.explicit = true ∨ u.cnt.get n > st.last
      · left
        have hu : st.use f u = st.call f u.cnt := by
          unfold ScopedGen.use ScopedGen.values
          rcases he with he | he
          · simp [he]
          · simp [hk, he]
        simp only [ScopedGen.uses, hu]
        have hc : st.call f u.cnt = (⟨st.kind, (f st.g u.cnt).1, u.cnt.get n,
            some (f st.g u.cnt).2, st.cgIter, st.cgVals⟩, some (f st.g u.cnt).2) := by
          simp [ScopedGen.call, hk]
        rw [hc]
        simp only
        congr 1
        exact ih _ (some (scopeCounter s u.cnt, (f st.g u.cnt).2)) hk ho'
          ⟨hn _, rfl, fun x hx => hle x hx⟩
      · right
        simp only [not_or] at he
        exact ⟨by simpa using he.1, he.2⟩
    cases cur with
    | none =>
      rcases hcall with h | ⟨h1, h2⟩
      · rw [h]; simp [expected]
      · exfalso
        have := ho.1 u (by simp)
        rw [hn] at h2
        simp only at hcur
        omega
    | some p =>
      obtain ⟨m, v⟩ := p
      simp only at hcur
      obtain ⟨hl, hv, hm⟩ := hcur
      have hmu := hm u (by simp)
      by_cases hc : u.explicit = false ∧ scopeCounter s u.cnt = m
      · have hu : st.use f u = (st, st.vals) := by
          unfold ScopedGen.use ScopedGen.values
          have hng : ¬ (u.cnt.get n > st.last) := by rw [hn]; omega
          simp [hc.1, hk, hng]
        simp only [ScopedGen.uses, hu, expected, if_pos hc, List.map_cons, hv]
        congr 1
        exact ih st (some (m, v)) hk ho' ⟨hl, hv, fun x hx => hm x (List.mem_cons_of_mem _ hx)⟩
      · rcases hcall with h | ⟨h1, h2⟩
        · rw [h]; simp [expected, if_neg hc]
        · exfalso
          apply hc
          refine ⟨h1, ?_⟩
          rw [hn] at h2
          omega

/-- **C03, C04 (refinement).** For every single-client scope, every real generator and every
history of implicit and explicit uses by one client, the values returned are exactly the expected
ones: a new call on each explicit use and at the first use in each scope iteration, otherwise the
values of the latest call. -/
theorem C03_single_client_values (f : GenFun G V) (s : Scope) (hs : IsSingle s) (g : G)
    (us : List Use) (ho : CountersOrdered s us) :
    ((ScopedGen.new s g : ScopedGen G V).uses f us).2 = (expected f s none g us).map some := by
  obtain ⟨n, hk, hn⟩ := kind_single hs
  exact uses_eq_expected f s n hn us (ScopedGen.new s g) none hk ho ⟨rfl, rfl⟩

/-- Non-vacuity: a counting generator with trx scope, four uses in two transactions, one explicit;
values 1 1 2 3. -/
example :
    let rc := fun t : Nat => (⟨t, t, 1, 1, 1, 1, 1, 1⟩ : RunCount)
    let us : List Use := [⟨false, rc 1⟩, ⟨false, rc 1⟩, ⟨true, rc 1⟩, ⟨false, rc 2⟩]
    CountersOrdered .trx us ∧
    ((ScopedGen.new .trx 0 : ScopedGen Nat Nat).uses (fun g _ => (g + 1, g + 1)) us).2
      = [some 1, some 1, some 2, some 3] := by
  refine ⟨⟨by simp [scopeCounter], by simp [scopeCounter]⟩, by decide⟩

theorem single_implicit_inv (f : GenFun G V) (s : Scope) (n : Nat)
    (hn : ∀ c : RunCount, c.get n = scopeCounter s c) :
    ∀ (us : List Use) (st : ScopedGen (G × Nat) V), st.kind = .single n →
    CountersOrdered s us → (∀ u ∈ us, u.explicit = false) →
    (∀ u ∈ us, st.last ≤ scopeCounter s u.cnt) →
    (st.last ≠ 0 → ∃ v, st.vals = some v) →
    (st.uses (counted f) us).1.g.2 =
      st.g.2 + ((us.map (fun u => scopeCounter s u.cnt)).toFinset.erase st.last).card ∧
    (∀ p ∈ us.zip (st.uses (counted f) us).2,
      scopeCounter s p.1.cnt = st.last → p.2 = st.vals) ∧
    (us.zip (st.uses (counted f) us).2).Pairwise
      (fun x y => scopeCounter s x.1.cnt = scopeCounter s y.1.cnt → x.2 = y.2) := by
  intro us
  induction us with
  | nil => intro st _ _ _ _ _; simp [ScopedGen.uses]
  | cons u us ih =>
    intro st hk ho hi hl hv
    have ho' : CountersOrdered s us := ⟨fun x hx => ho.1 x (List.mem_cons_of_mem _ hx),
      (List.pairwise_cons.1 ho.2).2⟩
    have hle := (List.pairwise_cons.1 ho.2).1
    have hi' : ∀ u ∈ us, u.explicit = false := fun x hx => hi x (List.mem_cons_of_mem _ hx)
    have hpos := ho.1 u (by simp)
    by_cases he : u.cnt.get n > st.last
    · have hc : st.use (counted f) u = (⟨st.kind, (counted f st.g u.cnt).1, u.cnt.get n,
          some (counted f st.g u.cnt).2, st.cgIter, st.cgVals⟩,
          some (counted f st.g u.cnt).2) := by
        simp [ScopedGen.use, ScopedGen.values, ScopedGen.call, hk, hi u (by simp), he]
      simp only [ScopedGen.uses, hc]
      rw [hn] at he
      obtain ⟨h1, h2, h3⟩ := ih ⟨st.kind, (counted f st.g u.cnt).1, u.cnt.get n,
          some (counted f st.g u.cnt).2, st.cgIter, st.cgVals⟩ hk ho' hi'
          (by intro x hx; simp only [hn]; exact hle x hx) (by intro _; exact ⟨_, rfl⟩)
      simp only [hn] at h1 h2 h3 ⊢
      refine ⟨?_, ?_, ?_⟩
      · rw [h1]
        simp only [counted, List.map_cons, List.toFinset_cons]
        have hnot : st.last ∉ insert (scopeCounter s u.cnt)
            (us.map (fun u => scopeCounter s u.cnt)).toFinset := by
          simp only [Finset.mem_insert, List.mem_toFinset, List.mem_map, not_or, not_exists,
            not_and]
          exact ⟨by omega, fun x hx he' => by have := hle x hx; omega⟩
        rw [Finset.erase_eq_of_notMem hnot]
        have := Finset.card_erase_add_one (Finset.mem_insert_self (scopeCounter s u.cnt)
            (us.map (fun u => scopeCounter s u.cnt)).toFinset)
        rw [← this, Finset.erase_insert_eq_erase]
        omega
      · intro p hp
        simp only [List.zip_cons_cons, List.mem_cons] at hp
        intro heq
        rcases hp with hp | hp
        · subst hp; simp only at heq; omega
        · have : p.1 ∈ us := by
            have := List.of_mem_zip hp; exact this.1
          have := hle p.1 this
          omega
      · simp only [List.zip_cons_cons]
        refine List.pairwise_cons.2 ⟨?_, h3⟩
        intro p hp heq
        exact (h2 p hp (by simp only at heq ⊢; omega)).symm
    · have hc : st.use (counted f) u = (st, st.vals) := by
        simp [ScopedGen.use, ScopedGen.values, hk, hi u (by simp), he]
      simp only [ScopedGen.uses, hc]
      rw [hn] at he
      have heq : scopeCounter s u.cnt = st.last := by
        have := hl u (by simp); omega
      obtain ⟨h1, h2, h3⟩ := ih st hk ho' hi' (fun x hx => hl x (List.mem_cons_of_mem _ hx)) hv
      refine ⟨?_, ?_, ?_⟩
      · rw [h1]
        simp only [List.map_cons, List.toFinset_cons, heq]
        rw [Finset.erase_insert_eq_erase]
      · intro p hp hp'
        simp only [List.zip_cons_cons, List.mem_cons] at hp
        rcases hp with hp | hp
        · subst hp; rfl
        · exact h2 p hp hp'
      · simp only [List.zip_cons_cons]
        refine List.pairwise_cons.2 ⟨?_, h3⟩
        intro p hp hpe
        exact (h2 p hp (by simp only at hpe; omega)).symm

/-- **C03.** Implicit uses by one client: the generator is called exactly once per scope iteration
in which the key is used, and uses in the same scope iteration return the same values. -/
theorem C03_one_call_per_scope_iteration (f : GenFun G V) (s : Scope) (hs : IsSingle s) (g : G)
    (us : List Use) (ho : CountersOrdered s us) (hi : ∀ u ∈ us, u.explicit = false) :
    let r := (ScopedGen.new s (g, 0) : ScopedGen (G × Nat) V).uses (counted f) us
    r.1.g.2 = (us.map (fun u => scopeCounter s u.cnt)).toFinset.card ∧
    (us.zip r.2).Pairwise (fun x y => scopeCounter s x.1.cnt = scopeCounter s y.1.cnt →
      x.2 = y.2) := by
  obtain ⟨n, hk, hn⟩ := kind_single hs
  have h := single_implicit_inv f s n hn us (ScopedGen.new s (g, 0)) hk ho hi
    (by intro u _; simp [ScopedGen.new]) (by simp [ScopedGen.new])
  refine ⟨?_, h.2.2⟩
  rw [h.1]
  simp only [ScopedGen.new, Nat.zero_add]
  congr 1
  apply Finset.erase_eq_of_notMem
  simp only [List.mem_toFinset, List.mem_map, not_exists, not_and]
  intro x hx he
  have := ho.1 x hx
  omega

/-- **C04.** An explicit use calls the real generator exactly once and returns its values, for
every scope. -/
theorem C04_explicit_call_always_generates (f : GenFun G V) (st : ScopedGen (G × Nat) V)
    (cnt : RunCount) :
    (st.use (counted f) ⟨true, cnt⟩).1.g = ((f st.g.1 cnt).1, st.g.2 + 1) ∧
    (st.use (counted f) ⟨true, cnt⟩).2 = some (f st.g.1 cnt).2 := by
  cases hk : st.kind <;> simp [ScopedGen.use, ScopedGen.call, hk, counted]

/-- **C04.** After an explicit use, implicit uses of the same client in the same scope iteration
return the values of that explicit call and call nothing: for all single-client scopes and all
multi-client scopes. -/
theorem C04_explicit_value_becomes_current (f : GenFun G V) (s : Scope) (st : ScopedGen G V)
    (hst : st.kind = genKind s) (c1 c2 : RunCount)
    (hs : (IsSingle s ∧ scopeCounter s c2 = scopeCounter s c1) ∨
      ((s = .clientGroup ∨ s = .execGroup ∨ s = .workload) ∧ c2.client = c1.client ∧
        c2.iter = c1.iter)) :
    let st1 := (st.use f ⟨true, c1⟩).1
    st1.use f ⟨false, c2⟩ = (st1, some (f st.g c1).2) := by
  rcases hs with ⟨hs, hc⟩ | ⟨hs, hc, hi⟩
  · obtain ⟨n, hk, hn⟩ := kind_single hs
    rw [hk] at hst
    have : ¬ (c2.get n > c1.get n) := by rw [hn, hn]; omega
    simp [ScopedGen.use, ScopedGen.call, ScopedGen.values, hst, this]
  · have hk : genKind s = .multi := by rcases hs with h | h | h <;> subst h <;> rfl
    rw [hk] at hst
    have : ¬ (c2.iter > c1.iter) := by omega
    simp [ScopedGen.use, ScopedGen.call, ScopedGen.values, hst, hc, this]

/-- Non-vacuity of the two branches. -/
example :
    let c : RunCount := ⟨1, 1, 1, 1, 1, 1, 1, 1⟩
    let st : ScopedGen Nat Nat := ScopedGen.new .statement 0
    ((st.use (fun g _ => (g + 1, g + 1)) ⟨true, c⟩).1.use (fun g _ => (g + 1, g + 1)) ⟨false, c⟩).2
      = some 1 := by decide

/-- Value scope: every use calls the generator. -/
theorem C04_value_scope_always_generates (f : GenFun G V) (g : G) (us : List Use) :
    ((ScopedGen.new .value (g, 0) : ScopedGen (G × Nat) V).uses (counted f) us).1.g.2
      = us.length := by
  have gen : ∀ (us : List Use) (st : ScopedGen (G × Nat) V), st.kind = .value →
      (st.uses (counted f) us).1.g.2 = st.g.2 + us.length := by
    intro us
    induction us with
    | nil => intro st _; simp [ScopedGen.uses]
    | cons u us ih =>
      intro st hk
      simp only [ScopedGen.uses]
      have h1 : (st.use (counted f) u).1.kind = .value ∧
          (st.use (counted f) u).1.g.2 = st.g.2 + 1 := by
        unfold ScopedGen.use ScopedGen.call ScopedGen.values
        split <;> simp [hk, counted]
      rw [ih _ h1.1, h1.2]
      simp; omega
  have := gen us (ScopedGen.new .value (g, 0)) rfl
  simpa [ScopedGen.new] using this

end Finch
