import Verif.Props.ScopedGen
/-!
# C05, C06, C07: multi-client and one-time scopes
-/
namespace Finch

variable {G V : Type}

/-- Spec: a schedule of implicit uses in which every client calls with its own client number and
with iteration numbers that never decrease; `last c` is the latest iteration of client `c`. -/
def ImplicitSchedule (last : Nat → Nat) : List MultiStep → Prop
  | [] => True
  | .begin c u :: ts => u.explicit = false ∧ u.cnt.client = c ∧ last c ≤ u.cnt.iter ∧
      ImplicitSchedule (fun x => if x = c then u.cnt.iter else last x) ts
  | _ :: ts => ImplicitSchedule last ts

/-- The (client, iteration) pairs of the uses that called the real generator. -/
def freshPairs (obs : List (UseObs V)) : List (Nat × Nat) :=
  (obs.filter (·.fresh)).map (fun o => (o.client, o.iter))

theorem freshPairs_append (a b : List (UseObs V)) :
    freshPairs (a ++ b) = freshPairs a ++ freshPairs b := by simp [freshPairs]

/-- Invariant of the concurrent machine after observing `H`. -/
structure MultiInv (last : Nat → Nat) (H : List (UseObs V)) (s : MultiGen (G × Nat) V) : Prop where
  pcClient : ∀ c cnt, s.pc c = .wantGen cnt → cnt.client = c ∧ cnt.iter ≤ last c ∧
    (∀ m, s.cgIter c = some m → m < cnt.iter)
  pcStore : ∀ c cnt v, s.pc c = .wantStore cnt v → cnt.client = c ∧ cnt.iter ≤ last c ∧
    (∀ m, s.cgIter c = some m → m < cnt.iter)
  none_ : ∀ c, s.cgIter c = none → ∀ o ∈ H, o.client ≠ c
  some_ : ∀ c m, s.cgIter c = some m → m ≤ last c ∧ (∃ v, s.cgVals c = some v) ∧
    (c, m) ∈ freshPairs H ∧
    ∀ o ∈ H, o.client = c → o.iter ≤ m ∧ (o.iter = m → o.out = s.cgVals c)
  isSome : ∀ o ∈ H, o.out.isSome
  nodup : (freshPairs H).Nodup
  covered : ∀ o ∈ H, (o.client, o.iter) ∈ freshPairs H
  same : H.Pairwise (fun x y => x.client = y.client → x.iter = y.iter → x.out = y.out)
  calls : ∃ L : List Nat, L.Nodup ∧ (∀ c, c ∈ L ↔ ∃ cnt v, s.pc c = .wantStore cnt v) ∧
    s.g.2 = (freshPairs H).length + L.length

theorem multiInv_new (g : G) (last : Nat → Nat) :
    MultiInv last [] (MultiGen.new (g, 0) : MultiGen (G × Nat) V) := by
  refine ⟨?_, ?_, ?_, ?_, ?_, ?_, ?_, ?_, ⟨[], ?_⟩⟩ <;>
    simp [MultiGen.new, freshPairs]

theorem multiInv_step (f : GenFun G V) {last : Nat → Nat} {H : List (UseObs V)}
    {s s' : MultiGen (G × Nat) V} {t : MultiStep} {o : Option (UseObs V)}
    (h : MultiInv last H s) (hs : s.step (counted f) t = some (s', o))
    (ts : List MultiStep) (hsch : ImplicitSchedule last (t :: ts)) :
    ∃ last', MultiInv last' (H ++ o.toList) s' ∧ ImplicitSchedule last' ts := by
  cases t with
  | begin c u =>
    obtain ⟨himp, hcl, hla, hrest⟩ := hsch
    simp only [MultiGen.step] at hs
    split at hs
    case h_2 => cases hs
    rename_i hpc
    simp only [himp, Bool.false_eq_true, if_false, hcl] at hs
    refine ⟨_, ?_, hrest⟩
    -- the case "a new value is needed"
    have hneed : (∀ m, s.cgIter c = some m → m < u.cnt.iter) →
        MultiInv (fun x => if x = c then u.cnt.iter else last x) (H ++ [])
          ({ s with pc := setPc s.pc c (.wantGen u.cnt) } : MultiGen (G × Nat) V) := by
      intro hlt
      simp only [List.append_nil]
      refine ⟨?_, ?_, h.none_, ?_, h.isSome, h.nodup, h.covered, h.same, ?_⟩
      · intro c' cnt hc'
        simp only [setPc] at hc'
        split at hc'
        · rename_i he
          cases hc'; subst he
          exact ⟨hcl, by simp, hlt⟩
        · rename_i he
          simp only [if_neg he]
          exact h.pcClient c' cnt hc'
      · intro c' cnt v hc'
        simp only [setPc] at hc'
        split at hc'
        · cases hc'
        · rename_i he
          simp only [if_neg he]
          exact h.pcStore c' cnt v hc'
      · intro c' m hm
        have := h.some_ c' m hm
        refine ⟨?_, this.2⟩
        by_cases he : c' = c
        · subst he; simp; omega
        · simp [he, this.1]
      · obtain ⟨L, hL, hm, hg⟩ := h.calls
        refine ⟨L, hL, ?_, hg⟩
        intro c'
        rw [hm c']
        simp only [setPc]
        by_cases he : c' = c
        · subst he; simp [hpc]
        · simp [he]
    split at hs
    · rename_i hci
      simp only [Option.some.injEq, Prod.mk.injEq] at hs
      obtain ⟨rfl, rfl⟩ := hs
      exact hneed (by simp [hci])
    · rename_i prev hci
      split at hs
      · rename_i hgt
        simp only [Option.some.injEq, Prod.mk.injEq] at hs
        obtain ⟨rfl, rfl⟩ := hs
        exact hneed (by intro m hm; rw [hci] at hm; cases hm; exact hgt)
      · rename_i hgt
        simp only [Option.some.injEq, Prod.mk.injEq] at hs
        obtain ⟨rfl, rfl⟩ := hs
        obtain ⟨h1, ⟨v, hv⟩, h3, h4⟩ := h.some_ c prev hci
        have hit : u.cnt.iter = prev := by omega
        have hlast : ∀ x, (if x = c then u.cnt.iter else last x) = last x := by
          intro x; split
          · rename_i he; subst he; omega
          · rfl
        have hfun : (fun x => if x = c then u.cnt.iter else last x) = last := funext hlast
        rw [hfun]
        simp only [Option.toList]
        have hfp : freshPairs (H ++ [(⟨c, u.cnt.iter, false, s.cgVals c⟩ : UseObs V)])
            = freshPairs H := by rw [freshPairs_append]; simp [freshPairs]
        refine ⟨h.pcClient, h.pcStore, ?_, ?_, ?_, by rw [hfp]; exact h.nodup, ?_, ?_, ?_⟩
        · intro c' hc' o ho
          rcases List.mem_append.1 ho with ho | ho
          · exact h.none_ c' hc' o ho
          · simp at ho; subst ho
            intro he
            simp only at he
            subst he
            rw [hci] at hc'; cases hc'
        · intro c' m hm
          obtain ⟨g1, g2, g3, g4⟩ := h.some_ c' m hm
          refine ⟨g1, g2, by rw [hfp]; exact g3, ?_⟩
          intro o ho hoc
          rcases List.mem_append.1 ho with ho | ho
          · exact g4 o ho hoc
          · simp at ho; subst ho
            simp only at hoc
            subst hoc
            rw [hci] at hm; cases hm
            exact ⟨by simp only; omega, fun _ => rfl⟩
        · intro o ho
          rcases List.mem_append.1 ho with ho | ho
          · exact h.isSome o ho
          · simp at ho; subst ho; simp [hv]
        · intro o ho
          rw [hfp]
          rcases List.mem_append.1 ho with ho | ho
          · exact h.covered o ho
          · simp at ho; subst ho
            simp only [hit]
            exact h3
        · rw [List.pairwise_append]
          refine ⟨h.same, by simp, ?_⟩
          intro x hx y hy
          simp at hy; subst hy
          simp only
          intro e1 e2
          exact (h4 x hx e1).2 (by omega)
        · rw [hfp]; exact h.calls
  | gen c =>
    simp only [MultiGen.step] at hs
    split at hs
    case h_2 => cases hs
    rename_i cnt hpc
    simp only [Option.some.injEq, Prod.mk.injEq] at hs
    obtain ⟨rfl, rfl⟩ := hs
    refine ⟨last, ?_, hsch⟩
    simp only [Option.toList, List.append_nil]
    have hw := h.pcClient c cnt hpc
    refine ⟨?_, ?_, h.none_, h.some_, h.isSome, h.nodup, h.covered, h.same, ?_⟩
    · intro c' cnt' hc'
      simp only [setPc] at hc'
      split at hc'
      · cases hc'
      · exact h.pcClient c' cnt' hc'
    · intro c' cnt' v hc'
      simp only [setPc] at hc'
      split at hc'
      · rename_i he; subst he; cases hc'; exact hw
      · exact h.pcStore c' cnt' v hc'
    · obtain ⟨L, hL, hm, hg⟩ := h.calls
      refine ⟨c :: L, ?_, ?_, ?_⟩
      · refine List.nodup_cons.2 ⟨?_, hL⟩
        rw [hm c, hpc]; simp
      · intro c'
        simp only [List.mem_cons, setPc]
        by_cases he : c' = c
        · subst he; simp
        · simp [he, hm c']
      · simp [counted, hg]; omega
  | store c =>
    simp only [MultiGen.step] at hs
    split at hs
    case h_2 => cases hs
    rename_i cnt v hpc
    simp only [Option.some.injEq, Prod.mk.injEq] at hs
    obtain ⟨rfl, rfl⟩ := hs
    refine ⟨last, ?_, hsch⟩
    obtain ⟨hcl, hil, hlt⟩ := h.pcStore c cnt v hpc
    simp only [Option.toList, hcl]
    have hfp : freshPairs (H ++ [(⟨c, cnt.iter, true, some v⟩ : UseObs V)])
        = freshPairs H ++ [(c, cnt.iter)] := by rw [freshPairs_append]; simp [freshPairs]
    have hold : ∀ o ∈ H, o.client = c → o.iter < cnt.iter := by
      intro o ho hoc
      cases hci : s.cgIter c with
      | none => exact absurd hoc (h.none_ c hci o ho)
      | some m =>
        have := ((h.some_ c m hci).2.2.2 o ho hoc).1
        have := hlt m hci
        omega
    refine ⟨?_, ?_, ?_, ?_, ?_, ?_, ?_, ?_, ?_⟩
    · intro c' cnt' hc'
      simp only [setPc] at hc'
      split at hc'
      · cases hc'
      · rename_i he
        simp only [GoMap.set, if_neg he]
        exact h.pcClient c' cnt' hc'
    · intro c' cnt' v' hc'
      simp only [setPc] at hc'
      split at hc'
      · cases hc'
      · rename_i he
        simp only [GoMap.set, if_neg he]
        exact h.pcStore c' cnt' v' hc'
    · intro c' hc' o ho
      simp only [GoMap.set] at hc'
      split at hc'
      · cases hc'
      · rename_i he
        rcases List.mem_append.1 ho with ho | ho
        · exact h.none_ c' hc' o ho
        · simp at ho; subst ho; exact fun e => he e.symm
    · intro c' m hm
      simp only [GoMap.set] at hm ⊢
      split at hm
      · rename_i he; subst he; cases hm
        refine ⟨hil, ⟨v, by simp⟩, by rw [hfp]; simp, ?_⟩
        intro o ho hoc
        rcases List.mem_append.1 ho with ho | ho
        · have := hold o ho hoc
          exact ⟨by omega, fun e => by omega⟩
        · simp at ho; subst ho; simp
      · rename_i he
        obtain ⟨g1, g2, g3, g4⟩ := h.some_ c' m hm
        simp only [if_neg he]
        refine ⟨g1, g2, by rw [hfp]; exact List.mem_append_left _ g3, ?_⟩
        intro o ho hoc
        rcases List.mem_append.1 ho with ho | ho
        · exact g4 o ho hoc
        · simp at ho; subst ho; exact absurd hoc.symm he
    · intro o ho
      rcases List.mem_append.1 ho with ho | ho
      · exact h.isSome o ho
      · simp at ho; subst ho; simp
    · rw [hfp]
      refine List.nodup_append.2 ⟨h.nodup, by simp, ?_⟩
      intro a ha b hb he
      simp at hb
      subst hb; subst he
      simp only [freshPairs, List.mem_map, List.mem_filter] at ha
      obtain ⟨o, ⟨ho, _⟩, he⟩ := ha
      simp only [Prod.mk.injEq] at he
      have := hold o ho he.1
      omega
    · intro o ho
      rw [hfp]
      rcases List.mem_append.1 ho with ho | ho
      · exact List.mem_append_left _ (h.covered o ho)
      · simp at ho; subst ho; simp
    · rw [List.pairwise_append]
      refine ⟨h.same, by simp, ?_⟩
      intro x hx y hy e1 e2
      simp at hy; subst hy
      have := hold x hx e1
      simp only at e2
      omega
    · obtain ⟨L, hL, hm, hg⟩ := h.calls
      have hcL : c ∈ L := (hm c).2 ⟨_, _, hpc⟩
      refine ⟨L.erase c, hL.erase c, ?_, ?_⟩
      · intro c'
        rw [hL.mem_erase_iff, hm c']
        simp only [setPc]
        by_cases he : c' = c
        · subst he; simp
        · simp [he]
      · rw [hfp]
        have := List.length_erase_of_mem hcL
        have hpos : 0 < L.length := List.length_pos_of_mem hcL
        simp only [List.length_append, List.length_cons, List.length_nil]
        omega

theorem multiInv_run (f : GenFun G V) :
    ∀ (ts : List MultiStep) {last : Nat → Nat} {H : List (UseObs V)}
    {s s' : MultiGen (G × Nat) V} {obs}, MultiInv last H s →
    ImplicitSchedule last ts → s.runSteps (counted f) ts = some (s', obs) →
    ∃ last', MultiInv last' (H ++ obs) s' := by
  intro ts
  induction ts with
  | nil =>
    intro last H s s' obs h _ hr
    simp only [MultiGen.runSteps, Option.some.injEq, Prod.mk.injEq] at hr
    obtain ⟨rfl, rfl⟩ := hr
    exact ⟨last, by simpa using h⟩
  | cons t ts ih =>
    intro last H s s' obs h hsch hr
    simp only [MultiGen.runSteps] at hr
    split at hr
    · cases hr
    rename_i s1 o hs
    split at hr
    · cases hr
    rename_i s2 os hr'
    simp only [Option.some.injEq, Prod.mk.injEq] at hr
    obtain ⟨rfl, rfl⟩ := hr
    obtain ⟨last', h1, h2⟩ := multiInv_step f h hs ts hsch
    obtain ⟨l, h3⟩ := ih h1 h2 hr'
    exact ⟨l, by simpa using h3⟩

/-- **C05.** For every schedule of any number of clients with distinct client numbers (the clients
of a client group), interleaved at the level of lock sections and generator calls: every use
returns values; uses of one client in one iteration return the same values, no matter what other
clients do in between; each (client, iteration) pair that used the key called the generator in
exactly one use; and once no use is in progress the total number of generator calls equals the
number of such pairs. -/
theorem C05_client_group_scope (f : GenFun G V) (g : G) (ts : List MultiStep)
    (hsch : ImplicitSchedule (fun _ => 0) ts) (s' : MultiGen (G × Nat) V)
    (obs : List (UseObs V))
    (hrun : (MultiGen.new (g, 0) : MultiGen (G × Nat) V).runSteps (counted f) ts
      = some (s', obs)) :
    (∀ o ∈ obs, o.out.isSome) ∧
    obs.Pairwise (fun x y => x.client = y.client → x.iter = y.iter → x.out = y.out) ∧
    (freshPairs obs).Nodup ∧ (∀ o ∈ obs, (o.client, o.iter) ∈ freshPairs obs) ∧
    ((∀ c, s'.pc c = .idle) → s'.g.2 = (freshPairs obs).length) := by
  obtain ⟨l, h⟩ := multiInv_run f ts (multiInv_new g (fun _ => 0)) hsch hrun
  simp only [List.nil_append] at h
  refine ⟨h.isSome, h.same, h.nodup, h.covered, ?_⟩
  intro hidle
  obtain ⟨L, _, hm, hg⟩ := h.calls
  have : L = [] := by
    apply List.eq_nil_iff_forall_not_mem.2
    intro c hc
    obtain ⟨cnt, v, hp⟩ := (hm c).1 hc
    rw [hidle c] at hp; cases hp
  rw [hg, this]; simp

/-- Non-vacuity: two clients whose uses overlap; client 2 generates between client 1's generator
call and its store. -/
def c05Demo : List MultiStep :=
  let rc := fun c i : Nat => (⟨1, 1, i, 1, c, 1, 1, 1⟩ : RunCount)
  [.begin 1 ⟨false, rc 1 1⟩, .gen 1, .begin 2 ⟨false, rc 2 1⟩, .gen 2, .store 1, .store 2,
   .begin 1 ⟨false, rc 1 1⟩, .begin 1 ⟨false, rc 1 2⟩, .gen 1, .store 1]

example : ImplicitSchedule (fun _ => 0) c05Demo ∧
    ((MultiGen.new (0, 0) : MultiGen (Nat × Nat) Nat).runSteps
      (counted (fun g _ => (g + 1, g + 1))) c05Demo).map (fun r => r.2.map (fun o => (o.client, o.out)))
      = some [(1, some 1), (2, some 2), (1, some 1), (1, some 3)] := by
  refine ⟨by simp [c05Demo, ImplicitSchedule], by decide⟩

/-- The step machine and the sequential model of `ScopedGenerator` agree: a use by an idle client
that is not interleaved with others (begin, and if needed gen, store) does exactly what
`ScopedGen.use` does. -/
theorem C05_uninterrupted_use_is_sequential_use (f : GenFun G V) (s : MultiGen G V)
    (st : ScopedGen G V) (hk : st.kind = .multi) (hg : st.g = s.g) (hi : st.cgIter = s.cgIter)
    (hv : st.cgVals = s.cgVals) (u : Use) (hpc : s.pc u.cnt.client = .idle) :
    let c := u.cnt.client
    let r := st.use f u
    (s.runSteps f [.begin c u]).map (fun x => (x.1.g, x.1.cgIter, x.1.cgVals, x.2.map (·.out)))
        = some (r.1.g, r.1.cgIter, r.1.cgVals, [r.2]) ∨
    (s.runSteps f [.begin c u, .gen c, .store c]).map
        (fun x => (x.1.g, x.1.cgIter, x.1.cgVals, x.2.map (·.out)))
        = some (r.1.g, r.1.cgIter, r.1.cgVals, [r.2]) := by
  cases he : u.explicit
  · cases hc : s.cgIter u.cnt.client with
    | none =>
      right
      simp [MultiGen.runSteps, MultiGen.step, hpc, he, hc, ScopedGen.use, ScopedGen.values,
        ScopedGen.call, hk, hg, hi, hv, setPc]
    | some m =>
      by_cases hm : m < u.cnt.iter
      · right
        simp [MultiGen.runSteps, MultiGen.step, hpc, he, hc, ScopedGen.use, ScopedGen.values,
          ScopedGen.call, hk, hg, hi, hv, setPc, hm]
      · left
        simp [MultiGen.runSteps, MultiGen.step, hpc, he, hc, ScopedGen.use, ScopedGen.values,
          hk, hg, hi, hv, hm]
  · right
    simp [MultiGen.runSteps, MultiGen.step, hpc, he, ScopedGen.use, 
      ScopedGen.call, hk, hg, hi, hv, setPc]

/-! ### C06 -/

/-- **C06 (negation).** With exec-group or workload scope, clients of different client groups are
not independent: client numbers start at 1 in every client group and are the only key of the
generator's memory, so client 1 of group 2 gets the values generated for client 1 of group 1 in
the same iteration number, and the generator is not called for it. -/
theorem C06_clients_of_different_groups_interfere (f : GenFun G V) (s : Scope)
    (hs : s = .execGroup ∨ s = .workload) (g : G) (n i : Nat) (a b : RunCount)
    (ha : a.client = n ∧ a.clientGroup = 1 ∧ a.iter = i)
    (hb : b.client = n ∧ b.clientGroup = 2 ∧ b.iter = i) :
    let st1 := (ScopedGen.new s (g, 0) : ScopedGen (G × Nat) V).values (counted f) a
    let st2 := st1.1.values (counted f) b
    st2.2 = st1.2 ∧ st2.1.g.2 = 1 := by
  have hk : genKind s = .multi := by rcases hs with h | h <;> subst h <;> rfl
  have hba : b.client = a.client := by omega
  have hlt : ¬ (b.iter > a.iter) := by omega
  simp [ScopedGen.values, ScopedGen.call, ScopedGen.new, hk, hba, hlt, counted]

example : ∃ a b : RunCount, (a.client = 1 ∧ a.clientGroup = 1 ∧ a.iter = 1) ∧
    (b.client = 1 ∧ b.clientGroup = 2 ∧ b.iter = 1) :=
  ⟨⟨1, 1, 1, 1, 1, 1, 1, 1⟩, ⟨1, 1, 1, 1, 1, 2, 1, 1⟩, by simp, by simp⟩

/-- **C06 (partial).** Exec-group and workload scope are implemented by the same machine as
client-group scope, so they have all guarantees of C05 among clients whose client numbers differ.
Missing for the full claim: equally numbered clients of different client groups, for which
`C06_clients_of_different_groups_interfere` shows the opposite. -/
theorem C06_distinct_numbers_independent_partial (s : Scope)
    (hs : s = .clientGroup ∨ s = .execGroup ∨ s = .workload)
    (f : GenFun G V) (st : ScopedGen G V) (hst : st.kind = genKind s) (a b : RunCount)
    (hne : a.client ≠ b.client) :
    let st1 := (st.values f a).1
    -- a use by one client changes nothing in what is remembered for the other
    st1.cgIter b.client = st.cgIter b.client ∧ st1.cgVals b.client = st.cgVals b.client := by
  have hk : genKind s = .multi := by rcases hs with h | h | h <;> subst h <;> rfl
  rw [hk] at hst
  simp only [ScopedGen.values, hst]
  split
  · simp [ScopedGen.call, hst, GoMap.set, Ne.symm hne]
  · split
    · simp [ScopedGen.call, hst, GoMap.set, Ne.symm hne]
    · simp

example : ∃ a b : RunCount, a.client ≠ b.client ∧ a.iter = b.iter :=
  ⟨⟨1, 1, 1, 1, 1, 1, 1, 1⟩, ⟨1, 1, 1, 1, 2, 1, 1, 1⟩, by decide, rfl⟩

/-! ### C07 -/

/-- **C07 (negation).** With stage or global scope no implicit use ever calls the generator or
returns a value: the test for "already generated" is inverted (data/scope.go:251). -/
theorem C07_one_time_scope_never_generates (f : GenFun G V) (s : Scope)
    (hs : s = .stage ∨ s = .global) (g : G) (us : List Use)
    (hi : ∀ u ∈ us, u.explicit = false) :
    let r := (ScopedGen.new s (g, 0) : ScopedGen (G × Nat) V).uses (counted f) us
    (∀ o ∈ r.2, o = none) ∧ r.2.length = us.length ∧ r.1.g.2 = 0 := by
  have hk : genKind s = .oneTime := by rcases hs with h | h <;> subst h <;> rfl
  have gen : ∀ (us : List Use) (st : ScopedGen (G × Nat) V), (∀ u ∈ us, u.explicit = false) →
      st.kind = .oneTime → st.vals = none →
      (∀ o ∈ (st.uses (counted f) us).2, o = none) ∧
      (st.uses (counted f) us).2.length = us.length ∧ (st.uses (counted f) us).1.g = st.g := by
    intro us
    induction us with
    | nil => intro st _ _ _; simp [ScopedGen.uses]
    | cons u us ih =>
      intro st hi hk hv
      have hu : st.use (counted f) u = (st, none) := by
        simp [ScopedGen.use, hi u (by simp), ScopedGen.values, hk, hv]
      simp only [ScopedGen.uses, hu]
      have := ih st (fun x hx => hi x (List.mem_cons_of_mem _ hx)) hk hv
      simp only [List.mem_cons, List.length_cons]
      exact ⟨fun o ho => ho.elim id (this.1 o), by rw [this.2.1], this.2.2⟩
  have := gen us (ScopedGen.new s (g, 0)) hi (by simp [ScopedGen.new, hk])
    (by simp [ScopedGen.new])
  exact ⟨this.1, this.2.1, by rw [this.2.2]; rfl⟩

/-- **C07 (negation, second half).** After an explicit use, every implicit use of a stage- or
global-scoped key calls the generator again instead of returning the one value. -/
theorem C07_one_time_scope_regenerates_after_explicit_call (f : GenFun G V) (s : Scope)
    (hs : s = .stage ∨ s = .global) (g : G) (c : RunCount) (us : List Use)
    (hi : ∀ u ∈ us, u.explicit = false) :
    ((ScopedGen.new s (g, 0) : ScopedGen (G × Nat) V).uses (counted f) (⟨true, c⟩ :: us)).1.g.2
      = us.length + 1 := by
  have hk : genKind s = .oneTime := by rcases hs with h | h <;> subst h <;> rfl
  have gen : ∀ (us : List Use) (st : ScopedGen (G × Nat) V), (∀ u ∈ us, u.explicit = false) →
      st.kind = .oneTime → st.vals.isSome →
      (st.uses (counted f) us).1.g.2 = st.g.2 + us.length := by
    intro us
    induction us with
    | nil => intro st _ _ _; simp [ScopedGen.uses]
    | cons u us ih =>
      intro st hi hk hv
      simp only [ScopedGen.uses]
      have h1 : (st.use (counted f) u).1.kind = .oneTime ∧
          (st.use (counted f) u).1.vals.isSome ∧ (st.use (counted f) u).1.g.2 = st.g.2 + 1 := by
        simp [ScopedGen.use, hi u (by simp), ScopedGen.values, ScopedGen.call, hk, hv, counted]
      rw [ih _ (fun x hx => hi x (List.mem_cons_of_mem _ hx)) h1.1 h1.2.1, h1.2.2]
      simp; omega
  simp only [ScopedGen.uses]
  have h1 : ((ScopedGen.new s (g, 0) : ScopedGen (G × Nat) V).use (counted f) ⟨true, c⟩).1.kind
      = .oneTime ∧
      ((ScopedGen.new s (g, 0) : ScopedGen (G × Nat) V).use (counted f) ⟨true, c⟩).1.vals.isSome ∧
      ((ScopedGen.new s (g, 0) : ScopedGen (G × Nat) V).use (counted f) ⟨true, c⟩).1.g.2 = 1 := by
    simp [ScopedGen.use, ScopedGen.call, ScopedGen.new, hk, counted]
  rw [gen us _ hi h1.1 h1.2.1, h1.2.2]
  omega

/-- **C07 (partial).** What does hold for stage and global scope: an explicit use returns a newly
generated value. Missing: any implicit use, see the two negations above. -/
theorem C07_one_time_explicit_use_partial (f : GenFun G V) (s : Scope)
    (hs : s = .stage ∨ s = .global) (g : G) (c : RunCount) :
    ((ScopedGen.new s g : ScopedGen G V).use f ⟨true, c⟩).2 = some (f g c).2 := by
  have hk : genKind s = .oneTime := by rcases hs with h | h <;> subst h <;> rfl
  simp [ScopedGen.use, ScopedGen.call, ScopedGen.new, hk]

/-- Non-vacuity: one explicit use followed by two implicit uses makes three generator calls; two
implicit uses alone make none. -/
example : ((ScopedGen.new .stage (0, 0) : ScopedGen (Nat × Nat) Nat).uses
      (counted (fun g _ => (g + 1, g + 1)))
      [⟨true, ⟨1, 1, 1, 1, 1, 1, 1, 1⟩⟩, ⟨false, ⟨2, 1, 1, 1, 1, 1, 1, 1⟩⟩,
       ⟨false, ⟨3, 1, 1, 1, 1, 1, 1, 1⟩⟩]).2 = [some 1, some 2, some 3] ∧
    ((ScopedGen.new .stage (0, 0) : ScopedGen (Nat × Nat) Nat).uses
      (counted (fun g _ => (g + 1, g + 1)))
      [⟨false, ⟨2, 1, 1, 1, 1, 1, 1, 1⟩⟩, ⟨false, ⟨3, 1, 1, 1, 1, 1, 1, 1⟩⟩]).2 = [none, none] := by
  decide

end Finch
