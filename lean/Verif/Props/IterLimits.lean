import Verif.Model.Client
import Mathlib.Algebra.BigOperators.Group.Finset.Basic
import Mathlib.Algebra.Order.BigOperators.Group.Finset
/-!
# C44: iteration limits under concurrency

Clients `0 … N - 1` of one execution group, each making steps at any time.
-/
namespace Finch

open Finset

theorem sum_upd {N c : Nat} (hc : c < N) (f f' : Nat → Nat) (h : ∀ x, x ≠ c → f' x = f x) :
    ∑ x ∈ range N, f' x + f c = ∑ x ∈ range N, f x + f' c := by
  have hm : c ∈ range N := mem_range.mpr hc
  rw [← add_sum_erase _ f hm, ← add_sum_erase _ f' hm]
  have : ∑ x ∈ (range N).erase c, f' x = ∑ x ∈ (range N).erase c, f x :=
    sum_congr rfl (fun x hx => h x (ne_of_mem_erase hx))
  omega

theorem sum_lt_of {N c : Nat} (hc : c < N) (f : Nat → Nat) (h1 : ∀ x, f x ≤ 1) (h0 : f c = 0) :
    ∑ x ∈ range N, f x < N := by
  have : ∑ x ∈ range N, f x < ∑ x ∈ range N, 1 :=
    sum_lt_sum (fun x _ => h1 x) ⟨c, mem_range.mpr hc, by omega⟩
  simpa using this

/-! ### One shared counter -/

/-- What a step of client `c` does to a counter, to the iterations `w` begun or about to begin, and
to the clients `st` that are stopped: nothing that matters, pass the counter, or be stopped by it. -/
inductive CountStep (L : Nat) (cnt cnt' : Nat) (w w' st st' : Nat) : Prop where
  | other (h1 : cnt' = cnt) (h2 : w' ≤ w) (h3 : st ≤ st')
  | pass (h1 : cnt' = u32 (cnt + 1)) (h2 : cnt' ≤ L) (h3 : w' = w + 1) (h4 : st = 0) (h5 : st' = 0)
  | reject (h1 : cnt' = u32 (cnt + 1)) (h2 : w' = w) (h3 : st = 0) (h4 : st' = 1)

/-- Invariant of a counter. -/
structure CountInv (N L cnt : Nat) (w st : Nat → Nat) : Prop where
  count : ∑ c ∈ range N, w c ≤ cnt
  limit : ∑ c ∈ range N, w c ≤ L
  stopped : cnt ≤ L + ∑ c ∈ range N, st c

theorem CountInv.step {N L cnt cnt' : Nat} {w w' st st' : Nat → Nat} (hN : L + N < 2 ^ 32)
    (h1 : ∀ x, st x ≤ 1) {c : Nat} (hc : c < N) (hw : ∀ x, x ≠ c → w' x = w x)
    (hst : ∀ x, x ≠ c → st' x = st x) (h : CountInv N L cnt w st)
    (he : CountStep L cnt cnt' (w c) (w' c) (st c) (st' c)) : CountInv N L cnt' w' st' := by
  have s1 := sum_upd hc w w' hw
  have s2 := sum_upd hc st st' hst
  obtain ⟨i1, i2, i3⟩ := h
  cases he with
  | other e1 e2 e3 => exact ⟨by omega, by omega, by omega⟩
  | pass e1 e2 e3 e4 e5 =>
    have := sum_lt_of hc st h1 e4
    rw [u32, Nat.mod_eq_of_lt (by omega)] at e1
    exact ⟨by omega, by omega, by omega⟩
  | reject e1 e2 e3 e4 =>
    have := sum_lt_of hc st h1 e3
    rw [u32, Nat.mod_eq_of_lt (by omega)] at e1
    exact ⟨by omega, by omega, by omega⟩

/-- If nothing else stops clients: every value of the counter up to the limit is an iteration. -/
structure CountExact (N L cnt : Nat) (w st : Nat → Nat) : Prop where
  count : ∑ c ∈ range N, w c = min cnt L
  stopped : 0 < ∑ c ∈ range N, st c → L < cnt
  bound : cnt ≤ L + ∑ c ∈ range N, st c

inductive ExactStep (L : Nat) (cnt cnt' : Nat) (w w' st st' : Nat) : Prop where
  | other (h1 : cnt' = cnt) (h2 : w' = w) (h3 : st' = st)
  | pass (h1 : cnt' = u32 (cnt + 1)) (h2 : cnt' ≤ L) (h3 : w' = w + 1) (h4 : st = 0) (h5 : st' = 0)
  | reject (h1 : cnt' = u32 (cnt + 1)) (h2 : L < cnt') (h3 : w' = w) (h4 : st = 0) (h5 : st' = 1)

theorem CountExact.step {N L cnt cnt' : Nat} {w w' st st' : Nat → Nat} (hN : L + N < 2 ^ 32)
    (h1 : ∀ x, st x ≤ 1) {c : Nat} (hc : c < N) (hw : ∀ x, x ≠ c → w' x = w x)
    (hst : ∀ x, x ≠ c → st' x = st x) (h : CountExact N L cnt w st)
    (he : ExactStep L cnt cnt' (w c) (w' c) (st c) (st' c)) : CountExact N L cnt' w' st' := by
  have s1 := sum_upd hc w w' hw
  have s2 := sum_upd hc st st' hst
  obtain ⟨i1, i2, i3⟩ := h
  cases he with
  | other e1 e2 e3 => exact ⟨by omega, fun h => by have := i2 (by omega); omega, by omega⟩
  | pass e1 e2 e3 e4 e5 =>
    have := sum_lt_of hc st h1 e4
    rw [u32, Nat.mod_eq_of_lt (by omega)] at e1
    exact ⟨by omega, fun h => by have := i2 (by omega); omega, by omega⟩
  | reject e1 e2 e3 e4 e5 =>
    have := sum_lt_of hc st h1 e4
    rw [u32, Nat.mod_eq_of_lt (by omega)] at e1
    exact ⟨by omega, fun _ => by omega, by omega⟩

/-! ### Steps of the machine -/

theorem upd_same {α : Type} (f : Nat → α) (i : Nat) (v : α) : upd f i v i = v := by simp [upd]

theorem upd_ne {α : Type} (f : Nat → α) {i x : Nat} (v : α) (h : x ≠ i) : upd f i v x = f x := by
  simp [upd, h]

theorem step_others (g : IterCfg) (s : IState) (c : Nat) (again : Bool) :
    (∀ x, x ≠ c → (s.step g c again).pc x = s.pc x) ∧
    (∀ x, x ≠ c → (s.step g c again).done x = s.done x) := by
  unfold IState.step
  constructor <;> intro x hx <;> (repeat' split) <;> first | rfl | simp [upd_ne _ _ hx]

/-- Iterations begun, or passed at the counter of the execution group and about to begin. -/
def egW (s : IState) (c : Nat) : Nat :=
  s.done c + (if s.pc c = .atCG ∨ s.pc c = .atIter then 1 else 0)

def cgW (s : IState) (c : Nat) : Nat := s.done c + (if s.pc c = .atIter then 1 else 0)

def stopW (s : IState) (c : Nat) : Nat := if s.pc c = .stopped then 1 else 0

theorem eg_step (g : IterCfg) (s : IState) (c : Nat) (again : Bool) {L : Nat}
    (hL : g.egLimit c ≤ L) (hpos : 0 < g.egLimit c) :
    CountStep L s.egCount (s.step g c again).egCount (egW s c) (egW (s.step g c again) c)
      (stopW s c) (stopW (s.step g c again) c) := by
  unfold IState.step
  cases hpc : s.pc c
  · simp only [hpos, gt_iff_lt, if_true]
    by_cases hgt : g.egLimit c < u32 (s.egCount + 1)
    · exact .reject rfl (by simp [egW, hpc, hgt, upd_same]) (by simp [stopW, hpc])
        (by simp [stopW, hgt, upd_same])
    · exact .pass rfl (by show u32 (s.egCount + 1) ≤ L; omega)
        (by simp [egW, hpc, hgt, upd_same]) (by simp [stopW, hpc]) (by simp [stopW, hgt, upd_same])
  · refine .other ?_ ?_ ?_ <;> (try dsimp only) <;> (repeat' split) <;>
      simp_all [egW, stopW, upd_same]
  · refine .other ?_ ?_ ?_ <;> (try dsimp only) <;> (repeat' split) <;>
      simp_all [egW, stopW, upd_same]
  · refine .other ?_ ?_ ?_ <;> (try dsimp only) <;> (repeat' split) <;>
      simp_all [egW, stopW, upd_same]
  · refine .other ?_ ?_ ?_ <;> rfl

theorem eg_step_unlimited (g : IterCfg) (s : IState) (c : Nat) (again : Bool)
    (h0 : g.egLimit c = 0) : (s.step g c again).egCount = s.egCount := by
  unfold IState.step
  (repeat' split) <;> first | rfl | omega

theorem cg_step (g : IterCfg) (s : IState) (c : Nat) (again : Bool) {L : Nat}
    (hL : g.cgLimit c ≤ L) (hpos : 0 < g.cgLimit c) :
    CountStep L (s.cgCount (g.cg c)) ((s.step g c again).cgCount (g.cg c)) (cgW s c)
      (cgW (s.step g c again) c) (stopW s c) (stopW (s.step g c again) c) := by
  unfold IState.step
  cases hpc : s.pc c
  · refine .other ?_ ?_ ?_ <;> (try dsimp only) <;> (repeat' split) <;>
      simp_all [cgW, stopW, upd_same]
  · simp only [hpos, gt_iff_lt, if_true]
    by_cases hgt : g.cgLimit c < u32 (s.cgCount (g.cg c) + 1)
    · exact .reject (by simp [upd_same]) (by simp [cgW, hpc, hgt, upd_same]) (by simp [stopW, hpc])
        (by simp [stopW, hgt, upd_same])
    · exact .pass (by simp [upd_same]) (by simp only [upd_same]; omega)
        (by simp [cgW, hpc, hgt, upd_same]) (by simp [stopW, hpc]) (by simp [stopW, hgt, upd_same])
  · refine .other ?_ ?_ ?_ <;> (try dsimp only) <;> (repeat' split) <;>
      simp_all [cgW, stopW, upd_same]
  · refine .other ?_ ?_ ?_ <;> (try dsimp only) <;> (repeat' split) <;>
      simp_all [cgW, stopW, upd_same]
  · refine .other ?_ ?_ ?_ <;> rfl

theorem cg_step_other (g : IterCfg) (s : IState) (c : Nat) (again : Bool) (k : Nat)
    (h0 : g.cgLimit c = 0 ∨ g.cg c ≠ k) : (s.step g c again).cgCount k = s.cgCount k := by
  unfold IState.step
  (repeat' split) <;> try rfl
  rcases h0 with h | h
  · omega
  · exact upd_ne _ _ (fun he => h he.symm)

/-! ### Properties -/

/-- Spec: iterations begun by the clients for which `p` holds. -/
def iterations (N : Nat) (p : Nat → Prop) [DecidablePred p] (s : IState) : Nat :=
  ∑ c ∈ range N, if p c then s.done c else 0

/-- Spec: a schedule of clients `0 … N - 1`. -/
def Schedule (N : Nat) (l : List (Nat × Bool)) : Prop := ∀ x ∈ l, x.1 < N

theorem IState.run_inv {g : IterCfg} {N : Nat} {P : IState → Prop} {l : List (Nat × Bool)}
    (hl : Schedule N l) (hstep : ∀ s c b, c < N → (c, b) ∈ l → P s → P (s.step g c b)) :
    ∀ s, P s → P (s.run g l) := by
  induction l with
  | nil => intro s h; exact h
  | cons x l ih =>
    intro s h
    obtain ⟨c, b⟩ := x
    exact ih (fun y hy => hl y (by simp [hy]))
      (fun s c' b' hc' hm => hstep s c' b' hc' (List.mem_cons_of_mem _ hm)) _
      (hstep s c b (hl (c, b) (by simp)) (by simp) h)

/-- **C44, one client.** A client with an `iter` limit never begins more iterations than that, for
every schedule. -/
theorem C44_iter_limit (g : IterCfg) (N : Nat) (l : List (Nat × Bool)) (hl : Schedule N l) (c : Nat)
    (hpos : 0 < g.iter c) : (IState.init.run g l).done c ≤ g.iter c := by
  refine IState.run_inv (P := fun s => s.done c ≤ g.iter c) hl ?_ _ (Nat.zero_le _)
  intro s c' b _ _ h
  unfold IState.step
  (repeat' split) <;> try exact h
  rename_i hne
  by_cases hc : c = c'
  · subst hc
    show upd s.done c _ c ≤ _
    rw [upd_same]
    have : s.done c ≠ g.iter c := fun h => hne ⟨hpos, h⟩
    omega
  · show upd s.done c' _ c ≤ _
    rw [upd_ne _ _ hc]
    exact h

theorem maskedSum (N : Nat) (p : Nat → Prop) [DecidablePred p] (s : IState) (w : Nat → Nat)
    (h : ∀ c, s.done c ≤ w c) : iterations N p s ≤ ∑ c ∈ range N, if p c then w c else 0 := by
  refine sum_le_sum (fun c _ => ?_)
  split
  · exact h c
  · exact Nat.le_refl _

/-- **C44, execution group.** The clients that have an iter-exec-group limit of at most `L` together
never begin more than `L` iterations, for every schedule, every number of clients `N` and whatever
other limits there are and other reasons for clients to stop, as long as the 32-bit counter cannot
overflow. -/
theorem C44_exec_group_limit_partial (g : IterCfg) (N L : Nat) (hN : L + N < 2 ^ 32)
    (hL : ∀ c, c < N → g.egLimit c ≤ L) (l : List (Nat × Bool)) (hl : Schedule N l) :
    iterations N (fun c => 0 < g.egLimit c) (IState.init.run g l) ≤ L := by
  have key := IState.run_inv (g := g)
    (P := fun s => CountInv N L s.egCount (fun c => if 0 < g.egLimit c then egW s c else 0)
      (fun c => if 0 < g.egLimit c then stopW s c else 0)) hl ?_ IState.init ?_
  · refine Nat.le_trans (maskedSum N _ _ (egW (IState.init.run g l)) ?_) key.limit
    intro c; exact Nat.le_add_right _ _
  · intro s c b hc _ h
    obtain ⟨o1, o2⟩ := step_others g s c b
    refine CountInv.step hN ?_ hc ?_ ?_ h ?_
    · intro x; split
      · unfold stopW; split <;> omega
      · omega
    · intro x hx; simp only [egW, o1 x hx, o2 x hx]
    · intro x hx; simp only [stopW, o1 x hx]
    · by_cases hpos : 0 < g.egLimit c
      · simp only [hpos, if_true]
        exact eg_step g s c b (hL c hc) hpos
      · simp only [hpos, if_false]
        exact .other (eg_step_unlimited g s c b (by omega)) (Nat.le_refl _) (Nat.le_refl _)
  · constructor <;> simp [IState.init, egW, stopW]

/-- **C44, client group.** The clients of client group `k` that have an iter-clients limit of at most
`L` together never begin more than `L` iterations. -/
theorem C44_client_group_limit_partial (g : IterCfg) (N L k : Nat) (hN : L + N < 2 ^ 32)
    (hL : ∀ c, c < N → g.cg c = k → g.cgLimit c ≤ L) (l : List (Nat × Bool)) (hl : Schedule N l) :
    iterations N (fun c => g.cg c = k ∧ 0 < g.cgLimit c) (IState.init.run g l) ≤ L := by
  have key := IState.run_inv (g := g)
    (P := fun s => CountInv N L (s.cgCount k)
      (fun c => if g.cg c = k ∧ 0 < g.cgLimit c then cgW s c else 0)
      (fun c => if g.cg c = k ∧ 0 < g.cgLimit c then stopW s c else 0)) hl ?_ IState.init ?_
  · refine Nat.le_trans (maskedSum N _ _ (cgW (IState.init.run g l)) ?_) key.limit
    intro c; exact Nat.le_add_right _ _
  · intro s c b hc _ h
    obtain ⟨o1, o2⟩ := step_others g s c b
    refine CountInv.step hN ?_ hc ?_ ?_ h ?_
    · intro x; split
      · unfold stopW; split <;> omega
      · omega
    · intro x hx; simp only [cgW, o1 x hx, o2 x hx]
    · intro x hx; simp only [stopW, o1 x hx]
    · by_cases hpos : g.cg c = k ∧ 0 < g.cgLimit c
      · simp only [hpos, and_self, if_true]
        have := cg_step g s c b (hL c hc hpos.1) hpos.2
        rwa [hpos.1] at this
      · simp only [hpos, if_false]
        refine .other (cg_step_other g s c b k ?_) (Nat.le_refl _) (Nat.le_refl _)
        by_cases hk : g.cg c = k
        · left
          have : ¬ 0 < g.cgLimit c := fun h => hpos ⟨hk, h⟩
          omega
        · exact Or.inr hk
  · constructor <;> simp [IState.init, cgW, stopW]

/-- Spec: clients stop only because of limits. -/
def NeverStopsOtherwise (l : List (Nat × Bool)) : Prop := ∀ x ∈ l, x.2 = true

theorem all_stopped_sum {N : Nat} (hN : 0 < N) {s : IState} (h : ∀ c, c < N → s.pc c = .stopped) :
    0 < ∑ c ∈ range N, stopW s c := by
  have : ∑ c ∈ range N, stopW s c = ∑ c ∈ range N, 1 :=
    sum_congr rfl (fun c hc => by simp [stopW, h c (mem_range.mp hc)])
  rw [this]; simpa using hN

/-- **C44, exactness.** If an iter-exec-group limit `L` is the only limit and clients stop for no
other reason, then once all clients are stopped they have executed exactly `L` iterations. -/
theorem C44_exec_group_exact (g : IterCfg) (N L : Nat) (hN : L + N < 2 ^ 32) (h0 : 0 < N)
    (hpos : 0 < L) (hL : ∀ c, c < N → g.egLimit c = L) (hcg : ∀ c, c < N → g.cgLimit c = 0)
    (hit : ∀ c, c < N → g.iter c = 0) (l : List (Nat × Bool)) (hl : Schedule N l)
    (hn : NeverStopsOtherwise l) (hstop : ∀ c, c < N → (IState.init.run g l).pc c = .stopped) :
    ∑ c ∈ range N, (IState.init.run g l).done c = L := by
  have key := IState.run_inv (g := g)
    (P := fun s => CountExact N L s.egCount (egW s) (stopW s)) hl ?_ IState.init ?_
  · have h1 := key.stopped (all_stopped_sum h0 hstop)
    have h2 := key.count
    rw [Nat.min_eq_right (by omega)] at h2
    rw [← h2]
    exact sum_congr rfl (fun c hc => by simp [egW, hstop c (mem_range.mp hc)])
  · intro s c b hc hm h
    obtain ⟨o1, o2⟩ := step_others g s c b
    refine CountExact.step hN ?_ hc ?_ ?_ h ?_
    · intro x; unfold stopW; split <;> omega
    · intro x hx; simp only [egW, o1 x hx, o2 x hx]
    · intro x hx; simp only [stopW, o1 x hx]
    · have hb : b = true := hn _ hm
      have e1 := hL c hc
      have e2 := hcg c hc
      have e3 := hit c hc
      subst hb
      unfold IState.step
      cases hpc : s.pc c
      · simp only [e1, hpos, gt_iff_lt, if_true]
        by_cases hgt : L < u32 (s.egCount + 1)
        · exact .reject rfl hgt (by simp [egW, hpc, hgt, upd_same]) (by simp [stopW, hpc])
            (by simp [stopW, hgt, upd_same])
        · exact .pass rfl (by show u32 (s.egCount + 1) ≤ L; omega)
            (by simp [egW, hpc, hgt, upd_same]) (by simp [stopW, hpc])
            (by simp [stopW, hgt, upd_same])
      · exact .other (by simp [e2]) (by simp [e2, egW, hpc, upd_same])
          (by simp [e2, stopW, hpc, upd_same])
      · exact .other (by simp [e3]) (by simp [e3, egW, hpc, upd_same])
          (by simp [e3, stopW, hpc, upd_same])
      · exact .other (by simp) (by simp [egW, hpc, upd_same]) (by simp [stopW, hpc, upd_same])
      · exact .other rfl rfl rfl
  · constructor <;> simp [IState.init, egW, stopW]

/-- **C44, exactness.** The same for client group `k` and its iter-clients limit. -/
theorem C44_client_group_exact (g : IterCfg) (N L k : Nat) (hN : L + N < 2 ^ 32)
    (h0 : ∃ c, c < N ∧ g.cg c = k) (hpos : 0 < L) (hcg : ∀ c, c < N → g.cg c = k → g.cgLimit c = L)
    (heg : ∀ c, c < N → g.cg c = k → g.egLimit c = 0) (hit : ∀ c, c < N → g.cg c = k → g.iter c = 0)
    (l : List (Nat × Bool)) (hl : Schedule N l) (hn : NeverStopsOtherwise l)
    (hstop : ∀ c, c < N → g.cg c = k → (IState.init.run g l).pc c = .stopped) :
    iterations N (fun c => g.cg c = k) (IState.init.run g l) = L := by
  have key := IState.run_inv (g := g)
    (P := fun s => CountExact N L (s.cgCount k) (fun c => if g.cg c = k then cgW s c else 0)
      (fun c => if g.cg c = k then stopW s c else 0)) hl ?_ IState.init ?_
  · have h1 := key.stopped ?_
    · have h2 := key.count
      rw [Nat.min_eq_right (by omega)] at h2
      rw [← h2]
      refine sum_congr rfl (fun c hc => ?_)
      dsimp only
      split
      · rename_i hk
        simp [cgW, hstop c (mem_range.mp hc) hk]
      · rfl
    · obtain ⟨c, hc, hk⟩ := h0
      refine sum_pos' (fun _ _ => Nat.zero_le _) ⟨c, mem_range.mpr hc, ?_⟩
      simp [hk, stopW, hstop c hc hk]
  · intro s c b hc hm h
    obtain ⟨o1, o2⟩ := step_others g s c b
    refine CountExact.step hN ?_ hc ?_ ?_ h ?_
    · intro x; split
      · unfold stopW; split <;> omega
      · omega
    · intro x hx; simp only [cgW, o1 x hx, o2 x hx]
    · intro x hx; simp only [stopW, o1 x hx]
    · by_cases hk : g.cg c = k
      · simp only [hk, if_true]
        have hb : b = true := hn _ hm
        have e1 := heg c hc hk
        have e2 := hcg c hc hk
        have e3 := hit c hc hk
        subst hb
        unfold IState.step
        cases hpc : s.pc c
        · exact .other (by simp [e1]) (by simp [e1, cgW, hpc, upd_same])
            (by simp [e1, stopW, hpc, upd_same])
        · simp only [e2, hpos, gt_iff_lt, if_true, hk]
          by_cases hgt : L < u32 (s.cgCount k + 1)
          · exact .reject (by simp [upd_same]) (by simpa [upd_same] using hgt)
              (by simp [cgW, hpc, hgt, upd_same]) (by simp [stopW, hpc])
              (by simp [stopW, hgt, upd_same])
          · exact .pass (by simp [upd_same]) (by simpa [upd_same] using hgt)
              (by simp [cgW, hpc, hgt, upd_same]) (by simp [stopW, hpc])
              (by simp [stopW, hgt, upd_same])
        · exact .other (by simp [e3]) (by simp [e3, cgW, hpc, upd_same])
            (by simp [e3, stopW, hpc, upd_same])
        · exact .other (by simp) (by simp [cgW, hpc, upd_same]) (by simp [stopW, hpc, upd_same])
        · exact .other rfl rfl rfl
      · simp only [hk, if_false]
        exact .other (cg_step_other g s c b k (Or.inr hk)) rfl rfl
  · constructor <;> simp [IState.init, cgW, stopW]

/-- **C44, exactness.** If `iter` is the only limit of a client and it stops for no other reason, then
once it is stopped it has executed exactly `iter` iterations. -/
theorem C44_iter_exact (g : IterCfg) (N : Nat) (l : List (Nat × Bool)) (hl : Schedule N l) (c : Nat)
    (heg : g.egLimit c = 0) (hcg : g.cgLimit c = 0) (hn : NeverStopsOtherwise l)
    (hstop : (IState.init.run g l).pc c = .stopped) :
    (IState.init.run g l).done c = g.iter c := by
  have key := IState.run_inv (g := g)
    (P := fun s => s.pc c = .stopped → s.done c = g.iter c) hl ?_ IState.init ?_
  · exact key hstop
  · intro s c' b _ hm h
    have hb : b = true := hn _ hm
    subst hb
    by_cases hc : c = c'
    · subst hc
      unfold IState.step
      cases hpc : s.pc c <;> simp only [heg, hcg, gt_iff_lt, Nat.lt_irrefl, if_false]
      · simp [upd_same]
      · simp [upd_same]
      · split
        · rename_i h1; intro _; exact h1.2
        · simp [upd_same]
      · simp [upd_same]
      · intro _; exact h hpc
    · obtain ⟨o1, o2⟩ := step_others g s c' true
      rw [o1 c hc, o2 c hc]
      exact h
  · simp [IState.init]

/-- Two clients, limit 3 for the group: one schedule in which both run until stopped. -/
example :
    let g : IterCfg := ⟨fun _ => 3, fun _ => 0, fun _ => 0, fun _ => 0⟩
    let l := (List.replicate 14 [(0, true), (1, true)]).flatten
    (∀ x ∈ l, x.1 < 2 ∧ x.2 = true) ∧ (IState.init.run g l).pc 0 = .stopped ∧
    (IState.init.run g l).pc 1 = .stopped ∧ (IState.init.run g l).done 0 = 2 ∧
    (IState.init.run g l).done 1 = 1 := by decide +kernel

/-- **C44 is false for the largest limit.** With iter-exec-group 4294967295 the counter overflows to 0
and the limit never stops a client: one client begins any number of iterations. -/
theorem C44_largest_limit_false (n : Nat) :
    let g : IterCfg := ⟨fun _ => 2 ^ 32 - 1, fun _ => 0, fun _ => 0, fun _ => 0⟩
    let l := (List.replicate n (List.replicate 4 (0, true))).flatten
    Schedule 1 l ∧ (IState.init.run g l).done 0 = n := by
  intro g l
  constructor
  · intro x hx
    simp only [l, List.mem_flatten, List.mem_replicate] at hx
    obtain ⟨y, ⟨_, rfl⟩, hx⟩ := hx
    simp only [List.mem_replicate] at hx
    rw [hx.2]; exact Nat.zero_lt_one
  · have gen : ∀ n (s : IState), s.pc 0 = .atEG →
        (s.run g (List.replicate n (List.replicate 4 (0, true))).flatten).done 0 = s.done 0 + n := by
      intro n
      induction n with
      | zero => intro s _; rfl
      | succ n ih =>
        intro s hs
        have hlt : ¬ (u32 (s.egCount + 1) > 2 ^ 32 - 1) := by
          have := Nat.mod_lt (s.egCount + 1) (show 2 ^ 32 > 0 by decide)
          unfold u32; omega
        have e1 : ((((s.step g 0 true).step g 0 true).step g 0 true).step g 0 true).pc 0 = .atEG ∧
            ((((s.step g 0 true).step g 0 true).step g 0 true).step g 0 true).done 0 =
              s.done 0 + 1 := by
          have hg : g.egLimit 0 = 2 ^ 32 - 1 := rfl
          have hg2 : g.cgLimit 0 = 0 := rfl
          have hg3 : g.iter 0 = 0 := rfl
          have a1 : s.step g 0 true = { s with egCount := u32 (s.egCount + 1), pc := upd s.pc 0 .atCG } := by
            simp only [IState.step, hs, hg, if_neg hlt]
            rfl
          have a2 : (s.step g 0 true).step g 0 true =
              { s with egCount := u32 (s.egCount + 1), pc := upd (upd s.pc 0 .atCG) 0 .atIter } := by
            rw [a1]; simp [IState.step, upd_same, hg2]
          rw [a2]
          simp [IState.step, upd_same, hg3]
        rw [List.replicate_succ, List.flatten_cons]
        show (((((s.step g 0 true).step g 0 true).step g 0 true).step g 0 true).run g
          (List.replicate n (List.replicate 4 (0, true))).flatten).done 0 = s.done 0 + (n + 1)
        rw [ih _ e1.1, e1.2]
        omega
    have := gen n IState.init rfl
    rw [show IState.init.done 0 = 0 from rfl, Nat.zero_add] at this
    exact this

/-- The loop head of the client machine agrees with the counter machine: a client at its loop head
begins an iteration in both or stops in both, given the values that the counters have. -/
theorem C44_client_head (c : Cli) (t : CState) (g : IterCfg) (s : IState) (k : Nat) (b : Bool)
    (a : Ans) (hs : s.pc k = .atEG) (h1 : g.egLimit k = c.iterExecGroup)
    (h2 : g.cgLimit k = c.iterClients) (h3 : g.iter k = c.iter) (h4 : s.done k = t.iter)
    (ha : a.egCount = u32 (s.egCount + 1)) (hb : a.cgCount = u32 (s.cgCount (g.cg k) + 1)) :
    let s' := ((s.step g k b).step g k b).step g k b
    ((t.head c a).pc = .stopped .regular ∧ s'.pc k = .stopped ∧ s'.done k = t.iter) ∨
    ((t.head c a).pc = .stmt 0 ∧ s'.pc k = .running ∧ s'.done k = t.iter + 1 ∧
      (t.head c a).iter = t.iter + 1) := by
  intro s'
  have e1 : s.step g k b = if 0 < c.iterExecGroup then
      { s with egCount := a.egCount, pc := upd s.pc k (if a.egCount > c.iterExecGroup then .stopped else .atCG) }
      else { s with pc := upd s.pc k .atCG } := by
    simp only [IState.step, hs, h1, ha]
  by_cases d1 : 0 < c.iterExecGroup ∧ a.egCount > c.iterExecGroup
  · left
    rw [if_pos d1.1, if_pos d1.2] at e1
    have e2 : s' = { s with egCount := a.egCount, pc := upd s.pc k .stopped } := by
      simp only [s']
      rw [e1]
      simp only [IState.step, upd_same]
    rw [e2]
    simp [CState.head, d1, CState.stop, CState.goto, upd_same, h4]
  · have e1' : ∃ n, s.step g k b = { s with egCount := n, pc := upd s.pc k .atCG } := by
      rw [e1]
      split
      · rename_i hp
        rw [if_neg (fun h => d1 ⟨hp, h⟩)]
        exact ⟨_, rfl⟩
      · exact ⟨_, rfl⟩
    obtain ⟨n, e1'⟩ := e1'
    have hh1 : (decide (c.iterExecGroup > 0) && decide (a.egCount > c.iterExecGroup)) = false := by
      simpa using d1
    by_cases d2 : 0 < c.iterClients ∧ a.cgCount > c.iterClients
    · left
      have e2 : (s.step g k b).step g k b = { s with
          egCount := n, cgCount := upd s.cgCount (g.cg k) a.cgCount
          pc := upd (upd s.pc k .atCG) k .stopped } := by
        rw [e1']
        simp only [IState.step, upd_same, h2, gt_iff_lt, if_pos d2.1, ← hb]
        rw [if_pos d2.2]
      have e3 : s' = (s.step g k b).step g k b := by
        simp only [s']
        rw [e2]
        simp only [IState.step, upd_same]
      rw [e3, e2]
      simp [CState.head, hh1, d2, CState.stop, CState.goto, upd_same, h4]
    · have e2 : ∃ m, (s.step g k b).step g k b = { s with
          egCount := n, cgCount := m, pc := upd (upd s.pc k .atCG) k .atIter } := by
        rw [e1']
        simp only [IState.step, upd_same, h2, ← hb]
        split
        · rename_i hp
          rw [if_neg (fun h => d2 ⟨hp, h⟩)]
          exact ⟨_, rfl⟩
        · exact ⟨_, rfl⟩
      obtain ⟨m, e2⟩ := e2
      have hh2 : (decide (c.iterClients > 0) && decide (a.cgCount > c.iterClients)) = false := by
        simpa using d2
      simp only [s', e2]
      simp only [IState.step, upd_same, h3, h4, CState.head, hh1, hh2]
      by_cases d3 : c.iter > 0 ∧ t.iter = c.iter
      · left
        simp [d3, CState.stop, CState.goto, upd_same, h4]
      · right
        have hh3 : (decide (c.iter > 0) && decide (t.iter = c.iter)) = false := by
          simpa using d3
        simp [d3, hh3, CState.goto, CState.log, upd_same]

end Finch
