import Verif.Model.Limit
import Mathlib.Tactic.Linarith
/-!
Data limits: C18 (row limit), C19 (table size limit), C20 (database size limit), C23 (combination).
-/
namespace Finch

/-! ## C18 -/

/-- Every statement that finishes affected between 0 and `b` rows. -/
def RowsAtMost (b : Int) (steps : List LimStep) : Prop :=
  ∀ c rows, LimStep.done c rows ∈ steps → 0 ≤ rows ∧ rows ≤ b

/-- Number of rows finished but not yet told to limit `j`. -/
def untold (j : Nat) : LimPc → Int
  | .telling k rows => if k ≤ j then rows else 0
  | _ => 0

/-- A client that limit `j` allowed and whose statement limit `j` has not been told about. -/
def inFlight (j : Nat) : LimPc → Bool
  | .asking k => decide (j < k)
  | .executing => true
  | .telling k _ => decide (k ≤ j)
  | _ => false

/-- A client that limit `j` allowed and whose statement has not started. -/
def allowed (j : Nat) : LimPc → Bool
  | .asking k => decide (j < k)
  | _ => false

theorem sum_set_int (l : List LimPc) (f : LimPc → Int) (c : Nat) (p q : LimPc) (h : l[c]? = some p) :
    ((l.set c q).map f).sum = (l.map f).sum - f p + f q := by
  induction l generalizing c with
  | nil => simp at h
  | cons x l ih =>
    cases c with
    | zero =>
      simp at h
      subst h
      simp
      omega
    | succ c =>
      simp at h
      have := ih c h
      simp only [List.set_cons_succ, List.map_cons, List.sum_cons, this]
      omega

theorem countP_set' (l : List LimPc) (f : LimPc → Bool) (c : Nat) (p q : LimPc)
    (h : l[c]? = some p) :
    (((l.set c q).countP f : Nat) : Int)
      = (l.countP f : Nat) - (if f p then 1 else 0) + (if f q then 1 else 0) := by
  induction l generalizing c with
  | nil => simp at h
  | cons x l ih =>
    cases c with
    | zero =>
      simp at h
      subst h
      simp only [List.set_cons_zero, List.countP_cons]
      push_cast
      split <;> split <;> simp
    | succ c =>
      simp at h
      have := ih c h
      simp only [List.set_cons_succ, List.countP_cons]
      push_cast
      rw [this]
      omega

/-- The facts about row limit `j` that every step keeps. -/
structure RowsInv (j : Nat) (max n0 lo b : Int) (N : Nat) (s : LimRun) : Prop where
  len : s.pcs.length = N
  rows : ∀ (c k : Nat) (r : Int), s.pcs[c]? = some (LimPc.telling k r) → 0 ≤ r ∧ r ≤ b
  leaf : ∃ n, s.leaves[j]? = some (.rows ⟨max, n⟩) ∧ lo ≤ n ∧
    n + (s.pcs.map (untold j)).sum = n0 + s.written ∧
    n + (s.pcs.countP (inFlight j) : Nat) * b ≤ max - 1 + N * b

theorem untold_le (j : Nat) (b : Int) (hb : 0 ≤ b) (l : List LimPc)
    (h : ∀ (c : Nat) k r, l[c]? = some (.telling k r) → 0 ≤ r ∧ r ≤ b) :
    0 ≤ (l.map (untold j)).sum ∧
    (l.map (untold j)).sum ≤ (l.countP (inFlight j) : Nat) * b := by
  induction l with
  | nil => simp
  | cons x l ih =>
    have ih := ih (fun c k r hc => h (c + 1) k r (by simpa using hc))
    have hx := h 0
    simp only [List.map_cons, List.sum_cons, List.countP_cons]
    push_cast
    rw [add_mul]
    cases x with
    | telling k r =>
      have := hx k r (by simp)
      by_cases hk : k ≤ j <;> simp [untold, inFlight, hk] <;> omega
    | asking k => by_cases hk : j < k <;> simp [untold, inFlight, hk] <;> omega
    | _ => simp [untold, inFlight]; omega

theorem leaf_more_rows (c : Conn) (lf : Leaf) (r : Rows) (h : (lf.more c).1 = .rows r) :
    lf = .rows r := by
  cases lf with
  | rows r' => simpa [Leaf.more] using h
  | size s => simp [Leaf.more] at h

theorem RowsInv.step {j : Nat} {max n0 lo b : Int} {N : Nat} {s : LimRun} {st : LimStep}
    (hb : 0 ≤ b) (hn0 : IsI64 lo) (hmax : max + N * b < 2 ^ 63)
    (hr : ∀ c rows, st = .done c rows → 0 ≤ rows ∧ rows ≤ b)
    (h : RowsInv j max n0 lo b N s) : RowsInv j max n0 lo b N (s.step st) := by
  obtain ⟨hlen, hrows, n, hleaf, hge, hsum, hcap⟩ := h
  have rows_set : ∀ (c : Nat) (p : LimPc), (∀ k r, p = .telling k r → 0 ≤ r ∧ r ≤ b) →
      ∀ (c' : Nat) k r, (s.pcs.set c p)[c']? = some (.telling k r) → 0 ≤ r ∧ r ≤ b := by
    intro c p hp c' k r hc'
    rw [List.getElem?_set] at hc'
    split at hc'
    · split at hc'
      · simp only [Option.some.injEq] at hc'; exact hp k r hc'
      · cases hc'
    · exact hrows c' k r hc'
  cases st with
  | arrive c =>
    simp only [LimRun.step]
    split
    · next hc =>
      refine ⟨by simpa using hlen, rows_set c _ (by simp), n, hleaf, hge, ?_, ?_⟩
      · rw [sum_set_int _ _ _ _ _ hc]; simpa [untold] using hsum
      · rw [countP_set' _ _ _ _ _ hc]; simpa [inFlight] using hcap
    · exact ⟨hlen, hrows, n, hleaf, hge, hsum, hcap⟩
  | done c rows =>
    simp only [LimRun.step]
    split
    · next hc =>
      refine ⟨by simpa using hlen, rows_set c _ ?_, n, hleaf, hge, ?_, ?_⟩
      · intro k r e; simp only [LimPc.telling.injEq] at e; have := hr c rows rfl; omega
      · dsimp only
        rw [sum_set_int _ _ _ _ _ hc]; simp [untold]; omega
      · dsimp only
        rw [countP_set' _ _ _ _ _ hc]; simpa [inFlight] using hcap
    · exact ⟨hlen, hrows, n, hleaf, hge, hsum, hcap⟩
  | failed c =>
    simp only [LimRun.step]
    split
    · next hc =>
      refine ⟨by simpa using hlen, rows_set c _ (by simp), n, hleaf, hge, ?_, ?_⟩
      · dsimp only
        rw [sum_set_int _ _ _ _ _ hc]; simp [untold]; omega
      · dsimp only
        rw [countP_set' _ _ _ _ _ hc]
        simp only [inFlight, if_true, Bool.false_eq_true, if_false]
        nlinarith
    · exact ⟨hlen, hrows, n, hleaf, hge, hsum, hcap⟩
  | ask c conn =>
    simp only [LimRun.step]
    split
    · next k hc =>
      split
      · next hk =>
        have hjk : j < k := by
          have : s.leaves.length ≤ k := by simpa using hk
          have : j < s.leaves.length := by
            by_contra hh
            rw [List.getElem?_eq_none (by omega)] at hleaf
            cases hleaf
          omega
        refine ⟨by simpa using hlen, rows_set c _ (by simp), n, hleaf, hge, ?_, ?_⟩
        · dsimp only
          rw [sum_set_int _ _ _ _ _ hc]; simp [untold]; omega
        · dsimp only
          rw [countP_set' _ _ _ _ _ hc]; simpa [inFlight, hjk] using hcap
      · next lf hk =>
        split
        · next lf' hm =>
          by_cases hjk : k = j
          · subst hjk
            rw [hleaf] at hk
            simp only [Option.some.injEq] at hk
            subst hk
            simp only [Leaf.more, Rows.more, Prod.mk.injEq, decide_eq_true_eq] at hm
            obtain ⟨rfl, hlt⟩ := hm
            have hcnt : s.pcs.countP (inFlight k) < N := by
              rw [← hlen, ← not_le]
              intro hle
              have he : s.pcs.countP (inFlight k) = s.pcs.length :=
                le_antisymm List.countP_le_length hle
              rw [List.countP_eq_length] at he
              have := he _ (List.mem_of_getElem? hc)
              simp [inFlight] at this
            refine ⟨by simpa using hlen, rows_set c _ (by simp), n, ?_, hge, ?_, ?_⟩
            · dsimp only
              rw [List.getElem?_set_self (by
                by_contra hh; rw [List.getElem?_eq_none (by omega)] at hleaf; cases hleaf)]
            · dsimp only
              rw [sum_set_int _ _ _ _ _ hc]; simp [untold]; omega
            · dsimp only
              rw [countP_set' _ _ _ _ _ hc]
              simp [inFlight]
              have : ((s.pcs.countP (inFlight k) : Nat) : Int) + 1 ≤ N := by omega
              nlinarith
          · refine ⟨by simpa using hlen, rows_set c _ (by simp), n, ?_, hge, ?_, ?_⟩
            · dsimp only
              rw [List.getElem?_set_ne hjk]; exact hleaf
            · dsimp only
              rw [sum_set_int _ _ _ _ _ hc]; simp [untold]; omega
            · dsimp only
              rw [countP_set' _ _ _ _ _ hc]
              have : (j < k + 1) ↔ (j < k) := by omega
              simpa [inFlight, this] using hcap
        · next lf' hm =>
          refine ⟨by simpa using hlen, rows_set c _ (by simp), n, ?_, hge, ?_, ?_⟩
          · dsimp only
            by_cases hjk : k = j
            · subst hjk
              rw [hleaf] at hk
              simp only [Option.some.injEq] at hk
              subst hk
              simp only [Leaf.more, Prod.mk.injEq] at hm
              obtain ⟨rfl, -⟩ := hm
              rw [List.getElem?_set_self (by
                by_contra hh; rw [List.getElem?_eq_none (by omega)] at hleaf; cases hleaf)]
            · rw [List.getElem?_set_ne hjk]; exact hleaf
          · dsimp only
            rw [sum_set_int _ _ _ _ _ hc]; simp [untold]; omega
          · dsimp only
            rw [countP_set' _ _ _ _ _ hc]
            by_cases hjk : j < k
            · simp [inFlight, hjk]; nlinarith
            · simpa [inFlight, hjk] using hcap
    · exact ⟨hlen, hrows, n, hleaf, hge, hsum, hcap⟩
  | tell c =>
    simp only [LimRun.step]
    split
    · next k r hc =>
      have hr01 := hrows c k r hc
      split
      · next hk =>
        have hjk : ¬ k ≤ j := by
          have : s.leaves.length ≤ k := by simpa using hk
          have : j < s.leaves.length := by
            by_contra hh
            rw [List.getElem?_eq_none (by omega)] at hleaf
            cases hleaf
          omega
        refine ⟨by simpa using hlen, rows_set c _ (by simp), n, hleaf, hge, ?_, ?_⟩
        · dsimp only
          rw [sum_set_int _ _ _ _ _ hc]; simp [untold, hjk]; omega
        · dsimp only
          rw [countP_set' _ _ _ _ _ hc]; simpa [inFlight, hjk] using hcap
      · next lf hk =>
        have rs := rows_set c (.telling (k + 1) r)
          (by intro k' r' e; simp only [LimPc.telling.injEq] at e; omega)
        by_cases hjk : k = j
        · subst hjk
          rw [hleaf] at hk
          simp only [Option.some.injEq] at hk
          subst hk
          have hpos : 1 ≤ s.pcs.countP (inFlight k) := by
            rw [Nat.one_le_iff_ne_zero, ← Nat.pos_iff_ne_zero, List.countP_pos_iff]
            exact ⟨_, List.mem_of_getElem? hc, by simp [inFlight]⟩
          have hno : i64 (n + r) = n + r := by
            apply i64_id
            unfold IsI64 at hn0 ⊢
            have : (1 : Int) ≤ (s.pcs.countP (inFlight k) : Nat) := by omega
            constructor
            · omega
            · nlinarith
          refine ⟨by simpa using hlen, rs, n + r, ?_, by omega, ?_, ?_⟩
          · dsimp only
            rw [List.getElem?_set_self (by
                by_contra hh; rw [List.getElem?_eq_none (by omega)] at hleaf; cases hleaf)]
            simp [Leaf.affected, Rows.affected, hno]
          · dsimp only
            rw [sum_set_int _ _ _ _ _ hc]; simp [untold]; omega
          · dsimp only
            rw [countP_set' _ _ _ _ _ hc]
            simp [inFlight]
            nlinarith
        · refine ⟨by simpa using hlen, rs, n, ?_, hge, ?_, ?_⟩
          · dsimp only
            rw [List.getElem?_set_ne hjk]; exact hleaf
          · have : (k + 1 ≤ j) ↔ (k ≤ j) := by omega
            dsimp only
            rw [sum_set_int _ _ _ _ _ hc]; simp [untold, this]; omega
          · dsimp only
            rw [countP_set' _ _ _ _ _ hc]
            have : (k + 1 ≤ j) ↔ (k ≤ j) := by omega
            simpa [inFlight, this] using hcap
    · exact ⟨hlen, hrows, n, hleaf, hge, hsum, hcap⟩

theorem RowsInv.run {j : Nat} {max n0 lo b : Int} {N : Nat} {s : LimRun} (steps : List LimStep)
    (hb : 0 ≤ b) (hn0 : IsI64 lo) (hmax : max + N * b < 2 ^ 63) (hr : RowsAtMost b steps)
    (h : RowsInv j max n0 lo b N s) : RowsInv j max n0 lo b N (s.run steps) := by
  induction steps generalizing s with
  | nil => exact h
  | cons st steps ih =>
    refine ih (fun c rows hm => hr c rows (List.mem_cons_of_mem _ hm)) (h.step hb hn0 hmax ?_)
    intro c rows e
    exact hr c rows (by simp [e])

theorem RowsInv.init (leaves : List Leaf) (j : Nat) (max n0 b : Int) (N : Nat)
    (hj : leaves[j]? = some (.rows ⟨max, n0⟩)) (hlt : n0 < max) (hb : 0 ≤ b) :
    RowsInv j max n0 n0 b N (LimRun.init leaves N) := by
  have hz : ∀ N, ((List.replicate N LimPc.idle).map (untold j)).sum = 0 := by
    intro N; induction N with
    | zero => rfl
    | succ N ih => simp [List.replicate_succ, untold] at ih ⊢
  have hc : (List.replicate N LimPc.idle).countP (inFlight j) = 0 := by
    simp [List.countP_replicate, inFlight]
  refine ⟨by simp [LimRun.init], ?_, n0, hj, le_refl _, ?_, ?_⟩
  · intro c k r hh
    have := List.mem_of_getElem? hh
    simp [LimRun.init] at this
  · simp only [LimRun.init, hz]
  · simp only [LimRun.init, hc]
    have : (0 : Int) ≤ N * b := Int.mul_nonneg (by omega) hb
    simp only [Nat.cast_zero, zero_mul]
    omega

/-- C18: any number of clients share a statement with any limits, limit number `j` being a row limit
of `max` rows with offset `n0`. Whatever the interleaving of the clients, with every statement
affecting at most `b` rows, the rows written stay below `max + clients*b` (counting the offset). -/
theorem C18_bounded_overshoot (leaves : List Leaf) (j : Nat) (max n0 b : Int) (N : Nat)
    (steps : List LimStep)
    (hj : leaves[j]? = some (.rows ⟨max, n0⟩)) (hlt : n0 < max) (hb : 0 ≤ b) (hn0 : IsI64 n0)
    (hmax : max + N * b < 2 ^ 63) (hr : RowsAtMost b steps) :
    n0 + ((LimRun.init leaves N).run steps).written < max + N * b := by
  have hinit := RowsInv.init leaves j max n0 b N hj hlt hb
  obtain ⟨hlen, hrows, n, hleaf, hge, hsum, hcap⟩ := hinit.run steps hb hn0 hmax hr
  have := untold_le j b hb _ hrows
  omega

/-- C18: the limit's count is what was written: once every client has reported, the count is the
offset plus all rows written. -/
theorem C18_count_is_rows_written (leaves : List Leaf) (j : Nat) (max n0 b : Int) (N : Nat)
    (steps : List LimStep)
    (hj : leaves[j]? = some (.rows ⟨max, n0⟩)) (hlt : n0 < max) (hb : 0 ≤ b) (hn0 : IsI64 n0)
    (hmax : max + N * b < 2 ^ 63) (hr : RowsAtMost b steps)
    (hquiet : ∀ pc ∈ ((LimRun.init leaves N).run steps).pcs, ∀ k r, pc ≠ .telling k r) :
    ((LimRun.init leaves N).run steps).leaves[j]?
      = some (.rows ⟨max, n0 + ((LimRun.init leaves N).run steps).written⟩) := by
  have hinit := RowsInv.init leaves j max n0 b N hj hlt hb
  obtain ⟨hlen, hrows, n, hleaf, hge, hsum, hcap⟩ := hinit.run steps hb hn0 hmax hr
  have hz : ∀ l : List LimPc, (∀ pc ∈ l, ∀ k r, pc ≠ .telling k r) → (l.map (untold j)).sum = 0 := by
    intro l hl
    induction l with
    | nil => rfl
    | cons x l ih =>
      rw [List.map_cons, List.sum_cons, ih (fun pc hpc => hl pc (List.mem_cons_of_mem _ hpc))]
      have := hl x (by simp)
      cases x with
      | telling k r => exact absurd rfl (this k r)
      | _ => rfl
  rw [hz _ hquiet] at hsum
  rw [hleaf]
  congr 3
  omega

/-- C18: take any reachable state in which the row limit is reached (`max ≤ n`). However the clients
go on from there, the only statements that still start are those of clients the row limit had
already allowed. -/
theorem C18_nothing_starts_after_limit (leaves : List Leaf) (j : Nat) (max n0 n b : Int) (N : Nat)
    (before after : List LimStep)
    (hj : leaves[j]? = some (.rows ⟨max, n0⟩)) (hlt : n0 < max) (hb : 0 ≤ b) (hn0 : IsI64 n0)
    (hmax : max + N * b < 2 ^ 63) (hr : RowsAtMost b (before ++ after))
    (hn : ((LimRun.init leaves N).run before).leaves[j]? = some (.rows ⟨max, n⟩))
    (hfull : max ≤ n) :
    ((LimRun.init leaves N).run (before ++ after)).started
      ≤ ((LimRun.init leaves N).run before).started
        + ((LimRun.init leaves N).run before).pcs.countP (allowed j) := by
  have hinit := RowsInv.init leaves j max n0 b N hj hlt hb
  have hmid := hinit.run before hb hn0 hmax (fun c rows h => hr c rows (by simp [h]))
  have hra : RowsAtMost b after := fun c rows h => hr c rows (by simp [h])
  have hrun : (LimRun.init leaves N).run (before ++ after)
      = ((LimRun.init leaves N).run before).run after := by simp [LimRun.run]
  rw [hrun]
  generalize (LimRun.init leaves N).run before = s at *
  have hI : IsI64 max := by
    unfold IsI64 at *
    have : (0 : Int) ≤ N * b := Int.mul_nonneg (by omega) hb
    omega
  have hs : RowsInv j max n0 max b N s := by
    obtain ⟨hlen, hrows, n', hleaf, hge, hsum, hcap⟩ := hmid
    rw [hn] at hleaf
    simp only [Option.some.injEq, Leaf.rows.injEq, Rows.mk.injEq, true_and] at hleaf
    subst hleaf
    exact ⟨hlen, hrows, n, hn, hfull, hsum, hcap⟩
  clear hn hmid hinit
  have key : ∀ (after : List LimStep) (s : LimRun), RowsAtMost b after →
      RowsInv j max n0 max b N s →
      (((s.run after).started + (s.run after).pcs.countP (allowed j) : Nat) : Int)
        ≤ (s.started + s.pcs.countP (allowed j) : Nat) := by
    intro after
    induction after with
    | nil => intro s _ _; exact le_refl _
    | cons st after ih =>
      intro s hra hs
      have h1 := ih (s.step st) (fun c rows h => hra c rows (List.mem_cons_of_mem _ h))
        (hs.step hb hI hmax (fun c rows e => hra c rows (by simp [e])))
      refine le_trans h1 ?_
      obtain ⟨hlen, hrows, n', hleaf, hge, hsum, hcap⟩ := hs
      push_cast
      cases st with
      | arrive c =>
        simp only [LimRun.step]
        split
        · next hc => dsimp only; rw [countP_set' _ _ _ _ _ hc]; simp [allowed]
        · exact le_refl _
      | done c rows =>
        simp only [LimRun.step]
        split
        · next hc => dsimp only; rw [countP_set' _ _ _ _ _ hc]; simp [allowed]
        · exact le_refl _
      | failed c =>
        simp only [LimRun.step]
        split
        · next hc => dsimp only; rw [countP_set' _ _ _ _ _ hc]; simp [allowed]
        · exact le_refl _
      | ask c conn =>
        simp only [LimRun.step]
        split
        · next k hc =>
          split
          · next hk =>
            have hjk : j < k := by
              have : s.leaves.length ≤ k := by simpa using hk
              have : j < s.leaves.length := by
                by_contra hh
                rw [List.getElem?_eq_none (by omega)] at hleaf
                cases hleaf
              omega
            dsimp only; rw [countP_set' _ _ _ _ _ hc]; simp [allowed, hjk]
          · next lf hk =>
            split
            · next lf' hm =>
              dsimp only; rw [countP_set' _ _ _ _ _ hc]
              by_cases hjk : k = j
              · subst hjk
                rw [hleaf] at hk
                simp only [Option.some.injEq] at hk
                subst hk
                simp only [Leaf.more, Rows.more, Prod.mk.injEq, decide_eq_true_eq] at hm
                omega
              · have : (j < k + 1) ↔ (j < k) := by omega
                simp [allowed, this]
            · dsimp only; rw [countP_set' _ _ _ _ _ hc]; by_cases hjk : j < k <;> simp [allowed, hjk]
        · exact le_refl _
      | tell c =>
        simp only [LimRun.step]
        split
        · next hc =>
          split
          · dsimp only; rw [countP_set' _ _ _ _ _ hc]; simp [allowed]
          · dsimp only; rw [countP_set' _ _ _ _ _ hc]; simp [allowed]
        · exact le_refl _
  have := key after s hra hs
  omega

/-- C18: a client that asks a row limit that is reached stops; one that asks a row limit that is not
reached is not stopped by it. -/
theorem C18_limit_decides (s : LimRun) (c j : Nat) (conn : Conn) (max n : Int)
    (hc : s.pcs[c]? = some (.asking j)) (hj : s.leaves[j]? = some (.rows ⟨max, n⟩)) :
    (s.step (.ask c conn)).pcs[c]?
      = some (if n < max then LimPc.asking (j + 1) else LimPc.stopped) := by
  have hlt : c < s.pcs.length := by
    by_contra hh
    rw [List.getElem?_eq_none (by omega)] at hc
    cases hc
  simp only [LimRun.step, hc, hj, Leaf.more, Rows.more]
  by_cases h : n < max <;> simp [h, hlt]

/-- Two clients, limit 10 rows, 6 rows per statement: both start before either reports, 12 rows are
written, then both stop. -/
example :
    let conn : Conn := ⟨none, none, fun _ => false, fun _ => none⟩
    let s := (LimRun.init [.rows ⟨10, 0⟩] 2).run
      [.arrive 0, .ask 0 conn, .ask 0 conn, .arrive 1, .ask 1 conn, .ask 1 conn, .done 0 6,
       .done 1 6, .tell 0, .tell 0, .tell 1, .tell 1, .arrive 0, .ask 0 conn, .arrive 1, .ask 1 conn]
    s.written = 12 ∧ s.started = 2 ∧ s.pcs = [.stopped, .stopped] ∧ s.leaves = [.rows ⟨10, 12⟩] := by
  decide

end Finch
