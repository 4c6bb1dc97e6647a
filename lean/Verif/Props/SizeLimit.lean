import Verif.Props.Limit
import Mathlib.Tactic.Ring
/-!
C19 (table size limit), C20 (database size limit), C23 (combination of data limits).
-/
namespace Finch

/-! ## C19 -/

/-- The statement that returns the size of a table. -/
def tableSizeSql (db tbl : String) : String :=
  "SELECT COALESCE(data_length + index_length, 0) AS bytes FROM information_schema.TABLES WHERE "
    ++ "table_schema='" ++ db ++ "' AND table_name='" ++ tbl ++ "'"

/-- The size of the table in bytes after its statistics were refreshed, if both statements work. -/
def tableSize (db tbl : String) (c : Conn) : Option Nat :=
  if c.exec ("ANALYZE TABLE " ++ tbl) then (c.rows (tableSizeSql db tbl)).bind List.head? else none

/-- How often a size limit is checked: every 3rd call up to 1 GiB, every 1000th from 100 GiB, else
every 5th. -/
def everyNth (max : Nat) : Nat :=
  if 100 * 2 ^ 30 ≤ max then 1000 else if max ≤ 2 ^ 30 then 3 else 5

theorem everyNth_eq (max : Nat) : sizeCadence max = everyNth max := by
  unfold sizeCadence everyNth
  norm_num

theorem everyNth_pos (max : Nat) : 0 < everyNth max ∧ everyNth max ≤ 1000 := by
  unfold everyNth; split <;> [skip; split] <;> omega

theorem Size.check_calls (lm : Size) (db tbl : String) (cs : List Conn) (k : Nat)
    (hq : lm.query = tableSizeSql db tbl) (ha : lm.analyze = "ANALYZE TABLE " ++ tbl)
    (hn : lm.n = k) (hm : lm.m = everyNth lm.max) (hlen : k + cs.length < 2 ^ 64) :
    lm.calls cs = cs.mapIdx fun i c =>
      if (k + i + 1) % everyNth lm.max = 0 then
        match tableSize db tbl c with
        | some bytes => decide (bytes < lm.max)
        | none => false
      else true := by
  induction cs generalizing lm k with
  | nil => rfl
  | cons c cs ih =>
    have hne : lm.query ≠ "" := by
      rw [hq]; unfold tableSizeSql
      intro h
      have := congrArg String.length h
      simp [String.length_append] at this
    have hs : lm.setup c = (lm, true) := by simp [Size.setup, hne]
    have hu : u64 (k + 1) = k + 1 := by
      unfold u64; rw [Nat.mod_eq_of_lt]; simp at hlen; omega
    have hmore : lm.more c = ({ lm with n := k + 1 },
        if (k + 1) % everyNth lm.max = 0 then
        match tableSize db tbl c with
        | some bytes => decide (bytes < lm.max)
        | none => false
      else true) := by
      simp only [Size.more, hs, Size.check, hn, hu, hm, ha, hq, tableSize]
      by_cases h0 : (k + 1) % everyNth lm.max = 0
      · simp only [h0, ne_eq, not_true_eq_false, if_false, if_true]
        by_cases he : c.exec ("ANALYZE TABLE " ++ tbl) = true
        · simp only [he, if_true, Bool.true_eq_false, if_false]
          cases c.rows (tableSizeSql db tbl) with
          | none => rfl
          | some l => cases l <;> rfl
        · simp only [Bool.not_eq_true] at he
          simp [he]
      · simp [h0]
    rw [Size.calls, hmore, List.mapIdx_cons]
    congr 1
    dsimp only
    rw [ih { lm with n := k + 1 } (k + 1) hq ha rfl hm (by simp at hlen; omega)]
    congr 1
    funext i c
    rw [show k + 1 + i + 1 = k + (i + 1) + 1 by omega]

/-- C19: a table size limit asks MySQL for the size of the named table in the current database, on
every m-th call and on no other, and says stop exactly if the size reached the limit or cannot be
obtained. -/
theorem C19_calls_measure_the_table (max : Nat) (tbl db : String) (lm : Size) (c : Conn)
    (cs : List Conn) (hnew : Size.new max "" tbl = .ok lm) (hdb : c.database = some db)
    (hlen : (c :: cs).length < 2 ^ 64) :
    lm.calls (c :: cs) = (c :: cs).mapIdx fun i c =>
      if (i + 1) % everyNth max = 0 then
        match tableSize db tbl c with
        | some bytes => decide (bytes < max)
        | none => false
      else true := by
  unfold Size.new at hnew
  split at hnew
  · cases hnew
  · simp only [Res.ok.injEq] at hnew
    subst hnew
    set lm' : Size := { max := max, db := db, tbl := tbl, query := tableSizeSql db tbl
                        analyze := "ANALYZE TABLE " ++ tbl, n := 0, m := sizeCadence max } with hlm'
    have hcalls : Size.calls { max := max, db := "", tbl := tbl, query := "", analyze := "", n := 0
                               m := sizeCadence max } (c :: cs) = lm'.calls (c :: cs) := by
      have hne : lm'.query ≠ "" := by
        rw [hlm']; unfold tableSizeSql
        intro h
        have := congrArg String.length h
        simp [String.length_append] at this
      have h1 : Size.setup c { max := max, db := "", tbl := tbl, query := "", analyze := "", n := 0
                               m := sizeCadence max } = (lm', true) := by
        simp only [Size.setup, hdb, ne_eq, not_true_eq_false, if_false]
        rw [hlm']
        congr 2
      have h2 : lm'.setup c = (lm', true) := by simp [Size.setup, hne]
      simp only [Size.calls, Size.more, h1, h2]
    rw [hcalls, Size.check_calls lm' db tbl (c :: cs) 0 rfl rfl rfl (everyNth_eq max) (by omega)]
    simp [hlm']

/-- C19: the limit never stops a client while the table is below the limit and MySQL answers. -/
theorem C19_continues_below_limit (max : Nat) (tbl db : String) (lm : Size) (c : Conn)
    (cs : List Conn) (hnew : Size.new max "" tbl = .ok lm) (hdb : c.database = some db)
    (hlen : (c :: cs).length < 2 ^ 64)
    (hbelow : ∀ c' ∈ c :: cs, ∃ bytes, tableSize db tbl c' = some bytes ∧ bytes < max) :
    ∀ r ∈ lm.calls (c :: cs), r = true := by
  rw [C19_calls_measure_the_table max tbl db lm c cs hnew hdb hlen]
  intro r hr
  rw [List.mem_mapIdx] at hr
  obtain ⟨i, hi, rfl⟩ := hr
  obtain ⟨bytes, hb, hlt⟩ := hbelow _ (List.getElem_mem hi)
  rw [hb]
  simp [hlt]

/-- Every size this connection reports is at least `max`. -/
def AtLimit (max : Nat) (c : Conn) : Prop :=
  ∀ q bytes rest, c.rows q = some (bytes :: rest) → max ≤ bytes

/-- `more` at the limit: it says continue only on a call that is not an m-th one. -/
theorem Size.more_atLimit (lm : Size) (c : Conn) (h : AtLimit lm.max c) (hn : lm.n < 2 ^ 64) :
    (lm.more c).1.m = lm.m ∧ (lm.more c).1.max = lm.max ∧ (lm.more c).1.n < 2 ^ 64 ∧
    ((lm.more c).2 = true → 0 < lm.m → (lm.more c).1.n % lm.m = lm.n % lm.m + 1) := by
  have hsm : (lm.setup c).1.m = lm.m ∧ (lm.setup c).1.max = lm.max ∧ (lm.setup c).1.n = lm.n := by
    unfold Size.setup
    split
    · simp
    · split
      · split <;> simp
      · split <;> simp
  unfold Size.more
  split
  · next lm' hs =>
    rw [hs] at hsm
    simp only at hsm
    exact ⟨hsm.1, hsm.2.1, by dsimp only; omega, by simp⟩
  · next lm' hs =>
    rw [hs] at hsm
    simp only at hsm
    obtain ⟨h1, h2, h3⟩ := hsm
    have hu : u64 (lm'.n + 1) < 2 ^ 64 := Nat.mod_lt _ (by norm_num)
    have key : (lm'.check c).1 = { lm' with n := u64 (lm'.n + 1) } ∧
        ((lm'.check c).2 = true → u64 (lm'.n + 1) % lm'.m ≠ 0) := by
      unfold Size.check
      simp only
      split
      · next h0 => exact ⟨rfl, fun _ => h0⟩
      · split
        · simp
        · split
          · simp
          · simp
          · next bytes rest hr =>
            have := h _ _ _ hr
            simp
            omega
    obtain ⟨k1, k2⟩ := key
    rw [k1]
    refine ⟨h1, h2, hu, ?_⟩
    intro ht hpos
    have h0 := k2 ht
    rw [h1, h3] at h0
    rw [h3]
    have hw : u64 (lm.n + 1) = lm.n + 1 := by
      by_cases hlt : lm.n + 1 < 2 ^ 64
      · exact Nat.mod_eq_of_lt hlt
      · exfalso
        apply h0
        have : lm.n + 1 = 2 ^ 64 := by omega
        rw [u64, this]
        simp
    rw [hw] at h0 ⊢
    have h2 := Nat.mod_lt lm.n hpos
    rw [Nat.add_mod] at h0 ⊢
    by_cases h1' : lm.m = 1
    · rw [h1'] at h0; simp [Nat.mod_one] at h0
    · have h1m : 1 % lm.m = 1 := Nat.mod_eq_of_lt (by omega)
      rw [h1m] at h0 ⊢
      by_cases hb : lm.n % lm.m + 1 < lm.m
      · exact Nat.mod_eq_of_lt hb
      · have : lm.n % lm.m + 1 = lm.m := by omega
        rw [this] at h0
        simp at h0

/-- C19: once the size reached the limit, at least one of every m consecutive calls says stop, from
any point on and also across the wrap-around of the call counter. -/
theorem C19_one_of_m_calls_stops (lm : Size) (cs : List Conn) (hn : lm.n < 2 ^ 64) (hm : 0 < lm.m)
    (hlen : lm.m ≤ cs.length) (hat : ∀ c ∈ cs, AtLimit lm.max c) : false ∈ lm.calls cs := by
  have key : ∀ (cs : List Conn) (lm : Size), lm.n < 2 ^ 64 → 0 < lm.m →
      (∀ c ∈ cs, AtLimit lm.max c) → false ∉ lm.calls cs → lm.n % lm.m + cs.length < lm.m := by
    intro cs
    induction cs with
    | nil => intro lm _ hm _ _; simpa using Nat.mod_lt _ hm
    | cons c cs ih =>
      intro lm hn hm hat hno
      simp only [Size.calls, List.mem_cons, not_or] at hno
      have hb : (lm.more c).2 = true := by
        cases h : (lm.more c).2 with
        | true => rfl
        | false => rw [h] at hno; exact absurd rfl hno.1
      obtain ⟨h1, h2, h3, h4⟩ := lm.more_atLimit c (hat c (by simp)) hn
      have := ih (lm.more c).1 h3 (by omega)
        (by rw [h2]; exact fun c hc => hat c (List.mem_cons_of_mem _ hc)) hno.2
      rw [h1, h4 hb hm] at this
      simp only [List.length_cons]
      omega
  by_contra hno
  have := key cs lm hn hm hat hno
  omega

/-- Number of clients that returned. -/
def stoppedCount (s : LimRun) : Nat := s.pcs.countP (· = LimPc.stopped)

/-- Facts about size limit `j` at its limit that every step keeps. -/
structure SizeInv (j max m A N : Nat) (s : LimRun) : Prop where
  len : s.pcs.length = N
  leaf : ∃ lm, s.leaves[j]? = some (.size lm) ∧ lm.max = max ∧ lm.m = m ∧ lm.n < 2 ^ 64 ∧
    s.started + s.pcs.countP (allowed j) ≤ A + stoppedCount s * (m - 1) + lm.n % m
  all : stoppedCount s = N → s.started + s.pcs.countP (allowed j) ≤ A + N * (m - 1)

theorem stopped_le (s : LimRun) : stoppedCount s ≤ s.pcs.length := List.countP_le_length

/-- Every size MySQL reports to the clients from now on is at least `max`. -/
def SizesAtLeast (max : Nat) (steps : List LimStep) : Prop :=
  ∀ c conn, LimStep.ask c conn ∈ steps → AtLimit max conn

theorem SizeInv.move {j max m A N : Nat} {s s' : LimRun} {c : Nat} {p q : LimPc}
    (hm : 0 < m) (h : SizeInv j max m A N s) (hc : s.pcs[c]? = some p)
    (hpcs : s'.pcs = s.pcs.set c q)
    (hp : p ≠ .stopped)
    (hstart : s'.started + (if allowed j q then 1 else 0)
      ≤ s.started + (if allowed j p then 1 else 0))
    (hleaf : s'.leaves[j]? = s.leaves[j]?) : SizeInv j max m A N s' := by
  obtain ⟨hlen, ⟨lm, h1, h2, h3, h4, h5⟩, hall⟩ := h
  have e1 := countP_set' s.pcs (allowed j) c p q hc
  have e2 := countP_set' s.pcs (· = LimPc.stopped) c p q hc
  have hnot : stoppedCount s < N := by
    rw [← hlen, ← not_le]
    intro hle
    have he : s.pcs.countP (· = LimPc.stopped) = s.pcs.length :=
      le_antisymm List.countP_le_length hle
    rw [List.countP_eq_length] at he
    exact hp (by simpa using he _ (List.mem_of_getElem? hc))
  have e1' : (s'.pcs.countP (allowed j) : Int) = s.pcs.countP (allowed j)
      - (if allowed j p then 1 else 0) + (if allowed j q then 1 else 0) := by rw [hpcs]; exact e1
  have e2' : (stoppedCount s' : Int) = stoppedCount s + (if q = .stopped then 1 else 0) := by
    unfold stoppedCount
    rw [hpcs, e2]
    simp [hp]
  have hlhs : s'.started + s'.pcs.countP (allowed j) ≤ s.started + s.pcs.countP (allowed j) := by
    split at e1' <;> split at e1' <;> simp_all <;> omega
  have hge : stoppedCount s ≤ stoppedCount s' := by
    split at e2' <;> omega
  have hmul : stoppedCount s * (m - 1) ≤ stoppedCount s' * (m - 1) := Nat.mul_le_mul_right _ hge
  refine ⟨by rw [hpcs]; simpa using hlen, ⟨lm, by rw [hleaf]; exact h1, h2, h3, h4, by omega⟩, ?_⟩
  intro hN
  have hs1 : stoppedCount s + 1 = N := by
    split at e2' <;> omega
  have h6 : N * (m - 1) = stoppedCount s * (m - 1) + (m - 1) := by
    rw [← hs1]; ring
  have := Nat.mod_lt lm.n hm
  rw [h6]
  omega

theorem SizeInv.step {j max m A N : Nat} {s : LimRun} {st : LimStep} (hm : 0 < m)
    (hat : ∀ c conn, st = .ask c conn → AtLimit max conn)
    (h : SizeInv j max m A N s) : SizeInv j max m A N (s.step st) := by
  cases st with
  | arrive c =>
    simp only [LimRun.step]
    split
    · next hc => exact h.move hm hc rfl (by simp) (by simp [allowed]) rfl
    · exact h
  | done c rows =>
    simp only [LimRun.step]
    split
    · next hc => exact h.move hm hc rfl (by simp) (by simp [allowed]) rfl
    · exact h
  | failed c =>
    simp only [LimRun.step]
    split
    · next hc => exact h.move hm hc rfl (by simp) (by simp [allowed]) rfl
    · exact h
  | tell c =>
    simp only [LimRun.step]
    split
    · next k r hc =>
      split
      · exact h.move hm hc rfl (by simp) (by simp [allowed]) rfl
      · next lf hk =>
        refine h.move hm hc rfl (by simp) (by simp [allowed]) ?_
        dsimp only
        obtain ⟨-, ⟨lm, h1, -⟩, -⟩ := h
        by_cases hjk : k = j
        · subst hjk
          rw [h1] at hk
          simp only [Option.some.injEq] at hk
          subst hk
          rw [List.getElem?_set_self (by
            by_contra hh; rw [List.getElem?_eq_none (by omega)] at h1; cases h1), h1]
          rfl
        · rw [List.getElem?_set_ne hjk]
    · exact h
  | ask c conn =>
    have hat := hat c conn rfl
    simp only [LimRun.step]
    split
    · next k hc =>
      have hj : j < s.leaves.length := by
        obtain ⟨-, ⟨lm, h1, -⟩, -⟩ := h
        by_contra hh
        rw [List.getElem?_eq_none (by omega)] at h1
        cases h1
      split
      · next hk =>
        have hjk : j < k := by
          have : s.leaves.length ≤ k := by simpa using hk
          omega
        exact h.move hm hc rfl (by simp) (by simp [allowed, hjk]) rfl
      · next lf hk =>
        by_cases hjk : k = j
        · subst hjk
          obtain ⟨hlen, ⟨lm, h1, h2, h3, h4, h5⟩, hall⟩ := h
          rw [h1] at hk
          simp only [Option.some.injEq] at hk
          subst hk
          obtain ⟨g1, g2, g3, g4⟩ := lm.more_atLimit conn (by rw [h2]; exact hat) h4
          have e1 := fun q => countP_set' s.pcs (allowed k) c _ q hc
          have e2 := fun q => countP_set' s.pcs (· = LimPc.stopped) c _ q hc
          have hnot : stoppedCount s < N := by
            rw [← hlen, ← not_le]
            intro hle
            have he : s.pcs.countP (· = LimPc.stopped) = s.pcs.length :=
              le_antisymm List.countP_le_length hle
            rw [List.countP_eq_length] at he
            simpa using he _ (List.mem_of_getElem? hc)
          have hmod := Nat.mod_lt lm.n hm
          cases hb : (lm.more conn).2 with
          | true =>
            have hmod' := g4 hb (by omega)
            simp only [Leaf.more, hb]
            have e1 := e1 (.asking (k + 1))
            have e2 := e2 (.asking (k + 1))
            simp [allowed] at e1
            simp at e2
            have hs : ∀ x y, stoppedCount ⟨x, s.pcs.set c (.asking (k + 1)), y, s.written⟩
                = stoppedCount s := by
              intro x y; unfold stoppedCount; dsimp only; omega
            refine ⟨by simpa using hlen, ⟨(lm.more conn).1, ?_, by omega, by omega, g3, ?_⟩, ?_⟩
            · simp [hj]
            · rw [hs]
              dsimp only
              rw [← h3, hmod', h3]
              omega
            · rw [hs]; omega
          | false =>
            simp only [Leaf.more, hb]
            have e1 := e1 .stopped
            have e2 := e2 .stopped
            simp [allowed] at e1
            simp at e2
            have hs : ∀ x y, stoppedCount ⟨x, s.pcs.set c .stopped, y, s.written⟩
                = stoppedCount s + 1 := by
              intro x y; unfold stoppedCount; dsimp only; omega
            have hmul : (stoppedCount s + 1) * (m - 1) = stoppedCount s * (m - 1) + (m - 1) := by ring
            refine ⟨by simpa using hlen, ⟨(lm.more conn).1, ?_, by omega, by omega, g3, ?_⟩, ?_⟩
            · simp [hj]
            · rw [hs, hmul]
              dsimp only
              omega
            · rw [hs]
              intro hN
              rw [← hN, hmul]
              dsimp only
              omega
        · split
          · refine h.move hm hc rfl (by simp) ?_ ?_
            · have : (j < k + 1) ↔ (j < k) := by omega
              simp [allowed, this]
            · dsimp only; rw [List.getElem?_set_ne hjk]
          · refine h.move hm hc rfl (by simp) (by simp [allowed]) ?_
            dsimp only; rw [List.getElem?_set_ne hjk]
    · exact h

/-- C19: from any state in which the table reached the size limit `j` (with check cadence `m`), and
whatever other limits there are: the statements that still start are those already allowed plus at
most `clients * (m-1)`, for every interleaving. -/
theorem C19_bounded_statements_after_limit (s : LimRun) (j : Nat) (lm : Size) (steps : List LimStep)
    (hj : s.leaves[j]? = some (.size lm)) (hn : lm.n < 2 ^ 64) (hm : 0 < lm.m)
    (hat : SizesAtLeast lm.max steps) :
    (s.run steps).started
      ≤ s.started + s.pcs.countP (allowed j) + s.pcs.length * (lm.m - 1) := by
  have hle := stopped_le s
  have h0 : SizeInv j lm.max lm.m (s.started + s.pcs.countP (allowed j)) s.pcs.length s :=
    ⟨rfl, ⟨lm, hj, rfl, rfl, hn, by omega⟩, fun _ => by omega⟩
  have hrun : ∀ (steps : List LimStep) (s' : LimRun), SizesAtLeast lm.max steps →
      SizeInv j lm.max lm.m (s.started + s.pcs.countP (allowed j)) s.pcs.length s' →
      SizeInv j lm.max lm.m (s.started + s.pcs.countP (allowed j)) s.pcs.length (s'.run steps) := by
    intro steps
    induction steps with
    | nil => intro s' _ h; exact h
    | cons st steps ih =>
      intro s' hat h
      refine ih _ (fun c conn hh => hat c conn (List.mem_cons_of_mem _ hh)) (h.step hm ?_)
      intro c conn e
      exact hat c conn (by simp [e])
  have hfin := hrun steps s hat h0
  have hle' := stopped_le (s.run steps)
  obtain ⟨hlen, ⟨lm', h1, h2, h3, h4, h5⟩, hall⟩ := hfin
  by_cases hN : stoppedCount (s.run steps) = s.pcs.length
  · have := hall hN
    omega
  · have hlt : stoppedCount (s.run steps) + 1 ≤ s.pcs.length := by omega
    have := Nat.mod_lt lm'.n hm
    have hmul : (stoppedCount (s.run steps) + 1) * (lm.m - 1) ≤ s.pcs.length * (lm.m - 1) :=
      Nat.mul_le_mul_right _ hlt
    rw [add_mul, one_mul] at hmul
    omega

/-- A 1 MB limit on table t: the first two calls continue, the third measures 2 MB and stops. -/
example :
    let conn : Conn := ⟨none, some "db", fun q => q == "ANALYZE TABLE t",
      fun q => if q == tableSizeSql "db" "t" then some [2000000] else none⟩
    (Size.new 1000000 "" "t" = .ok ⟨1000000, "", "t", "", "", 0, 3⟩) ∧
    Size.calls ⟨1000000, "", "t", "", "", 0, 3⟩ [conn, conn, conn] = [true, true, false] := by
  decide

/-! ## C20 -/

/-- The full claim: with database-size, while the tables of the database together are smaller than
the limit (and every statement naming existing tables works), no call says stop. `size` is the size
of the database at each call. -/
def DatabaseSizeFollowsSize : Prop :=
  ∀ (max : Nat) (db : String) (lm : Size) (tables : List (String × Nat)) (cs : List Conn),
    Size.new max db "" = .ok lm → tables ≠ [] → (tables.map (·.2)).sum < max →
    (∀ c ∈ cs, c.showTables = some (tables.map fun t => (t.1, "BASE TABLE")) ∧
      (∀ ts : List (String × Nat), ts ≠ [] → ts.Sublist tables →
        c.exec ("ANALYZE TABLE " ++ String.intercalate ", " (ts.map (·.1))) = true) ∧
      c.rows ("SELECT COALESCE(data_length + index_length, 0) AS bytes FROM information_schema.TABLES WHERE "
          ++ "table_schema='" ++ db ++ "'")
        = some (tables.map (·.2))) →
    ∀ r ∈ lm.calls cs, r = true

/-- C20 is false: a database with one small table; MySQL rejects `ANALYZE TABLE ` without a table
name (a syntax error), which is what finch sends because it closes the result of SHOW FULL TABLES
before reading it. The third call says stop at 1 byte of 1000. -/
theorem C20_database_size_false : ¬ DatabaseSizeFollowsSize := by
  intro h
  let conn : Conn :=
    ⟨some [("t", "BASE TABLE")], some "d", fun q => q == "ANALYZE TABLE t", fun _ => some [1]⟩
  have := h 1000 "d" ⟨1000, "d", "", "", "", 0, 3⟩ [("t", 1)] [conn, conn, conn] (by decide)
    (by simp) (by simp) (by
      intro c hc
      have : c = conn := by simpa using hc
      subst this
      refine ⟨rfl, ?_, rfl⟩
      intro ts hne hsub
      cases hsub with
      | cons _ h' => simp at h'; exact absurd h' hne
      | cons_cons _ h' => simp at h'; subst h'; decide) false (by decide)
  cases this

/-- C20, what holds: with database-size the limit never looks at the tables: if MySQL rejects an
`ANALYZE TABLE ` without table names, the m-th call says stop and the calls before it continue,
whatever the database holds. Missing: measuring the database. -/
theorem C20_database_size_stops_at_first_check_partial (max : Nat) (db : String) (lm : Size)
    (cs : List Conn) (hdb : db ≠ "") (hnew : Size.new max db "" = .ok lm)
    (htables : ∀ c ∈ cs, c.showTables.isSome) (hempty : ∀ c ∈ cs, c.exec "ANALYZE TABLE " = false)
    (hlen : cs.length ≤ everyNth max) :
    lm.calls cs = cs.mapIdx fun i _ => decide (i + 1 ≠ everyNth max) := by
  unfold Size.new at hnew
  rw [if_neg (by simp [hdb])] at hnew
  simp only [Res.ok.injEq] at hnew
  subst hnew
  have hpos := everyNth_pos max
  have key : ∀ (cs : List Conn) (k : Nat) (q a : String), (q = "" ∨ a = "ANALYZE TABLE ") →
      k + cs.length ≤ everyNth max →
      (∀ c ∈ cs, c.showTables.isSome) → (∀ c ∈ cs, c.exec "ANALYZE TABLE " = false) →
      Size.calls ⟨max, db, "", q, a, k, sizeCadence max⟩ cs
        = cs.mapIdx fun i _ => decide (k + i + 1 ≠ everyNth max) := by
    intro cs
    induction cs with
    | nil => intro k q a _ _ _ _; rfl
    | cons c cs ih =>
      intro k q a hqa hk ht he
      have hset : ∃ q', Size.setup c ⟨max, db, "", q, a, k, sizeCadence max⟩
          = (⟨max, db, "", q', "ANALYZE TABLE ", k, sizeCadence max⟩, true) := by
        by_cases hq : q = ""
        · subst hq
          have := ht c (by simp)
          obtain ⟨rows, hrows⟩ := Option.isSome_iff_exists.mp this
          refine ⟨sizeQueryPrefix ++ "table_schema='" ++ db ++ "'", ?_⟩
          simp only [Size.setup, hdb, hrows, nextRows, ne_eq, not_true_eq_false, if_false,
            not_false_eq_true, if_true]
          rfl
        · refine ⟨q, ?_⟩
          simp only [Size.setup, ne_eq, hq, not_false_eq_true, if_true]
          rw [hqa.resolve_left hq]
      obtain ⟨q', hset⟩ := hset
      have hu : u64 (k + 1) = k + 1 := by
        unfold u64; rw [Nat.mod_eq_of_lt]; simp at hk; omega
      have hmod : (k + 1) % everyNth max = 0 ↔ k + 1 = everyNth max := by
        simp only [List.length_cons] at hk
        constructor
        · intro h
          have := Nat.le_of_dvd (by omega) (Nat.dvd_of_mod_eq_zero h)
          omega
        · intro h; rw [h]; simp
      have hmore : Size.more c ⟨max, db, "", q, a, k, sizeCadence max⟩
          = (⟨max, db, "", q', "ANALYZE TABLE ", k + 1, sizeCadence max⟩,
              decide (k + 1 ≠ everyNth max)) := by
        simp only [Size.more, hset, Size.check, hu, he c (by simp), if_true]
        rw [everyNth_eq]
        by_cases h0 : k + 1 = everyNth max
        · rw [if_neg (by rw [not_not]; exact hmod.mpr h0)]; simp [h0]
        · rw [if_pos (by rw [ne_eq, hmod]; exact h0)]; simp [h0]
      rw [Size.calls, hmore, List.mapIdx_cons]
      congr 1
      rw [ih (k + 1) q' _ (Or.inr rfl) (by simp at hk; omega)
        (fun c hc => ht c (List.mem_cons_of_mem _ hc)) (fun c hc => he c (List.mem_cons_of_mem _ hc))]
      congr 1
      funext i c
      rw [show k + 1 + i + 1 = k + (i + 1) + 1 by omega]
  have := key cs 0 "" "" (Or.inl rfl) (by omega) htables hempty
  simpa using this

example : Size.calls ⟨1000, "d", "", "", "", 0, 3⟩
    (List.replicate 3 ⟨some [("t", "BASE TABLE")], none, fun q => q == "ANALYZE TABLE t",
      fun _ => some [1]⟩) = [true, true, false] := by decide

/-! ## C23 -/

/-- Asking several limits in order until one says stop. -/
def askAll (c : Conn) : List Leaf → List Leaf
  | [] => []
  | l :: ls => (l.more c).1 :: if (l.more c).2 then askAll c ls else ls

theorem askAll_append (c : Conn) (x y : List Leaf) :
    askAll c (x ++ y)
      = askAll c x ++ if x.all (fun l => (l.more c).2) then askAll c y else y := by
  induction x with
  | nil => simp [askAll]
  | cons l x ih =>
    simp only [List.cons_append, askAll, List.all_cons]
    by_cases hb : (l.more c).2 = true <;> simp [ih, hb]

/-- C23: a combination of limits says continue exactly if every single limit says continue, asking
them in the order they were given and no further than the first that says stop. -/
theorem C23_continues_iff_all_allow (l : Lim) (ls : List Leaf) (c : Conn) (h : l.leaves = some ls) :
    ∃ l', l.more c = .ok (l', ls.all fun lf => (lf.more c).2) ∧ l'.leaves = some (askAll c ls) := by
  induction l generalizing ls with
  | rows r =>
    cases r with
    | none => simp [Lim.leaves] at h
    | some r =>
      simp only [Lim.leaves, Option.some.injEq] at h
      subst h
      exact ⟨.rows (some r), by simp [Lim.more, Leaf.more], by
        by_cases hb : r.more = true <;> simp [Lim.leaves, askAll, Leaf.more, hb]⟩
  | size s =>
    simp only [Lim.leaves, Option.some.injEq] at h
    subst h
    exact ⟨.size (s.more c).1, by simp [Lim.more, Leaf.more], by
      by_cases hb : (s.more c).2 = true <;> simp [Lim.leaves, askAll, Leaf.more, hb]⟩
  | or a b iha ihb =>
    simp only [Lim.leaves] at h
    split at h
    · next x y hx hy =>
      simp only [Option.some.injEq] at h
      subst h
      obtain ⟨a', ha, hla⟩ := iha x hx
      obtain ⟨b', hb, hlb⟩ := ihb y hy
      simp only [List.all_append, askAll_append]
      cases hall : x.all (fun lf => (lf.more c).2) with
      | false =>
        rw [hall] at ha
        exact ⟨.or a' b, by simp [Lim.more, ha], by simp [Lim.leaves, hla, hy]⟩
      | true =>
        rw [hall] at ha
        exact ⟨.or a' b', by simp [Lim.more, ha, hb], by simp [Lim.leaves, hla, hlb]⟩
    · cases h

/-- C23: every report of affected rows reaches every limit of the combination. -/
theorem C23_affected_reaches_every_limit (l : Lim) (ls : List Leaf) (k : Int)
    (h : l.leaves = some ls) :
    ∃ l', l.affected k = .ok l' ∧ l'.leaves = some (ls.map (Leaf.affected k)) := by
  induction l generalizing ls with
  | rows r =>
    cases r with
    | none => simp [Lim.leaves] at h
    | some r =>
      simp only [Lim.leaves, Option.some.injEq] at h
      subst h
      exact ⟨.rows (some (r.affected k)), rfl, rfl⟩
  | size s =>
    simp only [Lim.leaves, Option.some.injEq] at h
    subst h
    exact ⟨.size s, rfl, rfl⟩
  | or a b iha ihb =>
    simp only [Lim.leaves] at h
    split at h
    · next x y hx hy =>
      simp only [Option.some.injEq] at h
      subst h
      obtain ⟨a', ha, hla⟩ := iha x hx
      obtain ⟨b', hb, hlb⟩ := ihb y hy
      exact ⟨.or a' b', by simp [Lim.affected, ha, hb], by simp [Lim.leaves, hla, hlb]⟩
    · cases h

/-- C23: a nil limit is neutral. -/
theorem C23_nil_is_neutral (d : Data) : Data.or none d = d ∧ Data.or d none = d := by
  cases d <;> exact ⟨rfl, rfl⟩

/-- The limit a modifier asks for. -/
def LimitMod.leaf : LimitMod → Leaf
  | .rows max offset => .rows ⟨max, offset⟩
  | .tableSize tbl max => .size ⟨max, "", tbl, "", "", 0, everyNth max⟩
  | .databaseSize db max => .size ⟨max, db, "", "", "", 0, everyNth max⟩

/-- A modifier with a positive value (and a name where one is needed). -/
def LimitMod.Positive : LimitMod → Prop
  | .rows max offset => 0 < max ∧ max < 2 ^ 63 ∧ offset < 2 ^ 63
  | .tableSize tbl _ => tbl ≠ ""
  | .databaseSize db _ => db ≠ ""

/-- C23, for positive values: the modifiers of a statement make one limit that contains exactly the
limits asked for, in order. Missing: the zero value, see `C23_zero_rows_false`. -/
theorem C23_modifiers_combine_partial (mods : List LimitMod) (hne : mods ≠ [])
    (hpos : ∀ m ∈ mods, m.Positive) :
    ∃ l : Lim, limitOf none mods = .ok (some l) ∧ l.leaves = some (mods.map LimitMod.leaf) := by
  have happly : ∀ (d : Data) (m : LimitMod), m.Positive →
      ∃ l : Lim, l.leaves = some [m.leaf] ∧ m.apply d = .ok (d.or (some l)) := by
    intro d m hm
    cases m with
    | rows max offset =>
      obtain ⟨h1, h2, h3⟩ := hm
      have e1 : i64 (max : Int) = max := i64_id (by unfold IsI64; omega)
      have e2 : i64 (offset : Int) = offset := i64_id (by unfold IsI64; omega)
      refine ⟨.rows (some ⟨max, offset⟩), rfl, ?_⟩
      have : (max : Int) ≠ 0 := by omega
      simp only [LimitMod.apply, Rows.new, e1, e2, if_neg this]
    | tableSize tbl max =>
      have hm : tbl ≠ "" := hm
      refine ⟨.size ⟨max, "", tbl, "", "", 0, everyNth max⟩, rfl, ?_⟩
      simp [LimitMod.apply, Size.new, hm, everyNth_eq]
    | databaseSize db max =>
      have hm : db ≠ "" := hm
      refine ⟨.size ⟨max, db, "", "", "", 0, everyNth max⟩, rfl, ?_⟩
      simp [LimitMod.apply, Size.new, hm, everyNth_eq]
  have key : ∀ (mods : List LimitMod) (l : Lim) (ls : List Leaf), l.leaves = some ls →
      (∀ m ∈ mods, m.Positive) →
      ∃ l' : Lim, limitOf (some l) mods = .ok (some l') ∧
        l'.leaves = some (ls ++ mods.map LimitMod.leaf) := by
    intro mods
    induction mods with
    | nil => intro l ls h _; exact ⟨l, rfl, by simpa using h⟩
    | cons m mods ih =>
      intro l ls h hp
      obtain ⟨lm, h1, h2⟩ := happly (some l) m (hp m (by simp))
      obtain ⟨l', h3, h4⟩ := ih (.or l lm) (ls ++ [m.leaf]) (by simp [Lim.leaves, h, h1])
        (fun m hm => hp m (List.mem_cons_of_mem _ hm))
      exact ⟨l', by simpa [limitOf, h2, Data.or] using h3, by simpa using h4⟩
  cases mods with
  | nil => exact absurd rfl hne
  | cons m mods =>
    obtain ⟨lm, h1, h2⟩ := happly none m (hpos m (by simp))
    obtain ⟨l', h3, h4⟩ := key mods lm [m.leaf] h1 (fun m hm => hpos m (List.mem_cons_of_mem _ hm))
    exact ⟨l', by simpa [limitOf, h2, Data.or] using h3, by simpa using h4⟩

/-- The claim that a zero value disables the row limit. -/
def ZeroRowsDisables : Prop :=
  ∀ (d : Data) (offset : Nat), (LimitMod.rows 0 offset).apply d = .ok d

/-- C23 is false for `-- rows: 0`: it adds a nil pointer inside a non-nil interface. -/
theorem C23_zero_rows_false : ¬ ZeroRowsDisables := by
  intro h
  have := h none 0
  simp [LimitMod.apply, Data.or] at this

/-- C23: ... and a statement with `-- rows: 0` alone panics when the limit is first asked. -/
theorem C23_zero_rows_panics (offset : Nat) (c : Conn) :
    ∃ l, (LimitMod.rows 0 offset).apply none = .ok (some l) ∧ l.more c = .panic :=
  ⟨.rows none, by simp [LimitMod.apply, Data.or, Rows.new, i64], rfl⟩

/-- Rows and table size together: size reached at the third call though rows are not. -/
example :
    let conn : Conn := ⟨none, some "db", fun _ => true, fun _ => some [2000000]⟩
    let mods : List LimitMod := [.rows 100 0, .tableSize "t" 1000000]
    (∀ m ∈ mods, m.Positive) ∧
    (mods.map LimitMod.leaf).all (fun lf => (lf.more conn).2) = true := by
  refine ⟨?_, by decide⟩
  intro m hm
  simp at hm
  rcases hm with rfl | rfl <;> simp [LimitMod.Positive]

end Finch
