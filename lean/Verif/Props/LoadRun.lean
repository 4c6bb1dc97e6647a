import Verif.Model.LoadRun
import Verif.Props.StageRun
import Verif.Props.TrxFormat
/-!
C131: a stage that loads data ends by itself when the data is there.
-/
namespace Finch

open Finset

/-! ### One step of a client -/

/-- Does a client at this point execute a statement whose limit at `p` it will tell. -/
def flies (addr : Nat → Nat) (ss : List Stmt) (p : Nat) : CPc → Bool
  | .exec i => (match ss[i]? with
    | some st => !st.resultSet && st.limit.isSome
    | none => false) && addr i == p
  | _ => false

/-- One while statement `i` is still to be executed in this iteration, or the client has stopped. -/
def ahead (i : Nat) : CPc → Nat
  | .stmt j | .limit j | .exec j => if j ≤ i then 1 else 0
  | .scan j => if j < i then 1 else 0
  | .stopped _ => 1
  | _ => 0

/-- Spec: a statement that writes data up to a limit. -/
structure Loads (st : Stmt) : Prop where
  idle : st.idle = 0
  write : st.resultSet = false
  limit : st.limit.isSome = true

theorem newEvents_append {s s' : CState} {l : List CEv} (h : s'.trace = s.trace ++ l) : newEvents s s' = l := by
  simp [newEvents, h]

theorem ahead_step {c : Cli} {s s' : CState} {a : Ans} (hw : GoesOk a) (h : CStep c s a s') {i : Nat} {st : Stmt}
    (hst : c.statements[i]? = some st) (hl : Loads st) :
    s'.iter + ahead i s.pc ≤ s.iter + ahead i s'.pc +
      (if s.pc = .exec i ∧ CEv.affected i ∈ newEvents s s' then 1 else 0) := by
  obtain ⟨w1, w2, w3⟩ := hw
  have hlen := (List.getElem?_eq_some_iff.mp hst).1
  cases h
  case stmtEnd j hpc hn =>
    have := List.getElem?_eq_none_iff.mp hn
    simp only [hpc, ahead]
    rw [if_neg (by omega)]
    omega
  case idle j sj hpc hsj hi =>
    have hne : j ≠ i := by
      rintro rfl
      rw [hst] at hsj
      cases hsj
      exact hi hl.idle
    simp only [hpc, ahead]
    split <;> split <;> omega
  case stmt j sj d hpc hsj hi hd =>
    simp only [hpc]
    cases (!sj.resultSet && sj.limit.isSome) <;>
      simp only [ahead, if_true, Bool.false_eq_true, if_false] <;> omega
  case more j hpc hm => simp only [hpc, ahead]; omega
  case execRows j sj d stat hpc hsj hd hstat hc he hr =>
    have hne : j ≠ i := by
      rintro rfl
      rw [hst] at hsj
      cases hsj
      rw [hl.write] at hr
      cases hr
    simp only [hpc]
    by_cases ho : d.outputs ≠ []
    · rw [if_pos ho]
      simp only [ahead]
      split <;> split <;> omega
    · rw [if_neg ho]
      simp only [ahead]
      split <;> split <;> omega
  case execOk j sj d stat hpc hsj hd hstat hc he hr =>
    by_cases hji : j = i
    · subst hji
      rw [hst] at hsj
      cases hsj
      rw [newEvents_append rfl]
      have : CEv.affected j ∈ CEv.exec j (s.conn.getD 0) (s.ps j) :: (recEv stat (evClass st) ++ okEv st d j) := by
        simp [okEv, hl.limit]
      rw [if_pos ⟨hpc, this⟩]
      simp only [hpc, ahead]
      split <;> split <;> omega
    · simp only [hpc, ahead]
      split <;> split <;> omega
  case scanOk j hpc he =>
    simp only [hpc, ahead]
    split <;> split <;> omega
  all_goals first
    | (simp_all [ahead]; done)
    | (simp_all only [ahead]; (repeat' split) <;> omega)

/-- Who begins to execute a statement with a limit was told that there is more. -/
theorem flies_step {c : Cli} {s s' : CState} {a : Ans} (h : CStep c s a s') {addr : Nat → Nat} {p : Nat}
    (hf : flies addr c.statements p s'.pc = true) : ∃ i, s.pc = .limit i ∧ addr i = p ∧ a.more = true := by
  cases h
  case stmt j sj d hpc hsj hi hd =>
    dsimp only at hf
    cases hb : (!sj.resultSet && sj.limit.isSome) with
    | true => rw [hb] at hf; cases hf
    | false => rw [hb] at hf; simp [flies, hsj, hb] at hf
  case more j hpc hm =>
    simp only [flies, Bool.and_eq_true, beq_iff_eq] at hf
    exact ⟨j, hpc, hf.2, hm⟩
  case execRows j sj d stat hpc hsj hd hstat hc he hr =>
    dsimp only at hf
    split at hf <;> cases hf
  case connFail f hpc hc ho => rw [hpc] at hf; cases hf
  case stopped e hpc => rw [hpc] at hf; cases hf
  all_goals cases hf

/-- Who tells a limit has executed a statement with this limit. -/
theorem told_step {c : Cli} {s s' : CState} {a : Ans} (h : CStep c s a s') {i : Nat} (hpc : s.pc = .exec i)
    (ht : CEv.affected i ∈ newEvents s s') (addr : Nat → Nat) :
    flies addr c.statements (addr i) s.pc = true ∧ ∀ p, flies addr c.statements p s'.pc = false := by
  constructor
  · cases h
    case execOk j sj d stat hpc' hsj hd hstat hc he hr =>
      rw [hpc] at hpc'
      cases hpc'
      rw [newEvents_append rfl] at ht
      rcases List.mem_cons.1 ht with h | h
      · cases h
      · rcases List.mem_append.1 h with h | h
        · obtain ⟨n, -, h⟩ := mem_recEv h
          cases h
        · have hl : sj.limit.isSome = true := by
            by_contra hno
            simp only [okEv, if_neg hno, List.nil_append] at h
            split at h
            · simp at h
            · cases h
          rw [hpc]
          simp [flies, hsj, hr, hl]
    case execRows j sj d stat hpc' hsj hd hstat hc he hr =>
      rw [newEvents_append rfl] at ht
      rcases List.mem_cons.1 ht with h | h
      · cases h
      · obtain ⟨n, -, h⟩ := mem_recEv h
        cases h
    case execFail j sj d stat code hpc' hsj hd hstat he =>
      rw [newEvents_append rfl] at ht
      rcases List.mem_cons.1 ht with h | h
      · cases h
      · rcases List.mem_append.1 h with h | h
        · obtain ⟨n, -, h⟩ := mem_recEv h
          cases h
        · simp at h
    all_goals first
      | (exfalso; simp_all; done)
      | (rw [newEvents_append rfl] at ht; simp at ht)
  · intro p
    by_contra hno
    obtain ⟨j, hj, -⟩ := flies_step h (by simpa using hno)
    rw [hpc] at hj
    cases hj

/-- Where a client asks a limit, there is a statement with a limit. -/
theorem limit_step {c : Cli} {s s' : CState} {a : Ans} (h : CStep c s a s') {i : Nat} (hpc : s'.pc = .limit i) :
    ∃ st, c.statements[i]? = some st ∧ Loads st := by
  cases h
  case stmt j sj d hpc' hsj hi hd =>
    dsimp only at hpc
    cases hb : (!sj.resultSet && sj.limit.isSome) with
    | true =>
      rw [hb] at hpc
      cases hpc
      rw [Bool.and_eq_true, Bool.not_eq_true'] at hb
      exact ⟨sj, hsj, hi, hb.1, hb.2⟩
    | false => rw [hb] at hpc; cases hpc
  case execRows j sj d stat hpc' hsj hd hstat hc he hr =>
    dsimp only at hpc
    split at hpc <;> cases hpc
  case connFail f hpc' hc ho => rw [hpc'] at hpc; cases hpc
  case stopped e hpc' => rw [hpc'] at hpc; cases hpc
  all_goals cases hpc

/-- Why a client stops by itself. -/
theorem regular_step {c : Cli} {s s' : CState} {a : Ans} (h : CStep c s a s') (hpc : s'.pc = .stopped .regular) :
    s.pc = .stopped .regular ∨ (0 < c.iterExecGroup ∨ 0 < c.iterClients ∨ 0 < c.iter) ∨
      ∃ i, s.pc = .limit i ∧ a.more = false := by
  cases h
  case limits hpc' hl =>
    refine .inr (.inl ?_)
    rcases hl with ⟨h, -⟩ | ⟨h, -⟩ | ⟨h, -⟩
    · exact .inl h
    · exact .inr (.inl h)
    · exact .inr (.inr h)
  case noMore i hpc' hm => exact .inr (.inr ⟨i, hpc', hm⟩)
  case stmt j sj d hpc' hsj hi hd =>
    dsimp only at hpc
    split at hpc <;> cases hpc
  case execRows j sj d stat hpc' hsj hd hstat hc he hr =>
    dsimp only at hpc
    split at hpc <;> cases hpc
  case connFail f hpc' hc ho => exact .inl hpc
  case stopped e hpc' => exact .inl hpc
  all_goals cases hpc

/-! ### All clients -/

/-- The number of clients that execute a statement with the limit at `p`. -/
def flying (addr : Nat → Nat → Nat) (cs : List AClient) (j : Joint) (p : Nat) : Nat :=
  ∑ k ∈ range cs.length, if flies (addr k) ((cs[k]?.map (·.statements)).getD []) p (j.cl k).pc then 1 else 0

theorem flying_le (addr : Nat → Nat → Nat) (cs : List AClient) (j : Joint) (p : Nat) : flying addr cs j p ≤ cs.length := by
  unfold flying
  refine (sum_le_sum (g := fun _ => 1) fun k _ => ?_).trans (by simp)
  split <;> omega

/-- One client makes a step. -/
theorem flying_step (addr : Nat → Nat → Nat) (cs : List AClient) {j j' : Joint} {k : Nat} {x : AClient}
    (hx : cs[k]? = some x) (ho : ∀ i, i ≠ k → j'.cl i = j.cl i) (p : Nat) :
    flying addr cs j' p + (if flies (addr k) x.statements p (j.cl k).pc then 1 else 0) =
      flying addr cs j p + (if flies (addr k) x.statements p (j'.cl k).pc then 1 else 0) := by
  have hk : k ∈ range cs.length := mem_range.2 (List.getElem?_eq_some_iff.mp hx).1
  unfold flying
  rw [← add_sum_erase _ _ hk, ← add_sum_erase (range cs.length)
    (fun k => if flies (addr k) ((cs[k]?.map (·.statements)).getD []) p (j.cl k).pc then 1 else 0) hk]
  rw [sum_congr (s₁ := (range cs.length).erase k) rfl (g := fun i =>
    if flies (addr i) ((cs[i]?.map (·.statements)).getD []) p (j.cl i).pc then 1 else 0)]
  · simp only [hx, Option.map_some, Option.getD_some]
    omega
  · intro i hi
    rw [ho i (mem_erase.1 hi).1]

/-- Spec: the row limits are not so large that counters could overflow; a statement affects at most `R` rows. -/
def SaneRows (init : Nat → List Rows) (R n : Nat) : Prop :=
  R * n < 2 ^ 61 ∧ ∀ p, ∀ r ∈ init p, 0 ≤ r.n ∧ r.n < 2 ^ 61 ∧ r.max < 2 ^ 61

/-- What is true of the clients and the limits. `G`: nothing has failed and each execution has affected rows. `M`: no size limit
has stopped a client. -/
structure LoadRunInv (G M : Prop) (addr : Nat → Nat → Nat) (init : Nat → List Rows) (R : Nat) (cs : List AClient) (j : Joint)
    (rows : Nat → List Rows) (T : Nat → Nat) : Prop where
  rows : ∀ p, rows p = (init p).map fun r => ⟨r.max, r.n + T p⟩
  over : ∀ p, ∀ r ∈ init p, (T p : Int) + (R * flying addr cs j p : Nat) ≤ max 0 (r.max - 1 - r.n) + (R * cs.length : Nat)
  iter : G → ∀ (k : Nat) x (i : Nat) st, cs[k]? = some x → x.statements[i]? = some st → Loads st →
    (j.cl k).iter ≤ T (addr k i) + ahead i (j.cl k).pc
  limit : ∀ (k : Nat) x i, cs[k]? = some x → (j.cl k).pc = .limit i → ∃ st, x.statements[i]? = some st ∧ Loads st
  stop : M → ∀ (k : Nat) x, cs[k]? = some x → (j.cl k).pc = .stopped .regular →
    (0 < (x.iterExecGroup.map (·.1)).getD 0 ∨ 0 < (x.iterClients.map (·.1)).getD 0 ∨ 0 < x.iter) ∨
    ∃ i st, x.statements[i]? = some st ∧ Loads st ∧ ∃ r ∈ init (addr k i), r.max ≤ r.n + T (addr k i)

theorem Joint.step_ans (tbl : GoMap Nat Nat) {cs : List AClient} (s : Joint) {k : Nat} {x : AClient} (a : Ans)
    (hx : cs[k]? = some x) : (s.step tbl cs k a).cl = s.cl ∨
      ∃ n m, (s.step tbl cs k a).cl k = (s.cl k).step (x.cli tbl) { a with egCount := n, cgCount := m } := by
  unfold Joint.step
  rw [hx]
  dsimp only
  split
  · split <;> (try split) <;> first
      | exact .inl rfl
      | exact .inr ⟨_, _, by simp [Joint.go, upd_same]; rfl⟩
  · exact .inr ⟨_, _, by simp [Joint.go, upd_same]; rfl⟩

theorem told_same (j j' : Joint) (k : Nat) (h : j'.cl = j.cl) : toldLimit j j' k = none := by
  unfold toldLimit
  split
  · rw [h, if_neg (by simp [newEvents])]
  · rfl

theorem LoadRunInv.same {G M : Prop} {addr : Nat → Nat → Nat} {init : Nat → List Rows} {R : Nat} {cs : List AClient} {j j' : Joint}
    {rows : Nat → List Rows} {T : Nat → Nat} (h : LoadRunInv G M addr init R cs j rows T) (e : j'.cl = j.cl) :
    LoadRunInv G M addr init R cs j' rows T := by
  have hf : ∀ p, flying addr cs j' p = flying addr cs j p := by intro p; unfold flying; rw [e]
  refine ⟨h.rows, ?_, ?_, ?_, ?_⟩
  · intro p r hr; rw [hf]; exact h.over p r hr
  · rw [e]; exact h.iter
  · rw [e]; exact h.limit
  · rw [e]; exact h.stop

theorem limitAns_pc (addr : Nat → Nat → Nat) (rows : Nat → List Rows) (j : Joint) (k : Nat) (a : Ans) :
    (limitAns addr rows j k a).ctxDone = a.ctxDone ∧ (limitAns addr rows j k a).err = a.err ∧
    (limitAns addr rows j k a).connOk = a.connOk ∧
    ∀ i, (j.cl k).pc = .limit i → (limitAns addr rows j k a).more = ((rows (addr k i)).all Rows.more && a.more) := by
  unfold limitAns
  split
  · rename_i i hi
    refine ⟨rfl, rfl, rfl, ?_⟩
    intro i' hi'
    rw [hi] at hi'
    cases hi'
    rfl
  · rename_i hno
    exact ⟨rfl, rfl, rfl, fun i hi => absurd hi (hno i)⟩

/-- A step of a client that tells no limit. -/
theorem LoadRunInv.quiet {G M : Prop} {addr : Nat → Nat → Nat} {init : Nat → List Rows} {R : Nat} {tbl : GoMap Nat Nat} {cs : List AClient}
    {j j' : Joint} {rows : Nat → List Rows} {T : Nat → Nat} (h : LoadRunInv G M addr init R cs j rows T) {k : Nat} {x : AClient}
    (hx : cs[k]? = some x) (ho : ∀ i, i ≠ k → j'.cl i = j.cl i) {a b : Ans} (hG : G → GoesOk b) (hM : M → a.more = true)
    (hb : ∀ i, (j.cl k).pc = .limit i → b.more = ((rows (addr k i)).all Rows.more && a.more))
    (hs : CStep (x.cli tbl) (j.cl k) b (j'.cl k)) (ht : toldLimit j j' k = none) :
    LoadRunInv G M addr init R cs j' rows T := by
  refine ⟨h.rows, ?_, ?_, ?_, ?_⟩
  · intro p r hr
    have h1 := h.over p r hr
    have h2 := flying_step addr cs hx ho p
    have hle := flying_le addr cs j' p
    by_cases hf : flies (addr k) x.statements p (j'.cl k).pc = true
    · obtain ⟨i, hi, hp, hm⟩ := flies_step (c := x.cli tbl) hs hf
      rw [hb i hi, Bool.and_eq_true, List.all_eq_true, hp] at hm
      have hmore := hm.1 ⟨r.max, r.n + T p⟩ (by rw [h.rows p]; exact List.mem_map.2 ⟨r, hr, rfl⟩)
      simp only [Rows.more, decide_eq_true_eq] at hmore
      have := Nat.mul_le_mul_left R hle
      omega
    · rw [if_neg hf] at h2
      have := Nat.mul_le_mul_left R (show flying addr cs j' p ≤ flying addr cs j p by omega)
      omega
  · intro g k' x' i st hx' hst hl
    by_cases hk : k' = k
    · subst hk
      rw [hx] at hx'
      cases hx'
      have h1 := h.iter g k' x i st hx hst hl
      have h2 := ahead_step (hG g) hs (i := i) (st := st) hst hl
      have hno : ¬ ((j.cl k').pc = .exec i ∧ CEv.affected i ∈ newEvents (j.cl k') (j'.cl k')) := by
        rintro ⟨h3, h4⟩
        simp only [toldLimit, h3, if_pos h4] at ht
        cases ht
      rw [if_neg hno] at h2
      omega
    · rw [ho k' hk]
      exact h.iter g k' x' i st hx' hst hl
  · intro k' x' i hx' hpc
    by_cases hk : k' = k
    · subst hk
      rw [hx] at hx'
      cases hx'
      exact limit_step (c := x.cli tbl) hs hpc
    · rw [ho k' hk] at hpc
      exact h.limit k' x' i hx' hpc
  · intro m k' x' hx' hpc
    by_cases hk : k' = k
    · subst hk
      rw [hx] at hx'
      cases hx'
      rcases regular_step hs hpc with h1 | h1 | ⟨i, hi, hm⟩
      · exact h.stop m k' x hx h1
      · exact .inl h1
      · right
        obtain ⟨st, h2, h3⟩ := h.limit k' x i hx hi
        refine ⟨i, st, h2, h3, ?_⟩
        rw [hb i hi, hM m, Bool.and_true, h.rows, List.all_eq_false] at hm
        obtain ⟨r, hr, hno⟩ := hm
        obtain ⟨r0, hr0, rfl⟩ := List.mem_map.1 hr
        refine ⟨r0, hr0, ?_⟩
        simpa [Rows.more] using hno
    · rw [ho k' hk] at hpc
      exact h.stop m k' x' hx' hpc

/-- A step of a client that tells a limit how many rows were affected. -/
theorem LoadRunInv.told {G M : Prop} {addr : Nat → Nat → Nat} {init : Nat → List Rows} {R : Nat} {tbl : GoMap Nat Nat} {cs : List AClient}
    {j j' : Joint} {rows : Nat → List Rows} {T : Nat → Nat} (h : LoadRunInv G M addr init R cs j rows T) {k : Nat} {x : AClient}
    (hx : cs[k]? = some x) (ho : ∀ i, i ≠ k → j'.cl i = j.cl i) {b : Ans} (hG : G → GoesOk b)
    (hs : CStep (x.cli tbl) (j.cl k) b (j'.cl k)) {i n : Nat} (ht : toldLimit j j' k = some i) (hn : n ≤ R) (hn1 : G → 1 ≤ n)
    (hsane : SaneRows init R cs.length) :
    LoadRunInv G M addr init R cs j' (upd rows (addr k i) ((rows (addr k i)).map (·.affected n)))
      (upd T (addr k i) (T (addr k i) + n)) := by
  obtain ⟨hpc, hev⟩ : (j.cl k).pc = .exec i ∧ CEv.affected i ∈ newEvents (j.cl k) (j'.cl k) := by
    unfold toldLimit at ht
    split at ht
    · rename_i i' hpc
      split at ht
      · cases ht; exact ⟨hpc, by assumption⟩
      · cases ht
    · cases ht
  obtain ⟨hf, hf'⟩ := told_step (c := x.cli tbl) hs hpc hev (addr k)
  have hmono : ∀ p, T p ≤ upd T (addr k i) (T (addr k i) + n) p := by
    intro p
    by_cases hp : p = addr k i
    · subst hp; rw [upd_same]; omega
    · rw [upd_ne _ _ hp]
  have hfl : ∀ p, flying addr cs j' p + (if flies (addr k) x.statements p (j.cl k).pc then 1 else 0) = flying addr cs j p := by
    intro p
    have := flying_step addr cs hx ho p
    have h2 : flies (addr k) x.statements p (j'.cl k).pc = false := hf' p
    rw [h2] at this
    simpa using this
  refine ⟨?_, ?_, ?_, ?_, ?_⟩
  · intro p
    by_cases hp : p = addr k i
    · subst hp
      rw [upd_same, upd_same, h.rows, List.map_map]
      refine List.map_congr_left fun r hr => ?_
      simp only [Function.comp_apply, Rows.affected, Rows.mk.injEq, true_and]
      have h1 := h.over _ r hr
      have h2 := hfl (addr k i)
      have hf2 : flies (addr k) x.statements (addr k i) (j.cl k).pc = true := hf
      rw [if_pos hf2] at h2
      have h3 : R * 1 ≤ R * flying addr cs j (addr k i) := Nat.mul_le_mul_left R (by omega)
      obtain ⟨s1, s2⟩ := hsane
      obtain ⟨s3, s4, s5⟩ := s2 _ r hr
      rw [i64_id]
      · push_cast; omega
      · unfold IsI64
        omega
    · rw [upd_ne _ _ hp, upd_ne _ _ hp]
      exact h.rows p
  · intro p r hr
    have h1 := h.over p r hr
    have h2 := hfl p
    by_cases hp : p = addr k i
    · subst hp
      rw [upd_same]
      have hf2 : flies (addr k) x.statements (addr k i) (j.cl k).pc = true := hf
      rw [if_pos hf2] at h2
      rw [← h2, Nat.mul_add, Nat.mul_one] at h1
      push_cast at h1 ⊢
      omega
    · rw [upd_ne _ _ hp]
      have := Nat.mul_le_mul_left R (show flying addr cs j' p ≤ flying addr cs j p by omega)
      omega
  · intro g k' x' i' st hx' hst hl
    by_cases hk : k' = k
    · subst hk
      rw [hx] at hx'
      cases hx'
      have h1 := h.iter g k' x i' st hx hst hl
      have h2 := ahead_step (hG g) hs (i := i') (st := st) hst hl
      by_cases hi : i' = i
      · subst hi
        rw [upd_same]
        have := hn1 g
        split at h2 <;> omega
      · have hno : ¬ ((j.cl k').pc = .exec i' ∧ CEv.affected i' ∈ newEvents (j.cl k') (j'.cl k')) := by
          rintro ⟨h3, h4⟩
          rw [hpc] at h3
          cases h3
          exact hi rfl
        rw [if_neg hno] at h2
        have := hmono (addr k' i')
        omega
    · rw [ho k' hk]
      exact (h.iter g k' x' i' st hx' hst hl).trans (Nat.add_le_add_right (hmono _) _)
  · intro k' x' i' hx' hpc'
    by_cases hk : k' = k
    · subst hk
      rw [hx] at hx'
      cases hx'
      exact limit_step (c := x.cli tbl) hs hpc'
    · rw [ho k' hk] at hpc'
      exact h.limit k' x' i' hx' hpc'
  · intro m k' x' hx' hpc'
    have key : (0 < (x'.iterExecGroup.map (·.1)).getD 0 ∨ 0 < (x'.iterClients.map (·.1)).getD 0 ∨ 0 < x'.iter) ∨
        ∃ i st, x'.statements[i]? = some st ∧ Loads st ∧ ∃ r ∈ init (addr k' i), r.max ≤ r.n + T (addr k' i) := by
      by_cases hk : k' = k
      · subst hk
        rw [hx] at hx'
        cases hx'
        rcases regular_step hs hpc' with h1 | h1 | ⟨i, hi, hm⟩
        · exact h.stop m k' x hx h1
        · exact .inl h1
        · rw [hpc] at hi; cases hi
      · rw [ho k' hk] at hpc'
        exact h.stop m k' x' hx' hpc'
    rcases key with h1 | ⟨i', st, h1, h2, r, h3, h4⟩
    · exact .inl h1
    · refine .inr ⟨i', st, h1, h2, r, h3, ?_⟩
      have := hmono (addr k' i')
      omega

/-! ### The stage -/

theorem RunSt.stage_joint (tbl : GoMap Nat Nat) (groups : List (List Nat)) (cs : List AClient) (s : RunSt) (a : SAct) :
    (s.step tbl groups cs (.stage a)).joint = s.joint := by cases a <;> rfl

/-- Spec: whether the row limits may be counted in this step: not more than `R` rows were affected. `G`: nothing fails and
rows were affected. `M`: no size limit stops the client. -/
structure LoadOk (G M : Prop) (R : Nat) (a : RAct × Nat) : Prop where
  le : a.2 ≤ R
  good : G → a.1.Well ∧ 1 ≤ a.2
  more : M → ∀ c b, a.1 = .client c b → b.more = true

theorem LoadRunInv.step {G M : Prop} {addr : Nat → Nat → Nat} {init : Nat → List Rows} {R : Nat} (tbl : GoMap Nat Nat)
    (groups : List (List Nat)) {cs : List AClient} {s : LoadRunSt} (h : LoadRunInv G M addr init R cs s.run.joint s.rows s.written)
    (hsane : SaneRows init R cs.length) {a : RAct × Nat} (ha : LoadOk G M R a) :
    LoadRunInv G M addr init R cs (s.step addr tbl groups cs a.1 a.2).run.joint (s.step addr tbl groups cs a.1 a.2).rows
      (s.step addr tbl groups cs a.1 a.2).written := by
  obtain ⟨a, n⟩ := a
  obtain ⟨hle, hgood, hmore⟩ := ha
  dsimp only at hle hgood hmore ⊢
  cases a with
  | stage a =>
    refine h.same ?_
    simp only [LoadRunSt.step, LoadRunSt.answer]
    rw [RunSt.stage_joint]
  | client c a =>
    generalize hk : goIndex groups c = k
    have hj : (s.run.step tbl groups cs (.client c (limitAns addr s.rows s.run.joint k a))).joint = s.run.joint ∨
        (s.run.step tbl groups cs (.client c (limitAns addr s.rows s.run.joint k a))).joint =
          s.run.joint.step tbl cs k (limitAns addr s.rows s.run.joint k a) := by
      simp only [RunSt.step, hk]
      split
      · exact .inr rfl
      · exact .inl rfl
    simp only [LoadRunSt.step, LoadRunSt.answer, hk]
    generalize hr : s.run.step tbl groups cs (.client c (limitAns addr s.rows s.run.joint k a)) = r at hj ⊢
    rcases hj with hj | hj
    · have e : r.joint.cl = s.run.joint.cl := by rw [hj]
      rw [told_same _ _ k e]
      exact h.same e
    cases hx : cs[k]? with
    | none =>
      have e : r.joint.cl = s.run.joint.cl := by rw [hj]; simp [Joint.step, hx]
      rw [told_same _ _ k e]
      exact h.same e
    | some x =>
      rcases Joint.step_ans tbl s.run.joint (limitAns addr s.rows s.run.joint k a) hx with he | ⟨n1, m1, he⟩
      · have e : r.joint.cl = s.run.joint.cl := by rw [hj]; exact he
        rw [told_same _ _ k e]
        exact h.same e
      · obtain ⟨p1, p2, p3, p4⟩ := limitAns_pc addr s.rows s.run.joint k a
        have ho : ∀ i, i ≠ k → r.joint.cl i = s.run.joint.cl i := by
          intro i hi
          rw [hj]
          exact (Joint.step_other tbl cs s.run.joint _ hi).1
        have hs := (s.run.joint.cl k).step_cases (x.cli tbl)
          { limitAns addr s.rows s.run.joint k a with egCount := n1, cgCount := m1 }
        rw [← he, ← hj] at hs
        have hG : G → GoesOk { limitAns addr s.rows s.run.joint k a with egCount := n1, cgCount := m1 } := by
          intro g
          obtain ⟨w1, w2, w3⟩ := (hgood g).1
          exact ⟨p1.trans w1, p2.trans w2, p3.trans w3⟩
        cases ht : toldLimit s.run.joint r.joint k with
        | none => exact h.quiet hx ho hG (fun m => hmore m c a rfl) p4 hs ht
        | some i => exact h.told hx ho hG hs ht hle (fun g => (hgood g).2) hsane

theorem loadInv_init (G M : Prop) (addr : Nat → Nat → Nat) (init : Nat → List Rows) (R : Nat) (cs : List AClient) :
    LoadRunInv G M addr init R cs (LoadRunSt.init init).run.joint (LoadRunSt.init init).rows (LoadRunSt.init init).written := by
  have h0 : ∀ p, flying addr cs Joint.init p = 0 := by
    intro p
    unfold flying
    exact sum_eq_zero fun k _ => by simp [Joint.init, CState.init, flies]
  refine ⟨?_, ?_, ?_, ?_, ?_⟩
  · intro p
    simp [LoadRunSt.init]
  · intro p r hr
    simp only [LoadRunSt.init, RunSt.init, h0]
    omega
  · intro _ k x i st _ _ _
    simp [LoadRunSt.init, RunSt.init, Joint.init, CState.init]
  · intro k x i _ h
    simp [LoadRunSt.init, RunSt.init, Joint.init, CState.init] at h
  · intro _ k x _ h
    simp [LoadRunSt.init, RunSt.init, Joint.init, CState.init] at h

theorem LoadRunSt.play_snoc (addr : Nat → Nat → Nat) (tbl : GoMap Nat Nat) (groups : List (List Nat)) (cs : List AClient) (s : LoadRunSt)
    (l : List (RAct × Nat)) (a : RAct × Nat) :
    s.play addr tbl groups cs (l ++ [a]) = (s.play addr tbl groups cs l).step addr tbl groups cs a.1 a.2 := by
  simp [LoadRunSt.play, List.foldl_append]

theorem loadInv_run {G M : Prop} {addr : Nat → Nat → Nat} {init : Nat → List Rows} {R : Nat} (tbl : GoMap Nat Nat)
    (groups : List (List Nat)) {cs : List AClient} (hsane : SaneRows init R cs.length) (l : List (RAct × Nat)) :
    (∀ a ∈ l, LoadOk G M R a) →
    LoadRunInv G M addr init R cs ((LoadRunSt.init init).play addr tbl groups cs l).run.joint
      ((LoadRunSt.init init).play addr tbl groups cs l).rows ((LoadRunSt.init init).play addr tbl groups cs l).written := by
  induction l using List.reverseRecOn with
  | nil => intro _; exact loadInv_init G M addr init R cs
  | append_singleton l a ih =>
    intro hw
    rw [LoadRunSt.play_snoc]
    exact (ih fun b hb => hw b (by simp [hb])).step tbl groups hsane (hw a (by simp))

theorem LoadRunSt.step_run (addr : Nat → Nat → Nat) (tbl : GoMap Nat Nat) (groups : List (List Nat)) (cs : List AClient) (s : LoadRunSt)
    (a : RAct) (n : Nat) : (s.step addr tbl groups cs a n).run = s.run.step tbl groups cs (s.answer addr groups a) := by
  unfold LoadRunSt.step
  cases a with
  | stage a => rfl
  | client c a =>
    dsimp only
    split <;> rfl

theorem LoadRunSt.answer_with {P : Ans → Prop} (addr : Nat → Nat → Nat) (groups : List (List Nat)) (s : LoadRunSt) {a : RAct}
    (hP : ∀ b b' : Ans, b'.ctxDone = b.ctxDone → b'.err = b.err → b'.connOk = b.connOk → P b → P b')
    (h : a.With P) : (s.answer addr groups a).With P := by
  cases a with
  | stage a => exact h
  | client c a =>
    obtain ⟨p1, p2, p3, -⟩ := limitAns_pc addr s.rows s.run.joint (goIndex groups c) a
    exact hP a _ p1 p2 p3 h

/-- The stage and its clients make a run of `Model/StageRun`, in which `Limit.More` answers what the counters say. -/
theorem load_run {P : Ans → Prop} (addr : Nat → Nat → Nat) (init : Nat → List Rows) (tbl : GoMap Nat Nat) (groups : List (List Nat))
    (cs : List AClient) (hP : ∀ b b' : Ans, b'.ctxDone = b.ctxDone → b'.err = b.err → b'.connOk = b.connOk → P b → P b')
    (l : List (RAct × Nat)) : (∀ a ∈ l, a.1.With P) →
    ∃ as : List RAct, (∀ a ∈ as, a.With P) ∧
      ((LoadRunSt.init init).play addr tbl groups cs l).run = RunSt.init.run tbl groups cs as := by
  induction l using List.reverseRecOn with
  | nil => intro _; exact ⟨[], by simp, rfl⟩
  | append_singleton l a ih =>
    intro hw
    obtain ⟨as, h1, h2⟩ := ih fun b hb => hw b (by simp [hb])
    rw [LoadRunSt.play_snoc]
    refine ⟨as ++ [((LoadRunSt.init init).play addr tbl groups cs l).answer addr groups a.1], ?_, ?_⟩
    · intro b hb
      rcases List.mem_append.1 hb with hb | hb
      · exact h1 b hb
      · rw [List.mem_singleton.1 hb]
        exact LoadRunSt.answer_with addr groups _ hP (hw a (by simp))
    · rw [LoadRunSt.step_run, h2]
      simp [RunSt.run, List.foldl_append]

theorem goesOk_more : ∀ b b' : Ans, b'.ctxDone = b.ctxDone → b'.err = b.err → b'.connOk = b.connOk → GoesOk b → GoesOk b' := by
  rintro b b' h1 h2 h3 ⟨g1, g2, g3⟩
  exact ⟨h1.trans g1, h2.trans g2, h3.trans g3⟩

/-- The state after the first `n` steps of a schedule without end. -/
def LoadRunSt.after (addr : Nat → Nat → Nat) (init : Nat → List Rows) (tbl : GoMap Nat Nat) (groups : List (List Nat))
    (cs : List AClient) (f : Nat → RAct × Nat) (n : Nat) : LoadRunSt :=
  (LoadRunSt.init init).play addr tbl groups cs ((List.range n).map f)

theorem load_after (addr : Nat → Nat → Nat) (init : Nat → List Rows) (tbl : GoMap Nat Nat) (groups : List (List Nat))
    (cs : List AClient) (f : Nat → RAct × Nat) (n : Nat) :
    (LoadRunSt.after addr init tbl groups cs f n).run =
      RunSt.after tbl groups cs (fun m => (LoadRunSt.after addr init tbl groups cs f m).answer addr groups (f m).1) n := by
  induction n with
  | zero => rfl
  | succ n ih =>
    rw [after_succ, ← ih]
    have : LoadRunSt.after addr init tbl groups cs f (n + 1) =
        (LoadRunSt.after addr init tbl groups cs f n).step addr tbl groups cs (f n).1 (f n).2 := by
      unfold LoadRunSt.after
      rw [List.range_succ, List.map_append, List.map_singleton, LoadRunSt.play_snoc]
    rw [this, LoadRunSt.step_run]

/-! ### The claims -/

/-- Spec: every client group of the stage has a trx with a statement that writes data up to a limit of rows. -/
def AllLoad (env : WEnv) (w : List CGCfg) (groups : List (List Nat)) : Prop :=
  ∀ e j cg, CfgAt w groups e j cg → ∃ t ∈ cg.trx, ∃ st ∈ (env.stmts t).getD [], Loads st ∧
    ∃ l, st.limit = some l ∧ l.rowLimits ≠ []

/-- Spec: `init` are the row limits of the statements, by the addresses of their limits. Statements of several clients, or
one that a client has twice, may have the same address. -/
def LimitsAt (addr : Nat → Nat → Nat) (init : Nat → List Rows) (cs : List AClient) : Prop :=
  ∀ (k : Nat) x (i : Nat) st l, cs[k]? = some x → x.statements[i]? = some st → st.limit = some l → init (addr k i) = l.rowLimits

/-- A client of the stage has a statement that writes data up to a limit of rows. -/
theorem client_loads {env : WEnv} {w : List CGCfg} {q t : Nat} {s : DataScope}
    {groups : List (List Nat)} {st : WState} {res : List (List ACGroup)} (hne : NoEmptyTrx env w)
    (h : allocClients env w q t s groups = .ok (st, res)) (hload : AllLoad env w groups) {k : Nat} {x : AClient}
    (hx : (stageClients res)[k]? = some x) :
    ∃ (i : Nat) (sl : Stmt) (l : Lim), x.statements[i]? = some sl ∧ Loads sl ∧ sl.limit = some l ∧ l.rowLimits ≠ [] := by
  obtain ⟨e, j, c, hat⟩ := mem_stageClients (List.mem_of_getElem? hx)
  obtain ⟨cg, hcg, -, hok⟩ := allocClients_at hne h hat
  obtain ⟨t, ht, sl, hsl, h1, l, h2, h3⟩ := hload e j cg hcg
  have hm : sl ∈ x.statements := by
    rw [hok.statements]
    exact List.mem_flatMap.2 ⟨t, ht, hsl⟩
  obtain ⟨i, hi⟩ := List.mem_iff_getElem?.1 hm
  exact ⟨i, sl, l, hi, h1, h2, h3⟩

/-- **C131, a stage that loads data ends by itself.** Every client group has a statement that writes data up to a limit of
rows; there need be no other limit. No query fails, and each execution affects at least one and at most `R` rows. In every
schedule in which the stage, the channel and all clients get a turn again and again, `Stage.Run` comes to its end after
finitely many steps. -/
theorem C131_ends {env : WEnv} {w : List CGCfg} {q t : Nat} {s : DataScope}
    {groups : List (List Nat)} {st : WState} {res : List (List ACGroup)} (hne : NoEmptyTrx env w)
    (h : allocClients env w q t s groups = .ok (st, res)) (hload : AllLoad env w groups) (tbl : GoMap Nat Nat)
    {addr : Nat → Nat → Nat} {init : Nat → List Rows} (hat : LimitsAt addr init (stageClients res)) {R : Nat}
    (hsane : SaneRows init R (stageClients res).length) {f : Nat → RAct × Nat}
    (hw : ∀ n, (f n).1.Well ∧ 1 ≤ (f n).2 ∧ (f n).2 ≤ R) (hf : Fair fun n => (f n).1) :
    ∃ n, ∀ m ≥ n, ((LoadRunSt.init init).play addr tbl (clientNums res) (stageClients res)
      ((List.range m).map f)).run.stage.pc = .ended := by
  have hinv : ∀ n, LoadRunInv True False addr init R (stageClients res)
      (LoadRunSt.after addr init tbl (clientNums res) (stageClients res) f n).run.joint
      (LoadRunSt.after addr init tbl (clientNums res) (stageClients res) f n).rows
      (LoadRunSt.after addr init tbl (clientNums res) (stageClients res) f n).written := by
    intro n
    refine loadInv_run tbl (clientNums res) hsane _ ?_
    intro a ha
    obtain ⟨m, -, rfl⟩ := List.mem_map.1 ha
    exact ⟨(hw m).2.2, fun _ => ⟨(hw m).1, (hw m).2.1⟩, fun hm => hm.elim⟩
  have hbound : ∀ k, ∃ N, ∀ x, (stageClients res)[k]? = some x → ∀ n,
      ((LoadRunSt.after addr init tbl (clientNums res) (stageClients res) f n).run.joint.cl k).iter ≤ N := by
    intro k
    cases hx : (stageClients res)[k]? with
    | none => exact ⟨0, fun x h => by cases h⟩
    | some x =>
      obtain ⟨i, sl, l, h1, h2, h3, h4⟩ := client_loads hne h hload hx
      obtain ⟨r, hr⟩ := List.exists_mem_of_ne_nil _ h4
      refine ⟨(max 0 (r.max - 1 - r.n)).toNat + R * (stageClients res).length + 1, ?_⟩
      rintro y hy n
      cases hy
      have hi := (hinv n).iter trivial k x i sl hx h1 h2
      have ho := (hinv n).over (addr k i) r (by rw [hat k x i sl l hx h1 h3]; exact hr)
      have ha : ∀ pc, ahead i pc ≤ 1 := by
        intro pc
        unfold ahead
        (repeat' split) <;> omega
      have := ha ((LoadRunSt.after addr init tbl (clientNums res) (stageClients res) f n).run.joint.cl k).pc
      omega
  choose N hN using hbound
  have hq : ∀ n, ((LoadRunSt.after addr init tbl (clientNums res) (stageClients res) f n).answer addr (clientNums res) (f n).1).Quiet := by
    intro n
    exact LoadRunSt.answer_with addr _ _ (fun _ _ _ _ _ _ => trivial) (hw n).1.quiet
  obtain ⟨n, hn⟩ := bounded_ends (tbl := tbl) (groups := clientNums res) (cs := stageClients res) (N := N)
    (f := fun n => (LoadRunSt.after addr init tbl (clientNums res) (stageClients res) f n).answer addr (clientNums res) (f n).1)
    (by
      rintro ⟨e, k⟩ hk
      obtain ⟨x, -, -, hx, -⟩ := client_of_go res e k hk
      exact ⟨x, hx⟩)
    (by
      intro n k x hx
      rw [← load_after]
      exact hN k x hx n)
    hq
    (by
      refine ⟨?_, ?_, ?_, ?_⟩
      · intro n
        obtain ⟨m, h1, h2⟩ := hf.next n
        exact ⟨m, h1, by simp only [h2, LoadRunSt.answer]⟩
      · intro n
        obtain ⟨m, h1, h2⟩ := hf.recv n
        exact ⟨m, h1, by simp only [h2, LoadRunSt.answer]⟩
      · intro n c
        obtain ⟨m, h1, h2⟩ := hf.send n c
        exact ⟨m, h1, by simp only [h2, LoadRunSt.answer]⟩
      · intro n c
        obtain ⟨m, h1, a, h2, h3⟩ := hf.client n c
        refine ⟨m, h1, _, by simp only [h2, LoadRunSt.answer]; rfl, ?_⟩
        rw [(limitAns_pc addr _ _ _ a).2.2.1]
        exact h3)
  refine ⟨n, fun m hm => ?_⟩
  have := hn m hm
  rw [← load_after] at this
  exact this

/-- **C131, the data is there when the stage ends.** For trx files that were loaded and do not begin with an idle entry, and
client groups without iteration limits: in every schedule in which no query fails and no size limit ends a client, when
`Stage.Run` has come to its end, every client has stopped by itself after no failed statement, because the rows that were
written, with those that the limit began with, have reached a row limit of one of its statements. -/
theorem C131_loaded {env : WEnv} {w : List CGCfg} {q t : Nat} {s : DataScope}
    {groups : List (List Nat)} {st : WState} {res : List (List ACGroup)} {tfs : List TrxFile}
    {set : TrxSet} {keys : GoMap String TKey} (hl : loadTrx ⟨[], GoMap.empty, GoMap.empty, keys⟩ tfs = .ok set)
    (hs : env.stmts = set.statements) (hne : NoEmptyTrx env w)
    (hidle : ∀ cg ∈ w, ∀ n ∈ cg.trx, ∀ x, ((env.stmts n).getD [])[0]? = some x → x.idle = 0)
    (h : allocClients env w q t s groups = .ok (st, res))
    (hno : ∀ e j cg, CfgAt w groups e j cg → finchUint cg.iter = 0 ∧ finchUint cg.iterClients = 0 ∧ finchUint cg.iterExecGroup = 0)
    (tbl : GoMap Nat Nat) {addr : Nat → Nat → Nat} {init : Nat → List Rows} (hat : LimitsAt addr init (stageClients res))
    {R : Nat} (hsane : SaneRows init R (stageClients res).length) (as : List (RAct × Nat))
    (hw : ∀ a ∈ as, a.1.Well ∧ a.2 ≤ R ∧ ∀ c b, a.1 = .client c b → b.more = true)
    (hend : ((LoadRunSt.init init).play addr tbl (clientNums res) (stageClients res) as).run.stage.pc = .ended) :
    let L := (LoadRunSt.init init).play addr tbl (clientNums res) (stageClients res) as
    ∀ (k : Nat) x, (stageClients res)[k]? = some x →
      (L.run.joint.cl k).pc = .stopped .regular ∧ (∀ i code, CEv.failed i code ∉ (L.run.joint.cl k).trace) ∧
      ∃ (i : Nat) (sl : Stmt) (l : Lim), x.statements[i]? = some sl ∧ sl.limit = some l ∧ ∃ r ∈ l.rowLimits, r.max ≤ r.n + L.written (addr k i) := by
  intro L k x hx
  obtain ⟨bs, h1, h2⟩ := load_run (P := GoesOk) addr init tbl (clientNums res) (stageClients res) goesOk_more as
    fun a ha => (hw a ha).1
  have hp := parts_run tbl (clientNums res) (stageClients res) bs h1
  rw [← h2] at hp
  obtain ⟨h3, h4⟩ := ended_client hl hs hne hidle h tbl hp hend hx
  refine ⟨h3, h4, ?_⟩
  have hinv := loadInv_run (G := False) (M := True) (addr := addr) tbl (clientNums res) hsane as fun a ha =>
    ⟨(hw a ha).2.1, fun hf => hf.elim, fun _ => (hw a ha).2.2⟩
  have hno' : (x.iterExecGroup.map (·.1)).getD 0 = 0 ∧ (x.iterClients.map (·.1)).getD 0 = 0 ∧ x.iter = 0 := by
    obtain ⟨e, j, c, hc⟩ := mem_stageClients (List.mem_of_getElem? hx)
    obtain ⟨cg, hcg, -, hok⟩ := allocClients_at hne h hc
    obtain ⟨n1, n2, n3⟩ := hno e j cg hcg
    rw [hok.iterExecGroup, hok.iterClients, hok.iter, n1, n2, n3]
    simp [sharedIter]
  obtain ⟨n1, n2, n3⟩ := hno'
  rcases hinv.stop trivial k x hx h3 with h5 | ⟨i, sl, h5, h6, r, h7, h8⟩
  · omega
  · obtain ⟨l, hl'⟩ := Option.isSome_iff_exists.1 h6.limit
    refine ⟨i, sl, l, h5, hl', r, ?_, h8⟩
    rw [← hat k x i sl l hx h5 hl']
    exact h7

/-- **C131, not much more than the limit.** At any moment of any schedule, whatever fails: the rows that the statements with a
limit have written are fewer than were missing, plus at most `R` rows for each client, where `R` is the most that an execution
affects. The counters of the limits say so too. -/
theorem C131_overshoot {cs : List AClient} (tbl : GoMap Nat Nat) (groups : List (List Nat)) {addr : Nat → Nat → Nat}
    {init : Nat → List Rows} {R : Nat} (hsane : SaneRows init R cs.length) (as : List (RAct × Nat)) (hw : ∀ a ∈ as, a.2 ≤ R) :
    let L := (LoadRunSt.init init).play addr tbl groups cs as
    ∀ p, (L.rows p = (init p).map fun r => ⟨r.max, r.n + L.written p⟩) ∧
      ∀ r ∈ init p, (L.written p : Int) ≤ max 0 (r.max - 1 - r.n) + R * cs.length := by
  intro L p
  have hinv := loadInv_run (G := False) (M := False) (addr := addr) tbl groups hsane as fun a ha =>
    ⟨hw a ha, fun hf => hf.elim, fun hf => hf.elim⟩
  refine ⟨hinv.rows p, fun r hr => ?_⟩
  have := hinv.over p r hr
  push_cast at this
  have h0 : (0 : Int) ≤ (R : Int) *
      (flying addr cs ((LoadRunSt.init init).play addr tbl groups cs as).run.joint p : Int) := by positivity
  show (((LoadRunSt.init init).play addr tbl groups cs as).written p : Int) ≤ _
  omega

/-- **C131, a stage does not end before the data is there.** As long as executions affect no rows (an INSERT IGNORE of rows that
exist, say), a stage with a client whose only limits are limits of rows, none of them reached at the start, does not end,
though no query fails. -/
theorem C131_not_before {env : WEnv} {w : List CGCfg} {q t : Nat} {s : DataScope}
    {groups : List (List Nat)} {st : WState} {res : List (List ACGroup)} {tfs : List TrxFile}
    {set : TrxSet} {keys : GoMap String TKey} (hl : loadTrx ⟨[], GoMap.empty, GoMap.empty, keys⟩ tfs = .ok set)
    (hs : env.stmts = set.statements) (hne : NoEmptyTrx env w)
    (hidle : ∀ cg ∈ w, ∀ n ∈ cg.trx, ∀ x, ((env.stmts n).getD [])[0]? = some x → x.idle = 0)
    (h : allocClients env w q t s groups = .ok (st, res)) (hone : stageClients res ≠ [])
    (hno : ∀ e j cg, CfgAt w groups e j cg → finchUint cg.iter = 0 ∧ finchUint cg.iterClients = 0 ∧ finchUint cg.iterExecGroup = 0)
    (tbl : GoMap Nat Nat) {addr : Nat → Nat → Nat} {init : Nat → List Rows} (hat : LimitsAt addr init (stageClients res))
    (hsane : ∀ p, ∀ r ∈ init p, 0 ≤ r.n ∧ r.n < r.max ∧ r.max < 2 ^ 61) (as : List (RAct × Nat))
    (hw : ∀ a ∈ as, a.1.Well ∧ a.2 = 0 ∧ ∀ c b, a.1 = .client c b → b.more = true) :
    ((LoadRunSt.init init).play addr tbl (clientNums res) (stageClients res) as).run.stage.pc ≠ .ended := by
  intro hend
  have hsane' : SaneRows init 0 (stageClients res).length := by
    refine ⟨by rw [Nat.zero_mul]; decide, fun p r hr => ?_⟩
    have := hsane p r hr
    omega
  obtain ⟨x, hx⟩ := List.exists_mem_of_ne_nil _ hone
  obtain ⟨k, hk⟩ := List.mem_iff_getElem?.1 hx
  obtain ⟨-, -, i, sl, l, h1, h2, r, h3, h4⟩ := C131_loaded hl hs hne hidle h hno tbl hat hsane' as
    (fun a ha => ⟨(hw a ha).1, (hw a ha).2.1.le, (hw a ha).2.2⟩) hend k x hk
  have hr : r ∈ init (addr k i) := by rw [hat k x i sl l hk h1 h2]; exact h3
  have h5 := (C131_overshoot tbl (clientNums res) (addr := addr) hsane' as (fun a ha => (hw a ha).2.1.le) (addr k i)).2 r hr
  have h6 := hsane _ r hr
  omega

/-- Spec: a limit without limits of size and without nil pointers. -/
def Lim.onlyRows : Lim → Bool
  | .rows o => o.isSome
  | .size _ => false
  | .or a b => a.onlyRows && b.onlyRows

/-- **C131, what the limit of a statement answers.** A limit, which may be a combination, says that there is more only if all its
row limits do, and if it has only row limits, exactly then; asking changes no row limit. -/
theorem C131_more : ∀ (l : Lim) (c : Conn) (l' : Lim) (b : Bool), l.more c = .ok (l', b) →
    l'.rowLimits = l.rowLimits ∧ (b = true → l.rowLimits.all Rows.more = true) ∧
      (l.onlyRows = true → b = l.rowLimits.all Rows.more)
  | .rows none, c, l', b, h => by cases h
  | .rows (some r), c, l', b, h => by
    cases h
    simp [Lim.rowLimits]
  | .size z, c, l', b, h => by
    cases h
    simp [Lim.rowLimits, Lim.onlyRows]
  | .or x y, c, l', b, h => by
    simp only [Lim.more] at h
    split at h
    · cases h
    · rename_i x' hx
      cases h
      obtain ⟨h1, -, h3⟩ := C131_more x c x' false hx
      refine ⟨by simp [Lim.rowLimits, h1], by simp, ?_⟩
      intro ho
      simp only [Lim.onlyRows, Bool.and_eq_true] at ho
      rw [Lim.rowLimits, List.all_append, ← h3 ho.1, Bool.false_and]
    · rename_i x' hx
      split at h
      · cases h
      · rename_i y' r hy
        cases h
        obtain ⟨h1, h2, h3⟩ := C131_more x c x' true hx
        obtain ⟨k1, k2, k3⟩ := C131_more y c y' b hy
        refine ⟨by simp [Lim.rowLimits, h1, k1], ?_, ?_⟩
        · intro hb
          rw [Lim.rowLimits, List.all_append, h2 rfl, k2 hb, Bool.and_self]
        · intro ho
          simp only [Lim.onlyRows, Bool.and_eq_true] at ho
          rw [Lim.rowLimits, List.all_append, ← h3 ho.1, ← k3 ho.2, Bool.true_and]

/-- **C131, what the limit of a statement is told.** All row limits of a combination count the affected rows. -/
theorem C131_affected : ∀ (l : Lim) (n : Int) (l' : Lim), l.affected n = .ok l' →
    l'.rowLimits = l.rowLimits.map (·.affected n)
  | .rows none, n, l', h => by cases h
  | .rows (some r), n, l', h => by cases h; rfl
  | .size z, n, l', h => by cases h; rfl
  | .or x y, n, l', h => by
    simp only [Lim.affected] at h
    split at h
    · cases h
    · rename_i x' hx
      split at h
      · cases h
      · rename_i y' hy
        cases h
        simp [Lim.rowLimits, C131_affected x n x' hx, C131_affected y n y' hy]

/-! ### An example -/

/-- A trx file that inserts five rows. -/
def exLoadFile : TrxFile :=
  { env := demoEnv, data := fun _ => none, lines := some (["-- rows: 5", "INSERT INTO t VALUES (1), (2)"].map String.toList) }

def exLoadSet : TrxSet := ((loadTrx ⟨[], GoMap.empty, GoMap.empty, GoMap.empty⟩ [exLoadFile]).toOption).getD
  ⟨[], GoMap.empty, GoMap.empty, GoMap.empty⟩

def exLoadRunEnv : WEnv := ⟨exLoadSet.statements, 1, true, fun _ _ => false⟩

def exLoadW : List CGCfg := [{ clients := "2", group := "a", trx := ["t"] }]

def exLoadRes : List (List ACGroup) := (((allocClients exLoadRunEnv exLoadW 0 0 DataScope.new [[0]]).toOption).map (·.2)).getD []

/-- The statement and its limit, which both clients share. -/
def exLoadAddr (_ i : Nat) : Nat := i
def exLoadInit (p : Nat) : List Rows := if p = 0 then [⟨5, 0⟩] else []

def exLoadRound : List (RAct × Nat) :=
  [(.stage .next, 1), (.client (0, 1) okAns, 2), (.client (0, 0) okAns, 2),
   (.stage (.send (0, 0)), 1), (.stage .recv, 1), (.stage (.send (0, 1)), 1), (.stage .recv, 1)]

def exLoad (n : Nat) : LoadRunSt :=
  (LoadRunSt.init exLoadInit).play exLoadAddr GoMap.empty (clientNums exLoadRes) (stageClients exLoadRes)
    (List.replicate n exLoadRound).flatten

/-- Two clients insert two rows at a time until there are five or more: eight rows, since the second client asked while the first
one executed. -/
example : clientNums exLoadRes = [[2]] ∧ (exLoad 12).run.stage.pc ≠ .ended ∧ (exLoad 60).run.stage.pc = .ended ∧
    (exLoad 60).written 0 = 8 ∧
    (List.range 2).map (fun k => ((exLoad 60).run.joint.cl k).pc) = [.stopped .regular, .stopped .regular] := by
  decide +kernel

theorem exLoad_stmts : ∃ st, (exLoadRunEnv.stmts "t").getD [] = [st] ∧ st.idle = 0 ∧ st.resultSet = false ∧
    (st.limit.map Lim.rowLimits) = some [⟨5, 0⟩] := by
  have h : (match (exLoadRunEnv.stmts "t").getD [] with
    | [st] => decide (st.idle = 0) && decide (st.resultSet = false) && decide ((st.limit.map Lim.rowLimits) = some [⟨5, 0⟩])
    | _ => false) = true := by decide +kernel
  revert h
  cases (exLoadRunEnv.stmts "t").getD [] with
  | nil => intro h; cases h
  | cons st l =>
    cases l with
    | nil =>
      intro h
      simp only [Bool.and_eq_true, decide_eq_true_eq] at h
      exact ⟨st, rfl, h.1.1, h.1.2, h.2⟩
    | cons _ _ => intro h; cases h

theorem ok_of_toOption {α : Type} {o : Out α} (h : o.toOption.isSome = true) (d : α) : o = .ok (o.toOption.getD d) := by
  cases o with
  | ok a => rfl
  | _ => cases h

/-- The hypotheses of the claims hold for the example. -/
example : loadTrx ⟨[], GoMap.empty, GoMap.empty, GoMap.empty⟩ [exLoadFile] = .ok exLoadSet ∧
    exLoadRunEnv.stmts = exLoadSet.statements ∧ NoEmptyTrx exLoadRunEnv exLoadW ∧
    (∀ cg ∈ exLoadW, ∀ n ∈ cg.trx, ∀ x, ((exLoadRunEnv.stmts n).getD [])[0]? = some x → x.idle = 0) ∧
    (∃ st, allocClients exLoadRunEnv exLoadW 0 0 DataScope.new [[0]] = .ok (st, exLoadRes)) ∧
    AllLoad exLoadRunEnv exLoadW [[0]] ∧ LimitsAt exLoadAddr exLoadInit (stageClients exLoadRes) ∧
    SaneRows exLoadInit 2 (stageClients exLoadRes).length ∧ stageClients exLoadRes ≠ [] ∧
    (∀ p, ∀ r ∈ exLoadInit p, 0 ≤ r.n ∧ r.n < r.max ∧ r.max < 2 ^ 61) ∧
    (∀ e j cg, CfgAt exLoadW [[0]] e j cg → finchUint cg.iter = 0 ∧ finchUint cg.iterClients = 0 ∧ finchUint cg.iterExecGroup = 0) := by
  obtain ⟨st, h1, h2, h3, h4⟩ := exLoad_stmts
  have hlen : (stageClients exLoadRes).length = 2 := by decide +kernel
  have h0 : finchUint "" = 0 := by decide +kernel
  have hcfg : ∀ e j cg, CfgAt exLoadW [[0]] e j cg → cg = { clients := "2", group := "a", trx := ["t"] } := by
    rintro e j cg ⟨g, r, g1, g2, g3⟩
    rcases e with _ | e
    · cases g1
      rcases j with _ | j
      · cases g2; cases g3; rfl
      · simp at g2
    · simp at g1
  have hne : NoEmptyTrx exLoadRunEnv exLoadW := by
    intro cg hcg n hn
    simp only [exLoadW, List.mem_singleton] at hcg
    subst hcg
    simp only [List.mem_singleton] at hn
    subst hn
    rw [h1]; simp
  have halloc : ∃ st, allocClients exLoadRunEnv exLoadW 0 0 DataScope.new [[0]] = .ok (st, exLoadRes) := by
    have h : (allocClients exLoadRunEnv exLoadW 0 0 DataScope.new [[0]]).toOption.isSome = true := by decide +kernel
    unfold exLoadRes
    revert h
    cases allocClients exLoadRunEnv exLoadW 0 0 DataScope.new [[0]] with
    | ok a => intro _; exact ⟨a.1, rfl⟩
    | _ => intro h; cases h
  refine ⟨ok_of_toOption (by decide +kernel) _, rfl, hne, ?_, halloc, ?_, ?_, ⟨by rw [hlen]; decide, ?_⟩, (by intro h; rw [h] at hlen; cases hlen), ?_, ?_⟩
  · intro cg hcg n hn x hx
    simp only [exLoadW, List.mem_singleton] at hcg
    subst hcg
    simp only [List.mem_singleton] at hn
    subst hn
    rw [h1] at hx
    cases hx
    exact h2
  · intro e j cg hcg
    rw [hcfg e j cg hcg]
    obtain ⟨l, hl, hr⟩ := Option.map_eq_some_iff.1 h4
    exact ⟨"t", by simp, st, by rw [h1]; simp, ⟨h2, h3, by rw [hl]; rfl⟩, l, hl, by rw [hr]; simp⟩
  · obtain ⟨wst, ha⟩ := halloc
    intro k x i sl l hx hsl hl
    obtain ⟨e, j, c, hat⟩ := mem_stageClients (List.mem_of_getElem? hx)
    obtain ⟨cg, hcg, -, hok⟩ := allocClients_at hne ha hat
    rw [hok.statements, hcfg e j cg hcg] at hsl
    simp only [List.flatMap_cons, List.flatMap_nil, List.append_nil, h1] at hsl
    rcases i with _ | i
    · cases hsl
      rw [hl] at h4
      simp only [Option.map_some, Option.some.injEq] at h4
      rw [h4]
      rfl
    · simp at hsl
  · intro p r hr
    unfold exLoadInit at hr
    split at hr
    · simp only [List.mem_singleton] at hr
      subst hr
      decide
    · cases hr
  · intro p r hr
    unfold exLoadInit at hr
    split at hr
    · simp only [List.mem_singleton] at hr
      subst hr
      decide
    · cases hr
  · intro e j cg hcg
    rw [hcfg e j cg hcg]
    exact ⟨h0, h0, h0⟩

/-- A combination that says there is more, and one that does not. -/
example (c : Conn) : (Lim.or (.rows (some ⟨5, 0⟩)) (.rows (some ⟨7, 1⟩))).more c =
      .ok (.or (.rows (some ⟨5, 0⟩)) (.rows (some ⟨7, 1⟩)), true) ∧
    (Lim.or (.rows (some ⟨5, 0⟩)) (.rows (some ⟨7, 8⟩))).more c =
      .ok (.or (.rows (some ⟨5, 0⟩)) (.rows (some ⟨7, 8⟩)), false) ∧
    (Lim.or (.rows (some ⟨5, 0⟩)) (.rows (some ⟨7, 1⟩))).affected 3 =
      .ok (.or (.rows (some ⟨5, 3⟩)) (.rows (some ⟨7, 4⟩))) := ⟨rfl, rfl, rfl⟩

/-- A schedule in which everybody gets a turn again and again, nothing fails, and executions affect one or two rows. -/
def exLoadFair (n : Nat) : RAct × Nat :=
  (match exFair n with
    | .stage a => .stage a
    | .client c _ => .client c okAns, n % 2 + 1)

example : (Fair fun n => (exLoadFair n).1) ∧
    ∀ n, (exLoadFair n).1.Well ∧ 1 ≤ (exLoadFair n).2 ∧ (exLoadFair n).2 ≤ 2 ∧
      ∀ c b, (exLoadFair n).1 = .client c b → b.more = true := by
  refine ⟨⟨?_, ?_, ?_, ?_⟩, ?_⟩
  · intro n
    exact ⟨Nat.pair 0 n, Nat.right_le_pair _ _, by simp [exLoadFair, exFair]⟩
  · intro n
    exact ⟨Nat.pair 1 n, Nat.right_le_pair _ _, by simp [exLoadFair, exFair]⟩
  · intro n c
    refine ⟨Nat.pair (4 * Nat.pair c.1 c.2 + 2) n, Nat.right_le_pair _ _, ?_⟩
    have h1 : (4 * Nat.pair c.1 c.2 + 2) % 4 = 2 := by omega
    have h2 : (4 * Nat.pair c.1 c.2 + 2) / 4 = Nat.pair c.1 c.2 := by omega
    simp [exLoadFair, exFair, h1, h2]
  · intro n c
    refine ⟨Nat.pair (4 * Nat.pair c.1 c.2 + 3) n, Nat.right_le_pair _ _, okAns, ?_, rfl⟩
    have h1 : (4 * Nat.pair c.1 c.2 + 3) % 4 = 3 := by omega
    have h2 : (4 * Nat.pair c.1 c.2 + 3) / 4 = Nat.pair c.1 c.2 := by omega
    simp [exLoadFair, exFair, h1, h2]
  · intro n
    refine ⟨?_, by simp [exLoadFair], by simp only [exLoadFair]; omega, ?_⟩
    · have hq : (exFair n).Quiet := by
        unfold exFair
        (repeat' split) <;> simp [RAct.With]
      unfold exLoadFair
      revert hq
      cases exFair n with
      | stage a => exact id
      | client c a => intro _; exact ⟨rfl, rfl, rfl⟩
    · intro c b
      unfold exLoadFair
      cases exFair n with
      | stage a => intro h; cases h
      | client c a => intro h; cases h; rfl

end Finch
