import Verif.Props.SessionAlloc
/-!
C114, third part: statements with the same trx count are of the same trx of the client.
-/
namespace Finch

/-! ### Positions of statements -/

theorem stmtPositions_at {stmts : GoMap String (List Stmt)} {ns : List String} : ∀ {t i t' q' : Nat},
    (stmtPositions stmts t ns)[i]? = some (t', q') → ∃ n ∈ ns, ∃ q, q' = q + 1 ∧
      (ns.flatMap fun n => (stmts n).getD [])[i]? = ((stmts n).getD [])[q]? ∧
      (ns.flatMap fun n => marks ((stmts n).getD []).length)[i]? =
        some (decide (q = 0), decide (q + 1 = ((stmts n).getD []).length)) := by
  induction ns with
  | nil => intro t i t' q' h; simp [stmtPositions] at h
  | cons n ns ih =>
    intro t i t' q' h
    rw [stmtPositions] at h
    by_cases hlt : i < ((stmts n).getD []).length
    · rw [List.getElem?_append_left (by simpa using hlt), List.getElem?_map, List.getElem?_range hlt] at h
      simp only [Option.map_some, Option.some.injEq, Prod.mk.injEq] at h
      refine ⟨n, by simp, i, h.2.symm, ?_, ?_⟩
      · rw [List.flatMap_cons, List.getElem?_append_left hlt]
      · rw [List.flatMap_cons, List.getElem?_append_left (by simp [marks]; exact hlt)]
        simp [marks, List.getElem?_range hlt]
    · rw [List.getElem?_append_right (by simp; omega)] at h
      simp only [List.length_map, List.length_range] at h
      obtain ⟨m, hm, q, h1, h2, h3⟩ := ih h
      refine ⟨m, by simp [hm], q, h1, ?_, ?_⟩
      · rw [List.flatMap_cons, List.getElem?_append_right (by omega)]; exact h2
      · rw [List.flatMap_cons, List.getElem?_append_right (by simp [marks]; omega)]
        simp only [marks, List.length_map, List.length_range] at h3 ⊢
        exact h3

theorem stmtPositions_first {stmts : GoMap String (List Stmt)} {ns : List String} : ∀ {t t' q' : Nat},
    (stmtPositions stmts t ns)[0]? = some (t', q') → q' = 1 := by
  induction ns with
  | nil => intro t t' q' h; simp [stmtPositions] at h
  | cons n ns ih =>
    intro t t' q' h
    rw [stmtPositions] at h
    by_cases hlt : 0 < ((stmts n).getD []).length
    · rw [List.getElem?_append_left (by simpa using hlt), List.getElem?_map, List.getElem?_range hlt] at h
      simp only [Option.map_some, Option.some.injEq, Prod.mk.injEq] at h
      exact h.2.symm
    · rw [List.getElem?_append_right (by simp only [List.length_map, List.length_range]; omega)] at h
      simp only [List.length_map, List.length_range, Nat.zero_sub] at h
      exact ih h

theorem stmtPositions_next {stmts : GoMap String (List Stmt)} {ns : List String} : ∀ {t i t1 q1 t2 q2 : Nat},
    (stmtPositions stmts t ns)[i]? = some (t1, q1) → (stmtPositions stmts t ns)[i + 1]? = some (t2, q2) →
    q2 ≠ 1 → t2 = t1 := by
  induction ns with
  | nil => intro t i t1 q1 t2 q2 h; simp [stmtPositions] at h
  | cons n ns ih =>
    intro t i t1 q1 t2 q2 h1 h2 hq
    rw [stmtPositions] at h1 h2
    by_cases hlt : i + 1 < ((stmts n).getD []).length
    · rw [List.getElem?_append_left (by simp; omega), List.getElem?_map, List.getElem?_range (by omega)] at h1 h2
      simp only [Option.map_some, Option.some.injEq, Prod.mk.injEq] at h1 h2
      omega
    · rw [List.getElem?_append_right (by simp; omega)] at h2
      simp only [List.length_map, List.length_range] at h2
      by_cases hlt' : i < ((stmts n).getD []).length
      · rw [show i + 1 - ((stmts n).getD []).length = 0 by omega] at h2
        exact absurd (stmtPositions_first h2) hq
      · rw [List.getElem?_append_right (by simp; omega)] at h1
        simp only [List.length_map, List.length_range] at h1
        rw [show i + 1 - ((stmts n).getD []).length = i - ((stmts n).getD []).length + 1 by omega] at h2
        exact ih h1 h2 hq

/-! ### Trx of a client -/

/-- `τ` numbers the trx of a client. -/
structure TrxNumbers (c : Cli) (τ : Nat → Nat) : Prop where
  first : ∀ d : StmtData, c.data[0]? = some d → d.begin_ = true
  same : ∀ (i : Nat) (d : StmtData), c.data[i + 1]? = some d → d.begin_ = false → τ (i + 1) = τ i
  busy : ∀ (i : Nat) (st : Stmt) (d : StmtData), c.statements[i]? = some st → c.data[i]? = some d → d.begin_ = true → st.idle = 0
  len : c.data.length = c.statements.length

theorem TrxNumbers.beginsBusy {c : Cli} {τ : Nat → Nat} (h : TrxNumbers c τ) : BeginsBusy c := by
  intro st hst
  have hlt := (List.getElem?_eq_some_iff.1 hst).1
  have hd := List.getElem?_eq_getElem (h.len ▸ hlt : 0 < c.data.length)
  refine ⟨h.busy 0 st _ hst hd (h.first _ hd), fun d hd' => h.first d hd'⟩

/-- The statement a client is past. -/
def pastStmt : CPc → Option Nat
  | .stmt (i + 1) | .limit i | .exec i | .scan i => some i
  | _ => none

/-- What holds of the trx counts of all calls of value functions so far. -/
structure TrxCountInv (τ : Nat → Nat) (s : CState) : Prop where
  le : ∀ i cnt, CEv.gen i cnt ∈ s.trace → cnt.trx ≤ s.trxCount
  past : ∀ i, pastStmt s.pc = some i → ∀ j cnt, CEv.gen j cnt ∈ s.trace → cnt.trx = s.trxCount → τ j = τ i
  same : ∀ i cnt i' cnt', CEv.gen i cnt ∈ s.trace → CEv.gen i' cnt' ∈ s.trace → cnt.trx = cnt'.trx →
    τ i = τ i'

theorem TrxCountInv.plain {τ : Nat → Nat} {s s' : CState} {l : List CEv} (h : TrxCountInv τ s)
    (htr : s'.trace = s.trace ++ l) (hl : ∀ e ∈ l, e.isGen = false) (hc : s'.trxCount = s.trxCount)
    (hp : ∀ i, pastStmt s'.pc = some i → pastStmt s.pc = some i) : TrxCountInv τ s' := by
  have hm : ∀ i cnt, CEv.gen i cnt ∈ s'.trace → CEv.gen i cnt ∈ s.trace := by
    intro i cnt hx
    rw [htr] at hx
    rcases List.mem_append.1 hx with hx | hx
    · exact hx
    · exact absurd (hl _ hx) (by simp [CEv.isGen])
  refine ⟨?_, ?_, ?_⟩
  · intro i cnt hx; rw [hc]; exact h.le i cnt (hm i cnt hx)
  · intro i hi j cnt hx he; rw [hc] at he; exact h.past i (hp i hi) j cnt (hm j cnt hx) he
  · intro i cnt i' cnt' hx hx'; exact h.same i cnt i' cnt' (hm i cnt hx) (hm i' cnt' hx')

theorem trxCountInv_run {c : Cli} {τ : Nat → Nat} (ht : TrxNumbers c τ) (as : List Ans) :
    TrxCountInv τ (CState.init.run c as) := by
  refine CState.run_inv (c := c) (P := TrxCountInv τ) ?_ as _ ⟨by simp [CState.init], by simp [CState.init],
    by simp [CState.init]⟩
  intro s a s' h hs
  cases h
  case stmt i st d hpc hst hi hd =>
    have hpast : ∀ j, pastStmt (if !st.resultSet && st.limit.isSome then CPc.limit i else CPc.exec i) =
        some j → j = i := by
      intro j; split <;> simp [pastStmt] <;> exact fun h => h.symm
    have hw : ∀ e ∈ waitEv c st, e.isGen = false := by
      intro e he; rcases mem_waitEv he with rfl | rfl <;> rfl
    have hmem : ∀ (x : RunCount) j cnt, CEv.gen j cnt ∈ s.trace ++ (waitEv c st ++ [.gen i x]) →
        CEv.gen j cnt ∈ s.trace ∨ (j = i ∧ cnt = x) := by
      intro x j cnt hx
      rcases List.mem_append.1 hx with hx | hx
      · exact Or.inl hx
      · rcases List.mem_append.1 hx with hx | hx
        · exact absurd (hw _ hx) (by simp [CEv.isGen])
        · simp only [List.mem_singleton, CEv.gen.injEq] at hx
          exact Or.inr hx
    have hlast : d.begin_ = false → ∀ j cnt, CEv.gen j cnt ∈ s.trace → cnt.trx = s.trxCount → τ j = τ i := by
      intro hb j cnt hx he
      cases i with
      | zero => rw [ht.first d hd] at hb; cases hb
      | succ i => rw [ht.same i d hd hb]; exact hs.past i (by rw [hpc]; rfl) j cnt hx he
    have hcnt : ∀ j cnt, CEv.gen j cnt ∈ s.trace →
        cnt.trx = (if d.begin_ then s.trxCount + 1 else s.trxCount) → τ j = τ i := by
      intro j cnt hx he
      cases hb : d.begin_ with
      | true =>
        rw [hb, if_pos rfl] at he
        have := hs.le j cnt hx
        omega
      | false =>
        rw [hb] at he
        exact hlast hb j cnt hx he
    refine ⟨?_, ?_, ?_⟩
    · intro j cnt hx
      dsimp only at hx ⊢
      rcases hmem _ j cnt hx with hx | ⟨rfl, rfl⟩
      · have := hs.le j cnt hx
        split <;> omega
      · exact Nat.le_refl _
    · intro j hj k cnt hx he
      dsimp only at hj hx he
      rw [hpast j hj]
      rcases hmem _ k cnt hx with hx | ⟨rfl, rfl⟩
      · exact hcnt k cnt hx he
      · rfl
    · intro j cnt j' cnt' hx hx' he
      dsimp only at hx hx'
      rcases hmem _ j cnt hx with hy | ⟨rfl, rfl⟩ <;> rcases hmem _ j' cnt' hx' with hy' | ⟨rfl, rfl⟩
      · exact hs.same j cnt j' cnt' hy hy' he
      · exact hcnt j cnt hy he
      · exact (hcnt j' cnt' hy' he.symm).symm
      · rfl
  case idle i st hpc hst hi =>
    have hlt := (List.getElem?_eq_some_iff.1 hst).1
    have hd := List.getElem?_eq_getElem (ht.len ▸ hlt : i < c.data.length)
    have hb : (c.data[i]'(ht.len ▸ hlt)).begin_ = false := by
      cases hb : (c.data[i]'(ht.len ▸ hlt)).begin_ with
      | false => rfl
      | true => exact absurd (ht.busy i st _ hst hd hb) hi
    have hm : ∀ j cnt, CEv.gen j cnt ∈ s.trace ++ [.slept i] → CEv.gen j cnt ∈ s.trace := by
      intro j cnt hx
      rcases List.mem_append.1 hx with hx | hx
      · exact hx
      · simp at hx
    refine ⟨fun j cnt hx => hs.le j cnt (hm j cnt hx), ?_, fun j cnt j' cnt' hx hx' =>
      hs.same j cnt j' cnt' (hm j cnt hx) (hm j' cnt' hx')⟩
    intro j hj k cnt hx he
    simp only [pastStmt, Option.some.injEq] at hj
    subst hj
    cases i with
    | zero => rw [ht.first _ hd] at hb; cases hb
    | succ i => rw [ht.same i _ hd hb]; exact hs.past i (by rw [hpc]; rfl) k cnt (hm k cnt hx) he
  case more i hpc hm =>
    exact hs.plain (l := []) (by simp) (by simp) rfl (by rw [hpc]; simp [pastStmt])
  case execRows i st d stat hpc hst hd hstat hc he hr =>
    refine hs.plain rfl ?_ rfl ?_
    · intro e he
      rcases List.mem_cons.mp he with rfl | he
      · rfl
      · exact isGen_counts e (counts_recEv e he)
    · intro j hj
      rw [hpc]
      dsimp only at hj
      revert hj
      split <;> simp [pastStmt]
  case execOk i st d stat hpc hst hd hstat hc he hr =>
    refine hs.plain rfl ?_ rfl (by rw [hpc]; simp [pastStmt])
    intro e he
    rcases List.mem_cons.mp he with rfl | he
    · rfl
    · rcases List.mem_append.mp he with he | he
      · exact isGen_counts e (counts_recEv e he)
      · rcases mem_okEv he with rfl | rfl <;> rfl
  case scanOk i hpc he =>
    exact hs.plain rfl (by simp [CEv.isGen]) rfl (by rw [hpc]; simp [pastStmt])
  case execFail i st d stat code hpc hst hd hstat he =>
    refine hs.plain rfl ?_ rfl (by simp [pastStmt])
    intro e he
    rcases List.mem_cons.mp he with rfl | he
    · rfl
    · rcases List.mem_append.mp he with he | he
      · exact isGen_counts e (counts_recEv e he)
      · rw [List.mem_singleton.mp he]; rfl
  case error =>
    refine hs.plain rfl ?_ rfl (by simp [pastStmt])
    intro e he
    obtain ⟨n, rfl⟩ := mem_errEv he
    rfl
  case connFail => exact hs
  case stopped => exact hs
  all_goals first
    | (refine hs.plain (l := []) ?_ ?_ rfl ?_ <;> (simp [pastStmt]; done))
    | (refine hs.plain rfl ?_ rfl ?_ <;> (simp [CEv.isGen, pastStmt]; done))

/-! ### Clients of an allocation -/

/-- Spec: no trx begins with idle time. -/
def NoIdleFirst (env : WEnv) : Prop :=
  ∀ n ss stmt, env.stmts n = some ss → ss[0]? = some stmt → stmt.idle = 0

/-- Spec: the trx number of each statement of a client. -/
def trxNumber (env : WEnv) (cg : CGCfg) (i : Nat) : Nat :=
  (((stmtPositions env.stmts 0 cg.trx)[i]?).map (·.1)).getD 0

theorem Staged.trxNumbers {pre : List ScopeOp} {env : WEnv} {w : List CGCfg} {groups : List (List Nat)}
    {st : WState} {res : List (List ACGroup)} (hs : Staged pre env w groups st res) (hb : NoIdleFirst env)
    {e j c : Nat} {a : AClient} {cg : CGCfg} (ha : ClientAt res e j c a) (hcg : CfgAt w groups e j cg)
    (tbl : GoMap Nat Nat) : TrxNumbers (a.cli tbl) (trxNumber env cg) := by
  obtain ⟨hne, stage1, obs, s, qps, tps, h1, hpre, hbeg, h⟩ := hs
  obtain ⟨cg', hcg', -, hok⟩ := allocClients_at hne h ha
  cases cfgAt_unique hcg hcg'
  obtain ⟨l1, l2, -⟩ := hok.prov.at
  have hlen : a.data.length = a.statements.length := by rw [hok.statements]; exact l2
  have hmark : ∀ (i : Nat) (d : StmtData), a.data[i]? = some d → ∃ t q n, (stmtPositions env.stmts 0 cg.trx)[i]? = some (t, q + 1) ∧
      a.statements[i]? = ((env.stmts n).getD [])[q]? ∧ d.begin_ = decide (q = 0) := by
    intro i d hd
    have hlt := (List.getElem?_eq_some_iff.1 hd).1
    have hp := List.getElem?_eq_getElem (l1 ▸ hlt : i < (stmtPositions env.stmts 0 cg.trx).length)
    obtain ⟨n, hn, q, q1, q2, q3⟩ := stmtPositions_at hp
    refine ⟨_, q, n, by rw [hp]; exact congrArg some (Prod.ext rfl q1), by rw [hok.statements, q2], ?_⟩
    rw [← hok.marks, List.getElem?_map, hd] at q3
    simp only [Option.map_some, Option.some.injEq, Prod.mk.injEq] at q3
    exact q3.1
  refine ⟨?_, ?_, ?_, hlen⟩
  · intro d hd
    obtain ⟨t, q, n, q1, -, q3⟩ := hmark 0 d hd
    have := stmtPositions_first q1
    rw [q3]; simpa using this
  · intro i d hd hbf
    obtain ⟨t, q, n, q1, -, q3⟩ := hmark (i + 1) d hd
    have hlt : i + 1 < a.data.length := (List.getElem?_eq_some_iff.1 hd).1
    have hp := List.getElem?_eq_getElem (show i < (stmtPositions env.stmts 0 cg.trx).length by omega)
    have := stmtPositions_next (t1 := _) (q1 := _) hp q1 (by
      rw [q3] at hbf
      simpa using hbf)
    simp [trxNumber, q1, hp, this]
  · intro i stmt d hst hd hbt
    obtain ⟨t, q, n, q1, q2, q3⟩ := hmark i d hd
    rw [q3] at hbt
    have hq : q = 0 := by simpa using hbt
    subst hq
    have hst' : a.statements[i]? = some stmt := hst
    rw [q2] at hst'
    cases hx : env.stmts n with
    | none => rw [hx] at hst'; cases hst'
    | some ss => rw [hx] at hst'; exact hb n ss stmt hx hst'

end Finch
