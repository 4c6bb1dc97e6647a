import Verif.Model.Prepare
import Verif.Props.TrxSet
import Verif.Props.Groups
import Verif.Props.Scope
import Verif.Props.CollectTrx
/-!
C97: preparing a stage does not crash. C98: the collector of a prepared stage watches every client once.
-/
namespace Finch

/-! ### The data scope -/

/-- A generator that was copied is there (true of every scope that `Copy` and `Reset` make). -/
def ScopeSound (s : DataScope) : Prop := ∀ k, s.copyOf k = none → s.copiedAt k = none

/-- Spec: `Copy` gives a generator for this name: it is the no-op column, or neither `@PREV` nor a key with
global scope. -/
def HasGen (s : DataScope) (key : String) : Prop :=
  key = "_" ∨ key ≠ "@PREV" ∧ ∀ k, s.keys key = some k → k.effScope ≠ .global

theorem scopeSound_new : ScopeSound DataScope.new := fun _ _ => rfl

theorem ScopeSound.reset {s : DataScope} (h : ScopeSound s) : ScopeSound s.reset := by
  intro k hk
  simp only [DataScope.reset] at hk ⊢
  split
  · rename_i hr; rw [if_pos hr] at hk; exact h k hk
  · rfl

/-- What stays true of the data scope while clients are allocated: `s` has the same keys as `s0`. -/
structure SameKeys (s0 s : DataScope) : Prop where
  sound : ScopeSound s
  known : ∀ n, s0.keys n ≠ none → s.keys n ≠ none
  gen : ∀ n, HasGen s0 n → HasGen s n

theorem copy_total {s0 s : DataScope} {key : String} {rl : RunLevel} (h : SameKeys s0 s)
    (hk : key = "@PREV" ∨ s0.keys key ≠ none) (hrl : 0 < rl.stage) :
    ∃ s' g, s.copy key rl = .ok (s', g) ∧ SameKeys s0 s' ∧ (HasGen s0 key → g ≠ none) := by
  unfold DataScope.copy
  by_cases hp : key = "@PREV"
  · rw [if_pos hp]
    refine ⟨s, none, rfl, h, ?_⟩
    rintro (rfl | ⟨hn, -⟩)
    · exact absurd hp (by decide)
    · exact absurd hp hn
  rw [if_neg hp]
  have hne := h.known key (hk.resolve_left hp)
  cases hkk : s.keys key with
  | none => exact absurd hkk hne
  | some k =>
    dsimp only
    by_cases hno : key = noopColumn
    · rw [if_pos hno]
      cases hn : s.noop with
      | some a => exact ⟨s, some a, rfl, h, fun _ => by simp⟩
      | none => exact ⟨_, some s.next, rfl, ⟨h.sound, h.known, h.gen⟩, fun _ => by simp⟩
    rw [if_neg hno]
    have hkeys : ∀ n, (s.keys.set key { k with scope := some k.effScope }) n =
        if n = key then some { k with scope := some k.effScope } else s.keys n := by
      intro n
      by_cases hn : n = key
      · subst hn; simp
      · rw [GoMap.set_other _ _ hn, if_neg hn]
    have heff : ({ k with scope := some k.effScope } : Key).effScope = k.effScope := rfl
    have hknown : ∀ n, s0.keys n ≠ none →
        (s.keys.set key { k with scope := some k.effScope }) n ≠ none := by
      intro n hn
      rw [hkeys]
      split
      · simp
      · exact h.known n hn
    have hgen : ∀ n, HasGen s0 n → n = "_" ∨ n ≠ "@PREV" ∧
        ∀ k', (s.keys.set key { k with scope := some k.effScope }) n = some k' → k'.effScope ≠ .global := by
      intro n hn
      rcases h.gen n hn with h1 | ⟨h1, h2⟩
      · exact Or.inl h1
      · refine Or.inr ⟨h1, fun k' hk' => ?_⟩
        rw [hkeys] at hk'
        split at hk'
        · rename_i he
          subst he
          cases hk'
          rw [heff]
          exact h2 k hkk
        · exact h2 k' hk'
    split
    · refine ⟨_, some s.next, rfl, ⟨?_, hknown, hgen⟩, fun _ => by simp⟩
      intro n hn
      dsimp only at hn ⊢
      by_cases he : n = key
      · subst he; simp at hn
      · rw [GoMap.set_other _ _ he] at hn ⊢
        exact h.sound n hn
    · rename_i hgt
      refine ⟨_, s.copyOf key, rfl, ⟨h.sound, hknown, hgen⟩, ?_⟩
      intro hg hnone
      rcases h.gen key hg with h1 | ⟨-, h2⟩
      · exact hno h1
      · refine hgt ?_
        have := h.sound key hnone
        rw [this]
        exact greaterThan_zero (h2 k hkk) hrl

theorem ScopeLog.copy_total {s0 : DataScope} {s : ScopeLog} {key : String} {rl : RunLevel}
    (h : SameKeys s0 s.scope) (hk : key = "@PREV" ∨ s0.keys key ≠ none) (hrl : 0 < rl.stage) :
    ∃ s' g, s.copy key rl = .ok (s', g) ∧ SameKeys s0 s'.scope ∧ (HasGen s0 key → g ≠ none) := by
  obtain ⟨d, g, h1, h2, h3⟩ := Finch.copy_total h hk hrl
  exact ⟨⟨d, _⟩, g, by rw [ScopeLog.copy, h1], h2, h3⟩

/-! ### The allocator -/

/-- A statement for which allocation does not crash. -/
structure StmtSafe (s0 : DataScope) (st : Stmt) : Prop where
  inputs : ∀ k ∈ st.inputs, k = "@PREV" ∨ s0.keys k ≠ none
  outputs : ∀ k ∈ st.outputs, s0.keys k ≠ none
  insertId : st.insertId = "" ∨ st.insertId ∈ st.outputs ∧ HasGen s0 st.insertId
  calls : st.calls.length = st.inputs.length

theorem allocInputs_total {s0 : DataScope} {rl : RunLevel} (hrl : 0 < rl.stage) :
    ∀ (ks : List String) (cs : List Bool) (s : ScopeLog), SameKeys s0 s.scope → cs.length = ks.length →
    (∀ k ∈ ks, k = "@PREV" ∨ s0.keys k ≠ none) →
    ∃ s' l, allocInputs rl s ks cs = .ok (s', l) ∧ SameKeys s0 s'.scope
  | [], cs, s, h, _, _ => ⟨s, [], rfl, h⟩
  | k :: ks, [], s, h, hl, _ => by simp at hl
  | k :: ks, c :: cs, s, h, hl, hk => by
    obtain ⟨s1, g, e, h1, -⟩ := s.copy_total h (hk k (by simp)) hrl
    obtain ⟨s2, l, e2, h2⟩ := allocInputs_total hrl ks cs s1 h1 (by simpa using hl)
      (fun k hk' => hk k (by simp [hk']))
    rw [allocInputs, e]
    cases g with
    | none => exact ⟨s2, l, e2, h2⟩
    | some a =>
      refine ⟨s2, ⟨k, a, c⟩ :: l, ?_, h2⟩
      show (allocInputs rl s1 ks cs).bind _ = _
      rw [e2]; rfl

theorem allocOutputs_total {s0 : DataScope} {rl : RunLevel} (hrl : 0 < rl.stage) (id : String) :
    ∀ (ks : List String) (s : ScopeLog), SameKeys s0 s.scope → (∀ k ∈ ks, s0.keys k ≠ none) →
    ∃ s' l, allocOutputs rl id s ks = .ok (s', l) ∧ SameKeys s0 s'.scope
  | [], s, h, _ => ⟨s, [], rfl, h⟩
  | k :: ks, s, h, hk => by
    rw [allocOutputs]
    by_cases hi : k = id
    · rw [if_pos hi]
      obtain ⟨s2, l, e2, h2⟩ := allocOutputs_total hrl id ks s h (fun k hk' => hk k (by simp [hk']))
      exact ⟨s2, none :: l, by rw [e2]; rfl, h2⟩
    · rw [if_neg hi]
      obtain ⟨s1, g, e, h1, -⟩ := s.copy_total h (Or.inr (hk k (by simp))) hrl
      obtain ⟨s2, l, e2, h2⟩ := allocOutputs_total hrl id ks s1 h1 (fun k hk' => hk k (by simp [hk']))
      refine ⟨s2, g :: l, ?_, h2⟩
      rw [e]
      show (allocOutputs rl id s1 ks).bind _ = _
      rw [e2]; rfl

theorem allocStmt_total {s0 : DataScope} {rl : RunLevel} (hrl : 0 < rl.stage) (b : Bool) {s : ScopeLog}
    (h : SameKeys s0 s.scope) {st : Stmt} (hs : StmtSafe s0 st) :
    ∃ s' d, allocStmt rl b s st = .ok (s', d) ∧ SameKeys s0 s'.scope := by
  obtain ⟨s1, l1, e1, h1⟩ := allocInputs_total hrl st.inputs st.calls s h hs.calls hs.inputs
  obtain ⟨s2, l2, e2, h2⟩ := allocOutputs_total hrl st.insertId st.outputs s1 h1 hs.outputs
  have h3 : ∃ s3 g, allocInsertId rl st.insertId s2 = .ok (s3, g) ∧ SameKeys s0 s3.scope := by
    unfold allocInsertId
    by_cases hi : st.insertId = ""
    · rw [if_pos hi]; exact ⟨s2, none, rfl, h2⟩
    · rw [if_neg hi]
      obtain ⟨hm, hg⟩ := hs.insertId.resolve_left hi
      obtain ⟨s3, g, e3, h3, hgen⟩ := s2.copy_total h2 (Or.inr (hs.outputs _ hm)) hrl
      rw [e3]
      cases g with
      | none => exact absurd rfl (hgen hg)
      | some a => exact ⟨s3, some a, rfl, h3⟩
  obtain ⟨s3, g, e3, h3⟩ := h3
  refine ⟨s3, ⟨l1, l2, g, b, false⟩, ?_, h3⟩
  rw [allocStmt, e1]
  show (allocOutputs rl st.insertId s1 st.outputs).bind _ = _
  rw [e2]
  show (allocInsertId rl st.insertId s2).bind _ = _
  rw [e3]; rfl

theorem allocStmts_total {s0 : DataScope} {rl : RunLevel} (hrl : 0 < rl.stage) :
    ∀ (ss : List Stmt) (b : Bool) (q : Nat) (s : ScopeLog), SameKeys s0 s.scope →
    (∀ st ∈ ss, StmtSafe s0 st) →
    ∃ s' ds, allocStmts rl b q s ss = .ok (s', ds) ∧ SameKeys s0 s'.scope ∧ ds.length = ss.length
  | [], b, q, s, h, _ => ⟨s, [], rfl, h, rfl⟩
  | st :: ss, b, q, s, h, hs => by
    obtain ⟨s1, d, e1, h1⟩ := allocStmt_total (rl := { rl with query := q + 1 }) hrl b h (hs st (by simp))
    obtain ⟨s2, ds, e2, h2, hl⟩ := allocStmts_total hrl ss false (q + 1) s1 h1
      (fun st h => hs st (by simp [h]))
    refine ⟨s2, d :: ds, ?_, h2, by simp [hl]⟩
    rw [allocStmts, e1]
    show (allocStmts rl false (q + 1) s1 ss).bind _ = _
    rw [e2]; rfl

theorem markEnd_len : ∀ l : List StmtData, (markEnd l).length = l.length
  | [] => rfl
  | [_] => rfl
  | _ :: d' :: ds => by
    rw [markEnd]
    simp only [List.length_cons]
    rw [markEnd_len (d' :: ds)]
    simp

/-- The statements of the trx of a client group are known and safe. -/
def GroupSafe (s0 : DataScope) (stmts : GoMap String (List Stmt)) (names : List String) : Prop :=
  ∀ n ∈ names, ∃ ss, stmts n = some ss ∧ ss ≠ [] ∧ ∀ st ∈ ss, StmtSafe s0 st

theorem allocTrx_total {s0 : DataScope} {stmts : GoMap String (List Stmt)} {rl : RunLevel}
    (hrl : 0 < rl.stage) (total : Nat) : ∀ (names : List String) (t : Nat) (done : List StmtData)
    (s : ScopeLog), SameKeys s0 s.scope → GroupSafe s0 stmts names →
    total = done.length + (names.flatMap fun n => (stmts n).getD []).length →
    ∃ s' ds, allocTrx stmts rl total t done s names = .ok (s', ds) ∧ SameKeys s0 s'.scope
  | [], t, done, s, h, _, _ => ⟨s, done, rfl, h⟩
  | n :: names, t, done, s, h, hg, ht => by
    obtain ⟨ss, hn, hne, hss⟩ := hg n (by simp)
    have hpos : 0 < ss.length := List.length_pos_iff.2 hne
    simp only [List.flatMap_cons, List.length_append, hn, Option.getD_some] at ht
    rw [allocTrx]
    simp only [hn, Option.getD_some]
    rw [if_neg (by omega)]
    obtain ⟨s1, ds, e1, h1, hl⟩ := allocStmts_total (rl := { rl with trx := t + 1 }) hrl ss true 0 s h hss
    obtain ⟨s2, ds2, e2, h2⟩ := allocTrx_total hrl total names (t + 1) (markEnd (done ++ ds)) s1 h1
      (fun m hm => hg m (by simp [hm])) (by rw [markEnd_len, List.length_append]; omega)
    refine ⟨s2, ds2, ?_, h2⟩
    rw [e1]
    show (if done ++ ds = [] then _ else _) = _
    rw [if_neg]
    · exact e2
    · intro he
      have : (done ++ ds).length = 0 := by rw [he]; rfl
      simp only [List.length_append] at this
      omega

theorem allocClient_total {s0 : DataScope} {env : WEnv} {cg : CGCfg} {rl : RunLevel} (hrl : 0 < rl.stage)
    (pq pt : Option Nat) (a b : Nat) {st : WState} (h : SameKeys s0 st.sl.scope)
    (hg : GroupSafe s0 env.stmts cg.trx) :
    ∃ st' c, allocClient env cg rl pq pt a b st = .ok (st', c) ∧ SameKeys s0 st'.sl.scope ∧
      c.stats = statsFor env cg := by
  obtain ⟨s1, ds, e1, h1⟩ := allocTrx_total (stmts := env.stmts) hrl
    (cg.trx.flatMap fun n => (env.stmts n).getD []).length cg.trx 0 [] st.sl h hg (by simp)
  rw [allocClient]
  dsimp only
  rw [e1]
  exact ⟨_, _, rfl, h1, rfl⟩

theorem allocClientLoop_total {s0 : DataScope} {env : WEnv} {cg : CGCfg} {rl : RunLevel}
    (hrl : 0 < rl.stage) (pq pt : Option Nat) (a b : Nat) (hg : GroupSafe s0 env.stmts cg.trx) :
    ∀ (k c : Nat) (st : WState), SameKeys s0 st.sl.scope →
    ∃ st' l, allocClientLoop env cg rl pq pt a b c st k = .ok (st', l) ∧ SameKeys s0 st'.sl.scope ∧
      l.map (·.stats) = List.replicate k (statsFor env cg)
  | 0, c, st, h => ⟨st, [], rfl, h, rfl⟩
  | k + 1, c, st, h => by
    obtain ⟨s1, x, e1, h1, hx⟩ := allocClient_total (rl := { rl with client := c + 1 }) hrl pq pt a b h hg
    obtain ⟨s2, l, e2, h2, hl⟩ := allocClientLoop_total hrl pq pt a b hg k (c + 1) s1 h1
    refine ⟨s2, x :: l, ?_, h2, by simp [hx, hl, List.replicate_succ]⟩
    rw [allocClientLoop, e1]
    show (allocClientLoop env cg rl pq pt a b (c + 1) s1 k).bind _ = _
    rw [e2]; rfl

/-- Spec: the statistics of the clients of these client groups, in order. -/
def expectedStats (env : WEnv) (w : List CGCfg) (refs : List Nat) : List (List (Option String)) :=
  refs.flatMap fun i => match w[i]? with
    | some cg => List.replicate (finchUint cg.clients) (statsFor env cg)
    | none => []

/-- Either the database cannot be reached, or the clients are there. -/
theorem allocCGLoop_total {s0 : DataScope} {env : WEnv} {w : List CGCfg} {rl : RunLevel}
    (hrl : 0 < rl.stage) (pq pt : Option Nat) (b : Nat) (hg : ∀ cg ∈ w, GroupSafe s0 env.stmts cg.trx) :
    ∀ (refs : List Nat) (j : Nat) (st : WState), SameKeys s0 st.sl.scope → (∀ i ∈ refs, i < w.length) →
    (allocCGLoop env w rl pq pt b j st refs = .err ∧ ∃ i, env.dbFails (rl.execGroup - 1) i = true) ∨
    ∃ st' gs, allocCGLoop env w rl pq pt b j st refs = .ok (st', gs) ∧ SameKeys s0 st'.sl.scope ∧
      (gs.flatMap (·.clients)).map (·.stats) = expectedStats env w refs
  | [], j, st, h, _ => Or.inr ⟨st, [], rfl, h, rfl⟩
  | i :: refs, j, st, h, hr => by
    have hi := hr i (by simp)
    have hw : w[i]? = some w[i] := List.getElem?_eq_getElem hi
    rw [allocCGLoop, hw]
    dsimp only
    by_cases hf : env.dbFails (rl.execGroup - 1) j = true
    · rw [if_pos hf]; exact Or.inl ⟨rfl, j, hf⟩
    rw [if_neg hf]
    obtain ⟨s1, l, e1, h1, hl⟩ := allocClientLoop_total (s0 := s0) (env := env) (cg := w[i])
      (rl := { rl with clientGroup := j + 1 }) hrl (andNew st.gq pq (finchUint w[i].qpsClients)).2
      (andNew st.gt pt (finchUint w[i].tpsClients)).2 st.nextPtr b (hg _ (List.getElem_mem hi))
      (finchUint w[i].clients) 0
      { st with gq := (andNew st.gq pq (finchUint w[i].qpsClients)).1
                gt := (andNew st.gt pt (finchUint w[i].tpsClients)).1, nextPtr := st.nextPtr + 1 } h
    rw [e1]
    rcases allocCGLoop_total hrl pq pt b hg refs (j + 1) s1 h1 (fun i hi => hr i (by simp [hi])) with
      ⟨e2, h2⟩ | ⟨s2, gs, e2, h2, hgs⟩
    · refine Or.inl ⟨?_, h2⟩
      show (allocCGLoop env w rl pq pt b (j + 1) s1 refs).bind _ = _
      rw [e2]; rfl
    · refine Or.inr ⟨s2, ⟨w[i].runtime, cgDataLimit env w[i], l⟩ :: gs, ?_, h2, ?_⟩
      · show (allocCGLoop env w rl pq pt b (j + 1) s1 refs).bind _ = _
        rw [e2]; rfl
      · simp only [List.flatMap_cons, List.map_append, hl, hgs, expectedStats, hw]

theorem allocEGLoop_total {s0 : DataScope} {env : WEnv} {w : List CGCfg} (hst : 0 < env.stage)
    (pq pt : Option Nat) (hg : ∀ cg ∈ w, GroupSafe s0 env.stmts cg.trx) :
    ∀ (gs : List (List Nat)) (e : Nat) (st : WState), SameKeys s0 st.sl.scope →
    (∀ g ∈ gs, g ≠ [] ∧ ∀ i ∈ g, i < w.length) →
    (allocEGLoop env w pq pt e st gs = .err ∧ ∃ i j, env.dbFails i j = true) ∨
    ∃ st' egs, allocEGLoop env w pq pt e st gs = .ok (st', egs) ∧ SameKeys s0 st'.sl.scope ∧
      (allClients egs).map (·.stats) = expectedStats env w gs.flatten
  | [], e, st, h, _ => Or.inr ⟨st, [], rfl, h, rfl⟩
  | g :: gs, e, st, h, hr => by
    obtain ⟨hne, hlt⟩ := hr g (by simp)
    obtain ⟨ref, g', rfl⟩ := List.exists_cons_of_ne_nil hne
    have hi := hlt ref (by simp)
    rw [allocEGLoop]
    simp only [List.head?_cons, List.getElem?_eq_getElem hi]
    rcases allocCGLoop_total (s0 := s0) (env := env) (w := w) (rl := ⟨env.stage, e + 1, 0, 0, 0, 0⟩) hst
      (andNew st.gq pq (finchUint w[ref].qpsExecGroup)).2
      (andNew st.gt pt (finchUint w[ref].tpsExecGroup)).2 st.nextPtr hg (ref :: g') 0
      { st with gq := (andNew st.gq pq (finchUint w[ref].qpsExecGroup)).1
                gt := (andNew st.gt pt (finchUint w[ref].tpsExecGroup)).1, nextPtr := st.nextPtr + 1 } h
      hlt with ⟨e1, j, hj⟩ | ⟨s1, cgs, e1, h1, hc⟩
    · refine Or.inl ⟨?_, _, j, hj⟩
      rw [e1]; rfl
    · rw [e1]
      rcases allocEGLoop_total hst pq pt hg gs (e + 1) s1 h1 (fun g hg => hr g (by simp [hg])) with
        ⟨e2, h2⟩ | ⟨s2, rest, e2, h2, hre⟩
      · refine Or.inl ⟨?_, h2⟩
        show (allocEGLoop env w pq pt (e + 1) s1 gs).bind _ = _
        rw [e2]; rfl
      · refine Or.inr ⟨s2, cgs :: rest, ?_, h2, ?_⟩
        · show (allocEGLoop env w pq pt (e + 1) s1 gs).bind _ = _
          rw [e2]; rfl
        · have : allClients (cgs :: rest) = cgs.flatMap (·.clients) ++ allClients rest := by
            simp [allClients]
          rw [this, List.map_append, hc, hre]
          simp [expectedStats]

/-! ### Watch -/

theorem watchLoop_all : ∀ (names : List String) (pre : List (Option String)) (trx : GoMap String Stats),
    ∃ trx', watchLoop (pre ++ List.replicate names.length none) trx pre.length (names.map some) =
        .ok (pre ++ names.map some, trx') ∧
      (∀ n ∈ names, (trx' n).isSome) ∧ (∀ n, (trx n).isSome → trx' n = trx n) ∧
      ∀ n, (trx' n).isSome → (trx n).isSome ∨ n ∈ names
  | [], pre, trx => ⟨trx, by simp [watchLoop], by simp, fun _ _ => rfl, fun _ h => Or.inl h⟩
  | n :: names, pre, trx => by
    have hset : (pre ++ List.replicate (n :: names).length none).set pre.length (some n) =
        (pre ++ [some n]) ++ List.replicate names.length none := by
      rw [List.length_cons, List.replicate_succ, List.set_append_right _ _ (Nat.le_refl _)]
      simp
    obtain ⟨trx', h1, h2, h3, h4⟩ := watchLoop_all names (pre ++ [some n])
      (if (trx n).isNone then trx.set n Stats.new else trx)
    refine ⟨trx', ?_, ?_, ?_, ?_⟩
    · rw [List.map_cons, watchLoop, if_neg (by simp), hset]
      simp only [List.length_append, List.length_singleton] at h1
      rw [h1]
      simp
    · intro m hm
      by_cases hmn : m ∈ names
      · exact h2 m hmn
      · have : m = n := by simpa [hmn] using hm
        subst this
        have hs : ((if (trx m).isNone then trx.set m Stats.new else trx) m).isSome := by
          split
          · simp
          · rename_i h; simpa [Option.isSome_iff_ne_none] using h
        rw [h3 m hs]; exact hs
    · intro m hm
      have hs : (if (trx n).isNone then trx.set n Stats.new else trx) m = trx m := by
        split
        · rename_i h
          rw [GoMap.set_other]
          rintro rfl
          rw [Option.isNone_iff_eq_none] at h
          rw [h] at hm; cases hm
        · rfl
      rw [h3 m (by rw [hs]; exact hm), hs]
    · intro m hm
      rcases h4 m hm with h | h
      · split at h
        · by_cases he : m = n
          · exact Or.inr (by simp [he])
          · rw [GoMap.set_other _ _ he] at h; exact Or.inl h
        · exact Or.inl h
      · exact Or.inr (by simp [h])

/-- Spec: the clients that keep statistics, with the names of their trx. -/
def rowsOf (stats : List (List (Option String))) : List (List (Option String)) :=
  stats.filter fun l => l.any Option.isSome

/-- All or none of the trx of a client have statistics. -/
def AllOrNone (l : List (Option String)) : Prop :=
  (∃ names, l = List.map some names) ∨ ∀ x ∈ l, x = none

theorem watchAll_spec : ∀ (cs : List AClient) (c : WatchSt), (∀ a ∈ cs, AllOrNone a.stats) →
    (∀ row ∈ c.rows, ∀ x ∈ row, ∃ n, x = some n ∧ (c.trx n).isSome) →
    (∀ n, (c.trx n).isSome → ∃ row ∈ c.rows, some n ∈ row) →
    ∃ c', c.watchAll cs = .ok c' ∧ c'.rows = c.rows ++ rowsOf (cs.map (·.stats)) ∧
      c'.clients = c.clients + (rowsOf (cs.map (·.stats))).length ∧
      (∀ row ∈ c'.rows, ∀ x ∈ row, ∃ n, x = some n ∧ (c'.trx n).isSome) ∧
      ∀ n, (c'.trx n).isSome → ∃ row ∈ c'.rows, some n ∈ row
  | [], c, _, h, h' => ⟨c, rfl, by simp [rowsOf], by simp [rowsOf], h, h'⟩
  | a :: as, c, ha, h, h' => by
    rw [WatchSt.watchAll]
    by_cases hany : a.stats.any Option.isSome = true
    · have hn : a.stats.countP Option.isSome ≠ 0 := by
        rw [ne_eq, List.countP_eq_zero]
        intro hz
        rw [List.any_eq_true] at hany
        obtain ⟨x, hx, hxs⟩ := hany
        exact hz x hx hxs
      rcases ha a (by simp) with ⟨names, hnames⟩ | hnone
      · have hc : a.stats.countP Option.isSome = names.length := by
          rw [hnames, List.countP_map]
          simp [Function.comp_def]
        obtain ⟨trx', e, t1, t2, t3⟩ := watchLoop_all names [] c.trx
        simp only [List.nil_append, List.length_nil] at e
        have hw : c.watch a.stats = .ok ⟨c.rows ++ [names.map some], c.clients + 1, trx'⟩ := by
          unfold WatchSt.watch
          dsimp only
          rw [if_neg hn, hc, hnames, e]; rfl
        obtain ⟨c', e', r1, r2, r3, r4⟩ := watchAll_spec as ⟨c.rows ++ [names.map some], c.clients + 1, trx'⟩
          (fun x hx => ha x (by simp [hx]))
          (by
            intro row hrow x hx
            rcases List.mem_append.mp hrow with hr | hr
            · obtain ⟨n, hxn, hs⟩ := h row hr x hx
              exact ⟨n, hxn, by dsimp only; rw [t2 n hs]; exact hs⟩
            · simp only [List.mem_singleton] at hr
              subst hr
              obtain ⟨n, hn', rfl⟩ := List.mem_map.mp hx
              exact ⟨n, rfl, t1 n hn'⟩)
          (by
            intro n hn'
            rcases t3 n hn' with hs | hs
            · obtain ⟨row, hr, hm⟩ := h' n hs
              exact ⟨row, by simp [hr], hm⟩
            · exact ⟨names.map some, by simp, by simp [hs]⟩)
        refine ⟨c', ?_, ?_, ?_, r3, r4⟩
        · rw [hw]; exact e'
        · rw [r1]
          simp only [rowsOf, List.map_cons, List.filter_cons, hany, if_true]
          rw [hnames]; simp
        · rw [r2]
          simp only [rowsOf, List.map_cons, List.filter_cons, hany, if_true, List.length_cons]
          omega
      · rw [List.any_eq_true] at hany
        obtain ⟨x, hx, hxs⟩ := hany
        rw [hnone x hx] at hxs; cases hxs
    · have hn : a.stats.countP Option.isSome = 0 := by
        rw [List.countP_eq_zero]
        intro x hx hxs
        exact hany (List.any_eq_true.mpr ⟨x, hx, hxs⟩)
      have hw : c.watch a.stats = .ok c := by
        unfold WatchSt.watch; dsimp only; rw [if_pos hn]
      obtain ⟨c', e', r⟩ := watchAll_spec as c (fun x hx => ha x (by simp [hx])) h h'
      refine ⟨c', by rw [hw]; exact e', ?_⟩
      simpa only [rowsOf, List.map_cons, List.filter_cons, hany, if_false, Bool.false_eq_true] using r

/-! ### C97 -/

theorem prepScope_known {s : DataScope} {keys : GoMap String TKey} {n : String} (h : keys n ≠ none) :
    (prepScope s keys).keys n ≠ none := by
  simp only [prepScope]
  split
  · simp
  · cases hk : keys n with
    | none => exact absurd hk h
    | some k => simp

/-- The trx of the client groups are those assigned or, without an assignment, all. -/
theorem allocGroups_trx {ddl : GoMap String Bool} {order : List String} {w w' : List CGCfg}
    {gs : List (List Nat)} (h : allocGroups ddl order w = .ok (w', gs)) (ho : order ≠ [])
    (hw : ∀ cg ∈ w, ∀ n ∈ cg.trx, n ∈ order) : ∀ c ∈ w', c.trx ≠ [] ∧ ∀ n ∈ c.trx, n ∈ order := by
  intro c hc
  by_cases he : w = []
  · subst he
    obtain ⟨w1, gs1, h1, h2, h3, -⟩ := C41_auto_assign ddl order
    rw [h] at h1
    cases h1
    refine ⟨(h3 c hc).2.2.2.2.1, fun n hn => ?_⟩
    rw [← h2]
    exact List.mem_flatMap.mpr ⟨c, hc, hn⟩
  · obtain ⟨w1, gs1, h1, hl, -⟩ := C39_groups_partition ddl order w
    rw [h] at h1
    cases h1
    have hl := hl he
    obtain ⟨i, hi⟩ := List.mem_iff_getElem?.mp hc
    have hlt := (List.getElem?_eq_some_iff.mp hi).1
    rw [hl] at hlt
    obtain ⟨c', g1, -, -, g4, -⟩ := C39_rest_unchanged ddl order w w' gs h i w[i]
      (List.getElem?_eq_getElem hlt)
    rw [hi] at g1
    cases g1
    rw [g4]
    split
    · exact ⟨ho, fun _ h => h⟩
    · rename_i hne; exact ⟨hne, hw _ (List.getElem_mem hlt)⟩

/-- **C97.** If MySQL can be reached, the trx files load and the workload names trx of the stage, then
preparing the stage succeeds: it does not crash, and it fails only if `dbconn.Make` fails for a client
group. The data scope is again sound, so this holds for one stage after the other. It is a partial result:
it assumes that no statement saves the insert id in `@PREV` or in a key with global scope
(`C97_global_insert_id_false`, `C97_prev_insert_id_false`). -/
theorem C97_prepared_partial (p : PrepEnv) (s : DataScope) (keys : GoMap String TKey) (hs : ScopeSound s)
    (hst : 0 < p.stage) (hf : p.files ≠ []) (hm : p.makeOk = true) (hp : p.pingOk = true)
    (set : TrxSet) (hl : loadTrx ⟨[], GoMap.empty, GoMap.empty, keys⟩ p.files = .ok set)
    (hw : ∀ cg ∈ p.workload, ∀ n ∈ cg.trx, n ∈ p.files.map (·.env.trx))
    (hid : ∀ n ss, set.statements n = some ss → ∀ st ∈ ss, st.insertId = "" ∨
      HasGen (prepScope s set.keys) st.insertId) :
    (prepare p s keys = .err ∧ ∃ i j, p.dbFails i j = true) ∨
    ∃ r, prepare p s keys = .ok r ∧ ScopeSound r.st.sl.scope := by
  have hord := C75_order _ _ _ hl
  simp only [List.nil_append] at hord
  obtain ⟨k1, k2⟩ := loadTrx_keys_exist _ _ p.files (by intro n ss h; simp [GoMap.empty] at h) (by simp) hl
  obtain ⟨w', gs, hg, -, hfl, hne, -⟩ := C39_groups_partition set.ddl set.order p.workload
  have htrx := allocGroups_trx hg (by rw [hord]; simpa using hf) (by rw [hord]; exact hw)
  have hsafe : ∀ cg ∈ w', GroupSafe (prepScope s set.keys) set.statements cg.trx := by
    intro cg hcg n hn
    cases hss : set.statements n with
    | none => exact absurd hss (k1 n ((htrx cg hcg).2 n hn))
    | some ss =>
      obtain ⟨hne', hst'⟩ := k2 n ss hss
      refine ⟨ss, rfl, hne', fun st hmem => ?_⟩
      obtain ⟨i1, i2, i3, i4⟩ := hst' st hmem
      refine ⟨?_, fun k hk => prepScope_known (i2 k hk), ?_, i4⟩
      · intro k hk
        exact (i1 k hk).imp_right prepScope_known
      · rcases i3 with h | h
        · exact Or.inl h
        · rcases hid n ss hss st hmem with h' | h'
          · exact Or.inl h'
          · exact Or.inr ⟨h, h'⟩
  have hsame : SameKeys (prepScope s set.keys) (prepScope s set.keys) :=
    ⟨hs, fun _ h => h, fun _ h => h⟩
  unfold prepare
  rw [if_neg hf, if_neg (by simp [hm]), if_neg (by simp [hp]), hl]
  show ((allocGroups set.ddl set.order p.workload).bind _ = _ ∧ _) ∨
    ∃ r, (allocGroups set.ddl set.order p.workload).bind _ = _ ∧ _
  rw [hg]
  simp only [Out.bind]
  have hrefs : ∀ g ∈ gs, g ≠ [] ∧ ∀ i ∈ g, i < w'.length := by
    intro g hgm
    refine ⟨hne g hgm, fun i hi => ?_⟩
    have : i ∈ gs.flatten := List.mem_flatten.mpr ⟨g, hgm, hi⟩
    rw [hfl] at this
    exact List.mem_range.mp this
  rcases allocEGLoop_total (s0 := prepScope s set.keys)
    (env := ⟨set.statements, p.stage, p.withStats, p.dbFails⟩) (w := w') hst (newRate [] p.qps).2
    (newRate [] p.tps).2 hsafe gs 0 ⟨⟨prepScope s set.keys, []⟩, (newRate [] p.qps).1, (newRate [] p.tps).1, 0⟩
    hsame hrefs with ⟨e, h⟩ | ⟨st', egs, e, h, hstats⟩
  · left
    refine ⟨?_, h⟩
    show (allocClients _ _ _ _ _ _).bind _ = _
    rw [allocClients, e]
    rfl
  · right
    have hw : ∃ wt, (if p.withStats = true then WatchSt.new.watchAll (allClients egs) else .ok WatchSt.new)
        = .ok wt := by
      split
      · obtain ⟨c', hc', -⟩ := watchAll_spec (allClients egs) WatchSt.new (by
            intro a ha
            have : a.stats ∈ (allClients egs).map (·.stats) := List.mem_map.mpr ⟨a, ha, rfl⟩
            rw [hstats] at this
            obtain ⟨i, -, hi⟩ := List.mem_flatMap.mp this
            split at hi
            · rw [List.eq_of_mem_replicate hi]
              unfold AllOrNone statsFor
              by_cases hb : (p.withStats && !(‹CGCfg›).disableStats) = true
              · left; exact ⟨_, by simp only [hb, if_true]; rfl⟩
              · right
                intro x hx
                obtain ⟨n, -, rfl⟩ := List.mem_map.mp hx
                simp only [hb, Bool.false_eq_true, if_false]
            · cases hi) (by simp [WatchSt.new]) (by simp [WatchSt.new])
        exact ⟨c', hc'⟩
      · exact ⟨_, rfl⟩
    obtain ⟨wt, hwt⟩ := hw
    refine ⟨⟨set, w', gs, st', egs, wt⟩, ?_, h.sound⟩
    show (allocClients _ _ _ _ _ _).bind _ = _
    rw [allocClients, e]
    by_cases hb : p.withStats = true
    · rw [if_pos hb] at hwt
      show (if p.withStats = true then (WatchSt.new.watchAll (allClients egs)).bind _ else _) = _
      rw [if_pos hb, hwt]
      rfl
    · rw [if_neg hb] at hwt
      cases hwt
      show (if p.withStats = true then _ else _) = _
      rw [if_neg hb]
      rfl

/-- **C97.** Preparing a stage fails without a crash if MySQL cannot be reached or a trx file has an error;
then nothing was allocated. -/
theorem C97_errors (p : PrepEnv) (s : DataScope) (keys : GoMap String TKey) (hf : p.files ≠ [])
    (h : p.makeOk = false ∨ p.pingOk = false ∨
      loadTrx ⟨[], GoMap.empty, GoMap.empty, keys⟩ p.files = .err) : prepare p s keys = .err := by
  unfold prepare
  rw [if_neg hf]
  split
  · rfl
  · split
    · rfl
    · rcases h with h | h | h
      · contradiction
      · contradiction
      · rw [h]; rfl

/-- A trx file with the given data keys and lines. -/
def prepFile (scope : String) (lines : List String) : TrxFile :=
  { env := demoEnv, lines := some (lines.map String.toList)
    data := fun n => if n = "d" then some ⟨"int", "", []⟩ else if n = "id" then some ⟨"column", scope, []⟩ else none }

/-- A stage with one trx file, no workload and a collector; MySQL can be reached. -/
def prepDemo (tf : TrxFile) : PrepEnv :=
  { files := [tf], workload := [], qps := 0, tps := 0, stage := 1, withStats := true, makeOk := true
    pingOk := true, dbFails := fun _ _ => false }

/-- Inserts a row and uses its id. -/
def insertLines : List String :=
  ["-- save-insert-id: @id", "INSERT INTO t (a) VALUES (@d)", "", "UPDATE t SET a=a+1 WHERE id=@id"]

/-- Did it succeed. -/
def Out.isOk {α : Type} : Out α → Bool
  | .ok _ => true
  | _ => false

/-- How preparing ended. -/
def prepEnd : Out Prepared → String
  | .ok _ => "ok"
  | .err => "error"
  | .panic => "panic"

/-- With the default scope (and client scope) the stage is prepared. -/
example : prepEnd (prepare (prepDemo (prepFile "" insertLines)) DataScope.new GoMap.empty) = "ok" ∧
    prepEnd (prepare (prepDemo (prepFile "client" insertLines)) DataScope.new GoMap.empty) = "ok" := by
  refine ⟨?_, ?_⟩ <;> decide +kernel

/-- The theorem applies to it. -/
example : ∃ set, loadTrx ⟨[], GoMap.empty, GoMap.empty, GoMap.empty⟩ [prepFile "" insertLines] = .ok set ∧
    ∃ ss st, set.statements "t" = some ss ∧ st ∈ ss ∧ st.insertId = "@id" ∧
      HasGen (prepScope DataScope.new set.keys) "@id" := by
  have h : (match loadTrx ⟨[], GoMap.empty, GoMap.empty, GoMap.empty⟩ [prepFile "" insertLines] with
    | .ok set => (match set.statements "t" with
        | some ss => ss.any (fun st => decide (st.insertId = "@id"))
        | none => false) && decide ((prepScope DataScope.new set.keys).keys "@id" = some ⟨none, true⟩)
    | _ => false) = true := by decide +kernel
  split at h
  · rename_i set hs
    rw [Bool.and_eq_true] at h
    obtain ⟨h1, h2⟩ := h
    split at h1
    · rename_i ss hss
      obtain ⟨st, hm, hi⟩ := List.any_eq_true.mp h1
      refine ⟨set, hs, ss, st, hss, hm, by simpa using hi, Or.inr ⟨by decide, fun k hk => ?_⟩⟩
      rw [of_decide_eq_true h2] at hk
      cases hk
      decide
    · cases h1
  · cases h

/-- **C97 is false for an insert id with global scope**: the trx file loads, and the allocator dereferences
a nil generator (workload/workload.go:265), because `Copy` never makes one for global scope (C02). -/
theorem C97_global_insert_id_false :
    prepEnd (prepare (prepDemo (prepFile "global" insertLines)) DataScope.new GoMap.empty) = "panic" ∧
    (loadTrx ⟨[], GoMap.empty, GoMap.empty, GoMap.empty⟩ [prepFile "global" insertLines]).isOk = true := by
  refine ⟨?_, ?_⟩ <;> decide +kernel

/-- **C97 is false for `save-insert-id: @PREV`**: it loads if a later statement uses `@PREV`, and then the
allocator dereferences the nil that `Copy` returns for `@PREV`. -/
theorem C97_prev_insert_id_false :
    prepEnd (prepare (prepDemo (prepFile "" ["-- save-insert-id: @PREV", "INSERT INTO t (a) VALUES (@d)", "",
      "UPDATE t SET a=a+1 WHERE id BETWEEN @d AND @PREV"])) DataScope.new GoMap.empty) = "panic" := by
  decide +kernel

/-- A stage-scoped column that is saved and used. -/
def stageColumn : List String :=
  ["-- save-columns: @id", "SELECT id FROM t WHERE a=@d", "", "UPDATE t SET a=a+1 WHERE id=@id"]

/-- Prepare two stages with the same trx file, one after the other. The keys that the second loads into are
those `Reset` keeps. -/
def prepTwice (tf : TrxFile) : List String :=
  match prepare (prepDemo tf) DataScope.new GoMap.empty with
  | .ok r =>
    let s := r.st.sl.scope.reset
    ["ok", prepEnd (prepare { prepDemo tf with stage := 2 } s
      fun n => if (s.keys n).isSome then r.set.keys n else none)]
  | o => [prepEnd o]

/-- **C97 is false for a saved column with stage or global scope that is used in two stages**: the key stays
after the first stage, and the second stage fails with "duplicated saved column". With trx scope, both are
prepared. -/
theorem C97_saved_again_false : prepTwice (prepFile "trx" stageColumn) = ["ok", "ok"] ∧
    prepTwice (prepFile "stage" stageColumn) = ["ok", "error"] := by
  refine ⟨?_, ?_⟩ <;> decide +kernel

/-! ### C98 -/

theorem allocClientLoop_stats {env : WEnv} {cg : CGCfg} {rl : RunLevel} {pq pt : Option Nat} {a b : Nat} :
    ∀ {k c : Nat} {st st' : WState} {l : List AClient},
    allocClientLoop env cg rl pq pt a b c st k = .ok (st', l) →
    l.map (·.stats) = List.replicate k (statsFor env cg)
  | 0, c, st, st', l, h => by cases h; rfl
  | k + 1, c, st, st', l, h => by
    rw [allocClientLoop] at h
    obtain ⟨⟨s1, x⟩, h1, h⟩ := Out.bind_ok h
    obtain ⟨⟨s2, l2⟩, h2, h⟩ := Out.bind_ok h
    cases Out.pure_ok h
    rw [allocClient] at h1
    obtain ⟨⟨s3, d⟩, -, h1⟩ := Out.bind_ok h1
    cases Out.pure_ok h1
    simp [allocClientLoop_stats h2, List.replicate_succ]

theorem allocCGLoop_stats {env : WEnv} {w : List CGCfg} {rl : RunLevel} {pq pt : Option Nat} {b : Nat} :
    ∀ {refs : List Nat} {j : Nat} {st st' : WState} {gs : List ACGroup},
    allocCGLoop env w rl pq pt b j st refs = .ok (st', gs) →
    (gs.flatMap (·.clients)).map (·.stats) = expectedStats env w refs
  | [], j, st, st', gs, h => by cases h; rfl
  | i :: refs, j, st, st', gs, h => by
    rw [allocCGLoop] at h
    split at h
    · cases h
    · rename_i cg hcg
      dsimp only at h
      split at h
      · cases h
      · obtain ⟨⟨s1, l⟩, h1, h⟩ := Out.bind_ok h
        obtain ⟨⟨s2, gs2⟩, h2, h⟩ := Out.bind_ok h
        cases Out.pure_ok h
        simp only [List.flatMap_cons, List.map_append, allocClientLoop_stats h1, allocCGLoop_stats h2,
          expectedStats, hcg]

theorem allocEGLoop_stats {env : WEnv} {w : List CGCfg} {pq pt : Option Nat} :
    ∀ {gs : List (List Nat)} {e : Nat} {st st' : WState} {egs : List (List ACGroup)},
    allocEGLoop env w pq pt e st gs = .ok (st', egs) →
    (allClients egs).map (·.stats) = expectedStats env w gs.flatten
  | [], e, st, st', egs, h => by cases h; rfl
  | g :: gs, e, st, st', egs, h => by
    rw [allocEGLoop] at h
    split at h
    · cases h
    · split at h
      · cases h
      · dsimp only at h
        obtain ⟨⟨s1, l⟩, h1, h⟩ := Out.bind_ok h
        obtain ⟨⟨s2, gs2⟩, h2, h⟩ := Out.bind_ok h
        cases Out.pure_ok h
        have : allClients (l :: gs2) = l.flatMap (·.clients) ++ allClients gs2 := by simp [allClients]
        rw [this, List.map_append, allocCGLoop_stats h1, allocEGLoop_stats h2]
        simp [expectedStats]

/-- Spec: what the collector must watch: one row per client of each client group with statistics, in order,
with the trx of the client group. -/
def watchedRows (w : List CGCfg) : List (List (Option String)) :=
  (w.filter fun cg => !cg.disableStats).flatMap fun cg =>
    List.replicate (finchUint cg.clients) (cg.trx.map some)

theorem expectedStats_range (env : WEnv) : ∀ w : List CGCfg,
    expectedStats env w (List.range w.length) =
      w.flatMap fun cg => List.replicate (finchUint cg.clients) (statsFor env cg) := by
  intro w
  unfold expectedStats
  induction w using List.reverseRecOn with
  | nil => rfl
  | append_singleton w x ih =>
    rw [List.length_append, List.length_singleton, List.range_succ, List.flatMap_append, List.flatMap_append,
      ← ih]
    congr 1
    · apply List.flatMap_congr
      intro i hi
      rw [List.mem_range] at hi
      rw [List.getElem?_append_left hi]
    · simp

theorem allocGroups_trx_ne {ddl : GoMap String Bool} {order : List String} {w w' : List CGCfg}
    {gs : List (List Nat)} (h : allocGroups ddl order w = .ok (w', gs)) (ho : order ≠ []) :
    ∀ c ∈ w', c.trx ≠ [] := by
  intro c hc
  by_cases he : w = []
  · subst he
    exact (allocGroups_trx h ho (by simp) c hc).1
  · obtain ⟨w1, gs1, h1, hl, -⟩ := C39_groups_partition ddl order w
    rw [h] at h1
    cases h1
    obtain ⟨i, hi⟩ := List.mem_iff_getElem?.mp hc
    have hlt := (List.getElem?_eq_some_iff.mp hi).1
    rw [hl he] at hlt
    obtain ⟨c', g1, -, -, g4, -⟩ := C39_rest_unchanged ddl order w w' gs h i w[i]
      (List.getElem?_eq_getElem hlt)
    rw [hi] at g1
    cases g1
    rw [g4]
    split
    · exact ho
    · assumption

theorem rowsOf_workload (env : WEnv) (hws : env.withStats = true) : ∀ w : List CGCfg,
    (∀ cg ∈ w, cg.trx ≠ []) →
    rowsOf (w.flatMap fun cg => List.replicate (finchUint cg.clients) (statsFor env cg)) = watchedRows w
  | [], _ => rfl
  | cg :: w, h => by
    have ih := rowsOf_workload env hws w (fun c hc => h c (by simp [hc]))
    unfold rowsOf at ih ⊢
    rw [List.flatMap_cons, List.filter_append, ih]
    unfold watchedRows
    rw [List.filter_cons]
    have hst : statsFor env cg = if cg.disableStats then cg.trx.map (fun _ => none) else cg.trx.map some := by
      unfold statsFor
      rw [hws]
      cases cg.disableStats <;> simp
    cases hd : cg.disableStats
    · rw [hd, if_neg (by simp)] at hst
      simp only [Bool.not_false, if_true, List.flatMap_cons]
      congr 1
      rw [hst, List.filter_eq_self]
      intro l hl
      rw [List.eq_of_mem_replicate hl]
      obtain ⟨n, ns, hn⟩ := List.exists_cons_of_ne_nil (h cg (by simp))
      rw [hn]; rfl
    · rw [hd, if_pos rfl] at hst
      simp only [Bool.not_true, Bool.false_eq_true, if_false]
      rw [List.filter_eq_nil_iff.mpr, List.nil_append]
      intro l hl
      rw [List.eq_of_mem_replicate hl, hst]
      simp

theorem prepare_parts {p : PrepEnv} {s : DataScope} {keys : GoMap String TKey} {r : Prepared}
    (h : prepare p s keys = .ok r) :
    p.files ≠ [] ∧ loadTrx ⟨[], GoMap.empty, GoMap.empty, keys⟩ p.files = .ok r.set ∧
    allocGroups r.set.ddl r.set.order p.workload = .ok (r.workload, r.groups) ∧
    allocClients ⟨r.set.statements, p.stage, p.withStats, p.dbFails⟩ r.workload p.qps p.tps
      (prepScope s r.set.keys) r.groups = .ok (r.st, r.execGroups) ∧
    (p.withStats = true → WatchSt.new.watchAll (allClients r.execGroups) = .ok r.watch) ∧
    (p.withStats = false → r.watch = WatchSt.new) := by
  unfold prepare at h
  split at h
  · cases h
  · rename_i hf
    split at h
    · cases h
    · split at h
      · cases h
      · obtain ⟨set, h1, h⟩ := Out.bind_ok h
        obtain ⟨⟨w, gs⟩, h2, h⟩ := Out.bind_ok h
        obtain ⟨⟨st, egs⟩, h3, h⟩ := Out.bind_ok h
        dsimp only at h
        split at h
        · rename_i hb
          obtain ⟨wt, h4, h⟩ := Out.bind_ok h
          cases Out.pure_ok h
          exact ⟨hf, h1, h2, h3, fun _ => h4, fun hb' => by rw [hb] at hb'; cases hb'⟩
        · rename_i hb
          obtain ⟨wt, h4, h⟩ := Out.bind_ok h
          cases h4
          cases Out.pure_ok h
          exact ⟨hf, h1, h2, h3, fun hb' => absurd hb' hb, fun _ => rfl⟩

/-- **C98.** After a stage with a collector is prepared, the collector watches each trx of each client once:
a row per client of each client group that does not disable statistics, in order. The number of clients it
reports is the number of rows, and the trx it reports are exactly those of the rows. -/
theorem C98_watched (p : PrepEnv) (s : DataScope) (keys : GoMap String TKey) (r : Prepared)
    (h : prepare p s keys = .ok r) (hw : p.withStats = true) :
    r.watch.rows = watchedRows r.workload ∧
    r.watch.clients =
      ((r.workload.filter fun cg => !cg.disableStats).map fun cg => finchUint cg.clients).sum ∧
    ∀ n, (r.watch.trx n).isSome ↔
      ∃ cg ∈ r.workload, cg.disableStats = false ∧ 0 < finchUint cg.clients ∧ n ∈ cg.trx := by
  obtain ⟨hf, h1, h2, h3, h4, -⟩ := prepare_parts h
  have h4 := h4 hw
  have hord := C75_order _ _ _ h1
  have hne := allocGroups_trx_ne h2 (by rw [hord]; simpa using hf)
  obtain ⟨w1, gs1, g1, -, hfl, -⟩ := C39_groups_partition r.set.ddl r.set.order p.workload
  rw [h2] at g1
  cases g1
  unfold allocClients at h3
  have hstats := allocEGLoop_stats h3
  rw [hfl, expectedStats_range] at hstats
  obtain ⟨c', e, r1, r2, r3, r4⟩ := watchAll_spec (allClients r.execGroups) WatchSt.new (by
      intro a ha
      have : a.stats ∈ (allClients r.execGroups).map (·.stats) := List.mem_map.mpr ⟨a, ha, rfl⟩
      rw [hstats] at this
      obtain ⟨cg, -, hcg⟩ := List.mem_flatMap.mp this
      rw [List.eq_of_mem_replicate hcg]
      unfold AllOrNone statsFor
      by_cases hb : (p.withStats && !cg.disableStats) = true
      · left; exact ⟨_, by simp only [hb, if_true]; rfl⟩
      · right
        intro x hx
        obtain ⟨n, -, rfl⟩ := List.mem_map.mp hx
        simp only [hb, Bool.false_eq_true, if_false]) (by simp [WatchSt.new]) (by simp [WatchSt.new])
  rw [h4] at e
  cases e
  have hrows : rowsOf ((allClients r.execGroups).map (·.stats)) = watchedRows r.workload := by
    rw [hstats]
    exact rowsOf_workload ⟨r.set.statements, p.stage, p.withStats, p.dbFails⟩ hw r.workload hne
  rw [hrows] at r1 r2
  simp only [WatchSt.new, List.nil_append, Nat.zero_add] at r1 r2
  refine ⟨r1, ?_, fun n => ⟨fun hn => ?_, ?_⟩⟩
  · rw [r2]
    simp [watchedRows, List.length_flatMap]
  · obtain ⟨row, hrow, hmem⟩ := r4 n hn
    rw [r1] at hrow
    obtain ⟨cg, hcg, hrep⟩ := List.mem_flatMap.mp hrow
    rw [List.mem_filter] at hcg
    have h0 := (List.mem_replicate.mp hrep)
    rw [h0.2] at hmem
    exact ⟨cg, hcg.1, by simpa using hcg.2, Nat.pos_of_ne_zero h0.1, by simpa using hmem⟩
  · rintro ⟨cg, hcg, hd, hpos, hn⟩
    have hrow : cg.trx.map some ∈ r.watch.rows := by
      rw [r1]
      exact List.mem_flatMap.mpr ⟨cg, List.mem_filter.mpr ⟨hcg, by simp [hd]⟩,
        List.mem_replicate.mpr ⟨by omega, rfl⟩⟩
    obtain ⟨m, hm, hs⟩ := r3 _ hrow (some n) (by simpa using hn)
    cases hm
    exact hs

/-- **C98.** So collecting never crashes: whatever the statistics of the watched trx are, they are combined
as C70 says. -/
theorem C98_collects (p : PrepEnv) (s : DataScope) (keys : GoMap String TKey) (r : Prepared)
    (h : prepare p s keys = .ok r) (hw : p.withStats = true) (total : Stats) (l : List (String × Stats))
    (hl : l.map (fun x => some x.1) = r.watch.rows.flatten) :
    ∃ c, collectStats total r.watch.trx l = .ok c ∧ c.total.Same (combineAll (l.map (·.2))) ∧
      ∀ cg ∈ r.workload, cg.disableStats = false → 0 < finchUint cg.clients → ∀ n ∈ cg.trx,
        ∃ st, c.trx n = some st ∧ st.Same (combineAll (ofTrx n l)) := by
  obtain ⟨h1, -, h3⟩ := C98_watched p s keys r h hw
  have hmem : ∀ n, n ∈ l.map (·.1) ↔ some n ∈ r.watch.rows.flatten := by
    intro n
    rw [← hl]
    simp
  obtain ⟨c, e, ht, he⟩ := C70_collect_combines total r.watch.trx l (by
    intro x hx
    have := (hmem x.1).1 (List.mem_map.mpr ⟨x, hx, rfl⟩)
    rw [h1] at this
    obtain ⟨row, hrow, hm⟩ := List.mem_flatten.mp this
    obtain ⟨cg, hcg, hrep⟩ := List.mem_flatMap.mp hrow
    rw [List.mem_filter] at hcg
    have h0 := List.mem_replicate.mp hrep
    rw [h0.2] at hm
    exact (h3 x.1).2 ⟨cg, hcg.1, by simpa using hcg.2, Nat.pos_of_ne_zero h0.1, by simpa using hm⟩)
  refine ⟨c, e, ht, fun cg hcg hd hpos n hn => he n ((hmem n).2 ?_)⟩
  rw [h1]
  exact List.mem_flatten.mpr ⟨cg.trx.map some, List.mem_flatMap.mpr ⟨cg,
    List.mem_filter.mpr ⟨hcg, by simp [hd]⟩, List.mem_replicate.mpr ⟨by omega, rfl⟩⟩, by simpa using hn⟩

/-- **C98.** Without a collector (a test run) nothing is watched. -/
theorem C98_no_collector (p : PrepEnv) (s : DataScope) (keys : GoMap String TKey) (r : Prepared)
    (h : prepare p s keys = .ok r) (hw : p.withStats = false) : r.watch.rows = [] ∧ r.watch.clients = 0 := by
  rw [(prepare_parts h).2.2.2.2.2 hw]
  exact ⟨rfl, rfl⟩

/-- What is watched. -/
def watchedBy : Out Prepared → Option (List (List (Option String)) × Nat)
  | .ok r => some (r.watch.rows, r.watch.clients)
  | _ => none

/-- Two clients with statistics and three without. -/
example : watchedBy (prepare { prepDemo (prepFile "" insertLines) with
      workload := [{ clients := "2" }, { clients := "3", disableStats := true }] } DataScope.new GoMap.empty) =
    some ([[some "t"], [some "t"]], 2) := by decide +kernel

end Finch
