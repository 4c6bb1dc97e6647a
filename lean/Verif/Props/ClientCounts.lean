import Verif.Props.ClientStats
import Verif.Props.ClientStop
import Verif.Props.ScopedGen
/-!
C79: the run counts with which a client calls its generators, and what follows for the values of
generators that one client uses (C03).
-/
namespace Finch

/-! ### Specification: counting events -/

def CEv.isGen : CEv → Bool
  | .gen .. => true
  | _ => false

def CEv.isIter : CEv → Bool
  | .iterBegin _ => true
  | _ => false

def CEv.isFailed : CEv → Bool
  | .failed .. => true
  | _ => false

/-- Is it the first statement of a trx. -/
def CEv.isTrxBegin (c : Cli) : CEv → Bool
  | .gen i _ => ((c.data[i]?).map (·.begin_)).getD false
  | _ => false

/-- Spec: the run count of a statement after these events, by counting them: the statements
(with this one), the trx begun (with this one, if `b`), the iterations begun, the connections, where
each failure of a statement counts as a reconnect. -/
structure CountsOf (c : Cli) (pre : List CEv) (i : Nat) (cnt : RunCount) : Prop where
  statement : cnt.statement = pre.countP CEv.isGen + 1
  trx : cnt.trx = pre.countP (CEv.isTrxBegin c) +
    if ((c.data[i]?).map (·.begin_)).getD false then 1 else 0
  iter : cnt.iter = pre.countP CEv.isIter
  iterPos : 0 < cnt.iter
  conn : cnt.conn = 1 + pre.countP CEv.isFailed
  client : cnt.client = c.rl.client
  clientGroup : cnt.clientGroup = c.rl.clientGroup
  execGroup : cnt.execGroup = c.rl.execGroup
  stage : cnt.stage = c.rl.stage

/-- Spec: `Q` holds at every call of the generators of a statement. -/
def AtGen (Q : List CEv → Nat → RunCount → Prop) (tr : List CEv) : Prop :=
  ∀ (p i : Nat) (cnt : RunCount), tr[p]? = some (.gen i cnt) → Q (tr.take p) i cnt

/-! ### Proofs -/

theorem AtGen.none {Q : List CEv → Nat → RunCount → Prop} {tr l : List CEv}
    (h : AtGen Q tr) (hl : ∀ e ∈ l, e.isGen = false) : AtGen Q (tr ++ l) := by
  intro p i cnt hp
  by_cases hlt : p < tr.length
  · rw [List.getElem?_append_left hlt] at hp
    rw [List.take_append_of_le_length (by omega)]
    exact h p i cnt hp
  · rw [List.getElem?_append_right (by omega)] at hp
    cases hl _ (List.mem_of_getElem? hp)

theorem AtGen.one {Q : List CEv → Nat → RunCount → Prop} {tr : List CEv} {i : Nat} {cnt : RunCount}
    (h : AtGen Q tr) (hq : Q tr i cnt) : AtGen Q (tr ++ [.gen i cnt]) := by
  intro p j cnt' hp
  by_cases hlt : p < tr.length
  · rw [List.getElem?_append_left hlt] at hp
    rw [List.take_append_of_le_length (by omega)]
    exact h p j cnt' hp
  · rw [List.getElem?_append_right (by omega)] at hp
    have hp0 : p - tr.length = 0 := by
      by_contra hne
      rw [List.getElem?_eq_none (by simp; omega)] at hp
      cases hp
    rw [hp0] at hp
    cases hp
    rw [show p = tr.length by omega, List.take_append_of_le_length (Nat.le_refl _), List.take_length]
    exact hq

/-- Is a failure being handled. -/
def pendingErr : CPc → Nat
  | .error .. | .connect (some _) | .rollback .. | .close false | .connLoop false | .connected false
  | .use false | .prep false _ => 1
  | _ => 0

/-- Is the client inside an iteration. -/
def inIter : CPc → Bool
  | .stmt _ | .limit _ | .exec _ | .scan _ => true
  | _ => false

/-- Events that are counted. -/
def CEv.counts : CEv → Bool
  | .gen .. | .iterBegin _ | .failed .. => true
  | _ => false

structure RunCountInv (c : Cli) (s : CState) : Prop where
  statement : s.stmtCount = s.trace.countP CEv.isGen
  trx : s.trxCount = s.trace.countP (CEv.isTrxBegin c)
  iter : s.iter = s.trace.countP CEv.isIter
  iterPos : inIter s.pc = true → 0 < s.iter
  conn : s.pc.isStopped = false → s.connCount + pendingErr s.pc = 1 + s.trace.countP CEv.isFailed
  gens : AtGen (CountsOf c) s.trace

theorem counts_none {f : CEv → Bool} {l m : List CEv} (hf : ∀ e, e.counts = false → f e = false)
    (h : ∀ e ∈ m, e.counts = false) : (l ++ m).countP f = l.countP f := by
  have h0 : m.countP f = 0 := List.countP_eq_zero.mpr (fun e he => by rw [hf e (h e he)]; simp)
  rw [List.countP_append, h0, Nat.add_zero]

theorem isGen_counts : ∀ e, CEv.counts e = false → e.isGen = false := by
  intro e; cases e <;> simp [CEv.counts, CEv.isGen]

theorem isIter_counts : ∀ e, CEv.counts e = false → e.isIter = false := by
  intro e; cases e <;> simp [CEv.counts, CEv.isIter]

theorem isFailed_counts : ∀ e, CEv.counts e = false → e.isFailed = false := by
  intro e; cases e <;> simp [CEv.counts, CEv.isFailed]

theorem isTrxBegin_counts (c : Cli) : ∀ e, CEv.counts e = false → e.isTrxBegin c = false := by
  intro e; cases e <;> simp [CEv.counts, CEv.isTrxBegin]

/-- A step that adds only events that are not counted. -/
theorem RunCountInv.plain {c : Cli} {s s' : CState} {l : List CEv} (hs : RunCountInv c s)
    (h1 : s'.trace = s.trace ++ l) (hl : ∀ e ∈ l, e.counts = false)
    (h2 : s'.stmtCount = s.stmtCount) (h3 : s'.trxCount = s.trxCount) (h4 : s'.iter = s.iter)
    (h5 : inIter s'.pc = true → inIter s.pc = true)
    (h6 : s'.pc.isStopped = false → s.pc.isStopped = false ∧
      s'.connCount + pendingErr s'.pc = s.connCount + pendingErr s.pc) : RunCountInv c s' := by
  refine ⟨?_, ?_, ?_, ?_, ?_, ?_⟩
  · rw [h1, h2, counts_none isGen_counts hl]; exact hs.statement
  · rw [h1, h3, counts_none (isTrxBegin_counts c) hl]; exact hs.trx
  · rw [h1, h4, counts_none isIter_counts hl]; exact hs.iter
  · rw [h4]; exact fun h => hs.iterPos (h5 h)
  · intro h
    rw [h1, counts_none isFailed_counts hl, (h6 h).2]
    exact hs.conn (h6 h).1
  · rw [h1]; exact hs.gens.none (fun e he => isGen_counts e (hl e he))

theorem counts_recEv {stat : Option String} {k : EvClass} : ∀ e ∈ recEv stat k, e.counts = false :=
  fun e h => by obtain ⟨n, _, rfl⟩ := mem_recEv h; rfl

/-- A step that ends with a failure. -/
theorem RunCountInv.failing {c : Cli} {s s' : CState} {l : List CEv} {i : Nat} {code : Option Nat}
    (hs : RunCountInv c s) (h1 : s'.trace = s.trace ++ (l ++ [.failed i code]))
    (hl : ∀ e ∈ l, e.counts = false)
    (h2 : s'.stmtCount = s.stmtCount) (h3 : s'.trxCount = s.trxCount) (h4 : s'.iter = s.iter)
    (h5 : s'.pc = .error i code) (h6 : s'.connCount = s.connCount)
    (h7 : s.pc.isStopped = false) (h8 : pendingErr s.pc = 0) : RunCountInv c s' := by
  rw [← List.append_assoc] at h1
  refine ⟨?_, ?_, ?_, ?_, ?_, ?_⟩
  · rw [h1, h2, List.countP_append, counts_none isGen_counts hl]; exact hs.statement
  · rw [h1, h3, List.countP_append, counts_none (isTrxBegin_counts c) hl]; exact hs.trx
  · rw [h1, h4, List.countP_append, counts_none isIter_counts hl]; exact hs.iter
  · rw [h5]; simp [inIter]
  · intro _
    have := hs.conn h7
    rw [h1, List.countP_append, counts_none isFailed_counts hl, h6, h5]
    rw [h8] at this
    simp only [pendingErr, List.countP_singleton, CEv.isFailed, if_true]
    omega
  · rw [h1]
    exact (hs.gens.none (fun e he => isGen_counts e (hl e he))).none (by simp [CEv.isGen])

theorem RunCountInv.step {c : Cli} {s s' : CState} {a : Ans} (h : CStep c s a s') (hs : RunCountInv c s) :
    RunCountInv c s' := by
  cases h
  case iterate hpc hl =>
    refine ⟨?_, ?_, ?_, fun _ => Nat.succ_pos _, ?_, ?_⟩
    · rw [List.countP_append]; exact hs.statement
    · rw [List.countP_append]; exact hs.trx
    · show s.iter + 1 = _
      rw [List.countP_append, ← hs.iter]; rfl
    · intro _
      have := hs.conn (by rw [hpc]; rfl)
      rw [hpc] at this
      rw [List.countP_append]
      exact this
    · exact hs.gens.none (by simp [CEv.isGen])
  case stmt i st d hpc hst hi hd =>
    have hw : ∀ e ∈ waitEv c st, e.counts = false := fun e he => by
      rcases mem_waitEv he with rfl | rfl <;> rfl
    have hit := hs.iterPos (by rw [hpc]; rfl)
    have hconn := hs.conn (by rw [hpc]; rfl)
    rw [hpc] at hconn
    have hconn : s.connCount = 1 + s.trace.countP CEv.isFailed := hconn
    have htrx : (if d.begin_ then s.trxCount + 1 else s.trxCount) = s.trace.countP (CEv.isTrxBegin c) +
        if ((c.data[i]?).map (·.begin_)).getD false then 1 else 0 := by
      rw [hd, ← hs.trx]
      cases hb : d.begin_ <;> simp [hb]
    refine ⟨?_, ?_, ?_, fun _ => hit, ?_, ?_⟩
    · dsimp only
      rw [← List.append_assoc, List.countP_append, counts_none isGen_counts hw, ← hs.statement]
      rfl
    · dsimp only
      rw [← List.append_assoc, List.countP_append, counts_none (isTrxBegin_counts c) hw, htrx]
      simp [CEv.isTrxBegin, List.countP_cons]
      rfl
    · dsimp only
      rw [← List.append_assoc, List.countP_append, counts_none isIter_counts hw, ← hs.iter]
      rfl
    · intro _
      dsimp only
      rw [← List.append_assoc, List.countP_append, counts_none isFailed_counts hw]
      rw [hconn]
      cases (!st.resultSet && st.limit.isSome) <;> rfl
    · dsimp only
      rw [← List.append_assoc]
      refine (hs.gens.none (fun e he => isGen_counts e (hw e he))).one ?_
      refine ⟨?_, ?_, ?_, hit, ?_, rfl, rfl, rfl, rfl⟩
      · rw [counts_none isGen_counts hw, ← hs.statement]
      · rw [counts_none (isTrxBegin_counts c) hw]; exact htrx
      · rw [counts_none isIter_counts hw]; exact hs.iter
      · rw [counts_none isFailed_counts hw]; exact hconn
  case execFail i st d stat code hpc hst hd hstat he =>
    refine hs.failing (l := .exec i (s.conn.getD 0) (s.ps i) :: recEv stat (evClass st)) (by simp)
      ?_ rfl rfl rfl rfl rfl (by rw [hpc]; rfl) (by rw [hpc]; rfl)
    intro e he
    rcases List.mem_cons.mp he with rfl | he
    · rfl
    · exact counts_recEv e he
  case scanFail i e hpc he =>
    exact hs.failing (l := []) (by simp) (by simp) rfl rfl rfl rfl rfl (by rw [hpc]; rfl)
      (by rw [hpc]; rfl)
  case execRows i st d stat hpc hst hd hstat hc he hr =>
    refine hs.plain rfl ?_ rfl rfl rfl (fun _ => by rw [hpc]; rfl) ?_
    · intro e he
      rcases List.mem_cons.mp he with rfl | he
      · rfl
      · exact counts_recEv e he
    · intro _
      rw [hpc]
      by_cases ho : d.outputs = [] <;> simp [ho, CPc.isStopped, pendingErr]
  case execOk i st d stat hpc hst hd hstat hc he hr =>
    refine hs.plain rfl ?_ rfl rfl rfl (fun _ => by rw [hpc]; rfl) (fun _ => by rw [hpc]; exact ⟨rfl, rfl⟩)
    intro e he
    rcases List.mem_cons.mp he with rfl | he
    · rfl
    · rcases List.mem_append.mp he with he | he
      · exact counts_recEv e he
      · rcases mem_okEv he with rfl | rfl <;> rfl
  case error i code stat hpc hstat =>
    refine hs.plain rfl ?_ rfl rfl rfl (fun h => by cases h) (fun _ => by rw [hpc]; exact ⟨rfl, rfl⟩)
    intro e he
    obtain ⟨n, rfl⟩ := mem_errEv he
    rfl
  case connFail => exact hs
  case stopped => exact hs
  case close f n hpc hn =>
    refine hs.plain rfl (by simp [CEv.counts]) rfl rfl rfl (fun h => by cases h) (fun _ => ?_)
    rw [hpc]; cases f <;> exact ⟨rfl, rfl⟩
  case closeNone f hpc hn =>
    refine hs.plain (List.append_nil _).symm (by simp) rfl rfl rfl (fun h => by cases h) (fun _ => ?_)
    rw [hpc]; cases f <;> exact ⟨rfl, rfl⟩
  case connOk f hpc hc ho =>
    refine hs.plain rfl (by simp [CEv.counts]) rfl rfl rfl (fun h => by cases h) (fun _ => ?_)
    rw [hpc]; cases f <;> exact ⟨rfl, rfl⟩
  case noDb f hpc hc hdb =>
    refine hs.plain (List.append_nil _).symm (by simp) rfl rfl rfl (fun h => by cases h) (fun _ => ?_)
    rw [hpc]; cases f <;> exact ⟨rfl, rfl⟩
  case toUse f hpc hc hdb =>
    refine hs.plain (List.append_nil _).symm (by simp) rfl rfl rfl (fun h => by cases h) (fun _ => ?_)
    rw [hpc]; cases f <;> exact ⟨rfl, rfl⟩
  case useOk f hpc hc he' =>
    refine hs.plain rfl (by simp [CEv.counts]) rfl rfl rfl (fun h => by cases h) (fun _ => ?_)
    rw [hpc]; cases f <;> exact ⟨rfl, rfl⟩
  case prepSkip f k st hpc hst hp =>
    refine hs.plain (List.append_nil _).symm (by simp) rfl rfl rfl (fun h => by cases h) (fun _ => ?_)
    rw [hpc]; cases f <;> exact ⟨rfl, rfl⟩
  case prepOk f k st hpc hst hp hps he hlen =>
    refine hs.plain rfl (by simp [CEv.counts]) rfl rfl rfl (fun h => by cases h) (fun _ => ?_)
    rw [hpc]; cases f <;> exact ⟨rfl, rfl⟩
  all_goals first
    | (refine hs.plain (List.append_nil _).symm ?_ rfl rfl rfl ?_ ?_
       · intro e he; cases he
       · intro h
         first
           | (exfalso; cases h; done)
           | (simp only [*]; rfl)
       · intro h
         first
           | (exfalso; cases h; done)
           | (simp only [*]; exact ⟨rfl, rfl⟩))
    | (refine hs.plain rfl ?_ rfl rfl rfl ?_ ?_
       · simp [CEv.counts]
       · intro h
         first
           | (exfalso; cases h; done)
           | (simp only [*]; rfl)
       · intro h
         first
           | (exfalso; cases h; done)
           | (simp only [*]; exact ⟨rfl, rfl⟩))

theorem countInv_run (c : Cli) (as : List Ans) : RunCountInv c (CState.init.run c as) :=
  CState.run_inv (fun _ _ _ h hs => hs.step h) as _
    ⟨rfl, rfl, rfl, fun h => (by cases h), fun _ => rfl,
      fun p i cnt h => (by simp [CState.init] at h)⟩

/-- **C79.** For every client and every run: each time the generators of a statement are called, the
run count they are given is what counting events gives (statements, trx begun, iterations,
connections with every failure counted as a reconnect), with the position of the client. -/
theorem C79_run_counts (c : Cli) (as : List Ans) :
    AtGen (CountsOf c) (CState.init.run c as).trace := (countInv_run c as).gens

/-! ### What follows for generators -/

/-- Spec: the uses of generator `g` in a run. -/
def usesOf (c : Cli) (g : Nat) (tr : List CEv) : List Use :=
  tr.flatMap fun e => match e with
    | .gen i cnt => ((((c.data[i]?).map (·.inputs)).getD []).filter (fun r => r.gen == g)).map
        fun r => ⟨r.explicit, cnt⟩
    | _ => []

theorem mem_usesOf {c : Cli} {g : Nat} {tr : List CEv} {u : Use} (h : u ∈ usesOf c g tr) :
    ∃ (p i : Nat), tr[p]? = some (.gen i u.cnt) := by
  unfold usesOf at h
  obtain ⟨e, he, hu⟩ := List.mem_flatMap.mp h
  obtain ⟨p, hp⟩ := List.mem_iff_getElem?.mp he
  cases e <;> try (exact absurd hu List.not_mem_nil)
  rename_i i cnt
  obtain ⟨r, -, rfl⟩ := List.mem_map.mp hu
  exact ⟨p, i, hp⟩

theorem countP_take_le {f : CEv → Bool} {tr : List CEv} {p q : Nat} (h : p ≤ q) :
    (tr.take p).countP f ≤ (tr.take q).countP f :=
  List.Sublist.countP_le ((List.take_sublist_take_left h))

/-- Spec: the first entry of the client begins a trx and is not idle time (or there is none). -/
def BeginsBusy (c : Cli) : Prop :=
  ∀ st, c.statements[0]? = some st → st.idle = 0 ∧ ∀ d, c.data[0]? = some d → d.begin_ = true

theorem trxPos_run (c : Cli) (hb : BeginsBusy c) (as : List Ans) :
    AtGen (fun _ _ cnt => 0 < cnt.trx) (CState.init.run c as).trace := by
  refine (CState.run_inv (c := c) (P := fun s => (∀ i, s.pc = .stmt (i + 1) ∨ s.pc = .limit i ∨
    s.pc = .exec i ∨ s.pc = .scan i → 0 < s.trxCount) ∧
    AtGen (fun _ _ cnt => 0 < cnt.trx) s.trace) ?_ as _ ⟨by simp [CState.init], ?_⟩).2
  · intro s a s' h hs
    obtain ⟨h1, h2⟩ := hs
    cases h
    case stmt i st d hpc hst hi hd =>
      have key : 0 < (if d.begin_ then s.trxCount + 1 else s.trxCount) := by
        cases i with
        | zero => rw [(hb st hst).2 d hd]; simp
        | succ i =>
          have := h1 i (Or.inl hpc)
          split <;> omega
      refine ⟨fun _ _ => key, ?_⟩
      dsimp only
      rw [← List.append_assoc]
      refine AtGen.one (h2.none ?_) key
      intro e he
      rcases mem_waitEv he with rfl | rfl <;> rfl
    case idle i st hpc hst hi =>
      refine ⟨?_, h2.none (by simp [CEv.isGen])⟩
      intro j hj
      cases i with
      | zero => exact absurd (hb st hst).1 hi
      | succ i => exact h1 i (Or.inl hpc)
    case more i hpc hm => exact ⟨fun j _ => h1 i (Or.inr (Or.inl hpc)), h2⟩
    case execRows i st d stat hpc hst hd hstat hc he hr =>
      refine ⟨fun j _ => h1 i (Or.inr (Or.inr (Or.inl hpc))), h2.none ?_⟩
      intro e he
      rcases List.mem_cons.mp he with rfl | he
      · rfl
      · exact isGen_counts e (counts_recEv e he)
    case execOk i st d stat hpc hst hd hstat hc he hr =>
      refine ⟨fun j _ => h1 i (Or.inr (Or.inr (Or.inl hpc))), h2.none ?_⟩
      intro e he
      rcases List.mem_cons.mp he with rfl | he
      · rfl
      · rcases List.mem_append.mp he with he | he
        · exact isGen_counts e (counts_recEv e he)
        · rcases mem_okEv he with rfl | rfl <;> rfl
    case scanOk i hpc he =>
      exact ⟨fun j _ => h1 i (Or.inr (Or.inr (Or.inr hpc))), h2.none (by simp [CEv.isGen])⟩
    case execFail i st d stat code hpc hst hd hstat he =>
      refine ⟨by simp, h2.none ?_⟩
      intro e he
      rcases List.mem_cons.mp he with rfl | he
      · rfl
      · rcases List.mem_append.mp he with he | he
        · exact isGen_counts e (counts_recEv e he)
        · rw [List.mem_singleton.mp he]; rfl
    case error =>
      refine ⟨by simp, h2.none ?_⟩
      intro e he
      obtain ⟨n, rfl⟩ := mem_errEv he
      rfl
    case connFail => exact ⟨h1, h2⟩
    case stopped => exact ⟨h1, h2⟩
    all_goals first
      | (refine ⟨?_, h2⟩; simp; done)
      | (refine ⟨?_, h2.none ?_⟩ <;> (simp [CEv.isGen]; done))
  · intro p i cnt h
    simp [CState.init] at h

/-- **C79.** Uses of a generator in a run of a client come with counters that start at 1 or above and
never go back, for every single-client scope; for trx scope if the client's first trx does not begin
with idle time. -/
theorem C79_counters_ordered_partial (c : Cli) (as : List Ans) (g : Nat) (s : Scope) (hs : IsSingle s)
    (hb : s = .trx → BeginsBusy c) : CountersOrdered s (usesOf c g (CState.init.run c as).trace) := by
  have hc := C79_run_counts c as
  constructor
  · intro u hu
    obtain ⟨p, i, hp⟩ := mem_usesOf hu
    have h := hc p i u.cnt hp
    rcases hs with rfl | rfl | rfl | rfl | rfl
    · show 0 < u.cnt.statement; rw [h.statement]; omega
    · show 0 < u.cnt.statement; rw [h.statement]; omega
    · exact trxPos_run c (hb rfl) as p i u.cnt hp
    · exact h.iterPos
    · show 0 < u.cnt.conn; rw [h.conn]; omega
  · unfold usesOf
    rw [List.pairwise_flatMap]
    constructor
    · intro e he
      cases e <;> try (exact List.Pairwise.nil)
      dsimp only
      rw [List.pairwise_map]
      exact List.pairwise_of_forall (fun _ _ => Nat.le_refl _)
    · rw [List.pairwise_iff_getElem]
      intro p q hp hq hlt x hx y hy
      have hp' := List.getElem?_eq_getElem hp
      have hq' := List.getElem?_eq_getElem hq
      revert hx hy hp' hq'
      generalize (CState.init.run c as).trace[p] = e1
      generalize (CState.init.run c as).trace[q] = e2
      intro hx hy hp' hq'
      cases e1 <;> try (exact absurd hx List.not_mem_nil)
      cases e2 <;> try (exact absurd hy List.not_mem_nil)
      rename_i i cnt i' cnt'
      obtain ⟨r, -, rfl⟩ := List.mem_map.mp hx
      obtain ⟨r', -, rfl⟩ := List.mem_map.mp hy
      have h1 := hc p i cnt hp'
      have h2 := hc q i' cnt' hq'
      have hstep : ∀ f : CEv → Bool, ((CState.init.run c as).trace.take p).countP f +
          (if f (.gen i cnt) then 1 else 0) ≤ ((CState.init.run c as).trace.take q).countP f := by
        intro f
        have := countP_take_le (f := f) (tr := (CState.init.run c as).trace) (p := p + 1) (q := q) hlt
        rw [List.take_add_one, hp', List.countP_append] at this
        simpa [List.countP_cons] using this
      rcases hs with rfl | rfl | rfl | rfl | rfl
      · show cnt.statement ≤ cnt'.statement
        rw [h1.statement, h2.statement]
        have := hstep CEv.isGen
        omega
      · show cnt.statement ≤ cnt'.statement
        rw [h1.statement, h2.statement]
        have := hstep CEv.isGen
        omega
      · show cnt.trx ≤ cnt'.trx
        rw [h1.trx, h2.trx]
        have := hstep (CEv.isTrxBegin c)
        exact Nat.le_trans this (Nat.le_add_right _ _)
      · show cnt.iter ≤ cnt'.iter
        rw [h1.iter, h2.iter]
        have := hstep CEv.isIter
        omega
      · show cnt.conn ≤ cnt'.conn
        rw [h1.conn, h2.conn]
        have := hstep CEv.isFailed
        omega

variable {G V : Type}

/-- **C79, with C03.** The values that a generator of a single-client scope gives in a run
of the client that uses it are the expected ones: a new value on an explicit call and in a new
statement, trx, iteration or connection, else the value before. -/
theorem C79_generator_values_partial (c : Cli) (as : List Ans) (k : Nat) (f : GenFun G V) (s : Scope)
    (hs : IsSingle s) (hb : s = .trx → BeginsBusy c) (g : G) :
    ((ScopedGen.new s g : ScopedGen G V).uses f (usesOf c k (CState.init.run c as).trace)).2 =
      (expected f s none g (usesOf c k (CState.init.run c as).trace)).map some :=
  C03_single_client_values f s hs g _ (C79_counters_ordered_partial c as k s hs hb)

/-- An entry that uses generator 0. -/
def exUse (b e : Bool) : StmtData := { exData b e with inputs := [⟨"@d", 0, false⟩] }

/-- **C79 is false for idle time at the beginning of a trx.** The trx counter is 0 at the first
statement, and a generator of trx scope gives no value at all (client/client.go would put nil into
the query). -/
theorem C79_idle_first_false :
    let c : Cli := { exClient false with
      statements := [exIdle, exStmt "SELECT 2" true false false false false]
      data := [exData true false, exUse false true] }
    let us := usesOf c 0 (CState.init.run c (List.replicate 30 okAns)).trace
    us.map (·.cnt.trx) = [0] ∧
    ((ScopedGen.new .trx 0 : ScopedGen Nat Nat).uses (fun g _ => (g + 1, g + 1)) us).2 = [none] := by
  decide +kernel

/-- Three iterations of three statements, of which the second and third use a generator, with a
deadlock in the second iteration: counters of the uses. -/
example :
    let c : Cli := { exClient false with data := [exData true false, exUse false false, exUse false true] }
    let us := usesOf c 0 (CState.init.run c (List.replicate 20 okAns ++ [failAns 1213] ++
      List.replicate 11 okAns)).trace
    us.map (fun u => (u.cnt.statement, u.cnt.trx, u.cnt.iter, u.cnt.conn)) =
      [(2, 1, 1, 1), (3, 1, 1, 1), (5, 2, 2, 1), (7, 3, 3, 2), (8, 3, 3, 2)] := by
  decide +kernel

example : BeginsBusy (exClient true) := by
  intro st h
  cases h
  exact ⟨rfl, fun d h => by cases h; rfl⟩

end Finch
