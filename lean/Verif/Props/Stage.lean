import Verif.Model.Stage
import Mathlib.Tactic.Common
/-!
C50: execution groups run one after another.
-/
namespace Finch

/-- Spec: the number of clients of an execution group. -/
def clientsOf (groups : List (List Nat)) (e : Nat) : Nat := (groups[e]?.getD []).sum

/-- The execution group that is worked on. -/
def curGroup (groups : List (List Nat)) : SPc → Nat
  | .head e | .start e _ _ | .wait e _ | .spin e _ _ => e
  | .ended => groups.length

/-- How many clients of it have been started. -/
def startedOf (groups : List (List Nat)) : SPc → Nat
  | .head _ | .ended => 0
  | .start _ _ n => n
  | .wait e _ | .spin e _ _ => clientsOf groups e

/-- The number of clients below `m` not yet received. -/
def notReceived (f : Nat → GoSt) (m : Nat) : Nat :=
  (List.range m).countP fun k => decide (f k ≠ .received)

theorem notReceived_congr {f g : Nat → GoSt} {m : Nat}
    (h : ∀ k, k < m → (f k = .received ↔ g k = .received)) : notReceived f m = notReceived g m := by
  unfold notReceived
  apply List.countP_congr
  intro k hk
  have := h k (List.mem_range.mp hk)
  simp [this]

theorem notReceived_zero {f : Nat → GoSt} {m : Nat} :
    notReceived f m = 0 ↔ ∀ k, k < m → f k = .received := by
  unfold notReceived
  rw [List.countP_eq_zero]
  simp

theorem notReceived_set {f g : Nat → GoSt} {m k : Nat} (hk : k < m) (h1 : f k ≠ .received)
    (h2 : g k = .received) (h : ∀ x, x ≠ k → f x = g x) :
    notReceived f m = notReceived g m + 1 := by
  induction m with
  | zero => omega
  | succ m ih =>
    unfold notReceived at ih ⊢
    rw [List.range_succ, List.countP_append, List.countP_append]
    by_cases hkm : k = m
    · subst hkm
      have hc : List.countP (fun x => decide (f x ≠ .received)) (List.range k) =
          List.countP (fun x => decide (g x ≠ .received)) (List.range k) := by
        apply List.countP_congr
        intro x hx
        have := List.mem_range.mp hx
        rw [h x (by omega)]
      rw [hc]
      simp [h1, h2]
    · have := ih (by omega)
      have hm : (List.countP (fun k => decide (f k ≠ .received)) [m]) =
          List.countP (fun k => decide (g k ≠ .received)) [m] := by
        simp only [List.countP_cons, List.countP_nil, h m (Ne.symm hkm)]
      omega

theorem notReceived_all {f : Nat → GoSt} {m : Nat} (h : ∀ k, k < m → f k ≠ .received) :
    notReceived f m = m := by
  unfold notReceived
  rw [List.countP_eq_length.mpr]
  · simp
  · intro k hk
    simpa using h k (List.mem_range.mp hk)

structure SeqInv (groups : List (List Nat)) (s : SState) : Prop where
  finch : s.finchDone = false
  before : ∀ c : GoId, c.1 < curGroup groups s.pc → c.2 < clientsOf groups c.1 → s.st c = .received
  started : ∀ c : GoId, s.st c ≠ .idle → (c.1 < curGroup groups s.pc ∧ c.2 < clientsOf groups c.1) ∨
    (c.1 = curGroup groups s.pc ∧ c.2 < startedOf groups s.pc)
  sent : ∀ c : GoId, s.st c = .sent ↔ s.chan = some c
  running : ∀ k, k < startedOf groups s.pc → s.st (curGroup groups s.pc, k) ≠ .idle
  pc : match s.pc with
    | .start e j n => n = ((groups[e]?.getD []).take j).sum ∧ j ≤ (groups[e]?.getD []).length ∧
        ∀ k, s.st (e, k) ≠ .received
    | .wait e n => n = notReceived (fun k => s.st (e, k)) (clientsOf groups e)
    | .spin .. => False
    | .head e => ∀ k, s.st (e, k) = .idle
    | .ended => True

theorem seqInv_init (groups : List (List Nat)) : SeqInv groups SState.init :=
  ⟨rfl, by simp [SState.init, curGroup], by simp [SState.init], by simp [SState.init],
    by simp [SState.init, startedOf], by simp [SState.init]⟩

theorem clientsOf_none {groups : List (List Nat)} {e : Nat} (h : groups[e]? = none) :
    clientsOf groups e = 0 := by simp [clientsOf, h]

theorem SeqInv.next {groups : List (List Nat)} {s : SState} (hs : SeqInv groups s) :
    SeqInv groups (s.step groups .next) := by
  obtain ⟨hf, hb, hst, hse, hr, hpc⟩ := hs
  cases h : s.pc with
  | head e =>
    simp only [h, curGroup, startedOf] at hb hst hr hpc
    simp only [SState.step, h]
    cases hg : groups[e]? with
    | none =>
      have hlen := List.getElem?_eq_none_iff.mp hg
      refine ⟨hf, ?_, ?_, hse, by simp [startedOf], trivial⟩
      · intro c hc hc2
        exact hb c (by simp only [curGroup] at hc; omega) hc2
      · intro c hc
        rcases hst c hc with h1 | h1
        · refine Or.inl ⟨?_, h1.2⟩
          show c.1 < groups.length
          by_contra hge
          have := clientsOf_none (groups := groups) (e := c.1) (by simp; omega)
          omega
        · omega
    | some g =>
      simp only [hf]
      refine ⟨rfl, hb, hst, hse, by simp [startedOf], by simp, by simp, ?_⟩
      intro k
      show s.st (e, k) ≠ _
      rw [hpc k]; simp
  | start e j n =>
    simp only [h, curGroup, startedOf] at hb hst hr hpc
    obtain ⟨hn, hj, hnr⟩ := hpc
    simp only [SState.step, h]
    cases hg : (groups[e]?.getD [])[j]? with
    | none =>
      have hlen := List.getElem?_eq_none_iff.mp hg
      have htot : clientsOf groups e = n := by
        rw [hn, List.take_of_length_le hlen]; rfl
      refine ⟨hf, hb, ?_, hse, ?_, ?_⟩
      · intro c hc
        simp only [curGroup, startedOf, htot]
        exact hst c hc
      · intro k hk
        simp only [startedOf, htot] at hk
        exact hr k hk
      · show n = notReceived (fun k => s.st (e, k)) (clientsOf groups e)
        rw [notReceived_all (fun k _ => hnr k), htot]
    | some m =>
      have hlt := (List.getElem?_eq_some_iff.mp hg).1
      have hsum : n + m = ((groups[e]?.getD []).take (j + 1)).sum := by
        rw [List.take_add_one, hg, List.sum_append, ← hn]; simp
      have hnot : ∀ c : GoId, ¬ (c.1 = e ∧ n ≤ c.2 ∧ c.2 < n + m) →
          startClients s.st e n m c = s.st c := fun c hc => by simp only [startClients, if_neg hc]
      have hyes : ∀ c : GoId, (c.1 = e ∧ n ≤ c.2 ∧ c.2 < n + m) →
          startClients s.st e n m c = .running := fun c hc => by simp only [startClients, if_pos hc]
      refine ⟨hf, ?_, ?_, ?_, ?_, hsum, hlt, ?_⟩
      · intro c hc hc2
        simp only [curGroup] at hc
        show startClients s.st e n m c = _
        rw [hnot c (by omega)]
        exact hb c hc hc2
      · intro c hc
        replace hc : startClients s.st e n m c ≠ .idle := hc
        simp only [curGroup, startedOf]
        by_cases hy : c.1 = e ∧ n ≤ c.2 ∧ c.2 < n + m
        · exact Or.inr ⟨hy.1, hy.2.2⟩
        · rw [hnot c hy] at hc
          rcases hst c hc with h1 | h1
          · exact Or.inl h1
          · exact Or.inr ⟨h1.1, by omega⟩
      · intro c
        show startClients s.st e n m c = _ ↔ _
        by_cases hy : c.1 = e ∧ n ≤ c.2 ∧ c.2 < n + m
        · rw [hyes c hy]
          constructor
          · intro h; cases h
          · intro hc
            have := (hse c).mpr hc
            have h2 := hst c (by rw [this]; simp)
            omega
        · rw [hnot c hy]; exact hse c
      · intro k hk
        simp only [startedOf] at hk
        show startClients s.st e n m (e, k) ≠ _
        by_cases hy : n ≤ k
        · rw [hyes _ ⟨rfl, hy, hk⟩]; simp
        · rw [hnot _ (by omega)]; exact hr k (by omega)
      · intro k
        show startClients s.st e n m (e, k) ≠ _
        by_cases hy : n ≤ k ∧ k < n + m
        · rw [hyes _ ⟨rfl, hy⟩]; simp
        · rw [hnot _ (by intro h; exact hy h.2)]; exact hnr k
  | wait e n =>
    have hs' : SeqInv groups s := ⟨hf, hb, hst, hse, hr, hpc⟩
    simp only [SState.step, h]
    split
    · rename_i h0
      simp only [h, curGroup, startedOf] at hb hst hr hpc
      subst h0
      have hall := notReceived_zero.mp hpc.symm
      refine ⟨hf, ?_, ?_, hse, by simp [startedOf], ?_⟩
      · intro c hc hc2
        simp only [curGroup] at hc
        by_cases hce : c.1 = e
        · obtain ⟨c1, c2⟩ := c
          simp only at hce hc2
          subst hce
          exact hall c2 hc2
        · exact hb c (by omega) hc2
      · intro c hc
        simp only [curGroup]
        rcases hst c hc with h1 | h1
        · exact Or.inl ⟨by omega, h1.2⟩
        · exact Or.inl ⟨by omega, by rw [h1.1]; exact h1.2⟩
      · intro k
        show s.st (e + 1, k) = _
        by_contra hne
        have := hst (e + 1, k) hne
        simp at this
        omega
    · exact hs'
  | spin e n k => rw [h] at hpc; exact hpc.elim
  | ended =>
    simp only [SState.step, h]
    exact ⟨hf, hb, hst, hse, hr, hpc⟩

theorem SeqInv.recv {groups : List (List Nat)} {s : SState} (hs : SeqInv groups s) :
    SeqInv groups (s.step groups .recv) := by
  have hs' := hs
  obtain ⟨hf, hb, hst, hse, hr, hpc⟩ := hs
  simp only [SState.step]
  split
  · rename_i c e n hc h
    have hsent := (hse c).mpr hc
    simp only [h, curGroup, startedOf] at hb hst hr hpc
    have hce : c.1 = e ∧ c.2 < clientsOf groups e := by
      rcases hst c (by rw [hsent]; simp) with h1 | h1
      · have := hb c h1.1 h1.2
        rw [hsent] at this; cases this
      · exact h1
    obtain ⟨c1, c2⟩ := c
    simp only at hce
    obtain ⟨rfl, hlt⟩ := hce
    have hset : ∀ d : GoId, d ≠ (c1, c2) → setGo s.st (c1, c2) .received d = s.st d :=
      fun d hd => by simp only [setGo, if_neg hd]
    have hsame : setGo s.st (c1, c2) .received (c1, c2) = .received := by simp [setGo]
    refine ⟨hf, ?_, ?_, ?_, ?_, ?_⟩
    · intro d hd hd2
      show setGo _ _ _ d = _
      by_cases hdc : d = (c1, c2)
      · rw [hdc, hsame]
      · rw [hset d hdc]; exact hb d hd hd2
    · intro d hd
      replace hd : setGo s.st (c1, c2) .received d ≠ .idle := hd
      by_cases hdc : d = (c1, c2)
      · subst hdc; exact Or.inr ⟨rfl, hlt⟩
      · rw [hset d hdc] at hd; exact hst d hd
    · intro d
      show setGo _ _ _ d = _ ↔ none = some d
      by_cases hdc : d = (c1, c2)
      · rw [hdc, hsame]; simp
      · rw [hset d hdc]
        constructor
        · intro hd
          have := (hse d).mp hd
          rw [hc] at this
          cases this
          exact absurd rfl hdc
        · intro h; cases h
    · intro k hk
      show setGo _ _ _ (c1, k) ≠ _
      by_cases hdc : (c1, k) = (c1, c2)
      · rw [hdc, hsame]; simp
      · rw [hset _ hdc]; exact hr k hk
    · show n = notReceived (fun k => setGo s.st (c1, c2) .received (c1, k)) (clientsOf groups c1)
      have := notReceived_set (f := fun k => s.st (c1, k))
        (g := fun k => setGo s.st (c1, c2) .received (c1, k)) hlt (by simp [hsent]) hsame
        (fun x hx => (hset (c1, x) (by simp [hx])).symm)
      omega
  · rename_i h; rw [h] at hpc; exact hpc.elim
  · exact hs'

theorem SeqInv.change {groups : List (List Nat)} {s : SState} (hs : SeqInv groups s) {c : GoId}
    {x : GoSt} {ch : Option GoId} (hold : s.st c ≠ .idle) (hold2 : s.st c ≠ .received)
    (hx : x ≠ .idle) (hx2 : x ≠ .received)
    (hch : (x = .sent ∧ ch = some c ∧ s.chan = none) ∨
      (x ≠ .sent ∧ s.st c ≠ .sent ∧ ch = s.chan)) :
    SeqInv groups { s with st := setGo s.st c x, chan := ch } := by
  obtain ⟨hf, hb, hst, hse, hr, hpc⟩ := hs
  have hset : ∀ d : GoId, d ≠ c → setGo s.st c x d = s.st d :=
    fun d hd => by simp only [setGo, if_neg hd]
  have hsame : setGo s.st c x c = x := by simp [setGo]
  have hrec : ∀ d, setGo s.st c x d = .received ↔ s.st d = .received := by
    intro d
    by_cases hd : d = c
    · rw [hd, hsame]; simp [hx2, hold2]
    · rw [hset d hd]
  have hidle : ∀ d, setGo s.st c x d = .idle ↔ s.st d = .idle := by
    intro d
    by_cases hd : d = c
    · rw [hd, hsame]; simp [hx, hold]
    · rw [hset d hd]
  refine ⟨hf, ?_, ?_, ?_, ?_, ?_⟩
  · intro d hd hd2; exact (hrec d).mpr (hb d hd hd2)
  · intro d hd; exact hst d (fun h => hd ((hidle d).mpr h))
  · intro d
    show setGo s.st c x d = _ ↔ ch = some d
    by_cases hd : d = c
    · rw [hd, hsame]
      rcases hch with ⟨h1, h2, h3⟩ | ⟨h1, h2, h3⟩
      · simp [h1, h2]
      · rw [h3]; simp only [h1, false_iff]
        intro h; exact h2 ((hse c).mpr h)
    · rw [hset d hd]
      rcases hch with ⟨h1, h2, h3⟩ | ⟨h1, h2, h3⟩
      · rw [hse d, h3, h2]
        simp; exact fun h => hd h.symm
      · rw [h3]; exact hse d
  · intro k hk h; exact hr k hk ((hidle _).mp h)
  · show match s.pc with
      | .start e j n => n = ((groups[e]?.getD []).take j).sum ∧ j ≤ (groups[e]?.getD []).length ∧
          ∀ k, setGo s.st c x (e, k) ≠ .received
      | .wait e n => n = notReceived (fun k => setGo s.st c x (e, k)) (clientsOf groups e)
      | .spin .. => False
      | .head e => ∀ k, setGo s.st c x (e, k) = .idle
      | .ended => True
    split <;> rename_i h <;> rw [h] at hpc
    · exact ⟨hpc.1, hpc.2.1, fun k hk => hpc.2.2 k ((hrec _).mp hk)⟩
    · rw [hpc]; exact notReceived_congr (fun k _ => (hrec _).symm)
    · exact hpc
    · intro k; exact (hidle _).mpr (hpc k)
    · trivial

theorem SeqInv.step {groups : List (List Nat)} {s : SState} (hs : s.stageDone = false → SeqInv groups s)
    (a : SAct) :
    (s.step groups a).stageDone = false → SeqInv groups (s.step groups a) := by
  intro h
  have hmono : s.stageDone = false := by
    revert h
    cases a <;> simp only [SState.step] <;> (repeat' split) <;> first | exact id | (intro h; cases h)
  have hs := hs hmono
  have hfin : s.finchDone = false := hs.finch
  cases a with
  | next => exact hs.next
  | recv => exact hs.recv
  | seeStage =>
    simp only [SState.step]
    split
    · rw [hmono]; exact hs
    · exact hs
  | seeFinch =>
    simp only [SState.step]
    split
    · rw [hfin]; exact hs
    · exact hs
  | tick =>
    simp only [SState.step]
    split
    · rename_i hp
      have := hs.pc
      rw [hp] at this
      exact this.elim
    · exact hs
  | stop c =>
    simp only [SState.step]
    split
    · rename_i hc
      exact hs.change (ch := s.chan) (by simp [hc]) (by simp [hc]) (by simp) (by simp)
        (Or.inr ⟨by simp, by simp [hc], rfl⟩)
    · exact hs
  | send c =>
    simp only [SState.step]
    split
    · rename_i hc
      exact hs.change (by simp [hc.1]) (by simp [hc.1]) (by simp) (by simp) (Or.inl ⟨rfl, rfl, hc.2⟩)
    · exact hs
  | expire => cases h
  | cancel => cases h

theorem SState.run_inv {groups : List (List Nat)} {P : SState → Prop}
    (h : ∀ s a, P s → P (s.step groups a)) : ∀ (as : List SAct) (s : SState), P s → P (s.run groups as) := by
  intro as
  induction as with
  | nil => intro s hs; exact hs
  | cons a as ih => intro s hs; exact ih _ (h s a hs)

theorem finch_stage (groups : List (List Nat)) (s : SState) (a : SAct)
    (h : s.finchDone = true → s.stageDone = true) :
    (s.step groups a).finchDone = true → (s.step groups a).stageDone = true := by
  cases a <;> simp only [SState.step] <;> (repeat' split) <;> first | exact h | (intro _; trivial)

theorem seqInv_run (groups : List (List Nat)) (as : List SAct)
    (h : (SState.init.run groups as).stageDone = false) : SeqInv groups (SState.init.run groups as) :=
  (SState.run_inv (groups := groups)
    (P := fun s => (s.stageDone = false → SeqInv groups s) ∧ (s.finchDone = true → s.stageDone = true))
    (fun s a hs => ⟨SeqInv.step hs.1 a, finch_stage groups s a hs.2⟩) as SState.init
    ⟨fun _ => seqInv_init groups, by simp [SState.init]⟩).1 h

/-- **C50.** For every workload and every schedule of the stage and its clients: as long as the stage
runtime has not elapsed and the run is not cancelled, when a client of an execution group has been
started, all clients of all earlier execution groups have signalled done (and the stage has received
it). What is missing: nothing for runs without a stage runtime; with one, see `C50_runtime_false`. -/
theorem C50_sequential_partial (groups : List (List Nat)) (as : List SAct)
    (h : (SState.init.run groups as).stageDone = false) (c c' : GoId) (hlt : c.1 < c'.1)
    (hc : c.2 < clientsOf groups c.1) (hst : (SState.init.run groups as).st c' ≠ .idle) :
    (SState.init.run groups as).st c = .received := by
  have hi := seqInv_run groups as h
  refine hi.before c ?_ hc
  rcases hi.started c' hst with h1 | h1 <;> omega

/-- **C50.** Only clients of the workload are started. -/
theorem C50_only_clients (groups : List (List Nat)) (as : List SAct)
    (h : (SState.init.run groups as).stageDone = false) (c : GoId)
    (hst : (SState.init.run groups as).st c ≠ .idle) : c.2 < clientsOf groups c.1 := by
  have hi := seqInv_run groups as h
  rcases hi.started c hst with h1 | h1
  · exact h1.2
  · have hpc := hi.pc
    obtain ⟨h2, h3⟩ := h1
    rw [h2]
    cases hp : (SState.init.run groups as).pc with
    | head e => rw [hp] at h3; simp [startedOf] at h3
    | ended => rw [hp] at h3; simp [startedOf] at h3
    | start e j n =>
      rw [hp] at h3 hpc
      simp only [startedOf, curGroup] at h3 hpc ⊢
      have : ((groups[e]?.getD []).take j).sum ≤ (groups[e]?.getD []).sum := by
        conv_rhs => rw [← List.take_append_drop j (groups[e]?.getD [])]
        rw [List.sum_append]; omega
      unfold clientsOf
      omega
    | wait e n => rw [hp] at h3; exact h3
    | spin e n k => rw [hp] at h3; exact h3

/-- **C50, the end.** If the stage ends without its runtime elapsing or being cancelled, every client
of the workload was run and has signalled done. -/
theorem C50_all_clients_run (groups : List (List Nat)) (as : List SAct)
    (h : (SState.init.run groups as).stageDone = false)
    (he : (SState.init.run groups as).pc = .ended) (c : GoId) (hc : c.2 < clientsOf groups c.1) :
    (SState.init.run groups as).st c = .received := by
  have hi := seqInv_run groups as h
  refine hi.before c ?_ hc
  rw [he]
  show c.1 < groups.length
  by_contra hge
  have := clientsOf_none (groups := groups) (e := c.1) (by simp; omega)
  omega

/-- **C50, no deadlock.** While the stage waits for clients, at least one of them is still running, or
can send, or the stage can receive. -/
theorem C50_no_deadlock (groups : List (List Nat)) (as : List SAct)
    (h : (SState.init.run groups as).stageDone = false) (e n : Nat)
    (hw : (SState.init.run groups as).pc = .wait e (n + 1)) :
    (∃ k, (SState.init.run groups as).st (e, k) = .running) ∨
    (∃ k, (SState.init.run groups as).st (e, k) = .finished ∧
      (SState.init.run groups as).chan = none) ∨
    (∃ k, (SState.init.run groups as).chan = some (e, k)) := by
  have hi := seqInv_run groups as h
  generalize SState.init.run groups as = s at *
  obtain ⟨hf, hb, hst, hse, hr, hpc⟩ := hi
  simp only [hw, curGroup, startedOf] at hb hst hr hpc
  cases hch : s.chan with
  | some c =>
    have hsent := (hse c).mpr hch
    obtain ⟨c1, c2⟩ := c
    rcases hst (c1, c2) (by rw [hsent]; simp) with h1 | h1
    · have := hb _ h1.1 h1.2
      rw [hsent] at this; cases this
    · obtain ⟨rfl, -⟩ := h1
      exact Or.inr (Or.inr ⟨c2, rfl⟩)
  | none =>
    have : ¬ ∀ k, k < clientsOf groups e → s.st (e, k) = .received := by
      intro hall
      rw [notReceived_zero.mpr hall] at hpc
      cases hpc
    push Not at this
    obtain ⟨k, hk, hne⟩ := this
    cases hs : s.st (e, k) with
    | idle => exact absurd hs (hr k hk)
    | running => exact Or.inl ⟨k, hs⟩
    | finished => exact Or.inr (Or.inl ⟨k, hs, rfl⟩)
    | sent => have := (hse _).mp hs; rw [hch] at this; cases this
    | received => exact absurd hs hne

/-! ### Cancellation -/

theorem chan_not_idle {groups : List (List Nat)} (s : SState) (a : SAct)
    (h : ∀ c, s.chan = some c → s.st c ≠ .idle) :
    ∀ c, (s.step groups a).chan = some c → (s.step groups a).st c ≠ .idle := by
  have hset : ∀ (d : GoId) x, x ≠ GoSt.idle → ∀ c, s.st c ≠ .idle → setGo s.st d x c ≠ .idle := by
    intro d x hx c hc
    simp only [setGo]
    split
    · exact hx
    · exact hc
  cases a with
  | next =>
    simp only [SState.step]
    (repeat' split) <;> try exact h
    intro c hc
    show startClients _ _ _ _ c ≠ _
    simp only [startClients]
    split
    · simp
    · exact h c hc
  | recv =>
    simp only [SState.step]
    split
    · simp
    · simp
    · exact h
  | seeStage => simp only [SState.step]; (repeat' split) <;> exact h
  | seeFinch => simp only [SState.step]; (repeat' split) <;> exact h
  | tick => simp only [SState.step]; (repeat' split) <;> exact h
  | stop c =>
    simp only [SState.step]
    split
    · intro d hd; exact hset c _ (by simp) d (h d hd)
    · exact h
  | send c =>
    simp only [SState.step]
    split
    · intro d hd
      cases hd
      simp [setGo]
    · exact h
  | expire => exact h
  | cancel => exact h

/-- The client is idle and will remain so. -/
structure IdleInv (c : GoId) (s : SState) : Prop where
  finch : s.finchDone = true
  idle : s.st c = .idle
  chan : s.chan ≠ some c
  pc : ∀ j n, s.pc ≠ .start c.1 j n

theorem IdleInv.step {groups : List (List Nat)} {c : GoId} (s : SState) (a : SAct) (hs : IdleInv c s) :
    IdleInv c (s.step groups a) := by
  have hs' := hs
  obtain ⟨h1, h2, h3, h4⟩ := hs
  have hset : ∀ (d : GoId) x, d ≠ c → setGo s.st d x c = .idle := by
    intro d x hd
    simp only [setGo, if_neg (Ne.symm hd)]
    exact h2
  cases a with
  | next =>
    simp only [SState.step]
    split
    · split
      · exact ⟨h1, h2, h3, by simp⟩
      · simp only [h1, if_true]; exact ⟨rfl, h2, h3, by simp⟩
    · rename_i e j n h
      have he : c.1 ≠ e := by rintro rfl; exact h4 _ _ h
      split
      · exact ⟨h1, h2, h3, by simp⟩
      · refine ⟨h1, ?_, h3, ?_⟩
        · show startClients _ _ _ _ c = _
          simp only [startClients, he, false_and, if_false]
          exact h2
        · intro j n h
          injection h with h
          exact he h.symm
    · split
      · exact ⟨h1, h2, h3, by simp⟩
      · exact hs'
    · split
      · exact ⟨h1, h2, h3, by simp⟩
      · exact hs'
    · exact hs'
  | recv =>
    simp only [SState.step]
    split
    · rename_i d e n hc h
      exact ⟨h1, hset d _ (by rintro rfl; exact h3 hc), by simp, by simp⟩
    · rename_i d e n k hc h
      exact ⟨h1, hset d _ (by rintro rfl; exact h3 hc), by simp, by simp⟩
    · exact hs'
  | seeStage =>
    simp only [SState.step]
    split
    · split
      · exact ⟨h1, h2, h3, by simp⟩
      · exact hs'
    · exact hs'
  | seeFinch =>
    simp only [SState.step]
    split
    · simp only [h1, if_true]
      exact ⟨rfl, h2, h3, by simp⟩
    · exact hs'
  | tick =>
    simp only [SState.step]
    split
    · exact ⟨h1, h2, h3, by simp⟩
    · exact hs'
  | stop d =>
    simp only [SState.step]
    split
    · rename_i hd
      exact ⟨h1, hset d _ (by rintro rfl; rw [h2] at hd; cases hd), h3, h4⟩
    · exact hs'
  | send d =>
    simp only [SState.step]
    split
    · rename_i hd
      have hdc : d ≠ c := by rintro rfl; rw [h2] at hd; cases hd.1
      exact ⟨h1, hset d _ hdc, by simp [hdc], h4⟩
    · exact hs'
  | expire => exact ⟨h1, h2, h3, h4⟩
  | cancel => exact ⟨rfl, h2, h3, h4⟩

/-- **C50, cancellation.** When the run is cancelled, no further client is started, except those of the
execution group that is just being started. -/
theorem C50_no_start_after_cancel (groups : List (List Nat)) (as bs : List SAct) (c : GoId)
    (hidle : (SState.init.run groups as).st c = .idle)
    (hpc : ∀ j n, (SState.init.run groups as).pc ≠ .start c.1 j n) :
    (SState.init.run groups (as ++ .cancel :: bs)).st c = .idle := by
  have hch := SState.run_inv (groups := groups) chan_not_idle as SState.init (by simp [SState.init])
  have hrun : SState.init.run groups (as ++ .cancel :: bs) =
      ((SState.init.run groups as).step groups .cancel).run groups bs := by
    simp [SState.run, List.foldl_append]
  rw [hrun]
  refine (SState.run_inv (groups := groups) IdleInv.step bs
    ((SState.init.run groups as).step groups .cancel) ⟨rfl, hidle, ?_, hpc⟩).idle
  exact fun h => hch c h hidle

/-- A bound of the number of steps that the stage can still take once the run is cancelled. -/
def stepsLeft (groups : List (List Nat)) : SPc → Nat
  | .ended => 0
  | .head _ => 1
  | .spin _ n k => n + k + 2
  | .wait _ n => n + 13
  | .start e j n => ((groups[e]?.getD []).length - j) + (n + ((groups[e]?.getD []).drop j).sum) + 14

/-- How often the stage moves on. -/
def moves (groups : List (List Nat)) : SState → List SAct → Nat
  | _, [] => 0
  | s, a :: as => (if (s.step groups a).pc = s.pc then 0 else 1) + moves groups (s.step groups a) as

theorem stepsLeft_step (groups : List (List Nat)) (s : SState) (a : SAct) (hf : s.finchDone = true) :
    (s.step groups a).finchDone = true ∧
    ((s.step groups a).pc = s.pc ∨
      stepsLeft groups (s.step groups a).pc < stepsLeft groups s.pc) := by
  cases a with
  | next =>
    simp only [SState.step]
    split
    · rename_i e h
      simp only [hf, if_true]
      split <;> exact ⟨rfl, Or.inr (by rw [h]; simp [stepsLeft])⟩
    · rename_i e j n h
      split
      · refine ⟨hf, Or.inr ?_⟩
        rw [h]; simp only [stepsLeft]; omega
      · rename_i k hk
        refine ⟨hf, Or.inr ?_⟩
        rw [h]
        have hlt := (List.getElem?_eq_some_iff.mp hk).1
        have hd := List.drop_eq_getElem_cons hlt
        have hk' : (groups[e]?.getD [])[j] = k := (List.getElem?_eq_some_iff.mp hk).2
        simp only [stepsLeft]
        rw [hd, hk', List.sum_cons]
        omega
    · rename_i e n h
      split
      · exact ⟨hf, Or.inr (by rw [h]; simp only [stepsLeft]; omega)⟩
      · exact ⟨hf, Or.inl rfl⟩
    · rename_i e n k h
      split
      · exact ⟨hf, Or.inr (by rw [h]; simp only [stepsLeft]; omega)⟩
      · exact ⟨hf, Or.inl rfl⟩
    · exact ⟨hf, Or.inl rfl⟩
  | recv =>
    simp only [SState.step]
    split
    · rename_i c e n hc h
      exact ⟨hf, Or.inr (by rw [h]; simp only [stepsLeft]; omega)⟩
    · rename_i c e n k hc h
      exact ⟨hf, Or.inr (by rw [h]; simp only [stepsLeft]; omega)⟩
    · exact ⟨hf, Or.inl rfl⟩
  | seeStage =>
    simp only [SState.step]
    split
    · rename_i e n h
      split
      · exact ⟨hf, Or.inr (by rw [h]; simp only [stepsLeft]; omega)⟩
      · exact ⟨hf, Or.inl rfl⟩
    · exact ⟨hf, Or.inl rfl⟩
  | seeFinch =>
    simp only [SState.step]
    split
    · rename_i e n h
      simp only [hf, if_true]
      exact ⟨trivial, Or.inr (by rw [h]; simp only [stepsLeft]; omega)⟩
    · exact ⟨hf, Or.inl rfl⟩
  | tick =>
    simp only [SState.step]
    split
    · rename_i e n k hc h
      exact ⟨hf, Or.inr (by rw [h]; simp only [stepsLeft]; omega)⟩
    · exact ⟨hf, Or.inl rfl⟩
  | stop c => simp only [SState.step]; split <;> exact ⟨hf, Or.inl rfl⟩
  | send c => simp only [SState.step]; split <;> exact ⟨hf, Or.inl rfl⟩
  | expire => exact ⟨hf, Or.inl rfl⟩
  | cancel => exact ⟨rfl, Or.inl rfl⟩

/-- **C50, cancellation.** Once the run is cancelled the stage moves on only a bounded number of times,
whatever the clients do (even if none ever stops). -/
theorem C50_bounded_after_cancel (groups : List (List Nat)) (as : List SAct) :
    ∀ s : SState, s.finchDone = true → moves groups s as ≤ stepsLeft groups s.pc := by
  induction as with
  | nil => intro s _; exact Nat.zero_le _
  | cons a as ih =>
    intro s hf
    obtain ⟨h1, h2⟩ := stepsLeft_step groups s a hf
    have := ih _ h1
    simp only [moves]
    rcases h2 with h2 | h2
    · rw [if_pos h2]; rw [h2] at this; omega
    · split <;> omega

/-- **C50, cancellation.** ...and it can always move on until it has ended: it never waits for a
client. -/
theorem C50_progress_after_cancel (groups : List (List Nat)) (s : SState) (hf : s.finchDone = true)
    (hne : s.pc ≠ .ended) :
    ∃ a ∈ [SAct.next, .seeFinch, .recv, .tick], (s.step groups a).pc ≠ s.pc := by
  cases h : s.pc with
  | ended => exact absurd h hne
  | head e =>
    refine ⟨.next, by simp, ?_⟩
    simp only [SState.step, h, hf, if_true]
    split <;> simp
  | start e j n =>
    refine ⟨.next, by simp, ?_⟩
    simp only [SState.step, h]
    split <;> simp
  | wait e n =>
    cases n with
    | zero => exact ⟨.next, by simp, by simp [SState.step, h]⟩
    | succ n => exact ⟨.seeFinch, by simp, by simp [SState.step, h, hf]⟩
  | spin e n k =>
    cases n with
    | zero => exact ⟨.next, by simp, by simp [SState.step, h]⟩
    | succ n =>
      cases k with
      | zero => exact ⟨.next, by simp, by simp [SState.step, h]⟩
      | succ k =>
        cases hc : s.chan with
        | none => exact ⟨.tick, by simp, by simp [SState.step, h, hc]⟩
        | some c => exact ⟨.recv, by simp, by simp [SState.step, h, hc]⟩

/-! ### What is false -/

/-- **C50 is false with a stage runtime.** Two execution groups of one client each. The runtime of the
stage elapses; the client of the first group does not stop within the ten ticks (its query still
runs); the stage warns and starts the client of the second group while the first still runs. -/
theorem C50_runtime_false : ∃ (groups : List (List Nat)) (as : List SAct),
    (SState.init.run groups as).st (0, 0) = .running ∧
    (SState.init.run groups as).st (1, 0) = .running ∧
    (SState.init.run groups as).finchDone = false :=
  ⟨[[1], [1]], [.next, .next, .next, .expire, .seeStage] ++ List.replicate 10 .tick ++
    [.next, .next, .next], by decide⟩

/-- **C50: late clients.** The late client of the first group then signals done while the stage waits
for the second group. It is taken for the client of the second group: the stage ends although that
client still runs and the stage never warns about it. -/
theorem C50_late_client_false : ∃ (groups : List (List Nat)) (as : List SAct),
    (SState.init.run groups as).pc = .ended ∧
    (SState.init.run groups as).st (1, 0) = .running ∧
    (SState.init.run groups as).finchDone = false ∧
    (SState.init.run groups as).warned = [(0, 1)] :=
  ⟨[[1], [1]], [.next, .next, .next, .expire, .seeStage] ++ List.replicate 10 .tick ++
    [.next, .next, .next, .next, .stop (0, 0), .send (0, 0), .recv, .next, .next], by decide⟩

/-! ### Examples -/

/-- A schedule of two groups, the first with two client groups. -/
def exStage : List SAct :=
  [.next, .next, .next, .next, .stop (0, 1), .send (0, 1), .recv, .stop (0, 0), .send (0, 0), .stop (0, 2),
    .recv, .send (0, 2), .recv, .next, .next, .next, .next]

example : (SState.init.run [[2, 1], [1]] exStage).stageDone = false ∧
    (SState.init.run [[2, 1], [1]] exStage).st (1, 0) ≠ .idle ∧ 2 < clientsOf [[2, 1], [1]] 0 ∧
    (SState.init.run [[2, 1], [1]] exStage).pc = .wait 1 1 := by decide

/-- Cancelled while the first group runs, none of whose clients ever stops. -/
example : (SState.init.run [[2, 1], [1]] (exStage.take 4)).st (1, 0) = .idle ∧
    (SState.init.run [[2, 1], [1]] (exStage.take 4)).pc = .wait 0 3 ∧
    (SState.init.run [[2, 1], [1]] (exStage.take 4 ++ [.cancel, .seeFinch] ++ List.replicate 10 .tick ++
      [.next, .next])).pc = .ended ∧
    moves [[2, 1], [1]] (SState.init.run [[2, 1], [1]] (exStage.take 4 ++ [.cancel]))
      ([.seeFinch] ++ List.replicate 10 .tick ++ [.next, .next]) = 13 := by decide

example : (SState.init.run [[2, 1], [1]] (exStage ++ [.stop (1, 0), .send (1, 0), .recv, .next, .next])).pc =
    .ended := by decide

end Finch
