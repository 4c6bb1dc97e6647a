import Mathlib.Data.List.Induction
import Verif.Props.Stage
/-!
C118: a stage ends on time. Once the runtime of a stage has elapsed, `Stage.Run` waits at most ten
milliseconds for each execution group that is left, whatever its clients do; until then it waits for
all its clients; and the clients of which it warns are as many as those that never signalled.
-/
namespace Finch

/-! ### After the runtime -/

/-- Spec: how many milliseconds the stage waits (stage/stage.go:211) during a schedule. -/
def waited (groups : List (List Nat)) : SState → List SAct → Nat
  | _, [] => 0
  | s, a :: as =>
    (if a = .tick ∧ (s.step groups a).pc ≠ s.pc then 1 else 0) + waited groups (s.step groups a) as

/-- Spec: the number of execution groups that are not over. -/
def groupsLeft (groups : List (List Nat)) : SPc → Nat
  | .head e => groups.length - e
  | .start e _ _ | .wait e _ | .spin e _ _ => groups.length - (e + 1) + 1
  | .ended => 0

/-- The milliseconds that can still be waited. -/
def ticksLeft (groups : List (List Nat)) : SPc → Nat
  | .head e => 10 * (groups.length - e)
  | .start e _ _ | .wait e _ => 10 * (groups.length - (e + 1)) + 10
  | .spin e _ k => 10 * (groups.length - (e + 1)) + k
  | .ended => 0

/-- The steps for execution groups from `e` on. -/
def costFrom (groups : List (List Nat)) (e : Nat) : Nat :=
  ((groups.drop e).map fun g => g.length + g.sum + 15).sum

/-- A bound of the number of steps that the stage can still take once its runtime is over. -/
def stepsLeftRt (groups : List (List Nat)) : SPc → Nat
  | .ended => 0
  | .head e => costFrom groups e + 1
  | .spin e n k => n + k + 2 + costFrom groups (e + 1)
  | .wait e n => n + 13 + costFrom groups (e + 1)
  | .start e j n =>
    ((groups[e]?.getD []).length - j) + (n + ((groups[e]?.getD []).drop j).sum) + 14 + costFrom groups (e + 1)

theorem costFrom_lt {groups : List (List Nat)} {e : Nat} {g : List Nat} (h : groups[e]? = some g) :
    costFrom groups e = g.length + g.sum + 15 + costFrom groups (e + 1) := by
  obtain ⟨h1, h2⟩ := List.getElem?_eq_some_iff.mp h
  unfold costFrom
  rw [List.drop_eq_getElem_cons h1, h2]
  simp

/-- One step: what is left shrinks with every move, and the milliseconds left with every tick. -/
theorem left_step (groups : List (List Nat)) (s : SState) (a : SAct) (hf : s.stageDone = true) :
    (s.step groups a).stageDone = true ∧
    ((s.step groups a).pc = s.pc ∨
      stepsLeftRt groups (s.step groups a).pc < stepsLeftRt groups s.pc ∧
      ticksLeft groups (s.step groups a).pc + (if a = .tick then 1 else 0) ≤ ticksLeft groups s.pc) := by
  cases a with
  | next =>
    simp only [SState.step]
    split
    · rename_i e h
      split
      · rename_i hg
        refine ⟨hf, Or.inr ?_⟩
        rw [h]; simp [stepsLeftRt, ticksLeft]
      · rename_i g hg
        split
        · refine ⟨hf, Or.inr ?_⟩
          rw [h]; simp [stepsLeftRt, ticksLeft]
        · refine ⟨hf, Or.inr ?_⟩
          have hlt := (List.getElem?_eq_some_iff.mp hg).1
          rw [h]
          simp only [stepsLeftRt, ticksLeft, costFrom_lt hg, hg, Option.getD_some, List.drop_zero]
          refine ⟨by omega, ?_⟩
          simp only [reduceCtorEq, if_false]
          omega
    · rename_i e j n h
      split
      · refine ⟨hf, Or.inr ?_⟩
        rw [h]; simp only [stepsLeftRt, ticksLeft, reduceCtorEq, if_false]; omega
      · rename_i k hk
        refine ⟨hf, Or.inr ?_⟩
        rw [h]
        have hlt := (List.getElem?_eq_some_iff.mp hk).1
        have hd := List.drop_eq_getElem_cons hlt
        have hk' : (groups[e]?.getD [])[j] = k := (List.getElem?_eq_some_iff.mp hk).2
        simp only [stepsLeftRt, ticksLeft, reduceCtorEq, if_false]
        rw [hd, hk', List.sum_cons]
        omega
    · rename_i e n h
      split
      · refine ⟨hf, Or.inr ?_⟩
        rw [h]; simp only [stepsLeftRt, ticksLeft, reduceCtorEq, if_false]; omega
      · exact ⟨hf, Or.inl rfl⟩
    · rename_i e n k h
      split
      · refine ⟨hf, Or.inr ?_⟩
        rw [h]; simp only [stepsLeftRt, ticksLeft, reduceCtorEq, if_false]; omega
      · exact ⟨hf, Or.inl rfl⟩
    · exact ⟨hf, Or.inl rfl⟩
  | recv =>
    simp only [SState.step]
    split
    · rename_i c e n hc h
      exact ⟨hf, Or.inr (by rw [h]; simp only [stepsLeftRt, ticksLeft, reduceCtorEq, if_false]; omega)⟩
    · rename_i c e n k hc h
      exact ⟨hf, Or.inr (by rw [h]; simp only [stepsLeftRt, ticksLeft, reduceCtorEq, if_false]; omega)⟩
    · exact ⟨hf, Or.inl rfl⟩
  | seeStage =>
    simp only [SState.step]
    split
    · rename_i e n h
      simp only [hf, if_true]
      exact ⟨trivial, Or.inr (by
        rw [h]; simp only [stepsLeftRt, ticksLeft, reduceCtorEq, if_false]; omega)⟩
    · exact ⟨hf, Or.inl rfl⟩
  | seeFinch =>
    simp only [SState.step]
    split
    · rename_i e n h
      split
      · exact ⟨hf, Or.inr (by rw [h]; simp only [stepsLeftRt, ticksLeft, reduceCtorEq, if_false]; omega)⟩
      · exact ⟨hf, Or.inl rfl⟩
    · exact ⟨hf, Or.inl rfl⟩
  | tick =>
    simp only [SState.step]
    split
    · rename_i e n k hc h
      exact ⟨hf, Or.inr (by rw [h]; simp only [stepsLeftRt, ticksLeft, if_true]; omega)⟩
    · exact ⟨hf, Or.inl rfl⟩
  | stop c => simp only [SState.step]; split <;> exact ⟨hf, Or.inl rfl⟩
  | send c => simp only [SState.step]; split <;> exact ⟨hf, Or.inl rfl⟩
  | expire => exact ⟨rfl, Or.inl rfl⟩
  | cancel => exact ⟨rfl, Or.inl rfl⟩

theorem waited_le (groups : List (List Nat)) (as : List SAct) :
    ∀ s : SState, s.stageDone = true → waited groups s as ≤ ticksLeft groups s.pc := by
  induction as with
  | nil => intro s _; exact Nat.zero_le _
  | cons a as ih =>
    intro s hf
    obtain ⟨h1, h2⟩ := left_step groups s a hf
    have := ih _ h1
    simp only [waited]
    rcases h2 with h2 | ⟨_, h2⟩
    · rw [if_neg (fun h => h.2 h2)]; rw [h2] at this; omega
    · split
      · rename_i h3; rw [if_pos h3.1] at h2; omega
      · omega

/-- The last wait has never more than ten milliseconds left. -/
theorem spin_le {groups : List (List Nat)} (s : SState) (a : SAct)
    (h : ∀ e n k, s.pc = .spin e n k → k ≤ 10) :
    ∀ e n k, (s.step groups a).pc = .spin e n k → k ≤ 10 := by
  intro e n k
  cases a <;> simp only [SState.step] <;> (repeat' split) <;>
    first
    | exact h e n k
    | (intro h'; simp at h'; done)
    | (intro h'; simp only [SPc.spin.injEq] at h'; omega)
    | (intro h'; simp only [SPc.spin.injEq] at h'; rename_i hpc; have := h _ _ _ hpc; omega)

/-- **C118.** Once the runtime of the stage has elapsed (or the run is cancelled), the stage waits at
most ten milliseconds for each execution group that is not over, whatever its clients do. -/
theorem C118_waits (groups : List (List Nat)) (as bs : List SAct)
    (h : (SState.init.run groups as).stageDone = true) :
    waited groups (SState.init.run groups as) bs ≤ 10 * groupsLeft groups (SState.init.run groups as).pc := by
  have h1 := waited_le groups bs _ h
  have h2 := SState.run_inv (groups := groups) spin_le as SState.init (by simp [SState.init])
  refine Nat.le_trans h1 ?_
  revert h2
  cases (SState.init.run groups as).pc with
  | spin e n k => intro h2; have := h2 e n k rfl; simp only [ticksLeft, groupsLeft]; omega
  | _ => intro _; simp only [ticksLeft, groupsLeft]; omega

/-- **C118.** ...and it moves on only a bounded number of times: every schedule leads to the end, or to
a state in which the stage only has to be scheduled. -/
theorem C118_bounded (groups : List (List Nat)) (as : List SAct) :
    ∀ s : SState, s.stageDone = true → moves groups s as ≤ stepsLeftRt groups s.pc := by
  induction as with
  | nil => intro s _; exact Nat.zero_le _
  | cons a as ih =>
    intro s hf
    obtain ⟨h1, h2⟩ := left_step groups s a hf
    have := ih _ h1
    simp only [moves]
    rcases h2 with h2 | ⟨h2, _⟩
    · rw [if_pos h2]; rw [h2] at this; omega
    · split <;> omega

/-- **C118.** ...and it can always move on until it has ended: no client can hold it up. -/
theorem C118_progress (groups : List (List Nat)) (s : SState) (hf : s.stageDone = true)
    (hne : s.pc ≠ .ended) :
    ∃ a ∈ [SAct.next, .seeStage, .recv, .tick], (s.step groups a).pc ≠ s.pc := by
  cases h : s.pc with
  | ended => exact absurd h hne
  | head e =>
    refine ⟨.next, by simp, ?_⟩
    simp only [SState.step, h]
    (repeat' split) <;> simp
  | start e j n =>
    refine ⟨.next, by simp, ?_⟩
    simp only [SState.step, h]
    split <;> simp
  | wait e n =>
    cases n with
    | zero => exact ⟨.next, by simp, by simp [SState.step, h]⟩
    | succ n => exact ⟨.seeStage, by simp, by simp [SState.step, h, hf]⟩
  | spin e n k =>
    cases n with
    | zero => exact ⟨.next, by simp, by simp [SState.step, h]⟩
    | succ n =>
      cases k with
      | zero => exact ⟨.next, by simp, by simp [SState.step, h]⟩
      | succ k =>
        cases hc : s.chan with
        | none => exact ⟨.tick, by simp, by simp [SState.step, h, hc]⟩
        | some c => exact ⟨.recv, by simp, by simp [SState.step, h, hc]⟩

/-- **C118.** So from any state in which the runtime is over, the stage alone gets to its end. -/
theorem C118_ends (groups : List (List Nat)) : ∀ (n : Nat) (s : SState), s.stageDone = true →
    stepsLeftRt groups s.pc ≤ n →
    ∃ as : List SAct, as.length ≤ n ∧ (∀ a ∈ as, a ∈ [SAct.next, .seeStage, .recv, .tick]) ∧
      (s.run groups as).pc = .ended := by
  intro n
  induction n with
  | zero =>
    intro s _ hn
    refine ⟨[], Nat.le_refl _, by simp, ?_⟩
    show s.pc = .ended
    cases h : s.pc <;> rw [h] at hn <;> simp [stepsLeftRt] at hn
  | succ n ih =>
    intro s hf hn
    by_cases he : s.pc = .ended
    · exact ⟨[], Nat.zero_le _, by simp, he⟩
    · obtain ⟨a, ha, hm⟩ := C118_progress groups s hf he
      obtain ⟨h1, h2⟩ := left_step groups s a hf
      rcases h2 with h2 | ⟨h2, _⟩
      · exact absurd h2 hm
      · obtain ⟨as, h3, h4, h5⟩ := ih (s.step groups a) h1 (by omega)
        refine ⟨a :: as, by simpa using h3, ?_, h5⟩
        intro b hb
        rcases List.mem_cons.mp hb with rfl | hb
        · exact ha
        · exact h4 b hb

/-! ### Clients that are left -/

/-- The clients that the stage still counts. -/
def pending : SPc → Nat
  | .head _ | .ended => 0
  | .start _ _ n | .wait _ n | .spin _ n _ => n

/-- Spec: the number of clients of which the stage warned. -/
def warnedTotal (s : SState) : Nat := (s.warned.map Prod.snd).sum

structure OpenInv (s : SState) : Prop where
  counted : ∃ l : List GoId, l.Nodup ∧ (∀ c, c ∈ l ↔ s.st c ≠ .idle ∧ s.st c ≠ .received) ∧
    l.length = warnedTotal s + pending s.pc
  fresh : ∀ c : GoId, (match s.pc with
    | .head e => e ≤ c.1
    | .start e _ n => e < c.1 ∨ (c.1 = e ∧ n ≤ c.2)
    | .wait e _ | .spin e _ _ => e < c.1
    | .ended => False) → s.st c = .idle
  sent : ∀ c, s.chan = some c → s.st c = .sent

theorem OpenInv.init : OpenInv SState.init :=
  ⟨⟨[], by simp, by simp [SState.init], rfl⟩, fun _ _ => rfl, by simp [SState.init]⟩

/-- A client is received. -/
theorem OpenInv.recv_counted {s : SState} {c : GoId} {n : Nat} {pc : SPc} (h : OpenInv s)
    (hc : s.chan = some c) (hp : pending s.pc = n + 1) (hp' : pending pc = n) :
    ∃ l : List GoId, l.Nodup ∧
      (∀ d, d ∈ l ↔ setGo s.st c .received d ≠ .idle ∧ setGo s.st c .received d ≠ .received) ∧
      l.length = warnedTotal s + pending pc := by
  obtain ⟨l, h1, h2, h3⟩ := h.counted
  have hs := h.sent c hc
  have hm : c ∈ l := (h2 c).mpr (by rw [hs]; simp)
  refine ⟨l.erase c, h1.erase c, ?_, ?_⟩
  · intro d
    rw [h1.mem_erase_iff, h2]
    simp only [setGo]
    by_cases hd : d = c
    · simp [hd]
    · simp [hd]
  · rw [List.length_erase_of_mem hm, h3, hp, hp']; omega

theorem OpenInv.step {groups : List (List Nat)} (s : SState) (a : SAct) (h : OpenInv s) :
    OpenInv (s.step groups a) := by
  cases a with
  | next =>
    simp only [SState.step]
    split
    · rename_i e hpc
      have hfr := h.fresh; have hco := h.counted
      rw [hpc] at hfr hco
      split
      · exact ⟨hco, fun _ hf => hf.elim, h.sent⟩
      · split
        · exact ⟨hco, fun _ hf => hf.elim, h.sent⟩
        · exact ⟨hco, fun c hf => hfr c (by dsimp only at hf ⊢; omega), h.sent⟩
    · rename_i e j n hpc
      have hfr := h.fresh; have hco := h.counted
      rw [hpc] at hfr hco
      split
      · exact ⟨hco, fun c hf => hfr c (Or.inl hf), h.sent⟩
      · rename_i k hk
        refine ⟨?_, ?_, ?_⟩
        · obtain ⟨l, h1, h2, h3⟩ := hco
          refine ⟨l ++ (List.range k).map fun i => (e, n + i), ?_, ?_, ?_⟩
          · refine List.nodup_append.mpr ⟨h1, ?_, ?_⟩
            · refine List.pairwise_map.mpr (List.nodup_range.imp ?_)
              intro i j hne hij
              have := (Prod.mk.inj hij).2
              omega
            · intro c hc d hd hcd
              obtain ⟨i, _, rfl⟩ := List.mem_map.mp hd
              have := hfr c (by rw [hcd]; exact Or.inr ⟨rfl, by simp⟩)
              exact ((h2 c).mp hc).1 this
          · intro c
            rw [List.mem_append, h2]
            simp only [startClients, List.mem_map, List.mem_range]
            by_cases hcc : c.1 = e ∧ n ≤ c.2 ∧ c.2 < n + k
            · simp only [hcc, and_self, if_true]
              refine ⟨fun _ => by simp, fun _ => Or.inr ⟨c.2 - n, by omega, ?_⟩⟩
              obtain ⟨c1, c2⟩ := c
              simp only at hcc ⊢
              rw [hcc.1, Nat.add_sub_cancel' hcc.2.1]
            · rw [if_neg hcc]
              refine ⟨?_, Or.inl⟩
              rintro (hh | ⟨i, hi, rfl⟩)
              · exact hh
              · exact absurd ⟨rfl, by omega, by omega⟩ hcc
          · simp only [List.length_append, List.length_map, List.length_range, h3, pending, warnedTotal]
            omega
        · intro c hf
          dsimp only at hf
          show startClients _ _ _ _ c = _
          unfold startClients
          rw [if_neg (by omega)]
          exact hfr c (by dsimp only; omega)
        · intro c hc
          have hs := h.sent c hc
          show startClients _ _ _ _ c = _
          unfold startClients
          rw [if_neg]
          · exact hs
          · intro hcc
            have := hfr c (by dsimp only; omega)
            rw [this] at hs; cases hs
    · rename_i e n hpc
      have hfr := h.fresh; have hco := h.counted
      rw [hpc] at hfr hco
      split
      · rename_i hn
        subst hn
        exact ⟨hco, fun c hf => hfr c hf, h.sent⟩
      · exact h
    · rename_i e n k hpc
      have hfr := h.fresh; have hco := h.counted
      rw [hpc] at hfr hco
      split
      · refine ⟨?_, fun c hf => hfr c hf, h.sent⟩
        obtain ⟨l, h1, h2, h3⟩ := hco
        refine ⟨l, h1, h2, h3.trans ?_⟩
        by_cases hn : n = 0
        · simp [warnedTotal, pending, hn]
        · simp [warnedTotal, pending, hn]
      · exact h
    · exact h
  | recv =>
    simp only [SState.step]
    have hset : ∀ (c d : GoId), s.st d = .idle → d ≠ c → setGo s.st c .received d = .idle := by
      intro c d hd hne; simp [setGo, hne, hd]
    split
    · rename_i c e n hc hpc
      have hfr := h.fresh
      rw [hpc] at hfr
      refine ⟨h.recv_counted hc (n := n) (by rw [hpc]; rfl) rfl, ?_, by simp⟩
      intro d hf
      have hd := hfr d hf
      refine hset c d hd ?_
      rintro rfl
      rw [h.sent d hc] at hd; cases hd
    · rename_i c e n k hc hpc
      have hfr := h.fresh
      rw [hpc] at hfr
      refine ⟨h.recv_counted hc (n := n) (by rw [hpc]; rfl) rfl, ?_, by simp⟩
      intro d hf
      have hd := hfr d hf
      refine hset c d hd ?_
      rintro rfl
      rw [h.sent d hc] at hd; cases hd
    · exact h
  | seeStage =>
    simp only [SState.step]
    split
    · rename_i e n hpc
      have hfr := h.fresh; have hco := h.counted
      rw [hpc] at hfr hco
      split
      · exact ⟨hco, hfr, h.sent⟩
      · exact h
    · exact h
  | seeFinch =>
    simp only [SState.step]
    split
    · rename_i e n hpc
      have hfr := h.fresh; have hco := h.counted
      rw [hpc] at hfr hco
      split
      · exact ⟨hco, hfr, h.sent⟩
      · exact h
    · exact h
  | tick =>
    simp only [SState.step]
    split
    · rename_i e n k hc hpc
      have hfr := h.fresh; have hco := h.counted
      rw [hpc] at hfr hco
      exact ⟨hco, hfr, h.sent⟩
    · exact h
  | stop c =>
    simp only [SState.step]
    split
    · rename_i hc
      refine ⟨?_, ?_, ?_⟩
      · obtain ⟨l, h1, h2, h3⟩ := h.counted
        refine ⟨l, h1, fun d => ?_, h3⟩
        rw [h2]; simp only [setGo]
        by_cases hd : d = c
        · subst hd; simp [hc]
        · simp [hd]
      · intro d hf
        have hd := h.fresh d hf
        simp only [setGo]
        rw [if_neg]
        · exact hd
        · rintro rfl; rw [hc] at hd; cases hd
      · intro d hd
        have hs := h.sent d hd
        simp only [setGo]
        rw [if_neg]
        · exact hs
        · rintro rfl; rw [hc] at hs; cases hs
    · exact h
  | send c =>
    simp only [SState.step]
    split
    · rename_i hc
      refine ⟨?_, ?_, ?_⟩
      · obtain ⟨l, h1, h2, h3⟩ := h.counted
        refine ⟨l, h1, fun d => ?_, h3⟩
        rw [h2]; simp only [setGo]
        by_cases hd : d = c
        · subst hd; simp [hc.1]
        · simp [hd]
      · intro d hf
        have hd := h.fresh d hf
        simp only [setGo]
        rw [if_neg]
        · exact hd
        · rintro rfl; rw [hc.1] at hd; cases hd
      · intro d hd
        cases hd
        simp [setGo]
    · exact h
  | expire => exact ⟨h.counted, h.fresh, h.sent⟩
  | cancel => exact ⟨h.counted, h.fresh, h.sent⟩

/-- **C118, clients that are left.** When the stage has ended, the number of clients of which it
warned is the number of clients it started and never heard of (though not always the same clients, see
`C50_late_client_false`). -/
theorem C118_warned (groups : List (List Nat)) (as : List SAct)
    (he : (SState.init.run groups as).pc = .ended) :
    ∃ l : List GoId, l.Nodup ∧
      (∀ c, c ∈ l ↔ (SState.init.run groups as).st c ≠ .idle ∧ (SState.init.run groups as).st c ≠ .received) ∧
      l.length = warnedTotal (SState.init.run groups as) := by
  have h := SState.run_inv (groups := groups) OpenInv.step as SState.init OpenInv.init
  obtain ⟨l, h1, h2, h3⟩ := h.counted
  rw [he] at h3
  exact ⟨l, h1, h2, h3⟩

/-- **C118, no warning.** A stage that ended without a warning has heard of every client that it
started: all of them have stopped. -/
theorem C118_no_warning (groups : List (List Nat)) (as : List SAct)
    (he : (SState.init.run groups as).pc = .ended) (hw : (SState.init.run groups as).warned = [])
    (c : GoId) (hc : (SState.init.run groups as).st c ≠ .idle) :
    (SState.init.run groups as).st c = .received := by
  obtain ⟨l, _, h2, h3⟩ := C118_warned groups as he
  have : l = [] := by
    apply List.eq_nil_of_length_eq_zero
    rw [h3]; simp [warnedTotal, hw]
  subst this
  by_contra hr
  exact absurd ((h2 c).mpr ⟨hc, hr⟩) (by simp)

/-- The warnings so far and the sleeps before them. -/
structure WarnInv (s : SState) (ticks : Nat) : Prop where
  pos : ∀ x ∈ s.warned, 0 < x.2
  le : ∀ e n k, s.pc = .spin e n k → k ≤ 10 ∧ 10 * s.warned.length + (10 - k) ≤ ticks
  ticks : 10 * s.warned.length ≤ ticks

theorem WarnInv.step {groups : List (List Nat)} {s : SState} {t : Nat} (h : WarnInv s t) (a : SAct) :
    WarnInv (s.step groups a) (t + if a = .tick then 1 else 0) := by
  obtain ⟨h1, h2, h3⟩ := h
  generalize hd : (if a = SAct.tick then 1 else 0) = d
  have keep : ∀ s' : SState, s'.warned = s.warned → (∀ e n k, s'.pc = .spin e n k → k = 10 ∨ ∃ e' n', s.pc = .spin e' n' k) →
      WarnInv s' (t + d) := by
    intro s' hw hpc
    refine ⟨by rw [hw]; exact h1, ?_, by rw [hw]; omega⟩
    intro e n k he
    rw [hw]
    rcases hpc e n k he with rfl | ⟨e', n', h'⟩
    · exact ⟨Nat.le_refl _, by omega⟩
    · have := h2 e' n' k h'
      omega
  have same : ∀ s' : SState, s'.warned = s.warned → s'.pc = s.pc → WarnInv s' (t + d) := by
    intro s' hw hpc
    exact keep s' hw fun e n k he => .inr ⟨e, n, by rw [← hpc]; exact he⟩
  have none_ : ∀ s' : SState, s'.warned = s.warned → (∀ e n k, s'.pc ≠ .spin e n k) →
      WarnInv s' (t + d) := fun s' hw hpc => keep s' hw fun e n k he => absurd he (hpc e n k)
  cases a with
  | next =>
    simp only [SState.step]
    cases hp : s.pc with
    | head e => dsimp only; (repeat' split) <;> exact none_ _ rfl (by simp)
    | start e j n => dsimp only; (repeat' split) <;> exact none_ _ rfl (by simp)
    | wait e n =>
      dsimp only
      split
      · exact none_ _ rfl (by simp)
      · exact same _ rfl rfl
    | spin e n k =>
      dsimp only
      split
      · rename_i hk
        have h4 := h2 e n k hp
        by_cases hn : n = 0
        · rw [if_pos hn]
          exact none_ _ rfl (by simp)
        · rw [if_neg hn]
          have hk : k = 0 := by omega
          refine ⟨?_, by simp, ?_⟩
          · intro x hx
            rcases List.mem_append.mp hx with hx | hx
            · exact h1 x hx
            · rw [List.mem_singleton] at hx
              subst hx
              exact Nat.pos_of_ne_zero hn
          · simp only [List.length_append, List.length_singleton]
            omega
      · exact same _ rfl rfl
    | ended => exact same _ rfl rfl
  | recv =>
    simp only [SState.step]
    split
    · exact none_ _ rfl (by simp)
    · rename_i hp
      exact keep _ rfl fun e n k he => by
        cases he
        exact .inr ⟨_, _, hp⟩
    · exact same _ rfl rfl
  | seeStage =>
    simp only [SState.step]
    (repeat' split) <;> first
      | exact same _ rfl rfl
      | exact keep _ rfl fun e n k he => by cases he; exact .inl rfl
  | seeFinch =>
    simp only [SState.step]
    (repeat' split) <;> first
      | exact same _ rfl rfl
      | exact keep _ rfl fun e n k he => by cases he; exact .inl rfl
  | tick =>
    simp only [SState.step]
    split
    · rename_i e n k _ hp
      have h4 := h2 _ _ _ hp
      have hd : d = 1 := by simpa using hd.symm
      refine ⟨h1, ?_, by dsimp only; omega⟩
      intro e' n' k' he
      cases he
      dsimp only
      omega
    · exact same _ rfl rfl
  | stop c => simp only [SState.step]; split <;> exact same _ rfl rfl
  | send c => simp only [SState.step]; split <;> exact same _ rfl rfl
  | expire => exact same _ rfl rfl
  | cancel => exact same _ rfl rfl

/-- **C118, warnings.** A warning says that at least one client did not stop, and the stage has slept ten times before each
warning: clients are never given up without that time. -/
theorem C118_warnings (groups : List (List Nat)) (as : List SAct) :
    (∀ x ∈ (SState.init.run groups as).warned, 0 < x.2) ∧
    10 * (SState.init.run groups as).warned.length ≤ as.count .tick := by
  have key : WarnInv (SState.init.run groups as) (as.count .tick) := by
    induction as using List.reverseRecOn with
    | nil => exact ⟨by simp [SState.run, SState.init], by simp [SState.run, SState.init], by simp [SState.run, SState.init]⟩
    | append_singleton as a ih =>
      have e : SState.init.run groups (as ++ [a]) = (SState.init.run groups as).step groups a := by
        simp [SState.run, List.foldl_append]
      rw [e, List.count_append]
      have := ih.step (groups := groups) a
      by_cases h : a = .tick
      · subst h; simpa using this
      · rw [if_neg h] at this
        rw [List.count_singleton]
        have h' : (a == SAct.tick) = false := by simpa using h
        rw [h']
        exact this
  exact ⟨key.pos, key.ticks⟩

/-- Two clients of one execution group do not stop: one warning, after ten sleeps. -/
example : (SState.init.run [[2]] ([.next, .next, .next, .cancel, .seeFinch] ++ List.replicate 10 .tick ++ [.next, .next])).warned =
    [(0, 2)] := by decide

/-- Before its runtime is over the stage does not warn. -/
theorem warned_step {groups : List (List Nat)} (s : SState) (a : SAct)
    (h : s.stageDone = false ∧ s.finchDone = false → s.warned = [] ∧ ∀ e n k, s.pc ≠ .spin e n k) :
    (s.step groups a).stageDone = false ∧ (s.step groups a).finchDone = false →
      (s.step groups a).warned = [] ∧ ∀ e n k, (s.step groups a).pc ≠ .spin e n k := by
  cases a with
  | expire => intro h'; exact absurd h'.1 (by simp [SState.step])
  | cancel => intro h'; exact absurd h'.1 (by simp [SState.step])
  | stop c => simp only [SState.step]; split <;> exact h
  | send c => simp only [SState.step]; split <;> exact h
  | tick =>
    simp only [SState.step]
    split
    · rename_i hpc
      intro h'; exact absurd hpc ((h h').2 _ _ _)
    · exact h
  | recv =>
    simp only [SState.step]
    split
    · intro h'; exact ⟨(h h').1, by simp⟩
    · rename_i hpc
      intro h'; exact absurd hpc ((h h').2 _ _ _)
    · exact h
  | seeStage =>
    simp only [SState.step]
    split
    · split
      · rename_i hd
        intro h'
        have := h'.1
        rw [show _ = s.stageDone from rfl, hd] at this; cases this
      · exact h
    · exact h
  | seeFinch =>
    simp only [SState.step]
    split
    · split
      · rename_i hd
        intro h'
        have := h'.2
        rw [show _ = s.finchDone from rfl, hd] at this; cases this
      · exact h
    · exact h
  | next =>
    simp only [SState.step]
    split
    · (repeat' split) <;> exact fun h' => ⟨(h h').1, by simp⟩
    · split <;> exact fun h' => ⟨(h h').1, by simp⟩
    · split
      · exact fun h' => ⟨(h h').1, by simp⟩
      · exact h
    · rename_i hpc
      split
      · intro h'; exact absurd hpc ((h h').2 _ _ _)
      · exact h
    · exact h

/-- **C118, not before.** Before the runtime of the stage is over (and without CTRL-C) the stage does
not warn and waits for no millisecond; it ends when all its clients have (`C50_all_clients_run`). -/
theorem C118_not_before (groups : List (List Nat)) (as : List SAct)
    (h : (SState.init.run groups as).stageDone = false) (hf : (SState.init.run groups as).finchDone = false) :
    (SState.init.run groups as).warned = [] ∧ ∀ e n k, (SState.init.run groups as).pc ≠ .spin e n k :=
  SState.run_inv (groups := groups)
    (P := fun s => s.stageDone = false ∧ s.finchDone = false → s.warned = [] ∧ ∀ e n k, s.pc ≠ .spin e n k)
    warned_step as SState.init (by simp [SState.init]) ⟨h, hf⟩

/-! ### Examples -/

/-- Three groups; the runtime elapses while two clients of the first run. None of them stops in time;
the others are started and given ten milliseconds each. -/
def exLateA : List SAct :=
  [.next, .next, .next, .expire, .seeStage]

def exLateB : List SAct :=
  List.replicate 10 .tick ++ [.next, .next, .next, .next, .stop (1, 0), .send (1, 0), .recv, .next, .next,
    .next, .next, .seeStage] ++ List.replicate 10 .tick ++ [.next, .next]

example : (SState.init.run [[2], [1], [3]] exLateA).stageDone = true ∧
    groupsLeft [[2], [1], [3]] (SState.init.run [[2], [1], [3]] exLateA).pc = 3 ∧
    waited [[2], [1], [3]] (SState.init.run [[2], [1], [3]] exLateA) exLateB = 20 ∧
    (SState.init.run [[2], [1], [3]] (exLateA ++ exLateB)).pc = .ended ∧
    (SState.init.run [[2], [1], [3]] (exLateA ++ exLateB)).warned = [(0, 2), (2, 3)] ∧
    (SState.init.run [[2], [1], [3]] (exLateA ++ exLateB)).st (1, 0) = .received := by decide

/-- The bound is reached: two groups, each waited for ten milliseconds. -/
example : waited [[1], [1]] (SState.init.run [[1], [1]] exLateA)
      (List.replicate 10 .tick ++ [.next, .next, .next, .next, .seeStage] ++ List.replicate 10 .tick) =
    10 * groupsLeft [[1], [1]] (SState.init.run [[1], [1]] exLateA).pc := by decide

example : (SState.init.run [[2, 1], [1]] (exStage ++ [.stop (1, 0), .send (1, 0), .recv, .next, .next])).warned =
    [] := by decide

end Finch
