import Verif.Model.ShutTime
import Verif.Props.FinalReport
import Verif.Props.RemoteTime
/-!
C128: what happens in the 7.5 seconds after CTRL-C.
-/
namespace Finch

/-- How many sleeps a stage can still make after the context of the program is cancelled. -/
def SState.sleeps (s : SState) : Nat :=
  match s.pc with
  | .start _ _ _ => 10
  | .wait _ _ => 10
  | .spin _ _ k => k
  | _ => 0

theorem finchDone_step (groups : List (List Nat)) (s : SState) (a : SAct) (h : s.finchDone = true) :
    (s.step groups a).finchDone = true := by
  cases a <;> simp only [SState.step] <;> (repeat' split) <;> exact h

/-- Each sleep is one less; nothing gives more. -/
theorem sleeps_step (groups : List (List Nat)) (s : SState) (h : s.finchDone = true)
    (hk : ∀ e n k, s.pc = .spin e n k → k ≤ 10) (a : SAct) :
    (if isSleep s a then 1 else 0) + (s.step groups a).sleeps ≤ s.sleeps ∧
    ∀ e n k, (s.step groups a).pc = .spin e n k → k ≤ 10 := by
  obtain ⟨pc, st, chan, sd, fd, w⟩ := s
  simp only at h
  subst h
  rcases pc with e | ⟨e, j, n⟩ | ⟨e, _ | n⟩ | ⟨e, _ | n, _ | k⟩ | _ <;> cases a <;> cases chan <;>
    simp only [SState.step, isSleep, SState.sleeps, if_true, if_false, Bool.false_eq_true, Nat.zero_add, true_or, or_true,
      apply_ite SState.pc, ite_self] at hk ⊢
  all_goals first
    | exact ⟨Nat.le_refl _, hk⟩
    | (refine ⟨Nat.zero_le _, ?_⟩; intro _ _ _ he; cases he; done)
    | (refine ⟨Nat.le_refl _, ?_⟩; intro _ _ _ he; cases he; exact Nat.le_refl _)
    | (have := hk _ _ _ rfl
       refine ⟨by omega, ?_⟩
       intro e' n' k' he
       cases he
       omega)
    | (cases sd
       · exact ⟨Nat.le_refl _, hk⟩
       · refine ⟨Nat.le_refl _, ?_⟩; intro _ _ _ he; cases he; exact Nat.le_refl _)
    | (generalize groups[e]? = g
       cases g <;> (refine ⟨Nat.le_refl _, ?_⟩; intro _ _ _ he; cases he; done))
    | (generalize (groups[e]?.getD [])[j]? = g
       cases g <;> (refine ⟨Nat.le_refl _, ?_⟩; intro _ _ _ he; cases he; done))

theorem spinTime_le (groups : List (List Nat)) (d : Nat) : ∀ (as : List (SAct × Nat)) (s : SState), s.finchDone = true →
    (∀ e n k, s.pc = .spin e n k → k ≤ 10) → (∀ a ∈ as, a.2 ≤ d) → spinTime groups s as ≤ s.sleeps * d
  | [], _, _, _, _ => Nat.zero_le _
  | (a, x) :: as, s, h, hk, hd => by
    have h1 := sleeps_step groups s h hk a
    have h2 := spinTime_le groups d as (s.step groups a) (finchDone_step groups s a h) h1.2
      fun b hb => hd b (List.mem_cons_of_mem _ hb)
    have hx : x ≤ d := hd (a, x) (by simp)
    rw [spinTime]
    have h3 := Nat.mul_le_mul_right d h1.1
    rw [Nat.add_mul] at h3
    refine Nat.le_trans (Nat.add_le_add ?_ h2) h3
    split
    · omega
    · exact Nat.zero_le _

theorem spin_le_step (groups : List (List Nat)) (s : SState) (hk : ∀ e n k, s.pc = .spin e n k → k ≤ 10) (a : SAct) :
    ∀ e n k, (s.step groups a).pc = .spin e n k → k ≤ 10 := by
  intro e n k he
  cases a <;> simp only [SState.step] at he <;> (repeat' split at he) <;> first
    | exact hk _ _ _ he
    | (cases he; done)
    | (cases he; exact Nat.le_refl _)
    | (rename_i hp
       have := hk _ _ _ hp
       cases he
       omega)

theorem spin_le_run (groups : List (List Nat)) : ∀ (as : List SAct) (s : SState), (∀ e n k, s.pc = .spin e n k → k ≤ 10) →
    ∀ e n k, (s.run groups as).pc = .spin e n k → k ≤ 10
  | [], _, hk => hk
  | a :: as, s, hk => spin_le_run groups as (s.step groups a) (spin_le_step groups s hk a)

/-- **C128.** After CTRL-C `Stage.Run` sleeps at most ten times, whatever its clients do and however many execution groups
there are. -/
theorem C128_stage (groups : List (List Nat)) (before : List SAct) (after : List (SAct × Nat)) (d : Nat)
    (hd : ∀ a ∈ after, a.2 ≤ d) :
    spinTime groups ((SState.init.run groups before).step groups .cancel) after ≤ 10 * d := by
  have hk : ∀ e n k, ((SState.init.run groups before).step groups .cancel).pc = .spin e n k → k ≤ 10 :=
    spin_le_run groups before _ fun _ _ _ h => by cases h
  refine Nat.le_trans (spinTime_le groups d after _ rfl hk hd) (Nat.mul_le_mul_right d ?_)
  unfold SState.sleeps
  split
  · exact Nat.le_refl _
  · exact Nat.le_refl _
  · rename_i h
    exact hk _ _ _ h
  · exact Nat.zero_le _

/-! ### Statistics -/

theorem stopLoop_le {α : Type} {timeout m : Nat} : ∀ (es : List (StopTurn α)) {s s' : Stopping α} {elapsed t : Nat},
    (∀ d, .turn d ∈ es → d ≤ m) → elapsed ≤ timeout + m → stopLoop timeout s elapsed es = .ok (s', t) → t ≤ timeout + m
  | [], s, s', elapsed, t, _, he, h => by
    simp only [stopLoop, Res.ok.injEq, Prod.mk.injEq] at h
    omega
  | .recv a b c :: es, s, s', elapsed, t, hd, he, h => by
    rw [stopLoop] at h
    split at h
    · exact stopLoop_le es (fun d hm => hd d (List.mem_cons_of_mem _ hm)) he h
    · cases h
  | .turn d :: es, s, s', elapsed, t, hd, he, h => by
    have hd' : ∀ d, .turn d ∈ es → d ≤ m := fun d hm => hd d (List.mem_cons_of_mem _ hm)
    have h0 := hd d (by simp)
    rw [stopLoop] at h
    by_cases hr : s.ret.isSome = true
    · rw [if_pos hr] at h
      exact stopLoop_le es hd' he h
    · rw [if_neg hr] at h
      split at h
      · refine stopLoop_le es hd' ?_ h
        split <;> omega
      · cases h

theorem step_ret {α : Type} {s s' : Stopping α} {e : StopEv α} (h : s.step e = .ok s') (hr : s.ret.isSome = true) :
    s'.ret.isSome = true := by
  cases e <;> simp only [Stopping.step] at h
  · split at h
    · cases h; exact hr
    · rename_i h0; rw [h0] at hr; cases hr
  · split at h
    · cases h; exact hr
    · cases h
  · split at h
    · cases h; exact hr
    · rename_i h0; rw [h0] at hr; cases hr

theorem stopLoop_some {α : Type} {timeout : Nat} : ∀ (es : List (StopTurn α)) {s s' : Stopping α} {elapsed t : Nat},
    s.ret.isSome = true → stopLoop timeout s elapsed es = .ok (s', t) → s'.ret.isSome = true ∧ t = elapsed
  | [], s, s', elapsed, t, hr, h => by
    simp only [stopLoop, Res.ok.injEq, Prod.mk.injEq] at h
    rw [← h.1]
    exact ⟨hr, h.2.symm⟩
  | .recv a b c :: es, s, s', elapsed, t, hr, h => by
    rw [stopLoop] at h
    split at h
    · rename_i e
      exact stopLoop_some es (step_ret e hr) h
    · cases h
  | .turn d :: es, s, s', elapsed, t, hr, h => by
    rw [stopLoop, if_pos hr] at h
    exact stopLoop_some es hr h

/-- Turns of the loop. -/
def turns {α : Type} : List (StopTurn α) → Nat
  | [] => 0
  | .turn _ :: es => turns es + 1
  | .recv _ _ _ :: es => turns es

theorem stopLoop_ends {α : Type} {timeout c : Nat} : ∀ (es : List (StopTurn α)) {s s' : Stopping α} {elapsed t : Nat},
    (∀ d, .turn d ∈ es → c ≤ d) → timeout + c ≤ elapsed + c * turns es → 0 < turns es →
    stopLoop timeout s elapsed es = .ok (s', t) → s'.ret.isSome = true
  | [], _, _, _, _, _, _, h0, _ => absurd h0 (Nat.lt_irrefl 0)
  | .recv a b x :: es, s, s', elapsed, t, hd, ht, h0, h => by
    rw [stopLoop] at h
    split at h
    · exact stopLoop_ends es (fun d hm => hd d (List.mem_cons_of_mem _ hm)) ht h0 h
    · cases h
  | .turn d :: es, s, s', elapsed, t, hd, ht, _, h => by
    rw [turns, Nat.mul_add] at ht
    by_cases hr : s.ret.isSome = true
    · exact (stopLoop_some (.turn d :: es) hr h).1
    · have hn : s.ret = none := by
        cases hx : s.ret with
        | none => rfl
        | some b => rw [hx] at hr; exact absurd rfl hr
      rw [stopLoop, if_neg hr] at h
      by_cases hto : timeout ≤ elapsed
      · rw [if_pos hto] at h
        simp only [Stopping.step, hn] at h
        exact (stopLoop_some es rfl h).1
      · rw [if_neg hto] at h
        have h0 := hd d (by simp)
        split at h
        · rename_i st e
          rw [if_neg hto] at h
          refine stopLoop_ends es (fun d hm => hd d (List.mem_cons_of_mem _ hm)) (by omega) ?_ h
          by_contra hz
          have hz' : turns es = 0 := by omega
          rw [hz'] at ht
          omega
        · cases h

/-- **C128.** `Collector.Stop` returns: its loop makes at most 31 turns (each sleeps at least 100 ms), and takes at most the
timeout of three seconds and one more sleep, whatever other instances send. -/
theorem C128_collector {α : Type} (s s' : Stopping α) (es : List (StopTurn α)) (t m : Nat)
    (hd : ∀ d, .turn d ∈ es → 100 ≤ d ∧ d ≤ m) (h : stopLoop collectorTimeout s 0 es = .ok (s', t)) :
    t ≤ 3000 + m ∧ (31 ≤ turns es → s'.ret.isSome = true) := by
  refine ⟨stopLoop_le es (fun d hm => (hd d hm).2) (Nat.zero_le _) h, fun ht => ?_⟩
  refine stopLoop_ends (c := 100) es (fun d hm => (hd d hm).1) ?_ (by omega) h
  have : collectorTimeout = 3000 := rfl
  omega

/-- The collector of one instance does not wait when it stops. -/
theorem stop_one {β : Type} (freq : Nat) (ops : List (FinalOp β)) (s s' : FinalSt β) (h : FinalSt.new.run freq ops = some s)
    (hs : s.step freq .stop = some s') : s'.stopped = some true := by
  have hi := finalInv_run freq ops (finalInv_new freq) h
  have hc := collect_one hi.one hi.empty s.buf
  simp only [FinalSt.step] at hs
  split at hs
  · unfold stopBegin at hs
    by_cases hf : freq = 0
    · simp only [hf, decide_true, if_true, hc] at hs
      split at hs
      · cases hs
        simp
      · cases hs
        simp
    · simp only [hf, decide_false, Bool.false_eq_true, if_false, hc] at hs
      by_cases hr : recentReport freq s.reported s.now = true
      · simp only [hr, if_true] at hs
        cases hs
        rfl
      · simp only [hr] at hs
        cases hs
        rfl
  · cases hs

/-! ### The process -/

/-- **C128.** After CTRL-C the process ends, at the latest after 7.5 seconds, whatever hangs; the first CTRL-C decides and
more of them change nothing. -/
theorem C128_ends (t : Nat) (more : List Nat) (hm : ∀ u ∈ more, t ≤ u) (ret : Option Nat → Option Nat) (late : Nat) :
    (∃ r, r ≤ t + 7500 + late ∧
      (processEnd (t :: more) ret late = some (.returned r) ∨ processEnd (t :: more) ret late = some (.forced r))) ∧
    processEnd (t :: more) ret late = processEnd [t] ret late := by
  have hmin : (t :: more).min? = some t := by
    rw [List.min?_eq_some_iff]
    exact ⟨by simp, fun b hb => by
      rcases List.mem_cons.mp hb with rfl | hb
      · exact Nat.le_refl _
      · exact hm b hb⟩
  have h7 : forcedExit = 7500 := rfl
  constructor
  · unfold processEnd
    rw [hmin]
    simp only [h7]
    cases hr : ret (some t) with
    | none => exact ⟨_, Nat.le_refl _, Or.inr rfl⟩
    | some r =>
      simp only []
      by_cases hle : r ≤ t + 7500 + late
      · exact ⟨r, hle, Or.inl (by rw [if_pos hle])⟩
      · exact ⟨_, Nat.le_refl _, Or.inr (by rw [if_neg hle])⟩
  · unfold processEnd
    rw [hmin]
    rfl

/-- **C128.** The final statistics of the instance of the server are reported before the process is ended by force: if sleeps
are late by at most 50 ms, and waiting for the ticker and printing take at most two seconds, the stage has ended and its
collector has stopped after less than six seconds. -/
theorem C128_local {α : Type} (groups : List (List Nat)) (before : List SAct) (after : List (SAct × Nat))
    (hd : ∀ a ∈ after, a.2 ≤ 51) (st st' : Stopping α) (es : List (StopTurn α)) (loop : Nat)
    (he : ∀ d, .turn d ∈ es → 100 ≤ d ∧ d ≤ 150) (hl : stopLoop collectorTimeout st 0 es = .ok (st', loop))
    (ticker print : Nat) (hp : ticker + print ≤ 2000) (t late : Nat) :
    let spin := spinTime groups ((SState.init.run groups before).step groups .cancel) after
    spin + ticker + loop + print < 6000 ∧
    processEnd [t] (fun c => c.map (· + (spin + ticker + loop + print))) late =
      some (.returned (t + (spin + ticker + loop + print))) := by
  intro spin
  have h1 : spin ≤ 10 * 51 := C128_stage groups before after 51 hd
  have h2 := (C128_collector st st' es loop 150 he hl).1
  refine ⟨by omega, ?_⟩
  have h7 : forcedExit = 7500 := rfl
  unfold processEnd
  simp only [List.min?_singleton, Option.map_some]
  rw [if_pos (by omega)]

/-- **C128.** So are those of a remote instance, also if the server does not answer: its collector does not wait, `Stop` of
the reporter waits at most five seconds, and the message that it is done takes at most 1.8 seconds; there are 0.69 seconds
for late timers, the ticker and printing. -/
theorem C128_remote {β : Type} (groups : List (List Nat)) (before : List SAct) (after : List (SAct × Nat)) (d : Nat)
    (hd : ∀ a ∈ after, a.2 ≤ d) (freq : Nat) (ops : List (FinalOp β)) (s s' : FinalSt β)
    (h : FinalSt.new.run freq ops = some s) (hs : s.step freq .stop = some s')
    (es : List (StopTurn (List (Nat × β)))) (st' : Stopping (List (Nat × β))) (loop : Nat)
    (hl : stopLoop collectorTimeout ⟨s'.coll, s'.stopped⟩ 0 es = .ok (st', loop))
    (ends : Option Nat) (lateStop : Nat) (as : List (Attempt × Nat)) (ha : ∀ a ∈ as, a.2 ≤ doneLimit.timeout)
    (ticker print : Nat) (hp : 10 * d + ticker + print + lateStop ≤ 700) (t late : Nat) :
    let total := spinTime groups ((SState.init.run groups before).step groups .cancel) after + ticker + loop +
      serverStop ends lateStop + print + reqTime doneLimit.tries doneLimit.wait 0 as
    processEnd [t] (fun c => c.map (· + total)) late = some (.returned (t + total)) := by
  intro total
  have h1 : spinTime groups ((SState.init.run groups before).step groups .cancel) after ≤ 10 * d :=
    C128_stage groups before after d hd
  have h2 : loop = 0 := (stopLoop_some es (by simp [stop_one freq ops s s' h hs]) hl).2
  have h3 : reqTime doneLimit.tries doneLimit.wait 0 as ≤ 1800 := C124_request 3 100 500 as ha
  have h4 : serverStop ends lateStop ≤ 5000 + lateStop := by
    have h5 : stopWait = 5000 := rfl
    unfold serverStop
    split
    · split <;> omega
    · omega
  have h7 : forcedExit = 7500 := rfl
  unfold processEnd
  simp only [List.min?_singleton, Option.map_some]
  rw [if_pos (by simp only [total]; omega)]

/-- **C128.** A request that is waiting to be sent again when CTRL-C comes ends with the next attempt, which fails at once:
there is no further sleep and no further attempt, with any number of tries. -/
theorem C128_request (tries : Int) (wait k : Nat) (a : Attempt) (d : Nat) (hc : a.cancelled = true)
    (rest : List (Attempt × Nat)) : reqTime tries wait k ((a, d) :: rest) ≤ d := by
  unfold reqTime
  simp only [hc, if_true]
  split
  · split
    · exact Nat.le_refl _
    · exact Nat.le_refl _
    · split
      · exact Nat.le_refl _
      · split <;> exact Nat.le_refl _
  · exact Nat.zero_le _

/-! ### Examples -/

/-- Two groups; the second client of the first group never stops; ten sleeps of 2 ms. -/
example : spinTime [[2], [1]] ((SState.init.run [[2], [1]] [.next, .next, .next]).step [[2], [1]] .cancel)
    ((SAct.stop (0, 0), 0) :: (.seeFinch, 0) :: (.send (0, 0), 0) :: (.recv, 0) :: List.replicate 12 (.tick, 2)) = 20 := by
  decide +kernel

/-- Two instances; the other one sends nothing: after 30 sleeps the timeout is over and the report is forced. -/
example : (stopLoop collectorTimeout (⟨Coll.new 2 0, none⟩ : Stopping Nat) 0 (List.replicate 31 (.turn 100))) =
    .ok (⟨((Coll.new 2 0).report true).1, some true⟩, 3000) := by
  decide +kernel

/-- A process that hangs is ended; one that returns in time is not. -/
example : processEnd [10, 20] (fun _ => none) 3 = some (.forced 7513) ∧
    processEnd [10, 20] (fun _ => some 5000) 3 = some (.returned 5000) ∧ processEnd [] (fun _ => none) 3 = none := by
  decide +kernel

/-- The server does not answer: nothing is sent, and the message that the instance is done fails three times. -/
example : serverStop none 10 = 5010 ∧
    reqTime doneLimit.tries doneLimit.wait 0 (List.replicate 3 (⟨.doErr, 0, false⟩, 500)) = 1800 := by
  decide +kernel

/-- A stage with a frequency that recorded something after its last report. -/
example : ∃ s s' : FinalSt Nat, FinalSt.new.run 5000 [.wait 5000, .tick, .wait 3000, .record 1] = some s ∧
    s.step 5000 .stop = some s' :=
  ⟨((FinalSt.new : FinalSt Nat).run 5000 [.wait 5000, .tick, .wait 3000, .record 1]).getD FinalSt.new,
    ((FinalSt.new : FinalSt Nat).run 5000 [.wait 5000, .tick, .wait 3000, .record 1, .stop]).getD FinalSt.new, by decide +kernel,
    by decide +kernel⟩

end Finch
