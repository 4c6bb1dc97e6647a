import Verif.Model.RemoteTime
import Verif.Props.RemoteStats
import Verif.Props.Proto
/-!
C124: how long requests take, and that statistics of intervals far enough apart are all sent in time.
-/
namespace Finch

variable {α : Type}

/-! ### Requests -/

/-- **C124.** However the attempts end, a request with a limited number of tries takes at most that many times its timeout
and its wait. -/
theorem C124_request (tries wait timeout : Nat) (as : List (Attempt × Nat)) (h : ∀ a ∈ as, a.2 ≤ timeout) :
    reqTime tries wait 0 as ≤ tries * (timeout + wait) := by
  have key : ∀ (as : List (Attempt × Nat)) (n : Nat), (∀ a ∈ as, a.2 ≤ timeout) →
      reqTime tries wait n as ≤ (tries - n) * (timeout + wait) := by
    intro as
    induction as with
    | nil => intro n _; simp [reqTime]
    | cons x rest ih =>
      intro n hh
      obtain ⟨a, d⟩ := x
      have hd : d ≤ timeout := hh (a, d) (by simp)
      have hr := ih (n + 1) fun y hy => hh y (by simp [hy])
      simp only [reqTime]
      split
      · rename_i hm
        have hn : n + 1 ≤ tries := by
          have := (moreTries_iff tries n).mp hm
          unfold Allowed at this
          omega
        have e : tries - n = (tries - (n + 1)) + 1 := by omega
        rw [e, Nat.add_mul, Nat.one_mul]
        have hretry : (if a.cancelled = true then d else d + wait + reqTime tries wait (n + 1) rest) ≤
            (tries - (n + 1)) * (timeout + wait) + (timeout + wait) := by
          split <;> omega
        split
        · exact hretry
        · omega
        · split
          · omega
          · split
            · omega
            · exact hretry
      · exact Nat.zero_le _
  simpa using key as 0 h

/-- **C124.** An instance that has booted waits 180.3 seconds for the others, and then gives up: if the run signal does not
come in three attempts of a minute, the request fails. -/
theorem C124_run_wait (as : List (Attempt × Nat)) (hl : as.length = 3)
    (h : ∀ a ∈ as, a.1.res = .doErr ∧ a.1.cancelled = false ∧ a.2 = 60000) :
    reqTime runWaitLimit.tries runWaitLimit.wait 0 as = 180300 ∧
    (request runWaitLimit.tries [] (as.map (·.1))).2 = some .failed := by
  match as, hl with
  | [a, b, c], _ =>
    have ha := h a (by simp)
    have hb := h b (by simp)
    have hc := h c (by simp)
    simp [reqTime, runWaitLimit, request, reqLoop, moreTries, ha.1, hb.1, hc.1, ha.2.1, hb.2.1, hc.2.1, ha.2.2,
      hb.2.2, hc.2.2]

/-! ### Statistics -/

/-- What the collector and the goroutine did, without times. -/
def noTimes : List (RTOp α) → List (RRepOp α)
  | [] => []
  | .collect v :: ops => .collect v :: noTimes ops
  | .begin ok :: ops => .send ok :: noTimes ops
  | .stop :: ops => .stop :: noTimes ops
  | .fin :: ops => .send true :: noTimes ops
  | _ :: ops => noTimes ops

structure RTInv (L : RLim) (s : RTime α) : Prop where
  one : s.r.queue.length ≤ 1
  since_le : s.since ≤ s.now
  none_ : s.last = none → s.r.queue = [] ∧ s.busy = false
  last_le : ∀ t, s.last = some t → t ≤ s.now
  busy_ : s.busy = true → s.now ≤ s.since + L.send
  go : s.canGo = true → s.now ≤ s.since + L.wake
  queued_busy : ∀ t, s.last = some t → s.r.queue ≠ [] → s.busy = true → s.since + L.send ≤ t
  queued_idle : ∀ t, s.last = some t → s.r.queue ≠ [] → s.busy = false → s.since ≤ t
  sending : ∀ t, s.last = some t → s.r.queue = [] → s.busy = true → s.since ≤ t + L.wake
  open_ : s.stoppedAt = none → s.r.closed = false ∧ s.r.ended = false
  stop_le : ∀ t, s.stoppedAt = some t → t ≤ s.now ∧ s.r.closed = true
  stop_qb : ∀ t, s.stoppedAt = some t → s.r.queue ≠ [] → s.busy = true → s.since + L.send ≤ t
  stop_qi : ∀ t, s.stoppedAt = some t → s.r.queue ≠ [] → s.busy = false → s.since ≤ t
  stop_b : ∀ t, s.stoppedAt = some t → s.r.queue = [] → s.busy = true → s.since ≤ t + L.wake
  stop_i : ∀ t, s.stoppedAt = some t → s.r.queue = [] → s.busy = false → s.r.ended = false →
    s.since ≤ t + L.wake + L.send

theorem rtInv_new (L : RLim) (z : α) : RTInv L (RTime.new z) := by
  constructor <;> simp [RTime.new, RRep.new, RTime.canGo]

theorem send_queue {r : RRep α} {k : Nat} {q : List Nat} (h : r.queue = k :: q) (ok : Bool) :
    (r.send ok).queue = q ∧ (r.send ok).closed = r.closed ∧ (r.send ok).ended = r.ended := by
  unfold RRep.send
  rw [h]
  exact ⟨rfl, rfl, rfl⟩

/-- Nothing waits when statistics are collected. -/
theorem RTInv.empty {L : RLim} (hg : L.send + L.wake ≤ L.gap) (h0 : 0 < L.send) {s : RTime α} (h : RTInv L s)
    (hl : s.last.all (fun t => decide (t + L.gap ≤ s.now)) = true) : s.r.queue = [] := by
  cases ht : s.last with
  | none => exact (h.none_ ht).1
  | some t =>
    rw [ht] at hl
    simp only [Option.all_some, decide_eq_true_eq] at hl
    by_contra hq
    cases hb : s.busy with
    | true =>
      have h1 := h.queued_busy t ht hq hb
      have h2 := h.busy_ hb
      omega
    | false =>
      have h1 := h.queued_idle t ht hq hb
      have h2 := h.go (by
        unfold RTime.canGo
        rw [hb]
        cases he : s.r.queue with
        | nil => exact absurd he hq
        | cons => rfl)
      omega

/-- The queue after a collection. -/
theorem collect_queue {r r' : RRep α} {v : α} (h : r.collect v = .ok r') (hq : r.queue = []) :
    r'.queue = [r.interval + 1] ∧ r'.closed = false ∧ r'.ended = r.ended := by
  unfold RRep.collect RRep.report at h
  simp only [ne_eq, not_true_eq_false, if_false, hq, List.length_nil] at h
  split at h
  · cases h
  · rename_i hc
    rw [if_pos (by decide)] at h
    injection h with h
    subst h
    exact ⟨rfl, by simpa using hc, rfl⟩

theorem RTInv.step {L : RLim} (hg : L.send + L.wake ≤ L.gap) (h0 : 0 < L.send) {s s' : RTime α} (h : RTInv L s)
    {op : RTOp α} (e : s.step L op = some s') : RTInv L s' := by
  cases op with
  | wait d =>
    simp only [RTime.step] at e
    split at e
    · rename_i hd
      injection e with e
      subst e
      refine ⟨h.one, ?_, h.none_, ?_, ?_, ?_, h.queued_busy, h.queued_idle, h.sending, h.open_, ?_, h.stop_qb, h.stop_qi,
        h.stop_b, h.stop_i⟩
      · have := h.since_le; simp only; omega
      · intro t ht; have := h.last_le t ht; simp only; omega
      · intro hb
        simp only at hb
        simp only [RTime.deadline, hb, if_true, Option.all_some, decide_eq_true_eq] at hd
        exact hd
      · intro hb
        have hb' : s.canGo = true := hb
        have hn : s.busy = false := by
          unfold RTime.canGo at hb'
          simp only [Bool.and_eq_true, Bool.not_eq_true'] at hb'
          exact hb'.1
        simp only [RTime.deadline, hn, Bool.false_eq_true, if_false, hb', if_true, Option.all_some,
          decide_eq_true_eq] at hd
        exact hd
      · intro t ht; have := h.stop_le t ht; simp only; exact ⟨by omega, this.2⟩
    · cases e
  | collect v =>
    simp only [RTime.step] at e
    split at e
    · rename_i hl
      simp only [Bool.and_eq_true, Bool.not_eq_true'] at hl
      have hq := h.empty hg h0 hl.1
      split at e
      · cases e
      · rename_i r' hr
        injection e with e
        subst e
        obtain ⟨q1, q2, q3⟩ := collect_queue hr hq
        have hst : s.stoppedAt = none := by
          cases hs : s.stoppedAt with
          | none => rfl
          | some t => have := (h.stop_le t hs).2; rw [hl.2] at this; cases this
        have hen : s.r.ended = false := (h.open_ hst).2
        have hcg : s.canGo = false := by simp [RTime.canGo, hq, hl.2]
        have hbs : s.busy = true → s.since + L.send ≤ s.now := by
          intro hb
          cases ht : s.last with
          | none => rw [(h.none_ ht).2] at hb; cases hb
          | some t =>
            have h1 := h.sending t ht hq hb
            rw [ht] at hl
            simp only [Option.all_some, decide_eq_true_eq] at hl
            omega
        refine ⟨?_, ?_, ?_, ?_, ?_, ?_, ?_, ?_, ?_, ?_, ?_, ?_, ?_, ?_, ?_⟩
        · simp [q1]
        · simp only; split
          · exact h.since_le
          · exact Nat.le_refl _
        · intro hh; cases hh
        · intro t ht; simp only at ht; injection ht with ht; simp only; omega
        · intro hb
          simp only at hb
          simp only [hb, Bool.true_or, if_true]
          exact h.busy_ hb
        · intro hb
          have hn : s.busy = false := by
            unfold RTime.canGo at hb
            simp only [Bool.and_eq_true, Bool.not_eq_true'] at hb
            exact hb.1
          simp only [hn, hcg, Bool.or_self, Bool.false_eq_true, if_false]
          omega
        · intro t ht _ hb
          simp only at ht hb
          injection ht with ht
          subst ht
          simp only [hb, Bool.true_or, if_true]
          exact hbs hb
        · intro t ht _ hb
          simp only at ht hb
          injection ht with ht
          subst ht
          simp only [hb, hcg, Bool.or_self, Bool.false_eq_true, if_false]
          exact Nat.le_refl _
        · intro t ht hq'
          simp only [q1] at hq'
          cases hq'
        · intro _; exact ⟨q2, by simp only; rw [q3, hen]⟩
        · intro t ht; simp only [hst] at ht; cases ht
        · intro t ht; simp only [hst] at ht; cases ht
        · intro t ht; simp only [hst] at ht; cases ht
        · intro t ht; simp only [hst] at ht; cases ht
        · intro t ht; simp only [hst] at ht; cases ht
    · cases e
  | «begin» ok =>
    simp only [RTime.step] at e
    split at e
    · rename_i hb
      simp only [Bool.and_eq_true, Bool.not_eq_true'] at hb
      injection e with e
      subst e
      cases hq : s.r.queue with
      | nil => rw [hq] at hb; simp at hb
      | cons k q =>
        obtain ⟨q1, q2, q3⟩ := send_queue hq ok
        have hne : s.r.queue ≠ [] := by rw [hq]; simp
        have hgo : s.now ≤ s.since + L.wake := h.go (by simp [RTime.canGo, hb.1, hq])
        have hlast : ∃ t, s.last = some t := by
          cases ht : s.last with
          | none => exact absurd (h.none_ ht).1 hne
          | some t => exact ⟨t, rfl⟩
        obtain ⟨t0, ht0⟩ := hlast
        have hi := h.queued_idle t0 ht0 hne hb.1
        have hq' : q = [] := by
          have := h.one
          rw [hq] at this
          simp only [List.length_cons] at this
          exact List.length_eq_zero_iff.mp (by omega)
        subst hq'
        refine ⟨?_, ?_, ?_, ?_, ?_, ?_, ?_, ?_, ?_, ?_, ?_, ?_, ?_, ?_, ?_⟩
        · simp [q1]
        · exact Nat.le_refl _
        · intro hh; simp only [ht0] at hh; cases hh
        · exact h.last_le
        · intro _; simp only; omega
        · intro hh; simp [RTime.canGo] at hh
        · intro t _ hh; exact absurd q1 hh
        · intro t _ hh; exact absurd q1 hh
        · intro t ht _ _
          have := h.queued_idle t ht hne hb.1
          simp only; omega
        · intro hh; simp only; rw [q2, q3]; exact h.open_ hh
        · intro t ht; simp only; rw [q2]; exact h.stop_le t ht
        · intro t _ hh; exact absurd q1 hh
        · intro t _ hh; exact absurd q1 hh
        · intro t ht _ _
          have := h.stop_qi t ht hne hb.1
          simp only; omega
        · intro t _ _ hh; cases hh
    · cases e
  | finish =>
    simp only [RTime.step] at e
    split at e
    · rename_i hb
      injection e with e
      subst e
      have hn := h.busy_ hb
      refine ⟨h.one, Nat.le_refl _, ?_, h.last_le, ?_, ?_, ?_, ?_, ?_, h.open_, h.stop_le, ?_, ?_, ?_, ?_⟩
      · intro hh; exact ⟨(h.none_ hh).1, rfl⟩
      · intro hh; cases hh
      · intro _; simp only; omega
      · intro t _ _ hh; cases hh
      · intro t ht hq _
        have := h.queued_busy t ht hq hb
        simp only; omega
      · intro t _ _ hh; cases hh
      · intro t _ _ hh; cases hh
      · intro t ht hq _
        have := h.stop_qb t ht hq hb
        simp only; omega
      · intro t _ _ hh; cases hh
      · intro t ht hq _ _
        have := h.stop_b t ht hq hb
        simp only; omega
    · cases e
  | stop =>
    simp only [RTime.step] at e
    split at e
    · cases e
    · rename_i hc
      injection e with e
      subst e
      have hst : s.stoppedAt = none := by
        cases hs : s.stoppedAt with
        | none => rfl
        | some t => exact absurd (h.stop_le t hs).2 hc
      have hen := (h.open_ hst).2
      have hcg : s.busy = false → s.r.queue ≠ [] → s.canGo = true := by
        intro hb hq
        cases he : s.r.queue with
        | nil => exact absurd he hq
        | cons => simp [RTime.canGo, hb, he]
      have hcg' : s.r.queue = [] → s.canGo = false := by
        intro hq; simp [RTime.canGo, hq, hen, hc]
      have hlast : ∀ t, s.last = some t → t ≤ s.now := h.last_le
      have hsome : s.r.queue ≠ [] → ∃ t, s.last = some t := by
        intro hq
        cases ht : s.last with
        | none => exact absurd (h.none_ ht).1 hq
        | some t => exact ⟨t, rfl⟩
      refine ⟨h.one, ?_, h.none_, h.last_le, ?_, ?_, ?_, ?_, ?_, ?_, ?_, ?_, ?_, ?_, ?_⟩
      · simp only; split
        · exact h.since_le
        · exact Nat.le_refl _
      · intro hb
        simp only at hb
        simp only [hb, Bool.true_or, if_true]
        exact h.busy_ hb
      · intro hb
        have hn : s.busy = false := by
          unfold RTime.canGo at hb
          simp only [Bool.and_eq_true, Bool.not_eq_true'] at hb
          exact hb.1
        by_cases hg' : s.canGo = true
        · simp only [hg', Bool.or_true, if_true]; exact h.go hg'
        · simp only [hn, hg', Bool.or_self, Bool.false_eq_true, if_false]; omega
      · intro t ht hq hb
        simp only at ht hq hb
        simp only [hb, Bool.true_or, if_true]
        exact h.queued_busy t ht hq hb
      · intro t ht hq hb
        simp only at ht hq hb
        simp only [hcg hb hq, Bool.or_true, if_true]
        exact h.queued_idle t ht hq hb
      · intro t ht hq hb
        simp only at ht hq hb
        simp only [hb, Bool.true_or, if_true]
        exact h.sending t ht hq hb
      · intro hh; cases hh
      · intro t ht
        simp only at ht
        injection ht with ht
        exact ⟨by simp only; omega, rfl⟩
      · intro t ht hq hb
        simp only at ht hq hb
        injection ht with ht
        obtain ⟨t0, ht0⟩ := hsome hq
        have h1 := h.queued_busy t0 ht0 hq hb
        have h2 := hlast t0 ht0
        simp only [hb, Bool.true_or, if_true]
        omega
      · intro t ht hq hb
        simp only at ht hq hb
        injection ht with ht
        obtain ⟨t0, ht0⟩ := hsome hq
        have h1 := h.queued_idle t0 ht0 hq hb
        have h2 := hlast t0 ht0
        simp only [hcg hb hq, Bool.or_true, if_true]
        omega
      · intro t ht hq hb
        simp only at ht hq hb
        injection ht with ht
        have h1 := h.since_le
        simp only [hb, Bool.true_or, if_true]
        omega
      · intro t ht hq hb _
        simp only at ht hq hb
        injection ht with ht
        simp only [hb, hcg' hq, Bool.or_self, Bool.false_eq_true, if_false]
        omega
  | fin =>
    simp only [RTime.step] at e
    split at e
    · rename_i hb
      simp only [Bool.and_eq_true, Bool.not_eq_true', List.isEmpty_iff] at hb
      injection e with e
      subst e
      have hs : s.r.send true = { s.r with ended := true } := by
        unfold RRep.send
        rw [hb.1.2]
        simp [hb.1.2, hb.2]
      rw [hs]
      have hq : s.r.queue = [] := hb.1.2
      refine ⟨h.one, h.since_le, h.none_, h.last_le, h.busy_, ?_, h.queued_busy, h.queued_idle, h.sending, ?_, h.stop_le,
        h.stop_qb, h.stop_qi, h.stop_b, ?_⟩
      · intro hh; simp [RTime.canGo, hq] at hh
      · intro hh; exact absurd hb.2 (by rw [(h.open_ hh).1]; simp)
      · intro t _ _ _ hh; cases hh
    · cases e

theorem rtInv_run {L : RLim} (hg : L.send + L.wake ≤ L.gap) (h0 : 0 < L.send) :
    ∀ (ops : List (RTOp α)) {s s' : RTime α}, RTInv L s → s.run L ops = some s' → RTInv L s'
  | [], s, s', h, e => by simp only [RTime.run] at e; injection e with e; subst e; exact h
  | op :: ops, s, s', h, e => by
    simp only [RTime.run] at e
    cases h1 : s.step L op with
    | none => rw [h1] at e; cases e
    | some s1 =>
      rw [h1, Option.bind_some] at e
      exact rtInv_run hg h0 ops (h.step hg h0 h1) e

/-- A run in time is a run without times in which the sender keeps up. -/
theorem noTimes_run {L : RLim} (hg : L.send + L.wake ≤ L.gap) (h0 : 0 < L.send) :
    ∀ (ops : List (RTOp α)) {s s' : RTime α}, RTInv L s → s.run L ops = some s' →
      s.r.run (noTimes ops) = .ok s'.r ∧ keepsUp s.r (noTimes ops) = true
  | [], s, s', h, e => by simp only [RTime.run] at e; injection e with e; subst e; exact ⟨rfl, rfl⟩
  | op :: ops, s, s', h, e => by
    simp only [RTime.run] at e
    cases h1 : s.step L op with
    | none => rw [h1] at e; cases e
    | some s1 =>
      rw [h1, Option.bind_some] at e
      have ih := noTimes_run hg h0 ops (h.step hg h0 h1) e
      cases op with
      | wait d =>
        simp only [RTime.step] at h1
        split at h1
        · injection h1 with h1; subst h1; exact ih
        · cases h1
      | collect v =>
        simp only [RTime.step] at h1
        split at h1
        · rename_i hl
          simp only [Bool.and_eq_true, Bool.not_eq_true'] at hl
          have hq := h.empty hg h0 hl.1
          split at h1
          · cases h1
          · rename_i r' hr
            injection h1 with h1
            subst h1
            simp only [noTimes, RRep.run, RRep.step, keepsUp, hr, hq, List.isEmpty_nil, Bool.true_and]
            exact ih
        · cases h1
      | «begin» ok =>
        simp only [RTime.step] at h1
        split at h1
        · injection h1 with h1; subst h1
          simp only [noTimes, RRep.run, RRep.step, keepsUp, Bool.true_and]
          exact ih
        · cases h1
      | finish =>
        simp only [RTime.step] at h1
        split at h1
        · injection h1 with h1; subst h1; exact ih
        · cases h1
      | stop =>
        simp only [RTime.step] at h1
        split at h1
        · cases h1
        · rename_i hc
          injection h1 with h1; subst h1
          simp only [noTimes, RRep.run, RRep.step, RRep.stop, hc, keepsUp, Bool.true_and, if_false,
            Bool.false_eq_true]
          exact ih
      | fin =>
        simp only [RTime.step] at h1
        split at h1
        · injection h1 with h1; subst h1
          simp only [noTimes, RRep.run, RRep.step, keepsUp, Bool.true_and]
          exact ih
        · cases h1

/-- Statistics collected, in order. -/
def collectedAt : List (RTOp α) → List α
  | [] => []
  | .collect v :: ops => v :: collectedAt ops
  | _ :: ops => collectedAt ops

theorem collectedAt_eq (ops : List (RTOp α)) : collectedBy (noTimes ops) = collectedAt ops := by
  induction ops with
  | nil => rfl
  | cons op ops ih => cases op <;> simp [noTimes, collectedBy, collectedAt, ih]

/-- **C124.** If collections are at least as far apart as sending takes (930 ms with all its retries) and the goroutine needs to go
on, then whatever the server answers and whenever: no interval is dropped, at most one waits, the intervals
are sent in order and each once, and what is sent for an interval is what was collected for it. -/
theorem C124_stats (wake gap : Nat) (hg : 930 + wake ≤ gap) (z : α) (ops : List (RTOp α)) {s : RTime α}
    (h : (RTime.new z).run ⟨gap, 930, wake⟩ ops = some s) :
    s.r.dropped = [] ∧ s.r.queue.length ≤ 1 ∧
    s.r.sent.map (·.1) ++ s.r.queue = List.range' 1 (collectedAt ops).length ∧
    ∀ e ∈ s.r.sent, 1 ≤ e.1 ∧ (collectedAt ops)[e.1 - 1]? = some e.2.1 := by
  have hi := rtInv_run (L := ⟨gap, 930, wake⟩) hg (Nat.zero_lt_succ 929) ops (rtInv_new _ z) h
  obtain ⟨h1, h2⟩ := noTimes_run (L := ⟨gap, 930, wake⟩) hg (Nat.zero_lt_succ 929) ops (rtInv_new _ z) h
  obtain ⟨h3, h4⟩ := C96_values_partial z (noTimes ops) h1 h2
  obtain ⟨h5, h6, _⟩ := C96_once z (noTimes ops) h1
  rw [collectedAt_eq] at h3 h5
  rw [h4, List.append_nil] at h5
  refine ⟨h4, hi.one, ?_, h3⟩
  refine h5.eq_of_pairwise (le := fun a b => a < b) ?_ h6 List.pairwise_lt_range'
  intro a b _ _ h1 h2
  omega

/-- **C124.** Sending the statistics of an interval takes at most 930 ms, whatever the server does. -/
theorem C124_send_time (as : List (Attempt × Nat)) (h : ∀ a ∈ as, a.2 ≤ statsLimit.timeout) :
    reqTime statsLimit.tries statsLimit.wait 0 as ≤ 930 :=
  C124_request 3 10 300 as h

/-- **C124.** `Stop` does not give up on the goroutine: five seconds after it is called everything has been sent and the
goroutine has ended, if the goroutine needs at most two seconds to go on. -/
theorem C124_stop (wake gap : Nat) (hg : 930 + wake ≤ gap) (hw : wake ≤ 2000) (z : α) (ops : List (RTOp α)) {s : RTime α}
    (h : (RTime.new z).run ⟨gap, 930, wake⟩ ops = some s) (t : Nat) (ht : s.stoppedAt = some t)
    (hn : t + stopWait ≤ s.now) :
    s.r.ended = true ∧ s.r.sent.map (·.1) = List.range' 1 (collectedAt ops).length := by
  have hi := rtInv_run (L := ⟨gap, 930, wake⟩) hg (Nat.zero_lt_succ 929) ops (rtInv_new _ z) h
  have h5 : stopWait = 5000 := rfl
  have hq : s.r.queue = [] := by
    by_contra hq
    cases hb : s.busy with
    | true =>
      have h1 := hi.stop_qb t ht hq hb
      have h2 := hi.busy_ hb
      simp only at h1 h2
      omega
    | false =>
      have h1 := hi.stop_qi t ht hq hb
      have h2 := hi.go (by
        cases he : s.r.queue with
        | nil => exact absurd he hq
        | cons => simp [RTime.canGo, hb, he])
      simp only at h2
      omega
  refine ⟨?_, ?_⟩
  · by_contra he
    cases hb : s.busy with
    | true =>
      have h1 := hi.stop_b t ht hq hb
      have h2 := hi.busy_ hb
      simp only at h1 h2
      omega
    | false =>
      have h1 := hi.stop_i t ht hq hb (by simpa using he)
      have h2 := hi.go (by simp [RTime.canGo, hb, hq, (hi.stop_le t ht).2, he])
      simp only at h1 h2
      omega
  · have := (C124_stats wake gap hg z ops h).2.2.1
    rwa [hq, List.append_nil] at this

/-- A server that does not answer: the request takes 930 ms and fails. -/
example : reqTime statsLimit.tries statsLimit.wait 0 (List.replicate 4 (⟨.doErr, 0, false⟩, 300)) = 930 := by decide +kernel

/-- Two collections 2.5 s apart, the first not answered for 930 ms, the second at the end of the stage. -/
example : ((RTime.new 0).run ⟨2500, 930, 10⟩ [.wait 2500, .collect 10, .wait 5, .begin false, .wait 930, .finish, .wait 1565,
    .collect 20, .stop, .wait 3, .begin true, .wait 40, .finish, .fin, .wait 5000]).map
      (fun s => (s.r.sent, s.r.dropped, s.r.ended, s.stoppedAt, s.now)) =
    some ([(1, 10, false), (2, 20, true)], [], true, some 5000, 10043) := by decide +kernel

/-- **C124, what it excludes.** With collections 100 ms apart (`freq: 100ms`) and a server that does not answer, statistics are
dropped and the statistics of a later interval are sent in place of those of an earlier one. -/
theorem C124_short_freq_false : ∃ (ops : List (RTOp Nat)) (s : RTime Nat),
    (RTime.new 0).run ⟨100, 930, 10⟩ ops = some s ∧ s.r.dropped = [7] ∧
    (2, 70, false) ∈ s.r.sent ∧ collectedAt ops = [10, 20, 30, 40, 50, 60, 70] := by
  refine ⟨[.collect 10, .begin false, .wait 100, .collect 20, .wait 100, .collect 30, .wait 100, .collect 40, .wait 100,
    .collect 50, .wait 100, .collect 60, .wait 100, .collect 70, .wait 330, .finish, .begin false],
    ((RTime.new 0).run ⟨100, 930, 10⟩ [.collect 10, .begin false, .wait 100, .collect 20, .wait 100, .collect 30, .wait 100,
      .collect 40, .wait 100, .collect 50, .wait 100, .collect 60, .wait 100, .collect 70, .wait 330, .finish,
      .begin false]).getD (RTime.new 0), ?_⟩
  decide +kernel

end Finch
