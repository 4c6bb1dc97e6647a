import Verif.Model.RemoteStats
import Mathlib.Data.List.Perm.Basic
import Mathlib.Tactic.Common
/-!
C96: statistics sent to the server by a remote instance.
-/
namespace Finch

variable {α : Type}

/-- Statistics collected, in order. -/
def collectedBy : List (RRepOp α) → List α
  | [] => []
  | .collect v :: ops => v :: collectedBy ops
  | _ :: ops => collectedBy ops

/-- Sequences of a stage: `Stop` is called at most once, at the end of all collections (stats/collector.go:163-288). -/
def stoppedOnce : List (RRepOp α) → Bool
  | [] => true
  | .stop :: ops => ops.all fun o => match o with
    | .send _ => true
    | _ => false
  | _ :: ops => stoppedOnce ops

structure RRepInv (r : RRep α) : Prop where
  all : (r.sent.map (·.1) ++ r.queue ++ r.dropped).Perm (List.range' 1 r.interval)
  order : (r.sent.map (·.1) ++ r.queue).Pairwise (· < ·)
  le : ∀ k ∈ r.sent.map (·.1) ++ r.queue, k ≤ r.interval
  cap : r.queue.length ≤ 5

theorem RRepInv.collect {r r' : RRep α} (h : RRepInv r) {v : α} (e : r.collect v = .ok r') : RRepInv r' := by
  unfold RRep.collect RRep.report at e
  simp only [ne_eq, not_true_eq_false, if_false] at e
  have hr : List.range' 1 (r.interval + 1) = List.range' 1 r.interval ++ [r.interval + 1] := by
    rw [List.range'_concat, Nat.one_mul, Nat.add_comm 1]
  split at e
  · cases e
  · split at e
    · rename_i hq
      cases e
      refine ⟨?_, ?_, ?_, ?_⟩
      · dsimp only
        rw [hr]
        refine List.Perm.trans ?_ (h.all.append_right _)
        simp only [List.append_assoc]
        refine List.Perm.append_left _ (List.Perm.append_left _ ?_)
        exact List.perm_append_comm
      · dsimp only
        rw [← List.append_assoc]
        refine List.pairwise_append.mpr ⟨h.order, List.pairwise_singleton _ _, ?_⟩
        intro a ha b hb
        simp only [List.mem_singleton] at hb
        have := h.le a ha
        omega
      · intro k hk
        dsimp only at hk ⊢
        rw [← List.append_assoc] at hk
        rcases List.mem_append.mp hk with hk | hk
        · have := h.le k hk; omega
        · simp only [List.mem_singleton] at hk; omega
      · dsimp only at hq ⊢
        simp only [List.length_append, List.length_singleton]
        have : rrepCap = 5 := rfl
        omega
    · cases e
      refine ⟨?_, h.order, ?_, h.cap⟩
      · dsimp only
        rw [hr, ← List.append_assoc]
        exact h.all.append_right _
      · intro k hk
        have := h.le k hk
        dsimp only
        omega

theorem RRepInv.send {r : RRep α} (h : RRepInv r) (ok : Bool) : RRepInv (r.send ok) := by
  unfold RRep.send
  split
  · rename_i k q hq
    obtain ⟨h1, h2, h3, h4⟩ := h
    rw [hq] at h1 h2 h3 h4
    refine ⟨?_, ?_, ?_, ?_⟩
    · simpa using h1
    · simpa using h2
    · simpa using h3
    · simp only [List.length_cons] at h4
      dsimp only
      omega
  · split
    · exact ⟨h.all, h.order, h.le, h.cap⟩
    · exact h

theorem RRepInv.step {r r' : RRep α} (h : RRepInv r) {op : RRepOp α} (e : r.step op = .ok r') : RRepInv r' := by
  cases op with
  | collect v => exact h.collect e
  | send ok => simp only [RRep.step] at e; cases e; exact h.send ok
  | stop =>
    simp only [RRep.step, RRep.stop] at e
    split at e
    · cases e
    · cases e; exact ⟨h.all, h.order, h.le, h.cap⟩

theorem rrepInv_run : ∀ (ops : List (RRepOp α)) {r r' : RRep α}, RRepInv r → r.run ops = .ok r' → RRepInv r'
  | [], r, r', h, e => by cases e; exact h
  | op :: ops, r, r', h, e => by
    simp only [RRep.run] at e
    split at e
    · rename_i r1 h1
      exact rrepInv_run ops (h.step h1) e
    · cases e

theorem rrepInv_new (z : α) : RRepInv (RRep.new z) :=
  ⟨by simp [RRep.new], by simp [RRep.new], by simp [RRep.new], by simp [RRep.new]⟩

/-- **C96.** Whatever the timing: each interval is sent to the server exactly once, or is waiting, or was dropped; the intervals
arrive in order, and at most 5 wait. -/
theorem C96_once (z : α) (ops : List (RRepOp α)) {r : RRep α} (h : (RRep.new z).run ops = .ok r) :
    (r.sent.map (·.1) ++ r.queue ++ r.dropped).Perm (List.range' 1 (collectedBy ops).length) ∧
    (r.sent.map (·.1) ++ r.queue).Pairwise (· < ·) ∧ r.queue.length ≤ 5 := by
  have v := rrepInv_run ops (rrepInv_new z) h
  have key : ∀ (ops : List (RRepOp α)) (r r' : RRep α), r.run ops = .ok r' →
      r'.interval = r.interval + (collectedBy ops).length := by
    intro ops
    induction ops with
    | nil => intro r r' e; cases e; rfl
    | cons op ops ih =>
      intro r r' e
      simp only [RRep.run] at e
      split at e
      · rename_i r1 h1
        rw [ih _ _ e]
        cases op with
        | collect w =>
          simp only [RRep.step, RRep.collect, RRep.report] at h1
          simp only [ne_eq, not_true_eq_false, if_false] at h1
          split at h1
          · cases h1
          · split at h1 <;> cases h1 <;> simp only [collectedBy, List.length_cons] <;> omega
        | send ok =>
          simp only [RRep.step] at h1
          cases h1
          simp only [collectedBy, RRep.send]
          split
          · rfl
          · split <;> rfl
        | stop =>
          simp only [RRep.step, RRep.stop] at h1
          split at h1
          · cases h1
          · cases h1; rfl
      · cases e
  have hi := key ops _ _ h
  simp only [RRep.new, Nat.zero_add] at hi
  rw [← hi]
  exact ⟨v.all, v.order, v.cap⟩

/-- **C96.** An interval is dropped exactly if 5 others are waiting to be sent when it is reported. -/
theorem C96_drop {r r' : RRep α} {v : α} (h : r.collect v = .ok r') :
    (r'.dropped = r.dropped ++ [r.interval + 1] ∧ r'.queue = r.queue ↔ 5 ≤ r.queue.length) ∧
    (r'.dropped = r.dropped ∧ r'.queue = r.queue ++ [r.interval + 1] ↔ r.queue.length < 5) := by
  unfold RRep.collect RRep.report at h
  simp only [ne_eq, not_true_eq_false, if_false] at h
  have hc : rrepCap = 5 := rfl
  split at h
  · cases h
  · split at h
    · rename_i hq
      cases h
      dsimp only at hq ⊢
      refine ⟨⟨fun hx => ?_, fun hx => by omega⟩, ⟨fun _ => by omega, fun _ => ⟨rfl, rfl⟩⟩⟩
      simp at hx
    · rename_i hq
      cases h
      dsimp only at hq ⊢
      refine ⟨⟨fun _ => by omega, fun _ => ⟨rfl, rfl⟩⟩, ⟨fun hx => ?_, fun hx => by omega⟩⟩
      simp at hx

/-- **C96.** The reporter does not panic: it is stopped once, after the last collection. -/
theorem C96_no_panic (z : α) (ops : List (RRepOp α)) (h : stoppedOnce ops = true) :
    ∃ r, (RRep.new z).run ops = .ok r := by
  have key : ∀ (ops : List (RRepOp α)) (r : RRep α), stoppedOnce ops = true → r.closed = false → ∃ r', r.run ops = .ok r' := by
    intro ops
    induction ops with
    | nil => intro r _ _; exact ⟨r, rfl⟩
    | cons op ops ih =>
      intro r hs hc
      cases op with
      | collect w =>
        by_cases hq : r.queue.length < rrepCap
        · obtain ⟨r', h'⟩ := ih { r with interval := r.interval + 1, cur := w, queue := r.queue ++ [r.interval + 1] } hs hc
          exact ⟨r', by rw [← h']; simp [RRep.run, RRep.step, RRep.collect, RRep.report, hc, hq]⟩
        · obtain ⟨r', h'⟩ := ih { r with interval := r.interval + 1, cur := w, dropped := r.dropped ++ [r.interval + 1] } hs hc
          exact ⟨r', by rw [← h']; simp [RRep.run, RRep.step, RRep.collect, RRep.report, hc, hq]⟩
      | send ok =>
        refine ih (r.send ok) hs ?_
        unfold RRep.send
        split
        · exact hc
        · simp [hc]
      | stop =>
        simp only [stoppedOnce] at hs
        have : ∀ (ops : List (RRepOp α)) (r : RRep α), (ops.all fun o => match o with
            | .send _ => true
            | _ => false) = true → ∃ r', r.run ops = .ok r' := by
          intro ops
          induction ops with
          | nil => intro r _; exact ⟨r, rfl⟩
          | cons o ops ih =>
            intro r h
            simp only [List.all_cons, Bool.and_eq_true] at h
            cases o with
            | send ok => exact ih (r.send ok) h.2
            | collect w => simp at h
            | stop => simp at h
        obtain ⟨r', h'⟩ := this ops { r with closed := true } hs
        exact ⟨r', by simp [RRep.run, RRep.step, RRep.stop, hc, h']⟩
  exact key ops _ h rfl

/-- **C96.** `Stop` loses nothing that waits: after as many turns as there are intervals waiting all are sent, in order, and one
more turn ends the goroutine. -/
theorem C96_stop {r r' : RRep α} (h : r.stop = .ok r') (oks : List Bool) (hl : oks.length = r.queue.length) :
    ∃ r'', r'.run (oks.map .send ++ [.send true]) = .ok r'' ∧ r''.queue = [] ∧ r''.ended = true ∧
      r''.sent.map (·.1) = r.sent.map (·.1) ++ r.queue ∧ r''.dropped = r.dropped := by
  have key : ∀ (oks : List Bool) (r : RRep α), r.closed = true → oks.length = r.queue.length →
      ∃ r'', r.run (oks.map .send ++ [.send true]) = .ok r'' ∧ r''.queue = [] ∧ r''.ended = true ∧
        r''.sent.map (·.1) = r.sent.map (·.1) ++ r.queue ∧ r''.dropped = r.dropped := by
    intro oks
    induction oks with
    | nil =>
      intro r hc hq
      have : r.queue = [] := List.eq_nil_of_length_eq_zero hq.symm
      refine ⟨{ r with ended := true }, ?_, this, rfl, ?_, rfl⟩
      · simp [RRep.run, RRep.step, RRep.send, this, hc]
      · rw [this, List.append_nil]
    | cons b oks ih =>
      intro r hc hq
      cases hk : r.queue with
      | nil => rw [hk] at hq; simp at hq
      | cons k q =>
        rw [hk] at hq
        obtain ⟨r'', h1, h2, h3, h4, h5⟩ := ih { r with queue := q, sent := r.sent ++ [(k, r.cur, b)] } hc (by simpa using hq)
        refine ⟨r'', ?_, h2, h3, ?_, h5⟩
        · rw [← h1]
          simp [RRep.run, RRep.step, RRep.send, hk]
        · rw [h4]; simp
  unfold RRep.stop at h
  split at h
  · cases h
  · cases h
    exact key oks { r with closed := true } rfl hl

/-- The sender keeps up: nothing waits when statistics are collected. -/
def keepsUp (r : RRep α) : List (RRepOp α) → Bool
  | [] => true
  | op :: ops =>
    (match op with
      | .collect _ => r.queue.isEmpty
      | _ => true) &&
    match r.step op with
    | .ok r => keepsUp r ops
    | .panic => true

/-- **C96, partial.** If every interval is sent before the next one is collected, the statistics sent for an interval are those
collected for it, and nothing is dropped. Missing: a slow server, see `C96_values_false`. -/
theorem C96_values_partial (z : α) (ops : List (RRepOp α)) {r : RRep α} (h : (RRep.new z).run ops = .ok r)
    (hk : keepsUp (RRep.new z) ops = true) :
    (∀ e ∈ r.sent, 1 ≤ e.1 ∧ (collectedBy ops)[e.1 - 1]? = some e.2.1) ∧ r.dropped = [] := by
  have key : ∀ (ops : List (RRepOp α)) (vs : List α) (r r' : RRep α), r.run ops = .ok r' → keepsUp r ops = true →
      r.interval = vs.length → (r.queue = [] ∨ r.queue = [vs.length] ∧ 1 ≤ vs.length ∧ vs[vs.length - 1]? = some r.cur) →
      (∀ e ∈ r.sent, 1 ≤ e.1 ∧ vs[e.1 - 1]? = some e.2.1) → r.dropped = [] →
      (∀ e ∈ r'.sent, 1 ≤ e.1 ∧ (vs ++ collectedBy ops)[e.1 - 1]? = some e.2.1) ∧ r'.dropped = [] := by
    intro ops
    induction ops with
    | nil =>
      intro vs r r' e _ _ _ h1 h2
      cases e
      simp only [collectedBy, List.append_nil]
      exact ⟨h1, h2⟩
    | cons op ops ih =>
      intro vs r r' e hk hi hq h1 h2
      simp only [RRep.run] at e
      simp only [keepsUp, Bool.and_eq_true] at hk
      split at e
      · rename_i r1 hs
        rw [hs] at hk
        cases op with
        | collect w =>
          have hq0 : r.queue = [] := by simpa using hk.1
          have hr1 : r1 = { r with interval := r.interval + 1, cur := w, queue := [r.interval + 1] } := by
            simp only [RRep.step, RRep.collect, RRep.report, ne_eq, not_true_eq_false, if_false, hq0] at hs
            split at hs
            · cases hs
            · rw [if_pos (by decide)] at hs
              cases hs
              simp
          have := ih (vs ++ [w]) r1 r' e hk.2 (by rw [hr1]; simp [hi])
            (Or.inr ⟨by rw [hr1]; simp [hi], by simp, by rw [hr1]; simp⟩)
            (by
              intro x hx
              rw [hr1] at hx
              obtain ⟨a, b⟩ := h1 x hx
              refine ⟨a, ?_⟩
              have hlt : x.1 - 1 < vs.length := by
                by_contra hc
                rw [List.getElem?_eq_none (by omega)] at b
                cases b
              rw [List.getElem?_append_left hlt]
              exact b)
            (by rw [hr1]; exact h2)
          simpa [collectedBy] using this
        | send ok =>
          simp only [RRep.step] at hs
          cases hs
          simp only [collectedBy]
          refine ih vs (r.send ok) r' e hk.2 ?_ ?_ ?_ ?_
          · unfold RRep.send
            split
            · exact hi
            · split <;> exact hi
          · unfold RRep.send
            rcases hq with hq | ⟨hq, -⟩
            · rw [hq]
              simp only
              split <;> (left; first | exact hq | rfl)
            · rw [hq]
              exact Or.inl rfl
          · unfold RRep.send
            rcases hq with hq | ⟨hq, hv1, hv2⟩
            · rw [hq]
              simp only
              split <;> exact h1
            · rw [hq]
              simp only
              intro x hx
              rcases List.mem_append.mp hx with hx | hx
              · exact h1 x hx
              · simp only [List.mem_singleton] at hx
                subst hx
                exact ⟨hv1, hv2⟩
          · unfold RRep.send
            split
            · exact h2
            · split <;> exact h2
        | stop =>
          simp only [RRep.step, RRep.stop] at hs
          split at hs
          · cases hs
          · cases hs
            simp only [collectedBy]
            exact ih vs _ r' e hk.2 hi hq h1 h2
      · cases e
  have := key ops [] _ r h hk rfl (Or.inl rfl) (by simp [RRep.new]) rfl
  simpa using this

/-- **C96, negation.** What is sent for an interval is whatever was collected last, because copies in the queue share their
statistics: in any state with `k` waiting, the statistics of `k` are lost and those of the later interval
are sent in their place (and so counted twice, if the later interval is sent as well). -/
theorem C96_values_false (r : RRep α) (v : α) (k : Nat) (q : List Nat) (hq : r.queue = k :: q)
    (hc : r.closed = false) (ok : Bool) :
    ∃ r', r.run [.collect v, .send ok] = .ok r' ∧ r'.sent = r.sent ++ [(k, v, ok)] := by
  by_cases hl : (k :: q).length < rrepCap
  · refine ⟨{ r with interval := r.interval + 1, cur := v, queue := q ++ [r.interval + 1], sent := r.sent ++ [(k, v, ok)] }, ?_, rfl⟩
    simp only [List.length_cons] at hl
    simp [RRep.run, RRep.step, RRep.collect, RRep.report, RRep.send, hc, hq, hl]
  · refine ⟨{ r with interval := r.interval + 1, cur := v, queue := q, sent := r.sent ++ [(k, v, ok)], dropped := r.dropped ++ [r.interval + 1] }, ?_, rfl⟩
    simp only [List.length_cons] at hl
    simp [RRep.run, RRep.step, RRep.collect, RRep.report, RRep.send, hc, hq, hl]

/-- Result of a run, for examples. -/
def RRep.shown (x : Res (RRep Nat)) : Option (List (Nat × Nat × Bool) × List Nat × List Nat × Bool) :=
  match x with
  | .ok r => some (r.sent, r.queue, r.dropped, r.ended)
  | .panic => none

/-- 10 events in the first interval and 20 in the second, the second collected before the first is sent: 40 events arrive. -/
example : RRep.shown ((RRep.new 0).run [.collect 10, .collect 20, .send true, .send true, .stop, .send true]) =
    some ([(1, 20, true), (2, 20, true)], [], [], true) := by decide +kernel

/-- A sender that keeps up. -/
example : keepsUp (RRep.new 0) [.collect 10, .send true, .collect 20, .send false, .stop, .send true] = true ∧
    stoppedOnce [RRepOp.collect 10, .send true, .collect 20, .send false, .stop, .send true] = true ∧
    RRep.shown ((RRep.new 0).run [.collect 10, .send true, .collect 20, .send false, .stop, .send true]) =
      some ([(1, 10, true), (2, 20, false)], [], [], true) := by
  refine ⟨?_, ?_, ?_⟩ <;> decide +kernel

/-- Seven intervals and no answer: the sixth and seventh are dropped. -/
example : RRep.shown ((RRep.new 0).run ((List.range 7).map .collect)) =
    some ([], [1, 2, 3, 4, 5], [6, 7], false) := by decide +kernel

end Finch
