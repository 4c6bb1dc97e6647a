import Verif.Model.FinalReport
/-!
C125: everything that is recorded is reported. False of the code for what is recorded after the last periodic report, if the stage
stops within half of the frequency.
-/
namespace Finch

variable {β : Type}

/-- What the clients recorded, with times. -/
def recordedIn : Nat → List (FinalOp β) → List (Nat × β)
  | _, [] => []
  | now, .wait d :: ops => recordedIn (now + d) ops
  | now, .record e :: ops => (now, e) :: recordedIn now ops
  | now, _ :: ops => recordedIn now ops

/-- All that the reports contain, in order. -/
def reportedEvents (s : FinalSt β) : List (Nat × β) :=
  s.coll.reports.flatMap fun r => r.from'.flatMap fun v => v.stats

/-- The time that passed. -/
def passed : List (FinalOp β) → Nat
  | [] => 0
  | .wait d :: ops => d + passed ops
  | _ :: ops => passed ops

/-- A collector of one instance reports when it collects. -/
theorem collect_one {α : Type} {c : Coll α} (h1 : c.nInstances = 1) (h2 : c.pending = []) (v : α) :
    c.collect v = .ok ({ c with
      localInterval := c.localInterval + 1, localStats := v, intervalNo := c.intervalNo + 1
      reports := c.reports ++ [⟨c.intervalNo, false, [⟨0, c.localInterval + 1, v⟩]⟩] }, true) := by
  simp [Coll.collect, Coll.push, Coll.report, h1, h2, Inst.view]

structure FinalInv (freq : Nat) (all : List (Nat × β)) (s : FinalSt β) : Prop where
  one : s.coll.nInstances = 1
  empty : s.coll.pending = []
  events : reportedEvents s ++ s.buf = all
  times : ∀ e ∈ s.buf, e.1 ≤ s.now
  later : ∀ t, s.reported = some t → t ≤ s.now ∧ ∀ e ∈ s.buf, t ≤ e.1
  stopped : ∀ b, s.stopped = some b → s.buf ≠ [] → freq ≠ 0 ∧ ∃ t stop, s.reported = some t ∧ stop ≤ s.now ∧
    (∀ e ∈ s.buf, t ≤ e.1 ∧ e.1 ≤ stop) ∧ stop - t < freq / 2

theorem finalInv_new (freq : Nat) : FinalInv freq [] (FinalSt.new : FinalSt β) := by
  constructor <;> simp [FinalSt.new, Coll.new, reportedEvents]

theorem FinalInv.step {freq : Nat} {all : List (Nat × β)} {s s' : FinalSt β} (h : FinalInv freq all s) {op : FinalOp β}
    (e : s.step freq op = some s') :
    FinalInv freq (all ++ recordedIn s.now [op]) s' ∧ s'.now = s.now + passed [op] := by
  cases op with
  | wait d =>
    simp only [FinalSt.step] at e
    injection e with e
    subst e
    refine ⟨⟨h.one, h.empty, ?_, ?_, ?_, ?_⟩, rfl⟩
    · have := h.events; simpa [recordedIn, reportedEvents] using this
    · intro x hx; have := h.times x hx; simp only; omega
    · intro t ht; have := h.later t ht; exact ⟨by simp only; omega, this.2⟩
    · intro b hb hn
      obtain ⟨h1, t, st, h2, h3, h4⟩ := h.stopped b hb hn
      exact ⟨h1, t, st, h2, by simp only; omega, h4⟩
  | record x =>
    simp only [FinalSt.step] at e
    split at e
    · rename_i hs
      injection e with e
      subst e
      refine ⟨⟨h.one, h.empty, ?_, ?_, ?_, ?_⟩, by simp [passed]⟩
      · have := h.events
        simp only [recordedIn, ← this, List.append_assoc]
        rfl
      · intro y hy
        rcases List.mem_append.mp hy with hy | hy
        · exact h.times y hy
        · rw [List.mem_singleton.mp hy]
      · intro t ht
        have := h.later t ht
        refine ⟨this.1, ?_⟩
        intro y hy
        rcases List.mem_append.mp hy with hy | hy
        · exact this.2 y hy
        · rw [List.mem_singleton.mp hy]; exact this.1
      · intro b hb
        simp only at hb
        rw [hb] at hs
        cases hs
    · cases e
  | tick =>
    simp only [FinalSt.step, collect_one h.one h.empty] at e
    split at e
    · rename_i hs
      simp only [Bool.and_eq_true] at hs
      injection e with e
      subst e
      refine ⟨⟨h.one, h.empty, ?_, ?_, ?_, ?_⟩, by simp [passed]⟩
      · have := h.events
        simp only [recordedIn, reportedEvents, List.flatMap_append, List.flatMap_cons, List.flatMap_nil,
          List.append_nil]
        exact this
      · intro x hx; cases hx
      · intro t ht
        simp only [if_true] at ht
        injection ht with ht
        exact ⟨by simp only; omega, fun x hx => by cases hx⟩
      · intro b hb
        simp only at hb
        rw [hb] at hs
        cases hs.1
    · cases e
  | stop =>
    simp only [FinalSt.step] at e
    split at e
    · rename_i hs
      have hev := h.events
      by_cases hf : freq = 0
      · simp only [stopBegin, hf, decide_true, if_true, collect_one h.one h.empty] at e
        injection e with e
        subst e
        refine ⟨⟨h.one, h.empty, ?_, ?_, ?_, ?_⟩, by simp [passed]⟩
        · simp only [recordedIn, reportedEvents, List.flatMap_append, List.flatMap_cons, List.flatMap_nil,
            List.append_nil, ne_eq, not_true_eq_false, false_and, if_false]
          exact hev
        · intro x hx; simp at hx
        · intro t ht; exact ⟨(h.later t ht).1, fun x hx => by simp at hx⟩
        · intro b _ hn; simp at hn
      · by_cases hr : recentReport freq s.reported s.now = true
        · simp only [stopBegin, hf, decide_false, Bool.false_eq_true, if_false, hr, if_true] at e
          injection e with e
          subst e
          refine ⟨⟨h.one, h.empty, ?_, ?_, ?_, ?_⟩, by simp [passed]⟩
          · simp only [recordedIn, reportedEvents, ne_eq, hf, not_false_eq_true, and_self, if_true, List.append_nil]
            exact hev
          · simp only [ne_eq, hf, not_false_eq_true, and_self, if_true]
            exact h.times
          · intro t ht
            simp only [ne_eq, hf, not_false_eq_true, and_self, if_true]
            exact h.later t ht
          · intro b _ hn
            refine ⟨hf, ?_⟩
            simp only [ne_eq, hf, not_false_eq_true, and_self, if_true]
            unfold recentReport at hr
            split at hr
            · cases hr
            · rename_i t ht
              have h1 := h.later t ht
              refine ⟨t, s.now, ht, Nat.le_refl _, fun x hx => ⟨h1.2 x hx, h.times x hx⟩, by simpa using hr⟩
        · simp only [stopBegin, hf, decide_false, Bool.false_eq_true, if_false, hr,
            collect_one h.one h.empty, if_true] at e
          injection e with e
          subst e
          refine ⟨⟨h.one, h.empty, ?_, ?_, ?_, ?_⟩, by simp [passed]⟩
          · simp only [recordedIn, reportedEvents, List.flatMap_append, List.flatMap_cons, List.flatMap_nil,
              List.append_nil, ne_eq, and_false, if_false]
            exact hev
          · intro x hx; simp at hx
          · intro t ht; exact ⟨(h.later t ht).1, fun x hx => by simp at hx⟩
          · intro b _ hn; simp at hn
    · cases e

theorem recordedIn_append : ∀ (now : Nat) (op : FinalOp β) (ops : List (FinalOp β)),
    recordedIn now (op :: ops) = recordedIn now [op] ++ recordedIn (now + passed [op]) ops := by
  intro now op ops
  cases op <;> simp [recordedIn, passed]

theorem finalInv_run (freq : Nat) : ∀ (ops : List (FinalOp β)) {all : List (Nat × β)} {s s' : FinalSt β},
    FinalInv freq all s → s.run freq ops = some s' → FinalInv freq (all ++ recordedIn s.now ops) s'
  | [], all, s, s', h, e => by
    simp only [FinalSt.run] at e; injection e with e; subst e; simpa [recordedIn] using h
  | op :: ops, all, s, s', h, e => by
    simp only [FinalSt.run] at e
    cases h1 : s.step freq op with
    | none => rw [h1] at e; cases e
    | some s1 =>
      rw [h1, Option.bind_some] at e
      obtain ⟨h2, h3⟩ := h.step h1
      have := finalInv_run freq ops h2 e
      rw [h3] at this
      rw [recordedIn_append, ← List.append_assoc]
      exact this

/-- The whole claim: after Stop the reports together contain exactly what was recorded. -/
def AllReported (β : Type) (freq : Nat) : Prop :=
  ∀ (ops : List (FinalOp β)) (s : FinalSt β) (b : Bool), FinalSt.new.run freq ops = some s → s.stopped = some b →
    reportedEvents s = recordedIn 0 ops

/-- **C125.** At all times the reports contain a first part of what was recorded, each event once and in order. -/
theorem C125_once (freq : Nat) (ops : List (FinalOp β)) (s : FinalSt β) (h : FinalSt.new.run freq ops = some s) :
    reportedEvents s <+: recordedIn 0 ops := by
  have := (finalInv_run freq ops (finalInv_new freq) h).events
  exact ⟨s.buf, by simpa [FinalSt.new] using this⟩

/-- **C125, partial.** After Stop everything recorded is in the reports, except possibly events of the time since the last
periodic report, if that is less than half of the frequency. -/
theorem C125_tail_partial (freq : Nat) (ops : List (FinalOp β)) (s : FinalSt β) (b : Bool)
    (h : FinalSt.new.run freq ops = some s) (hs : s.stopped = some b) :
    ∃ tail, recordedIn 0 ops = reportedEvents s ++ tail ∧
      (tail ≠ [] → ∃ last stop, stop ≤ s.now ∧ stop - last < freq / 2 ∧ ∀ e ∈ tail, last ≤ e.1 ∧ e.1 ≤ stop) := by
  have hi := finalInv_run freq ops (finalInv_new freq) h
  refine ⟨s.buf, by simpa [FinalSt.new] using hi.events.symm, ?_⟩
  intro hn
  obtain ⟨_, t, st, _, h2, h3, h4⟩ := hi.stopped b hs hn
  exact ⟨t, st, h2, h4, h3⟩

/-- **C125.** Without periodic reports (`freq` 0) everything recorded is in the report at the end. -/
theorem C125_no_freq : AllReported β 0 := by
  intro ops s b h hs
  have hi := finalInv_run 0 ops (finalInv_new 0) h
  have hb : s.buf = [] := by
    by_contra hn
    exact (hi.stopped b hs hn).1 rfl
  have := hi.events
  rw [hb, List.append_nil] at this
  simpa [FinalSt.new] using this

/-- **C125, negation.** With any frequency of at least 4 (nanoseconds), there are runs of a stage whose last events are in no report,
though Stop says that everything was reported. -/
theorem C125_all_false (e : β) (freq : Nat) (hf : 4 ≤ freq) : ¬ AllReported β freq := by
  intro hA
  have hr : recentReport freq (some freq) (freq + 1) = true := by simp [recentReport]; omega
  have hf0 : freq ≠ 0 := by omega
  obtain ⟨s, hs, hst, hrep⟩ : ∃ s : FinalSt β, FinalSt.new.run freq [.wait freq, .tick, .wait 1, .record e, .stop] = some s ∧
      s.stopped = some true ∧ reportedEvents s = [] := by
    simp [FinalSt.run, FinalSt.step, FinalSt.new, Coll.new, Coll.collect, Coll.push, Coll.report, hf0, stopBegin, hr,
      reportedEvents, Inst.view]
  have := hA _ s true hs hst
  rw [hrep] at this
  simp [recordedIn] at this

/-- **C125, negation, several instances.** If the last report is recent when the server stops its collector, the statistics of
a further interval that another instance collected at its own end are in no report, whether they arrive before or
after. -/
theorem C125_remote_false {α : Type} (c : Coll α) (hn : 2 ≤ c.nInstances) (hp : c.pending = []) (v x : α) (host : Nat) :
    (∃ s c', stopBegin c false true v = .ok s ∧ s.ret = some true ∧
      s.coll.recv ⟨host, c.intervalNo, some x⟩ = .ok c' ∧ c'.reports = c.reports) ∧
    ∃ c' s, c.recv ⟨host, c.intervalNo, some x⟩ = .ok c' ∧ stopBegin c' false true v = .ok s ∧ s.ret = some true ∧
      s.coll.reports = c.reports := by
  have h1 : 0 < c.nInstances := by omega
  have h2 : 1 < c.nInstances := by omega
  constructor <;>
    simp [stopBegin, Coll.recv, Coll.push, Coll.report, hp, h1, h2]

example : (Coll.new 2 (0 : Nat)).nInstances = 2 ∧ (Coll.new 2 (0 : Nat)).pending = [] := ⟨rfl, rfl⟩

/-- A run of 7.4 s with a frequency of 5 s: what is recorded at 7 s is in no report. -/
example : ((FinalSt.new : FinalSt Nat).run 5000 [.wait 100, .record 1, .wait 4900, .tick, .wait 2000, .record 2, .wait 400, .stop]).map
    (fun s => (reportedEvents s, s.stopped)) = some ([(100, 1)], some true) := by decide +kernel
/-- A run of 7.5 s: it is in the last report. -/
example : ((FinalSt.new : FinalSt Nat).run 5000 [.wait 100, .record 1, .wait 4900, .tick, .wait 2000, .record 2, .wait 500, .stop]).map
    (fun s => (reportedEvents s, s.stopped)) = some ([(100, 1), (7000, 2)], some true) := by decide +kernel

end Finch
