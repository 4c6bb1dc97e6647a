import Verif.Model.Collector
import Verif.Props.Stats
import Mathlib.Data.List.Basic
import Mathlib.Algebra.BigOperators.Group.List.Basic
/-!
C29 (ranges and interval numbers), C30 (contents of reports), C31 (Stop), C69 (empty reports).
-/
namespace Finch
variable {α : Type}

/-! ## C29 -/

theorem report_false_lt {c : Coll α} (h : c.pending.length < c.nInstances) : c.report false = (c, false) := by
  simp [Coll.report, h]

theorem report_n (c : Coll α) (f : Bool) : (c.report f).1.nInstances = c.nInstances := by
  unfold Coll.report; split <;> rfl

theorem report_pending {c : Coll α} (f : Bool) (hn : 0 < c.nInstances) :
    (c.report f).1.pending.length < c.nInstances := by
  unfold Coll.report
  split
  · rename_i h; exact h.2
  · exact hn

theorem push_ok {c : Coll α} (i : Inst α) (h : c.pending.length < c.nInstances) :
    c.push i = .ok { c with pending := c.pending ++ [i] } := by simp [Coll.push, h]

theorem collect_ok {c : Coll α} (v : α) (h : c.pending.length < c.nInstances) :
    c.collect v = .ok (Coll.report
      { c with
        localInterval := c.localInterval + 1, localStats := v
        pending := c.pending ++ [⟨0, c.localInterval + 1, none⟩] } false) := by
  simp [Coll.collect, Coll.push, h]

theorem recv_ok {c : Coll α} (i : Inst α) (hn : 2 ≤ c.nInstances) (h : c.pending.length < c.nInstances) :
    ∃ c', c.recv i = .ok c' ∧ c'.nInstances = c.nInstances ∧ c'.pending.length < c.nInstances := by
  unfold Coll.recv
  split
  · exact ⟨c, rfl, rfl, h⟩
  · split
    · refine ⟨_, push_ok _ ?_, ?_, ?_⟩
      · simp only [List.length_nil, report_n]; omega
      · simp [report_n]
      · simp; omega
    · rw [push_ok _ h]
      refine ⟨_, rfl, by simp [report_n], ?_⟩
      exact report_pending (c := { c with pending := c.pending ++ [i] }) false (show 0 < c.nInstances by omega)

theorem step_ok {c : Coll α} (op : CollOp α) (hn : 2 ≤ c.nInstances) (h : c.pending.length < c.nInstances) :
    ∃ c', c.step op = .ok c' ∧ c'.nInstances = c.nInstances ∧ c'.pending.length < c.nInstances := by
  cases op with
  | collect v =>
    simp only [Coll.step, collect_ok v h]
    exact ⟨_, rfl, by simp [report_n], report_pending (c := { c with
        localInterval := c.localInterval + 1, localStats := v
        pending := c.pending ++ [⟨0, c.localInterval + 1, none⟩] }) false (show 0 < c.nInstances by omega)⟩
  | recv host k v => exact recv_ok _ hn h
  | report f => exact ⟨_, rfl, report_n _ _, report_pending _ (by omega)⟩

theorem run_ok {c : Coll α} (ops : List (CollOp α)) (hn : 2 ≤ c.nInstances)
    (h : c.pending.length < c.nInstances) :
    ∃ c', c.run ops = .ok c' ∧ c'.nInstances = c.nInstances ∧ c'.pending.length < c.nInstances := by
  induction ops generalizing c with
  | nil => exact ⟨c, rfl, rfl, h⟩
  | cons op ops ih =>
    obtain ⟨c1, h1, h2, h3⟩ := step_ok op hn h
    obtain ⟨c2, h4, h5, h6⟩ := ih (c := c1) (by omega) (by omega)
    exact ⟨c2, by simp [Coll.run, h1, h4], by omega, by omega⟩

/-- **C29** (two instances or more). Whatever is collected, received and reported in whatever order
and with whatever interval numbers, nothing is written out of range, and between operations fewer
than `n` statistics are pending. Missing: a single instance with received statistics, for which it
is false (`C29_single_remote_false`). -/
theorem C29_in_range_partial (n : Nat) (hn : 2 ≤ n) (zero : α) (ops : List (CollOp α)) :
    ∃ c, (Coll.new n zero).run ops = .ok c ∧ c.pending.length < n := by
  obtain ⟨c, h1, _, h3⟩ := run_ok (c := Coll.new n zero) ops hn (by simp [Coll.new]; omega)
  exact ⟨c, h1, h3⟩

/-- An operation that is not the receipt of remote statistics. -/
def CollOp.isLocal : CollOp α → Prop
  | .recv .. => False
  | _ => True

/-- **C29** (one local instance, no remotes). The same. -/
theorem C29_in_range_local (n : Nat) (hn : 1 ≤ n) (zero : α) (ops : List (CollOp α))
    (hl : ∀ op ∈ ops, op.isLocal) :
    ∃ c, (Coll.new n zero).run ops = .ok c ∧ c.pending.length < n := by
  suffices H : ∀ (ops : List (CollOp α)) (c : Coll α), (∀ op ∈ ops, op.isLocal) → 1 ≤ c.nInstances →
      c.pending.length < c.nInstances →
      ∃ c', c.run ops = .ok c' ∧ c'.nInstances = c.nInstances ∧ c'.pending.length < c.nInstances by
    obtain ⟨c, h1, _, h3⟩ := H ops (Coll.new n zero) hl hn (by simp [Coll.new]; omega)
    exact ⟨c, h1, h3⟩
  intro ops
  induction ops with
  | nil => intro c _ _ h; exact ⟨c, rfl, rfl, h⟩
  | cons op ops ih =>
    intro c hl hn h
    have hl' : ∀ op ∈ ops, op.isLocal := fun o ho => hl o (by simp [ho])
    have hop := hl op (by simp)
    have : ∃ c', c.step op = .ok c' ∧ c'.nInstances = c.nInstances ∧ c'.pending.length < c.nInstances := by
      cases op with
      | collect v =>
        simp only [Coll.step, collect_ok v h]
        exact ⟨_, rfl, by simp [report_n], report_pending (c := { c with
            localInterval := c.localInterval + 1, localStats := v
            pending := c.pending ++ [⟨0, c.localInterval + 1, none⟩] }) false (show 0 < c.nInstances by omega)⟩
      | recv host k v => exact absurd hop id
      | report f => exact ⟨_, rfl, report_n _ _, report_pending _ (by omega)⟩
    obtain ⟨c1, h1, h2, h3⟩ := this
    obtain ⟨c2, h4, h5, h6⟩ := ih c1 hl' (by omega) (by omega)
    exact ⟨c2, by simp [Coll.run, h1, h4], by omega, by omega⟩

/-- **C29 is false for a single remote instance** (one instance, local disabled): if its statistics
of interval 1 are lost, those of interval 2 leave the only slot occupied, and the next ones are
written out of range. -/
theorem C29_single_remote_false : ¬ ∀ (n : Nat), 1 ≤ n → ∀ (ops : List (CollOp Nat)),
    ∃ c, (Coll.new n 0).run ops = .ok c ∧ c.pending.length < n := by
  intro h
  obtain ⟨c, h1, _⟩ := h 1 (by omega) [.recv 1 2 7, .recv 1 2 8]
  simp [Coll.run, Coll.step, Coll.recv, Coll.new, Coll.report, Coll.push] at h1

theorem numbers_step {c c' : Coll α} (op : CollOp α) (h : c.step op = .ok c')
    (hi : c.reports.map (·.no) = List.range' 1 c.reports.length ∧ c.intervalNo = c.reports.length + 1) :
    c'.reports.map (·.no) = List.range' 1 c'.reports.length ∧ c'.intervalNo = c'.reports.length + 1 := by
  have hrep : ∀ (c : Coll α) (f : Bool),
      (c.reports.map (·.no) = List.range' 1 c.reports.length ∧ c.intervalNo = c.reports.length + 1) →
      ((c.report f).1.reports.map (·.no) = List.range' 1 (c.report f).1.reports.length ∧
        (c.report f).1.intervalNo = (c.report f).1.reports.length + 1) := by
    intro c f hi
    unfold Coll.report
    split
    · exact hi
    · refine ⟨?_, by simp [hi.2]⟩
      simp only [List.map_append, hi.1, List.map_cons, List.map_nil, List.length_append,
        List.length_singleton, hi.2]
      rw [List.range'_1_concat, Nat.add_comm]
  have hpush : ∀ (c c' : Coll α) (i : Inst α), c.push i = .ok c' →
      c'.reports = c.reports ∧ c'.intervalNo = c.intervalNo := by
    intro c c' i h
    unfold Coll.push at h
    split at h
    · simp only [Res.ok.injEq] at h; subst h; exact ⟨rfl, rfl⟩
    · cases h
  cases op with
  | report f => simp only [Coll.step, Res.ok.injEq] at h; subst h; exact hrep c f hi
  | collect v =>
    simp only [Coll.step, Coll.collect] at h
    split at h
    · rename_i r hr
      split at hr
      · rename_i c2 hc2
        simp only [Res.ok.injEq] at hr h
        subst hr h
        obtain ⟨e1, e2⟩ := hpush _ _ _ hc2
        exact hrep _ _ (by rw [e1, e2]; exact hi)
      · cases hr
    · cases h
  | recv host k v =>
    simp only [Coll.step, Coll.recv] at h
    split at h
    · simp only [Res.ok.injEq] at h; subst h; exact hi
    · split at h
      · obtain ⟨e1, e2⟩ := hpush _ _ _ h
        rw [e1, e2]
        exact hrep c true hi
      · split at h
        · rename_i c2 hc2
          simp only [Res.ok.injEq] at h
          subst h
          obtain ⟨e1, e2⟩ := hpush _ _ _ hc2
          exact hrep _ _ (by rw [e1, e2]; exact hi)
        · cases h

/-- **C29.** In every execution, the reports are numbered 1, 2, 3, … without gap or repetition. -/
theorem C29_interval_numbers (n : Nat) (zero : α) (ops : List (CollOp α)) (c : Coll α)
    (h : (Coll.new n zero).run ops = .ok c) :
    c.reports.map (·.no) = List.range' 1 c.reports.length ∧ c.intervalNo = c.reports.length + 1 := by
  suffices H : ∀ (ops : List (CollOp α)) (c0 : Coll α), c0.run ops = .ok c →
      (c0.reports.map (·.no) = List.range' 1 c0.reports.length ∧ c0.intervalNo = c0.reports.length + 1) →
      c.reports.map (·.no) = List.range' 1 c.reports.length ∧ c.intervalNo = c.reports.length + 1 from
    H ops _ h ⟨rfl, rfl⟩
  intro ops
  induction ops with
  | nil => intro c0 h hi; simp only [Coll.run, Res.ok.injEq] at h; subst h; exact hi
  | cons op ops ih =>
    intro c0 h hi
    simp only [Coll.run] at h
    split at h
    · rename_i c1 h1; exact ih c1 h (numbers_step op h1 hi)
    · cases h

/-! ## C30 -/

/-- One interval's deliveries: `ops` holds, in any order, one delivery for each host of `hosts`, all
for interval `k`; host 0 is the local instance, whose delivery is a collection. -/
structure IsRound (hosts : List Nat) (k : Nat) (ops : List (CollOp α)) : Prop where
  kind : ∀ op ∈ ops, match op with
    | .collect _ => True
    | .recv h i _ => h ≠ 0 ∧ i = k
    | .report _ => False
  perm : (ops.map fun op => match op with
    | .recv h _ _ => h
    | _ => 0).Perm hosts

/-- What a delivery of interval `k` must look like in the report. -/
def CollOp.delivered (k : Nat) : CollOp α → List (InstView α)
  | .collect v => [⟨0, k, v⟩]
  | .recv h _ v => [⟨h, k, v⟩]
  | .report _ => []

/-- Number of collections. -/
def collects (ops : List (CollOp α)) : Nat := ops.countP fun op => match op with
  | .collect _ => true
  | _ => false

theorem round_run (n k : Nat) (l : List (CollOp α)) (c : Coll α) (hc : c.nInstances = n)
    (hk : c.intervalNo = k) (hlen : c.pending.length + l.length = n) (hne : l ≠ [])
    (hkind : ∀ op ∈ l, match op with
      | .collect _ => True
      | .recv h i _ => h ≠ 0 ∧ i = k
      | .report _ => False)
    (hcol : collects l ≤ 1) (hloc : collects l = 1 → c.localInterval + 1 = k ∧
      ∀ i ∈ c.pending, i.stats ≠ none) :
    ∃ c', c.run l = .ok c' ∧ c'.nInstances = n ∧ c'.intervalNo = k + 1 ∧ c'.pending = [] ∧
      c'.localInterval = c.localInterval + collects l ∧
      c'.reports = c.reports ++
        [⟨k, false, c.pending.map (Inst.view c.localStats) ++ (l.map (CollOp.delivered k)).flatten⟩] := by
  induction l generalizing c with
  | nil => exact absurd rfl hne
  | cons op l ih =>
    have hlt : c.pending.length < c.nInstances := by simp at hlen; omega
    have hk1 := hkind op (by simp)
    have hk2 : ∀ op ∈ l, _ := fun o ho => hkind o (List.mem_cons_of_mem _ ho)
    cases op with
    | report f => exact absurd hk1 id
    | recv host i v =>
      obtain ⟨hh, hi⟩ := hk1
      have hcl : collects (CollOp.recv host i v :: l) = collects l := by simp [collects]
      rw [hcl] at hcol hloc ⊢
      have hstep : c.step (.recv host i v) = .ok
          (Coll.report { c with pending := c.pending ++ [⟨host, i, some v⟩] } false).1 := by
        simp only [Coll.step, Coll.recv]
        rw [if_neg (by omega), if_neg (by omega), push_ok _ hlt]
      by_cases hl : l = []
      · subst hl
        have hfull : ¬ (c.pending.length + 1 < n) := by simp at hlen; omega
        refine ⟨_, by simp only [Coll.run, hstep]; rfl, ?_⟩
        simp [Coll.report, hfull, hc, hk, collects, CollOp.delivered, Inst.view, hi]
      · have hpos : 0 < l.length := List.length_pos_iff.2 hl
        have hnf : c.pending.length + 1 < c.nInstances := by simp at hlen; omega
        have hst2 : c.step (.recv host i v) = .ok { c with pending := c.pending ++ [⟨host, i, some v⟩] } := by
          rw [hstep, report_false_lt]; simpa using hnf
        obtain ⟨c', h1, h2, h3, h4, h5, h6⟩ := ih { c with pending := c.pending ++ [⟨host, i, some v⟩] }
          hc hk (by simp at hlen ⊢; omega) hl hk2 hcol (fun h => by
            obtain ⟨a, b⟩ := hloc h
            refine ⟨a, fun j hj => ?_⟩
            rcases List.mem_append.1 hj with hj | hj
            · exact b j hj
            · simp only [List.mem_singleton] at hj; subst hj; simp)
        refine ⟨c', by simp only [Coll.run, hst2, h1], h2, h3, h4, h5, ?_⟩
        rw [h6]
        simp [CollOp.delivered, Inst.view, hi]
    | collect v =>
      have hcl : collects (CollOp.collect v :: l) = collects l + 1 := by simp [collects]
      rw [hcl] at hcol hloc ⊢
      have hl0 : collects l = 0 := by omega
      obtain ⟨hli, hpn⟩ := hloc (by omega)
      have hview : ∀ (a b : α), ∀ j ∈ c.pending, j.stats.getD a = j.stats.getD b := by
        intro a b j hj
        obtain ⟨h', i', s⟩ := j
        cases s with
        | none => exact absurd rfl (hpn _ hj)
        | some s => rfl
      have hstep : c.step (.collect v) = .ok
          (Coll.report { c with
            localInterval := c.localInterval + 1, localStats := v
            pending := c.pending ++ [⟨0, c.localInterval + 1, none⟩] } false).1 := by
        simp only [Coll.step, collect_ok v hlt]
      by_cases hl : l = []
      · subst hl
        have hfull : ¬ (c.pending.length + 1 < n) := by simp at hlen; omega
        refine ⟨_, by simp only [Coll.run, hstep]; rfl, ?_⟩
        simp [Coll.report, hfull, hc, hk, collects, CollOp.delivered, Inst.view, hli]
        exact hview v c.localStats
      · have hpos : 0 < l.length := List.length_pos_iff.2 hl
        have hnf : c.pending.length + 1 < c.nInstances := by simp at hlen; omega
        have hst2 : c.step (.collect v) = .ok { c with
            localInterval := c.localInterval + 1, localStats := v
            pending := c.pending ++ [⟨0, c.localInterval + 1, none⟩] } := by
          rw [hstep, report_false_lt]; simpa using hnf
        obtain ⟨c', h1, h2, h3, h4, h5, h6⟩ := ih { c with
            localInterval := c.localInterval + 1, localStats := v
            pending := c.pending ++ [⟨0, c.localInterval + 1, none⟩] }
          hc hk (by simp at hlen ⊢; omega) hl hk2 (by omega) (fun h => by omega)
        refine ⟨c', by simp only [Coll.run, hst2, h1], h2, h3, h4, ?_, ?_⟩
        · rw [h5, hl0]
        · rw [h6]
          simp [CollOp.delivered, Inst.view, hli]
          exact hview v c.localStats

theorem coll_run_append (c : Coll α) (a b : List (CollOp α)) :
    c.run (a ++ b) = match c.run a with
      | .ok c => c.run b
      | .panic => .panic := by
  induction a generalizing c with
  | nil => rfl
  | cons op a ih =>
    simp only [List.cons_append, Coll.run]
    cases c.step op with
    | ok c => exact ih c
    | panic => rfl

theorem round_collects {hosts : List Nat} {k : Nat} {ops : List (CollOp α)} (h : IsRound hosts k ops) :
    collects ops = hosts.count 0 := by
  rw [← h.perm.count_eq]
  have := h.kind
  clear h
  induction ops with
  | nil => rfl
  | cons op ops ih =>
    have ih := ih fun o ho => this o (List.mem_cons_of_mem _ ho)
    have ho := this op (by simp)
    cases op with
    | collect v => simp [collects] at ih ⊢; exact ih
    | recv host i v => simp [collects, ho.1] at ih ⊢; exact ih
    | report f => exact absurd ho id

/-- **C30** (intervals that do not overlap). Let each of any number of intervals deliver, in any
order, one statistic from each instance, with no delivery before those of the previous interval are
complete. Then there is one report per interval, and it contains exactly the statistics delivered
for that interval: one per instance. Missing: overlapping, lost or repeated deliveries, for which it
is false (`C30_late_remote_false`). -/
theorem C30_reports_partial (hosts : List Nat) (hh : hosts.Nodup) (hne : hosts ≠ []) (zero : α)
    (rounds : List (List (CollOp α)))
    (h : ∀ k l, rounds[k]? = some l → IsRound hosts (k + 1) l) :
    ∃ c, (Coll.new hosts.length zero).run rounds.flatten = .ok c ∧ c.pending = [] ∧
      c.reports = rounds.mapIdx fun k l =>
        ⟨k + 1, false, (l.map (CollOp.delivered (k + 1))).flatten⟩ := by
  suffices H : ∃ c, (Coll.new hosts.length zero).run rounds.flatten = .ok c ∧ c.pending = [] ∧
      c.nInstances = hosts.length ∧ c.intervalNo = rounds.length + 1 ∧
      (hosts.count 0 = 1 → c.localInterval = rounds.length) ∧
      c.reports = rounds.mapIdx fun k l =>
        ⟨k + 1, false, (l.map (CollOp.delivered (k + 1))).flatten⟩ by
    obtain ⟨c, h1, h2, _, _, _, h3⟩ := H
    exact ⟨c, h1, h2, h3⟩
  induction rounds using List.reverseRecOn with
  | nil => exact ⟨_, rfl, rfl, rfl, rfl, fun _ => rfl, rfl⟩
  | append_singleton rounds l ih =>
    obtain ⟨c, h1, h2, h3, h4, h5, h6⟩ := ih fun k l' hl => h k l' (by
      rw [List.getElem?_append_left]
      · exact hl
      · exact (List.getElem?_eq_some_iff.1 hl).1)
    have hr := h rounds.length l (by simp)
    have hlen : l.length = hosts.length := by simpa using hr.perm.length_eq
    have hcount : hosts.count 0 ≤ 1 := List.nodup_iff_count_le_one.1 hh 0
    have hcol := round_collects hr
    obtain ⟨c', g1, g2, g3, g4, g5, g6⟩ := round_run hosts.length (rounds.length + 1) l c h3 h4
      (by simp [h2, hlen]) (by
        rintro rfl
        simp at hlen; exact hne (List.length_eq_zero_iff.1 hlen.symm))
      hr.kind (by omega) (fun hc => ⟨by rw [h5 (by omega)], by simp [h2]⟩)
    refine ⟨c', ?_, g4, g2, by simp [g3], ?_, ?_⟩
    · rw [List.flatten_append, coll_run_append, h1]
      simpa using g1
    · intro h0
      rw [g5, hcol, h0, h5 h0]; simp
    · rw [g6, h6, h2]
      simp [List.mapIdx_append]

/-- Local instance 0 and two remotes; the order of arrival differs between the intervals. -/
example : ∀ (k : Nat) (l : List (CollOp Nat)),
    [[CollOp.recv 2 1 20, .collect 10, .recv 1 1 30], [.collect 11, .recv 1 2 31, .recv 2 2 21]][k]? = some l →
    IsRound [0, 1, 2] (k + 1) l := by
  intro k l hl
  match k, hl with
  | 0, hl =>
    simp at hl; subst hl
    refine ⟨by simp, ?_⟩
    decide
  | 1, hl =>
    simp at hl; subst hl
    refine ⟨by simp, ?_⟩
    decide
  | k + 2, hl => simp at hl

/-- **C30 is false** if a remote instance is one interval late: two local collections complete the
interval, the report contains the local instance twice and the remote not at all, and both entries
show the statistics of the second interval, so those of the first are lost. -/
theorem C30_late_remote_false (v1 v2 zero : α) :
    (Coll.new 2 zero).run [.collect v1, .collect v2] =
      .ok ⟨2, 2, [], 2, v2, [⟨1, false, [⟨0, 1, v2⟩, ⟨0, 2, v2⟩]⟩]⟩ := by
  simp [Coll.run, Coll.step, Coll.collect, Coll.new, Coll.report, Coll.push, Inst.view]

/-- **C30 is false** if statistics are delivered twice (a remote repeats a request whose response it
did not get): the repeated one takes the place of another instance. -/
theorem C30_repeated_delivery_false (v zero : α) :
    (Coll.new 2 zero).run [.recv 1 1 v, .recv 1 1 v] =
      .ok ⟨2, 2, [], 0, zero, [⟨1, false, [⟨1, 1, v⟩, ⟨1, 1, v⟩]⟩]⟩ := by
  simp [Coll.run, Coll.step, Coll.recv, Coll.new, Coll.report, Coll.push, Inst.view]

/-- **C30.** Statistics for a past interval change nothing. -/
theorem C30_past_is_dropped (c : Coll α) (host k : Nat) (v : α) (h : k < c.intervalNo) :
    c.step (.recv host k v) = .ok c := by
  simp [Coll.step, Coll.recv, h]

example : ∃ c : Coll Nat, (Coll.new 2 0).run [.collect 5, .recv 1 1 6, .collect 7] = .ok c ∧
    c.intervalNo = 2 ∧ c.pending.length = 1 := ⟨_, rfl, rfl, rfl⟩

/-- In every report, remote statistics are of the reported interval or a later one. -/
def NotPast (c : Coll α) : Prop :=
  (∀ r ∈ c.reports, ∀ i ∈ r.from', i.host ≠ 0 → r.no ≤ i.interval) ∧
    ∀ i ∈ c.pending, i.host ≠ 0 → c.intervalNo ≤ i.interval

theorem notPast_report {c : Coll α} (h : NotPast c) (f : Bool) : NotPast (c.report f).1 := by
  unfold Coll.report
  split
  · exact h
  · refine ⟨?_, by simp⟩
    intro r hr i hi h0
    rcases List.mem_append.1 hr with hr | hr
    · exact h.1 r hr i hi h0
    · simp only [List.mem_singleton] at hr
      subst hr
      simp only [List.mem_map] at hi
      obtain ⟨j, hj, rfl⟩ := hi
      exact h.2 j hj h0

theorem notPast_push {c c' : Coll α} (h : NotPast c) (i : Inst α) (hi : i.host ≠ 0 → c.intervalNo ≤ i.interval)
    (hp : c.push i = .ok c') : NotPast c' := by
  unfold Coll.push at hp
  split at hp
  · simp only [Res.ok.injEq] at hp
    subst hp
    refine ⟨h.1, fun j hj h0 => ?_⟩
    rcases List.mem_append.1 hj with hj | hj
    · exact h.2 j hj h0
    · simp only [List.mem_singleton] at hj; subst hj; exact hi h0
  · cases hp

/-- **C30.** In every execution, no report contains remote statistics of an interval before the
reported one. -/
theorem C30_no_past_statistics (n : Nat) (zero : α) (ops : List (CollOp α)) (c : Coll α)
    (h : (Coll.new n zero).run ops = .ok c) :
    ∀ r ∈ c.reports, ∀ i ∈ r.from', i.host ≠ 0 → r.no ≤ i.interval := by
  suffices H : ∀ (ops : List (CollOp α)) (c0 : Coll α), NotPast c0 → c0.run ops = .ok c → NotPast c from
    (H ops _ ⟨by simp [Coll.new], by simp [Coll.new]⟩ h).1
  intro ops
  induction ops with
  | nil => intro c0 h0 h; simp only [Coll.run, Res.ok.injEq] at h; subst h; exact h0
  | cons op ops ih =>
    intro c0 h0 h
    simp only [Coll.run] at h
    split at h
    · rename_i c1 h1
      refine ih c1 ?_ h
      cases op with
      | report f => simp only [Coll.step, Res.ok.injEq] at h1; subst h1; exact notPast_report h0 f
      | collect v =>
        simp only [Coll.step, Coll.collect] at h1
        split at h1
        · rename_i r hr
          split at hr
          · rename_i c2 hc2
            simp only [Res.ok.injEq] at hr h1
            subst hr h1
            exact notPast_report (notPast_push (c := { c0 with
              localInterval := c0.localInterval + 1, localStats := v }) h0 _ (fun hc => absurd rfl hc) hc2) _
          · cases hr
        · cases h1
      | recv host k v =>
        simp only [Coll.step, Coll.recv] at h1
        split at h1
        · simp only [Res.ok.injEq] at h1; subst h1; exact h0
        · split at h1
          · rename_i _ hgt
            refine notPast_push (c := { (c0.report true).1 with pending := [] })
              ⟨(notPast_report h0 true).1, by simp⟩ _ (fun _ => ?_) h1
            simp only [Coll.report]
            simp only [Bool.true_eq_false, false_and, if_false]
            omega
          · rename_i hle hge
            split at h1
            · rename_i c2 hc2
              simp only [Res.ok.injEq] at h1
              subst h1
              exact notPast_report (notPast_push h0 _ (fun _ => by simp only; omega) hc2) _
            · cases h1
    · cases h

/-! ## C31 -/

/-- **C31 is false**: Stop always returns true, so it never tells that statistics were incomplete. -/
theorem C31_stop_always_returns_true (c : Coll α) (freq0 recent : Bool) (v : α) (s s' : Stopping α)
    (evs : List (StopEv α)) (hb : stopBegin c freq0 recent v = .ok s) (hr : s.run evs = .ok s')
    (r : Bool) (h : s'.ret = some r) : r = true := by
  have h0 : ∀ r, s.ret = some r → r = true := by
    intro r hr
    unfold stopBegin at hb
    split at hb
    · split at hb
      · simp only [Res.ok.injEq] at hb; subst hb
        simp only at hr; split at hr <;> simp_all
      · cases hb
    · split at hb
      · simp only [Res.ok.injEq] at hb; subst hb; simpa using hr.symm
      · split at hb
        · simp only [Res.ok.injEq] at hb; subst hb
          simp only at hr; split at hr <;> simp_all
        · cases hb
  clear hb
  induction evs generalizing s with
  | nil => simp only [Stopping.run, Res.ok.injEq] at hr; subst hr; exact h0 r h
  | cons e evs ih =>
    simp only [Stopping.run] at hr
    split at hr
    · rename_i s1 h1
      refine ih s1 hr fun r hr1 => ?_
      cases e with
      | tick =>
        simp only [Stopping.step] at h1
        split at h1
        · simp only [Res.ok.injEq] at h1; subst h1; exact h0 r hr1
        · simp only [Res.ok.injEq] at h1; subst h1
          simp only at hr1; split at hr1 <;> simp_all
      | timeout =>
        simp only [Stopping.step] at h1
        split at h1
        · simp only [Res.ok.injEq] at h1; subst h1; exact h0 r hr1
        · simp only [Res.ok.injEq] at h1; subst h1
          simp only [Coll.report, Bool.true_eq_false, false_and, if_false] at hr1
          simpa using hr1.symm
      | recv host k v =>
        simp only [Stopping.step] at h1
        split at h1
        · simp only [Res.ok.injEq] at h1; subst h1; exact h0 r hr1
        · cases h1
    · cases hr

/-- **C31 is false**: with two instances, one of which never reports, Stop returns true after its
timeout with a report of one instance. -/
theorem C31_incomplete_but_true (v zero : α) :
    ∃ s s' : Stopping α, stopBegin (Coll.new 2 zero) true false v = .ok s ∧
      s.run [.tick, .timeout] = .ok s' ∧ s'.ret = some true ∧
      s'.coll.reports = [⟨1, true, [⟨0, 1, v⟩]⟩] := by
  refine ⟨⟨⟨2, 1, [⟨0, 1, none⟩], 1, v, []⟩, none⟩, _, ?_, rfl, ?_, ?_⟩ <;>
    simp [stopBegin, Coll.new, Coll.collect, Coll.push, Coll.report, Inst.view]

/-- **C31** (waiting). With two instances or more, once Stop waits nothing but the timeout ends it:
not even the arrival of all statistics. -/
theorem C31_waits_for_timeout (s s' : Stopping α) (evs : List (StopEv α)) (hn : 2 ≤ s.coll.nInstances)
    (hp : s.coll.pending.length < s.coll.nInstances) (hw : s.ret = none) (ht : StopEv.timeout ∉ evs)
    (h : s.run evs = .ok s') : s'.ret = none := by
  induction evs generalizing s with
  | nil => simp only [Stopping.run, Res.ok.injEq] at h; subst h; exact hw
  | cons e evs ih =>
    have ht' : StopEv.timeout ∉ evs := fun hm => ht (by simp [hm])
    simp only [Stopping.run] at h
    cases e with
    | timeout => simp at ht
    | tick =>
      simp only [Stopping.step, hw, report_false_lt hp] at h
      exact ih ⟨s.coll, none⟩ hn hp rfl ht' (by simpa using h)
    | recv host k v =>
      obtain ⟨c', h1, h2, h3⟩ := recv_ok (c := s.coll) ⟨host, k, some v⟩ hn hp
      simp only [Stopping.step, h1] at h
      exact ih { s with coll := c' } (show 2 ≤ c'.nInstances by omega)
        (show c'.pending.length < c'.nInstances by omega) hw ht' h

/-- **C31** (an early return). If Stop returns before its timeout and the last report was not
recent, the last report is a complete one. Missing: that Stop returns early whenever all statistics
have arrived (`C31_waits_for_timeout`), and that it returns false otherwise
(`C31_stop_always_returns_true`). -/
theorem C31_early_return_is_complete_partial (c : Coll α) (freq0 : Bool) (v : α) (s s' : Stopping α)
    (evs : List (StopEv α)) (hn : 2 ≤ c.nInstances) (hp : c.pending.length < c.nInstances)
    (ht : StopEv.timeout ∉ evs) (hb : stopBegin c freq0 false v = .ok s) (hr : s.run evs = .ok s')
    (hret : s'.ret = some true) :
    ∃ r, s.coll.reports.getLast? = some r ∧ r.forced = false ∧ r.from'.length = c.nInstances := by
  have hs : s.ret = none ∨ s.ret = some true := by
    unfold stopBegin at hb
    split at hb
    · split at hb
      · simp only [Res.ok.injEq] at hb; subst hb; simp only; split <;> simp
      · cases hb
    · simp only [Bool.false_eq_true, if_false] at hb
      split at hb
      · simp only [Res.ok.injEq] at hb; subst hb; simp only; split <;> simp
      · cases hb
  have hcol : ∃ r, c.collect v = .ok r ∧ s.coll = r.1 ∧ s.ret = if r.2 then some true else none := by
    unfold stopBegin at hb
    split at hb
    · split at hb
      · rename_i r h; simp only [Res.ok.injEq] at hb; subst hb; exact ⟨_, h, rfl, by simp⟩
      · cases hb
    · simp only [Bool.false_eq_true, if_false] at hb
      split at hb
      · rename_i r h; simp only [Res.ok.injEq] at hb; subst hb; exact ⟨_, h, rfl, by simp⟩
      · cases hb
  obtain ⟨r, hc, hsc, hsr⟩ := hcol
  rw [collect_ok v hp] at hc
  simp only [Res.ok.injEq] at hc
  by_cases hfull : c.pending.length + 1 < c.nInstances
  · rw [report_false_lt (by simpa using hfull)] at hc
    subst hc
    have := C31_waits_for_timeout s s' evs (by rw [hsc]; exact hn) (by rw [hsc]; simpa using hfull)
      (by simpa using hsr) ht hr
    rw [this] at hret; cases hret
  · subst hc
    rw [hsc]
    refine ⟨⟨c.intervalNo, false, (c.pending ++ [(⟨0, c.localInterval + 1, none⟩ : Inst α)]).map (Inst.view v)⟩,
      ?_, rfl, ?_⟩
    · simp [Coll.report, hfull]
    · simp; omega

example : let c : Coll Nat := ⟨2, 3, [⟨1, 3, some 9⟩], 2, 0, []⟩
    2 ≤ c.nInstances ∧ c.pending.length < c.nInstances ∧
      ∃ s, stopBegin c false false 4 = .ok s ∧ s.ret = some true := ⟨by decide, by decide, _, rfl, rfl⟩

/-! ## C69 -/

/-- **C69** (reports that are not forced). A report that was not forced has the statistics of
exactly `n` deliveries, so reporters get at least one. Missing: forced reports, for which it is
false (`C69_stop_reports_nothing_false`). -/
theorem C69_complete_reports_nonempty_partial (c c' : Coll α) (hn : 1 ≤ c.nInstances)
    (hp : c.pending.length ≤ c.nInstances) (h : c.report false = (c', true)) :
    ∃ r, c'.reports = c.reports ++ [r] ∧ r.from'.length = c.nInstances ∧ r.from' ≠ [] := by
  unfold Coll.report at h
  split at h
  · simp at h
  · rename_i hc
    simp only [Prod.mk.injEq, and_true] at h
    subst h
    have : c.pending.length = c.nInstances := by simp at hc; omega
    refine ⟨_, rfl, by simp [this], ?_⟩
    intro he
    simp at he
    simp [he] at this
    omega

/-- **C69 is false**: two instances; Stop collects the local statistics, the remote ones arrive and
complete the interval, and the timeout then forces a report without any instance. (The CSV reporter
accesses the first instance of it: stats/csv.go:61.) -/
theorem C69_stop_reports_nothing_false (v w zero : α) :
    ∃ s s' : Stopping α, stopBegin (Coll.new 2 zero) true false v = .ok s ∧
      s.run [.recv 1 1 w, .tick, .timeout] = .ok s' ∧ s'.ret = some true ∧
      s'.coll.reports = [⟨1, false, [⟨0, 1, v⟩, ⟨1, 1, w⟩]⟩, ⟨2, true, []⟩] := by
  refine ⟨⟨⟨2, 1, [⟨0, 1, none⟩], 1, v, []⟩, none⟩,
    ⟨⟨2, 3, [], 1, v, [⟨1, false, [⟨0, 1, v⟩, ⟨1, 1, w⟩]⟩, ⟨2, true, []⟩]⟩, some true⟩, ?_, ?_, rfl, rfl⟩ <;>
    simp [stopBegin, Coll.new, Coll.collect, Coll.push, Coll.report, Inst.view, Stopping.run,
      Stopping.step, Coll.recv]

end Finch
