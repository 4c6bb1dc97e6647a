import Verif.Model.Reporters
/-!
C104, C105, C106, C108: which reporters a stage has, and what is in the CSV files of a benchmark.
-/
namespace Finch

/-! ## Files -/

theorem openNew_spec {e : RepEnv} {d d' : Disk} {p : Text} (h : d.openNew e p = some d') :
    d.files p = none ∧ d'.files = (fun q => if q = p then some [] else d.files q) ∧
      d'.handles = p :: d.handles := by
  unfold Disk.openNew at h
  split at h
  · cases h
  · rename_i hc
    simp only [Bool.or_eq_true, not_or, Bool.not_eq_true, Option.isSome_eq_false_iff,
      Option.isNone_iff_eq_none] at hc
    cases h
    exact ⟨hc.1, rfl, rfl⟩

theorem createTemp_spec {e : RepEnv} {d d' : Disk} {p : Text} (ss : List Text)
    (h : createTemp e d ss = some (p, d')) :
    ∃ s ∈ ss, p = e.tmpDir ++ '/' :: tempPattern e ++ s ∧ d.openNew e p = some d' := by
  induction ss with
  | nil => cases h
  | cons s ss ih =>
    simp only [createTemp] at h
    split at h
    · obtain ⟨t, ht, hh⟩ := ih h
      exact ⟨t, List.mem_cons_of_mem _ ht, hh⟩
    · simp only [Option.map_eq_some_iff, Prod.mk.injEq] at h
      obtain ⟨a, ha, hp, hd⟩ := h
      subst hd; subst hp
      exact ⟨s, List.mem_cons_self, rfl, ha⟩

theorem csvOpen_spec {e : RepEnv} {opts : TMap Text} {d d' : Disk} {p : Text}
    (h : csvOpen e opts d = some (p, d')) : d.openNew e p = some d' := by
  unfold csvOpen at h
  split at h
  · obtain ⟨_, _, _, h⟩ := createTemp_spec _ h
    exact h
  · simp only [Option.map_eq_some_iff, Prod.mk.injEq] at h
    obtain ⟨a, ha, hp, hd⟩ := h
    subst hd; subst hp
    exact ha

/-- What a CSV file holds before the first report. -/
def csvStart (ps : List (Text × FVal)) : Text := reportHeader (ps.map (·.1)) ++ ['\n']

/-- What a step that makes reporters does to files: existing ones stay as they are and open ones stay
open. -/
structure Keeps (d d' : Disk) : Prop where
  files : ∀ p c, d.files p = some c → d'.files p = some c
  handles : ∀ p, p ∈ d.handles → p ∈ d'.handles

theorem Keeps.refl (d : Disk) : Keeps d d := ⟨fun _ _ h => h, fun _ h => h⟩

theorem Keeps.trans {a b c : Disk} (h : Keeps a b) (k : Keeps b c) : Keeps a c :=
  ⟨fun p x hx => k.files p x (h.files p x hx), fun p hp => k.handles p (h.handles p hp)⟩

theorem newCSV_keeps (e : RepEnv) (opts : TMap Text) (d : Disk) : Keeps d (newCSV e opts d).2 := by
  unfold newCSV
  split
  · exact Keeps.refl d
  · rename_i p d1 h1
    obtain ⟨hn, hf, hh⟩ := openNew_spec (csvOpen_spec h1)
    have k1 : Keeps d d1 := by
      refine ⟨fun q c hq => ?_, fun q hq => ?_⟩
      · rw [hf]
        have : q ≠ p := fun h => by rw [h, hn] at hq; cases hq
        simp only [this, if_false, hq]
      · rw [hh]; exact List.mem_cons_of_mem _ hq
    split
    · exact k1
    · rename_i ps _
      refine ⟨fun q c hq => ?_, fun q hq => ?_⟩
      · have hqp : q ≠ p := fun h => by rw [h, hn] at hq; cases hq
        have := k1.files q c hq
        simp only [Disk.append]
        split
        · simp only [hqp, if_false]; exact this
        · exact this
      · have := k1.handles q hq
        simp only [Disk.append]
        split
        · exact this
        · exact this

theorem newCSV_made {e : RepEnv} {opts : TMap Text} {d d' : Disk} {x : Rep}
    (h : newCSV e opts d = (some x, d')) :
    ∃ p ps, x = .csv p ps ∧ d.files p = none ∧ d'.files p = some (csvStart ps) ∧ p ∈ d'.handles ∧
      parsePercentiles e.pf (optGet opts optPercentiles) = some ps ∧
      (optGet opts optFile ≠ [] → p = e.path (optGet opts optFile)) := by
  unfold newCSV at h
  split at h
  · cases h
  · rename_i p d1 h1
    obtain ⟨hn, hf, hh⟩ := openNew_spec (csvOpen_spec h1)
    split at h
    · cases h
    · rename_i ps hps
      simp only [Prod.mk.injEq, Option.some.injEq] at h
      obtain ⟨hx, hd⟩ := h
      refine ⟨p, ps, hx.symm, hn, ?_, ?_, hps, fun hne => ?_⟩
      · rw [← hd]
        simp only [Disk.append, hh, List.mem_cons_self, if_true, hf, Option.map_some, List.nil_append, csvStart]
      · rw [← hd]
        simp only [Disk.append, hh, List.mem_cons_self, if_true]
      · unfold csvOpen at h1
        rw [if_neg hne] at h1
        simp only [Option.map_eq_some_iff, Prod.mk.injEq] at h1
        obtain ⟨a, _, hp, _⟩ := h1
        exact hp.symm

theorem builtinMake_keeps (e : RepEnv) (name : Text) (opts : TMap Text) (d : Disk) :
    Keeps d (builtinMake e name opts d).2 := by
  unfold builtinMake
  split
  · exact Keeps.refl d
  · split
    · exact Keeps.refl d
    · split
      · exact newCSV_keeps e opts d
      · exact Keeps.refl d

theorem builtin_get {e : RepEnv} {name : Text} {f : RFactory}
    (h : (builtinReporters e).get? name = some f) :
    f = builtinMake e ∧ (name = nameStdout ∨ name = nameServer ∨ name = nameCSV) := by
  unfold builtinReporters TMap.get? at h
  simp only [List.lookup] at h
  split at h
  · rename_i hb
    exact ⟨(Option.some.inj h).symm, Or.inl (by simpa using hb)⟩
  · split at h
    · rename_i hb
      exact ⟨(Option.some.inj h).symm, Or.inr (Or.inl (by simpa using hb))⟩
    · split at h
      · rename_i hb
        exact ⟨(Option.some.inj h).symm, Or.inr (Or.inr (by simpa using hb))⟩
      · cases h

theorem builtinMake_csv {e : RepEnv} {name : Text} {opts : TMap Text} {d d' : Disk} {p : Text}
    {ps : List (Text × FVal)} (h : builtinMake e name opts d = (some (.csv p ps), d')) :
    name = nameCSV ∧ newCSV e opts d = (some (.csv p ps), d') := by
  unfold builtinMake at h
  split at h
  · simp only [Prod.mk.injEq, Option.map_eq_some_iff] at h
    obtain ⟨⟨_, _, h⟩, _⟩ := h
    cases h
  · split at h
    · cases h
    · split at h
      · rename_i hc
        exact ⟨hc, h⟩
      · cases h

theorem makeReporters_keeps (e : RepEnv) (l : TMap (TMap Text)) (d : Disk) :
    Keeps d (makeReporters (builtinReporters e) l d).2 := by
  induction l generalizing d with
  | nil => exact Keeps.refl d
  | cons x l ih =>
    obtain ⟨name, opts⟩ := x
    simp only [makeReporters]
    split
    · exact Keeps.refl d
    · rename_i f hf
      obtain ⟨rfl, _⟩ := builtin_get hf
      have k := builtinMake_keeps e name opts d
      split
      · rename_i d1 h1; rw [h1] at k; exact k
      · rename_i x d1 h1
        rw [h1] at k
        have k2 := ih d1
        split
        · rename_i d2 h2; rw [h2] at k2; exact k.trans k2
        · rename_i xs d2 h2; rw [h2] at k2; exact k.trans k2

/-- The path of a CSV reporter. -/
def Rep.file? : Rep → Option Text
  | .csv p _ => some p
  | _ => none

/-- The CSV reporters made: each has a new file of its own with the header in it, open for writing. -/
theorem makeReporters_csv (e : RepEnv) (l : TMap (TMap Text)) (d d' : Disk) (xs : List Rep)
    (h : makeReporters (builtinReporters e) l d = (some xs, d')) :
    (∀ p ps, Rep.csv p ps ∈ xs → d.files p = none ∧ d'.files p = some (csvStart ps) ∧ p ∈ d'.handles) ∧
      (xs.filterMap Rep.file?).Nodup := by
  induction l generalizing d xs with
  | nil =>
    simp only [makeReporters, Prod.mk.injEq, Option.some.injEq] at h
    rw [← h.1]
    exact ⟨fun _ _ hm => (by cases hm), List.nodup_nil⟩
  | cons x l ih =>
    obtain ⟨name, opts⟩ := x
    simp only [makeReporters] at h
    split at h
    · cases h
    · rename_i f hf
      obtain ⟨rfl, _⟩ := builtin_get hf
      have kb := builtinMake_keeps e name opts d
      split at h
      · cases h
      · rename_i x d1 h1
        rw [h1] at kb
        have k2 := makeReporters_keeps e l d1
        split at h
        · cases h
        · rename_i ys d2 h2
          rw [h2] at k2
          simp only [Prod.mk.injEq, Option.some.injEq] at h
          obtain ⟨hx, hd⟩ := h
          subst hd; subst hx
          obtain ⟨i1, i2⟩ := ih d1 ys h2
          have hnew : ∀ p ps, Rep.csv p ps ∈ ys → d1.files p = none := fun p ps hm => (i1 p ps hm).1
          have hold : ∀ p, d1.files p = none → d.files p = none := by
            intro p hp
            cases hq : d.files p with
            | none => rfl
            | some c => rw [kb.files p c hq] at hp; cases hp
          refine ⟨fun p ps hm => ?_, ?_⟩
          · rcases List.mem_cons.1 hm with hm | hm
            · subst hm
              obtain ⟨_, hc⟩ := builtinMake_csv h1
              obtain ⟨p', ps', hx, hn, hs, hh, _⟩ := newCSV_made hc
              cases hx
              exact ⟨hn, k2.files _ _ hs, k2.handles _ hh⟩
            · obtain ⟨a, b, c⟩ := i1 p ps hm
              exact ⟨hold p a, b, c⟩
          · cases hx : x with
            | csv p ps =>
              rw [hx] at h1
              obtain ⟨_, hc⟩ := builtinMake_csv h1
              obtain ⟨p', ps', hx', hn, hs, hh, _⟩ := newCSV_made hc
              cases hx'
              simp only [List.filterMap_cons, Rep.file?]
              refine List.nodup_cons.2 ⟨fun hm => ?_, i2⟩
              obtain ⟨y, hy, hyp⟩ := List.mem_filterMap.1 hm
              cases y <;> simp only [Rep.file?, Option.some.injEq, reduceCtorEq] at hyp
              subst hyp
              have := hnew _ _ hy
              rw [hs] at this
              cases this
            | _ => exact i2

/-! ## Reports -/

theorem append_other {d : Disk} {p q t : Text} (h : q ≠ p) : (d.append p t).files q = d.files q := by
  unfold Disk.append
  split
  · simp only [h, if_false]
  · rfl

theorem append_handles (d : Disk) (p t : Text) : (d.append p t).handles = d.handles := by
  unfold Disk.append
  split <;> rfl

theorem append_self {d : Disk} {p t c : Text} (hh : p ∈ d.handles) (hc : d.files p = some c) :
    (d.append p t).files p = some (c ++ t) := by
  simp only [Disk.append, hh, if_true, hc, Option.map_some]

theorem reportDisk_handles (v : List FVal → LineEnv) (errs : Stats → Nat) (i : InstLine)
    (rest : List InstLine) (d : Disk) (r : Rep) : (r.reportDisk v errs i rest d).handles = d.handles := by
  cases r with
  | csv p ps => exact append_handles d p _
  | _ => rfl

theorem reportDisk_other (v : List FVal → LineEnv) (errs : Stats → Nat) (i : InstLine)
    (rest : List InstLine) (d : Disk) (r : Rep) (q : Text) (h : r.file? ≠ some q) :
    (r.reportDisk v errs i rest d).files q = d.files q := by
  cases r with
  | csv p ps =>
    have : q ≠ p := fun hq => h (by rw [hq]; rfl)
    exact append_other this
  | _ => rfl

/-- The line of a CSV report; its values and columns are the subject of C86. -/
def csvLine (v : List FVal → LineEnv) (errs : Stats → Nat) (ps : List (Text × FVal))
    (x : InstLine × List InstLine) : Text :=
  (csvReport (v (ps.map (·.2))) errs (x.1 :: x.2)).getD [] ++ ['\n']

theorem reports_handles (v : List FVal → LineEnv) (errs : Stats → Nat) (x : InstLine × List InstLine)
    (reps : List Rep) (d : Disk) :
    (reps.foldl (fun d r => r.reportDisk v errs x.1 x.2 d) d).handles = d.handles := by
  induction reps generalizing d with
  | nil => rfl
  | cons r reps ih => rw [List.foldl_cons, ih, reportDisk_handles]

theorem reports_other (v : List FVal → LineEnv) (errs : Stats → Nat) (x : InstLine × List InstLine)
    (reps : List Rep) (d : Disk) (q : Text) (h : q ∉ reps.filterMap Rep.file?) :
    (reps.foldl (fun d r => r.reportDisk v errs x.1 x.2 d) d).files q = d.files q := by
  induction reps generalizing d with
  | nil => rfl
  | cons r reps ih =>
    have hr : r.file? ≠ some q := fun hq => h (List.mem_filterMap.2 ⟨r, List.mem_cons_self, hq⟩)
    have ht : q ∉ reps.filterMap Rep.file? := fun hq => by
      obtain ⟨y, hy, hyq⟩ := List.mem_filterMap.1 hq
      exact h (List.mem_filterMap.2 ⟨y, List.mem_cons_of_mem _ hy, hyq⟩)
    rw [List.foldl_cons, ih _ ht, reportDisk_other _ _ _ _ _ _ _ hr]

theorem reports_self (v : List FVal → LineEnv) (errs : Stats → Nat) (x : InstLine × List InstLine)
    (reps : List Rep) (d : Disk) (p c : Text) (ps : List (Text × FVal))
    (hm : Rep.csv p ps ∈ reps) (hn : (reps.filterMap Rep.file?).Nodup) (hh : p ∈ d.handles)
    (hc : d.files p = some c) :
    (reps.foldl (fun d r => r.reportDisk v errs x.1 x.2 d) d).files p = some (c ++ csvLine v errs ps x) := by
  induction reps generalizing d with
  | nil => cases hm
  | cons r reps ih =>
    rw [List.foldl_cons]
    by_cases hr : r.file? = some p
    · have hr' : ∃ ps', r = .csv p ps' := by
        cases r <;> simp only [Rep.file?, Option.some.injEq, reduceCtorEq] at hr
        subst hr
        exact ⟨_, rfl⟩
      obtain ⟨ps', rfl⟩ := hr'
      simp only [List.filterMap_cons, Rep.file?, List.nodup_cons] at hn
      have : ps' = ps := by
        rcases List.mem_cons.1 hm with h | h
        · cases h; rfl
        · exact absurd (List.mem_filterMap (f := Rep.file?).2 ⟨Rep.csv p ps, h, rfl⟩) hn.1
      subst this
      rw [reports_other _ _ _ _ _ _ hn.1]
      exact append_self hh hc
    · have hm' : Rep.csv p ps ∈ reps := by
        rcases List.mem_cons.1 hm with h | h
        · exact absurd (by rw [← h]; rfl) hr
        · exact h
      have hn' : (reps.filterMap Rep.file?).Nodup := by
        rw [List.filterMap_cons] at hn
        split at hn
        · exact hn
        · exact (List.nodup_cons.1 hn).2
      refine ih _ hm' hn' ?_ ?_
      · rw [reportDisk_handles]; exact hh
      · rw [reportDisk_other _ _ _ _ _ _ _ hr]; exact hc

theorem allReports_self (v : List FVal → LineEnv) (errs : Stats → Nat) (l : List (InstLine × List InstLine))
    (reps : List Rep) (d : Disk) (p c : Text) (ps : List (Text × FVal))
    (hm : Rep.csv p ps ∈ reps) (hn : (reps.filterMap Rep.file?).Nodup) (hh : p ∈ d.handles)
    (hc : d.files p = some c) :
    (l.foldl (fun d x => reps.foldl (fun d r => r.reportDisk v errs x.1 x.2 d) d) d).files p =
      some (c ++ l.flatMap (csvLine v errs ps)) := by
  induction l generalizing d c with
  | nil => simpa using hc
  | cons x l ih =>
    rw [List.foldl_cons, ih _ _ (by rw [reports_handles]; exact hh)
      (reports_self v errs x reps d p c ps hm hn hh hc), List.flatMap_cons, List.append_assoc]

theorem allReports_other (v : List FVal → LineEnv) (errs : Stats → Nat) (l : List (InstLine × List InstLine))
    (reps : List Rep) (d : Disk) (q : Text) (h : q ∉ reps.filterMap Rep.file?) :
    (l.foldl (fun d x => reps.foldl (fun d r => r.reportDisk v errs x.1 x.2 d) d) d).files q = d.files q := by
  induction l generalizing d with
  | nil => rfl
  | cons x l ih => rw [List.foldl_cons, ih, reports_other _ _ _ _ _ _ h]

theorem stops_files (reps : List Rep) (d : Disk) :
    (reps.foldl (fun d r => r.stopDisk d) d).files = d.files := by
  induction reps generalizing d with
  | nil => rfl
  | cons r reps ih => rw [List.foldl_cons, ih]; cases r <;> rfl

theorem runReps_keeps {v : List FVal → LineEnv} {errs : Stats → Nat} {s : RepStage} {d d1 : Disk} {reps : List Rep}
    (h : makeReporters (builtinReporters s.env) s.report d = (some reps, d1)) (p c : Text)
    (hc : d.files p = some c) : (s.runReps v errs reps d1).files p = some c := by
  have k := makeReporters_keeps s.env s.report d
  rw [h] at k
  have hq : p ∉ reps.filterMap Rep.file? := fun hm => by
    obtain ⟨y, hy, hyq⟩ := List.mem_filterMap.1 hm
    cases y <;> simp only [Rep.file?, Option.some.injEq, reduceCtorEq] at hyq
    subst hyq
    have := ((makeReporters_csv _ _ _ _ _ h).1 _ _ hy).1
    rw [this] at hc
    cases hc
  unfold RepStage.runReps
  rw [stops_files, allReports_other _ _ _ _ _ _ hq]
  exact k.files p c hc

/-! ## C104 -/

/-- C104: no stage of a benchmark changes a file that exists before: whatever the reporters, their order
and the reports, and also if the benchmark stops because reporters cannot be made. -/
theorem C104_existing (v : List FVal → LineEnv) (errs : Stats → Nat) (ss : List RepStage) (d : Disk) (p c : Text)
    (h : d.files p = some c) : (runReports v errs ss d).2.files p = some c := by
  induction ss generalizing d with
  | nil => exact h
  | cons s ss ih =>
    simp only [runReports]
    split
    · rename_i d1 h1
      have k := makeReporters_keeps s.env s.report d
      rw [h1] at k
      exact k.files p c h
    · rename_i reps d1 h1
      exact ih _ (runReps_keeps h1 p c h)

theorem runReports_append (v : List FVal → LineEnv) (errs : Stats → Nat) (pre ss : List RepStage) (d d1 : Disk)
    (h : runReports v errs pre d = (true, d1)) :
    runReports v errs (pre ++ ss) d = runReports v errs ss d1 := by
  induction pre generalizing d with
  | nil =>
    simp only [runReports, Prod.mk.injEq, true_and] at h
    rw [List.nil_append, h]
  | cons s pre ih =>
    rw [List.cons_append]
    simp only [runReports] at h ⊢
    split at h
    · cases h
    · exact ih _ h

/-- C104: at the end of the benchmark the file of a CSV reporter holds the header, then a line for each
interval of its stage in order, and nothing else: no line of another stage, and nothing of what was there
before, because the file was new. `pre` are the stages before and `post` those after, which may fail. -/
theorem C104_content (v : List FVal → LineEnv) (errs : Stats → Nat) (pre post : List RepStage) (s : RepStage)
    (d d1 d2 : Disk) (reps : List Rep) (p : Text) (ps : List (Text × FVal))
    (hpre : runReports v errs pre d = (true, d1))
    (hmake : makeReporters (builtinReporters s.env) s.report d1 = (some reps, d2))
    (hm : Rep.csv p ps ∈ reps) :
    d.files p = none ∧
    (runReports v errs (pre ++ s :: post) d).2.files p =
      some (reportHeader (ps.map (·.1)) ++ ['\n'] ++ s.reports.flatMap fun x =>
        (csvReport (v (ps.map (·.2))) errs (x.1 :: x.2)).getD [] ++ ['\n']) := by
  obtain ⟨hcsv, hnd⟩ := makeReporters_csv _ _ _ _ _ hmake
  obtain ⟨hn, hs, hh⟩ := hcsv p ps hm
  refine ⟨?_, ?_⟩
  · cases hd : d.files p with
    | none => rfl
    | some c =>
      have := C104_existing v errs pre d p c hd
      rw [hpre] at this
      rw [this] at hn
      cases hn
  · rw [runReports_append _ _ _ _ _ _ hpre]
    simp only [runReports, hmake]
    apply C104_existing
    unfold RepStage.runReps
    rw [stops_files]
    exact allReports_self v errs s.reports reps d2 p _ ps hm hnd hh hs

/-! ## C105 -/

/-- C105 (false as stated): if two stages name the same file, by the configuration or by the same base
file, the benchmark never runs to its end: the later stage cannot make its reporters, whatever was
reported. (stats/csv.go:30 opens with `O_EXCL`, and a collector is made for each stage, compute/server.go:97.) -/
theorem C105_same_file_false (v : List FVal → LineEnv) (errs : Stats → Nat) (pre mid post : List RepStage)
    (s t : RepStage) (d : Disk) (os ot : TMap Text)
    (hs : (nameCSV, os) ∈ s.report) (ht : (nameCSV, ot) ∈ t.report)
    (hne : optGet os optFile ≠ []) (hne' : optGet ot optFile ≠ [])
    (hp : s.env.path (optGet os optFile) = t.env.path (optGet ot optFile)) :
    (runReports v errs (pre ++ s :: mid ++ t :: post) d).1 = false := by
  have made : ∀ (e : RepEnv) (l : TMap (TMap Text)) (o : TMap Text) (d d' : Disk) (xs : List Rep),
      (nameCSV, o) ∈ l → optGet o optFile ≠ [] →
      makeReporters (builtinReporters e) l d = (some xs, d') →
      ∃ ps, Rep.csv (e.path (optGet o optFile)) ps ∈ xs := by
    intro e l
    induction l with
    | nil => intro o d d' xs hm; cases hm
    | cons x l ih =>
      intro o d d' xs hm hne h
      obtain ⟨name, opts⟩ := x
      simp only [makeReporters] at h
      split at h
      · cases h
      · rename_i f hf
        obtain ⟨rfl, _⟩ := builtin_get hf
        split at h
        · cases h
        · rename_i x d1 h1
          split at h
          · cases h
          · rename_i ys d2 h2
            simp only [Prod.mk.injEq, Option.some.injEq] at h
            obtain ⟨hx, _⟩ := h
            subst hx
            rcases List.mem_cons.1 hm with hm | hm
            · cases hm
              have h1' : newCSV e o d = (some x, d1) := h1
              obtain ⟨p, ps, hx, _, _, _, _, hpath⟩ := newCSV_made h1'
              exact ⟨ps, by rw [hx, hpath hne]; exact List.mem_cons_self⟩
            · obtain ⟨ps, hps⟩ := ih o d1 d2 ys hm hne h2
              exact ⟨ps, List.mem_cons_of_mem _ hps⟩
  have tail : ∀ (ss : List RepStage) (d : Disk) (c : Text),
      d.files (t.env.path (optGet ot optFile)) = some c →
      (runReports v errs (ss ++ t :: post) d).1 = false := by
    intro ss
    induction ss with
    | nil =>
      intro d c hc
      simp only [List.nil_append, runReports]
      split
      · rfl
      · rename_i reps d1 h1
        obtain ⟨ps, hm⟩ := made _ _ _ _ _ _ ht hne' h1
        have := ((makeReporters_csv _ _ _ _ _ h1).1 _ _ hm).1
        rw [this] at hc
        cases hc
    | cons s ss ih =>
      intro d c hc
      rw [List.cons_append]
      simp only [runReports]
      split
      · rfl
      · rename_i reps d1 h1
        exact ih _ c (runReps_keeps h1 _ _ hc)
  induction pre generalizing d with
  | nil =>
    simp only [List.nil_append, List.cons_append, runReports]
    split
    · rfl
    · rename_i reps d1 h1
      obtain ⟨ps, hm⟩ := made _ _ _ _ _ _ hs hne h1
      obtain ⟨hcsv, hnd⟩ := makeReporters_csv _ _ _ _ _ h1
      obtain ⟨_, hst, hh⟩ := hcsv _ _ hm
      refine tail mid _ (csvStart ps ++ s.reports.flatMap (csvLine v errs ps)) ?_
      rw [← hp]
      unfold RepStage.runReps
      rw [stops_files]
      exact allReports_self v errs s.reports reps d1 _ _ ps hm hnd hh hst
  | cons q pre ih =>
    simp only [List.cons_append, runReports]
    split
    · rfl
    · simpa only [List.cons_append] using ih _

/-- C105 (false as stated): a CSV reporter whose percentiles are wrong leaves its file behind, and then
not even the corrected configuration works: a later attempt to make a CSV reporter with this file fails,
whatever its options. -/
theorem C105_left_false (e e' : RepEnv) (o o' : TMap Text) (d : Disk)
    (hf : optGet o optFile ≠ []) (hnew : d.files (e.path (optGet o optFile)) = none)
    (hcr : e.creatable (e.path (optGet o optFile)) = true)
    (hbad : parsePercentiles e.pf (optGet o optPercentiles) = none)
    (hf' : optGet o' optFile ≠ []) (hp : e'.path (optGet o' optFile) = e.path (optGet o optFile)) :
    (newCSV e o d).1 = none ∧ (newCSV e o d).2.files (e.path (optGet o optFile)) = some [] ∧
      (newCSV e' o' (newCSV e o d).2).1 = none := by
  have h1 : newCSV e o d = (none, ⟨fun q => if q = e.path (optGet o optFile) then some [] else d.files q,
      e.path (optGet o optFile) :: d.handles⟩) := by
    unfold newCSV csvOpen
    simp only [hf, if_false, Disk.openNew, hnew, hcr, Option.isSome_none, Bool.not_true, Bool.or_self,
      Bool.false_eq_true, Option.map_some, hbad]
  rw [h1]
  refine ⟨rfl, by simp only [if_true], ?_⟩
  unfold newCSV csvOpen
  simp only [hf', if_false, Disk.openNew, hp, if_true, Option.isSome_some, Bool.true_or, Option.map_none]

/-- The settings of the reporters of one stage are good: built-in names, valid percentiles, a name for a
CSV file. -/
structure GoodReport (e : RepEnv) (l : TMap (TMap Text)) : Prop where
  names : ∀ x ∈ l, x.1 = nameStdout ∨ x.1 = nameServer ∨ x.1 = nameCSV
  percentiles : ∀ x ∈ l, x.1 = nameStdout ∨ x.1 = nameCSV →
    (parsePercentiles e.pf (optGet x.2 optPercentiles)).isSome
  file : ∀ x ∈ l, x.1 = nameCSV → optGet x.2 optFile ≠ [] ∧
    e.creatable (e.path (optGet x.2 optFile)) = true

/-- The files that a configuration names. -/
def csvPaths (e : RepEnv) (l : TMap (TMap Text)) : List Text :=
  (l.filter fun x => x.1 = nameCSV).map fun x => e.path (optGet x.2 optFile)

theorem makeReporters_good (e : RepEnv) (l : TMap (TMap Text)) (d : Disk) (g : GoodReport e l)
    (hnew : ∀ p ∈ csvPaths e l, d.files p = none) (hnd : (csvPaths e l).Nodup) :
    ∃ xs d', makeReporters (builtinReporters e) l d = (some xs, d') ∧
      (∀ p, p ∉ csvPaths e l → d'.files p = d.files p) ∧
      (∀ p ∈ xs.filterMap Rep.file?, p ∈ csvPaths e l) := by
  induction l generalizing d with
  | nil => exact ⟨[], d, rfl, fun _ _ => rfl, fun p hp => by cases hp⟩
  | cons x l ih =>
    obtain ⟨name, opts⟩ := x
    have gl : GoodReport e l := ⟨fun x hx => g.names x (List.mem_cons_of_mem _ hx),
      fun x hx => g.percentiles x (List.mem_cons_of_mem _ hx), fun x hx => g.file x (List.mem_cons_of_mem _ hx)⟩
    have hget : (builtinReporters e).get? name = some (builtinMake e) := by
      rcases g.names _ List.mem_cons_self with h | h | h <;> simp only at h <;> subst h <;> rfl
    by_cases hcsv : name = nameCSV
    · subst hcsv
      have hpaths : csvPaths e ((nameCSV, opts) :: l) = e.path (optGet opts optFile) :: csvPaths e l := by
        simp only [csvPaths, List.filter_cons, decide_true, if_true, List.map_cons]
      rw [hpaths] at hnew hnd
      obtain ⟨hfile, hcr⟩ := g.file _ List.mem_cons_self rfl
      obtain ⟨ps, hps⟩ := Option.isSome_iff_exists.1 (g.percentiles _ List.mem_cons_self (Or.inr rfl))
      simp only at hfile hcr hps
      have h0 := hnew _ List.mem_cons_self
      let d1 : Disk := (Disk.append ⟨fun q => if q = e.path (optGet opts optFile) then some [] else d.files q,
        e.path (optGet opts optFile) :: d.handles⟩ (e.path (optGet opts optFile))
        (reportHeader (ps.map (·.1)) ++ ['\n']))
      have h1 : builtinMake e nameCSV opts d = (some (.csv (e.path (optGet opts optFile)) ps), d1) := by
        show newCSV e opts d = _
        unfold newCSV csvOpen
        simp only [hfile, if_false, Disk.openNew, h0, hcr, Option.isSome_none, Bool.not_true, Bool.or_self,
          Bool.false_eq_true, Option.map_some, hps]
        rfl
      have hd1 : ∀ q, q ≠ e.path (optGet opts optFile) → d1.files q = d.files q := by
        intro q hq
        show (Disk.append _ _ _).files q = _
        rw [append_other hq]
        simp only [hq, if_false]
      have hne : ∀ p ∈ csvPaths e l, p ≠ e.path (optGet opts optFile) := fun p hp h =>
        (List.nodup_cons.1 hnd).1 (by rw [← h]; exact hp)
      obtain ⟨xs, d', hmk, hk, hin⟩ := ih d1 gl
        (fun p hp => by rw [hd1 p (hne p hp)]; exact hnew p (List.mem_cons_of_mem _ hp))
        (List.nodup_cons.1 hnd).2
      refine ⟨.csv (e.path (optGet opts optFile)) ps :: xs, d', ?_, fun p hp => ?_, fun p hp => ?_⟩
      · simp only [makeReporters, hget, h1, hmk]
      · rw [hpaths, List.mem_cons, not_or] at hp
        rw [hk p hp.2, hd1 p hp.1]
      · rw [hpaths]
        simp only [List.filterMap_cons, Rep.file?, List.mem_cons] at hp
        rcases hp with hp | hp
        · rw [hp]; exact List.mem_cons_self
        · exact List.mem_cons_of_mem _ (hin p hp)
    · have hpaths : csvPaths e ((name, opts) :: l) = csvPaths e l := by
        simp only [csvPaths, List.filter_cons, hcsv, decide_false, Bool.false_eq_true, if_false]
      rw [hpaths] at hnew hnd
      obtain ⟨xs, d', hmk, hk, hin⟩ := ih d gl hnew hnd
      have h1 : ∃ x, builtinMake e name opts d = (some x, d) ∧ x.file? = none := by
        rcases g.names _ List.mem_cons_self with h | h | h
        · simp only at h; subst h
          obtain ⟨ps, hps⟩ := Option.isSome_iff_exists.1 (g.percentiles _ List.mem_cons_self (Or.inl rfl))
          simp only at hps
          exact ⟨.stdout ps (newStdout opts), by
            unfold builtinMake; simp only [if_true, hps, Option.map_some], rfl⟩
        · simp only at h; subst h
          exact ⟨_, rfl, rfl⟩
        · exact absurd h hcsv
      obtain ⟨x, h1, hx⟩ := h1
      refine ⟨x :: xs, d', ?_, fun p hp => ?_, fun p hp => ?_⟩
      · simp only [makeReporters, hget, h1, hmk]
      · rw [hpaths] at hp; exact hk p hp
      · rw [hpaths]
        rw [List.filterMap_cons, hx] at hp
        exact hin p hp

/-- C105 for stages that name different files, none of which exists: every stage gets its reporters and
the benchmark runs to its end. Missing: files named twice (C105_same_file_false) and files left by an earlier
attempt (C105_left_false), and CSV reporters without a name, which need a free temporary file. -/
theorem C105_all_partial (v : List FVal → LineEnv) (errs : Stats → Nat) (ss : List RepStage) (d : Disk)
    (good : ∀ s ∈ ss, GoodReport s.env s.report)
    (hnew : ∀ s ∈ ss, ∀ p ∈ csvPaths s.env s.report, d.files p = none)
    (hnd : (ss.flatMap fun s => csvPaths s.env s.report).Nodup) :
    (runReports v errs ss d).1 = true := by
  induction ss generalizing d with
  | nil => rfl
  | cons s ss ih =>
    rw [List.flatMap_cons, List.nodup_append] at hnd
    obtain ⟨n1, n2, n3⟩ := hnd
    obtain ⟨xs, d', hmk, hk, hin⟩ := makeReporters_good s.env s.report d (good s List.mem_cons_self)
      (hnew s List.mem_cons_self) n1
    simp only [runReports, hmk]
    refine ih _ (fun t ht => good t (List.mem_cons_of_mem _ ht)) (fun t ht p hp => ?_) n2
    have hps : p ∉ csvPaths s.env s.report := fun h =>
      n3 p h p (List.mem_flatMap.2 ⟨t, ht, hp⟩) rfl
    unfold RepStage.runReps
    rw [stops_files, allReports_other _ _ _ _ _ _ (fun h => hps (hin p h)), hk p hps]
    exact hnew t (List.mem_cons_of_mem _ ht) p hp

/-! ## C106 -/

/-- What a reporter is made from. -/
inductive MadeFrom (e : RepEnv) : Text → TMap Text → Rep → Prop where
  | stdout (opts ps) (h : parsePercentiles e.pf (optGet opts optPercentiles) = some ps) :
      MadeFrom e nameStdout opts (.stdout ps (newStdout opts))
  | server (opts) : MadeFrom e nameServer opts
      (.server (optGet opts nameServer) (optGet opts optClient) (optGet opts optStageId))
  | csv (opts p ps) (h : parsePercentiles e.pf (optGet opts optPercentiles) = some ps)
      (hf : optGet opts optFile ≠ [] → p = e.path (optGet opts optFile)) :
      MadeFrom e nameCSV opts (.csv p ps)

/-- C106: if the reporters can be made there is exactly one for each entry of the configuration, of the
kind that the entry names and with its options. -/
theorem C106_made (e : RepEnv) (l : TMap (TMap Text)) (d d' : Disk) (xs : List Rep)
    (h : makeReporters (builtinReporters e) l d = (some xs, d')) :
    List.Forall₂ (fun x r => MadeFrom e x.1 x.2 r) l xs := by
  induction l generalizing d d' xs with
  | nil =>
    simp only [makeReporters, Prod.mk.injEq, Option.some.injEq] at h
    rw [← h.1]
    exact List.Forall₂.nil
  | cons x l ih =>
    obtain ⟨name, opts⟩ := x
    simp only [makeReporters] at h
    split at h
    · cases h
    · rename_i f hf
      obtain ⟨rfl, hname⟩ := builtin_get hf
      split at h
      · cases h
      · rename_i x d1 h1
        split at h
        · cases h
        · rename_i ys d2 h2
          simp only [Prod.mk.injEq, Option.some.injEq] at h
          obtain ⟨hx, _⟩ := h
          subst hx
          refine List.Forall₂.cons ?_ (ih _ _ _ h2)
          rcases hname with h | h | h
          · subst h
            unfold builtinMake at h1
            simp only [if_true, Prod.mk.injEq, Option.map_eq_some_iff] at h1
            obtain ⟨⟨ps, hps, hx⟩, _⟩ := h1
            rw [← hx]
            exact .stdout opts ps hps
          · subst h
            have h1' : (some (Rep.server (optGet opts nameServer) (optGet opts optClient)
              (optGet opts optStageId)), d) = (some x, d1) := h1
            cases h1'
            exact .server opts
          · subst h
            have h1' : newCSV e opts d = (some x, d1) := h1
            obtain ⟨p, ps, hx, _, _, _, hps, hpath⟩ := newCSV_made h1'
            rw [hx]
            exact .csv opts p ps hps hpath

/-- C106: a name that is not registered is refused, whatever else is configured, wherever it comes in the
order of iteration, and whatever factories are registered. -/
theorem C106_unknown (r : TMap RFactory) (l : TMap (TMap Text)) (d : Disk) (name : Text) (opts : TMap Text)
    (hm : (name, opts) ∈ l) (hr : r.get? name = none) : (makeReporters r l d).1 = none := by
  induction l generalizing d with
  | nil => cases hm
  | cons x l ih =>
    obtain ⟨n, o⟩ := x
    simp only [makeReporters]
    split
    · rfl
    · rename_i f hf
      rcases List.mem_cons.1 hm with hm | hm
      · cases hm
        rw [hr] at hf
        cases hf
      · split
        · rfl
        · rename_i x d1 h1
          have := ih d1 hm
          split
          · rfl
          · rename_i ys d2 h2
            rw [h2] at this
            cases this

theorem TMap.get?_set_ne {α : Type} (m : TMap α) (k q : Text) (v : α) (h : q ≠ k) :
    (m.set k v).get? q = m.get? q := by
  induction m with
  | nil =>
    have hb : (q == k) = false := by simp [h]
    simp [TMap.set, TMap.get?, List.lookup, hb]
  | cons x m ih =>
    obtain ⟨a, w⟩ := x
    have hb : (q == k) = false := by simp [h]
    unfold TMap.get? at ih ⊢
    by_cases ha : a = k
    · subst ha
      simp [TMap.set, List.lookup, hb]
    · by_cases hq : q = a
      · subst hq
        simp [TMap.set, ha, List.lookup]
      · have hb' : (q == a) = false := by simp [hq]
        simp only [TMap.set, ha, if_false, List.lookup, hb']
        exact ih

theorem TMap.get?_set_self {α : Type} (m : TMap α) (k : Text) (v : α) : (m.set k v).get? k = some v := by
  induction m with
  | nil => simp [TMap.set, TMap.get?, List.lookup]
  | cons x m ih =>
    obtain ⟨a, w⟩ := x
    unfold TMap.get? at ih ⊢
    by_cases ha : a = k
    · subst ha
      simp [TMap.set, List.lookup]
    · have hb' : (k == a) = false := by simp [Ne.symm ha]
      simp only [TMap.set, ha, if_false, List.lookup, hb']
      exact ih

/-- C106: a reporter can be registered once: a second registration of the name is refused, otherwise the new
factory is used for its name and all others are as before; the built-in ones cannot be replaced. -/
theorem C106_register (r : TMap RFactory) (name : Text) (f : RFactory) :
    ((r.get? name).isSome → registerRep r name f = none) ∧
    (r.get? name = none → ∃ r', registerRep r name f = some r' ∧ r'.get? name = some f ∧
      (∀ q, q ≠ name → r'.get? q = r.get? q) ∧ ∀ g, registerRep r' name g = none) ∧
    ∀ e, ∀ n ∈ [nameStdout, nameServer, nameCSV], registerRep (builtinReporters e) n f = none := by
  refine ⟨fun h => by simp [registerRep, h], fun h => ?_, fun e n hn => ?_⟩
  · refine ⟨r.set name f, by simp [registerRep, h], TMap.get?_set_self r name f,
      fun q hq => TMap.get?_set_ne r name q f hq, fun g => ?_⟩
    simp [registerRep, TMap.get?_set_self]
  · simp only [List.mem_cons, List.not_mem_nil, or_false] at hn
    rcases hn with h | h | h <;> subst h <;> rfl

/-- C106: a remote instance writes no CSV file; it reports on its stdout as configured, if so, and to the
server with its own name and the id of the stage, and nowhere else. Its files are left alone. -/
theorem C106_remote (e : RepEnv) (dis : Bool) (report : TMap (TMap Text)) (addr name stage : Text) (d d' : Disk)
    (xs : List Rep)
    (h : remoteReporters (builtinReporters e) dis report addr name stage d = (some xs, d')) :
    d' = d ∧ (∀ r ∈ xs, (∃ ps opts, (nameStdout, opts) ∈ report ∧ r = .stdout ps (newStdout opts)) ∨
        r = .server addr name stage) ∧ xs.getLast? = some (.server addr name stage) := by
  unfold remoteReporters remoteReport at h
  have key : ∀ (l : TMap (TMap Text)) (d d' : Disk) (xs : List Rep), (∀ x ∈ l, x.1 = nameStdout) →
      makeReporters (builtinReporters e)
        (l ++ [(nameServer, [(nameServer, addr), (optClient, name), (optStageId, stage)])]) d = (some xs, d') →
      d' = d ∧ (∀ r ∈ xs, (∃ ps opts, (nameStdout, opts) ∈ l ∧ r = .stdout ps (newStdout opts)) ∨
        r = .server addr name stage) ∧ xs.getLast? = some (.server addr name stage) := by
    intro l
    induction l with
    | nil =>
      intro d d' xs _ h
      have h' : (some [Rep.server addr name stage], d) = (some xs, d') := h
      cases h'
      exact ⟨rfl, fun r hr => Or.inr (by simpa using hr), rfl⟩
    | cons x l ih =>
      intro d d' xs hl h
      obtain ⟨n, o⟩ := x
      have hn : n = nameStdout := hl _ List.mem_cons_self
      subst hn
      simp only [List.cons_append, makeReporters] at h
      split at h
      · cases h
      · rename_i f hf
        obtain ⟨rfl, _⟩ := builtin_get hf
        split at h
        · cases h
        · rename_i x d1 h1
          unfold builtinMake at h1
          simp only [if_true, Prod.mk.injEq, Option.map_eq_some_iff] at h1
          obtain ⟨⟨ps, hps, hx⟩, hd⟩ := h1
          split at h
          · cases h
          · rename_i ys d2 h2
            simp only [Prod.mk.injEq, Option.some.injEq] at h
            obtain ⟨hxs, hd'⟩ := h
            obtain ⟨i1, i2, i3⟩ := ih _ _ _ (fun x hx => hl x (List.mem_cons_of_mem _ hx)) h2
            subst hxs
            refine ⟨by rw [← hd', i1, hd], fun r hr => ?_, ?_⟩
            · rcases List.mem_cons.1 hr with hr | hr
              · exact Or.inl ⟨ps, o, List.mem_cons_self, by rw [hr, hx]⟩
              · rcases i2 r hr with ⟨ps, o, ho, hr⟩ | hr
                · exact Or.inl ⟨ps, o, List.mem_cons_of_mem _ ho, hr⟩
                · exact Or.inr hr
            · cases ys with
              | nil => cases i3
              | cons y ys => rw [List.getLast?_cons_cons]; exact i3
  obtain ⟨a, b, c⟩ := key _ d d' xs (fun x hx => by simpa using (List.mem_filter.1 hx).2) h
  refine ⟨a, fun r hr => ?_, c⟩
  rcases b r hr with ⟨ps, o, ho, hr⟩ | hr
  · exact Or.inl ⟨ps, o, (List.mem_filter.1 ho).1, hr⟩
  · exact Or.inr hr

theorem stdout_ne_csv : nameStdout ≠ nameCSV := by decide
theorem server_ne_csv : nameServer ≠ nameCSV := by decide
theorem server_ne_stdout : nameServer ≠ nameStdout := by decide

/-- C108, the server's part: with statistics disabled the server and its local instance have no reporter, and no
file is made. Missing: remote instances (C108_remote_false). -/
theorem C108_server_partial (r : TMap RFactory) (report : TMap (TMap Text)) (d : Disk) :
    serverReporters r true report d = (some [], d) ∧
      serverReporters r false report d = makeReporters r report d := ⟨rfl, rfl⟩

/-- C108 (false as stated): with statistics disabled every remote instance
reports them all the same: to the server, and on its stdout if the config has `stdout` (as it does by
default). -/
theorem C108_remote_false (e : RepEnv) (report : TMap (TMap Text)) (addr name stage : Text) (d : Disk)
    (hps : ∀ x ∈ report, x.1 = nameStdout → (parsePercentiles e.pf (optGet x.2 optPercentiles)).isSome) :
    ∃ xs, remoteReporters (builtinReporters e) true report addr name stage d = (some xs, d) ∧
      Rep.server addr name stage ∈ xs ∧
      (∀ opts, (nameStdout, opts) ∈ report → ∃ ps, Rep.stdout ps (newStdout opts) ∈ xs) := by
  have good : GoodReport e (remoteReport report addr name stage) := by
    refine ⟨fun x hx => ?_, fun x hx hn => ?_, fun x hx hn => ?_⟩
    · rcases List.mem_append.1 hx with hx | hx
      · exact Or.inl (by simpa using (List.mem_filter.1 hx).2)
      · exact Or.inr (Or.inl (by rw [List.mem_singleton.1 hx]))
    · rcases List.mem_append.1 hx with hx | hx
      · exact hps x (List.mem_filter.1 hx).1 (by simpa using (List.mem_filter.1 hx).2)
      · rw [List.mem_singleton.1 hx] at hn
        rcases hn with hn | hn
        · exact absurd hn server_ne_stdout
        · exact absurd hn server_ne_csv
    · rcases List.mem_append.1 hx with hx | hx
      · have h1 : x.1 = nameStdout := by simpa using (List.mem_filter.1 hx).2
        rw [h1] at hn
        exact absurd hn stdout_ne_csv
      · rw [List.mem_singleton.1 hx] at hn
        exact absurd hn server_ne_csv
  have hnil : csvPaths e (remoteReport report addr name stage) = [] := by
    unfold csvPaths
    rw [List.map_eq_nil_iff, List.filter_eq_nil_iff]
    intro x hx hn
    have hn : x.1 = nameCSV := by simpa using hn
    rcases List.mem_append.1 hx with hx | hx
    · have h1 : x.1 = nameStdout := by simpa using (List.mem_filter.1 hx).2
      rw [h1] at hn
      exact absurd hn stdout_ne_csv
    · rw [List.mem_singleton.1 hx] at hn
      exact absurd hn server_ne_csv
  obtain ⟨xs, d', hmk, _, _⟩ := makeReporters_good e _ d good (by rw [hnil]; intro p hp; cases hp)
    (by rw [hnil]; exact List.nodup_nil)
  have hmk' : remoteReporters (builtinReporters e) true report addr name stage d = (some xs, d') := hmk
  obtain ⟨h1, _, h3⟩ := C106_remote e true report addr name stage d d' xs hmk'
  subst h1
  refine ⟨xs, hmk', List.mem_of_mem_getLast? h3, fun opts ho => ?_⟩
  have hf := C106_made e _ _ _ _ hmk
  have hm : (nameStdout, opts) ∈ remoteReport report addr name stage :=
    List.mem_append_left _ (List.mem_filter.2 ⟨ho, by simp⟩)
  obtain ⟨i, hi, hget⟩ := List.mem_iff_getElem.1 hm
  have hlen := hf.length_eq
  have hx := (List.forall₂_iff_get.1 hf).2 i hi (hlen ▸ hi)
  simp only [List.get_eq_getElem, hget] at hx
  generalize hr : xs[i]'(hlen ▸ hi) = r at hx
  have hrm : r ∈ xs := by rw [← hr]; exact List.getElem_mem _
  generalize hn : nameStdout = n at hx
  cases hx with
  | stdout _ ps h => exact ⟨ps, hrm⟩
  | server => exact absurd hn.symm server_ne_stdout
  | csv _ p ps h hf => exact absurd hn stdout_ne_csv

/-- C105 (false as stated): the name of the CSV file without option `file` is documented as
`finch-benchmark-TIMESTAMP.csv`; it never ends with `.csv`, since the random number comes last. The random
number is one or more digits. -/
theorem C105_default_name_false (e : RepEnv) (opts : TMap Text) (d d' : Disk) (x : Rep)
    (hf : optGet opts optFile = []) (hs : ∀ s ∈ e.sufs, s ≠ [] ∧ ∀ c ∈ s, c.isDigit)
    (h : newCSV e opts d = (some x, d')) :
    ∃ p ps, x = .csv p ps ∧ ¬ ".csv".toList <:+ p := by
  unfold newCSV at h
  split at h
  · cases h
  · rename_i p d1 h1
    split at h
    · cases h
    · rename_i ps hps
      simp only [Prod.mk.injEq, Option.some.injEq] at h
      refine ⟨p, ps, h.1.symm, fun hsuf => ?_⟩
      unfold csvOpen at h1
      rw [if_pos hf] at h1
      obtain ⟨s, hm, hp, _⟩ := createTemp_spec _ h1
      obtain ⟨hne, hdig⟩ := hs s hm
      have hl : p.getLast? = s.getLast? := by
        rw [hp, List.getLast?_append_of_ne_nil _ hne]
      obtain ⟨t, ht⟩ := hsuf
      have hv : p.getLast? = some 'v' := by rw [← ht]; simp
      rw [hl] at hv
      have := hdig 'v' (List.mem_of_mem_getLast? hv)
      revert this
      decide

/-! ## Examples -/

/-- A disk with one file. -/
def exDisk : Disk := ⟨fun p => if p = "/old.csv".toList then some "1,2\n".toList else none, []⟩

/-- An environment: percentiles are parsed if they are "99" or "50". -/
def exRepEnv : RepEnv :=
  { pf := fun t => if t = "99".toList then some (.fin 99) else if t = "50".toList then some (.fin 50) else none
    path := fun t => '/' :: t
    creatable := fun _ => true
    tmpDir := "/tmp".toList
    stamp := "Nov 16 12:00:00".toList
    sufs := ["17".toList, "42".toList] }

/-- A CSV reporter with file `f` and percentiles `p`. -/
def exCsv (f p : String) : TMap (TMap Text) :=
  [(nameCSV, [(optFile, f.toList), (optPercentiles, p.toList)]), (nameStdout, [(optPercentiles, "p99".toList)])]

/-- The reporters are made: the hypotheses of C104_content and C106_made. -/
example : (makeReporters (builtinReporters exRepEnv) (exCsv "new.csv" "P50,p99") exDisk).1 =
    some [.csv "/new.csv".toList [("P50".toList, .fin 50), ("P99".toList, .fin 99)],
      .stdout [("P99".toList, .fin 99)] ⟨true, true⟩] := by decide +kernel

/-- An existing file is refused. -/
example : (makeReporters (builtinReporters exRepEnv) (exCsv "old.csv" "P50,p99") exDisk).1 = none := by
  decide +kernel

/-- Wrong percentiles: refused, and the file is there (C105_left_false). -/
example : (makeReporters (builtinReporters exRepEnv) (exCsv "new.csv" "P50,best") exDisk).1 = none ∧
    (makeReporters (builtinReporters exRepEnv) (exCsv "new.csv" "P50,best") exDisk).2.files "/new.csv".toList = some [] := by
  refine ⟨?_, ?_⟩ <;> decide +kernel

/-- A name that is not registered. -/
example : (makeReporters (builtinReporters exRepEnv) [("graphite".toList, [])] exDisk).1 = none := by decide +kernel

/-- No name: a temporary file with the number last. -/
example : (newCSV exRepEnv [] exDisk).1 =
    some (.csv "/tmp/finch-benchmark-Nov_16_12:00:00.csv17".toList defaultPercentiles) := by decide +kernel

/-- The settings are good. -/
theorem exCsv_good : GoodReport exRepEnv (exCsv "a.csv" "50") ∧ GoodReport exRepEnv (exCsv "b.csv" "99") :=
  ⟨⟨by decide +kernel, by decide +kernel, by decide +kernel⟩, ⟨by decide +kernel, by decide +kernel, by decide +kernel⟩⟩

theorem exCsv_new : (∀ p ∈ csvPaths exRepEnv (exCsv "a.csv" "50"), exDisk.files p = none) ∧
    ∀ p ∈ csvPaths exRepEnv (exCsv "b.csv" "99"), exDisk.files p = none :=
  ⟨by decide +kernel, by decide +kernel⟩

theorem exCsv_nodup : (csvPaths exRepEnv (exCsv "a.csv" "50") ++ (csvPaths exRepEnv (exCsv "b.csv" "99") ++ [])).Nodup := by
  decide +kernel

/-- Two stages with different files (C105_all_partial), and with the same (C105_same_file_false). -/
example (v : List FVal → LineEnv) (errs : Stats → Nat) (r r' : List (InstLine × List InstLine)) :
    (runReports v errs [⟨exRepEnv, exCsv "a.csv" "50", r⟩, ⟨exRepEnv, exCsv "b.csv" "99", r'⟩] exDisk).1 = true := by
  refine C105_all_partial v errs _ _ (fun s hs => ?_) (fun s hs => ?_) exCsv_nodup
  · simp only [List.mem_cons, List.not_mem_nil, or_false] at hs
    rcases hs with h | h <;> subst h
    · exact exCsv_good.1
    · exact exCsv_good.2
  · simp only [List.mem_cons, List.not_mem_nil, or_false] at hs
    rcases hs with h | h <;> subst h
    · exact exCsv_new.1
    · exact exCsv_new.2

example (v : List FVal → LineEnv) (errs : Stats → Nat) (r r' : List (InstLine × List InstLine)) :
    (runReports v errs [⟨exRepEnv, exCsv "a.csv" "50", r⟩, ⟨exRepEnv, exCsv "a.csv" "99", r'⟩] exDisk).1 = false :=
  C105_same_file_false v errs [] [] [] ⟨exRepEnv, exCsv "a.csv" "50", r⟩ ⟨exRepEnv, exCsv "a.csv" "99", r'⟩ exDisk
    [(optFile, "a.csv".toList), (optPercentiles, "50".toList)] [(optFile, "a.csv".toList), (optPercentiles, "99".toList)]
    List.mem_cons_self List.mem_cons_self (by decide +kernel) (by decide +kernel) rfl

/-- A remote instance, also with statistics disabled. -/
example : (remoteReporters (builtinReporters exRepEnv) true (exCsv "a.csv" "50") "srv".toList "n1".toList "id7".toList
    exDisk).1 = some [.stdout [("P99".toList, .fin 99)] ⟨true, true⟩, .server "srv".toList "n1".toList "id7".toList] := by
  decide +kernel

end Finch
