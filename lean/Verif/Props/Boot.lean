import Verif.Model.Boot
import Verif.Props.Load
import Verif.Props.Port
/-!
Properties of starting the program (Model/Boot).
-/
namespace Finch

/-- The stages that were run, with their directories. -/
def stagesOf (l : List BootEff) : List (Text × Nat × StageConf) :=
  l.filterMap fun e => match e with | .stage d n c => some (d, n, c) | _ => none

/-- The stage and everything before it went well, and CTRL-C was not pressed until its end. -/
def BootWorld.fine (W : BootWorld) (p : Nat × StageConf) : Bool :=
  W.chdir (W.dir p.2.file) && W.run p.1 p.2 = .ok () && !W.cancelled p.1

/-- **C100.** Help or the version is printed if asked for, help first; nothing else is done, whatever the other
options are, and the exit status is 0. -/
theorem C100_help (W : BootWorld) (args : List Text) :
    ((W.parse args).2 = .help → boot W args = ([.help], .exit 0)) ∧
    ((W.parse args).2 ≠ .other → (W.parse args).1.help = true → boot W args = ([.help], .exit 0)) ∧
    ((W.parse args).2 = .version → (W.parse args).1.help = false → boot W args = ([.version], .exit 0)) ∧
    ((W.parse args).2 = .none → (W.parse args).1.help = false → (W.parse args).1.version = true →
      boot W args = ([.version], .exit 0)) ∧
    ((W.parse args).2 = .other → boot W args = ([], .exit 1)) := by
  unfold boot parseCommandLine
  cases h : W.parse args with
  | mk c e =>
    refine ⟨?_, ?_, ?_, ?_, ?_⟩
    · rintro ⟨⟩; rfl
    · cases e <;> simp_all
    · rintro ⟨⟩ hh; simp_all
    · rintro ⟨⟩ hh hv; simp_all
    · rintro ⟨⟩; rfl

/-- An effect of running as server. -/
def BootEff.ofServer : BootEff → Bool
  | .load .. | .server .. | .stage .. => true
  | _ => false

theorem serverRun_ofServer (W : BootWorld) : ∀ l, ∀ e ∈ (serverRun W l).1, ∃ d n c, e = .stage d n c
  | [], e, he => by simp [serverRun] at he
  | (n, c) :: rest, e, he => by
    have ih := serverRun_ofServer W rest e
    unfold serverRun at he
    split at he
    · simp at he
    · split at he
      · simp only [List.mem_singleton] at he
        exact ⟨_, _, _, he⟩
      · simp only [List.mem_singleton] at he
        exact ⟨_, _, _, he⟩
      · split at he
        · simp only [List.mem_singleton] at he
          exact ⟨_, _, _, he⟩
        · rcases List.mem_cons.1 he with he | he
          · exact ⟨_, _, _, he⟩
          · exact ih he

theorem bootServer_ofServer (W : BootWorld) (c : CmdLine) : ∀ e ∈ (bootServer W c).1, e.ofServer = true := by
  intro e he
  unfold bootServer at he
  split at he
  · simp at he
  · split at he
    · simp at he
    · split at he
      · simp only [List.mem_singleton] at he; subst he; rfl
      · simp only [List.mem_singleton] at he; subst he; rfl
      · rcases List.mem_cons.1 he with he | he
        · subst he; rfl
        · rcases List.mem_cons.1 he with he | he
          · subst he; rfl
          · obtain ⟨d, n, c', rfl⟩ := serverRun_ofServer W _ e he
            rfl

/-- **C100.** A client loads and runs no stages of its own, a server connects to no other server. With
`--client` the program is a client, of the address given, on the default port if it has none; the exit
status says whether the client returned an error. -/
theorem C100_client (W : BootWorld) (args : List Text) :
    ((∃ a, BootEff.client a ∈ (boot W args).1) → ∀ e ∈ (boot W args).1, e.ofServer = false) ∧
    ∀ c, W.parse args = (c, .none) → c.help = false → c.version = false → c.client ≠ [] →
      (c.cpuProfile = [] ∨ W.create c.cpuProfile = true) →
      BootEff.client (withPort c.client "33075".toList) ∈ (boot W args).1 ∧
      (boot W args).2 = .exit (if W.clientRun (withPort c.client "33075".toList) then 0 else 1) := by
  constructor
  · rintro ⟨a, ha⟩ e he
    unfold boot at ha he
    split at he
    · simp at he
    · rename_i c hc
      simp only [hc] at ha
      split at he
      · simp only [List.mem_singleton] at he; subst he; rfl
      · rename_i h1
        split at he
        · simp only [List.mem_singleton] at he; subst he; rfl
        · rename_i h2
          split at he
          · simp at he
          · rename_i h3
            have hprof : ∀ e ∈ (if c.cpuProfile = [] then [] else [BootEff.profile c.cpuProfile]),
                e.ofServer = false ∧ ∀ a, e ≠ .client a := by
              intro e he
              split at he
              · simp at he
              · simp only [List.mem_singleton] at he; subst he; exact ⟨rfl, by simp⟩
            by_cases h4 : c.client ≠ []
            · simp only [if_pos h4] at he
              rcases List.mem_append.1 he with he | he
              · exact (hprof e he).1
              · simp only [List.mem_singleton] at he; subst he; rfl
            · rw [if_neg h1, if_neg h2, if_neg h3] at ha
              simp only [if_neg h4] at ha
              rcases List.mem_append.1 ha with ha | ha
              · exact absurd rfl ((hprof _ ha).2 a)
              · have := bootServer_ofServer W c _ ha
                cases this
  · intro c hp hh hv hc hprof
    unfold boot parseCommandLine
    rw [hp]
    have h3 : (decide (c.cpuProfile ≠ []) && !W.create c.cpuProfile) = false := by
      rcases hprof with h | h <;> simp [h]
    simp only [hh, hv, h3, Bool.false_eq_true, if_false, if_pos hc]
    refine ⟨by simp [defaultServerPort], ?_⟩
    show (if W.clientRun (withPort c.client "33075".toList) = true then BootEnd.exit 0 else .exit 1) = _
    split <;> rfl

/-- What `Server.Run` does: it runs the stages in order up to the first that is not fine. -/
theorem serverRun_spec (W : BootWorld) : ∀ l,
    (∀ p ∈ l, W.fine p = true) ∧ (stagesOf (serverRun W l).1) = l.map (fun p => (W.dir p.2.file, p.1, p.2)) ∧
      (serverRun W l).2 = .ok () ∨
    ∃ pre p post, l = pre ++ p :: post ∧ (∀ x ∈ pre, W.fine x = true) ∧ W.fine p = false ∧
      ((W.chdir (W.dir p.2.file) = false ∧ (serverRun W l).2 = .err ∧
        stagesOf (serverRun W l).1 = pre.map (fun p => (W.dir p.2.file, p.1, p.2))) ∨
       (W.chdir (W.dir p.2.file) = true ∧ (serverRun W l).2 = W.run p.1 p.2 ∧
        stagesOf (serverRun W l).1 = (pre ++ [p]).map (fun p => (W.dir p.2.file, p.1, p.2))))
  | [] => by simp [serverRun, stagesOf]
  | (n, c) :: rest => by
    unfold serverRun
    by_cases hch : W.chdir (W.dir c.file)
    · simp only [hch, Bool.not_true, Bool.false_eq_true, if_false]
      cases hr : W.run n c with
      | panic =>
        exact Or.inr ⟨[], (n, c), rest, rfl, by simp, by simp [BootWorld.fine, hr], Or.inr ⟨hch, hr.symm, rfl⟩⟩
      | err =>
        exact Or.inr ⟨[], (n, c), rest, rfl, by simp, by simp [BootWorld.fine, hr], Or.inr ⟨hch, hr.symm, rfl⟩⟩
      | ok u =>
        by_cases hca : W.cancelled n
        · simp only [hca, if_true]
          exact Or.inr ⟨[], (n, c), rest, rfl, by simp, by simp [BootWorld.fine, hca], Or.inr ⟨hch, hr.symm, rfl⟩⟩
        · simp only [hca, Bool.false_eq_true, if_false]
          have hf : W.fine (n, c) = true := by
            simp only [Bool.not_eq_true] at hca
            simp [BootWorld.fine, hch, hr, hca]
          have hs : ∀ l, stagesOf (BootEff.stage (W.dir c.file) n c :: l) =
            (W.dir c.file, n, c) :: stagesOf l := fun l => rfl
          rcases serverRun_spec W rest with ⟨h1, h2, h3⟩ | ⟨pre, p, post, h1, h2, h3, h4⟩
          · left
            refine ⟨?_, ?_, h3⟩
            · intro p hp
              rcases List.mem_cons.1 hp with rfl | hp
              · exact hf
              · exact h1 p hp
            · rw [hs, h2]; rfl
          · right
            refine ⟨(n, c) :: pre, p, post, by rw [h1]; rfl, ?_, h3, ?_⟩
            · intro x hx
              rcases List.mem_cons.1 hx with rfl | hx
              · exact hf
              · exact h2 x hx
            · rcases h4 with ⟨a, b, d⟩ | ⟨a, b, d⟩
              · exact Or.inl ⟨a, b, by rw [hs, d]; rfl⟩
              · exact Or.inr ⟨a, b, by rw [hs, d]; rfl⟩
    · simp only [Bool.not_eq_true] at hch
      simp only [hch, Bool.not_false, if_true]
      exact Or.inr ⟨[], (n, c), rest, rfl, by simp, by simp [BootWorld.fine, hch], Or.inl ⟨hch, by simp, rfl⟩⟩

/-- The command line asks for running stages. -/
structure ServerMode (W : BootWorld) (args : List Text) (c : CmdLine) (prog : Text) (files : List Text) : Prop where
  parse : W.parse args = (c, .none)
  help : c.help = false
  version : c.version = false
  client : c.client = []
  profile : c.cpuProfile = [] ∨ W.create c.cpuProfile = true
  args : c.args = prog :: files

theorem boot_serverMode {W : BootWorld} {args : List Text} {c : CmdLine} {prog : Text} {files : List Text}
    (h : ServerMode W args c prog files) : (boot W args).2 = (bootServer W c).2 ∧
    stagesOf (boot W args).1 = stagesOf (bootServer W c).1 := by
  have h3 : (decide (c.cpuProfile ≠ []) && !W.create c.cpuProfile) = false := by
    rcases h.profile with h | h <;> simp [h]
  have hc : ¬ (c.client ≠ []) := by simp [h.client]
  unfold boot parseCommandLine
  rw [h.parse]
  simp only [h.help, h.version, h3, Bool.false_eq_true, if_false, if_neg hc]
  refine ⟨trivial, ?_⟩
  unfold stagesOf
  rw [List.filterMap_append]
  by_cases hp : c.cpuProfile = [] <;> simp [hp]

/-- **C100.** Stages are run only if all files can be loaded. They are run in the order of the command line,
each in its own directory, and the exit status is 0, as long as each returns no error and CTRL-C is not
pressed; the first with an error is the last and the exit status is 1, as if its directory is not there; the first during which CTRL-C is
pressed is the last too, and the exit status is that of its own result. -/
theorem C100_stages {W : BootWorld} {args : List Text} {c : CmdLine} {prog : Text} {files : List Text}
    (h : ServerMode W args c prog files) (hf : files ≠ []) :
    (W.load files c.params c.dsn c.db = .err → stagesOf (boot W args).1 = [] ∧ (boot W args).2 = .exit 1) ∧
    ∀ l, W.load files c.params c.dsn c.db = .ok l →
      ((∀ p ∈ l, W.fine p = true) → (boot W args).2 = .exit 0 ∧
        stagesOf (boot W args).1 = l.map (fun p => (W.dir p.2.file, p.1, p.2))) ∧
      (∀ pre p post, l = pre ++ p :: post → (∀ x ∈ pre, W.fine x = true) → W.fine p = false →
        W.chdir (W.dir p.2.file) = true → W.run p.1 p.2 ≠ .panic →
        stagesOf (boot W args).1 = (pre ++ [p]).map (fun p => (W.dir p.2.file, p.1, p.2)) ∧
        (boot W args).2 = .exit (if W.run p.1 p.2 = .ok () then 0 else 1)) ∧
      (∀ pre p post, l = pre ++ p :: post → (∀ x ∈ pre, W.fine x = true) →
        W.chdir (W.dir p.2.file) = false →
        stagesOf (boot W args).1 = pre.map (fun p => (W.dir p.2.file, p.1, p.2)) ∧ (boot W args).2 = .exit 1) := by
  obtain ⟨e1, e2⟩ := boot_serverMode h
  rw [e1, e2]
  have hn1 : ¬ c.args.length = 1 := by
    rw [h.args]
    cases files with
    | nil => exact absurd rfl hf
    | cons _ _ => simp
  have hn0 : ¬ c.args.length = 0 := by rw [h.args]; simp
  have hd : c.args.drop 1 = files := by rw [h.args]; rfl
  unfold bootServer
  rw [if_neg hn1, if_neg hn0, hd]
  constructor
  · intro hl
    simp only [hl]
    exact ⟨rfl, trivial⟩
  · intro l hl
    simp only [hl]
    have hs : ∀ (a : BootEff) (b : Option Text) (t : Bool) (x : List BootEff), a = .load files c.params c.dsn c.db →
        stagesOf (a :: .server b t :: x) = stagesOf x := by
      rintro a b t x rfl; rfl
    rw [hs _ _ _ _ rfl]
    -- a split into the fine ones and the first that is not fine is unique
    have huniq : ∀ (pre pre' : List (Nat × StageConf)) (p p' : Nat × StageConf) (post post' : List (Nat × StageConf)),
        pre ++ p :: post = pre' ++ p' :: post' → (∀ x ∈ pre, W.fine x = true) → W.fine p = false →
        (∀ x ∈ pre', W.fine x = true) → W.fine p' = false → pre = pre' ∧ p = p' := by
      intro pre
      induction pre with
      | nil =>
        intro pre' p p' post post' he _ hp hx' _
        cases pre' with
        | nil => cases he; exact ⟨rfl, rfl⟩
        | cons y ys =>
          cases he
          have := hx' p (by simp)
          rw [this] at hp; cases hp
      | cons x xs ih =>
        intro pre' p p' post post' he hx hp hx' hp'
        cases pre' with
        | nil =>
          cases he
          have := hx x (by simp)
          rw [this] at hp'; cases hp'
        | cons y ys =>
          simp only [List.cons_append, List.cons.injEq] at he
          obtain ⟨h1, h2⟩ := ih ys p p' post post' he.2 (fun z hz => hx z (by simp [hz])) hp
            (fun z hz => hx' z (by simp [hz])) hp'
          exact ⟨by rw [he.1, h1], h2⟩
    refine ⟨?_, ?_, ?_⟩
    · intro hall
      rcases serverRun_spec W l with ⟨_, h2, h3⟩ | ⟨pre, p, post, h1, _, h3, _⟩
      · rw [h3]; exact ⟨rfl, h2⟩
      · have := hall p (by simp [h1])
        rw [this] at h3; cases h3
    · intro pre p post hl' hpre hp hch hnp
      rcases serverRun_spec W l with ⟨h1, _, _⟩ | ⟨pre', p', post', h1, h2, h3, h4⟩
      · have := h1 p (by simp [hl'])
        rw [this] at hp; cases hp
      · obtain ⟨rfl, rfl⟩ := huniq pre pre' p p' post post' (hl'.symm.trans h1) hpre hp h2 h3
        rcases h4 with ⟨a, _, _⟩ | ⟨_, b, d⟩
        · rw [hch] at a; cases a
        · rw [b]
          refine ⟨d, ?_⟩
          cases hr : W.run p.1 p.2 with
          | ok u => rfl
          | err => rfl
          | panic => exact absurd hr hnp
    · intro pre p post hl' hpre hch
      have hp : W.fine p = false := by simp [BootWorld.fine, hch]
      rcases serverRun_spec W l with ⟨h1, _, _⟩ | ⟨pre', p', post', h1, h2, h3, h4⟩
      · have := h1 p (by simp [hl'])
        rw [this] at hp; cases hp
      · obtain ⟨rfl, rfl⟩ := huniq pre pre' p p' post post' (hl'.symm.trans h1) hpre hp h2 h3
        rcases h4 with ⟨_, b, d⟩ | ⟨a, _, _⟩
        · rw [b]; exact ⟨d, rfl⟩
        · rw [hch] at a; cases a

/-- **C100.** If the file for the CPU profile cannot be created nothing is done and the exit status is 1; otherwise it is
created before anything else. -/
theorem C100_profile {W : BootWorld} {args : List Text} {c : CmdLine} (hp : W.parse args = (c, .none))
    (hh : c.help = false) (hv : c.version = false) (hc : c.cpuProfile ≠ []) :
    (W.create c.cpuProfile = false → boot W args = ([], .exit 1)) ∧
    (W.create c.cpuProfile = true → (boot W args).1.head? = some (.profile c.cpuProfile)) := by
  unfold boot parseCommandLine
  rw [hp]
  simp only [hh, hv, Bool.false_eq_true, if_false]
  constructor
  · intro h
    simp [h, hc]
  · intro h
    simp only [h, Bool.not_true, Bool.and_false, Bool.false_eq_true, if_false, if_neg hc]
    split <;> rfl

/-- **C100.** Without a stage file nothing is run and the exit status is 1. -/
theorem C100_no_file {W : BootWorld} {args : List Text} {c : CmdLine} {prog : Text}
    (h : ServerMode W args c prog []) : stagesOf (boot W args).1 = [] ∧ (boot W args).2 = .exit 1 := by
  obtain ⟨e1, e2⟩ := boot_serverMode h
  rw [e1, e2]
  unfold bootServer
  rw [if_pos (by rw [h.args]; rfl)]
  exact ⟨rfl, rfl⟩

/-- **C100**, from the command line to the stages: with `config.Load` as modelled, if the exit status is 0 and CTRL-C
is not pressed, then for every file on the command line exactly one stage was run, in this order, and it is
what the file says (`LoadEnv.stage`). -/
theorem C100_end_to_end {W : BootWorld} {args : List Text} {c : CmdLine} {prog : Text} {files : List Text}
    (h : ServerMode W args c prog files) {E : LoadEnv} {cwd : Text} (hE : E.Ok cwd)
    (hload : ∀ fs kv, W.load fs kv c.dsn c.db = load E cwd fs kv)
    (hnc : ∀ n, W.cancelled n = false) (hx : (boot W args).2 = .exit 0) :
    (stagesOf (boot W args).1).length = files.length ∧
    ∀ i f, files[i]? = some f → ∃ s, E.stage cwd (cmdParams c.params) i f = some s ∧
      (stagesOf (boot W args).1)[i]? = some (W.dir s.file, i + 1, s) := by
  have hf : files ≠ [] := by
    rintro rfl
    rw [(C100_no_file h).2] at hx
    cases hx
  obtain ⟨hc1, hc2⟩ := C100_stages h hf
  rw [hload] at hc1 hc2
  cases hl : load E cwd files c.params with
  | panic => exact absurd hl (C99_each hE files c.params).2.2
  | err => rw [(hc1 hl).2] at hx; cases hx
  | ok l =>
    obtain ⟨h1, h2, _⟩ := hc2 l hl
    obtain ⟨hlen, hget⟩ := (C99_each hE files c.params).1 l hl
    have hall : ∀ p ∈ l, W.fine p = true := by
      rcases serverRun_spec W l with ⟨h, _, _⟩ | ⟨pre, p, post, ha, hb, hc, hd⟩
      · exact h
      · exfalso
        obtain ⟨e1, _⟩ := boot_serverMode h
        have hn1 : ¬ c.args.length = 1 := by
          rw [h.args]
          cases files with
          | nil => exact absurd rfl hf
          | cons _ _ => simp
        have hn0 : ¬ c.args.length = 0 := by rw [h.args]; simp
        have hdr : c.args.drop 1 = files := by rw [h.args]; rfl
        rw [e1] at hx
        unfold bootServer at hx
        rw [if_neg hn1, if_neg hn0, hdr, hload] at hx
        simp only [hl] at hx
        rcases hd with ⟨_, hd, _⟩ | ⟨hch, hd, _⟩
        · rw [hd] at hx; cases hx
        · rw [hd] at hx
          cases hr : W.run p.1 p.2 with
          | ok u => simp [BootWorld.fine, hch, hr, hnc] at hc
          | err => rw [hr] at hx; cases hx
          | panic => rw [hr] at hx; cases hx
    rw [(h1 hall).2]
    refine ⟨by simp [hlen], ?_⟩
    intro i f hi
    obtain ⟨s, hs, hg⟩ := hget i f hi
    exact ⟨s, hs, by simp [hg]⟩

/-- **C100.** The program does not crash by itself: it is started with its own name as first argument,
and neither loading nor a stage crashes. -/
theorem C100_no_panic {W : BootWorld} {args : List Text}
    (hargs : ∀ c, W.parse args = (c, .none) → c.args ≠ [])
    (hload : ∀ fs kv dsn db, W.load fs kv dsn db ≠ .panic) (hrun : ∀ n c, W.run n c ≠ .panic) :
    (boot W args).2 ≠ .panic := by
  unfold boot parseCommandLine
  cases hp : W.parse args with
  | mk c e =>
    cases e with
    | other => simp
    | help => simp
    | version => by_cases hh : c.help <;> simp [hh]
    | none =>
      simp only []
      split
      · simp
      · split
        · simp
        · split
          · simp
          · split
            · simp only []; split <;> simp
            · simp only []
              unfold bootServer
              split
              · simp
              · split
                · rename_i h0
                  exact absurd (List.length_eq_zero_iff.1 h0) (hargs c hp)
                · split
                  · rename_i hl
                    exact absurd hl (hload _ _ _ _)
                  · simp
                  · rename_i l _
                    simp only []
                    rcases serverRun_spec W l with ⟨_, _, h3⟩ | ⟨pre, p, post, _, _, _, h4⟩
                    · rw [h3]; simp [outEnd]
                    · rcases h4 with ⟨_, h4, _⟩ | ⟨_, h4, _⟩
                      · rw [h4]; simp [outEnd]
                      · rw [h4]
                        cases hr : W.run p.1 p.2 with
                        | panic => exact absurd hr (hrun _ _)
                        | ok u => simp [outEnd]
                        | err => simp [outEnd]

/-! ### Examples -/

/-- Like `finch d/a d/b`; the second stage fails. -/
def exBootWorld : BootWorld where
  parse args := ({ args := args, db := "test".toList }, .none)
  create _ := true
  clientRun _ := true
  load fs kv _ _ := load exLoadEnv "/".toList fs kv
  dir f := f.take 2
  chdir _ := true
  run n _ := if n = 2 then .err else .ok ()
  cancelled _ := false

def exArgs : List Text := ["finch".toList, "d/a".toList, "d/b".toList, "d/a".toList]

example : ServerMode exBootWorld exArgs { args := exArgs, db := "test".toList } "finch".toList
    ["d/a".toList, "d/b".toList, "d/a".toList] :=
  ⟨rfl, rfl, rfl, rfl, Or.inl rfl, rfl⟩

example : ((stagesOf (boot exBootWorld exArgs).1).map fun p => (p.1, p.2.1)) = [("/d".toList, 1), ("/d".toList, 2)] ∧
    (boot exBootWorld exArgs).2 = .exit 1 := by
  refine ⟨?_, ?_⟩ <;> decide +kernel

example : ((stagesOf (boot { exBootWorld with run := fun _ _ => .ok () } exArgs).1).map fun p => (p.1, p.2.1)) =
      [("/d".toList, 1), ("/d".toList, 2), ("/d".toList, 3)] ∧
    (boot { exBootWorld with run := fun _ _ => .ok () } exArgs).2 = .exit 0 := by
  refine ⟨?_, ?_⟩ <;> decide +kernel

/-- Without any argument, not even the name of the program, it does crash. -/
example : (boot exBootWorld []).2 = .panic := by decide +kernel

/-- A client. -/
example : boot { exBootWorld with parse := fun args => ({ args := args, client := "h".toList }, .none) } exArgs =
    ([.client "h:33075".toList], .exit 0) := by decide +kernel

end Finch
