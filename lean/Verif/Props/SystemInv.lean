import Verif.Props.SystemInst
import Mathlib.Data.List.Perm.Subperm
/-!
A distributed run as a whole: the stages, and the invariant of all executions without loss (for C101, C102).
-/
namespace Finch

/-- The stage that the server is working on. -/
def Phase.stage : Phase → Option Nat
  | .idle => none
  | .ackLocal m => some m
  | .setStage m => some m
  | .switching _ m => some m
  | .boot m _ => some m
  | .setBooted m => some m
  | .release m => some m
  | .run m _ => some m
  | .stopping _ m _ => some m
  | .stopped => none

/-- What holds for the stages. -/
structure YInv (s : Sys) : Prop where
  test : s.c.test = false
  noStop : ∀ o m n, s.c.phase ≠ .stopping o m n
  rel : ∀ m, s.c.phase = .release m → (s.c.st m).runClosed = false
  rc0 : ∀ m, (s.c.st m).runClosed = false → s.dones m = [] ∧ (s.c.st m).doneQ = []
  nodup : ∀ m, (s.dones m).Nodup
  mem : ∀ m, ∀ w ∈ s.dones m, w ∈ (s.c.st m).oks.map (·.who)
  loc : ∀ m, none ∈ s.dones m ↔ (s.c.st m).localDone = true
  run : ∀ m n, s.c.phase = .run m n → n ≤ (s.c.st m).nInst ∧ (s.c.st m).runClosed = true ∧
    (s.dones m).length + n = (s.c.st m).nInst + (s.c.st m).doneQ.length
  over : ∀ m, m < s.c.nSt → s.c.phase.stage ≠ some m → (s.dones m).length = (s.c.st m).nInst ∧
    (s.c.st m).runClosed = true
  full : ∀ m, (s.c.st m).booted = true → ∀ n o, cget n (s.c.st m).clients = some o → n ∈ okNames (s.c.st m).oks
  locOk : ∀ m, (s.c.st m).booted = true → (s.c.st m).hasLocal = true → none ∈ (s.c.st m).oks.map (·.who)
  done : ∀ m, (s.c.st m).done = true → (s.c.st m).clients = []

/-- What holds in every execution without loss. -/
structure SysInv (P : SysCfg) (s : Sys) : Prop where
  srv : SReach false s.c
  inst : ∀ n, NInv P s n
  glob : YInv s

/-- What the steps of the stages need. -/
structure WInv (s : Sys) : Prop where
  srv : SReach false s.c
  glob : YInv s
  noc : ∀ m n, some n ∈ s.dones m → NoC s.c n
  send : ∀ i hd, s.c.hs i = some hd → hd.pc = .sendDone → ∃ m, (s.c.objs hd.obj).stage = m ∧
    hd.name ∈ okNames (s.c.st m).oks ∧ (s.c.st m).runClosed = true ∧ some hd.name ∉ s.dones m

theorem okNames_who {l : List BAck} {n : Nat} (h : n ∈ okNames l) : some n ∈ l.map (·.who) := by
  obtain ⟨a, ha, hb⟩ := List.mem_filterMap.mp h
  split at hb
  · exact List.mem_map.mpr ⟨a, ha, hb⟩
  · cases hb

theorem who_okNames {l : List BAck} (ho : ∀ a ∈ l, a.ok = true) {n : Nat} (h : some n ∈ l.map (·.who)) :
    n ∈ okNames l := by
  obtain ⟨a, ha, hb⟩ := List.mem_map.mp h
  exact List.mem_filterMap.mpr ⟨a, ha, by rw [if_pos (ho a ha)]; exact hb⟩

/-- A list without duplicates in another one of the same length has all of its elements. -/
theorem mem_of_full {α : Type} {l l' : List α} (h1 : l.Nodup) (h2 : ∀ x ∈ l, x ∈ l') (h3 : l.length = l'.length)
    {x : α} (hx : x ∈ l') : x ∈ l := by
  have := (List.subperm_of_subset h1 h2).perm_of_length_le (Nat.le_of_eq h3.symm)
  exact this.symm.subset hx

theorem length_le_of_subset {α : Type} {l l' : List α} (h1 : l.Nodup) (h2 : ∀ x ∈ l, x ∈ l') : l.length ≤ l'.length :=
  (List.subperm_of_subset h1 h2).length_le

theorem cget_key {k o : Nat} {l : List (Nat × Nat)} (h : cget k l = some o) : k ∈ l.map (·.1) := by
  unfold cget at h
  obtain ⟨l1, l2, e, _⟩ := List.lookup_eq_some_iff.mp h
  rw [e]; simp

theorem key_cget {k : Nat} : ∀ {l : List (Nat × Nat)}, k ∈ l.map (·.1) → ∃ o, cget k l = some o
  | (a, b) :: l, h => by
    by_cases e : k = a
    · exact ⟨b, by simp [cget, List.lookup, e]⟩
    · have hb : (k == a) = false := beq_eq_false_iff_ne.mpr e
      have : k ∈ l.map (·.1) := by
        rcases List.mem_cons.mp h with h | h
        · exact absurd h e
        · exact h
      obtain ⟨o, ho⟩ := key_cget this
      exact ⟨o, by simp only [cget, List.lookup, hb]; exact ho⟩

theorem nil_of_cget {l : List (Nat × Nat)} (h : ∀ k o, cget k l ≠ some o) : l = [] := by
  cases l with
  | nil => rfl
  | cons e l => exact absurd (by simp [cget, List.lookup] : cget e.1 (e :: l) = some e.2) (h _ _)

theorem nLocal_pos {l : List BAck} (h : 0 < nLocal l) : none ∈ l.map (·.who) := by
  unfold nLocal at h
  obtain ⟨a, ha, hb⟩ := List.countP_pos_iff.mp h
  exact List.mem_map.mpr ⟨a, ha, by simpa using hb⟩

/-- When all instances have acknowledged. -/
theorem boot_count {c : CSt} (u : UInv c) (v : SInv false c) {m : Nat} (hrc : (c.st m).runClosed = false)
    (hlen : (c.st m).oks.length = (c.st m).nInst) (hpos : (c.st m).hasLocal = true → 0 < (c.st m).nInst) :
    (∀ n o, cget n (c.st m).clients = some o → n ∈ okNames (c.st m).oks) ∧
    ((c.st m).hasLocal = true → none ∈ (c.st m).oks.map (·.who)) := by
  have a := v.ack m hrc
  have hnd := v.dist m
  have sub : ∀ k ∈ okNames (c.st m).oks, k ∈ (c.st m).clients.map (·.1) := by
    intro k hk
    obtain ⟨o, h1, _⟩ := a.member k (by rw [okNames_append]; exact List.mem_append.mpr (Or.inl hk))
    exact cget_key h1
  have l1 := length_le_of_subset hnd sub
  rw [List.length_map] at l1
  have l2 := u.len m
  have l3 := u.rem m
  have l4 := okNames_length _ (u.oks m)
  have l5 := u.loc m
  rw [nLocal_append] at l5
  refine ⟨?_, ?_⟩
  · intro n o hn
    by_contra hcon
    have := length_le_of_subset (l := n :: okNames (c.st m).oks) (l' := (c.st m).clients.map (·.1))
      (List.nodup_cons.mpr ⟨hcon, hnd⟩) (by
        intro x hx
        rcases List.mem_cons.mp hx with h | h
        · rw [h]; exact cget_key hn
        · exact sub x h)
    rw [List.length_map, List.length_cons] at this
    split at l3 <;> rename_i hl
    · have := hpos hl; rw [if_pos hl] at l5; omega
    · rw [if_neg hl] at l5; omega
  · intro hl
    have := hpos hl
    rw [if_pos hl] at l3
    exact nLocal_pos (by omega)

theorem WInv.u {s : Sys} (I : WInv s) : UInv s.c := I.srv.reach.uinv
theorem WInv.v {s : Sys} (I : WInv s) : SInv false s.c := I.srv.sinv

/-- The successful acks of a booted stage are of different instances. -/
theorem WInv.whoNodup {s : Sys} (I : WInv s) (m : Nat) : ((s.c.st m).oks.map (·.who)).Nodup := by
  refine who_nodup _ (I.u.oks m) ?_ (I.v.dist m)
  have := I.u.loc m
  rw [nLocal_append] at this
  split at this <;> omega

theorem WInv.donesLe {s : Sys} (I : WInv s) {m : Nat} (h : (s.c.st m).runClosed = true) :
    (s.dones m).length ≤ (s.c.st m).nInst := by
  have := length_le_of_subset (I.glob.nodup m) (I.glob.mem m)
  rw [List.length_map, I.u.booted m (I.u.closed m h)] at this
  exact this

/-- All instances of a stage that is over have sent the ack of the end. -/
theorem WInv.overAll {s : Sys} (I : WInv s) {m : Nat} (h : m < s.c.nSt)
    (hp : s.c.phase.stage ≠ some m) {w : Option Nat} (hw : w ∈ (s.c.st m).oks.map (·.who)) : w ∈ s.dones m := by
  obtain ⟨h1, h2⟩ := I.glob.over m h hp
  refine mem_of_full (I.glob.nodup m) (I.glob.mem m) ?_ hw
  rw [List.length_map, I.u.booted m (I.u.closed m h2)]
  exact h1

/-- A stage that is over has no clients. -/
theorem WInv.overClients {s : Sys} (I : WInv s) {m : Nat} (h : m < s.c.nSt)
    (hp : s.c.phase.stage ≠ some m) : (s.c.st m).clients = [] := by
  obtain ⟨_, h2⟩ := I.glob.over m h hp
  refine nil_of_cget ?_
  intro n o hn
  have h3 := I.glob.full m (I.u.closed m h2) n o hn
  have h4 := I.overAll h hp (okNames_who h3)
  have := I.noc m n h4 m
  rw [hn] at this
  cases this

/-- Where a stage is after the run signal. -/
theorem WInv.closedPhase {s : Sys} (I : WInv s) {m : Nat} (h : (s.c.st m).runClosed = true) :
    (∃ n, s.c.phase = .run m n) ∨ (m < s.c.nSt ∧ s.c.phase.stage ≠ some m) := by
  have hb := I.u.closed m h
  have hlt : m < s.c.nSt := by
    by_contra hcon
    have := I.u.fresh m (by omega)
    rw [this] at h
    cases h
  by_cases hp : s.c.phase.stage = some m
  · left
    have hph := I.u.phase
    unfold PhaseOk at hph
    cases hs : s.c.phase <;> rw [hs] at hp hph <;> simp only [Phase.stage, Option.some.injEq, reduceCtorEq] at hp <;>
      subst hp <;> simp only [] at hph
    · rw [hph.2.2.1] at hb; cases hb
    · rw [hph.2.2] at hb; cases hb
    · rw [hph.2.2.1] at hb; cases hb
    · rw [hph.2.2.2] at hb; cases hb
    · rw [hph.2.2] at hb; cases hb
    · rw [I.glob.rel _ hs] at h; cases h
    · exact ⟨_, rfl⟩
    · exact absurd hs (I.glob.noStop _ _ _)
  · exact Or.inr ⟨hlt, hp⟩

/-- A stage after the run signal whose instance `w` has not sent the ack of the end is being run. -/
theorem WInv.running {s : Sys} (I : WInv s) {m : Nat} (h : (s.c.st m).runClosed = true)
    {w : Option Nat} (hw : w ∈ (s.c.st m).oks.map (·.who)) (hn : w ∉ s.dones m) : ∃ n, s.c.phase = .run m n := by
  rcases I.closedPhase h with h | ⟨h1, h2⟩
  · exact h
  · exact absurd (I.overAll h1 h2 hw) hn

/-! ### Steps of the stages -/

/-- Steps that do not change the stages. -/
theorem YInv.same {s s' : Sys} (g : YInv s) (h1 : s'.c.st = s.c.st) (h2 : s'.c.phase = s.c.phase)
    (h3 : s'.c.test = s.c.test) (h4 : s'.dones = s.dones) (h5 : s'.c.nSt = s.c.nSt) : YInv s' := by
  refine ⟨?_, ?_, ?_, ?_, ?_, ?_, ?_, ?_, ?_, ?_, ?_, ?_⟩
  · rw [h3]; exact g.test
  · rw [h2]; exact g.noStop
  · rw [h1, h2]; exact g.rel
  · rw [h1, h4]; exact g.rc0
  · rw [h4]; exact g.nodup
  · rw [h1, h4]; exact g.mem
  · rw [h1, h4]; exact g.loc
  · rw [h1, h2, h4]; exact g.run
  · rw [h1, h2, h4, h5]; exact g.over
  · rw [h1]; exact g.full
  · rw [h1]; exact g.locOk
  · rw [h1]; exact g.done

/-- A step of a request. -/
theorem WInv.ghstep {s : Sys} (I : WInv s) {i : Nat} {hd : Handler} (hi : s.c.hs i = some hd)
    {c' : CSt} (h : s.c.hstep i false = some c') : YInv ⟨c', s.r, s.noteCfg i, s.noteDone i⟩ := by
  have g := I.glob
  have hf := hstep_frame h
  have hm := hstep_more hi h
  have full : ∀ m, (c'.st m).booted = true → ∀ n o, cget n (c'.st m).clients = some o →
      n ∈ okNames (c'.st m).oks := by
    intro m hb n o hn
    rw [(hf.metas m).booted] at hb
    rw [(hf.metas m).oks]
    rcases (hf.metas m).clients with ⟨hsub, _⟩ | ⟨_, hnb, _⟩
    · have hk := cget_key hn
      obtain ⟨e, he, he'⟩ := List.mem_map.mp hk
      have : n ∈ (s.c.st m).clients.map (·.1) := List.mem_map.mpr ⟨e, hsub e he, he'⟩
      obtain ⟨o', ho'⟩ := key_cget this
      exact g.full m hb n o' ho'
    · rw [hnb] at hb; cases hb
  have done : ∀ m, (c'.st m).done = true → (c'.st m).clients = [] := by
    intro m hd'
    rw [(hf.metas m).done] at hd'
    rcases (hf.metas m).clients with ⟨hsub, _⟩ | ⟨_, _, hnd, _⟩
    · rw [g.done m hd'] at hsub
      cases hc : (c'.st m).clients with
      | nil => rfl
      | cons e l => exact absurd (hsub e (by rw [hc]; exact List.mem_cons_self)) (by simp)
    · rw [hnd] at hd'; cases hd'
  have locOk : ∀ m, (c'.st m).booted = true → (c'.st m).hasLocal = true → none ∈ (c'.st m).oks.map (·.who) := by
    intro m hb hl
    rw [(hf.metas m).booted] at hb
    rw [(hf.metas m).hasLocal] at hl
    rw [(hf.metas m).oks]
    exact g.locOk m hb hl
  by_cases hpc : hd.pc = .sendDone
  · -- the ack of the end
    obtain ⟨m, e2, e5, e6, e7⟩ := I.send i hd hi hpc
    obtain ⟨r, hr⟩ := I.running e6 (okNames_who e5) e7
    have hnd : s.noteDone i = updAt s.dones m (s.dones m ++ [some hd.name]) := by
      unfold Sys.noteDone
      rw [hi]
      simp only [if_pos hpc, e2]
    have hst : c'.st = updAt s.c.st m { s.c.st m with
        doneQ := (s.c.st m).doneQ ++ [⟨some hd.name, hd.body ≠ .error⟩] } := by
      unfold CSt.hstep at h
      rw [hi] at h
      simp only [hpc, e2] at h
      split at h
      · cases h; rfl
      · cases h
    have key : ∀ k, k ≠ m → c'.st k = s.c.st k ∧ s.noteDone i k = s.dones k := by
      intro k hk'
      exact ⟨by rw [hst, updAt_ne _ _ hk'], by rw [hnd, updAt_ne _ _ hk']⟩
    have keym : s.noteDone i m = s.dones m ++ [some hd.name] := by rw [hnd, updAt_same]
    refine ⟨?_, ?_, ?_, ?_, ?_, ?_, ?_, ?_, ?_, full, locOk, done⟩
    · exact hf.test.trans g.test
    · dsimp only; rw [hf.phase]; exact g.noStop
    · intro k; dsimp only; rw [hf.phase, (hf.metas k).runClosed]; exact g.rel k
    · intro k hk'
      dsimp only at hk' ⊢
      rw [(hf.metas k).runClosed] at hk'
      have : k ≠ m := by intro e; rw [e, e6] at hk'; cases hk'
      rw [(key k this).1, (key k this).2]
      exact g.rc0 k hk'
    · intro k
      dsimp only
      by_cases ek : k = m
      · rw [ek, keym]
        refine List.nodup_append.mpr ⟨g.nodup m, by simp, ?_⟩
        intro x hx y hy e
        rw [List.mem_singleton.mp hy] at e
        rw [e] at hx
        exact e7 hx
      · rw [(key k ek).2]; exact g.nodup k
    · intro k w hw
      dsimp only at hw ⊢
      rw [(hf.metas k).oks]
      by_cases ek : k = m
      · subst ek
        rw [keym] at hw
        rcases List.mem_append.mp hw with hw | hw
        · exact g.mem k w hw
        · rw [List.mem_singleton.mp hw]; exact okNames_who e5
      · rw [(key k ek).2] at hw; exact g.mem k w hw
    · intro k
      dsimp only
      rw [hm.localDone, ← g.loc k]
      by_cases ek : k = m
      · subst ek; rw [keym]; simp
      · rw [(key k ek).2]
    · intro k r' hr'
      dsimp only at hr' ⊢
      rw [hf.phase] at hr'
      rw [hr] at hr'
      cases hr'
      obtain ⟨g1, g2, g3⟩ := g.run m r hr
      refine ⟨by rw [(hf.metas m).nInst]; exact g1, by rw [(hf.metas m).runClosed]; exact g2, ?_⟩
      rw [(hf.metas m).nInst, keym, hst, updAt_same]
      simp only [List.length_append, List.length_singleton]
      omega
    · intro k hk' hph
      dsimp only at hk' hph ⊢
      rw [hf.phase, hr] at hph
      rw [hf.nSt] at hk'
      have ek : k ≠ m := by intro e; rw [e] at hph; exact hph rfl
      rw [(key k ek).1, (key k ek).2]
      exact g.over k hk' (by rw [hr]; exact hph)
  · rw [noteDone_other hi hpc]
    refine ⟨?_, ?_, ?_, ?_, g.nodup, ?_, ?_, ?_, ?_, full, locOk, done⟩
    · exact hf.test.trans g.test
    · dsimp only; rw [hf.phase]; exact g.noStop
    · intro k; dsimp only; rw [hf.phase, (hf.metas k).runClosed]; exact g.rel k
    · intro k; dsimp only; rw [(hf.metas k).runClosed, hm.doneQ hpc k]; exact g.rc0 k
    · intro k; dsimp only; rw [(hf.metas k).oks]; exact g.mem k
    · intro k; dsimp only; rw [hm.localDone]; exact g.loc k
    · intro k r; dsimp only; rw [hf.phase, (hf.metas k).nInst, (hf.metas k).runClosed, hm.doneQ hpc k]; exact g.run k r
    · intro k; dsimp only; rw [hf.phase, hf.nSt, (hf.metas k).nInst, (hf.metas k).runClosed]; exact g.over k

/-- The local instance is done. -/
theorem WInv.glocal {s : Sys} (I : WInv s) {m : Nat} {c' : CSt}
    (h : s.c.step (.localDone m) = some c') : YInv ⟨c', s.r, s.cfg, updAt s.dones m (s.dones m ++ [none])⟩ := by
  have g := I.glob
  simp only [CSt.step] at h
  split at h
  swap
  · cases h
  rename_i hcond
  cases h
  simp only [Bool.and_eq_true, Bool.not_eq_true', decide_eq_true_eq] at hcond
  obtain ⟨⟨⟨a1, a2⟩, a3⟩, a4⟩ := hcond
  have hno : none ∉ s.dones m := by rw [g.loc m, a3]; simp
  have hw := g.locOk m (I.u.closed m a2) a1
  obtain ⟨r, hr⟩ := I.running a2 hw hno
  have key : ∀ k, k ≠ m → (s.c.setMeta m { s.c.st m with
      doneQ := (s.c.st m).doneQ ++ [⟨none, true⟩], localDone := true }).st k = s.c.st k ∧
      updAt s.dones m (s.dones m ++ [none]) k = s.dones k := by
    intro k hk'
    exact ⟨updAt_ne _ _ hk', updAt_ne _ _ hk'⟩
  have keym : (s.c.setMeta m { s.c.st m with
      doneQ := (s.c.st m).doneQ ++ [⟨none, true⟩], localDone := true }).st m = { s.c.st m with
      doneQ := (s.c.st m).doneQ ++ [⟨none, true⟩], localDone := true } ∧
      updAt s.dones m (s.dones m ++ [none]) m = s.dones m ++ [none] := ⟨updAt_same _ _ _, updAt_same _ _ _⟩
  refine ⟨g.test, g.noStop, ?_, ?_, ?_, ?_, ?_, ?_, ?_, ?_, ?_, ?_⟩
  · intro k hk
    have : k ≠ m := by
      intro e; subst e
      have := g.rel k hk; rw [a2] at this; cases this
    dsimp only; rw [(key k this).1]; exact g.rel k hk
  · intro k
    dsimp only
    by_cases e : k = m
    · subst e
      rw [keym.1]
      intro hk
      dsimp only at hk
      rw [a2] at hk; cases hk
    · rw [(key k e).1, (key k e).2]; exact g.rc0 k
  · intro k
    dsimp only
    by_cases e : k = m
    · subst e
      rw [keym.2]
      refine List.nodup_append.mpr ⟨g.nodup k, by simp, ?_⟩
      intro x hx y hy e
      rw [List.mem_singleton.mp hy] at e
      rw [e] at hx
      exact hno hx
    · rw [(key k e).2]; exact g.nodup k
  · intro k
    dsimp only
    by_cases e : k = m
    · subst e
      rw [keym.1, keym.2]
      intro w hw'
      rcases List.mem_append.mp hw' with h | h
      · exact g.mem k w h
      · rw [List.mem_singleton.mp h]; exact hw
    · rw [(key k e).1, (key k e).2]; exact g.mem k
  · intro k
    dsimp only
    by_cases e : k = m
    · subst e
      rw [keym.1, keym.2]
      simp
    · rw [(key k e).1, (key k e).2]; exact g.loc k
  · intro k r' hr'
    dsimp only [CSt.setMeta] at hr'
    rw [hr] at hr'
    cases hr'
    obtain ⟨g1, g2, g3⟩ := g.run m r hr
    dsimp only
    rw [keym.1, keym.2]
    refine ⟨g1, g2, ?_⟩
    simp only [List.length_append, List.length_singleton]
    omega
  · intro k hk hph
    dsimp only [CSt.setMeta] at hk hph
    have e : k ≠ m := by intro e; rw [e, hr] at hph; exact hph rfl
    dsimp only
    rw [(key k e).1, (key k e).2]; exact g.over k hk hph
  · intro k
    dsimp only
    by_cases e : k = m
    · subst e; rw [keym.1]; exact g.full k
    · rw [(key k e).1]; exact g.full k
  · intro k
    dsimp only
    by_cases e : k = m
    · subst e; rw [keym.1]; exact g.locOk k
    · rw [(key k e).1]; exact g.locOk k
  · intro k
    dsimp only
    by_cases e : k = m
    · subst e; rw [keym.1]; exact g.done k
    · rw [(key k e).1]; exact g.done k

/-- A step that changes one stage. -/
theorem YInv.set {s s' : Sys} (g : YInv s) (m : Nat) (x : SMeta) (hst : s'.c.st = updAt s.c.st m x)
    (htest : s'.c.test = s.c.test) (hdn : s'.dones = s.dones) (hn : s'.c.nSt = s.c.nSt)
    (hstop : ∀ o k r, s'.c.phase ≠ .stopping o k r)
    (hrel : ∀ k, s'.c.phase = .release k → k = m ∧ x.runClosed = false)
    (hrc0 : x.runClosed = false → s.dones m = [] ∧ x.doneQ = [])
    (hmem : ∀ w, w ∈ (s.c.st m).oks.map (·.who) → w ∈ x.oks.map (·.who))
    (hloc : x.localDone = (s.c.st m).localDone)
    (hrun : ∀ k r, s'.c.phase = .run k r → k = m ∧ r ≤ x.nInst ∧ x.runClosed = true ∧
      (s.dones m).length + r = x.nInst + x.doneQ.length)
    (hover : ∀ k, k ≠ m → s'.c.phase.stage ≠ some k → s.c.phase.stage ≠ some k)
    (hoverm : m < s.c.nSt → s'.c.phase.stage ≠ some m → (s.dones m).length = x.nInst ∧ x.runClosed = true)
    (hfull : x.booted = true → ∀ n o, cget n x.clients = some o → n ∈ okNames x.oks)
    (hlocOk : x.booted = true → x.hasLocal = true → none ∈ x.oks.map (·.who))
    (hdone : x.done = true → x.clients = []) : YInv s' := by
  have key : ∀ k, k ≠ m → s'.c.st k = s.c.st k := fun k hk => by rw [hst, updAt_ne _ _ hk]
  have keym : s'.c.st m = x := by rw [hst, updAt_same]
  refine ⟨htest.trans g.test, hstop, ?_, ?_, by rw [hdn]; exact g.nodup, ?_, ?_, ?_, ?_, ?_, ?_, ?_⟩
  · intro k hk
    obtain ⟨e, h⟩ := hrel k hk
    rw [e, keym]; exact h
  · intro k
    rw [hdn]
    by_cases e : k = m
    · rw [e, keym]; exact hrc0
    · rw [key k e]; exact g.rc0 k
  · intro k
    rw [hdn]
    by_cases e : k = m
    · rw [e, keym]; exact fun w hw => hmem w (g.mem m w hw)
    · rw [key k e]; exact g.mem k
  · intro k
    rw [hdn]
    by_cases e : k = m
    · rw [e, keym, hloc]; exact g.loc m
    · rw [key k e]; exact g.loc k
  · intro k r hr
    obtain ⟨e, h⟩ := hrun k r hr
    rw [e, keym, hdn]; exact h
  · intro k hk hph
    rw [hdn]
    rw [hn] at hk
    by_cases e : k = m
    · rw [e] at hk hph ⊢; rw [keym]; exact hoverm hk hph
    · rw [key k e]; exact g.over k hk (hover k e hph)
  · intro k
    by_cases e : k = m
    · rw [e, keym]; exact hfull
    · rw [key k e]; exact g.full k
  · intro k
    by_cases e : k = m
    · rw [e, keym]; exact hlocOk
    · rw [key k e]; exact g.locOk k
  · intro k
    by_cases e : k = m
    · rw [e, keym]; exact hdone
    · rw [key k e]; exact g.done k

/-- A step that changes the place of the server only. -/
theorem YInv.move {s s' : Sys} (g : YInv s) (m : Nat) (hst : s'.c.st = s.c.st) (htest : s'.c.test = s.c.test)
    (hdn : s'.dones = s.dones) (hn : s'.c.nSt = s.c.nSt) (h0 : s.c.phase.stage = some m)
    (hp : s'.c.phase.stage = some m) (h1 : ∀ o k r, s'.c.phase ≠ .stopping o k r) (h2 : ∀ k, s'.c.phase ≠ .release k)
    (h3 : ∀ k r, s'.c.phase ≠ .run k r) : YInv s' := by
  refine g.set m (s.c.st m) (by rw [hst, updAt_self]) htest hdn hn h1 (fun k h => absurd h (h2 k)) (g.rc0 m)
    (fun _ h => h) rfl (fun k r h => absurd h (h3 k r)) ?_ ?_ (g.full m) (g.locOk m) (g.done m)
  · intro k _ h; rw [h0]; rw [hp] at h; exact h
  · intro _ h; exact absurd hp h

theorem WInv.gtick {s : Sys} (I : WInv s) {c' : CSt} (h : s.c.tick = some c') :
    YInv ⟨c', s.r, s.cfg, s.dones⟩ := by
  have g := I.glob
  have hph := I.u.phase
  unfold PhaseOk at hph
  unfold CSt.tick at h
  split at h <;> rename_i hp <;> rw [hp] at hph <;> simp only [] at hph
  · cases h
  · -- ackLocal
    rename_i m
    split at h
    swap
    · cases h
    cases h
    refine g.set m _ rfl rfl rfl rfl (by simp) (by simp) (g.rc0 m) (fun _ h => h) rfl (by simp) ?_ ?_
      (g.full m) (g.locOk m) (g.done m)
    · intro k _ hk; rw [hp]; exact hk
    · intro _ hk; exact absurd rfl hk
  · -- setStage
    rename_i m
    split at h
    · split at h
      · cases h
        exact g.move m rfl rfl rfl rfl (by rw [hp]; rfl) rfl (by simp) (by simp) (by simp)
      · rename_i old hcur
        cases h
        have hne : old ≠ m := by
          intro e
          subst e
          rcases I.u.curb old hcur hph.2.2 with ⟨n, e⟩ | e | e <;> rw [hp] at e <;> cases e
        have hlt := I.u.cur old hcur
        have hns : s.c.phase.stage ≠ some old := by
          rw [hp]; intro e; exact hne (Option.some.inj e).symm
        refine g.set old _ rfl rfl rfl rfl (by simp) (by simp) (g.rc0 old) (fun _ h => h) rfl (by simp) ?_ ?_
          (g.full old) (g.locOk old) (fun _ => I.overClients hlt hns)
        · intro k _ hk; rw [hp]; exact hk
        · intro _ _; exact g.over old hlt hns
    · cases h
      exact g.move m rfl rfl rfl rfl (by rw [hp]; rfl) rfl (by simp) (by simp) (by simp)
  · -- switching
    rename_i old m
    split at h
    · cases h
      exact g.move m rfl rfl rfl rfl (by rw [hp]; rfl) rfl (by simp) (by simp) (by simp)
    · cases h
  · -- boot
    rename_i m n
    have nb : (s.c.st m).booted = false := hph.2.2.2
    split at h
    · split at h
      · cases h
      rename_i a q hq
      split at h <;> rename_i ha
      · cases h
        refine g.set m _ rfl rfl rfl rfl (by simp) (by simp) (g.rc0 m) ?_ rfl (by simp) ?_ ?_ ?_ ?_ (g.done m)
        · intro w hw
          simp only [List.map_append, List.mem_append]
          exact Or.inl hw
        · intro k _ hk; rw [hp]; exact hk
        · intro _ hk; exact absurd rfl hk
        · intro hb; dsimp only at hb; rw [nb] at hb; cases hb
        · intro hb; dsimp only at hb; rw [nb] at hb; cases hb
      · cases h
        refine g.set m _ rfl rfl rfl rfl ?_ ?_ (g.rc0 m) (fun _ h => h) rfl ?_ ?_ ?_ ?_ ?_ (g.done m)
        · exact g.noStop
        · intro k hk; dsimp only [CSt.setMeta] at hk; rw [hp] at hk; cases hk
        · intro k r hk; dsimp only [CSt.setMeta] at hk; rw [hp] at hk; cases hk
        · intro k _ hk; exact hk
        · intro _ hk; dsimp only [CSt.setMeta] at hk; rw [hp] at hk; exact absurd rfl hk
        · intro hb; dsimp only at hb; rw [nb] at hb; cases hb
        · intro hb; dsimp only at hb; rw [nb] at hb; cases hb
    · cases h
      exact g.move m rfl rfl rfl rfl (by rw [hp]; rfl) rfl (by simp) (by simp) (by simp)
  · -- setBooted
    rename_i m
    cases h
    have nb : (s.c.st m).booted = false := hph.2.2
    have nrc : (s.c.st m).runClosed = false := by
      cases hr : (s.c.st m).runClosed
      · rfl
      · have := I.u.closed m hr; rw [nb] at this; cases this
    have hpos : (s.c.st m).hasLocal = true → 0 < (s.c.st m).nInst := by
      intro hl
      rcases I.u.pos m hl with h | h
      · exact h
      · rw [hp] at h; cases h
    obtain ⟨b1, b2⟩ := boot_count I.u I.v nrc hph.2.1 hpos
    have ht := g.test
    refine g.set m { s.c.st m with booted := true } rfl rfl rfl rfl ?_ ?_ (g.rc0 m) (fun _ h => h) rfl ?_ ?_ ?_
      (fun _ => b1) (fun _ => b2) (g.done m)
    · dsimp only; rw [ht]; simp
    · dsimp only
      rw [ht]
      intro k hk
      simp only [Bool.false_eq_true, if_false, Phase.release.injEq] at hk
      exact ⟨hk.symm, nrc⟩
    · dsimp only; rw [ht]; simp
    · intro k _ hk; dsimp only at hk; rw [ht] at hk; rw [hp]; exact hk
    · intro _ hk; dsimp only at hk; rw [ht] at hk; exact absurd rfl hk
  · -- release
    rename_i m
    cases h
    have nrc := g.rel m hp
    obtain ⟨d1, d2⟩ := g.rc0 m nrc
    refine g.set m { s.c.st m with runClosed := true } rfl rfl rfl rfl (by simp) (by simp) ?_ (fun _ h => h) rfl ?_ ?_ ?_
      (g.full m) (g.locOk m) (g.done m)
    · intro h; cases h
    · intro k r hk
      simp only [Phase.run.injEq] at hk
      obtain ⟨e1, e2⟩ := hk
      subst e1 e2
      refine ⟨rfl, Nat.le_refl _, rfl, ?_⟩
      dsimp only
      rw [d1, d2]
      simp
    · intro k _ hk; rw [hp]; exact hk
    · intro _ hk; exact absurd rfl hk
  · -- run
    rename_i m n
    obtain ⟨g1, g2, g3⟩ := g.run m n hp
    split at h <;> rename_i hn
    · cases h
      have hle := I.donesLe g2
      refine g.set m (s.c.st m) (by dsimp only; rw [updAt_self]) rfl rfl rfl (by simp) (by simp) (g.rc0 m)
        (fun _ h => h) rfl (by simp) ?_ ?_ (g.full m) (g.locOk m) (g.done m)
      · intro k hk _; rw [hp]; intro e; exact hk (Option.some.inj e).symm
      · intro _ _
        exact ⟨by omega, g2⟩
    · split at h
      · cases h
      rename_i a q hq
      cases h
      rw [hq, List.length_cons] at g3
      refine g.set m { s.c.st m with doneQ := q } rfl rfl rfl rfl (by simp) (by simp) ?_ (fun _ h => h) rfl ?_ ?_ ?_
        (g.full m) (g.locOk m) (g.done m)
      · intro hk; dsimp only at hk; rw [g2] at hk; cases hk
      · intro k r hk
        simp only [Phase.run.injEq] at hk
        obtain ⟨e1, e2⟩ := hk
        subst e1 e2
        exact ⟨rfl, by dsimp only; omega, g2, by dsimp only; omega⟩
      · intro k _ hk; rw [hp]; exact hk
      · intro _ hk; exact absurd rfl hk
  · exact absurd hp (g.noStop _ _ _)
  · cases h

theorem WInv.gbegin {s : Sys} (I : WInv s) {c' : CSt} {k : Nat} {a b : Bool}
    (h : s.c.beginStage k a b = some c') : YInv ⟨c', s.r, s.cfg, s.dones⟩ := by
  have g := I.glob
  unfold CSt.beginStage at h
  split at h
  swap
  · cases h
  rename_i hp
  split at h
  · cases h
    refine g.set 0 (s.c.st 0) (by dsimp only; rw [updAt_self]) rfl rfl rfl (by simp) (by simp) (g.rc0 0)
        (fun _ h => h) rfl (by simp) ?_ ?_ (g.full 0) (g.locOk 0) (g.done 0)
    · intro k _ _; rw [hp]; simp [Phase.stage]
    · intro h _; exact g.over 0 h (by rw [hp]; simp [Phase.stage])
  · cases h
    have hf := I.u.fresh s.c.nSt (Nat.le_refl _)
    have key : ∀ j, j ≠ s.c.nSt → updAt s.c.st s.c.nSt
        { nInst := k, nRem := if a then k - 1 else k, hasLocal := a } j = s.c.st j := fun j hj => updAt_ne _ _ hj
    have keym : updAt s.c.st s.c.nSt
        { nInst := k, nRem := if a then k - 1 else k, hasLocal := a } s.c.nSt =
          { nInst := k, nRem := if a then k - 1 else k, hasLocal := a } := updAt_same _ _ _
    have hd0 := g.rc0 s.c.nSt (by rw [hf])
    have hph : (if a then Phase.ackLocal s.c.nSt else Phase.setStage s.c.nSt).stage = some s.c.nSt := by
      split <;> rfl
    refine ⟨g.test, ?_, ?_, ?_, g.nodup, ?_, ?_, ?_, ?_, ?_, ?_, ?_⟩
    · intro o m n; dsimp only; split <;> simp
    · intro m; dsimp only; split <;> simp
    · intro m
      dsimp only
      by_cases e : m = s.c.nSt
      · rw [e, keym]; exact fun _ => ⟨hd0.1, rfl⟩
      · rw [key m e]; exact g.rc0 m
    · intro m
      dsimp only
      by_cases e : m = s.c.nSt
      · rw [e, hd0.1]; intro w hw; cases hw
      · rw [key m e]; exact g.mem m
    · intro m
      dsimp only
      by_cases e : m = s.c.nSt
      · rw [e, hd0.1, keym]; simp
      · rw [key m e]; exact g.loc m
    · intro m n; dsimp only; split <;> simp
    · intro m hm hs
      dsimp only at hm hs ⊢
      rw [hph] at hs
      have e : m ≠ s.c.nSt := fun e => hs (by rw [e])
      rw [key m e]
      exact g.over m (by omega) (by rw [hp]; simp [Phase.stage])
    · intro m
      dsimp only
      by_cases e : m = s.c.nSt
      · rw [e, keym]; intro h; cases h
      · rw [key m e]; exact g.full m
    · intro m
      dsimp only
      by_cases e : m = s.c.nSt
      · rw [e, keym]; intro h; cases h
      · rw [key m e]; exact g.locOk m
    · intro m
      dsimp only
      by_cases e : m = s.c.nSt
      · rw [e, keym]; intro h; cases h
      · rw [key m e]; exact g.done m

/-- What holds for the server alone. -/
theorem SysInv.w {P : SysCfg} {s : Sys} (I : SysInv P s) : WInv s := by
  refine ⟨I.srv, I.glob, fun m n h => ((I.inst n).done m h).1, ?_⟩
  intro i hd hi hpc
  have hk : hd.kind = .postRun := by
    have hp := I.srv.sinv.pc i hd hi
    unfold pcOk at hp; rw [hpc] at hp
    cases hk : hd.kind <;> rw [hk] at hp <;> simp only [] at hp
  have hreq := (I.inst hd.name).own i hd hi rfl (by rw [hk]; rfl)
  have L := (I.inst hd.name).link
  unfold Sys.link at L
  rw [hreq] at L
  simp only [hi] at L
  obtain ⟨_, _, _, _, L⟩ := L
  unfold Sys.hneed at L
  rw [hk, hpc] at L
  obtain ⟨_, m, e1, e2, e3, e4, e5, e6, e7⟩ := L
  exact ⟨m, e2, e5, e6, e7⟩

theorem SysInv.u {P : SysCfg} {s : Sys} (I : SysInv P s) : UInv s.c := I.w.u
theorem SysInv.v {P : SysCfg} {s : Sys} (I : SysInv P s) : SInv false s.c := I.w.v
theorem SysInv.whoNodup {P : SysCfg} {s : Sys} (I : SysInv P s) (m : Nat) : ((s.c.st m).oks.map (·.who)).Nodup :=
  I.w.whoNodup m
theorem SysInv.overAll {P : SysCfg} {s : Sys} (I : SysInv P s) {m : Nat} (h : m < s.c.nSt)
    (hp : s.c.phase.stage ≠ some m) {w : Option Nat} (hw : w ∈ (s.c.st m).oks.map (·.who)) : w ∈ s.dones m :=
  I.w.overAll h hp hw
theorem SysInv.overClients {P : SysCfg} {s : Sys} (I : SysInv P s) {m : Nat} (h : m < s.c.nSt)
    (hp : s.c.phase.stage ≠ some m) : (s.c.st m).clients = [] := I.w.overClients h hp

theorem SysInv.init (P : SysCfg) : SysInv P {} := by
  refine ⟨.init false, NInv.init P, ?_⟩
  refine ⟨rfl, ?_, ?_, ?_, ?_, ?_, ?_, ?_, ?_, ?_, ?_, ?_⟩
  · intro _ _ _ h; cases h
  · intro _ h; cases h
  · intro _ _; exact ⟨rfl, rfl⟩
  · intro _; exact List.nodup_nil
  · intro _ _ h; cases h
  · intro _; exact ⟨fun h => (by cases h), fun h => (by cases h)⟩
  · intro _ _ h; cases h
  · intro _ h; exact absurd h (Nat.not_lt_zero _)
  · intro _ h; cases h
  · intro _ h; cases h
  · intro _ h; cases h

/-! ### Every step -/

/-- A step of the server that is not one of a request. -/
theorem SysInv.tframe {P : SysCfg} {s : Sys} (I : SysInv P s) {c' : CSt} {a : CAct} (hs : s.c.step a = some c')
    (ha : serialOk false s.c a) (f : TFrame s.c c') (dn : Nat → List (Option Nat))
    (hd : ∀ n m, some n ∈ dn m ↔ some n ∈ s.dones m) (g : YInv ⟨c', s.r, s.cfg, dn⟩) :
    SysInv P ⟨c', s.r, s.cfg, dn⟩ :=
  ⟨.step I.srv ha hs, fun n => (I.inst n).frame I.v (f.lframe n dn (hd n)), g⟩

/-- A step of an instance that does not concern the server. -/
theorem SysInv.local {P : SysCfg} {s : Sys} (I : SysInv P s) {n : Nat} {x : RInst}
    (h : NInv P ⟨s.c, updAt s.r n x, s.cfg, s.dones⟩ n) : SysInv P ⟨s.c, updAt s.r n x, s.cfg, s.dones⟩ := by
  refine ⟨I.srv, fun k => ?_, I.glob.same rfl rfl rfl rfl rfl⟩
  by_cases e : k = n
  · rw [e]; exact h
  · have er : updAt s.r n x k = s.r k := updAt_ne _ _ e
    exact (I.inst k).frame I.v (other_lframe _ (by rw [er]) (by rw [er]) (by rw [er]) (fun _ _ => by rw [er]))

/-- A step of the goroutine that pings. -/
theorem SysInv.ping {P : SysCfg} {s : Sys} (I : SysInv P s) {n : Nat} {x : RInst} (h1 : x.sid = (s.r n).sid)
    (h2 : x.req = (s.r n).req) (h3 : x.rs.pc = (s.r n).rs.pc)
    (h4 : ∀ e : REv, e.isMain = true → (e ∈ x.rs.trace ↔ e ∈ (s.r n).rs.trace)) :
    SysInv P ⟨s.c, updAt s.r n x, s.cfg, s.dones⟩ := by
  refine I.local ((I.inst n).frame I.v (other_lframe _ ?_ ?_ ?_ ?_)) <;> rw [updAt_same]
  · exact h1
  · exact h2
  · exact h3
  · exact h4

theorem pingStep_same (x : RemSt) (a : RRes) : (x.pingStep a).pc = x.pc ∧
    ∀ e : REv, e.isMain = true → (e ∈ (x.pingStep a).trace ↔ e ∈ x.trace) := by
  unfold RemSt.pingStep
  split
  · split <;> exact ⟨rfl, fun _ _ => Iff.rfl⟩
  · split
    · refine ⟨rfl, fun e he => ?_⟩
      have : e ≠ .ping := by rintro rfl; cases he
      simp [RemSt.log, this]
    · refine ⟨rfl, fun e he => ?_⟩
      have h1 : e ≠ .ping := by rintro rfl; cases he
      have h2 : e ≠ .cancel := by rintro rfl; cases he
      simp [RemSt.log, h1, h2]
  · exact ⟨rfl, fun _ _ => Iff.rfl⟩

theorem SysInv.step {P : SysCfg} {s s' : Sys} (I : SysInv P s) {a : YAct} (ha : a.reliable = true)
    (h : s.step P a = some s') : SysInv P s' := by
  cases a with
  | srv a =>
    simp only [Sys.step] at h
    cases a with
    | arrive k n sid b => cases h
    | handler i lost =>
      simp only [YAct.reliable, Bool.not_eq_true'] at ha
      subst ha
      simp only [Sys.srvStep] at h
      cases hc : s.c.hstep i false with
      | none => rw [hc] at h; cases h
      | some c' =>
        rw [hc] at h
        simp only [Option.map_some, Option.some.injEq] at h
        subst h
        obtain ⟨hd, hi⟩ : ∃ hd, s.c.hs i = some hd := by
          cases hi : s.c.hs i with
          | none => unfold CSt.hstep at hc; rw [hi] at hc; cases hc
          | some hd => exact ⟨hd, rfl⟩
        refine ⟨.step (a := .handler i false) I.srv trivial hc, fun k => ?_, I.w.ghstep hi hc⟩
        by_cases hk : k ≠ hd.name ∨ hd.kind.mainKind = false
        · exact (I.inst k).frame I.v (hstep_lframe I.v (I.inst k) hi hc hk)
        · have hk1 : k = hd.name := by by_contra hcon; exact hk (Or.inl hcon)
          have hk2 : hd.kind.mainKind = true := by
            cases hm : hd.kind.mainKind
            · exact absurd (Or.inr hm) hk
            · rfl
          have hreq := (I.inst k).own i hd hi hk1.symm hk2
          have L := (I.inst k).link
          unfold Sys.link at L
          rw [hreq] at L
          simp only [hi] at L
          have C : HCtx P s k i hd := ⟨I.u, I.v, I.inst k, hreq, L.1, hi, L.2.1, L.2.2.1, L.2.2.2.1, L.2.2.2.2⟩
          exact C.step I.glob.done (fun m hb o ho => I.glob.full m hb k o ho) hc
    | begin k a b =>
      simp only [Sys.srvStep] at h
      cases hc : s.c.step (.begin k a b) with
      | none => rw [hc] at h; cases h
      | some c' =>
        rw [hc] at h
        simp only [Option.map_some, Option.some.injEq] at h
        subst h
        exact I.tframe hc trivial (begin_tframe I.u hc) s.dones (fun _ _ => Iff.rfl) (I.w.gbegin hc)
    | tick =>
      simp only [Sys.srvStep] at h
      cases hc : s.c.step .tick with
      | none => rw [hc] at h; cases h
      | some c' =>
        rw [hc] at h
        simp only [Option.map_some, Option.some.injEq] at h
        subst h
        exact I.tframe hc trivial (tick_tframe hc) s.dones (fun _ _ => Iff.rfl) (I.w.gtick hc)
    | ctxDone => cases ha
    | localDone m =>
      simp only [Sys.srvStep] at h
      cases hc : s.c.step (.localDone m) with
      | none => rw [hc] at h; cases h
      | some c' =>
        rw [hc] at h
        simp only [Option.map_some, Option.some.injEq] at h
        subst h
        refine I.tframe hc trivial (localDone_tframe hc) _ (fun n k => ?_) (I.w.glocal hc)
        by_cases e : k = m
        · rw [e, updAt_same]; simp
        · rw [updAt_ne _ _ e]
  | send n =>
    simp only [Sys.step] at h
    split at h
    swap
    · cases h
    rename_i k b hrq hreq
    cases h
    have hser : serialOk false s.c (.arrive k n (s.r n).sid b) := by
      intro _ i hd hi ht en
      have hm : hd.kind.mainKind = true := by
        cases hk : hd.kind <;> rw [hk] at ht <;> first | rfl | cases ht
      have := (I.inst n).own i hd hi en hm
      rw [hreq] at this
      cases this
    refine ⟨.step (a := .arrive k n (s.r n).sid b) I.srv hser rfl, fun j => ?_, I.glob.same rfl rfl rfl rfl rfl⟩
    by_cases e : j = n
    · rw [e]; exact (I.inst n).send hrq hreq
    · have er : updAt s.r n { s.r n with req := some s.c.nH } j = s.r j := updAt_ne _ _ e
      exact (I.inst j).frame I.v (arrive_lframe (I.inst j) (Or.inl e) _ (by rw [er]) (by rw [er]) (by rw [er]))
  | recv n =>
    obtain ⟨⟨x, e⟩, hn⟩ := (I.inst n).recv I.u I.v h
    subst e
    exact I.local hn
  | lose n => cases ha
  | giveUp n => cases ha
  | work n a =>
    simp only [Sys.step] at h
    split at h
    · cases h
    rename_i hrq
    cases h
    have hrq' : s.request P n = none := by
      cases hr : s.request P n with
      | none => rfl
      | some x => rw [hr] at hrq; exact absurd rfl hrq
    exact I.local ((I.inst n).work hrq').2
  | pingWait n =>
    simp only [Sys.step] at h
    split at h
    · cases h
      exact I.ping rfl rfl (pingStep_same _ _).1 (pingStep_same _ _).2
    · cases h
  | pingSend n =>
    simp only [Sys.step] at h
    split at h
    swap
    · cases h
    cases h
    refine ⟨.step (a := .arrive .ping n (s.r n).sid .empty) I.srv (fun h => by cases h) rfl, fun j => ?_,
      I.glob.same rfl rfl rfl rfl rfl⟩
    have er : updAt s.r n { s.r n with preq := some s.c.nH } j =
        { s.r j with preq := (updAt s.r n { s.r n with preq := some s.c.nH } j).preq } := by
      by_cases e : j = n
      · rw [e, updAt_same]
      · rw [updAt_ne _ _ e]
    exact (I.inst j).frame I.v (arrive_lframe (I.inst j) (Or.inr rfl) _ (by rw [er]) (by rw [er]) (by rw [er]))
  | pingRecv n =>
    simp only [Sys.step] at h
    split at h
    · cases h
    split at h
    swap
    · cases h
    split at h
    · cases h; exact I.ping rfl rfl rfl (fun _ _ => Iff.rfl)
    · cases h; exact I.ping rfl rfl (pingStep_same _ _).1 (pingStep_same _ _).2
  | pingLost n =>
    simp only [Sys.step] at h
    split at h
    · cases h; exact I.ping rfl rfl (pingStep_same _ _).1 (pingStep_same _ _).2
    · cases h
  | stats n =>
    simp only [Sys.step] at h
    cases h
    refine ⟨.step (a := .arrive .stats n (s.r n).sid .empty) I.srv (fun h => by cases h) rfl, fun j => ?_,
      I.glob.same rfl rfl rfl rfl rfl⟩
    exact (I.inst j).frame I.v (arrive_lframe (I.inst j) (Or.inr rfl) _ rfl rfl rfl)
  | ctrlC n =>
    simp only [Sys.step] at h
    cases h
    exact I.ping rfl rfl rfl (fun _ _ => Iff.rfl)

theorem Sys.Reach.inv {P : SysCfg} {s : Sys} (h : Sys.Reach P s) : SysInv P s := by
  induction h with
  | init => exact .init P
  | step _ ha hs ih => exact ih.step ha hs

end Finch
