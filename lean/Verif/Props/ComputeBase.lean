import Verif.Model.Compute
import Mathlib.Tactic.Common
/-!
The server of distributed runs: what holds in every execution (C52, first part of C53).
-/
namespace Finch

/-! ### Maps -/

theorem updAt_same {α : Type} (f : Nat → α) (k : Nat) (v : α) : updAt f k v k = v := by simp [updAt]

theorem updAt_ne {α : Type} (f : Nat → α) {k x : Nat} (v : α) (h : x ≠ k) : updAt f k v x = f x := by
  simp [updAt, h]

theorem cget_cdel_same (k : Nat) : ∀ l, cget k (cdel k l) = none
  | [] => rfl
  | (a, b) :: l => by
    have ih := cget_cdel_same k l
    unfold cdel at ih ⊢
    by_cases h : a = k
    · simp only [List.filter_cons, h, bne_self_eq_false, Bool.false_eq_true, if_false]; exact ih
    · have hb : (a != k) = true := by simp [h]
      simp only [List.filter_cons, hb, if_true]
      have hk : (k == a) = false := beq_eq_false_iff_ne.mpr (fun h' => h h'.symm)
      simp only [cget, List.lookup, hk]
      exact ih

theorem cget_cdel_ne {k n : Nat} (h : k ≠ n) : ∀ l, cget k (cdel n l) = cget k l
  | [] => rfl
  | (a, b) :: l => by
    have ih := cget_cdel_ne h l
    unfold cdel at ih ⊢
    by_cases ha : a = n
    · have hk : (k == a) = false := beq_eq_false_iff_ne.mpr (fun h' => h (h'.trans ha))
      simp only [List.filter_cons, ha, bne_self_eq_false, Bool.false_eq_true, if_false]
      rw [ih]
      rw [ha] at hk
      simp [cget, List.lookup, hk]
    · have hb : (a != n) = true := by simp [ha]
      simp only [List.filter_cons, hb, if_true]
      unfold cget at ih ⊢
      simp only [List.lookup]
      split
      · rfl
      · exact ih

theorem cget_cset_same (k v : Nat) (l : List (Nat × Nat)) : cget k (cset k v l) = some v := by
  simp [cget, cset]

theorem cget_cset_ne {k n : Nat} (v : Nat) (h : k ≠ n) (l : List (Nat × Nat)) :
    cget k (cset n v l) = cget k l := by
  have hk : (k == n) = false := beq_eq_false_iff_ne.mpr h
  rw [← cget_cdel_ne h l]
  simp [cget, cset, List.lookup, hk]

theorem cdel_length (k : Nat) (l : List (Nat × Nat)) : (cdel k l).length ≤ l.length :=
  List.length_filter_le _ _

theorem cset_length (k v : Nat) (l : List (Nat × Nat)) : (cset k v l).length ≤ l.length + 1 := by
  simp only [cset, List.length_cons]
  have := cdel_length k l
  omega

theorem cdel_subset (k : Nat) (l : List (Nat × Nat)) : ∀ e ∈ cdel k l, e ∈ l := by
  intro e he; exact (List.mem_filter.mp he).1

/-! ### Executions -/

/-- States that can be reached. -/
inductive CReach : CSt → Prop
  | init (test : Bool) : CReach { test := test }
  | step {s s' : CSt} {a : CAct} : CReach s → s.step a = some s' → CReach s'

/-- Acks of the local instance. -/
def nLocal (l : List BAck) : Nat := l.countP (·.who == none)

/-- What handlers leave as it is in a stage. -/
structure MetaStep (cur : Bool) (x x' : SMeta) : Prop where
  nInst : x'.nInst = x.nInst
  nRem : x'.nRem = x.nRem
  hasLocal : x'.hasLocal = x.hasLocal
  booted : x'.booted = x.booted
  done : x'.done = x.done
  runClosed : x'.runClosed = x.runClosed
  oks : x'.oks = x.oks
  bootQ : ∃ l, x'.bootQ = x.bootQ ++ l ∧ nLocal l = 0
  clients : (∀ e ∈ x'.clients, e ∈ x.clients) ∧ x'.clients.length ≤ x.clients.length ∨
    (cur = true ∧ x.booted = false ∧ x.done = false ∧ x.clients.length ≠ x.nRem ∧
      x'.clients.length ≤ x.clients.length + 1)
  fresh : x = {} → x' = {}

theorem MetaStep.refl (cur : Bool) (x : SMeta) : MetaStep cur x x :=
  ⟨rfl, rfl, rfl, rfl, rfl, rfl, rfl, ⟨[], by simp, rfl⟩, Or.inl ⟨fun _ h => h, Nat.le_refl _⟩, fun h => h⟩

/-- What handlers leave as it is. -/
structure HFrame (s s' : CSt) : Prop where
  nSt : s'.nSt = s.nSt
  cur : s'.cur = s.cur
  phase : s'.phase = s.phase
  test : s'.test = s.test
  nH : s'.nH = s.nH
  hs : ∀ i, s'.hs i ≠ none → s.hs i ≠ none
  metas : ∀ m, MetaStep (s.cur == some m) (s.st m) (s'.st m)

theorem HFrame.of_meta {s s' : CSt} (m : Nat) (x : SMeta) (i : Nat) (h0 : Option Handler)
    (hst : s'.st = updAt s.st m x) (hx : MetaStep (s.cur == some m) (s.st m) x)
    (h1 : s'.nSt = s.nSt) (h2 : s'.cur = s.cur) (h3 : s'.phase = s.phase) (h4 : s'.test = s.test)
    (h5 : s'.nH = s.nH) (h6 : s'.hs = updAt s.hs i h0) (h7 : s.hs i ≠ none) : HFrame s s' := by
  refine ⟨h1, h2, h3, h4, h5, ?_, ?_⟩
  · intro j hj
    rw [h6] at hj
    by_cases hji : j = i
    · rw [hji]; exact h7
    · rwa [updAt_ne _ _ hji] at hj
  · intro k
    rw [hst]
    by_cases hk : k = m
    · subst hk; rw [updAt_same]; exact hx
    · rw [updAt_ne _ _ hk]; exact MetaStep.refl _ _

theorem HFrame.of_same {s s' : CSt} (i : Nat) (h0 : Option Handler) (hst : s'.st = s.st)
    (h1 : s'.nSt = s.nSt) (h2 : s'.cur = s.cur) (h3 : s'.phase = s.phase) (h4 : s'.test = s.test)
    (h5 : s'.nH = s.nH) (h6 : s'.hs = updAt s.hs i h0) (h7 : s.hs i ≠ none) : HFrame s s' :=
  HFrame.of_meta 0 (s.st 0) i h0 (by
    rw [hst]; funext x; by_cases hx : x = 0
    · subst hx; rw [updAt_same]
    · rw [updAt_ne _ _ hx]) (MetaStep.refl _ _) h1 h2 h3 h4 h5 h6 h7

theorem hfinish_frame (s : CSt) (i code : Nat) (h7 : s.hs i ≠ none) : HFrame s (s.finish i code) :=
  HFrame.of_same i none rfl rfl rfl rfl rfl rfl rfl h7

theorem goto_frame (s : CSt) (i : Nat) (h : Handler) (pc : PC) (h7 : s.hs i ≠ none) :
    HFrame s (s.goto i h pc) :=
  HFrame.of_same i (some { h with pc := pc }) rfl rfl rfl rfl rfl rfl rfl h7

theorem lookup_frame (s : CSt) (i : Nat) (h : Handler) (h7 : s.hs i ≠ none) :
    HFrame s (s.lookupStep i h) := by
  unfold CSt.lookupStep
  split
  · exact hfinish_frame s i _ h7
  split
  · exact hfinish_frame s i _ h7
  split
  · split
    · exact HFrame.of_same i _ rfl rfl rfl rfl rfl rfl rfl h7
    · exact hfinish_frame s i _ h7
  · split
    · exact hfinish_frame s i _ h7
    · exact HFrame.of_same i _ rfl rfl rfl rfl rfl rfl rfl h7

theorem check_frame (s : CSt) (i : Nat) (h : Handler) (h7 : s.hs i ≠ none) :
    HFrame s (s.checkStep i h) := by
  unfold CSt.checkStep
  simp only []
  split <;> (try split) <;> first | exact hfinish_frame s i _ h7 | exact goto_frame s i h _ h7

theorem delMeta (b : Bool) (n : Nat) (x : SMeta) : MetaStep b x { x with clients := cdel n x.clients } :=
  ⟨rfl, rfl, rfl, rfl, rfl, rfl, rfl, ⟨[], by simp, rfl⟩, Or.inl ⟨cdel_subset n _, cdel_length n _⟩,
    fun h => by rw [h]; rfl⟩

/-- Every step of a handler. -/
theorem hstep_frame {s s' : CSt} {i : Nat} {lost : Bool} (h : s.hstep i lost = some s') : HFrame s s' := by
  unfold CSt.hstep at h
  split at h
  · cases h
  rename_i hd hi
  have h7 : s.hs i ≠ none := by rw [hi]; simp
  simp only [] at h
  split at h
  · cases h; exact lookup_frame s i hd h7
  · cases h; exact check_frame s i hd h7
  · split at h
    · cases h
    rename_i c hc
    split at h
    · cases h
    split at h
    · cases h
    rename_i hdone hfull
    cases h
    refine HFrame.of_meta c _ i none rfl ?_ rfl rfl rfl rfl rfl rfl h7
    have hfull' : (s.st c).booted = false ∧ (s.st c).clients.length ≠ (s.st c).nRem := by
      constructor
      · cases hb : (s.st c).booted
        · rfl
        · exact absurd (Or.inl hb) hfull
      · exact fun hx => hfull (Or.inr hx)
    refine ⟨rfl, rfl, rfl, rfl, rfl, rfl, rfl, ⟨[], by simp, rfl⟩, Or.inr ⟨by rw [hc]; simp, hfull'.1,
      by simpa using hdone, hfull'.2, cset_length _ _ _⟩, fun hx => ?_⟩
    exfalso
    apply hfull'.2
    rw [hx]
    rfl
  · split at h
    · split at h
      · cases h; exact hfinish_frame s i _ h7
      · cases h; exact goto_frame s i hd _ h7
      · cases h; exact goto_frame s i hd _ h7
    · cases h; exact goto_frame s i hd _ h7
  · cases h; exact HFrame.of_same i _ rfl rfl rfl rfl rfl rfl rfl h7
  · split at h
    · rename_i hlen
      cases h
      refine HFrame.of_meta (s.objs hd.obj).stage _ i none rfl ?_ rfl rfl rfl rfl rfl rfl h7
      refine ⟨rfl, rfl, rfl, rfl, rfl, rfl, rfl, ⟨_, rfl, by simp [nLocal]⟩, Or.inl ⟨fun _ h => h, Nat.le_refl _⟩,
        fun hx => ?_⟩
      rw [hx] at hlen
      exact absurd hlen (by simp)
    · cases h
  · split at h
    · cases h; exact goto_frame s i hd _ h7
    · cases h
  · split at h
    · cases h
      exact HFrame.of_meta (s.objs hd.obj).stage _ i none rfl (delMeta _ _ _) rfl rfl rfl rfl rfl rfl h7
    · cases h; exact goto_frame s i hd _ h7
  · split at h
    · cases h; exact hfinish_frame s i _ h7
    · cases h; exact HFrame.of_same i _ rfl rfl rfl rfl rfl rfl rfl h7
  · cases h; exact HFrame.of_same i none rfl rfl rfl rfl rfl rfl rfl h7
  · cases h
    exact HFrame.of_meta (s.objs hd.obj).stage _ i _ rfl (delMeta _ _ _) rfl rfl rfl rfl rfl rfl h7
  · split at h
    · rename_i hlen
      cases h
      refine HFrame.of_meta (s.objs hd.obj).stage _ i _ rfl ?_ rfl rfl rfl rfl rfl rfl h7
      refine ⟨rfl, rfl, rfl, rfl, rfl, rfl, rfl, ⟨[], by simp, rfl⟩, Or.inl ⟨fun _ h => h, Nat.le_refl _⟩,
        fun hx => ?_⟩
      rw [hx] at hlen
      exact absurd hlen (by simp)
    · cases h
  · cases h; exact HFrame.of_same i none rfl rfl rfl rfl rfl rfl rfl h7
  · split at h
    · cases h; exact hfinish_frame s i _ h7
    · cases h; exact HFrame.of_same i none rfl rfl rfl rfl rfl rfl rfl h7

/-! ### Invariant of all executions -/

/-- What holds at each place of `Server.run`. -/
def PhaseOk (s : CSt) : Prop :=
  match s.phase with
  | .idle => True
  | .ackLocal m => m < s.nSt ∧ (s.st m).oks = [] ∧ (s.st m).booted = false ∧ (s.st m).hasLocal = true ∧
      nLocal (s.st m).bootQ = 0
  | .setStage m => m < s.nSt ∧ (s.st m).oks = [] ∧ (s.st m).booted = false
  | .switching old m => m < s.nSt ∧ (s.st m).oks = [] ∧ (s.st m).booted = false ∧ s.cur = some old
  | .boot m n => m < s.nSt ∧ (s.st m).oks.length = n ∧ n ≤ (s.st m).nInst ∧ (s.st m).booted = false
  | .setBooted m => m < s.nSt ∧ (s.st m).oks.length = (s.st m).nInst ∧ (s.st m).booted = false
  | .release m => m < s.nSt ∧ (s.st m).booted = true
  | .run m _ => m < s.nSt ∧ (s.st m).booted = true
  | .stopping old m _ => m < s.nSt ∧ (s.st m).booted = true ∧ s.cur = some old
  | .stopped => True

/-- The place where the current stage may not be booted. -/
def CSt.booting (s : CSt) (c : Nat) : Prop := (∃ n, s.phase = .boot c n) ∨ s.phase = .setBooted c ∨ s.phase = .stopped

structure UInv (s : CSt) : Prop where
  cur : ∀ m, s.cur = some m → m < s.nSt
  phase : PhaseOk s
  fresh : ∀ m, s.nSt ≤ m → s.st m = {}
  len : ∀ m, (s.st m).clients.length ≤ (s.st m).nRem
  rem : ∀ m, (s.st m).nRem = if (s.st m).hasLocal then (s.st m).nInst - 1 else (s.st m).nInst
  only : ∀ m, s.cur ≠ some m → (s.st m).clients = []
  booted : ∀ m, (s.st m).booted = true → (s.st m).oks.length = (s.st m).nInst
  closed : ∀ m, (s.st m).runClosed = true → (s.st m).booted = true
  done : ∀ m, (s.st m).done = true → (s.st m).booted = true
  curb : ∀ c, s.cur = some c → (s.st c).booted = false → s.booting c
  oks : ∀ m, ∀ a ∈ (s.st m).oks, a.ok = true
  loc : ∀ m, nLocal ((s.st m).oks ++ (s.st m).bootQ) ≤ if (s.st m).hasLocal then 1 else 0
  hs : ∀ i, s.hs i ≠ none → i < s.nH
  pos : ∀ m, (s.st m).hasLocal = true → 0 < (s.st m).nInst ∨ s.phase = .ackLocal m

theorem nLocal_append (a b : List BAck) : nLocal (a ++ b) = nLocal a + nLocal b := by
  simp [nLocal, List.countP_append]

theorem UInv.init (test : Bool) : UInv { test := test } := by
  refine ⟨?_, trivial, fun _ _ => rfl, fun _ => Nat.le_refl _, fun _ => rfl, fun _ _ => rfl, ?_, ?_, ?_, ?_, ?_,
    fun _ => Nat.le_refl _, fun _ h => absurd rfl h, ?_⟩
  · intro m h; cases h
  · intro m h; cases h
  · intro m h; cases h
  · intro m h; cases h
  · intro m h; cases h
  · intro m a h; cases h
  · intro m h; cases h

theorem UInv.frame {s s' : CSt} (u : UInv s) (f : HFrame s s') : UInv s' := by
  have hq : ∀ m, nLocal (s'.st m).bootQ = nLocal (s.st m).bootQ := by
    intro m
    obtain ⟨l, e, hl⟩ := (f.metas m).bootQ
    rw [e, nLocal_append, hl]; rfl
  refine ⟨?_, ?_, ?_, ?_, ?_, ?_, ?_, ?_, ?_, ?_, ?_, ?_, ?_, ?_⟩
  · intro m h; rw [f.nSt]; rw [f.cur] at h; exact u.cur m h
  · have hp := u.phase
    unfold PhaseOk at hp ⊢
    rw [f.phase]
    cases hph : s.phase <;> rw [hph] at hp <;> simp only [] at hp ⊢ <;> try trivial
    all_goals
      simp only [f.nSt, f.cur, (f.metas _).oks, (f.metas _).booted, (f.metas _).hasLocal, (f.metas _).nInst, hq]
      exact hp
  · intro m h; rw [f.nSt] at h; exact (f.metas m).fresh (u.fresh m h)
  · intro m
    rw [(f.metas m).nRem]
    have := u.len m
    rcases (f.metas m).clients with ⟨_, h⟩ | ⟨_, _, _, h, h'⟩ <;> omega
  · intro m; rw [(f.metas m).nRem, (f.metas m).hasLocal, (f.metas m).nInst]; exact u.rem m
  · intro m h
    rw [f.cur] at h
    rcases (f.metas m).clients with ⟨h', _⟩ | ⟨h', _⟩
    · rw [u.only m h] at h'
      exact List.eq_nil_iff_forall_not_mem.mpr (fun e he => by cases h' e he)
    · simp only [beq_iff_eq] at h'; exact absurd h' h
  · intro m h; rw [(f.metas m).booted] at h; rw [(f.metas m).oks, (f.metas m).nInst]; exact u.booted m h
  · intro m h; rw [(f.metas m).runClosed] at h; rw [(f.metas m).booted]; exact u.closed m h
  · intro m h; rw [(f.metas m).done] at h; rw [(f.metas m).booted]; exact u.done m h
  · intro c h1 h2
    rw [f.cur] at h1
    rw [(f.metas c).booted] at h2
    have := u.curb c h1 h2
    unfold CSt.booting at this ⊢
    rw [f.phase]; exact this
  · intro m; rw [(f.metas m).oks]; exact u.oks m
  · intro m
    have := u.loc m
    rw [nLocal_append] at this ⊢
    rw [(f.metas m).oks, (f.metas m).hasLocal, hq]; exact this
  · intro i h; rw [f.nH]; exact u.hs i (f.hs i h)
  · intro m; rw [(f.metas m).hasLocal, (f.metas m).nInst, f.phase]; exact u.pos m

/-- The state after the server changed the stage `m` to `x`. -/
theorem UInv.set {s s' : CSt} (u : UInv s) (m : Nat) (x : SMeta) (hm : m < s.nSt)
    (hst : s'.st = updAt s.st m x) (hn : s'.nSt = s.nSt) (hh : s'.hs = s.hs) (hnh : s'.nH = s.nH)
    (hcl : x.clients = (s.st m).clients) (hi : x.nInst = (s.st m).nInst) (hr : x.nRem = (s.st m).nRem)
    (hloc : x.hasLocal = (s.st m).hasLocal)
    (hcur : s'.cur = s.cur ∨ (∃ c, s'.cur = some c ∧ c < s.nSt ∧ s'.booting c ∧ ∀ k, s.cur = some k → (s.st k).clients = []) ∨
      (s'.cur = none ∧ ∀ k, s.cur = some k → (s.st k).clients = []))
    (hphase : PhaseOk s')
    (hb : x.booted = true → x.oks.length = x.nInst) (hc : x.runClosed = true → x.booted = true)
    (hd : x.done = true → x.booted = true)
    (hcb : s'.cur = s.cur → ∀ c, s'.cur = some c → (s'.st c).booted = false → s'.booting c)
    (ho : ∀ a ∈ x.oks, a.ok = true)
    (hl : nLocal (x.oks ++ x.bootQ) ≤ if x.hasLocal then 1 else 0)
    (hpos : ∀ k, s.phase = .ackLocal k → 0 < (s.st k).nInst ∨ s'.phase = .ackLocal k) : UInv s' := by
  have hcl' : ∀ k, (s'.st k).clients = (s.st k).clients := by
    intro k; rw [hst]
    by_cases hk : k = m
    · subst hk; rw [updAt_same]; exact hcl
    · rw [updAt_ne _ _ hk]
  refine ⟨?_, hphase, ?_, ?_, ?_, ?_, ?_, ?_, ?_, ?_, ?_, ?_, ?_, ?_⟩
  · intro c h
    rw [hn]
    rcases hcur with e | ⟨d, e, hd, _⟩ | ⟨e, _⟩
    · rw [e] at h; exact u.cur c h
    · rw [e] at h; cases h; exact hd
    · rw [e] at h; cases h
  · intro k h
    rw [hn] at h
    rw [hst, updAt_ne _ _ (by omega)]
    exact u.fresh k h
  · intro k
    rw [hcl', hst]
    by_cases hk : k = m
    · subst hk; rw [updAt_same, hr]; exact u.len k
    · rw [updAt_ne _ _ hk]; exact u.len k
  · intro k
    rw [hst]
    by_cases hk : k = m
    · subst hk; rw [updAt_same, hr, hi, hloc]; exact u.rem k
    · rw [updAt_ne _ _ hk]; exact u.rem k
  · intro k h
    rw [hcl']
    rcases hcur with e | ⟨d, e, _, _, hd⟩ | ⟨e, hd⟩
    · rw [e] at h; exact u.only k h
    · by_cases hk : s.cur = some k
      · exact hd k hk
      · exact u.only k hk
    · by_cases hk : s.cur = some k
      · exact hd k hk
      · exact u.only k hk
  · intro k; rw [hst]
    by_cases hk : k = m
    · subst hk; rw [updAt_same]; exact hb
    · rw [updAt_ne _ _ hk]; exact u.booted k
  · intro k; rw [hst]
    by_cases hk : k = m
    · subst hk; rw [updAt_same]; exact hc
    · rw [updAt_ne _ _ hk]; exact u.closed k
  · intro k; rw [hst]
    by_cases hk : k = m
    · subst hk; rw [updAt_same]; exact hd
    · rw [updAt_ne _ _ hk]; exact u.done k
  · intro c h1 h2
    rcases hcur with e | ⟨d, e, _, hd, _⟩ | ⟨e, _⟩
    · exact hcb e c h1 h2
    · rw [e] at h1; cases h1; exact hd
    · rw [e] at h1; cases h1
  · intro k; rw [hst]
    by_cases hk : k = m
    · subst hk; rw [updAt_same]; exact ho
    · rw [updAt_ne _ _ hk]; exact u.oks k
  · intro k; rw [hst]
    by_cases hk : k = m
    · subst hk; rw [updAt_same]; exact hl
    · rw [updAt_ne _ _ hk]; exact u.loc k
  · intro i; rw [hh, hnh]; exact u.hs i
  · intro k hkl
    have e : (s'.st k).hasLocal = (s.st k).hasLocal ∧ (s'.st k).nInst = (s.st k).nInst := by
      rw [hst]
      by_cases hk : k = m
      · subst hk; rw [updAt_same]; exact ⟨hloc, hi⟩
      · rw [updAt_ne _ _ hk]; exact ⟨rfl, rfl⟩
    rw [e.1] at hkl
    rw [e.2]
    exact (u.pos k hkl).elim Or.inl (hpos k)

theorem updAt_self {α : Type} (f : Nat → α) (k : Nat) : updAt f k (f k) = f := by
  funext x
  by_cases hx : x = k
  · subst hx; rw [updAt_same]
  · rw [updAt_ne _ _ hx]

/-- Only the phase (and the current stage) changes. -/
theorem UInv.move {s s' : CSt} (u : UInv s) (m : Nat) (hm : m < s.nSt)
    (hst : s'.st = s.st) (hn : s'.nSt = s.nSt) (hh : s'.hs = s.hs) (hnh : s'.nH = s.nH)
    (hcur : s'.cur = s.cur ∨ (∃ c, s'.cur = some c ∧ c < s.nSt ∧ s'.booting c ∧ ∀ k, s.cur = some k → (s.st k).clients = []) ∨
      (s'.cur = none ∧ ∀ k, s.cur = some k → (s.st k).clients = []))
    (hphase : PhaseOk s')
    (hcb : s'.cur = s.cur → ∀ c, s'.cur = some c → (s'.st c).booted = false → s'.booting c)
    (hpos : ∀ k, s.phase = .ackLocal k → 0 < (s.st k).nInst ∨ s'.phase = .ackLocal k) : UInv s' :=
  u.set m (s.st m) hm (by rw [hst, updAt_self]) hn hh hnh rfl rfl rfl rfl hcur hphase (u.booted m) (u.closed m)
    (u.done m) hcb (u.oks m) (u.loc m) hpos

/-- The current stage is booted unless the server waits for it. -/
theorem UInv.cur_booted {s : CSt} (u : UInv s) {c : Nat} (h : s.cur = some c)
    (h1 : ∀ m n, s.phase ≠ .boot m n) (h2 : ∀ m, s.phase ≠ .setBooted m) (h3 : s.phase ≠ .stopped) :
    (s.st c).booted = true := by
  cases hb : (s.st c).booted
  · rcases u.curb c h hb with ⟨n, e⟩ | e | e
    · exact absurd e (h1 _ _)
    · exact absurd e (h2 _)
    · exact absurd e h3
  · rfl

theorem UInv.tick {s s' : CSt} (u : UInv s) (h : s.tick = some s') : UInv s' := by
  have hp := u.phase
  have npos : (∀ k, s.phase ≠ .ackLocal k) → ∀ k, s.phase = .ackLocal k → 0 < (s.st k).nInst ∨ s'.phase = .ackLocal k :=
    fun h k e => absurd e (h k)
  unfold CSt.tick at h
  unfold PhaseOk at hp
  split at h <;> rename_i hph <;> rw [hph] at hp <;> simp only [] at hp
  · cases h
  · -- ackLocal
    rename_i m
    obtain ⟨hm, ho, hb, hl, hq⟩ := hp
    split at h
    · rename_i hlt
      have np : ∀ k, s.phase = .ackLocal k → 0 < (s.st k).nInst ∨ s'.phase = .ackLocal k := by
        intro k e; rw [hph] at e; cases e; left; omega
      cases h
      refine u.set m _ hm rfl rfl rfl rfl rfl rfl rfl rfl (Or.inl rfl) ?_ (u.booted m) (u.closed m) (u.done m) ?_
        (u.oks m) ?_ np
      · show _ ∧ _ ∧ _
        simp only [CSt.setMeta, updAt_same]
        exact ⟨hm, ho, hb⟩
      · intro _ c hc hcb
        have hc' : s.cur = some c := hc
        have hbc := u.cur_booted hc' (by simp [hph]) (by simp [hph]) (by simp [hph])
        simp only [CSt.setMeta] at hcb
        by_cases hk : c = m
        · subst hk; rw [hb] at hbc; cases hbc
        · rw [updAt_ne _ _ hk, hbc] at hcb; cases hcb
      · simp only [nLocal_append, hq, ho, hl]
        simp [nLocal]
    · cases h
  · -- setStage
    rename_i m
    obtain ⟨hm, ho, hb⟩ := hp
    split at h
    · split at h
      · rename_i hcur
        cases h
        exact u.move m hm rfl rfl rfl rfl (Or.inr (Or.inl ⟨m, rfl, hm, Or.inl ⟨0, rfl⟩, by simp [hcur]⟩))
          (by show _ ∧ _; simp only []; exact ⟨hm, by simp [ho], Nat.zero_le _, hb⟩)
          (by intro e; simp [hcur] at e) (npos (by simp [hph]))
      · rename_i old hcur
        cases h
        have hob := u.cur_booted hcur (by simp [hph]) (by simp [hph]) (by simp [hph])
        have hne : m ≠ old := by intro e; subst e; rw [hb] at hob; cases hob
        refine u.set old _ (u.cur old hcur) rfl rfl rfl rfl rfl rfl rfl rfl (Or.inl rfl) ?_ (u.booted old)
          (u.closed old) (fun _ => hob) ?_ (u.oks old) (u.loc old) (npos (by simp [hph]))
        · show _ ∧ _ ∧ _
          simp only [CSt.setMeta, updAt_ne _ _ hne]
          exact ⟨hm, ho, hb, hcur⟩
        · intro _ c hc hcb
          have hc' : s.cur = some c := hc
          rw [hcur] at hc'
          cases hc'
          simp only [CSt.setMeta, updAt_same] at hcb
          rw [hob] at hcb; cases hcb
    · cases h
      refine u.move m hm rfl rfl rfl rfl (Or.inl rfl)
        (by show _ ∧ _; simp only []; exact ⟨hm, by simp [ho], Nat.zero_le _, hb⟩) ?_ (npos (by simp [hph]))
      intro _ c hc hcb
      have hc' : s.cur = some c := hc
      have hbc := u.cur_booted hc' (by simp [hph]) (by simp [hph]) (by simp [hph])
      have hcb' : (s.st c).booted = false := hcb
      rw [hbc] at hcb'; cases hcb'
  · -- switching
    rename_i old m
    obtain ⟨hm, ho, hb, hcur⟩ := hp
    split at h
    · rename_i hem
      cases h
      refine u.move m hm rfl rfl rfl rfl (Or.inr (Or.inl ⟨m, rfl, hm, Or.inl ⟨0, rfl⟩, ?_⟩))
          (by show _ ∧ _; simp only []; exact ⟨hm, by simp [ho], Nat.zero_le _, hb⟩) ?_ (npos (by simp [hph]))
      · intro k hk; rw [hcur] at hk; cases hk; exact hem
      · intro e c hc _
        cases hc
        exact Or.inl ⟨0, rfl⟩
    · cases h
  · -- boot
    rename_i m n
    obtain ⟨hm, ho, hn, hb⟩ := hp
    have hcb0 : ∀ c, s.cur = some c → c ≠ m → (s.st c).booted = true := by
      intro c hc hne
      cases hbc : (s.st c).booted
      · rcases u.curb c hc hbc with ⟨k, e⟩ | e | e
        · rw [hph] at e; cases e; exact absurd rfl hne
        · rw [hph] at e; cases e
        · rw [hph] at e; cases e
      · rfl
    have hl := u.loc m
    split at h
    · rename_i hlt
      split at h
      · cases h
      · rename_i a q hq
        split at h
        · rename_i ha
          cases h
          refine u.set m _ hm rfl rfl rfl rfl rfl rfl rfl rfl (Or.inl rfl) ?_ (fun h => ?_) (u.closed m) (u.done m)
            ?_ ?_ ?_ (npos (by simp [hph]))
          · show _ ∧ _
            simp only [CSt.setMeta, updAt_same]
            exact ⟨hm, by simp [ho], hlt, hb⟩
          · rw [hb] at h; cases h
          · intro _ c hc hcb
            have hc' : s.cur = some c := hc
            by_cases hk : c = m
            · subst hk; exact Or.inl ⟨_, rfl⟩
            · simp only [CSt.setMeta, updAt_ne _ _ hk, hcb0 c hc' hk] at hcb; cases hcb
          · intro b hb'
            rcases List.mem_append.mp hb' with h' | h'
            · exact u.oks m b h'
            · simp only [List.mem_singleton] at h'; rw [h']; exact ha
          · rw [hq] at hl
            simpa [nLocal_append, List.append_assoc] using hl
        · cases h
          refine u.set m _ hm rfl rfl rfl rfl rfl rfl rfl rfl (Or.inl rfl) ?_ (u.booted m) (u.closed m) (u.done m)
            ?_ (u.oks m) ?_ (npos (by simp [hph]))
          · unfold PhaseOk
            simp only [CSt.setMeta, hph, updAt_same]
            exact ⟨hm, ho, hn, hb⟩
          · intro _ c hc hcb
            have hc' : s.cur = some c := hc
            by_cases hk : c = m
            · subst hk; exact Or.inl ⟨n, hph⟩
            · simp only [CSt.setMeta, updAt_ne _ _ hk, hcb0 c hc' hk] at hcb; cases hcb
          · rw [hq] at hl
            simp only [nLocal_append] at hl ⊢
            have : nLocal q ≤ nLocal (a :: q) := by simp only [nLocal, List.countP_cons]; omega
            exact Nat.le_trans (Nat.add_le_add_left this _) hl
    · rename_i hge
      cases h
      refine u.move m hm rfl rfl rfl rfl (Or.inl rfl) ?_ ?_ (npos (by simp [hph]))
      · show _ ∧ _
        simp only []
        exact ⟨hm, by omega, hb⟩
      · intro _ c hc hcb
        have hc' : s.cur = some c := hc
        have hcb' : (s.st c).booted = false := hcb
        by_cases hk : c = m
        · subst hk; exact Or.inr (Or.inl rfl)
        · rw [hcb0 c hc' hk] at hcb'; cases hcb'
  · -- setBooted
    rename_i m
    obtain ⟨hm, ho, hb⟩ := hp
    cases h
    refine u.set m _ hm rfl rfl rfl rfl rfl rfl rfl rfl (Or.inl rfl) ?_ (fun _ => ho) (fun _ => rfl) (fun _ => rfl)
      ?_ (u.oks m) (u.loc m) (npos (by simp [hph]))
    · unfold PhaseOk
      simp only [CSt.setMeta]
      cases s.test
      · simp only [Bool.false_eq_true, if_false, updAt_same]
        exact ⟨hm, trivial⟩
      · simp only [if_true]
    · intro _ c hc hcb
      have hc' : s.cur = some c := hc
      simp only [CSt.setMeta] at hcb
      by_cases hk : c = m
      · subst hk; rw [updAt_same] at hcb; cases hcb
      · rw [updAt_ne _ _ hk] at hcb
        rcases u.curb c hc' hcb with ⟨k, e⟩ | e | e
        · rw [hph] at e; cases e
        · rw [hph] at e; cases e; exact absurd rfl hk
        · rw [hph] at e; cases e
  · -- release
    rename_i m
    obtain ⟨hm, hb⟩ := hp
    cases h
    refine u.set m _ hm rfl rfl rfl rfl rfl rfl rfl rfl (Or.inl rfl) ?_ (u.booted m) (fun _ => hb) (u.done m)
      ?_ (u.oks m) (u.loc m) (npos (by simp [hph]))
    · show _ ∧ _
      simp only [CSt.setMeta, updAt_same]
      exact ⟨hm, hb⟩
    · intro _ c hc hcb
      have hbc := u.cur_booted (show s.cur = some c from hc) (by simp [hph]) (by simp [hph]) (by simp [hph])
      simp only [CSt.setMeta] at hcb
      by_cases hk : c = m
      · subst hk; rw [updAt_same] at hcb; rw [hb] at hcb; cases hcb
      · rw [updAt_ne _ _ hk, hbc] at hcb; cases hcb
  · -- run
    rename_i m n
    obtain ⟨hm, hb⟩ := hp
    split at h
    · cases h
      refine u.move m hm rfl rfl rfl rfl (Or.inl rfl) trivial ?_ (npos (by simp [hph]))
      intro _ c hc hcb
      have hbc := u.cur_booted (show s.cur = some c from hc) (by simp [hph]) (by simp [hph]) (by simp [hph])
      have hcb' : (s.st c).booted = false := hcb
      rw [hbc] at hcb'; cases hcb'
    · split at h
      · cases h
      · cases h
        refine u.set m _ hm rfl rfl rfl rfl rfl rfl rfl rfl (Or.inl rfl) ?_ (u.booted m) (u.closed m) (u.done m)
          ?_ (u.oks m) (u.loc m) (npos (by simp [hph]))
        · show _ ∧ _
          simp only [CSt.setMeta, updAt_same]
          exact ⟨hm, hb⟩
        · intro _ c hc hcb
          have hbc := u.cur_booted (show s.cur = some c from hc) (by simp [hph]) (by simp [hph]) (by simp [hph])
          simp only [CSt.setMeta] at hcb
          by_cases hk : c = m
          · subst hk; rw [updAt_same] at hcb; rw [hb] at hcb; cases hcb
          · rw [updAt_ne _ _ hk, hbc] at hcb; cases hcb
  · -- stopping
    rename_i old m n
    obtain ⟨hm, hb, hcur⟩ := hp
    split at h
    · rename_i hem
      cases h
      refine u.move m hm rfl rfl rfl rfl (Or.inr (Or.inr ⟨rfl, ?_⟩)) (by show _ ∧ _; exact ⟨hm, hb⟩) ?_ (npos (by simp [hph]))
      · intro k hk; rw [hcur] at hk; cases hk; exact hem
      · intro _ c hc; cases hc
    · cases h
  · cases h

theorem UInv.step {s s' : CSt} (u : UInv s) {a : CAct} (h : s.step a = some s') : UInv s' := by
  cases a with
  | arrive k name sid b =>
    simp only [CSt.step] at h
    cases h
    refine ⟨u.cur, u.phase, u.fresh, u.len, u.rem, u.only, u.booted, u.closed, u.done, u.curb, u.oks, u.loc, ?_, u.pos⟩
    intro i hi
    by_cases hk : i = s.nH
    · subst hk; exact Nat.lt_succ_self _
    · simp only [updAt_ne _ _ hk] at hi
      exact Nat.lt_succ_of_lt (u.hs i hi)
  | handler i lost => exact u.frame (hstep_frame h)
  | tick => exact u.tick h
  | begin nInst hasLocal prepared =>
    simp only [CSt.step, CSt.beginStage] at h
    split at h
    · rename_i hph
      split at h
      · cases h
        exact ⟨u.cur, trivial, u.fresh, u.len, u.rem, u.only, u.booted, u.closed, u.done,
          fun c _ _ => Or.inr (Or.inr rfl), u.oks, u.loc, u.hs, fun m h => Or.inl ((u.pos m h).elim id (by simp [hph]))⟩
      · cases h
        have hlt : ∀ c, s.cur = some c → c ≠ s.nSt := fun c hc e => by have := u.cur c hc; omega
        refine ⟨fun m hm => Nat.lt_succ_of_lt (u.cur m hm), ?_, ?_, ?_, ?_, ?_, ?_, ?_, ?_, ?_, ?_, ?_, u.hs, ?_⟩
        · unfold PhaseOk
          cases hasLocal
          · simp only [Bool.false_eq_true, if_false, updAt_same]
            exact ⟨Nat.lt_succ_self _, trivial, trivial⟩
          · simp only [if_true, updAt_same]
            exact ⟨Nat.lt_succ_self _, trivial, trivial, trivial, rfl⟩
        · intro m hm
          have hm' : s.nSt + 1 ≤ m := hm
          simp only [updAt_ne _ _ (show m ≠ s.nSt by omega)]
          exact u.fresh m (by omega)
        all_goals intro m
        all_goals try simp only []
        all_goals
          by_cases hk : m = s.nSt
          · subst hk
            try simp only [updAt_same]
            all_goals first
            | (simp; done)
            | (simp [nLocal]; done)
            | (intro h; exact absurd rfl (hlt _ h))
            | (intro h; right; rw [if_pos h])
          · simp only [updAt_ne _ _ hk]
            first
            | exact u.len m | exact u.rem m | exact u.only m | exact u.booted m | exact u.closed m | exact u.done m
            | exact u.oks m | exact u.loc m
            | exact fun h => Or.inl ((u.pos m h).elim id (by simp [hph]))
            | (intro hc hb
               have := u.cur_booted hc (by simp [hph]) (by simp [hph]) (by simp [hph])
               rw [hb] at this; cases this)
    · cases h
  | ctxDone =>
    have hp := u.phase
    unfold PhaseOk at hp
    simp only [CSt.step] at h
    split at h
    · rename_i hph
      rw [hph] at hp
      split at h
      · cases h
        exact ⟨u.cur, trivial, u.fresh, u.len, u.rem, u.only, u.booted, u.closed, u.done,
          fun c _ _ => Or.inr (Or.inr rfl), u.oks, u.loc, u.hs, fun m h => Or.inl ((u.pos m h).elim id (by simp [hph]))⟩
      · cases h
    · rename_i m n hph
      rw [hph] at hp
      obtain ⟨hm, hb⟩ := hp
      split at h
      · cases h
      · split at h
        · cases h; exact u
        · rename_i old hcur
          cases h
          have hob := u.cur_booted hcur (by simp [hph]) (by simp [hph]) (by simp [hph])
          refine u.set old _ (u.cur old hcur) rfl rfl rfl rfl rfl rfl rfl rfl (Or.inl rfl) ?_ (u.booted old)
            (u.closed old) (fun _ => hob) ?_ (u.oks old) (u.loc old) (fun k e => by rw [hph] at e; cases e)
          · show _ ∧ _ ∧ _
            refine ⟨hm, ?_, hcur⟩
            simp only [CSt.setMeta]
            by_cases hk : m = old
            · subst hk; rw [updAt_same]; exact hb
            · rw [updAt_ne _ _ hk]; exact hb
          · intro _ c hc hcb
            have hc' : s.cur = some c := hc
            rw [hcur] at hc'
            cases hc'
            simp only [CSt.setMeta, updAt_same] at hcb
            rw [hob] at hcb; cases hcb
    · cases h
  | localDone m =>
    simp only [CSt.step] at h
    split at h
    · rename_i hc
      simp only [Bool.and_eq_true] at hc
      have hm : m < s.nSt := by
        by_contra hcon
        have := u.fresh m (by omega)
        rw [this] at hc
        exact absurd hc.1.1.1 (by simp)
      cases h
      refine u.set m _ hm rfl rfl rfl rfl rfl rfl rfl rfl (Or.inl rfl) ?_ (u.booted m) (u.closed m) (u.done m)
          ?_ (u.oks m) (u.loc m) (fun _ => Or.inr)
      · have hp := u.phase
        unfold PhaseOk at hp ⊢
        simp only [CSt.setMeta]
        have e : ∀ k, ((updAt s.st m { s.st m with doneQ := (s.st m).doneQ ++ [⟨none, true⟩], localDone := true }) k).oks =
            (s.st k).oks ∧
            ((updAt s.st m { s.st m with doneQ := (s.st m).doneQ ++ [⟨none, true⟩], localDone := true }) k).booted =
            (s.st k).booted ∧
            ((updAt s.st m { s.st m with doneQ := (s.st m).doneQ ++ [⟨none, true⟩], localDone := true }) k).nInst =
            (s.st k).nInst ∧
            ((updAt s.st m { s.st m with doneQ := (s.st m).doneQ ++ [⟨none, true⟩], localDone := true }) k).hasLocal =
            (s.st k).hasLocal ∧
            ((updAt s.st m { s.st m with doneQ := (s.st m).doneQ ++ [⟨none, true⟩], localDone := true }) k).bootQ =
            (s.st k).bootQ := by
          intro k
          by_cases hk : k = m
          · subst hk; rw [updAt_same]; exact ⟨rfl, rfl, rfl, rfl, rfl⟩
          · rw [updAt_ne _ _ hk]; exact ⟨rfl, rfl, rfl, rfl, rfl⟩
        cases hph : s.phase <;> rw [hph] at hp <;> simp only [] at hp ⊢ <;> try trivial
        all_goals
          simp only [(e _).1, (e _).2.1, (e _).2.2.1, (e _).2.2.2.1, (e _).2.2.2.2]
          exact hp
      · intro _ c hc' hcb
        have hcb' : (s.st c).booted = false := by
          simp only [CSt.setMeta] at hcb
          by_cases hk : c = m
          · subst hk; rw [updAt_same] at hcb; exact hcb
          · rw [updAt_ne _ _ hk] at hcb; exact hcb
        exact u.curb c hc' hcb'
    · cases h

theorem CReach.uinv {s : CSt} (h : CReach s) : UInv s := by
  induction h with
  | init test => exact UInv.init test
  | step _ h ih => exact ih.step h

end Finch
