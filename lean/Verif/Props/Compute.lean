import Verif.Props.ComputeInv
/-!
Distributed runs: states of remote instances (C51), how many join a stage (C52), when a stage starts (C53).
-/
namespace Finch

/-! ### Traces -/

theorem CReach.exec {s s' : CSt} (h : CReach s) : ∀ {as : List CAct}, s.exec as = some s' → CReach s' := by
  intro as
  induction as generalizing s with
  | nil => intro e; cases e; exact h
  | cons a as ih =>
    intro e
    unfold CSt.exec at e
    split at e
    · cases e
    · rename_i s1 h1
      exact ih (.step h h1) e

/-- Whether `serialOk`, as a test. -/
def serialTest (w : Bool) (s : CSt) : CAct → Bool
  | .arrive k name _ _ => !k.tracked w || (List.range s.nH).all fun i =>
      match s.hs i with
      | none => true
      | some h => !h.kind.tracked w || h.name != name
  | _ => true

theorem serialTest_ok {w : Bool} {s : CSt} (u : UInv s) {a : CAct} (h : serialTest w s a = true) : serialOk w s a := by
  cases a with
  | arrive k name sid b =>
    intro hk i hd hi ht
    simp only [serialTest, hk, Bool.not_true, Bool.false_or, List.all_eq_true, List.mem_range] at h
    have := h i (u.hs i (by rw [hi]; simp))
    rw [hi] at this
    simpa [ht] using this
  | _ => trivial

/-- A sequence of steps without overlapping requests. -/
def serialExec (w : Bool) (s : CSt) : List CAct → Option CSt
  | [] => some s
  | a :: as => if serialTest w s a then (s.step a).bind fun s' => serialExec w s' as else none

theorem SReach.exec {w : Bool} {s s' : CSt} (h : SReach w s) : ∀ {as : List CAct}, serialExec w s as = some s' →
    SReach w s' := by
  intro as
  induction as generalizing s with
  | nil => intro e; cases e; exact h
  | cons a as ih =>
    intro e
    unfold serialExec at e
    split at e
    · rename_i ht
      cases h1 : s.step a with
      | none => rw [h1] at e; cases e
      | some s1 =>
        rw [h1] at e
        exact ih (.step h (serialTest_ok h.reach.uinv ht) h1) e
    · cases e

/-- The state after a trace. -/
def after (as : List CAct) : CSt := (CSt.exec {} as).getD {}

theorem after_reach {as : List CAct} (h : (CSt.exec {} as).isSome = true) : CReach (after as) := by
  cases he : CSt.exec {} as with
  | none => rw [he] at h; cases h
  | some s =>
    simp only [after, he, Option.getD_some]
    exact (CReach.init false).exec he

def afterSerial (w : Bool) (as : List CAct) : CSt := (serialExec w {} as).getD {}

theorem afterSerial_reach {w : Bool} {as : List CAct} (h : (serialExec w {} as).isSome = true) :
    SReach w (afterSerial w as) := by
  cases he : serialExec w {} as with
  | none => rw [he] at h; cases h
  | some s =>
    simp only [afterSerial, he, Option.getD_some]
    exact (SReach.init false).exec he

/-- Steps of the handler `i`. -/
def hsteps (i n : Nat) : List CAct := List.replicate n (.handler i false)

/-- A stage with two remote instances (7 and 8) and the local one: all boot, run and are done. -/
def exBoot : List CAct :=
  [.begin 3 true true, .tick, .tick] ++
  [.arrive .getBoot 7 0 .empty] ++ hsteps 0 3 ++
  [.arrive .getBoot 8 0 .empty] ++ hsteps 1 3 ++
  [.arrive .postBoot 7 1 .empty, .arrive .postBoot 8 1 .empty] ++ hsteps 2 5 ++ hsteps 3 5

def exRelease : List CAct := exBoot ++ List.replicate 6 .tick

def exRun : List CAct :=
  exRelease ++ [.arrive .getRun 7 1 .empty, .arrive .getRun 8 1 .empty] ++ hsteps 4 6 ++ hsteps 5 6

/-! ### C52 -/

/-- At any time at most `instances - 1` remote instances (`instances` if the local one is disabled) are assigned
to a stage. -/
theorem C52_bound {s : CSt} (h : CReach s) (m : Nat) :
    (s.st m).clients.length ≤ if (s.st m).hasLocal then (s.st m).nInst - 1 else (s.st m).nInst := by
  rw [← h.uinv.rem m]; exact h.uinv.len m

/-- None joins after the stage was fully booted, whatever happens then. -/
theorem C52_closed {s s' : CSt} (h : CReach s) {m : Nat} (hb : (s.st m).booted = true) {as : List CAct}
    (he : s.exec as = some s') :
    (s'.st m).booted = true ∧ ∀ e ∈ (s'.st m).clients, e ∈ (s.st m).clients := by
  induction as generalizing s with
  | nil => cases he; exact ⟨hb, fun _ h => h⟩
  | cons a as ih =>
    unfold CSt.exec at he
    split at he
    · cases he
    rename_i s1 h1
    have hstep : (s1.st m).booted = true ∧ ∀ e ∈ (s1.st m).clients, e ∈ (s.st m).clients := by
      have u := h.uinv
      have key : ∀ (x : SMeta) (k : Nat), (x.booted = true ∨ k ≠ m) → (k = m → x.clients = (s.st k).clients) →
          (updAt s.st k x m).booted = true ∧ ∀ e ∈ (updAt s.st k x m).clients, e ∈ (s.st m).clients := by
        intro x k hx hc
        by_cases e : m = k
        · subst e
          rw [updAt_same, hc rfl]
          exact ⟨hx.resolve_right (fun h => h rfl), fun _ h => h⟩
        · rw [updAt_ne _ _ e]; exact ⟨hb, fun _ h => h⟩
      have key' : ∀ (x : SMeta) (k : Nat), (k = m → x.booted = (s.st k).booted) → (k = m → x.clients = (s.st k).clients) →
          (updAt s.st k x m).booted = true ∧ ∀ e ∈ (updAt s.st k x m).clients, e ∈ (s.st m).clients := by
        intro x k hx hc
        refine key x k ?_ hc
        by_cases e : k = m
        · left; rw [hx e, e]; exact hb
        · right; exact e
      cases a with
      | arrive => simp only [CSt.step] at h1; cases h1; exact ⟨hb, fun _ h => h⟩
      | handler i lost =>
        have f := (hstep_frame (show s.hstep i lost = some s1 from h1)).metas m
        refine ⟨by rw [f.booted]; exact hb, ?_⟩
        rcases f.clients with ⟨h', _⟩ | ⟨_, h', _⟩
        · exact h'
        · rw [hb] at h'; cases h'
      | begin nInst hasLocal prepared =>
        simp only [CSt.step, CSt.beginStage] at h1
        have hne : s.nSt ≠ m := by
          intro e
          rw [u.fresh m (by omega)] at hb; cases hb
        split at h1
        · split at h1
          · cases h1; exact ⟨hb, fun _ h => h⟩
          · cases h1
            exact key _ _ (Or.inr hne) (fun e => absurd e hne)
        · cases h1
      | tick =>
        simp only [CSt.step, CSt.tick] at h1
        split at h1
        · cases h1
        · split at h1
          · cases h1; exact key' _ _ (fun _ => rfl) (fun _ => rfl)
          · cases h1
        · split at h1
          · split at h1
            · cases h1; exact ⟨hb, fun _ h => h⟩
            · cases h1; exact key' _ _ (fun _ => rfl) (fun _ => rfl)
          · cases h1; exact ⟨hb, fun _ h => h⟩
        · split at h1
          · cases h1; exact ⟨hb, fun _ h => h⟩
          · cases h1
        · split at h1
          · split at h1
            · cases h1
            · split at h1
              · cases h1; exact key' _ _ (fun _ => rfl) (fun _ => rfl)
              · cases h1; exact key' _ _ (fun _ => rfl) (fun _ => rfl)
          · cases h1; exact ⟨hb, fun _ h => h⟩
        · cases h1; exact key _ _ (Or.inl rfl) (fun _ => rfl)
        · cases h1; exact key' _ _ (fun _ => rfl) (fun _ => rfl)
        · split at h1
          · cases h1; exact ⟨hb, fun _ h => h⟩
          · split at h1
            · cases h1
            · cases h1; exact key' _ _ (fun _ => rfl) (fun _ => rfl)
        · split at h1
          · cases h1; exact ⟨hb, fun _ h => h⟩
          · cases h1
        · cases h1
      | ctxDone =>
        simp only [CSt.step] at h1
        split at h1
        · split at h1
          · cases h1; exact ⟨hb, fun _ h => h⟩
          · cases h1
        · split at h1
          · cases h1
          · split at h1
            · cases h1; exact ⟨hb, fun _ h => h⟩
            · cases h1; exact key' _ _ (fun _ => rfl) (fun _ => rfl)
        · cases h1
      | localDone k =>
        simp only [CSt.step] at h1
        split at h1
        · cases h1; exact key' _ _ (fun _ => rfl) (fun _ => rfl)
        · cases h1
    obtain ⟨b1, c1⟩ := hstep
    obtain ⟨b2, c2⟩ := ih (.step h h1) b1 he
    exact ⟨b2, fun e h => c1 e (c2 e h)⟩

/-- With two places for remote instances the third one keeps waiting. -/
example : ((after exRelease).st 0).clients = [(8, 1), (7, 0)] := by decide +kernel

example : CReach (after exRelease) ∧ ((after exRelease).st 0).booted = true :=
  ⟨after_reach (by decide +kernel), by decide +kernel⟩

example : ((after (exBoot ++ [.arrive .getBoot 9 0 .empty] ++ hsteps 4 2)).step (.handler 4 false)).isNone := by
  decide +kernel

/-! ### C53 -/

/-- The run signal is given only after as many successful acknowledgements as instances. -/
theorem C53_count {s : CSt} (h : CReach s) {m : Nat} (hr : (s.st m).runClosed = true) :
    (s.st m).oks.length = (s.st m).nInst ∧ ∀ a ∈ (s.st m).oks, a.ok = true :=
  ⟨h.uinv.booted m (h.uinv.closed m hr), h.uinv.oks m⟩

theorem okNames_length : ∀ (l : List BAck), (∀ a ∈ l, a.ok = true) → l.length = nLocal l + (okNames l).length
  | [], _ => rfl
  | a :: l, h => by
    have ih := okNames_length l (fun b hb => h b (List.mem_cons_of_mem _ hb))
    have ha := h a List.mem_cons_self
    unfold nLocal okNames at ih ⊢
    simp only [List.length_cons, List.countP_cons, List.filterMap_cons, ha, if_true]
    cases hw : a.who with
    | none => simp only [beq_self_eq_true, if_true]; omega
    | some n =>
      have : ((some n : Option Nat) == none) = false := rfl
      simp only [this, Bool.false_eq_true, if_false, List.length_cons]; omega

theorem who_nodup : ∀ (l : List BAck), (∀ a ∈ l, a.ok = true) → nLocal l ≤ 1 → (okNames l).Nodup →
    (l.map (·.who)).Nodup
  | [], _, _, _ => List.nodup_nil
  | a :: l, h, hl, hn => by
    have hl' : nLocal l ≤ nLocal (a :: l) := by simp only [nLocal, List.countP_cons]; omega
    have ha := h a List.mem_cons_self
    have hall : ∀ b ∈ l, b.ok = true := fun b hb => h b (List.mem_cons_of_mem _ hb)
    have hn' : (okNames l).Nodup := by
      have e : okNames (a :: l) = okNames [a] ++ okNames l := okNames_append [a] l
      rw [e] at hn
      exact (List.nodup_append.mp hn).2.1
    have ih := who_nodup l hall (Nat.le_trans hl' hl) hn'
    rw [List.map_cons, List.nodup_cons]
    refine ⟨?_, ih⟩
    intro hmem
    obtain ⟨b, hb, e⟩ := List.mem_map.mp hmem
    cases hw : a.who with
    | none =>
      have h1 : nLocal (a :: l) = nLocal l + 1 := by
        simp only [nLocal, List.countP_cons, hw, beq_self_eq_true, if_true]
      have h2 : 0 < nLocal l := by
        unfold nLocal
        exact List.countP_pos_iff.mpr ⟨b, hb, by rw [e, hw]; rfl⟩
      omega
    | some n =>
      have e1 : okNames (a :: l) = n :: okNames l := by
        simp only [okNames, List.filterMap_cons, ha, if_true, hw]
      rw [e1, List.nodup_cons] at hn
      apply hn.1
      exact List.mem_filterMap.mpr ⟨b, hb, by simp only [hall b hb, if_true]; rw [e, hw]⟩

/-- Each acknowledgement is from a different instance, if no instance has two requests in flight. Missing:
overlapping requests, see `C53_distinct_false`. -/
theorem C53_distinct_partial {w : Bool} {s : CSt} (h : SReach w s) {m : Nat} (hr : (s.st m).runClosed = true) :
    (s.st m).oks.length = (s.st m).nInst ∧ ((s.st m).oks.map (·.who)).Nodup := by
  have u := h.reach.uinv
  refine ⟨(C53_count h.reach hr).1, who_nodup _ (u.oks m) ?_ (h.sinv.dist m)⟩
  have := u.loc m
  rw [nLocal_append] at this
  split at this <;> omega

/-- How many instances acknowledged while a client of the stage is not yet ready to run. -/
theorem ack_count {w : Bool} {s : CSt} (u : UInv s) (v : SInv w s) {m n o : Nat}
    (hrc : (s.st m).runClosed = false) (hc : cget n (s.st m).clients = some o)
    (hst : (s.objs o).state ≠ .runnable) : (s.st m).oks.length < (s.st m).nInst := by
  have a := v.ack m hrc
  have mem : ∀ k ∈ okNames (s.st m).oks, ∃ o, cget k (s.st m).clients = some o ∧ (s.objs o).state = .runnable :=
    fun k hk => a.member k (by rw [okNames_append]; exact List.mem_append.mpr (Or.inl hk))
  have key : ∀ k o, cget k (s.st m).clients = some o → k ∈ (s.st m).clients.map (·.1) := by
    intro k o hk
    unfold cget at hk
    obtain ⟨l1, l2, e, _⟩ := List.lookup_eq_some_iff.mp hk
    rw [e]; simp
  have hnd : (n :: okNames (s.st m).oks).Nodup := by
    refine List.nodup_cons.mpr ⟨?_, v.dist m⟩
    intro hk
    obtain ⟨o', h1, h2⟩ := mem n hk
    rw [hc] at h1
    cases h1
    exact hst h2
  have hsub : (n :: okNames (s.st m).oks) ⊆ (s.st m).clients.map (·.1) := by
    intro k hk
    rcases List.mem_cons.mp hk with e | hk
    · subst e; exact key _ _ hc
    · obtain ⟨o', h1, _⟩ := mem k hk; exact key _ _ h1
  have hle := List.Nodup.length_le_of_subset hnd hsub
  rw [List.length_map, List.length_cons] at hle
  have h1 := u.len m
  have h2 := u.rem m
  have h3 := okNames_length _ (u.oks m)
  have h4 := u.loc m
  rw [nLocal_append] at h4
  split at h2 <;> rename_i hl
  · rw [if_pos hl] at h4; omega
  · rw [if_neg hl] at h4; omega

/-- When the run signal is given, all places for remote instances are taken and each of these instances has
booted; if no instance has two requests in flight. -/
theorem C53_released_partial {w : Bool} {s s' : CSt} (h : SReach w s) {m : Nat} {a : CAct}
    (hs : s.step a = some s') (h0 : (s.st m).runClosed = false) (h1 : (s'.st m).runClosed = true) :
    ∃ names : List Nat, names.Nodup ∧ names.length = (s.st m).nRem ∧
      (∀ n ∈ names, ∃ o, cget n (s'.st m).clients = some o ∧ (s'.objs o).state = .runnable) ∧
      ((s.st m).hasLocal = true → ⟨none, true⟩ ∈ (s.st m).oks) := by
  have u := h.reach.uinv
  have v := h.sinv
  -- only one step does it
  have hph : s.phase = .release m ∧ s'.st m = { s.st m with runClosed := true } ∧ s'.objs = s.objs := by
    have same : (s'.st m).runClosed = (s.st m).runClosed → False := by
      intro e; rw [e, h0] at h1; cases h1
    have key : ∀ (x : SMeta) (k : Nat), s'.st = updAt s.st k x → x.runClosed = (s.st k).runClosed → False := by
      intro x k hst hx
      apply same
      rw [hst]
      by_cases e : m = k
      · subst e; rw [updAt_same]; exact hx
      · rw [updAt_ne _ _ e]
    cases a with
    | arrive => simp only [CSt.step] at hs; cases hs; exact (same rfl).elim
    | handler i lost =>
      exact (same ((hstep_frame (show s.hstep i lost = some s' from hs)).metas m).runClosed).elim
    | begin nInst hasLocal prepared =>
      simp only [CSt.step, CSt.beginStage] at hs
      split at hs
      · split at hs
        · cases hs; exact (same rfl).elim
        · cases hs
          refine (key _ _ rfl ?_).elim
          rw [u.fresh s.nSt (Nat.le_refl _)]
      · cases hs
    | tick =>
      simp only [CSt.step, CSt.tick] at hs
      split at hs
      · cases hs
      · split at hs
        · cases hs; exact (key _ _ rfl rfl).elim
        · cases hs
      · split at hs
        · split at hs
          · cases hs; exact (same rfl).elim
          · cases hs; exact (key _ _ rfl rfl).elim
        · cases hs; exact (same rfl).elim
      · split at hs
        · cases hs; exact (same rfl).elim
        · cases hs
      · split at hs
        · split at hs
          · cases hs
          · split at hs
            · cases hs; exact (key _ _ rfl rfl).elim
            · cases hs; exact (key _ _ rfl rfl).elim
        · cases hs; exact (same rfl).elim
      · cases hs; exact (key _ _ rfl rfl).elim
      · rename_i k hk
        cases hs
        by_cases e : k = m
        · subst e
          exact ⟨hk, by simp only [CSt.setMeta, updAt_same], rfl⟩
        · refine (same ?_).elim
          simp only [CSt.setMeta, updAt_ne _ _ (fun h => e h.symm)]
      · split at hs
        · cases hs; exact (same rfl).elim
        · split at hs
          · cases hs
          · cases hs; exact (key _ _ rfl rfl).elim
      · split at hs
        · cases hs; exact (same rfl).elim
        · cases hs
      · cases hs
    | ctxDone =>
      simp only [CSt.step] at hs
      split at hs
      · split at hs
        · cases hs; exact (same rfl).elim
        · cases hs
      · split at hs
        · cases hs
        · split at hs
          · cases hs; exact (same rfl).elim
          · cases hs; exact (key _ _ rfl rfl).elim
      · cases hs
    | localDone k =>
      simp only [CSt.step] at hs
      split at hs
      · cases hs; exact (key _ _ rfl rfl).elim
      · cases hs
  obtain ⟨hph, hst, hob⟩ := hph
  have hp := u.phase
  unfold PhaseOk at hp
  rw [hph] at hp
  have hlen := u.booted m hp.2
  have a := v.ack m h0
  have mem : ∀ k ∈ okNames (s.st m).oks, ∃ o, cget k (s.st m).clients = some o ∧ (s.objs o).state = .runnable :=
    fun k hk => a.member k (by rw [okNames_append]; exact List.mem_append.mpr (Or.inl hk))
  have hsub : okNames (s.st m).oks ⊆ (s.st m).clients.map (·.1) := by
    intro k hk
    obtain ⟨o, h1, _⟩ := mem k hk
    unfold cget at h1
    obtain ⟨l1, l2, e, _⟩ := List.lookup_eq_some_iff.mp h1
    rw [e]; simp
  have hle := List.Nodup.length_le_of_subset (v.dist m) hsub
  rw [List.length_map] at hle
  have e1 := u.len m
  have e2 := u.rem m
  have e3 := okNames_length _ (u.oks m)
  have e4 := u.loc m
  rw [nLocal_append] at e4
  have e5 : (s.st m).hasLocal = true → 0 < (s.st m).nInst := by
    intro hl
    exact (u.pos m hl).elim id (by simp [hph])
  refine ⟨okNames (s.st m).oks, v.dist m, ?_, ?_, ?_⟩
  · split at e2 <;> rename_i hl
    · rw [if_pos hl] at e4; have := e5 hl; omega
    · rw [if_neg hl] at e4; omega
  · rw [hst, hob]; exact mem
  · intro hl
    rw [if_pos hl] at e2
    have hpos : 0 < nLocal (s.st m).oks := by have := e5 hl; omega
    obtain ⟨b, hb, hw⟩ := List.countP_pos_iff.mp hpos
    have hok := u.oks m b hb
    have hw' : b.who = none := by simpa using hw
    have : b = ⟨none, true⟩ := by cases b; simp only at hok hw'; rw [hok, hw']
    rw [← this]; exact hb

/-- Two POST /boot of the same instance overlap: the client timed out and tried again while the first request was
being handled. -/
def exTwice : List CAct :=
  [.begin 2 false true, .tick] ++
  [.arrive .getBoot 7 0 .empty] ++ hsteps 0 3 ++
  [.arrive .postBoot 7 1 .empty, .arrive .postBoot 7 1 .empty] ++ hsteps 1 3 ++ hsteps 2 3 ++ hsteps 1 2 ++ hsteps 2 2 ++
  List.replicate 5 .tick

/-- A stage of two instances can start with one instance that acknowledged twice. -/
theorem C53_distinct_false : ∃ s, CReach s ∧ (s.st 0).runClosed = true ∧ (s.st 0).nInst = 2 ∧
    (s.st 0).clients = [(7, 0)] ∧ (s.st 0).oks = [⟨some 7, true⟩, ⟨some 7, true⟩] :=
  ⟨after exTwice, after_reach (by decide +kernel), by decide +kernel, by decide +kernel, by decide +kernel,
    by decide +kernel⟩

example : SReach true (afterSerial true exRelease) ∧ ((afterSerial true exRelease).st 0).runClosed = true ∧
    ((afterSerial true exRelease).st 0).nInst = 3 ∧
    ((afterSerial true exRelease).st 0).oks.map (·.who) = [none, some 7, some 8] :=
  ⟨afterSerial_reach (by decide +kernel), by decide +kernel, by decide +kernel, by decide +kernel⟩

end Finch
