import Verif.Props.SystemInv
/-!
A distributed run as a whole: where the server is in a stage (for C101, C102).
-/
namespace Finch

/-- What holds at the places of the server. -/
structure PInv (c : CSt) : Prop where
  last : ∀ k, c.phase.stage = some k → k + 1 = c.nSt
  ackd : ∀ m, (c.st m).hasLocal = true → c.phase = .ackLocal m ∨ nLocal ((c.st m).oks ++ (c.st m).bootQ) = 1
  bcur : ∀ m n, c.phase = .boot m n → 0 < (c.st m).nRem → c.cur = some m
  keys : ∀ m, ((c.st m).clients.map (·.1)).Nodup
  who : ∀ m, ∀ a ∈ (c.st m).bootQ, a.who = none → a.ok = true

theorem PInv.init : PInv {} := by
  refine ⟨?_, ?_, ?_, ?_, ?_⟩
  · intro k h; cases h
  · intro m h; cases h
  · intro m n h; cases h
  · intro m; exact List.nodup_nil
  · intro m a h; cases h

theorem cdel_keys (k : Nat) {l : List (Nat × Nat)} (h : (l.map (·.1)).Nodup) : ((cdel k l).map (·.1)).Nodup :=
  h.sublist (List.Sublist.map _ List.filter_sublist)

theorem cset_keys (k v : Nat) {l : List (Nat × Nat)} (h : (l.map (·.1)).Nodup) : ((cset k v l).map (·.1)).Nodup := by
  unfold cset
  rw [List.map_cons, List.nodup_cons]
  refine ⟨?_, cdel_keys k h⟩
  intro hm
  obtain ⟨o, ho⟩ := key_cget hm
  rw [cget_cdel_same] at ho
  cases ho

/-- Steps that do not change the places. -/
theorem PInv.same {c c' : CSt} (p : PInv c) (h1 : c'.st = c.st) (h2 : c'.phase = c.phase) (h3 : c'.cur = c.cur)
    (h4 : c'.nSt = c.nSt) : PInv c' := by
  refine ⟨?_, ?_, ?_, ?_, ?_⟩
  · rw [h2, h4]; exact p.last
  · rw [h1, h2]; exact p.ackd
  · rw [h1, h2, h3]; exact p.bcur
  · rw [h1]; exact p.keys
  · rw [h1]; exact p.who

/-- A step that changes one stage. -/
theorem PInv.set {c c' : CSt} (p : PInv c) (m : Nat) (x : SMeta) (hst : c'.st = updAt c.st m x)
    (h1 : ∀ k, c'.phase.stage = some k → k + 1 = c'.nSt)
    (h2 : ∀ k, k ≠ m → c.phase ≠ .ackLocal k)
    (h3 : x.hasLocal = true → c'.phase = .ackLocal m ∨ nLocal (x.oks ++ x.bootQ) = 1)
    (h4 : ∀ k n, c'.phase = .boot k n → 0 < (c'.st k).nRem → c'.cur = some k)
    (h5 : (x.clients.map (·.1)).Nodup)
    (h6 : ∀ a ∈ x.bootQ, a.who = none → a.ok = true) : PInv c' := by
  have key : ∀ k, k ≠ m → c'.st k = c.st k := fun k hk => by rw [hst, updAt_ne _ _ hk]
  have keym : c'.st m = x := by rw [hst, updAt_same]
  refine ⟨h1, ?_, h4, ?_, ?_⟩
  · intro k
    by_cases e : k = m
    · rw [e, keym]; exact h3
    · rw [key k e]
      intro hl
      rcases p.ackd k hl with h | h
      · exact absurd h (h2 k e)
      · exact Or.inr h
  · intro k
    by_cases e : k = m
    · rw [e, keym]; exact h5
    · rw [key k e]; exact p.keys k
  · intro k
    by_cases e : k = m
    · rw [e, keym]; exact h6
    · rw [key k e]; exact p.who k

theorem hstep_keys {c c' : CSt} {i : Nat} {lost : Bool} (h : c.hstep i lost = some c')
    (hk : ∀ m, ((c.st m).clients.map (·.1)).Nodup) : ∀ m, ((c'.st m).clients.map (·.1)).Nodup := by
  have upd : ∀ (k : Nat) (x : SMeta), (x.clients.map (·.1)).Nodup → ∀ m, ((updAt c.st k x m).clients.map (·.1)).Nodup := by
    intro k x hx m
    by_cases e : m = k
    · rw [e, updAt_same]; exact hx
    · rw [updAt_ne _ _ e]; exact hk m
  unfold CSt.hstep at h
  split at h
  · cases h
  rename_i hd hi
  simp only [] at h
  split at h
  · cases h
    unfold CSt.lookupStep
    split
    · exact hk
    split
    · exact hk
    split
    · split
      · exact hk
      · exact hk
    · split
      · exact hk
      · exact hk
  · cases h
    unfold CSt.checkStep
    simp only []
    split
    · exact hk
    all_goals
      split
      · exact hk
      · exact hk
  · split at h
    · cases h
    split at h
    · cases h
    split at h
    · cases h
    cases h
    exact upd _ _ (cset_keys _ _ (hk _))
  · split at h
    · split at h <;> cases h <;> exact hk
    · cases h; exact hk
  · cases h; exact hk
  · split at h
    · cases h; exact upd _ _ (hk _)
    · cases h
  · split at h
    · cases h; exact hk
    · cases h
  · split at h
    · cases h; exact upd _ _ (cdel_keys _ (hk _))
    · cases h; exact hk
  · split at h <;> cases h <;> exact hk
  · cases h; exact hk
  · cases h; exact upd _ _ (cdel_keys _ (hk _))
  · split at h
    · cases h; exact upd _ _ (hk _)
    · cases h
  · cases h; exact hk
  · split at h <;> cases h <;> exact hk

theorem PInv.hstep {c c' : CSt} (p : PInv c) {i : Nat} {hd : Handler} (hi : c.hs i = some hd) {lost : Bool}
    (h : c.hstep i lost = some c') : PInv c' := by
  have f := hstep_frame h
  have hm := hstep_more hi h
  refine ⟨?_, ?_, ?_, hstep_keys h p.keys, ?_⟩
  · rw [f.phase, f.nSt]; exact p.last
  · intro m
    obtain ⟨l, e, hl⟩ := (f.metas m).bootQ
    rw [f.phase, (f.metas m).hasLocal, (f.metas m).oks, e, ← List.append_assoc, nLocal_append _ l, hl, Nat.add_zero]
    exact p.ackd m
  · intro m n
    rw [f.phase, (f.metas m).nRem, f.cur]; exact p.bcur m n
  · intro m a ha hw
    obtain ⟨l, e, hl⟩ := hm.bootQ m
    rw [e] at ha
    rcases List.mem_append.mp ha with ha | ha
    · exact p.who m a ha hw
    · rw [hl a ha] at hw; cases hw

theorem PInv.tick {c c' : CSt} (u : UInv c) (p : PInv c) (ht : c.test = false) (hns : ∀ o m n, c.phase ≠ .stopping o m n)
    (h : c.tick = some c') : PInv c' := by
  have hph := u.phase
  unfold PhaseOk at hph
  unfold CSt.tick at h
  split at h <;> rename_i hp <;> rw [hp] at hph <;> simp only [] at hph
  · cases h
  · -- ackLocal
    rename_i m
    split at h
    swap
    · cases h
    cases h
    refine p.set m _ rfl ?_ ?_ ?_ ?_ (p.keys m) ?_
    · intro k hk; exact p.last k (by rw [hp]; exact hk)
    · intro k hk e; rw [hp] at e; cases e; exact hk rfl
    · intro _
      right
      dsimp only
      rw [hph.2.1, List.nil_append, nLocal_append, hph.2.2.2.2]
      rfl
    · intro k n e; cases e
    · intro a ha hw
      rcases List.mem_append.mp ha with ha | ha
      · exact p.who m a ha hw
      · rw [List.mem_singleton.mp ha]
  · -- setStage
    rename_i m
    have h2 : ∀ k, c.phase ≠ .ackLocal k := by intro k; rw [hp]; simp
    have h3 : ∀ k, (c.st k).hasLocal = true → nLocal ((c.st k).oks ++ (c.st k).bootQ) = 1 :=
      fun k hl => (p.ackd k hl).resolve_left (h2 k)
    have l0 : m + 1 = c.nSt := p.last m (by rw [hp]; rfl)
    split at h
    · split at h
      · cases h
        refine p.set m (c.st m) (by dsimp only; rw [updAt_self]) ?_ (fun k _ => h2 k) (fun h => Or.inr (h3 m h)) ?_
          (p.keys m) (p.who m)
        · intro k hk; cases hk; exact l0
        · intro k n e _; cases e; rfl
      · rename_i old hcur
        cases h
        refine p.set old _ rfl ?_ (fun k _ => h2 k) (fun h => Or.inr (h3 old h)) ?_ (p.keys old) (p.who old)
        · intro k hk; cases hk; exact l0
        · intro k n e; cases e
    · rename_i hr
      cases h
      refine p.set m (c.st m) (by dsimp only; rw [updAt_self]) ?_ (fun k _ => h2 k) (fun h => Or.inr (h3 m h)) ?_
        (p.keys m) (p.who m)
      · intro k hk; cases hk; exact l0
      · intro k n e hpos; cases e; exact absurd hpos hr
  · -- switching
    rename_i old m
    have h2 : ∀ k, c.phase ≠ .ackLocal k := by intro k; rw [hp]; simp
    have h3 : ∀ k, (c.st k).hasLocal = true → nLocal ((c.st k).oks ++ (c.st k).bootQ) = 1 :=
      fun k hl => (p.ackd k hl).resolve_left (h2 k)
    have l0 : m + 1 = c.nSt := p.last m (by rw [hp]; rfl)
    split at h
    · cases h
      refine p.set m (c.st m) (by dsimp only; rw [updAt_self]) ?_ (fun k _ => h2 k) (fun h => Or.inr (h3 m h)) ?_
        (p.keys m) (p.who m)
      · intro k hk; cases hk; exact l0
      · intro k n e _; cases e; rfl
    · cases h
  · -- boot
    rename_i m n
    have h2 : ∀ k, c.phase ≠ .ackLocal k := by intro k; rw [hp]; simp
    have h3 : ∀ k, (c.st k).hasLocal = true → nLocal ((c.st k).oks ++ (c.st k).bootQ) = 1 :=
      fun k hl => (p.ackd k hl).resolve_left (h2 k)
    have l0 : m + 1 = c.nSt := p.last m (by rw [hp]; rfl)
    split at h
    · split at h
      · cases h
      rename_i a q hq
      split at h <;> rename_i ha
      · cases h
        refine p.set m _ rfl ?_ (fun k _ => h2 k) ?_ ?_ (p.keys m) ?_
        · intro k hk; cases hk; exact l0
        · intro hl
          right
          have := h3 m hl
          rw [hq] at this
          dsimp only
          rw [List.append_assoc]
          exact this
        · intro k j e hpos
          cases e
          dsimp only [CSt.setMeta] at hpos ⊢
          rw [updAt_same] at hpos
          exact p.bcur m n hp hpos
        · intro b hb; exact p.who m b (by rw [hq]; exact List.mem_cons_of_mem _ hb)
      · cases h
        refine p.set m _ rfl ?_ (fun k _ => h2 k) ?_ ?_ (p.keys m) ?_
        · intro k hk; dsimp only [CSt.setMeta] at hk ⊢; exact p.last k hk
        · intro hl
          right
          have := h3 m hl
          rw [hq] at this
          have hw : a.who ≠ none := by
            intro e
            exact ha (p.who m a (by rw [hq]; exact List.mem_cons_self) e)
          have hc : ∀ l, nLocal (a :: l) = nLocal l := by
            intro l
            unfold nLocal
            rw [List.countP_cons]
            simp [hw]
          rw [nLocal_append, hc, ← nLocal_append] at this
          exact this
        · intro k j e hpos
          dsimp only [CSt.setMeta] at e hpos ⊢
          rw [hp] at e
          cases e
          rw [updAt_same] at hpos
          exact p.bcur m n hp hpos
        · intro b hb; exact p.who m b (by rw [hq]; exact List.mem_cons_of_mem _ hb)
    · cases h
      refine p.set m (c.st m) (by dsimp only; rw [updAt_self]) ?_ (fun k _ => h2 k) (fun h => Or.inr (h3 m h)) ?_
        (p.keys m) (p.who m)
      · intro k hk; cases hk; exact l0
      · intro k n e; cases e
  · -- setBooted
    rename_i m
    have h2 : ∀ k, c.phase ≠ .ackLocal k := by intro k; rw [hp]; simp
    have h3 : ∀ k, (c.st k).hasLocal = true → nLocal ((c.st k).oks ++ (c.st k).bootQ) = 1 :=
      fun k hl => (p.ackd k hl).resolve_left (h2 k)
    have l0 : m + 1 = c.nSt := p.last m (by rw [hp]; rfl)
    cases h
    refine p.set m { c.st m with booted := true } rfl ?_ (fun k _ => h2 k) (fun h => Or.inr (h3 m h)) ?_ (p.keys m)
      (p.who m)
    · intro k hk; dsimp only at hk; rw [ht] at hk; cases hk; exact l0
    · intro k n e; dsimp only at e; rw [ht] at e; cases e
  · -- release
    rename_i m
    have h2 : ∀ k, c.phase ≠ .ackLocal k := by intro k; rw [hp]; simp
    have h3 : ∀ k, (c.st k).hasLocal = true → nLocal ((c.st k).oks ++ (c.st k).bootQ) = 1 :=
      fun k hl => (p.ackd k hl).resolve_left (h2 k)
    have l0 : m + 1 = c.nSt := p.last m (by rw [hp]; rfl)
    cases h
    refine p.set m { c.st m with runClosed := true } rfl ?_ (fun k _ => h2 k) (fun h => Or.inr (h3 m h)) ?_ (p.keys m)
      (p.who m)
    · intro k hk; cases hk; exact l0
    · intro k n e; cases e
  · -- run
    rename_i m n
    have h2 : ∀ k, c.phase ≠ .ackLocal k := by intro k; rw [hp]; simp
    have h3 : ∀ k, (c.st k).hasLocal = true → nLocal ((c.st k).oks ++ (c.st k).bootQ) = 1 :=
      fun k hl => (p.ackd k hl).resolve_left (h2 k)
    have l0 : m + 1 = c.nSt := p.last m (by rw [hp]; rfl)
    split at h
    · cases h
      refine p.set m (c.st m) (by dsimp only; rw [updAt_self]) ?_ (fun k _ => h2 k) (fun h => Or.inr (h3 m h)) ?_
        (p.keys m) (p.who m)
      · intro k hk; cases hk
      · intro k n e; cases e
    · split at h
      · cases h
      cases h
      refine p.set m _ rfl ?_ (fun k _ => h2 k) (fun h => Or.inr (h3 m h)) ?_ (p.keys m) (p.who m)
      · intro k hk; cases hk; exact l0
      · intro k n e; cases e
  · exact absurd hp (hns _ _ _)
  · cases h

theorem PInv.begin {c c' : CSt} (p : PInv c) {k : Nat} {a b : Bool} (h : c.beginStage k a b = some c') : PInv c' := by
  unfold CSt.beginStage at h
  split at h
  swap
  · cases h
  rename_i hp
  have h2 : ∀ k, c.phase ≠ .ackLocal k := by intro k; rw [hp]; simp
  split at h
  · cases h
    refine p.set 0 (c.st 0) (by dsimp only; rw [updAt_self]) ?_ (fun k _ => h2 k)
      (fun h => Or.inr ((p.ackd 0 h).resolve_left (h2 0))) ?_ (p.keys 0) (p.who 0)
    · intro k hk; cases hk
    · intro k n e; cases e
  · cases h
    refine p.set c.nSt _ rfl ?_ (fun k _ => h2 k) ?_ ?_ List.nodup_nil ?_
    · intro j hj
      cases a <;> (cases hj; rfl)
    · intro hl
      left
      dsimp only at hl ⊢
      rw [hl]; rfl
    · intro j n e
      cases a <;> cases e
    · intro x hx; cases hx

theorem PInv.localDone {c c' : CSt} (p : PInv c) {m : Nat} (h : c.step (.localDone m) = some c') : PInv c' := by
  simp only [CSt.step] at h
  split at h
  swap
  · cases h
  cases h
  refine ⟨p.last, ?_, ?_, ?_, ?_⟩ <;> intro k <;> by_cases e : k = m
  · rw [e]; simp only [CSt.setMeta, updAt_same]; exact p.ackd m
  · simp only [CSt.setMeta, updAt_ne _ _ e]; exact p.ackd k
  · rw [e]; simp only [CSt.setMeta, updAt_same]; exact p.bcur m
  · simp only [CSt.setMeta, updAt_ne _ _ e]; exact p.bcur k
  · rw [e]; simp only [CSt.setMeta, updAt_same]; exact p.keys m
  · simp only [CSt.setMeta, updAt_ne _ _ e]; exact p.keys k
  · rw [e]; simp only [CSt.setMeta, updAt_same]; exact p.who m
  · simp only [CSt.setMeta, updAt_ne _ _ e]; exact p.who k

theorem PInv.step {P : SysCfg} {s s' : Sys} (I : WInv s) (p : PInv s.c) {a : YAct}
    (ha : a.reliable = true ∨ ∃ n, a = .lose n)
    (h : s.step P a = some s') : PInv s'.c := by
  cases a with
  | srv a =>
    simp only [Sys.step] at h
    cases a with
    | arrive k n sid b => cases h
    | handler i lost =>
      simp only [Sys.srvStep] at h
      cases hc : s.c.hstep i lost with
      | none => rw [hc] at h; cases h
      | some c' =>
        rw [hc] at h
        simp only [Option.map_some, Option.some.injEq] at h
        subst h
        cases hi : s.c.hs i with
        | none => unfold CSt.hstep at hc; rw [hi] at hc; cases hc
        | some hd => exact p.hstep hi hc
    | begin k a b =>
      simp only [Sys.srvStep] at h
      cases hc : s.c.step (.begin k a b) with
      | none => rw [hc] at h; cases h
      | some c' =>
        rw [hc] at h
        simp only [Option.map_some, Option.some.injEq] at h
        subst h
        exact p.begin hc
    | tick =>
      simp only [Sys.srvStep] at h
      cases hc : s.c.step .tick with
      | none => rw [hc] at h; cases h
      | some c' =>
        rw [hc] at h
        simp only [Option.map_some, Option.some.injEq] at h
        subst h
        exact p.tick I.u I.glob.test I.glob.noStop hc
    | ctxDone => rcases ha with ha | ⟨_, ha⟩ <;> cases ha
    | localDone m =>
      simp only [Sys.srvStep] at h
      cases hc : s.c.step (.localDone m) with
      | none => rw [hc] at h; cases h
      | some c' =>
        rw [hc] at h
        simp only [Option.map_some, Option.some.injEq] at h
        subst h
        exact p.localDone hc
  | send n =>
    simp only [Sys.step] at h
    split at h
    · cases h; exact p.same rfl rfl rfl rfl
    · cases h
  | recv n =>
    simp only [Sys.step] at h
    split at h
    · cases h
    split at h
    swap
    · cases h
    split at h <;> cases h <;> exact p
  | lose n => cases h; exact p
  | giveUp n => rcases ha with ha | ⟨_, ha⟩ <;> cases ha
  | work n a =>
    simp only [Sys.step] at h
    split at h
    · cases h
    · cases h; exact p
  | pingWait n =>
    simp only [Sys.step] at h
    split at h <;> cases h
    exact p
  | pingSend n =>
    simp only [Sys.step] at h
    split at h <;> cases h
    exact p.same rfl rfl rfl rfl
  | pingRecv n =>
    simp only [Sys.step] at h
    split at h
    · cases h
    split at h
    swap
    · cases h
    split at h <;> cases h <;> exact p
  | pingLost n =>
    simp only [Sys.step] at h
    split at h <;> cases h
    exact p
  | stats n => cases h; exact p.same rfl rfl rfl rfl
  | ctrlC n => cases h; exact p

theorem Sys.Reach.pinv {P : SysCfg} {s : Sys} (h : Sys.Reach P s) : PInv s.c := by
  induction h with
  | init => exact .init
  | step hr ha hs ih => exact PInv.step hr.inv.w ih (Or.inl ha) hs

end Finch
