import Verif.Props.SystemHandler
/-!
A distributed run as a whole: every step keeps what holds for each instance (for C101, C102).
-/
namespace Finch

/-! ### The loop of the server -/

/-- A step of the server that is not one of a request. -/
structure TFrame (c c' : CSt) : Prop where
  hs : c'.hs = c.hs
  nH : c'.nH = c.nH
  objs : c'.objs = c.objs
  nObj : c'.nObj = c.nObj
  resp : c'.resp = c.resp
  clients : ∀ m, (c'.st m).clients = (c.st m).clients
  names : ∀ m, okNames ((c'.st m).oks ++ (c'.st m).bootQ) = okNames ((c.st m).oks ++ (c.st m).bootQ)
  oks : ∀ m n, n ∈ okNames (c.st m).oks → n ∈ okNames (c'.st m).oks
  rc : ∀ m, (c.st m).runClosed = true → (c'.st m).runClosed = true
  bad : ∀ m, ∀ a ∈ (c'.st m).bootQ, a.ok = false → a ∈ (c.st m).bootQ

theorem TFrame.refl_phase (c : CSt) (p : Phase) (cur : Option Nat) : TFrame c { c with phase := p, cur := cur } :=
  ⟨rfl, rfl, rfl, rfl, rfl, fun _ => rfl, fun _ => rfl, fun _ _ h => h, fun _ h => h, fun _ _ h _ => h⟩

theorem TFrame.meta {c : CSt} (m : Nat) (x : SMeta) (p : Phase) (h1 : x.clients = (c.st m).clients)
    (h2 : okNames (x.oks ++ x.bootQ) = okNames ((c.st m).oks ++ (c.st m).bootQ))
    (h3 : ∀ n, n ∈ okNames (c.st m).oks → n ∈ okNames x.oks)
    (h4 : (c.st m).runClosed = true → x.runClosed = true)
    (h5 : ∀ a ∈ x.bootQ, a.ok = false → a ∈ (c.st m).bootQ) :
    TFrame c { c.setMeta m x with phase := p } := by
  have key : ∀ k, (k = m ∧ (c.setMeta m x).st k = x) ∨ (c.setMeta m x).st k = c.st k := by
    intro k
    by_cases e : k = m
    · exact Or.inl ⟨e, by rw [e]; exact updAt_same _ _ _⟩
    · exact Or.inr (updAt_ne _ _ e)
  refine ⟨rfl, rfl, rfl, rfl, rfl, fun k => ?_, fun k => ?_, fun k => ?_, fun k => ?_, fun k => ?_⟩ <;>
    (show _; dsimp only; rcases key k with ⟨e, h⟩ | h <;> rw [h])
  · rw [e]; exact h1
  · rw [e]; exact h2
  · rw [e]; exact h3
  · exact fun _ h => h
  · rw [e]; exact h4
  · exact id
  · rw [e]; exact h5
  · exact fun _ h _ => h

theorem tick_tframe {c c' : CSt} (h : c.tick = some c') : TFrame c c' := by
  unfold CSt.tick at h
  split at h
  · cases h
  · split at h
    · cases h
      refine TFrame.meta _ _ _ rfl ?_ (fun _ h => h) id ?_
      · simp [okNames]
      · intro a ha ho
        rcases List.mem_append.mp ha with h | h
        · exact h
        · rw [List.mem_singleton.mp h] at ho; cases ho
    · cases h
  · split at h
    · split at h
      · cases h; exact TFrame.refl_phase _ _ _
      · cases h; exact TFrame.meta _ _ _ rfl rfl (fun _ h => h) id (fun _ h _ => h)
    · cases h; exact TFrame.refl_phase _ _ _
  · split at h
    · cases h; exact TFrame.refl_phase _ _ _
    · cases h
  · split at h
    · split at h
      · cases h
      rename_i a q hq
      split at h <;> rename_i ha
      · cases h
        refine TFrame.meta _ _ _ rfl ?_ ?_ id (fun b hb _ => by rw [hq]; exact List.mem_cons_of_mem _ hb)
        · rw [hq]; simp
        · intro n hn
          rw [okNames_append]; exact List.mem_append.mpr (Or.inl hn)
      · cases h
        refine TFrame.meta _ _ c.phase rfl ?_ (fun _ h => h) id
          (fun b hb _ => by rw [hq]; exact List.mem_cons_of_mem _ hb)
        rw [hq]
        simp [okNames, ha]
    · cases h; exact TFrame.refl_phase _ _ _
  · cases h; exact TFrame.meta _ _ _ rfl rfl (fun _ h => h) id (fun _ h _ => h)
  · cases h; exact TFrame.meta _ _ _ rfl rfl (fun _ h => h) (fun _ => rfl) (fun _ h _ => h)
  · split at h
    · cases h; exact TFrame.refl_phase _ _ _
    · split at h
      · cases h
      · cases h; exact TFrame.meta _ _ _ rfl rfl (fun _ h => h) id (fun _ h _ => h)
  · split at h
    · cases h; exact TFrame.refl_phase _ _ _
    · cases h
  · cases h

theorem begin_tframe {c c' : CSt} (u : UInv c) {k : Nat} {a b : Bool} (h : c.beginStage k a b = some c') :
    TFrame c c' := by
  unfold CSt.beginStage at h
  split at h
  · split at h
    · cases h; exact TFrame.refl_phase _ _ _
    · cases h
      have hf := u.fresh c.nSt (Nat.le_refl _)
      have t := TFrame.meta (c := c) c.nSt { nInst := k, nRem := if a then k - 1 else k, hasLocal := a }
        (if a then .ackLocal c.nSt else .setStage c.nSt) (by rw [hf]) (by rw [hf]) (by rw [hf]; exact fun _ h => h)
        (by rw [hf]; exact id) (by rw [hf]; exact fun _ h _ => h)
      exact ⟨t.hs, t.nH, t.objs, t.nObj, t.resp, t.clients, t.names, t.oks, t.rc, t.bad⟩
  · cases h

theorem localDone_tframe {c c' : CSt} {m : Nat} (h : c.step (.localDone m) = some c') : TFrame c c' := by
  simp only [CSt.step] at h
  split at h
  · cases h; exact TFrame.meta _ _ c.phase rfl rfl (fun _ h => h) id (fun _ h _ => h)
  · cases h

theorem TFrame.lframe {s : Sys} {c' : CSt} (f : TFrame s.c c') (n : Nat) (dn : Nat → List (Option Nat))
    (hd : ∀ m, some n ∈ dn m ↔ some n ∈ s.dones m) : LFrame n s ⟨c', s.r, s.cfg, dn⟩ := by
  refine ⟨rfl, rfl, rfl, fun _ _ => Iff.rfl, ?_, ?_, ?_, ?_, ?_, ?_, ?_, fun m => f.oks m n, f.rc, hd, fun m a h1 h2 _ => f.bad m a h1 h2⟩
  · intro m; dsimp only; rw [f.clients]
  · intro o _ _; dsimp only; rw [f.objs]
  · dsimp only; rw [f.nObj]; exact Nat.le_refl _
  · intro i _; dsimp only; rw [f.hs, f.resp]; exact ⟨rfl, rfl, rfl⟩
  · intro i h hi _ _; dsimp only at hi; rw [f.hs] at hi; exact hi
  · dsimp only; rw [f.nH]; exact Nat.le_refl _
  · intro m; unfold Acked; dsimp only; rw [f.names]

/-! ### Requests of other instances, statistics and pings -/

/-- What else a step of a request changes. -/
structure HMore (c c' : CSt) (i : Nat) (hd : Handler) : Prop where
  resp : c'.resp = c.resp ∨ ∃ code, c'.resp = (i, code) :: c.resp
  bootQ : ∀ m, ∃ l, (c'.st m).bootQ = (c.st m).bootQ ++ l ∧ ∀ a ∈ l, a.who = some hd.name
  doneQ : hd.pc ≠ .sendDone → ∀ m, (c'.st m).doneQ = (c.st m).doneQ
  localDone : ∀ m, (c'.st m).localDone = (c.st m).localDone
  quiet : hd.pc = .start ∧ hd.kind ≠ .getBoot ∨ hd.pc = .check ∨ hd.pc = .recv →
    c'.st = c.st ∧ c'.objs = c.objs ∧ c'.nObj = c.nObj

theorem hmore_fin {c : CSt} (i code : Nat) (hd : Handler) : HMore c (c.finish i code) i hd :=
  ⟨Or.inr ⟨code, rfl⟩, fun _ => ⟨[], by simp [CSt.finish], by simp⟩, fun _ _ => rfl, fun _ => rfl,
    fun _ => ⟨rfl, rfl, rfl⟩⟩

theorem hmore_soft {c c' : CSt} (i : Nat) (hd : Handler) (h1 : c'.resp = c.resp ∨ ∃ code, c'.resp = (i, code) :: c.resp)
    (h2 : c'.st = c.st) (h3 : hd.pc = .start ∧ hd.kind ≠ .getBoot ∨ hd.pc = .check ∨ hd.pc = .recv →
      c'.objs = c.objs ∧ c'.nObj = c.nObj) : HMore c c' i hd :=
  ⟨h1, fun _ => ⟨[], by rw [h2]; simp, by simp⟩, fun _ _ => by rw [h2], fun _ => by rw [h2], fun h => ⟨h2, h3 h⟩⟩

theorem hmore_meta {c c' : CSt} (i : Nat) (hd : Handler) (m : Nat) (x : SMeta)
    (h1 : c'.resp = c.resp ∨ ∃ code, c'.resp = (i, code) :: c.resp)
    (h2 : c'.st = updAt c.st m x) (h3 : ∃ l, x.bootQ = (c.st m).bootQ ++ l ∧ ∀ a ∈ l, a.who = some hd.name)
    (h4 : hd.pc ≠ .sendDone → x.doneQ = (c.st m).doneQ) (h5 : x.localDone = (c.st m).localDone)
    (h6 : hd.pc ≠ .start ∧ hd.pc ≠ .check ∧ hd.pc ≠ .recv) : HMore c c' i hd := by
  refine ⟨h1, fun k => ?_, fun hp k => ?_, fun k => ?_, fun h => ?_⟩
  · rw [h2]
    by_cases e : k = m
    · rw [e, updAt_same]; exact h3
    · rw [updAt_ne _ _ e]; exact ⟨[], by simp, by simp⟩
  · rw [h2]
    by_cases e : k = m
    · rw [e, updAt_same]; exact h4 hp
    · rw [updAt_ne _ _ e]
  · rw [h2]
    by_cases e : k = m
    · rw [e, updAt_same]; exact h5
    · rw [updAt_ne _ _ e]
  · rcases h with h | h | h
    · exact absurd h.1 h6.1
    · exact absurd h h6.2.1
    · exact absurd h h6.2.2

theorem hstep_more {c c' : CSt} {i : Nat} {lost : Bool} {hd : Handler} (hi : c.hs i = some hd)
    (h : c.hstep i lost = some c') : HMore c c' i hd := by
  unfold CSt.hstep at h
  rw [hi] at h
  simp only [] at h
  split at h <;> rename_i hpc
  · cases h
    unfold CSt.lookupStep
    split
    · exact hmore_fin _ _ _
    split
    · exact hmore_fin _ _ _
    split
    · split <;> rename_i hk
      · refine hmore_soft _ _ (Or.inl rfl) rfl ?_
        rintro (h | h | h)
        · exact absurd hk h.2
        · rw [hpc] at h; cases h
        · rw [hpc] at h; cases h
      · exact hmore_fin _ _ _
    · split
      · exact hmore_fin _ _ _
      · exact hmore_soft _ _ (Or.inl rfl) rfl (fun _ => ⟨rfl, rfl⟩)
  · cases h
    unfold CSt.checkStep
    simp only []
    split
    · exact hmore_fin _ _ _
    all_goals
      split
      · exact hmore_fin _ _ _
      · first | exact hmore_fin _ _ _ | exact hmore_soft _ _ (Or.inl rfl) rfl (fun _ => ⟨rfl, rfl⟩)
  all_goals
    have no : hd.pc ≠ .start ∧ hd.pc ≠ .check := by rw [hpc]; simp
  · split at h
    · cases h
    split at h
    · cases h
    split at h
    · cases h
    cases h
    exact hmore_meta _ _ _ _ (Or.inr ⟨200, rfl⟩) rfl ⟨[], by simp, by simp⟩ (fun _ => rfl) rfl (by rw [hpc]; simp)
  · split at h
    · split at h
      · cases h; exact hmore_fin _ _ _
      · cases h; exact hmore_soft _ _ (Or.inl rfl) rfl (fun _ => ⟨rfl, rfl⟩)
      · cases h; exact hmore_soft _ _ (Or.inl rfl) rfl (fun _ => ⟨rfl, rfl⟩)
    · cases h; exact hmore_soft _ _ (Or.inl rfl) rfl (fun _ => ⟨rfl, rfl⟩)
  · cases h; exact hmore_soft _ _ (Or.inl rfl) rfl (by rw [hpc]; simp)
  · split at h
    · cases h
      exact hmore_meta _ _ _ _ (Or.inr ⟨200, rfl⟩) rfl ⟨_, rfl, by simp⟩ (fun _ => rfl) rfl (by rw [hpc]; simp)
    · cases h
  · split at h
    · cases h; exact hmore_soft _ _ (Or.inl rfl) rfl (fun _ => ⟨rfl, rfl⟩)
    · cases h
  · split at h
    · cases h
      exact hmore_meta _ _ _ _ (Or.inr ⟨205, rfl⟩) rfl ⟨[], by simp, by simp⟩ (fun _ => rfl) rfl (by rw [hpc]; simp)
    · cases h; exact hmore_soft _ _ (Or.inl rfl) rfl (fun _ => ⟨rfl, rfl⟩)
  · split at h
    · cases h; exact hmore_fin _ _ _
    · cases h; exact hmore_soft _ _ (Or.inr ⟨200, rfl⟩) rfl (fun _ => ⟨rfl, rfl⟩)
  · cases h; exact hmore_soft _ _ (Or.inl rfl) rfl (by rw [hpc]; simp)
  · cases h
    exact hmore_meta _ _ _ _ (Or.inl rfl) rfl ⟨[], by simp, by simp⟩ (fun _ => rfl) rfl (by rw [hpc]; simp)
  · split at h
    · cases h
      exact hmore_meta _ _ _ _ (Or.inl rfl) rfl ⟨[], by simp, by simp⟩ (fun h => absurd hpc h) rfl (by rw [hpc]; simp)
    · cases h
  · cases h; exact hmore_soft _ _ (Or.inr ⟨200, rfl⟩) rfl (by rw [hpc]; simp)
  · split at h <;> cases h <;> exact hmore_soft _ _ (Or.inr ⟨200, rfl⟩) rfl (fun _ => ⟨rfl, rfl⟩)

theorem noteDone_mem {s : Sys} {i n : Nat} {hd : Handler} (hi : s.c.hs i = some hd)
    (hn : n ≠ hd.name ∨ hd.pc ≠ .sendDone) (m : Nat) : some n ∈ s.noteDone i m ↔ some n ∈ s.dones m := by
  unfold Sys.noteDone
  rw [hi]
  simp only []
  split
  · rename_i hpc
    have hn' : n ≠ hd.name := hn.resolve_right (fun h => h hpc)
    by_cases e : m = (s.c.objs hd.obj).stage
    · rw [e, updAt_same]; simp [hn']
    · rw [updAt_ne _ _ e]
  · exact Iff.rfl

theorem noteCfg_ne {s : Sys} {i j : Nat} (h : j ≠ i) : s.noteCfg i j = s.cfg j := by
  unfold Sys.noteCfg
  cases s.c.hs i with
  | none => rfl
  | some x =>
    cases s.c.cur with
    | none => rfl
    | some m =>
      simp only []
      split
      · exact updAt_ne _ _ h
      · rfl

/-- The request `i` is not one of `run` of the instance `k`. -/
theorem hstep_lframe' {s : Sys} {c' : CSt} {i k : Nat} {lost : Bool} {hd : Handler} (v : SInv false s.c)
    (hne : ∀ j, (s.r k).req = some j → j ≠ i) (hi : s.c.hs i = some hd) (h : s.c.hstep i lost = some c')
    (hk : k ≠ hd.name ∨ hd.kind.mainKind = false) : LFrame k s ⟨c', s.r, s.noteCfg i, s.noteDone i⟩ := by
  have hf := hstep_frame h
  have hm := hstep_more hi h
  have nf := hstep_nframe v hi h
  obtain ⟨x, hx, hx'⟩ := hstep_hs hi h
  have hp := v.pc i hd hi
  -- statistics and pings
  have hq : hd.kind.mainKind = false → c'.st = s.c.st ∧ c'.objs = s.c.objs ∧ hd.pc ≠ .sendDone := by
    intro hmk
    have : hd.pc = .start ∧ hd.kind ≠ .getBoot ∨ hd.pc = .check ∨ hd.pc = .recv := by
      unfold pcOk at hp
      cases hkk : hd.kind <;> rw [hkk] at hmk hp <;> (try cases hmk) <;> cases hpc : hd.pc <;> rw [hpc] at hp <;>
        simp at hp ⊢
    obtain ⟨a, b, _⟩ := hm.quiet this
    refine ⟨a, b, ?_⟩
    rcases this with h | h | h
    · rw [h.1]; simp
    · rw [h]; simp
    · rw [h]; simp
  refine ⟨rfl, rfl, rfl, fun _ _ => Iff.rfl, ?_, ?_, nf.nObj, ?_, ?_, ?_, ?_, ?_, ?_, ?_, ?_⟩
  · intro m
    dsimp only
    rcases hk with h | h
    · exact nf.cl m k h
    · rw [(hq h).1]
  · intro o ho hn
    dsimp only
    rcases hk with h | h
    · exact nf.objs o ho (by rw [hn]; exact h)
    · rw [(hq h).2.1]
  · intro j hj
    have := hne j hj
    dsimp only
    refine ⟨by rw [hx]; exact updAt_ne _ _ this, ?_, noteCfg_ne this⟩
    rcases hm.resp with e | ⟨code, e⟩
    · rw [e]
    · rw [e]
      have hb : (j == i) = false := beq_eq_false_iff_ne.mpr this
      simp [List.lookup, hb]
  · intro j h' hj hn hmk
    dsimp only at hj
    rw [hx] at hj
    by_cases e : j = i
    · subst e
      rw [updAt_same] at hj
      obtain ⟨a, b⟩ := hx' h' hj
      rcases hk with h | h
      · exact absurd (hn.symm.trans b) h
      · rw [a, h] at hmk; cases hmk
    · rw [updAt_ne _ _ e] at hj; exact hj
  · dsimp only; rw [hf.nH]; exact Nat.le_refl _
  · intro m
    unfold Acked
    dsimp only
    rcases hk with h | h
    · obtain ⟨l, e, hl⟩ := hm.bootQ m
      rw [(hf.metas m).oks, e, ← List.append_assoc, okNames_append]
      simp only [List.mem_append, or_iff_left_iff_imp]
      intro hmem
      obtain ⟨a, ha, hb⟩ := List.mem_filterMap.mp hmem
      split at hb
      · rw [hl a ha] at hb
        exact absurd (Option.some.inj hb).symm h
      · cases hb
    · rw [(hq h).1]
  · intro m hmem; dsimp only; rw [(hf.metas m).oks]; exact hmem
  · intro m hmem; dsimp only; rw [(hf.metas m).runClosed]; exact hmem
  · intro m
    exact noteDone_mem hi (hk.imp id (fun h => (hq h).2.2)) m
  · intro m a ha ho hw
    dsimp only at ha
    rcases hk with h | h
    · obtain ⟨l, e, hl⟩ := hm.bootQ m
      rw [e] at ha
      rcases List.mem_append.mp ha with ha | ha
      · exact ha
      · rw [hl a ha] at hw
        exact absurd (Option.some.inj hw).symm h
    · rw [(hq h).1] at ha; exact ha

theorem hstep_lframe {P : SysCfg} {s : Sys} {c' : CSt} {i k : Nat} {lost : Bool} {hd : Handler} (v : SInv false s.c)
    (I : NInv P s k) (hi : s.c.hs i = some hd) (h : s.c.hstep i lost = some c')
    (hk : k ≠ hd.name ∨ hd.kind.mainKind = false) : LFrame k s ⟨c', s.r, s.noteCfg i, s.noteDone i⟩ := by
  have hne : ∀ j, (s.r k).req = some j → j ≠ i := by
    intro j hj e
    subst e
    have L := I.link
    unfold Sys.link at L
    rw [hj] at L
    simp only [hi] at L
    rcases hk with h | h
    · exact h L.2.2.1.symm
    · have := request_main L.2.1
      rw [h] at this
      cases this
  exact hstep_lframe' v hne hi h hk

/-! ### The instance itself -/

/-- Another request arrives. -/
theorem arrive_lframe' {s : Sys} {k n sid : Nat} {kd : ReqKind} {b : HBody}
    (hlt : ∀ i, (s.r k).req = some i → i < s.c.nH)
    (hk : k ≠ n ∨ kd.mainKind = false) (r' : Nat → RInst) (e1 : (r' k).sid = (s.r k).sid)
    (e2 : (r' k).req = (s.r k).req) (e3 : (r' k).rs = (s.r k).rs) :
    LFrame k s ⟨s.c.arriveReq kd n sid b, r', s.cfg, s.dones⟩ := by
  refine ⟨e1, e2, by dsimp only; rw [e3], fun _ _ => by dsimp only; rw [e3], fun _ => rfl, fun _ _ _ => rfl,
    Nat.le_refl _, ?_, ?_, Nat.le_succ _, fun _ => Iff.rfl, fun _ h => h, fun _ h => h, fun _ => Iff.rfl,
    fun _ _ h _ _ => h⟩
  · intro i hi
    exact ⟨updAt_ne _ _ (Nat.ne_of_lt (hlt i hi)), rfl, rfl⟩
  · intro i h hi hn hm
    simp only [CSt.arriveReq] at hi
    by_cases e : i = s.c.nH
    · subst e
      rw [updAt_same] at hi
      cases hi
      rcases hk with h | h
      · exact absurd hn.symm h
      · rw [h] at hm; cases hm
    · rw [updAt_ne _ _ e] at hi; exact hi

theorem NInv.reqLt {P : SysCfg} {s : Sys} {k : Nat} (I : NInv P s k) {i : Nat} (hi : (s.r k).req = some i) :
    i < s.c.nH := by
  have L := I.link
  unfold Sys.link at L
  rw [hi] at L
  exact L.1

theorem arrive_lframe {P : SysCfg} {s : Sys} {k n sid : Nat} {kd : ReqKind} {b : HBody} (I : NInv P s k)
    (hk : k ≠ n ∨ kd.mainKind = false) (r' : Nat → RInst) (e1 : (r' k).sid = (s.r k).sid)
    (e2 : (r' k).req = (s.r k).req) (e3 : (r' k).rs = (s.r k).rs) :
    LFrame k s ⟨s.c.arriveReq kd n sid b, r', s.cfg, s.dones⟩ :=
  arrive_lframe' (fun _ => I.reqLt) hk r' e1 e2 e3

/-- A step of another instance. -/
theorem other_lframe {s : Sys} {k : Nat} (r' : Nat → RInst) (e1 : (r' k).sid = (s.r k).sid)
    (e2 : (r' k).req = (s.r k).req) (e3 : (r' k).rs.pc = (s.r k).rs.pc)
    (e4 : ∀ e : REv, e.isMain = true → (e ∈ (r' k).rs.trace ↔ e ∈ (s.r k).rs.trace)) :
    LFrame k s ⟨s.c, r', s.cfg, s.dones⟩ :=
  ⟨e1, e2, e3, e4, fun _ => rfl, fun _ _ _ => rfl, Nat.le_refl _, fun _ _ => ⟨rfl, rfl, rfl⟩, fun _ _ h _ _ => h,
    Nat.le_refl _, fun _ => Iff.rfl, fun _ h => h, fun _ h => h, fun _ => Iff.rfl, fun _ _ h _ _ => h⟩

/-- `run` sends a request. -/
theorem NInv.send {P : SysCfg} {s : Sys} {n : Nat} {k : ReqKind} {b : HBody} (I : NInv P s n)
    (hrq : s.request P n = some (k, b)) (hreq : (s.r n).req = none) :
    NInv P ⟨s.c.arriveReq k n (s.r n).sid b, updAt s.r n { s.r n with req := some s.c.nH }, s.cfg, s.dones⟩ n := by
  have L := I.link
  unfold Sys.link at L
  rw [hreq] at L
  simp only [] at L
  have er : updAt s.r n { s.r n with req := some s.c.nH } n = { s.r n with req := some s.c.nH } := updAt_same _ _ _
  refine ⟨?_, by dsimp only; rw [er]; exact I.rem, ?_, ?_, ?_, ?_, ?_⟩
  · refine link_go (i := s.c.nH) (y := { kind := k, name := n, sid := (s.r n).sid, body := b })
      (by dsimp only; rw [er]) (Nat.lt_succ_self _) (updAt_same _ _ _) ?_ rfl (by dsimp only; rw [er]) ?_
    · unfold Sys.request at hrq ⊢
      dsimp only
      rw [er]; exact hrq
    · have h1 : ∀ x, s.at_ n x → Sys.at_ ⟨s.c.arriveReq k n (s.r n).sid b,
          updAt s.r n { s.r n with req := some s.c.nH }, s.cfg, s.dones⟩ n x :=
        fun x ⟨m, a, c⟩ => ⟨m, by dsimp only; rw [er]; exact a, c⟩
      have h2 : ∀ x, s.atA n x → Sys.atA ⟨s.c.arriveReq k n (s.r n).sid b,
          updAt s.r n { s.r n with req := some s.c.nH }, s.cfg, s.dones⟩ n x :=
        fun x ⟨m, a, c⟩ => ⟨m, by dsimp only; rw [er]; exact a, c⟩
      unfold Sys.hneed
      unfold Sys.need at L
      dsimp only
      rcases request_pc hrq with ⟨a, c, _⟩ | ⟨⟨j, a⟩, c, _⟩ | ⟨a, c, _⟩ | ⟨a, c, _⟩ | ⟨a, c, _⟩ | ⟨a, c, _⟩ <;>
        rw [a] at L <;> subst c <;> simp only [] at L ⊢
      · rw [er]; exact L
      · exact h1 _ L
      · exact h1 _ L
      · exact h1 _ L
      · exact h2 _ L
      · exact h2 _ L
  · intro m hm
    dsimp only
    rw [er]
    obtain ⟨a1, a2, a3, a4⟩ := I.acked m hm
    refine ⟨a1, a2, a3, ?_⟩
    rcases a4 with a | a | a | ⟨i, h, a, _⟩
    · exact Or.inl a
    · exact Or.inr (Or.inl a)
    · exact Or.inr (Or.inr (Or.inl a))
    · rw [hreq] at a; cases a
  · intro m hm
    dsimp only
    rw [er]
    exact I.done m hm
  · dsimp only
    rw [er]
    exact I.start
  · intro i h hi hn hm
    dsimp only
    rw [er]
    by_cases e : i = s.c.nH
    · rw [e]
    · simp only [CSt.arriveReq] at hi
      rw [updAt_ne _ _ e] at hi
      have := I.own i h hi hn hm
      rw [hreq] at this
      cases this
  · intro m a ha ho hw
    unfold Sys.failed
    dsimp only
    rw [er]
    exact I.bad m a ha ho hw

theorem main_trace_mono (local_ : Nat → Bool) (k : Nat) (x : RemSt) (a : RRes) {e : REv} (h : e ∈ x.trace) :
    e ∈ (x.main local_ k a).trace := by
  unfold RemSt.main
  split <;> (try simp only [RemSt.log, RemSt.finish, RemSt.goto]) <;> (repeat' split) <;> simp [h]

theorem main_postErr (local_ : Nat → Bool) (k : Nat) (x : RemSt) (a : RRes)
    (h : REv.postBoot true ∈ (x.main local_ k a).trace) : REv.postBoot true ∈ x.trace ∨ x.pc = .postErr := by
  unfold RemSt.main at h
  split at h <;> (try simp only [RemSt.log, RemSt.finish, RemSt.goto] at h) <;> (repeat' split at h) <;>
    (try simp at h) <;> first | exact Or.inl h | exact Or.inr (by assumption)

theorem main_start (local_ : Nat → Bool) (k : Nat) (x : RemSt) (a : RRes)
    (h : REv.start ∈ (x.main local_ k a).trace) : REv.start ∈ x.trace ∨ (x.pc = .getRun ∧ a = .ok) := by
  unfold RemSt.main at h
  split at h <;> (try simp only [RemSt.log, RemSt.finish, RemSt.goto] at h) <;> (repeat' split at h) <;>
    (try simp at h) <;> first | exact Or.inl h | exact Or.inr ⟨by assumption, rfl⟩

theorem RemOk.main {x : RemSt} (h : RemOk x) (local_ : Nat → Bool) (k : Nat) (a : RRes) :
    RemOk (x.main local_ k a) := by
  by_cases hf : ∃ e, x.pc = .finished e
  · obtain ⟨e, hf⟩ := hf
    unfold RemSt.main
    rw [hf]
    exact h
  obtain ⟨h1, h2, h3⟩ := h
  unfold RemSt.main
  cases hp : x.pc
  case finished e => exact absurd ⟨e, hp⟩ hf
  all_goals
    simp only [RemSt.log, RemSt.finish, RemSt.goto]
    (repeat' split) <;> refine ⟨?_, ?_, ?_⟩ <;> simp_all

/-- The places between the two requests of a boot. -/
def RPc.early : RPc → Bool
  | .decode | .mkdir | .file _ | .collector | .prepare | .postErr | .postBoot => true
  | _ => false

theorem main_early (local_ : Nat → Bool) (k : Nat) (x : RemSt) (a : RRes) (h : x.pc.early = true)
    (hb : x.pc ≠ .postBoot) : (x.main local_ k a).pc.early = true ∨ ∃ e, (x.main local_ k a).pc = .finished e := by
  unfold RemSt.main
  split <;> rename_i hp <;> rw [hp] at h hb <;> (try cases h) <;>
    (try simp only [RemSt.log, RemSt.finish, RemSt.goto]) <;> (repeat' split) <;> simp [RPc.early] at hb ⊢

theorem need_early {s : Sys} {n : Nat} (h : (s.r n).rs.pc.early = true ∨ ∃ e, (s.r n).rs.pc = .finished e)
    (ha : s.at_ n .booting) : s.need n := by
  unfold Sys.need
  rcases h with h | ⟨e, h⟩
  · cases hp : (s.r n).rs.pc <;> rw [hp] at h <;> simp [RPc.early] at h ⊢ <;> exact ha
  · rw [h]; exact Or.inr ha

/-- `run` goes on. -/
theorem NInv.main {P : SysCfg} {s : Sys} {n : Nat} {a : RRes} (I : NInv P s n) (sid' : Nat) {x : RInst}
    (hx : x = { s.r n with rs := (s.r n).rs.main (P.local_ n sid') (P.nTrx sid') a, sid := sid', req := none })
    (hreq : ∀ i, (s.r n).req = some i → s.c.hs i = none)
    (hsid : sid' = (s.r n).sid ∨ ((s.r n).rs.pc = .getBoot ∧ (s.r n).sid = 0))
    (hneed : Sys.need ⟨s.c, updAt s.r n x, s.cfg, s.dones⟩ n)
    (hpe : (s.r n).rs.pc = .postErr → ∀ m, ¬ Acked s.c m n)
    (hrun : (s.r n).rs.pc = .getRun → a = .ok →
      ∃ m, (s.r n).sid = m + 1 ∧ (s.c.st m).runClosed = true ∧ Acked s.c m n) :
    NInv P ⟨s.c, updAt s.r n x, s.cfg, s.dones⟩ n := by
  have er : updAt s.r n x n = x := updAt_same _ _ _
  have ers : x.rs = (s.r n).rs.main (P.local_ n sid') (P.nTrx sid') a := by rw [hx]
  have es : x.sid = sid' := by rw [hx]
  have eq : x.req = none := by rw [hx]
  have hs' : ∀ m, (s.r n).sid = m + 1 → x.sid = m + 1 := by
    intro m hm
    rw [es]
    rcases hsid with h | h
    · rw [h]; exact hm
    · rw [h.2] at hm; omega
  refine ⟨?_, by dsimp only; rw [er, ers]; exact I.rem.main _ _ _, ?_, ?_, ?_, ?_, ?_⟩
  · unfold Sys.link
    dsimp only
    rw [er, eq]
    exact hneed
  · intro m hm
    dsimp only
    rw [er]
    obtain ⟨a1, a2, a3, a4⟩ := I.acked m hm
    refine ⟨hs' m a1, by rw [ers]; exact main_trace_mono _ _ _ _ a2, ?_, ?_⟩
    · intro hcon
      rw [ers] at hcon
      rcases main_postErr _ _ _ _ hcon with h | h
      · exact a3 h
      · exact hpe h m hm
    · rcases a4 with a | a | a | ⟨i, h, a, b, _⟩
      · exact Or.inl a
      · exact Or.inr (Or.inl a)
      · exact Or.inr (Or.inr (Or.inl a))
      · rw [hreq i a] at b; cases b
  · intro m hm
    dsimp only
    rw [er]
    obtain ⟨a1, a2, a3, a4⟩ := I.done m hm
    exact ⟨a1, hs' m a2, by rw [ers]; exact main_trace_mono _ _ _ _ a3, a4⟩
  · dsimp only
    rw [er]
    intro h
    rw [ers] at h
    rcases main_start _ _ _ _ h with h | h
    · obtain ⟨m, b1, b2⟩ := I.start h
      exact ⟨m, hs' m b1, b2⟩
    · obtain ⟨m, b1, b2⟩ := hrun h.1 h.2
      exact ⟨m, hs' m b1, b2⟩
  · intro i h hi hn hm
    have := I.own i h hi hn hm
    rw [hreq i this] at hi
    cases hi
  · intro m b hb ho hw
    obtain ⟨b1, b2, b3⟩ := I.bad m b hb ho hw
    unfold Sys.failed
    dsimp only
    rw [er]
    refine ⟨hs' m b1, b2, Or.inr ?_⟩
    rw [ers]
    rcases b3 with b3 | ⟨e, b3⟩
    · exact ⟨true, by simp [RemSt.main, b3, RemSt.finish]⟩
    · exact ⟨e, by simp [RemSt.main, b3]⟩

/-- An instance that boots has not acknowledged. -/
theorem NInv.booting_not_acked {P : SysCfg} {s : Sys} {n : Nat} (u : UInv s.c) (I : NInv P s n)
    (hreq : ∀ i, (s.r n).req = some i → s.c.hs i = none) (h : s.at_ n .booting) (m : Nat) : ¬ Acked s.c m n := by
  intro hm
  obtain ⟨k, _, hb⟩ := h
  rcases (I.acked m hm).2.2.2 with a | a | a | ⟨j, h', a, b, _⟩
  · exact hb.not_noC (I.done m a).1
  · exact absurd (hb.uniq u a).2 (by simp)
  · exact absurd (hb.uniq u a).2 (by simp)
  · rw [hreq j a] at b; cases b

/-- `run` goes on without the server. -/
theorem NInv.work {P : SysCfg} {s : Sys} {n : Nat} {a : RRes} (I : NInv P s n) (hrq : s.request P n = none) :
    (s.r n).req = none ∧ NInv P (s.mainStep P n a) n := by
  have L := I.link
  unfold Sys.link at L
  have hreq : (s.r n).req = none := by
    cases hr : (s.r n).req with
    | none => rfl
    | some i =>
      rw [hr] at L
      simp only [hrq] at L
      cases hh : s.c.hs i <;> rw [hh] at L <;> simp at L
  refine ⟨hreq, ?_⟩
  rw [hreq] at L
  simp only [] at L
  have hpc : (s.r n).rs.pc ≠ .postErr ∧ (s.r n).rs.pc ≠ .getRun ∧ (s.r n).rs.pc ≠ .getBoot ∧
      (s.r n).rs.pc ≠ .postBoot ∧ (s.r n).rs.pc ≠ .postRun := by
    unfold Sys.request RPc.request at hrq
    cases hp : (s.r n).rs.pc <;> rw [hp] at hrq <;> simp at hrq ⊢
  refine I.main (a := a) (s.r n).sid rfl (fun i h => by rw [hreq] at h; cases h) (Or.inl rfl) ?_
    (fun h => absurd h hpc.1) (fun h => absurd h hpc.2.1)
  have er : ∀ x : RInst, updAt s.r n x n = x := fun x => updAt_same _ _ _
  have h1 : ∀ (x : RInst) (y : RemState), x.sid = (s.r n).sid → s.at_ n y →
      Sys.at_ ⟨s.c, updAt s.r n x, s.cfg, s.dones⟩ n y :=
    fun x y hx ⟨m, a, b⟩ => ⟨m, by dsimp only; rw [er, hx]; exact a, b⟩
  have h2 : ∀ (x : RInst) (y : RemState), x.sid = (s.r n).sid → s.atA n y →
      Sys.atA ⟨s.c, updAt s.r n x, s.cfg, s.dones⟩ n y :=
    fun x y hx ⟨m, a, b⟩ => ⟨m, by dsimp only; rw [er, hx]; exact a, b⟩
  by_cases he : (s.r n).rs.pc.early = true
  · have hb : s.at_ n .booting := by
      unfold Sys.need at L
      cases hp : (s.r n).rs.pc <;> rw [hp] at L he <;> simp [RPc.early] at he <;> exact L
    refine need_early ?_ (h1 _ _ rfl hb)
    dsimp only
    rw [er]
    exact main_early _ _ _ _ he hpc.2.2.2.1
  · unfold Sys.need at L ⊢
    dsimp only
    rw [er]
    unfold RemSt.main
    cases hp : (s.r n).rs.pc <;> rw [hp] at L hpc he <;> simp [RPc.early] at hpc he <;> simp only [] at L
    case finished e =>
      simp only [hp]
      exact L.imp id (h1 _ _ rfl)
    case running =>
      exact h2 _ _ rfl L

/-- The request is given up or its response was read; the instance tries again. -/
theorem NInv.drop {P : SysCfg} {s : Sys} {n : Nat} (I : NInv P s n)
    (hnone : ∀ j, (s.r n).req = some j → s.c.hs j = none)
    (lk : Sys.need ⟨s.c, updAt s.r n { s.r n with req := none }, s.cfg, s.dones⟩ n) :
    NInv P ⟨s.c, updAt s.r n { s.r n with req := none }, s.cfg, s.dones⟩ n := by
  have er : ∀ x : RInst, updAt s.r n x n = x := fun x => updAt_same _ _ _
  refine ⟨?_, by dsimp only; rw [er]; exact I.rem, ?_, ?_, by dsimp only; rw [er]; exact I.start, ?_, ?_⟩
  · unfold Sys.link
    dsimp only
    rw [er]
    exact lk
  · intro m hm
    dsimp only
    rw [er]
    obtain ⟨a1, a2, a3, a4⟩ := I.acked m hm
    refine ⟨a1, a2, a3, ?_⟩
    rcases a4 with a | a | a | ⟨j, h, a, b, _⟩
    · exact Or.inl a
    · exact Or.inr (Or.inl a)
    · exact Or.inr (Or.inr (Or.inl a))
    · rw [hnone j a] at b; cases b
  · intro m hm
    dsimp only
    rw [er]
    exact I.done m hm
  · intro j h hj hn hm
    have := I.own j h hj hn hm
    rw [hnone j this] at hj
    cases hj
  · intro m b hb ho hw
    unfold Sys.failed
    dsimp only
    rw [er]
    exact I.bad m b hb ho hw

/-- The response to a request of `run`. -/
theorem NInv.recv {P : SysCfg} {s s' : Sys} {n : Nat} (u : UInv s.c) (v : SInv false s.c) (I : NInv P s n)
    (h : s.step P (.recv n) = some s') :
    (∃ x, s' = ⟨s.c, updAt s.r n x, s.cfg, s.dones⟩) ∧ NInv P s' n := by
  simp only [Sys.step] at h
  split at h
  · cases h
  rename_i i hreq
  split at h
  swap
  · cases h
  rename_i code hi hl
  have L := I.link
  unfold Sys.link at L
  rw [hreq] at L
  simp only [hi] at L
  obtain ⟨L1, L2, code', L3, L4⟩ := L
  rw [hl] at L3
  cases L3
  have hnone : ∀ j, (s.r n).req = some j → s.c.hs j = none := by
    intro j hj; rw [hreq] at hj; cases hj; exact hi
  have er : ∀ x : RInst, updAt s.r n x n = x := fun x => updAt_same _ _ _
  have h1 : ∀ (x : RInst) (y : RemState), x.sid = (s.r n).sid → s.at_ n y →
      Sys.at_ ⟨s.c, updAt s.r n x, s.cfg, s.dones⟩ n y :=
    fun x y hx ⟨m, a, b⟩ => ⟨m, by dsimp only; rw [er, hx]; exact a, b⟩
  have h2 : ∀ (x : RInst) (y : RemState), x.sid = (s.r n).sid → s.atA n y →
      Sys.atA ⟨s.c, updAt s.r n x, s.cfg, s.dones⟩ n y :=
    fun x y hx ⟨m, a, b⟩ => ⟨m, by dsimp only; rw [er, hx]; exact a, b⟩
  cases hres : respResult code with
  | none =>
    rw [hres] at h
    simp only [Option.some.injEq] at h
    subst h
    refine ⟨⟨_, rfl⟩, ?_⟩
    have hcode : code ≠ 200 ∧ code ≠ 205 := by
      unfold respResult at hres
      split at hres
      · cases hres
      split at hres
      · cases hres
      exact ⟨by assumption, by assumption⟩
    -- nothing but the request changes
    have lk : Sys.need ⟨s.c, updAt s.r n { s.r n with req := none }, s.cfg, s.dones⟩ n := by
      unfold Sys.post at L4
      unfold Sys.need
      dsimp only
      rw [er]
      cases hp : (s.r n).rs.pc <;> rw [hp] at L4 <;> simp only [] at L4 ⊢
      · rcases L4 with L4 | L4
        · exact absurd L4.1 hcode.1
        · exact L4.2
      · exact h1 _ _ rfl L4
      · exact h1 _ _ rfl L4
      · rcases L4 with L4 | L4
        · exact absurd L4.1 hcode.1
        · exact h1 _ _ rfl L4.2
      · rcases L4 with L4 | L4
        · exact absurd L4.1 hcode.1
        · exact h2 _ _ rfl L4.2
      · rcases L4 with L4 | L4
        · exact absurd L4.1 hcode.1
        · exact h2 _ _ rfl L4.2
    exact I.drop hnone lk
  | some a =>
    rw [hres] at h
    simp only [Option.some.injEq] at h
    have hcode : (code = 200 ∧ a = .ok) ∨ (code = 205 ∧ a = .reset) := by
      unfold respResult at hres
      split at hres
      · cases hres; exact Or.inl ⟨by assumption, rfl⟩
      split at hres
      · cases hres; exact Or.inr ⟨by assumption, rfl⟩
      cases hres
    generalize hsid : (if (s.r n).rs.pc = .getBoot then s.cfg i else (s.r n).sid) = sid' at h
    generalize hx : ({ s.r n with
      rs := (s.r n).rs.main (P.local_ n sid') (P.nTrx sid') a, sid := sid', req := none } : RInst) = x
    have hs' : s' = ⟨s.c, updAt s.r n x, s.cfg, s.dones⟩ := by
      rw [← h, ← hx]
      unfold Sys.mainStep
      simp only [updAt_same]
      congr 1
      funext k
      by_cases e : k = n
      · rw [e, updAt_same, updAt_same]
      · rw [updAt_ne _ _ e, updAt_ne _ _ e, updAt_ne _ _ e]
    subst hs'
    refine ⟨⟨x, rfl⟩, ?_⟩
    have esid : (s.r n).rs.pc ≠ .getBoot → sid' = (s.r n).sid := fun hne => by rw [← hsid, if_neg hne]
    have hxs : (s.r n).rs.pc ≠ .getBoot → x.sid = (s.r n).sid := fun hne => by rw [← hx]; exact esid hne
    unfold Sys.post at L4
    have key : ∀ {pc : RPc}, (s.r n).rs.pc = pc → pc ≠ .getBoot →
        Sys.need ⟨s.c, updAt s.r n x, s.cfg, s.dones⟩ n →
        (pc = .postErr → ∀ m, ¬ Acked s.c m n) →
        (pc = .getRun → a = .ok → ∃ m, (s.r n).sid = m + 1 ∧ (s.c.st m).runClosed = true ∧ Acked s.c m n) →
        NInv P ⟨s.c, updAt s.r n x, s.cfg, s.dones⟩ n := by
      intro pc e1 e2 e3 e4 e5
      rw [← e1] at e2 e4 e5
      exact I.main (a := a) sid' hx.symm hnone (Or.inl (esid e2)) e3 e4 e5
    have ep : x.rs = (s.r n).rs.main (P.local_ n sid') (P.nTrx sid') a := by rw [← hx]
    cases hp : (s.r n).rs.pc <;> rw [hp] at L4 <;> simp only [] at L4
    case getBoot =>
      rcases L4 with ⟨c1, c0, m, c2, c3⟩ | ⟨c1, c2, c3⟩
      · have ha : a = .ok := by
          rcases hcode with ⟨_, h⟩ | ⟨h, _⟩
          · exact h
          · rw [c1] at h; cases h
        rw [hp, if_pos rfl] at hsid
        have hna : Sys.at_ ⟨s.c, updAt s.r n x, s.cfg, s.dones⟩ n .booting :=
          ⟨m, by dsimp only; rw [er, ← hx]; dsimp only; rw [← hsid]; exact c2, c3⟩
        refine I.main (a := a) sid' hx.symm hnone (Or.inr ⟨hp, c0⟩) ?_ (by rw [hp]; simp) (by rw [hp]; simp)
        refine need_early (Or.inl ?_) hna
        dsimp only
        rw [er, ep, ha]
        simp only [RemSt.main, hp, reduceCtorEq, if_false, RemSt.goto]
        rfl
      · rcases hcode with ⟨h, _⟩ | ⟨h, _⟩
        · exact absurd h c1.1
        · exact absurd h c1.2
    case file j =>
      refine key hp (by simp) ?_ (by simp) (by simp)
      refine need_early ?_ (h1 x _ (hxs (by rw [hp]; simp)) L4)
      dsimp only
      rw [er, ep]
      exact main_early _ _ _ _ (by rw [hp]; rfl) (by rw [hp]; simp)
    case postErr =>
      refine key hp (by simp) ?_ (fun _ => I.booting_not_acked u hnone L4) (by simp)
      refine need_early ?_ (h1 x _ (hxs (by rw [hp]; simp)) L4)
      dsimp only
      rw [er, ep]
      exact main_early _ _ _ _ (by rw [hp]; rfl) (by rw [hp]; simp)
    case postBoot =>
      refine key hp (by simp) ?_ (by simp) (by simp)
      rcases L4 with ⟨c1, c2⟩ | ⟨c1, c2⟩
      · have ha : a = .ok := by
          rcases hcode with ⟨_, h⟩ | ⟨h, _⟩
          · exact h
          · rw [c1] at h; cases h
        unfold Sys.need
        dsimp only
        rw [er, ep, ha]
        simp only [RemSt.main, hp, reduceCtorEq, if_false, RemSt.goto]
        exact h2 x _ (hxs (by rw [hp]; simp)) c2
      · rcases hcode with ⟨h, _⟩ | ⟨h, _⟩
        · exact absurd h c1.1
        · exact absurd h c1.2
    case getRun =>
      rcases L4 with ⟨c1, c2⟩ | ⟨c1, c2⟩
      · have ha : a = .ok := by
          rcases hcode with ⟨_, h⟩ | ⟨h, _⟩
          · exact h
          · rw [c1] at h; cases h
        refine key hp (by simp) ?_ (by simp) ?_
        · unfold Sys.need
          dsimp only
          rw [er, ep, ha]
          simp only [RemSt.main, hp, RemSt.goto]
          exact h2 x _ (hxs (by rw [hp]; simp)) c2
        · intro _ _
          obtain ⟨m, d1, ⟨o, d2, d3⟩, d4⟩ := c2
          exact ⟨m, d1, (v.obj m n o d2).running d3, d4⟩
      · rcases hcode with ⟨h, _⟩ | ⟨h, _⟩
        · exact absurd h c1.1
        · exact absurd h c1.2
    case postRun =>
      refine key hp (by simp) ?_ (by simp) (by simp)
      rcases L4 with ⟨c1, c2⟩ | ⟨c1, c2⟩
      · unfold Sys.need
        dsimp only
        rw [er, ep]
        simp only [RemSt.main, hp, RemSt.finish, RemSt.log]
        obtain ⟨m, _, d, _⟩ := c2
        exact Or.inl d
      · rcases hcode with ⟨h, _⟩ | ⟨h, _⟩
        · exact absurd h c1.1
        · exact absurd h c1.2

end Finch
