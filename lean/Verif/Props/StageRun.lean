import Verif.Model.StageRun
import Verif.Props.Stage
import Verif.Props.JointGroups
import Mathlib.Data.Nat.Pairing
/-!
C130: a stage with iteration limits, its execution groups and their clients together.
-/
namespace Finch

open Finset

/-! ### Numbers of clients -/

theorem goIndex_cons (g : List Nat) (groups : List (List Nat)) (e k : Nat) :
    goIndex (g :: groups) (e + 1, k) = g.sum + goIndex groups (e, k) := by
  simp [goIndex, Nat.add_assoc]

theorem clientsOf_cons (g : List Nat) (groups : List (List Nat)) (e : Nat) :
    clientsOf (g :: groups) (e + 1) = clientsOf groups e := by simp [clientsOf]

/-- Different clients have different numbers. -/
theorem goIndex_inj : ∀ (groups : List (List Nat)) (e k e' k' : Nat), k < clientsOf groups e → k' < clientsOf groups e' →
    goIndex groups (e, k) = goIndex groups (e', k') → e = e' ∧ k = k'
  | [], e, k, e', k', h, _, _ => by simp [clientsOf] at h
  | g :: groups, 0, k, 0, k', _, _, h => by simpa [goIndex] using h
  | g :: groups, 0, k, e' + 1, k', h1, _, h => by
    rw [goIndex_cons] at h
    simp [goIndex, clientsOf] at h h1
    omega
  | g :: groups, e + 1, k, 0, k', _, h2, h => by
    rw [goIndex_cons] at h
    simp [goIndex, clientsOf] at h h2
    omega
  | g :: groups, e + 1, k, e' + 1, k', h1, h2, h => by
    rw [goIndex_cons, goIndex_cons] at h
    rw [clientsOf_cons] at h1 h2
    obtain ⟨h3, h4⟩ := goIndex_inj groups e k e' k' h1 h2 (by omega)
    exact ⟨by omega, h4⟩

/-! ### The parts of a run -/

/-- Spec: neither the runtime of the stage ends nor is the run cancelled, and for the answers that clients get `P` holds. -/
def RAct.With (P : Ans → Prop) : RAct → Prop
  | .stage a => a ≠ .expire ∧ a ≠ .cancel
  | .client _ a => P a

/-- Spec: neither the runtime of the stage ends nor is the run cancelled, and no query or connection of a client fails. -/
abbrev RAct.Well : RAct → Prop := RAct.With GoesOk

/-- Spec: neither the runtime of the stage ends nor is the run cancelled. Queries and connections may fail. -/
abbrev RAct.Quiet : RAct → Prop := RAct.With fun _ => True

theorem RAct.Well.quiet {a : RAct} (h : a.Well) : a.Quiet := by
  cases a with
  | stage a => exact h
  | client c a => trivial

theorem over_eq (p : CPc) : p.over = p.isStopped := by cases p <;> rfl

theorem SState.stageDone_step (groups : List (List Nat)) (s : SState) (a : SAct) (h1 : a ≠ .expire) (h2 : a ≠ .cancel) :
    (s.step groups a).stageDone = s.stageDone := by
  cases a with
  | expire => exact absurd rfl h1
  | cancel => exact absurd rfl h2
  | _ => simp only [SState.step]; (repeat' split) <;> rfl

theorem SState.run_snoc (groups : List (List Nat)) (as : List SAct) (a : SAct) :
    SState.init.run groups (as ++ [a]) = (SState.init.run groups as).step groups a := by
  simp [SState.run, List.foldl_append]

theorem Joint.run_snoc (tbl : GoMap Nat Nat) (cs : List AClient) (l : List (Nat × Ans)) (k : Nat) (a : Ans) :
    Joint.init.run tbl cs (l ++ [(k, a)]) = (Joint.init.run tbl cs l).step tbl cs k a := by
  simp [Joint.run, List.foldl_append]

/-- The goroutine of a client is over. -/
def GoSt.over : GoSt → Bool
  | .idle | .running => false
  | _ => true

/-- A goroutine that is over after a step of the stage was over before. -/
theorem SeqInv.over_before {groups : List (List Nat)} {s : SState} (hs : SeqInv groups s) (a : SAct) (ha : ∀ c, a ≠ .stop c)
    (c : GoId) (h : ((s.step groups a).st c).over = true) : (s.st c).over = true := by
  cases a with
  | stop d => exact absurd rfl (ha d)
  | next =>
    simp only [SState.step] at h
    (repeat' split at h) <;> try exact h
    simp only [startClients] at h
    split at h
    · cases h
    · exact h
  | recv =>
    simp only [SState.step] at h
    split at h
    · rename_i d e n hch hpc
      simp only [setGo] at h
      split at h
      · rename_i hcd
        subst hcd
        rw [(hs.sent c).mpr hch]; rfl
      · exact h
    · rename_i d e n k hch hpc
      simp only [setGo] at h
      split at h
      · rename_i hcd
        subst hcd
        rw [(hs.sent c).mpr hch]; rfl
      · exact h
    · exact h
  | send d =>
    simp only [SState.step] at h
    split at h
    · rename_i hd
      simp only [setGo] at h
      split at h
      · rename_i hcd
        subst hcd
        rw [hd.1]; rfl
      · exact h
    · exact h
  | seeStage => simp only [SState.step] at h; (repeat' split at h) <;> exact h
  | seeFinch => simp only [SState.step] at h; (repeat' split at h) <;> exact h
  | tick => simp only [SState.step] at h; (repeat' split at h) <;> exact h
  | expire => exact h
  | cancel => exact h

/-- The stage of a run makes a run of `Model/Stage`, and the clients one of `Model/Joint`. -/
structure Parts (P : Ans → Prop) (tbl : GoMap Nat Nat) (groups : List (List Nat)) (cs : List AClient) (s : RunSt) : Prop where
  stage : ∃ as, s.stage = SState.init.run groups as
  done : s.stage.stageDone = false
  joint : ∃ l, s.joint = Joint.init.run tbl cs l ∧ ∀ y ∈ l, P y.2
  over : ∀ c, (s.stage.st c).over = true → (s.joint.cl (goIndex groups c)).pc.isStopped = true

theorem Parts.seq {P : Ans → Prop} {tbl : GoMap Nat Nat} {groups : List (List Nat)} {cs : List AClient} {s : RunSt}
    (h : Parts P tbl groups cs s) : SeqInv groups s.stage := by
  obtain ⟨as, e⟩ := h.stage
  have hd := h.done
  rw [e] at hd ⊢
  exact seqInv_run groups as hd

theorem parts_init (P : Ans → Prop) (tbl : GoMap Nat Nat) (groups : List (List Nat)) (cs : List AClient) : Parts P tbl groups cs RunSt.init :=
  ⟨⟨[], rfl⟩, rfl, ⟨[], rfl, by simp⟩, by intro c h; cases h⟩

theorem Parts.step {P : Ans → Prop} {tbl : GoMap Nat Nat} {groups : List (List Nat)} {cs : List AClient} {s : RunSt}
    (h : Parts P tbl groups cs s) (a : RAct) (hw : a.With P) : Parts P tbl groups cs (s.step tbl groups cs a) := by
  have hq := h.seq
  obtain ⟨⟨as, e⟩, hd, ⟨l, ej, hl⟩, ho⟩ := h
  cases a with
  | stage a =>
    obtain ⟨h1, h2⟩ := hw
    have key : (∀ c, a ≠ .stop c) → Parts P tbl groups cs { s with stage := s.stage.step groups a } := by
      intro hns
      refine ⟨⟨as ++ [a], ?_⟩, ?_, ⟨l, ej, hl⟩, ?_⟩
      · rw [SState.run_snoc, ← e]
      · show (s.stage.step groups a).stageDone = false
        rw [SState.stageDone_step groups _ a h1 h2]; exact hd
      · intro c hc
        exact ho c (hq.over_before a hns c hc)
    cases a with
    | stop c => exact ⟨⟨as, e⟩, hd, ⟨l, ej, hl⟩, ho⟩
    | _ => exact key (by intro c hc; cases hc)
  | client c a =>
    simp only [RunSt.step]
    by_cases hr : s.stage.st c = .running
    · rw [if_pos hr]
      have hj : s.joint.step tbl cs (goIndex groups c) a = Joint.init.run tbl cs (l ++ [(goIndex groups c, a)]) := by
        rw [Joint.run_snoc, ← ej]
      have hl' : ∀ y ∈ l ++ [(goIndex groups c, a)], P y.2 := by
        intro y hy
        rcases List.mem_append.1 hy with hy | hy
        · exact hl y hy
        · rw [List.mem_singleton.1 hy]; exact hw
      by_cases hst : ((s.joint.step tbl cs (goIndex groups c) a).cl (goIndex groups c)).pc.over = true
      · rw [if_pos hst]
        refine ⟨⟨as ++ [.stop c], ?_⟩, ?_, ⟨_, hj, hl'⟩, ?_⟩
        · rw [SState.run_snoc, ← e]
        · show (s.stage.step groups (.stop c)).stageDone = false
          rw [SState.stageDone_step groups _ _ (by simp) (by simp)]; exact hd
        · intro d hdo
          by_cases hcd : d = c
          · subst hcd
            rw [← over_eq]; exact hst
          · simp only [SState.step, if_pos hr, setGo, if_neg hcd] at hdo
            exact stopped_stays tbl _ _ (ho d hdo)
      · rw [if_neg hst]
        exact ⟨⟨as, e⟩, hd, ⟨_, hj, hl'⟩, fun d hdo => stopped_stays tbl _ _ (ho d hdo)⟩
    · rw [if_neg hr]
      exact ⟨⟨as, e⟩, hd, ⟨l, ej, hl⟩, ho⟩

theorem parts_run {P : Ans → Prop} (tbl : GoMap Nat Nat) (groups : List (List Nat)) (cs : List AClient) (acts : List RAct)
    (hw : ∀ a ∈ acts, a.With P) : Parts P tbl groups cs (RunSt.init.run tbl groups cs acts) := by
  have : ∀ s, Parts P tbl groups cs s → Parts P tbl groups cs (s.run tbl groups cs acts) := by
    induction acts with
    | nil => intro s h; exact h
    | cons a acts ih =>
      intro s h
      exact ih (fun b hb => hw b (List.mem_cons_of_mem _ hb)) _ (h.step a (hw a (by simp)))
  exact this _ (parts_init P tbl groups cs)

/-! ### A measure of what is left -/

/-- Steps that a client makes for the stage. -/
def goLeft : GoSt → Nat
  | .idle | .running => 3
  | .finished => 2
  | .sent => 1
  | .received => 0

def restLeft (groups : List (List Nat)) (e : Nat) : Nat := ((groups.drop e).map fun g => g.length + 3).sum

def pcLeft (groups : List (List Nat)) : SPc → Nat
  | .head e => restLeft groups e + 1
  | .start e j _ => ((groups[e]?.getD []).length - j) + 3 + restLeft groups (e + 1)
  | .wait e _ => 2 + restLeft groups (e + 1)
  | .spin .. | .ended => 0

theorem restLeft_some {groups : List (List Nat)} {e : Nat} {g : List Nat} (h : groups[e]? = some g) :
    restLeft groups e = g.length + 3 + restLeft groups (e + 1) := by
  obtain ⟨hlt, rfl⟩ := List.getElem?_eq_some_iff.1 h
  simp only [restLeft]
  rw [List.drop_eq_getElem_cons hlt, List.map_cons, List.sum_cons]

/-- The clients of a stage. -/
def goIds (groups : List (List Nat)) : Finset GoId :=
  (range groups.length).biUnion fun e => (range (clientsOf groups e)).image fun k => (e, k)

theorem mem_goIds {groups : List (List Nat)} {c : GoId} : c ∈ goIds groups ↔ c.2 < clientsOf groups c.1 := by
  obtain ⟨e, k⟩ := c
  simp only [goIds, mem_biUnion, mem_range, mem_image, Prod.mk.injEq]
  constructor
  · rintro ⟨e', -, k', h, rfl, rfl⟩; exact h
  · intro h
    refine ⟨e, ?_, k, h, rfl, rfl⟩
    by_contra hge
    have := clientsOf_none (groups := groups) (e := e) (by simp; omega)
    have h : k < clientsOf groups e := h
    omega

/-- A bound of the steps that a client, which begins at most `N` iterations, still makes whatever fails, apart from
connections that cannot be made. -/
def anySteps (c : Cli) (N : Nat) (s : CState) : Nat :=
  let len := c.statements.length
  let rest := (N - s.iter) * (5 * len + 12) + 1
  match s.pc with
  | .error .. => rest + len + 8
  | .connect _ => rest + len + 7
  | .rollback .. => rest + len + 6
  | .close _ => rest + len + 5
  | .connLoop _ => rest + len + 4
  | .connected _ => rest + len + 3
  | .use _ => rest + len + 2
  | .prep _ k => rest + (len - k) + 1
  | .head => rest
  | .stmt i => rest + len + 9 + 4 * (len - i) + 1
  | .limit i => rest + len + 9 + 4 * (len - i)
  | .exec i => rest + len + 9 + 4 * (len - i) - 1
  | .scan i => rest + len + 9 + 4 * (len - i) - 2
  | .stopped _ => 0

theorem scan_step {c : Cli} {s s' : CState} {a : Ans} (h : CStep c s a s')
    (hs : ∀ i, s.pc = .scan i → i < c.statements.length) : ∀ i, s'.pc = .scan i → i < c.statements.length := by
  intro i hi
  cases h
  case execRows j st d stat hpc hst hd hstat hc he hr =>
    have hlt := (List.getElem?_eq_some_iff.mp hst).1
    dsimp only at hi
    split at hi
    · cases hi; exact hlt
    · cases hi
  case stmt j st d hpc hst hidle hd =>
    dsimp only at hi
    split at hi <;> cases hi
  case stopped e hpc => exact hs i hi
  case connFail => exact hs i hi
  all_goals cases hi

/-- Each step brings the end of a client nearer, or it is over, or waits for a connection. -/
theorem anySteps_step {c : Cli} {N : Nat} {s s' : CState} {a : Ans} (h : CStep c s a s') (hN : s'.iter ≤ N)
    (hs : ∀ i, s.pc = .scan i → i < c.statements.length) :
    (s' = s ∧ (s.pc.isStopped = true ∨ (a.connOk = false ∧ s.pc ≠ .head))) ∨ anySteps c N s' < anySteps c N s := by
  cases h
  case stopped e hpc => exact .inl ⟨rfl, .inl (by rw [hpc]; rfl)⟩
  case connFail hpc hc ho => exact .inl ⟨rfl, .inr ⟨ho, by rw [hpc]; simp⟩⟩
  case stmt i st d hpc hst hidle hd =>
    right
    cases (!st.resultSet && st.limit.isSome) <;>
      simp only [anySteps, hpc, if_true, Bool.false_eq_true, if_false] <;> omega
  case execRows i st d stat hpc hst hd hstat hc he hr =>
    right
    have hlt := (List.getElem?_eq_some_iff.mp hst).1
    by_cases hb : d.outputs ≠ []
    · simp only [anySteps, hpc, if_pos hb]; omega
    · simp only [anySteps, hpc, if_neg hb]; omega
  case execOk i st d stat hpc hst hd hstat hc he hr =>
    right
    have hlt := (List.getElem?_eq_some_iff.mp hst).1
    simp only [anySteps, hpc]; omega
  case execFail i st d stat code hpc hst hd hstat he =>
    right
    have hlt := (List.getElem?_eq_some_iff.mp hst).1
    simp only [anySteps, hpc]; omega
  case scanOk i hpc he =>
    right
    have := hs i hpc
    simp only [anySteps, hpc]; omega
  case scanFail i e hpc he =>
    right
    have := hs i hpc
    simp only [anySteps, hpc]; omega
  case iterate hpc hl =>
    right
    have hN : s.iter + 1 ≤ N := hN
    simp only [anySteps, hpc]
    have e : N - s.iter = (N - (s.iter + 1)) + 1 := by omega
    rw [e, Nat.add_mul]
    omega
  case idle i st hpc hst hidle =>
    right
    have hlt := (List.getElem?_eq_some_iff.mp hst).1
    simp only [anySteps, hpc]; omega
  case prepOk f k st hpc hst hpp hps he hlen =>
    right
    have hlt := (List.getElem?_eq_some_iff.mp hst).1
    simp only [anySteps, hpc]; omega
  case prepSkip f k st hpc hst hpp =>
    right
    have hlt := (List.getElem?_eq_some_iff.mp hst).1
    simp only [anySteps, hpc]; omega
  case ctxStop hc hpc =>
    right
    rcases hpc with ⟨_, h⟩ | ⟨_, h⟩ | ⟨_, h⟩ <;> (simp only [anySteps, h]; omega)
  all_goals (right; rename_i hpc _; simp only [anySteps, *]; omega)

/-- The same with the steps in the loop head. -/
def jointAny (c : Cli) (N : Nat) (s : Joint) (k : Nat) : Nat :=
  3 * anySteps c N (s.cl k) - (match s.ph k with | .start => 0 | .eg _ => 1 | .cg _ _ => 2)

theorem upd_self {α : Type} (f : Nat → α) (k : Nat) : upd f k (f k) = f := by
  funext j
  by_cases h : j = k
  · subst h; rw [upd_same]
  · rw [upd_ne _ _ h]

theorem jointAny_step (tbl : GoMap Nat Nat) {cs : List AClient} {s : Joint} {k N : Nat} {x : AClient} {a : Ans}
    (hx : cs[k]? = some x) (hph : s.ph k ≠ .start → (s.cl k).pc = .head)
    (hs : ∀ i, (s.cl k).pc = .scan i → i < x.statements.length) (hN : ((s.step tbl cs k a).cl k).iter ≤ N) :
    (s.step tbl cs k a = s ∧ ((s.cl k).pc.isStopped = true ∨ a.connOk = false)) ∨
      jointAny (x.cli tbl) N (s.step tbl cs k a) k < jointAny (x.cli tbl) N s k := by
  by_cases hh : (s.cl k).pc = .head
  · right
    have hpos : 0 < anySteps (x.cli tbl) N (s.cl k) := by simp only [anySteps, hh]; omega
    have hgo : ∀ (c : Nat → Nat) (n m : Nat), s.step tbl cs k a = { s with ctr := c }.go (x.cli tbl) k a n m →
        jointAny (x.cli tbl) N (s.step tbl cs k a) k < jointAny (x.cli tbl) N s k := by
      intro c n m e
      rw [e] at hN ⊢
      simp only [Joint.go, upd_same] at hN
      simp only [jointAny, Joint.go, upd_same]
      rcases anySteps_step (CState.step_cases (x.cli tbl) (s.cl k) { a with egCount := n, cgCount := m }) hN hs with
        ⟨-, h | h⟩ | h
      · rw [hh] at h; cases h
      · exact absurd hh h.2
      · split <;> omega
    cases hp : s.ph k with
    | cg n m => exact hgo s.ctr n m (by simp [Joint.step, hx, hh, hp])
    | eg n =>
      cases hov : (addIter x.iterClients s.ctr).2.2 with
      | true => exact hgo (addIter x.iterClients s.ctr).1 n (addIter x.iterClients s.ctr).2.1 (by simp only [Joint.step, hx, hh, hp, hov, if_true])
      | false =>
        simp only [jointAny, Joint.step, hx, hh, hp, hov, if_true, Bool.false_eq_true, if_false, upd_same]
        omega
    | start =>
      cases hov : (addIter x.iterExecGroup s.ctr).2.2 with
      | true => exact hgo (addIter x.iterExecGroup s.ctr).1 (addIter x.iterExecGroup s.ctr).2.1 0 (by simp only [Joint.step, hx, hh, hp, hov, if_true])
      | false =>
        simp only [jointAny, Joint.step, hx, hh, hp, hov, if_true, Bool.false_eq_true, if_false, upd_same]
        omega
  · have hp : s.ph k = .start := by
      by_contra hne
      exact hh (hph hne)
    have e : s.step tbl cs k a = s.go (x.cli tbl) k a 0 0 := by simp [Joint.step, hx, hh]
    rw [e] at hN ⊢
    simp only [Joint.go, upd_same] at hN
    rcases anySteps_step (CState.step_cases (x.cli tbl) (s.cl k) { a with egCount := 0, cgCount := 0 }) hN hs with
      ⟨h1, h2⟩ | h
    · left
      refine ⟨?_, h2.imp id And.left⟩
      simp only [Joint.go]
      rw [h1, upd_self, ← hp, upd_self]
    · right
      simp only [jointAny, Joint.go, upd_same, hp]
      omega

theorem scan_run (tbl : GoMap Nat Nat) {cs : List AClient} (l : List (Nat × Ans)) {k : Nat} {x : AClient}
    (hx : cs[k]? = some x) : ∀ i, ((Joint.init.run tbl cs l).cl k).pc = .scan i → i < x.statements.length := by
  obtain ⟨as, ha⟩ := Joint.client_run tbl l hx
  rw [ha]
  exact CState.run_inv (c := x.cli tbl) (P := fun s => ∀ i, s.pc = .scan i → i < x.statements.length)
    (fun s a s' h hs => scan_step h hs) as CState.init (by intro i h; cases h)

/-- What is left for a client. -/
def clientLeft (tbl : GoMap Nat Nat) (groups : List (List Nat)) (cs : List AClient) (N : Nat → Nat) (s : RunSt)
    (c : GoId) : Nat :=
  goLeft (s.stage.st c) + match cs[goIndex groups c]? with
    | none => 0
    | some x => jointAny (x.cli tbl) (N (goIndex groups c)) s.joint (goIndex groups c)

def runLeft (tbl : GoMap Nat Nat) (groups : List (List Nat)) (cs : List AClient) (N : Nat → Nat) (s : RunSt) : Nat :=
  pcLeft groups s.stage.pc + ∑ c ∈ goIds groups, clientLeft tbl groups cs N s c

/-- The step can be made. -/
def RunSt.Enabled (s : RunSt) : RAct → Prop
  | .stage .next => match s.stage.pc with
    | .head _ | .start .. => True
    | .wait _ n => n = 0
    | _ => False
  | .stage .recv => s.stage.chan ≠ none ∧ ∃ e n, s.stage.pc = .wait e (n + 1)
  | .stage (.send c) => s.stage.st c = .finished ∧ s.stage.chan = none
  | .client c a => s.stage.st c = .running ∧ a.connOk = true
  | _ => False

/-- What is needed of the clients: all of them are there, and the number of their iterations is bounded. -/
structure Bounds (tbl : GoMap Nat Nat) (groups : List (List Nat)) (cs : List AClient) (N : Nat → Nat) : Prop where
  all : ∀ c : GoId, c.2 < clientsOf groups c.1 → ∃ x, cs[goIndex groups c]? = some x
  iter : ∀ (k : Nat) x, cs[k]? = some x → ∀ l, ((Joint.init.run tbl cs l).cl k).iter ≤ N k

/-- All clients that the stage starts are there. -/
def AllClients (groups : List (List Nat)) (cs : List AClient) : Prop :=
  ∀ c : GoId, c.2 < clientsOf groups c.1 → ∃ x, cs[goIndex groups c]? = some x

/-- No client has begun more than this number of iterations. -/
def IterLe (cs : List AClient) (N : Nat → Nat) (s : RunSt) : Prop :=
  ∀ (k : Nat) x, cs[k]? = some x → (s.joint.cl k).iter ≤ N k

/-- A client that has counted an iteration is in the loop head. -/
theorem ph_head (tbl : GoMap Nat Nat) (cs : List AClient) (l : List (Nat × Ans)) (k : Nat) :
    (Joint.init.run tbl cs l).ph k ≠ .start → ((Joint.init.run tbl cs l).cl k).pc = .head := by
  refine Joint.run_inv (tbl := tbl) (cs := cs) (P := fun s => s.ph k ≠ .start → (s.cl k).pc = .head) ?_ l Joint.init
    (by simp [Joint.init])
  intro s j a h
  by_cases hj : k = j
  · subst hj
    unfold Joint.step
    split
    · exact h
    · split
      · rename_i hh
        dsimp only
        (repeat' split) <;> simp [Joint.go, upd_same, hh]
      · simp [Joint.go, upd_same]
  · obtain ⟨h1, h2⟩ := Joint.step_other tbl cs s a hj
    rw [h1, h2]
    exact h

theorem joint_iter_mono (tbl : GoMap Nat Nat) (cs : List AClient) (s : Joint) (k j : Nat) (a : Ans) :
    (s.cl j).iter ≤ ((s.step tbl cs k a).cl j).iter := by
  by_cases hj : j = k
  · subst hj
    cases hx : cs[j]? with
    | none => simp [Joint.step, hx]
    | some x =>
      rcases Joint.step_self tbl s a hx with h | ⟨b, h⟩
      · rw [h]
      · rw [h]
        rcases iter_step ((s.cl j).step_cases (x.cli tbl) b) with h | ⟨h, -⟩ <;> omega
  · rw [(Joint.step_other tbl cs _ a hj).1]

theorem wellInv_run {tbl : GoMap Nat Nat} {cs : List AClient} {N : Nat}
    {k : Nat} {x : AClient} (hx : cs[k]? = some x) (l : List (Nat × Ans)) :
    (∀ y ∈ l, GoesOk y.2) → ((Joint.init.run tbl cs l).cl k).iter ≤ N →
      WellInv (x.cli tbl) N ((Joint.init.run tbl cs l).cl k) := by
  induction l using List.reverseRecOn with
  | nil => intro _ _; exact ⟨rfl, Nat.zero_le _, by simp [Joint.run, Joint.init, CState.init]⟩
  | append_singleton l y ih =>
    intro hw hi
    obtain ⟨j, a⟩ := y
    rw [Joint.run_snoc] at hi ⊢
    have h1 := ih (fun z hz => hw z (by simp [hz])) ((joint_iter_mono tbl cs _ j k a).trans hi)
    by_cases hj : k = j
    · subst hj
      exact (jointSteps_step tbl hx (hw (k, a) (by simp)) h1 hi).1
    · rw [(Joint.step_other tbl cs _ a hj).1]; exact h1

/-- A step of a client brings the end nearer, unless it waits for a connection. -/
theorem client_left {P : Ans → Prop} {tbl : GoMap Nat Nat} {groups : List (List Nat)} {cs : List AClient} {N : Nat → Nat}
    (hall : AllClients groups cs) {s : RunSt} (h : Parts P tbl groups cs s) (c : GoId) (a : Ans)
    (hb : IterLe cs N (s.step tbl groups cs (.client c a))) (he : s.stage.st c = .running) :
    (s.step tbl groups cs (.client c a) = s ∧ a.connOk = false) ∨
      runLeft tbl groups cs N (s.step tbl groups cs (.client c a)) < runLeft tbl groups cs N s := by
  have hc : c ∈ goIds groups := by
    obtain ⟨as, e⟩ := h.stage
    have hd := h.done
    rw [e] at he hd
    exact mem_goIds.2 (C50_only_clients groups as hd c (by rw [he]; simp))
  obtain ⟨x, hx⟩ := hall c (mem_goIds.1 hc)
  obtain ⟨l, ej, -⟩ := h.joint
  have hph := ph_head tbl cs l (goIndex groups c)
  have hscan := scan_run tbl l hx
  have hit := hb _ x hx
  simp only [RunSt.step, if_pos he] at hit
  rw [← ej] at hph hscan
  have hdec := jointAny_step tbl hx hph hscan hit
  have hother : ∀ d ∈ goIds groups, d ≠ c → goIndex groups d ≠ goIndex groups c := by
    intro d hd hne heq
    obtain ⟨h1, h2⟩ := goIndex_inj groups d.1 d.2 c.1 c.2 (mem_goIds.1 hd) (mem_goIds.1 hc) heq
    exact hne (Prod.ext h1 h2)
  have hkeep : ∀ d ∈ goIds groups, d ≠ c → ∀ y,
      jointAny (AClient.cli y tbl) (N (goIndex groups d)) (s.joint.step tbl cs (goIndex groups c) a) (goIndex groups d) =
        jointAny (y.cli tbl) (N (goIndex groups d)) s.joint (goIndex groups d) := by
    intro d hd hne y
    obtain ⟨o1, o2⟩ := Joint.step_other tbl cs s.joint a (hother d hd hne)
    unfold jointAny
    rw [o1, o2]
  have hle : jointAny (x.cli tbl) (N (goIndex groups c)) (s.joint.step tbl cs (goIndex groups c) a) (goIndex groups c) ≤
      jointAny (x.cli tbl) (N (goIndex groups c)) s.joint (goIndex groups c) := by
    rcases hdec with ⟨h1, -⟩ | hlt
    · rw [h1]
    · exact hlt.le
  simp only [RunSt.step]
  rw [if_pos he]
  by_cases hov : ((s.joint.step tbl cs (goIndex groups c) a).cl (goIndex groups c)).pc.over = true
  · right
    rw [if_pos hov]
    unfold runLeft
    refine Nat.add_lt_add_of_le_of_lt (by simp only [SState.step, if_pos he]; exact Nat.le_refl _)
      (sum_lt_sum (fun d hd => ?_) ⟨c, hc, ?_⟩)
    · by_cases hdc : d = c
      · subst hdc
        simp only [clientLeft, SState.step, setGo, if_true, hx, he, goLeft]
        omega
      · simp only [clientLeft, SState.step, if_pos he, setGo, if_neg hdc]
        split
        · exact Nat.le_refl _
        · rw [hkeep d hd hdc]
    · simp only [clientLeft, SState.step, setGo, if_true, hx, he, goLeft]
      omega
  · rw [if_neg hov]
    rcases hdec with ⟨h1, h2⟩ | hlt
    · left
      rw [h1]
      refine ⟨rfl, ?_⟩
      rcases h2 with h2 | h2
      · rw [h1, over_eq] at hov
        exact absurd h2 hov
      · exact h2
    · right
      unfold runLeft
      refine Nat.add_lt_add_of_le_of_lt (Nat.le_refl _) (sum_lt_sum (fun d hd => ?_) ⟨c, hc, ?_⟩)
      · by_cases hdc : d = c
        · subst hdc
          simp only [clientLeft, hx]
          omega
        · simp only [clientLeft]
          split
          · exact Nat.le_refl _
          · rw [hkeep d hd hdc]
      · simp only [clientLeft, hx]
        omega

/-- A step that is made brings the end nearer. -/
theorem runLeft_step {P : Ans → Prop} {tbl : GoMap Nat Nat} {groups : List (List Nat)} {cs : List AClient} {N : Nat → Nat}
    (hall : AllClients groups cs) {s : RunSt} (h : Parts P tbl groups cs s) (a : RAct)
    (hb : IterLe cs N (s.step tbl groups cs a)) (he : s.Enabled a) :
    runLeft tbl groups cs N (s.step tbl groups cs a) < runLeft tbl groups cs N s := by
  have hq := h.seq
  have hvalid : ∀ c, s.stage.st c ≠ .idle → c ∈ goIds groups := by
    intro c hc
    obtain ⟨as, e⟩ := h.stage
    have hd := h.done
    rw [e] at hc hd
    exact mem_goIds.2 (C50_only_clients groups as hd c hc)
  -- a client makes a step for the stage
  have hgo : ∀ (s' : SState) (c : GoId) (x : GoSt), s'.st = setGo s.stage.st c x → s.stage.st c ≠ .idle →
      goLeft x < goLeft (s.stage.st c) → pcLeft groups s'.pc ≤ pcLeft groups s.stage.pc →
      runLeft tbl groups cs N { s with stage := s' } < runLeft tbl groups cs N s := by
    intro s' c x e1 e2 e3 e4
    unfold runLeft
    refine Nat.add_lt_add_of_le_of_lt e4 (sum_lt_sum (fun d _ => ?_) ⟨c, hvalid c e2, ?_⟩)
    · simp only [clientLeft, e1, setGo]
      split
      · rename_i hd; subst hd; omega
      · exact Nat.le_refl _
    · simp only [clientLeft, e1, setGo, if_pos]
      omega
  cases a with
  | stage a =>
    cases a with
    | next =>
      simp only [RunSt.Enabled] at he
      simp only [RunSt.step, SState.step]
      cases hp : s.stage.pc with
      | head e =>
        cases hg : groups[e]? with
        | none =>
          simp only [hg, runLeft, hp, pcLeft, clientLeft]
          omega
        | some g =>
          simp only [hg, hq.finch, Bool.false_eq_true, if_false, runLeft, hp, pcLeft, clientLeft, restLeft_some hg,
            Option.getD_some]
          omega
      | start e j n =>
        cases hg : (groups[e]?.getD [])[j]? with
        | none =>
          simp only [hg, runLeft, hp, pcLeft, clientLeft]
          omega
        | some k =>
          have hj := (List.getElem?_eq_some_iff.1 hg).1
          simp only [hg, runLeft, hp, pcLeft]
          refine Nat.add_lt_add_of_lt_of_le (by omega) (sum_le_sum fun c _ => ?_)
          simp only [clientLeft, startClients]
          split
          · rename_i hc
            have hidle : s.stage.st c = .idle := by
              by_contra hne
              have := hq.started c hne
              rw [hp] at this
              simp only [curGroup, startedOf] at this
              omega
            rw [hidle]
            exact Nat.le_refl _
          · exact Nat.le_refl _
      | wait e n =>
        rw [hp] at he
        simp only at he
        subst he
        simp only [if_true, runLeft, hp, pcLeft, clientLeft]
        omega
      | spin e n k => rw [hp] at he; exact he.elim
      | ended => rw [hp] at he; exact he.elim
    | recv =>
      obtain ⟨h1, e, n, hp⟩ := he
      cases hch : s.stage.chan with
      | none => exact absurd hch h1
      | some c =>
        have hs := (hq.sent c).mpr hch
        refine hgo _ c .received ?_ (by rw [hs]; simp) (by rw [hs]; decide) ?_
        · simp only [SState.step, hch, hp]
        · simp only [SState.step, hch, hp, pcLeft]
          exact Nat.le_refl _
    | send c =>
      obtain ⟨h1, h2⟩ := he
      refine hgo _ c .sent ?_ (by rw [h1]; simp) (by rw [h1]; decide) ?_
      · simp only [SState.step]
        rw [if_pos ⟨h1, h2⟩]
      · simp only [SState.step]
        rw [if_pos ⟨h1, h2⟩]
    | _ => exact he.elim
  | client c a =>
    obtain ⟨he, ho⟩ := he
    rcases client_left hall h c a hb he with ⟨-, h1⟩ | h1
    · rw [ho] at h1; cases h1
    · exact h1

/-- A step that cannot be made changes nothing. -/
theorem not_enabled {P : Ans → Prop} {tbl : GoMap Nat Nat} {groups : List (List Nat)} {cs : List AClient}
    {s : RunSt} (h : Parts P tbl groups cs s) (a : SAct) (hw : (RAct.stage a).Quiet) (he : ¬ s.Enabled (.stage a)) :
    s.step tbl groups cs (.stage a) = s := by
  have hq := h.seq
  have hspin : ∀ e n k, s.stage.pc ≠ .spin e n k := by
    intro e n k hp
    have := hq.pc
    rw [hp] at this
    exact this
  have key : s.stage.step groups a = s.stage → RunSt.step tbl groups cs s (.stage a) = s := by
    intro e
    cases a <;> simp only [RunSt.step, e]
  by_cases hstop : ∃ c, a = .stop c
  · obtain ⟨c, rfl⟩ := hstop
    rfl
  refine key ?_
  cases a with
  | next =>
    simp only [RunSt.Enabled] at he
    simp only [SState.step]
    cases hp : s.stage.pc with
    | head e => rw [hp] at he; exact absurd trivial he
    | start e j n => rw [hp] at he; exact absurd trivial he
    | wait e n =>
      rw [hp] at he
      simp only
      rw [if_neg he]
    | spin e n k => exact absurd hp (hspin e n k)
    | ended => rfl
  | recv =>
    simp only [RunSt.Enabled, not_and] at he
    simp only [SState.step]
    cases hch : s.stage.chan with
    | none => rfl
    | some c =>
      have he := he (by rw [hch]; simp)
      cases hp : s.stage.pc with
      | wait e n =>
        cases n with
        | zero => rfl
        | succ n => exact absurd ⟨e, n, hp⟩ he
      | spin e n k => exact absurd hp (hspin e n k)
      | _ => rfl
  | seeStage =>
    simp only [SState.step, h.done]
    (repeat' split) <;> first | rfl | contradiction
  | seeFinch =>
    simp only [SState.step, hq.finch]
    (repeat' split) <;> first | rfl | contradiction
  | tick =>
    simp only [SState.step]
    cases hch : s.stage.chan with
    | some c => rfl
    | none =>
      cases hp : s.stage.pc with
      | spin e n k => exact absurd hp (hspin e n k)
      | _ => rfl
  | stop c => exact absurd ⟨c, rfl⟩ hstop
  | send c => simp only [SState.step]; exact if_neg he
  | expire => exact absurd rfl hw.1
  | cancel => exact absurd rfl hw.2

/-- Each step brings the end nearer, or changes nothing. -/
theorem left_or_same {P : Ans → Prop} {tbl : GoMap Nat Nat} {groups : List (List Nat)} {cs : List AClient} {N : Nat → Nat}
    (hall : AllClients groups cs) {s : RunSt} (h : Parts P tbl groups cs s) (a : RAct)
    (hb : IterLe cs N (s.step tbl groups cs a)) (hw : a.Quiet) :
    s.step tbl groups cs a = s ∨ runLeft tbl groups cs N (s.step tbl groups cs a) < runLeft tbl groups cs N s := by
  by_cases he : s.Enabled a
  · exact .inr (runLeft_step hall h a hb he)
  · cases a with
    | stage a => exact .inl (not_enabled h a hw he)
    | client c a =>
      by_cases hr : s.stage.st c = .running
      · exact (client_left hall h c a hb hr).imp And.left id
      · left; simp only [RunSt.step]; exact if_neg hr

/-- Until the stage has ended, there is a step that can be made: of the stage, of the channel or of a client. -/
theorem progress {P : Ans → Prop} {tbl : GoMap Nat Nat} {groups : List (List Nat)} {cs : List AClient}
    {s : RunSt} (h : Parts P tbl groups cs s) (hne : s.stage.pc ≠ .ended) :
    s.Enabled (.stage .next) ∨ s.Enabled (.stage .recv) ∨ (∃ c, s.Enabled (.stage (.send c))) ∨
      ∃ c, ∀ a, a.connOk = true → s.Enabled (.client c a) := by
  have hq := h.seq
  cases hp : s.stage.pc with
  | ended => exact absurd hp hne
  | head e => left; simp [RunSt.Enabled, hp]
  | start e j n => left; simp [RunSt.Enabled, hp]
  | spin e n k =>
    have := hq.pc
    rw [hp] at this
    exact this.elim
  | wait e n =>
    cases n with
    | zero => left; simp [RunSt.Enabled, hp]
    | succ n =>
      right
      obtain ⟨as, e1⟩ := h.stage
      have hd := h.done
      have h1 := C50_no_deadlock groups as (by rw [← e1]; exact hd) e n (by rw [← e1]; exact hp)
      rw [← e1] at h1
      rcases h1 with ⟨k, h1⟩ | ⟨k, h1⟩ | ⟨k, h1⟩
      · exact .inr (.inr ⟨(e, k), fun _ h2 => ⟨h1, h2⟩⟩)
      · exact .inr (.inl ⟨(e, k), h1⟩)
      · exact .inl ⟨by rw [h1]; simp, e, n, hp⟩

/-! ### Schedules -/

/-- The state after the first `n` steps of a schedule without end. -/
def RunSt.after (tbl : GoMap Nat Nat) (groups : List (List Nat)) (cs : List AClient) (f : Nat → RAct) (n : Nat) : RunSt :=
  RunSt.init.run tbl groups cs ((List.range n).map f)

/-- Spec: in this schedule everybody gets a turn again and again: the stage, the channel and all clients, which can also
connect again and again. -/
structure Fair (f : Nat → RAct) : Prop where
  next : ∀ n, ∃ m ≥ n, f m = .stage .next
  recv : ∀ n, ∃ m ≥ n, f m = .stage .recv
  send : ∀ n c, ∃ m ≥ n, f m = .stage (.send c)
  client : ∀ n c, ∃ m ≥ n, ∃ a, f m = .client c a ∧ a.connOk = true

theorem after_succ (tbl : GoMap Nat Nat) (groups : List (List Nat)) (cs : List AClient) (f : Nat → RAct) (n : Nat) :
    RunSt.after tbl groups cs f (n + 1) = (RunSt.after tbl groups cs f n).step tbl groups cs (f n) := by
  simp [RunSt.after, List.range_succ, RunSt.run, List.foldl_append]

theorem parts_after (tbl : GoMap Nat Nat) (groups : List (List Nat)) (cs : List AClient) {f : Nat → RAct}
    (hw : ∀ n, (f n).Quiet) (n : Nat) : Parts (fun _ => True) tbl groups cs (RunSt.after tbl groups cs f n) :=
  parts_run tbl groups cs _ (by
    intro a ha
    obtain ⟨m, -, rfl⟩ := List.mem_map.1 ha
    exact hw m)

theorem ended_stays {tbl : GoMap Nat Nat} {groups : List (List Nat)} {cs : List AClient} {s : RunSt} (a : RAct)
    (h : s.stage.pc = .ended) : (s.step tbl groups cs a).stage.pc = .ended := by
  have key : ∀ a, (s.stage.step groups a).pc = .ended := by
    intro a
    cases a <;> simp only [SState.step, h] <;> (repeat' split) <;> first | exact h | (simp_all; done)
  cases a with
  | client c a =>
    simp only [RunSt.step]
    split
    · split
      · exact key _
      · exact h
    · exact h
  | stage a => cases a <;> first | exact h | exact key _

/-- Something that is possible now and comes later in the schedule: in the meantime the end comes nearer. -/
theorem comes_nearer {tbl : GoMap Nat Nat} {groups : List (List Nat)} {cs : List AClient} {N : Nat → Nat}
    (hall : AllClients groups cs) {f : Nat → RAct} (hb : ∀ n, IterLe cs N (RunSt.after tbl groups cs f n)) (hw : ∀ n, (f n).Quiet) (d : Nat) :
    ∀ n, (RunSt.after tbl groups cs f n).Enabled (f (n + d)) →
      ∃ m, runLeft tbl groups cs N (RunSt.after tbl groups cs f m) <
        runLeft tbl groups cs N (RunSt.after tbl groups cs f n) := by
  induction d with
  | zero =>
    intro n he
    refine ⟨n + 1, ?_⟩
    rw [after_succ]
    exact runLeft_step hall (parts_after tbl groups cs hw n) _ (by rw [← after_succ]; exact hb (n + 1)) he
  | succ d ih =>
    intro n he
    rcases left_or_same hall (parts_after tbl groups cs hw n) (f n)
      (by rw [← after_succ]; exact hb (n + 1)) (hw n) with hn | hn
    · have e1 : RunSt.after tbl groups cs f (n + 1) = RunSt.after tbl groups cs f n := by rw [after_succ]; exact hn
      have := ih (n + 1) (by rw [e1, Nat.add_right_comm]; exact he)
      rw [e1] at this
      exact this
    · exact ⟨n + 1, by rw [after_succ]; exact hn⟩

theorem Bounds.after {tbl : GoMap Nat Nat} {groups : List (List Nat)} {cs : List AClient} {N : Nat → Nat}
    (hb : Bounds tbl groups cs N) {f : Nat → RAct} (hw : ∀ n, (f n).Quiet) (n : Nat) :
    IterLe cs N (RunSt.after tbl groups cs f n) := by
  intro k x hx
  obtain ⟨l, ej, -⟩ := (parts_after tbl groups cs hw n).joint
  rw [ej]
  exact hb.iter k x hx l

/-- A stage whose clients have bounded iterations ends, in every schedule in which everybody gets a turn again
and again, whatever fails. -/
theorem bounded_ends {tbl : GoMap Nat Nat} {groups : List (List Nat)} {cs : List AClient} {N : Nat → Nat}
    (hall : AllClients groups cs) {f : Nat → RAct} (hb : ∀ n, IterLe cs N (RunSt.after tbl groups cs f n)) (hw : ∀ n, (f n).Quiet) (hf : Fair f) :
    ∃ n, ∀ m ≥ n, (RunSt.after tbl groups cs f m).stage.pc = .ended := by
  have hend : ∃ n, (RunSt.after tbl groups cs f n).stage.pc = .ended := by
    by_contra hno
    push Not at hno
    have key : ∀ M n, runLeft tbl groups cs N (RunSt.after tbl groups cs f n) = M → False := by
      intro M
      induction M using Nat.strong_induction_on with
      | _ M ih =>
        intro n hM
        have : ∃ m, runLeft tbl groups cs N (RunSt.after tbl groups cs f m) <
            runLeft tbl groups cs N (RunSt.after tbl groups cs f n) := by
          have hd : ∀ m ≥ n, (RunSt.after tbl groups cs f n).Enabled (f m) → _ := fun m hm he =>
            comes_nearer hall hb hw (m - n) n (by rw [Nat.add_sub_cancel' hm]; exact he)
          rcases progress (parts_after tbl groups cs hw n) (hno n) with h | h | ⟨c, h⟩ | ⟨c, h⟩
          · obtain ⟨m, hm, e⟩ := hf.next n
            exact hd m hm (by rw [e]; exact h)
          · obtain ⟨m, hm, e⟩ := hf.recv n
            exact hd m hm (by rw [e]; exact h)
          · obtain ⟨m, hm, e⟩ := hf.send n c
            exact hd m hm (by rw [e]; exact h)
          · obtain ⟨m, hm, a, e, ho⟩ := hf.client n c
            exact hd m hm (by rw [e]; exact h a ho)
        obtain ⟨m, hm⟩ := this
        exact ih _ (by omega) m rfl
    exact key _ 0 rfl
  obtain ⟨n, hn⟩ := hend
  refine ⟨n, fun m hm => ?_⟩
  induction m, hm using Nat.le_induction with
  | base => exact hn
  | succ m _ ih => rw [after_succ]; exact ended_stays _ ih

/-! ### The clients of a workload -/

/-- Spec: the numbers of clients of the client groups, by execution group. -/
def clientNums (res : List (List ACGroup)) : List (List Nat) := res.map fun cgs => cgs.map fun g => g.clients.length

theorem stageClients_cons (cgs : List ACGroup) (res : List (List ACGroup)) :
    stageClients (cgs :: res) = cgs.flatMap (·.clients) ++ stageClients res := by
  simp [stageClients]

theorem clientNums_length (cgs : List ACGroup) :
    (cgs.flatMap (·.clients)).length = (cgs.map fun g => g.clients.length).sum := by
  rw [List.length_flatMap]

theorem flat_at {cgs : List ACGroup} {k : Nat} {x : AClient} (h : (cgs.flatMap (·.clients))[k]? = some x) :
    ∃ (j c : Nat) (acg : ACGroup), cgs[j]? = some acg ∧ acg.clients[c]? = some x := by
  obtain ⟨acg, h1, h2⟩ := List.mem_flatMap.mp (List.mem_of_getElem? h)
  obtain ⟨j, hj⟩ := List.mem_iff_getElem?.mp h1
  obtain ⟨c, hc⟩ := List.mem_iff_getElem?.mp h2
  exact ⟨j, c, acg, hj, hc⟩

/-- The goroutine number `k` of execution group `e` is that of a client of execution group `e`. -/
theorem client_of_go : ∀ (res : List (List ACGroup)) (e k : Nat), k < clientsOf (clientNums res) e →
    ∃ x j c, (stageClients res)[goIndex (clientNums res) (e, k)]? = some x ∧ ClientAt res e j c x
  | [], e, k, h => by simp [clientsOf, clientNums] at h
  | cgs :: res, 0, k, h => by
    have hk : k < (cgs.flatMap (·.clients)).length := by
      rw [clientNums_length]
      simpa [clientsOf, clientNums] using h
    obtain ⟨j, c, acg, h1, h2⟩ := flat_at (List.getElem?_eq_getElem hk)
    refine ⟨_, j, c, ?_, cgs, acg, rfl, h1, h2⟩
    rw [stageClients_cons, show goIndex (clientNums (cgs :: res)) (0, k) = k by simp [goIndex],
      List.getElem?_append_left hk, List.getElem?_eq_getElem hk]
  | cgs :: res, e + 1, k, h => by
    have h' : k < clientsOf (clientNums res) e := h
    obtain ⟨x, j, c, h1, cg, acg, h2, h3, h4⟩ := client_of_go res e k h'
    refine ⟨x, j, c, ?_, cg, acg, h2, h3, h4⟩
    rw [stageClients_cons, show clientNums (cgs :: res) = (cgs.map fun g => g.clients.length) :: clientNums res from rfl,
      goIndex_cons, ← clientNums_length, List.getElem?_append_right (Nat.le_add_right _ _), Nat.add_sub_cancel_left]
    exact h1

/-- Each client of execution group `e` has a goroutine of execution group `e`. -/
theorem go_of_client : ∀ (res : List (List ACGroup)) (i : Nat) (x : AClient), (stageClients res)[i]? = some x →
    ∃ e k j c, k < clientsOf (clientNums res) e ∧ goIndex (clientNums res) (e, k) = i ∧ ClientAt res e j c x
  | [], i, x, h => by simp [stageClients] at h
  | cgs :: res, i, x, h => by
    rw [stageClients_cons] at h
    by_cases hi : i < (cgs.flatMap (·.clients)).length
    · rw [List.getElem?_append_left hi] at h
      obtain ⟨j, c, acg, h1, h2⟩ := flat_at h
      refine ⟨0, i, j, c, ?_, by simp [goIndex], cgs, acg, rfl, h1, h2⟩
      rw [clientNums_length] at hi
      simpa [clientsOf, clientNums] using hi
    · rw [List.getElem?_append_right (by omega)] at h
      obtain ⟨e, k, j, c, h1, h2, cg, acg, h3, h4, h5⟩ := go_of_client res _ x h
      refine ⟨e + 1, k, j, c, h1, ?_, cg, acg, h3, h4, h5⟩
      rw [show clientNums (cgs :: res) = (cgs.map fun g => g.clients.length) :: clientNums res from rfl,
        goIndex_cons, ← clientNums_length]
      omega

/-! ### Limits -/

theorem CState.iter_le (c : Cli) (h : 0 < c.iter) (as : List Ans) : (CState.init.run c as).iter ≤ c.iter := by
  refine CState.run_inv (P := fun s => s.iter ≤ c.iter) ?_ as CState.init (Nat.zero_le _)
  intro s a s' hst hs
  rcases iter_step hst with e | ⟨e, hne⟩
  · omega
  · have := hne h; omega

theorem away_iter {c : Cli} {s : CState} (a : Ans) (hh : s.pc ≠ .head) : (s.step c a).iter = s.iter := by
  have hstep := CState.step_cases c s a
  generalize s.step c a = s' at hstep
  cases hstep
  case iterate hpc _ => exact absurd hpc hh
  all_goals rfl

theorem addIter_cases (o : Option (Nat × Nat)) (ctr : Nat → Nat) (p : Nat) :
    ((addIter o ctr).1 p = ctr p ∧ (∀ lim, 0 < lim → o ≠ some (lim, p))) ∨
    ((addIter o ctr).1 p = u32 (ctr p + 1) ∧ ∃ lim, 0 < lim ∧ o = some (lim, p) ∧
      (addIter o ctr).2.1 = u32 (ctr p + 1) ∧ ((addIter o ctr).2.2 = true ↔ lim < u32 (ctr p + 1))) := by
  rcases o with _ | ⟨lim, q⟩
  · left; simp [addIter]
  · by_cases hpos : 0 < lim
    · by_cases hq : q = p
      · subst hq
        right
        simp only [addIter, gt_iff_lt, hpos, if_true, upd_same, decide_eq_true_eq]
        exact ⟨trivial, lim, hpos, rfl, trivial, Iff.rfl⟩
      · left
        simp only [addIter, gt_iff_lt, hpos, if_true]
        refine ⟨upd_ne _ _ (Ne.symm hq), ?_⟩
        rintro l - h
        cases h
        exact hq rfl
    · left
      simp only [addIter, gt_iff_lt, hpos, if_false, true_and]
      rintro l hl h
      cases h
      exact hpos hl

theorem addIter_over {o : Option (Nat × Nat)} {ctr : Nat → Nat} (h : (addIter o ctr).2.2 = true) :
    ∃ lim q, o = some (lim, q) ∧ 0 < lim ∧ (addIter o ctr).2.1 > lim := by
  rcases o with _ | ⟨lim, q⟩
  · simp [addIter] at h
  · by_cases hpos : 0 < lim
    · simp only [addIter, gt_iff_lt, hpos, if_true, decide_eq_true_eq] at h ⊢
      exact ⟨lim, q, rfl, hpos, h⟩
    · simp [addIter, hpos] at h

/-- A client counts an iteration with a counter only in the loop head, and stops if the counter is over the limit. -/
theorem step_counts (tbl : GoMap Nat Nat) {cs : List AClient} (s : Joint) {k : Nat} {x : AClient} (a : Ans) (p : Nat)
    (hx : cs[k]? = some x) :
    (s.step tbl cs k a).ctr p = s.ctr p ∨
    ((s.step tbl cs k a).ctr p = u32 (s.ctr p + 1) ∧ (s.cl k).pc = .head ∧
      ∃ lim, 0 < lim ∧ (x.iterExecGroup = some (lim, p) ∨ x.iterClients = some (lim, p)) ∧
        (u32 (s.ctr p + 1) ≤ lim ∨ ((s.step tbl cs k a).cl k).pc = .stopped .regular)) := by
  by_cases hh : (s.cl k).pc = .head
  · cases hph : s.ph k with
    | cg n m => left; simp [Joint.step, hx, hh, hph, Joint.go]
    | start =>
      simp only [Joint.step, hx, hh, if_true, hph]
      rcases addIter_cases x.iterExecGroup s.ctr p with ⟨h1, -⟩ | ⟨h1, lim, h2, h3, h4, h5⟩
      · left; split <;> exact h1
      · right
        by_cases hgt : lim < u32 (s.ctr p + 1)
        · rw [if_pos (h5.2 hgt)]
          refine ⟨h1, trivial, lim, h2, .inl h3, .inr ?_⟩
          simp only [Joint.go, upd_same]
          rcases head_step (c := x.cli tbl) (s := s.cl k) { a with egCount := (addIter x.iterExecGroup s.ctr).2.1, cgCount := 0 } hh
            with ⟨-, g, -⟩ | ⟨g, -⟩
          · exact g
          · have c1 : (x.cli tbl).iterExecGroup = lim := by simp [AClient.cli, h3]
            exact absurd (.inl ⟨by rw [c1]; exact h2, by rw [c1, h4]; exact hgt⟩) g
        · rw [if_neg (fun h => hgt (h5.1 h))]
          exact ⟨h1, trivial, lim, h2, .inl h3, .inl (by omega)⟩
    | eg n =>
      simp only [Joint.step, hx, hh, if_true, hph]
      rcases addIter_cases x.iterClients s.ctr p with ⟨h1, -⟩ | ⟨h1, lim, h2, h3, h4, h5⟩
      · left; split <;> exact h1
      · right
        by_cases hgt : lim < u32 (s.ctr p + 1)
        · rw [if_pos (h5.2 hgt)]
          refine ⟨h1, trivial, lim, h2, .inr h3, .inr ?_⟩
          simp only [Joint.go, upd_same]
          rcases head_step (c := x.cli tbl) (s := s.cl k) { a with egCount := n, cgCount := (addIter x.iterClients s.ctr).2.1 } hh
            with ⟨-, g, -⟩ | ⟨g, -⟩
          · exact g
          · have c1 : (x.cli tbl).iterClients = lim := by simp [AClient.cli, h3]
            exact absurd (.inr (.inl ⟨by rw [c1]; exact h2, by rw [c1, h4]; exact hgt⟩)) g
        · rw [if_neg (fun h => hgt (h5.1 h))]
          exact ⟨h1, trivial, lim, h2, .inr h3, .inl (by omega)⟩
  · left; simp [Joint.step, hx, hh, Joint.go]

/-- The clients that have stopped. -/
def stoppedNum (cs : List AClient) (s : Joint) : Nat :=
  ∑ k ∈ range cs.length, if (s.cl k).pc.isStopped then 1 else 0

theorem stoppedNum_step (tbl : GoMap Nat Nat) (cs : List AClient) (s : Joint) (k : Nat) (a : Ans) :
    stoppedNum cs s ≤ stoppedNum cs (s.step tbl cs k a) := by
  refine sum_le_sum fun j _ => ?_
  by_cases h : (s.cl j).pc.isStopped = true
  · rw [if_pos h, if_pos (stopped_stays tbl _ _ h)]
  · rw [if_neg h]; exact Nat.zero_le _

theorem stoppedNum_lt (tbl : GoMap Nat Nat) {cs : List AClient} {s : Joint} {k : Nat} (a : Ans) (hk : k < cs.length)
    (h1 : (s.cl k).pc.isStopped = false) (h2 : ((s.step tbl cs k a).cl k).pc.isStopped = true) :
    stoppedNum cs s < stoppedNum cs (s.step tbl cs k a) := by
  refine sum_lt_sum (fun j _ => ?_) ⟨k, mem_range.2 hk, by rw [h1, h2]; decide⟩
  by_cases h : (s.cl j).pc.isStopped = true
  · rw [if_pos h, if_pos (stopped_stays tbl _ _ h)]
  · rw [if_neg h]; exact Nat.zero_le _

theorem stoppedNum_le {cs : List AClient} {s : Joint} {k : Nat} (hk : k < cs.length)
    (h1 : (s.cl k).pc.isStopped = false) : stoppedNum cs s < cs.length := by
  have : stoppedNum cs s < ∑ k ∈ range cs.length, 1 := by
    refine sum_lt_sum (fun j _ => by split <;> decide) ⟨k, mem_range.2 hk, by rw [h1]; decide⟩
  simpa using this

/-- Every limit that is used with this counter is at most `M`. -/
def LimitsLe (cs : List AClient) (p M : Nat) : Prop :=
  ∀ x ∈ cs, ∀ lim, (x.iterExecGroup = some (lim, p) ∨ x.iterClients = some (lim, p)) → lim ≤ M

/-- A counter goes over the limits at most once for each client, so it does not wrap around. -/
theorem ctr_step (tbl : GoMap Nat Nat) {cs : List AClient} {s : Joint} {p M : Nat} (k : Nat) (a : Ans)
    (hM : M + cs.length < 2 ^ 32) (hle : LimitsLe cs p M) (h : s.ctr p ≤ M + stoppedNum cs s) :
    (s.step tbl cs k a).ctr p ≤ M + stoppedNum cs (s.step tbl cs k a) ∧ s.ctr p ≤ (s.step tbl cs k a).ctr p ∧
      ((s.cl k).pc = .head → k < cs.length → u32 (s.ctr p + 1) = s.ctr p + 1) := by
  have hmono := stoppedNum_step tbl cs s k a
  have hu : (s.cl k).pc = .head → k < cs.length → u32 (s.ctr p + 1) = s.ctr p + 1 := by
    intro hh hk
    have := stoppedNum_le (s := s) hk (by rw [hh]; rfl)
    exact Nat.mod_eq_of_lt (by omega)
  cases hx : cs[k]? with
  | none =>
    have : s.step tbl cs k a = s := by simp [Joint.step, hx]
    rw [this]
    exact ⟨h, Nat.le_refl _, hu⟩
  | some x =>
    have hk : k < cs.length := (List.getElem?_eq_some_iff.mp hx).1
    rcases step_counts tbl s a p hx with e | ⟨e, hh, lim, -, huse, hst⟩
    · rw [e]; exact ⟨by omega, Nat.le_refl _, hu⟩
    · have hu' := hu hh hk
      rw [e, hu']
      refine ⟨?_, by omega, fun _ _ => rfl⟩
      have hl := hle x (List.mem_of_getElem? hx) lim huse
      rcases hst with hst | hst
      · omega
      · have := stoppedNum_lt tbl a hk (by rw [hh]; rfl) (by rw [hst]; rfl)
        omega

/-- Iterations counted with iter-exec-group and not begun yet. -/
def HPh.pendE : HPh → Nat
  | .start => 0
  | _ => 1

/-- Iterations counted with iter-clients and not begun yet. -/
def HPh.pendC : HPh → Nat
  | .cg _ _ => 1
  | _ => 0

/-- A client with a shared limit, among others, begins at most as many iterations as the limit says. -/
theorem any_iter_le (tbl : GoMap Nat Nat) (cs : List AClient) {L p M : Nat} (hpos : 0 < L)
    (hM : M + cs.length < 2 ^ 32) (hle : LimitsLe cs p M) {k : Nat} {x : AClient} (hx : cs[k]? = some x)
    (hu : x.iterExecGroup = some (L, p) ∨ x.iterClients = some (L, p)) (l : List (Nat × Ans)) :
    ((Joint.init.run tbl cs l).cl k).iter ≤ L := by
  have hk : k < cs.length := (List.getElem?_eq_some_iff.mp hx).1
  have hinit : (Joint.init.ctr p) ≤ M + stoppedNum cs Joint.init := by simp [Joint.init]
  rcases hu with hu | hu
  · suffices h : (Joint.init.run tbl cs l).ctr p ≤ M + stoppedNum cs (Joint.init.run tbl cs l) ∧
        ((Joint.init.run tbl cs l).cl k).iter + ((Joint.init.run tbl cs l).ph k).pendE ≤ L ∧
        ((Joint.init.run tbl cs l).cl k).iter + ((Joint.init.run tbl cs l).ph k).pendE ≤
          (Joint.init.run tbl cs l).ctr p by omega
    refine Joint.run_inv (tbl := tbl) (cs := cs) (P := fun s => s.ctr p ≤ M + stoppedNum cs s ∧
        (s.cl k).iter + (s.ph k).pendE ≤ L ∧ (s.cl k).iter + (s.ph k).pendE ≤ s.ctr p) ?_ l Joint.init
        ⟨hinit, by simp [Joint.init, CState.init, HPh.pendE], by simp [Joint.init, CState.init, HPh.pendE]⟩
    rintro s j a ⟨h1, h2, h3⟩
    obtain ⟨c1, c2, c3⟩ := ctr_step tbl j a hM hle h1
    refine ⟨c1, ?_⟩
    by_cases hj : k = j
    · subst hj
      suffices h : ((s.step tbl cs k a).cl k).iter + ((s.step tbl cs k a).ph k).pendE ≤ (s.cl k).iter + (s.ph k).pendE ∨
          (((s.step tbl cs k a).cl k).iter + ((s.step tbl cs k a).ph k).pendE ≤ (s.step tbl cs k a).ctr p ∧
            ((s.step tbl cs k a).cl k).iter + ((s.step tbl cs k a).ph k).pendE ≤ L) by
        rcases h with h | ⟨h, h'⟩ <;> omega
      by_cases hh : (s.cl k).pc = .head
      · have hu32 := c3 hh hk
        have hgo : ∀ (c : Nat → Nat) (n m : Nat), s.ph k ≠ .start ∨ n > L →
            (({ s with ctr := c }.go (x.cli tbl) k a n m).cl k).iter +
              (({ s with ctr := c }.go (x.cli tbl) k a n m).ph k).pendE ≤ (s.cl k).iter + (s.ph k).pendE := by
          intro c n m hp
          simp only [Joint.go, upd_same, HPh.pendE, Nat.add_zero]
          rcases head_step (c := x.cli tbl) (s := s.cl k) { a with egCount := n, cgCount := m } hh
            with ⟨-, -, g⟩ | ⟨g', -, g⟩
          · rw [g]; omega
          · rw [g]
            rcases hp with hp | hp
            · revert hp; cases s.ph k <;> simp
            · have c1 : (x.cli tbl).iterExecGroup = L := by simp [AClient.cli, hu]
              exact absurd (.inl ⟨by rw [c1]; exact hpos, by rw [c1]; exact hp⟩) g'
        cases hph : s.ph k with
        | cg n m =>
          left
          have e1 : s.step tbl cs k a = { s with ctr := s.ctr }.go (x.cli tbl) k a n m := by
            simp [Joint.step, hx, hh, hph]
          rw [e1, ← hph]
          exact hgo _ n m (.inl (by rw [hph]; simp))
        | eg n =>
          left
          rw [← hph]
          simp only [Joint.step, hx, hh, if_true, hph]
          split
          · rw [← hph]
            exact hgo _ n _ (.inl (by rw [hph]; simp))
          · simp [upd_same, HPh.pendE]
        | start =>
          rcases addIter_cases x.iterExecGroup s.ctr p with ⟨-, h4⟩ | ⟨e1, lim, h4, h5, h6, h7⟩
          · exact absurd hu (h4 L hpos)
          · rw [hu] at h5
            cases h5
            by_cases hgt : L < u32 (s.ctr p + 1)
            · left
              rw [← hph]
              simp only [Joint.step, hx, hh, if_true, hph]
              rw [if_pos (h7.2 hgt), ← hph]
              exact hgo _ _ _ (.inr (by rw [h6]; exact hgt))
            · right
              rw [hph] at h2 h3
              simp only [Joint.step, hx, hh, if_true, hph]
              rw [if_neg (fun h => hgt (h7.1 h))]
              simp only [upd_same, HPh.pendE, e1] at h2 h3 ⊢
              omega
      · left
        have e1 : s.step tbl cs k a = s.go (x.cli tbl) k a 0 0 := by simp [Joint.step, hx, hh]
        rw [e1]
        simp only [Joint.go, upd_same, away_iter _ hh, HPh.pendE]
        omega
    · obtain ⟨o1, o2⟩ := Joint.step_other tbl cs s a hj
      rw [o1, o2]
      exact ⟨h2, by omega⟩
  · suffices h : (Joint.init.run tbl cs l).ctr p ≤ M + stoppedNum cs (Joint.init.run tbl cs l) ∧
        ((Joint.init.run tbl cs l).cl k).iter + ((Joint.init.run tbl cs l).ph k).pendC ≤ L ∧
        ((Joint.init.run tbl cs l).cl k).iter + ((Joint.init.run tbl cs l).ph k).pendC ≤
          (Joint.init.run tbl cs l).ctr p by omega
    refine Joint.run_inv (tbl := tbl) (cs := cs) (P := fun s => s.ctr p ≤ M + stoppedNum cs s ∧
        (s.cl k).iter + (s.ph k).pendC ≤ L ∧ (s.cl k).iter + (s.ph k).pendC ≤ s.ctr p) ?_ l Joint.init
        ⟨hinit, by simp [Joint.init, CState.init, HPh.pendC], by simp [Joint.init, CState.init, HPh.pendC]⟩
    rintro s j a ⟨h1, h2, h3⟩
    obtain ⟨c1, c2, c3⟩ := ctr_step tbl j a hM hle h1
    refine ⟨c1, ?_⟩
    by_cases hj : k = j
    · subst hj
      suffices h : ((s.step tbl cs k a).cl k).iter + ((s.step tbl cs k a).ph k).pendC ≤ (s.cl k).iter + (s.ph k).pendC ∨
          (((s.step tbl cs k a).cl k).iter + ((s.step tbl cs k a).ph k).pendC ≤ (s.step tbl cs k a).ctr p ∧
            ((s.step tbl cs k a).cl k).iter + ((s.step tbl cs k a).ph k).pendC ≤ L) by
        rcases h with h | ⟨h, h'⟩ <;> omega
      by_cases hh : (s.cl k).pc = .head
      · have hu32 := c3 hh hk
        have hgo : ∀ (c : Nat → Nat) (n m : Nat), (∃ n' m', s.ph k = .cg n' m') ∨ m > L ∨
              (0 < (x.cli tbl).iterExecGroup ∧ n > (x.cli tbl).iterExecGroup) →
            (({ s with ctr := c }.go (x.cli tbl) k a n m).cl k).iter +
              (({ s with ctr := c }.go (x.cli tbl) k a n m).ph k).pendC ≤ (s.cl k).iter + (s.ph k).pendC := by
          intro c n m hp
          simp only [Joint.go, upd_same]
          rcases head_step (c := x.cli tbl) (s := s.cl k) { a with egCount := n, cgCount := m } hh
            with ⟨-, -, g⟩ | ⟨g', -, g⟩
          · rw [g]; simp only [HPh.pendC]; omega
          · rw [g]
            rcases hp with ⟨n', m', hp⟩ | hp | hp
            · rw [hp]; simp [HPh.pendC]
            · have c1 : (x.cli tbl).iterClients = L := by simp [AClient.cli, hu]
              exact absurd (.inr (.inl ⟨by rw [c1]; exact hpos, by rw [c1]; exact hp⟩)) g'
            · exact absurd (.inl hp) g'
        cases hph : s.ph k with
        | cg n m =>
          left
          have e1 : s.step tbl cs k a = { s with ctr := s.ctr }.go (x.cli tbl) k a n m := by
            simp [Joint.step, hx, hh, hph]
          rw [e1, ← hph]
          exact hgo _ n m (.inl ⟨n, m, hph⟩)
        | start =>
          left
          rw [← hph]
          simp only [Joint.step, hx, hh, if_true, hph]
          split
          · rename_i hov
            rw [← hph]
            refine hgo _ _ _ (.inr (.inr ?_))
            obtain ⟨lim, q, g1, g2, g3⟩ := addIter_over hov
            have : (x.cli tbl).iterExecGroup = lim := by simp [AClient.cli, g1]
            rw [this]
            exact ⟨g2, g3⟩
          · simp [upd_same, HPh.pendC]
        | eg n =>
          rcases addIter_cases x.iterClients s.ctr p with ⟨-, h4⟩ | ⟨e1, lim, h4, h5, h6, h7⟩
          · exact absurd hu (h4 L hpos)
          · rw [hu] at h5
            cases h5
            by_cases hgt : L < u32 (s.ctr p + 1)
            · left
              rw [← hph]
              simp only [Joint.step, hx, hh, if_true, hph]
              rw [if_pos (h7.2 hgt), ← hph]
              exact hgo _ _ _ (.inr (.inl (by rw [h6]; exact hgt)))
            · right
              rw [hph] at h2 h3
              simp only [Joint.step, hx, hh, if_true, hph]
              rw [if_neg (fun h => hgt (h7.1 h))]
              simp only [upd_same, HPh.pendC, e1] at h2 h3 ⊢
              omega
      · left
        have e1 : s.step tbl cs k a = s.go (x.cli tbl) k a 0 0 := by simp [Joint.step, hx, hh]
        rw [e1]
        simp only [Joint.go, upd_same, away_iter _ hh, HPh.pendC]
        omega
    · obtain ⟨o1, o2⟩ := Joint.step_other tbl cs s a hj
      rw [o1, o2]
      exact ⟨h2, by omega⟩

/-- Spec: no trx of the client group has a data limit. -/
def NoDataLimit (env : WEnv) (cg : CGCfg) : Prop := ∀ t ∈ cg.trx, ∀ x ∈ (env.stmts t).getD [], x.limit = none

/-- Spec: every client group of the stage has an iteration limit of some kind, iter, iter-clients or iter-exec-group, alone
or together. The limits that are shared are not so near to 2^32 that the clients could count beyond it; `n` is the number of
clients of the stage. -/
def SomeLimit (w : List CGCfg) (groups : List (List Nat)) (n : Nat) : Prop :=
  ∀ e j cg, CfgAt w groups e j cg →
    (0 < finchUint cg.iter ∨ 0 < finchUint cg.iterClients ∨ 0 < finchUint cg.iterExecGroup) ∧
    finchUint cg.iterClients + n < 2 ^ 32 ∧ finchUint cg.iterExecGroup + n < 2 ^ 32

theorem some_bounds {env : WEnv} {w : List CGCfg} {q t : Nat} {s : DataScope}
    {groups : List (List Nat)} {st : WState} {res : List (List ACGroup)} (hne : NoEmptyTrx env w)
    (h : allocClients env w q t s groups = .ok (st, res)) (hlim : SomeLimit w groups (stageClients res).length)
    (tbl : GoMap Nat Nat) : ∃ N, Bounds tbl (clientNums res) (stageClients res) N := by
  have hle : ∀ p, LimitsLe (stageClients res) p (2 ^ 32 - 1 - (stageClients res).length) := by
    intro p x hx lim hu
    obtain ⟨e, j, c, hat⟩ := mem_stageClients hx
    obtain ⟨cg, hcg, -, hok⟩ := allocClients_at hne h hat
    obtain ⟨-, h2, h3⟩ := hlim e j cg hcg
    have hsh : ∀ {n r : Nat}, n + (stageClients res).length < 2 ^ 32 → sharedIter n r = some (lim, p) →
        lim ≤ 2 ^ 32 - 1 - (stageClients res).length := by
      intro n r hn hs
      unfold sharedIter at hs
      split at hs
      · cases hs
        rw [Nat.mod_eq_of_lt (by omega)]
        omega
      · cases hs
    rw [hok.iterExecGroup, hok.iterClients] at hu
    rcases hu with hu | hu
    · exact hsh h3 hu
    · exact hsh h2 hu
  have key : ∀ k, ∃ n, ∀ x, (stageClients res)[k]? = some x → ∀ l,
      ((Joint.init.run tbl (stageClients res) l).cl k).iter ≤ n := by
    intro k
    cases hx : (stageClients res)[k]? with
    | none => exact ⟨0, fun x h => by cases h⟩
    | some x =>
      have hm := List.mem_of_getElem? hx
      obtain ⟨e, j, c, hat⟩ := mem_stageClients hm
      obtain ⟨cg, hcg, -, hok⟩ := allocClients_at hne h hat
      obtain ⟨hhas, hb1, hb2⟩ := hlim e j cg hcg
      rcases hhas with h1 | h1 | h1
      · refine ⟨finchUint cg.iter, ?_⟩
        rintro y hy l
        cases hy
        obtain ⟨as, ha⟩ := Joint.client_run tbl l hx
        rw [ha, ← hok.iter]
        exact CState.iter_le (x.cli tbl) (by show 0 < x.iter; rw [hok.iter]; exact h1) as
      · refine ⟨finchUint cg.iterClients, ?_⟩
        rintro y hy l
        cases hy
        exact any_iter_le tbl _ h1 (by omega) (hle _) hx (.inr (by rw [hok.iterClients]; exact sharedIter_pos h1 (by omega))) l
      · refine ⟨finchUint cg.iterExecGroup, ?_⟩
        rintro y hy l
        cases hy
        exact any_iter_le tbl _ h1 (by omega) (hle _) hx (.inl (by rw [hok.iterExecGroup]; exact sharedIter_pos h1 (by omega))) l
  choose N hN using key
  refine ⟨N, ?_, fun k x hx l => hN k x hx l⟩
  rintro ⟨e, k⟩ hk
  obtain ⟨x, -, -, hx, -⟩ := client_of_go res e k hk
  exact ⟨x, hx⟩

/-! ### The claims -/

/-- **C130, a stage with iteration limits ends by itself.** A workload in which every client group has an iteration limit
of some kind; trx may also have data limits. In every schedule in which the stage, the channel and all clients get a turn
again and again, and clients can connect again and again, `Stage.Run` comes to its end after finitely many steps, and nothing
else happens then. This is so whatever queries fail, also if all of them do. -/
theorem C130_ends {env : WEnv} {w : List CGCfg} {q t : Nat} {s : DataScope}
    {groups : List (List Nat)} {st : WState} {res : List (List ACGroup)} (hne : NoEmptyTrx env w)
    (h : allocClients env w q t s groups = .ok (st, res)) (hlim : SomeLimit w groups (stageClients res).length)
    (tbl : GoMap Nat Nat) {f : Nat → RAct} (hw : ∀ n, (f n).Quiet) (hf : Fair f) :
    ∃ n, ∀ m ≥ n, (RunSt.init.run tbl (clientNums res) (stageClients res) ((List.range m).map f)).stage.pc = .ended := by
  obtain ⟨N, hb⟩ := some_bounds hne h hlim tbl
  exact bounded_ends hb.all (fun n => hb.after hw n) hw hf

/-- What is true of a client when the stage has ended. -/
theorem ended_client {env : WEnv} {w : List CGCfg} {q t : Nat} {s : DataScope}
    {groups : List (List Nat)} {st : WState} {res : List (List ACGroup)} {tfs : List TrxFile}
    {set : TrxSet} {keys : GoMap String TKey} (hl : loadTrx ⟨[], GoMap.empty, GoMap.empty, keys⟩ tfs = .ok set)
    (hs : env.stmts = set.statements) (hne : NoEmptyTrx env w)
    (hidle : ∀ cg ∈ w, ∀ n ∈ cg.trx, ∀ x, ((env.stmts n).getD [])[0]? = some x → x.idle = 0)
    (h : allocClients env w q t s groups = .ok (st, res))
    (tbl : GoMap Nat Nat) {r : RunSt} (hp : Parts GoesOk tbl (clientNums res) (stageClients res) r)
    (hend : r.stage.pc = .ended) {k : Nat} {x : AClient} (hx : (stageClients res)[k]? = some x) :
    (r.joint.cl k).pc = .stopped .regular ∧ ∀ i code, CEv.failed i code ∉ (r.joint.cl k).trace := by
  obtain ⟨e, i, j, c, hi, hg, hat⟩ := go_of_client res k x hx
  obtain ⟨as, es⟩ := hp.stage
  have hd := hp.done
  have hrec := C50_all_clients_run (clientNums res) as (by rw [← es]; exact hd) (by rw [← es]; exact hend) (e, i) hi
  rw [← es] at hrec
  have hov := hp.over (e, i) (by rw [hrec]; rfl)
  rw [hg] at hov
  obtain ⟨l, ej, hl'⟩ := hp.joint
  have hwi := wellInv_run (tbl := tbl) hx l hl' (Nat.le_refl _)
  rw [← ej] at hwi
  refine ⟨?_, hwi.ok⟩
  obtain ⟨as', ha⟩ := Joint.client_run tbl l hx
  have hnp := C119_no_panic_partial (x.cli tbl) (C119_sound_partial hl hs hne hidle h hat tbl) as'
  rw [← ha, ← ej] at hnp
  have hpc := hwi.pc
  revert hov hnp hpc
  cases (r.joint.cl k).pc with
  | stopped y =>
    intro _ hnp hpc
    rcases hpc with rfl | rfl
    · rfl
    · exact absurd rfl hnp
  | _ => intro hov; cases hov

/-- **C130, the stage is complete when it ends.** For trx files that were loaded and do not begin with an idle entry: in
every schedule in which no query fails, when `Stage.Run` has come to its end, all clients of all execution groups have
stopped by themselves after no failed statement. If there are no data limits: a client of a client group with iter alone has
begun exactly that many iterations; the clients of a client group with iter-clients alone together exactly that many; and the
clients of an execution group with iter-exec-group alone together exactly that many. What a client group with statistics has recorded,
of any trx and any class, is its iterations times the number of those statements of an iteration. -/
theorem C130_complete {env : WEnv} {w : List CGCfg} {q t : Nat} {s : DataScope}
    {groups : List (List Nat)} {st : WState} {res : List (List ACGroup)} {tfs : List TrxFile}
    {set : TrxSet} {keys : GoMap String TKey} (hl : loadTrx ⟨[], GoMap.empty, GoMap.empty, keys⟩ tfs = .ok set)
    (hs : env.stmts = set.statements) (hne : NoEmptyTrx env w)
    (hidle : ∀ cg ∈ w, ∀ n ∈ cg.trx, ∀ x, ((env.stmts n).getD [])[0]? = some x → x.idle = 0)
    (h : allocClients env w q t s groups = .ok (st, res)) (hlim : SomeLimit w groups (stageClients res).length)
    (tbl : GoMap Nat Nat) (as : List RAct) (hw : ∀ a ∈ as, a.Well)
    (hend : (RunSt.init.run tbl (clientNums res) (stageClients res) as).stage.pc = .ended) :
    let J := (RunSt.init.run tbl (clientNums res) (stageClients res) as).joint
    (∀ (k : Nat) x, (stageClients res)[k]? = some x →
      (J.cl k).pc = .stopped .regular ∧ ∀ i code, CEv.failed i code ∉ (J.cl k).trace) ∧
    ∀ e j cg, CfgAt w groups e j cg →
      (NoDataLimit env cg → 0 < finchUint cg.iter → finchUint cg.iterClients = 0 → finchUint cg.iterExecGroup = 0 →
        ∀ (k : Nat) x, (stageClients res)[k]? = some x → InGroup e j x → (J.cl k).iter = finchUint cg.iter) ∧
      (NoDataLimit env cg → (∃ x ∈ stageClients res, InGroup e j x) → finchUint cg.iter = 0 → finchUint cg.iterExecGroup = 0 →
        begunBy (stageClients res) (InGroup e j) J = finchUint cg.iterClients) ∧
      ((∃ x ∈ stageClients res, InExecGroup e x) → (∀ j' cg', CfgAt w groups e j' cg' → NoDataLimit env cg' ∧
          finchUint cg'.iter = 0 ∧ finchUint cg'.iterClients = 0 ∧
          finchUint cg'.iterExecGroup = finchUint cg.iterExecGroup) →
        begunBy (stageClients res) (InExecGroup e) J = finchUint cg.iterExecGroup) ∧
      (NoDataLimit env cg → env.withStats = true → cg.disableStats = false → ∀ name cls,
        recordedBy (stageClients res) (InGroup e j) J name cls =
          begunBy (stageClients res) (InGroup e j) J * (perIteration env.stmts cg.trx).count (name, cls)) := by
  intro J
  have hp := parts_run tbl (clientNums res) (stageClients res) as hw
  have hreg : ∀ (k : Nat) x, (stageClients res)[k]? = some x →
      (J.cl k).pc = .stopped .regular ∧ ∀ i code, CEv.failed i code ∉ (J.cl k).trace :=
    fun k x hx => ended_client hl hs hne hidle h tbl hp hend hx
  obtain ⟨l, ej, -⟩ := hp.joint
  have ej : J = Joint.init.run tbl (stageClients res) l := ej
  refine ⟨hreg, fun e j cg hcg => ⟨?_, ?_, ?_, ?_⟩⟩
  · intro hnd h1 h2 h3 k x hx hin
    obtain ⟨as', ha⟩ := Joint.client_run tbl l hx
    obtain ⟨e', j', c', hat⟩ := mem_stageClients (List.mem_of_getElem? hx)
    obtain ⟨cg', hcg', -, hok⟩ := allocClients_at hne h hat
    have hin' := hin
    rw [InGroup, hok.at_] at hin'
    dsimp only at hin'
    have e1 : e' = e := by omega
    have e2 : j' = j := by omega
    subst e1 e2
    cases cfgAt_eq hcg hcg'
    obtain ⟨r1, r2⟩ := hreg k x hx
    rw [ej, ha] at r1 ⊢
    have c1 : (x.cli tbl).iterClients = 0 := by simp [AClient.cli, hok.iterClients, h2, sharedIter]
    have c2 : (x.cli tbl).iterExecGroup = 0 := by simp [AClient.cli, hok.iterExecGroup, h3, sharedIter]
    have c3 : (x.cli tbl).iter = finchUint cg.iter := hok.iter
    obtain ⟨done, cur, -, -, -, i4⟩ := orderInv_run (x.cli tbl) as'
    rw [r1] at i4
    rcases i4 with ⟨-, hl⟩ | ⟨i, y, -, hst, hs⟩
    · rcases hl with h | h | h
      · omega
      · omega
      · rw [h.2, c3]
    · have hy : y ∈ x.statements := List.mem_of_getElem? hst
      rw [hok.statements] at hy
      obtain ⟨n, hn, hy⟩ := List.mem_flatMap.mp hy
      rw [hnd n hn y hy] at hs
      cases hs
  · intro hnd hone h1 h2
    obtain ⟨h3, h4, -⟩ := hlim e j cg hcg
    rw [ej]
    refine C121_iter_clients hne h hcg hnd h1 h2 (by omega) h4 tbl l
      (fun k x hx _ => ⟨_, by rw [← ej]; exact (hreg k x hx).1⟩) ?_
    obtain ⟨x, hx, hin⟩ := hone
    obtain ⟨k, hk⟩ := List.getElem?_of_mem hx
    exact ⟨k, x, hk, hin, by rw [← ej]; exact (hreg k x hk).1⟩
  · intro hone hall
    obtain ⟨h3, -, h4⟩ := hlim e j cg hcg
    obtain ⟨-, h1, h2, -⟩ := hall j cg hcg
    rw [ej]
    refine C121_iter_exec_group hne h (by omega) hall h4 tbl l
      (fun k x hx _ => ⟨_, by rw [← ej]; exact (hreg k x hx).1⟩) ?_
    obtain ⟨x, hx, hin⟩ := hone
    obtain ⟨k, hk⟩ := List.getElem?_of_mem hx
    exact ⟨k, x, hk, hin, by rw [← ej]; exact (hreg k x hk).1⟩
  · intro hnd h1 h2 name cls
    rw [ej]
    exact C121_group_records_partial hne hidle h hcg h1 h2 hnd tbl l
      (fun k x hx _ => by rw [← ej]; exact hreg k x hx) name cls

/-! ### Order -/

theorem idle_before (groups : List (List Nat)) (s : SState) (a : SAct) (c : GoId)
    (h : (s.step groups a).st c = .idle) : s.st c = .idle := by
  have hgo : ∀ (st : GoId → GoSt) d x, x ≠ .idle → setGo st d x c = .idle → st c = .idle := by
    intro st d x hx h
    simp only [setGo] at h
    split at h
    · exact absurd h hx
    · exact h
  cases a <;> simp only [SState.step] at h <;> (repeat' split at h) <;>
    first
    | exact h
    | exact hgo _ _ _ (by simp) h
    | (simp only [startClients] at h; split at h <;> first | cases h | exact h)

/-- A client whose goroutine was not started has done nothing. -/
theorem idle_init (tbl : GoMap Nat Nat) (groups : List (List Nat)) (cs : List AClient) (as : List RAct)
    (hw : ∀ a ∈ as, a.Quiet) : ∀ c : GoId, c.2 < clientsOf groups c.1 →
      (RunSt.init.run tbl groups cs as).stage.st c = .idle →
      (RunSt.init.run tbl groups cs as).joint.cl (goIndex groups c) = .init := by
  induction as using List.reverseRecOn with
  | nil => intro c _ _; rfl
  | append_singleton as a ih =>
    intro c hc
    have ih := ih fun b hb => hw b (by simp [hb])
    have hp := parts_run tbl groups cs as fun b hb => hw b (by simp [hb])
    have e1 : RunSt.init.run tbl groups cs (as ++ [a]) = (RunSt.init.run tbl groups cs as).step tbl groups cs a := by
      simp [RunSt.run, List.foldl_append]
    rw [e1]
    generalize RunSt.init.run tbl groups cs as = s at *
    intro hi
    cases a with
    | stage a =>
      have hj : (s.step tbl groups cs (.stage a)).joint = s.joint := by cases a <;> rfl
      rw [hj]
      refine ih c hc ?_
      cases a with
      | stop d => exact hi
      | expire => exact idle_before groups s.stage .expire c hi
      | cancel => exact idle_before groups s.stage .cancel c hi
      | _ => exact idle_before groups s.stage _ c hi
    | client d a =>
      simp only [RunSt.step] at hi ⊢
      split at hi
      · rename_i hd
        rw [if_pos hd]
        have hci : s.stage.st c = .idle := by
          dsimp only at hi
          split at hi
          · exact idle_before groups s.stage _ c hi
          · exact hi
        have hdv : d.2 < clientsOf groups d.1 := by
          obtain ⟨bs, eb⟩ := hp.stage
          have hdn := hp.done
          rw [eb] at hdn hd
          exact C50_only_clients groups bs hdn d (by rw [hd]; simp)
        have hne : goIndex groups c ≠ goIndex groups d := by
          intro he
          obtain ⟨h1, h2⟩ := goIndex_inj groups c.1 c.2 d.1 d.2 hc hdv he
          have : c = d := Prod.ext h1 h2
          subst this
          rw [hci] at hd
          cases hd
        dsimp only
        rw [(Joint.step_other tbl cs s.joint a hne).1]
        exact ih c hc hci
      · rename_i hd
        rw [if_neg hd]
        exact ih c hc hi

/-- **C130, execution groups one after the other.** At any moment of a run, whatever fails: when a client
has done anything at all, all clients of the execution groups before its own have stopped (and so nothing of them comes
later). -/
theorem C130_in_order {env : WEnv} {w : List CGCfg} {q t : Nat} {s : DataScope}
    {groups : List (List Nat)} {st : WState} {res : List (List ACGroup)} (hne : NoEmptyTrx env w)
    (h : allocClients env w q t s groups = .ok (st, res)) (tbl : GoMap Nat Nat) (as : List RAct)
    (hw : ∀ a ∈ as, a.Quiet) {i i' : Nat} {x x' : AClient} (hx : (stageClients res)[i]? = some x)
    (hx' : (stageClients res)[i']? = some x') (hlt : x.rl.execGroup < x'.rl.execGroup)
    (hdid : (RunSt.init.run tbl (clientNums res) (stageClients res) as).joint.cl i' ≠ .init) :
    ∃ r, ((RunSt.init.run tbl (clientNums res) (stageClients res) as).joint.cl i).pc = .stopped r := by
  obtain ⟨e, k, j, c, hk, rfl, hat⟩ := go_of_client res i x hx
  obtain ⟨e', k', j', c', hk', rfl, hat'⟩ := go_of_client res i' x' hx'
  obtain ⟨cg, -, -, hok⟩ := allocClients_at hne h hat
  obtain ⟨cg', -, -, hok'⟩ := allocClients_at hne h hat'
  rw [hok.at_, hok'.at_] at hlt
  dsimp only at hlt
  have hp := parts_run tbl (clientNums res) (stageClients res) as hw
  have hi : (RunSt.init.run tbl (clientNums res) (stageClients res) as).stage.st (e', k') ≠ .idle := fun h =>
    hdid (idle_init tbl _ _ as hw (e', k') hk' h)
  have hst := hp.over (e, k) (by
    obtain ⟨bs, eb⟩ := hp.stage
    have hdn := hp.done
    rw [eb] at hdn hi ⊢
    rw [C50_sequential_partial (clientNums res) bs hdn (e, k) (e', k') (by dsimp only; omega) hk hi]
    rfl)
  revert hst
  cases ((RunSt.init.run tbl (clientNums res) (stageClients res) as).joint.cl (goIndex (clientNums res) (e, k))).pc with
  | stopped r => intro _; exact ⟨r, rfl⟩
  | _ => intro hst; cases hst

/-! ### An example -/

/-- One round: everybody gets a turn. -/
def exRound : List RAct :=
  [.stage .next, .client (0, 1) okAns, .client (0, 0) okAns, .client (0, 2) okAns, .client (1, 0) okAns,
   .stage (.send (0, 0)), .stage .recv, .stage (.send (0, 1)), .stage .recv, .stage (.send (0, 2)), .stage .recv,
   .stage (.send (1, 0)), .stage .recv]

def exStageRun (n : Nat) : RunSt :=
  RunSt.init.run GoMap.empty (clientNums exGroupRes) (stageClients exGroupRes) (List.replicate n exRound).flatten

/-- The workload of `Verif.Props.JointGroups`: three clients in two client groups of the first execution group, one in the
second. After twenty rounds the second execution group has not begun; after eighty the stage has ended, with five
iterations of the first execution group and one of the client of the second. -/
example : clientNums exGroupRes = [[2, 1], [1]] ∧
    ((exStageRun 20).joint.cl 3).trace = [] ∧ (exStageRun 20).stage.pc ≠ .ended ∧
    (exStageRun 80).stage.pc = .ended ∧
    (List.range 4).map (fun k => (((exStageRun 80).joint.cl k).pc, ((exStageRun 80).joint.cl k).iter)) =
      [(.stopped .regular, 1), (.stopped .regular, 2), (.stopped .regular, 2), (.stopped .regular, 1)] := by
  decide +kernel

/-- A schedule in which everybody gets a turn again and again, and every second query fails. -/
def exFair (n : Nat) : RAct :=
  if n.unpair.1 % 4 = 0 then .stage .next
  else if n.unpair.1 % 4 = 1 then .stage .recv
  else if n.unpair.1 % 4 = 2 then .stage (.send (n.unpair.1 / 4).unpair)
  else .client (n.unpair.1 / 4).unpair (if n.unpair.2 % 2 = 0 then okAns else { okAns with err := some 1213 })

example : Fair exFair ∧ ∀ n, (exFair n).Quiet := by
  refine ⟨⟨?_, ?_, ?_, ?_⟩, ?_⟩
  · intro n
    exact ⟨Nat.pair 0 n, Nat.right_le_pair _ _, by simp [exFair]⟩
  · intro n
    exact ⟨Nat.pair 1 n, Nat.right_le_pair _ _, by simp [exFair]⟩
  · intro n c
    refine ⟨Nat.pair (4 * Nat.pair c.1 c.2 + 2) n, Nat.right_le_pair _ _, ?_⟩
    have h1 : (4 * Nat.pair c.1 c.2 + 2) % 4 = 2 := by omega
    have h2 : (4 * Nat.pair c.1 c.2 + 2) / 4 = Nat.pair c.1 c.2 := by omega
    simp [exFair, h1, h2]
  · intro n c
    refine ⟨Nat.pair (4 * Nat.pair c.1 c.2 + 3) n, Nat.right_le_pair _ _,
      if n % 2 = 0 then okAns else { okAns with err := some 1213 }, ?_, by split <;> rfl⟩
    have h1 : (4 * Nat.pair c.1 c.2 + 3) % 4 = 3 := by omega
    have h2 : (4 * Nat.pair c.1 c.2 + 3) / 4 = Nat.pair c.1 c.2 := by omega
    simp [exFair, h1, h2]
  · intro n
    unfold exFair
    (repeat' split) <;> simp [RAct.With]

/-- All client groups of the example have an iteration limit, and no data limit. -/
example : SomeLimit exGroupW [[0, 1], [2]] (stageClients exGroupRes).length ∧
    ∀ e j cg, CfgAt exGroupW [[0, 1], [2]] e j cg → NoDataLimit demoEnvW cg := by
  have hn : (stageClients exGroupRes).length = 4 := by decide +kernel
  have hall : ∀ e j cg, CfgAt exGroupW [[0, 1], [2]] e j cg →
      (e = 0 ∧ j = 0 ∧ exGroupW[0]? = some cg) ∨ (e = 0 ∧ j = 1 ∧ exGroupW[1]? = some cg) ∨
        (e = 1 ∧ j = 0 ∧ exGroupW[2]? = some cg) := by
    rintro e j cg ⟨g, r, h1, h2, h3⟩
    rcases e with _ | _ | e
    · cases h1
      rcases j with _ | _ | j
      · cases h2; exact .inl ⟨rfl, rfl, h3⟩
      · cases h2; exact .inr (.inl ⟨rfl, rfl, h3⟩)
      · simp at h2
    · cases h1
      rcases j with _ | j
      · cases h2; exact .inr (.inr ⟨rfl, rfl, h3⟩)
      · simp at h2
    · simp at h1
  have h5 : finchUint "5" = 5 := by decide +kernel
  have h0 : finchUint "" = 0 := by decide +kernel
  have h1' : finchUint "1" = 1 := by decide +kernel
  refine ⟨?_, ?_⟩
  · intro e j cg h
    rw [hn]
    rcases hall e j cg h with ⟨rfl, -, h⟩ | ⟨rfl, -, h⟩ | ⟨rfl, -, h⟩ <;> cases h <;> simp only [h0, h1', h5] <;> decide
  · intro e j cg h
    rcases hall e j cg h with ⟨rfl, -, h⟩ | ⟨rfl, -, h⟩ | ⟨rfl, -, h⟩ <;> cases h <;> unfold NoDataLimit <;> decide +kernel

/-- Limits of different kinds together. -/
example (cg : CGCfg) : SomeLimit [{ cg with iter := "3", iterClients := "4", iterExecGroup := "5" },
    { cg with iter := "", iterClients := "7", iterExecGroup := "2" }] [[0, 1]] 3 := by
  have h3 : finchUint "3" = 3 := by decide +kernel
  have h4 : finchUint "4" = 4 := by decide +kernel
  have h5 : finchUint "5" = 5 := by decide +kernel
  have h0 : finchUint "" = 0 := by decide +kernel
  have h7 : finchUint "7" = 7 := by decide +kernel
  have h2 : finchUint "2" = 2 := by decide +kernel
  rintro e j cg ⟨g, r, g1, g2, g3⟩
  rcases e with _ | e
  · cases g1
    rcases j with _ | _ | j
    · cases g2; cases g3; simp only [h3, h4, h5]; decide
    · cases g2; cases g3; simp only [h0, h7, h2]; decide
    · simp at g2
  · simp at g1

end Finch
