import Verif.Model.Remote
import Verif.Props.ComputeEnd
import Mathlib.Data.List.Induction
/-!
C93: a remote instance follows the documented protocol. C94: what the server is told. C95: when a remote instance stops.
-/
namespace Finch

/-- Done by `run` itself, not by the goroutine that pings. -/
def REv.isMain : REv → Bool
  | .ping | .cancel => false
  | _ => true

/-- Files fetched for the first `k` trx. -/
def fetched (local_ : Nat → Bool) (k : Nat) : List REv :=
  (List.range k).filterMap fun i => if local_ i then none else some (.getFile i)

/-- The documented protocol up to the acknowledgement of the boot. -/
def bootProtocol (local_ : Nat → Bool) (n : Nat) : List REv :=
  [.getBoot, .decode, .mkdir] ++ fetched local_ n ++ [.collector, .prepare false, .postBoot false]

/-- The whole protocol of a run without errors. -/
def fullProtocol (local_ : Nat → Bool) (n : Nat) : List REv :=
  bootProtocol local_ n ++ [.getRun, .start, .stopped, .postRun false, .finished false]

/-- The protocol if the stage cannot be prepared. -/
def failProtocol (local_ : Nat → Bool) (n : Nat) : List REv :=
  [.getBoot, .decode, .mkdir] ++ fetched local_ n ++ [.collector, .prepare true, .postBoot true, .finished true]

/-- What has been done, given where the instance is. -/
def doneBy (local_ : Nat → Bool) (n : Nat) : RPc → Option (List REv)
  | .getBoot => some []
  | .decode => some [.getBoot]
  | .mkdir => some [.getBoot, .decode]
  | .file i => some ([.getBoot, .decode, .mkdir] ++ fetched local_ i)
  | .collector => some ([.getBoot, .decode, .mkdir] ++ fetched local_ n)
  | .prepare => some ([.getBoot, .decode, .mkdir] ++ fetched local_ n ++ [.collector])
  | .postErr => some ([.getBoot, .decode, .mkdir] ++ fetched local_ n ++ [.collector, .prepare true])
  | .postBoot => some ([.getBoot, .decode, .mkdir] ++ fetched local_ n ++ [.collector, .prepare false])
  | .getRun => some (bootProtocol local_ n)
  | .running => some (bootProtocol local_ n ++ [.getRun, .start])
  | .postRun => some (bootProtocol local_ n ++ [.getRun, .start, .stopped])
  | .finished _ => none

/-- How a run can end: an error before the boot was acknowledged, an error reported to the server, no run
signal, a boot test, or the whole protocol. -/
def EndsSo (local_ : Nat → Bool) (n : Nat) (err : Bool) (l : List REv) : Prop :=
  (err = true ∧ ∃ p, p <+: [.getBoot, .decode, .mkdir] ++ fetched local_ n ++ [.collector] ∧ l = p ++ [.finished true]) ∨
  (err = true ∧ l = failProtocol local_ n) ∨
  (err = true ∧ l = bootProtocol local_ n ++ [.finished true]) ∨
  (err = true ∧ l = bootProtocol local_ n ++ [.getRun, .finished true]) ∨
  (err = false ∧ l = bootProtocol local_ n ++ [.getRun, .finished false]) ∨
  (err = false ∧ l = fullProtocol local_ n)

structure RemInv (local_ : Nat → Bool) (n : Nat) (s : RemSt) : Prop where
  file : ∀ i, s.pc = .file i → i ≤ n
  main : ∀ l, doneBy local_ n s.pc = some l → s.trace.filter REv.isMain = l
  fin : ∀ e, s.pc = .finished e → EndsSo local_ n e (s.trace.filter REv.isMain)
  ping : s.ping = .none → ∀ e ∈ s.trace, e.isMain = true
  pinged : s.ping ≠ .none → REv.start ∈ s.trace
  closed : s.doneClosed = true ↔ ∃ e, s.pc = .finished e
  stop : s.ping = .none → s.pc ≠ .running ∧ s.pc ≠ .postRun

theorem fetched_succ (local_ : Nat → Bool) (k : Nat) :
    fetched local_ (k + 1) = fetched local_ k ++ (if local_ k then [] else [.getFile k]) := by
  unfold fetched
  rw [List.range_succ, List.filterMap_append]
  cases h : local_ k <;> simp [h]

theorem fetched_main (local_ : Nat → Bool) (k : Nat) : (fetched local_ k).filter REv.isMain = fetched local_ k := by
  rw [List.filter_eq_self]
  intro e he
  simp only [fetched, List.mem_filterMap] at he
  obtain ⟨i, -, h⟩ := he
  split at h
  · cases h
  · cases h; rfl

theorem fetched_prefix (local_ : Nat → Bool) {k n : Nat} (h : k ≤ n) : fetched local_ k <+: fetched local_ n := by
  induction n with
  | zero => have : k = 0 := by omega
            subst this; exact List.prefix_refl _
  | succ n ih =>
    by_cases hk : k = n + 1
    · subst hk; exact List.prefix_refl _
    · rw [fetched_succ]
      exact (ih (by omega)).trans (List.prefix_append _ _)

theorem RemInv.init (local_ : Nat → Bool) (n : Nat) : RemInv local_ n {} := by
  constructor
  · intro i h; cases h
  · intro l h
    simp only [doneBy, Option.some.injEq] at h; subst h; rfl
  · intro e h; cases h
  · intro _ e h; simp at h
  · intro h; exact absurd rfl h
  · constructor
    · intro h; simp at h
    · rintro ⟨e, h⟩; cases h
  · intro _; exact ⟨by simp, by simp⟩

theorem doneBy_not_finished {local_ : Nat → Bool} {n : Nat} {pc : RPc} {l : List REv} (h : doneBy local_ n pc = some l) :
    ∀ e, pc ≠ .finished e := by
  rintro e rfl; cases h

theorem RemInv.advance {local_ : Nat → Bool} {n : Nat} {s s' : RemSt} (h : RemInv local_ n s) {l evs : List REv}
    (hl : doneBy local_ n s.pc = some l) (hd : doneBy local_ n s'.pc = some (l ++ evs))
    (hev : ∀ e ∈ evs, e.isMain = true) (ht : s'.trace = s.trace ++ evs) (hp : s'.ping = s.ping)
    (hc : s'.doneClosed = s.doneClosed) (hf : ∀ i, s'.pc = .file i → i ≤ n)
    (hr : s.ping = .none → s'.pc ≠ .running ∧ s'.pc ≠ .postRun) : RemInv local_ n s' := by
  have hm := h.main l hl
  constructor
  · exact hf
  · intro l' hl'
    rw [hd] at hl'
    cases hl'
    rw [ht, List.filter_append, hm, List.filter_eq_self.mpr hev]
  · intro e he; exact absurd he (doneBy_not_finished hd e)
  · intro hpn e he
    rw [ht] at he
    rcases List.mem_append.mp he with he | he
    · exact h.ping (hp ▸ hpn) e he
    · exact hev e he
  · intro hpn
    rw [ht]
    exact List.mem_append_left _ (h.pinged (hp ▸ hpn))
  · rw [hc, h.closed]
    constructor
    · rintro ⟨e, he⟩; exact absurd he (doneBy_not_finished hl e)
    · rintro ⟨e, he⟩; exact absurd he (doneBy_not_finished hd e)
  · intro hpn; exact hr (hp ▸ hpn)

theorem RemInv.finish {local_ : Nat → Bool} {n : Nat} {s s' : RemSt} (h : RemInv local_ n s) {l evs : List REv} {err : Bool}
    (hl : doneBy local_ n s.pc = some l) (hd : s'.pc = .finished err)
    (he : EndsSo local_ n err (l ++ evs)) (hev : ∀ e ∈ evs, e.isMain = true) (ht : s'.trace = s.trace ++ evs)
    (hp : s'.ping = s.ping) (hc : s'.doneClosed = true) : RemInv local_ n s' := by
  have hm := h.main l hl
  constructor
  · intro i hi; rw [hd] at hi; cases hi
  · intro l' hl'; rw [hd] at hl'; cases hl'
  · intro e hx
    rw [hd] at hx
    cases hx
    rw [ht, List.filter_append, hm, List.filter_eq_self.mpr hev]
    exact he
  · intro hpn e he
    rw [ht] at he
    rcases List.mem_append.mp he with he | he
    · exact h.ping (hp ▸ hpn) e he
    · exact hev e he
  · intro hpn
    rw [ht]
    exact List.mem_append_left _ (h.pinged (hp ▸ hpn))
  · rw [hc]; exact ⟨fun _ => ⟨err, hd⟩, fun _ => rfl⟩
  · intro _; rw [hd]; exact ⟨by simp, by simp⟩

/-- An end with an error before the stage is prepared. -/
theorem ends_early {local_ : Nat → Bool} {n : Nat} {p : List REv}
    (h : p <+: [.getBoot, .decode, .mkdir] ++ fetched local_ n ++ [.collector]) :
    EndsSo local_ n true (p ++ [.finished true]) := Or.inl ⟨rfl, p, h, rfl⟩

theorem RemInv.mainStep {local_ : Nat → Bool} {n : Nat} {s : RemSt} (h : RemInv local_ n s) (a : RRes) :
    RemInv local_ n (s.main local_ n a) := by
  have mm : ∀ {e : REv} {l : List REv}, e.isMain = true → (∀ x ∈ l, x.isMain = true) → ∀ x ∈ e :: l, x.isMain = true := by
    intro e l h1 h2 x hx
    rcases List.mem_cons.mp hx with rfl | hx
    · exact h1
    · exact h2 x hx
  have m0 : ∀ x ∈ ([] : List REv), x.isMain = true := fun x hx => by cases hx
  have m1 : ∀ {e : REv}, e.isMain = true → ∀ x ∈ [e], x.isMain = true := fun h => mm h m0
  unfold RemSt.main
  cases hpc : s.pc with
  | getBoot =>
    simp only
    split
    · refine h.finish (l := []) (evs := [.getBoot, .finished true]) (by rw [hpc]; rfl) rfl ?_ (mm rfl (m1 rfl))
        (by simp [RemSt.finish, RemSt.log]) rfl rfl
      exact ends_early (p := [.getBoot]) ⟨_, rfl⟩
    · exact h.advance (l := []) (evs := [.getBoot]) (by rw [hpc]; rfl) rfl (m1 rfl) rfl rfl rfl
        (fun i hi => by cases hi) (fun _ => ⟨by simp [RemSt.goto], by simp [RemSt.goto]⟩)
  | decode =>
    simp only
    split
    · exact h.advance (l := [.getBoot]) (evs := [.decode]) (by rw [hpc]; rfl) rfl (m1 rfl) rfl rfl rfl
        (fun i hi => by cases hi) (fun _ => ⟨by simp [RemSt.goto], by simp [RemSt.goto]⟩)
    · refine h.finish (l := [.getBoot]) (evs := [.decode, .finished true]) (by rw [hpc]; rfl) rfl ?_ (mm rfl (m1 rfl))
        (by simp [RemSt.finish, RemSt.log]) rfl rfl
      exact ends_early (p := [.getBoot, .decode]) ⟨_, rfl⟩
  | mkdir =>
    simp only
    split
    · refine h.finish (l := [.getBoot, .decode]) (evs := [.mkdir, .finished true]) (by rw [hpc]; rfl) rfl ?_
        (mm rfl (m1 rfl)) (by simp [RemSt.finish, RemSt.log]) rfl rfl
      exact ends_early (p := [.getBoot, .decode, .mkdir]) ⟨_, by simp; rfl⟩
    · exact h.advance (l := [.getBoot, .decode]) (evs := [.mkdir]) (by rw [hpc]; rfl) rfl (m1 rfl) rfl rfl rfl
        (fun i hi => by cases hi; exact Nat.zero_le _) (fun _ => ⟨by simp [RemSt.goto], by simp [RemSt.goto]⟩)
  | file i =>
    simp only
    have hin := h.file i hpc
    split
    · rename_i hlt
      have hs := fetched_succ local_ i
      split
      · rename_i hloc
        refine h.advance (l := [.getBoot, .decode, .mkdir] ++ fetched local_ i) (evs := []) (by rw [hpc]; rfl) ?_ m0
          (by simp [RemSt.goto]) rfl rfl (fun j hj => by cases hj; exact hlt) (fun _ => ⟨by simp [RemSt.goto], by simp [RemSt.goto]⟩)
        simp only [RemSt.goto, doneBy, hs, hloc, if_true, List.append_nil]
      · rename_i hloc
        simp only [hloc, if_false, Bool.false_eq_true] at hs
        split
        · refine h.finish (l := [.getBoot, .decode, .mkdir] ++ fetched local_ i) (evs := [.getFile i, .finished true])
            (by rw [hpc]; rfl) rfl ?_ (mm rfl (m1 rfl)) (by simp [RemSt.finish, RemSt.log]) rfl rfl
          rw [show [REv.getBoot, .decode, .mkdir] ++ fetched local_ i ++ [.getFile i, .finished true] =
            ([REv.getBoot, .decode, .mkdir] ++ fetched local_ (i + 1)) ++ [.finished true] by rw [hs]; simp]
          refine ends_early ?_
          rw [List.append_assoc]
          exact (List.prefix_append_right_inj _).mpr ((fetched_prefix local_ (by omega)).trans (List.prefix_append _ _))
        · refine h.advance (l := [.getBoot, .decode, .mkdir] ++ fetched local_ i) (evs := [.getFile i]) (by rw [hpc]; rfl) ?_
            (m1 rfl) rfl rfl rfl (fun j hj => by cases hj; exact hlt) (fun _ => ⟨by simp [RemSt.goto], by simp [RemSt.goto]⟩)
          simp only [RemSt.goto, doneBy, hs, List.append_assoc]
    · have : i = n := by omega
      subst this
      exact h.advance (l := [.getBoot, .decode, .mkdir] ++ fetched local_ i) (evs := []) (by rw [hpc]; rfl)
        (by simp [RemSt.goto, doneBy]) m0 (by simp [RemSt.goto]) rfl rfl (fun j hj => by cases hj)
        (fun _ => ⟨by simp [RemSt.goto], by simp [RemSt.goto]⟩)
  | collector =>
    simp only
    split
    · refine h.finish (l := [.getBoot, .decode, .mkdir] ++ fetched local_ n) (evs := [.collector, .finished true])
        (by rw [hpc]; rfl) rfl ?_ (mm rfl (m1 rfl)) (by simp [RemSt.finish, RemSt.log]) rfl rfl
      rw [show [REv.getBoot, .decode, .mkdir] ++ fetched local_ n ++ [.collector, .finished true] =
            ([REv.getBoot, .decode, .mkdir] ++ fetched local_ n ++ [.collector]) ++ [.finished true] by simp]
      exact ends_early (List.prefix_refl _)
    · exact h.advance (l := [.getBoot, .decode, .mkdir] ++ fetched local_ n) (evs := [.collector]) (by rw [hpc]; rfl) rfl
        (m1 rfl) rfl rfl rfl (fun j hj => by cases hj) (fun _ => ⟨by simp [RemSt.goto], by simp [RemSt.goto]⟩)
  | prepare =>
    simp only
    split
    · refine h.advance (l := [.getBoot, .decode, .mkdir] ++ fetched local_ n ++ [.collector]) (evs := [.prepare true])
        (by rw [hpc]; rfl) ?_ (m1 rfl) rfl rfl rfl (fun j hj => by cases hj)
        (fun _ => ⟨by simp [RemSt.goto], by simp [RemSt.goto]⟩)
      simp [RemSt.goto, doneBy]
    · refine h.advance (l := [.getBoot, .decode, .mkdir] ++ fetched local_ n ++ [.collector]) (evs := [.prepare false])
        (by rw [hpc]; rfl) ?_ (m1 rfl) rfl rfl rfl (fun j hj => by cases hj)
        (fun _ => ⟨by simp [RemSt.goto], by simp [RemSt.goto]⟩)
      simp [RemSt.goto, doneBy]
  | postErr =>
    simp only
    refine h.finish (l := [.getBoot, .decode, .mkdir] ++ fetched local_ n ++ [.collector, .prepare true])
      (evs := [.postBoot true, .finished true]) (by rw [hpc]; rfl) rfl ?_ (mm rfl (m1 rfl))
      (by simp [RemSt.finish, RemSt.log]) rfl rfl
    exact Or.inr (Or.inl ⟨rfl, by simp [failProtocol]⟩)
  | postBoot =>
    simp only
    split
    · refine h.finish (l := [.getBoot, .decode, .mkdir] ++ fetched local_ n ++ [.collector, .prepare false])
        (evs := [.postBoot false, .finished true]) (by rw [hpc]; rfl) rfl ?_ (mm rfl (m1 rfl))
        (by simp [RemSt.finish, RemSt.log]) rfl rfl
      exact Or.inr (Or.inr (Or.inl ⟨rfl, by simp [bootProtocol]⟩))
    · exact h.advance (l := [.getBoot, .decode, .mkdir] ++ fetched local_ n ++ [.collector, .prepare false])
        (evs := [.postBoot false]) (by rw [hpc]; rfl) (by simp [RemSt.goto, doneBy, bootProtocol]) (m1 rfl) rfl rfl rfl
        (fun j hj => by cases hj) (fun _ => ⟨by simp [RemSt.goto], by simp [RemSt.goto]⟩)
  | getRun =>
    simp only
    have hl : doneBy local_ n s.pc = some (bootProtocol local_ n) := by rw [hpc]; rfl
    cases a with
    | fail =>
      refine h.finish (evs := [.getRun, .finished true]) hl rfl ?_ (mm rfl (m1 rfl))
        (by simp [RemSt.finish, RemSt.log]) rfl rfl
      exact Or.inr (Or.inr (Or.inr (Or.inl ⟨rfl, rfl⟩)))
    | reset =>
      refine h.finish (evs := [.getRun, .finished false]) hl rfl ?_ (mm rfl (m1 rfl))
        (by simp [RemSt.finish, RemSt.log]) rfl rfl
      exact Or.inr (Or.inr (Or.inr (Or.inr (Or.inl ⟨rfl, rfl⟩))))
    | ok =>
      have hm := h.main _ hl
      have ht : ((s.log .getRun).log .start).trace = s.trace ++ [.getRun, .start] := by simp [RemSt.log]
      constructor
      · intro i hi; cases hi
      · intro l' hl'
        cases hl'
        show List.filter REv.isMain ((s.log .getRun).log .start).trace = _
        rw [ht, List.filter_append, hm]
        rfl
      · intro e he; cases he
      · intro hp; cases hp
      · intro _
        show REv.start ∈ ((s.log .getRun).log .start).trace
        rw [ht]; simp
      · constructor
        · intro hc
          obtain ⟨e, he⟩ := h.closed.mp hc
          rw [hpc] at he; cases he
        · rintro ⟨e, he⟩; cases he
      · intro hp; cases hp
  | running =>
    simp only
    have hp : s.ping ≠ .none := fun e => (h.stop e).1 hpc
    exact h.advance (l := bootProtocol local_ n ++ [.getRun, .start]) (evs := [.stopped]) (by rw [hpc]; rfl)
      (by simp [RemSt.goto, doneBy]) (m1 rfl) rfl rfl rfl (fun j hj => by cases hj) (fun e => absurd e hp)
  | postRun =>
    simp only
    refine h.finish (l := bootProtocol local_ n ++ [.getRun, .start, .stopped]) (evs := [.postRun false, .finished false])
      (by rw [hpc]; rfl) rfl ?_ (mm rfl (m1 rfl)) (by simp [RemSt.finish, RemSt.log]) rfl rfl
    exact Or.inr (Or.inr (Or.inr (Or.inr (Or.inr ⟨rfl, by simp [fullProtocol]⟩))))
  | finished e => simp only; exact h

theorem RemInv.pingStep {local_ : Nat → Bool} {n : Nat} {s : RemSt} (h : RemInv local_ n s) (a : RRes) :
    RemInv local_ n (s.pingStep a) := by
  have key : ∀ s' : RemSt, s.ping ≠ .none → s'.ping ≠ .none → s'.pc = s.pc → s'.doneClosed = s.doneClosed →
      (∃ l, s'.trace = s.trace ++ l ∧ ∀ e ∈ l, e.isMain = false) → RemInv local_ n s' := by
    rintro s' hp hp' hpc hc ⟨l, ht, hl⟩
    have hf : s'.trace.filter REv.isMain = s.trace.filter REv.isMain := by
      rw [ht, List.filter_append, (List.filter_eq_nil_iff (l := l)).mpr (fun e he => by simp [hl e he]), List.append_nil]
    constructor
    · intro i hi; exact h.file i (hpc ▸ hi)
    · intro l hl; rw [hf]; exact h.main l (hpc ▸ hl)
    · intro e he; rw [hf]; exact h.fin e (hpc ▸ he)
    · intro e; exact absurd e hp'
    · intro _; rw [ht]; exact List.mem_append_left _ (h.pinged hp)
    · rw [hc, hpc]; exact h.closed
    · intro e; exact absurd e hp'
  unfold RemSt.pingStep
  cases hp : s.ping with
  | none => exact h
  | ended => exact h
  | wait =>
    simp only
    split
    · exact key _ (by rw [hp]; simp) (by simp) rfl rfl ⟨[], by simp, by simp⟩
    · exact key _ (by rw [hp]; simp) (by simp) rfl rfl ⟨[], by simp, by simp⟩
  | ask =>
    simp only
    split
    · exact key _ (by rw [hp]; simp) (by simp) rfl rfl ⟨[.ping], rfl, by simp [REv.isMain]⟩
    · exact key _ (by rw [hp]; simp) (by simp) rfl rfl ⟨[.ping, .cancel], by simp [RemSt.log], by simp [REv.isMain]⟩

theorem remInv_run (local_ : Nat → Bool) (n : Nat) (as : List RemAct) :
    RemInv local_ n (RemSt.run local_ n {} as) := by
  have key : ∀ (as : List RemAct) (s : RemSt), RemInv local_ n s → RemInv local_ n (s.run local_ n as) := by
    intro as
    induction as with
    | nil => intro s h; exact h
    | cons a as ih =>
      intro s h
      refine ih _ ?_
      cases a with
      | main a => exact h.mainStep a
      | ping a => exact h.pingStep a
      | ctrlC => exact ⟨h.file, h.main, h.fin, h.ping, h.pinged, h.closed, h.stop⟩
  exact key as {} (RemInv.init local_ n)

/-! ### C93 -/

/-- Pending protocol of an instance that has not finished. -/
theorem doneBy_prefix {local_ : Nat → Bool} {n : Nat} {pc : RPc} {l : List REv} (hf : ∀ i, pc = .file i → i ≤ n)
    (h : doneBy local_ n pc = some l) : l <+: fullProtocol local_ n ∨ l <+: failProtocol local_ n := by
  by_cases hpe : pc = .postErr
  · subst hpe
    simp only [doneBy, Option.some.injEq] at h
    subst h
    exact Or.inr ⟨[.postBoot true, .finished true], by simp [failProtocol]⟩
  refine Or.inl ?_
  have e : fullProtocol local_ n = [.getBoot, .decode, .mkdir] ++ (fetched local_ n ++ ([.collector] ++ ([.prepare false] ++
      ([.postBoot false] ++ ([.getRun, .start] ++ ([.stopped] ++ [.postRun false, .finished false])))))) := by
    simp [fullProtocol, bootProtocol]
  cases pc <;> simp only [doneBy, Option.some.injEq, reduceCtorEq, not_true_eq_false] at h hpe <;> subst h
  · exact List.nil_prefix
  · exact ⟨_, rfl⟩
  · exact ⟨_, rfl⟩
  · rename_i i
    rw [e]
    exact (List.prefix_append_right_inj _).mpr ((fetched_prefix local_ (hf i rfl)).trans (List.prefix_append _ _))
  all_goals
    rw [e]
    simp only [bootProtocol, List.append_assoc, List.cons_append, List.nil_append, List.cons_prefix_cons, true_and]
    first
    | exact List.prefix_append _ _
    | refine (List.prefix_append_right_inj _).mpr ?_
    try simp only [List.cons_prefix_cons, List.nil_prefix, true_and]

/-- **C93.** Whatever the server, the stage and the other goroutine do: what a remote instance does in `run` is at any time an
initial part of the documented protocol (fetch the stage, fetch the missing trx files in order, prepare,
acknowledge, wait for the run signal, run, report the end), or of that for a stage that cannot be prepared, or
it has returned as described by `EndsSo`. -/
theorem C93_protocol (local_ : Nat → Bool) (n : Nat) (as : List RemAct) :
    let s := RemSt.run local_ n {} as
    s.trace.filter REv.isMain <+: fullProtocol local_ n ∨ s.trace.filter REv.isMain <+: failProtocol local_ n ∨
      ∃ err, s.pc = .finished err ∧ EndsSo local_ n err (s.trace.filter REv.isMain) := by
  intro s
  have h := remInv_run local_ n as
  by_cases hf : ∃ e, s.pc = .finished e
  · obtain ⟨e, he⟩ := hf
    exact Or.inr (Or.inr ⟨e, he, h.fin e he⟩)
  · rw [← or_assoc]
    refine Or.inl ?_
    cases hd : doneBy local_ n s.pc with
    | none =>
      exfalso
      cases hpc : s.pc <;> rw [hpc] at hd <;> first | exact hf ⟨_, hpc⟩ | cases hd
    | some l =>
      rw [h.main l hd]
      exact doneBy_prefix h.file hd

/-- Nothing is asked by the second goroutine before the stage begins to run. -/
structure RemOrd (s : RemSt) : Prop where
  ord : ∀ p e q, s.trace = p ++ e :: q → e.isMain = false → REv.start ∈ p

theorem RemOrd.append {s s' : RemSt} (h : RemOrd s) {e : REv} (ht : s'.trace = s.trace ++ [e])
    (he : e.isMain = false → REv.start ∈ s.trace) : RemOrd s' := by
  constructor
  intro p x q hx hm
  rw [ht] at hx
  rcases List.append_eq_append_iff.mp hx with ⟨a, h1, h2⟩ | ⟨a, h1, h2⟩
  · cases a with
    | nil =>
      simp only [List.nil_append, List.cons.injEq] at h2
      simp only [List.append_nil] at h1
      rw [h1]; exact he (h2.1 ▸ hm)
    | cons y ys => simp at h2
  · cases a with
    | nil =>
      simp only [List.nil_append, List.cons.injEq] at h2
      simp only [List.append_nil] at h1
      rw [← h1]; exact he (h2.1 ▸ hm)
    | cons y ys =>
      simp only [List.cons_append, List.cons.injEq] at h2
      obtain ⟨rfl, -⟩ := h2
      exact h.ord p x ys h1 hm

theorem RemOrd.same {s s' : RemSt} (h : RemOrd s) (ht : s'.trace = s.trace) : RemOrd s' :=
  ⟨fun p e q hx => h.ord p e q (ht ▸ hx)⟩

theorem RemOrd.log {s : RemSt} (h : RemOrd s) {e : REv} (he : e.isMain = true) : RemOrd (s.log e) :=
  h.append rfl (fun h => by rw [he] at h; cases h)

theorem RemOrd.mainStep {s : RemSt} (h : RemOrd s) (local_ : Nat → Bool) (n : Nat) (a : RRes) :
    RemOrd (s.main local_ n a) := by
  have fin : ∀ (t : RemSt) (b : Bool), RemOrd t → RemOrd (t.finish b) := fun t b ht => ht.append rfl (fun h => by cases h)
  have go : ∀ (t : RemSt) (pc : RPc), RemOrd t → RemOrd (t.goto pc) := fun t pc ht => ht.same rfl
  unfold RemSt.main
  cases s.pc with
  | getRun =>
    cases a
    · exact fin _ _ (h.log rfl)
    · exact ((h.log (e := .getRun) rfl).log (e := .start) rfl).same rfl
    · exact fin _ _ (h.log rfl)
  | finished e => exact h
  | file i =>
    simp only
    split
    · split
      · exact go _ _ h
      · split
        · exact fin _ _ (h.log rfl)
        · exact go _ _ (h.log rfl)
    · exact go _ _ h
  | postErr => exact fin _ _ (h.log rfl)
  | running => exact go _ _ (h.log rfl)
  | postRun => exact fin _ _ (h.log rfl)
  | _ =>
    simp only
    split <;> first | exact fin _ _ (h.log rfl) | exact go _ _ (h.log rfl)

theorem remOrd_run (local_ : Nat → Bool) (n : Nat) (as : List RemAct) : RemOrd (RemSt.run local_ n {} as) := by
  have key : ∀ (as : List RemAct) (s : RemSt), RemInv local_ n s → RemOrd s → RemOrd (s.run local_ n as) := by
    intro as
    induction as with
    | nil => intro s _ h; exact h
    | cons a as ih =>
      intro s v h
      cases a with
      | main a => exact ih _ (v.mainStep a) (h.mainStep local_ n a)
      | ping a =>
        refine ih _ (v.pingStep a) ?_
        show RemOrd (s.pingStep a)
        unfold RemSt.pingStep
        cases hp : s.ping with
        | none => exact h
        | ended => exact h
        | wait => simp only; split <;> exact h.same rfl
        | ask =>
          have hs : REv.start ∈ s.trace := v.pinged (by rw [hp]; simp)
          simp only
          split
          · exact h.append rfl (fun _ => hs)
          · exact (h.append (s' := s.log .ping) rfl (fun _ => hs)).append rfl (fun _ => List.mem_append_left _ hs)
      | ctrlC => exact ih _ ⟨v.file, v.main, v.fin, v.ping, v.pinged, v.closed, v.stop⟩ (h.same rfl)
  exact key as {} (RemInv.init local_ n) ⟨fun p e q h => by simp at h⟩

/-- Where the stage begins in a list of main events. -/
theorem start_place {local_ : Nat → Bool} {n : Nat} {l p q : List REv}
    (h : l <+: fullProtocol local_ n ∨ ∃ err, EndsSo local_ n err l) (hl : l = p ++ REv.start :: q) :
    p = bootProtocol local_ n ++ [.getRun] ∧ REv.start ∉ q := by
  have nf : ∀ k, REv.start ∉ fetched local_ k := by
    intro k hk
    simp only [fetched, List.mem_filterMap] at hk
    obtain ⟨i, -, h⟩ := hk
    split at h <;> cases h
  have nb : REv.start ∉ bootProtocol local_ n := by simp [bootProtocol, nf]
  have full : ∀ p q, p ++ REv.start :: q <+: fullProtocol local_ n →
      p = bootProtocol local_ n ++ [.getRun] ∧ REv.start ∉ q := by
    intro p q ⟨t, ht⟩
    have e : fullProtocol local_ n = (bootProtocol local_ n ++ [.getRun]) ++ .start :: [.stopped, .postRun false, .finished false] := by
      simp [fullProtocol]
    rw [e, List.append_assoc, List.cons_append] at ht
    have np : REv.start ∉ bootProtocol local_ n ++ [.getRun] := by simp [nb]
    rcases List.append_eq_append_iff.mp ht with ⟨a, h1, h2⟩ | ⟨a, h1, h2⟩
    · cases a with
      | nil =>
        simp only [List.nil_append, List.cons.injEq, true_and] at h2
        simp only [List.append_nil] at h1
        refine ⟨h1.symm, fun hq => ?_⟩
        have : REv.start ∈ q ++ t := List.mem_append_left _ hq
        rw [h2] at this; simp at this
      | cons y ys =>
        simp only [List.cons_append, List.cons.injEq] at h2
        exfalso; apply np; rw [h1, ← h2.1]; simp
    · cases a with
      | nil =>
        simp only [List.nil_append, List.cons.injEq, true_and] at h2
        simp only [List.append_nil] at h1
        refine ⟨h1, fun hq => ?_⟩
        have : REv.start ∈ q ++ t := List.mem_append_left _ hq
        rw [← h2] at this; simp at this
      | cons y ys =>
        simp only [List.cons_append, List.cons.injEq] at h2
        exfalso
        have : REv.start ∈ ys ++ REv.start :: (q ++ t) := by simp
        rw [← h2.2] at this; simp at this
  have hm : REv.start ∈ l := by rw [hl]; simp
  rcases h with h | ⟨err, h⟩
  · rw [hl] at h; exact full p q h
  · rcases h with ⟨-, r, hr, rfl⟩ | ⟨-, rfl⟩ | ⟨-, rfl⟩ | ⟨-, rfl⟩ | ⟨-, rfl⟩ | ⟨-, rfl⟩
    · exfalso
      rcases List.mem_append.mp hm with h | h
      · have := hr.subset h
        simp [nf] at this
      · simp at h
    · exfalso; simp [failProtocol, nf] at hm
    · exfalso; simp [nb] at hm
    · exfalso; simp [nb] at hm
    · exfalso; simp [nb] at hm
    · exact full p q ⟨[], by rw [List.append_nil]; exact hl.symm⟩

theorem started {local_ : Nat → Bool} {n : Nat} {l : List REv} {P : Bool → Prop}
    (h : l <+: fullProtocol local_ n ∨ l <+: failProtocol local_ n ∨ ∃ err, P err ∧ EndsSo local_ n err l)
    (hm : REv.start ∈ l) : l <+: fullProtocol local_ n ∨ ∃ err, EndsSo local_ n err l := by
  rcases h with h | h | ⟨e, _, h⟩
  · exact Or.inl h
  · have := h.subset hm
    simp [failProtocol, fetched] at this
  · exact Or.inr ⟨e, h⟩

/-- **C93.** A remote instance runs the stage at most once, and only after it has fetched the missing files, prepared
the stage, acknowledged the boot and received the run signal; the server is not asked whether to go on
before that. -/
theorem C93_start (local_ : Nat → Bool) (n : Nat) (as : List RemAct) {p q : List REv}
    (h : (RemSt.run local_ n {} as).trace = p ++ .start :: q) :
    p = bootProtocol local_ n ++ [.getRun] ∧ REv.start ∉ q := by
  have hp : ∀ e ∈ p, e.isMain = true := by
    -- the first `start` is preceded by main events only; a later one does not exist
    by_contra hc
    push Not at hc
    obtain ⟨e, he, hm⟩ := hc
    have hm : e.isMain = false := by simpa using hm
    obtain ⟨p1, p2, rfl⟩ := List.append_of_mem he
    have hs := (remOrd_run local_ n as).ord p1 e (p2 ++ .start :: q) (by rw [h]; simp) hm
    obtain ⟨a, b, rfl⟩ := List.append_of_mem hs
    have hx : (RemSt.run local_ n {} as).trace.filter REv.isMain =
        a.filter REv.isMain ++ REv.start :: (b.filter REv.isMain ++ p2.filter REv.isMain ++ REv.start :: q.filter REv.isMain) := by
      rw [h]
      simp only [List.filter_append, List.append_assoc, List.cons_append, List.filter_cons_of_pos (show REv.start.isMain = true from rfl),
        List.filter_cons_of_neg (show ¬ e.isMain = true by rw [hm]; simp)]
    have hc := C93_protocol local_ n as
    have := start_place (started hc (by rw [hx]; simp)) hx
    exact this.2 (by simp)
  have hx : (RemSt.run local_ n {} as).trace.filter REv.isMain = p ++ REv.start :: q.filter REv.isMain := by
    rw [h, List.filter_append, List.filter_eq_self.mpr hp]
    rfl
  have hc := C93_protocol local_ n as
  obtain ⟨h1, h2⟩ := start_place (started hc (by rw [hx]; simp)) hx
  refine ⟨h1, fun hq => h2 ?_⟩
  exact List.mem_filter.mpr ⟨hq, rfl⟩

/-- **C93.** The stage begins to run in no other step than the one in which the request for the run signal is
answered with 200. -/
theorem C93_signal (local_ : Nat → Bool) (n : Nat) (as : List RemAct) (a : RemAct)
    (h0 : REv.start ∉ (RemSt.run local_ n {} as).trace) (h1 : REv.start ∈ (RemSt.run local_ n {} (as ++ [a])).trace) :
    (RemSt.run local_ n {} as).pc = .getRun ∧ a = .main .ok := by
  have e : RemSt.run local_ n {} (as ++ [a]) = (RemSt.run local_ n {} as).step local_ n a := by
    simp [RemSt.run, List.foldl_append]
  rw [e] at h1
  generalize RemSt.run local_ n {} as = s at h0 h1
  cases a with
  | ctrlC => exact absurd h1 h0
  | ping a =>
    exfalso
    simp only [RemSt.step, RemSt.pingStep] at h1
    split at h1
    · split at h1 <;> exact h0 h1
    · split at h1 <;> simp [RemSt.log, h0] at h1
    · exact h0 h1
  | main a =>
    simp only [RemSt.step, RemSt.main] at h1
    cases hpc : s.pc with
    | getRun =>
      rw [hpc] at h1
      cases a
      · simp [RemSt.finish, RemSt.log, h0] at h1
      · exact ⟨rfl, rfl⟩
      · simp [RemSt.finish, RemSt.log, h0] at h1
    | file i =>
      exfalso
      rw [hpc] at h1
      simp only at h1
      split at h1
      · split at h1
        · exact h0 h1
        · split at h1 <;> simp [RemSt.finish, RemSt.goto, RemSt.log, h0] at h1
      · exact h0 h1
    | finished e => rw [hpc] at h1; exact absurd h1 h0
    | postErr => rw [hpc] at h1; simp [RemSt.finish, RemSt.log, h0] at h1
    | running => rw [hpc] at h1; simp [RemSt.goto, RemSt.log, h0] at h1
    | postRun => rw [hpc] at h1; simp [RemSt.finish, RemSt.log, h0] at h1
    | _ =>
      exfalso
      rw [hpc] at h1
      simp only at h1
      split at h1 <;> simp [RemSt.finish, RemSt.goto, RemSt.log, h0] at h1

/-- Two trx, the second file exists here: the whole run, with one ping. -/
def exRemote : List RemAct :=
  [.main .ok, .main .ok, .main .ok, .main .ok, .main .ok, .main .ok, .main .ok, .main .ok, .main .ok, .main .ok,
    .ping .ok, .ping .ok, .main .ok, .main .ok]

example : (RemSt.run (· = 1) 2 {} exRemote).trace = [.getBoot, .decode, .mkdir, .getFile 0, .collector, .prepare false,
    .postBoot false, .getRun, .start, .ping, .stopped, .postRun false, .finished false] ∧
    (RemSt.run (· = 1) 2 {} exRemote).trace = [.getBoot, .decode, .mkdir, .getFile 0, .collector, .prepare false,
      .postBoot false, .getRun] ++ .start :: [.ping, .stopped, .postRun false, .finished false] ∧
    (RemSt.run (· = 1) 2 {} (exRemote.take 9)).pc = .getRun := by decide +kernel

/-- **C93.** If anything fails before the stage is run (a request, a local step, preparing), the stage is never run. -/
theorem C93_failed (local_ : Nat → Bool) (n : Nat) (as bs : List RemAct)
    (h0 : REv.start ∉ (RemSt.run local_ n {} as).trace)
    (h1 : (RemSt.run local_ n {} (as ++ [.main .fail])).trace ≠ (RemSt.run local_ n {} as).trace) :
    REv.start ∉ (RemSt.run local_ n {} (as ++ [.main .fail] ++ bs)).trace := by
  have v := remInv_run local_ n as
  have e : RemSt.run local_ n {} (as ++ [.main .fail]) = (RemSt.run local_ n {} as).main local_ n .fail := by
    simp [RemSt.run, List.foldl_append, RemSt.step]
  have hs : REv.start ∉ (RemSt.run local_ n {} (as ++ [.main .fail])).trace := by
    intro hx
    have := (C93_signal local_ n as (.main .fail) h0 hx).2
    cases this
  have hpc : (RemSt.run local_ n {} (as ++ [.main .fail])).pc = .postErr ∨
      ∃ x, (RemSt.run local_ n {} (as ++ [.main .fail])).pc = .finished x := by
    rw [e] at h1 ⊢
    generalize RemSt.run local_ n {} as = s at v h0 h1 ⊢
    have nostart : ∀ l, doneBy local_ n s.pc = some l → REv.start ∈ l → False := by
      intro l hl hm
      rw [← v.main l hl] at hm
      exact h0 (List.mem_filter.mp hm).1
    unfold RemSt.main at h1 ⊢
    cases hp : s.pc <;> rw [hp] at h1 nostart <;> dsimp only at h1 ⊢
    case getBoot => exact Or.inr ⟨true, rfl⟩
    case decode => exact Or.inr ⟨true, rfl⟩
    case mkdir => exact Or.inr ⟨true, rfl⟩
    case file i =>
      split
      · split
        · rename_i hi hl
          rw [if_pos hi, if_pos hl] at h1
          exact absurd rfl h1
        · exact Or.inr ⟨true, rfl⟩
      · rename_i hi
        rw [if_neg hi] at h1
        exact absurd rfl h1
    case collector => exact Or.inr ⟨true, rfl⟩
    case prepare => exact Or.inl rfl
    case postErr => exact Or.inr ⟨true, rfl⟩
    case postBoot => exact Or.inr ⟨true, rfl⟩
    case getRun => exact Or.inr ⟨true, rfl⟩
    case running => exact (nostart _ rfl (by simp)).elim
    case postRun => exact (nostart _ rfl (by simp)).elim
    case finished x => exact absurd rfl h1
  have key : ∀ bs, REv.start ∉ (RemSt.run local_ n {} (as ++ [.main .fail] ++ bs)).trace ∧
      ((RemSt.run local_ n {} (as ++ [.main .fail] ++ bs)).pc = .postErr ∨
        ∃ x, (RemSt.run local_ n {} (as ++ [.main .fail] ++ bs)).pc = .finished x) := by
    intro bs
    induction bs using List.reverseRecOn with
    | nil => rw [List.append_nil]; exact ⟨hs, hpc⟩
    | append_singleton bs b ih =>
      obtain ⟨i1, i2⟩ := ih
      rw [← List.append_assoc]
      refine ⟨fun hx => ?_, ?_⟩
      · have := (C93_signal local_ n _ b i1 hx).1
        rcases i2 with h | ⟨x, h⟩ <;> rw [this] at h <;> cases h
      · have e2 : RemSt.run local_ n {} (as ++ [.main .fail] ++ bs ++ [b]) =
            (RemSt.run local_ n {} (as ++ [.main .fail] ++ bs)).step local_ n b := by
          simp [RemSt.run, List.foldl_append]
        rw [e2]
        generalize RemSt.run local_ n {} (as ++ [.main .fail] ++ bs) = s at i2
        cases b with
        | ctrlC => exact i2
        | ping a =>
          have : (s.pingStep a).pc = s.pc := by
            unfold RemSt.pingStep
            split
            · split <;> rfl
            · split <;> rfl
            · rfl
          simp only [RemSt.step, this]
          exact i2
        | main a =>
          simp only [RemSt.step]
          rcases i2 with h | ⟨x, h⟩
          · right; unfold RemSt.main; rw [h]; exact ⟨true, rfl⟩
          · right; unfold RemSt.main; rw [h]; exact ⟨x, h⟩
  exact (key bs).1

/-- The first file cannot be fetched; whatever comes then, the stage is not run. -/
example : REv.start ∉ (RemSt.run (fun _ => false) 2 {} [.main .ok, .main .ok, .main .ok]).trace ∧
    (RemSt.run (fun _ => false) 2 {} ([.main .ok, .main .ok, .main .ok] ++ [.main .fail])).trace ≠
      (RemSt.run (fun _ => false) 2 {} [.main .ok, .main .ok, .main .ok]).trace := by decide +kernel

/-! ### C94 -/

/-- **C94.** What the server learns from an instance that has returned: a failed boot, if preparing the stage failed; a
successful boot; and, exactly if the stage was run, its end. -/
theorem C94_reported_partial (local_ : Nat → Bool) (n : Nat) (as : List RemAct) {err : Bool}
    (h : (RemSt.run local_ n {} as).pc = .finished err) :
    let t := (RemSt.run local_ n {} as).trace
    (REv.start ∈ t ↔ t.count (.postRun false) = 1) ∧ t.count (.postRun false) ≤ 1 ∧
    (REv.prepare true ∈ t ↔ t.count (.postBoot true) = 1) ∧ (REv.prepare false ∈ t ↔ t.count (.postBoot false) = 1) ∧
    t.count (.postBoot true) + t.count (.postBoot false) ≤ 1 ∧
    (REv.getRun ∈ t → REv.postBoot false ∈ t) := by
  intro t
  have hf := (remInv_run local_ n as).fin err h
  have cnt : ∀ e : REv, e.isMain = true → t.count e = (t.filter REv.isMain).count e := by
    intro e he
    rw [List.count_filter (by simpa using he)]
  have mem : ∀ e : REv, e.isMain = true → (e ∈ t ↔ e ∈ t.filter REv.isMain) := by
    intro e he
    rw [List.mem_filter]
    exact ⟨fun h => ⟨h, he⟩, fun h => h.1⟩
  rw [cnt _ rfl, cnt _ rfl, cnt _ rfl, mem _ rfl, mem _ rfl, mem _ rfl, mem _ rfl, mem _ rfl]
  change EndsSo local_ n err (t.filter REv.isMain) at hf
  generalize t.filter REv.isMain = l at hf
  have nf : ∀ e : REv, (∀ i, e ≠ .getFile i) → ∀ k, e ∉ fetched local_ k := by
    intro e he k hk
    simp only [fetched, List.mem_filterMap] at hk
    obtain ⟨i, -, h⟩ := hk
    split at h
    · cases h
    · cases h; exact he i rfl
  have c1 := List.count_eq_zero.mpr (nf (.postRun false) (by simp) n)
  have c2 := List.count_eq_zero.mpr (nf (.postBoot false) (by simp) n)
  have c3 := List.count_eq_zero.mpr (nf (.postBoot true) (by simp) n)
  have c4 := nf .start (by simp) n
  have c5 := nf (.prepare true) (by simp) n
  have c8 := nf (.prepare false) (by simp) n
  have c6 := nf .getRun (by simp) n
  have c7 := nf (.postBoot false) (by simp) n
  rcases hf with ⟨-, r, hr, rfl⟩ | ⟨-, rfl⟩ | ⟨-, rfl⟩ | ⟨-, rfl⟩ | ⟨-, rfl⟩ | ⟨-, rfl⟩
  · have z : ∀ e : REv, e ∉ [REv.getBoot, .decode, .mkdir] ++ fetched local_ n ++ [.collector] → e ≠ .finished true →
        e ∉ r ++ [.finished true] := by
      intro e h1 h2 h3
      rcases List.mem_append.mp h3 with h | h
      · exact h1 (hr.subset h)
      · simp at h; exact h2 h
    have d1 := z .start (by simp [c4]) (by simp)
    have d2 := z (.prepare true) (by simp [c5]) (by simp)
    have d7 := z (.prepare false) (by simp [c8]) (by simp)
    have d3 := z .getRun (by simp [c6]) (by simp)
    have d4 := List.count_eq_zero.mpr (z (.postRun false) (by simp [List.count_eq_zero.mp c1]) (by simp))
    have d5 := List.count_eq_zero.mpr (z (.postBoot true) (by simp [List.count_eq_zero.mp c3]) (by simp))
    have d6 := List.count_eq_zero.mpr (z (.postBoot false) (by simp [c7]) (by simp))
    rw [d4, d5, d6]
    refine ⟨⟨fun h => absurd h d1, fun h => by omega⟩, by omega, ⟨fun h => absurd h d2, fun h => by omega⟩,
      ⟨fun h => absurd h d7, fun h => by omega⟩, by omega, fun h => absurd h d3⟩
  all_goals
    simp [bootProtocol, fullProtocol, failProtocol, List.count_append, c1, c2, c3, c4, c5, c6, c7, c8]

/-- **C94.** If preparing the stage fails, the next thing the instance does is to report a failed boot, and it returns
an error without running the stage. -/
theorem C94_prepare (local_ : Nat → Bool) (n : Nat) {s : RemSt} (h : s.pc = .prepare) (a : RRes) :
    ((s.main local_ n .fail).main local_ n a).trace = s.trace ++ [.prepare true, .postBoot true, .finished true] ∧
    ((s.main local_ n .fail).main local_ n a).pc = .finished true := by
  have e : s.main local_ n .fail = (s.log (.prepare true)).goto .postErr := by simp [RemSt.main, h]
  rw [e]
  simp [RemSt.main, RemSt.goto, RemSt.finish, RemSt.log]

/-- **C94, negation.** An instance that has got the stage but fails before preparing it (here: the second of two files
cannot be fetched) returns an error without telling the server, which goes on waiting for its boot. This holds for
every such failure: whenever `run` returns an error before `prepare`, nothing is reported. -/
theorem C94_silent_false (local_ : Nat → Bool) (n : Nat) (as : List RemAct)
    (h : (RemSt.run local_ n {} as).pc = .finished true) (hp : ∀ e, REv.prepare e ∉ (RemSt.run local_ n {} as).trace) (e : Bool) :
    REv.postBoot e ∉ (RemSt.run local_ n {} as).trace := by
  have mem : ∀ x : REv, x.isMain = true → (x ∈ (RemSt.run local_ n {} as).trace ↔
      x ∈ (RemSt.run local_ n {} as).trace.filter REv.isMain) := by
    intro x hx
    rw [List.mem_filter]
    exact ⟨fun h => ⟨h, hx⟩, fun h => h.1⟩
  have hf := (remInv_run local_ n as).fin true h
  have hp : ∀ e, REv.prepare e ∉ (RemSt.run local_ n {} as).trace.filter REv.isMain := fun e he =>
    hp e (List.mem_filter.mp he).1
  rw [mem _ rfl]
  generalize (RemSt.run local_ n {} as).trace.filter REv.isMain = l at hf hp
  rcases hf with ⟨-, r, hr, rfl⟩ | ⟨-, rfl⟩ | ⟨-, rfl⟩ | ⟨-, rfl⟩ | ⟨h, -⟩ | ⟨h, -⟩
  · intro hx
    rcases List.mem_append.mp hx with hx | hx
    · have := hr.subset hx
      simp only [List.mem_append, List.mem_cons, List.not_mem_nil, or_false, reduceCtorEq, false_or] at this
      simp only [fetched, List.mem_filterMap] at this
      obtain ⟨i, -, h⟩ := this
      split at h <;> cases h
    · simp at hx
  · exact absurd (by simp [failProtocol]) (hp true)
  · exact absurd (by simp [bootProtocol]) (hp false)
  · exact absurd (by simp [bootProtocol]) (hp false)
  · cases h
  · cases h

/-- The instance is assigned to the stage, fails to fetch the second file and says nothing. -/
example : (RemSt.run (fun _ => false) 2 {} [.main .ok, .main .ok, .main .ok, .main .ok, .main .fail]).pc = .finished true ∧
    (RemSt.run (fun _ => false) 2 {} [.main .ok, .main .ok, .main .ok, .main .ok, .main .fail]).trace =
      [.getBoot, .decode, .mkdir, .getFile 0, .getFile 1, .finished true] := by decide +kernel

/-- **C94, negation.** An error of the run never reaches the server (the result of the stage is dropped), and
the process exits with status 0 whatever happened. -/
theorem C94_run_error_false (local_ : Nat → Bool) (n : Nat) (as : List RemAct) (ctxDone : Bool) :
    REv.postRun true ∉ (RemSt.run local_ n {} as).trace ∧ (RemSt.run local_ n {} as).exitStatus ctxDone = 0 := by
  constructor
  · intro hx
    have hx : REv.postRun true ∈ (RemSt.run local_ n {} as).trace.filter REv.isMain := List.mem_filter.mpr ⟨hx, rfl⟩
    have nf : ∀ k, REv.postRun true ∉ fetched local_ k := by
      intro k hk
      simp only [fetched, List.mem_filterMap] at hk
      obtain ⟨i, -, h⟩ := hk
      split at h <;> cases h
    have nfull : REv.postRun true ∉ fullProtocol local_ n := by simp [fullProtocol, bootProtocol, nf]
    have nb : REv.postRun true ∉ bootProtocol local_ n := by simp [bootProtocol, nf]
    have nfail : REv.postRun true ∉ failProtocol local_ n := by simp [failProtocol, nf]
    rcases C93_protocol local_ n as with h | h | ⟨err, -, h⟩
    · exact nfull (h.subset hx)
    · exact nfail (h.subset hx)
    · rcases h with ⟨-, r, hr, h⟩ | ⟨-, h⟩ | ⟨-, h⟩ | ⟨-, h⟩ | ⟨-, h⟩ | ⟨-, h⟩
      · rw [h] at hx
        rcases List.mem_append.mp hx with hx | hx
        · have := hr.subset hx
          simp [nf] at this
        · simp at hx
      all_goals
        rw [h] at hx
        simp [nf, nb, nfull, nfail] at hx
  · unfold RemSt.exitStatus RemSt.runError
    split
    · cases ctxDone <;> rfl
    · rfl

/-! ### C95 -/

/-- The second goroutine exists only while and after the stage runs. -/
theorem RemInv.late {local_ : Nat → Bool} {n : Nat} {s : RemSt} (h : RemInv local_ n s) (hp : s.ping ≠ .none) :
    s.pc = .running ∨ s.pc = .postRun ∨ ∃ e, s.pc = .finished e := by
  have hs : REv.start ∈ s.trace.filter REv.isMain := List.mem_filter.mpr ⟨h.pinged hp, rfl⟩
  have nf : ∀ k, REv.start ∉ fetched local_ k := by
    intro k hk
    simp only [fetched, List.mem_filterMap] at hk
    obtain ⟨i, -, h⟩ := hk
    split at h <;> cases h
  cases hpc : s.pc with
  | running => exact Or.inl rfl
  | postRun => exact Or.inr (Or.inl rfl)
  | finished e => exact Or.inr (Or.inr ⟨e, rfl⟩)
  | _ =>
    exfalso
    rw [h.main _ (by rw [hpc]; rfl)] at hs
    simp [bootProtocol, nf] at hs

/-- **C95.** When the server says that the stage is done (205) or cannot be reached, the run is cancelled and stays so,
and the server is not asked again. -/
theorem C95_told (local_ : Nat → Bool) (n : Nat) (as bs : List RemAct) {a : RRes}
    (h : (RemSt.run local_ n {} as).ping = .ask) (ha : a ≠ .ok) :
    (RemSt.run local_ n {} (as ++ [.ping a] ++ bs)).cancelled = true ∧
    (RemSt.run local_ n {} (as ++ [.ping a] ++ bs)).trace.count .ping = (RemSt.run local_ n {} as).trace.count .ping + 1 := by
  have v := remInv_run local_ n as
  have e : RemSt.run local_ n {} (as ++ [.ping a] ++ bs) = ((RemSt.run local_ n {} as).pingStep a).run local_ n bs := by
    simp [RemSt.run, List.foldl_append, RemSt.step]
  rw [e]
  generalize RemSt.run local_ n {} as = s at v h
  have key : ∀ (bs : List RemAct) (t : RemSt), RemInv local_ n t → t.ping = .ended → t.cancelled = true →
      (t.run local_ n bs).cancelled = true ∧ (t.run local_ n bs).trace.count .ping = t.trace.count .ping := by
    intro bs
    induction bs with
    | nil => intro t _ _ h2; exact ⟨h2, rfl⟩
    | cons b bs ih =>
      intro t v h1 h2
      have st : (t.step local_ n b).ping = .ended ∧ (t.step local_ n b).cancelled = true ∧
          (t.step local_ n b).trace.count .ping = t.trace.count .ping := by
        cases b with
        | ctrlC => exact ⟨h1, rfl, rfl⟩
        | ping b => simp [RemSt.step, RemSt.pingStep, h1, h2]
        | main b =>
          rcases v.late (by rw [h1]; simp) with hpc | hpc | ⟨e, hpc⟩
          · simp [RemSt.step, RemSt.main, hpc, RemSt.goto, RemSt.log, h1, h2, List.count_append]
          · simp [RemSt.step, RemSt.main, hpc, RemSt.finish, RemSt.log, h1, h2, List.count_append]
          · simp [RemSt.step, RemSt.main, hpc, h1, h2]
      have v' : RemInv local_ n (t.step local_ n b) := by
        cases b with
        | main a => exact v.mainStep a
        | ping a => exact v.pingStep a
        | ctrlC => exact ⟨v.file, v.main, v.fin, v.ping, v.pinged, v.closed, v.stop⟩
      obtain ⟨c1, c2⟩ := ih _ v' st.1 st.2.1
      exact ⟨c1, c2.trans st.2.2⟩
  have e : s.pingStep a = { (s.log .ping).log .cancel with ping := .ended, cancelled := true } := by
    simp [RemSt.pingStep, h, ha]
  obtain ⟨c1, c2⟩ := key bs _ (v.pingStep a) (by rw [e]) (by rw [e])
  refine ⟨c1, c2.trans ?_⟩
  rw [e]
  simp [RemSt.log, List.count_append]

/-- **C95.** The run of a stage is cancelled for no other reason: CTRL-C on this instance, or the server said that the
stage is done or could not be reached (`cancel`). -/
theorem C95_only (local_ : Nat → Bool) (n : Nat) (as : List RemAct)
    (h : (RemSt.run local_ n {} as).cancelled = true) (hf : ∀ e, (RemSt.run local_ n {} as).pc ≠ .finished e) :
    RemAct.ctrlC ∈ as ∨ REv.cancel ∈ (RemSt.run local_ n {} as).trace := by
  have key : ∀ (as : List RemAct), let s := RemSt.run local_ n {} as
      s.cancelled = true → (∃ e, s.pc = .finished e) ∨ RemAct.ctrlC ∈ as ∨ REv.cancel ∈ s.trace := by
    intro as
    induction as using List.reverseRecOn with
    | nil => intro s h; cases h
    | append_singleton as a ih =>
      intro s hc
      have v := remInv_run local_ n as
      have e : s = (RemSt.run local_ n {} as).step local_ n a := by simp [s, RemSt.run, List.foldl_append]
      rw [e] at hc ⊢
      generalize RemSt.run local_ n {} as = t at v ih hc
      clear e s
      cases a with
      | ctrlC => exact Or.inr (Or.inl (by simp))
      | ping b =>
        simp only [RemSt.step, RemSt.pingStep] at hc ⊢
        cases hp : t.ping with
        | none =>
          rw [hp] at hc
          exact (ih hc).imp id (Or.imp (fun h => List.mem_append_left _ h) id)
        | ended =>
          rw [hp] at hc
          exact (ih hc).imp id (Or.imp (fun h => List.mem_append_left _ h) id)
        | wait =>
          rw [hp] at hc
          simp only at hc ⊢
          split
          · rename_i hd
            exact Or.inl (v.closed.mp hd)
          · rename_i hd
            rw [if_neg hd] at hc
            exact (ih hc).imp id (Or.imp (fun h => List.mem_append_left _ h) id)
        | ask =>
          rw [hp] at hc
          simp only at hc ⊢
          split
          · rename_i hd
            rw [if_pos hd] at hc
            exact (ih hc).imp id (Or.imp (fun h => List.mem_append_left _ h) (fun h => List.mem_append_left _ h))
          · exact Or.inr (Or.inr (by simp [RemSt.log]))
      | main b =>
        have hcc : (t.main local_ n b).cancelled = t.cancelled := by
          unfold RemSt.main
          cases hpc : t.pc with
          | getRun => cases b <;> rfl
          | file i =>
            simp only
            split
            · split
              · rfl
              · split <;> rfl
            · rfl
          | finished e => rfl
          | postErr => rfl
          | running => rfl
          | postRun => rfl
          | _ => simp only; split <;> rfl
        have htr : ∀ e ∈ t.trace, e ∈ (t.main local_ n b).trace := by
          intro e he
          unfold RemSt.main
          cases hpc : t.pc with
          | getRun => cases b <;> simp [RemSt.finish, RemSt.goto, RemSt.log, he]
          | file i =>
            simp only
            split
            · split
              · exact he
              · split <;> simp [RemSt.finish, RemSt.goto, RemSt.log, he]
            · exact he
          | finished e => exact he
          | postErr => simp [RemSt.finish, RemSt.goto, RemSt.log, he]
          | running => simp [RemSt.finish, RemSt.goto, RemSt.log, he]
          | postRun => simp [RemSt.finish, RemSt.goto, RemSt.log, he]
          | _ => simp only; split <;> simp [RemSt.finish, RemSt.goto, RemSt.log, he]
        have hfin : (∃ e, t.pc = .finished e) → ∃ e, (t.main local_ n b).pc = .finished e := by
          rintro ⟨e, he⟩
          exact ⟨e, by simp [RemSt.main, he]⟩
        simp only [RemSt.step] at hc ⊢
        rw [hcc] at hc
        exact (ih hc).imp hfin (Or.imp (fun h => List.mem_append_left _ h) (htr _))
  rcases key as h with ⟨e, he⟩ | h
  · exact absurd he (hf e)
  · exact h

/-- The server ends the stage: the run is cancelled and the end is still reported. -/
example : (RemSt.run (fun _ => true) 1 {} (exRemote.take 9 ++ [.ping .ok])).ping = .ask ∧
    (RemSt.run (fun _ => true) 1 {} (exRemote.take 9 ++ [.ping .ok] ++ [.ping .reset] ++ [.main .ok])).cancelled = true ∧
    (RemSt.run (fun _ => true) 1 {} (exRemote.take 9 ++ [.ping .ok] ++ [.ping .reset] ++ [.main .ok, .main .ok])).trace.drop 5 =
      [.postBoot false, .getRun, .start, .ping, .cancel, .stopped, .postRun false, .finished false] := by
  decide +kernel

/-! ### C95, the other side: what the server answers -/

/-- The clients of a stage know that they belong to it. -/
def OwnStage (s : CSt) : Prop := ∀ m n o, cget n (s.st m).clients = some o → (s.objs o).stage = m

theorem OwnStage.less {s s' : CSt} (w : OwnStage s)
    (hst : ∀ m n o, cget n (s'.st m).clients = some o → cget n (s.st m).clients = some o)
    (hob : ∀ o, (s'.objs o).stage = (s.objs o).stage) : OwnStage s' := by
  intro m n o h
  rw [hob]
  exact w m n o (hst m n o h)

theorem own_setMeta {s : CSt} (w : OwnStage s) (m : Nat) (x : SMeta)
    (hx : ∀ n o, cget n x.clients = some o → cget n (s.st m).clients = some o) : OwnStage (s.setMeta m x) := by
  refine w.less ?_ (fun _ => rfl)
  intro k n o h
  simp only [CSt.setMeta] at h
  by_cases e : k = m
  · subst e; rw [updAt_same] at h; exact hx n o h
  · rw [updAt_ne _ _ e] at h; exact h

theorem own_setState {s : CSt} (w : OwnStage s) (o : Nat) (c : RemState) : OwnStage (s.setState o c) := by
  refine w.less (fun _ _ _ h => h) ?_
  intro k
  simp only [CSt.setState]
  by_cases e : k = o
  · subst e; rw [updAt_same]
  · rw [updAt_ne _ _ e]

theorem cget_cdel_some {k n o : Nat} {l : List (Nat × Nat)} (h : cget k (cdel n l) = some o) : cget k l = some o := by
  by_cases e : k = n
  · subst e; rw [cget_cdel_same] at h; cases h
  · rwa [cget_cdel_ne e] at h

theorem OwnStage.hstep {s s' : CSt} (u : UInv s) (v : HObj s) (w : OwnStage s) {i : Nat} {lost : Bool}
    (h : s.hstep i lost = some s') : OwnStage s' := by
  have fin : ∀ (t : CSt) (c : Nat), OwnStage t → OwnStage (t.finish i c) := fun t c ht => ht.less (fun _ _ _ h => h) (fun _ => rfl)
  have go : ∀ (t : CSt) (hd : Handler) (pc : PC), OwnStage t → OwnStage (t.goto i hd pc) :=
    fun t hd pc ht => ht.less (fun _ _ _ h => h) (fun _ => rfl)
  unfold CSt.hstep at h
  split at h
  · cases h
  · rename_i hd hi
    simp only at h
    split at h
    · cases h
      unfold CSt.lookupStep
      split
      · exact fin _ _ w
      · split
        · exact fin _ _ w
        · split
          · split
            · intro m n o hg
              have hlt := v.clients m n o hg
              dsimp only
              rw [updAt_ne _ _ (by omega)]
              exact w m n o hg
            · exact fin _ _ w
          · split
            · exact fin _ _ w
            · exact w.less (fun _ _ _ h => h) (fun _ => rfl)
    · cases h
      unfold CSt.checkStep
      simp only
      split <;> first | exact fin _ _ w | (split <;> first | exact fin _ _ w | exact go _ _ _ w)
    · split at h
      · cases h
      · rename_i c hc
        split at h
        · cases h
        · split at h
          · cases h
          · cases h
            intro m n o hg
            simp only [CSt.finish, CSt.setMeta] at hg ⊢
            by_cases ho : o = hd.obj
            · subst ho
              rw [updAt_same]
              by_cases e : m = c
              · exact e.symm
              · rw [updAt_ne _ _ e] at hg
                rw [u.only m (by rw [hc]; simpa using fun h => e h.symm)] at hg
                cases hg
            · rw [updAt_ne _ _ ho]
              by_cases e : m = c
              · subst e
                rw [updAt_same] at hg
                simp only at hg
                by_cases en : n = hd.name
                · subst en
                  rw [cget_cset_same] at hg
                  cases hg; exact absurd rfl ho
                · rw [cget_cset_ne _ en] at hg
                  exact w m n o hg
              · rw [updAt_ne _ _ e] at hg
                exact w m n o hg
    · split at h
      · split at h
        · cases h; exact fin _ _ w
        · cases h; exact go _ _ _ w
        · cases h; exact go _ _ _ w
      · cases h; exact go _ _ _ w
    · cases h; exact go _ _ _ (own_setState w _ _)
    · split at h
      · cases h; exact fin _ _ (own_setMeta w _ _ (fun _ _ h => h))
      · cases h
    · split at h
      · cases h; exact go _ _ _ w
      · cases h
    · split at h
      · cases h; exact fin _ _ (own_setMeta w _ _ (fun _ _ h => cget_cdel_some h))
      · cases h; exact go _ _ _ w
    · split at h
      · cases h; exact fin _ _ w
      · cases h; exact w.less (fun _ _ _ h => h) (fun _ => rfl)
    · cases h; exact (own_setState w _ _).less (fun _ _ _ h => h) (fun _ => rfl)
    · cases h; exact go _ _ _ (own_setMeta w _ _ (fun _ _ h => cget_cdel_some h))
    · split at h
      · cases h; exact go _ _ _ (own_setMeta w _ _ (fun _ _ h => h))
      · cases h
    · cases h; exact fin _ _ (own_setState w _ _)
    · split at h
      · cases h; exact fin _ _ w
      · cases h; exact w.less (fun _ _ _ h => h) (fun _ => rfl)

theorem CReach.own {s : CSt} (h : CReach s) : OwnStage s := by
  induction h with
  | init test => intro m n o h; cases h
  | step hr hs ih =>
    rcases step_end hs with ⟨i, lost, hd, hi, h⟩ | e
    · exact ih.hstep hr.uinv hr.hobj h
    · exact ih.less e.clients (fun o => by rw [e.objs])

/-- **C95.** In every reachable state of the server, with any requests in flight: a remote instance that belongs to
the current stage `m` and asks whether to go on is told to stop (205) if the stage is done, and to go
on (200) otherwise. -/
theorem C95_answer {s : CSt} (h : CReach s) {m n o : Nat} (hc : s.cur = some m)
    (hn : cget n (s.st m).clients = some o) :
    ∃ s', s.exec [.arrive .ping n (m + 1) .empty, .handler s.nH false, .handler s.nH false] = some s' ∧
      s'.resp = (s.nH, if (s.st m).done then 205 else 200) :: s.resp ∧ s'.hs s.nH = none ∧ s'.st = s.st := by
  have ho := h.own m n o hn
  simp only [CSt.exec, CSt.step, CSt.hstep, updAt_same, CSt.lookupStep, hc, hn]
  simp only [reduceCtorEq, if_false, ne_eq, not_true_eq_false, and_false, updAt_same, CSt.checkStep, ho]
  cases hd : (s.st m).done
  · exact ⟨_, rfl, rfl, by simp [CSt.finish, updAt_same], rfl⟩
  · exact ⟨_, rfl, rfl, by simp [CSt.finish, updAt_same], rfl⟩

/-- While two instances run the stage, instance 7 is told to go on; after the stage is stopped, to stop. -/
example : CReach (after exRun) ∧ (after exRun).cur = some 0 ∧ (cget 7 ((after exRun).st 0).clients).isSome = true ∧
    (after (exRun ++ [.arrive .ping 7 1 .empty] ++ hsteps 6 2)).resp.head? = some (6, 200) ∧
    (after (exRun ++ [.ctxDone, .arrive .ping 7 1 .empty] ++ hsteps 6 2)).resp.head? = some (6, 205) := by
  refine ⟨after_reach ?_, ?_, ?_, ?_, ?_⟩ <;> decide +kernel

end Finch
