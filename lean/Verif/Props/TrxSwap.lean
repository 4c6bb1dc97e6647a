import Verif.Model.Stats
import Mathlib.Data.List.Perm.Basic
/-!
C28: the double buffer neither duplicates events nor loses more than one per swap.
-/
namespace Finch

/-- Event of a client that has loaded a buffer and not recorded yet. -/
def RecPc.pending : RecPc → List TrxEvent
  | .idle => []
  | .loaded _ e => [e]

/-- Events that will be in a later collection or get lost. -/
def TrxState.unread (s : TrxState) : List TrxEvent :=
  s.bufA.drop s.readA ++ s.bufB.drop s.readB

/-- 1 if the client is about to record into buffer `x`. -/
def RecPc.on (x : Bool) : RecPc → Nat
  | .loaded y _ => if y = x then 1 else 0
  | .idle => 0

/-- Invariant of the double buffer. -/
structure TrxInv (s : TrxState) : Prop where
  all : s.recorded.Perm (s.reported ++ (s.lost ++ (s.unread ++ s.pc.pending)))
  lost_le : s.lost.length ≤ s.swaps
  active : (s.onA = true → s.readA = 0) ∧ (s.onA = false → s.readB = 0)
  toRead : ∀ x, s.toRead = some x → s.onA = !x ∧ (x = true → s.readA = 0) ∧ (x = false → s.readB = 0)
  stale : s.toRead = none →
    (s.onA = false → (s.bufA.drop s.readA).length + s.pc.on true ≤ 1) ∧
    (s.onA = true → (s.bufB.drop s.readB).length + s.pc.on false ≤ 1)
  le : s.readA ≤ s.bufA.length ∧ s.readB ≤ s.bufB.length

theorem trxInv_init : TrxInv TrxState.init := by
  refine ⟨by simp [TrxState.init, TrxState.unread, RecPc.pending], by simp [TrxState.init], ?_, ?_, ?_, ?_⟩ <;>
    simp [TrxState.init, RecPc.on]

theorem perm_of_count {α} [DecidableEq α] {a b : List α} (h : ∀ x, a.count x = b.count x) : a.Perm b :=
  List.perm_iff_count.2 h

theorem trxInv_step {s : TrxState} (h : TrxInv s) (st : TrxStep) : TrxInv (s.step st) := by
  obtain ⟨hall, hlost, hact, htr, hst, hle⟩ := h
  have hc := List.perm_iff_count.1 hall
  obtain ⟨bufA, bufB, onA, pc, toRead, readA, readB, recorded, reported, lost, swaps⟩ := s
  simp only [TrxState.unread, List.count_append] at hc hlost hact htr hst hle
  cases st with
  | load e =>
    cases pc with
    | loaded y e' => exact ⟨hall, hlost, hact, htr, hst, hle⟩
    | idle =>
      refine ⟨perm_of_count fun x => ?_, hlost, hact, htr, ?_, hle⟩
      · have := hc x
        simp only [TrxState.step, TrxState.unread, RecPc.pending, List.count_append, List.count_nil] at *
        omega
      · intro hn
        have := hst hn
        simp only [TrxState.step, RecPc.on] at *
        constructor <;> intro ho <;> subst ho <;> simp at * <;> omega
  | write =>
    cases pc with
    | idle => exact ⟨hall, hlost, hact, htr, hst, hle⟩
    | loaded y e =>
      have hdA : (bufA ++ [e]).drop readA = bufA.drop readA ++ [e] := by
        rw [List.drop_append_of_le_length hle.1]
      have hdB : (bufB ++ [e]).drop readB = bufB.drop readB ++ [e] := by
        rw [List.drop_append_of_le_length hle.2]
      cases y
      · refine ⟨perm_of_count fun x => ?_, hlost, hact, htr, ?_, ?_⟩
        · have := hc x
          simp only [TrxState.step, TrxState.unread, RecPc.pending, List.count_append, List.count_nil, hdB] at *
          omega
        · intro hn
          have := hst hn
          simp only [TrxState.step, RecPc.on, hdB] at *
          constructor <;> intro ho <;> subst ho <;> simp at * <;> omega
        · simp only [TrxState.step, List.length_append]; omega
      · refine ⟨perm_of_count fun x => ?_, hlost, hact, htr, ?_, ?_⟩
        · have := hc x
          simp only [TrxState.step, TrxState.unread, RecPc.pending, List.count_append, List.count_nil, hdA] at *
          omega
        · intro hn
          have := hst hn
          simp only [TrxState.step, RecPc.on, hdA] at *
          constructor <;> intro ho <;> subst ho <;> simp at * <;> omega
        · simp only [TrxState.step, List.length_append]; omega
  | swap =>
    cases toRead with
    | some x => exact ⟨hall, hlost, hact, htr, hst, hle⟩
    | none =>
      have hs := hst rfl
      cases onA
      · have hs := hs.1 rfl
        refine ⟨perm_of_count fun x => ?_, ?_, ?_, ?_, ?_, ?_⟩
        · have := hc x
          simp only [TrxState.step, TrxState.unread, List.count_append, Bool.false_eq_true, if_false,
            List.drop_nil, List.count_nil] at *
          omega
        · simp only [TrxState.step, Bool.false_eq_true, if_false, List.length_append] at *; omega
        · simp [TrxState.step]
        · intro x hx
          simp only [TrxState.step, Bool.false_eq_true, if_false, Option.some.injEq] at hx ⊢
          subst hx; simp; exact hact.2 rfl
        · intro hn; simp [TrxState.step] at hn
        · simp [TrxState.step]; exact hle.2
      · have hs := hs.2 rfl
        refine ⟨perm_of_count fun x => ?_, ?_, ?_, ?_, ?_, ?_⟩
        · have := hc x
          simp only [TrxState.step, TrxState.unread, List.count_append, if_true,
            List.drop_nil, List.count_nil] at *
          omega
        · simp only [TrxState.step, if_true, List.length_append] at *; omega
        · simp [TrxState.step]
        · intro x hx
          simp only [TrxState.step, if_true, Option.some.injEq] at hx ⊢
          subst hx; simp; exact hact.1 rfl
        · intro hn; simp [TrxState.step] at hn
        · simp [TrxState.step]; exact hle.1
  | read =>
    cases toRead with
    | none => exact ⟨hall, hlost, hact, htr, hst, hle⟩
    | some x =>
      obtain ⟨ho, hr1, hr2⟩ := htr x rfl
      have ho : onA = !x := ho
      subst ho
      cases x
      · have hr : readB = 0 := hr2 rfl
        subst hr
        refine ⟨perm_of_count fun x => ?_, hlost, ?_, ?_, ?_, ?_⟩
        · have := hc x
          simp only [TrxState.step, TrxState.unread, List.count_append, List.drop_zero,
            List.drop_length, List.count_nil] at *
          omega
        · simpa [TrxState.step] using hact
        · simp [TrxState.step]
        · intro _
          cases pc <;> simp [TrxState.step, RecPc.on]; split <;> omega
        · simpa [TrxState.step] using hle.1
      · have hr : readA = 0 := hr1 rfl
        subst hr
        refine ⟨perm_of_count fun x => ?_, hlost, ?_, ?_, ?_, ?_⟩
        · have := hc x
          simp only [TrxState.step, TrxState.unread, List.count_append, List.drop_zero,
            List.drop_length, List.count_nil] at *
          omega
        · simpa [TrxState.step] using hact
        · simp [TrxState.step]
        · intro _
          cases pc <;> simp [TrxState.step, RecPc.on]; split <;> omega
        · simpa [TrxState.step] using hle.2

theorem trxInv_run (steps : List TrxStep) : TrxInv (TrxState.init.run steps) := by
  induction steps using List.reverseRecOn with
  | nil => exact trxInv_init
  | append_singleton steps st ih =>
    have : TrxState.init.run (steps ++ [st]) = (TrxState.init.run steps).step st := by
      simp [TrxState.run]
    rw [this]; exact trxInv_step ih st

/-- **C28.** At every point of every interleaving of a client and the collector, the events that the
client started to record are, each exactly once, either reported, lost, still in a buffer or about
to be recorded. So none is reported twice. -/
theorem C28_each_event_once (steps : List TrxStep) :
    let s := TrxState.init.run steps
    s.recorded.Perm (s.reported ++ (s.lost ++ (s.unread ++ s.pc.pending))) :=
  (trxInv_run steps).all

/-- **C28.** At most one event per swap is lost. -/
theorem C28_at_most_one_lost_per_swap (steps : List TrxStep) :
    (TrxState.init.run steps).lost.length ≤ (TrxState.init.run steps).swaps :=
  (trxInv_run steps).lost_le

/-- Invariant of schedules in which no swap interrupts the recording of an event. -/
structure TrxQuiet (s : TrxState) : Prop where
  lost : s.lost = []
  onActive : ∀ y e, s.pc = .loaded y e → y = s.onA
  clean : s.toRead = none →
    (s.onA = false → s.bufA.drop s.readA = []) ∧ (s.onA = true → s.bufB.drop s.readB = [])

theorem trxQuiet_step {s : TrxState} (h : TrxQuiet s) (hi : TrxInv s) (st : TrxStep)
    (hs : st = .swap → s.pc = .idle) : TrxQuiet (s.step st) := by
  obtain ⟨hlost, hon, hcl⟩ := h
  have htr := hi.toRead
  clear hi
  obtain ⟨bufA, bufB, onA, pc, toRead, readA, readB, recorded, reported, lost, swaps⟩ := s
  simp only at hlost hon hcl hs htr
  subst hlost
  cases st with
  | load e =>
    cases pc with
    | loaded y e' => exact ⟨rfl, hon, hcl⟩
    | idle => exact ⟨rfl, by simp [TrxState.step], hcl⟩
  | write =>
    cases pc with
    | idle => exact ⟨rfl, hon, hcl⟩
    | loaded y e =>
      have := hon y e rfl
      subst this
      cases y
      · exact ⟨rfl, by simp [TrxState.step], by simpa [TrxState.step] using hcl⟩
      · exact ⟨rfl, by simp [TrxState.step], by simpa [TrxState.step] using hcl⟩
  | swap =>
    have hp := hs rfl
    subst hp
    cases toRead with
    | some x => exact ⟨rfl, hon, hcl⟩
    | none =>
      have hcl := hcl rfl
      cases onA
      · refine ⟨?_, by simp [TrxState.step], by simp [TrxState.step]⟩
        simpa [TrxState.step] using hcl.1 rfl
      · refine ⟨?_, by simp [TrxState.step], by simp [TrxState.step]⟩
        simpa [TrxState.step] using hcl.2 rfl
  | read =>
    cases toRead with
    | none => exact ⟨rfl, hon, hcl⟩
    | some x =>
      have ho : onA = !x := (htr x rfl).1
      subst ho
      cases x
      · exact ⟨rfl, hon, by simp [TrxState.step]⟩
      · exact ⟨rfl, hon, by simp [TrxState.step]⟩

/-- No swap of the schedule happens while the client is between loading the buffer and recording. -/
def Uninterrupted (steps : List TrxStep) : Prop :=
  ∀ pre post, steps = pre ++ .swap :: post → (TrxState.init.run pre).pc = .idle

theorem trx_run_append (s : TrxState) (a b : List TrxStep) : s.run (a ++ b) = (s.run a).run b := by
  simp [TrxState.run]

theorem trxQuiet_run (steps : List TrxStep) (h : Uninterrupted steps) :
    TrxQuiet (TrxState.init.run steps) := by
  induction steps using List.reverseRecOn with
  | nil => exact ⟨rfl, by simp [TrxState.run, TrxState.init], by simp [TrxState.run, TrxState.init]⟩
  | append_singleton steps st ih =>
    rw [trx_run_append]
    refine trxQuiet_step (ih fun pre post he => h pre (post ++ [st]) (by simp [he])) (trxInv_run steps)
      st fun hs => ?_
    subst hs
    exact h steps [] rfl

/-- **C28.** If no swap happens while the client is between loading the buffer and recording, no
event is lost. -/
theorem C28_nothing_lost_without_race (steps : List TrxStep) (h : Uninterrupted steps) :
    (TrxState.init.run steps).lost = [] :=
  (trxQuiet_run steps h).lost

/-- **C28.** Then a final collection, after the client has recorded its last event, makes the
reported events exactly the recorded ones. -/
theorem C28_final_collection_completes (steps : List TrxStep) (h : Uninterrupted steps)
    (hpc : (TrxState.init.run steps).pc = .idle) (hr : (TrxState.init.run steps).toRead = none) :
    (TrxState.init.run (steps ++ [.swap, .read])).reported.Perm
      (TrxState.init.run (steps ++ [.swap, .read])).recorded := by
  have hq := trxQuiet_run steps h
  have hi := trxInv_run steps
  rw [trx_run_append]
  have hcl := hq.clean hr
  have hall := hi.all
  have hact := hi.active
  rw [hq.lost] at hall
  have hl := hq.lost
  clear hi hq
  generalize TrxState.init.run steps = s at *
  obtain ⟨bufA, bufB, onA, pc, toRead, readA, readB, recorded, reported, lost, swaps⟩ := s
  simp only at *
  subst hr hpc hl
  cases onA
  · have h1 := hcl.1 rfl
    have h2 := hact.2 rfl
    subst h2
    simp only [TrxState.unread, h1, RecPc.pending, List.nil_append, List.append_nil, List.drop_zero] at hall
    simpa [TrxState.run, TrxState.step] using hall.symm
  · have h1 := hcl.2 rfl
    have h2 := hact.1 rfl
    subst h2
    simp only [TrxState.unread, h1, RecPc.pending, List.nil_append, List.append_nil, List.drop_zero] at hall
    simpa [TrxState.run, TrxState.step] using hall.symm

/-- A schedule without race in which events are recorded in both buffers. -/
example : let steps := [TrxStep.load (.query .read 5), .write, .swap, .load (.error 1213), .write, .read]
    Uninterrupted steps ∧ (TrxState.init.run steps).pc = .idle ∧
      (TrxState.init.run steps).toRead = none ∧ (TrxState.init.run steps).recorded.length = 2 := by
  refine ⟨?_, rfl, rfl, rfl⟩
  intro pre post he
  match pre, he with
  | [a, b], he =>
    simp only [List.cons_append, List.nil_append, List.cons.injEq] at he
    obtain ⟨rfl, rfl, _⟩ := he
    rfl
  | [], he => simp at he
  | [a], he => simp at he
  | [a, b, c], he => simp at he
  | [a, b, c, d], he => simp at he
  | [a, b, c, d, e], he => simp at he
  | a :: b :: c :: d :: e :: f :: pre, he => simp at he

/-- An event can be lost in a race: recorded after its buffer was collected. -/
example : (TrxState.init.run [.load (.query .read 5), .swap, .read, .write, .swap]).lost =
    [.query .read 5] := rfl

end Finch
