import Verif.Model.Rate
import Mathlib.Algebra.Order.Field.Rat
/-!
Rate limits with time: the token bucket of `golang.org/x/time/rate` as limit/rate.go:36,61 uses it
(`NewLimiter(perSecond, 1)`, `Wait` in a loop), and schedules of Model/Rate with the time of every step.
Times are seconds; the limiter's float64 arithmetic is exact here.
-/
namespace Finch

/-- `rate.Limiter` with burst 1: when tokens were last counted, and how many there were. -/
structure Bucket where
  last : ℚ
  tokens : ℚ
  deriving DecidableEq

/-- limit/rate.go:36 `gorate.NewLimiter(perSecond, 1)`: the bucket is full. -/
def Bucket.new (now : ℚ) : Bucket := ⟨now, 1⟩

/-- `Limiter.reserveN(now, 1)`: tokens since the last time, at most 1; one is taken. Returns when the
caller may go on, which is later if there was less than one token. -/
def Bucket.reserve (perSecond : ℚ) (l : Bucket) (now : ℚ) : Bucket × ℚ :=
  let tokens := min 1 (l.tokens + (now - l.last) * perSecond) - 1
  (⟨now, tokens⟩, now + (if tokens < 0 then -tokens / perSecond else 0))

/-- limit/rate.go:58-72: calls of `Wait` one after the other, each with the time of the call and of its
return. A call comes after the return before it (`prev`), and returns when it may go on or later. -/
def Waits (perSecond : ℚ) : Bucket → ℚ → List (ℚ × ℚ) → Prop
  | _, _, [] => True
  | l, prev, c :: cs =>
    prev ≤ c.1 ∧ (l.reserve perSecond c.1).2 ≤ c.2 ∧ Waits perSecond (l.reserve perSecond c.1).1 c.2 cs

/-- A schedule with times. -/
abbrev TSteps := List (ℚ × RStep)

/-- The times at which limiter `i` ticks. -/
def tickTimes (i : Nat) (steps : TSteps) : List ℚ :=
  (steps.filter fun x => x.2 = .tick i).map (·.1)

/-- In a schedule, limiter `i` ticks when `Wait` of a token bucket of `perSecond` returns. -/
def TicksAsConfigured (perSecond : Nat) (i : Nat) (steps : TSteps) : Prop :=
  ∃ t0 calls, Waits perSecond (Bucket.new t0) t0 calls ∧ calls.map (·.2) = tickTimes i steps

/-- The state after a schedule with times. -/
def RState.runT (g : RGraph) (lims : List (Option Nat)) (s : RState) (steps : TSteps) : RState :=
  s.run g lims (steps.map (·.2))

end Finch
