import Verif.Model.Collector
/-!
Model of a stage on one compute instance in time: statistics are recorded, collected by the ticker (stats/collector.go:147-158)
and by `Stop` (stats/collector.go:229-258), which decides by the time of the last report whether to collect again. Times are
in any unit, like `time.Duration`. What is recorded are events with their times, so that the statistics of an interval are the
list of its events.
-/
namespace Finch

/-- The collector, its clock and what was recorded since the last collection (the active statistics of all trx). -/
structure FinalSt (β : Type) where
  coll : Coll (List (Nat × β))
  now : Nat := 0
  buf : List (Nat × β) := []
  /-- `c.reported`, `none` while it is the zero time -/
  reported : Option Nat := none
  stopped : Option Bool := none
  deriving DecidableEq

def FinalSt.new {β : Type} : FinalSt β := { coll := Coll.new 1 [] }

inductive FinalOp (β : Type) where
  | wait (d : Nat)
  | record (e : β)
  | tick
  | stop
  deriving DecidableEq

/-- stats/collector.go:243-248: `lastReported < c.Freq/2`. The time since the zero time is more than any frequency. -/
def recentReport (freq : Nat) (reported : Option Nat) (now : Nat) : Bool :=
  match reported with
  | none => false
  | some t => decide (now - t < freq / 2)

/-- One step, `none` if it is not possible: the ticker runs only with a frequency, and nothing is recorded or collected
after Stop. -/
def FinalSt.step {β : Type} (freq : Nat) (s : FinalSt β) : FinalOp β → Option (FinalSt β)
  | .wait d => some { s with now := s.now + d }
  | .record e => if s.stopped.isNone then some { s with buf := s.buf ++ [(s.now, e)] } else none
  | .tick =>
    if s.stopped.isNone && decide (freq ≠ 0) then
      match s.coll.collect s.buf with
      | .ok (c, r) => some { s with coll := c, buf := [], reported := if r then some s.now else s.reported }
      | .panic => none
    else none
  | .stop =>
    if s.stopped.isNone then
      match stopBegin s.coll (decide (freq = 0)) (recentReport freq s.reported s.now) s.buf with
      | .ok st =>
        some { s with
          coll := st.coll, stopped := st.ret
          buf := if freq ≠ 0 ∧ recentReport freq s.reported s.now = true then s.buf else [] }
      | .panic => none
    else none

def FinalSt.run {β : Type} (freq : Nat) (s : FinalSt β) : List (FinalOp β) → Option (FinalSt β)
  | [] => some s
  | op :: ops => (s.step freq op).bind fun s => s.run freq ops

end Finch
