import Verif.Model.RemoteStats
import Verif.Model.Proto
/-!
Model of the time that requests take (proto/proto.go:68-105) and of the reporter of a remote instance (stats/remote.go) in
time. Times are milliseconds. `http.Client.Do` returns at the latest when the timeout of its context is over (net/http);
encoding and decoding take no time.
-/
namespace Finch

/-- proto/proto.go:68-105: how long a request takes, given how long each attempt took; `wait` is the sleep before the next
attempt (line 102). The last failed attempt is followed by a sleep, too. -/
def reqTime (tries : Int) (wait : Nat) (try_ : Nat) : List (Attempt × Nat) → Nat
  | [] => 0
  | (a, d) :: rest =>
    if moreTries tries try_ then
      let retry := if a.cancelled then d else d + wait + reqTime tries wait (try_ + 1) rest
      match a.res with
      | .doErr => retry
      | .readErr => d
      | .status code _ => if code = 200 then d else if code = 205 then d else retry
    else 0

/-- proto/proto.go:22-26 `R`. -/
structure ReqLimit where
  timeout : Nat
  wait : Nat
  tries : Int
  deriving DecidableEq

/-- stats/remote.go:74. -/
def statsLimit : ReqLimit := ⟨300, 10, 3⟩
/-- compute/client.go:124: boot ack. -/
def bootAckLimit : ReqLimit := ⟨1000, 100, 10⟩
/-- compute/client.go:133: waiting for the run signal. -/
def runWaitLimit : ReqLimit := ⟨60000, 100, 3⟩
/-- compute/client.go:160. -/
def pingLimit : ReqLimit := ⟨500, 100, 5⟩
/-- compute/client.go:180: done signal. -/
def doneLimit : ReqLimit := ⟨500, 100, 3⟩
/-- compute/client.go:199. -/
def fileLimit : ReqLimit := ⟨5000, 100, 3⟩
/-- stats/remote.go:66: how long `Stop` waits. -/
def stopWait : Nat := 5000

/-- Limits of the environment: the least time between two collections, the most time that `Send` takes, the most time
that the goroutine takes to go on when it can. -/
structure RLim where
  gap : Nat
  send : Nat
  wake : Nat
  deriving DecidableEq

/-- The reporter in time. `since`: when the goroutine began to send or, if it is not sending, since when it has been
able to go on. -/
structure RTime (α : Type) where
  r : RRep α
  now : Nat := 0
  last : Option Nat := none
  busy : Bool := false
  since : Nat := 0
  stoppedAt : Option Nat := none
  deriving DecidableEq

def RTime.new {α : Type} (z : α) : RTime α := { r := RRep.new z }

inductive RTOp (α : Type) where
  | wait (d : Nat)
  | collect (v : α)
  | begin (ok : Bool)
  | finish
  | stop
  | fin
  deriving DecidableEq

/-- The goroutine of stats/remote.go:71-81 is not sending and has something to do. -/
def RTime.canGo {α : Type} (s : RTime α) : Bool :=
  !s.busy && (!s.r.queue.isEmpty || (s.r.closed && !s.r.ended))

/-- When the goroutine moves at the latest. -/
def RTime.deadline {α : Type} (L : RLim) (s : RTime α) : Option Nat :=
  if s.busy then some (s.since + L.send) else if s.canGo then some (s.since + L.wake) else none

/-- One step, `none` if it is not possible now. Collections and `Stop` are calls of the collector; `begin`, `finish` and
`fin` are moves of the goroutine: it takes the next from the channel and begins to send, has sent, or sees that the
channel is closed and empty. -/
def RTime.step {α : Type} (L : RLim) (s : RTime α) : RTOp α → Option (RTime α)
  | .wait d => if (s.deadline L).all (fun t => decide (s.now + d ≤ t)) then some { s with now := s.now + d } else none
  | .collect v =>
    if s.last.all (fun t => decide (t + L.gap ≤ s.now)) && !s.r.closed then
      match s.r.collect v with
      | .panic => none
      | .ok r => some { s with r := r, last := some s.now, since := if s.busy || s.canGo then s.since else s.now }
    else none
  | .begin ok =>
    if !s.busy && !s.r.queue.isEmpty then some { s with r := s.r.send ok, busy := true, since := s.now } else none
  | .finish => if s.busy then some { s with busy := false, since := s.now } else none
  | .stop =>
    if s.r.closed then none
    else some { s with r := { s.r with closed := true }, since := if s.busy || s.canGo then s.since else s.now,
                       stoppedAt := some s.now }
  | .fin => if !s.busy && s.r.queue.isEmpty && s.r.closed then some { s with r := s.r.send true } else none

def RTime.run {α : Type} (L : RLim) (s : RTime α) : List (RTOp α) → Option (RTime α)
  | [] => some s
  | op :: ops => (s.step L op).bind fun s => s.run L ops

end Finch
