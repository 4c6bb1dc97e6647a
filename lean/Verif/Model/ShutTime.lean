import Verif.Model.Stage
import Verif.Model.FinalReport
import Verif.Model.RemoteTime
/-!
Model of the time between CTRL-C and the end of the process: the forced exit (boot/boot.go:63-74), the last wait of a
stage (stage/stage.go:202-214, a tick of `Model/Stage.lean` takes the time of a sleep), the waiting loop of
`Collector.Stop` (stats/collector.go:260-277) and the `Stop` of reporters. Times are milliseconds from CTRL-C on. A sleep
can take longer than it should; computing, printing and the other steps take no time unless they are an input.
-/
namespace Finch

/-- stage/stage.go:210-212: the step is a sleep. Line 211 is reached only while the stage waits for clients and none is in
the channel. -/
def isSleep (s : SState) (a : SAct) : Bool :=
  match a, s.chan, s.pc with
  | .tick, none, .spin _ (_ + 1) (_ + 1) => true
  | _, _, _ => false

/-- The time that `Stage.Run` sleeps in a schedule. -/
def spinTime (groups : List (List Nat)) (s : SState) : List (SAct × Nat) → Nat
  | [] => 0
  | (a, d) :: as =>
    (if isSleep s a then d else 0) + spinTime groups (s.step groups a) as

/-- What happens in the waiting loop of `Collector.Stop`: a turn of the loop that sleeps for some time if the timeout is not
over, or statistics of another instance arrive. -/
inductive StopTurn (α : Type) where
  | turn (sleep : Nat)
  | recv (host interval : Nat) (v : α)
  deriving DecidableEq

/-- stats/collector.go:260-277: the loop, from the time `elapsed` since `time.After(timeout)` on; the `select` takes the
timeout if it is over, else sleeps 100 ms and reports if everything is there. -/
def stopLoop {α : Type} (timeout : Nat) (s : Stopping α) (elapsed : Nat) : List (StopTurn α) → Res (Stopping α × Nat)
  | [] => .ok (s, elapsed)
  | .recv h k v :: es =>
    match s.step (.recv h k v) with
    | .ok s => stopLoop timeout s elapsed es
    | .panic => .panic
  | .turn d :: es =>
    if s.ret.isSome then stopLoop timeout s elapsed es
    else
      match s.step (if timeout ≤ elapsed then .timeout else .tick) with
      | .ok s' => stopLoop timeout s' (if timeout ≤ elapsed then elapsed else elapsed + d) es
      | .panic => .panic

/-- stage/stage.go:230: what `Stop` is called with. -/
def collectorTimeout : Nat := 3000

/-- stats/remote.go:61-69: `Stop` of the reporter of a remote instance waits for the goroutine, which ends after `ends` or
never, at most five seconds, and `late`. -/
def serverStop (ends : Option Nat) (late : Nat) : Nat :=
  match ends with
  | some d => if d < stopWait then d else stopWait + late
  | none => stopWait + late

/-- How the process ends: `main` returns, or `os.Exit(1)`. -/
inductive ProcEnd where
  | returned (time : Nat)
  | forced (time : Nat)
  deriving DecidableEq

/-- boot/boot.go:71 -/
def forcedExit : Nat := 7500

/-- boot/boot.go:63-74 and main: `signals` are the times of CTRL-C (the first is taken from the channel, nobody reads
the others), `ret` tells when `Up` returns if the context is cancelled at that time, `late` is how late the timer is.
`none`: the process does not end. -/
def processEnd (signals : List Nat) (ret : Option Nat → Option Nat) (late : Nat) : Option ProcEnd :=
  match signals.min? with
  | none => (ret none).map .returned
  | some t =>
    match ret (some t) with
    | some r => some (if r ≤ t + forcedExit + late then .returned r else .forced (t + forcedExit + late))
    | none => some (.forced (t + forcedExit + late))

end Finch
