import Verif.Model.ShutTime
/-!
Model of the goroutine by which a remote instance sees that its stage was stopped or that the server is lost
(compute/client.go:151-172), in time. Times are milliseconds. Inputs: how long each sleep takes, and the result and the
duration of each attempt of a request (`Model/RemoteTime.lean`).
-/
namespace Finch

/-- Why the run was cancelled. -/
inductive PingEnd where
  | lost
  | stopped
  deriving DecidableEq

/-- compute/client.go:153-172: the time at which the goroutine is, and whether and why it has cancelled the run. Each turn is a
sleep and a request. (The end of the run, line 156, is not an input: the loop is looked at while the stage runs.) -/
def pingLoop (now : Nat) : List (Nat × List (Attempt × Nat)) → Nat × Option PingEnd
  | [] => (now, none)
  | (sleep, as) :: rest =>
    let t := now + sleep + reqTime pingLimit.tries pingLimit.wait 0 as
    match (request pingLimit.tries [] (as.map (·.1))).2 with
    | none => (t, none)
    | some (.ok code _) => if code = 205 then (t, some .stopped) else pingLoop t rest
    | some _ => (t, some .lost)

end Finch
