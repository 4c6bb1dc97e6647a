import Verif.Model.Stage
import Verif.Model.Joint
/-!
A stage that runs: `Stage.Run` (`Verif.Model.Stage`, stage/stage.go:118-235) together with its clients
(`Verif.Model.Joint`, client/client.go:173-418). A client makes steps only after `Stage.Run` has started its goroutine
(stage.go:169-171), and when its `Run` is over, its deferred function wants to send to `DoneChan`
(client/client.go:176-196), which is what `Stage.Run` waits for (stage.go:177-183).
-/
namespace Finch

/-- stage/stage.go:154-171: the number of a client among all clients of the stage, in the order of allocation; `groups` has
for each execution group the numbers of clients of its client groups. -/
def goIndex (groups : List (List Nat)) (c : GoId) : Nat := ((groups.take c.1).map List.sum).sum + c.2

/-- Is `Run` of the client over. -/
def CPc.over : CPc → Bool
  | .stopped _ => true
  | _ => false

/-- The stage and its clients. -/
structure RunSt where
  stage : SState
  joint : Joint

def RunSt.init : RunSt := ⟨SState.init, Joint.init⟩

/-- What can happen next: a step of the stage (or the end of a context, or the sending of a client that is over), or a step of
a client. -/
inductive RAct where
  | stage (a : SAct)
  | client (c : GoId) (a : Ans)

/-- One step. -/
def RunSt.step (tbl : GoMap Nat Nat) (groups : List (List Nat)) (cs : List AClient) (s : RunSt) : RAct → RunSt
  | .stage (.stop _) => s                                       -- not by itself
  | .stage a => { s with stage := s.stage.step groups a }
  | .client c a =>
    if s.stage.st c = .running then
      let j := s.joint.step tbl cs (goIndex groups c) a
      ⟨if (j.cl (goIndex groups c)).pc.over then s.stage.step groups (.stop c) else s.stage, j⟩
    else s

/-- A schedule. -/
def RunSt.run (tbl : GoMap Nat Nat) (groups : List (List Nat)) (cs : List AClient) (s : RunSt) (l : List RAct) : RunSt :=
  l.foldl (RunSt.step tbl groups cs) s

end Finch
