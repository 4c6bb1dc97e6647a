import Verif.Model.Base
/-!
Model of `stage/stage.go:Stage.Run` (118-235): execution groups, their clients as goroutines, the
channel on which clients say that they are done, and the contexts. What a client does until it is done
is in `Model/Client.lean` (it sends to the channel exactly once, C49). Not modelled: log lines, CPU
profile, statistics (see `Model/Collector.lean`), and how long anything takes: the end of the runtime
and CTRL-C are steps that may come at any time, and so is every millisecond of the last wait.
-/
namespace Finch

/-- A client goroutine. `finished`: `Run` is over and the deferred function wants to send to
`DoneChan`; `sent`: the value is in the channel; `received`: the stage has taken it. -/
inductive GoSt where
  | idle | running | finished | sent | received
  deriving DecidableEq, Repr

/-- Where `Stage.Run` is; `e` is the index of the execution group. -/
inductive SPc where
  | head (e : Nat)                 -- line 149
  | start (e j n : Nat)            -- line 154: `j` client groups and `n` clients started
  | wait (e n : Nat)               -- line 177
  | spin (e n k : Nat)             -- line 203: `k` ms left
  | ended
  deriving DecidableEq, Repr

/-- A client: execution group, and number in it (over all client groups). -/
abbrev GoId := Nat × Nat

/-- `chan`: the buffered value of `doneChan` (capacity 1, stage.go:42). -/
structure SState where
  pc : SPc
  st : GoId → GoSt
  chan : Option GoId
  stageDone : Bool
  finchDone : Bool
  /-- warnings "clients did not stop": execution group and number of clients -/
  warned : List (Nat × Nat)

def SState.init : SState := ⟨.head 0, fun _ => .idle, none, false, false, []⟩

/-- What can happen next. The first group are steps of `Stage.Run`; when several cases of a `select`
are ready, Go takes any of them. -/
inductive SAct where
  | next | recv | seeStage | seeFinch | tick
  | stop (c : GoId) | send (c : GoId)
  | expire | cancel
  deriving DecidableEq, Repr

def setGo (st : GoId → GoSt) (c : GoId) (x : GoSt) : GoId → GoSt := fun d => if d = c then x else st d

/-- stage/stage.go:169-171: start `k` clients of group `e` from number `n` on. -/
def startClients (st : GoId → GoSt) (e n k : Nat) : GoId → GoSt :=
  fun c => if c.1 = e ∧ n ≤ c.2 ∧ c.2 < n + k then .running else st c

/-- One step. `groups`: for each execution group the numbers of clients of its client groups. An
action that is not possible changes nothing. -/
def SState.step (groups : List (List Nat)) (s : SState) : SAct → SState
  | .next =>
    match s.pc with
    | .head e =>                                                    -- 149-152
      match groups[e]? with
      | none => { s with pc := .ended }
      | some _ => if s.finchDone then { s with pc := .ended } else { s with pc := .start e 0 0 }
    | .start e j n =>                                               -- 153-172
      match (groups[e]?.getD [])[j]? with
      | none => { s with pc := .wait e n }
      | some k => { s with pc := .start e (j + 1) (n + k), st := startClients s.st e n k }
    | .wait e n => if n = 0 then { s with pc := .head (e + 1) } else s     -- 176
    | .spin e n k =>                                                -- 202, 216
      if k = 0 ∨ n = 0 then
        { s with pc := .head (e + 1), warned := if n = 0 then s.warned else s.warned ++ [(e, n)] }
      else s
    | .ended => s
  | .recv =>
    match s.chan, s.pc with
    | some c, .wait e (n + 1) =>                                    -- 178-183
      { s with pc := .wait e n, chan := none, st := setGo s.st c .received }
    | some c, .spin e (n + 1) (k + 1) =>                            -- 204-209
      { s with pc := .spin e n (k + 1), chan := none, st := setGo s.st c .received }
    | _, _ => s
  | .seeStage =>                                                    -- 184-186
    match s.pc with
    | .wait e (n + 1) => if s.stageDone then { s with pc := .spin e (n + 1) 10 } else s
    | _ => s
  | .seeFinch =>                                                    -- 187-189
    match s.pc with
    | .wait e (n + 1) => if s.finchDone then { s with pc := .spin e (n + 1) 10 } else s
    | _ => s
  | .tick =>                                                        -- 210-212
    match s.chan, s.pc with
    | none, .spin e (n + 1) (k + 1) => { s with pc := .spin e (n + 1) k }
    | _, _ => s
  | .stop c => if s.st c = .running then { s with st := setGo s.st c .finished } else s
  | .send c =>
    if s.st c = .finished ∧ s.chan = none then { s with st := setGo s.st c .sent, chan := some c } else s
  | .expire => { s with stageDone := true }
  | .cancel => { s with stageDone := true, finchDone := true }     -- ctxStage is a child of ctxFinch

/-- A schedule. -/
def SState.run (groups : List (List Nat)) (s : SState) (as : List SAct) : SState :=
  as.foldl (SState.step groups) s

end Finch
