import Verif.Model.Client
import Verif.Model.Stats
/-!
The response times that a client records (client/client.go:281-290, 315-332), with readings of a
monotonic clock (nanoseconds) as inputs of each step of Model/Client.
-/
namespace Finch

/-- A step of a client with times: when it begins and ends and, if it executes a statement, `time.Now()`
before (`start`), when the call is sent and answered, and `time.Now()` after (`stop`). -/
structure TAns where
  ans : Ans
  began : ℤ
  start : ℤ
  sent : ℤ
  answered : ℤ
  stop : ℤ
  ended : ℤ

/-- A client, its variable `t` (client/client.go:213) and what was recorded by trx. -/
structure LState where
  s : CState
  t : ℤ
  events : List (String × TrxEvent)

/-- client/client.go:287-289, 321-332: the event type of a class. -/
def EvClass.ev : EvClass → Ev
  | .read => .read
  | .write => .write
  | .commit => .commit
  | .total => .total

/-- What a step of the client records: `Record(class, us)` or `Error(code)`. -/
def CEv.recorded (us : ℤ) : CEv → Option (String × TrxEvent)
  | .record name k => some (name, .query k.ev us)
  | .errorStat name code => some (name, .error code)
  | _ => none

/-- One step. client/client.go:281, 315: `t = time.Now()` before a statement is executed;
288, 324, 326, 330: `time.Now().Sub(t).Microseconds()` (whole microseconds) after it. -/
def LState.step (c : Cli) (l : LState) (x : TAns) : LState :=
  let s' := l.s.step c x.ans
  let t := match l.s.pc with
    | .exec _ => x.start
    | _ => l.t
  { s := s', t := t
    events := l.events ++ (s'.trace.drop l.s.trace.length).filterMap (CEv.recorded ((x.stop - t).tdiv 1000)) }

/-- A client before it runs. -/
def LState.init : LState := ⟨CState.init, 0, []⟩

/-- A run. -/
def LState.run (c : Cli) (l : LState) (xs : List TAns) : LState := xs.foldl (LState.step c) l

end Finch
