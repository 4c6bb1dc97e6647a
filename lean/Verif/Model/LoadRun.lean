import Verif.Model.StageRun
import Verif.Model.Limit
/-!
A stage that loads data: `Verif.Model.StageRun` together with the row limits of statements, which all clients that execute
the statement share (trx/trx.go:57, 284: `Statement.Limit` is a pointer, workload/workload.go:222-225: clients get the pointers of
the statements of the trx set). A client asks the limit before it executes the statement (client/client.go:310-313) and
tells it how many rows the statement affected (client/client.go:336-339).
-/
namespace Finch

/-- limit/data.go:24-60: the row limits in a limit of a statement, which may be a combination. Sizes are not in it: what they
answer is part of what the world answers. A nil `*Rows` (rows: 0) is left out; its methods panic (`C23`). -/
def Lim.rowLimits : Lim → List Rows
  | .rows none => []
  | .rows (some r) => [r]
  | .size _ => []
  | .or a b => a.rowLimits ++ b.rowLimits

/-- The stage with its clients; the row limits of each statement, by the address of its limit; and, as history, how many rows
the statements with this limit affected. -/
structure LoadRunSt where
  run : RunSt
  rows : Nat → List Rows
  written : Nat → Nat

def LoadRunSt.init (rows : Nat → List Rows) : LoadRunSt := ⟨RunSt.init, rows, fun _ => 0⟩

/-- client/client.go:311, limit/data.go:58-60, 108-116: what `Limit.More` answers to client `k`, whose statement `i` has the limit
at `addr k i`: all row limits have more and, if there are sizes (`a.more`), they too. -/
def limitAns (addr : Nat → Nat → Nat) (rows : Nat → List Rows) (j : Joint) (k : Nat) (a : Ans) : Ans :=
  match (j.cl k).pc with
  | .limit i => { a with more := (rows (addr k i)).all Rows.more && a.more }
  | _ => a

/-- The events of a step of a client. -/
def newEvents (s s' : CState) : List CEv := s'.trace.drop s.trace.length

/-- client/client.go:336-339: in this step, has the client told the limit of a statement how many rows were affected; the
number of the statement. -/
def toldLimit (j j' : Joint) (k : Nat) : Option Nat :=
  match (j.cl k).pc with
  | .exec i => if CEv.affected i ∈ newEvents (j.cl k) (j'.cl k) then some i else none
  | _ => none

/-- What the world answers to a step, with the row limits. -/
def LoadRunSt.answer (addr : Nat → Nat → Nat) (groups : List (List Nat)) (s : LoadRunSt) : RAct → RAct
  | .stage a => .stage a
  | .client c a => .client c (limitAns addr s.rows s.run.joint (goIndex groups c) a)

/-- One step; `n` is the number of rows that the statement affects if it is executed in this step. -/
def LoadRunSt.step (addr : Nat → Nat → Nat) (tbl : GoMap Nat Nat) (groups : List (List Nat)) (cs : List AClient) (s : LoadRunSt)
    (a : RAct) (n : Nat) : LoadRunSt :=
  let r := s.run.step tbl groups cs (s.answer addr groups a)
  match a with
  | .stage _ => { s with run := r }
  | .client c _ =>
    match toldLimit s.run.joint r.joint (goIndex groups c) with
    | none => { s with run := r }
    | some i =>
      let p := addr (goIndex groups c) i
      ⟨r, upd s.rows p ((s.rows p).map (·.affected n)), upd s.written p (s.written p + n)⟩

/-- A schedule. -/
def LoadRunSt.play (addr : Nat → Nat → Nat) (tbl : GoMap Nat Nat) (groups : List (List Nat)) (cs : List AClient) (s : LoadRunSt)
    (l : List (RAct × Nat)) : LoadRunSt :=
  l.foldl (fun s x => s.step addr tbl groups cs x.1 x.2) s

end Finch
