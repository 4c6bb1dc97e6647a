import Verif.Model.Collector
/-!
Model of stats/remote.go: the reporter of a remote instance, which queues statistics for a goroutine that sends
them to the server. The collector of a remote instance waits for one instance only (compute/client.go:109), so each
`Collect` calls `Report` with the local instance. Sending is one step (retries: `Model/Proto.lean`); the body is encoded
when it begins. Not modelled: a `Collect` while the body is being encoded, and the timeout of 5 s in `Stop`.
-/
namespace Finch

/-- stats/remote.go:18-24 and the fields of the collector that matter. -/
structure RRep (α : Type) where
  /-- `c.local.Interval` -/
  interval : Nat := 0
  /-- what `c.local.Total` and `c.local.Trx` point at -/
  cur : α
  /-- `statsChan`: copies of `c.local`; a copy has its own interval number but shares the pointers -/
  queue : List Nat := []
  /-- `statsChan` is closed -/
  closed : Bool := false
  /-- `doneChan` is closed -/
  ended : Bool := false
  /-- history: bodies of the requests and whether they arrived -/
  sent : List (Nat × α × Bool) := []
  /-- history: intervals that were dropped -/
  dropped : List Nat := []
  deriving DecidableEq, Repr

/-- stats/remote.go:28-40 `NewServer`. -/
def RRep.new {α : Type} (zero : α) : RRep α := { cur := zero }

/-- stats/remote.go:32: capacity of `statsChan`. -/
def rrepCap : Nat := 5

/-- stats/remote.go:42-58 `Report` with `n` instances, the first of which is the local one. -/
def RRep.report {α : Type} (r : RRep α) (n : Nat) : Res (RRep α) :=
  if n ≠ 1 then .panic
  -- sending on a closed channel panics, also in a select
  else if r.closed then .panic
  else if r.queue.length < rrepCap then .ok { r with queue := r.queue ++ [r.interval] }
  else .ok { r with dropped := r.dropped ++ [r.interval] }

/-- stats/collector.go:292-339 with one instance: a new interval with statistics `v`, then `Report`. -/
def RRep.collect {α : Type} (r : RRep α) (v : α) : Res (RRep α) :=
  RRep.report { r with interval := r.interval + 1, cur := v } 1

/-- stats/remote.go:60-62 `Stop`. -/
def RRep.stop {α : Type} (r : RRep α) : Res (RRep α) :=
  if r.closed then .panic else .ok { r with closed := true }

/-- stats/remote.go:71-81 `report`: one turn of the loop, if there is something to do. -/
def RRep.send {α : Type} (r : RRep α) (ok : Bool) : RRep α :=
  match r.queue with
  | k :: q => { r with queue := q, sent := r.sent ++ [(k, r.cur, ok)] }
  | [] => if r.closed then { r with ended := true } else r

/-- What can happen. -/
inductive RRepOp (α : Type) where
  | collect (v : α)
  | send (ok : Bool)
  | stop
  deriving DecidableEq, Repr

def RRep.step {α : Type} (r : RRep α) : RRepOp α → Res (RRep α)
  | .collect v => r.collect v
  | .send ok => .ok (r.send ok)
  | .stop => r.stop

def RRep.run {α : Type} (r : RRep α) : List (RRepOp α) → Res (RRep α)
  | [] => .ok r
  | op :: ops =>
    match r.step op with
    | .ok r => r.run ops
    | .panic => .panic

end Finch
