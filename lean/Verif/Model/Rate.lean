import Verif.Model.Base
/-!
Model of the rate limiters (limit/rate.go), of how a stage combines them for its clients
(stage/stage.go:86-87, workload/workload.go:139-193) and of the goroutines and channels that pass
permits on. Time is not modelled: one `tick` is one return of `gorate.Limiter.Wait`
(golang.org/x/time/rate, trusted to return at most `perSecond` times a second with burst 1).
-/
namespace Finch

/-- A limiter: a single rate (limit/rate.go:21-26) or a combination of two earlier limiters
(limit/rate.go:78-83). Limiters are numbered in order of creation. -/
inductive RNode where
  | rate (perSecond : Nat)
  | and (a b : Nat)
  deriving DecidableEq, Repr

/-- All limiters of a stage by number. -/
abbrev RGraph := List RNode

/-- limit/rate.go:30-42 `NewRate`; `none` is nil. -/
def newRate (g : RGraph) (perSecond : Nat) : RGraph × Option Nat :=
  if perSecond = 0 then (g, none) else (g ++ [.rate perSecond], some g.length)

/-- limit/rate.go:90-107 `And`. -/
def andRate (g : RGraph) (a b : Option Nat) : RGraph × Option Nat :=
  match a, b with
  | none, none => (g, none)
  | none, some b => (g, some b)
  | some a, none => (g, some a)
  | some a, some b => (g ++ [.and a b], some g.length)

/-- `limit.And(parent, limit.NewRate(n))`, the expression used at every level
(workload/workload.go:139-140, 151-152, 188, 191). -/
def andNew (g : RGraph) (parent : Option Nat) (n : Nat) : RGraph × Option Nat :=
  andRate (newRate g n).1 parent (newRate g n).2

/-- A client group: its limit for all its clients together (qps-clients), the limit of each client
(qps) and the number of clients. -/
structure RateCG where
  clientsQps : Nat
  qps : Nat
  clients : Nat
  deriving DecidableEq, Repr

/-- An execution group: its limit (qps-exec-group) and its client groups. -/
structure RateEG where
  qps : Nat
  groups : List RateCG
  deriving DecidableEq, Repr

/-- workload/workload.go:188-193: the limiter of each client of a client group. -/
def buildClients (g : RGraph) (parent : Option Nat) (qps : Nat) :
    Nat → RGraph × List (Option Nat)
  | 0 => (g, [])
  | n + 1 =>
    let (g, c) := andNew g parent qps
    let (g, cs) := buildClients g parent qps n
    (g, c :: cs)

/-- workload/workload.go:143-193: all client groups of an execution group. -/
def buildGroups (g : RGraph) (parent : Option Nat) : List RateCG → RGraph × List (List (Option Nat))
  | [] => (g, [])
  | cg :: cgs =>
    let (g, p) := andNew g parent cg.clientsQps
    let (g, c) := buildClients g p cg.qps cg.clients
    let (g, cs) := buildGroups g parent cgs
    (g, c :: cs)

/-- workload/workload.go:133-193: all execution groups. (The code builds the limiters for QPS and
for TPS alternately; the two sets have nothing in common and are modelled one at a time.) -/
def buildExecGroups (g : RGraph) (parent : Option Nat) :
    List RateEG → RGraph × List (List (List (Option Nat)))
  | [] => (g, [])
  | eg :: egs =>
    let (g, p) := andNew g parent eg.qps
    let (g, c) := buildGroups g p eg.groups
    let (g, cs) := buildExecGroups g parent egs
    (g, c :: cs)

/-- stage/stage.go:86-87 and workload/workload.go:133-193: all limiters of a stage. The result gives
the limiter of every client by execution group, client group and client; `none` is no limit. -/
def buildStage (stageQps : Nat) (egs : List RateEG) : RGraph × List (List (List (Option Nat))) :=
  buildExecGroups (newRate [] stageQps).1 (newRate [] stageQps).2 egs

/-! ## Permits at run time -/

/-- Channels (capacity 1), the local variables of the `and.run` goroutines and, as history, ticks
and permits received by clients. -/
structure RState where
  /-- is there a permit in the channel of this limiter -/
  chan : Nat → Bool
  /-- variable `a` of `and.run` -/
  flagA : Nat → Bool
  /-- variable `b` of `and.run` -/
  flagB : Nat → Bool
  /-- the goroutine received and is about to test `a && b` (limit/rate.go:145) -/
  testing : Nat → Bool
  /-- returns of `Wait` of this limiter so far -/
  ticks : Nat → Nat
  /-- permits this client received so far -/
  got : Nat → Nat

/-- Initial state: empty channels. -/
def RState.init : RState :=
  ⟨fun _ => false, fun _ => false, fun _ => false, fun _ => false, fun _ => 0, fun _ => 0⟩

/-- Point update of a function. -/
def upd {α : Type} (f : Nat → α) (k : Nat) (v : α) : Nat → α := fun x => if x = k then v else f x

/-- One atomic action. -/
inductive RStep where
  /-- `Wait` of rate limiter `i` returns and its goroutine sends or drops (limit/rate.go:61-72) -/
  | tick (i : Nat)
  /-- goroutine of `j` receives from its first limiter (limit/rate.go:140-141) -/
  | recvA (j : Nat)
  /-- goroutine of `j` receives from its second limiter (limit/rate.go:142-143) -/
  | recvB (j : Nat)
  /-- goroutine of `j` tests and sends or drops (limit/rate.go:145-153) -/
  | test (j : Nat)
  /-- client `c` receives a permit (client/client.go:259-266) -/
  | take (c : Nat)
  deriving DecidableEq, Repr

/-- Effect of an action, for limiters `g` and clients with limiters `lims`. An action that is not
possible (channel empty, wrong kind of limiter, client without a limiter) changes nothing. -/
def RState.step (g : RGraph) (lims : List (Option Nat)) (s : RState) : RStep → RState
  | .tick i =>
    match g[i]? with
    | some (.rate _) => { s with chan := upd s.chan i true, ticks := upd s.ticks i (s.ticks i + 1) }
    | _ => s
  | .recvA j =>
    match g[j]? with
    | some (.and a _) =>
      if s.testing j = false ∧ s.chan a = true then
        { s with
          chan := upd s.chan a false
          flagA := upd s.flagA j true
          testing := upd s.testing j true }
      else s
    | _ => s
  | .recvB j =>
    match g[j]? with
    | some (.and _ b) =>
      if s.testing j = false ∧ s.chan b = true then
        { s with
          chan := upd s.chan b false
          flagB := upd s.flagB j true
          testing := upd s.testing j true }
      else s
    | _ => s
  | .test j =>
    match g[j]? with
    | some (.and _ _) =>
      if s.testing j = true then
        if s.flagA j = true ∧ s.flagB j = true then
          { s with
            chan := upd s.chan j true
            flagA := upd s.flagA j false
            flagB := upd s.flagB j false
            testing := upd s.testing j false }
        else { s with testing := upd s.testing j false }
      else s
    | _ => s
  | .take c =>
    match lims[c]? with
    | some (some l) =>
      if s.chan l = true then
        { s with chan := upd s.chan l false, got := upd s.got c (s.got c + 1) }
      else s
    | _ => s

/-- A whole schedule. -/
def RState.run (g : RGraph) (lims : List (Option Nat)) (s : RState) (steps : List RStep) : RState :=
  steps.foldl (RState.step g lims) s

end Finch
