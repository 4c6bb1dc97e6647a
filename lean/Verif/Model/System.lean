import Verif.Model.Compute
import Verif.Model.Remote
/-!
Model of a distributed run as a whole: the server of `Model/Compute.lean` (compute/server.go, compute/api.go) and any
number of remote instances of `Model/Remote.lean` (compute/client.go), which send requests to it
(proto/proto.go:52-104). The instances have different names; the name of an instance is a number. The steps of all of
them are interleaved in any order.

What is added: a step of an instance that needs the server sends a request (`send`), which the server handles in a
goroutine of its own, and the instance goes on with the response (`recv`). The response is received when the handler
has returned: `net/http` buffers it until then, as no handler flushes it and all are shorter than the buffer or
end with the write. A response other than 200 or 205 makes the instance send the request again
(proto/proto.go:82-103). Requests and responses can be lost (`lose`, `lost` of a handler), and an instance can give up
after its last attempt (`giveUp`); the numbers of attempts are left out. Statistics (`stats`) are sent by another goroutine
and their responses are left out.
-/
namespace Finch

/-- What an instance is: its program, `StageId` of its `proto.Client`, the requests of `run` and of the
goroutine that pings which wait for a response. -/
structure RInst where
  rs : RemSt := {}
  sid : Nat := 0
  req : Option Nat := none
  preq : Option Nat := none
  deriving DecidableEq, Repr

/-- What is given: which trx files exist on an instance, the number of trx of each stage (by id). -/
structure SysCfg where
  local_ : Nat → Nat → Nat → Bool
  nTrx : Nat → Nat

/-- The whole system. `cfg i`: the stage id in the response to request `i` (GET /boot); `dones m`: the acks sent to
`doneChan` of stage `m` so far (`none` is the local instance), which is bookkeeping of the model. -/
structure Sys where
  c : CSt := {}
  r : Nat → RInst := fun _ => {}
  cfg : Nat → Nat := fun _ => 0
  dones : Nat → List (Option Nat) := fun _ => []

/-- The request that `run` makes at each place, with its body; `none` if it needs no server.
compute/client.go:69, 118, 124, 133, 180, 199. -/
def RPc.request (local_ : Nat → Bool) (n : Nat) : RPc → Option (ReqKind × HBody)
  | .getBoot => some (.getBoot, .empty)
  | .file i => if i < n ∧ local_ i = false then some (.file, .empty) else none
  | .postErr => some (.postBoot, .error)
  | .postBoot => some (.postBoot, .empty)
  | .getRun => some (.getRun, .empty)
  | .postRun => some (.postRun, .empty)
  | _ => none

/-- `RPc.request` for the instance `n`. -/
def Sys.request (P : SysCfg) (s : Sys) (n : Nat) : Option (ReqKind × HBody) :=
  (s.r n).rs.pc.request (P.local_ n (s.r n).sid) (P.nTrx (s.r n).sid)

/-- The next step of `run` of the instance `n` with this outcome; no request waits after it. -/
def Sys.mainStep (P : SysCfg) (s : Sys) (n : Nat) (a : RRes) : Sys :=
  { s with r := updAt s.r n { s.r n with
      rs := (s.r n).rs.main (P.local_ n (s.r n).sid) (P.nTrx (s.r n).sid) a, req := none } }

/-- proto/proto.go:82-92. `none`: try again. -/
def respResult (code : Nat) : Option RRes :=
  if code = 200 then some .ok else if code = 205 then some .reset else none

/-- What can happen. -/
inductive YAct where
  /-- a step of the server or of a handler -/
  | srv (a : CAct)
  | send (n : Nat)
  | recv (n : Nat)
  | lose (n : Nat)
  | giveUp (n : Nat)
  /-- a step of an instance without the server -/
  | work (n : Nat) (a : RRes)
  /-- the goroutine that pings: looks at `doneChan`, sends GET /ping, receives the response, gives up -/
  | pingWait (n : Nat)
  | pingSend (n : Nat)
  | pingRecv (n : Nat)
  | pingLost (n : Nat)
  | stats (n : Nat)
  | ctrlC (n : Nat)
  deriving DecidableEq, Repr

/-- A request of the instance `n` arrives at the server. -/
def CSt.arriveReq (c : CSt) (k : ReqKind) (n sid : Nat) (b : HBody) : CSt :=
  { c with hs := updAt c.hs c.nH (some { kind := k, name := n, sid := sid, body := b }), nH := c.nH + 1 }

/-- compute/api.go:187-197: the stage sent in the response to GET /boot. -/
def Sys.noteCfg (s : Sys) (i : Nat) : Nat → Nat :=
  match s.c.hs i, s.c.cur with
  | some h, some m => if h.pc = .join then updAt s.cfg i (m + 1) else s.cfg
  | _, _ => s.cfg

/-- compute/api.go:353: bookkeeping. -/
def Sys.noteDone (s : Sys) (i : Nat) : Nat → List (Option Nat) :=
  match s.c.hs i with
  | some h =>
    if h.pc = .sendDone then
      updAt s.dones (s.c.objs h.obj).stage (s.dones (s.c.objs h.obj).stage ++ [some h.name])
    else s.dones
  | none => s.dones

/-- A step of the server or of one of its handlers; requests arrive only by `send`. -/
def Sys.srvStep (s : Sys) (a : CAct) : Option Sys :=
  match a with
  | .arrive _ _ _ _ => none
  | .handler i lost =>
    (s.c.hstep i lost).map fun c => { s with c := c, cfg := s.noteCfg i, dones := s.noteDone i }
  | .localDone m =>
    (s.c.step (.localDone m)).map fun c => { s with c := c, dones := updAt s.dones m (s.dones m ++ [none]) }
  | a => (s.c.step a).map fun c => { s with c := c }

/-- One step of the system; `none` if it is not possible. -/
def Sys.step (P : SysCfg) (s : Sys) : YAct → Option Sys
  | .srv a => s.srvStep a
  | .send n =>
    match s.request P n, (s.r n).req with
    | some (k, b), none =>
      some { s with
        c := s.c.arriveReq k n (s.r n).sid b
        r := updAt s.r n { s.r n with req := some s.c.nH } }
    | _, _ => none
  | .recv n =>
    match (s.r n).req with
    | none => none
    | some i =>
      match s.c.hs i, s.c.resp.lookup i with
      | none, some code =>
        match respResult code with
        | none => some { s with r := updAt s.r n { s.r n with req := none } }
        | some a =>
          let sid := if (s.r n).rs.pc = .getBoot then s.cfg i else (s.r n).sid
          some ({ s with r := updAt s.r n { s.r n with sid := sid } }.mainStep P n a)
      | _, _ => none
  | .lose n => some { s with r := updAt s.r n { s.r n with req := none } }
  | .giveUp n => if (s.request P n).isSome then some (s.mainStep P n .fail) else none
  | .work n a => if (s.request P n).isSome then none else some (s.mainStep P n a)
  | .pingWait n =>
    if (s.r n).rs.ping = .wait then
      some { s with r := updAt s.r n { s.r n with rs := (s.r n).rs.pingStep .ok } }
    else none
  | .pingSend n =>
    if (s.r n).rs.ping = .ask ∧ (s.r n).preq = none then
      some { s with
        c := s.c.arriveReq .ping n (s.r n).sid .empty
        r := updAt s.r n { s.r n with preq := some s.c.nH } }
    else none
  | .pingRecv n =>
    match (s.r n).preq with
    | none => none
    | some i =>
      match s.c.hs i, s.c.resp.lookup i with
      | none, some code =>
        match respResult code with
        | none => some { s with r := updAt s.r n { s.r n with preq := none } }
        | some a => some { s with r := updAt s.r n { s.r n with rs := (s.r n).rs.pingStep a, preq := none } }
      | _, _ => none
  | .pingLost n =>
    if (s.r n).rs.ping = .ask then
      some { s with r := updAt s.r n { s.r n with rs := (s.r n).rs.pingStep .fail, preq := none } }
    else none
  | .stats n => some { s with c := s.c.arriveReq .stats n (s.r n).sid .empty }
  | .ctrlC n => some { s with r := updAt s.r n { s.r n with rs := { (s.r n).rs with cancelled := true } } }

/-- A sequence of steps. -/
def Sys.exec (P : SysCfg) (s : Sys) : List YAct → Option Sys
  | [] => some s
  | a :: as =>
    match s.step P a with
    | none => none
    | some s' => Sys.exec P s' as

end Finch
