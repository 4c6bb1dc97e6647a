import Verif.Model.Proto
/-!
Model of compute/client.go:49-220: a remote instance that boots and runs one stage of the server. The instance
is a machine that makes one step for each interaction with the server, the file system or the stage;
what comes out of it is an input of the step. While the stage runs, a second goroutine asks the server (GET
/ping) whether to go on; its steps are interleaved with those of the first one in any order. Retries of a
request are in `Model/Proto.lean`; here a request has one outcome. Not modelled: log lines, sleeping.
-/
namespace Finch

/-- What came of a step: an error, the response 200 (or success of a local step), or the response 205. -/
inductive RRes where
  | fail
  | ok
  | reset
  deriving DecidableEq, Repr

/-- What a remote instance does. `postBoot true` reports an error, `finished true` returns one. -/
inductive REv where
  | getBoot
  | decode
  | mkdir
  | getFile (i : Nat)
  | collector
  /-- `Prepare` was called; did it return an error -/
  | prepare (err : Bool)
  | postBoot (err : Bool)
  | getRun
  /-- the stage begins to run -/
  | start
  | ping
  /-- `cancelRun` was called by the goroutine that pings -/
  | cancel
  /-- the stage has run -/
  | stopped
  | postRun (err : Bool)
  | finished (err : Bool)
  deriving DecidableEq, Repr

/-- Where `Client.run` is. -/
inductive RPc where
  | getBoot
  | decode
  | mkdir
  /-- compute/client.go:187-220, trx number `i` -/
  | file (i : Nat)
  | collector
  | prepare
  | postErr
  | postBoot
  | getRun
  | running
  | postRun
  | finished (err : Bool)
  deriving DecidableEq, Repr

/-- Where the goroutine of lines 150-172 is: not started, before the look at `doneChan`, in the request, ended. -/
inductive PingPc where
  | none
  | wait
  | ask
  | ended
  deriving DecidableEq, Repr

/-- A remote instance that runs. -/
structure RemSt where
  pc : RPc := .getBoot
  ping : PingPc := .none
  /-- `ctxRun` is cancelled (or `ctxFinch`, of which it is a child) -/
  cancelled : Bool := false
  /-- `doneChan` is closed (line 147, when `run` returns) -/
  doneClosed : Bool := false
  trace : List REv := []
  deriving DecidableEq, Repr

def RemSt.log (s : RemSt) (e : REv) : RemSt := { s with trace := s.trace ++ [e] }

def RemSt.goto (s : RemSt) (pc : RPc) : RemSt := { s with pc := pc }

/-- `return err` or `return nil` in `run`. -/
def RemSt.finish (s : RemSt) (err : Bool) : RemSt :=
  { s.log (.finished err) with pc := .finished err, doneClosed := true }

/-- compute/client.go:63-185, the next step of `run`. `local_ i`: the file of trx `i` of the stage exists on
this instance; `n`: number of trx. The stage has run (line 174) when the environment says so; its result is not
looked at. -/
def RemSt.main (local_ : Nat → Bool) (n : Nat) (s : RemSt) (a : RRes) : RemSt :=
  match s.pc with
  -- lines 65-72
  | .getBoot => let s := s.log .getBoot; if a = .fail then s.finish true else s.goto .decode
  -- lines 74-76; a response 205 has no body (proto/proto.go:88-89), which cannot be decoded
  | .decode => let s := s.log .decode; if a = .ok then s.goto .mkdir else s.finish true
  -- lines 82-91
  | .mkdir => let s := s.log .mkdir; if a = .fail then s.finish true else s.goto (.file 0)
  -- lines 92-94, 187-220 (a file that cannot be written counts as a failed request)
  | .file i =>
    if i < n then
      if local_ i then s.goto (.file (i + 1))
      else
        let s := s.log (.getFile i)
        if a = .fail then s.finish true else s.goto (.file (i + 1))
    else s.goto .collector
  -- lines 98-112
  | .collector => let s := s.log .collector; if a = .fail then s.finish true else s.goto .prepare
  -- lines 115-120
  | .prepare => if a = .fail then (s.log (.prepare true)).goto .postErr else (s.log (.prepare false)).goto .postBoot
  | .postErr => (s.log (.postBoot true)).finish true
  -- lines 122-127
  | .postBoot => let s := s.log (.postBoot false); if a = .fail then s.finish true else s.goto .getRun
  -- lines 133-141, 145-172
  | .getRun =>
    let s := s.log .getRun
    match a with
    | .fail => s.finish true
    | .reset => s.finish false
    | .ok => { (s.log .start).goto .running with ping := .wait }
  -- lines 174-175
  | .running => (s.log .stopped).goto .postRun
  -- lines 178-184: `err` is still nil, it is not assigned in line 174
  | .postRun => (s.log (.postRun false)).finish false
  | .finished _ => s

/-- compute/client.go:150-172, the next step of the goroutine. -/
def RemSt.pingStep (s : RemSt) (a : RRes) : RemSt :=
  match s.ping with
  | .wait => if s.doneClosed then { s with ping := .ended, cancelled := true } else { s with ping := .ask }
  | .ask =>
    if a = .ok then { s.log .ping with ping := .wait }
    else { (s.log .ping).log .cancel with ping := .ended, cancelled := true }
  | _ => s

/-- What can happen: a step of `run`, a step of the other goroutine, CTRL-C on this instance. -/
inductive RemAct where
  | main (a : RRes)
  | ping (a : RRes)
  | ctrlC
  deriving DecidableEq, Repr

def RemSt.step (local_ : Nat → Bool) (n : Nat) (s : RemSt) : RemAct → RemSt
  | .main a => s.main local_ n a
  | .ping a => s.pingStep a
  | .ctrlC => { s with cancelled := true }

/-- A run of the instance. -/
def RemSt.run (local_ : Nat → Bool) (n : Nat) (s : RemSt) (as : List RemAct) : RemSt :=
  as.foldl (RemSt.step local_ n) s

/-- compute/client.go:49-61, `Client.Run` with the result of `run`: an error is logged, `nil` is returned. -/
def RemSt.runError (s : RemSt) (ctxDone : Bool) : Bool :=
  match s.pc with
  | .finished true => if ctxDone then false else false
  | _ => false

/-- boot/boot.go:87-91 and bin/finch/main.go:11-15: the exit status of `finch --client`. Not modelled: the exit 7.5 s after
CTRL-C (boot/boot.go:68-72). -/
def RemSt.exitStatus (s : RemSt) (ctxDone : Bool) : Nat := if s.runError ctxDone then 1 else 0

end Finch
