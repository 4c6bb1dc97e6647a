/-!
Model of the server side of distributed runs: compute/api.go (handlers of requests of remote instances) and
compute/server.go (the loop over stages). Every handler runs in a goroutine of its own; the model is a
state machine whose steps are the accesses to shared variables, in any order that the environment
chooses. What is atomic: a critical section (`a.Lock`, `stage.Lock`), one access to an unprotected
variable (`client.state`), one channel operation.

Simplified: names of instances and stage ids are numbers (0 is the empty stage id, stage `m` has the id
`m + 1`, as `xid.New` makes unique ids); bodies are empty, an error, or cannot be read; the text of responses is
left out, as are time (the 200 ms between looking for a stage) and logging. `cfg.Test` is never set in the
code, so `close(oldStage.runChan)` in compute/api.go:116-118 is never reached and is left out.
-/
namespace Finch

/-- compute/api.go:28-33. -/
inductive RemState where
  | ready
  | booting
  | runnable
  | running
  deriving DecidableEq, Repr

/-- compute/api.go:48-52. `stage` is meaningful after the object was put into the clients of a stage. -/
structure RObj where
  name : Nat
  stage : Nat := 0
  state : RemState := .ready
  deriving DecidableEq, Repr

/-- compute/server.go:33-36; `who = none` is the local instance. -/
structure BAck where
  who : Option Nat
  ok : Bool
  deriving DecidableEq, Repr

/-- compute/api.go:35-46, compute/server.go:86-94. `oks` (the successful acks that the server received)
and `localDone` are bookkeeping of the model. -/
structure SMeta where
  nInst : Nat := 0
  nRem : Nat := 0
  hasLocal : Bool := false
  clients : List (Nat × Nat) := []
  booted : Bool := false
  done : Bool := false
  runClosed : Bool := false
  bootQ : List BAck := []
  doneQ : List BAck := []
  oks : List BAck := []
  localDone : Bool := false
  deriving DecidableEq, Repr

/-- `m[k]`. -/
def cget (k : Nat) (l : List (Nat × Nat)) : Option Nat := l.lookup k

/-- `delete(m, k)`. -/
def cdel (k : Nat) (l : List (Nat × Nat)) : List (Nat × Nat) := l.filter fun e => e.1 != k

/-- `m[k] = v`. -/
def cset (k v : Nat) (l : List (Nat × Nat)) : List (Nat × Nat) := (k, v) :: cdel k l

/-- Requests. `bad` is a request without name, without stage id or with another method. -/
inductive ReqKind where
  | bad
  | getBoot
  | postBoot
  | getRun
  | postRun
  | stats
  | file
  | ping
  deriving DecidableEq, Repr

/-- Body of a request. -/
inductive HBody where
  | empty
  | error
  | unreadable
  deriving DecidableEq, Repr

/-- Where a handler is. -/
inductive PC where
  | start
  | check
  | join
  | body
  | setRunnable
  | sendBoot
  | waitRun
  | afterRun
  | write
  | setRunning
  | del
  | sendDone
  | setReady
  | recv
  deriving DecidableEq, Repr

/-- A request that is being handled. `obj` is the variable `rc`. -/
structure Handler where
  kind : ReqKind
  name : Nat
  sid : Nat
  body : HBody
  pc : PC := .start
  obj : Nat := 0
  deriving DecidableEq, Repr

/-- Where `Server.Run` is, compute/server.go:50-194. -/
inductive Phase where
  | idle
  /-- line 114 -/
  | ackLocal (m : Nat)
  /-- lines 118-122 -/
  | setStage (m : Nat)
  /-- compute/api.go:121-149, called from line 119 -/
  | switching (old m : Nat)
  /-- lines 130-145, `n` is the variable `booted` -/
  | boot (m n : Nat)
  /-- lines 148-154 -/
  | setBooted (m : Nat)
  /-- line 161 -/
  | release (m : Nat)
  /-- lines 171-191, `n` is the variable `running` -/
  | run (m n : Nat)
  /-- compute/api.go:121-149, called from line 188 -/
  | stopping (old m n : Nat)
  | stopped
  deriving DecidableEq, Repr

/-- The whole state. `resp`: responses so far (request, status), latest first; `recvd`: statistics
accepted (object, stage). -/
structure CSt where
  test : Bool := false
  st : Nat → SMeta := fun _ => {}
  nSt : Nat := 0
  cur : Option Nat := none
  objs : Nat → RObj := fun _ => { name := 0 }
  nObj : Nat := 0
  hs : Nat → Option Handler := fun _ => none
  nH : Nat := 0
  phase : Phase := .idle
  resp : List (Nat × Nat) := []
  recvd : List (Nat × Nat) := []

/-- Change of a function at one place. -/
def updAt {α : Type} (f : Nat → α) (k : Nat) (v : α) : Nat → α := fun x => if x = k then v else f x

/-- The handler `i` responds and ends. -/
def CSt.finish (s : CSt) (i code : Nat) : CSt :=
  { s with hs := updAt s.hs i none, resp := (i, code) :: s.resp }

/-- The handler `i` goes on at `pc`. -/
def CSt.goto (s : CSt) (i : Nat) (h : Handler) (pc : PC) : CSt :=
  { s with hs := updAt s.hs i (some { h with pc := pc }) }

def CSt.setMeta (s : CSt) (m : Nat) (x : SMeta) : CSt := { s with st := updAt s.st m x }

def CSt.setState (s : CSt) (o : Nat) (c : RemState) : CSt :=
  { s with objs := updAt s.objs o { s.objs o with state := c } }

/-- compute/api.go:409-497, `API.client`. -/
def CSt.lookupStep (s : CSt) (i : Nat) (h : Handler) : CSt :=
  if h.kind = .bad then s.finish i 400
  else
    match s.cur with
    | none => s.finish i 410
    | some m =>
      match cget h.name (s.st m).clients with
      | none =>
        if h.kind = .getBoot then
          { s with
            objs := updAt s.objs s.nObj { name := h.name }
            nObj := s.nObj + 1
            hs := updAt s.hs i (some { h with obj := s.nObj, pc := .check }) }
        else s.finish i 410
      | some o =>
        if (s.st m).done = false ∧ m + 1 ≠ h.sid then s.finish i 410
        else { s with hs := updAt s.hs i (some { h with obj := o, pc := .check }) }

/-- compute/api.go:162, 205, 238, 301, 331, 367 (the check of the state) and 396-404. -/
def CSt.checkStep (s : CSt) (i : Nat) (h : Handler) : CSt :=
  let c := (s.objs h.obj).state
  match h.kind with
  | .bad => s.finish i 400
  | .getBoot => if c ≠ .ready then s.finish i 412 else s.goto i h .join
  | .postBoot => if c ≠ .booting then s.finish i 412 else s.goto i h .body
  | .getRun => if c ≠ .runnable then s.finish i 412 else s.goto i h .waitRun
  | .postRun => if c ≠ .running then s.finish i 412 else s.goto i h .body
  | .stats => if c ≠ .running then s.finish i 412 else s.goto i h .recv
  | .file => if c ≠ .booting then s.finish i 412 else s.finish i 200
  | .ping => if (s.st (s.objs h.obj).stage).done then s.finish i 205 else s.finish i 200

/-- One step of the handler `i`; `none` if it has to wait. `lost`: the response to GET /run cannot be written. -/
def CSt.hstep (s : CSt) (i : Nat) (lost : Bool) : Option CSt :=
  match s.hs i with
  | none => none
  | some h =>
    let o := h.obj
    let m := (s.objs o).stage
    match h.pc with
    | .start => some (s.lookupStep i h)
    | .check => some (s.checkStep i h)
    -- compute/api.go:169-202
    | .join =>
      match s.cur with
      | none => none
      | some c =>
        if (s.st c).done then none
        else if (s.st c).booted ∨ (s.st c).clients.length = (s.st c).nRem then none
        else
          some (({ s with objs := updAt s.objs o { s.objs o with stage := c, state := .booting } }.setMeta c
            { s.st c with clients := cset h.name o (s.st c).clients }).finish i 200)
    -- compute/api.go:210-216, 336-342
    | .body =>
      if h.kind = .postBoot then
        match h.body with
        | .unreadable => some (s.finish i 200)
        | .error => some (s.goto i h .sendBoot)
        | .empty => some (s.goto i h .setRunnable)
      else some (s.goto i h .del)
    -- compute/api.go:225
    | .setRunnable => some ((s.setState o .runnable).goto i h .sendBoot)
    -- compute/api.go:227
    | .sendBoot =>
      if (s.st m).bootQ.length < (s.st m).nInst then
        some ((s.setMeta m { s.st m with
          bootQ := (s.st m).bootQ ++ [⟨some h.name, h.body = .empty⟩] }).finish i 200)
      else none
    -- compute/api.go:308
    | .waitRun => if (s.st m).runClosed then some (s.goto i h .afterRun) else none
    -- compute/api.go:312-319
    | .afterRun =>
      if (s.st m).done then
        some ((s.setMeta m { s.st m with clients := cdel h.name (s.st m).clients }).finish i 205)
      else some (s.goto i h .write)
    -- compute/api.go:321-325
    | .write =>
      if lost then some (s.finish i 200)
      else some { s.goto i h .setRunning with resp := (i, 200) :: s.resp }
    -- compute/api.go:328
    | .setRunning => some { s.setState o .running with hs := updAt s.hs i none }
    -- compute/api.go:344-346
    | .del =>
      some ((s.setMeta m { s.st m with clients := cdel h.name (s.st m).clients }).goto i h .sendDone)
    -- compute/api.go:353
    | .sendDone =>
      if (s.st m).doneQ.length < (s.st m).nInst then
        some ((s.setMeta m { s.st m with
          doneQ := (s.st m).doneQ ++ [⟨some h.name, h.body ≠ .error⟩] }).goto i h .setReady)
      else none
    -- compute/api.go:354
    | .setReady => some ((s.setState o .ready).finish i 200)
    -- compute/api.go:372-388
    | .recv =>
      if h.body = .unreadable then some (s.finish i 200)
      else some { s.finish i 200 with recvd := (o, m) :: s.recvd }

/-- One step of `Server.run` other than on cancellation. -/
def CSt.tick (s : CSt) : Option CSt :=
  match s.phase with
  | .idle => none
  | .ackLocal m =>
    if (s.st m).bootQ.length < (s.st m).nInst then
      some { s.setMeta m { s.st m with bootQ := (s.st m).bootQ ++ [⟨none, true⟩] } with phase := .setStage m }
    else none
  | .setStage m =>
    if (s.st m).nRem > 0 then
      match s.cur with
      | none => some { s with cur := some m, phase := .boot m 0 }
      | some old => some { s.setMeta old { s.st old with done := true } with phase := .switching old m }
    else some { s with phase := .boot m 0 }
  | .switching old m =>
    if (s.st old).clients = [] then some { s with cur := some m, phase := .boot m 0 } else none
  | .boot m n =>
    if n < (s.st m).nInst then
      match (s.st m).bootQ with
      | [] => none
      | a :: q =>
        if a.ok then
          some { s.setMeta m { s.st m with bootQ := q, oks := (s.st m).oks ++ [a] } with phase := .boot m (n + 1) }
        else some (s.setMeta m { s.st m with bootQ := q })
    else some { s with phase := .setBooted m }
  | .setBooted m =>
    some { s.setMeta m { s.st m with booted := true } with phase := if s.test then .idle else .release m }
  | .release m =>
    some { s.setMeta m { s.st m with runClosed := true } with phase := .run m (s.st m).nInst }
  | .run m n =>
    if n = 0 then some { s with phase := .idle }
    else
      match (s.st m).doneQ with
      | [] => none
      | _ :: q => some { s.setMeta m { s.st m with doneQ := q } with phase := .run m (n - 1) }
  | .stopping old m n =>
    if (s.st old).clients = [] then some { s with cur := none, phase := .run m n } else none
  | .stopped => none

/-- What can happen. -/
inductive CAct where
  /-- a request arrives -/
  | arrive (k : ReqKind) (name sid : Nat) (b : HBody)
  | handler (i : Nat) (lost : Bool)
  /-- compute/server.go:70-115: the next stage, with `instances`, with or without local instance;
  `prepared`: `local.Prepare` was successful -/
  | begin (nInst : Nat) (hasLocal prepared : Bool)
  | tick
  /-- compute/server.go:142, 185: the context is done and this case of the `select` is taken -/
  | ctxDone
  /-- compute/server.go:163-168: the local instance is done -/
  | localDone (m : Nat)
  deriving DecidableEq, Repr

/-- compute/server.go:70-122 -/
def CSt.beginStage (s : CSt) (nInst : Nat) (hasLocal prepared : Bool) : Option CSt :=
  match s.phase with
  | .idle =>
    if hasLocal && !prepared then some { s with phase := .stopped }
    else
      some { s with
        st := updAt s.st s.nSt
          { nInst := nInst, nRem := if hasLocal then nInst - 1 else nInst, hasLocal := hasLocal }
        nSt := s.nSt + 1
        phase := if hasLocal then .ackLocal s.nSt else .setStage s.nSt }
  | _ => none

/-- One step of the system; `none` if it is not possible. -/
def CSt.step (s : CSt) : CAct → Option CSt
  | .arrive k name sid b =>
    some { s with hs := updAt s.hs s.nH (some { kind := k, name := name, sid := sid, body := b }), nH := s.nH + 1 }
  | .handler i lost => s.hstep i lost
  | .begin nInst hasLocal prepared => s.beginStage nInst hasLocal prepared
  | .tick => s.tick
  | .ctxDone =>
    match s.phase with
    | .boot m n => if n < (s.st m).nInst then some { s with phase := .stopped } else none
    | .run m n =>
      if n = 0 then none
      else
        match s.cur with
        | none => some s
        | some old => some { s.setMeta old { s.st old with done := true } with phase := .stopping old m n }
    | _ => none
  | .localDone m =>
    if (s.st m).hasLocal && (s.st m).runClosed && !(s.st m).localDone &&
        decide ((s.st m).doneQ.length < (s.st m).nInst) then
      some (s.setMeta m { s.st m with doneQ := (s.st m).doneQ ++ [⟨none, true⟩], localDone := true })
    else none

/-- A sequence of steps. -/
def CSt.exec (s : CSt) : List CAct → Option CSt
  | [] => some s
  | a :: as =>
    match s.step a with
    | none => none
    | some s' => CSt.exec s' as

end Finch
