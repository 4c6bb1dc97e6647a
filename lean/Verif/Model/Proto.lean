import Verif.Model.Validate
/-!
Model of proto/proto.go (requests of a remote instance to the server), of compute/client.go:187-220
(fetching trx files) and of the waiting loop in compute/api.go:121-138. The network and the server are
the environment: every attempt of a request has an outcome that the environment chooses.
-/
namespace Finch

/-- A byte string. -/
abbrev Bytes := List UInt8

/-- What `http.Client.Do` and `io.ReadAll` return for one attempt, proto/proto.go:73-83. -/
inductive TryRes where
  | doErr
  | readErr
  | status (code : Nat) (body : Bytes)
  deriving DecidableEq

/-- One attempt: the result, how many bytes of the request body the transport took from the buffer (all
of them if the request reached the server, none if it could not connect), and whether the context of
the caller is done afterwards. -/
structure Attempt where
  res : TryRes
  consumed : Nat
  cancelled : Bool
  deriving DecidableEq

/-- What `request` returns: the response code and body, `ctx.Err()`, the error of reading the body, or
`ErrFailed`. -/
inductive ReqRes where
  | ok (code : Nat) (body : Bytes)
  | ctxErr
  | readErr
  | failed
  deriving DecidableEq

/-- proto/proto.go:69: loop condition. -/
def moreTries (tries : Int) (try_ : Nat) : Bool := tries == -1 || (try_ : Int) < tries

/-- proto/proto.go:68-105: `buf` is what is left in the buffer. `http.NewRequestWithContext` sends
exactly that. Given the outcomes of the attempts (as many as are made in the execution looked at) the
result is the bodies sent, and what the call returned if it has. -/
def reqLoop (tries : Int) (try_ : Nat) (buf : Bytes) : List Attempt → List Bytes × Option ReqRes
  | [] => if moreTries tries try_ then ([], none) else ([], some .failed)
  | a :: rest =>
    if moreTries tries try_ then
      let retry : List Bytes × Option ReqRes :=
        if a.cancelled then ([buf], some .ctxErr)
        else let r := reqLoop tries (try_ + 1) (buf.drop a.consumed) rest; (buf :: r.1, r.2)
      match a.res with
      | .doErr => retry
      | .readErr => ([buf], some .readErr)
      | .status code body =>
        if code = 200 then ([buf], some (.ok code body))
        else if code = 205 then ([buf], some (.ok code []))
        else retry
    else ([], some .failed)

/-- proto/proto.go:55-105; `data` is the encoded body, empty if there is none. -/
def request (tries : Int) (data : Bytes) (as : List Attempt) : List Bytes × Option ReqRes :=
  reqLoop tries 0 data as

/-- compute/api.go:221-226: what the server takes from the body of POST /boot: `true` is a successful boot. -/
def bootAckOk (body : Bytes) : Bool := body.isEmpty

/-! ### Trx files -/

/-- Files of the remote instance. -/
abbrev FS := Text → Option Bytes

/-- compute/client.go:206-212: open without truncating, write at the start. Without privileges a file with
mode 0440 cannot be opened for writing a second time. -/
def writeFile (root : Bool) (fs : FS) (name : Text) (body : Bytes) : Option FS :=
  match fs name with
  | none => some fun f => if f = name then some body else fs f
  | some old =>
    if root then some fun f => if f = name then some (body ++ old.drop body.length) else fs f
    else none

/-- compute/client.go:187-220. `server i` is the response to GET /file?i=..., `none` if it failed. The
loop from trx `i` on. `filepath.Join` of the directory and a file name is their concatenation with a slash. -/
def getTrxFiles (root : Bool) (server : Nat → Option Bytes) (tmpdir : Text) (i : Nat) (fs : FS) :
    List TrxConf → Option (List TrxConf × FS)
  | [] => some ([], fs)
  | t :: rest =>
    if (fs t.file).isSome then
      (getTrxFiles root server tmpdir (i + 1) fs rest).map fun r => (t :: r.1, r.2)
    else
      match server i with
      | none => none
      | some body =>
        let filename := tmpdir ++ '/' :: baseName t.file
        match writeFile root fs filename body with
        | none => none
        | some fs =>
          (getTrxFiles root server tmpdir (i + 1) fs rest).map fun r => ({ t with file := filename } :: r.1, r.2)

/-- compute/api.go:274-289: GET /file?i=... from the trx of the stage and the files of the server. -/
def serveFile (files : FS) (trx : List TrxConf) (i : Nat) : Option Bytes :=
  match trx[i]? with
  | none => none
  | some t => files t.file

/-! ### Waiting for clients of the old stage -/

/-- compute/api.go:121-138: number of rounds of 100 ms until the loop ends, given the number of clients
at the end of each round; `none`: it has not ended. `t` is the time so far in ms. The `break` of the timeout
case leaves only the `select`. -/
def stageWait (t : Nat) : List Nat → Option Nat
  | [] => none
  | n :: rest =>
    let t := t + 100
    let timeoutFired := t ≥ 3000
    -- select { case <-timeout: break; default: }
    let _ := timeoutFired
    if n = 0 then some 1 else (stageWait t rest).map (· + 1)

end Finch
