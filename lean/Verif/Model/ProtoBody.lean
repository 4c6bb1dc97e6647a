import Verif.Model.Proto
/-!
Model of how proto/proto.go:71-83 reads a response: the context of the request is cancelled (line 75) after the headers
have arrived (`Do` has returned) and before the body is read (line 80). By the documentation of net/http the context
controls the entire lifetime of a request and its response, reading the body included. Whether the transport sees the
cancellation before it has read the rest of the body is a race, so it is the choice of the environment.
-/
namespace Finch

/-- A response of the server: its code and body, how many bytes of the body the transport has when `Do` returns (they
came with the headers), and whether the rest is read before the transport sees the cancellation. -/
structure NetResp where
  code : Nat
  body : Bytes
  arrived : Nat
  restRead : Bool
  deriving DecidableEq

/-- proto/proto.go:80-84: `io.ReadAll(resp.Body)` after `cancelReq()`. -/
def readBody (r : NetResp) : TryRes :=
  if r.body.length ≤ r.arrived || r.restRead then .status r.code r.body else .readErr

/-- An attempt that the server answered, made while the context of the caller is not done. -/
def NetResp.attempt (r : NetResp) : Attempt := { res := readBody r, consumed := 0, cancelled := false }

/-- compute/client.go:199-202: the body of GET /file with 3 tries, `none` if `Get` returns an error, given the responses
of the server. -/
def fetchFile (rs : List NetResp) : Option Bytes :=
  match (request 3 [] (rs.map NetResp.attempt)).2 with
  | some (.ok _ body) => some body
  | _ => none

end Finch
