import Verif.Model.Proto
/-!
Model of proto/proto.go:107-119 `Client.URL` and of what compute/api.go:244-272 and 424-449 take from the URL of a
request, as byte strings. `url.QueryEscape` and `url.ParseQuery` (net/url) are modelled from their documentation and
source. Not modelled: the address of the server and the path (no question mark in them), and what net/http does
with a URL it cannot parse.
-/
namespace Finch

/-- The bytes of an ASCII string. -/
def ascii (s : String) : Bytes := s.toList.map fun c => c.toNat.toUInt8

/-- net/url `shouldEscape` in a query: these bytes are kept. -/
def keptByte (b : UInt8) : Bool :=
  (97 ≤ b && b ≤ 122) || (65 ≤ b && b ≤ 90) || (48 ≤ b && b ≤ 57) || b == 45 || b == 46 || b == 95 || b == 126

/-- net/url `upperhex`. -/
def hexByte (n : UInt8) : UInt8 := if n < 10 then 48 + n else 55 + n

/-- net/url `QueryEscape`. -/
def queryEscape : Bytes → Bytes
  | [] => []
  | b :: bs =>
    if keptByte b then b :: queryEscape bs
    else if b = 32 then 43 :: queryEscape bs
    else 37 :: hexByte (b / 16) :: hexByte (b % 16) :: queryEscape bs

/-- net/url `unhex` and `ishex`. -/
def unhexByte (b : UInt8) : Option UInt8 :=
  if 48 ≤ b && b ≤ 57 then some (b - 48)
  else if 97 ≤ b && b ≤ 102 then some (b - 87)
  else if 65 ≤ b && b ≤ 70 then some (b - 55)
  else none

/-- net/url `QueryUnescape`; `none` is an error. -/
def queryUnescape : Bytes → Option Bytes
  | [] => some []
  | 37 :: a :: b :: bs =>
    match unhexByte a, unhexByte b, queryUnescape bs with
    | some x, some y, some r => some ((x * 16 + y) :: r)
    | _, _, _ => none
  | 37 :: _ => none
  | b :: bs => (queryUnescape bs).map ((if b = 43 then 32 else b) :: ·)

/-- proto/proto.go:107-119, the query of the URL: the name, the parameters, and the id of the stage as it is. -/
def urlQuery (name : Bytes) (params : List (Bytes × Bytes)) (stageId : Bytes) : Bytes :=
  ascii "name=" ++ queryEscape name ++ 38 ::
    List.intercalate [38] (params.map (fun p => p.1 ++ 61 :: queryEscape p.2) ++
      [ascii "stage-id=" ++ stageId])

/-- `strings.Cut` at a byte: before and after the first, or everything and nothing. -/
def cutByte (c : UInt8) : Bytes → Bytes × Bytes
  | [] => ([], [])
  | b :: bs => if b = c then ([], bs) else ((b :: (cutByte c bs).1), (cutByte c bs).2)

/-- The parts of a byte string between the bytes `c`. -/
def splitByte (c : UInt8) : Bytes → List Bytes
  | [] => [[]]
  | b :: bs =>
    if b = c then [] :: splitByte c bs
    else
      match splitByte c bs with
      | [] => [[b]]
      | p :: ps => (b :: p) :: ps

/-- net/url `parseQuery`, one part of the query: a part that is empty, has a semicolon or cannot be unescaped is left
out. -/
def parsePair (part : Bytes) : Option (Bytes × Bytes) :=
  if part.contains 59 then none
  else if part.isEmpty then none
  else
    match queryUnescape (cutByte 61 part).1, queryUnescape (cutByte 61 part).2 with
    | some k, some v => some (k, v)
    | _, _ => none

/-- net/url `parseQuery`: the pairs, in order. -/
def parseQuery (query : Bytes) : List (Bytes × Bytes) := (splitByte 38 query).filterMap parsePair

/-- `q[key]` of `url.Values` (nil if there are none). -/
def valuesOf (q : List (Bytes × Bytes)) (key : String) : List Bytes :=
  (q.filter fun p => p.1 = ascii key).map (·.2)

/-- compute/api.go:499-503 `clean`. -/
def cleanBytes (s : Bytes) : Bytes := (s.filter (· ≠ 10)).filter (· ≠ 13)

/-- compute/api.go:424-449: name and stage id of a request, `none` if it is answered with 400. -/
def requestClient (query : Bytes) : Option (Bytes × Bytes) :=
  let q := parseQuery query
  if q = [] then none
  else
    match valuesOf q "name", valuesOf q "stage-id" with
    | n :: _, s :: _ => some (cleanBytes n, cleanBytes s)
    | _, _ => none

/-- `strconv.Atoi`, the digits. -/
def atoiDigits (s : Bytes) : Option Nat :=
  if s.isEmpty then none
  else s.foldl (fun acc b => acc.bind fun n => if 48 ≤ b && b ≤ 57 then some (10 * n + (b.toNat - 48)) else none)
    (some 0)

/-- `strconv.Atoi`, the range of int. -/
def atoiRange (n : Int) : Option Int := if -9223372036854775808 ≤ n ∧ n ≤ 9223372036854775807 then some n else none

/-- `strconv.Atoi`: an optional sign and digits. -/
def atoiBytes (s : Bytes) : Option Int :=
  if s.head? = some 43 then (atoiDigits s.tail).bind fun n => atoiRange n
  else if s.head? = some 45 then (atoiDigits s.tail).bind fun n => atoiRange (-n)
  else (atoiDigits s).bind fun n => atoiRange n

/-- compute/api.go:243-277: the index of the file that is asked for, `none` if the request is answered with 400;
`n` is the number of trx of the stage. -/
def requestFile (query : Bytes) (n : Nat) : Option Nat :=
  let q := parseQuery query
  match valuesOf q "stage", valuesOf q "i" with
  | _ :: _, v :: _ =>
    match atoiBytes (cleanBytes v) with
    | none => none
    | some i => if i < 0 then none else if i > (n : Int) - 1 then none else some i.toNat
  | _, _ => none

/-- `fmt.Sprintf("%d", i)`. -/
def decimalBytes (i : Nat) : Bytes := ascii (toString i)

/-- compute/client.go:195-198: the parameters of a request for a file. -/
def fileParams (stage : Bytes) (i : Nat) : List (Bytes × Bytes) :=
  [(ascii "stage", stage), (ascii "i", decimalBytes i)]

end Finch
