import Verif.Model.Url
/-!
Model of what is sent as JSON: the configuration of a stage (compute/api.go:197, compute/client.go:74) and statistics
(proto/proto.go:61, compute/api.go:381). `encoding/json` and `unicode/utf8` are modelled from their source
(Go 1.20): `Encoder.Encode` with HTML escaping, `Unmarshal` into a value of the same type. The value of a Go variable is
written as the JSON value it is encoded as; a nil slice, map or pointer is `null`. Floating-point numbers are the text that
`strconv` writes for them. Simplified: a map is a list of its entries in the order in which they are written; case folding of
field names is that of ASCII; a duplicate field replaces the first one instead of being merged into it; nesting deeper than
10000 is not refused.
-/
namespace Finch

/-! ### UTF-8 -/

/-- unicode/utf8 `AppendRune`. -/
def utf8Rune (n : Nat) : Bytes :=
  if n < 0x80 then [UInt8.ofNat n]
  else if n < 0x800 then [UInt8.ofNat (0xC0 + n / 64), UInt8.ofNat (0x80 + n % 64)]
  else if (0xD800 ≤ n && n < 0xE000) || 0x10FFFF < n then [0xEF, 0xBF, 0xBD]
  else if n < 0x10000 then
    [UInt8.ofNat (0xE0 + n / 4096), UInt8.ofNat (0x80 + n / 64 % 64), UInt8.ofNat (0x80 + n % 64)]
  else
    [UInt8.ofNat (0xF0 + n / 262144), UInt8.ofNat (0x80 + n / 4096 % 64), UInt8.ofNat (0x80 + n / 64 % 64),
      UInt8.ofNat (0x80 + n % 64)]

/-- A continuation byte between these bounds. -/
def contIn (lo hi : Nat) (b : UInt8) : Bool := lo ≤ b.toNat && b.toNat ≤ hi

/-- unicode/utf8 `DecodeRune`: the number of bytes of the first rune, 0 if they are not valid (`RuneError, 1`). -/
def runeLen : Bytes → Nat
  | [] => 0
  | a :: t =>
    let x := a.toNat
    if x < 0x80 then 1
    else if x < 0xC2 then 0
    else if x < 0xE0 then
      match t with
      | b :: _ => if contIn 0x80 0xBF b then 2 else 0
      | _ => 0
    else if x < 0xF0 then
      match t with
      | b :: c :: _ =>
        if contIn (if x = 0xE0 then 0xA0 else 0x80) (if x = 0xED then 0x9F else 0xBF) b && contIn 0x80 0xBF c then 3 else 0
      | _ => 0
    else if x < 0xF5 then
      match t with
      | b :: c :: d :: _ =>
        if contIn (if x = 0xF0 then 0x90 else 0x80) (if x = 0xF4 then 0x8F else 0xBF) b && contIn 0x80 0xBF c &&
            contIn 0x80 0xBF d then 4
        else 0
      | _ => 0
    else 0

/-! ### Strings -/

/-- A lower case hexadecimal digit. -/
def lowHex (n : UInt8) : UInt8 := if n < 10 then 48 + n else 87 + n

/-- encoding/json `encodeState.string`, one ASCII byte. -/
def escByte (b : UInt8) : Bytes :=
  if b = 34 || b = 92 then [92, b]
  else if b = 10 then [92, 110]
  else if b = 13 then [92, 114]
  else if b = 9 then [92, 116]
  else if b < 32 || b = 60 || b = 62 || b = 38 then [92, 117, 48, 48, lowHex (b / 16), lowHex (b % 16)]
  else [b]

/-- U+2028 and U+2029, which are escaped. -/
def lineSep : Bytes → Bool
  | a :: b :: c :: _ => a = 0xE2 && b = 0x80 && (c = 0xA8 || c = 0xA9)
  | _ => false

/-- encoding/json `encodeState.string`, without the quotes; `k`: so many bytes belong to the rune that was begun, `drop`: it
has been written already. -/
def escText (drop : Bool) : Nat → Bytes → Bytes
  | _, [] => []
  | k + 1, b :: bs => if drop then escText drop k bs else b :: escText drop k bs
  | 0, b :: bs =>
    match runeLen (b :: bs) with
    | 0 => [92, 117, 102, 102, 102, 100] ++ escText false 0 bs
    | 1 => escByte b ++ escText false 0 bs
    | n + 2 =>
      if lineSep (b :: bs) then
        [92, 117, 50, 48, 50, if bs[1]? = some 0xA8 then 56 else 57] ++ escText true (n + 1) bs
      else b :: escText false (n + 1) bs

/-- encoding/json `getu4`, four hexadecimal digits. -/
def hex4 (a b c d : UInt8) : Option Nat :=
  match unhexByte a, unhexByte b, unhexByte c, unhexByte d with
  | some w, some x, some y, some z => some (w.toNat * 4096 + x.toNat * 256 + y.toNat * 16 + z.toNat)
  | _, _, _, _ => none

/-- encoding/json `unquoteBytes`, escapes of one letter. -/
def oneEscape (e : UInt8) : Option UInt8 :=
  if e = 34 || e = 92 || e = 47 then some e
  else if e = 98 then some 8
  else if e = 102 then some 12
  else if e = 110 then some 10
  else if e = 114 then some 13
  else if e = 116 then some 9
  else none

/-- unicode/utf16 `DecodeRune` of a first half and what follows: the rune, if it is a pair, and the rest. -/
def lowHalf (r : Nat) : Bytes → Option (Nat × Bytes)
  | x :: y :: a :: b :: c :: d :: rest =>
    if x = 92 && y = 117 then
      match hex4 a b c d with
      | some r2 =>
        if r < 0xDC00 && 0xDC00 ≤ r2 && r2 < 0xE000 then some ((r - 0xD800) * 1024 + (r2 - 0xDC00) + 0x10000, rest) else none
      | none => none
    else none
  | _ => none

/-- Add bytes to what has been read. -/
def pushText (t : Bytes) (r : Option (Bytes × Bytes)) : Option (Bytes × Bytes) := r.map fun p => (t ++ p.1, p.2)

/-- encoding/json, scanner and `unquoteBytes`: a string up to its quote, and the rest. `none` is an error. `k`: so many bytes
belong to the rune that was begun. Of a surrogate pair, the second half is read again, see `lowHalf`. -/
def readText : Nat → Bytes → Option (Bytes × Bytes)
  | _, [] => none
  | k + 1, b :: bs => pushText [b] (readText k bs)
  | 0, b :: bs =>
    if b = 34 then some ([], bs)
    else if b = 92 then
      match bs with
      | [] => none
      | e :: bs1 =>
        if e = 117 then
          match bs1 with
          | a :: b :: c :: d :: bs2 =>
            match hex4 a b c d with
            | none => none
            | some r =>
              if 0xD800 ≤ r && r < 0xE000 then
                match lowHalf r bs2 with
                | some (r2, _) =>
                  match bs2 with
                  | _ :: _ :: _ :: _ :: _ :: _ :: bs3 => pushText (utf8Rune r2) (readText 0 bs3)
                  | _ => none
                | none => pushText (utf8Rune 0xFFFD) (readText 0 bs2)
              else pushText (utf8Rune r) (readText 0 bs2)
          | _ => none
        else
          match oneEscape e with
          | none => none
          | some x => pushText [x] (readText 0 bs1)
    else if b < 32 then none
    else
      match runeLen (b :: bs) with
      | 0 => pushText (utf8Rune 0xFFFD) (readText 0 bs)
      | n + 1 => pushText [b] (readText n bs)

/-! ### Values -/

/-- A JSON value. A number is the text of it. -/
inductive JVal where
  | null
  | bool (b : Bool)
  | num (t : Bytes)
  | str (s : Bytes)
  | arr (l : List JVal)
  | obj (l : List (Bytes × JVal))
  deriving Repr

/-- A quoted string. -/
def quoted (s : Bytes) : Bytes := 34 :: (escText false 0 s ++ [34])

mutual
/-- encoding/json `encodeState.reflectValue`. -/
def encVal : JVal → Bytes
  | .null => ascii "null"
  | .bool b => if b then ascii "true" else ascii "false"
  | .num t => t
  | .str s => quoted s
  | .arr [] => [91, 93]
  | .arr (v :: l) => 91 :: (encVal v ++ encRest l)
  | .obj [] => [123, 125]
  | .obj ((k, v) :: l) => 123 :: (quoted k ++ 58 :: (encVal v ++ encFields l))
/-- The elements of an array after the first one. -/
def encRest : List JVal → Bytes
  | [] => [93]
  | v :: l => 44 :: (encVal v ++ encRest l)
/-- The fields of an object after the first one. -/
def encFields : List (Bytes × JVal) → Bytes
  | [] => [125]
  | (k, v) :: l => 44 :: (quoted k ++ 58 :: (encVal v ++ encFields l))
end

/-- encoding/json `Encoder.Encode`. -/
def marshal (v : JVal) : Bytes := encVal v ++ [10]

/-- encoding/json `isSpace`. -/
def jsonSpace (b : UInt8) : Bool := b = 32 || b = 9 || b = 10 || b = 13

def skipSpace (s : Bytes) : Bytes := s.dropWhile jsonSpace

def isDigitB (b : UInt8) : Bool := 48 ≤ b && b ≤ 57

/-- A byte that can be in a number. -/
def numByte (b : UInt8) : Bool := isDigitB b || b = 45 || b = 43 || b = 46 || b = 101 || b = 69

/-- encoding/json `isValidNumber`: an exponent or nothing. -/
def expTail : Bytes → Bool
  | [] => true
  | e :: r =>
    let r' := if r.head? = some 43 || r.head? = some 45 then r.tail else r
    (e = 101 || e = 69) && (!r'.isEmpty && r'.all isDigitB)

/-- encoding/json `isValidNumber`: the part after the digits. -/
def numTail (s : Bytes) : Bool :=
  if s.head? = some 46 then !(s.tail.takeWhile isDigitB).isEmpty && expTail (s.tail.dropWhile isDigitB) else expTail s

/-- encoding/json `isValidNumber`. -/
def validNum (s : Bytes) : Bool :=
  let r := if s.head? = some 45 then s.tail else s
  match r with
  | [] => false
  | d :: t =>
    if d = 48 then numTail t
    else if isDigitB d then numTail (t.dropWhile isDigitB)
    else false

/-- A literal. -/
def readLit (lit : Bytes) (v : JVal) (s : Bytes) : Option (JVal × Bytes) :=
  if lit.isPrefixOf s then some (v, s.drop lit.length) else none

mutual
/-- encoding/json, scanner and decoder: a value and the rest. The first argument bounds the recursion. -/
def readVal : Nat → Bytes → Option (JVal × Bytes)
  | 0, _ => none
  | f + 1, s =>
    match skipSpace s with
    | [] => none
    | b :: t =>
      if b = 34 then (readText 0 t).map fun p => (.str p.1, p.2)
      else if b = 91 then
        if (skipSpace t).head? = some 93 then some (.arr [], (skipSpace t).tail)
        else (readElems f t).map fun p => (.arr p.1, p.2)
      else if b = 123 then
        if (skipSpace t).head? = some 125 then some (.obj [], (skipSpace t).tail)
        else (readFields f t).map fun p => (.obj p.1, p.2)
      else if b = 110 then readLit (ascii "null") .null (b :: t)
      else if b = 116 then readLit (ascii "true") (.bool true) (b :: t)
      else if b = 102 then readLit (ascii "false") (.bool false) (b :: t)
      else
        let n := (b :: t).takeWhile numByte
        if validNum n then some (.num n, (b :: t).dropWhile numByte) else none
/-- One or more elements and the bracket. -/
def readElems : Nat → Bytes → Option (List JVal × Bytes)
  | 0, _ => none
  | f + 1, s =>
    match readVal f s with
    | none => none
    | some (v, r) =>
      match skipSpace r with
      | [] => none
      | b :: t =>
        if b = 44 then (readElems f t).map fun p => (v :: p.1, p.2)
        else if b = 93 then some ([v], t)
        else none
/-- One or more fields and the brace. -/
def readFields : Nat → Bytes → Option (List (Bytes × JVal) × Bytes)
  | 0, _ => none
  | f + 1, s =>
    match skipSpace s with
    | [] => none
    | q :: t =>
      if q = 34 then
        match readText 0 t with
        | none => none
        | some (k, r) =>
          match skipSpace r with
          | [] => none
          | c :: r2 =>
            if c = 58 then
              match readVal f r2 with
              | none => none
              | some (v, r3) =>
                match skipSpace r3 with
                | [] => none
                | b :: r4 =>
                  if b = 44 then (readFields f r4).map fun p => ((k, v) :: p.1, p.2)
                  else if b = 125 then some ([(k, v)], r4)
                  else none
            else none
      else none
end

/-- encoding/json `Unmarshal`, the value as it is written. -/
def parseJson (s : Bytes) : Option JVal :=
  match readVal (s.length + 1) s with
  | some (v, r) => if (skipSpace r).isEmpty then some v else none
  | none => none

/-! ### Types -/

/-- The Go types that are sent. `uint`: an unsigned integer up to a bound; `sint`: int64; `ptrBool`: `*bool`. -/
inductive JTy where
  | str
  | bool
  | ptrBool
  | uint (max : Nat)
  | sint
  | float
  | list (t : JTy)
  | map (t : JTy)
  | struct (fields : List (Bytes × JTy))
  deriving Repr

mutual
/-- The zero value of a type, as it is encoded. -/
def JTy.zero : JTy → JVal
  | .str => .str []
  | .bool => .bool false
  | .uint _ => .num [48]
  | .sint => .num [48]
  | .float => .num [48]
  | .struct fs => .obj (zeroFields fs)
  | _ => .null
def zeroFields : List (Bytes × JTy) → List (Bytes × JVal)
  | [] => []
  | (n, t) :: fs => (n, t.zero) :: zeroFields fs
end

/-- ASCII lower case. -/
def foldByte (b : UInt8) : UInt8 := if 65 ≤ b && b ≤ 90 then b + 32 else b

/-- encoding/json `decodeState.object`: the key belongs to the field: the same name, or up to case if no field has
exactly the name. -/
def keyMatches (names : List Bytes) (field key : Bytes) : Bool :=
  key = field || (key.map foldByte = field.map foldByte && !names.contains key)

/-- strconv `ParseUint` with a bound: the number as it is written. -/
def intoUint (max : Nat) (t : Bytes) : Option JVal :=
  match atoiDigits t with
  | some n => if n ≤ max then some (.num t) else none
  | none => none

/-- strconv `ParseInt` for int64. -/
def intoSint (t : Bytes) : Option JVal := (atoiBytes t).map fun _ => .num t

/-- Map entries: a later key replaces an earlier one. -/
def lastWins : List (Bytes × JVal) → List (Bytes × JVal)
  | [] => []
  | e :: l => if l.any (·.1 = e.1) then lastWins l else e :: lastWins l

mutual
/-- encoding/json `Unmarshal` of a value into a new variable of this type; `none` is an error. -/
def JTy.into : JTy → JVal → Option JVal
  | .str, .str s => some (.str s)
  | .bool, .bool b => some (.bool b)
  | .ptrBool, .bool b => some (.bool b)
  | .uint m, .num t => intoUint m t
  | .sint, .num t => intoSint t
  | .float, .num t => some (.num t)
  | .list t, .arr l => (l.mapM t.into).map .arr
  | .map t, .obj l => (l.mapM fun e => (t.into e.2).map (e.1, ·)).map fun l => .obj (lastWins l)
  | .struct fs, .obj l => (intoFields (fs.map (·.1)) fs l).map .obj
  | t, .null => some t.zero
  | _, _ => none
/-- The fields of a struct. -/
def intoFields (names : List Bytes) : List (Bytes × JTy) → List (Bytes × JVal) → Option (List (Bytes × JVal))
  | [], _ => some []
  | (n, t) :: fs, l =>
    match (l.reverse.find? fun e => keyMatches names n e.1) with
    | none => (intoFields names fs l).map ((n, t.zero) :: ·)
    | some e =>
      match t.into e.2, intoFields names fs l with
      | some v, some r => some ((n, v) :: r)
      | _, _ => none
end

/-- The bytes received, decoded into a new variable. -/
def unmarshal (t : JTy) (s : Bytes) : Option JVal := (parseJson s).bind t.into

/-- The fields of a struct. -/
def fieldsOf (l : List (String × JTy)) : JTy := .struct (l.map fun e => (ascii e.1, e.2))

/-- config/file.go:582-591 -/
def tlsTy : JTy :=
  fieldsOf [("CA", .str), ("Cert", .str), ("Key", .str), ("SkipVerify", .ptrBool), ("Disable", .ptrBool), ("MySQLMode", .str)]

/-- config/file.go:483-496 -/
def mysqlTy : JTy :=
  fieldsOf [("Db", .str), ("DSN", .str), ("Hostname", .str), ("MyCnf", .str), ("Password", .str), ("PasswordFile", .str),
    ("Socket", .str), ("TimeoutConnect", .str), ("TLS", tlsTy), ("Username", .str), ("DisableAutoTLS", .ptrBool)]

/-- config/file.go:310-314, 336-341 -/
def trxTy : JTy :=
  fieldsOf [("Name", .str), ("File", .str),
    ("Data", .map (fieldsOf [("Name", .str), ("Generator", .str), ("Scope", .str), ("Params", .map .str)]))]

/-- config/file.go:368-384 -/
def groupTy : JTy :=
  fieldsOf [("Clients", .str), ("Db", .str), ("DisableStats", .bool), ("Iter", .str), ("IterClients", .str),
    ("IterExecGroup", .str), ("Group", .str), ("QPS", .str), ("QPSClients", .str), ("QPSExecGroup", .str), ("Runtime", .str),
    ("TPS", .str), ("TPSClients", .str), ("TPSExecGroup", .str), ("Trx", .list .str)]

/-- config/file.go:35-51, 284-287, 711-715; `uint` has 64 bits. -/
def stageTy : JTy :=
  fieldsOf [("Compute", fieldsOf [("DisableLocal", .bool), ("Instances", .str)]), ("Disable", .bool), ("File", .str),
    ("Id", .str), ("Name", .str), ("MySQL", mysqlTy), ("N", .uint 18446744073709551615), ("Params", .map .str), ("QPS", .str),
    ("Runtime", .str),
    ("Stats", fieldsOf [("Disable", .ptrBool), ("Freq", .str), ("Report", .map (.map .str))]),
    ("TPS", .str), ("Test", .bool), ("Trx", .list trxTy), ("Workload", .list groupTy)]

/-- stats/stats.go:26-32; the keys of `Errors` are written in decimal. A pointer that is not nil is encoded as what it points
to. -/
def statsTy : JTy :=
  fieldsOf [("Buckets", .list (.list (.uint 18446744073709551615))), ("Min", .list .sint), ("Max", .list .sint),
    ("N", .list (.uint 18446744073709551615)), ("Errors", .map (.uint 18446744073709551615))]

/-- stats/collector.go:20-28 -/
def instanceTy : JTy :=
  fieldsOf [("Hostname", .str), ("Clients", .uint 18446744073709551615), ("Interval", .uint 18446744073709551615),
    ("Seconds", .float), ("Runtime", .float), ("Total", statsTy), ("Trx", .map statsTy)]

end Finch
