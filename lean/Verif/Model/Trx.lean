import Verif.Model.Text
import Verif.Model.Limit
/-!
Model of trx/trx.go: loading trx files. Error texts are not modelled. Functions of other packages that
are not modelled here are parameters (`TrxEnv`), so theorems hold for all of them. Go map iteration
order is a parameter as well.
-/
namespace Finch

/-- Result of a Go function that may return an error or panic. -/
inductive Out (α : Type) where
  | ok (a : α)
  | err
  | panic
  deriving DecidableEq, Repr

/-- Sequencing: the first error or panic ends the function. -/
def Out.bind {α β : Type} : Out α → (α → Out β) → Out β
  | .ok a, f => f a
  | .err, _ => .err
  | .panic, _ => .panic

instance : Monad Out where
  pure := .ok
  bind := Out.bind

/-- An `(value, error)` result that is checked at once. -/
def Out.ofOption {α : Type} : Option α → Out α
  | some a => .ok a
  | none => .err

/-- config.Data of one data key (config/config.go). -/
structure DataCfg where
  generator : String
  scope : String
  params : Params
  deriving DecidableEq, Repr

/-- What the parser asks a data generator: `Format()`. -/
structure GenInfo where
  nVals : Nat
  fmt : Text
  deriving DecidableEq, Repr

/-- data/scope.go:37-45 `Key`. -/
structure TKey where
  name : String
  trx : String
  line : Nat
  statement : Nat
  column : Int
  scope : String
  gen : GenInfo
  deriving DecidableEq, Repr

/-- trx/trx.go:42-58 `Statement`. `insertId = ""`: none. -/
structure Stmt where
  trx : String
  query : Text
  resultSet : Bool
  prepare : Bool
  prepareMulti : Nat
  begin_ : Bool
  commit : Bool
  write : Bool
  ddl : Bool
  idle : Int
  inputs : List String
  outputs : List String
  insertId : String
  limit : Data
  calls : List Bool

/-- Everything the parser of one file is given, and the unmodelled functions it calls. -/
structure TrxEnv where
  /-- `f.cfg.Name` -/
  trx : String
  /-- `config.Vars(s, f.params, true)` -/
  vars : Text → Option Text
  /-- `time.ParseDuration` -/
  duration : Text → Option Int
  /-- `humanize.ParseBytes` -/
  bytes : Text → Option Nat
  /-- `data.Make(generator, dataKey, params)` -/
  make : String → String → Params → Option GenInfo
  /-- iteration order of the map of row-scoped keys, trx/trx.go:591 -/
  rowOrder : List Text → List Text
  /-- iteration order of the map of data formats, trx/trx.go:506 -/
  repOrder : List (Text × Text) → List (Text × Text)

/-- trx/trx.go:94-109: the state of `File` and of its `lineBuf`, and the part of `f.set` that
parsing changes (`keys` is `f.set.Data.Keys`). -/
structure FileSt where
  /-- `f.cfg.Data` -/
  data : GoMap String DataCfg
  keys : GoMap String TKey
  colRefs : List (String × Nat)
  lineNo : Nat
  str : Text
  mods : List Text
  copyNo : Nat
  stmtNo : Nat
  stmts : List Stmt
  hasDDL : Bool

/-- trx/trx.go:607-609 `cfgKey`. -/
def cfgKey (s : Text) : String := String.ofList (trim (fun c => c == '@' || c == '(' || c == ')') s)

/-- `colRefs[name]++`. -/
def incRef (name : String) : List (String × Nat) → List (String × Nat)
  | [] => [(name, 1)]
  | (n, k) :: rest => if n = name then (n, k + 1) :: rest else (n, k) :: incRef name rest

/-! ### Statement kind: trx/trx.go:233-249 -/

/-- The first word in upper case. -/
def command (query : Text) : Text := upperAscii (firstWord query)

/-- trx/trx.go:222-249: the statement before modifiers. -/
def classify (trx : String) (query : Text) : Stmt :=
  let com := command query
  { trx := trx, query := [], prepare := false, prepareMulti := 0, idle := 0, inputs := [],
    outputs := [], insertId := "", limit := none, calls := []
    resultSet := com = "SELECT".toList
    begin_ := com ∈ ["BEGIN".toList, "START".toList]
    commit := com = "COMMIT".toList
    write := com ∈ ["INSERT".toList, "UPDATE".toList, "DELETE".toList, "REPLACE".toList]
    ddl := com ∈ ["ALTER".toList, "CREATE".toList, "DROP".toList, "RENAME".toList,
      "TRUNCATE".toList] }

/-! ### Saved columns: trx/trx.go:519-571 -/

/-- finch.go:27 `NOOP_COLUMN`, finch.go:54-66 scopes as text. -/
def noopCol : String := "_"

/-- The key made for a column, trx/trx.go:560-568 and 526-534. -/
def colKey (env : TrxEnv) (f : FileSt) (name : String) (colNo : Nat) (scope : String)
    (g : GenInfo) : TKey :=
  { name := name, trx := env.trx, line := f.lineNo - 1, statement := f.stmtNo, column := colNo
    scope := scope, gen := g }

/-- trx/trx.go:519-571 `File.column`. The no-op generator's format is never asked. -/
def FileSt.column (env : TrxEnv) (f : FileSt) (colNo : Nat) (col : Text) : Out (FileSt × String) :=
  let col := trimSpace (trimSuffix [','] col)
  let name := String.ofList col
  if name = noopCol then
    match f.keys noopCol with
    | some _ => .ok (f, noopCol)
    | none =>
      .ok ({ f with keys := f.keys.set noopCol (colKey env f noopCol colNo "global" ⟨1, []⟩) },
        noopCol)
  else
    match f.keys name with
    | some _ => .err
    | none =>
      let cfg := (f.data (cfgKey col)).getD ⟨"column", "trx", []⟩
      match env.make "column" name cfg.params with
      | none => .err
      | some g =>
        .ok ({ f with
            colRefs := f.colRefs ++ [(name, 0)]
            keys := f.keys.set name (colKey env f name colNo cfg.scope g) }, name)

/-- trx/trx.go:313-321: the columns of `save-columns` from number `i` on. -/
def FileSt.columns (env : TrxEnv) (f : FileSt) (i : Nat) : List Text → Out (FileSt × List String)
  | [] => .ok (f, [])
  | c :: cs => do
    let (f, k) ← f.column env i c
    let (f, ks) ← f.columns env (i + 1) cs
    pure (f, k :: ks)

/-! ### Modifiers: trx/trx.go:255-367 -/

/-- The second field `m[1]`: panics if there is none. -/
def field1 : List Text → Out Text
  | _ :: b :: _ => .ok b
  | _ => .panic

/-- The optional offset of `rows`, trx/trx.go:276-282. -/
def rowsOffset : List Text → Out Nat
  | [_, _, o] => Out.ofOption (parseUint64 o)
  | _ => .ok 0

/-- `limit.Or(s.Limit, ...)`, see `LimitMod.apply`. -/
def addLimit (s : Stmt) (m : LimitMod) : Out Stmt :=
  match m.apply s.limit with
  | .ok d => .ok { s with limit := d }
  | .panic => .panic

/-- One modifier, trx/trx.go:256-367. The last component is `some n` for `copies: n` with `n ≠ 1`,
which ends the loop. -/
def modStep (env : TrxEnv) (f : FileSt) (s : Stmt) (mod : Text) :
    Out (FileSt × Stmt × Option Nat) :=
  match fields mod with
  | [] => .err
  | m0 :: ms =>
    let name := trim (· == ':') m0
    let m := name :: ms
    if name = "prepare".toList ∨ name = "prepared".toList then
      .ok (f, { s with prepare := true }, none)
    else if name = "idle".toList then do
      let d ← Out.ofOption (env.duration (← field1 m))
      pure (f, { s with idle := d }, none)
    else if name = "rows".toList then do
      let max ← Out.ofOption (parseUint64 (← field1 m))
      let offset ← rowsOffset m
      let s ← addLimit s (.rows max offset)
      pure (f, s, none)
    else if name = "table-size".toList ∨ name = "database-size".toList then
      match m with
      | [_, what, size] => do
        let max ← Out.ofOption (env.bytes size)
        let s ← addLimit s
          (if name = "table-size".toList then .tableSize (String.ofList what) max
           else .databaseSize (String.ofList what) max)
        pure (f, s, none)
      | _ => .err
    else if name = "save-insert-id".toList then
      if s.resultSet then .err
      else do
        let (f, k) ← f.column env 0 (← field1 m)
        pure (f, { s with insertId := k, outputs := s.outputs ++ [k] }, none)
    else if name = "save-columns".toList then do
      let (f, ks) ← f.columns env 0 ms
      pure (f, { s with outputs := s.outputs ++ ks }, none)
    else if name = "copies".toList then do
      let n ← Out.ofOption (parseInt64 (← field1 m))
      if n < 0 then .err
      else if n = 1 then pure (f, s, none)
      else pure (f, s, some n.toNat)
    else .err

/-- trx/trx.go:255-367: the loop over the modifiers. -/
def modLoop (env : TrxEnv) (f : FileSt) (s : Stmt) : List Text → Out (FileSt × Stmt × Option Nat)
  | [] => .ok (f, s, none)
  | mod :: mods => do
    let (f, s, c) ← modStep env f s mod
    match c with
    | some n => pure (f, s, some n)
    | none => modLoop env f s mods

/-! ### Substitutions: trx/trx.go:369-419, 588-605 -/

/-- finch.go `COPY_NUMBER`. -/
def copyNumber : Text := "/*!copy-number*/".toList

/-- The explicit call mark, trx/trx.go:28. -/
def callSuffix : Text := ['(', ')']

/-- trx/trx.go:591-603: one row-scoped key (with `@`); `all` are the data keys of the original
template. -/
def rowScope1 (all : List Text) (template : Text) (key : Text) : Text :=
  match all.find? (fun k => key.isPrefixOf k) with
  | none => template
  | some k =>
    if callSuffix.isSuffixOf k then template else replaceFirst k (k ++ callSuffix) template

/-- trx/trx.go:588-605 `RowScope`; `keys` in the order in which Go iterates over the map. -/
def rowScope (keys : List Text) (template : Text) : Text :=
  keys.foldl (rowScope1 (findKeys template)) template

/-- Add a key to the set of row-scoped keys. -/
def addKey (keys : List Text) (k : Text) : List Text := if k ∈ keys then keys else keys ++ [k]

/-- trx/trx.go:387-407: the data keys of a csv template. Returns the new config (scope default) and
the row-scoped keys. -/
def csvKeys (data : GoMap String DataCfg) (keys : List Text) :
    List Text → Out (GoMap String DataCfg × List Text)
  | [] => .ok (data, keys)
  | k :: ks =>
    let name := cfgKey k
    match data name with
    | none => .err
    | some cfg =>
      let cfg' := if cfg.scope = "" then { cfg with scope := "row" } else cfg
      let data := if cfg.scope = "" then data.set name cfg' else data
      let keys := if cfg'.scope = "row" then addKey keys ('@' :: name.toList) else keys
      csvKeys data keys ks

/-- `strconv.ParseInt(s, 10, 32)` of a digit string. -/
def parseDigits32 (s : Text) : Option Nat :=
  match parseUint64 s with
  | some n => if n < 2 ^ 31 then some n else none
  | none => none

/-- trx/trx.go:377-419: expand the csv substitution. -/
def expandCsv (env : TrxEnv) (data : GoMap String DataCfg) (query : Text) :
    Out (GoMap String DataCfg × Text) :=
  match findCsv query with
  | none => .ok (data, query)
  | some (before, m) => do
    let n ← Out.ofOption (parseDigits32 m.digits)
    let (data, keys) ← csvKeys data [] (findKeys m.template)
    let t := rowScope (env.rowOrder keys) m.template
    pure (data, before ++ join [',', ' '] (List.replicate n t) ++ m.rest)

/-! ### Data keys: trx/trx.go:424-517 -/

/-- `m[k] = v` on an association list. -/
def setFmt (k v : Text) : List (Text × Text) → List (Text × Text)
  | [] => [(k, v)]
  | (k', v') :: rest => if k' = k then (k, v) :: rest else (k', v') :: setFmt k v rest

/-- trx/trx.go:446: the key, if it is a saved column. -/
def savedCol (keys : GoMap String TKey) (key : String) : Option TKey :=
  match keys key with
  | some k => if k.column ≥ 0 then some k else none
  | none => none

/-- trx/trx.go:446-490: the generator of one data key; `before` are the keys before it in the
query. -/
def genOf (env : TrxEnv) (f : FileSt) (before : List Text) (name : Text) : Out (FileSt × GenInfo) :=
  let key := String.ofList name
  match savedCol f.keys key with
  | some k => .ok ({ f with colRefs := incRef key f.colRefs }, k.gen)
  | none =>
  if name = "@PREV".toList then
    if before = [] then .err
    else
      match before.reverse.find? (fun k => k ≠ "@PREV".toList) with
      | none => .panic
      | some p =>
        match f.keys (String.ofList p) with
        | some k => .ok (f, k.gen)
        | none => .panic
  else
    match f.keys key with
    | some k => .ok (f, k.gen)
    | none =>
      match f.data (cfgKey name) with
      | none => .err
      | some cfg =>
        let cfg' := if cfg.scope = "" then { cfg with scope := "statement" } else cfg
        let data := if cfg.scope = "" then f.data.set key cfg' else f.data
        match env.make cfg.generator key cfg.params with
        | none => .err
        | some g =>
          .ok ({ f with
              data := data
              keys := f.keys.set key
                { name := key, trx := env.trx, line := f.lineNo - 1, statement := f.stmtNo
                  column := -1, scope := cfg'.scope, gen := g } }, g)

/-- trx/trx.go:438-502: the loop over the inputs; the last argument is the map of formats. -/
def keyLoop (env : TrxEnv) (prepare : Bool) (f : FileSt) (before : List Text)
    (fmts : List (Text × Text)) : List Text → Out (FileSt × List (Text × Text))
  | [] => .ok (f, fmts)
  | name :: rest => do
    let (f, g) ← genOf env f before name
    keyLoop env prepare f (before ++ [name]) (setFmt name (if prepare then ['?'] else g.fmt) fmts)
      rest

/-- trx/trx.go:369-517: the part of `File.statements` after the modifiers. -/
def finish (env : TrxEnv) (f : FileSt) (s : Stmt) (query : Text) : Out (FileSt × Stmt) := do
  let query := replaceAll copyNumber (decimal f.copyNo) query
  let (data, query) ← expandCsv env f.data query
  let f := { f with data := data }
  let keys := tokKeys (tokenize query)
  if keys = [] then pure (f, { s with query := query })
  else
    let names := keys.map (·.1)
    let (f, fmts) ← keyLoop env s.prepare f [] [] names
    pure (f, { s with
      inputs := names.map String.ofList
      calls := keys.map (·.2)
      query := replacer (env.repOrder fmts) (stripCalls query) })

/-! ### Statements: trx/trx.go:221-517 -/

/-- trx/trx.go:349-356: the copies from number `i + 1` on, `k` of them. `rec` is the recursive call
of `File.statements`, of which only the first statement is used (a panic if there is none). -/
def copyLoop (rec : FileSt → Out (FileSt × List Stmt)) (f : FileSt) (i : Nat) :
    Nat → Out (FileSt × List Stmt)
  | 0 => .ok (f, [])
  | k + 1 => do
    let (f, ms) ← rec { f with copyNo := i + 1 }
    match ms with
    | [] => .panic
    | s :: _ =>
      let (f, ss) ← copyLoop rec f (i + 1) k
      pure (f, s :: ss)

/-- `multi[0].PrepareMulti = n`. -/
def setPrepareMulti (n : Nat) : List Stmt → List Stmt
  | [] => []
  | s :: ss => { s with prepareMulti := n } :: ss

/-- Does a modifier survive in the copies, trx/trx.go:337. -/
def keepInCopies (mod : Text) : Bool := !("copies".toList.isPrefixOf mod)

/-- trx/trx.go:335-345: are the copies prepared once. -/
def prepareOnce (query : Text) (mods : List Text) : Bool :=
  mods.any fun m =>
    keepInCopies m && "prepare".toList.isPrefixOf m && !(decide (copyNumber <:+: query))

/-- trx/trx.go:221-517 `File.statements`. The Go function calls itself after removing the `copies`
modifiers; if it finds none to remove (the modifier was written `:copies`) it calls itself forever
and dies of stack overflow. `fuel` larger than the number of modifiers distinguishes the two. -/
def statements (env : TrxEnv) : Nat → FileSt → Out (FileSt × List Stmt)
  | 0, _ => .panic
  | fuel + 1, f => do
    let f := { f with stmtNo := f.stmtNo + 1 }
    let query := trimSpace f.str
    let s := classify env.trx query
    let f := { f with hasDDL := f.hasDDL || s.ddl }
    let (f, s, c) ← modLoop env f s f.mods
    match c with
    | none =>
      let (f, s) ← finish env f s query
      pure (f, [s])
    | some 0 => pure (f, [])
    | some n =>
      let once := prepareOnce query f.mods
      let f := { f with mods := f.mods.filter keepInCopies, stmtNo := f.stmtNo - 1 }
      let (f, ss) ← copyLoop (statements env fuel) f 0 n
      pure ({ f with copyNo := 0 }, if once then setPrepareMulti n ss else ss)

/-! ### Lines: trx/trx.go:123-215 -/

/-- What one line does: the parser goes on, or stops at the EOF mark. -/
inductive LineRes where
  | next (f : FileSt)
  | eof (f : FileSt)

/-- trx/trx.go:173-215 `File.line` (the line is trimmed). `stmts` is `File.statements`. -/
def FileSt.line (env : TrxEnv) (stmts : FileSt → Out (FileSt × List Stmt)) (f : FileSt)
    (line : Text) : Out LineRes :=
  let f := { f with lineNo := f.lineNo + 1 }
  if line ≠ [] then
    if "-- ".toList.isPrefixOf line then
      if line = "-- EOF".toList then .ok (.eof f)
      else
        match env.vars (trimSpace (line.drop 2)) with
        | none => .err
        | some mod => .ok (.next { f with mods := f.mods ++ [mod] })
    else .ok (.next { f with str := f.str ++ line ++ [' '] })
  else if f.str = [] then .ok (.next f)
  else
    match stmts f with
    | .ok (f, ss) => .ok (.next { f with stmts := f.stmts ++ ss, str := [], mods := [] })
    | .err => .err
    | .panic => .panic

/-- trx/trx.go:131-144: the loop over the lines and the last empty line. -/
def FileSt.lines (env : TrxEnv) (stmts : FileSt → Out (FileSt × List Stmt)) (f : FileSt) :
    List Text → Out FileSt
  | [] =>
    match f.line env stmts [] with
    | .ok (.next f) => .ok f
    | .ok (.eof f) => .ok f
    | .err => .err
    | .panic => .panic
  | l :: ls =>
    match f.line env stmts (trimSpace l) with
    | .ok (.next f) => f.lines env stmts ls
    | .ok (.eof f) =>
      match f.line env stmts [] with
      | .ok (.next f) => .ok f
      | .ok (.eof f) => .ok f
      | .err => .err
      | .panic => .panic
    | .err => .err
    | .panic => .panic

/-- `File.statements` with enough fuel. -/
def FileSt.statements (env : TrxEnv) (f : FileSt) : Out (FileSt × List Stmt) :=
  Finch.statements env (f.mods.length + 1) f

/-- trx/trx.go:34-39 `Set`. -/
structure TrxSet where
  order : List String
  statements : GoMap String (List Stmt)
  ddl : GoMap String Bool
  keys : GoMap String TKey

/-- trx/trx.go:111-121 `NewFile`. -/
def FileSt.new (data : GoMap String DataCfg) (keys : GoMap String TKey) : FileSt :=
  { data := data, keys := keys, colRefs := [], lineNo := 0, str := [], mods := [], copyNo := 0
    stmtNo := 0, stmts := [], hasDDL := false }

/-- One trx file: its environment, config and lines (`none`: the file cannot be opened). -/
structure TrxFile where
  env : TrxEnv
  data : GoMap String DataCfg
  lines : Option (List Text)

/-- trx/trx.go:123-171 `File.Load`. -/
def loadFile (set : TrxSet) (tf : TrxFile) : Out TrxSet :=
  match tf.lines with
  | none => .err
  | some ls =>
    match (FileSt.new tf.data set.keys).lines tf.env (FileSt.statements tf.env) ls with
    | .err => .err
    | .panic => .panic
    | .ok f =>
      if f.stmts = [] then .err
      else if f.colRefs.any (fun c => c.2 = 0) then .err
      else
        .ok { order := set.order ++ [tf.env.trx]
              statements := set.statements.set tf.env.trx f.stmts
              ddl := set.ddl.set tf.env.trx f.hasDDL
              keys := f.keys }

/-- trx/trx.go:71-84 `Load`. -/
def loadTrx (set : TrxSet) : List TrxFile → Out TrxSet
  | [] => .ok set
  | tf :: tfs =>
    match loadFile set tf with
    | .ok set => loadTrx set tfs
    | .err => .err
    | .panic => .panic

end Finch
