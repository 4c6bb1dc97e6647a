import Verif.Model.RunLevel
/-!
Model of `data/scope.go`: `Scope` (copying generators per scope) and `ScopedGenerator`
(deciding when to generate a value).
-/
namespace Finch

/-- data/scope.go:37-45 `Key`, reduced to what `Scope.Copy` reads. `scope = none` is the empty
string (scope not configured). `isColumn` says that `Generator.Name()` is `"column"`. -/
structure Key where
  scope : Option Scope
  isColumn : Bool
  deriving DecidableEq, Repr

/-- data/scope.go:17-30 `Id`: what is passed to `NewScopedGenerator` (data key, scope, copy number,
run level). -/
structure GenId where
  dataKey : String
  scope : Scope
  copyNo : Nat
  at_ : RunLevel
  deriving DecidableEq, Repr

/-- data/scope.go:60-66 `Scope`. A generator is identified by its heap address (a number): two
references are the same generator iff the addresses are equal. `next` models the Go heap: the
address the next `NewScopedGenerator` call gets. `made` records for every allocated generator its
id. -/
structure DataScope where
  keys : GoMap String Key
  copyOf : GoMap String Nat
  copiedAt : GoMap String RunLevel
  copyCount : GoMap String Nat
  noop : Option Nat
  next : Nat
  made : GoMap Nat GenId

/-- data/scope.go:68-75 `NewScope`. -/
def DataScope.new : DataScope :=
  { keys := GoMap.empty, copyOf := GoMap.empty, copiedAt := GoMap.empty, copyCount := GoMap.empty,
    noop := none, next := 0, made := GoMap.empty }

/-- finch.go:27 `NOOP_COLUMN`. -/
def noopColumn : String := "_"

/-- The id of the no-op generator, data/scope.go:91. -/
def noopId : GenId := ⟨"", .global, 0, RunLevel.zero⟩

/-- The scope `Scope.Copy` uses for a key: configured, or the default of data/scope.go:96-107. -/
def Key.effScope (k : Key) : Scope :=
  match k.scope with
  | some s => s
  | none => if k.isColumn then .trx else .statement

/-- data/scope.go:77-123 `Scope.Copy`. Returns the new scope state and the returned pointer
(`none` = Go nil). `Res.panic` is the panic of line 85. -/
def DataScope.copy (s : DataScope) (keyName : String) (rl : RunLevel) :
    Res (DataScope × Option Nat) :=
  if keyName = "@PREV" then .ok (s, none) else
  match s.keys keyName with
  | none => .panic
  | some k =>
    if keyName = noopColumn then
      match s.noop with
      | some a => .ok (s, some a)
      | none =>
        .ok ({ s with noop := some s.next, next := s.next + 1, made := s.made.set s.next noopId },
          some s.next)
    else
      let sc := k.effScope
      let s := { s with keys := s.keys.set keyName { k with scope := some sc } }
      let prev := (s.copiedAt keyName).getD RunLevel.zero
      if rl.greaterThan prev sc then
        let cnt := (s.copyCount keyName).getD 0 + 1
        .ok ({ s with
            copyCount := s.copyCount.set keyName cnt
            copyOf := s.copyOf.set keyName s.next
            copiedAt := s.copiedAt.set keyName rl
            made := s.made.set s.next ⟨keyName, sc, cnt, rl⟩
            next := s.next + 1 },
          some s.next)
      else
        .ok (s, s.copyOf keyName)

/-- data/scope.go:126-129: `Reset` leaves a name alone if it is no key, or a key with stage or
global scope. -/
def resetKeeps : Option Key → Bool
  | none => true
  | some k => decide (k.scope = some .stage) || decide (k.scope = some .global)

/-- data/scope.go:125-135 `Scope.Reset`. Deleting during a range over the map is well defined in
Go and the result does not depend on the order. -/
def DataScope.reset (s : DataScope) : DataScope :=
  { s with
    keys := fun n => if resetKeeps (s.keys n) then s.keys n else none
    copyOf := fun n => if resetKeeps (s.keys n) then s.copyOf n else none
    copiedAt := fun n => if resetKeeps (s.keys n) then s.copiedAt n else none }

/-! ### ScopedGenerator -/

/-- data/scope.go:265-278 `RunCount`. -/
structure RunCount where
  statement : Nat
  trx : Nat
  iter : Nat
  conn : Nat
  client : Nat
  clientGroup : Nat
  execGroup : Nat
  stage : Nat
  deriving DecidableEq, Repr

/-- `cnt[i]`, data/scope.go:267-278. -/
def RunCount.get (c : RunCount) : Nat → Nat
  | 0 => c.statement
  | 1 => c.trx
  | 2 => c.iter
  | 3 => c.conn
  | 4 => c.client
  | 5 => c.clientGroup
  | 6 => c.execGroup
  | _ => c.stage

/-- The kinds of `ScopedGenerator`, decided in `NewScopedGenerator`. -/
inductive GenKind where
  | value                       -- no special handling
  | single (sno : Nat)          -- singleClient, sno
  | multi                       -- cgMux != nil
  | oneTime                     -- oneTime
  deriving DecidableEq, Repr

/-- data/scope.go:162-188 `NewScopedGenerator`, the branch on the scope. (The final panic is
unreachable: every scope number is at most that of `global`.) -/
def genKind (s : Scope) : GenKind :=
  if s = .value then .value
  else if runLevelNumber s ≤ runLevelNumber .client then .single (runLevelNumber s)
  else if runLevelNumber s ≤ runLevelNumber .workload then .multi
  else .oneTime

variable {G V : Type}

/-- data/scope.go:147-158 `ScopedGenerator` around a real generator with state `G` producing
values `V` (a `[]interface{}`; `vals = none` is the nil slice before the first call). `last` is
`last[sno]`, the only entry that is ever read or written. -/
structure ScopedGen (G V : Type) where
  kind : GenKind
  g : G
  last : Nat
  vals : Option V
  cgIter : GoMap Nat Nat
  cgVals : GoMap Nat V

/-- data/scope.go:162-188 `NewScopedGenerator`. -/
def ScopedGen.new (s : Scope) (g : G) : ScopedGen G V :=
  { kind := genKind s, g := g, last := 0, vals := none, cgIter := GoMap.empty,
    cgVals := GoMap.empty }

/-- The real generator's `Values(RunCount)`: new generator state and values. -/
abbrev GenFun (G V : Type) := G → RunCount → G × V

/-- data/scope.go:199-216 `ScopedGenerator.Call`. For `value` and `oneTime` kinds `sno` is 0, Go's
zero value. Modelled as one atomic step; concurrent multi-client calls are treated in
`MultiGen` below. -/
def ScopedGen.call (f : GenFun G V) (s : ScopedGen G V) (cnt : RunCount) :
    ScopedGen G V × Option V :=
  match s.kind with
  | .multi =>
    let (g', v) := f s.g cnt
    ({ s with g := g', cgIter := s.cgIter.set cnt.client cnt.iter,
              cgVals := s.cgVals.set cnt.client v }, some v)
  | k =>
    let sno := match k with
      | .single n => n
      | _ => 0
    let (g', v) := f s.g cnt
    ({ s with last := cnt.get sno, g := g', vals := some v }, some v)

/-- data/scope.go:218-259 `ScopedGenerator.Values`. -/
def ScopedGen.values (f : GenFun G V) (s : ScopedGen G V) (cnt : RunCount) :
    ScopedGen G V × Option V :=
  match s.kind with
  | .single sno =>
    if cnt.get sno > s.last then s.call f cnt else (s, s.vals)
  | .multi =>
    match s.cgIter cnt.client with
    | none => s.call f cnt
    | some prevIter =>
      if cnt.iter > prevIter then s.call f cnt else (s, s.cgVals cnt.client)
  | .oneTime =>
    if s.vals.isSome then s.call f cnt else (s, s.vals)
  | .value =>
    let (g', v) := f s.g cnt
    ({ s with g := g' }, some v)

end Finch

namespace Finch

/-! ### Histories of scope operations

What a run of Finch does to the one data scope: for every stage `compute/server.go:60` resets it,
`trx/trx.go` loads the keys of the stage, and `workload/workload.go:231,255,263` copies generators
while walking through the workload. -/

/-- One operation on the data scope. `reset n` is `Scope.Reset` before stage number `n`. -/
inductive ScopeOp where
  | reset (n : Nat)
  | load (key : String) (k : Key)
  | copy (key : String) (rl : RunLevel)
  deriving DecidableEq, Repr

/-- trx/trx.go:468-486: a key that is already loaded is reused, otherwise it is created. -/
def DataScope.load (s : DataScope) (key : String) (k : Key) : DataScope :=
  match s.keys key with
  | some _ => s
  | none => { s with keys := s.keys.set key k }

/-- One observed `Scope.Copy` call: data key, run level, returned pointer. -/
structure CopyObs where
  key : String
  rl : RunLevel
  out : Option Nat
  deriving DecidableEq, Repr

/-- Run a history; returns the observed copies in order, and the final state. -/
def DataScope.run (s : DataScope) : List ScopeOp → Res (DataScope × List CopyObs)
  | [] => .ok (s, [])
  | .reset _ :: ops => s.reset.run ops
  | .load key k :: ops => (s.load key k).run ops
  | .copy key rl :: ops =>
    match s.copy key rl with
    | .panic => .panic
    | .ok (s', out) =>
      match s'.run ops with
      | .panic => .panic
      | .ok (s'', obs) => .ok (s'', ⟨key, rl, out⟩ :: obs)

end Finch

namespace Finch

/-- One use of a data key by a client: `@d` (implicit, `ScopedGenerator.Values`) or `@d()`
(explicit, `ScopedGenerator.Call`), workload/workload.go:232-236, with the client's run count. -/
structure Use where
  explicit : Bool
  cnt : RunCount
  deriving DecidableEq, Repr

/-- One use of a scoped generator. -/
def ScopedGen.use {G V : Type} (f : GenFun G V) (s : ScopedGen G V) (u : Use) :
    ScopedGen G V × Option V :=
  if u.explicit then s.call f u.cnt else s.values f u.cnt

/-- A history of uses: final generator state and the values returned, in order. -/
def ScopedGen.uses {G V : Type} (f : GenFun G V) (s : ScopedGen G V) :
    List Use → ScopedGen G V × List (Option V)
  | [] => (s, [])
  | u :: us =>
    let r := s.use f u
    let rs := r.1.uses f us
    (rs.1, r.2 :: rs.2)

/-! ### Concurrent use of a multi-client generator

`Values`/`Call` of a multi-client generator are not atomic: the map is read under the read lock
(lines 236-246), the real generator is called without the lock (line 206), the maps are written
under the write lock (lines 207-210). Each of the three is one step of the machine below; other
clients may take steps in between. The real generator's `Values` is one step (the shared built-in
generators use an atomic add or a mutex, or no state at all). -/

/-- Where a client is inside `Values`/`Call`. -/
inductive UsePc (V : Type) where
  | idle
  | wantGen (cnt : RunCount)            -- decided to call the generator, line 206
  | wantStore (cnt : RunCount) (v : V)  -- has the values, lines 207-210
  deriving DecidableEq, Repr

structure MultiGen (G V : Type) where
  g : G
  cgIter : GoMap Nat Nat
  cgVals : GoMap Nat V
  pc : Nat → UsePc V

/-- A step of client number `c`. -/
inductive MultiStep where
  | begin (c : Nat) (u : Use)   -- enter Values or Call
  | gen (c : Nat)               -- line 206
  | store (c : Nat)             -- lines 207-210
  deriving DecidableEq, Repr

/-- What a step shows to the outside: a finished use with its values. `fresh` tells whether this
use called the real generator. -/
structure UseObs (V : Type) where
  client : Nat
  iter : Nat
  fresh : Bool
  out : Option V
  deriving DecidableEq, Repr

/-- Set a client's program counter. -/
def setPc {V : Type} (pc : Nat → UsePc V) (c : Nat) (p : UsePc V) : Nat → UsePc V :=
  fun x => if x = c then p else pc x

/-- data/scope.go:199-216 and 234-246, split into atomic steps. `none`: the step is not possible
(the client is somewhere else). A use that ends returns its observation. The client number is the
one in the run count (`cnt[CLIENT]`). -/
def MultiGen.step {G V : Type} (f : GenFun G V) (s : MultiGen G V) :
    MultiStep → Option (MultiGen G V × Option (UseObs V))
  | .begin c u =>
    match s.pc c with
    | .idle =>
      if u.explicit then
        some ({ s with pc := setPc s.pc c (.wantGen u.cnt) }, none)
      else
        match s.cgIter u.cnt.client with
        | none => some ({ s with pc := setPc s.pc c (.wantGen u.cnt) }, none)
        | some prevIter =>
          if u.cnt.iter > prevIter then
            some ({ s with pc := setPc s.pc c (.wantGen u.cnt) }, none)
          else some (s, some ⟨c, u.cnt.iter, false, s.cgVals u.cnt.client⟩)
    | _ => none
  | .gen c =>
    match s.pc c with
    | .wantGen cnt =>
      let (g', v) := f s.g cnt
      some ({ s with g := g', pc := setPc s.pc c (.wantStore cnt v) }, none)
    | _ => none
  | .store c =>
    match s.pc c with
    | .wantStore cnt v =>
      some ({ s with cgIter := s.cgIter.set cnt.client cnt.iter,
                     cgVals := s.cgVals.set cnt.client v, pc := setPc s.pc c .idle },
        some ⟨c, cnt.iter, true, some v⟩)
    | _ => none

/-- A fresh multi-client generator, data/scope.go:175-179. -/
def MultiGen.new {G V : Type} (g : G) : MultiGen G V :=
  { g := g, cgIter := GoMap.empty, cgVals := GoMap.empty, pc := fun _ => .idle }

/-- Run a schedule; returns the observations in order. -/
def MultiGen.runSteps {G V : Type} (f : GenFun G V) (s : MultiGen G V) :
    List MultiStep → Option (MultiGen G V × List (UseObs V))
  | [] => some (s, [])
  | t :: ts =>
    match s.step f t with
    | none => none
    | some (s', o) =>
      match s'.runSteps f ts with
      | none => none
      | some (s'', os) => some (s'', o.toList ++ os)

end Finch
