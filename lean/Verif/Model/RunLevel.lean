import Verif.Model.Base
/-!
Model of `finch.go`: data scopes, run levels and their comparison.
-/
namespace Finch

/-- Data scopes, finch.go:54-66 (`SCOPE_*` strings). -/
inductive Scope where
  | global | stage | workload | execGroup | clientGroup | client | iter | trx | statement | row | value
  deriving DecidableEq, Repr

/-- The strings of the scope constants, finch.go:54-66. -/
def Scope.str : Scope → String
  | .global => "global"
  | .stage => "stage"
  | .workload => "workload"
  | .execGroup => "exec-group"
  | .clientGroup => "client-group"
  | .client => "client"
  | .iter => "iter"
  | .trx => "trx"
  | .statement => "statement"
  | .row => "row"
  | .value => "value"

/-- All scopes, i.e. the keys of `runlevelNumber`, finch.go:102-114. -/
def Scope.all : List Scope :=
  [.value, .row, .statement, .trx, .iter, .client, .clientGroup, .execGroup, .workload, .stage, .global]

/-- finch.go:124-127 `RunLevelIsValid`, together with the scope the string denotes. -/
def Scope.ofString? (s : String) : Option Scope := Scope.all.find? (fun c => c.str == s)

/-- finch.go:32-42 `RunLevel`. The three name fields are only printed and are left out. The Go
counters are `uint`; they only grow by one per allocated item, so `Nat` is used. -/
structure RunLevel where
  stage : Nat
  execGroup : Nat
  clientGroup : Nat
  client : Nat
  trx : Nat
  query : Nat
  deriving DecidableEq, Repr

/-- Go's zero `RunLevel{}` (value of a missing map entry). -/
def RunLevel.zero : RunLevel := ⟨0, 0, 0, 0, 0, 0⟩

/-- finch.go:68-80 `RunLevel.array`. -/
def RunLevel.array (rl : RunLevel) : List Nat :=
  [rl.query, rl.trx, 0, rl.client, rl.clientGroup, rl.execGroup, 1, rl.stage, 1]

/-- finch.go:102-122 `runlevelNumber`/`RunLevelNumber`. The panic for unknown names has no
counterpart because `Scope` has only the valid names. -/
def runLevelNumber : Scope → Nat
  | .value => 0
  | .row => 0
  | .statement => 0
  | .trx => 1
  | .iter => 2
  | .client => 3
  | .clientGroup => 4
  | .execGroup => 5
  | .workload => 6
  | .stage => 7
  | .global => 8

/-- finch.go:94-98, the loop `for i := n; i < len(now); i++ { if now[i] > before[i] ... }`, on the
suffixes of the two arrays that start at index `n`. -/
def anyGreater : List Nat → List Nat → Bool
  | a :: as, b :: bs => decide (a > b) || anyGreater as bs
  | _, _ => false

/-- finch.go:82-100 `RunLevel.GreaterThan`. -/
def RunLevel.greaterThan (rl prev : RunLevel) (s : Scope) : Bool :=
  match s with
  | .value => true
  | s =>
    let s := match s with
      | .row => .statement
      | .iter => .client
      | s => s
    let n := runLevelNumber s
    anyGreater (rl.array.drop n) (prev.array.drop n)

end Finch
