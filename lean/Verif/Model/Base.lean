/-!
Small vocabulary shared by all model files: Go maps, Go fixed-width integers and panics.
-/
namespace Finch

/-- A Go `map[K]V`: `none` means the key is absent. Iteration order is never implicit; where Go code
ranges over a map, the model takes the order of keys as an explicit list argument. -/
abbrev GoMap (κ α : Type) := κ → Option α

namespace GoMap
variable {κ α : Type} [DecidableEq κ]

/-- The empty map `map[K]V{}`. -/
def empty : GoMap κ α := fun _ => none

/-- `m[k] = v`. -/
def set (m : GoMap κ α) (k : κ) (v : α) : GoMap κ α := fun x => if x = k then some v else m x

/-- `delete(m, k)`. -/
def del (m : GoMap κ α) (k : κ) : GoMap κ α := fun x => if x = k then none else m x

@[simp] theorem set_same (m : GoMap κ α) (k : κ) (v : α) : m.set k v k = some v := by simp [set]
theorem set_other (m : GoMap κ α) {k x : κ} (v : α) (h : x ≠ k) : m.set k v x = m x := by
  simp [set, h]
omit [DecidableEq κ] in
@[simp] theorem empty_apply (k : κ) : (empty : GoMap κ α) k = none := rfl

end GoMap

/-- Result of a Go function that may panic. -/
inductive Res (α : Type) where
  | ok (a : α)
  | panic
  deriving DecidableEq, Repr

/-- Go's `int64` result of an exact integer computation: two's complement wrap-around. -/
def i64 (x : Int) : Int := Int.bmod x (2 ^ 64)

/-- Go's `uint64` (and 64-bit `uint`) result of an exact computation. -/
def u64 (x : Nat) : Nat := x % 2 ^ 64

/-- Go's `uint32` result of an exact computation. -/
def u32 (x : Nat) : Nat := x % 2 ^ 32

/-- `x` is a value of Go's `int64`. -/
def IsI64 (x : Int) : Prop := -(2 ^ 63) ≤ x ∧ x < 2 ^ 63

theorem i64_id {x : Int} (h : IsI64 x) : i64 x = x := by
  unfold i64
  rw [Int.bmod_eq_iff (by omega)]
  unfold IsI64 at h
  omega

theorem i64_isI64 (x : Int) : IsI64 (i64 x) := by
  unfold i64 IsI64
  have h1 := Int.le_bmod (x := x) (m := 2 ^ 64) (by omega)
  have h2 := Int.bmod_lt (x := x) (m := 2 ^ 64) (by omega)
  omega

end Finch
