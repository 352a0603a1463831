import Verif.Basic
/-
Model of the runtime lookups of src/clReflectCpp/clcpp.cpp: binary search, widening to the
overload range, and the public lookup functions built on them.
-/
namespace Clr.Search

/-- Conversion of an `unsigned int` to `int` (two's complement). -/
def toInt32 (n : Nat) : Int :=
  let m : Nat := n % 2 ^ 32
  if m < 2 ^ 31 then (m : Int) else (m : Int) - 2 ^ 32

/-- `CArray::operator[]` (inc/clcpp/clcpp.h:439-448): the index is converted to `unsigned int` and
asserted to be below the size. -/
def at' {α : Type} (entries : List α) (i : Int) : Res α :=
  match entries[(i % 2 ^ 32).toNat]? with
  | some a => .ok a
  | none => .trap

/-- The search loop (src/clReflectCpp/clcpp.cpp:138-159). `key` is `GET_HASH_FUNC`. The sum of two
`int`s above `INT_MAX` is undefined behaviour. -/
def bsLoop {α : Type} (entries : List α) (key : α → UInt32) (h : UInt32) (first last : Int) :
    Res Int :=
  if hfl : first ≤ last then
    if first + last > 2147483647 ∨ first + last < -2147483648 then .ub
    else
      let mid := Int.tdiv (first + last) 2
      match at' entries mid with
      | .ok e =>
        if key e < h then bsLoop entries key h (mid + 1) last
        else if h < key e then bsLoop entries key h first (mid - 1)
        else .ok mid
      | .trap => .trap
      | .ub => .ub
  else .ok (-1)
termination_by (last + 1 - first).toNat
decreasing_by
  · have h1 : first ≤ Int.tdiv (first + last) 2 := by
      rcases Int.le_total 0 (first + last) with hh | hh
      · rw [Int.tdiv_eq_ediv_of_nonneg hh]; omega
      · rw [show first + last = -(-(first + last)) by omega, Int.neg_tdiv,
          Int.tdiv_eq_ediv_of_nonneg (by omega)]; omega
    omega
  · have h1 : Int.tdiv (first + last) 2 ≤ last := by
      rcases Int.le_total 0 (first + last) with hh | hh
      · rw [Int.tdiv_eq_ediv_of_nonneg hh]; omega
      · rw [show first + last = -(-(first + last)) by omega, Int.neg_tdiv,
          Int.tdiv_eq_ediv_of_nonneg (by omega)]; omega
    omega

/-- `BinarySearch` (src/clReflectCpp/clcpp.cpp:131-162); `size` is an `unsigned int`. -/
def binarySearch {α : Type} (entries : List α) (key : α → UInt32) (h : UInt32) : Res Int :=
  bsLoop entries key h 0 (toInt32 (entries.length + 2 ^ 32 - 1))

/-- First widening loop (src/clReflectCpp/clcpp.cpp:172-173). -/
def widenDown {α : Type} (entries : List α) (key : α → UInt32) (h : UInt32) : Nat → Res Nat
  | 0 => .ok 0
  | n + 1 =>
    match at' entries (n : Int) with
    | .ok e => if key e = h then widenDown entries key h n else .ok (n + 1)
    | .trap => .trap
    | .ub => .ub

/-- Second widening loop (src/clReflectCpp/clcpp.cpp:174-175). -/
def widenUp {α : Type} (entries : List α) (key : α → UInt32) (h : UInt32) (last : Nat) : Res Nat :=
  if last < entries.length then
    match at' entries (last : Int) with
    | .ok e => if key e = h then widenUp entries key h (last + 1) else .ok last
    | .trap => .trap
    | .ub => .ub
  else .ok last
termination_by entries.length - last

/-- `clcpp::Range` (inc/clcpp/clcpp.h; constructed by src/clReflectCpp/clcpp.cpp:338-342). -/
structure Range where
  first : Nat
  last : Nat
deriving DecidableEq, Repr

/-- `SearchNeighbours` (src/clReflectCpp/clcpp.cpp:164-178). -/
def searchNeighbours {α : Type} (entries : List α) (key : α → UInt32) (h : UInt32) (index : Nat) :
    Res Range := do
  let f ← widenDown entries key h index
  let l ← widenUp entries key h (index + 1)
  pure ⟨f, l⟩

/-- `FindPrimitive`, and the shared shape of `GetName(hash)`, `GetType`, `GetNamespace`,
`GetTemplate`, `GetFunction` (src/clReflectCpp/clcpp.cpp:344-350, 610-617, 633-665):
search, then index the table; `none` is the null result. -/
def find {α : Type} (entries : List α) (key : α → UInt32) (h : UInt32) : Res (Option α) := do
  let index ← binarySearch entries key h
  if index = -1 then pure none
  else do
    let e ← at' entries index
    pure (some e)

/-- `FindOverloadedPrimitive` and `GetOverloadedFunction`
(src/clReflectCpp/clcpp.cpp:352-361, 667-676). -/
def findOverloaded {α : Type} (entries : List α) (key : α → UInt32) (h : UInt32) : Res Range := do
  let index ← binarySearch entries key h
  if index = -1 then pure ⟨0, 0⟩
  else searchNeighbours entries key h index.toNat

end Clr.Search
