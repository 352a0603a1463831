import Verif.Basic
/-
Model of the removal functions on `clcpp::CArray` (src/clReflectCore/Array.h:90-112).
An array is its memory block and its current size; removal never changes the block's length.
-/
namespace Clr.CArray

/-- `clcpp::CArray` (inc/clcpp/clcpp.h:427-451). -/
structure Arr (α : Type) where
  data : List α
  size : Nat
deriving DecidableEq, Repr

/-- The elements the array currently shows. -/
def Arr.elems {α : Type} (a : Arr α) : List α := a.data.take a.size

/-- `operator[]` (inc/clcpp/clcpp.h:437-446). -/
def Arr.get {α : Type} (a : Arr α) (i : Nat) : Res α :=
  if i < a.size then
    match a.data[i]? with
    | some x => .ok x
    | none => .ub
  else .trap

/-- `unstable_remove` (src/clReflectCore/Array.h:92-100). -/
def unstableRemove {α : Type} (a : Arr α) (index : Nat) : Res (Arr α) :=
  if index < a.size then
    match a.data[a.size - 1]? with
    | some x => .ok { data := a.data.set index x, size := a.size - 1 }
    | none => .ub
  else .trap

/-- The loop `for (i = index; i < size - 1; i++) data[i] = data[i + 1]`
(src/clReflectCore/Array.h:109-110), with `n` iterations to go. -/
def shiftLoop {α : Type} (data : List α) : Nat → Nat → Res (List α)
  | 0, _ => .ok data
  | n + 1, i =>
    match data[i + 1]? with
    | some x => shiftLoop (data.set i x) n (i + 1)
    | none => .ub

/-- `stable_remove` (src/clReflectCore/Array.h:103-112). -/
def stableRemove {α : Type} (a : Arr α) (index : Nat) : Res (Arr α) :=
  if index < a.size then do
    let d ← shiftLoop a.data (a.size - 1 - index) index
    .ok { data := d, size := a.size - 1 }
  else .trap

/-- The copy loop of `deep_copy` (src/clReflectCore/Array.h:121-126), `n` elements to go from `i`;
`dest` is the freshly allocated memory. -/
def copyLoop {α : Type} (src : List α) (size : Nat) : Nat → Nat → List α → Res (List α)
  | 0, _, dest => .ok dest
  | n + 1, i, dest =>
    match src[i]? with
    | some x => if i < dest.length then copyLoop src size n (i + 1) (dest.set i x) else .ub
    | none => .ub

/-- `deep_copy` (src/clReflectCore/Array.h:115-126): `fresh` is what the allocator returned, uninitialised
memory for `size` elements. -/
def deepCopy {α : Type} (src : Arr α) (fresh : List α) : Res (Arr α) := do
  let d ← copyLoop src.data src.size src.size 0 fresh
  .ok { data := d, size := src.size }

end Clr.CArray
