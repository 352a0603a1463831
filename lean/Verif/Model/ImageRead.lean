import Verif.Model.Image
import Verif.Model.Search
/-
Model of the lookups of the runtime (src/clReflectCpp/clcpp.cpp) as they read a loaded database in memory, pointer by
pointer.
-/
namespace Clr.Image
open Clr Clr.Reloc Clr.Layout
open Clr.Search (toInt32)
open Clr.Export (K)

/-- Reading `w` bytes at an address. Everything outside the loaded database is off limits. -/
def read (base : Nat) (img : Bytes) (a w : Nat) : Res Nat :=
  if base ≤ a ∧ a - base + w ≤ img.length then .ok (num img (a - base) w) else .ub

/-- A C string at an address. -/
def readText (base : Nat) (img : Bytes) (a : Nat) : Res Bytes :=
  if base ≤ a then
    match (img.drop (a - base)).dropWhile (· != 0) with
    | _ :: _ => .ok ((img.drop (a - base)).takeWhile (· != 0))
    | [] => .ub
  else .ub

/-- inc/clcpp/clcpp.h:444-448 CArray::operator[]: the address of an entry of the array at address `arr`. The index is
converted to `unsigned int`. -/
def element (base : Nat) (img : Bytes) (arr stride : Nat) (i : Int) : Res Nat :=
  (read base img (arr + offsetOf cArray b!"size") 4).bind fun n =>
  if (i % 2 ^ 32).toNat < n then
    (read base img (arr + offsetOf cArray b!"data") 8).bind fun data => .ok (data + (i % 2 ^ 32).toNat * stride)
  else .trap

/-- The functions that fetch the hash of an entry at an address. -/
inductive Fetch where
  | name
  | primitive
  | pointer
deriving DecidableEq, Repr

/-- src/clReflectCpp/clcpp.cpp:118-129 GetNameHash, GetPrimitiveHash and GetPrimitivePtrHash -/
def fetchHash (base : Nat) (img : Bytes) (e : Nat) : Fetch → Res UInt32
  | .name => (read base img (e + offsetOf name b!"hash") 4).map UInt32.ofNat
  | .primitive => (read base img (e + (offsetOf primitive b!"name" + offsetOf name b!"hash")) 4).map UInt32.ofNat
  | .pointer => (read base img e 8).bind fun q =>
      (read base img (q + (offsetOf primitive b!"name" + offsetOf name b!"hash")) 4).map UInt32.ofNat

/-- src/clReflectCpp/clcpp.cpp:138-159: the loop of BinarySearch; `hash` fetches the hash of an entry. -/
def searchLoop (hash : Int → Res UInt32) (h : UInt32) (first last : Int) : Res Int :=
  if hfl : first ≤ last then
    if first + last > 2147483647 ∨ first + last < -2147483648 then .ub
    else
      let mid := Int.tdiv (first + last) 2
      match hash mid with
      | .ok e =>
        if e < h then searchLoop hash h (mid + 1) last
        else if h < e then searchLoop hash h first (mid - 1)
        else .ok mid
      | .trap => .trap
      | .ub => .ub
  else .ok (-1)
termination_by (last + 1 - first).toNat
decreasing_by
  · have h1 : first ≤ Int.tdiv (first + last) 2 := by
      rcases Int.le_total 0 (first + last) with hh | hh
      · rw [Int.tdiv_eq_ediv_of_nonneg hh]; omega
      · rw [show first + last = -(-(first + last)) by omega, Int.neg_tdiv,
          Int.tdiv_eq_ediv_of_nonneg (by omega)]; omega
    omega
  · have h1 : Int.tdiv (first + last) 2 ≤ last := by
      rcases Int.le_total 0 (first + last) with hh | hh
      · rw [Int.tdiv_eq_ediv_of_nonneg hh]; omega
      · rw [show first + last = -(-(first + last)) by omega, Int.neg_tdiv,
          Int.tdiv_eq_ediv_of_nonneg (by omega)]; omega
    omega

/-- The hash of entry `i` of an array. -/
def entryHash (base : Nat) (img : Bytes) (arr stride : Nat) (f : Fetch) (i : Int) : Res UInt32 :=
  (element base img arr stride i).bind fun e => fetchHash base img e f

/-- src/clReflectCpp/clcpp.cpp:131-162 BinarySearch -/
def searchMem (base : Nat) (img : Bytes) (arr stride : Nat) (f : Fetch) (h : UInt32) : Res Int :=
  (read base img (arr + offsetOf cArray b!"size") 4).bind fun n =>
  searchLoop (entryHash base img arr stride f) h 0 (toInt32 (n + 2 ^ 32 - 1))

/-- src/clReflectCpp/clcpp.cpp:344-350 FindPrimitive: the address of the primitive or null. -/
def findPrimitive (base : Nat) (img : Bytes) (arr : Nat) (h : UInt32) : Res Nat :=
  (searchMem base img arr 8 .pointer h).bind fun i =>
  if i = -1 then .ok 0 else (element base img arr 8 i).bind fun e => read base img e 8

/-- src/clReflectCpp/clcpp.cpp:633-636 GetType -/
def getType (base : Nat) (img : Bytes) (h : UInt32) : Res Nat :=
  findPrimitive base img (base + offsetOf databaseMem b!"type_primitives") h

/-- src/clReflectCpp/clcpp.cpp:638-644 GetNamespace, 651-657 GetTemplate and 659-665 GetFunction: the address of an entry
of a table or null. -/
def getEntry (base : Nat) (img : Bytes) (k : K) (h : UInt32) : Res Nat :=
  (searchMem base img (base + offsetOf databaseMem (tableMember k)) (stride k) .primitive h).bind fun i =>
  if i = -1 then .ok 0 else element base img (base + offsetOf databaseMem (tableMember k)) (stride k) i

/-- src/clReflectCpp/clcpp.cpp:610-617 GetName: hash and text of the name. -/
def getName (base : Nat) (img : Bytes) (h : UInt32) : Res (Nat × Nat) :=
  (searchMem base img (base + offsetOf databaseMem b!"names") name.lay.size .name h).bind fun i =>
  if i = -1 then .ok (0, 0)
  else
    (element base img (base + offsetOf databaseMem b!"names") name.lay.size i).bind fun e =>
    (read base img (e + offsetOf name b!"hash") 4).bind fun hash =>
    (read base img (e + offsetOf name b!"text") 8).bind fun text => .ok (hash, text)

end Clr.Image
