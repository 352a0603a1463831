import Verif.Model.Reloc
/-
Model of the life of `clcpp::Database` objects and of the memory they get from the client's allocators
(src/clReflectCpp/clcpp.cpp:180-267, 556-608). Allocators always give fresh blocks; giving back a block that is not
live is undefined behaviour.
-/
namespace Clr.Runtime
open Clr.Reloc

/-- The blocks of all allocators: allocator and number of the block. -/
structure World where
  next : Nat := 0
  live : List (Nat × Nat) := []

/-- `IAllocator::Alloc` (inc/clcpp/clcpp.h:416-420). -/
def alloc (a : Nat) (w : World) : Nat × World := (w.next, ⟨w.next + 1, (a, w.next) :: w.live⟩)

/-- `IAllocator::Free` (inc/clcpp/clcpp.h:416-420). -/
def free (a id : Nat) (w : World) : Res World :=
  if (a, id) ∈ w.live then .ok { w with live := w.live.erase (a, id) } else .ub

/-- `ReadArray` (src/clReflectCpp/clcpp.cpp:180-195): the entries, the rest of the file and the block, or nothing. -/
def readArrayMem {β : Type} (a width : Nat) (f : Bytes → β) (n : Nat) (file : Bytes) (w : World) :
    Res (Option (List β × Bytes × Nat) × World) :=
  let m := alloc a w
  match readArray width f n file with
  | none => (free a m.1 m.2).map fun w => (none, w)
  | some (l, rest) => .ok (some (l, rest, m.1), m.2)

/-- Releasing the temporary arrays (src/clReflectCpp/clcpp.cpp:260-262). -/
def release (a rels offs schemas : Nat) (w : World) : Res World := do
  let w ← free a rels w
  let w ← free a offs w
  free a schemas w

/-- `LoadMemoryMappedDatabase` (src/clReflectCpp/clcpp.cpp:197-267) from the arrays on: the block of the image, and the
image, or null. `place` is the address of a block. -/
def loadArrays (place : Nat → Nat) (a : Nat) (h : Bytes) (block : Nat) (img file : Bytes) (w : World) :
    Res (Option (Nat × Bytes) × World) := do
  match ← readArrayMem a 24 parseSchema (num h 12 4) file w with
  | (none, w) => pure (none, w)
  | (some (schemas, file, sid), w) =>
    match ← readArrayMem a 8 unle (num h 16 4) file w with
    | (none, w) => pure (none, w)
    | (some (offs, file, oid), w) =>
      match ← readArrayMem a 24 parseRel (num h 20 4) file w with
      | (none, w) => pure (none, w)
      | (some (rels, _, rid), w) => do
        let img ← loop (patchRel (place block) (num h 24 8) schemas offs) (rels.take (rounds (num h 20 4))) img
        let w ← release a rid oid sid w
        pure (some (block, img), w)

/-- `LoadMemoryMappedDatabase` (src/clReflectCpp/clcpp.cpp:197-267). -/
def loadMem (place : Nat → Nat) (a : Nat) (file : Bytes) (w : World) : Res (Option (Nat × Bytes) × World) :=
  match takeN 32 file with
  | none => .ok (none, w)
  | some (h, file) =>
    if num h 8 4 ≠ version then .ok (none, w)
    else if num h 0 4 ≠ signature0 ∨ num h 4 4 ≠ signature1 then .ok (none, w)
    else
      let m := alloc a w
      match takeN (num h 24 8) file with
      | none => .ok (none, m.2)
      | some (img, file) => loadArrays place a h m.1 img file m.2

/-- A `Database`: `m_Allocator` and `m_DatabaseMem` with what is there (inc/clcpp/clcpp.h:956-965). -/
structure Db where
  allocator : Nat := 0
  mem : Option (Nat × Bytes) := none

/-- What is done to a loaded image (src/clReflectCpp/clcpp.cpp:582-604). -/
def prepare (base loadAddr self : Nat) (dontRebase : Bool) (img : Bytes) : Res Bytes :=
  (if dontRebase then .ok img else rebaseFunctions base loadAddr img).bind fun img =>
    loop (parentTo base self) primitiveArrays img

/-- `Database::Load` (src/clReflectCpp/clcpp.cpp:575-608). -/
def Db.load (place : Nat → Nat) (self a loadAddr : Nat) (dontRebase : Bool) (file : Bytes) (d : Db) (w : World) :
    Res (Bool × Db × World) :=
  if d.mem.isSome then .trap
  else do
    match ← loadMem place a file w with
    | (none, w) => pure (false, ⟨a, none⟩, w)
    | (some (id, img), w) => do
      let img ← prepare (place id) loadAddr self dontRebase img
      pure (true, ⟨a, some (id, img)⟩, w)

/-- `~Database` (src/clReflectCpp/clcpp.cpp:562-566). -/
def Db.destroy (d : Db) (w : World) : Res World :=
  match d.mem with
  | some (id, _) => free d.allocator id w
  | none => .ok w

/-- All databases of a program; those that were destroyed are `none`. -/
structure St where
  w : World := {}
  dbs : List (Option Db) := []

/-- What a program does with databases. Copying is forbidden (inc/clcpp/clcpp.h:956-959). -/
inductive Op where
  /-- a new `Database` -/
  | create
  /-- `Load` with an allocator, a load address, the option not to rebase functions and the file -/
  | load (i a loadAddr : Nat) (dontRebase : Bool) (file : Bytes)
  /-- any of the `Get` functions -/
  | query (i : Nat)
  /-- the end of a `Database` -/
  | destroy (i : Nat)

/-- One operation. Using a database that does not exist is undefined, as is asking one that is not loaded
(src/clReflectCpp/clcpp.cpp:610-694: all of them go through `m_DatabaseMem`). -/
def step (place self : Nat → Nat) (s : St) : Op → Res St
  | .create => .ok { s with dbs := s.dbs ++ [some {}] }
  | .load i a loadAddr dontRebase file =>
    match s.dbs[i]? with
    | some (some d) => do
      let r ← d.load place (self i) a loadAddr dontRebase file s.w
      pure ⟨r.2.2, s.dbs.set i (some r.2.1)⟩
    | _ => .ub
  | .query i =>
    match s.dbs[i]? with
    | some (some d) => if d.mem.isSome then .ok s else .ub
    | _ => .ub
  | .destroy i =>
    match s.dbs[i]? with
    | some (some d) => do
      let w ← d.destroy s.w
      pure ⟨w, s.dbs.set i none⟩
    | _ => .ub

/-- A history. -/
def run (place self : Nat → Nat) (s : St) : List Op → Res St
  | [] => .ok s
  | o :: os => do
    let s ← step place self s o
    run place self s os

end Clr.Runtime
