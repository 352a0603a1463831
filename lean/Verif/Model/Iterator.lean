import Verif.Basic
/-
Model of the iterators over containers and C arrays (src/clReflectCpp/Containers.cpp, inc/clcpp/Containers.h).
-/
namespace Clr.Iter

/-! ### C arrays -/

/-- What the iterators look at in a field that is a C array: the size of its type, whether it holds pointers, and the
count of its container info. Sizes and counts have 32 bits in the database; `size_type` has 64 bits on the targets
modelled. -/
structure ArrayField where
  typeSize : UInt32
  isPtr : Bool
  count : UInt32

/-- The primitive an iterator is given. -/
inductive Prim where
  | field (f : ArrayField)
  | other

/-- `m_ArrayData`, `m_ElementSize`, `m_Position` and `m_Size` of `ArrayReadIterator` and `ArrayWriteIterator`
(src/clReflectCpp/Containers.cpp:64-71 and 122-129). -/
structure ArrayIt where
  data : Nat
  elementSize : UInt64
  position : UInt64
  size : UInt64

/-- The size of an element (src/clReflectCpp/Containers.cpp:41-44 and 98-101). -/
def elementSize (f : ArrayField) : UInt64 := if f.isPtr then 8 else f.typeSize.toUInt64

/-- `ArrayReadIterator::Initialise` (src/clReflectCpp/Containers.cpp:26-50). An object pointer is a number, null is 0. -/
def readInit (p : Option Prim) (object : Nat) : Res ArrayIt :=
  match p with
  | none => .trap
  | some p =>
    if object = 0 then .trap
    else
      match p with
      | .other => .trap
      | .field f => .ok ⟨object, elementSize f, 0, f.count.toUInt64 * elementSize f⟩

/-- `ArrayReadIterator::GetKeyValue` (src/clReflectCpp/Containers.cpp:52-58): the key is always null, the value is
returned. -/
def getValue (it : ArrayIt) : Res Nat :=
  if it.position < it.size then .ok (it.data + it.position.toNat) else .trap

/-- `ArrayReadIterator::MoveNext` (src/clReflectCpp/Containers.cpp:60-63). -/
def moveNext (it : ArrayIt) : ArrayIt := { it with position := it.position + it.elementSize }

/-- `ArrayWriteIterator::Initialise` (src/clReflectCpp/Containers.cpp:84-107); `WriteIterator::Initialise` for fields
hands it the count as `int` (lines 219-231), from which it is made unsigned again. -/
def writeInit (p : Option Prim) (object : Nat) (count : Int32) : Res ArrayIt :=
  match p with
  | none => .trap
  | some p =>
    if object = 0 then .trap
    else
      match p with
      | .other => .trap
      | .field f => .ok ⟨object, elementSize f, 0, count.toUInt32.toUInt64 * elementSize f⟩

/-- `ArrayWriteIterator::AddEmpty` without and with a key (src/clReflectCpp/Containers.cpp:109-120): the key is not
looked at. -/
def addEmpty (it : ArrayIt) (_key : Option Nat) : Res (Nat × ArrayIt) :=
  if it.position < it.size then .ok (it.data + it.position.toNat, { it with position := it.position + it.elementSize })
  else .trap

/-- A loop that looks at `n` elements, moving on after each. -/
def readAll (it : ArrayIt) : Nat → Res (List Nat)
  | 0 => .ok []
  | n + 1 => do
    let v ← getValue it
    let vs ← readAll (moveNext it) n
    pure (v :: vs)

/-- A loop that adds elements, with or without keys. -/
def addAll (it : ArrayIt) : List (Option Nat) → Res (List Nat)
  | [] => .ok []
  | k :: ks => do
    let (v, it) ← addEmpty it k
    let vs ← addAll it ks
    pure (v :: vs)

/-! ### The object that holds the implementation -/

/-- What the iterators look at in the class of an implementation: its size, and whether it has a constructor and a
destructor. The number tells classes apart. -/
structure ImplClass where
  id : Nat
  size : Nat
  ctor : Bool
  dtor : Bool
deriving DecidableEq

/-- What can be in `m_ImplData`. -/
inductive Impl where
  | array
  | user (c : ImplClass)
deriving DecidableEq

/-- What happens to implementations. -/
inductive Ev where
  | construct (i : Impl)
  | destroy (i : Impl)
deriving DecidableEq

/-- An iterator object (inc/clcpp/Containers.h:98-118): `m_IteratorImplType`, `m_Initialised`, what is in
`m_ImplData`, and what has happened so far. -/
structure It where
  implType : Option ImplClass := none
  initialised : Bool := false
  slot : Option Impl := none
  log : List Ev := []

/-- One call of `Initialise`: with a type, that has a container interface with this class of iterators or has none, or
with a field, that has a container interface or none. -/
inductive Init where
  | type (ci : Option ImplClass)
  | field (ci : Bool)

/-- Constructing an implementation in `m_ImplData`. -/
def It.construct (it : It) (i : Impl) : It := { it with slot := some i, log := it.log ++ [.construct i] }

/-- Calling a destructor for an implementation: undefined if it is not what is in `m_ImplData`. All implementations have
virtual destructors, so that already finding the destructor reads `m_ImplData`. -/
def It.destroy (it : It) (i : Impl) : Res It :=
  if it.slot = some i then .ok { it with slot := none, log := it.log ++ [.destroy i] } else .ub

/-- `ReadIterator::Initialise` (src/clReflectCpp/Containers.cpp:147-176). The implementation's own `Initialise` is left
out here. `m_Initialised` is not set. -/
def It.readInitialise (it : It) : Init → Res It
  | .type none => .ok it
  | .type (some c) =>
    let it := { it with implType := some c }
    if c.ctor = false ∨ c.dtor = false then .ok it
    else if c.size < 128 then .ok (it.construct (.user c)) else .trap
  | .field false => .ok it
  | .field true => .ok (it.construct .array)

/-- `~ReadIterator` (src/clReflectCpp/Containers.cpp:138-145). Calling a destructor that is not there reads through a
null pointer. -/
def It.readDestroy (it : It) : Res It :=
  match it.implType with
  | some c => if c.dtor then it.destroy (.user c) else .ub
  | none => it.destroy .array

/-- `WriteIterator::Initialise` (src/clReflectCpp/Containers.cpp:198-231). -/
def It.writeInitialise (it : It) : Init → Res It
  | .type none => .ok it
  | .type (some c) =>
    let it := { it with implType := some c }
    if c.ctor = false ∨ c.dtor = false then .ok it
    else if c.size < 128 then .ok { it.construct (.user c) with initialised := true } else .trap
  | .field false => .ok it
  | .field true => .ok { it.construct .array with initialised := true }

/-- `~WriteIterator` (src/clReflectCpp/Containers.cpp:184-195). -/
def It.writeDestroy (it : It) : Res It :=
  if it.initialised then
    match it.implType with
    | some c => if c.dtor then it.destroy (.user c) else .ub
    | none => it.destroy .array
  else .ok it

/-- Some calls of `Initialise`. -/
def It.all (f : It → Init → Res It) (it : It) : List Init → Res It
  | [] => .ok it
  | i :: is => (f it i).bind fun it => it.all f is

/-- The life of a `ReadIterator`: what happens to implementations from its construction to its destruction. -/
def readLife (is : List Init) : Res (List Ev) :=
  ((It.all It.readInitialise {} is).bind It.readDestroy).map It.log

/-- The life of a `WriteIterator`. -/
def writeLife (is : List Init) : Res (List Ev) :=
  ((It.all It.writeInitialise {} is).bind It.writeDestroy).map It.log

end Clr.Iter
