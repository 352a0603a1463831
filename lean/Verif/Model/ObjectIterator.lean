import Verif.Model.ObjectGroup
/-
Model of `clobj::ObjectIterator` (src/clReflectUtil/Objects.cpp:274-393) over the groups of
Model/ObjectGroup. The heap gives the table of every object that is an object group, which stands
for the test `kind == KIND_CLASS && (flag_attributes & FLAG_ATTR_IS_OBJECT_GROUP)`.

The iterator's stack of groups is first modelled as the array it is (`GroupStack`), then used as a
list; Props/ObjectIterator shows that the array behaves like the list.
-/
namespace Clr.ObjectIterator
open Clr.ObjectGroup

/-- `m_GroupsToScan`, `m_NbGroupsToScan`, `m_GroupsCapacity` (inc/clutl/Objects.h:174-176).
The outer `none` is the null array; an inner `none` is an uninitialised element. -/
structure GroupStack (α : Type) where
  arr : Option (List (Option α)) := none
  nb : Nat := 0
  cap : Nat := 0

/-- Array store with a bounds check. -/
def store {α : Type} (arr : List (Option α)) (i : Nat) (a : α) : Res (List (Option α)) :=
  if i < arr.length then .ok (arr.set i (some a)) else .ub

/-- The copy loop `for i < capacity: new_groups[i] = m_GroupsToScan[i]`
(src/clReflectUtil/Objects.cpp:374-375): reading beyond the old array or writing beyond the new one
is undefined. Reading an element that was never written is also undefined. -/
def copyLoop {α : Type} (old : List (Option α)) : Nat → Nat → List (Option α) → Res (List (Option α))
  | 0, _, new => .ok new
  | n + 1, i, new =>
    match old[i]? with
    | some (some a) => do let new ← store new i a; copyLoop old n (i + 1) new
    | _ => .ub

/-- `PushGroup` (src/clReflectUtil/Objects.cpp:358-384). -/
def push {α : Type} (s : GroupStack α) (a : α) : Res (GroupStack α) :=
  match s.arr with
  | none => do
    let arr ← store (List.replicate 4 none) 0 a
    .ok { arr := some arr, nb := 1, cap := 4 }
  | some arr =>
    if s.nb = s.cap then do
      let new ← copyLoop arr s.cap 0 (List.replicate (s.cap * 2) none)
      let new ← store new s.nb a
      .ok { arr := some new, nb := s.nb + 1, cap := s.cap * 2 }
    else do
      let arr ← store arr s.nb a
      .ok { s with arr := some arr, nb := s.nb + 1 }

/-- `PopGroup` (src/clReflectUtil/Objects.cpp:387-391): asserts that the stack is not empty. -/
def pop {α : Type} (s : GroupStack α) : Res (α × GroupStack α) :=
  if s.nb > 0 then
    match s.arr with
    | some arr =>
      match arr[s.nb - 1]? with
      | some (some a) => .ok (a, { s with nb := s.nb - 1 })
      | _ => .ub
    | none => .ub
  else .trap

/-- Iterator state: `m_ObjectGroup` (`none` is null), `m_Position`, the stack (top first). -/
structure It where
  group : Option Group
  pos : Nat
  stack : List Group

/-- The inner `for` loop of `ScanForEntry` (src/clReflectUtil/Objects.cpp:319-340): the first
occupied slot at or after a position, with at most `n` slots to look at. -/
def nextSlot (g : Group) : Nat → Nat → Option (Nat × Obj)
  | 0, _ => none
  | n + 1, p =>
    match g.tab[p]? with
    | some e =>
      match e.obj with
      | some o => some (p, o)
      | none => nextSlot g n (p + 1)
    | none => none

/-- Pushing a nested group that claims to have objects (src/clReflectUtil/Objects.cpp:325-335).
`m_NbObjects > 0` is an unsigned comparison. -/
def pushNested (recursive : Bool) (heap : Heap) (o : Obj) (stack : List Group) : List Group :=
  if recursive then
    match heap o.addr with
    | some g' => if g'.nb ≠ 0 then g' :: stack else stack
    | none => stack
  else stack

/-- `ScanForEntry` (src/clReflectUtil/Objects.cpp:313-357). A pass that pushes a group ends the
outer loop, a pass that does not pops one, so the recursion is on the stack. -/
def scan (recursive : Bool) (heap : Heap) (g : Group) (pos : Nat) : List Group → It
  | [] =>
    match nextSlot g (g.max - pos) pos with
    | some (p, o) => { group := some g, pos := p, stack := pushNested recursive heap o [] }
    | none => { group := none, pos := pos, stack := [] }
  | g' :: st =>
    match nextSlot g (g.max - pos) pos with
    | some (p, o) => { group := some g, pos := p, stack := pushNested recursive heap o (g' :: st) }
    | none => scan recursive heap g' 0 st

/-- The constructor (src/clReflectUtil/Objects.cpp:274-284) on a non-null group. -/
def start (recursive : Bool) (heap : Heap) (g : Group) : It := scan recursive heap g 0 []

/-- `MoveNext` (src/clReflectUtil/Objects.cpp:300-304). -/
def moveNext (recursive : Bool) (heap : Heap) (it : It) : It :=
  match it.group with
  | none => it
  | some g => scan recursive heap g (it.pos + 1) it.stack

/-- `GetObject` (src/clReflectUtil/Objects.cpp:293-297). -/
def getObject (it : It) : Res (Option Obj) :=
  match it.group with
  | none => .trap
  | some g =>
    match g.tab[it.pos]? with
    | some e => .ok e.obj
    | none => .ub

/-- The loop `for (it; it.IsValid(); it.MoveNext()) visit(it.GetObject())`; `none` if it has not
finished after the given number of steps. -/
def collect (recursive : Bool) (heap : Heap) : Nat → It → Option (Res (List (Option Obj)))
  | 0, _ => none
  | n + 1, it =>
    match it.group with
    | none => some (.ok [])
    | some _ => do
      let rest ← collect recursive heap n (moveNext recursive heap it)
      pure (do let o ← getObject it; let os ← rest; .ok (o :: os))

end Clr.ObjectIterator
