import Verif.Basic
/-
Model of `clobj::ObjectGroup` (src/clReflectUtil/Objects.cpp): the open-addressed hash table of
objects keyed by unique id.

Results are `Option`: `none` means that the call does not return (an endless probe loop, or
endless recursion between insertion and resizing).

Simplifications:
* the occupied counter and table sizes are natural numbers; they agree with the `unsigned int`s of
  the code as long as the table has fewer than 2^30 slots (16 GiB).
* `m_NbObjects`, which wraps below zero when absent objects are removed, is an integer; a negative
  number is the wrapped one, and so larger than any load limit. This agrees with the code as long as
  it is between -2^31 and 2^31.
* an object is its address and its unique id, which stays fixed while it is in a group;
  the address is never 0 (null).
-/
namespace Clr.ObjectGroup

/-- `clobj::Object` as far as the group is concerned (inc/clutl/Objects.h:33-83). -/
structure Obj where
  addr : Nat
  uid : Nat
deriving DecidableEq, Repr

/-- `ObjectGroup::HashEntry` (src/clReflectUtil/Objects.cpp:20-25): zero hash and null object
initially; `obj = none` is the null pointer. A non-zero hash with a null object is a "dummy". -/
structure Entry where
  hash : Nat := 0
  obj : Option Obj := none
deriving DecidableEq, Repr

/-- The group's state (inc/clutl/Objects.h:124-127). -/
structure Group where
  max : Nat
  nb : Int
  occ : Nat
  tab : List Entry
deriving DecidableEq, Repr

/-- A fresh table: `new HashEntry[n]`. -/
def freshTab (n : Nat) : List Entry := List.replicate n {}

/-- The constructor (src/clReflectUtil/Objects.cpp:101-109). -/
def init : Group := { max := 8, nb := 0, occ := 0, tab := freshTab 8 }

/-- The linear probe loops `while (!stop(slot)) index = (index + 1) & index_mask`.
The first argument bounds the number of slots looked at; see `probe`. -/
def probeLoop (stop : Entry → Bool) (g : Group) : Nat → Nat → Option Nat
  | 0, _ => none
  | f + 1, i =>
    match g.tab[i]? with
    | none => none
    | some e => if stop e then some i else probeLoop stop g f ((i + 1) &&& (g.max - 1))

/-- A probe from the natural location of `hash`. All `m_MaxNbObjects` slots have been visited after
as many steps, so that a longer run cannot find a stopping slot any more
(`probeLoop_fuel_irrelevant`): the loop is then endless. -/
def probe (stop : Entry → Bool) (g : Group) (hash : Nat) : Option Nat :=
  probeLoop stop g g.max (hash &&& (g.max - 1))

/-- `FindObject` (src/clReflectUtil/Objects.cpp:138-156). Inner `none` is the null pointer. -/
def find (g : Group) (uid : Nat) : Option (Option Obj) := do
  let i ← probe (fun e => e.hash == 0 || (e.hash == uid && e.obj.isSome)) g uid
  let e ← g.tab[i]?
  pure e.obj

/-- First half of `AddHashEntry`: find a free or dummy slot and fill it
(src/clReflectUtil/Objects.cpp:204-216). -/
def place (g : Group) (o : Obj) : Option Group := do
  let i ← probe (fun e => e.hash == 0 || e.obj.isNone) g o.uid
  pure { g with tab := g.tab.set i ⟨o.uid, some o⟩, nb := g.nb + 1, occ := g.occ + 1 }

/-- `Resize` (src/clReflectUtil/Objects.cpp:244-271), parameterised by the insertion it calls. -/
def resizeWith (add : Group → Obj → Option Group) (g : Group) (increase : Bool) : Option Group :=
  let max' := if increase then (if g.max < 8192 * 4 then g.max * 4 else g.max * 2) else g.max
  g.tab.foldlM
    (fun g' e => match e.obj with
      | some o => add g' o
      | none => some g')
    { max := max', nb := 0, occ := 0, tab := freshTab max' }

/-- `AddHashEntry` (src/clReflectUtil/Objects.cpp:202-226). The first argument bounds the nesting of
`AddHashEntry` and `Resize` calls. -/
def addHashEntry : Nat → Group → Obj → Option Group
  | 0, _, _ => none
  | d + 1, g, o => do
    let g ← place g o
    if g.nb < 0 ∨ g.nb > ((g.max * 2 / 3 : Nat) : Int) then resizeWith (addHashEntry d) g true
    else if g.occ = g.max then resizeWith (addHashEntry d) g false
    else pure g

/-- `RemoveHashEntry` (src/clReflectUtil/Objects.cpp:229-241). -/
def removeHashEntry (g : Group) (hash : Nat) : Option Group := do
  let i ← probe (fun e => e.hash == 0 || e.hash == hash) g hash
  let e ← g.tab[i]?
  pure { g with tab := g.tab.set i { e with obj := none },
                nb := g.nb - 1 }

/-- `AddObject` (src/clReflectUtil/Objects.cpp:119-124): asserts a non-zero id. Recursion depth 3 is
enough in every state (`addObject_total`). -/
def addObject (g : Group) (o : Obj) : Option Group :=
  if o.uid = 0 then none else addHashEntry 3 g o

/-- `RemoveObject` (src/clReflectUtil/Objects.cpp:127-135), called by `~Object` (94-98). -/
def removeObject (g : Group) (o : Obj) : Option Group :=
  if o.uid ≠ 0 then removeHashEntry g o.uid else some g

/-- The objects the table currently points to, in table order: what `ObjectIterator` of type
`IteratorSingle` visits (see Model/ObjectIterator). -/
def live (g : Group) : List Obj := g.tab.filterMap (·.obj)

/-- Operations of a history. -/
inductive Op where
  | add (o : Obj)
  | remove (o : Obj)
deriving DecidableEq, Repr

def step (g : Group) : Op → Option Group
  | .add o => addObject g o
  | .remove o => removeObject g o

def run (g : Group) (ops : List Op) : Option Group := ops.foldlM step g

/-! Hierarchies of groups -/

/-- The heap: for the address of an object that is an object group (its class carries
`FLAG_ATTR_IS_OBJECT_GROUP`), the group's table; otherwise `none`. -/
abbrev Heap := Nat → Option Group

/-- The loop of `FindObjectRelative` (src/clReflectUtil/Objects.cpp:177-199). `self` is `this`;
the inner lookup is on `this`, as in the code (line 183), not on the group reached so far.
An empty path makes `nb_ids - 1` wrap to 2^32-1 and reads ids beyond the array: outer `none`. -/
def relLoop (heap : Heap) (self cur : Group) : List Nat → Option (Option Obj)
  | [] => none
  | [u] => find cur u
  | u :: v :: us => do
    let r ← find self u
    match r with
    | none => pure none
    | some o =>
      match heap o.addr with
      | none => pure none
      | some g => relLoop heap self g (v :: us)

/-- `FindObjectRelative` (src/clReflectUtil/Objects.cpp:177-199). -/
def findRelative (heap : Heap) (self : Group) (ids : List Nat) : Option (Option Obj) :=
  relLoop heap self self ids

/-- `FindObjectSearchParents` (src/clReflectUtil/Objects.cpp:159-174) along the chain
`this, this->object_group, ...` of enclosing groups. -/
def findSearchParents : List Group → Nat → Option (Option Obj)
  | [], _ => some none
  | g :: gs, u => do
    let r ← find g u
    match r with
    | some o => pure (some o)
    | none => findSearchParents gs u

end Clr.ObjectGroup
