import Verif.Model.ObjectGroup
import Verif.Model.Hash
/-
Model of the life of objects: `clobj::CreateObject`, `clobj::New`, `clobj::DestroyObject` and the destructors of `clobj::Object` and
`clobj::ObjectGroup` (src/clReflectUtil/Objects.cpp:29-135, inc/clutl/Objects.h:217-306).

Simplifications:
* memory is a partial map from the addresses of live objects to what the library knows of them; where a new object goes is given with the
  call (the allocator's choice, see `Fresh` in the properties);
* constructors and destructors of users' classes do what those of their bases `Object` and `ObjectGroup` do, and nothing else that matters here;
* the object groups are those of `Model/ObjectGroup`.
-/
namespace Clr.ObjectLife
open Clr.ObjectGroup (Group Obj)

/-- What matters of a class: the hash of its name, whether a constructor and a destructor are registered, and whether it derives from (or is)
`clobj::Object` and `clobj::ObjectGroup` (inc/clcpp/clcpp.h, `clcpp::Class`). -/
structure Cls where
  hash : BitVec 32
  ctor : Bool
  dtor : Bool
  isObject : Bool
  isGroup : Bool
deriving DecidableEq, Repr

/-- The `type` argument of `CreateObject`: null, not a class, or a class. -/
inductive TypeArg where
  | null
  | other
  | cls (c : Cls)
deriving DecidableEq, Repr

/-- A live object (inc/clutl/Objects.h:72-82); `table` is the hash table of an object group. -/
structure Rec where
  cls : Cls
  uid : Nat
  group : Option Nat
  table : Option Group
deriving DecidableEq, Repr

/-- Memory: what is at each address. -/
abbrev World := Nat → Option Rec

/-- `w` with what is at `a` replaced. -/
def World.set (w : World) (a : Nat) (r : Option Rec) : World := fun x => if x = a then r else w x

/-- How a call ends: it returns, an assertion fails, it is undefined, or it does not return. -/
inductive Out (α : Type) where
  | ok (v : α)
  | trap
  | ub
  | hang
deriving Repr

/-- `g_ObjectGroupHash`, src/clReflectUtil/Objects.cpp:16-18. -/
def groupHash : BitVec 32 := Hash.hashText b!"clobj::ObjectGroup"

/-- `ObjectGroup::AddObject`, src/clReflectUtil/Objects.cpp:119-124, of the object at `a` to the group at `g`. -/
def addTo (w : World) (a g : Nat) (r : Rec) : Out World :=
  match w g with
  | some rg =>
    match rg.table with
    | some t =>
      if r.uid = 0 then .trap
      else match Clr.ObjectGroup.addObject t ⟨a, r.uid⟩ with
        | some t' => .ok ((w.set g (some { rg with table := some t' })).set a (some { r with group := some g }))
        | none => .hang
    | none => .ub
  | none => .ub

/-- What `CreateObject` (src/clReflectUtil/Objects.cpp:60-66) and `New::SetObject` (inc/clutl/Objects.h:288-302) do after the constructor: the
members are set, and the object is added to its group if there is one. Of a class that does not derive from `Object`, memory that is not theirs
is written. -/
def setUp (w : World) (a : Nat) (c : Cls) (uid : Nat) (grp : Option Nat) : Out World :=
  if c.isObject then
    let r : Rec := ⟨c, uid, none, if c.isGroup then some Clr.ObjectGroup.init else none⟩
    let w' := w.set a (some r)
    match grp with
    | none => .ok w'
    | some g => addTo w' a g r
  else .ub

/-- `CreateObject`, src/clReflectUtil/Objects.cpp:29-66: the new state and the pointer returned (`none` is null). -/
def create (w : World) (a : Nat) (ty : TypeArg) (uid : Nat) (grp : Option Nat) : Out (World × Option Nat) :=
  match ty with
  | .null => .ok (w, none)
  | .other => .ok (w, none)
  | .cls c =>
    if c.hash ≠ groupHash ∧ (c.ctor = false ∨ c.dtor = false) then .ok (w, none)
    else match setUp w a c uid grp with
      | .ok w' => .ok (w', some a)
      | .trap => .trap
      | .ub => .ub
      | .hang => .hang

/-- `clobj::New<TYPE>(uid, group)`, inc/clutl/Objects.h:222-302: the class is known to the compiler, and needs no registered constructor. -/
def new (w : World) (a : Nat) (c : Cls) (uid : Nat) (grp : Option Nat) : Out (World × Option Nat) :=
  match setUp w a c uid grp with
  | .ok w' => .ok (w', some a)
  | .trap => .trap
  | .ub => .ub
  | .hang => .hang

/-- `~ObjectGroup` and `~Object`, src/clReflectUtil/Objects.cpp:94-98 and 112-116, and the release of the memory: the group the object says it is
in must be there. -/
def destruct (w : World) (a : Nat) (r : Rec) : Out World :=
  match r.group with
  | none => .ok (w.set a none)
  | some g =>
    match w g with
    | some rg =>
      match rg.table with
      | some t =>
        match Clr.ObjectGroup.removeObject t ⟨a, r.uid⟩ with
        | some t' => .ok ((w.set g (some { rg with table := some t' })).set a none)
        | none => .hang
      | none => .ub
    | none => .ub

/-- `DestroyObject`, src/clReflectUtil/Objects.cpp:69-91. Using an object that is not there is undefined. -/
def destroy (w : World) (p : Option Nat) : Out World :=
  match p with
  | none => .trap
  | some a =>
    match w a with
    | none => .ub
    | some r => if r.cls.hash ≠ groupHash ∧ r.cls.dtor = false then .trap else destruct w a r

/-- `group->FindObject(uid)` for the group at `g`. -/
def findIn (w : World) (g uid : Nat) : Out (Option Obj) :=
  match w g with
  | some rg =>
    match rg.table with
    | some t =>
      match Clr.ObjectGroup.find t uid with
      | some r => .ok r
      | none => .hang
    | none => .ub
  | none => .ub

/-- A call. -/
inductive Op where
  | create (a : Nat) (ty : TypeArg) (uid : Nat) (grp : Option Nat)
  | new (a : Nat) (c : Cls) (uid : Nat) (grp : Option Nat)
  | destroy (a : Nat)
deriving DecidableEq, Repr

/-- What a call does. -/
def step (w : World) : Op → Out World
  | .create a ty uid grp => match create w a ty uid grp with
    | .ok r => .ok r.1
    | .trap => .trap
    | .ub => .ub
    | .hang => .hang
  | .new a c uid grp => match new w a c uid grp with
    | .ok r => .ok r.1
    | .trap => .trap
    | .ub => .ub
    | .hang => .hang
  | .destroy a => destroy w (some a)

/-- A history. -/
def run (w : World) : List Op → Out World
  | [] => .ok w
  | op :: ops => match step w op with
    | .ok w' => run w' ops
    | .trap => .trap
    | .ub => .ub
    | .hang => .hang

/-- No objects. -/
def nothing : World := fun _ => none

end Clr.ObjectLife
