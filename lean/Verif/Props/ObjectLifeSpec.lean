import Verif.Model.ObjectLife
/-
C99: the life of objects, as a user sees it.
-/
namespace Clr.ObjectLife

/-- What a user knows of an object: its class, its unique id and the group it was created in. -/
structure Known where
  cls : Cls
  uid : Nat
  group : Option Nat
deriving DecidableEq, Repr

/-- The objects there are. -/
abbrev Objects := Nat → Option Known

/-- The classes `CreateObject` creates objects of: with constructor and destructor, or `ObjectGroup` itself. -/
def Creatable (c : Cls) : Prop := c.hash = groupHash ∨ (c.ctor = true ∧ c.dtor = true)

instance (c : Cls) : Decidable (Creatable c) := by unfold Creatable; infer_instance

/-- What a call does to the objects there are: `CreateObject` for something that is not a creatable class does nothing. -/
def specStep (s : Objects) : Op → Objects
  | .create a (.cls c) uid grp => if Creatable c then (fun x => if x = a then some ⟨c, uid, grp⟩ else s x) else s
  | .create _ _ _ _ => s
  | .new a c uid grp => fun x => if x = a then some ⟨c, uid, grp⟩ else s x
  | .destroy a => fun x => if x = a then none else s x

def specRun (s : Objects) (ops : List Op) : Objects := ops.foldl specStep s

/-- The object at `a` is in the group at `g` under the id `u`. -/
def In (s : Objects) (g u a : Nat) : Prop := ∃ k, s a = some k ∧ k.uid = u ∧ k.group = some g

/-- What may be asked of a new object: it is placed where there is none, its class derives from `Object`, and if it is to be in a group, that
is a live one, and the object has an id that is not zero and not that of another in the group. -/
structure MayStart (s : Objects) (a : Nat) (c : Cls) (uid : Nat) (grp : Option Nat) : Prop where
  fresh : s a = none
  object : c.isObject = true
  grouped : ∀ g, grp = some g → uid ≠ 0 ∧ (∃ k, s g = some k ∧ k.cls.isGroup = true) ∧ ∀ b, ¬ In s g uid b

/-- Calls that may be made: objects are destroyed once, through `DestroyObject` if there is a registered destructor, and groups when they are
empty. -/
def Allowed (s : Objects) : Op → Prop
  | .create a (.cls c) uid grp => Creatable c → MayStart s a c uid grp
  | .create _ _ _ _ => True
  | .new a c uid grp => MayStart s a c uid grp
  | .destroy a => ∃ k, s a = some k ∧ (k.cls.hash = groupHash ∨ k.cls.dtor = true) ∧ ∀ u b, ¬ In s a u b

def AllAllowed : Objects → List Op → Prop
  | _, [] => True
  | s, op :: ops => Allowed s op ∧ AllAllowed (specStep s op) ops

/-- No objects. -/
def none : Objects := fun _ => .none

end Clr.ObjectLife
