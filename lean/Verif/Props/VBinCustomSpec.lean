import Verif.Model.VBinCustom
import Verif.Model.VBinSpec

/-!
Specification for custom functions in the versioned binary (C100): what is asked of the two classes and of the functions, and
what has been loaded.
-/
namespace Clr.VBin
open Clr.JSON (Ty Flds Tys Mem FldInfo Const Env Apart elemAt Effect)

mutual
/-- The fields of a class that have a chunk in what is saved: all but the transient ones and those of transient
classes. -/
def keptFields (e : Env) : Ty → List (FldInfo × Ty)
  | .cls _ _ fl fs bs => if e.skips fl then [] else fs.list.filter (fun x => !e.skips x.1.flags) ++ keptBases e bs
  | _ => []

/-- Those of base classes. -/
def keptBases (e : Env) : Tys → List (FldInfo × Ty)
  | .nil => []
  | .cons t r => keptFields e t ++ keptBases e r
end

/-- A field that is saved and loaded without custom functions can be: it is of a supported type and no pointer. -/
def Ordinary (e : Env) (x : FldInfo × Ty) : Prop :=
  x.1.isPtr = false ∧ (x.1.count ≠ none → 0 < x.2.size) ∧ (∀ n, x.1.count = some n → n < 2 ^ 32) ∧ Supported e x.2

/-- Two versions of a class with custom functions.  Fields are told apart by name; those that are loaded lie in the class
without overlap.  Fields without a custom function are as in C38.  Fields with one can be of any type, pointers included; but a
field that a custom function saves is loaded by one, if it is loaded. -/
structure CustomVersions (e : Env) (cu : Custom) (t t' : Ty) : Prop where
  same : t.hash = t'.hash
  bases : ClassBases t
  bases' : ClassBases t'
  names : t.allFields.Pairwise fun x y => nameHash x ≠ nameHash y
  names' : t'.allFields.Pairwise fun x y => nameHash x ≠ nameHash y
  inside' : ∀ y ∈ loadFields e t', y.1.offset + y.1.extent y.2 ≤ t'.size
  apart' : (loadFields e t').Pairwise Apart
  ordinary : ∀ x ∈ loadFields e t, cu.save (nameHash x) = none → Ordinary e x
  ordinary' : ∀ y ∈ loadFields e t', cu.load (nameHash y) = none → Ordinary e y
  both : ∀ x ∈ keptFields e t, ∀ y ∈ loadFields e t', nameHash x = nameHash y → cu.save (nameHash x) ≠ none →
    cu.load (nameHash y) ≠ none
  arrays : ∀ x ∈ keptFields e t, ∀ y ∈ loadFields e t', nameHash x = nameHash y → cu.load (nameHash y) = none →
    x.1.count.isSome = y.1.count.isSome ∧ (x.1.count.isSome = true → x.2.hash = y.2.hash)
  types : ∀ x ∈ keptFields e t, ∀ y ∈ loadFields e t', nameHash x = nameHash y → cu.load (nameHash y) = none →
    x.2.hash = y.2.hash → Versions e x.2 y.2

/-- `d` is what has been saved for the field `x` of the object at `a`: the bytes its custom function writes, or those of its
value. -/
def DataOf (cu : Custom) (e : Env) (m : Mem) (a : Nat) (x : FldInfo × Ty) (d : Bytes) : Prop :=
  match cu.save (nameHash x) with
  | some g => d = g m a (a + x.1.offset)
  | none => ∀ out, saveCell e m x.1 x.2 a out = .ok (out ++ d)

/-- The reader stands before these bytes. -/
def Before (s : St) (d : Bytes) : Prop :=
  ∃ pre post, s.data = pre ++ d ++ post ∧ s.pos = pre.length

/-- The addresses of a field of the object at `b`. -/
def InField (b : Nat) (y : FldInfo × Ty) (z : Nat) : Prop := b + y.1.offset ≤ z ∧ z < b + y.1.offset + y.1.extent y.2

/-- What is asked of a loading function, for the bytes `d` it is given: called before them, it returns, at any place in the
buffer, and of the memory in use it changes nothing but its field. -/
def Behaves (f : Nat → Nat → Load Unit) (b : Nat) (y : FldInfo × Ty) (data d : Bytes) (size : Nat) : Prop :=
  ∀ s, s.data = data → Before s d → b + size ≤ s.mem.next →
    ∃ s', f b (b + y.1.offset) s = .ok () s' ∧ s'.data = data ∧ 0 ≤ s'.pos ∧ s'.pos ≤ data.length ∧
      Effect s.mem s'.mem (InField b y)

/-- The memories agree at an address. -/
def Agree (m m' : Mem) (z : Nat) : Prop := m.byte z = m'.byte z ∧ m.elems z = m'.elems z

/-- The loading function `f` of the field `y` has done its work: it was called, before the bytes `d`, when its field was as in
`m0`, and what it has put into its field and into memory it has allocated is there in `m1`. -/
def Served (f : Nat → Nat → Load Unit) (b : Nat) (y : FldInfo × Ty) (data d : Bytes) (m0 m1 : Mem) : Prop :=
  ∃ s s', f b (b + y.1.offset) s = .ok () s' ∧ s.data = data ∧ Before s d ∧ (∀ z, InField b y z → Agree s.mem m0 z) ∧
    ∀ z, InField b y z ∨ (s.mem.next ≤ z ∧ z < s'.mem.next) → Agree m1 s'.mem z

/-- A field without custom functions has got what was saved, as in C38. -/
def Kept (e : Env) (m m1 m0 : Mem) (a b : Nat) (x y : FldInfo × Ty) : Prop :=
  (x.1.count = none → y.1.count = none →
    Got e m m1 (fun z => m0.next ≤ z ∧ z < m1.next) m0 x.2 y.2 (a + x.1.offset) (b + y.1.offset)) ∧
  (∀ n n', x.1.count = some n → y.1.count = some n' → ∀ i, i < n → i < n' →
    Got e m m1 (fun z => m0.next ≤ z ∧ z < m1.next) m0 x.2 y.2 (elemAt (a + x.1.offset) i x.2.size)
      (elemAt (b + y.1.offset) i y.2.size))

end Clr.VBin
