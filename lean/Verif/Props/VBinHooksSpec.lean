import Verif.Model.VBinHooks
import Verif.Props.VBinCustomSpec

/-!
Specification for custom functions at any depth in the versioned binary (C103): what is asked of the objects and the functions, and what has
been loaded.
-/
namespace Clr.VBin
open Clr.JSON (Ty Flds Tys Mem FldInfo Const Env Apart elemAt Effect)

mutual
/-- All the fields of a class and its bases, with the classes that have them. -/
def ownedFields : Ty → List Owned
  | .cls h _ _ fs bs => fs.list.map (fun x => (h, x)) ++ ownedBases bs
  | _ => []

/-- Those of base classes. -/
def ownedBases : Tys → List Owned
  | .nil => []
  | .cons t r => ownedFields t ++ ownedBases r
end

mutual
/-- Those that have a chunk in what is saved: all but the transient ones and those of transient classes. -/
def keptOwned (e : Env) : Ty → List Owned
  | .cls h _ fl fs bs =>
    if e.skips fl then [] else (fs.list.filter (fun x => !e.skips x.1.flags)).map (fun x => (h, x)) ++ keptOwnedBases e bs
  | _ => []

/-- Those of base classes. -/
def keptOwnedBases (e : Env) : Tys → List Owned
  | .nil => []
  | .cons t r => keptOwned e t ++ keptOwnedBases e r
end

/-- The function the field has for saving. -/
abbrev Functions.saves (fn : Functions) (x : Owned) : Option (Mem → Nat → Nat → Bytes) := fn.save x.1 x.2.1

/-- The function the field has for loading. -/
abbrev Functions.loads (fn : Functions) (x : Owned) : Option (Nat → Nat → Load Unit) := fn.load x.1 x.2.1

/-- The bytes in the chunk of a field of the object at `a`: those its function writes; or those of its value; or, of a C array, a header, and
for every element its bytes, after their number if the elements' size can differ. -/
inductive Written (fn : Functions) (e : Env) (m : Mem) (a : Nat) : Owned → Bytes → Prop
  | function {x : Owned} {g : Mem → Nat → Nat → Bytes} (hg : fn.saves x = some g) : Written fn e m a x (g m a (a + x.2.1.offset))
  | value {x : Owned} {d : Bytes} (hg : fn.saves x = none) (hc : x.2.1.count = none)
      (hs : ∀ out, saveObjectH fn e m x.2.2 (a + x.2.1.offset) out = .ok (out ++ d)) : Written fn e m a x d
  | array {x : Owned} {k : Nat} {ds : Nat → Bytes} (hg : fn.saves x = none) (hc : x.2.1.count = some k) (hp : x.2.1.isPtr = false)
      (hz : 0 < x.2.2.size)
      (hs : ∀ i, i < k → ∀ out, saveObjectH fn e m x.2.2 (elemAt (a + x.2.1.offset) i x.2.2.size) out = .ok (out ++ ds i)) :
      Written fn e m a x (containerHeader k none x.2.2 false ++
        (List.range k).flatMap fun i => (if valueTypeSize x.2.2 false = 0 then le 4 (ds i).length else []) ++ ds i)

/-- The functions of a field are inverse to each other: given the bytes that `save` has made of the field of an object, `load` returns, has read
any number of them, or more, has changed nothing in use but its field, and there are the bytes of the field that was saved. -/
def InverseOn (x : FldInfo × Ty) (save : Mem → Nat → Nat → Bytes) (load : Nat → Nat → Load Unit) : Prop :=
  ∀ m a s b, s.data.length < 2 ^ 31 → Before s (save m a (a + x.1.offset)) → b + x.1.offset + x.1.extent x.2 ≤ s.mem.next →
    ∃ s', load b (b + x.1.offset) s = .ok () s' ∧ s'.data = s.data ∧ 0 ≤ s'.pos ∧ s'.pos ≤ s.data.length ∧
      Effect s.mem s'.mem (InField b x) ∧
      s'.mem.read (b + x.1.offset) (x.1.extent x.2) = m.read (a + x.1.offset) (x.1.extent x.2)

/-- What survives being saved and loaded, of memory `m` at an address, if it is no C array (`none`) or one of some size: values of primitive
types; values of enums that are found again by the names of their constants; objects of classes whose fields are told apart by name, lie in the
class without overlap, and either have functions that are inverse to each other (fields of any type, pointers too) or no functions and survive;
containers whose elements survive; dictionaries
with keys of less than 128 bytes that are primitive or enums, if keys and elements survive; C arrays of all these.  (Sizes fit the four bytes they are saved in.) -/
inductive Lasts (fn : Functions) (e : Env) (m : Mem) : Option Nat → Ty → Nat → Prop
  | prim (h : BitVec 32) (s a : Nat) : Lasts fn e m none (.prim h s) a
  | enum {h : BitVec 32} {cs : List Const} {fl : Bool} {a : Nat} (hz : ∀ c ∈ cs, Hash.hashText c.name ≠ 0)
      (hv : enumValue cs cs (enumAt m a) = some (enumAt m a)) : Lasts fn e m none (.enum h 4 cs fl) a
  | object {h : BitVec 32} {z : Nat} {fl : BitVec 32} {fs : Flds} {bs : Tys} {a : Nat} (hb : ClassBases (.cls h z fl fs bs))
      (hn : (ownedFields (.cls h z fl fs bs)).Pairwise fun x y => nameHash x.2 ≠ nameHash y.2)
      (hi : ∀ x ∈ keptOwned e (.cls h z fl fs bs), x.2.1.offset + x.2.1.extent x.2.2 ≤ z)
      (hap : (keptOwned e (.cls h z fl fs bs)).Pairwise fun x y => Apart x.2 y.2)
      (hg : ∀ x ∈ keptOwned e (.cls h z fl fs bs), ∀ g, fn.saves x = some g → ∃ l, fn.loads x = some l ∧ InverseOn x.2 g l)
      (hp : ∀ x ∈ keptOwned e (.cls h z fl fs bs), fn.saves x = none → fn.loads x = none ∧ x.2.1.isPtr = false)
      (hf : ∀ x ∈ keptOwned e (.cls h z fl fs bs), fn.saves x = none → Lasts fn e m x.2.1.count x.2.2 (a + x.2.1.offset)) :
      Lasts fn e m none (.cls h z fl fs bs) a
  | list {h : BitVec 32} {z : Nat} {t : Ty} {a : Nat} (hz : 0 < z) (hl : t.size < 2 ^ 32) (hc : (m.elems a).length < 2 ^ 32)
      (hf : ∀ x ∈ m.elems a, Lasts fn e m none t x.2) : Lasts fn e m none (.vec h z t false) a
  | dict {h : BitVec 32} {z : Nat} {k t : Ty} {a : Nat} (hz : 0 < z) (hk : k.size < 128)
      (hp : (∃ h s, k = .prim h s) ∨ (∃ h cs fl, k = .enum h 4 cs fl)) (hl : t.size < 2 ^ 32) (hc : (m.elems a).length < 2 ^ 32)
      (hi : ∀ x ∈ m.elems a, Lasts fn e m none k x.1) (hf : ∀ x ∈ m.elems a, Lasts fn e m none t x.2) :
      Lasts fn e m none (.dict h z k t false) a
  | array {k : Nat} {t : Ty} {a : Nat} (hz : 0 < t.size) (hl : t.size < 2 ^ 32) (hk : k < 2 ^ 32)
      (hf : ∀ i, i < k → Lasts fn e m none t (elemAt a i t.size)) : Lasts fn e m (some k) t a

/-- What is at `b` in `m'` is as what is at `a` in `m`: the bytes of values of primitive types and of fields with functions, the values of enums,
the other fields of objects, the elements of containers and the keys of dictionaries, which are in `R`, and the elements of C arrays. -/
inductive Back (fn : Functions) (e : Env) (m m' : Mem) (R : Nat → Prop) : Option Nat → Ty → Nat → Nat → Prop
  | prim {h : BitVec 32} {s a b : Nat} (hr : m'.read b s = m.read a s) : Back fn e m m' R none (.prim h s) a b
  | enum {h : BitVec 32} {cs : List Const} {fl : Bool} {a b : Nat} (hv : enumAt m' b = enumAt m a) :
      Back fn e m m' R none (.enum h 4 cs fl) a b
  | object {h : BitVec 32} {z : Nat} {fl : BitVec 32} {fs : Flds} {bs : Tys} {a b : Nat}
      (hg : ∀ x ∈ keptOwned e (.cls h z fl fs bs), fn.saves x ≠ none →
        m'.read (b + x.2.1.offset) (x.2.1.extent x.2.2) = m.read (a + x.2.1.offset) (x.2.1.extent x.2.2))
      (hf : ∀ x ∈ keptOwned e (.cls h z fl fs bs), fn.saves x = none →
        Back fn e m m' R x.2.1.count x.2.2 (a + x.2.1.offset) (b + x.2.1.offset)) :
      Back fn e m m' R none (.cls h z fl fs bs) a b
  | list {h : BitVec 32} {z : Nat} {t : Ty} {a b : Nat} (hl : (m'.elems b).length = (m.elems a).length)
      (hr : ∀ i, i < (m.elems a).length → ∀ x, ((m'.elems b).getD i (0, 0)).2 ≤ x → x < ((m'.elems b).getD i (0, 0)).2 + t.size → R x)
      (hf : ∀ i, i < (m.elems a).length → Back fn e m m' R none t ((m.elems a).getD i (0, 0)).2 ((m'.elems b).getD i (0, 0)).2) :
      Back fn e m m' R none (.vec h z t false) a b
  | dict {h : BitVec 32} {z : Nat} {k t : Ty} {a b : Nat} (hl : (m'.elems b).length = (m.elems a).length)
      (hq : ∀ i, i < (m.elems a).length → ∀ x, ((m'.elems b).getD i (0, 0)).1 ≤ x → x < ((m'.elems b).getD i (0, 0)).1 + k.size → R x)
      (hr : ∀ i, i < (m.elems a).length → ∀ x, ((m'.elems b).getD i (0, 0)).2 ≤ x → x < ((m'.elems b).getD i (0, 0)).2 + t.size → R x)
      (hi : ∀ i, i < (m.elems a).length → Back fn e m m' R none k ((m.elems a).getD i (0, 0)).1 ((m'.elems b).getD i (0, 0)).1)
      (hf : ∀ i, i < (m.elems a).length → Back fn e m m' R none t ((m.elems a).getD i (0, 0)).2 ((m'.elems b).getD i (0, 0)).2) :
      Back fn e m m' R none (.dict h z k t false) a b
  | array {k : Nat} {t : Ty} {a b : Nat} (hf : ∀ i, i < k → Back fn e m m' R none t (elemAt a i t.size) (elemAt b i t.size)) :
      Back fn e m m' R (some k) t a b

end Clr.VBin
