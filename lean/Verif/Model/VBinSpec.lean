import Verif.Model.VBin
import Verif.Model.JSONSpec

/-!
Specification for versioned binary saving and loading (C37, C38), independent of how it is done: which types are
supported, which versions of a type are compatible, which values an object has after loading, and where
loading may change memory.

Names are compared by their hashes, as `clcpp::Name` does.
-/
namespace Clr.VBin
open Clr.JSON (Ty Flds Tys Mem FldInfo Const Env strideOf Apart elemAt)

mutual
/-- All the base types are classes, theirs too. -/
def ClassBases : Ty → Prop
  | .cls _ _ _ _ bs => ClassBasesOf bs
  | _ => False

/-- Those of a list. -/
def ClassBasesOf : Tys → Prop
  | .nil => True
  | .cons t r => ClassBases t ∧ ClassBasesOf r
end

/-- The hash of a field's name. -/
def nameHash (x : FldInfo × Ty) : BitVec 32 := Hash.hashText x.1.name

/-- The fields of a class and its bases that are not transient: those that can be loaded. -/
def loadFields (e : Env) (t : Ty) : List (FldInfo × Ty) := t.allFields.filter fun x => !e.skips x.1.flags

/-- The types that are supported: primitive types, enums of four bytes, classes derived from classes whose fields
are told apart by name and, the transient ones aside, are of supported types, are no pointers and lie in the
class without overlap; containers of supported types that are no pointers, with keys that are primitive or
enums of less than 128 bytes.  (Sizes fit the four bytes they are saved in.) -/
inductive Supported (e : Env) : Ty → Prop
  | prim (h : BitVec 32) (s : Nat) (hl : s < 2 ^ 32) : Supported e (.prim h s)
  | enum (h : BitVec 32) (cs : List Const) (fl : Bool) (hz : ∀ c ∈ cs, Hash.hashText c.name ≠ 0) :
      Supported e (.enum h 4 cs fl)
  | cls (h : BitVec 32) (s : Nat) (fl : BitVec 32) (fs : Flds) (bs : Tys)
      (bases : ClassBases (.cls h s fl fs bs))
      (names : (Ty.cls h s fl fs bs).allFields.Pairwise fun x y => nameHash x ≠ nameHash y)
      (plain : ∀ x ∈ loadFields e (.cls h s fl fs bs), x.1.isPtr = false ∧ (x.1.count ≠ none → 0 < x.2.size) ∧
        (∀ n, x.1.count = some n → n < 2 ^ 32))
      (types : ∀ x ∈ loadFields e (.cls h s fl fs bs), Supported e x.2)
      (inside : ∀ x ∈ loadFields e (.cls h s fl fs bs), x.1.offset + x.1.extent x.2 ≤ s)
      (apart : (loadFields e (.cls h s fl fs bs)).Pairwise Apart) :
      Supported e (.cls h s fl fs bs)
  | vec (h : BitVec 32) (s : Nat) (t : Ty) (hs : 0 < s) (hl : s < 2 ^ 32) (ht : Supported e t) : Supported e (.vec h s t false)
  | dict (h : BitVec 32) (s : Nat) (k t : Ty) (hs : 0 < s) (hl : s < 2 ^ 32) (hk : Supported e k) (ht : Supported e t)
      (hkl : k.size < 128) (hp : (∃ h s, k = .prim h s) ∨ (∃ h cs fl, k = .enum h 4 cs fl)) :
      Supported e (.dict h s k t false)

/-- Two versions of a type that has kept its name.  A field may come, go, move, change its type for one of
another name, become transient or lose that attribute; what it may not do is change from a C array to a single
value or back, and the element type of a C array must keep its name. -/
inductive Versions (e : Env) : Ty → Ty → Prop
  | prim (h : BitVec 32) (s s' : Nat) : Versions e (.prim h s) (.prim h s')
  | enum (h : BitVec 32) (cs cs' : List Const) (fl fl' : Bool) : Versions e (.enum h 4 cs fl) (.enum h 4 cs' fl')
  | cls (h : BitVec 32) (s s' : Nat) (fl fl' : BitVec 32) (fs fs' : Flds) (bs bs' : Tys)
      (arrays : ∀ x ∈ (Ty.cls h s fl fs bs).savedFields e, ∀ y ∈ loadFields e (.cls h s' fl' fs' bs'),
        nameHash x = nameHash y → x.1.count.isSome = y.1.count.isSome ∧ (x.1.count.isSome = true → x.2.hash = y.2.hash))
      (types : ∀ x ∈ (Ty.cls h s fl fs bs).savedFields e, ∀ y ∈ loadFields e (.cls h s' fl' fs' bs'),
        nameHash x = nameHash y → x.2.hash = y.2.hash → Versions e x.2 y.2) :
      Versions e (.cls h s fl fs bs) (.cls h s' fl' fs' bs')
  | vec (h : BitVec 32) (s s' : Nat) (t t' : Ty) (ht : Versions e t t') : Versions e (.vec h s t false) (.vec h s' t' false)
  | dict (h : BitVec 32) (s s' : Nat) (k k' t t' : Ty) (hk : Versions e k k') (ht : Versions e t t') :
      Versions e (.dict h s k t false) (.dict h s' k' t' false)

/-- What an enum's value becomes: that of the constant that has the name of (the first constant with) the saved
value, if there are such constants. -/
def enumValue (cs cs' : List Const) (v : BitVec 32) : Option (BitVec 32) :=
  match cs.find? (fun c => c.value == v) with
  | some c => (cs'.find? fun c' => Hash.hashText c'.name == Hash.hashText c.name).map Const.value
  | none => none

/-- The value of an enum of four bytes. -/
def enumAt (m : Mem) (a : Nat) : BitVec 32 := BitVec.ofNat 32 (unle (m.read a 4))

/-- The object of the new version `t'` at `b` in `m'` has got what it shares with the object of the old version
`t` at `a` in `m`; `m0` is the memory in which the loading began.  Fields of the new version for which the old has
a field with the same name and a type of the same name have got its value, as many elements of an array as
both have; a container has as many elements as the old one (they lie in `R`), one for one; an enum has the
value of the constant of the same name, or keeps its value if there is none; a native type that has become one of another
size keeps its value. -/
inductive Got (e : Env) (m : Mem) (m' : Mem) (R : Nat → Prop) : Mem → Ty → Ty → Nat → Nat → Prop
  | prim {m0 : Mem} {h : BitVec 32} {s a b : Nat} (hv : m'.read b s = m.read a s) :
      Got e m m' R m0 (.prim h s) (.prim h s) a b
  | resized {m0 : Mem} {h : BitVec 32} {s s' a b : Nat} (hne : s ≠ s') (hv : m'.read b s' = m0.read b s') :
      Got e m m' R m0 (.prim h s) (.prim h s') a b
  | enum {m0 : Mem} {h : BitVec 32} {cs cs' : List Const} {fl fl' : Bool} {a b : Nat}
      (hv : ∀ v, enumValue cs cs' (enumAt m a) = some v → enumAt m' b = v)
      (hn : enumValue cs cs' (enumAt m a) = none → m'.read b 4 = m0.read b 4) :
      Got e m m' R m0 (.enum h 4 cs fl) (.enum h 4 cs' fl') a b
  | cls {m0 : Mem} {h : BitVec 32} {s s' : Nat} {fl fl' : BitVec 32} {fs fs' : Flds} {bs bs' : Tys} {a b : Nat}
      (one : ∀ x ∈ (Ty.cls h s fl fs bs).savedFields e, ∀ y ∈ loadFields e (.cls h s' fl' fs' bs'),
        nameHash x = nameHash y → x.2.hash = y.2.hash → x.1.count = none → y.1.count = none →
        Got e m m' R m0 x.2 y.2 (a + x.1.offset) (b + y.1.offset))
      (arr : ∀ x ∈ (Ty.cls h s fl fs bs).savedFields e, ∀ y ∈ loadFields e (.cls h s' fl' fs' bs'),
        nameHash x = nameHash y → x.2.hash = y.2.hash → ∀ n n', x.1.count = some n → y.1.count = some n' →
        ∀ i, i < n → i < n' →
        Got e m m' R m0 x.2 y.2 (elemAt (a + x.1.offset) i x.2.size) (elemAt (b + y.1.offset) i y.2.size)) :
      Got e m m' R m0 (.cls h s fl fs bs) (.cls h s' fl' fs' bs') a b
  | vec {m0 : Mem} {h : BitVec 32} {s s' : Nat} {t t' : Ty} {a b : Nat} (ms : Nat → Mem)
      (len : (m'.elems b).length = (m.elems a).length)
      (fresh : ∀ i, i < (m.elems a).length → ∀ x, ((m'.elems b).getD i (0, 0)).2 ≤ x →
        x < ((m'.elems b).getD i (0, 0)).2 + t'.size → R x)
      (elems : ∀ i, i < (m.elems a).length →
        Got e m m' R (ms i) t t' ((m.elems a).getD i (0, 0)).2 ((m'.elems b).getD i (0, 0)).2) :
      Got e m m' R m0 (.vec h s t false) (.vec h s' t' false) a b
  | dict {m0 : Mem} {h : BitVec 32} {s s' : Nat} {k k' t t' : Ty} {a b : Nat} (ms : Nat → Mem)
      (len : (m'.elems b).length = (m.elems a).length)
      (freshKey : ∀ i, i < (m.elems a).length → ∀ x, ((m'.elems b).getD i (0, 0)).1 ≤ x →
        x < ((m'.elems b).getD i (0, 0)).1 + k'.size → R x)
      (keys : ∀ i, i < (m.elems a).length →
        Got e m m' R (ms i) k k' ((m.elems a).getD i (0, 0)).1 ((m'.elems b).getD i (0, 0)).1)
      (fresh : ∀ i, i < (m.elems a).length → ∀ x, ((m'.elems b).getD i (0, 0)).2 ≤ x →
        x < ((m'.elems b).getD i (0, 0)).2 + t'.size → R x)
      (elems : ∀ i, i < (m.elems a).length →
        Got e m m' R (ms i) t t' ((m.elems a).getD i (0, 0)).2 ((m'.elems b).getD i (0, 0)).2) :
      Got e m m' R m0 (.dict h s k t false) (.dict h s' k' t' false) a b

/-- The addresses, in an object of the new version `t'` at `b`, of what it shares with the old version `t`. -/
inductive Shared (e : Env) : Ty → Ty → Nat → Nat → Prop
  | prim {h h' : BitVec 32} {s b x : Nat} (h1 : b ≤ x) (h2 : x < b + s) : Shared e (.prim h s) (.prim h' s) b x
  | enum {h h' : BitVec 32} {s s' : Nat} {cs cs' : List Const} {fl fl' : Bool} {b x : Nat} (h1 : b ≤ x)
      (h2 : x < b + s') : Shared e (.enum h s cs fl) (.enum h' s' cs' fl') b x
  | one {h h' : BitVec 32} {s s' : Nat} {fl fl' : BitVec 32} {fs fs' : Flds} {bs bs' : Tys} {b z : Nat}
      {x y : FldInfo × Ty} (hx : x ∈ (Ty.cls h s fl fs bs).savedFields e)
      (hy : y ∈ loadFields e (.cls h' s' fl' fs' bs')) (hn : nameHash x = nameHash y) (ht : x.2.hash = y.2.hash)
      (hc : x.1.count = none) (hc' : y.1.count = none) (hz : Shared e x.2 y.2 (b + y.1.offset) z) :
      Shared e (.cls h s fl fs bs) (.cls h' s' fl' fs' bs') b z
  | arr {h h' : BitVec 32} {s s' : Nat} {fl fl' : BitVec 32} {fs fs' : Flds} {bs bs' : Tys} {b z n n' i : Nat}
      {x y : FldInfo × Ty} (hx : x ∈ (Ty.cls h s fl fs bs).savedFields e)
      (hy : y ∈ loadFields e (.cls h' s' fl' fs' bs')) (hn : nameHash x = nameHash y) (ht : x.2.hash = y.2.hash)
      (hc : x.1.count = some n) (hc' : y.1.count = some n') (hi : i < n) (hi' : i < n')
      (hz : Shared e x.2 y.2 (elemAt (b + y.1.offset) i y.2.size) z) :
      Shared e (.cls h s fl fs bs) (.cls h' s' fl' fs' bs') b z
  | vec {h h' : BitVec 32} {s s' : Nat} {t t' : Ty} {p p' : Bool} {b x : Nat} (h1 : b ≤ x) (h2 : x < b + s') :
      Shared e (.vec h s t p) (.vec h' s' t' p') b x
  | dict {h h' : BitVec 32} {s s' : Nat} {k k' t t' : Ty} {p p' : Bool} {b x : Nat} (h1 : b ≤ x) (h2 : x < b + s') :
      Shared e (.dict h s k t p) (.dict h' s' k' t' p') b x

/-- The values of the enums of an object can be saved: they are values of declared constants, the names of which
have different hashes. -/
inductive EnumsNamed (e : Env) (m : Mem) : Ty → Nat → Prop
  | prim {h : BitVec 32} {s a : Nat} : EnumsNamed e m (.prim h s) a
  | enum {h : BitVec 32} {s : Nat} {cs : List Const} {fl : Bool} {a : Nat} (hv : ∃ c ∈ cs, c.value = enumAt m a)
      (hd : cs.Pairwise fun x y => Hash.hashText x.name ≠ Hash.hashText y.name) :
      EnumsNamed e m (.enum h s cs fl) a
  | cls {h : BitVec 32} {s : Nat} {fl : BitVec 32} {fs : Flds} {bs : Tys} {a : Nat}
      (one : ∀ x ∈ (Ty.cls h s fl fs bs).savedFields e, x.1.count = none → EnumsNamed e m x.2 (a + x.1.offset))
      (arr : ∀ x ∈ (Ty.cls h s fl fs bs).savedFields e, ∀ n, x.1.count = some n → ∀ i, i < n →
        EnumsNamed e m x.2 (elemAt (a + x.1.offset) i x.2.size)) :
      EnumsNamed e m (.cls h s fl fs bs) a
  | vec {h : BitVec 32} {s : Nat} {t : Ty} {p : Bool} {a : Nat}
      (elems : ∀ i, i < (m.elems a).length → EnumsNamed e m t ((m.elems a).getD i (0, 0)).2) :
      EnumsNamed e m (.vec h s t p) a
  | dict {h : BitVec 32} {s : Nat} {k t : Ty} {p : Bool} {a : Nat}
      (keys : ∀ i, i < (m.elems a).length → EnumsNamed e m k ((m.elems a).getD i (0, 0)).1)
      (elems : ∀ i, i < (m.elems a).length → EnumsNamed e m t ((m.elems a).getD i (0, 0)).2) :
      EnumsNamed e m (.dict h s k t p) a

/-- The object at `b` in `m'` has the reflected values of the object of the same type at `a` in `m`. -/
inductive Equal (e : Env) (m m' : Mem) : Ty → Nat → Nat → Prop
  | prim {h : BitVec 32} {s a b : Nat} (hv : m'.read b s = m.read a s) : Equal e m m' (.prim h s) a b
  | enum {h : BitVec 32} {s : Nat} {cs : List Const} {fl : Bool} {a b : Nat} (hv : m'.read b s = m.read a s) :
      Equal e m m' (.enum h s cs fl) a b
  | cls {h : BitVec 32} {s : Nat} {fl : BitVec 32} {fs : Flds} {bs : Tys} {a b : Nat}
      (one : ∀ x ∈ (Ty.cls h s fl fs bs).savedFields e, x.1.count = none →
        Equal e m m' x.2 (a + x.1.offset) (b + x.1.offset))
      (arr : ∀ x ∈ (Ty.cls h s fl fs bs).savedFields e, ∀ n, x.1.count = some n → ∀ i, i < n →
        Equal e m m' x.2 (elemAt (a + x.1.offset) i x.2.size) (elemAt (b + x.1.offset) i x.2.size)) :
      Equal e m m' (.cls h s fl fs bs) a b
  | vec {h : BitVec 32} {s : Nat} {t : Ty} {p : Bool} {a b : Nat}
      (len : (m'.elems b).length = (m.elems a).length)
      (elems : ∀ i, i < (m.elems a).length →
        Equal e m m' t ((m.elems a).getD i (0, 0)).2 ((m'.elems b).getD i (0, 0)).2) :
      Equal e m m' (.vec h s t p) a b
  | dict {h : BitVec 32} {s : Nat} {k t : Ty} {p : Bool} {a b : Nat}
      (len : (m'.elems b).length = (m.elems a).length)
      (keys : ∀ i, i < (m.elems a).length →
        Equal e m m' k ((m.elems a).getD i (0, 0)).1 ((m'.elems b).getD i (0, 0)).1)
      (elems : ∀ i, i < (m.elems a).length →
        Equal e m m' t ((m.elems a).getD i (0, 0)).2 ((m'.elems b).getD i (0, 0)).2) :
      Equal e m m' (.dict h s k t p) a b

/-- A call returns with that outcome (whatever number of steps it is given from some number on). -/
def Returns {α : Type} (call : Nat → Out α) (r : Out α) : Prop := ∃ N, ∀ n, N ≤ n → call n = r

/-- A call does not return. -/
def Diverges {α : Type} (call : Nat → Out α) : Prop := ∀ n, ∃ s, call n = .stop .fuel s

end Clr.VBin
