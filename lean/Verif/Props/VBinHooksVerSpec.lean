import Verif.Props.VBinHooksSpec

/-!
Specification for custom functions at any depth and classes that have changed between saving and loading (C103).
-/
namespace Clr.VBin
open Clr.JSON (Ty Flds Tys Mem FldInfo Const Env Apart elemAt Effect)

/-- The fields of a class and its bases that can be loaded: all but the transient ones. -/
def loadableOwned (e : Env) (t : Ty) : List Owned := (ownedFields t).filter fun y => !e.skips y.2.1.flags

/-- The function `load` of the field `y` of the new class is inverse to the function `save` of the field `x` of the old one: given the bytes
that `save` has made of the field of an object, it returns, has read any number of them, or more, has changed nothing in use but its field,
and there are the bytes of the field that was saved. -/
def InverseTo (x y : FldInfo × Ty) (save : Mem → Nat → Nat → Bytes) (load : Nat → Nat → Load Unit) : Prop :=
  ∀ m a s b, s.data.length < 2 ^ 31 → Before s (save m a (a + x.1.offset)) → b + y.1.offset + y.1.extent y.2 ≤ s.mem.next →
    ∃ s', load b (b + y.1.offset) s = .ok () s' ∧ s'.data = s.data ∧ 0 ≤ s'.pos ∧ s'.pos ≤ s.data.length ∧
      Effect s.mem s'.mem (InField b y) ∧
      s'.mem.read (b + y.1.offset) (y.1.extent y.2) = m.read (a + x.1.offset) (x.1.extent x.2)

/-- A field of the old class and one of the new class with the same name. -/
def SameName (x y : Owned) : Prop := nameHash x.2 = nameHash y.2

/-- What is in memory `m` at an address, as a value of an old type, can be loaded as a value of a new type, if neither is a C array (`none`) or
both are, of some sizes.  `fn` are the functions of the program that saves, `fn'` those of the program that loads.

In an object: names of fields are told apart, and the loadable fields of the new class lie in it without overlap; a field with a function for
loading had one for saving, to which it is inverse; a field without one, if it has a namesake of the same type, has one without a function that
can be loaded; one whose type has changed is no C array; and fields that nothing is loaded from can be saved. -/
inductive Carries (fn fn' : Functions) (e : Env) (m : Mem) : Option Nat → Option Nat → Ty → Ty → Nat → Prop
  | prim (h : BitVec 32) (s a : Nat) : Carries fn fn' e m none none (.prim h s) (.prim h s) a
  | resized (h : BitVec 32) {s s' : Nat} (a : Nat) (hs : s ≠ s') : Carries fn fn' e m none none (.prim h s) (.prim h s') a
  | enum {h : BitVec 32} {cs cs' : List Const} {fl fl' : Bool} {a : Nat} (hz : ∀ c ∈ cs', Hash.hashText c.name ≠ 0) :
      Carries fn fn' e m none none (.enum h 4 cs fl) (.enum h 4 cs' fl') a
  | object {h : BitVec 32} {z z' : Nat} {fl fl' : BitVec 32} {fs fs' : Flds} {bs bs' : Tys} {a : Nat}
      (hb : ClassBases (.cls h z fl fs bs)) (hb' : ClassBases (.cls h z' fl' fs' bs'))
      (hn : (ownedFields (.cls h z fl fs bs)).Pairwise fun x y => ¬ SameName x y)
      (hn' : (ownedFields (.cls h z' fl' fs' bs')).Pairwise fun x y => ¬ SameName x y)
      (hi : ∀ y ∈ loadableOwned e (.cls h z' fl' fs' bs'), y.2.1.offset + y.2.1.extent y.2.2 ≤ z')
      (hap : (loadableOwned e (.cls h z' fl' fs' bs')).Pairwise fun x y => Apart x.2 y.2)
      (hw : ∀ x ∈ keptOwned e (.cls h z fl fs bs), (∀ y ∈ loadableOwned e (.cls h z' fl' fs' bs'), SameName x y →
        fn'.loads y = none ∧ x.2.2.hash ≠ y.2.2.hash) → ∃ d, Written fn e m a x d)
      (hs : ∀ x ∈ keptOwned e (.cls h z fl fs bs), ∀ y ∈ loadableOwned e (.cls h z' fl' fs' bs'), SameName x y →
        fn'.loads y = none → x.2.2.hash ≠ y.2.2.hash → y.2.1.count = none)
      (hg : ∀ x ∈ keptOwned e (.cls h z fl fs bs), ∀ y ∈ loadableOwned e (.cls h z' fl' fs' bs'), SameName x y →
        ∀ l, fn'.loads y = some l → ∃ g, fn.saves x = some g ∧ InverseTo x.2 y.2 g l)
      (hp : ∀ x ∈ keptOwned e (.cls h z fl fs bs), ∀ y ∈ loadableOwned e (.cls h z' fl' fs' bs'), SameName x y →
        fn'.loads y = none → x.2.2.hash = y.2.2.hash → fn.saves x = none ∧ x.2.1.isPtr = false ∧ y.2.1.isPtr = false)
      (hf : ∀ x ∈ keptOwned e (.cls h z fl fs bs), ∀ y ∈ loadableOwned e (.cls h z' fl' fs' bs'), SameName x y →
        fn'.loads y = none → x.2.2.hash = y.2.2.hash →
        Carries fn fn' e m x.2.1.count y.2.1.count x.2.2 y.2.2 (a + x.2.1.offset)) :
      Carries fn fn' e m none none (.cls h z fl fs bs) (.cls h z' fl' fs' bs') a
  | list {h : BitVec 32} {z z' : Nat} {t t' : Ty} {a : Nat} (hz : 0 < z') (hl : t.size < 2 ^ 32) (hh : t.hash = t'.hash)
      (hc : (m.elems a).length < 2 ^ 32) (hf : ∀ x ∈ m.elems a, Carries fn fn' e m none none t t' x.2) :
      Carries fn fn' e m none none (.vec h z t false) (.vec h z' t' false) a
  | dict {h : BitVec 32} {z z' : Nat} {k k' t t' : Ty} {a : Nat} (hz : 0 < z') (hk : k.size < 128) (hk' : k'.size < 128)
      (hp : (∃ h s, k = .prim h s) ∨ (∃ h cs fl, k = .enum h 4 cs fl))
      (hp' : (∃ h s, k' = .prim h s) ∨ (∃ h cs fl, k' = .enum h 4 cs fl)) (hl : t.size < 2 ^ 32) (hh : t.hash = t'.hash)
      (hc : (m.elems a).length < 2 ^ 32) (hi : ∀ x ∈ m.elems a, Carries fn fn' e m none none k k' x.1)
      (hf : ∀ x ∈ m.elems a, Carries fn fn' e m none none t t' x.2) :
      Carries fn fn' e m none none (.dict h z k t false) (.dict h z' k' t' false) a
  | array {k k' : Nat} {t t' : Ty} {a : Nat} (hz : 0 < t.size) (hz' : 0 < t'.size) (hl : t.size < 2 ^ 32) (hk : k < 2 ^ 32)
      (hh : t.hash = t'.hash) (hf : ∀ i, i < k → Carries fn fn' e m none none t t' (elemAt a i t.size)) :
      Carries fn fn' e m (some k) (some k') t t' a

/-- The addresses that loading a value of the old type into one of the new type at `b` can change: of an object, those of fields that have a
namesake in the old class and either a function, or the same type, and then those of this kind in them; of a C array, those of elements in both;
of a value of a primitive type that has another size now, none. -/
inductive Reach (fn' : Functions) (e : Env) : Option Nat → Option Nat → Ty → Ty → Nat → Nat → Prop
  | prim {h h' : BitVec 32} {s b z : Nat} (hz : b ≤ z ∧ z < b + s) : Reach fn' e none none (.prim h s) (.prim h' s) b z
  | enum {h h' : BitVec 32} {cs cs' : List Const} {s s' : Nat} {fl fl' : Bool} {b z : Nat} (hz : b ≤ z ∧ z < b + s') :
      Reach fn' e none none (.enum h s cs fl) (.enum h' s' cs' fl') b z
  | function {t t' : Ty} {x y : Owned} {b z : Nat} (hx : x ∈ keptOwned e t) (hy : y ∈ loadableOwned e t') (hn : SameName x y)
      (hl : fn'.loads y ≠ none) (hz : InField b y.2 z) : Reach fn' e none none t t' b z
  | field {t t' : Ty} {x y : Owned} {b z : Nat} (hx : x ∈ keptOwned e t) (hy : y ∈ loadableOwned e t') (hn : SameName x y)
      (hl : fn'.loads y = none) (hh : x.2.2.hash = y.2.2.hash)
      (hz : Reach fn' e x.2.1.count y.2.1.count x.2.2 y.2.2 (b + y.2.1.offset) z) : Reach fn' e none none t t' b z
  | list {h h' : BitVec 32} {n n' : Nat} {t t' : Ty} {p p' : Bool} {b z : Nat} (hz : b ≤ z ∧ z < b + n') :
      Reach fn' e none none (.vec h n t p) (.vec h' n' t' p') b z
  | dict {h h' : BitVec 32} {n n' : Nat} {k k' t t' : Ty} {p p' : Bool} {b z : Nat} (hz : b ≤ z ∧ z < b + n') :
      Reach fn' e none none (.dict h n k t p) (.dict h' n' k' t' p') b z
  | array {k k' i : Nat} {t t' : Ty} {b z : Nat} (hi : i < k) (hi' : i < k')
      (hz : Reach fn' e none none t t' (elemAt b i t'.size) z) : Reach fn' e (some k) (some k') t t' b z

/-- What is at `b` in `m'`, of the new type, is what has been loaded from what is at `a` in `m`, of the old type: the bytes of values of
primitive types (nothing is said of those that have another size now: they are not loaded, see `Reach`) and of fields with functions; the values of the enum's constants with the same names; fields that both classes have, with the
same type; the elements of containers and keys of dictionaries, which are in `R`; the elements of C arrays, as many as both have. -/
inductive Carried (fn' : Functions) (e : Env) (m m' : Mem) (R : Nat → Prop) : Option Nat → Option Nat → Ty → Ty → Nat → Nat → Prop
  | prim {h : BitVec 32} {s a b : Nat} (hr : m'.read b s = m.read a s) : Carried fn' e m m' R none none (.prim h s) (.prim h s) a b
  | resized {h : BitVec 32} {s s' a b : Nat} (hs : s ≠ s') : Carried fn' e m m' R none none (.prim h s) (.prim h s') a b
  | enum {h : BitVec 32} {cs cs' : List Const} {fl fl' : Bool} {a b : Nat}
      (hv : ∀ v, enumValue cs cs' (enumAt m a) = some v → enumAt m' b = v) :
      Carried fn' e m m' R none none (.enum h 4 cs fl) (.enum h 4 cs' fl') a b
  | object {h : BitVec 32} {z z' : Nat} {fl fl' : BitVec 32} {fs fs' : Flds} {bs bs' : Tys} {a b : Nat}
      (hg : ∀ x ∈ keptOwned e (.cls h z fl fs bs), ∀ y ∈ loadableOwned e (.cls h z' fl' fs' bs'), SameName x y → fn'.loads y ≠ none →
        m'.read (b + y.2.1.offset) (y.2.1.extent y.2.2) = m.read (a + x.2.1.offset) (x.2.1.extent x.2.2))
      (hf : ∀ x ∈ keptOwned e (.cls h z fl fs bs), ∀ y ∈ loadableOwned e (.cls h z' fl' fs' bs'), SameName x y → fn'.loads y = none →
        x.2.2.hash = y.2.2.hash →
        Carried fn' e m m' R x.2.1.count y.2.1.count x.2.2 y.2.2 (a + x.2.1.offset) (b + y.2.1.offset)) :
      Carried fn' e m m' R none none (.cls h z fl fs bs) (.cls h z' fl' fs' bs') a b
  | list {h : BitVec 32} {z z' : Nat} {t t' : Ty} {a b : Nat} (hl : (m'.elems b).length = (m.elems a).length)
      (hr : ∀ i, i < (m.elems a).length → ∀ x, ((m'.elems b).getD i (0, 0)).2 ≤ x → x < ((m'.elems b).getD i (0, 0)).2 + t'.size → R x)
      (hf : ∀ i, i < (m.elems a).length →
        Carried fn' e m m' R none none t t' ((m.elems a).getD i (0, 0)).2 ((m'.elems b).getD i (0, 0)).2) :
      Carried fn' e m m' R none none (.vec h z t false) (.vec h z' t' false) a b
  | dict {h : BitVec 32} {z z' : Nat} {k k' t t' : Ty} {a b : Nat} (hl : (m'.elems b).length = (m.elems a).length)
      (hq : ∀ i, i < (m.elems a).length → ∀ x, ((m'.elems b).getD i (0, 0)).1 ≤ x → x < ((m'.elems b).getD i (0, 0)).1 + k'.size → R x)
      (hr : ∀ i, i < (m.elems a).length → ∀ x, ((m'.elems b).getD i (0, 0)).2 ≤ x → x < ((m'.elems b).getD i (0, 0)).2 + t'.size → R x)
      (hi : ∀ i, i < (m.elems a).length →
        Carried fn' e m m' R none none k k' ((m.elems a).getD i (0, 0)).1 ((m'.elems b).getD i (0, 0)).1)
      (hf : ∀ i, i < (m.elems a).length →
        Carried fn' e m m' R none none t t' ((m.elems a).getD i (0, 0)).2 ((m'.elems b).getD i (0, 0)).2) :
      Carried fn' e m m' R none none (.dict h z k t false) (.dict h z' k' t' false) a b
  | array {k k' : Nat} {t t' : Ty} {a b : Nat}
      (hf : ∀ i, i < k → i < k' → Carried fn' e m m' R none none t t' (elemAt a i t.size) (elemAt b i t'.size)) :
      Carried fn' e m m' R (some k) (some k') t t' a b

end Clr.VBin
