import Verif.Model.JSONSaveHooks
import Verif.Props.JSONHooksSpec
import Verif.Props.JSONTextSpec
/-
C102: the functions of the user in saving JSON: what is written, and when they are called.
-/
namespace Clr.JSON

mutual
/-- No class in the type has functions for saving. -/
def NoSaving (S : SaveHooks) : Ty → Prop
  | .prim _ _ => True
  | .enum _ _ _ _ => True
  | .cls h z _ fs bs => S.save h z = none ∧ S.pre h z = none ∧ NoSavingFlds S fs ∧ NoSavingTys S bs
  | .tmpl _ _ bs => NoSavingTys S bs
  | .vec _ _ elem _ => NoSaving S elem
  | .dict _ _ key elem _ => NoSaving S key ∧ NoSaving S elem

/-- Nor in the fields. -/
def NoSavingFlds (S : SaveHooks) : Flds → Prop
  | .nil => True
  | .cons _ t r => NoSaving S t ∧ NoSavingFlds S r

/-- Nor in the bases. -/
def NoSavingTys (S : SaveHooks) : Tys → Prop
  | .nil => True
  | .cons t r => NoSaving S t ∧ NoSavingTys S r
end

/-- The text of a token that a `save_json` function may make. -/
inductive TokenText (fl : Floats) (hexFloats : Bool) : Tok → Bytes → Prop
  | str {t : Tok} (ht : t.type = .string) : TokenText fl hexFloats t (quoted t.text)
  | int {t : Tok} (ht : t.type = .integer) : TokenText fl hexFloats t (decText (int64Of t.bits))
  | bits {t : Tok} (ht : t.type = .decimal) (hx : hexFloats = true) : TokenText fl hexFloats t (b!"0d" ++ hexText t.bits.toNat)
  | dec {t : Tok} (ht : t.type = .decimal) (hx : hexFloats = false) : TokenText fl hexFloats t (fl.format t.bits)

/-- The pre-save function of a class, if it has one, is called for the object at `a`. -/
inductive Before (S : SaveHooks) (h : BitVec 32) (z : Nat) (a : Nat) : Mem → Mem → Prop
  | none (m : Mem) (hn : S.pre h z = none) : Before S h z a m m
  | call {m m' : Mem} {f : Nat → Mem → Res Mem} (hf : S.pre h z = some f) (hc : f a m = .ok m') : Before S h z a m m'

/-- The values of objects at addresses, saved one after the other. -/
inductive InTurn (save : Nat → Mem → Bytes → Mem → Prop) : List Nat → Mem → List Bytes → Mem → Prop
  | nil (m : Mem) : InTurn save [] m [] m
  | cons {a : Nat} {as : List Nat} {t : Bytes} {ts : List Bytes} {m m1 m' : Mem} (hv : save a m t m1) (hr : InTurn save as m1 ts m') :
      InTurn save (a :: as) m (t :: ts) m'

/-- The texts of the members of an object at `a`, one after the other, if `Saves` is how objects of their types are saved. -/
inductive MembersSaved (o : Opts) (Saves : Ty → Nat → Mem → Bytes → Mem → Prop) (a : Nat) :
    List (FldInfo × Ty) → Mem → List Bytes → Mem → Prop
  | nil (m : Mem) : MembersSaved o Saves a [] m [] m
  /-- Pointers that cannot be mapped are left out. -/
  | leftOut {f : FldInfo} {t : Ty} {ms : List (FldInfo × Ty)} {ts : List Bytes} {m m' : Mem} (hp : f.isPtr = true)
      (hn : o.mapPtr t.hash (m.ptr (a + f.offset)) = none) (hr : MembersSaved o Saves a ms m ts m') :
      MembersSaved o Saves a ((f, t) :: ms) m ts m'
  | value {f : FldInfo} {t : Ty} {ms : List (FldInfo × Ty)} {ts : List Bytes} {v : Bytes} {m m1 m' : Mem} (hc : f.count = none)
      (hp : f.isPtr = false) (hv : Saves t (a + f.offset) m v m1) (hr : MembersSaved o Saves a ms m1 ts m') :
      MembersSaved o Saves a ((f, t) :: ms) m (member f.name v :: ts) m'
  | pointer {f : FldInfo} {t : Ty} {ms : List (FldInfo × Ty)} {ts : List Bytes} {h : BitVec 32} {m m' : Mem} (hc : f.count = none)
      (hp : f.isPtr = true) (hm : o.mapPtr t.hash (m.ptr (a + f.offset)) = some h) (hr : MembersSaved o Saves a ms m ts m') :
      MembersSaved o Saves a ((f, t) :: ms) m (member f.name (ptrText o h) :: ts) m'
  /-- A C array of values: its elements are one after the other. -/
  | array {n : Nat} {f : FldInfo} {t : Ty} {ms : List (FldInfo × Ty)} {ts vs : List Bytes} {m m1 m' : Mem} (hc : f.count = some n)
      (hp : f.isPtr = false) (hv : InTurn (Saves t) ((List.range n).map fun i => a + f.offset + i * t.size) m vs m1)
      (hr : MembersSaved o Saves a ms m1 ts m') : MembersSaved o Saves a ((f, t) :: ms) m (member f.name (listText vs) :: ts) m'

/-- A token that survives being written and read: a text that is part of a JSON string as it is, an integer above -10^18, any decimal if
these are written by their bits. -/
inductive Lasting (hexFloats : Bool) : Tok → Prop
  | str {s : Bytes} (h : JStr s) : Lasting hexFloats { type := .string, text := s }
  | int {bits : UInt64} (h : -10 ^ 18 < int64Of bits) : Lasting hexFloats { type := .integer, bits := bits }
  | dec {bits : UInt64} (h : hexFloats = true) : Lasting hexFloats { type := .decimal, bits := bits }

/-- The functions of a class are inverse to each other: of an object, `save` makes a lasting token, from which `load` makes an object with the
same bytes, and does nothing else. -/
def Inverse (hexFloats : Bool) (z : Nat) (save : Nat → Mem → Res Tok) (load : Tok → Nat → Mem → Res Mem) : Prop :=
  ∀ a m, ∃ tok, save a m = .ok tok ∧ Lasting hexFloats tok ∧
    ∀ b n, ∃ n', load tok b n = .ok n' ∧ OnlyIn b z n n' ∧ n'.read b z = m.read a z

/-- What survives being saved and loaded, of memory `m` at an address, if it is no C array (`none`) or one of some size: objects of types of C31
without functions (and without dictionaries), objects of classes with functions that are inverse to each other, objects of classes without
functions whose fields survive, containers whose elements do, and C arrays, but not of a class with a load function (which would be called for
the array as a whole, C101). -/
inductive Survives (e : Env) (o : Opts) (S : SaveHooks) (H : Hooks) (m : Mem) : Option Nat → Ty → Nat → Prop
  | plain {n : Option Nat} {t : Ty} {a : Nat} (hs : Supported e o t) (hz : n ≠ none → 0 < t.size) (hd : NoDict t) (hv : NoSaving S t)
      (hf : NoFunctions H t) (h1 : n = none → Savable e m t a)
      (h2 : ∀ k, n = some k → ∀ i, i < k → Savable e m t (elemAt a i t.size)) : Survives e o S H m n t a
  | custom {h : BitVec 32} {z : Nat} {fl : BitVec 32} {fs : Flds} {bs : Tys} {a : Nat} {g : Nat → Mem → Res Tok} {f : Tok → Nat → Mem → Res Mem}
      (hk : e.skips fl = false) (hg : S.save h z = some g) (hf : H.load h z = some f) (hi : Inverse o.hexFloats z g f) :
      Survives e o S H m none (.cls h z fl fs bs) a
  | object {h : BitVec 32} {z : Nat} {fl : BitVec 32} {fs : Flds} {bs : Tys} {a : Nat} (hk : e.skips fl = false) (hg : S.save h z = none)
      (hp : S.pre h z = none) (hl : H.load h z = none) (hq : H.post h z = none) (hsort : SortsOk e o (.cls h z fl fs bs))
      (hd : (Ty.cls h z fl fs bs).allFields.Pairwise fun x y => Hash.hashText x.1.name ≠ Hash.hashText y.1.name)
      (hap : (Ty.cls h z fl fs bs).allFields.Pairwise Apart)
      (hn : ∀ x ∈ (Ty.cls h z fl fs bs).savedFields e, PlainName x.1.name ∧ x.1.offset + x.1.extent x.2 ≤ z)
      (hf : ∀ x ∈ (Ty.cls h z fl fs bs).savedFields e, Survives e o S H m x.1.count x.2 (a + x.1.offset)) :
      Survives e o S H m none (.cls h z fl fs bs) a
  | list {h : BitVec 32} {z : Nat} {t : Ty} {a : Nat} (hz : 0 < z) (hf : ∀ x ∈ m.elems a, Survives e o S H m none t x.2) :
      Survives e o S H m none (.vec h z t false) a
  | array {k : Nat} {t : Ty} {a : Nat} (hk : 0 < k) (hz : 0 < t.size) (hl : NoLoad H t)
      (hf : ∀ i, i < k → Survives e o S H m none t (elemAt a i t.size)) : Survives e o S H m (some k) t a

/-- What is at `b` in `m'` is as what is at `a` in `m`: of types without functions for saving the reflected values are the same, of classes with
a save function the bytes are, of other classes the fields that are saved, of containers the elements, which are in `R`, and of C arrays the
elements. -/
inductive Kept (e : Env) (S : SaveHooks) (m m' : Mem) (R : Nat → Prop) : Option Nat → Ty → Nat → Nat → Prop
  | plain {n : Option Nat} {t : Ty} {a b : Nat} (hv : NoSaving S t) (h1 : n = none → Same e m m' R t a b)
      (h2 : ∀ k, n = some k → ∀ i, i < k → Same e m m' R t (elemAt a i t.size) (elemAt b i t.size)) : Kept e S m m' R n t a b
  | custom {h : BitVec 32} {z : Nat} {fl : BitVec 32} {fs : Flds} {bs : Tys} {a b : Nat} {g : Nat → Mem → Res Tok} (hg : S.save h z = some g)
      (hr : m'.read b z = m.read a z) : Kept e S m m' R none (.cls h z fl fs bs) a b
  | object {h : BitVec 32} {z : Nat} {fl : BitVec 32} {fs : Flds} {bs : Tys} {a b : Nat} (hg : S.save h z = none)
      (hf : ∀ x ∈ (Ty.cls h z fl fs bs).savedFields e, Kept e S m m' R x.1.count x.2 (a + x.1.offset) (b + x.1.offset)) :
      Kept e S m m' R none (.cls h z fl fs bs) a b
  | list {h : BitVec 32} {z : Nat} {t : Ty} {a b : Nat} (hl : (m'.elems b).length = (m.elems a).length)
      (hr : ∀ i, i < (m.elems a).length → ∀ x, ((m'.elems b).getD i (0, 0)).2 ≤ x → x < ((m'.elems b).getD i (0, 0)).2 + t.size → R x)
      (hf : ∀ i, i < (m.elems a).length → Kept e S m m' R none t ((m.elems a).getD i (0, 0)).2 ((m'.elems b).getD i (0, 0)).2) :
      Kept e S m m' R none (.vec h z t false) a b
  | array {k : Nat} {t : Ty} {a b : Nat} (hf : ∀ i, i < k → Kept e S m m' R none t (elemAt a i t.size) (elemAt b i t.size)) :
      Kept e S m m' R (some k) t a b

end Clr.JSON
