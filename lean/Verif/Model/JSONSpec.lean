import Verif.Model.JSON
import Verif.Model.JSONGrammar
import Verif.Model.IEEE
import Verif.Props.JSONNum
import Verif.Proofs.JSONEnum

/-!
Specification for the JSON round trip (C31, C32), independent of how objects are saved and loaded: when two
objects have the same reflected values, which bytes an object's reflected values occupy, and for which
types and values the round trip is claimed.
-/
namespace Clr.JSON

/-- A field that is saved: it is not transient and not a pointer. -/
def savedField (e : Env) (f : FldInfo) : Bool := !e.skips f.flags && !f.isPtr

/-- The address of element `i` of a field with elements of size `size`. -/
def elemAt (a i size : Nat) : Nat := a + i * size

mutual
/-- The object of the type at `b` in `m'` has the reflected values of the object at `a` in `m`, its transient and
pointer fields aside; and the elements of its containers lie in the region `R`. -/
def Same (e : Env) (m m' : Mem) (R : Nat → Prop) : Ty → Nat → Nat → Prop
  | .prim _ s, a, b => m'.read b s = m.read a s
  | .enum _ s _ _, a, b => m'.read b s = m.read a s
  | .cls _ _ fl fs bs, a, b => e.skips fl = true ∨ (SameFlds e m m' R fs a b ∧ SameTys e m m' R bs a b)
  | .tmpl _ _ bs, a, b => SameTys e m m' R bs a b
  | .vec _ _ elem _, a, b =>
    (m'.elems b).length = (m.elems a).length ∧
    ∀ i, i < (m.elems a).length →
      (∀ x, ((m'.elems b).getD i (0, 0)).2 ≤ x → x < ((m'.elems b).getD i (0, 0)).2 + elem.size → R x) ∧
      Same e m m' R elem ((m.elems a).getD i (0, 0)).2 ((m'.elems b).getD i (0, 0)).2
  | .dict _ _ key elem _, a, b =>
    (m'.elems b).length = (m.elems a).length ∧
    ∀ i, i < (m.elems a).length →
      (∀ x, ((m'.elems b).getD i (0, 0)).1 ≤ x → x < ((m'.elems b).getD i (0, 0)).1 + key.size → R x) ∧
      (∀ x, ((m'.elems b).getD i (0, 0)).2 ≤ x → x < ((m'.elems b).getD i (0, 0)).2 + elem.size → R x) ∧
      Same e m m' R key ((m.elems a).getD i (0, 0)).1 ((m'.elems b).getD i (0, 0)).1 ∧
      Same e m m' R elem ((m.elems a).getD i (0, 0)).2 ((m'.elems b).getD i (0, 0)).2

/-- Fields of a class, at the same offsets. -/
def SameFlds (e : Env) (m m' : Mem) (R : Nat → Prop) : Flds → Nat → Nat → Prop
  | .nil, _, _ => True
  | .cons f t r, a, b =>
    (savedField e f = true →
      (f.count = none → Same e m m' R t (a + f.offset) (b + f.offset)) ∧
      (∀ n, f.count = some n → ∀ i, i < n →
        Same e m m' R t (elemAt (a + f.offset) i t.size) (elemAt (b + f.offset) i t.size))) ∧
    SameFlds e m m' R r a b

/-- Base types, at the address of the object. -/
def SameTys (e : Env) (m m' : Mem) (R : Nat → Prop) : Tys → Nat → Nat → Prop
  | .nil, _, _ => True
  | .cons t r, a, b => Same e m m' R t a b ∧ SameTys e m m' R r a b
end

mutual
/-- The addresses occupied by the saved fields of an object of the type at `b`. -/
def Touched (e : Env) : Ty → Nat → Nat → Prop
  | .prim _ s, b, x => b ≤ x ∧ x < b + s
  | .enum _ s _ _, b, x => b ≤ x ∧ x < b + s
  | .cls _ _ fl fs bs, b, x => e.skips fl = false ∧ (TouchedFlds e fs b x ∨ TouchedTys e bs b x)
  | .tmpl _ _ bs, b, x => TouchedTys e bs b x
  | .vec _ s _ _, b, x => b ≤ x ∧ x < b + s
  | .dict _ s _ _ _, b, x => b ≤ x ∧ x < b + s

/-- Those of the fields. -/
def TouchedFlds (e : Env) : Flds → Nat → Nat → Prop
  | .nil, _, _ => False
  | .cons f t r, b, x =>
    (savedField e f = true ∧
      ((f.count = none ∧ Touched e t (b + f.offset) x) ∨
       ∃ n i, f.count = some n ∧ i < n ∧ Touched e t (elemAt (b + f.offset) i t.size) x)) ∨
    TouchedFlds e r b x

/-- Those of the base types. -/
def TouchedTys (e : Env) : Tys → Nat → Nat → Prop
  | .nil, _, _ => False
  | .cons t r, b, x => Touched e t b x ∨ TouchedTys e r b x
end

/-! ### Fields of a class, inherited ones included -/

/-- The class's own fields. -/
def Flds.list : Flds → List (FldInfo × Ty)
  | .nil => []
  | .cons f t r => (f, t) :: r.list

mutual
/-- All the fields. -/
def Ty.allFields : Ty → List (FldInfo × Ty)
  | .cls _ _ _ fs bs => fs.list ++ bs.allFields
  | .tmpl _ _ bs => bs.allFields
  | _ => []

/-- All the fields of the bases. -/
def Tys.allFields : Tys → List (FldInfo × Ty)
  | .nil => []
  | .cons t r => t.allFields ++ r.allFields
end

mutual
/-- The fields that are saved. -/
def Ty.savedFields (e : Env) : Ty → List (FldInfo × Ty)
  | .cls _ _ fl fs bs =>
    if e.skips fl then [] else fs.list.filter (fun x => savedField e x.1) ++ bs.savedFields e
  | .tmpl _ _ bs => bs.savedFields e
  | _ => []

/-- The fields of the bases that are saved. -/
def Tys.savedFields (e : Env) : Tys → List (FldInfo × Ty)
  | .nil => []
  | .cons t r => t.savedFields e ++ r.savedFields e
end

/-- Two fields do not overlap. -/
def Apart (x y : FldInfo × Ty) : Prop :=
  x.1.offset + x.1.extent x.2 ≤ y.1.offset ∨ y.1.offset + y.1.extent y.2 ≤ x.1.offset

/-- A name that needs no escaping in JSON. -/
def PlainName (s : Bytes) : Prop := ∀ b ∈ s, b ≠ 34 ∧ b ≠ 92

/-! ### What the round trip is claimed for -/

/-- Number types: integers; with hex floats also `double`, and `float` if conversions are those of IEEE 754. -/
def NumOk (fl : Floats) (hexFloats : Bool) (k : Num) : Prop :=
  k.Integer ∨ (hexFloats = true ∧ (k = .double ∨ (k = .float ∧ fl.Ieee)))

/-- Values of numbers: see `Num.Savable`; a float is not a signalling NaN. -/
def NumSavable (k : Num) (obj : Bytes) : Prop :=
  k.Savable obj ∧ (k = .float → ¬ IEEE.Signalling (unle obj))

/-- What is asked of the own fields of a class: with sorting, the fields that are not transient have
different offsets (below 2^31 - 1). -/
def SortOk (e : Env) (o : Opts) (fs : Flds) : Prop :=
  o.sort = true →
    (fs.list.filter fun x => !e.skips x.1.flags).Pairwise (fun x y => x.1.offset ≠ y.1.offset) ∧
    ∀ x ∈ fs.list, x.1.offset < 0x7FFFFFFF

/-- An enum. -/
def Ty.isEnum : Ty → Bool
  | .enum _ _ _ _ => true
  | _ => false

/-- A class. -/
def Ty.isClass : Ty → Bool
  | .cls _ _ _ _ _ => true
  | _ => false

mutual
/-- Types: numbers, enums of four bytes, containers of supported types that are not pointers, dictionaries from enums
to classes, and classes that are not transient, of plainly named fields of supported types that lie in the class without overlap and are
told apart by the hash of their names. -/
def Supported (e : Env) (o : Opts) : Ty → Prop
  | .prim h s => ∃ k, dispatch e.lut h = some k ∧ k.size = s ∧ NumOk e.fl o.hexFloats k
  | .enum _ s cs _ => s = 4 ∧ EnumNames cs
  | .cls h s fl fs bs =>
    e.skips fl = false ∧ SupportedFlds e o fs ∧ SupportedTys e o bs ∧
    ((Ty.cls h s fl fs bs).savedFields e).Pairwise Apart ∧
    (Ty.cls h s fl fs bs).allFields.Pairwise (fun x y => Hash.hashText x.1.name ≠ Hash.hashText y.1.name) ∧
    (∀ x ∈ (Ty.cls h s fl fs bs).savedFields e, x.1.offset + x.1.extent x.2 ≤ s ∧ PlainName x.1.name) ∧
    SortOk e o fs
  | .tmpl _ _ _ => False
  | .vec _ s elem p => p = false ∧ 0 < s ∧ 0 < elem.size ∧ Supported e o elem
  | .dict _ s key elem p =>
    p = false ∧ 0 < s ∧ key.isEnum = true ∧ Supported e o key ∧ elem.isClass = true ∧ Supported e o elem

/-- Fields. -/
def SupportedFlds (e : Env) (o : Opts) : Flds → Prop
  | .nil => True
  | .cons f t r =>
    (savedField e f = true → Supported e o t ∧ (f.count ≠ none → 0 < t.size)) ∧ SupportedFlds e o r

/-- Base types: transient ones are not saved. -/
def SupportedTys (e : Env) (o : Opts) : Tys → Prop
  | .nil => True
  | .cons t r => SupportedBase e o t ∧ SupportedTys e o r

/-- A base type. -/
def SupportedBase (e : Env) (o : Opts) : Ty → Prop
  | .cls _ _ fl fs bs => e.skips fl = true ∨ (SupportedFlds e o fs ∧ SupportedTys e o bs ∧ SortOk e o fs)
  | .tmpl _ _ bs => SupportedTys e o bs
  | _ => False
end

mutual
/-- Values: the numbers and enums among the saved fields can be saved. -/
def Savable (e : Env) (m : Mem) : Ty → Nat → Prop
  | .prim h s, a => ∀ k, dispatch e.lut h = some k → NumSavable k (m.read a s)
  | .enum _ _ cs fl, a => EnumValue cs fl (BitVec.ofNat 32 (unle (m.read a 4)))
  | .cls _ _ fl fs bs, a => e.skips fl = true ∨ (SavableFlds e m fs a ∧ SavableTys e m bs a)
  | .tmpl _ _ bs, a => SavableTys e m bs a
  | .vec _ _ elem _, a => ∀ i, i < (m.elems a).length → Savable e m elem ((m.elems a).getD i (0, 0)).2
  | .dict _ _ key elem _, a => ∀ i, i < (m.elems a).length →
    Savable e m key ((m.elems a).getD i (0, 0)).1 ∧ Savable e m elem ((m.elems a).getD i (0, 0)).2

/-- Fields. -/
def SavableFlds (e : Env) (m : Mem) : Flds → Nat → Prop
  | .nil, _ => True
  | .cons f t r, a =>
    (savedField e f = true →
      (f.count = none → Savable e m t (a + f.offset)) ∧
      (∀ n, f.count = some n → ∀ i, i < n → Savable e m t (elemAt (a + f.offset) i t.size))) ∧
    SavableFlds e m r a

/-- Base types. -/
def SavableTys (e : Env) (m : Mem) : Tys → Nat → Prop
  | .nil, _ => True
  | .cons t r, a => Savable e m t a ∧ SavableTys e m r a
end

/-- No container in these bytes has elements (an empty JSON array leaves a container as it is). -/
def Clear (m : Mem) (b size : Nat) : Prop := ∀ x, b ≤ x → x < b + size → m.elems x = []

/-- Between two moments, below the memory in use at the first, only the addresses `S` changed. -/
structure Effect (m m' : Mem) (S : Nat → Prop) : Prop where
  next : m.next ≤ m'.next
  byte : ∀ x, x < m.next → ¬ S x → m'.byte x = m.byte x
  elems : ∀ x, x < m.next → ¬ S x → m'.elems x = m.elems x

/-! ### Members of a JSON object -/

/-- The text between the braces of a JSON object, and its members: names (as written, between the quotes) and
the texts of their values. -/
inductive ObjOf : Bytes → List (Bytes × Bytes) → Prop
  | nil {w : Bytes} (hw : Ws w) : ObjOf w []
  | one {w k x y v z : Bytes} (hw : Ws w) (hk : JStr k) (hx : Ws x) (hy : Ws y) (hv : JVal v) (hz : Ws z) :
      ObjOf (w ++ (34 :: (k ++ 34 :: (x ++ 58 :: (y ++ (v ++ z)))))) [(k, v)]
  | more {w k x y v z r : Bytes} {m : Bytes × Bytes} {ms : List (Bytes × Bytes)} (hw : Ws w) (hk : JStr k) (hx : Ws x)
      (hy : Ws y) (hv : JVal v) (hz : Ws z) (hr : ObjOf r (m :: ms)) :
      ObjOf (w ++ (34 :: (k ++ 34 :: (x ++ 58 :: (y ++ (v ++ (z ++ 44 :: r))))))) ((k, v) :: m :: ms)

/-- The class has no field of that name (that is: no field whose name has the same hash), or only a transient
one. -/
def Unknown (e : Env) (ct : Ty) (name : Bytes) : Prop :=
  ∀ x ∈ ct.allFields, Hash.hashText x.1.name = Hash.hashText name → e.skips x.1.flags = true

mutual
/-- No dictionary in the type. -/
def NoDict : Ty → Prop
  | .prim _ _ => True
  | .enum _ _ _ _ => True
  | .cls _ _ _ fs bs => NoDictFlds fs ∧ NoDictTys bs
  | .tmpl _ _ bs => NoDictTys bs
  | .vec _ _ elem _ => NoDict elem
  | .dict _ _ _ _ _ => False

/-- Nor in the fields. -/
def NoDictFlds : Flds → Prop
  | .nil => True
  | .cons _ t r => NoDict t ∧ NoDictFlds r

/-- Nor in the bases. -/
def NoDictTys : Tys → Prop
  | .nil => True
  | .cons t r => NoDict t ∧ NoDictTys r
end

end Clr.JSON
