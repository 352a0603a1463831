import Verif.Props.JSONConvertSpec
/-
C97: the JSON text of an object, written down without reference to how it is produced.
-/
namespace Clr.JSON

/-! ### Numbers -/

/-- The bytes of ASCII characters. -/
def asciiOf (cs : List Char) : Bytes := cs.map fun c => UInt8.ofNat c.toNat

/-- An integer in decimal. -/
def decText (v : Int) : Bytes := (if v < 0 then [45] else []) ++ asciiOf (Nat.toDigits 10 v.natAbs)

/-- The hexadecimal digits of a number, lower case. -/
def hexText (v : Nat) : Bytes := asciiOf (Nat.toDigits 16 v)

/-- The text of a number, from its bytes in memory. -/
inductive NumText (fl : Floats) (hexFloats : Bool) : Num → Bytes → Bytes → Prop
  | fls : NumText fl hexFloats .bool [0] b!"0"
  | tru : NumText fl hexFloats .bool [1] b!"1"
  | int {w : Nat} {v : Int} {bs : Bytes} (hb : IntBytes w v bs) (hlo : -(256 ^ w / 2) ≤ v) (hhi : v ≤ 256 ^ w / 2 - 1) :
      NumText fl hexFloats (.int w) bs (decText v)
  | nat {w : Nat} {bs : Bytes} (hb : bs.length = w) : NumText fl hexFloats (.nat w false) bs (decText (unle bs))
  /-- A wide character where these are signed: converted to 64 bits without sign. -/
  | wide {w : Nat} {v : Int} {bs : Bytes} (hb : IntBytes w v bs) (hlo : -(256 ^ w / 2) ≤ v) (hhi : v ≤ 256 ^ w / 2 - 1) :
      NumText fl hexFloats (.nat w true) bs (decText (v % 2 ^ 64))
  | hex {w : Nat} {bs : Bytes} (hb : bs.length = w) : NumText fl hexFloats (.hex w) bs (b!"0x" ++ hexText (unle bs))
  | doubleBits {bs : Bytes} (hb : bs.length = 8) (hx : hexFloats = true) : NumText fl hexFloats .double bs (b!"0d" ++ hexText (unle bs))
  | floatBits {bs : Bytes} (hb : bs.length = 4) (hx : hexFloats = true) :
      NumText fl hexFloats .float bs (b!"0d" ++ hexText (fl.widen (UInt32.ofNat (unle bs))).toNat)
  | double {bs : Bytes} (hb : bs.length = 8) (hx : hexFloats = false) : NumText fl hexFloats .double bs (fl.format (UInt64.ofNat (unle bs)))
  | float {bs : Bytes} (hb : bs.length = 4) (hx : hexFloats = false) :
      NumText fl hexFloats .float bs (fl.format (fl.widen (UInt32.ofNat (unle bs))))

/-- The text of what a pointer is mapped to. -/
def ptrText (o : Opts) (h : BitVec 32) : Bytes := if o.hexPtrs then b!"0x" ++ hexText h.toNat else decText h.toNat

/-! ### Enums -/

/-- In quotes. -/
def quoted (s : Bytes) : Bytes := [34] ++ s ++ [34]

/-- The names of the flags of a value: of the constants, in order, that share a bit with what is left of it. -/
inductive FlagsOf : List Const → BitVec 32 → List Bytes → Prop
  | nil (v : BitVec 32) : FlagsOf [] v []
  | no {c : Const} {cs : List Const} {v : BitVec 32} {ns : List Bytes} (h : v &&& c.value = 0) (hr : FlagsOf cs v ns) : FlagsOf (c :: cs) v ns
  | yes {c : Const} {cs : List Const} {v : BitVec 32} {ns : List Bytes} (h : v &&& c.value ≠ 0) (hr : FlagsOf cs (v &&& ~~~c.value) ns) :
      FlagsOf (c :: cs) v (c.name :: ns)

/-- The text of an enum value: the name of the first constant with the value, or the names of its flags. -/
inductive EnumText (cs : List Const) : Bool → BitVec 32 → Bytes → Prop
  | name {fl : Bool} {v : BitVec 32} {pre post : List Const} {c : Const} (hf : fl = false ∨ v = 0) (hc : cs = pre ++ c :: post) (hv : c.value = v)
      (hn : ∀ x ∈ pre, x.value ≠ v) : EnumText cs fl v (quoted c.name)
  | noName {fl : Bool} {v : BitVec 32} (hf : fl = false ∨ v = 0) (hn : ∀ x ∈ cs, x.value ≠ v) :
      EnumText cs fl v (quoted b!"clReflect_JSON_EnumValueNotFound")
  | flags {v : BitVec 32} {ns : List Bytes} (hv : v ≠ 0) (hn : FlagsOf cs v ns) (h : ns ≠ []) :
      EnumText cs true v (quoted (List.intercalate [124] ns))
  | noFlags {v : BitVec 32} (hv : v ≠ 0) (hn : FlagsOf cs v []) : EnumText cs true v (quoted b!"clReflect_JSON_EnumFlagNotFound")

/-! ### Objects -/

/-- White space, and none unless the text is to be formatted. -/
def Blank (o : Opts) (w : Bytes) : Prop := (∀ b ∈ w, b = 9 ∨ b = 10) ∧ (o.format = false → w = [])

/-- Texts with commas, and blanks after these, between them. -/
inductive Listed (o : Opts) : List Bytes → Bytes → Prop
  | nil : Listed o [] []
  | one (t : Bytes) : Listed o [t] t
  | more {t u w r : Bytes} {ts : List Bytes} (hw : Blank o w) (hr : Listed o (u :: ts) r) : Listed o (t :: u :: ts) (t ++ 44 :: (w ++ r))

/-- The fields of a class that are not transient: as declared, or by increasing offset. -/
def InOrder (e : Env) (o : Opts) (fs : Flds) (l : List (FldInfo × Ty)) : Prop :=
  (o.sort = false → l = fs.list.filter fun x => !e.skips x.1.flags) ∧
  (o.sort = true → l.Pairwise (fun x y => x.1.offset < y.1.offset) ∧ ∀ x, x ∈ l ↔ x ∈ fs.list ∧ e.skips x.1.flags = false)

mutual
/-- The members of an object of a class: its fields that are not transient, then those of its base classes that are not transient. -/
inductive ClassMembers (e : Env) (o : Opts) : Ty → List (FldInfo × Ty) → Prop
  | hidden {h : BitVec 32} {s : Nat} {fl : BitVec 32} {fs : Flds} {bs : Tys} (hs : e.skips fl = true) : ClassMembers e o (.cls h s fl fs bs) []
  | cls {h : BitVec 32} {s : Nat} {fl : BitVec 32} {fs : Flds} {bs : Tys} {own inherited : List (FldInfo × Ty)} (hs : e.skips fl = false)
      (ho : InOrder e o fs own) (hb : BaseMembers e o bs inherited) : ClassMembers e o (.cls h s fl fs bs) (own ++ inherited)
  | tmpl {h : BitVec 32} {s : Nat} {bs : Tys} {inherited : List (FldInfo × Ty)} (hb : BaseMembers e o bs inherited) :
      ClassMembers e o (.tmpl h s bs) inherited
  | prim {h : BitVec 32} {s : Nat} : ClassMembers e o (.prim h s) []
  | enum {h : BitVec 32} {s : Nat} {cs : List Const} {fl : Bool} : ClassMembers e o (.enum h s cs fl) []
  | vec {h : BitVec 32} {s : Nat} {t : Ty} {p : Bool} : ClassMembers e o (.vec h s t p) []
  | dict {h : BitVec 32} {s : Nat} {k t : Ty} {p : Bool} : ClassMembers e o (.dict h s k t p) []

/-- Those of all the base types. -/
inductive BaseMembers (e : Env) (o : Opts) : Tys → List (FldInfo × Ty) → Prop
  | nil : BaseMembers e o .nil []
  | cons {t : Ty} {r : Tys} {xs ys : List (FldInfo × Ty)} (ht : ClassMembers e o t xs) (hr : BaseMembers e o r ys) :
      BaseMembers e o (.cons t r) (xs ++ ys)
end

/-- A member with its name. -/
def member (name value : Bytes) : Bytes := quoted name ++ [58] ++ value

/-- A list. -/
def listText (ts : List Bytes) : Bytes := [91] ++ List.intercalate [44] ts ++ [93]

mutual
/-- The text of the object of a type at an address. -/
inductive Shows (e : Env) (p : Platform) (o : Opts) (m : Mem) : Ty → Nat → Bytes → Prop
  | num {h : BitVec 32} {s a : Nat} {name text : Bytes} {k : Num} (hn : (name, k) ∈ registrations p) (hh : h = Hash.hashText name)
      (ht : NumText e.fl o.hexFloats k (m.read a k.size) text) : Shows e p o m (.prim h s) a text
  | enum {h : BitVec 32} {s a : Nat} {cs : List Const} {fl : Bool} {text : Bytes}
      (ht : EnumText cs fl (BitVec.ofNat 32 (unle (m.read a 4))) text) : Shows e p o m (.enum h s cs fl) a text
  | cls {h : BitVec 32} {s a : Nat} {fl : BitVec 32} {fs : Flds} {bs : Tys} {ms : List (FldInfo × Ty)} {ts : List Bytes} {t u v w x : Bytes}
      (hf : e.skips fl = false) (hm : ClassMembers e o (.cls h s fl fs bs) ms) (hs : MembersShow e p o m a ms ts) (hl : Listed o ts t)
      (hu : Blank o u) (hv : Blank o v) (hw : Blank o w) (hx : Blank o x) :
      Shows e p o m (.cls h s fl fs bs) a (u ++ [123] ++ v ++ t ++ w ++ [125] ++ x)
  | tmpl {h : BitVec 32} {s a : Nat} {bs : Tys} : Shows e p o m (.tmpl h s bs) a (listText [])
  | vec {h : BitVec 32} {s a : Nat} {t : Ty} {ptr : Bool} {ts : List Bytes} (hs : ElementsShow e p o m t ptr ((m.elems a).map (·.2)) ts) :
      Shows e p o m (.vec h s t ptr) a (listText ts)
  | empty {h : BitVec 32} {s a : Nat} {k t : Ty} {ptr : Bool} (he : m.elems a = []) : Shows e p o m (.dict h s k t ptr) a (listText [])
  | dict {h : BitVec 32} {s a : Nat} {k t : Ty} {ptr : Bool} {ks ts : List Bytes} (he : m.elems a ≠ [])
      (hk : ElementsShow e p o m k false ((m.elems a).map (·.1)) ks) (hs : ElementsShow e p o m t ptr ((m.elems a).map (·.2)) ts) :
      Shows e p o m (.dict h s k t ptr) a
        ([123] ++ List.intercalate [44] (List.zipWith (fun x y => x ++ [58] ++ y) ks ts) ++ [125])

/-- The texts of the members of an object at an address. -/
inductive MembersShow (e : Env) (p : Platform) (o : Opts) (m : Mem) : Nat → List (FldInfo × Ty) → List Bytes → Prop
  | nil (a : Nat) : MembersShow e p o m a [] []
  /-- Pointers that cannot be mapped are left out. -/
  | leftOut {a : Nat} {f : FldInfo} {t : Ty} {ms : List (FldInfo × Ty)} {ts : List Bytes} (hp : f.isPtr = true)
      (hn : o.mapPtr t.hash (m.ptr (a + f.offset)) = none) (hr : MembersShow e p o m a ms ts) : MembersShow e p o m a ((f, t) :: ms) ts
  | value {a : Nat} {f : FldInfo} {t : Ty} {ms : List (FldInfo × Ty)} {ts : List Bytes} {v : Bytes} (hc : f.count = none)
      (hp : f.isPtr = false) (hv : Shows e p o m t (a + f.offset) v) (hr : MembersShow e p o m a ms ts) :
      MembersShow e p o m a ((f, t) :: ms) (member f.name v :: ts)
  | pointer {a : Nat} {f : FldInfo} {t : Ty} {ms : List (FldInfo × Ty)} {ts : List Bytes} {h : BitVec 32} (hc : f.count = none)
      (hp : f.isPtr = true) (hm : o.mapPtr t.hash (m.ptr (a + f.offset)) = some h) (hr : MembersShow e p o m a ms ts) :
      MembersShow e p o m a ((f, t) :: ms) (member f.name (ptrText o h) :: ts)
  /-- A C array: its elements are one after the other. -/
  | array {a n : Nat} {f : FldInfo} {t : Ty} {ms : List (FldInfo × Ty)} {ts vs : List Bytes} (hc : f.count = some n)
      (hp : f.isPtr = true → o.mapPtr t.hash (m.ptr (a + f.offset)) ≠ none)
      (hv : ElementsShow e p o m t f.isPtr ((List.range n).map fun i => a + f.offset + i * (if f.isPtr then 8 else t.size)) vs)
      (hr : MembersShow e p o m a ms ts) : MembersShow e p o m a ((f, t) :: ms) (member f.name (listText vs) :: ts)

/-- The texts of values, or of pointers to such, at addresses. -/
inductive ElementsShow (e : Env) (p : Platform) (o : Opts) (m : Mem) : Ty → Bool → List Nat → List Bytes → Prop
  | nil (t : Ty) (ptr : Bool) : ElementsShow e p o m t ptr [] []
  | value {t : Ty} {a : Nat} {as : List Nat} {v : Bytes} {ts : List Bytes} (hv : Shows e p o m t a v) (hr : ElementsShow e p o m t false as ts) :
      ElementsShow e p o m t false (a :: as) (v :: ts)
  | pointer {t : Ty} {a : Nat} {as : List Nat} {h : BitVec 32} {ts : List Bytes} (hm : o.mapPtr t.hash (m.ptr a) = some h)
      (hr : ElementsShow e p o m t true as ts) : ElementsShow e p o m t true (a :: as) (ptrText o h :: ts)
end

/-! ### What it is asked of -/

/-- Every pointer is mapped. -/
def AllMapped (o : Opts) : Prop := ∀ h p, o.mapPtr h p ≠ none

mutual
/-- With sorting, the fields of the class, and those of its base classes, have different offsets. -/
def SortsOk (e : Env) (o : Opts) : Ty → Prop
  | .cls _ _ _ fs bs => SortOk e o fs ∧ SortsOkAll e o bs
  | .tmpl _ _ bs => SortsOkAll e o bs
  | _ => True

/-- The same of base types. -/
def SortsOkAll (e : Env) (o : Opts) : Tys → Prop
  | .nil => True
  | .cons t r => SortsOk e o t ∧ SortsOkAll e o r
end

/-- Types made of the native types, enums, classes that are not transient, containers and dictionaries; with pointers, but lists of
pointers only if all are mapped. -/
inductive Showable (e : Env) (p : Platform) (o : Opts) : Ty → Prop
  | prim {h : BitVec 32} {s : Nat} {name : Bytes} {k : Num} (hn : (name, k) ∈ registrations p) (hh : h = Hash.hashText name) : Showable e p o (.prim h s)
  | enum (h : BitVec 32) (s : Nat) (cs : List Const) (fl : Bool) : Showable e p o (.enum h s cs fl)
  | cls {h : BitVec 32} {s : Nat} {fl : BitVec 32} {fs : Flds} {bs : Tys} (hf : e.skips fl = false) (hs : SortsOk e o (.cls h s fl fs bs))
      (hl : ∀ x ∈ (Ty.cls h s fl fs bs).allFields, x.1.isPtr = true → x.1.count ≠ none → AllMapped o)
      (hx : ∀ x ∈ (Ty.cls h s fl fs bs).allFields, e.skips x.1.flags = false → x.1.isPtr = false → Showable e p o x.2) : Showable e p o (.cls h s fl fs bs)
  | tmpl (h : BitVec 32) (s : Nat) (bs : Tys) : Showable e p o (.tmpl h s bs)
  | vec {h : BitVec 32} {s : Nat} {t : Ty} {ptr : Bool} (hl : ptr = true → AllMapped o) (ht : ptr = false → Showable e p o t) :
      Showable e p o (.vec h s t ptr)
  | dict {h : BitVec 32} {s : Nat} {k t : Ty} {ptr : Bool} (hl : ptr = true → AllMapped o) (hk : Showable e p o k)
      (ht : ptr = false → Showable e p o t) : Showable e p o (.dict h s k t ptr)

end Clr.JSON
