import Verif.Model.VBin
/-
C98: the bytes of an object in versioned binary form, written down without reference to how they are produced.
-/
namespace Clr.VBin
open Clr.JSON (Ty Flds Tys Mem FldInfo Const Env)

/-- Bytes after their number. -/
def counted (bs : Bytes) : Bytes := le 4 bs.length ++ bs

/-- A chunk: the hash of the name of a type, that of a name, and bytes after their number. -/
def chunkBytes (type name : BitVec 32) (body : Bytes) : Bytes := le 4 type.toNat ++ le 4 name.toNat ++ counted body

/-- What an enum value is saved as: the hash of the name of the first constant with the value, or zero. -/
inductive SavedAs (cs : List Const) (v : BitVec 32) : BitVec 32 → Prop
  | name {pre post : List Const} {c : Const} (hc : cs = pre ++ c :: post) (hv : c.value = v) (hn : ∀ x ∈ pre, x.value ≠ v) :
      SavedAs cs v (Hash.hashText c.name)
  | none (hn : ∀ x ∈ cs, x.value ≠ v) : SavedAs cs v 0

/-- The size of the elements of a list, or zero if each of them has its own. -/
inductive ElementSize : Ty → Bool → Nat → Prop
  | pointer (t : Ty) : ElementSize t true 8
  | cls (h : BitVec 32) (s : Nat) (fl : BitVec 32) (fs : Flds) (bs : Tys) : ElementSize (.cls h s fl fs bs) false 0
  | noName (t : Ty) (h : t.hash = 0) : ElementSize t false 0
  | other (t : Ty) (h : t.hash ≠ 0) (hc : ∀ h s fl fs bs, t ≠ .cls h s fl fs bs) : ElementSize t false t.size

/-- What precedes the elements of a list: their number, and the hashes of the names and the sizes of the types of keys and values. -/
def listHeader (count : Nat) (keyHash : BitVec 32) (keySize : Nat) (valueHash : BitVec 32) (valueSize : Nat) : Bytes :=
  le 4 count ++ le 4 keyHash.toNat ++ le 4 keySize ++ le 4 valueHash.toNat ++ le 4 valueSize

mutual
/-- The bytes of the object of a type at an address. -/
inductive Encodes (e : Env) (m : Mem) : Ty → Nat → Bytes → Prop
  | prim {h : BitVec 32} {s a : Nat} : Encodes e m (.prim h s) a (m.read a s)
  | enum {h : BitVec 32} {s a : Nat} {cs : List Const} {fl : Bool} {x : BitVec 32}
      (hx : SavedAs cs (BitVec.ofNat 32 (unle (m.read a 4))) x) : Encodes e m (.enum h s cs fl) a (le 4 x.toNat)
  | transient {h : BitVec 32} {s a : Nat} {fl : BitVec 32} {fs : Flds} {bs : Tys} (ht : e.skips fl = true) : Encodes e m (.cls h s fl fs bs) a []
  | cls {h : BitVec 32} {s a : Nat} {fl : BitVec 32} {fs : Flds} {bs : Tys} {x y : Bytes} (ht : e.skips fl = false)
      (hf : FieldsEncode e m fs a x) (hb : BasesEncode e m bs a y) : Encodes e m (.cls h s fl fs bs) a (x ++ y)
  | tmpl {h : BitVec 32} {s a : Nat} {bs : Tys} : Encodes e m (.tmpl h s bs) a (listHeader 0 0 0 0 0)
  | vec {h : BitVec 32} {s a n : Nat} {t : Ty} {p : Bool} {xs : List Bytes} (hn : ElementSize t p n)
      (hx : ElementsEncode e m t p n ((m.elems a).map (·.2)) xs) :
      Encodes e m (.vec h s t p) a (listHeader (m.elems a).length 0 0 t.hash n ++ xs.flatten)
  | dict {h : BitVec 32} {s a n : Nat} {k t : Ty} {p : Bool} {ks xs : List Bytes} (hn : ElementSize t p n)
      (hk : KeysEncode e m k ((m.elems a).map (·.1)) ks) (hx : ElementsEncode e m t p n ((m.elems a).map (·.2)) xs) :
      Encodes e m (.dict h s k t p) a (listHeader (m.elems a).length k.hash k.size t.hash n ++ (List.zipWith (· ++ ·) ks xs).flatten)

/-- The bytes of the fields of an object: a chunk for each that is not transient. (Of a pointer, what is saved is what would be there
if it were not one.) -/
inductive FieldsEncode (e : Env) (m : Mem) : Flds → Nat → Bytes → Prop
  | nil {a : Nat} : FieldsEncode e m .nil a []
  | transient {f : FldInfo} {t : Ty} {r : Flds} {a : Nat} {y : Bytes} (ht : e.skips f.flags = true) (hr : FieldsEncode e m r a y) :
      FieldsEncode e m (.cons f t r) a y
  | one {f : FldInfo} {t : Ty} {r : Flds} {a : Nat} {x y : Bytes} (ht : e.skips f.flags = false) (hc : f.count = none)
      (hx : Encodes e m t (a + f.offset) x) (hr : FieldsEncode e m r a y) :
      FieldsEncode e m (.cons f t r) a (chunkBytes t.hash (Hash.hashText f.name) x ++ y)
  /-- A C array: its elements are one after the other. -/
  | array {f : FldInfo} {t : Ty} {r : Flds} {a n k : Nat} {xs : List Bytes} {y : Bytes} (ht : e.skips f.flags = false) (hc : f.count = some k)
      (hn : ElementSize t f.isPtr n)
      (hx : ElementsEncode e m t f.isPtr n ((List.range k).map fun i => a + f.offset + i * (if f.isPtr then 8 else t.size)) xs)
      (hr : FieldsEncode e m r a y) :
      FieldsEncode e m (.cons f t r) a (chunkBytes t.hash (Hash.hashText f.name) (listHeader k 0 0 t.hash n ++ xs.flatten) ++ y)

/-- The bytes of the bases, which are at the address of the object. -/
inductive BasesEncode (e : Env) (m : Mem) : Tys → Nat → Bytes → Prop
  | nil {a : Nat} : BasesEncode e m .nil a []
  | cons {t : Ty} {r : Tys} {a : Nat} {x y : Bytes} (hx : Encodes e m t a x) (hr : BasesEncode e m r a y) :
      BasesEncode e m (.cons t r) a (x ++ y)

/-- The bytes of the elements of a list: with their number if their size is not in the header; nothing of pointers. -/
inductive ElementsEncode (e : Env) (m : Mem) : Ty → Bool → Nat → List Nat → List Bytes → Prop
  | nil {t : Ty} {p : Bool} {n : Nat} : ElementsEncode e m t p n [] []
  | pointer {t : Ty} {n a : Nat} {as : List Nat} {xs : List Bytes} (hr : ElementsEncode e m t true n as xs) :
      ElementsEncode e m t true n (a :: as) ([] :: xs)
  | value {t : Ty} {n a : Nat} {as : List Nat} {x : Bytes} {xs : List Bytes} (hx : Encodes e m t a x) (hr : ElementsEncode e m t false n as xs) :
      ElementsEncode e m t false n (a :: as) ((if n = 0 then counted x else x) :: xs)

/-- The bytes of the keys of a dictionary. -/
inductive KeysEncode (e : Env) (m : Mem) : Ty → List Nat → List Bytes → Prop
  | nil {t : Ty} : KeysEncode e m t [] []
  | cons {t : Ty} {a : Nat} {as : List Nat} {x : Bytes} {xs : List Bytes} (hx : Encodes e m t a x) (hr : KeysEncode e m t as xs) :
      KeysEncode e m t (a :: as) (x :: xs)
end

end Clr.VBin
