import Verif.Model.JSONSpec
/-
C93: what it means that loading stays inside an object, and which types it is asked of.
-/
namespace Clr.JSON

/-- The bytes that a value, or a pointer to one, takes. -/
def slotBytes (t : Ty) (ptr : Bool) : Nat := if ptr then 8 else t.size

/-- The bytes that a field, or a C array of `n`, takes. -/
def fieldBytes (t : Ty) (ptr : Bool) : Option Nat → Nat
  | none => slotBytes t ptr
  | some n => n * slotBytes t ptr

/-- If the loader takes the type for that of a number, a number fits. (It tells them by nine bits of the hash of the name; see
C35.) -/
def NumFits (e : Env) (t : Ty) : Prop := ∀ k, dispatch e.lut t.hash = some k → k.size ≤ t.size

/-- What pointers may point to: native types and enums. -/
def Simple (t : Ty) : Prop := ((∃ h s, t = .prim h s) ∨ ∃ h s cs fl, t = .enum h s cs fl) ∧ t.size ≤ 8

/-- A type whose descriptions are true: fields lie in their class, those of the base types too, enums have the size of `int`, arrays
have an entry, containers are somewhere. -/
inductive Room (e : Env) : Ty → Prop
  | prim (h : BitVec 32) (s : Nat) (hn : NumFits e (.prim h s)) : Room e (.prim h s)
  | enum (h : BitVec 32) (s : Nat) (cs : List Const) (fl : Bool) (hn : NumFits e (.enum h s cs fl)) (hs : 4 ≤ s) : Room e (.enum h s cs fl)
  | cls (h : BitVec 32) (s : Nat) (fl : BitVec 32) (fs : Flds) (bs : Tys) (hn : NumFits e (.cls h s fl fs bs))
      (hin : ∀ x ∈ (Ty.cls h s fl fs bs).allFields, x.1.offset + fieldBytes x.2 x.1.isPtr x.1.count ≤ s)
      (h0 : ∀ x ∈ (Ty.cls h s fl fs bs).allFields, x.1.count ≠ some 0)
      (hp : ∀ x ∈ (Ty.cls h s fl fs bs).allFields, x.1.isPtr = true → Simple x.2)
      (hr : ∀ x ∈ (Ty.cls h s fl fs bs).allFields, Room e x.2) : Room e (.cls h s fl fs bs)
  | tmpl (h : BitVec 32) (s : Nat) (bs : Tys) (hn : NumFits e (.tmpl h s bs)) : Room e (.tmpl h s bs)
  | vec (h : BitVec 32) (s : Nat) (t : Ty) (p : Bool) (hn : NumFits e (.vec h s t p)) (hs : 0 < s) (ht : Room e t)
      (hp : p = true → Simple t) : Room e (.vec h s t p)
  | dict (h : BitVec 32) (s : Nat) (k t : Ty) (p : Bool) (hn : NumFits e (.dict h s k t p)) (hs : 0 < s) (hk : Room e k) (ht : Room e t)
      (hp : p = true → Simple t) : Room e (.dict h s k t p)

/-- From one state of memory to another only the `n` bytes at `a` have changed, and what has been allocated in between. -/
structure OnlyIn (a n : Nat) (m m' : Mem) : Prop where
  grows : m.next ≤ m'.next
  bytes : ∀ x, x < m.next → (x < a ∨ a + n ≤ x) → m'.byte x = m.byte x
  elems : ∀ x, x < m.next → (x < a ∨ a + n ≤ x) → m'.elems x = m.elems x
  free : ∀ x, m'.next ≤ x → (x < a ∨ a + n ≤ x) → m'.byte x = m.byte x

end Clr.JSON
