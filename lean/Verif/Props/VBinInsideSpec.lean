import Verif.Model.VBinSpec
import Verif.Props.JSONInsideSpec
/-
C94: which types it is asked of that loading a versioned binary stays inside the object.
-/
namespace Clr.VBin
open Clr.JSON (Ty Flds Tys Mem FldInfo Const Env fieldBytes)

/-- A type whose descriptions are true: fields lie in their class, those of the base types too, and containers are somewhere. A pointer
that is not in an array is loaded over, so what it points to has to be as small as it is. -/
inductive Sits : Ty → Prop
  | prim (h : BitVec 32) (s : Nat) : Sits (.prim h s)
  | enum (h : BitVec 32) (s : Nat) (cs : List Const) (fl : Bool) : Sits (.enum h s cs fl)
  | cls (h : BitVec 32) (s : Nat) (fl : BitVec 32) (fs : Flds) (bs : Tys)
      (hin : ∀ x ∈ (Ty.cls h s fl fs bs).allFields, x.1.offset + fieldBytes x.2 x.1.isPtr x.1.count ≤ s)
      (hp : ∀ x ∈ (Ty.cls h s fl fs bs).allFields, x.1.isPtr = true → x.1.count = none → x.2.size ≤ 8)
      (hr : ∀ x ∈ (Ty.cls h s fl fs bs).allFields, Sits x.2) : Sits (.cls h s fl fs bs)
  | tmpl (h : BitVec 32) (s : Nat) (bs : Tys) : Sits (.tmpl h s bs)
  | vec (h : BitVec 32) (s : Nat) (t : Ty) (p : Bool) (hs : 0 < s) (ht : Sits t) : Sits (.vec h s t p)
  | dict (h : BitVec 32) (s : Nat) (k t : Ty) (p : Bool) (hs : 0 < s) (hk : Sits k) (ht : Sits t) : Sits (.dict h s k t p)

end Clr.VBin
