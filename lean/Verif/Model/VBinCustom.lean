import Verif.Model.VBin

/-!
Custom functions of fields in the versioned binary: the attributes `save_vbin` and `load_vbin`,
src/clReflectUtil/SerialiseVersionedBinary.cpp:249-260 and 503-531.

A field's attributes name functions of the program that write and read the field.  What such a function does is not known;
it is a parameter here (`Custom`).  Everything else is that of `Verif/Model/VBin.lean`.

Simplifications:
* functions are looked up by the hash of the field's name, not in the field's attributes;
* only the fields of the class that is saved or loaded, and of its bases, have custom functions: classes inside it (fields
  and elements of class type) have none;
* a saving function appends bytes to the buffer and does nothing else to it.
-/
namespace Clr.VBin
open Clr.JSON (Ty Flds Tys Mem FldInfo Const Env strideOf findOwn arrayItems)

/-- The functions a program has given for fields: those of the attribute `save_vbin` (which are passed the buffer, the object
and the field, and append bytes), and those of `load_vbin` (which are passed the same). -/
structure Custom where
  save : BitVec 32 → Option (Mem → Nat → Nat → Bytes)
  load : BitVec 32 → Option (Nat → Nat → Load Unit)

/-! ### Saving -/

/-- The end of `SaveClassField` for a field without a function, SerialiseVersionedBinary.cpp:262-271; as in `saveFields`. -/
def saveCell (e : Env) (m : Mem) (f : FldInfo) (t : Ty) : Save := fun a out =>
  match f.count with
  | some n =>
    if 0 < n ∧ strideOf t f.isPtr = 0 then .trap
    else saveItems none (saveObject e m t) (valueTypeSize t f.isPtr == 0) f.isPtr
      (arrayItems (a + f.offset) n (strideOf t f.isPtr)) (out ++ containerHeader n none t f.isPtr)
  | none => saveObject e m t (a + f.offset) out

/-- What `SaveClassField` writes into the chunk, SerialiseVersionedBinary.cpp:249-271. -/
def saveData (cu : Custom) (e : Env) (m : Mem) (f : FldInfo) (t : Ty) : Save := fun a out =>
  match cu.save (Hash.hashText f.name) with
  | some g => .ok (out ++ g m a (a + f.offset))
  | none => saveCell e m f t a out

/-- The fields, SerialiseVersionedBinary.cpp:282-289, with `SaveClassField` (240-272). -/
def saveFieldsC (cu : Custom) (e : Env) (m : Mem) : Flds → Save
  | .nil, _, out => .ok out
  | .cons f t r, a, out => do
    let out ← if e.skips f.flags then .ok out
      else chunk t.hash (Hash.hashText f.name) (saveData cu e m f t a) out
    saveFieldsC cu e m r a out

mutual
/-- `SaveClass`, SerialiseVersionedBinary.cpp:274-297; `AsClass` asserts for other types. -/
def saveClassC (cu : Custom) (e : Env) (m : Mem) : Ty → Save
  | .cls _ _ fl fs bs, a, out =>
    if e.skips fl then .ok out
    else do
      let out ← saveFieldsC cu e m fs a out
      saveBasesC cu e m bs a out
  | .prim .., _, _ => .trap
  | .enum .., _, _ => .trap
  | .tmpl .., _, _ => .trap
  | .vec .., _, _ => .trap
  | .dict .., _, _ => .trap

/-- The base types, SerialiseVersionedBinary.cpp:291-296. -/
def saveBasesC (cu : Custom) (e : Env) (m : Mem) : Tys → Save
  | .nil, _, out => .ok out
  | .cons t r, a, out => do
    let out ← saveClassC cu e m t a out
    saveBasesC cu e m r a out
end

/-- `SaveVersionedBinary`, SerialiseVersionedBinary.cpp:616-620, for a class. -/
def saveC (cu : Custom) (e : Env) (m : Mem) (t : Ty) (a : Nat) (out : Bytes) : Res Bytes :=
  chunk t.hash 0 (saveClassC cu e m t a) out

/-! ### Loading -/

/-- `ReadBuffer::SeekRel`, Serialise.cpp:137-141, for any `int`; `seekRel n` is `seekBy (asInt n)`. -/
def seekBy (k : Int) : Load Unit := fun s =>
  if s.pos + k ≤ s.data.length then .ok () { s with pos := s.pos + k, back := s.back || decide (k < 0) }
  else .stop .trap s

/-- The custom function of a field, SerialiseVersionedBinary.cpp:510-529: it is called and the position is corrected. -/
def loadCustom (f : Nat → Nat → Load Unit) (object field dataSize : Nat) : Load Unit := do
  let start ← bytesRead
  let endPos := asInt ((start + dataSize) % 2 ^ 32)
  f object field
  let now ← bytesRead
  let position := asInt now
  if position < endPos then seekBy (endPos - position)
  else if position > endPos then seekBy (endPos - position)
  else pure ()

/-- `LoadClassField`, SerialiseVersionedBinary.cpp:491-542. -/
def loadFieldC (cu : Custom) (e : Env) (lo : LoadObj) (ct : Ty) (b : Nat) : Load Unit := do
  let h ← readChunk
  match findField h.2.1 ct with
  | .ok (some (f, t)) =>
    if e.skips f.flags then seekRel h.2.2
    else
      match cu.load (Hash.hashText f.name) with
      | some g => loadCustom g b (b + f.offset) h.2.2
      | none =>
        match f.count with
        | some n => loadContainer lo (arrWriter f t n b) h.2.2 n
        | none => lo t (b + f.offset) h.2.2 h.1
  | .ok none => seekRel h.2.2
  | _ => Load.halt .trap

/-- `LoadVersionedBinary`, SerialiseVersionedBinary.cpp:622-628, with `LoadObject` (581-613) and `LoadClass` (546-568), for a
class. -/
def loadC (cu : Custom) (e : Env) (n : Nat) (t : Ty) (b : Nat) : Load Unit := do
  let h ← readChunk
  if h.1 ≠ t.hash.toNat then seekRel h.2.2
  else do
    let p ← bytesRead
    classLoop (loadFieldC cu e (loadObject e n) t b) ((p + h.2.2) % 2 ^ 32) n

end Clr.VBin
