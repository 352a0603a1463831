import Verif.Model.VBinCustom

/-!
Custom functions of fields in the versioned binary, at any depth: the attributes `save_vbin` and `load_vbin` of the fields of every class
that is saved or loaded, src/clReflectUtil/SerialiseVersionedBinary.cpp:232-336 and 463-613.

This is `Verif/Model/VBin.lean` with the custom functions of `Verif/Model/VBinCustom.lean`, for the fields of classes wherever they are: in
fields, in containers and in C arrays.

Simplifications:
* functions are looked up by the name of the class that has the field, and the field, not in the field's attributes;
* a saving function appends bytes to the buffer and does nothing else to it.
-/
namespace Clr.VBin
open Clr.JSON (Ty Flds Tys Mem FldInfo Const Env strideOf findOwn arrayItems)

/-- A field, with the hash of the name of the class that has it. -/
abbrev Owned := BitVec 32 × FldInfo × Ty

/-- The functions a program has given for fields of classes: those of the attribute `save_vbin` (which are passed the buffer, the object
and the field, and append bytes), and those of `load_vbin` (which are passed the same). -/
structure Functions where
  save : BitVec 32 → FldInfo → Option (Mem → Nat → Nat → Bytes)
  load : BitVec 32 → FldInfo → Option (Nat → Nat → Load Unit)

/-! ### Saving -/

mutual
/-- `SaveObject`, SerialiseVersionedBinary.cpp:306-336, as in `saveObject`. -/
def saveObjectH (fn : Functions) (e : Env) (m : Mem) : Ty → Save
  | .prim _ s, a, out => .ok (out ++ m.read a s)
  | .enum _ s cs _, a, out =>
    if s < 4 then .ub else .ok (out ++ le 4 (enumHash cs (BitVec.ofNat 32 (unle (m.read a 4)))).toNat)
  | .cls h _ fl fs bs, a, out =>
    if e.skips fl then .ok out
    else do
      let out ← saveFieldsH fn e m h fs a out
      saveBasesH fn e m bs a out
  | .tmpl _ _ _, _, out => .ok (out ++ le 4 0 ++ le 4 0 ++ le 4 0 ++ le 4 0 ++ le 4 0)
  | .vec _ _ t p, a, out =>
    saveItems none (saveObjectH fn e m t) (valueTypeSize t p == 0) p (m.elems a)
      (out ++ containerHeader (m.elems a).length none t p)
  | .dict _ _ k t p, a, out =>
    saveItems (some (saveObjectH fn e m k)) (saveObjectH fn e m t) (valueTypeSize t p == 0) p (m.elems a)
      (out ++ containerHeader (m.elems a).length (some k) t p)

/-- The fields of the class `o`, SerialiseVersionedBinary.cpp:282-289, with `SaveClassField` (240-272) and `SaveFieldArray` (232-238): a
field's function writes what is in its chunk. -/
def saveFieldsH (fn : Functions) (e : Env) (m : Mem) (o : BitVec 32) : Flds → Save
  | .nil, _, out => .ok out
  | .cons f t r, a, out => do
    let out ← if e.skips f.flags then .ok out
      else chunk t.hash (Hash.hashText f.name) (fun out =>
        match fn.save o f with
        | some g => .ok (out ++ g m a (a + f.offset))
        | none =>
          match f.count with
          | some n =>
            if 0 < n ∧ strideOf t f.isPtr = 0 then .trap
            else saveItems none (saveObjectH fn e m t) (valueTypeSize t f.isPtr == 0) f.isPtr
              (arrayItems (a + f.offset) n (strideOf t f.isPtr)) (out ++ containerHeader n none t f.isPtr)
          | none => saveObjectH fn e m t (a + f.offset) out) out
    saveFieldsH fn e m o r a out

/-- The base types, SerialiseVersionedBinary.cpp:291-296. -/
def saveBasesH (fn : Functions) (e : Env) (m : Mem) : Tys → Save
  | .nil, _, out => .ok out
  | .cons t r, a, out => do
    let out ← if isClass t then saveObjectH fn e m t a out else .trap
    saveBasesH fn e m r a out
end

/-- `SaveVersionedBinary`, SerialiseVersionedBinary.cpp:616-620. -/
def saveH (fn : Functions) (e : Env) (m : Mem) (t : Ty) (a : Nat) (out : Bytes) : Res Bytes :=
  chunk t.hash 0 (saveObjectH fn e m t a) out

/-! ### Loading -/

mutual
/-- `FindFieldsRecursive`, SerialiseVersionedBinary.cpp:471-489, as in `findField`; the field comes with the class that has it. -/
def findOwner (hash : Nat) : Ty → Res (Option Owned)
  | .cls h _ _ fs bs =>
    match findOwn (BitVec.ofNat 32 hash) fs with
    | some r => .ok (some (h, r))
    | none => findOwnerBases hash bs
  | .prim .. => .trap
  | .enum .. => .trap
  | .tmpl .. => .trap
  | .vec .. => .trap
  | .dict .. => .trap

/-- The loop over the base types. -/
def findOwnerBases (hash : Nat) : Tys → Res (Option Owned)
  | .nil => .ok none
  | .cons t r =>
    match findOwner hash t with
    | .ok (some x) => .ok (some x)
    | .ok none => findOwnerBases hash r
    | x => x
end

/-- The end of `LoadClassField`, SerialiseVersionedBinary.cpp:501-541: a chunk with so many bytes, of the type with the hash, is loaded into
the field by its function, or without one. -/
def loadDataH (fn : Functions) (lo : LoadObj) (x : Owned) (b dataSize typeHash : Nat) : Load Unit :=
  match fn.load x.1 x.2.1 with
  | some g => loadCustom g b (b + x.2.1.offset) dataSize
  | none =>
    match x.2.1.count with
    | some n => loadContainer lo (arrWriter x.2.1 x.2.2 n b) dataSize n
    | none => lo x.2.2 (b + x.2.1.offset) dataSize typeHash

/-- `LoadClassField`, SerialiseVersionedBinary.cpp:491-542. -/
def loadFieldH (fn : Functions) (e : Env) (lo : LoadObj) (ct : Ty) (b : Nat) : Load Unit := do
  let h ← readChunk
  match findOwner h.2.1 ct with
  | .ok (some x) =>
    if e.skips x.2.1.flags then seekRel h.2.2 else loadDataH fn lo x b h.2.2 h.1
  | .ok none => seekRel h.2.2
  | _ => Load.halt .trap

/-- The dispatch of `LoadObject` (592-612), as in `loadBody`. -/
def loadBodyH (fn : Functions) (e : Env) (lo : LoadObj) (n : Nat) (t : Ty) (b dataSize : Nat) : Load Unit :=
  match t with
  | .prim _ s => loadType s b dataSize
  | .enum _ s cs _ => loadEnum s cs b dataSize
  | .cls h s fl fs bs => do
    let p ← bytesRead
    classLoop (loadFieldH fn e lo (.cls h s fl fs bs) b) ((p + dataSize) % 2 ^ 32) n
  | .tmpl _ _ _ => loadNoContainer
  | .vec _ _ v p => do
    let count ← peekCount
    store fun m => m.setElems b []
    loadContainer lo { key := none, val := v, isPtr := p, place := .cont b } dataSize count
  | .dict _ _ k v p => do
    let count ← peekCount
    store fun m => m.setElems b []
    loadContainer lo { key := some k, val := v, isPtr := p, place := .cont b } dataSize count

/-- `LoadObject`, SerialiseVersionedBinary.cpp:581-613, in at most so many nested calls and fields of a class. -/
def loadObjectH (fn : Functions) (e : Env) : Nat → LoadObj
  | 0, _, _, _, _ => Load.halt .fuel
  | n + 1, t, b, dataSize, typeHash =>
    if typeHash ≠ t.hash.toNat then seekRel dataSize else loadBodyH fn e (loadObjectH fn e n) n t b dataSize

/-- `LoadVersionedBinary`, SerialiseVersionedBinary.cpp:622-628. -/
def loadH (fn : Functions) (e : Env) (n : Nat) (t : Ty) (b : Nat) : Load Unit := do
  let h ← readChunk
  loadObjectH fn e n t b h.2.2 h.1

end Clr.VBin
