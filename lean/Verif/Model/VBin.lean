import Verif.Model.JSON

/-!
Model of the versioned binary serialiser, src/clReflectUtil/SerialiseVersionedBinary.cpp.

Types, fields and memory are those of the JSON model (`Verif/Model/JSON.lean`).  `Env.transient` is
`attrFlag_Transient` here; the other members of `Env` are not used.

Simplifications:
* fields with the attributes `save_vbin` and `load_vbin` (which call user functions) are not modelled;
* a registered container is a template type (`KIND_TEMPLATE_TYPE` with `ci`), not a class;
* the write buffer is a list of bytes (see `Verif/Model/WriteBuffer.lean`), shorter than 2^32 bytes so that no
  offset is 0xFFFFFFFF;
* types are finite trees: a class does not contain containers of itself.
-/
namespace Clr.VBin
open Clr.JSON (Ty Flds Tys Mem FldInfo Const Env strideOf findOwn arrayItems)

/-! ### Saving -/

/-- `SizeBackPatcher::Patch`, SerialiseVersionedBinary.cpp:61-71. -/
def patch (out : Bytes) (offset : Nat) : Bytes :=
  out.take offset ++ le 4 (out.length - (offset + 4)) ++ out.drop (offset + 4)

/-- `SizeBackPatcher::Mark` (53-59), what is written, and `Patch`; or nothing of both when the size
is not wanted. -/
def withSize (sized : Bool) (body : Bytes → Res Bytes) (out : Bytes) : Res Bytes :=
  if sized then do
    let r ← body (out ++ le 4 0)
    .ok (patch r out.length)
  else body out

/-- `kind == KIND_CLASS`. -/
def isClass : Ty → Bool
  | .cls .. => true
  | _ => false

/-- `valueTypeSize`, SerialiseVersionedBinary.cpp:115-129. -/
def valueTypeSize (t : Ty) (isPtr : Bool) : Nat :=
  if isPtr then 8 else if t.hash = 0 ∨ isClass t = true then 0 else t.size

/-- The hash and the size of the key's type, or zeros, SerialiseVersionedBinary.cpp:110-111. -/
def keyInfo : Option Ty → Nat × Nat
  | none => (0, 0)
  | some k => (k.hash.toNat, k.size)

/-- The bytes of `ContainerChunkHeader`, SerialiseVersionedBinary.cpp:108-137. -/
def containerHeader (count : Nat) (key : Option Ty) (t : Ty) (isPtr : Bool) : Bytes :=
  le 4 count ++ le 4 (keyInfo key).1 ++ le 4 (keyInfo key).2 ++ le 4 t.hash.toNat ++ le 4 (valueTypeSize t isPtr)

/-- The hash `SaveEnum` writes (166-186): that of the first constant with the value, or zero. -/
def enumHash (constants : List Const) (value : BitVec 32) : BitVec 32 :=
  match constants.find? (fun c => c.value == value) with
  | some c => Hash.hashText c.name
  | none => 0

/-- Save a value or a key. -/
abbrev Save := Nat → Bytes → Res Bytes

/-- The loop of `SaveContainer`, SerialiseVersionedBinary.cpp:193-229, over the addresses of the keys and values. -/
def saveItems (key : Option Save) (value : Save) (sized isPtr : Bool) : List (Nat × Nat) → Bytes → Res Bytes
  | [], out => .ok out
  | (k, v) :: rest, out => do
    let out ← match key with
      | some f => f k out
      | none => .ok out
    let out ← withSize sized (fun out => if isPtr then .ok out else value v out) out
    saveItems key value sized isPtr rest out

/-- `ChunkHeaderWriter` (77-99) around what is written. -/
def chunk (typeHash nameHash : BitVec 32) (body : Bytes → Res Bytes) (out : Bytes) : Res Bytes :=
  withSize true body (out ++ le 4 typeHash.toNat ++ le 4 nameHash.toNat)

mutual
/-- `SaveObject`, SerialiseVersionedBinary.cpp:306-336, with `SaveType` (161-164), `SaveEnum` (166-186, which reads four bytes
whatever the size of the enum), `SaveClass` (274-297) and `SaveContainer` (188-230, 299-304).  A template type that is
not a container leaves the iterator as it was constructed (Containers.cpp, `Initialise`): no elements and
null types. -/
def saveObject (e : Env) (m : Mem) : Ty → Save
  | .prim _ s, a, out => .ok (out ++ m.read a s)
  | .enum _ s cs _, a, out =>
    if s < 4 then .ub else .ok (out ++ le 4 (enumHash cs (BitVec.ofNat 32 (unle (m.read a 4)))).toNat)
  | .cls _ _ fl fs bs, a, out =>
    if e.skips fl then .ok out
    else do
      let out ← saveFields e m fs a out
      saveBases e m bs a out
  | .tmpl _ _ _, _, out => .ok (out ++ le 4 0 ++ le 4 0 ++ le 4 0 ++ le 4 0 ++ le 4 0)
  | .vec _ _ t p, a, out =>
    saveItems none (saveObject e m t) (valueTypeSize t p == 0) p (m.elems a)
      (out ++ containerHeader (m.elems a).length none t p)
  | .dict _ _ k t p, a, out =>
    saveItems (some (saveObject e m k)) (saveObject e m t) (valueTypeSize t p == 0) p (m.elems a)
      (out ++ containerHeader (m.elems a).length (some k) t p)

/-- The fields, SerialiseVersionedBinary.cpp:282-289, with `SaveClassField` (240-272) and `SaveFieldArray` (232-238; the
iterator asserts that it is not past the end, Containers.cpp:53-59).  Whether a field is a pointer only matters in an
array. -/
def saveFields (e : Env) (m : Mem) : Flds → Save
  | .nil, _, out => .ok out
  | .cons f t r, a, out => do
    let out ← if e.skips f.flags then .ok out
      else chunk t.hash (Hash.hashText f.name) (fun out =>
        match f.count with
        | some n =>
          if 0 < n ∧ strideOf t f.isPtr = 0 then .trap
          else saveItems none (saveObject e m t) (valueTypeSize t f.isPtr == 0) f.isPtr
            (arrayItems (a + f.offset) n (strideOf t f.isPtr)) (out ++ containerHeader n none t f.isPtr)
        | none => saveObject e m t (a + f.offset) out) out
    saveFields e m r a out

/-- The base types, SerialiseVersionedBinary.cpp:291-296: `AsClass` asserts, and the object's address is the base's. -/
def saveBases (e : Env) (m : Mem) : Tys → Save
  | .nil, _, out => .ok out
  | .cons t r, a, out => do
    let out ← if isClass t then saveObject e m t a out else .trap
    saveBases e m r a out
end

/-- `SaveVersionedBinary`, SerialiseVersionedBinary.cpp:616-620. -/
def save (e : Env) (m : Mem) (t : Ty) (a : Nat) (out : Bytes) : Res Bytes :=
  chunk t.hash 0 (saveObject e m t a) out

/-! ### Loading -/

/-- The read buffer (its bytes and `m_dataRead`, see `Buffer.RBuf`), memory, and whether `SeekRel` has been
given a negative number so far (which the code does not record). -/
structure St where
  data : Bytes
  pos : Int
  mem : Mem
  back : Bool := false

/-- Why loading stops: an assertion, undefined behaviour, reading past the end of the buffer without an
assertion (`PeekCount`), or out of steps. -/
inductive Stop where
  | trap
  | ub
  | over
  | fuel
deriving DecidableEq, Repr

/-- Outcome of a loading function. -/
inductive Out (α : Type) where
  | ok (v : α) (s : St)
  | stop (k : Stop) (s : St)

/-- Loading functions. -/
def Load (α : Type) := St → Out α

namespace Load

/-- Sequence. -/
def bind {α β : Type} (x : Load α) (f : α → Load β) : Load β := fun s =>
  match x s with
  | .ok v s' => f v s'
  | .stop k s' => .stop k s'

instance : Monad Load where
  pure v := fun s => .ok v s
  bind := bind

/-- Stop. -/
def halt {α : Type} (k : Stop) : Load α := fun s => .stop k s

end Load

/-- `ReadBuffer::Read`, Serialise.cpp:123-129: asserts the upper bound only. -/
def read (n : Nat) : Load Bytes := fun s =>
  if s.pos + n ≤ s.data.length then
    if 0 ≤ s.pos then .ok ((s.data.drop s.pos.toNat).take n) { s with pos := s.pos + n }
    else if n = 0 then .ok [] s else .stop .ub s
  else .stop .trap s

/-- Read an `unsigned int`. -/
def readU32 : Load Nat := do
  let b ← read 4
  pure (unle b)

/-- An `unsigned int` taken as an `int`. -/
def asInt (n : Nat) : Int := if n < 2 ^ 31 then n else (n : Int) - 2 ^ 32

/-- `ReadBuffer::SeekRel`, Serialise.cpp:137-141: asserts the upper bound only.  The argument is an `int`. -/
def seekRel (n : Nat) : Load Unit := fun s =>
  if s.pos + asInt n ≤ s.data.length then
    .ok () { s with pos := s.pos + asInt n, back := s.back || decide (asInt n < 0) }
  else .stop .trap s

/-- `ReadBuffer::GetBytesRead`, inc/clutl/Serialise.h:89-92. -/
def bytesRead : Load Nat := fun s => .ok (s.pos % 2 ^ 32).toNat s

/-- `ContainerChunkHeader::PeekCount`, SerialiseVersionedBinary.cpp:103-106: `ReadAt` asserts that the position is not
past the end, and four bytes are read from it. -/
def peekCount : Load Nat := fun s =>
  let p := (s.pos % 2 ^ 32).toNat
  if p ≤ s.data.length then
    if p + 4 ≤ s.data.length then .ok (unle ((s.data.drop p).take 4)) s else .stop .over s
  else .stop .trap s

/-- `ContainerChunkHeader`. -/
structure Header where
  count : Nat
  keyHash : Nat
  keySize : Nat
  valueHash : Nat
  valueSize : Nat

/-- `ContainerChunkHeader(ReadBuffer&)`, SerialiseVersionedBinary.cpp:139-147. -/
def readHeader : Load Header := do
  let count ← readU32
  let keyHash ← readU32
  let keySize ← readU32
  let valueHash ← readU32
  let valueSize ← readU32
  pure { count, keyHash, keySize, valueHash, valueSize }

/-- Change memory. -/
def store (f : Mem → Mem) : Load Unit := fun s => .ok () { s with mem := f s.mem }

/-- `LoadType`, SerialiseVersionedBinary.cpp:338-348. -/
def loadType (size b dataSize : Nat) : Load Unit :=
  if size ≠ dataSize then seekRel dataSize
  else do
    let bs ← read size
    store fun m => m.write b bs

/-- `LoadEnum`, SerialiseVersionedBinary.cpp:350-370: an `int` is stored whatever the size of the enum. -/
def loadEnum (size : Nat) (constants : List Const) (b dataSize : Nat) : Load Unit :=
  if size ≠ dataSize then seekRel dataSize
  else do
    let h ← readU32
    match constants.find? (fun c => (Hash.hashText c.name).toNat == h) with
    | some c => if size < 4 then Load.halt .ub else store fun m => m.write b (le 4 c.value.toNat)
    | none => pure ()

/-- A `WriteIterator` in use: the key's type, the values' type, and where the elements go: a C array (base
address, size and position in bytes) or a container at an address. -/
inductive Place where
  | arr (base limit pos : Nat)
  | cont (addr : Nat)

/-- A `WriteIterator`. -/
structure Writer where
  key : Option Ty
  val : Ty
  isPtr : Bool
  place : Place

/-- `LoadObject` as a parameter: type, address, `data_size` and `type_hash`. -/
abbrev LoadObj := Ty → Nat → Nat → Nat → Load Unit

/-- `AddEmpty()`: Containers.cpp:112-118 for a C array, appending for a container. -/
def addEmpty (w : Writer) : Load (Nat × Writer) := fun s =>
  match w.place with
  | .arr base limit pos =>
    if pos < limit then .ok (base + pos, { w with place := .arr base limit (pos + strideOf w.val w.isPtr) }) s
    else .stop .trap s
  | .cont addr =>
    let r := s.mem.alloc (strideOf w.val w.isPtr)
    .ok (r.1, w) { s with mem := r.2.setElems addr (s.mem.elems addr ++ [(0, r.1)]) }

/-- SerialiseVersionedBinary.cpp:407: `char key_data[128]` on the stack, holding whatever it holds. -/
def keyData : Load Nat := fun s => .ok (s.mem.alloc 128).1 { s with mem := (s.mem.alloc 128).2 }

/-- SerialiseVersionedBinary.cpp:411: `AddEmpty(key)` copies the key and makes room for its value. -/
def addEmptyKey (w : Writer) (k : Ty) (key : Nat) : Load (Nat × Writer) := fun s =>
  match w.place with
  | .arr .. => addEmpty w s
  | .cont addr =>
    let r := Clr.JSON.addKey s.mem addr key k w.val w.isPtr
    .ok (r.1, w) { s with mem := r.2 }

/-- SerialiseVersionedBinary.cpp:402-411: the key is loaded into 128 bytes of stack memory and copied by `AddEmpty(key)`. -/
def addKeyed (lo : LoadObj) (h : Header) (k : Ty) (w : Writer) : Load (Nat × Writer) :=
  if k.size < 128 then do
    let key ← keyData
    lo k key h.keySize h.keyHash
    addEmptyKey w k key
  else Load.halt .trap

/-- SerialiseVersionedBinary.cpp:418-422: a size of zero means that each value has its own. -/
def readSize (n : Nat) : Load Nat := if n = 0 then readU32 else pure n

/-- SerialiseVersionedBinary.cpp:424-436: nothing is read for pointers. -/
def loadValue (lo : LoadObj) (w : Writer) (v size : Nat) : Load Unit :=
  if w.isPtr then pure () else lo w.val v size w.val.hash.toNat

/-- `AddEmpty` with or without a key. -/
def addElem (lo : LoadObj) (h : Header) (w : Writer) : Load (Nat × Writer) :=
  match w.key with
  | some k => addKeyed lo h k w
  | none => addEmpty w

/-- The loop of `LoadContainer`, SerialiseVersionedBinary.cpp:399-437. -/
def loadItems (lo : LoadObj) (h : Header) : Nat → Writer → Load Unit
  | 0, _ => pure ()
  | n + 1, w => do
    let r ← addElem lo h w
    let size ← readSize h.valueSize
    loadValue lo w r.1 size
    loadItems lo h n r.2

/-- `LoadContainer`, SerialiseVersionedBinary.cpp:372-461. -/
def loadContainer (lo : LoadObj) (w : Writer) (dataSize expected : Nat) : Load Unit := do
  let start ← bytesRead
  let h ← readHeader
  let count := if expected < h.count then expected else h.count
  if h.valueHash ≠ 0 ∧ h.valueHash ≠ w.val.hash.toNat then seekRel dataSize
  else do
    loadItems lo h count w
    let now ← bytesRead
    let left := (start + dataSize + (2 ^ 32 - now)) % 2 ^ 32
    if 0 < asInt left ∧ h.count ≠ count then seekRel left else pure ()

/-- `LoadContainer` for a template type that is not a container: the iterator is as it was constructed, its types
null. -/
def loadNoContainer : Load Unit := do
  let _ ← peekCount
  let h ← readHeader
  if h.valueHash ≠ 0 ∨ 0 < h.count then Load.halt .ub else pure ()

mutual
/-- `FindFieldsRecursive`, SerialiseVersionedBinary.cpp:471-489, for a type on which `AsClass` is called. -/
def findField (hash : Nat) : Ty → Res (Option (FldInfo × Ty))
  | .cls _ _ _ fs bs =>
    match findOwn (BitVec.ofNat 32 hash) fs with
    | some r => .ok (some r)
    | none => findBases hash bs
  | _ => .trap

/-- The loop over the base types. -/
def findBases (hash : Nat) : Tys → Res (Option (FldInfo × Ty))
  | .nil => .ok none
  | .cons t r =>
    match findField hash t with
    | .ok (some x) => .ok (some x)
    | .ok none => findBases hash r
    | x => x
end

/-- `ChunkHeader(ReadBuffer&)`, SerialiseVersionedBinary.cpp:27-35: type hash, name hash and size. -/
def readChunk : Load (Nat × Nat × Nat) := do
  let t ← readU32
  let n ← readU32
  let d ← readU32
  pure (t, n, d)

/-- The iterator for a C array, Containers.cpp:86-110. -/
def arrWriter (f : FldInfo) (t : Ty) (n b : Nat) : Writer :=
  { key := none, val := t, isPtr := f.isPtr, place := .arr (b + f.offset) (n * strideOf t f.isPtr) 0 }

/-- `LoadClassField`, SerialiseVersionedBinary.cpp:491-542, with `LoadFieldArray` (463-469). -/
def loadField (e : Env) (lo : LoadObj) (ct : Ty) (b : Nat) : Load Unit := do
  let h ← readChunk
  match findField h.2.1 ct with
  | .ok (some (f, t)) =>
    if e.skips f.flags then seekRel h.2.2
    else
      match f.count with
      | some n =>
        loadContainer lo (arrWriter f t n b) h.2.2 n
      | none => lo t (b + f.offset) h.2.2 h.1
  | .ok none => seekRel h.2.2
  | _ => Load.halt .trap

/-- The loop of `LoadClass`, SerialiseVersionedBinary.cpp:556-560. -/
def classLoop (field : Load Unit) (endPos : Nat) : Nat → Load Unit
  | 0 => Load.halt .fuel
  | n + 1 => do
    let p ← bytesRead
    if p < endPos then do
      field
      classLoop field endPos n
    else pure ()

/-- The dispatch of `LoadObject` (592-612), with `LoadClass` (546-568, in at most so many fields) and `LoadContainer`
(570-579). -/
def loadBody (e : Env) (lo : LoadObj) (n : Nat) (t : Ty) (b dataSize : Nat) : Load Unit :=
  match t with
  | .prim _ s => loadType s b dataSize
  | .enum _ s cs _ => loadEnum s cs b dataSize
  | .cls h s fl fs bs => do
    let p ← bytesRead
    classLoop (loadField e lo (.cls h s fl fs bs) b) ((p + dataSize) % 2 ^ 32) n
  | .tmpl _ _ _ => loadNoContainer
  | .vec _ _ v p => do
    let count ← peekCount
    store fun m => m.setElems b []
    loadContainer lo { key := none, val := v, isPtr := p, place := .cont b } dataSize count
  | .dict _ _ k v p => do
    let count ← peekCount
    store fun m => m.setElems b []
    loadContainer lo { key := some k, val := v, isPtr := p, place := .cont b } dataSize count

/-- `LoadObject`, SerialiseVersionedBinary.cpp:581-613, in at most so many nested calls and fields of a class. -/
def loadObject (e : Env) : Nat → LoadObj
  | 0, _, _, _, _ => Load.halt .fuel
  | n + 1, t, b, dataSize, typeHash =>
    if typeHash ≠ t.hash.toNat then seekRel dataSize else loadBody e (loadObject e n) n t b dataSize

/-- `LoadVersionedBinary`, SerialiseVersionedBinary.cpp:622-628. -/
def load (e : Env) (n : Nat) (t : Ty) (b : Nat) : Load Unit := do
  let h ← readChunk
  loadObject e n t b h.2.2 h.1

end Clr.VBin
