import Verif.Model.LE
/-
The memory-mapped database: pointer relocation on export, the file, and loading it at another address.

The image is the list of its bytes; addresses, sizes and offsets are 64-bit numbers (`CLCPP_USING_64_BIT`,
LP64), kept as `Nat` with the wrap-around written out. Touching an 8-byte slot that is not inside the image
is undefined behaviour (`Res.ub`), a failed `assert`/`internal::Assert` is `Res.trap`.

Not modelled: alignment of the slots, allocation failure, and the temporary memory leaked on the failing
paths of LoadMemoryMappedDatabase.
-/
namespace Clr.Reloc
open Clr

/-- `2^64`, the modulus of `size_t`, `size_type` and `pointer_type` arithmetic. -/
abbrev W64 : Nat := 2 ^ 64

/-- A `for` loop over a list of steps, each of which may fail. -/
def loop (f : σ → α → Res σ) : List α → σ → Res σ
  | [], s => .ok s
  | a :: as, s => (f s a).bind (loop f as)

/-- The number of rounds of `for (int j = 0; j < n; j++)` when `n` is the 32-bit pattern of an `int`. -/
def rounds (n : Nat) : Nat := if n < 2 ^ 31 then n else 0

/-- The 8-byte word at an offset of the image. -/
def word (img : Bytes) (o : Nat) : Option Nat :=
  if o + 8 ≤ img.length then some (unle ((img.drop o).take 8)) else none

/-- The image with the 8-byte word at an offset replaced. -/
def setWord (img : Bytes) (o v : Nat) : Bytes :=
  img.take o ++ le 8 v ++ img.drop (o + 8)

/-- src/clReflectExport/PtrRelocator.h:23-60 PtrSchema: `stride` and `ptr_offsets`; the handle is the
schema's position in the list (PtrRelocator.cpp:36-38). -/
structure Schema where
  stride : Nat
  offsets : List Nat
deriving DecidableEq, Repr, Inhabited

/-- src/clReflectExport/PtrRelocator.cpp:29-46 PtrRelocator::AddSchema with the pointer offsets then added
by `operator()` (PtrRelocator.h:33-45): a schema starts with the pointers of its base. -/
def mkSchema (stride : Nat) (base : Option Schema) (own : List Nat) : Schema :=
  { stride, offsets := (match base with | some b => b.offsets | none => []) ++ own }

/-- src/clReflectExport/PtrRelocator.h:65-75 and src/clReflectCpp/clcpp.cpp:34-39 PtrRelocation; `handle` and
`count` are the 32-bit patterns of `int`s. -/
structure Rel where
  handle : Nat
  offset : Nat
  count : Nat
deriving DecidableEq, Repr, Inhabited

/-- src/clReflectExport/PtrRelocator.cpp:48-59 PtrRelocator::AddPointers. -/
def addPointers (start handle data count : Nat) (rels : List Rel) : List Rel :=
  if data = 0 then rels else rels ++ [⟨handle, (data + W64 - start) % W64, count⟩]

/-- src/clReflectExport/PtrRelocator.cpp:75-87: one pointer made relative to the start of the image. -/
def relSlot (start size : Nat) (img : Bytes) (slot : Nat) : Res Bytes :=
  match word img slot with
  | none => .ub
  | some p =>
    if p = 0 then .ok img
    else
      let d := (p + W64 - start) % W64
      if d ≤ size then .ok (setWord img slot d) else .trap

/-- src/clReflectExport/PtrRelocator.cpp:61-90 PtrRelocator::MakeRelative; `ptr_offset` is an `unsigned int`,
so the slot's offset is cut to 32 bits. -/
def makeRelative (start : Nat) (schemas : List Schema) (rels : List Rel) (img : Bytes) : Res Bytes :=
  loop (fun img (r : Rel) =>
    match schemas[r.handle]? with
    | none => .ub
    | some s =>
      loop (fun img j =>
        loop (fun img o => relSlot start img.length img ((r.offset + j * s.stride + o) % 2 ^ 32))
          s.offsets img)
        (List.range (rounds r.count)) img)
    rels img

/-- src/clReflectCpp/clcpp.cpp:702-711 the `DatabaseFileHeader` constructor: `'pclc'`. -/
def signature0 : Nat := 0x70636C63

/-- src/clReflectCpp/clcpp.cpp:704 `'\0bdp'`. -/
def signature1 : Nat := 0x00626470

/-- src/clReflectCpp/clcpp.cpp:705 -/
def version : Nat := 2

/-- src/clReflectExport/CppExport.cpp:1433-1443: the header written in front of the image. -/
def headerBytes (nbSchemas nbOffsets nbRels size : Nat) : Bytes :=
  le 4 signature0 ++ (le 4 signature1 ++ (le 4 version ++ (le 4 nbSchemas ++ (le 4 nbOffsets ++
    (le 4 nbRels ++ le 8 size)))))

/-- src/clReflectExport/CppExport.cpp:1448-1459: stride, position of the first offset and number of offsets
of each schema. -/
def schemaBytes : Nat → List Schema → Bytes
  | _, [] => []
  | at', s :: ss => (le 8 s.stride ++ (le 8 at' ++ le 8 s.offsets.length)) ++ schemaBytes (at' + s.offsets.length) ss

/-- src/clReflectExport/CppExport.cpp:1461-1466. -/
def offsetBytes (ss : List Schema) : Bytes :=
  (ss.flatMap (·.offsets)).flatMap (le 8)

/-- src/clReflectExport/CppExport.cpp:1468-1469: the relocations as they lie in memory; `pad` gives the bytes
of the two 4-byte holes in the structure. -/
def relBytes (pad : Nat → Bytes) (r : Rel) : Bytes :=
  le 4 r.handle ++ (pad 0 ++ (le 8 r.offset ++ (le 4 r.count ++ pad 1)))

/-- src/clReflectExport/CppExport.cpp:1415-1472 SaveCppExport from the opened file on. `front()` of an empty
vector is undefined. -/
def saveFile (pad : Nat → Bytes) (schemas : List Schema) (rels : List Rel) (img : Bytes) : Res Bytes :=
  if rels = [] ∨ schemas.any (fun s => s.offsets.isEmpty) then .ub
  else .ok (headerBytes schemas.length (schemas.flatMap (·.offsets)).length rels.length img.length ++
    (img ++ (schemaBytes 0 schemas ++ (offsetBytes schemas ++ rels.flatMap (relBytes pad)))))

/-- src/clReflectCpp/clcpp.cpp:27-32 PtrSchema as it is read back. -/
structure LSchema where
  stride : Nat
  at' : Nat
  count : Nat
deriving DecidableEq, Repr

/-- An integer of `w` bytes at an offset of a byte string. -/
def num (bs : Bytes) (o w : Nat) : Nat := unle ((bs.drop o).take w)

/-- The layout of `LSchema`: three 64-bit numbers. -/
def parseSchema (bs : Bytes) : LSchema := ⟨num bs 0 8, num bs 8 8, num bs 16 8⟩

/-- The layout of `PtrRelocation`: 4 bytes, a hole, 8 bytes, 4 bytes, a hole. -/
def parseRel (bs : Bytes) : Rel := ⟨num bs 0 4, num bs 8 8, num bs 16 4⟩

/-- The entries of a byte string made of entries of `w` bytes. -/
def entries (w : Nat) (f : Bytes → α) : Nat → Bytes → List α
  | 0, _ => []
  | n + 1, bs => f (bs.take w) :: entries w f n (bs.drop w)

/-- src/clReflectCpp/clcpp.cpp:180-195 ReadArray: `none` when the file is too short. -/
def readArray (w : Nat) (f : Bytes → α) (n : Nat) (file : Bytes) : Option (List α × Bytes) :=
  (takeN (n * w) file).map (fun p => (entries w f n p.1, p.2))

/-- src/clReflectCpp/clcpp.cpp:246-253: one pointer of the loaded image. -/
def patchSlot (base size : Nat) (img : Bytes) (slot : Nat) : Res Bytes :=
  match word img slot with
  | none => .ub
  | some p =>
    if size < p then .trap
    else if p = 0 then .ok img
    else .ok (setWord img slot ((p + base) % W64))

/-- src/clReflectCpp/clcpp.cpp:228-256: one relocation instruction. The indexing operators assert
(inc/clcpp/clcpp.h:437-446) and take an `unsigned int`; the weak array over the schema's offsets is as long
as the schema says, so its entries may lie behind the end of the offsets read. -/
def patchRel (base size : Nat) (schemas : List LSchema) (offs : List Nat) (img : Bytes) (r : Rel) : Res Bytes :=
  match schemas[r.handle]? with
  | none => .trap
  | some s =>
    if offs.length ≤ s.at' % 2 ^ 32 then .trap
    else
      loop (fun img j =>
        loop (fun img k =>
          if s.count % 2 ^ 32 ≤ k % 2 ^ 32 then .trap
          else match offs[s.at' % 2 ^ 32 + k % 2 ^ 32]? with
            | none => .ub
            | some o => patchSlot base size img (((r.offset + j * s.stride) % W64 + o) % W64))
          (List.range s.count) img)
        (List.range (rounds r.count)) img

/-- src/clReflectCpp/clcpp.cpp:197-267 LoadMemoryMappedDatabase, with the image allocated at `base`. `ok none`:
null is returned. The client's `IFile::Read` succeeds exactly when enough bytes are left. -/
def loadImage (base : Nat) (file : Bytes) : Res (Option Bytes) :=
  match takeN 32 file with
  | none => .ok none
  | some (h, file) =>
    if num h 8 4 ≠ version then .ok none
    else if num h 0 4 ≠ signature0 ∨ num h 4 4 ≠ signature1 then .ok none
    else
      match takeN (num h 24 8) file with
      | none => .ok none
      | some (img, file) =>
        match readArray 24 parseSchema (num h 12 4) file with
        | none => .ok none
        | some (schemas, file) =>
          match readArray 8 unle (num h 16 4) file with
          | none => .ok none
          | some (offs, file) =>
            match readArray 24 parseRel (num h 20 4) file with
            | none => .ok none
            | some (rels, _) =>
              (loop (patchRel base (num h 24 8) schemas offs) (rels.take (rounds (num h 20 4))) img).map some

/-! ## Database::Load -/

/-- inc/clcpp/clcpp_internal.h:11-54: `sizeof(DatabaseMem)`. -/
def memSize : Nat := 616

/-- inc/clcpp/clcpp_internal.h:28 `DatabaseMem::functions`. -/
def functionsAt : Nat := 136

/-- inc/clcpp/clcpp.h:777-806 `sizeof(Function)`. -/
def functionStride : Nat := 120

/-- inc/clcpp/clcpp.h:790 `Function::address`. -/
def addressAt : Nat := 40

/-- inc/clcpp/clcpp.h:605 `Primitive::database`. -/
def databaseAt : Nat := 32

/-- The `size` member of the array at an offset of the image (inc/clcpp/clcpp.h:448). -/
def arraySize (img : Bytes) (o : Nat) : Res Nat :=
  if o + 24 ≤ img.length then .ok (num img o 4) else .ub

/-- The offset in the image of the entries of the array (inc/clcpp/clcpp.h:449). -/
def arrayData (base : Nat) (img : Bytes) (o : Nat) : Nat :=
  (num img (o + 8) 8 + W64 - base) % W64

/-- src/clReflectCpp/clcpp.cpp:274-276: one function. -/
def rebaseSlot (fbase load : Nat) (img : Bytes) (slot : Nat) : Res Bytes :=
  match word img slot with
  | none => .ub
  | some a => if a = 0 then .ok img else .ok (setWord img slot ((a + W64 - fbase + load) % W64))

/-- src/clReflectCpp/clcpp.cpp:269-278 RebaseFunctions. The array's size is
read once, not on every round. -/
def rebaseFunctions (base load : Nat) (img : Bytes) : Res Bytes :=
  (arraySize img functionsAt).bind fun n =>
    loop (fun img i => rebaseSlot (num img 0 8) load img
        (arrayData base img functionsAt + i * functionStride + addressAt)) (List.range n) img

/-- src/clReflectCpp/clcpp.cpp:280-285 ParentPrimitivesToDatabase for the array at `o` with entries of
`stride` bytes: one entry. -/
def parentSlot (database : Nat) (img : Bytes) (slot : Nat) : Res Bytes :=
  match word img slot with
  | none => .ub
  | some _ => .ok (setWord img slot database)

/-- src/clReflectCpp/clcpp.cpp:280-285 ParentPrimitivesToDatabase. The array's size is read once, not on every
round. -/
def parentTo (base database : Nat) (img : Bytes) (arr : Nat × Nat) : Res Bytes :=
  (arraySize img arr.1).bind fun n =>
    loop (fun img i => parentSlot database img (arrayData base img arr.1 + i * arr.2 + databaseAt))
      (List.range n) img

/-- src/clReflectCpp/clcpp.cpp:590-603: the arrays in the order they are visited, with the offset in
`DatabaseMem` (inc/clcpp/clcpp_internal.h:23-46) and the size of an entry (inc/clcpp/clcpp.h:575-870). -/
def primitiveArrays : List (Nat × Nat) :=
  [(40, 80), (64, 48), (88, 136), (112, 104), (136, 120), (160, 248), (184, 64), (208, 136), (232, 184),
   (264, 40), (288, 48), (312, 48), (336, 48), (360, 48)]

/-- src/clReflectCpp/clcpp.cpp:575-608 Database::Load on a database that has not been loaded; `load` is the
module's load address, `database` the address of the `Database`. -/
def load (base loadAddr database : Nat) (dontRebase : Bool) (file : Bytes) : Res (Option Bytes) :=
  (loadImage base file).bind fun
    | none => .ok none
    | some img =>
      ((if dontRebase then .ok img else rebaseFunctions base loadAddr img).bind fun img =>
        loop (parentTo base database) primitiveArrays img).map some

end Clr.Reloc
