import Verif.Model.Database
import Verif.Model.LE
/-
Model of src/clReflectCore/DatabaseBinarySerialiser.cpp and src/clReflectCore/DatabaseMetadata.{h,cpp}:
writing a database in the binary format and reading it back.

Objects are modelled at the level the serialiser works on: a block of memory with a typed cell at each
offset. Offsets are those of a 64-bit build with 32-byte `std::string`s (libstdc++). The one number that
matters for the outcome is a parameter, `vptr`: where the `Primitive` part of the attribute classes starts.
It is 8 in the code as it is, because `Attribute` has a virtual destructor (src/clReflectCore/Database.h:172)
and `Primitive` has none, and it would be 0 without the virtual destructor.

A short `fread` leaves the destination uninitialised: `ub`.
-/
namespace Clr.BinDB
open Clr.DB

/-! ### Memory -/

/-- What lies at an offset of an object: plain bytes, a `Name`, a `std::string`. -/
inductive Cell where
  | basic (b : Bytes)
  | name (n : Name)
  | str (s : Bytes)
deriving DecidableEq, Repr

/-- `FieldType` with the size of basic fields (src/clReflectCore/DatabaseMetadata.h:24-50). -/
inductive FType where
  | basic (size : Nat)
  | name
  | str
deriving DecidableEq, Repr

/-- `FieldTypeTraits::packed_size` (src/clReflectCore/DatabaseMetadata.h:36-50). -/
def FType.packed : FType → Nat
  | .basic n => n
  | .name => 4
  | .str => 4

/-- An object: its cells with their offsets. -/
abbrev Obj := List (Nat × Cell)

/-- The fields of a type in packed order, base class first (`DatabaseType::Base`, `Fields`,
src/clReflectCore/DatabaseMetadata.h:140-162): offset and type. Array fields are listed element by
element, as the `j` loop of `PackTable` visits them (DatabaseBinarySerialiser.cpp:119-133). -/
abbrev Slots := List (Nat × FType)

/-- `DatabaseType::packed_size` (src/clReflectCore/DatabaseMetadata.h:144, 158). -/
def packedSize (s : Slots) : Nat := (s.map (fun x => x.2.packed)).foldl (· + ·) 0

/-- What is at an offset. -/
def cellAt (o : Obj) (off : Nat) : Option Cell := (o.find? (fun c => c.1 == off)).map (·.2)

/-- The characters of a `std::string` up to its first NUL (`c_str()`). -/
def cstr (s : Bytes) : Bytes := s.takeWhile (· != 0)

/-- One copy of `PackTable`: `CopyBasicFields`, `CopyNameToHash`, `CopyStringToHash`
(src/clReflectCore/DatabaseBinarySerialiser.cpp:66-79, 95-105, 122-131). Reading a `Name` or a string
where none lives, or a basic field across other members, is undefined. -/
def packCell (o : Obj) (s : Nat × FType) : Res Bytes :=
  match s.2, cellAt o s.1 with
  | .basic n, some (.basic b) => if b.length = n then .ok b else .ub
  | .name, some (.name x) => .ok (le 4 x.hash.toNat)
  | .str, some (.str t) => .ok (le 4 (hashOf (cstr t)).toNat)
  | _, _ => .ub

/-- `PackTable` (src/clReflectCore/DatabaseBinarySerialiser.cpp:108-136) for one entry. The code goes field
by field over all entries with strides; here entry by entry, which fills the same bytes. -/
def packObj (o : Obj) : Slots → Res Bytes
  | [] => .ok []
  | s :: ss => do
    let b ← packCell o s
    let r ← packObj o ss
    pure (b ++ r)

/-- Replace the cell at an offset. -/
def setCell (o : Obj) (off : Nat) (c : Cell) : Obj := o.map (fun x => if x.1 = off then (x.1, c) else x)

/-- One copy of `UnpackTable`: `CopyBasicFields`, `CopyHashToName`, `CopyHashToString`
(src/clReflectCore/DatabaseBinarySerialiser.cpp:280-293, 310-319). -/
def unpackCell (names : List Name) (texts : List (UInt32 × Bytes)) (o : Obj) (s : Nat × FType) (b : Bytes) : Res Obj :=
  match s.2, cellAt o s.1 with
  | .basic _, some (.basic _) => .ok (setCell o s.1 (.basic b))
  | .name, some (.name _) => .ok (setCell o s.1 (.name (getNameByHash names (UInt32.ofNat (unle b)))))
  | .str, some (.str _) =>
    .ok (setCell o s.1 (.str (((texts.find? (fun t => t.1 == UInt32.ofNat (unle b))).map (·.2)).getD [])))
  | _, _ => .ub

/-- `UnpackTable` (src/clReflectCore/DatabaseBinarySerialiser.cpp:296-324) for one entry. -/
def unpackObj (names : List Name) (texts : List (UInt32 × Bytes)) : Slots → Bytes → Obj → Res Obj
  | [], _, o => .ok o
  | s :: ss, b, o => do
    let o ← unpackCell names texts o s (b.take s.2.packed)
    unpackObj names texts ss (b.drop s.2.packed) o

/-! ### The database types -/

/-- `Primitive::Kind` (src/clReflectCore/Database.h:109-126), the values in use. -/
inductive Kind where
  | flagAttribute | intAttribute | floatAttribute | primitiveAttribute | textAttribute | type | enumConstant
  | enum | field | function | templateType | template | cls | namespace
deriving DecidableEq, Repr

def Kind.val : Kind → Nat
  | .flagAttribute => 1 | .intAttribute => 2 | .floatAttribute => 3 | .primitiveAttribute => 4
  | .textAttribute => 5 | .type => 6 | .enumConstant => 7 | .enum => 8 | .field => 9 | .function => 10
  | .templateType => 11 | .template => 12 | .cls => 13 | .namespace => 14

/-- The `Primitive` part of an object that starts at `at`: kind, name, parent
(src/clReflectCore/Database.h:151-154). -/
def primObj (start : Nat) (k : Kind) (p : Prim) : Obj :=
  [(start, .basic (le 4 k.val)), (start + 8, .name p.name), (start + 48, .name p.parent)]

/-- `primitive_fields` (src/clReflectCore/DatabaseMetadata.cpp:18-23). The offsets are those within a
`Primitive` object (`OffsetOf`, DatabaseMetadata.h:52-69). -/
def primSlots : Slots := [(0, .basic 4), (8, .name), (48, .name)]

/-- `bool` as stored. -/
def boolB (b : Bool) : Bytes := [if b then 1 else 0]

/-- The way back; other bytes are not a `bool`. -/
def unBool : Bytes → Option Bool
  | [0] => some false
  | [1] => some true
  | _ => none

/-- `Enum::Scoped` as stored (src/clReflectCore/Database.h:304-309). -/
def scopedVal : Scoped → Nat
  | .none => 0 | .cls => 1 | .struct => 2

def unScoped (b : Bytes) : Option Scoped :=
  match unle b with
  | 0 => some .none | 1 => some .cls | 2 => some .struct | _ => none

/-- `Qualifier::Operator` as stored (src/clReflectCore/Database.h:76-81). -/
def opVal : QualOp → Nat
  | .value => 0 | .pointer => 1 | .reference => 2

def unOp (b : Bytes) : Option QualOp :=
  match unle b with
  | 0 => some .value | 1 => some .pointer | 2 => some .reference | _ => none

/-- The 8 bytes of a `Qualifier`: operator, `is_const`, three bytes of padding. -/
def qualB (pad : Bytes) (q : Qualifier) : Bytes := le 4 (opVal q.op) ++ boolB q.isConst ++ pad

def unQual (b : Bytes) : Option Qualifier := do
  let op ← unOp (b.take 4)
  let c ← unBool ((b.drop 4).take 1)
  some { op := op, isConst := c }

/-- How one table is serialised: the objects, the slots visited, a default-constructed object, the way
back from memory (`none`: not a value of the record type; undefined behaviour in the program). -/
structure RecType (α : Type) where
  key : α → UInt32
  toObj : α → Obj
  slots : Slots
  fresh : Obj
  ofObj : Obj → Option α

/-- The kind and names at the front of an object. -/
def unPrim (k : Kind) : Obj → Option (Prim × Obj)
  | (_, .basic kb) :: (_, .name n) :: (_, .name p) :: rest =>
    if kb = le 4 k.val then some ({ name := n, parent := p }, rest) else none
  | _ => none

/-- Types without fields of their own: `Template`, `Namespace`
(src/clReflectCore/DatabaseMetadata.cpp:107, 109). -/
def templateRec : RecType Template where
  key x := x.name.hash
  toObj x := primObj 0 .template x.toPrim
  slots := primSlots
  fresh := primObj 0 .template {}
  ofObj o := match unPrim .template o with
    | some (p, []) => some { toPrim := p }
    | _ => none

def namespaceRec : RecType Namespace where
  key x := x.name.hash
  toObj x := primObj 0 .namespace x.toPrim
  slots := primSlots
  fresh := primObj 0 .namespace {}
  ofObj o := match unPrim .namespace o with
    | some (p, []) => some { toPrim := p }
    | _ => none

/-- `Type` (src/clReflectCore/DatabaseMetadata.cpp:25-28, 101). -/
def typeRec : RecType Ty where
  key x := x.name.hash
  toObj x := primObj 0 .type x.toPrim ++ [(88, .basic (le 8 x.size.toNat))]
  slots := primSlots ++ [(88, .basic 8)]
  fresh := primObj 0 .type {} ++ [(88, .basic (le 8 0))]
  ofObj o := match unPrim .type o with
    | some (p, [(_, .basic s)]) => some { toPrim := p, size := UInt64.ofNat (unle s) }
    | _ => none

/-- `EnumConstant` (src/clReflectCore/DatabaseMetadata.cpp:34-37, 102). -/
def enumConstantRec : RecType EnumConstant where
  key x := x.name.hash
  toObj x := primObj 0 .enumConstant x.toPrim ++ [(88, .basic (le 4 x.value.toUInt32.toNat))]
  slots := primSlots ++ [(88, .basic 4)]
  fresh := primObj 0 .enumConstant {} ++ [(88, .basic (le 4 0))]
  ofObj o := match unPrim .enumConstant o with
    | some (p, [(_, .basic s)]) => some { toPrim := p, value := (UInt32.ofNat (unle s)).toInt32 }
    | _ => none

/-- `Enum` (src/clReflectCore/DatabaseMetadata.cpp:30-32, 103). -/
def enumRec : RecType Enum where
  key x := x.name.hash
  toObj x := primObj 0 .enum x.toPrim ++ [(88, .basic (le 8 x.size.toNat)), (96, .basic (le 4 (scopedVal x.scope)))]
  slots := primSlots ++ [(88, .basic 8), (96, .basic 4)]
  fresh := primObj 0 .enum {} ++ [(88, .basic (le 8 0)), (96, .basic (le 4 0))]
  ofObj o := match unPrim .enum o with
    | some (p, [(_, .basic s), (_, .basic c)]) =>
      (unScoped c).map (fun sc => { toPrim := p, size := UInt64.ofNat (unle s), scope := sc })
    | _ => none

/-- `Field` (src/clReflectCore/DatabaseMetadata.cpp:39-45, 104); `pad`: the padding bytes of the
qualifier, which are copied too. -/
def fieldRec (pad : Field → Bytes) : RecType Field where
  key x := x.name.hash
  toObj x := primObj 0 .field x.toPrim ++ [(88, .name x.type), (128, .basic (qualB (pad x) x.qualifier)),
    (136, .basic (le 4 x.offset.toUInt32.toNat)), (140, .basic (le 4 x.parentUniqueId.toNat))]
  slots := primSlots ++ [(88, .name), (128, .basic 8), (136, .basic 4), (140, .basic 4)]
  fresh := primObj 0 .field {} ++ [(88, .name {}), (128, .basic (qualB [0, 0, 0] {})),
    (136, .basic (le 4 0xFFFFFFFF)), (140, .basic (le 4 0))]
  ofObj o := match unPrim .field o with
    | some (p, [(_, .name t), (_, .basic q), (_, .basic off), (_, .basic uid)]) =>
      (unQual q).map (fun q => { toPrim := p, type := t, qualifier := q, offset := (UInt32.ofNat (unle off)).toInt32, parentUniqueId := UInt32.ofNat (unle uid) })
    | _ => none

/-- `Function` (src/clReflectCore/DatabaseMetadata.cpp:47-50, 105): the address is not stored. -/
def functionRec : RecType Function where
  key x := x.name.hash
  toObj x := primObj 0 .function x.toPrim ++ [(88, .basic (le 4 x.uniqueId.toNat)), (96, .basic (le 8 x.address.toNat))]
  slots := primSlots ++ [(88, .basic 4)]
  fresh := primObj 0 .function {} ++ [(88, .basic (le 4 0)), (96, .basic (le 8 0))]
  ofObj o := match unPrim .function o with
    | some (p, [(_, .basic u), (_, .basic a)]) =>
      some { toPrim := p, uniqueId := UInt32.ofNat (unle u), address := UInt64.ofNat (unle a) }
    | _ => none

/-- `Class` (src/clReflectCore/DatabaseMetadata.cpp:58-61, 106). -/
def classRec : RecType Class where
  key x := x.name.hash
  toObj x := primObj 0 .cls x.toPrim ++ [(88, .basic (le 8 x.size.toNat)), (96, .basic (boolB x.isClass))]
  slots := primSlots ++ [(88, .basic 8), (96, .basic 1)]
  fresh := primObj 0 .cls {} ++ [(88, .basic (le 8 0)), (96, .basic [0])]
  ofObj o := match unPrim .cls o with
    | some (p, [(_, .basic s), (_, .basic c)]) =>
      (unBool c).map (fun b => { toPrim := p, size := UInt64.ofNat (unle s), isClass := b })
    | _ => none

/-- `TemplateType` (src/clReflectCore/DatabaseMetadata.cpp:52-56, 108). -/
def templateTypeRec : RecType TemplateType where
  key x := x.name.hash
  toObj x := primObj 0 .templateType x.toPrim ++ [(88, .basic (le 8 x.size.toNat)), (96, .name x.a0.type),
    (136, .name x.a1.type), (176, .name x.a2.type), (216, .name x.a3.type), (256, .basic (boolB x.a0.ptr)),
    (257, .basic (boolB x.a1.ptr)), (258, .basic (boolB x.a2.ptr)), (259, .basic (boolB x.a3.ptr))]
  slots := primSlots ++ [(88, .basic 8), (96, .name), (136, .name), (176, .name), (216, .name), (256, .basic 1),
    (257, .basic 1), (258, .basic 1), (259, .basic 1)]
  fresh := primObj 0 .templateType {} ++ [(88, .basic (le 8 0)), (96, .name {}), (136, .name {}), (176, .name {}),
    (216, .name {}), (256, .basic [0]), (257, .basic [0]), (258, .basic [0]), (259, .basic [0])]
  ofObj o := match unPrim .templateType o with
    | some (p, [(_, .basic s), (_, .name t0), (_, .name t1), (_, .name t2), (_, .name t3), (_, .basic b0),
        (_, .basic b1), (_, .basic b2), (_, .basic b3)]) => do
      let p0 ← unBool b0
      let p1 ← unBool b1
      let p2 ← unBool b2
      let p3 ← unBool b3
      some { toPrim := p, size := UInt64.ofNat (unle s), a0 := ⟨t0, p0⟩, a1 := ⟨t1, p1⟩, a2 := ⟨t2, p2⟩, a3 := ⟨t3, p3⟩ }
    | _ => none

/-- `FlagAttribute` (src/clReflectCore/DatabaseMetadata.cpp:112). The object starts with `vptr` bytes
before its `Primitive` part; the slots do not know that. -/
def flagRec (vptr : Nat) : RecType FlagAttribute where
  key x := x.name.hash
  toObj x := primObj vptr .flagAttribute x.toPrim
  slots := primSlots
  fresh := primObj vptr .flagAttribute {}
  ofObj o := match unPrim .flagAttribute o with
    | some (p, []) => some { toPrim := p }
    | _ => none

/-- `IntAttribute` (src/clReflectCore/DatabaseMetadata.cpp:63-66, 113). -/
def intRec (vptr : Nat) : RecType IntAttribute where
  key x := x.name.hash
  toObj x := primObj vptr .intAttribute x.toPrim ++ [(vptr + 88, .basic (le 4 x.value.toUInt32.toNat))]
  slots := primSlots ++ [(vptr + 88, .basic 4)]
  fresh := primObj vptr .intAttribute {} ++ [(vptr + 88, .basic (le 4 0))]
  ofObj o := match unPrim .intAttribute o with
    | some (p, [(_, .basic s)]) => some { toPrim := p, value := (UInt32.ofNat (unle s)).toInt32 }
    | _ => none

/-- `FloatAttribute` (src/clReflectCore/DatabaseMetadata.cpp:68-71, 114). -/
def floatRec (vptr : Nat) : RecType FloatAttribute where
  key x := x.name.hash
  toObj x := primObj vptr .floatAttribute x.toPrim ++ [(vptr + 88, .basic (le 4 x.bits.toNat))]
  slots := primSlots ++ [(vptr + 88, .basic 4)]
  fresh := primObj vptr .floatAttribute {} ++ [(vptr + 88, .basic (le 4 0))]
  ofObj o := match unPrim .floatAttribute o with
    | some (p, [(_, .basic s)]) => some { toPrim := p, bits := UInt32.ofNat (unle s) }
    | _ => none

/-- `PrimitiveAttribute` (src/clReflectCore/DatabaseMetadata.cpp:73-76, 115). -/
def primitiveRec (vptr : Nat) : RecType PrimitiveAttribute where
  key x := x.name.hash
  toObj x := primObj vptr .primitiveAttribute x.toPrim ++ [(vptr + 88, .name x.value)]
  slots := primSlots ++ [(vptr + 88, .name)]
  fresh := primObj vptr .primitiveAttribute {} ++ [(vptr + 88, .name {})]
  ofObj o := match unPrim .primitiveAttribute o with
    | some (p, [(_, .name v)]) => some { toPrim := p, value := v }
    | _ => none

/-- `TextAttribute` (src/clReflectCore/DatabaseMetadata.cpp:78-81, 116). -/
def textRec (vptr : Nat) : RecType TextAttribute where
  key x := x.name.hash
  toObj x := primObj vptr .textAttribute x.toPrim ++ [(vptr + 88, .str x.value)]
  slots := primSlots ++ [(vptr + 88, .str)]
  fresh := primObj vptr .textAttribute {} ++ [(vptr + 88, .str [])]
  ofObj o := match unPrim .textAttribute o with
    | some (p, [(_, .str v)]) => some { toPrim := p, value := v }
    | _ => none

/-- `ContainerInfo` (src/clReflectCore/DatabaseMetadata.cpp:83-90, 119). -/
def containerRec : RecType ContainerInfo where
  key x := x.name.hash
  toObj x := [(0, .name x.name), (40, .name x.readIterator), (80, .name x.writeIterator),
    (120, .basic (le 4 x.flags.toNat)), (124, .basic (le 4 x.count.toNat))]
  slots := [(0, .name), (40, .name), (80, .name), (120, .basic 4), (124, .basic 4)]
  fresh := [(0, .name {}), (40, .name {}), (80, .name {}), (120, .basic (le 4 0)), (124, .basic (le 4 0))]
  ofObj
    | [(_, .name n), (_, .name r), (_, .name w), (_, .basic f), (_, .basic c)] =>
      some { name := n, readIterator := r, writeIterator := w, flags := UInt32.ofNat (unle f), count := UInt32.ofNat (unle c) }
    | _ => none

/-- `TypeInheritance` (src/clReflectCore/DatabaseMetadata.cpp:92-97, 122). -/
def inheritanceRec : RecType TypeInheritance where
  key x := x.name.hash
  toObj x := [(0, .name x.name), (40, .name x.derived), (80, .name x.base)]
  slots := [(0, .name), (40, .name), (80, .name)]
  fresh := [(0, .name {}), (40, .name {}), (80, .name {})]
  ofObj
    | [(_, .name n), (_, .name d), (_, .name b)] => some { name := n, derived := d, base := b }
    | _ => none

/-! ### Writing -/

/-- `Write(FILE*, const std::string&)` (src/clReflectCore/DatabaseBinarySerialiser.cpp:39-44). -/
def writeString (s : Bytes) : Bytes := le 4 s.length ++ s

def packAll {α : Type} (r : RecType α) : List α → Res Bytes
  | [] => .ok []
  | x :: xs => do
    let b ← packObj (r.toObj x) r.slots
    let bs ← packAll r xs
    pure (b ++ bs)

/-- `WriteTable` (src/clReflectCore/DatabaseBinarySerialiser.cpp:150-175). The size computations are in
`int`; tables beyond 2^31 bytes overflow it. -/
def writeTable {α : Type} (r : RecType α) (l : List α) : Res Bytes :=
  if l.length * packedSize r.slots < 2 ^ 31 then do
    let b ← packAll r l
    pure (le 4 l.length ++ b)
  else .ub

/-- `WriteNameTable` (src/clReflectCore/DatabaseBinarySerialiser.cpp:178-190). -/
def writeNames (l : List Name) : Bytes :=
  le 4 l.length ++ l.flatMap (fun n => le 4 n.hash.toNat ++ writeString n.text)

/-- `g_TextAttributeMap[hash] = text` (src/clReflectCore/DatabaseBinarySerialiser.cpp:205, 379). -/
def assignText (t : UInt32 × Bytes) (l : List (UInt32 × Bytes)) : List (UInt32 × Bytes) := assignBy (·.1) t l

/-- The hash map `WriteTextAttributeTable` fills (DatabaseBinarySerialiser.cpp:199-206). -/
def textMap (l : List TextAttribute) : List (UInt32 × Bytes) :=
  l.foldl (fun m a => assignText (hashOf (cstr a.value), a.value) m) []

/-- `WriteTextAttributeTable` (src/clReflectCore/DatabaseBinarySerialiser.cpp:193-214): the count written is
that of the attributes, the entries written are those of the map. -/
def writeTexts (l : List TextAttribute) : Bytes :=
  le 4 l.length ++ (textMap l).flatMap (fun t => le 4 t.1.toNat ++ writeString t.2)

/-- `FILE_HEADER`, `FILE_VERSION` (src/clReflectCore/DatabaseBinarySerialiser.cpp:23-24). -/
def fileHeader : Nat := 0x62647263
def fileVersion : Nat := 1

/-- `WriteBinaryDatabase` (src/clReflectCore/DatabaseBinarySerialiser.cpp:218-252): the contents of the
file. -/
def writeBinary (vptr : Nat) (pad : Field → Bytes) (db : Database) : Res Bytes := do
  let types ← writeTable typeRec db.types
  let enumConstants ← writeTable enumConstantRec db.enumConstants
  let enums ← writeTable enumRec db.enums
  let fields ← writeTable (fieldRec pad) db.fields
  let functions ← writeTable functionRec db.functions
  let classes ← writeTable classRec db.classes
  let templates ← writeTable templateRec db.templates
  let templateTypes ← writeTable templateTypeRec db.templateTypes
  let namespaces ← writeTable namespaceRec db.namespaces
  let flags ← writeTable (flagRec vptr) db.flagAttributes
  let ints ← writeTable (intRec vptr) db.intAttributes
  let floats ← writeTable (floatRec vptr) db.floatAttributes
  let prims ← writeTable (primitiveRec vptr) db.primitiveAttributes
  let texts ← writeTable (textRec vptr) db.textAttributes
  let containers ← writeTable containerRec db.containerInfos
  let inheritances ← writeTable inheritanceRec db.inheritances
  pure (le 4 fileHeader ++ (le 4 fileVersion ++ (writeNames db.names ++ (writeTexts db.textAttributes ++
    (types ++ (enumConstants ++ (enums ++ (fields ++ (functions ++ (classes ++ (templates ++ (templateTypes ++
    (namespaces ++ (flags ++ (ints ++ (floats ++ (prims ++ (texts ++ (containers ++ inheritances)))))))))))))))))))

/-! ### Reading -/

/-- `fread` of `n` bytes. -/
def readN (n : Nat) (file : Bytes) : Res (Bytes × Bytes) :=
  match takeN n file with
  | some r => .ok r
  | none => .ub

/-- `Read<unsigned int>`, `Read<int>` (src/clReflectCore/DatabaseBinarySerialiser.cpp:257-263). -/
def readU32 (file : Bytes) : Res (Nat × Bytes) := do
  let (b, file) ← readN 4 file
  pure (unle b, file)

/-- `Read<std::string>` (src/clReflectCore/DatabaseBinarySerialiser.cpp:266-277): the comparison is
unsigned, so negative lengths are clamped too. The bytes beyond the clamped length stay in the file. -/
def readString (file : Bytes) : Res (Bytes × Bytes) := do
  let (len, file) ← readU32 file
  let (b, file) ← readN (if len ≥ 2 ^ 31 ∨ len > 1023 then 1023 else len) file
  pure (cstr b, file)

/-- The loop of `ReadNameTable` (src/clReflectCore/DatabaseBinarySerialiser.cpp:359-364). -/
def readNameEntries : Nat → Bytes → List Name → Res (List Name × Bytes)
  | 0, file, names => .ok (names, file)
  | n + 1, file, names => do
    let (h, file) ← readU32 file
    let (s, file) ← readString file
    readNameEntries n file (assignBy Name.hash ⟨UInt32.ofNat h, s⟩ names)

/-- `ReadNameTable` (src/clReflectCore/DatabaseBinarySerialiser.cpp:353-365); a negative count is none. -/
def readNames (file : Bytes) (names : List Name) : Res (List Name × Bytes) := do
  let (n, file) ← readU32 file
  readNameEntries (if n ≥ 2 ^ 31 then 0 else n) file names

/-- The loop of `ReadTextAttributeTable` (src/clReflectCore/DatabaseBinarySerialiser.cpp:375-380). -/
def readTextEntries : Nat → Bytes → List (UInt32 × Bytes) → Res (List (UInt32 × Bytes) × Bytes)
  | 0, file, m => .ok (m, file)
  | n + 1, file, m => do
    let (h, file) ← readU32 file
    let (s, file) ← readString file
    readTextEntries n file (assignText (UInt32.ofNat h, s) m)

/-- `ReadTextAttributeTable` (src/clReflectCore/DatabaseBinarySerialiser.cpp:368-381). -/
def readTexts (file : Bytes) : Res (List (UInt32 × Bytes) × Bytes) := do
  let (n, file) ← readU32 file
  readTextEntries (if n ≥ 2 ^ 31 then 0 else n) file []

/-- The unpacking and adding loops of `ReadTable` (src/clReflectCore/DatabaseBinarySerialiser.cpp:343-348).
`addTo` is `Database::Add` for the table. -/
def readEntries {α : Type} (r : RecType α) (addTo : α → List α → Res (List α)) (names : List Name)
    (texts : List (UInt32 × Bytes)) : Nat → Bytes → List α → Res (List α)
  | 0, _, l => .ok l
  | n + 1, data, l => do
    let o ← unpackObj names texts r.slots (data.take (packedSize r.slots)) r.fresh
    match r.ofObj o with
    | none => .ub
    | some x => do
      let l ← addTo x l
      readEntries r addTo names texts n (data.drop (packedSize r.slots)) l

/-- `ReadTable` (src/clReflectCore/DatabaseBinarySerialiser.cpp:327-350). A negative count makes the vector
constructor throw, which nothing catches (`trap`). -/
def readTable {α : Type} (r : RecType α) (addTo : α → List α → Res (List α)) (names : List Name)
    (texts : List (UInt32 × Bytes)) (file : Bytes) (l : List α) : Res (List α × Bytes) := do
  let (n, file) ← readU32 file
  if n ≥ 2 ^ 31 then .trap
  else if n * packedSize r.slots ≥ 2 ^ 31 then .ub
  else do
    let (data, file) ← readN (n * packedSize r.slots) file
    let l ← readEntries r addTo names texts n data l
    pure (l, file)

/-- `IsBinaryDatabase` (src/clReflectCore/DatabaseBinarySerialiser.cpp:429-443); `none`: no such file. -/
def isBinary (file : Option Bytes) : Res Bool :=
  match file with
  | none => .ok false
  | some f => do
    let (h, f) ← readU32 f
    let (v, _) ← readU32 f
    pure (h == fileHeader && v == fileVersion)

/-- `Add` into one of the tables that are `std::map`s (src/clReflectCore/Database.h:609-616, 631-636). -/
def addMap {α : Type} (key : α → UInt32) (x : α) (l : List α) : Res (List α) :=
  if key x = 0 then .trap else .ok (if (findBy key (key x) l).isSome then l else insertBy key x l)

/-- `ReadTable` for the multimap tables. -/
def readMulti {α : Type} (r : RecType α) := readTable r (add r.key)

/-- `ReadTable` for the map tables. -/
def readMap {α : Type} (r : RecType α) := readTable r (addMap r.key)

/-- `ReadBinaryDatabase` (src/clReflectCore/DatabaseBinarySerialiser.cpp:385-426). -/
def readBinary (vptr : Nat) (file : Option Bytes) (db : Database) : Res (Bool × Database) := do
  let ok ← isBinary file
  match file with
  | none => .ok (false, db)
  | some f =>
    if ok then do
      let (_, f) ← readU32 f
      let (_, f) ← readU32 f
      let (names, f) ← readNames f db.names
      let (texts, f) ← readTexts f
      let (types, f) ← readMulti typeRec names texts f db.types
      let (enumConstants, f) ← readMulti enumConstantRec names texts f db.enumConstants
      let (enums, f) ← readMulti enumRec names texts f db.enums
      let (fields, f) ← readMulti (fieldRec (fun _ => [0, 0, 0])) names texts f db.fields
      let (functions, f) ← readMulti functionRec names texts f db.functions
      let (classes, f) ← readMulti classRec names texts f db.classes
      let (templates, f) ← readMulti templateRec names texts f db.templates
      let (templateTypes, f) ← readMulti templateTypeRec names texts f db.templateTypes
      let (namespaces, f) ← readMulti namespaceRec names texts f db.namespaces
      let (flagAttributes, f) ← readMulti (flagRec vptr) names texts f db.flagAttributes
      let (intAttributes, f) ← readMulti (intRec vptr) names texts f db.intAttributes
      let (floatAttributes, f) ← readMulti (floatRec vptr) names texts f db.floatAttributes
      let (primitiveAttributes, f) ← readMulti (primitiveRec vptr) names texts f db.primitiveAttributes
      let (textAttributes, f) ← readMulti (textRec vptr) names texts f db.textAttributes
      let (containerInfos, f) ← readMap containerRec names texts f db.containerInfos
      let (inheritances, _) ← readMap inheritanceRec names texts f db.inheritances
      pure (true,
        { names := names
          types := types
          enumConstants := enumConstants
          enums := enums
          fields := fields
          functions := functions
          classes := classes
          templates := templates
          templateTypes := templateTypes
          namespaces := namespaces
          flagAttributes := flagAttributes
          intAttributes := intAttributes
          floatAttributes := floatAttributes
          primitiveAttributes := primitiveAttributes
          textAttributes := textAttributes
          containerInfos := containerInfos
          inheritances := inheritances })
    else .ok (false, db)

end Clr.BinDB
