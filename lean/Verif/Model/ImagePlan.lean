import Verif.Model.Image
import Verif.Model.ImageSpec
import Verif.Model.StackAlloc
import Verif.Model.Reloc
/-
The memory of an exported database as BuildCppExport (src/clReflectExport/CppExport.cpp:1093-1227) lays it out: what is
allocated, in which order, from the arena of src/clReflectExport/StackAllocator.h, and what the memory holds in the end.

Simplifications: texts have no NUL inside; memory is written once, with what it holds in the end.
-/
namespace Clr.Image
open Clr Clr.Reloc Clr.Layout
open Clr.Export (K Slot Ref Ptr St)

/-! ## What is allocated -/

/-- An allocation: what the memory is for, or nothing that is part of the database, how many elements of which size, and
whether they are constructed (`!is_builtin<TYPE>()`, src/clReflectExport/StackAllocator.h:116-124). -/
structure Piece where
  use : Option Area
  count : Nat
  elem : Nat
  construct : Bool
deriving DecidableEq, Repr

/-- Its size in bytes. -/
def Piece.size (a : Piece) : Nat := a.count * a.elem

/-- The request to the allocator. -/
def Piece.request (a : Piece) : StackAlloc.Request := ⟨a.count, a.elem, a.construct⟩

/-- The order in which the tables are built (src/clReflectExport/CppExport.cpp:1105-1119). -/
def tableOrder : List K :=
  [.type, .constant, .enum, .field, .function, .cls, .template, .instance, .space,
   .flagAttr, .intAttr, .floatAttr, .primAttr, .textAttr, .container]

/-- The bytes texts take up with their NULs (src/clReflectExport/CppExport.cpp:65-69, 389-394). -/
def textBytes (ts : List Bytes) : Nat := (ts.map fun t => t.length + 1).sum

/-- What is allocated before the scopes are built (src/clReflectExport/CppExport.cpp:1096, 70, 85, 196, 397, 643). -/
def fixedPieces (db : DB.Database) : List Piece :=
  [⟨some .header, 1, databaseMem.lay.size, true⟩,
   ⟨some .nameText, textBytes (db.names.map (·.text)), 1, false⟩,
   ⟨some .names, db.names.length, name.lay.size, true⟩] ++
  tableOrder.map (fun k => ⟨some (.table k), (Export.rows db k).length, stride k, true⟩) ++
  [⟨some .attributeText, textBytes (db.textAttributes.map (·.value)), 1, false⟩,
   ⟨some .typePrims, (Export.rows db .type).length + (Export.rows db .cls).length + (Export.rows db .enum).length +
     (Export.rows db .instance).length, 8, true⟩]

/-- src/clReflectExport/CppExport.cpp:309-323, the second loop of Parent: an array for every scope that has children, in
the order of the map of scopes, a `std::multimap` (lines 214-239). -/
def scopePieces (S : St) (pk : K) (slot : Slot) (keys : Nat → UInt32) : List Piece :=
  ((List.range (S.count pk)).mergeSort fun i j => keys i ≤ keys j).filterMap fun i =>
    if ((S.get (pk, i)).kids slot).length = 0 then none
    else some ⟨some (.kids (pk, i) slot), ((S.get (pk, i)).kids slot).length, 8, true⟩

/-- The scopes of attributes (src/clReflectExport/CppExport.cpp:1160-1163). -/
def attributeScopes : List K := [.enum, .field, .function, .cls]

/-- What is allocated for the scopes (src/clReflectExport/CppExport.cpp:1137-1163): their arrays, and in between the array
of all attributes, which nothing of the database leads to. `S` is the state once all this is done, `fks` the keys of the
map of fields. -/
def treePieces (S : St) (fks : List UInt32) : List Piece :=
  (Export.hierarchy.flatMap fun h => scopePieces S h.1 h.2.1 (Export.byName S h.1)) ++
  [⟨none, (Export.allAttributes S).length, 8, true⟩] ++
  attributeScopes.flatMap fun k => scopePieces S k .attributes (if k = .field then fun i => fks.getD i 0 else Export.byName S k)

/-- src/clReflectExport/CppExport.cpp:612-636 BuildGlobalNamespace -/
def globalPieces (F : St) : List Piece :=
  [Slot.namespaces, .types, .enums, .classes, .functions, .templates].map fun s =>
    ⟨some (.globals s), (F.globals s).length, 8, true⟩

/-- src/clReflectExport/CppExport.cpp:559-566, the second loop of BuildBaseClassArrays: a `std::map` from the addresses of
the types that have bases. -/
def basePieces (F : St) : List Piece :=
  [K.type, .enum, .cls, .instance].flatMap fun k => (F.all k).filterMap fun r =>
    if ((F.get r).kids .bases).length = 0 then none
    else some ⟨some (.kids r .bases), ((F.get r).kids .bases).length, 8, true⟩

/-- All allocations, `S` being the state once the scopes are built and `F` the state in the end. -/
def pieces (db : DB.Database) (S F : St) (fks : List UInt32) : List Piece :=
  fixedPieces db ++ treePieces S fks ++ globalPieces F ++ basePieces F

/-! ## Where it is -/

/-- The bytes that some allocations take up. -/
def total (ps : List Piece) : Nat := (ps.map Piece.size).sum

/-- The offset of a piece of memory in the arena, if it is allocated. -/
def offsetIn : List Piece → Area → Option Nat
  | [], _ => none
  | p :: ps, a => if p.use = some a then some 0 else (offsetIn ps a).map (p.size + ·)

/-- Offsets of texts written one after the other (src/clReflectExport/CppExport.cpp:73-80, 399-406). -/
def textOffset (ts : List Bytes) (i : Nat) : Nat := textBytes (ts.take i)

/-- Where everything is (src/clReflectExport/CppExport.cpp:1093-1227). -/
def placeOf (db : DB.Database) (ps : List Piece) : Place where
  table k := (offsetIn ps (.table k)).getD 0
  names := (offsetIn ps .names).getD 0
  nameText := (offsetIn ps .nameText).getD 0
  nameSize := textBytes (db.names.map (·.text))
  attributeText := (offsetIn ps .attributeText).getD 0
  attributeSize := textBytes (db.textAttributes.map (·.value))
  nameAt i := (offsetIn ps .nameText).getD 0 + textOffset (db.names.map (·.text)) i
  textAt r := (db.names.findIdx? fun n => n.hash == ((Export.copied db).get r).hash).map fun i =>
    (offsetIn ps .nameText).getD 0 + textOffset (db.names.map (·.text)) i
  valueAt r := (offsetIn ps .attributeText).getD 0 + textOffset (db.textAttributes.map (·.value)) r.2
  kids r s := offsetIn ps (.kids r s)
  typePrims := (offsetIn ps .typePrims).getD 0
  globals s := offsetIn ps (.globals s)

/-- The placement of the tables, for the linker (`Verif/Model/Export.lean`): the arena starts at address `start`. -/
def envOf (start : Nat) (junk : Ptr) (sort : (Ref → UInt32) → List Ref → List Ref) (db : DB.Database) : Export.Env where
  base k := start + (offsetIn (fixedPieces db) (.table k)).getD 0
  stride := stride
  junk := junk
  sort := sort

/-! ## What it holds -/

/-- `clcpp::Qualifier::Operator` (inc/clcpp/clcpp.h:523-540) as CopyPrimitive translates it
(src/clReflectExport/CppExport.cpp:120-133). -/
def qualifierOp : DB.QualOp → Nat
  | .value => 0
  | .pointer => 1
  | .reference => 2

/-- The numbers of an object, as CopyPrimitive and CopyObject copy them (src/clReflectExport/CppExport.cpp:98-189). -/
def scalarOf (db : DB.Database) (r : Ref) : Scalar → Nat
  | .size =>
    match r.1 with
    | .type => (db.types.getD r.2 {}).size.toNat
    | .enum => (db.enums.getD r.2 {}).size.toNat
    | .cls => (db.classes.getD r.2 {}).size.toNat
    | .instance => (db.templateTypes.getD r.2 {}).size.toNat
    | _ => 0
  | .value => (db.enumConstants.getD r.2 {}).value.toBitVec.toNat
  | .op => qualifierOp (db.fields.getD r.2 {}).qualifier.op
  | .isConst => (db.fields.getD r.2 {}).qualifier.isConst.toNat
  | .offset => (db.fields.getD r.2 {}).offset.toBitVec.toNat
  | .address => (db.functions.getD r.2 {}).address.toNat
  | .argPtr0 => (db.templateTypes.getD r.2 {}).a0.ptr.toNat
  | .argPtr1 => (db.templateTypes.getD r.2 {}).a1.ptr.toNat
  | .argPtr2 => (db.templateTypes.getD r.2 {}).a2.ptr.toNat
  | .argPtr3 => (db.templateTypes.getD r.2 {}).a3.ptr.toNat
  | .number => (db.floatAttributes.getD r.2 {}).bits.toNat
  | .flags => (db.containerInfos.getD r.2 {}).flags.toNat
  | .count => (db.containerInfos.getD r.2 {}).count.toNat

/-- The exported database: the linked objects, the names (src/clReflectExport/CppExport.cpp:83-94), the numbers and the
texts of text attributes. -/
def dataOf (functionBase : Nat) (db : DB.Database) (F : St) : Data where
  st := F
  functionBase := functionBase
  names := db.names.map fun n => (n.hash, n.text)
  scalar := scalarOf db
  text r := (db.textAttributes.getD r.2 {}).value

/-- The bytes of a piece of memory, the image being at address `start`. -/
def Val.bytesAt (start : Nat) : Val → Bytes
  | .num w v => le w v
  | .ptr none => le 8 0
  | .ptr (some d) => le 8 (start + d)
  | .raw n => le 8 n
  | .bytes bs => bs

/-- Memory after a write. -/
def storeAt (img : Bytes) (o : Nat) (bs : Bytes) : Bytes := img.take o ++ bs ++ img.drop (o + bs.length)

/-- Memory after some writes. -/
def storeAll (start : Nat) (img : Bytes) (cs : List Cell) : Bytes := cs.foldl (fun img c => storeAt img c.1 (c.2.bytesAt start)) img

/-- What is in an area. -/
def areaCells (p : Place) (d : Data) : Area → List Cell
  | .header => headerCells p d
  | .names => nameTable p d
  | .table k => (d.st.all k).flatMap fun r => shift (p.at r) (objectCells p d 0 r)
  | .typePrims => entryCells p p.typePrims d.st.typePrims
  | .globals s => optEntries p (p.globals s) (d.st.globals s)
  | .kids r s => optEntries p (p.kids r s) ((d.st.get r).kids s)
  | .nameText => d.names.zipIdx.map fun n => textCell (p.nameAt n.2) n.1.2
  | .attributeText => (d.st.all .textAttr).map fun r => textCell (p.valueAt r) (d.text r)

/-- The arena in the end, up to `m_Offset`: what was in it before, with everything written. -/
def imageOf (start : Nat) (p : Place) (d : Data) (ps : List Piece) (junk : Bytes) : Bytes :=
  storeAll start junk ((ps.filterMap Piece.use).flatMap (areaCells p d))

end Clr.Image
