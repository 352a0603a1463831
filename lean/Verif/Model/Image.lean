import Verif.Model.Export
import Verif.Model.Layout
/-
The exported database as it lies in memory: which member of which object is at which offset of the image
(inc/clcpp/clcpp.h, inc/clcpp/clcpp_internal.h with the layout of Verif/Model/Layout.lean), which of these members
SaveCppExport registers as pointers (src/clReflectExport/CppExport.cpp:1345-1418), and what the runtime reads back.

Pointers are described by the offset they lead to, so that the description does not depend on where the image lies.

Simplifications: padding bytes are left out; a text is described by its bytes and the terminating NUL; the loops of
SaveCppExport read each array's size once.
-/
namespace Clr.Image
open Clr Clr.Reloc Clr.Layout
open Clr.Export (K Slot Ref Ptr St)

/-! ## What is stored -/

/-- Members that are plain numbers and take no part in the linking (src/clReflectExport/CppExport.cpp:98-189): sizes of
types, values of enum constants, qualifiers and offsets of fields, addresses of functions, which template arguments are
pointers, values of float attributes, flags and counts of containers. -/
inductive Scalar where
  | size | value | op | isConst | offset | address | argPtr0 | argPtr1 | argPtr2 | argPtr3 | number | flags | count
deriving DecidableEq, Repr

/-- A database in memory: the linked objects (`Verif/Model/Export.lean`), the table of names, the numbers of each object
and the texts of the text attributes. -/
structure Data where
  st : St
  functionBase : Nat
  names : List (UInt32 × Bytes)
  scalar : Ref → Scalar → Nat
  text : Ref → Bytes

/-- Where everything is, as offsets from the start of the image. A pointer array that was never allocated is `none`. -/
structure Place where
  table : K → Nat
  names : Nat
  /-- `name_text_data` and `text_attribute_data` with their sizes -/
  nameText : Nat
  nameSize : Nat
  attributeText : Nat
  attributeSize : Nat
  /-- the text of the i-th name, the text of an object's name, the value of a text attribute -/
  nameAt : Nat → Nat
  textAt : Ref → Option Nat
  valueAt : Ref → Nat
  kids : Ref → Slot → Option Nat
  typePrims : Nat
  globals : Slot → Option Nat

/-- The type of the entries of a table (inc/clcpp/clcpp_internal.h:23-50). -/
def structOf : K → Struct
  | .type => type
  | .constant => enumConstant
  | .enum => enum
  | .field => field
  | .function => function
  | .cls => cls
  | .template => template
  | .instance => templateType
  | .space => ns
  | .flagAttr => flagAttribute
  | .intAttr => intAttribute
  | .floatAttr => intAttribute
  | .primAttr => primitiveAttribute
  | .textAttr => textAttribute
  | .container => containerInfo

/-- The distance between two entries of a table. -/
def stride (k : K) : Nat := (structOf k).lay.size

/-- The offset of an object. -/
def Place.at (p : Place) (r : Ref) : Nat := p.table r.1 + r.2 * stride r.1

/-- `Primitive::Kind` (inc/clcpp/clcpp.h:576-594); containers have none. -/
def kindOf : K → Nat
  | .flagAttr => 2
  | .intAttr => 3
  | .floatAttr => 4
  | .primAttr => 5
  | .textAttr => 6
  | .type => 7
  | .constant => 8
  | .enum => 9
  | .field => 10
  | .function => 11
  | .instance => 12
  | .template => 13
  | .cls => 14
  | .space => 15
  | .container => 0

/-- The contents of a piece of memory: a number of some bytes, a pointer (null or to an offset of the image), a pointer
that was never resolved and still holds a hash, or some bytes. -/
inductive Val where
  | num (w v : Nat)
  | ptr (t : Option Nat)
  | raw (n : Nat)
  | bytes (bs : Bytes)
deriving DecidableEq, Repr

/-- Something at an offset. -/
abbrev Cell := Nat × Val

/-- The image at address `base` has this at that offset. -/
def Holds (base : Nat) (img : Bytes) (c : Cell) : Prop :=
  match c.2 with
  | .num w v => c.1 + w ≤ img.length ∧ num img c.1 w = v
  | .ptr none => word img c.1 = some 0
  | .ptr (some d) => word img c.1 = some (base + d)
  | .raw n => word img c.1 = some n
  | .bytes bs => (img.drop c.1).take bs.length = bs

instance (base : Nat) (img : Bytes) (c : Cell) : Decidable (Holds base img c) := by
  obtain ⟨o, v⟩ := c
  unfold Holds
  cases v with
  | num w v => infer_instance
  | ptr t => cases t <;> infer_instance
  | raw n => infer_instance
  | bytes bs => infer_instance

/-- A pointer to an object. -/
def Place.ptr (p : Place) : Ptr → Val
  | .raw n => if n = 0 then .ptr none else .raw n
  | .obj r => .ptr (some (p.at r))

/-- A pointer that is null or leads to an object. -/
def Place.opt (p : Place) (r : Option Ref) : Val := .ptr (r.map p.at)

/-- inc/clcpp/clcpp.h:427-451 CArray at an offset: size, data, and an allocator that is null in memory-mapped arrays. -/
def arrayCells (o n : Nat) (data : Option Nat) : List Cell :=
  [(o + offsetOf cArray b!"size", .num 4 n), (o + offsetOf cArray b!"data", .ptr data),
   (o + offsetOf cArray b!"allocator", .num 8 0)]

/-- inc/clcpp/clcpp.h:508-517 Name at an offset. -/
def nameCells (o : Nat) (hash : UInt32) (text : Option Nat) : List Cell :=
  [(o + offsetOf name b!"hash", .num 4 hash.toNat), (o + offsetOf name b!"text", .ptr text)]

/-- A pointer array member of an object. -/
def kidsCells (p : Place) (d : Data) (r : Ref) (o : Nat) (s : Slot) : List Cell :=
  arrayCells o ((d.st.get r).kids s).length (p.kids r s)

/-- inc/clcpp/clcpp.h:574-606 Primitive, `database` being the address of its database, null in the file. -/
def primCells (p : Place) (d : Data) (database : Nat) (r : Ref) : List Cell :=
  [(offsetOf primitive b!"kind", .num 4 (kindOf r.1))] ++
  nameCells (offsetOf primitive b!"name") (d.st.get r).hash (p.textAt r) ++
  [(offsetOf primitive b!"parent", p.ptr (d.st.get r).parent), (offsetOf primitive b!"database", .num 8 database)]

/-- inc/clcpp/clcpp.h:690-715 Type -/
def typeCells (p : Place) (d : Data) (database : Nat) (r : Ref) : List Cell :=
  primCells p d database r ++ [(offsetOf type b!"size", .num 8 (d.scalar r .size))] ++
  kidsCells p d r (offsetOf type b!"base_types") .bases ++ [(offsetOf type b!"ci", p.opt (d.st.get r).ci)]

/-- The members of an object (inc/clcpp/clcpp.h:548-888), relative to its start. -/
def objectCells (p : Place) (d : Data) (database : Nat) (r : Ref) : List Cell :=
  match r.1 with
  | .type => typeCells p d database r
  | .constant => primCells p d database r ++ [(offsetOf enumConstant b!"value", .num 4 (d.scalar r .value))]
  | .enum => typeCells p d database r ++ kidsCells p d r (offsetOf enum b!"constants") .constants ++
      kidsCells p d r (offsetOf enum b!"attributes") .attributes ++
      [(offsetOf enum b!"flag_attributes", .num 4 (d.st.get r).flags.toNat)]
  | .field => primCells p d database r ++
      [(offsetOf field b!"type", p.ptr (d.st.get r).type),
       (offsetOf field b!"qualifier" + offsetOf qualifier b!"op", .num 4 (d.scalar r .op)),
       (offsetOf field b!"qualifier" + offsetOf qualifier b!"is_const", .num 1 (d.scalar r .isConst)),
       (offsetOf field b!"offset", .num 4 (d.scalar r .offset)),
       (offsetOf field b!"parent_unique_id", .num 4 (d.st.get r).uid.toNat)] ++
      kidsCells p d r (offsetOf field b!"attributes") .attributes ++
      [(offsetOf field b!"flag_attributes", .num 4 (d.st.get r).flags.toNat),
       (offsetOf field b!"ci", p.opt (d.st.get r).ci)]
  | .function => primCells p d database r ++
      [(offsetOf function b!"address", .num 8 (d.scalar r .address)),
       (offsetOf function b!"unique_id", .num 4 (d.st.get r).uid.toNat),
       (offsetOf function b!"return_parameter", p.opt (d.st.get r).ret)] ++
      kidsCells p d r (offsetOf function b!"parameters") .parameters ++
      kidsCells p d r (offsetOf function b!"attributes") .attributes ++
      [(offsetOf function b!"flag_attributes", .num 4 (d.st.get r).flags.toNat)]
  | .cls => typeCells p d database r ++
      [(offsetOf cls b!"constructor", p.opt (d.st.get r).ctor), (offsetOf cls b!"destructor", p.opt (d.st.get r).dtor)] ++
      kidsCells p d r (offsetOf cls b!"enums") .enums ++ kidsCells p d r (offsetOf cls b!"classes") .classes ++
      kidsCells p d r (offsetOf cls b!"methods") .methods ++ kidsCells p d r (offsetOf cls b!"fields") .fields ++
      kidsCells p d r (offsetOf cls b!"attributes") .attributes ++
      kidsCells p d r (offsetOf cls b!"templates") .templates ++
      [(offsetOf cls b!"flag_attributes", .num 4 (d.st.get r).flags.toNat)]
  | .template => primCells p d database r ++ kidsCells p d r (offsetOf template b!"instances") .instances
  | .instance => typeCells p d database r ++
      [(offsetOf templateType b!"constructor", p.opt (d.st.get r).ctor),
       (offsetOf templateType b!"destructor", p.opt (d.st.get r).dtor),
       (offsetOf templateType b!"parameter_types", p.ptr ((d.st.get r).args.getD 0 (.raw 0))),
       (offsetOf templateType b!"parameter_types" + 8, p.ptr ((d.st.get r).args.getD 1 (.raw 0))),
       (offsetOf templateType b!"parameter_types" + 16, p.ptr ((d.st.get r).args.getD 2 (.raw 0))),
       (offsetOf templateType b!"parameter_types" + 24, p.ptr ((d.st.get r).args.getD 3 (.raw 0))),
       (offsetOf templateType b!"parameter_ptrs", .num 1 (d.scalar r .argPtr0)),
       (offsetOf templateType b!"parameter_ptrs" + 1, .num 1 (d.scalar r .argPtr1)),
       (offsetOf templateType b!"parameter_ptrs" + 2, .num 1 (d.scalar r .argPtr2)),
       (offsetOf templateType b!"parameter_ptrs" + 3, .num 1 (d.scalar r .argPtr3))]
  | .space => primCells p d database r ++ kidsCells p d r (offsetOf ns b!"namespaces") .namespaces ++
      kidsCells p d r (offsetOf ns b!"types") .types ++ kidsCells p d r (offsetOf ns b!"enums") .enums ++
      kidsCells p d r (offsetOf ns b!"classes") .classes ++ kidsCells p d r (offsetOf ns b!"functions") .functions ++
      kidsCells p d r (offsetOf ns b!"templates") .templates
  | .flagAttr => primCells p d database r
  | .intAttr => primCells p d database r ++ [(offsetOf intAttribute b!"value", .num 4 (d.st.get r).value.toNat)]
  | .floatAttr => primCells p d database r ++ [(offsetOf intAttribute b!"value", .num 4 (d.scalar r .number))]
  | .primAttr => primCells p d database r ++ [(offsetOf primitiveAttribute b!"primitive", p.ptr (d.st.get r).target)]
  | .textAttr => primCells p d database r ++ [(offsetOf textAttribute b!"value", .ptr (some (p.valueAt r)))]
  | .container => nameCells (offsetOf containerInfo b!"name") (d.st.get r).hash (p.textAt r) ++
      [(offsetOf containerInfo b!"read_iterator_type", p.ptr (d.st.get r).readIt),
       (offsetOf containerInfo b!"write_iterator_type", p.ptr (d.st.get r).writeIt),
       (offsetOf containerInfo b!"flags", .num 4 (d.scalar r .flags)),
       (offsetOf containerInfo b!"count", .num 4 (d.scalar r .count))]

/-- The arrays of `DatabaseMem` that hold the tables (inc/clcpp/clcpp_internal.h:23-50). -/
def tableMember : K → Bytes
  | .type => b!"types"
  | .constant => b!"enum_constants"
  | .enum => b!"enums"
  | .field => b!"fields"
  | .function => b!"functions"
  | .cls => b!"classes"
  | .template => b!"templates"
  | .instance => b!"template_types"
  | .space => b!"namespaces"
  | .flagAttr => b!"flag_attributes"
  | .intAttr => b!"int_attributes"
  | .floatAttr => b!"float_attributes"
  | .primAttr => b!"primitive_attributes"
  | .textAttr => b!"text_attributes"
  | .container => b!"container_infos"

/-- The pointer arrays of a namespace with their names (inc/clcpp/clcpp.h:882-887). -/
def spaceMembers : List (Slot × Bytes) :=
  [(.namespaces, b!"namespaces"), (.types, b!"types"), (.enums, b!"enums"), (.classes, b!"classes"),
   (.functions, b!"functions"), (.templates, b!"templates")]

/-- The offset of an array of the global namespace in `DatabaseMem`. -/
def globalArray (m : Bytes) : Nat := offsetOf databaseMem b!"global_namespace" + offsetOf ns m

/-- inc/clcpp/clcpp_internal.h:11-54 DatabaseMem. The members of the global namespace other than its arrays are left
out: nobody names it or tells it its database. -/
def headerCells (p : Place) (d : Data) : List Cell :=
  [(offsetOf databaseMem b!"function_base_address", .num 8 d.functionBase),
   (offsetOf databaseMem b!"name_text_data", .ptr (some p.nameText)),
   (offsetOf databaseMem b!"text_attribute_data", .ptr (some p.attributeText))] ++
  arrayCells (offsetOf databaseMem b!"names") d.names.length (some p.names) ++
  Export.kinds.flatMap (fun k => arrayCells (offsetOf databaseMem (tableMember k)) (d.st.count k) (some (p.table k))) ++
  arrayCells (offsetOf databaseMem b!"type_primitives") d.st.typePrims.length (some p.typePrims) ++
  spaceMembers.flatMap (fun m => arrayCells (globalArray m.2) (d.st.globals m.1).length (p.globals m.1))

/-- Cells moved to the start of their object. -/
def shift (o : Nat) (cs : List Cell) : List Cell := cs.map fun c => (o + c.1, c.2)

/-- The table of names. -/
def nameTable (p : Place) (d : Data) : List Cell :=
  d.names.zipIdx.flatMap fun n => nameCells (p.names + n.2 * name.lay.size) n.1.1 (some (p.nameAt n.2))

/-- All objects. -/
def objects (p : Place) (d : Data) (database : Nat) : List Cell :=
  Export.kinds.flatMap fun k => (d.st.all k).flatMap fun r => shift (p.at r) (objectCells p d database r)

/-- The entries of a pointer array. -/
def entryCells (p : Place) (o : Nat) (l : List Ref) : List Cell :=
  l.zipIdx.map fun r => (o + r.2 * 8, .ptr (some (p.at r.1)))

/-- The pointer arrays of an object (inc/clcpp/clcpp.h:690-888). -/
def slotsOf : K → List Slot
  | .type => [.bases]
  | .enum => [.bases, .constants, .attributes]
  | .field => [.attributes]
  | .function => [.parameters, .attributes]
  | .cls => [.bases, .enums, .classes, .methods, .fields, .attributes, .templates]
  | .template => [.instances]
  | .instance => [.bases]
  | .space => [.namespaces, .types, .enums, .classes, .functions, .templates]
  | _ => []

/-- The contents of an array that may never have been allocated. -/
def optEntries (p : Place) (o : Option Nat) (l : List Ref) : List Cell :=
  match o with
  | some o => entryCells p o l
  | none => []

/-- The entries of all pointer arrays. -/
def pointerArrays (p : Place) (d : Data) : List Cell :=
  entryCells p p.typePrims d.st.typePrims ++
  spaceMembers.flatMap (fun m => optEntries p (p.globals m.1) (d.st.globals m.1)) ++
  Export.kinds.flatMap fun k => (d.st.all k).flatMap fun r => (slotsOf k).flatMap fun s =>
    optEntries p (p.kids r s) ((d.st.get r).kids s)

/-- A text with its terminating NUL. -/
def textCell (o : Nat) (t : Bytes) : Cell := (o, .bytes (t ++ [0]))

/-- The text of an object's name. -/
def objectText (p : Place) (d : Data) (r : Ref) : List Cell :=
  match p.textAt r, (d.st.get r).text with
  | some o, some t => [textCell o t]
  | _, _ => []

/-- All texts (src/clReflectExport/CppExport.cpp:62-95, 386-407). -/
def texts (p : Place) (d : Data) : List Cell :=
  (d.names.zipIdx.map fun n => textCell (p.nameAt n.2) n.1.2) ++
  (Export.kinds.flatMap fun k => (d.st.all k).flatMap (objectText p d)) ++
  (d.st.all .textAttr).map fun r => textCell (p.valueAt r) (d.text r)

/-- Everything that is in the image. -/
def cells (p : Place) (d : Data) (database : Nat) : List Cell :=
  headerCells p d ++ nameTable p d ++ objects p d database ++ pointerArrays p d ++ texts p d

/-- The image at address `base` holds the database. -/
def Represents (p : Place) (d : Data) (database base : Nat) (img : Bytes) : Prop :=
  ∀ c ∈ cells p d database, Holds base img c

instance (p : Place) (d : Data) (database base : Nat) (img : Bytes) : Decidable (Represents p d database base img) := by
  unfold Represents; infer_instance

/-! ## Registering the pointers (src/clReflectExport/CppExport.cpp:1229-1418) -/

/-- The schemas in the order they are added (src/clReflectExport/CppExport.cpp:1256-1343). -/
def schemas : List Schema :=
  [schemaDatabase, schemaName, schemaPrimitive, schemaType, schemaEnumConstant, schemaEnum, schemaField, schemaFunction,
   schemaClass, schemaTemplateType, schemaTemplate, schemaNamespace, schemaIntAttribute, schemaIntAttribute,
   schemaPrimitiveAttribute, schemaTextAttribute, schemaPtr, schemaContainerInfo]

/-- The handle of the schema used for a table (src/clReflectExport/CppExport.cpp:1347-1363). -/
def handleOf : K → Nat
  | .type => 3
  | .constant => 4
  | .enum => 5
  | .field => 6
  | .function => 7
  | .cls => 8
  | .instance => 9
  | .template => 10
  | .space => 11
  | .flagAttr => 2
  | .intAttr => 12
  | .floatAttr => 13
  | .primAttr => 14
  | .textAttr => 15
  | .container => 17

/-- The handle of `schema_ptr`. -/
def ptrHandle : Nat := 16

/-- `AddPointers(schema, array)` (src/clReflectExport/PtrRelocator.h:92-98) for the array at an offset of the image. -/
def addArray (start : Nat) (img : Bytes) (rels : List Rel) (a : Nat × Nat) : Res (List Rel) :=
  (arraySize img a.2).bind fun n =>
  match word img (a.2 + offsetOf cArray b!"data") with
  | none => .ub
  | some data => .ok (addPointers start a.1 data n rels)

/-- src/clReflectExport/CppExport.cpp:1347-1363: the arrays of `DatabaseMem` in the order they are added. -/
def mainArrays : List (Nat × Nat) :=
  (1, offsetOf databaseMem b!"names") ::
  [K.type, .constant, .enum, .field, .function, .cls, .instance, .template, .space, .flagAttr, .intAttr, .floatAttr,
    .primAttr, .textAttr].map (fun k => (handleOf k, offsetOf databaseMem (tableMember k))) ++
  [(ptrHandle, offsetOf databaseMem b!"type_primitives"), (handleOf .container, offsetOf databaseMem b!"container_infos")]

/-- src/clReflectExport/CppExport.cpp:1370-1406: the tables whose objects have pointer arrays, and the arrays. -/
def nested : List (K × List Bytes) :=
  [(.enum, [b!"constants", b!"attributes"]), (.field, [b!"attributes"]), (.function, [b!"parameters", b!"attributes"]),
   (.cls, [b!"enums", b!"classes", b!"methods", b!"fields", b!"attributes", b!"templates"]),
   (.template, [b!"instances"]),
   (.space, [b!"namespaces", b!"types", b!"enums", b!"classes", b!"functions", b!"templates"])]

/-- The loop over one table (src/clReflectExport/CppExport.cpp:1370-1406). -/
def addNested (start : Nat) (img : Bytes) (rels : List Rel) (t : K × List Bytes) : Res (List Rel) :=
  (arraySize img (offsetOf databaseMem (tableMember t.1))).bind fun n =>
  match word img (offsetOf databaseMem (tableMember t.1) + offsetOf cArray b!"data") with
  | none => .ub
  | some data =>
    loop (fun rels i => loop (fun rels m =>
        addArray start img rels (ptrHandle, data - start + i * stride t.1 + offsetOf (structOf t.1) m)) t.2 rels)
      (List.range n) rels

/-- src/clReflectExport/CppExport.cpp:1408-1413: the arrays of the global namespace. -/
def globalArrays : List (Nat × Nat) := spaceMembers.map fun m => (ptrHandle, globalArray m.2)

/-- src/clReflectExport/CppExport.cpp:1415-1418: the base types of every type. -/
def addBases (start : Nat) (img : Bytes) (rels : List Rel) : Res (List Rel) :=
  (arraySize img (offsetOf databaseMem b!"type_primitives")).bind fun n =>
  match word img (offsetOf databaseMem b!"type_primitives" + offsetOf cArray b!"data") with
  | none => .ub
  | some data =>
    loop (fun rels i =>
        match word img (data - start + i * 8) with
        | none => .ub
        | some t => addArray start img rels (ptrHandle, t - start + offsetOf type b!"base_types"))
      (List.range n) rels

/-- src/clReflectExport/CppExport.cpp:1345-1418: all relocation instructions for the image at `start`. -/
def register (start : Nat) (img : Bytes) : Res (List Rel) :=
  (loop (addArray start img) mainArrays (addPointers start 0 start 1 [])).bind fun rels =>
  (loop (addNested start img) nested rels).bind fun rels =>
  (loop (addArray start img) globalArrays rels).bind fun rels =>
  addBases start img rels

/-- src/clReflectExport/CppExport.cpp:1229-1472 SaveCppExport: the bytes of the file. -/
def saveExport (pad : Nat → Bytes) (start : Nat) (img : Bytes) : Res Bytes :=
  (register start img).bind fun rels =>
  (makeRelative start schemas rels img).bind fun rel => saveFile pad schemas rels rel

end Clr.Image
