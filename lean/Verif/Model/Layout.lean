import Verif.Model.Reloc
/-
The memory layout of the exported types (inc/clcpp/clcpp.h, inc/clcpp/clcpp_internal.h) on a 64-bit platform
with natural alignment (LP64), and the pointer schemas SaveCppExport registers for them.

Simplification: a base class occupies its full size in the derived class. None of the base classes here has
tail padding a compiler could reuse (`Primitive` and `Type` both end in a pointer).
-/
namespace Clr.Layout
open Clr Clr.Reloc

/-- Size, alignment and the pointers of a type: offset, and whether the pointer is stored in the image (`true`)
or is null there and filled in by the runtime (`false`). -/
structure Lay where
  size : Nat
  align : Nat
  ptrs : List (Nat × Bool)
deriving DecidableEq, Repr

/-- A number of `n` bytes. -/
def scalar (n : Nat) : Lay := ⟨n, n, []⟩

/-- A pointer stored in the image. -/
def pointer : Lay := ⟨8, 8, [(0, true)]⟩

/-- A pointer that is null in the image. -/
def runtimePointer : Lay := ⟨8, 8, [(0, false)]⟩

/-- `n` rounded up to a multiple of `a`. -/
def roundUp (n a : Nat) : Nat := (n + a - 1) / a * a

/-- The layout so far with one more member, and the offset of that member. -/
def push (l m : Lay) : Lay × Nat :=
  let o := roundUp l.size m.align
  (⟨o + m.size, max l.align m.align, l.ptrs ++ m.ptrs.map (fun p => (o + p.1, p.2))⟩, o)

/-- A structure being laid out: the layout so far and the offsets of its named members. -/
structure Struct where
  lay : Lay
  members : List (Bytes × Nat)
deriving DecidableEq, Repr

/-- Members added one by one behind the base class. -/
def addMembers : Struct → List (Bytes × Lay) → Struct
  | s, [] => s
  | s, (n, m) :: ms => addMembers ⟨(push s.lay m).1, s.members ++ [(n, (push s.lay m).2)]⟩ ms

/-- A structure with an optional base class; its size is a multiple of its alignment. -/
def struct (base : Option Struct) (ms : List (Bytes × Lay)) : Struct :=
  let s := addMembers (base.getD ⟨⟨0, 1, []⟩, []⟩) ms
  { s with lay := { s.lay with size := roundUp s.lay.size s.lay.align } }

/-- `cldb::meta::OffsetOf` (src/clReflectCore/DatabaseMetadata.h) of a named member. -/
def offsetOf (s : Struct) (n : Bytes) : Nat := ((s.members.find? (fun m => m.1 == n)).map (·.2)).getD 0

/-- inc/clcpp/clcpp.h:427-451 CArray -/
def cArray : Struct := struct none [(b!"size", scalar 4), (b!"data", pointer), (b!"allocator", runtimePointer)]

/-- inc/clcpp/clcpp.h:508-517 Name -/
def name : Struct := struct none [(b!"hash", scalar 4), (b!"text", pointer)]

/-- inc/clcpp/clcpp.h:524-543 Qualifier -/
def qualifier : Struct := struct none [(b!"op", scalar 4), (b!"is_const", scalar 1)]

/-- inc/clcpp/clcpp.h:548-569 ContainerInfo -/
def containerInfo : Struct := struct none
  [(b!"name", name.lay), (b!"read_iterator_type", pointer), (b!"write_iterator_type", pointer), (b!"flags", scalar 4),
   (b!"count", scalar 4)]

/-- inc/clcpp/clcpp.h:574-606 Primitive -/
def primitive : Struct := struct none
  [(b!"kind", scalar 4), (b!"name", name.lay), (b!"parent", pointer), (b!"database", runtimePointer)]

/-- inc/clcpp/clcpp.h:637-644 FlagAttribute -/
def flagAttribute : Struct := struct (some primitive) []

/-- inc/clcpp/clcpp.h:645-654 IntAttribute; inc/clcpp/clcpp.h:655-664 FloatAttribute is laid out the same -/
def intAttribute : Struct := struct (some primitive) [(b!"value", scalar 4)]

/-- inc/clcpp/clcpp.h:665-674 PrimitiveAttribute -/
def primitiveAttribute : Struct := struct (some primitive) [(b!"primitive", pointer)]

/-- inc/clcpp/clcpp.h:675-684 TextAttribute -/
def textAttribute : Struct := struct (some primitive) [(b!"value", pointer)]

/-- inc/clcpp/clcpp.h:690-715 Type -/
def type : Struct := struct (some primitive) [(b!"size", scalar 8), (b!"base_types", cArray.lay), (b!"ci", pointer)]

/-- inc/clcpp/clcpp.h:720-727 EnumConstant -/
def enumConstant : Struct := struct (some primitive) [(b!"value", scalar 4)]

/-- inc/clcpp/clcpp.h:732-746 Enum -/
def enum : Struct := struct (some type)
  [(b!"constants", cArray.lay), (b!"attributes", cArray.lay), (b!"flag_attributes", scalar 4)]

/-- inc/clcpp/clcpp.h:751-776 Field -/
def field : Struct := struct (some primitive)
  [(b!"type", pointer), (b!"qualifier", qualifier.lay), (b!"offset", scalar 4), (b!"parent_unique_id", scalar 4),
   (b!"attributes", cArray.lay), (b!"flag_attributes", scalar 4), (b!"ci", pointer)]

/-- inc/clcpp/clcpp.h:783-807 Function -/
def function : Struct := struct (some primitive)
  [(b!"address", scalar 8), (b!"unique_id", scalar 4), (b!"return_parameter", pointer), (b!"parameters", cArray.lay),
   (b!"attributes", cArray.lay), (b!"flag_attributes", scalar 4)]

/-- inc/clcpp/clcpp.h:815-831 TemplateType; the members of the argument arrays are named one by one -/
def templateType : Struct := struct (some type)
  [(b!"constructor", pointer), (b!"destructor", pointer), (b!"parameter_types", pointer), (b!"1", pointer), (b!"2", pointer),
   (b!"3", pointer), (b!"parameter_ptrs", scalar 1), (b!"1", scalar 1), (b!"2", scalar 1), (b!"3", scalar 1)]

/-- inc/clcpp/clcpp.h:837-845 Template -/
def template : Struct := struct (some primitive) [(b!"instances", cArray.lay)]

/-- inc/clcpp/clcpp.h:850-870 Class -/
def cls : Struct := struct (some type)
  [(b!"constructor", pointer), (b!"destructor", pointer), (b!"enums", cArray.lay), (b!"classes", cArray.lay),
   (b!"methods", cArray.lay), (b!"fields", cArray.lay), (b!"attributes", cArray.lay), (b!"templates", cArray.lay),
   (b!"flag_attributes", scalar 4)]

/-- inc/clcpp/clcpp.h:875-888 Namespace -/
def ns : Struct := struct (some primitive)
  [(b!"namespaces", cArray.lay), (b!"types", cArray.lay), (b!"enums", cArray.lay), (b!"classes", cArray.lay),
   (b!"functions", cArray.lay), (b!"templates", cArray.lay)]

/-- The global namespace inside `DatabaseMem`: nobody names it or gives it a parent
(src/clReflectCpp/clcpp.cpp:363-393, src/clReflectExport/CppExport.cpp:597-636), so its own name and parent
pointers are null in the image. -/
def globalNs : Lay :=
  { ns.lay with ptrs := ns.lay.ptrs.map (fun p => (p.1, p.2 && decide (primitive.lay.size ≤ p.1))) }

/-- inc/clcpp/clcpp_internal.h:11-54 DatabaseMem -/
def databaseMem : Struct := struct none
  [(b!"function_base_address", scalar 8), (b!"name_text_data", pointer), (b!"names", cArray.lay), (b!"types", cArray.lay),
   (b!"enum_constants", cArray.lay), (b!"enums", cArray.lay), (b!"fields", cArray.lay), (b!"functions", cArray.lay),
   (b!"classes", cArray.lay), (b!"templates", cArray.lay), (b!"template_types", cArray.lay), (b!"namespaces", cArray.lay),
   (b!"text_attribute_data", pointer), (b!"flag_attributes", cArray.lay), (b!"int_attributes", cArray.lay),
   (b!"float_attributes", cArray.lay), (b!"primitive_attributes", cArray.lay), (b!"text_attributes", cArray.lay),
   (b!"type_primitives", cArray.lay), (b!"container_infos", cArray.lay), (b!"global_namespace", globalNs)]

/-! ## The schemas of SaveCppExport -/

/-- src/clReflectExport/CppExport.cpp:1234 `array_ofs`: the offset of `data` in an array. -/
def arrayOfs : Nat := offsetOf cArray b!"data"

/-- src/clReflectExport/CppExport.cpp:1257-1284 schema_database -/
def schemaDatabase : Schema := mkSchema databaseMem.lay.size none
  ([offsetOf databaseMem b!"name_text_data"] ++
   [b!"names", b!"types", b!"enum_constants", b!"enums", b!"fields", b!"functions", b!"classes", b!"template_types",
    b!"templates", b!"namespaces"].map (fun n => offsetOf databaseMem n + arrayOfs) ++
   [offsetOf databaseMem b!"text_attribute_data"] ++
   [b!"flag_attributes", b!"int_attributes", b!"float_attributes", b!"primitive_attributes", b!"text_attributes",
    b!"type_primitives", b!"container_infos"].map (fun n => offsetOf databaseMem n + arrayOfs) ++
   [b!"namespaces", b!"types", b!"enums", b!"classes", b!"functions", b!"templates"].map
     (fun n => offsetOf ns n + arrayOfs + offsetOf databaseMem b!"global_namespace"))

/-- src/clReflectExport/CppExport.cpp:1286 schema_name -/
def schemaName : Schema := mkSchema name.lay.size none [offsetOf name b!"text"]

/-- src/clReflectExport/CppExport.cpp:1288-1290 schema_primitive -/
def schemaPrimitive : Schema := mkSchema primitive.lay.size none
  [offsetOf name b!"text" + offsetOf primitive b!"name", offsetOf primitive b!"parent"]

/-- src/clReflectExport/CppExport.cpp:1292-1294 schema_type -/
def schemaType : Schema := mkSchema type.lay.size (some schemaPrimitive)
  [offsetOf type b!"base_types" + arrayOfs, offsetOf type b!"ci"]

/-- src/clReflectExport/CppExport.cpp:1296 schema_enum_constant -/
def schemaEnumConstant : Schema := mkSchema enumConstant.lay.size (some schemaPrimitive) []

/-- src/clReflectExport/CppExport.cpp:1298-1299 schema_enum -/
def schemaEnum : Schema := mkSchema enum.lay.size (some schemaType)
  [offsetOf enum b!"constants" + arrayOfs, offsetOf enum b!"attributes" + arrayOfs]

/-- src/clReflectExport/CppExport.cpp:1301-1302 schema_field -/
def schemaField : Schema := mkSchema field.lay.size (some schemaPrimitive)
  [offsetOf field b!"type", offsetOf field b!"attributes" + arrayOfs, offsetOf field b!"ci"]

/-- src/clReflectExport/CppExport.cpp:1304-1305 schema_function -/
def schemaFunction : Schema := mkSchema function.lay.size (some schemaPrimitive)
  [offsetOf function b!"return_parameter", offsetOf function b!"parameters" + arrayOfs,
   offsetOf function b!"attributes" + arrayOfs]

/-- src/clReflectExport/CppExport.cpp:1307-1315 schema_class -/
def schemaClass : Schema := mkSchema cls.lay.size (some schemaType)
  ([offsetOf cls b!"constructor", offsetOf cls b!"destructor"] ++
   [b!"enums", b!"classes", b!"methods", b!"fields", b!"attributes", b!"templates"].map (fun n => offsetOf cls n + arrayOfs))

/-- src/clReflectExport/CppExport.cpp:1317-1323 schema_template_type -/
def schemaTemplateType : Schema := mkSchema templateType.lay.size (some schemaType)
  ([offsetOf templateType b!"constructor", offsetOf templateType b!"destructor"] ++
   [0, 1, 2, 3].map (fun i => offsetOf templateType b!"parameter_types" + 8 * i))

/-- src/clReflectExport/CppExport.cpp:1325 schema_template -/
def schemaTemplate : Schema := mkSchema template.lay.size (some schemaPrimitive) [offsetOf template b!"instances" + arrayOfs]

/-- src/clReflectExport/CppExport.cpp:1327-1329 schema_namespace -/
def schemaNamespace : Schema := mkSchema ns.lay.size (some schemaPrimitive)
  ([b!"namespaces", b!"types", b!"enums", b!"classes", b!"functions", b!"templates"].map (fun n => offsetOf ns n + arrayOfs))

/-- src/clReflectExport/CppExport.cpp:1331-1332 schema_int_attribute, schema_float_attribute -/
def schemaIntAttribute : Schema := mkSchema intAttribute.lay.size (some schemaPrimitive) []

/-- src/clReflectExport/CppExport.cpp:1334-1335 schema_primitive_attribute -/
def schemaPrimitiveAttribute : Schema := mkSchema primitiveAttribute.lay.size (some schemaPrimitive)
  [offsetOf primitiveAttribute b!"primitive"]

/-- src/clReflectExport/CppExport.cpp:1337 schema_text_attribute -/
def schemaTextAttribute : Schema := mkSchema textAttribute.lay.size (some schemaPrimitive) [offsetOf textAttribute b!"value"]

/-- src/clReflectExport/CppExport.cpp:1339 schema_ptr -/
def schemaPtr : Schema := mkSchema 8 none [0]

/-- src/clReflectExport/CppExport.cpp:1341-1343 schema_container_info -/
def schemaContainerInfo : Schema := mkSchema containerInfo.lay.size none
  [offsetOf name b!"text" + offsetOf containerInfo b!"name", offsetOf containerInfo b!"read_iterator_type",
   offsetOf containerInfo b!"write_iterator_type"]

/-- src/clReflectExport/CppExport.cpp:1348-1365: the arrays registered and the schema used for each. -/
def registered : List (Struct × Schema) :=
  [(databaseMem, schemaDatabase), (name, schemaName), (type, schemaType), (enumConstant, schemaEnumConstant),
   (enum, schemaEnum), (field, schemaField), (function, schemaFunction), (cls, schemaClass),
   (templateType, schemaTemplateType), (template, schemaTemplate), (ns, schemaNamespace),
   (flagAttribute, schemaPrimitive), (intAttribute, schemaIntAttribute), (intAttribute, schemaIntAttribute),
   (primitiveAttribute, schemaPrimitiveAttribute), (textAttribute, schemaTextAttribute),
   (struct none [(b!"ptr", pointer)], schemaPtr), (containerInfo, schemaContainerInfo)]

end Clr.Layout
