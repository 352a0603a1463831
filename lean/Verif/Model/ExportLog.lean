import Verif.Model.Logging
import Verif.Model.ImagePlan
import Verif.Model.FileUtils
/-
The text log of clexport (`-cpp_log`): `WriteCppExportAsText`, src/clReflectExport/CppExport.cpp:1475-1736, as the calls of the
log it makes (Verif/Model/Logging.lean).

Pointer arrays hold no null pointers here (Verif/Model/Export.lean), so that the tests of lines 1503 and 1614 are left out.
Simplification: the copies of the arrays that are sorted (lines 1607-1610, 1637-1640, 1694-1697) are lists.
-/
namespace Clr.ExportLog
open Clr Clr.Logging Clr.Image
open Clr.Export (K Slot Ref Ptr)

/-- What the log depends on beside the database: the literal `"cppexp"`, which every macro of the file hands over
(src/clReflectCore/Logging.h:60-106), what `%f` prints for the bits of a float, and how `std::sort` orders objects by a number. -/
structure Printer where
  name : Logging.Name
  float : Nat → Bytes
  sort : (Ref → Int) → List Ref → List Ref

/-- `LOG(cppexp, INFO, ...)` (src/clReflectCore/Logging.h:71-77). -/
def line (P : Printer) (text : Bytes) : Op := .log P.name 1 true text

/-- `LOG_APPEND(cppexp, INFO, ...)` (src/clReflectCore/Logging.h:83-89). -/
def more (P : Printer) (text : Bytes) : Op := .log P.name 1 false text

/-- `LOG_NEWLINE(cppexp)` (src/clReflectCore/Logging.h:106). -/
def newline (P : Printer) : Op := line P b!"\n"

/-- `LOG_PUSH_INDENT`, some calls, `LOG_POP_INDENT` (src/clReflectCore/Logging.h:92-103). -/
def inner (P : Printer) (ops : List Op) : List Op := .push P.name :: (ops ++ [.pop P.name])

/-- A 32-bit member as an `int`. -/
def int (n : Nat) : Int := (BitVec.ofNat 32 n).toInt

/-- `%d`. -/
def dec (i : Int) : Bytes := if i < 0 then 45 :: FileUtils.decLoop (-i).toNat [] else FileUtils.decLoop i.toNat []

/-- `name.text` as the argument of `%s`. -/
def nameOf (d : Data) (r : Ref) : Res Bytes :=
  match (d.st.get r).text with
  | some t => .ok t
  | none => .ub

/-- `LogPrimitives` (src/clReflectExport/CppExport.cpp:1498-1507). -/
def logAll (P : Printer) (f : Ref → Res (List Op)) : List Ref → Res (List Op)
  | [] => .ok []
  | r :: rs => do
    let a ← f r
    let b ← logAll P f rs
    .ok (a ++ newline P :: b)

/-- `LogPrimitive` for attributes (src/clReflectExport/CppExport.cpp:1509-1557). -/
def logAttribute (P : Printer) (d : Data) (a : Ref) : Res (List Op) :=
  match a.1 with
  | .flagAttr => do
    let t ← nameOf d a
    .ok [line P (b!"flag: " ++ t)]
  | .intAttr => do
    let t ← nameOf d a
    .ok [line P (b!"int: " ++ t ++ b!" = " ++ dec (d.st.get a).value.toInt)]
  | .floatAttr => do
    let t ← nameOf d a
    .ok [line P (b!"float: " ++ t ++ b!" = " ++ P.float (d.scalar a .number))]
  | .primAttr =>
    match (d.st.get a).target with
    | .obj q => do
      let t ← nameOf d a
      let u ← nameOf d q
      .ok [line P (b!"primitive: " ++ t ++ b!" = " ++ u)]
    | .raw 0 => do
      let t ← nameOf d a
      .ok [line P (b!"primitive: " ++ t ++ b!" = <<UNRESOLVED>>")]
    | .raw _ => .ub
  | .textAttr => do
    let t ← nameOf d a
    .ok [line P (b!"text: " ++ t ++ b!" = " ++ d.text a)]
  | _ => .ok []

/-- `LogAttributes` (src/clReflectExport/CppExport.cpp:1559-1569) for the attributes of an object. -/
def logAttributes (P : Printer) (d : Data) (r : Ref) : Res (List Op) :=
  let as := (d.st.get r).kids .attributes
  if as.length ≠ 0 then do
    let t ← nameOf d r
    let ops ← logAll P (logAttribute P d) as
    .ok (line P (b!"Attributes for " ++ t) :: newline P :: inner P ops)
  else .ok []

/-- The name of a field's type (src/clReflectExport/CppExport.cpp:1574). -/
def typeName (d : Data) (c : Ref) : Res Bytes :=
  match (d.st.get c).type with
  | .obj t => nameOf d t
  | .raw 0 => .ok b!"<<UNRESOLVED TYPE>>"
  | .raw _ => .ub

/-- The name of a field, if it is asked for (src/clReflectExport/CppExport.cpp:1580-1581). -/
def logFieldName (P : Printer) (d : Data) (c : Ref) (named : Bool) : Res (List Op) :=
  if named then do
    let t ← nameOf d c
    .ok [more P (b!" " ++ t)]
  else .ok []

/-- The number of entries of an array (src/clReflectExport/CppExport.cpp:1583-1584). -/
def logCount (P : Printer) (d : Data) (c : Ref) : List Op :=
  match (d.st.get c).ci with
  | some i => [more P (b!"[" ++ dec (int (d.scalar i .count)) ++ b!"]")]
  | none => []

/-- The qualifier behind the type (src/clReflectExport/CppExport.cpp:1576-1578). -/
def opText (d : Data) (c : Ref) : Bytes := if d.scalar c .op = 1 then b!"*" else if d.scalar c .op = 2 then b!"&" else []

/-- `LogField` (src/clReflectExport/CppExport.cpp:1571-1585). -/
def logField (P : Printer) (d : Data) (c : Ref) (named : Bool) : Res (List Op) := do
  let ty ← typeName d c
  let name ← logFieldName P d c named
  .ok (more P (if d.scalar c .isConst ≠ 0 then b!"const " else []) :: more P ty :: more P (opText d c) :: (name ++ logCount P d c))

/-- `LogPrimitive` for fields (src/clReflectExport/CppExport.cpp:1587-1594). -/
def logFieldLine (P : Printer) (d : Data) (c : Ref) : Res (List Op) := do
  let as ← logAttributes P d c
  let f ← logField P d c true
  .ok (as ++ line P [] :: (f ++ [more P b!";"]))

/-- The loop over the parameters (src/clReflectExport/CppExport.cpp:1612-1620). -/
def logParameters (P : Printer) (d : Data) : List Ref → Res (List Op)
  | [] => .ok []
  | [c] => logField P d c true
  | c :: c' :: cs => do
    let a ← logField P d c true
    let b ← logParameters P d (c' :: cs)
    .ok (a ++ more P b!", " :: b)

/-- The offset of a field, which the fields are ordered by (src/clReflectExport/CppExport.cpp:1477-1480). -/
def offsetKey (d : Data) (c : Ref) : Int := int (d.scalar c .offset)

/-- The return value (src/clReflectExport/CppExport.cpp:1600-1608). -/
def logReturn (P : Printer) (d : Data) (r : Ref) : Res (List Op) :=
  match (d.st.get r).ret with
  | some c => do
    let f ← logField P d c false
    .ok (line P [] :: f)
  | none => .ok [line P b!"void"]

/-- `LogPrimitive` for functions (src/clReflectExport/CppExport.cpp:1596-1623). -/
def logFunction (P : Printer) (d : Data) (r : Ref) : Res (List Op) := do
  let as ← logAttributes P d r
  let ret ← logReturn P d r
  let t ← nameOf d r
  let ps ← logParameters P d (P.sort (offsetKey d) ((d.st.get r).kids .parameters))
  .ok (as ++ ret ++ more P (b!" " ++ t ++ b!"(") :: (ps ++ [more P b!");"]))

/-- `LogPrimitive` for enum constants (src/clReflectExport/CppExport.cpp:1625-1628). -/
def logConstant (P : Printer) (d : Data) (c : Ref) : Res (List Op) := do
  let t ← nameOf d c
  .ok [line P (t ++ b!" = " ++ dec (int (d.scalar c .value)) ++ b!",")]

/-- The value of an enum constant, which they are ordered by (src/clReflectExport/CppExport.cpp:1481-1484). -/
def valueKey (d : Data) (c : Ref) : Int := int (d.scalar c .value)

/-- `LogPrimitive` for enums (src/clReflectExport/CppExport.cpp:1630-1648). -/
def logEnum (P : Printer) (d : Data) (r : Ref) : Res (List Op) := do
  let as ← logAttributes P d r
  let t ← nameOf d r
  let cs ← logAll P (logConstant P d) (P.sort (valueKey d) ((d.st.get r).kids .constants))
  .ok (as ++ line P (b!"enum " ++ t ++ b!"\n") :: line P b!"{\n" :: (inner P cs ++ [line P b!"};"]))

/-- The base types (src/clReflectExport/CppExport.cpp:1654-1655, 1685-1686), from the i-th. -/
def logBases (P : Printer) (d : Data) : Nat → List Ref → Res (List Op)
  | _, [] => .ok []
  | i, b :: bs => do
    let t ← nameOf d b
    let ops ← logBases P d (i + 1) bs
    .ok (more P ((if i = 0 then b!" : public " else b!", public ") ++ t) :: ops)

/-- `LogPrimitive` for template types (src/clReflectExport/CppExport.cpp:1650-1658). -/
def logInstance (P : Printer) (d : Data) (r : Ref) : Res (List Op) := do
  let t ← nameOf d r
  let bs ← logBases P d 0 ((d.st.get r).kids .bases)
  .ok (line P (b!"class " ++ t) :: (bs ++ [more P b!"\n"]))

/-- `LogPrimitive` for templates (src/clReflectExport/CppExport.cpp:1660-1672). -/
def logTemplate (P : Printer) (d : Data) (r : Ref) : Res (List Op) := do
  let t ← nameOf d r
  let is ← logAll P (logInstance P d) ((d.st.get r).kids .instances)
  .ok (line P (b!"template " ++ t ++ b!"\n") :: line P b!"{\n" :: (inner P is ++ [line P b!"};"]))

/-- `LogPrimitive` for classes (src/clReflectExport/CppExport.cpp:1674-1708), `fuel` levels of indentation below the 128 that
the log can write: a class that is nested deeper writes behind the prefix (src/clReflectCore/Logging.cpp:246-268). -/
def logClass (P : Printer) (d : Data) : Nat → Ref → Res (List Op)
  | 0, _ => .ub
  | fuel + 1, r => do
    let as ← logAttributes P d r
    let t ← nameOf d r
    let bs ← logBases P d 0 ((d.st.get r).kids .bases)
    let cs ← logAll P (logClass P d fuel) ((d.st.get r).kids .classes)
    let fs ← logAll P (logFieldLine P d) (P.sort (offsetKey d) ((d.st.get r).kids .fields))
    let es ← logAll P (logEnum P d) ((d.st.get r).kids .enums)
    let ms ← logAll P (logFunction P d) ((d.st.get r).kids .methods)
    let ts ← logAll P (logTemplate P d) ((d.st.get r).kids .templates)
    .ok (as ++ line P (b!"class " ++ t) :: (bs ++ more P b!"\n" :: line P b!"{\n" ::
      (inner P (cs ++ fs ++ es ++ ms ++ ts) ++ [line P b!"};"])))

/-- `LogPrimitive` for namespaces that have a name (src/clReflectExport/CppExport.cpp:1710-1731), with `fuel` as above. A
namespace without a name is left out: an unknown name is undefined here. -/
def logSpace (P : Printer) (d : Data) : Nat → Ref → Res (List Op)
  | 0, _ => .ub
  | fuel + 1, r => do
    let t ← nameOf d r
    let ns ← logAll P (logSpace P d fuel) ((d.st.get r).kids .namespaces)
    let cs ← logAll P (logClass P d fuel) ((d.st.get r).kids .classes)
    let es ← logAll P (logEnum P d) ((d.st.get r).kids .enums)
    let fs ← logAll P (logFunction P d) ((d.st.get r).kids .functions)
    let ts ← logAll P (logTemplate P d) ((d.st.get r).kids .templates)
    .ok (line P (b!"namespace " ++ t ++ b!"\n") :: line P b!"{\n" :: (inner P (ns ++ cs ++ es ++ fs ++ ts) ++ [line P b!"}"]))

/-- `LogPrimitive` for the global namespace, which has no name (src/clReflectExport/CppExport.cpp:1719-1723). -/
def logGlobals (P : Printer) (d : Data) : Res (List Op) := do
  let ns ← logAll P (logSpace P d 128) (d.st.globals .namespaces)
  let cs ← logAll P (logClass P d 128) (d.st.globals .classes)
  let es ← logAll P (logEnum P d) (d.st.globals .enums)
  let fs ← logAll P (logFunction P d) (d.st.globals .functions)
  let ts ← logAll P (logTemplate P d) (d.st.globals .templates)
  .ok (ns ++ cs ++ es ++ fs ++ ts)

/-- `WriteCppExportAsText` (src/clReflectExport/CppExport.cpp:1734-1738); `TAG_ALL` is 7 (src/clReflectCore/Logging.h:20-26). -/
def writeText (can : Bytes → Bool) (P : Printer) (d : Data) (file : Bytes) (s : State) : Res State :=
  (logGlobals P d).bind fun ops => Logging.run can (.toFile P.name 7 file :: ops) s

end Clr.ExportLog
