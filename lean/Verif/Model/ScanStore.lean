import Verif.Model.ScanUnit
import Verif.Model.ScanTool
import Verif.Model.BuildSpec
/-
What the walk over a translation unit (`Verif/Model/ScanUnit.lean`) makes of the scanner's database: the entries with which
src/clReflectScan/ASTConsumer.cpp calls `AddPrimitive` and `AddTypeInheritance`.

Simplification: the walk of `Verif/Model/ScanUnit.lean` keeps its tables apart, so that the order of calls for different tables, and
calls of `GetName` for things that are left out in the end, are not known here.  `Told` is any history of calls that comes to the
tables; in which order the entries of different tables are added makes no difference to the database (C74).
-/
namespace Clr.ScanStore
open Clr.DB Clr.Build Clr.Merge
open Clr.ScanUnit (St Cls)

/-- `cldb::Qualifier::Operator`. -/
def opOf : Hash.Op → QualOp
  | .value => .value
  | .pointer => .pointer
  | .reference => .reference

/-- The field added, src/clReflectScan/ASTConsumer.cpp:420-421, with the number of the function of a parameter, 1084-1103. -/
def fieldEntry (f : ScanTypes.Field) : Field :=
  { name := nameOf f.name, parent := nameOf f.parent, type := nameOf f.type, qualifier := ⟨opOf f.op, f.isConst⟩
    offset := Int32.ofInt f.offset, parentUniqueId := ⟨f.uid⟩ }

/-- The function added, src/clReflectScan/ASTConsumer.cpp:1078. -/
def functionEntry (f : ScanTypes.Function) : Function :=
  { name := nameOf f.name, parent := nameOf f.parent, uniqueId := ⟨f.uid⟩ }

/-- `cldb::Enum::Scoped`. -/
def scopeOf : ScanTypes.Scoped → Scoped
  | .none => .none
  | .cls => .cls
  | .struct => .struct

/-- The enum added, src/clReflectScan/ASTConsumer.cpp:887; its size is that of an `int` (src/clReflectCore/Database.h:316-320). -/
def enumEntry (e : ScanTypes.Enum) : Enum :=
  { name := nameOf e.name, parent := nameOf e.parent, size := 4, scope := scopeOf e.scope }

/-- The constant added, src/clReflectScan/ASTConsumer.cpp:908. -/
def constantEntry (c : ScanTypes.Constant) : EnumConstant :=
  { name := nameOf c.name, parent := nameOf c.parent, value := c.value }

/-- An argument of an instance of a template, src/clReflectScan/ASTConsumer.cpp:281-285; those there are not stay empty
(src/clReflectCore/Database.h:423-435). -/
def argEntry (ps : List (Bytes × Bool)) (k : Nat) : TArg :=
  match ps[k]? with
  | some p => { type := nameOf p.1, ptr := p.2 }
  | none => {}

/-- The instance of a template added, src/clReflectScan/ASTConsumer.cpp:275-293; the size is a `u32`. -/
def instanceEntry (t : ScanTypes.TemplateType) : TemplateType :=
  { name := nameOf t.name, parent := nameOf t.parent, size := (UInt32.ofNat t.size).toUInt64
    a0 := argEntry t.params 0, a1 := argEntry t.params 1, a2 := argEntry t.params 2, a3 := argEntry t.params 3 }

/-- The template added, src/clReflectScan/ASTConsumer.cpp:999. -/
def templateEntry (t : Bytes × Bytes) : Template := { name := nameOf t.1, parent := nameOf t.2 }

/-- The namespace added, src/clReflectScan/ASTConsumer.cpp:736. -/
def namespaceEntry (n : Bytes × Bytes) : Namespace := { name := nameOf n.1, parent := nameOf n.2 }

/-- The class added, src/clReflectScan/ASTConsumer.cpp:833, with the size written to it later, 839-841. -/
def classEntry (c : Cls) : Class :=
  { name := nameOf c.name, parent := nameOf c.parent, size := UInt64.ofNat c.size, isClass := c.isClass }

/-- The attribute added, src/clReflectScan/ASTConsumer.cpp:578-596 and src/clReflectScan/AttributeParser.cpp:233-274. -/
def attributeEntry (r : Scan.Rec) : Entry :=
  match r.attr.val with
  | .flag => .flagAttribute { name := nameOf r.attr.name, parent := nameOf r.parent }
  | .int v => .intAttribute { name := nameOf r.attr.name, parent := nameOf r.parent, value := v }
  | .float b => .floatAttribute { name := nameOf r.attr.name, parent := nameOf r.parent, bits := b }
  | .prim s => .primitiveAttribute { name := nameOf r.attr.name, parent := nameOf r.parent, value := nameOf s }
  | .text t => .textAttribute { name := nameOf r.attr.name, parent := nameOf r.parent, value := t }

/-- The description of an array, src/clReflectScan/ASTConsumer.cpp:424-431. -/
def arrayEntry (c : ScanTypes.Container) : ContainerInfo :=
  { name := nameOf c.name, flags := 2, count := UInt32.ofNat c.count }

/-- The base class, `AddTypeInheritance`, src/clReflectScan/ASTConsumer.cpp:201 and 813, src/clReflectCore/Database.cpp:86-94. -/
def baseEntry (r : Bytes × Bytes) : TypeInheritance :=
  { name := nameOf (inheritanceText (nameOf r.1) (nameOf r.2)), derived := nameOf r.1, base := nameOf r.2 }

/-- All primitives of the walk. -/
def primitives (s : St) : List Entry :=
  s.data.namespaces.map (fun n => .namespace (namespaceEntry n)) ++
  s.data.classes.map (fun c => .cls (classEntry c)) ++
  s.data.templates.map (fun t => .template (templateEntry t)) ++
  s.data.db.templateTypes.map (fun t => .templateType (instanceEntry t)) ++
  s.data.db.enums.map (fun e => .enum (enumEntry e)) ++
  s.data.db.constants.map (fun c => .enumConstant (constantEntry c)) ++
  s.data.db.functions.map (fun f => .function (functionEntry f)) ++
  s.data.db.fields.map (fun f => .field (fieldEntry f)) ++
  s.attrs.map attributeEntry

/-- The calls come to what the walk has. -/
structure Told (s : St) (calls : List Call) : Prop where
  /-- the primitives, for each table in order -/
  primitives : ∀ k, k ≠ .containerInfo → (held calls).filter (fun e => e.kind = k) = (primitives s).filter fun e => e.kind = k
  /-- the arrays -/
  arrays : arrays calls = s.data.db.containers.map arrayEntry
  /-- the base classes -/
  bases : inheritances calls = s.data.db.inherits.map baseEntry

/-- The texts in entries. -/
def texts (s : St) : List Bytes :=
  s.data.namespaces.flatMap (fun n => [n.1, n.2]) ++ s.data.classes.flatMap (fun c => [c.name, c.parent]) ++
  s.data.templates.flatMap (fun t => [t.1, t.2]) ++
  s.data.db.templateTypes.flatMap (fun t => t.name :: t.parent :: t.params.map Prod.fst) ++
  s.data.db.enums.flatMap (fun e => [e.name, e.parent]) ++ s.data.db.constants.flatMap (fun c => [c.name, c.parent]) ++
  s.data.db.functions.flatMap (fun f => [f.name, f.parent]) ++ s.data.db.fields.flatMap (fun f => [f.name, f.parent, f.type]) ++
  s.attrs.flatMap (fun r => r.attr.name :: r.parent :: match r.attr.val with
    | .prim p => [p]
    | _ => []) ++
  s.data.db.containers.map (fun c => c.name) ++ s.data.db.inherits.flatMap fun r => [r.1, r.2]

/-- One such history: all names first, then the tables one after the other. -/
def tell (s : St) : List Call :=
  (texts s).map (fun t => .getName (some t)) ++
  (primitives s).filterMap (fun e => if h : isPrimitive e = true then some (.add e h) else none) ++
  s.data.db.containers.map (fun c => .add (.containerInfo (arrayEntry c)) rfl) ++
  s.data.db.inherits.map fun r => .addInheritance (nameOf r.1) (nameOf r.2)

end Clr.ScanStore
