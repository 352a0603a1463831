import Verif.Model.Hash
/-
Model of the offline database: src/clReflectCore/Database.h and src/clReflectCore/Database.cpp.

Tables are `std::multimap`s (`DBMap`, src/clReflectCore/Database.h:535-545) or `std::map`s keyed by the
name's hash. A table is modelled as the list of its entries in iteration order, that is sorted by key,
equal keys in insertion order. The key is not stored beside the entry: every insertion in the code uses
`entry.name.hash` as key (`Database::Add`, src/clReflectCore/Database.h:631-640, and
`m_ContainerInfos[ci.name.hash]`, `m_TypeInheritances[ti.name.hash]` in Database.cpp and the readers).
`assert` is modelled as active.
-/
namespace Clr.DB

/-- `cldb::Name` (src/clReflectCore/Database.h:45-65). -/
structure Name where
  hash : UInt32 := 0
  text : Bytes := []
deriving DecidableEq, Repr, Inhabited

/-- `Name::operator ==` (src/clReflectCore/Database.h:54-57): compares the hashes only. -/
def Name.same (a b : Name) : Bool := a.hash == b.hash

/-- `Qualifier::Operator` (src/clReflectCore/Database.h:76-81). -/
inductive QualOp where
  | value | pointer | reference
deriving DecidableEq, Repr, Inhabited

/-- `cldb::Qualifier` (src/clReflectCore/Database.h:74-101). -/
structure Qualifier where
  op : QualOp := .value
  isConst : Bool := false
deriving DecidableEq, Repr, Inhabited

/-- `cldb::Primitive` (src/clReflectCore/Database.h:107-155). The kind is fixed by the record type
that extends it, so it is not stored. -/
structure Prim where
  name : Name := {}
  parent : Name := {}
deriving DecidableEq, Repr, Inhabited

/-- `Primitive::Equals` (src/clReflectCore/Database.h:143-149) for primitives of one kind. -/
def Prim.equals (a b : Prim) : Bool := a.name.same b.name && a.parent.same b.parent

/-- `cldb::Type` (src/clReflectCore/Database.h:240-267); `size_type` is 64 bits wide. -/
structure Ty extends Prim where
  size : UInt64 := 0
deriving DecidableEq, Repr, Inhabited

/-- `cldb::EnumConstant` (src/clReflectCore/Database.h:273-295). -/
structure EnumConstant extends Prim where
  value : Int32 := 0
deriving DecidableEq, Repr, Inhabited

/-- `EnumConstant::Equals` (src/clReflectCore/Database.h:286-289). -/
def EnumConstant.equals (a b : EnumConstant) : Bool := a.toPrim.equals b.toPrim && a.value == b.value

/-- `Enum::Scoped` (src/clReflectCore/Database.h:304-309). -/
inductive Scoped where
  | none | cls | struct
deriving DecidableEq, Repr, Inhabited

/-- `cldb::Enum` (src/clReflectCore/Database.h:301-323). -/
structure Enum extends Ty where
  scope : Scoped := .none
deriving DecidableEq, Repr, Inhabited

/-- `cldb::Field` (src/clReflectCore/Database.h:329-373). -/
structure Field extends Prim where
  type : Name := {}
  qualifier : Qualifier := {}
  offset : Int32 := -1
  parentUniqueId : UInt32 := 0
deriving DecidableEq, Repr, Inhabited

/-- `Field::Equals` (src/clReflectCore/Database.h:347-355). -/
def Field.equals (a b : Field) : Bool :=
  a.toPrim.equals b.toPrim && a.type.same b.type && a.qualifier == b.qualifier &&
  a.offset == b.offset && a.parentUniqueId == b.parentUniqueId

/-- `Field::IsFunctionParameter` (src/clReflectCore/Database.h:357-360). -/
def Field.isFunctionParameter (f : Field) : Bool := f.parentUniqueId != 0

/-- `cldb::Function` (src/clReflectCore/Database.h:381-411). -/
structure Function extends Prim where
  uniqueId : UInt32 := 0
  address : UInt64 := 0
deriving DecidableEq, Repr, Inhabited

/-- `Function::Equals` (src/clReflectCore/Database.h:397-400). -/
def Function.equals (a b : Function) : Bool := a.toPrim.equals b.toPrim && a.uniqueId == b.uniqueId

/-- One template argument: `parameter_types[i]`, `parameter_ptrs[i]`. -/
structure TArg where
  type : Name := {}
  ptr : Bool := false
deriving DecidableEq, Repr, Inhabited

/-- `cldb::TemplateType` (src/clReflectCore/Database.h:419-460) with its `MAX_NB_ARGS` = 4 argument
slots. -/
structure TemplateType extends Ty where
  a0 : TArg := {}
  a1 : TArg := {}
  a2 : TArg := {}
  a3 : TArg := {}
deriving DecidableEq, Repr, Inhabited

/-- `cldb::Template` (src/clReflectCore/Database.h:467-477). -/
structure Template extends Prim
deriving DecidableEq, Repr, Inhabited

/-- `cldb::Class` (src/clReflectCore/Database.h:483-511). -/
structure Class extends Ty where
  isClass : Bool := false
deriving DecidableEq, Repr, Inhabited

/-- `Class::FORWARD_DECL_SIZE` (src/clReflectCore/Database.h:485). -/
def forwardDeclSize : UInt64 := 0xFFFFFFFF

/-- `cldb::Namespace` (src/clReflectCore/Database.h:517-527). -/
structure Namespace extends Prim
deriving DecidableEq, Repr, Inhabited

/-- `cldb::FlagAttribute` (src/clReflectCore/Database.h:185-190). -/
structure FlagAttribute extends Prim
deriving DecidableEq, Repr, Inhabited

/-- `cldb::IntAttribute` (src/clReflectCore/Database.h:191-201). -/
structure IntAttribute extends Prim where
  value : Int32 := 0
deriving DecidableEq, Repr, Inhabited

/-- `IntAttribute::Equals` (src/clReflectCore/Database.h:196-199). -/
def IntAttribute.equals (a b : IntAttribute) : Bool := a.toPrim.equals b.toPrim && a.value == b.value

/-- `cldb::FloatAttribute` (src/clReflectCore/Database.h:202-212). The value is given by its IEEE
single-precision bits. -/
structure FloatAttribute extends Prim where
  bits : UInt32 := 0
deriving DecidableEq, Repr, Inhabited

/-- Is a bit pattern a NaN: exponent all ones and a non-zero mantissa. -/
def isNaN (b : UInt32) : Bool := (b &&& 0x7F800000) == 0x7F800000 && (b &&& 0x007FFFFF) != 0

/-- The C++ `==` on `float`s given by bits: NaN equals nothing, the two zeros are equal. -/
def floatEq (a b : UInt32) : Bool :=
  !isNaN a && !isNaN b && (a == b || (a &&& 0x7FFFFFFF == 0 && b &&& 0x7FFFFFFF == 0))

/-- `FloatAttribute::Equals` (src/clReflectCore/Database.h:207-210). -/
def FloatAttribute.equals (a b : FloatAttribute) : Bool :=
  a.toPrim.equals b.toPrim && floatEq a.bits b.bits

/-- `cldb::PrimitiveAttribute` (src/clReflectCore/Database.h:213-223). -/
structure PrimitiveAttribute extends Prim where
  value : Name := {}
deriving DecidableEq, Repr, Inhabited

/-- `PrimitiveAttribute::Equals` (src/clReflectCore/Database.h:218-221). -/
def PrimitiveAttribute.equals (a b : PrimitiveAttribute) : Bool :=
  a.toPrim.equals b.toPrim && a.value.same b.value

/-- `cldb::TextAttribute` (src/clReflectCore/Database.h:224-234). -/
structure TextAttribute extends Prim where
  value : Bytes := []
deriving DecidableEq, Repr, Inhabited

/-- `TextAttribute::Equals` (src/clReflectCore/Database.h:229-232). -/
def TextAttribute.equals (a b : TextAttribute) : Bool := a.toPrim.equals b.toPrim && a.value == b.value

/-- `cldb::ContainerInfo` (src/clReflectCore/Database.h:563-588). -/
structure ContainerInfo where
  name : Name := {}
  readIterator : Name := {}
  writeIterator : Name := {}
  flags : UInt32 := 0
  count : UInt32 := 0
deriving DecidableEq, Repr, Inhabited

/-- `cldb::TypeInheritance` (src/clReflectCore/Database.h:594-603). -/
structure TypeInheritance where
  name : Name := {}
  derived : Name := {}
  base : Name := {}
deriving DecidableEq, Repr, Inhabited

/-- `cldb::Database` (src/clReflectCore/Database.h:679-710), without the function addresses that only
the exporter fills. -/
structure Database where
  names : List Name := []
  namespaces : List Namespace := []
  types : List Ty := []
  templates : List Template := []
  templateTypes : List TemplateType := []
  classes : List Class := []
  enums : List Enum := []
  enumConstants : List EnumConstant := []
  functions : List Function := []
  fields : List Field := []
  flagAttributes : List FlagAttribute := []
  intAttributes : List IntAttribute := []
  floatAttributes : List FloatAttribute := []
  primitiveAttributes : List PrimitiveAttribute := []
  textAttributes : List TextAttribute := []
  containerInfos : List ContainerInfo := []
  inheritances : List TypeInheritance := []
deriving DecidableEq, Repr, Inhabited

/-- `HashNameString` of a text, as the `u32` the database stores. -/
def hashOf (t : Bytes) : UInt32 := ⟨Hash.hashText t⟩

/-- `std::multimap::insert`: behind the entries with the same key (libstdc++, libc++ and, since C++11,
the standard). -/
def insertBy {α : Type} (key : α → UInt32) (x : α) : List α → List α
  | [] => [x]
  | y :: ys => if key x < key y then x :: y :: ys else y :: insertBy key x ys

/-- `std::map::operator[](key) = x`: overwrite the entry with the key or insert it. -/
def assignBy {α : Type} (key : α → UInt32) (x : α) : List α → List α
  | [] => [x]
  | y :: ys =>
    if key x < key y then x :: y :: ys
    else if key x = key y then x :: ys
    else y :: assignBy key x ys

/-- `find`: the first entry with the key. -/
def findBy {α : Type} (key : α → UInt32) (k : UInt32) (l : List α) : Option α := l.find? (fun x => key x == k)

/-- `Database::Add` (src/clReflectCore/Database.h:631-636): asserts that the name is not empty. -/
def add {α : Type} (key : α → UInt32) (x : α) (l : List α) : Res (List α) :=
  if key x = 0 then .trap else .ok (insertBy key x l)

/-- `Database::GetName(const char*)` (src/clReflectCore/Database.cpp:97-123): the name returned and the
new name map. `none` is the null pointer. -/
def getName (names : List Name) (text : Option Bytes) : Res (Name × List Name) :=
  match text with
  | none => .ok ({}, names)
  | some t =>
    let h := hashOf t
    if h = 0 then .ok ({}, names)
    else
      match findBy Name.hash h names with
      | some n => if n.text = t then .ok (n, names) else .trap
      | none => .ok (⟨h, t⟩, assignBy Name.hash ⟨h, t⟩ names)

/-- `Database::GetName(u32)` (src/clReflectCore/Database.cpp:126-136). -/
def getNameByHash (names : List Name) (h : UInt32) : Name := (findBy Name.hash h names).getD {}

/-- A history of interning calls: the names returned, in order. -/
def internAll (names : List Name) : List (Option Bytes) → Res (List Name × List Name)
  | [] => .ok ([], names)
  | t :: ts => do
    let (n, names) ← getName names t
    let (ns, names) ← internAll names ts
    pure (n :: ns, names)

/-- `GetFirstPrimitive` (src/clReflectCore/Database.h:642-667) on one table. -/
def getFirst {α : Type} (key : α → UInt32) (name : Bytes) (l : List α) : Option α := findBy key (hashOf name) l

/-- `AddTypeInheritance` (src/clReflectCore/Database.cpp:86-94). -/
def addTypeInheritance (db : Database) (derived base : Name) : Res Database := do
  let (n, names) ← getName db.names (some (base.text ++ b!"<-" ++ derived.text))
  pure { db with
    names := names
    inheritances := assignBy (fun t => t.name.hash) ⟨n, derived, base⟩ db.inheritances }

/-- `AddContainerInfo` (src/clReflectCore/Database.cpp:75-83); `HAS_KEY` is 1. -/
def addContainerInfo (db : Database) (container read write : Bytes) (hasKey : Bool) : Res Database := do
  let (n, names) ← getName db.names (some container)
  let (r, names) ← getName names (some read)
  let (w, names) ← getName names (some write)
  pure { db with
    names := names
    containerInfos := assignBy (fun c => c.name.hash)
      ⟨n, r, w, if hasKey then 1 else 0, 0⟩ db.containerInfos }

/-- The names and sizes of `AddBaseTypePrimitives` (src/clReflectCore/Database.cpp:50-72) on a 64-bit
System V target. -/
def baseTypes : List (Bytes × UInt64) :=
  [(b!"void", 0), (b!"bool", 1), (b!"char", 1), (b!"unsigned char", 1), (b!"wchar_t", 4), (b!"short", 2),
   (b!"unsigned short", 2), (b!"int", 4), (b!"unsigned int", 4), (b!"long", 8), (b!"unsigned long", 8),
   (b!"float", 4), (b!"double", 8), (b!"long long", 8), (b!"unsigned long long", 8)]

/-- `AddBaseTypePrimitives` (src/clReflectCore/Database.cpp:50-72). -/
def addBaseTypes (db : Database) : List (Bytes × UInt64) → Res Database
  | [] => .ok db
  | (t, size) :: rest => do
    let (n, names) ← getName db.names (some t)
    let types ← add (fun t : Ty => t.name.hash) { name := n, size := size } db.types
    addBaseTypes { db with names := names, types := types } rest

end Clr.DB
