import Verif.Model.BuildDB
/-!
What a history of calls on a database amounts to, read off the calls alone (specification for C74).
-/
namespace Clr.Build
open Clr.DB Clr.Merge

/-- The kinds kept in tables that allow several entries under one name (src/clReflectCore/Database.h:607-615). -/
def isTable (k : EKind) : Bool :=
  match k with
  | .containerInfo | .inheritance => false
  | _ => true

/-- All entries of a kind, in the order in which the table is walked. -/
def _root_.Clr.DB.Database.table (db : Database) : EKind → List Entry
  | .namespace => db.namespaces.map .namespace
  | .type => db.types.map .type
  | .enum => db.enums.map .enum
  | .template => db.templates.map .template
  | .templateType => db.templateTypes.map .templateType
  | .cls => db.classes.map .cls
  | .containerInfo => db.containerInfos.map .containerInfo
  | .inheritance => db.inheritances.map .inheritance
  | .enumConstant => db.enumConstants.map .enumConstant
  | .function => db.functions.map .function
  | .field => db.fields.map .field
  | .flagAttribute => db.flagAttributes.map .flagAttribute
  | .intAttribute => db.intAttributes.map .intAttribute
  | .floatAttribute => db.floatAttributes.map .floatAttribute
  | .primitiveAttribute => db.primitiveAttributes.map .primitiveAttribute
  | .textAttribute => db.textAttributes.map .textAttribute

/-- The primitives added, in order. -/
def added (calls : List Call) : List Entry :=
  calls.filterMap fun
    | .add e _ => some e
    | _ => none

/-- The sizes given to classes. -/
def sizes (calls : List Call) : List UInt64 :=
  calls.filterMap fun
    | .sizeClass _ s => some s
    | _ => none

/-- The first class under a hash gets a size. -/
def resize (h : UInt32) (size : UInt64) : List Entry → List Entry
  | [] => []
  | .cls c :: l => if c.name.hash = h then .cls { c with size := size } :: l else .cls c :: resize h size l
  | e :: l => e :: resize h size l

/-- What one more call makes of the primitives added so far. -/
def hold (l : List Entry) : Call → List Entry
  | .add e _ => l ++ [e]
  | .sizeClass n s => resize (hashOf n) s l
  | _ => l

/-- The primitives added, in order, the classes with the last sizes given to them. -/
def held (calls : List Call) : List Entry := calls.foldl hold []

/-- The arrays described, in order. -/
def arrays (calls : List Call) : List ContainerInfo :=
  (added calls).filterMap fun
    | .containerInfo c => some c
    | _ => none

/-- The text by which the inheritance of a class from a base is known. -/
def inheritanceText (derived base : Name) : Bytes := base.text ++ b!"<-" ++ derived.text

/-- The texts the calls make names of, in order. -/
def interned (calls : List Call) : List Bytes :=
  calls.flatMap fun
    | .getName (some t) => [t]
    | .getName none => []
    | .add _ _ => []
    | .addContainer c r w _ => [c, r, w]
    | .addInheritance d b => [inheritanceText d b]
    | .sizeClass _ _ => []

/-- The name a database has for a text: a text that hashes to zero, like the empty one, has none. -/
def nameOf (t : Bytes) : Name := if hashOf t = 0 then {} else ⟨hashOf t, t⟩

/-- No two of the texts differ and hash to the same number other than zero. -/
def NoClash (ts : List Bytes) : Prop := ∀ s ∈ ts, ∀ t ∈ ts, hashOf s = hashOf t → hashOf s ≠ 0 → s = t

/-- The containers described, in order. -/
def containers (calls : List Call) : List ContainerInfo :=
  calls.filterMap fun
    | .addContainer c r w k => some { name := nameOf c, readIterator := nameOf r, writeIterator := nameOf w,
                                      flags := if k then 1 else 0 }
    | _ => none

/-- The inheritances told, in order. -/
def inheritances (calls : List Call) : List TypeInheritance :=
  calls.filterMap fun
    | .addInheritance d b => some { name := nameOf (inheritanceText d b), derived := d, base := b }
    | _ => none

/-- The first one under a hash. -/
def firstOf {α : Type} (key : α → UInt32) (k : UInt32) (l : List α) : Option α := l.find? fun x => key x == k

/-- The last one under a hash. -/
def lastOf {α : Type} (key : α → UInt32) (k : UInt32) (l : List α) : Option α := l.reverse.find? fun x => key x == k

/-- All names an entry refers to. -/
def names : Entry → List Name
  | .namespace x => [x.name, x.parent]
  | .type x => [x.name, x.parent]
  | .enum x => [x.name, x.parent]
  | .template x => [x.name, x.parent]
  | .templateType x => [x.name, x.parent, x.a0.type, x.a1.type, x.a2.type, x.a3.type]
  | .cls x => [x.name, x.parent]
  | .containerInfo x => [x.name, x.readIterator, x.writeIterator]
  | .inheritance x => [x.name, x.derived, x.base]
  | .enumConstant x => [x.name, x.parent]
  | .function x => [x.name, x.parent]
  | .field x => [x.name, x.parent, x.type]
  | .flagAttribute x => [x.name, x.parent]
  | .intAttribute x => [x.name, x.parent]
  | .floatAttribute x => [x.name, x.parent]
  | .primitiveAttribute x => [x.name, x.parent, x.value]
  | .textAttribute x => [x.name, x.parent]

end Clr.Build
