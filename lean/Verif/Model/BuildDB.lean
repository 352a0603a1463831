import Verif.Props.Merge
/-
Model of the calls with which the scanner and the tools fill a database (src/clReflectCore/Database.h:620-640,
src/clReflectCore/Database.cpp:50-136): a history of calls on one database.
-/
namespace Clr.Build
open Clr.DB Clr.Merge

/-- What `AddPrimitive` is called with: all kinds but inheritances. -/
def isPrimitive (e : Entry) : Bool :=
  match e with
  | .inheritance _ => false
  | _ => true

/-- `std::map::insert`: an entry that is there under the key is kept. -/
def insertNew {α : Type} (key : α → UInt32) (x : α) : List α → List α
  | [] => [x]
  | y :: ys =>
    if key x < key y then x :: y :: ys
    else if key x = key y then y :: ys
    else y :: insertNew key x ys

/-- `AddPrimitive` (src/clReflectCore/Database.h:627-640) into the table of its kind (`GetDBMap`, lines 713-735). -/
def addPrimitive (db : Database) : Entry → Res Database
  | .namespace x => (add (fun y : Namespace => y.name.hash) x db.namespaces).map fun l => { db with namespaces := l }
  | .type x => (add (fun y : Ty => y.name.hash) x db.types).map fun l => { db with types := l }
  | .enum x => (add (fun y : Enum => y.name.hash) x db.enums).map fun l => { db with enums := l }
  | .template x => (add (fun y : Template => y.name.hash) x db.templates).map fun l => { db with templates := l }
  | .templateType x => (add (fun y : TemplateType => y.name.hash) x db.templateTypes).map fun l => { db with templateTypes := l }
  | .cls x => (add (fun y : Class => y.name.hash) x db.classes).map fun l => { db with classes := l }
  | .enumConstant x => (add (fun y : EnumConstant => y.name.hash) x db.enumConstants).map fun l => { db with enumConstants := l }
  | .function x => (add (fun y : Function => y.name.hash) x db.functions).map fun l => { db with functions := l }
  | .field x => (add (fun y : Field => y.name.hash) x db.fields).map fun l => { db with fields := l }
  | .flagAttribute x => (add (fun y : FlagAttribute => y.name.hash) x db.flagAttributes).map fun l => { db with flagAttributes := l }
  | .intAttribute x => (add (fun y : IntAttribute => y.name.hash) x db.intAttributes).map fun l => { db with intAttributes := l }
  | .floatAttribute x => (add (fun y : FloatAttribute => y.name.hash) x db.floatAttributes).map fun l => { db with floatAttributes := l }
  | .primitiveAttribute x =>
    (add (fun y : PrimitiveAttribute => y.name.hash) x db.primitiveAttributes).map fun l => { db with primitiveAttributes := l }
  | .textAttribute x => (add (fun y : TextAttribute => y.name.hash) x db.textAttributes).map fun l => { db with textAttributes := l }
  -- a `std::map` (lines 607-610); for fields that are arrays, src/clReflectScan/ASTConsumer.cpp:423-431
  | .containerInfo x => if x.name.hash = 0 then .trap else
    .ok { db with containerInfos := insertNew (fun y : ContainerInfo => y.name.hash) x db.containerInfos }
  | .inheritance _ => .ok db

/-- The first class under a hash with another size. -/
def resizeClass (h : UInt32) (size : UInt64) : List Class → List Class
  | [] => []
  | c :: l => if c.name.hash = h then { c with size := size } :: l else c :: resizeClass h size l

/-- One call. -/
inductive Call where
  /-- `GetName(text)` -/
  | getName (text : Option Bytes)
  /-- `AddPrimitive(e)` -/
  | add (e : Entry) (h : isPrimitive e = true)
  /-- `AddContainerInfo` -/
  | addContainer (container read write : Bytes) (hasKey : Bool)
  /-- `AddTypeInheritance` -/
  | addInheritance (derived base : Name)
  /-- a size written to what `GetFirstPrimitive<Class>(name)` points to, if anything (src/clReflectScan/ASTConsumer.cpp:829-841) -/
  | sizeClass (name : Bytes) (size : UInt64)

/-- The database after the call (src/clReflectCore/Database.cpp:75-123, src/clReflectCore/Database.h:627-640). -/
def step (db : Database) : Call → Res Database
  | .getName t => (DB.getName db.names t).map fun r => { db with names := r.2 }
  | .add e _ => addPrimitive db e
  | .addContainer c r w k => addContainerInfo db c r w k
  | .addInheritance d b => addTypeInheritance db d b
  | .sizeClass n s => .ok { db with classes := resizeClass (hashOf n) s db.classes }

/-- The database after a history of calls. -/
def run (db : Database) : List Call → Res Database
  | [] => .ok db
  | c :: cs => (step db c).bind fun db => run db cs

end Clr.Build
