import Verif.Model.Hash
import Verif.Model.FileUtils

/-!
Types, fields, functions, classes' members and enums as clscan records them,
src/clReflectScan/ASTConsumer.cpp:125-435 and 744-1107.

Simplifications:
* clang's types are trees of `CType`, except that the instances of class templates are numbers, looked up in an `Env`, because an
  instance can occur in its own base classes;
* of the qualifiers only `const` is kept; `volatile` and `restrict` are neither recorded nor printed;
* names are compared by their text, as `Database::GetName` asserts that no two have the same hash;
* the recursion between template instances is bounded by fuel, and the outcome `never` is that of the fuel running out;
* what is printed to the log is left out, except that failures that print nothing are told from those that do;
* which of the declarations are reflected at all is the subject of `Verif/Model/Scan.lean`, and left out here.
-/
namespace Clr.ScanTypes
open Clr.FileUtils
open Clr.Hash (Op)

/-! ### What clang has parsed -/

/-- A type in the source, `clang::QualType`. -/
inductive CType where
  /-- `BuiltinType`, by its printed name -/
  | builtin (name : Bytes)
  /-- `EnumType`: what is printed is `keyword`, which may be empty, and the qualified name -/
  | enum (keyword name : Bytes)
  /-- `RecordType` of something that is not a template instance: what is printed is `keyword`, which may be empty, and the qualified name -/
  | record (keyword name : Bytes)
  /-- `RecordType` of an instance of a class template -/
  | inst (id : Nat)
  /-- the same, written as a template and its arguments, `TemplateSpecializationType` -/
  | spec (id : Nat)
  /-- `TypedefType` or `ElaboratedType` -/
  | alias (t : CType)
  | const (t : CType)
  | pointer (t : CType)
  | lref (t : CType)
  | rref (t : CType)
  | array (n : Nat) (t : CType)
  /-- any other class of types: functions, member pointers, decayed arrays, ... -/
  | other (name : Bytes)
deriving DecidableEq, Repr

/-- `clang::TemplateArgument`. -/
inductive Arg where
  | type (t : CType)
  | other
deriving DecidableEq, Repr

/-- `clang::CXXBaseSpecifier`. -/
structure Base where
  virt : Bool := false
  type : CType
deriving DecidableEq, Repr

/-- `clang::ClassTemplateSpecializationDecl`. -/
structure Inst where
  /-- `getSpecializedTemplate()->getQualifiedNameAsString()` -/
  tname : Bytes
  args : List Arg
  bases : List Base := []
  size : Nat := 1
  /-- `getTemplateSpecializationKind() != TSK_Undeclared` -/
  declared : Bool := true
  /-- the type as clang prints it -/
  printed : Bytes := []
deriving DecidableEq, Repr

/-- The instances of templates in a translation unit. -/
abbrev Env := Nat → Inst

/-- `QualType::split().Ty`: the type without its local qualifiers. -/
def CType.strip : CType → CType
  | .const t => t.strip
  | t => t

/-- `QualType::split().Quals.hasConst()`. -/
def CType.isConst : CType → Bool
  | .const _ => true
  | _ => false

/-- `QualType::getCanonicalType`: no typedefs and no elaboration, at any depth. -/
def CType.canon : CType → CType
  | .alias t => t.canon
  | .spec id => .inst id
  | .const t => .const t.canon
  | .pointer t => .pointer t.canon
  | .lref t => .lref t.canon
  | .rref t => .rref t.canon
  | .array n t => .array n t.canon
  | t => t

/-- `ClangASTType::UpdateTypedefOrElaborated`, ASTConsumer.cpp:165-170. -/
def CType.update (t : CType) : CType :=
  match t.strip with
  | .alias _ => t.canon
  | _ => t

/-- `QualType::getAsString` of a type without local qualifiers; only of the types it is used for. -/
def printed (env : Env) : CType → Bytes
  | .builtin n => n
  | .enum k n => k ++ n
  | .record k n => k ++ n
  | .inst id => (env id).printed
  | .spec id => (env id).printed
  | .other n => n
  | _ => []

/-! ### The database -/

/-- `cldb::TemplateType`, with as many arguments as there are: the type and whether it is a pointer. -/
structure TemplateType where
  name : Bytes
  parent : Bytes
  size : Nat
  params : List (Bytes × Bool)
deriving DecidableEq, Repr

/-- `cldb::ContainerInfo` of an array: `IS_C_ARRAY` and the count. -/
structure Container where
  name : Bytes
  count : Nat
deriving DecidableEq, Repr

/-- `cldb::Field`. -/
structure Field where
  name : Bytes
  parent : Bytes
  type : Bytes
  op : Op
  isConst : Bool
  /-- `offset`: the index of a parameter, −1 for the return value -/
  offset : Int
  uid : BitVec 32 := 0#32
deriving DecidableEq, Repr

/-- `cldb::Function`. -/
structure Function where
  name : Bytes
  parent : Bytes
  uid : BitVec 32
deriving DecidableEq, Repr

/-- `cldb::EnumConstant`. -/
structure Constant where
  name : Bytes
  parent : Bytes
  value : Int32
deriving DecidableEq, Repr

/-- `cldb::Enum::Scoped`, src/clReflectCore/Database.h. -/
inductive Scoped where
  | none | cls | struct
deriving DecidableEq, Repr

/-- `cldb::Enum`. -/
structure Enum where
  name : Bytes
  parent : Bytes
  scope : Scoped := .none
deriving DecidableEq, Repr

/-- The tables that are added to. -/
structure Db where
  templateTypes : List TemplateType := []
  /-- derived and base -/
  inherits : List (Bytes × Bytes) := []
  containers : List Container := []
  functions : List Function := []
  fields : List Field := []
  enums : List Enum := []
  constants : List Constant := []
deriving DecidableEq, Repr

/-- `GetFirstPrimitive<TemplateType>(name) != 0`. -/
def Db.hasTemplateType (db : Db) (name : Bytes) : Bool := db.templateTypes.any (fun t => t.name == name)

/-- `AddTypeInheritance`, src/clReflectCore/Database.cpp:86-94. -/
def Db.addInheritance (db : Db) (derived base : Bytes) : Db :=
  if (derived, base) ∈ db.inherits then db else { db with inherits := db.inherits ++ [(derived, base)] }

/-- The outcome of a parse: a result, or a status with messages (`silent`: that of `SilentFail`), and the database. -/
inductive Out (α : Type) where
  | never
  | fail (silent : Bool) (db : Db)
  | ok (a : α) (db : Db)
deriving DecidableEq, Repr

/-- `if (status.HasWarnings()) return ...`. -/
def Out.bind {α β : Type} (x : Out α) (f : α → Db → Out β) : Out β :=
  match x with
  | .never => .never
  | .fail s db => .fail s db
  | .ok a db => f a db

/-! ### Types -/

/-- `ParameterInfo`, ASTConsumer.cpp:131-140. -/
structure PInfo where
  name : Bytes
  op : Op
  isConst : Bool
  count : Nat
deriving DecidableEq, Repr

/-- `Remove`, ASTConsumer.cpp:125-129, with fuel that suffices. -/
def removeAll (pat s : Bytes) : Bytes := (remove pat (s.length + 1) s).getD s

/-- `StringReplace`, with fuel that suffices. -/
def replaceAll (pat w s : Bytes) : Bytes := (stringReplace (s.length + 1) s pat w).getD s

/-- The clean up of the type's name, ASTConsumer.cpp:389-405. -/
def cleanName (s : Bytes) : Bytes :=
  replaceAll b!" &" b!"&" (replaceAll b!" *" b!"*" (removeAll b!"class " (removeAll b!"struct " (removeAll b!"enum " s))))

/-- The second `ParseTemplateSpecialisation`, ASTConsumer.cpp:299-325; `self` is the first. -/
def specialise (env : Env) (self : Nat → Db → Out Bytes) (t : CType) (name : Bytes) (db : Db) : Out Bytes :=
  match t with
  | .inst id => if (env id).declared then self id db else .ok name db
  | .spec id => if (env id).declared then self id db else .fail true db
  | _ => .ok name db

/-- The type classes that are recorded, ASTConsumer.cpp:370-381 (an `ElaboratedType` is not left at that point). -/
def recordable : CType → Bool
  | .builtin _ | .enum _ _ | .record _ _ | .inst _ | .spec _ => true
  | _ => false

/-- The array, ASTConsumer.cpp:332-340: the count, and the type to go on with; `none` if there are too many elements. -/
def arrayStep (t : CType) : Option (Nat × CType) :=
  match t.strip with
  | .array n e => if n > 4294967295 then none else some (n, e)
  | _ => some (0, t)

/-- The pointer or reference, ASTConsumer.cpp:347-359. -/
def pointeeStep (t : CType) : Op × CType :=
  match t.strip with
  | .pointer u => (.pointer, u)
  | .lref u => (.reference, u)
  | _ => (.value, t)

/-- `GetParameterInfo`, ASTConsumer.cpp:327-408. -/
def paramInfo (env : Env) (self : Nat → Db → Out Bytes) (t : CType) (db : Db) : Out PInfo :=
  match arrayStep t with
  | none => .fail false db
  | some (count, elem) =>
    let p := pointeeStep elem.update
    let b := p.2.update
    if recordable b.strip then
      (specialise env self b.strip (printed env b.strip) db).bind fun name db =>
        .ok { name := cleanName name, op := p.1, isConst := b.isConst, count := count } db
    else .fail false db

/-! ### Instances of templates -/

/-- The loop over the template's arguments, ASTConsumer.cpp:229-256, without the type's name. -/
def argLoop (env : Env) (self : Nat → Db → Out Bytes) : List Arg → List PInfo → Db → Out (List PInfo)
  | [], done, db => .ok done db
  | .other :: _, _, db => .fail false db
  | .type t :: rest, done, db =>
    (paramInfo env self t db).bind fun i db =>
      if i.op = .reference then .fail false db
      else if i.count ≠ 0 then .fail false db
      else argLoop env self rest (done ++ [i]) db

/-- The text of an argument, ASTConsumer.cpp:253-255. -/
def argText (i : PInfo) : Bytes := i.name ++ (if i.op = .pointer then b!"*" else [])

/-- The arguments, each but the first after a comma, ASTConsumer.cpp:250-255. -/
def argsText : List PInfo → Bytes
  | [] => []
  | [i] => argText i
  | i :: rest => argText i ++ b!"," ++ argsText rest

/-- The name of the instance, ASTConsumer.cpp:212, 219 and 250-258. -/
def instName (tname : Bytes) (args : List PInfo) : Bytes := tname ++ b!"<" ++ argsText args ++ b!">"

/-- `ParseBaseClass`, ASTConsumer.cpp:177-203. A base class has no qualifiers. -/
def parseBase (env : Env) (self : Nat → Db → Out Bytes) (derived : Bytes) (b : Base) (db : Db) : Out Bytes :=
  let t := b.type.update.strip
  let text := removeAll b!"class " (removeAll b!"struct " (printed env t))
  if b.virt then .fail false db
  else (specialise env self t text db).bind fun name db => .ok name (db.addInheritance derived name)

/-- The loop over the base classes of an instance, ASTConsumer.cpp:266-275. -/
def baseLoop (env : Env) (self : Nat → Db → Out Bytes) (derived : Bytes) : List Base → Db → Out Unit
  | [], db => .ok () db
  | b :: rest, db => (parseBase env self derived b db).bind fun _ db => baseLoop env self derived rest db

/-- `TemplateType::MAX_NB_ARGS`, src/clReflectCore/Database.h. -/
def maxArgs : Nat := 4

/-- The first `ParseTemplateSpecialisation`, ASTConsumer.cpp:205-297; `self` is itself, for the arguments and the bases. -/
def instBody (env : Env) (self : Nat → Db → Out Bytes) (id : Nat) (db : Db) : Out Bytes :=
  if (env id).args.length ≥ maxArgs then .fail false db
  else
    (argLoop env self (env id).args [] db).bind fun infos db =>
      let name := instName (env id).tname infos
      if db.hasTemplateType name then .ok name db
      else
        (baseLoop env self name (env id).bases db).bind fun _ db =>
          .ok name { db with templateTypes := db.templateTypes ++
            [{ name := name, parent := (env id).tname, size := (env id).size,
               params := infos.map fun i => (i.name, i.op == .pointer) }] }

/-- `ParseTemplateSpecialisation`, ASTConsumer.cpp:205-297, for a number of instances nested in each other. -/
def parseInst (env : Env) : Nat → Nat → Db → Out Bytes
  | 0, _, _ => .never
  | n + 1, id, db => instBody env (parseInst env n) id db

/-! ### Fields and functions -/

/-- `MakeField`, ASTConsumer.cpp:410-435. -/
def makeField (env : Env) (self : Nat → Db → Out Bytes) (t : CType) (name parent : Bytes) (offset : Int) (db : Db) : Out Field :=
  (paramInfo env self t db).bind fun i db =>
    .ok { name := name, parent := parent, type := i.name, op := i.op, isConst := i.isConst, offset := offset }
      (if i.count ≠ 0 then
        { db with containers := db.containers ++ [{ name := parent ++ b!"::" ++ name, count := i.count }] }
      else db)

/-- A parameter in a declaration: its name, empty if it has none, and type. -/
structure ParamDecl where
  name : Bytes
  type : CType
deriving DecidableEq, Repr

/-- `clang::FunctionDecl`. -/
structure FnDecl where
  name : Bytes
  parent : Bytes
  /-- `isFirstDecl()` -/
  first : Bool := true
  /-- the return type as declared -/
  result : CType
  params : List ParamDecl
deriving DecidableEq, Repr

/-- `QualType::getUnqualifiedType`, which looks into typedefs when there is a qualifier in them. -/
def CType.unqual : CType → CType
  | .const t => t.unqual
  | .alias t => if t.canon.isConst then t.unqual else .alias t
  | t => t

/-- The type without its typedefs and qualifiers, but not without those of what it is made of. -/
def CType.peel : CType → CType
  | .const t => t.peel
  | .alias t => t.peel
  | t => t

/-- `FunctionDecl::getCallResultType`, which is the type of an expression that calls the function: what is referred to if a reference is
returned, and without `const` unless it is a class (clang's `getNonLValueExprType`). -/
def callResult (t : CType) : CType :=
  match t.peel with
  | .lref u => u
  | .rref u => u
  | .record _ _ => t
  | .inst _ => t
  | .spec _ => t
  | _ => t.unqual

/-- The names of parameters, ASTConsumer.cpp:1045-1051. -/
def paramName (p : ParamDecl) (index : Nat) : Bytes :=
  if p.name = [] then b!"unnamed" ++ itoa (UInt32.ofNat index) else p.name

/-- The loop over the parameters, ASTConsumer.cpp:1040-1064. -/
def paramLoop (env : Env) (self : Nat → Db → Out Bytes) (fn : Bytes) : List ParamDecl → Nat → List Field → Db → Out (List Field)
  | [], _, done, db => .ok done db
  | p :: rest, index, done, db =>
    (makeField env self p.type (paramName p index) fn index db).bind fun f db =>
      paramLoop env self fn rest (index + 1) (done ++ [f]) db

/-- The part of a field that is in the function's unique id. -/
def hashParam (f : Field) : Hash.Param := { typeText := f.type, op := f.op, isConst := f.isConst }

/-- The end of `MakeFunction`, ASTConsumer.cpp:1066-1107. -/
def addFunction (d : FnDecl) (ret : Field) (params : List Field) (db : Db) : Db :=
  let uid := Hash.uniqueId (params.map hashParam)
  { db with
    functions := db.functions ++ [{ name := d.name, parent := d.parent, uid := uid }]
    fields := db.fields ++ (if ret.type ≠ b!"void" then [{ ret with uid := uid }] else []) ++
      params.map fun f => { f with uid := uid } }

/-- `MakeFunction`, ASTConsumer.cpp:1020-1107; the failures are printed and nothing else happens. -/
def makeFunction (env : Env) (self : Nat → Db → Out Bytes) (d : FnDecl) (params : List Field) (db : Db) : Out Unit :=
  if !d.first then .ok () db
  else
    (makeField env self (callResult d.result) b!"return" d.name (-1) db).bind fun ret db =>
      (paramLoop env self d.name d.params params.length params db).bind fun ps db =>
        .ok () (addFunction d ret ps db)

/-- `clang::CXXMethodDecl`: `this`, unless static, is of the type `thisType`. -/
structure MethodDecl extends FnDecl where
  thisType : Option CType
  isOperator : Bool := false
deriving DecidableEq, Repr

/-- `AddMethodDecl`, ASTConsumer.cpp:922-949. -/
def addMethod (env : Env) (self : Nat → Db → Out Bytes) (d : MethodDecl) (db : Db) : Out Unit :=
  if d.isOperator then .ok () db
  else
    match d.thisType with
    | none => makeFunction env self d.toFnDecl [] db
    | some t =>
      (makeField env self t b!"this" d.name 0 db).bind fun f db => makeFunction env self d.toFnDecl [f] db

/-! ### Members of classes -/

mutual
/-- A member of a class. -/
inductive Member where
  /-- a field, and where it begins in its class, in bits (`ASTRecordLayout::getFieldOffset`) -/
  | field (name : Bytes) (t : CType) (bits : Nat)
  /-- an anonymous struct or union, and where the field that holds it begins -/
  | anon (bits : Nat) (members : Members)

/-- Members in order. -/
inductive Members where
  | nil
  | cons (m : Member) (r : Members)
end

/-- `AddFieldDecl`, ASTConsumer.cpp:951-979. A failure is printed, and nothing else. -/
def addField (env : Env) (self : Nat → Db → Out Bytes) (parent name : Bytes) (t : CType) (bits : Nat) (db : Db) : Option Db :=
  match makeField env self t name parent ((bits / 8 : Nat) : Int) db with
  | .never => none
  | .fail _ db => some db
  | .ok f db => some { db with fields := db.fields ++ [f] }

mutual
/-- `AddDecl` for a member, ASTConsumer.cpp:668-729: an anonymous struct adds its members to the class, with its own layout
(`AddClassDecl`, 818-823), and the field that holds it is skipped (958-960). -/
def addMember (env : Env) (self : Nat → Db → Out Bytes) (parent : Bytes) : Member → Db → Option Db
  | .field n t bits, db => addField env self parent n t bits db
  | .anon _ ms, db => addMembers env self parent ms db

/-- `AddContainedDecls`, ASTConsumer.cpp:1004-1018. -/
def addMembers (env : Env) (self : Nat → Db → Out Bytes) (parent : Bytes) : Members → Db → Option Db
  | .nil, db => some db
  | .cons m r, db => (addMember env self parent m db).bind fun db => addMembers env self parent r db
end

/-! ### Enums -/

/-- `clang::EnumConstantDecl`: its value, and the bits of the type it is kept in. -/
structure ConstDecl where
  name : Bytes
  value : Int
  width : Nat := 32
deriving DecidableEq, Repr

/-- `(int)getInitVal().getRawData()[0]`, ASTConsumer.cpp:893-896: an `APInt` is kept without its sign, and the bits beyond its width are
zero. -/
def rawValue (c : ConstDecl) : Int32 := Int32.ofInt ((c.value % (2 ^ c.width : Int)) % (2 ^ 64 : Int))

/-- What is written after `enum` in a declaration: `isScoped()` and `isScopedUsingClassTag()`. -/
structure EnumTag where
  isScoped : Bool := false
  classTag : Bool := false
deriving DecidableEq, Repr

/-- `scoped`, ASTConsumer.cpp:868-883. -/
def scopedOf (t : EnumTag) : Scoped :=
  if t.isScoped then (if t.classTag then .cls else .struct) else .none

/-- `AddEnumDecl`, ASTConsumer.cpp:859-913. -/
def addEnum (name parent : Bytes) (tag : EnumTag) (cs : List ConstDecl) (db : Db) : Db :=
  { db with
    enums := db.enums ++ [{ name := name, parent := parent, scope := scopedOf tag }]
    constants := db.constants ++ cs.map fun c =>
      { name := if parent ≠ [] then parent ++ b!"::" ++ c.name else c.name, parent := name, value := rawValue c } }

end Clr.ScanTypes
