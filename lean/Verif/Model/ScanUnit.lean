import Verif.Model.Scan
import Verif.Model.ScanTypes
/-!
The whole walk over a translation unit, src/clReflectScan/ASTConsumer.cpp:637-1107: which declarations are reflected
(`Verif/Model/Scan.lean`) and what is recorded of them (`Verif/Model/ScanTypes.lean`), in one.

Simplifications:
* clang's declarations are trees with what the walk asks of them; as in the two models put together here, names are compared by
  their text, and what is printed to the log is left out;
* the result is `none` if the search through the bases of template instances does not end within the fuel given for it.
-/
namespace Clr.ScanUnit
open Clr.Scan (Attr Rec Specs Kind)
open Clr.ScanTypes (CType Base Env ParamDecl ConstDecl EnumTag Db Out)

/-- What is asked of declarations of the different kinds. -/
inductive What where
  /-- `clang::NamespaceDecl` -/
  | namespace
  /-- `clang::CXXRecordDecl`: `getTagKind() == TTK_Class`, `isThisDeclarationADefinition() != DeclarationOnly`, `isFreeStanding()`,
  `isAnonymousStructOrUnion()`, `getNumVBases()`, `bases()` and `getASTRecordLayout().getSize()` -/
  | cls (isClass definition freeStanding anonymous : Bool) (vbases : Nat) (bases : List Base) (size : Nat)
  /-- `clang::EnumDecl` -/
  | enum (tag : EnumTag) (constants : List ConstDecl)
  /-- `clang::FunctionDecl`: `isFirstDecl()`, the return type as declared and the parameters -/
  | function (first : Bool) (result : CType) (params : List ParamDecl)
  /-- `clang::CXXMethodDecl`: `isOverloadedOperator()` and, if `isInstance()`, `getThisType()`, and the same -/
  | method (isOperator : Bool) (thisType : Option CType) (first : Bool) (result : CType) (params : List ParamDecl)
  /-- `clang::FieldDecl`: `isAnonymousStructOrUnion()`, `getName()`, `getType()` and `getFieldOffset()` in what it is declared in -/
  | field (holder : Bool) (name : Bytes) (type : CType) (bits : Nat)
  /-- `clang::ClassTemplateDecl`: the number of parameters, and whether it is a forward declaration -/
  | template (params : Nat) (forward : Bool)
  /-- anything else -/
  | other
deriving DecidableEq, Repr

/-- What is asked of a declaration. -/
structure Item where
  /-- `getQualifiedNameAsString()` -/
  name : Bytes
  what : What
  /-- `isInvalidDecl()`; set, too, for the namespaces that are reflection specs -/
  invalid : Bool := false
  /-- the attributes of all annotations -/
  attrs : List Attr := []
deriving DecidableEq, Repr

mutual
/-- A declaration and the named declarations in it. -/
inductive Tree (α : Type) where
  | node (item : α) (kids : Forest α)

/-- Declarations in order. -/
inductive Forest (α : Type) where
  | nil
  | cons (t : Tree α) (r : Forest α)
end

/-- `getKind()`, as far as it is told apart (ASTConsumer.cpp:652-658 and 697-722). -/
def What.kind : What → Kind
  | .namespace => .namespace
  | .cls .. => .cls
  | .enum .. => .enum
  | .function .. => .function
  | .method .. => .method
  | .field .. => .field
  | .template .. => .template
  | .other => .other

/-- `IsForwardDeclaration`, ASTConsumer.cpp:450-470; for a template of what it is a template of (502-509). -/
def What.forward : What → Bool
  | .cls _ definition freeStanding _ _ _ _ => !definition && freeStanding
  | .template _ forward => forward
  | _ => false

/-- `cldb::Class`; until it is known its size is `FORWARD_DECL_SIZE`, src/clReflectCore/Database.h:485 and 493-497. -/
structure Cls where
  name : Bytes
  parent : Bytes
  isClass : Bool
  size : Nat := 0xFFFFFFFF
deriving DecidableEq, Repr

/-- The tables of the database that are added to, other than those of attributes. -/
structure Data where
  /-- name and parent -/
  namespaces : List (Bytes × Bytes) := []
  classes : List Cls := []
  /-- name and parent -/
  templates : List (Bytes × Bytes) := []
  db : Db := {}
deriving DecidableEq, Repr

/-- `m_AllowReflect` and the database. -/
structure St where
  allow : Bool := false
  attrs : List Rec := []
  data : Data := {}
deriving DecidableEq, Repr

/-- `AddPrimitive(cldb::Namespace)` unless there is one of that name, ASTConsumer.cpp:733-738. -/
def Data.addNamespace (d : Data) (name parent : Bytes) : Data :=
  if d.namespaces.any (fun n => n.1 == name) then d else { d with namespaces := d.namespaces ++ [(name, parent)] }

/-- `AddPrimitive(cldb::Class)` unless there is one of that name, ASTConsumer.cpp:828-835; the size of a new class is that of a forward declaration. -/
def Data.addClass (d : Data) (name parent : Bytes) (isClass : Bool) : Data :=
  if d.classes.any (fun c => c.name == name) then d
  else { d with classes := d.classes ++ [{ name := name, parent := parent, isClass := isClass }] }

/-- The first class of a name with a size. -/
def setSize (name : Bytes) (size : Nat) : List Cls → List Cls
  | [] => []
  | c :: l => if c.name = name then { c with size := size } :: l else c :: setSize name size l

/-- `class_ptr->size = ...`, ASTConsumer.cpp:839-841. -/
def Data.sizeClass (d : Data) (name : Bytes) (size : Nat) : Data := { d with classes := setSize name size d.classes }

/-- `AddClassTemplateDecl`, ASTConsumer.cpp:981-1002. -/
def Data.addTemplate (d : Data) (name parent : Bytes) (params : Nat) : Data :=
  if d.templates.any (fun t => t.1 == name) then d
  else if params > ScanTypes.maxArgs then d
  else { d with templates := d.templates ++ [(name, parent)] }

/-- The loop over the base classes in `AddClassDecl`, ASTConsumer.cpp:794-814: the inheritance that `ParseBaseClass` has added is added
a second time. -/
def classBases (env : Env) (self : Nat → Db → Out Bytes) (derived : Bytes) : List Base → Db → Out Unit
  | [], db => .ok () db
  | b :: rest, db =>
    (ScanTypes.parseBase env self derived b db).bind fun base db =>
      classBases env self derived rest (db.addInheritance derived base)

/-- The database after a status was printed, if there was one. -/
def after {α : Type} (s : St) : Out α → Option St
  | .never => none
  | .fail _ db => some { s with data := { s.data with db := db } }
  | .ok _ db => some { s with data := { s.data with db := db } }

/-- What `AddDecl` does for a declaration that is reflected, ASTConsumer.cpp:695-722; `inner` is `AddContainedDecls` for the declarations
in it. The layout handed to it is in the fields themselves. -/
def addKind (env : Env) (fuel : Nat) (i : Item) (inner : Bytes → St → Option St) (parent : Bytes) (s : St) : Option St :=
  match i.what with
  -- `AddNamespaceDecl`, 731-742
  | .namespace => inner i.name { s with data := s.data.addNamespace i.name parent }
  -- `AddClassDecl`, 744-857
  | .cls isClass definition freeStanding anonymous vbases bases size =>
    if !definition && !freeStanding then some s
    else if definition && vbases ≠ 0 then some s
    else
      match if definition then classBases env (ScanTypes.parseInst env fuel) i.name bases s.data.db else .ok () s.data.db with
      | .never => none
      | .fail _ db => some { s with data := { s.data with db := db } }
      | .ok _ db =>
        let d := { s.data with db := db }
        if anonymous then inner parent { s with data := d }
        else
          let d := d.addClass i.name parent isClass
          if definition then inner i.name { s with data := d.sizeClass i.name size }
          else some { s with data := d }
  -- `AddEnumDecl`, 859-913
  | .enum tag constants => some { s with data := { s.data with db := ScanTypes.addEnum i.name parent tag constants s.data.db } }
  -- `AddFunctionDecl`, 915-920
  | .function first result params =>
    after s (ScanTypes.makeFunction env (ScanTypes.parseInst env fuel)
      { name := i.name, parent := parent, first := first, result := result, params := params } [] s.data.db)
  -- `AddMethodDecl`, 922-948
  | .method isOperator thisType first result params =>
    after s (ScanTypes.addMethod env (ScanTypes.parseInst env fuel)
      { name := i.name, parent := parent, first := first, result := result, params := params, thisType := thisType, isOperator := isOperator }
      s.data.db)
  -- `AddFieldDecl`, 950-979
  | .field holder name type bits =>
    if holder then some s
    else (ScanTypes.addField env (ScanTypes.parseInst env fuel) parent name type bits s.data.db).map fun db =>
      { s with data := { s.data with db := db } }
  | .template params _ => some { s with data := s.data.addTemplate i.name parent params }
  | .other => some s

/-- `ParseAttributes`, ASTConsumer.cpp:480-622, as modelled in `Verif/Model/Scan.lean`: what it asks of the declaration. -/
def Item.asked (i : Item) : Scan.Info :=
  { name := i.name, kind := i.what.kind, invalid := i.invalid, attrs := i.attrs, forward := i.what.forward }

/-- `AddDecl`, ASTConsumer.cpp:668-729, for a declaration, with `AddContainedDecls` for the declarations in it. -/
def addItem (env : Env) (fuel : Nat) (specs : Specs) (i : Item) (inner : Bytes → St → Option St) (parent : Bytes) (s : St) : Option St :=
  if i.invalid then some s
  else
    let r := Scan.parseAttributes specs i.asked s.allow s.attrs
    let s1 := { s with attrs := r.2 }
    if r.1 = .no then some s1
    else if r.1 = .reflect then
      -- the state is changed, and restored at the end
      (addKind env fuel i inner parent { s1 with allow := true }).map fun s' => { s' with allow := s1.allow }
    else if s1.allow ∨ r.1 = .part then addKind env fuel i inner parent s1
    else some s1

mutual
/-- `AddDecl`, ASTConsumer.cpp:668-729. -/
def addTree (env : Env) (fuel : Nat) (specs : Specs) : Tree Item → Bytes → St → Option St
  | .node i kids, parent, s => addItem env fuel specs i (fun p s => addForest env fuel specs kids p s) parent s

/-- `AddContainedDecls`, ASTConsumer.cpp:1004-1018. -/
def addForest (env : Env) (fuel : Nat) (specs : Specs) : Forest Item → Bytes → St → Option St
  | .nil, _, s => some s
  | .cons t r, parent, s => (addTree env fuel specs t parent s).bind fun s => addForest env fuel specs r parent s
end

/-- The declaration at the top of a tree. -/
def Tree.item {α : Type} : Tree α → α
  | .node i _ => i

/-- `WalkTranlationUnit`, ASTConsumer.cpp:637-666. -/
def walk (env : Env) (fuel : Nat) (specs : Specs) : Forest Item → St → Option St
  | .nil, s => some s
  | .cons t r, s =>
    (if Scan.topLevel t.item.what.kind then addTree env fuel specs t [] s else some s).bind fun s => walk env fuel specs r s

end Clr.ScanUnit
