import Verif.Model.Hash

/-!
The walk over a translation unit, src/clReflectScan/ASTConsumer.cpp, and the reflection specs,
src/clReflectScan/ReflectionSpecs.cpp.

Simplifications:
* clang's declarations are trees of `Decl`, with what the walk asks of them; the attributes are those the attribute
  parser returns (`Verif/Model/AttributeParser.lean`), in order;
* names are compared by their text, as `Database::GetName` asserts that no two have the same hash; except that the words
  `reflect`, `reflect_part` and `noreflect` are recognised by their hash, as in the code;
* of the database, the attributes and the primitives' names and parents are kept; the parameters of functions, the types of fields
  and base classes are not, and whether they can be reflected is given by `supported`;
* floats are compared by their bits (the attribute parser makes neither NaN nor negative numbers).
-/
namespace Clr.Scan

/-- The value of an attribute, and thereby its kind. -/
inductive Val where
  | flag | int (v : Int32) | float (bits : UInt32) | prim (symbol : Bytes) | text (t : Bytes)
deriving DecidableEq, Repr

/-- The kind of the attribute: which of the database's maps it is in. -/
def Val.kind : Val → Nat
  | .flag => 0 | .int _ => 1 | .float _ => 2 | .prim _ => 3 | .text _ => 4

/-- A parsed attribute. -/
structure Attr where
  name : Bytes
  val : Val
deriving DecidableEq, Repr

/-- An attribute in the database. -/
structure Rec where
  parent : Bytes
  attr : Attr
deriving DecidableEq, Repr

/-- `clang::Decl::Kind`, as far as `AddDecl` distinguishes them. -/
inductive Kind where
  | namespace | cls | enum | function | method | field | template | constant | other
deriving DecidableEq, Repr

/-- What is asked of a declaration. -/
structure Info where
  /-- `getQualifiedNameAsString()` -/
  name : Bytes
  kind : Kind
  /-- `isInvalidDecl()`; set, too, for the namespaces that are reflection specs -/
  invalid : Bool := false
  /-- the attributes of all annotations -/
  attrs : List Attr := []
  /-- `IsForwardDeclaration` -/
  forward : Bool := false
  /-- a class declaration that is neither a definition nor free standing, ASTConsumer.cpp:786 -/
  skipped : Bool := false
  /-- `isAnonymousStructOrUnion()` of a class -/
  anonymous : Bool := false
  /-- whether bases, types, the number of template parameters and so on can be reflected, and a function is declared for the first time -/
  supported : Bool := true
  /-- the name without its scope -/
  unqualified : Bytes := name
  /-- the names of the constants of an enum -/
  constants : List Bytes := []
deriving DecidableEq, Repr

mutual
/-- A declaration, and the named declarations in it. -/
inductive Decl where
  | mk (info : Info) (kids : Decls)

/-- Declarations in order. -/
inductive Decls where
  | nil
  | cons (d : Decl) (r : Decls)
end

/-- `ParseAttributesResult`, ASTConsumer.cpp:472-478. -/
inductive Mark where
  | normal | reflect | part | no
deriving DecidableEq, Repr

/-- A primitive in the database. -/
structure Entry where
  kind : Kind
  name : Bytes
  parent : Bytes
deriving DecidableEq, Repr

/-- `m_AllowReflect` and the database. -/
structure St where
  allow : Bool := false
  attrs : List Rec := []
  prims : List Entry := []
deriving DecidableEq, Repr

/-! ### Reflection specs -/

/-- `ReflectionSpecType`, of those kept in the map. -/
inductive Spec where
  | full | part
deriving DecidableEq, Repr

/-- `m_ReflectionSpecs`. -/
abbrev Specs := List (Bytes × Spec)

/-- `ReflectionSpecs::Get`, ReflectionSpecs.cpp:143-151. -/
def Specs.get (s : Specs) (name : Bytes) : Option Spec := (s.find? fun e => e.1 == name).map Prod.snd

/-- `AddReflectionSpec`, ReflectionSpecs.cpp:153-161. -/
def Specs.add (s : Specs) (symbol : Bytes) (type : Spec) : Specs := if (s.get symbol).isNone then s ++ [(symbol, type)] else s

/-- One round of `Gather` for the annotation of a reflection spec, ReflectionSpecs.cpp:88-101 (container specs are kept elsewhere). -/
def Specs.annotation (s : Specs) (text : Bytes) : Specs :=
  if text.take 5 = b!"full-" then s.add (text.drop 5) .full
  else if text.take 5 = b!"part-" then s.add (text.drop 5) .part
  else s

/-- `Gather`, ReflectionSpecs.cpp:76-141, for the annotations of the specs in a translation unit. -/
def gather (texts : List Bytes) : Specs := texts.foldl Specs.annotation []

/-! ### Attributes -/

/-- `AddAttribute`, ASTConsumer.cpp:437-448: the first attribute of that name (and kind) is compared. -/
def addAttribute (store : List Rec) (r : Rec) : List Rec :=
  match store.find? (fun x => x.attr.val.kind == r.attr.val.kind && x.attr.name == r.attr.name) with
  | none => store ++ [r]
  | some x => if x ≠ r then store ++ [r] else store

/-- The mark from the specs, ASTConsumer.cpp:488-501. -/
def specMark : Option Spec → Mark
  | some .full => .reflect
  | some .part => .part
  | none => .normal

/-- The mark from the first attribute, ASTConsumer.cpp:542-554. -/
def attrMark (m : Mark) (first : Attr) : Mark :=
  if Hash.hashText first.name = Hash.hashText b!"reflect" then .reflect
  else if Hash.hashText first.name = Hash.hashText b!"reflect_part" then .part
  else if Hash.hashText first.name = Hash.hashText b!"noreflect" then .no
  else m

/-- `result` before forward declarations are considered, ASTConsumer.cpp:484-560. -/
def firstResult (specs : Specs) (i : Info) : Mark :=
  match i.attrs with
  | [] => specMark (specs.get i.name)
  | a :: _ => attrMark (specMark (specs.get i.name)) a

/-- `attr_search_start`, ASTConsumer.cpp:539-560. -/
def searchStart (specs : Specs) (i : Info) : Nat := if i.attrs ≠ [] ∧ firstResult specs i ≠ .normal then 1 else 0

/-- `ParseAttributes`, ASTConsumer.cpp:480-622: the result, and the attributes of the database. -/
def parseAttributes (specs : Specs) (i : Info) (allow : Bool) (store : List Rec) : Mark × List Rec :=
  (if i.forward then .part else firstResult specs i,
   if allow ∨ firstResult specs i ≠ .no then
     (i.attrs.drop (searchStart specs i)).foldl (fun s a => addAttribute s ⟨i.name, a⟩) store
   else store)

/-! ### Declarations -/

/-- `AddPrimitive`. -/
def St.add (s : St) (e : Entry) : St := { s with prims := s.prims ++ [e] }

/-- `AddPrimitive` unless `GetFirstPrimitive` finds one of that kind and name. -/
def St.addOnce (s : St) (e : Entry) : St := if s.prims.any (fun x => x.kind == e.kind && x.name == e.name) then s else s.add e

/-- The names of enum constants, ASTConsumer.cpp:899-904. -/
def constantName (parent c : Bytes) : Bytes := if parent ≠ [] then parent ++ b!"::" ++ c else c

/-- What `AddDecl` does for a declaration that is reflected, ASTConsumer.cpp:695-722; `inner` is `AddContainedDecls` for the declarations
in it. -/
def addKind (i : Info) (inner : Bytes → St → St) (parent : Bytes) (s : St) : St :=
  match i.kind with
  -- `AddNamespaceDecl`, 731-742
  | .namespace => inner i.name (s.addOnce ⟨.namespace, i.name, parent⟩)
  -- `AddClassDecl`, 744-857
  | .cls =>
    if i.skipped then s
    else if !i.forward && !i.supported then s
    else if i.anonymous then inner parent s
    else if i.forward then s.addOnce ⟨.cls, i.name, parent⟩
    else inner i.name (s.addOnce ⟨.cls, i.name, parent⟩)
  -- `AddEnumDecl`, 859-913
  | .enum => i.constants.foldl (fun s c => s.add ⟨.constant, constantName parent c, i.name⟩) (s.add ⟨.enum, i.name, parent⟩)
  -- `AddFunctionDecl`, 915-920, and `AddMethodDecl`, 922-948, with `MakeFunction`, 1020-1107
  | .function => if i.supported then s.add ⟨.function, i.name, parent⟩ else s
  | .method => if i.supported then s.add ⟨.function, i.name, parent⟩ else s
  -- `AddFieldDecl`, 950-979
  | .field => if i.supported then s.add ⟨.field, i.unqualified, parent⟩ else s
  -- `AddClassTemplateDecl`, 981-1002
  | .template => if i.supported then s.addOnce ⟨.template, i.name, parent⟩ else s
  | _ => s

/-- `AddDecl`, ASTConsumer.cpp:668-729, for a declaration, with `AddContainedDecls` for the declarations in it. -/
def addInfo (specs : Specs) (i : Info) (inner : Bytes → St → St) (parent : Bytes) (s : St) : St :=
  if i.invalid then s
  else
    let r := parseAttributes specs i s.allow s.attrs
    let s1 := { s with attrs := r.2 }
    if r.1 = .no then s1
    else if r.1 = .reflect then
      -- the state is changed, and restored at the end
      { addKind i inner parent { s1 with allow := true } with allow := s1.allow }
    else if s1.allow ∨ r.1 = .part then addKind i inner parent s1
    else s1

mutual
/-- `AddDecl`, ASTConsumer.cpp:668-729. -/
def addDecl (specs : Specs) : Decl → Bytes → St → St
  | .mk i kids, parent, s => addInfo specs i (fun p s => addDecls specs kids p s) parent s

/-- `AddContainedDecls`, ASTConsumer.cpp:1004-1018. -/
def addDecls (specs : Specs) : Decls → Bytes → St → St
  | .nil, _, s => s
  | .cons d r, parent, s => addDecls specs r parent (addDecl specs d parent s)
end

/-- The kinds considered at global level, ASTConsumer.cpp:651-663. -/
def topLevel : Kind → Bool
  | .namespace | .cls | .function | .enum | .template => true
  | _ => false

/-- The kind of a declaration. -/
def Decl.kind : Decl → Kind
  | .mk i _ => i.kind

/-- `WalkTranlationUnit`, ASTConsumer.cpp:637-666. -/
def walk (specs : Specs) : Decls → St → St
  | .nil, s => s
  | .cons d r, s => walk specs r (if topLevel d.kind then addDecl specs d [] s else s)

end Clr.Scan
