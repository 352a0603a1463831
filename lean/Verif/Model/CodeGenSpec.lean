import Verif.Model.CodeGen

/-!
Specification of code generation: what a compiler reads in the generated lines, and what is expected of them.
-/
namespace Clr.Gen

/-- The parts of a qualified name: `a::b` has the parts `a` and `b`. -/
def parts : Bytes → List Bytes
  | [] => [[]]
  | 58 :: 58 :: r => [] :: parts r
  | c :: r =>
    match parts r with
    | p :: ps => (c :: p) :: ps
    | [] => [[c]]

/-- The scope a qualified name is in. -/
def scopeOf (text : Bytes) : List Bytes := (parts text).dropLast

/-- The name in its scope. -/
def localOf (text : Bytes) : Bytes := (parts text).getLast?.getD []

/-- A declaration: the namespace it is in, its text, and whether only one compiler sees it. -/
structure Decl where
  path : List Bytes
  text : Bytes
  guarded : Bool
deriving DecidableEq, Repr

/-- What is read in generated lines: the namespaces that are opened, and the declarations. -/
structure Reading where
  opened : List (List Bytes) := []
  declared : List Decl := []
deriving DecidableEq, Repr

/-- Read lines inside a namespace; `name` is the namespace about to be opened. -/
def read (path : List Bytes) (name : Bytes) (guarded : Bool) : List Bytes → Reading
  | [] => {}
  | l :: ls =>
    let t := l.dropWhile (· == 9)
    if t = [] ∨ t.take 2 = b!"//" then read path name guarded ls
    else if t = b!"{" then
      let r := read (path ++ [name]) [] guarded ls
      { r with opened := (path ++ [name]) :: r.opened }
    else if t = b!"}" then read path.dropLast [] guarded ls
    else if t.take 10 = b!"namespace " then read path (t.drop 10) guarded ls
    else if t = b!"#if defined(CLCPP_USING_MSVC)" then read path name true ls
    else if t = b!"#endif" then read path name false ls
    else
      let r := read path name guarded ls
      { r with declared := ⟨path, t, guarded⟩ :: r.declared }

/-- Whether a symbol with this parent is in a namespace of the database, or global. -/
def inNamespace (db : Db) (parent : BitVec 32) : Bool := parent == 0#32 || db.namespaces.any fun n => n.hash == parent

/-- The declaration expected for a class. -/
def Cls.decl (c : Cls) : Decl := ⟨scopeOf c.text, (if c.isClass then b!"class " else b!"struct ") ++ localOf c.text ++ b!";", false⟩

/-- The declaration expected for an enum: unscoped enums can only be declared with one compiler. -/
def En.decl (e : En) : Decl :=
  match e.scope with
  | .none => ⟨scopeOf e.text, b!"enum " ++ localOf e.text ++ b!";", true⟩
  | .cls => ⟨scopeOf e.text, b!"enum class " ++ localOf e.text ++ b!";", false⟩
  | .struct => ⟨scopeOf e.text, b!"enum struct " ++ localOf e.text ++ b!";", false⟩

/-- The expected declarations: one for each class and enum that is not inside a class. -/
def decls (db : Db) : List Decl :=
  (db.classes.filter fun c => inNamespace db c.parent).map Cls.decl ++ (db.enums.filter fun e => inNamespace db e.parent).map En.decl

/-- Identifiers, of a length that fits the line buffer. -/
def Ident (x : Bytes) : Prop := 58 ∉ x ∧ x.length ≤ 498

/-- Whether a symbol's name spells where it is: its scope is the name of its parent. -/
def Placed (db : Db) (text : Bytes) (parent : BitVec 32) : Prop :=
  (∀ x ∈ parts text, Ident x) ∧
    (scopeOf text = [] ∧ parent = 0#32 ∨ ∃ n ∈ db.namespaces, n.hash = parent ∧ parts n.text = scopeOf text)

/-- Databases in which all names spell where the symbols are. -/
structure Spelled (db : Db) : Prop where
  nonzero : ∀ n ∈ db.namespaces, n.hash ≠ 0#32
  hashes : (db.namespaces.map Ns.hash).Nodup
  texts : (db.namespaces.map Ns.text).Nodup
  namespaces : ∀ n ∈ db.namespaces, Placed db n.text n.parent
  classes : ∀ c ∈ db.classes, inNamespace db c.parent = true → Placed db c.text c.parent
  enums : ∀ e ∈ db.enums, inNamespace db e.parent = true → Placed db e.text e.parent

end Clr.Gen
