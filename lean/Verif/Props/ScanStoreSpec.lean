import Verif.Model.ScanStore
import Verif.Props.ScanUnitSpec
/-!
What a translation unit says, read off its declarations, and what a database with that in it holds (specification for C91).
-/
namespace Clr.ScanStore
open Clr.DB Clr.Build
open Clr.ScanUnit (Item St Has Uses classOf namespaceOf)
open Clr.ScanTypes (Declares HasName)

/-- A translation unit: the instances of templates, and the declarations that are recorded with the names of the scopes they are in. -/
structure TUnit where
  env : ScanTypes.Env
  decls : List (Bytes × Item)

/-- The unit declares a class of that name. -/
def TUnit.Class (u : TUnit) (n : Bytes) : Prop := ∃ x ∈ u.decls, ∃ c, classOf x = some c ∧ c.1 = n

/-- The unit defines the class, which is of that size. -/
def TUnit.Defines (u : TUnit) (n : Bytes) (size : Nat) : Prop := ∃ x ∈ u.decls, ScanUnit.sizeOf n x = some size

/-- The unit declares an enum of that name. -/
def TUnit.Enum (u : TUnit) (n : Bytes) : Prop := ∃ x ∈ u.decls, x.2.name = n ∧ ∃ tag cs, x.2.what = .enum tag cs

/-- The unit declares a namespace of that name. -/
def TUnit.Namespace (u : TUnit) (n : Bytes) : Prop := ∃ x ∈ u.decls, ∃ p, namespaceOf x = some (n, p)

/-- A function or method. -/
def IsFunction (i : Item) : Prop :=
  (∃ first result params, i.what = .function first result params) ∨
    ∃ isOperator thisType first result params, i.what = .method isOperator thisType first result params

/-- The unit declares a function or method of that name in that scope. -/
def TUnit.Function (u : TUnit) (parent n : Bytes) : Prop := ∃ x ∈ u.decls, IsFunction x.2 ∧ x.1 = parent ∧ x.2.name = n

/-- The unit declares the constant, with its full name, in that enum. -/
def TUnit.Constant (u : TUnit) (enum n : Bytes) (value : Int32) : Prop :=
  ∃ x ∈ u.decls, x.2.name = enum ∧ ∃ tag cs, x.2.what = .enum tag cs ∧ ∃ c ∈ cs, value = ScanTypes.rawValue c ∧
    n = if x.1 = [] then c.name else x.1 ++ b!"::" ++ c.name

/-- The unit declares the field in that class: its type is of that name, it is a pointer or so, and constant or not, and it is
that many bytes from the start. -/
def TUnit.Field (u : TUnit) (cls n type : Bytes) (op : Hash.Op) (isConst : Bool) (offset : Nat) : Prop :=
  ∃ x ∈ u.decls, x.1 = cls ∧ ∃ holder t bits j, x.2.what = .field holder n t bits ∧ Declares u.env t j ∧ j.name = type ∧ j.op = op ∧
    j.isConst = isConst ∧ bits / 8 = offset

/-- An instance of a template of that name is used by the declarations. -/
def TUnit.Instance (u : TUnit) (n : Bytes) : Prop :=
  ∃ x ∈ u.decls, ∃ parent name t id, Has x parent name t ∧ Uses t id ∧ HasName u.env (.inst id) n

/-- Whether it is a value, a pointer or a reference, in the database. -/
def writtenOp : Hash.Op → QualOp
  | .value => .value
  | .pointer => .pointer
  | .reference => .reference

/-- The types C++ has built in that a database knows, with their sizes where `long` and pointers have 64 bits (`wchar_t` 32). -/
def builtIn : List (Bytes × Nat) :=
  [(b!"void", 0)] ++ [b!"bool", b!"char", b!"unsigned char"].map (·, 1) ++ [b!"short", b!"unsigned short"].map (·, 2) ++
  [b!"int", b!"unsigned int", b!"float", b!"wchar_t"].map (·, 4) ++
  [b!"long", b!"unsigned long", b!"long long", b!"unsigned long long", b!"double"].map (·, 8)

/-- What the database holds of a unit. -/
structure Holds (u : TUnit) (d : Database) : Prop where
  types : ∀ x n, (∃ e ∈ d.types, e.name = x ∧ e.size = n) ↔ ∃ b ∈ builtIn, x = nameOf b.1 ∧ n = UInt64.ofNat b.2
  classes : ∀ x, (∃ e ∈ d.classes, e.name = x) ↔ ∃ n, u.Class n ∧ x = nameOf n
  /-- the size is that of one of the definitions, and without one that of a forward declaration -/
  sizes : ∀ e ∈ d.classes, ∃ n, e.name = nameOf n ∧ ((∃ size, u.Defines n size ∧ e.size = UInt64.ofNat size) ∨
    (¬ ∃ size, u.Defines n size) ∧ e.size = 0xFFFFFFFF)
  enums : ∀ x, (∃ e ∈ d.enums, e.name = x) ↔ ∃ n, u.Enum n ∧ x = nameOf n
  namespaces : ∀ x, (∃ e ∈ d.namespaces, e.name = x) ↔ ∃ n, u.Namespace n ∧ x = nameOf n
  instances : ∀ n, u.Instance n → ∃ e ∈ d.templateTypes, e.name = nameOf n
  onlyInstances : ∀ e ∈ d.templateTypes, ∃ id n, HasName u.env (.inst id) n ∧ e.name = nameOf n
  functions : ∀ x p, (∃ e ∈ d.functions, e.name = x ∧ e.parent = p) ↔ ∃ q n, u.Function q n ∧ x = nameOf n ∧ p = nameOf q
  constants : ∀ x p v, (∃ e ∈ d.enumConstants, e.name = x ∧ e.parent = p ∧ e.value = v) ↔
    ∃ q n, u.Constant q n v ∧ x = nameOf n ∧ p = nameOf q
  /-- fields of classes -/
  fields : ∀ cls n type op isConst offset, u.Field cls n type op isConst offset →
    (⟨⟨nameOf n, nameOf cls⟩, nameOf type, ⟨writtenOp op, isConst⟩, Int32.ofInt offset, 0⟩ : Field) ∈ d.fields
  /-- there are no others but parameters and return values -/
  onlyFields : ∀ f ∈ d.fields, (∃ cls n type op isConst offset, u.Field cls n type op isConst offset ∧
    f = (⟨⟨nameOf n, nameOf cls⟩, nameOf type, ⟨writtenOp op, isConst⟩, Int32.ofInt offset, 0⟩ : Field)) ∨
    ∃ x ∈ u.decls, IsFunction x.2 ∧ f.parent = nameOf x.2.name ∧ ∃ name t j, Has x x.2.name name t ∧ Declares u.env t j ∧
      f.type = nameOf j.name ∧ f.name = nameOf name

end Clr.ScanStore
