import Verif.Props.ScanStoreSpec
import Verif.Model.ScanTool
import Verif.Props.EndToEndDetails
/-!
What the scanner's database says of the declarations of a translation unit, entry by entry (specification for C91).
-/
namespace Clr.ScanStore
open Clr.DB Clr.Build
open Clr.ScanUnit (Item Has Each Block Says firsts namespaceOf templateOf classOf BaseName)
open Clr.ScanTypes (Declares HasName ArgNames Means)

/-- The entry says how the type is written. -/
inductive SameOp : Hash.Op → QualOp → Prop where
  | value : SameOp .value .value
  | pointer : SameOp .pointer .pointer
  | reference : SameOp .reference .reference

/-- The entry of an enum says what is written after `enum`. -/
inductive SameTag : ScanTypes.EnumTag → Scoped → Prop where
  | plain {c : Bool} : SameTag ⟨false, c⟩ .none
  | cls : SameTag ⟨true, true⟩ .cls
  | struct : SameTag ⟨true, false⟩ .struct

/-- The entry of a field, parameter or return value. -/
structure FieldWritten (f : ScanTypes.Field) (e : Field) : Prop where
  name : e.name = nameOf f.name
  parent : e.parent = nameOf f.parent
  type : e.type = nameOf f.type
  op : SameOp f.op e.qualifier.op
  isConst : e.qualifier.isConst = f.isConst
  offset : e.offset = Int32.ofInt f.offset
  uid : e.parentUniqueId.toBitVec = f.uid

/-- The entry of a function or method; the address is known to clexport only. -/
structure FunctionWritten (f : ScanTypes.Function) (e : Function) : Prop where
  name : e.name = nameOf f.name
  parent : e.parent = nameOf f.parent
  uid : e.uniqueId.toBitVec = f.uid
  address : e.address = 0

/-- The entry of an attribute of something called `parent`. -/
def AttributeWritten (parent : Bytes) (a : Scan.Attr) (e : Tools.Attr) : Prop :=
  e.toPrim.name = nameOf a.name ∧ e.toPrim.parent = nameOf parent ∧
    match a.val, e with
    | .flag, .flag _ => True
    | .int v, .int y => y.value = v
    | .float b, .float y => y.bits = b
    | .prim s, .prim y => y.value = nameOf s
    | .text t, .text y => y.value = t
    | _, _ => False

/-- An instance of a template: it says which template, how large it is, and its arguments, up to four. -/
structure InstanceWritten (env : ScanTypes.Env) (id : Nat) (e : TemplateType) : Prop where
  name : ∃ n, HasName env (.inst id) n ∧ e.name = nameOf n
  parent : e.parent = nameOf (env id).tname
  size : e.size.toNat = (env id).size % 2 ^ 32
  args : ∃ ps : List (Bytes × Bool), ArgNames env (env id).args ps ∧ ∀ (k : Nat) (a : TArg), [e.a0, e.a1, e.a2, e.a3][k]? = some a →
    (∀ q : Bytes × Bool, ps[k]? = some q → a.type = nameOf q.1 ∧ a.ptr = q.2) ∧ (ps[k]? = none → a = {})

/-- The entry of a base class. -/
def BaseWritten (r : Bytes × Bytes) (t : TypeInheritance) : Prop := t.derived = nameOf r.1 ∧ t.base = nameOf r.2

/-- The text by which it is known. -/
def baseText (r : Bytes × Bytes) : Bytes := (nameOf r.2).text ++ b!"<-" ++ (nameOf r.1).text

/-- What the database says: `decls` are the declarations that are recorded, with the names of the scopes they are in, `seen` those that
are reflected, recorded or not, and `all` are all of the unit; `texts` are the reflection specs, and `conts` the containers that macros
declare. -/
structure Records (env : ScanTypes.Env) (texts : List Bytes) (decls seen : List (Bytes × Item)) (all : List Item)
    (conts : List (Bytes × ScanTool.Cont)) (d : Database) : Prop where
  types : ∀ e : Ty, e ∈ d.types ↔ ∃ b ∈ builtIn, e.name = nameOf b.1 ∧ e.parent = {} ∧ e.size = UInt64.ofNat b.2
  enums : ∀ e : Enum, e ∈ d.enums ↔ ∃ x ∈ decls, ∃ tag cs, x.2.what = .enum tag cs ∧ e.name = nameOf x.2.name ∧ e.parent = nameOf x.1 ∧
    e.size = 4 ∧ SameTag tag e.scope
  namespaces : ∀ e : Namespace, e ∈ d.namespaces ↔ ∃ n ∈ firsts Prod.fst (decls.filterMap namespaceOf), e.name = nameOf n.1 ∧ e.parent = nameOf n.2
  templates : ∀ e : Template, e ∈ d.templates ↔ ∃ n ∈ firsts Prod.fst (decls.filterMap templateOf), e.name = nameOf n.1 ∧ e.parent = nameOf n.2
  classes : ∀ e : Class, e ∈ d.classes ↔ ∃ c ∈ firsts Prod.fst (decls.filterMap classOf), e.name = nameOf c.1 ∧ e.parent = nameOf c.2.1 ∧
    e.isClass = c.2.2 ∧ e.size = UInt64.ofNat ((decls.filterMap (ScanUnit.sizeOf c.1)).getLast?.getD 0xFFFFFFFF)
  instances : ∀ e ∈ d.templateTypes, ∃ id, InstanceWritten env id e
  /-- functions, fields and constants are those of the declarations -/
  blocks : ∃ bs, Each (fun x b => Says env x.1 x.2 b) decls bs ∧
    (∀ e, e ∈ d.functions ↔ ∃ b ∈ bs, ∃ f ∈ b.functions, FunctionWritten f e) ∧
    (∀ e, e ∈ d.fields ↔ ∃ b ∈ bs, ∃ f ∈ b.fields, FieldWritten f e) ∧
    ∀ e : EnumConstant, e ∈ d.enumConstants ↔ ∃ b ∈ bs, ∃ c ∈ b.constants, e.name = nameOf c.name ∧ e.parent = nameOf c.parent ∧ e.value = c.value
  attributes : ∀ x ∈ seen, (Scan.specFor texts x.2.name = none ∨ ∃ a as, x.2.attrs = a :: as ∧ Scan.word a.name ≠ none) → ∀ a ∈ x.2.attrs, Scan.word a.name = none →
    ∃ e : Tools.Attr, e.In d ∧ AttributeWritten x.2.name a e
  onlyAttributes : ∀ e : Tools.Attr, e.In d → ∃ i ∈ all, ∃ a ∈ i.attrs, AttributeWritten i.name a e
  /-- base classes, unless two of them are known by texts with the same hash -/
  bases : ∃ rel : List (Bytes × Bytes),
    (∀ x ∈ decls, ∀ isClass freeStanding anonymous vbases bases size, x.2.what = .cls isClass true freeStanding anonymous vbases bases size →
      ∀ b ∈ bases, ∃ c u y, Means b.type c u ∧ HasName env u y ∧ (x.2.name, y) ∈ rel) ∧
    (∀ r ∈ rel, (∃ x ∈ seen, r.1 = x.2.name ∧ ∃ isClass freeStanding anonymous vbases bases size,
        x.2.what = .cls isClass true freeStanding anonymous vbases bases size ∧ BaseName env bases r.2) ∨
      ∃ id, HasName env (.inst id) r.1 ∧ BaseName env (env id).bases r.2) ∧
    (∀ t ∈ d.inheritances, ∃ r ∈ rel, BaseWritten r t) ∧
    ∀ r ∈ rel, (∀ r' ∈ rel, hashOf (baseText r') = hashOf (baseText r) → r' = r) → ∃ t ∈ d.inheritances, BaseWritten r t
  /-- arrays have an entry with the number of their elements -/
  arrays : ∀ x ∈ decls, ∀ parent name t, Has x parent name t → ∀ j, Declares env t j → j.count ≠ 0 →
    ∃ e ∈ d.containerInfos, e.name.hash = (nameOf (parent ++ b!"::" ++ name)).hash
  onlyArrays : ∀ e ∈ d.containerInfos, (∃ c ∈ conts, e.name = nameOf c.1) ∨ ∃ x ∈ seen, ∃ parent name t j, Has x parent name t ∧ Declares env t j ∧
    j.count ≠ 0 ∧ e = { name := nameOf (parent ++ b!"::" ++ name), flags := 2, count := UInt32.ofNat j.count }

end Clr.ScanStore
