import Verif.Model.ScanUnit
import Verif.Model.ScanSpec
import Verif.Props.ScanTypesSpec
/-!
What the walk over a translation unit is to leave in the database, read off the declarations (specification for C90).

A declaration comes with a mark: whether it is recorded, or left out because a type in it, a base class or the number of parameters is not
supported.  That depends on little more than the declaration (`CanBe` and `MayBe` below), but it does depend on more: an instance of
a template whose bases are not supported is taken as recorded if one of the same name is there already.
-/
namespace Clr.ScanUnit
open Clr.Scan (Attr Rec Kind)
open Clr.ScanTypes
open Clr.Hash (Op)

/-! ### Trees -/

mutual
/-- The tree with something else at its nodes. -/
def Tree.map {α β : Type} (f : α → β) : Tree α → Tree β
  | .node i kids => .node (f i) (kids.map f)

/-- The same of trees in order. -/
def Forest.map {α β : Type} (f : α → β) : Forest α → Forest β
  | .nil => .nil
  | .cons t r => .cons (t.map f) (r.map f)
end

mutual
/-- All declarations of a tree, each before those in it, with the declarations around it from the outermost to the innermost. -/
def Tree.listing {α : Type} : Tree α → List (List α × α)
  | .node i kids => ([], i) :: kids.listing.map fun x => (i :: x.1, x.2)

/-- The same of trees in order. -/
def Forest.listing {α : Type} : Forest α → List (List α × α)
  | .nil => []
  | .cons t r => t.listing ++ r.listing
end

/-! ### Which declarations are reflected -/

/-- A declaration and whether it is recorded. -/
abbrev Marked := Item × Bool

/-- What `Verif/Model/ScanSpec.lean` asks of a declaration. -/
def info (x : Marked) : Scan.Info :=
  { x.1.asked with
    skipped := match x.1.what with
      | .cls _ definition freeStanding _ _ _ _ => !definition && !freeStanding
      | _ => false
    anonymous := match x.1.what with
      | .cls _ _ _ anonymous _ _ _ => anonymous
      | _ => false
    supported := x.2 }

/-- A declaration that is reflected, given the declarations around it; the outermost is of one of the kinds that may be. -/
def Reached (texts : List Bytes) (x : List Marked × Marked) : Prop :=
  Scan.Reflected texts (x.1.map info) (info x.2) ∧
    ∀ t, (x.1 ++ [x.2]).head? = some t →
      t.1.what.kind = .namespace ∨ t.1.what.kind = .cls ∨ t.1.what.kind = .function ∨ t.1.what.kind = .enum ∨ t.1.what.kind = .template

open Classical in
/-- The declarations that are reflected in order, with the name of the scope they are in. -/
noncomputable def reached (texts : List Bytes) (L : Forest Marked) : List (Bytes × Marked) :=
  (L.listing.filter fun x => decide (Reached texts x)).map fun x => (Scan.scopeName (x.1.map info), x.2)

/-- Those of them that are recorded. -/
noncomputable def recorded (texts : List Bytes) (L : Forest Marked) : List (Bytes × Item) :=
  ((reached texts L).filter fun x => x.2.2).map fun x => (x.1, x.2.1)

/-! ### Which declarations are recorded -/

/-- A declaration that can be recorded whatever else there is, with instances of templates nested to a depth less than `n`. -/
def CanBe (env : Env) (n : Nat) (i : Item) : Prop :=
  match i.what with
  | .cls _ definition freeStanding _ vbases bases _ =>
    if definition then vbases = 0 ∧ ∀ b ∈ bases, b.virt = false ∧ ∃ c u, Means b.type c u ∧ CanName (CanRecord env n) u
    else freeStanding = true
  | .function first result params => first = true ∧ Supported env n (callResult result) ∧ ∀ p ∈ params, Supported env n p.type
  | .method isOperator thisType first result params => isOperator = false ∧ first = true ∧ (∀ t, thisType = some t → Supported env n t) ∧
      Supported env n (callResult result) ∧ ∀ p ∈ params, Supported env n p.type
  | .field holder _ t _ => holder = false ∧ Supported env n t
  | .template params _ => params ≤ 4
  | _ => True

/-- A declaration that may be recorded: the types in it mean something that has a name. -/
def MayBe (env : Env) (i : Item) : Prop :=
  match i.what with
  | .cls _ definition freeStanding _ vbases bases _ =>
    if definition then vbases = 0 ∧ ∀ b ∈ bases, b.virt = false ∧ ∃ c u x, Means b.type c u ∧ HasName env u x
    else freeStanding = true
  | .function first result params => first = true ∧ (∃ j, Declares env (callResult result) j) ∧ ∀ p ∈ params, ∃ j, Declares env p.type j
  | .method isOperator thisType first result params => isOperator = false ∧ first = true ∧
      (∀ t, thisType = some t → ∃ j, Declares env t j) ∧ (∃ j, Declares env (callResult result) j) ∧ ∀ p ∈ params, ∃ j, Declares env p.type j
  | .field holder _ t _ => holder = false ∧ ∃ j, Declares env t j
  | .template params _ => params ≤ 4
  | _ => True

/-- What is assumed of a declaration: the names in its types are what they can be, and base classes are classes. -/
def WellItem (i : Item) : Prop :=
  match i.what with
  | .cls _ _ _ _ _ bases _ => ∀ b ∈ bases, WellNamed b.type ∧ ∃ c u, Means b.type c u ∧ IsClass u
  | .function _ result params => WellNamed result ∧ ∀ p ∈ params, WellNamed p.type
  | .method _ thisType _ result params => (∀ t, thisType = some t → WellNamed t) ∧ WellNamed result ∧ ∀ p ∈ params, WellNamed p.type
  | .field _ _ t _ => WellNamed t
  | _ => True

/-! ### What is recorded of them -/

/-- Entries in the tables that have one for every declaration. -/
structure Block where
  functions : List Function := []
  fields : List Field := []
  enums : List Enum := []
  constants : List Constant := []

/-- What is written after `enum`. -/
def tagOf : EnumTag → Scoped
  | ⟨false, _⟩ => .none
  | ⟨true, true⟩ => .cls
  | ⟨true, false⟩ => .struct

/-- The part of a parameter that counts for telling overloads apart. -/
def counts (f : Field) : Hash.Param := { typeText := f.type, op := f.op, isConst := f.isConst }

/-- `Says env parent i b`: the entries `b` are those of the declaration `i` in the scope `parent`.  A function has what it returns, unless
that is `void`, and its parameters in order, numbered from zero, the first being `this` if it has one; all carry the number
that tells it from its overloads.  A field has its type and where it begins, in bytes. -/
def Says (env : Env) (parent : Bytes) (i : Item) (b : Block) : Prop :=
  match i.what with
  | .enum tag constants => b = {
      enums := [⟨i.name, parent, tagOf tag⟩]
      constants := constants.map fun c => ⟨if parent = [] then c.name else parent ++ b!"::" ++ c.name, i.name, rawValue c⟩ }
  | .function _ result params => ∃ ret ps uid, FieldFor env (callResult result) b!"return" i.name (-1) uid ret ∧
      ParamsFor env i.name uid 0 params ps ∧ uid = Hash.uniqueId (ps.map counts) ∧
      b = { functions := [⟨i.name, parent, uid⟩], fields := (if ret.type = b!"void" then [] else [ret]) ++ ps }
  | .method _ none _ result params => ∃ ret ps uid, FieldFor env (callResult result) b!"return" i.name (-1) uid ret ∧
      ParamsFor env i.name uid 0 params ps ∧ uid = Hash.uniqueId (ps.map counts) ∧
      b = { functions := [⟨i.name, parent, uid⟩], fields := (if ret.type = b!"void" then [] else [ret]) ++ ps }
  | .method _ (some t) _ result params => ∃ ret this ps uid, FieldFor env (callResult result) b!"return" i.name (-1) uid ret ∧
      FieldFor env t b!"this" i.name 0 uid this ∧ ParamsFor env i.name uid 1 params ps ∧ uid = Hash.uniqueId ((this :: ps).map counts) ∧
      b = { functions := [⟨i.name, parent, uid⟩], fields := (if ret.type = b!"void" then [] else [ret]) ++ this :: ps }
  | .field _ name t bits => ∃ f, FieldFor env t name parent ((bits / 8 : Nat) : Int) 0#32 f ∧ b = { fields := [f] }
  | _ => b = {}

/-- One for each, in order. -/
inductive Each {α β : Type} (R : α → β → Prop) : List α → List β → Prop where
  | nil : Each R [] []
  | cons {a : α} {b : β} {as : List α} {bs : List β} : R a b → Each R as bs → Each R (a :: as) (b :: bs)

/-- The first of each name. -/
def firsts {α : Type} (name : α → Bytes) : List α → List α
  | [] => []
  | x :: l => x :: (firsts name l).filter fun y => name y ≠ name x

/-- The namespace that is declared, and the scope it is in. -/
def namespaceOf (x : Bytes × Item) : Option (Bytes × Bytes) :=
  match x.2.what with
  | .namespace => some (x.2.name, x.1)
  | _ => none

/-- The template that is declared, and the scope it is in. -/
def templateOf (x : Bytes × Item) : Option (Bytes × Bytes) :=
  match x.2.what with
  | .template _ _ => some (x.2.name, x.1)
  | _ => none

/-- The class that is declared, unless anonymous, the scope it is in and whether it is declared by `class`. -/
def classOf (x : Bytes × Item) : Option (Bytes × Bytes × Bool) :=
  match x.2.what with
  | .cls isClass _ _ false _ _ _ => some (x.2.name, x.1, isClass)
  | _ => none

/-- The size of the class of that name, if it is defined by the declaration. -/
def sizeOf (name : Bytes) (x : Bytes × Item) : Option Nat :=
  match x.2.what with
  | .cls _ true _ false _ _ size => if x.2.name = name then some size else none
  | _ => none

/-- An array declared by a declaration: its name, that of what it is in, and its type. -/
def Has (x : Bytes × Item) (parent name : Bytes) (t : CType) : Prop :=
  match x.2.what with
  | .function _ result params => parent = x.2.name ∧
      ((name = b!"return" ∧ t = callResult result) ∨ ∃ k p, params[k]? = some p ∧ NameOf p k name ∧ t = p.type)
  | .method _ thisType _ result params => parent = x.2.name ∧
      ((name = b!"return" ∧ t = callResult result) ∨ (name = b!"this" ∧ thisType = some t) ∨
        ∃ k p, params[k]? = some p ∧ NameOf p (if thisType = none then k else k + 1) name ∧ t = p.type)
  | .field _ n ty _ => parent = x.1 ∧ name = n ∧ t = ty
  | _ => False

/-- An instance of a template used by a type: what it means, points to or refers to, or an element of the array that it is. -/
def Uses (t : CType) (id : Nat) : Prop := ∃ op c b, (Points t op c b ∨ ∃ m u, t = .array m u ∧ Points u op c b) ∧ IsInstance b id

/-- A name of one of the base classes. -/
def BaseName (env : Env) (bases : List Base) (y : Bytes) : Prop := ∃ b ∈ bases, ∃ c u, Means b.type c u ∧ HasName env u y

/-- What the walk is to leave in the database. -/
structure Scanned (env : Env) (fuel : Nat) (texts : List Bytes) (ds : Forest Item) (L : Forest Marked) (s : St) : Prop where
  /-- the marks are put on the declarations of the translation unit -/
  same : L.map Prod.fst = ds
  /-- what can be recorded is, if it is reflected -/
  can : ∀ x ∈ L.listing, CanBe env fuel x.2.1 → x.2.2 = true
  /-- what is recorded may be -/
  may : ∀ x ∈ L.listing, x.2.2 = true → MayBe env x.2.1
  /-- functions, fields, enums and constants: those of the declarations recorded, in order, and no others -/
  blocks : ∃ bs, Each (fun x b => Says env x.1 x.2 b) (recorded texts L) bs ∧ s.data.db.functions = bs.flatMap Block.functions ∧
    s.data.db.fields = bs.flatMap Block.fields ∧ s.data.db.enums = bs.flatMap Block.enums ∧
    s.data.db.constants = bs.flatMap Block.constants
  /-- namespaces, templates and classes: one for every name, in the scope of the first declaration -/
  namespaces : s.data.namespaces = firsts Prod.fst ((recorded texts L).filterMap namespaceOf)
  templates : s.data.templates = firsts Prod.fst ((recorded texts L).filterMap templateOf)
  classes : s.data.classes.map (fun c => (c.name, c.parent, c.isClass)) = firsts Prod.fst ((recorded texts L).filterMap classOf)
  /-- the size of a class is that of its last definition, and without one that by which the merger knows forward declarations -/
  sizes : ∀ c ∈ s.data.classes, c.size = ((recorded texts L).filterMap (sizeOf c.name)).getLast?.getD 0xFFFFFFFF
  /-- the base classes of the classes recorded -/
  bases : ∀ x ∈ recorded texts L, ∀ isClass freeStanding anonymous vbases bases size,
    x.2.what = .cls isClass true freeStanding anonymous vbases bases size →
    ∀ b ∈ bases, ∃ c u y, Means b.type c u ∧ HasName env u y ∧ (x.2.name, y) ∈ s.data.db.inherits ∧
      ∀ id, IsInstance u id → y ∈ s.data.db.typeNames
  /-- there are no other base classes, but for those of instances of templates -/
  onlyBases : ∀ r ∈ s.data.db.inherits,
    (∃ x ∈ reached texts L, r.1 = x.2.1.name ∧ ∃ isClass freeStanding anonymous vbases bases size,
      x.2.1.what = .cls isClass true freeStanding anonymous vbases bases size ∧ BaseName env bases r.2) ∨
    ∃ id, HasName env (.inst id) r.1 ∧ BaseName env (env id).bases r.2
  /-- the instances of templates -/
  instances : GoodDb env s.data.db
  /-- those that the types of the declarations recorded use are among them -/
  used : ∀ x ∈ recorded texts L, ∀ parent name t, Has x parent name t → ∀ id, Uses t id →
    ∃ y, HasName env (.inst id) y ∧ y ∈ s.data.db.typeNames
  /-- arrays have an entry with the number of their elements -/
  arrays : ∀ x ∈ recorded texts L, ∀ parent name t, Has x parent name t → ∀ j, Declares env t j → j.count ≠ 0 →
    ⟨parent ++ b!"::" ++ name, j.count⟩ ∈ s.data.db.containers
  /-- and no others have -/
  noOthers : ∀ c ∈ s.data.db.containers, ∃ x ∈ reached texts L, ∃ parent name t j, Has (x.1, x.2.1) parent name t ∧ Declares env t j ∧
    j.count ≠ 0 ∧ c = ⟨parent ++ b!"::" ++ name, j.count⟩
  /-- the attributes of what is reflected -/
  attributes : ∀ x ∈ reached texts L, Scan.Recorded texts (info x.2) → ∀ a ∈ x.2.1.attrs, Scan.word a.name = none →
    (⟨x.2.1.name, a⟩ : Rec) ∈ s.attrs
  /-- and none that are not written -/
  written : ∀ r ∈ s.attrs, ∃ x ∈ L.listing, r.parent = x.2.1.name ∧ r.attr ∈ x.2.1.attrs

end Clr.ScanUnit
