import Verif.Basic

/-!
The field visitor, src/clReflectUtil/FieldVisitor.cpp.

Simplifications:
* a reflected type is the tree of what is visited from it (`Ty`): a C++ class cannot contain or derive from itself, and
  nothing is visited behind a pointer, so that the type a pointer points to is only a name (a `leaf`);
* a registered container lists its elements in order, and the visitor's callback does not change containers: this is
  the contract of read iterators, inc/clcpp/Containers.h:46-61.  Its elements are given by `World.elems`;
* containers are template types, which is where `clcpp_container` puts them;
* the visitor's callbacks are the list of its calls, in order.
-/
namespace Clr.Visit

/-- `clcpp::Qualifier::Operator`, inc/clcpp/clcpp.h. -/
inductive Op where
  | value | pointer | reference
deriving DecidableEq, Repr

/-- What the visitor reads of a `clcpp::Field`: its offset, `flag_attributes`, qualifier and, for a C array (`field->ci`), the
number of elements; the name identifies the field. -/
structure Fld where
  name : Bytes
  offset : Nat
  flags : BitVec 32 := 0
  op : Op := .value
  count : Option Nat := none
deriving DecidableEq, Repr

mutual
/-- What the visitor reads of a `clcpp::Type`, by kind: `KIND_TYPE` and `KIND_ENUM` are leaves; a class; a template type
that is no container; one that is. -/
inductive Ty where
  | leaf (name : Bytes) (size : Nat)
  | cls (name : Bytes) (size : Nat) (fields : Flds) (bases : Tys)
  | tmpl (name : Bytes) (size : Nat) (bases : Tys)
  | cont (name : Bytes) (size : Nat) (elem : Ty) (isPtr : Bool)

/-- `Class::fields`. -/
inductive Flds where
  | nil
  | cons (field : Fld) (type : Ty) (rest : Flds)

/-- `Type::base_types`. -/
inductive Tys where
  | nil
  | cons (type : Ty) (rest : Tys)
end

/-- `type->name`. -/
def Ty.name : Ty → Bytes
  | .leaf n _ => n
  | .cls n _ _ _ => n
  | .tmpl n _ _ => n
  | .cont n _ _ _ => n

/-- `type->size`. -/
def Ty.size : Ty → Nat
  | .leaf _ s => s
  | .cls _ s _ _ => s
  | .tmpl _ s _ => s
  | .cont _ s _ _ => s

/-- The arguments of `IFieldVisitor::Visit`: the address of an object, the field it belongs to, its type and its
qualifier. -/
structure Place where
  addr : Nat
  field : Option Fld
  type : Ty
  op : Op

/-- `field != 0 && (field->flag_attributes & stop_flags) != 0`, FieldVisitor.cpp:24. -/
def stops (stop : BitVec 32) (field : Option Fld) : Bool :=
  match field with
  | some f => f.flags &&& stop != 0
  | none => false

/-- The start of `VisitField`, FieldVisitor.cpp:23-32: what is before the dispatch on the kind of the type. -/
def gate (stop : BitVec 32) (p : Place) (dispatch : Res (List Place)) : Res (List Place) :=
  if stops stop p.field then .ok []
  else if p.op = .pointer then .ok [p]
  else dispatch

/-- The loop of `VisitContainerFields`, FieldVisitor.cpp:60-65, over the addresses of the values. -/
def visitAll (f : Nat → Res (List Place)) : List Nat → Res (List Place)
  | [] => .ok []
  | a :: as => do
    let xs ← f a
    let ys ← visitAll f as
    .ok (xs ++ ys)

/-- The size of an element of a C array, Containers.cpp:40-43. -/
def stride (t : Ty) (op : Op) : Nat := if op = .pointer then 8 else t.size

/-- The addresses of the elements of a C array, `ArrayReadIterator`, Containers.cpp:26-62; its assertion at 53 fails for elements
of size zero. -/
def arrayItems (a count stride : Nat) : Res (List Nat) :=
  if count ≠ 0 ∧ stride = 0 then .trap else .ok ((List.range count).map fun k => a + k * stride)

/-- `m_ValueIsPtr ? POINTER : VALUE`, FieldVisitor.cpp:59. -/
def elemOp (isPtr : Bool) : Op := if isPtr then .pointer else .value

mutual
/-- `VisitField`, FieldVisitor.cpp:21-53, with `VisitTemplateTypeFields` (69-85) and `VisitClassFields` (88-113) for the cases
of the kind.  `elems` lists the addresses of the values in the container at an address. -/
def visitField (elems : Nat → List Nat) (all : Bool) (stop : BitVec 32) : Ty → Nat → Option Fld → Op → Res (List Place)
  | .leaf n s, a, f, op =>
    gate stop ⟨a, f, .leaf n s, op⟩ (.ok (if all then [⟨a, f, .leaf n s, op⟩] else []))
  | .cls n s fs bs, a, f, op =>
    gate stop ⟨a, f, .cls n s fs bs, op⟩ (do
      let xs ← visitFlds elems all stop fs a
      let ys ← visitBases elems all stop bs a
      .ok (xs ++ ys))
  | .tmpl n s bs, a, f, op => gate stop ⟨a, f, .tmpl n s bs, op⟩ (visitBases elems all stop bs a)
  | .cont n s e isPtr, a, f, op =>
    gate stop ⟨a, f, .cont n s e isPtr, op⟩
      (visitAll (fun v => visitField elems all stop e v f (elemOp isPtr)) (elems a))

/-- The loop over the fields, FieldVisitor.cpp:91-107. -/
def visitFlds (elems : Nat → List Nat) (all : Bool) (stop : BitVec 32) : Flds → Nat → Res (List Place)
  | .nil, _ => .ok []
  | .cons f t r, a => do
    let xs ← match f.count with
      | some n => do
        let items ← arrayItems (a + f.offset) n (stride t f.op)
        visitAll (fun v => visitField elems all stop t v (some f) (elemOp (f.op == .pointer))) items
      | none => visitField elems all stop t (a + f.offset) (some f) f.op
    let ys ← visitFlds elems all stop r a
    .ok (xs ++ ys)

/-- The loop over the bases, FieldVisitor.cpp:82-84 and 110-112: all of them at the same address. -/
def visitBases (elems : Nat → List Nat) (all : Bool) (stop : BitVec 32) : Tys → Nat → Res (List Place)
  | .nil, _ => .ok []
  | .cons t r, a => do
    let xs ← visitField elems all stop t a none .value
    let ys ← visitBases elems all stop r a
    .ok (xs ++ ys)
end

/-- `clutl::VisitFields`, FieldVisitor.cpp:117-120. -/
def visitFields (elems : Nat → List Nat) (all : Bool) (stop : BitVec 32) (object : Nat) (type : Ty) : Res (List Place) :=
  visitField elems all stop type object none .value

end Clr.Visit
