import Verif.Model.FieldVisitor

/-!
Specification of the field visitor: which places an object consists of.
-/
namespace Clr.Visit

/-- The fields of a class by index. -/
def Flds.get? : Flds → Nat → Option (Fld × Ty)
  | .nil, _ => none
  | .cons f t _, 0 => some (f, t)
  | .cons _ _ r, i + 1 => r.get? i

/-- The bases of a type by index. -/
def Tys.get? : Tys → Nat → Option Ty
  | .nil, _ => none
  | .cons t _, 0 => some t
  | .cons _ r, i + 1 => r.get? i

/-- What is in memory: the addresses of the values in the container at an address, and where in an object of the named type
the compiler has put its base number `i`. -/
structure World where
  elems : Nat → List Nat
  baseOffset : Bytes → Nat → Nat

/-- One step into an object: a field, an element of a field that is a C array, a base, an element of a container. -/
inductive Step where
  | field (i : Nat)
  | item (i k : Nat)
  | base (i : Nat)
  | elem (k : Nat)
deriving DecidableEq, Repr

/-- The bytes an element of a C array takes: a pointer has eight. -/
def spacing (t : Ty) : Op → Nat
  | .pointer => 8
  | _ => t.size

/-- The place one step into an object that is stored by value. -/
inductive Part (w : World) : Nat → Option Fld → Ty → Step → Place → Prop where
  | field {a fld n s fs bs i f t} : fs.get? i = some (f, t) → f.count = none →
      Part w a fld (.cls n s fs bs) (.field i) ⟨a + f.offset, some f, t, f.op⟩
  | item {a fld n s fs bs i f t c k} : fs.get? i = some (f, t) → f.count = some c → k < c →
      Part w a fld (.cls n s fs bs) (.item i k) ⟨a + f.offset + k * spacing t f.op, some f, t, f.op⟩
  | base {a fld n s fs bs i t} : bs.get? i = some t →
      Part w a fld (.cls n s fs bs) (.base i) ⟨a + w.baseOffset n i, none, t, .value⟩
  | templateBase {a fld n s bs i t} : bs.get? i = some t →
      Part w a fld (.tmpl n s bs) (.base i) ⟨a + w.baseOffset n i, none, t, .value⟩
  | elem {a fld n s e isPtr k v} : (w.elems a)[k]? = some v →
      Part w a fld (.cont n s e isPtr) (.elem k) ⟨v, fld, e, if isPtr then .pointer else .value⟩

/-- Whether a place belongs to a field that carries one of the stop flags. -/
def Place.Stopped (stop : BitVec 32) (p : Place) : Prop := ∃ f, p.field = some f ∧ f.flags &&& stop ≠ 0

/-- The place a path leads to: through values only, and through nothing that carries a stop flag. -/
inductive At (w : World) (stop : BitVec 32) : Place → List Step → Place → Prop where
  | here {p} : At w stop p [] p
  | into {a f t s q path r} : ¬ Place.Stopped stop ⟨a, f, t, .value⟩ → Part w a f t s q → At w stop q path r →
      At w stop ⟨a, f, t, .value⟩ (s :: path) r

/-- What the visitor is to be called on: pointers, and, if asked for, values of basic and enumeration types; nothing that
carries a stop flag. -/
def Selected (all : Bool) (stop : BitVec 32) (p : Place) : Prop :=
  ¬ p.Stopped stop ∧ (p.op = .pointer ∨ (all = true ∧ ∃ n s, p.type = .leaf n s))

mutual
/-- What is assumed of a type: no fields that are references, no C arrays of elements without size, and all bases at the start
of the object. -/
def Ty.Plain (w : World) : Ty → Prop
  | .leaf _ _ => True
  | .cls n _ fs bs => fs.Plain w ∧ bs.Plain w n 0
  | .tmpl n _ bs => bs.Plain w n 0
  | .cont _ _ e _ => e.Plain w

/-- `Ty.Plain` for the fields. -/
def Flds.Plain (w : World) : Flds → Prop
  | .nil => True
  | .cons f t r => f.op ≠ .reference ∧ (f.count ≠ none → 0 < spacing t f.op) ∧ t.Plain w ∧ r.Plain w

/-- `Ty.Plain` for the bases of the named type, from number `i` on. -/
def Tys.Plain (w : World) : Tys → Bytes → Nat → Prop
  | .nil, _, _ => True
  | .cons t r, n, i => w.baseOffset n i = 0 ∧ t.Plain w ∧ r.Plain w n (i + 1)
end

end Clr.Visit
