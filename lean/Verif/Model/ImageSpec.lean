import Verif.Model.Image
/-
Specification for C84: what the exporter's allocator and linker leave behind. Memory areas that do not overlap, texts
inside their areas, and pointers that lead to existing objects.
-/
namespace Clr.Image
open Clr Clr.Reloc Clr.Layout
open Clr.Export (K Slot Ref Ptr St)

/-- The separate pieces of memory of an exported database. -/
inductive Area where
  | header
  | names
  | table (k : K)
  | typePrims
  | globals (s : Slot)
  | kids (r : Ref) (s : Slot)
  | nameText
  | attributeText
deriving DecidableEq, Repr

/-- The object is in its table. -/
def Exists (d : Data) (r : Ref) : Prop := r.2 < d.st.count r.1

instance (d : Data) (r : Ref) : Decidable (Exists d r) := by unfold Exists; infer_instance

/-- Offset and size of an area, if it was allocated. -/
def area (p : Place) (d : Data) : Area → Option (Nat × Nat)
  | .header => some (0, databaseMem.lay.size)
  | .names => some (p.names, d.names.length * name.lay.size)
  | .table k => some (p.table k, d.st.count k * stride k)
  | .typePrims => some (p.typePrims, d.st.typePrims.length * 8)
  | .globals s => if s ∈ spaceMembers.map (·.1) then (p.globals s).map fun o => (o, (d.st.globals s).length * 8) else none
  | .kids r s =>
    if Exists d r ∧ s ∈ slotsOf r.1 then (p.kids r s).map fun o => (o, ((d.st.get r).kids s).length * 8) else none
  | .nameText => some (p.nameText, p.nameSize)
  | .attributeText => some (p.attributeText, p.attributeSize)

/-- The image of `size` bytes starts with the header, the other areas are behind it and apart from each other, arrays
with entries are allocated, and texts are where texts are kept. -/
structure Laid (p : Place) (d : Data) (size : Nat) : Prop where
  header : databaseMem.lay.size ≤ size
  behind : ∀ a o n, area p d a = some (o, n) → a ≠ .header → databaseMem.lay.size ≤ o ∧ o + n ≤ size
  apart : ∀ a b, a ≠ b → ∀ o n q m, area p d a = some (o, n) → area p d b = some (q, m) → o + n ≤ q ∨ q + m ≤ o
  names : ∀ i h t, d.names[i]? = some (h, t) → p.nameText ≤ p.nameAt i ∧ p.nameAt i + (t.length + 1) ≤ p.nameText + p.nameSize
  texts : ∀ r, Exists d r → ∀ t, (d.st.get r).text = some t →
    ∃ o, p.textAt r = some o ∧ p.nameText ≤ o ∧ o + (t.length + 1) ≤ p.nameText + p.nameSize
  noText : ∀ r, Exists d r → (d.st.get r).text = none → p.textAt r = none
  values : ∀ r, r.1 = .textAttr → Exists d r →
    p.attributeText ≤ p.valueAt r ∧ p.valueAt r + ((d.text r).length + 1) ≤ p.attributeText + p.attributeSize
  kids : ∀ r s, Exists d r → s ∈ slotsOf r.1 → (d.st.get r).kids s ≠ [] → p.kids r s ≠ none
  globals : ∀ s ∈ spaceMembers.map (·.1), d.st.globals s ≠ [] → p.globals s ≠ none

/-- Null, or the address of an object that exists. -/
def Resolved (d : Data) : Ptr → Prop
  | .raw n => n = 0
  | .obj r => Exists d r

instance (d : Data) (x : Ptr) : Decidable (Resolved d x) := by
  cases x <;> unfold Resolved <;> infer_instance

/-- Every pointer of the object is null or leads to an object that exists. -/
structure ResolvedObject (d : Data) (o : Export.Obj) : Prop where
  parent : Resolved d o.parent
  type : Resolved d o.type
  args : ∀ x ∈ o.args, Resolved d x
  target : Resolved d o.target
  readIt : Resolved d o.readIt
  writeIt : Resolved d o.writeIt
  ret : ∀ x ∈ o.ret, Exists d x
  ctor : ∀ x ∈ o.ctor, Exists d x
  dtor : ∀ x ∈ o.dtor, Exists d x
  ci : ∀ x ∈ o.ci, Exists d x
  kids : ∀ s, ∀ x ∈ o.kids s, Exists d x

/-- The tables of types. -/
def typeTables : List K := [.type, .cls, .enum, .instance]

/-- Every pointer of the database is null or leads to an object that exists, and the type table lists the types, each
once. -/
structure Linked (d : Data) : Prop where
  objects : ∀ r, Exists d r → ResolvedObject d (d.st.get r)
  globals : ∀ s, ∀ x ∈ d.st.globals s, Exists d x
  types : ∀ r, r ∈ d.st.typePrims ↔ r.1 ∈ typeTables ∧ Exists d r
  typesOnce : d.st.typePrims.Nodup

/-- The database with the addresses of all functions changed. -/
def Data.readdress (d : Data) (f : Nat → Nat) : Data :=
  { d with scalar := fun r s => if r.1 = .function ∧ s = .address then f (d.scalar r s) else d.scalar r s }

end Clr.Image
