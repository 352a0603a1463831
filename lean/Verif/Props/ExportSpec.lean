import Verif.Proofs.Export7
/-
C17-C20, C59: what `BuildCppExport` makes of an offline database.

The specification below speaks of the offline database only: which primitive records which other one as its
parent, which attribute is attached to what, which types exist.
-/
namespace Clr.Export
open Clr.DB (hashOf)
attribute [local irreducible] hashOf

/-! ### Specification -/

/-- The tables of primitives of the offline database. -/
def entries (db : DB.Database) : K → List DB.Prim
  | .type => db.types.map (·.toPrim)
  | .constant => db.enumConstants.map (·.toPrim)
  | .enum => db.enums.map (·.toPrim)
  | .field => db.fields.map (·.toPrim)
  | .function => db.functions.map (·.toPrim)
  | .cls => db.classes.map (·.toPrim)
  | .template => db.templates.map (·.toPrim)
  | .instance => db.templateTypes.map (·.toPrim)
  | .space => db.namespaces.map (·.toPrim)
  | .flagAttr => db.flagAttributes.map (·.toPrim)
  | .intAttr => db.intAttributes.map (·.toPrim)
  | .floatAttr => db.floatAttributes.map (·.toPrim)
  | .primAttr => db.primitiveAttributes.map (·.toPrim)
  | .textAttr => db.textAttributes.map (·.toPrim)
  | .container => []

/-- The primitive a reference stands for. -/
def entry (db : DB.Database) (r : Ref) : Option DB.Prim := (entries db r.1)[r.2]?

/-- What can be inside what: a scope, its array, the primitives it holds. -/
def scopeTable : List (K × Slot × K) :=
  [(.space, .namespaces, .space), (.space, .types, .type), (.space, .enums, .enum), (.space, .classes, .cls),
   (.space, .functions, .function), (.space, .templates, .template),
   (.cls, .enums, .enum), (.cls, .classes, .cls), (.cls, .methods, .function), (.cls, .fields, .field),
   (.cls, .templates, .template),
   (.enum, .constants, .constant), (.function, .parameters, .field), (.template, .instances, .instance)]

/-- The number a parameter carries is the identity of its function. -/
def SameFunction (db : DB.Database) (c r : Ref) : Prop :=
  (db.fields[c.2]?).map (·.parentUniqueId) = (db.functions[r.2]?).map (·.uniqueId)

/-- `c` records `r` as its parent: something of the kind of `c` can be in something of the kind of `r`, the
parent name of `c` is the name of `r`, and a parameter carries the identity of its function. -/
def Records (db : DB.Database) (c r : Ref) : Prop :=
  (∃ s, (r.1, s, c.1) ∈ scopeTable) ∧
  (∃ p q, entry db c = some p ∧ entry db r = some q ∧ p.parent.hash = q.name.hash) ∧
  (r.1 = .function → SameFunction db c r)

/-- The text of a primitive's name. -/
def nameText (db : DB.Database) (r : Ref) : Bytes :=
  match entry db r with
  | some p => ((db.names.find? fun n => n.hash == p.name.hash).map (·.text)).getD []
  | none => []

/-- The tables of attributes. -/
def attributeKinds : List K := [.flagAttr, .intAttr, .floatAttr, .primAttr, .textAttr]

/-- `a` is an attribute of `r`: it names the enum, function or class as its parent, or the field by its
scoped name. -/
def AttributeOf (db : DB.Database) (a r : Ref) : Prop :=
  a.1 ∈ attributeKinds ∧ ∃ p, entry db a = some p ∧
    ((r.1 ∈ [K.enum, .function, .cls] ∧ ∃ q, entry db r = some q ∧ p.parent.hash = q.name.hash) ∨
     (r.1 = .field ∧ ∃ s, Records db r s ∧ p.parent.hash = hashOf (nameText db s ++ b!"::" ++ nameText db r)))

/-- Nothing has two possible parents. -/
def Unambiguous (db : DB.Database) : Prop :=
  (∀ c r r', Records db c r → Records db c r' → r = r') ∧
  (∀ a r r', AttributeOf db a r → AttributeOf db a r' → r = r')

/-- `t` is a type of the database with the name the field `c` gives for its type. -/
def HasType (db : DB.Database) (c t : Ref) : Prop :=
  t.1 ∈ [K.type, .cls, .enum, .instance] ∧
  ∃ f q, db.fields[c.2]? = some f ∧ entry db t = some q ∧ f.type.hash = q.name.hash

/-- The types of all parameters, return value included, are in the database. -/
def GoodFunction (db : DB.Database) (f : Ref) : Prop :=
  ∀ p : Ref, p.1 = .field → Records db p f → ∃ t, HasType db p t

/-- The exported database keeps `c` in array `s` of its scope `r`: fields of classes with a type, functions of
classes and namespaces whose types are all there, parameters that are not the return value. -/
def Kept (db : DB.Database) (F : St) (r : Ref) (s : Slot) (c : Ref) : Prop :=
  (r.1 = .cls → s = .fields → ∃ t, HasType db c t) ∧
  (s = .methods ∨ (r.1 = .space ∧ s = .functions) → GoodFunction db c) ∧
  (s = .parameters → (F.get r).ret ≠ some c)

/-- The kinds of types. -/
def typeKinds : List K := [.type, .cls, .enum, .instance]

/-- No two types share a name. -/
def UniqueTypes (db : DB.Database) : Prop :=
  ∀ t t' p p', t.1 ∈ typeKinds → t'.1 ∈ typeKinds → entry db t = some p → entry db t' = some p' →
    p.name.hash = p'.name.hash → t = t'

/-- The database records that type `r` derives from type `q`. -/
def InheritsFrom (db : DB.Database) (r q : Ref) : Prop :=
  r.1 ∈ typeKinds ∧ q.1 ∈ typeKinds ∧ ∃ t ∈ db.inheritances, ∃ pr pq, entry db r = some pr ∧ entry db q = some pq ∧
    t.derived.hash = pr.name.hash ∧ t.base.hash = pq.name.hash

/-- `q` is `r` or one of its direct or indirect base types. -/
inductive Ancestor (db : DB.Database) : Ref → Ref → Prop where
  | refl (r : Ref) : Ancestor db r r
  | base {r q p : Ref} (h : InheritsFrom db r q) (h' : Ancestor db q p) : Ancestor db r p

/-- The name of an attribute. -/
def Named (db : DB.Database) (a : Ref) (t : Bytes) : Prop := ∃ p, entry db a = some p ∧ p.name.hash = hashOf t

/-- The attributes that stand for one flag or several. -/
def flagNames : List Bytes :=
  [b!"disk_transient", b!"network_transient", b!"replicate_transient", b!"export_transient", b!"transient",
   b!"pre_save", b!"post_load", b!"replicate"]

/-- The integer attribute `a` has bit `b`. -/
def IntBit (db : DB.Database) (a : Ref) (b : Nat) : Prop :=
  a.1 = .intAttr ∧ ∃ x, db.intAttributes[a.2]? = some x ∧ x.value.toBitVec.getLsbD b = true

/-- The attribute `a` stands for flag bit `b` (inc/clcpp/clcpp.h:337-365): transience for disk (0), network (1),
replication (2) and export (3), custom load (4) and save (5) functions, pre-save (6), post-load (7),
replication (8), and the bits of `custom_flag`. `transient` is disk, network and export transience. -/
def SetsBit (db : DB.Database) (a : Ref) (b : Nat) : Prop :=
  (b = 0 ∧ (Named db a b!"disk_transient" ∨ Named db a b!"transient")) ∨
  (b = 1 ∧ (Named db a b!"network_transient" ∨ Named db a b!"transient")) ∨
  (b = 2 ∧ Named db a b!"replicate_transient") ∨
  (b = 3 ∧ (Named db a b!"export_transient" ∨ Named db a b!"transient")) ∨
  (b = 6 ∧ Named db a b!"pre_save") ∨
  (b = 7 ∧ Named db a b!"post_load") ∨
  (b = 8 ∧ Named db a b!"replicate") ∨
  ((∀ t ∈ flagNames, ¬ Named db a t) ∧
    ((b = 4 ∧ b!"load_" <+: nameText db a) ∨
     (b = 5 ∧ ¬ b!"load_" <+: nameText db a ∧ b!"save_" <+: nameText db a) ∨
     (¬ b!"load_" <+: nameText db a ∧ ¬ b!"save_" <+: nameText db a ∧ Named db a b!"custom_flag" ∧ IntBit db a b)))

/-- A class passes flag bit `b` on to the classes derived from it: replication, and custom flags when it also
has the attribute `custom_flag_inherit`. -/
def PassesOn (db : DB.Database) (q : Ref) (b : Nat) : Prop :=
  (b = 8 ∧ ∃ a, AttributeOf db a q ∧ SetsBit db a 8) ∨
  ((∃ a, AttributeOf db a q ∧ Named db a b!"custom_flag_inherit") ∧
   ∃ a, AttributeOf db a q ∧ Named db a b!"custom_flag" ∧ IntBit db a b)

/-- The number of objects in a table. -/
def tableSize (db : DB.Database) (k : K) : Nat := if k = .container then db.containerInfos.length else (entries db k).length

/-- A name is in the name table. -/
def Known (db : DB.Database) (h : UInt32) : Prop := ∃ n ∈ db.names, n.hash = h

/-- A database as the scanner and the merger make them. -/
structure WellFormed (depth : Nat) (db : DB.Database) : Prop where
  names : ∀ r p, entry db r = some p → Known db p.name.hash
  containerNames : ∀ c ∈ db.containerInfos, Known db c.name.hash
  parents : ∀ r p, entry db r = some p → p.parent.hash = 0 ∨ Known db p.parent.hash
  types : ∀ f ∈ db.fields, f.type.hash = 0 ∨ Known db f.type.hash
  /-- every field is a field of a class or a parameter of a function -/
  owned : ∀ i, i < db.fields.length → ∃ s, Records db (.field, i) s
  fewTypes : db.types.length + db.classes.length + db.enums.length + db.templateTypes.length ≤ 2 ^ 30
  fewFunctions : db.functions.length ≤ 2 ^ 30
  /-- no type is a base of itself, hierarchies are less than `depth` deep -/
  acyclic : ∃ rank : UInt32 → Nat, (∀ h, rank h < depth) ∧ ∀ t ∈ db.inheritances, rank t.base.hash < rank t.derived.hash

/-- The tables lie apart from one another above the 32-bit range, `std::sort` sorts, and no object has an address
whose low half is the hash of a name or of the scoped name of a field. -/
structure LaidOut (env : Env) (db : DB.Database) : Prop where
  far : ∀ k, 2 ^ 32 ≤ env.base k
  stride : ∀ k, 0 < env.stride k
  apart : ∀ (r : Ref) (k : K), r.2 < tableSize db r.1 → r.1 ≠ k →
    ¬ (env.base k ≤ env.addr r ∧ env.addr r < env.base k + tableSize db k * env.stride k)
  sort : ∀ (key : Ref → UInt32) (l : List Ref), (env.sort key l).Perm l ∧ (env.sort key l).Pairwise fun a b => key a ≤ key b
  noAlias : ∀ r : Ref, r.2 < tableSize db r.1 → ¬ Known db (UInt32.ofNat (env.addr r))
  noFieldAlias : ∀ r : Ref, r.2 < tableSize db r.1 → ∀ c s, Records db c s →
    hashOf (nameText db s ++ b!"::" ++ nameText db c) ≠ UInt32.ofNat (env.addr r)

/-- What the theorems ask of the database and of where its tables are placed. -/
structure Ready (env : Env) (fuel : Nat) (db : DB.Database) : Prop where
  wellFormed : WellFormed fuel db
  unambiguous : Unambiguous db
  laidOut : LaidOut env db

end Clr.Export
