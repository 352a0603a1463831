import Verif.Model.MapFilesSpec
import Verif.Model.MapFileSpec
/-!
What the functions in a map file say of a database.
-/
namespace Clr.MapFiles
open Clr.Map Clr.DB

/-- A function as GCC's demangler spells it: its scope, if it has one, its name, its parameters, and whether it is a const method. -/
structure Call where
  scope : Option Bytes
  name : Bytes
  params : List Par
  const : Bool

/-- The name with its scope. -/
def Call.full (c : Call) : Bytes :=
  match c.scope with
  | none => c.name
  | some s => s ++ b!"::" ++ c.name

def Call.text (c : Call) : Bytes := c.full ++ b!"(" ++ gccAll c.params ++ b!")" ++ (if c.const then b!" const" else [])

/-- The types it is made of. -/
def Call.texts (c : Call) : List Bytes := c.scope.toList ++ c.params.map fun p => p.ty.text ++ gccOp p.op

structure Call.Ok (c : Call) : Prop where
  name : c.name ≠ [] ∧ 58 ∉ c.name
  chars : ∀ x ∈ c.full, x ≠ 32 ∧ x ≠ 38 ∧ x ≠ 40 ∧ x ≠ 60
  scope : ∀ s, c.scope = some s → s.length < 1024
  params : ∀ p ∈ c.params, p.Gcc
  notGenerated : ¬ b!"clcppConstructObject" <+: c.full ∧ ¬ b!"clcppDestructObject" <+: c.full
  noPointer : ¬ b!"*)(" <+: gccAll c.params ++ b!")" ++ (if c.const then b!" const" else [])
  noAnonymous : ¬ b!"anonymous namespace)" <+: gccAll c.params ++ b!")" ++ (if c.const then b!" const" else [])

/-- The database's function with the parameters of a method: the object is the first. -/
def Call.Method (c : Call) (f : Function) : Prop :=
  ∃ s, c.scope = some s ∧ f.name.hash = hashOf c.full ∧ f.uniqueId = ⟨Hash.uniqueId (⟨s, .pointer, c.const⟩ :: c.params.map Par.param)⟩

/-- The database's function with just the parameters. -/
def Call.Plain (c : Call) (f : Function) : Prop := f.name.hash = hashOf c.full ∧ f.uniqueId = ⟨Hash.uniqueId (c.params.map Par.param)⟩

/-- The function of a database that is meant: the method, or if there is no such method the plain function. -/
def Call.Means (fs : List Function) (c : Call) (f : Function) : Prop :=
  c.Method f ∨ (c.Plain f ∧ ∀ g ∈ fs, ¬ c.Method g)

/-- What a line of a map file is about. -/
inductive Item where
  /-- a function -/
  | call (c : Call)
  /-- the function that constructs or destroys objects of a type, made by a macro of clReflect -/
  | maker (type : Bytes) (construct : Bool)
  /-- `clcpp::GetType` or `clcpp::GetTypeNameHash` of a type, with what is returned -/
  | query (ret type : Bytes) (isGetType : Bool)
  /-- anything else -/
  | other (sig : Bytes)

def Item.text : Item → Bytes
  | .call c => c.text
  | .maker t b => (if b then b!"clcppConstructObject" else b!"clcppDestructObject") ++ b!"(" ++ t ++ b!"*)"
  | .query ret t b => ret ++ b!" " ++ (if b then b!"clcpp::GetType" else b!"clcpp::GetTypeNameHash") ++ (b!"<" ++ t ++ b!">") ++ ([] ++ b!"(" ++ b!")")
  | .other sig => sig

/-- The name of a type's constructor or destructor in the database. -/
def makerName (t : Bytes) (construct : Bool) : Bytes := t ++ b!"::" ++ (if construct then b!"ConstructObject" else b!"DestructObject")

/-- The texts the database is told of. -/
def Item.texts : Item → List Bytes
  | .call c => c.texts
  | .maker t b => [t, b!"this", makerName t b]
  | .query _ t _ => [t]
  | .other _ => []

/-- The name the program finds in a signature (C63) is that of no function and of nothing generated. -/
structure Irrelevant (rand : Nat → Nat) (names : List UInt32) (sig : Bytes) : Prop where
  generated : ∀ p ∈ [b!"clcppConstructObject", b!"clcppDestructObject", b!"clcpp::GetType<", b!"clcpp::GetTypeNameHash<"],
    ¬ p <+: parseFunctionName rand sig
  unknown : hashOf (parseFunctionName rand sig) ∉ names

/-- The items can be read, given the names of the functions there will be. -/
def Item.Ok (rand : Nat → Nat) (names : List UInt32) : Item → Prop
  | .call c => c.Ok
  | .maker t _ => t ≠ [] ∧ (∀ x ∈ t, x ≠ 32 ∧ x ≠ 62 ∧ x ≠ 42) ∧ t ∉ [b!"struct", b!"class", b!"enum"]
  | .query ret t _ => (∀ x ∈ ret, x ≠ 40 ∧ x ≠ 60) ∧ ¬ b!"operator" <:+ ret ∧ (∀ x ∈ t, x ≠ 32 ∧ x ≠ 62 ∧ x ≠ 42 ∧ x ≠ 40 ∧ x ≠ 60) ∧
      t ∉ [b!"struct", b!"class", b!"enum"]
  | .other sig => Irrelevant rand names sig

/-- The functions of constructors and destructors, as the database gets them. -/
def Item.made : Item × UInt64 → Option Function
  | (.maker t b, a) => some
    { name := ⟨hashOf (makerName t b), makerName t b⟩, parent := ⟨hashOf t, t⟩, uniqueId := ⟨Hash.uniqueId [⟨t, .pointer, false⟩]⟩, address := a }
  | _ => none

/-- Their parameters. -/
def Item.madeParam : Item × UInt64 → Option DB.Field
  | (.maker t b, _) => some
    { name := ⟨hashOf b!"this", b!"this"⟩, parent := ⟨hashOf (makerName t b), makerName t b⟩, type := ⟨hashOf t, t⟩,
      qualifier := ⟨.pointer, false⟩, offset := 0, parentUniqueId := ⟨Hash.uniqueId [⟨t, .pointer, false⟩]⟩ }
  | _ => none

/-- The address of a function of the database after the items: that of the last that means it, or the one it had. -/
def Gets (fs : List Function) (items : List (Item × UInt64)) (f : Function) (a : UInt64) : Prop :=
  (∃ pre c post, items = pre ++ (.call c, a) :: post ∧ c.Means fs f ∧ ∀ d x, (.call d, x) ∈ post → ¬ d.Means fs f) ∨
  (a = f.address ∧ ∀ d x, (.call d, x) ∈ items → ¬ d.Means fs f)

/-- The items can be read into the database. -/
structure Items (rand : Nat → Nat) (db : Database) (items : List (Item × UInt64)) (T : List Bytes) : Prop where
  /-- no two functions with one name and one list of parameters -/
  twins : db.functions.Pairwise fun f g => f.name.hash = g.name.hash → f.uniqueId ≠ g.uniqueId
  ok : ∀ i a, (i, a) ∈ items → i.Ok rand (db.functions.map (fun f : Function => f.name.hash) ++
    (items.filterMap Item.made).map (fun f : Function => f.name.hash)) ∧ ∀ t ∈ i.texts, t ∈ T
  addresses : ∀ i a, (i, a) ∈ items → a ≠ 0
  /-- no two texts with one hash -/
  clear : Clear db.names T
  /-- no function has the name of a constructor or destructor of the map file -/
  apart : ∀ c a f, (Item.call c, a) ∈ items → f ∈ items.filterMap Item.made → hashOf c.full ≠ f.name.hash

/-- What becomes of the database. -/
structure Told (T : List Bytes) (db : Database) (items : List (Item × UInt64)) (db' : Database) : Prop where
  functions : ∃ address : Function → UInt64, (∀ f ∈ db.functions, Gets db.functions items f (address f)) ∧
    db'.functions.Perm (db.functions.map (fun f => { f with address := address f }) ++ items.filterMap Item.made)
  fields : db'.fields.Perm (db.fields ++ items.filterMap Item.madeParam)
  /-- no name is lost, and new ones are of the texts in the map file -/
  kept : ∀ n ∈ db.names, n ∈ db'.names
  origin : ∀ n ∈ db'.names, n ∈ db.names ∨ ∃ t ∈ T, n = ⟨hashOf t, t⟩
  sorted : db.names.Pairwise (fun a b => a.hash < b.hash) → db'.names.Pairwise (fun a b => a.hash < b.hash)
  /-- with those of constructors and destructors, and of their parameters -/
  made : ∀ f, f ∈ items.filterMap Item.made → f.name ∈ db'.names ∧ f.parent ∈ db'.names
  madeParam : ∀ p, p ∈ items.filterMap Item.madeParam → p.name ∈ db'.names ∧ p.parent ∈ db'.names ∧ p.type ∈ db'.names
  rest : db' = { db with names := db'.names, functions := db'.functions, fields := db'.fields }

end Clr.MapFiles
