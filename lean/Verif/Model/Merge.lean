import Verif.Model.Database
/-
Model of src/clReflectMerge/DatabaseMerge.cpp and of the merge loop of src/clReflectMerge/Main.cpp.
-/
namespace Clr.Merge
open Clr.DB

/-- `MergeUniques` (src/clReflectMerge/DatabaseMerge.cpp:20-35), for the tables whose symbols cannot be
overloaded. -/
def mergeUniques {α : Type} (key : α → UInt32) (dest : List α) : List α → Res (List α)
  | [] => .ok dest
  | s :: src =>
    if (findBy key (key s) dest).isNone then do
      let dest ← add key s dest
      mergeUniques key dest src
    else mergeUniques key dest src

/-- The key of a class. -/
def classKey (c : Class) : UInt32 := c.name.hash

/-- `dest->second = src_class` for the first entry with the source's key. -/
def assignClass (s : Class) : List Class → List Class
  | [] => []
  | d :: ds => if classKey d == classKey s then s :: ds else d :: assignClass s ds

/-- `MergeClasses` (src/clReflectMerge/DatabaseMerge.cpp:37-72); the warning about differing sizes has no
effect on the database. -/
def mergeClasses (dest : List Class) : List Class → Res (List Class)
  | [] => .ok dest
  | s :: src =>
    match findBy classKey (classKey s) dest with
    | none => do
      let dest ← add classKey s dest
      mergeClasses dest src
    | some d =>
      if d.size = forwardDeclSize ∧ s.size ≠ forwardDeclSize then mergeClasses (assignClass s dest) src
      else mergeClasses dest src

/-- `MergeOverloads` (src/clReflectMerge/DatabaseMerge.cpp:74-106), for the tables whose symbols can be
overloaded; `eq` is the `Equals` of the type. -/
def mergeOverloads {α : Type} (key : α → UInt32) (eq : α → α → Bool) (dest : List α) : List α → Res (List α)
  | [] => .ok dest
  | s :: src =>
    if (findBy key (key s) dest).isNone then do
      let dest ← add key s dest
      mergeOverloads key eq dest src
    else if (dest.filter (fun d => key d == key s)).any (fun d => eq d s) then mergeOverloads key eq dest src
    else do
      let dest ← add key s dest
      mergeOverloads key eq dest src

/-- The name loop of `MergeDatabases` (src/clReflectMerge/DatabaseMerge.cpp:115-117). -/
def mergeNames (dest : List Name) : List Name → Res (List Name)
  | [] => .ok dest
  | n :: src => do
    let (_, dest) ← getName dest (some n.text)
    mergeNames dest src

/-- `MergeDatabases` (src/clReflectMerge/DatabaseMerge.cpp:111-154). `FlagAttribute` has no `Equals` of its
own and uses `Primitive::Equals`. -/
def mergeDatabases (dest src : Database) : Res Database := do
  let names ← mergeNames dest.names src.names
  let namespaces ← mergeUniques (fun p => p.name.hash) dest.namespaces src.namespaces
  let types ← mergeUniques (fun p => p.name.hash) dest.types src.types
  let enums ← mergeUniques (fun p => p.name.hash) dest.enums src.enums
  let templates ← mergeUniques (fun p => p.name.hash) dest.templates src.templates
  let templateTypes ← mergeUniques (fun p => p.name.hash) dest.templateTypes src.templateTypes
  let classes ← mergeClasses dest.classes src.classes
  let enumConstants ← mergeOverloads (fun p => p.name.hash) EnumConstant.equals dest.enumConstants src.enumConstants
  let functions ← mergeOverloads (fun p => p.name.hash) Function.equals dest.functions src.functions
  let fields ← mergeOverloads (fun p => p.name.hash) Field.equals dest.fields src.fields
  let flagAttributes ← mergeOverloads (fun p => p.name.hash) (fun a b => a.toPrim.equals b.toPrim)
    dest.flagAttributes src.flagAttributes
  let intAttributes ← mergeOverloads (fun p => p.name.hash) IntAttribute.equals dest.intAttributes src.intAttributes
  let floatAttributes ← mergeOverloads (fun p => p.name.hash) FloatAttribute.equals
    dest.floatAttributes src.floatAttributes
  let primitiveAttributes ← mergeOverloads (fun p => p.name.hash) PrimitiveAttribute.equals
    dest.primitiveAttributes src.primitiveAttributes
  let textAttributes ← mergeOverloads (fun p => p.name.hash) TextAttribute.equals
    dest.textAttributes src.textAttributes
  let containerInfos ← mergeUniques (fun p => p.name.hash) dest.containerInfos src.containerInfos
  let inheritances ← mergeUniques (fun p => p.name.hash) dest.inheritances src.inheritances
  pure { names, namespaces, types, templates, templateTypes, classes, enums, enumConstants, functions,
         fields, flagAttributes, intAttributes, floatAttributes, primitiveAttributes, textAttributes,
         containerInfos, inheritances }

/-- The merge loop of `main` (src/clReflectMerge/Main.cpp:38-62): every input in turn, starting from an
empty database. -/
def mergeAll (dest : Database) : List Database → Res Database
  | [] => .ok dest
  | s :: ss => do
    let dest ← mergeDatabases dest s
    mergeAll dest ss

end Clr.Merge
