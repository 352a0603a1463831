import Verif.Model.ScanTool
/-
What clscan's source files say, read off the macros used in them (specification for C80 and C81).
-/
namespace Clr.ScanTool
open Clr.DB Clr.Scan

/-- Uses of `clcpp_reflect`, `clcpp_reflect_part` and `clcpp_container_iterators` (inc/clcpp/clcpp.h:216-259), with the
texts the preprocessor makes of their arguments. -/
inductive Macro where
  | reflect (name : Bytes)
  | reflectPart (name : Bytes)
  | container (container read write key : Bytes)
deriving DecidableEq, Repr

/-- One namespace with an annotated struct in it. -/
def annotated (text : Bytes) : Top := .ns b!"clcpp_internal" [.record [text]]

/-- What the macros expand to (inc/clcpp/clcpp.h:223-259). -/
def Macro.expand : Macro → List Top
  | .reflect n => [annotated (b!"full-" ++ n)]
  | .reflectPart n => [annotated (b!"part-" ++ n)]
  | .container c r w k => [annotated (b!"part-" ++ r), annotated (b!"part-" ++ w),
      annotated (b!"container-" ++ c ++ b!"-" ++ r ++ b!"-" ++ w ++ b!"-" ++ k)]

/-- A source file in the order of its declarations: macros, and anything but the namespace reserved for them. -/
inductive Item where
  | mac (m : Macro)
  | decl (name : Bytes) (body : List Inner) (h : name ≠ b!"clcpp_internal")
  | other

/-- The declarations of a source file. -/
def Item.tops : Item → List Top
  | .mac m => m.expand
  | .decl name body _ => [.ns name body]
  | .other => [.other]

/-- The macros in a source file. -/
def macros (items : List Item) : List Macro :=
  items.filterMap fun
    | .mac m => some m
    | _ => none

/-- What a use of `clcpp_container_iterators` says, if none of the texts has a dash in it and the key info is known. -/
def described : Macro → Option (Bytes × Cont)
  | .container c r w k =>
    if 45 ∈ c ∨ 45 ∈ r ∨ 45 ∈ w then none
    else if k = b!"haskey" then some (c, ⟨r, w, true⟩)
    else if k = b!"nokey" then some (c, ⟨r, w, false⟩)
    else none
  | _ => none

/-- What a macro says about how much of a symbol to reflect. -/
def specBy (name : Bytes) : Macro → Option Spec
  | .reflect n => if n = name then some .full else none
  | .reflectPart n => if n = name then some .part else none
  | .container _ r w _ => if r = name ∨ w = name then some .part else none

/-- The last of the containers of that name. -/
def lastFor (name : Bytes) (l : List (Bytes × Cont)) : Option Cont :=
  (l.reverse.find? fun e => e.1 = name).map Prod.snd

/-- A source file: its declarations, anything else the walk over it sees, and whether clang finds no errors in it. -/
structure Source (α : Type) where
  items : List Item
  rest : α
  parsed : Bool

/-- As the program sees it. -/
def Source.file {α : Type} (s : Source α) : File α := ⟨s.items.flatMap Item.tops, s.rest, s.parsed⟩

/-- The macros of all files, in the order in which they are given. -/
def allMacros {α : Type} (srcs : List (Source α)) : List Macro := srcs.flatMap fun s => macros s.items

/-- The containers of all files. -/
def allContainers {α : Type} (srcs : List (Source α)) : List (Bytes × Cont) := (allMacros srcs).filterMap described

/-- The database of a run over all files. -/
def Built {α : Type} (env : Env α) (files : List (File α)) (db : Database) : Prop :=
  ∃ g db₀, scanFiles env {} {} files = .ok (g, db₀) ∧ addContainers db₀ g.containers = .ok db

/-- An array the walk over one of the files may describe. -/
def ArrayIn {α : Type} (env : Env α) (files : List (File α)) (i : ContainerInfo) : Prop :=
  ∃ f ∈ files, ∃ specs db, ∃ c ∈ env.walk specs f.rest db, ∃ h, c.1 = .add (.containerInfo i) h

/-- A name in the database: the empty text has none. -/
def nameFor (t : Bytes) : Name := if hashOf t = 0 then {} else ⟨hashOf t, t⟩

/-- The description of a container in the database. -/
def info (name : Bytes) (c : Cont) : ContainerInfo :=
  { name := nameFor name, readIterator := nameFor c.read, writeIterator := nameFor c.write, flags := if c.hasKey then 1 else 0 }

end Clr.ScanTool
