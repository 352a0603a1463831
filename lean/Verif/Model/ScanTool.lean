import Verif.Model.Scan
import Verif.Model.BuildDB
import Verif.Model.Tools
/-
Model of src/clReflectScan/Main.cpp, the program clscan, and of the container specs in
src/clReflectScan/ReflectionSpecs.cpp. The walk over the declarations of a file (modelled in Verif/Model/Scan.lean and
ScanTypes.lean) is a parameter here: any function from the specs, the file and the database so far to the calls it
makes on the database. Parsing of the command line, the parsing of files by clang and the timing are not modelled.
-/
namespace Clr.ScanTool
open Clr.DB Clr.Scan

/-! ### Container specs -/

/-- What is inside a namespace: a class or struct with its `annotate` attributes in order, or something else. -/
inductive Inner where
  | record (annotations : List Bytes)
  | other
deriving DecidableEq, Repr

/-- A declaration of the translation unit: a namespace, or something else. -/
inductive Top where
  | ns (name : Bytes) (body : List Inner)
  | other
deriving DecidableEq, Repr

/-- `GetReflectionSpec` (src/clReflectScan/ReflectionSpecs.cpp:22-62): the annotation of a spec. -/
def getReflectionSpec : Top → Option Bytes
  | .ns name body =>
    if name ≠ b!"clcpp_internal" then none
    else match body with
      | [] => none
      | .other :: _ => none
      | .record [] :: _ => none
      | .record (a :: _) :: _ => some a
  | .other => none

/-- `ReflectionSpecContainer` (src/clReflectScan/ReflectionSpecs.h:27-33). -/
structure Cont where
  read : Bytes
  write : Bytes
  hasKey : Bool
deriving DecidableEq, Repr

/-- `map[key] = value` of `std::map` (src/clReflectScan/ReflectionSpecs.cpp:131): in the order of the keys, which
is that of their bytes. -/
def assign (key : Bytes) (value : Cont) : List (Bytes × Cont) → List (Bytes × Cont)
  | [] => [(key, value)]
  | e :: l => if key < e.1 then (key, value) :: e :: l
    else if e.1 < key then e :: assign key value l
    else (key, value) :: l

/-- `StringRef::split` on a one character separator, with empty parts (as used in
src/clReflectScan/ReflectionSpecs.cpp:106-108). -/
def split (sep : UInt8) : Bytes → List Bytes
  | [] => [[]]
  | c :: s =>
    if c = sep then [] :: split sep s
    else match split sep s with
      | [] => [[c]]
      | p :: ps => (c :: p) :: ps

/-- `m_ReflectionSpecs` and `m_ContainerSpecs` (src/clReflectScan/ReflectionSpecs.h:62-65). -/
structure Gathered where
  specs : Specs := []
  containers : List (Bytes × Cont) := []

/-- The key info of a container spec (src/clReflectScan/ReflectionSpecs.cpp:119-129). -/
def keyInfo (s : Bytes) : Option Bool :=
  if s = b!"haskey" then some true else if s = b!"nokey" then some false else none

/-- A container spec (src/clReflectScan/ReflectionSpecs.cpp:104-134). -/
def containerSpec (text : Bytes) (l : List (Bytes × Cont)) : List (Bytes × Cont) :=
  match split 45 text with
  | [_, container, read, write, key] =>
    match keyInfo key with
    | some k => assign container ⟨read, write, k⟩ l
    | none => l
  | _ => l

/-- One round of `Gather` (src/clReflectScan/ReflectionSpecs.cpp:80-137). -/
def gatherTop (g : Gathered) (t : Top) : Gathered :=
  match getReflectionSpec t with
  | none => g
  | some text =>
    if text.take 5 = b!"full-" ∨ text.take 5 = b!"part-" then { g with specs := g.specs.annotation text }
    else if text.take 10 = b!"container-" then { g with containers := containerSpec text g.containers }
    else g

/-- `Gather` (src/clReflectScan/ReflectionSpecs.cpp:74-138) for one translation unit, on top of what was gathered before. -/
def gatherFile (g : Gathered) (tops : List Top) : Gathered := tops.foldl gatherTop g

/-! ### The program -/

/-- A call the walk makes: the walk describes no containers, other than arrays (src/clReflectScan/ASTConsumer.cpp:423-431),
which are added like other primitives. -/
def Walked := { c : Build.Call // ∀ a r w k, c ≠ .addContainer a r w k }

/-- A translation unit: its declarations as `Gather` sees them, anything else the walk sees, and whether clang
reports no errors in it. -/
structure File (α : Type) where
  tops : List Top
  rest : α
  parsed : Bool

/-- What is not modelled here: the walk, and how floats and padding are written. -/
structure Env (α : Type) where
  cfg : TextDB.Cfg
  pad : Field → Bytes
  walk : Specs → α → Database → List Walked

variable {α : Type}

/-- The handler of a translation unit (src/clReflectScan/Main.cpp:142-153). -/
def scanFile (env : Env α) (g : Gathered) (db : Database) (f : File α) : Res (Gathered × Database) := do
  let g := gatherFile g f.tops
  let db ← addBaseTypes db baseTypes
  let db ← Build.run db ((env.walk g.specs f.rest db).map Subtype.val)
  pure (g, db)

/-- `tool.run` (src/clReflectScan/Main.cpp:142-156): all files one after the other. The handler is called for files
with errors as well. -/
def scanFiles (env : Env α) (g : Gathered) (db : Database) : List (File α) → Res (Gathered × Database)
  | [] => .ok (g, db)
  | f :: fs => do
    let (g, db) ← scanFile env g db f
    scanFiles env g db fs

/-- The loop over the container specs (src/clReflectScan/Main.cpp:161-168). -/
def addContainers (db : Database) : List (Bytes × Cont) → Res Database
  | [] => .ok db
  | (name, c) :: l => do
    let db ← addContainerInfo db name c.read c.write c.hasKey
    addContainers db l

/-- `std::string::rfind` (src/clReflectScan/Main.cpp:32): the last place where the text is. -/
def rfind (str what : Bytes) : Option Nat :=
  if what.length ≤ str.length then
    (List.range (str.length - what.length + 1)).reverse.find? fun i => (str.drop i).take what.length == what
  else none

/-- `std::string::npos` and the wrapping difference of two sizes. -/
def npos : Nat := 2 ^ 64 - 1

/-- `EndsWith` (src/clReflectScan/Main.cpp:30-33). -/
def endsWith (str what : Bytes) : Bool :=
  (rfind str what).getD npos == (str.length + 2 ^ 64 - what.length) % 2 ^ 64

/-- `WriteDatabase` (src/clReflectScan/Main.cpp:35-45): a file that could not be opened is written to all the same
(src/clReflectCore/DatabaseBinarySerialiser.cpp:218-224). -/
def writeDatabase (env : Env α) (fs : Tools.Files) (name : Bytes) (db : Database) : Res Tools.Files :=
  if endsWith name b!".csv" then
    Tools.writeDatabase env.cfg fs name db
  else if fs.canWrite name then do
    let data ← BinDB.writeBinary 8 env.pad db
    pure (fs.write name data)
  else .ub

/-- `main` (src/clReflectScan/Main.cpp:100-189) from the parsed command line on: the exit code and the files. -/
def scanMain (env : Env α) (files : List (File α)) (output : Bytes) (fs : Tools.Files) : Res (Nat × Tools.Files) := do
  let (g, db) ← scanFiles env {} {} files
  if files.any (fun f => !f.parsed) then pure (1, fs)
  else do
    let db ← addContainers db g.containers
    if output ≠ [] then do
      let fs ← writeDatabase env fs output db
      pure (0, fs)
    else pure (0, fs)

end Clr.ScanTool
