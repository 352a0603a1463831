import Verif.Model.ImagePlan
import Verif.Model.Tools
import Verif.Model.Image
/-
The program clexport down to the bytes of the file: src/clReflectExport/Main.cpp:20-74 with BuildCppExport
(src/clReflectExport/CppExport.cpp:1093-1227), its allocations and SaveCppExport (lines 1229-1472).
-/
namespace Clr.Image
open Clr Clr.Reloc Clr.Layout
open Clr.Export (K Slot Ref Ptr St)

/-- What the machine brings along: where `new char[]` puts the arena (src/clReflectExport/StackAllocator.h:101-106) and what is
in it, what is in an uninitialised pointer, how `std::sort` orders and what is in the padding of a saved struct. -/
structure Host where
  start : Nat
  memory : Bytes
  junk : Ptr
  sort : (Ref → UInt32) → List Ref → List Ref
  pad : Nat → Bytes

/-- The size of the arena (src/clReflectExport/CppExport.h:25-30). -/
def arenaSize : Nat := 5 * 1024 * 1024

/-- The placement of the tables on this machine. -/
def Host.env (h : Host) (db : DB.Database) : Export.Env := envOf h.start h.junk h.sort db

/-- Everything BuildCppExport allocates, with the linked database. -/
def exportPieces (h : Host) (depth : Nat) (db : DB.Database) : Option (Res (St × List Piece)) :=
  (Export.exportDB (h.env db) depth db).map fun r => r.bind fun F =>
    (Export.exportScopes (h.env db) db).bind fun S =>
    (Export.fieldKeys S (S.count .field)).bind fun fks => .ok (F, pieces db S F fks)

/-- The bytes of the exported file (src/clReflectExport/CppExport.cpp:1093-1472). Simplification: the allocations are
made after the linking instead of in between, which makes no difference unless the program stops. -/
def exportBytes (h : Host) (depth functionBase : Nat) (db : DB.Database) : Option (Res Bytes) :=
  (exportPieces h depth db).map fun r => r.bind fun x =>
    (StackAlloc.run ⟨arenaSize, 0⟩ (x.2.map Piece.request)).bind fun _ =>
    saveExport h.pad h.start (imageOf h.start (placeOf db x.2) (dataOf functionBase db x.1) x.2 (h.memory.take (total x.2)))

end Clr.Image

namespace Clr.Tools
open Clr.DB Clr.Args

/-- What is not modelled here: printing and scanning floats, the map file parser (Verif/Model/MapFiles.lean), which gives the
preferred load address and the database with the addresses of functions, and how often base classes are followed. -/
structure FileEnv where
  cfg : TextDB.Cfg
  mapFile : Bytes → Files → Database → Res (UInt64 × Database)
  host : Image.Host
  depth : Nat

/-- The map file, if one is given (src/clReflectExport/Main.cpp:44-53). -/
def fileMap (env : FileEnv) (args : List Bytes) (fs : Files) (db : Database) : Res (UInt64 × Database) :=
  let map := getProperty args b!"-map"
  if map ≠ [] then env.mapFile map fs db else .ok (0, db)

/-- Building the exported database and saving it (src/clReflectExport/Main.cpp:55-71). A file that can not be opened is left
alone (src/clReflectExport/CppExport.cpp:1424-1428). The log (lines 64-66) is left out. -/
def fileSave (env : FileEnv) (args : List Bytes) (fs : Files) (base : UInt64) (db : Database) : Option (Res (Nat × Files)) :=
  let out := getProperty args b!"-cpp"
  if out ≠ [] then
    (Image.exportBytes env.host env.depth base.toNat db).map fun r => r.map fun bytes =>
      (0, if fs.canWrite out then fs.write out bytes else fs)
  else some (.ok (0, fs))

/-- `main` of clexport (src/clReflectExport/Main.cpp:20-74): the exit code and the files it leaves behind. `none`: base
classes are followed without end. -/
def fileMain (env : FileEnv) (args : List Bytes) (fs : Files) : Option (Res (Nat × Files)) :=
  if args.length < 3 then some (.ok (1, fs))
  else
    match loadDatabase env.cfg (fs.read (args.getD 1 [])) with
    | .ok none => some (.ok (1, fs))
    | .ok (some db) =>
      match fileMap env args fs db with
      | .ok (base, db) => fileSave env args fs base db
      | .trap => some .trap
      | .ub => some .ub
    | .trap => some .trap
    | .ub => some .ub

end Clr.Tools
