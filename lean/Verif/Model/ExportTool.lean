import Verif.Model.Tools
import Verif.Model.Export
/-
Model of src/clReflectExport/Main.cpp: the program clexport from its arguments and the files it finds to its exit code
and the exported database it saves.
-/
namespace Clr.Tools
open Clr.DB Clr.Args

/-- What is not modelled here: printing and scanning floats, the map file parser (Verif/Model/MapFile.lean), where the
tables of the exported database are placed, and how often base classes are followed. -/
structure ExportEnv where
  cfg : TextDB.Cfg
  mapFile : Bytes → Files → Database → Res Database
  place : Export.Env
  depth : Nat

/-- Building the exported database and saving it (src/clReflectExport/Main.cpp:55-73). `BuildCppExport` only returns
true. A file that can not be opened is left alone (src/clReflectExport/CppExport.cpp:1424-1428). The log (lines 64-66)
and the bytes of the saved file (Verif/Model/Reloc.lean) are left out. -/
def exportSave (env : ExportEnv) (args : List Bytes) (fs : Files) (db : Database) : Option (Res (Nat × Option (Bytes × Export.St))) :=
  let out := getProperty args b!"-cpp"
  if out ≠ [] then
    (Export.exportDB env.place env.depth db).map fun r => r.map fun F => (0, if fs.canWrite out then some (out, F) else none)
  else some (.ok (0, none))

/-- The map file, if one is given (src/clReflectExport/Main.cpp:44-53). -/
def exportMap (env : ExportEnv) (args : List Bytes) (fs : Files) (db : Database) : Res Database :=
  let map := getProperty args b!"-map"
  if map ≠ [] then env.mapFile map fs db else .ok db

/-- `main` (src/clReflectExport/Main.cpp:20-74): the exit code, and what is saved under which name. `none`: base
classes are followed without end. -/
def exportMain (env : ExportEnv) (args : List Bytes) (fs : Files) : Option (Res (Nat × Option (Bytes × Export.St))) :=
  if args.length < 3 then some (.ok (1, none))
  else
    match loadDatabase env.cfg (fs.read (args.getD 1 [])) with
    | .ok none => some (.ok (1, none))
    | .ok (some db) =>
      match exportMap env args fs db with
      | .ok db => exportSave env args fs db
      | .trap => some .trap
      | .ub => some .ub
    | .trap => some .trap
    | .ub => some .ub

end Clr.Tools
