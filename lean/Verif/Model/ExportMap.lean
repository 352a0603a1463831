import Verif.Model.ExportFile
import Verif.Model.MapFiles
/-
clexport with the parser of map files, src/clReflectExport/MapFileParser.cpp:885-893 and src/clReflectExport/Main.cpp:44-53.
-/
namespace Clr.Tools
open Clr.DB

/-- The constructor of `MapFileParser` as GCC and clang compile it (MapFileParser.cpp:885-893): the preferred load address and the
database with what the file says. `m_GetTypeFunctions` is not exported and left out of the result. -/
def gccMapFile (demangle : Bytes → Option Bytes) (rand : Nat → Nat) (map : Bytes) (fs : Files) (db : Database) : Res (UInt64 × Database) :=
  (MapFiles.parseGcc demangle rand (fs.read map) { db := db }).map fun x => (x.1, x.2.db)

/-- The same as Microsoft's compiler makes it; `handler` is whether the symbol handler of the system can be used. -/
def msvcMapFile (undName undSig : Bytes → Bytes) (handler : Bool) (map : Bytes) (fs : Files) (db : Database) : Res (UInt64 × Database) :=
  (MapFiles.parseMsvc undName undSig handler (fs.read map) { db := db }).map fun x => (x.1, x.2.db)

end Clr.Tools
