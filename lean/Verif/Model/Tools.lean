import Verif.Model.Arguments
import Verif.Model.BinDB
import Verif.Model.TextDB
import Verif.Model.Merge
/-
Model of src/clReflectMerge/Main.cpp: the program clmerge from its arguments and the files it finds to its exit
code and the files it leaves. Files are a map from names to contents. What `GenMergedCppImpl` does to the files is a
parameter here (it is modelled in Verif/Model/CodeGen.lean and CodeGenTypes.lean).
-/
namespace Clr.Tools
open Clr.DB Clr.Args

/-- The file system: what is in each file, and which names `fopen(name, "w")` succeeds for. -/
structure Files where
  read : Bytes → Option Bytes
  canWrite : Bytes → Bool

/-- The files after one was written. -/
def Files.write (fs : Files) (name data : Bytes) : Files :=
  { fs with read := fun n => if n = name then some data else fs.read n }

/-- What is not modelled here: how floats are printed and scanned, and the generated code. -/
structure Env where
  cfg : TextDB.Cfg
  codegen : Bytes → Bytes → Database → Files → Res Files

/-- Reading one input (src/clReflectMerge/Main.cpp:49-57, src/clReflectExport/Main.cpp:30-40): as a binary
database, else as a text database. `none`: the program complains and ends with exit code 1. An attribute has a
virtual table pointer of 8 bytes in front. -/
def loadDatabase (cfg : TextDB.Cfg) (file : Option Bytes) : Res (Option Database) := do
  let (isBin, db) ← BinDB.readBinary 8 file {}
  if isBin then pure (some db)
  else do
    let (isTxt, db) ← TextDB.readText cfg file db
    pure (if isTxt then some db else none)

/-- The loop over the inputs (src/clReflectMerge/Main.cpp:43-61). -/
def mergeFiles (cfg : TextDB.Cfg) (fs : Files) (dest : Database) : List Bytes → Res (Option Database)
  | [] => .ok (some dest)
  | name :: rest => do
    match ← loadDatabase cfg (fs.read name) with
    | none => pure none
    | some loaded => do
      let dest ← Merge.mergeDatabases dest loaded
      mergeFiles cfg fs dest rest

/-- `arg_start` (src/clReflectMerge/Main.cpp:34-41): where the inputs start. -/
def argStart (args : List Bytes) : Nat :=
  2 + (if getProperty args b!"-cpp_codegen" ≠ [] then 2 else 0) + (if getProperty args b!"-h_codegen" ≠ [] then 2 else 0)

/-- `WriteTextDatabase` (src/clReflectCore/DatabaseTextSerialiser.cpp:268-304) from the file's name on: the file
that could not be opened is written to all the same. -/
def writeDatabase (cfg : TextDB.Cfg) (fs : Files) (name : Bytes) (db : Database) : Res Files :=
  if fs.canWrite name then .ok (fs.write name (TextDB.writeText cfg db)) else .ub

/-- `main` (src/clReflectMerge/Main.cpp:23-74): the exit code and the files. -/
def mergeMain (env : Env) (args : List Bytes) (fs : Files) : Res (Nat × Files) :=
  if args.length < 3 then .ok (1, fs)
  else do
    match ← mergeFiles env.cfg fs {} (args.drop (argStart args)) with
    | none => pure (1, fs)
    | some db => do
      let fs ← writeDatabase env.cfg fs (args.getD 1 []) db
      let cpp := getProperty args b!"-cpp_codegen"
      let h := getProperty args b!"-h_codegen"
      if cpp ≠ [] ∨ h ≠ [] then do
        let fs ← env.codegen cpp h db fs
        pure (0, fs)
      else pure (0, fs)

end Clr.Tools
