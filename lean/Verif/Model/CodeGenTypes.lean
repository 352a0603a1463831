import Verif.Model.CodeGen
import Verif.Model.FileUtils

/-!
The generated files with `GetType`, `GetTypeNameHash` and `clcppTypeHash`, src/clReflectMerge/CodeGen.cpp:387-541.

Simplification: `%d` is given a `size_t`, of which it prints the lower half as an `int`: printed here as it is, for fewer than 2^31
primitives.
-/
namespace Clr.Gen

/-- `NameWithGlobalScope`, CodeGen.cpp:387-396. -/
def globalName (p : Prim) : Bytes := if p.type ≠ .type ∧ p.parent = 0#32 then b!"::" ++ p.text else p.text

/-- `%d`. -/
def decText (n : Nat) : Bytes := FileUtils.decLoop n []

/-- CodeGen.cpp:407. -/
def getTypeLine (p : Prim) (i : Nat) : Bytes :=
  b!"template <> const Type* GetType< " ++ globalName p ++ b!" >() { return clcppTypePtrs[" ++ decText i ++ b!"]; }"

/-- CodeGen.cpp:408. -/
def getHashLine (p : Prim) : Bytes :=
  b!"template <> unsigned int GetTypeNameHash< " ++ globalName p ++ b!" >() { return 0x" ++ hexText p.hash.toNat ++ b!"; }"

/-- `GenGetTypes`, CodeGen.cpp:399-411: the index is that of all primitives. -/
def getTypes (ps : List Prim) (mask : PrimType → Bool) (indent : Nat) : List Bytes :=
  (ps.zipIdx.filter fun x => mask x.1.type).flatMap fun x => [line indent (getTypeLine x.1 x.2), line indent (getHashLine x.1)]

/-- CodeGen.cpp:421. -/
def typeHashLine (p : Prim) : Bytes :=
  b!"template <> constexpr unsigned int clcppTypeHash< " ++ globalName p ++ b!" >() { return 0x" ++ hexText p.hash.toNat ++ b!"; }"

/-- `GenGetTypesConstexpr`, CodeGen.cpp:413-424. -/
def typeHashes (ps : List Prim) (mask : PrimType → Bool) (indent : Nat) : List Bytes :=
  (ps.filter fun p => mask p.type).map fun p => line indent (typeHashLine p)

/-- `PT_Type | PT_Class | PT_Struct | PT_EnumClass | PT_EnumStruct`, CodeGen.cpp:495, 514. -/
def notEnum : PrimType → Bool
  | .type | .cls | .struct | .enumCls | .enumStruct => true
  | .enum => false

/-- `PT_Enum`, CodeGen.cpp:497, 516. -/
def isEnum : PrimType → Bool
  | .enum => true
  | _ => false

/-- CodeGen.cpp:483-484. -/
def initLine (p : Prim) (i : Nat) : Bytes :=
  b!"clcppTypePtrs[" ++ decText i ++ b!"] = db->GetType(0x" ++ hexText p.hash.toNat ++ b!");"

/-- `IncludeDependencies`, CodeGen.cpp:426-432. -/
def includeDependencies : List Bytes :=
  [line 0 b!"// Generated by clmerge.exe - do not edit!", line 0 b!"#include <clcpp/clcpp.h>", line 0 []]

/-- `GenerateCppFile`, CodeGen.cpp:465-502, without `WriteFile`. -/
def cppFile (db : Db) : List Bytes :=
  let ps := primitives (buildMap db) db
  includeDependencies ++
  [line 0 b!"// Array of type name pointers",
   line 0 (b!"static const int clcppNbTypes = " ++ decText ps.length ++ b!";"),
   line 0 b!"static const clcpp::Type* clcppTypePtrs[clcppNbTypes] = { 0 };",
   line 0 [],
   line 0 b!"void clcppInitGetType(const clcpp::Database* db)",
   line 0 b!"{",
   line 1 b!"// Populate the type pointer array if a database is specified",
   line 1 b!"if (db != 0)",
   line 1 b!"{"] ++
  ps.zipIdx.map (fun x => line 2 (initLine x.1 x.2)) ++
  [line 1 b!"}", line 0 b!"}", line 0 []] ++
  forwardDeclare db ++
  [line 0 b!"// Specialisations for GetType and GetTypeNameHash", line 0 b!"namespace clcpp", line 0 b!"{"] ++
  getTypes ps notEnum 1 ++
  [line 1 b!"#if defined(CLCPP_USING_MSVC)"] ++
  getTypes ps isEnum 1 ++
  [line 1 b!"#endif", line 0 b!"}"]

/-- `GenerateHFile`, CodeGen.cpp:504-520, without `WriteFile`. -/
def hFile (db : Db) : List Bytes :=
  let ps := primitives (buildMap db) db
  includeDependencies ++
  forwardDeclare db ++
  [line 0 b!"// Specialisations for constexpr clcppTypeHash"] ++
  typeHashes ps notEnum 0 ++
  [line 0 b!"#if defined(CLCPP_USING_MSVC)"] ++
  typeHashes ps isEnum 0 ++
  [line 0 b!"#endif"]

end Clr.Gen
