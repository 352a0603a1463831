import Verif.Basic
/-
Model of the queries on reflected types (src/clReflectCpp/clcpp.cpp:443-503).
-/
namespace Clr.Types

/-- The part of a loaded database `DerivesFrom` looks at: for each type (identified by a number) the
hash of its name and its direct base types in order (`clcpp::Type`, inc/clcpp/clcpp.h:722-752). -/
structure Graph where
  hash : Nat → UInt32
  bases : Nat → List Nat

/-- The second loop, "search up the inheritance tree" (src/clReflectCpp/clcpp.cpp:453-457), given the
recursive call. -/
def upLoop (rec : Nat → Option Bool) : List Nat → Option Bool
  | [] => some false
  | b :: bs =>
    match rec b with
    | none => none
    | some true => some true
    | some false => upLoop rec bs

/-- `Type::DerivesFrom` (src/clReflectCpp/clcpp.cpp:443-460). The first argument bounds the depth of the
C++ recursion; `none` means the bound was reached. -/
def derivesFrom (g : Graph) (h : UInt32) : Nat → Nat → Option Bool
  | 0, _ => none
  | fuel + 1, t =>
    if (g.bases t).any (fun b => g.hash b == h) then some true
    else upLoop (derivesFrom g h fuel) (g.bases t)

/-- `clcpp::EnumConstant`: a name and a signed 32-bit value (inc/clcpp/clcpp.h:755-763). -/
structure EnumConst where
  name : Bytes
  value : Int32
deriving DecidableEq, Repr

/-- `Enum::GetValueName` (src/clReflectCpp/clcpp.cpp:492-503); `none` is the null pointer. -/
def getValueName : List EnumConst → Int32 → Option Bytes
  | [], _ => none
  | c :: cs, v => if c.value == v then some c.name else getValueName cs v

end Clr.Types
