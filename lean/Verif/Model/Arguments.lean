import Verif.Basic
/-
Model of `Arguments` (src/clReflectCore/Arguments.h): command-line storage and queries.
`-1` as an index is `none`.
-/
namespace Clr.Args

/-- The loop of `GetIndexOf` (src/clReflectCore/Arguments.h:41-52) from index `i` with the counter
`found`. -/
def indexLoop (arg : Bytes) (occurrence : Int) : List Bytes → Nat → Int → Option Nat
  | [], _, _ => none
  | a :: rest, i, found =>
    if a = arg then
      if found = occurrence then some i else indexLoop arg occurrence rest (i + 1) (found + 1)
    else indexLoop arg occurrence rest (i + 1) found

/-- `GetIndexOf` (src/clReflectCore/Arguments.h:38-55). -/
def getIndexOf (args : List Bytes) (arg : Bytes) (occurrence : Int := 0) : Option Nat :=
  indexLoop arg occurrence args 0 0

/-- `Have` (src/clReflectCore/Arguments.h:57-61). -/
def haveArg (args : List Bytes) (arg : Bytes) : Bool := (getIndexOf args arg).isSome

/-- `GetProperty` (src/clReflectCore/Arguments.h:63-73). -/
def getProperty (args : List Bytes) (arg : Bytes) (occurrence : Int := 0) : Bytes :=
  match getIndexOf args arg occurrence with
  | none => []
  | some i => if i + 1 ≥ args.length then [] else args.getD (i + 1) []

end Clr.Args
