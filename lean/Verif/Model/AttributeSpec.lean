import Verif.Model.Database

/-!
Specification of attribute texts (C46, C47), independent of how they are parsed: what an attribute list is, how it
is spelled, and which attributes it stands for.
-/
namespace Clr.Attr
open Clr.DB (Name hashOf)

/-- A value that is assigned in an attribute. -/
inductive Val where
  | dec (digits : Bytes)
  | hex (digits : Bytes)
  | real (whole fraction : Bytes)
  | symbol (s : Bytes)
  | string (t : Bytes)

/-- An attribute as it is written: `name` or `name = value`. -/
structure Item where
  name : Bytes
  value : Option Val

/-- Letters of ASCII. -/
def Letter (c : UInt8) : Prop := (65 ≤ c.toNat ∧ c.toNat ≤ 90) ∨ (97 ≤ c.toNat ∧ c.toNat ≤ 122)

/-- Decimal digits. -/
def Digit (c : UInt8) : Prop := 48 ≤ c.toNat ∧ c.toNat ≤ 57

/-- Hexadecimal digits. -/
def HexDigit (c : UInt8) : Prop := Digit c ∨ (65 ≤ c.toNat ∧ c.toNat ≤ 70) ∨ (97 ≤ c.toNat ∧ c.toNat ≤ 102)

/-- Symbols: a letter or an underscore, then letters, digits, underscores and colons; at most 1023 characters. -/
def Symbol (s : Bytes) : Prop :=
  s.length ≤ 1023 ∧ ∃ c r, s = c :: r ∧ (Letter c ∨ c = 95) ∧ ∀ d ∈ r, Letter d ∨ Digit d ∨ d = 95 ∨ d = 58

/-- The number that decimal digits stand for. -/
def decNum (ds : Bytes) : Nat := ds.foldl (fun n c => 10 * n + (c.toNat - 48)) 0

/-- The value of a hexadecimal digit. -/
def hexDigitNum (c : UInt8) : Nat :=
  if c.toNat ≤ 57 then c.toNat - 48 else if c.toNat ≤ 70 then c.toNat - 55 else c.toNat - 87

/-- The number that hexadecimal digits stand for. -/
def hexNum (ds : Bytes) : Nat := ds.foldl (fun n c => 16 * n + hexDigitNum c) 0

/-- Well-formed values. -/
def Val.Ok : Val → Prop
  | .dec ds => ds ≠ [] ∧ (∀ d ∈ ds, Digit d) ∧ ds.length ≤ 1023 ∧ decNum ds < 2 ^ 31
  | .hex ds => (∀ d ∈ ds, HexDigit d) ∧ ds.length ≤ 1021
  | .real a b => a ≠ [] ∧ (∀ d ∈ a, Digit d) ∧ (∀ d ∈ b, Digit d) ∧ a.length + b.length ≤ 1022
  | .symbol s => Symbol s
  | .string t => t.length ≤ 1023 ∧ ∀ c ∈ t, c ≠ 0 ∧ c ≠ 34

/-- Well-formed attributes. -/
def Item.Ok (i : Item) : Prop := Symbol i.name ∧ ∀ v, i.value = some v → v.Ok

/-- How a value is written. -/
def Val.spelling : Val → Bytes
  | .dec ds => ds
  | .hex ds => 48 :: 120 :: ds
  | .real a b => a ++ 46 :: b
  | .symbol s => s
  | .string t => 34 :: (t ++ [34])

/-- The words and signs an attribute is written with. -/
def Item.spelling (i : Item) : List Bytes :=
  match i.value with
  | none => [i.name]
  | some v => [i.name, [61], v.spelling]

/-- Those of a list: commas in between. -/
def spelling : List Item → List Bytes
  | [] => []
  | [i] => i.spelling
  | i :: j :: r => i.spelling ++ [44] :: spelling (j :: r)

/-- Blanks: spaces and tabs. -/
def Blank (b : Bytes) : Prop := ∀ c ∈ b, c = 32 ∨ c = 9

/-- Texts that consist of these words and signs, with blanks between, before and after them. -/
inductive Spaced : List Bytes → Bytes → Prop
  | nil (b : Bytes) (hb : Blank b) : Spaced [] b
  | cons (b t : Bytes) (ts : List Bytes) (r : Bytes) (hb : Blank b) (h : Spaced ts r) : Spaced (t :: ts) (b ++ t ++ r)

/-- The name with a text (the empty name for a text with the hash 0). -/
def nameOf (t : Bytes) : Name := if hashOf t = 0 then {} else ⟨hashOf t, t⟩

/-- The attributes of a database (src/clReflectCore/Database.h:180-234) without their parent.  A float is given by its
bits. -/
inductive Value where
  | flag
  | int (v : Int32)
  | float (bits : UInt32)
  | prim (n : Name)
  | text (t : Bytes)
deriving DecidableEq, Repr

/-- `cldb::Attribute`. -/
structure Attribute where
  name : Name
  value : Value
deriving DecidableEq, Repr

/-- The value that a written value stands for.  `scan` says which `float` a decimal fraction stands for. -/
def Val.meaning (scan : Bytes → UInt32) : Val → Value
  | .dec ds => .int (Int32.ofNat (decNum ds))
  | .hex ds => .int (Int32.ofNat (hexNum ds))
  | .real a b => .float (scan (a ++ 46 :: b))
  | .symbol s => .prim (nameOf s)
  | .string t => .text t

/-- The attribute. -/
def Item.meaning (scan : Bytes → UInt32) (i : Item) : Attribute :=
  ⟨nameOf i.name, match i.value with | none => .flag | some v => v.meaning scan⟩

/-- The names an attribute needs. -/
def Item.names (i : Item) : List Bytes :=
  match i.value with
  | some (.symbol s) => [i.name, s]
  | _ => [i.name]

end Clr.Attr
