import Verif.Model.JSONLexer

/-!
Specification: what a JSON text is, as a grammar on bytes, independent of the serialiser.  It is RFC 8259's,
with the extensions of this library: hexadecimal numbers `0x..` and `0d..` (the bits of a double), vertical tab
and form feed as white space, any byte but `"` and `\` in a string, leading zeros, no digits after a decimal
point.  So everything that is JSON is covered.
-/
namespace Clr.JSON

/-- White space: newline, space, tab, vertical tab, form feed, carriage return. -/
def spaceByte (b : UInt8) : Bool := b = 10 || b = 32 || b = 9 || b = 11 || b = 12 || b = 13

/-- `0` to `9`. -/
def digitByte (b : UInt8) : Bool := 48 ≤ b && b ≤ 57

/-- `0` to `9`, `A` to `F`, `a` to `f`. -/
def hexByte (b : UInt8) : Bool := (48 ≤ b && b ≤ 57) || (65 ≤ b && b ≤ 70) || (97 ≤ b && b ≤ 102)

/-- A text of white space only. -/
def Ws (s : Bytes) : Prop := ∀ b ∈ s, spaceByte b = true

/-- The characters between the quotes of a JSON string. -/
inductive JStr : Bytes → Prop
  | nil : JStr []
  | char {b : UInt8} {s : Bytes} (h1 : b ≠ 34) (h2 : b ≠ 92) (hs : JStr s) : JStr (b :: s)
  | esc {b : UInt8} {s : Bytes} (hb : b ∈ b!"\"\\/bfnrt") (hs : JStr s) : JStr (92 :: b :: s)
  | uni {w x y z : UInt8} {s : Bytes} (hw : hexByte w) (hx : hexByte x) (hy : hexByte y)
      (hz : hexByte z) (hs : JStr s) : JStr (92 :: 117 :: w :: x :: y :: z :: s)

/-- A text of at least one digit. -/
def Digits (s : Bytes) : Prop := s ≠ [] ∧ ∀ b ∈ s, digitByte b = true

/-- An exponent: `e` or `E`, an optional sign, digits. -/
inductive JExp : Bytes → Prop
  | plain {x : UInt8} {ds : Bytes} (hx : x = 101 ∨ x = 69) (h : Digits ds) : JExp (x :: ds)
  | signed {x y : UInt8} {ds : Bytes} (hx : x = 101 ∨ x = 69) (hy : y = 43 ∨ y = 45) (h : Digits ds) :
      JExp (x :: y :: ds)

/-- What may follow the integer part: a fraction, an exponent, or a fraction and an exponent. -/
inductive JFrac : Bytes → Prop
  | frac {ds : Bytes} (h : ∀ b ∈ ds, digitByte b = true) : JFrac (46 :: ds)
  | exp {s : Bytes} (h : JExp s) : JFrac s
  | both {ds s : Bytes} (h : ∀ b ∈ ds, digitByte b = true) (he : JExp s) : JFrac (46 :: (ds ++ s))

/-- A number: a JSON number, or one in the serialiser's own hexadecimal forms. -/
inductive JNum : Bytes → Prop
  | int {ds : Bytes} (h : Digits ds) : JNum ds
  | neg {ds : Bytes} (h : Digits ds) : JNum (45 :: ds)
  | dec {ds s : Bytes} (h : Digits ds) (hf : JFrac s) : JNum (ds ++ s)
  | negDec {ds s : Bytes} (h : Digits ds) (hf : JFrac s) : JNum (45 :: (ds ++ s))
  | hex {x : UInt8} {ds : Bytes} (hx : x = 100 ∨ x = 120) (hne : ds ≠ []) (h : ∀ b ∈ ds, hexByte b = true) :
      JNum (48 :: x :: ds)

mutual
/-- A JSON value, without white space around it. -/
inductive JVal : Bytes → Prop
  | str {s : Bytes} (h : JStr s) : JVal (34 :: (s ++ [34]))
  | num {s : Bytes} (h : JNum s) : JVal s
  | tru : JVal b!"true"
  | fls : JVal b!"false"
  | null : JVal b!"null"
  | arr0 {w : Bytes} (hw : Ws w) : JVal (91 :: (w ++ [93]))
  | arr {s : Bytes} (h : JElems s) : JVal (91 :: (s ++ [93]))
  | obj0 {w : Bytes} (hw : Ws w) : JVal (123 :: (w ++ [125]))
  | obj {s : Bytes} (h : JMembers s) : JVal (123 :: (s ++ [125]))

/-- The elements of an array: values separated by commas, with white space around them. -/
inductive JElems : Bytes → Prop
  | one {w v x : Bytes} (hw : Ws w) (hv : JVal v) (hx : Ws x) : JElems (w ++ (v ++ x))
  | more {w v x r : Bytes} (hw : Ws w) (hv : JVal v) (hx : Ws x) (hr : JElems r) : JElems (w ++ (v ++ (x ++ 44 :: r)))

/-- The members of an object: `"name" : value` separated by commas, with white space around each part. -/
inductive JMembers : Bytes → Prop
  | one {w k x y v z : Bytes} (hw : Ws w) (hk : JStr k) (hx : Ws x) (hy : Ws y) (hv : JVal v) (hz : Ws z) :
      JMembers (w ++ (34 :: (k ++ 34 :: (x ++ 58 :: (y ++ (v ++ z))))))
  | more {w k x y v z r : Bytes} (hw : Ws w) (hk : JStr k) (hx : Ws x) (hy : Ws y) (hv : JVal v) (hz : Ws z)
      (hr : JMembers r) : JMembers (w ++ (34 :: (k ++ 34 :: (x ++ 58 :: (y ++ (v ++ (z ++ 44 :: r)))))))
end

end Clr.JSON
