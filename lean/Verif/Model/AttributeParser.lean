import Verif.Model.AttributeSpec
import Verif.Model.FileUtils

/-!
Model of the attribute parser, src/clReflectScan/AttributeParser.cpp.

Texts are byte lists without their terminator (a byte 0 in a list ends the text, too).  Texts are shorter
than 2 GB, so that `length` (an `int`) is exact.  Warnings that are logged are not modelled.
-/
namespace Clr.Attr
open Clr.DB (Name getName)

/-- Why parsing does not return: an assertion (`Database::GetName` on a hash collision), a read of a token past the
end of the list, `isalnum` and the like called with a negative `char` (undefined in C), an `atoi` that does not fit
an `int` (undefined in C), or, never, the model running out of steps. -/
inductive Stop where
  | assert | index | ctype | overflow | fuel
deriving DecidableEq, Repr

/-- Outcome. -/
inductive Out (α : Type) where
  | ok (a : α)
  | stop (k : Stop)
deriving DecidableEq, Repr

namespace Out

/-- Sequence. -/
def bind {α β : Type} : Out α → (α → Out β) → Out β
  | ok a, f => f a
  | stop k, _ => stop k

instance : Monad Out where
  pure := ok
  bind := bind

end Out

/-- `TokenType`, AttributeParser.cpp:25-35 (`TOKEN_NONE` is never made). -/
inductive TokenType where
  | equals | comma | int | hex | float | symbol | string
deriving DecidableEq, Repr

/-- `Token`, AttributeParser.cpp:37-67: the type and the characters pointed to. -/
structure Token where
  type : TokenType
  chars : Bytes
deriving DecidableEq, Repr

/-- `Token::GetText`, AttributeParser.cpp:53-61: cut to the 1023 characters of the static buffer. -/
def Token.text (t : Token) : Bytes := t.chars.take 1023

/-- `isalpha` in the "C" locale. -/
def isAlpha (c : UInt8) : Bool := (65 ≤ c && c ≤ 90) || (97 ≤ c && c ≤ 122)

/-- `isdigit` in the "C" locale. -/
def isDigit (c : UInt8) : Bool := 48 ≤ c && c ≤ 57

/-- `isxdigit` in the "C" locale. -/
def isXDigit (c : UInt8) : Bool := isDigit c || (65 ≤ c && c ≤ 70) || (97 ≤ c && c ≤ 102)

/-- The pattern of `ParseSymbol`: `[A-Za-z0-9_:]`. -/
def symChar (c : UInt8) : Bool := isAlpha c || isDigit c || c == 95 || c == 58

/-- The loop of `ParseString`, AttributeParser.cpp:72-76: what is before the quote, and what is behind it; `none` if there is
none. -/
def strLoop : Bytes → Option (Bytes × Bytes)
  | [] => none
  | c :: cs =>
    if c = 0 then none
    else if c = 34 then some ([], cs)
    else (strLoop cs).map fun r => (c :: r.1, r.2)

/-- The loop of `ParseSymbol`, AttributeParser.cpp:92-96: the symbol and the rest. -/
def symLoop : Bytes → Out (Bytes × Bytes)
  | [] => .ok ([], [])
  | c :: cs =>
    if c = 0 then .ok ([], c :: cs)
    else if 128 ≤ c then .stop .ctype
    else if symChar c then do
      let r ← symLoop cs
      .ok (c :: r.1, r.2)
    else .ok ([], c :: cs)

/-- The loop of `ParseNumber`, AttributeParser.cpp:105-130: the type of the token, its characters and the rest; `none` when
a second '.', 'x' or 'X' is met. -/
def numLoop (type : TokenType) : Bytes → Out (Option (TokenType × Bytes × Bytes))
  | [] => .ok (some (type, [], []))
  | c :: cs =>
    if c = 0 then .ok (some (type, [], c :: cs))
    else if 128 ≤ c then .stop .ctype
    else if isXDigit c then do
      let r ← numLoop type cs
      .ok (r.map fun r => (r.1, c :: r.2.1, r.2.2))
    else if c = 46 ∨ c = 120 ∨ c = 88 then
      if type ≠ .int then .ok none
      else do
        let r ← numLoop (if c = 46 then .float else .hex) cs
        .ok (r.map fun r => (r.1, c :: r.2.1, r.2.2))
    else .ok (some (type, [], c :: cs))

/-- The `switch` of `Lexer`, AttributeParser.cpp:146-191, at the character `c`: the token that is added, if one is, and the
rest of the text; `none` after an error. -/
def lexOne (c : UInt8) (cs : Bytes) : Out (Option (Option Token × Bytes)) :=
  if c = 61 then .ok (some (some ⟨.equals, [c]⟩, cs))
  else if c = 44 then .ok (some (some ⟨.comma, [c]⟩, cs))
  else if c = 34 then .ok ((strLoop cs).map fun r => (some ⟨.string, r.1⟩, r.2))
  else if c = 32 ∨ c = 9 then .ok (some (none, cs))
  else if c = 95 then do
    let r ← symLoop (c :: cs)
    .ok (some (some ⟨.symbol, r.1⟩, r.2))
  else if 128 ≤ c then .stop .ctype
  else if isAlpha c then do
    let r ← symLoop (c :: cs)
    .ok (some (some ⟨.symbol, r.1⟩, r.2))
  else if isDigit c then do
    let r ← numLoop .int (c :: cs)
    .ok (r.map fun r => (some ⟨r.1, r.2.1⟩, r.2.2))
  else .ok none

/-- The loop of `Lexer`, AttributeParser.cpp:141-200, in at most so many rounds. -/
def lexLoop : Nat → Bytes → List Token → Out (List Token)
  | 0, _, _ => .stop .fuel
  | _ + 1, [], tokens => .ok tokens
  | n + 1, c :: cs, tokens =>
    if c = 0 then .ok tokens
    else do
      let r ← lexOne c cs
      match r with
      | none => .ok []
      | some (t, rest) => lexLoop n rest (tokens ++ t.toList)

/-- `Lexer`, AttributeParser.cpp:137-203; every round consumes a character. -/
def lexer (text : Bytes) : Out (List Token) := lexLoop (text.length + 1) text []

/-- The value of the digits `atoi` reads, which stops at the first character that is none: undefined when it does not fit. -/
def atoi (text : Bytes) : Out Int32 :=
  if FileUtils.atoiDigits text 0 < 2 ^ 31 then .ok (FileUtils.atoi text) else .stop .overflow

/-- `AddHexIntAttribute`, AttributeParser.cpp:248-251: the value.  (The text is terminated: characters 1 and 2 of a shorter
text are 0 or not looked at.) -/
def hexValue (text : Bytes) : Int32 :=
  if text[0]? = some 48 ∧ (text[1]? = some 120 ∨ text[2]? = some 88) then
    (FileUtils.hextoi (text.drop 2)).toInt32
  else 0

/-- An outcome of the database's functions, which have no undefined behaviour here. -/
def ofRes {α : Type} : Res α → Out α
  | .ok r => .ok r
  | _ => .stop .assert

/-- `GetName`. -/
def intern (names : List Name) (text : Bytes) : Out (Name × List Name) := ofRes (getName names (some text))

/-- The attribute for `name = val`, AttributeParser.cpp:238-274 and 296-316; `none` is a value that is none.  `scan` is what
`sscanf` with `"%f"` stores in a `float` that is 0 before (line 259). -/
def assign (scan : Bytes → UInt32) (names : List Name) (name val : Token) : Out (Option Attribute × List Name) :=
  match val.type with
  | .int => do
    let v ← atoi val.text
    let n ← intern names name.text
    .ok (some ⟨n.1, .int v⟩, n.2)
  | .hex => do
    let n ← intern names name.text
    .ok (some ⟨n.1, .int (hexValue val.text)⟩, n.2)
  | .float => do
    let n ← intern names name.text
    .ok (some ⟨n.1, .float (scan val.text)⟩, n.2)
  | .symbol => do
    let n ← intern names name.text
    let v ← intern n.2 val.text
    .ok (some ⟨n.1, .prim v.1⟩, v.2)
  | .string => do
    let n ← intern names name.text
    .ok (some ⟨n.1, .text val.text⟩, n.2)
  | .equals => .ok (none, names)
  | .comma => .ok (none, names)

/-- `ExpectNext`, AttributeParser.cpp:204-211: `tokens[pos]` without a check. -/
def expectNext (tokens : List Token) (pos : Nat) (type : TokenType) : Out (Option Token) :=
  match tokens[pos]? with
  | none => .stop .index
  | some t => if t.type = type then .ok (some t) else .ok none

/-- `CheckNext`, AttributeParser.cpp:213-228. -/
def checkNext (tokens : List Token) (pos : Nat) (type : TokenType) : Bool :=
  match tokens[pos]? with
  | none => false
  | some t => decide (t.type = type)

/-- `AttributeDef` (276-327) after the name: the attribute, the names, and the position; `none` is `false`. -/
def attributeRest (scan : Bytes → UInt32) (names : List Name) (tokens : List Token) (name : Token) (pos : Nat) :
    Out (Option Attribute × List Name × Nat) :=
  if checkNext tokens pos .equals then
    match tokens[pos + 1]? with
    | none => .ok (none, names, pos + 1)
    | some val => do
      let r ← assign scan names name val
      .ok (r.1, r.2, pos + 2)
  else do
    let n ← intern names name.text
    .ok (some ⟨n.1, .flag⟩, n.2, pos)

/-- `AttributeDef`, AttributeParser.cpp:276-327: the attribute, the names, and the position; `none` is `false`. -/
def attributeDef (scan : Bytes → UInt32) (names : List Name) (tokens : List Token) (pos : Nat) :
    Out (Option Attribute × List Name × Nat) := do
  let name ← expectNext tokens pos .symbol
  match name with
  | none => .ok (none, names, pos)
  | some name => attributeRest scan names tokens name (pos + 1)

/-- The parser's loop, AttributeParser.cpp:339-354, from `AttributeDef` on, in at most so many rounds. -/
def parseLoop (scan : Bytes → UInt32) (tokens : List Token) :
    Nat → List Name → List Attribute → Nat → Out (List Attribute × List Name)
  | 0, _, _, _ => .stop .fuel
  | n + 1, names, attributes, pos => do
    let r ← attributeDef scan names tokens pos
    match r with
    | (none, names, _) => .ok (attributes, names)
    | (some a, names, pos) =>
      if checkNext tokens pos .comma then parseLoop scan tokens n names (attributes ++ [a]) (pos + 1)
      else .ok (attributes ++ [a], names)

/-- `Parser`, AttributeParser.cpp:329-356. -/
def parser (scan : Bytes → UInt32) (names : List Name) (tokens : List Token) : Out (List Attribute × List Name) :=
  if tokens.isEmpty then .ok ([], names) else parseLoop scan tokens (tokens.length + 1) names [] 0

/-- `ParseAttributes`, AttributeParser.cpp:359-367, with the names of the database. -/
def parseAttributes (scan : Bytes → UInt32) (names : List Name) (text : Bytes) : Out (List Attribute × List Name) := do
  let tokens ← lexer text
  parser scan names tokens

end Clr.Attr
