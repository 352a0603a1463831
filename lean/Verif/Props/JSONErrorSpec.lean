import Verif.Model.JSONSpec
/-
C96: where in a JSON text an error is.
-/
namespace Clr.JSON

/-- Outside strings, in a string, after a backslash in a string. -/
inductive Mode where
  | out
  | str
  | esc
deriving DecidableEq

def Mode.next : Mode → UInt8 → Mode
  | .out, b => if b = 34 then .str else .out
  | .str, b => if b = 34 then .out else if b = 92 then .esc else .str
  | .esc, _ => .str

/-- After a text. -/
def modeAfter (text : Bytes) : Mode := text.foldl Mode.next .out

/-- The newlines outside strings of a text that begins in a mode. -/
def newlinesFrom : Mode → Bytes → Nat
  | _, [] => 0
  | m, b :: r => (if m = .out ∧ b = 10 then 1 else 0) + newlinesFrom (m.next b) r

/-- The newlines outside strings. -/
def newlines (text : Bytes) : Nat := newlinesFrom .out text

/-- The column after a text, as this library counts: from 0 on the first line, from 1 on the others. -/
inductive Column : Bytes → Int → Prop
  | first {text : Bytes} (h : newlines text = 0) : Column text text.length
  | other {before line : Bytes} (hb : modeAfter before = .out) (h : newlines line = 0) : Column (before ++ 10 :: line) (line.length + 1)

def HexByte (b : UInt8) : Prop := (48 ≤ b ∧ b ≤ 57) ∨ (65 ≤ b ∧ b ≤ 70) ∨ (97 ≤ b ∧ b ≤ 102)

/-- What is wrong after `before`, where the text goes on with `after`. -/
def Wrong : Code → Bytes → Bytes → Prop
  | .none, _, _ => False
  /- Nothing begins with this character. -/
  | .unexpectedCharacter, before, after =>
    modeAfter before = .out ∧ ∃ b r, after = b :: r ∧ b ∉ b!"{}[],:\"-0123456789tfn \t\n\r" ∧ b ≠ 11 ∧ b ≠ 12
  | .invalidEscape, before, after => modeAfter before = .esc ∧ ∃ b r, after = b :: r ∧ b ∉ b!"\"\\/bfnrtu"
  /- After `\u`, `0x` and `0d`. -/
  | .expectingHexDigit, before, after =>
    (∃ s, before = s ++ b!"\\u" ∧ ∃ b ∈ after.take 4, ¬ HexByte b) ∨
    (∃ s, (before = s ++ b!"0x" ∨ before = s ++ b!"0d") ∧ ∃ b r, after = b :: r ∧ ¬ HexByte b)
  /- After a minus. -/
  | .expectingDigit, before, after => ∃ s b r, before = s ++ b!"-" ∧ after = b :: r ∧ ¬ (48 ≤ b ∧ b ≤ 57)
  /- After the beginning of a keyword that goes on with another letter. -/
  | .invalidKeyword, before, after =>
    ∃ s k l c b r, k ++ c :: l ∈ [b!"true", b!"false", b!"null"] ∧ k ≠ [] ∧ before = s ++ k ∧ after = b :: r ∧ b ≠ c
  /- The text ends here, or in the four digits of an escape, or in the number that goes on here. -/
  | .unexpectedEnd, _, after => after.length ≤ 4 ∨ ∀ b ∈ after, b ∈ b!"0123456789.eE+-"
  /- After a token that cannot be there. -/
  | .unexpectedToken, before, _ => modeAfter before = .out

/-- The position of an error in a text, and what is wrong there. -/
def Located (text : Bytes) (err : Err) : Prop :=
  ∃ before after, text = before ++ after ∧ err.position = before.length ∧ Wrong err.code before after

/-- The position, and also the line and column. -/
def Reported (text : Bytes) (err : Err) : Prop :=
  ∃ before after, text = before ++ after ∧ err.position = before.length ∧ Wrong err.code before after ∧
    err.line = 1 + newlines before ∧ Column before err.column

/-- No containers in fields, other than dictionaries and arrays. -/
inductive NoLists : Ty → Prop
  | prim (h : BitVec 32) (s : Nat) : NoLists (.prim h s)
  | enum (h : BitVec 32) (s : Nat) (cs : List Const) (fl : Bool) : NoLists (.enum h s cs fl)
  | tmpl (h : BitVec 32) (s : Nat) (bs : Tys) : NoLists (.tmpl h s bs)
  | cls (h : BitVec 32) (s : Nat) (fl : BitVec 32) (fs : Flds) (bs : Tys)
      (hf : ∀ x ∈ (Ty.cls h s fl fs bs).allFields, NoLists x.2) : NoLists (.cls h s fl fs bs)
  | dict (h : BitVec 32) (s : Nat) (kt vt : Ty) (p : Bool) (hk : NoLists kt) (hv : NoLists vt) : NoLists (.dict h s kt vt p)

end Clr.JSON
