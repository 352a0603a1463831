import Verif.Basic

/-!
The JSON lexer: src/clReflectUtil/JSONLexer.cpp and `clutl::JSONContext`, `clutl::JSONToken`
(inc/clutl/JSONLexer.h).

The read buffer is `ReadBuffer` (inc/clutl/Serialise.h:70-110, src/clReflectUtil/Serialise.cpp): the
context keeps the bytes not yet consumed (`rest`) and how many were consumed (`pos`).  A read of a
byte that is not in `rest` is a read outside the buffer and is `ub`; a `SeekRel` beyond the end is the
`trap` of its assertion.

Simplifications:
* positions and lengths are natural numbers; the code keeps them in 32-bit integers, so buffers are
  taken to be shorter than 2^31 bytes;
* a string token's `val.string`/`length` (a pointer into the buffer and a length) is the byte string it
  designates;
* `strtod` is C library code: which characters it uses, and that it looks at every one of them and at
  the first it does not use, is modelled (`strtodEnd`); the `double` it makes of them is a parameter.
-/
namespace Clr.JSON

/-- `clutl::JSONError::Code`, inc/clutl/Serialise.h:118-141. -/
inductive Code where
  | none | unexpectedEnd | expectingHexDigit | expectingDigit | unexpectedCharacter | invalidKeyword
  | invalidEscape | unexpectedToken
deriving DecidableEq, Repr

/-- `clutl::JSONError`, inc/clutl/Serialise.h:118-141: code, position, line, column. -/
structure Err where
  code : Code := .none
  position : Nat := 0
  line : Nat := 0
  column : Int := 0
deriving DecidableEq, Repr

/-- `clutl::JSONTokenType`, inc/clutl/JSONLexer.h. -/
inductive TokType where
  | none | lbrace | rbrace | comma | lbracket | rbracket | colon | string | true | false | null
  | integer | decimal
deriving DecidableEq, Repr

/-- `clutl::JSONToken`, inc/clutl/JSONLexer.h: the union `val` is `text` for strings and `bits`
(`val.integer`/`val.decimal`, which alias) for numbers. -/
structure Tok where
  type : TokType := .none
  text : Bytes := []
  bits : UInt64 := 0
deriving DecidableEq, Repr

/-- `JSONToken::IsValid`, inc/clutl/JSONLexer.h. -/
def Tok.isValid (t : Tok) : Bool := t.type != .none

/-- `clutl::JSONContext` (JSONLexer.cpp:347-353) over its read buffer.  The one-level state stack of
`PushState`/`PopState` is modelled by the parser keeping the pushed state. -/
structure Ctx where
  rest : Bytes
  pos : Nat := 0
  line : Nat := 1
  linePos : Nat := 0
  err : Err := {}
deriving DecidableEq, Repr

/-- `JSONContext::SetError`, JSONLexer.cpp:398-407: only the first error is recorded. -/
def Ctx.setError (c : Ctx) (code : Code) : Ctx :=
  if c.err.code = .none then
    { c with err := { code := code, position := c.pos, line := c.line,
                      column := (c.pos : Int) - c.linePos } }
  else c

/-- The condition of `JSONContext::ReadOverflows`, JSONLexer.cpp:383. -/
def Ctx.overflows (c : Ctx) (size : Nat) : Bool := decide (c.rest.length ≤ size)

/-- `PeekChars()[i]`, JSONLexer.cpp:369-378: reading outside the buffer is undefined. -/
def Ctx.peekAt (c : Ctx) (i : Nat) : Res UInt8 :=
  match c.rest[i]? with
  | some b => .ok b
  | none => .ub

/-- `JSONContext::ConsumeChars` (JSONLexer.cpp:355-366) for characters known to be there. -/
def Ctx.adv (c : Ctx) (n : Nat) : Ctx := { c with rest := c.rest.drop n, pos := c.pos + n }

/-- `JSONContext::ConsumeChars`, JSONLexer.cpp:355-360, with the assertion of `ReadBuffer::SeekRel`. -/
def Ctx.consume (c : Ctx) (n : Nat) : Res Ctx :=
  if n ≤ c.rest.length then .ok (c.adv n) else .trap

/-- `JSONContext::IncLine`, JSONLexer.cpp:410-414. -/
def Ctx.incLine (c : Ctx) : Ctx := { c with line := c.line + 1, linePos := c.pos }

/-- `isdigit`, JSONLexer.cpp:21-24. -/
def isDigit (b : UInt8) : Bool := 48 ≤ b && b ≤ 57

/-- `ishexdigit`, JSONLexer.cpp:25-28. -/
def isHexDigit (b : UInt8) : Bool := (48 ≤ b && b ≤ 57) || (65 ≤ b && b ≤ 70) || (97 ≤ b && b ≤ 102)

/-- The conjunction of `ishexdigit(digits[i])` for the next `n` characters, from left to right and
stopping at the first failure, JSONLexer.cpp:41-44. -/
def hexRun (c : Ctx) : Nat → Nat → Res Bool
  | _, 0 => .ok true
  | i, n + 1 => do
    let d ← c.peekAt i
    if isHexDigit d then hexRun c (i + 1) n else .ok false

/-- `Lexer32bitHexDigits`, JSONLexer.cpp:31-53. -/
def lexHex4 (c : Ctx) : Res (Nat × Ctx) := do
  let c ← c.consume 1
  if c.overflows 4 then .ok (0, c.setError .unexpectedEnd)
  else do
    let hex ← hexRun c 0 4
    if hex then do
      let c ← c.consume 4
      .ok (4, c)
    else .ok (0, c.setError .expectingHexDigit)

/-- The single-character escape sequences, JSONLexer.cpp:67-74: `" \ / b n f r t`. -/
def isEscape (b : UInt8) : Bool :=
  b = 34 || b = 92 || b = 47 || b = 98 || b = 110 || b = 102 || b = 114 || b = 116

/-- `LexerEscapeSequence`, JSONLexer.cpp:56-86. -/
def lexEscape (c : Ctx) : Res (Nat × Ctx) := do
  let c ← c.consume 1
  if c.overflows 0 then .ok (0, c.setError .unexpectedEnd)
  else do
    let b ← c.peekAt 0
    if isEscape b then do
      let c ← c.consume 1
      .ok (1, c)
    else if b = 117 then do
      let r ← lexHex4 c
      .ok (1 + r.1, r.2)
    else .ok (0, c.setError .invalidEscape)

theorem consume_eq_ok {c c' : Ctx} {n : Nat} :
    c.consume n = .ok c' ↔ n ≤ c.rest.length ∧ c' = c.adv n := by
  unfold Ctx.consume
  split
  · rename_i hn
    constructor
    · intro h; exact ⟨hn, (Res.ok.inj h).symm⟩
    · rintro ⟨-, rfl⟩; rfl
  · rename_i hn
    simp [hn]

@[simp] theorem setError_rest (c : Ctx) (k : Code) : (c.setError k).rest = c.rest := by
  unfold Ctx.setError; split <;> rfl

@[simp] theorem adv_rest (c : Ctx) (n : Nat) : (c.adv n).rest = c.rest.drop n := rfl

theorem lexHex4_length {c : Ctx} {r : Nat × Ctx} (h : lexHex4 c = .ok r) :
    r.2.rest.length < c.rest.length := by
  unfold lexHex4 at h
  obtain ⟨c1, h1, h⟩ := Res.bind_eq_ok.1 h
  obtain ⟨hl, rfl⟩ := consume_eq_ok.1 h1
  split at h
  · have := Res.ok.inj h; subst this; simp; omega
  · obtain ⟨b, -, h⟩ := Res.bind_eq_ok.1 h
    split at h
    · obtain ⟨c2, h2, h⟩ := Res.bind_eq_ok.1 h
      obtain ⟨hl2, rfl⟩ := consume_eq_ok.1 h2
      have := Res.ok.inj h; subst this; simp; omega
    · have := Res.ok.inj h; subst this; simp; omega

theorem lexEscape_length {c : Ctx} {r : Nat × Ctx} (h : lexEscape c = .ok r) :
    r.2.rest.length < c.rest.length := by
  unfold lexEscape at h
  obtain ⟨c1, h1, h⟩ := Res.bind_eq_ok.1 h
  obtain ⟨hl, rfl⟩ := consume_eq_ok.1 h1
  split at h
  · have := Res.ok.inj h; subst this; simp; omega
  · obtain ⟨b, -, h⟩ := Res.bind_eq_ok.1 h
    split at h
    · obtain ⟨c2, h2, h⟩ := Res.bind_eq_ok.1 h
      obtain ⟨hl2, rfl⟩ := consume_eq_ok.1 h2
      have := Res.ok.inj h; subst this; simp; omega
    · split at h
      · obtain ⟨c2, h2, h⟩ := Res.bind_eq_ok.1 h
        have := Res.ok.inj h; subst this
        have := lexHex4_length h2
        simp at this ⊢; omega
      · have := Res.ok.inj h; subst this; simp; omega

/-- The loop of `LexerString`, JSONLexer.cpp:99-125, from a given `token.length`; `none` is the return
of an empty token. -/
def strLoop (c : Ctx) (length : Nat) : Res (Option Nat × Ctx) :=
  match hc : c.rest with
  | [] => .ok (none, c.setError .unexpectedEnd)
  | b :: _ =>
    if b = 34 then .ok (some length, c.adv 1)
    else if b = 92 then
      match he : lexEscape c with
      | .ok r => if r.1 = 0 then .ok (none, r.2) else strLoop r.2 (length + (1 + r.1))
      | .trap => .trap
      | .ub => .ub
    else strLoop (c.adv 1) (length + 1)
termination_by c.rest.length
decreasing_by
  · exact lexEscape_length he
  · simp [hc]

/-- `LexerString`, JSONLexer.cpp:89-128; called with a quote as the next character. -/
def lexString (c : Ctx) : Res (Tok × Ctx) := do
  let c ← c.consume 1
  let r ← strLoop c 0
  match r.1 with
  | some n => .ok ({ type := .string, text := c.rest.take n }, r.2)
  | none => .ok ({}, r.2)

/-- The loop of `LexerInteger`, JSONLexer.cpp:147-157, at a digit `b` not yet consumed; the
accumulator is a `uint64` and wraps. -/
def digitLoop (c : Ctx) (v : UInt64) : Option UInt64 × Ctx :=
  match hc : c.rest with
  | [] => (none, c.setError .unexpectedEnd)
  | b :: _ => if isDigit b then digitLoop (c.adv 1) (v * 10 + (b - 48).toUInt64) else (some v, c)
termination_by c.rest.length
decreasing_by simp [hc]

/-- `LexerInteger`, JSONLexer.cpp:134-160; `none` is the return value `false`.  The `do` loop is entered
only at a digit, which is what `digitLoop` does with it. -/
def lexInteger (c : Ctx) : Res (Option UInt64 × Ctx) :=
  if c.overflows 0 then .ok (none, c.setError .unexpectedEnd)
  else do
    let b ← c.peekAt 0
    if isDigit b then .ok (digitLoop c 0) else .ok (none, c.setError .expectingDigit)

/-- The value of a hex digit, JSONLexer.cpp:181-185. -/
def hexVal (b : UInt8) : UInt64 :=
  if b < 65 then (b - 48).toUInt64 else ((b ||| 0x20) - 97 + 10).toUInt64

/-- The loop of `LexerHexInteger`, JSONLexer.cpp:177-193. -/
def hexLoop (c : Ctx) (v : UInt64) : Option UInt64 × Ctx :=
  match hc : c.rest with
  | [] => (none, c.setError .unexpectedEnd)
  | b :: _ => if isHexDigit b then hexLoop (c.adv 1) (v * 16 + hexVal b) else (some v, c)
termination_by c.rest.length
decreasing_by simp [hc]

/-- `LexerHexInteger`, JSONLexer.cpp:163-196, for a token of type `type`. -/
def lexHexInteger (c : Ctx) (type : TokType) : Res (Tok × Ctx) :=
  if c.overflows 0 then .ok ({}, c.setError .unexpectedEnd)
  else do
    let b ← c.peekAt 0
    if isHexDigit b then
      match hexLoop c 0 with
      | (some v, c) => .ok ({ type := type, bits := v }, c)
      | (none, c) => .ok ({}, c)
    else .ok ({}, c.setError .expectingHexDigit)

/-- `VerifyDigits`, JSONLexer.cpp:199-219: the characters from the first that is not a digit, or `none`
(an error) when there is none before the end of the buffer. -/
def verifyDigits : Bytes → Option Bytes
  | [] => none
  | b :: r => if isDigit b then verifyDigits r else some (b :: r)

/-- The second part of `VerifyDecimal`, JSONLexer.cpp:242-249: an exponent's sign and digits.  The
first character is read without checking that it is in the buffer. -/
def verifyExponent (d : Bytes) : Res Bool :=
  match d with
  | [] => .ub
  | b :: r => .ok (verifyDigits (if b = 45 || b = 43 then r else b :: r)).isSome

/-- `VerifyDecimal`, JSONLexer.cpp:222-249, on the characters that remain in the buffer; `false` has
recorded `UNEXPECTED_END_OF_DATA`. -/
def verifyDecimal (d : Bytes) : Res Bool :=
  if d.length < 2 then .ok false
  else match d with
  | [] => .ub
  | b :: r =>
    if b = 46 then
      match verifyDigits r with
      | none => .ok false
      | some [] => .ub
      | some (e :: r) => if e ≠ 101 && e ≠ 69 then .ok true else verifyExponent r
    else verifyExponent r

/-- How many leading digits, for `strtodEnd`; `ub` when they reach the end of the buffer, because then
`strtod` goes on reading outside it. -/
def digitCount : Bytes → Res Nat
  | [] => .ub
  | b :: r => if isDigit b then do let n ← digitCount r; .ok (n + 1) else .ok 0

/-- How many characters of an exponent (`e`, sign, digits) `strtod` uses: none without a digit. -/
def exponentCount : Bytes → Res Nat
  | [] => .ub
  | b :: r =>
    if b = 101 || b = 69 then
      match r with
      | [] => .ub
      | s :: r' =>
        if s = 45 || s = 43 then do
          let n ← digitCount r'
          .ok (if n = 0 then 0 else n + 2)
        else do
          let n ← digitCount r
          .ok (if n = 0 then 0 else n + 1)
    else .ok 0

/-- How many characters the C library's `strtod` (JSONLexer.cpp:16, called at 305) uses from the point
or exponent that follows the integer digits (`*number_end - decimal_start`): the digits after a point, an
exponent with at least one digit. -/
def strtodEnd (d : Bytes) : Res Nat :=
  match d with
  | [] => .ub
  | b :: r =>
    if b = 46 then do
      let n ← digitCount r
      let e ← exponentCount (r.drop n)
      .ok (1 + n + e)
    else exponentCount d

/-- The end of `LexerNumber`, JSONLexer.cpp:292-312: an integer token, unless a point or exponent follows.
`number` is the text from `number_start`, of which `k` characters are before `decimal_start`. -/
def lexDecimal (strtod : Bytes → UInt64) (number : Bytes) (k : Nat) (v : UInt64) (c : Ctx) :
    Res (Tok × Ctx) := do
  let b ← c.peekAt 0
  if b = 46 || b = 101 || b = 69 then do
    let good ← verifyDecimal c.rest
    if good then do
      let n ← strtodEnd c.rest
      let c ← c.consume n
      .ok ({ type := .decimal, bits := strtod (number.take (k + n)) }, c)
    else .ok ({}, c.setError .unexpectedEnd)
  else .ok ({ type := .integer, bits := v }, c)

/-- Consume a sign, JSONLexer.cpp:278-284. -/
def skipSign (c : Ctx) (b : UInt8) : Res Ctx := if b = 45 then c.consume 1 else .ok c

/-- `LexerNumber` from line 279 on, JSONLexer.cpp:278-313: sign, integer digits, decimal part. -/
def lexSigned (strtod : Bytes → UInt64) (c0 : Ctx) : Res (Tok × Ctx) := do
  let b ← c0.peekAt 0
  let c ← skipSign c0 b
  let r ← lexInteger c
  match r.1 with
  | none => .ok ({}, r.2)
  | some v =>
    lexDecimal strtod c0.rest (c0.rest.length - r.2.rest.length) (if b = 45 then 0 - v else v) r.2

/-- `LexerNumber`, JSONLexer.cpp:252-313.  The text `0d` begins a `double` given by its bits in hex: the
`case 'd'` falls through into `case 'x'`. -/
def lexNumber (strtod : Bytes → UInt64) (c : Ctx) : Res (Tok × Ctx) := do
  let b ← c.peekAt 0
  if b = 48 then
    if c.overflows 1 then .ok ({}, c.setError .unexpectedEnd)
    else do
      let x ← c.peekAt 1
      if x = 100 then do
        let c ← c.consume 2
        lexHexInteger c .decimal
      else if x = 120 then do
        let c ← c.consume 2
        lexHexInteger c .integer
      else lexSigned strtod c
  else lexSigned strtod c

/-- The loop of `LexerKeyword`, JSONLexer.cpp:323-335: `none` is the return of an empty token with an
overflow recorded, `some false` that a letter did not match. -/
def keywordLoop (c : Ctx) : Bytes → Option Bool × Ctx
  | [] => (some true, c)
  | k :: ks =>
    match c.rest with
    | [] => (none, c.setError .unexpectedEnd)
    | b :: _ => if k = b then keywordLoop (c.adv 1) ks else (some false, c)

/-- `LexerKeyword`, JSONLexer.cpp:316-343, for the letters after the first. -/
def lexKeyword (c : Ctx) (type : TokType) (keyword : Bytes) : Res (Tok × Ctx) := do
  let c ← c.consume 1
  match keywordLoop c keyword with
  | (none, c) => .ok ({}, c)
  | (some false, c) => .ok ({}, c.setError .invalidKeyword)
  | (some true, c) => .ok ({ type := type }, c)

/-- The whitespace characters of `LexerNextToken`, JSONLexer.cpp:453-459. -/
def isSpace (b : UInt8) : Bool := b = 10 || b = 32 || b = 9 || b = 11 || b = 12 || b = 13

/-- The structural characters, JSONLexer.cpp:464-471, and their token types. -/
def structural (b : UInt8) : Option TokType :=
  if b = 123 then some .lbrace
  else if b = 125 then some .rbrace
  else if b = 44 then some .comma
  else if b = 91 then some .lbracket
  else if b = 93 then some .rbracket
  else if b = 58 then some .colon
  else none

/-- The `switch` of `LexerNextToken` for a character that is not whitespace, JSONLexer.cpp:463-499. -/
def lexToken (strtod : Bytes → UInt64) (c : Ctx) (b : UInt8) : Res (Tok × Ctx) :=
  match structural b with
  | some t => do
    let c ← c.consume 1
    .ok ({ type := t }, c)
  | none =>
    if b = 34 then lexString c
    else if b = 45 || isDigit b then lexNumber strtod c
    else if b = 116 then lexKeyword c .true b!"rue"
    else if b = 102 then lexKeyword c .false b!"alse"
    else if b = 110 then lexKeyword c .null b!"ull"
    else .ok ({}, c.setError .unexpectedCharacter)

/-- Skip a whitespace character, counting lines, JSONLexer.cpp:453-461. -/
def Ctx.skipSpace (c : Ctx) (b : UInt8) : Ctx := (if b = 10 then c.incLine else c).adv 1

/-- `LexerNextToken`, JSONLexer.cpp:442-500. -/
def nextToken (strtod : Bytes → UInt64) (c : Ctx) : Res (Tok × Ctx) :=
  match _hc : c.rest with
  | [] => .ok ({}, c.setError .none)
  | b :: _ =>
    if isSpace b then nextToken strtod (c.skipSpace b)
    else lexToken strtod c b
termination_by c.rest.length
decreasing_by unfold Ctx.skipSpace; split <;> simp [Ctx.incLine, *]

end Clr.JSON
