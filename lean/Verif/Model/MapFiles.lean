import Verif.Model.MapFile

/-!
Map files as a whole, src/clReflectExport/MapFileParser.cpp: those of macOS' linker, of Linux' linkers (`Verif/Model/MapFile.lean`) and of
Microsoft's, and the choice between them. The simplifications of `Verif/Model/MapFile.lean` apply; of `sscanf`, `%d` reads blanks, a sign
and decimal digits.
-/
namespace Clr.MapFiles

open Clr.Map

open Clr.DB Clr.FileUtils

/-- What `strstr` finds. -/
def contains (text pat : Bytes) : Bool := (find text pat 0).isSome

/-! ### macOS -/

/-- `0x%llX` at the start of a format: no blanks before it. -/
def scanFirst (text : Bytes) : Option (UInt64 × Bytes) :=
  match text with
  | 48 :: 120 :: _ => scanAddress text
  | _ => none

/-- ` %s` in a format, with what comes after it. -/
def scanWordRest (text : Bytes) : Res (Option (Bytes × Bytes)) :=
  (scanWord text).map fun o => o.map fun w => (w, (text.dropWhile isSpace).drop w.length)

/-- Decimal digits. -/
def isDigit (c : UInt8) : Bool := 48 ≤ c && c ≤ 57

/-- `%d` in a format: what comes after it. -/
def scanInt (text : Bytes) : Option Bytes :=
  let t := text.dropWhile isSpace
  let t := match t with
    | c :: r => if c = 43 ∨ c = 45 then r else t
    | [] => t
  if t.takeWhile isDigit = [] then none else some (t.dropWhile isDigit)

/-- ` [%d]` in a format. -/
def scanIndex (text : Bytes) : Option Bytes :=
  match text.dropWhile isSpace with
  | 91 :: t =>
    match scanInt t with
    | some (93 :: r) => some r
    | _ => none
  | _ => none

/-- `ParseMacGCCMapFile`'s state, MapFileParser.cpp:749-756. -/
structure MacReader where
  sections : Bool := false
  symbols : Bool := false
  base : UInt64 := 0
  st : St := {}

/-- A line of the table of sections, MapFileParser.cpp:762-769. -/
def macSection (r : MacReader) (line : Bytes) : Res MacReader :=
  match scanFirst line with
  | none => .ok r
  | some (address, rest) =>
    match scanAddress rest with
    | none => .ok r
    | some (_, rest) => do
      match ← scanWordRest rest with
      | none => .ok r
      | some (_, rest) =>
        match ← scanWord rest with
        | none => .ok r
        | some w => if w = b!"__text" then .ok { r with base := address } else .ok r

/-- A line of the table of symbols, MapFileParser.cpp:773-795. -/
def macSymbol (demangle : Bytes → Option Bytes) (rand : Nat → Nat) (r : MacReader) (line : Bytes) : Res MacReader :=
  match scanFirst line with
  | none => .ok r
  | some (address, rest) =>
    match scanAddress rest with
    | none => .ok r
    | some (_, rest) =>
      match scanIndex rest with
      | none => .ok r
      | some rest => do
        match ← scanWord rest with
        | none => .ok r
        | some w =>
          if startswith w b!"__" then
            match demangle (w.drop 1) with
            | none => .ok r
            | some sig =>
              if contains sig b!" for " then .ok r
              else (processItem rand r.st sig address).map fun st => { r with st := st }
          else .ok r

/-- What a line is taken for, MapFileParser.cpp:760-797. -/
def macLine (demangle : Bytes → Option Bytes) (rand : Nat → Nat) (r : MacReader) (line : Bytes) : Res MacReader :=
  if r.sections then macSection r line
  else if r.symbols then macSymbol demangle rand r line
  else .ok r

/-- The loop of `ParseMacGCCMapFile`, MapFileParser.cpp:758-813: after the title of a table a line is left out. -/
def macLines (demangle : Bytes → Option Bytes) (rand : Nat → Nat) (r : MacReader) : List Bytes → Res MacReader
  | [] => .ok r
  | [l] => (macLine demangle rand r (l.takeWhile (· != 0))).map fun r =>
      if contains (l.takeWhile (· != 0)) b!"# Sections:" then { r with sections := true, symbols := false }
      else if contains (l.takeWhile (· != 0)) b!"# Symbols:" then { r with sections := false, symbols := true }
      else r
  | l :: m :: ls => do
    let r ← macLine demangle rand r (l.takeWhile (· != 0))
    if contains (l.takeWhile (· != 0)) b!"# Sections:" then macLines demangle rand { r with sections := true, symbols := false } ls
    else if contains (l.takeWhile (· != 0)) b!"# Symbols:" then macLines demangle rand { r with sections := false, symbols := true } ls
    else macLines demangle rand r (m :: ls)

/-- `ParseGCCMapFile`, MapFileParser.cpp:859-882: the base address and the database. `none` is a file that cannot be opened. An empty file
has no first line, and `startswith` is given a null pointer. -/
def parseGcc (demangle : Bytes → Option Bytes) (rand : Nat → Nat) (file : Option Bytes) (s : St) : Res (UInt64 × St) :=
  match file with
  | none => .ok (0, s)
  | some file =>
    match allLines (file.length + 1) file with
    | [] => .ub
    | l :: ls =>
      if startswith (l.takeWhile (· != 0)) b!"# Path:" then
        (macLines demangle rand { st := s } ls).map fun r => (r.base, r.st)
      else if startswith (l.takeWhile (· != 0)) b!"Archive member included because of file (symbol)" then
        (linuxLines demangle rand { st := s } ls).map fun r => (r.base, r.st)
      else .ok (0, s)

/-! ### Microsoft -/

/-- `ParseMSVCMapFile`'s state, MapFileParser.cpp:457, and the base address. -/
structure MsvcReader where
  publics : Bool := false
  base : UInt64 := 0
  st : St := {}

/-- Where `line` is after the name of a public symbol, MapFileParser.cpp:465-468. -/
def afterSymbol (line : Bytes) : Res Bytes := do
  let (_, line) ← blankToken (skipWhitespace line)
  let (_, line) ← blankToken (skipWhitespace line)
  .ok line

/-- `ConsumeToken(line, '\r', token, 32)`, MapFileParser.cpp:529-530. -/
def loadAddressToken (text : Bytes) : Res Bytes :=
  if (text.takeWhile (· != 13)).length < 32 then .ok (text.takeWhile (· != 13)) else .ub

/-- The preferred load address, MapFileParser.cpp:525-537: where in the line the words are does not matter. What is behind the end of the
line is not part of the model. -/
def loadAddress (base : UInt64) (line : Bytes) : Res UInt64 :=
  if base = 0 ∧ contains line b!"Preferred load address is " then
    if line.length < 27 then .ub else (loadAddressToken (line.drop 27)).map hextoi64
  else .ok base

/-- The loop of `ParseMSVCMapFile`, MapFileParser.cpp:458-538; after the title of the symbols `line` is the line that is left out. If the
file ends there, what the buffer has of an unfinished line is left out. -/
def msvcLines (undName undSig : Bytes → Bytes) (r : MsvcReader) : List Bytes → Res MsvcReader
  | [] => .ok r
  | l :: ls =>
    let line := l.takeWhile (· != 0)
    if r.publics then do
      match ← msvcLine undName undSig r.st line with
      | none => .ok r
      | some st => do
        let rest ← afterSymbol line
        let base ← loadAddress r.base rest
        msvcLines undName undSig { r with st := st, base := base } ls
    else if contains line b!"  Address" then
      match ls with
      | [] => .ok { r with publics := true }
      | m :: ms => do
        let base ← loadAddress r.base (m.takeWhile (· != 0))
        msvcLines undName undSig { r with publics := true, base := base } ms
    else do
      let base ← loadAddress r.base line
      msvcLines undName undSig { r with base := base } ls

/-- `ParseMSVCMapFile`, MapFileParser.cpp:446-540: `handler` is whether `SymInitialize` succeeds. -/
def parseMsvc (undName undSig : Bytes → Bytes) (handler : Bool) (file : Option Bytes) (s : St) : Res (UInt64 × St) :=
  if handler then
    match file with
    | none => .ok (0, s)
    | some file => (msvcLines undName undSig { st := s } (allLines (file.length + 1) file)).map fun r => (r.base, r.st)
  else .ok (0, s)

end Clr.MapFiles
