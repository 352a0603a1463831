import Verif.Basic
/-
Model of src/clReflectCore/FileUtils.cpp: number/text conversion, line reading, token extraction and
string replacement; and of `Remove` (src/clReflectScan/ASTConsumer.cpp:125-129).
C strings are byte lists without their terminator.
-/
namespace Clr.FileUtils

/-! ### Numbers -/

/-- `"0123456789abcdef"[v]` (src/clReflectCore/FileUtils.cpp:73). -/
def hexDigit (v : Nat) : UInt8 := UInt8.ofNat (if v < 10 then 48 + v else 87 + v)

/-- The do-while loop of `itohex` (src/clReflectCore/FileUtils.cpp:70-75); digits are put in front. -/
def hexLoop (v : Nat) (acc : Bytes) : Bytes :=
  if v / 16 = 0 then hexDigit (v % 16) :: acc
  else hexLoop (v / 16) (hexDigit (v % 16) :: acc)
termination_by v

/-- `itohex` (src/clReflectCore/FileUtils.cpp:60-84): padded with '0' to the eight characters of the
static buffer. -/
def itohex (v : UInt32) : Bytes :=
  let d := hexLoop v.toNat []
  List.replicate (8 - d.length) 48 ++ d

/-- A byte as a (signed) `char`. -/
def schar (c : UInt8) : Int := if c.toNat < 128 then c.toNat else (c.toNat : Int) - 256

/-- `tolower` in the "C" locale. -/
def toLower (c : UInt8) : UInt8 := if 65 ≤ c.toNat ∧ c.toNat ≤ 90 then c + 32 else c

/-- `ch >= 'a' ? ch - 'a' + 10 : ch - '0'` (src/clReflectCore/FileUtils.cpp:94-95). -/
def hexVal (c : UInt8) : Int :=
  let ch := schar (toLower c)
  if ch ≥ 97 then ch - 97 + 10 else ch - 48

/-- The loop of `hextoi`/`hextoi64` with an accumulator of the given width. -/
def hexAcc (width : Nat) (text : Bytes) : Nat :=
  text.foldl (fun val c => (((val * 16 : Int) + hexVal c) % (2 ^ width : Int)).toNat) 0

/-- `hextoi` (src/clReflectCore/FileUtils.cpp:87-100). -/
def hextoi (text : Bytes) : UInt32 := UInt32.ofNat (hexAcc 32 text)

/-- `hextoi64` (src/clReflectCore/FileUtils.cpp:103-116). -/
def hextoi64 (text : Bytes) : UInt64 := UInt64.ofNat (hexAcc 64 text)

/-- Decimal digits of a number, put in front of `acc` (`"%u"`). -/
def decLoop (v : Nat) (acc : Bytes) : Bytes :=
  if v / 10 = 0 then UInt8.ofNat (48 + v % 10) :: acc
  else decLoop (v / 10) (UInt8.ofNat (48 + v % 10) :: acc)
termination_by v

/-- `itoa` where the compiler is not Microsoft's: `snprintf(text, 10, "%u", value)` keeps nine
characters (src/clReflectCore/FileUtils.cpp:47-57, the `#else` branch). -/
def itoa (v : UInt32) : Bytes := (decLoop v.toNat []).take 9

/-- `itoa` with Microsoft's compiler: `_itoa(value, text, 10)`, which prints the value as a signed
`int` (src/clReflectCore/FileUtils.cpp:51-52). -/
def itoaMSVC (v : UInt32) : Bytes :=
  let i := v.toBitVec.toInt
  if i < 0 then 45 :: decLoop (-i).toNat [] else decLoop i.toNat []

/-- The digit loop of `atoi`: stops at the first character that is not a digit. -/
def atoiDigits : Bytes → Nat → Nat
  | [], acc => acc
  | c :: cs, acc => if 48 ≤ c.toNat ∧ c.toNat ≤ 57 then atoiDigits cs (acc * 10 + (c.toNat - 48)) else acc

/-- The C library's `atoi`, used by the text reader (src/clReflectCore/DatabaseTextSerialiser.cpp:337-343):
optional white space, optional sign, digits. Values that do not fit `int` are reduced modulo 2^32, which
is what glibc and Microsoft's library do for numbers of at most ten digits on 64-bit targets; the C
standard leaves it undefined. -/
def atoi (text : Bytes) : Int32 :=
  let t := text.dropWhile (fun c => c == 32 || (9 ≤ c && c ≤ 13))
  match t with
  | 45 :: cs => Int32.ofInt (-(atoiDigits cs 0 : Int))
  | 43 :: cs => Int32.ofInt (atoiDigits cs 0)
  | cs => Int32.ofInt (atoiDigits cs 0)

/-! ### Lines -/

/-- The read loop of `ReadLine` (src/clReflectCore/FileUtils.cpp:21-38) on the rest of the file: the line
collected so far, at most 4095 characters. `none` at the end of the file. -/
def readLoop : Bytes → Bytes → Option (Bytes × Bytes)
  | [], _ => none
  | c :: rest, line =>
    if c = 10 then some (line, rest)
    else readLoop rest (if line.length < 4095 then line ++ [c] else line)

/-- `ReadLine` (src/clReflectCore/FileUtils.cpp:16-44): the line and the rest of the file. -/
def readLine (file : Bytes) : Option (Bytes × Bytes) := readLoop file []

/-- `while (char* line = ReadLine(fp))`, as every reader of text files in the project uses it
(e.g. src/clReflectCore/DatabaseTextSerialiser.cpp:760, src/clReflectExport/MapFileParser.cpp:458). -/
def allLines : Nat → Bytes → List Bytes
  | 0, _ => []
  | n + 1, file =>
    match readLine file with
    | none => []
    | some (l, rest) => l :: allLines n rest

/-! ### Searching, tokens, replacing -/

/-- First position at or after the start of `s` where `pat` occurs, counting from `i`; the empty pattern
occurs at the end too (`std::string::find`, `strstr`). -/
def findFrom (pat : Bytes) : Bytes → Nat → Option Nat
  | [], i => if pat = [] then some i else none
  | c :: cs, i => if pat.isPrefixOf (c :: cs) then some i else findFrom pat cs (i + 1)

/-- `std::string::find(pat, pos)`. -/
def find (s pat : Bytes) (pos : Nat) : Option Nat :=
  if pos ≤ s.length then findFrom pat (s.drop pos) pos else none

/-- `startswith` (src/clReflectCore/FileUtils.cpp:119-128): `strstr(text, cmp) == text`. -/
def startswith (text cmp : Bytes) : Bool := find text cmp 0 == some 0

/-- `SkipWhitespace` (src/clReflectCore/FileUtils.cpp:131-136). -/
def skipWhitespace : Bytes → Bytes
  | [] => []
  | c :: cs => if c = 32 ∨ c = 9 then skipWhitespace cs else c :: cs

/-- Store one character; outside the destination it is undefined behaviour. -/
def store (dest : Bytes) (i : Nat) (c : UInt8) : Res Bytes :=
  if i < dest.length then .ok (dest.set i c) else .ub

/-- The copy loop shared by `ConsumeToken` and `ConsumeParameterToken`: `stop` recognises the
delimiters, `size` is the size the caller passes, `i` the next position in `dest`. -/
def tokenLoop (stop : UInt8 → Bool) (size : Nat) : Bytes → Nat → Bytes → Res (Bytes × Bytes)
  | [], i, dest => do
    let dest ← store dest i 0
    pure (dest, [])
  | c :: cs, i, dest =>
    if !stop c && i != size then do
      let dest ← store dest i c
      tokenLoop stop size cs (i + 1) dest
    else do
      let dest ← store dest i 0
      pure (dest, c :: cs)

/-- `ConsumeToken` (src/clReflectCore/FileUtils.cpp:139-148) with a destination of exactly the size
passed (every caller passes `sizeof` of its array): the destination and the remaining text. -/
def consumeToken (text : Bytes) (delimiter : UInt8) (dest : Bytes) : Res (Bytes × Bytes) :=
  tokenLoop (fun c => c == delimiter) dest.length text 0 dest

/-- `ConsumeParameterToken` (src/clReflectExport/MapFileParser.cpp:38-47). -/
def consumeParameterToken (text : Bytes) (dest : Bytes) : Res (Bytes × Bytes) :=
  tokenLoop (fun c => c == 32 || c == 44 || c == 41 || c == 60 || c == 62) dest.length text 0 dest

/-- `std::string::replace(pos, len, with)`. -/
def replaceAt (s : Bytes) (pos len : Nat) (w : Bytes) : Bytes := s.take pos ++ w ++ s.drop (pos + len)

/-- The loop of `StringReplace` (src/clReflectCore/FileUtils.cpp:153-158) with a bound on its iterations;
`i` is the position the next search starts from. `none`: still running. -/
def replaceLoop (pat w : Bytes) : Nat → Bytes → Nat → Option Bytes
  | 0, _, _ => none
  | fuel + 1, res, i =>
    match find res pat i with
    | none => some res
    | some j => replaceLoop pat w fuel (replaceAt res j pat.length w) (j + w.length)

/-- `StringReplace` (src/clReflectCore/FileUtils.cpp:151-160). -/
def stringReplace (fuel : Nat) (s pat w : Bytes) : Option Bytes := replaceLoop pat w fuel s 0

/-- `Remove` (src/clReflectScan/ASTConsumer.cpp:125-129): every search starts from the beginning. -/
def remove (pat : Bytes) : Nat → Bytes → Option Bytes
  | 0, _ => none
  | fuel + 1, s =>
    match find s pat 0 with
    | none => some s
    | some j => remove pat fuel (replaceAt s j pat.length [])

end Clr.FileUtils
