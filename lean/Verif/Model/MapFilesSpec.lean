import Verif.Model.MapFiles

/-!
What is in the map files of the linkers, as text and as meaning.
-/
namespace Clr.MapFiles

open Clr.Map

/-- The value of a hexadecimal digit. -/
def digitValue (c : UInt8) : Nat :=
  if c ≤ 57 then c.toNat - 48 else if c ≤ 70 then c.toNat - 55 else c.toNat - 87

/-- The value of hexadecimal digits. -/
def hexNumber (ds : Bytes) : Nat := ds.foldl (fun n c => 16 * n + digitValue c) 0

/-- Hexadecimal digits of a number of up to 64 bits. -/
def HexText (ds : Bytes) : Prop := ds ≠ [] ∧ (∀ c ∈ ds, isHex c = true) ∧ ds.length ≤ 16

/-- A word without blanks that fits the reader's buffers. -/
def Field (w : Bytes) : Prop := w ≠ [] ∧ (∀ c ∈ w, isSpace c = false) ∧ w.length < 1024

/-- Nothing, or a blank and anything. -/
def Tail (t : Bytes) : Prop := ∀ c, t.head? = some c → isSpace c = true

/-- Blanks and tabs, at least one. -/
def Gap (g : Bytes) : Prop := g ≠ [] ∧ ∀ c ∈ g, isSpace c = true

/-- A text that is a line of a file, and is read completely. -/
def Line (l : Bytes) : Prop := 10 ∉ l ∧ 0 ∉ l ∧ l.length ≤ 4095

/-- The lines of a file, the last of them unfinished. -/
def fileOf (lines : List Bytes) (unfinished : Bytes) : Bytes := lines.flatMap (· ++ [10]) ++ unfinished

/-- Signatures with addresses, given to the database one after the other. -/
def processAll (rand : Nat → Nat) (s : St) : List (Bytes × UInt64) → Res St
  | [] => .ok s
  | (sig, address) :: l => do
    let s ← processItem rand s sig address
    processAll rand s l

/-- What a mangled name means: a function's signature. Things made for something, as virtual tables, are no functions. -/
def signatureOf (demangle : Bytes → Option Bytes) (name : Bytes) : Option Bytes :=
  match demangle name with
  | none => none
  | some sig => if contains sig b!" for " then none else some sig

/-! ### Linux -/

/-- A line after the title of the section of code. -/
inductive LinuxEntry where
  /-- blanks, address, blanks, symbol and something else -/
  | symbol (g1 address g2 name tail : Bytes)
  /-- any other line -/
  | other (text : Bytes)

def LinuxEntry.text : LinuxEntry → Bytes
  | .symbol g1 address g2 name tail => g1 ++ (b!"0x" ++ (address ++ (g2 ++ (name ++ tail))))
  | .other t => t

def LinuxEntry.Ok : LinuxEntry → Prop
  | .symbol g1 address g2 name tail => Gap g1 ∧ HexText address ∧ Gap g2 ∧ Field name ∧ Tail tail
  | .other t => ¬ b!"0x" <+: t.dropWhile isSpace

/-- The function a line is about: mangled names begin with an underscore. -/
def LinuxEntry.item (demangle : Bytes → Option Bytes) : LinuxEntry → Option (Bytes × UInt64)
  | .symbol _ address _ name _ =>
    if name.head? = some 95 then
      match signatureOf demangle name with
      | none => none
      | some sig => some (sig, UInt64.ofNat (hexNumber address))
    else none
  | .other _ => none

/-- A map file of a Linux linker. -/
structure LinuxFile where
  /-- what is behind the first line's title -/
  title : Bytes
  /-- lines up to the section of code -/
  before : List Bytes
  gap1 : Bytes
  address : Bytes
  gap2 : Bytes
  size : Bytes
  tail : Bytes
  entries : List LinuxEntry

def LinuxFile.lines (f : LinuxFile) : List Bytes :=
  (b!"Archive member included because of file (symbol)" ++ f.title) :: (f.before ++
    (b!".text" ++ (f.gap1 ++ (b!"0x" ++ (f.address ++ (f.gap2 ++ (b!"0x" ++ (f.size ++ f.tail))))))) :: f.entries.map LinuxEntry.text)

structure LinuxFile.Ok (f : LinuxFile) : Prop where
  lines : ∀ l ∈ f.lines, Line l
  before : ∀ l ∈ f.before, ¬ b!".text" <+: l
  gap1 : Gap f.gap1
  address : HexText f.address
  gap2 : Gap f.gap2
  size : HexText f.size
  tail : Tail f.tail
  entries : ∀ e ∈ f.entries, e.Ok

/-! ### macOS -/

/-- A line of the table of sections. -/
structure MacSection where
  address : Bytes
  gap1 : Bytes
  size : Bytes
  gap2 : Bytes
  segment : Bytes
  gap3 : Bytes
  name : Bytes
  tail : Bytes

def MacSection.text (e : MacSection) : Bytes :=
  b!"0x" ++ (e.address ++ (e.gap1 ++ (b!"0x" ++ (e.size ++ (e.gap2 ++ (e.segment ++ (e.gap3 ++ (e.name ++ e.tail))))))))

structure MacSection.Ok (e : MacSection) : Prop where
  address : HexText e.address
  gap1 : Gap e.gap1
  size : HexText e.size
  gap2 : Gap e.gap2
  segment : Field e.segment
  gap3 : Gap e.gap3
  name : Field e.name
  tail : Tail e.tail

/-- A line of the table of symbols or after it. -/
inductive MacEntry where
  /-- address, size, the number of the file in brackets, the symbol and something else -/
  | symbol (address gap1 size gap2 blanks index gap3 name tail : Bytes)
  /-- any other line, as those of symbols that were left out of the program -/
  | other (text : Bytes)

def MacEntry.text : MacEntry → Bytes
  | .symbol address gap1 size gap2 blanks index gap3 name tail =>
    b!"0x" ++ (address ++ (gap1 ++ (b!"0x" ++ (size ++ (gap2 ++ (b!"[" ++ (blanks ++ (index ++ (b!"]" ++ (gap3 ++ (name ++ tail)))))))))))
  | .other t => t

def MacEntry.Ok : MacEntry → Prop
  | .symbol address gap1 size gap2 blanks index gap3 name tail =>
    HexText address ∧ Gap gap1 ∧ HexText size ∧ Gap gap2 ∧ (∀ c ∈ blanks, isSpace c = true) ∧ (index ≠ [] ∧ ∀ c ∈ index, isDigit c = true) ∧
      Gap gap3 ∧ Field name ∧ Tail tail
  | .other t => ¬ b!"0x" <+: t

/-- The function a line is about: an underscore is in front of mangled names. -/
def MacEntry.item (demangle : Bytes → Option Bytes) : MacEntry → Option (Bytes × UInt64)
  | .symbol address _ _ _ _ _ _ name _ =>
    if b!"__" <+: name then
      match signatureOf demangle (name.drop 1) with
      | none => none
      | some sig => some (sig, UInt64.ofNat (hexNumber address))
    else none
  | .other _ => none

/-- The line begins neither table. -/
def NoTitle (l : Bytes) : Prop := contains l b!"# Sections:" = false ∧ contains l b!"# Symbols:" = false

/-- A map file of macOS' linker. -/
structure MacFile where
  /-- what is behind `# Path:` -/
  path : Bytes
  /-- lines up to the sections -/
  before : List Bytes
  /-- the line of column titles -/
  columns1 : Bytes
  sections : List MacSection
  columns2 : Bytes
  entries : List MacEntry

def MacFile.lines (f : MacFile) : List Bytes :=
  (b!"# Path:" ++ f.path) :: (f.before ++ b!"# Sections:" :: f.columns1 :: (f.sections.map MacSection.text ++
    b!"# Symbols:" :: f.columns2 :: f.entries.map MacEntry.text))

structure MacFile.Ok (f : MacFile) : Prop where
  lines : ∀ l ∈ f.lines, Line l
  before : ∀ l ∈ f.before, NoTitle l
  sections : ∀ e ∈ f.sections, e.Ok ∧ NoTitle e.text
  entries : ∀ e ∈ f.entries, e.Ok ∧ NoTitle e.text

/-- Where the code is to be loaded: the address of the last section of code, or zero. -/
def MacFile.base (f : MacFile) : UInt64 :=
  match (f.sections.filter fun e => e.name = b!"__text").getLast? with
  | some e => UInt64.ofNat (hexNumber e.address)
  | none => 0

/-! ### Microsoft -/

/-- A map file of Microsoft's linker. -/
structure MsvcFile where
  /-- lines up to the load address -/
  before : List Bytes
  address : Bytes
  /-- what is behind the load address: nothing or a carriage return -/
  cr : Bool
  /-- lines up to the title of the public symbols -/
  middle : List Bytes
  title : Bytes
  skipped : Bytes
  publics : List Bytes

def MsvcFile.lines (f : MsvcFile) : List Bytes :=
  f.before ++ (b!" Preferred load address is " ++ (f.address ++ if f.cr then [13] else [])) ::
    (f.middle ++ f.title :: f.skipped :: f.publics)

structure MsvcFile.Ok (f : MsvcFile) : Prop where
  lines : ∀ l ∈ f.lines, Line l
  before : ∀ l ∈ f.before, contains l b!"  Address" = false ∧ contains l b!"Preferred load address is " = false
  address : HexText f.address
  notZero : hexNumber f.address ≠ 0
  middle : ∀ l ∈ f.middle, contains l b!"  Address" = false
  title : contains f.title b!"  Address" = true

/-- The lines of public symbols, one after the other, up to the first that makes the reader give up. -/
def publicSymbols (undName undSig : Bytes → Bytes) (s : St) : List Bytes → Res St
  | [] => .ok s
  | l :: ls => do
    match ← msvcLine undName undSig s l with
    | none => .ok s
    | some s => publicSymbols undName undSig s ls

end Clr.MapFiles
