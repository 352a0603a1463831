import Verif.Proofs.MapFiles
import Verif.Props.MapFile

/-!
C83: map files as a whole. From the file of each linker the base address is read, and exactly the functions of its table of symbols reach the
database, in order and with their addresses. What that does to the database is said by C62 to C65. The specification of the files is
`Verif/Model/MapFilesSpec.lean`.
-/
namespace Clr.MapFiles

open Clr.DB Clr.FileUtils Clr.Map

/-- C83: Linux. -/
theorem C83_linux_partial (demangle : Bytes → Option Bytes) (rand : Nat → Nat) (s : St) (f : LinuxFile) (h : f.Ok) (unfinished : Bytes)
    (hu : 10 ∉ unfinished) :
    parseGcc demangle rand (some (fileOf f.lines unfinished)) s =
      (processAll rand s (f.entries.filterMap (LinuxEntry.item demangle))).map fun s => (UInt64.ofNat (hexNumber f.address), s) := by
  have hl := h.lines
  have hline := hl _ (List.mem_cons_self : _ ∈ f.lines)
  unfold parseGcc
  dsimp only
  rw [allLines_fileOf hl hu _ (Nat.lt_succ_of_le (fileOf_length _ _))]
  simp only [LinuxFile.lines] at hl ⊢
  rw [hline.cut, if_neg (by
      rw [startswith_false]; · simp
      rintro ⟨t, ht⟩
      have := congrArg List.head? ht
      simp at this),
    if_pos (prefix_startswith ⟨_, rfl⟩),
    linuxLines_before rfl h.before (fun l hm => hl l (by simp [hm])), linuxLines, (hl _ (by simp)).cut, linuxLine, if_neg (by simp),
    if_pos (prefix_startswith ⟨_, rfl⟩), List.drop_append_of_le_length (by simp)]
  show (Res.map _ (Res.bind (match scanAddress (f.gap1 ++ _) with | none => _ | some (address, rest) => _) _)) = _
  rw [scanAddress_eq h.gap1.2 h.address (fun c hc => space_not_hex c (h.gap2.head _ c hc))]
  dsimp only
  rw [scanAddress_eq h.gap2.2 h.size (fun c hc => space_not_hex c (h.tail c hc))]
  simp only [Res.bind]
  rw [linuxLines_entries h.entries (fun l hm => hl l (by
    simp only [List.mem_cons, List.mem_append]
    exact .inr (.inr (.inr hm))))]
  cases processAll rand s (f.entries.filterMap (LinuxEntry.item demangle)) <;> rfl

/-- C83: macOS. -/
theorem C83_macos_partial (demangle : Bytes → Option Bytes) (rand : Nat → Nat) (s : St) (f : MacFile) (h : f.Ok) (unfinished : Bytes)
    (hu : 10 ∉ unfinished) :
    parseGcc demangle rand (some (fileOf f.lines unfinished)) s =
      (processAll rand s (f.entries.filterMap (MacEntry.item demangle))).map fun s => (f.base, s) := by
  have hl := h.lines
  have hline := hl _ (List.mem_cons_self : _ ∈ f.lines)
  unfold parseGcc
  dsimp only
  rw [allLines_fileOf hl hu _ (Nat.lt_succ_of_le (fileOf_length _ _))]
  simp only [MacFile.lines] at hl ⊢
  have e1 : contains b!"# Sections:" b!"# Sections:" = true := by decide +kernel
  have e2 : contains b!"# Symbols:" b!"# Sections:" = false := by decide +kernel
  have e3 : contains b!"# Symbols:" b!"# Symbols:" = true := by decide +kernel
  have e4 : (b!"# Sections:").takeWhile (· != 0) = b!"# Sections:" := by decide +kernel
  have e5 : (b!"# Symbols:").takeWhile (· != 0) = b!"# Symbols:" := by decide +kernel
  have e6 : macSection ⟨true, false, baseAfter 0 f.sections, s⟩ b!"# Symbols:" = .ok ⟨true, false, baseAfter 0 f.sections, s⟩ := rfl
  rw [hline.cut, if_pos (prefix_startswith ⟨_, rfl⟩), macLines_before h.before (fun l hm => hl l (by simp [hm])), macLines_cons, e4,
    macLine, if_neg (by simp), if_neg (by simp)]
  simp only [Res.bind, e1, if_true, List.drop_succ_cons, List.drop_zero]
  rw [macLines_sections h.sections (fun l hm => hl l (by simp only [List.mem_cons, List.mem_append]; exact .inr (.inr (.inr (.inr (.inl hm)))))),
    macLines_cons, e5, macLine, if_pos rfl, e6]
  simp only [Res.bind, e2, e3, Bool.false_eq_true, if_true, if_false, List.drop_succ_cons, List.drop_zero]
  rw [macLines_entries h.entries (fun l hm => hl l (by
    simp only [List.mem_cons, List.mem_append]; exact .inr (.inr (.inr (.inr (.inr (.inr (.inr hm)))))))), baseAfter_eq]
  unfold MacFile.base
  cases processAll rand s (f.entries.filterMap (MacEntry.item demangle)) <;> rfl

/-- C83: Microsoft. -/
theorem C83_msvc_partial (undName undSig : Bytes → Bytes) (s : St) (f : MsvcFile) (h : f.Ok) (unfinished : Bytes) (hu : 10 ∉ unfinished) :
    parseMsvc undName undSig true (some (fileOf f.lines unfinished)) s =
      (publicSymbols undName undSig s f.publics).map fun s => (UInt64.ofNat (hexNumber f.address), s) := by
  have hl := h.lines
  unfold parseMsvc
  simp only [if_true]
  rw [allLines_fileOf hl hu _ (Nat.lt_succ_of_le (fileOf_length _ _))]
  simp only [MsvcFile.lines] at hl ⊢
  have hb : UInt64.ofNat (hexNumber f.address) ≠ 0 := by
    intro he
    have hlt : hexNumber f.address < 2 ^ 64 := hexNumber_lt h.address
    have := congrArg UInt64.toNat he
    simp only [UInt64.toNat_ofNat'] at this
    rw [Nat.mod_eq_of_lt hlt] at this
    exact h.notZero this
  have hs : (115 : UInt8) ∉ f.address ++ if f.cr then [13] else [] := by
    intro hm
    rcases List.mem_append.mp hm with hm | hm
    · have := h.address.2.1 _ hm
      revert this; decide
    · cases hc : f.cr <;> simp [hc] at hm
  rw [msvcLines_before (fun l hm => ⟨(h.before l hm).1, fun _ => (h.before l hm).2⟩) (fun l hm => hl l (by simp [hm])), msvcLines.eq_def]
  dsimp only
  rw [if_neg (by simp), (hl _ (by simp)).cut, if_neg (by rw [load_line_no_title hs]; simp), loadAddress_line h.address]
  simp only [Res.bind_ok]
  rw [msvcLines_before (fun l hm => ⟨h.middle l hm, fun hz => absurd hz hb⟩) (fun l hm => hl l (by simp [hm])), msvcLines.eq_def]
  dsimp only
  rw [if_neg (by simp), (hl f.title (by simp)).cut, if_pos h.title]
  rw [loadAddress_set hb]
  simp only [Res.bind_ok]
  exact msvcLines_publics hb fun l hm => hl l (by simp [hm])

/-- C83: a file with another first line is not read at all, and there is no base address. -/
theorem C83_other_format (demangle : Bytes → Option Bytes) (rand : Nat → Nat) (s : St) (first : Bytes) (lines : List Bytes)
    (hl : ∀ l ∈ first :: lines, Line l) (unfinished : Bytes) (hu : 10 ∉ unfinished) (h1 : ¬ b!"# Path:" <+: first)
    (h2 : ¬ b!"Archive member included because of file (symbol)" <+: first) :
    parseGcc demangle rand (some (fileOf (first :: lines) unfinished)) s = .ok (0, s) := by
  unfold parseGcc
  dsimp only
  rw [allLines_fileOf hl hu _ (Nat.lt_succ_of_le (fileOf_length _ _))]
  dsimp only
  rw [(hl first List.mem_cons_self).cut, if_neg (by rw [startswith_false h1]; simp), if_neg (by rw [startswith_false h2]; simp)]

/-- C83: so is a file that cannot be opened. -/
theorem C83_no_file (demangle : Bytes → Option Bytes) (rand : Nat → Nat) (undName undSig : Bytes → Bytes) (s : St) (handler : Bool) :
    parseGcc demangle rand none s = .ok (0, s) ∧ parseMsvc undName undSig handler none s = .ok (0, s) := by
  cases handler <;> exact ⟨rfl, rfl⟩

/-- C83: a file of a Linux linker without a section of code changes nothing. -/
theorem C83_no_code (demangle : Bytes → Option Bytes) (rand : Nat → Nat) (s : St) (title : Bytes) (lines : List Bytes)
    (hl : ∀ l ∈ (b!"Archive member included because of file (symbol)" ++ title) :: lines, Line l) (unfinished : Bytes) (hu : 10 ∉ unfinished)
    (h : ∀ l ∈ lines, ¬ b!".text" <+: l) :
    parseGcc demangle rand (some (fileOf ((b!"Archive member included because of file (symbol)" ++ title) :: lines) unfinished)) s = .ok (0, s) := by
  unfold parseGcc
  dsimp only
  rw [allLines_fileOf hl hu _ (Nat.lt_succ_of_le (fileOf_length _ _))]
  dsimp only
  have := linuxLines_before (demangle := demangle) (rand := rand) (r := { st := s }) (rest := []) rfl h (fun l hm => hl l (List.mem_cons_of_mem _ hm))
  rw [List.append_nil] at this
  rw [(hl _ List.mem_cons_self).cut, if_neg (by
      rw [startswith_false]; · simp
      rintro ⟨t, ht⟩
      have := congrArg List.head? ht
      simp at this), if_pos (prefix_startswith ⟨_, rfl⟩), this]
  rfl

/-! ### Where it is false, and examples -/

/-- `f(int&)` is all the demangler knows. -/
def demangleF (name : Bytes) : Option Bytes := if name = b!"_Z1fRi" then some b!"f(int&)" else if name = b!"_ZTV1A" then some b!"vtable for A" else none

/-- The base address and the addresses of functions. -/
def read (r : Res (UInt64 × St)) : Option (UInt64 × List UInt64) :=
  match r with
  | .ok (b, s) => some (b, s.db.functions.map Function.address)
  | _ => none

/-- A file of an older GNU linker. -/
def linuxText : List Bytes :=
  [b!"Archive member included because of file (symbol)", b!"", b!" .text.unlikely  0x0000000000000000        0x0 a.o",
   b!".text           0x0000000000401000      0x2f0", b!" .text          0x0000000000401000       0xf0 a.o",
   b!"                0x0000000000401010                _Z1fRi", b!"                0x0000000000402000                _ZTV1A",
   b!"                0x0000000000401030                main"]

example : read (parseGcc demangleF (fun _ => 0) (some (fileOf linuxText [])) { db := { exampleDb with functions := [gMut, fInt, fRef] } }) =
    some (0x401000, [0, 0x401010, 0]) := by decide +kernel

/-- C83: newer GNU linkers begin their map files with other words, and nothing of them is read. -/
theorem C83_new_linker_false : ∃ (lines : List Bytes), b!"                0x0000000000401010                _Z1fRi" ∈ lines ∧
    b!".text           0x0000000000401000      0x2f0" ∈ lines ∧
    ∀ (demangle : Bytes → Option Bytes) (rand : Nat → Nat) (s : St), parseGcc demangle rand (some (fileOf lines [])) s = .ok (0, s) := by
  refine ⟨b!"Archive member included to satisfy reference by file (symbol)" :: linuxText.drop 1, by decide, by decide, fun demangle rand s => ?_⟩
  exact C83_other_format demangle rand s _ _ (by unfold Line; decide +kernel) [] (by simp) (by decide) (by decide)

def macText (literal : Bytes) : List Bytes :=
  [b!"# Path: a.out", b!"# Arch: x86_64", b!"# Object files:", b!"[  0] linker synthesized", b!"# Sections:",
   b!"# Address\tSize    \tSegment\tSection", b!"0x100000F50\t0x00000040\t__TEXT\t__text", b!"0x100001000\t0x00000008\t__DATA\t__data",
   b!"# Symbols:", b!"# Address\tSize    \tFile  Name", b!"0x100000F40\t0x0000000C\t[  1] literal string: " ++ literal,
   b!"0x100000F50\t0x0000000B\t[  1] _main", b!"0x100000F60\t0x0000000B\t[  1] __Z1fRi", b!"0x100001000\t0x00000008\t[  1] __ZTV1A",
   b!"# Dead Stripped Symbols:", b!"<<dead>> \t0x00000010\t[  2] __Z1fRi"]

def macSt : St := { db := { exampleDb with functions := [gMut, fInt, fRef] } }

example : read (parseGcc demangleF (fun _ => 0) (some (fileOf (macText b!"hello") [])) macSt) = some (0x100000F50, [0, 0x100000F60, 0]) := by
  decide +kernel

/-- C83: a text of the program with the title of a table in it begins that table: no symbol after it is read. -/
theorem C83_literal_false :
    read (parseGcc demangleF (fun _ => 0) (some (fileOf (macText b!"# Sections:") [])) macSt) = some (0x100000F50, [0, 0, 0]) := by
  decide +kernel

/-- C83: in the last line of a file, if it is not ended, nothing is read. -/
theorem C83_unfinished_line_false :
    read (parseGcc demangleF (fun _ => 0) (some (fileOf (linuxText.take 5) b!"                0x0000000000401010                _Z1fRi")) macSt) =
      some (0x401000, [0, 0, 0]) := by
  decide +kernel

def linuxExample : LinuxFile where
  title := []
  before := [b!"", b!" .text.unlikely  0x0000000000000000        0x0 a.o"]
  gap1 := b!"           "
  address := b!"0000000000401000"
  gap2 := b!"      "
  size := b!"2f0"
  tail := []
  entries := [.other b!" .text          0x0000000000401000       0xf0 a.o",
    .symbol b!"                " b!"0000000000401010" b!"                " b!"_Z1fRi" [],
    .symbol b!"                " b!"0000000000402000" b!"                " b!"_ZTV1A" []]

example : linuxExample.Ok where
  lines := by unfold Line; decide +kernel
  before := by decide
  gap1 := by unfold Gap; decide
  address := by unfold HexText; decide
  gap2 := by unfold Gap; decide
  size := by unfold HexText; decide
  tail := by unfold Tail; simp [linuxExample]
  entries := by
    intro e he
    simp only [linuxExample, List.mem_cons, List.not_mem_nil, or_false] at he
    rcases he with rfl | rfl | rfl
    · simp only [LinuxEntry.Ok]; decide +kernel
    · refine ⟨by unfold Gap; decide, by unfold HexText; decide, by unfold Gap; decide, by unfold Field; decide, by unfold Tail; simp⟩
    · refine ⟨by unfold Gap; decide, by unfold HexText; decide, by unfold Gap; decide, by unfold Field; decide, by unfold Tail; simp⟩

example : linuxExample.entries.filterMap (LinuxEntry.item demangleF) = [(b!"f(int&)", 0x401010)] := by decide +kernel

def macExample : MacFile where
  path := b!" a.out"
  before := [b!"# Arch: x86_64", b!"# Object files:", b!"[  0] linker synthesized"]
  columns1 := b!"# Address\tSize    \tSegment\tSection"
  sections := [⟨b!"100000F50", [9], b!"00000040", [9], b!"__TEXT", [9], b!"__text", []⟩,
    ⟨b!"100001000", [9], b!"00000008", [9], b!"__DATA", [9], b!"__data", []⟩]
  columns2 := b!"# Address\tSize    \tFile  Name"
  entries := [.symbol b!"100000F40" [9] b!"0000000C" [9] b!"  " b!"1" [32] b!"literal" b!" string: hello",
    .symbol b!"100000F60" [9] b!"0000000B" [9] b!"  " b!"1" [32] b!"__Z1fRi" [],
    .other b!"# Dead Stripped Symbols:", .other b!"<<dead>> \t0x00000010\t[  2] __Z1fRi"]

example : macExample.Ok where
  lines := by unfold Line; decide +kernel
  before := by unfold NoTitle; decide +kernel
  sections := by
    intro e he
    simp only [macExample, List.mem_cons, List.not_mem_nil, or_false] at he
    rcases he with rfl | rfl
    · refine ⟨⟨by unfold HexText; decide, by unfold Gap; decide, by unfold HexText; decide, by unfold Gap; decide, by unfold Field; decide,
        by unfold Gap; decide, by unfold Field; decide, by unfold Tail; simp⟩, by unfold NoTitle; decide +kernel⟩
    · refine ⟨⟨by unfold HexText; decide, by unfold Gap; decide, by unfold HexText; decide, by unfold Gap; decide, by unfold Field; decide,
        by unfold Gap; decide, by unfold Field; decide, by unfold Tail; simp⟩, by unfold NoTitle; decide +kernel⟩
  entries := by
    intro e he
    simp only [macExample, List.mem_cons, List.not_mem_nil, or_false] at he
    rcases he with rfl | rfl | rfl | rfl
    · refine ⟨⟨by unfold HexText; decide, by unfold Gap; decide, by unfold HexText; decide, by unfold Gap; decide, by decide, by decide,
        by unfold Gap; decide, by unfold Field; decide, by unfold Tail; simp; decide⟩, by unfold NoTitle; decide +kernel⟩
    · refine ⟨⟨by unfold HexText; decide, by unfold Gap; decide, by unfold HexText; decide, by unfold Gap; decide, by decide, by decide,
        by unfold Gap; decide, by unfold Field; decide, by unfold Tail; simp⟩, by unfold NoTitle; decide +kernel⟩
    · exact ⟨by simp only [MacEntry.Ok]; decide, by unfold NoTitle; decide +kernel⟩
    · exact ⟨by simp only [MacEntry.Ok]; decide, by unfold NoTitle; decide +kernel⟩

example : macExample.base = 0x100000F50 ∧ macExample.entries.filterMap (MacEntry.item demangleF) = [(b!"f(int&)", 0x100000F60)] := by
  decide +kernel

def msvcExample : MsvcFile where
  before := [b!" a\r", b!" Timestamp is 4e9c0c5e\r"]
  address := b!"0000000140000000"
  cr := true
  middle := [b!" Start         Length     Name                   Class\r"]
  title := b!"  Address         Publics by Value              Rva+Base               Lib:Object\r"
  skipped := b!"\r"
  publics := [b!" 0001:00000000       ?f@@YAXAEAH@Z              0000000140001000 f   a.obj\r"]

example : msvcExample.Ok where
  lines := by unfold Line; decide +kernel
  before := by decide +kernel
  address := by unfold HexText; decide
  notZero := by decide +kernel
  middle := by decide +kernel
  title := by decide +kernel

def undecorateName (t : Bytes) : Bytes := if t = b!"?f@@YAXAEAH@Z" then b!"f" else t
def undecorate (t : Bytes) : Bytes := if t = b!"?f@@YAXAEAH@Z" then b!"void __cdecl f(int &)" else t

example : read (parseMsvc undecorateName undecorate true (some (fileOf msvcExample.lines [])) macSt) = some (0x140000000, [0, 0x40001000, 0]) := by
  decide +kernel

end Clr.MapFiles
