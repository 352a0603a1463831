import Verif.Model.JSONLexer
import Verif.Model.LE
import Verif.Model.Hash

/-!
The numbers of the JSON serialiser: saving (SerialiseJSON.cpp:594-716), loading (165-237) and the table
that dispatches a type to its functions (35-76, 1183-1214).

Simplifications:
* the compiler's sizes of `long` and `wchar_t` are a parameter (`Platform`); the target is little-endian,
  two's complement, with a signed `char`;
* floating point conversions and `snprintf("%f")` are C library and hardware: parameters (`Floats`);
* text is returned rather than written to the output buffer (appending is C25).
-/
namespace Clr.JSON

/-- Sizes that differ between the supported compilers. -/
structure Platform where
  longBytes : Nat
  wcharBytes : Nat
  wcharSigned : Bool
deriving DecidableEq, Repr

/-- What the floating point unit and the C library do; a `float` or `double` is its bits. -/
structure Floats where
  /-- The library's `strtod` on the characters it uses. -/
  strtod : Bytes → UInt64
  /-- `snprintf("%f")`. -/
  format : UInt64 → Bytes
  /-- `double(float)`. -/
  widen : UInt32 → UInt64
  /-- `float(double)`. -/
  narrow : UInt64 → UInt32
  /-- `float(int64)`. -/
  floatOfInt : Int → UInt32
  /-- `double(int64)`. -/
  doubleOfInt : Int → UInt64
  /-- The integral part of a finite double. -/
  trunc : UInt64 → Option Int
  /-- `decimal != 0`. -/
  nonZero : UInt64 → Bool

/-- The C++ number types the serialiser knows, by the functions registered for them
(SerialiseJSON.cpp:1187-1213).  `int w`: signed, `w` bytes, saved with `SaveInteger`.  `nat w s`: saved with
`SaveUnsignedInteger` (`s`: the type itself is signed, which `wchar_t` can be).  `hex w`: unsigned, saved with
`SaveUnsignedHexIntegerWithCast`. -/
inductive Num where
  | bool
  | int (w : Nat)
  | nat (w : Nat) (signed : Bool)
  | hex (w : Nat)
  | float
  | double
deriving DecidableEq, Repr

/-- `sizeof` the type. -/
def Num.size : Num → Nat
  | .bool => 1
  | .int w => w
  | .nat w _ => w
  | .hex w => w
  | .float => 4
  | .double => 8

/-- A two's complement value of `w` bytes. -/
def signedOf (w v : Nat) : Int := if v < 256 ^ w / 2 then v else (v : Int) - 256 ^ w

/-- The low `w` bytes of an integer, as a conversion to a `w`-byte integer type keeps them. -/
def wrapTo (w : Nat) (v : Int) : Nat := (v % 256 ^ w).toNat

/-! ### Saving -/

/-- The character of a digit: `'0' + d` in SerialiseJSON.cpp:617 and 645, `"0123456789abcdef"[d]` in 667. -/
def digitChar (d : Nat) : UInt8 := if d < 10 then UInt8.ofNat (48 + d) else UInt8.ofNat (87 + d)

/-- The digit loops, SerialiseJSON.cpp:613-619, 641-647 and 663-669: digits are written backwards into a local
array with room for `cap` characters before its terminator, `acc` being what is written so far.  Writing
more is a write before the beginning of the array. -/
def radixLoop (cap radix : Nat) (v : Nat) (acc : Bytes) : Res Bytes :=
  if acc.length < cap then
    if v / radix = 0 then .ok (digitChar (v % radix) :: acc)
    else radixLoop cap radix (v / radix) (digitChar (v % radix) :: acc)
  else .ub
termination_by cap - acc.length

/-- `*--tptr = c`, SerialiseJSON.cpp:622-625, in the same array. -/
def pushChar (cap : Nat) (c : UInt8) (acc : Bytes) : Res Bytes :=
  if acc.length < cap then .ok (c :: acc) else .ub

/-- `SaveInteger`, SerialiseJSON.cpp:594-628: `text[20]`, one byte of it for the terminator.  Negating the
smallest `int64` overflows. -/
def saveInteger (v : Int) : Res Bytes :=
  if v < 0 then
    if v = -2 ^ 63 then .ub
    else do
      let ds ← radixLoop 19 10 v.natAbs []
      pushChar 19 45 ds
  else radixLoop 19 10 v.natAbs []

/-- `SaveUnsignedInteger`, SerialiseJSON.cpp:630-650: `text[21]`. -/
def saveUnsigned (v : Nat) : Res Bytes := radixLoop 20 10 v []

/-- `SaveHexInteger`, SerialiseJSON.cpp:652-672: `text[21]`. -/
def saveHex (v : Nat) : Res Bytes := radixLoop 20 16 v []

/-- `SaveDecimal`, SerialiseJSON.cpp:693-707. -/
def saveDecimal (fl : Floats) (hexFloats : Bool) (bits : UInt64) : Res Bytes :=
  if hexFloats then do
    let t ← saveHex bits.toNat
    .ok (b!"0d" ++ t)
  else .ok (fl.format bits)

/-- The save functions, SerialiseJSON.cpp:674-716, on the bytes of the object.  A `bool` whose byte is
neither 0 nor 1 cannot be read.  A signed value converted to `uint64` wraps (684). -/
def saveNum (fl : Floats) (hexFloats : Bool) (k : Num) (obj : Bytes) : Res Bytes :=
  match k with
  | .bool => if unle obj < 2 then saveInteger (unle obj) else .ub
  | .int w => saveInteger (signedOf w (unle obj))
  | .nat w s => saveUnsigned (if s then wrapTo 8 (signedOf w (unle obj)) else unle obj)
  | .hex _ => do
    let t ← saveHex (unle obj)
    .ok (b!"0x" ++ t)
  | .float => saveDecimal fl hexFloats (fl.widen (UInt32.ofNat (unle obj)))
  | .double => saveDecimal fl hexFloats (UInt64.ofNat (unle obj))

/-! ### Loading -/

/-- `t.val.integer`: the 64 bits of a number token as a signed integer. -/
def int64Of (bits : UInt64) : Int := signedOf 8 bits.toNat

/-- `LoadIntegerWithCast`/`LoadIntegerBool`, SerialiseJSON.cpp:165-173: the bytes written. -/
def storeInt (fl : Floats) (k : Num) (v : Int) : Bytes :=
  match k with
  | .bool => [if v ≠ 0 then 1 else 0]
  | .int w => le w (wrapTo w v)
  | .nat w _ => le w (wrapTo w v)
  | .hex w => le w (wrapTo w v)
  | .float => le 4 (fl.floatOfInt v).toNat
  | .double => le 8 (fl.doubleOfInt v).toNat

/-- Conversion of a double to an integer type with the given range: undefined unless the integral part is in
the range. -/
def castInt (fl : Floats) (bits : UInt64) (lo hi : Int) : Res Int :=
  match fl.trunc bits with
  | some v => if lo ≤ v ∧ v ≤ hi then .ok v else .ub
  | none => .ub

/-- `LoadDecimalWithCast`/`LoadDecimalBool`, SerialiseJSON.cpp:175-183: the bytes written. -/
def storeDec (fl : Floats) (k : Num) (bits : UInt64) : Res Bytes :=
  match k with
  | .bool => .ok [if fl.nonZero bits then 1 else 0]
  | .int w => do
    let v ← castInt fl bits (-(256 ^ w / 2)) (256 ^ w / 2 - 1)
    .ok (le w (wrapTo w v))
  | .nat w s => do
    let v ← if s then castInt fl bits (-(256 ^ w / 2)) (256 ^ w / 2 - 1) else castInt fl bits 0 (256 ^ w - 1)
    .ok (le w (wrapTo w v))
  | .hex w => do
    let v ← castInt fl bits 0 (256 ^ w - 1)
    .ok (le w (wrapTo w v))
  | .float => .ok (le 4 (fl.narrow bits).toNat)
  | .double => .ok (le 8 bits.toNat)

/-! ### Dispatch -/

/-- `GetTypeDispatchIndex`, SerialiseJSON.cpp:57-60. -/
def slotOf (hash : BitVec 32) : Nat := hash.toNat % 47

/-- `AddTypeDispatch`, SerialiseJSON.cpp:66-76: asserts that the slot is free. -/
def addDispatch (lut : List (Option Num)) (e : Bytes × Num) : Res (List (Option Num)) :=
  match lut[slotOf (Hash.hashText e.1)]? with
  | some none => .ok (lut.set (slotOf (Hash.hashText e.1)) (some e.2))
  | some (some _) => .trap
  | none => .ub

/-- The calls of `SetupTypeDispatchLUT`, SerialiseJSON.cpp:1187-1211, in order. -/
def registrations (p : Platform) : List (Bytes × Num) :=
  [(b!"bool", .bool), (b!"char", .int 1), (b!"wchar_t", .nat p.wcharBytes p.wcharSigned),
   (b!"unsigned char", .nat 1 false), (b!"short", .int 2), (b!"unsigned short", .nat 2 false),
   (b!"int", .int 4), (b!"unsigned int", .nat 4 false), (b!"long", .int p.longBytes),
   (b!"unsigned long", .nat p.longBytes false), (b!"long long", .int 8),
   (b!"unsigned long long", .hex 8), (b!"float", .float), (b!"double", .double)]

/-- A sequence of `AddTypeDispatch` calls. -/
def addAll : List (Option Num) → List (Bytes × Num) → Res (List (Option Num))
  | lut, [] => .ok lut
  | lut, e :: es => do
    let lut ← addDispatch lut e
    addAll lut es

/-- `SetupTypeDispatchLUT`, SerialiseJSON.cpp:1183-1214, on the empty table of 47 slots (51-53). -/
def setupDispatch (p : Platform) : Res (List (Option Num)) :=
  addAll (List.replicate 47 none) (registrations p)

/-- The functions of a type by the hash of its name: `g_TypeDispatchLUT[GetTypeDispatchIndex(hash)]`,
SerialiseJSON.cpp:199-206, 229-235, 720-723. -/
def dispatch (lut : List (Option Num)) (hash : BitVec 32) : Option Num := (lut[slotOf hash]?).join

end Clr.JSON
