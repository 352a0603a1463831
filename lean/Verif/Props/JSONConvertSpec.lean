import Verif.Model.JSONSpec
import Verif.Props.JSONNumbers
/-
C95: what numbers in a JSON text say, and what they are as values of the C++ types.
-/
namespace Clr.JSON

/-- A number in a text: an integer, or the bits of a double. -/
inductive Given where
  | int (v : Int)
  | dec (bits : UInt64)

/-- What a text says. Decimals are what the library's `strtod` makes of their characters. -/
inductive Says (fl : Floats) : Bytes → Given → Prop
  | nat {ds : Bytes} (h : Decimal ds) (hlt : decimalNum ds < 2 ^ 63) : Says fl ds (.int (decimalNum ds))
  | neg {ds : Bytes} (h : Decimal ds) (hlt : decimalNum ds ≤ 2 ^ 63) : Says fl (45 :: ds) (.int (-(decimalNum ds : Int)))
  | hex {ds : Bytes} (h : Hexadecimal ds) (hlt : hexNum ds < 2 ^ 64) :
      Says fl (48 :: 120 :: ds) (.int (if hexNum ds < 2 ^ 63 then hexNum ds else (hexNum ds : Int) - 2 ^ 64))
  | dec {ds s : Bytes} (h : Decimal ds) (hf : JFrac s) : Says fl (ds ++ s) (.dec (fl.strtod (ds ++ s)))
  | negDec {ds s : Bytes} (h : Decimal ds) (hf : JFrac s) : Says fl (45 :: (ds ++ s)) (.dec (fl.strtod (45 :: (ds ++ s))))
  | bits {ds : Bytes} (h : Hexadecimal ds) (hlt : hexNum ds < 2 ^ 64) : Says fl (48 :: 100 :: ds) (.dec (UInt64.ofNat (hexNum ds)))
  | tru : Says fl b!"true" (.int 1)
  | fls : Says fl b!"false" (.int 0)
  | null : Says fl b!"null" (.int 0)

/-- The integer types: their bytes, smallest and greatest values. -/
inductive Whole : Num → Nat → Int → Int → Prop
  | int (w : Nat) : Whole (.int w) w (-(256 ^ w / 2)) (256 ^ w / 2 - 1)
  | natSigned (w : Nat) : Whole (.nat w true) w (-(256 ^ w / 2)) (256 ^ w / 2 - 1)
  | nat (w : Nat) : Whole (.nat w false) w 0 (256 ^ w - 1)
  | hex (w : Nat) : Whole (.hex w) w 0 (256 ^ w - 1)

/-- The bytes of an integer of `w` bytes that is `v`, or `v` modulo `256 ^ w`. -/
def IntBytes (w : Nat) (v : Int) (bs : Bytes) : Prop := bs.length = w ∧ (unle bs : Int) = v % 256 ^ w

/-- The bytes of a number converted to a type as C++ converts it: to `bool` by comparison with zero, between integers modulo the
size, from decimals to integers by leaving out the fraction, which has to give a value of the type, and to and from `float` and
`double` as the machine does. -/
inductive Converts (fl : Floats) : Num → Given → Bytes → Prop
  | boolInt (v : Int) : Converts fl .bool (.int v) [if v = 0 then 0 else 1]
  | boolDec (b : UInt64) : Converts fl .bool (.dec b) [if fl.nonZero b then 1 else 0]
  | whole {k : Num} {w : Nat} {lo hi : Int} (hk : Whole k w lo hi) (v : Int) {bs : Bytes} (hb : IntBytes w v bs) : Converts fl k (.int v) bs
  | wholeDec {k : Num} {w : Nat} {lo hi : Int} (hk : Whole k w lo hi) (b : UInt64) {v : Int} (hv : fl.trunc b = some v) (hlo : lo ≤ v)
      (hhi : v ≤ hi) {bs : Bytes} (hb : IntBytes w v bs) : Converts fl k (.dec b) bs
  | floatInt (v : Int) : Converts fl .float (.int v) (le 4 (fl.floatOfInt v).toNat)
  | floatDec (b : UInt64) : Converts fl .float (.dec b) (le 4 (fl.narrow b).toNat)
  | doubleInt (v : Int) : Converts fl .double (.int v) (le 8 (fl.doubleOfInt v).toNat)
  | doubleDec (b : UInt64) : Converts fl .double (.dec b) (le 8 b.toNat)

/-- What the members of a JSON object, numbers, do to the memory of an object of class `ct` at `a`, one after the other. -/
inductive Assigned (e : Env) (p : Platform) (ct : Ty) (a : Nat) : List (Bytes × Bytes) → Mem → Mem → Prop
  | nil (m : Mem) : Assigned e p ct a [] m m
  /-- A field of a native type. -/
  | number {v : Bytes} {ms : List (Bytes × Bytes)} {m m' : Mem} {x : FldInfo × Ty} {name : Bytes} {n : Num} {g : Given} {bs : Bytes}
      (hx : x ∈ ct.allFields) (hs : e.skips x.1.flags = false) (hp : x.1.isPtr = false) (hn : (name, n) ∈ registrations p)
      (ht : x.2.hash = Hash.hashText name) (hv : Says e.fl v g) (hb : Converts e.fl n g bs)
      (hr : Assigned e p ct a ms (m.write (a + x.1.offset) bs) m') : Assigned e p ct a ((x.1.name, v) :: ms) m m'
  /-- A pointer: the low four bytes become the integer. -/
  | pointer {v : Bytes} {ms : List (Bytes × Bytes)} {m m' : Mem} {x : FldInfo × Ty} {i : Int} {bs : Bytes}
      (hx : x ∈ ct.allFields) (hs : e.skips x.1.flags = false) (hp : x.1.isPtr = true) (hv : Says e.fl v (.int i)) (hb : IntBytes 4 i bs)
      (hr : Assigned e p ct a ms (m.write (a + x.1.offset) bs) m') : Assigned e p ct a ((x.1.name, v) :: ms) m m'
  /-- What the class does not have, or does not load. -/
  | unknown {k v : Bytes} {ms : List (Bytes × Bytes)} {m m' : Mem} (hu : Unknown e ct k) (hr : Assigned e p ct a ms m m') :
      Assigned e p ct a ((k, v) :: ms) m m'

end Clr.JSON
