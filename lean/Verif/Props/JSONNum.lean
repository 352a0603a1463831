import Verif.Proofs.JSONNum
import Verif.Model.IEEE

/-!
C28 JSON integers survive save and load.
C29 Hex floats survive JSON save and load bit for bit.
C35 Builtin type dispatch is collision free.

`saveNum fl hexFloats k obj` is the text written for an object of the number type `k` whose bytes are `obj`;
`nextToken` lexes it back; `storeInt`/`storeDec` are the bytes the loader writes for the token.  `.ub` means
the formatting array was overrun or an operation is undefined.  In saved JSON a value is always followed by a
comma, a colon, a bracket, a brace or whitespace (`isDelim`).
-/
namespace Clr.JSON

/-! ### Arithmetic -/

theorem pow_dvd {w : Nat} (h : w ≤ 8) : ∃ k : Int, (2 : Int) ^ 64 = 256 ^ w * k :=
  ⟨256 ^ (8 - w), by rw [← Int.pow_add, show w + (8 - w) = 8 by omega]; rfl⟩

theorem wrapTo_congr {w : Nat} (hw : w ≤ 8) {a b : Int} (h : a % 2 ^ 64 = b % 2 ^ 64) : wrapTo w a = wrapTo w b := by
  obtain ⟨k, hk⟩ := pow_dvd hw
  unfold wrapTo
  have : a % 256 ^ w = b % 256 ^ w := by
    have hd : (256 : Int) ^ w ∣ 2 ^ 64 := ⟨k, hk⟩
    rw [← Int.emod_emod_of_dvd a hd, ← Int.emod_emod_of_dvd b hd, h]
  rw [this]

theorem wrapTo_signedOf {w n : Nat} (h : n < 256 ^ w) : wrapTo w (signedOf w n) = n := by
  unfold wrapTo signedOf
  have hc : ((256 ^ w : Nat) : Int) = (256 : Int) ^ w := by simp
  split
  · rw [← hc, ← Int.natCast_emod, Nat.mod_eq_of_lt h]; simp
  · have : ((n : Int) - 256 ^ w) % 256 ^ w = (n : Int) % 256 ^ w := by simp
    rw [this, ← hc, ← Int.natCast_emod, Nat.mod_eq_of_lt h]; simp

theorem wrapTo_nat {w n : Nat} (h : n < 256 ^ w) : wrapTo w (n : Int) = n := by
  unfold wrapTo
  have hc : ((256 ^ w : Nat) : Int) = (256 : Int) ^ w := by simp
  rw [← hc, ← Int.natCast_emod, Nat.mod_eq_of_lt h]; simp

theorem int64Of_mod (b : UInt64) : int64Of b % 2 ^ 64 = (b.toNat : Int) % 2 ^ 64 := by
  unfold int64Of signedOf
  split
  · rfl
  · have : ((256 : Int) ^ 8) = 2 ^ 64 := by decide
    rw [this]; omega

theorem int64Of_ofInt {v : Int} (h1 : -2 ^ 63 ≤ v) (h2 : v < 2 ^ 63) {b : UInt64}
    (hb : (b.toNat : Int) % 2 ^ 64 = v % 2 ^ 64) : int64Of b = v := by
  have hlt : b.toNat < 2 ^ 64 := b.toNat_lt
  unfold int64Of signedOf
  have e1 : ((256 : Int) ^ 8) = 2 ^ 64 := by decide
  have e2 : (256 ^ 8 / 2 : Nat) = 2 ^ 63 := by decide
  rw [e1, e2]
  split <;> omega

theorem signedOf_bounds {w n : Nat} (hw : 1 ≤ w) (h : n < 256 ^ w) :
    -(256 ^ w / 2 : Int) ≤ signedOf w n ∧ signedOf w n < 256 ^ w / 2 := by
  have hc : ((256 ^ w : Nat) : Int) = (256 : Int) ^ w := by simp
  obtain ⟨k, rfl⟩ : ∃ k, w = k + 1 := ⟨w - 1, by omega⟩
  have he : (256 ^ (k + 1) : Nat) = 2 * (128 * 256 ^ k) := by rw [Nat.pow_succ]; omega
  unfold signedOf
  rw [← hc]
  generalize 256 ^ (k + 1) = a at *
  generalize 128 * 256 ^ k = c at *
  split <;> omega

/-! ### C28 -/

/-- C28: a signed 64-bit value above -10^18 is saved without leaving the formatting array, and the text is lexed
back as that value, up to the following delimiter. -/
theorem C28_signed_round_trip (v : Int) (h1 : -10 ^ 18 < v) (h2 : v < 2 ^ 63) :
    ∃ text, saveInteger v = .ok text ∧
      ∀ (strtod : Bytes → UInt64) (c : Ctx) (b : UInt8) (r : Bytes), isDelim b = true → c.rest = text ++ b :: r →
        ∃ bits, nextToken strtod c = .ok ({ type := .integer, bits := bits }, c.adv text.length) ∧
          int64Of bits = v := by
  unfold saveInteger
  split
  · rename_i hneg
    rw [if_neg (by omega)]
    have hlt : v.natAbs < 10 ^ 18 := by omega
    obtain ⟨ds, hd, hne, hds, hval⟩ := radixLoop_ok 19 10 v.natAbs [] (by omega) (by simp) (by simp; omega)
    have hlen := radixLoop_length 19 10 v.natAbs [] _ 17 (by omega) (by simpa using hlt) hd
    rw [hd]
    simp only [List.append_nil, List.length_map, List.length_nil] at hlen ⊢
    simp only [Res.bind_ok, pushChar, List.length_map]
    rw [if_pos (by omega)]
    refine ⟨_, rfl, fun f c b r hb hc => ⟨0 - UInt64.ofNat (ofDigits 10 ds), ?_, ?_⟩⟩
    · rw [nextToken_neg f ds c b r hne hds hb (by simpa using hc)]
      simp
    · apply int64Of_ofInt (by omega) h2
      rw [hval]
      simp only [UInt64.zero_sub, UInt64.toNat_neg, UInt64.toNat_ofNat', show UInt64.size = 2 ^ 64 from rfl]
      omega
  · rename_i hneg
    have hlt : v.natAbs < 10 ^ 19 := by omega
    obtain ⟨ds, hd, hne, hds, hval⟩ := radixLoop_ok 19 10 v.natAbs [] (by omega) (by simp) (by simpa using hlt)
    rw [hd]
    simp only [List.append_nil]
    refine ⟨_, rfl, fun f c b r hb hc => ⟨UInt64.ofNat (ofDigits 10 ds), ?_, ?_⟩⟩
    · rw [nextToken_pos f ds c b r hne hds hb hc]
      simp
    · apply int64Of_ofInt (by omega) h2
      rw [hval]
      simp only [UInt64.toNat_ofNat']
      omega

example : saveInteger (-999999999999999999) = .ok b!"-999999999999999999" := by decide +kernel
example : saveInteger (2 ^ 63 - 1) = .ok b!"9223372036854775807" := by decide +kernel

/-- C28 is false in general: every 64-bit value of -10^18 or less needs 20 characters and a terminator, and the
formatting array has 20 bytes: the sign is written before its beginning (and the smallest value cannot be
negated). -/
theorem C28_signed_buffer_negation (v : Int) (h1 : -2 ^ 63 ≤ v) (h2 : v ≤ -10 ^ 18) : saveInteger v = .ub := by
  unfold saveInteger
  rw [if_pos (by omega)]
  split
  · rfl
  · obtain ⟨ds, hd, hne, hds, hval⟩ := radixLoop_ok 19 10 v.natAbs [] (by omega) (by simp) (by simp; omega)
    have hlen := radixLoop_length_ge 19 10 v.natAbs [] _ 18 (by omega) (by omega) hd
    rw [hd]
    simp only [List.append_nil, List.length_map, List.length_nil] at hlen ⊢
    simp only [Res.bind_ok, pushChar, List.length_map]
    rw [if_neg (by omega)]

/-- C28: every unsigned 64-bit value is saved in decimal inside its array and lexed back. -/
theorem C28_unsigned_round_trip (v : Nat) (h : v < 2 ^ 64) :
    ∃ text, saveUnsigned v = .ok text ∧
      ∀ (strtod : Bytes → UInt64) (c : Ctx) (b : UInt8) (r : Bytes), isDelim b = true → c.rest = text ++ b :: r →
        nextToken strtod c = .ok ({ type := .integer, bits := UInt64.ofNat v }, c.adv text.length) := by
  unfold saveUnsigned
  obtain ⟨ds, hd, hne, hds, hval⟩ := radixLoop_ok 20 10 v [] (by omega) (by simp) (by simp; omega)
  rw [hd]
  simp only [List.append_nil]
  refine ⟨_, rfl, fun f c b r hb hc => ?_⟩
  rw [nextToken_pos f ds c b r hne hds hb hc, hval]
  simp

example : saveUnsigned (2 ^ 64 - 1) = .ok b!"18446744073709551615" := by decide +kernel

/-- C28/C29: every 64-bit value is saved in hexadecimal inside its array; after the prefix `0x` it is lexed back
as that integer, after `0d` as the double with those bits. -/
theorem C28_hex_round_trip (v : Nat) (h : v < 2 ^ 64) :
    ∃ text, saveHex v = .ok text ∧
      ∀ (strtod : Bytes → UInt64) (c : Ctx) (b : UInt8) (r : Bytes), isDelim b = true →
        (c.rest = b!"0x" ++ text ++ b :: r →
          nextToken strtod c = .ok ({ type := .integer, bits := UInt64.ofNat v }, c.adv (text.length + 2))) ∧
        (c.rest = b!"0d" ++ text ++ b :: r →
          nextToken strtod c = .ok ({ type := .decimal, bits := UInt64.ofNat v }, c.adv (text.length + 2))) := by
  unfold saveHex
  obtain ⟨ds, hd, hne, hds, hval⟩ := radixLoop_ok 20 16 v [] (by omega) (by simp) (by simp; omega)
  rw [hd]
  simp only [List.append_nil]
  refine ⟨_, rfl, fun f c b r hb => ⟨fun hc => ?_, fun hc => ?_⟩⟩
  · rw [nextToken_hex f 120 .integer (.inr ⟨rfl, rfl⟩) ds c b r hne hds hb (by simpa using hc), hval]
    simp
  · rw [nextToken_hex f 100 .decimal (.inl ⟨rfl, rfl⟩) ds c b r hne hds hb (by simpa using hc), hval]
    simp

/-- The integer types of the serialiser's table (everything but `float` and `double`), of at most 8 bytes. -/
def Num.Integer : Num → Prop
  | .bool => True
  | .int w => 1 ≤ w ∧ w ≤ 8
  | .nat w _ => 1 ≤ w ∧ w ≤ 8
  | .hex w => w ≤ 8
  | .float => False
  | .double => False

/-- The object holds a value that can be saved: a `bool` is 0 or 1, and a signed value is above -10^18. -/
def Num.Savable (k : Num) (obj : Bytes) : Prop :=
  match k with
  | .bool => unle obj < 2
  | .int w => -10 ^ 18 < signedOf w (unle obj)
  | _ => True

/-- C28 (partial: signed values above -10^18, see the negation): for every integer type and every value, the
saved text followed by a delimiter is lexed as an integer, and loading that integer into an object of the type
gives the saved object's bytes. -/
theorem C28_object_round_trip_partial (fl : Floats) (hexFloats : Bool) (k : Num) (hk : k.Integer) (obj : Bytes)
    (hlen : obj.length = k.size) (hs : k.Savable obj) :
    ∃ text, saveNum fl hexFloats k obj = .ok text ∧
      ∀ (strtod : Bytes → UInt64) (c : Ctx) (b : UInt8) (r : Bytes), isDelim b = true → c.rest = text ++ b :: r →
        ∃ bits, nextToken strtod c = .ok ({ type := .integer, bits := bits }, c.adv text.length) ∧
          storeInt fl k (int64Of bits) = obj := by
  have hlt := unle_lt obj
  rw [hlen] at hlt
  have hback := le_unle obj
  rw [hlen] at hback
  cases k with
  | bool =>
    simp only [Num.Savable] at hs
    obtain ⟨text, ht, hn⟩ := C28_signed_round_trip (unle obj) (by omega) (by omega)
    refine ⟨text, by simp [saveNum, hs, ht], fun f c b r hb hc => ?_⟩
    obtain ⟨bits, h1, h2⟩ := hn f c b r hb hc
    refine ⟨bits, h1, ?_⟩
    simp only [storeInt, h2]
    simp only [Num.size] at hback
    rw [← hback]
    generalize unle obj = n at hs
    match n, hs with
    | 0, _ => rfl
    | 1, _ => rfl
  | int w =>
    simp only [Num.Savable] at hs
    simp only [Num.size] at hback hlt
    have hb' := signedOf_bounds hk.1 hlt
    have hp : (256 : Int) ^ w ≤ 2 ^ 64 := by
      have hc : ((256 ^ w : Nat) : Int) = (256 : Int) ^ w := by simp
      have hn : (256 : Nat) ^ w ≤ 256 ^ 8 := Nat.pow_le_pow_right (by omega) hk.2
      rw [← hc]
      omega
    obtain ⟨text, ht, hn⟩ := C28_signed_round_trip (signedOf w (unle obj)) hs (by omega)
    refine ⟨text, ht, fun f c b r hb hc => ?_⟩
    obtain ⟨bits, h1, h2⟩ := hn f c b r hb hc
    refine ⟨bits, h1, ?_⟩
    simp only [storeInt, h2]
    rw [wrapTo_signedOf hlt, hback]
  | nat w s =>
    simp only [Num.size] at hback hlt
    have hp : (256 : Nat) ^ w ≤ 2 ^ 64 := by
      rw [show (2 : Nat) ^ 64 = 256 ^ 8 by decide]
      exact Nat.pow_le_pow_right (by omega) hk.2
    have hv : (if s then wrapTo 8 (signedOf w (unle obj)) else unle obj) < 2 ^ 64 := by
      split
      · unfold wrapTo
        rw [show (256 : Int) ^ 8 = 2 ^ 64 by decide]
        omega
      · omega
    obtain ⟨text, ht, hn⟩ := C28_unsigned_round_trip _ hv
    refine ⟨text, ht, fun f c b r hb hc => ⟨_, hn f c b r hb hc, ?_⟩⟩
    simp only [storeInt]
    rw [wrapTo_congr hk.2 (int64Of_mod _), UInt64.toNat_ofNat', Nat.mod_eq_of_lt hv]
    split
    · have : wrapTo w ((wrapTo 8 (signedOf w (unle obj)) : Nat) : Int) = wrapTo w (signedOf w (unle obj)) := by
        apply wrapTo_congr hk.2
        unfold wrapTo
        rw [show (256 : Int) ^ 8 = 2 ^ 64 by decide]
        omega
      rw [this, wrapTo_signedOf hlt, hback]
    · rw [wrapTo_nat hlt, hback]
  | hex w =>
    simp only [Num.size] at hback hlt
    have hp : (256 : Nat) ^ w ≤ 2 ^ 64 := by
      rw [show (2 : Nat) ^ 64 = 256 ^ 8 by decide]
      exact Nat.pow_le_pow_right (by omega) hk
    obtain ⟨text, ht, hn⟩ := C28_hex_round_trip (unle obj) (by omega)
    refine ⟨b!"0x" ++ text, by simp [saveNum, ht], fun f c b r hb hc => ⟨UInt64.ofNat (unle obj), ?_, ?_⟩⟩
    · rw [(hn f c b r hb).1 hc]
      simp
    · simp only [storeInt]
      rw [wrapTo_congr hk (int64Of_mod _), UInt64.toNat_ofNat', Nat.mod_eq_of_lt (by omega), wrapTo_nat hlt, hback]
  | float => exact absurd hk (by simp [Num.Integer])
  | double => exact absurd hk (by simp [Num.Integer])

/-- Minus two as a `short`: the hypotheses hold. -/
example : (Num.int 2).Integer ∧ ([0xFE, 0xFF] : Bytes).length = (Num.int 2).size ∧
    (Num.int 2).Savable [0xFE, 0xFF] := by
  refine ⟨by simp [Num.Integer], rfl, ?_⟩
  show -10 ^ 18 < signedOf 2 (unle [0xFE, 0xFF])
  decide

/-! ### C29 -/

/-- C29: with hex floats, every double is saved and read back bit for bit. -/
theorem C29_double_round_trip (fl : Floats) (obj : Bytes) (hlen : obj.length = 8) :
    ∃ text, saveNum fl true .double obj = .ok text ∧
      ∀ (strtod : Bytes → UInt64) (c : Ctx) (b : UInt8) (r : Bytes), isDelim b = true → c.rest = text ++ b :: r →
        ∃ bits, nextToken strtod c = .ok ({ type := .decimal, bits := bits }, c.adv text.length) ∧
          storeDec fl .double bits = .ok obj := by
  have hlt := unle_lt obj
  rw [hlen] at hlt
  have hback := le_unle obj
  rw [hlen] at hback
  have hn : (UInt64.ofNat (unle obj)).toNat = unle obj := by
    rw [UInt64.toNat_ofNat']; exact Nat.mod_eq_of_lt hlt
  obtain ⟨text, ht, hx⟩ := C28_hex_round_trip (unle obj) hlt
  refine ⟨b!"0d" ++ text, by simp only [saveNum, saveDecimal, hn, ht, if_true, Res.bind_ok], 
    fun f c b r hb hc => ⟨UInt64.ofNat (unle obj), ?_, ?_⟩⟩
  · rw [(hx f c b r hb).2 hc]
    simp
  · simp only [storeDec, hn, hback]

/-- The conversions are those of IEEE 754. -/
def Floats.Ieee (fl : Floats) : Prop :=
  (∀ x, (fl.widen x).toNat = IEEE.widen x.toNat) ∧ (∀ y, (fl.narrow y).toNat = IEEE.narrow y.toNat)

/-- C29: with hex floats, every float is saved as the double it converts to, read back as that same double,
and stored as the float it was, bit for bit, except that a signalling NaN becomes quiet (converting it does
that). -/
theorem C29_float_round_trip (fl : Floats) (obj : Bytes) (hlen : obj.length = 4) :
    ∃ text, saveNum fl true .float obj = .ok text ∧
      ∀ (strtod : Bytes → UInt64) (c : Ctx) (b : UInt8) (r : Bytes), isDelim b = true → c.rest = text ++ b :: r →
        ∃ bits, nextToken strtod c = .ok ({ type := .decimal, bits := bits }, c.adv text.length) ∧
          bits = fl.widen (UInt32.ofNat (unle obj)) ∧
          (fl.Ieee → ¬ IEEE.Signalling (unle obj) → storeDec fl .float bits = .ok obj) := by
  have hlt := unle_lt obj
  rw [hlen] at hlt
  have hback := le_unle obj
  rw [hlen] at hback
  have hn : (UInt32.ofNat (unle obj)).toNat = unle obj := by
    rw [UInt32.toNat_ofNat']; exact Nat.mod_eq_of_lt hlt
  have hw := (fl.widen (UInt32.ofNat (unle obj))).toNat_lt
  obtain ⟨text, ht, hx⟩ := C28_hex_round_trip _ hw
  refine ⟨b!"0d" ++ text, by simp only [saveNum, saveDecimal, ht, if_true, Res.bind_ok], 
    fun f c b r hb hc => ⟨fl.widen (UInt32.ofNat (unle obj)), ?_, rfl, ?_⟩⟩
  · rw [(hx f c b r hb).2 hc]
    simp
  · intro hi hs
    simp only [storeDec]
    rw [hi.2, hi.1, hn, IEEE.narrow_widen hs, hback]

/-- 1.5f, a subnormal, infinity and a quiet NaN are not signalling; 0x7fa00000 is. -/
example : ¬ IEEE.Signalling 0x3fc00000 ∧ ¬ IEEE.Signalling 1 ∧ ¬ IEEE.Signalling 0x7f800000 ∧
    ¬ IEEE.Signalling 0x7fc00001 ∧ IEEE.Signalling 0x7fa00000 := by
  unfold IEEE.Signalling; decide

/-- 1.5f is 1.5, and the smallest subnormal float is 2^-149. -/
example : IEEE.widen 0x3fc00000 = 0x3ff8000000000000 ∧ IEEE.widen 1 = 0x36a0000000000000 := by decide +kernel

/-- There are conversions as IEEE 754 wants them. -/
theorem ieee_exists : ∃ fl : Floats, fl.Ieee := by
  refine ⟨{ strtod := fun _ => 0, format := fun _ => [], widen := fun x => UInt64.ofNat (IEEE.widen x.toNat),
            narrow := fun y => UInt32.ofNat (IEEE.narrow y.toNat), floatOfInt := fun _ => 0,
            doubleOfInt := fun _ => 0, trunc := fun _ => none, nonZero := fun _ => true }, ?_, ?_⟩
  · intro x
    simp only [UInt64.toNat_ofNat']
    exact Nat.mod_eq_of_lt (IEEE.widen_lt x.toNat_lt)
  · intro y
    simp only [UInt32.toNat_ofNat']
    exact Nat.mod_eq_of_lt (IEEE.narrow_lt y.toNat_lt)

/-! ### C35 -/

/-- The table `SetupTypeDispatchLUT` builds. -/
def expectedTable (p : Platform) : List (Option Num) :=
  [none, none, none, some (.int 1), none, none, none, some .bool, none, none,
   some .double, none, none, some (.nat 4 false), none, none, none, none, none, none,
   none, some .float, none, some (.nat 2 false), none, none, none, none, some (.hex 8), none,
   some (.int 4), none, none, some (.nat p.longBytes false), none, some (.int p.longBytes), some (.int 8),
   some (.nat 1 false), none, none, none, none, some (.nat p.wcharBytes p.wcharSigned), none, some (.int 2), none, none]

theorem slot_bool : slotOf (Hash.hashText b!"bool") = 7 := by decide +kernel
theorem slot_char : slotOf (Hash.hashText b!"char") = 3 := by decide +kernel
theorem slot_wchar_t : slotOf (Hash.hashText b!"wchar_t") = 42 := by decide +kernel
theorem slot_unsigned_char : slotOf (Hash.hashText b!"unsigned char") = 37 := by decide +kernel
theorem slot_short : slotOf (Hash.hashText b!"short") = 44 := by decide +kernel
theorem slot_unsigned_short : slotOf (Hash.hashText b!"unsigned short") = 23 := by decide +kernel
theorem slot_int : slotOf (Hash.hashText b!"int") = 30 := by decide +kernel
theorem slot_unsigned_int : slotOf (Hash.hashText b!"unsigned int") = 13 := by decide +kernel
theorem slot_long : slotOf (Hash.hashText b!"long") = 35 := by decide +kernel
theorem slot_unsigned_long : slotOf (Hash.hashText b!"unsigned long") = 33 := by decide +kernel
theorem slot_long_long : slotOf (Hash.hashText b!"long long") = 36 := by decide +kernel
theorem slot_unsigned_long_long : slotOf (Hash.hashText b!"unsigned long long") = 28 := by decide +kernel
theorem slot_float : slotOf (Hash.hashText b!"float") = 21 := by decide +kernel
theorem slot_double : slotOf (Hash.hashText b!"double") = 10 := by decide +kernel
theorem slot_Level : slotOf (Hash.hashText b!"Level") = 36 := by decide +kernel
theorem slot_Axis : slotOf (Hash.hashText b!"Axis") = 10 := by decide +kernel
theorem slot_long_double : slotOf (Hash.hashText b!"long double") = 28 := by decide +kernel
theorem slot_signed_char : slotOf (Hash.hashText b!"signed char") = 17 := by decide +kernel

theorem setup_eq (p : Platform) : setupDispatch p = .ok (expectedTable p) := by
  simp [setupDispatch, registrations, addAll, addDispatch, expectedTable, List.replicate, slot_bool, slot_char, slot_wchar_t, slot_unsigned_char, slot_short, slot_unsigned_short, slot_int, slot_unsigned_int, slot_long, slot_unsigned_long, slot_long_long, slot_unsigned_long_long, slot_float, slot_double]

theorem slots_eq (p : Platform) : (registrations p).map (fun e => slotOf (Hash.hashText e.1)) =
    [7, 3, 42, 37, 44, 23, 30, 13, 35, 33, 36, 28, 21, 10] := by
  simp [registrations, slot_bool, slot_char, slot_wchar_t, slot_unsigned_char, slot_short, slot_unsigned_short, slot_int, slot_unsigned_int, slot_long, slot_unsigned_long, slot_long_long, slot_unsigned_long_long, slot_float, slot_double]

/-- C35: setting up the table finds no collision on any platform; each registered name is then dispatched to the
functions registered for it; no two registered names share a slot; and a type is dispatched to functions only
when its name's hash falls into the slot of a registered name. -/
theorem C35_dispatch (p : Platform) :
    ∃ lut, setupDispatch p = .ok lut ∧
      (∀ e ∈ registrations p, dispatch lut (Hash.hashText e.1) = some e.2) ∧
      (registrations p).Pairwise (fun e e' => slotOf (Hash.hashText e.1) ≠ slotOf (Hash.hashText e'.1)) ∧
      (∀ h k, dispatch lut h = some k → ∃ e ∈ registrations p, slotOf h = slotOf (Hash.hashText e.1) ∧ e.2 = k) := by
  have hpw : (registrations p).Pairwise (fun e e' => slotOf (Hash.hashText e.1) ≠ slotOf (Hash.hashText e'.1)) := by
    have h := slots_eq p
    rw [← List.pairwise_map (f := fun e : Bytes × Num => slotOf (Hash.hashText e.1)) (R := fun a b : Nat => a ≠ b), h]
    decide
  have hall : ∀ e ∈ registrations p, dispatch (expectedTable p) (Hash.hashText e.1) = some e.2 := by
    have h : (registrations p).map (fun e => dispatch (expectedTable p) (Hash.hashText e.1)) =
        (registrations p).map (fun e => some e.2) := by
      simp [registrations, dispatch, expectedTable, slot_bool, slot_char, slot_wchar_t, slot_unsigned_char, slot_short, slot_unsigned_short, slot_int, slot_unsigned_int, slot_long, slot_unsigned_long, slot_long_long, slot_unsigned_long_long, slot_float, slot_double]
    intro e he
    exact List.map_inj_left.1 h e he
  refine ⟨_, setup_eq p, hall, hpw, ?_⟩
  intro h k hk
  have hlt : slotOf h < 47 := Nat.mod_lt _ (by omega)
  unfold dispatch at hk
  have hs := slots_eq p
  have hmem : slotOf h ∈ (registrations p).map (fun e => slotOf (Hash.hashText e.1)) := by
    rw [hs]
    generalize slotOf h = n at hk hlt
    revert hk
    have : ∀ n < 47, n ∉ [7, 3, 42, 37, 44, 23, 30, 13, 35, 33, 36, 28, 21, 10] →
        (expectedTable p)[n]? = some none := by
      intro n hn
      repeat (rcases n with _ | n; · simp [expectedTable])
      omega
    intro hk
    by_cases hm : n ∈ [7, 3, 42, 37, 44, 23, 30, 13, 35, 33, 36, 28, 21, 10]
    · exact hm
    · rw [this n hlt hm] at hk
      simp at hk
  obtain ⟨e, he, hse⟩ := List.mem_map.1 hmem
  refine ⟨e, he, hse.symm, ?_⟩
  have := hall e he
  unfold dispatch at this
  rw [hse, hk] at this
  exact (Option.some.inj this).symm

/-- C35 is false of other type names: the table is consulted without comparing names. The enum `Level` is
dispatched to `long long`, `Axis` to `double`, so a JSON number loaded into a field of that enum type writes 8
bytes over its 4; the type `long double` is saved as `unsigned long long`; and `signed char` has no functions at
all, so that saving one fails an assertion. -/
theorem C35_other_names_negation (p : Platform) (lut : List (Option Num)) (h : setupDispatch p = .ok lut) :
    dispatch lut (Hash.hashText b!"Level") = some (.int 8) ∧
    dispatch lut (Hash.hashText b!"Axis") = some .double ∧
    dispatch lut (Hash.hashText b!"long double") = some (.hex 8) ∧
    dispatch lut (Hash.hashText b!"signed char") = none := by
  rw [setup_eq] at h
  have := Res.ok.inj h
  subst this
  simp [dispatch, expectedTable, slot_Level, slot_Axis, slot_long_double, slot_signed_char]

end Clr.JSON
