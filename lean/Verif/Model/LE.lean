import Verif.Basic
/-
Little-endian encodings of integers: what `fwrite(&val, sizeof(val), 1, fp)` and `memcpy` of an integer
produce on the platforms clReflect supports, and the way back.
-/
namespace Clr

/-- The `w` bytes of `v`, least significant first. -/
def le : Nat → Nat → Bytes
  | 0, _ => []
  | w + 1, v => UInt8.ofNat (v % 256) :: le w (v / 256)

/-- The number a byte string stands for, least significant byte first. -/
def unle : Bytes → Nat
  | [] => 0
  | b :: bs => b.toNat + 256 * unle bs

theorem length_le (w v : Nat) : (le w v).length = w := by
  induction w generalizing v with
  | zero => rfl
  | succ w ih => simp [le, ih]

theorem unle_le (w v : Nat) : unle (le w v) = v % 256 ^ w := by
  induction w generalizing v with
  | zero => simp [le, unle, Nat.mod_one]
  | succ w ih =>
    rw [le, unle, ih, UInt8.toNat_ofNat', show 256 ^ (w + 1) = 256 * 256 ^ w by rw [Nat.pow_succ, Nat.mul_comm],
      Nat.mod_mul]
    omega

theorem unle_le_of_lt {w v : Nat} (h : v < 256 ^ w) : unle (le w v) = v := by
  rw [unle_le, Nat.mod_eq_of_lt h]

theorem unle_lt (bs : Bytes) : unle bs < 256 ^ bs.length := by
  induction bs with
  | nil => simp [unle]
  | cons b bs ih =>
    rw [unle, List.length_cons, Nat.pow_succ]
    have := b.toNat_lt
    omega

theorem le_unle (bs : Bytes) : le bs.length (unle bs) = bs := by
  induction bs with
  | nil => rfl
  | cons b bs ih =>
    rw [List.length_cons, le, unle]
    have hb := b.toNat_lt
    rw [show (b.toNat + 256 * unle bs) % 256 = b.toNat by omega,
      show (b.toNat + 256 * unle bs) / 256 = unle bs by omega, ih]
    simp

theorem le_inj {w a b : Nat} (ha : a < 256 ^ w) (hb : b < 256 ^ w) (h : le w a = le w b) : a = b := by
  rw [← unle_le_of_lt ha, h, unle_le_of_lt hb]

/-- The first `n` bytes and the rest; `none` if there are fewer. -/
def takeN (n : Nat) (bs : Bytes) : Option (Bytes × Bytes) :=
  if bs.length < n then none else some (bs.take n, bs.drop n)

theorem takeN_append (a b : Bytes) : takeN a.length (a ++ b) = some (a, b) := by
  unfold takeN
  rw [if_neg (by rw [List.length_append]; omega)]
  simp

theorem takeN_eq {n : Nat} {a b : Bytes} (h : a.length = n) : takeN n (a ++ b) = some (a, b) := by
  subst h; exact takeN_append a b

end Clr
