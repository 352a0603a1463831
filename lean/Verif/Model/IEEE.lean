import Verif.Basic

/-!
The conversions between `float` and `double` as IEEE 754 defines them, on bit patterns (natural numbers
below 2^32 and 2^64).  They model the conversions the compiler emits for SaveFloat (SerialiseJSON.cpp:713-716:
a `float` passed as `double`) and `LoadDecimalWithCast<float>` (175-179: `float(decimal)`), with
rounding to nearest even; converting a signalling NaN makes it quiet.
-/
namespace Clr.IEEE

/-- The quiet form of a NaN's mantissa of `n + 1` bits. -/
def quiet (n m : Nat) : Nat := if m < 2 ^ n then m + 2 ^ n else m

/-- A `double` from its sign, exponent and mantissa fields. -/
def join (s e m : Nat) : Nat := s * 2 ^ 63 + e * 2 ^ 52 + m

/-- `double(float)` on the fields of the float: exact. -/
def widenFields (s e m : Nat) : Nat :=
  if e = 255 then join s 2047 (if m = 0 then 0 else quiet 22 m * 2 ^ 29)
  else if e = 0 then
    if m = 0 then join s 0 0 else join s (m.log2 + 874) ((m - 2 ^ m.log2) * 2 ^ (52 - m.log2))
  else join s (e + 896) (m * 2 ^ 29)

/-- `double(float)`. -/
def widen (x : Nat) : Nat := widenFields (x / 2 ^ 31) (x / 2 ^ 23 % 256) (x % 2 ^ 23)

/-- `v / 2^k` rounded to nearest, ties to even. -/
def roundShift (v k : Nat) : Nat :=
  if 2 ^ k < 2 * (v % 2 ^ k) ∨ 2 ^ k = 2 * (v % 2 ^ k) ∧ v / 2 ^ k % 2 = 1 then v / 2 ^ k + 1 else v / 2 ^ k

/-- `float(double)` on the fields of the double. A carry out of the mantissa goes into the exponent, and out
of the largest finite value to infinity. -/
def narrowFields (s e m : Nat) : Nat :=
  if e = 2047 then
    s * 2 ^ 31 + 255 * 2 ^ 23 + (if m = 0 then 0 else quiet 22 (m / 2 ^ 29))
  else if 1151 ≤ e then s * 2 ^ 31 + 255 * 2 ^ 23
  else if 897 ≤ e then s * 2 ^ 31 + (e - 897) * 2 ^ 23 + roundShift (2 ^ 52 + m) 29
  else if e = 0 then s * 2 ^ 31
  else s * 2 ^ 31 + roundShift (2 ^ 52 + m) (926 - e)

/-- `float(double)`. -/
def narrow (y : Nat) : Nat := narrowFields (y / 2 ^ 63) (y / 2 ^ 52 % 2048) (y % 2 ^ 52)

/-- A NaN whose quiet bit is clear. -/
def Signalling (x : Nat) : Prop := x / 2 ^ 23 % 256 = 255 ∧ x % 2 ^ 23 ≠ 0 ∧ x % 2 ^ 23 < 2 ^ 22

theorem roundShift_exact (q k : Nat) : roundShift (q * 2 ^ k) k = q := by
  have h : 0 < 2 ^ k := Nat.two_pow_pos k
  unfold roundShift
  rw [Nat.mul_mod_left, Nat.mul_div_cancel _ h]
  rw [if_neg (by omega)]

theorem narrow_join (s e m : Nat) (he : e < 2048) (hm : m < 2 ^ 52) :
    narrow (join s e m) = narrowFields s e m := by
  unfold narrow join
  congr 1 <;> omega

theorem fields32 (x : Nat) : x / 2 ^ 31 * 2 ^ 31 + x / 2 ^ 23 % 256 * 2 ^ 23 + x % 2 ^ 23 = x := by omega

/-- The mantissa of a subnormal float as a double's. -/
theorem subnormal {m : Nat} (hm0 : m ≠ 0) (hm : m < 2 ^ 23) :
    m.log2 < 23 ∧ (m - 2 ^ m.log2) * 2 ^ (52 - m.log2) < 2 ^ 52 ∧
      2 ^ 52 + (m - 2 ^ m.log2) * 2 ^ (52 - m.log2) = m * 2 ^ (52 - m.log2) := by
  have hk : m.log2 < 23 := (Nat.log2_lt hm0).2 hm
  have hl1 : 2 ^ m.log2 ≤ m := Nat.log2_self_le hm0
  have hl2 : m < 2 ^ (m.log2 + 1) := Nat.lt_log2_self
  have hp : 2 ^ m.log2 * 2 ^ (52 - m.log2) = 2 ^ 52 := by
    rw [← Nat.pow_add]; congr 1; omega
  refine ⟨hk, ?_, ?_⟩
  · rw [← hp]
    exact Nat.mul_lt_mul_of_pos_right (by rw [Nat.pow_succ] at hl2; omega) (Nat.two_pow_pos _)
  · rw [← hp, ← Nat.add_mul]; congr 1; omega

theorem widenFields_lt {s e m : Nat} (hs : s < 2) (he : e < 256) (hm : m < 2 ^ 23) :
    widenFields s e m < 2 ^ 64 := by
  unfold widenFields join
  split
  · split
    · omega
    · unfold quiet; split <;> omega
  · split
    · split
      · omega
      · rename_i hm0
        have := subnormal hm0 hm
        generalize (m - 2 ^ m.log2) * 2 ^ (52 - m.log2) = a at this ⊢
        generalize m.log2 = b at this ⊢
        omega
    · omega

theorem widen_lt {x : Nat} (hx : x < 2 ^ 32) : widen x < 2 ^ 64 :=
  widenFields_lt (by omega) (by omega) (by omega)

theorem narrow_widenFields {s e m : Nat} (he : e < 256) (hm : m < 2 ^ 23)
    (hs : ¬ (e = 255 ∧ m ≠ 0 ∧ m < 2 ^ 22)) :
    narrow (widenFields s e m) = s * 2 ^ 31 + e * 2 ^ 23 + m := by
  unfold widenFields
  split
  · rename_i h255
    subst h255
    split
    · rename_i h0
      rw [narrow_join _ _ _ (by omega) (by omega), h0]
      simp [narrowFields]
    · rename_i h0
      have hq : quiet 22 m = m := by unfold quiet; rw [if_neg (by omega)]
      rw [hq, narrow_join _ _ _ (by omega) (by omega)]
      simp only [narrowFields, if_true]
      rw [if_neg (by omega), Nat.mul_div_cancel _ (by omega), hq]
  · split
    · rename_i h0
      split
      · rename_i hm0
        rw [narrow_join _ _ _ (by omega) (by omega), h0, hm0]
        simp [narrowFields]
      · rename_i hm0
        obtain ⟨hk, hb, hM⟩ := subnormal hm0 hm
        rw [narrow_join _ _ _ (by omega) hb]
        unfold narrowFields
        rw [if_neg (by omega), if_neg (by omega), if_neg (by omega), if_neg (by omega), hM,
          show 926 - (m.log2 + 874) = 52 - m.log2 by omega, roundShift_exact, h0]
        simp
    · rw [narrow_join _ _ _ (by omega) (by omega)]
      unfold narrowFields
      rw [if_neg (by omega), if_neg (by omega), if_pos (by omega),
        show 2 ^ 52 + m * 2 ^ 29 = (2 ^ 23 + m) * 2 ^ 29 by omega, roundShift_exact]
      omega

/-- A `float` converted to `double` and back is the same float, unless it is a signalling NaN. -/
theorem narrow_widen {x : Nat} (hs : ¬ Signalling x) : narrow (widen x) = x := by
  unfold widen
  rw [narrow_widenFields (by omega) (by omega) hs]
  exact fields32 x

theorem roundShift_le {v k n : Nat} (h : v ≤ n * 2 ^ k) : roundShift v k ≤ n := by
  have hp : 0 < 2 ^ k := Nat.two_pow_pos k
  have hd : v / 2 ^ k ≤ n := Nat.div_le_of_le_mul (by rw [Nat.mul_comm]; exact h)
  unfold roundShift
  split
  · rename_i hc
    rcases Nat.lt_or_ge (v / 2 ^ k) n with hlt | hge
    · exact hlt
    · exfalso
      have he : v / 2 ^ k = n := Nat.le_antisymm hd hge
      have := Nat.div_add_mod v (2 ^ k)
      rw [he, Nat.mul_comm] at this
      omega
  · exact hd

theorem narrowFields_lt {s e m : Nat} (hs : s < 2) (hm : m < 2 ^ 52) : narrowFields s e m < 2 ^ 32 := by
  unfold narrowFields
  split
  · split
    · omega
    · unfold quiet; split <;> omega
  · split
    · omega
    · split
      · have := roundShift_le (v := 2 ^ 52 + m) (k := 29) (n := 2 ^ 24) (by omega)
        omega
      · split
        · omega
        · have h30 : 2 ^ 30 ≤ 2 ^ (926 - e) := Nat.pow_le_pow_right (by omega) (by omega)
          have := roundShift_le (v := 2 ^ 52 + m) (k := 926 - e) (n := 2 ^ 23)
            (by have := Nat.mul_le_mul_left (2 ^ 23) h30; omega)
          omega

theorem narrow_lt {y : Nat} (hy : y < 2 ^ 64) : narrow y < 2 ^ 32 :=
  narrowFields_lt (by omega) (by omega)

end Clr.IEEE
