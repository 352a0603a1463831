import Verif.Model.FileUtils
/-!
Properties C10 (number texts), C52 (string replacement), C53 (token extraction), C56 (line reading).
-/
namespace Clr.FileUtils

/-! ### C10 -/

theorem hexVal_digit : ∀ d : Fin 16, hexVal (hexDigit d.val) = d.val := by decide

theorem hexVal_digit' (n : Nat) : hexVal (hexDigit (n % 16)) = ((n % 16 : Nat) : Int) :=
  hexVal_digit ⟨n % 16, Nat.mod_lt _ (by omega)⟩

/-- One step of the accumulator. -/
def hexStep (w : Nat) (val : Nat) (c : UInt8) : Nat := (((val * 16 : Int) + hexVal c) % (2 ^ w : Int)).toNat

theorem hexAcc_eq (w : Nat) (t : Bytes) : hexAcc w t = t.foldl (hexStep w) 0 := rfl

theorem hexStep_digit (w v : Nat) (h : v < 2 ^ w) : hexStep w (v / 16) (hexDigit (v % 16)) = v := by
  unfold hexStep
  rw [hexVal_digit']
  have h1 : ((v / 16 : Nat) : Int) * 16 + ((v % 16 : Nat) : Int) = (v : Int) := by omega
  rw [h1]
  have h2 : ((v : Int) % (2 ^ w : Int)) = ((v % 2 ^ w : Nat) : Int) := by
    rw [Int.natCast_emod]; norm_cast
  rw [h2, Int.toNat_natCast, Nat.mod_eq_of_lt h]

theorem hexFold_loop (w : Nat) (v : Nat) (acc : Bytes) (h : v < 2 ^ w) :
    (hexLoop v acc).foldl (hexStep w) 0 = acc.foldl (hexStep w) v := by
  induction v using Nat.strongRecOn generalizing acc with
  | _ v ih =>
    rw [hexLoop]
    split
    · next h0 =>
      rw [List.foldl_cons]
      have := hexStep_digit w v h
      rw [h0] at this
      rw [this]
    · next h0 =>
      rw [ih (v / 16) (by omega) _ (by omega), List.foldl_cons, hexStep_digit w v h]

theorem hexFold_zeros (w n : Nat) : (List.replicate n (48 : UInt8)).foldl (hexStep w) 0 = 0 := by
  induction n with
  | zero => rfl
  | succ n ih =>
    rw [List.replicate_succ, List.foldl_cons]
    have : hexStep w 0 48 = 0 := by
      unfold hexStep
      have : hexVal 48 = 0 := by decide
      rw [this]; simp
    rw [this, ih]

theorem hexLoop_length (v n : Nat) (acc : Bytes) (h : v < 16 ^ (n + 1)) :
    (hexLoop v acc).length ≤ acc.length + n + 1 := by
  induction n generalizing v acc with
  | zero =>
    rw [hexLoop, if_pos (by omega)]; simp
  | succ n ih =>
    rw [hexLoop]
    split
    · simp
    · have := ih (v / 16) (hexDigit (v % 16) :: acc) (by rw [Nat.pow_succ] at h; omega)
      simp at this; omega

theorem hexDigit_hex : ∀ d : Fin 16, (48 ≤ (hexDigit d.val).toNat ∧ (hexDigit d.val).toNat ≤ 57) ∨
    (97 ≤ (hexDigit d.val).toNat ∧ (hexDigit d.val).toNat ≤ 102) := by decide

theorem hexLoop_chars (v : Nat) (acc : Bytes)
    (ha : ∀ c ∈ acc, (48 ≤ c.toNat ∧ c.toNat ≤ 57) ∨ (97 ≤ c.toNat ∧ c.toNat ≤ 102)) :
    ∀ c ∈ hexLoop v acc, (48 ≤ c.toNat ∧ c.toNat ≤ 57) ∨ (97 ≤ c.toNat ∧ c.toNat ≤ 102) := by
  induction v using Nat.strongRecOn generalizing acc with
  | _ v ih =>
    have hd := hexDigit_hex ⟨v % 16, Nat.mod_lt _ (by omega)⟩
    have hacc : ∀ c ∈ hexDigit (v % 16) :: acc,
        (48 ≤ c.toNat ∧ c.toNat ≤ 57) ∨ (97 ≤ c.toNat ∧ c.toNat ≤ 102) := by
      intro c hc
      rcases List.mem_cons.mp hc with rfl | hc
      · exact hd
      · exact ha c hc
    rw [hexLoop]
    split
    · exact hacc
    · exact ih (v / 16) (by omega) _ hacc

/-- C10, hexadecimal: the text written for any 32-bit value has eight characters, all hexadecimal
digits, and reads back as the value. -/
theorem C10_hex_roundtrip (v : UInt32) :
    hextoi (itohex v) = v ∧ (itohex v).length = 8 ∧
    (∀ c ∈ itohex v, (48 ≤ c.toNat ∧ c.toNat ≤ 57) ∨ (97 ≤ c.toNat ∧ c.toNat ≤ 102)) := by
  have hv : v.toNat < 2 ^ 32 := v.toNat_lt
  have hl : (hexLoop v.toNat []).length ≤ 8 := by
    have := hexLoop_length v.toNat 7 [] (by omega)
    simpa using this
  refine ⟨?_, ?_, ?_⟩
  · rw [hextoi, hexAcc_eq]
    simp only [itohex]
    rw [List.foldl_append, hexFold_zeros, hexFold_loop 32 _ _ hv, List.foldl_nil]
    exact UInt32.ofNat_toNat
  · simp only [itohex, List.length_append, List.length_replicate]; omega
  · intro c hc
    simp only [itohex] at hc
    rcases List.mem_append.mp hc with hc | hc
    · rw [List.mem_replicate] at hc; rw [hc.2]; left; decide
    · exact hexLoop_chars _ [] (by simp) c hc

/-- C10: different values have different texts. -/
theorem C10_hex_injective (v w : UInt32) (h : itohex v = itohex w) : v = w := by
  rw [← (C10_hex_roundtrip v).1, h, (C10_hex_roundtrip w).1]

/-- C10: reading is not sensitive to the case of the digits. -/
theorem C10_hex_case (t : Bytes) : hextoi (t.map toLower) = hextoi t := by
  have h : ∀ c : UInt8, hexVal (toLower c) = hexVal c := by
    have : ∀ n : Fin 256, hexVal (toLower (UInt8.ofNat n.val)) = hexVal (UInt8.ofNat n.val) := by decide +kernel
    intro c
    have := this ⟨c.toNat, c.toNat_lt⟩
    simpa using this
  simp only [hextoi, hexAcc, List.foldl_map, h]

theorem digit_toNat (n : Nat) : (UInt8.ofNat (48 + n % 10)).toNat = 48 + n % 10 := by
  rw [UInt8.toNat_ofNat']; omega

theorem atoiDigits_loop (v : Nat) (acc : Bytes) :
    atoiDigits (decLoop v acc) 0 = atoiDigits acc v := by
  induction v using Nat.strongRecOn generalizing acc with
  | _ v ih =>
    rw [decLoop]
    split
    · next h0 =>
      rw [atoiDigits, digit_toNat, if_pos (by omega)]
      congr 1; omega
    · rw [ih (v / 10) (by omega), atoiDigits, digit_toNat, if_pos (by omega)]
      congr 1; omega

theorem decLoop_append (v : Nat) (acc : Bytes) : decLoop v acc = decLoop v [] ++ acc := by
  induction v using Nat.strongRecOn generalizing acc with
  | _ v ih =>
    rw [decLoop, decLoop.eq_def v []]
    split
    · rfl
    · rw [ih (v / 10) (by omega), ih (v / 10) (by omega) [_], List.append_assoc]; rfl

theorem decLoop_length (v n : Nat) (h : v < 10 ^ (n + 1)) : (decLoop v []).length ≤ n + 1 := by
  induction n generalizing v with
  | zero => rw [decLoop, if_pos (by omega)]; simp
  | succ n ih =>
    rw [decLoop]
    split
    · simp
    · rw [decLoop_append]
      have := ih (v / 10) (by rw [Nat.pow_succ] at h; omega)
      simp; omega

theorem decLoop_length_ge (v n : Nat) (h : 10 ^ n ≤ v) : n + 1 ≤ (decLoop v []).length := by
  induction n generalizing v with
  | zero =>
    rw [decLoop]
    split
    · simp
    · rw [decLoop_append]; simp
  | succ n ih =>
    rw [Nat.pow_succ] at h
    have hp : 0 < 10 ^ n := Nat.pow_pos (by omega)
    rw [decLoop, if_neg (by omega), decLoop_append]
    have := ih (v / 10) (by omega)
    simp; omega

theorem decLoop_head (v : Nat) (acc : Bytes) :
    ∃ c cs, decLoop v acc = c :: cs ∧ 48 ≤ c.toNat ∧ c.toNat ≤ 57 := by
  induction v using Nat.strongRecOn generalizing acc with
  | _ v ih =>
    rw [decLoop]
    split
    · exact ⟨_, _, rfl, by rw [digit_toNat]; omega, by rw [digit_toNat]; omega⟩
    · exact ih (v / 10) (by omega) _

theorem atoi_of_digit (c : UInt8) (cs : Bytes) (h1 : 48 ≤ c.toNat) (h2 : c.toNat ≤ 57) :
    atoi (c :: cs) = Int32.ofInt (atoiDigits (c :: cs) 0) := by
  have hc32 : (c == 32) = false := by
    rw [beq_eq_false_iff_ne]; rintro rfl; simp at h1
  have hc13 : (9 ≤ c && c ≤ 13) = false := by
    rw [Bool.and_eq_false_iff]; right
    rw [decide_eq_false_iff_not, UInt8.le_iff_toNat_le]; simp; omega
  have hd : (c :: cs).dropWhile (fun c => c == 32 || (9 ≤ c && c ≤ 13)) = c :: cs := by
    rw [List.dropWhile_cons, hc32, hc13]; simp
  unfold atoi
  simp only [hd]
  split
  · next heq => injection heq with ha _; rw [ha] at h1; simp at h1
  · next heq => injection heq with ha _; rw [ha] at h1; simp at h1
  · rfl

theorem atoi_dec (v : Nat) (acc : Bytes) : atoi (decLoop v acc) = Int32.ofInt (atoiDigits acc v) := by
  obtain ⟨c, cs, h, h1, h2⟩ := decLoop_head v acc
  rw [h, atoi_of_digit c cs h1 h2, ← h, atoiDigits_loop]

theorem ofInt_toUInt32 (n : Nat) : (Int32.ofInt (n : Int)).toUInt32 = UInt32.ofNat n := by
  apply UInt32.toBitVec_inj.mp
  simp [Int32.ofInt]
  rfl

/-- C10, decimal, for values below 10^9: the text reads back as the value. Missing: larger values, for
which it does not (`C10_decimal_large_wrong`). -/
theorem C10_decimal_roundtrip_partial (v : UInt32) (h : v.toNat < 10 ^ 9) :
    (atoi (itoa v)).toUInt32 = v := by
  have hl := decLoop_length v.toNat 8 (by omega)
  rw [itoa, List.take_of_length_le hl, atoi_dec]
  simp only [atoiDigits]
  rw [ofInt_toUInt32, UInt32.ofNat_toNat]

/-- C10 fails for every value of 10^9 and more, among them all negative enum constants, attribute
values and the unset field offset: the last digit is lost. -/
theorem C10_decimal_large_wrong (v : UInt32) (h : 10 ^ 9 ≤ v.toNat) :
    (atoi (itoa v)).toUInt32 = v / 10 ∧ (atoi (itoa v)).toUInt32 ≠ v := by
  have hv := v.toNat_lt
  have hsplit : itoa v = decLoop (v.toNat / 10) [] := by
    have hlen : (decLoop (v.toNat / 10) []).length = 9 := by
      have := decLoop_length (v.toNat / 10) 8 (by omega)
      have := decLoop_length_ge (v.toNat / 10) 8 (by omega)
      omega
    rw [itoa, decLoop, if_neg (by omega), decLoop_append, ← hlen, List.take_left]
  have h1 : (atoi (itoa v)).toUInt32 = v / 10 := by
    rw [hsplit, atoi_dec]
    simp only [atoiDigits]
    rw [ofInt_toUInt32]
    apply UInt32.toNat_inj.mp
    rw [UInt32.toNat_ofNat', UInt32.toNat_div]
    exact Nat.mod_eq_of_lt (by omega)
  refine ⟨h1, ?_⟩
  rw [h1]
  intro he
  have := congrArg UInt32.toNat he
  rw [UInt32.toNat_div] at this
  have h10 : (10 : UInt32).toNat = 10 := rfl
  rw [h10] at this
  omega

/-- C10, decimal as compiled with Microsoft's compiler: every value reads back. -/
theorem C10_decimal_roundtrip_msvc (v : UInt32) : (atoi (itoaMSVC v)).toUInt32 = v := by
  have hneg : ∀ cs : Bytes, atoi (45 :: cs) = Int32.ofInt (-(atoiDigits cs 0 : Int)) := by
    intro cs; simp [atoi]
  rw [itoaMSVC]
  have hto : ∀ i : Int, i = v.toBitVec.toInt → (Int32.ofInt i).toUInt32 = v := by
    intro i hi
    apply UInt32.toBitVec_inj.mp
    subst hi
    simp [Int32.ofInt]
  split
  · next h =>
    rw [hneg, atoiDigits_loop]
    apply hto
    simp only [atoiDigits]
    omega
  · next h =>
    rw [atoi_dec]
    apply hto
    simp only [atoiDigits]
    omega

/-- The hexadecimal digits and what they stand for. -/
def hexDigits : List (UInt8 × Nat) := (b!"0123456789abcdef").zipIdx ++ (b!"ABCDEF").zipIdx 10

/-- A text of hexadecimal digits, and the number it stands for. -/
inductive HexText : Bytes → Nat → Prop
  | nil : HexText [] 0
  | snoc {t : Bytes} {n : Nat} {c : UInt8} {v : Nat} (h : HexText t n) (hc : (c, v) ∈ hexDigits) : HexText (t ++ [c]) (16 * n + v)

theorem hexDigits_val : ∀ p ∈ hexDigits, hexVal p.1 = p.2 := by decide +kernel

theorem hexAcc_text {t : Bytes} {n : Nat} (h : HexText t n) (width : Nat) : hexAcc width t = n % 2 ^ width := by
  induction h with
  | nil => simp [hexAcc]
  | @snoc t n c v h hc ih =>
    have hv := hexDigits_val _ hc
    simp only at hv
    rw [hexAcc] at ih ⊢
    rw [List.foldl_append, ih, List.foldl_cons, List.foldl_nil, hv]
    have : (((n % 2 ^ width : Nat) : Int) * 16 + (v : Int)) % (2 ^ width : Int) = (((n % 2 ^ width) * 16 + v) % 2 ^ width : Nat) := by
      push_cast; rfl
    rw [this, Int.toNat_natCast, Nat.add_mod, Nat.mod_mul_mod, ← Nat.add_mod, Nat.mul_comm]

/-- C10, reading: a text of hexadecimal digits, of either case, is read as the number it stands for (modulo 2^32). -/
theorem C10_hex_reads {t : Bytes} {n : Nat} (h : HexText t n) : hextoi t = UInt32.ofNat n ∧ hextoi64 t = UInt64.ofNat n := by
  constructor
  · rw [hextoi, hexAcc_text h]
    apply UInt32.toNat_inj.mp
    simp [UInt32.toNat_ofNat']
  · rw [hextoi64, hexAcc_text h]
    apply UInt64.toNat_inj.mp
    simp [UInt64.toNat_ofNat']

/-- A text of decimal digits, and the number it stands for. -/
inductive DecText : Bytes → Nat → Prop
  | nil : DecText [] 0
  | snoc {t : Bytes} {n v : Nat} (h : DecText t n) (hv : v < 10) : DecText (t ++ [UInt8.ofNat (48 + v)]) (10 * n + v)

theorem atoiDigits_text {t : Bytes} {n : Nat} (h : DecText t n) (rest : Bytes) : atoiDigits (t ++ rest) 0 = atoiDigits rest n := by
  induction h generalizing rest with
  | nil => rfl
  | @snoc t n v h hv ih =>
    rw [List.append_assoc, ih, List.singleton_append, atoiDigits]
    have : (UInt8.ofNat (48 + v)).toNat = 48 + v := by rw [UInt8.toNat_ofNat']; omega
    rw [this, if_pos (by omega)]
    congr 1
    omega

/-- C10, reading: a number in decimal digits, after white space and a sign or none, is read up to the first character that
is no digit. -/
theorem C10_decimal_reads {digits : Bytes} {n : Nat} (h : DecText digits n) (hne : digits ≠ []) (space rest : Bytes)
    (hs : ∀ c ∈ space, c = 32 ∨ (9 ≤ c ∧ c ≤ 13)) (hr : ∀ c r, rest = c :: r → ¬ (48 ≤ c.toNat ∧ c.toNat ≤ 57)) :
    atoi (space ++ digits ++ rest) = Int32.ofInt n ∧ atoi (space ++ 43 :: digits ++ rest) = Int32.ofInt n ∧
      atoi (space ++ 45 :: digits ++ rest) = Int32.ofInt (-(n : Int)) := by
  have hd : atoiDigits (digits ++ rest) 0 = n := by
    rw [atoiDigits_text h]
    cases rest with
    | nil => rfl
    | cons c r => rw [atoiDigits, if_neg (hr c r rfl)]
  have hdrop : ∀ t, (space ++ t).dropWhile (fun c => c == 32 || (9 ≤ c && c ≤ 13)) =
      t.dropWhile (fun c => c == 32 || (9 ≤ c && c ≤ 13)) := by
    intro t
    induction space with
    | nil => rfl
    | cons c r ih =>
      rw [List.cons_append, List.dropWhile_cons, if_pos, ih (fun c hc => hs c (by simp [hc]))]
      rcases hs c (by simp) with h | h
      · simp [h]
      · simp [h.1, h.2]
  obtain ⟨c, ds, rfl⟩ := List.exists_cons_of_ne_nil hne
  have hc : 48 ≤ c.toNat ∧ c.toNat ≤ 57 := by
    have key : ∀ {t : Bytes} {n : Nat}, DecText t n → ∀ x ∈ t, 48 ≤ x.toNat ∧ x.toNat ≤ 57 := by
      intro t n h
      induction h with
      | nil => simp
      | @snoc t n v h hv ih =>
        intro x hx
        rcases List.mem_append.1 hx with hx | hx
        · exact ih x hx
        · rw [List.mem_singleton.1 hx, UInt8.toNat_ofNat']; omega
    exact key h c (by simp)
  have hnot : ¬ ((c == 32 || (9 ≤ c && c ≤ 13)) = true) := by
    simp only [Bool.or_eq_true, beq_iff_eq, Bool.and_eq_true, decide_eq_true_eq, not_or, not_and]
    refine ⟨fun h => ?_, fun _ h => ?_⟩
    · rw [h] at hc; exact absurd hc (by decide)
    · have : c.toNat ≤ 13 := h
      omega
  refine ⟨?_, ?_, ?_⟩
  · rw [atoi, List.append_assoc, hdrop, List.cons_append, List.dropWhile_cons, if_neg hnot]
    rw [List.cons_append] at hd
    split
    · rename_i h1; cases h1; exact absurd hc (by decide)
    · rename_i h1; cases h1; exact absurd hc (by decide)
    · rw [hd]
  · rw [atoi, List.append_assoc, hdrop, List.cons_append, List.dropWhile_cons, if_neg (by decide)]
    simp only [hd]
  · rw [atoi, List.append_assoc, hdrop, List.cons_append, List.dropWhile_cons, if_neg (by decide)]
    simp only [hd]

example : HexText b!"aF" 175 := .snoc (.snoc .nil (by decide +kernel : ((97 : UInt8), 10) ∈ hexDigits)) (by decide +kernel : ((70 : UInt8), 15) ∈ hexDigits)
example : DecText b!"42" 42 := .snoc (.snoc .nil (by decide : 4 < 10)) (by decide : 2 < 10)

/-- Non-vacuity. -/
example : itohex 0xDEADBEEF = b!"deadbeef" ∧ itohex 31 = b!"0000001f" := by decide +kernel
example : itoa 1234 = b!"1234" ∧ itoa 4294967295 = b!"429496729" ∧ itoaMSVC 4294967295 = b!"-1" := by
  decide +kernel

/-! ### C56 -/

theorem readLoop_line (l rest line : Bytes) (h : 10 ∉ l) (hl : line.length ≤ 4095) :
    readLoop (l ++ 10 :: rest) line = some ((line ++ l).take 4095, rest) := by
  induction l generalizing line with
  | nil =>
    rw [List.nil_append, readLoop, if_pos rfl, List.append_nil, List.take_of_length_le hl]
  | cons c l ih =>
    have hc : c ≠ 10 := fun he => h (by simp [he])
    rw [List.cons_append, readLoop, if_neg hc]
    by_cases hlt : line.length < 4095
    · rw [if_pos hlt, ih _ (fun hm => h (by simp [hm])) (by simp; omega)]
      simp
    · rw [if_neg hlt, ih _ (fun hm => h (by simp [hm])) hl]
      have : line.length = 4095 := by omega
      rw [List.take_append_of_le_length (by omega), List.take_append_of_le_length (by omega)]

theorem readLoop_tail (t line : Bytes) (h : 10 ∉ t) : readLoop t line = none := by
  induction t generalizing line with
  | nil => rfl
  | cons c t ih =>
    rw [readLoop, if_neg (fun he => h (by simp [he]))]
    exact ih _ (fun hm => h (by simp [hm]))

/-- C56: reading a file line by line returns its newline-terminated lines in order, each cut to 4095
characters; a last line without a newline (`tail`) is not returned. -/
theorem C56_lines_exact (lines : List Bytes) (tail : Bytes) (n : Nat)
    (hl : ∀ l ∈ lines, 10 ∉ l) (ht : 10 ∉ tail) (hn : lines.length < n) :
    allLines n ((lines.map (· ++ [10])).flatten ++ tail) = lines.map (·.take 4095) := by
  induction lines generalizing n with
  | nil =>
    obtain ⟨m, rfl⟩ : ∃ m, n = m + 1 := ⟨n - 1, by omega⟩
    simp [allLines, readLine, readLoop_tail tail [] ht]
  | cons l lines ih =>
    obtain ⟨m, rfl⟩ : ∃ m, n = m + 1 := ⟨n - 1, by omega⟩
    rw [List.map_cons, List.flatten_cons, List.map_cons]
    have hfile : l ++ [10] ++ (lines.map (· ++ [10])).flatten ++ tail =
        l ++ 10 :: ((lines.map (· ++ [10])).flatten ++ tail) := by simp
    rw [hfile, allLines, readLine, readLoop_line l _ [] (hl l (by simp)) (by simp)]
    simp only [List.nil_append]
    rw [ih m (fun l hm => hl l (by simp [hm])) (by simp at hn; omega)]

/-- Non-vacuity. -/
example : allLines 10 b!"ab\n\ncd\nef" = [b!"ab", [], b!"cd"] := by decide +kernel

/-! ### C52 -/

/-- `pat` occurs in `s` at position `i`. -/
def OccursAt (pat s : Bytes) (i : Nat) : Prop := ∃ a b, s = a ++ pat ++ b ∧ a.length = i

theorem occursAt_iff (pat s : Bytes) (i : Nat) :
    OccursAt pat s i ↔ i ≤ s.length ∧ pat <+: s.drop i := by
  constructor
  · rintro ⟨a, b, rfl, rfl⟩
    refine ⟨by simp, ?_⟩
    rw [List.append_assoc, List.drop_left]
    exact List.prefix_append _ _
  · rintro ⟨h1, b, hb⟩
    refine ⟨s.take i, b, ?_, by simp; omega⟩
    rw [List.append_assoc, hb, List.take_append_drop]

theorem findFrom_spec (pat s : Bytes) (i : Nat) :
    match findFrom pat s i with
    | some j => i ≤ j ∧ OccursAt pat s (j - i) ∧ ∀ k, k < j - i → ¬ OccursAt pat s k
    | none => ∀ k, ¬ OccursAt pat s k := by
  induction s generalizing i with
  | nil =>
    rw [findFrom]
    by_cases hp : pat = []
    · rw [if_pos hp]
      refine ⟨Nat.le_refl _, ⟨[], [], by simp [hp], by simp⟩, fun k hk => by omega⟩
    · rw [if_neg hp]
      rintro k ⟨a, b, h, _⟩
      have := congrArg List.length h
      rw [List.length_append, List.length_append, List.length_nil] at this
      exact hp (List.length_eq_zero_iff.mp (by omega))
  | cons c cs ih =>
    rw [findFrom]
    by_cases hp : pat.isPrefixOf (c :: cs) = true
    · rw [if_pos hp]
      refine ⟨Nat.le_refl _, ?_, fun k hk => by omega⟩
      rw [occursAt_iff, Nat.sub_self]
      exact ⟨Nat.zero_le _, by simpa using List.isPrefixOf_iff_prefix.mp hp⟩
    · rw [if_neg hp]
      have h0 : ¬ OccursAt pat (c :: cs) 0 := by
        rw [occursAt_iff]
        rintro ⟨_, h⟩
        exact hp (List.isPrefixOf_iff_prefix.mpr (by simpa using h))
      have hs : ∀ k, OccursAt pat (c :: cs) (k + 1) ↔ OccursAt pat cs k := by
        intro k
        rw [occursAt_iff, occursAt_iff]
        simp
      have hi := ih (i + 1)
      cases hf : findFrom pat cs (i + 1) with
      | none =>
        rw [hf] at hi
        intro k
        cases k with
        | zero => exact h0
        | succ k => rw [hs]; exact hi k
      | some j =>
        rw [hf] at hi
        obtain ⟨h1, h2, h3⟩ := hi
        refine ⟨by omega, ?_, ?_⟩
        · rw [show j - i = (j - (i + 1)) + 1 by omega, hs]; exact h2
        · intro k hk
          cases k with
          | zero => exact h0
          | succ k => rw [hs]; exact h3 k (by omega)

theorem find_some (s pat : Bytes) (pos j : Nat) (h : find s pat pos = some j) :
    pos ≤ j ∧ OccursAt pat (s.drop pos) (j - pos) ∧ ∀ k, k < j - pos → ¬ OccursAt pat (s.drop pos) k := by
  rw [find] at h
  split at h
  · have := findFrom_spec pat (s.drop pos) pos
    rw [h] at this
    exact this
  · cases h

theorem find_none (s pat : Bytes) (pos : Nat) (hp : pos ≤ s.length) (h : find s pat pos = none) :
    ∀ k, ¬ OccursAt pat (s.drop pos) k := by
  rw [find, if_pos hp] at h
  have := findFrom_spec pat (s.drop pos) pos
  rw [h] at this
  exact this

/-- The specification of replacing: cut at the leftmost occurrence, replace it, go on behind it. -/
inductive Replaced (pat w : Bytes) : Bytes → Bytes → Prop where
  | done {s : Bytes} : (∀ i, ¬ OccursAt pat s i) → Replaced pat w s s
  | step {a b r : Bytes} : (∀ i, i < a.length → ¬ OccursAt pat (a ++ pat ++ b) i) →
      Replaced pat w b r → Replaced pat w (a ++ pat ++ b) (a ++ w ++ r)

theorem replaceLoop_spec (pat w : Bytes) (hp : pat ≠ []) (fuel : Nat) (done rest : Bytes)
    (hf : rest.length < fuel) :
    ∃ r, replaceLoop pat w fuel (done ++ rest) done.length = some (done ++ r) ∧ Replaced pat w rest r := by
  induction fuel generalizing done rest with
  | zero => omega
  | succ fuel ih =>
    rw [replaceLoop]
    cases hfi : find (done ++ rest) pat done.length with
    | none =>
      have := find_none _ _ _ (by simp) hfi
      rw [List.drop_left] at this
      exact ⟨rest, rfl, .done this⟩
    | some j =>
      obtain ⟨h1, h2, h3⟩ := find_some _ _ _ _ hfi
      rw [List.drop_left] at h2 h3
      obtain ⟨a, b, hr, ha⟩ := h2
      have hj : j = (done ++ a).length := by simp; omega
      have hrep : replaceAt (done ++ rest) j pat.length w = (done ++ a ++ w) ++ b := by
        rw [replaceAt, hr, show done ++ (a ++ pat ++ b) = (done ++ a) ++ (pat ++ b) by simp, hj,
          List.take_left, ← List.drop_drop, List.drop_left, List.drop_left]
      simp only
      rw [hrep, show j + w.length = (done ++ a ++ w).length by rw [hj]; simp; omega]
      have hlen : b.length < fuel := by
        have := congrArg List.length hr
        have hpl : 0 < pat.length := List.length_pos_iff.mpr hp
        simp at this; omega
      obtain ⟨r, i1, i2⟩ := ih (done ++ a ++ w) b hlen
      refine ⟨a ++ w ++ r, by rw [i1]; simp, ?_⟩
      subst hr
      exact .step (by rw [ha]; exact h3) i2

/-- C52: with a non-empty pattern the replacement terminates and replaces the occurrences from left to
right, going on behind each replacement (so a replacement containing the pattern is not searched). -/
theorem C52_replace_all (s pat w : Bytes) (hp : pat ≠ []) (fuel : Nat) (hf : s.length < fuel) :
    ∃ r, stringReplace fuel s pat w = some r ∧ Replaced pat w s r := by
  have := replaceLoop_spec pat w hp fuel [] s hf
  simpa [stringReplace] using this

/-- C52: the specification determines the result. -/
theorem C52_spec_deterministic (pat w s r r' : Bytes) (h : Replaced pat w s r) (h' : Replaced pat w s r') :
    r = r' := by
  induction h generalizing r' with
  | done hno =>
    cases h' with
    | done => rfl
    | step h1 h2 => exact absurd ⟨_, _, rfl, rfl⟩ (hno _)
  | @step a b q hno hb ih =>
    generalize hs : a ++ pat ++ b = s at h'
    cases h' with
    | done hno' => subst hs; exact absurd ⟨_, _, rfl, rfl⟩ (hno' _)
    | @step a' b' q' hno' hb' =>
      have hlen : a.length = a'.length := by
        rcases Nat.lt_trichotomy a.length a'.length with hl | hl | hl
        · exact absurd ⟨a, b, hs.symm, rfl⟩ (hno' _ hl)
        · exact hl
        · exact absurd ⟨a', b', hs, rfl⟩ (hno _ hl)
      rw [List.append_assoc, List.append_assoc] at hs
      have h1 := List.append_inj hs hlen
      have h2 : b = b' := List.append_cancel_left h1.2
      subst h2
      rw [h1.1, ih q' hb']

/-- C52: with an empty pattern the replacement never returns. -/
theorem C52_empty_pattern_never_returns (s w : Bytes) (fuel : Nat) : stringReplace fuel s [] w = none := by
  have : ∀ fuel s i, i ≤ s.length → replaceLoop [] w fuel s i = none := by
    intro fuel
    induction fuel with
    | zero => intro s i _; rfl
    | succ fuel ih =>
      intro s i hi
      have hf : find s [] i = some i := by
        rw [find, if_pos hi]
        cases s.drop i with
        | nil => rfl
        | cons => rfl
      rw [replaceLoop, hf]
      simp only
      apply ih
      rw [replaceAt]; simp; omega
  exact this fuel s 0 (Nat.zero_le _)

/-- Deleting one occurrence after another. -/
inductive Deletes (pat : Bytes) : Bytes → Bytes → Prop where
  | refl {s : Bytes} : Deletes pat s s
  | step {a b r : Bytes} : Deletes pat (a ++ b) r → Deletes pat (a ++ pat ++ b) r

/-- C52: `Remove` with a non-empty pattern terminates, only deletes occurrences of the pattern, and
leaves none behind, also none that deleting has brought about. -/
theorem C52_remove_leaves_none (s pat : Bytes) (hp : pat ≠ []) (fuel : Nat) (hf : s.length < fuel) :
    ∃ r, remove pat fuel s = some r ∧ Deletes pat s r ∧ ∀ i, ¬ OccursAt pat r i := by
  induction fuel generalizing s with
  | zero => omega
  | succ fuel ih =>
    rw [remove]
    cases hfi : find s pat 0 with
    | none =>
      have := find_none s pat 0 (Nat.zero_le _) hfi
      exact ⟨s, rfl, .refl, by simpa using this⟩
    | some j =>
      obtain ⟨_, h2, _⟩ := find_some _ _ _ _ hfi
      obtain ⟨a, b, hr, ha⟩ := h2
      simp only [List.drop_zero, Nat.sub_zero] at hr ha
      have hrep : replaceAt s j pat.length [] = a ++ b := by
        rw [replaceAt, hr, ← ha, List.append_assoc a, List.take_left, ← List.drop_drop, List.drop_left,
          List.drop_left, List.append_nil]
      simp only
      rw [hrep]
      have hpl : 0 < pat.length := List.length_pos_iff.mpr hp
      obtain ⟨r, i1, i2, i3⟩ := ih (a ++ b) (by
        have := congrArg List.length hr
        simp at this ⊢; omega)
      exact ⟨r, i1, hr ▸ .step i2, i3⟩

/-- C52: prefix tests are exact. -/
theorem C52_startswith_iff (text cmp : Bytes) : startswith text cmp = true ↔ ∃ r, text = cmp ++ r := by
  rw [startswith, beq_iff_eq]
  constructor
  · intro h
    obtain ⟨_, ⟨a, b, hr, ha⟩, _⟩ := find_some _ _ _ _ h
    simp only [Nat.sub_self, List.length_eq_zero_iff] at ha
    subst ha
    exact ⟨b, by simpa using hr⟩
  · rintro ⟨r, rfl⟩
    cases hf : find (cmp ++ r) cmp 0 with
    | none => exact absurd ⟨[], r, by simp, rfl⟩ (find_none _ _ _ (Nat.zero_le _) hf 0)
    | some j =>
      obtain ⟨_, _, h3⟩ := find_some _ _ _ _ hf
      cases j with
      | zero => rfl
      | succ j => exact absurd ⟨[], r, by simp, rfl⟩ (h3 0 (by omega))

/-- Non-vacuity. -/
example : stringReplace 20 b!"a *b *" b!" *" b!"*" = some b!"a*b*" := by decide +kernel
example : remove b!"struct " 20 b!"strustruct ct X" = some b!"X" := by decide +kernel

/-! ### C53 -/

theorem tokenLoop_spec (stop : UInt8 → Bool) (text pre dest rest : Bytes) (size : Nat)
    (hd : dest = pre ++ rest) (hs : size = dest.length) :
    tokenLoop stop size text pre.length dest =
      let tok := text.takeWhile (fun c => !stop c)
      if tok.length < rest.length then .ok (pre ++ tok ++ 0 :: rest.drop (tok.length + 1),
        text.dropWhile (fun c => !stop c)) else .ub := by
  induction text generalizing pre dest rest with
  | nil =>
    cases rest with
    | nil => simp [tokenLoop, store, hd]
    | cons x rest => simp [tokenLoop, store, hd]
  | cons c cs ih =>
    rw [tokenLoop]
    cases rest with
    | nil =>
      have : (pre.length != size) = false := by simp [hs, hd]
      simp [this, store, hd]
    | cons x rest =>
      have hne : (pre.length != size) = true := by simp [hs, hd]
      cases hst : stop c with
      | true => simp [store, hd, hst]
      | false =>
        have h1 := ih (pre ++ [c]) (pre ++ c :: rest) rest (by simp) (by simp [hs, hd])
        rw [List.length_append] at h1
        simp only [List.length_singleton] at h1
        have h2 : store dest pre.length c = .ok (pre ++ c :: rest) := by simp [store, hd]
        simp only [hne, Bool.not_false, Bool.and_self, if_true, h2, Res.bind_ok, h1, hst,
          List.takeWhile_cons_of_pos, List.dropWhile_cons_of_pos, List.length_cons,
          Nat.add_lt_add_iff_right, List.drop_succ_cons]
        split <;> simp

/-- C53 for tokens shorter than the buffer: the destination holds exactly the characters before the
delimiter (or the end), terminated; the rest of the buffer is unchanged and the text from the delimiter
on is returned. Missing: longer tokens (`C53_long_token_writes_outside`). -/
theorem C53_token_exact_partial (text dest : Bytes) (d : UInt8)
    (h : (text.takeWhile (· != d)).length < dest.length) :
    consumeToken text d dest =
      .ok (text.takeWhile (· != d) ++ 0 :: dest.drop ((text.takeWhile (· != d)).length + 1),
           text.dropWhile (· != d)) := by
  have := tokenLoop_spec (fun c => c == d) text [] dest dest dest.length rfl rfl
  rw [consumeToken]
  simp only [List.length_nil] at this
  rw [this]
  have he : (fun c => !(c == d)) = (fun c : UInt8 => c != d) := rfl
  simp only [he, if_pos h, List.nil_append]

/-- C53 fails for every token that is as long as the buffer or longer: the terminator is written behind
the buffer's end. -/
theorem C53_long_token_writes_outside (text dest : Bytes) (d : UInt8)
    (h : dest.length ≤ (text.takeWhile (· != d)).length) : consumeToken text d dest = .ub := by
  have := tokenLoop_spec (fun c => c == d) text [] dest dest dest.length rfl rfl
  rw [consumeToken]
  simp only [List.length_nil] at this
  rw [this]
  have he : (fun c => !(c == d)) = (fun c : UInt8 => c != d) := rfl
  simp only [he, if_neg (Nat.not_lt.mpr h)]

/-- C53 for the parameter tokens of function signatures (delimiters: space , ) < >). -/
theorem C53_parameter_token_partial (text dest : Bytes) :
    let tok := text.takeWhile (fun c => !(c == 32 || c == 44 || c == 41 || c == 60 || c == 62))
    (tok.length < dest.length → ∃ dest', consumeParameterToken text dest =
        .ok (dest', text.drop tok.length) ∧ dest'.take (tok.length + 1) = tok ++ [0] ∧
        dest'.length = dest.length) ∧
    (dest.length ≤ tok.length → consumeParameterToken text dest = .ub) := by
  intro tok
  have h := tokenLoop_spec (fun c => c == 32 || c == 44 || c == 41 || c == 60 || c == 62) text [] dest dest
    dest.length rfl rfl
  simp only [List.length_nil, List.nil_append] at h
  have htok : text.takeWhile (fun c => !(c == 32 || c == 44 || c == 41 || c == 60 || c == 62)) = tok := rfl
  rw [htok] at h
  constructor
  · intro hlt
    rw [if_pos hlt] at h
    refine ⟨tok ++ 0 :: dest.drop (tok.length + 1), ?_, ?_, ?_⟩
    · rw [consumeParameterToken, h]
      congr 2
      have := List.takeWhile_append_dropWhile (p := fun c : UInt8 => !(c == 32 || c == 44 || c == 41 || c == 60 || c == 62)) (l := text)
      rw [htok] at this
      conv => rhs; rw [← this, List.drop_left]
    · rw [List.take_append]; simp [List.take_of_length_le]
    · simp; omega
  · intro hle
    rw [consumeParameterToken, h, if_neg (by omega)]

/-- Non-vacuity. -/
example : consumeToken b!"ab cd" 32 [1, 1, 1, 1] = .ok ([97, 98, 0, 1], b!" cd") := by decide +kernel
example : consumeToken b!"abcd" 32 [1, 1, 1, 1] = .ub := by decide +kernel

end Clr.FileUtils
