import Verif.Model.CodeGen

/-!
The header of generated files.
-/
namespace Clr.Gen

/-- The digit for a number below 16. -/
def digit (n : Nat) : UInt8 := if n < 10 then 48 + UInt8.ofNat n else 87 + UInt8.ofNat n

theorem digit_facts : ∀ n : Fin 16, isHex (digit n) = true ∧ hexVal (digit n) = n ∧ isSpace (digit n) = false ∧ digit n ≠ 45 ∧ digit n ≠ 43 ∧
    digit n ≠ 120 ∧ digit n ≠ 88 ∧ (digit n = 48 → n = 0) := by decide +kernel

theorem digit_isHex {n : Nat} (h : n < 16) : isHex (digit n) = true := (digit_facts ⟨n, h⟩).1
theorem digit_val {n : Nat} (h : n < 16) : hexVal (digit n) = n := (digit_facts ⟨n, h⟩).2.1

theorem hexText_small {n : Nat} (h : n < 16) : hexText n = [digit n] := by
  rw [hexText, if_pos h, digit]

theorem hexText_big {n : Nat} (h : ¬ n < 16) : hexText n = hexText (n / 16) ++ [digit (n % 16)] := by
  rw [hexText, if_neg h, digit]

theorem hexText_isHex (n : Nat) : ∀ c ∈ hexText n, ∃ d, d < 16 ∧ c = digit d := by
  induction n using Nat.strongRecOn with
  | ind n ih =>
    by_cases h : n < 16
    · rw [hexText_small h]
      intro c hc
      exact ⟨n, h, List.mem_singleton.1 hc⟩
    · rw [hexText_big h]
      intro c hc
      rcases List.mem_append.1 hc with hc | hc
      · exact ih (n / 16) (by omega) c hc
      · exact ⟨n % 16, by omega, List.mem_singleton.1 hc⟩

/-- The digits' value. -/
def valueFrom (a : Nat) (ds : Bytes) : Nat := ds.foldl (fun a c => a * 16 + hexVal c) a

theorem hexText_value (n : Nat) : valueFrom 0 (hexText n) = n := by
  induction n using Nat.strongRecOn with
  | ind n ih =>
    by_cases h : n < 16
    · rw [hexText_small h]
      simp [valueFrom, digit_val h]
    · rw [hexText_big h, valueFrom, List.foldl_append]
      have := ih (n / 16) (by omega)
      rw [valueFrom] at this
      rw [this]
      simp only [List.foldl_cons, List.foldl_nil]
      rw [digit_val (by omega)]
      omega

/-- No leading zero, except in zero. -/
theorem hexText_head (n : Nat) : ∃ d ds, d < 16 ∧ hexText n = digit d :: ds ∧ (d = 0 → ds = [] ∧ n = 0) := by
  induction n using Nat.strongRecOn with
  | ind n ih =>
    by_cases h : n < 16
    · exact ⟨n, [], h, hexText_small h, fun h => ⟨rfl, h⟩⟩
    · obtain ⟨d, ds, hd, e, h0⟩ := ih (n / 16) (by omega)
      refine ⟨d, ds ++ [digit (n % 16)], hd, by rw [hexText_big h, e]; rfl, fun h => ?_⟩
      have := (h0 h).2
      omega

/-- What remains of the digits of a number when some are cut off. -/
theorem hexText_take (n k : Nat) (hk : 0 < k) (hlt : k < (hexText n).length) :
    ∃ q, (hexText n).take k = hexText q ∧ q < n := by
  induction n using Nat.strongRecOn with
  | ind n ih =>
    by_cases h : n < 16
    · rw [hexText_small h] at hlt
      simp at hlt
      omega
    · rw [hexText_big h] at hlt ⊢
      rw [List.length_append, List.length_singleton] at hlt
      by_cases hl : k = (hexText (n / 16)).length
      · exact ⟨n / 16, by rw [hl, List.take_left], by omega⟩
      · obtain ⟨q, e, hq⟩ := ih (n / 16) (by omega) (by omega)
        exact ⟨q, by rw [List.take_append_of_le_length (by omega), e], by omega⟩

theorem takeWhile_hexText (n : Nat) {rest : Bytes} (h : ∀ c, rest.head? = some c → isHex c = false) :
    (hexText n ++ rest).takeWhile isHex = hexText n := by
  have : ∀ ds : Bytes, (∀ c ∈ ds, isHex c = true) → (ds ++ rest).takeWhile isHex = ds := by
    intro ds
    induction ds with
    | nil =>
      intro _
      cases rest with
      | nil => rfl
      | cons c r => simp [List.takeWhile, h c rfl]
    | cons d ds ih =>
      intro hd
      rw [List.cons_append, List.takeWhile_cons, if_pos (hd d (List.mem_cons_self ..)), ih fun c hc => hd c (List.mem_cons_of_mem _ hc)]
  refine this _ fun c hc => ?_
  obtain ⟨d, hd, rfl⟩ := hexText_isHex n c hc
  exact digit_isHex hd

/-- Digits read back. -/
theorem scanDigits_hexText (n : Nat) {rest : Bytes} (h : ∀ c, rest.head? = some c → isHex c = false ∧ c ≠ 120 ∧ c ≠ 88) :
    scanDigits (hexText n ++ rest) = some n := by
  have hv : hexDigits (hexText n ++ rest) = n := by
    rw [hexDigits, takeWhile_hexText n fun c hc => (h c hc).1]
    exact hexText_value n
  obtain ⟨d, ds, hd, e, h0⟩ := hexText_head n
  have hx := digit_isHex hd
  have hf := digit_facts ⟨d, hd⟩
  generalize ht : hexText n ++ rest = t at hv
  unfold scanDigits
  split
  · next x c r =>
    split
    · next hc =>
      exfalso
      rw [e] at ht
      injection ht with h1 h2
      have := h0 (Fin.mk.inj (hf.2.2.2.2.2.2.2 h1))
      rw [this.1] at h2
      have := h x (by rw [show rest = x :: c :: r from h2]; rfl)
      rcases hc.1 with h | h
      · exact this.2.1 h
      · exact this.2.2 h
    · rw [hv]
  · next c r _ =>
    rw [e] at ht
    injection ht with h1 h2
    rw [if_pos (h1 ▸ hx), hv]
  · rw [e] at ht
    cases ht

/-- The header read back. -/
theorem scanHeader_hexText {n : Nat} (hn : n < 2 ^ 32) {rest : Bytes}
    (h : ∀ c, rest.head? = some c → isHex c = false ∧ c ≠ 120 ∧ c ≠ 88) :
    scanHeader (b!"// " ++ (hexText n ++ rest)) = some (BitVec.ofNat 32 n) := by
  show scanHex (32 :: (hexText n ++ rest)) = _
  have hs := scanDigits_hexText n h
  obtain ⟨d, ds, hd, e, h0⟩ := hexText_head n
  have hf := digit_facts ⟨d, hd⟩
  have hdrop : (32 :: (hexText n ++ rest)).dropWhile isSpace = hexText n ++ rest := by
    rw [e, List.dropWhile_cons, if_pos (by decide), List.cons_append, List.dropWhile_cons, if_neg (by rw [hf.2.2.1]; decide)]
  unfold scanHex
  rw [hdrop]
  generalize ht : hexText n ++ rest = t at hs
  have hm : min n (2 ^ 64 - 1) = n := by omega
  rw [e] at ht
  dsimp only
  split
  · injection ht with h1 h2
    exact absurd h1 hf.2.2.2.1
  · injection ht with h1 h2
    exact absurd h1 hf.2.2.2.2.1
  · rw [hs, Option.map_some, hm]

end Clr.Gen
