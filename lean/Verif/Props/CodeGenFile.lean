import Verif.Proofs.CodeGenFile

/-!
C51: generated files.  Model: `writeFile` in `Verif/Model/CodeGen.lean`.
-/
namespace Clr.Gen

/-- What is in the file after `WriteFile`. -/
def after (text : Bytes) (file : Option Bytes) : Option Bytes := (writeFile text file).or file

theorem toNat_lt (text : Bytes) : (Hash.hashText text).toNat < 2 ^ 32 := (Hash.hashText text).isLt

theorem crlf (rest : Bytes) : ∀ c, (([13, 10] : Bytes) ++ rest).head? = some c → isHex c = false ∧ c ≠ 120 ∧ c ≠ 88 := by
  intro c h
  cases h
  decide

theorem scanHeader_line (text rest : Bytes) :
    scanHeader (b!"// " ++ hexText (Hash.hashText text).toNat ++ [13, 10] ++ rest) = some (Hash.hashText text) := by
  rw [List.append_assoc, List.append_assoc, scanHeader_hexText (toNat_lt text) (crlf rest), BitVec.ofNat_toNat, BitVec.setWidth_eq]

theorem succ_ne (x : BitVec 32) : x + 1 ≠ x := by
  intro e
  have := congrArg BitVec.toNat e
  rw [BitVec.toNat_add] at this
  have := x.isLt
  simp at *

theorem writeFile_eq (text f : Bytes) :
    writeFile text (some f) = if scanHeader f = some (Hash.hashText text) then none else some (withHeader text) := by
  rw [writeFile]
  have hne := succ_ne (Hash.hashText text)
  generalize Hash.hashText text = x at hne
  have : scanHeader f = none ∨ ∃ v, scanHeader f = some v := by
    cases scanHeader f with
    | none => exact .inl rfl
    | some v => exact .inr ⟨v, rfl⟩
  rcases this with h | ⟨v, h⟩
  · simp only [h, Option.getD_none]
    rw [if_pos hne, if_neg (fun h => by cases h)]
  · simp only [h, Option.getD_some]
    by_cases hv : v = x
    · rw [if_neg (fun h => h hv), if_pos (by rw [hv])]
    · rw [if_pos hv, if_neg (fun h => hv (Option.some.inj h))]

/-- **C51**: the file that holds the generated text is not touched. -/
theorem C51_untouched (text : Bytes) : writeFile text (some (withHeader text)) = none := by
  rw [writeFile_eq, if_pos]
  exact scanHeader_line text text

/-- **C51**: a missing file is written. -/
theorem C51_missing (text : Bytes) : after text none = some (withHeader text) := by
  rw [after, writeFile]
  rw [if_pos (succ_ne _)]
  rfl

/-- **C51** (partial): a file generated from another text holds the new text afterwards, unless the two texts have the same hash.
(Missing: texts with the same hash and files with other contents behind the first line, for which it does not hold, see
below.) -/
theorem C51_replaced_partial (old new : Bytes) (h : Hash.hashText old ≠ Hash.hashText new) :
    after new (some (withHeader old)) = some (withHeader new) := by
  rw [after, writeFile_eq, if_neg]
  · rfl
  · rw [withHeader, scanHeader_line]
    exact fun e => h (Option.some.inj e)

/-- **C51** (partial): a file that does not begin with `//` holds the new text afterwards. -/
theorem C51_other_file_partial (text f : Bytes) (h : f.take 2 ≠ b!"//") : after text (some f) = some (withHeader text) := by
  rw [after, writeFile_eq, if_neg]
  · rfl
  · intro e
    unfold scanHeader at e
    split at e
    · exact h rfl
    · cases e

/-- **C51** fails: whatever follows the first line, the file is not touched. -/
theorem C51_first_line_decides_negation (text rest : Bytes) :
    writeFile text (some (b!"// " ++ hexText (Hash.hashText text).toNat ++ [13, 10] ++ rest)) = none := by
  rw [writeFile_eq, if_pos (scanHeader_line text rest)]

/-- The length of the digits that are written. -/
theorem withHeader_eq (text : Bytes) :
    withHeader text = b!"// " ++ (hexText (Hash.hashText text).toNat ++ ([13, 10] ++ text)) := by
  rw [withHeader, List.append_assoc, List.append_assoc]

/-- **C51** fails: if writing is interrupted after the hash, the truncated file is kept by all later runs. -/
theorem C51_interrupted_negation (text : Bytes) (k : Nat) (hk : 3 + (hexText (Hash.hashText text).toNat).length ≤ k) :
    after text (some ((withHeader text).take k)) = some ((withHeader text).take k) := by
  rw [after, writeFile_eq, if_pos]
  · rfl
  · rw [withHeader_eq, List.take_append, List.take_of_length_le (by show 3 ≤ k; omega), List.take_append,
      List.take_of_length_le (by show _ ≤ k - 3; omega), scanHeader_hexText (toNat_lt text), BitVec.ofNat_toNat, BitVec.setWidth_eq]
    intro c hc
    generalize (k - _ - _ : Nat) = j at hc
    cases j with
    | zero => cases hc
    | succ j => cases hc; decide

/-- **C51** (partial): if writing is interrupted before that, the next run with the same text writes the file. -/
theorem C51_interrupted_early_partial (text : Bytes) (k : Nat) (hk : k < 3 + (hexText (Hash.hashText text).toNat).length) :
    after text (some ((withHeader text).take k)) = some (withHeader text) := by
  rw [after, writeFile_eq, if_neg]
  · rfl
  · rw [withHeader_eq]
    generalize Hash.hashText text = x at hk
    have hx : x.toNat < 2 ^ 32 := x.isLt
    by_cases h3 : k ≤ 3
    · rw [List.take_append_of_le_length (by show k ≤ 3; omega)]
      have : ∀ j : Fin 4, scanHeader (b!"// ".take j) = none := by decide
      rw [this ⟨k, by omega⟩]
      exact fun h => by cases h
    · rw [List.take_append, List.take_of_length_le (by show 3 ≤ k; omega)]
      have hl : k - 3 < (hexText x.toNat).length := by omega
      show scanHeader (_ ++ (hexText x.toNat ++ _).take (k - 3)) ≠ _
      rw [List.take_append_of_le_length (by omega)]
      obtain ⟨q, e, hq⟩ := hexText_take x.toNat (k - 3) (by omega) hl
      have := scanHeader_hexText (n := q) (rest := []) (by omega) (by intro c h; cases h)
      rw [List.append_nil] at this
      rw [e, this]
      intro h
      have := congrArg BitVec.toNat (Option.some.inj h)
      rw [BitVec.toNat_ofNat, Nat.mod_eq_of_lt (by omega)] at this
      omega

/-- **C51** fails: an edited file keeps the edit. -/
theorem C51_negation : ¬ ∀ text file, after text file = some (withHeader text) := by
  intro h
  have h1 := h b!"int x;" (some (b!"// " ++ hexText (Hash.hashText b!"int x;").toNat ++ [13, 10] ++ b!"int y;"))
  rw [after, C51_first_line_decides_negation] at h1
  have h2 := Option.some.inj h1
  rw [withHeader, List.append_assoc _ _ b!"int y;", List.append_assoc _ _ b!"int x;"] at h2
  have := List.append_cancel_left (List.append_cancel_left h2)
  revert this
  decide

/-- Two texts with different hashes. -/
example : Hash.hashText b!"int x;" ≠ Hash.hashText b!"int y;" := by decide +kernel

end Clr.Gen
