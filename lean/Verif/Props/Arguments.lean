import Verif.Model.Arguments
/-!
Property C55: command-line options.
-/
namespace Clr.Args

/-- Position `i` holds `arg`, and `n` earlier positions do too. -/
def IsOccurrence (args : List Bytes) (arg : Bytes) (n i : Nat) : Prop :=
  args[i]? = some arg ∧ (args.take i).count arg = n

theorem indexLoop_spec (arg : Bytes) (n : Nat) (args : List Bytes) (base found : Nat) (r : Option Nat)
    (hf : found ≤ n) (h : indexLoop arg n args base found = r) :
    match r with
    | some i => base ≤ i ∧ args[i - base]? = some arg ∧ (args.take (i - base)).count arg + found = n
    | none => args.count arg + found ≤ n := by
  induction args generalizing base found with
  | nil => simp only [indexLoop] at h; subst h; simpa using hf
  | cons a rest ih =>
    simp only [indexLoop] at h
    by_cases ha : a = arg
    · rw [if_pos ha] at h
      by_cases hn : (found : Int) = n
      · rw [if_pos hn] at h; subst h
        simp [ha]; omega
      · rw [if_neg hn] at h
        have := ih (base + 1) (found + 1) (by omega) (by exact_mod_cast h)
        cases r with
        | none => simp only at this ⊢; simp [ha]; omega
        | some i =>
          simp only at this ⊢
          obtain ⟨h1, h2, h3⟩ := this
          obtain ⟨k, hk⟩ : ∃ k, i = base + 1 + k := ⟨i - (base + 1), by omega⟩
          subst hk
          rw [show base + 1 + k - (base + 1) = k by omega] at h2 h3
          rw [show base + 1 + k - base = k + 1 by omega]
          refine ⟨by omega, by simpa using h2, ?_⟩
          simp [ha]; omega
    · rw [if_neg ha] at h
      have := ih (base + 1) found hf h
      cases r with
      | none => simp only at this ⊢; rw [List.count_cons_of_ne ha]; exact this
      | some i =>
        simp only at this ⊢
        obtain ⟨h1, h2, h3⟩ := this
        obtain ⟨k, hk⟩ : ∃ k, i = base + 1 + k := ⟨i - (base + 1), by omega⟩
        subst hk
        rw [show base + 1 + k - (base + 1) = k by omega] at h2 h3
        rw [show base + 1 + k - base = k + 1 by omega]
        refine ⟨by omega, by simpa using h2, ?_⟩
        rw [List.take_succ_cons, List.count_cons_of_ne ha]; exact h3

/-- C55, positions: the query for occurrence `n` returns the position of the `n`-th occurrence, and
reports failure exactly when the option occurs at most `n` times. -/
theorem C55_index_of_occurrence (args : List Bytes) (arg : Bytes) (n : Nat) :
    (∀ i, getIndexOf args arg n = some i → IsOccurrence args arg n i) ∧
    (getIndexOf args arg n = none ↔ args.count arg ≤ n) := by
  constructor
  · intro i h
    have := indexLoop_spec arg n args 0 0 (some i) (Nat.zero_le _) h
    exact ⟨by simpa using this.2.1, by simpa using this.2.2⟩
  · constructor
    · intro h
      have := indexLoop_spec arg n args 0 0 none (Nat.zero_le _) h
      simpa using this
    · intro h
      cases hr : getIndexOf args arg n with
      | none => rfl
      | some i =>
        have := indexLoop_spec arg n args 0 0 (some i) (Nat.zero_le _) hr
        obtain ⟨_, h2, h3⟩ := this
        simp only [Nat.sub_zero] at h2 h3
        exfalso
        have hsplit : args = args.take i ++ args.drop i := (List.take_append_drop i args).symm
        obtain ⟨hlt, he⟩ := List.getElem?_eq_some_iff.mp h2
        have hd : args.drop i = arg :: args.drop (i + 1) := by
          rw [List.drop_eq_getElem_cons hlt, he]
        have : args.count arg = (args.take i).count arg + (args.drop i).count arg := by
          rw [← List.count_append, List.take_append_drop]
        rw [hd, List.count_cons_self] at this
        omega

/-- C55: `Have` is true exactly when the option is among the arguments. -/
theorem C55_have_iff (args : List Bytes) (arg : Bytes) : haveArg args arg = true ↔ arg ∈ args := by
  have h : getIndexOf args arg 0 = none ↔ args.count arg ≤ 0 := (C55_index_of_occurrence args arg 0).2
  rw [haveArg]
  constructor
  · intro hs
    apply Classical.byContradiction
    intro hn
    rw [h.mpr (by rw [List.count_eq_zero.mpr hn]; exact Nat.le_refl _)] at hs
    cases hs
  · intro hm
    cases hr : getIndexOf args arg 0 with
    | some i => rfl
    | none =>
      have := h.mp hr
      have := List.count_pos_iff.mpr hm
      omega

/-- C55: `GetProperty` for occurrence `n` is the argument right after the `n`-th occurrence of the
option, and the empty text when there is none or it is the last argument. -/
theorem C55_property_value (args : List Bytes) (arg : Bytes) (n : Nat) :
    (∀ i v, IsOccurrence args arg n i → args[i + 1]? = some v → getProperty args arg n = v) ∧
    (∀ i, IsOccurrence args arg n i → args[i + 1]? = none → getProperty args arg n = []) ∧
    ((∀ i, ¬ IsOccurrence args arg n i) → getProperty args arg n = []) := by
  have uniq : ∀ i j, IsOccurrence args arg n i → IsOccurrence args arg n j → i = j := by
    have lt : ∀ i j, i < j → IsOccurrence args arg n i → IsOccurrence args arg n j → False := by
      intro i j hij hi hj
      obtain ⟨hlt, he⟩ := List.getElem?_eq_some_iff.mp hi.1
      have h1 : (args.take (i + 1)).count arg = n + 1 := by
        rw [List.take_succ_eq_append_getElem hlt, List.count_append, hi.2, he]; simp
      have h2 : (args.take (i + 1)).count arg ≤ (args.take j).count arg := by
        have : args.take (i + 1) = (args.take j).take (i + 1) := by
          rw [List.take_take]; congr 1; omega
        rw [this]
        exact (List.take_sublist _ _).count_le arg
      have := hj.2
      omega
    intro i j hi hj
    rcases Nat.lt_trichotomy i j with h | h | h
    · exact (lt i j h hi hj).elim
    · exact h
    · exact (lt j i h hj hi).elim
  have found : ∀ i, IsOccurrence args arg n i → getIndexOf args arg n = some i := by
    intro i hi
    cases hr : getIndexOf args arg n with
    | some j => rw [uniq i j hi ((C55_index_of_occurrence args arg n).1 j hr)]
    | none =>
      exfalso
      have hc := (C55_index_of_occurrence args arg n).2.mp hr
      obtain ⟨hlt, he⟩ := List.getElem?_eq_some_iff.mp hi.1
      have h1 : (args.take (i + 1)).count arg = n + 1 := by
        rw [List.take_succ_eq_append_getElem hlt, List.count_append, hi.2, he]; simp
      have := (List.take_sublist (i + 1) args).count_le arg
      omega
  refine ⟨?_, ?_, ?_⟩
  · intro i v hi hv
    obtain ⟨hlt, he⟩ := List.getElem?_eq_some_iff.mp hv
    simp only [getProperty, found i hi]
    rw [if_neg (by omega), List.getD_eq_getElem?_getD, hv]; rfl
  · intro i hi hv
    have : args.length ≤ i + 1 := List.getElem?_eq_none_iff.mp hv
    simp only [getProperty, found i hi]
    rw [if_pos (by omega)]
  · intro h
    cases hr : getIndexOf args arg n with
    | some j => exact (h j ((C55_index_of_occurrence args arg n).1 j hr)).elim
    | none => simp only [getProperty, hr]

/-- Non-vacuity. -/
example : getProperty [b!"x", b!"-o", b!"a", b!"-o", b!"b"] b!"-o" 1 = b!"b" := by decide +kernel
example : haveArg [b!"x", b!"-o"] b!"-o" = true ∧ getProperty [b!"x", b!"-o"] b!"-o" = [] := by decide +kernel
example : IsOccurrence [b!"x", b!"-o", b!"a", b!"-o", b!"b"] b!"-o" 1 3 := by
  unfold IsOccurrence; decide +kernel

end Clr.Args
