import Verif.Model.CArray
/-!
Property C24: removing elements of arrays.
-/
namespace Clr.CArray
variable {α : Type}

theorem shiftLoop_spec (data : List α) (n i : Nat) (h : i + n < data.length) :
    ∃ d, shiftLoop data n i = .ok d ∧ d.length = data.length ∧
      ∀ j, d[j]? = if i ≤ j ∧ j < i + n then data[j + 1]? else data[j]? := by
  induction n generalizing data i with
  | zero =>
    refine ⟨data, rfl, rfl, ?_⟩
    intro j
    rw [if_neg (by omega)]
  | succ n ih =>
    have hget : data[i + 1]? = some data[i + 1] := List.getElem?_eq_getElem (by omega)
    obtain ⟨d, h1, h2, h3⟩ := ih (data.set i data[i + 1]) (i + 1) (by simp; omega)
    refine ⟨d, by simp only [shiftLoop, hget]; exact h1, by simpa using h2, ?_⟩
    intro j
    rw [h3 j]
    by_cases hj : j = i
    · subst hj
      rw [if_neg (by omega), if_pos (by omega), List.getElem?_set_self (by omega), hget]
    · by_cases hin : i + 1 ≤ j ∧ j < i + 1 + n
      · rw [if_pos hin, if_pos (by omega), List.getElem?_set_ne (by omega)]
      · rw [if_neg hin, if_neg (by omega), List.getElem?_set_ne (by omega)]

/-- C24: stable removal of a valid index removes exactly that element and keeps the order of the
others; an invalid index stops at the assertion. `hcap`: the array's memory holds its elements. -/
theorem C24_stable_remove (a : Arr α) (index : Nat) (hcap : a.size ≤ a.data.length) :
    (index < a.size → ∃ a', stableRemove a index = .ok a' ∧ a'.elems = a.elems.eraseIdx index ∧
      a'.size + 1 = a.size ∧ a'.data.length = a.data.length) ∧
    (a.size ≤ index → stableRemove a index = .trap) := by
  constructor
  · intro hi
    obtain ⟨d, h1, h2, h3⟩ := shiftLoop_spec a.data (a.size - 1 - index) index (by omega)
    refine ⟨{ data := d, size := a.size - 1 }, ?_, ?_, by simp only; omega, h2⟩
    · simp only [stableRemove, if_pos hi, h1, Res.bind_ok]
    · apply List.ext_getElem?
      intro j
      show (d.take (a.size - 1))[j]? = ((a.data.take a.size).eraseIdx index)[j]?
      rw [List.getElem?_take, List.getElem?_eraseIdx, List.getElem?_take, List.getElem?_take, h3 j]
      by_cases hj : j < index
      · rw [if_pos (show j < a.size - 1 by omega), if_neg (show ¬ (index ≤ j ∧ j < index + (a.size - 1 - index)) by omega),
          if_pos hj, if_pos (show j < a.size by omega)]
      · rw [if_neg hj]
        by_cases hlast : j < a.size - 1
        · rw [if_pos hlast, if_pos (show index ≤ j ∧ j < index + (a.size - 1 - index) by omega),
            if_pos (show j + 1 < a.size by omega)]
        · rw [if_neg hlast, if_neg (show ¬ j + 1 < a.size by omega)]
  · intro hi
    simp only [stableRemove, if_neg (Nat.not_lt.mpr hi)]

/-- C24: unstable removal of a valid index removes exactly that element: the removed element followed
by what remains is a permutation of what was there, and elements other than the last and the removed
one keep their place. -/
theorem C24_unstable_remove (a : Arr α) (index : Nat) (hcap : a.size ≤ a.data.length) :
    (∀ x, a.elems[index]? = some x → ∃ a', unstableRemove a index = .ok a' ∧
      a.elems.Perm (x :: a'.elems) ∧ a'.size + 1 = a.size ∧
      ∀ j, j ≠ index → j + 1 < a.size → a'.elems[j]? = a.elems[j]?) ∧
    (a.size ≤ index → unstableRemove a index = .trap) := by
  constructor
  · intro x hx
    have hlen : a.elems.length = a.size := by unfold Arr.elems; rw [List.length_take]; omega
    have hi : index < a.size := by
      rcases Nat.lt_or_ge index a.size with h | h
      · exact h
      · rw [List.getElem?_eq_none (by omega)] at hx; cases hx
    have hget : a.data[a.size - 1]? = some a.data[a.size - 1] := List.getElem?_eq_getElem (by omega)
    refine ⟨{ data := a.data.set index a.data[a.size - 1], size := a.size - 1 }, ?_, ?_, by simp only; omega, ?_⟩
    · simp only [unstableRemove, if_pos hi, hget]
    · -- split off the last element
      obtain ⟨l, y, hl⟩ : ∃ l y, a.elems = l ++ [y] := by
        refine ⟨a.elems.dropLast, a.elems.getLast ?_, (List.dropLast_concat_getLast _).symm⟩
        intro h0; rw [h0] at hlen; simp at hlen; omega
      have hll : l.length = a.size - 1 := by
        have := congrArg List.length hl
        simp at this; omega
      have hlt : l = a.data.take (a.size - 1) := by
        have h1 : a.elems.take (a.size - 1) = l := by rw [hl, ← hll]; simp
        rw [← h1]; unfold Arr.elems; rw [List.take_take]; congr 1; omega
      have hy : y = a.data[a.size - 1] := by
        have h1 : a.elems[a.size - 1]? = some y := by rw [hl, ← hll]; simp
        unfold Arr.elems at h1
        rw [List.getElem?_take, if_pos (by omega), hget] at h1
        injection h1 with h1; exact h1.symm
      show a.elems.Perm (x :: (a.data.set index a.data[a.size - 1]).take (a.size - 1))
      rw [List.take_set, ← hlt, ← hy, hl]
      by_cases hil : index < l.length
      · have hxl : l[index] = x := by
          rw [hl, List.getElem?_append_left hil, List.getElem?_eq_getElem hil] at hx
          injection hx
        clear hlt hll hl hy hget hlen hi hcap
        have hperm : ∀ (l : List α) (i : Nat) (h : i < l.length) (y : α),
            (l ++ [y]).Perm (l[i] :: l.set i y) := by
          intro l
          induction l with
          | nil => intro i h; simp at h
          | cons b l ih =>
            intro i h y
            cases i with
            | zero =>
              simp only [List.cons_append, List.getElem_cons_zero, List.set_cons_zero]
              exact (List.perm_append_comm (l₁ := l) (l₂ := [y])).cons b
            | succ i =>
              simp only [List.cons_append, List.getElem_cons_succ, List.set_cons_succ]
              have h' : i < l.length := by simpa using h
              exact ((ih i h' y).cons b).trans (List.Perm.swap _ _ _)
        rw [← hxl]; exact hperm l index hil y
      · have : x = y := by
          rw [hl, List.getElem?_append_right (by omega), show index - l.length = 0 by omega] at hx
          simp at hx; exact hx.symm
        rw [List.set_eq_of_length_le (by omega), this]
        exact List.perm_append_comm
    · intro j hj hj2
      show ((a.data.set index a.data[a.size - 1]).take (a.size - 1))[j]? = (a.data.take a.size)[j]?
      rw [List.getElem?_take, List.getElem?_take, if_pos (by omega), if_pos (by omega),
        List.getElem?_set_ne (by omega)]
  · intro hi
    simp only [unstableRemove, if_neg (Nat.not_lt.mpr hi)]

theorem copyLoop_spec (src : List α) (size n i : Nat) (dest : List α) (h : i + n ≤ src.length)
    (h2 : i + n ≤ dest.length) :
    ∃ d, copyLoop src size n i dest = .ok d ∧ d.length = dest.length ∧
      ∀ j, d[j]? = if i ≤ j ∧ j < i + n then src[j]? else dest[j]? := by
  induction n generalizing i dest with
  | zero =>
    refine ⟨dest, rfl, rfl, ?_⟩
    intro j; rw [if_neg (by omega)]
  | succ n ih =>
    have hget : src[i]? = some src[i] := List.getElem?_eq_getElem (by omega)
    obtain ⟨d, h1, h3, h4⟩ := ih (i + 1) (dest.set i src[i]) (by omega) (by simp; omega)
    refine ⟨d, ?_, by simpa using h3, ?_⟩
    · simp only [copyLoop, hget, if_pos (show i < dest.length by omega)]; exact h1
    · intro j
      rw [h4 j]
      by_cases hj : j = i
      · subst hj
        rw [if_neg (by omega), if_pos (by omega), List.getElem?_set_self (by omega), hget]
      · by_cases hin : i + 1 ≤ j ∧ j < i + 1 + n
        · rw [if_pos hin, if_pos (by omega)]
        · rw [if_neg hin, if_neg (by omega), List.getElem?_set_ne (by omega)]

/-- C24, copies: a deep copy has the same elements. -/
theorem C24_deep_copy (a : Arr α) (fresh : List α) (hcap : a.size ≤ a.data.length)
    (hf : fresh.length = a.size) :
    ∃ c, deepCopy a fresh = .ok c ∧ c.elems = a.elems := by
  obtain ⟨d, h1, h2, h3⟩ := copyLoop_spec a.data a.size a.size 0 fresh (by omega) (by omega)
  refine ⟨{ data := d, size := a.size }, by simp [deepCopy, h1], ?_⟩
  apply List.ext_getElem?
  intro j
  show (d.take a.size)[j]? = (a.data.take a.size)[j]?
  rw [List.getElem?_take, List.getElem?_take, h3 j]
  split
  · rw [if_pos (by omega)]
  · rfl

/-- Non-vacuity. -/
example : stableRemove ⟨[1, 2, 3, 4, 99], 4⟩ 1 = .ok ⟨[1, 3, 4, 4, 99], 3⟩ := by decide +kernel
example : unstableRemove ⟨[1, 2, 3, 4, 99], 4⟩ 1 = .ok ⟨[1, 4, 3, 4, 99], 3⟩ := by decide +kernel
example : (⟨[1, 2, 3, 4, 99], 4⟩ : Arr Nat).size ≤ [1, 2, 3, 4, 99].length := by decide

end Clr.CArray
