import Verif.Model.Search
namespace Clr.Search

theorem at'_nat {α : Type} (es : List α) (i : Nat) (h : i < es.length) (hs : es.length < 2 ^ 32) :
    at' es (i : Int) = .ok es[i] := by
  unfold at'
  have : ((i : Int) % 2 ^ 32).toNat = i := by omega
  rw [this, List.getElem?_eq_getElem h]

theorem bsLoop_correct {α : Type} (es : List α) (key : α → UInt32) (h : UInt32)
    (hsz : es.length ≤ 2 ^ 30)
    (hsort : es.Pairwise (fun a b => key a ≤ key b))
    (first last : Int) (h0 : 0 ≤ first) (hl : last < es.length)
    (hlo : ∀ (i : Nat) (hi : i < es.length), (i : Int) < first → key es[i] < h)
    (hhi : ∀ (i : Nat) (hi : i < es.length), last < (i : Int) → h < key es[i]) :
    (bsLoop es key h first last = .ok (-1) ∧ ∀ e ∈ es, key e ≠ h) ∨
    (∃ (i : Nat) (hi : i < es.length), bsLoop es key h first last = .ok (i : Int) ∧ key es[i] = h) := by
  fun_induction bsLoop es key h first last with
  | case1 first last hfl hov =>
    exfalso
    omega
  | case2 first last hfl hov mid e he hlt ih =>
    have hm : mid = (first + last) / 2 := Int.tdiv_eq_ediv_of_nonneg (by omega)
    obtain ⟨m, hmid⟩ : ∃ m : Nat, mid = m := ⟨mid.toNat, by omega⟩
    have hmlt : m < es.length := by omega
    rw [hmid, at'_nat es m hmlt (by omega)] at he
    have he : es[m] = e := by simpa using he
    apply ih (by omega) hl
    · intro i hi hlt'
      by_cases him : i = m
      · subst him; rw [he]; exact hlt
      · have : i < m := by omega
        have := List.pairwise_iff_getElem.mp hsort i m hi hmlt this
        rw [he] at this
        exact UInt32.lt_of_le_of_lt this hlt
    · exact hhi
  | case3 first last hfl hov mid e he hnlt hlt ih =>
    have hm : mid = (first + last) / 2 := Int.tdiv_eq_ediv_of_nonneg (by omega)
    obtain ⟨m, hmid⟩ : ∃ m : Nat, mid = m := ⟨mid.toNat, by omega⟩
    have hmlt : m < es.length := by omega
    rw [hmid, at'_nat es m hmlt (by omega)] at he
    have he : es[m] = e := by simpa using he
    apply ih h0 (by omega)
    · exact hlo
    · intro i hi hlt'
      by_cases him : i = m
      · subst him; rw [he]; exact hlt
      · have : m < i := by omega
        have := List.pairwise_iff_getElem.mp hsort m i hmlt hi this
        rw [he] at this
        exact UInt32.lt_of_lt_of_le hlt this
  | case4 first last hfl hov mid e he hnlt hnlt' =>
    have hm : mid = (first + last) / 2 := Int.tdiv_eq_ediv_of_nonneg (by omega)
    obtain ⟨m, hmid⟩ : ∃ m : Nat, mid = m := ⟨mid.toNat, by omega⟩
    have hmlt : m < es.length := by omega
    rw [hmid, at'_nat es m hmlt (by omega)] at he
    have he : es[m] = e := by simpa using he
    refine Or.inr ⟨m, hmlt, by rw [hmid], ?_⟩
    rw [he]
    exact UInt32.le_antisymm (UInt32.not_lt.mp hnlt') (UInt32.not_lt.mp hnlt)
  | case5 first last hfl hov mid he =>
    exfalso
    have hm : mid = (first + last) / 2 := Int.tdiv_eq_ediv_of_nonneg (by omega)
    obtain ⟨m, hmid⟩ : ∃ m : Nat, mid = m := ⟨mid.toNat, by omega⟩
    rw [hmid, at'_nat es m (by omega) (by omega)] at he
    cases he
  | case6 first last hfl hov mid he =>
    exfalso
    have hm : mid = (first + last) / 2 := Int.tdiv_eq_ediv_of_nonneg (by omega)
    obtain ⟨m, hmid⟩ : ∃ m : Nat, mid = m := ⟨mid.toNat, by omega⟩
    rw [hmid, at'_nat es m (by omega) (by omega)] at he
    cases he
  | case7 first last hfl =>
    refine Or.inl ⟨rfl, ?_⟩
    intro e he hk
    obtain ⟨i, hi, rfl⟩ := List.getElem_of_mem he
    by_cases hif : (i : Int) < first
    · have := hlo i hi hif
      rw [hk] at this
      exact UInt32.lt_irrefl _ this
    · have := hhi i hi (by omega)
      rw [hk] at this
      exact UInt32.lt_irrefl _ this

theorem binarySearch_correct {α : Type} (es : List α) (key : α → UInt32) (h : UInt32)
    (hsz : es.length ≤ 2 ^ 30) (hsort : es.Pairwise (fun a b => key a ≤ key b)) :
    (binarySearch es key h = .ok (-1) ∧ ∀ e ∈ es, key e ≠ h) ∨
    (∃ (i : Nat) (hi : i < es.length), binarySearch es key h = .ok (i : Int) ∧ key es[i] = h) := by
  unfold binarySearch
  have e : toInt32 (es.length + 2 ^ 32 - 1) = (es.length : Int) - 1 := by
    unfold toInt32
    simp only
    split <;> omega
  rw [e]
  apply bsLoop_correct es key h hsz hsort
  · omega
  · omega
  · intro i hi h'; omega
  · intro i hi h'; omega

/-- Safety does not need sortedness. -/
theorem bsLoop_safe {α : Type} (es : List α) (key : α → UInt32) (h : UInt32)
    (hsz : es.length ≤ 2 ^ 30) (first last : Int) (h0 : 0 ≤ first) (hl : last < es.length) :
    ∃ r, bsLoop es key h first last = .ok r ∧ (r = -1 ∨ (0 ≤ r ∧ r < es.length)) := by
  fun_induction bsLoop es key h first last with
  | case1 first last hfl hov => exfalso; omega
  | case2 first last hfl hov mid e he hlt ih =>
    have hm : mid = (first + last) / 2 := Int.tdiv_eq_ediv_of_nonneg (by omega)
    exact ih (by omega) hl
  | case3 first last hfl hov mid e he hnlt hlt ih =>
    have hm : mid = (first + last) / 2 := Int.tdiv_eq_ediv_of_nonneg (by omega)
    exact ih h0 (by omega)
  | case4 first last hfl hov mid e he hnlt hnlt' =>
    have hm : mid = (first + last) / 2 := Int.tdiv_eq_ediv_of_nonneg (by omega)
    exact ⟨mid, rfl, Or.inr ⟨by omega, by omega⟩⟩
  | case5 first last hfl hov mid he =>
    exfalso
    have hm : mid = (first + last) / 2 := Int.tdiv_eq_ediv_of_nonneg (by omega)
    obtain ⟨m, hmid⟩ : ∃ m : Nat, mid = m := ⟨mid.toNat, by omega⟩
    rw [hmid, at'_nat es m (by omega) (by omega)] at he
    cases he
  | case6 first last hfl hov mid he =>
    exfalso
    have hm : mid = (first + last) / 2 := Int.tdiv_eq_ediv_of_nonneg (by omega)
    obtain ⟨m, hmid⟩ : ∃ m : Nat, mid = m := ⟨mid.toNat, by omega⟩
    rw [hmid, at'_nat es m (by omega) (by omega)] at he
    cases he
  | case7 first last hfl => exact ⟨-1, rfl, Or.inl rfl⟩

theorem widenDown_correct {α : Type} (es : List α) (key : α → UInt32) (h : UInt32)
    (hs : es.length < 2 ^ 32) (n : Nat) (hn : n ≤ es.length) :
    ∃ f, widenDown es key h n = .ok f ∧ f ≤ n ∧
      (∀ (i : Nat) (hi : i < es.length), f ≤ i → i < n → key es[i] = h) ∧
      (∀ hf : f - 1 < es.length, 0 < f → key es[f - 1] ≠ h) := by
  induction n with
  | zero => exact ⟨0, rfl, by omega, by intros; omega, by intros; omega⟩
  | succ n ih =>
    have hlt : n < es.length := by omega
    obtain ⟨f, hf, hfn, h1, h2⟩ := ih (by omega)
    by_cases hk : key es[n] = h
    · refine ⟨f, ?_, by omega, ?_, h2⟩
      · simp [widenDown, at'_nat es n hlt hs, hk, hf]
      · intro i hi hfi hin
        by_cases hi' : i = n
        · subst hi'; exact hk
        · exact h1 i hi hfi (by omega)
    · refine ⟨n + 1, ?_, by omega, by intros; omega, ?_⟩
      · simp [widenDown, at'_nat es n hlt hs, hk]
      · intro _ _; simpa using hk

theorem widenUp_correct {α : Type} (es : List α) (key : α → UInt32) (h : UInt32)
    (hs : es.length < 2 ^ 32) (n : Nat) (hn : n ≤ es.length) :
    ∃ l, widenUp es key h n = .ok l ∧ n ≤ l ∧ l ≤ es.length ∧
      (∀ (i : Nat) (hi : i < es.length), n ≤ i → i < l → key es[i] = h) ∧
      (∀ hl : l < es.length, key es[l] ≠ h) := by
  fun_induction widenUp es key h n with
  | case1 n hlt e he hk ih =>
    obtain ⟨l, h1, h2, h3, h4, h5⟩ := ih (by omega)
    rw [at'_nat es n hlt hs] at he
    have he : es[n] = e := by simpa using he
    refine ⟨l, h1, by omega, h3, ?_, h5⟩
    intro i hi hni hil
    by_cases hin : i = n
    · subst hin; rw [he]; exact hk
    · exact h4 i hi (by omega) hil
  | case2 n hlt e he hk =>
    rw [at'_nat es n hlt hs] at he
    have he : es[n] = e := by simpa using he
    exact ⟨n, rfl, by omega, hn, by intros; omega, by intro _; rw [he]; exact hk⟩
  | case3 n hlt he => rw [at'_nat es n hlt hs] at he; cases he
  | case4 n hlt he => rw [at'_nat es n hlt hs] at he; cases he
  | case5 n hlt => exact ⟨n, rfl, by omega, hn, by intros; omega, by intro h; omega⟩

end Clr.Search
