import Verif.Proofs.Search
/-
C01 Lookup by hash finds a primitive iff it is present.
C02 Overload lookup returns exactly the overloads.

A table is any list of entries with a 32-bit key; `SortedByKey` says it is in ascending key order
(what the exporter guarantees, C18).  All sizes up to 2^30 are covered: beyond that `first + last`
can overflow `int`, see `C01_search_overflow_above_bound`.
-/
namespace Clr.Search

/-- Specification: ascending by key, duplicates allowed. -/
def SortedByKey {α : Type} (key : α → UInt32) (es : List α) : Prop :=
  es.Pairwise (fun a b => key a ≤ key b)

/-- C01: a lookup succeeds (no assertion, no undefined behaviour, it terminates); it yields an entry
of the table carrying the hash if there is one, and null iff there is none. -/
theorem C01_lookup_exact {α : Type} (es : List α) (key : α → UInt32) (h : UInt32)
    (hsz : es.length ≤ 2 ^ 30) (hs : SortedByKey key es) :
    ∃ r, find es key h = .ok r ∧
      (∀ e, r = some e → e ∈ es ∧ key e = h) ∧
      (r = none ↔ ∀ e ∈ es, key e ≠ h) := by
  rcases binarySearch_correct es key h hsz hs with ⟨hb, hn⟩ | ⟨i, hi, hb, hk⟩
  · exact ⟨none, by simp [find, hb], by simp, by simpa using hn⟩
  · refine ⟨some es[i], ?_, ?_, ?_⟩
    · have : ¬ ((i : Int) = -1) := by omega
      simp [find, hb, this, at'_nat es i hi (by omega)]
    · intro e he
      simp only [Option.some.injEq] at he
      subst he
      exact ⟨List.getElem_mem hi, hk⟩
    · constructor
      · intro h; cases h
      · intro h; exact absurd hk (h _ (List.getElem_mem hi))

/-- C01: with unique keys the lookup returns the one entry that has the hash. -/
theorem C01_lookup_unique {α : Type} (es : List α) (key : α → UInt32) (e : α)
    (hsz : es.length ≤ 2 ^ 30) (hs : SortedByKey key es) (he : e ∈ es)
    (huniq : ∀ a ∈ es, key a = key e → a = e) : find es key (key e) = .ok (some e) := by
  obtain ⟨r, h1, h2, h3⟩ := C01_lookup_exact es key (key e) hsz hs
  cases r with
  | none => exact absurd rfl (h3.mp rfl e he)
  | some a => rw [h1, huniq a (h2 a rfl).1 (h2 a rfl).2]

/-- C01: memory safety and termination hold even for tables that are not sorted. -/
theorem C01_lookup_safe {α : Type} (es : List α) (key : α → UInt32) (h : UInt32)
    (hsz : es.length ≤ 2 ^ 30) : ∃ r, find es key h = .ok r := by
  have e : toInt32 (es.length + 2 ^ 32 - 1) = (es.length : Int) - 1 := by
    unfold toInt32; simp only; split <;> omega
  obtain ⟨r, hr, hb⟩ := bsLoop_safe es key h hsz 0 ((es.length : Int) - 1) (by omega) (by omega)
  have hr : binarySearch es key h = .ok r := by unfold binarySearch; rw [e]; exact hr
  rcases hb with hb | ⟨h0, hl⟩
  · exact ⟨none, by simp [find, hr, hb]⟩
  · obtain ⟨m, rfl⟩ : ∃ m : Nat, r = m := ⟨r.toNat, by omega⟩
    have : ¬ ((m : Int) = -1) := by omega
    exact ⟨some es[m], by simp [find, hr, this, at'_nat es m (by omega) (by omega)]⟩

/-- C02: an index lies in the returned range iff the entry there carries the hash. -/
theorem C02_overload_range_exact {α : Type} (es : List α) (key : α → UInt32) (h : UInt32)
    (hsz : es.length ≤ 2 ^ 30) (hs : SortedByKey key es) :
    ∃ r, findOverloaded es key h = .ok r ∧ r.last ≤ es.length ∧
      (∀ (i : Nat) (hi : i < es.length), (r.first ≤ i ∧ i < r.last) ↔ key es[i] = h) ∧
      (r.first = r.last ↔ ∀ e ∈ es, key e ≠ h) := by
  have hs' := List.pairwise_iff_getElem.mp hs
  rcases binarySearch_correct es key h hsz hs with ⟨hb, hn⟩ | ⟨i, hi, hb, hk⟩
  · refine ⟨⟨0, 0⟩, by simp [findOverloaded, hb], by simp, ?_, by simpa using hn⟩
    intro i hi
    have := hn _ (List.getElem_mem hi)
    simp [this]
  · obtain ⟨f, hf, hfi, f1, f2⟩ := widenDown_correct es key h (by omega) i (by omega)
    obtain ⟨l, hl, hli, hll, l1, l2⟩ := widenUp_correct es key h (by omega) (i + 1) (by omega)
    have hne : ¬ ((i : Int) = -1) := by omega
    refine ⟨⟨f, l⟩, ?_, hll, ?_, ?_⟩
    · simp [findOverloaded, hb, hne, searchNeighbours, hf, hl]
    · intro j hj
      constructor
      · rintro ⟨ha, hb'⟩
        simp only at ha hb'
        by_cases hji : j < i
        · exact f1 j hj ha hji
        · by_cases hje : j = i
          · subst hje; exact hk
          · exact l1 j hj (by omega) hb'
      · intro hkj
        constructor
        · show f ≤ j
          by_cases hcon : f ≤ j
          · exact hcon
          exfalso
          have hf1 : f - 1 < es.length := by omega
          have hle1 : key es[j] ≤ key es[f - 1] := by
            by_cases hj' : j = f - 1
            · subst hj'; exact UInt32.le_refl _
            · exact hs' j (f - 1) hj hf1 (by omega)
          have hle2 : key es[f - 1] ≤ key es[i] := hs' (f - 1) i hf1 hi (by omega)
          rw [hkj] at hle1
          rw [hk] at hle2
          exact f2 hf1 (by omega) (UInt32.le_antisymm hle2 hle1)
        · show j < l
          by_cases hcon : j < l
          · exact hcon
          exfalso
          have hl1 : l < es.length := by omega
          have hle1 : key es[l] ≤ key es[j] := by
            by_cases hj' : j = l
            · subst hj'; exact UInt32.le_refl _
            · exact hs' l j hl1 hj (by omega)
          have hle2 : key es[i] ≤ key es[l] := hs' i l hi hl1 (by omega)
          rw [hkj] at hle1
          rw [hk] at hle2
          exact l2 hl1 (UInt32.le_antisymm hle1 hle2)
    · constructor
      · intro h'; simp only at h'; omega
      · intro h'; exact absurd hk (h' _ (List.getElem_mem hi))

theorem overflow_loop (es : List UInt32) (L : Int) (hL : 2 * L > 2147483647) (hL2 : L < 2 ^ 32)
    (hlen : es.length = L + 1)
    (h0 : ∀ (i : Nat) (hi : i < es.length), es[i] = 0) (k : Nat) :
    ∀ first : Int, 0 ≤ first → first ≤ L → (L - first).toNat ≤ k → bsLoop es id 1 first L = .ub := by
  induction k with
  | zero =>
    intro first hf hfl hk
    unfold bsLoop
    rw [dif_pos hfl, if_pos (by omega)]
  | succ k ih =>
    intro first hf hfl hk
    unfold bsLoop
    rw [dif_pos hfl]
    split
    · rfl
    · rename_i hov
      have hm : Int.tdiv (first + L) 2 = (first + L) / 2 :=
        Int.tdiv_eq_ediv_of_nonneg (by omega)
      obtain ⟨m, hmid⟩ : ∃ m : Nat, (first + L) / 2 = (m : Int) :=
        ⟨((first + L) / 2).toNat, by omega⟩
      simp only [hm, hmid]
      rw [at'_nat es m (by omega) (by omega), h0 m (by omega)]
      simp only [id]
      rw [if_pos (by decide)]
      exact ih (m + 1) (by omega) (by omega) (by omega)

/-- C01, tightness of the size bound: with one entry more than 2^30 there is a sorted table and a
hash for which the search computes `first + last > INT_MAX`, which is undefined behaviour. -/
theorem C01_search_overflow_above_bound :
    ∃ (es : List UInt32) (h : UInt32), es.length = 2 ^ 30 + 1 ∧ SortedByKey id es ∧
      find es id h = .ub := by
  refine ⟨List.replicate (2 ^ 30 + 1) 0, 1, List.length_replicate, ?_, ?_⟩
  · unfold SortedByKey
    rw [List.pairwise_replicate]
    exact Or.inr (UInt32.le_refl _)
  · have e : toInt32 ((List.replicate (2 ^ 30 + 1) (0 : UInt32)).length + 2 ^ 32 - 1) = 2 ^ 30 := by
      rw [List.length_replicate]; decide +kernel
    have := overflow_loop (List.replicate (2 ^ 30 + 1) 0) (2 ^ 30) (by omega) (by omega)
      (by rw [List.length_replicate]; omega)
      (fun i hi => List.getElem_replicate _) _ 0 (by omega) (by omega) (Nat.le_refl _)
    unfold find binarySearch
    rw [e, this]
    rfl

/-- Non-vacuity: a table with a run of duplicates. -/
example : SortedByKey id [1, 5, 5, 5, 9] := by unfold SortedByKey; decide +kernel
example : find [1, 5, 5, 5, 9] id 9 = .ok (some 9) := by decide +kernel
example : find [1, 5, 5, 5, 9] id 4 = .ok none := by decide +kernel
example : findOverloaded [1, 5, 5, 5, 9] id 5 = .ok ⟨1, 4⟩ := by decide +kernel

end Clr.Search
