import Verif.Model.Types
/-!
Properties C21 (`DerivesFrom`) and C22 (`GetValueName`).
-/
namespace Clr.Types

/-- `b` is a direct or indirect base of `t`. -/
inductive IsBase (g : Graph) : Nat → Nat → Prop where
  | direct {t b : Nat} : b ∈ g.bases t → IsBase g t b
  | indirect {t m b : Nat} : m ∈ g.bases t → IsBase g m b → IsBase g t b

/-- An inheritance graph without cycles: every type can be given a depth larger than its bases'. -/
def Acyclic (g : Graph) (depth : Nat → Nat) : Prop := ∀ t b, b ∈ g.bases t → depth b < depth t

theorem upLoop_spec (rec : Nat → Option Bool) (P : Nat → Prop) (bs : List Nat)
    (hrec : ∀ b ∈ bs, ∃ r, rec b = some r ∧ (r = true ↔ P b)) :
    ∃ r, upLoop rec bs = some r ∧ (r = true ↔ ∃ m ∈ bs, P m) := by
  induction bs with
  | nil => exact ⟨false, rfl, by simp⟩
  | cons b bs ih =>
    rw [upLoop]
    obtain ⟨r, h1, h2⟩ := hrec b (by simp)
    rw [h1]
    cases r with
    | true =>
      refine ⟨true, rfl, ?_⟩
      simp only [true_iff]
      exact ⟨b, by simp, h2.mp rfl⟩
    | false =>
      obtain ⟨r, h3, h4⟩ := ih (fun b hb => hrec b (by simp [hb]))
      refine ⟨r, h3, ?_⟩
      rw [h4]
      constructor
      · rintro ⟨m, hm, hx⟩; exact ⟨m, by simp [hm], hx⟩
      · rintro ⟨m, hm, hx⟩
        rcases List.mem_cons.mp hm with rfl | hm
        · exact absurd (h2.mpr hx) (by simp)
        · exact ⟨m, hm, hx⟩

theorem derivesFrom_spec (g : Graph) (depth : Nat → Nat) (hac : Acyclic g depth) (h : UInt32)
    (fuel t : Nat) (hlt : depth t < fuel) :
      ∃ r, derivesFrom g h fuel t = some r ∧ (r = true ↔ ∃ b, IsBase g t b ∧ g.hash b = h) := by
  induction fuel generalizing t with
  | zero => omega
  | succ fuel ih =>
    rw [derivesFrom]
    by_cases hany : (g.bases t).any (fun b => g.hash b == h) = true
    · rw [if_pos hany]
      refine ⟨true, rfl, ?_⟩
      simp only [true_iff]
      obtain ⟨b, hb, he⟩ := List.any_eq_true.mp hany
      exact ⟨b, .direct hb, by simpa using he⟩
    · rw [if_neg hany]
      obtain ⟨r, h1, h2⟩ := upLoop_spec (derivesFrom g h fuel)
        (fun m => ∃ b, IsBase g m b ∧ g.hash b = h) (g.bases t)
        (fun b hb => ih b (by have := hac t b hb; omega))
      refine ⟨r, h1, ?_⟩
      rw [h2]
      constructor
      · rintro ⟨m, hm, b, hb, he⟩
        exact ⟨b, .indirect hm hb, he⟩
      · rintro ⟨b, hb, he⟩
        cases hb with
        | direct hb => exact absurd (List.any_eq_true.mpr ⟨b, hb, by simpa using he⟩) hany
        | indirect hm hb => exact ⟨_, hm, b, hb, he⟩

/-- C21: on every hierarchy without cycles the query returns, and answers true exactly when a direct or
indirect base has the hash. -/
theorem C21_derives_from_exact (g : Graph) (depth : Nat → Nat) (hac : Acyclic g depth) (t : Nat)
    (h : UInt32) :
    ∃ N, ∀ fuel, N ≤ fuel → ∃ r, derivesFrom g h fuel t = some r ∧
      (r = true ↔ ∃ b, IsBase g t b ∧ g.hash b = h) :=
  ⟨depth t + 1, fun fuel hf => derivesFrom_spec g depth hac h fuel t (by omega)⟩

/-- C21: on every acyclic hierarchy a type does not derive from itself unless it shares its name's hash
with a base. -/
theorem C21_not_its_own_base (g : Graph) (depth : Nat → Nat) (hac : Acyclic g depth) (t : Nat)
    (hu : ∀ b, g.hash b = g.hash t → b = t) :
    ∃ N, ∀ fuel, N ≤ fuel → derivesFrom g (g.hash t) fuel t = some false := by
  obtain ⟨N, hN⟩ := C21_derives_from_exact g depth hac t (g.hash t)
  refine ⟨N, fun fuel hf => ?_⟩
  obtain ⟨r, h1, h2⟩ := hN fuel hf
  have hlt : ∀ t b, IsBase g t b → depth b < depth t := by
    intro t b hb
    induction hb with
    | direct hm => exact hac _ _ hm
    | indirect hm _ ih => exact Nat.lt_trans ih (hac _ _ hm)
  cases r with
  | false => exact h1
  | true =>
    obtain ⟨b, hb, he⟩ := h2.mp rfl
    have := hlt t b hb
    rw [hu b he] at this
    omega

/-- Non-vacuity: a diamond `3 → {1, 2} → 0`. -/
def diamond : Graph :=
  { hash := fun n => UInt32.ofNat (100 + n)
    bases := fun n => match n with | 3 => [1, 2] | 2 => [0] | 1 => [0] | _ => [] }
example : Acyclic diamond id := by
  intro t b hb
  simp only [diamond] at hb
  split at hb <;> simp at hb <;> simp <;> omega
example : derivesFrom diamond 100 4 3 = some true ∧ derivesFrom diamond 103 4 3 = some false := by
  decide +kernel

/-- C22: the name returned belongs to a constant of that value, namely the first one; null is returned
exactly when no constant has the value. -/
theorem C22_value_name (cs : List EnumConst) (v : Int32) :
    (∀ n, getValueName cs v = some n ↔
      ∃ (i : Nat) (c : EnumConst), cs[i]? = some c ∧ c.value = v ∧ c.name = n ∧
        ∀ (j : Nat) (d : EnumConst), j < i → cs[j]? = some d → d.value ≠ v) ∧
    (getValueName cs v = none ↔ ∀ c ∈ cs, c.value ≠ v) := by
  induction cs with
  | nil => simp [getValueName]
  | cons c cs ih =>
    by_cases hc : c.value = v
    · have hg : getValueName (c :: cs) v = some c.name := by simp [getValueName, hc]
      constructor
      · intro n
        rw [hg]
        constructor
        · intro h
          injection h with h
          exact ⟨0, c, rfl, hc, h, fun j d hj => absurd hj (Nat.not_lt_zero _)⟩
        · rintro ⟨i, d, h1, h2, h3, h4⟩
          cases i with
          | zero => simp only [List.getElem?_cons_zero, Option.some.injEq] at h1; rw [h1, h3]
          | succ i => exact absurd hc (h4 0 c (by omega) rfl)
      · rw [hg]
        constructor
        · intro h; cases h
        · intro h; exact absurd hc (h c (by simp))
    · have hg : getValueName (c :: cs) v = getValueName cs v := by simp [getValueName, hc]
      constructor
      · intro n
        rw [hg, ih.1 n]
        constructor
        · rintro ⟨i, d, h1, h2, h3, h4⟩
          refine ⟨i + 1, d, h1, h2, h3, ?_⟩
          intro j e hj he
          cases j with
          | zero => simp only [List.getElem?_cons_zero, Option.some.injEq] at he; rw [← he]; exact hc
          | succ j => exact h4 j e (by omega) he
        · rintro ⟨i, d, h1, h2, h3, h4⟩
          cases i with
          | zero =>
            simp only [List.getElem?_cons_zero, Option.some.injEq] at h1
            exact absurd (h1 ▸ h2) hc
          | succ i =>
            exact ⟨i, d, h1, h2, h3, fun j e hj he => h4 (j + 1) e (by omega) he⟩
      · rw [hg, ih.2]
        simp [hc]

/-- Non-vacuity. -/
example : getValueName [⟨b!"A", 1⟩, ⟨b!"B", -2⟩, ⟨b!"C", -2⟩] (-2) = some b!"B" := by decide +kernel
example : getValueName [⟨b!"A", 1⟩] 5 = none := by decide +kernel

end Clr.Types
