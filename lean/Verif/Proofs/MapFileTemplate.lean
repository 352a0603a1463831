import Verif.Proofs.MapFileName

/-!
Lemmas for C63: the name in a signature with one list of template arguments.
-/
namespace Clr.Map

open Clr.DB Clr.FileUtils

/-- Nothing but the first character of the base is an `r`. -/
theorem findRandom_count {sig : Bytes} {rand : Nat → Nat} : ∀ (fuel k : Nat) (res : Bytes),
    (findRandom sig rand fuel k res).count 114 = res.count 114
  | 0, k, res => rfl
  | fuel + 1, k, res => by
    rw [findRandom]
    split
    · rw [findRandom_count, List.count_append]
      have h : ∀ k < 10, List.count (114 : UInt8) [UInt8.ofNat (48 + k)] = 0 := by decide
      rw [h _ (Nat.mod_lt _ (by decide)), Nat.add_zero]
    · rfl

/-- The base is `r` and characters that are no `r`. -/
theorem base_head (sig : Bytes) (rand : Nat → Nat) : ∃ t, findRandom sig rand (sig.length + 1) 0 b!"r?An_D" = 114 :: t ∧ (114 : UInt8) ∉ t := by
  obtain ⟨t, ht⟩ := (base_spec sig rand).head
  refine ⟨b!"?An_D" ++ t, by rw [← ht]; rfl, ?_⟩
  have h := findRandom_count (sig := sig) (rand := rand) (sig.length + 1) 0 b!"r?An_D"
  rw [← ht, show b!"r?An_D" ++ t = 114 :: (b!"?An_D" ++ t) from rfl, List.count_cons_self,
    show List.count (114 : UInt8) b!"r?An_D" = 1 from by decide] at h
  exact List.count_eq_zero.mp (by omega)

/-- Where a word that begins with `c` and has no second `c` is, it is not begun before. -/
theorem no_overlap {c : UInt8} {u a v : Bytes} {i : Nat} (hu : c ∉ u) (hi : i < a.length) (ha : ∀ i, ¬ OccursAt (c :: u) a i) :
    ¬ OccursAt (c :: u) (a ++ c :: v) i := by
  rintro ⟨x, y, hxy, rfl⟩
  rcases Nat.lt_or_ge a.length (x.length + (c :: u).length) with h | h
  · -- the `c` at the end of `a` is in `u`
    have h1 : (a ++ c :: v)[a.length]? = some c := by simp
    rw [hxy, List.append_assoc, List.getElem?_append_right (by omega), List.getElem?_append_left (by omega)] at h1
    obtain ⟨k, hk⟩ : ∃ k, a.length - x.length = k + 1 := ⟨a.length - x.length - 1, by omega⟩
    rw [hk, List.getElem?_cons_succ] at h1
    exact hu (List.mem_of_getElem? h1)
  · have h1 := congrArg (List.take a.length) hxy
    rw [List.take_left, List.take_append, List.take_of_length_le (by rw [List.length_append]; omega)] at h1
    exact ha x.length ⟨x, _, h1, rfl⟩

/-- An only occurrence is replaced. -/
theorem replaceAll_one {a pat b w : Bytes} (hp : pat ≠ []) (h1 : ∀ i < a.length, ¬ OccursAt pat (a ++ pat ++ b) i) (h2 : ∀ i, ¬ OccursAt pat b i) :
    replaceAll (a ++ pat ++ b) pat w = a ++ w ++ b :=
  C52_spec_deterministic _ _ _ _ _ (replaceAll_spec hp) (.step h1 (.done h2))

theorem occurs_mem {c : UInt8} {p s : Bytes} {i : Nat} (h : OccursAt (c :: p) s i) : c ∈ s := by
  obtain ⟨a, b, rfl, _⟩ := h
  simp

/-- There is no such character behind. -/
theorem rfind_char {c : UInt8} {a b : Bytes} (hb : c ∉ b) : ∀ k, a.length ≤ k → k ≤ (a ++ c :: b).length → rfind (a ++ c :: b) [c] k = some a.length
  | k, hk, hlt => by
    have hat : (a ++ c :: b).drop a.length = c :: b := List.drop_left
    by_cases he : k = a.length
    · subst he
      cases hc : a.length with
      | zero => rw [hc, List.drop_zero] at hat; rw [rfind, hat, if_pos (by simp [List.isPrefixOf])]
      | succ n => rw [hc] at hat; rw [rfind, hat, if_pos (by simp [List.isPrefixOf])]
    · obtain ⟨n, rfl⟩ : ∃ n, k = n + 1 := ⟨k - 1, by omega⟩
      have hne : ¬ ([c]).isPrefixOf ((a ++ c :: b).drop (n + 1)) = true := by
        intro h
        obtain ⟨t, ht⟩ := List.isPrefixOf_iff_prefix.mp h
        have : n + 1 = a.length + ((n - a.length) + 1) := by omega
        rw [this, ← List.drop_drop, hat, List.drop_succ_cons] at ht
        have : c ∈ b.drop (n - a.length) := by rw [← ht]; simp
        exact hb (List.mem_of_mem_drop this)
      rw [rfind, if_neg hne]
      exact rfind_char hb n (by omega) (by omega)

theorem replacePattern_absent {base left right : Bytes} {s : Repl} (fuel : Nat) (h : ∀ i, ¬ OccursAt left s.1 i) :
    replacePattern base left right (fuel + 1) none s = s := by
  rw [replacePattern, Option.getD_none, rfind_none h _ (Nat.le_refl _)]

/-- One list of template arguments is replaced. -/
theorem replacePattern_one {base a t b : Bytes} {st : List (Bytes × Bytes)} (fuel : Nat) (hb : ∀ c ∈ base, IsRepl c) (ha : (60 : UInt8) ∉ a) (ht : (60 : UInt8) ∉ t)
    (hbb : (60 : UInt8) ∉ b) (ht2 : (62 : UInt8) ∉ t) :
    replacePattern base b!"<" b!">" (fuel + 2) none (a ++ (b!"<" ++ t ++ b!">") ++ b, st) =
      (a ++ (base ++ itoa (UInt32.ofNat st.length)) ++ b, (b!"<" ++ t ++ b!">", base ++ itoa (UInt32.ofNat st.length)) :: st) := by
  have e : a ++ (b!"<" ++ t ++ b!">") ++ b = a ++ 60 :: (t ++ 62 :: b) := by simp
  have h1 : rfind (a ++ (b!"<" ++ t ++ b!">") ++ b) b!"<" (a ++ (b!"<" ++ t ++ b!">") ++ b).length = some a.length := by
    rw [e]
    exact rfind_char (by simp; exact ⟨ht, hbb⟩) _ (by simp) (Nat.le_refl _)
  have h2 : find (a ++ (b!"<" ++ t ++ b!">") ++ b) b!">" (a.length + (b!"<").length) = some (a.length + 1 + t.length) := by
    have e2 : a ++ (b!"<" ++ t ++ b!">") ++ b = (a ++ [60]) ++ (t ++ 62 :: b) := by simp
    have := find_char_from (p := a ++ [60]) (b := b) ht2
    rw [e2]
    simpa using this
  have h3 : (((a ++ (b!"<" ++ t ++ b!">") ++ b)).drop a.length).take (a.length + 1 + t.length + (b!">").length - a.length) = b!"<" ++ t ++ b!">" := by
    rw [List.append_assoc, List.drop_left]
    have : a.length + 1 + t.length + (b!">").length - a.length = (b!"<" ++ t ++ b!">").length := by simp; omega
    rw [this, List.take_left]
  have hw : (60 : UInt8) ∉ base ++ itoa (UInt32.ofNat st.length) := by
    intro hc
    rcases List.mem_append.mp hc with h | h
    · exact (repl_not (hb _ h)).2.2.2 rfl
    · exact (repl_not (itoa_repl _ _ h)).2.2.2 rfl
  have h4 : replaceOccurence base (b!"<" ++ t ++ b!">") (a ++ (b!"<" ++ t ++ b!">") ++ b, st) =
      (a ++ (base ++ itoa (UInt32.ofNat st.length)) ++ b, (b!"<" ++ t ++ b!">", base ++ itoa (UInt32.ofNat st.length)) :: st) := by
    rw [replaceOccurence]
    dsimp only
    rw [replaceAll_one (by simp)]
    · rintro i hi ⟨x, y, hxy, rfl⟩
      have h5 : (a ++ (b!"<" ++ t ++ b!">") ++ b)[x.length]? = some 60 := by rw [hxy]; simp
      rw [List.append_assoc, List.getElem?_append_left hi] at h5
      exact ha (List.mem_of_getElem? h5)
    · intro i hi
      exact hbb (occurs_mem (p := t ++ b!">") hi)
  rw [show fuel + 2 = (fuel + 1) + 1 from rfl, replacePattern, Option.getD_none, h1]
  dsimp only
  rw [h2]
  dsimp only
  rw [h3, h4, replacePattern]
  have h5 : ∀ i, ¬ OccursAt b!"<" (a ++ (base ++ itoa (UInt32.ofNat st.length)) ++ b) i := by
    intro i hi
    have := occurs_mem (p := []) hi
    rcases List.mem_append.mp this with h | h
    · rcases List.mem_append.mp h with h | h
      · exact ha h
      · exact hw h
    · exact hbb h
  dsimp only
  rw [rfind_none h5]
  split
  · simp
  · simp; omega

/-- The signature once everything is replaced. -/
theorem parse_template (rand : Nat → Nat) {a t b rest : Bytes} (ha : (60 : UInt8) ∉ a) (ht : (60 : UInt8) ∉ t) (hb : (60 : UInt8) ∉ b) (hr : (60 : UInt8) ∉ rest)
    (ht2 : (62 : UInt8) ∉ t)
    (h1 : ∀ i, ¬ OccursAt b!"&(" (a ++ (b!"<" ++ t ++ b!">") ++ (b ++ b!"(" ++ rest)) i)
    (h2 : ∀ i, ¬ OccursAt b!"(*)(" (a ++ (b!"<" ++ t ++ b!">") ++ (b ++ b!"(" ++ rest)) i)
    (h3 : ∀ i, ¬ OccursAt b!"(anonymous namespace)" (a ++ (b!"<" ++ t ++ b!">") ++ (b ++ b!"(" ++ rest)) i) :
    ∃ base u, IsBase base (a ++ (b!"<" ++ t ++ b!">") ++ (b ++ b!"(" ++ rest)) ∧ base = 114 :: u ∧ (114 : UInt8) ∉ u ∧
      parseFunctionName rand (a ++ (b!"<" ++ t ++ b!">") ++ (b ++ b!"(" ++ rest)) =
        restore [(b!"<" ++ t ++ b!">", base ++ itoa 1), (b!"(anonymous namespace)", base ++ itoa 0)]
          (cutName (a ++ (base ++ itoa 1) ++ (b ++ b!"(" ++ rest))) := by
  generalize hs : a ++ (b!"<" ++ t ++ b!">") ++ (b ++ b!"(" ++ rest) = sig at h1 h2 h3
  obtain ⟨u, hu, hu2⟩ := base_head sig rand
  have hbase := base_spec sig rand
  generalize hb0 : findRandom sig rand (sig.length + 1) 0 b!"r?An_D" = base at hu hbase
  refine ⟨base, u, hbase, hu, hu2, ?_⟩
  have hlen : ∃ n, sig.length + 1 = n + 2 := ⟨sig.length - 1, by rw [← hs]; simp; omega⟩
  obtain ⟨n, hn⟩ := hlen
  have e1 : replaceOccurence base b!"(anonymous namespace)" (sig, []) = (sig, [(b!"(anonymous namespace)", base ++ itoa 0)]) := by
    rw [replaceOccurence]
    dsimp only
    rw [replaceAll_none (by decide) h3]
    rfl
  have e2 : replacePattern base b!"&(" b!"))" (n + 2) none (sig, [(b!"(anonymous namespace)", base ++ itoa 0)]) = _ := replacePattern_absent (n + 1) h1
  have e3 : replacePattern base b!"(*)(" b!")" (n + 2) none (sig, [(b!"(anonymous namespace)", base ++ itoa 0)]) = _ := replacePattern_absent (n + 1) h2
  rw [parseFunctionName, parseWith, hb0, e1, hn, e2, e3, ← hs, replacePattern_one n hbase.chars ha ht (by simp; exact ⟨hb, hr⟩) ht2]
  rfl

/-- What was replaced is put back. -/
theorem restore_one {base u a t b x y : Bytes} (hb : IsBase base (x ++ a ++ (b!"<" ++ t ++ b!">") ++ b ++ y)) (hu : base = 114 :: u) (hu2 : (114 : UInt8) ∉ u) :
    restore [(b!"<" ++ t ++ b!">", base ++ itoa 1), (b!"(anonymous namespace)", base ++ itoa 0)] (a ++ (base ++ itoa 1) ++ b) = a ++ (b!"<" ++ t ++ b!">") ++ b := by
  have hw1 : base ++ itoa 1 ≠ [] := by rw [hu]; simp
  have hw0 : base ++ itoa 0 ≠ [] := by rw [hu]; simp
  have hxa : ∀ i, ¬ OccursAt base a i := by
    intro i hi
    have := occurs_mid hi (x := x) (y := (b!"<" ++ t ++ b!">") ++ b ++ y)
    exact hb.absent _ (by simpa using this)
  have hxb : ∀ i, ¬ OccursAt base b i := by
    intro i hi
    have := occurs_mid hi (x := x ++ a ++ (b!"<" ++ t ++ b!">")) (y := y)
    exact hb.absent _ this
  rw [restore, replaceAll_one hw1, restore, restore, replaceAll_none hw0]
  · intro i hi
    have := occurs_mid (occurs_left hi) (x := x) (y := y)
    exact hb.absent _ (by simpa using this)
  · intro i hi ho
    have ho := occurs_left ho
    rw [hu] at ho hxa
    have e : a ++ (114 :: u ++ itoa 1) ++ b = a ++ 114 :: (u ++ itoa 1 ++ b) := by simp
    rw [e] at ho
    exact no_overlap hu2 hi hxa ho
  · intro i hi
    exact hxb i (occurs_left hi)

end Clr.Map
