import Verif.Model.JSON
import Verif.Proofs.JSONReads

/-! Lemmas about saving and loading enums. -/
namespace Clr.JSON

/-- Everything or-ed together. -/
def orAll : List (BitVec 32) → BitVec 32
  | [] => 0
  | v :: vs => v ||| orAll vs

/-- The constants whose names `flagNames` lists. -/
def picks : List Const → BitVec 32 → List Const
  | [], _ => []
  | c :: cs, v =>
    if v &&& c.value != 0 then
      c :: (if v &&& ~~~c.value = 0 then [] else picks cs (v &&& ~~~c.value))
    else picks cs v

theorem flagNames_eq (cs : List Const) (v : BitVec 32) : flagNames cs v = (picks cs v).map Const.name := by
  induction cs generalizing v with
  | nil => rfl
  | cons c cs ih =>
    unfold flagNames picks
    split
    · split
      · simp
      · simp [ih]
    · exact ih v

theorem bit_of_ne_zero {v : BitVec 32} (h : v ≠ 0) : ∃ i, v.getLsbD i = true := by
  apply Classical.byContradiction
  intro hc
  apply h
  apply BitVec.eq_of_getLsbD_eq
  intro i _
  cases hb : v.getLsbD i with
  | false => simp
  | true => exact absurd ⟨i, hb⟩ hc

theorem ne_zero_of_bit {v : BitVec 32} {i : Nat} (h : v.getLsbD i = true) : v ≠ 0 := by
  rintro rfl; simp at h

theorem picks_mem (cs : List Const) (v : BitVec 32) : ∀ c ∈ picks cs v, c ∈ cs ∧ v &&& c.value ≠ 0 := by
  induction cs generalizing v with
  | nil => simp [picks]
  | cons c cs ih =>
    unfold picks
    split
    · rename_i hc
      intro d hd
      rcases List.mem_cons.1 hd with rfl | hd
      · exact ⟨by simp, by simpa using hc⟩
      · split at hd
        · simp at hd
        · obtain ⟨h1, h2⟩ := ih _ d hd
          refine ⟨by simp [h1], ?_⟩
          obtain ⟨i, hi⟩ := bit_of_ne_zero h2
          simp only [BitVec.getLsbD_and, BitVec.getLsbD_not] at hi
          apply ne_zero_of_bit (i := i)
          simp only [BitVec.getLsbD_and]
          revert hi
          cases v.getLsbD i <;> cases d.value.getLsbD i <;> simp
    · intro d hd
      obtain ⟨h1, h2⟩ := ih v d hd
      exact ⟨by simp [h1], h2⟩

theorem orAll_bit (vs : List (BitVec 32)) (i : Nat) :
    (orAll vs).getLsbD i = true ↔ ∃ v ∈ vs, v.getLsbD i = true := by
  induction vs with
  | nil => simp [orAll]
  | cons v vs ih => simp [orAll, ih]

/-- Every bit that some constant has is in a constant picked. -/
theorem picks_cover (cs : List Const) (v : BitVec 32) (i : Nat) (hv : v.getLsbD i = true)
    (h : ∃ c ∈ cs, c.value.getLsbD i = true) : ∃ c ∈ picks cs v, c.value.getLsbD i = true := by
  have hi : i < 32 := by
    apply Classical.byContradiction
    intro hc
    rw [BitVec.getLsbD_of_ge _ _ (by omega)] at hv
    simp at hv
  induction cs generalizing v with
  | nil => simp at h
  | cons c cs ih =>
    unfold picks
    by_cases hci : c.value.getLsbD i = true
    · have hne : (v &&& c.value != 0) = true := by
        simp only [bne_iff_ne]
        exact ne_zero_of_bit (i := i) (by simp [hv, hci])
      rw [if_pos hne]
      exact ⟨c, by simp, hci⟩
    · have h' : ∃ c ∈ cs, c.value.getLsbD i = true := by
        obtain ⟨d, hd, hdi⟩ := h
        rcases List.mem_cons.1 hd with rfl | hd
        · exact absurd hdi hci
        · exact ⟨d, hd, hdi⟩
      split
      · have hbit : (v &&& ~~~c.value).getLsbD i = true := by
          rw [BitVec.getLsbD_and, BitVec.getLsbD_not, hv, Bool.eq_false_iff.2 hci]
          simp [hi]
        rw [if_neg (ne_zero_of_bit hbit)]
        obtain ⟨d, hd, hdi⟩ := ih _ hbit h'
        exact ⟨d, by simp [hd], hdi⟩
      · exact ih v hv h'

/-- The constants picked make up the value. -/
theorem picks_or (cs : List Const) (v : BitVec 32)
    (hin : ∀ c ∈ cs, v &&& c.value = 0 ∨ v &&& c.value = c.value)
    (hcov : ∀ i, v.getLsbD i = true → ∃ c ∈ cs, c.value.getLsbD i = true) :
    orAll ((picks cs v).map Const.value) = v := by
  apply BitVec.eq_of_getLsbD_eq
  intro i _
  apply Bool.eq_iff_iff.2
  rw [orAll_bit]
  constructor
  · rintro ⟨x, hx, hxi⟩
    obtain ⟨c, hc, rfl⟩ := List.mem_map.1 hx
    obtain ⟨h1, h2⟩ := picks_mem cs v c hc
    rcases hin c h1 with h | h
    · exact absurd h h2
    · rw [← h] at hxi
      simp only [BitVec.getLsbD_and, Bool.and_eq_true] at hxi
      exact hxi.1
  · intro hv
    obtain ⟨c, hc, hci⟩ := picks_cover cs v i hv (hcov i hv)
    exact ⟨c.value, List.mem_map.2 ⟨c, hc, rfl⟩, hci⟩

/-! ### Names -/

theorem splitBar_plain (cur s : Bytes) (hs : ∀ b ∈ s, b ≠ 124) (hne : cur ++ s ≠ []) :
    splitBar cur s = [cur ++ s] := by
  induction s generalizing cur with
  | nil => simp at hne; simp [splitBar, hne]
  | cons b s ih =>
    rw [splitBar, if_neg (hs b (by simp)), ih (cur ++ [b]) (fun x hx => hs x (by simp [hx])) (by simp)]
    simp

theorem splitBar_bar (cur s r : Bytes) (hs : ∀ b ∈ s, b ≠ 124) :
    splitBar cur (s ++ 124 :: r) = (cur ++ s) :: splitBar [] r := by
  induction s generalizing cur with
  | nil => simp [splitBar]
  | cons b s ih =>
    rw [List.cons_append, splitBar, if_neg (hs b (by simp)), ih (cur ++ [b]) (fun x hx => hs x (by simp [hx]))]
    simp

theorem splitBar_join (names : List Bytes) (h : ∀ n ∈ names, n ≠ [] ∧ ∀ b ∈ n, b ≠ 124) :
    splitBar [] (joinBar names) = names := by
  induction names with
  | nil => rfl
  | cons n names ih =>
    have hn := h n (by simp)
    cases names with
    | nil => simp only [joinBar]; rw [splitBar_plain [] n hn.2 (by simpa using hn.1)]; rfl
    | cons n' names =>
      rw [joinBar, splitBar_bar [] n _ hn.2, ih (fun x hx => h x (by simp [hx]))]
      rfl

/-- The constants of an enum: names are not empty, hold no quote, backslash or `|`, and differ in their
hashes. -/
structure EnumNames (cs : List Const) : Prop where
  plain : ∀ c ∈ cs, c.name ≠ [] ∧ ∀ b ∈ c.name, b ≠ 34 ∧ b ≠ 92 ∧ b ≠ 124
  distinct : ∀ c ∈ cs, ∀ d ∈ cs, Hash.hashText c.name = Hash.hashText d.name → c = d

theorem findConst_mem {cs : List Const} (h : EnumNames cs) {c : Const} (hc : c ∈ cs) :
    findConst cs c.name = some c.value := by
  unfold findConst
  cases hf : cs.find? (fun d => Hash.hashText d.name == Hash.hashText c.name) with
  | none =>
    have := List.find?_eq_none.1 hf c hc
    simp at this
  | some d =>
    have h1 := List.find?_some hf
    have h2 := List.mem_of_find?_eq_some hf
    have := h.distinct d h2 c hc (by simpa using h1)
    subst this
    rfl

theorem orFlags_some {cs : List Const} (h : EnumNames cs) (ps : List Const) (hps : ∀ c ∈ ps, c ∈ cs) (w : BitVec 32) :
    orFlags cs (ps.map Const.name) (some w) = some (w ||| orAll (ps.map Const.value)) := by
  induction ps generalizing w with
  | nil => simp [orFlags, orAll]
  | cons p ps ih =>
    simp only [List.map_cons, orFlags, findConst_mem h (hps p (by simp))]
    rw [ih (fun c hc => hps c (by simp [hc]))]
    simp [orAll, BitVec.or_assoc]

theorem orFlags_picks {cs : List Const} (h : EnumNames cs) (ps : List Const) (hps : ∀ c ∈ ps, c ∈ cs) (hne : ps ≠ []) :
    orFlags cs (ps.map Const.name) none = some (orAll (ps.map Const.value)) := by
  obtain ⟨p, ps, rfl⟩ := List.exists_cons_of_ne_nil hne
  simp only [List.map_cons, orFlags, findConst_mem h (hps p (by simp))]
  rw [orFlags_some h ps (fun c hc => hps c (by simp [hc]))]
  rfl

theorem jstr_joinBar (names : List Bytes) (h : ∀ n ∈ names, ∀ b ∈ n, b ≠ 34 ∧ b ≠ 92) : JStr (joinBar names) := by
  induction names with
  | nil => exact .nil
  | cons n names ih =>
    cases names with
    | nil => exact jstr_plain (h n (by simp))
    | cons n' names =>
      exact (jstr_plain (h n (by simp))).append (.char (by decide) (by decide) (ih fun x hx => h x (by simp [hx])))

/-- The values of an enum that are saved faithfully: those of a constant; for flags also those made of
constants, provided that every constant that shares a bit with the value is part of it. -/
def EnumValue (cs : List Const) (isFlags : Bool) (v : BitVec 32) : Prop :=
  if isFlags = true ∧ v ≠ 0 then
    (∀ c ∈ cs, v &&& c.value = 0 ∨ v &&& c.value = c.value) ∧
      ∃ parts : List Const, (∀ c ∈ parts, c ∈ cs) ∧ orAll (parts.map Const.value) = v
  else ∃ c ∈ cs, c.value = v

theorem enum_round_trip {cs : List Const} (h : EnumNames cs) (isFlags : Bool) (v : BitVec 32)
    (hv : EnumValue cs isFlags v) :
    ∃ text, saveEnum cs isFlags v = quote text ∧ JStr text ∧ enumOfText cs isFlags text = some v := by
  unfold EnumValue at hv
  split at hv
  · rename_i hf
    obtain ⟨hin, parts, hparts, hor⟩ := hv
    have hcov : ∀ i, v.getLsbD i = true → ∃ c ∈ cs, c.value.getLsbD i = true := by
      intro i hi
      rw [← hor, orAll_bit] at hi
      obtain ⟨x, hx, hxi⟩ := hi
      obtain ⟨c, hc, rfl⟩ := List.mem_map.1 hx
      exact ⟨c, hparts c hc, hxi⟩
    have hp := picks_or cs v hin hcov
    have hne : picks cs v ≠ [] := by
      intro hc
      rw [hc] at hp
      exact hf.2 hp.symm
    refine ⟨joinBar ((picks cs v).map Const.name), ?_, ?_, ?_⟩
    · unfold saveEnum
      rw [if_pos (by simpa using hf)]
      rw [flagNames_eq]
      split
      · rename_i hc; simp at hc; exact absurd hc hne
      · rfl
    · apply jstr_joinBar
      intro n hn b hb
      obtain ⟨c, hc, rfl⟩ := List.mem_map.1 hn
      have := (h.plain c (picks_mem cs v c hc).1).2 b hb
      exact ⟨this.1, this.2.1⟩
    · unfold enumOfText
      rw [if_pos hf.1, splitBar_join]
      · rw [orFlags_picks h _ (fun c hc => (picks_mem cs v c hc).1) hne, hp]
      · intro n hn
        obtain ⟨c, hc, rfl⟩ := List.mem_map.1 hn
        have := h.plain c (picks_mem cs v c hc).1
        exact ⟨this.1, fun b hb => (this.2 b hb).2.2⟩
  · rename_i hf
    obtain ⟨c, hc, hcv⟩ := hv
    cases hfind : cs.find? (fun c => c.value == v) with
    | none =>
      have := List.find?_eq_none.1 hfind c hc
      simp [hcv] at this
    | some d =>
      have hd := List.mem_of_find?_eq_some hfind
      have hdv : d.value = v := by simpa using List.find?_some hfind
      have hpl := h.plain d hd
      refine ⟨d.name, ?_, jstr_plain fun b hb => ⟨(hpl.2 b hb).1, (hpl.2 b hb).2.1⟩, ?_⟩
      · unfold saveEnum
        rw [if_neg (by simpa using hf), hfind]
      · unfold enumOfText
        split
        · rw [splitBar_plain [] d.name (fun b hb => (hpl.2 b hb).2.2) (by simpa using hpl.1)]
          have := orFlags_picks h [d] (by simpa using hd) (by simp)
          simpa [orAll, hdv] using this
        · rw [findConst_mem h hd, hdv]

end Clr.JSON
