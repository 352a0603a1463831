import Verif.Proofs.Export6
/-
Lemmas about the exporter model: the scope chosen for a primitive, and attribute bits one by one.
-/
namespace Clr.Export
open Clr.DB (hashOf)
attribute [local irreducible] hashOf

/-- A scope a sequence of calls could give to a child. -/
def Cand (env : Env) (S : St) (steps : List Step) (c r : Ref) : Prop :=
  Valid S r ∧ ∃ d ∈ steps, d.pk = r.1 ∧ c ∈ d.children ∧ d.keys r.2 = env.hash (S.get c).parent ∧
    matches' r.1 (S.get r) c.1 (S.get c) = true

theorem owner_cand {env : Env} {S : St} {steps : List Step} {c r : Ref} (h : owner env S steps c = some r) :
    Cand env S steps c r := by
  unfold owner at h
  obtain ⟨d, hd, he⟩ := List.exists_of_findSome?_eq_some h
  split at he
  · next hc =>
    cases hf : cand env S d.pk d.keys c with
    | none => rw [hf] at he; simp at he
    | some i =>
      rw [hf] at he
      simp at he
      subst he
      unfold cand findParent at hf
      have h1 := List.mem_of_find?_eq_some hf
      have h2 := List.find?_some hf
      simp only [Bool.and_eq_true, beq_iff_eq] at h2
      exact ⟨by simpa [Valid] using h1, d, hd, rfl, hc, h2.1, h2.2⟩
  · simp at he

theorem cand_owner {env : Env} {S : St} {steps : List Step} {c r : Ref} (h : Cand env S steps c r) :
    ∃ r', owner env S steps c = some r' := by
  obtain ⟨hv, d, hd, hk, hc, hh, hm⟩ := h
  cases ho : owner env S steps c with
  | some r' => exact ⟨r', rfl⟩
  | none =>
    unfold owner at ho
    rw [List.findSome?_eq_none_iff] at ho
    have := ho d hd
    rw [if_pos hc] at this
    cases hf : cand env S d.pk d.keys c with
    | some i => rw [hf] at this; simp at this
    | none =>
      unfold cand findParent at hf
      rw [List.find?_eq_none] at hf
      have := hf r.2 (by rw [List.mem_range, hk]; exact hv)
      rw [hk, hh] at this
      simp only [beq_self_eq_true, Bool.true_and] at this
      exact absurd hm this

/-- When at most one scope is possible it is the one chosen. -/
theorem owner_iff {env : Env} {S : St} {steps : List Step} {c : Ref}
    (hu : ∀ r r', Cand env S steps c r → Cand env S steps c r' → r = r') (r : Ref) :
    owner env S steps c = some r ↔ Cand env S steps c r := by
  constructor
  · exact owner_cand
  · intro h
    obtain ⟨r', h'⟩ := cand_owner h
    rw [h', hu r r' h (owner_cand h')]

/-! ### Bits of folds -/

theorem foldl_or_bit {α : Type} (f : α → BitVec 32) (l : List α) (acc : BitVec 32) (b : Nat) :
    (l.foldl (fun bits r => bits ||| f r) acc).getLsbD b = true ↔
      acc.getLsbD b = true ∨ ∃ a ∈ l, (f a).getLsbD b = true := by
  induction l generalizing acc with
  | nil => simp
  | cons a l ih =>
    rw [List.foldl_cons, ih]
    simp only [BitVec.getLsbD_or, Bool.or_eq_true, List.mem_cons, exists_eq_or_imp]
    rw [or_assoc]

theorem flagBits_bit (st : St) (l : List Ref) (b : Nat) :
    (flagBits st l).getLsbD b = true ↔ ∃ a ∈ l, (attributeBits a.1 (st.get a)).getLsbD b = true := by
  unfold flagBits
  rw [foldl_or_bit]
  simp

theorem customBits_fold (st : St) (l : List Ref) (s : BitVec 32 × BitVec 32) (hs : s.2 = 0 ∨ s.2 = 0xFFFFFFFF#32) :
    let out := l.foldl (fun s r =>
      if (st.get r).hash = hashOf b!"custom_flag" ∧ r.1 = .intAttr then (s.1 ||| (st.get r).value, s.2)
      else if (st.get r).hash = hashOf b!"custom_flag_inherit" then (s.1, 0xFFFFFFFF#32)
      else s) s
    (out.2 = 0 ∨ out.2 = 0xFFFFFFFF#32) ∧
    (out.2 = 0xFFFFFFFF#32 ↔ s.2 = 0xFFFFFFFF#32 ∨ ∃ a ∈ l, (st.get a).hash = hashOf b!"custom_flag_inherit" ∧
      ¬ ((st.get a).hash = hashOf b!"custom_flag" ∧ a.1 = .intAttr)) ∧
    ∀ b, out.1.getLsbD b = true ↔ s.1.getLsbD b = true ∨ ∃ a ∈ l, (st.get a).hash = hashOf b!"custom_flag" ∧
      a.1 = .intAttr ∧ (st.get a).value.getLsbD b = true := by
  induction l generalizing s with
  | nil => exact ⟨hs, by simp, by simp⟩
  | cons a l ih =>
    simp only [List.foldl_cons]
    by_cases h1 : (st.get a).hash = hashOf b!"custom_flag" ∧ a.1 = .intAttr
    · rw [if_pos h1]
      obtain ⟨i1, i2, i3⟩ := ih (s.1 ||| (st.get a).value, s.2) hs
      refine ⟨i1, ?_, ?_⟩
      · rw [i2]
        simp only [List.mem_cons, exists_eq_or_imp]
        have : ¬ ((st.get a).hash = hashOf b!"custom_flag_inherit" ∧ ¬ ((st.get a).hash = hashOf b!"custom_flag" ∧ a.1 = .intAttr)) :=
          fun h => h.2 h1
        simp only [this, false_or]
      · intro b
        rw [i3]
        simp only [BitVec.getLsbD_or, Bool.or_eq_true, List.mem_cons, exists_eq_or_imp, h1.1, h1.2, true_and]
        rw [or_assoc]
    · rw [if_neg h1]
      by_cases h2 : (st.get a).hash = hashOf b!"custom_flag_inherit"
      · rw [if_pos h2]
        obtain ⟨i1, i2, i3⟩ := ih (s.1, 0xFFFFFFFF#32) (.inr rfl)
        refine ⟨i1, ?_, ?_⟩
        · rw [i2]
          simp only [List.mem_cons, exists_eq_or_imp, true_or, true_iff]
          exact .inr (.inl ⟨h2, h1⟩)
        · intro b
          rw [i3]
          simp only [List.mem_cons, exists_eq_or_imp]
          have : ¬ ((st.get a).hash = hashOf b!"custom_flag" ∧ a.1 = .intAttr ∧ (st.get a).value.getLsbD b = true) :=
            fun h => h1 ⟨h.1, h.2.1⟩
          simp only [this, false_or]
      · rw [if_neg h2]
        obtain ⟨i1, i2, i3⟩ := ih s hs
        refine ⟨i1, ?_, ?_⟩
        · rw [i2]
          simp only [List.mem_cons, exists_eq_or_imp, h2, false_and, false_or]
        · intro b
          rw [i3]
          simp only [List.mem_cons, exists_eq_or_imp]
          have : ¬ ((st.get a).hash = hashOf b!"custom_flag" ∧ a.1 = .intAttr ∧ (st.get a).value.getLsbD b = true) :=
            fun h => h1 ⟨h.1, h.2.1⟩
          simp only [this, false_or]

/-- The bits a class with certain flags and attributes passes on. -/
theorem inheritedBits_iff (st : St) (f : BitVec 32) (r : Ref) (b : Nat) (hb : b < 32)
    (hne : hashOf b!"custom_flag_inherit" ≠ hashOf b!"custom_flag") : (inheritedBits st f r).getLsbD b = true ↔
    (b = 8 ∧ f.getLsbD 8 = true) ∨
    ((∃ a ∈ (st.get r).kids .attributes, (st.get a).hash = hashOf b!"custom_flag_inherit") ∧
     ∃ a ∈ (st.get r).kids .attributes, (st.get a).hash = hashOf b!"custom_flag" ∧ a.1 = .intAttr ∧
       (st.get a).value.getLsbD b = true) := by
  rw [inheritedBits_bit]
  obtain ⟨i1, i2, i3⟩ := customBits_fold st ((st.get r).kids .attributes) (0, 0) (.inl rfl)
  have hc : customBits st ((st.get r).kids .attributes) = ((st.get r).kids .attributes).foldl (fun s r =>
      if (st.get r).hash = hashOf b!"custom_flag" ∧ r.1 = .intAttr then (s.1 ||| (st.get r).value, s.2)
      else if (st.get r).hash = hashOf b!"custom_flag_inherit" then (s.1, 0xFFFFFFFF#32)
      else s) (0, 0) := rfl
  rw [← hc] at i1 i2 i3
  have h8 : fReplicate.getLsbD b = true ↔ b = 8 := by
    have : ∀ b < 32, (fReplicate.getLsbD b = true ↔ b = 8) := by decide
    exact this b hb
  have hmask : (customBits st ((st.get r).kids .attributes)).2.getLsbD b = true ↔
      (customBits st ((st.get r).kids .attributes)).2 = 0xFFFFFFFF#32 := by
    rcases i1 with h | h
    · rw [h]; simp
    · rw [h]
      have : ∀ b < 32, (0xFFFFFFFF#32).getLsbD b = true := by decide
      simp [this b hb]
  rw [BitVec.getLsbD_and, Bool.and_eq_true, hmask, i2, i3, h8]
  have hz : (0 : BitVec 32).getLsbD b = false := BitVec.getLsbD_zero
  simp only [hz, Bool.false_eq_true, false_or]
  constructor
  · rintro (⟨h1, h2⟩ | ⟨h1, h2⟩)
    · left; subst h2; exact ⟨rfl, h1⟩
    · right
      refine ⟨?_, h1⟩
      rcases h2 with h2 | ⟨a, ha, h3, _⟩
      · exact absurd h2 (by decide)
      · exact ⟨a, ha, h3⟩
  · rintro (⟨h1, h2⟩ | ⟨⟨a, ha, h1⟩, h2⟩)
    · left; subst h1; exact ⟨h2, rfl⟩
    · right
      refine ⟨h2, .inr ⟨a, ha, h1, fun h => hne (h1.symm.trans h.1)⟩⟩

/-- Passing on along base types, as reachability. -/
inductive Reaches (st : St) : Ref → Ref → Prop where
  | refl (r : Ref) : Reaches st r r
  | base {r q p : Ref} (hq : q ∈ (st.get r).kids .bases) (h : Reaches st q p) : Reaches st r p

theorem passes_iff (st : St) (f : Ref → BitVec 32) (r : Ref) (b : Nat) :
    Passes st f r b ↔ ∃ q, Reaches st r q ∧ q.1 = .cls ∧ (inheritedBits st (f q) q).getLsbD b = true := by
  constructor
  · intro h
    induction h with
    | own hc h => exact ⟨_, .refl _, hc, h⟩
    | base hq _ ih =>
      obtain ⟨q, h1, h2, h3⟩ := ih
      exact ⟨q, .base hq h1, h2, h3⟩
  · rintro ⟨q, h1, h2, h3⟩
    induction h1 with
    | refl r => exact .own h2 h3
    | base hq _ ih => exact .base hq (ih h2 h3)

/-- The bits of one attribute. -/
theorem attributeBits_bit (k : K) (a : Obj) (b : Nat) (hb : b < 32)
    (hd : List.Pairwise (· ≠ ·) [hashOf b!"disk_transient", hashOf b!"network_transient", hashOf b!"replicate_transient",
      hashOf b!"export_transient", hashOf b!"transient", hashOf b!"pre_save", hashOf b!"post_load", hashOf b!"replicate",
      hashOf b!"custom_flag"]) :
    (attributeBits k a).getLsbD b = true ↔
      (b = 0 ∧ (a.hash = hashOf b!"disk_transient" ∨ a.hash = hashOf b!"transient")) ∨
      (b = 1 ∧ (a.hash = hashOf b!"network_transient" ∨ a.hash = hashOf b!"transient")) ∨
      (b = 2 ∧ a.hash = hashOf b!"replicate_transient") ∨
      (b = 3 ∧ (a.hash = hashOf b!"export_transient" ∨ a.hash = hashOf b!"transient")) ∨
      (b = 6 ∧ a.hash = hashOf b!"pre_save") ∨
      (b = 7 ∧ a.hash = hashOf b!"post_load") ∨
      (b = 8 ∧ a.hash = hashOf b!"replicate") ∨
      (a.hash ∉ [hashOf b!"disk_transient", hashOf b!"network_transient", hashOf b!"replicate_transient",
         hashOf b!"export_transient", hashOf b!"transient", hashOf b!"pre_save", hashOf b!"post_load", hashOf b!"replicate"] ∧
       ((b = 4 ∧ starts a.text b!"load_" = true) ∨
        (b = 5 ∧ starts a.text b!"load_" = false ∧ starts a.text b!"save_" = true) ∨
        (starts a.text b!"load_" = false ∧ starts a.text b!"save_" = false ∧ a.hash = hashOf b!"custom_flag" ∧
          k = .intAttr ∧ a.value.getLsbD b = true))) := by
  have t0 : ∀ b < 32, (fDiskTransient.getLsbD b = true ↔ b = 0) := by decide
  have t1 : ∀ b < 32, (fNetworkTransient.getLsbD b = true ↔ b = 1) := by decide
  have t2 : ∀ b < 32, (fReplicateTransient.getLsbD b = true ↔ b = 2) := by decide
  have t3 : ∀ b < 32, (fExportTransient.getLsbD b = true ↔ b = 3) := by decide
  have t4 : ∀ b < 32, (fCustomLoad.getLsbD b = true ↔ b = 4) := by decide
  have t5 : ∀ b < 32, (fCustomSave.getLsbD b = true ↔ b = 5) := by decide
  have t6 : ∀ b < 32, (fPreSave.getLsbD b = true ↔ b = 6) := by decide
  have t7 : ∀ b < 32, (fPostLoad.getLsbD b = true ↔ b = 7) := by decide
  have t8 : ∀ b < 32, (fReplicate.getLsbD b = true ↔ b = 8) := by decide
  have tt : ∀ b < 32, (fTransient.getLsbD b = true ↔ b = 0 ∨ b = 1 ∨ b = 3) := by decide
  unfold attributeBits
  generalize hashOf b!"disk_transient" = h1 at *
  generalize hashOf b!"network_transient" = h2 at *
  generalize hashOf b!"replicate_transient" = h3 at *
  generalize hashOf b!"export_transient" = h4 at *
  generalize hashOf b!"transient" = h5 at *
  generalize hashOf b!"pre_save" = h6 at *
  generalize hashOf b!"post_load" = h7 at *
  generalize hashOf b!"replicate" = h8 at *
  generalize hashOf b!"custom_flag" = h9 at *
  generalize a.hash = h
  simp only [List.pairwise_cons, List.mem_cons, List.not_mem_nil, or_false, forall_eq_or_imp, forall_eq] at hd
  obtain ⟨d1, d2, d3, d4, d5, d6, d7, d8, d9⟩ := hd
  by_cases e1 : h = h1
  · subst e1; rw [if_pos rfl, t0 b hb]; simp [d1]
  · rw [if_neg e1]
    by_cases e2 : h = h2
    · subst e2; rw [if_pos rfl, t1 b hb]; simp [d2, e1]
    · rw [if_neg e2]
      by_cases e3 : h = h3
      · subst e3; rw [if_pos rfl, t2 b hb]; simp [d3, e1, e2]
      · rw [if_neg e3]
        by_cases e4 : h = h4
        · subst e4; rw [if_pos rfl, t3 b hb]; simp [d4, e1, e2, e3]
        · rw [if_neg e4]
          by_cases e5 : h = h5
          · subst e5; rw [if_pos rfl, tt b hb]; simp [d5, e1, e2, e3, e4]
          · rw [if_neg e5]
            by_cases e6 : h = h6
            · subst e6; rw [if_pos rfl, t6 b hb]; simp [d6, e1, e2, e3, e4, e5]
            · rw [if_neg e6]
              by_cases e7 : h = h7
              · subst e7; rw [if_pos rfl, t7 b hb]; simp [d7, e1, e2, e3, e4, e5, e6]
              · rw [if_neg e7]
                by_cases e8 : h = h8
                · subst e8; rw [if_pos rfl, t8 b hb]; simp [e1, e2, e3, e4, e5, e6, e7]
                · rw [if_neg e8]
                  cases hl : starts a.text b!"load_" with
                  | true =>
                    rw [if_pos rfl, t4 b hb]; simp [e1, e2, e3, e4, e5, e6, e7, e8]
                  | false =>
                    rw [if_neg (by simp)]
                    cases hs : starts a.text b!"save_" with
                    | true => rw [if_pos rfl, t5 b hb]; simp [e1, e2, e3, e4, e5, e6, e7, e8]
                    | false =>
                      rw [if_neg (by simp)]
                      by_cases e9 : h = h9
                      · subst e9
                        rw [if_pos rfl]
                        by_cases ek : k = .intAttr
                        · rw [if_pos ek]; simp [e1, e2, e3, e4, e5, e6, e7, e8, ek]
                        · rw [if_neg ek]; simp [e1, e2, e3, e4, e5, e6, e7, e8, ek]
                      · rw [if_neg e9]; simp [e1, e2, e3, e4, e5, e6, e7, e8, e9]

end Clr.Export
