import Verif.Proofs.MapFile

/-!
Lemmas for C63: the name in a signature.
-/
namespace Clr.Map

open Clr.DB Clr.FileUtils

/-! ### Replacing -/

theorem replaceAll_spec {s pat w : Bytes} (hp : pat ≠ []) : Replaced pat w s (replaceAll s pat w) := by
  obtain ⟨r, h1, h2⟩ := C52_replace_all s pat w hp (s.length + 1) (Nat.lt_succ_self _)
  rw [replaceAll, h1]
  exact h2

theorem replaceAll_none {s pat w : Bytes} (hp : pat ≠ []) (h : ∀ i, ¬ OccursAt pat s i) : replaceAll s pat w = s :=
  C52_spec_deterministic _ _ _ _ _ (replaceAll_spec hp) (.done h)

theorem occurs_left {a b s : Bytes} {i : Nat} (h : OccursAt (a ++ b) s i) : OccursAt a s i := by
  obtain ⟨x, y, rfl, rfl⟩ := h
  exact ⟨x, b ++ y, by simp, rfl⟩

theorem occurs_mid {pat s x y : Bytes} {i : Nat} (h : OccursAt pat s i) : OccursAt pat (x ++ s ++ y) (x.length + i) := by
  obtain ⟨a, b, rfl, rfl⟩ := h
  exact ⟨x ++ a, b ++ y, by simp, by simp⟩

/-- What is in front of the first occurrence stays. -/
theorem replaced_keep {pat w P x r : Bytes} (h : Replaced pat w (P ++ x) r) (hno : ∀ i < P.length, ¬ OccursAt pat (P ++ x) i) :
    ∃ y, r = P ++ y ∧ Replaced pat w x y := by
  generalize hs : P ++ x = s at h hno
  cases h with
  | done hd =>
    subst hs
    refine ⟨x, rfl, .done fun i hi => ?_⟩
    have := occurs_mid hi (x := P) (y := [])
    rw [List.append_nil] at this
    exact hd _ this
  | @step a b q h1 h2 =>
    have hle : P.length ≤ a.length := by
      rcases Nat.lt_or_ge a.length P.length with h | h
      · exact absurd ⟨a, b, rfl, rfl⟩ (hno a.length h)
      · exact h
    rw [List.append_assoc] at hs
    obtain ⟨a', ha⟩ : ∃ a', a = P ++ a' := by
      have : P <+: a ++ (pat ++ b) := ⟨x, hs⟩
      obtain ⟨t, ht⟩ := List.prefix_of_prefix_length_le this (List.prefix_append a _) hle
      exact ⟨t, ht.symm⟩
    subst ha
    rw [List.append_assoc] at hs
    have hx : x = a' ++ pat ++ b := by
      have := List.append_cancel_left hs
      rw [this]; simp
    subst hx
    refine ⟨a' ++ w ++ q, by simp, .step ?_ h2⟩
    intro i hi ho
    have := occurs_mid ho (x := P) (y := [])
    rw [List.append_nil] at this
    refine h1 (P.length + i) (by simp; omega) ?_
    simpa using this

/-- Replacements do not put `q` at the front. -/
theorem replaced_front {pat w x y q : Bytes} (h : Replaced pat w x y) (hw : w ≠ []) (hq : ∀ c ∈ w.head?, c ∉ q) (hp : q <+: y) : q <+: x := by
  cases h with
  | done => exact hp
  | @step a b r h1 h2 =>
    rw [List.append_assoc] at hp
    rcases Nat.le_total q.length a.length with hle | hle
    · have := List.prefix_of_prefix_length_le hp (List.prefix_append a _) hle
      exact this.trans (by rw [List.append_assoc]; exact List.prefix_append a _)
    · obtain ⟨t, ht⟩ := List.prefix_of_prefix_length_le (List.prefix_append a _) hp hle
      obtain ⟨c, w', rfl⟩ := List.exists_cons_of_ne_nil hw
      cases t with
      | nil => rw [List.append_nil] at ht; subst ht; rw [List.append_assoc]; exact List.prefix_append a _
      | cons d t =>
        obtain ⟨z, hz⟩ := hp
        rw [← ht, List.append_assoc] at hz
        have hcd := List.append_cancel_left hz
        simp at hcd
        refine absurd ?_ (hq c rfl)
        rw [← ht, ← hcd.1]
        simp

/-- A character that is in the pattern and not in the replacement gets rarer. -/
theorem replaced_count {pat w s r : Bytes} {c : UInt8} (h : Replaced pat w s r) (hw : c ∉ w) : r.count c ≤ s.count c := by
  induction h with
  | done => exact Nat.le_refl _
  | step _ _ ih =>
    rw [List.count_append, List.count_append, List.count_append, List.count_append, List.count_eq_zero.mpr hw]
    omega

theorem replaced_count_lt {pat w s r : Bytes} {c : UInt8} (h : Replaced pat w s r) (hw : c ∉ w) (hp : c ∈ pat) {i : Nat} (ho : OccursAt pat s i) :
    r.count c < s.count c := by
  cases h with
  | done hd => exact absurd ho (hd i)
  | step _ h =>
    have h1 := replaced_count h hw
    have h2 := List.count_pos_iff.mpr hp
    rw [List.count_append, List.count_append, List.count_append, List.count_append, List.count_eq_zero.mpr hw]
    omega

/-! ### The base of the replacements -/

/-- The characters of replacements. -/
def IsRepl (c : UInt8) : Prop := c ∈ b!"r?An_D0123456789"

theorem digit_repl (n : Nat) : IsRepl (UInt8.ofNat (48 + n % 10)) := by
  have h : ∀ k < 10, UInt8.ofNat (48 + k) ∈ b!"r?An_D0123456789" := by decide
  exact h _ (Nat.mod_lt _ (by decide))

theorem findRandom_spec {sig : Bytes} {rand : Nat → Nat} : ∀ (fuel k : Nat) (res : Bytes), sig.length < fuel + res.length → (∀ c ∈ res, IsRepl c) →
    find sig (findRandom sig rand fuel k res) 0 = none ∧ (∀ c ∈ findRandom sig rand fuel k res, IsRepl c) ∧ res <+: findRandom sig rand fuel k res
  | 0, k, res, hl, hr => by
    refine ⟨?_, hr, List.prefix_refl _⟩
    rw [findRandom]
    cases hf : find sig res 0 with
    | none => rfl
    | some j =>
      obtain ⟨_, ⟨a, b, hab, _⟩, _⟩ := find_some _ _ _ _ hf
      have := congrArg List.length hab
      simp at this
      omega
  | fuel + 1, k, res, hl, hr => by
    rw [findRandom]
    split
    · obtain ⟨h1, h2, h3⟩ := findRandom_spec (sig := sig) (rand := rand) fuel (k + 1) (res ++ [UInt8.ofNat (48 + rand k % 10)]) (by simp; omega)
        (by
          intro c hc
          rcases List.mem_append.mp hc with hc | hc
          · exact hr c hc
          · simp at hc
            rw [hc]
            have := digit_repl (rand k)
            simpa using this)
      exact ⟨h1, h2, (List.prefix_append _ _).trans h3⟩
    · rename_i h
      refine ⟨?_, hr, List.prefix_refl _⟩
      simpa using h

theorem decLoop_repl (v : Nat) (acc : Bytes) (h : ∀ c ∈ acc, IsRepl c) : ∀ c ∈ decLoop v acc, IsRepl c := by
  induction v using Nat.strongRecOn generalizing acc with
  | ind v ih =>
    have hacc : ∀ c ∈ UInt8.ofNat (48 + v % 10) :: acc, IsRepl c := by
      intro c hc
      rcases List.mem_cons.mp hc with rfl | hc
      · exact digit_repl _
      · exact h c hc
    rw [decLoop]
    split
    · exact hacc
    · exact ih (v / 10) (by omega) _ hacc

theorem itoa_repl (v : UInt32) : ∀ c ∈ itoa v, IsRepl c := fun c hc => decLoop_repl _ [] (by simp) c (List.mem_of_mem_take hc)

/-! ### The loop -/

/-- Replacements begin with `r` and have only their characters; the base is in front. -/
structure IsBase (base sig : Bytes) : Prop where
  chars : ∀ c ∈ base, IsRepl c
  head : b!"r?An_D" <+: base
  absent : ∀ i, ¬ OccursAt base sig i

theorem base_spec (sig : Bytes) (rand : Nat → Nat) : IsBase (findRandom sig rand (sig.length + 1) 0 b!"r?An_D") sig := by
  obtain ⟨h1, h2, h3⟩ := findRandom_spec (sig := sig) (rand := rand) (sig.length + 1) 0 b!"r?An_D" (by simp; omega) (by unfold IsRepl; decide)
  exact ⟨h2, h3, fun i hi => by have := find_none _ _ _ (Nat.zero_le _) h1 i; exact this hi⟩

/-- The entries of the stack. -/
def Stack (base : Bytes) (st : List (Bytes × Bytes)) : Prop := ∀ e ∈ st, base <+: e.2 ∧ (∀ c ∈ e.2, IsRepl c)

theorem replaceOccurence_stack {base original : Bytes} {s : Repl} (hb : ∀ c ∈ base, IsRepl c) (h : Stack base s.2) :
    Stack base (replaceOccurence base original s).2 := by
  intro e he
  rw [replaceOccurence] at he
  rcases List.mem_cons.mp he with rfl | he
  · refine ⟨List.prefix_append _ _, fun c hc => ?_⟩
    rcases List.mem_append.mp hc with hc | hc
    · exact hb c hc
    · exact itoa_repl _ c hc
  · exact h e he

/-- What the loops keep: the text in front of the parameters, and that the parameters do not begin in a certain way. -/
def Keeps (P : Bytes) (qs : List Bytes) (s : Bytes) : Prop := ∃ x, s = P ++ x ∧ ∀ q ∈ qs, ¬ q <+: x

theorem replaceOccurence_keeps {base original P sig : Bytes} {qs : List Bytes} {s : Repl} (hb : IsBase base sig) (ho : original ≠ [])
    (hq : ∀ q ∈ qs, (114 : UInt8) ∉ q) (hno : ∀ x, (∀ q ∈ qs, ¬ q <+: x) → ∀ i < P.length, ¬ OccursAt original (P ++ x) i) (h : Keeps P qs s.1) :
    Keeps P qs (replaceOccurence base original s).1 := by
  obtain ⟨x, hx, hxq⟩ := h
  rw [replaceOccurence]
  dsimp only
  have hr := replaceAll_spec (s := s.1) (w := base ++ itoa (UInt32.ofNat s.2.length)) ho
  rw [hx] at hr
  obtain ⟨y, hy, hxy⟩ := replaced_keep hr (hno x hxq)
  refine ⟨y, by rw [hx]; exact hy, fun q hqm hqy => hxq q hqm ?_⟩
  obtain ⟨t, ht⟩ := hb.head
  refine replaced_front hxy (by rw [← ht]; simp) ?_ hqy
  rw [← ht]
  intro c hc
  simp at hc
  rw [← hc]
  exact hq q hqm

theorem rfind_some {s pat : Bytes} : ∀ {i j : Nat}, rfind s pat i = some j → pat <+: s.drop j
  | 0, j, h => by
    rw [rfind] at h
    split at h
    · cases h
      rename_i h'
      exact List.isPrefixOf_iff_prefix.mp h'
    · cases h
  | i + 1, j, h => by
    rw [rfind] at h
    split at h
    · cases h
      rename_i h'
      exact List.isPrefixOf_iff_prefix.mp h'
    · exact rfind_some h

/-- The text from a `left` to the `right` behind it. -/
theorem original_spec {s left right : Bytes} {i f c : Nat} (h1 : rfind s left i = some f) (h2 : find s right (f + left.length) = some c) :
    ∃ m, (s.drop f).take (c + right.length - f) = left ++ m := by
  obtain ⟨t, ht⟩ := rfind_some h1
  obtain ⟨h3, _, _⟩ := find_some _ _ _ _ h2
  refine ⟨t.take (c + right.length - f - left.length), ?_⟩
  rw [← ht, List.take_append, List.take_of_length_le (by omega)]

theorem replacePattern_keeps {base left right P sig : Bytes} {qs : List Bytes} (hb : IsBase base sig) (hl : left ≠ [])
    (hq : ∀ q ∈ qs, (114 : UInt8) ∉ q) (hno : ∀ x, (∀ q ∈ qs, ¬ q <+: x) → ∀ i < P.length, ¬ OccursAt left (P ++ x) i) :
    ∀ (fuel : Nat) (pos : Option Nat) (s : Repl), Keeps P qs s.1 → Stack base s.2 →
      Keeps P qs (replacePattern base left right fuel pos s).1 ∧ Stack base (replacePattern base left right fuel pos s).2
  | 0, _, s, h1, h2 => ⟨h1, h2⟩
  | fuel + 1, pos, s, h1, h2 => by
    rw [replacePattern]
    cases hf : rfind s.1 left (pos.getD s.1.length) with
    | none => exact ⟨h1, h2⟩
    | some f =>
      dsimp only
      cases hc : find s.1 right (f + left.length) with
      | none => exact ⟨h1, h2⟩
      | some c =>
        dsimp only
        obtain ⟨m, hm⟩ := original_spec hf hc
        rw [hm]
        exact replacePattern_keeps hb hl hq hno fuel _ _
          (replaceOccurence_keeps hb (by simp [hl]) hq (fun x hx i hi ho => hno x hx i hi (occurs_left ho)) h1) (replaceOccurence_stack hb.chars h2)

/-- Nothing is put back where nothing was replaced. -/
theorem restore_absent {base : Bytes} (hb0 : base ≠ []) : ∀ {st : List (Bytes × Bytes)} {s : Bytes}, Stack base st → (∀ i, ¬ OccursAt base s i) → restore st s = s
  | [], _, _, _ => rfl
  | (o, w) :: st, s, hst, hs => by
    obtain ⟨⟨t, ht⟩, _⟩ := hst (o, w) (by simp)
    dsimp only at ht
    have hw : replaceAll s w o = s := by
      refine replaceAll_none ?_ ?_
      · rw [← ht]; simp [hb0]
      · intro i hi
        rw [← ht] at hi
        exact hs i (occurs_left hi)
    rw [restore, hw]
    exact restore_absent hb0 (fun e he => hst e (by simp [he])) hs

/-! ### Where the name is -/

/-- There is no blank behind. -/
theorem rfind_blank {a b : Bytes} (hb : (32 : UInt8) ∉ b) : ∀ k, a.length ≤ k → k < (a ++ 32 :: b).length → rfind (a ++ 32 :: b) b!" " k = some a.length
  | k, hk, hlt => by
    have hat : (a ++ 32 :: b).drop a.length = 32 :: b := List.drop_left
    by_cases he : k = a.length
    · subst he
      cases hc : a.length with
      | zero => rw [hc, List.drop_zero] at hat; rw [rfind, hat, if_pos (by simp [List.isPrefixOf])]
      | succ n => rw [hc] at hat; rw [rfind, hat, if_pos (by simp [List.isPrefixOf])]
    · obtain ⟨n, rfl⟩ : ∃ n, k = n + 1 := ⟨k - 1, by omega⟩
      have hne : ¬ (b!" ").isPrefixOf ((a ++ 32 :: b).drop (n + 1)) = true := by
        intro h
        obtain ⟨t, ht⟩ := List.isPrefixOf_iff_prefix.mp h
        have : n + 1 = a.length + ((n - a.length) + 1) := by omega
        rw [this, ← List.drop_drop, hat, List.drop_succ_cons] at ht
        have : (32 : UInt8) ∈ b.drop (n - a.length) := by rw [← ht]; simp
        exact hb (List.mem_of_mem_drop this)
      rw [rfind, if_neg hne]
      exact rfind_blank hb n (by omega) (by omega)

theorem rfind_none {s : Bytes} {pat : Bytes} (h : ∀ i, ¬ OccursAt pat s i) : ∀ k, k ≤ s.length → rfind s pat k = none
  | 0, _ => by
    rw [rfind, if_neg]
    intro h'
    obtain ⟨t, ht⟩ := List.isPrefixOf_iff_prefix.mp h'
    exact h 0 ⟨[], t, by simpa using ht.symm, rfl⟩
  | k + 1, hk => by
    rw [rfind, if_neg, rfind_none h k (by omega)]
    intro h'
    obtain ⟨t, ht⟩ := List.isPrefixOf_iff_prefix.mp h'
    exact h (k + 1) ⟨s.take (k + 1), t, by rw [List.append_assoc, ht, List.take_append_drop], by simp; omega⟩

/-- The characters that the patterns begin with are in no replacement. -/
theorem repl_not {c : UInt8} (h : IsRepl c) : c ≠ 32 ∧ c ≠ 40 ∧ c ≠ 38 ∧ c ≠ 60 := by
  have : ∀ d ∈ b!"r?An_D0123456789", d ≠ 32 ∧ d ≠ 40 ∧ d ≠ 38 ∧ d ≠ 60 := by decide
  exact this c h

/-- Patterns that do not begin in front of the parameters. -/
theorem no_pattern {pre x : Bytes} (h1 : (40 : UInt8) ∉ pre) (h2 : (60 : UInt8) ∉ pre) (h3 : pre.getLast? ≠ some 38) :
    (∀ i < (pre ++ [40]).length, ¬ OccursAt b!"&(" (pre ++ [40] ++ x) i) ∧ (∀ i < (pre ++ [40]).length, ¬ OccursAt b!"<" (pre ++ [40] ++ x) i) ∧
    (∀ q : Bytes, ¬ q <+: x → ∀ i < (pre ++ [40]).length, ¬ OccursAt (40 :: q) (pre ++ [40] ++ x) i) := by
  have key : ∀ (c : UInt8) (q : Bytes) (i : Nat), i < (pre ++ [40]).length → OccursAt (c :: q) (pre ++ [40] ++ x) i →
      (pre ++ [40])[i]? = some c ∧ q <+: (pre ++ [40] ++ x).drop (i + 1) := by
    rintro c q i hi ⟨a, b, hab, rfl⟩
    constructor
    · rw [← List.getElem?_append_left (l₂ := x) hi, hab]
      simp
    · rw [hab]
      refine ⟨b, ?_⟩
      have : a ++ c :: q ++ b = (a ++ [c]) ++ (q ++ b) := by simp
      rw [this]
      have h : a.length + 1 = (a ++ [c]).length := by simp
      rw [h, List.drop_left]
  have hget : ∀ (i : Nat) (c : UInt8), i < (pre ++ [40]).length → (pre ++ [40])[i]? = some c → (i < pre.length ∧ pre[i]? = some c) ∨ (i = pre.length ∧ c = 40) := by
    intro i c hi h
    rcases Nat.lt_or_ge i pre.length with hlt | hge
    · rw [List.getElem?_append_left hlt] at h
      exact .inl ⟨hlt, h⟩
    · have : i = pre.length := by simp at hi; omega
      subst this
      simp at h
      exact .inr ⟨rfl, h.symm⟩
  refine ⟨?_, ?_, ?_⟩
  · intro i hi ho
    obtain ⟨k1, k2⟩ := key _ _ i hi ho
    rcases hget i _ hi k1 with ⟨hlt, hp⟩ | ⟨_, h⟩
    · obtain ⟨t, ht⟩ := k2
      have hd : (pre ++ [40] ++ x)[i + 1]? = some 40 := by
        have := congrArg List.head? ht
        rw [List.head?_drop] at this
        simpa using this.symm
      rcases Nat.lt_or_ge (i + 1) pre.length with h4 | h4
      · rw [List.append_assoc, List.getElem?_append_left h4] at hd
        exact h1 (List.mem_of_getElem? hd)
      · have : i = pre.length - 1 := by omega
        subst this
        exact h3 (by rw [List.getLast?_eq_getElem?]; exact hp)
    · cases h
  · intro i hi ho
    obtain ⟨k1, _⟩ := key _ _ i hi ho
    rcases hget i _ hi k1 with ⟨hlt, hp⟩ | ⟨_, h⟩
    · exact h2 (List.mem_of_getElem? hp)
    · cases h
  · intro q hq i hi ho
    obtain ⟨k1, k2⟩ := key _ _ i hi ho
    rcases hget i _ hi k1 with ⟨hlt, hp⟩ | ⟨rfl, _⟩
    · exact h1 (List.mem_of_getElem? hp)
    · have : pre.length + 1 = (pre ++ [40]).length := by simp
      rw [this, List.drop_left] at k2
      exact hq k2

/-- Whatever the parameters are, what is in front of them stays as it is, and nothing is put back into a part of it. -/
theorem parse_plain (rand : Nat → Nat) {pre rest : Bytes} (h1 : (40 : UInt8) ∉ pre) (h2 : (60 : UInt8) ∉ pre) (h3 : pre.getLast? ≠ some 38)
    (h4 : ¬ b!"*)(" <+: rest) (h5 : ¬ b!"anonymous namespace)" <+: rest) :
    ∃ x st, parseFunctionName rand (pre ++ b!"(" ++ rest) = restore st (cutName (pre ++ [40] ++ x)) ∧
      ∀ s i, OccursAt s pre i → restore st s = s := by
  have hb := base_spec (pre ++ b!"(" ++ rest) rand
  generalize hbase : findRandom (pre ++ b!"(" ++ rest) rand ((pre ++ b!"(" ++ rest).length + 1) 0 b!"r?An_D" = base at hb
  have hb0 : base ≠ [] := by obtain ⟨t, ht⟩ := hb.head; rw [← ht]; simp
  have hq : ∀ q ∈ [b!"*)("], (114 : UInt8) ∉ q := by decide
  -- the anonymous namespace
  have k1 : Keeps (pre ++ [40]) [b!"*)("] (replaceOccurence base b!"(anonymous namespace)" (pre ++ b!"(" ++ rest, [])).1 := by
    rw [replaceOccurence]
    dsimp only
    have hr := replaceAll_spec (s := pre ++ b!"(" ++ rest) (pat := b!"(anonymous namespace)") (w := base ++ itoa (UInt32.ofNat 0)) (by decide)
    obtain ⟨y, hy, hxy⟩ := replaced_keep hr ((no_pattern h1 h2 h3).2.2 b!"anonymous namespace)" h5)
    refine ⟨y, hy, ?_⟩
    intro q hqm hqy
    simp at hqm
    subst hqm
    obtain ⟨t, ht⟩ := hb.head
    refine h4 (replaced_front hxy (by rw [← ht]; simp) ?_ hqy)
    rw [← ht]
    intro c hc
    simp at hc
    rw [← hc]
    decide
  have s1 : Stack base (replaceOccurence base b!"(anonymous namespace)" (pre ++ b!"(" ++ rest, [])).2 :=
    replaceOccurence_stack hb.chars (fun e he => by cases he)
  -- the three patterns
  obtain ⟨k2, s2⟩ := replacePattern_keeps (left := b!"&(") (right := b!"))") hb (by decide) hq (fun x _ => (no_pattern h1 h2 h3).1)
    ((pre ++ b!"(" ++ rest).length + 1) none _ k1 s1
  obtain ⟨k3, s3⟩ := replacePattern_keeps (left := b!"(*)(") (right := b!")") hb (by decide) hq
    (fun x hx => (no_pattern h1 h2 h3).2.2 b!"*)(" (hx _ (by simp))) ((pre ++ b!"(" ++ rest).length + 1) none _ k2 s2
  obtain ⟨⟨x, hx, _⟩, s4⟩ := replacePattern_keeps (left := b!"<") (right := b!">") hb (by decide) hq (fun x _ => (no_pattern h1 h2 h3).2.1)
    ((pre ++ b!"(" ++ rest).length + 1) none _ k3 s3
  generalize hg : replacePattern base b!"<" b!">" _ none _ = fin at hx s4
  refine ⟨x, fin.2, ?_, ?_⟩
  rotate_left
  · rintro s i ⟨a, b, hab, _⟩
    refine restore_absent hb0 s4 ?_
    intro j hj
    refine hb.absent (a.length + j) ?_
    have := occurs_mid hj (x := a) (y := b ++ (b!"(" ++ rest))
    rw [hab]
    simpa using this
  · rw [parseFunctionName, parseWith, hbase, hg, hx]

/-- `cutName`, when both places are known. -/
theorem cut_of {s : Bytes} {p : Nat} {r : Option Nat} (h1 : find s b!"(" 0 = some p) (h2 : rfind s b!" " p = r) :
    cutName s = (s.drop (nameStart s r)).take (p - nameStart s r) := by
  subst h2
  rw [cutName, h1]
  rfl

/-- The name behind the last blank. -/
theorem cut_blank {ret name x : Bytes} (h1 : (40 : UInt8) ∉ ret ++ 32 :: name) (h2 : (32 : UInt8) ∉ name) (h3 : ¬ b!"operator" <:+ ret) :
    cutName (ret ++ 32 :: name ++ [40] ++ x) = name := by
  have e1 : ret ++ 32 :: name ++ [40] ++ x = (ret ++ 32 :: name) ++ 40 :: x := by simp
  rw [e1]
  have hr : rfind (ret ++ 32 :: name ++ 40 :: x) b!" " (ret ++ 32 :: name).length = some ret.length := by
    have hst : ∀ k, k ≤ (ret ++ 32 :: name ++ 40 :: x).length → rfind (ret ++ 32 :: name ++ 40 :: x) b!" " (ret ++ 32 :: name).length = some ret.length := by
      intro k _
      -- at the bracket there is no blank
      have hl : (ret ++ 32 :: name).length = (ret.length + name.length) + 1 := by simp; omega
      rw [hl, rfind, if_neg]
      · have hd : ∀ k ≤ ret.length + name.length, ret.length ≤ k → rfind (ret ++ 32 :: name ++ 40 :: x) b!" " k = some ret.length := by
          intro k
          induction k with
          | zero =>
            intro _ h
            have : ret = [] := List.length_eq_zero_iff.mp (by omega)
            subst this
            rw [rfind, if_pos (by simp [List.isPrefixOf])]
            rfl
          | succ k ih =>
            intro h4 h5
            by_cases he : k + 1 = ret.length
            · rw [rfind, if_pos]
              · rw [he]
              · rw [he, List.append_assoc, List.drop_left]
                simp [List.isPrefixOf]
            · rw [rfind, if_neg, ih (by omega) (by omega)]
              intro h
              obtain ⟨t, ht⟩ := List.isPrefixOf_iff_prefix.mp h
              have hk : k + 1 = ret.length + ((k - ret.length) + 1) := by omega
              rw [hk, ← List.drop_drop, List.append_assoc, List.drop_left, show 32 :: name ++ 40 :: x = 32 :: (name ++ 40 :: x) from rfl, List.drop_succ_cons,
                List.drop_append_of_le_length (by omega)] at ht
              have hlt : k - ret.length < name.length := by omega
              rw [List.drop_eq_getElem_cons hlt] at ht
              have := (List.cons.inj ht).1
              exact h2 (by rw [this]; exact List.getElem_mem _)
        exact hd _ (Nat.le_refl _) (by omega)
      · rw [← hl, List.drop_left]
        simp [List.isPrefixOf]
    exact hst 0 (Nat.zero_le _)
  rw [cut_of (find_char (Nat.zero_le _) h1) hr]
  dsimp only [nameStart]
  rw [if_neg]
  · have e2 : (ret ++ 32 :: name ++ 40 :: x).drop (ret.length + 1) = name ++ 40 :: x := by simp
    have e3 : (ret ++ 32 :: name).length - (ret.length + 1) = name.length := by rw [List.length_append, List.length_cons]; omega
    rw [e2, e3, List.take_left]
  · rintro ⟨h4, h5⟩
    refine h3 ⟨ret.take (ret.length - 8), ?_⟩
    have e4 : ret.length + 1 - 9 = ret.length - 8 := by omega
    rw [e4, List.append_assoc, List.drop_append_of_le_length (by omega)] at h5
    have e5 : (ret.drop (ret.length - 8)).length = 8 := by rw [List.length_drop]; omega
    rw [List.take_append, e5, List.take_of_length_le (by omega)] at h5
    have h6 : ret.drop (ret.length - 8) ++ [32] = b!"operator" ++ [32] := by simpa using h5
    have h7 := List.append_inj_left' h6 rfl
    rw [← h7, List.take_append_drop]

/-- No blank at all. -/
theorem cut_start {name x : Bytes} (h1 : (40 : UInt8) ∉ name) (h2 : (32 : UInt8) ∉ name) : cutName (name ++ [40] ++ x) = name := by
  have e1 : name ++ [40] ++ x = name ++ 40 :: x := by simp
  rw [e1]
  have hr : ∀ k ≤ name.length, rfind (name ++ 40 :: x) b!" " k = none := by
    intro k
    have hno : ∀ k ≤ name.length, ¬ (b!" ").isPrefixOf ((name ++ 40 :: x).drop k) = true := by
      intro k hk h
      obtain ⟨t, ht⟩ := List.isPrefixOf_iff_prefix.mp h
      rw [List.drop_append_of_le_length hk] at ht
      rcases Nat.lt_or_ge k name.length with hlt | hge
      · rw [List.drop_eq_getElem_cons hlt] at ht
        have := (List.cons.inj ht).1
        exact h2 (by rw [this]; exact List.getElem_mem _)
      · rw [List.drop_of_length_le hge] at ht
        simp at ht
    induction k with
    | zero => intro h; have := hno 0 h; rw [List.drop_zero] at this; rw [rfind, if_neg this]
    | succ k ih => intro h; rw [rfind, if_neg (hno _ h), ih (by omega)]
  rw [cut_of (find_char (Nat.zero_le _) h1) (hr _ (Nat.le_refl _))]
  dsimp only [nameStart]
  rw [if_neg (by omega), List.drop_zero, Nat.sub_zero, List.take_left]

/-! ### The loops of the parser end -/

/-- With more rounds than there are first characters of the pattern the result does not depend on the number. -/
theorem replacePattern_ends {base left right : Bytes} {c : UInt8} (hb : ∀ d ∈ base, IsRepl d) (hc : ¬ IsRepl c) (hl : c ∈ left) : ∀ (fuel : Nat) (pos : Option Nat) (s : Repl),
    s.1.count c < fuel → ∀ k, replacePattern base left right (fuel + k) pos s = replacePattern base left right fuel pos s
  | 0, _, _, h, _ => by omega
  | fuel + 1, pos, s, h, k => by
    rw [show fuel + 1 + k = (fuel + k) + 1 by omega, replacePattern, replacePattern]
    cases hf : rfind s.1 left (pos.getD s.1.length) with
    | none => rfl
    | some f =>
      dsimp only
      cases hr : find s.1 right (f + left.length) with
      | none => rfl
      | some e =>
        dsimp only
        refine replacePattern_ends hb hc hl fuel _ _ ?_ k
        obtain ⟨m, hm⟩ := original_spec hf hr
        have hocc : OccursAt ((s.1.drop f).take (e + right.length - f)) s.1 f := by
          refine ⟨s.1.take f, (s.1.drop f).drop (e + right.length - f), ?_, ?_⟩
          · rw [List.append_assoc, List.take_append_drop, List.take_append_drop]
          · rw [List.length_take]
            have h1 := (find_some _ _ _ _ hr).1
            have h2 : find s.1 right (f + left.length) ≠ none := by rw [hr]; simp
            have h3 : f + left.length ≤ s.1.length := by
              rw [find] at h2
              split at h2
              · assumption
              · exact absurd rfl h2
            omega
        have hw : c ∉ base ++ itoa (UInt32.ofNat s.2.length) := by
          intro hcm
          rcases List.mem_append.mp hcm with h | h
          · exact hc (hb c h)
          · exact hc (itoa_repl _ c h)
        have hne : (s.1.drop f).take (e + right.length - f) ≠ [] := by
          rw [hm]
          intro h0
          have := List.append_eq_nil_iff.mp h0
          rw [this.1] at hl
          cases hl
        have hrep := replaceAll_spec (s := s.1) (w := base ++ itoa (UInt32.ofNat s.2.length)) hne
        have hlt := replaced_count_lt hrep hw (by rw [hm]; simp [hl]) hocc
        rw [replaceOccurence]
        dsimp only
        omega

theorem replacePattern_count {base left right : Bytes} {c : UInt8} (hb : ∀ d ∈ base, IsRepl d) (hc : ¬ IsRepl c) (hl : left ≠ []) : ∀ (fuel : Nat) (pos : Option Nat) (s : Repl),
    (replacePattern base left right fuel pos s).1.count c ≤ s.1.count c
  | 0, _, _ => Nat.le_refl _
  | fuel + 1, pos, s => by
    rw [replacePattern]
    cases hf : rfind s.1 left (pos.getD s.1.length) with
    | none => exact Nat.le_refl _
    | some f =>
      dsimp only
      cases hr : find s.1 right (f + left.length) with
      | none => exact Nat.le_refl _
      | some e =>
        dsimp only
        refine Nat.le_trans (replacePattern_count hb hc hl fuel _ _) ?_
        obtain ⟨m, hm⟩ := original_spec hf hr
        have hw : c ∉ base ++ itoa (UInt32.ofNat s.2.length) := by
          intro hcm
          rcases List.mem_append.mp hcm with h | h
          · exact hc (hb c h)
          · exact hc (itoa_repl _ c h)
        have hne : (s.1.drop f).take (e + right.length - f) ≠ [] := by
          rw [hm]
          intro h0
          exact hl (List.append_eq_nil_iff.mp h0).1
        rw [replaceOccurence]
        dsimp only
        exact replaced_count (replaceAll_spec hne) hw

theorem findRandom_ends {sig : Bytes} {rand : Nat → Nat} : ∀ (fuel k : Nat) (res : Bytes), sig.length < fuel + res.length → ∀ j,
    findRandom sig rand (fuel + j) k res = findRandom sig rand fuel k res
  | 0, k, res, hl, j => by
    have hf : find sig res 0 = none := by
      cases hf : find sig res 0 with
      | none => rfl
      | some i =>
        obtain ⟨_, ⟨a, b, hab, _⟩, _⟩ := find_some _ _ _ _ hf
        have := congrArg List.length hab
        simp at this
        omega
    cases j with
    | zero => rfl
    | succ j => rw [Nat.zero_add, show findRandom sig rand 0 k res = res from rfl, findRandom, hf]; rfl
  | fuel + 1, k, res, hl, j => by
    rw [show fuel + 1 + j = (fuel + j) + 1 by omega, findRandom, findRandom, findRandom_ends fuel (k + 1) _ (by simp; omega)]

end Clr.Map
