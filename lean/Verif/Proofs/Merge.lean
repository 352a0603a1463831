import Verif.Model.Merge
/-! Lemmas about the tables and the merge loops. -/
namespace Clr.Merge
open Clr.DB

section generic
variable {α : Type} {key : α → UInt32} {eq : α → α → Bool}

/-- Entries in iteration order. -/
def SortedBy (key : α → UInt32) (l : List α) : Prop := l.Pairwise (fun a b => key a ≤ key b)

theorem mem_insertBy (x y : α) (l : List α) : y ∈ insertBy key x l ↔ y = x ∨ y ∈ l := by
  induction l with
  | nil => simp [insertBy]
  | cons z l ih =>
    rw [insertBy]
    split
    · simp
    · simp only [List.mem_cons, ih]
      constructor
      · rintro (h | h | h) <;> simp [h]
      · rintro (h | h | h) <;> simp [h]

theorem sublist_insertBy (x : α) (l : List α) : l.Sublist (insertBy key x l) := by
  induction l with
  | nil => simp
  | cons z l ih =>
    rw [insertBy]
    split
    · exact List.sublist_cons_self _ _
    · exact ih.cons_cons z

theorem perm_insertBy (x : α) (l : List α) : (insertBy key x l).Perm (x :: l) := by
  induction l with
  | nil => exact .refl _
  | cons z l ih =>
    rw [insertBy]
    split
    · exact .refl _
    · exact (ih.cons z).trans (List.Perm.swap _ _ _)

theorem sorted_insertBy (x : α) (l : List α) (h : SortedBy key l) : SortedBy key (insertBy key x l) := by
  induction l with
  | nil => simp [insertBy, SortedBy]
  | cons z l ih =>
    rw [insertBy]
    have hz := List.pairwise_cons.mp h
    split
    · next hlt =>
      refine List.pairwise_cons.mpr ⟨?_, h⟩
      intro y hy
      have hxz : key x ≤ key z := by
        rw [UInt32.le_iff_toNat_le]; rw [UInt32.lt_iff_toNat_lt] at hlt; omega
      rcases List.mem_cons.mp hy with rfl | hy
      · exact hxz
      · exact UInt32.le_trans hxz (hz.1 y hy)
    · next hge =>
      refine List.pairwise_cons.mpr ⟨?_, ih hz.2⟩
      intro y hy
      rcases (mem_insertBy x y l).mp hy with rfl | hy
      · rw [UInt32.le_iff_toNat_le]; rw [UInt32.lt_iff_toNat_lt] at hge; omega
      · exact hz.1 y hy

theorem findBy_none {k : UInt32} {l : List α} (h : findBy key k l = none) : ∀ x ∈ l, key x ≠ k := by
  intro x hx he
  have := List.find?_eq_none.mp h x hx
  simp [he] at this

theorem findBy_some {k : UInt32} {l : List α} {x : α} (h : findBy key k l = some x) : x ∈ l ∧ key x = k := by
  refine ⟨List.mem_of_find?_eq_some h, ?_⟩
  have := List.find?_some h
  simpa using this

theorem findBy_isNone {k : UInt32} {l : List α} : (findBy key k l).isNone = true ↔ ∀ x ∈ l, key x ≠ k := by
  constructor
  · intro h
    exact findBy_none (Option.isNone_iff_eq_none.mp h)
  · intro h
    rw [Option.isNone_iff_eq_none]
    exact List.find?_eq_none.mpr (fun x hx => by simpa using h x hx)

theorem add_eq_ok {x : α} {l r : List α} (h : add key x l = .ok r) : key x ≠ 0 ∧ r = insertBy key x l := by
  unfold add at h
  split at h
  · cases h
  · next hk => injection h with h; exact ⟨hk, h.symm⟩

/-- One step of the unique merge. -/
theorem mergeUniques_cons {dest src r : List α} {s : α} (h : mergeUniques key dest (s :: src) = .ok r) :
    ((∃ d ∈ dest, key d = key s) ∧ mergeUniques key dest src = .ok r) ∨
    ((∀ d ∈ dest, key d ≠ key s) ∧ key s ≠ 0 ∧ mergeUniques key (insertBy key s dest) src = .ok r) := by
  rw [mergeUniques] at h
  split at h
  · next hn =>
    rw [Res.bind_eq_ok] at h
    obtain ⟨d', h1, h2⟩ := h
    obtain ⟨h3, rfl⟩ := add_eq_ok h1
    exact .inr ⟨findBy_isNone.mp hn, h3, h2⟩
  · next hn =>
    left
    refine ⟨?_, h⟩
    apply Classical.byContradiction
    intro hc
    exact hn (findBy_isNone.mpr (fun x hx he => hc ⟨x, hx, he⟩))

theorem mergeUniques_sublist {dest src r : List α} (h : mergeUniques key dest src = .ok r) :
    dest.Sublist r := by
  induction src generalizing dest with
  | nil => simp only [mergeUniques, Res.ok.injEq] at h; rw [h]; exact .refl _
  | cons s src ih =>
    rcases mergeUniques_cons h with ⟨_, h⟩ | ⟨_, _, h⟩
    · exact ih h
    · exact (sublist_insertBy s dest).trans (ih h)

theorem mergeUniques_mem {dest src r : List α} (h : mergeUniques key dest src = .ok r) :
    ∀ x ∈ r, x ∈ dest ∨ x ∈ src := by
  induction src generalizing dest with
  | nil => simp only [mergeUniques, Res.ok.injEq] at h; subst h; intro x hx; exact .inl hx
  | cons s src ih =>
    intro x hx
    rcases mergeUniques_cons h with ⟨_, h⟩ | ⟨_, _, h⟩
    · rcases ih h x hx with h | h
      · exact .inl h
      · exact .inr (by simp [h])
    · rcases ih h x hx with h | h
      · rcases (mem_insertBy s x dest).mp h with rfl | h
        · exact .inr (by simp)
        · exact .inl h
      · exact .inr (by simp [h])

theorem mergeUniques_key {dest src r : List α} (h : mergeUniques key dest src = .ok r) :
    ∀ s ∈ src, ∃ d ∈ r, key d = key s := by
  induction src generalizing dest with
  | nil => simp
  | cons s src ih =>
    intro x hx
    rcases mergeUniques_cons h with ⟨⟨d, hd, hk⟩, h⟩ | ⟨_, _, h⟩
    · rcases List.mem_cons.mp hx with rfl | hx
      · exact ⟨d, (mergeUniques_sublist h).subset hd, hk⟩
      · exact ih h x hx
    · rcases List.mem_cons.mp hx with rfl | hx
      · exact ⟨x, (mergeUniques_sublist h).subset ((mem_insertBy _ _ _).mpr (.inl rfl)), rfl⟩
      · exact ih h x hx

theorem mergeUniques_sorted {dest src r : List α} (h : mergeUniques key dest src = .ok r)
    (hs : SortedBy key dest) : SortedBy key r := by
  induction src generalizing dest with
  | nil => simp only [mergeUniques, Res.ok.injEq] at h; rw [← h]; exact hs
  | cons s src ih =>
    rcases mergeUniques_cons h with ⟨_, h⟩ | ⟨_, _, h⟩
    · exact ih h hs
    · exact ih h (sorted_insertBy s dest hs)

theorem nodup_insertBy {x : α} {l : List α} (h : (l.map key).Nodup) (hx : ∀ y ∈ l, key y ≠ key x) :
    ((insertBy key x l).map key).Nodup := by
  have hp : ((insertBy key x l).map key).Perm ((x :: l).map key) := (perm_insertBy x l).map key
  rw [hp.nodup_iff, List.map_cons, List.nodup_cons]
  refine ⟨?_, h⟩
  intro hm
  obtain ⟨y, hy, he⟩ := List.mem_map.mp hm
  exact hx y hy he

theorem mergeUniques_nodup {dest src r : List α} (h : mergeUniques key dest src = .ok r)
    (hd : (dest.map key).Nodup) : (r.map key).Nodup := by
  induction src generalizing dest with
  | nil => simp only [mergeUniques, Res.ok.injEq] at h; rw [← h]; exact hd
  | cons s src ih =>
    rcases mergeUniques_cons h with ⟨_, h⟩ | ⟨hn, _, h⟩
    · exact ih h hd
    · exact ih h (nodup_insertBy hd hn)

/-- Nothing is added when every key is there already. -/
theorem mergeUniques_noop {dest src : List α} (h : ∀ s ∈ src, ∃ d ∈ dest, key d = key s) :
    mergeUniques key dest src = .ok dest := by
  induction src with
  | nil => rfl
  | cons s src ih =>
    rw [mergeUniques, if_neg]
    · exact ih (fun x hx => h x (by simp [hx]))
    · intro hn
      obtain ⟨d, hd, hk⟩ := h s (by simp)
      exact findBy_isNone.mp hn d hd hk

theorem mergeUniques_returns {dest src : List α} (h : ∀ s ∈ src, key s ≠ 0) :
    ∃ r, mergeUniques key dest src = .ok r := by
  induction src generalizing dest with
  | nil => exact ⟨dest, rfl⟩
  | cons s src ih =>
    rw [mergeUniques]
    split
    · simp only [add, if_neg (h s (by simp)), Res.bind_ok]
      exact ih (fun x hx => h x (by simp [hx]))
    · exact ih (fun x hx => h x (by simp [hx]))

/-- One step of the overload merge. -/
theorem mergeOverloads_cons {dest src r : List α} {s : α}
    (h : mergeOverloads key eq dest (s :: src) = .ok r) :
    ((∃ d ∈ dest, key d = key s ∧ eq d s = true) ∧ mergeOverloads key eq dest src = .ok r) ∨
    ((∀ d ∈ dest, key d = key s → eq d s = false) ∧ key s ≠ 0 ∧
      mergeOverloads key eq (insertBy key s dest) src = .ok r) := by
  rw [mergeOverloads] at h
  split at h
  · next hn =>
    rw [Res.bind_eq_ok] at h
    obtain ⟨d', h1, h2⟩ := h
    obtain ⟨h3, rfl⟩ := add_eq_ok h1
    exact .inr ⟨fun d hd hk => absurd hk (findBy_isNone.mp hn d hd), h3, h2⟩
  · split at h
    · next ha =>
      left
      obtain ⟨d, hd, he⟩ := List.any_eq_true.mp ha
      rw [List.mem_filter] at hd
      exact ⟨⟨d, hd.1, by simpa using hd.2, he⟩, h⟩
    · next ha =>
      rw [Res.bind_eq_ok] at h
      obtain ⟨d', h1, h2⟩ := h
      obtain ⟨h3, rfl⟩ := add_eq_ok h1
      refine .inr ⟨?_, h3, h2⟩
      intro d hd hk
      cases he : eq d s with
      | false => rfl
      | true =>
        exact absurd (List.any_eq_true.mpr ⟨d, List.mem_filter.mpr ⟨hd, by simpa using hk⟩, he⟩) ha

theorem mergeOverloads_sublist {dest src r : List α} (h : mergeOverloads key eq dest src = .ok r) :
    dest.Sublist r := by
  induction src generalizing dest with
  | nil => simp only [mergeOverloads, Res.ok.injEq] at h; rw [h]; exact .refl _
  | cons s src ih =>
    rcases mergeOverloads_cons h with ⟨_, h⟩ | ⟨_, _, h⟩
    · exact ih h
    · exact (sublist_insertBy s dest).trans (ih h)

theorem mergeOverloads_mem {dest src r : List α} (h : mergeOverloads key eq dest src = .ok r) :
    ∀ x ∈ r, x ∈ dest ∨ x ∈ src := by
  induction src generalizing dest with
  | nil => simp only [mergeOverloads, Res.ok.injEq] at h; subst h; intro x hx; exact .inl hx
  | cons s src ih =>
    intro x hx
    rcases mergeOverloads_cons h with ⟨_, h⟩ | ⟨_, _, h⟩
    · rcases ih h x hx with h | h
      · exact .inl h
      · exact .inr (by simp [h])
    · rcases ih h x hx with h | h
      · rcases (mem_insertBy s x dest).mp h with rfl | h
        · exact .inr (by simp)
        · exact .inl h
      · exact .inr (by simp [h])

theorem mergeOverloads_repr {dest src r : List α} (h : mergeOverloads key eq dest src = .ok r) :
    ∀ s ∈ src, s ∈ r ∨ ∃ d ∈ r, key d = key s ∧ eq d s = true := by
  induction src generalizing dest with
  | nil => simp
  | cons s src ih =>
    intro x hx
    rcases mergeOverloads_cons h with ⟨⟨d, hd, hk⟩, h⟩ | ⟨_, _, h⟩
    · rcases List.mem_cons.mp hx with rfl | hx
      · exact .inr ⟨d, (mergeOverloads_sublist h).subset hd, hk⟩
      · exact ih h x hx
    · rcases List.mem_cons.mp hx with rfl | hx
      · exact .inl ((mergeOverloads_sublist h).subset ((mem_insertBy _ _ _).mpr (.inl rfl)))
      · exact ih h x hx

theorem mergeOverloads_sorted {dest src r : List α} (h : mergeOverloads key eq dest src = .ok r)
    (hs : SortedBy key dest) : SortedBy key r := by
  induction src generalizing dest with
  | nil => simp only [mergeOverloads, Res.ok.injEq] at h; rw [← h]; exact hs
  | cons s src ih =>
    rcases mergeOverloads_cons h with ⟨_, h⟩ | ⟨_, _, h⟩
    · exact ih h hs
    · exact ih h (sorted_insertBy s dest hs)

theorem mergeOverloads_noop {dest src : List α} (h : ∀ s ∈ src, ∃ d ∈ dest, key d = key s ∧ eq d s = true) :
    mergeOverloads key eq dest src = .ok dest := by
  induction src with
  | nil => rfl
  | cons s src ih =>
    obtain ⟨d, hd, hk, he⟩ := h s (by simp)
    rw [mergeOverloads, if_neg, if_pos]
    · exact ih (fun x hx => h x (by simp [hx]))
    · exact List.any_eq_true.mpr ⟨d, List.mem_filter.mpr ⟨hd, by simpa using hk⟩, he⟩
    · intro hn
      exact findBy_isNone.mp hn d hd hk

theorem mergeOverloads_again {dest src r : List α} (h : mergeOverloads key eq dest src = .ok r)
    (hr : ∀ s ∈ src, eq s s = true) : mergeOverloads key eq r src = .ok r := by
  apply mergeOverloads_noop
  intro s hs
  rcases mergeOverloads_repr h s hs with hm | hd
  · exact ⟨s, hm, rfl, hr s hs⟩
  · exact hd

theorem mergeOverloads_self {l : List α} (hr : ∀ s ∈ l, eq s s = true) : mergeOverloads key eq l l = .ok l :=
  mergeOverloads_noop fun s hs => ⟨s, hs, rfl, hr s hs⟩

theorem mergeOverloads_returns {dest src : List α} (h : ∀ s ∈ src, key s ≠ 0) :
    ∃ r, mergeOverloads key eq dest src = .ok r := by
  induction src generalizing dest with
  | nil => exact ⟨dest, rfl⟩
  | cons s src ih =>
    have hs : key s ≠ 0 := h s (by simp)
    rw [mergeOverloads]
    simp only [add, if_neg hs, Res.bind_ok]
    split
    · exact ih (fun x hx => h x (by simp [hx]))
    · split
      · exact ih (fun x hx => h x (by simp [hx]))
      · exact ih (fun x hx => h x (by simp [hx]))

end generic

/-! ### Classes -/

theorem assignClass_map (s : Class) (l : List Class) :
    (assignClass s l).map classKey = l.map classKey := by
  induction l with
  | nil => rfl
  | cons d l ih =>
    rw [assignClass]
    split
    · next h => simp only [List.map_cons, List.cons.injEq, and_true]; exact (by simpa using h : classKey d = classKey s).symm
    · simp [ih]

/-- What may happen to a class entry: it stays, or a forward declaration becomes a definition. -/
def Upgrades (src : List Class) (c c' : Class) : Prop :=
  c' = c ∨ (c.size = forwardDeclSize ∧ c' ∈ src ∧ c'.size ≠ forwardDeclSize ∧ classKey c' = classKey c)

/-- Pointwise relation of two lists. -/
inductive Pointwise {α : Type} (R : α → α → Prop) : List α → List α → Prop where
  | nil : Pointwise R [] []
  | cons {a b : α} {l m : List α} : R a b → Pointwise R l m → Pointwise R (a :: l) (b :: m)

theorem Pointwise.refl {α : Type} {R : α → α → Prop} (h : ∀ a, R a a) (l : List α) : Pointwise R l l := by
  induction l with
  | nil => exact .nil
  | cons a l ih => exact .cons (h a) ih

theorem Pointwise.mem {α : Type} {R : α → α → Prop} {l m : List α} (h : Pointwise R l m) :
    ∀ a ∈ l, ∃ b ∈ m, R a b := by
  induction h with
  | nil => simp
  | cons hab _ ih =>
    intro x hx
    rcases List.mem_cons.mp hx with rfl | hx
    · exact ⟨_, by simp, hab⟩
    · obtain ⟨b, hb, hr⟩ := ih x hx
      exact ⟨b, by simp [hb], hr⟩

theorem Upgrades.trans {src : List Class} {a b c : Class} (h1 : Upgrades src a b) (h2 : Upgrades src b c) :
    Upgrades src a c := by
  rcases h1 with rfl | ⟨f1, m1, n1, k1⟩
  · exact h2
  · rcases h2 with rfl | ⟨f2, _, _, _⟩
    · exact .inr ⟨f1, m1, n1, k1⟩
    · exact absurd f2 n1

theorem Pointwise.trans {α : Type} {R : α → α → Prop} (ht : ∀ a b c, R a b → R b c → R a c)
    {l m n : List α} (h1 : Pointwise R l m) (h2 : Pointwise R m n) : Pointwise R l n := by
  induction h1 generalizing n with
  | nil => cases h2; exact .nil
  | cons hab _ ih =>
    cases h2 with
    | cons hbc h2 => exact .cons (ht _ _ _ hab hbc) (ih h2)

theorem Pointwise.imp {α : Type} {R S : α → α → Prop} (hi : ∀ a b, R a b → S a b)
    {l m : List α} (h : Pointwise R l m) : Pointwise S l m := by
  induction h with
  | nil => exact .nil
  | cons hab _ ih => exact .cons (hi _ _ hab) ih

theorem Pointwise.sublist {α : Type} {R : α → α → Prop} {l l' m : List α} (hs : l.Sublist l')
    (h : Pointwise R l' m) : ∃ m', Pointwise R l m' ∧ m'.Sublist m := by
  induction hs generalizing m with
  | slnil => cases h; exact ⟨[], .nil, .slnil⟩
  | cons a _ ih =>
    cases h with
    | cons hab h =>
      obtain ⟨m', h1, h2⟩ := ih h
      exact ⟨m', h1, h2.cons _⟩
  | cons_cons a _ ih =>
    cases h with
    | cons hab h =>
      obtain ⟨m', h1, h2⟩ := ih h
      exact ⟨_, .cons hab h1, h2.cons_cons _⟩

theorem assignClass_pointwise (s d : Class) (l src : List Class) (hf : findBy classKey (classKey s) l = some d)
    (h1 : d.size = forwardDeclSize) (h2 : s.size ≠ forwardDeclSize) (hs : s ∈ src) :
    Pointwise (Upgrades src) l (assignClass s l) := by
  induction l with
  | nil => cases hf
  | cons x l ih =>
    rw [assignClass]
    unfold findBy at hf
    rw [List.find?_cons] at hf
    split
    · next hk =>
      rw [hk] at hf
      simp only [Option.some.injEq] at hf
      subst hf
      exact .cons (.inr ⟨h1, hs, h2, (by simpa using hk : classKey x = classKey s).symm⟩)
        (Pointwise.refl (fun a => .inl rfl) l)
    · next hk =>
      simp only [Bool.not_eq_true] at hk
      rw [hk] at hf
      exact .cons (.inl rfl) (ih hf)

theorem assignClass_mem (s x : Class) (l : List Class) (h : x ∈ assignClass s l) : x = s ∨ x ∈ l := by
  induction l with
  | nil => cases h
  | cons d l ih =>
    rw [assignClass] at h
    split at h
    · rcases List.mem_cons.mp h with rfl | h
      · exact .inl rfl
      · exact .inr (by simp [h])
    · rcases List.mem_cons.mp h with rfl | h
      · exact .inr (by simp)
      · rcases ih h with h | h
        · exact .inl h
        · exact .inr (by simp [h])

theorem findBy_assignClass (s d : Class) (l : List Class) (hf : findBy classKey (classKey s) l = some d)
    (k : UInt32) :
    findBy classKey k (assignClass s l) = if k = classKey s then some s else findBy classKey k l := by
  induction l with
  | nil => cases hf
  | cons x l ih =>
    rw [assignClass]
    unfold findBy at hf ih ⊢
    rw [List.find?_cons] at hf
    split
    · next hk =>
      have hk' : classKey x = classKey s := by simpa using hk
      rw [List.find?_cons, List.find?_cons]
      by_cases hks : k = classKey s
      · subst hks; simp
      · rw [if_neg hks]
        have : (classKey s == k) = false := by simpa using fun h => hks h.symm
        rw [hk', this]
    · next hk =>
      simp only [Bool.not_eq_true] at hk
      rw [hk] at hf
      rw [List.find?_cons, List.find?_cons, ih hf]
      by_cases hks : k = classKey s
      · subst hks; rw [hk]
      · rw [if_neg hks, if_neg hks]

theorem mergeClasses_cons {dest src r : List Class} {s : Class}
    (h : mergeClasses dest (s :: src) = .ok r) :
    ((∀ d ∈ dest, classKey d ≠ classKey s) ∧ classKey s ≠ 0 ∧
      mergeClasses (insertBy classKey s dest) src = .ok r) ∨
    (∃ d, findBy classKey (classKey s) dest = some d ∧ d.size = forwardDeclSize ∧ s.size ≠ forwardDeclSize ∧
      mergeClasses (assignClass s dest) src = .ok r) ∨
    (∃ d, findBy classKey (classKey s) dest = some d ∧ ¬ (d.size = forwardDeclSize ∧ s.size ≠ forwardDeclSize) ∧
      mergeClasses dest src = .ok r) := by
  rw [mergeClasses] at h
  split at h
  · next hn =>
    rw [Res.bind_eq_ok] at h
    obtain ⟨d', h1, h2⟩ := h
    obtain ⟨h3, rfl⟩ := add_eq_ok h1
    exact .inl ⟨findBy_none hn, h3, h2⟩
  · next d hd =>
    split at h
    · next hc => exact .inr (.inl ⟨d, hd, hc.1, hc.2, h⟩)
    · next hc => exact .inr (.inr ⟨d, hd, hc, h⟩)

theorem Upgrades.weaken {src : List Class} {s a b : Class} (h : Upgrades src a b) : Upgrades (s :: src) a b := by
  rcases h with h | ⟨h1, h2, h3⟩
  · exact .inl h
  · exact .inr ⟨h1, by simp [h2], h3⟩

/-- The old entries stay in place, upgraded at most; new ones come in between. -/
theorem mergeClasses_kept {dest src r : List Class} (h : mergeClasses dest src = .ok r) :
    ∃ dest', Pointwise (Upgrades src) dest dest' ∧ dest'.Sublist r := by
  induction src generalizing dest with
  | nil =>
    simp only [mergeClasses, Res.ok.injEq] at h; subst h
    exact ⟨dest, Pointwise.refl (fun a => .inl rfl) dest, .refl _⟩
  | cons s src ih =>
    rcases mergeClasses_cons h with ⟨_, _, h⟩ | ⟨d, h1, h2, h3, h⟩ | ⟨d, _, _, h⟩
    · obtain ⟨m, p, sb⟩ := ih h
      obtain ⟨m', p', sb'⟩ := Pointwise.sublist (sublist_insertBy s dest) p
      exact ⟨m', p'.imp (fun _ _ => Upgrades.weaken), sb'.trans sb⟩
    · obtain ⟨m, p, sb⟩ := ih h
      exact ⟨m, Pointwise.trans (R := Upgrades (s :: src)) (fun _ _ _ h1 h2 => Upgrades.trans h1 h2)
        (assignClass_pointwise s d dest (s :: src) h1 h2 h3 (by simp)) (p.imp (fun _ _ => Upgrades.weaken)), sb⟩
    · obtain ⟨m, p, sb⟩ := ih h
      exact ⟨m, p.imp (fun _ _ => Upgrades.weaken), sb⟩

theorem mergeClasses_mem {dest src r : List Class} (h : mergeClasses dest src = .ok r) :
    ∀ x ∈ r, x ∈ dest ∨ x ∈ src := by
  induction src generalizing dest with
  | nil => simp only [mergeClasses, Res.ok.injEq] at h; subst h; intro x hx; exact .inl hx
  | cons s src ih =>
    intro x hx
    rcases mergeClasses_cons h with ⟨_, _, h⟩ | ⟨d, h1, h2, h3, h⟩ | ⟨d, _, _, h⟩
    · rcases ih h x hx with h | h
      · rcases (mem_insertBy s x dest).mp h with rfl | h
        · exact .inr (by simp)
        · exact .inl h
      · exact .inr (by simp [h])
    · rcases ih h x hx with h | h
      · rcases assignClass_mem s x dest h with rfl | h
        · exact .inr (by simp)
        · exact .inl h
      · exact .inr (by simp [h])
    · rcases ih h x hx with h | h
      · exact .inl h
      · exact .inr (by simp [h])

theorem mergeClasses_nodup {dest src r : List Class} (h : mergeClasses dest src = .ok r)
    (hd : (dest.map classKey).Nodup) : (r.map classKey).Nodup := by
  induction src generalizing dest with
  | nil => simp only [mergeClasses, Res.ok.injEq] at h; rw [← h]; exact hd
  | cons s src ih =>
    rcases mergeClasses_cons h with ⟨hn, _, h⟩ | ⟨d, _, _, _, h⟩ | ⟨d, _, _, h⟩
    · exact ih h (nodup_insertBy hd hn)
    · exact ih h (by rw [assignClass_map]; exact hd)
    · exact ih h hd

theorem sortedBy_iff_map {l : List Class} : SortedBy classKey l ↔ (l.map classKey).Pairwise (· ≤ ·) := by
  unfold SortedBy; rw [List.pairwise_map]

theorem mergeClasses_sorted {dest src r : List Class} (h : mergeClasses dest src = .ok r)
    (hd : SortedBy classKey dest) : SortedBy classKey r := by
  induction src generalizing dest with
  | nil => simp only [mergeClasses, Res.ok.injEq] at h; rw [← h]; exact hd
  | cons s src ih =>
    rcases mergeClasses_cons h with ⟨hn, _, h⟩ | ⟨d, _, _, _, h⟩ | ⟨d, _, _, h⟩
    · exact ih h (sorted_insertBy s dest hd)
    · exact ih h (by rw [sortedBy_iff_map, assignClass_map, ← sortedBy_iff_map]; exact hd)
    · exact ih h hd

/-- The state of a key in a class table: not there, only declared, or defined (by its first entry). -/
def defined (k : UInt32) (l : List Class) : Prop := ∃ d, findBy classKey k l = some d ∧ d.size ≠ forwardDeclSize

theorem findBy_insertBy {α : Type} (key : α → UInt32) (s : α) (l : List α) (hn : ∀ d ∈ l, key d ≠ key s) (k : UInt32) :
    findBy key k (insertBy key s l) = if k = key s then some s else findBy key k l := by
  induction l with
  | nil =>
    unfold findBy
    simp only [insertBy, List.find?_cons, List.find?_nil]
    by_cases h : k = key s
    · subst h; simp
    · rw [if_neg h]
      have : (key s == k) = false := by simpa using fun h' => h h'.symm
      rw [this]
  | cons x l ih =>
    have hx : key x ≠ key s := hn x (by simp)
    rw [insertBy]
    unfold findBy at ih ⊢
    split
    · rw [List.find?_cons]
      by_cases h : k = key s
      · subst h; simp
      · rw [if_neg h]
        have : (key s == k) = false := by simpa using fun h' => h h'.symm
        rw [this]
    · rw [List.find?_cons, List.find?_cons, ih (fun d hd => hn d (by simp [hd]))]
      by_cases h : k = key s
      · subst h
        have : (key x == key s) = false := by simpa using hx
        rw [this]
      · rw [if_neg h, if_neg h]

theorem mergeClasses_defined {dest src r : List Class} (h : mergeClasses dest src = .ok r) (k : UInt32) :
    defined k r ↔ defined k dest ∨ ∃ s ∈ src, classKey s = k ∧ s.size ≠ forwardDeclSize ∧
      ¬ defined k dest := by
  have key : defined k r ↔ defined k dest ∨ ∃ s ∈ src, classKey s = k ∧ s.size ≠ forwardDeclSize := by
    induction src generalizing dest with
    | nil => simp only [mergeClasses, Res.ok.injEq] at h; subst h; simp
    | cons s src ih =>
      rcases mergeClasses_cons h with ⟨hn, _, h⟩ | ⟨d, h1, h2, h3, h⟩ | ⟨d, h1, h2, h⟩
      · rw [ih h]
        have hf := findBy_insertBy classKey s dest hn k
        by_cases hk : k = classKey s
        · rw [if_pos hk] at hf
          have hnd : ¬ defined k dest := by
            rintro ⟨d, hd, _⟩
            have := findBy_some hd
            exact hn d this.1 (by rw [this.2, hk])
          constructor
          · rintro (⟨d, hd, hz⟩ | ⟨x, hx, hy⟩)
            · rw [hf] at hd; injection hd with hd; subst hd
              exact .inr ⟨s, by simp, hk.symm, hz⟩
            · exact .inr ⟨x, by simp [hx], hy⟩
          · rintro (hd | ⟨x, hx, hxk, hz⟩)
            · exact absurd hd hnd
            · rcases List.mem_cons.mp hx with rfl | hx
              · exact .inl ⟨x, hf, hz⟩
              · exact .inr ⟨x, hx, hxk, hz⟩
        · rw [if_neg hk] at hf
          have : defined k (insertBy classKey s dest) ↔ defined k dest := by unfold defined; rw [hf]
          rw [this]
          constructor
          · rintro (hd | ⟨x, hx, hy⟩)
            · exact .inl hd
            · exact .inr ⟨x, by simp [hx], hy⟩
          · rintro (hd | ⟨x, hx, hxk, hz⟩)
            · exact .inl hd
            · rcases List.mem_cons.mp hx with rfl | hx
              · exact absurd hxk.symm hk
              · exact .inr ⟨x, hx, hxk, hz⟩
      · rw [ih h]
        have hf := findBy_assignClass s d dest h1 k
        by_cases hk : k = classKey s
        · rw [if_pos hk] at hf
          constructor
          · intro _; exact .inr ⟨s, by simp, hk.symm, h3⟩
          · intro _; exact .inl ⟨s, hf, h3⟩
        · rw [if_neg hk] at hf
          have : defined k (assignClass s dest) ↔ defined k dest := by unfold defined; rw [hf]
          rw [this]
          constructor
          · rintro (hd | ⟨x, hx, hy⟩)
            · exact .inl hd
            · exact .inr ⟨x, by simp [hx], hy⟩
          · rintro (hd | ⟨x, hx, hxk, hz⟩)
            · exact .inl hd
            · rcases List.mem_cons.mp hx with rfl | hx
              · exact absurd hxk.symm hk
              · exact .inr ⟨x, hx, hxk, hz⟩
      · rw [ih h]
        constructor
        · rintro (hd | ⟨x, hx, hy⟩)
          · exact .inl hd
          · exact .inr ⟨x, by simp [hx], hy⟩
        · rintro (hd | ⟨x, hx, hxk, hz⟩)
          · exact .inl hd
          · rcases List.mem_cons.mp hx with rfl | hx
            · left
              refine ⟨d, by rw [← hxk]; exact h1, ?_⟩
              intro hfd; exact h2 ⟨hfd, hz⟩
            · exact .inr ⟨x, hx, hxk, hz⟩
  rw [key]
  constructor
  · rintro (h | ⟨s, hs, hk, hz⟩)
    · exact .inl h
    · by_cases hd : defined k dest
      · exact .inl hd
      · exact .inr ⟨s, hs, hk, hz, hd⟩
  · rintro (h | ⟨s, hs, hk, hz, _⟩)
    · exact .inl h
    · exact .inr ⟨s, hs, hk, hz⟩

theorem mergeClasses_keys {dest src r : List Class} (h : mergeClasses dest src = .ok r) (k : UInt32) :
    (∃ c ∈ r, classKey c = k) ↔ (∃ c ∈ dest, classKey c = k) ∨ ∃ s ∈ src, classKey s = k := by
  induction src generalizing dest with
  | nil => simp only [mergeClasses, Res.ok.injEq] at h; subst h; simp
  | cons s src ih =>
    rcases mergeClasses_cons h with ⟨hn, _, h⟩ | ⟨d, h1, h2, h3, h⟩ | ⟨d, h1, h2, h⟩
    · rw [ih h]
      simp only [mem_insertBy, List.mem_cons]
      constructor
      · rintro (⟨c, rfl | hc, hk⟩ | ⟨c, hc, hk⟩)
        · exact .inr ⟨c, .inl rfl, hk⟩
        · exact .inl ⟨c, hc, hk⟩
        · exact .inr ⟨c, .inr hc, hk⟩
      · rintro (⟨c, hc, hk⟩ | ⟨c, rfl | hc, hk⟩)
        · exact .inl ⟨c, .inr hc, hk⟩
        · exact .inl ⟨c, .inl rfl, hk⟩
        · exact .inr ⟨c, hc, hk⟩
    · rw [ih h]
      have hm : (∃ c ∈ assignClass s dest, classKey c = k) ↔ ∃ c ∈ dest, classKey c = k := by
        have := assignClass_map s dest
        rw [← List.mem_map, ← List.mem_map, this]
      rw [hm]
      have hds := findBy_some h1
      constructor
      · rintro (hc | ⟨c, hc, hk⟩)
        · exact .inl hc
        · exact .inr ⟨c, by simp [hc], hk⟩
      · rintro (hc | ⟨c, hc, hk⟩)
        · exact .inl hc
        · rcases List.mem_cons.mp hc with rfl | hc
          · exact .inl ⟨d, hds.1, by rw [hds.2, hk]⟩
          · exact .inr ⟨c, hc, hk⟩
    · rw [ih h]
      have hds := findBy_some h1
      constructor
      · rintro (hc | ⟨c, hc, hk⟩)
        · exact .inl hc
        · exact .inr ⟨c, by simp [hc], hk⟩
      · rintro (hc | ⟨c, hc, hk⟩)
        · exact .inl hc
        · rcases List.mem_cons.mp hc with rfl | hc
          · exact .inl ⟨d, hds.1, by rw [hds.2, hk]⟩
          · exact .inr ⟨c, hc, hk⟩

/-- Nothing happens when every source class is there and is defined if the source defines it. -/
theorem mergeClasses_noop {dest src : List Class}
    (h : ∀ s ∈ src, ∃ d, findBy classKey (classKey s) dest = some d ∧
      (d.size = forwardDeclSize → s.size = forwardDeclSize)) :
    mergeClasses dest src = .ok dest := by
  induction src with
  | nil => rfl
  | cons s src ih =>
    obtain ⟨d, hd, hz⟩ := h s (by simp)
    rw [mergeClasses, hd]
    simp only
    rw [if_neg (fun hc => hc.2 (hz hc.1))]
    exact ih (fun x hx => h x (by simp [hx]))

theorem findBy_of_mem {α : Type} {key : α → UInt32} {k : UInt32} {l : List α} (h : ∃ c ∈ l, key c = k) :
    ∃ d, findBy key k l = some d := by
  cases hf : findBy key k l with
  | some d => exact ⟨d, rfl⟩
  | none =>
    obtain ⟨c, hc, hk⟩ := h
    exact absurd hk (findBy_none hf c hc)

theorem mergeClasses_again {dest src r : List Class} (h : mergeClasses dest src = .ok r) :
    mergeClasses r src = .ok r := by
  apply mergeClasses_noop
  intro s hs
  obtain ⟨d, hd⟩ := findBy_of_mem ((mergeClasses_keys h (classKey s)).mpr (.inr ⟨s, hs, rfl⟩))
  refine ⟨d, hd, ?_⟩
  intro hz
  apply Classical.byContradiction
  intro hsz
  have : defined (classKey s) r := by
    rw [mergeClasses_defined h]
    by_cases hdd : defined (classKey s) dest
    · exact .inl hdd
    · exact .inr ⟨s, hs, rfl, hsz, hdd⟩
  obtain ⟨d', hd', hz'⟩ := this
  rw [hd] at hd'; injection hd' with hd'; subst hd'
  exact hz' hz

theorem mergeClasses_returns {dest src : List Class} (h : ∀ s ∈ src, classKey s ≠ 0) :
    ∃ r, mergeClasses dest src = .ok r := by
  induction src generalizing dest with
  | nil => exact ⟨dest, rfl⟩
  | cons s src ih =>
    rw [mergeClasses]
    split
    · simp only [add, if_neg (h s (by simp)), Res.bind_ok]
      exact ih (fun x hx => h x (by simp [hx]))
    · split
      · exact ih (fun x hx => h x (by simp [hx]))
      · exact ih (fun x hx => h x (by simp [hx]))

/-! ### Names -/

attribute [local irreducible] hashOf

theorem mem_assignBy_of_absent {α : Type} {key : α → UInt32} (x y : α) (l : List α)
    (hn : ∀ z ∈ l, key z ≠ key x) : y ∈ assignBy key x l ↔ y = x ∨ y ∈ l := by
  induction l with
  | nil => simp [assignBy]
  | cons z l ih =>
    rw [assignBy]
    split
    · simp
    · rw [if_neg (fun h => hn z (by simp) h.symm)]
      simp only [List.mem_cons, ih (fun w hw => hn w (by simp [hw]))]
      constructor
      · rintro (h | h | h) <;> simp [h]
      · rintro (h | h | h) <;> simp [h]

theorem assignBy_eq_insertBy {α : Type} {key : α → UInt32} (x : α) (l : List α)
    (hn : ∀ z ∈ l, key z ≠ key x) : assignBy key x l = insertBy key x l := by
  induction l with
  | nil => rfl
  | cons z l ih =>
    rw [assignBy, insertBy]
    split
    · rfl
    · rw [if_neg (fun h => hn z (by simp) h.symm), ih (fun w hw => hn w (by simp [hw]))]

/-- What a call of `GetName` does. -/
theorem getName_ok {names names' : List Name} {t : Option Bytes} {n : Name}
    (h : getName names t = .ok (n, names')) :
    (n = {} ∧ names' = names ∧ ∀ x, t = some x → hashOf x = 0) ∨
    (∃ x, t = some x ∧ hashOf x ≠ 0 ∧ n.text = x ∧
      ((findBy Name.hash (hashOf x) names = some n ∧ names' = names) ∨
       (n = ⟨hashOf x, x⟩ ∧ (∀ m ∈ names, m.hash ≠ hashOf x) ∧ names' = insertBy Name.hash n names))) := by
  unfold getName at h
  cases t with
  | none =>
    simp only [Res.ok.injEq, Prod.mk.injEq] at h
    exact .inl ⟨h.1.symm, h.2.symm, by simp⟩
  | some x =>
    simp only at h
    by_cases h0 : hashOf x = 0
    · rw [if_pos h0] at h
      simp only [Res.ok.injEq, Prod.mk.injEq] at h
      exact .inl ⟨h.1.symm, h.2.symm, by intro y hy; injection hy with hy; subst hy; exact h0⟩
    · rw [if_neg h0] at h
      right
      refine ⟨x, rfl, h0, ?_⟩
      cases hf : findBy Name.hash (hashOf x) names with
      | some m =>
        rw [hf] at h
        simp only at h
        by_cases hm : m.text = x
        · rw [if_pos hm] at h
          simp only [Res.ok.injEq, Prod.mk.injEq] at h
          exact ⟨by rw [← h.1]; exact hm, .inl ⟨by rw [h.1], h.2.symm⟩⟩
        · rw [if_neg hm] at h; cases h
      | none =>
        rw [hf] at h
        simp only [Res.ok.injEq, Prod.mk.injEq] at h
        have hn := findBy_none hf
        refine ⟨by rw [← h.1], .inr ⟨h.1.symm, hn, ?_⟩⟩
        rw [← h.2, ← h.1, assignBy_eq_insertBy _ _ hn]

/-- Lookups by hash survive later calls. -/
theorem getName_find {names names' : List Name} {t : Option Bytes} {n : Name}
    (h : getName names t = .ok (n, names')) (k : UInt32) (m : Name)
    (hk : findBy Name.hash k names = some m) : findBy Name.hash k names' = some m := by
  rcases getName_ok h with ⟨_, rfl, _⟩ | ⟨x, _, h0, _, ⟨_, rfl⟩ | ⟨rfl, hn, rfl⟩⟩
  · exact hk
  · exact hk
  · rw [findBy_insertBy _ _ _ hn]
    have := findBy_some hk
    rw [if_neg]
    · exact hk
    · intro he
      exact hn m this.1 (by rw [this.2, he])

theorem getName_found {names names' : List Name} {t : Bytes} {n : Name}
    (h : getName names (some t) = .ok (n, names')) (h0 : hashOf t ≠ 0) :
    findBy Name.hash (hashOf t) names' = some n ∧ n.text = t ∧ n.hash = hashOf t := by
  rcases getName_ok h with ⟨_, _, hz⟩ | ⟨x, hx, _, ht, hc⟩
  · exact absurd (hz t rfl) h0
  · injection hx with hx; subst hx
    rcases hc with ⟨hf, rfl⟩ | ⟨hn, hno, rfl⟩
    · exact ⟨hf, ht, (findBy_some hf).2⟩
    · refine ⟨?_, ht, by rw [hn]⟩
      have hh : n.hash = hashOf t := by rw [hn]
      rw [findBy_insertBy _ _ _ (by rw [hh]; exact hno), if_pos hh.symm]

theorem mergeNames_find {dest src r : List Name} (h : mergeNames dest src = .ok r) (k : UInt32) (m : Name)
    (hk : findBy Name.hash k dest = some m) : findBy Name.hash k r = some m := by
  induction src generalizing dest with
  | nil => simp only [mergeNames, Res.ok.injEq] at h; rw [← h]; exact hk
  | cons n src ih =>
    rw [mergeNames, Res.bind_eq_ok] at h
    obtain ⟨⟨a, d'⟩, h1, h2⟩ := h
    exact ih h2 (getName_find h1 k m hk)

theorem mergeNames_found {dest src r : List Name} (h : mergeNames dest src = .ok r) :
    ∀ n ∈ src, hashOf n.text ≠ 0 → ∃ m, findBy Name.hash (hashOf n.text) r = some m ∧ m.text = n.text := by
  induction src generalizing dest with
  | nil => simp
  | cons n src ih =>
    rw [mergeNames, Res.bind_eq_ok] at h
    obtain ⟨⟨a, d'⟩, h1, h2⟩ := h
    intro x hx h0
    rcases List.mem_cons.mp hx with rfl | hx
    · obtain ⟨f1, f2, _⟩ := getName_found h1 h0
      exact ⟨a, mergeNames_find h2 _ _ f1, f2⟩
    · exact ih h2 x hx h0

theorem mergeNames_noop {dest src : List Name}
    (h : ∀ n ∈ src, hashOf n.text ≠ 0 → ∃ m, findBy Name.hash (hashOf n.text) dest = some m ∧ m.text = n.text) :
    mergeNames dest src = .ok dest := by
  induction src with
  | nil => rfl
  | cons n src ih =>
    have : ∃ a, getName dest (some n.text) = .ok (a, dest) := by
      unfold getName
      simp only
      by_cases h0 : hashOf n.text = 0
      · rw [if_pos h0]; exact ⟨_, rfl⟩
      · rw [if_neg h0]
        obtain ⟨m, hm, ht⟩ := h n (by simp) h0
        rw [hm]
        simp only
        rw [if_pos ht]
        exact ⟨_, rfl⟩
    obtain ⟨a, ha⟩ := this
    rw [mergeNames, ha]
    simp only [Res.bind_ok]
    exact ih (fun x hx => h x (by simp [hx]))

theorem mergeNames_sublist {dest src r : List Name} (h : mergeNames dest src = .ok r) : dest.Sublist r := by
  induction src generalizing dest with
  | nil => simp only [mergeNames, Res.ok.injEq] at h; rw [h]; exact .refl _
  | cons n src ih =>
    rw [mergeNames, Res.bind_eq_ok] at h
    obtain ⟨⟨a, d'⟩, h1, h2⟩ := h
    refine List.Sublist.trans ?_ (ih h2)
    rcases getName_ok h1 with ⟨_, rfl, _⟩ | ⟨x, _, h0, _, ⟨_, rfl⟩ | ⟨rfl, hn, rfl⟩⟩
    · exact .refl _
    · exact .refl _
    · exact sublist_insertBy _ _

theorem mergeNames_mem {dest src r : List Name} (h : mergeNames dest src = .ok r) :
    ∀ x ∈ r, x ∈ dest ∨ ∃ n ∈ src, x.text = n.text ∧ x.hash = hashOf n.text := by
  induction src generalizing dest with
  | nil => simp only [mergeNames, Res.ok.injEq] at h; subst h; intro x hx; exact .inl hx
  | cons n src ih =>
    rw [mergeNames, Res.bind_eq_ok] at h
    obtain ⟨⟨a, d'⟩, h1, h2⟩ := h
    intro x hx
    rcases ih h2 x hx with hd | ⟨m, hm, he⟩
    · rcases getName_ok h1 with ⟨_, rfl, _⟩ | ⟨y, hy, h0, _, ⟨_, rfl⟩ | ⟨rfl, hn, rfl⟩⟩
      · exact .inl hd
      · exact .inl hd
      · rcases (mem_insertBy _ _ _).mp hd with rfl | hd
        · injection hy with hy
          exact .inr ⟨n, by simp, by rw [hy], by rw [hy]⟩
        · exact .inl hd
    · exact .inr ⟨m, by simp [hm], he⟩

end Clr.Merge
