import Verif.Model.BuildDB
import Verif.Model.BuildSpec
import Verif.Proofs.MergeStorable
/-!
Lemmas for C74: the tables of a database after a history of calls.
-/
namespace Clr.Build
open Clr.DB Clr.Merge

attribute [local irreducible] hashOf

theorem _root_.Clr.Res.map_eq_ok {α β : Type} {f : α → β} {x : Res α} {b : β} : Res.map f x = .ok b ↔ ∃ a, x = .ok a ∧ f a = b := by
  cases x <;> simp

/-! ### One table -/

section
variable {α : Type} {key : α → UInt32}

def insAll (key : α → UInt32) (l : List α) (es : List α) : List α := es.foldl (fun l e => insertBy key e l) l

theorem insAll_perm (es l : List α) : (insAll key l es).Perm (l ++ es) := by
  induction es generalizing l with
  | nil => simp [insAll]
  | cons e es ih =>
    refine (ih (insertBy key e l)).trans ?_
    refine ((perm_insertBy e l).append_right es).trans ?_
    simpa using (List.perm_middle (l₁ := l) (a := e) (l₂ := es)).symm

theorem insAll_sorted (es l : List α) (h : SortedBy key l) : SortedBy key (insAll key l es) := by
  induction es generalizing l with
  | nil => exact h
  | cons e es ih => exact ih _ (sorted_insertBy e l h)

theorem filter_insertBy (e : α) (l : List α) (h : SortedBy key l) (k : UInt32) :
    (insertBy key e l).filter (fun x => key x == k) = l.filter (fun x => key x == k) ++ [e].filter (fun x => key x == k) := by
  induction l with
  | nil => simp [insertBy]
  | cons y l ih =>
    rw [insertBy]
    split
    next hlt =>
      by_cases hk : key e = k
      · have hn : (y :: l).filter (fun x => key x == k) = [] := by
          rw [List.filter_eq_nil_iff]
          intro z hz hzk
          have hzk : key z = k := by simpa using hzk
          have hyz : key y ≤ key z := by
            rcases List.mem_cons.mp hz with rfl | hz
            · exact UInt32.le_refl _
            · exact (List.pairwise_cons.mp h).1 z hz
          rw [hzk, ← hk] at hyz
          exact absurd hlt (UInt32.not_lt.mpr hyz)
        rw [List.filter_cons, hn]
        simp [hk]
      · simp [List.filter_cons, hk]
    next hlt =>
      rw [List.filter_cons, List.filter_cons, ih (List.pairwise_cons.mp h).2]
      split <;> simp

theorem insAll_filter (es l : List α) (h : SortedBy key l) (k : UInt32) :
    (insAll key l es).filter (fun x => key x == k) = l.filter (fun x => key x == k) ++ es.filter (fun x => key x == k) := by
  induction es generalizing l with
  | nil => simp [insAll]
  | cons e es ih =>
    show (insAll key (insertBy key e l) es).filter _ = _
    rw [ih _ (sorted_insertBy e l h), filter_insertBy e l h k, List.append_assoc, ← List.filter_append]
    simp

theorem insertBy_map {β : Type} (f : β → α) (x : β) (l : List β) :
    (insertBy (fun b => key (f b)) x l).map f = insertBy key (f x) (l.map f) := by
  induction l with
  | nil => rfl
  | cons y l ih =>
    rw [insertBy, List.map_cons, insertBy]
    split <;> simp [ih]

theorem pairwise_assignBy (x : α) (l : List α) (h : l.Pairwise fun a b => key a < key b) :
    (assignBy key x l).Pairwise fun a b => key a < key b := by
  induction l with
  | nil => simp [assignBy]
  | cons y l ih =>
    have hp := List.pairwise_cons.mp h
    rw [assignBy]
    split
    next hlt =>
      refine List.pairwise_cons.mpr ⟨?_, h⟩
      intro z hz
      rcases List.mem_cons.mp hz with rfl | hz
      · exact hlt
      · exact UInt32.lt_trans hlt (hp.1 z hz)
    next hlt =>
      split
      next he => exact List.pairwise_cons.mpr ⟨fun z hz => by rw [he]; exact hp.1 z hz, hp.2⟩
      next he =>
        refine List.pairwise_cons.mpr ⟨?_, ih hp.2⟩
        intro z hz
        have hm : z = x ∨ z ∈ l := by
          clear ih hp h
          induction l with
          | nil => simp [assignBy] at hz; exact .inl hz
          | cons w l ih =>
            rw [assignBy] at hz
            split at hz
            · simpa using hz
            · split at hz
              · rcases List.mem_cons.mp hz with h | h <;> simp [h]
              · rcases List.mem_cons.mp hz with h | h
                · simp [h]
                · rcases ih h with h | h <;> simp [h]
        rcases hm with rfl | hm
        · exact UInt32.lt_of_le_of_ne (UInt32.not_lt.mp hlt) (fun h => he h.symm)
        · exact hp.1 z hm

theorem findBy_assignBy (x : α) (l : List α) (h : l.Pairwise fun a b => key a < key b) (k : UInt32) :
    findBy key k (assignBy key x l) = if key x = k then some x else findBy key k l := by
  induction l with
  | nil => simp only [assignBy, findBy, List.find?_cons, List.find?_nil]; split <;> simp_all
  | cons y l ih =>
    have hp := List.pairwise_cons.mp h
    rw [assignBy]
    split
    next hlt => simp only [findBy, List.find?_cons]; split <;> simp_all
    next hlt =>
      split
      next he =>
        simp only [findBy, List.find?_cons]
        by_cases hk : key y = k
        · simp [he, hk]
        · have : (key y == k) = false := by simp [hk]
          simp [he, hk, this]
      next he =>
        have := ih hp.2
        simp only [findBy, List.find?_cons] at this ⊢
        split
        next hy =>
          rw [if_neg]
          intro hx
          exact he (by rw [hx]; exact (by simpa using hy : key y = k).symm)
        next hy => exact this

theorem mem_insertNew {x z : α} {l : List α} (h : z ∈ insertNew key x l) : z = x ∨ z ∈ l := by
  induction l with
  | nil => simpa [insertNew] using h
  | cons w l ih =>
    rw [insertNew] at h
    split at h
    · simpa using h
    · split at h
      · exact .inr h
      · rcases List.mem_cons.mp h with h | h
        · simp [h]
        · rcases ih h with h | h <;> simp [h]

theorem pairwise_insertNew (x : α) (l : List α) (h : l.Pairwise fun a b => key a < key b) :
    (insertNew key x l).Pairwise fun a b => key a < key b := by
  induction l with
  | nil => simp [insertNew]
  | cons y l ih =>
    have hp := List.pairwise_cons.mp h
    rw [insertNew]
    split
    next hlt =>
      refine List.pairwise_cons.mpr ⟨?_, h⟩
      intro z hz
      rcases List.mem_cons.mp hz with rfl | hz
      · exact hlt
      · exact UInt32.lt_trans hlt (hp.1 z hz)
    next hlt =>
      split
      next he => exact h
      next he =>
        refine List.pairwise_cons.mpr ⟨?_, ih hp.2⟩
        intro z hz
        rcases mem_insertNew hz with rfl | hm
        · exact UInt32.lt_of_le_of_ne (UInt32.not_lt.mp hlt) (fun h => he h.symm)
        · exact hp.1 z hm

theorem findBy_insertNew (x : α) (l : List α) (h : l.Pairwise fun a b => key a < key b) (k : UInt32) :
    findBy key k (insertNew key x l) = (findBy key k l).or (if key x = k then some x else none) := by
  induction l with
  | nil => simp only [insertNew, findBy, List.find?_cons, List.find?_nil]; split <;> simp_all
  | cons y l ih =>
    have hp := List.pairwise_cons.mp h
    rw [insertNew]
    split
    next hlt =>
      by_cases hx : key x = k
      · have hn : findBy key k (y :: l) = none := by
          rw [findBy, List.find?_eq_none]
          intro z hz hzk
          have hzk : key z = k := by simpa using hzk
          have : key x < key z := by
            rcases List.mem_cons.mp hz with rfl | hz
            · exact hlt
            · exact UInt32.lt_trans hlt (hp.1 z hz)
          rw [hzk, hx] at this
          exact UInt32.lt_irrefl _ this
        rw [hn]
        simp [findBy, hx]
      · have : findBy key k (x :: y :: l) = findBy key k (y :: l) := by
          simp only [findBy]
          rw [List.find?_cons_of_neg (by simpa using hx)]
        rw [this]
        simp [hx]
    next hlt =>
      split
      next he =>
        by_cases hy : key y = k
        · simp [findBy, hy]
        · rw [if_neg (by rw [he]; exact hy), Option.or_none]
      next he =>
        have := ih hp.2
        simp only [findBy, List.find?_cons] at this ⊢
        split
        · simp
        · exact this
end

/-! ### Sizes of classes -/

theorem resizeClass_noop {h : UInt32} {s : UInt64} {l : List Class} (hn : ∀ c ∈ l, c.name.hash ≠ h) : resizeClass h s l = l := by
  induction l with
  | nil => rfl
  | cons c l ih =>
    rw [resizeClass, if_neg (hn c (by simp)), ih fun x hx => hn x (by simp [hx])]

theorem resizeClass_has {h : UInt32} {s : UInt64} (a b : List Class) (hh : ∃ c ∈ a, c.name.hash = h) :
    resizeClass h s (a ++ b) = resizeClass h s a ++ b := by
  induction a with
  | nil => obtain ⟨_, h, _⟩ := hh; cases h
  | cons c a ih =>
    rw [List.cons_append, resizeClass, resizeClass]
    split
    · rfl
    next hc =>
      obtain ⟨x, hx, he⟩ := hh
      rcases List.mem_cons.mp hx with rfl | hx
      · exact absurd he hc
      · rw [ih ⟨x, hx, he⟩]; rfl

theorem resizeClass_not {h : UInt32} {s : UInt64} (a b : List Class) (hn : ∀ c ∈ a, c.name.hash ≠ h) :
    resizeClass h s (a ++ b) = a ++ resizeClass h s b := by
  induction a with
  | nil => rfl
  | cons c a ih =>
    rw [List.cons_append, resizeClass, if_neg (hn c (by simp)), ih fun x hx => hn x (by simp [hx])]
    rfl

abbrev ckey (c : Class) : UInt32 := c.name.hash

theorem resizeClass_insertBy (h : UInt32) (s : UInt64) (e : Class) (T : List Class) (hs : SortedBy ckey T) :
    resizeClass h s (insertBy ckey e T) =
      if ∃ c ∈ T, c.name.hash = h then insertBy ckey e (resizeClass h s T)
      else if e.name.hash = h then insertBy ckey { e with size := s } T else insertBy ckey e T := by
  induction T with
  | nil =>
    rw [if_neg (by simp), insertBy, resizeClass]
    split <;> simp [insertBy, resizeClass]
  | cons y T ih =>
    have hp := List.pairwise_cons.mp hs
    have ih := ih hp.2
    rw [insertBy]
    split
    next hlt =>
      by_cases hh : ∃ c ∈ y :: T, c.name.hash = h
      · rw [if_pos hh]
        have hne : ¬ e.name.hash = h := by
          obtain ⟨c, hc, he⟩ := hh
          intro hx
          have hle : ckey y ≤ ckey c := by
            rcases List.mem_cons.mp hc with rfl | hc
            · exact UInt32.le_refl _
            · exact hp.1 c hc
          have : ckey c = ckey e := by show c.name.hash = e.name.hash; rw [he, hx]
          rw [this] at hle
          exact absurd hlt (UInt32.not_lt.mpr hle)
        rw [resizeClass, if_neg hne]
        rw [resizeClass]
        split
        · exact (if_pos (show ckey e < ckey { y with size := s } from hlt)).symm
        · exact (if_pos hlt).symm
      · rw [if_neg hh]
        have hno : ∀ c ∈ y :: T, c.name.hash ≠ h := fun c hc he => hh ⟨c, hc, he⟩
        rw [resizeClass]
        split
        · exact (if_pos (show ckey { e with size := s } < ckey y from hlt)).symm
        · rw [resizeClass_noop hno]
    next hlt =>
      rw [resizeClass]
      split
      next hy =>
        rw [if_pos ⟨y, by simp, hy⟩, resizeClass, if_pos hy]
        exact (if_neg (show ¬ ckey e < ckey { y with size := s } from hlt)).symm
      next hy =>
        have hiff : (∃ c ∈ y :: T, c.name.hash = h) ↔ ∃ c ∈ T, c.name.hash = h := by
          constructor
          · rintro ⟨c, hc, he⟩
            rcases List.mem_cons.mp hc with rfl | hc
            · exact absurd he hy
            · exact ⟨c, hc, he⟩
          · rintro ⟨c, hc, he⟩
            exact ⟨c, by simp [hc], he⟩
        rw [ih]
        by_cases hT : ∃ c ∈ T, c.name.hash = h
        · rw [if_pos hT, if_pos (hiff.mpr hT), resizeClass, if_neg hy, insertBy, if_neg hlt]
        · rw [if_neg hT, if_neg (fun h => hT (hiff.mp h))]
          split
          · exact (if_neg (show ¬ ckey { e with size := s } < ckey y from hlt)).symm
          · rfl

theorem insAll_snoc {α : Type} (key : α → UInt32) (l es : List α) (e : α) : insAll key l (es ++ [e]) = insertBy key e (insAll key l es) := by
  simp [insAll]

theorem resizeClass_insAll (h : UInt32) (s : UInt64) (l : List Class) :
    resizeClass h s (insAll ckey [] l) = insAll ckey [] (resizeClass h s l) := by
  rw [← List.reverse_reverse l]
  induction l.reverse with
  | nil => rfl
  | cons e r ih =>
    rw [List.reverse_cons, insAll_snoc, resizeClass_insertBy _ _ _ _ (insAll_sorted _ _ List.Pairwise.nil)]
    have hm : ∀ c, c ∈ insAll ckey [] r.reverse ↔ c ∈ r.reverse := fun c => by
      have := (insAll_perm (key := ckey) r.reverse []).mem_iff (a := c)
      simpa using this
    by_cases hT : ∃ c ∈ r.reverse, c.name.hash = h
    · rw [if_pos (by obtain ⟨c, hc, he⟩ := hT; exact ⟨c, (hm c).mpr hc, he⟩), resizeClass_has _ _ hT, insAll_snoc, ih]
    · rw [if_neg (by rintro ⟨c, hc, he⟩; exact hT ⟨c, (hm c).mp hc, he⟩),
        resizeClass_not _ _ (fun c hc he => hT ⟨c, hc, he⟩), resizeClass]
      split
      · rw [insAll_snoc]
      · rw [resizeClass, insAll_snoc]

def classesOf (l : List Entry) : List Class :=
  l.filterMap fun
    | .cls c => some c
    | _ => none

theorem filter_cls (l : List Entry) : (l.filter fun e => e.kind = .cls) = (classesOf l).map .cls := by
  induction l with
  | nil => rfl
  | cons e l ih =>
    rw [List.filter_cons, ih]
    cases e <;> simp [Entry.kind, classesOf]

theorem insAll_map {α β : Type} {key : α → UInt32} (f : β → α) (es l : List β) :
    (insAll (fun b => key (f b)) l es).map f = insAll key (l.map f) (es.map f) := by
  induction es generalizing l with
  | nil => rfl
  | cons e es ih =>
    show (insAll _ (insertBy _ e l) es).map f = insAll key (insertBy key (f e) (l.map f)) (es.map f)
    rw [ih, insertBy_map]

theorem classesOf_resize (h : UInt32) (s : UInt64) (l : List Entry) : classesOf (resize h s l) = resizeClass h s (classesOf l) := by
  induction l with
  | nil => rfl
  | cons e l ih =>
    cases e with
    | cls c =>
      rw [resize]
      show _ = resizeClass h s (c :: classesOf l)
      rw [resizeClass]
      split
      · rfl
      · show c :: classesOf _ = _
        rw [ih]
    | _ => exact ih

theorem resize_other (h : UInt32) (s : UInt64) (k : EKind) (hk : k ≠ .cls) (l : List Entry) :
    ((resize h s l).filter fun e => e.kind = k) = l.filter fun e => e.kind = k := by
  induction l with
  | nil => rfl
  | cons e l ih =>
    cases e with
    | cls c =>
      rw [resize]
      split
      · rw [List.filter_cons, List.filter_cons, if_neg (fun h => hk (of_decide_eq_true h).symm),
          if_neg (fun h => hk (of_decide_eq_true h).symm)]
      · rw [List.filter_cons, List.filter_cons, if_neg (fun h => hk (of_decide_eq_true h).symm),
          if_neg (fun h => hk (of_decide_eq_true h).symm), ih]
    | _ => rw [resize, List.filter_cons, List.filter_cons, ih]; simp

/-- What is held is what was added, but for sizes of classes. -/
theorem held_from {calls : List Call} {e : Entry} (h : e ∈ held calls) :
    e ∈ added calls ∨ ∃ c s, .cls c ∈ added calls ∧ s ∈ sizes calls ∧ e = .cls { c with size := s } := by
  have key : ∀ (cs : List Call) (l : List Entry), ∀ e ∈ cs.foldl hold l,
      (e ∈ l ++ added cs) ∨ ∃ c s, .cls c ∈ l ++ added cs ∧ s ∈ sizes cs ∧ e = .cls { c with size := s } := by
    intro cs
    induction cs with
    | nil => intro l e he; exact .inl (by simpa [added] using he)
    | cons c cs ih =>
      intro l e he
      have plain : hold l c = l → added (c :: cs) = added cs → (∀ s, s ∈ sizes cs → s ∈ sizes (c :: cs)) →
          ((e ∈ l ++ added (c :: cs)) ∨ ∃ x s, .cls x ∈ l ++ added (c :: cs) ∧ s ∈ sizes (c :: cs) ∧ e = .cls { x with size := s }) := by
        intro h1 h2 h3
        rw [List.foldl_cons, h1] at he
        rcases ih l e he with h | ⟨x, s, hx, hs, rfl⟩
        · exact .inl (by rw [h2]; exact h)
        · exact .inr ⟨x, s, by rw [h2]; exact hx, h3 s hs, rfl⟩
      cases c with
      | add x hx =>
        have e1 : added (.add x hx :: cs) = x :: added cs := rfl
        have e2 : sizes (.add x hx :: cs) = sizes cs := rfl
        rw [e1, e2]
        rw [List.foldl_cons] at he
        rcases ih _ e he with h | ⟨y, s, hy, hs, rfl⟩
        · exact .inl (by simpa [hold] using h)
        · exact .inr ⟨y, s, by simpa [hold] using hy, hs, rfl⟩
      | sizeClass n s =>
        have e1 : added (.sizeClass n s :: cs) = added cs := rfl
        have e2 : sizes (.sizeClass n s :: cs) = s :: sizes cs := rfl
        rw [e1, e2]
        rw [List.foldl_cons] at he
        have mem : ∀ (l : List Entry) x, x ∈ resize (hashOf n) s l → x ∈ l ∨ ∃ c, .cls c ∈ l ∧ x = .cls { c with size := s } := by
          intro l
          induction l with
          | nil => intro x hx; cases hx
          | cons y l ihl =>
            intro x hx
            cases y with
            | cls c =>
              rw [resize] at hx
              split at hx
              · rcases List.mem_cons.mp hx with rfl | hx
                · exact .inr ⟨c, by simp, rfl⟩
                · exact .inl (by simp [hx])
              · rcases List.mem_cons.mp hx with rfl | hx
                · exact .inl (by simp)
                · rcases ihl x hx with h | ⟨c, hc, h⟩
                  · exact .inl (by simp [h])
                  · exact .inr ⟨c, by simp [hc], h⟩
            | _ =>
              rcases List.mem_cons.mp hx with rfl | hx
              · exact .inl (by simp)
              · rcases ihl x hx with h | ⟨c, hc, h⟩
                · exact .inl (by simp [h])
                · exact .inr ⟨c, by simp [hc], h⟩
        rcases ih _ e he with h | ⟨y, s', hy, hs, rfl⟩
        · rcases List.mem_append.mp h with h | h
          · rcases mem l e h with h | ⟨c, hc, rfl⟩
            · exact .inl (by simp [h])
            · exact .inr ⟨c, s, by simp [hc], by simp, rfl⟩
          · exact .inl (by simp [h])
        · rcases List.mem_append.mp hy with h | h
          · rcases mem l _ h with h | ⟨c, hc, hcc⟩
            · exact .inr ⟨y, s', by simp [h], by simp [hs], rfl⟩
            · injection hcc with hcc
              subst hcc
              exact .inr ⟨c, s', by simp [hc], by simp [hs], rfl⟩
          · exact .inr ⟨y, s', by simp [h], by simp [hs], rfl⟩
      | getName t => exact plain rfl rfl (fun _ h => h)
      | addContainer a b c k => exact plain rfl rfl (fun _ h => h)
      | addInheritance a b => exact plain rfl rfl (fun _ h => h)
  have := key calls [] e h
  simpa using this

/-! ### One call -/

theorem addContainer_ok {db db' : Database} {x : ContainerInfo} (h : addPrimitive db (.containerInfo x) = .ok db') :
    x.name.hash ≠ 0 ∧ db' = { db with containerInfos := insertNew (fun y : ContainerInfo => y.name.hash) x db.containerInfos } := by
  rw [addPrimitive] at h
  split at h
  · cases h
  · rename_i h0
    injection h with h
    exact ⟨h0, h.symm⟩

/-- Everything one successful call does. -/
theorem addPrimitive_ok {db db' : Database} {e : Entry} (hp : isTable e.kind = true) (h : addPrimitive db e = .ok db') :
    e.name.hash ≠ 0 ∧ db'.names = db.names ∧ db'.containerInfos = db.containerInfos ∧ db'.inheritances = db.inheritances ∧
    ∀ k, isTable k = true → db'.table k = if e.kind = k then insertBy (fun e => e.name.hash) e (db.table k) else db.table k := by
  cases e <;> first | (simp [isTable, Entry.kind] at hp; done) | skip
  all_goals
    rename_i x
    simp only [addPrimitive] at h
    rw [Res.map_eq_ok] at h
    obtain ⟨l, h, rfl⟩ := h
    obtain ⟨h0, rfl⟩ := add_eq_ok h
    refine ⟨h0, rfl, rfl, rfl, ?_⟩
    intro k hk
    cases k <;> first | (simp [isTable] at hk; done) | skip
    all_goals first
      | rfl
      | (simp only [Entry.kind, if_true, _root_.Clr.DB.Database.table]
         rw [← insertBy_map]; rfl)

theorem addPrimitive_returns {db : Database} {e : Entry} (h : e.name.hash ≠ 0) : ∃ db', addPrimitive db e = .ok db' := by
  cases e <;> simp only [Entry.name] at h <;> simp only [addPrimitive, add] <;>
    first | (rw [if_neg h]; exact ⟨_, rfl⟩) | exact ⟨_, rfl⟩

theorem addPrimitive_traps {db : Database} {e : Entry} (hp : isPrimitive e = true) (h : e.name.hash = 0) : addPrimitive db e = .trap := by
  cases e <;> simp only [Entry.name] at h <;> first | (simp [isPrimitive] at hp; done) | skip
  all_goals
    simp only [addPrimitive, add]
    rw [if_pos h]; try rfl

/-! ### Names -/

/-- The names are those of the texts. -/
structure NamesOf (ts : List Bytes) (names : List Name) : Prop where
  from_texts : ∀ n ∈ names, n.hash ≠ 0 ∧ n.hash = hashOf n.text ∧ n.text ∈ ts
  present : ∀ t ∈ ts, hashOf t ≠ 0 → ⟨hashOf t, t⟩ ∈ names
  strict : names.Pairwise fun a b => a.hash < b.hash

theorem strict_eq {names : List Name} (h : names.Pairwise fun a b => a.hash < b.hash) {a b : Name} (ha : a ∈ names)
    (hb : b ∈ names) (he : a.hash = b.hash) : a = b := by
  induction names with
  | nil => simp at ha
  | cons x l ih =>
    have hp := List.pairwise_cons.mp h
    rcases List.mem_cons.mp ha with h1 | h1 <;> rcases List.mem_cons.mp hb with h2 | h2
    · rw [h1, h2]
    · have := hp.1 b h2
      rw [← h1, he] at this
      exact absurd this (UInt32.lt_irrefl _)
    · have := hp.1 a h1
      rw [← h2, he] at this
      exact absurd this (UInt32.lt_irrefl _)
    · exact ih hp.2 h1 h2

theorem NamesOf.noClash {ts : List Bytes} {names : List Name} (h : NamesOf ts names) : NoClash ts := by
  intro s hs t ht he h0
  have := strict_eq h.strict (h.present s hs h0) (h.present t ht (by rw [← he]; exact h0)) he
  injection this

theorem NamesOf.find {ts : List Bytes} {names : List Name} (h : NamesOf ts names) {n : Name} (hn : n ∈ names) :
    findBy Name.hash n.hash names = some n := by
  obtain ⟨m, hm⟩ := findBy_of_mem (key := Name.hash) (k := n.hash) ⟨n, hn, rfl⟩
  rw [hm]
  obtain ⟨h1, h2⟩ := findBy_some hm
  rw [strict_eq h.strict h1 hn h2]

theorem NamesOf.getName {ts : List Bytes} {names names' : List Name} {t : Bytes} {n : Name} (h : NamesOf ts names)
    (hg : DB.getName names (some t) = .ok (n, names')) : n = nameOf t ∧ NamesOf (ts ++ [t]) names' := by
  rcases getName_ok hg with ⟨hn, rfl, hz⟩ | ⟨x, hx, h0, ht, hc⟩
  · have h0 := hz t rfl
    refine ⟨by rw [hn, nameOf, if_pos h0], fun m hm => ?_, fun s hs hs0 => ?_, h.strict⟩
    · obtain ⟨a, b, c⟩ := h.from_texts m hm
      exact ⟨a, b, by simp [c]⟩
    · rcases List.mem_append.mp hs with hs | hs
      · exact h.present s hs hs0
      · rw [List.mem_singleton.mp hs] at hs0; exact absurd h0 hs0
  · injection hx with hx; subst hx
    rcases hc with ⟨hf, rfl⟩ | ⟨hn, hno, rfl⟩
    · obtain ⟨hm, hh⟩ := findBy_some hf
      have he : n = ⟨hashOf t, t⟩ := by cases n; simp_all
      refine ⟨by rw [nameOf, if_neg h0, he], fun m hm => ?_, fun s hs hs0 => ?_, h.strict⟩
      · obtain ⟨a, b, c⟩ := h.from_texts m hm
        exact ⟨a, b, by simp [c]⟩
      · rcases List.mem_append.mp hs with hs | hs
        · exact h.present s hs hs0
        · rw [List.mem_singleton.mp hs, ← he]; exact hm
    · refine ⟨by rw [nameOf, if_neg h0, hn], fun m hm => ?_, fun s hs hs0 => ?_, ?_⟩
      · rcases (mem_insertBy _ _ _).mp hm with rfl | hm
        · rw [hn]; exact ⟨h0, rfl, by simp⟩
        · obtain ⟨a, b, c⟩ := h.from_texts m hm
          exact ⟨a, b, by simp [c]⟩
      · refine (mem_insertBy _ _ _).mpr ?_
        rcases List.mem_append.mp hs with hs | hs
        · exact .inr (h.present s hs hs0)
        · rw [List.mem_singleton.mp hs, ← hn]; exact .inl rfl
      · exact TextDB.pairwise_insertBy n names h.strict (by rw [hn]; exact hno)

theorem NamesOf.returns {ts : List Bytes} {names : List Name} {t : Bytes} (h : NamesOf ts names)
    (hc : NoClash (ts ++ [t])) : ∃ names', DB.getName names (some t) = .ok (nameOf t, names') := by
  have key : ∃ n names', DB.getName names (some t) = .ok (n, names') := by
    unfold DB.getName
    simp only
    by_cases h0 : hashOf t = 0
    · rw [if_pos h0]; exact ⟨_, _, rfl⟩
    · rw [if_neg h0]
      cases hf : findBy Name.hash (hashOf t) names with
      | none => exact ⟨_, _, rfl⟩
      | some m =>
        obtain ⟨hm, hh⟩ := findBy_some hf
        obtain ⟨a, b, c⟩ := h.from_texts m hm
        have : m.text = t := hc _ (by simp [c]) _ (by simp) (by rw [← b, hh]) (by rw [← b]; exact a)
        simp only [if_pos this]
        exact ⟨_, _, rfl⟩
  obtain ⟨n, names', hg⟩ := key
  rw [(h.getName hg).1] at hg
  exact ⟨_, hg⟩

theorem getName_not_ub (names : List Name) (t : Option Bytes) : DB.getName names t ≠ .ub := by
  unfold DB.getName
  split
  · simp
  · simp only
    split
    · simp
    · split
      · split <;> simp
      · simp

/-! ### Histories -/

/-- The database is what the calls amount to. -/
structure Inv (calls : List Call) (db : Database) : Prop where
  names : NamesOf (interned calls) db.names
  named : ∀ e ∈ added calls, e.name.hash ≠ 0
  tables : ∀ k, isTable k = true → db.table k = insAll (fun e => e.name.hash) [] ((held calls).filter fun e => e.kind = k)
  containers_strict : db.containerInfos.Pairwise fun a b => a.name.hash < b.name.hash
  containers_last : ∀ k, findBy (fun c : ContainerInfo => c.name.hash) k db.containerInfos =
    (lastOf (fun c : ContainerInfo => c.name.hash) k (containers calls)).or
      (firstOf (fun c : ContainerInfo => c.name.hash) k (arrays calls))
  inheritances_strict : db.inheritances.Pairwise fun a b => a.name.hash < b.name.hash
  inheritances_last : ∀ k, findBy (fun c : TypeInheritance => c.name.hash) k db.inheritances =
    lastOf (fun c : TypeInheritance => c.name.hash) k (inheritances calls)

theorem lastOf_snoc {α : Type} (key : α → UInt32) (k : UInt32) (l : List α) (x : α) :
    lastOf key k (l ++ [x]) = if key x = k then some x else lastOf key k l := by
  simp only [lastOf, List.reverse_append, List.reverse_cons, List.reverse_nil, List.nil_append, List.singleton_append, List.find?_cons]
  split <;> simp_all

theorem firstOf_snoc {α : Type} (key : α → UInt32) (k : UInt32) (l : List α) (x : α) :
    firstOf key k (l ++ [x]) = (firstOf key k l).or (if key x = k then some x else none) := by
  simp only [firstOf, List.find?_append, List.find?_cons, List.find?_nil]
  congr 1
  split <;> simp_all

theorem inv_empty : Inv [] {} where
  names := ⟨by simp, by simp [interned], by simp⟩
  named := by simp [added]
  tables := by intro k _; cases k <;> rfl
  containers_strict := by simp
  containers_last := by intro k; rfl
  inheritances_strict := by simp
  inheritances_last := by intro k; rfl

theorem table_names (db : Database) (l : List Name) (k : EKind) : ({ db with names := l } : Database).table k = db.table k := by
  cases k <;> rfl

theorem interned_append (a b : List Call) : interned (a ++ b) = interned a ++ interned b := by simp [interned]
theorem arrays_append (a b : List Call) : arrays (a ++ b) = arrays a ++ arrays b := by simp [arrays, added]
theorem sizes_append (a b : List Call) : sizes (a ++ b) = sizes a ++ sizes b := by simp [sizes]
theorem held_snoc (a : List Call) (c : Call) : held (a ++ [c]) = hold (held a) c := by simp [held]
theorem added_append (a b : List Call) : added (a ++ b) = added a ++ added b := by simp [added]
theorem containers_append (a b : List Call) : containers (a ++ b) = containers a ++ containers b := by simp [containers]
theorem inheritances_append (a b : List Call) : inheritances (a ++ b) = inheritances a ++ inheritances b := by simp [inheritances]

theorem Inv.step {pre : List Call} {db db' : Database} {c : Call} (hi : Inv pre db) (h : step db c = .ok db') :
    Inv (pre ++ [c]) db' := by
  cases c with
  | getName t =>
    rw [Build.step, Res.map_eq_ok] at h
    obtain ⟨⟨n, names'⟩, hg, rfl⟩ := h
    have hnames : NamesOf (interned (pre ++ [.getName t])) names' := by
      rw [interned_append]
      cases t with
      | none =>
        simp only [DB.getName, Res.ok.injEq, Prod.mk.injEq] at hg
        rw [← hg.2]
        simpa [interned] using hi.names
      | some t => simpa [interned] using (hi.names.getName hg).2
    refine ⟨hnames, ?_, ?_, hi.containers_strict, ?_, hi.inheritances_strict, ?_⟩
    · rw [added_append]; simpa [added] using hi.named
    · intro k hk
      rw [table_names, held_snoc]; exact hi.tables k hk
    · intro k; rw [containers_append, arrays_append]; simpa [containers, arrays, added] using hi.containers_last k
    · intro k; rw [inheritances_append]; simpa [inheritances] using hi.inheritances_last k
  | add e he =>
    have ha : added [Call.add e he] = [e] := rfl
    by_cases htb : isTable e.kind = true
    · obtain ⟨h0, h1, h2, h3, h4⟩ := addPrimitive_ok htb h
      have har : arrays [Call.add e he] = [] := by
        rw [arrays, ha]
        cases e <;> first | rfl | (simp [isTable, Entry.kind] at htb; done)
      refine ⟨?_, ?_, ?_, by rw [h2]; exact hi.containers_strict, ?_, by rw [h3]; exact hi.inheritances_strict, ?_⟩
      · rw [h1, interned_append]; simpa [interned] using hi.names
      · intro x hx
        rw [added_append, ha] at hx
        rcases List.mem_append.mp hx with hx | hx
        · exact hi.named x hx
        · rw [List.mem_singleton.mp hx]; exact h0
      · intro k hk
        rw [h4 k hk, hi.tables k hk, held_snoc, hold, List.filter_append]
        by_cases hek : e.kind = k
        · simp [hek, insAll]
        · simp [hek, insAll]
      · intro k; rw [h2, containers_append, arrays_append, har]; simpa [containers] using hi.containers_last k
      · intro k; rw [h3, inheritances_append]; simpa [inheritances] using hi.inheritances_last k
    · obtain ⟨x, rfl⟩ : ∃ x, e = .containerInfo x := by
        cases e <;> first | exact ⟨_, rfl⟩ | (exact absurd rfl htb) | (simp [isPrimitive] at he; done)
      obtain ⟨h0, rfl⟩ := addContainer_ok h
      refine ⟨?_, ?_, ?_, pairwise_insertNew _ _ hi.containers_strict, ?_, hi.inheritances_strict, ?_⟩
      · rw [interned_append]; simpa [interned] using hi.names
      · intro y hy
        rw [added_append, ha] at hy
        rcases List.mem_append.mp hy with hy | hy
        · exact hi.named y hy
        · rw [List.mem_singleton.mp hy]; exact h0
      · intro k hk
        have hek : ¬ (Entry.containerInfo x).kind = k := by rintro rfl; exact htb hk
        rw [held_snoc, hold, List.filter_append]
        have : ([Entry.containerInfo x].filter fun e => e.kind = k) = [] := by simp [hek]
        rw [this, List.append_nil, ← hi.tables k hk]
        cases k <;> first | rfl | (simp [isTable] at hk)
      · intro k
        have har : arrays [Call.add (.containerInfo x) he] = [x] := rfl
        have hco : containers [Call.add (.containerInfo x) he] = [] := rfl
        rw [findBy_insertNew _ _ hi.containers_strict, hi.containers_last k, containers_append, arrays_append, har, hco,
          List.append_nil, Option.or_assoc, firstOf_snoc]
      · intro k; rw [inheritances_append]; simpa [inheritances] using hi.inheritances_last k
  | addContainer c r w hk =>
    rw [Build.step, addContainerInfo, Res.bind_eq_ok] at h
    obtain ⟨⟨n1, l1⟩, g1, h⟩ := h
    simp only [Res.bind_eq_ok] at h
    obtain ⟨⟨n2, l2⟩, g2, h⟩ := h
    obtain ⟨⟨n3, l3⟩, g3, h⟩ := h
    simp only [Res.pure_eq, Res.ok.injEq] at h
    subst h
    obtain ⟨rfl, i1⟩ := hi.names.getName g1
    obtain ⟨rfl, i2⟩ := i1.getName g2
    obtain ⟨rfl, i3⟩ := i2.getName g3
    refine ⟨?_, ?_, ?_, pairwise_assignBy _ _ hi.containers_strict, ?_, hi.inheritances_strict, ?_⟩
    · rw [interned_append]; simpa [interned, List.append_assoc] using i3
    · rw [added_append]; simpa [added] using hi.named
    · intro k ht
      rw [held_snoc]
      refine Eq.trans ?_ (hi.tables k ht)
      cases k <;> first | rfl | (simp [isTable] at ht)
    · intro k
      rw [findBy_assignBy _ _ hi.containers_strict, containers_append, arrays_append]
      have : containers [Call.addContainer c r w hk] = [⟨nameOf c, nameOf r, nameOf w, if hk then 1 else 0, 0⟩] := rfl
      have har : arrays [Call.addContainer c r w hk] = [] := rfl
      rw [this, har, List.append_nil, lastOf_snoc, hi.containers_last k]
      by_cases hn : (nameOf c).hash = k
      · rw [if_pos hn, if_pos hn]; rfl
      · rw [if_neg hn, if_neg hn]
    · intro k; rw [inheritances_append]; simpa [inheritances] using hi.inheritances_last k
  | addInheritance d b =>
    rw [Build.step, addTypeInheritance, Res.bind_eq_ok] at h
    obtain ⟨⟨n1, l1⟩, g1, h⟩ := h
    simp only [Res.pure_eq, Res.ok.injEq] at h
    subst h
    obtain ⟨rfl, i1⟩ := hi.names.getName g1
    refine ⟨?_, ?_, ?_, hi.containers_strict, ?_, pairwise_assignBy _ _ hi.inheritances_strict, ?_⟩
    · rw [interned_append]; simpa [interned, inheritanceText] using i1
    · rw [added_append]; simpa [added] using hi.named
    · intro k hk
      rw [held_snoc]
      refine Eq.trans ?_ (hi.tables k hk)
      cases k <;> first | rfl | (simp [isTable] at hk)
    · intro k; rw [containers_append, arrays_append]; simpa [containers, arrays, added] using hi.containers_last k
    · intro k
      rw [findBy_assignBy _ _ hi.inheritances_strict, inheritances_append]
      have : Build.inheritances [Call.addInheritance d b] = [⟨nameOf (inheritanceText d b), d, b⟩] := rfl
      rw [this, lastOf_snoc, hi.inheritances_last k]
      rfl
  | sizeClass n sz =>
    injection h with h
    subst h
    refine ⟨?_, ?_, ?_, hi.containers_strict, ?_, hi.inheritances_strict, ?_⟩
    · rw [interned_append]; simpa [interned] using hi.names
    · rw [added_append]; simpa [added] using hi.named
    · intro k hk
      rw [held_snoc, hold]
      by_cases hc : k = .cls
      · subst hc
        have ht := hi.tables .cls hk
        have hm : ∀ l : List Class, insAll (fun e : Entry => e.name.hash) [] (l.map Entry.cls) = (insAll ckey [] l).map Entry.cls :=
          fun l => (insAll_map (key := fun e : Entry => e.name.hash) Entry.cls l []).symm
        rw [filter_cls, hm] at ht
        have ht : db.classes = insAll ckey [] (classesOf (held pre)) :=
          (List.map_inj_right (fun a b h => by injection h)).mp ht
        rw [filter_cls, classesOf_resize, hm]
        show List.map Entry.cls (resizeClass (hashOf n) sz db.classes) = _
        rw [ht, resizeClass_insAll]
      · rw [resize_other _ _ _ hc, ← hi.tables k hk]
        cases k <;> first | rfl | exact absurd rfl hc
    · intro k; rw [containers_append, arrays_append]; simpa [containers, arrays, added] using hi.containers_last k
    · intro k; rw [inheritances_append]; simpa [inheritances] using hi.inheritances_last k

theorem Inv.run {cs pre : List Call} {db db' : Database} (hi : Inv pre db) (h : run db cs = .ok db') : Inv (pre ++ cs) db' := by
  induction cs generalizing pre db with
  | nil =>
    simp only [Build.run, Res.ok.injEq] at h
    subst h
    simpa using hi
  | cons c cs ih =>
    rw [Build.run] at h
    cases hs : Build.step db c with
    | ok d =>
      rw [hs] at h
      have := ih (hi.step hs) h
      simpa using this
    | trap => rw [hs] at h; cases h
    | ub => rw [hs] at h; cases h

theorem NoClash.sub {a b : List Bytes} (h : NoClash (a ++ b)) : NoClash a := fun s hs t ht => h s (by simp [hs]) t (by simp [ht])

theorem bind_returns {α β : Type} {x : Res α} {f : α → Res β} {a : α} (hx : x = .ok a) (hf : ∃ b, f a = .ok b) :
    ∃ b, Bind.bind x f = .ok b := by
  subst hx
  exact hf

theorem Inv.returns {pre : List Call} {db : Database} {c : Call} (hi : Inv pre db)
    (hn : ∀ e ∈ added [c], e.name.hash ≠ 0) (hc : NoClash (interned (pre ++ [c]))) : ∃ db', Build.step db c = .ok db' := by
  rw [interned_append] at hc
  cases c with
  | getName t =>
    cases t with
    | none => exact ⟨_, rfl⟩
    | some t =>
      obtain ⟨l, hg⟩ := hi.names.returns (t := t) (by simpa [interned] using hc)
      exact ⟨_, by rw [Build.step, hg]; rfl⟩
  | add e he => exact addPrimitive_returns (hn e (by simp [added]))
  | addContainer c r w hk =>
    have e : interned [Call.addContainer c r w hk] = [c, r, w] := rfl
    rw [e] at hc
    have c1 : NoClash (interned pre ++ [c]) := NoClash.sub (b := [r, w]) (by simpa using hc)
    have c2 : NoClash (interned pre ++ [c] ++ [r]) := NoClash.sub (b := [w]) (by simpa using hc)
    have c3 : NoClash (interned pre ++ [c] ++ [r] ++ [w]) := by simpa using hc
    obtain ⟨l1, g1⟩ := hi.names.returns c1
    obtain ⟨l2, g2⟩ := (hi.names.getName g1).2.returns c2
    obtain ⟨l3, g3⟩ := ((hi.names.getName g1).2.getName g2).2.returns c3
    exact bind_returns g1 (bind_returns g2 (bind_returns g3 ⟨_, rfl⟩))
  | addInheritance d b =>
    obtain ⟨l, hg⟩ := hi.names.returns (t := inheritanceText d b) (by simpa [interned] using hc)
    exact bind_returns hg ⟨_, rfl⟩
  | sizeClass n sz => exact ⟨_, rfl⟩

theorem Inv.run_returns {cs pre : List Call} {db : Database} (hi : Inv pre db) (hn : ∀ e ∈ added cs, e.name.hash ≠ 0)
    (hc : NoClash (interned (pre ++ cs))) : ∃ db', Build.run db cs = .ok db' := by
  induction cs generalizing pre db with
  | nil => exact ⟨db, rfl⟩
  | cons c cs ih =>
    have e : pre ++ c :: cs = (pre ++ [c]) ++ cs := by simp
    obtain ⟨d, hd⟩ := hi.returns (c := c)
      (fun x hx => hn x (by
        have : added (c :: cs) = added [c] ++ added cs := by rw [← added_append]; rfl
        rw [this]; simp [hx]))
      (by rw [e, interned_append] at hc; exact hc.sub)
    obtain ⟨d', hd'⟩ := ih (hi.step hd)
      (fun x hx => hn x (by
        have : added (c :: cs) = added [c] ++ added cs := by rw [← added_append]; rfl
        rw [this]; simp [hx]))
      (by rw [← e]; exact hc)
    exact ⟨d', by rw [Build.run, hd]; exact hd'⟩

theorem bind_not_ub {α β : Type} {x : Res α} {f : α → Res β} (hx : x ≠ .ub) (hf : ∀ a, f a ≠ .ub) : Bind.bind x f ≠ .ub := by
  cases x with
  | ok a => exact hf a
  | trap => simp
  | ub => exact absurd rfl hx

theorem step_not_ub (db : Database) (c : Call) : Build.step db c ≠ .ub := by
  intro h
  cases c with
  | getName t =>
    rw [Build.step] at h
    cases hg : DB.getName db.names t with
    | ub => exact getName_not_ub _ _ hg
    | ok x => rw [hg] at h; cases h
    | trap => rw [hg] at h; cases h
  | add e he =>
    by_cases h0 : e.name.hash = 0
    · rw [Build.step, addPrimitive_traps he h0] at h; cases h
    · obtain ⟨d, hd⟩ := addPrimitive_returns (db := db) h0
      rw [Build.step, hd] at h; cases h
  | addContainer c r w hk =>
    refine bind_not_ub (getName_not_ub _ _) (fun x => ?_) h
    refine bind_not_ub (getName_not_ub _ _) (fun y => ?_)
    exact bind_not_ub (getName_not_ub _ _) (fun z => by intro h; cases h)
  | addInheritance d b => exact bind_not_ub (getName_not_ub _ _) (fun x => by intro h; cases h) h
  | sizeClass n sz => cases h

theorem run_not_ub (cs : List Call) (db : Database) : Build.run db cs ≠ .ub := by
  induction cs generalizing db with
  | nil => simp [Build.run]
  | cons c cs ih =>
    rw [Build.run]
    cases h : Build.step db c with
    | ub => exact absurd h (step_not_ub db c)
    | trap => simp
    | ok d => exact ih d

end Clr.Build
