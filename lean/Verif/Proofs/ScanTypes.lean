import Verif.Props.ScanTypesSpec

/-!
Lemmas about the types clscan records.
-/
namespace Clr.ScanTypes
open Clr.FileUtils
open Clr.Hash (Op)

/-! ### Texts -/

theorem find_none_of (s p : Bytes) (h : ∀ i, ¬ OccursAt p s i) : find s p 0 = none := by
  cases hf : find s p 0 with
  | none => rfl
  | some j =>
    obtain ⟨_, h2, _⟩ := find_some _ _ _ _ hf
    exact absurd h2 (by simpa using h _)

theorem removeAll_none (p s : Bytes) (h : ∀ i, ¬ OccursAt p s i) : removeAll p s = s := by
  rw [removeAll, remove, find_none_of s p h]; rfl

theorem replaceAll_none (p w s : Bytes) (h : ∀ i, ¬ OccursAt p s i) : replaceAll p w s = s := by
  rw [replaceAll, stringReplace, replaceLoop, find_none_of s p h]; rfl

theorem no_space_none (p s : Bytes) (hp : (32 : UInt8) ∈ p) (hs : (32 : UInt8) ∉ s) : ∀ i, ¬ OccursAt p s i := by
  rintro i ⟨a, b, rfl, _⟩
  exact hs (by simp [hp])

theorem find_prefix (p s : Bytes) (hp : p ≠ []) : find (p ++ s) p 0 = some 0 := by
  cases p with
  | nil => exact absurd rfl hp
  | cons c cs =>
    have : (c :: cs).isPrefixOf (c :: (cs ++ s)) = true := by
      simp
    simp only [find, Nat.zero_le, if_true, List.drop_zero, List.cons_append, findFrom, this]

theorem removeAll_prefix (p s : Bytes) (hp : p ≠ []) (h : ∀ i, ¬ OccursAt p s i) : removeAll p (p ++ s) = s := by
  have hl : (p ++ s).length + 1 = (p ++ s).length - 1 + 1 + 1 := by
    have : 0 < p.length := List.length_pos_iff.mpr hp
    simp; omega
  rw [removeAll, hl, remove, find_prefix p s hp]
  simp only [replaceAt, List.take_zero, List.nil_append, Nat.zero_add, List.drop_left]
  rw [remove, find_none_of s p h]; rfl

theorem split_space (k n a q b : Bytes) (hk : (32 : UInt8) ∉ k) (hn : (32 : UInt8) ∉ n)
    (h : k ++ 32 :: n = (a ++ q) ++ 32 :: b) : k = a ++ q := by
  rcases List.append_eq_append_iff.mp h with ⟨c, h1, h2⟩ | ⟨c, h1, h2⟩
  · cases c with
    | nil => simpa using h1.symm
    | cons x xs =>
      rw [List.cons_append] at h2
      injection h2 with h3 h4
      exact absurd (h4 ▸ (by simp : (32 : UInt8) ∈ xs ++ 32 :: b)) hn
  · cases c with
    | nil => simpa using h1
    | cons x xs =>
      rw [List.cons_append] at h2
      injection h2 with h3 h4
      exact absurd (h1 ▸ h3 ▸ (by simp)) hk

theorem keyword_none (k q n : Bytes) (hk : (32 : UInt8) ∉ k) (hn : (32 : UInt8) ∉ n) (hs : ¬ q <:+ k) :
    ∀ i, ¬ OccursAt (q ++ [32]) (k ++ [32] ++ n) i := by
  rintro i ⟨a, b, h, _⟩
  refine hs ⟨a, ?_⟩
  refine (split_space k n a q b hk hn ?_).symm
  simpa using h

theorem clean_plain (s : Bytes) (h : Plain s) : cleanName s = s := by
  have hp : ∀ p ∈ patterns, ∀ i, ¬ OccursAt p s i := h.1
  rw [cleanName, removeAll_none _ s (hp _ (by simp [patterns])), removeAll_none _ s (hp _ (by simp [patterns])),
    removeAll_none _ s (hp _ (by simp [patterns])), replaceAll_none _ _ s (hp _ (by simp [patterns])),
    replaceAll_none _ _ s (hp _ (by simp [patterns]))]

theorem plain_of_no_space (s : Bytes) (h : (32 : UInt8) ∉ s) : Plain s := by
  constructor
  · intro p hp
    refine no_space_none p s ?_ h
    revert hp; revert p
    decide
  · rintro a rfl
    exact h (by simp)

theorem clean_keyword (k n : Bytes) (hk : k ∈ enumKeywords ++ classKeywords) (hn : (32 : UInt8) ∉ n) : cleanName (k ++ n) = n := by
  have hpl := plain_of_no_space n hn
  have hp : ∀ p ∈ patterns, ∀ i, ¬ OccursAt p n i := hpl.1
  have e1 : removeAll b!"enum " n = n := removeAll_none _ n (hp _ (by simp [patterns]))
  have e2 : removeAll b!"struct " n = n := removeAll_none _ n (hp _ (by simp [patterns]))
  have e3 : removeAll b!"class " n = n := removeAll_none _ n (hp _ (by simp [patterns]))
  have e4 : replaceAll b!" *" b!"*" n = n := replaceAll_none _ _ n (hp _ (by simp [patterns]))
  have e5 : replaceAll b!" &" b!"&" n = n := replaceAll_none _ _ n (hp _ (by simp [patterns]))
  simp only [enumKeywords, classKeywords, List.cons_append, List.nil_append, List.mem_cons, List.not_mem_nil, or_false] at hk
  rcases hk with rfl | rfl | rfl | rfl | rfl
  · exact clean_plain n hpl
  · rw [cleanName, removeAll_prefix b!"enum " n (by decide) (hp _ (by simp [patterns])), e2, e3, e4, e5]
  · exact clean_plain n hpl
  · rw [cleanName, removeAll_none b!"enum " (b!"struct " ++ n)
        (keyword_none b!"struct" b!"enum" n (by decide) hn (by decide)),
      removeAll_prefix b!"struct " n (by decide) (hp _ (by simp [patterns])), e3, e4, e5]
  · rw [cleanName, removeAll_none b!"enum " (b!"class " ++ n)
        (keyword_none b!"class" b!"enum" n (by decide) hn (by decide)),
      removeAll_none b!"struct " (b!"class " ++ n)
        (keyword_none b!"class" b!"struct" n (by decide) hn (by decide)),
      removeAll_prefix b!"class " n (by decide) (hp _ (by simp [patterns])), e4, e5]

theorem occurs_sep (p x y : Bytes) (c : UInt8) (hc : c ∉ p) (i : Nat) (h : OccursAt p (x ++ [c] ++ y) i) :
    (∃ j, OccursAt p x j) ∨ ∃ j, OccursAt p y j := by
  obtain ⟨a, b, h, _⟩ := h
  rw [List.append_assoc a p b, List.append_assoc x] at h
  rcases List.append_eq_append_iff.mp h with ⟨d, h1, h2⟩ | ⟨d, h1, h2⟩
  · -- a begins with x
    cases d with
    | nil =>
      cases p with
      | nil => exact .inl ⟨0, [], x, by simp, rfl⟩
      | cons q qs =>
        simp only [List.nil_append, List.cons_append] at h2
        injection h2 with h3 h4
        exact absurd (by simp [h3]) hc
    | cons z zs =>
      simp only [List.cons_append] at h2
      injection h2 with h3 h4
      exact .inr ⟨zs.length, zs, b, by rw [List.append_assoc]; exact h4, rfl⟩
  · -- x begins with a
    rcases List.append_eq_append_iff.mp h2 with ⟨e, h3, h4⟩ | ⟨e, h3, h4⟩
    · exact .inl ⟨a.length, a, e, by rw [h1, h3, List.append_assoc], rfl⟩
    · cases e with
      | nil => exact .inl ⟨a.length, a, [], by simp at h3; rw [h1, h3]; simp, rfl⟩
      | cons z zs =>
        simp only [List.cons_append] at h4
        injection h4 with h5 h6
        exact absurd (by rw [h3, h5]; simp) hc

theorem occurs_snoc (p x : Bytes) (c : UInt8) (hp : p ≠ []) (i : Nat) (h : OccursAt p (x ++ [c]) i) :
    (∃ j, OccursAt p x j) ∨ ∃ q a, p = q ++ [c] ∧ x = a ++ q := by
  obtain ⟨a, b, h, _⟩ := h
  rcases List.eq_nil_or_concat b with rfl | ⟨b', z, rfl⟩
  · rcases List.eq_nil_or_concat p with rfl | ⟨q, w, rfl⟩
    · exact absurd rfl hp
    · right
      simp only [List.append_nil, List.concat_eq_append, ← List.append_assoc] at h ⊢
      have := List.append_inj' h rfl
      refine ⟨q, a, ?_, this.1⟩
      rw [(List.cons.inj this.2).1]
  · left
    simp only [List.concat_eq_append, ← List.append_assoc] at h
    have := List.append_inj' h rfl
    exact ⟨a.length, a, b', this.1, rfl⟩

theorem plain_sep (x y : Bytes) (c : UInt8) (hc : ∀ p ∈ patterns, c ∉ p) (hx : Plain x) (hy : Plain y)
    (hc' : c ≠ 32) : Plain (x ++ [c] ++ y) := by
  constructor
  · intro p hp i h
    rcases occurs_sep p x y c (hc p hp) i h with ⟨j, h⟩ | ⟨j, h⟩
    · exact hx.1 p hp j h
    · exact hy.1 p hp j h
  · intro a h
    rcases List.eq_nil_or_concat y with rfl | ⟨y', z, rfl⟩
    · rw [List.append_nil] at h
      exact hc' (List.cons.inj (List.append_inj' h rfl).2).1
    · rw [List.concat_eq_append, ← List.append_assoc] at h
      exact hy.2 y' (by rw [List.concat_eq_append, (List.cons.inj (List.append_inj' h rfl).2).1])

theorem plain_nil : Plain [] := plain_of_no_space [] (by simp)

theorem plain_star (x : Bytes) (hx : Plain x) : Plain (x ++ b!"*") := by
  constructor
  · intro p hp i h
    have hne : p ≠ [] := (by decide : ∀ p ∈ patterns, p ≠ []) p hp
    rcases occurs_snoc p x 42 hne i h with ⟨j, h⟩ | ⟨q, a, h1, h2⟩
    · exact hx.1 p hp j h
    · have : p = b!" *" := by
        simp only [patterns, List.mem_cons, List.not_mem_nil, or_false] at hp
        have hl : p.getLast? = some 42 := by rw [h1]; simp
        rcases hp with rfl | rfl | rfl | rfl | rfl
        · exact absurd hl (by decide)
        · exact absurd hl (by decide)
        · exact absurd hl (by decide)
        · rfl
        · exact absurd hl (by decide)
      have hq : q = [32] := by
        have : q ++ [42] = [32] ++ [42] := by rw [← h1, this]; rfl
        exact List.append_cancel_right this
      exact hx.2 a (by rw [h2, hq])
  · intro a h
    exact absurd (List.cons.inj (List.append_inj' h rfl).2).1 (by decide)

theorem plain_listing (xs : List (Bytes × Bool)) (h : ∀ x ∈ xs, Plain x.1) : Plain (listing xs) := by
  have one : ∀ (x : Bytes) (p : Bool), Plain x → Plain (x ++ (if p then b!"*" else [])) := by
    intro x p hx
    cases p with
    | false => simpa using hx
    | true => exact plain_star x hx
  induction xs with
  | nil => exact plain_nil
  | cons y r ih =>
    obtain ⟨x, p⟩ := y
    have hx := one x p (h _ List.mem_cons_self)
    cases r with
    | nil => exact hx
    | cons z r =>
      exact plain_sep _ _ 44 (by decide) hx (ih fun w hw => h w (List.mem_cons_of_mem _ hw)) (by decide)

theorem plain_inst (tname : Bytes) (xs : List (Bytes × Bool)) (ht : (32 : UInt8) ∉ tname) (h : ∀ x ∈ xs, Plain x.1) :
    Plain (tname ++ b!"<" ++ listing xs ++ b!">") := by
  have h1 := plain_sep tname (listing xs) 60 (by decide) (plain_of_no_space _ ht) (plain_listing xs h) (by decide)
  have h2 := plain_sep _ [] 62 (by decide) h1 plain_nil (by decide)
  simpa using h2

/-! ### Types -/

/-- Whether a type is `const`, by way of any typedefs. -/
def CType.cst : CType → Bool
  | .const _ => true
  | .alias t => t.cst
  | _ => false

theorem bare_peel (t : CType) : Bare t.peel := by
  induction t with
  | alias t ih => exact ih
  | const t ih => exact ih
  | _ => trivial

theorem means_peel (t : CType) : Means t t.cst t.peel := by
  induction t with
  | alias t ih => exact .alias ih
  | const t ih => exact .const ih
  | _ => exact .self trivial

theorem peel_of_bare (t : CType) (h : Bare t) : t.peel = t ∧ t.cst = false := by
  cases t <;> first | exact h.elim | exact ⟨rfl, rfl⟩

theorem means_iff (t : CType) (c : Bool) (b : CType) : Means t c b ↔ c = t.cst ∧ b = t.peel := by
  constructor
  · intro h
    induction h with
    | self h => exact ⟨(peel_of_bare _ h).2.symm, (peel_of_bare _ h).1.symm⟩
    | alias _ ih => exact ih
    | const _ ih => exact ⟨rfl, ih.2⟩
  · rintro ⟨rfl, rfl⟩
    exact means_peel t

theorem bare_canon (b : CType) (h : Bare b) : Bare b.canon := by
  cases b <;> first | exact h | trivial

theorem strip_of_bare (b : CType) (h : Bare b) : b.strip = b ∧ b.isConst = false := by
  cases b <;> first | exact h.elim | exact ⟨rfl, rfl⟩

theorem strip_canon (t : CType) : t.canon.strip = t.peel.canon := by
  induction t with
  | alias t ih => exact ih
  | const t ih => exact ih
  | _ => rfl

theorem isConst_canon (t : CType) : t.canon.isConst = t.cst := by
  induction t with
  | alias t ih => exact ih
  | _ => rfl

theorem peel_canon (t : CType) : t.canon.peel = t.peel.canon := by
  induction t with
  | alias t ih => exact ih
  | const t ih => exact ih
  | _ => rfl

theorem cst_canon (t : CType) : t.canon.cst = t.cst := by
  induction t with
  | alias t ih => exact ih
  | _ => rfl

theorem canon_canon (t : CType) : t.canon.canon = t.canon := by
  induction t with
  | alias t ih => exact ih
  | const t ih => simp only [CType.canon, ih]
  | pointer t ih => simp only [CType.canon, ih]
  | lref t ih => simp only [CType.canon, ih]
  | rref t ih => simp only [CType.canon, ih]
  | array n t ih => simp only [CType.canon, ih]
  | _ => rfl

theorem strip_update (t : CType) : t.update.strip = t.peel ∨ t.update.strip = t.peel.canon := by
  unfold CType.update
  have aux : (∃ u, t.strip = .alias u) ∨ t.strip = t.peel := by
    induction t with
    | alias t _ => exact .inl ⟨t, rfl⟩
    | const t ih => exact ih
    | _ => exact .inr rfl
  rcases aux with ⟨u, hu⟩ | hu
  · rw [hu]; exact .inr (strip_canon t)
  · have hb := bare_peel t
    rw [← hu] at hb
    split
    · rename_i u hs; rw [hs] at hb; exact hb.elim
    · exact .inl hu

theorem isConst_update (t : CType) : t.update.isConst = t.cst := by
  unfold CType.update
  split
  · exact isConst_canon t
  · rename_i h
    cases t with
    | alias t => exact absurd rfl (h t)
    | const t => rfl
    | _ => rfl

/-- What kind of thing a type is, whether `const`, and its type. -/
def shape (t : CType) : Op × Bool × CType :=
  match t.peel with
  | .pointer u => (.pointer, u.cst, u.peel)
  | .lref u => (.reference, u.cst, u.peel)
  | b => (.value, t.cst, b)

theorem shape_points (t : CType) : Points t (shape t).1 (shape t).2.1 (shape t).2.2 := by
  have hm := means_peel t
  unfold shape
  split
  · rename_i u h; rw [h] at hm; exact .pointer hm (means_peel u)
  · rename_i u h; rw [h] at hm; exact .reference hm (means_peel u)
  · exact .value hm

theorem bare_shape (t : CType) : Bare (shape t).2.2 := by
  unfold shape
  split
  · exact bare_peel _
  · exact bare_peel _
  · exact bare_peel _

/-- After the steps, the operator, the qualifier and the type are those of the shape. -/
theorem steps (t : CType) :
    let p := pointeeStep t.update
    p.1 = (shape t).1 ∧ p.2.update.isConst = (shape t).2.1 ∧
      (p.2.update.strip = (shape t).2.2 ∨ p.2.update.strip = (shape t).2.2.canon) := by
  intro p
  have hu := strip_update t
  have hc := isConst_update t
  have two : ∀ u u' : CType, (u' = u ∨ u' = u.canon) → u'.update.isConst = u.cst ∧
      (u'.update.strip = u.peel ∨ u'.update.strip = u.peel.canon) := by
    rintro u u' (rfl | rfl)
    · exact ⟨isConst_update _, strip_update _⟩
    · refine ⟨by rw [isConst_update, cst_canon], .inr ?_⟩
      rcases strip_update u.canon with h | h
      · rw [h, peel_canon]
      · rw [h, peel_canon, canon_canon]
  cases hs : t.peel with
  | pointer u =>
    have e : (shape t) = (.pointer, u.cst, u.peel) := by rw [shape, hs]
    have : ∃ u', t.update.strip = .pointer u' ∧ (u' = u ∨ u' = u.canon) := by
      rcases hu with h | h
      · exact ⟨u, by rw [h, hs], .inl rfl⟩
      · exact ⟨u.canon, by rw [h, hs]; rfl, .inr rfl⟩
    obtain ⟨u', h1, h2⟩ := this
    have hp : p = (.pointer, u') := by simp only [p, pointeeStep, h1]
    rw [hp, e]
    exact ⟨rfl, two u u' h2⟩
  | lref u =>
    have e : (shape t) = (.reference, u.cst, u.peel) := by rw [shape, hs]
    have : ∃ u', t.update.strip = .lref u' ∧ (u' = u ∨ u' = u.canon) := by
      rcases hu with h | h
      · exact ⟨u, by rw [h, hs], .inl rfl⟩
      · exact ⟨u.canon, by rw [h, hs]; rfl, .inr rfl⟩
    obtain ⟨u', h1, h2⟩ := this
    have hp : p = (.reference, u') := by simp only [p, pointeeStep, h1]
    rw [hp, e]
    exact ⟨rfl, two u u' h2⟩
  | alias u => exact absurd (bare_peel t) (by rw [hs]; exact id)
  | const u => exact absurd (bare_peel t) (by rw [hs]; exact id)
  | _ =>
    all_goals
      have e : (shape t) = (.value, t.cst, t.peel) := by simp only [shape, hs]
      have hp : p = (.value, t.update) := by
        rcases hu with h | h <;> simp only [p, pointeeStep, h, hs, CType.canon]
      rw [hp, e]
      refine ⟨rfl, ?_, ?_⟩
      · show t.update.update.isConst = t.cst
        rw [isConst_update]
        unfold CType.update
        split
        · exact cst_canon t
        · rfl
      · show t.update.update.strip = t.peel ∨ t.update.update.strip = t.peel.canon
        have : t.update = t ∨ t.update = t.canon := by
          unfold CType.update; split
          · exact .inr rfl
          · exact .inl rfl
        exact (two t t.update this).2

/-- The name of the type before it is cleaned. -/
def baseName (self : Nat → Db → Out Bytes) (b : CType) (db : Db) : Out Bytes :=
  match b with
  | .builtin n => .ok n db
  | .enum k n => .ok (k ++ n) db
  | .record k n => .ok (k ++ n) db
  | .inst id => self id db
  | .spec id => self id db
  | _ => .fail false db

/-- `GetParameterInfo` in terms of the shape, when all instances are declared. -/
theorem paramInfo_eq (env : Env) (self : Nat → Db → Out Bytes) (hd : ∀ id, (env id).declared = true) (t : CType) (db : Db) :
    paramInfo env self t db = match arrayStep t with
      | none => .fail false db
      | some (count, e) => (baseName self (shape e).2.2 db).bind fun name db =>
          .ok { name := cleanName name, op := (shape e).1, isConst := (shape e).2.1, count := count } db := by
  unfold paramInfo
  cases arrayStep t with
  | none => rfl
  | some ce =>
    obtain ⟨count, e⟩ := ce
    obtain ⟨h1, h2, h3⟩ := steps e
    dsimp only
    rw [h1, h2]
    have hb := bare_shape e
    generalize (pointeeStep e.update).2.update.strip = b' at h3
    generalize (shape e).2.2 = b at h3 hb
    rcases h3 with rfl | rfl
    · cases b' <;> first | exact hb.elim | simp [recordable, specialise, baseName, printed, hd, Out.bind]
    · cases b <;> first | exact hb.elim | simp [recordable, specialise, baseName, printed, hd, Out.bind, CType.canon]

/-! ### Well named types -/

theorem wellNamed_const (t : CType) (h : WellNamed (.const t)) : WellNamed t := by
  cases t <;> first | exact h | exact h.elim

theorem wellNamed_peel (t : CType) (h : WellNamed t) : WellNamed t.peel := by
  induction t with
  | alias t ih => exact ih h
  | const t ih => exact ih (wellNamed_const t h)
  | _ => exact h

theorem wellNamed_shape (t : CType) (h : WellNamed t) : WellNamed (shape t).2.2 := by
  have hp := wellNamed_peel t h
  unfold shape
  split
  · rename_i u hu; rw [hu] at hp; exact wellNamed_peel u hp
  · rename_i u hu; rw [hu] at hp; exact wellNamed_peel u hp
  · exact hp

theorem wellNamed_strip (t : CType) (h : WellNamed t) (n : Nat) (e : CType) (hs : t.strip = .array n e) : t = .array n e := by
  induction t with
  | const t ih =>
    have := ih (wellNamed_const t h) hs
    rw [this] at h
    exact h.elim
  | _ => exact hs

theorem arrayStep_cases (t : CType) (h : WellNamed t) (n : Nat) (e : CType) (ha : arrayStep t = some (n, e)) :
    (n = 0 ∧ e = t) ∨ (t = .array n e ∧ 0 < n ∧ n < 2 ^ 32) := by
  unfold arrayStep at ha
  split at ha
  · rename_i m f hs
    split at ha
    · exact absurd ha (by simp)
    · injection ha with ha
      injection ha with h1 h2
      rw [← h1, ← h2]
      have := wellNamed_strip t h m f hs
      rw [this] at h
      exact .inr ⟨this, h.1, by omega⟩
  · injection ha with ha
    injection ha with h1 h2
    exact .inl ⟨h1.symm, h2.symm⟩

/-! ### The database only grows -/

theorem Grows.refl (db : Db) : Grows db db := ⟨List.prefix_refl _, List.prefix_refl _, rfl, rfl, rfl, rfl, rfl⟩

theorem Grows.trans {a b c : Db} (h : Grows a b) (h' : Grows b c) : Grows a c :=
  ⟨h.1.trans h'.1, h.2.trans h'.2, h'.3.trans h.3, h'.4.trans h.4, h'.5.trans h.5, h'.6.trans h.6, h'.7.trans h.7⟩

theorem Grows.typeNames {a b : Db} (h : Grows a b) {x : Bytes} (hx : x ∈ a.typeNames) : x ∈ b.typeNames := by
  obtain ⟨e, he, rfl⟩ := List.mem_map.mp hx
  exact List.mem_map.mpr ⟨e, h.1.subset he, rfl⟩

theorem Describes.mono {env : Env} {a b : Db} (h : Grows a b) {e : TemplateType} {id : Nat} (hd : Describes env a e id) :
    Describes env b e id :=
  { hd with
    args := fun t op c u id' h1 h2 h3 => by
      obtain ⟨x, hx, hm⟩ := hd.args t op c u id' h1 h2 h3
      exact ⟨x, hx, h.typeNames hm⟩
    bases := fun u hu => by
      obtain ⟨hv, c, v, x, h1, h2, h3, h4⟩ := hd.bases u hu
      exact ⟨hv, c, v, x, h1, h2, h.2.subset h3, fun id' hi => h.typeNames (h4 id' hi)⟩ }

/-- From `db` to `db'` the database only grows, and what is in it is described. -/
def Step (env : Env) (db db' : Db) : Prop := Grows db db' ∧ (GoodDb env db → GoodDb env db')

theorem Step.refl (env : Env) (db : Db) : Step env db db := ⟨Grows.refl db, id⟩

theorem Step.trans {env : Env} {a b c : Db} (h : Step env a b) (h' : Step env b c) : Step env a c :=
  ⟨h.1.trans h'.1, fun g => h'.2 (h.2 g)⟩

theorem addInheritance_grows (db : Db) (d b : Bytes) : Grows db (db.addInheritance d b) ∧ (d, b) ∈ (db.addInheritance d b).inherits ∧
    (db.addInheritance d b).templateTypes = db.templateTypes := by
  unfold Db.addInheritance
  split
  · rename_i h; exact ⟨Grows.refl db, h, rfl⟩
  · exact ⟨⟨List.prefix_refl _, List.prefix_append _ _, rfl, rfl, rfl, rfl, rfl⟩, by simp, rfl⟩

theorem addInheritance_step (env : Env) (db : Db) (d b : Bytes) : Step env db (db.addInheritance d b) := by
  obtain ⟨h1, _, h3⟩ := addInheritance_grows db d b
  refine ⟨h1, fun g e he => ?_⟩
  rw [h3] at he
  obtain ⟨id, hd⟩ := g e he
  exact ⟨id, hd.mono h1⟩

theorem hasTemplateType_iff (db : Db) (x : Bytes) : db.hasTemplateType x = true ↔ x ∈ db.typeNames := by
  simp [Db.hasTemplateType, Db.typeNames]

/-- The outcome's database is reached by steps. -/
def After (env : Env) {α : Type} (db : Db) : Out α → Prop
  | .never => True
  | .fail _ db' => Step env db db'
  | .ok _ db' => Step env db db'

/-- What is asked of the recursive call. -/
structure SelfOk (env : Env) (go : Nat → Db → Out Bytes) : Prop where
  after : ∀ id db, After env db (go id db)
  name : ∀ id db x db', go id db = .ok x db' → HasName env (.inst id) x ∧ Plain x ∧ x ∈ db'.typeNames

theorem baseName_ok {env : Env} {self : Nat → Db → Out Bytes} (hs : SelfOk env self) (b : CType) (hw : WellNamed b) (db : Db) :
    After env db (baseName self b db) ∧ ∀ x db', baseName self b db = .ok x db' →
      HasName env b (cleanName x) ∧ Plain (cleanName x) ∧ ∀ id, IsInstance b id → HasName env (.inst id) (cleanName x) ∧
        cleanName x ∈ db'.typeNames := by
  cases b with
  | builtin n =>
    refine ⟨Step.refl _ _, fun x db' h => ?_⟩
    injection h with h1 h2
    subst h1
    rw [clean_plain n hw]
    exact ⟨.builtin, hw, fun id h => by cases h⟩
  | enum k n =>
    refine ⟨Step.refl _ _, fun x db' h => ?_⟩
    injection h with h1 h2
    subst h1
    rw [clean_keyword k n (List.mem_append_left _ hw.1) hw.2]
    exact ⟨.enum, plain_of_no_space n hw.2, fun id h => by cases h⟩
  | record k n =>
    refine ⟨Step.refl _ _, fun x db' h => ?_⟩
    injection h with h1 h2
    subst h1
    rw [clean_keyword k n (List.mem_append_right _ hw.1) hw.2]
    exact ⟨.record, plain_of_no_space n hw.2, fun id h => by cases h⟩
  | inst id =>
    refine ⟨hs.after id db, fun x db' h => ?_⟩
    obtain ⟨h1, h2, h3⟩ := hs.name id db x db' h
    rw [clean_plain x h2]
    exact ⟨h1, h2, fun id' hi => by cases hi; exact ⟨h1, h3⟩⟩
  | spec id =>
    refine ⟨hs.after id db, fun x db' h => ?_⟩
    obtain ⟨h1, h2, h3⟩ := hs.name id db x db' h
    rw [clean_plain x h2]
    exact ⟨.spec h1, h2, fun id' hi => by cases hi; exact ⟨h1, h3⟩⟩
  | _ => exact ⟨Step.refl _ _, fun x db' h => by cases h⟩

theorem after_bind {env : Env} {α β : Type} (db : Db) (x : Out α) (f : α → Db → Out β) (hx : After env db x)
    (hf : ∀ a db', x = .ok a db' → After env db' (f a db')) : After env db (x.bind f) := by
  cases x with
  | never => exact trivial
  | fail s d => exact hx
  | ok a d =>
    have := hf a d rfl
    unfold Out.bind
    dsimp only
    generalize f a d = y at this ⊢
    cases y with
    | never => trivial
    | fail s d' => exact hx.trans this
    | ok b d' => exact hx.trans this

theorem bind_ok {α β : Type} (x : Out α) (f : α → Db → Out β) (b : β) (d : Db) (h : x.bind f = .ok b d) :
    ∃ a d', x = .ok a d' ∧ f a d' = .ok b d := by
  cases x with
  | never => cases h
  | fail s d => cases h
  | ok a d' => exact ⟨a, d', rfl, h⟩

/-- Points is a function of the type. -/
theorem points_shape (t : CType) (op : Op) (c : Bool) (b : CType) (h : Points t op c b) :
    (op = .pointer ∧ shape t = (op, c, b)) ∨ (op = .reference ∧ shape t = (op, c, b)) ∨ (op = .value ∧ c = t.cst ∧ b = t.peel) := by
  cases h with
  | value hm => exact .inr (.inr ⟨rfl, (means_iff _ _ _).mp hm⟩)
  | pointer hm hu =>
    obtain ⟨_, h2⟩ := (means_iff _ _ _).mp hm
    obtain ⟨h3, h4⟩ := (means_iff _ _ _).mp hu
    exact .inl ⟨rfl, by rw [shape, ← h2, h3, h4]⟩
  | reference hm hu =>
    obtain ⟨_, h2⟩ := (means_iff _ _ _).mp hm
    obtain ⟨h3, h4⟩ := (means_iff _ _ _).mp hu
    exact .inr (.inl ⟨rfl, by rw [shape, ← h2, h3, h4]⟩)

/-- What a type points to is an instance only as in its shape. -/
theorem points_instance (t : CType) (op : Op) (c : Bool) (b : CType) (id : Nat) (h : Points t op c b) (hi : IsInstance b id) :
    b = (shape t).2.2 ∧ op = (shape t).1 := by
  rcases points_shape t op c b h with ⟨_, h⟩ | ⟨_, h⟩ | ⟨ho, hc, hb⟩
  · rw [h]; exact ⟨rfl, rfl⟩
  · rw [h]; exact ⟨rfl, rfl⟩
  · have : shape t = (.value, t.cst, t.peel) := by
      unfold shape
      rw [← hb]
      cases hi <;> rfl
    rw [this, hb, ho]; exact ⟨rfl, rfl⟩

theorem paramInfo_ok {env : Env} {self : Nat → Db → Out Bytes} (he : WellNamedEnv env) (hs : SelfOk env self) (t : CType)
    (hw : WellNamed t) (db : Db) :
    After env db (paramInfo env self t db) ∧ ∀ i db', paramInfo env self t db = .ok i db' →
      Declares env t i ∧ Plain i.name ∧
      (i.count = 0 → ∀ op c b id, Points t op c b → IsInstance b id → HasName env (.inst id) i.name ∧ i.name ∈ db'.typeNames) := by
  rw [paramInfo_eq env self he.declared t db]
  cases ha : arrayStep t with
  | none => exact ⟨Step.refl _ _, fun i db' h => by cases h⟩
  | some ne =>
    obtain ⟨n, e⟩ := ne
    dsimp only
    have hc := arrayStep_cases t hw n e ha
    have hwe : WellNamed e := by
      rcases hc with ⟨_, rfl⟩ | ⟨rfl, _⟩
      · exact hw
      · exact hw.2
    obtain ⟨h1, h2⟩ := baseName_ok hs _ (wellNamed_shape e hwe) db
    refine ⟨after_bind db _ _ h1 fun a d _ => Step.refl _ _, fun i db' h => ?_⟩
    obtain ⟨x, d, hx, hi⟩ := bind_ok _ _ _ _ h
    injection hi with hi hd
    subst hi hd
    obtain ⟨h3, h4, h5⟩ := h2 x d hx
    refine ⟨?_, h4, ?_⟩
    · rcases hc with ⟨rfl, rfl⟩ | ⟨rfl, hn0, hn⟩
      · exact .single (shape_points e) h3
      · exact .array hn0 hn (shape_points e) h3
    · intro hn op c b id hp hi
      rcases hc with ⟨rfl, rfl⟩ | ⟨rfl, _⟩
      · obtain ⟨hb, _⟩ := points_instance e op c b id hp hi
        exact h5 id (hb ▸ hi)
      · -- an array is not an instance
        exfalso
        have : b = .array n e ∨ False := by
          cases hp with
          | value hm => exact .inl ((means_iff _ _ _).mp hm).2
          | pointer hm _ => exact absurd ((means_iff _ _ _).mp hm).2 (by simp [CType.peel])
          | reference hm _ => exact absurd ((means_iff _ _ _).mp hm).2 (by simp [CType.peel])
        rcases this with rfl | h
        · cases hi
        · exact h

/-! ### Arguments -/

/-- What is kept of an argument. -/
def keep (i : PInfo) : Bytes × Bool := (i.name, i.op == .pointer)

theorem argsText_listing (infos : List PInfo) : argsText infos = listing (infos.map keep) := by
  have one : ∀ i : PInfo, argText i = i.name ++ (if (i.op == .pointer) = true then b!"*" else []) := by
    intro i
    unfold argText
    cases i.op <;> rfl
  induction infos with
  | nil => rfl
  | cons i r ih =>
    cases r with
    | nil => exact one i
    | cons j r =>
      show argText i ++ b!"," ++ argsText (j :: r) = _
      rw [ih, one]
      rfl

theorem argLoop_ok {env : Env} {self : Nat → Db → Out Bytes} (he : WellNamedEnv env) (hs : SelfOk env self) (args : List Arg)
    (hw : ∀ t, .type t ∈ args → WellNamed t) (done : List PInfo) (db : Db) :
    After env db (argLoop env self args done db) ∧ ∀ infos db', argLoop env self args done db = .ok infos db' →
      ∃ new, infos = done ++ new ∧ ArgNames env args (new.map keep) ∧ (∀ i ∈ new, Plain i.name) ∧
        ∀ t op c b id, .type t ∈ args → Points t op c b → IsInstance b id → ∃ x, HasName env (.inst id) x ∧ x ∈ db'.typeNames := by
  induction args generalizing done db with
  | nil =>
    refine ⟨Step.refl _ _, fun infos db' h => ?_⟩
    injection h with h1 h2
    subst h1
    exact ⟨[], by simp, .nil, by simp, by simp⟩
  | cons a r ih =>
    cases a with
    | other => exact ⟨Step.refl _ _, fun infos db' h => by cases h⟩
    | type t =>
      unfold argLoop
      obtain ⟨h1, h2⟩ := paramInfo_ok he hs t (hw t List.mem_cons_self) db
      have hr : ∀ t, .type t ∈ r → WellNamed t := fun t h => hw t (List.mem_cons_of_mem _ h)
      constructor
      · refine after_bind db _ _ h1 fun i d hi => ?_
        split
        · exact Step.refl _ _
        · split
          · exact Step.refl _ _
          · exact (ih hr _ _).1
      · intro infos db' h
        obtain ⟨i, d, hi, hrest⟩ := bind_ok _ _ _ _ h
        obtain ⟨h3, h4, h5⟩ := h2 i d hi
        split at hrest
        · cases hrest
        · rename_i href
          split at hrest
          · cases hrest
          · rename_i hcnt
            have hcnt : i.count = 0 := by simpa using hcnt
            obtain ⟨g1, g2⟩ := ih hr (done ++ [i]) d
            obtain ⟨new, e1, e2, e3, e4⟩ := g2 infos db' hrest
            have hstep : Grows d db' := by
              rw [hrest] at g1; exact g1.1
            refine ⟨i :: new, by rw [e1]; simp, ?_, ?_, ?_⟩
            · rw [List.map_cons]
              generalize hk : new.map keep = xs at e2
              cases h3 with
              | @single _ b op c x hp hn =>
                cases op with
                | value => exact .value hp hn e2
                | pointer => exact .pointer hp hn e2
                | reference => exact absurd rfl href
              | array h0 _ _ _ => exact absurd hcnt (by dsimp only; omega)
            · intro j hj
              rcases List.mem_cons.mp hj with rfl | hj
              · exact h4
              · exact e3 j hj
            · intro t' op c b id hm hp hi'
              rcases List.mem_cons.mp hm with heq | hm
              · injection heq with heq
                subst heq
                obtain ⟨k1, k2⟩ := h5 hcnt op c b id hp hi'
                exact ⟨i.name, k1, hstep.typeNames k2⟩
              · exact e4 t' op c b id hm hp hi'

/-! ### Base classes -/

theorem base_keyword (k n : Bytes) (hk : k ∈ classKeywords) (hn : (32 : UInt8) ∉ n) :
    removeAll b!"class " (removeAll b!"struct " (k ++ n)) = n := by
  have hp : ∀ p ∈ patterns, ∀ i, ¬ OccursAt p n i := (plain_of_no_space n hn).1
  have e2 : removeAll b!"struct " n = n := removeAll_none _ n (hp _ (by simp [patterns]))
  have e3 : removeAll b!"class " n = n := removeAll_none _ n (hp _ (by simp [patterns]))
  simp only [classKeywords, List.mem_cons, List.not_mem_nil, or_false] at hk
  rcases hk with rfl | rfl | rfl
  · rw [List.nil_append, e2, e3]
  · rw [removeAll_prefix b!"struct " n (by decide) (hp _ (by simp [patterns])), e3]
  · rw [removeAll_none b!"struct " (b!"class " ++ n)
        (keyword_none b!"class" b!"struct" n (by decide) hn (by decide)),
      removeAll_prefix b!"class " n (by decide) (hp _ (by simp [patterns]))]

/-- `ParseBaseClass` in terms of the type's meaning. -/
theorem parseBase_eq (env : Env) (self : Nat → Db → Out Bytes) (hd : ∀ id, (env id).declared = true) (derived : Bytes) (b : Base)
    (hw : WellNamed b.type) (c : Bool) (u : CType) (hm : Means b.type c u) (hu : IsClass u) (db : Db) :
    parseBase env self derived b db = if b.virt then .fail false db else
      (match u with
        | .record _ n => Out.ok n db
        | .inst id => self id db
        | .spec id => self id db
        | _ => .fail false db).bind fun name db => .ok name (db.addInheritance derived name) := by
  unfold parseBase
  dsimp only
  obtain ⟨_, h⟩ := (means_iff _ _ _).mp hm
  have hs := strip_update b.type
  have hwp := wellNamed_peel b.type hw
  rw [← h] at hs hwp
  cases hu with
  | record =>
    rename_i k n
    have : b.type.update.strip = .record k n := by rcases hs with h | h <;> exact h
    rw [this]
    simp only [printed, specialise]
    rw [base_keyword k n hwp.1 hwp.2]
  | inst =>
    rename_i id
    have : b.type.update.strip = .inst id := by rcases hs with h | h <;> exact h
    rw [this]
    simp only [specialise, hd, if_true]
  | spec =>
    rename_i id
    rcases hs with h | h
    · rw [h]; simp only [specialise, hd, if_true]
    · rw [h]; simp only [CType.canon, specialise, hd, if_true]

theorem parseBase_ok {env : Env} {self : Nat → Db → Out Bytes} (he : WellNamedEnv env) (hs : SelfOk env self) (derived : Bytes) (b : Base)
    (hw : WellNamed b.type) (hc : ∃ c u, Means b.type c u ∧ IsClass u) (db : Db) :
    After env db (parseBase env self derived b db) ∧ ∀ x db', parseBase env self derived b db = .ok x db' →
      b.virt = false ∧ ∃ c u, Means b.type c u ∧ HasName env u x ∧ (derived, x) ∈ db'.inherits ∧
        ∀ id, IsInstance u id → x ∈ db'.typeNames := by
  obtain ⟨c, u, hm, hu⟩ := hc
  rw [parseBase_eq env self he.declared derived b hw c u hm hu db]
  cases hv : b.virt with
  | true => exact ⟨Step.refl _ _, fun x db' h => by cases h⟩
  | false =>
    simp only [Bool.false_eq_true, if_false]
    have inst : ∀ id : Nat, (u = .inst id ∨ u = .spec id) →
        After env db ((self id db).bind fun name db => .ok name (db.addInheritance derived name)) ∧
        ∀ x db', ((self id db).bind fun name db => .ok name (db.addInheritance derived name)) = .ok x db' →
          True ∧ ∃ c u, Means b.type c u ∧ HasName env u x ∧ (derived, x) ∈ db'.inherits ∧
            ∀ id, IsInstance u id → x ∈ db'.typeNames := by
      intro id hid
      refine ⟨after_bind db _ _ (hs.after id db) fun a d _ => addInheritance_step env d derived a, fun x db' h => ?_⟩
      obtain ⟨y, d, hy, h⟩ := bind_ok _ _ _ _ h
      injection h with h1 h2
      subst h1 h2
      obtain ⟨k1, k2, k3⟩ := hs.name id db y d hy
      obtain ⟨g1, g2, g3⟩ := addInheritance_grows d derived y
      refine ⟨trivial, c, u, hm, ?_, g2, fun _ _ => g1.typeNames k3⟩
      rcases hid with rfl | rfl
      · exact k1
      · exact .spec k1
    cases hu with
    | record =>
      rename_i k n
      refine ⟨addInheritance_step env db derived n, fun x db' h => ?_⟩
      injection h with h1 h2
      subst h1 h2
      exact ⟨trivial, c, _, hm, .record, (addInheritance_grows db derived n).2.1, fun id h => by cases h⟩
    | inst => rename_i id; exact inst id (.inl rfl)
    | spec => rename_i id; exact inst id (.inr rfl)

theorem baseLoop_ok {env : Env} {self : Nat → Db → Out Bytes} (he : WellNamedEnv env) (hs : SelfOk env self) (derived : Bytes)
    (bases : List Base) (hw : ∀ b ∈ bases, WellNamed b.type ∧ ∃ c u, Means b.type c u ∧ IsClass u) (db : Db) :
    After env db (baseLoop env self derived bases db) ∧ ∀ db', baseLoop env self derived bases db = .ok () db' →
      ∀ b ∈ bases, b.virt = false ∧ ∃ c u x, Means b.type c u ∧ HasName env u x ∧ (derived, x) ∈ db'.inherits ∧
        ∀ id, IsInstance u id → x ∈ db'.typeNames := by
  induction bases generalizing db with
  | nil => exact ⟨Step.refl _ _, fun db' _ b hb => by cases hb⟩
  | cons b r ih =>
    unfold baseLoop
    obtain ⟨w1, w2⟩ := hw b List.mem_cons_self
    obtain ⟨h1, h2⟩ := parseBase_ok he hs derived b w1 w2 db
    have hr : ∀ b ∈ r, WellNamed b.type ∧ ∃ c u, Means b.type c u ∧ IsClass u := fun b h => hw b (List.mem_cons_of_mem _ h)
    refine ⟨after_bind db _ _ h1 fun a d _ => (ih hr d).1, fun db' h => ?_⟩
    obtain ⟨x, d, hx, h⟩ := bind_ok _ _ _ _ h
    obtain ⟨hv, c, u, k1, k2, k3, k4⟩ := h2 x d hx
    obtain ⟨g1, g2⟩ := ih hr d
    have hg : Grows d db' := by rw [h] at g1; exact g1.1
    intro b' hb'
    rcases List.mem_cons.mp hb' with rfl | hb'
    · exact ⟨hv, c, u, x, k1, k2, hg.inherits.subset k3, fun id hi => hg.typeNames (k4 id hi)⟩
    · exact g2 db' h b' hb'

/-! ### Instances -/

theorem instBody_ok {env : Env} {self : Nat → Db → Out Bytes} (he : WellNamedEnv env) (hs : SelfOk env self) (id : Nat) (db : Db) :
    After env db (instBody env self id db) ∧ ∀ x db', instBody env self id db = .ok x db' →
      HasName env (.inst id) x ∧ Plain x ∧ x ∈ db'.typeNames := by
  unfold instBody
  split
  · exact ⟨Step.refl _ _, fun x db' h => by cases h⟩
  · obtain ⟨a1, a2⟩ := argLoop_ok he hs (env id).args (he.args id) [] db
    have named : ∀ infos : List PInfo, ArgNames env (env id).args (infos.map keep) → (∀ i ∈ infos, Plain i.name) →
        HasName env (.inst id) (instName (env id).tname infos) ∧ Plain (instName (env id).tname infos) := by
      intro infos h1 h2
      rw [instName, argsText_listing]
      refine ⟨.inst h1, plain_inst _ _ (he.tname id) ?_⟩
      intro y hy
      obtain ⟨i, hi, rfl⟩ := List.mem_map.mp hy
      exact h2 i hi
    constructor
    · refine after_bind db _ _ a1 fun infos d hi => ?_
      obtain ⟨new, e1, e2, e3, e4⟩ := a2 infos d hi
      rw [List.nil_append] at e1
      subst e1
      obtain ⟨n1, n2⟩ := named infos e2 e3
      dsimp only
      split
      · exact Step.refl _ _
      · obtain ⟨b1, b2⟩ := baseLoop_ok he hs (instName (env id).tname infos) (env id).bases (he.bases id) d
        refine after_bind d _ _ b1 fun u d' hd => ?_
        have hb := b2 d' hd
        have hg : Grows d d' := by rw [hd] at b1; exact b1.1
        have hg' : Grows d' { d' with templateTypes := d'.templateTypes ++
            [{ name := instName (env id).tname infos, parent := (env id).tname, size := (env id).size,
               params := infos.map fun i => (i.name, i.op == .pointer) }] } :=
          ⟨List.prefix_append _ _, List.prefix_refl _, rfl, rfl, rfl, rfl, rfl⟩
        refine ⟨hg', fun good e hm => ?_⟩
        rcases List.mem_append.mp hm with hm | hm
        · obtain ⟨id', hd'⟩ := good e hm
          exact ⟨id', hd'.mono hg'⟩
        · rw [List.mem_singleton] at hm
          subst hm
          refine ⟨id, ?_⟩
          exact
            { name := n1, parent := rfl, size := rfl, params := e2
              args := fun t op c b id' h1 h2 h3 => by
                obtain ⟨x, hx, hm⟩ := e4 t op c b id' h1 h2 h3
                exact ⟨x, hx, (hg.trans hg').typeNames hm⟩
              bases := fun b hb' => by
                obtain ⟨hv, c, u, x, k1, k2, k3, k4⟩ := hb b hb'
                exact ⟨hv, c, u, x, k1, k2, k3, fun id' hi => hg'.typeNames (k4 id' hi)⟩ }
    · intro x db' h
      obtain ⟨infos, d, hi, h⟩ := bind_ok _ _ _ _ h
      obtain ⟨new, e1, e2, e3, e4⟩ := a2 infos d hi
      rw [List.nil_append] at e1
      subst e1
      obtain ⟨n1, n2⟩ := named infos e2 e3
      dsimp only at h
      split at h
      · rename_i hhas
        injection h with h1 h2
        subst h1 h2
        exact ⟨n1, n2, (hasTemplateType_iff _ _).mp hhas⟩
      · obtain ⟨u, d', hd, h⟩ := bind_ok _ _ _ _ h
        injection h with h1 h2
        subst h1 h2
        refine ⟨n1, n2, ?_⟩
        simp [Db.typeNames]

theorem parseInst_ok {env : Env} (he : WellNamedEnv env) (fuel : Nat) : SelfOk env (parseInst env fuel) := by
  induction fuel with
  | zero => exact ⟨fun _ _ => trivial, fun _ _ _ _ h => by cases h⟩
  | succ n ih => exact ⟨fun id db => (instBody_ok he ih id db).1, fun id db x db' h => (instBody_ok he ih id db).2 x db' h⟩

end Clr.ScanTypes
