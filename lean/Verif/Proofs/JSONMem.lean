import Verif.Model.JSONSpec

/-! Memory, induction over types, and the specification's predicates by fields. -/
namespace Clr.JSON

/-! ### Memory -/

theorem read_length (m : Mem) (a n : Nat) : (m.read a n).length = n := by
  induction n generalizing a with
  | zero => rfl
  | succ n ih => simp [Mem.read, ih]

theorem read_congr {m m' : Mem} {a n : Nat} (h : ∀ x, a ≤ x → x < a + n → m.byte x = m'.byte x) :
    m.read a n = m'.read a n := by
  induction n generalizing a with
  | zero => rfl
  | succ n ih =>
    simp only [Mem.read]
    rw [h a (by omega) (by omega), ih (fun x h1 h2 => h x (by omega) (by omega))]

theorem read_getElem? (m : Mem) (a n i : Nat) (h : i < n) : (m.read a n)[i]? = some (m.byte (a + i)) := by
  induction n generalizing a i with
  | zero => omega
  | succ n ih =>
    cases i with
    | zero => simp [Mem.read]
    | succ i => simp only [Mem.read, List.getElem?_cons_succ]; rw [ih (a + 1) i (by omega), show a + 1 + i = a + (i + 1) by omega]

theorem read_write (m : Mem) (a : Nat) (bs : Bytes) : (m.write a bs).read a bs.length = bs := by
  apply List.ext_getElem?
  intro i
  by_cases hi : i < bs.length
  · rw [read_getElem? _ _ _ _ hi]
    simp [Mem.write, hi]
  · rw [List.getElem?_eq_none (by rw [read_length]; omega), List.getElem?_eq_none (by omega)]

theorem Effect.refl (m : Mem) (S : Nat → Prop) : Effect m m S := ⟨Nat.le_refl _, fun _ _ _ => rfl, fun _ _ _ => rfl⟩

theorem Effect.trans {m m' m'' : Mem} {S S' : Nat → Prop} (h : Effect m m' S) (h' : Effect m' m'' S') :
    Effect m m'' (fun x => S x ∨ S' x) := by
  refine ⟨Nat.le_trans h.next h'.next, fun x hx hs => ?_, fun x hx hs => ?_⟩
  · rw [h'.byte x (by have := h.next; omega) (fun hh => hs (.inr hh)), h.byte x hx (fun hh => hs (.inl hh))]
  · rw [h'.elems x (by have := h.next; omega) (fun hh => hs (.inr hh)), h.elems x hx (fun hh => hs (.inl hh))]

theorem Effect.mono {m m' : Mem} {S S' : Nat → Prop} (h : Effect m m' S) (hs : ∀ x, S x → S' x) : Effect m m' S' :=
  ⟨h.next, fun x hx hn => h.byte x hx (fun hh => hn (hs x hh)), fun x hx hn => h.elems x hx (fun hh => hn (hs x hh))⟩

theorem effect_write (m : Mem) (b : Nat) (bs : Bytes) : Effect m (m.write b bs) (fun x => b ≤ x ∧ x < b + bs.length) := by
  refine ⟨Nat.le_refl _, fun x _ hs => ?_, fun x _ _ => rfl⟩
  simp only [Mem.write]
  split
  · rw [List.getElem?_eq_none (by omega)]; rfl
  · rfl

theorem Clear.effect {m m' : Mem} {S : Nat → Prop} {b n : Nat} (h : Clear m b n) (he : Effect m m' S)
    (hb : b + n ≤ m.next) (hs : ∀ x, b ≤ x → x < b + n → ¬ S x) : Clear m' b n := by
  intro x h1 h2
  rw [he.elems x (by omega) (hs x h1 h2), h x h1 h2]

theorem Clear.sub {m : Mem} {b n b' n' : Nat} (h : Clear m b n) (h1 : b ≤ b') (h2 : b' + n' ≤ b + n) : Clear m b' n' :=
  fun x h3 h4 => h x (by omega) (by omega)

/-! ### Induction over types -/

mutual
theorem tyInd {P : Ty → Prop} (prim : ∀ h s, P (.prim h s)) (enum : ∀ h s cs fl, P (.enum h s cs fl))
    (cls : ∀ h s fl fs bs, (∀ x ∈ (Ty.cls h s fl fs bs).allFields, P x.2) → P (.cls h s fl fs bs))
    (tmpl : ∀ h s bs, P (.tmpl h s bs)) (vec : ∀ h s elem p, P elem → P (.vec h s elem p))
    (dict : ∀ h s k elem p, P k → P elem → P (.dict h s k elem p)) : ∀ t : Ty, P t
  | .prim h s => prim h s
  | .enum h s cs fl => enum h s cs fl
  | .cls h s fl fs bs => cls h s fl fs bs (by
      intro x hx
      rw [Ty.allFields] at hx
      rcases List.mem_append.1 hx with hx | hx
      · exact fldsInd prim enum cls tmpl vec dict fs x hx
      · exact tysInd prim enum cls tmpl vec dict bs x hx)
  | .tmpl h s bs => tmpl h s bs
  | .vec h s elem p => vec h s elem p (tyInd prim enum cls tmpl vec dict elem)
  | .dict h s k elem p =>
    dict h s k elem p (tyInd prim enum cls tmpl vec dict k) (tyInd prim enum cls tmpl vec dict elem)

theorem fldsInd {P : Ty → Prop} (prim : ∀ h s, P (.prim h s)) (enum : ∀ h s cs fl, P (.enum h s cs fl))
    (cls : ∀ h s fl fs bs, (∀ x ∈ (Ty.cls h s fl fs bs).allFields, P x.2) → P (.cls h s fl fs bs))
    (tmpl : ∀ h s bs, P (.tmpl h s bs)) (vec : ∀ h s elem p, P elem → P (.vec h s elem p))
    (dict : ∀ h s k elem p, P k → P elem → P (.dict h s k elem p)) : ∀ fs : Flds, ∀ x ∈ fs.list, P x.2
  | .nil => by intro x hx; simp [Flds.list] at hx
  | .cons f t r => by
      intro x hx
      rw [Flds.list] at hx
      rcases List.mem_cons.1 hx with rfl | hx
      · exact tyInd prim enum cls tmpl vec dict t
      · exact fldsInd prim enum cls tmpl vec dict r x hx

theorem tysInd {P : Ty → Prop} (prim : ∀ h s, P (.prim h s)) (enum : ∀ h s cs fl, P (.enum h s cs fl))
    (cls : ∀ h s fl fs bs, (∀ x ∈ (Ty.cls h s fl fs bs).allFields, P x.2) → P (.cls h s fl fs bs))
    (tmpl : ∀ h s bs, P (.tmpl h s bs)) (vec : ∀ h s elem p, P elem → P (.vec h s elem p))
    (dict : ∀ h s k elem p, P k → P elem → P (.dict h s k elem p)) : ∀ bs : Tys, ∀ x ∈ bs.allFields, P x.2
  | .nil => by intro x hx; simp [Tys.allFields] at hx
  | .cons t r => by
      intro x hx
      rw [Tys.allFields] at hx
      rcases List.mem_append.1 hx with hx | hx
      · exact baseInd prim enum cls tmpl vec dict t x hx
      · exact tysInd prim enum cls tmpl vec dict r x hx

theorem baseInd {P : Ty → Prop} (prim : ∀ h s, P (.prim h s)) (enum : ∀ h s cs fl, P (.enum h s cs fl))
    (cls : ∀ h s fl fs bs, (∀ x ∈ (Ty.cls h s fl fs bs).allFields, P x.2) → P (.cls h s fl fs bs))
    (tmpl : ∀ h s bs, P (.tmpl h s bs)) (vec : ∀ h s elem p, P elem → P (.vec h s elem p))
    (dict : ∀ h s k elem p, P k → P elem → P (.dict h s k elem p)) : ∀ t : Ty, ∀ x ∈ t.allFields, P x.2
  | .prim h s => by intro x hx; simp [Ty.allFields] at hx
  | .enum h s cs fl => by intro x hx; simp [Ty.allFields] at hx
  | .cls h s fl fs bs => by
      intro x hx
      rw [Ty.allFields] at hx
      rcases List.mem_append.1 hx with hx | hx
      · exact fldsInd prim enum cls tmpl vec dict fs x hx
      · exact tysInd prim enum cls tmpl vec dict bs x hx
  | .tmpl h s bs => by
      intro x hx
      rw [Ty.allFields] at hx
      exact tysInd prim enum cls tmpl vec dict bs x hx
  | .vec h s elem p => by intro x hx; simp [Ty.allFields] at hx
  | .dict h s k elem p => by intro x hx; simp [Ty.allFields] at hx
end

mutual
theorem savedFields_sub (e : Env) : ∀ (t : Ty) (x : FldInfo × Ty), x ∈ t.savedFields e → x ∈ t.allFields ∧ savedField e x.1 = true
  | .prim h s, x => by simp [Ty.savedFields]
  | .enum h s cs fl, x => by simp [Ty.savedFields]
  | .cls h s fl fs bs, x => by
      rw [Ty.savedFields, Ty.allFields]
      split
      · simp
      · intro hx
        rcases List.mem_append.1 hx with hx | hx
        · have := List.mem_filter.1 hx
          exact ⟨List.mem_append.2 (.inl this.1), by simpa using this.2⟩
        · have := savedFieldsT_sub e bs x hx
          exact ⟨List.mem_append.2 (.inr this.1), this.2⟩
  | .tmpl h s bs, x => by
      rw [Ty.savedFields, Ty.allFields]
      exact savedFieldsT_sub e bs x
  | .vec h s elem p, x => by simp [Ty.savedFields]
  | .dict h s k elem p, x => by simp [Ty.savedFields]

theorem savedFieldsT_sub (e : Env) : ∀ (bs : Tys) (x : FldInfo × Ty), x ∈ bs.savedFields e → x ∈ bs.allFields ∧ savedField e x.1 = true
  | .nil, x => by simp [Tys.savedFields]
  | .cons t r, x => by
      rw [Tys.savedFields, Tys.allFields]
      intro hx
      rcases List.mem_append.1 hx with hx | hx
      · have := savedFields_sub e t x hx
        exact ⟨List.mem_append.2 (.inl this.1), this.2⟩
      · have := savedFieldsT_sub e r x hx
        exact ⟨List.mem_append.2 (.inr this.1), this.2⟩
end

/-! ### By fields -/

/-- `Same` for a field's type and count. -/
def CellSame (e : Env) (m m' : Mem) (R : Nat → Prop) (count : Option Nat) (t : Ty) (a b : Nat) : Prop :=
  (count = none → Same e m m' R t a b) ∧
  (∀ n, count = some n → ∀ i, i < n → Same e m m' R t (elemAt a i t.size) (elemAt b i t.size))

/-- `Touched` for a field's type and count. -/
def CellTouched (e : Env) (count : Option Nat) (t : Ty) (b x : Nat) : Prop :=
  (count = none ∧ Touched e t b x) ∨ ∃ n i, count = some n ∧ i < n ∧ Touched e t (elemAt b i t.size) x

/-- `Savable` for a field's type and count. -/
def CellSavable (e : Env) (m : Mem) (count : Option Nat) (t : Ty) (a : Nat) : Prop :=
  (count = none → Savable e m t a) ∧ (∀ n, count = some n → ∀ i, i < n → Savable e m t (elemAt a i t.size))

/-- The size of a field's type and count. -/
def cellSize (count : Option Nat) (t : Ty) : Nat :=
  match count with
  | some n => n * t.size
  | none => t.size

theorem extent_eq {f : FldInfo} {t : Ty} (h : f.isPtr = false) : f.extent t = cellSize f.count t := by
  unfold FldInfo.extent cellSize strideOf
  simp only [h, Bool.false_eq_true, if_false]
  cases f.count <;> rfl

/-- A supported field. -/
def CellSupported (e : Env) (o : Opts) (count : Option Nat) (t : Ty) : Prop :=
  Supported e o t ∧ (count ≠ none → 0 < t.size)

theorem sameFlds_iff (e : Env) (m m' : Mem) (R : Nat → Prop) (fs : Flds) (a b : Nat) :
    SameFlds e m m' R fs a b ↔ ∀ x ∈ fs.list.filter (fun x => savedField e x.1),
      CellSame e m m' R x.1.count x.2 (a + x.1.offset) (b + x.1.offset) := by
  match fs with
  | .nil => simp [SameFlds, Flds.list]
  | .cons f t r =>
    rw [SameFlds, sameFlds_iff e m m' R r a b, Flds.list, List.filter_cons]
    cases hs : savedField e f
    · simp
    · simp only [if_true, List.mem_cons, forall_eq_or_imp, true_imp_iff, CellSame]

theorem touchedFlds_iff (e : Env) (fs : Flds) (b y : Nat) :
    TouchedFlds e fs b y ↔ ∃ x ∈ fs.list.filter (fun x => savedField e x.1),
      CellTouched e x.1.count x.2 (b + x.1.offset) y := by
  match fs with
  | .nil => simp [TouchedFlds, Flds.list]
  | .cons f t r =>
    rw [TouchedFlds, touchedFlds_iff e r b y, Flds.list, List.filter_cons]
    cases hs : savedField e f
    · simp
    · simp only [if_true, List.mem_cons, exists_eq_or_imp, true_and, CellTouched]

theorem savableFlds_iff (e : Env) (m : Mem) (fs : Flds) (a : Nat) :
    SavableFlds e m fs a ↔ ∀ x ∈ fs.list.filter (fun x => savedField e x.1),
      CellSavable e m x.1.count x.2 (a + x.1.offset) := by
  match fs with
  | .nil => simp [SavableFlds, Flds.list]
  | .cons f t r =>
    rw [SavableFlds, savableFlds_iff e m r a, Flds.list, List.filter_cons]
    cases hs : savedField e f
    · simp
    · simp only [if_true, List.mem_cons, forall_eq_or_imp, true_imp_iff, CellSavable]

theorem supportedFlds_iff (e : Env) (o : Opts) (fs : Flds) :
    SupportedFlds e o fs ↔ ∀ x ∈ fs.list.filter (fun x => savedField e x.1), CellSupported e o x.1.count x.2 := by
  match fs with
  | .nil => simp [SupportedFlds, Flds.list]
  | .cons f t r =>
    rw [SupportedFlds, supportedFlds_iff e o r, Flds.list, List.filter_cons]
    cases hs : savedField e f
    · simp
    · simp only [if_true, List.mem_cons, forall_eq_or_imp, true_imp_iff, CellSupported]

mutual
theorem base_iff (e : Env) (o : Opts) : ∀ (t : Ty), SupportedBase e o t →
    (∀ m m' R a b, Same e m m' R t a b ↔ ∀ x ∈ t.savedFields e, CellSame e m m' R x.1.count x.2 (a + x.1.offset) (b + x.1.offset)) ∧
    (∀ b y, Touched e t b y ↔ ∃ x ∈ t.savedFields e, CellTouched e x.1.count x.2 (b + x.1.offset) y) ∧
    (∀ m a, Savable e m t a ↔ ∀ x ∈ t.savedFields e, CellSavable e m x.1.count x.2 (a + x.1.offset)) ∧
    (∀ x ∈ t.savedFields e, CellSupported e o x.1.count x.2)
  | .prim h s => by simp [SupportedBase]
  | .enum h s cs fl => by simp [SupportedBase]
  | .vec h s elem p => by simp [SupportedBase]
  | .dict h s k elem p => by simp [SupportedBase]
  | .tmpl h s bs => by
      intro hs
      rw [SupportedBase] at hs
      have := tys_iff e o bs hs
      simp only [Same, Touched, Savable, Ty.savedFields]
      exact this
  | .cls h s fl fs bs => by
      intro hs
      rw [SupportedBase] at hs
      simp only [Same, Touched, Savable, Ty.savedFields]
      cases hfl : e.skips fl
      · rw [hfl] at hs
        obtain ⟨h1, h2, -⟩ := hs.resolve_left (by simp)
        obtain ⟨t1, t2, t3, t4⟩ := tys_iff e o bs h2
        simp only [Bool.false_eq_true, if_false, false_or, true_and, sameFlds_iff, touchedFlds_iff, savableFlds_iff,
          t1, t2, t3, List.mem_append]
        refine ⟨fun m m' R a b => ?_, fun b y => ?_, fun m a => ?_, fun x hx => ?_⟩
        · constructor
          · rintro ⟨h1, h2⟩ x (hx | hx)
            · exact h1 x hx
            · exact h2 x hx
          · intro h
            exact ⟨fun x hx => h x (.inl hx), fun x hx => h x (.inr hx)⟩
        · constructor
          · rintro (⟨x, hx, h⟩ | ⟨x, hx, h⟩)
            · exact ⟨x, .inl hx, h⟩
            · exact ⟨x, .inr hx, h⟩
          · rintro ⟨x, hx | hx, h⟩
            · exact .inl ⟨x, hx, h⟩
            · exact .inr ⟨x, hx, h⟩
        · constructor
          · rintro ⟨h1, h2⟩ x (hx | hx)
            · exact h1 x hx
            · exact h2 x hx
          · intro h
            exact ⟨fun x hx => h x (.inl hx), fun x hx => h x (.inr hx)⟩
        · rcases hx with hx | hx
          · exact (supportedFlds_iff e o fs).1 h1 x hx
          · exact t4 x hx
      · simp

theorem tys_iff (e : Env) (o : Opts) : ∀ (bs : Tys), SupportedTys e o bs →
    (∀ m m' R a b, SameTys e m m' R bs a b ↔ ∀ x ∈ bs.savedFields e, CellSame e m m' R x.1.count x.2 (a + x.1.offset) (b + x.1.offset)) ∧
    (∀ b y, TouchedTys e bs b y ↔ ∃ x ∈ bs.savedFields e, CellTouched e x.1.count x.2 (b + x.1.offset) y) ∧
    (∀ m a, SavableTys e m bs a ↔ ∀ x ∈ bs.savedFields e, CellSavable e m x.1.count x.2 (a + x.1.offset)) ∧
    (∀ x ∈ bs.savedFields e, CellSupported e o x.1.count x.2)
  | .nil => by simp [SameTys, TouchedTys, SavableTys, Tys.savedFields]
  | .cons t r => by
      intro hs
      rw [SupportedTys] at hs
      obtain ⟨b1, b2, b3, b4⟩ := base_iff e o t hs.1
      obtain ⟨t1, t2, t3, t4⟩ := tys_iff e o r hs.2
      simp only [SameTys, TouchedTys, SavableTys, Tys.savedFields, b1, b2, b3, t1, t2, t3, List.mem_append]
      refine ⟨fun m m' R a b => ?_, fun b y => ?_, fun m a => ?_, fun x hx => ?_⟩
      · constructor
        · rintro ⟨h1, h2⟩ x (hx | hx)
          · exact h1 x hx
          · exact h2 x hx
        · intro h
          exact ⟨fun x hx => h x (.inl hx), fun x hx => h x (.inr hx)⟩
      · constructor
        · rintro (⟨x, hx, h⟩ | ⟨x, hx, h⟩)
          · exact ⟨x, .inl hx, h⟩
          · exact ⟨x, .inr hx, h⟩
        · rintro ⟨x, hx | hx, h⟩
          · exact .inl ⟨x, hx, h⟩
          · exact .inr ⟨x, hx, h⟩
      · constructor
        · rintro ⟨h1, h2⟩ x (hx | hx)
          · exact h1 x hx
          · exact h2 x hx
        · intro h
          exact ⟨fun x hx => h x (.inl hx), fun x hx => h x (.inr hx)⟩
      · rcases hx with hx | hx
        · exact b4 x hx
        · exact t4 x hx
end

theorem cls_base {e : Env} {o : Opts} {h s fl fs bs} (hs : Supported e o (.cls h s fl fs bs)) :
    SupportedBase e o (.cls h s fl fs bs) := by
  rw [Supported] at hs
  rw [SupportedBase]
  exact .inr ⟨hs.2.1, hs.2.2.1, hs.2.2.2.2.2.2⟩

/-! ### Where values lie -/

theorem elem_le {i n s : Nat} (h : i < n) : i * s + s ≤ n * s := by
  rw [← Nat.succ_mul]; exact Nat.mul_le_mul_right s h

theorem cellTouched_within {e : Env} {count : Option Nat} {t : Ty}
    (h : ∀ b x, Touched e t b x → b ≤ x ∧ x < b + t.size) {b x : Nat} (hx : CellTouched e count t b x) :
    b ≤ x ∧ x < b + cellSize count t := by
  rcases hx with ⟨hc, hx⟩ | ⟨n, i, hc, hi, hx⟩
  · subst hc
    exact h b x hx
  · subst hc
    have := h _ x hx
    have hle := elem_le (s := t.size) hi
    simp only [elemAt] at this
    simp only [cellSize]
    omega

theorem touched_within {e : Env} {o : Opts} (t : Ty) (hs : Supported e o t) :
    ∀ b x, Touched e t b x → b ≤ x ∧ x < b + t.size := by
  revert hs
  refine tyInd (P := fun t => Supported e o t → ∀ b x, Touched e t b x → b ≤ x ∧ x < b + t.size)
    ?_ ?_ ?_ ?_ ?_ ?_ t
  · intro h s _ b x hx; simpa [Touched, Ty.size] using hx
  · intro h s cs fl _ b x hx; simpa [Touched, Ty.size] using hx
  · intro h s fl fs bs ih hs b x hx
    obtain ⟨-, i2, -, i4⟩ := base_iff e o _ (cls_base hs)
    obtain ⟨y, hy, ht⟩ := (i2 b x).1 hx
    have hsub := savedFields_sub e _ y hy
    have hw := cellTouched_within (ih y hsub.1 (i4 y hy).1) ht
    rw [Supported] at hs
    have hb := (hs.2.2.2.2.2.1 y hy).1
    rw [extent_eq (by have := hsub.2; simp [savedField] at this; exact this.2)] at hb
    simp only [Ty.size]
    omega
  · intro h s bs hs; simp [Supported] at hs
  · intro h s elem p _ _ b x hx; simpa [Touched, Ty.size] using hx
  · intro h s k elem p _ _ _ b x hx; simpa [Touched, Ty.size] using hx

/-- The values of an object depend on its bytes and the region of its elements. -/
theorem same_congr {e : Env} {o : Opts} (t : Ty) (hs : Supported e o t) :
    ∀ {m m1 m2 : Mem} {R R' : Nat → Prop} {a b : Nat}, Same e m m1 R t a b → (∀ x, R x → R' x) →
      (∀ x, Touched e t b x ∨ R x → m2.byte x = m1.byte x ∧ m2.elems x = m1.elems x) → Same e m m2 R' t a b := by
  revert hs
  refine tyInd (P := fun t => Supported e o t → ∀ {m m1 m2 : Mem} {R R' : Nat → Prop} {a b : Nat}, Same e m m1 R t a b →
    (∀ x, R x → R' x) → (∀ x, Touched e t b x ∨ R x → m2.byte x = m1.byte x ∧ m2.elems x = m1.elems x) →
    Same e m m2 R' t a b) ?_ ?_ ?_ ?_ ?_ ?_ t
  · intro h s _ m m1 m2 R R' a b hsame _ hag
    simp only [Same] at hsame ⊢
    rw [← hsame]
    exact read_congr fun x h1 h2 => (hag x (.inl (by simp [Touched, h1, h2]))).1
  · intro h s cs fl _ m m1 m2 R R' a b hsame _ hag
    simp only [Same] at hsame ⊢
    rw [← hsame]
    exact read_congr fun x h1 h2 => (hag x (.inl (by simp [Touched, h1, h2]))).1
  · intro h s fl fs bs ih hs m m1 m2 R R' a b hsame hR hag
    obtain ⟨i1, i2, -, i4⟩ := base_iff e o _ (cls_base hs)
    rw [i1] at hsame ⊢
    intro x hx
    have hc := hsame x hx
    have hsub := savedFields_sub e _ x hx
    have ihx := @ih x hsub.1 (i4 x hx).1
    have hag' : ∀ y, CellTouched e x.1.count x.2 (b + x.1.offset) y ∨ R y → m2.byte y = m1.byte y ∧ m2.elems y = m1.elems y := by
      intro y hy
      exact hag y (hy.imp_left fun hy => (i2 b y).2 ⟨x, hx, hy⟩)
    refine ⟨fun hn => ?_, fun n hn i hi => ?_⟩
    · exact ihx (hc.1 hn) hR fun y hy => hag' y (hy.imp_left fun hy => .inl ⟨hn, hy⟩)
    · exact ihx (hc.2 n hn i hi) hR fun y hy => hag' y (hy.imp_left fun hy => .inr ⟨n, i, hn, hi, hy⟩)
  · intro h s bs hs; simp [Supported] at hs
  · intro h s elem p ih hs m m1 m2 R R' a b hsame hR hag
    rw [Supported] at hs
    simp only [Same] at hsame ⊢
    have he : m2.elems b = m1.elems b := (hag b (.inl (by simp [Touched, hs.2.1]))).2
    rw [he]
    refine ⟨hsame.1, fun i hi => ?_⟩
    obtain ⟨hr, hsm⟩ := hsame.2 i hi
    refine ⟨fun x h1 h2 => hR x (hr x h1 h2), ?_⟩
    refine ih hs.2.2.2 hsm hR fun x hx => hag x (.inr ?_)
    rcases hx with hx | hx
    · have := touched_within elem hs.2.2.2 _ _ hx
      exact hr x this.1 this.2
    · exact hx
  · intro h s k elem p ihk ih hs m m1 m2 R R' a b hsame hR hag
    rw [Supported] at hs
    obtain ⟨-, hs0, -, hsk, -, hse⟩ := hs
    simp only [Same] at hsame ⊢
    have he : m2.elems b = m1.elems b := (hag b (.inl (by simp [Touched, hs0]))).2
    rw [he]
    refine ⟨hsame.1, fun i hi => ?_⟩
    obtain ⟨hrk, hr, hsmk, hsm⟩ := hsame.2 i hi
    refine ⟨fun x h1 h2 => hR x (hrk x h1 h2), fun x h1 h2 => hR x (hr x h1 h2), ?_, ?_⟩
    · refine ihk hsk hsmk hR fun x hx => hag x (.inr ?_)
      rcases hx with hx | hx
      · have := touched_within k hsk _ _ hx
        exact hrk x this.1 this.2
      · exact hx
    · refine ih hse hsm hR fun x hx => hag x (.inr ?_)
      rcases hx with hx | hx
      · have := touched_within elem hse _ _ hx
        exact hr x this.1 this.2
      · exact hx

theorem cellSame_congr {e : Env} {o : Opts} {count : Option Nat} {t : Ty} (hs : Supported e o t)
    {m m1 m2 : Mem} {R R' : Nat → Prop} {a b : Nat} (h : CellSame e m m1 R count t a b) (hR : ∀ x, R x → R' x)
    (hag : ∀ x, CellTouched e count t b x ∨ R x → m2.byte x = m1.byte x ∧ m2.elems x = m1.elems x) :
    CellSame e m m2 R' count t a b := by
  refine ⟨fun hn => ?_, fun n hn i hi => ?_⟩
  · exact same_congr t hs (h.1 hn) hR fun y hy => hag y (hy.imp_left fun hy => .inl ⟨hn, hy⟩)
  · exact same_congr t hs (h.2 n hn i hi) hR fun y hy => hag y (hy.imp_left fun hy => .inr ⟨n, i, hn, hi, hy⟩)

end Clr.JSON
