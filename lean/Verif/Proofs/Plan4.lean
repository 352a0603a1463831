import Verif.Proofs.Plan3
import Verif.Proofs.Image5
/-
Lemmas for C85: writing everything to memory leaves everything there.
-/
namespace Clr.Image
open Clr Clr.Reloc Clr.Layout
open Clr.Export (K Slot Ref Ptr St)

theorem length_bytesAt (start : Nat) (v : Val) : (v.bytesAt start).length = width v := by
  cases v with
  | num w v => exact length_le w v
  | ptr t => cases t <;> exact length_le _ _
  | raw n => exact length_le _ _
  | bytes bs => rfl

theorem length_storeAt {img : Bytes} {o : Nat} {bs : Bytes} (h : o + bs.length ≤ img.length) : (storeAt img o bs).length = img.length := by
  unfold storeAt
  simp only [List.length_append, List.length_take, List.length_drop]
  omega

theorem storeAt_same {img : Bytes} {o : Nat} {bs : Bytes} (h : o + bs.length ≤ img.length) :
    ((storeAt img o bs).drop o).take bs.length = bs := by
  unfold storeAt
  have hl : (img.take o).length = o := by rw [List.length_take]; omega
  rw [List.append_assoc, List.drop_append, hl, Nat.sub_self, List.drop_eq_nil_of_le (by omega), List.nil_append, List.drop_zero,
    List.take_append_of_le_length (Nat.le_refl _), List.take_length]

theorem storeAt_other {img : Bytes} {o : Nat} {bs : Bytes} (h : o + bs.length ≤ img.length) {q n : Nat}
    (hq : q + n ≤ o ∨ o + bs.length ≤ q) : ((storeAt img o bs).drop q).take n = (img.drop q).take n := by
  apply List.ext_getElem?
  intro i
  rw [List.getElem?_take, List.getElem?_take]
  split
  · next hi =>
    rw [List.getElem?_drop, List.getElem?_drop]
    unfold storeAt
    have hl : (img.take o).length = o := by rw [List.length_take]; omega
    rcases hq with hq | hq
    · rw [List.append_assoc, List.getElem?_append_left (by omega), List.getElem?_take_of_lt (by omega)]
    · rw [List.getElem?_append_right (by rw [List.length_append, hl]; omega), List.getElem?_drop, List.length_append, hl]
      congr 1
      omega
  · rfl

/-- The cells are the same or apart. -/
def Clear (c c' : Cell) : Prop := c = c' ∨ c.1 + width c.2 ≤ c'.1 ∨ c'.1 + width c'.2 ≤ c.1

theorem Clear.symm {c c' : Cell} (h : Clear c c') : Clear c' c := by
  rcases h with h | h | h
  · exact .inl h.symm
  · exact .inr (.inr h)
  · exact .inr (.inl h)

theorem length_storeAll (start : Nat) (img : Bytes) (cs : List Cell) (hi : ∀ c ∈ cs, c.1 + width c.2 ≤ img.length) :
    (storeAll start img cs).length = img.length := by
  induction cs generalizing img with
  | nil => rfl
  | cons c cs ih =>
    have hc := hi c (by simp)
    have hl := length_storeAt (img := img) (o := c.1) (bs := c.2.bytesAt start) (by rw [length_bytesAt]; exact hc)
    show (storeAll start (storeAt img c.1 (c.2.bytesAt start)) cs).length = _
    rw [ih, hl]
    intro x hx
    rw [hl]
    exact hi x (List.mem_cons_of_mem _ hx)

/-- A cell stays as it is when only the same or other cells are written. -/
theorem storeAll_keeps (start : Nat) {c : Cell} (cs : List Cell) (img : Bytes) (hi : ∀ x ∈ cs, x.1 + width x.2 ≤ img.length)
    (hx : ∀ x ∈ cs, Clear c x) (h : (img.drop c.1).take (width c.2) = c.2.bytesAt start) :
    ((storeAll start img cs).drop c.1).take (width c.2) = c.2.bytesAt start := by
  induction cs generalizing img with
  | nil => exact h
  | cons x cs ih =>
    have hb := hi x (by simp)
    have hb : x.1 + (x.2.bytesAt start).length ≤ img.length := by rw [length_bytesAt]; exact hb
    refine ih (storeAt img x.1 (x.2.bytesAt start)) ?_ (fun y hy => hx y (List.mem_cons_of_mem _ hy)) ?_
    · intro y hy
      rw [length_storeAt hb]
      exact hi y (List.mem_cons_of_mem _ hy)
    · rcases hx x (by simp) with e | e
      · subst e
        have := storeAt_same hb
        rw [length_bytesAt] at this
        exact this
      · rw [storeAt_other hb (by rw [length_bytesAt]; exact e)]
        exact h

/-- Everything written is there in the end. -/
theorem storeAll_holds (start : Nat) (cs : List Cell) (img : Bytes) (hi : ∀ x ∈ cs, x.1 + width x.2 ≤ img.length)
    (hx : ∀ x ∈ cs, ∀ y ∈ cs, Clear x y) {c : Cell} (hc : c ∈ cs) :
    ((storeAll start img cs).drop c.1).take (width c.2) = c.2.bytesAt start := by
  induction cs generalizing img with
  | nil => cases hc
  | cons x cs ih =>
    have hb := hi x (by simp)
    have hb : x.1 + (x.2.bytesAt start).length ≤ img.length := by rw [length_bytesAt]; exact hb
    have hi2 : ∀ y ∈ cs, y.1 + width y.2 ≤ (storeAt img x.1 (x.2.bytesAt start)).length := by
      intro y hy
      rw [length_storeAt hb]
      exact hi y (List.mem_cons_of_mem _ hy)
    rcases List.mem_cons.1 hc with e | hc
    · subst e
      refine storeAll_keeps start cs _ hi2 (fun y hy => hx c (by simp) y (List.mem_cons_of_mem _ hy)) ?_
      have := storeAt_same hb
      rw [length_bytesAt] at this
      exact this
    · exact ih _ hi2 (fun y hy z hz => hx y (List.mem_cons_of_mem _ hy) z (List.mem_cons_of_mem _ hz)) hc

/-- The value fits its bytes. -/
def Sound (start : Nat) : Val → Prop
  | .num w v => v < 256 ^ w
  | .ptr (some t) => start + t < W64
  | .raw n => n < W64
  | _ => True

theorem holds_of {start : Nat} {img : Bytes} {c : Cell} (hi : c.1 + width c.2 ≤ img.length) (hs : Sound start c.2)
    (h : (img.drop c.1).take (width c.2) = c.2.bytesAt start) : Holds start img c := by
  have h64 : W64 = 256 ^ 8 := by decide
  obtain ⟨o, v⟩ := c
  cases v with
  | num w v =>
    refine ⟨hi, ?_⟩
    show unle ((img.drop o).take w) = v
    have h : (img.drop o).take w = le w v := h
    rw [h]
    exact unle_le_of_lt hs
  | ptr t =>
    cases t with
    | none =>
      refine word_num.2 ⟨hi, ?_⟩
      show unle ((img.drop o).take 8) = 0
      have h : (img.drop o).take 8 = le 8 0 := h
      rw [h]
      decide
    | some t =>
      refine word_num.2 ⟨hi, ?_⟩
      show unle ((img.drop o).take 8) = _
      have h : (img.drop o).take 8 = le 8 (start + t) := h
      have hs : start + t < W64 := hs
      rw [h]
      exact unle_le_of_lt (by rw [← h64]; exact hs)
  | raw n =>
    refine word_num.2 ⟨hi, ?_⟩
    show unle ((img.drop o).take 8) = _
    have h : (img.drop o).take 8 = le 8 n := h
    have hs : n < W64 := hs
    rw [h]
    exact unle_le_of_lt (by rw [← h64]; exact hs)
  | bytes bs => exact h

/-! ### Cells of one area -/

/-- Where a cell is. -/
def extent (c : Cell) : Nat × Nat := (c.1, width c.2)

/-- Places apart from each other. -/
def separate (l : List (Nat × Nat)) : Bool :=
  match l with
  | [] => true
  | a :: l => l.all (fun b => decide (a.1 + a.2 ≤ b.1) || decide (b.1 + b.2 ≤ a.1)) && separate l

theorem separate_clear {cs : List Cell} (h : separate (cs.map extent) = true) : ∀ c ∈ cs, ∀ c' ∈ cs, Clear c c' := by
  induction cs with
  | nil => intro c hc; cases hc
  | cons x cs ih =>
    rw [List.map_cons, separate, Bool.and_eq_true, List.all_eq_true] at h
    have hx : ∀ y ∈ cs, Clear x y := by
      intro y hy
      have := h.1 (extent y) (List.mem_map_of_mem hy)
      simp only [Bool.or_eq_true, decide_eq_true_eq] at this
      exact .inr this
    intro c hc c' hc'
    rcases List.mem_cons.1 hc with rfl | h1
    · rcases List.mem_cons.1 hc' with rfl | h2
      · exact .inl rfl
      · exact hx c' h2
    · rcases List.mem_cons.1 hc' with rfl | h2
      · exact (hx c h1).symm
      · exact ih h.2 c h1 c' h2

/-- Some place and some data: sizes and offsets of members do not depend on them. -/
def somePlace : Place := ⟨fun _ => 0, 0, 0, 0, 0, 0, fun _ => 0, fun _ => none, fun _ => 0, fun _ _ => none, 0, fun _ => none⟩
def someData : Data := ⟨⟨fun _ => 0, fun _ => {}, [], [], fun _ => []⟩, 0, [], fun _ _ => 0, fun _ => []⟩

theorem object_extents (p : Place) (d : Data) (k : K) (i : Nat) :
    (objectCells p d 0 (k, i)).map extent = (objectCells somePlace someData 0 (k, 0)).map extent := by
  cases k <;>
    simp only [objectCells, typeCells, primCells, kidsCells, arrayCells, nameCells, extent, List.map_append, List.map_cons,
      List.map_nil, width_num, width_ptr, width_place, width_opt]

theorem object_clear (p : Place) (d : Data) (r : Ref) : ∀ c ∈ objectCells p d 0 r, ∀ c' ∈ objectCells p d 0 r, Clear c c' := by
  apply separate_clear
  obtain ⟨k, i⟩ := r
  rw [object_extents]
  cases k <;> decide +kernel

theorem header_extents (p : Place) (d : Data) : (headerCells p d).map extent = (headerCells somePlace someData).map extent := by
  simp only [headerCells, arrayCells, Export.kinds, spaceMembers, extent, List.map_append, List.map_cons, List.flatMap_cons,
    List.flatMap_nil, List.map_nil, width_num, width_ptr]

theorem header_clear (p : Place) (d : Data) : ∀ c ∈ headerCells p d, ∀ c' ∈ headerCells p d, Clear c c' := by
  apply separate_clear
  rw [header_extents]
  decide +kernel

theorem object_width (p : Place) (d : Data) (r : Ref) {c : Cell} (hc : c ∈ objectCells p d 0 r) : c.1 + width c.2 ≤ stride r.1 := by
  have := fit_width (handle_lt r.1) (object_fit p d 0 r c hc)
  rw [strideAt_handle] at this
  exact this

theorem table_clear (p : Place) (d : Data) (k : K) :
    ∀ c ∈ areaCells p d (.table k), ∀ c' ∈ areaCells p d (.table k), Clear c c' := by
  intro c hc c' hc'
  obtain ⟨r, hr, h1⟩ := List.mem_flatMap.1 hc
  obtain ⟨r', hr', h2⟩ := List.mem_flatMap.1 hc'
  obtain ⟨c, hm, rfl⟩ := List.mem_map.1 h1
  obtain ⟨c', hm', rfl⟩ := List.mem_map.1 h2
  clear hc hc' h1 h2
  obtain ⟨e, _⟩ := mem_all.1 hr
  obtain ⟨e', _⟩ := mem_all.1 hr'
  obtain ⟨k1, i⟩ := r
  obtain ⟨k2, j⟩ := r'
  have e : k1 = k := e
  have e' : k2 = k := e'
  subst e e'
  have w := object_width p d _ hm
  have w' := object_width p d _ hm'
  rcases Nat.lt_trichotomy i j with h | h | h
  · right; left
    have := Nat.mul_le_mul_right (stride k2) (show i + 1 ≤ j from h)
    rw [Nat.succ_mul] at this
    simp only [Place.at] at *
    omega
  · subst h
    rcases object_clear p d _ c hm c' hm' with h | h | h
    · left; rw [h]
    · right; left; simp only; omega
    · right; right; simp only; omega
  · right; right
    have := Nat.mul_le_mul_right (stride k2) (show j + 1 ≤ i from h)
    rw [Nat.succ_mul] at this
    simp only [Place.at] at *
    omega

theorem entries_clear (p : Place) (o : Nat) (l : List Ref) : ∀ c ∈ entryCells p o l, ∀ c' ∈ entryCells p o l, Clear c c' := by
  intro c hc c' hc'
  obtain ⟨⟨r, i⟩, hr, rfl⟩ := List.mem_map.1 hc
  obtain ⟨⟨r', j⟩, hr', rfl⟩ := List.mem_map.1 hc'
  rw [List.mem_zipIdx_iff_getElem?] at hr hr'
  rcases Nat.lt_trichotomy i j with h | h | h
  · right; left; simp only [width_ptr]; omega
  · subst h
    rw [hr] at hr'
    injection hr' with e
    left
    simp only at e
    rw [e]
  · right; right; simp only [width_ptr]; omega

theorem optEntries_clear (p : Place) (o : Option Nat) (l : List Ref) :
    ∀ c ∈ optEntries p o l, ∀ c' ∈ optEntries p o l, Clear c c' := by
  cases o with
  | none => intro c hc; cases hc
  | some o => exact entries_clear p o l

theorem names_clear (p : Place) (d : Data) : ∀ c ∈ nameTable p d, ∀ c' ∈ nameTable p d, Clear c c' := by
  intro c hc c' hc'
  obtain ⟨⟨n, i⟩, hn, hc⟩ := List.mem_flatMap.1 hc
  obtain ⟨⟨n', j⟩, hn', hc'⟩ := List.mem_flatMap.1 hc'
  rw [List.mem_zipIdx_iff_getElem?] at hn hn'
  simp only [nameCells, off_name_hash, off_name_text, size_name, List.mem_cons, List.not_mem_nil, or_false] at hc hc'
  rcases Nat.lt_trichotomy i j with h | h | h
  · right; left
    rcases hc with rfl | rfl <;> rcases hc' with rfl | rfl <;> simp only [width_num, width_ptr] <;> omega
  · subst h
    rw [hn] at hn'
    injection hn' with e
    simp only at e
    subst e
    rcases hc with rfl | rfl <;> rcases hc' with rfl | rfl
    · exact .inl rfl
    · right; left; simp only [width_num]; omega
    · right; right; simp only [width_num]; omega
    · exact .inl rfl
  · right; right
    rcases hc with rfl | rfl <;> rcases hc' with rfl | rfl <;> simp only [width_num, width_ptr] <;> omega

theorem textCells_clear {base : Nat} {ts : List Bytes} {i j : Nat} {t t' : Bytes} (h : ts[i]? = some t) (h' : ts[j]? = some t') :
    Clear (textCell (base + textOffset ts i) t) (textCell (base + textOffset ts j) t') := by
  rcases Nat.lt_trichotomy i j with hl | hl | hl
  · have := text_apart h hl
    right; left
    simp only [textCell, width, List.length_append, List.length_cons, List.length_nil]
    omega
  · subst hl
    rw [h] at h'
    injection h' with e
    left
    rw [e]
  · have := text_apart h' hl
    right; right
    simp only [textCell, width, List.length_append, List.length_cons, List.length_nil]
    omega

end Clr.Image
