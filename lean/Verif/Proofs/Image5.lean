import Verif.Proofs.Image4
/-
Lemmas for C84: what Database::Load does to the image after it is in memory.
-/
namespace Clr.Image
open Clr Clr.Reloc Clr.Layout
open Clr.Export (K Slot Ref Ptr St)

/-- The tables of primitives in the order of `DatabaseMem`. -/
def primTables : List K :=
  [.type, .constant, .enum, .field, .function, .cls, .template, .instance, .space, .flagAttr, .intAttr, .floatAttr,
   .primAttr, .textAttr]

theorem primitiveArrays_eq :
    primitiveArrays = primTables.map fun k => (offsetOf databaseMem (tableMember k), stride k) := by decide +kernel

theorem mem_primTables (k : K) : k ∈ primTables ↔ k ≠ .container := by cases k <;> decide

theorem functions_eq : functionsAt = offsetOf databaseMem (tableMember .function) ∧ functionStride = stride .function := by
  decide +kernel

section
variable {p : Place} {d : Data} {db base : Nat} {img : Bytes} (L : Laid p d img.length) (R : Represents p d db base img)
  (hb : base + img.length < W64)
include R

theorem table_count (k : K) : num img (offsetOf databaseMem (tableMember k)) 4 = d.st.count k := by
  have := rep_header R _ (header_table p d k (offsetOf databaseMem (tableMember k) + offsetOf cArray b!"size", .num 4 (d.st.count k))
    (by simp [arrayCells]))
  rw [off_cArray_size, Nat.add_zero] at this
  exact this.2

include L hb
theorem table_data (k : K) : arrayData base img (offsetOf databaseMem (tableMember k)) = p.table k := by
  have := rep_header R _ (header_table p d k (offsetOf databaseMem (tableMember k) + offsetOf cArray b!"data", .ptr (some (p.table k)))
    (by simp [arrayCells]))
  rw [off_cArray_data] at this
  have h := (word_num.1 this).2
  unfold arrayData
  rw [h]
  have h1 := table_le L k
  rw [show base + p.table k + W64 - base = p.table k + W64 by omega, Nat.add_mod_right, Nat.mod_eq_of_lt (by omega)]

theorem placed : Placed base img where
  size := by have := L.header; rw [size_databaseMem] at this; exact this
  inside := by
    intro a ha
    rw [primitiveArrays_eq] at ha
    obtain ⟨k, _, rfl⟩ := List.mem_map.1 ha
    right
    simp only []
    rw [table_count R, table_data L R hb]
    have := table_le L k
    exact this
  apart := by
    rw [primitiveArrays_eq, List.pairwise_map]
    refine List.Pairwise.imp ?_ (show primTables.Pairwise (· ≠ ·) by decide)
    intro k k' hne
    unfold ArraysApart
    simp only []
    rw [table_count R, table_data L R hb, table_count R, table_data L R hb]
    have := L.apart (.table k) (.table k') (by simp [hne]) _ _ _ _ rfl rfl
    omega
end

theorem width_place (p : Place) (x : Ptr) : width (p.ptr x) = 8 := by
  cases x with
  | raw n => by_cases hn : n = 0 <;> simp [Place.ptr, hn, width]
  | obj r => rfl

theorem width_num (w v : Nat) : width (.num w v) = w := rfl
theorem width_ptr (t : Option Nat) : width (.ptr t) = 8 := rfl
theorem width_opt (p : Place) (x : Option Ref) : width (p.opt x) = 8 := rfl

/-- How the members of an object differ after loading. -/
def After (p : Place) (d : Data) (f : Nat → Nat) (db : Nat) (r : Ref) (c : Cell) : Prop :=
  (r.1 ≠ .container ∧ c = (32, .num 8 db)) ∨ (r.1 = .function ∧ c = (40, .num 8 (f (d.scalar r .address)))) ∨
  (c ∈ objectCells p d 0 r ∧ (r.1 ≠ .container → c.1 + width c.2 ≤ 32 ∨ 40 ≤ c.1) ∧
    (r.1 = .function → c.1 + width c.2 ≤ 40 ∨ 48 ≤ c.1))

theorem readdress_other (d : Data) (f : Nat → Nat) (r : Ref) (s : Scalar) (h : r.1 ≠ .function ∨ s ≠ .address) :
    (d.readdress f).scalar r s = d.scalar r s := by
  show (if r.1 = .function ∧ s = .address then f (d.scalar r s) else d.scalar r s) = _
  rw [if_neg]
  rintro ⟨h1, h2⟩
  rcases h with h | h <;> contradiction

theorem readdress_function (d : Data) (f : Nat → Nat) (r : Ref) (h : r.1 = .function) :
    (d.readdress f).scalar r .address = f (d.scalar r .address) := by
  show (if r.1 = .function ∧ _ then _ else _) = _
  rw [if_pos ⟨h, rfl⟩]

theorem readdress_st (d : Data) (f : Nat → Nat) : (d.readdress f).st = d.st := rfl

theorem object_address (p : Place) (d : Data) (db : Nat) (i : Nat) :
    (40, .num 8 (d.scalar (.function, i) .address)) ∈ objectCells p d db (.function, i) := by
  simp only [objectCells, List.mem_append, List.mem_cons, off_function_address]
  simp

section
attribute [local simp] off_cls_base off_enum_base off_templateType_base off_cArray_allocator off_cArray_data off_cArray_size off_cls_attributes off_cls_classes off_cls_constructor off_cls_destructor off_cls_enums off_cls_fields off_cls_flag_attributes off_cls_methods off_cls_templates off_containerInfo_count off_containerInfo_flags off_containerInfo_name off_containerInfo_read_iterator_type off_containerInfo_write_iterator_type off_enum_attributes off_enum_constants off_enum_flag_attributes off_enumConstant_value off_field_attributes off_field_ci off_field_flag_attributes off_field_offset off_field_parent_unique_id off_field_qualifier off_field_type off_function_address off_function_attributes off_function_flag_attributes off_function_parameters off_function_return_parameter off_function_unique_id off_intAttribute_value off_name_hash off_name_text off_ns_classes off_ns_enums off_ns_functions off_ns_namespaces off_ns_templates off_ns_types off_primitive_database off_primitive_kind off_primitive_name off_primitive_parent off_primitiveAttribute_primitive off_qualifier_is_const off_qualifier_op off_template_instances off_templateType_constructor off_templateType_destructor off_templateType_parameter_ptrs off_templateType_parameter_types off_textAttribute_value off_type_base_types off_type_ci off_type_size

theorem object_after (p : Place) (d : Data) (f : Nat → Nat) (db : Nat) (r : Ref) :
    ∀ c ∈ objectCells p (d.readdress f) db r, After p d f db r c := by
  obtain ⟨k, i⟩ := r
  cases k <;>
    simp [After, objectCells, typeCells, primCells, kidsCells, arrayCells, nameCells, readdress_st, readdress_other,
      readdress_function, width_num, width_ptr, width_place, width_opt, or_imp, forall_and, forall_eq]
end

/-- The cell is in an area that is not a table. -/
def Outside (p : Place) (d : Data) (c : Cell) : Prop :=
  ∃ a o n, area p d a = some (o, n) ∧ (∀ k, a ≠ .table k) ∧ o ≤ c.1 ∧ c.1 + width c.2 ≤ o + n

theorem area_outside {p : Place} {d : Data} {a : Area} {c : Cell} (h : InArea p d a c) (ha : ∀ k, a ≠ .table k) :
    Outside p d c := by
  obtain ⟨b, h1, h2, j, hj, o, hf, e⟩ := h
  have hw := fit_width (block_handle h2) hf
  simp only [] at hw
  have hm := Nat.mul_le_mul_right (strideAt b.handle) (show j + 1 ≤ b.count from hj)
  rw [Nat.succ_mul] at hm
  exact ⟨a, _, _, block_area h1 h2, ha, by omega, by omega⟩

theorem cell_outside {p : Place} {d : Data} {size : Nat} (L : Laid p d size) {f : Nat → Nat} {db : Nat} {c : Cell}
    (hc : c ∈ cells p (d.readdress f) db) : (c ∈ cells p d 0 ∧ Outside p d c) ∨
      ∃ r, Exists d r ∧ ∃ c' ∈ objectCells p (d.readdress f) db r, c = (p.at r + c'.1, c'.2) := by
  unfold cells at hc
  simp only [List.mem_append] at hc
  rcases hc with (((hc | hc) | hc) | hc) | hc
  · left
    refine ⟨by unfold cells; simp only [List.mem_append]; exact .inl (.inl (.inl (.inl hc))), ?_⟩
    have := fit_width (h := 0) (by decide) (header_fit p d c hc)
    rw [strideAt_0] at this
    exact ⟨.header, _, _, rfl, by simp, by omega, by rw [size_databaseMem]; omega⟩
  · left
    refine ⟨by unfold cells; simp only [List.mem_append]; exact .inl (.inl (.inl (.inr hc))), ?_⟩
    exact area_outside (name_in c hc) (by simp)
  · right
    unfold objects at hc
    obtain ⟨k, _, hc⟩ := List.mem_flatMap.1 hc
    obtain ⟨r, hr, hc2⟩ := List.mem_flatMap.1 hc
    obtain ⟨hk, hr⟩ := mem_all.1 hr
    subst hk
    obtain ⟨c', hc', rfl⟩ := List.mem_map.1 hc2
    exact ⟨r, hr, c', hc', rfl⟩
  · left
    have hm : c ∈ pointerArrays p d := hc
    refine ⟨by unfold cells; simp only [List.mem_append]; exact .inl (.inr hm), ?_⟩
    unfold pointerArrays at hm
    simp only [List.mem_append] at hm
    rcases hm with (hc | hc) | hc
    · exact area_outside (entry_in (a := .typePrims) trivial rfl c hc) (by simp)
    · obtain ⟨m, hm, hc⟩ := List.mem_flatMap.1 hc
      unfold optEntries at hc
      cases ho : p.globals m.1 with
      | none => rw [ho] at hc; cases hc
      | some o =>
        rw [ho] at hc
        exact area_outside (entry_in (a := .globals m.1) (List.mem_map_of_mem hm)
          (by simp only [blockOf, ho, Option.map_some]) c hc) (by simp)
    · obtain ⟨k, _, hc⟩ := List.mem_flatMap.1 hc
      obtain ⟨r, hr, hc2⟩ := List.mem_flatMap.1 hc
      obtain ⟨hk, hr⟩ := mem_all.1 hr
      subst hk
      obtain ⟨s, hs, hc3⟩ := List.mem_flatMap.1 hc2
      unfold optEntries at hc3
      cases ho : p.kids r s with
      | none => rw [ho] at hc3; cases hc3
      | some o =>
        rw [ho] at hc3
        exact area_outside (entry_in (a := .kids r s) ⟨hr, hs⟩ (by simp only [blockOf, ho, Option.map_some]) c hc3) (by simp)
  · left
    have hm : c ∈ texts p d := hc
    refine ⟨by unfold cells; simp only [List.mem_append]; exact .inr hm, ?_⟩
    obtain ⟨a, ha, o, n, bs, h1, h2, h3, h4⟩ := text_in L c hm
    refine ⟨a, o, n, h1, ?_, h3, by rw [h2]; exact h4⟩
    rcases ha with rfl | rfl <;> simp

/-- The bytes of a cell in another area than the tables are not touched. -/
theorem bound_rest {p : Place} {d : Data} {db base : Nat} {img out : Bytes} {f : Nat → Nat} {database : Nat}
    (L : Laid p d img.length) (R : Represents p d db base img) (hb : base + img.length < W64)
    (B : Bound f base database img out) {b : Nat}
    (h : ∀ k, k ≠ .container → ∀ i < d.st.count k, b < p.at (k, i) + 32 ∨ p.at (k, i) + 40 ≤ b)
    (h' : ∀ i < d.st.count .function, b < p.at (.function, i) + 40 ∨ p.at (.function, i) + 48 ≤ b) :
    out[b]? = img[b]? := by
  apply B.rest
  · intro i hi
    unfold addressSlot
    rw [functions_eq.1] at hi ⊢
    rw [table_count R] at hi
    rw [table_data L R hb, functions_eq.2]
    have := h' i hi
    unfold Place.at at this
    unfold addressAt
    omega
  · intro a ha i hi
    rw [primitiveArrays_eq] at ha
    obtain ⟨k, hk, rfl⟩ := List.mem_map.1 ha
    simp only [] at hi ⊢
    rw [table_count R] at hi
    rw [table_data L R hb]
    have := h k ((mem_primTables k).1 hk) i hi
    unfold Place.at at this
    unfold databaseAt
    omega

theorem bound_represents {p : Place} {d : Data} {base : Nat} {img out : Bytes} {f : Nat → Nat} {database : Nat}
    (L : Laid p d img.length) (R : Represents p d 0 base img) (hb : base + img.length < W64)
    (B : Bound f base database img out) : Represents p (d.readdress f) database base out := by
  -- the patched slots are in the tables
  have hin : ∀ k, ∀ i < d.st.count k, p.table k ≤ p.at (k, i) ∧ p.at (k, i) + stride k ≤ p.table k + d.st.count k * stride k := by
    intro k i hi
    have := Nat.mul_le_mul_right (stride k) (show i + 1 ≤ d.st.count k from hi)
    rw [Nat.succ_mul] at this
    unfold Place.at
    simp only []
    omega
  have hfs : stride .function = 120 := stride_function
  have hout : ∀ a o n, area p d a = some (o, n) → (∀ k, a ≠ .table k) → ∀ b, o ≤ b → b < o + n → out[b]? = img[b]? := by
    intro a o n ha hne b h1 h2
    apply bound_rest L R hb B
    · intro k _ i hi
      have h3 := hin k i hi
      have h4 := L.apart a (.table k) (hne k) o n _ _ ha rfl
      have := stride_pos k
      omega
    · intro i hi
      have h3 := hin _ i hi
      have h4 := L.apart a (.table .function) (hne _) o n _ _ ha rfl
      omega
  have hother : ∀ c ∈ cells p d 0, Outside p d c → Holds base out c := by
    intro c hc ⟨a, o, n, ha, hn, h1, h2⟩
    refine holds_same B.size ?_ (.inr rfl) (R c hc)
    intro i h3 h4
    exact hout a o n ha hn i (by omega) (by omega)
  intro c hc
  rcases cell_outside L hc with ho | ⟨r, hr, c', hc', rfl⟩
  · exact hother c ho.1 ho.2
  · have hat := at_le L hr
    rcases object_after p d f database r c' hc' with ⟨hk, rfl⟩ | ⟨hk, rfl⟩ | ⟨hm, h1, h2⟩
    · have := B.owners (offsetOf databaseMem (tableMember r.1), stride r.1)
        (by rw [primitiveArrays_eq]; exact List.mem_map_of_mem ((mem_primTables r.1).2 hk)) r.2
        (by simp only []; rw [table_count R]; exact hr)
      simp only [] at this
      rw [table_data L R hb] at this
      exact word_num.1 this
    · obtain ⟨k, i⟩ := r
      simp only [] at hk
      subst hk
      have h1 := B.addresses i (by rw [functions_eq.1, table_count R]; exact hr)
      have h2 : addressSlot base img i = p.at (.function, i) + 40 := by
        unfold addressSlot
        rw [functions_eq.1, table_data L R hb, functions_eq.2]
        rfl
      rw [h2] at h1
      have h3 := rep_object R hr _ (object_address p d 0 i)
      rw [word_num.2 h3] at h1
      exact word_num.1 h1
    · have h3 := rep_object R hr c' hm
      refine holds_same B.size ?_ (.inr rfl) h3
      have hfw := fit_width (handle_lt r.1) (object_fit p d 0 r c' hm)
      rw [strideAt_handle] at hfw
      have hr2 : p.table r.1 ≤ p.at r ∧ p.at r + stride r.1 ≤ p.table r.1 + d.st.count r.1 * stride r.1 := hin r.1 r.2 hr
      intro b h4 h5
      simp only [] at h4 h5
      -- objects of the same table
      have hsame : ∀ j, r.2 < j → p.at r + stride r.1 ≤ p.at (r.1, j) := by
        intro j hlt
        have := Nat.mul_le_mul_right (stride r.1) (show r.2 + 1 ≤ j from hlt)
        rw [Nat.succ_mul] at this
        unfold Place.at
        simp only []
        omega
      have hsame' : ∀ j, j < r.2 → p.at (r.1, j) + stride r.1 ≤ p.at r := by
        intro j hlt
        have := Nat.mul_le_mul_right (stride r.1) (show j + 1 ≤ r.2 from hlt)
        rw [Nat.succ_mul] at this
        unfold Place.at
        simp only []
        omega
      apply bound_rest L R hb B
      · intro k hk i hi
        have h6 := hin k i hi
        have h7 := stride_pos k
        by_cases hkr : r.1 = k
        · subst hkr
          rcases Nat.lt_trichotomy i r.2 with hlt | heq | hlt
          · have := hsame' i hlt; omega
          · subst heq; have := h1 hk; show b < p.at r + 32 ∨ p.at r + 40 ≤ b; omega
          · have := hsame i hlt; omega
        · have := L.apart (.table r.1) (.table k) (by simp [hkr]) _ _ _ _ rfl rfl
          omega
      · intro i hi
        have h6 := hin .function i hi
        by_cases hkr : r.1 = .function
        · rw [hkr] at hsame hsame'
          rcases Nat.lt_trichotomy i r.2 with hlt | heq | hlt
          · have := hsame' i hlt; omega
          · have e : (K.function, i) = r := by rw [heq, ← hkr]
            rw [e]; have := h2 hkr; omega
          · have := hsame i hlt; rw [hkr] at hfw; omega
        · have := L.apart (.table r.1) (.table .function) (by simp [hkr]) _ _ _ _ rfl rfl
          omega

end Clr.Image
