import Verif.Proofs.Image3
import Verif.Props.Reloc
/-
Lemmas for C84: the image is one C14 speaks about, and what it holds is still there after saving and loading.
-/
namespace Clr.Image
open Clr Clr.Reloc Clr.Layout
open Clr.Export (K Slot Ref Ptr St)

/-! ## Pointers lead into the image -/

/-- A pointer is null or leads behind the header. -/
def Good (size : Nat) : Val → Prop
  | .ptr (some t) => 616 ≤ t ∧ t ≤ size
  | .raw _ => False
  | _ => True

section
variable {p : Place} {d : Data} {size : Nat} (L : Laid p d size) (N : Linked d)
include L

theorem good_ptr {x : Ptr} (h : Resolved d x) : Good size (p.ptr x) := by
  cases x with
  | raw n =>
    have hn : n = 0 := h
    subst hn
    simp [Place.ptr, Good]
  | obj r =>
    have := at_le L h
    have hs := stride_pos r.1
    exact ⟨this.1, by omega⟩

theorem good_at {r : Ref} (h : Exists d r) : Good size (.ptr (some (p.at r))) := good_ptr L (x := .obj r) h

theorem good_opt {x : Option Ref} (h : ∀ r ∈ x, Exists d r) : Good size (p.opt x) := by
  cases x with
  | none => trivial
  | some r => exact good_at L (h r rfl)

theorem good_getD {l : List Ptr} (h : ∀ x ∈ l, Resolved d x) (i : Nat) : Good size (p.ptr (l.getD i (.raw 0))) := by
  apply good_ptr L
  rw [List.getD_eq_getElem?_getD]
  cases hx : l[i]? with
  | none => exact rfl
  | some x => exact h x (List.mem_of_getElem? hx)

theorem good_kids {r : Ref} {s : Slot} (hr : Exists d r) (hs : s ∈ slotsOf r.1) : Good size (.ptr (p.kids r s)) := by
  cases ho : p.kids r s with
  | none => trivial
  | some o =>
    have := kids_le L hr hs ho
    exact ⟨this.1, by omega⟩

theorem text_le : 616 ≤ p.nameText ∧ p.nameText + p.nameSize ≤ size := by
  have := L.behind .nameText _ _ rfl (by simp)
  rw [size_databaseMem] at this
  exact this

theorem attribute_le : 616 ≤ p.attributeText ∧ p.attributeText + p.attributeSize ≤ size := by
  have := L.behind .attributeText _ _ rfl (by simp)
  rw [size_databaseMem] at this
  exact this

theorem good_text {r : Ref} (hr : Exists d r) : Good size (.ptr (p.textAt r)) := by
  cases ht : (d.st.get r).text with
  | none => rw [L.noText r hr ht]; trivial
  | some t =>
    obtain ⟨o, h1, h2, h3⟩ := L.texts r hr t ht
    rw [h1]
    have := text_le L
    exact ⟨by omega, by omega⟩

theorem good_value {r : Ref} (hr : Exists d r) (hk : r.1 = .textAttr) : Good size (.ptr (some (p.valueAt r))) := by
  have h := L.values r hk hr
  have := attribute_le L
  exact ⟨by omega, by omega⟩

theorem good_num (w v : Nat) : Good size (.num w v) := trivial

theorem good_object {r : Ref} (hr : Exists d r) (O : ResolvedObject d (d.st.get r)) (db : Nat) :
    ∀ c ∈ objectCells p d db r, Good size c.2 := by
  have h1 := good_text L hr
  have h2 := good_ptr L O.parent
  have h3 := good_ptr L O.type
  have h4 := good_getD L O.args
  have h5 := good_ptr L O.target
  have h6 := good_ptr L O.readIt
  have h7 := good_ptr L O.writeIt
  have h8 := good_opt L (x := (d.st.get r).ret) (fun x hx => O.ret x hx)
  have h9 := good_opt L (x := (d.st.get r).ctor) (fun x hx => O.ctor x hx)
  have h10 := good_opt L (x := (d.st.get r).dtor) (fun x hx => O.dtor x hx)
  have h11 := good_opt L (x := (d.st.get r).ci) (fun x hx => O.ci x hx)
  have h12 := fun s hs => good_kids L (s := s) hr hs
  have h13 := fun hk => good_value L hr hk
  obtain ⟨k, i⟩ := r
  cases k <;>
    simp only [objectCells, typeCells, primCells, kidsCells, arrayCells, nameCells, List.mem_append, or_imp, forall_and,
      forall_eq, List.not_mem_nil, false_implies, implies_true, and_true, true_and, good_num L, h1, h2, h3, h4, h5, h6,
      h7, h8, h9, h10, h11, h12, slotsOf, List.mem_cons, or_true, true_or, reduceCtorEq, or_false, h13]
  all_goals repeat' apply And.intro
  all_goals exact h12 _ (by simp [slotsOf])

theorem good_header : ∀ c ∈ headerCells p d, Good size c.2 := by
  have h1 := text_le L
  have h2 := attribute_le L
  have h3 : ∀ k, Good size (.ptr (some (p.table k))) := fun k => by
    have := table_le L k
    exact ⟨this.1, by omega⟩
  have h4 : Good size (.ptr (some p.names)) := by
    have := L.behind .names _ _ rfl (by simp)
    rw [size_databaseMem] at this
    exact ⟨this.1, by omega⟩
  have h5 : Good size (.ptr (some p.typePrims)) := by
    have := L.behind .typePrims _ _ rfl (by simp)
    rw [size_databaseMem] at this
    exact ⟨this.1, by omega⟩
  have h6 : ∀ s ∈ spaceMembers.map (·.1), Good size (.ptr (p.globals s)) := by
    intro s hs
    cases ho : p.globals s with
    | none => trivial
    | some o =>
      have := globals_le L hs ho
      exact ⟨this.1, by omega⟩
  have h7 : Good size (.ptr (some p.nameText)) := ⟨h1.1, by omega⟩
  have h8 : Good size (.ptr (some p.attributeText)) := ⟨h2.1, by omega⟩
  unfold headerCells
  simp only [List.forall_mem_append, List.forall_mem_cons, arrayCells, List.not_mem_nil, false_implies, implies_true,
    and_true, true_and, good_num L, h7, h8, h4, h5]
  refine ⟨?_, ?_⟩
  · intro c hc
    obtain ⟨k, _, hc⟩ := List.mem_flatMap.1 hc
    simp only [List.mem_cons, List.not_mem_nil, or_false] at hc
    rcases hc with rfl | rfl | rfl
    · trivial
    · exact h3 k
    · trivial
  · intro c hc
    obtain ⟨m, hm, hc⟩ := List.mem_flatMap.1 hc
    simp only [List.mem_cons, List.not_mem_nil, or_false] at hc
    rcases hc with rfl | rfl | rfl
    · trivial
    · exact h6 _ (List.mem_map_of_mem hm)
    · trivial

theorem good_entries {o : Nat} {l : List Ref} (h : ∀ x ∈ l, Exists d x) : ∀ c ∈ entryCells p o l, Good size c.2 := by
  intro c hc
  unfold entryCells at hc
  obtain ⟨⟨r, j⟩, hr, rfl⟩ := List.mem_map.1 hc
  rw [List.mem_zipIdx_iff_getElem?] at hr
  exact good_at L (h r (List.mem_of_getElem? hr))

theorem good_optEntries {o : Option Nat} {l : List Ref} (h : ∀ x ∈ l, Exists d x) : ∀ c ∈ optEntries p o l, Good size c.2 := by
  cases o with
  | none => intro c hc; cases hc
  | some o => exact good_entries L h

include N
theorem good_cell {db : Nat} {c : Cell} (hc : c ∈ cells p d db) : Good size c.2 := by
  unfold cells at hc
  simp only [List.mem_append] at hc
  rcases hc with (((hc | hc) | hc) | hc) | hc
  · exact good_header L c hc
  · unfold nameTable at hc
    obtain ⟨⟨⟨h, t⟩, j⟩, hn, hc⟩ := List.mem_flatMap.1 hc
    rw [List.mem_zipIdx_iff_getElem?] at hn
    have h1 := L.names j h t hn
    have h2 := text_le L
    simp only [nameCells, List.mem_cons, List.not_mem_nil, or_false] at hc
    rcases hc with rfl | rfl
    · trivial
    · exact ⟨by omega, by omega⟩
  · unfold objects at hc
    obtain ⟨k, _, hc⟩ := List.mem_flatMap.1 hc
    obtain ⟨r, hr, hc2⟩ := List.mem_flatMap.1 hc
    obtain ⟨hk, hr⟩ := mem_all.1 hr
    subst hk
    obtain ⟨c', hc', rfl⟩ := List.mem_map.1 hc2
    exact good_object L hr (N.objects r hr) db c' hc'
  · unfold pointerArrays at hc
    simp only [List.mem_append] at hc
    rcases hc with (hc | hc) | hc
    · exact good_entries L (fun x hx => ((N.types x).1 hx).2) c hc
    · obtain ⟨m, hm, hc⟩ := List.mem_flatMap.1 hc
      exact good_optEntries L (N.globals m.1) c hc
    · obtain ⟨k, _, hc⟩ := List.mem_flatMap.1 hc
      obtain ⟨r, hr, hc2⟩ := List.mem_flatMap.1 hc
      obtain ⟨hk, hr⟩ := mem_all.1 hr
      subst hk
      obtain ⟨s, hs, hc3⟩ := List.mem_flatMap.1 hc2
      exact good_optEntries L ((N.objects r hr).kids s) c hc3
  · unfold texts at hc
    simp only [List.mem_append] at hc
    rcases hc with (hc | hc) | hc
    · obtain ⟨n, _, rfl⟩ := List.mem_map.1 hc
      trivial
    · obtain ⟨k, _, hc⟩ := List.mem_flatMap.1 hc
      obtain ⟨r, hr, hc⟩ := List.mem_flatMap.1 hc
      unfold objectText at hc
      split at hc
      · simp only [List.mem_cons, List.not_mem_nil, or_false] at hc
        subst hc
        trivial
      · cases hc
    · obtain ⟨r, _, rfl⟩ := List.mem_map.1 hc
      trivial
end

/-! ## Every slot holds a pointer of the database -/

theorem entry_cell {p : Place} {o : Nat} {l : List Ref} {j : Nat} (hj : j < l.length) :
    ∃ v, (o + j * 8, v) ∈ entryCells p o l ∧ isPtr v = true := by
  refine ⟨.ptr (some (p.at l[j])), ?_, rfl⟩
  unfold entryCells
  rw [List.mem_map]
  exact ⟨(l[j], j), by rw [List.mem_zipIdx_iff_getElem?]; exact List.getElem?_eq_getElem hj, rfl⟩

theorem slot_cell {p : Place} {d : Data} {a : Area} (ha : IsArea d a) {x : Nat} (hx : x ∈ areaSlots p d a) (db : Nat) :
    ∃ v, (x, v) ∈ cells p d db ∧ isPtr v = true := by
  obtain ⟨b, hb, j, hj, o, ho, rfl⟩ := mem_areaSlots.1 hx
  have hcells : ∀ c : Cell, (c ∈ headerCells p d ∨ c ∈ nameTable p d ∨ c ∈ objects p d db ∨ c ∈ pointerArrays p d) →
      c ∈ cells p d db := by
    intro c h
    unfold cells
    simp only [List.mem_append]
    rcases h with h | h | h | h
    · exact .inl (.inl (.inl (.inl h)))
    · exact .inl (.inl (.inl (.inr h)))
    · exact .inl (.inl (.inr h))
    · exact .inl (.inr h)
  cases a with
  | header =>
    injection hb with hb; subst hb
    have hj0 : j = 0 := by simp only at hj; omega
    subst hj0
    obtain ⟨v, h1, h2⟩ := header_covered p d o ho
    refine ⟨v, hcells _ (.inl ?_), h2⟩
    simp only [Nat.zero_mul, Nat.zero_add]
    exact h1
  | names =>
    injection hb with hb; subst hb
    simp only at hj ho ⊢
    rw [offsetsAt_1] at ho
    simp only [List.mem_cons, List.not_mem_nil, or_false] at ho
    subst ho
    refine ⟨_, hcells _ (.inr (.inl ?_)), isPtr_ptr (some (p.nameAt j))⟩
    unfold nameTable
    rw [List.mem_flatMap]
    refine ⟨(d.names[j], j), by rw [List.mem_zipIdx_iff_getElem?]; exact List.getElem?_eq_getElem hj, ?_⟩
    simp only [nameCells, size_name, off_name_text, strideAt_1, List.mem_cons]
    simp
  | table k =>
    injection hb with hb; subst hb
    obtain ⟨v, h1, h2⟩ := object_covered p d db (k, j) o ho
    refine ⟨v, hcells _ (.inr (.inr (.inl ?_))), h2⟩
    unfold objects
    rw [List.mem_flatMap]
    refine ⟨k, mem_kinds k, ?_⟩
    rw [List.mem_flatMap]
    refine ⟨(k, j), mem_all.2 ⟨rfl, hj⟩, ?_⟩
    unfold shift
    rw [List.mem_map]
    refine ⟨(o, v), h1, ?_⟩
    simp only [Place.at, strideAt_handle]
  | typePrims =>
    injection hb with hb; subst hb
    simp only [ptrHandle, offsetsAt_16, List.mem_cons, List.not_mem_nil, or_false] at ho
    subst ho
    obtain ⟨v, h1, h2⟩ := entry_cell (p := p) (o := p.typePrims) (l := d.st.typePrims) hj
    refine ⟨v, hcells _ (.inr (.inr (.inr ?_))), h2⟩
    unfold pointerArrays
    simp only [List.mem_append, ptrHandle, strideAt_16, Nat.add_zero]
    exact .inl (.inl h1)
  | globals s =>
    simp only [blockOf, Option.map_eq_some_iff] at hb
    obtain ⟨q, hq, rfl⟩ := hb
    simp only [ptrHandle, offsetsAt_16, List.mem_cons, List.not_mem_nil, or_false] at ho
    subst ho
    obtain ⟨v, h1, h2⟩ := entry_cell (p := p) (o := q) (l := d.st.globals s) hj
    refine ⟨v, hcells _ (.inr (.inr (.inr ?_))), h2⟩
    unfold pointerArrays
    simp only [List.mem_append, ptrHandle, strideAt_16, Nat.add_zero]
    obtain ⟨m, hm, rfl⟩ := List.mem_map.1 ha
    refine .inl (.inr (List.mem_flatMap.2 ⟨m, hm, ?_⟩))
    rw [hq]
    exact h1
  | kids r s =>
    simp only [blockOf, Option.map_eq_some_iff] at hb
    obtain ⟨q, hq, rfl⟩ := hb
    simp only [ptrHandle, offsetsAt_16, List.mem_cons, List.not_mem_nil, or_false] at ho
    subst ho
    obtain ⟨v, h1, h2⟩ := entry_cell (p := p) (o := q) (l := (d.st.get r).kids s) hj
    refine ⟨v, hcells _ (.inr (.inr (.inr ?_))), h2⟩
    unfold pointerArrays
    simp only [List.mem_append, ptrHandle, strideAt_16, Nat.add_zero]
    refine .inr (List.mem_flatMap.2 ⟨r.1, mem_kinds _, List.mem_flatMap.2 ⟨r, mem_all.2 ⟨rfl, ha.1⟩,
      List.mem_flatMap.2 ⟨s, ha.2, ?_⟩⟩⟩)
    rw [hq]
    exact h1
  | nameText => cases hb
  | attributeText => cases hb

theorem slot_value {p : Place} {d : Data} {start size : Nat} {img : Bytes} (L : Laid p d size) (N : Linked d) {db : Nat}
    (R : Represents p d db start img) {x : Nat} (hx : x ∈ slots schemas (relsOf p d)) :
    word img x = some 0 ∨ ∃ t, word img x = some (start + t) ∧ 616 ≤ t ∧ t ≤ size := by
  rw [slots_eq, List.mem_flatMap] at hx
  obtain ⟨a, ha, hx⟩ := hx
  obtain ⟨v, h1, h2⟩ := slot_cell ((mem_areaList N).1 ha) hx db
  have h3 := R _ h1
  have h4 := good_cell L N h1
  cases v with
  | num w v => cases h2
  | bytes bs => cases h2
  | raw n => exact h4.elim
  | ptr t =>
    cases t with
    | none => exact .inl h3
    | some t => exact .inr ⟨t, h3, h4⟩

theorem exported {p : Place} {d : Data} {start : Nat} {img : Bytes} (hs : 0 < start ∧ start + img.length < W64)
    (small : img.length < 2 ^ 32) (few : (areaList d).length < 2 ^ 31) (L : Laid p d img.length) (N : Linked d) {db : Nat}
    (R : Represents p d db start img) : Exported start schemas (relsOf p d) img where
  imageSmall := small
  addresses := hs
  nbSchemas := by decide
  nbOffsets := by decide +kernel
  nbRels := by
    refine Nat.lt_of_le_of_lt ?_ few
    unfold relsOf
    generalize areaList d = l
    induction l with
    | nil => exact Nat.le_refl 0
    | cons a l ih =>
      rw [List.flatMap_cons, List.length_append, List.length_cons]
      cases blockOf p d a <;> simp only [Option.toList_none, Option.toList_some, List.length_nil, List.length_cons] <;> omega
  someRel := by
    unfold relsOf areaList
    rw [List.flatMap_cons]
    simp [blockOf]
  schemasOk := by decide +kernel
  relsOk := by
    intro r hr
    unfold relsOf at hr
    obtain ⟨a, ha, hr⟩ := List.mem_flatMap.1 hr
    rw [Option.mem_toList] at hr
    have h1 := area_le L (block_area ((mem_areaList N).1 ha) hr)
    have h2 := (offsets_shape _ (block_handle hr)).2.2.1
    have h3 := Nat.mul_le_mul_left r.count h2
    have hW : W64 = 18446744073709551616 := rfl
    exact ⟨block_handle hr, by omega, by omega⟩
  inside := by
    intro x hx
    rw [slots_eq, List.mem_flatMap] at hx
    obtain ⟨a, ha, hx⟩ := hx
    obtain ⟨o, n, h1, h2, h3⟩ := slot_inside ((mem_areaList N).1 ha) hx
    have := area_le L h1
    omega
  apart := slots_apart L N
  pointing := by
    intro x hx v hv
    rcases slot_value L N R hx with h | ⟨t, h, h1, h2⟩
    · rw [hv] at h; injection h with h; exact .inl h
    · rw [hv] at h; injection h with h; right; omega

theorem word_num {img : Bytes} {o v : Nat} : word img o = some v ↔ o + 8 ≤ img.length ∧ num img o 8 = v := by
  unfold word num
  split
  · rename_i h; simp [h]
  · rename_i h; simp [h]

theorem bytes_ext {a b : Bytes} {o w : Nat} (h : ∀ i, o ≤ i → i < o + w → b[i]? = a[i]?) :
    (b.drop o).take w = (a.drop o).take w := by
  apply List.ext_getElem?
  intro i
  rw [List.getElem?_take, List.getElem?_take]
  split
  · rw [List.getElem?_drop, List.getElem?_drop]
    exact h _ (by omega) (by omega)
  · rfl

/-- A cell whose bytes did not change still holds. -/
theorem holds_same {start base : Nat} {img out : Bytes} (hl : out.length = img.length) {c : Cell}
    (hb : ∀ i, c.1 ≤ i → i < c.1 + width c.2 → out[i]? = img[i]?) (hp : isPtr c.2 = false ∨ start = base)
    (h : Holds start img c) : Holds base out c := by
  obtain ⟨o, v⟩ := c
  cases v with
  | num w v =>
    obtain ⟨h1, h2⟩ := h
    exact ⟨by rw [hl]; exact h1, by rw [← h2]; exact num_ext hb⟩
  | ptr t =>
    have e : word out o = word img o := word_ext hl (fun i h1 h2 => hb i h1 h2)
    rcases hp with hp | rfl
    · cases hp
    · cases t with
      | none => show word out o = _; rw [e]; exact h
      | some t => show word out o = _; rw [e]; exact h
  | raw n =>
    have e : word out o = word img o := word_ext hl (fun i h1 h2 => hb i h1 h2)
    show word out o = _
    rw [e]
    exact h
  | bytes bs =>
    show (out.drop o).take bs.length = bs
    have e : (out.drop o).take bs.length = (img.drop o).take bs.length := bytes_ext hb
    rw [e]
    exact h

theorem relocated_represents {p : Place} {d : Data} {start base size db : Nat} {img out : Bytes} (L : Laid p d size)
    (N : Linked d) (h : Relocated start base (slots schemas (relsOf p d)) img out) (R : Represents p d db start img) :
    Represents p d db base out := by
  intro c hc
  have hh := R c hc
  cases hp : isPtr c.2 with
  | true =>
    have hs := ptr_slot L N hc hp
    have hg := good_cell L N hc
    obtain ⟨o, v⟩ := c
    cases v with
    | num w v => cases hp
    | bytes bs => cases hp
    | raw n => exact hg.elim
    | ptr t =>
      cases t with
      | none => exact h.null o hs hh
      | some t => exact h.pointer o hs t hh
  | false =>
    have ha := other_apart L N hc hp
    refine holds_same h.size ?_ (.inl hp) hh
    intro i h1 h2
    apply h.rest
    intro s hs
    have := ha s hs
    omega

end Clr.Image
