import Verif.Proofs.Image2
/-
Lemmas for C84: where the cells of an image lie relative to the registered pointers.
-/
namespace Clr.Image
open Clr Clr.Reloc Clr.Layout
open Clr.Export (K Slot Ref Ptr St)

/-! ## The areas that are registered -/

/-- What is registered. -/
def IsArea (d : Data) : Area → Prop
  | .globals s => s ∈ spaceMembers.map (·.1)
  | .kids r s => Exists d r ∧ s ∈ slotsOf r.1
  | .nameText => False
  | .attributeText => False
  | _ => True

theorem nested_all : ∀ k s, s ∈ slotsOf k → s ≠ .bases → ∃ t ∈ nestedSlots, t.1 = k ∧ s ∈ t.2 := by
  intro k s
  cases k <;> cases s <;> decide

theorem mem_nestedAreas {d : Data} {a : Area} :
    a ∈ nestedAreas d ↔ ∃ r s, a = .kids r s ∧ Exists d r ∧ s ∈ slotsOf r.1 ∧ s ≠ .bases := by
  unfold nestedAreas
  simp only [List.mem_flatMap, List.mem_map]
  constructor
  · rintro ⟨t, ht, r, hr, s, hs, rfl⟩
    obtain ⟨h1, h2⟩ := mem_all.1 hr
    obtain ⟨h3, h4⟩ := nested_ok t ht s hs
    exact ⟨r, s, rfl, by unfold Exists; rw [h1]; exact h2, by rw [h1]; exact h3, h4⟩
  · rintro ⟨r, s, rfl, hr, hs, hb⟩
    obtain ⟨t, ht, h1, h2⟩ := nested_all r.1 s hs hb
    exact ⟨t, ht, r, mem_all.2 ⟨h1.symm, by rw [h1]; exact hr⟩, s, h2, rfl⟩

theorem bases_iff (k : K) : Slot.bases ∈ slotsOf k ↔ k ∈ typeTables := by cases k <;> decide

theorem mem_areaList {d : Data} (N : Linked d) {a : Area} : a ∈ areaList d ↔ IsArea d a := by
  unfold areaList
  simp only [List.mem_cons, List.mem_append, mem_nestedAreas]
  have hmain : a ∈ mainAreas ↔ a = .names ∨ a = .typePrims ∨ ∃ k, a = .table k := by
    unfold mainAreas
    simp only [List.cons_append, List.mem_cons, List.mem_append, List.mem_map, List.not_mem_nil, or_false]
    constructor
    · rintro (h | ⟨k, _, rfl⟩ | h | h)
      · exact .inl h
      · exact .inr (.inr ⟨k, rfl⟩)
      · exact .inr (.inl h)
      · exact .inr (.inr ⟨_, h⟩)
    · rintro (h | h | ⟨k, rfl⟩)
      · exact .inl h
      · exact .inr (.inr (.inl h))
      · cases k
        all_goals first
          | exact .inr (.inr (.inr rfl))
          | exact .inr (.inl ⟨_, by decide, rfl⟩)
  rw [hmain]
  unfold globalAreas baseAreas
  simp only [List.mem_map]
  constructor
  · rintro (rfl | (rfl | rfl | ⟨k, rfl⟩) | ⟨r, s, rfl, h1, h2, _⟩ | ⟨m, hm, rfl⟩ | ⟨r, hr, rfl⟩)
    · trivial
    · trivial
    · trivial
    · trivial
    · exact ⟨h1, h2⟩
    · exact List.mem_map_of_mem hm
    · obtain ⟨h1, h2⟩ := (N.types r).1 hr
      exact ⟨h2, (bases_iff _).2 h1⟩
  · intro h
    cases a with
    | header => exact .inl rfl
    | names => exact .inr (.inl (.inl rfl))
    | table k => exact .inr (.inl (.inr (.inr ⟨k, rfl⟩)))
    | typePrims => exact .inr (.inl (.inr (.inl rfl)))
    | globals s =>
      obtain ⟨m, hm, e⟩ := List.mem_map.1 h
      exact .inr (.inr (.inr (.inl ⟨m, hm, by rw [e]⟩)))
    | kids r s =>
      by_cases hb : s = .bases
      · subst hb
        exact .inr (.inr (.inr (.inr ⟨r, (N.types r).2 ⟨(bases_iff _).1 h.2, h.1⟩, rfl⟩)))
      · exact .inr (.inr (.inl ⟨r, s, rfl, h.1, h.2, hb⟩))
    | nameText => exact absurd h (by simp [IsArea])
    | attributeText => exact absurd h (by simp [IsArea])

theorem nodup_all (st : St) (k : K) : (st.all k).Nodup := by
  unfold Export.St.all
  rw [List.nodup_iff_pairwise_ne, List.pairwise_map]
  exact (List.nodup_range (n := st.count k)).imp (fun h e => h (by injection e))

theorem nodup_nested (d : Data) : (nestedAreas d).Nodup := by
  unfold nestedAreas
  rw [List.nodup_iff_pairwise_ne, List.pairwise_flatMap]
  constructor
  · intro t ht
    rw [List.pairwise_flatMap]
    constructor
    · intro r _
      rw [List.pairwise_map]
      have : t.2.Nodup := by
        have hh : ∀ t ∈ nestedSlots, t.2.Nodup := by decide
        exact hh t ht
      exact this.imp (fun h e => h (by injection e))
    · refine (nodup_all d.st t.1).imp ?_
      intro r r' hne x hx y hy e
      obtain ⟨s, _, rfl⟩ := List.mem_map.1 hx
      obtain ⟨s', _, rfl⟩ := List.mem_map.1 hy
      injection e with e1 e2
      exact hne e1
  · have hh : nestedSlots.Pairwise (fun t t' => t.1 ≠ t'.1) := by decide
    refine hh.imp ?_
    intro t t' hne x hx y hy e
    simp only [List.mem_flatMap, List.mem_map] at hx hy
    obtain ⟨r, hr, s, _, rfl⟩ := hx
    obtain ⟨r', hr', s', _, rfl⟩ := hy
    injection e with e1 e2
    subst e1
    exact hne ((mem_all.1 hr).1.symm.trans (mem_all.1 hr').1)

theorem nodup_areaList {d : Data} (N : Linked d) : (areaList d).Nodup := by
  unfold areaList
  have hm : mainAreas.Nodup := by decide
  have hg : globalAreas.Nodup := by decide
  have hb : (baseAreas d).Nodup := by
    unfold baseAreas
    rw [List.nodup_iff_pairwise_ne, List.pairwise_map]
    exact N.typesOnce.imp (fun h e => h (by injection e))
  have m1 : ∀ a ∈ mainAreas, a ≠ .header ∧ (∀ r s, a ≠ .kids r s) ∧ ∀ s, a ≠ .globals s := by
    intro a ha
    unfold mainAreas at ha
    simp only [List.cons_append, List.mem_cons, List.mem_append, List.mem_map, List.not_mem_nil, or_false] at ha
    rcases ha with rfl | ⟨k, _, rfl⟩ | rfl | rfl <;> simp
  have m2 : ∀ a ∈ globalAreas, a ≠ .header ∧ ∀ r s, a ≠ .kids r s := by
    intro a ha
    obtain ⟨m, _, rfl⟩ := List.mem_map.1 ha
    simp
  have m3 : ∀ a ∈ baseAreas d, ∃ r, a = .kids r .bases := by
    intro a ha
    obtain ⟨r, _, rfl⟩ := List.mem_map.1 ha
    exact ⟨r, rfl⟩
  have hgb : (globalAreas ++ baseAreas d).Nodup := by
    rw [List.nodup_append]
    refine ⟨hg, hb, ?_⟩
    intro a ha b hb' e
    subst e
    obtain ⟨r, rfl⟩ := m3 a hb'
    exact (m2 _ ha).2 _ _ rfl
  have hngb : (nestedAreas d ++ (globalAreas ++ baseAreas d)).Nodup := by
    rw [List.nodup_append]
    refine ⟨nodup_nested d, hgb, ?_⟩
    intro a ha b hb' e
    subst e
    obtain ⟨r, s, rfl, _, _, hne⟩ := mem_nestedAreas.1 ha
    rcases List.mem_append.1 hb' with h | h
    · exact (m2 _ h).2 _ _ rfl
    · obtain ⟨r', e⟩ := m3 _ h
      injection e with e1 e2
      exact hne e2
  have hall : (mainAreas ++ (nestedAreas d ++ (globalAreas ++ baseAreas d))).Nodup := by
    rw [List.nodup_append]
    refine ⟨hm, hngb, ?_⟩
    intro a ha b hb' e
    subst e
    obtain ⟨_, h2, h3⟩ := m1 a ha
    rcases List.mem_append.1 hb' with h | h
    · obtain ⟨r, s, rfl, _⟩ := mem_nestedAreas.1 h
      exact h2 _ _ rfl
    · rcases List.mem_append.1 h with h | h
      · obtain ⟨m, _, rfl⟩ := List.mem_map.1 h
        exact h3 _ rfl
      · obtain ⟨r, rfl⟩ := m3 _ h
        exact h2 _ _ rfl
  rw [List.nodup_cons]
  refine ⟨?_, hall⟩
  intro h
  rcases List.mem_append.1 h with h | h
  · exact (m1 _ h).1 rfl
  · rcases List.mem_append.1 h with h | h
    · obtain ⟨r, s, e, _⟩ := mem_nestedAreas.1 h
      cases e
    · rcases List.mem_append.1 h with h | h
      · exact (m2 _ h).1 rfl
      · obtain ⟨r, e⟩ := m3 _ h
        cases e

/-! ## Blocks -/

theorem schema_get {h : Nat} (hh : h < 18) : ∃ s, schemas[h]? = some s ∧ s.offsets = offsetsAt h ∧ s.stride = strideAt h := by
  have hl : h < schemas.length := hh
  refine ⟨schemas[h], List.getElem?_eq_getElem hl, ?_, ?_⟩
  · unfold offsetsAt
    rw [List.getD_eq_getElem?_getD, List.getElem?_eq_getElem hl]; rfl
  · unfold strideAt
    rw [List.getD_eq_getElem?_getD, List.getElem?_eq_getElem hl]; rfl

theorem offsets_shape : ∀ h < 18, (offsetsAt h).Pairwise (fun a b => a + 8 ≤ b ∨ b + 8 ≤ a) ∧
    (∀ o ∈ offsetsAt h, o + 8 ≤ strideAt h) ∧ 8 ≤ strideAt h ∧ strideAt h ≤ 616 ∧ offsetsAt h ≠ [] := by decide +kernel

theorem block_handle {p : Place} {d : Data} {a : Area} {b : Rel} (hb : blockOf p d a = some b) : b.handle < 18 := by
  cases a with
  | header => injection hb with hb; subst hb; exact (by decide : 0 < 18)
  | names => injection hb with hb; subst hb; exact (by decide : 1 < 18)
  | table k => injection hb with hb; subst hb; exact handle_lt k
  | typePrims => injection hb with hb; subst hb; exact (by decide : 16 < 18)
  | globals s => simp only [blockOf, Option.map_eq_some_iff] at hb; obtain ⟨o, _, rfl⟩ := hb; exact (by decide : 16 < 18)
  | kids r s => simp only [blockOf, Option.map_eq_some_iff] at hb; obtain ⟨o, _, rfl⟩ := hb; exact (by decide : 16 < 18)
  | nameText => cases hb
  | attributeText => cases hb

theorem block_area {p : Place} {d : Data} {a : Area} {b : Rel} (ha : IsArea d a) (hb : blockOf p d a = some b) :
    area p d a = some (b.offset, b.count * strideAt b.handle) := by
  cases a with
  | header => injection hb with hb; subst hb; simp only [area, size_databaseMem, strideAt_0]
  | names => injection hb with hb; subst hb; simp only [area, size_name, strideAt_1]
  | table k => injection hb with hb; subst hb; simp only [area, strideAt_handle]
  | typePrims => injection hb with hb; subst hb; simp only [area, ptrHandle, strideAt_16]
  | globals s =>
    simp only [blockOf, Option.map_eq_some_iff] at hb
    obtain ⟨o, ho, rfl⟩ := hb
    simp only [area]
    rw [if_pos (by simpa only [IsArea] using ha), ho]
    simp only [Option.map_some, ptrHandle, strideAt_16]
  | kids r s =>
    simp only [blockOf, Option.map_eq_some_iff] at hb
    obtain ⟨o, ho, rfl⟩ := hb
    simp only [area]
    rw [if_pos (by simpa only [IsArea] using ha), ho]
    simp only [Option.map_some, ptrHandle, strideAt_16]
  | nameText => cases hb
  | attributeText => cases hb

/-- The slots of an area. -/
def areaSlots (p : Place) (d : Data) (a : Area) : List Nat := (blockOf p d a).toList.flatMap (relSlots schemas)

theorem slots_eq (p : Place) (d : Data) : slots schemas (relsOf p d) = (areaList d).flatMap (areaSlots p d) := by
  unfold slots relsOf areaSlots
  rw [List.flatMap_assoc]

theorem mem_areaSlots {p : Place} {d : Data} {a : Area} {x : Nat} : x ∈ areaSlots p d a ↔
    ∃ b, blockOf p d a = some b ∧ ∃ j < b.count, ∃ o ∈ offsetsAt b.handle, x = b.offset + j * strideAt b.handle + o := by
  unfold areaSlots
  cases hb : blockOf p d a with
  | none => simp
  | some b =>
    obtain ⟨s, h1, h2, h3⟩ := schema_get (block_handle hb)
    simp only [Option.toList_some, List.flatMap_cons, List.flatMap_nil, List.append_nil, Option.some.injEq, exists_eq_left']
    rw [mem_relSlots h1, h2, h3]

theorem slot_inside {p : Place} {d : Data} {a : Area} (ha : IsArea d a) {x : Nat} (hx : x ∈ areaSlots p d a) :
    ∃ o n, area p d a = some (o, n) ∧ o ≤ x ∧ x + 8 ≤ o + n := by
  obtain ⟨b, hb, j, hj, o, ho, rfl⟩ := mem_areaSlots.1 hx
  refine ⟨_, _, block_area ha hb, by omega, ?_⟩
  have h1 := (offsets_shape _ (block_handle hb)).2.1 o ho
  have := Nat.mul_le_mul_right (strideAt b.handle) (show j + 1 ≤ b.count from hj)
  rw [Nat.succ_mul] at this
  omega

theorem area_le {p : Place} {d : Data} {size : Nat} (L : Laid p d size) {a : Area} {o n : Nat}
    (h : area p d a = some (o, n)) : o + n ≤ size := by
  by_cases ha : a = .header
  · subst ha
    injection h with h
    injection h with h1 h2
    have := L.header
    omega
  · exact (L.behind a o n h ha).2

theorem slots_apart {p : Place} {d : Data} {size : Nat} (L : Laid p d size) (N : Linked d) :
    (slots schemas (relsOf p d)).Pairwise Apart := by
  rw [slots_eq, List.pairwise_flatMap]
  constructor
  · intro a ha
    unfold areaSlots
    cases hb : blockOf p d a with
    | none => simp
    | some b =>
      obtain ⟨s, h1, h2, h3⟩ := schema_get (block_handle hb)
      simp only [Option.toList_some, List.flatMap_cons, List.flatMap_nil, List.append_nil]
      unfold relSlots
      rw [h1]
      simp only []
      have hsh := offsets_shape _ (block_handle hb)
      exact pairwise_range_objects (by rw [h2]; exact hsh.1) (by rw [h2, h3]; exact hsh.2.1) _
  · refine List.Pairwise.imp_of_mem ?_ (nodup_areaList N)
    intro a b ha hb hne x hx y hy
    obtain ⟨o, n, h1, h2, h3⟩ := slot_inside ((mem_areaList N).1 ha) hx
    obtain ⟨q, m, h4, h5, h6⟩ := slot_inside ((mem_areaList N).1 hb) hy
    have := L.apart a b hne o n q m h1 h4
    unfold Apart
    omega

/-! ## Where the cells are -/

/-- A cell of an object in the block of an area. -/
def InArea (p : Place) (d : Data) (a : Area) (c : Cell) : Prop :=
  ∃ b, IsArea d a ∧ blockOf p d a = some b ∧ ∃ j < b.count, ∃ o, Fit b.handle (o, c.2) ∧
    c.1 = b.offset + j * strideAt b.handle + o

/-- A cell of an object in a block. -/
def InBlock (p : Place) (d : Data) (c : Cell) : Prop := ∃ a, InArea p d a c

/-- A text in an area for texts. -/
def InText (p : Place) (d : Data) (c : Cell) : Prop :=
  ∃ a, (a = .nameText ∨ a = .attributeText) ∧ ∃ o n bs, area p d a = some (o, n) ∧ c.2 = .bytes bs ∧ o ≤ c.1 ∧
    c.1 + bs.length ≤ o + n

theorem entry_in {p : Place} {d : Data} {a : Area} {o : Nat} {l : List Ref} (ha : IsArea d a)
    (hb : blockOf p d a = some ⟨ptrHandle, o, l.length⟩) : ∀ c ∈ entryCells p o l, InArea p d a c := by
  intro c hc
  unfold entryCells at hc
  obtain ⟨⟨r, j⟩, h, rfl⟩ := List.mem_map.1 hc
  rw [List.mem_zipIdx_iff_getElem?] at h
  have hj : j < l.length := by
    by_cases hlt : j < l.length
    · exact hlt
    · rw [List.getElem?_eq_none (by omega)] at h; cases h
  refine ⟨_, ha, hb, j, hj, 0, ?_, ?_⟩
  · simp only [ptrHandle, fit_ptr, offsetsAt_16]; exact List.mem_cons_self ..
  · simp only [ptrHandle, strideAt_16, Nat.add_zero]

theorem name_in {p : Place} {d : Data} : ∀ c ∈ nameTable p d, InArea p d .names c := by
  intro c hc
  unfold nameTable at hc
  obtain ⟨⟨n, j⟩, h, hc⟩ := List.mem_flatMap.1 hc
  rw [List.mem_zipIdx_iff_getElem?] at h
  have hj : j < d.names.length := by
    by_cases hlt : j < d.names.length
    · exact hlt
    · rw [List.getElem?_eq_none (by omega)] at h; cases h
  simp only [nameCells, off_name_hash, off_name_text, size_name, List.mem_cons, List.not_mem_nil, or_false] at hc
  rcases hc with rfl | rfl
  · refine ⟨_, trivial, rfl, j, hj, 0, ?_, ?_⟩
    · simp [fit_num, offsetsAt_1, strideAt_1]
    · simp only [strideAt_1]
  · refine ⟨_, trivial, rfl, j, hj, 8, ?_, ?_⟩
    · simp [fit_ptr, offsetsAt_1]
    · simp only [strideAt_1]

theorem text_in {p : Place} {d : Data} {size : Nat} (L : Laid p d size) : ∀ c ∈ texts p d, InText p d c := by
  intro c hc
  unfold texts at hc
  simp only [List.mem_append] at hc
  rcases hc with (hc | hc) | hc
  · obtain ⟨⟨⟨h, t⟩, i⟩, hn, rfl⟩ := List.mem_map.1 hc
    rw [List.mem_zipIdx_iff_getElem?] at hn
    have := L.names i h t hn
    refine ⟨.nameText, .inl rfl, p.nameText, p.nameSize, _, rfl, rfl, this.1, ?_⟩
    simp only [textCell, List.length_append, List.length_cons, List.length_nil]
    omega
  · obtain ⟨k, _, hc⟩ := List.mem_flatMap.1 hc
    obtain ⟨r, hr, hc2⟩ := List.mem_flatMap.1 hc
    obtain ⟨hk, hr⟩ := mem_all.1 hr
    subst hk
    clear hc
    have hc := hc2
    unfold objectText at hc
    cases ht : (d.st.get r).text with
    | none => rw [ht] at hc; cases hx : p.textAt r <;> rw [hx] at hc <;> cases hc
    | some t =>
      obtain ⟨o, h1, h2, h3⟩ := L.texts r hr t ht
      rw [ht, h1] at hc
      simp only [List.mem_cons, List.not_mem_nil, or_false] at hc
      subst hc
      refine ⟨.nameText, .inl rfl, p.nameText, p.nameSize, _, rfl, rfl, h2, ?_⟩
      simp only [textCell, List.length_append, List.length_cons, List.length_nil]
      omega
  · obtain ⟨r, hr, rfl⟩ := List.mem_map.1 hc
    obtain ⟨hk, hr⟩ := mem_all.1 hr
    have := L.values r hk (by unfold Exists; rw [hk]; exact hr)
    refine ⟨.attributeText, .inr rfl, p.attributeText, p.attributeSize, _, rfl, rfl, this.1, ?_⟩
    simp only [textCell, List.length_append, List.length_cons, List.length_nil]
    omega

theorem cell_in {p : Place} {d : Data} {size : Nat} (L : Laid p d size) {db : Nat} {c : Cell} (hc : c ∈ cells p d db) :
    InBlock p d c ∨ InText p d c := by
  unfold cells at hc
  simp only [List.mem_append] at hc
  rcases hc with (((hc | hc) | hc) | hc) | hc
  · refine .inl ⟨.header, _, trivial, rfl, 0, by decide, c.1, header_fit p d c hc, ?_⟩
    show c.1 = 0 + 0 * _ + c.1
    omega
  · exact .inl ⟨_, name_in c hc⟩
  · unfold objects at hc
    obtain ⟨k, _, hc⟩ := List.mem_flatMap.1 hc
    obtain ⟨r, hr, hc2⟩ := List.mem_flatMap.1 hc
    obtain ⟨hk, hr⟩ := mem_all.1 hr
    subst hk
    obtain ⟨c', hc', rfl⟩ := List.mem_map.1 hc2
    refine .inl ⟨.table r.1, _, trivial, rfl, r.2, hr, c'.1, object_fit p d db r c' hc', ?_⟩
    simp only [strideAt_handle]
    unfold Place.at
    omega
  · left
    unfold pointerArrays at hc
    simp only [List.mem_append] at hc
    rcases hc with (hc | hc) | hc
    · exact ⟨_, entry_in (a := .typePrims) trivial rfl c hc⟩
    · obtain ⟨m, hm, hc⟩ := List.mem_flatMap.1 hc
      unfold optEntries at hc
      cases ho : p.globals m.1 with
      | none => rw [ho] at hc; cases hc
      | some o =>
        rw [ho] at hc
        exact ⟨_, entry_in (a := .globals m.1) (List.mem_map_of_mem hm) (by simp only [blockOf, ho, Option.map_some]) c hc⟩
    · obtain ⟨k, _, hc⟩ := List.mem_flatMap.1 hc
      obtain ⟨r, hr, hc2⟩ := List.mem_flatMap.1 hc
      obtain ⟨hk, hr⟩ := mem_all.1 hr
      subst hk
      obtain ⟨s, hs, hc⟩ := List.mem_flatMap.1 hc2
      unfold optEntries at hc
      cases ho : p.kids r s with
      | none => rw [ho] at hc; cases hc
      | some o =>
        rw [ho] at hc
        exact ⟨_, entry_in (a := .kids r s) ⟨hr, hs⟩ (by simp only [blockOf, ho, Option.map_some]) c hc⟩
  · exact .inr (text_in L c hc)

/-- The number of bytes of a cell. -/
def width : Val → Nat
  | .num w _ => w
  | .ptr _ => 8
  | .raw _ => 8
  | .bytes bs => bs.length

theorem fit_width {h : Nat} (hh : h < 18) {c : Cell} (hf : Fit h c) : c.1 + width c.2 ≤ strideAt h := by
  obtain ⟨o, v⟩ := c
  cases v with
  | num w v => exact hf.1
  | ptr t => exact (offsets_shape h hh).2.1 o hf
  | raw t => exact (offsets_shape h hh).2.1 o hf
  | bytes bs => exact hf.elim

theorem ptr_slot {p : Place} {d : Data} {size : Nat} (L : Laid p d size) (N : Linked d) {db : Nat} {c : Cell}
    (hc : c ∈ cells p d db) (hp : isPtr c.2 = true) : c.1 ∈ slots schemas (relsOf p d) := by
  rcases cell_in L hc with ⟨a, b, ha, hb, j, hj, o, hf, e⟩ | ⟨a, _, o, n, bs, _, h2, _⟩
  · rw [slots_eq, List.mem_flatMap]
    refine ⟨a, (mem_areaList N).2 ha, mem_areaSlots.2 ⟨b, hb, j, hj, o, ?_, e⟩⟩
    obtain ⟨x, v⟩ := c
    cases v with
    | num w v => cases hp
    | ptr t => exact hf
    | raw t => exact hf
    | bytes bs => cases hp
  · rw [h2] at hp; cases hp

theorem other_apart {p : Place} {d : Data} {size : Nat} (L : Laid p d size) (N : Linked d) {db : Nat} {c : Cell}
    (hc : c ∈ cells p d db) (hp : isPtr c.2 = false) : ∀ s ∈ slots schemas (relsOf p d), c.1 + width c.2 ≤ s ∨ s + 8 ≤ c.1 := by
  intro s hs
  rw [slots_eq, List.mem_flatMap] at hs
  obtain ⟨a', ha', hs⟩ := hs
  have hA := (mem_areaList N).1 ha'
  obtain ⟨o', n', h1, h2, h3⟩ := slot_inside hA hs
  rcases cell_in L hc with ⟨a, b, ha, hb, j, hj, o, hf, e⟩ | ⟨a, ha, o, n, bs, h4, h5, h6, h7⟩
  · have hfw := fit_width (block_handle hb) hf
    have hmul := Nat.mul_le_mul_right (strideAt b.handle) (show j + 1 ≤ b.count from hj)
    rw [Nat.succ_mul] at hmul
    by_cases hne : a = a'
    · subst hne
      obtain ⟨b', hb', j', hj', q, hq, rfl⟩ := mem_areaSlots.1 hs
      rw [hb] at hb'
      injection hb' with hb'
      subst hb'
      have hqs := (offsets_shape _ (block_handle hb)).2.1 q hq
      rcases Nat.lt_trichotomy j j' with hlt | heq | hlt
      · have := Nat.mul_le_mul_right (strideAt b.handle) (show j + 1 ≤ j' from hlt)
        rw [Nat.succ_mul] at this
        simp only at hfw
        omega
      · subst heq
        obtain ⟨x, v⟩ := c
        cases v with
        | num w v =>
          have := hf.2 q hq
          simp only [width] at *
          omega
        | ptr t => cases hp
        | raw t => cases hp
        | bytes bs => exact hf.elim
      · have := Nat.mul_le_mul_right (strideAt b.handle) (show j' + 1 ≤ j from hlt)
        rw [Nat.succ_mul] at this
        omega
    · have := L.apart a a' hne _ _ _ _ (block_area ha hb) h1
      simp only at hfw
      omega
  · have hne : a ≠ a' := by
      rintro rfl
      rcases ha with rfl | rfl <;> exact hA
    have := L.apart a a' hne _ _ _ _ h4 h1
    rw [h5]
    simp only [width]
    omega

end Clr.Image
