import Verif.Proofs.Plan4
/-
Lemmas for C85: the memory of an exported database holds the database.
-/
namespace Clr.Image
open Clr Clr.Reloc Clr.Layout
open Clr.Export (K Slot Ref Ptr St Exportable exportDB copied scopesBuilt final_of)
attribute [local irreducible] DB.hashOf

/-! ### Numbers fit -/

/-- A number fits its bytes. -/
def Small : Val → Prop
  | .num w v => v < 256 ^ w
  | _ => True

/-- All numbers of the database fit their members. -/
structure Narrow (d : Data) : Prop where
  base : d.functionBase < 256 ^ 8
  names : d.names.length < 256 ^ 4
  count : ∀ k, d.st.count k < 256 ^ 4
  typePrims : d.st.typePrims.length < 256 ^ 4
  globals : ∀ s ∈ spaceMembers.map (·.1), (d.st.globals s).length < 256 ^ 4
  kids : ∀ r, Exists d r → ∀ s ∈ slotsOf r.1, ((d.st.get r).kids s).length < 256 ^ 4
  size : ∀ r, d.scalar r .size < 256 ^ 8
  value : ∀ r, d.scalar r .value < 256 ^ 4
  op : ∀ r, d.scalar r .op < 256 ^ 4
  isConst : ∀ r, d.scalar r .isConst < 256 ^ 1
  offset : ∀ r, d.scalar r .offset < 256 ^ 4
  address : ∀ r, d.scalar r .address < 256 ^ 8
  arg0 : ∀ r, d.scalar r .argPtr0 < 256 ^ 1
  arg1 : ∀ r, d.scalar r .argPtr1 < 256 ^ 1
  arg2 : ∀ r, d.scalar r .argPtr2 < 256 ^ 1
  arg3 : ∀ r, d.scalar r .argPtr3 < 256 ^ 1
  number : ∀ r, d.scalar r .number < 256 ^ 4
  flags : ∀ r, d.scalar r .flags < 256 ^ 4
  amount : ∀ r, d.scalar r .count < 256 ^ 4

theorem small_place (p : Place) (x : Ptr) : Small (p.ptr x) := by
  cases x with
  | raw n => by_cases hn : n = 0 <;> simp [Place.ptr, hn, Small]
  | obj r => trivial

theorem small_opt (p : Place) (x : Option Ref) : Small (p.opt x) := trivial
theorem small_ptr (x : Option Nat) : Small (.ptr x) := trivial
theorem small_num {w v : Nat} : Small (.num w v) ↔ v < 256 ^ w := Iff.rfl
theorem small_u32 (x : UInt32) : x.toNat < 256 ^ 4 := x.toNat_lt
theorem small_b32 (x : BitVec 32) : x.toNat < 256 ^ 4 := x.isLt
theorem small_kind (k : K) : kindOf k < 256 ^ 4 := by cases k <;> decide
theorem small_0 : 0 < 256 ^ 8 := by decide

theorem small_object {p : Place} {d : Data} (h : Narrow d) {r : Ref} (hr : Exists d r) : ∀ c ∈ objectCells p d 0 r, Small c.2 := by
  have hk := h.kids r hr
  obtain ⟨k, i⟩ := r
  cases k <;>
    simp only [objectCells, typeCells, primCells, kidsCells, arrayCells, nameCells, List.forall_mem_append, List.forall_mem_cons,
      List.not_mem_nil, false_implies, implies_true, and_true, true_and, small_place, small_opt, small_ptr, small_num, small_u32,
      small_b32, small_kind, small_0, h.size, h.value, h.op, h.isConst, h.offset, h.address, h.arg0, h.arg1, h.arg2, h.arg3,
      h.number, h.flags, h.amount]
  all_goals repeat' apply And.intro
  all_goals exact hk _ (by simp [slotsOf])

theorem small_header {p : Place} {d : Data} (h : Narrow d) : ∀ c ∈ headerCells p d, Small c.2 := by
  unfold headerCells
  simp only [List.forall_mem_append, List.forall_mem_cons, arrayCells, List.not_mem_nil, false_implies, implies_true,
    and_true, true_and, small_num, small_ptr, small_0, h.base, h.names, h.typePrims]
  refine ⟨?_, ?_⟩
  · intro c hc
    obtain ⟨k, _, hc⟩ := List.mem_flatMap.1 hc
    simp only [List.mem_cons, List.not_mem_nil, or_false] at hc
    rcases hc with rfl | rfl | rfl
    · exact h.count k
    · trivial
    · exact small_0
  · intro c hc
    obtain ⟨m, hm, hc⟩ := List.mem_flatMap.1 hc
    simp only [List.mem_cons, List.not_mem_nil, or_false] at hc
    rcases hc with rfl | rfl | rfl
    · exact h.globals m.1 (List.mem_map_of_mem hm)
    · trivial
    · exact small_0

theorem small_cell {p : Place} {d : Data} (h : Narrow d) : ∀ c ∈ cells p d 0, Small c.2 := by
  intro c hc
  unfold cells at hc
  simp only [List.mem_append] at hc
  rcases hc with (((hc | hc) | hc) | hc) | hc
  · exact small_header h c hc
  · unfold nameTable at hc
    obtain ⟨⟨⟨x, t⟩, j⟩, hn, hc⟩ := List.mem_flatMap.1 hc
    simp only [nameCells, List.mem_cons, List.not_mem_nil, or_false] at hc
    rcases hc with rfl | rfl
    · exact small_u32 x
    · trivial
  · unfold objects at hc
    obtain ⟨k, _, hc⟩ := List.mem_flatMap.1 hc
    obtain ⟨r, hr, hc2⟩ := List.mem_flatMap.1 hc
    obtain ⟨hk, hr⟩ := mem_all.1 hr
    subst hk
    obtain ⟨c', hc', rfl⟩ := List.mem_map.1 hc2
    exact small_object h hr c' hc'
  · have ent : ∀ o l, c ∈ entryCells p o l → Small c.2 := by
      intro o l hc
      obtain ⟨r, _, rfl⟩ := List.mem_map.1 hc
      trivial
    have opt : ∀ o l, c ∈ optEntries p o l → Small c.2 := by
      intro o l hc
      cases o with
      | none => cases hc
      | some o => exact ent o l hc
    unfold pointerArrays at hc
    simp only [List.mem_append] at hc
    rcases hc with (hc | hc) | hc
    · exact ent _ _ hc
    · obtain ⟨m, hm, hc⟩ := List.mem_flatMap.1 hc
      exact opt _ _ hc
    · obtain ⟨k, _, hc⟩ := List.mem_flatMap.1 hc
      obtain ⟨r, hr, hc2⟩ := List.mem_flatMap.1 hc
      obtain ⟨s, hs, hc3⟩ := List.mem_flatMap.1 hc2
      exact opt _ _ hc3
  · unfold texts at hc
    simp only [List.mem_append] at hc
    rcases hc with (hc | hc) | hc
    · obtain ⟨n, _, rfl⟩ := List.mem_map.1 hc
      trivial
    · obtain ⟨k, _, hc⟩ := List.mem_flatMap.1 hc
      obtain ⟨r, hr, hc⟩ := List.mem_flatMap.1 hc
      unfold objectText at hc
      split at hc
      · simp only [List.mem_cons, List.not_mem_nil, or_false] at hc
        subst hc
        trivial
      · cases hc
    · obtain ⟨r, _, rfl⟩ := List.mem_map.1 hc
      trivial

theorem sound_cell {p : Place} {d : Data} {start size : Nat} (L : Laid p d size) (N : Linked d) (h : Narrow d)
    (hs : start + size < W64) {c : Cell} (hc : c ∈ cells p d 0) : Sound start c.2 := by
  have h1 := good_cell L N hc
  have h2 := small_cell h c hc
  obtain ⟨o, v⟩ := c
  cases v with
  | num w v => exact h2
  | raw n => exact h1.elim
  | bytes bs => trivial
  | ptr t =>
    cases t with
    | none => trivial
    | some t =>
      have h1 : 616 ≤ t ∧ t ≤ size := h1
      show start + t < W64
      omega

/-! ### Cells are in their areas -/

theorem in_area {p : Place} {d : Data} {a : Area} {c : Cell} (h : InArea p d a c) :
    ∃ o n, area p d a = some (o, n) ∧ o ≤ c.1 ∧ c.1 + width c.2 ≤ o + n := by
  obtain ⟨b, h1, h2, j, hj, o, hf, e⟩ := h
  have hw := fit_width (block_handle h2) hf
  simp only [] at hw
  have hm := Nat.mul_le_mul_right (strideAt b.handle) (show j + 1 ≤ b.count from hj)
  rw [Nat.succ_mul] at hm
  exact ⟨_, _, block_area h1 h2, by omega, by omega⟩

/-- What is in an area is part of the area and of the database. -/
theorem areaCells_in {p : Place} {d : Data} {size : Nat} (L : Laid p d size) {a : Area} (ha : ∃ x, area p d a = some x) {c : Cell}
    (hc : c ∈ areaCells p d a) :
    c ∈ cells p d 0 ∧ ∃ o n, area p d a = some (o, n) ∧ o ≤ c.1 ∧ c.1 + width c.2 ≤ o + n := by
  have hcells : (c ∈ headerCells p d ∨ c ∈ nameTable p d ∨ c ∈ objects p d 0 ∨ c ∈ pointerArrays p d ∨ c ∈ texts p d) →
      c ∈ cells p d 0 := by
    intro h
    unfold cells
    simp only [List.mem_append]
    rcases h with h | h | h | h | h
    · exact .inl (.inl (.inl (.inl h)))
    · exact .inl (.inl (.inl (.inr h)))
    · exact .inl (.inl (.inr h))
    · exact .inl (.inr h)
    · exact .inr h
  cases a with
  | header =>
    refine ⟨hcells (.inl hc), _, _, rfl, by omega, ?_⟩
    have := fit_width (h := 0) (by decide) (header_fit p d c hc)
    rw [strideAt_0] at this
    rw [size_databaseMem]
    omega
  | names => exact ⟨hcells (.inr (.inl hc)), in_area (name_in c hc)⟩
  | table k =>
    obtain ⟨r, hr, hm⟩ := List.mem_flatMap.1 hc
    refine ⟨hcells (.inr (.inr (.inl (List.mem_flatMap.2 ⟨k, mem_kinds k, hc⟩)))), _, _, rfl, ?_⟩
    obtain ⟨e, hr⟩ := mem_all.1 hr
    obtain ⟨c', hc', rfl⟩ := List.mem_map.1 hm
    obtain ⟨k', i⟩ := r
    have e : k' = k := e
    subst e
    have hr : i < d.st.count k' := hr
    have := object_width p d _ hc'
    have hm := Nat.mul_le_mul_right (stride k') (show i + 1 ≤ d.st.count k' from hr)
    rw [Nat.succ_mul] at hm
    simp only [Place.at] at *
    omega
  | typePrims =>
    refine ⟨hcells (.inr (.inr (.inr (.inl ?_)))), in_area (entry_in (a := .typePrims) trivial rfl c hc)⟩
    unfold pointerArrays
    simp only [List.mem_append]
    exact .inl (.inl hc)
  | globals s =>
    obtain ⟨x, ha⟩ := ha
    unfold area at ha
    simp only at ha
    split at ha
    · next hs =>
      obtain ⟨o, ho, ha⟩ := Option.map_eq_some_iff.1 ha
      have hc2 : c ∈ optEntries p (p.globals s) (d.st.globals s) := hc
      rw [ho] at hc2
      refine ⟨hcells (.inr (.inr (.inr (.inl ?_)))), in_area (entry_in (a := .globals s) hs
        (by simp only [blockOf, ho, Option.map_some]) c hc2)⟩
      unfold pointerArrays
      simp only [List.mem_append]
      obtain ⟨m, hm, rfl⟩ := List.mem_map.1 hs
      exact .inl (.inr (List.mem_flatMap.2 ⟨m, hm, hc⟩))
    · cases ha
  | kids r s =>
    obtain ⟨x, ha⟩ := ha
    unfold area at ha
    simp only at ha
    split at ha
    · next hs =>
      obtain ⟨o, ho, ha⟩ := Option.map_eq_some_iff.1 ha
      have hc2 : c ∈ optEntries p (p.kids r s) ((d.st.get r).kids s) := hc
      rw [ho] at hc2
      refine ⟨hcells (.inr (.inr (.inr (.inl ?_)))), in_area (entry_in (a := .kids r s) hs
        (by simp only [blockOf, ho, Option.map_some]) c hc2)⟩
      unfold pointerArrays
      simp only [List.mem_append]
      exact .inr (List.mem_flatMap.2 ⟨r.1, mem_kinds _, List.mem_flatMap.2 ⟨r, mem_all.2 ⟨rfl, hs.1⟩,
        List.mem_flatMap.2 ⟨s, hs.2, hc⟩⟩⟩)
    · cases ha
  | nameText =>
    have hm : c ∈ texts p d := by
      unfold texts
      simp only [List.mem_append]
      exact .inl (.inl hc)
    refine ⟨hcells (.inr (.inr (.inr (.inr hm)))), _, _, rfl, ?_⟩
    obtain ⟨⟨⟨x, t⟩, i⟩, hn, rfl⟩ := List.mem_map.1 hc
    rw [List.mem_zipIdx_iff_getElem?] at hn
    have := L.names i x t hn
    simp only [textCell, width, List.length_append, List.length_cons, List.length_nil]
    omega
  | attributeText =>
    have hm : c ∈ texts p d := by
      unfold texts
      simp only [List.mem_append]
      exact .inr hc
    refine ⟨hcells (.inr (.inr (.inr (.inr hm)))), _, _, rfl, ?_⟩
    obtain ⟨r, hr, rfl⟩ := List.mem_map.1 hc
    obtain ⟨e, hr⟩ := mem_all.1 hr
    have := L.values r e (by unfold Exists; rw [e]; exact hr)
    simp only [textCell, width, List.length_append, List.length_cons, List.length_nil]
    omega

variable {env : Export.Env} {fuel : Nat} {db : DB.Database} {F : St}

/-- What is allocated for the database is one of its areas. -/
theorem use_area (h : Exportable env fuel db) (hF : exportDB env fuel db = some (.ok F)) (fb : Nat) (fks : List UInt32) {a : Area}
    (ha : ∃ q ∈ pieces db (scopesBuilt env db) F fks, q.use = some a) :
    ∃ x, area (placeOf db (pieces db (scopesBuilt env db) F fks)) (dataOf fb db F) a = some x := by
  have fin := final_of h hF
  obtain ⟨o, ho⟩ := offset_some ha
  obtain ⟨q, hq, hu⟩ := ha
  cases a with
  | globals s =>
    have hs : s ∈ spaceMembers.map (·.1) := by
      unfold pieces at hq
      rw [List.mem_append, List.mem_append, List.mem_append] at hq
      rcases hq with ((hq | hq) | hq) | hq
      · unfold fixedPieces at hq
        simp only [List.cons_append, List.nil_append, List.mem_cons, List.mem_append, List.mem_map, List.not_mem_nil, or_false] at hq
        rcases hq with rfl | rfl | rfl | ⟨k, _, rfl⟩ | rfl | rfl <;> cases hu
      · rcases mem_treePieces.1 hq with rfl | ⟨pk, slot, hs, i, _, _, rfl⟩ <;> cases hu
      · unfold globalPieces at hq
        obtain ⟨s', hs, rfl⟩ := List.mem_map.1 hq
        injection hu with hu
        injection hu with hu
        subst hu
        exact hs
      · obtain ⟨r, _, _, _, rfl⟩ := mem_basePieces.1 hq
        cases hu
    unfold area
    simp only
    rw [if_pos hs]
    show ∃ x, (offsetIn _ _).map _ = some x
    rw [ho]
    exact ⟨_, rfl⟩
  | kids r s =>
    have hs : Exists (dataOf fb db F) r ∧ s ∈ slotsOf r.1 := by
      unfold pieces at hq
      rw [List.mem_append, List.mem_append, List.mem_append] at hq
      rcases hq with ((hq | hq) | hq) | hq
      · unfold fixedPieces at hq
        simp only [List.cons_append, List.nil_append, List.mem_cons, List.mem_append, List.mem_map, List.not_mem_nil, or_false] at hq
        rcases hq with rfl | rfl | rfl | ⟨k, _, rfl⟩ | rfl | rfl <;> cases hu
      · rcases mem_treePieces.1 hq with rfl | ⟨pk, slot, hs, i, hi, _, rfl⟩
        · cases hu
        · injection hu with hu
          injection hu with hu1 hu2
          subst hu1 hu2
          constructor
          · show i < F.count pk
            rw [fin.count]
            exact hi
          · rcases hs with ⟨ck, hs⟩ | ⟨hs, rfl⟩
            · have : ∀ x ∈ Export.hierarchy, x.2.1 ∈ slotsOf x.1 := by decide
              exact this _ hs
            · have : ∀ x ∈ attributeScopes, Slot.attributes ∈ slotsOf x := by decide
              exact this _ hs
      · unfold globalPieces at hq
        obtain ⟨s', hs, rfl⟩ := List.mem_map.1 hq
        cases hu
      · obtain ⟨r', hk, hr, _, rfl⟩ := mem_basePieces.1 hq
        injection hu with hu
        injection hu with hu1 hu2
        subst hu1 hu2
        refine ⟨hr, ?_⟩
        have : ∀ x ∈ [K.type, .enum, .cls, .instance], Slot.bases ∈ slotsOf x := by decide
        exact this _ hk
    unfold area
    simp only
    rw [if_pos hs]
    show ∃ x, (offsetIn _ _).map _ = some x
    rw [ho]
    exact ⟨_, rfl⟩
  | header => exact ⟨_, rfl⟩
  | names => exact ⟨_, rfl⟩
  | table k => exact ⟨_, rfl⟩
  | typePrims => exact ⟨_, rfl⟩
  | nameText => exact ⟨_, rfl⟩
  | attributeText => exact ⟨_, rfl⟩

/-- All of the database is in what is allocated. -/
theorem cells_used (h : Exportable env fuel db) (hF : exportDB env fuel db = some (.ok F)) (fb : Nat) (fks : List UInt32) {c : Cell}
    (hc : c ∈ cells (placeOf db (pieces db (scopesBuilt env db) F fks)) (dataOf fb db F) 0) :
    ∃ a, (∃ q ∈ pieces db (scopesBuilt env db) F fks, q.use = some a) ∧
      c ∈ areaCells (placeOf db (pieces db (scopesBuilt env db) F fks)) (dataOf fb db F) a := by
  have fin := final_of h hF
  generalize hps : pieces db (scopesBuilt env db) F fks = ps at hc ⊢
  have fixed : ∀ {a : Area}, fixedArea a = true → ∃ q ∈ ps, q.use = some a := by
    intro a ha
    obtain ⟨q, hq, hu⟩ := fixed_piece db ha
    refine ⟨q, ?_, hu⟩
    rw [← hps]
    unfold pieces
    exact List.mem_append_left _ (List.mem_append_left _ (List.mem_append_left _ hq))
  unfold cells at hc
  simp only [List.mem_append] at hc
  rcases hc with (((hc | hc) | hc) | hc) | hc
  · exact ⟨.header, fixed rfl, hc⟩
  · exact ⟨.names, fixed rfl, hc⟩
  · obtain ⟨k, _, hc⟩ := List.mem_flatMap.1 hc
    exact ⟨.table k, fixed rfl, hc⟩
  · unfold pointerArrays at hc
    simp only [List.mem_append] at hc
    rcases hc with (hc | hc) | hc
    · exact ⟨.typePrims, fixed rfl, hc⟩
    · obtain ⟨m, hm, hc⟩ := List.mem_flatMap.1 hc
      refine ⟨.globals m.1, ?_, hc⟩
      cases ho : (placeOf db ps).globals m.1 with
      | none => rw [ho] at hc; cases hc
      | some o => exact some_offset ho
    · obtain ⟨k, _, hc⟩ := List.mem_flatMap.1 hc
      obtain ⟨r, hr, hc2⟩ := List.mem_flatMap.1 hc
      obtain ⟨s, hs, hc3⟩ := List.mem_flatMap.1 hc2
      refine ⟨.kids r s, ?_, hc3⟩
      cases ho : (placeOf db ps).kids r s with
      | none => rw [ho] at hc3; cases hc3
      | some o => exact some_offset ho
  · unfold texts at hc
    simp only [List.mem_append] at hc
    rcases hc with (hc | hc) | hc
    · exact ⟨.nameText, fixed rfl, hc⟩
    · obtain ⟨k, _, hc⟩ := List.mem_flatMap.1 hc
      obtain ⟨r, hr, hc⟩ := List.mem_flatMap.1 hc
      refine ⟨.nameText, fixed rfl, ?_⟩
      obtain ⟨e, hr⟩ := mem_all.1 hr
      have hr : r.2 < F.count k := hr
      have hv : r.2 < (copied db).count r.1 := by rw [← fin.count, e]; exact hr
      unfold objectText at hc
      split at hc
      · next o t ho ht =>
        simp only [List.mem_cons, List.not_mem_nil, or_false] at hc
        subst hc
        have ht : (F.get r).text = some t := ht
        rw [fin.text, copied_text hv] at ht
        unfold Export.textOf at ht
        rw [find_idx] at ht
        obtain ⟨n, hn, rfl⟩ := Option.map_eq_some_iff.1 ht
        obtain ⟨i, hi, hn⟩ := Option.bind_eq_some_iff.1 hn
        have ho : Option.map _ _ = some o := ho
        rw [hi] at ho
        injection ho with ho
        refine List.mem_map.2 ⟨((n.hash, n.text), i), ?_, ?_⟩
        · rw [List.mem_zipIdx_iff_getElem?]
          show (db.names.map fun n => (n.hash, n.text))[i]? = _
          rw [List.getElem?_map, hn]
          rfl
        · rw [← ho]
          rfl
      · cases hc
    · exact ⟨.attributeText, fixed rfl, hc⟩

theorem area_clear (h : Exportable env fuel db) (hF : exportDB env fuel db = some (.ok F)) (fb : Nat) (ps : List Piece) (a : Area) :
    ∀ c ∈ areaCells (placeOf db ps) (dataOf fb db F) a, ∀ c' ∈ areaCells (placeOf db ps) (dataOf fb db F) a, Clear c c' := by
  have fin := final_of h hF
  cases a with
  | header => exact header_clear _ _
  | names => exact names_clear _ _
  | table k => exact table_clear _ _ k
  | typePrims => exact entries_clear _ _ _
  | globals s => exact optEntries_clear _ _ _
  | kids r s => exact optEntries_clear _ _ _
  | nameText =>
    have hget : ∀ {x : UInt32 × Bytes} {i : Nat}, (x, i) ∈ (dataOf fb db F).names.zipIdx → (db.names.map (·.text))[i]? = some x.2 := by
      intro x i hn
      rw [List.mem_zipIdx_iff_getElem?] at hn
      have hn : (db.names.map fun n => (n.hash, n.text))[i]? = some x := hn
      rw [List.getElem?_map] at hn ⊢
      obtain ⟨y, hy, rfl⟩ := Option.map_eq_some_iff.1 hn
      rw [hy]
      rfl
    intro c hc c' hc'
    obtain ⟨⟨x, i⟩, hn, rfl⟩ := List.mem_map.1 hc
    obtain ⟨⟨x', j⟩, hn', rfl⟩ := List.mem_map.1 hc'
    exact textCells_clear (hget hn) (hget hn')
  | attributeText =>
    have hget : ∀ {r : Ref}, r ∈ (dataOf fb db F).st.all .textAttr →
        (db.textAttributes.map (·.value))[r.2]? = some ((dataOf fb db F).text r) := by
      intro r hr
      obtain ⟨_, hr⟩ := mem_all.1 hr
      have hr : r.2 < F.count .textAttr := hr
      rw [fin.count] at hr
      have hl : r.2 < db.textAttributes.length := by simpa [copied, Export.rows] using hr
      show _ = some (db.textAttributes.getD r.2 {}).value
      rw [List.getElem?_map, List.getD_eq_getElem?_getD, List.getElem?_eq_getElem hl]
      rfl
    intro c hc c' hc'
    obtain ⟨r, hr, rfl⟩ := List.mem_map.1 hc
    obtain ⟨r', hr', rfl⟩ := List.mem_map.1 hc'
    exact textCells_clear (hget hr) (hget hr')

/-- All numbers of an exported database fit when the memory is smaller than 4 GB. -/
theorem narrow_of (h : Exportable env fuel db) (hF : exportDB env fuel db = some (.ok F)) {fb : Nat} (hfb : fb < W64) (fks : List UInt32)
    (small : total (pieces db (scopesBuilt env db) F fks) < 2 ^ 32) : Narrow (dataOf fb db F) := by
  have L := laid_of h hF fb fks
  have hb : 256 ^ 4 = 2 ^ 32 := by decide
  have bool : ∀ b : Bool, b.toNat < 256 ^ 1 := by decide
  refine ⟨hfb, ?_, ?_, ?_, ?_, ?_, ?_, ?_, ?_, ?_, ?_, ?_, ?_, ?_, ?_, ?_, ?_, ?_, ?_⟩
  · have := area_le L (a := .names) rfl
    rw [size_name] at this
    omega
  · intro k
    have := area_le L (a := .table k) rfl
    have hs := stride_pos k
    have : (dataOf fb db F).st.count k * 1 ≤ (dataOf fb db F).st.count k * stride k := Nat.mul_le_mul_left _ (by omega)
    omega
  · have := area_le L (a := .typePrims) rfl
    omega
  · intro s hs
    cases ho : (placeOf db (pieces db (scopesBuilt env db) F fks)).globals s with
    | none =>
      by_cases e : (dataOf fb db F).st.globals s = []
      · rw [e]; decide
      · exact absurd ho (L.globals s hs e)
    | some o =>
      have := globals_le L hs ho
      omega
  · intro r hr s hs
    cases ho : (placeOf db (pieces db (scopesBuilt env db) F fks)).kids r s with
    | none =>
      by_cases e : ((dataOf fb db F).st.get r).kids s = []
      · rw [e]; decide
      · exact absurd ho (L.kids r s hr hs e)
    | some o =>
      have := kids_le L hr hs ho
      omega
  · intro r
    show scalarOf db r .size < _
    unfold scalarOf
    simp only
    split
    · exact UInt64.toNat_lt _
    · exact UInt64.toNat_lt _
    · exact UInt64.toNat_lt _
    · exact UInt64.toNat_lt _
    · decide
  · intro r; exact BitVec.isLt _
  · intro r
    show qualifierOp _ < _
    generalize (db.fields.getD r.2 {}).qualifier.op = q
    cases q <;> decide
  · intro r; exact bool _
  · intro r; exact BitVec.isLt _
  · intro r; exact UInt64.toNat_lt _
  · intro r; exact bool _
  · intro r; exact bool _
  · intro r; exact bool _
  · intro r; exact bool _
  · intro r; exact UInt32.toNat_lt _
  · intro r; exact UInt32.toNat_lt _
  · intro r; exact UInt32.toNat_lt _

/-- The memory in the end holds the database. -/
theorem represents_of (h : Exportable env fuel db) (hF : exportDB env fuel db = some (.ok F)) {fb : Nat} (hfb : fb < W64) (fks : List UInt32)
    (small : total (pieces db (scopesBuilt env db) F fks) < 2 ^ 32) (N : Linked (dataOf fb db F)) (start : Nat)
    (hs : start + total (pieces db (scopesBuilt env db) F fks) < W64) (junk : Bytes)
    (hj : junk.length = total (pieces db (scopesBuilt env db) F fks)) :
    (imageOf start (placeOf db (pieces db (scopesBuilt env db) F fks)) (dataOf fb db F) (pieces db (scopesBuilt env db) F fks) junk).length =
      total (pieces db (scopesBuilt env db) F fks) ∧
    Represents (placeOf db (pieces db (scopesBuilt env db) F fks)) (dataOf fb db F) 0 start
      (imageOf start (placeOf db (pieces db (scopesBuilt env db) F fks)) (dataOf fb db F) (pieces db (scopesBuilt env db) F fks) junk) := by
  have L := laid_of h hF fb fks
  have hN := narrow_of h hF hfb fks small
  have used := fun {c : Cell} => cells_used h hF fb fks (c := c)
  have uses := fun {a : Area} => use_area h hF fb fks (a := a)
  have ac := area_clear h hF fb (pieces db (scopesBuilt env db) F fks)
  generalize pieces db (scopesBuilt env db) F fks = ps at *
  generalize placeOf db ps = p at *
  generalize dataOf fb db F = d at *
  have hmem : ∀ {c : Cell}, c ∈ (ps.filterMap Piece.use).flatMap (areaCells p d) ↔
      ∃ a, (∃ q ∈ ps, q.use = some a) ∧ c ∈ areaCells p d a := by
    intro c
    rw [List.mem_flatMap]
    simp only [List.mem_filterMap]
  have hin : ∀ c ∈ (ps.filterMap Piece.use).flatMap (areaCells p d), c.1 + width c.2 ≤ junk.length := by
    intro c hc
    obtain ⟨a, ha, hc⟩ := hmem.1 hc
    obtain ⟨_, o, n, h1, h2, h3⟩ := areaCells_in L (uses ha) hc
    have := area_le L h1
    omega
  have hcl : ∀ c ∈ (ps.filterMap Piece.use).flatMap (areaCells p d), ∀ c' ∈ (ps.filterMap Piece.use).flatMap (areaCells p d),
      Clear c c' := by
    intro c hc c' hc'
    obtain ⟨a, ha, hc⟩ := hmem.1 hc
    obtain ⟨b, hb, hc'⟩ := hmem.1 hc'
    by_cases e : a = b
    · subst e
      exact ac a c hc c' hc'
    · obtain ⟨_, o, n, h1, h2, h3⟩ := areaCells_in L (uses ha) hc
      obtain ⟨_, o', n', h4, h5, h6⟩ := areaCells_in L (uses hb) hc'
      right
      rcases L.apart a b e _ _ _ _ h1 h4 with h | h
      · left; omega
      · right; omega
  have hlen : (imageOf start p d ps junk).length = junk.length := length_storeAll start junk _ hin
  refine ⟨by rw [hlen, hj], ?_⟩
  intro c hc
  have hm := hmem.2 (used hc)
  refine holds_of ?_ (sound_cell L N hN hs hc) (storeAll_holds start _ junk hin hcl hm)
  rw [hlen]
  exact hin c hm

end Clr.Image
