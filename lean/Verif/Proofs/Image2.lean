import Verif.Proofs.Image
/-
Lemmas for C84: the relocation instructions registered for an image that holds a database.
-/
namespace Clr.Image
open Clr Clr.Reloc Clr.Layout
open Clr.Export (K Slot Ref Ptr St)

theorem mem_kinds (k : K) : k ∈ Export.kinds := by cases k <;> decide

theorem mem_all {st : St} {k : K} {r : Ref} : r ∈ st.all k ↔ r.1 = k ∧ r.2 < st.count k := by
  unfold Export.St.all
  rw [List.mem_map]
  constructor
  · rintro ⟨i, hi, rfl⟩; exact ⟨rfl, List.mem_range.1 hi⟩
  · rintro ⟨rfl, h⟩; exact ⟨r.2, List.mem_range.2 h, rfl⟩

/-! ## Parts of `Represents` -/

section
variable {p : Place} {d : Data} {db base : Nat} {img : Bytes} (R : Represents p d db base img)
include R

theorem rep_header : ∀ c ∈ headerCells p d, Holds base img c := by
  intro c hc
  apply R
  unfold cells
  simp only [List.mem_append]
  exact .inl (.inl (.inl (.inl hc)))

theorem rep_object {r : Ref} (hr : Exists d r) : ∀ c ∈ objectCells p d db r, Holds base img (p.at r + c.1, c.2) := by
  intro c hc
  apply R
  unfold cells
  simp only [List.mem_append]
  refine .inl (.inl (.inr ?_))
  unfold objects
  rw [List.mem_flatMap]
  refine ⟨r.1, mem_kinds _, ?_⟩
  rw [List.mem_flatMap]
  exact ⟨r, mem_all.2 ⟨rfl, hr⟩, List.mem_map_of_mem hc⟩

theorem rep_array {cs : List Cell} (hcs : ∀ c ∈ cs, c ∈ pointerArrays p d) : ∀ c ∈ cs, Holds base img c := by
  intro c hc
  apply R
  unfold cells
  simp only [List.mem_append]
  exact .inl (.inr (hcs c hc))

theorem rep_types {j : Nat} {r : Ref} (h : d.st.typePrims[j]? = some r) :
    word img (p.typePrims + j * 8) = some (base + p.at r) := by
  have := rep_array R (cs := entryCells p p.typePrims d.st.typePrims)
    (fun c hc => by unfold pointerArrays; simp only [List.mem_append]; exact .inl (.inl hc))
    (p.typePrims + j * 8, .ptr (some (p.at r))) (by
      unfold entryCells
      rw [List.mem_map]
      refine ⟨(r, j), ?_, rfl⟩
      rw [List.mem_zipIdx_iff_getElem?]
      exact h)
  exact this

end

/-! ## The areas in the order they are registered -/

def mainTables : List K :=
  [.type, .constant, .enum, .field, .function, .cls, .instance, .template, .space, .flagAttr, .intAttr, .floatAttr,
    .primAttr, .textAttr]

def nestedSlots : List (K × List Slot) :=
  [(.enum, [.constants, .attributes]), (.field, [.attributes]), (.function, [.parameters, .attributes]),
   (.cls, [.enums, .classes, .methods, .fields, .attributes, .templates]), (.template, [.instances]),
   (.space, [.namespaces, .types, .enums, .classes, .functions, .templates])]

theorem nested_eq : nested = nestedSlots.map (fun t => (t.1, t.2.map slotName)) := rfl

def mainAreas : List Area := .names :: mainTables.map .table ++ [.typePrims, .table .container]

def nestedAreas (d : Data) : List Area :=
  nestedSlots.flatMap fun t => (d.st.all t.1).flatMap fun r => t.2.map fun s => .kids r s

def globalAreas : List Area := spaceMembers.map fun m => .globals m.1

def baseAreas (d : Data) : List Area := d.st.typePrims.map fun r => .kids r .bases

def areaList (d : Data) : List Area := .header :: (mainAreas ++ (nestedAreas d ++ (globalAreas ++ baseAreas d)))

/-- The relocation instruction for an area. -/
def blockOf (p : Place) (d : Data) : Area → Option Rel
  | .header => some ⟨0, 0, 1⟩
  | .names => some ⟨1, p.names, d.names.length⟩
  | .table k => some ⟨handleOf k, p.table k, d.st.count k⟩
  | .typePrims => some ⟨ptrHandle, p.typePrims, d.st.typePrims.length⟩
  | .globals s => (p.globals s).map fun o => ⟨ptrHandle, o, (d.st.globals s).length⟩
  | .kids r s => (p.kids r s).map fun o => ⟨ptrHandle, o, ((d.st.get r).kids s).length⟩
  | .nameText => none
  | .attributeText => none

def relsOf (p : Place) (d : Data) : List Rel := (areaList d).flatMap fun a => (blockOf p d a).toList

/-- Where the header of an array of `DatabaseMem` is, with the schema for its entries. -/
def headerOf : Area → Nat × Nat
  | .names => (1, offsetOf databaseMem b!"names")
  | .table k => (handleOf k, offsetOf databaseMem (tableMember k))
  | .typePrims => (ptrHandle, offsetOf databaseMem b!"type_primitives")
  | .globals s => (ptrHandle, globalArray (slotName s))
  | _ => (0, 0)

theorem mainArrays_eq : mainArrays = mainAreas.map headerOf := rfl

theorem globalArrays_eq : globalArrays = globalAreas.map headerOf := rfl

theorem loop_collect {α β} {f : List β → α → Res (List β)} {g : α → List β} {l : List α}
    (h : ∀ a ∈ l, ∀ rels, f rels a = .ok (rels ++ g a)) (rels : List β) :
    loop f l rels = .ok (rels ++ l.flatMap g) := by
  induction l generalizing rels with
  | nil => simp [loop]
  | cons a l ih =>
    rw [loop, h a (List.mem_cons_self ..), Res.bind, ih (fun b hb => h b (List.mem_cons_of_mem _ hb))]
    simp [List.append_assoc]

theorem range_flatMap {α β} (l : List α) (g : α → List β) :
    (List.range l.length).flatMap (fun i => (l[i]?).elim [] g) = l.flatMap g := by
  induction l with
  | nil => rfl
  | cons a l ih =>
    rw [List.length_cons, List.range_succ_eq_map, List.flatMap_cons, List.flatMap_map, List.flatMap_cons]
    simp only [List.getElem?_cons_zero, List.getElem?_cons_succ, Option.elim_some]
    rw [ih]

theorem shift_array (a o n : Nat) (t : Option Nat) : shift a (arrayCells o n t) = arrayCells (a + o) n t := by
  simp [shift, arrayCells, Nat.add_assoc]

theorem addArray_ok {start : Nat} {img : Bytes} {h o n : Nat} {t : Option Nat}
    (hs : 0 < start ∧ start + img.length < W64) (ht : ∀ x ∈ t, x ≤ img.length)
    (hc : ∀ c ∈ arrayCells o n t, Holds start img c) (rels : List Rel) :
    addArray start img rels (h, o) = .ok (rels ++ (t.map fun x => (⟨h, x, n⟩ : Rel)).toList) := by
  have h1 := hc _ (by unfold arrayCells; exact List.mem_cons_self ..)
  have h2 := hc (o + offsetOf cArray b!"data", .ptr t) (by unfold arrayCells; simp)
  have h3 := hc (o + offsetOf cArray b!"allocator", .num 8 0) (by unfold arrayCells; simp)
  simp only [Holds, off_cArray_size, off_cArray_allocator, Nat.add_zero] at h1 h3
  unfold addArray arraySize
  simp only []
  rw [if_pos (by omega), Res.bind, h1.2]
  cases t with
  | none =>
    simp only [Holds] at h2
    rw [h2]
    simp [addPointers]
  | some x =>
    simp only [Holds] at h2
    rw [h2]
    have := ht x rfl
    have hW : W64 = 18446744073709551616 := rfl
    unfold addPointers
    simp only [Option.map_some, Option.toList_some]
    rw [if_neg (by omega), show (start + x + W64 - start) % W64 = x by
      rw [show start + x + W64 - start = x + W64 by omega, Nat.add_mod_right]; exact Nat.mod_eq_of_lt (by omega)]

/-! ## Bounds -/

theorem stride_pos (k : K) : 40 ≤ stride k := by cases k <;> decide +kernel

section
variable {p : Place} {d : Data} {size : Nat} (L : Laid p d size)
include L

theorem table_le (k : K) : 616 ≤ p.table k ∧ p.table k + d.st.count k * stride k ≤ size := by
  have := L.behind (.table k) _ _ rfl (by simp)
  rwa [size_databaseMem] at this

theorem at_le {r : Ref} (hr : Exists d r) : 616 ≤ p.at r ∧ p.at r + stride r.1 ≤ size := by
  have h := table_le L r.1
  unfold Exists at hr
  unfold Place.at
  have := Nat.mul_le_mul_right (stride r.1) (show r.2 + 1 ≤ d.st.count r.1 from hr)
  rw [Nat.succ_mul] at this
  omega

theorem kids_le {r : Ref} {s : Slot} (hr : Exists d r) (hs : s ∈ slotsOf r.1) {o : Nat} (ho : p.kids r s = some o) :
    616 ≤ o ∧ o + ((d.st.get r).kids s).length * 8 ≤ size := by
  have := L.behind (.kids r s) o (((d.st.get r).kids s).length * 8) (by simp [area, hr, hs, ho]) (by simp)
  rwa [size_databaseMem] at this

theorem globals_le {s : Slot} (hs : s ∈ spaceMembers.map (·.1)) {o : Nat} (ho : p.globals s = some o) :
    616 ≤ o ∧ o + (d.st.globals s).length * 8 ≤ size := by
  have := L.behind (.globals s) o ((d.st.globals s).length * 8) (by simp only [area]; rw [if_pos hs, ho]; rfl) (by simp)
  rwa [size_databaseMem] at this

end

theorem header_table (p : Place) (d : Data) (k : K) :
    ∀ c ∈ arrayCells (offsetOf databaseMem (tableMember k)) (d.st.count k) (some (p.table k)), c ∈ headerCells p d := by
  intro c hc
  unfold headerCells
  simp only [List.mem_append]
  exact .inl (.inl (.inr (List.mem_flatMap.2 ⟨k, mem_kinds k, hc⟩)))

theorem header_names (p : Place) (d : Data) :
    ∀ c ∈ arrayCells (offsetOf databaseMem b!"names") d.names.length (some p.names), c ∈ headerCells p d := by
  intro c hc
  unfold headerCells
  simp only [List.mem_append]
  exact .inl (.inl (.inl (.inr hc)))

theorem header_types (p : Place) (d : Data) :
    ∀ c ∈ arrayCells (offsetOf databaseMem b!"type_primitives") d.st.typePrims.length (some p.typePrims), c ∈ headerCells p d := by
  intro c hc
  unfold headerCells
  simp only [List.mem_append]
  exact .inl (.inr hc)

theorem header_globals (p : Place) (d : Data) {s : Slot} (hs : s ∈ spaceMembers.map (·.1)) :
    ∀ c ∈ arrayCells (globalArray (slotName s)) (d.st.globals s).length (p.globals s), c ∈ headerCells p d := by
  intro c hc
  unfold headerCells
  simp only [List.mem_append]
  refine .inr ?_
  rw [List.mem_map] at hs
  obtain ⟨m, hm, rfl⟩ := hs
  rw [List.mem_flatMap]
  refine ⟨m, hm, ?_⟩
  have : slotName m.1 = m.2 := by
    simp only [spaceMembers, List.mem_cons, List.not_mem_nil, or_false] at hm
    rcases hm with rfl | rfl | rfl | rfl | rfl | rfl <;> rfl
  rw [← this]; exact hc

theorem nested_ok : ∀ t ∈ nestedSlots, ∀ s ∈ t.2, s ∈ slotsOf t.1 ∧ s ≠ .bases := by decide

theorem header_array {start : Nat} {img : Bytes} {p : Place} {d : Data} (R : Represents p d 0 start img)
    (o n t : Nat) (hc : ∀ c ∈ arrayCells o n (some t), c ∈ headerCells p d) :
    arraySize img o = .ok n ∧ word img (o + offsetOf cArray b!"data") = some (start + t) := by
  have h0 : ∀ c ∈ arrayCells o n (some t), Holds start img c := fun c h => rep_header R c (hc c h)
  have h1 := h0 _ (by unfold arrayCells; exact List.mem_cons_self ..)
  have h2 := h0 (o + offsetOf cArray b!"data", .ptr (some t)) (by unfold arrayCells; simp)
  have h3 := h0 (o + offsetOf cArray b!"allocator", .num 8 0) (by unfold arrayCells; simp)
  simp only [Holds, off_cArray_size, off_cArray_allocator, Nat.add_zero] at h1 h3
  refine ⟨?_, h2⟩
  unfold arraySize
  rw [if_pos (by omega), h1.2]

/-- What is registered for an image that holds a database: an instruction for every area that is allocated. -/
theorem register_eq {start : Nat} {img : Bytes} {p : Place} {d : Data} (hs : 0 < start ∧ start + img.length < W64)
    (L : Laid p d img.length) (N : Linked d) (R : Represents p d 0 start img) :
    register start img = .ok (relsOf p d) := by
  have hmain : ∀ a ∈ mainAreas, ∀ rels, addArray start img rels (headerOf a) = .ok (rels ++ (blockOf p d a).toList) := by
    intro a ha rels
    simp only [mainAreas, mainTables, List.map_cons, List.map_nil, List.cons_append, List.nil_append, List.mem_cons,
      List.not_mem_nil, or_false] at ha
    have htab : ∀ k, addArray start img rels (headerOf (.table k)) = .ok (rels ++ (blockOf p d (.table k)).toList) := by
      intro k
      refine addArray_ok hs ?_ (fun c hc => rep_header R c (header_table p d k c hc)) rels
      intro x hx
      injection hx with hx
      subst hx
      have := table_le L k
      omega
    have hnam : addArray start img rels (headerOf .names) = .ok (rels ++ (blockOf p d .names).toList) := by
      refine addArray_ok hs ?_ (fun c hc => rep_header R c (header_names p d c hc)) rels
      intro x hx
      injection hx with hx
      subst hx
      have := L.behind .names _ _ rfl (by simp)
      omega
    have htyp : addArray start img rels (headerOf .typePrims) = .ok (rels ++ (blockOf p d .typePrims).toList) := by
      refine addArray_ok hs ?_ (fun c hc => rep_header R c (header_types p d c hc)) rels
      intro x hx
      injection hx with hx
      subst hx
      have := L.behind .typePrims _ _ rfl (by simp)
      omega
    rcases ha with rfl | rfl | rfl | rfl | rfl | rfl | rfl | rfl | rfl | rfl | rfl | rfl | rfl | rfl | rfl | rfl | rfl
    all_goals first | exact hnam | exact htyp | exact htab _
  have hglob : ∀ a ∈ globalAreas, ∀ rels, addArray start img rels (headerOf a) = .ok (rels ++ (blockOf p d a).toList) := by
    intro a ha rels
    obtain ⟨m, hm, rfl⟩ := List.mem_map.1 ha
    have hms : m.1 ∈ spaceMembers.map (·.1) := List.mem_map_of_mem hm
    refine addArray_ok hs ?_ (fun c hc => rep_header R c (header_globals p d hms c hc)) rels
    intro x hx
    have := globals_le L hms hx
    omega
  have hkids : ∀ r s, Exists d r → s ∈ slotsOf r.1 → ∀ rels,
      addArray start img rels (ptrHandle, p.at r + offsetOf (structOf r.1) (slotName s)) =
        .ok (rels ++ (blockOf p d (.kids r s)).toList) := by
    intro r s hr hsl rels
    refine addArray_ok hs ?_ ?_ rels
    · intro x hx
      have := kids_le L hr hsl hx
      omega
    · intro c hc
      rw [← shift_array] at hc
      obtain ⟨c', hc', rfl⟩ := List.mem_map.1 hc
      exact rep_object R hr c' (kids_sub p d 0 r s hsl c' hc')
  have hnest : ∀ t ∈ nestedSlots, ∀ rels, addNested start img rels (t.1, t.2.map slotName) =
      .ok (rels ++ ((d.st.all t.1).flatMap fun r => t.2.map fun s => Area.kids r s).flatMap fun a => (blockOf p d a).toList) := by
    intro t ht rels
    obtain ⟨e1, e2⟩ := header_array R _ _ _ (header_table p d t.1)
    unfold addNested
    simp only []
    rw [e1, Res.bind, e2]
    simp only []
    rw [List.flatMap_assoc, loop_collect (g := fun i => (t.2.map fun s => Area.kids (t.1, i) s).flatMap fun a => (blockOf p d a).toList)]
    · unfold Export.St.all
      rw [List.flatMap_map]
    · intro i hi rels
      rw [loop_map, loop_collect (g := fun s => (blockOf p d (.kids (t.1, i) s)).toList)]
      · rw [List.flatMap_map]
      · intro s hsm rels
        have := hkids (t.1, i) s (List.mem_range.1 hi) (nested_ok t ht s hsm).1 rels
        rw [show start + p.table t.1 - start + i * stride t.1 = p.at (t.1, i) by unfold Place.at; simp only []; omega]
        exact this
  have hbase : ∀ rels, addBases start img rels = .ok (rels ++ (baseAreas d).flatMap fun a => (blockOf p d a).toList) := by
    intro rels
    obtain ⟨e1, e2⟩ := header_array R _ _ _ (header_types p d)
    unfold addBases
    rw [e1, Res.bind, e2]
    simp only []
    rw [loop_collect (g := fun i => (d.st.typePrims[i]?).elim [] fun r => (blockOf p d (.kids r .bases)).toList)]
    · congr 2
      unfold baseAreas
      rw [List.flatMap_map]
      exact range_flatMap d.st.typePrims (fun r => (blockOf p d (.kids r .bases)).toList)
    · intro i hi rels
      have hlt := List.mem_range.1 hi
      have hget : d.st.typePrims[i]? = some d.st.typePrims[i] := List.getElem?_eq_getElem hlt
      rw [show start + p.typePrims - start = p.typePrims by omega, rep_types R hget, hget]
      simp only [Option.elim_some]
      generalize hr0 : d.st.typePrims[i] = r at *
      obtain ⟨hk, hr⟩ := (N.types r).1 (List.mem_of_getElem? hget)
      have hsl : Slot.bases ∈ slotsOf r.1 := by
        simp only [typeTables, List.mem_cons, List.not_mem_nil, or_false] at hk
        rcases hk with h | h | h | h <;> rw [h] <;> decide
      have := hkids r .bases hr hsl rels
      rw [show offsetOf (structOf r.1) (slotName .bases) = offsetOf type b!"base_types" by
        simp only [typeTables, List.mem_cons, List.not_mem_nil, or_false] at hk
        rcases hk with h | h | h | h <;> rw [h] <;> decide +kernel] at this
      rw [show start + p.at r - start = p.at r by omega]
      exact this
  unfold register
  rw [mainArrays_eq, loop_map, loop_collect hmain, Res.bind, nested_eq, loop_map, loop_collect hnest, Res.bind,
    globalArrays_eq, loop_map, loop_collect hglob, Res.bind, hbase]
  unfold relsOf areaList nestedAreas
  simp only [List.flatMap_cons, List.flatMap_append, List.flatMap_assoc, List.append_assoc]
  congr 1
  unfold addPointers
  rw [if_neg (by omega)]
  have hz : (start + W64 - start) % W64 = 0 := by
    rw [show start + W64 - start = W64 by omega]; exact Nat.mod_self _
  rw [hz]
  simp [blockOf]

end Clr.Image
