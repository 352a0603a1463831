import Verif.Proofs.ImageRead
import Verif.Props.Search
/-
C84 The loaded database is the exported one, byte for byte.

`Represents p d database base img` (Verif/Model/Image.lean) says that the memory `img` at address `base` holds the database
`d`: every member of every object is at its place in the structs of inc/clcpp/clcpp.h, every pointer is null or the address
of what it points to. `p` tells where the objects are. `Laid` and `Linked` (Verif/Model/ImageSpec.lean) say that the pieces
of memory do not overlap and that all pointers lead to existing objects.
-/
namespace Clr.Image
open Clr Clr.Reloc Clr.Layout
open Clr.Export (K Slot Ref Ptr St)

/-! ## Saving and loading -/

theorem length_block (d : Data) (k : K) (ss : List Slot) :
    ((d.st.all k).flatMap fun r => ss.map fun s => Area.kids r s).length = d.st.count k * ss.length := by
  have hl : (d.st.all k).length = d.st.count k := by unfold Export.St.all; simp
  rw [← hl]
  generalize d.st.all k = l
  induction l with
  | nil => simp
  | cons r l ih => rw [List.flatMap_cons, List.length_append, ih, List.length_map, List.length_cons, Nat.succ_mul]; omega

theorem length_areaList {p : Place} {d : Data} {size : Nat} (L : Laid p d size) (small : size < 2 ^ 32) :
    (areaList d).length < 2 ^ 31 := by
  unfold areaList
  rw [List.length_cons, List.length_append, List.length_append, List.length_append]
  have h1 : mainAreas.length = 17 := by decide
  have h2 : globalAreas.length = 6 := by decide
  have h3 : (baseAreas d).length = d.st.typePrims.length := by unfold baseAreas; rw [List.length_map]
  have h4 := (L.behind .typePrims _ _ rfl (by simp)).2
  have h5 : (nestedAreas d).length = d.st.count .enum * 2 + (d.st.count .field * 1 + (d.st.count .function * 2 +
      (d.st.count .cls * 6 + (d.st.count .template * 1 + d.st.count .space * 6)))) := by
    unfold nestedAreas nestedSlots
    simp only [List.flatMap_cons, List.flatMap_nil, List.append_nil, List.length_append, length_block, List.length_cons,
      List.length_nil]
  have e1 := (table_le L .enum).2
  have e2 := (table_le L .field).2
  have e3 := (table_le L .function).2
  have e4 := (table_le L .cls).2
  have e5 := (table_le L .template).2
  have e6 := (table_le L .space).2
  rw [stride_enum] at e1
  rw [stride_field] at e2
  rw [stride_function] at e3
  rw [stride_cls] at e4
  rw [stride_template] at e5
  rw [stride_space] at e6
  rw [h1, h2, h3, h5]
  omega

theorem function_base {p : Place} {d : Data} {db base : Nat} {img : Bytes} (R : Represents p d db base img) :
    num img 0 8 = d.functionBase := by
  have := rep_header R (offsetOf databaseMem b!"function_base_address", .num 8 d.functionBase) (by
    unfold headerCells; simp)
  rw [off_databaseMem_function_base_address] at this
  exact this.2

/-- C84: an image of any database, built at any address, can be saved, and loading the file at any address gives memory
that holds the same database: the same objects with the same members, linked to each other as before, every primitive
with the address of its database, and the functions at their addresses in the module as it is loaded. The contents of
padding and of freshly allocated memory do not matter. -/
theorem C84_loaded (pad : Nat → Bytes) (hp : ∀ i, (pad i).length = 4) (start : Nat) (img : Bytes)
    (hs : 0 < start ∧ start + img.length < W64) (small : img.length < 2 ^ 32) (p : Place) (d : Data)
    (L : Laid p d img.length) (N : Linked d) (R : Represents p d 0 start img) :
    ∃ file, saveExport pad start img = .ok file ∧
      ∀ base loadAddr database dont, base + img.length < W64 → database < W64 →
        ∃ out, load base loadAddr database dont file = .ok (some out) ∧ out.length = img.length ∧
          Represents p (d.readdress (if dont then id else moved d.functionBase loadAddr)) database base out := by
  have E := exported hs small (length_areaList L small) L N R
  obtain ⟨rel, file, h1, h2, h3⟩ := C14_relocation_partial pad hp start schemas (relsOf p d) img E (by
    intro s hs' hw
    rcases slot_value L N R hs' with h | ⟨t, h, h1, h2⟩
    · rw [hw] at h; injection h with h; omega
    · rw [hw] at h; injection h with h; omega)
  refine ⟨file, ?_, ?_⟩
  · unfold saveExport
    rw [register_eq hs L N R, Res.bind, h1, Res.bind, h2]
  · intro base loadAddr database dont hb hdb
    obtain ⟨mid, h4, h5⟩ := h3 base hb
    have R2 := relocated_represents L N h5 R
    have hl : mid.length = img.length := h5.size
    have L2 : Laid p d mid.length := by rw [hl]; exact L
    have hb2 : base + mid.length < W64 := by rw [hl]; exact hb
    obtain ⟨out, h6, h7⟩ := load_bound (loadAddr := loadAddr) hdb h4 (placed L2 R2 hb2) dont
    refine ⟨out, h6, by rw [h7.size, hl], ?_⟩
    have := bound_represents L2 R2 hb2 h7
    rw [function_base R2] at this
    exact this

/-! ## Looking things up in memory -/

/-- C84: looking up a type by name in memory reads nothing outside the database, ends, and gives the address of a type of
that name if there is one, null otherwise. -/
theorem C84_type_lookup (p : Place) (d : Data) (db base : Nat) (img : Bytes) (L : Laid p d img.length) (N : Linked d)
    (R : Represents p d db base img) (size : d.st.typePrims.length ≤ 2 ^ 30)
    (sorted : d.st.typePrims.Pairwise fun a b => (d.st.get a).hash ≤ (d.st.get b).hash) (n : UInt32) :
    ∃ a, getType base img n = .ok a ∧ (a ≠ 0 → ∃ r ∈ d.st.typePrims, (d.st.get r).hash = n ∧ a = base + p.at r) ∧
      (a = 0 ↔ ∀ r ∈ d.st.typePrims, (d.st.get r).hash ≠ n) := by
  obtain ⟨o, h1, h2, h3⟩ := Search.C01_lookup_exact d.st.typePrims (fun r => (d.st.get r).hash) n size sorted
  rw [getType_eq N R, h1, Res.bind]
  cases o with
  | none => exact ⟨0, rfl, by simp, by simpa using h3⟩
  | some r =>
    obtain ⟨h4, h5⟩ := h2 r rfl
    have := (at_le L ((N.types r).1 h4).2).1
    refine ⟨base + p.at r, rfl, fun _ => ⟨r, h4, h5, rfl⟩, ?_⟩
    constructor
    · intro h; omega
    · intro h; exact absurd h5 (h r h4)

/-- C84: looking up a child in any array of any object in memory. -/
theorem C84_child_lookup (p : Place) (d : Data) (db base : Nat) (img : Bytes) (L : Laid p d img.length) (N : Linked d)
    (R : Represents p d db base img) (r : Ref) (hr : Exists d r) (s : Slot) (hs : s ∈ slotsOf r.1)
    (prims : ∀ x ∈ (d.st.get r).kids s, x.1 ≠ .container) (size : ((d.st.get r).kids s).length ≤ 2 ^ 30)
    (sorted : ((d.st.get r).kids s).Pairwise fun a b => (d.st.get a).hash ≤ (d.st.get b).hash) (n : UInt32) :
    ∃ a, findPrimitive base img (base + (p.at r + offsetOf (structOf r.1) (slotName s))) n = .ok a ∧
      (a ≠ 0 → ∃ x ∈ (d.st.get r).kids s, (d.st.get x).hash = n ∧ a = base + p.at x) ∧
      (a = 0 ↔ ∀ x ∈ (d.st.get r).kids s, (d.st.get x).hash ≠ n) := by
  obtain ⟨o, h1, h2, h3⟩ := Search.C01_lookup_exact ((d.st.get r).kids s) (fun r => (d.st.get r).hash) n size sorted
  rw [findKids_eq L N R hr hs prims, h1, Res.bind]
  cases o with
  | none => exact ⟨0, rfl, by simp, by simpa using h3⟩
  | some x =>
    obtain ⟨h4, h5⟩ := h2 x rfl
    have := (at_le L ((N.objects r hr).kids s x h4)).1
    refine ⟨base + p.at x, rfl, fun _ => ⟨x, h4, h5, rfl⟩, ?_⟩
    constructor
    · intro h; omega
    · intro h; exact absurd h5 (h x h4)

/-- C84: looking up a namespace, template or function in its table in memory. -/
theorem C84_entry_lookup (p : Place) (d : Data) (db base : Nat) (img : Bytes) (L : Laid p d img.length)
    (R : Represents p d db base img) (k : K) (hk : k ∈ [K.space, .template, .function]) (size : d.st.count k ≤ 2 ^ 30)
    (sorted : ∀ i j, i < j → j < d.st.count k → (d.st.get (k, i)).hash ≤ (d.st.get (k, j)).hash) (n : UInt32) :
    ∃ a, getEntry base img k n = .ok a ∧ (a ≠ 0 → ∃ i < d.st.count k, (d.st.get (k, i)).hash = n ∧ a = base + p.at (k, i)) ∧
      (a = 0 ↔ ∀ i < d.st.count k, (d.st.get (k, i)).hash ≠ n) := by
  have hl : (d.st.all k).length = d.st.count k := by unfold Export.St.all; simp
  have hm : ∀ r, r ∈ d.st.all k ↔ ∃ i < d.st.count k, r = (k, i) := by
    intro r
    rw [mem_all]
    constructor
    · rintro ⟨h1, h2⟩
      exact ⟨r.2, h2, by rw [← h1]⟩
    · rintro ⟨i, hi, rfl⟩
      exact ⟨rfl, hi⟩
  have hs : (d.st.all k).Pairwise fun a b => (d.st.get a).hash ≤ (d.st.get b).hash := by
    unfold Export.St.all
    rw [List.pairwise_map]
    refine List.Pairwise.imp_of_mem ?_ (List.pairwise_lt_range (n := d.st.count k))
    intro i j hi hj hlt
    exact sorted i j hlt (List.mem_range.1 hj)
  have hc : k ≠ .container := by
    intro e
    rw [e] at hk
    revert hk
    decide
  obtain ⟨o, h1, h2, h3⟩ := Search.C01_lookup_exact (d.st.all k) (fun r => (d.st.get r).hash) n (by omega) hs
  rw [getEntry_eq R hc, h1, Res.bind]
  cases o with
  | none =>
    refine ⟨0, rfl, by simp, ?_⟩
    simp only [true_iff]
    intro i hi
    exact (h3.1 rfl) _ ((hm _).2 ⟨i, hi, rfl⟩)
  | some x =>
    obtain ⟨h4, h5⟩ := h2 x rfl
    obtain ⟨i, hi, rfl⟩ := (hm x).1 h4
    have := (at_le L (r := (k, i)) hi).1
    refine ⟨base + p.at (k, i), rfl, fun _ => ⟨i, hi, h5, rfl⟩, ?_⟩
    constructor
    · intro h; omega
    · intro h; exact absurd h5 (h i hi)

/-- C84: looking up a name in memory gives its text. -/
theorem C84_name_lookup (p : Place) (d : Data) (db base : Nat) (img : Bytes) (R : Represents p d db base img)
    (size : d.names.length ≤ 2 ^ 30) (sorted : d.names.Pairwise fun a b => a.1 ≤ b.1) (n : UInt32) :
    (∃ a t, (n, t) ∈ d.names ∧ getName base img n = .ok (n.toNat, a) ∧ (0 ∉ t → readText base img a = .ok t)) ∨
    ((∀ t, (n, t) ∉ d.names) ∧ getName base img n = .ok (0, 0)) := by
  have hs : d.names.zipIdx.Pairwise fun a b => a.1.1 ≤ b.1.1 := by
    have : (d.names.zipIdx.map (·.1)).Pairwise fun a b => a.1 ≤ b.1 := by
      rw [List.zipIdx_map_fst]; exact sorted
    rw [List.pairwise_map] at this
    exact this
  obtain ⟨o, h1, h2, h3⟩ := Search.C01_lookup_exact d.names.zipIdx (fun e => e.1.1) n (by rw [List.length_zipIdx]; exact size) hs
  rw [getName_eq R, h1, Res.bind]
  cases o with
  | none =>
    right
    refine ⟨?_, rfl⟩
    intro t ht
    obtain ⟨i, hi, e⟩ := List.getElem_of_mem ht
    refine (h3.1 rfl) ((n, t), i) ?_ rfl
    rw [List.mem_zipIdx_iff_getElem?, List.getElem?_eq_getElem hi, e]
  | some e =>
    left
    obtain ⟨⟨m, t⟩, i⟩ := e
    obtain ⟨h4, h5⟩ := h2 _ rfl
    simp only at h5
    subst h5
    have hm := h4
    rw [List.mem_zipIdx_iff_getElem?] at h4
    refine ⟨base + p.nameAt i, t, List.mem_of_getElem? h4, rfl, ?_⟩
    intro ht
    refine readText_eq (R _ ?_) ht
    unfold cells texts
    simp only [List.mem_append]
    exact .inr (.inl (.inl (List.mem_map.2 ⟨_, hm, rfl⟩)))

/-- C84: the name of an object can be read through its pointer. -/
theorem C84_object_name (p : Place) (d : Data) (db base : Nat) (img : Bytes) (L : Laid p d img.length)
    (R : Represents p d db base img) (r : Ref) (hr : Exists d r) (hk : r.1 ≠ .container) (t : Bytes)
    (ht : (d.st.get r).text = some t) (h0 : 0 ∉ t) :
    ∃ a, read base img (base + (p.at r + (offsetOf primitive b!"name" + offsetOf name b!"text"))) 8 = .ok a ∧
      readText base img a = .ok t := by
  obtain ⟨o, h1, h2, h3⟩ := L.texts r hr t ht
  have hc : (offsetOf primitive b!"name" + offsetOf name b!"text", .ptr (some o)) ∈ objectCells p d db r := by
    obtain ⟨k, i⟩ := r
    cases k <;> simp [objectCells, typeCells, primCells, nameCells, h1] at hk ⊢
  refine ⟨base + o, read_ptr (rep_object R hr _ hc), readText_eq (R _ ?_) h0⟩
  unfold cells texts
  simp only [List.mem_append]
  refine .inr (.inl (.inr (List.mem_flatMap.2 ⟨r.1, mem_kinds _, List.mem_flatMap.2 ⟨r, mem_all.2 ⟨rfl, hr⟩, ?_⟩⟩)))
  unfold objectText
  rw [h1, ht]
  simp

end Clr.Image
