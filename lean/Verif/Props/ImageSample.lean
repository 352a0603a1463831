import Verif.Props.Image
/-
C84: an image that meets the conditions of the theorems, and one the exporter refuses to save.
-/
namespace Clr.Image
open Clr Clr.Reloc Clr.Layout
open Clr.Export (K Slot Ref Ptr St Obj)

/-! ## Checking the conditions -/

/-- All areas there can be. -/
def allAreas (d : Data) : List Area := areaList d ++ [.nameText, .attributeText]

/-- All slots there are. -/
def allSlots : List Slot :=
  [.constants, .parameters, .enums, .classes, .methods, .fields, .templates, .namespaces, .types, .functions, .instances,
   .attributes, .bases]

theorem mem_allSlots (s : Slot) : s ∈ allSlots := by cases s <;> decide

/-- All objects. -/
def allRefs (d : Data) : List Ref := Export.kinds.flatMap d.st.all

theorem mem_allRefs {d : Data} {r : Ref} : r ∈ allRefs d ↔ Exists d r := by
  unfold allRefs
  rw [List.mem_flatMap]
  constructor
  · rintro ⟨k, _, h⟩
    obtain ⟨rfl, h⟩ := mem_all.1 h
    exact h
  · intro h
    exact ⟨r.1, mem_kinds _, mem_all.2 ⟨rfl, h⟩⟩

def resolvedObject (d : Data) (o : Obj) : Bool :=
  decide (Resolved d o.parent) && decide (Resolved d o.type) && o.args.all (fun x => decide (Resolved d x)) &&
  decide (Resolved d o.target) && decide (Resolved d o.readIt) && decide (Resolved d o.writeIt) &&
  o.ret.toList.all (fun x => decide (Exists d x)) && o.ctor.toList.all (fun x => decide (Exists d x)) &&
  o.dtor.toList.all (fun x => decide (Exists d x)) && o.ci.toList.all (fun x => decide (Exists d x)) &&
  allSlots.all fun s => (o.kids s).all fun x => decide (Exists d x)

theorem resolvedObject_iff {d : Data} {o : Obj} (h : resolvedObject d o = true) : ResolvedObject d o := by
  unfold resolvedObject at h
  simp only [Bool.and_eq_true, decide_eq_true_eq, List.all_eq_true, Option.mem_toList] at h
  obtain ⟨⟨⟨⟨⟨⟨⟨⟨⟨⟨h1, h2⟩, h3⟩, h4⟩, h5⟩, h6⟩, h7⟩, h8⟩, h9⟩, h10⟩, h11⟩ := h
  exact ⟨h1, h2, h3, h4, h5, h6, h7, h8, h9, h10, fun s x hx => h11 s (mem_allSlots s) x hx⟩

def linked (d : Data) : Bool :=
  (allRefs d).all (fun r => resolvedObject d (d.st.get r)) &&
  allSlots.all (fun s => (d.st.globals s).all fun x => decide (Exists d x)) &&
  d.st.typePrims.all (fun r => decide (r.1 ∈ typeTables ∧ Exists d r)) &&
  (allRefs d).all (fun r => decide (r.1 ∈ typeTables → r ∈ d.st.typePrims)) && decide d.st.typePrims.Nodup

theorem linked_iff {d : Data} (h : linked d = true) : Linked d := by
  unfold linked at h
  simp only [Bool.and_eq_true, decide_eq_true_eq, List.all_eq_true] at h
  obtain ⟨⟨⟨⟨h1, h2⟩, h3⟩, h4⟩, h5⟩ := h
  refine ⟨fun r hr => resolvedObject_iff (h1 r (mem_allRefs.2 hr)), fun s x hx => h2 s (mem_allSlots s) x hx, ?_, h5⟩
  intro r
  exact ⟨h3 r, fun hr => h4 r (mem_allRefs.2 hr.2) hr.1⟩

def areaApart (p : Place) (d : Data) (a b : Area) : Bool :=
  match area p d a, area p d b with
  | some (o, n), some (q, m) => decide (o + n ≤ q ∨ q + m ≤ o)
  | _, _ => true

def laid (p : Place) (d : Data) (size : Nat) : Bool :=
  decide (databaseMem.lay.size ≤ size) &&
  (allAreas d).all (fun a => match area p d a with
    | some (o, n) => decide (a ≠ .header → databaseMem.lay.size ≤ o ∧ o + n ≤ size)
    | none => true) &&
  (allAreas d).all (fun a => (allAreas d).all fun b => decide (a = b) || areaApart p d a b) &&
  d.names.zipIdx.all (fun n => decide (p.nameText ≤ p.nameAt n.2 ∧ p.nameAt n.2 + (n.1.2.length + 1) ≤ p.nameText + p.nameSize)) &&
  (allRefs d).all (fun r => match (d.st.get r).text with
    | some t => match p.textAt r with
      | some o => decide (p.nameText ≤ o ∧ o + (t.length + 1) ≤ p.nameText + p.nameSize)
      | none => false
    | none => decide (p.textAt r = none)) &&
  (allRefs d).all (fun r => decide (r.1 = .textAttr → p.attributeText ≤ p.valueAt r ∧
    p.valueAt r + ((d.text r).length + 1) ≤ p.attributeText + p.attributeSize)) &&
  (allRefs d).all (fun r => (slotsOf r.1).all fun s => decide ((d.st.get r).kids s ≠ [] → p.kids r s ≠ none)) &&
  allSlots.all (fun s => decide (d.st.globals s ≠ [] → p.globals s ≠ none))

theorem area_listed {p : Place} {d : Data} (N : Linked d) {a : Area} {x : Nat × Nat} (h : area p d a = some x) :
    a ∈ allAreas d := by
  unfold allAreas
  rw [List.mem_append]
  cases a with
  | nameText => right; simp
  | attributeText => right; simp
  | globals s =>
    left
    refine (mem_areaList N).2 ?_
    simp only [area] at h
    split at h
    · assumption
    · cases h
  | kids r s =>
    left
    refine (mem_areaList N).2 ?_
    simp only [area] at h
    split at h
    · assumption
    · cases h
  | _ => exact .inl ((mem_areaList N).2 trivial)

theorem laid_iff {p : Place} {d : Data} {size : Nat} (N : Linked d) (h : laid p d size = true) : Laid p d size := by
  unfold laid at h
  simp only [Bool.and_eq_true, decide_eq_true_eq, List.all_eq_true, Bool.or_eq_true] at h
  obtain ⟨⟨⟨⟨⟨⟨⟨h1, h2⟩, h3⟩, h4⟩, h5⟩, h6⟩, h7⟩, h8⟩ := h
  refine ⟨h1, ?_, ?_, ?_, ?_, ?_, ?_, ?_, ?_⟩
  · intro a o n ha hne
    have := h2 a (area_listed N ha)
    rw [ha] at this
    simp only [decide_eq_true_eq] at this
    exact this hne
  · intro a b hne o n q m ha hb
    rcases h3 a (area_listed N ha) b (area_listed N hb) with h | h
    · exact absurd h hne
    · unfold areaApart at h
      rw [ha, hb] at h
      simpa using h
  · intro i h t hn
    exact h4 ((h, t), i) (by rw [List.mem_zipIdx_iff_getElem?]; exact hn)
  · intro r hr t ht
    have := h5 r (mem_allRefs.2 hr)
    rw [ht] at this
    simp only [] at this
    cases ho : p.textAt r with
    | none => rw [ho] at this; cases this
    | some o =>
      rw [ho] at this
      simp only [decide_eq_true_eq] at this
      exact ⟨o, rfl, this⟩
  · intro r hr ht
    have := h5 r (mem_allRefs.2 hr)
    rw [ht] at this
    simpa using this
  · intro r hk hr
    exact h6 r (mem_allRefs.2 hr) hk
  · intro r s hr hs
    exact h7 r (mem_allRefs.2 hr) s hs
  · intro s _
    exact h8 s (mem_allSlots s)

/-! ## The sample -/

/-- Writing a value into memory at `base`. -/
def put (base : Nat) (img : Bytes) (c : Cell) : Bytes :=
  let bs : Bytes := match c.2 with
    | .num w v => le w v
    | .ptr none => le 8 0
    | .ptr (some d) => le 8 (base + d)
    | .raw n => le 8 n
    | .bytes bs => bs
  img.take c.1 ++ bs ++ img.drop (c.1 + bs.length)

/-- `namespace g { class D { int x; int F(); }; }`, `D` with the attribute `note="hello"`. -/
def sampleObjects : Ref → Obj
  | (.type, 0) => { hash := 30, text := some b!"int" }
  | (.cls, 0) => { hash := 20, text := some b!"g::D", parent := .obj (.space, 0), kids := fun
      | .fields => [(.field, 0)]
      | .methods => [(.function, 0)]
      | .attributes => [(.textAttr, 0)]
      | _ => [] }
  | (.field, 0) => { hash := 40, text := some b!"x", parent := .obj (.cls, 0), type := .obj (.type, 0) }
  | (.function, 0) => { hash := 50, text := some b!"g::D::F", parent := .obj (.cls, 0), uid := 7 }
  | (.space, 0) => { hash := 10, text := some b!"g", kids := fun
      | .classes => [(.cls, 0)]
      | _ => [] }
  | (.textAttr, 0) => { hash := 60, text := some b!"note", parent := .obj (.cls, 0) }
  | _ => {}

def sampleSt : St :=
  { count := fun k => if k ∈ [K.type, .cls, .field, .function, .space, .textAttr] then 1 else 0
    get := sampleObjects
    names := [10, 20, 30, 40, 50, 60]
    typePrims := [(.cls, 0), (.type, 0)]
    globals := fun
      | .namespaces => [(.space, 0)]
      | .types => [(.type, 0)]
      | _ => [] }

def sampleData : Data :=
  { st := sampleSt
    functionBase := 0x400000
    names := [(10, b!"g"), (20, b!"g::D"), (30, b!"int"), (40, b!"x"), (50, b!"g::D::F"), (60, b!"note")]
    scalar := fun r s => match r, s with
      | (.type, 0), .size => 4
      | (.cls, 0), .size => 4
      | (.function, 0), .address => 0x400123
      | _, _ => 0
    text := fun _ => b!"hello" }

def samplePlace : Place :=
  { table := fun
      | .type => 712
      | .cls => 792
      | .field => 1040
      | .function => 1144
      | .space => 1264
      | .textAttr => 1448
      | _ => 1592
    names := 616
    nameText := 1560
    nameSize := 26
    attributeText := 1586
    attributeSize := 6
    nameAt := fun i => [1560, 1562, 1567, 1571, 1573, 1581].getD i 0
    textAt := fun
      | (.space, 0) => some 1560
      | (.cls, 0) => some 1562
      | (.type, 0) => some 1567
      | (.field, 0) => some 1571
      | (.function, 0) => some 1573
      | (.textAttr, 0) => some 1581
      | _ => none
    valueAt := fun _ => 1586
    kids := fun r s => match r, s with
      | (.cls, 0), .fields => some 1528
      | (.cls, 0), .methods => some 1536
      | (.cls, 0), .attributes => some 1544
      | (.space, 0), .classes => some 1552
      | _, _ => none
    typePrims := 1496
    globals := fun
      | .namespaces => some 1512
      | .types => some 1520
      | _ => none }

/-- The image, the memory between the objects holding arbitrary bytes. -/
def sampleImage : Bytes := (cells samplePlace sampleData 0).foldl (put 0x10000) (List.replicate 1592 0xCD)

theorem sample_length : sampleImage.length = 1592 := by decide +kernel

theorem sample_linked : Linked sampleData := linked_iff (by decide +kernel)

theorem sample_laid : Laid samplePlace sampleData sampleImage.length := by
  rw [sample_length]
  exact laid_iff sample_linked (by decide +kernel)

theorem sample_represents : Represents samplePlace sampleData 0 0x10000 sampleImage := by decide +kernel

/-- The image can be saved and loaded anywhere. -/
theorem sample_loads : ∃ file, saveExport (fun _ => [1, 2, 3, 4]) 0x10000 sampleImage = .ok file ∧
    ∃ out, load 0x7f0000000000 0x7f1100000000 0xdb0 false file = .ok (some out) ∧ out.length = 1592 ∧
      Represents samplePlace (sampleData.readdress (moved 0x400000 0x7f1100000000)) 0xdb0 0x7f0000000000 out := by
  obtain ⟨file, h1, h2⟩ := C84_loaded (fun _ => [1, 2, 3, 4]) (fun _ => rfl) 0x10000 sampleImage
    (by rw [sample_length]; decide) (by rw [sample_length]; decide) samplePlace sampleData sample_laid sample_linked
    sample_represents
  obtain ⟨out, h3, h4, h5⟩ := h2 0x7f0000000000 0x7f1100000000 0xdb0 false (by rw [sample_length]; decide) (by decide)
  exact ⟨file, h1, out, h3, by rw [h4, sample_length], h5⟩

/-- The function of the sample is found at its address in the loaded module. -/
example : (sampleData.readdress (moved 0x400000 0x7f1100000000)).scalar (.function, 0) .address = 0x7f1100000123 := by
  decide +kernel

/-- Looking up the class, and its field and method, in the memory of the sample. -/
example : getType 0x10000 sampleImage 20 = .ok (0x10000 + 792) ∧ getType 0x10000 sampleImage 21 = .ok 0 ∧
    findPrimitive 0x10000 sampleImage (0x10000 + 792 + offsetOf cls b!"fields") 40 = .ok (0x10000 + 1040) ∧
    getEntry 0x10000 sampleImage .function 50 = .ok (0x10000 + 1144) ∧
    getName 0x10000 sampleImage 50 = .ok (50, 0x10000 + 1573) ∧
    readText 0x10000 sampleImage (0x10000 + 1573) = .ok b!"g::D::F" := by decide +kernel

example : sampleData.st.typePrims.Pairwise (fun a b => (sampleData.st.get a).hash ≤ (sampleData.st.get b).hash) ∧
    ((sampleData.st.get (.cls, 0)).kids .fields).Pairwise
      (fun a b => (sampleData.st.get a).hash ≤ (sampleData.st.get b).hash) ∧
    sampleData.names.Pairwise (fun a b => a.1 ≤ b.1) := by decide +kernel

/-! ## A pointer that was never resolved -/

/-- The same with a field whose type is still a hash. -/
def looseImage : Bytes := put 0x10000 sampleImage (1040 + offsetOf field b!"type", .raw 30)

/-- C84 needs resolved pointers: with a single hash left in a pointer the exporter stops at an assertion. -/
theorem C84_unresolved_stops : saveExport (fun _ => [1, 2, 3, 4]) 0x10000 looseImage = .trap := by decide +kernel

end Clr.Image
