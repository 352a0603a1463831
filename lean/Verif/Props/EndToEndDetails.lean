import Verif.Props.EndToEnd
/-
C86, continued: base types, parameters, return values, and attributes in memory.
-/
namespace Clr.Tools
open Clr Clr.DB Clr.Args Clr.Merge Clr.Layout Clr.Image
open Clr.Export (K Slot Ref entries entry Ready typeKinds St)
attribute [local irreducible] hashOf

/-! ## Specification -/

/-- At address `o` there is an array of these pointers (`CArray`, inc/clcpp/clcpp.h:183-305). -/
structure PointersRead (base : Nat) (mem : Bytes) (o : Nat) (l : List Nat) : Prop where
  size : read base mem (o + offsetOf cArray b!"size") 4 = .ok l.length
  entry : ∀ (i : Nat) (h : i < l.length), (element base mem o 8 (i : Int)).bind (fun e => read base mem e 8) = .ok l[i]

/-- An attribute in a database. -/
inductive Attr
  | flag (x : FlagAttribute)
  | int (x : IntAttribute)
  | float (x : FloatAttribute)
  | prim (x : PrimitiveAttribute)
  | text (x : TextAttribute)

def Attr.toPrim : Attr → Prim
  | .flag x => x.toPrim
  | .int x => x.toPrim
  | .float x => x.toPrim
  | .prim x => x.toPrim
  | .text x => x.toPrim

def Attr.kind : Attr → K
  | .flag _ => .flagAttr
  | .int _ => .intAttr
  | .float _ => .floatAttr
  | .prim _ => .primAttr
  | .text _ => .textAttr

def Attr.In (d : Database) : Attr → Prop
  | .flag x => x ∈ d.flagAttributes
  | .int x => x ∈ d.intAttributes
  | .float x => x ∈ d.floatAttributes
  | .prim x => x ∈ d.primitiveAttributes
  | .text x => x ∈ d.textAttributes

/-- The same kind, name, parent and value. The two zeros of `float` are the same. -/
def Attr.Same : Attr → Attr → Prop
  | .flag x, .flag y => x.toPrim.equals y.toPrim = true
  | .int x, .int y => x.toPrim.equals y.toPrim = true ∧ x.value = y.value
  | .float x, .float y => x.toPrim.equals y.toPrim = true ∧ (x.bits = y.bits ∨ floatEq x.bits y.bits = true)
  | .prim x, .prim y => x.toPrim.equals y.toPrim = true ∧ x.value.hash = y.value.hash
  | .text x, .text y => x.toPrim.equals y.toPrim = true ∧ x.value = y.value
  | _, _ => False

/-- At address `a` there is this attribute (inc/clcpp/clcpp.h:632-719), of the primitive at address `owner`. -/
structure AttributeAt (base : Nat) (mem : Bytes) (database owner a : Nat) (x : Attr) : Prop where
  prim : PrimitiveAt base mem database a x.kind x.toPrim.name
  parent : read base mem (a + offsetOf primitive b!"parent") 8 = .ok owner
  int : ∀ y, x = .int y → read base mem (a + offsetOf intAttribute b!"value") 4 = .ok y.value.toBitVec.toNat
  float : ∀ y, x = .float y → read base mem (a + offsetOf intAttribute b!"value") 4 = .ok y.bits.toNat
  text : ∀ y, x = .text y → ∃ q, read base mem (a + offsetOf textAttribute b!"value") 8 = .ok q ∧
    (0 ∉ y.value → readText base mem q = .ok y.value)

/-- At address `o` there is the array of the attributes whose parent has this name, of the primitive at address `owner`. -/
def AttributesAt (dbs : List Database) (base : Nat) (mem : Bytes) (database owner o : Nat) (n : UInt32) : Prop :=
  ∃ l, PointersRead base mem o l ∧
    (∀ c ∈ l, ∃ d ∈ dbs, ∃ x : Attr, x.In d ∧ x.toPrim.parent.hash = n ∧ AttributeAt base mem database owner c x) ∧
    ∀ d ∈ dbs, ∀ x : Attr, x.In d → x.toPrim.parent.hash = n →
      ∃ c ∈ l, ∃ d' ∈ dbs, ∃ x' : Attr, x'.In d' ∧ x'.Same x ∧ AttributeAt base mem database owner c x'

/-- The parameter is the return value. -/
def IsReturn (y : Field) : Prop := y.name.hash = hashOf b!"return"

/-- At address `a` there is this function (inc/clcpp/clcpp.h:777-806) with its parameters, its return value and its attributes. -/
structure FunctionAt (dbs : List Database) (base : Nat) (mem : Bytes) (database a : Nat) (x : Function) : Prop where
  prim : PrimitiveAt base mem database a .function x.name
  uniqueId : read base mem (a + offsetOf function b!"unique_id") 4 = .ok x.uniqueId.toNat
  parameters : ∃ l, PointersRead base mem (a + offsetOf function b!"parameters") l ∧ l.Nodup ∧
    (∀ c ∈ l, ∃ d ∈ dbs, ∃ y ∈ d.fields, ParameterOf y x ∧ FieldAt base mem database a c y) ∧
    ∀ d ∈ dbs, ∀ y ∈ d.fields, ParameterOf y x → ¬ IsReturn y →
      ∃ c ∈ l, ∃ d' ∈ dbs, ∃ y' ∈ d'.fields, SameField y' y ∧ FieldAt base mem database a c y'
  returns : ∃ c, read base mem (a + offsetOf function b!"return_parameter") 8 = .ok c ∧
    (c ≠ 0 ↔ ∃ d ∈ dbs, ∃ y ∈ d.fields, ParameterOf y x ∧ IsReturn y) ∧
    (c ≠ 0 → ∃ d ∈ dbs, ∃ y ∈ d.fields, ParameterOf y x ∧ IsReturn y ∧ FieldAt base mem database a c y)
  attributes : AttributesAt dbs base mem database a (a + offsetOf function b!"attributes") x.name.hash

/-- No type of one kind has the name of a type of another kind. -/
def OneKind (dbs : List Database) : Prop :=
  ∀ d ∈ dbs, ∀ d' ∈ dbs, ∀ k ∈ typeKinds, ∀ k' ∈ typeKinds, ∀ p ∈ entries d k, ∀ p' ∈ entries d' k',
    p.name.hash = p'.name.hash → k = k'

/-- The names of two different inheritances are different. -/
def InheritancesApart (dbs : List Database) : Prop :=
  ∀ d ∈ dbs, ∀ d' ∈ dbs, ∀ t ∈ d.inheritances, ∀ t' ∈ d'.inheritances, t.name.hash = t'.name.hash →
    t.derived.hash = t'.derived.hash ∧ t.base.hash = t'.base.hash

/-- What the program reads in memory of the things it has found there. -/
structure Details (dbs : List Database) (base database : Nat) (mem : Bytes) : Prop where
  bases : OneKind dbs → InheritancesApart dbs → ∀ n a, getType base mem n = .ok a → a ≠ 0 →
    ∃ l, PointersRead base mem (a + offsetOf type b!"base_types") l ∧
      ∀ b, b ∈ l ↔ b ≠ 0 ∧ ∃ d ∈ dbs, ∃ t ∈ d.inheritances, t.derived.hash = n ∧ getType base mem t.base.hash = .ok b
  methods : ∀ n a, getType base mem n = .ok a → a ≠ 0 → read base mem (a + offsetOf primitive b!"kind") 4 = .ok (kindOf .cls) →
    ∀ f b, findPrimitive base mem (a + offsetOf cls b!"methods") f = .ok b → b ≠ 0 →
      ∃ d ∈ dbs, ∃ x ∈ d.functions, x.name.hash = f ∧ x.parent.hash = n ∧ FunctionAt dbs base mem database b x
  functions : ∀ n a, getEntry base mem .space n = .ok a → a ≠ 0 →
    ∀ f b, findPrimitive base mem (a + offsetOf ns b!"functions") f = .ok b → b ≠ 0 →
      ∃ d ∈ dbs, ∃ x ∈ d.functions, x.name.hash = f ∧ x.parent.hash = n ∧ FunctionAt dbs base mem database b x
  classAttributes : ∀ n a, getType base mem n = .ok a → a ≠ 0 →
    read base mem (a + offsetOf primitive b!"kind") 4 = .ok (kindOf .cls) →
    AttributesAt dbs base mem database a (a + offsetOf cls b!"attributes") n
  enumAttributes : ∀ n a, getType base mem n = .ok a → a ≠ 0 →
    read base mem (a + offsetOf primitive b!"kind") 4 = .ok (kindOf .enum) →
    AttributesAt dbs base mem database a (a + offsetOf enum b!"attributes") n
  fieldAttributes : ∀ n a, getType base mem n = .ok a → a ≠ 0 →
    read base mem (a + offsetOf primitive b!"kind") 4 = .ok (kindOf .cls) →
    ∀ f b, findPrimitive base mem (a + offsetOf cls b!"fields") f = .ok b → b ≠ 0 →
      ∃ t u, PrimitiveAt base mem database a .cls t ∧ PrimitiveAt base mem database b .field u ∧
        AttributesAt dbs base mem database b (b + offsetOf field b!"attributes") (hashOf (t.text ++ b!"::" ++ u.text))
  typeSizes : ∀ n a, getType base mem n = .ok a → a ≠ 0 →
    read base mem (a + offsetOf primitive b!"kind") 4 = .ok (kindOf .type) →
    ∃ d ∈ dbs, ∃ x ∈ d.types, x.name.hash = n ∧ read base mem (a + offsetOf type b!"size") 8 = .ok x.size.toNat
  enumSizes : ∀ n a, getType base mem n = .ok a → a ≠ 0 →
    read base mem (a + offsetOf primitive b!"kind") 4 = .ok (kindOf .enum) →
    ∃ d ∈ dbs, ∃ x ∈ d.enums, x.name.hash = n ∧ read base mem (a + offsetOf type b!"size") 8 = .ok x.size.toNat
  instanceSizes : ∀ n a, getType base mem n = .ok a → a ≠ 0 →
    read base mem (a + offsetOf primitive b!"kind") 4 = .ok (kindOf .instance) →
    ∃ d ∈ dbs, ∃ x ∈ d.templateTypes, x.name.hash = n ∧ read base mem (a + offsetOf type b!"size") 8 = .ok x.size.toNat

/-! ## Proofs -/

theorem pointers_read {p : Place} {d : Data} {size db base : Nat} {img : Bytes} (L : Laid p d size)
    (R : Represents p d db base img) {r : Ref} (hr : Exists d r) {s : Slot} (hs : s ∈ slotsOf r.1)
    (hl : ((d.st.get r).kids s).length ≤ 2 ^ 30) :
    PointersRead base img (base + (p.at r + offsetOf (structOf r.1) (slotName s))) (((d.st.get r).kids s).map fun x => base + p.at x) := by
  have h : ∀ c ∈ arrayCells (p.at r + offsetOf (structOf r.1) (slotName s)) ((d.st.get r).kids s).length (p.kids r s), Image.Holds base img c := by
    intro c hc
    rw [← shift_array] at hc
    obtain ⟨c', hc', rfl⟩ := List.mem_map.1 hc
    exact rep_object R hr c' (kids_sub p d db r s hs c' hc')
  have he : ∀ c ∈ optEntries p (p.kids r s) ((d.st.get r).kids s), Image.Holds base img c := by
    refine rep_array R ?_
    intro c hc
    unfold pointerArrays
    simp only [List.mem_append]
    exact .inr (List.mem_flatMap.2 ⟨r.1, mem_kinds _, List.mem_flatMap.2 ⟨r, mem_all.2 ⟨rfl, hr⟩,
      List.mem_flatMap.2 ⟨s, hs, hc⟩⟩⟩)
  have hd := L.kids r s hr hs
  generalize (d.st.get r).kids s = l at h he hd hl ⊢
  generalize p.kids r s = data at h he hd ⊢
  have A := array_is (stride := 8) h (fun hn => hd (fun e => hn (by rw [e]; rfl)))
  refine ⟨by rw [List.length_map]; exact A.size, ?_⟩
  intro i hi
  rw [List.length_map] at hi
  have hm : ((i : Int) % 2 ^ 32).toNat = i := by omega
  rw [element_eq A, hm, if_pos hi, Res.bind, List.getElem_map]
  cases data with
  | none => exact absurd rfl (hd (fun e => by rw [e] at hi; cases hi))
  | some t =>
    refine read_ptr (he (t + i * 8, .ptr (some (p.at l[i]))) ?_)
    unfold optEntries entryCells
    rw [List.mem_map]
    exact ⟨(l[i], i), by rw [List.mem_zipIdx_iff_getElem?]; exact List.getElem?_eq_getElem hi, rfl⟩

/-! ### Attributes -/

/-- The attribute a reference stands for. -/
def Attr.At (m : Database) (a : Ref) : Attr → Prop
  | .flag x => a.1 = .flagAttr ∧ m.flagAttributes[a.2]? = some x
  | .int x => a.1 = .intAttr ∧ m.intAttributes[a.2]? = some x
  | .float x => a.1 = .floatAttr ∧ m.floatAttributes[a.2]? = some x
  | .prim x => a.1 = .primAttr ∧ m.primitiveAttributes[a.2]? = some x
  | .text x => a.1 = .textAttr ∧ m.textAttributes[a.2]? = some x

theorem attr_kind {m : Database} {a : Ref} {x : Attr} (h : x.At m a) : a.1 = x.kind ∧ entry m a = some x.toPrim ∧ x.In m ∧
    a.1 ∈ Export.attributeKinds := by
  obtain ⟨k, i⟩ := a
  cases x <;> obtain ⟨h1, h2⟩ := h <;> have h1 : k = _ := h1 <;> subst h1 <;> have h2 : _ = some _ := h2 <;>
    refine ⟨rfl, ?_, List.mem_of_getElem? h2, by simp [Export.attributeKinds]⟩ <;> unfold entry entries <;> simp only [List.getElem?_map] at h2 ⊢ <;>
    rw [h2] <;> rfl

theorem attr_at {m : Database} {x : Attr} (h : x.In m) : ∃ a, x.At m a := by
  cases x <;> obtain ⟨i, hi⟩ := List.mem_iff_getElem?.mp h
  · exact ⟨(.flagAttr, i), rfl, hi⟩
  · exact ⟨(.intAttr, i), rfl, hi⟩
  · exact ⟨(.floatAttr, i), rfl, hi⟩
  · exact ⟨(.primAttr, i), rfl, hi⟩
  · exact ⟨(.textAttr, i), rfl, hi⟩

theorem at_attr {m : Database} {a : Ref} {q : Prim} (h : entry m a = some q) (hk : a.1 ∈ Export.attributeKinds) :
    ∃ x : Attr, x.At m a ∧ x.toPrim = q := by
  obtain ⟨k, i⟩ := a
  unfold entry entries at h
  have hk : k ∈ Export.attributeKinds := hk
  simp only [Export.attributeKinds, List.mem_cons, List.not_mem_nil, or_false] at hk
  rcases hk with rfl | rfl | rfl | rfl | rfl <;> simp only [List.getElem?_map, Option.map_eq_some_iff] at h <;>
    obtain ⟨x, h1, h2⟩ := h
  · exact ⟨.flag x, ⟨rfl, h1⟩, h2⟩
  · exact ⟨.int x, ⟨rfl, h1⟩, h2⟩
  · exact ⟨.float x, ⟨rfl, h1⟩, h2⟩
  · exact ⟨.prim x, ⟨rfl, h1⟩, h2⟩
  · exact ⟨.text x, ⟨rfl, h1⟩, h2⟩

theorem attr_from {dbs : List Database} {m : Database} (hm : mergeAll {} dbs = .ok m) {x : Attr} (h : x.In m) :
    ∃ d ∈ dbs, x.In d := by
  cases x with
  | flag x => exact from_input (e := .flagAttribute x) hm h
  | int x => exact from_input (e := .intAttribute x) hm h
  | float x => exact from_input (e := .floatAttribute x) hm h
  | prim x => exact from_input (e := .primitiveAttribute x) hm h
  | text x => exact from_input (e := .textAttribute x) hm h

theorem prim_refl (p : Prim) : p.equals p = true := by simp [Prim.equals, Name.same]

theorem prim_trans {a b c : Prim} (h1 : a.equals b = true) (h2 : b.equals c = true) : a.equals c = true := by
  simp only [Prim.equals, Name.same, Bool.and_eq_true, beq_iff_eq] at h1 h2 ⊢
  exact ⟨h1.1.trans h2.1, h1.2.trans h2.2⟩

theorem floatEq_trans {a b c : UInt32} (h1 : a = b ∨ floatEq a b = true) (h2 : b = c ∨ floatEq b c = true) :
    a = c ∨ floatEq a c = true := by
  rcases h1 with rfl | h1
  · exact h2
  · rcases h2 with rfl | h2
    · exact .inr h1
    · right
      simp only [floatEq, Bool.and_eq_true, Bool.or_eq_true, Bool.not_eq_true', beq_iff_eq] at h1 h2 ⊢
      refine ⟨⟨h1.1.1, h2.1.2⟩, ?_⟩
      rcases h1.2 with e | e
      · rw [e]; exact h2.2
      · rcases h2.2 with e' | e'
        · rw [← e']; exact .inr e
        · exact .inr ⟨e.1, e'.2⟩

theorem same_refl (x : Attr) : x.Same x := by
  cases x
  · exact prim_refl _
  · exact ⟨prim_refl _, rfl⟩
  · exact ⟨prim_refl _, .inl rfl⟩
  · exact ⟨prim_refl _, rfl⟩
  · exact ⟨prim_refl _, rfl⟩

theorem same_trans {x y z : Attr} (h1 : x.Same y) (h2 : y.Same z) : x.Same z := by
  cases x <;> cases y <;> first | exact h1.elim | skip
  all_goals cases z <;> first | exact h2.elim | skip
  · exact prim_trans h1 h2
  · exact ⟨prim_trans h1.1 h2.1, h1.2.trans h2.2⟩
  · exact ⟨prim_trans h1.1 h2.1, floatEq_trans h1.2 h2.2⟩
  · exact ⟨prim_trans h1.1 h2.1, h1.2.trans h2.2⟩
  · exact ⟨prim_trans h1.1 h2.1, h1.2.trans h2.2⟩

theorem same_prim {x y : Attr} (h : x.Same y) : x.toPrim.equals y.toPrim = true := by
  cases x <;> cases y <;> first | exact h.elim | skip
  · exact h
  all_goals exact h.1

theorem merged_attributes {dbs : List Database} {m : Database} (h : mergeAll {} dbs = .ok m) :
    ∀ d ∈ dbs, ∀ x : Attr, x.In d → ∃ y : Attr, y.In m ∧ y.Same x := by
  refine (mergeAll_step (P := fun _ => True) (R := fun a b => ∀ x : Attr, x.In a → ∃ y : Attr, y.In b ∧ y.Same x) ?_ ?_ ?_ ?_ dbs {} m h).2
  · intro d x hx; exact ⟨x, hx, same_refl x⟩
  · intro a b c h1 h2 x hx
    obtain ⟨y, hy, a1⟩ := h1 x hx
    obtain ⟨z, hz, b1⟩ := h2 y hy
    exact ⟨z, hz, same_trans b1 a1⟩
  · intro d s r hm x hx
    refine ⟨x, ?_, same_refl x⟩
    cases x with
    | flag x =>
      rcases C06_destination_kept d s r hm (.flagAttribute x) hx with hr | ⟨c, _, e, _⟩
      · exact hr
      · cases e
    | int x =>
      rcases C06_destination_kept d s r hm (.intAttribute x) hx with hr | ⟨c, _, e, _⟩
      · exact hr
      · cases e
    | float x =>
      rcases C06_destination_kept d s r hm (.floatAttribute x) hx with hr | ⟨c, _, e, _⟩
      · exact hr
      · cases e
    | prim x =>
      rcases C06_destination_kept d s r hm (.primitiveAttribute x) hx with hr | ⟨c, _, e, _⟩
      · exact hr
      · cases e
    | text x =>
      rcases C06_destination_kept d s r hm (.textAttribute x) hx with hr | ⟨c, _, e, _⟩
      · exact hr
      · cases e
  · intro d s r hm x hx
    have t := (merge_iff_tables d s r).mp hm
    cases x with
    | flag x =>
      rcases mergeOverloads_repr t.flagAttributes x hx with h | ⟨y, hy, _, hq⟩
      · exact ⟨.flag x, h, same_refl _⟩
      · exact ⟨.flag y, hy, hq⟩
    | int x =>
      rcases mergeOverloads_repr t.intAttributes x hx with h | ⟨y, hy, _, hq⟩
      · exact ⟨.int x, h, same_refl _⟩
      · simp only [IntAttribute.equals, Bool.and_eq_true, beq_iff_eq] at hq
        exact ⟨.int y, hy, hq⟩
    | float x =>
      rcases mergeOverloads_repr t.floatAttributes x hx with h | ⟨y, hy, _, hq⟩
      · exact ⟨.float x, h, same_refl _⟩
      · simp only [FloatAttribute.equals, Bool.and_eq_true] at hq
        exact ⟨.float y, hy, hq.1, .inr hq.2⟩
    | prim x =>
      rcases mergeOverloads_repr t.primitiveAttributes x hx with h | ⟨y, hy, _, hq⟩
      · exact ⟨.prim x, h, same_refl _⟩
      · simp only [PrimitiveAttribute.equals, Name.same, Bool.and_eq_true, beq_iff_eq] at hq
        exact ⟨.prim y, hy, hq⟩
    | text x =>
      rcases mergeOverloads_repr t.textAttributes x hx with h | ⟨y, hy, _, hq⟩
      · exact ⟨.text x, h, same_refl _⟩
      · simp only [TextAttribute.equals, Bool.and_eq_true, beq_iff_eq] at hq
        exact ⟨.text y, hy, hq⟩

/-! ### Types of the merged database -/

theorem merged_unique : ∀ (dbs : List Database) (d m : Database), mergeAll d dbs = .ok m →
    ((d.types.map (·.name.hash)).Nodup ∧ (d.classes.map (·.name.hash)).Nodup ∧ (d.enums.map (·.name.hash)).Nodup ∧
      (d.templateTypes.map (·.name.hash)).Nodup) →
    (m.types.map (·.name.hash)).Nodup ∧ (m.classes.map (·.name.hash)).Nodup ∧ (m.enums.map (·.name.hash)).Nodup ∧
      (m.templateTypes.map (·.name.hash)).Nodup := by
  intro dbs
  induction dbs with
  | nil =>
    intro d m h hd
    simp only [mergeAll, Res.ok.injEq] at h
    subst h
    exact hd
  | cons s ss ih =>
    intro d m h hd
    rw [mergeAll, Res.bind_eq_ok] at h
    obtain ⟨r, h1, h2⟩ := h
    have t := (merge_iff_tables d s r).mp h1
    exact ih r m h2 ⟨mergeUniques_nodup t.types hd.1, mergeClasses_nodup t.classes hd.2.1, mergeUniques_nodup t.enums hd.2.2.1,
      mergeUniques_nodup t.templateTypes hd.2.2.2⟩

theorem nodup_index {α : Type} {l : List α} {key : α → UInt32} (h : (l.map key).Nodup) {i j : Nat} {x y : α}
    (hi : l[i]? = some x) (hj : l[j]? = some y) (e : key x = key y) : i = j := by
  have h1 : (l.map key)[i]? = some (key x) := by rw [List.getElem?_map, hi]; rfl
  have h2 : (l.map key)[j]? = some (key y) := by rw [List.getElem?_map, hj]; rfl
  have hl : i < (l.map key).length := (List.getElem?_eq_some_iff.mp h1).1
  exact (List.getElem?_inj hl h).mp (by rw [h1, h2, e])

theorem unique_types {dbs : List Database} {m : Database} (hm : mergeAll {} dbs = .ok m) (h1 : OneKind dbs) : Export.UniqueTypes m := by
  obtain ⟨u1, u2, u3, u4⟩ := merged_unique dbs {} m hm ⟨by simp, by simp, by simp, by simp⟩
  rintro ⟨k, i⟩ ⟨k', i'⟩ q q' hk hk' hq hq' e
  have : k = k' := by
    obtain ⟨d, hd, x, hx, e1⟩ := type_from_input hm hk (entry_mem.mpr ⟨i, hq⟩)
    obtain ⟨d', hd', x', hx', e1'⟩ := type_from_input hm hk' (entry_mem.mpr ⟨i', hq'⟩)
    exact h1 d hd d' hd' k hk k' hk' x hx x' hx' (by rw [e1, e1', e])
  subst this
  have : i = i' := by
    unfold entry entries at hq hq'
    have hk : k ∈ typeKinds := hk
    simp only [typeKinds, List.mem_cons, List.not_mem_nil, or_false] at hk
    rcases hk with rfl | rfl | rfl | rfl <;> simp only [List.getElem?_map, Option.map_eq_some_iff] at hq hq' <;>
      obtain ⟨x, hx, rfl⟩ := hq <;> obtain ⟨x', hx', rfl⟩ := hq'
    · exact nodup_index u1 hx hx' e
    · exact nodup_index u2 hx hx' e
    · exact nodup_index u3 hx hx' e
    · exact nodup_index u4 hx hx' e
  rw [this]

/-! ### Reading -/

section
variable {cfg : TextDB.Cfg} {env : Export.Env} {fuel fb : Nat} {dbs : List Database} {m : Database} (hm : mergeAll {} dbs = .ok m)
  (hst : TextDB.Storable cfg m) (hr : Ready env fuel m) {F : St} (hF : Export.exportDB env fuel m = some (.ok F))
  {p : Place} {f : Nat → Nat} {database base : Nat} {mem : Bytes} (L : Laid p ((dataOf fb m F).readdress f) mem.length)
  (N : Linked ((dataOf fb m F).readdress f)) (R : Represents p ((dataOf fb m F).readdress f) database base mem)
  (small : mem.length ≤ arenaSize)

include hst hr hF L R in
/-- An attribute in memory. -/
theorem attribute_at {a : Ref} {x : Attr} (hx : x.At m a) {r : Ref} (ha : Export.AttributeOf m a r) :
    AttributeAt base mem database (base + p.at r) (base + p.at a) x := by
  obtain ⟨k1, k2, k3, k4⟩ := attr_kind hx
  have he := exists_entry (fb := fb) (f := f) hr hF k2
  have num : ∀ o w v, (o, Val.num w v) ∈ objectCells p ((dataOf fb m F).readdress f) database a →
      read base mem (base + p.at a + o) w = .ok v := by
    intro o w v hv
    rw [Nat.add_assoc]
    exact read_holds (rep_object R he _ hv)
  have ptr : ∀ o t, (o, Val.ptr (some t)) ∈ objectCells p ((dataOf fb m F).readdress f) database a →
      read base mem (base + p.at a + o) 8 = .ok (base + t) := by
    intro o w hv
    rw [Nat.add_assoc]
    exact read_ptr (rep_object R he _ hv)
  refine ⟨?_, ?_, ?_, ?_, ?_⟩
  · have := prim_at (fb := fb) (f := f) hr hF L R (textsKnown hst) k2
    rw [k1] at this
    exact this
  · refine ptr _ _ ?_
    have hnf : a.1 ≠ .function := by
      intro e
      rw [e] at k4
      exact absurd k4 (by decide)
    have := (Export.C17_back_pointers_partial env fuel m hr F hF a _ k2 (fun e => absurd e hnf)).1 r (.inr ha)
    have e : p.ptr (F.get a).parent = .ptr (some (p.at r)) := by rw [this]; rfl
    have hc : ∀ c ∈ primCells p ((dataOf fb m F).readdress f) database a, c ∈ objectCells p ((dataOf fb m F).readdress f) database a := by
      obtain ⟨k, i⟩ := a
      intro c hc
      simp only [Export.attributeKinds, List.mem_cons, List.not_mem_nil, or_false] at k4
      rcases k4 with rfl | rfl | rfl | rfl | rfl <;> simp [objectCells, hc]
    refine hc _ ?_
    rw [← e]
    simp only [primCells, List.mem_append, List.mem_cons]
    exact .inr (.inl rfl)
  · rintro y rfl
    obtain ⟨k, i⟩ := a
    obtain ⟨e1, e2⟩ := hx
    have e1 : k = .intAttr := e1
    subst e1
    have e2 : m.intAttributes[i]? = some y := e2
    have := num (offsetOf intAttribute b!"value") 4 (F.get (.intAttr, i)).value.toNat (by
      simp only [objectCells, List.mem_append, List.mem_cons]
      exact .inr (.inl rfl))
    rw [this, (Export.final_of hr.exportable hF).value]
    show Res.ok ((Export.rows m .intAttr).getD i {}).value.toNat = _
    simp [Export.rows, e2]
  · rintro y rfl
    obtain ⟨k, i⟩ := a
    obtain ⟨e1, e2⟩ := hx
    have e1 : k = .floatAttr := e1
    subst e1
    have e2 : m.floatAttributes[i]? = some y := e2
    have := num (offsetOf intAttribute b!"value") 4 (scalarOf m (.floatAttr, i) .number) (by
      simp only [objectCells, List.mem_append, List.mem_cons, readdress_other _ f (.floatAttr, i) .number (by simp)]
      exact .inr (.inl rfl))
    rw [this]
    simp [scalarOf, e2]
  · rintro y rfl
    obtain ⟨k, i⟩ := a
    obtain ⟨e1, e2⟩ := hx
    have e1 : k = .textAttr := e1
    subst e1
    have e2 : m.textAttributes[i]? = some y := e2
    refine ⟨base + p.valueAt (.textAttr, i), ptr _ _ (by
      simp only [objectCells, List.mem_append, List.mem_cons]
      exact .inr (.inl trivial)), ?_⟩
    intro h0
    refine readText_eq (R _ ?_) h0
    unfold cells texts
    simp only [List.mem_append]
    refine .inr (.inr (List.mem_map.mpr ⟨(.textAttr, i), mem_all.2 ⟨rfl, he⟩, ?_⟩))
    have : ((dataOf fb m F).readdress f).text (.textAttr, i) = y.value := by
      show (m.textAttributes.getD i {}).value = _
      simp [e2]
    rw [this]

include hm hst hr hF L R small

/-- The attributes of something in memory. -/
theorem attributes_at {pk : K} (hpk : pk ∈ [K.enum, .field, .function, .cls]) {i : Nat} {q : Prim} (hq : entry m (pk, i) = some q)
    (n : UInt32) (hkey : ∀ a pa, a.1 ∈ Export.attributeKinds → entry m a = some pa →
      (Export.AttributeOf m a (pk, i) ↔ pa.parent.hash = n)) :
    AttributesAt dbs base mem database (base + p.at (pk, i)) (base + p.at (pk, i) + offsetOf (structOf pk) (slotName .attributes)) n := by
  have he := exists_entry (fb := fb) (f := f) hr hF hq
  have hs : Slot.attributes ∈ slotsOf pk := by
    simp only [List.mem_cons, List.not_mem_nil, or_false] at hpk
    rcases hpk with rfl | rfl | rfl | rfl <;> decide
  obtain ⟨_, hmem⟩ := Export.C17_attribute_arrays_partial env fuel m hr F hF pk hpk i (Export.entry_lt hq)
  refine ⟨((F.get (pk, i)).kids .attributes).map fun x => base + p.at x, ?_, ?_, ?_⟩
  · have := pointers_read L R he hs (kids_small L small he hs)
    rw [Nat.add_assoc]
    exact this
  · intro c hc
    obtain ⟨a, ha, rfl⟩ := List.mem_map.mp hc
    have hao := (hmem a).mp ha
    obtain ⟨pa, hpa, _⟩ := hao.2
    obtain ⟨x, hx, e⟩ := at_attr hpa hao.1
    obtain ⟨d, hd, hxd⟩ := attr_from hm (attr_kind hx).2.2.1
    refine ⟨d, hd, x, hxd, ?_, attribute_at hst hr hF L R hx hao⟩
    rw [e]
    exact (hkey a pa hao.1 hpa).mp hao
  · intro d hd x hx hp
    obtain ⟨y, hy, hsame⟩ := merged_attributes hm d hd x hx
    obtain ⟨a, ha⟩ := attr_at hy
    obtain ⟨_, k2, _, k4⟩ := attr_kind ha
    have hpar : y.toPrim.parent.hash = n := by
      have := same_prim hsame
      simp only [Prim.equals, Name.same, Bool.and_eq_true, beq_iff_eq] at this
      rw [this.2, hp]
    have hao := (hkey a _ k4 k2).mpr hpar
    obtain ⟨d', hd', hyd⟩ := attr_from hm hy
    exact ⟨_, List.mem_map_of_mem ((hmem a).mpr hao), d', hd', y, hyd, hsame, attribute_at hst hr hF L R ha hao⟩

include N

/-- A function in memory. -/
theorem function_at {pk : K} {s : Slot} (hps : (pk, s) ∈ [(K.cls, Slot.methods), (.space, .functions)]) {i : Nat}
    (hi : i < (entries m pk).length) {j : Nat} (hkid : (.function, j) ∈ (F.get (pk, i)).kids s) {x : Function}
    (hx : m.functions[j]? = some x) : FunctionAt dbs base mem database (base + p.at (.function, j)) x := by
  have hq := function_entry hx
  have hj := Export.entry_lt hq
  have he := exists_entry (fb := fb) (f := f) hr hF hq
  have num : ∀ o w v, (o, Val.num w v) ∈ objectCells p ((dataOf fb m F).readdress f) database (.function, j) →
      read base mem (base + p.at (.function, j) + o) w = .ok v := by
    intro o w v hv
    rw [Nat.add_assoc]
    exact read_holds (rep_object R he _ hv)
  obtain ⟨hnd, hmem⟩ := Export.C17_scope_arrays_partial env fuel m hr F hF .function .parameters .field (by simp [Export.scopeTable]) j hj
  have hty := fun c => (Export.C20_no_dangling_types_partial env fuel m hr F hF).2 pk s hps i hi (.function, j) hkid c
  obtain ⟨hret1, hret2⟩ := Export.C17_return_value env fuel m hr F hF j hj
  have hrec : ∀ {k : Nat} {y : Field}, m.fields[k]? = some y → (Export.Records m (.field, k) (.function, j) ↔ ParameterOf y x) := by
    intro k y hy
    unfold Export.Records Export.SameFunction
    constructor
    · rintro ⟨_, ⟨a, b, ha, hb, e⟩, h3⟩
      rw [field_entry hy] at ha
      rw [hq] at hb
      cases ha; cases hb
      have := h3 rfl
      simp only [hy, hx, Option.map_some, Option.some.injEq] at this
      exact ⟨e, this⟩
    · intro hp
      refine ⟨⟨.parameters, by simp [Export.scopeTable]⟩, ⟨_, _, field_entry hy, hq, hp.1⟩, fun _ => ?_⟩
      simp only [hy, hx, Option.map_some, hp.2]
  have hname : ∀ {k : Nat} {y : Field}, m.fields[k]? = some y → (Export.Named m (.field, k) b!"return" ↔ IsReturn y) := by
    intro k y hy
    unfold Export.Named
    rw [field_entry hy]
    simp only [Option.some.injEq, exists_eq_left']
    rfl
  have hfield : ∀ {k : Nat}, Export.Records m (.field, k) (.function, j) → ∃ y, m.fields[k]? = some y := by
    rintro k ⟨_, ⟨a, _, ha, _⟩, _⟩
    obtain ⟨y, hy, _⟩ := entry_field ha
    exact ⟨y, hy⟩
  refine ⟨prim_at hr hF L R (textsKnown hst) hq, ?_, ?_, ?_, ?_⟩
  · have := num (offsetOf function b!"unique_id") 4 (F.get (.function, j)).uid.toNat (by
      simp only [objectCells, List.mem_append, List.mem_cons]
      exact .inl (.inl (.inl (.inr (.inr (.inl rfl))))))
    rw [this, (Export.final_of hr.exportable hF).uid]
    show Res.ok ((Export.rows m .function).getD j {}).uid.toNat = _
    simp [Export.rows, hx]
  · refine ⟨((F.get (.function, j)).kids .parameters).map fun x => base + p.at x, ?_, ?_, ?_, ?_⟩
    · have := pointers_read L R he (s := .parameters) (by simp [slotsOf]) (kids_small L small he (by simp [slotsOf]))
      rw [Nat.add_assoc]
      exact this
    · refine List.pairwise_map.mpr (List.Pairwise.imp_of_mem ?_ hnd)
      · rintro ⟨k, a⟩ ⟨k', b⟩ ha hb hne e
        apply hne
        have e1 : k = .field := ((hmem _).mp ha).1
        have e2 : k' = .field := ((hmem _).mp hb).1
        subst e1; subst e2
        have e : base + (p.table .field + a * stride .field) = base + (p.table .field + b * stride .field) := e
        have : a * stride .field = b * stride .field := by omega
        rw [Nat.eq_of_mul_eq_mul_right (by have := Image.stride_pos .field; omega) this]
    · intro c hc
      obtain ⟨⟨k, a⟩, ha, rfl⟩ := List.mem_map.mp hc
      obtain ⟨e1, e2, _⟩ := (hmem _).mp ha
      have e1 : k = .field := e1
      subst e1
      obtain ⟨y, hy⟩ := hfield e2
      obtain ⟨d, hd, hyd⟩ := from_input (e := .field y) hm (List.mem_of_getElem? hy)
      exact ⟨d, hd, y, hyd, (hrec hy).mp e2, field_at hst hr hF L N R hy e2 (hty _ (.inl ha))⟩
    · intro d hd y hy hp hnr
      obtain ⟨y', hy', hsame⟩ := merged_fields hm d hd y hy
      obtain ⟨k, hk⟩ := List.mem_iff_getElem?.mp hy'
      have hp' : ParameterOf y' x := ⟨hsame.2.1.trans hp.1, hsame.2.2.2.1.trans hp.2⟩
      have hre := (hrec hk).mpr hp'
      have hnr' : ¬ IsReturn y' := fun h => hnr (by unfold IsReturn at h ⊢; rw [← hsame.1]; exact h)
      have hin : (.field, k) ∈ (F.get (.function, j)).kids .parameters := by
        refine (hmem _).mpr ⟨rfl, hre, fun h => (by cases h), ?_, ?_⟩
        · rintro (h | ⟨_, h⟩) <;> cases h
        · intro _ hc
          exact hnr' ((hname hk).mp (hret1 _ hc).2.2)
      obtain ⟨d', hd', hyd⟩ := from_input (e := .field y') hm hy'
      exact ⟨_, List.mem_map_of_mem hin, d', hd', y', hyd, hsame, field_at hst hr hF L N R hk hre (hty _ (.inl hin))⟩
  · have hnone : (F.get (.function, j)).ret = none ↔ ¬ ∃ d ∈ dbs, ∃ y ∈ d.fields, ParameterOf y x ∧ IsReturn y := by
      rw [hret2]
      constructor
      · rintro h ⟨d, hd, y, hy, hp, hre⟩
        obtain ⟨y', hy', hsame⟩ := merged_fields hm d hd y hy
        obtain ⟨k, hk⟩ := List.mem_iff_getElem?.mp hy'
        refine h (.field, k) rfl ((hrec hk).mpr ⟨hsame.2.1.trans hp.1, hsame.2.2.2.1.trans hp.2⟩) ((hname hk).mpr ?_)
        unfold IsReturn at hre ⊢
        rw [hsame.1]
        exact hre
      · rintro h ⟨k, a⟩ e hre hn
        have e : k = .field := e
        subst e
        obtain ⟨y, hy⟩ := hfield hre
        obtain ⟨d, hd, hyd⟩ := from_input (e := .field y) hm (List.mem_of_getElem? hy)
        exact h ⟨d, hd, y, hyd, (hrec hy).mp hre, (hname hy).mp hn⟩
    cases hre : (F.get (.function, j)).ret with
    | none =>
      refine ⟨0, ?_, ?_, fun h => absurd rfl h⟩
      · have : (offsetOf function b!"return_parameter", Val.ptr none) ∈ objectCells p ((dataOf fb m F).readdress f) database (.function, j) := by
          have e : p.opt (F.get (.function, j)).ret = .ptr none := by rw [hre]; rfl
          rw [← e]
          simp only [objectCells, List.mem_append, List.mem_cons]
          exact .inl (.inl (.inl (.inr (.inr (.inr (.inl rfl))))))
        rw [Nat.add_assoc]
        exact read_holds (v := 0) (word_num.1 (rep_object R he _ this))
      · constructor
        · intro h; exact absurd rfl h
        · intro h
          exact absurd h (hnone.mp hre)
    | some c =>
      obtain ⟨k, a⟩ := c
      obtain ⟨e1, e2, e3⟩ := hret1 _ hre
      have e1 : k = .field := e1
      subst e1
      obtain ⟨y, hy⟩ := hfield e2
      obtain ⟨d, hd, hyd⟩ := from_input (e := .field y) hm (List.mem_of_getElem? hy)
      have hex := exists_entry (fb := fb) (f := f) hr hF (field_entry hy)
      have hpos := (at_le L hex).1
      refine ⟨base + p.at (.field, a), ?_, ?_, ?_⟩
      · have : (offsetOf function b!"return_parameter", Val.ptr (some (p.at (.field, a)))) ∈
            objectCells p ((dataOf fb m F).readdress f) database (.function, j) := by
          have e : p.opt (F.get (.function, j)).ret = .ptr (some (p.at (.field, a))) := by rw [hre]; rfl
          rw [← e]
          simp only [objectCells, List.mem_append, List.mem_cons]
          exact .inl (.inl (.inl (.inr (.inr (.inr (.inl rfl))))))
        rw [Nat.add_assoc]
        exact read_ptr (rep_object R he _ this)
      · constructor
        · intro _
          exact ⟨d, hd, y, hyd, (hrec hy).mp e2, (hname hy).mp e3⟩
        · intro _
          omega
      · intro _
        exact ⟨d, hd, y, hyd, (hrec hy).mp e2, (hname hy).mp e3, field_at hst hr hF L N R hy e2 (hty _ (.inr hre))⟩
  · refine attributes_at hm hst hr hF L R small (pk := .function) (by decide) hq x.name.hash ?_
    intro a pa hk hpa
    unfold Export.AttributeOf
    rw [hpa, hq]
    simp [hk]

omit N small in
/-- The size of a type in memory. -/
theorem size_at {k : K} (hk : k ∈ typeKinds) {i : Nat} {q : Prim} (hq : entry m (k, i) = some q) :
    read base mem (base + p.at (k, i) + offsetOf type b!"size") 8 = .ok (scalarOf m (k, i) .size) := by
  have he := exists_entry (fb := fb) (f := f) hr hF hq
  rw [Nat.add_assoc]
  refine read_holds (rep_object R he (offsetOf type b!"size", .num 8 (scalarOf m (k, i) .size)) ?_)
  have e := readdress_other (dataOf fb m F) f (k, i) .size (by simp)
  simp only [typeKinds, List.mem_cons, List.not_mem_nil, or_false] at hk
  rcases hk with rfl | rfl | rfl | rfl <;> simp only [objectCells, typeCells, List.mem_append, List.mem_cons, e] <;> simp [dataOf]

/-- The memory holds all that. -/
theorem details_of : Details dbs base database mem := by
  have hsz := entries_small hr hF L small
  refine ⟨?_, ?_, ?_, ?_, ?_, ?_, ?_, ?_, ?_⟩
  · intro hone hapart n a h1 h0
    have hu := unique_types hm hone
    obtain ⟨a', u1, _, u3⟩ := type_answer hm hst hr hF L N R small n
    rw [h1] at u1
    injection u1 with u1
    subst u1
    obtain ⟨k, hk, i, q, e1, rfl, rfl⟩ := u3 h0
    have he := exists_entry (fb := fb) (f := f) hr hF e1
    have hs : Slot.bases ∈ slotsOf k := by
      simp only [typeKinds, List.mem_cons, List.not_mem_nil, or_false] at hk
      rcases hk with rfl | rfl | rfl | rfl <;> decide
    have ho : offsetOf (structOf k) (slotName .bases) = offsetOf type b!"base_types" := by
      simp only [typeKinds, List.mem_cons, List.not_mem_nil, or_false] at hk
      rcases hk with rfl | rfl | rfl | rfl <;> decide
    have hmem := fun q => Export.C59_base_types env fuel m hr hu F hF (k, i) _ e1 q
    refine ⟨((F.get (k, i)).kids .bases).map fun x => base + p.at x, ?_, ?_⟩
    · have := pointers_read L R he hs (kids_small L small he hs)
      rw [Nat.add_assoc, ← ho]
      exact this
    · intro b
      constructor
      · intro hb
        obtain ⟨r, hin, rfl⟩ := List.mem_map.mp hb
        obtain ⟨_, kr, t, ht, pr, pq, x1, x2, x3, x4⟩ := (hmem r).mp hin
        rw [e1] at x1
        cases x1
        obtain ⟨d, hd, htd⟩ := from_input (e := .inheritance t) hm ht
        have hpos := (at_le L (exists_entry (fb := fb) (f := f) hr hF x2)).1
        refine ⟨by omega, d, hd, t, htd, x3, ?_⟩
        obtain ⟨b', y1, y2, y3⟩ := type_answer hm hst hr hF L N R small t.base.hash
        have hdecl : DeclaresType dbs t.base.hash := by
          rw [← merged_types hm]
          exact ⟨r.1, kr, pq, entry_mem.mpr ⟨r.2, x2⟩, x4.symm⟩
        obtain ⟨k', hk', i', q', z1, z2, z3⟩ := y3 (y2.mpr hdecl)
        have := hu (k', i') r q' pq hk' kr z1 x2 (by rw [z2, x4])
        rw [y1, z3, this]
      · rintro ⟨hb0, d, hd, t, ht, hdn, hgt⟩
        obtain ⟨e', he', hk', hn⟩ := (C72_every_symbol dbs {} m hm).2 .inheritance t.name.hash (.inr ⟨d, hd, .inheritance t, ht, rfl, rfl⟩)
        cases e' <;> cases hk'
        rename_i t'
        obtain ⟨d', hd', htd'⟩ := from_input (e := .inheritance t') hm he'
        obtain ⟨s1, s2⟩ := hapart d' hd' d hd t' htd' t ht hn
        obtain ⟨b', y1, y2, y3⟩ := type_answer hm hst hr hF L N R small t.base.hash
        rw [hgt] at y1
        injection y1 with y1
        subst y1
        obtain ⟨k', hk', i', q', z1, z2, z3⟩ := y3 hb0
        rw [z3]
        refine List.mem_map_of_mem (f := fun x => base + p.at x) ((hmem (k', i')).mpr ⟨hk, hk', t', he', q, q', e1, z1, ?_, ?_⟩)
        · rw [s1, hdn]
        · rw [s2, z2]
  · intro n a h1 h0 hk fn b hb hb0
    obtain ⟨i, q, e1, rfl, rfl⟩ := typed_answer hm hst hr hF L N R small h1 h0 hk (by decide)
    obtain ⟨b', g1, g2, g3⟩ := child_answer hm hst hr hF L N R small (pk := .cls) (s := .methods) (ck := .function)
      (by simp [Export.scopeTable]) (by decide) e1 fn (finds_functions hm hr hsz hF (by simp) e1 fn)
    have g1' : findPrimitive base mem (base + p.at (.cls, i) + offsetOf cls b!"methods") fn = .ok b' := g1
    rw [hb] at g1'
    injection g1' with g1'
    subst g1'
    obtain ⟨j, x, hkid, hx, hn, hpar, _, rfl⟩ := g3 hb0
    obtain ⟨y, hy, rfl⟩ := entry_function hx
    obtain ⟨d, hd, hyd⟩ := from_input (e := .function y) hm (List.mem_of_getElem? hy)
    exact ⟨d, hd, y, hyd, hn, hpar, function_at hm hst hr hF L N R small (by simp) (Export.entry_lt e1) hkid hy⟩
  · intro n a h1 h0 fn b hb hb0
    obtain ⟨a', u1, _, u3⟩ := space_answer hm hst hr hF L N R small n
    rw [h1] at u1
    injection u1 with u1
    subst u1
    obtain ⟨i, s, hs, rfl, rfl⟩ := u3 h0
    have e1 : entry m (.space, i) = some s.toPrim := by unfold entry entries; simp [hs]
    obtain ⟨b', g1, g2, g3⟩ := child_answer hm hst hr hF L N R small (pk := .space) (s := .functions) (ck := .function)
      (by simp [Export.scopeTable]) (by decide) e1 fn (finds_functions hm hr hsz hF (by simp) e1 fn)
    have g1' : findPrimitive base mem (base + p.at (.space, i) + offsetOf ns b!"functions") fn = .ok b' := g1
    rw [hb] at g1'
    injection g1' with g1'
    subst g1'
    obtain ⟨j, x, hkid, hx, hn, hpar, _, rfl⟩ := g3 hb0
    obtain ⟨y, hy, rfl⟩ := entry_function hx
    obtain ⟨d, hd, hyd⟩ := from_input (e := .function y) hm (List.mem_of_getElem? hy)
    exact ⟨d, hd, y, hyd, hn, hpar, function_at hm hst hr hF L N R small (by simp) (Export.entry_lt e1) hkid hy⟩
  · intro n a h1 h0 hk
    obtain ⟨i, q, e1, rfl, rfl⟩ := typed_answer hm hst hr hF L N R small h1 h0 hk (by decide)
    refine attributes_at hm hst hr hF L R small (pk := .cls) (by decide) e1 _ ?_
    intro a pa hk hpa
    unfold Export.AttributeOf
    rw [hpa, e1]
    simp [hk]
  · intro n a h1 h0 hk
    obtain ⟨i, q, e1, rfl, rfl⟩ := typed_answer hm hst hr hF L N R small h1 h0 hk (by decide)
    refine attributes_at hm hst hr hF L R small (pk := .enum) (by decide) e1 _ ?_
    intro a pa hk hpa
    unfold Export.AttributeOf
    rw [hpa, e1]
    simp [hk]
  · intro n a h1 h0 hk fn b hb hb0
    obtain ⟨i, q, e1, rfl, rfl⟩ := typed_answer hm hst hr hF L N R small h1 h0 hk (by decide)
    obtain ⟨b', g1, g2, g3⟩ := child_answer hm hst hr hF L N R small (pk := .cls) (s := .fields) (ck := .field)
      (by simp [Export.scopeTable]) (by decide) e1 fn (finds_fields hm hr hsz hF e1 fn)
    have g1' : findPrimitive base mem (base + p.at (.cls, i) + offsetOf cls b!"fields") fn = .ok b' := g1
    rw [hb] at g1'
    injection g1' with g1'
    subst g1'
    obtain ⟨j, x, hkid, hx, hn, hpar, hrec, rfl⟩ := g3 hb0
    have hk := textsKnown hst
    refine ⟨q.name, x.name, prim_at hr hF L R hk e1, prim_at hr hF L R hk hx, ?_⟩
    refine attributes_at hm hst hr hF L R small (pk := .field) (by decide) hx _ ?_
    intro a pa hka hpa
    have ht : ∀ {r : Ref} {q : Prim}, entry m r = some q → Export.nameText m r = q.name.text := by
      intro r q hq
      have := text_known hk (hk.named r q hq)
      unfold Export.textOf at this
      unfold Export.nameText
      rw [hq]
      simp only [this]
      rfl
    unfold Export.AttributeOf
    rw [hpa]
    simp only [Option.some.injEq, exists_eq_left', hka, true_and]
    constructor
    · rintro (⟨h, _⟩ | ⟨s, hs, e⟩)
      · exact absurd h (by decide)
      · have := hr.unambiguous.1 _ _ _ hs hrec
        subst this
        rw [e, ht e1, ht hx]
    · intro e
      exact .inr ⟨_, hrec, by rw [e, ht e1, ht hx]⟩
  · intro n a h1 h0 hk
    obtain ⟨i, q, e1, rfl, rfl⟩ := typed_answer hm hst hr hF L N R small h1 h0 hk (by decide)
    have := size_at (fb := fb) (f := f) hm hst hr hF L R (by decide) e1
    unfold entry entries at e1
    simp only [List.getElem?_map, Option.map_eq_some_iff] at e1
    obtain ⟨x, hx, rfl⟩ := e1
    obtain ⟨d, hd, hxd⟩ := from_input (e := .type x) hm (List.mem_of_getElem? hx)
    have hgd : m.types.getD i {} = x := by rw [List.getD_eq_getElem?_getD, hx]; rfl
    exact ⟨d, hd, x, hxd, rfl, by rw [this]; simp only [scalarOf, hgd]⟩
  · intro n a h1 h0 hk
    obtain ⟨i, q, e1, rfl, rfl⟩ := typed_answer hm hst hr hF L N R small h1 h0 hk (by decide)
    have := size_at (fb := fb) (f := f) hm hst hr hF L R (by decide) e1
    unfold entry entries at e1
    simp only [List.getElem?_map, Option.map_eq_some_iff] at e1
    obtain ⟨x, hx, rfl⟩ := e1
    obtain ⟨d, hd, hxd⟩ := from_input (e := .enum x) hm (List.mem_of_getElem? hx)
    have hgd : m.enums.getD i {} = x := by rw [List.getD_eq_getElem?_getD, hx]; rfl
    exact ⟨d, hd, x, hxd, rfl, by rw [this]; simp only [scalarOf, hgd]⟩
  · intro n a h1 h0 hk
    obtain ⟨i, q, e1, rfl, rfl⟩ := typed_answer hm hst hr hF L N R small h1 h0 hk (by decide)
    have := size_at (fb := fb) (f := f) hm hst hr hF L R (by decide) e1
    unfold entry entries at e1
    simp only [List.getElem?_map, Option.map_eq_some_iff] at e1
    obtain ⟨x, hx, rfl⟩ := e1
    obtain ⟨d, hd, hxd⟩ := from_input (e := .templateType x) hm (List.mem_of_getElem? hx)
    have hgd : m.templateTypes.getD i {} = x := by rw [List.getD_eq_getElem?_getD, hx]; rfl
    exact ⟨d, hd, x, hxd, rfl, by rw [this]; simp only [scalarOf, hgd]⟩

end

/-- C86, partial, continued: in that memory a program also reads what the databases say of the things it has found: base types, sizes,
parameters, return values and attributes. -/
theorem C86_details_partial (env : Env) (xenv : FileEnv) (hcfg : xenv.cfg = env.cfg) (hg : xenv.host.Good) (fs : Files)
    (args : List Bytes) (out file : Bytes) (inputs : List Bytes) (dbs : List Database) (hc : CommandLine args out [] [] inputs)
    (hin : Inputs env.cfg fs inputs dbs) (hcol : NoCollisions dbs) (hw : fs.canWrite out = true) (hw2 : fs.canWrite file = true)
    (xargs : List Bytes) (hx : ExportLine xargs out file)
    (hfit : ∀ m, mergeAll {} dbs = .ok m → Fits xenv.host xenv.depth m) :
    ∃ fs1 fs2 bytes, mergeMain env args fs = .ok (0, fs1) ∧ fileMain xenv xargs fs1 = some (.ok (0, fs2)) ∧
      fs2.read file = some bytes ∧
      ∀ base loadAddr database dont, base + arenaSize < Reloc.W64 → database < Reloc.W64 →
        ∃ mem, Reloc.load base loadAddr database dont bytes = .ok (some mem) ∧ Answers dbs base database mem ∧
          Details dbs base database mem := by
  obtain ⟨m, fs1, h1, h2, ⟨data, h3, h4⟩, hst, _, h5⟩ :=
    C72_output_is_the_merge_partial env fs args out [] [] inputs dbs hc hin hcol hw (by simp)
  have hf := hfit m h2
  obtain ⟨F, p, bytes, hF, hb, N, hload⟩ := C85_loaded_partial xenv.host hg xenv.depth 0 (by decide) m hf
  obtain ⟨fs2, k1, k2, _⟩ := C85_file_written xenv fs1 xargs out file data m hx h3 (by rw [hcfg]; exact h4) bytes hb
    (by rw [(h5 rfl rfl).2]; exact hw2)
  refine ⟨fs1, fs2, bytes, h1, k1, k2, ?_⟩
  intro base loadAddr database dont hbase hdb
  obtain ⟨mem, m1, m2, L, R⟩ := hload base loadAddr database dont hbase hdb
  refine ⟨mem, m1, answers_of h2 hst (hf.ready hg) hF (readdress_laid L _) (readdress_linked N _) R m2 ?_,
    details_of h2 hst (hf.ready hg) hF (readdress_laid L _) (readdress_linked N _) R m2⟩
  intro s hs
  exact ⟨fun n hn => hcol.1 s hs n hn, (inputs_names hin s hs).names_nonzero⟩

/-! ## Example -/

/-- All hypotheses of the theorem, and some of what it says then: the method has its number and its parameter, and the enum its size. -/
example : ∃ fs1 fs2 bytes, mergeMain exampleEnv [b!"clmerge", b!"out.csv", b!"a.csv", b!"b.csv"] unitFiles = .ok (0, fs1) ∧
    fileMain unitFileEnv [b!"clexport", b!"out.csv", b!"-cpp", b!"out.cppbin"] fs1 = some (.ok (0, fs2)) ∧
    fs2.read b!"out.cppbin" = some bytes ∧ ∃ mem, Reloc.load 4096 0 8 false bytes = .ok (some mem) ∧
    (∃ a, getType 4096 mem (hashOf b!"g::D") = .ok a ∧
      ∃ b, findPrimitive 4096 mem (a + offsetOf cls b!"methods") (hashOf b!"g::D::F") = .ok b ∧
        read 4096 mem (b + offsetOf function b!"unique_id") 4 = .ok 1 ∧
        ∃ l, PointersRead 4096 mem (b + offsetOf function b!"parameters") l ∧ ∃ c ∈ l, PrimitiveAt 4096 mem 8 c .field (TextDB.nm b!"p")) ∧
    ∃ e, getType 4096 mem (hashOf b!"g::E") = .ok e ∧ read 4096 mem (e + offsetOf type b!"size") 8 = .ok 4 := by
  obtain ⟨fs1, fs2, bytes, h1, h2, h3, h4⟩ := C86_details_partial exampleEnv unitFileEnv rfl sampleHost_good unitFiles
    [b!"clmerge", b!"out.csv", b!"a.csv", b!"b.csv"] b!"out.csv" b!"out.cppbin" [b!"a.csv", b!"b.csv"] [unitA, unitB]
    ⟨⟨b!"clmerge", [], rfl, .none, by unfold Plain; decide⟩, by unfold Plain; decide, by unfold Plain; decide,
      by unfold Plain; decide, by unfold Plain; decide, by decide⟩
    (.cons rfl (.text unitA_storable) unitA_storable (.cons rfl (.text unitB_storable) unitB_storable .nil))
    (by unfold NoCollisions; exact ⟨by decide +kernel, by decide +kernel⟩) rfl rfl
    [b!"clexport", b!"out.csv", b!"-cpp", b!"out.cppbin"]
    ⟨⟨b!"clexport", [], rfl, .inl rfl, by decide, by decide⟩, by decide, by decide⟩ units_fit
  obtain ⟨mem, h5, A, D⟩ := h4 4096 0 8 false (by decide) (by decide)
  refine ⟨fs1, fs2, bytes, h1, h2, h3, mem, h5, ?_, ?_⟩
  · obtain ⟨a, f1, f2, f3⟩ := A.types (hashOf b!"g::D")
    have h0 := f2.mpr ⟨unitA, by simp, .cls, by decide, _, List.mem_map_of_mem (List.mem_singleton.mpr rfl), rfl⟩
    obtain ⟨d, hd, k, hk, q, hq, e, hp⟩ := f3 h0
    have : ∀ k ∈ typeKinds, ∀ d ∈ [unitA, unitB], ∀ p ∈ entries d k, p.name.hash = hashOf b!"g::D" → k = .cls := by decide +kernel
    obtain rfl := this k hk d hd q hq e
    obtain ⟨b, g1, g2, _⟩ := A.methods _ a f1 h0 hp.kind (hashOf b!"g::D::F")
    have hF : DeclaresFunction [unitA, unitB] (hashOf b!"g::D") (hashOf b!"g::D::F") := by
      refine ⟨unitA, by simp, { name := TextDB.nm b!"g::D::F", parent := TextDB.nm b!"g::D", uniqueId := 1 }, by decide +kernel, rfl, rfl, ?_⟩
      intro d hd y hy hpar
      have : ∀ d ∈ [unitA, unitB], ∀ y ∈ d.fields, y.parent.hash = hashOf b!"g::D::F" → y.type.hash = hashOf b!"int" := by decide +kernel
      have hi := this d hd y hy hpar.1
      exact ⟨unitB, by simp, .type, by decide, _, List.mem_map_of_mem (List.mem_singleton.mpr rfl), hi.symm⟩
    obtain ⟨d, hd, x, hx, e1, e2, H⟩ := D.methods _ a f1 h0 hp.kind _ b g1 (g2.mpr hF)
    have : ∀ d ∈ [unitA, unitB], ∀ x ∈ d.functions, x.name = TextDB.nm b!"g::D::F" ∧ x.uniqueId = 1 := by decide +kernel
    obtain ⟨x1, x2⟩ := this d hd x hx
    obtain ⟨l, l1, _, _, l4⟩ := H.parameters
    refine ⟨a, f1, b, g1, ?_, l, l1, ?_⟩
    · rw [H.uniqueId, x2]; rfl
    · obtain ⟨c, hc, d', hd', y', hy', hs, hf⟩ := l4 unitA (by simp)
        { name := TextDB.nm b!"p", parent := TextDB.nm b!"g::D::F", type := TextDB.nm b!"int", offset := 0, parentUniqueId := 1 }
        (by decide +kernel) (by unfold ParameterOf; rw [x1, x2]; exact ⟨rfl, rfl⟩) (by unfold IsReturn; decide +kernel)
      have : ∀ d ∈ [unitA, unitB], ∀ y ∈ d.fields, y.name.hash = hashOf b!"p" → y.name = TextDB.nm b!"p" := by decide +kernel
      refine ⟨c, hc, ?_⟩
      rw [← this d' hd' y' hy' hs.1]
      exact hf.prim
  · obtain ⟨a, f1, f2, f3⟩ := A.types (hashOf b!"g::E")
    have h0 := f2.mpr ⟨unitB, by simp, .enum, by decide, _, List.mem_map_of_mem (List.mem_singleton.mpr rfl), rfl⟩
    obtain ⟨d, hd, k, hk, q, hq, e, hp⟩ := f3 h0
    have : ∀ k ∈ typeKinds, ∀ d ∈ [unitA, unitB], ∀ p ∈ entries d k, p.name.hash = hashOf b!"g::E" → k = .enum := by decide +kernel
    obtain rfl := this k hk d hd q hq e
    obtain ⟨d, hd, x, hx, _, hs⟩ := D.enumSizes _ a f1 h0 hp.kind
    have : ∀ d ∈ [unitA, unitB], ∀ x ∈ d.enums, x.size = 4 := by decide +kernel
    refine ⟨a, f1, ?_⟩
    rw [hs, this d hd x hx]
    rfl

end Clr.Tools
