import Verif.Props.EndToEnd
import Verif.Props.ExportLinks
/-
C87 What is in the memory of an exported database: every member of every object.
-/
namespace Clr.Tools
open Clr Clr.DB Clr.Args Clr.Merge Clr.Layout Clr.Image
open Clr.Export (K Slot Ref entries entry Ready typeKinds St Records AttributeOf HasType GoodFunction Named SetsBit TypeNamed FunctionNamed
  FirstFunctionNamed ContainerOf)
attribute [local irreducible] hashOf

/-! ## Specification -/

/-- At address `a` there is a number or pointer. -/
abbrev Reads (base : Nat) (mem : Bytes) (a width v : Nat) : Prop := read base mem a width = .ok v

/-- At address `a` there is an array of pointers (inc/clcpp/clcpp.h:427-451) with these elements. -/
def PointersAt (base : Nat) (mem : Bytes) (a : Nat) (l : List Nat) : Prop :=
  Reads base mem (a + offsetOf cArray b!"size") 4 l.length ∧
  ∀ i v, l[i]? = some v → ∃ data, Reads base mem (a + offsetOf cArray b!"data") 8 data ∧ Reads base mem (data + i * 8) 8 v

/-- The pointer at address `a` is null if nothing has property `P`, and otherwise leads to something that has. -/
def LeadsTo (base : Nat) (mem : Bytes) (at' : Ref → Nat) (a : Nat) (P : Ref → Prop) : Prop :=
  (Reads base mem a 8 0 ∧ ∀ r, ¬ P r) ∨ ∃ r, P r ∧ Reads base mem a 8 (at' r)

/-- A type or function of the database with this name. -/
def TargetNamed (db : Database) (n : UInt32) (t : Ref) : Prop :=
  (t.1 ∈ typeKinds ∨ t.1 = .function) ∧ ∃ q, entry db t = some q ∧ q.name.hash = n

/-- The function makes or destroys the objects of a template type. -/
def ServesTemplateType (db : Database) (f r : Ref) : Prop :=
  r.1 = .instance ∧ (∃ q, entry db r = some q) ∧
  (FirstFunctionNamed db f (Export.nameText db r ++ b!"::ConstructObject") ∨
   FirstFunctionNamed db f (Export.nameText db r ++ b!"::DestructObject"))

/-- The last container that describes `r`. -/
def LastContainerOf (db : Database) (r c : Ref) : Prop :=
  ∃ i x, c = (.container, i) ∧ db.containerInfos[i]? = some x ∧ ContainerOf db x.name.hash r ∧
    ∀ j y, i < j → db.containerInfos[j]? = some y → ¬ ContainerOf db y.name.hash r

/-- The arrays of the global namespace. -/
def globalTable : List (Slot × K) :=
  [(.namespaces, .space), (.types, .type), (.enums, .enum), (.classes, .cls), (.functions, .function), (.templates, .template)]

/-- The memory holds the database: its objects are at the addresses `at'`, with all their members, functions having the address
`move` makes of theirs. -/
structure Contents (db : Database) (base database : Nat) (mem : Bytes) (move : Nat → Nat) (at' : Ref → Nat) : Prop where
  /-- the tables of the database -/
  tables : ∀ k, Reads base mem (base + offsetOf databaseMem (tableMember k) + offsetOf cArray b!"size") 4 (Export.tableSize db k) ∧
    ∃ data, Reads base mem (base + offsetOf databaseMem (tableMember k) + offsetOf cArray b!"data") 8 data ∧
      ∀ i, at' (k, i) = data + i * (structOf k).lay.size
  /-- no two objects at one address -/
  distinct : ∀ r r', r.2 < Export.tableSize db r.1 → r'.2 < Export.tableSize db r'.1 → at' r = at' r' → r = r'
  prims : ∀ r q, entry db r = some q → PrimitiveAt base mem database (at' r) r.1 q.name
  /-- the pointer from a child to its parent; that of the functions that make and destroy objects of template types leads to
  one of these types -/
  parents : ∀ c p, entry db c = some p → (∀ r, ¬ ServesTemplateType db c r) →
    LeadsTo base mem at' (at' c + offsetOf primitive b!"parent") fun r => Records db c r ∨ AttributeOf db c r
  makers : ∀ c p, entry db c = some p → (∃ r, ServesTemplateType db c r) →
    LeadsTo base mem at' (at' c + offsetOf primitive b!"parent") (ServesTemplateType db c)
  /-- the arrays of a scope: what records the scope as its parent, except for what lacks types, and the return value -/
  scopes : ∀ pk s ck, (pk, s, ck) ∈ Export.scopeTable → ∀ i q, entry db (pk, i) = some q →
    ∃ l : List Ref, PointersAt base mem (at' (pk, i) + offsetOf (structOf pk) (slotName s)) (l.map at') ∧ l.Nodup ∧
      ∀ c, c ∈ l ↔ c.1 = ck ∧ Records db c (pk, i) ∧ (pk = .cls → s = .fields → ∃ t, HasType db c t) ∧
        (s = .methods ∨ (pk = .space ∧ s = .functions) → GoodFunction db c) ∧
        (s = .parameters → ¬ Reads base mem (at' (pk, i) + offsetOf function b!"return_parameter") 8 (at' c))
  attributes : ∀ pk ∈ [K.enum, .field, .function, .cls], ∀ i q, entry db (pk, i) = some q →
    ∃ l : List Ref, PointersAt base mem (at' (pk, i) + offsetOf (structOf pk) b!"attributes") (l.map at') ∧ l.Nodup ∧
      ∀ c, c ∈ l ↔ AttributeOf db c (pk, i)
  globals : ∀ x ∈ globalTable, ∃ l : List Ref,
    PointersAt base mem (base + (offsetOf databaseMem b!"global_namespace" + offsetOf ns (slotName x.1))) (l.map at') ∧
      ∀ r, r ∈ l ↔ r.1 = x.2 ∧ ∃ p, entry db r = some p ∧ p.parent.hash = 0
  /-- flags of enums, fields and functions -/
  flags : ∀ pk ∈ [K.enum, .field, .function], ∀ i q, entry db (pk, i) = some q →
    ∃ v, Reads base mem (at' (pk, i) + offsetOf (structOf pk) b!"flag_attributes") 4 v ∧
      ∀ b < 32, v.testBit b = true ↔ ∃ a, AttributeOf db a (pk, i) ∧ SetsBit db a b
  types : ∀ i x, db.types[i]? = some x → Reads base mem (at' (.type, i) + offsetOf type b!"size") 8 x.size.toNat
  enums : ∀ i x, db.enums[i]? = some x → Reads base mem (at' (.enum, i) + offsetOf type b!"size") 8 x.size.toNat
  classes : ∀ i x, db.classes[i]? = some x → Reads base mem (at' (.cls, i) + offsetOf type b!"size") 8 x.size.toNat
  constants : ∀ i x, db.enumConstants[i]? = some x →
    Reads base mem (at' (.constant, i) + offsetOf enumConstant b!"value") 4 x.value.toBitVec.toNat
  fields : ∀ i x, db.fields[i]? = some x →
    LeadsTo base mem at' (at' (.field, i) + offsetOf field b!"type") (TypeNamed db x.type.hash) ∧
    Reads base mem (at' (.field, i) + (offsetOf field b!"qualifier" + offsetOf qualifier b!"op")) 4
      (match x.qualifier.op with | .value => 0 | .pointer => 1 | .reference => 2) ∧
    Reads base mem (at' (.field, i) + (offsetOf field b!"qualifier" + offsetOf qualifier b!"is_const")) 1 x.qualifier.isConst.toNat ∧
    Reads base mem (at' (.field, i) + offsetOf field b!"offset") 4 x.offset.toBitVec.toNat ∧
    Reads base mem (at' (.field, i) + offsetOf field b!"parent_unique_id") 4 x.parentUniqueId.toNat
  functions : ∀ i x, db.functions[i]? = some x →
    Reads base mem (at' (.function, i) + offsetOf function b!"address") 8 (move x.address.toNat) ∧
    Reads base mem (at' (.function, i) + offsetOf function b!"unique_id") 4 x.uniqueId.toNat ∧
    LeadsTo base mem at' (at' (.function, i) + offsetOf function b!"return_parameter") fun c =>
      c.1 = .field ∧ Records db c (.function, i) ∧ Named db c b!"return"
  /-- template types with their arguments -/
  instances : ∀ i x, db.templateTypes[i]? = some x →
    Reads base mem (at' (.instance, i) + offsetOf type b!"size") 8 x.size.toNat ∧
    ∀ j a, [x.a0, x.a1, x.a2, x.a3][j]? = some a →
      LeadsTo base mem at' (at' (.instance, i) + (offsetOf templateType b!"parameter_types" + j * 8)) (TypeNamed db a.type.hash) ∧
      Reads base mem (at' (.instance, i) + (offsetOf templateType b!"parameter_ptrs" + j)) 1 a.ptr.toNat
  ints : ∀ i x, db.intAttributes[i]? = some x →
    Reads base mem (at' (.intAttr, i) + offsetOf intAttribute b!"value") 4 x.value.toBitVec.toNat
  floats : ∀ i x, db.floatAttributes[i]? = some x →
    Reads base mem (at' (.floatAttr, i) + offsetOf intAttribute b!"value") 4 x.bits.toNat
  texts : ∀ i x, db.textAttributes[i]? = some x → ∃ q, Reads base mem (at' (.textAttr, i) + offsetOf textAttribute b!"value") 8 q ∧
    (0 ∉ x.value → readText base mem q = .ok x.value)
  targets : ∀ i x, db.primitiveAttributes[i]? = some x →
    LeadsTo base mem at' (at' (.primAttr, i) + offsetOf primitiveAttribute b!"primitive") (TargetNamed db x.value.hash)
  containers : ∀ i x, db.containerInfos[i]? = some x →
    Reads base mem (at' (.container, i) + offsetOf containerInfo b!"flags") 4 x.flags.toNat ∧
    Reads base mem (at' (.container, i) + offsetOf containerInfo b!"count") 4 x.count.toNat ∧
    Reads base mem (at' (.container, i) + (offsetOf containerInfo b!"name" + offsetOf name b!"hash")) 4 x.name.hash.toNat
  /-- base types, and the flags that classes get from them -/
  bases : Export.UniqueTypes db → ∀ k ∈ typeKinds, ∀ i q, entry db (k, i) = some q →
    ∃ l : List Ref, PointersAt base mem (at' (k, i) + offsetOf type b!"base_types") (l.map at') ∧
      ∀ b, b ∈ l ↔ Export.InheritsFrom db (k, i) b
  classFlags : Export.UniqueTypes db → ∀ i q, entry db (.cls, i) = some q →
    ∃ v, Reads base mem (at' (.cls, i) + offsetOf cls b!"flag_attributes") 4 v ∧
      ∀ b < 32, v.testBit b = true ↔ (∃ a, AttributeOf db a (.cls, i) ∧ SetsBit db a b) ∨
        ∃ r, Export.Ancestor db (.cls, i) r ∧ r.1 = .cls ∧ Export.PassesOn db r b
  /-- constructors and destructors -/
  classFunctions : ∀ i q, entry db (.cls, i) = some q →
    (LeadsTo base mem at' (at' (.cls, i) + offsetOf cls b!"constructor") fun f =>
      Records db f (.cls, i) ∧ FunctionNamed db f (Export.nameText db (.cls, i) ++ b!"::ConstructObject")) ∧
    LeadsTo base mem at' (at' (.cls, i) + offsetOf cls b!"destructor") fun f =>
      Records db f (.cls, i) ∧ FunctionNamed db f (Export.nameText db (.cls, i) ++ b!"::DestructObject")
  instanceFunctions : ∀ i q, entry db (.instance, i) = some q →
    (LeadsTo base mem at' (at' (.instance, i) + offsetOf templateType b!"constructor") fun f =>
      FirstFunctionNamed db f (Export.nameText db (.instance, i) ++ b!"::ConstructObject")) ∧
    LeadsTo base mem at' (at' (.instance, i) + offsetOf templateType b!"destructor") fun f =>
      FirstFunctionNamed db f (Export.nameText db (.instance, i) ++ b!"::DestructObject")
  /-- the containers of types and fields, and the iterators of containers -/
  typeContainers : Export.UniqueTypes db → ∀ k ∈ typeKinds, ∀ i q, entry db (k, i) = some q →
    LeadsTo base mem at' (at' (k, i) + offsetOf type b!"ci") (LastContainerOf db (k, i))
  fieldContainers : Export.UniqueTypes db → ∀ i q, entry db (.field, i) = some q →
    LeadsTo base mem at' (at' (.field, i) + offsetOf field b!"ci") (LastContainerOf db (.field, i))
  iterators : Export.UniqueTypes db → ∀ i x, db.containerInfos[i]? = some x →
    (LeadsTo base mem at' (at' (.container, i) + offsetOf containerInfo b!"read_iterator_type") fun t =>
      x.readIterator.hash ≠ 0 ∧ TypeNamed db x.readIterator.hash t) ∧
    LeadsTo base mem at' (at' (.container, i) + offsetOf containerInfo b!"write_iterator_type") fun t =>
      x.writeIterator.hash ≠ 0 ∧ TypeNamed db x.writeIterator.hash t

/-! ## Proofs -/

theorem read_null {base : Nat} {img : Bytes} {o : Nat} (h : Holds base img (o, .ptr none)) :
    read base img (base + o) 8 = .ok 0 := read_holds (word_num.1 h)

theorem pointers_at {base : Nat} {mem : Bytes} {p : Place} {o : Nat} {l : List Ref} {data : Option Nat}
    (h : ∀ c ∈ arrayCells o l.length data, Holds base mem c) (hd : l ≠ [] → data ≠ none)
    (he : ∀ c ∈ optEntries p data l, Holds base mem c) :
    PointersAt base mem (base + o) (l.map fun r => base + p.at r) := by
  have A := array_is (stride := 8) h (fun hn => hd (fun e => hn (by rw [e]; rfl)))
  refine ⟨by rw [List.length_map]; exact A.size, ?_⟩
  intro i v hv
  rw [List.getElem?_map, Option.map_eq_some_iff] at hv
  obtain ⟨r, hr, rfl⟩ := hv
  obtain ⟨hlt, _⟩ := List.getElem?_eq_some_iff.mp hr
  obtain ⟨d, h1, h2⟩ := A.entry i hlt
  refine ⟨d, h1, ?_⟩
  rw [h2]
  cases data with
  | none => exact absurd rfl (hd (fun e => by rw [e] at hr; cases hr))
  | some t =>
    refine read_ptr (he (t + i * 8, .ptr (some (p.at r))) ?_)
    unfold optEntries entryCells
    rw [List.mem_map]
    exact ⟨(r, i), by rw [List.mem_zipIdx_iff_getElem?]; exact hr, rfl⟩

theorem at_inj {p : Place} {d : Data} {size : Nat} (L : Laid p d size) {r r' : Ref} (hr : Exists d r) (hr' : Exists d r')
    (h : p.at r = p.at r') : r = r' := by
  obtain ⟨k, i⟩ := r
  obtain ⟨k', j⟩ := r'
  have hi : i < d.st.count k := hr
  have hj : j < d.st.count k' := hr'
  have s1 := Image.stride_pos k
  have s2 := Image.stride_pos k'
  unfold Place.at at h
  simp only at h
  have e1 : (i + 1) * stride k ≤ d.st.count k * stride k := Nat.mul_le_mul_right _ hi
  have e2 : (j + 1) * stride k' ≤ d.st.count k' * stride k' := Nat.mul_le_mul_right _ hj
  rw [Nat.succ_mul] at e1 e2
  by_cases hk : k = k'
  · subst hk
    have : i * stride k = j * stride k := by omega
    rw [Nat.eq_of_mul_eq_mul_right (by omega) this]
  · rcases L.apart (.table k) (.table k') (by intro e; injection e with e; exact hk e) _ _ _ _ rfl rfl with h1 | h1 <;> omega

section
variable {env : Export.Env} {fuel fb : Nat} {m : Database}
  (hst : TextsKnown m) (hr : Ready env fuel m) {F : St} (hF : Export.exportDB env fuel m = some (.ok F))
  {p : Place} {f : Nat → Nat} {database base : Nat} {mem : Bytes} (L : Laid p ((dataOf fb m F).readdress f) mem.length)
  (N : Linked ((dataOf fb m F).readdress f)) (R : Represents p ((dataOf fb m F).readdress f) database base mem)

include hr hF in
theorem exists_row {r : Ref} : Exists ((dataOf fb m F).readdress f) r ↔ r.2 < Export.tableSize m r.1 := by
  show r.2 < F.count r.1 ↔ _
  rw [(Export.final_of hr.exportable hF).count]
  show r.2 < (Export.rows m r.1).length ↔ _
  rw [← Image.table_rows]

include R in
theorem num_at {r : Ref} (h : Exists ((dataOf fb m F).readdress f) r) (o w v : Nat)
    (hv : (o, Val.num w v) ∈ objectCells p ((dataOf fb m F).readdress f) database r) : Reads base mem (base + p.at r + o) w v := by
  unfold Reads
  rw [Nat.add_assoc]
  exact read_holds (rep_object R h _ hv)

include R in
/-- A pointer member. -/
theorem leads_to {r : Ref} (h : Exists ((dataOf fb m F).readdress f) r) (o : Nat) (x : Option Ref) (P : Ref → Prop)
    (hv : (o, Val.ptr (x.map p.at)) ∈ objectCells p ((dataOf fb m F).readdress f) database r)
    (h1 : x = none → ∀ t, ¬ P t) (h2 : ∀ t, x = some t → P t) :
    LeadsTo base mem (fun r => base + p.at r) (base + p.at r + o) P := by
  have := rep_object R h _ hv
  unfold LeadsTo Reads
  rw [Nat.add_assoc]
  cases x with
  | none => exact .inl ⟨read_null this, h1 rfl⟩
  | some t => exact .inr ⟨t, h2 t rfl, read_ptr this⟩

theorem opt_ptr (p : Place) (x : Option Ref) : p.ptr (Export.optPtr x) = .ptr (x.map p.at) := by
  cases x <;> rfl

theorem known_keys {n : UInt32} (h : Export.Known m n) : n ∈ Export.nameKeys m := by
  obtain ⟨x, hx, rfl⟩ := h
  unfold Export.nameKeys
  exact List.mem_append_left _ (List.mem_map_of_mem hx)

include hr hF in
/-- The type `Link` finds. -/
theorem found_type (n : UInt32) :
    (((Export.copied m).typePrims.find? fun t => ((Export.copied m).get t).hash == n) = none → ∀ t, ¬ TypeNamed m n t) ∧
    ∀ t, ((Export.copied m).typePrims.find? fun t => ((Export.copied m).get t).hash == n) = some t → TypeNamed m n t := by
  obtain ⟨_, _, _, _, hmem, hh⟩ := Export.C18_tables_sorted_partial env fuel m hr F hF
  have fin := Export.final_of hr.exportable hF
  have hin : ∀ t, t ∈ (Export.copied m).typePrims ↔ t.1 ∈ typeKinds ∧ ∃ p, entry m t = some p := by
    intro t; rw [← fin.types.mem_iff]; exact hmem t
  constructor
  · rintro h t ⟨hk, q, hq, hn⟩
    have := List.find?_eq_none.mp h t ((hin t).mpr ⟨hk, q, hq⟩)
    rw [← fin.hash, hh t q hq, hn] at this
    simp at this
  · intro t h
    obtain ⟨hk, q, hq⟩ := (hin t).mp (List.mem_of_find?_eq_some h)
    have := List.find?_some h
    rw [← fin.hash, hh t q hq] at this
    exact ⟨hk, q, hq, by simpa using this⟩

include hr hF in
/-- What `AssignPrimitiveAttributes` finds. -/
theorem found_target (n : UInt32) :
    (((F.typePrims ++ F.all .function).reverse.find? fun t => (F.get t).hash == n) = none → ∀ t, ¬ TargetNamed m n t) ∧
    ∀ t, ((F.typePrims ++ F.all .function).reverse.find? fun t => (F.get t).hash == n) = some t → TargetNamed m n t := by
  obtain ⟨_, _, _, _, hmem, hh⟩ := Export.C18_tables_sorted_partial env fuel m hr F hF
  have fin := Export.final_of hr.exportable hF
  have hin : ∀ t, t ∈ (F.typePrims ++ F.all .function).reverse ↔ (t.1 ∈ typeKinds ∨ t.1 = .function) ∧ ∃ p, entry m t = some p := by
    intro t
    rw [List.mem_reverse, List.mem_append, hmem, Export.mem_all]
    constructor
    · rintro (⟨h1, h2⟩ | ⟨h1, h2⟩)
      · exact ⟨.inl h1, h2⟩
      · refine ⟨.inr h1, Export.copied_entry ?_ (by rw [h1]; simp)⟩
        unfold Export.Valid at h2 ⊢
        rw [fin.count] at h2
        exact h2
    · rintro ⟨h1 | h1, q, hq⟩
      · exact .inl ⟨h1, q, hq⟩
      · refine .inr ⟨h1, ?_⟩
        have := (Export.entry_copied hq).1
        unfold Export.Valid at this ⊢
        rw [fin.count]
        exact this
  constructor
  · rintro h t ⟨hk, q, hq, hn⟩
    have := List.find?_eq_none.mp h t ((hin t).mpr ⟨hk, q, hq⟩)
    rw [hh t q hq, hn] at this
    simp at this
  · intro t h
    obtain ⟨hk, q, hq⟩ := (hin t).mp (List.mem_of_find?_eq_some h)
    have := List.find?_some h
    rw [hh t q hq] at this
    exact ⟨hk, q, hq, by simpa using this⟩

include L R in
/-- A pointer array of an object. -/
theorem kids_at {r : Ref} (hx : Exists ((dataOf fb m F).readdress f) r) {s : Slot} (hs : s ∈ slotsOf r.1) :
    PointersAt base mem (base + p.at r + offsetOf (structOf r.1) (slotName s)) (((F.get r).kids s).map fun r => base + p.at r) := by
  rw [Nat.add_assoc]
  refine pointers_at (data := p.kids r s) ?_ (L.kids r s hx hs) ?_
  · intro c hc
    rw [← shift_array] at hc
    obtain ⟨c', hc', rfl⟩ := List.mem_map.1 hc
    exact rep_object R hx c' (kids_sub p _ database r s hs c' hc')
  · refine rep_array R ?_
    intro c hc
    unfold pointerArrays
    simp only [List.mem_append]
    exact .inr (List.mem_flatMap.2 ⟨r.1, mem_kinds _, List.mem_flatMap.2 ⟨r, Image.mem_all.2 ⟨rfl, hx⟩,
      List.mem_flatMap.2 ⟨s, hs, hc⟩⟩⟩)

include L R in
/-- A pointer array of the global namespace. -/
theorem globals_at {s : Slot} (hs : s ∈ spaceMembers.map (·.1)) :
    PointersAt base mem (base + (offsetOf databaseMem b!"global_namespace" + offsetOf ns (slotName s)))
      ((F.globals s).map fun r => base + p.at r) := by
  refine pointers_at (data := p.globals s) (fun c hc => rep_header R c (header_globals p _ hs c hc)) (L.globals s hs) ?_
  refine rep_array R ?_
  intro c hc
  unfold pointerArrays
  simp only [List.mem_append]
  obtain ⟨x, hx, rfl⟩ := List.mem_map.mp hs
  exact .inl (.inr (List.mem_flatMap.2 ⟨x, hx, hc⟩))

theorem row_lt {α : Type} {l : List α} {i : Nat} {x : α} (h : l[i]? = some x) : i < l.length :=
  (List.getElem?_eq_some_iff.mp h).1

theorem row_getD {α : Type} {l : List α} {i : Nat} {x d : α} (h : l[i]? = some x) : l.getD i d = x := by
  rw [List.getD_eq_getElem?_getD, h]; rfl

theorem copied_row {r : Ref} {o : Export.Obj} (h : (Export.rows m r.1)[r.2]? = some o) : (Export.copied m).get r = o := by
  unfold Export.copied
  simp only
  rw [List.getD_eq_getElem?_getD, h]
  rfl

include hst hr hF L N R

/-- The memory holds the database. -/
theorem contents_of
    (hargs : ∀ t ∈ m.templateTypes, ∀ x ∈ [t.a0, t.a1, t.a2, t.a3], x.type.hash = 0 ∨ Export.Known m x.type.hash)
    (htgt : ∀ a ∈ m.primitiveAttributes, a.value.hash = 0 ∨ Export.Known m a.value.hash)
    (hown : ∀ i, i < m.primitiveAttributes.length → ∃ r, AttributeOf m (.primAttr, i) r) :
    Contents m base database mem f fun r => base + p.at r := by
  have fin := Export.final_of hr.exportable hF
  have hx : ∀ {r : Ref} {q : Prim}, entry m r = some q → Exists ((dataOf fb m F).readdress f) r := fun h => exists_entry hr hF h
  have sc : ∀ (r : Ref) (s : Scalar), r.1 ≠ .function → ((dataOf fb m F).readdress f).scalar r s = scalarOf m r s :=
    fun r s h => readdress_other _ f r s (.inl h)
  have hdist : ∀ {r r' : Ref}, Exists ((dataOf fb m F).readdress f) r → Exists ((dataOf fb m F).readdress f) r' →
      base + p.at r = base + p.at r' → r = r' := fun h1 h2 e => at_inj L h1 h2 (by omega)
  have hrowx : ∀ (k : K) (i : Nat), i < Export.tableSize m k → Exists ((dataOf fb m F).readdress f) (k, i) :=
    fun k i h => (exists_row (r := (k, i)) hr hF).mpr h
  have hserve : ∀ c q, c.1 = .function → entry m c = some q → ∀ r, ServesTemplateType m c r ↔
      (r.1 = .instance ∧ (∃ q, entry m r = some q) ∧ ((F.get r).ctor = some c ∨ (F.get r).dtor = some c)) := by
    intro c q hc h r
    unfold ServesTemplateType
    constructor
    · rintro ⟨e1, ⟨q, e2⟩, e3⟩
      obtain ⟨t1, t2⟩ := Export.C88_template_type_constructors env fuel m hr F hF r e1 q e2 c
      rw [← t1, ← t2] at e3
      exact ⟨e1, ⟨q, e2⟩, e3⟩
    · rintro ⟨e1, ⟨q, e2⟩, e3⟩
      obtain ⟨t1, t2⟩ := Export.C88_template_type_constructors env fuel m hr F hF r e1 q e2 c
      rw [t1, t2] at e3
      exact ⟨e1, ⟨q, e2⟩, e3⟩
  have hpcell : ∀ c q, entry m c = some q →
      (offsetOf primitive b!"parent", p.ptr (F.get c).parent) ∈ objectCells p ((dataOf fb m F).readdress f) database c := by
    intro c q h
    have hk := (Export.entry_copied h).2.1
    have hc : ∀ y ∈ primCells p ((dataOf fb m F).readdress f) database c, y ∈ objectCells p ((dataOf fb m F).readdress f) database c := by
      obtain ⟨k, i⟩ := c
      intro y hy
      cases k <;> simp [objectCells, typeCells, hy] at hk ⊢
    refine hc _ ?_
    simp only [primCells, List.mem_append, List.mem_cons]
    exact .inr (.inl rfl)
  refine ⟨?_, ?_, ?_, ?_, ?_, ?_, ?_, ?_, ?_, ?_, ?_, ?_, ?_, ?_, ?_, ?_, ?_, ?_, ?_, ?_, ?_, ?_, ?_, ?_, ?_, ?_, ?_, ?_⟩
  · intro k
    have hc : ((dataOf fb m F).readdress f).st.count k = Export.tableSize m k := by
      show F.count k = _
      rw [fin.count]
      show (Export.rows m k).length = _
      rw [← Image.table_rows]
    have h1 := read_holds (rep_header R _ (header_table p _ k _ (by simp [arrayCells] :
      (offsetOf databaseMem (tableMember k) + offsetOf cArray b!"size", Val.num 4 (((dataOf fb m F).readdress f).st.count k)) ∈ _)))
    have h2 := read_ptr (rep_header R _ (header_table p _ k _ (by simp [arrayCells] :
      (offsetOf databaseMem (tableMember k) + offsetOf cArray b!"data", Val.ptr (some (p.table k))) ∈ _)))
    rw [hc] at h1
    refine ⟨by unfold Reads; rw [Nat.add_assoc]; exact h1, base + p.table k, by unfold Reads; rw [Nat.add_assoc]; exact h2, ?_⟩
    intro i
    show base + (p.table k + i * stride k) = base + p.table k + i * stride k
    omega
  · intro r r' h1 h2 e
    exact hdist ((exists_row hr hF).mpr h1) ((exists_row hr hF).mpr h2) e
  · intro r q h
    exact prim_at hr hF L R hst h
  · intro c q h hn
    have hcell := hpcell c q h
    have hb : (∀ r, Records m c r ∨ AttributeOf m c r → (F.get c).parent = .obj r) ∧
        (c.1 ≠ .primAttr → (∀ r, ¬ Records m c r ∧ ¬ AttributeOf m c r) → (F.get c).parent = .raw 0) := by
      by_cases hc : c.1 = .function
      · obtain ⟨_, g⟩ := Export.C88_function_parents env fuel m hr F hF c hc q h
        obtain ⟨g1, g2⟩ := g (fun r e => hn r ((hserve c q hc h r).mpr e))
        refine ⟨?_, fun _ hno => g2 fun r => (hno r).1⟩
        rintro r (e | ⟨e, _⟩)
        · exact g1 r e
        · rw [hc] at e; exact absurd e (by decide)
      · exact Export.C17_back_pointers_partial env fuel m hr F hF c q h (fun e => absurd e hc)
    obtain ⟨b1, b2⟩ := hb
    by_cases hp : ∃ r, Records m c r ∨ AttributeOf m c r
    · obtain ⟨r, hrp⟩ := hp
      rw [b1 r hrp] at hcell
      exact leads_to R (hx h) _ (some r) _ hcell (by simp) (by intro t e; cases e; exact hrp)
    · have hno : ∀ r, ¬ (Records m c r ∨ AttributeOf m c r) := fun r hr' => hp ⟨r, hr'⟩
      have hne : c.1 ≠ .primAttr := by
        intro e
        obtain ⟨k, i⟩ := c
        obtain rfl : k = .primAttr := e
        obtain ⟨r, hro⟩ := hown i (by
          have := Export.entry_lt h
          simpa [entries] using this)
        exact hno r (.inr hro)
      rw [b2 hne (fun r => ⟨fun e => hno r (.inl e), fun e => hno r (.inr e)⟩)] at hcell
      exact leads_to R (hx h) _ none _ hcell (fun _ => hno) (by simp)
  · rintro c q h ⟨r, hs⟩
    have hc : c.1 = .function := by
      rcases hs.2.2 with e | e
      · exact e.1.1
      · exact e.1.1
    obtain ⟨g, _⟩ := Export.C88_function_parents env fuel m hr F hF c hc q h
    obtain ⟨r', h1, h2⟩ := g ⟨r, (hserve c q hc h r).mp hs⟩
    have hcell := hpcell c q h
    rw [h2] at hcell
    exact leads_to R (hx h) _ (some r') _ hcell (by simp) (by intro t e; cases e; exact (hserve c q hc h r').mpr h1)
  · intro pk s ck hrow i q h
    obtain ⟨g1, g2⟩ := Export.C17_scope_arrays_partial env fuel m hr F hF pk s ck hrow i (Export.entry_lt h)
    have hs : s ∈ slotsOf pk := by
      revert hrow
      have : ∀ y ∈ Export.scopeTable, y.2.1 ∈ slotsOf y.1 := by decide
      intro hrow
      exact this _ hrow
    refine ⟨_, kids_at (r := (pk, i)) L R (hx h) hs, g1, ?_⟩
    intro c
    rw [g2 c]
    unfold Export.Kept
    have hpf : s = .parameters → pk = .function := by
      have : ∀ y ∈ Export.scopeTable, y.2.1 = .parameters → y.1 = .function := by decide
      exact this _ hrow
    have hret : s = .parameters → ∀ e : Records m c (pk, i), ((F.get (pk, i)).ret ≠ some c ↔
        ¬ Reads base mem (base + p.at (pk, i) + offsetOf function b!"return_parameter") 8 (base + p.at c)) := by
      intro hsp hrec
      obtain rfl := hpf hsp
      obtain ⟨x, _, hxc, _⟩ := hrec.2.1
      have hcell : (offsetOf function b!"return_parameter", p.opt (F.get (.function, i)).ret) ∈
          objectCells p ((dataOf fb m F).readdress f) database (.function, i) := by
        simp only [objectCells, List.mem_append, List.mem_cons]
        exact .inl (.inl (.inl (.inr (.inr (.inr (.inl rfl))))))
      have hh := rep_object R (hx h) _ hcell
      have hre := (N.objects _ (hx h)).ret
      unfold Reads
      rw [Nat.add_assoc]
      change ∀ x ∈ (F.get (K.function, i)).ret, Exists ((dataOf fb m F).readdress f) x at hre
      cases hq : (F.get (K.function, i)).ret with
      | none =>
        rw [hq] at hh
        have := read_null hh
        rw [this]
        constructor
        · intro _ e
          injection e with e
          have := (at_le L (hx hxc)).1
          omega
        · intro _ e; cases e
      | some t =>
        rw [hq] at hh
        have := read_ptr hh
        rw [this]
        constructor
        · intro e1 e2
          injection e2 with e2
          exact e1 (by rw [hdist (hre t (by rw [hq]; rfl)) (hx hxc) e2])
        · intro e1 e2
          injection e2 with e2
          exact e1 (by rw [e2])
    constructor
    · rintro ⟨k1, k2, k3, k4, k5⟩
      exact ⟨k1, k2, k3, k4, fun e => (hret e k2).mp (k5 e)⟩
    · rintro ⟨k1, k2, k3, k4, k5⟩
      exact ⟨k1, k2, k3, k4, fun e => (hret e k2).mpr (k5 e)⟩
  · intro pk hk i q h
    obtain ⟨g1, g2⟩ := Export.C17_attribute_arrays_partial env fuel m hr F hF pk hk i (Export.entry_lt h)
    have hs : Slot.attributes ∈ slotsOf pk := by
      revert hk; cases pk <;> decide
    exact ⟨_, kids_at (r := (pk, i)) L R (hx h) hs, g1, g2⟩
  · rintro ⟨s, k⟩ hsk
    have hs : s ∈ spaceMembers.map (·.1) := by
      have : ∀ y ∈ globalTable, y.1 ∈ spaceMembers.map (·.1) := by decide
      exact this _ hsk
    refine ⟨_, globals_at L R hs, ?_⟩
    exact (Export.C18_global_namespace env fuel m hr (fun r q h => hst.nonzero _ (hst.named r q h)) F hF s k hsk).1
  · intro pk hk i q h
    refine ⟨(F.get (pk, i)).flags.toNat, num_at R (hx h) _ _ _ ?_, ?_⟩
    · simp only [List.mem_cons, List.not_mem_nil, or_false] at hk
      rcases hk with rfl | rfl | rfl
      · simp only [objectCells, List.mem_append, List.mem_cons]
        exact .inr (.inl rfl)
      · simp only [objectCells, List.mem_append, List.mem_cons]
        exact .inr (.inl rfl)
      · simp only [objectCells, List.mem_append, List.mem_cons]
        exact .inr (.inl rfl)
    · intro b hb
      rw [← Export.C19_flags_partial env fuel m hr F hF pk hk i (Export.entry_lt h) b hb]
      rfl
  · intro i x h
    have he := hrowx .type i (by simpa [Export.tableSize, entries] using row_lt h)
    refine num_at R he _ _ _ ?_
    have hg := row_getD (d := {}) h
    simp only [objectCells, typeCells, List.mem_append, List.mem_cons, sc (.type, i) .size (by simp), scalarOf, hg, true_or, or_true]
  · intro i x h
    have he := hrowx .enum i (by simpa [Export.tableSize, entries] using row_lt h)
    refine num_at R he _ _ _ ?_
    have hg := row_getD (d := {}) h
    simp only [objectCells, typeCells, List.mem_append, List.mem_cons, sc (.enum, i) .size (by simp), scalarOf, hg, true_or, or_true]
  · intro i x h
    have he := hrowx .cls i (by simpa [Export.tableSize, entries] using row_lt h)
    refine num_at R he _ _ _ ?_
    have hg := row_getD (d := {}) h
    simp only [objectCells, typeCells, List.mem_append, List.mem_cons, sc (.cls, i) .size (by simp), scalarOf, hg, true_or, or_true]
  · intro i x h
    have he := hrowx .constant i (by simpa [Export.tableSize, entries] using row_lt h)
    refine num_at R he _ _ _ ?_
    have hg := row_getD (d := {}) h
    simp only [objectCells, List.mem_append, List.mem_cons, sc (.constant, i) .value (by simp), scalarOf, hg, true_or, or_true]
  · intro i x h
    have he := hrowx .field i (by simpa [Export.tableSize, entries] using row_lt h)
    have hg := row_getD (d := {}) h
    have hrow : (Export.copied m).get (.field, i) = { Export.copyPrim m x.toPrim with type := Export.ofHash x.type.hash, uid := x.parentUniqueId } :=
      copied_row (r := (.field, i)) (by simp [Export.rows, h])
    have hv : Export.Valid (Export.copied m) (.field, i) := by
      have : i < F.count .field := he
      rw [fin.count] at this
      exact this
    refine ⟨?_, num_at R he _ _ _ ?_, num_at R he _ _ _ ?_, num_at R he _ _ _ ?_, num_at R he _ _ _ ?_⟩
    · have ht := fin.type (.field, i) hv rfl
      unfold Export.typeFor at ht
      rw [hrow] at ht
      simp only [Export.hash_ofHash] at ht
      obtain ⟨t1, t2⟩ := found_type hr hF x.type.hash
      refine leads_to R he _ ((Export.copied m).typePrims.find? fun t => ((Export.copied m).get t).hash == x.type.hash) _ ?_ t1 t2
      rw [← opt_ptr, ← ht]
      simp only [objectCells, List.mem_append, List.mem_cons]
      exact .inl (.inl (.inr (.inl rfl)))
    · simp only [objectCells, List.mem_append, List.mem_cons, sc (.field, i) .op (by simp), scalarOf, hg]
      refine .inl (.inl (.inr (.inr (.inl ?_))))
      cases x.qualifier.op <;> rfl
    · simp only [objectCells, List.mem_append, List.mem_cons, sc (.field, i) .isConst (by simp), scalarOf, hg, true_or, or_true]
    · simp only [objectCells, List.mem_append, List.mem_cons, sc (.field, i) .offset (by simp), scalarOf, hg, true_or, or_true]
    · have hu : (((dataOf fb m F).readdress f).st.get (.field, i)).uid = x.parentUniqueId := by
        show (F.get (.field, i)).uid = _
        rw [fin.uid, hrow]
      simp only [objectCells, List.mem_append, List.mem_cons, hu, true_or, or_true]
  · intro i x h
    have he := hrowx .function i (by simpa [Export.tableSize, entries] using row_lt h)
    have hg := row_getD (d := {}) h
    have hrow : (Export.copied m).get (.function, i) = { Export.copyPrim m x.toPrim with uid := x.uniqueId } :=
      copied_row (r := (.function, i)) (by simp [Export.rows, h])
    refine ⟨num_at R he _ _ _ ?_, num_at R he _ _ _ ?_, ?_⟩
    · have ha : ((dataOf fb m F).readdress f).scalar (.function, i) .address = f x.address.toNat := by
        simp only [Data.readdress, dataOf, scalarOf, hg, and_self, if_true]
      simp only [objectCells, List.mem_append, List.mem_cons, ha, true_or, or_true]
    · have hu : (((dataOf fb m F).readdress f).st.get (.function, i)).uid = x.uniqueId := by
        show (F.get (.function, i)).uid = _
        rw [fin.uid, hrow]
      simp only [objectCells, List.mem_append, List.mem_cons, hu, true_or, or_true]
    · obtain ⟨r1, r2⟩ := Export.C17_return_value env fuel m hr F hF i (by simpa [entries] using row_lt h)
      refine leads_to R he _ (F.get (.function, i)).ret _ ?_ (fun e t ht => r2.mp e t ht.1 ht.2.1 ht.2.2) (fun t e => r1 t e)
      simp only [objectCells, List.mem_append, List.mem_cons]
      exact .inl (.inl (.inl (.inr (.inr (.inr (.inl rfl))))))
  · intro i x h
    have he := hrowx .instance i (by simpa [Export.tableSize, entries] using row_lt h)
    have hg := row_getD (d := {}) h
    have hrow : (Export.copied m).get (.instance, i) = { Export.copyPrim m x.toPrim with
        args := [Export.ofHash x.a0.type.hash, Export.ofHash x.a1.type.hash, Export.ofHash x.a2.type.hash, Export.ofHash x.a3.type.hash] } :=
      copied_row (r := (.instance, i)) (by simp [Export.rows, h])
    refine ⟨num_at R he _ _ _ ?_, ?_⟩
    · simp only [objectCells, typeCells, List.mem_append, List.mem_cons, sc (.instance, i) .size (by simp), scalarOf, hg, true_or, or_true]
    · have hk := hargs x (List.mem_of_getElem? h)
      have ha := fin.args (.instance, i) rfl (by
        rw [hrow]
        intro q hq
        simp only [List.mem_cons, List.not_mem_nil, or_false] at hq
        have key : ∀ a ∈ [x.a0, x.a1, x.a2, x.a3], q = Export.ofHash a.type.hash → q = .raw 0 ∨ env.hash q ∈ Export.nameKeys m := by
          intro a hin e
          rw [e, Export.hash_ofHash]
          rcases hk a hin with h0 | h0
          · left; rw [h0]; rfl
          · exact .inr (known_keys h0)
        rcases hq with hq | hq | hq | hq
        · exact key x.a0 (by simp) hq
        · exact key x.a1 (by simp) hq
        · exact key x.a2 (by simp) hq
        · exact key x.a3 (by simp) hq)
      rw [hrow] at ha
      simp only [List.map_cons, List.map_nil, Export.hash_ofHash] at ha
      have hst' : ((dataOf fb m F).readdress f).st.get (.instance, i) = F.get (.instance, i) := rfl
      intro j a hj
      obtain ⟨t1, t2⟩ := found_type hr hF a.type.hash
      have hlt := row_lt hj
      simp only [List.length_cons, List.length_nil] at hlt
      obtain rfl | rfl | rfl | rfl : j = 0 ∨ j = 1 ∨ j = 2 ∨ j = 3 := by omega
      all_goals
        simp only [List.getElem?_cons_zero, List.getElem?_cons_succ, Option.some.injEq] at hj
        subst hj
        refine ⟨leads_to R he _ _ _ ?_ t1 t2, num_at R he _ _ _ ?_⟩
        · rw [← opt_ptr]
          simp only [objectCells, List.mem_append, List.mem_cons, hst', ha, List.getD_cons_zero, List.getD_cons_succ, Nat.zero_mul,
            Nat.add_zero, Nat.one_mul, Nat.reduceMul, true_or, or_true]
        · simp only [objectCells, List.mem_append, List.mem_cons, sc (.instance, i) .argPtr0 (by simp),
            sc (.instance, i) .argPtr1 (by simp), sc (.instance, i) .argPtr2 (by simp), sc (.instance, i) .argPtr3 (by simp),
            scalarOf, hg, Nat.add_zero, true_or, or_true]
  · intro i x h
    have he := hrowx .intAttr i (by simpa [Export.tableSize, entries] using row_lt h)
    have hrow : (Export.copied m).get (.intAttr, i) = { Export.copyPrim m x.toPrim with value := x.value.toBitVec } :=
      copied_row (r := (.intAttr, i)) (by simp [Export.rows, h])
    refine num_at R he _ _ _ ?_
    have hu : (((dataOf fb m F).readdress f).st.get (.intAttr, i)).value = x.value.toBitVec := by
      show (F.get (.intAttr, i)).value = _
      rw [fin.value, hrow]
    simp only [objectCells, List.mem_append, List.mem_cons, hu, true_or, or_true]
  · intro i x h
    have he := hrowx .floatAttr i (by simpa [Export.tableSize, entries] using row_lt h)
    have hg := row_getD (d := {}) h
    refine num_at R he _ _ _ ?_
    simp only [objectCells, List.mem_append, List.mem_cons, sc (.floatAttr, i) .number (by simp), scalarOf, hg, true_or, or_true]
  · intro i x h
    have he := hrowx .textAttr i (by simpa [Export.tableSize, entries] using row_lt h)
    have hg := row_getD (d := {}) h
    have hcell : (offsetOf textAttribute b!"value", Val.ptr (some (p.valueAt (.textAttr, i)))) ∈
        objectCells p ((dataOf fb m F).readdress f) database (.textAttr, i) := by
      simp only [objectCells, List.mem_append, List.mem_cons, true_or, or_true]
    have h1 := read_ptr (rep_object R he _ hcell)
    refine ⟨base + p.valueAt (.textAttr, i), by unfold Reads; rw [Nat.add_assoc]; exact h1, ?_⟩
    intro h0
    refine readText_eq ?_ h0
    apply R
    unfold cells texts
    simp only [List.mem_append]
    refine .inr (.inr (List.mem_map.mpr ⟨(.textAttr, i), Image.mem_all.2 ⟨rfl, he⟩, ?_⟩))
    show textCell _ ((m.textAttributes.getD i {}).value) = _
    rw [hg]
  · intro i x h
    have he := hrowx .primAttr i (by simpa [Export.tableSize, entries] using row_lt h)
    have hrow : (Export.copied m).get (.primAttr, i) = { Export.copyPrim m x.toPrim with target := Export.ofHash x.value.hash } :=
      copied_row (r := (.primAttr, i)) (by simp [Export.rows, h])
    have ht := fin.target (.primAttr, i) rfl (by
      rw [hrow]
      simp only [Export.hash_ofHash]
      rcases htgt x (List.mem_of_getElem? h) with h0 | h0
      · left; rw [h0]; rfl
      · exact .inr (known_keys h0))
    rw [hrow] at ht
    simp only [Export.hash_ofHash] at ht
    obtain ⟨t1, t2⟩ := found_target hr hF x.value.hash
    refine leads_to R he _ _ _ ?_ t1 t2
    rw [← opt_ptr, ← ht]
    simp only [objectCells, List.mem_append, List.mem_cons]
    exact .inr (.inl rfl)
  · intro i x h
    have he := hrowx .container i (by simpa [Export.tableSize] using row_lt h)
    have hg := row_getD (d := {}) h
    have hrow : ((Export.copied m).get (.container, i)).hash = x.name.hash := by
      have e : ∃ o, (Export.rows m K.container)[i]? = some o ∧ o.hash = x.name.hash := by
        unfold Export.rows
        rw [List.getElem?_map, h]
        exact ⟨_, rfl, rfl⟩
      obtain ⟨o, e1, e2⟩ := e
      rw [copied_row (r := (.container, i)) e1, e2]
    have hu : (((dataOf fb m F).readdress f).st.get (.container, i)).hash = x.name.hash := by
      show (F.get (.container, i)).hash = _
      rw [fin.hash, hrow]
    refine ⟨num_at R he _ _ _ ?_, num_at R he _ _ _ ?_, num_at R he _ _ _ ?_⟩
    · simp only [objectCells, List.mem_append, List.mem_cons, sc (.container, i) .flags (by simp), scalarOf, hg, true_or, or_true]
    · simp only [objectCells, List.mem_append, List.mem_cons, sc (.container, i) .count (by simp), scalarOf, hg, true_or, or_true]
    · simp only [objectCells, nameCells, List.mem_append, List.mem_cons, hu, true_or, or_true]
  · intro hu k hk i q h
    have hs : Slot.bases ∈ slotsOf k ∧ offsetOf (structOf k) (slotName .bases) = offsetOf type b!"base_types" := by
      revert hk; cases k <;> decide
    have h1 := kids_at (r := (k, i)) L R (hx h) hs.1
    rw [hs.2] at h1
    exact ⟨_, h1, fun b => Export.C59_base_types env fuel m hr hu F hF (k, i) q h b⟩
  · intro hu i q h
    refine ⟨(F.get (.cls, i)).flags.toNat, num_at R (hx h) _ _ _ ?_, ?_⟩
    · simp only [objectCells, List.mem_append, List.mem_cons]
      exact .inr (.inl rfl)
    · intro b hb
      rw [← Export.C19_class_flags_partial env fuel m hr hu F hF i (Export.entry_lt h) b hb]
      rfl
  · intro i q h
    obtain ⟨g1, g2, g3, g4⟩ := Export.C88_class_constructors env fuel m hr F hF (.cls, i) rfl q h
    refine ⟨leads_to R (hx h) _ (F.get (.cls, i)).ctor _ ?_ (fun e t ht => g2 e t ht.1 ht.2) (fun t e => g1 t e),
      leads_to R (hx h) _ (F.get (.cls, i)).dtor _ ?_ (fun e t ht => g4 e t ht.1 ht.2) (fun t e => g3 t e)⟩
    · simp only [objectCells, List.mem_append, List.mem_cons, Place.opt, Data.readdress, dataOf, true_or, or_true]
    · simp only [objectCells, List.mem_append, List.mem_cons, Place.opt, Data.readdress, dataOf, true_or, or_true]
  · intro i q h
    have g := Export.C88_template_type_constructors env fuel m hr F hF (.instance, i) rfl q h
    refine ⟨leads_to R (hx h) _ (F.get (.instance, i)).ctor _ ?_ (fun e t ht => by rw [(g t).1.mpr ht] at e; cases e) (fun t e => (g t).1.mp e),
      leads_to R (hx h) _ (F.get (.instance, i)).dtor _ ?_ (fun e t ht => by rw [(g t).2.mpr ht] at e; cases e) (fun t e => (g t).2.mp e)⟩
    · simp only [objectCells, List.mem_append, List.mem_cons, Place.opt, Data.readdress, dataOf, true_or, or_true]
    · simp only [objectCells, List.mem_append, List.mem_cons, Place.opt, Data.readdress, dataOf, true_or, or_true]
  · intro hu k hk i q h
    have g := Export.C88_containers_partial env fuel m hr hu F hF (k, i)
    refine leads_to R (hx h) _ (F.get (k, i)).ci _ ?_ (fun e t ht => by rw [(g t).mpr ht] at e; cases e) (fun t e => (g t).mp e)
    simp only [typeKinds, Export.typeKinds, List.mem_cons, List.not_mem_nil, or_false] at hk
    rcases hk with rfl | rfl | rfl | rfl <;>
      simp only [objectCells, typeCells, List.mem_append, List.mem_cons, Place.opt, Data.readdress, dataOf, true_or, or_true]
  · intro hu i q h
    have g := Export.C88_containers_partial env fuel m hr hu F hF (.field, i)
    refine leads_to R (hx h) _ (F.get (.field, i)).ci _ ?_ (fun e t ht => by rw [(g t).mpr ht] at e; cases e) (fun t e => (g t).mp e)
    simp only [objectCells, List.mem_append, List.mem_cons, Place.opt, Data.readdress, dataOf, true_or, or_true]
  · intro hu i x h
    have he := hrowx .container i (by simpa [Export.tableSize] using row_lt h)
    obtain ⟨g1, g2, g3, g4⟩ := Export.C88_iterators_partial env fuel m hr hu F hF i x h
    have key : ∀ (o : Nat) (q : Export.Ptr) (P : Ref → Prop), (∀ t, q = .obj t ↔ P t) → (q = .raw 0 ↔ ∀ t, ¬ P t) →
        (o, p.ptr q) ∈ objectCells p ((dataOf fb m F).readdress f) database (.container, i) →
        LeadsTo base mem (fun r => base + p.at r) (base + p.at (.container, i) + o) P := by
      intro o q P q1 q2 hcell
      by_cases hP : ∃ t, P t
      · obtain ⟨t, ht⟩ := hP
        rw [(q1 t).mpr ht] at hcell
        exact leads_to R he _ (some t) _ hcell (by simp) (by intro t' e; cases e; exact ht)
      · have hno : ∀ t, ¬ P t := fun t ht => hP ⟨t, ht⟩
        rw [q2.mpr hno] at hcell
        exact leads_to R he _ none _ hcell (fun _ => hno) (by simp)
    refine ⟨key _ (F.get (.container, i)).readIt _ g1 ?_ ?_, key _ (F.get (.container, i)).writeIt _ g3 ?_ ?_⟩
    · rw [g2]
      by_cases h0 : x.readIterator.hash = 0 <;> simp [h0]
    · simp only [objectCells, List.mem_append, List.mem_cons, Data.readdress, dataOf, true_or, or_true]
    · rw [g4]
      by_cases h0 : x.writeIterator.hash = 0 <;> simp [h0]
    · simp only [objectCells, List.mem_append, List.mem_cons, Data.readdress, dataOf, true_or, or_true]

end

/-- C87, partial: clexport's file for a database, loaded at any address, is memory that holds every object of the database with
every member: names, kinds, parents, the arrays of scopes, attributes, base types and the global namespace, types, qualifiers,
offsets, sizes, values, addresses, return values, template arguments, constructors and destructors, containers and their iterators, flags, and
the values of attributes. Databases that were read from files are such databases (`textsKnown`), and they still are when a map file
has given their functions addresses. Partial: `Fits`. -/
theorem C87_contents_partial (h : Host) (hg : h.Good) (depth functionBase : Nat) (hb : functionBase < Reloc.W64) (db : Database)
    (hst : TextsKnown db) (hf : Fits h depth db) :
    ∃ bytes, exportBytes h depth functionBase db = some (.ok bytes) ∧
      ∀ base loadAddr database dont, base + arenaSize < Reloc.W64 → database < Reloc.W64 →
        ∃ mem at', Reloc.load base loadAddr database dont bytes = .ok (some mem) ∧
          Contents db base database mem (if dont then id else Reloc.moved functionBase loadAddr) at' := by
  obtain ⟨F, p, bytes, hF, h1, N, hload⟩ := C85_loaded_partial h hg depth functionBase hb db hf
  refine ⟨bytes, h1, ?_⟩
  intro base loadAddr database dont hbase hdb
  obtain ⟨mem, m1, _, L, R⟩ := hload base loadAddr database dont hbase hdb
  exact ⟨mem, _, m1, contents_of hst (hf.ready hg) hF (readdress_laid L _) (readdress_linked N _) R hf.arguments hf.targets hf.owners⟩

/-! ## Example -/

def insertBy {α : Type} (key : α → UInt32) (x : α) : List α → List α
  | [] => [x]
  | y :: l => if key x ≤ key y then x :: y :: l else y :: insertBy key x l

def sortBy {α : Type} (key : α → UInt32) (l : List α) : List α := l.foldr (insertBy key) []

/-- A database with something of everything, its tables sorted. -/
def richSorted : Database :=
  { richDb with
    names := sortBy (·.hash) richDb.names
    classes := sortBy (·.name.hash) richDb.classes
    functions := sortBy (·.name.hash) richDb.functions
    fields := (sortBy (·.name.hash) richDb.fields).map fun f => { f with offset := 4 }
    flagAttributes := sortBy (·.name.hash) richDb.flagAttributes
    intAttributes := sortBy (·.name.hash) richDb.intAttributes
    inheritances := [{ name := Export.nm b!"g::D", derived := Export.nm b!"g::D", base := Export.nm b!"g::B" }] }

theorem richSorted_storable : TextDB.Storable TextDB.exampleCfg richSorted := by
  constructor <;> (try unfold TextDB.SortedLe) <;>
    (try simp only [TextDB.KnownPrim, TextDB.Known, TextDB.CleanText, TextDB.Cfg.IntOk, TextDB.Cfg.FloatOk, TextDB.ArgsOk]) <;>
    decide +kernel

theorem richSorted_fits : Fits sampleHost 2 richSorted where
  wellFormed := Export.wellFormed_of (by decide +kernel)
    ⟨fun h => if h = hashOf b!"g::D" then 1 else 0, fun h => by dsimp only; split <;> omega, by decide +kernel⟩
  unambiguous := Export.unambiguous_of (by decide +kernel)
  arguments := by unfold Export.Known; decide +kernel
  targets := by unfold Export.Known; decide +kernel
  owners := by
    have hl : richSorted.primitiveAttributes.length = 1 := by decide +kernel
    intro i hi
    obtain rfl : i = 0 := by omega
    have h1 : entry richSorted (.primAttr, 0) = some { name := Export.nm b!"mode", parent := Export.nm b!"g::E" } := by decide +kernel
    have h2 : entry richSorted (.enum, 0) = some { name := Export.nm b!"g::E", parent := Export.nm b!"g" } := by decide +kernel
    exact ⟨(.enum, 0), by decide, _, h1, .inl ⟨by decide, _, h2, rfl⟩⟩
  noAlias := (alias_of (by decide +kernel)).1
  noFieldAlias := (alias_of (by decide +kernel)).2
  room := room_of (by decide +kernel)

/-- All hypotheses, and some of what the theorem says then: the text and the target of attributes, the argument of a template
type, a constant, and the address of a function that was at 0. -/
example : ∃ bytes mem, ∃ at' : Ref → Nat, exportBytes sampleHost 2 4096 richSorted = some (.ok bytes) ∧
    Reloc.load 65536 8192 8 false bytes = .ok (some mem) ∧
    (∃ q, read 65536 mem (at' (.textAttr, 0) + offsetOf textAttribute b!"value") 8 = .ok q ∧ readText 65536 mem q = .ok b!"text") ∧
    (∃ t, read 65536 mem (at' (.primAttr, 0) + offsetOf primitiveAttribute b!"primitive") 8 = .ok (at' t) ∧
      PrimitiveAt 65536 mem 8 (at' t) .cls (Export.nm b!"g::D")) ∧
    (∃ t, read 65536 mem (at' (.instance, 0) + offsetOf templateType b!"parameter_types") 8 = .ok (at' t) ∧
      PrimitiveAt 65536 mem 8 (at' t) .type (Export.nm b!"int")) ∧
    read 65536 mem (at' (.instance, 0) + offsetOf templateType b!"parameter_ptrs") 1 = .ok 1 ∧
    read 65536 mem (at' (.constant, 0) + offsetOf enumConstant b!"value") 4 = .ok 1 ∧
    read 65536 mem (at' (.function, 0) + offsetOf function b!"address") 8 = .ok 0 := by
  obtain ⟨bytes, h1, h2⟩ := C87_contents_partial sampleHost sampleHost_good 2 4096 (by decide) richSorted (textsKnown richSorted_storable) richSorted_fits
  obtain ⟨mem, at', h3, C⟩ := h2 65536 8192 8 false (by decide) (by decide)
  have named : ∀ (ks : List K) (n : Bytes) (k : K), ((ks.flatMap fun k => (List.range (entries richSorted k).length).map fun i => ((k, i) : Ref)).filter
      fun t => ((entry richSorted t).map fun q => q.name.hash) == some (hashOf n)).map (fun t => (t.1, (entry richSorted t).map fun q => q.name)) =
        [(k, some (Export.nm n))] → ∀ t q, t.1 ∈ ks → entry richSorted t = some q → q.name.hash = hashOf n →
      PrimitiveAt 65536 mem 8 (at' t) k (Export.nm n) := by
    intro ks n k hl t q hk hq hn
    have hm : t ∈ (ks.flatMap fun k => (List.range (entries richSorted k).length).map fun i => ((k, i) : Ref)).filter
        fun t => ((entry richSorted t).map fun q => q.name.hash) == some (hashOf n) := by
      rw [List.mem_filter, List.mem_flatMap]
      refine ⟨⟨t.1, hk, List.mem_map.mpr ⟨t.2, List.mem_range.mpr (Export.entry_lt hq), rfl⟩⟩, ?_⟩
      rw [hq]
      simp [hn]
    have := List.mem_map_of_mem (f := fun t => (t.1, (entry richSorted t).map fun q => q.name)) hm
    rw [hl, List.mem_singleton] at this
    injection this with e1 e2
    rw [hq] at e2
    injection e2 with e2
    change q.name = _ at e2
    have P := C.prims t q hq
    rw [e1, e2] at P
    exact P
  refine ⟨bytes, mem, at', h1, h3, ?_, ?_, ?_, ?_, ?_, ?_⟩
  · have ht : ∃ x, richSorted.textAttributes[0]? = some x ∧ x.value = b!"text" := by
      have : (richSorted.textAttributes[0]?).map (fun x => x.value) = some b!"text" := by decide +kernel
      simpa [Option.map_eq_some_iff] using this
    obtain ⟨x, hx, hv⟩ := ht
    obtain ⟨q, q1, q2⟩ := C.texts 0 x hx
    rw [hv] at q2
    exact ⟨q, q1, q2 (by decide)⟩
  · have ht : ∃ x, richSorted.primitiveAttributes[0]? = some x ∧ x.value.hash = hashOf b!"g::D" := by
      have : (richSorted.primitiveAttributes[0]?).map (fun x => x.value.hash) = some (hashOf b!"g::D") := by decide +kernel
      simpa [Option.map_eq_some_iff] using this
    obtain ⟨x, hx, hv⟩ := ht
    have N := named [.type, .cls, .enum, .instance, .function] b!"g::D" .cls (by decide +kernel)
    rcases C.targets 0 x hx with ⟨_, h0⟩ | ⟨t, ⟨hk, q, hq, hn⟩, h0⟩
    · have he : ∃ q, entry richSorted (.cls, 0) = some q ∧ q.name.hash = hashOf b!"g::D" ∨
          entry richSorted (.cls, 1) = some q ∧ q.name.hash = hashOf b!"g::D" := by
        have : ∃ i ∈ [0, 1], (entry richSorted (.cls, i)).map (fun q => q.name.hash) = some (hashOf b!"g::D") := by decide +kernel
        obtain ⟨i, hi, hq⟩ := this
        rw [Option.map_eq_some_iff] at hq
        obtain ⟨q, h1, h2⟩ := hq
        simp only [List.mem_cons, List.not_mem_nil, or_false] at hi
        rcases hi with rfl | rfl
        · exact ⟨q, .inl ⟨h1, h2⟩⟩
        · exact ⟨q, .inr ⟨h1, h2⟩⟩
      rcases he with ⟨q, ⟨e1, e2⟩ | ⟨e1, e2⟩⟩
      · exact absurd ⟨.inl (by decide), q, e1, by rw [hv]; exact e2⟩ (h0 (.cls, 0))
      · exact absurd ⟨.inl (by decide), q, e1, by rw [hv]; exact e2⟩ (h0 (.cls, 1))
    · refine ⟨t, h0, N t q ?_ hq (by rw [hn, hv])⟩
      rcases hk with hk | hk
      · revert hk; unfold typeKinds; cases t.1 <;> simp
      · rw [hk]; simp
  all_goals
    have hi : ∃ x, richSorted.templateTypes[0]? = some x ∧ x.a0.type.hash = hashOf b!"int" ∧ x.a0.ptr = true := by
      have : (richSorted.templateTypes[0]?).map (fun x => (x.a0.type.hash, x.a0.ptr)) = some (hashOf b!"int", true) := by decide +kernel
      simpa [Option.map_eq_some_iff] using this
  · obtain ⟨x, hx, hv, _⟩ := hi
    have N := named typeKinds b!"int" .type (by decide +kernel)
    rcases ((C.instances 0 x hx).2 0 x.a0 rfl).1 with ⟨_, h0⟩ | ⟨t, ⟨hk, q, hq, hn⟩, h0⟩
    · have : entry richSorted (.type, 0) = some { name := Export.nm b!"int" } := by decide +kernel
      exact absurd ⟨by decide, _, this, by rw [hv]; rfl⟩ (h0 (.type, 0))
    · exact ⟨t, h0, N t q hk hq (by rw [hn, hv])⟩
  · obtain ⟨x, hx, _, hv⟩ := hi
    have := ((C.instances 0 x hx).2 0 x.a0 rfl).2
    rw [hv] at this
    exact this
  · have ht : ∃ x, richSorted.enumConstants[0]? = some x ∧ x.value = 1 := by
      have : (richSorted.enumConstants[0]?).map (fun x => x.value) = some 1 := by decide +kernel
      simpa [Option.map_eq_some_iff] using this
    obtain ⟨x, hx, hv⟩ := ht
    have := C.constants 0 x hx
    rw [hv] at this
    exact this
  · have ht : ∃ x, richSorted.functions[0]? = some x ∧ x.address = 0 := by
      have : (richSorted.functions[0]?).map (fun x => x.address) = some 0 := by decide +kernel
      simpa [Option.map_eq_some_iff] using this
    obtain ⟨x, hx, hv⟩ := ht
    have := (C.functions 0 x hx).1
    rw [hv] at this
    exact this

end Clr.Tools
