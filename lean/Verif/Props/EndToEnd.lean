import Verif.Props.ExportFile
/-
C86 From the databases of the scanner through clmerge, clexport, the exported file and the loader to what the runtime reads
in memory.
-/
namespace Clr.Tools
open Clr Clr.DB Clr.Args Clr.Merge Clr.Layout Clr.Image
open Clr.Export (K Slot Ref entries entry Ready typeKinds St)
attribute [local irreducible] hashOf

/-! ## Specification: what the runtime sees in memory -/

/-- At address `a` there is a primitive of this kind and name that belongs to the database at that address
(inc/clcpp/clcpp.h:574-606). -/
structure PrimitiveAt (base : Nat) (mem : Bytes) (database a : Nat) (k : K) (n : Name) : Prop where
  kind : read base mem (a + offsetOf primitive b!"kind") 4 = .ok (kindOf k)
  hash : read base mem (a + (offsetOf primitive b!"name" + offsetOf name b!"hash")) 4 = .ok n.hash.toNat
  text : ∃ q, read base mem (a + (offsetOf primitive b!"name" + offsetOf name b!"text")) 8 = .ok q ∧ readText base mem q = .ok n.text
  database : read base mem (a + offsetOf primitive b!"database") 8 = .ok database

/-- At address `a` there is this field or parameter (inc/clcpp/clcpp.h:747-775), in the class or function at address `owner`,
and its type is a type. -/
structure FieldAt (base : Nat) (mem : Bytes) (database owner a : Nat) (x : Field) : Prop where
  prim : PrimitiveAt base mem database a .field x.name
  parent : read base mem (a + offsetOf primitive b!"parent") 8 = .ok owner
  type : ∃ t, read base mem (a + offsetOf field b!"type") 8 = .ok t ∧ ∃ k ∈ typeKinds, PrimitiveAt base mem database t k x.type
  op : read base mem (a + (offsetOf field b!"qualifier" + offsetOf qualifier b!"op")) 4 = .ok (qualifierOp x.qualifier.op)
  isConst : read base mem (a + (offsetOf field b!"qualifier" + offsetOf qualifier b!"is_const")) 1 = .ok x.qualifier.isConst.toNat
  offset : read base mem (a + offsetOf field b!"offset") 4 = .ok x.offset.toBitVec.toNat
  ofFunction : read base mem (a + offsetOf field b!"parent_unique_id") 4 = .ok x.parentUniqueId.toNat

/-- At address `a` there is this constant (inc/clcpp/clcpp.h:721-732), in the enum at address `owner`. -/
structure ConstantAt (base : Nat) (mem : Bytes) (database owner a : Nat) (x : EnumConstant) : Prop where
  prim : PrimitiveAt base mem database a .constant x.name
  parent : read base mem (a + offsetOf primitive b!"parent") 8 = .ok owner
  value : read base mem (a + offsetOf enumConstant b!"value") 4 = .ok x.value.toBitVec.toNat

/-- The program finds in memory what the databases declare, and nothing else, and reads what they say of it. -/
structure Answers (dbs : List Database) (base database : Nat) (mem : Bytes) : Prop where
  types : ∀ n, ∃ a, getType base mem n = .ok a ∧ (a ≠ 0 ↔ DeclaresType dbs n) ∧
    (a ≠ 0 → ∃ d ∈ dbs, ∃ k ∈ typeKinds, ∃ p ∈ entries d k, p.name.hash = n ∧ PrimitiveAt base mem database a k p.name)
  fields : ∀ n a, getType base mem n = .ok a → a ≠ 0 → read base mem (a + offsetOf primitive b!"kind") 4 = .ok (kindOf .cls) →
    ∀ f, ∃ b, findPrimitive base mem (a + offsetOf cls b!"fields") f = .ok b ∧ (b ≠ 0 ↔ DeclaresField dbs n f) ∧
      (b ≠ 0 → ∃ d ∈ dbs, ∃ x ∈ d.fields, x.name.hash = f ∧ x.parent.hash = n ∧ FieldAt base mem database a b x)
  methods : ∀ n a, getType base mem n = .ok a → a ≠ 0 → read base mem (a + offsetOf primitive b!"kind") 4 = .ok (kindOf .cls) →
    ∀ f, ∃ b, findPrimitive base mem (a + offsetOf cls b!"methods") f = .ok b ∧ (b ≠ 0 ↔ DeclaresFunction dbs n f) ∧
      (b ≠ 0 → ∃ d ∈ dbs, ∃ x ∈ d.functions, x.name.hash = f ∧ x.parent.hash = n ∧ PrimitiveAt base mem database b .function x.name)
  constants : ∀ n a, getType base mem n = .ok a → a ≠ 0 → read base mem (a + offsetOf primitive b!"kind") 4 = .ok (kindOf .enum) →
    ∀ c, ∃ b, findPrimitive base mem (a + offsetOf enum b!"constants") c = .ok b ∧ (b ≠ 0 ↔ DeclaresConstant dbs n c) ∧
      (b ≠ 0 → ∃ d ∈ dbs, ∃ x ∈ d.enumConstants, x.name.hash = c ∧ x.parent.hash = n ∧ ConstantAt base mem database a b x)
  spaces : ∀ n, ∃ a, getEntry base mem .space n = .ok a ∧ (a ≠ 0 ↔ ∃ d ∈ dbs, ∃ s ∈ d.namespaces, s.name.hash = n) ∧
    (a ≠ 0 → ∃ d ∈ dbs, ∃ s ∈ d.namespaces, s.name.hash = n ∧ PrimitiveAt base mem database a .space s.name)
  functions : ∀ n a, getEntry base mem .space n = .ok a → a ≠ 0 →
    ∀ f, ∃ b, findPrimitive base mem (a + offsetOf ns b!"functions") f = .ok b ∧ (b ≠ 0 ↔ DeclaresFunction dbs n f) ∧
      (b ≠ 0 → ∃ d ∈ dbs, ∃ x ∈ d.functions, x.name.hash = f ∧ x.parent.hash = n ∧ PrimitiveAt base mem database b .function x.name)
  names : ∀ n, (∃ d ∈ dbs, ∃ x ∈ d.names, x.hash = n ∧ ∃ q, getName base mem n = .ok (n.toNat, q) ∧ readText base mem q = .ok x.text) ∨
    ((∀ d ∈ dbs, ∀ x ∈ d.names, x.hash ≠ n) ∧ getName base mem n = .ok (0, 0))
  sizes : ∀ n a, getType base mem n = .ok a → a ≠ 0 → read base mem (a + offsetOf primitive b!"kind") 4 = .ok (kindOf .cls) →
    ∃ d ∈ dbs, ∃ c ∈ d.classes, c.name.hash = n ∧ read base mem (a + offsetOf type b!"size") 8 = .ok c.size.toNat ∧
      (ForwardDeclared c → ∀ d' ∈ dbs, ∀ c' ∈ d'.classes, c'.name.hash = n → ForwardDeclared c')

/-! ## Proofs -/

/-- The names of all databases. -/
theorem merged_names : ∀ (dbs : List Database) (d m : Database), mergeAll d dbs = .ok m →
    (∀ s ∈ dbs, TextDB.NamesHashed s.names ∧ ∀ n ∈ s.names, n.hash ≠ 0) →
    ∀ n, n ∈ m.names ↔ n ∈ d.names ∨ ∃ s ∈ dbs, n ∈ s.names := by
  intro dbs
  induction dbs with
  | nil =>
    intro d m h _ n
    simp only [mergeAll, Res.ok.injEq] at h
    subst h
    simp
  | cons s ss ih =>
    intro d m h hs n
    rw [mergeAll, Res.bind_eq_ok] at h
    obtain ⟨r, h1, h2⟩ := h
    have t := (merge_iff_tables d s r).mp h1
    obtain ⟨g1, g2⟩ := hs s (by simp)
    have hr : n ∈ r.names ↔ n ∈ d.names ∨ n ∈ s.names := by
      constructor
      · intro hn
        rcases mergeNames_mem t.names n hn with h | ⟨x, hx, e1, e2⟩
        · exact .inl h
        · right
          have : n = x := by
            have := g1 x hx
            cases n; cases x; simp_all
          exact this ▸ hx
      · rintro (hn | hn)
        · exact (mergeNames_sublist t.names).subset hn
        · exact TextDB.mergeNames_contains t.names g1 g2 n hn
    rw [ih r m h2 (fun x hx => hs x (by simp [hx])) n, hr]
    constructor
    · rintro ((h | h) | ⟨x, hx, h⟩)
      · exact .inl h
      · exact .inr ⟨s, by simp, h⟩
      · exact .inr ⟨x, by simp [hx], h⟩
    · rintro (h | ⟨x, hx, h⟩)
      · exact .inl (.inl h)
      · rcases List.mem_cons.mp hx with rfl | hx
        · exact .inl (.inr h)
        · exact .inr ⟨x, hx, h⟩

theorem readdress_laid {p : Place} {d : Data} {size : Nat} (L : Laid p d size) (f : Nat → Nat) : Laid p (d.readdress f) size :=
  ⟨L.header, L.behind, L.apart, L.names, L.texts, L.noText, L.values, L.kids, L.globals⟩

theorem resolved_readdress {d : Data} (f : Nat → Nat) {x : Export.Ptr} (h : Resolved d x) : Resolved (d.readdress f) x := by
  cases x <;> exact h

theorem readdress_linked {d : Data} (N : Linked d) (f : Nat → Nat) : Linked (d.readdress f) := by
  refine ⟨fun r hr => ?_, N.globals, N.types, N.typesOnce⟩
  have o := N.objects r hr
  exact ⟨resolved_readdress f o.parent, resolved_readdress f o.type, fun x hx => resolved_readdress f (o.args x hx),
    resolved_readdress f o.target, resolved_readdress f o.readIt, resolved_readdress f o.writeIt, o.ret, o.ctor, o.dtor, o.ci, o.kids⟩

/-- A lookup finds something exactly when something is there. -/
theorem finds_iff {F : St} {refs : List Ref} {n : UInt32} {declared : Prop} (h : Finds F refs n declared)
    (size : refs.length ≤ 2 ^ 30) (sorted : refs.Pairwise fun a b => (F.get a).hash ≤ (F.get b).hash) :
    (∀ r ∈ refs, (F.get r).hash ≠ n) ↔ ¬ declared := by
  obtain ⟨o, h1, _, h3⟩ := h
  obtain ⟨o', g1, _, g3⟩ := Search.C01_lookup_exact refs (fun r => (F.get r).hash) n size sorted
  rw [h1] at g1
  injection g1 with g1
  subst g1
  rw [← h3, ne_eq, Classical.not_not, g3]

/-- The table of names has every name once, with a text that can be a C string, and there are the names of everything else. -/
structure TextsKnown (m : Database) : Prop where
  sorted : m.names.Pairwise (fun a b => a.hash < b.hash)
  nonzero : ∀ n ∈ m.names, n.hash ≠ 0
  texts : ∀ n ∈ m.names, 0 ∉ n.text
  named : ∀ r q, entry m r = some q → q.name ∈ m.names

/-- Such databases know the texts of their names. -/
theorem text_known {m : Database} (h : TextsKnown m) {n : Name} (hn : n ∈ m.names) :
    Export.textOf m n.hash = some n.text := by
  unfold Export.textOf
  cases hf : m.names.find? fun x => x.hash == n.hash with
  | none =>
    have := List.find?_eq_none.mp hf n hn
    simp at this
  | some x =>
    have h1 := List.mem_of_find?_eq_some hf
    have h2 := List.find?_some hf
    have h2 : x.hash = n.hash := by simpa using h2
    have hk : TextDB.NamesOk m.names := ⟨h.sorted, h.nonzero⟩
    have g1 := hk.get (.inr h1)
    have g2 := hk.get (.inr hn)
    rw [h2, g2] at g1
    rw [g1]
    rfl

theorem known_mem {names : List Name} {n : Name} (h : TextDB.Known names n) (h0 : n.hash ≠ 0) : n ∈ names := by
  rcases h with rfl | h
  · exact absurd rfl h0
  · exact h

section
variable {cfg : TextDB.Cfg} {env : Export.Env} {fuel fb : Nat} {dbs : List Database} {m : Database} (hm : mergeAll {} dbs = .ok m)
  (hst : TextDB.Storable cfg m) (hr : Ready env fuel m) {F : St} (hF : Export.exportDB env fuel m = some (.ok F))
  {p : Place} {f : Nat → Nat} {database base : Nat} {mem : Bytes} (L : Laid p ((dataOf fb m F).readdress f) mem.length)
  (N : Linked ((dataOf fb m F).readdress f)) (R : Represents p ((dataOf fb m F).readdress f) database base mem)
  (small : mem.length ≤ arenaSize)

include hr hF in
theorem exists_entry {r : Ref} {q : Prim} (h : entry m r = some q) : Exists ((dataOf fb m F).readdress f) r := by
  show r.2 < F.count r.1
  rw [(Export.final_of hr.exportable hF).count]
  exact (Export.entry_copied h).1

include hr hF L R in
/-- What is in memory at the place of an entry. -/
theorem prim_at (hst : TextsKnown m) {r : Ref} {q : Prim} (h : entry m r = some q) :
    PrimitiveAt base mem database (base + p.at r) r.1 q.name := by
  have hq := hst.named r q h
  have he := exists_entry (fb := fb) (f := f) hr hF h
  have hk := (Export.entry_copied h).2.1
  obtain ⟨_, _, _, _, _, hh⟩ := Export.C18_tables_sorted_partial env fuel m hr F hF
  have hc : ∀ c ∈ primCells p ((dataOf fb m F).readdress f) database r, c ∈ objectCells p ((dataOf fb m F).readdress f) database r := by
    obtain ⟨k, i⟩ := r
    intro c hc
    cases k <;> simp [objectCells, typeCells, hc] at hk ⊢
  have hread : ∀ o w v, (o, Val.num w v) ∈ primCells p ((dataOf fb m F).readdress f) database r →
      read base mem (base + p.at r + o) w = .ok v := by
    intro o w v hv
    rw [Nat.add_assoc]
    exact read_holds (rep_object R he _ (hc _ hv))
  refine ⟨hread _ _ _ (by simp [primCells]), ?_, ?_, hread _ _ _ (by simp [primCells])⟩
  · have := hread (offsetOf primitive b!"name" + offsetOf name b!"hash") 4 (F.get r).hash.toNat (by
      simp only [primCells, nameCells, List.mem_append, List.mem_cons]
      exact .inl (.inr (.inl rfl)))
    rw [hh r q h] at this
    exact this
  · obtain ⟨a, h1, h2⟩ := C84_object_name p _ database base mem L R r he hk q.name.text (by
      show (F.get r).text = _
      rw [(Export.final_of hr.exportable hF).text, (Export.entry_copied h).2.2.2.2]
      exact text_known hst hq) (hst.texts _ hq)
    refine ⟨a, ?_, h2⟩
    rw [Nat.add_assoc]
    exact h1

include hst in
theorem entry_named {r : Ref} {q : Prim} (h : entry m r = some q) : q.name ∈ m.names := by
  obtain ⟨k, i⟩ := r
  unfold entry entries at h
  have key : q.name.hash ≠ 0 ∧ TextDB.KnownPrim m.names q := by
    cases k <;> simp only [List.getElem?_map, Option.map_eq_some_iff, List.getElem?_nil, reduceCtorEq] at h <;>
      obtain ⟨x, hx, rfl⟩ := h <;> have hx := List.mem_of_getElem? hx
    · exact ⟨(hst.types_ok x hx).1, (hst.types_ok x hx).2.1⟩
    · exact ⟨(hst.enumConstants_ok x hx).1, (hst.enumConstants_ok x hx).2.1⟩
    · exact ⟨(hst.enums_ok x hx).1, (hst.enums_ok x hx).2.1⟩
    · exact ⟨(hst.fields_ok x hx).1, (hst.fields_ok x hx).2.1⟩
    · exact ⟨(hst.functions_ok x hx).1, (hst.functions_ok x hx).2.1⟩
    · exact ⟨(hst.classes_ok x hx).1, (hst.classes_ok x hx).2.1⟩
    · exact ⟨(hst.templates_ok x hx).1, (hst.templates_ok x hx).2⟩
    · exact ⟨(hst.templateTypes_ok x hx).1, (hst.templateTypes_ok x hx).2.1⟩
    · exact ⟨(hst.namespaces_ok x hx).1, (hst.namespaces_ok x hx).2⟩
    · exact ⟨(hst.flagAttributes_ok x hx).1, (hst.flagAttributes_ok x hx).2⟩
    · exact ⟨(hst.intAttributes_ok x hx).1, (hst.intAttributes_ok x hx).2.1⟩
    · exact ⟨(hst.floatAttributes_ok x hx).1, (hst.floatAttributes_ok x hx).2.1⟩
    · exact ⟨(hst.primitiveAttributes_ok x hx).1, (hst.primitiveAttributes_ok x hx).2.1⟩
    · exact ⟨(hst.textAttributes_ok x hx).1, (hst.textAttributes_ok x hx).2.1⟩
  exact known_mem key.2.1 key.1

include hst in
/-- Databases that can be stored are such databases. -/
theorem textsKnown : TextsKnown m :=
  ⟨hst.names_sorted, hst.names_nonzero, fun n hn => (hst.names_text n hn).1.2.1, fun _ _ h => entry_named hst h⟩

include L small in
theorem kids_small {r : Ref} (hr : Exists ((dataOf fb m F).readdress f) r) {s : Slot} (hs : s ∈ slotsOf r.1) :
    ((F.get r).kids s).length ≤ 2 ^ 30 := by
  by_cases h0 : (F.get r).kids s = []
  · rw [h0]; simp
  · have hne := L.kids r s hr hs h0
    cases hp : p.kids r s with
    | none => exact absurd hp hne
    | some o =>
      have := (L.behind (.kids r s) o _ (by simp only [area]; rw [if_pos ⟨hr, hs⟩, hp]; rfl) (by simp)).2
      have e : (((dataOf fb m F).readdress f).st.get r).kids s = (F.get r).kids s := rfl
      rw [e] at this
      have hA : arenaSize = 5242880 := by decide
      omega

include L small hr hF in
theorem entries_small : ∀ k, (entries m k).length ≤ 2 ^ 30 := by
  intro k
  have h := (table_le L k).2
  have hc : ((dataOf fb m F).readdress f).st.count k = (Export.copied m).count k := by
    show F.count k = _
    rw [(Export.final_of hr.exportable hF).count]
  rw [hc] at h
  have hl : (entries m k).length ≤ (Export.copied m).count k := by
    show _ ≤ (Export.rows m k).length
    rw [← Image.table_rows]
    unfold Export.tableSize
    split
    · next e => rw [e]; simp [entries]
    · omega
  have hs := Image.stride_pos k
  have : (Export.copied m).count k * 40 ≤ (Export.copied m).count k * stride k := Nat.mul_le_mul_left _ hs
  have hA : arenaSize = 5242880 := by decide
  omega

include hm hst hr hF L N R small

/-- Looking something up in an array of an object in memory. -/
theorem child_answer {pk : K} {s : Slot} {ck : K} (hrow : (pk, s, ck) ∈ Export.scopeTable) (hs : s ∈ slotsOf pk) {i : Nat} {q : Prim}
    (hq : entry m (pk, i) = some q) (n : UInt32) {declared : Prop} (hfind : Finds F ((F.get (pk, i)).kids s) n declared) :
    ∃ b, findPrimitive base mem (base + p.at (pk, i) + offsetOf (structOf pk) (slotName s)) n = .ok b ∧ (b ≠ 0 ↔ declared) ∧
      (b ≠ 0 → ∃ j x, (ck, j) ∈ (F.get (pk, i)).kids s ∧ entry m (ck, j) = some x ∧ x.name.hash = n ∧ x.parent.hash = q.name.hash ∧
        Export.Records m (ck, j) (pk, i) ∧ b = base + p.at (ck, j)) := by
  have he := exists_entry (fb := fb) (f := f) hr hF hq
  have hi := Export.entry_lt hq
  obtain ⟨_, hmem⟩ := Export.C17_scope_arrays_partial env fuel m hr F hF pk s ck hrow i hi
  obtain ⟨hsort, _, _, _, _, hh⟩ := Export.C18_tables_sorted_partial env fuel m hr F hF
  have hck : ck ≠ .container := (Export.scopeTable_kinds _ hrow).2.1
  have hsz := kids_small L small he hs
  obtain ⟨b, h1, h2, h3⟩ := C84_child_lookup p _ database base mem L N R (pk, i) he s hs
    (fun x hx => by rw [((hmem x).mp hx).1]; exact hck) hsz (hsort pk s ck hrow i hi) n
  refine ⟨b, by rw [Nat.add_assoc]; exact h1, ?_, ?_⟩
  · have := finds_iff hfind hsz (hsort pk s ck hrow i hi)
    constructor
    · intro hb
      apply Classical.byContradiction
      intro hc
      exact hb (h3.mpr (this.mpr hc))
    · intro hd hb
      exact (this.mp (h3.mp hb)) hd
  · intro hb
    obtain ⟨⟨k, j⟩, hx, hn, e⟩ := h2 hb
    obtain ⟨hk, hrec, _⟩ := (hmem _).mp hx
    have hk : k = ck := hk
    subst hk
    obtain ⟨x, y, hx', hy', hp⟩ := hrec.2.1
    rw [hq] at hy'
    injection hy' with hy'
    subst hy'
    exact ⟨j, x, hx, hx', by rw [← hh _ x hx']; exact hn, hp, hrec, e⟩

/-- What `getType` gives. -/
theorem type_answer (n : UInt32) : ∃ a, getType base mem n = .ok a ∧ (a ≠ 0 ↔ DeclaresType dbs n) ∧
    (a ≠ 0 → ∃ k ∈ typeKinds, ∃ i q, entry m (k, i) = some q ∧ q.name.hash = n ∧ a = base + p.at (k, i)) := by
  obtain ⟨_, _, hsort, _, hmem, hh⟩ := Export.C18_tables_sorted_partial env fuel m hr F hF
  have hsz : F.typePrims.length ≤ 2 ^ 30 := by
    rw [(Export.final_of hr.exportable hF).types.length_eq]; exact hr.exportable.typesSize
  obtain ⟨a, h1, h2, h3⟩ := C84_type_lookup p _ database base mem L N R hsz hsort n
  refine ⟨a, h1, ?_, ?_⟩
  · have := finds_iff (finds_types hm hr hF n) hsz hsort
    constructor
    · intro hb
      apply Classical.byContradiction
      intro hc
      exact hb (h3.mpr (this.mpr hc))
    · intro hd hb
      exact (this.mp (h3.mp hb)) hd
  · intro hb
    obtain ⟨⟨k, i⟩, hx, hn, e⟩ := h2 hb
    obtain ⟨hk, q, hq⟩ := (hmem _).mp hx
    exact ⟨k, hk, i, q, hq, by rw [← hh _ q hq]; exact hn, e⟩

/-- A type that says it is of some kind is of that kind. -/
theorem typed_answer {n : UInt32} {a : Nat} (h1 : getType base mem n = .ok a) (h0 : a ≠ 0) {k : K}
    (hk : read base mem (a + offsetOf primitive b!"kind") 4 = .ok (kindOf k)) (hkk : k ∈ typeKinds) :
    ∃ i q, entry m (k, i) = some q ∧ q.name.hash = n ∧ a = base + p.at (k, i) := by
  obtain ⟨a', g1, _, g3⟩ := type_answer hm hst hr hF L N R small n
  rw [h1] at g1
  injection g1 with g1
  subst g1
  obtain ⟨k', hk', i, q, e1, e2, e3⟩ := g3 h0
  have := (prim_at (fb := fb) (f := f) hr hF L R (textsKnown hst) e1).kind
  rw [← e3, hk] at this
  injection this with this
  have : k' = k := by
    revert this hk' hkk
    cases k <;> cases k' <;> simp [typeKinds, kindOf]
  subst this
  exact ⟨i, q, e1, e2, e3⟩

/-- What `getEntry` gives for namespaces. -/
theorem space_answer (n : UInt32) : ∃ a, getEntry base mem .space n = .ok a ∧ (a ≠ 0 ↔ ∃ d ∈ dbs, ∃ s ∈ d.namespaces, s.name.hash = n) ∧
    (a ≠ 0 → ∃ i s, m.namespaces[i]? = some s ∧ s.name.hash = n ∧ a = base + p.at (.space, i)) := by
  obtain ⟨_, _, _, _, _, hh⟩ := Export.C18_tables_sorted_partial env fuel m hr F hF
  have hc : ((dataOf fb m F).readdress f).st.count .space = m.namespaces.length := by
    show F.count .space = _
    rw [(Export.final_of hr.exportable hF).count]
    show (Export.rows m .space).length = _
    simp [Export.rows]
  have hent : ∀ i (hi : i < m.namespaces.length), entry m (.space, i) = some (m.namespaces[i]).toPrim := by
    intro i hi
    unfold entry entries
    simp [List.getElem?_eq_getElem hi]
  have hget : ∀ i (hi : i < m.namespaces.length), (((dataOf fb m F).readdress f).st.get (.space, i)).hash = (m.namespaces[i]).name.hash :=
    fun i hi => hh _ _ (hent i hi)
  have hsz := (entries_small hr hF L small) .space
  obtain ⟨a, h1, h2, h3⟩ := C84_entry_lookup p _ database base mem L R .space (by simp)
    (by rw [hc]; simpa [entries] using hsz) (by
      intro i j hij hj
      rw [hc] at hj
      rw [hget i (by omega), hget j hj]
      exact List.pairwise_iff_getElem.mp hst.namespaces_sorted i j (by omega) hj hij) n
  refine ⟨a, h1, ?_, ?_⟩
  · have hiff : (∃ d ∈ dbs, ∃ s ∈ d.namespaces, s.name.hash = n) ↔ ∃ s ∈ m.namespaces, s.name.hash = n := by
      constructor
      · rintro ⟨d, hd, s, hs, e⟩
        obtain ⟨e', he, hk, hn⟩ := (C72_every_symbol dbs {} m hm).2 .namespace n (.inr ⟨d, hd, .namespace s, hs, rfl, e⟩)
        cases e' <;> cases hk
        exact ⟨_, he, hn⟩
      · rintro ⟨s, hs, e⟩
        obtain ⟨d, hd, h⟩ := from_input (e := .namespace s) hm hs
        exact ⟨d, hd, s, h, e⟩
    rw [hiff]
    constructor
    · intro hb
      obtain ⟨i, hi, hn, _⟩ := h2 hb
      rw [hc] at hi
      rw [hget i hi] at hn
      exact ⟨_, List.getElem_mem hi, hn⟩
    · rintro ⟨s, hs, e⟩ h0
      obtain ⟨i, hi, rfl⟩ := List.getElem_of_mem hs
      refine h3.mp h0 i (by rw [hc]; exact hi) ?_
      rw [hget i hi]
      exact e
  · intro hb
    obtain ⟨i, hi, hn, e⟩ := h2 hb
    rw [hc] at hi
    rw [hget i hi] at hn
    exact ⟨i, _, List.getElem?_eq_getElem hi, hn, e⟩

omit hm small in
/-- A field in memory. -/
theorem field_at {j : Nat} {y : Field} (hy : m.fields[j]? = some y) {r : Ref} (hrec : Export.Records m (.field, j) r)
    (hty : ∃ t ∈ F.typePrims, (F.get (.field, j)).type = .obj t ∧ Export.HasType m (.field, j) t) :
    FieldAt base mem database (base + p.at r) (base + p.at (.field, j)) y := by
  have hx := field_entry hy
  have he := exists_entry (fb := fb) (f := f) hr hF hx
  have num : ∀ o w v, (o, Val.num w v) ∈ objectCells p ((dataOf fb m F).readdress f) database (.field, j) →
      read base mem (base + p.at (.field, j) + o) w = .ok v := by
    intro o w v hv
    rw [Nat.add_assoc]
    exact read_holds (rep_object R he _ hv)
  have ptr : ∀ o t, (o, Val.ptr (some t)) ∈ objectCells p ((dataOf fb m F).readdress f) database (.field, j) →
      read base mem (base + p.at (.field, j) + o) 8 = .ok (base + t) := by
    intro o w hv
    rw [Nat.add_assoc]
    exact read_ptr (rep_object R he _ hv)
  refine ⟨prim_at hr hF L R (textsKnown hst) hx, ?_, ?_, ?_, ?_, ?_, ?_⟩
  · refine ptr _ _ ?_
    have := (Export.C17_back_pointers_partial env fuel m hr F hF (.field, j) _ hx (by simp)).1 r (.inl hrec)
    have e : p.ptr (F.get (.field, j)).parent = .ptr (some (p.at r)) := by rw [this]; rfl
    rw [← e]
    simp only [objectCells, primCells, List.mem_append, List.mem_cons]
    exact .inl (.inl (.inl (.inr (.inl rfl))))
  · obtain ⟨t, ht, e, hty⟩ := hty
    obtain ⟨hk', f', q', u1, u2, u3⟩ := hty
    have u1 : m.fields[j]? = some f' := u1
    rw [hy] at u1
    injection u1 with u1
    subst u1
    refine ⟨base + p.at t, ptr _ _ ?_, t.1, hk', ?_⟩
    · have e : p.ptr (F.get (.field, j)).type = .ptr (some (p.at t)) := by rw [e]; rfl
      rw [← e]
      simp only [objectCells, List.mem_append, List.mem_cons]
      exact .inl (.inl (.inr (.inl rfl)))
    · have hpt := prim_at (fb := fb) (f := f) hr hF L R (textsKnown hst) u2
      have hne : y.type.hash ≠ 0 := by
        rw [u3]
        exact hst.names_nonzero _ (entry_named hst u2)
      have hyt := known_mem (hst.fields_ok y (List.mem_of_getElem? hy)).2.2.1 hne
      have : y.type = q'.name := by
        have g1 := hst.namesOk.get (.inr hyt)
        have g2 := hst.namesOk.get (.inr (entry_named hst u2))
        rw [u3, g2] at g1
        exact g1.symm
      rw [this]
      exact hpt
  all_goals
    have hgd : m.fields.getD j {} = y := by rw [List.getD_eq_getElem?_getD, hy]; rfl
  · have := num (offsetOf field b!"qualifier" + offsetOf qualifier b!"op") 4 (scalarOf m (.field, j) .op) (by
      simp only [objectCells, List.mem_append, List.mem_cons, readdress_other _ f (.field, j) .op (by simp)]
      exact .inl (.inl (.inr (.inr (.inl rfl)))))
    rw [this]
    simp only [scalarOf, hgd]
  · have := num (offsetOf field b!"qualifier" + offsetOf qualifier b!"is_const") 1 (scalarOf m (.field, j) .isConst) (by
      simp only [objectCells, List.mem_append, List.mem_cons, readdress_other _ f (.field, j) .isConst (by simp)]
      exact .inl (.inl (.inr (.inr (.inr (.inl rfl))))))
    rw [this]
    simp only [scalarOf, hgd]
  · have := num (offsetOf field b!"offset") 4 (scalarOf m (.field, j) .offset) (by
      simp only [objectCells, List.mem_append, List.mem_cons, readdress_other _ f (.field, j) .offset (by simp)]
      exact .inl (.inl (.inr (.inr (.inr (.inr (.inl rfl)))))))
    rw [this]
    simp only [scalarOf, hgd]
  · have := num (offsetOf field b!"parent_unique_id") 4 (F.get (.field, j)).uid.toNat (by
      simp only [objectCells, List.mem_append, List.mem_cons]
      exact .inl (.inl (.inr (.inr (.inr (.inr (.inr (.inl rfl))))))))
    rw [this, (Export.final_of hr.exportable hF).uid]
    show Res.ok ((Export.rows m .field).getD j {}).uid.toNat = _
    simp [Export.rows, hy]

/-- The memory holds what the databases declare. -/
theorem answers_of (hnm : ∀ s ∈ dbs, TextDB.NamesHashed s.names ∧ ∀ n ∈ s.names, n.hash ≠ 0) : Answers dbs base database mem := by
  have hsz := entries_small hr hF L small
  have pa : ∀ {r : Ref} {q : Prim}, entry m r = some q → PrimitiveAt base mem database (base + p.at r) r.1 q.name :=
    fun h => prim_at hr hF L R (textsKnown hst) h
  have num : ∀ {r : Ref} {q : Prim}, entry m r = some q → ∀ o w v,
      (o, Val.num w v) ∈ objectCells p ((dataOf fb m F).readdress f) database r → read base mem (base + p.at r + o) w = .ok v := by
    intro r q h o w v hv
    rw [Nat.add_assoc]
    exact read_holds (rep_object R (exists_entry hr hF h) _ hv)
  have ptr : ∀ {r : Ref} {q : Prim}, entry m r = some q → ∀ o t,
      (o, Val.ptr (some t)) ∈ objectCells p ((dataOf fb m F).readdress f) database r → read base mem (base + p.at r + o) 8 = .ok (base + t) := by
    intro r q h o w hv
    rw [Nat.add_assoc]
    exact read_ptr (rep_object R (exists_entry hr hF h) _ hv)
  refine ⟨?_, ?_, ?_, ?_, ?_, ?_, ?_, ?_⟩
  · intro n
    obtain ⟨a, h1, h2, h3⟩ := type_answer hm hst hr hF L N R small n
    refine ⟨a, h1, h2, ?_⟩
    intro h0
    obtain ⟨k, hk, i, q, e1, e2, rfl⟩ := h3 h0
    have hp := pa e1
    have hin : ∃ d ∈ dbs, q ∈ entries d k := by
      have hq := entry_mem.mpr ⟨i, e1⟩
      simp only [typeKinds, List.mem_cons, List.not_mem_nil, or_false] at hk
      rcases hk with rfl | rfl | rfl | rfl
      · obtain ⟨x, hx, rfl⟩ := List.mem_map.mp hq
        obtain ⟨s, hs, he⟩ := from_input (e := .type x) hm hx
        exact ⟨s, hs, List.mem_map_of_mem he⟩
      · obtain ⟨x, hx, rfl⟩ := List.mem_map.mp hq
        obtain ⟨s, hs, he⟩ := from_input (e := .cls x) hm hx
        exact ⟨s, hs, List.mem_map_of_mem he⟩
      · obtain ⟨x, hx, rfl⟩ := List.mem_map.mp hq
        obtain ⟨s, hs, he⟩ := from_input (e := .enum x) hm hx
        exact ⟨s, hs, List.mem_map_of_mem he⟩
      · obtain ⟨x, hx, rfl⟩ := List.mem_map.mp hq
        obtain ⟨s, hs, he⟩ := from_input (e := .templateType x) hm hx
        exact ⟨s, hs, List.mem_map_of_mem he⟩
    obtain ⟨d, hd, hq⟩ := hin
    exact ⟨d, hd, k, hk, q, hq, e2, hp⟩
  · intro n a h1 h0 hk fn
    obtain ⟨i, q, e1, rfl, rfl⟩ := typed_answer hm hst hr hF L N R small h1 h0 hk (by decide)
    obtain ⟨b, g1, g2, g3⟩ := child_answer hm hst hr hF L N R small (pk := .cls) (s := .fields) (ck := .field)
      (by simp [Export.scopeTable]) (by decide) e1 fn (finds_fields hm hr hsz hF e1 fn)
    refine ⟨b, g1, g2, ?_⟩
    intro hb
    obtain ⟨j, x, hkid, hx, hn, hpar, hrec, rfl⟩ := g3 hb
    obtain ⟨y, hy, rfl⟩ := entry_field hx
    obtain ⟨d, hd, hyd⟩ := from_input (e := .field y) hm (List.mem_of_getElem? hy)
    exact ⟨d, hd, y, hyd, hn, hpar, field_at hst hr hF L N R hy hrec
      ((Export.C20_no_dangling_types_partial env fuel m hr F hF).1 i (Export.entry_lt e1) _ hkid)⟩
  · intro n a h1 h0 hk fn
    obtain ⟨i, q, e1, rfl, rfl⟩ := typed_answer hm hst hr hF L N R small h1 h0 hk (by decide)
    obtain ⟨b, g1, g2, g3⟩ := child_answer hm hst hr hF L N R small (pk := .cls) (s := .methods) (ck := .function)
      (by simp [Export.scopeTable]) (by decide) e1 fn (finds_functions hm hr hsz hF (by simp) e1 fn)
    refine ⟨b, g1, g2, ?_⟩
    intro hb
    obtain ⟨j, x, _, hx, hn, hpar, _, rfl⟩ := g3 hb
    obtain ⟨y, hy, rfl⟩ := entry_function hx
    obtain ⟨d, hd, hyd⟩ := from_input (e := .function y) hm (List.mem_of_getElem? hy)
    exact ⟨d, hd, y, hyd, hn, hpar, pa hx⟩
  · intro n a h1 h0 hk fn
    obtain ⟨i, q, e1, rfl, rfl⟩ := typed_answer hm hst hr hF L N R small h1 h0 hk (by decide)
    obtain ⟨b, g1, g2, g3⟩ := child_answer hm hst hr hF L N R small (pk := .enum) (s := .constants) (ck := .constant)
      (by simp [Export.scopeTable]) (by decide) e1 fn (finds_constants hm hr hsz hF e1 fn)
    refine ⟨b, g1, g2, ?_⟩
    intro hb
    obtain ⟨j, x, _, hx, hn, hpar, hrec, rfl⟩ := g3 hb
    obtain ⟨y, hy, rfl⟩ := entry_constant hx
    obtain ⟨d, hd, hyd⟩ := from_input (e := .enumConstant y) hm (List.mem_of_getElem? hy)
    refine ⟨d, hd, y, hyd, hn, hpar, pa hx, ?_, ?_⟩
    · refine ptr hx _ _ ?_
      have := (Export.C17_back_pointers_partial env fuel m hr F hF (.constant, j) _ hx (by simp)).1 (.enum, i) (.inl hrec)
      have e : p.ptr (F.get (.constant, j)).parent = .ptr (some (p.at (.enum, i))) := by rw [this]; rfl
      rw [← e]
      simp only [objectCells, primCells, List.mem_append, List.mem_cons]
      exact .inl (.inr (.inl rfl))
    · have := num hx (offsetOf enumConstant b!"value") 4 (scalarOf m (.constant, j) .value) (by
        simp only [objectCells, List.mem_append, List.mem_cons, readdress_other _ f (.constant, j) .value (by simp)]
        exact .inr (.inl rfl))
      rw [this]
      have hgd : m.enumConstants.getD j {} = y := by rw [List.getD_eq_getElem?_getD, hy]; rfl
      simp only [scalarOf, hgd]
  · intro n
    obtain ⟨a, h1, h2, h3⟩ := space_answer hm hst hr hF L N R small n
    refine ⟨a, h1, h2, ?_⟩
    intro h0
    obtain ⟨i, s, hs, hn, rfl⟩ := h3 h0
    obtain ⟨d, hd, hsd⟩ := from_input (e := .namespace s) hm (List.mem_of_getElem? hs)
    have : entry m (.space, i) = some s.toPrim := by unfold entry entries; simp [hs]
    exact ⟨d, hd, s, hsd, hn, pa this⟩
  · intro n a h1 h0 fn
    obtain ⟨a', u1, _, u3⟩ := space_answer hm hst hr hF L N R small n
    rw [h1] at u1
    injection u1 with u1
    subst u1
    obtain ⟨i, s, hs, rfl, rfl⟩ := u3 h0
    have e1 : entry m (.space, i) = some s.toPrim := by unfold entry entries; simp [hs]
    obtain ⟨b, g1, g2, g3⟩ := child_answer hm hst hr hF L N R small (pk := .space) (s := .functions) (ck := .function)
      (by simp [Export.scopeTable]) (by decide) e1 fn (finds_functions hm hr hsz hF (by simp) e1 fn)
    refine ⟨b, g1, g2, ?_⟩
    intro hb
    obtain ⟨j, x, _, hx, hn, hpar, _, rfl⟩ := g3 hb
    obtain ⟨y, hy, rfl⟩ := entry_function hx
    obtain ⟨d, hd, hyd⟩ := from_input (e := .function y) hm (List.mem_of_getElem? hy)
    exact ⟨d, hd, y, hyd, hn, hpar, pa hx⟩
  · intro n
    have hn := merged_names dbs {} m hm hnm
    have hlen : ((dataOf fb m F).readdress f).names.length ≤ 2 ^ 30 := by
      have := (L.behind .names _ _ rfl (by simp)).2
      have hA : arenaSize = 5242880 := by decide
      have h1 : name.lay.size = 16 := by decide
      rw [h1] at this
      omega
    have hsort : ((dataOf fb m F).readdress f).names.Pairwise fun a b => a.1 ≤ b.1 := by
      show (m.names.map fun n => (n.hash, n.text)).Pairwise _
      rw [List.pairwise_map]
      exact hst.names_sorted.imp fun h => UInt32.le_of_lt h
    rcases C84_name_lookup p _ database base mem R hlen hsort n with ⟨a, t, h1, h2, h3⟩ | ⟨h1, h2⟩
    · obtain ⟨x, hx, e⟩ := List.mem_map.mp (show (n, t) ∈ m.names.map fun n => (n.hash, n.text) from h1)
      injection e with e1 e2
      subst e1; subst e2
      rcases (hn x).mp hx with h | ⟨s, hs, h⟩
      · cases h
      · exact .inl ⟨s, hs, x, h, rfl, a, h2, h3 (hst.names_text x hx).1.2.1⟩
    · right
      refine ⟨?_, h2⟩
      intro d hd x hx e
      refine h1 x.text (show (n, x.text) ∈ m.names.map fun n => (n.hash, n.text) from List.mem_map.mpr ⟨x, (hn x).mpr (.inr ⟨d, hd, hx⟩), by rw [e]⟩)
  · intro n a h1 h0 hk
    obtain ⟨i, q, e1, rfl, rfl⟩ := typed_answer hm hst hr hF L N R small h1 h0 hk (by decide)
    have e2 := e1
    unfold entry entries at e2
    simp only [List.getElem?_map, Option.map_eq_some_iff] at e2
    obtain ⟨c, hc, rfl⟩ := e2
    have hcm : c ∈ m.classes := List.mem_of_getElem? hc
    obtain ⟨_, c2, _, c4⟩ := C09_definition_wins dbs m hm
    obtain ⟨d, hd, hcd⟩ := c2 c hcm
    refine ⟨d, hd, c, hcd, rfl, ?_, fun hfd d' hd' c' hc' he => (c4 c hcm).1 hfd d' hd' c' hc' he⟩
    have := num e1 (offsetOf type b!"size") 8 (scalarOf m (.cls, i) .size) (by
      simp only [objectCells, typeCells, List.mem_append, List.mem_cons, readdress_other _ f (.cls, i) .size (by simp)]
      simp [dataOf])
    rw [this]
    have hgd : m.classes.getD i {} = c := by rw [List.getD_eq_getElem?_getD, hc]; rfl
    simp only [scalarOf, hgd]

end

theorem inputs_names {cfg : TextDB.Cfg} {fs : Files} {names : List Bytes} {dbs : List Database} (h : Inputs cfg fs names dbs) :
    ∀ d ∈ dbs, TextDB.Storable cfg d := by
  induction h with
  | nil => intro d hd; cases hd
  | cons _ _ hst _ ih =>
    intro d hd
    rcases List.mem_cons.mp hd with rfl | hd
    · exact hst
    · exact ih d hd

/-- C86, partial: the databases of any number of translation units are merged by clmerge, the result is exported by clexport,
and the file is loaded at any address. In that memory the program finds, by name, the types, fields, methods, constants,
namespaces and functions that the databases declare and no others, and reads of them what the databases say. Partial: asks
of the merged database what C85 asks (`Fits`), and for no map file. -/
theorem C86_scan_to_memory_partial (env : Env) (xenv : FileEnv) (hcfg : xenv.cfg = env.cfg) (hg : xenv.host.Good) (fs : Files)
    (args : List Bytes) (out file : Bytes) (inputs : List Bytes) (dbs : List Database) (hc : CommandLine args out [] [] inputs)
    (hin : Inputs env.cfg fs inputs dbs) (hcol : NoCollisions dbs) (hw : fs.canWrite out = true) (hw2 : fs.canWrite file = true)
    (xargs : List Bytes) (hx : ExportLine xargs out file)
    (hfit : ∀ m, mergeAll {} dbs = .ok m → Fits xenv.host xenv.depth m) :
    ∃ fs1 fs2 bytes, mergeMain env args fs = .ok (0, fs1) ∧ fileMain xenv xargs fs1 = some (.ok (0, fs2)) ∧
      fs2.read file = some bytes ∧
      ∀ base loadAddr database dont, base + arenaSize < Reloc.W64 → database < Reloc.W64 →
        ∃ mem, Reloc.load base loadAddr database dont bytes = .ok (some mem) ∧ Answers dbs base database mem := by
  obtain ⟨m, fs1, h1, h2, ⟨data, h3, h4⟩, hst, _, h5⟩ :=
    C72_output_is_the_merge_partial env fs args out [] [] inputs dbs hc hin hcol hw (by simp)
  have hf := hfit m h2
  obtain ⟨F, p, bytes, hF, hb, N, hload⟩ := C85_loaded_partial xenv.host hg xenv.depth 0 (by decide) m hf
  obtain ⟨fs2, k1, k2, _⟩ := C85_file_written xenv fs1 xargs out file data m hx h3 (by rw [hcfg]; exact h4) bytes hb
    (by rw [(h5 rfl rfl).2]; exact hw2)
  refine ⟨fs1, fs2, bytes, h1, k1, k2, ?_⟩
  intro base loadAddr database dont hbase hdb
  obtain ⟨mem, m1, m2, L, R⟩ := hload base loadAddr database dont hbase hdb
  refine ⟨mem, m1, answers_of h2 hst (hf.ready hg) hF (readdress_laid L _) (readdress_linked N _) R m2 ?_⟩
  intro s hs
  exact ⟨fun n hn => hcol.1 s hs n hn, (inputs_names hin s hs).names_nonzero⟩

/-- The kinds of primitives in the order of `Primitive::Kind`, inc/clcpp/clcpp.h:576-594; there are none of the first two. -/
def kindOrder : List (Option K) :=
  [none, none, some .flagAttr, some .intAttr, some .floatAttr, some .primAttr, some .textAttr, some .type, some .constant, some .enum,
   some .field, some .function, some .instance, some .template, some .cls, some .space]

/-- C86: the numbers of kinds and operators in memory are those by which the runtime knows them: `Primitive::Kind`, and
`Qualifier::Operator` (inc/clcpp/clcpp.h:526-531). -/
theorem C86_numbers : (∀ k, k ≠ .container → kindOrder[kindOf k]? = some (some k)) ∧
    ∀ o, [QualOp.value, .pointer, .reference][qualifierOp o]? = some o :=
  ⟨fun k => by cases k <;> decide, fun o => by cases o <;> rfl⟩

/-! ## Example -/

def unitFileEnv : FileEnv := { cfg := TextDB.exampleCfg, mapFile := fun _ _ db => .ok (0, db), host := sampleHost, depth := 2 }

/-- All hypotheses of the theorem, and some of what it says then: in memory, the class is there, the field of the type in the
other translation unit is, the one whose type is in neither is not. -/
example : ∃ fs1 fs2 bytes, mergeMain exampleEnv [b!"clmerge", b!"out.csv", b!"a.csv", b!"b.csv"] unitFiles = .ok (0, fs1) ∧
    fileMain unitFileEnv [b!"clexport", b!"out.csv", b!"-cpp", b!"out.cppbin"] fs1 = some (.ok (0, fs2)) ∧
    fs2.read b!"out.cppbin" = some bytes ∧ ∃ mem, Reloc.load 4096 0 8 false bytes = .ok (some mem) ∧
    ∃ a, getType 4096 mem (hashOf b!"g::D") = .ok a ∧ PrimitiveAt 4096 mem 8 a .cls (TextDB.nm b!"g::D") ∧
      (∃ b, findPrimitive 4096 mem (a + offsetOf cls b!"fields") (hashOf b!"x") = .ok b ∧
        ∃ x ∈ unitA.fields, x.type.text = b!"int" ∧ FieldAt 4096 mem 8 a b x) ∧
      findPrimitive 4096 mem (a + offsetOf cls b!"fields") (hashOf b!"bad") = .ok 0 := by
  obtain ⟨fs1, fs2, bytes, h1, h2, h3, h4⟩ := C86_scan_to_memory_partial exampleEnv unitFileEnv rfl sampleHost_good unitFiles
    [b!"clmerge", b!"out.csv", b!"a.csv", b!"b.csv"] b!"out.csv" b!"out.cppbin" [b!"a.csv", b!"b.csv"] [unitA, unitB]
    ⟨⟨b!"clmerge", [], rfl, .none, by unfold Plain; decide⟩, by unfold Plain; decide, by unfold Plain; decide,
      by unfold Plain; decide, by unfold Plain; decide, by decide⟩
    (.cons rfl (.text unitA_storable) unitA_storable (.cons rfl (.text unitB_storable) unitB_storable .nil))
    (by unfold NoCollisions; exact ⟨by decide +kernel, by decide +kernel⟩) rfl rfl
    [b!"clexport", b!"out.csv", b!"-cpp", b!"out.cppbin"]
    ⟨⟨b!"clexport", [], rfl, .inl rfl, by decide, by decide⟩, by decide, by decide⟩ units_fit
  obtain ⟨mem, h5, A⟩ := h4 4096 0 8 false (by decide) (by decide)
  refine ⟨fs1, fs2, bytes, h1, h2, h3, mem, h5, ?_⟩
  obtain ⟨a, f1, f2, f3⟩ := A.types (hashOf b!"g::D")
  have hD : DeclaresType [unitA, unitB] (hashOf b!"g::D") :=
    ⟨unitA, by simp, .cls, by decide, _, List.mem_map_of_mem (List.mem_singleton.mpr rfl), rfl⟩
  have h0 := f2.mpr hD
  obtain ⟨d, hd, k, hk, q, hq, e, hp⟩ := f3 h0
  have hcls : k = .cls ∧ q.name = TextDB.nm b!"g::D" := by
    have : ∀ k ∈ Export.kinds, ∀ d ∈ [unitA, unitB], ∀ p ∈ entries d k, p.name.hash = hashOf b!"g::D" →
      k = .cls ∧ p.name = TextDB.nm b!"g::D" := by decide +kernel
    exact this k (by cases k <;> decide) d hd q hq e
  obtain ⟨rfl, e'⟩ := hcls
  rw [e'] at hp
  refine ⟨a, f1, hp, ?_, ?_⟩
  · obtain ⟨b, g1, g2, g3⟩ := A.fields _ a f1 h0 hp.kind (hashOf b!"x")
    have hx : DeclaresField [unitA, unitB] (hashOf b!"g::D") (hashOf b!"x") :=
      ⟨unitA, by simp, { name := TextDB.nm b!"x", parent := TextDB.nm b!"g::D", type := TextDB.nm b!"int", offset := 0 },
        by decide +kernel, rfl, rfl, unitB, by simp, .type, by decide, _, List.mem_map_of_mem (List.mem_singleton.mpr rfl), rfl⟩
    obtain ⟨d, hd, x, hx, e1, e2, e3⟩ := g3 (g2.mpr hx)
    have : ∀ d ∈ [unitA, unitB], ∀ x ∈ d.fields, x.name.hash = hashOf b!"x" → x ∈ unitA.fields ∧ x.type.text = b!"int" := by decide +kernel
    exact ⟨b, g1, x, (this d hd x hx e1).1, (this d hd x hx e1).2, e3⟩
  · obtain ⟨b, g1, g2, _⟩ := A.fields _ a f1 h0 hp.kind (hashOf b!"bad")
    rw [g1]
    congr 1
    apply Classical.byContradiction
    intro hb
    obtain ⟨d, hd, f, hf, e1, _, d', hd', k, hk, p, hp, e2⟩ := g2.mp hb
    have hnone : ∀ d ∈ [unitA, unitB], ∀ f ∈ d.fields, f.name.hash = hashOf b!"bad" →
        ∀ d' ∈ [unitA, unitB], ∀ k ∈ typeKinds, ∀ p ∈ entries d' k, p.name.hash ≠ f.type.hash := by decide +kernel
    exact hnone d hd f hf e1 d' hd' k hk p hp e2

end Clr.Tools
