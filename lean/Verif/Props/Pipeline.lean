import Verif.Model.ExportTool
import Verif.Props.Tools
import Verif.Props.Export2
import Verif.Props.ExportSample
/-!
Property C73: from the databases of the scanner to lookups at runtime, through clmerge and clexport.
-/
namespace Clr.Tools
open Clr.DB Clr.Args Clr.Merge
open Clr.Export (K Slot entries entry Ready typeKinds St)

attribute [local irreducible] hashOf

/-! ### Specification: what the inputs say -/

/-- One of the databases has a type, class, enum or template instance of this name. -/
def DeclaresType (dbs : List Database) (name : UInt32) : Prop :=
  ∃ d ∈ dbs, ∃ k ∈ typeKinds, ∃ p ∈ entries d k, p.name.hash = name

/-- One of the databases has a field of this name in this class, and one of them, possibly another one, has the
type of the field. -/
def DeclaresField (dbs : List Database) (cls name : UInt32) : Prop :=
  ∃ d ∈ dbs, ∃ f ∈ d.fields, f.name.hash = name ∧ f.parent.hash = cls ∧ DeclaresType dbs f.type.hash

/-- The parameter or return value belongs to the function. -/
def ParameterOf (p : Field) (f : Function) : Prop := p.parent.hash = f.name.hash ∧ p.parentUniqueId = f.uniqueId

/-- One of the databases has a function of this name in this scope, and the types of its parameters and of its
return value are in some of the databases. -/
def DeclaresFunction (dbs : List Database) (scope name : UInt32) : Prop :=
  ∃ d ∈ dbs, ∃ f ∈ d.functions, f.name.hash = name ∧ f.parent.hash = scope ∧
    ∀ d' ∈ dbs, ∀ p ∈ d'.fields, ParameterOf p f → DeclaresType dbs p.type.hash

/-- One of the databases has a constant of this name in this enum. -/
def DeclaresConstant (dbs : List Database) (enum name : UInt32) : Prop :=
  ∃ d ∈ dbs, ∃ c ∈ d.enumConstants, c.name.hash = name ∧ c.parent.hash = enum

/-- The command line of clexport: the database, the file for the exported database, and perhaps one for the log. -/
structure ExportLine (args : List Bytes) (db file : Bytes) : Prop where
  shape : ∃ prog log, args = prog :: db :: b!"-cpp" :: file :: log ∧ (log = [] ∨ ∃ l, log = [b!"-cpp_log", l] ∧ l ≠ b!"-map") ∧
    prog ≠ b!"-cpp" ∧ prog ≠ b!"-map"
  plainDb : db ≠ b!"-cpp" ∧ db ≠ b!"-map"
  plainFile : file ≠ [] ∧ file ≠ b!"-map"

/-- The lookup by name ends, and finds something of that name exactly when it is declared. -/
def Finds (F : St) (refs : List Export.Ref) (name : UInt32) (declared : Prop) : Prop :=
  ∃ o, Search.find refs (fun r => (F.get r).hash) name = .ok o ∧ (∀ r, o = some r → r ∈ refs ∧ (F.get r).hash = name) ∧
    (o ≠ none ↔ declared)

/-! ### Merging: what all databases say -/

theorem mergeAll_step {P : Database → Prop} {R : Database → Database → Prop} (hr : ∀ d, R d d)
    (ht : ∀ a b c, R a b → R b c → R a c)
    (hd : ∀ d s r, mergeDatabases d s = .ok r → R d r) (hs : ∀ d s r, mergeDatabases d s = .ok r → R s r) :
    ∀ (dbs : List Database) (d m : Database), mergeAll d dbs = .ok m → R d m ∧ ∀ s ∈ dbs, R s m := by
  intro dbs
  induction dbs with
  | nil =>
    intro d m h
    simp only [mergeAll, Res.ok.injEq] at h
    subst h
    exact ⟨hr d, fun s hs => by cases hs⟩
  | cons s ss ih =>
    intro d m h
    rw [mergeAll, Res.bind_eq_ok] at h
    obtain ⟨r, h1, h2⟩ := h
    obtain ⟨i1, i2⟩ := ih r m h2
    refine ⟨ht _ _ _ (hd d s r h1) i1, ?_⟩
    intro x hx
    rcases List.mem_cons.mp hx with rfl | hx
    · exact ht _ _ _ (hs d x r h1) i1
    · exact i2 x hx

/-- The same in all that decides about lookups. -/
def SameField (a b : Field) : Prop :=
  a.name.hash = b.name.hash ∧ a.parent.hash = b.parent.hash ∧ a.type.hash = b.type.hash ∧ a.parentUniqueId = b.parentUniqueId ∧
    a.qualifier = b.qualifier ∧ a.offset = b.offset

def SameFn (a b : Function) : Prop :=
  a.name.hash = b.name.hash ∧ a.parent.hash = b.parent.hash ∧ a.uniqueId = b.uniqueId

def SameConst (a b : EnumConstant) : Prop := a.name.hash = b.name.hash ∧ a.parent.hash = b.parent.hash

theorem merged_fields {dbs : List Database} {m : Database} (h : mergeAll {} dbs = .ok m) :
    ∀ s ∈ dbs, ∀ x ∈ s.fields, ∃ y ∈ m.fields, SameField y x := by
  refine (mergeAll_step (P := fun _ => True) (R := fun a b => ∀ x ∈ a.fields, ∃ y ∈ b.fields, SameField y x) ?_ ?_ ?_ ?_ dbs {} m h).2
  · intro d x hx; exact ⟨x, hx, rfl, rfl, rfl, rfl, rfl, rfl⟩
  · intro a b c h1 h2 x hx
    obtain ⟨y, hy, a1, a2, a3, a4, a5, a6⟩ := h1 x hx
    obtain ⟨z, hz, b1, b2, b3, b4, b5, b6⟩ := h2 y hy
    exact ⟨z, hz, b1.trans a1, b2.trans a2, b3.trans a3, b4.trans a4, b5.trans a5, b6.trans a6⟩
  · intro d s r hm x hx
    rcases C06_destination_kept d s r hm (.field x) hx with hr | ⟨c, _, e, _⟩
    · exact ⟨x, hr, rfl, rfl, rfl, rfl, rfl, rfl⟩
    · cases e
  · intro d s r hm x hx
    rcases mergeOverloads_repr ((merge_iff_tables d s r).mp hm).fields x hx with h | ⟨y, hy, _, hq⟩
    · exact ⟨x, h, rfl, rfl, rfl, rfl, rfl, rfl⟩
    · refine ⟨y, hy, ?_⟩
      simp only [Field.equals, Prim.equals, Name.same, Bool.and_eq_true, beq_iff_eq] at hq
      unfold SameField
      simp_all

theorem merged_functions {dbs : List Database} {m : Database} (h : mergeAll {} dbs = .ok m) :
    ∀ s ∈ dbs, ∀ x ∈ s.functions, ∃ y ∈ m.functions, SameFn y x := by
  refine (mergeAll_step (P := fun _ => True) (R := fun a b => ∀ x ∈ a.functions, ∃ y ∈ b.functions, SameFn y x) ?_ ?_ ?_ ?_ dbs {} m h).2
  · intro d x hx; exact ⟨x, hx, rfl, rfl, rfl⟩
  · intro a b c h1 h2 x hx
    obtain ⟨y, hy, a1, a2, a3⟩ := h1 x hx
    obtain ⟨z, hz, b1, b2, b3⟩ := h2 y hy
    exact ⟨z, hz, b1.trans a1, b2.trans a2, b3.trans a3⟩
  · intro d s r hm x hx
    rcases C06_destination_kept d s r hm (.function x) hx with hr | ⟨c, _, e, _⟩
    · exact ⟨x, hr, rfl, rfl, rfl⟩
    · cases e
  · intro d s r hm x hx
    rcases mergeOverloads_repr ((merge_iff_tables d s r).mp hm).functions x hx with h | ⟨y, hy, _, hq⟩
    · exact ⟨x, h, rfl, rfl, rfl⟩
    · refine ⟨y, hy, ?_⟩
      simp only [Function.equals, Prim.equals, Name.same, Bool.and_eq_true, beq_iff_eq] at hq
      unfold SameFn
      simp_all

theorem merged_constants {dbs : List Database} {m : Database} (h : mergeAll {} dbs = .ok m) :
    ∀ s ∈ dbs, ∀ x ∈ s.enumConstants, ∃ y ∈ m.enumConstants, SameConst y x := by
  refine (mergeAll_step (P := fun _ => True) (R := fun a b => ∀ x ∈ a.enumConstants, ∃ y ∈ b.enumConstants, SameConst y x) ?_ ?_ ?_ ?_ dbs {} m h).2
  · intro d x hx; exact ⟨x, hx, rfl, rfl⟩
  · intro a b c h1 h2 x hx
    obtain ⟨y, hy, a1, a2⟩ := h1 x hx
    obtain ⟨z, hz, b1, b2⟩ := h2 y hy
    exact ⟨z, hz, b1.trans a1, b2.trans a2⟩
  · intro d s r hm x hx
    rcases C06_destination_kept d s r hm (.enumConstant x) hx with hr | ⟨c, _, e, _⟩
    · exact ⟨x, hr, rfl, rfl⟩
    · cases e
  · intro d s r hm x hx
    rcases mergeOverloads_repr ((merge_iff_tables d s r).mp hm).enumConstants x hx with h | ⟨y, hy, _, hq⟩
    · exact ⟨x, h, rfl, rfl⟩
    · refine ⟨y, hy, ?_⟩
      simp only [EnumConstant.equals, Prim.equals, Name.same, Bool.and_eq_true, beq_iff_eq] at hq
      unfold SameConst
      simp_all

theorem from_input {dbs : List Database} {m : Database} (h : mergeAll {} dbs = .ok m) {e : Entry} (he : m.Has e) :
    ∃ s ∈ dbs, s.Has e := by
  rcases (C72_every_symbol dbs {} m h).1 e he with h0 | h0
  · exfalso; cases e <;> cases h0
  · exact h0

/-- The kind of a type as the merger has it. -/
theorem type_hasName {d : Database} {n : UInt32} :
    (∃ k ∈ typeKinds, ∃ p ∈ entries d k, p.name.hash = n) ↔
      d.HasName .type n ∨ d.HasName .cls n ∨ d.HasName .enum n ∨ d.HasName .templateType n := by
  constructor
  · rintro ⟨k, hk, p, hp, rfl⟩
    simp only [typeKinds, List.mem_cons, List.not_mem_nil, or_false] at hk
    rcases hk with rfl | rfl | rfl | rfl
    · obtain ⟨x, hx, rfl⟩ := List.mem_map.mp hp; exact .inl ⟨.type x, hx, rfl, rfl⟩
    · obtain ⟨x, hx, rfl⟩ := List.mem_map.mp hp; exact .inr (.inl ⟨.cls x, hx, rfl, rfl⟩)
    · obtain ⟨x, hx, rfl⟩ := List.mem_map.mp hp; exact .inr (.inr (.inl ⟨.enum x, hx, rfl, rfl⟩))
    · obtain ⟨x, hx, rfl⟩ := List.mem_map.mp hp; exact .inr (.inr (.inr ⟨.templateType x, hx, rfl, rfl⟩))
  · rintro (⟨e, he, hk, rfl⟩ | ⟨e, he, hk, rfl⟩ | ⟨e, he, hk, rfl⟩ | ⟨e, he, hk, rfl⟩) <;> cases e <;> cases hk
    · exact ⟨.type, by decide, _, List.mem_map_of_mem he, rfl⟩
    · exact ⟨.cls, by decide, _, List.mem_map_of_mem he, rfl⟩
    · exact ⟨.enum, by decide, _, List.mem_map_of_mem he, rfl⟩
    · exact ⟨.instance, by decide, _, List.mem_map_of_mem he, rfl⟩

theorem merged_types {dbs : List Database} {m : Database} (h : mergeAll {} dbs = .ok m) (n : UInt32) :
    (∃ k ∈ typeKinds, ∃ p ∈ entries m k, p.name.hash = n) ↔ DeclaresType dbs n := by
  have key : ∀ k, m.HasName k n ↔ ∃ s ∈ dbs, s.HasName k n := by
    intro k
    constructor
    · rintro ⟨e, he, hk, hn⟩
      obtain ⟨s, hs, hx⟩ := from_input h he
      exact ⟨s, hs, e, hx, hk, hn⟩
    · intro hx; exact (C72_every_symbol dbs {} m h).2 k n (.inr hx)
  rw [type_hasName, key, key, key, key]
  unfold DeclaresType
  constructor
  · rintro (⟨s, hs, hx⟩ | ⟨s, hs, hx⟩ | ⟨s, hs, hx⟩ | ⟨s, hs, hx⟩)
    · exact ⟨s, hs, type_hasName.mpr (.inl hx)⟩
    · exact ⟨s, hs, type_hasName.mpr (.inr (.inl hx))⟩
    · exact ⟨s, hs, type_hasName.mpr (.inr (.inr (.inl hx)))⟩
    · exact ⟨s, hs, type_hasName.mpr (.inr (.inr (.inr hx)))⟩
  · rintro ⟨s, hs, hx⟩
    rcases type_hasName.mp hx with hx | hx | hx | hx
    · exact .inl ⟨s, hs, hx⟩
    · exact .inr (.inl ⟨s, hs, hx⟩)
    · exact .inr (.inr (.inl ⟨s, hs, hx⟩))
    · exact .inr (.inr (.inr ⟨s, hs, hx⟩))

theorem type_from_input {dbs : List Database} {m : Database} (h : mergeAll {} dbs = .ok m) {k : K} (hk : k ∈ typeKinds) {p : Prim}
    (hp : p ∈ entries m k) : ∃ d ∈ dbs, ∃ q ∈ entries d k, q.name.hash = p.name.hash := by
  simp only [typeKinds, List.mem_cons, List.not_mem_nil, or_false] at hk
  rcases hk with rfl | rfl | rfl | rfl
  · obtain ⟨x, hx, rfl⟩ := List.mem_map.mp hp
    obtain ⟨s, hs, he⟩ := from_input (e := .type x) h hx
    exact ⟨s, hs, _, List.mem_map_of_mem he, rfl⟩
  · obtain ⟨x, hx, rfl⟩ := List.mem_map.mp hp
    obtain ⟨s, hs, he⟩ := from_input (e := .cls x) h hx
    exact ⟨s, hs, _, List.mem_map_of_mem he, rfl⟩
  · obtain ⟨x, hx, rfl⟩ := List.mem_map.mp hp
    obtain ⟨s, hs, he⟩ := from_input (e := .enum x) h hx
    exact ⟨s, hs, _, List.mem_map_of_mem he, rfl⟩
  · obtain ⟨x, hx, rfl⟩ := List.mem_map.mp hp
    obtain ⟨s, hs, he⟩ := from_input (e := .templateType x) h hx
    exact ⟨s, hs, _, List.mem_map_of_mem he, rfl⟩

/-! ### Exporting the merged database -/

theorem entry_mem {d : Database} {k : K} {p : Prim} : p ∈ entries d k ↔ ∃ i, entry d (k, i) = some p := by
  rw [List.mem_iff_getElem?]; rfl

theorem hasType_iff {d : Database} {j : Nat} {f : Field} (hf : d.fields[j]? = some f) :
    (∃ t, Export.HasType d (.field, j) t) ↔ ∃ k ∈ typeKinds, ∃ p ∈ entries d k, p.name.hash = f.type.hash := by
  constructor
  · rintro ⟨⟨k, i⟩, hk, f', q, h1, h2, h3⟩
    rw [hf] at h1
    injection h1 with h1
    subst h1
    exact ⟨k, hk, q, entry_mem.mpr ⟨i, h2⟩, h3.symm⟩
  · rintro ⟨k, hk, p, hp, e⟩
    obtain ⟨i, hi⟩ := entry_mem.mp hp
    exact ⟨(k, i), hk, f, p, hf, hi, e.symm⟩

theorem field_entry {d : Database} {j : Nat} {f : Field} (hf : d.fields[j]? = some f) : entry d (.field, j) = some f.toPrim := by
  unfold entry entries
  simp [hf]

theorem function_entry {d : Database} {j : Nat} {f : Function} (hf : d.functions[j]? = some f) : entry d (.function, j) = some f.toPrim := by
  unfold entry entries
  simp [hf]

theorem constant_entry {d : Database} {j : Nat} {f : EnumConstant} (hf : d.enumConstants[j]? = some f) :
    entry d (.constant, j) = some f.toPrim := by
  unfold entry entries
  simp [hf]

theorem entry_field {d : Database} {j : Nat} {p : Prim} (h : entry d (.field, j) = some p) : ∃ f, d.fields[j]? = some f ∧ p = f.toPrim := by
  unfold entry entries at h
  simp only [List.getElem?_map, Option.map_eq_some_iff] at h
  obtain ⟨f, h1, h2⟩ := h
  exact ⟨f, h1, h2.symm⟩

theorem entry_function {d : Database} {j : Nat} {p : Prim} (h : entry d (.function, j) = some p) :
    ∃ f, d.functions[j]? = some f ∧ p = f.toPrim := by
  unfold entry entries at h
  simp only [List.getElem?_map, Option.map_eq_some_iff] at h
  obtain ⟨f, h1, h2⟩ := h
  exact ⟨f, h1, h2.symm⟩

theorem entry_constant {d : Database} {j : Nat} {p : Prim} (h : entry d (.constant, j) = some p) :
    ∃ f, d.enumConstants[j]? = some f ∧ p = f.toPrim := by
  unfold entry entries at h
  simp only [List.getElem?_map, Option.map_eq_some_iff] at h
  obtain ⟨f, h1, h2⟩ := h
  exact ⟨f, h1, h2.symm⟩

/-- The parameters of a function, in terms of the tables. -/
theorem good_iff_parameters {d : Database} {j : Nat} {f : Function} (hf : d.functions[j]? = some f) :
    Export.GoodFunction d (.function, j) ↔
      ∀ p ∈ d.fields, ParameterOf p f → ∃ k ∈ typeKinds, ∃ q ∈ entries d k, q.name.hash = p.type.hash := by
  unfold Export.GoodFunction
  constructor
  · intro hg p hp hpar
    obtain ⟨i, hi⟩ := List.mem_iff_getElem?.mp hp
    refine (hasType_iff hi).mp (hg (.field, i) rfl ⟨⟨.parameters, by simp [Export.scopeTable]⟩, ⟨_, _, field_entry hi, function_entry hf, hpar.1⟩, ?_⟩)
    intro _
    unfold Export.SameFunction
    simp only [hi, hf, Option.map_some, hpar.2]
  · rintro hg ⟨k, i⟩ hk ⟨_, ⟨p, q, hp, hq, e⟩, h3⟩
    cases hk
    obtain ⟨p', hp', rfl⟩ := entry_field hp
    rw [function_entry hf] at hq
    injection hq with hq
    subst hq
    have h4 := h3 rfl
    unfold Export.SameFunction at h4
    simp only [hp', hf, Option.map_some, Option.some.injEq] at h4
    exact (hasType_iff hp').mpr (hg p' (List.mem_of_getElem? hp') ⟨e, h4⟩)

section
variable {env : Export.Env} {fuel : Nat} {dbs : List Database} {m : Database} (hm : mergeAll {} dbs = .ok m)
  (hrdy : Ready env fuel m) (hsz : ∀ k, (entries m k).length ≤ 2 ^ 30) {F : St} (hF : Export.exportDB env fuel m = some (.ok F))
include hm hrdy hF

theorem finds_types (n : UInt32) : Finds F F.typePrims n (DeclaresType dbs n) := by
  obtain ⟨o, h1, h2, h3⟩ := Export.C18_types_found env fuel m hrdy F hF n
  obtain ⟨_, _, _, _, hmem, hh⟩ := Export.C18_tables_sorted_partial env fuel m hrdy F hF
  refine ⟨o, h1, ?_, ?_⟩
  · intro t ht
    obtain ⟨hk, p, hp, hn⟩ := h2 t ht
    exact ⟨(hmem t).mpr ⟨hk, p, hp⟩, by rw [hh t p hp]; exact hn⟩
  · rw [← merged_types hm n, ne_eq, h3]
    constructor
    · intro hx
      apply Classical.byContradiction
      intro hc
      apply hx
      intro t p hk hp hn
      exact hc ⟨t.1, hk, p, entry_mem.mpr ⟨t.2, hp⟩, hn⟩
    · rintro ⟨k, hk, p, hp, hn⟩ hx
      obtain ⟨i, hi⟩ := entry_mem.mp hp
      exact hx (k, i) p hk hi hn

include hsz

/-- Looking something up in a scope, once it is known what is there. -/
theorem finds_kid {pk : K} {s : Slot} {ck : K} (hrow : (pk, s, ck) ∈ Export.scopeTable) {i : Nat} {q : Prim}
    (hq : entry m (pk, i) = some q) (n : UInt32) {declared : Prop}
    (hdecl : declared ↔ ∃ j p, entry m (ck, j) = some p ∧ p.name.hash = n ∧ Export.Records m (ck, j) (pk, i) ∧
      Export.Kept m F (pk, i) s (ck, j)) : Finds F ((F.get (pk, i)).kids s) n declared := by
  have hi := Export.entry_lt hq
  obtain ⟨o, h1, h2, h3⟩ := Export.C18_children_found env fuel m hrdy hsz F hF pk s ck hrow i hi n
  obtain ⟨_, hmem⟩ := Export.C17_scope_arrays_partial env fuel m hrdy F hF pk s ck hrow i hi
  obtain ⟨_, _, _, _, _, hh⟩ := Export.C18_tables_sorted_partial env fuel m hrdy F hF
  refine ⟨o, h1, h2, ?_⟩
  rw [hdecl, ne_eq, h3]
  constructor
  · intro hx
    apply Classical.byContradiction
    intro hc
    apply hx
    rintro ⟨k, j⟩ hcm hn
    obtain ⟨hk, hr, hkept⟩ := (hmem (k, j)).mp hcm
    cases hk
    obtain ⟨p, _, hp, _⟩ := hr.2.1
    exact hc ⟨j, p, hp, by rw [← hh _ p hp]; exact hn, hr, hkept⟩
  · rintro ⟨j, p, hp, hn, hr, hkept⟩ hx
    exact hx (ck, j) ((hmem _).mpr ⟨rfl, hr, hkept⟩) (by rw [hh _ p hp]; exact hn)

theorem finds_fields {i : Nat} {q : Prim} (hq : entry m (.cls, i) = some q) (n : UInt32) :
    Finds F ((F.get (.cls, i)).kids .fields) n (DeclaresField dbs q.name.hash n) := by
  apply finds_kid hm hrdy hsz hF (ck := .field) (by simp [Export.scopeTable]) hq n
  constructor
  · rintro ⟨d, hd, f, hf, rfl, hp, ht⟩
    obtain ⟨y, hy, s1, s2, s3, _⟩ := merged_fields hm d hd f hf
    obtain ⟨j, hj⟩ := List.mem_iff_getElem?.mp hy
    refine ⟨j, y.toPrim, field_entry hj, s1, ⟨⟨.fields, by simp [Export.scopeTable]⟩, ⟨_, q, field_entry hj, hq, s2.trans hp⟩, ?_⟩, ?_⟩
    · intro e; cases e
    · refine ⟨fun _ _ => (hasType_iff hj).mpr ?_, ?_, ?_⟩
      · rw [s3]; exact (merged_types hm _).mpr ht
      · rintro (e | ⟨e, _⟩) <;> cases e
      · intro e; cases e
  · rintro ⟨j, p, hp, rfl, hr, hk, _⟩
    obtain ⟨f, hf, rfl⟩ := entry_field hp
    obtain ⟨d, hd, hx⟩ := from_input (e := .field f) hm (List.mem_of_getElem? hf)
    refine ⟨d, hd, f, hx, rfl, ?_, ?_⟩
    · obtain ⟨p', q', h1, h2, h3⟩ := hr.2.1
      rw [hp] at h1
      rw [hq] at h2
      injection h1 with h1
      injection h2 with h2
      subst h1; subst h2
      exact h3
    · exact (merged_types hm _).mp ((hasType_iff hf).mp (hk rfl rfl))

theorem finds_functions {pk : K} {s : Slot} (hps : (pk, s) ∈ [(K.cls, Slot.methods), (.space, .functions)]) {i : Nat} {q : Prim}
    (hq : entry m (pk, i) = some q) (n : UInt32) :
    Finds F ((F.get (pk, i)).kids s) n (DeclaresFunction dbs q.name.hash n) := by
  have hrow : (pk, s, K.function) ∈ Export.scopeTable := by
    simp only [List.mem_cons, Prod.mk.injEq, List.not_mem_nil, or_false] at hps
    rcases hps with ⟨rfl, rfl⟩ | ⟨rfl, rfl⟩ <;> simp [Export.scopeTable]
  have hpk : pk ≠ .function ∧ s ≠ .parameters ∧ s ≠ .fields ∧ (s = .methods ∨ (pk = .space ∧ s = .functions)) := by
    simp only [List.mem_cons, Prod.mk.injEq, List.not_mem_nil, or_false] at hps
    rcases hps with ⟨rfl, rfl⟩ | ⟨rfl, rfl⟩ <;> simp
  apply finds_kid hm hrdy hsz hF (ck := .function) hrow hq n
  constructor
  · rintro ⟨d, hd, f, hf, rfl, hp, ht⟩
    obtain ⟨y, hy, s1, s2, s3⟩ := merged_functions hm d hd f hf
    obtain ⟨j, hj⟩ := List.mem_iff_getElem?.mp hy
    refine ⟨j, y.toPrim, function_entry hj, s1, ⟨⟨s, hrow⟩, ⟨_, q, function_entry hj, hq, s2.trans hp⟩, ?_⟩, ?_⟩
    · intro e; exact absurd e hpk.1
    · refine ⟨fun _ e => absurd e hpk.2.2.1, fun _ => (good_iff_parameters hj).mpr ?_, fun e => absurd e hpk.2.1⟩
      intro p hp hpar
      obtain ⟨d', hd', hx⟩ := from_input (e := .field p) hm hp
      exact (merged_types hm _).mpr (ht d' hd' p hx ⟨hpar.1.trans s1, hpar.2.trans s3⟩)
  · rintro ⟨j, p, hp, rfl, hr, _, hk, _⟩
    obtain ⟨f, hf, rfl⟩ := entry_function hp
    obtain ⟨d, hd, hx⟩ := from_input (e := .function f) hm (List.mem_of_getElem? hf)
    refine ⟨d, hd, f, hx, rfl, ?_, ?_⟩
    · obtain ⟨p', q', h1, h2, h3⟩ := hr.2.1
      rw [hp] at h1
      rw [hq] at h2
      injection h1 with h1
      injection h2 with h2
      subst h1; subst h2
      exact h3
    · intro d' hd' p hp' hpar
      obtain ⟨y, hy, s1, s2, s3, s4, _⟩ := merged_fields hm d' hd' p hp'
      rw [← s3]
      exact (merged_types hm _).mp ((good_iff_parameters hf).mp (hk hpk.2.2.2) y hy ⟨s2.trans hpar.1, s4.trans hpar.2⟩)

theorem finds_constants {i : Nat} {q : Prim} (hq : entry m (.enum, i) = some q) (n : UInt32) :
    Finds F ((F.get (.enum, i)).kids .constants) n (DeclaresConstant dbs q.name.hash n) := by
  apply finds_kid hm hrdy hsz hF (ck := .constant) (by simp [Export.scopeTable]) hq n
  constructor
  · rintro ⟨d, hd, f, hf, rfl, hp⟩
    obtain ⟨y, hy, s1, s2⟩ := merged_constants hm d hd f hf
    obtain ⟨j, hj⟩ := List.mem_iff_getElem?.mp hy
    refine ⟨j, y.toPrim, constant_entry hj, s1, ⟨⟨.constants, by simp [Export.scopeTable]⟩, ⟨_, q, constant_entry hj, hq, s2.trans hp⟩, ?_⟩, ?_⟩
    · intro e; cases e
    · refine ⟨fun e => (by cases e), ?_, fun e => (by cases e)⟩
      rintro (e | ⟨e, _⟩) <;> cases e
  · rintro ⟨j, p, hp, rfl, hr, _⟩
    obtain ⟨f, hf, rfl⟩ := entry_constant hp
    obtain ⟨d, hd, hx⟩ := from_input (e := .enumConstant f) hm (List.mem_of_getElem? hf)
    refine ⟨d, hd, f, hx, rfl, ?_⟩
    obtain ⟨p', q', h1, h2, h3⟩ := hr.2.1
    rw [hp] at h1
    rw [hq] at h2
    injection h1 with h1
    injection h2 with h2
    subst h1; subst h2
    exact h3

end

/-! ### clexport -/

theorem export_line {args : List Bytes} {db file : Bytes} (h : ExportLine args db file) :
    3 ≤ args.length ∧ args.getD 1 [] = db ∧ getProperty args b!"-cpp" = file ∧ getProperty args b!"-map" = [] := by
  obtain ⟨prog, log, rfl, hl, hp1, hp2⟩ := h.shape
  refine ⟨by simp, rfl, ?_, ?_⟩
  · rw [getProperty_skip _ _ _ hp1, getProperty_skip _ _ _ h.plainDb.1, getProperty_here]
  · rw [getProperty_skip _ _ _ hp2, getProperty_skip _ _ _ h.plainDb.2, getProperty_skip _ _ _ (by decide),
      getProperty_skip _ _ _ h.plainFile.2]
    rcases hl with rfl | ⟨l, rfl, hl⟩
    · rfl
    · rw [getProperty_skip _ _ _ (by decide), getProperty_skip _ _ _ hl]; rfl

/-- C73: clexport of a file that holds a database, text or binary, saves what `exportDB` makes of that database
under the name given, and ends with the exit code 0. -/
theorem C73_export_saved (env : ExportEnv) (fs : Files) (args : List Bytes) (dbFile file data : Bytes) (db : Database)
    (hl : ExportLine args dbFile file) (hr : fs.read dbFile = some data) (hd : HoldsDatabase env.cfg db data) (F : St)
    (hF : Export.exportDB env.place env.depth db = some (.ok F)) (hw : fs.canWrite file = true) :
    exportMain env args fs = some (.ok (0, some (file, F))) := by
  obtain ⟨h1, h2, h3, h4⟩ := export_line hl
  unfold exportMain
  rw [if_neg (by omega), h2, hr, C72_input_loaded env.cfg db data hd]
  simp only [exportMap, h4, ne_eq, not_true, if_false, exportSave, h3, hl.plainFile.1, not_false_eq_true, if_true, hF, hw]
  rfl

/-- C73, partial: the databases of any number of translation units are merged by clmerge and the result is exported
by clexport. At runtime a type is found by its name exactly when one of the databases has it; a field of a class
exactly when one of them has the field and one of them its type; a function of a class or namespace exactly when one
of them has it and they have the types of all parameters and of the return value; a constant of an enum exactly when
one of them has it. Nothing is a type that none of them has as that kind of type. Partial: asks of the merged database what C17 asks (`Ready`), and for no map file. -/
theorem C73_scan_to_lookup_partial (env : Env) (xenv : ExportEnv) (hcfg : xenv.cfg = env.cfg) (fs : Files)
    (args : List Bytes) (out file : Bytes) (inputs : List Bytes) (dbs : List Database) (hc : CommandLine args out [] [] inputs)
    (hin : Inputs env.cfg fs inputs dbs) (hcol : NoCollisions dbs) (hw : fs.canWrite out = true) (hw2 : fs.canWrite file = true)
    (xargs : List Bytes) (hx : ExportLine xargs out file)
    (hrdy : ∀ m, mergeAll {} dbs = .ok m → Ready xenv.place xenv.depth m ∧ ∀ k, (entries m k).length ≤ 2 ^ 30) :
    ∃ fs' F, mergeMain env args fs = .ok (0, fs') ∧ exportMain xenv xargs fs' = some (.ok (0, some (file, F))) ∧
      (∀ n, Finds F F.typePrims n (DeclaresType dbs n)) ∧
      (∀ t ∈ F.typePrims, ∃ d ∈ dbs, ∃ p ∈ entries d t.1, p.name.hash = (F.get t).hash) ∧
      (∀ c ∈ F.typePrims, c.1 = .cls → ∀ n,
        Finds F ((F.get c).kids .fields) n (DeclaresField dbs (F.get c).hash n) ∧
        Finds F ((F.get c).kids .methods) n (DeclaresFunction dbs (F.get c).hash n)) ∧
      (∀ e ∈ F.typePrims, e.1 = .enum → ∀ n, Finds F ((F.get e).kids .constants) n (DeclaresConstant dbs (F.get e).hash n)) ∧
      (∀ s : Export.Ref, s.1 = .space → s.2 < F.count .space → ∀ n,
        Finds F ((F.get s).kids .functions) n (DeclaresFunction dbs (F.get s).hash n)) := by
  obtain ⟨m, fs', h1, h2, ⟨data, h3, h4⟩, _, _, h5⟩ :=
    C72_output_is_the_merge_partial env fs args out [] [] inputs dbs hc hin hcol hw (by simp)
  obtain ⟨hr, hsz⟩ := hrdy m h2
  obtain ⟨F, hF⟩ := Export.C17_export_succeeds xenv.place xenv.depth m hr
  obtain ⟨_, _, _, _, hmem, hh⟩ := Export.C18_tables_sorted_partial xenv.place xenv.depth m hr F hF
  refine ⟨fs', F, h1, C73_export_saved xenv fs' xargs out file data m hx h3 (by rw [hcfg]; exact h4) F hF
    (by rw [(h5 rfl rfl).2]; exact hw2),
    finds_types h2 hr hF, ?_, ?_, ?_, ?_⟩
  · rintro ⟨k, i⟩ ht
    obtain ⟨hk, q, hq⟩ := (hmem _).mp ht
    rw [hh _ q hq]
    exact type_from_input h2 hk (entry_mem.mpr ⟨i, hq⟩)
  · rintro ⟨k, i⟩ hc' hk n
    cases hk
    obtain ⟨_, q, hq⟩ := (hmem _).mp hc'
    rw [hh _ q hq]
    exact ⟨finds_fields h2 hr hsz hF hq n, finds_functions h2 hr hsz hF (by simp) hq n⟩
  · rintro ⟨k, i⟩ hc' hk n
    cases hk
    obtain ⟨_, q, hq⟩ := (hmem _).mp hc'
    rw [hh _ q hq]
    exact finds_constants h2 hr hsz hF hq n
  · rintro ⟨k, i⟩ hk hi n
    cases hk
    have hcnt : F.count .space = (entries m .space).length := by
      rw [(Export.final_of hr.exportable hF).count]
      show (Export.rows m .space).length = _
      simp [Export.rows, entries]
    obtain ⟨q, hq⟩ : ∃ q, entry m (.space, i) = some q := ⟨_, List.getElem?_eq_getElem (by rw [hcnt] at hi; exact hi)⟩
    rw [hh _ q hq]
    exact finds_functions h2 hr hsz hF (by simp) hq n

/-- C73: whatever the arguments and files, an exit code other than 0 is 1, for too few arguments or a file that is not a
database, and nothing is saved then. What is saved is what `exportDB` makes of the database, under the name given. -/
theorem C73_exit_code (env : ExportEnv) (fs : Files) (args : List Bytes) (code : Nat) (saved : Option (Bytes × St))
    (h : exportMain env args fs = some (.ok (code, saved))) :
    (code = 0 ∨ (code = 1 ∧ saved = none ∧ (args.length < 3 ∨ loadDatabase env.cfg (fs.read (args.getD 1 [])) = .ok none))) ∧
    (∀ name F, saved = some (name, F) → code = 0 ∧ name = getProperty args b!"-cpp" ∧ fs.canWrite name = true ∧ ∃ db db',
      loadDatabase env.cfg (fs.read (args.getD 1 [])) = .ok (some db) ∧ exportMap env args fs db = .ok db' ∧
      Export.exportDB env.place env.depth db' = some (.ok F)) := by
  unfold exportMain at h
  split at h
  · rename_i hl
    simp only [Option.some.injEq, Res.ok.injEq, Prod.mk.injEq] at h
    obtain ⟨rfl, rfl⟩ := h
    exact ⟨.inr ⟨rfl, rfl, .inl hl⟩, by simp⟩
  · split at h
    · rename_i hl
      simp only [Option.some.injEq, Res.ok.injEq, Prod.mk.injEq] at h
      obtain ⟨rfl, rfl⟩ := h
      exact ⟨.inr ⟨rfl, rfl, .inr hl⟩, by simp⟩
    · rename_i db hl
      split at h
      · rename_i db' hm
        unfold exportSave at h
        simp only at h
        split at h
        · cases hx : Export.exportDB env.place env.depth db' with
          | none => rw [hx] at h; cases h
          | some r =>
            rw [hx] at h
            cases r with
            | ok F =>
              simp only [Option.map_some, Res.map, Option.some.injEq, Res.ok.injEq, Prod.mk.injEq] at h
              obtain ⟨rfl, h⟩ := h
              refine ⟨.inl rfl, ?_⟩
              rintro name F' rfl
              split at h
              · rename_i hw
                injection h with h
                injection h with h1 h2
                subst h1; subst h2
                exact ⟨rfl, rfl, hw, db, db', hl, hm, hx⟩
              · cases h
            | trap => cases h
            | ub => cases h
        · simp only [Option.some.injEq, Res.ok.injEq, Prod.mk.injEq] at h
          obtain ⟨rfl, rfl⟩ := h
          exact ⟨.inl rfl, by simp⟩
      · cases h
      · cases h
    · cases h
    · cases h

/-! ### Where the program disagrees -/

/-- C73: "the exit code 0 means the database was exported" is false: a file that can not be written is not reported. -/
theorem C73_unwritable_output_false (env : ExportEnv) (fs : Files) (args : List Bytes) (dbFile file data : Bytes) (db : Database)
    (hl : ExportLine args dbFile file) (hr : fs.read dbFile = some data) (hd : HoldsDatabase env.cfg db data) (F : St)
    (hF : Export.exportDB env.place env.depth db = some (.ok F)) (hw : fs.canWrite file = false) :
    exportMain env args fs = some (.ok (0, none)) := by
  obtain ⟨h1, h2, h3, h4⟩ := export_line hl
  unfold exportMain
  rw [if_neg (by omega), h2, hr, C72_input_loaded env.cfg db data hd]
  simp only [exportMap, h4, ne_eq, not_true, if_false, exportSave, h3, hl.plainFile.1, not_false_eq_true, if_true, hF, hw]
  rfl

/-! ### The hypotheses can be met -/

/-- In the order of the database. -/
def sortNames (l : List Name) : List Name := l.foldr (insertBy Name.hash) []

def sortPrims {α : Type} (key : α → Prim) (l : List α) : List α := l.foldr (insertBy fun x => (key x).name.hash) []

/-- One translation unit: `class D : B { int x; int F(int p); missing bad; };`, with neither `int` nor `B`. -/
def unitA : Database :=
  { names := sortNames [TextDB.nm b!"g", TextDB.nm b!"g::D", TextDB.nm b!"int", TextDB.nm b!"x", TextDB.nm b!"bad", TextDB.nm b!"missing",
      TextDB.nm b!"g::D::F", TextDB.nm b!"p"]
    namespaces := [{ name := TextDB.nm b!"g" }]
    classes := [{ name := TextDB.nm b!"g::D", parent := TextDB.nm b!"g", size := 8 }]
    functions := [{ name := TextDB.nm b!"g::D::F", parent := TextDB.nm b!"g::D", uniqueId := 1 }]
    fields := sortPrims (·.toPrim) [{ name := TextDB.nm b!"x", parent := TextDB.nm b!"g::D", type := TextDB.nm b!"int", offset := 0 },
      { name := TextDB.nm b!"bad", parent := TextDB.nm b!"g::D", type := TextDB.nm b!"missing", offset := 4 },
      { name := TextDB.nm b!"p", parent := TextDB.nm b!"g::D::F", type := TextDB.nm b!"int", offset := 0, parentUniqueId := 1 }] }

/-- Another one: `enum E { e0, e1 };` and `int`. -/
def unitB : Database :=
  { names := sortNames [TextDB.nm b!"g", TextDB.nm b!"int", TextDB.nm b!"g::E", TextDB.nm b!"g::E::e0", TextDB.nm b!"g::E::e1"]
    namespaces := [{ name := TextDB.nm b!"g" }]
    types := [{ name := TextDB.nm b!"int", size := 4 }]
    enums := [{ name := TextDB.nm b!"g::E", parent := TextDB.nm b!"g", size := 4 }]
    enumConstants := sortPrims (·.toPrim) [{ name := TextDB.nm b!"g::E::e0", parent := TextDB.nm b!"g::E" },
      { name := TextDB.nm b!"g::E::e1", parent := TextDB.nm b!"g::E", value := 1 }] }

theorem unitA_storable : TextDB.Storable TextDB.exampleCfg unitA := by
  constructor <;> (try unfold TextDB.SortedLe) <;>
    (try simp only [TextDB.KnownPrim, TextDB.Known, TextDB.CleanText, TextDB.Cfg.IntOk, TextDB.Cfg.FloatOk, TextDB.ArgsOk]) <;>
    decide +kernel

theorem unitB_storable : TextDB.Storable TextDB.exampleCfg unitB := by
  constructor <;> (try unfold TextDB.SortedLe) <;>
    (try simp only [TextDB.KnownPrim, TextDB.Known, TextDB.CleanText, TextDB.Cfg.IntOk, TextDB.Cfg.FloatOk, TextDB.ArgsOk]) <;>
    decide +kernel

def unitFiles : Files := twoFiles b!"a.csv" (TextDB.writeText TextDB.exampleCfg unitA) b!"b.csv" (TextDB.writeText TextDB.exampleCfg unitB)

def unitEnv : ExportEnv := { cfg := TextDB.exampleCfg, mapFile := fun _ _ db => .ok db, place := Export.sampleEnv, depth := 2 }

/-- What the two are merged to. -/
def unitsMerged : Database :=
  match mergeAll {} [unitA, unitB] with
  | .ok m => m
  | _ => {}

theorem units_ready : ∀ m, mergeAll {} [unitA, unitB] = .ok m → Ready unitEnv.place unitEnv.depth m ∧ ∀ k, (entries m k).length ≤ 2 ^ 30 := by
  intro m hm
  have e : m = unitsMerged := by unfold unitsMerged; rw [hm]
  subst e
  have hlen : ∀ k ∈ Export.kinds, (entries unitsMerged k).length ≤ 2 ^ 30 := by decide +kernel
  exact ⟨⟨Export.wellFormed_of (by decide +kernel) ⟨fun _ => 0, fun _ => Nat.zero_lt_succ 1, by decide +kernel⟩,
    Export.unambiguous_of (by decide +kernel), Export.laidOut_of (by decide +kernel)⟩, fun k => hlen k (by cases k <;> decide)⟩

/-- All hypotheses of the theorem, and some of what it says then: the field of the type in the other translation unit
is found, the one whose type is in neither is not. -/
example : ∃ fs' F, mergeMain exampleEnv [b!"clmerge", b!"out.csv", b!"a.csv", b!"b.csv"] unitFiles = .ok (0, fs') ∧
    exportMain unitEnv [b!"clexport", b!"out.csv", b!"-cpp", b!"out.cppbin"] fs' = some (.ok (0, some (b!"out.cppbin", F))) ∧
    ∃ c ∈ F.typePrims, c.1 = .cls ∧ (F.get c).hash = hashOf b!"g::D" ∧
      (∃ r, Search.find ((F.get c).kids .fields) (fun r => (F.get r).hash) (hashOf b!"x") = .ok (some r)) ∧
      Search.find ((F.get c).kids .fields) (fun r => (F.get r).hash) (hashOf b!"bad") = .ok none := by
  obtain ⟨fs', F, h1, h2, h3, h3', h4, _⟩ := C73_scan_to_lookup_partial exampleEnv unitEnv rfl unitFiles
    [b!"clmerge", b!"out.csv", b!"a.csv", b!"b.csv"] b!"out.csv" b!"out.cppbin" [b!"a.csv", b!"b.csv"] [unitA, unitB]
    ⟨⟨b!"clmerge", [], rfl, .none, by unfold Plain; decide⟩, by unfold Plain; decide, by unfold Plain; decide,
      by unfold Plain; decide, by unfold Plain; decide, by decide⟩
    (.cons rfl (.text unitA_storable) unitA_storable (.cons rfl (.text unitB_storable) unitB_storable .nil))
    (by unfold NoCollisions; exact ⟨by decide +kernel, by decide +kernel⟩) rfl rfl
    [b!"clexport", b!"out.csv", b!"-cpp", b!"out.cppbin"]
    ⟨⟨b!"clexport", [], rfl, .inl rfl, by decide, by decide⟩, by decide, by decide⟩ units_ready
  obtain ⟨o, f1, f2, f3⟩ := h3 (hashOf b!"g::D")
  have hD : DeclaresType [unitA, unitB] (hashOf b!"g::D") :=
    ⟨unitA, by simp, .cls, by decide, _, List.mem_map_of_mem (List.mem_singleton.mpr rfl), rfl⟩
  cases o with
  | none => exact absurd rfl (f3.mpr hD)
  | some c =>
    obtain ⟨hc, hh⟩ := f2 c rfl
    obtain ⟨d, hd, p, hp, e⟩ := h3' c hc
    have hcls : c.1 = .cls := by
      have : ∀ k ∈ Export.kinds, ∀ d ∈ [unitA, unitB], ∀ p ∈ entries d k, p.name.hash = hashOf b!"g::D" → k = .cls := by decide +kernel
      exact this c.1 (by cases c.1 <;> decide) d hd p hp (e.trans hh)
    obtain ⟨g1, _⟩ := h4 c hc hcls (hashOf b!"x")
    obtain ⟨g2, _⟩ := h4 c hc hcls (hashOf b!"bad")
    rw [hh] at g1 g2
    refine ⟨fs', F, h1, h2, c, hc, hcls, hh, ?_, ?_⟩
    · obtain ⟨o, k1, _, k3⟩ := g1
      have hx : DeclaresField [unitA, unitB] (hashOf b!"g::D") (hashOf b!"x") :=
        ⟨unitA, by simp, { name := TextDB.nm b!"x", parent := TextDB.nm b!"g::D", type := TextDB.nm b!"int", offset := 0 },
          by decide +kernel, rfl, rfl, unitB, by simp, .type, by decide, _, List.mem_map_of_mem (List.mem_singleton.mpr rfl), rfl⟩
      cases o with
      | none => exact absurd rfl (k3.mpr hx)
      | some r => exact ⟨r, k1⟩
    · obtain ⟨o, k1, _, k3⟩ := g2
      cases o with
      | none => exact k1
      | some r =>
        exfalso
        obtain ⟨d, hd, f, hf, e1, _, d', hd', k, hk, p, hp, e2⟩ := k3.mp (by simp)
        have hnone : ∀ d ∈ [unitA, unitB], ∀ f ∈ d.fields, f.name.hash = hashOf b!"bad" →
            ∀ d' ∈ [unitA, unitB], ∀ k ∈ typeKinds, ∀ p ∈ entries d' k, p.name.hash ≠ f.type.hash := by decide +kernel
        exact hnone d hd f hf e1 d' hd' k hk p hp e2

end Clr.Tools
