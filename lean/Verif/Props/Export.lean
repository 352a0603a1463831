import Verif.Proofs.Export8
/-
C17-C20, C59: theorems about the exported database. The specification is in `Verif/Props/ExportSpec.lean`,
the conditions on the database and on the placement of its tables are `Exportable` (Verif/Proofs/Export5.lean).
-/
namespace Clr.Export
open Clr.DB (hashOf)
attribute [local irreducible] hashOf

theorem final_of {env : Env} {fuel : Nat} {db : DB.Database} (h : Exportable env fuel db) {F : St}
    (hF : exportDB env fuel db = some (.ok F)) : Final env db F := by
  obtain ⟨F', h1, h2⟩ := exportDB_ok h
  rw [hF] at h1
  injection h1 with h1
  injection h1 with h1
  rw [h1]; exact h2

theorem names_distinct : List.Pairwise (· ≠ ·) [hashOf b!"disk_transient", hashOf b!"network_transient",
    hashOf b!"replicate_transient", hashOf b!"export_transient", hashOf b!"transient", hashOf b!"pre_save",
    hashOf b!"post_load", hashOf b!"replicate", hashOf b!"custom_flag"] := by decide +kernel

theorem custom_distinct : hashOf b!"custom_flag_inherit" ≠ hashOf b!"custom_flag" := by decide +kernel

theorem nodup_length_le : ∀ (l m : List Ref), l.Nodup → (∀ x ∈ l, x ∈ m) → l.length ≤ m.length
  | [], m, _, _ => Nat.zero_le _
  | a :: l, m, hn, hs => by
    obtain ⟨h1, h2⟩ := List.nodup_cons.mp hn
    have ha := hs a List.mem_cons_self
    have := nodup_length_le l (m.erase a) h2 (by
      intro x hx
      have hne : x ≠ a := by intro e; rw [e] at hx; exact h1 hx
      exact (List.mem_erase_of_ne hne).mpr (hs x (List.mem_cons_of_mem _ hx)))
    have hl := List.length_erase_of_mem ha
    have hp := List.length_pos_of_mem ha
    simp only [List.length_cons]
    omega

/-! ### C17 -/

/-- C17: the export of such a database ends without a failed assertion or undefined behaviour. -/
theorem C17_export_succeeds (env : Env) (fuel : Nat) (db : DB.Database) (hrdy : Ready env fuel db) :
    ∃ F, exportDB env fuel db = some (.ok F) := by
  have h := hrdy.exportable
  obtain ⟨F, hF, _⟩ := exportDB_ok h
  exact ⟨F, hF⟩

theorem good_iff {env : Env} {fuel : Nat} {db : DB.Database} (h : Exportable env fuel db) (hu : Unambiguous db) (f : Ref) :
    GoodFunction db f ↔ ¬ BadFunction env db f := by
  unfold GoodFunction BadFunction
  constructor
  · rintro hg ⟨p, p1, p2, p3, p4⟩
    rcases (scopeFor_iff h hu p f).mp p3 with hr | ha
    · obtain ⟨t, ht⟩ := hg p p1 hr
      exact (typeFor_iff p p1 p2).1.mpr ⟨t, ht⟩ p4
    · have := ha.1; rw [p1] at this; exact absurd this (by decide)
  · intro hb p p1 hr
    obtain ⟨x, y, hx, _⟩ := hr.2.1
    have hv := (entry_copied hx).1
    apply (typeFor_iff (env := env) p p1 hv).1.mp
    intro hn
    exact hb ⟨p, p1, hv, (scopeFor_iff h hu p f).mpr (.inl hr), hn⟩

/-- C17, partial: every array of every exported scope holds exactly the primitives that record the scope as
their parent and are kept, each once. Partial: asks that nothing has two possible parents, and that no object
lies at an address whose low half is the hash of a name (`C17_alias_negation`). -/
theorem C17_scope_arrays_partial (env : Env) (fuel : Nat) (db : DB.Database) (hrdy : Ready env fuel db) (F : St) (hF : exportDB env fuel db = some (.ok F))
    (pk : K) (s : Slot) (ck : K) (hrow : (pk, s, ck) ∈ scopeTable) (i : Nat) (hi : i < (entries db pk).length) :
    ((F.get (pk, i)).kids s).Nodup ∧
    ∀ c, c ∈ (F.get (pk, i)).kids s ↔ c.1 = ck ∧ Records db c (pk, i) ∧ Kept db F (pk, i) s c := by
  have h := hrdy.exportable
  have hu := hrdy.unambiguous
  have fin := final_of h hF
  obtain ⟨kc, kc2, _⟩ := scopeTable_kinds _ hrow
  have hv : Valid (copied db) (pk, i) := (entry_valid kc).mp ⟨_, List.getElem?_eq_getElem hi⟩
  have hb : s ≠ .bases := by
    intro e; subst e
    simp [scopeTable] at hrow
  refine ⟨fin.nodup _ s hv hb, ?_⟩
  intro c
  rw [fin.mem (pk, i) s c hv hb, kidsOf_scope env db pk s ck hrow i hv c, scopeFor_iff h hu]
  have hck : ck ∉ attributeKinds := (scopeTable_kinds _ hrow).2.2
  have hslots : (s = .parameters → pk = .function ∧ ck = .field) ∧ (s = .methods → pk = .cls ∧ ck = .function) ∧
      (s = .functions → pk = .space ∧ ck = .function) ∧ (s = .fields → pk = .cls ∧ ck = .field) := by
    have : ∀ x ∈ scopeTable, (x.2.1 = Slot.parameters → x.1 = K.function ∧ x.2.2 = K.field) ∧
        (x.2.1 = Slot.methods → x.1 = K.cls ∧ x.2.2 = K.function) ∧
        (x.2.1 = Slot.functions → x.1 = K.space ∧ x.2.2 = K.function) ∧
        (x.2.1 = Slot.fields → x.1 = K.cls ∧ x.2.2 = K.field) := by unfold scopeTable; decide
    exact this _ hrow
  constructor
  · rintro ⟨⟨c1, c2, c3⟩, k1, k2, k3⟩
    have hr : Records db c (pk, i) := by
      rcases c3 with c3 | c3
      · exact c3
      · exact absurd (c1 ▸ c3.1) hck
    refine ⟨c1, hr, ?_, ?_, ?_⟩
    · intro e1 e2
      exact (typeFor_iff c (c1.trans (hslots.2.2.2 e2).2) c2).1.mp (k2 e1 e2)
    · intro e
      have e' : ((pk, i) : Ref).1 = .cls ∧ s = .methods ∨ ((pk, i) : Ref).1 = .space ∧ s = .functions := by
        rcases e with e | e
        · exact .inl ⟨(hslots.2.1 e).1, e⟩
        · exact .inr e
      have hcf : c.1 = .function := by
        rcases e with e | e
        · exact c1.trans (hslots.2.1 e).2
        · exact c1.trans (hslots.2.2.1 e.2).2
      exact (good_iff h hu c).mpr (k3 e')
    · intro e
      exact k1 (hslots.1 e).1 e
  · rintro ⟨c1, hr, k1, k2, k3⟩
    obtain ⟨x, y, hx, _⟩ := hr.2.1
    have c2 := (entry_copied hx).1
    refine ⟨⟨c1, c2, .inl hr⟩, fun _ e => k3 e, ?_, ?_⟩
    · intro e1 e2
      exact (typeFor_iff c (c1.trans (hslots.2.2.2 e2).2) c2).1.mpr (k1 e1 e2)
    · intro e
      have hcf : c.1 = .function := by
        rcases e with e | e
        · exact c1.trans (hslots.2.1 e.2).2
        · exact c1.trans (hslots.2.2.1 e.2).2
      refine (good_iff h hu c).mp (k2 ?_)
      rcases e with e | e
      · exact .inl e.2
      · exact .inr e

/-- C17, partial: the attribute array of every enum, field, function and class holds exactly the attributes
attached to it, each once. -/
theorem C17_attribute_arrays_partial (env : Env) (fuel : Nat) (db : DB.Database) (hrdy : Ready env fuel db) (F : St) (hF : exportDB env fuel db = some (.ok F))
    (pk : K) (hk : pk ∈ [K.enum, .field, .function, .cls]) (i : Nat) (hi : i < (entries db pk).length) :
    ((F.get (pk, i)).kids .attributes).Nodup ∧ ∀ a, a ∈ (F.get (pk, i)).kids .attributes ↔ AttributeOf db a (pk, i) := by
  have h := hrdy.exportable
  have hu := hrdy.unambiguous
  have fin := final_of h hF
  have kc : pk ≠ .container := by intro e; rw [e] at hk; exact absurd hk (by decide)
  have hv : Valid (copied db) (pk, i) := (entry_valid kc).mp ⟨_, List.getElem?_eq_getElem hi⟩
  refine ⟨fin.nodup _ _ hv (by decide), ?_⟩
  intro a
  rw [fin.mem (pk, i) _ a hv (by decide), kidsOf_attributes env db pk hk i hv a, scopeFor_iff h hu]
  constructor
  · rintro ⟨⟨a1, _, a3⟩, _⟩
    rcases a3 with a3 | a3
    · obtain ⟨s, hs⟩ := a3.1
      exact absurd a1 (scopeTable_kinds _ hs).2.2
    · exact a3
  · intro ha
    obtain ⟨p, hp, _⟩ := ha.2
    refine ⟨⟨ha.1, (entry_copied hp).1, .inr ha⟩, ?_, ?_, ?_⟩
    · intro _ e; cases e
    · intro _ e; cases e
    · rintro (⟨_, e⟩ | ⟨_, e⟩) <;> cases e

/-- C17, partial: every child points back to its scope, a primitive without a scope has a null parent. The
exception are functions a template type has taken over as its construction or destruction function. Attributes
that name a primitive are left out of the second part (`C17_primitive_attribute_keeps_hash`). -/
theorem C17_back_pointers_partial (env : Env) (fuel : Nat) (db : DB.Database) (hrdy : Ready env fuel db) (F : St) (hF : exportDB env fuel db = some (.ok F)) (c : Ref) (p : DB.Prim)
    (hc : entry db c = some p)
    (hn : c.1 = .function → ∀ i t, nameText db (.instance, i) = t → p.name.hash ≠ hashOf (t ++ b!"::ConstructObject") ∧
      p.name.hash ≠ hashOf (t ++ b!"::DestructObject")) :
    (∀ r, Records db c r ∨ AttributeOf db c r → (F.get c).parent = .obj r) ∧
    (c.1 ≠ .primAttr → (∀ r, ¬ Records db c r ∧ ¬ AttributeOf db c r) → (F.get c).parent = .raw 0) := by
  have h := hrdy.exportable
  have hu := hrdy.unambiguous
  have fin := final_of h hF
  obtain ⟨hv, hcc, hh, _, _⟩ := entry_copied hc
  have hmk : ∀ i, i < (copied db).count .instance → c.1 = .function → ¬ Makes (copied db) c i := by
    rintro i hi hcf ⟨t, ht, hm⟩
    obtain ⟨q, hq⟩ := copied_entry (r := (.instance, i)) hi (by simp)
    have h1 := nameText_copied hq
    rw [ht] at h1
    have h2 := hn hcf i _ h1.symm
    rw [hh] at hm
    simp only [Option.getD_some] at h2
    rcases hm with hm | hm
    · exact h2.1 hm
    · exact h2.2 hm
  have hpar : c.1 ≠ .primAttr → (F.get c).parent = optPtr (scopeFor env db c) := by
    intro hp
    rcases fin.parent c hv hcc hp with e | ⟨hf, i, hi, hm, _⟩
    · exact e
    · exact absurd hm (hmk i hi hf)
  constructor
  · intro r hr
    have hs := (scopeFor_iff h hu c r).mpr hr
    by_cases hp : c.1 = .primAttr
    · rw [fin.primParent c hp]
      unfold ownerPtr
      unfold scopeFor at hs
      rw [hs]
    · rw [hpar hp, hs]; rfl
  · intro hp hno
    rw [hpar hp]
    cases hs : scopeFor env db c with
    | none => rfl
    | some r =>
      rcases (scopeFor_iff h hu c r).mp hs with hr | hr
      · exact absurd hr (hno r).1
      · exact absurd hr (hno r).2

/-- C17: the return value of a function is one of its parameters named `return`, and it has one exactly when
such a parameter exists. -/
theorem C17_return_value (env : Env) (fuel : Nat) (db : DB.Database) (hrdy : Ready env fuel db) (F : St) (hF : exportDB env fuel db = some (.ok F)) (i : Nat) (hi : i < (entries db .function).length) :
    (∀ c, (F.get (.function, i)).ret = some c → c.1 = .field ∧ Records db c (.function, i) ∧ Named db c b!"return") ∧
    ((F.get (.function, i)).ret = none ↔ ∀ c : Ref, c.1 = .field → Records db c (.function, i) → ¬ Named db c b!"return") := by
  have h := hrdy.exportable
  have hu := hrdy.unambiguous
  have fin := final_of h hF
  have hv : Valid (copied db) (.function, i) := (entry_valid (by simp)).mp ⟨_, List.getElem?_eq_getElem hi⟩
  have hmem : ∀ c, c ∈ ((scopesBuilt env db).get (.function, i)).kids .parameters ↔
      c.1 = .field ∧ Records db c (.function, i) := by
    intro c
    rw [scopesBuilt_kids, kidsOf_scope env db .function .parameters .field (by simp [scopeTable]) i hv c, scopeFor_iff h hu]
    constructor
    · rintro ⟨c1, c2, c3 | c3⟩
      · exact ⟨c1, c3⟩
      · have := c3.1; rw [c1] at this; exact absurd this (by decide)
    · rintro ⟨c1, c3⟩
      obtain ⟨x, y, hx, _⟩ := c3.2.1
      exact ⟨c1, (entry_copied hx).1, .inl c3⟩
  have hnm : ∀ c, c.1 = .field → Records db c (.function, i) →
      ((((scopesBuilt env db).get c).hash == returnHash) = true ↔ Named db c b!"return") := by
    intro c _ hr
    obtain ⟨x, y, hx, _⟩ := hr.2.1
    have : ((scopesBuilt env db).get c).hash = x.name.hash := (entry_copied hx).2.2.1
    rw [this, beq_iff_eq]
    unfold Named returnHash
    constructor
    · intro e; exact ⟨x, hx, e⟩
    · rintro ⟨x', hx', e⟩
      rw [hx] at hx'
      injection hx' with hx'
      rw [hx']; exact e
  rw [fin.ret]
  unfold retOf returnOf
  rw [if_pos rfl]
  constructor
  · intro c hc
    have h1 := List.mem_of_find?_eq_some hc
    have h2 := List.find?_some hc
    obtain ⟨h3, h4⟩ := (hmem c).mp h1
    exact ⟨h3, h4, (hnm c h3 h4).mp h2⟩
  · rw [List.find?_eq_none]
    constructor
    · intro hno c c1 hr hnam
      exact hno c ((hmem c).mpr ⟨c1, hr⟩) ((hnm c c1 hr).mpr hnam)
    · intro hno c hc e
      obtain ⟨c1, hr⟩ := (hmem c).mp hc
      exact hno c c1 hr ((hnm c c1 hr).mp e)

/-! ### C18 -/

/-- C18, partial: the arrays of every scope, the attribute arrays and the table of all types are sorted by name
hash; the type table is a permutation of the types of the database. -/
theorem C18_tables_sorted_partial (env : Env) (fuel : Nat) (db : DB.Database) (hrdy : Ready env fuel db)
    (F : St) (hF : exportDB env fuel db = some (.ok F)) :
    (∀ pk s ck, (pk, s, ck) ∈ scopeTable → ∀ i, i < (entries db pk).length →
      ((F.get (pk, i)).kids s).Pairwise fun a b => (F.get a).hash ≤ (F.get b).hash) ∧
    (∀ pk, pk ∈ [K.enum, .field, .function, .cls] → ∀ i, i < (entries db pk).length →
      ((F.get (pk, i)).kids .attributes).Pairwise fun a b => (F.get a).hash ≤ (F.get b).hash) ∧
    (F.typePrims.Pairwise fun a b => (F.get a).hash ≤ (F.get b).hash) ∧
    F.typePrims.Nodup ∧ (∀ t, t ∈ F.typePrims ↔ t.1 ∈ typeKinds ∧ ∃ p, entry db t = some p) ∧
    (∀ r p, entry db r = some p → (F.get r).hash = p.name.hash) := by
  have h := hrdy.exportable
  have fin := final_of h hF
  have hv : ∀ pk i, pk ≠ .container → i < (entries db pk).length → Valid (copied db) (pk, i) :=
    fun pk i kc hi => (entry_valid kc).mp ⟨_, List.getElem?_eq_getElem hi⟩
  have hall : (copied db).typePrims = (copied db).all .type ++ (copied db).all .cls ++ (copied db).all .enum ++ (copied db).all .instance := rfl
  refine ⟨?_, ?_, fin.typesSorted, ?_, ?_, ?_⟩
  · intro pk s ck hrow i hi
    have hs : ∀ x ∈ scopeTable, x.2.1 ≠ Slot.bases ∧ x.2.1 ∈ sortedSlots x.1 := by unfold scopeTable; decide
    exact fin.sorted _ s (hv pk i (scopeTable_kinds _ hrow).1 hi) (hs _ hrow).1 (hs _ hrow).2
  · intro pk hk i hi
    have kc : ∀ k ∈ [K.enum, .field, .function, .cls], k ≠ .container ∧ Slot.attributes ∈ sortedSlots k := by decide
    exact fin.sorted _ _ (hv pk i (kc pk hk).1 hi) (by decide) (kc pk hk).2
  · rw [fin.types.nodup_iff, hall]
    apply nodup_append_of
    · apply nodup_append_of
      · apply nodup_append_of (nodup_all _ _) (nodup_all _ _)
        intro x hx hy
        have h1 := ((mem_all _ _ x).mp hx).1
        have h2 := ((mem_all _ _ x).mp hy).1
        rw [h1] at h2; cases h2
      · exact nodup_all _ _
      · intro x hx hy
        have h2 := ((mem_all _ _ x).mp hy).1
        rcases List.mem_append.mp hx with hx | hx <;>
        · have h1 := ((mem_all _ _ x).mp hx).1
          rw [h1] at h2; cases h2
    · exact nodup_all _ _
    · intro x hx hy
      have h2 := ((mem_all _ _ x).mp hy).1
      rcases List.mem_append.mp hx with hx | hx
      · rcases List.mem_append.mp hx with hx | hx <;>
        · have h1 := ((mem_all _ _ x).mp hx).1
          rw [h1] at h2; cases h2
      · have h1 := ((mem_all _ _ x).mp hx).1
        rw [h1] at h2; cases h2
  · intro t
    rw [fin.types.mem_iff, hall]
    simp only [List.mem_append, mem_all]
    unfold typeKinds
    constructor
    · rintro (((h | h) | h) | h) <;>
      · refine ⟨by rw [h.1]; decide, copied_entry h.2 (by rw [h.1]; decide)⟩
    · rintro ⟨hk, p, hp⟩
      have hvt := (entry_copied hp).1
      simp only [List.mem_cons, List.not_mem_nil, or_false] at hk
      rcases hk with hk | hk | hk | hk
      · exact .inl (.inl (.inl ⟨hk, hvt⟩))
      · exact .inl (.inl (.inr ⟨hk, hvt⟩))
      · exact .inl (.inr ⟨hk, hvt⟩)
      · exact .inr ⟨hk, hvt⟩
  · intro r p hp
    rw [fin.hash]
    exact (entry_copied hp).2.2.1

/-- C18: so the runtime's lookup of a type by name finds an exported type of that name whenever the database has
one, and nothing else. -/
theorem C18_types_found (env : Env) (fuel : Nat) (db : DB.Database) (hrdy : Ready env fuel db)
    (F : St) (hF : exportDB env fuel db = some (.ok F)) (n : UInt32) :
    ∃ o, Search.find F.typePrims (fun r => (F.get r).hash) n = .ok o ∧
      (∀ t, o = some t → t.1 ∈ typeKinds ∧ ∃ p, entry db t = some p ∧ p.name.hash = n) ∧
      (o = none ↔ ∀ t p, t.1 ∈ typeKinds → entry db t = some p → p.name.hash ≠ n) := by
  have h := hrdy.exportable
  obtain ⟨_, _, hs, _, hm, hh⟩ := C18_tables_sorted_partial env fuel db hrdy F hF
  have hsz : F.typePrims.length ≤ 2 ^ 30 := by
    rw [(final_of h hF).types.length_eq]; exact h.typesSize
  obtain ⟨o, h1, h2, h3⟩ := Search.C01_lookup_exact F.typePrims (fun r => (F.get r).hash) n hsz hs
  refine ⟨o, h1, ?_, ?_⟩
  · intro t ht
    obtain ⟨h4, h5⟩ := h2 t ht
    obtain ⟨hk, p, hp⟩ := (hm t).mp h4
    exact ⟨hk, p, hp, by rw [← hh t p hp]; exact h5⟩
  · rw [h3]
    constructor
    · intro hno t p hk hp e
      exact hno t ((hm t).mpr ⟨hk, p, hp⟩) (by rw [hh t p hp]; exact e)
    · intro hno t ht e
      obtain ⟨hk, p, hp⟩ := (hm t).mp ht
      exact hno t p hk hp (by rw [← hh t p hp]; exact e)

/-- C18: and the lookup of a child by name in an array of a scope finds one of that name if the array has one. -/
theorem C18_children_found (env : Env) (fuel : Nat) (db : DB.Database) (hrdy : Ready env fuel db)
    (hsz : ∀ k, (entries db k).length ≤ 2 ^ 30)
    (F : St) (hF : exportDB env fuel db = some (.ok F)) (pk : K) (s : Slot) (ck : K) (hrow : (pk, s, ck) ∈ scopeTable)
    (i : Nat) (hi : i < (entries db pk).length) (n : UInt32) :
    ∃ o, Search.find ((F.get (pk, i)).kids s) (fun r => (F.get r).hash) n = .ok o ∧
      (∀ c, o = some c → c ∈ (F.get (pk, i)).kids s ∧ (F.get c).hash = n) ∧
      (o = none ↔ ∀ c ∈ (F.get (pk, i)).kids s, (F.get c).hash ≠ n) := by
  have h := hrdy.exportable
  obtain ⟨hs, _⟩ := C18_tables_sorted_partial env fuel db hrdy F hF
  obtain ⟨hnd, hmem⟩ := C17_scope_arrays_partial env fuel db hrdy F hF pk s ck hrow i hi
  refine Search.C01_lookup_exact _ _ _ ?_ (hs pk s ck hrow i hi)
  have hsub := nodup_length_le ((F.get (pk, i)).kids s) ((List.range (entries db ck).length).map fun j => ((ck, j) : Ref)) hnd (by
    intro c hc
    obtain ⟨c1, c2, _⟩ := (hmem c).mp hc
    obtain ⟨x, y, hx, _⟩ := c2.2.1
    rw [List.mem_map]
    refine ⟨c.2, ?_, ?_⟩
    · rw [List.mem_range]
      unfold entry at hx
      rw [c1] at hx
      by_cases hlt : c.2 < (entries db ck).length
      · exact hlt
      · rw [List.getElem?_eq_none (by omega)] at hx; cases hx
    · rw [← c1])
  rw [List.length_map, List.length_range] at hsub
  exact Nat.le_trans hsub (hsz ck)

end Clr.Export
