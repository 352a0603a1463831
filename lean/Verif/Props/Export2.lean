import Verif.Props.Export
/-
C19, C20, C59: flags, types and base types of the exported database.
-/
namespace Clr.Export
open Clr.DB (hashOf)
attribute [local irreducible] hashOf

theorem entry_lt {db : DB.Database} {k : K} {i : Nat} {p : DB.Prim} (h : entry db (k, i) = some p) : i < (entries db k).length := by
  unfold entry at h
  by_cases hlt : i < (entries db k).length
  · exact hlt
  · rw [List.getElem?_eq_none (by simp only; omega)] at h; cases h

theorem lookType_iff {env : Env} {fuel : Nat} {db : DB.Database} (hrdy : Ready env fuel db) (ht : UniqueTypes db) {F : St}
    (hF : exportDB env fuel db = some (.ok F)) (n : UInt32) (t : Ref) :
    lookType F n = some t ↔ t.1 ∈ typeKinds ∧ ∃ p, entry db t = some p ∧ p.name.hash = n := by
  have h := hrdy.exportable
  obtain ⟨_, _, hs, _, hm, hh⟩ := C18_tables_sorted_partial env fuel db hrdy F hF
  have hsz : F.typePrims.length ≤ 2 ^ 30 := by
    rw [(final_of h hF).types.length_eq]; exact h.typesSize
  obtain ⟨h1, h2⟩ := lookType_spec F hsz hs n
  constructor
  · intro hl
    obtain ⟨h3, h4⟩ := h1 t hl
    obtain ⟨hk, p, hp⟩ := (hm t).mp h3
    exact ⟨hk, p, hp, by rw [← hh t p hp]; exact h4⟩
  · rintro ⟨hk, p, hp, e⟩
    cases hl : lookType F n with
    | none => exact absurd (by rw [hh t p hp]; exact e) (h2.mp hl t ((hm t).mpr ⟨hk, p, hp⟩))
    | some t' =>
      obtain ⟨h3, h4⟩ := h1 t' hl
      obtain ⟨hk', p', hp'⟩ := (hm t').mp h3
      rw [hh t' p' hp'] at h4
      rw [ht t' t p' p hk' hk hp' hp (h4.trans e.symm)]

/-- C59: the base types of every exported type are exactly those the database records for it. -/
theorem C59_base_types (env : Env) (fuel : Nat) (db : DB.Database) (hrdy : Ready env fuel db) (ht : UniqueTypes db)
    (F : St) (hF : exportDB env fuel db = some (.ok F)) (r : Ref) (p : DB.Prim) (hr : entry db r = some p) (q : Ref) :
    q ∈ (F.get r).kids .bases ↔ InheritsFrom db r q := by
  have h := hrdy.exportable
  rw [(final_of h hF).bases r (entry_copied hr).1, basesFrom_mem]
  unfold InheritsFrom
  constructor
  · rintro ⟨t, hti, h1, h2⟩
    obtain ⟨k1, p1, e1, n1⟩ := (lookType_iff hrdy ht hF _ _).mp h1
    obtain ⟨k2, p2, e2, n2⟩ := (lookType_iff hrdy ht hF _ _).mp h2
    exact ⟨k2, k1, t, hti, p2, p1, e2, e1, n2.symm, n1.symm⟩
  · rintro ⟨k2, k1, t, hti, p2, p1, e2, e1, n2, n1⟩
    exact ⟨t, hti, (lookType_iff hrdy ht hF _ _).mpr ⟨k1, p1, e1, n1.symm⟩, (lookType_iff hrdy ht hF _ _).mpr ⟨k2, p2, e2, n2.symm⟩⟩

theorem reaches_ancestor {env : Env} {fuel : Nat} {db : DB.Database} (hrdy : Ready env fuel db) (ht : UniqueTypes db)
    {F : St} (hF : exportDB env fuel db = some (.ok F)) {r q : Ref} (hr : ∃ p, entry db r = some p) :
    Reaches F r q ↔ Ancestor db r q := by
  have h := hrdy.exportable
  constructor
  · intro hq
    induction hq with
    | refl r => exact .refl r
    | base hb _ ih =>
      obtain ⟨p, hp⟩ := hr
      have hi := (C59_base_types env fuel db hrdy ht F hF _ p hp _).mp hb
      obtain ⟨_, _, _, _, _, pq, _, e, _⟩ := id hi
      exact .base hi (ih ⟨pq, e⟩)
  · intro hq
    induction hq with
    | refl r => exact .refl r
    | base hb _ ih =>
      obtain ⟨p, hp⟩ := hr
      obtain ⟨_, _, _, _, _, pq, _, e, _⟩ := id hb
      exact .base ((C59_base_types env fuel db hrdy ht F hF _ p hp _).mpr hb) (ih ⟨pq, e⟩)

theorem ancestor_entry {db : DB.Database} {r q : Ref} (hr : ∃ p, entry db r = some p) (h : Ancestor db r q) :
    ∃ p, entry db q = some p := by
  induction h with
  | refl r => exact hr
  | base hb _ ih =>
    obtain ⟨_, _, _, _, _, pq, _, e, _⟩ := hb
    exact ih ⟨pq, e⟩

theorem int_row {db : DB.Database} {a : Ref} (hc : a.1 = .intAttr) (hv : Valid (copied db) a) (b : Nat) :
    ((copied db).get a).value.getLsbD b = true ↔ IntBit db a b := by
  have hl : a.2 < db.intAttributes.length := by
    have : a.2 < (rows db a.1).length := hv
    rw [hc] at this
    simpa [rows] using this
  unfold IntBit copied
  simp only
  rw [hc, List.getD_eq_getElem?_getD]
  simp [rows, hl]

theorem named_iff {db : DB.Database} {a : Ref} {p : DB.Prim} (ha : entry db a = some p) (t : Bytes) :
    Named db a t ↔ p.name.hash = hashOf t := by
  unfold Named
  constructor
  · rintro ⟨q, hq, e⟩
    rw [ha] at hq
    injection hq with hq
    rw [hq]; exact e
  · intro e; exact ⟨p, ha, e⟩

theorem setsBit_iff {env : Env} {fuel : Nat} {db : DB.Database} (hrdy : Ready env fuel db) {F : St}
    (hF : exportDB env fuel db = some (.ok F)) {a : Ref} {p : DB.Prim} (ha : entry db a = some p) (b : Nat) (hb : b < 32) :
    (attributeBits a.1 (F.get a)).getLsbD b = true ↔ SetsBit db a b := by
  have h := hrdy.exportable
  have fin := final_of h hF
  rw [attributeBits_bit a.1 (F.get a) b hb names_distinct]
  have hh : (F.get a).hash = p.name.hash := by rw [fin.hash]; exact (entry_copied ha).2.2.1
  have ht : (F.get a).text.getD [] = nameText db a := by rw [fin.text]; exact nameText_copied ha
  have hs : ∀ t, starts (F.get a).text t = true ↔ t <+: nameText db a := by
    intro t; unfold starts; rw [ht]; exact List.isPrefixOf_iff_prefix
  have hs' : ∀ t, starts (F.get a).text t = false ↔ ¬ t <+: nameText db a := by
    intro t; rw [← hs]; simp
  have hv : a.1 = .intAttr ∧ (F.get a).value.getLsbD b = true ↔ IntBit db a b := by
    rw [fin.value]
    constructor
    · rintro ⟨h1, h2⟩; exact (int_row h1 (entry_copied ha).1 b).mp h2
    · intro h1; exact ⟨h1.1, (int_row h1.1 (entry_copied ha).1 b).mpr h1⟩
  unfold SetsBit flagNames
  simp only [hs, hs', hh, named_iff ha, hv, List.mem_cons, List.not_mem_nil, or_false, forall_eq_or_imp, forall_eq, not_or]

/-- C19: a flag of an exported enum, field or function is set exactly if one of its attributes stands for it. -/
theorem C19_flags_partial (env : Env) (fuel : Nat) (db : DB.Database) (hrdy : Ready env fuel db)
    (F : St) (hF : exportDB env fuel db = some (.ok F)) (pk : K) (hk : pk ∈ [K.enum, .field, .function])
    (i : Nat) (hi : i < (entries db pk).length) (b : Nat) (hb : b < 32) :
    (F.get (pk, i)).flags.getLsbD b = true ↔ ∃ a, AttributeOf db a (pk, i) ∧ SetsBit db a b := by
  have h := hrdy.exportable
  have hk' : ∀ k ∈ [K.enum, .field, .function], k ≠ .container ∧ k ≠ .cls ∧ flagged k = true ∧ k ∈ [K.enum, .field, .function, .cls] := by
    decide
  obtain ⟨k1, k2, k3, k4⟩ := hk' pk hk
  have hv : Valid (copied db) (pk, i) := (entry_valid k1).mp ⟨_, List.getElem?_eq_getElem hi⟩
  obtain ⟨_, hm⟩ := C17_attribute_arrays_partial env fuel db hrdy F hF pk k4 i hi
  rw [((final_of h hF).flags _ hv).1 k3 k2, flagBits_bit]
  constructor
  · rintro ⟨a, h1, h2⟩
    have h3 := (hm a).mp h1
    obtain ⟨p, hp, _⟩ := h3.2
    exact ⟨a, h3, (setsBit_iff hrdy hF hp b hb).mp h2⟩
  · rintro ⟨a, h3, h2⟩
    obtain ⟨p, hp, _⟩ := h3.2
    exact ⟨a, (hm a).mpr h3, (setsBit_iff hrdy hF hp b hb).mpr h2⟩

/-- C19: a flag of an exported class is set exactly if one of its own attributes stands for it, or it or a class
it derives from, directly or not, passes it on. -/
theorem C19_class_flags_partial (env : Env) (fuel : Nat) (db : DB.Database) (hrdy : Ready env fuel db)
    (ht : UniqueTypes db) (F : St) (hF : exportDB env fuel db = some (.ok F))
    (i : Nat) (hi : i < (entries db .cls).length) (b : Nat) (hb : b < 32) :
    (F.get (.cls, i)).flags.getLsbD b = true ↔
      (∃ a, AttributeOf db a (.cls, i) ∧ SetsBit db a b) ∨
      ∃ q, Ancestor db (.cls, i) q ∧ q.1 = .cls ∧ PassesOn db q b := by
  have h := hrdy.exportable
  have fin := final_of h hF
  have hent : ∃ p, entry db (.cls, i) = some p := ⟨_, List.getElem?_eq_getElem hi⟩
  have hv : Valid (copied db) (.cls, i) := (entry_valid (by simp)).mp hent
  have hown : ∀ q p b, q.1 = .cls → entry db q = some p → b < 32 → ((flagBits F ((F.get q).kids .attributes)).getLsbD b = true ↔
      ∃ a, AttributeOf db a q ∧ SetsBit db a b) := by
    rintro ⟨k, j⟩ p b hq hp hb
    obtain rfl : k = .cls := hq
    obtain ⟨_, hm⟩ := C17_attribute_arrays_partial env fuel db hrdy F hF .cls (by decide) j (entry_lt hp)
    rw [flagBits_bit]
    constructor
    · rintro ⟨a, h1, h2⟩
      have h3 := (hm a).mp h1
      obtain ⟨p, hp, _⟩ := h3.2
      exact ⟨a, h3, (setsBit_iff hrdy hF hp b hb).mp h2⟩
    · rintro ⟨a, h3, h2⟩
      obtain ⟨p, hp, _⟩ := h3.2
      exact ⟨a, (hm a).mpr h3, (setsBit_iff hrdy hF hp b hb).mpr h2⟩
  have hpass : ∀ q p, q.1 = .cls → entry db q = some p →
      ((inheritedBits F (flagBits F ((F.get q).kids .attributes)) q).getLsbD b = true ↔ PassesOn db q b) := by
    rintro ⟨k, j⟩ p hq hp
    obtain rfl : k = .cls := hq
    obtain ⟨_, hm⟩ := C17_attribute_arrays_partial env fuel db hrdy F hF .cls (by decide) j (entry_lt hp)
    rw [inheritedBits_iff F _ _ b hb custom_distinct, hown _ p 8 rfl hp (by decide)]
    unfold PassesOn
    have hha : ∀ a, AttributeOf db a (.cls, j) → ∀ t, ((F.get a).hash = hashOf t ↔ Named db a t) := by
      intro a ha t
      obtain ⟨p, hp, _⟩ := ha.2
      rw [fin.hash, (entry_copied hp).2.2.1, named_iff hp]
    have hint : ∀ a, AttributeOf db a (.cls, j) → (a.1 = .intAttr ∧ (F.get a).value.getLsbD b = true ↔ IntBit db a b) := by
      intro a ha
      obtain ⟨p, hp, _⟩ := ha.2
      rw [fin.value]
      constructor
      · rintro ⟨h1, h2⟩; exact (int_row h1 (entry_copied hp).1 b).mp h2
      · intro h1; exact ⟨h1.1, (int_row h1.1 (entry_copied hp).1 b).mpr h1⟩
    constructor
    · rintro (h1 | ⟨⟨a, h1, h2⟩, c, h3, h4, h5⟩)
      · exact .inl h1
      · have ha := (hm a).mp h1
        have hc := (hm c).mp h3
        exact .inr ⟨⟨a, ha, (hha a ha _).mp h2⟩, c, hc, (hha c hc _).mp h4, (hint c hc).mp h5⟩
    · rintro (h1 | ⟨⟨a, ha, h2⟩, c, hc, h4, h5⟩)
      · exact .inl h1
      · exact .inr ⟨⟨a, (hm a).mpr ha, (hha a ha _).mpr h2⟩, c, (hm c).mpr hc, (hha c hc _).mpr h4, (hint c hc).mpr h5⟩
  obtain ⟨p, hp⟩ := hent
  rw [(fin.flags _ hv).2 rfl b, hown _ p b rfl hp hb, passes_iff]
  constructor
  · rintro (h1 | ⟨q, h1, h2, h3⟩)
    · exact .inl h1
    · have ha := (reaches_ancestor hrdy ht hF ⟨p, hp⟩).mp h1
      obtain ⟨pq, hpq⟩ := ancestor_entry ⟨p, hp⟩ ha
      exact .inr ⟨q, ha, h2, (hpass q pq h2 hpq).mp h3⟩
  · rintro (h1 | ⟨q, ha, h2, h3⟩)
    · exact .inl h1
    · obtain ⟨pq, hpq⟩ := ancestor_entry ⟨p, hp⟩ ha
      exact .inr ⟨q, (reaches_ancestor hrdy ht hF ⟨p, hp⟩).mpr ha, h2, (hpass q pq h2 hpq).mpr h3⟩

/-- C18: the global namespace holds exactly what has no parent, in the order of the database's tables, which are
sorted by name hash. -/
theorem C18_global_namespace (env : Env) (fuel : Nat) (db : DB.Database) (hrdy : Ready env fuel db)
    (h0 : ∀ r p, entry db r = some p → p.name.hash ≠ 0)
    (F : St) (hF : exportDB env fuel db = some (.ok F)) (s : Slot) (k : K)
    (hs : (s, k) ∈ [(Slot.namespaces, K.space), (.types, .type), (.enums, .enum), (.classes, .cls),
      (.functions, .function), (.templates, .template)]) :
    (∀ r, r ∈ F.globals s ↔ r.1 = k ∧ ∃ p, entry db r = some p ∧ p.parent.hash = 0) ∧
    ((entries db k).Pairwise (fun a b => a.name.hash ≤ b.name.hash) →
      (F.globals s).Pairwise fun a b => (F.get a).hash ≤ (F.get b).hash) := by
  have h := hrdy.exportable
  have hu := hrdy.unambiguous
  have fin := final_of h hF
  have hk : k ≠ .container ∧ k ∉ attributeKinds := by
    have : ∀ x ∈ [(Slot.namespaces, K.space), (.types, .type), (.enums, .enum), (.classes, .cls),
      (.functions, .function), (.templates, .template)], x.2 ≠ .container ∧ x.2 ∉ attributeKinds := by
      unfold attributeKinds; decide
    exact this _ hs
  rw [fin.globals s k hs]
  constructor
  · intro r
    rw [List.mem_filter, mem_all]
    simp only [decide_eq_true_eq]
    constructor
    · rintro ⟨⟨h1, h2⟩, _, h4⟩
      obtain ⟨p, hp⟩ := copied_entry h2 (by rw [h1]; exact hk.1)
      refine ⟨h1, p, hp, ?_⟩
      rw [(entry_copied hp).2.2.2.1] at h4
      unfold ofHash at h4
      injection h4 with h4
      exact UInt32.toNat_inj.mp h4
    · rintro ⟨h1, p, hp, h2⟩
      refine ⟨⟨h1, (entry_copied hp).1⟩, ?_, ?_⟩
      · cases hsf : scopeFor env db r with
        | none => rfl
        | some q =>
          rcases (scopeFor_iff h hu r q).mp hsf with hr | hr
          · obtain ⟨p', q', e1, e2, e3⟩ := hr.2.1
            rw [hp] at e1
            injection e1 with e1
            rw [← e1, h2] at e3
            exact absurd e3.symm (h0 q q' e2)
          · have := hr.1
            rw [h1] at this
            exact absurd this hk.2
      · rw [(entry_copied hp).2.2.2.1, h2]; rfl
  · intro hsorted
    apply List.Pairwise.filter
    unfold St.all
    rw [List.pairwise_map, List.pairwise_iff_getElem]
    intro i j hi hj hij
    simp only [List.getElem_range]
    simp only [List.length_range] at hi hj
    have hlen : (copied db).count k = (entries db k).length := by
      rw [tableSize_count]; unfold tableSize; rw [if_neg hk.1]
    rw [hlen] at hi hj
    have e1 : entry db (k, i) = some ((entries db k)[i]) := List.getElem?_eq_getElem hi
    have e2 : entry db (k, j) = some ((entries db k)[j]) := List.getElem?_eq_getElem hj
    rw [fin.hash, fin.hash, (entry_copied e1).2.2.1, (entry_copied e2).2.2.1]
    exact List.pairwise_iff_getElem.mp hsorted i j hi hj hij

/-! ### C20 -/

/-- C20, partial: the type of every field in a class, and of every parameter and return value of every function
in a class or namespace, points to a type of that name in the exported table of types. Partial: functions
outside all namespaces are not checked (`C20_global_function_negation`). -/
theorem C20_no_dangling_types_partial (env : Env) (fuel : Nat) (db : DB.Database) (hrdy : Ready env fuel db) (F : St) (hF : exportDB env fuel db = some (.ok F)) :
    (∀ i, i < (entries db .cls).length → ∀ c ∈ (F.get (.cls, i)).kids .fields,
      ∃ t ∈ F.typePrims, (F.get c).type = .obj t ∧ HasType db c t) ∧
    (∀ pk s, (pk, s) ∈ [(K.cls, Slot.methods), (.space, .functions)] → ∀ i, i < (entries db pk).length →
      ∀ f ∈ (F.get (pk, i)).kids s, ∀ c, c ∈ (F.get f).kids .parameters ∨ (F.get f).ret = some c →
      ∃ t ∈ F.typePrims, (F.get c).type = .obj t ∧ HasType db c t) := by
  have h := hrdy.exportable
  have fin := final_of h hF
  obtain ⟨_, _, _, _, hm, _⟩ := C18_tables_sorted_partial env fuel db hrdy F hF
  have key : ∀ c : Ref, c.1 = .field → (∃ p, entry db c = some p) → (∃ t, HasType db c t) →
      ∃ t ∈ F.typePrims, (F.get c).type = .obj t ∧ HasType db c t := by
    rintro c hc ⟨p, hp⟩ ht
    have hv := (entry_copied hp).1
    obtain ⟨h1, h2⟩ := typeFor_iff (env := env) c hc hv
    cases hf : typeFor env db c with
    | none => exact absurd hf (h1.mpr ht)
    | some t =>
      have h3 := h2 t hf
      obtain ⟨_, q, _, hq, _⟩ := h3.2
      refine ⟨t, (hm t).mpr ⟨h3.1, q, hq⟩, ?_, h3⟩
      rw [fin.type c hv hc, hf]; rfl
  constructor
  · intro i hi c hc
    obtain ⟨c1, c2, c3⟩ := ((C17_scope_arrays_partial env fuel db hrdy F hF .cls .fields .field (by simp [scopeTable]) i hi).2 c).mp hc
    obtain ⟨x, _, hx, _⟩ := c2.2.1
    exact key c c1 ⟨x, hx⟩ (c3.1 rfl rfl)
  · intro pk s hps i hi f hf c hc
    have hrow : (pk, s, K.function) ∈ scopeTable ∧ (s = .methods ∨ (pk = .space ∧ s = .functions)) := by
      have : ∀ x ∈ [(K.cls, Slot.methods), (.space, .functions)], (x.1, x.2, K.function) ∈ scopeTable ∧
          (x.2 = .methods ∨ (x.1 = .space ∧ x.2 = .functions)) := by unfold scopeTable; decide
      exact this _ hps
    obtain ⟨f1, f2, _, f4, _⟩ := ((C17_scope_arrays_partial env fuel db hrdy F hF pk s .function hrow.1 i hi).2 f).mp hf
    have hg := f4 hrow.2
    obtain ⟨k, j⟩ := f
    obtain rfl : k = .function := f1
    obtain ⟨x, _, hx, _⟩ := f2.2.1
    have hj : j < (entries db .function).length := entry_lt hx
    have : c.1 = .field ∧ Records db c (.function, j) := by
      rcases hc with hc | hc
      · obtain ⟨c1, c2, _⟩ := ((C17_scope_arrays_partial env fuel db hrdy F hF .function .parameters .field (by simp [scopeTable]) j hj).2 c).mp hc
        exact ⟨c1, c2⟩
      · obtain ⟨c1, c2, _⟩ := (C17_return_value env fuel db hrdy F hF j hj).1 c hc
        exact ⟨c1, c2⟩
    obtain ⟨y, _, hy, _⟩ := this.2.2.1
    exact key c this.1 ⟨y, hy⟩ (hg c this.1 this.2)

/-- C20: nothing else is dropped: a field of a class with a type stays, so does a method of a class or a function
of a namespace whose types are all known, and so does everything else. -/
theorem C20_nothing_else_dropped (env : Env) (fuel : Nat) (db : DB.Database) (hrdy : Ready env fuel db) (F : St) (hF : exportDB env fuel db = some (.ok F))
    (pk : K) (s : Slot) (ck : K) (hrow : (pk, s, ck) ∈ scopeTable) (i : Nat) (c : Ref) (hc : c.1 = ck)
    (hr : Records db c (pk, i))
    (hok : (s = .fields → ∃ t, HasType db c t) ∧ (ck = .function → GoodFunction db c) ∧
      (s = .parameters → ¬ Named db c b!"return")) :
    c ∈ (F.get (pk, i)).kids s := by
  have h := hrdy.exportable
  have hi : i < (entries db pk).length := by
    obtain ⟨_, y, _, hy, _⟩ := hr.2.1
    exact entry_lt hy
  refine ((C17_scope_arrays_partial env fuel db hrdy F hF pk s ck hrow i hi).2 c).mpr ⟨hc, hr, fun _ e => hok.1 e, ?_, ?_⟩
  · intro e
    have : ∀ x ∈ scopeTable, (x.2.1 = Slot.methods ∨ (x.1 = K.space ∧ x.2.1 = Slot.functions)) → x.2.2 = K.function := by
      unfold scopeTable; decide
    exact hok.2.1 (this _ hrow e)
  · intro e hret
    have : ∀ x ∈ scopeTable, x.2.1 = Slot.parameters → x.1 = K.function := by unfold scopeTable; decide
    have hf : pk = .function := this _ hrow e
    subst hf
    exact hok.2.2 e ((C17_return_value env fuel db hrdy F hF i hi).1 c hret).2.2

end Clr.Export
