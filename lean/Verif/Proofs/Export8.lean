import Verif.Props.ExportSpec
/-
Lemmas about the exporter model: the specification in terms of the raw copy of the tables.
-/
namespace Clr.Export
open Clr.DB (hashOf)
attribute [local irreducible] hashOf

/-! ### From the specification to the raw copy -/

theorem rows_entries (db : DB.Database) (k : K) (hk : k ≠ .container) :
    (rows db k).map (fun o => (o.hash, o.parent, o.text)) =
      (entries db k).map fun p => (p.name.hash, ofHash p.parent.hash, textOf db p.name.hash) := by
  cases k
  all_goals first
    | exact absurd rfl hk
    | (simp only [rows, entries, List.map_map]; rfl)

theorem entry_copied {db : DB.Database} {r : Ref} {p : DB.Prim} (h : entry db r = some p) :
    Valid (copied db) r ∧ r.1 ≠ .container ∧ ((copied db).get r).hash = p.name.hash ∧
    ((copied db).get r).parent = ofHash p.parent.hash ∧ ((copied db).get r).text = textOf db p.name.hash := by
  have hk : r.1 ≠ .container := by
    intro hk
    unfold entry at h
    rw [hk] at h
    simp [entries] at h
  have he := rows_entries db r.1 hk
  have h2 : ((rows db r.1).map (fun o => (o.hash, o.parent, o.text)))[r.2]? =
      some (p.name.hash, ofHash p.parent.hash, textOf db p.name.hash) := by
    rw [he, List.getElem?_map]
    unfold entry at h
    rw [h]; rfl
  rw [List.getElem?_map] at h2
  cases ho : (rows db r.1)[r.2]? with
  | none => rw [ho] at h2; cases h2
  | some o =>
    rw [ho] at h2
    simp only [Option.map_some, Option.some.injEq, Prod.mk.injEq] at h2
    have hv : r.2 < (rows db r.1).length := by
      by_cases hlt : r.2 < (rows db r.1).length
      · exact hlt
      · rw [List.getElem?_eq_none (by omega)] at ho; cases ho
    have hg : (copied db).get r = o := by
      unfold copied
      simp only
      rw [List.getD_eq_getElem?_getD, ho]; rfl
    rw [hg]
    exact ⟨hv, hk, h2.1, h2.2.1, h2.2.2⟩

theorem copied_entry {db : DB.Database} {r : Ref} (hv : Valid (copied db) r) (hk : r.1 ≠ .container) :
    ∃ p, entry db r = some p := by
  have he := congrArg List.length (rows_entries db r.1 hk)
  simp only [List.length_map] at he
  have hv' : r.2 < (rows db r.1).length := hv
  exact ⟨_, List.getElem?_eq_getElem (by rw [← he]; exact hv')⟩

theorem entry_valid {db : DB.Database} {r : Ref} (hk : r.1 ≠ .container) : (∃ p, entry db r = some p) ↔ Valid (copied db) r :=
  ⟨fun ⟨_, h⟩ => (entry_copied h).1, fun h => copied_entry h hk⟩

theorem field_row {db : DB.Database} {c : Ref} (hc : c.1 = .field) (hv : Valid (copied db) c) :
    ∃ f, db.fields[c.2]? = some f ∧ ((copied db).get c).uid = f.parentUniqueId ∧
      ((copied db).get c).type = ofHash f.type.hash := by
  have hl : c.2 < db.fields.length := by
    have : c.2 < (rows db c.1).length := hv
    rw [hc] at this
    simpa [rows] using this
  refine ⟨db.fields[c.2], List.getElem?_eq_getElem hl, ?_, ?_⟩ <;>
  · unfold copied
    simp only
    rw [hc, List.getD_eq_getElem?_getD]
    simp [rows, hl]

theorem function_row {db : DB.Database} {r : Ref} (hr : r.1 = .function) (hv : Valid (copied db) r) :
    ∃ f, db.functions[r.2]? = some f ∧ ((copied db).get r).uid = f.uniqueId := by
  have hl : r.2 < db.functions.length := by
    have : r.2 < (rows db r.1).length := hv
    rw [hr] at this
    simpa [rows] using this
  refine ⟨db.functions[r.2], List.getElem?_eq_getElem hl, ?_⟩
  unfold copied
  simp only
  rw [hr, List.getD_eq_getElem?_getD]
  simp [rows, hl]

theorem matches_iff {db : DB.Database} {c r : Ref} (hr : Valid (copied db) r) (hc : Valid (copied db) c)
    (hs : ∃ s, (r.1, s, c.1) ∈ scopeTable) :
    matches' r.1 ((copied db).get r) c.1 ((copied db).get c) = true ↔ (r.1 = .function → SameFunction db c r) := by
  unfold matches'
  by_cases hf : r.1 = .function
  · have hcf : c.1 = .field := by
      obtain ⟨s, hs⟩ := hs
      rw [hf] at hs
      simp [scopeTable] at hs
      exact hs.2
    rw [if_pos ⟨hf, hcf⟩]
    obtain ⟨f, f1, f2, _⟩ := field_row hcf hc
    obtain ⟨g, g1, g2⟩ := function_row hf hr
    unfold SameFunction
    rw [f2, g2, f1, g1]
    simp only [beq_iff_eq, Option.map_some, Option.some.injEq]
    exact ⟨fun h _ => h.symm, fun h => (h hf).symm⟩
  · rw [if_neg (by intro h; exact hf h.1)]
    simp [hf]

theorem scopeTable_hierarchy (x : K × Slot × K) : x ∈ scopeTable ↔ x ∈ hierarchy := by
  unfold scopeTable hierarchy
  simp only [List.mem_cons, List.not_mem_nil, or_false]
  constructor <;> (rintro (h | h | h | h | h | h | h | h | h | h | h | h | h | h) <;> simp [h])

theorem scopeTable_kinds : ∀ x ∈ scopeTable, x.1 ≠ K.container ∧ x.2.2 ≠ K.container ∧ x.2.2 ∉ attributeKinds := by
  unfold scopeTable attributeKinds; decide

theorem cand_scope {env : Env} {db : DB.Database} (c r : Ref) :
    Cand env (copied db) (scopeSteps (copied db)) c r ↔ Records db c r := by
  unfold Cand scopeSteps
  simp only [List.mem_map]
  constructor
  · rintro ⟨hv, d, ⟨x, hx, rfl⟩, hk, hc, hh, hm⟩
    have hx' := (scopeTable_hierarchy x).mpr hx
    obtain ⟨hc1, hc2⟩ := (mem_all _ _ c).mp hc
    have hk' : x.1 = r.1 := hk
    have hrow : (r.1, x.2.1, c.1) ∈ scopeTable := by rw [← hk', hc1]; exact hx'
    obtain ⟨k1, k2, _⟩ := scopeTable_kinds _ hrow
    obtain ⟨p, hp⟩ := copied_entry hc2 k2
    obtain ⟨q, hq⟩ := copied_entry hv k1
    refine ⟨⟨_, hrow⟩, ⟨p, q, hp, hq, ?_⟩, (matches_iff hv hc2 ⟨_, hrow⟩).mp hm⟩
    have hh' : ((copied db).get (x.1, r.2)).hash = env.hash ((copied db).get c).parent := hh
    rw [hk'] at hh'
    rw [(entry_copied hp).2.2.2.1, hash_ofHash] at hh'
    rw [← hh']
    exact (entry_copied hq).2.2.1
  · rintro ⟨⟨s, hs⟩, ⟨p, q, hp, hq, he⟩, hm⟩
    have hv := (entry_copied hq).1
    have hc := (entry_copied hp).1
    refine ⟨hv, _, ⟨(r.1, s, c.1), (scopeTable_hierarchy _).mp hs, rfl⟩, rfl, (mem_all _ _ c).mpr ⟨rfl, hc⟩, ?_,
      (matches_iff hv hc ⟨s, hs⟩).mpr hm⟩
    show ((copied db).get r).hash = _
    rw [(entry_copied hq).2.2.1, (entry_copied hp).2.2.2.1, hash_ofHash, he]

theorem scope_owner {env : Env} {db : DB.Database} (hu : Unambiguous db) (c r : Ref) :
    owner env (copied db) (scopeSteps (copied db)) c = some r ↔ Records db c r := by
  rw [owner_iff (fun r r' h h' => hu.1 c r r' ((cand_scope c r).mp h) ((cand_scope c r').mp h')), cand_scope]

theorem mem_attributes (db : DB.Database) (a : Ref) :
    a ∈ allAttributes (copied db) ↔ a.1 ∈ attributeKinds ∧ Valid (copied db) a := by
  rw [mem_allAttributes]
  unfold attributeKinds
  simp only [List.mem_cons, List.not_mem_nil, or_false]

theorem nameText_copied {db : DB.Database} {r : Ref} {p : DB.Prim} (h : entry db r = some p) :
    ((copied db).get r).text.getD [] = nameText db r := by
  rw [(entry_copied h).2.2.2.2]
  unfold nameText textOf
  rw [h]

theorem fieldPath_spec {env : Env} {db : DB.Database} (hu : Unambiguous db) (i : Nat) (s : Ref)
    (h : Records db (.field, i) s) : fieldPath env (copied db) i = nameText db s ++ b!"::" ++ nameText db (.field, i) := by
  unfold fieldPath
  rw [(scope_owner hu (.field, i) s).mpr h]
  obtain ⟨p, q, hp, hq, _⟩ := h.2.1
  simp only
  rw [nameText_copied hq, nameText_copied hp]

theorem matches_attribute {env : Env} (S : St) (r a : Ref) (ha : a.1 ∈ attributeKinds) :
    matches' r.1 (S.get r) a.1 (S.get a) = true := by
  unfold matches'
  rw [if_neg]
  rintro ⟨_, h⟩
  rw [h] at ha
  exact absurd ha (by decide)

theorem cand_attribute {env : Env} {fuel : Nat} {db : DB.Database} (h : Exportable env fuel db) (hu : Unambiguous db)
    (a r : Ref) : Cand env (copied db) (attributeSteps env (copied db)) a r ↔ AttributeOf db a r := by
  have key : ∀ (p : DB.Prim), entry db a = some p → env.hash ((copied db).get a).parent = p.parent.hash := by
    intro p hp
    rw [(entry_copied hp).2.2.2.1, hash_ofHash]
  constructor
  · rintro ⟨hv, d, hd, hk, hc, hh, hm⟩
    unfold attributeSteps at hd
    simp only [List.mem_cons, List.not_mem_nil, or_false] at hd
    have hca : a ∈ allAttributes (copied db) := by
      rcases hd with rfl | rfl | rfl | rfl <;> exact hc
    obtain ⟨ha, hva⟩ := (mem_attributes db a).mp hca
    have hac : a.1 ≠ .container := by intro e; rw [e] at ha; exact absurd ha (by decide)
    obtain ⟨p, hp⟩ := copied_entry hva hac
    refine ⟨ha, p, hp, ?_⟩
    rw [key p hp] at hh
    have named : ∀ k : K, k ∈ [K.enum, .function, .cls] → r.1 = k → byName (copied db) k r.2 = p.parent.hash →
        r.1 ∈ [K.enum, .function, .cls] ∧ ∃ q, entry db r = some q ∧ p.parent.hash = q.name.hash := by
      intro k hkm hrk hb
      subst hrk
      have hrc : r.1 ≠ .container := by intro e; rw [e] at hkm; exact absurd hkm (by decide)
      obtain ⟨q, hq⟩ := copied_entry hv hrc
      refine ⟨hkm, q, hq, ?_⟩
      rw [← hb]
      exact (entry_copied hq).2.2.1
    rcases hd with rfl | rfl | rfl | rfl
    · exact .inl (named .enum (by decide) hk.symm hh)
    · right
      have hrf : r.1 = .field := hk.symm
      have hvf : r.2 < (copied db).count .field := by unfold Valid at hv; rw [hrf] at hv; exact hv
      refine ⟨hrf, ?_⟩
      obtain ⟨s, hs⟩ := h.owned r.2 hvf
      have hs' : Records db (.field, r.2) s := (scope_owner hu _ s).mp hs
      have hre : ((K.field, r.2) : Ref) = r := by rw [← hrf]
      simp only at hh
      rw [List.getD_eq_getElem?_getD, List.getElem?_map, List.getElem?_range hvf] at hh
      simp only [Option.map_some, Option.getD_some] at hh
      rw [fieldPath_spec hu r.2 s hs', hre] at hh
      exact ⟨s, hre ▸ hs', hh.symm⟩
    · exact .inl (named .function (by decide) hk.symm hh)
    · exact .inl (named .cls (by decide) hk.symm hh)
  · rintro ⟨ha, p, hp, hcase⟩
    have hva := (entry_copied hp).1
    have hca : a ∈ allAttributes (copied db) := (mem_attributes db a).mpr ⟨ha, hva⟩
    have hm : matches' r.1 ((copied db).get r) a.1 ((copied db).get a) = true := matches_attribute (env := env) _ r a ha
    rcases hcase with ⟨hr, q, hq, he⟩ | ⟨hr, s, hs, he⟩
    · have hv := (entry_copied hq).1
      have hb : byName (copied db) r.1 r.2 = env.hash ((copied db).get a).parent := by
        rw [key p hp, he]; exact (entry_copied hq).2.2.1
      refine ⟨hv, ?_⟩
      simp only [List.mem_cons, List.not_mem_nil, or_false] at hr
      unfold attributeSteps
      rcases hr with hr | hr | hr
      · exact ⟨_, List.mem_cons_self .., hr.symm, hca, by rw [hr] at hb; exact hb, hm⟩
      · refine ⟨⟨.function, .attributes, byName (copied db) .function, allAttributes (copied db)⟩, by simp, hr.symm, hca, ?_, hm⟩
        rw [hr] at hb; exact hb
      · refine ⟨⟨.cls, .attributes, byName (copied db) .cls, allAttributes (copied db)⟩, by simp, hr.symm, hca, ?_, hm⟩
        rw [hr] at hb; exact hb
    · obtain ⟨p', q', hp', _⟩ := hs.2.1
      have hv := (entry_copied hp').1
      have hvf : r.2 < (copied db).count .field := by unfold Valid at hv; rw [hr] at hv; exact hv
      have hre : ((K.field, r.2) : Ref) = r := by rw [← hr]
      refine ⟨hv, ⟨.field, .attributes, fun i => ((List.range ((copied db).count .field)).map fun i =>
        hashOf (fieldPath env (copied db) i)).getD i 0, allAttributes (copied db)⟩, ?_, hr.symm, hca, ?_, hm⟩
      · unfold attributeSteps; simp
      · simp only
        rw [List.getD_eq_getElem?_getD, List.getElem?_map, List.getElem?_range hvf]
        simp only [Option.map_some, Option.getD_some]
        rw [fieldPath_spec hu r.2 s (by rw [hre]; exact hs), hre, key p hp, he]

theorem not_both {db : DB.Database} {c r r' : Ref} (h : Records db c r) (h' : AttributeOf db c r') : False := by
  obtain ⟨s, hs⟩ := h.1
  exact (scopeTable_kinds _ hs).2.2 h'.1

theorem scopeFor_iff {env : Env} {fuel : Nat} {db : DB.Database} (h : Exportable env fuel db) (hu : Unambiguous db)
    (c r : Ref) : scopeFor env db c = some r ↔ Records db c r ∨ AttributeOf db c r := by
  have hc : ∀ r, Cand env (copied db) (allSteps env (copied db)) c r ↔ Records db c r ∨ AttributeOf db c r := by
    intro r
    rw [← cand_scope (env := env) c r, ← cand_attribute h hu c r]
    unfold Cand allSteps
    simp only [List.mem_append]
    constructor
    · rintro ⟨hv, d, hd | hd, x⟩
      · exact .inl ⟨hv, d, hd, x⟩
      · exact .inr ⟨hv, d, hd, x⟩
    · rintro (⟨hv, d, hd, x⟩ | ⟨hv, d, hd, x⟩)
      · exact ⟨hv, d, .inl hd, x⟩
      · exact ⟨hv, d, .inr hd, x⟩
  unfold scopeFor
  rw [owner_iff, hc]
  intro r r' h1 h2
  rcases (hc r).mp h1 with h1 | h1 <;> rcases (hc r').mp h2 with h2 | h2
  · exact hu.1 c r r' h1 h2
  · exact (not_both h1 h2).elim
  · exact (not_both h2 h1).elim
  · exact hu.2 c r r' h1 h2

theorem typeFor_iff {env : Env} {db : DB.Database} (c : Ref) (hc : c.1 = .field) (hv : Valid (copied db) c) :
    (typeFor env db c ≠ none ↔ ∃ t, HasType db c t) ∧ ∀ t, typeFor env db c = some t → HasType db c t := by
  obtain ⟨f, f1, _, f3⟩ := field_row hc hv
  have hmem : ∀ t, t ∈ (copied db).typePrims ↔ t.1 ∈ [K.type, .cls, .enum, .instance] ∧ Valid (copied db) t := by
    intro t
    have : (copied db).typePrims = (copied db).all .type ++ (copied db).all .cls ++ (copied db).all .enum ++ (copied db).all .instance := rfl
    rw [this]
    simp only [List.mem_append, mem_all, List.mem_cons, List.not_mem_nil, or_false]
    constructor
    · rintro (((h | h) | h) | h)
      · exact ⟨.inl h.1, h.2⟩
      · exact ⟨.inr (.inl h.1), h.2⟩
      · exact ⟨.inr (.inr (.inl h.1)), h.2⟩
      · exact ⟨.inr (.inr (.inr h.1)), h.2⟩
    · rintro ⟨h | h | h | h, hv⟩
      · exact .inl (.inl (.inl ⟨h, hv⟩))
      · exact .inl (.inl (.inr ⟨h, hv⟩))
      · exact .inl (.inr ⟨h, hv⟩)
      · exact .inr ⟨h, hv⟩
  have hnc : ∀ t : Ref, t.1 ∈ [K.type, .cls, .enum, .instance] → t.1 ≠ .container := by
    intro t ht e; rw [e] at ht; exact absurd ht (by decide)
  have hfind : ∀ t, typeFor env db c = some t → HasType db c t := by
    intro t ht
    unfold typeFor at ht
    have h1 := List.mem_of_find?_eq_some ht
    have h2 := List.find?_some ht
    obtain ⟨h3, h4⟩ := (hmem t).mp h1
    obtain ⟨q, hq⟩ := copied_entry h4 (hnc t h3)
    refine ⟨h3, f, q, f1, hq, ?_⟩
    simp only [beq_iff_eq] at h2
    rw [(entry_copied hq).2.2.1, f3, hash_ofHash] at h2
    exact h2.symm
  refine ⟨⟨?_, ?_⟩, hfind⟩
  · intro hne
    cases ht : typeFor env db c with
    | none => exact absurd ht hne
    | some t => exact ⟨t, hfind t ht⟩
  · rintro ⟨t, h1, f', q, f2, hq, he⟩ hnone
    unfold typeFor at hnone
    rw [List.find?_eq_none] at hnone
    have h2 := hnone t ((hmem t).mpr ⟨h1, (entry_copied hq).1⟩)
    rw [f1] at f2
    injection f2 with f2
    subst f2
    rw [(entry_copied hq).2.2.1, f3, hash_ofHash, he] at h2
    simp at h2

theorem kidsOf_scope (env : Env) (db : DB.Database) (pk : K) (slot : Slot) (ck : K) (hrow : (pk, slot, ck) ∈ scopeTable)
    (i : Nat) (hi : i < (copied db).count pk) (c : Ref) :
    c ∈ kidsOf env (copied db) (allSteps env (copied db)) (pk, i) slot ↔
      c.1 = ck ∧ Valid (copied db) c ∧ scopeFor env db c = some (pk, i) := by
  have hd : (allSteps env (copied db)).find? (fun d => d.pk == pk && d.slot == slot) =
      some (mkStep (copied db) (pk, slot, ck)) := by
    unfold allSteps scopeSteps hierarchy
    simp only [scopeTable, List.mem_cons, Prod.mk.injEq, List.not_mem_nil, or_false] at hrow
    rcases hrow with h | h | h | h | h | h | h | h | h | h | h | h | h | h <;>
      (obtain ⟨rfl, rfl, rfl⟩ := h; simp [mkStep])
  unfold kidsOf
  simp only
  rw [hd]
  simp only
  rw [if_pos hi, List.mem_filter, mkStep]
  simp only
  rw [mem_all]
  unfold scopeFor
  simp [and_assoc]

theorem kidsOf_attributes (env : Env) (db : DB.Database) (pk : K) (hk : pk ∈ [K.enum, .field, .function, .cls])
    (i : Nat) (hi : i < (copied db).count pk) (c : Ref) :
    c ∈ kidsOf env (copied db) (allSteps env (copied db)) (pk, i) .attributes ↔
      c.1 ∈ attributeKinds ∧ Valid (copied db) c ∧ scopeFor env db c = some (pk, i) := by
  have hd : ∃ d, (allSteps env (copied db)).find? (fun d => d.pk == pk && d.slot == .attributes) = some d ∧
      d.children = allAttributes (copied db) := by
    unfold allSteps scopeSteps hierarchy attributeSteps
    simp only [List.mem_cons, List.not_mem_nil, or_false] at hk
    rcases hk with rfl | rfl | rfl | rfl <;> exact ⟨_, rfl, rfl⟩
  obtain ⟨d, hd, hc⟩ := hd
  unfold kidsOf
  simp only
  rw [hd]
  simp only
  rw [if_pos hi, List.mem_filter, hc, mem_attributes]
  unfold scopeFor
  simp [and_assoc]

/-! ### The conditions of the specification -/

theorem tableSize_count (db : DB.Database) (k : K) : (copied db).count k = tableSize db k := by
  cases k <;> simp [copied, tableSize, rows, entries]

theorem known_text {db : DB.Database} {h : UInt32} (hk : Known db h) : textOf db h ≠ none := by
  obtain ⟨n, hn, e⟩ := hk
  unfold textOf
  intro h0
  rw [Option.map_eq_none_iff, List.find?_eq_none] at h0
  exact h0 n hn (by simp [e])

theorem container_row {db : DB.Database} {i : Nat} (hi : i < (copied db).count .container) :
    ∃ c ∈ db.containerInfos, ((copied db).get (.container, i)).hash = c.name.hash ∧
      ((copied db).get (.container, i)).text = textOf db c.name.hash ∧
      ((copied db).get (.container, i)).parent = .raw 0 ∧ ((copied db).get (.container, i)).type = .raw 0 := by
  have hl : i < db.containerInfos.length := by simpa [copied, rows] using hi
  refine ⟨db.containerInfos[i], List.getElem_mem hl, ?_⟩
  unfold copied
  simp only
  rw [List.getD_eq_getElem?_getD]
  simp [rows, hl]

theorem rows_type (db : DB.Database) (k : K) (hk : k ≠ .field) (o : Obj) (ho : o ∈ rows db k) : o.type = .raw 0 := by
  cases k <;> simp only [rows, List.mem_map, ne_eq, not_true_eq_false] at ho hk <;>
  · obtain ⟨p, _, rfl⟩ := ho
    rfl

theorem other_type {db : DB.Database} {r : Ref} (hr : r.1 ≠ .field) : ((copied db).get r).type = .raw 0 := by
  rcases copied_get db r with ⟨_, h⟩ | ⟨_, h⟩
  · exact rows_type db _ hr _ h
  · rw [h]

theorem known_key {db : DB.Database} {h : UInt32} (hk : Known db h) : h ∈ nameKeys db := by
  obtain ⟨n, hn, e⟩ := hk
  unfold nameKeys
  exact List.mem_append_left _ (List.mem_map.mpr ⟨n, hn, e⟩)

/-- The conditions of the specification are those the lemmas use. -/
theorem exportable_of {env : Env} {fuel : Nat} {db : DB.Database} (hw : WellFormed fuel db) (hu : Unambiguous db)
    (hl : LaidOut env db) : Exportable env fuel db := by
  have hkind : ∀ r, Valid (copied db) r → (∃ i, r = (.container, i) ∧ i < (copied db).count .container) ∨
      ∃ p, entry db r = some p := by
    rintro ⟨k, i⟩ hv
    by_cases hk : k = .container
    · subst hk; exact .inl ⟨i, rfl, hv⟩
    · exact .inr (copied_entry hv hk)
  have hkeys : ∀ h, h ∈ nameKeys db → Known db h := by
    intro h hh
    unfold nameKeys at hh
    rw [List.mem_append] at hh
    rcases hh with hh | hh
    · obtain ⟨n, hn, e⟩ := List.mem_map.mp hh
      exact ⟨n, hn, e⟩
    · obtain ⟨k, _, hk⟩ := List.mem_flatMap.mp hh
      obtain ⟨o, ho, e⟩ := List.mem_map.mp hk
      obtain ⟨i, hi, hoi⟩ := List.mem_iff_getElem.mp ho
      have hg : (copied db).get (k, i) = o := by
        show (rows db k).getD i {} = o
        rw [List.getD_eq_getElem?_getD, List.getElem?_eq_getElem hi]
        simpa using hoi
      rcases hkind (k, i) hi with ⟨j, hj, hjl⟩ | ⟨p, hp⟩
      · rw [hj] at hg
        obtain ⟨c, hc, h1, _⟩ := container_row hjl
        rw [hg] at h1
        rw [← e, h1]
        exact hw.containerNames c hc
      · have h1 := (entry_copied hp).2.2.1
        rw [hg] at h1
        rw [← e, h1]
        exact hw.names _ p hp
  have hsz : ∀ r : Ref, Valid (copied db) r → r.2 < tableSize db r.1 := by
    intro r hv
    rw [← tableSize_count]; exact hv
  refine
    { placement := ⟨hl.far, hl.stride, ?_⟩
      sort := hl.sort
      noAlias := fun r hv hm => hl.noAlias r (hsz r hv) (hkeys _ hm)
      noFieldAlias := ?_
      named := ?_
      knownParent := ?_
      knownType := ?_
      owned := ?_
      typesSize := ?_
      functionsSize := ?_
      acyclic := hw.acyclic }
  · intro r pk hv hne
    rw [tableSize_count]
    exact hl.apart r pk (hsz r hv) hne
  · intro i r hi hv
    obtain ⟨s, hs⟩ := hw.owned i (by simpa [copied, rows] using hi)
    rw [fieldPath_spec hu i s hs]
    exact hl.noFieldAlias r (hsz r hv) _ _ hs
  · intro r hv
    rcases hkind r hv with ⟨j, rfl, hjl⟩ | ⟨p, hp⟩
    · obtain ⟨c, hc, _, h2, _⟩ := container_row hjl
      rw [h2]; exact known_text (hw.containerNames c hc)
    · rw [(entry_copied hp).2.2.2.2]; exact known_text (hw.names r p hp)
  · intro r hv
    rcases hkind r hv with ⟨j, rfl, hjl⟩ | ⟨p, hp⟩
    · obtain ⟨c, hc, _, _, h2, _⟩ := container_row hjl
      exact .inl h2
    · rw [(entry_copied hp).2.2.2.1]
      rcases hw.parents r p hp with h | h
      · left; rw [h]; rfl
      · right; rw [hash_ofHash]; exact known_key h
  · intro r hv
    by_cases hf : r.1 = .field
    · obtain ⟨f, f1, _, f3⟩ := field_row hf hv
      rw [f3]
      rcases hw.types f (List.mem_of_getElem? f1) with h | h
      · left; rw [h]; rfl
      · right; rw [hash_ofHash]; exact known_key h
    · exact .inl (other_type hf)
  · intro i hi
    obtain ⟨s, hs⟩ := hw.owned i (by simpa [copied, rows] using hi)
    exact ⟨s, (scope_owner hu _ s).mpr hs⟩
  · have := hw.fewTypes
    simpa [copied, rows, Nat.add_assoc] using this
  · simpa [copied, rows] using hw.fewFunctions

theorem Ready.exportable {env : Env} {fuel : Nat} {db : DB.Database} (h : Ready env fuel db) : Exportable env fuel db :=
  exportable_of h.wellFormed h.unambiguous h.laidOut

end Clr.Export
