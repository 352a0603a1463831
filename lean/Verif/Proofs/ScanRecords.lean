import Verif.Proofs.ScanStore
import Verif.Props.ScanRecordsSpec
/-!
The database of a scanned translation unit says what is declared, entry by entry.
-/
namespace Clr.ScanStore
open Clr.DB Clr.Build Clr.Merge
open Clr.ScanUnit (Item St Has Uses classOf namespaceOf Scanned Each Block Says Cls firsts)
open Clr.ScanTypes (Declares HasName)

attribute [local irreducible] hashOf

theorem sameOp (o : Hash.Op) : SameOp o (opOf o) := by cases o <;> constructor

theorem sameOp_iff {o : Hash.Op} {q : QualOp} : SameOp o q ↔ q = opOf o := by
  constructor
  · rintro ⟨⟩ <;> rfl
  · rintro rfl; exact sameOp o

theorem sameTag_iff {t : ScanTypes.EnumTag} {c : Scoped} : SameTag t c ↔ c = scopeOf (ScanUnit.tagOf t) := by
  constructor
  · rintro ⟨⟩ <;> rfl
  · rintro rfl
    obtain ⟨a, b⟩ := t
    cases a <;> cases b <;> constructor

theorem written_field {f : ScanTypes.Field} {e : Field} : FieldWritten f e ↔ e = fieldEntry f := by
  constructor
  · rintro ⟨h1, h2, h3, h4, h5, h6, h7⟩
    replace h4 := sameOp_iff.1 h4
    obtain ⟨⟨n, p⟩, ty, ⟨op, c⟩, off, ⟨uid⟩⟩ := e
    simp only at h1 h2 h3 h4 h5 h6 h7
    subst h1 h2 h3 h4 h5 h6 h7
    rfl
  · rintro rfl
    exact ⟨rfl, rfl, rfl, sameOp _, rfl, rfl, rfl⟩

theorem written_function {f : ScanTypes.Function} {e : Function} : FunctionWritten f e ↔ e = functionEntry f := by
  constructor
  · rintro ⟨h1, h2, h3, h4⟩
    obtain ⟨⟨n, p⟩, ⟨uid⟩, ad⟩ := e
    simp only at h1 h2 h3 h4
    subst h1 h2 h3 h4
    rfl
  · rintro rfl
    exact ⟨rfl, rfl, rfl, rfl⟩

/-- The attribute as an entry. -/
def attrEntry : Tools.Attr → Entry
  | .flag x => .flagAttribute x
  | .int x => .intAttribute x
  | .float x => .floatAttribute x
  | .prim x => .primitiveAttribute x
  | .text x => .textAttribute x

theorem attrEntry_in (d : Database) (e : Tools.Attr) : e.In d ↔ d.Has (attrEntry e) := by cases e <;> rfl

theorem attrEntry_table (e : Tools.Attr) : isTable (attrEntry e).kind = true := by cases e <;> rfl

/-- The attribute that the scanner adds. -/
def attrOf (r : Scan.Rec) : Tools.Attr :=
  match r.attr.val with
  | .flag => .flag { name := nameOf r.attr.name, parent := nameOf r.parent }
  | .int v => .int { name := nameOf r.attr.name, parent := nameOf r.parent, value := v }
  | .float b => .float { name := nameOf r.attr.name, parent := nameOf r.parent, bits := b }
  | .prim s => .prim { name := nameOf r.attr.name, parent := nameOf r.parent, value := nameOf s }
  | .text t => .text { name := nameOf r.attr.name, parent := nameOf r.parent, value := t }

theorem attrOf_entry (r : Scan.Rec) : attrEntry (attrOf r) = attributeEntry r := by
  obtain ⟨p, n, v⟩ := r
  cases v <;> rfl

theorem attrOf_written (r : Scan.Rec) : AttributeWritten r.parent r.attr (attrOf r) := by
  obtain ⟨p, n, v⟩ := r
  cases v <;> exact ⟨rfl, rfl, by trivial⟩

theorem attr_primitive {s : St} (e : Tools.Attr) (h : attrEntry e ∈ primitives s) : ∃ r ∈ s.attrs, e = attrOf r := by
  unfold primitives at h
  simp only [List.mem_append, List.mem_map] at h
  have last : (∃ r ∈ s.attrs, attributeEntry r = attrEntry e) := by
    rcases h with (((((((h | h) | h) | h) | h) | h) | h) | h) | h
    all_goals first
      | exact h
      | (obtain ⟨_, _, h⟩ := h; cases e <;> cases h)
  obtain ⟨r, hr, h⟩ := last
  refine ⟨r, hr, ?_⟩
  rw [← attrOf_entry] at h
  revert h
  cases attrOf r <;> cases e <;> intro h <;> cases h <;> rfl

/-- The part of a search in an ordered table. -/
theorem find_mem {α : Type} {key : α → UInt32} {k : UInt32} {l : List α} {x : α} (h : findBy key k l = some x) : x ∈ l ∧ key x = k :=
  findBy_some h

theorem findBy_none_mem {α : Type} {key : α → UInt32} {k : UInt32} {l : List α} (h : findBy key k l = none) : ∀ x ∈ l, key x ≠ k := by
  intro x hx e
  have := List.find?_eq_none.mp h x hx
  simp [e] at this

theorem inheritances_append' (a b : List Call) : inheritances (a ++ b) = inheritances a ++ inheritances b := List.filterMap_append ..

theorem no_inheritances_base (l : List (Bytes × UInt64)) : inheritances (ScanTool.baseCalls l) = [] := by
  induction l with
  | nil => rfl
  | cons p l ih => rw [ScanTool.baseCalls_cons, inheritances_append', ih]; rfl

theorem no_inheritances_containers (l : List (Bytes × ScanTool.Cont)) : inheritances (ScanTool.containerCalls l) = [] := by
  induction l with
  | nil => rfl
  | cons p l ih => exact ih

theorem records_of {env : ScanTypes.Env} {fuel : Nat} {texts : List Bytes} {ds : ScanUnit.Forest Item} {L : ScanUnit.Forest ScanUnit.Marked} {s : St}
    (hs : Scanned env fuel texts ds L s) {cs : List Call} (ht : Told s cs) {l : List (Bytes × ScanTool.Cont)} {d : Database}
    (hr : run {} (ScanTool.baseCalls baseTypes ++ cs ++ ScanTool.containerCalls l) = .ok d)
    (hcs : containers (ScanTool.baseCalls baseTypes ++ cs ++ ScanTool.containerCalls l) = l.map fun e => ScanTool.info e.1 e.2)
    {conts : List (Bytes × ScanTool.Cont)} (hl : ∀ e ∈ l, e ∈ conts) :
    Records env texts (ScanUnit.recorded texts L) ((ScanUnit.reached texts L).map fun x => (x.1, x.2.1)) (L.listing.map fun x => x.2.1) conts d := by
  obtain ⟨bs, hb, hfn, hfd, hen, hco⟩ := hs.blocks
  obtain ⟨b1, b2⟩ := each_mem hb
  have key := has_iff ht hr
  have nobase : ∀ e : Entry, e.kind ≠ .type → e ∉ baseEntries := by
    intro e hk h
    obtain ⟨b, _, rfl⟩ := (base_mem _).1 h
    exact hk rfl
  have prims : ∀ e : Entry, isTable e.kind = true → e.kind ≠ .type → (d.Has e ↔ e ∈ primitives s) := by
    intro e h1 h2
    rw [key e h1]
    exact ⟨fun h => h.resolve_left (nobase e h2), .inr⟩
  refine ⟨?_, ?_, ?_, ?_, ?_, ?_, ⟨bs, hb, ?_, ?_, ?_⟩, ?_, ?_, ?_, ?_, ?_⟩
  · intro e
    have : e ∈ d.types ↔ d.Has (.type e) := Iff.rfl
    rw [this, key _ rfl]
    constructor
    · rintro (h | h)
      · obtain ⟨b, hb, h⟩ := (base_mem _).1 h
        injection h with h
        subst h
        obtain ⟨c, hc, h1, h2⟩ := base_builtIn b hb
        exact ⟨c, hc, by rw [h1], rfl, h2⟩
      · rw [mem_primitives _ (by simp [Entry.kind])] at h
        simp at h
    · rintro ⟨b, hb, h1, h2, h3⟩
      refine .inl ((base_mem _).2 ⟨_, builtIn_base b hb, ?_⟩)
      obtain ⟨⟨n, p⟩, z⟩ := e
      simp only at h1 h2 h3
      subst h1 h2 h3
      rfl
  · intro e
    have : e ∈ d.enums ↔ d.Has (.enum e) := Iff.rfl
    rw [this, prims _ rfl (by simp [Entry.kind]), mem_primitives _ (by simp [Entry.kind])]
    simp only [reduceCtorEq, and_false, exists_false, or_false, false_or, Entry.enum.injEq]
    rw [hen]
    constructor
    · rintro ⟨c, hc, rfl⟩
      obtain ⟨b, hb, hc⟩ := List.mem_flatMap.1 hc
      obtain ⟨x, hx, hsay⟩ := b2 b hb
      obtain ⟨tag, cs', hw, rfl⟩ := ((says_entries hsay).enums c).1 hc
      exact ⟨x, hx, tag, cs', hw, rfl, rfl, rfl, sameTag_iff.2 rfl⟩
    · rintro ⟨x, hx, tag, cs', hw, h1, h2, h3, h4⟩
      obtain ⟨b, hb, hsay⟩ := b1 x hx
      refine ⟨⟨x.2.name, x.1, ScanUnit.tagOf tag⟩, List.mem_flatMap.2 ⟨b, hb, ((says_entries hsay).enums _).2 ⟨tag, cs', hw, rfl⟩⟩, ?_⟩
      replace h4 := sameTag_iff.1 h4
      obtain ⟨⟨⟨n, p⟩, z⟩, sc⟩ := e
      simp only at h1 h2 h3 h4
      subst h1 h2 h3 h4
      rfl
  · intro e
    have : e ∈ d.namespaces ↔ d.Has (.namespace e) := Iff.rfl
    rw [this, prims _ rfl (by simp [Entry.kind]), mem_primitives _ (by simp [Entry.kind])]
    simp only [reduceCtorEq, and_false, exists_false, or_false, Entry.namespace.injEq]
    rw [← hs.namespaces]
    constructor
    · rintro ⟨c, hc, rfl⟩
      exact ⟨c, hc, rfl, rfl⟩
    · rintro ⟨c, hc, h1, h2⟩
      refine ⟨c, hc, ?_⟩
      obtain ⟨n, p⟩ := e
      simp only at h1 h2
      subst h1 h2
      rfl
  · intro e
    have : e ∈ d.templates ↔ d.Has (.template e) := Iff.rfl
    rw [this, prims _ rfl (by simp [Entry.kind]), mem_primitives _ (by simp [Entry.kind])]
    simp only [reduceCtorEq, and_false, exists_false, or_false, false_or, Entry.template.injEq]
    rw [← hs.templates]
    constructor
    · rintro ⟨c, hc, rfl⟩
      exact ⟨c, hc, rfl, rfl⟩
    · rintro ⟨c, hc, h1, h2⟩
      refine ⟨c, hc, ?_⟩
      obtain ⟨n, p⟩ := e
      simp only at h1 h2
      subst h1 h2
      rfl
  · intro e
    have : e ∈ d.classes ↔ d.Has (.cls e) := Iff.rfl
    rw [this, prims _ rfl (by simp [Entry.kind]), mem_primitives _ (by simp [Entry.kind])]
    simp only [reduceCtorEq, and_false, exists_false, or_false, false_or, Entry.cls.injEq]
    rw [← hs.classes]
    constructor
    · rintro ⟨c, hc, rfl⟩
      refine ⟨_, List.mem_map.2 ⟨c, hc, rfl⟩, rfl, rfl, rfl, ?_⟩
      show UInt64.ofNat c.size = _
      rw [hs.sizes c hc]
    · rintro ⟨c, hc, h1, h2, h3, h4⟩
      obtain ⟨c, hc', rfl⟩ := List.mem_map.1 hc
      refine ⟨c, hc', ?_⟩
      rw [← hs.sizes c hc'] at h4
      obtain ⟨⟨⟨n, p⟩, z⟩, i⟩ := e
      simp only at h1 h2 h3 h4
      subst h1 h2 h3 h4
      rfl
  · intro e he
    have : e ∈ d.templateTypes ↔ d.Has (.templateType e) := Iff.rfl
    rw [this, prims _ rfl (by simp [Entry.kind]), mem_primitives _ (by simp [Entry.kind])] at he
    simp only [reduceCtorEq, and_false, exists_false, or_false, false_or, Entry.templateType.injEq] at he
    obtain ⟨c, hc, rfl⟩ := he
    obtain ⟨id, hid⟩ := hs.instances c hc
    refine ⟨id, ⟨c.name, hid.name, rfl⟩, ?_, ?_, c.params, hid.params, ?_⟩
    · show nameOf c.parent = _; rw [hid.parent]
    · show ((UInt32.ofNat c.size).toUInt64).toNat = _
      rw [hid.size, UInt32.toNat_toUInt64, UInt32.toNat_ofNat']
    · have arg : ∀ k, (∀ q, c.params[k]? = some q → (argEntry c.params k).type = nameOf q.1 ∧ (argEntry c.params k).ptr = q.2) ∧
          (c.params[k]? = none → argEntry c.params k = {}) := by
        intro k
        unfold argEntry
        constructor
        · intro q hq; rw [hq]; exact ⟨rfl, rfl⟩
        · intro hq; rw [hq]
      intro k a hk
      match k, hk with
      | 0, hk => cases hk; exact arg 0
      | 1, hk => cases hk; exact arg 1
      | 2, hk => cases hk; exact arg 2
      | 3, hk => cases hk; exact arg 3
  · intro e
    have : e ∈ d.functions ↔ d.Has (.function e) := Iff.rfl
    rw [this, prims _ rfl (by simp [Entry.kind]), mem_primitives _ (by simp [Entry.kind])]
    simp only [reduceCtorEq, and_false, exists_false, or_false, false_or, Entry.function.injEq]
    rw [hfn]
    constructor
    · rintro ⟨f, hf, rfl⟩
      obtain ⟨b, hb, hf⟩ := List.mem_flatMap.1 hf
      exact ⟨b, hb, f, hf, written_function.2 rfl⟩
    · rintro ⟨b, hb, f, hf, hw⟩
      exact ⟨f, List.mem_flatMap.2 ⟨b, hb, hf⟩, written_function.1 hw⟩
  · intro e
    have : e ∈ d.fields ↔ d.Has (.field e) := Iff.rfl
    rw [this, prims _ rfl (by simp [Entry.kind]), mem_primitives _ (by simp [Entry.kind])]
    simp only [reduceCtorEq, and_false, exists_false, false_or, Entry.field.injEq]
    rw [hfd]
    constructor
    · rintro ⟨f, hf, rfl⟩
      obtain ⟨b, hb, hf⟩ := List.mem_flatMap.1 hf
      exact ⟨b, hb, f, hf, written_field.2 rfl⟩
    · rintro ⟨b, hb, f, hf, hw⟩
      exact ⟨f, List.mem_flatMap.2 ⟨b, hb, hf⟩, written_field.1 hw⟩
  · intro e
    have : e ∈ d.enumConstants ↔ d.Has (.enumConstant e) := Iff.rfl
    rw [this, prims _ rfl (by simp [Entry.kind]), mem_primitives _ (by simp [Entry.kind])]
    simp only [reduceCtorEq, and_false, exists_false, or_false, false_or, Entry.enumConstant.injEq]
    rw [hco]
    constructor
    · rintro ⟨f, hf, rfl⟩
      obtain ⟨b, hb, hf⟩ := List.mem_flatMap.1 hf
      exact ⟨b, hb, f, hf, rfl, rfl, rfl⟩
    · rintro ⟨b, hb, f, hf, h1, h2, h3⟩
      refine ⟨f, List.mem_flatMap.2 ⟨b, hb, hf⟩, ?_⟩
      obtain ⟨⟨n, p⟩, v⟩ := e
      simp only at h1 h2 h3
      subst h1 h2 h3
      rfl
  · intro x hx hrec a ha hw
    obtain ⟨y, hy, rfl⟩ := List.mem_map.1 hx
    have := hs.attributes y hy hrec a ha hw
    refine ⟨attrOf ⟨y.2.1.name, a⟩, ?_, attrOf_written ⟨y.2.1.name, a⟩⟩
    rw [attrEntry_in, prims _ (attrEntry_table _) (by cases attrOf ⟨y.2.1.name, a⟩ <;> simp [attrEntry, Entry.kind]), attrOf_entry]
    unfold primitives
    exact List.mem_append.2 (.inr (List.mem_map.2 ⟨_, this, rfl⟩))
  · intro e he
    rw [attrEntry_in, prims _ (attrEntry_table _) (by cases e <;> simp [attrEntry, Entry.kind])] at he
    obtain ⟨r, hr, rfl⟩ := attr_primitive e he
    obtain ⟨x, hx, h1, h2⟩ := hs.written r hr
    refine ⟨x.2.1, List.mem_map.2 ⟨x, hx, rfl⟩, r.attr, h2, ?_⟩
    rw [← h1]
    exact attrOf_written r
  · have hi : inheritances (ScanTool.baseCalls baseTypes ++ cs ++ ScanTool.containerCalls l) = s.data.db.inherits.map baseEntry := by
      rw [inheritances_append', inheritances_append', no_inheritances_base, no_inheritances_containers, ht.bases]
      simp
    refine ⟨s.data.db.inherits, ?_, ?_, ?_, ?_⟩
    · intro x hx isClass freeStanding anonymous vbases bases size hw b hb
      obtain ⟨c, u, y, h1, h2, h3, _⟩ := hs.bases x hx isClass freeStanding anonymous vbases bases size hw b hb
      exact ⟨c, u, y, h1, h2, h3⟩
    · intro r hr
      rcases hs.onlyBases r hr with ⟨x, hx, h1, h2⟩ | h
      · exact .inl ⟨(x.1, x.2.1), List.mem_map.2 ⟨x, hx, rfl⟩, h1, h2⟩
      · exact .inr h
    · intro t hti
      obtain ⟨_, _, h3, h4⟩ := C74_last_counts _ d hr
      have h5 := h3 t.name.hash
      cases hf : findBy (fun c : TypeInheritance => c.name.hash) t.name.hash d.inheritances with
      | none => exact absurd rfl (findBy_none_mem hf t hti)
      | some t' =>
        obtain ⟨m1, m2⟩ := find_mem hf
        have e : t' = t := by
          obtain ⟨i, hi⟩ := List.mem_iff_getElem.1 hti
          obtain ⟨j, hj⟩ := List.mem_iff_getElem.1 m1
          obtain ⟨hi1, rfl⟩ := hi
          obtain ⟨hj1, rfl⟩ := hj
          have hp := List.pairwise_iff_getElem.1 h4
          rcases Nat.lt_trichotomy i j with h | h | h
          · have := hp i j hi1 hj1 h
            rw [m2] at this
            exact absurd this (by simp)
          · subst h; rfl
          · have := hp j i hj1 hi1 h
            rw [m2] at this
            exact absurd this (by simp)
        subst e
        rw [hf, hi] at h5
        have hm := lastOf_mem h5.symm
        obtain ⟨r, hr', rfl⟩ := List.mem_map.1 hm
        exact ⟨r, hr', rfl, rfl⟩
    · intro r hrm hu
      refine ⟨baseEntry r, C74_inheritance_kept _ d hr _ (by rw [hi]; exact List.mem_map.2 ⟨r, hrm, rfl⟩) ?_, rfl, rfl⟩
      rw [hi]
      intro t' ht' e
      obtain ⟨r', hr', rfl⟩ := List.mem_map.1 ht'
      rw [hu r' hr' ?_]
      have hh : ∀ t : Bytes, (nameOf t).hash = hashOf t := by
        intro t; unfold nameOf; split
        · rename_i h; exact h.symm
        · rfl
      have e : (nameOf (baseText r')).hash = (nameOf (baseText r)).hash := e
      rw [hh, hh] at e
      exact e
  · intro x hx parent name t hh j hj hc
    have hm := hs.arrays x hx parent name t hh j hj hc
    have ha : arrays (ScanTool.baseCalls baseTypes ++ cs ++ ScanTool.containerCalls l) = s.data.db.containers.map arrayEntry := by
      have : ∀ l, arrays (ScanTool.containerCalls l) = [] := by
        intro l
        induction l with
        | nil => rfl
        | cons e l ih => exact ih
      have hb : arrays (ScanTool.baseCalls baseTypes) = [] := by
        unfold arrays
        rw [added_base, List.filterMap_map]
        apply List.filterMap_eq_nil_iff.2
        intro a _
        rfl
      rw [arrays_append, arrays_append, this, hb, ht.arrays]
      simp
    have h1 := (C74_last_counts _ d hr).1 (nameOf (parent ++ b!"::" ++ name)).hash
    cases hf : findBy (fun c : ContainerInfo => c.name.hash) (nameOf (parent ++ b!"::" ++ name)).hash d.containerInfos with
    | some e => obtain ⟨m1, m2⟩ := find_mem hf; exact ⟨e, m1, m2⟩
    | none =>
      exfalso
      rw [hf, ha] at h1
      have h2 := (Option.or_eq_none_iff.1 h1.symm).2
      exact findBy_none_mem h2 _ (List.mem_map.2 ⟨_, hm, rfl⟩) rfl
  · intro e he
    have ha : arrays (ScanTool.baseCalls baseTypes ++ cs ++ ScanTool.containerCalls l) = s.data.db.containers.map arrayEntry := by
      have : ∀ l, arrays (ScanTool.containerCalls l) = [] := by
        intro l
        induction l with
        | nil => rfl
        | cons e l ih => exact ih
      have hb : arrays (ScanTool.baseCalls baseTypes) = [] := by
        unfold arrays
        rw [added_base, List.filterMap_map]
        apply List.filterMap_eq_nil_iff.2
        intro a _
        rfl
      rw [arrays_append, arrays_append, this, hb, ht.arrays]
      simp
    obtain ⟨h3, h4, _⟩ := C74_last_counts _ d hr
    have h5 := h3 e.name.hash
    have hf : findBy (fun c : ContainerInfo => c.name.hash) e.name.hash d.containerInfos = some e := by
      cases hf : findBy (fun c : ContainerInfo => c.name.hash) e.name.hash d.containerInfos with
      | none => exact absurd rfl (findBy_none_mem hf e he)
      | some t' =>
        obtain ⟨m1, m2⟩ := find_mem hf
        obtain ⟨i, hi1, rfl⟩ := List.mem_iff_getElem.1 he
        obtain ⟨j, hj1, rfl⟩ := List.mem_iff_getElem.1 m1
        have hp := List.pairwise_iff_getElem.1 h4
        rcases Nat.lt_trichotomy i j with h | h | h
        · have := hp i j hi1 hj1 h
          rw [m2] at this
          exact absurd this (by simp)
        · subst h; rfl
        · have := hp j i hj1 hi1 h
          rw [m2] at this
          exact absurd this (by simp)
    rw [hf, ha, hcs] at h5
    rcases Option.or_eq_some_iff.1 h5.symm with h | ⟨_, h⟩
    · obtain ⟨c, hc, rfl⟩ := List.mem_map.1 (lastOf_mem h)
      exact .inl ⟨c, hl c hc, rfl⟩
    · right
      obtain ⟨c, hc, rfl⟩ := List.mem_map.1 (find_mem h).1
      obtain ⟨x, hx, parent, name, t, j, h1, h2, h3, rfl⟩ := hs.noOthers c hc
      exact ⟨(x.1, x.2.1), List.mem_map.2 ⟨x, hx, rfl⟩, parent, name, t, j, h1, h2, h3, rfl⟩

end Clr.ScanStore
