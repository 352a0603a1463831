import Verif.Proofs.Merge
/-!
Properties C05 (name interning), C06-C09 (merging) and C57 (merge order).
-/
namespace Clr.Merge
open Clr.DB
attribute [local irreducible] hashOf

/-! ### C05 -/

/-- The text of the `i`-th interning call. -/
theorem internAll_spec (names : List Name) (ts : List (Option Bytes)) (ns names' : List Name)
    (h : internAll names ts = .ok (ns, names')) :
    ns.length = ts.length ∧
    (∀ k m, findBy Name.hash k names = some m → findBy Name.hash k names' = some m) ∧
    (∀ (i : Nat) (t : Bytes) (n : Name), ts[i]? = some (some t) → ns[i]? = some n → hashOf t ≠ 0 →
      n = ⟨hashOf t, t⟩ ∧ findBy Name.hash (hashOf t) names' = some n) ∧
    (∀ (i : Nat) (t : Option Bytes) (n : Name), ts[i]? = some t → ns[i]? = some n →
      (t = none ∨ ∃ x, t = some x ∧ hashOf x = 0) → n = {}) ∧
    (∀ m ∈ names', m ∈ names ∨ (some m.text ∈ ts ∧ m.hash = hashOf m.text ∧ m.hash ≠ 0)) := by
  induction ts generalizing names ns with
  | nil =>
    simp only [internAll, Res.ok.injEq, Prod.mk.injEq] at h
    obtain ⟨rfl, rfl⟩ := h
    exact ⟨rfl, fun _ _ h => h, by simp, by simp, fun m hm => .inl hm⟩
  | cons t ts ih =>
    rw [internAll, Res.bind_eq_ok] at h
    obtain ⟨⟨n, d1⟩, h1, h⟩ := h
    simp only [Res.bind_eq_ok] at h
    obtain ⟨⟨ns', d2⟩, h2, h3⟩ := h
    simp only [Res.pure_eq, Res.ok.injEq, Prod.mk.injEq] at h3
    obtain ⟨rfl, rfl⟩ := h3
    obtain ⟨i1, i2, i3, i4, i5⟩ := ih d1 ns' h2
    refine ⟨by simp [i1], fun k m hk => i2 k m (getName_find h1 k m hk), ?_, ?_, ?_⟩
    · intro i x m hx hm h0
      cases i with
      | zero =>
        simp only [List.getElem?_cons_zero, Option.some.injEq] at hx hm
        subst hx; subst hm
        obtain ⟨f1, f2, f3⟩ := getName_found h1 h0
        refine ⟨?_, i2 _ _ f1⟩
        cases n; simp_all
      | succ i => exact i3 i x m hx hm h0
    · intro i x m hx hm hz
      cases i with
      | zero =>
        simp only [List.getElem?_cons_zero, Option.some.injEq] at hx hm
        subst hx; subst hm
        rcases getName_ok h1 with ⟨hn, _, _⟩ | ⟨y, hy, h0, _⟩
        · exact hn
        · rcases hz with hz | ⟨x, hx, hz⟩
          · rw [hz] at hy; cases hy
          · rw [hx] at hy; injection hy with hy; rw [hy] at hz; exact absurd hz h0
      | succ i => exact i4 i x m hx hm hz
    · intro m hm
      rcases i5 m hm with hm | ⟨hm, hh⟩
      · rcases getName_ok h1 with ⟨_, rfl, _⟩ | ⟨y, hy, h0, _, ⟨_, rfl⟩ | ⟨rfl, hn, rfl⟩⟩
        · exact .inl hm
        · exact .inl hm
        · rcases (mem_insertBy _ _ _).mp hm with rfl | hm
          · exact .inr ⟨by simp [hy], rfl, h0⟩
          · exact .inl hm
      · exact .inr ⟨by simp [hm], hh⟩

/-- C05: whatever the history of interning calls on an empty database, if no collision was reported then
every name returned for a text with non-zero hash carries exactly that text and can still be looked up by
its hash at the end. -/
theorem C05_interning_is_stable (ts : List (Option Bytes)) (ns names : List Name)
    (h : internAll [] ts = .ok (ns, names)) (i : Nat) (t : Bytes) (n : Name)
    (ht : ts[i]? = some (some t)) (hn : ns[i]? = some n) (h0 : hashOf t ≠ 0) :
    n.text = t ∧ n.hash = hashOf t ∧ getNameByHash names n.hash = n := by
  obtain ⟨_, _, h3, _⟩ := internAll_spec [] ts ns names h
  obtain ⟨rfl, hf⟩ := h3 i t n ht hn h0
  refine ⟨rfl, rfl, ?_⟩
  unfold getNameByHash
  simp only
  rw [hf]; rfl

/-- C05: interning the same text twice, whatever happens in between, returns the same name. -/
theorem C05_same_text_same_name (ts : List (Option Bytes)) (ns names : List Name)
    (h : internAll [] ts = .ok (ns, names)) (i j : Nat) (t : Option Bytes) (n m : Name)
    (hi : ts[i]? = some t) (hj : ts[j]? = some t) (hn : ns[i]? = some n) (hm : ns[j]? = some m) : n = m := by
  obtain ⟨_, _, h3, h4, _⟩ := internAll_spec [] ts ns names h
  by_cases hz : t = none ∨ ∃ x, t = some x ∧ hashOf x = 0
  · rw [h4 i t n hi hn hz, h4 j t m hj hm hz]
  · cases t with
    | none => exact absurd (.inl rfl) hz
    | some x =>
      have h0 : hashOf x ≠ 0 := fun h0 => hz (.inr ⟨x, rfl, h0⟩)
      rw [(h3 i x n hi hn h0).1, (h3 j x m hj hm h0).1]

/-- C05: two texts with the same hash cannot both be interned without the collision being reported, so
names returned for different texts have different hashes. -/
theorem C05_different_text_different_name (ts : List (Option Bytes)) (ns names : List Name)
    (h : internAll [] ts = .ok (ns, names)) (i j : Nat) (s t : Bytes) (n m : Name)
    (hi : ts[i]? = some (some s)) (hj : ts[j]? = some (some t)) (hn : ns[i]? = some n) (hm : ns[j]? = some m)
    (h0 : hashOf s ≠ 0) (h1 : hashOf t ≠ 0) (hst : s ≠ t) : n.hash ≠ m.hash := by
  obtain ⟨_, _, h3, _⟩ := internAll_spec [] ts ns names h
  obtain ⟨rfl, f1⟩ := h3 i s n hi hn h0
  obtain ⟨rfl, f2⟩ := h3 j t m hj hm h1
  intro he
  simp only at he
  rw [he, f2] at f1
  injection f1 with f1
  exact hst (by injection f1 with _ h; exact h.symm)

/-- The empty text hashes to zero. -/
theorem hashOf_empty : hashOf [] = 0 := by decide +kernel

/-- C05: the null pointer and the empty text give the empty name and are never stored; every stored name
is one of the texts interned, under its own hash. -/
theorem C05_empty_never_stored (ts : List (Option Bytes)) (ns names : List Name)
    (h : internAll [] ts = .ok (ns, names)) :
    (∀ (i : Nat) (n : Name), (ts[i]? = some none ∨ ts[i]? = some (some [])) → ns[i]? = some n → n = {}) ∧
    (∀ m ∈ names, m.text ≠ [] ∧ m.hash ≠ 0 ∧ m.hash = hashOf m.text ∧ some m.text ∈ ts) := by
  obtain ⟨_, _, _, h4, h5⟩ := internAll_spec [] ts ns names h
  constructor
  · intro i n hi hn
    rcases hi with hi | hi
    · exact h4 i _ n hi hn (.inl rfl)
    · exact h4 i _ n hi hn (.inr ⟨[], rfl, hashOf_empty⟩)
  · intro m hm
    rcases h5 m hm with hm | ⟨hm, hh, h0⟩
    · simp at hm
    · refine ⟨?_, h0, hh, hm⟩
      intro he
      rw [he, hashOf_empty] at hh
      exact h0 hh

/-- Non-vacuity: a history with a repetition, the empty text and null. -/
example : internAll [] [some b!"ab", some b!"cd", none, some [], some b!"ab"] =
    .ok ([⟨hashOf b!"ab", b!"ab"⟩, ⟨hashOf b!"cd", b!"cd"⟩, {}, {}, ⟨hashOf b!"ab", b!"ab"⟩],
      [⟨hashOf b!"ab", b!"ab"⟩, ⟨hashOf b!"cd", b!"cd"⟩]) ∨
    internAll [] [some b!"ab", some b!"cd", none, some [], some b!"ab"] =
    .ok ([⟨hashOf b!"ab", b!"ab"⟩, ⟨hashOf b!"cd", b!"cd"⟩, {}, {}, ⟨hashOf b!"ab", b!"ab"⟩],
      [⟨hashOf b!"cd", b!"cd"⟩, ⟨hashOf b!"ab", b!"ab"⟩]) := by
  decide +kernel

/-! ### What a database contains -/

/-- One entry of a database, of any kind. -/
inductive Entry where
  | namespace (x : Namespace)
  | type (x : Ty)
  | enum (x : Enum)
  | template (x : Template)
  | templateType (x : TemplateType)
  | cls (x : Class)
  | containerInfo (x : ContainerInfo)
  | inheritance (x : TypeInheritance)
  | enumConstant (x : EnumConstant)
  | function (x : Function)
  | field (x : Field)
  | flagAttribute (x : FlagAttribute)
  | intAttribute (x : IntAttribute)
  | floatAttribute (x : FloatAttribute)
  | primitiveAttribute (x : PrimitiveAttribute)
  | textAttribute (x : TextAttribute)
deriving DecidableEq

/-- The entry is in the database. -/
def _root_.Clr.DB.Database.Has (db : Database) : Entry → Prop
  | .namespace x => x ∈ db.namespaces
  | .type x => x ∈ db.types
  | .enum x => x ∈ db.enums
  | .template x => x ∈ db.templates
  | .templateType x => x ∈ db.templateTypes
  | .cls x => x ∈ db.classes
  | .containerInfo x => x ∈ db.containerInfos
  | .inheritance x => x ∈ db.inheritances
  | .enumConstant x => x ∈ db.enumConstants
  | .function x => x ∈ db.functions
  | .field x => x ∈ db.fields
  | .flagAttribute x => x ∈ db.flagAttributes
  | .intAttribute x => x ∈ db.intAttributes
  | .floatAttribute x => x ∈ db.floatAttributes
  | .primitiveAttribute x => x ∈ db.primitiveAttributes
  | .textAttribute x => x ∈ db.textAttributes

/-- The kinds of entries. -/
inductive EKind where
  | namespace | type | enum | template | templateType | cls | containerInfo | inheritance
  | enumConstant | function | field | flagAttribute | intAttribute | floatAttribute
  | primitiveAttribute | textAttribute
deriving DecidableEq

def Entry.kind : Entry → EKind
  | .namespace _ => .namespace
  | .type _ => .type
  | .enum _ => .enum
  | .template _ => .template
  | .templateType _ => .templateType
  | .cls _ => .cls
  | .containerInfo _ => .containerInfo
  | .inheritance _ => .inheritance
  | .enumConstant _ => .enumConstant
  | .function _ => .function
  | .field _ => .field
  | .flagAttribute _ => .flagAttribute
  | .intAttribute _ => .intAttribute
  | .floatAttribute _ => .floatAttribute
  | .primitiveAttribute _ => .primitiveAttribute
  | .textAttribute _ => .textAttribute

/-- Symbols of these kinds can be overloaded. -/
def EKind.overloadable : EKind → Bool
  | .enumConstant | .function | .field | .flagAttribute | .intAttribute | .floatAttribute
  | .primitiveAttribute | .textAttribute => true
  | _ => false

/-- The name of an entry. -/
def Entry.name : Entry → Name
  | .namespace x => x.name
  | .type x => x.name
  | .enum x => x.name
  | .template x => x.name
  | .templateType x => x.name
  | .cls x => x.name
  | .containerInfo x => x.name
  | .inheritance x => x.name
  | .enumConstant x => x.name
  | .function x => x.name
  | .field x => x.name
  | .flagAttribute x => x.name
  | .intAttribute x => x.name
  | .floatAttribute x => x.name
  | .primitiveAttribute x => x.name
  | .textAttribute x => x.name

/-- The database has an entry of the kind with a name of this hash. -/
def _root_.Clr.DB.Database.HasName (db : Database) (k : EKind) (h : UInt32) : Prop :=
  ∃ e, db.Has e ∧ e.kind = k ∧ e.name.hash = h

/-- A class that is only forward-declared. -/
def ForwardDeclared (c : Class) : Prop := c.size = 0xFFFFFFFF

/-- The table equations behind a successful merge. -/
structure Tables (d s r : Database) : Prop where
  names : mergeNames d.names s.names = .ok r.names
  namespaces : mergeUniques (fun p => p.name.hash) d.namespaces s.namespaces = .ok r.namespaces
  types : mergeUniques (fun p => p.name.hash) d.types s.types = .ok r.types
  enums : mergeUniques (fun p => p.name.hash) d.enums s.enums = .ok r.enums
  templates : mergeUniques (fun p => p.name.hash) d.templates s.templates = .ok r.templates
  templateTypes : mergeUniques (fun p => p.name.hash) d.templateTypes s.templateTypes = .ok r.templateTypes
  classes : mergeClasses d.classes s.classes = .ok r.classes
  enumConstants : mergeOverloads (fun p => p.name.hash) EnumConstant.equals d.enumConstants s.enumConstants = .ok r.enumConstants
  functions : mergeOverloads (fun p => p.name.hash) Function.equals d.functions s.functions = .ok r.functions
  fields : mergeOverloads (fun p => p.name.hash) Field.equals d.fields s.fields = .ok r.fields
  flagAttributes : mergeOverloads (fun p => p.name.hash) (fun (a b : FlagAttribute) => a.toPrim.equals b.toPrim) d.flagAttributes s.flagAttributes = .ok r.flagAttributes
  intAttributes : mergeOverloads (fun p => p.name.hash) IntAttribute.equals d.intAttributes s.intAttributes = .ok r.intAttributes
  floatAttributes : mergeOverloads (fun p => p.name.hash) FloatAttribute.equals d.floatAttributes s.floatAttributes = .ok r.floatAttributes
  primitiveAttributes : mergeOverloads (fun p => p.name.hash) PrimitiveAttribute.equals d.primitiveAttributes s.primitiveAttributes = .ok r.primitiveAttributes
  textAttributes : mergeOverloads (fun p => p.name.hash) TextAttribute.equals d.textAttributes s.textAttributes = .ok r.textAttributes
  containerInfos : mergeUniques (fun p => p.name.hash) d.containerInfos s.containerInfos = .ok r.containerInfos
  inheritances : mergeUniques (fun p => p.name.hash) d.inheritances s.inheritances = .ok r.inheritances

theorem merge_iff_tables (d s r : Database) : mergeDatabases d s = .ok r ↔ Tables d s r := by
  constructor
  · intro h
    unfold mergeDatabases at h
    simp only [Res.bind_eq_ok, Res.pure_eq, Res.ok.injEq] at h
    obtain ⟨_, h1, _, h2, _, h3, _, h4, _, h5, _, h6, _, h7, _, h8, _, h9, _, h10, _, h11, _, h12, _, h13,
      _, h14, _, h15, _, h16, _, h17, rfl⟩ := h
    exact ⟨h1, h2, h3, h4, h5, h6, h7, h8, h9, h10, h11, h12, h13, h14, h15, h16, h17⟩
  · rintro ⟨h1, h2, h3, h4, h5, h6, h7, h8, h9, h10, h11, h12, h13, h14, h15, h16, h17⟩
    unfold mergeDatabases
    simp only [h1, h2, h3, h4, h5, h6, h7, h8, h9, h10, h11, h12, h13, h14, h15, h16, h17, Res.bind_ok,
      Res.pure_eq]

/-! ### C06 -/

/-- C06: every entry of the destination is still there after the merge, except a forward-declared class,
which may have been replaced by a definition of the same class from the source. -/
theorem C06_destination_kept (d s r : Database) (h : mergeDatabases d s = .ok r) (e : Entry) (he : d.Has e) :
    r.Has e ∨ ∃ c c', e = .cls c ∧ ForwardDeclared c ∧ ¬ ForwardDeclared c' ∧ c'.name.hash = c.name.hash ∧
      s.Has (.cls c') ∧ r.Has (.cls c') := by
  have t := (merge_iff_tables d s r).mp h
  cases e with
  | «namespace» x => exact .inl ((mergeUniques_sublist t.namespaces).subset he)
  | type x => exact .inl ((mergeUniques_sublist t.types).subset he)
  | enum x => exact .inl ((mergeUniques_sublist t.enums).subset he)
  | template x => exact .inl ((mergeUniques_sublist t.templates).subset he)
  | templateType x => exact .inl ((mergeUniques_sublist t.templateTypes).subset he)
  | containerInfo x => exact .inl ((mergeUniques_sublist t.containerInfos).subset he)
  | inheritance x => exact .inl ((mergeUniques_sublist t.inheritances).subset he)
  | enumConstant x => exact .inl ((mergeOverloads_sublist t.enumConstants).subset he)
  | function x => exact .inl ((mergeOverloads_sublist t.functions).subset he)
  | field x => exact .inl ((mergeOverloads_sublist t.fields).subset he)
  | flagAttribute x => exact .inl ((mergeOverloads_sublist t.flagAttributes).subset he)
  | intAttribute x => exact .inl ((mergeOverloads_sublist t.intAttributes).subset he)
  | floatAttribute x => exact .inl ((mergeOverloads_sublist t.floatAttributes).subset he)
  | primitiveAttribute x => exact .inl ((mergeOverloads_sublist t.primitiveAttributes).subset he)
  | textAttribute x => exact .inl ((mergeOverloads_sublist t.textAttributes).subset he)
  | cls x =>
    obtain ⟨m, p, sb⟩ := mergeClasses_kept t.classes
    obtain ⟨c', hc', hu⟩ := p.mem x he
    rcases hu with rfl | ⟨h1, h2, h3, h4⟩
    · exact .inl (sb.subset hc')
    · exact .inr ⟨x, c', rfl, h1, h3, h4, h2, sb.subset hc'⟩

/-- C06: no entry is lost and none changes place relative to the others: every table of the destination
is a subsequence of the merged one (class tables after the upgrades of forward declarations), and every
name stays interned. -/
theorem C06_order_kept (d s r : Database) (h : mergeDatabases d s = .ok r) :
    d.names.Sublist r.names ∧ d.namespaces.Sublist r.namespaces ∧ d.types.Sublist r.types ∧
    d.enums.Sublist r.enums ∧ d.templates.Sublist r.templates ∧ d.templateTypes.Sublist r.templateTypes ∧
    d.enumConstants.Sublist r.enumConstants ∧ d.functions.Sublist r.functions ∧ d.fields.Sublist r.fields ∧
    d.flagAttributes.Sublist r.flagAttributes ∧ d.intAttributes.Sublist r.intAttributes ∧
    d.floatAttributes.Sublist r.floatAttributes ∧ d.primitiveAttributes.Sublist r.primitiveAttributes ∧
    d.textAttributes.Sublist r.textAttributes ∧ d.containerInfos.Sublist r.containerInfos ∧
    d.inheritances.Sublist r.inheritances ∧
    ∃ cs, cs.Sublist r.classes ∧ Pointwise (fun c c' => c' = c ∨ (ForwardDeclared c ∧ ¬ ForwardDeclared c' ∧
      c'.name.hash = c.name.hash ∧ c' ∈ s.classes)) d.classes cs := by
  have t := (merge_iff_tables d s r).mp h
  refine ⟨mergeNames_sublist t.names, mergeUniques_sublist t.namespaces, mergeUniques_sublist t.types,
    mergeUniques_sublist t.enums, mergeUniques_sublist t.templates, mergeUniques_sublist t.templateTypes,
    mergeOverloads_sublist t.enumConstants, mergeOverloads_sublist t.functions, mergeOverloads_sublist t.fields,
    mergeOverloads_sublist t.flagAttributes, mergeOverloads_sublist t.intAttributes,
    mergeOverloads_sublist t.floatAttributes, mergeOverloads_sublist t.primitiveAttributes,
    mergeOverloads_sublist t.textAttributes, mergeUniques_sublist t.containerInfos,
    mergeUniques_sublist t.inheritances, ?_⟩
  obtain ⟨m, p, sb⟩ := mergeClasses_kept t.classes
  refine ⟨m, sb, p.imp ?_⟩
  rintro a b (h | ⟨h1, h2, h3, h4⟩)
  · exact .inl h
  · exact .inr ⟨h1, h3, h4, h2⟩

/-! ### C07 -/

/-- C07: for every source entry the result has an entry of the same kind and name. (With
`C07_nothing_invented`, it is one of the source's if the destination had none.) -/
theorem C07_source_names_present (d s r : Database) (h : mergeDatabases d s = .ok r) (e : Entry)
    (he : s.Has e) : r.HasName e.kind e.name.hash := by
  have t := (merge_iff_tables d s r).mp h
  have ov : ∀ {α : Type} {key : α → UInt32} {eq : α → α → Bool} {dd ss rr : List α},
      mergeOverloads key eq dd ss = .ok rr → ∀ x ∈ ss, ∃ y ∈ rr, key y = key x := by
    intro α key eq dd ss rr hm x hx
    rcases mergeOverloads_repr hm x hx with h | ⟨y, hy, hk, _⟩
    · exact ⟨x, h, rfl⟩
    · exact ⟨y, hy, hk⟩
  cases e with
  | «namespace» x => obtain ⟨y, hy, hk⟩ := mergeUniques_key t.namespaces x he; exact ⟨.namespace y, hy, rfl, hk⟩
  | type x => obtain ⟨y, hy, hk⟩ := mergeUniques_key t.types x he; exact ⟨.type y, hy, rfl, hk⟩
  | enum x => obtain ⟨y, hy, hk⟩ := mergeUniques_key t.enums x he; exact ⟨.enum y, hy, rfl, hk⟩
  | template x => obtain ⟨y, hy, hk⟩ := mergeUniques_key t.templates x he; exact ⟨.template y, hy, rfl, hk⟩
  | templateType x => obtain ⟨y, hy, hk⟩ := mergeUniques_key t.templateTypes x he; exact ⟨.templateType y, hy, rfl, hk⟩
  | containerInfo x => obtain ⟨y, hy, hk⟩ := mergeUniques_key t.containerInfos x he; exact ⟨.containerInfo y, hy, rfl, hk⟩
  | inheritance x => obtain ⟨y, hy, hk⟩ := mergeUniques_key t.inheritances x he; exact ⟨.inheritance y, hy, rfl, hk⟩
  | cls x =>
    obtain ⟨y, hy, hk⟩ := (mergeClasses_keys t.classes (classKey x)).mpr (.inr ⟨x, he, rfl⟩)
    exact ⟨.cls y, hy, rfl, hk⟩
  | enumConstant x => obtain ⟨y, hy, hk⟩ := ov t.enumConstants x he; exact ⟨.enumConstant y, hy, rfl, hk⟩
  | function x => obtain ⟨y, hy, hk⟩ := ov t.functions x he; exact ⟨.function y, hy, rfl, hk⟩
  | field x => obtain ⟨y, hy, hk⟩ := ov t.fields x he; exact ⟨.field y, hy, rfl, hk⟩
  | flagAttribute x => obtain ⟨y, hy, hk⟩ := ov t.flagAttributes x he; exact ⟨.flagAttribute y, hy, rfl, hk⟩
  | intAttribute x => obtain ⟨y, hy, hk⟩ := ov t.intAttributes x he; exact ⟨.intAttribute y, hy, rfl, hk⟩
  | floatAttribute x => obtain ⟨y, hy, hk⟩ := ov t.floatAttributes x he; exact ⟨.floatAttribute y, hy, rfl, hk⟩
  | primitiveAttribute x => obtain ⟨y, hy, hk⟩ := ov t.primitiveAttributes x he; exact ⟨.primitiveAttribute y, hy, rfl, hk⟩
  | textAttribute x => obtain ⟨y, hy, hk⟩ := ov t.textAttributes x he; exact ⟨.textAttribute y, hy, rfl, hk⟩

/-- No two entries of one kind that cannot be overloaded share a name. -/
def NoDuplicates (db : Database) : Prop :=
  (db.namespaces.map (·.name.hash)).Nodup ∧ (db.types.map (·.name.hash)).Nodup ∧
  (db.enums.map (·.name.hash)).Nodup ∧ (db.templates.map (·.name.hash)).Nodup ∧
  (db.templateTypes.map (·.name.hash)).Nodup ∧ (db.classes.map (·.name.hash)).Nodup ∧
  (db.containerInfos.map (·.name.hash)).Nodup ∧ (db.inheritances.map (·.name.hash)).Nodup

/-- C07: whatever the source, merging never creates a second entry for a symbol that cannot be
overloaded. -/
theorem C07_no_duplicates (d s r : Database) (h : mergeDatabases d s = .ok r) (hd : NoDuplicates d) :
    NoDuplicates r := by
  have t := (merge_iff_tables d s r).mp h
  obtain ⟨h1, h2, h3, h4, h5, h6, h7, h8⟩ := hd
  exact ⟨mergeUniques_nodup t.namespaces h1, mergeUniques_nodup t.types h2, mergeUniques_nodup t.enums h3,
    mergeUniques_nodup t.templates h4, mergeUniques_nodup t.templateTypes h5, mergeClasses_nodup t.classes h6,
    mergeUniques_nodup t.containerInfos h7, mergeUniques_nodup t.inheritances h8⟩

/-- C07: nothing appears that was in neither input. -/
theorem C07_nothing_invented (d s r : Database) (h : mergeDatabases d s = .ok r) (e : Entry)
    (he : r.Has e) : d.Has e ∨ s.Has e := by
  have t := (merge_iff_tables d s r).mp h
  cases e with
  | «namespace» x => exact mergeUniques_mem t.namespaces x he
  | type x => exact mergeUniques_mem t.types x he
  | enum x => exact mergeUniques_mem t.enums x he
  | template x => exact mergeUniques_mem t.templates x he
  | templateType x => exact mergeUniques_mem t.templateTypes x he
  | containerInfo x => exact mergeUniques_mem t.containerInfos x he
  | inheritance x => exact mergeUniques_mem t.inheritances x he
  | cls x => exact mergeClasses_mem t.classes x he
  | enumConstant x => exact mergeOverloads_mem t.enumConstants x he
  | function x => exact mergeOverloads_mem t.functions x he
  | field x => exact mergeOverloads_mem t.fields x he
  | flagAttribute x => exact mergeOverloads_mem t.flagAttributes x he
  | intAttribute x => exact mergeOverloads_mem t.intAttributes x he
  | floatAttribute x => exact mergeOverloads_mem t.floatAttributes x he
  | primitiveAttribute x => exact mergeOverloads_mem t.primitiveAttributes x he
  | textAttribute x => exact mergeOverloads_mem t.textAttributes x he

/-- All names an overloadable entry refers to. -/
def Entry.refs : Entry → List Name
  | .enumConstant x => [x.name, x.parent]
  | .function x => [x.name, x.parent]
  | .field x => [x.name, x.parent, x.type]
  | .flagAttribute x => [x.name, x.parent]
  | .intAttribute x => [x.name, x.parent]
  | .floatAttribute x => [x.name, x.parent]
  | .primitiveAttribute x => [x.name, x.parent, x.value]
  | .textAttribute x => [x.name, x.parent]
  | _ => []

/-- The database's entries refer to names whose text is a function of their hash (no hash collisions:
what interning guarantees), no function has an address yet (only the exporter sets them), and no float
attribute is a negative zero. -/
structure Clean (text : UInt32 → Bytes) (db : Database) : Prop where
  refs : ∀ e, db.Has e → ∀ n ∈ e.refs, n.text = text n.hash
  address : ∀ f ∈ db.functions, f.address = 0
  negZero : ∀ f ∈ db.floatAttributes, f.bits ≠ 0x80000000

theorem name_eq {text : UInt32 → Bytes} {a b : Name} (h : a.same b = true) (ha : a.text = text a.hash)
    (hb : b.text = text b.hash) : a = b := by
  have : a.hash = b.hash := by simpa [Name.same] using h
  cases a; cases b; simp_all

theorem prim_eq {text : UInt32 → Bytes} {a b : Prim} (h : a.equals b = true) (h1 : a.name.text = text a.name.hash)
    (h2 : a.parent.text = text a.parent.hash) (h3 : b.name.text = text b.name.hash)
    (h4 : b.parent.text = text b.parent.hash) : a = b := by
  unfold Prim.equals at h
  rw [Bool.and_eq_true] at h
  have := name_eq h.1 h1 h3
  have := name_eq h.2 h2 h4
  cases a; cases b; simp_all

theorem floatEq_eq {a b : UInt32} (h : floatEq a b = true) (ha : a ≠ 0x80000000) (hb : b ≠ 0x80000000) : a = b := by
  unfold floatEq at h
  simp only [Bool.and_eq_true, Bool.or_eq_true, beq_iff_eq] at h
  rcases h.2 with h | ⟨h1, h2⟩
  · exact h
  · have key : ∀ x : UInt32, x &&& 0x7FFFFFFF = 0 → x ≠ 0x80000000 → x = 0 := by
      intro x hx hn
      apply UInt32.toBitVec_inj.mp
      have hx' : x.toBitVec &&& 0x7FFFFFFF#32 = 0#32 := by
        have := congrArg UInt32.toBitVec hx
        simpa using this
      have hn' : x.toBitVec ≠ 0x80000000#32 := by
        intro he
        exact hn (UInt32.toBitVec_inj.mp (by simpa using he))
      have hnat : x.toBitVec.toNat % 2 ^ 31 = 0 := by
        have := congrArg BitVec.toNat hx'
        rw [BitVec.toNat_and] at this
        have h31 : (0x7FFFFFFF#32).toNat = 2 ^ 31 - 1 := rfl
        rw [h31, Nat.and_two_pow_sub_one_eq_mod] at this
        simpa using this
      have hn2 : x.toBitVec.toNat ≠ 2 ^ 31 := by
        intro he
        apply hn'
        apply BitVec.eq_of_toNat_eq
        rw [he]; rfl
      have := x.toBitVec.isLt
      apply BitVec.eq_of_toNat_eq
      show x.toBitVec.toNat = 0
      omega
    rw [key a h1 ha, key b h2 hb]

/-- C07: an overloadable entry is in the result exactly when it is in one of the inputs. -/
theorem C07_overloads_are_the_union (text : UInt32 → Bytes) (d s r : Database)
    (h : mergeDatabases d s = .ok r) (hd : Clean text d) (hs : Clean text s) (e : Entry)
    (ho : e.kind.overloadable = true) : r.Has e ↔ d.Has e ∨ s.Has e := by
  constructor
  · exact C07_nothing_invented d s r h e
  · rintro (he | he)
    · rcases C06_destination_kept d s r h e he with hr | ⟨c, _, rfl, _⟩
      · exact hr
      · cases ho
    · have t := (merge_iff_tables d s r).mp h
      have from_ : ∀ e', r.Has e' → d.Has e' ∨ s.Has e' := C07_nothing_invented d s r h
      have rr : ∀ e', r.Has e' → ∀ n ∈ e'.refs, n.text = text n.hash := by
        intro e' he'
        rcases from_ e' he' with h | h
        · exact hd.refs e' h
        · exact hs.refs e' h
      have sr := hs.refs _ he
      cases e with
      | «namespace» x => cases ho
      | type x => cases ho
      | enum x => cases ho
      | template x => cases ho
      | templateType x => cases ho
      | containerInfo x => cases ho
      | inheritance x => cases ho
      | cls x => cases ho
      | enumConstant x =>
        rcases mergeOverloads_repr t.enumConstants x he with h | ⟨y, hy, _, hq⟩
        · exact h
        · have ry := rr (.enumConstant y) hy
          simp only [EnumConstant.equals, Bool.and_eq_true, beq_iff_eq] at hq
          have := prim_eq hq.1 (ry _ (by simp [Entry.refs])) (ry _ (by simp [Entry.refs]))
            (sr _ (by simp [Entry.refs])) (sr _ (by simp [Entry.refs]))
          have : y = x := by cases y; cases x; simp_all
          exact this ▸ hy
      | function x =>
        rcases mergeOverloads_repr t.functions x he with h | ⟨y, hy, _, hq⟩
        · exact h
        · have ry := rr (.function y) hy
          simp only [Function.equals, Bool.and_eq_true, beq_iff_eq] at hq
          have := prim_eq hq.1 (ry _ (by simp [Entry.refs])) (ry _ (by simp [Entry.refs]))
            (sr _ (by simp [Entry.refs])) (sr _ (by simp [Entry.refs]))
          have hya : y.address = 0 := by
            rcases from_ (.function y) hy with h | h
            · exact hd.address y h
            · exact hs.address y h
          have hxa := hs.address x he
          have : y = x := by cases y; cases x; simp_all
          exact this ▸ hy
      | field x =>
        rcases mergeOverloads_repr t.fields x he with h | ⟨y, hy, _, hq⟩
        · exact h
        · have ry := rr (.field y) hy
          simp only [Field.equals, Bool.and_eq_true, beq_iff_eq] at hq
          have := prim_eq hq.1.1.1.1 (ry _ (by simp [Entry.refs])) (ry _ (by simp [Entry.refs]))
            (sr _ (by simp [Entry.refs])) (sr _ (by simp [Entry.refs]))
          have := name_eq hq.1.1.1.2 (ry _ (by simp [Entry.refs])) (sr _ (by simp [Entry.refs]))
          have : y = x := by cases y; cases x; simp_all
          exact this ▸ hy
      | flagAttribute x =>
        rcases mergeOverloads_repr t.flagAttributes x he with h | ⟨y, hy, _, hq⟩
        · exact h
        · have ry := rr (.flagAttribute y) hy
          have := prim_eq hq (ry _ (by simp [Entry.refs])) (ry _ (by simp [Entry.refs]))
            (sr _ (by simp [Entry.refs])) (sr _ (by simp [Entry.refs]))
          have : y = x := by cases y; cases x; simp_all
          exact this ▸ hy
      | intAttribute x =>
        rcases mergeOverloads_repr t.intAttributes x he with h | ⟨y, hy, _, hq⟩
        · exact h
        · have ry := rr (.intAttribute y) hy
          simp only [IntAttribute.equals, Bool.and_eq_true, beq_iff_eq] at hq
          have := prim_eq hq.1 (ry _ (by simp [Entry.refs])) (ry _ (by simp [Entry.refs]))
            (sr _ (by simp [Entry.refs])) (sr _ (by simp [Entry.refs]))
          have : y = x := by cases y; cases x; simp_all
          exact this ▸ hy
      | floatAttribute x =>
        rcases mergeOverloads_repr t.floatAttributes x he with h | ⟨y, hy, _, hq⟩
        · exact h
        · have ry := rr (.floatAttribute y) hy
          simp only [FloatAttribute.equals, Bool.and_eq_true] at hq
          have := prim_eq hq.1 (ry _ (by simp [Entry.refs])) (ry _ (by simp [Entry.refs]))
            (sr _ (by simp [Entry.refs])) (sr _ (by simp [Entry.refs]))
          have hyz : y.bits ≠ 0x80000000 := by
            rcases from_ (.floatAttribute y) hy with h | h
            · exact hd.negZero y h
            · exact hs.negZero y h
          have := floatEq_eq hq.2 hyz (hs.negZero x he)
          have : y = x := by cases y; cases x; simp_all
          exact this ▸ hy
      | primitiveAttribute x =>
        rcases mergeOverloads_repr t.primitiveAttributes x he with h | ⟨y, hy, _, hq⟩
        · exact h
        · have ry := rr (.primitiveAttribute y) hy
          simp only [PrimitiveAttribute.equals, Bool.and_eq_true] at hq
          have := prim_eq hq.1 (ry _ (by simp [Entry.refs])) (ry _ (by simp [Entry.refs]))
            (sr _ (by simp [Entry.refs])) (sr _ (by simp [Entry.refs]))
          have := name_eq hq.2 (ry _ (by simp [Entry.refs])) (sr _ (by simp [Entry.refs]))
          have : y = x := by cases y; cases x; simp_all
          exact this ▸ hy
      | textAttribute x =>
        rcases mergeOverloads_repr t.textAttributes x he with h | ⟨y, hy, _, hq⟩
        · exact h
        · have ry := rr (.textAttribute y) hy
          simp only [TextAttribute.equals, Bool.and_eq_true, beq_iff_eq] at hq
          have := prim_eq hq.1 (ry _ (by simp [Entry.refs])) (ry _ (by simp [Entry.refs]))
            (sr _ (by simp [Entry.refs])) (sr _ (by simp [Entry.refs]))
          have : y = x := by cases y; cases x; simp_all
          exact this ▸ hy

/-- C07: every source text with a non-zero hash is interned in the result, and every name of the result
comes from one of the inputs. -/
theorem C07_names (d s r : Database) (h : mergeDatabases d s = .ok r) :
    (∀ n ∈ s.names, hashOf n.text ≠ 0 → ⟨hashOf n.text, n.text⟩ ∈ r.names) ∧
    (∀ n ∈ r.names, n ∈ d.names ∨ ∃ m ∈ s.names, n = ⟨hashOf m.text, m.text⟩) := by
  have t := (merge_iff_tables d s r).mp h
  constructor
  · intro n hn h0
    obtain ⟨m, hm, ht⟩ := mergeNames_found t.names n hn h0
    have := findBy_some hm
    have hme : m = ⟨hashOf n.text, n.text⟩ := by cases m; simp_all
    exact hme ▸ this.1
  · intro n hn
    rcases mergeNames_mem t.names n hn with h | ⟨m, hm, h1, h2⟩
    · exact .inl h
    · exact .inr ⟨m, hm, by cases n; simp_all⟩

/-- C07: the merge goes through (no assertion fires) when no source entry has an empty name and no two
texts collide. -/
theorem C07_merge_goes_through (d s : Database)
    (hk : ∀ e, s.Has e → e.name.hash ≠ 0)
    (hd : ∀ n ∈ d.names, n.hash = hashOf n.text)
    (hc : ∀ n ∈ s.names, ∀ m, m ∈ d.names ∨ m ∈ s.names → hashOf n.text = hashOf m.text → n.text = m.text) :
    ∃ r, mergeDatabases d s = .ok r := by
  have hn : ∃ names, mergeNames d.names s.names = .ok names := by
    have key : ∀ (src dest : List Name), (∀ n ∈ dest, n.hash = hashOf n.text) →
        (∀ n ∈ src, ∀ m, m ∈ dest ∨ m ∈ src → hashOf n.text = hashOf m.text → n.text = m.text) →
        ∃ names, mergeNames dest src = .ok names := by
      intro src
      induction src with
      | nil => intro dest _ _; exact ⟨dest, rfl⟩
      | cons n src ih =>
        intro dest h1 h2
        have hg : ∃ a d', getName dest (some n.text) = .ok (a, d') ∧ (∀ x ∈ d', x ∈ dest ∨ x = ⟨hashOf n.text, n.text⟩) := by
          unfold getName
          simp only
          by_cases h0 : hashOf n.text = 0
          · rw [if_pos h0]; exact ⟨_, _, rfl, fun x hx => .inl hx⟩
          · rw [if_neg h0]
            cases hf : findBy Name.hash (hashOf n.text) dest with
            | some m =>
              have hm := findBy_some hf
              have : m.text = n.text := (h2 n (by simp) m (.inl hm.1) (by rw [← h1 m hm.1, hm.2])).symm
              simp only
              rw [if_pos this]
              exact ⟨_, _, rfl, fun x hx => .inl hx⟩
            | none =>
              refine ⟨_, _, rfl, ?_⟩
              intro x hx
              rw [mem_assignBy_of_absent _ _ _ (findBy_none hf)] at hx
              rcases hx with hx | hx
              · exact .inr hx
              · exact .inl hx
        obtain ⟨a, d', hg, hd'⟩ := hg
        rw [mergeNames, hg]
        simp only [Res.bind_ok]
        apply ih
        · intro x hx
          rcases hd' x hx with h | h
          · exact h1 x h
          · rw [h]
        · intro x hx m hm he
          rcases hm with hm | hm
          · rcases hd' m hm with h | h
            · exact h2 x (by simp [hx]) m (.inl h) he
            · subst h; exact h2 x (by simp [hx]) n (.inr (by simp)) he
          · exact h2 x (by simp [hx]) m (.inr (by simp [hm])) he
    exact key s.names d.names hd hc
  obtain ⟨n1, h1⟩ := hn
  obtain ⟨n2, h2⟩ := mergeUniques_returns (key := fun p : Namespace => p.name.hash) (dest := d.namespaces) (src := s.namespaces) (fun x hx => hk (.namespace x) hx)
  obtain ⟨n3, h3⟩ := mergeUniques_returns (key := fun p : Ty => p.name.hash) (dest := d.types) (src := s.types) (fun x hx => hk (.type x) hx)
  obtain ⟨n4, h4⟩ := mergeUniques_returns (key := fun p : Enum => p.name.hash) (dest := d.enums) (src := s.enums) (fun x hx => hk (.enum x) hx)
  obtain ⟨n5, h5⟩ := mergeUniques_returns (key := fun p : Template => p.name.hash) (dest := d.templates) (src := s.templates) (fun x hx => hk (.template x) hx)
  obtain ⟨n6, h6⟩ := mergeUniques_returns (key := fun p : TemplateType => p.name.hash) (dest := d.templateTypes) (src := s.templateTypes) (fun x hx => hk (.templateType x) hx)
  obtain ⟨n7, h7⟩ := mergeClasses_returns (dest := d.classes) (src := s.classes) (fun x hx => hk (.cls x) hx)
  obtain ⟨n8, h8⟩ := mergeOverloads_returns (key := fun p : EnumConstant => p.name.hash) (eq := EnumConstant.equals) (dest := d.enumConstants) (src := s.enumConstants) (fun x hx => hk (.enumConstant x) hx)
  obtain ⟨n9, h9⟩ := mergeOverloads_returns (key := fun p : Function => p.name.hash) (eq := Function.equals) (dest := d.functions) (src := s.functions) (fun x hx => hk (.function x) hx)
  obtain ⟨n10, h10⟩ := mergeOverloads_returns (key := fun p : Field => p.name.hash) (eq := Field.equals) (dest := d.fields) (src := s.fields) (fun x hx => hk (.field x) hx)
  obtain ⟨n11, h11⟩ := mergeOverloads_returns (key := fun p : FlagAttribute => p.name.hash) (eq := fun a b => a.toPrim.equals b.toPrim) (dest := d.flagAttributes) (src := s.flagAttributes) (fun x hx => hk (.flagAttribute x) hx)
  obtain ⟨n12, h12⟩ := mergeOverloads_returns (key := fun p : IntAttribute => p.name.hash) (eq := IntAttribute.equals) (dest := d.intAttributes) (src := s.intAttributes) (fun x hx => hk (.intAttribute x) hx)
  obtain ⟨n13, h13⟩ := mergeOverloads_returns (key := fun p : FloatAttribute => p.name.hash) (eq := FloatAttribute.equals) (dest := d.floatAttributes) (src := s.floatAttributes) (fun x hx => hk (.floatAttribute x) hx)
  obtain ⟨n14, h14⟩ := mergeOverloads_returns (key := fun p : PrimitiveAttribute => p.name.hash) (eq := PrimitiveAttribute.equals) (dest := d.primitiveAttributes) (src := s.primitiveAttributes) (fun x hx => hk (.primitiveAttribute x) hx)
  obtain ⟨n15, h15⟩ := mergeOverloads_returns (key := fun p : TextAttribute => p.name.hash) (eq := TextAttribute.equals) (dest := d.textAttributes) (src := s.textAttributes) (fun x hx => hk (.textAttribute x) hx)
  obtain ⟨n16, h16⟩ := mergeUniques_returns (key := fun p : ContainerInfo => p.name.hash) (dest := d.containerInfos) (src := s.containerInfos) (fun x hx => hk (.containerInfo x) hx)
  obtain ⟨n17, h17⟩ := mergeUniques_returns (key := fun p : TypeInheritance => p.name.hash) (dest := d.inheritances) (src := s.inheritances) (fun x hx => hk (.inheritance x) hx)
  exact ⟨⟨n1, n2, n3, n5, n6, n7, n4, n8, n9, n10, n11, n12, n13, n14, n15, n16, n17⟩,
    (merge_iff_tables d s _).mpr ⟨h1, h2, h3, h4, h5, h6, h7, h8, h9, h10, h11, h12, h13, h14, h15, h16, h17⟩⟩

/-! ### C08 -/

/-- No float attribute is a NaN: none has the largest exponent and a mantissa other than zero. -/
def NoNaN (db : Database) : Prop :=
  ∀ f ∈ db.floatAttributes, f.bits.toNat / 2 ^ 23 % 2 ^ 8 = 255 → f.bits.toNat % 2 ^ 23 = 0

theorem exponent_bits (n : Nat) : n &&& 0x7F800000 = (n / 2 ^ 23 % 2 ^ 8) * 2 ^ 23 := by
  apply Nat.eq_of_testBit_eq
  intro i
  have hm : (0x7F800000 : Nat) = (2 ^ 8 - 1) <<< 23 := by decide
  rw [hm, Nat.testBit_and, Nat.testBit_shiftLeft, Nat.testBit_two_pow_sub_one, ← Nat.shiftLeft_eq, Nat.testBit_shiftLeft,
    Nat.testBit_mod_two_pow, Nat.testBit_div_two_pow]
  by_cases h : 23 ≤ i
  · rw [show i - 23 + 23 = i by omega]
    simp [h, Bool.and_comm]
  · simp [h]

theorem isNaN_false {b : UInt32} (h : b.toNat / 2 ^ 23 % 2 ^ 8 = 255 → b.toNat % 2 ^ 23 = 0) : isNaN b = false := by
  cases hn : isNaN b with
  | false => rfl
  | true =>
    simp only [isNaN, Bool.and_eq_true, beq_iff_eq, bne_iff_ne, ne_eq] at hn
    obtain ⟨h1, h2⟩ := hn
    have h3 := congrArg UInt32.toNat h1
    rw [UInt32.toNat_and] at h3
    have h4 : b.toNat &&& 0x7F800000 = 0x7F800000 := h3
    rw [exponent_bits] at h4
    have h5 := h (by omega)
    refine absurd ?_ h2
    apply UInt32.toNat_inj.1
    rw [UInt32.toNat_and]
    have h6 : b.toNat &&& (2 ^ 23 - 1) = b.toNat % 2 ^ 23 := Nat.and_two_pow_sub_one_eq_mod _ _
    have h7 : b.toNat &&& (8388607 : Nat) = b.toNat % 2 ^ 23 := h6
    exact h7.trans h5

theorem prim_refl (a : Prim) : a.equals a = true := by simp [Prim.equals, Name.same]
theorem floatEq_refl {a : UInt32} (h : isNaN a = false) : floatEq a a = true := by simp [floatEq, h]

/-- C08 for sources without NaN attributes (the scanner cannot produce one): merging the same database a
second time changes nothing. Missing: NaN attributes (`C08_nan_attribute_duplicates`). -/
theorem C08_second_merge_changes_nothing_partial (d s r : Database) (h : mergeDatabases d s = .ok r)
    (hn : NoNaN s) : mergeDatabases r s = .ok r := by
  have t := (merge_iff_tables d s r).mp h
  rw [merge_iff_tables]
  exact {
    names := mergeNames_noop (mergeNames_found t.names)
    namespaces := mergeUniques_noop (mergeUniques_key t.namespaces)
    types := mergeUniques_noop (mergeUniques_key t.types)
    enums := mergeUniques_noop (mergeUniques_key t.enums)
    templates := mergeUniques_noop (mergeUniques_key t.templates)
    templateTypes := mergeUniques_noop (mergeUniques_key t.templateTypes)
    classes := mergeClasses_again t.classes
    enumConstants := mergeOverloads_again t.enumConstants (fun x _ => by simp [EnumConstant.equals, prim_refl])
    functions := mergeOverloads_again t.functions (fun x _ => by simp [Function.equals, prim_refl])
    fields := mergeOverloads_again t.fields (fun x _ => by simp [Field.equals, prim_refl, Name.same])
    flagAttributes := mergeOverloads_again t.flagAttributes (fun x _ => prim_refl _)
    intAttributes := mergeOverloads_again t.intAttributes (fun x _ => by simp [IntAttribute.equals, prim_refl])
    floatAttributes := mergeOverloads_again t.floatAttributes
      (fun x hx => by simp [FloatAttribute.equals, prim_refl, floatEq_refl (isNaN_false (hn x hx))])
    primitiveAttributes := mergeOverloads_again t.primitiveAttributes
      (fun x _ => by simp [PrimitiveAttribute.equals, prim_refl, Name.same])
    textAttributes := mergeOverloads_again t.textAttributes (fun x _ => by simp [TextAttribute.equals, prim_refl])
    containerInfos := mergeUniques_noop (mergeUniques_key t.containerInfos)
    inheritances := mergeUniques_noop (mergeUniques_key t.inheritances) }

/-- C08: merging a database into (a copy of) itself changes nothing, provided its name map is sound (each
name stored once, under the hash of its text) and no class occurs twice. -/
theorem C08_self_merge_changes_nothing_partial (d : Database) (hn : NoNaN d)
    (hnames : ∀ n ∈ d.names, n.hash = hashOf n.text) (hnd : (d.names.map (·.hash)).Nodup)
    (hcls : (d.classes.map (fun c => c.name.hash)).Nodup) : mergeDatabases d d = .ok d := by
  rw [merge_iff_tables]
  have selfU : ∀ {α : Type} (key : α → UInt32) (l : List α), mergeUniques key l l = .ok l :=
    fun key l => mergeUniques_noop (fun s hs => ⟨s, hs, rfl⟩)
  have uniq : ∀ {α : Type} (key : α → UInt32) (l : List α) (x y : α), (l.map key).Nodup → x ∈ l →
      findBy key (key x) l = some y → x = y := by
    intro α key l x y hnd hx hf
    obtain ⟨hy, hk⟩ := findBy_some hf
    induction l with
    | nil => cases hx
    | cons z l ih =>
      rw [List.map_cons, List.nodup_cons] at hnd
      rcases List.mem_cons.mp hx with rfl | hx'
      · rcases List.mem_cons.mp hy with rfl | hy'
        · rfl
        · exact absurd (List.mem_map.mpr ⟨y, hy', hk⟩) hnd.1
      · rcases List.mem_cons.mp hy with rfl | hy'
        · exact absurd (List.mem_map.mpr ⟨x, hx', hk.symm⟩) hnd.1
        · obtain ⟨w, hw⟩ := findBy_of_mem (key := key) (k := key x) ⟨x, hx', rfl⟩
          have hzk : key z ≠ key x := by
            intro he
            exact hnd.1 (List.mem_map.mpr ⟨x, hx', he.symm⟩)
          have : findBy key (key x) (z :: l) = findBy key (key x) l := by
            unfold findBy; rw [List.find?_cons]
            have : (key z == key x) = false := by simpa using hzk
            rw [this]
          rw [this] at hf
          exact ih hnd.2 hx' hf hy'
  exact {
    names := by
      apply mergeNames_noop
      intro n hn _
      refine ⟨n, ?_, rfl⟩
      rw [← hnames n hn]
      obtain ⟨m, hm⟩ := findBy_of_mem (key := Name.hash) (k := n.hash) ⟨n, hn, rfl⟩
      rw [hm, uniq Name.hash d.names n m hnd hn hm]
    namespaces := selfU _ _
    types := selfU _ _
    enums := selfU _ _
    templates := selfU _ _
    templateTypes := selfU _ _
    classes := by
      apply mergeClasses_noop
      intro s hs
      obtain ⟨m, hm⟩ := findBy_of_mem (key := classKey) (k := classKey s) ⟨s, hs, rfl⟩
      refine ⟨m, hm, ?_⟩
      rw [uniq classKey d.classes s m hcls hs hm]
      exact id
    enumConstants := mergeOverloads_self (fun x _ => by simp [EnumConstant.equals, prim_refl])
    functions := mergeOverloads_self (fun x _ => by simp [Function.equals, prim_refl])
    fields := mergeOverloads_self (fun x _ => by simp [Field.equals, prim_refl, Name.same])
    flagAttributes := mergeOverloads_self (fun x _ => prim_refl _)
    intAttributes := mergeOverloads_self (fun x _ => by simp [IntAttribute.equals, prim_refl])
    floatAttributes := mergeOverloads_self
      (fun x hx => by simp [FloatAttribute.equals, prim_refl, floatEq_refl (isNaN_false (hn x hx))])
    primitiveAttributes := mergeOverloads_self
      (fun x _ => by simp [PrimitiveAttribute.equals, prim_refl, Name.same])
    textAttributes := mergeOverloads_self (fun x _ => by simp [TextAttribute.equals, prim_refl])
    containerInfos := selfU _ _
    inheritances := selfU _ _ }

/-- A database with one NaN float attribute. -/
def nanDB : Database := { floatAttributes := [{ name := ⟨7, b!"w"⟩, parent := ⟨9, b!"C"⟩, bits := 0x7FC00000 }] }

/-- C08 fails when a float attribute is a NaN: each merge adds another copy. -/
theorem C08_nan_attribute_duplicates :
    ∃ d s r r', mergeDatabases d s = .ok r ∧ mergeDatabases r s = .ok r' ∧ r' ≠ r :=
  ⟨{}, nanDB, nanDB, { floatAttributes := nanDB.floatAttributes ++ nanDB.floatAttributes },
    by decide +kernel, by decide +kernel, by decide +kernel⟩

/-! ### C09 -/

/-- C09: after merging any list of databases (in the order given, so in every order), each class occurs
once; it is one of the input's entries; a class is recorded exactly when some input mentions it; and it
is recorded as a forward declaration exactly when every input that mentions it only forward-declares it. -/
theorem C09_definition_wins (dbs : List Database) (r : Database) (h : mergeAll {} dbs = .ok r) :
    (r.classes.map (fun c => c.name.hash)).Nodup ∧
    (∀ c ∈ r.classes, ∃ db ∈ dbs, c ∈ db.classes) ∧
    (∀ db ∈ dbs, ∀ c ∈ db.classes, ∃ c' ∈ r.classes, c'.name.hash = c.name.hash) ∧
    (∀ c ∈ r.classes, ForwardDeclared c ↔
      ∀ db ∈ dbs, ∀ c' ∈ db.classes, c'.name.hash = c.name.hash → ForwardDeclared c') := by
  have key : ∀ (dbs : List Database) (d : Database), mergeAll d dbs = .ok r →
      ((d.classes.map classKey).Nodup → (r.classes.map classKey).Nodup) ∧
      (∀ c ∈ r.classes, c ∈ d.classes ∨ ∃ db ∈ dbs, c ∈ db.classes) ∧
      (∀ k, (∃ c ∈ r.classes, classKey c = k) ↔ (∃ c ∈ d.classes, classKey c = k) ∨
        ∃ db ∈ dbs, ∃ c ∈ db.classes, classKey c = k) ∧
      (∀ k, defined k r.classes ↔ defined k d.classes ∨
        ∃ db ∈ dbs, ∃ c ∈ db.classes, classKey c = k ∧ ¬ ForwardDeclared c) := by
    intro dbs
    induction dbs with
    | nil =>
      intro d h
      simp only [mergeAll, Res.ok.injEq] at h; subst h
      exact ⟨id, fun c hc => .inl hc, by simp, by simp⟩
    | cons s dbs ih =>
      intro d h
      rw [mergeAll, Res.bind_eq_ok] at h
      obtain ⟨d', h1, h2⟩ := h
      have t := (merge_iff_tables d s d').mp h1
      obtain ⟨i1, i2, i3, i4⟩ := ih d' h2
      refine ⟨fun hnd => i1 (mergeClasses_nodup t.classes hnd), ?_, ?_, ?_⟩
      · intro c hc
        rcases i2 c hc with hc | ⟨db, hdb, hc⟩
        · rcases mergeClasses_mem t.classes c hc with hc | hc
          · exact .inl hc
          · exact .inr ⟨s, by simp, hc⟩
        · exact .inr ⟨db, by simp [hdb], hc⟩
      · intro k
        rw [i3 k, mergeClasses_keys t.classes k]
        constructor
        · rintro ((h | h) | ⟨db, hdb, hc⟩)
          · exact .inl h
          · exact .inr ⟨s, by simp, h⟩
          · exact .inr ⟨db, by simp [hdb], hc⟩
        · rintro (h | ⟨db, hdb, hc⟩)
          · exact .inl (.inl h)
          · rcases List.mem_cons.mp hdb with rfl | hdb
            · exact .inl (.inr hc)
            · exact .inr ⟨db, hdb, hc⟩
      · intro k
        rw [i4 k, mergeClasses_defined t.classes k]
        constructor
        · rintro ((h | ⟨c, hc, hk, hz, _⟩) | ⟨db, hdb, hc⟩)
          · exact .inl h
          · exact .inr ⟨s, by simp, c, hc, hk, hz⟩
          · exact .inr ⟨db, by simp [hdb], hc⟩
        · rintro (h | ⟨db, hdb, c, hc, hk, hz⟩)
          · exact .inl (.inl h)
          · rcases List.mem_cons.mp hdb with rfl | hdb
            · by_cases hd : defined k d.classes
              · exact .inl (.inl hd)
              · exact .inl (.inr ⟨c, hc, hk, hz, hd⟩)
            · exact .inr ⟨db, hdb, c, hc, hk, hz⟩
  obtain ⟨k1, k2, k3, k4⟩ := key dbs {} h
  have hnd : (r.classes.map classKey).Nodup := k1 (by simp)
  refine ⟨hnd, ?_, ?_, ?_⟩
  · intro c hc
    rcases k2 c hc with h | h
    · simp at h
    · exact h
  · intro db hdb c hc
    exact (k3 (classKey c)).mpr (.inr ⟨db, hdb, c, hc, rfl⟩)
  · intro c hc
    have hfind : findBy classKey (classKey c) r.classes = some c := by
      obtain ⟨m, hm⟩ := findBy_of_mem (key := classKey) (k := classKey c) ⟨c, hc, rfl⟩
      obtain ⟨hm1, hm2⟩ := findBy_some hm
      have : m = c := by
        have hpw := List.pairwise_map.mp (List.nodup_iff_pairwise_ne.mp hnd)
        apply Classical.byContradiction
        intro hne
        exact (List.Pairwise.forall_of_forall_of_flip (l := r.classes) (R := fun a b => a ≠ b → classKey a ≠ classKey b)
          (fun x _ hx => absurd rfl hx) (hpw.imp (fun {a b} h (_ : a ≠ b) => h))
          (hpw.imp (fun {a b} h (_ : b ≠ a) he => h he.symm))) hm1 hc hne hm2
      rw [hm, this]
    have hdef := k4 (classKey c)
    constructor
    · intro hf db hdb c' hc' hk
      apply Classical.byContradiction
      intro hz
      obtain ⟨d, hd, hdz⟩ := hdef.mpr (.inr ⟨db, hdb, c', hc', hk, hz⟩)
      rw [hfind] at hd; injection hd with hd; subst hd
      exact hdz hf
    · intro hall
      apply Classical.byContradiction
      intro hz
      rcases hdef.mp ⟨c, hfind, hz⟩ with ⟨d, hd, _⟩ | ⟨db, hdb, c', hc', hk, hz'⟩
      · simp [findBy] at hd
      · exact hz' (hall db hdb c' hc' hk)

/-! ### C57 -/

theorem mergeAll_names (dbs : List Database) (d r : Database) (h : mergeAll d dbs = .ok r) (k : EKind)
    (n : UInt32) : r.HasName k n ↔ d.HasName k n ∨ ∃ db ∈ dbs, db.HasName k n := by
  induction dbs generalizing d with
  | nil => simp only [mergeAll, Res.ok.injEq] at h; subst h; simp
  | cons s dbs ih =>
    rw [mergeAll, Res.bind_eq_ok] at h
    obtain ⟨d', h1, h2⟩ := h
    rw [ih d' h2]
    have step : d'.HasName k n ↔ d.HasName k n ∨ s.HasName k n := by
      constructor
      · rintro ⟨e, he, hk⟩
        rcases C07_nothing_invented d s d' h1 e he with h | h
        · exact .inl ⟨e, h, hk⟩
        · exact .inr ⟨e, h, hk⟩
      · rintro (⟨e, he, hk⟩ | ⟨e, he, hk⟩)
        · rcases C06_destination_kept d s d' h1 e he with h | ⟨c, c', rfl, _, _, hn, _, hr⟩
          · exact ⟨e, h, hk⟩
          · exact ⟨.cls c', hr, hk.1, by rw [← hk.2]; exact hn⟩
        · have := C07_source_names_present d s d' h1 e he
          rw [← hk.1, ← hk.2]; exact this
    rw [step]
    constructor
    · rintro ((h | h) | ⟨db, hdb, h⟩)
      · exact .inl h
      · exact .inr ⟨s, by simp, h⟩
      · exact .inr ⟨db, by simp [hdb], h⟩
    · rintro (h | ⟨db, hdb, h⟩)
      · exact .inl (.inl h)
      · rcases List.mem_cons.mp hdb with rfl | hdb
        · exact .inl (.inr h)
        · exact .inr ⟨db, hdb, h⟩

theorem mergeAll_clean (text : UInt32 → Bytes) (dbs : List Database) (d r : Database)
    (h : mergeAll d dbs = .ok r) (hd : Clean text d) (hs : ∀ db ∈ dbs, Clean text db) (e : Entry)
    (ho : e.kind.overloadable = true) : r.Has e ↔ d.Has e ∨ ∃ db ∈ dbs, db.Has e := by
  induction dbs generalizing d with
  | nil => simp only [mergeAll, Res.ok.injEq] at h; subst h; simp
  | cons s dbs ih =>
    rw [mergeAll, Res.bind_eq_ok] at h
    obtain ⟨d', h1, h2⟩ := h
    have hcs := hs s (by simp)
    have hinv := C07_nothing_invented d s d' h1
    have hd' : Clean text d' := by
      refine ⟨?_, ?_, ?_⟩
      · intro e he
        rcases hinv e he with h | h
        · exact hd.refs e h
        · exact hcs.refs e h
      · intro f hf
        rcases hinv (.function f) hf with h | h
        · exact hd.address f h
        · exact hcs.address f h
      · intro f hf
        rcases hinv (.floatAttribute f) hf with h | h
        · exact hd.negZero f h
        · exact hcs.negZero f h
    rw [ih d' h2 hd' (fun db hdb => hs db (by simp [hdb])),
      C07_overloads_are_the_union text d s d' h1 hd hcs e ho]
    constructor
    · rintro ((h | h) | ⟨db, hdb, h⟩)
      · exact .inl h
      · exact .inr ⟨s, by simp, h⟩
      · exact .inr ⟨db, by simp [hdb], h⟩
    · rintro (h | ⟨db, hdb, h⟩)
      · exact .inl (.inl h)
      · rcases List.mem_cons.mp hdb with rfl | hdb
        · exact .inl (.inr h)
        · exact .inr ⟨db, hdb, h⟩

/-- C57: merging the same databases in two different orders gives the same symbol names of every kind, and
(without hash collisions) the same overloadable entries. -/
theorem C57_merge_order (text : UInt32 → Bytes) (dbs dbs' : List Database) (r r' : Database)
    (hp : ∀ db, db ∈ dbs ↔ db ∈ dbs') (h : mergeAll {} dbs = .ok r) (h' : mergeAll {} dbs' = .ok r') :
    (∀ k n, r.HasName k n ↔ r'.HasName k n) ∧
    ((∀ db ∈ dbs, Clean text db) → ∀ e : Entry, e.kind.overloadable = true → (r.Has e ↔ r'.Has e)) := by
  constructor
  · intro k n
    rw [mergeAll_names dbs {} r h, mergeAll_names dbs' {} r' h']
    simp only [hp]
  · intro hc e ho
    have he : Clean text {} := ⟨by intro e he; cases e <;> simp [Database.Has] at he, by simp, by simp⟩
    rw [mergeAll_clean text dbs {} r h he hc e ho,
      mergeAll_clean text dbs' {} r' h' he (fun db hdb => hc db ((hp db).mpr hdb)) e ho]
    simp only [hp]

/-- Two translation units: one forward-declares class `C` and has an overload of `f`, the other defines
`C` and has another overload. -/
def tuA : Database :=
  { classes := [{ name := ⟨5, b!"C"⟩, size := 0xFFFFFFFF }]
    functions := [{ name := ⟨8, b!"f"⟩, uniqueId := 1 }] }
def tuB : Database :=
  { classes := [{ name := ⟨5, b!"C"⟩, size := 16 }]
    functions := [{ name := ⟨8, b!"f"⟩, uniqueId := 2 }, { name := ⟨8, b!"f"⟩, uniqueId := 1 }] }
def tuAB : Database :=
  { classes := [{ name := ⟨5, b!"C"⟩, size := 16 }]
    functions := [{ name := ⟨8, b!"f"⟩, uniqueId := 1 }, { name := ⟨8, b!"f"⟩, uniqueId := 2 }] }

/-- Non-vacuity of the merge theorems. -/
example : mergeAll {} [tuA, tuB] = .ok tuAB ∧ mergeAll {} [tuB, tuA] = .ok { tuAB with
    functions := [{ name := ⟨8, b!"f"⟩, uniqueId := 2 }, { name := ⟨8, b!"f"⟩, uniqueId := 1 }] } := by
  decide +kernel
example : Clean (fun h => if h = 5 then b!"C" else if h = 8 then b!"f" else []) tuB := by
  refine ⟨?_, by decide, by decide⟩
  intro e he n hn
  cases e <;> simp_all [Database.Has, tuB, Entry.refs]
  · rename_i x
    rcases he with rfl | rfl <;> rcases hn with rfl | rfl <;> simp

end Clr.Merge
