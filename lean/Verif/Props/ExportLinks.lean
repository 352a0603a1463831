import Verif.Proofs.Export10
import Verif.Props.Export2
/-
C88: constructors, destructors, containers and their iterators in the exported database.
-/
namespace Clr.Export
open Clr.DB (hashOf)
attribute [local irreducible] hashOf

/-! ### Specification -/

/-- `t` is a type of the database with the name `n`. -/
def TypeNamed (db : DB.Database) (n : UInt32) (t : Ref) : Prop := t.1 ∈ typeKinds ∧ ∃ q, entry db t = some q ∧ q.name.hash = n

/-- `f` is a function of the database with the name `t`. -/
def FunctionNamed (db : DB.Database) (f : Ref) (t : Bytes) : Prop :=
  f.1 = .function ∧ ∃ p, entry db f = some p ∧ p.name.hash = hashOf t

/-- `f` is the first of the functions with the name `t`. -/
def FirstFunctionNamed (db : DB.Database) (f : Ref) (t : Bytes) : Prop :=
  FunctionNamed db f t ∧ ∀ j, j < f.2 → ¬ FunctionNamed db (.function, j) t

/-- The field `j` has the scoped name `n`. -/
def FieldNamed (db : DB.Database) (n : UInt32) (j : Nat) : Prop :=
  ∃ s, Records db (.field, j) s ∧ hashOf (nameText db s ++ b!"::" ++ nameText db (.field, j)) = n

/-- `r` is what a container named `n` describes: the type of that name; if there is none, the instances of the
template of that name; if there is no such template either, the first field with that scoped name. -/
def ContainerOf (db : DB.Database) (n : UInt32) (r : Ref) : Prop :=
  TypeNamed db n r ∨
  ((∀ t, ¬ TypeNamed db n t) ∧
    ((∃ i q, entry db (.template, i) = some q ∧ q.name.hash = n ∧ Records db r (.template, i)) ∨
     ((∀ i q, entry db (.template, i) = some q → q.name.hash ≠ n) ∧
      ∃ j, r = (.field, j) ∧ FieldNamed db n j ∧ ∀ j', j' < j → ¬ FieldNamed db n j')))

/-! ### Lemmas -/

theorem linkedUp_get {env : Env} {fuel : Nat} {db : DB.Database} (h : Exportable env fuel db) (r : Ref) :
    ((linkedUp env db).get r).hash = ((copied db).get r).hash ∧ ((linkedUp env db).get r).text = ((copied db).get r).text :=
  ⟨(linkedUp_linked h).hash r, (linkedUp_linked h).text r⟩

theorem linkedUp_types {env : Env} {fuel : Nat} {db : DB.Database} (h : Exportable env fuel db) (hu : UniqueTypes db) (n : UInt32) (t : Ref) :
    lookType (linkedUp env db) n = some t ↔ TypeNamed db n t := by
  have hlk := linkedUp_linked h
  have hsz : (linkedUp env db).typePrims.length ≤ 2 ^ 30 := by rw [hlk.types.length_eq]; exact h.typesSize
  have hs : (linkedUp env db).typePrims.Pairwise fun a b => ((linkedUp env db).get a).hash ≤ ((linkedUp env db).get b).hash := by
    simp only [hlk.hash]; exact hlk.typesSorted
  have hm : ∀ r, r ∈ (linkedUp env db).typePrims ↔ r.1 ∈ typeKinds ∧ ∃ p, entry db r = some p := by
    intro r
    rw [hlk.types.mem_iff]
    show r ∈ (copied db).all .type ++ (copied db).all .cls ++ (copied db).all .enum ++ (copied db).all .instance ↔ _
    simp only [List.mem_append, mem_all]
    unfold typeKinds
    simp only [List.mem_cons, List.not_mem_nil, or_false]
    have hv : r.1 ≠ .container → ((∃ p, entry db r = some p) ↔ Valid (copied db) r) := fun hk => entry_valid hk
    constructor
    · rintro (((⟨e, v⟩ | ⟨e, v⟩) | ⟨e, v⟩) | ⟨e, v⟩) <;>
      exact ⟨by simp [e], (hv (by rw [e]; decide)).mpr v⟩
    · rintro ⟨e | e | e | e, v⟩ <;>
      · have v' := (hv (by rw [e]; decide)).mp v
        simp [e, v']
  obtain ⟨h1, h2⟩ := lookType_spec (linkedUp env db) hsz hs n
  have hh : ∀ r p, entry db r = some p → ((linkedUp env db).get r).hash = p.name.hash := by
    intro r p hp; rw [(linkedUp_get h r).1]; exact (entry_copied hp).2.2.1
  constructor
  · intro hl
    obtain ⟨h3, h4⟩ := h1 t hl
    obtain ⟨hk, p, hp⟩ := (hm t).mp h3
    exact ⟨hk, p, hp, by rw [← hh t p hp]; exact h4⟩
  · rintro ⟨hk, p, hp, e⟩
    cases hl : lookType (linkedUp env db) n with
    | none => exact absurd (by rw [hh t p hp]; exact e) (h2.mp hl t ((hm t).mpr ⟨hk, p, hp⟩))
    | some t' =>
      obtain ⟨h3, h4⟩ := h1 t' hl
      obtain ⟨hk', p', hp'⟩ := (hm t').mp h3
      rw [hh t' p' hp'] at h4
      rw [hu t' t p' p hk' hk hp' hp (h4.trans e.symm)]

theorem function_named {env : Env} {fuel : Nat} {db : DB.Database} (h : Exportable env fuel db) (f : Ref) (t : Bytes) :
    FunctionNamed db f t ↔ f ∈ (linkedUp env db).all .function ∧ ((linkedUp env db).get f).hash = hashOf t := by
  have hcount : (linkedUp env db).count = (copied db).count := (linkedUp_linked h).count
  rw [mem_all, (linkedUp_get h f).1]
  unfold Valid FunctionNamed
  rw [hcount]
  constructor
  · rintro ⟨hk, p, hp, e⟩
    exact ⟨⟨hk, (entry_copied hp).1⟩, (entry_copied hp).2.2.1.trans e⟩
  · rintro ⟨⟨hk, hv⟩, e⟩
    obtain ⟨p, hp⟩ := copied_entry (r := f) hv (by rw [hk]; decide)
    exact ⟨hk, p, hp, (entry_copied hp).2.2.1.symm.trans e⟩

theorem madeBy_iff {env : Env} {fuel : Nat} {db : DB.Database} (h : Exportable env fuel db) (suffix : Bytes) (r : Ref) (p : DB.Prim)
    (hr : entry db r = some p) (f : Ref) :
    madeBy (linkedUp env db) suffix r = some f ↔ FirstFunctionNamed db f (nameText db r ++ suffix) := by
  have ht : ((linkedUp env db).get r).text.getD [] = nameText db r := by
    rw [(linkedUp_get h r).2]; exact nameText_copied hr
  unfold madeBy FirstFunctionNamed
  rw [ht]
  generalize nameText db r ++ suffix = t
  have hx := fun f => function_named h f t
  unfold firstFunction
  obtain ⟨k, j⟩ := f
  have hall : (linkedUp env db).all .function = (List.range ((linkedUp env db).count .function)).map fun i => (K.function, i) := rfl
  rw [hall, List.find?_map, Option.map_eq_some_iff]
  constructor
  · rintro ⟨i, hi, e⟩
    injection e with e1 e2
    subst e1 e2
    have hp := List.find?_some hi
    simp only [Function.comp_apply, beq_iff_eq] at hp
    refine ⟨(hx _).mpr ⟨?_, hp⟩, ?_⟩
    · rw [mem_all]; exact ⟨rfl, List.mem_range.mp (List.mem_of_find?_eq_some hi)⟩
    · intro j hj hn
      rw [List.find?_range_eq_some] at hi
      have := hi.2.2 j hj
      simp only [Function.comp_apply, Bool.not_eq_true', beq_eq_false_iff_ne, ne_eq] at this
      exact this ((hx _).mp hn).2
  · rintro ⟨hn, hmin⟩
    obtain ⟨hm, he⟩ := (hx _).mp hn
    obtain ⟨hk, hv⟩ := (mem_all _ _ _).mp hm
    simp only at hk
    subst hk
    refine ⟨j, ?_, rfl⟩
    rw [List.find?_range_eq_some]
    refine ⟨by simpa using he, List.mem_range.mpr hv, ?_⟩
    intro i hi
    simp only [Function.comp_apply, Bool.not_eq_true', beq_eq_false_iff_ne, ne_eq]
    intro e
    refine hmin i hi ((hx _).mpr ⟨?_, e⟩)
    rw [mem_all]
    have hv' : j < (linkedUp env db).count .function := hv
    exact ⟨rfl, Nat.lt_trans hi hv'⟩

/-! ### Theorems -/

/-- C88, classes: the constructor the exported database gives a class is a function recorded in that class and
named after it, followed by `::ConstructObject`; a class has none exactly when there is no such function.
Likewise the destructor, with `::DestructObject`. -/
theorem C88_class_constructors (env : Env) (fuel : Nat) (db : DB.Database) (hrdy : Ready env fuel db) (F : St)
    (hF : exportDB env fuel db = some (.ok F)) (r : Ref) (hr : r.1 = .cls) (p : DB.Prim) (hp : entry db r = some p) :
    (∀ f, (F.get r).ctor = some f → Records db f r ∧ FunctionNamed db f (nameText db r ++ b!"::ConstructObject")) ∧
    ((F.get r).ctor = none → ∀ f, Records db f r → ¬ FunctionNamed db f (nameText db r ++ b!"::ConstructObject")) ∧
    (∀ f, (F.get r).dtor = some f → Records db f r ∧ FunctionNamed db f (nameText db r ++ b!"::DestructObject")) ∧
    ((F.get r).dtor = none → ∀ f, Records db f r → ¬ FunctionNamed db f (nameText db r ++ b!"::DestructObject")) := by
  have h := hrdy.exportable
  have hu := hrdy.unambiguous
  have hlk := linkedUp_linked h
  obtain ⟨x, _⟩ := export_extras h hF
  obtain ⟨hv, _⟩ := entry_copied hp
  obtain ⟨c1, c2⟩ := x.classes r hr hv
  have hmem : ∀ f, f ∈ ((linkedUp env db).get r).kids .methods ↔ f.1 = .function ∧ Records db f r := by
    intro f
    obtain ⟨k, i⟩ := r
    simp only at hr
    subst hr
    rw [(hlk.kids (.cls, i) .methods).mem_iff]
    unfold unsortedKids
    rw [if_neg (by intro hh; exact absurd hh.2 (by decide)), scopesBuilt_kids,
      kidsOf_scope env db .cls .methods .function (by simp [scopeTable]) i hv f, scopeFor_iff h hu]
    constructor
    · rintro ⟨hk, _, hr | ⟨ha, _⟩⟩
      · exact ⟨hk, hr⟩
      · rw [hk] at ha; exact absurd ha (by decide)
    · rintro ⟨hk, hr⟩
      obtain ⟨q, _, hq, _⟩ := hr.2.1
      exact ⟨hk, (entry_copied hq).1, .inl hr⟩
  have key : ∀ (suffix : Bytes) (o : Option Ref),
      findMethod (linkedUp env db) ((linkedUp env db).get r) suffix = .ok o →
      (∀ f, o = some f → Records db f r ∧ FunctionNamed db f (nameText db r ++ suffix)) ∧
      (o = none → ∀ f, Records db f r → ¬ FunctionNamed db f (nameText db r ++ suffix)) := by
    intro suffix o ho
    unfold findMethod at ho
    have ht := (linkedUp_get (env := env) h r).2
    have hn := nameText_copied hp
    cases htx : ((linkedUp env db).get r).text with
    | none => rw [htx] at ho; cases ho
    | some t =>
      rw [htx] at ho ht
      rw [← ht] at hn
      simp only [Option.getD_some] at hn
      simp only at ho
      rw [hn] at ho
      have hlen : (((linkedUp env db).get r).kids .methods).length ≤ 2 ^ 30 := by
        rw [(hlk.kids r .methods).length_eq]
        unfold unsortedKids
        rw [if_neg (by intro hh; exact absurd hh.2 (by decide)), scopesBuilt_kids]
        exact Nat.le_trans (kidsOf_length_le env _ r hr) h.functionsSize
      have hsorted : (((linkedUp env db).get r).kids .methods).Pairwise fun a b =>
          ((linkedUp env db).get a).hash ≤ ((linkedUp env db).get b).hash := by
        simp only [hlk.hash]
        exact hlk.sorted r .methods (by rw [hr]; decide)
      obtain ⟨o', h1, h2, h3⟩ := Search.C01_lookup_exact _ (fun f => ((linkedUp env db).get f).hash) (hashOf (nameText db r ++ suffix)) hlen hsorted
      rw [h1] at ho
      injection ho with ho
      subst ho
      have hfn : ∀ f, f ∈ ((linkedUp env db).get r).kids .methods →
          (FunctionNamed db f (nameText db r ++ suffix) ↔ ((linkedUp env db).get f).hash = hashOf (nameText db r ++ suffix)) := by
        intro f hf
        obtain ⟨hk, hrec⟩ := (hmem f).mp hf
        obtain ⟨q, _, hq, _⟩ := hrec.2.1
        rw [function_named h, mem_all]
        unfold Valid
        rw [show (linkedUp env db).count = (copied db).count from hlk.count]
        exact ⟨fun e => e.2, fun e => ⟨⟨hk, (entry_copied hq).1⟩, e⟩⟩
      constructor
      · intro f hf
        obtain ⟨a, b⟩ := h2 f hf
        exact ⟨((hmem f).mp a).2, (hfn f a).mpr b⟩
      · intro hn f hrec hfun
        have hm := (hmem f).mpr ⟨hfun.1, hrec⟩
        exact h3.mp hn f hm ((hfn f hm).mp hfun)
  exact ⟨(key _ _ c1).1, (key _ _ c1).2, (key _ _ c2).1, (key _ _ c2).2⟩

/-- C88, template types: the constructor of a template type is the first function named after it, followed by
`::ConstructObject`, wherever that function is recorded; likewise the destructor. -/
theorem C88_template_type_constructors (env : Env) (fuel : Nat) (db : DB.Database) (hrdy : Ready env fuel db) (F : St)
    (hF : exportDB env fuel db = some (.ok F)) (r : Ref) (hr : r.1 = .instance) (p : DB.Prim) (hp : entry db r = some p) (f : Ref) :
    ((F.get r).ctor = some f ↔ FirstFunctionNamed db f (nameText db r ++ b!"::ConstructObject")) ∧
    ((F.get r).dtor = some f ↔ FirstFunctionNamed db f (nameText db r ++ b!"::DestructObject")) := by
  have h := hrdy.exportable
  obtain ⟨x, _⟩ := export_extras h hF
  obtain ⟨c1, c2⟩ := x.instances r hr (entry_copied hp).1
  rw [c1, c2]
  exact ⟨madeBy_iff h _ r p hp f, madeBy_iff h _ r p hp f⟩

/-- C88, the rest: nothing but classes and template types has a constructor or destructor. -/
theorem C88_no_other_constructors (env : Env) (fuel : Nat) (db : DB.Database) (hrdy : Ready env fuel db) (F : St)
    (hF : exportDB env fuel db = some (.ok F)) (r : Ref) (h1 : r.1 ≠ .cls) (h2 : r.1 ≠ .instance) :
    (F.get r).ctor = none ∧ (F.get r).dtor = none :=
  (export_extras hrdy.exportable hF).1.others r h1 h2

/-- C88, parents of functions: a function that constructs or destructs the objects of template types has one of
them as its parent; every other function has the scope it records, or none. -/
theorem C88_function_parents (env : Env) (fuel : Nat) (db : DB.Database) (hrdy : Ready env fuel db) (F : St)
    (hF : exportDB env fuel db = some (.ok F)) (f : Ref) (hf : f.1 = .function) (p : DB.Prim) (hp : entry db f = some p) :
    let Makes := fun r : Ref => r.1 = .instance ∧ (∃ q, entry db r = some q) ∧ ((F.get r).ctor = some f ∨ (F.get r).dtor = some f)
    ((∃ r, Makes r) → ∃ r, Makes r ∧ (F.get f).parent = .obj r) ∧
    ((∀ r, ¬ Makes r) → (∀ r, Records db f r → (F.get f).parent = .obj r) ∧
      ((∀ r, ¬ Records db f r) → (F.get f).parent = .raw 0)) := by
  intro Makes
  have h := hrdy.exportable
  obtain ⟨x, px⟩ := export_extras h hF
  have huse : ∀ i, i < (copied db).count .instance → (Makes (.instance, i) ↔ Uses (linkedUp env db) (.instance, i) f) := by
    intro i hi
    obtain ⟨q, hq⟩ := copied_entry (r := (.instance, i)) hi (by simp)
    obtain ⟨c1, c2⟩ := x.instances (.instance, i) rfl hi
    show (_ ∧ _ ∧ _) ↔ _
    rw [c1, c2]
    exact ⟨fun e => e.2.2, fun e => ⟨rfl, ⟨q, hq⟩, e⟩⟩
  have hval : ∀ r, Makes r → ∃ i, r = (.instance, i) ∧ i < (copied db).count .instance := by
    rintro ⟨k, i⟩ ⟨hk, ⟨q, hq⟩, _⟩
    simp only at hk
    subst hk
    exact ⟨i, rfl, (entry_copied hq).1⟩
  rcases px f hf (entry_copied hp).1 with ⟨hn, e⟩ | ⟨i, hi, hu, e⟩
  · constructor
    · rintro ⟨r, hr⟩
      obtain ⟨i, rfl, hi⟩ := hval r hr
      exact absurd ((huse i hi).mp hr) (hn i hi)
    · intro _
      rw [e]
      constructor
      · intro r hr
        rw [(scopeFor_iff h hrdy.unambiguous f r).mpr (.inl hr)]
        rfl
      · intro hno
        cases hs : scopeFor env db f with
        | none => rfl
        | some r =>
          rcases (scopeFor_iff h hrdy.unambiguous f r).mp hs with hr | ⟨ha, _⟩
          · exact absurd hr (hno r)
          · rw [hf] at ha; exact absurd ha (by decide)
  · constructor
    · intro _
      exact ⟨(.instance, i), (huse i hi).mpr hu, e⟩
    · intro hno
      exact absurd ((huse i hi).mpr hu) (hno _)

theorem describes_iff {env : Env} {fuel : Nat} {db : DB.Database} (hrdy : Ready env fuel db) (ht : UniqueTypes db) (i : Nat)
    (c : DB.ContainerInfo) (hi : db.containerInfos[i]? = some c) (r : Ref) :
    Describes (pathKeys env db) (linkedUp env db) i r ↔ ContainerOf db c.name.hash r := by
  have h := hrdy.exportable
  have hu := hrdy.unambiguous
  have hlk := linkedUp_linked h
  have hhash : ((linkedUp env db).get (.container, i)).hash = c.name.hash := by
    rw [(linkedUp_get h _).1]
    unfold copied
    simp only
    rw [List.getD_eq_getElem?_getD]
    simp [rows, hi]
  have hcount : (linkedUp env db).count = (copied db).count := hlk.count
  unfold Describes ContainerOf
  rw [hhash]
  generalize c.name.hash = n
  have htype := linkedUp_types h ht n
  -- templates
  have hinst : ∀ j, j < (copied db).count .template → ∀ q, q ∈ ((linkedUp env db).get (.template, j)).kids .instances ↔ Records db q (.template, j) := by
    intro j hj q
    rw [(hlk.kids (.template, j) .instances).mem_iff]
    unfold unsortedKids
    rw [if_neg (by intro hh; exact absurd hh.2 (by decide)), scopesBuilt_kids,
      kidsOf_scope env db .template .instances .instance (by simp [scopeTable]) j hj q, scopeFor_iff h hu]
    constructor
    · rintro ⟨hk, _, hr | ⟨ha, _⟩⟩
      · exact hr
      · rw [hk] at ha; exact absurd ha (by decide)
    · intro hr
      obtain ⟨⟨s, hs⟩, ⟨p, _, hp, _⟩, _⟩ := id hr
      have hk : q.1 = .instance := by
        simp [scopeTable] at hs; exact hs.2
      exact ⟨hk, (entry_copied hp).1, .inl hr⟩
  have htemp : ∀ j, (.template, j) ∈ (linkedUp env db).all .template ∧ ((linkedUp env db).get (.template, j)).hash = n ↔
      ∃ q, entry db (.template, j) = some q ∧ q.name.hash = n := by
    intro j
    rw [mem_all, (linkedUp_get h _).1]
    unfold Valid
    rw [hcount]
    constructor
    · rintro ⟨⟨_, hv⟩, e⟩
      obtain ⟨q, hq⟩ := copied_entry (r := (.template, j)) hv (by simp)
      exact ⟨q, hq, (entry_copied hq).2.2.1.symm.trans e⟩
    · rintro ⟨q, hq, e⟩
      exact ⟨⟨rfl, (entry_copied hq).1⟩, (entry_copied hq).2.2.1.trans e⟩
  -- fields
  have hfield : ∀ j, j < (copied db).count .field → ((pathKeys env db).getD j 0 = n ↔ FieldNamed db n j) := by
    intro j hj
    obtain ⟨s, hs⟩ := hrdy.wellFormed.owned j (by simpa [copied, rows] using hj)
    have e : (pathKeys env db).getD j 0 = hashOf (nameText db s ++ b!"::" ++ nameText db (.field, j)) := by
      unfold pathKeys
      rw [List.getD_eq_getElem?_getD, List.getElem?_map, List.getElem?_range hj]
      simp only [Option.map_some, Option.getD_some]
      rw [fieldPath_spec hu j s hs]
    rw [e]
    constructor
    · intro e; exact ⟨s, hs, e⟩
    · rintro ⟨s', hs', e⟩
      rw [hu.1 _ _ _ hs hs']; exact e
  cases hl : lookType (linkedUp env db) n with
  | some t =>
    have htn := (htype t).mp hl
    show r = t ↔ _
    constructor
    · rintro rfl; exact .inl htn
    · rintro (e | ⟨e, _⟩)
      · have := (htype r).mpr e
        rw [hl] at this
        exact (Option.some.inj this).symm
      · exact absurd htn (e t)
  | none =>
    have hno : ∀ t, ¬ TypeNamed db n t := by
      intro t e; rw [(htype t).mpr e] at hl; cases hl
    cases hf : findLast (linkedUp env db) .template n with
    | some t =>
      have hm := List.mem_of_find?_eq_some hf
      have hp := List.find?_some hf
      rw [List.mem_reverse] at hm
      obtain ⟨k, j⟩ := t
      have hk : k = .template := ((mem_all _ _ _).mp hm).1
      subst hk
      have hv : j < (copied db).count .template := by
        have := ((mem_all _ _ _).mp hm).2
        unfold Valid at this; rw [hcount] at this; exact this
      have hj := (htemp j).mp ⟨hm, by simpa using hp⟩
      show r ∈ ((linkedUp env db).get (.template, j)).kids .instances ↔ _
      rw [hinst j hv]
      obtain ⟨q, hq, e⟩ := hj
      constructor
      · intro hr
        exact .inr ⟨hno, .inl ⟨j, q, hq, e, hr⟩⟩
      · rintro (e' | ⟨_, ⟨j', q', hq', e', hr⟩ | ⟨e', _⟩⟩)
        · exact absurd e' (hno r)
        · obtain ⟨⟨s, hs⟩, ⟨p1, p2, hp1, hp2, e12⟩, _⟩ := id hr
          refine ⟨⟨s, hs⟩, ⟨p1, q, hp1, hq, ?_⟩, fun hh => by cases hh⟩
          rw [hq'] at hp2
          injection hp2 with hp2
          subst hp2
          rw [e12, e', e]
        · exact absurd e (e' j q hq)
    | none =>
      have hnot : ∀ j q, entry db (.template, j) = some q → q.name.hash ≠ n := by
        intro j q hq e
        obtain ⟨hm, he⟩ := (htemp j).mpr ⟨q, hq, e⟩
        unfold findLast at hf
        rw [List.find?_eq_none] at hf
        exact hf _ (List.mem_reverse.mpr hm) (by simpa using he)
      rw [hcount]
      show GivenTo none none (fieldOf _ _ _) r ↔ _
      cases hfo : fieldOf (pathKeys env db) ((copied db).count .field) n with
      | some j =>
        unfold fieldOf at hfo
        rw [List.find?_range_eq_some] at hfo
        obtain ⟨f1, f2, f3⟩ := hfo
        have f2 := List.mem_range.mp f2
        show r = (.field, j) ↔ _
        have hmin : ∀ j', j' < j → ¬ FieldNamed db n j' := by
          intro j' hj' hn
          have := f3 j' hj'
          simp only [Bool.not_eq_true', beq_eq_false_iff_ne, ne_eq] at this
          exact this ((hfield j' (Nat.lt_trans hj' f2)).mpr hn)
        have hjn : FieldNamed db n j := (hfield j f2).mp (by simpa using f1)
        constructor
        · rintro rfl
          exact .inr ⟨hno, .inr ⟨hnot, j, rfl, hjn, hmin⟩⟩
        · rintro (e' | ⟨_, ⟨j', q', hq', e', hr⟩ | ⟨_, j', rfl, hn, hm⟩⟩)
          · exact absurd e' (hno r)
          · exact absurd e' (hnot j' q' hq')
          · rcases Nat.lt_trichotomy j j' with hlt | rfl | hlt
            · exact absurd hjn (hm j hlt)
            · rfl
            · exact absurd hn (hmin j' hlt)
      | none =>
        show False ↔ _
        refine ⟨False.elim, ?_⟩
        rintro (e' | ⟨_, ⟨j', q', hq', e', hr⟩ | ⟨_, j', rfl, hn, hm⟩⟩)
        · exact absurd e' (hno r)
        · exact absurd e' (hnot j' q' hq')
        · unfold fieldOf at hfo
          rw [List.find?_eq_none] at hfo
          obtain ⟨s, hs, _⟩ := id hn
          obtain ⟨p, _, hp, _⟩ := hs.2.1
          have hv : j' < (copied db).count .field := (entry_copied hp).1
          exact hfo j' (List.mem_range.mpr hv) (by simpa using (hfield j' hv).mpr hn)

theorem find_last (p : Nat → Bool) (n i : Nat) :
    (List.range n).reverse.find? p = some i ↔ i < n ∧ p i = true ∧ ∀ j, i < j → j < n → p j = false := by
  induction n with
  | zero => simp
  | succ n ih =>
    rw [List.range_succ, List.reverse_append]
    simp only [List.reverse_cons, List.reverse_nil, List.nil_append, List.singleton_append, List.find?_cons]
    cases hp : p n with
    | true =>
      simp only [Option.some.injEq]
      constructor
      · rintro rfl
        exact ⟨by omega, hp, fun j h1 h2 => by omega⟩
      · rintro ⟨h1, h2, h3⟩
        rcases Nat.lt_or_ge i n with hlt | hge
        · have := h3 n hlt (by omega)
          rw [hp] at this; cases this
        · omega
    | false =>
      simp only
      rw [ih]
      constructor
      · rintro ⟨h1, h2, h3⟩
        refine ⟨by omega, h2, ?_⟩
        intro j hj1 hj2
        rcases Nat.lt_or_ge j n with hlt | hge
        · exact h3 j hj1 hlt
        · have : j = n := by omega
          rw [this]; exact hp
      · rintro ⟨h1, h2, h3⟩
        refine ⟨?_, h2, fun j hj1 hj2 => h3 j hj1 (by omega)⟩
        rcases Nat.lt_or_ge i n with hlt | hge
        · exact hlt
        · have : i = n := by omega
          rw [this, hp] at h2; cases h2

/-- C88, containers: the container information of an exported type or field is the last of those that describe
it; there is none exactly when none describes it. -/
theorem C88_containers_partial (env : Env) (fuel : Nat) (db : DB.Database) (hrdy : Ready env fuel db) (ht : UniqueTypes db) (F : St)
    (hF : exportDB env fuel db = some (.ok F)) (r c : Ref) :
    (F.get r).ci = some c ↔ ∃ i x, c = (.container, i) ∧ db.containerInfos[i]? = some x ∧ ContainerOf db x.name.hash r ∧
      ∀ j y, i < j → db.containerInfos[j]? = some y → ¬ ContainerOf db y.name.hash r := by
  have h := hrdy.exportable
  obtain ⟨x, _⟩ := export_extras h hF
  rw [x.ci]
  have hn : (copied db).count .container = db.containerInfos.length := by simp [copied, rows]
  rw [hn]
  have hd := describes_iff hrdy ht
  classical
  unfold lastInfo
  rw [Option.map_eq_some_iff]
  constructor
  · rintro ⟨i, hi, rfl⟩
    obtain ⟨h1, h2, h3⟩ := (find_last _ _ i).mp hi
    obtain ⟨x, hx⟩ : ∃ x, db.containerInfos[i]? = some x := ⟨_, List.getElem?_eq_getElem h1⟩
    refine ⟨i, x, rfl, hx, (hd i x hx r).mp (of_decide_eq_true h2), ?_⟩
    intro j y hj hy hc
    have hlt : j < db.containerInfos.length := by
      by_cases hlt : j < db.containerInfos.length
      · exact hlt
      · rw [List.getElem?_eq_none (by omega)] at hy; cases hy
    exact of_decide_eq_false (h3 j hj hlt) ((hd j y hy r).mpr hc)
  · rintro ⟨i, x, rfl, hi, hc, hl⟩
    refine ⟨i, (find_last _ _ i).mpr ⟨?_, ?_, ?_⟩, rfl⟩
    · by_cases hlt : i < db.containerInfos.length
      · exact hlt
      · rw [List.getElem?_eq_none (by omega)] at hi; cases hi
    · exact decide_eq_true ((hd i x hi r).mpr hc)
    · intro j hj hlt
      apply decide_eq_false
      intro e
      exact hl j _ hj (List.getElem?_eq_getElem hlt) ((hd j _ (List.getElem?_eq_getElem hlt) r).mp e)

/-- C88, iterators: the read iterator of an exported container is the type it names, if it names one; likewise
the write iterator. -/
theorem C88_iterators_partial (env : Env) (fuel : Nat) (db : DB.Database) (hrdy : Ready env fuel db) (ht : UniqueTypes db) (F : St)
    (hF : exportDB env fuel db = some (.ok F)) (i : Nat) (c : DB.ContainerInfo) (hi : db.containerInfos[i]? = some c) :
    (∀ t, (F.get (.container, i)).readIt = .obj t ↔ c.readIterator.hash ≠ 0 ∧ TypeNamed db c.readIterator.hash t) ∧
    ((F.get (.container, i)).readIt = .raw 0 ↔ c.readIterator.hash = 0 ∨ ∀ t, ¬ TypeNamed db c.readIterator.hash t) ∧
    (∀ t, (F.get (.container, i)).writeIt = .obj t ↔ c.writeIterator.hash ≠ 0 ∧ TypeNamed db c.writeIterator.hash t) ∧
    ((F.get (.container, i)).writeIt = .raw 0 ↔ c.writeIterator.hash = 0 ∨ ∀ t, ¬ TypeNamed db c.writeIterator.hash t) := by
  have h := hrdy.exportable
  have hlk := linkedUp_linked h
  obtain ⟨x, _⟩ := export_extras h hF
  have hlt : i < (copied db).count .container := by
    have : i < db.containerInfos.length := by
      by_cases hlt : i < db.containerInfos.length
      · exact hlt
      · rw [List.getElem?_eq_none (by omega)] at hi; cases hi
    simpa [copied, rows] using this
  have e1 : ((copied db).get (.container, i)).readIt = ofHash c.readIterator.hash := by
    unfold copied
    simp only
    rw [List.getD_eq_getElem?_getD]
    simp [rows, hi]
  have e2 : ((copied db).get (.container, i)).writeIt = ofHash c.writeIterator.hash := by
    unfold copied
    simp only
    rw [List.getD_eq_getElem?_getD]
    simp [rows, hi]
  rw [x.readIt (.container, i) rfl hlt, x.writeIt (.container, i) rfl hlt, e1, e2]
  have key : ∀ n : UInt32, (∀ t, iterPtr env (linkedUp env db) (ofHash n) = .obj t ↔ n ≠ 0 ∧ TypeNamed db n t) ∧
      (iterPtr env (linkedUp env db) (ofHash n) = .raw 0 ↔ n = 0 ∨ ∀ t, ¬ TypeNamed db n t) := by
    intro n
    unfold iterPtr
    rw [hash_ofHash]
    have hnum : env.num (ofHash n) = 0 ↔ n = 0 := by
      show n.toNat = 0 ↔ _
      exact ⟨fun e => UInt32.toNat_inj.mp e, fun e => by rw [e]; rfl⟩
    by_cases h0 : n = 0
    · rw [if_pos (hnum.mpr h0)]
      simp [h0]
    · rw [if_neg (fun e => h0 (hnum.mp e))]
      have hkn : ∀ t, TypeNamed db n t → n ∈ (linkedUp env db).names := by
        rintro t ⟨_, q, hq, e⟩
        rw [show (linkedUp env db).names = nameKeys db from hlk.names, ← e]
        exact known_key (hrdy.wellFormed.names t q hq)
      have hty := linkedUp_types h ht n
      by_cases hk : n ∈ (linkedUp env db).names
      · rw [if_pos hk]
        cases hl : lookType (linkedUp env db) n with
        | none =>
          have hno : ∀ t, ¬ TypeNamed db n t := by intro t e; rw [(hty t).mpr e] at hl; cases hl
          simp [optPtr, hno]
        | some t =>
          have htn := (hty t).mp hl
          constructor
          · intro t'
            rw [← hty t', hl]
            simp [optPtr, h0]
          · simp only [optPtr, h0, false_or]
            constructor
            · intro e; cases e
            · intro e; exact absurd htn (e t)
      · rw [if_neg hk]
        have hno : ∀ t, ¬ TypeNamed db n t := fun t e => hk (hkn t e)
        simp [hno]
  exact ⟨(key _).1, (key _).2, (key _).1, (key _).2⟩

end Clr.Export
