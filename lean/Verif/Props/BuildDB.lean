import Verif.Proofs.BuildDB
import Verif.Props.TextDB
/-!
C74: a database filled by any history of `GetName`, `AddPrimitive`, `AddContainerInfo`, `AddTypeInheritance` and sizes
written to the classes in it holds exactly what the calls say. The history is read in Verif/Model/BuildSpec.lean: `added`,
`interned`, `containers`, `arrays` and `inheritances` list what the calls were given, in the order of the calls; `held`
lists the primitives added with the sizes the classes were given later.
-/
namespace Clr.Build
open Clr.DB Clr.Merge Clr.TextDB

attribute [local irreducible] hashOf

/-- C74: every table holds exactly the primitives added of its kind, as often as they were added (classes with the sizes
written to them), is walked in the
order of the name hashes, and the primitives under one hash are met in the order in which they were added. -/
theorem C74_tables (calls : List Call) (db : Database) (h : run {} calls = .ok db) (k : EKind) (hk : isTable k = true) :
    (db.table k).Perm ((held calls).filter fun e => e.kind = k) ∧
    (db.table k).Pairwise (fun a b => a.name.hash ≤ b.name.hash) ∧
    ∀ n : UInt32, (db.table k).filter (fun e => e.name.hash == n) =
      ((held calls).filter fun e => e.kind = k).filter (fun e => e.name.hash == n) := by
  have hi : Inv calls db := by simpa using inv_empty.run h
  rw [hi.tables k hk]
  exact ⟨by simpa using insAll_perm (key := fun e : Entry => e.name.hash) ((held calls).filter fun e => e.kind = k) [],
    insAll_sorted _ _ List.Pairwise.nil, fun n => insAll_filter (key := fun e : Entry => e.name.hash) _ [] List.Pairwise.nil n⟩

theorem find?_eq_head_filter {α : Type} (p : α → Bool) (l : List α) : l.find? p = (l.filter p).head? := by
  simp

/-- C74: looking a name up gives the first primitive of the kind that was added under it, or nothing if there is
none. -/
theorem C74_first_primitive (calls : List Call) (db : Database) (h : run {} calls = .ok db) (k : EKind)
    (hk : isTable k = true) (name : Bytes) :
    getFirst (fun e : Entry => e.name.hash) name (db.table k) =
      ((held calls).filter fun e => e.kind = k).find? fun e => e.name.hash == hashOf name := by
  rw [getFirst, findBy, find?_eq_head_filter, find?_eq_head_filter, (C74_tables calls db h k hk).2.2]

/-- C74: looked up in the table of classes itself, not in its image as entries. -/
theorem C74_first_class (calls : List Call) (db : Database) (h : run {} calls = .ok db) (name : Bytes) (c : Class) :
    getFirst (fun c : Class => c.name.hash) name db.classes = some c ↔
      ((held calls).filter fun e => e.kind = .cls).find? (fun e => e.name.hash == hashOf name) = some (.cls c) := by
  rw [← C74_first_primitive calls db h .cls rfl name, getFirst, getFirst, findBy, findBy]
  show _ ↔ (db.classes.map Entry.cls).find? _ = _
  rw [List.find?_map]
  have e : ((fun e : Entry => e.name.hash == hashOf name) ∘ Entry.cls) = fun c : Class => c.name.hash == hashOf name := rfl
  rw [e]
  cases List.find? (fun c : Class => c.name.hash == hashOf name) db.classes <;> simp

/-- C74: the entry of a primitive that is not a class is one that was added, as it was added. -/
theorem C74_as_added (calls : List Call) (k : EKind) (hk : k ≠ .cls) :
    ((held calls).filter fun e => e.kind = k) = (added calls).filter fun e => e.kind = k := by
  have key : ∀ (cs : List Call) (l : List Entry),
      ((cs.foldl hold l).filter fun e => e.kind = k) = (l ++ added cs).filter fun e => e.kind = k := by
    intro cs
    induction cs with
    | nil => intro l; simp [added]
    | cons c cs ih =>
      intro l
      rw [List.foldl_cons, ih, List.filter_append, List.filter_append]
      have e : added (c :: cs) = added [c] ++ added cs := by rw [← added_append]; rfl
      rw [e, List.filter_append, ← List.append_assoc]
      congr 1
      cases c with
      | add x hx => rw [hold, List.filter_append]; rfl
      | sizeClass n s => rw [hold, resize_other _ _ _ hk]; simp [added]
      | _ => simp [hold, added]
  have := key calls []
  rw [List.nil_append] at this
  exact this

/-- C74: the size of a class is the last one given to it: after a size for a name, the first class that was added under
the name has the size, all others and all other values are as before. -/
theorem C74_sizes (calls : List Call) (name : Bytes) (size : UInt64) :
    held (calls ++ [.sizeClass name size]) = held calls ∧ (∀ c, .cls c ∈ held calls → c.name.hash ≠ hashOf name) ∨
    ∃ a c b, held calls = a ++ .cls c :: b ∧ c.name.hash = hashOf name ∧
      (∀ c', .cls c' ∈ a → c'.name.hash ≠ hashOf name) ∧
      held (calls ++ [.sizeClass name size]) = a ++ .cls { c with size := size } :: b := by
  rw [held_snoc, hold]
  induction held calls with
  | nil => exact .inl ⟨rfl, by simp⟩
  | cons e l ih =>
    by_cases he : ∃ c, e = .cls c ∧ c.name.hash = hashOf name
    · obtain ⟨c, rfl, hc⟩ := he
      exact .inr ⟨[], c, l, rfl, hc, by simp, by rw [resize, if_pos hc]; rfl⟩
    · have hr : resize (hashOf name) size (e :: l) = e :: resize (hashOf name) size l := by
        cases e with
        | cls c => rw [resize, if_neg fun h => he ⟨c, rfl, h⟩]
        | _ => rfl
      have hn : ∀ c, e = .cls c → c.name.hash ≠ hashOf name := fun c h1 h2 => he ⟨c, h1, h2⟩
      rw [hr]
      rcases ih with ⟨h1, h2⟩ | ⟨a, c, b, h1, h2, h3, h4⟩
      · refine .inl ⟨by rw [h1], fun c hc => ?_⟩
        rcases List.mem_cons.mp hc with hc | hc
        · exact hn c hc.symm
        · exact h2 c hc
      · refine .inr ⟨e :: a, c, b, by rw [h1]; rfl, h2, fun c' hc => ?_, by rw [h4]; rfl⟩
        rcases List.mem_cons.mp hc with hc | hc
        · exact hn c' hc.symm
        · exact h3 c' hc

/-- C74: the names of the database are exactly the texts the calls gave, each under its own hash, each once. -/
theorem C74_names (calls : List Call) (db : Database) (h : run {} calls = .ok db) :
    (∀ n : Name, n ∈ db.names ↔ n.hash ≠ 0 ∧ n.hash = hashOf n.text ∧ n.text ∈ interned calls) ∧
    db.names.Pairwise (fun a b => a.hash < b.hash) := by
  have hi : Inv calls db := by simpa using inv_empty.run h
  refine ⟨fun n => ⟨hi.names.from_texts n, fun ⟨h0, hh, ht⟩ => ?_⟩, hi.names.strict⟩
  have := hi.names.present n.text ht (by rw [← hh]; exact h0)
  rw [← hh] at this
  exact this

/-- C74: of several descriptions of one container, and of several inheritances under one name, the last one counts; of
several descriptions of one array, the first, and only if nothing is described as a container under that name. -/
theorem C74_last_counts (calls : List Call) (db : Database) (h : run {} calls = .ok db) :
    (∀ k, findBy (fun c : ContainerInfo => c.name.hash) k db.containerInfos =
      (lastOf (fun c : ContainerInfo => c.name.hash) k (containers calls)).or
        (firstOf (fun c : ContainerInfo => c.name.hash) k (arrays calls))) ∧
    db.containerInfos.Pairwise (fun a b => a.name.hash < b.name.hash) ∧
    (∀ k, findBy (fun c : TypeInheritance => c.name.hash) k db.inheritances =
      lastOf (fun c : TypeInheritance => c.name.hash) k (inheritances calls)) ∧
    db.inheritances.Pairwise (fun a b => a.name.hash < b.name.hash) := by
  have hi : Inv calls db := by simpa using inv_empty.run h
  exact ⟨hi.containers_last, hi.containers_strict, hi.inheritances_last, hi.inheritances_strict⟩

/-- C74: a history runs into an assertion exactly if a primitive without a name is added or two different texts with
the same hash are made names. -/
theorem C74_asserts (calls : List Call) :
    run {} calls = .trap ↔ (∃ e ∈ added calls, e.name.hash = 0) ∨ ¬ NoClash (interned calls) := by
  constructor
  · intro h
    by_cases hn : ∀ e ∈ added calls, e.name.hash ≠ 0
    · refine .inr fun hc => ?_
      obtain ⟨db, hd⟩ := inv_empty.run_returns hn (by simpa using hc)
      rw [h] at hd; cases hd
    · refine .inl ?_
      refine Classical.byContradiction fun hne => hn fun e he h0 => hne ⟨e, he, h0⟩
  · intro h
    cases hr : run {} calls with
    | trap => rfl
    | ub => exact absurd hr (run_not_ub _ _)
    | ok db =>
      have hi : Inv calls db := by simpa using inv_empty.run hr
      rcases h with ⟨e, he, h0⟩ | h
      · exact absurd h0 (hi.named e he)
      · exact absurd hi.names.noClash h

/-! ### Histories whose database can be saved -/

/-- The values of the entry fit the text format (see C11 for what is lost otherwise). -/
def Fits (cfg : Cfg) : Entry → Prop
  | .type x => x.size.toNat < 2 ^ 32
  | .enum x => x.size = 4
  | .templateType x => x.size.toNat < 2 ^ 32 ∧ (∀ a ∈ [x.a0, x.a1, x.a2, x.a3], a.type.hash = 0 → a.ptr = false) ∧
      (x.a0.type.hash = 0 → x.a1.type.hash = 0) ∧ (x.a1.type.hash = 0 → x.a2.type.hash = 0) ∧
      (x.a2.type.hash = 0 → x.a3.type.hash = 0)
  | .cls x => x.size.toNat < 2 ^ 32
  | .enumConstant x => cfg.IntOk x.value
  | .function x => x.address = 0
  | .field x => cfg.IntOk x.offset
  | .intAttribute x => cfg.IntOk x.value
  | .floatAttribute x => cfg.FloatOk x.bits
  | .textAttribute x => CleanText x.value ∧ x.value.length ≤ 4000
  | _ => True

/-- The name is the empty one or that of a text some call gave. -/
def Given (calls : List Call) (n : Name) : Prop := n = {} ∨ ∃ t ∈ interned calls, n = nameOf t

/-- A history as the scanner and the tools make it: names come from the database, containers and inheritances have
names, and all values fit the text format. -/
structure Disciplined (cfg : Cfg) (calls : List Call) : Prop where
  texts : ∀ t ∈ interned calls, hashOf t ≠ 0 → CleanText t ∧ t.length ≤ 4000
  names : ∀ e ∈ added calls, ∀ n ∈ names e, Given calls n
  fits : ∀ e ∈ added calls, Fits cfg e
  sizes : ∀ s ∈ sizes calls, s.toNat < 2 ^ 32
  containers : ∀ c ∈ containers calls, c.name.hash ≠ 0
  inheritances : ∀ t ∈ inheritances calls, t.name.hash ≠ 0 ∧ Given calls t.derived ∧ Given calls t.base

theorem lastOf_mem {α : Type} {key : α → UInt32} {k : UInt32} {l : List α} {x : α} (h : lastOf key k l = some x) : x ∈ l := by
  have := List.mem_of_find?_eq_some h
  simpa using this

theorem find_strict {α : Type} {key : α → UInt32} {l : List α} (h : l.Pairwise fun a b => key a < key b) {x : α} (hx : x ∈ l) :
    findBy key (key x) l = some x := by
  induction l with
  | nil => simp at hx
  | cons y l ih =>
    have hp := List.pairwise_cons.mp h
    rw [findBy, List.find?_cons]
    by_cases he : key y = key x
    · rcases List.mem_cons.mp hx with rfl | hx
      · simp
      · have := hp.1 x hx
        rw [he] at this
        exact absurd this (UInt32.lt_irrefl _)
    · rw [show (key y == key x) = false by simp [he]]
      rcases List.mem_cons.mp hx with rfl | hx
      · exact absurd rfl he
      · exact ih hp.2 hx

theorem container_texts {calls : List Call} {c : ContainerInfo} (h : c ∈ containers calls) :
    Given calls c.name ∧ Given calls c.readIterator ∧ Given calls c.writeIterator := by
  obtain ⟨call, hc, he⟩ := List.mem_filterMap.mp h
  cases call with
  | addContainer n r w k =>
    simp only [Option.some.injEq] at he
    subst he
    have : ∀ t ∈ [n, r, w], t ∈ interned calls := fun t ht => List.mem_flatMap.mpr ⟨_, hc, ht⟩
    exact ⟨.inr ⟨n, this _ (by simp), rfl⟩, .inr ⟨r, this _ (by simp), rfl⟩, .inr ⟨w, this _ (by simp), rfl⟩⟩
  | _ => simp at he

theorem inheritance_texts {calls : List Call} {c : TypeInheritance} (h : c ∈ inheritances calls) : Given calls c.name := by
  obtain ⟨call, hc, he⟩ := List.mem_filterMap.mp h
  cases call with
  | addInheritance d b =>
    simp only [Option.some.injEq] at he
    subst he
    exact .inr ⟨inheritanceText d b, List.mem_flatMap.mpr ⟨_, hc, by simp⟩, rfl⟩
  | _ => simp at he

theorem sorted_of_map {α : Type} (f : α → Entry) {l : List α} (h : (l.map f).Pairwise fun a b => a.name.hash ≤ b.name.hash) :
    l.Pairwise fun a b => (f a).name.hash ≤ (f b).name.hash := by
  rw [List.pairwise_map] at h
  exact h

/-- The database of a disciplined history can be saved as text. -/
theorem storable_of_disciplined (cfg : Cfg) (calls : List Call) (db : Database) (h : run {} calls = .ok db)
    (hd : Disciplined cfg calls) : Storable cfg db := by
  have hi : Inv calls db := by simpa using inv_empty.run h
  have hknown : ∀ n, Given calls n → Known db.names n := by
    rintro n (rfl | ⟨t, ht, rfl⟩)
    · exact .inl rfl
    · rw [nameOf]
      split
      · exact .inl rfl
      · exact .inr (hi.names.present t ht (by assumption))
  have hsort : ∀ k, isTable k = true → (db.table k).Pairwise fun a b => a.name.hash ≤ b.name.hash :=
    fun k hk => (C74_tables calls db h k hk).2.1
  have hmem : ∀ k, isTable k = true → ∀ e ∈ db.table k,
      e.name.hash ≠ 0 ∧ (∀ n ∈ names e, Known db.names n) ∧ Fits cfg e := by
    intro k hk e he
    have : e ∈ held calls := (List.mem_filter.mp ((C74_tables calls db h k hk).1.mem_iff.mp he)).1
    rcases held_from this with this | ⟨c, s, hc, hs, rfl⟩
    · exact ⟨hi.named e this, fun n hn => hknown n (hd.names e this n hn), hd.fits e this⟩
    · exact ⟨hi.named (.cls c) hc, fun n hn => hknown n (hd.names (.cls c) hc n hn), hd.sizes s hs⟩
  have hcont : ∀ c ∈ db.containerInfos, c ∈ containers calls ∨ .containerInfo c ∈ added calls := by
    intro c hc
    have := find_strict hi.containers_strict hc
    rw [hi.containers_last, Option.or_eq_some_iff] at this
    rcases this with this | ⟨-, this⟩
    · exact .inl (lastOf_mem this)
    · obtain ⟨e, he, h⟩ := List.mem_filterMap.mp (List.mem_of_find?_eq_some this)
      cases e with
      | containerInfo x => injection h with h; subst h; exact .inr he
      | _ => cases h
  have hinh : ∀ c ∈ db.inheritances, c ∈ inheritances calls := by
    intro c hc
    have := find_strict hi.inheritances_strict hc
    rw [hi.inheritances_last] at this
    exact lastOf_mem this
  exact {
    names_sorted := hi.names.strict
    names_nonzero := fun n hn => (hi.names.from_texts n hn).1
    names_text := fun n hn => by
      obtain ⟨h0, hh, ht⟩ := hi.names.from_texts n hn
      exact hd.texts n.text ht (by rw [← hh]; exact h0)
    namespaces_sorted := sorted_of_map .namespace (hsort .namespace rfl)
    namespaces_ok := fun x hx => by
      obtain ⟨a, b, _⟩ := hmem .namespace rfl (.namespace x) (List.mem_map.mpr ⟨x, hx, rfl⟩)
      exact ⟨a, b _ (by simp [names]), b _ (by simp [names])⟩
    types_sorted := sorted_of_map .type (hsort .type rfl)
    types_ok := fun x hx => by
      obtain ⟨a, b, c⟩ := hmem .type rfl (.type x) (List.mem_map.mpr ⟨x, hx, rfl⟩)
      exact ⟨a, ⟨b _ (by simp [names]), b _ (by simp [names])⟩, c⟩
    templates_sorted := sorted_of_map .template (hsort .template rfl)
    templates_ok := fun x hx => by
      obtain ⟨a, b, _⟩ := hmem .template rfl (.template x) (List.mem_map.mpr ⟨x, hx, rfl⟩)
      exact ⟨a, b _ (by simp [names]), b _ (by simp [names])⟩
    templateTypes_sorted := sorted_of_map .templateType (hsort .templateType rfl)
    templateTypes_ok := fun x hx => by
      obtain ⟨a, b, c⟩ := hmem .templateType rfl (.templateType x) (List.mem_map.mpr ⟨x, hx, rfl⟩)
      refine ⟨a, ⟨b _ (by simp [names]), b _ (by simp [names])⟩, c.1, fun y hy => ⟨?_, c.2.1 y hy⟩, c.2.2⟩
      simp only [List.mem_cons, List.not_mem_nil, or_false] at hy
      rcases hy with rfl | rfl | rfl | rfl <;> exact b _ (by simp [names])
    classes_sorted := sorted_of_map .cls (hsort .cls rfl)
    classes_ok := fun x hx => by
      obtain ⟨a, b, c⟩ := hmem .cls rfl (.cls x) (List.mem_map.mpr ⟨x, hx, rfl⟩)
      exact ⟨a, ⟨b _ (by simp [names]), b _ (by simp [names])⟩, c⟩
    enums_sorted := sorted_of_map .enum (hsort .enum rfl)
    enums_ok := fun x hx => by
      obtain ⟨a, b, c⟩ := hmem .enum rfl (.enum x) (List.mem_map.mpr ⟨x, hx, rfl⟩)
      exact ⟨a, ⟨b _ (by simp [names]), b _ (by simp [names])⟩, c⟩
    enumConstants_sorted := sorted_of_map .enumConstant (hsort .enumConstant rfl)
    enumConstants_ok := fun x hx => by
      obtain ⟨a, b, c⟩ := hmem .enumConstant rfl (.enumConstant x) (List.mem_map.mpr ⟨x, hx, rfl⟩)
      exact ⟨a, ⟨b _ (by simp [names]), b _ (by simp [names])⟩, c⟩
    functions_sorted := sorted_of_map .function (hsort .function rfl)
    functions_ok := fun x hx => by
      obtain ⟨a, b, c⟩ := hmem .function rfl (.function x) (List.mem_map.mpr ⟨x, hx, rfl⟩)
      exact ⟨a, ⟨b _ (by simp [names]), b _ (by simp [names])⟩, c⟩
    fields_sorted := sorted_of_map .field (hsort .field rfl)
    fields_ok := fun x hx => by
      obtain ⟨a, b, c⟩ := hmem .field rfl (.field x) (List.mem_map.mpr ⟨x, hx, rfl⟩)
      exact ⟨a, ⟨b _ (by simp [names]), b _ (by simp [names])⟩, b _ (by simp [names]), c⟩
    flagAttributes_sorted := sorted_of_map .flagAttribute (hsort .flagAttribute rfl)
    flagAttributes_ok := fun x hx => by
      obtain ⟨a, b, _⟩ := hmem .flagAttribute rfl (.flagAttribute x) (List.mem_map.mpr ⟨x, hx, rfl⟩)
      exact ⟨a, b _ (by simp [names]), b _ (by simp [names])⟩
    intAttributes_sorted := sorted_of_map .intAttribute (hsort .intAttribute rfl)
    intAttributes_ok := fun x hx => by
      obtain ⟨a, b, c⟩ := hmem .intAttribute rfl (.intAttribute x) (List.mem_map.mpr ⟨x, hx, rfl⟩)
      exact ⟨a, ⟨b _ (by simp [names]), b _ (by simp [names])⟩, c⟩
    floatAttributes_sorted := sorted_of_map .floatAttribute (hsort .floatAttribute rfl)
    floatAttributes_ok := fun x hx => by
      obtain ⟨a, b, c⟩ := hmem .floatAttribute rfl (.floatAttribute x) (List.mem_map.mpr ⟨x, hx, rfl⟩)
      exact ⟨a, ⟨b _ (by simp [names]), b _ (by simp [names])⟩, c⟩
    primitiveAttributes_sorted := sorted_of_map .primitiveAttribute (hsort .primitiveAttribute rfl)
    primitiveAttributes_ok := fun x hx => by
      obtain ⟨a, b, _⟩ := hmem .primitiveAttribute rfl (.primitiveAttribute x) (List.mem_map.mpr ⟨x, hx, rfl⟩)
      exact ⟨a, ⟨b _ (by simp [names]), b _ (by simp [names])⟩, b _ (by simp [names])⟩
    textAttributes_sorted := sorted_of_map .textAttribute (hsort .textAttribute rfl)
    textAttributes_ok := fun x hx => by
      obtain ⟨a, b, c⟩ := hmem .textAttribute rfl (.textAttribute x) (List.mem_map.mpr ⟨x, hx, rfl⟩)
      exact ⟨a, ⟨b _ (by simp [names]), b _ (by simp [names])⟩, c⟩
    containerInfos_sorted := hi.containers_strict
    containerInfos_ok := fun c hc => by
      rcases hcont c hc with hc | hc
      · obtain ⟨a, b, e⟩ := container_texts hc
        exact ⟨hd.containers c hc, hknown _ a, hknown _ b, hknown _ e⟩
      · have hn := hd.names _ hc
        exact ⟨hi.named _ hc, hknown _ (hn _ (by simp [names])), hknown _ (hn _ (by simp [names])), hknown _ (hn _ (by simp [names]))⟩
    inheritances_sorted := hi.inheritances_strict
    inheritances_ok := fun c hc => by
      have hc := hinh c hc
      obtain ⟨a, b, e⟩ := hd.inheritances c hc
      exact ⟨a, hknown _ (inheritance_texts hc), hknown _ b, hknown _ e⟩ }

/-- C74: the database a disciplined history leaves survives being written as text and read again. -/
theorem C74_saved_and_read (cfg : Cfg) (calls : List Call) (db : Database) (h : run {} calls = .ok db)
    (hd : Disciplined cfg calls) : readText cfg (some (writeText cfg db)) {} = .ok (true, db) :=
  C11_text_roundtrip_partial cfg db (storable_of_disciplined cfg calls db h hd)

/-- C74: an inheritance that was told is in the database if no other one was told under the same name. -/
theorem C74_inheritance_kept (calls : List Call) (db : Database) (h : run {} calls = .ok db) (t : TypeInheritance)
    (ht : t ∈ inheritances calls) (hu : ∀ t' ∈ inheritances calls, t'.name.hash = t.name.hash → t' = t) :
    t ∈ db.inheritances := by
  have hl := (C74_last_counts calls db h).2.2.1 t.name.hash
  cases hc : lastOf (fun c : TypeInheritance => c.name.hash) t.name.hash (inheritances calls) with
  | none =>
    have := List.find?_eq_none.mp hc t (by simpa using ht)
    simp at this
  | some x =>
    rw [hc] at hl
    obtain ⟨h1, h2⟩ := findBy_some hl
    rw [← hu x (lastOf_mem hc) h2]
    exact h1

/-! ### Where the English falls short -/

/-- The database of a history that goes through. -/
def result (calls : List Call) : Database :=
  match run {} calls with
  | .ok db => db
  | _ => {}

/-- C74: names do not tell inheritances apart. Both are told under the text `a<-b<-c`, and only the last one is kept. -/
theorem C74_every_inheritance_kept_false :
    ∃ calls db, run {} calls = .ok db ∧ ∃ t ∈ inheritances calls, t ∉ db.inheritances := by
  refine ⟨[.addInheritance (nameOf b!"c") (nameOf b!"a<-b"), .addInheritance (nameOf b!"b<-c") (nameOf b!"a")],
    result [.addInheritance (nameOf b!"c") (nameOf b!"a<-b"), .addInheritance (nameOf b!"b<-c") (nameOf b!"a")], by decide +kernel, ⟨nameOf b!"a<-b<-c", nameOf b!"c", nameOf b!"a<-b"⟩, ?_, ?_⟩
  · decide +kernel
  · decide +kernel

/-- C74: a container without a name is stored, although adding a primitive without a name is asserted against. -/
theorem C74_unnamed_container_false :
    (∃ db, run {} [.addContainer [] b!"R" b!"W" true] = .ok db ∧
      ∃ c ∈ db.containerInfos, c.name = {}) ∧
    run {} [.add (.cls {}) rfl] = .trap := by
  refine ⟨⟨result [.addContainer [] b!"R" b!"W" true], by decide +kernel, ⟨{}, nameOf b!"R", nameOf b!"W", 1, 0⟩, ?_, rfl⟩, rfl⟩
  decide +kernel

/-! ### Non-vacuity -/

/-- Two overloads of a function around a class, a container and an inheritance, as a scan makes them. -/
def sample : List Call :=
  [.getName (some b!"f"), .getName none, .getName (some b!"A"), .getName (some b!"B"),
   .add (.function { name := nameOf b!"f", uniqueId := 2 }) rfl,
   .add (.cls { name := nameOf b!"A", size := 4 }) rfl,
   .add (.cls { name := nameOf b!"B", size := 8 }) rfl,
   .add (.function { name := nameOf b!"f", uniqueId := 1 }) rfl,
   .addContainer b!"V" b!"R" b!"W" false,
   .addContainer b!"V" b!"R" b!"W" true,
   .addInheritance (nameOf b!"B") (nameOf b!"A"),
   .getName (some b!"int[4]"), .add (.containerInfo { name := nameOf b!"int[4]", count := 4 }) rfl,
   .add (.containerInfo { name := nameOf b!"int[4]", count := 8 }) rfl,
   .add (.containerInfo { name := nameOf b!"V", count := 9 }) rfl,
   .sizeClass b!"B" 12, .sizeClass b!"B" 16, .sizeClass b!"C" 20]

/-- The sample goes through; the overloads stay in the order in which they were added, the second description of
the container and the first one of the array are those that count, and the last size of the class. -/
example : ∃ db, run {} sample = .ok db ∧ db.functions.map (·.uniqueId) = [2, 1] ∧
    (db.containerInfos.map fun c => (c.name.text, c.flags, c.count)).Perm [(b!"V", 1, 0), (b!"int[4]", 0, 4)] ∧
    (db.classes.map fun c => (c.name.text, c.size)).Perm [(b!"A", 4), (b!"B", 16)] ∧ db.names.length = 8 ∧
    db.inheritances.length = 1 :=
  ⟨result sample, by decide +kernel, by decide +kernel⟩

instance (t : Bytes) : Decidable (CleanText t) := by unfold CleanText; infer_instance

instance (calls : List Call) (n : Name) : Decidable (Given calls n) := by unfold Given; infer_instance

/-- The sample is disciplined. -/
example (cfg : Cfg) : Disciplined cfg sample where
  texts := by decide +kernel
  names := by decide +kernel
  fits := by
    intro e he
    have : added sample = [.function { name := nameOf b!"f", uniqueId := 2 }, .cls { name := nameOf b!"A", size := 4 },
      .cls { name := nameOf b!"B", size := 8 }, .function { name := nameOf b!"f", uniqueId := 1 },
      .containerInfo { name := nameOf b!"int[4]", count := 4 }, .containerInfo { name := nameOf b!"int[4]", count := 8 },
      .containerInfo { name := nameOf b!"V", count := 9 }] := rfl
    rw [this] at he
    simp only [List.mem_cons, List.not_mem_nil, or_false] at he
    rcases he with rfl | rfl | rfl | rfl | rfl | rfl | rfl <;> simp [Fits]
  sizes := by decide +kernel
  containers := by decide +kernel
  inheritances := by decide +kernel

/-- The base types every scan starts with (src/clReflectCore/Database.cpp:50-72) are such a history. -/
def baseCalls : List Call :=
  baseTypes.flatMap fun p => [.getName (some p.1), .add (.type { name := nameOf p.1, size := p.2 }) rfl]

example : run {} baseCalls = addBaseTypes {} baseTypes := by decide +kernel

end Clr.Build
