import Verif.Props.Export2
import Verif.Proofs.Merge
/-
C17-C20, C59: a database that meets the conditions of the theorems, and databases on which the exporter does
not do what one expects.
-/
namespace Clr.Export
open Clr.DB (hashOf)
set_option maxRecDepth 100000

/-! ### The sample -/

def nm (t : Bytes) : DB.Name := ⟨hashOf t, t⟩

def kindCode : K → Nat
  | .type => 0 | .constant => 1 | .enum => 2 | .field => 3 | .function => 4 | .cls => 5 | .template => 6
  | .instance => 7 | .space => 8 | .flagAttr => 9 | .intAttr => 10 | .floatAttr => 11 | .primAttr => 12
  | .textAttr => 13 | .container => 14

/-- Tables 4 GB apart, objects of 256 bytes, an insertion sort. -/
def sampleEnv : Env :=
  { base := fun k => 2 ^ 32 * (kindCode k + 1), stride := fun _ => 256, junk := .raw 7
    sort := fun key l => l.foldr (DB.insertBy key) [] }

/-- `namespace g { class B; class D : B { int x; missing bad; int F(int p); void G(missing p); }; }`, `B` having the
attributes transient and replicate. -/
def sampleDb : DB.Database :=
  { names := [nm b!"g", nm b!"g::B", nm b!"g::D", nm b!"int", nm b!"missing", nm b!"x", nm b!"bad", nm b!"g::D::F",
      nm b!"g::D::G", nm b!"p", nm b!"return", nm b!"transient", nm b!"replicate"]
    namespaces := [{ name := nm b!"g" }]
    types := [{ name := nm b!"int", size := 4 }]
    classes := [{ name := nm b!"g::D", parent := nm b!"g" }, { name := nm b!"g::B", parent := nm b!"g" }]
    functions := [{ name := nm b!"g::D::F", parent := nm b!"g::D", uniqueId := 1 },
      { name := nm b!"g::D::G", parent := nm b!"g::D", uniqueId := 2 }]
    fields := [{ name := nm b!"x", parent := nm b!"g::D", type := nm b!"int" },
      { name := nm b!"bad", parent := nm b!"g::D", type := nm b!"missing" },
      { name := nm b!"p", parent := nm b!"g::D::F", type := nm b!"int", parentUniqueId := 1 },
      { name := nm b!"return", parent := nm b!"g::D::F", type := nm b!"int", parentUniqueId := 1 },
      { name := nm b!"p", parent := nm b!"g::D::G", type := nm b!"missing", parentUniqueId := 2 }]
    flagAttributes := [{ name := nm b!"transient", parent := nm b!"g::B" }, { name := nm b!"replicate", parent := nm b!"g::B" }]
    inheritances := [{ derived := nm b!"g::D", base := nm b!"g::B" }] }

/-! ### Checking the conditions -/

/-- All primitives. -/
def refs (db : DB.Database) : List Ref := kinds.flatMap fun k => (List.range (entries db k).length).map fun i => (k, i)

theorem entry_refs {db : DB.Database} {r : Ref} {p : DB.Prim} (h : entry db r = some p) : r ∈ refs db := by
  obtain ⟨k, i⟩ := r
  unfold refs
  rw [List.mem_flatMap]
  refine ⟨k, by cases k <;> decide, ?_⟩
  rw [List.mem_map]
  exact ⟨i, List.mem_range.mpr (entry_lt h), rfl⟩

def recB (db : DB.Database) (c r : Ref) : Bool :=
  scopeTable.any (fun x => x.1 == r.1 && x.2.2 == c.1) &&
  (match entry db c, entry db r with
   | some p, some q => p.parent.hash == q.name.hash
   | _, _ => false) &&
  (r.1 != .function || (db.fields[c.2]?).map (·.parentUniqueId) == (db.functions[r.2]?).map (·.uniqueId))

theorem recB_of {db : DB.Database} {c r : Ref} (h : Records db c r) : recB db c r = true := by
  obtain ⟨⟨s, hs⟩, ⟨p, q, hp, hq, e⟩, h3⟩ := h
  unfold recB
  rw [Bool.and_eq_true, Bool.and_eq_true]
  refine ⟨⟨?_, ?_⟩, ?_⟩
  · rw [List.any_eq_true]
    exact ⟨_, hs, by simp⟩
  · rw [hp, hq]; simp [e]
  · by_cases hf : r.1 = .function
    · have := h3 hf
      unfold SameFunction at this
      simp [hf, this]
    · simp [hf]

theorem recB_records {db : DB.Database} {c r : Ref} (h : recB db c r = true) : Records db c r := by
  unfold recB at h
  rw [Bool.and_eq_true, Bool.and_eq_true] at h
  obtain ⟨⟨h1, h2⟩, h3⟩ := h
  refine ⟨?_, ?_, ?_⟩
  · rw [List.any_eq_true] at h1
    obtain ⟨⟨a, s, b⟩, hm, e⟩ := h1
    simp only [Bool.and_eq_true, beq_iff_eq] at e
    exact ⟨s, by rw [← e.1, ← e.2]; exact hm⟩
  · split at h2
    · next p q hp hq => exact ⟨p, q, hp, hq, by simpa using h2⟩
    · cases h2
  · intro hf
    unfold SameFunction
    simpa [hf] using h3

def attB (db : DB.Database) (a r : Ref) : Bool :=
  match entry db a with
  | none => false
  | some p =>
    ([K.enum, .function, .cls].contains r.1 &&
      (match entry db r with
       | some q => p.parent.hash == q.name.hash
       | none => false)) ||
    (r.1 == .field && (refs db).any fun s => recB db r s && p.parent.hash == hashOf (nameText db s ++ b!"::" ++ nameText db r))

theorem attB_of {db : DB.Database} {a r : Ref} (h : AttributeOf db a r) : attB db a r = true := by
  obtain ⟨_, p, hp, h⟩ := h
  unfold attB
  rw [hp]
  simp only [Bool.or_eq_true, Bool.and_eq_true]
  rcases h with ⟨h1, q, hq, e⟩ | ⟨h1, s, hs, e⟩
  · left
    refine ⟨by simpa using h1, ?_⟩
    rw [hq]; simp [e]
  · right
    refine ⟨by simp [h1], ?_⟩
    rw [List.any_eq_true]
    obtain ⟨_, q, _, hq, _⟩ := hs.2.1
    exact ⟨s, entry_refs hq, by simp [recB_of hs, e]⟩

theorem mem_le_one {α : Type} {l : List α} (h : l.length ≤ 1) {x y : α} (hx : x ∈ l) (hy : y ∈ l) : x = y := by
  match l, h with
  | [a], _ => rw [List.mem_singleton.mp hx, List.mem_singleton.mp hy]

def checkU (db : DB.Database) : Bool :=
  (refs db).all fun c => decide (((refs db).filter (recB db c)).length ≤ 1) &&
    (!attributeKinds.contains c.1 || decide (((refs db).filter (attB db c)).length ≤ 1))

theorem unambiguous_of {db : DB.Database} (h : checkU db = true) : Unambiguous db := by
  unfold checkU at h
  rw [List.all_eq_true] at h
  constructor
  · intro c r r' h1 h2
    obtain ⟨p, q, hp, hq, _⟩ := h1.2.1
    obtain ⟨_, q', _, hq', _⟩ := h2.2.1
    have := h c (entry_refs hp)
    simp only [Bool.and_eq_true, decide_eq_true_eq] at this
    exact mem_le_one this.1 (List.mem_filter.mpr ⟨entry_refs hq, recB_of h1⟩) (List.mem_filter.mpr ⟨entry_refs hq', recB_of h2⟩)
  · have hr : ∀ a r, AttributeOf db a r → r ∈ refs db := by
      rintro a r ⟨_, p, _, ⟨_, q, hq, _⟩ | ⟨_, s, hs, _⟩⟩
      · exact entry_refs hq
      · obtain ⟨q, _, hq, _⟩ := hs.2.1
        exact entry_refs hq
    intro a r r' h1 h2
    obtain ⟨p, hp, _⟩ := h1.2
    have := h a (entry_refs hp)
    simp only [Bool.and_eq_true, decide_eq_true_eq, Bool.or_eq_true, Bool.not_eq_true'] at this
    rcases this.2 with hc | hc
    · have := h1.1
      rw [← List.contains_iff_mem, hc] at this
      cases this
    · exact mem_le_one hc (List.mem_filter.mpr ⟨hr a r h1, attB_of h1⟩) (List.mem_filter.mpr ⟨hr a r' h2, attB_of h2⟩)

instance (db : DB.Database) (h : UInt32) : Decidable (Known db h) := by unfold Known; infer_instance

/-- The checks for `WellFormed`, but for the hierarchy. -/
def checkW (db : DB.Database) : Bool :=
  ((refs db).all fun r => match entry db r with
    | some p => decide (Known db p.name.hash) && decide (p.parent.hash = 0 ∨ Known db p.parent.hash)
    | none => true) &&
  (db.containerInfos.all fun c => decide (Known db c.name.hash)) &&
  (db.fields.all fun f => decide (f.type.hash = 0 ∨ Known db f.type.hash)) &&
  ((List.range db.fields.length).all fun i => (refs db).any fun s => recB db (.field, i) s) &&
  decide (db.types.length + db.classes.length + db.enums.length + db.templateTypes.length ≤ 2 ^ 30) &&
  decide (db.functions.length ≤ 2 ^ 30)

theorem wellFormed_of {db : DB.Database} {fuel : Nat} (h : checkW db = true)
    (ha : ∃ rank : UInt32 → Nat, (∀ h, rank h < fuel) ∧ ∀ t ∈ db.inheritances, rank t.base.hash < rank t.derived.hash) :
    WellFormed fuel db := by
  unfold checkW at h
  simp only [Bool.and_eq_true, List.all_eq_true, decide_eq_true_eq] at h
  obtain ⟨⟨⟨⟨⟨h1, h2⟩, h3⟩, h4⟩, h5⟩, h6⟩ := h
  refine ⟨?_, h2, ?_, h3, ?_, h5, h6, ha⟩
  · intro r p hp
    have := h1 r (entry_refs hp)
    rw [hp] at this
    simp only [Bool.and_eq_true, decide_eq_true_eq] at this
    exact this.1
  · intro r p hp
    have := h1 r (entry_refs hp)
    rw [hp] at this
    simp only [Bool.and_eq_true, decide_eq_true_eq] at this
    exact this.2
  · intro i hi
    have := h4 i (List.mem_range.mpr hi)
    rw [List.any_eq_true] at this
    obtain ⟨s, _, hs⟩ := this
    exact ⟨s, recB_records hs⟩

/-- The checks for `LaidOut sampleEnv`: tables are short and hashes are not small. -/
def checkL (db : DB.Database) : Bool :=
  (kinds.all fun k => decide (tableSize db k ≤ 16)) &&
  (db.names.all fun n => decide (4096 ≤ n.hash.toNat)) &&
  ((refs db).all fun c => (refs db).all fun s => !recB db c s ||
    decide (4096 ≤ (hashOf (nameText db s ++ b!"::" ++ nameText db c)).toNat))

theorem laidOut_of {db : DB.Database} (h : checkL db = true) : LaidOut sampleEnv db := by
  unfold checkL at h
  simp only [Bool.and_eq_true, List.all_eq_true, decide_eq_true_eq, Bool.or_eq_true, Bool.not_eq_true'] at h
  obtain ⟨⟨h1, h2⟩, h3⟩ := h
  have h1' : ∀ k, tableSize db k ≤ 16 := fun k => h1 k (by cases k <;> decide)
  have hlow : ∀ r : Ref, r.2 < tableSize db r.1 → (UInt32.ofNat (sampleEnv.addr r)).toNat < 4096 := by
    intro r hr
    have := h1' r.1
    simp only [sampleEnv, Env.addr, UInt32.toNat_ofNat']
    omega
  refine ⟨?_, ?_, ?_, ?_, ?_, ?_⟩
  · intro k; simp only [sampleEnv]; omega
  · intro k; simp only [sampleEnv]; decide
  · rintro r k hr hne ⟨ha, hb⟩
    have s1 := h1' r.1
    have s2 := h1' k
    simp only [sampleEnv, Env.addr] at ha hb
    have hne' : kindCode r.1 ≠ kindCode k := by
      intro e
      apply hne
      revert e
      cases r.1 <;> cases k <;> simp [kindCode]
    omega
  · intro key l
    simp only [sampleEnv]
    induction l with
    | nil => exact ⟨List.Perm.refl _, List.Pairwise.nil⟩
    | cons a l ih =>
      rw [List.foldr_cons]
      exact ⟨(Merge.perm_insertBy a _).trans (ih.1.cons a), Merge.sorted_insertBy a _ ih.2⟩
  · rintro r hr ⟨n, hn, e⟩
    have := h2 n hn
    have := hlow r hr
    rw [← e] at this
    omega
  · intro r hr c s hs e
    obtain ⟨p, q, hp, hq, _⟩ := hs.2.1
    rcases h3 c (entry_refs hp) s (entry_refs hq) with h | h
    · rw [recB_of hs] at h; cases h
    · have := hlow r hr
      rw [← e] at this
      omega

theorem sample_ready : Ready sampleEnv 2 sampleDb where
  wellFormed := wellFormed_of (by decide +kernel)
    ⟨fun h => if h = hashOf b!"g::D" then 1 else 0, fun h => by dsimp only; split <;> omega, by decide +kernel⟩
  unambiguous := unambiguous_of (by decide +kernel)
  laidOut := laidOut_of (by decide +kernel)

/-- A property of the exported database. -/
def onOk (o : Option (Res St)) (f : St → Bool) : Bool :=
  match o with
  | some (.ok F) => f F
  | _ => false

theorem onOk_spec {o : Option (Res St)} {f : St → Bool} (h : onOk o f = true) : ∃ F, o = some (.ok F) ∧ f F = true := by
  unfold onOk at h
  split at h
  · next F => exact ⟨F, rfl, h⟩
  · cases h

/-- The sample is not trivial: what the exporter makes of it. -/
example : onOk (exportDB sampleEnv 2 sampleDb) (fun F =>
    ((F.get (.cls, 0)).kids .fields == [(.field, 0)]) && ((F.get (.cls, 0)).kids .methods == [(.function, 0)]) &&
    ((F.get (.cls, 0)).kids .bases == [(.cls, 1)]) && ((F.get (.function, 0)).ret == some (.field, 3)) &&
    ((F.get (.function, 0)).kids .parameters == [(.field, 2)]) && ((F.get (.field, 0)).type == .obj (.type, 0)) &&
    (F.globals .namespaces == [(.space, 0)]) && ((F.get (.cls, 1)).kids .attributes).length == 2) = true := by
  decide +kernel

example : UniqueTypes sampleDb := by
  have h : ∀ t ∈ refs sampleDb, ∀ t' ∈ refs sampleDb, t.1 ∈ typeKinds → t'.1 ∈ typeKinds →
      (entry sampleDb t).map (·.name.hash) = (entry sampleDb t').map (·.name.hash) → t = t' := by
    unfold typeKinds; decide +kernel
  intro t t' p p' h1 h2 e1 e2 e3
  exact h t (entry_refs e1) t' (entry_refs e2) h1 h2 (by rw [e1, e2]; simp [e3])

example : ∀ r p, entry sampleDb r = some p → p.name.hash ≠ 0 := by
  have h : ∀ t ∈ refs sampleDb, (entry sampleDb t).map (·.name.hash) ≠ some 0 := by decide +kernel
  intro r p hp e
  exact h r (entry_refs hp) (by rw [hp]; simp [e])

/-! ### Where the exporter disappoints -/

/-- The same, with the classes placed so that the low half of the first one's address is the hash of `g`. -/
def unluckyEnv : Env := { sampleEnv with base := fun k => 2 ^ 32 * (kindCode k + 1) + if k = .cls then (hashOf b!"g").toNat else 0 }

/-- C17 is false of some layouts: pointers are told from unresolved names by their low 32 bits alone, so the
children of an object at an unlucky address lose their parent, or are given to whatever has that name: here the
method of class `g::D` becomes a function of namespace `g`. -/
theorem C17_alias_negation : Records sampleDb (.function, 0) (.cls, 0) ∧ Records sampleDb (.field, 0) (.cls, 0) ∧
    WellFormed 2 sampleDb ∧ Unambiguous sampleDb ∧
    ∃ F, exportDB unluckyEnv 2 sampleDb = some (.ok F) ∧ (F.get (.field, 0)).parent = .raw 0 ∧
      (F.get (.function, 0)).parent = .obj (.space, 0) := by
  refine ⟨recB_records (by decide +kernel), recB_records (by decide +kernel), sample_ready.wellFormed, sample_ready.unambiguous, ?_⟩
  obtain ⟨F, h1, h2⟩ := onOk_spec (o := exportDB unluckyEnv 2 sampleDb)
    (f := fun F => (F.get (.field, 0)).parent == .raw 0 && (F.get (.function, 0)).parent == .obj (.space, 0)) (by decide +kernel)
  simp only [Bool.and_eq_true, beq_iff_eq] at h2
  exact ⟨F, h1, h2.1, h2.2⟩

/-- One field of a class that is not in the database. -/
def orphanDb : DB.Database :=
  { names := [nm b!"x", nm b!"C", nm b!"int"], fields := [{ name := nm b!"x", parent := nm b!"C", type := nm b!"int" }] }

/-- C17: the export of a database with a field whose class is not there dereferences the unresolved name. -/
theorem C17_orphan_field_ub (fuel : Nat) : exportDB sampleEnv fuel orphanDb = some .ub := by
  have h : (match (exportScopes sampleEnv orphanDb).bind (exportLinks sampleEnv orphanDb) with
    | .ub => true
    | _ => false) = true := by decide +kernel
  unfold exportDB
  split at h
  · next e => rw [e]
  · cases h

/-- Two overloads of a function, and an attribute for the second of them: the database records its name only. -/
def overloadDb : DB.Database :=
  { names := [nm b!"f", nm b!"transient"]
    functions := [{ name := nm b!"f", uniqueId := 1 }, { name := nm b!"f", uniqueId := 2 }]
    flagAttributes := [{ name := nm b!"transient", parent := nm b!"f" }] }

/-- C17, C19: attributes of overloaded functions all go to the first overload. -/
theorem C17_overload_attributes : AttributeOf overloadDb (.flagAttr, 0) (.function, 1) ∧
    ∃ F, exportDB sampleEnv 1 overloadDb = some (.ok F) ∧ (F.get (.function, 0)).kids .attributes = [(.flagAttr, 0)] ∧
      (F.get (.function, 1)).kids .attributes = [] ∧ (F.get (.function, 1)).flags = 0 := by
  refine ⟨⟨by decide, { name := nm b!"transient", parent := nm b!"f" }, rfl, .inl ⟨by decide, { name := nm b!"f" }, rfl, rfl⟩⟩, ?_⟩
  obtain ⟨F, h1, h2⟩ := onOk_spec (o := exportDB sampleEnv 1 overloadDb)
    (f := fun F => ((F.get (.function, 0)).kids .attributes == [(.flagAttr, 0)]) &&
      ((F.get (.function, 1)).kids .attributes == []) && (F.get (.function, 1)).flags == 0) (by decide +kernel)
  simp only [Bool.and_eq_true, beq_iff_eq] at h2
  exact ⟨F, h1, h2.1.1, h2.1.2, h2.2⟩

/-- An attribute that names a primitive, of a class that is not in the database. -/
def looseDb : DB.Database :=
  { names := [nm b!"a", nm b!"C", nm b!"int"], primitiveAttributes := [{ name := nm b!"a", parent := nm b!"C", value := nm b!"int" }] }

/-- C17: the parent of an attribute that names a primitive is not checked: unresolved, the hash of the name stays
in the exported pointer. -/
theorem C17_primitive_attribute_keeps_hash :
    ∃ F, exportDB sampleEnv 1 looseDb = some (.ok F) ∧ (F.get (.primAttr, 0)).parent = .raw (hashOf b!"C").toNat := by
  obtain ⟨F, h1, h2⟩ := onOk_spec (o := exportDB sampleEnv 1 looseDb)
    (f := fun F => (F.get (.primAttr, 0)).parent == .raw (hashOf b!"C").toNat) (by decide +kernel)
  exact ⟨F, h1, by simpa using h2⟩

/-- C19: transience is not inherited: `D` derives from `B`, which is transient and replicated, and is replicated
only. -/
theorem C19_transient_not_inherited : InheritsFrom sampleDb (.cls, 0) (.cls, 1) ∧
    ∃ F, exportDB sampleEnv 2 sampleDb = some (.ok F) ∧ (F.get (.cls, 1)).flags = 0x10B#32 ∧
      (F.get (.cls, 0)).flags = 0x100#32 := by
  refine ⟨⟨by decide, by decide, { derived := nm b!"g::D", base := nm b!"g::B" }, by decide +kernel, { name := nm b!"g::D", parent := nm b!"g" },
    { name := nm b!"g::B", parent := nm b!"g" }, rfl, rfl, rfl, rfl⟩, ?_⟩
  obtain ⟨F, h1, h2⟩ := onOk_spec (o := exportDB sampleEnv 2 sampleDb)
    (f := fun F => ((F.get (.cls, 1)).flags == 0x10B#32) && (F.get (.cls, 0)).flags == 0x100#32) (by decide +kernel)
  simp only [Bool.and_eq_true, beq_iff_eq] at h2
  exact ⟨F, h1, h2.1, h2.2⟩

/-- Two modules that disagree about who derives from whom, merged. -/
def cyclicDb : DB.Database :=
  { names := [nm b!"A", nm b!"B"]
    classes := [{ name := nm b!"A" }, { name := nm b!"B" }]
    inheritances := [{ derived := nm b!"A", base := nm b!"B" }, { derived := nm b!"B", base := nm b!"A" }] }

theorem inherit_cyclic (st : St) (h0 : (st.get (.cls, 0)).kids .bases = [(.cls, 1)])
    (h1 : (st.get (.cls, 1)).kids .bases = [(.cls, 0)]) (fuel : Nat) (flags : Ref → BitVec 32) :
    inherit st fuel (.cls, 0) flags = none ∧ inherit st fuel (.cls, 1) flags = none := by
  induction fuel generalizing flags with
  | zero => exact ⟨rfl, rfl⟩
  | succ n ih =>
    constructor
    · rw [inherit, h0, inheritBases, (ih flags).2]
    · rw [inherit, h1, inheritBases, (ih flags).1]

/-- C19: with a cycle among the base types the inheritance of flags recurses for ever. -/
theorem C19_cyclic_never_ends (fuel : Nat) : exportDB sampleEnv fuel cyclicDb = none := by
  have h : (match (exportScopes sampleEnv cyclicDb).bind (exportLinks sampleEnv cyclicDb) with
    | .ok st => ((st.get (.cls, 0)).kids .bases == [(.cls, 1)]) && ((st.get (.cls, 1)).kids .bases == [(.cls, 0)]) &&
      (st.all .cls == [(.cls, 0), (.cls, 1)])
    | _ => false) = true := by decide +kernel
  unfold exportDB
  split at h
  · next st e =>
    rw [e]
    simp only [Bool.and_eq_true, beq_iff_eq] at h
    simp only
    unfold inheritAll
    rw [h.2, inheritClasses, (inherit_cyclic st h.1.1 h.1.2 fuel _).1]
    rfl
  · cases h

/-- `void f(missing p)` outside all namespaces. -/
def globalDb : DB.Database :=
  { names := [nm b!"f", nm b!"p", nm b!"missing"]
    functions := [{ name := nm b!"f", uniqueId := 1 }]
    fields := [{ name := nm b!"p", parent := nm b!"f", type := nm b!"missing", parentUniqueId := 1 }] }

/-- C20 is false of functions outside all namespaces: they are exported with parameters whose type is null. -/
theorem C20_global_function_negation : Ready sampleEnv 1 globalDb ∧
    ∃ F, exportDB sampleEnv 1 globalDb = some (.ok F) ∧ F.globals .functions = [(.function, 0)] ∧
      (F.get (.function, 0)).kids .parameters = [(.field, 0)] ∧ (F.get (.field, 0)).type = .raw 0 := by
  refine ⟨⟨wellFormed_of (by decide +kernel) ⟨fun _ => 0, fun _ => Nat.one_pos, by decide⟩,
    unambiguous_of (by decide +kernel), laidOut_of (by decide +kernel)⟩, ?_⟩
  obtain ⟨F, h1, h2⟩ := onOk_spec (o := exportDB sampleEnv 1 globalDb)
    (f := fun F => (F.globals .functions == [(.function, 0)]) && ((F.get (.function, 0)).kids .parameters == [(.field, 0)]) &&
      (F.get (.field, 0)).type == .raw 0) (by decide +kernel)
  simp only [Bool.and_eq_true, beq_iff_eq] at h2
  exact ⟨F, h1, h2.1.1, h2.1.2, h2.2⟩

end Clr.Export
