import Verif.Proofs.ScanUnitRuns
import Verif.Props.ScanTypes
/-!
What is done for a single declaration.
-/
namespace Clr.ScanUnit
open Clr.ScanTypes
open Clr.Hash (Op)

/-! ### Which base classes are recorded -/

/-- The outcome's database, if there is one, is related to `db`. -/
def Rel {α : Type} (R : Db → Db → Prop) (db : Db) : Out α → Prop
  | .never => True
  | .fail _ db' => R db db'
  | .ok _ db' => R db db'

theorem rel_bind {α β : Type} {R : Db → Db → Prop} (ht : ∀ a b c, R a b → R b c → R a c) (db : Db) (x : Out α)
    (f : α → Db → Out β) (hx : Rel R db x) (hf : ∀ a db', x = .ok a db' → Rel R db' (f a db')) : Rel R db (x.bind f) := by
  cases x with
  | never => exact hx
  | fail s d => exact hx
  | ok a d =>
    have := hf a d rfl
    unfold Out.bind
    dsimp only
    generalize f a d = y at this ⊢
    cases y with
    | never => exact trivial
    | fail s d' => exact ht _ _ _ hx this
    | ok b d' => exact ht _ _ _ hx this

theorem rel_db {α : Type} {R : Db → Db → Prop} {db d : Db} {x : Out α} (h : Rel R db x) (hd : x.db? = some d) : R db d := by
  cases x with
  | never => cases hd
  | fail s d' => injection hd with hd; subst hd; exact h
  | ok a d' => injection hd with hd; subst hd; exact h

/-- What is added to the base classes has the property. -/
def NewInh (I : Bytes × Bytes → Prop) (db db' : Db) : Prop := ∀ r ∈ db'.inherits, r ∈ db.inherits ∨ I r

theorem newInh_refl (I : Bytes × Bytes → Prop) (db : Db) : NewInh I db db := fun _ h => .inl h

theorem newInh_trans (I : Bytes × Bytes → Prop) (a b c : Db) (h : NewInh I a b) (h' : NewInh I b c) : NewInh I a c := by
  intro r hr
  rcases h' r hr with h1 | h1
  · exact h r h1
  · exact .inr h1

/-- A base class of an instance of a template. -/
def InstBase (env : Env) (r : Bytes × Bytes) : Prop := ∃ id, HasName env (.inst id) r.1 ∧ BaseName env (env id).bases r.2

theorem newInh_add (I : Bytes × Bytes → Prop) (db : Db) (d b : Bytes) (h : I (d, b)) : NewInh I db (db.addInheritance d b) := by
  intro r hr
  unfold Db.addInheritance at hr
  split at hr
  · exact .inl hr
  · rcases List.mem_append.1 hr with hr | hr
    · exact .inl hr
    · rw [List.mem_singleton] at hr
      subst hr
      exact .inr h

theorem paramInfo_inh {I : Bytes × Bytes → Prop} {env : Env} {self : Nat → Db → Out Bytes} (hd : ∀ id, (env id).declared = true)
    (hs : ∀ id db, Rel (NewInh I) db (self id db)) (t : CType) (db : Db) : Rel (NewInh I) db (paramInfo env self t db) := by
  rw [paramInfo_eq env self hd]
  cases ha : arrayStep t with
  | none => exact newInh_refl I db
  | some ne =>
    obtain ⟨n, e⟩ := ne
    dsimp only
    refine rel_bind (newInh_trans I) db _ _ ?_ fun a d _ => newInh_refl I d
    unfold baseName
    split
    all_goals first | exact hs _ db | exact newInh_refl I db

theorem argLoop_inh {I : Bytes × Bytes → Prop} {env : Env} {self : Nat → Db → Out Bytes} (hd : ∀ id, (env id).declared = true)
    (hs : ∀ id db, Rel (NewInh I) db (self id db)) (args : List Arg) (done : List PInfo) (db : Db) :
    Rel (NewInh I) db (argLoop env self args done db) := by
  induction args generalizing done db with
  | nil => exact newInh_refl I db
  | cons a r ih =>
    cases a with
    | other => exact newInh_refl I db
    | type t =>
      unfold argLoop
      refine rel_bind (newInh_trans I) db _ _ (paramInfo_inh hd hs t db) fun i d _ => ?_
      split
      · exact newInh_refl I d
      · split
        · exact newInh_refl I d
        · exact ih _ _

theorem baseLoop_inh {I : Bytes × Bytes → Prop} {env : Env} {self : Nat → Db → Out Bytes} (he : WellNamedEnv env) (hk : SelfOk env self)
    (hs : ∀ id db, Rel (NewInh I) db (self id db)) (derived : Bytes) (bases : List Base)
    (hw : ∀ b ∈ bases, WellNamed b.type ∧ ∃ c u, Means b.type c u ∧ IsClass u)
    (hI : ∀ y, BaseName env bases y → I (derived, y)) (db : Db) : Rel (NewInh I) db (baseLoop env self derived bases db) := by
  induction bases generalizing db with
  | nil => exact newInh_refl I db
  | cons b r ih =>
    unfold baseLoop
    obtain ⟨w1, c, u, w2, w3⟩ := hw b List.mem_cons_self
    refine rel_bind (newInh_trans I) db _ _ ?_ fun a d _ => ih (fun b hb => hw b (List.mem_cons_of_mem _ hb)) (fun y hy => ?_) d
    · rw [parseBase_eq env self he.declared derived b w1 c u w2 w3 db]
      split
      · exact newInh_refl I db
      · have key : ∀ y, HasName env u y → I (derived, y) := fun y hy => hI y ⟨b, List.mem_cons_self, c, u, w2, hy⟩
        cases w3 with
        | record => exact newInh_add I db _ _ (key _ .record)
        | inst =>
          refine rel_bind (newInh_trans I) db _ _ (hs _ db) fun a d ha => newInh_add I d _ _ (key _ (hk.name _ _ _ _ ha).1)
        | spec =>
          refine rel_bind (newInh_trans I) db _ _ (hs _ db) fun a d ha => newInh_add I d _ _ (key _ (.spec (hk.name _ _ _ _ ha).1))
    · obtain ⟨b', hb', h⟩ := hy
      exact hI y ⟨b', List.mem_cons_of_mem _ hb', h⟩

theorem parseInst_inh {env : Env} (he : WellNamedEnv env) (fuel : Nat) :
    ∀ id db, Rel (NewInh (InstBase env)) db (parseInst env fuel id db) := by
  induction fuel with
  | zero => exact fun _ _ => trivial
  | succ n ih =>
    intro id db
    unfold parseInst instBody
    split
    · exact newInh_refl _ db
    · refine rel_bind (newInh_trans _) db _ _ (argLoop_inh he.declared ih _ _ db) fun infos d hi => ?_
      dsimp only
      split
      · exact newInh_refl _ d
      · refine rel_bind (newInh_trans _) d _ _ (baseLoop_inh he (parseInst_ok he n) ih _ _ (he.bases id) (fun y hy => ?_) d)
          fun u d' _ => newInh_refl _ d'
        obtain ⟨new, e1, e2, _⟩ := (argLoop_ok he (parseInst_ok he n) (env id).args (he.args id) [] db).2 infos d hi
        rw [List.nil_append] at e1
        subst e1
        refine ⟨id, ?_, hy⟩
        dsimp only
        rw [instName, argsText_listing]
        exact .inst e2

theorem addInheritance_again (db : Db) (d b : Bytes) : (db.addInheritance d b).addInheritance d b = db.addInheritance d b := by
  have h := (addInheritance_grows db d b).2.1
  generalize db.addInheritance d b = e at h
  unfold Db.addInheritance
  rw [if_pos h]

/-- The inheritance added a second time is there already. -/
theorem classBases_eq (env : Env) (self : Nat → Db → Out Bytes) (derived : Bytes) (bases : List Base) (db : Db) :
    classBases env self derived bases db = baseLoop env self derived bases db := by
  induction bases generalizing db with
  | nil => rfl
  | cons b r ih =>
    unfold classBases baseLoop
    cases h : parseBase env self derived b db with
    | never => rfl
    | fail s d => rfl
    | ok x d =>
      show classBases env self derived r (d.addInheritance derived x) = baseLoop env self derived r d
      have : d.addInheritance derived x = d := by
        unfold parseBase at h
        dsimp only at h
        split at h
        · cases h
        · obtain ⟨y, d', _, h⟩ := bind_ok _ _ _ _ h
          injection h with h1 h2
          subst h1 h2
          exact addInheritance_again _ _ _
      rw [this, ih]

/-! ### From one database to the next -/

/-- The tables other than those of functions and fields: only what has the properties is added to those of arrays and base classes. -/
structure Ext (env : Env) (N : Container → Prop) (I : Bytes × Bytes → Prop) (db db' : Db) : Prop where
  templateTypes : db.templateTypes <+: db'.templateTypes
  inherits : db.inherits <+: db'.inherits
  enums : db'.enums = db.enums
  constants : db'.constants = db.constants
  good : GoodDb env db → GoodDb env db'
  newInh : NewInh I db db'
  containers : ∃ new, db'.containers = db.containers ++ new ∧ ∀ c ∈ new, N c

theorem Ext.refl (env : Env) (N : Container → Prop) (I : Bytes × Bytes → Prop) (db : Db) : Ext env N I db db :=
  ⟨List.prefix_refl _, List.prefix_refl _, rfl, rfl, id, newInh_refl I db, [], by simp, by simp⟩

theorem Ext.trans {env : Env} {N : Container → Prop} {I : Bytes × Bytes → Prop} {a b c : Db} (h : Ext env N I a b) (h' : Ext env N I b c) :
    Ext env N I a c := by
  obtain ⟨n1, e1, k1⟩ := h.containers
  obtain ⟨n2, e2, k2⟩ := h'.containers
  refine ⟨h.1.trans h'.1, h.2.trans h'.2, h'.3.trans h.3, h'.4.trans h.4, fun g => h'.5 (h.5 g), newInh_trans I _ _ _ h.6 h'.6,
    n1 ++ n2, by rw [e2, e1, List.append_assoc], fun c hc => ?_⟩
  rcases List.mem_append.1 hc with hc | hc
  · exact k1 c hc
  · exact k2 c hc

theorem Ext.mono {env : Env} {N N' : Container → Prop} {I I' : Bytes × Bytes → Prop} {a b : Db} (h : Ext env N I a b)
    (hN : ∀ c, N c → N' c) (hI : ∀ r, I r → I' r) : Ext env N' I' a b := by
  obtain ⟨n1, e1, k1⟩ := h.containers
  refine ⟨h.1, h.2, h.3, h.4, h.5, fun r hr => ?_, n1, e1, fun c hc => hN c (k1 c hc)⟩
  rcases h.6 r hr with h1 | h1
  · exact .inl h1
  · exact .inr (hI r h1)

theorem Ext.subset {env : Env} {N : Container → Prop} {I : Bytes × Bytes → Prop} {a b : Db} (h : Ext env N I a b) :
    a.containers ⊆ b.containers := by
  obtain ⟨n1, e1, _⟩ := h.containers
  rw [e1]
  exact List.subset_append_left _ _

theorem Ext.typeNames {env : Env} {N : Container → Prop} {I : Bytes × Bytes → Prop} {a b : Db} (h : Ext env N I a b) {x : Bytes}
    (hx : x ∈ a.typeNames) : x ∈ b.typeNames := by
  obtain ⟨e, he, rfl⟩ := List.mem_map.mp hx
  exact List.mem_map.mpr ⟨e, h.1.subset he, rfl⟩

theorem good_same {env : Env} {db db' : Db} (h1 : db'.templateTypes = db.templateTypes) (h2 : db'.inherits = db.inherits)
    (g : GoodDb env db) : GoodDb env db' := by
  intro e he
  rw [h1] at he
  obtain ⟨id, hd⟩ := g e he
  refine ⟨id, { hd with args := ?_, bases := ?_ }⟩
  · unfold Db.typeNames
    rw [h1]
    exact hd.args
  · unfold Db.typeNames
    rw [h1, h2]
    exact hd.bases

/-- The entry of an array. -/
def ArrayOf (env : Env) (t : CType) (name parent : Bytes) (c : Container) : Prop :=
  ∃ j, Declares env t j ∧ j.count ≠ 0 ∧ c = ⟨parent ++ b!"::" ++ name, j.count⟩

theorem paramInfo_ext {env : Env} (he : WellNamedEnv env) (fuel : Nat) (t : CType) (hw : WellNamed t) (db d : Db)
    (h : (paramInfo env (parseInst env fuel) t db).db? = some d) (N : Container → Prop) : Ext env N (InstBase env) db d := by
  have hst := paramInfo_grows he fuel t hw db d h
  exact ⟨hst.1.templateTypes, hst.1.inherits, hst.1.enums, hst.1.constants, hst.2,
    rel_db (paramInfo_inh he.declared (parseInst_inh he fuel) t db) h, [], by rw [hst.1.containers]; simp, by simp⟩

theorem makeField_ext {env : Env} (he : WellNamedEnv env) (fuel : Nat) (t : CType) (hw : WellNamed t) (name parent : Bytes)
    (offset : Int) (db d : Db) (h : (makeField env (parseInst env fuel) t name parent offset db).db? = some d) :
    Ext env (ArrayOf env t name parent) (InstBase env) db d := by
  unfold makeField at h
  rcases bind_db _ _ _ h with ⟨s, hs⟩ | ⟨i, d', hi, h⟩
  · exact paramInfo_ext he fuel t hw db d (by rw [hs]; rfl) _
  · have hx := paramInfo_ext he fuel t hw db d' (by rw [hi]; rfl) (ArrayOf env t name parent)
    have hdec := ((paramInfo_ok he (parseInst_ok he fuel) t hw db).2 i d' hi).1
    injection h with h
    subst h
    split
    · rename_i hc
      refine hx.trans ⟨List.prefix_refl _, List.prefix_refl _, rfl, rfl, good_same rfl rfl, newInh_refl _ _, _, rfl, ?_⟩
      intro c hc'
      rw [List.mem_singleton] at hc'
      exact ⟨i, hdec, hc, hc'⟩
    · exact hx

theorem makeField_array {env : Env} (he : WellNamedEnv env) (fuel : Nat) (t : CType) (hw : WellNamed t) (name parent : Bytes)
    (offset : Int) (db d : Db) (f : Field) (h : makeField env (parseInst env fuel) t name parent offset db = .ok f d) (c : Container)
    (hc : ArrayOf env t name parent c) : c ∈ d.containers := by
  obtain ⟨⟨i, h1, _, h3⟩, _⟩ := makeField_ok he fuel t hw name parent offset db d f h
  obtain ⟨j, j1, j2, rfl⟩ := hc
  have : i = j := C66_spec_deterministic t i j h1 j1
  subst this
  rw [h3, if_pos j2]
  simp

/-- Arrays among parameters. -/
def ParamArray (env : Env) (fn : Bytes) (k : Nat) (ps : List ParamDecl) (c : Container) : Prop :=
  ∃ n p x, ps[n]? = some p ∧ NameOf p (k + n) x ∧ ArrayOf env p.type x fn c

theorem nameOf_eq {p : ParamDecl} {k : Nat} {x : Bytes} (h : NameOf p k x) : x = paramName p k := by
  unfold paramName
  rcases h with ⟨h1, h2⟩ | ⟨h1, h2⟩
  · rw [if_neg h1, h2]
  · rw [if_pos h1, h2]

theorem paramLoop_ext {env : Env} (he : WellNamedEnv env) (fuel : Nat) (fn : Bytes) (ps : List ParamDecl)
    (hw : ∀ p ∈ ps, WellNamed p.type) (k : Nat) (done : List Field) (db d : Db)
    (h : (paramLoop env (parseInst env fuel) fn ps k done db).db? = some d) :
    Ext env (ParamArray env fn k ps) (InstBase env) db d ∧
      ∀ fs, paramLoop env (parseInst env fuel) fn ps k done db = .ok fs d → ∀ c, ParamArray env fn k ps c → c ∈ d.containers := by
  induction ps generalizing k done db with
  | nil =>
    injection h with h
    subst h
    refine ⟨Ext.refl _ _ _ _, fun fs _ c hc => ?_⟩
    obtain ⟨n, p, x, h1, _⟩ := hc
    cases n <;> cases h1
  | cons p r ih =>
    have hp := hw p List.mem_cons_self
    have hr : ∀ p ∈ r, WellNamed p.type := fun p h => hw p (List.mem_cons_of_mem _ h)
    have first : ∀ c, ArrayOf env p.type (paramName p k) fn c → ParamArray env fn k (p :: r) c := fun c hc =>
      ⟨0, p, _, rfl, nameOf_paramName p k, hc⟩
    have rest : ∀ c, ParamArray env fn (k + 1) r c → ParamArray env fn k (p :: r) c := by
      rintro c ⟨n, q, x, h1, h2, h3⟩
      exact ⟨n + 1, q, x, h1, by rw [show k + (n + 1) = k + 1 + n by omega]; exact h2, h3⟩
    unfold paramLoop at h ⊢
    rcases bind_db _ _ _ h with ⟨s, hs⟩ | ⟨f, d', hf, h⟩
    · refine ⟨(makeField_ext he fuel p.type hp _ _ _ db d (by rw [hs]; rfl)).mono first fun _ h => h, fun fs h => ?_⟩
      rw [hs] at h
      cases h
    · obtain ⟨e1, e2⟩ := ih hr (k + 1) _ d' h
      have e0 := makeField_ext he fuel p.type hp _ _ _ db d' (by rw [hf]; rfl)
      refine ⟨(e0.mono first fun _ h => h).trans (e1.mono rest fun _ h => h), fun fs hfs c hc => ?_⟩
      obtain ⟨n, q, x, h1, h2, h3⟩ := hc
      rw [hf] at hfs
      cases n with
      | zero =>
        injection h1 with h1
        subst h1
        rw [nameOf_eq h2] at h3
        exact e1.subset (makeField_array he fuel p.type hp _ _ _ db d' f hf c h3)
      | succ n => exact e2 fs hfs c ⟨n, q, x, h1, by rw [show k + 1 + n = k + (n + 1) by omega]; exact h2, h3⟩

/-- Arrays in the declaration of a function. -/
def FnArray (env : Env) (fd : FnDecl) (k : Nat) (c : Container) : Prop :=
  ArrayOf env (callResult fd.result) b!"return" fd.name c ∨ ParamArray env fd.name k fd.params c

theorem makeFunction_ext {env : Env} (he : WellNamedEnv env) (fuel : Nat) (fd : FnDecl) (pre : List Field) (db d : Db)
    (hw : ∀ p ∈ fd.params, WellNamed p.type) (hr : WellNamed (callResult fd.result))
    (h : (makeFunction env (parseInst env fuel) fd pre db).db? = some d) :
    Ext env (FnArray env fd pre.length) (InstBase env) db d ∧
      (fd.first = true → makeFunction env (parseInst env fuel) fd pre db = .ok () d → ∀ c, FnArray env fd pre.length c → c ∈ d.containers) := by
  cases hf : fd.first with
  | false =>
    unfold makeFunction at h
    rw [hf] at h
    injection h with h
    subst h
    exact ⟨Ext.refl _ _ _ _, fun h => by cases h⟩
  | true =>
    unfold makeFunction at h ⊢
    rw [hf] at h ⊢
    simp only [Bool.not_true, Bool.false_eq_true, if_false] at h ⊢
    rcases bind_db _ _ _ h with ⟨s, hs⟩ | ⟨ret, d1, h1, h⟩
    · refine ⟨(makeField_ext he fuel _ hr _ _ _ db d (by rw [hs]; rfl)).mono (fun _ h => .inl h) fun _ h => h, fun _ h => ?_⟩
      rw [hs] at h
      cases h
    · have e0 := (makeField_ext he fuel _ hr _ _ _ db d1 (by rw [h1]; rfl)).mono (N' := FnArray env fd pre.length)
        (fun _ h => .inl h) fun _ h => h
      rw [h1]
      show _ ∧ (_ → Out.bind _ _ = _ → _)
      rcases bind_db _ _ _ h with ⟨s, hs⟩ | ⟨fs, d2, h2, h⟩
      · obtain ⟨e1, _⟩ := paramLoop_ext he fuel fd.name fd.params hw _ _ d1 d (by rw [hs]; rfl)
        refine ⟨e0.trans (e1.mono (fun _ h => .inr h) fun _ h => h), fun _ h => ?_⟩
        dsimp only [Out.bind] at h
        rw [hs] at h
        cases h
      · obtain ⟨e1, e2⟩ := paramLoop_ext he fuel fd.name fd.params hw _ _ d1 d2 (by rw [h2]; rfl)
        injection h with h
        subst h
        have e3 : Ext env (FnArray env fd pre.length) (InstBase env) d2 (addFunction fd ret fs d2) :=
          ⟨List.prefix_refl _, List.prefix_refl _, rfl, rfl, good_same rfl rfl, newInh_refl _ _, [], by simp [addFunction], by simp⟩
        refine ⟨(e0.trans (e1.mono (fun _ h => .inr h) fun _ h => h)).trans e3, fun _ _ c hc => ?_⟩
        rcases hc with hc | hc
        · exact e3.subset (e1.subset (makeField_array he fuel _ hr _ _ _ db d1 ret h1 c hc))
        · exact e3.subset (e2 fs h2 c hc)

/-! ### One declaration -/

/-- Added unless there is one of that name. -/
def push {α : Type} (name : α → Bytes) (l : List α) : Option α → List α
  | none => l
  | some x => if l.any (fun y => name y == name x) then l else l ++ [x]

/-- What happens to the classes. -/
def clsStep (p : Bytes) (x : Marked) (l : List Cls) : List Cls :=
  if x.2 then
    match x.1.what with
    | .cls isClass definition _ false _ _ size =>
      let l' := push Cls.name l (some { name := x.1.name, parent := p, isClass := isClass })
      if definition then setSize x.1.name size l' else l'
    | _ => l
  else l

/-- What is added to the base classes for a declaration. -/
def ClsBase (env : Env) (i : Item) (r : Bytes × Bytes) : Prop :=
  (r.1 = i.name ∧ ∃ isClass freeStanding anonymous vbases bases size,
    i.what = .cls isClass true freeStanding anonymous vbases bases size ∧ BaseName env bases r.2) ∨ InstBase env r

/-- An array of a declaration. -/
def ItemArray (env : Env) (p : Bytes) (i : Item) (c : Container) : Prop :=
  ∃ parent name t j, Has (p, i) parent name t ∧ Declares env t j ∧ j.count ≠ 0 ∧ c = ⟨parent ++ b!"::" ++ name, j.count⟩

/-- What is done for a declaration. -/
structure Effect (env : Env) (p : Bytes) (x : Marked) (d d1 : Data) : Prop where
  templateTypes : d.db.templateTypes <+: d1.db.templateTypes
  inherits : d.db.inherits <+: d1.db.inherits
  good : GoodDb env d.db → GoodDb env d1.db
  newInh : NewInh (ClsBase env x.1) d.db d1.db
  containers : ∃ new, d1.db.containers = d.db.containers ++ new ∧ ∀ c ∈ new, ItemArray env p x.1 c
  arrays : x.2 = true → ∀ c, ItemArray env p x.1 c → c ∈ d1.db.containers
  block : ∃ B : Block, (x.2 = true → Says env p x.1 B) ∧ (x.2 = false → B = {}) ∧ d1.db.functions = d.db.functions ++ B.functions ∧
    d1.db.fields = d.db.fields ++ B.fields ∧ d1.db.enums = d.db.enums ++ B.enums ∧ d1.db.constants = d.db.constants ++ B.constants
  namespaces : d1.namespaces = push Prod.fst d.namespaces (if x.2 then namespaceOf (p, x.1) else none)
  templates : d1.templates = push Prod.fst d.templates (if x.2 then templateOf (p, x.1) else none)
  classes : d1.classes = clsStep p x d.classes
  bases : x.2 = true → ∀ isClass freeStanding anonymous vbases bases size,
    x.1.what = .cls isClass true freeStanding anonymous vbases bases size →
    ∀ b ∈ bases, ∃ c u y, Means b.type c u ∧ HasName env u y ∧ (x.1.name, y) ∈ d1.db.inherits ∧
      ∀ id, IsInstance u id → y ∈ d1.db.typeNames
  may : x.2 = true → MayBe env x.1

/-- When only functions and fields are added, and what goes with them. -/
theorem effect_of_ext {env : Env} {p : Bytes} {x : Marked} {d : Data} {db : Db} {N : Container → Prop}
    (hx : Ext env N (InstBase env) d.db db) (hN : ∀ c, N c ↔ ItemArray env p x.1 c) (ha : x.2 = true → ∀ c, N c → c ∈ db.containers)
    (hb : ∃ B : Block, (x.2 = true → Says env p x.1 B) ∧ (x.2 = false → B = {}) ∧ db.functions = d.db.functions ++ B.functions ∧
      db.fields = d.db.fields ++ B.fields ∧ B.enums = [] ∧ B.constants = [])
    (hk : namespaceOf (p, x.1) = none ∧ templateOf (p, x.1) = none ∧ ∀ l, clsStep p x l = l)
    (hc : x.2 = true → ∀ isClass freeStanding anonymous vbases bases size,
      x.1.what ≠ .cls isClass true freeStanding anonymous vbases bases size) (hm : x.2 = true → MayBe env x.1) :
    Effect env p x d (d.withDb db) where
  templateTypes := hx.templateTypes
  inherits := hx.inherits
  good := hx.good
  newInh := (hx.mono (fun _ h => h) fun r hr => .inr hr).newInh
  containers := (hx.mono (fun c h => (hN c).1 h) fun r hr => hr).containers
  arrays := fun h c hc => ha h c ((hN c).2 hc)
  block := by
    obtain ⟨B, b1, b2, b3, b4, b5, b6⟩ := hb
    exact ⟨B, b1, b2, b3, b4, by rw [b5, List.append_nil]; exact hx.enums, by rw [b6, List.append_nil]; exact hx.constants⟩
  namespaces := by rw [hk.1, ite_self]; rfl
  templates := by rw [hk.2.1, ite_self]; rfl
  classes := (hk.2.2 _).symm
  bases := fun h _ _ _ _ _ _ e => absurd e (hc h _ _ _ _ _ _)
  may := hm

theorem paramsFor_may {env : Env} {fn : Bytes} {uid : BitVec 32} {k : Nat} {ps : List ParamDecl} {fs : List Field}
    (h : ParamsFor env fn uid k ps fs) : ∀ p ∈ ps, ∃ j, Declares env p.type j := by
  induction h with
  | nil => intro p hp; cases hp
  | cons _ hf _ ih =>
    intro p hp
    rcases List.mem_cons.1 hp with rfl | hp
    · obtain ⟨j, hj, _⟩ := hf
      exact ⟨j, hj⟩
    · exact ih p hp

theorem effect_same {env : Env} {p : Bytes} {i : Item} {b : Bool} {d : Data} (hN : ∀ c, ¬ ItemArray env p i c ∨ b = false)
    (hb : b = true → Says env p i {}) (hk : (if b then namespaceOf (p, i) else none) = none ∧ (if b then templateOf (p, i) else none) = none ∧
      ∀ l, clsStep p (i, b) l = l)
    (hc : b = true → ∀ isClass freeStanding anonymous vbases bases size, i.what ≠ .cls isClass true freeStanding anonymous vbases bases size)
    (hm : b = true → MayBe env i) : Effect env p (i, b) d d where
  templateTypes := List.prefix_refl _
  inherits := List.prefix_refl _
  good := id
  newInh := newInh_refl _ _
  containers := ⟨[], by simp, by simp⟩
  arrays := fun h c hc => by
    rcases hN c with h' | h'
    · exact absurd hc h'
    · rw [h'] at h; cases h
  block := ⟨{}, hb, fun _ => rfl, by simp, by simp, by simp, by simp⟩
  namespaces := by dsimp only; rw [hk.1]; rfl
  templates := by dsimp only; rw [hk.2.1]; rfl
  classes := (hk.2.2 _).symm
  bases := fun h _ _ _ _ _ _ e => absurd e (hc h _ _ _ _ _ _)
  may := hm

theorem effect_skip {env : Env} {p : Bytes} {i : Item} {d : Data} : Effect env p (i, false) d d :=
  effect_same (fun _ => .inr rfl) (fun h => by cases h) ⟨rfl, rfl, fun _ => rfl⟩ (fun h => by cases h) (fun h => by cases h)

theorem effect_fail {env : Env} {p : Bytes} {i : Item} {d : Data} {db : Db} {N : Container → Prop} {I : Bytes × Bytes → Prop}
    (hx : Ext env N I d.db db) (hs : Same d.db db) (hN : ∀ c, N c → ItemArray env p i c) (hI : ∀ r, I r → ClsBase env i r) :
    Effect env p (i, false) d (d.withDb db) where
  templateTypes := hx.templateTypes
  inherits := hx.inherits
  good := hx.good
  newInh := (hx.mono (fun _ h => h) hI).newInh
  containers := (hx.mono hN fun r hr => hr).containers
  arrays := fun h => by cases h
  block := ⟨{}, (fun h => by cases h), fun _ => rfl, by simpa [Data.withDb] using hs.1, by simpa [Data.withDb] using hs.2,
    by simpa [Data.withDb] using hx.enums, by simpa [Data.withDb] using hx.constants⟩
  namespaces := rfl
  templates := rfl
  classes := rfl
  bases := fun h => by cases h
  may := fun h => by cases h

theorem fn_array {env : Env} {p : Bytes} {name : Bytes} {first : Bool} {result : CType} {params : List ParamDecl} {invalid : Bool}
    {attrs : List Scan.Attr} (c : Container) :
    FnArray env { name := name, parent := p, first := first, result := result, params := params } 0 c ↔
      ItemArray env p ⟨name, .function first result params, invalid, attrs⟩ c := by
  constructor
  · rintro (⟨j, h1, h2, h3⟩ | ⟨n, q, x, h1, h2, j, h3, h4, h5⟩)
    · exact ⟨name, b!"return", _, j, ⟨rfl, .inl ⟨rfl, rfl⟩⟩, h1, h2, h3⟩
    · exact ⟨name, x, _, j, ⟨rfl, .inr ⟨n, q, h1, by rw [Nat.zero_add] at h2; exact h2, rfl⟩⟩, h3, h4, h5⟩
  · rintro ⟨parent, x, t, j, ⟨rfl, ⟨rfl, rfl⟩ | ⟨n, q, h1, h2, rfl⟩⟩, h3, h4, h5⟩
    · exact .inl ⟨j, h3, h4, h5⟩
    · exact .inr ⟨n, q, x, h1, by rw [Nat.zero_add]; exact h2, j, h3, h4, h5⟩

theorem function_effect {env : Env} (he : WellNamedEnv env) (fuel : Nat) (i : Item) (p : Bytes) (d d1 : Data) (b : Bool) (first : Bool)
    (result : CType) (params : List ParamDecl) (hi : i.what = .function first result params) (hw : WellItem i)
    (h : own env fuel i p d = some (d1, b)) : Effect env p (i, b) d d1 := by
  obtain ⟨name, what, invalid, attrs⟩ := i
  dsimp only at hi
  subst hi
  obtain ⟨w1, w2⟩ := hw
  have wr := wellNamed_callResult _ w1
  simp only [own] at h
  generalize hfd : ({ name := name, parent := p, first := first, result := result, params := params } : FnDecl) = fd at h
  have hn : fd.name = name := by rw [← hfd]
  have hpar : fd.parent = p := by rw [← hfd]
  have hps : fd.params = params := by rw [← hfd]
  have hres : fd.result = result := by rw [← hfd]
  have hfst : fd.first = first := by rw [← hfd]
  have harr : ∀ c, FnArray env fd 0 c ↔ ItemArray env p ⟨name, .function first result params, invalid, attrs⟩ c := by
    rw [← hfd]; exact fn_array
  cases hm : makeFunction env (parseInst env fuel) fd [] d.db with
  | never => rw [hm] at h; cases h
  | fail s db =>
    rw [hm] at h
    injection h with h
    injection h with h1 h2
    subst h1 h2
    obtain ⟨e1, _⟩ := makeFunction_ext he fuel fd [] d.db db (by rw [hps]; exact w2) (by rw [hres]; exact wr) (by rw [hm]; rfl)
    exact effect_fail e1 (makeFunction_fail he fuel fd [] d.db db s (by rw [hps]; exact w2) (by rw [hres]; exact wr) hm)
      (fun c hc => (harr c).1 hc) fun r hr => .inr hr
  | ok u db =>
    rw [hm] at h
    injection h with h
    injection h with h1 h2
    subst h1 h2
    obtain ⟨e1, e2⟩ := makeFunction_ext he fuel fd [] d.db db (by rw [hps]; exact w2) (by rw [hres]; exact wr) (by rw [hm]; rfl)
    cases first with
    | false =>
      have : db = d.db := by
        unfold makeFunction at hm
        rw [hfst] at hm
        injection hm with _ hm
        exact hm.symm
      subst this
      exact effect_skip
    | true =>
      obtain ⟨ret, ps, uid, k1, k2, k3, k4, k5⟩ := makeFunction_ok he fuel fd [] d.db db (by rw [hps]; exact w2) (by rw [hres]; exact wr) hfst hm
      rw [hn, hps] at k2
      rw [hn, hres] at k1
      rw [hn, hpar] at k4
      refine effect_of_ext e1 harr (fun _ => e2 hfst hm) ⟨_, fun _ => ⟨ret, ps, uid, k1, k2, k3, rfl⟩, (fun h => by cases h), k4, ?_, rfl, rfl⟩
        ⟨rfl, rfl, fun _ => rfl⟩ (fun _ _ _ _ _ _ _ h => by cases h) fun _ => ⟨rfl, ?_, paramsFor_may k2⟩
      · rw [k5]
        by_cases hv : ret.type = b!"void" <;> simp [hv]
      · obtain ⟨j, hj, _⟩ := k1
        exact ⟨j, hj⟩

theorem field_effect {env : Env} (he : WellNamedEnv env) (fuel : Nat) (i : Item) (p : Bytes) (d d1 : Data) (b : Bool) (holder : Bool)
    (fname : Bytes) (t : CType) (bits : Nat) (hi : i.what = .field holder fname t bits) (hw : WellItem i)
    (h : own env fuel i p d = some (d1, b)) : Effect env p (i, b) d d1 := by
  obtain ⟨name, what, invalid, attrs⟩ := i
  dsimp only at hi
  subst hi
  have hw : WellNamed t := hw
  simp only [own] at h
  cases holder with
  | true =>
    injection h with h
    injection h with h1 h2
    subst h1 h2
    exact effect_skip
  | false =>
    simp only [Bool.false_eq_true, if_false] at h
    have harr : ∀ c, ArrayOf env t fname p c ↔ ItemArray env p ⟨name, .field false fname t bits, invalid, attrs⟩ c := by
      intro c
      constructor
      · rintro ⟨j, h1, h2, h3⟩
        exact ⟨p, fname, t, j, ⟨rfl, rfl, rfl⟩, h1, h2, h3⟩
      · rintro ⟨_, _, _, j, ⟨rfl, rfl, rfl⟩, h1, h2, h3⟩
        exact ⟨j, h1, h2, h3⟩
    cases hm : makeField env (parseInst env fuel) t fname p ((bits / 8 : Nat) : Int) d.db with
    | never => rw [hm] at h; cases h
    | fail s db =>
      rw [hm] at h
      injection h with h
      injection h with h1 h2
      subst h1 h2
      exact effect_fail (makeField_ext he fuel t hw _ _ _ d.db db (by rw [hm]; rfl)) (makeField_same he fuel t hw _ _ _ d.db db (by rw [hm]; rfl))
        (fun c hc => (harr c).1 hc) fun r hr => .inr hr
    | ok f db =>
      rw [hm] at h
      injection h with h
      injection h with h1 h2
      subst h1 h2
      have e1 := makeField_ext he fuel t hw _ _ _ d.db db (by rw [hm]; rfl)
      have e2 : Ext env (ArrayOf env t fname p) (InstBase env) db { db with fields := db.fields ++ [f] } :=
        ⟨List.prefix_refl _, List.prefix_refl _, rfl, rfl, good_same rfl rfl, newInh_refl _ _, [], by simp, by simp⟩
      have hs := makeField_same he fuel t hw _ _ _ d.db db (by rw [hm]; rfl)
      have hf := makeField_field he fuel t hw _ _ _ d.db db f hm
      refine effect_of_ext (e1.trans e2) harr (fun _ c hc => e2.subset (makeField_array he fuel t hw _ _ _ d.db db f hm c hc))
        ⟨_, fun _ => ⟨f, hf, rfl⟩, (fun h => by cases h), ?_, ?_, rfl, rfl⟩ ⟨rfl, rfl, fun _ => rfl⟩ (fun _ _ _ _ _ _ _ h => by cases h)
        fun _ => ⟨rfl, ?_⟩
      · simpa using hs.1
      · show db.fields ++ [f] = _
        rw [hs.2]
      · obtain ⟨j, hj, _⟩ := hf
        exact ⟨j, hj⟩

theorem enum_effect {env : Env} (fuel : Nat) (i : Item) (p : Bytes) (d d1 : Data) (b : Bool) (tag : EnumTag) (cs : List ConstDecl)
    (hi : i.what = .enum tag cs) (h : own env fuel i p d = some (d1, b)) : Effect env p (i, b) d d1 := by
  obtain ⟨name, what, invalid, attrs⟩ := i
  dsimp only at hi
  subst hi
  injection h with h
  injection h with h1 h2
  subst h1 h2
  refine
    { templateTypes := List.prefix_refl _, inherits := List.prefix_refl _, good := good_same rfl rfl, newInh := newInh_refl _ _
      containers := ⟨[], by simp [Data.withDb, addEnum], by simp⟩
      arrays := fun _ c hc => by
        obtain ⟨_, _, _, _, hh, _⟩ := hc
        exact hh.elim
      block := ⟨_, fun _ => rfl, (fun h => by cases h), ?_, ?_, ?_, ?_⟩
      namespaces := rfl, templates := rfl, classes := rfl
      bases := fun _ _ _ _ _ _ _ h => by cases h
      may := fun _ => trivial }
  · simp [Data.withDb, addEnum]
  · simp [Data.withDb, addEnum]
  · have : scopedOf tag = tagOf tag := by
      obtain ⟨a, b⟩ := tag
      cases a <;> cases b <;> rfl
    simp [Data.withDb, addEnum, this]
  · simp [Data.withDb, addEnum]

theorem namespace_effect {env : Env} (fuel : Nat) (i : Item) (p : Bytes) (d d1 : Data) (b : Bool)
    (hi : i.what = .namespace) (h : own env fuel i p d = some (d1, b)) : Effect env p (i, b) d d1 := by
  obtain ⟨name, what, invalid, attrs⟩ := i
  dsimp only at hi
  subst hi
  injection h with h
  injection h with h1 h2
  subst h1 h2
  have hdb : (d.addNamespace name p).db = d.db := by unfold Data.addNamespace; split <;> rfl
  refine
    { templateTypes := by rw [hdb]; exact List.prefix_refl _, inherits := by rw [hdb]; exact List.prefix_refl _, good := by rw [hdb]; exact id
      newInh := by dsimp only; rw [hdb]; exact newInh_refl _ _
      containers := ⟨[], by dsimp only; rw [hdb]; simp, by simp⟩
      arrays := fun _ c hc => by
        obtain ⟨_, _, _, _, hh, _⟩ := hc
        exact hh.elim
      block := ⟨{}, fun _ => rfl, (fun h => by cases h), by dsimp only; rw [hdb]; simp, by dsimp only; rw [hdb]; simp,
        by dsimp only; rw [hdb]; simp, by dsimp only; rw [hdb]; simp⟩
      namespaces := ?_
      templates := ?_, classes := ?_
      bases := fun _ _ _ _ _ _ _ h => by cases h
      may := fun _ => trivial }
  · show (d.addNamespace name p).namespaces = push Prod.fst d.namespaces (some (name, p))
    unfold Data.addNamespace push
    dsimp only
    split <;> rfl
  · show (d.addNamespace name p).templates = d.templates
    unfold Data.addNamespace
    split <;> rfl
  · show (d.addNamespace name p).classes = d.classes
    unfold Data.addNamespace
    split <;> rfl

theorem template_effect {env : Env} (fuel : Nat) (i : Item) (p : Bytes) (d d1 : Data) (b : Bool) (params : Nat) (forward : Bool)
    (hi : i.what = .template params forward) (h : own env fuel i p d = some (d1, b)) : Effect env p (i, b) d d1 := by
  obtain ⟨name, what, invalid, attrs⟩ := i
  dsimp only at hi
  subst hi
  injection h with h
  injection h with h1 h2
  subst h1 h2
  have hdb : (d.addTemplate name p params).db = d.db ∧ (d.addTemplate name p params).namespaces = d.namespaces ∧
      (d.addTemplate name p params).classes = d.classes := by
    unfold Data.addTemplate
    split
    · exact ⟨rfl, rfl, rfl⟩
    · split <;> exact ⟨rfl, rfl, rfl⟩
  refine
    { templateTypes := by rw [hdb.1]; exact List.prefix_refl _, inherits := by rw [hdb.1]; exact List.prefix_refl _, good := by rw [hdb.1]; exact id
      newInh := by dsimp only; rw [hdb.1]; exact newInh_refl _ _
      containers := ⟨[], by dsimp only; rw [hdb.1]; simp, by simp⟩
      arrays := fun _ c hc => by
        obtain ⟨_, _, _, _, hh, _⟩ := hc
        exact hh.elim
      block := ⟨{}, fun _ => rfl, fun _ => rfl, by dsimp only; rw [hdb.1]; simp, by dsimp only; rw [hdb.1]; simp,
        by dsimp only; rw [hdb.1]; simp, by dsimp only; rw [hdb.1]; simp⟩
      namespaces := ?_
      templates := ?_, classes := ?_
      bases := fun _ _ _ _ _ _ _ h => by cases h
      may := fun h => (of_decide_eq_true h : params ≤ 4) }
  · show (d.addTemplate name p params).namespaces = push Prod.fst d.namespaces (if decide (params ≤ 4) then none else none)
    rw [ite_self]
    exact hdb.2.1
  · show (d.addTemplate name p params).templates = push Prod.fst d.templates (if decide (params ≤ 4) then some (name, p) else none)
    unfold Data.addTemplate maxArgs
    by_cases h4 : params ≤ 4
    · rw [if_pos (show decide (params ≤ 4) = true from decide_eq_true h4), if_neg (show ¬ params > 4 by omega)]
      unfold push
      dsimp only
      split <;> rfl
    · rw [if_neg (show ¬ decide (params ≤ 4) = true by simpa using h4), if_pos (show params > 4 by omega), ite_self]
      rfl
  · show (d.addTemplate name p params).classes = clsStep p _ d.classes
    rw [hdb.2.2]
    unfold clsStep
    split <;> rfl

theorem addClass_spec (d : Data) (name p : Bytes) (isClass : Bool) :
    (d.addClass name p isClass).db = d.db ∧ (d.addClass name p isClass).namespaces = d.namespaces ∧
    (d.addClass name p isClass).templates = d.templates ∧
    (d.addClass name p isClass).classes = push Cls.name d.classes (some { name := name, parent := p, isClass := isClass }) := by
  unfold Data.addClass push
  dsimp only
  cases d.classes.any fun c => c.name == name <;> exact ⟨rfl, rfl, rfl, rfl⟩

theorem class_effect {env : Env} (he : WellNamedEnv env) (fuel : Nat) (i : Item) (p : Bytes) (d d1 : Data) (b : Bool)
    (isClass definition freeStanding anonymous : Bool) (vbases : Nat) (bases : List Base) (size : Nat)
    (hi : i.what = .cls isClass definition freeStanding anonymous vbases bases size) (hw : WellItem i)
    (h : own env fuel i p d = some (d1, b)) : Effect env p (i, b) d d1 := by
  obtain ⟨name, what, invalid, attrs⟩ := i
  dsimp only at hi
  subst hi
  have hw : ∀ b ∈ bases, WellNamed b.type ∧ ∃ c u, Means b.type c u ∧ IsClass u := hw
  simp only [own] at h
  have noArr : ∀ c, ¬ ItemArray env p ⟨name, .cls isClass definition freeStanding anonymous vbases bases size, invalid, attrs⟩ c := by
    rintro c ⟨_, _, _, _, hh, _⟩
    exact hh
  cases definition with
  | false =>
    cases freeStanding with
    | false =>
      injection h with h
      injection h with h1 h2
      subst h1 h2
      exact effect_skip
    | true =>
      simp only [Bool.not_false, Bool.not_true, Bool.and_false, Bool.false_eq_true, Bool.false_and, if_false] at h
      cases anonymous with
      | true =>
        injection h with h
        injection h with h1 h2
        subst h1 h2
        exact effect_same (d := d) (fun c => .inl (noArr c)) (fun _ => rfl) ⟨rfl, rfl, fun _ => rfl⟩
          (fun _ _ _ _ _ _ _ h => by injection h with _ h; cases h) fun _ => rfl
      | false =>
        injection h with h
        injection h with h1 h2
        subst h1 h2
        have hdb : ((d.withDb d.db).addClass name p isClass).db = d.db ∧ ((d.withDb d.db).addClass name p isClass).namespaces = d.namespaces ∧
            ((d.withDb d.db).addClass name p isClass).templates = d.templates ∧ ((d.withDb d.db).addClass name p isClass).classes =
              push Cls.name d.classes (some { name := name, parent := p, isClass := isClass }) := by
          exact addClass_spec (d.withDb d.db) name p isClass
        obtain ⟨q1, q2, q3, q4⟩ := hdb
        exact
          { templateTypes := by rw [q1]; exact List.prefix_refl _, inherits := by rw [q1]; exact List.prefix_refl _
            good := by rw [q1]; exact id
            newInh := by rw [q1]; exact newInh_refl _ _
            containers := ⟨[], by rw [q1]; simp, by simp⟩
            arrays := fun _ c hc => absurd hc (noArr c)
            block := ⟨{}, fun _ => rfl, fun _ => rfl, by rw [q1]; simp, by rw [q1]; simp, by rw [q1]; simp, by rw [q1]; simp⟩
            namespaces := q2
            templates := q3
            classes := q4
            bases := fun _ _ _ _ _ _ _ h => by injection h with _ h; cases h
            may := fun _ => rfl }
  | true =>
    simp only [Bool.not_true, Bool.false_and, Bool.false_eq_true, if_false, Bool.true_and, decide_eq_true_eq, if_true] at h
    by_cases hv : vbases = 0
    · rw [if_neg (by simpa using hv), classBases_eq] at h
      obtain ⟨o1, o2⟩ := baseLoop_ok he (parseInst_ok he fuel) name bases hw d.db
      have o3 := baseLoop_inh (I := ClsBase env ⟨name, .cls isClass true freeStanding anonymous vbases bases size, invalid, attrs⟩) he
        (parseInst_ok he fuel) (fun id db => by
          have := parseInst_inh he fuel id db
          generalize parseInst env fuel id db = o at this
          have mono : ∀ d', NewInh (InstBase env) db d' →
              NewInh (ClsBase env ⟨name, .cls isClass true freeStanding anonymous vbases bases size, invalid, attrs⟩) db d' := by
            intro d' hd r hr
            rcases hd r hr with h1 | h1
            · exact .inl h1
            · exact .inr (.inr h1)
          cases o with
          | never => trivial
          | fail s d' => exact mono d' this
          | ok a d' => exact mono d' this) name bases hw
        (fun y hy => .inl ⟨rfl, _, _, _, _, _, _, rfl, hy⟩) d.db
      cases hb : baseLoop env (parseInst env fuel) name bases d.db with
      | never => rw [hb] at h; cases h
      | fail s db =>
        rw [hb] at h o1 o3
        injection h with h
        injection h with h1 h2
        subst h1 h2
        have o1 : Step env d.db db := o1
        exact effect_fail (N := fun _ => False) ⟨o1.1.templateTypes, o1.1.inherits, o1.1.enums, o1.1.constants, o1.2, o3, [],
          by rw [o1.1.containers]; simp, by simp⟩ ⟨o1.1.functions, o1.1.fields⟩ (fun _ h => h.elim) fun _ h => h
      | ok u db =>
        have hbases := o2 db hb
        rw [hb] at h o1 o3
        have o1 : Step env d.db db := o1
        have main : ∀ (d1 : Data), d1.db = db → d1.namespaces = d.namespaces → d1.templates = d.templates →
            d1.classes = clsStep p (⟨name, .cls isClass true freeStanding anonymous vbases bases size, invalid, attrs⟩, true) d.classes →
            Effect env p (⟨name, .cls isClass true freeStanding anonymous vbases bases size, invalid, attrs⟩, true) d d1 := by
          intro d1 q1 q2 q3 q4
          subst q1
          exact
            { templateTypes := o1.1.templateTypes, inherits := o1.1.inherits, good := o1.2, newInh := o3
              containers := ⟨[], by rw [o1.1.containers]; simp, by simp⟩
              arrays := fun _ c hc => absurd hc (noArr c)
              block := ⟨{}, fun _ => rfl, fun _ => rfl, by rw [o1.1.functions]; simp, by rw [o1.1.fields]; simp,
                by rw [o1.1.enums]; simp, by rw [o1.1.constants]; simp⟩
              namespaces := q2
              templates := q3
              classes := q4
              bases := fun _ _ _ _ _ bs _ h b hb => by
                injection h with _ _ _ _ _ h _
                subst h
                obtain ⟨_, k⟩ := hbases b hb
                exact k
              may := fun _ => ⟨hv, fun b hb => by
                obtain ⟨k0, c, u, y, k1, k2, _⟩ := hbases b hb
                exact ⟨k0, c, u, y, k1, k2⟩⟩ }
        dsimp only at h
        cases anonymous with
        | true =>
          injection h with h
          injection h with h1 h2
          subst h1 h2
          exact main _ rfl rfl rfl rfl
        | false =>
          injection h with h
          injection h with h1 h2
          subst h1 h2
          have hadd : ((d.withDb db).addClass name p isClass).db = db ∧ ((d.withDb db).addClass name p isClass).namespaces = d.namespaces ∧
              ((d.withDb db).addClass name p isClass).templates = d.templates ∧ ((d.withDb db).addClass name p isClass).classes =
                push Cls.name d.classes (some { name := name, parent := p, isClass := isClass }) := by
            exact addClass_spec (d.withDb db) name p isClass
          obtain ⟨q1, q2, q3, q4⟩ := hadd
          refine main _ q1 q2 q3 ?_
          show setSize name size _ = _
          rw [q4]
          rfl
    · rw [if_pos (by simpa using hv)] at h
      injection h with h
      injection h with h1 h2
      subst h1 h2
      exact effect_skip

theorem method_array {env : Env} {p : Bytes} {name : Bytes} {op first : Bool} {this : Option CType} {result : CType}
    {params : List ParamDecl} {invalid : Bool} {attrs : List Scan.Attr} (c : Container) :
    ((∃ t, this = some t ∧ ArrayOf env t b!"this" name c) ∨
      FnArray env { name := name, parent := p, first := first, result := result, params := params } (if this = none then 0 else 1) c) ↔
      ItemArray env p ⟨name, .method op this first result params, invalid, attrs⟩ c := by
  have hk : ∀ n, (if this = none then 0 else 1) + n = if this = none then n else n + 1 := by
    intro n
    split <;> omega
  constructor
  · rintro (⟨t, h0, j, h1, h2, h3⟩ | ⟨j, h1, h2, h3⟩ | ⟨n, q, x, h1, h2, j, h3, h4, h5⟩)
    · exact ⟨name, b!"this", t, j, ⟨rfl, .inr (.inl ⟨rfl, h0⟩)⟩, h1, h2, h3⟩
    · exact ⟨name, b!"return", _, j, ⟨rfl, .inl ⟨rfl, rfl⟩⟩, h1, h2, h3⟩
    · exact ⟨name, x, _, j, ⟨rfl, .inr (.inr ⟨n, q, h1, by rw [hk] at h2; exact h2, rfl⟩)⟩, h3, h4, h5⟩
  · rintro ⟨parent, x, t, j, ⟨rfl, ⟨rfl, rfl⟩ | ⟨rfl, h0⟩ | ⟨n, q, h1, h2, rfl⟩⟩, h3, h4, h5⟩
    · exact .inr (.inl ⟨j, h3, h4, h5⟩)
    · exact .inl ⟨t, h0, j, h3, h4, h5⟩
    · exact .inr (.inr ⟨n, q, x, h1, by rw [hk]; exact h2, j, h3, h4, h5⟩)

theorem method_effect {env : Env} (he : WellNamedEnv env) (fuel : Nat) (i : Item) (p : Bytes) (d d1 : Data) (b : Bool) (op : Bool)
    (this : Option CType) (first : Bool) (result : CType) (params : List ParamDecl) (hi : i.what = .method op this first result params)
    (hw : WellItem i) (h : own env fuel i p d = some (d1, b)) : Effect env p (i, b) d d1 := by
  obtain ⟨name, what, invalid, attrs⟩ := i
  dsimp only at hi
  subst hi
  obtain ⟨w0, w1, w2⟩ := hw
  have wr := wellNamed_callResult _ w1
  simp only [own, addMethod] at h
  cases op with
  | true =>
    injection h with h
    injection h with h1 h2
    subst h1 h2
    exact effect_skip
  | false =>
    simp only [Bool.false_eq_true, if_false] at h
    have harr : ∀ c, _ := method_array (env := env) (p := p) (name := name) (op := false) (first := first) (this := this) (result := result)
      (params := params) (invalid := invalid) (attrs := attrs)
    generalize hfd : ({ name := name, parent := p, first := first, result := result, params := params } : FnDecl) = fd at h harr
    have hn : fd.name = name := by rw [← hfd]
    have hpar : fd.parent = p := by rw [← hfd]
    have hps : fd.params = params := by rw [← hfd]
    have hres : fd.result = result := by rw [← hfd]
    have hfst : fd.first = first := by rw [← hfd]
    have hwp : ∀ p ∈ fd.params, WellNamed p.type := by rw [hps]; exact w2
    have hwr : WellNamed (callResult fd.result) := by rw [hres]; exact wr
    have nothing : ∀ pre d0 db u, first = false → makeFunction env (parseInst env fuel) fd pre d0 = .ok u db → db = d0 := by
      intro pre d0 db u hf hm
      unfold makeFunction at hm
      rw [hfst, hf] at hm
      injection hm with _ hm
      exact hm.symm
    cases this with
    | none =>
      cases hm : makeFunction env (parseInst env fuel) fd [] d.db with
      | never => rw [hm] at h; cases h
      | fail s db =>
        rw [hm] at h
        injection h with h
        injection h with h1 h2
        subst h1 h2
        obtain ⟨e1, _⟩ := makeFunction_ext he fuel fd [] d.db db hwp hwr (by rw [hm]; rfl)
        exact effect_fail e1 (makeFunction_fail he fuel fd [] d.db db s hwp hwr hm) (fun c hc => (harr c).1 (.inr hc)) fun r hr => .inr hr
      | ok u db =>
        rw [hm] at h
        injection h with h
        injection h with h1 h2
        subst h1 h2
        obtain ⟨e1, e2⟩ := makeFunction_ext he fuel fd [] d.db db hwp hwr (by rw [hm]; rfl)
        cases first with
        | false =>
          have := nothing _ _ _ _ rfl hm
          subst this
          exact effect_skip
        | true =>
          obtain ⟨ret, ps, uid, k1, k2, k3, k4, k5⟩ := makeFunction_ok he fuel fd [] d.db db hwp hwr hfst hm
          rw [hn, hps] at k2
          rw [hn, hres] at k1
          rw [hn, hpar] at k4
          refine effect_of_ext e1 (fun c => ⟨fun hc => (harr c).1 (.inr hc), fun hc => ?_⟩) (fun _ => e2 hfst hm)
            ⟨_, fun _ => ⟨ret, ps, uid, k1, k2, k3, rfl⟩, (fun h => by cases h), k4, ?_, rfl, rfl⟩ ⟨rfl, rfl, fun _ => rfl⟩
            (fun _ _ _ _ _ _ _ h => by cases h) fun _ => ⟨rfl, rfl, (fun t h => by cases h), ?_, paramsFor_may k2⟩
          · rcases (harr c).2 hc with ⟨t, h0, _⟩ | h0
            · cases h0
            · exact h0
          · rw [k5]
            by_cases hv : ret.type = b!"void" <;> simp [hv]
          · obtain ⟨j, hj, _⟩ := k1
            exact ⟨j, hj⟩
    | some t =>
      have wt := w0 t rfl
      dsimp only at h
      cases hf : makeField env (parseInst env fuel) t b!"this" fd.name 0 d.db with
      | never => rw [hn] at hf; rw [hf] at h; cases h
      | fail s db =>
        rw [hn] at hf
        rw [hf] at h
        injection h with h
        injection h with h1 h2
        subst h1 h2
        exact effect_fail (makeField_ext he fuel t wt _ _ _ d.db db (by rw [hf]; rfl)) (makeField_same he fuel t wt _ _ _ d.db db (by rw [hf]; rfl))
          (fun c hc => (harr c).1 (.inl ⟨t, rfl, hc⟩)) fun r hr => .inr hr
      | ok f db0 =>
        rw [hn] at hf
        rw [hf] at h
        dsimp only [Out.bind] at h
        have a0 := makeField_ext he fuel t wt _ _ _ d.db db0 (by rw [hf]; rfl)
        have a1 := makeField_same he fuel t wt _ _ _ d.db db0 (by rw [hf]; rfl)
        have a2 := makeField_field he fuel t wt _ _ _ d.db db0 f hf
        have a0' := a0.mono (N' := fun c => ArrayOf env t b!"this" name c ∨ FnArray env fd 1 c) (fun _ h => .inl h) fun _ h => h
        have harr' : ∀ c, (ArrayOf env t b!"this" name c ∨ FnArray env fd 1 c) ↔
            ItemArray env p ⟨name, .method false (some t) first result params, invalid, attrs⟩ c := by
          intro c
          rw [← harr c]
          constructor
          · rintro (h | h)
            · exact .inl ⟨t, rfl, h⟩
            · exact .inr h
          · rintro (⟨t', h0, h⟩ | h)
            · injection h0 with h0
              subst h0
              exact .inl h
            · exact .inr h
        cases hm : makeFunction env (parseInst env fuel) fd [f] db0 with
        | never => rw [hm] at h; cases h
        | fail s db =>
          rw [hm] at h
          injection h with h
          injection h with h1 h2
          subst h1 h2
          obtain ⟨e1, _⟩ := makeFunction_ext he fuel fd [f] db0 db hwp hwr (by rw [hm]; rfl)
          exact effect_fail (a0'.trans (e1.mono (fun _ h => .inr h) fun _ h => h))
            (a1.trans (makeFunction_fail he fuel fd [f] db0 db s hwp hwr hm)) (fun c hc => (harr' c).1 hc) fun r hr => .inr hr
        | ok u db =>
          rw [hm] at h
          injection h with h
          injection h with h1 h2
          subst h1 h2
          obtain ⟨e1, e2⟩ := makeFunction_ext he fuel fd [f] db0 db hwp hwr (by rw [hm]; rfl)
          cases first with
          | false =>
            have := nothing _ _ _ _ rfl hm
            subst this
            exact effect_fail a0' a1 (fun c hc => (harr' c).1 hc) fun r hr => .inr hr
          | true =>
            obtain ⟨ret, ps, uid, k1, k2, k3, k4, k5⟩ := makeFunction_ok he fuel fd [f] db0 db hwp hwr hfst hm
            rw [hn, hps] at k2
            rw [hn, hres] at k1
            rw [hn, hpar, a1.1] at k4
            refine effect_of_ext (a0'.trans (e1.mono (fun _ h => .inr h) fun _ h => h)) harr' (fun _ c hc => ?_)
              ⟨_, fun _ => ⟨ret, { f with uid := uid }, ps, uid, k1, fieldFor_uid a2, k2, k3, rfl⟩, (fun h => by cases h), k4, ?_, rfl, rfl⟩
              ⟨rfl, rfl, fun _ => rfl⟩ (fun _ _ _ _ _ _ _ h => by cases h) fun _ => ⟨rfl, rfl, (fun t' h => ?_), ?_, paramsFor_may k2⟩
            · rcases hc with hc | hc
              · exact e1.subset (makeField_array he fuel t wt _ _ _ d.db db0 f hf c hc)
              · exact e2 hfst hm c hc
            · rw [k5, a1.2]
              by_cases hv : ret.type = b!"void" <;> simp [hv]
            · injection h with h
              subst h
              obtain ⟨j, hj, _⟩ := a2
              exact ⟨j, hj⟩
            · obtain ⟨j, hj, _⟩ := k1
              exact ⟨j, hj⟩

/-- What is done for a declaration. -/
theorem own_effect {env : Env} (he : WellNamedEnv env) (fuel : Nat) (i : Item) (p : Bytes) (d d1 : Data) (b : Bool) (hw : WellItem i)
    (h : own env fuel i p d = some (d1, b)) : Effect env p (i, b) d d1 := by
  cases hi : i.what with
  | «namespace» => exact namespace_effect fuel i p d d1 b hi h
  | cls => exact class_effect he fuel i p d d1 b _ _ _ _ _ _ _ hi hw h
  | enum => exact enum_effect fuel i p d d1 b _ _ hi h
  | function => exact function_effect he fuel i p d d1 b _ _ _ hi hw h
  | method => exact method_effect he fuel i p d d1 b _ _ _ _ _ hi hw h
  | field => exact field_effect he fuel i p d d1 b _ _ _ _ hi hw h
  | template => exact template_effect fuel i p d d1 b _ _ hi h
  | other =>
    obtain ⟨name, what, invalid, attrs⟩ := i
    dsimp only at hi
    subst hi
    injection h with h
    injection h with h1 h2
    subst h1 h2
    refine effect_same (fun c => .inl ?_) (fun _ => rfl) ⟨rfl, rfl, fun _ => rfl⟩ (fun _ _ _ _ _ _ _ h => by cases h) fun _ => trivial
    rintro ⟨_, _, _, _, hh, _⟩
    exact hh

end Clr.ScanUnit
