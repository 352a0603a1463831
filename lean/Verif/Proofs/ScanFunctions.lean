import Verif.Proofs.ScanTypesRank

/-!
Lemmas about the functions, members and enums clscan records.
-/
namespace Clr.ScanTypes
open Clr.FileUtils
open Clr.Hash (Op)

/-! ### Names are determined -/

theorem hasName_ne {env : Env} {b : CType} {x : Bytes} (h : HasName env b x) : ∀ u, b ≠ .pointer u ∧ b ≠ .lref u := by
  intro u
  constructor <;> (rintro rfl; cases h)

theorem points_det {env : Env} {t b b' : CType} {op op' : Op} {c c' : Bool} {x x' : Bytes} (hp : Points t op c b) (hn : HasName env b x)
    (hp' : Points t op' c' b') (hn' : HasName env b' x') : op = op' ∧ c = c' ∧ b = b' := by
  have h1 := shape_of t op c b hp (hasName_ne hn)
  rw [shape_of t op' c' b' hp' (hasName_ne hn')] at h1
  injection h1 with h1 h2
  injection h2 with h2 h3
  exact ⟨h1.symm, h2.symm, h3.symm⟩

mutual
theorem hasName_det {env : Env} : ∀ {b : CType} {x y : Bytes}, HasName env b x → HasName env b y → x = y
  | _, _, _, .builtin, .builtin => rfl
  | _, _, _, .enum, .enum => rfl
  | _, _, _, .record, .record => rfl
  | _, _, _, .inst h, .inst h' => by rw [argNames_det h h']
  | _, _, _, .spec h, .spec h' => hasName_det h h'

theorem argNames_det {env : Env} : ∀ {as : List Arg} {xs ys : List (Bytes × Bool)}, ArgNames env as xs → ArgNames env as ys → xs = ys
  | _, _, _, .nil, .nil => rfl
  | _, _, _, .value hp hn hr, h' => by
    cases h' with
    | value hp' hn' hr' =>
      obtain ⟨_, _, rfl⟩ := points_det hp hn hp' hn'
      rw [hasName_det hn hn', argNames_det hr hr']
    | pointer hp' hn' hr' => exact absurd (points_det hp hn hp' hn').1 (by simp)
  | _, _, _, .pointer hp hn hr, h' => by
    cases h' with
    | value hp' hn' hr' => exact absurd (points_det hp hn hp' hn').1 (by simp)
    | pointer hp' hn' hr' =>
      obtain ⟨_, _, rfl⟩ := points_det hp hn hp' hn'
      rw [hasName_det hn hn', argNames_det hr hr']
end

/-! ### Fields -/

/-- From `db` to `db'`, no field and no function was added. -/
def Same (db db' : Db) : Prop := db'.functions = db.functions ∧ db'.fields = db.fields

theorem Same.trans {a b c : Db} (h : Same a b) (h' : Same b c) : Same a c := ⟨h'.1.trans h.1, h'.2.trans h.2⟩

/-- The outcome's database, if it has one. -/
def Out.db? {α : Type} : Out α → Option Db
  | .never => none
  | .fail _ db => some db
  | .ok _ db => some db

theorem bind_db {α β : Type} (x : Out α) (f : α → Db → Out β) (d : Db) (h : (x.bind f).db? = some d) :
    (∃ s, x = .fail s d) ∨ ∃ a d', x = .ok a d' ∧ (f a d').db? = some d := by
  cases x with
  | never => cases h
  | fail s d' => injection h with h; subst h; exact .inl ⟨s, rfl⟩
  | ok a d' => exact .inr ⟨a, d', rfl, h⟩

theorem paramInfo_grows {env : Env} (he : WellNamedEnv env) (fuel : Nat) (t : CType) (hw : WellNamed t) (db d : Db)
    (h : (paramInfo env (parseInst env fuel) t db).db? = some d) : Step env db d := by
  have := (paramInfo_ok he (parseInst_ok he fuel) t hw db).1
  cases hp : paramInfo env (parseInst env fuel) t db with
  | never => rw [hp] at h; cases h
  | fail s d' => rw [hp] at h this; injection h with h; subst h; exact this
  | ok a d' => rw [hp] at h this; injection h with h; subst h; exact this

theorem makeField_same {env : Env} (he : WellNamedEnv env) (fuel : Nat) (t : CType) (hw : WellNamed t) (name parent : Bytes)
    (offset : Int) (db d : Db) (h : (makeField env (parseInst env fuel) t name parent offset db).db? = some d) : Same db d := by
  unfold makeField at h
  rcases bind_db _ _ _ h with ⟨s, hs⟩ | ⟨i, d', hi, h⟩
  · have := paramInfo_grows he fuel t hw db d (by rw [hs]; rfl)
    exact ⟨this.1.functions, this.1.fields⟩
  · have := paramInfo_grows he fuel t hw db d' (by rw [hi]; rfl)
    injection h with h
    subst h
    split
    · exact ⟨this.1.functions, this.1.fields⟩
    · exact ⟨this.1.functions, this.1.fields⟩

theorem good_containers {env : Env} {db : Db} (g : GoodDb env db) (cs : List Container) : GoodDb env { db with containers := cs } := by
  intro e he
  obtain ⟨id, hd⟩ := g e he
  exact ⟨id, { hd with args := hd.args, bases := hd.bases }⟩

theorem makeField_ok {env : Env} (he : WellNamedEnv env) (fuel : Nat) (t : CType) (hw : WellNamed t) (name parent : Bytes)
    (offset : Int) (db d : Db) (f : Field) (h : makeField env (parseInst env fuel) t name parent offset db = .ok f d) :
    (∃ i, Declares env t i ∧ f = ⟨name, parent, i.name, i.op, i.isConst, offset, 0#32⟩ ∧
      d.containers = db.containers ++ (if i.count ≠ 0 then [⟨parent ++ b!"::" ++ name, i.count⟩] else [])) ∧
    (GoodDb env db → GoodDb env d) := by
  unfold makeField at h
  obtain ⟨i, d', hi, h⟩ := bind_ok _ _ _ _ h
  injection h with h1 h2
  have hst := paramInfo_grows he fuel t hw db d' (by rw [hi]; rfl)
  have hdec := ((paramInfo_ok he (parseInst_ok he fuel) t hw db).2 i d' hi).1
  subst h1 h2
  refine ⟨⟨i, hdec, rfl, ?_⟩, ?_⟩
  · split
    · rw [← hst.1.containers]
    · rw [List.append_nil]; exact hst.1.containers
  · intro g
    split
    · exact good_containers (hst.2 g) _
    · exact hst.2 g

theorem makeField_field {env : Env} (he : WellNamedEnv env) (fuel : Nat) (t : CType) (hw : WellNamed t) (name parent : Bytes)
    (offset : Int) (db d : Db) (f : Field) (h : makeField env (parseInst env fuel) t name parent offset db = .ok f d) :
    FieldFor env t name parent offset 0#32 f := by
  obtain ⟨⟨i, h1, h2, _⟩, _⟩ := makeField_ok he fuel t hw name parent offset db d f h
  exact ⟨i, h1, h2⟩

/-! ### Functions -/

theorem nameOf_paramName (p : ParamDecl) (k : Nat) : NameOf p k (paramName p k) := by
  unfold NameOf paramName
  split
  · rename_i h; exact .inr ⟨h, rfl⟩
  · rename_i h; exact .inl ⟨h, rfl⟩

theorem fieldFor_uid {env : Env} {t : CType} {name parent : Bytes} {offset : Int} {u v : BitVec 32} {f : Field}
    (h : FieldFor env t name parent offset u f) : FieldFor env t name parent offset v { f with uid := v } := by
  obtain ⟨i, h1, h2⟩ := h
  subst h2
  exact ⟨i, h1, rfl⟩

theorem paramsFor_uid {env : Env} {fn : Bytes} {u v : BitVec 32} {k : Nat} {ps : List ParamDecl} {fs : List Field}
    (h : ParamsFor env fn u k ps fs) : ParamsFor env fn v k ps (fs.map fun f => { f with uid := v }) := by
  induction h with
  | nil => exact .nil
  | cons hn hf _ ih => exact .cons hn (fieldFor_uid hf) ih

theorem paramLoop_ok {env : Env} (he : WellNamedEnv env) (fuel : Nat) (fn : Bytes) (ps : List ParamDecl)
    (hw : ∀ p ∈ ps, WellNamed p.type) (k : Nat) (done : List Field) (db : Db) :
    (∀ d, (paramLoop env (parseInst env fuel) fn ps k done db).db? = some d → Same db d) ∧
    ∀ fs d, paramLoop env (parseInst env fuel) fn ps k done db = .ok fs d →
      ∃ new, fs = done ++ new ∧ ParamsFor env fn 0#32 k ps new := by
  induction ps generalizing k done db with
  | nil =>
    refine ⟨fun d h => ?_, fun fs d h => ?_⟩
    · injection h with h; subst h; exact ⟨rfl, rfl⟩
    · injection h with h1 h2; subst h1; exact ⟨[], by simp, .nil⟩
  | cons p r ih =>
    have hp := hw p List.mem_cons_self
    have hr : ∀ p ∈ r, WellNamed p.type := fun p h => hw p (List.mem_cons_of_mem _ h)
    unfold paramLoop
    constructor
    · intro d h
      rcases bind_db _ _ _ h with ⟨s, hs⟩ | ⟨f, d', hf, h⟩
      · exact makeField_same he fuel p.type hp _ _ _ db d (by rw [hs]; rfl)
      · exact (makeField_same he fuel p.type hp _ _ _ db d' (by rw [hf]; rfl)).trans ((ih hr _ _ _).1 d h)
    · intro fs d h
      obtain ⟨f, d', hf, h⟩ := bind_ok _ _ _ _ h
      obtain ⟨new, e1, e2⟩ := (ih hr _ _ _).2 fs d h
      exact ⟨f :: new, by rw [e1]; simp, .cons (nameOf_paramName p k) (makeField_field he fuel p.type hp _ _ _ db d' f hf) e2⟩

theorem makeFunction_ok {env : Env} (he : WellNamedEnv env) (fuel : Nat) (fd : FnDecl) (pre : List Field) (db db' : Db)
    (hw : ∀ p ∈ fd.params, WellNamed p.type) (hr : WellNamed (callResult fd.result)) (hf : fd.first = true)
    (h : makeFunction env (parseInst env fuel) fd pre db = .ok () db') :
    ∃ ret ps uid, FieldFor env (callResult fd.result) b!"return" fd.name (-1) uid ret ∧
      ParamsFor env fd.name uid pre.length fd.params ps ∧
      uid = Hash.uniqueId ((pre ++ ps).map hashParam) ∧
      db'.functions = db.functions ++ [⟨fd.name, fd.parent, uid⟩] ∧
      db'.fields = db.fields ++ (if ret.type ≠ b!"void" then [ret] else []) ++ pre.map (fun f => { f with uid := uid }) ++ ps := by
  unfold makeFunction at h
  rw [hf] at h
  simp only [Bool.not_true, Bool.false_eq_true, if_false] at h
  obtain ⟨ret, d1, h1, h⟩ := bind_ok _ _ _ _ h
  obtain ⟨fs, d2, h2, h⟩ := bind_ok _ _ _ _ h
  injection h with _ h
  subst h
  have s1 := makeField_same he fuel _ hr _ _ _ db d1 (by rw [h1]; rfl)
  have s2 := (paramLoop_ok he fuel fd.name fd.params hw pre.length pre d1).1 d2 (by rw [h2]; rfl)
  obtain ⟨new, e1, e2⟩ := (paramLoop_ok he fuel fd.name fd.params hw pre.length pre d1).2 fs d2 h2
  have s := s1.trans s2
  have hmap : ((pre ++ new.map fun (f : Field) => { f with uid := Hash.uniqueId (fs.map hashParam) }).map hashParam) = fs.map hashParam := by
    rw [e1]
    simp only [List.map_append, List.map_map]
    congr 1
  refine ⟨{ ret with uid := Hash.uniqueId (fs.map hashParam) }, new.map fun (f : Field) => { f with uid := Hash.uniqueId (fs.map hashParam) },
    Hash.uniqueId (fs.map hashParam), fieldFor_uid (makeField_field he fuel _ hr _ _ _ db d1 ret h1), paramsFor_uid e2, ?_, ?_, ?_⟩
  · rw [hmap]
  · simp only [addFunction, s.1]
  · simp only [addFunction, s.2]
    generalize Hash.uniqueId (fs.map hashParam) = u
    rw [e1, List.map_append]
    simp only [List.append_assoc]

theorem makeFunction_fail {env : Env} (he : WellNamedEnv env) (fuel : Nat) (fd : FnDecl) (pre : List Field) (db db' : Db) (s : Bool)
    (hw : ∀ p ∈ fd.params, WellNamed p.type) (hr : WellNamed (callResult fd.result))
    (h : makeFunction env (parseInst env fuel) fd pre db = .fail s db') : Same db db' := by
  unfold makeFunction at h
  split at h
  · cases h
  · have h' : (Out.fail s db' : Out Unit).db? = some db' := rfl
    rw [← h] at h'
    rcases bind_db _ _ _ h' with ⟨s', hs⟩ | ⟨ret, d1, h1, h2⟩
    · exact makeField_same he fuel _ hr _ _ _ db db' (by rw [hs]; rfl)
    · have s1 := makeField_same he fuel _ hr _ _ _ db d1 (by rw [h1]; rfl)
      rw [h1] at h
      simp only [Out.bind] at h
      cases hl : paramLoop env (parseInst env fuel) fd.name fd.params pre.length pre d1 with
      | never => rw [hl] at h; cases h
      | fail s2 d2 =>
        rw [hl] at h
        injection h with _ h
        subst h
        exact s1.trans ((paramLoop_ok he fuel fd.name fd.params hw pre.length pre d1).1 d2 (by rw [hl]; rfl))
      | ok fs d2 => rw [hl] at h; cases h

/-! ### What is returned -/

theorem unqual_peel (t : CType) : t.unqual.peel = t.peel ∧ t.unqual.cst = false := by
  induction t with
  | const t ih => exact ih
  | alias t ih =>
    unfold CType.unqual
    split
    · exact ih
    · rename_i h
      refine ⟨rfl, ?_⟩
      show t.cst = false
      rw [← isConst_canon]
      simpa using h
  | _ => exact ⟨rfl, rfl⟩

theorem callResult_reference (t u b : CType) (c c' : Bool) (hm : Means t c' (.lref u)) (hu : Means u c b) :
    Points (callResult t) .value c b := by
  have : callResult t = u := by
    unfold callResult
    rw [← ((means_iff _ _ _).mp hm).2]
  rw [this]
  exact .value hu

theorem callResult_pointer (t b : CType) (c : Bool) (h : Points t .pointer c b) : Points (callResult t) .pointer c b := by
  cases h with
  | pointer hm hu =>
    have hp := ((means_iff _ _ _).mp hm).2
    have : callResult t = t.unqual := by
      unfold callResult
      rw [← hp]
    rw [this]
    refine .pointer (c' := false) ((means_iff _ _ _).mpr ⟨(unqual_peel t).2.symm, ?_⟩) hu
    rw [(unqual_peel t).1]; exact hp

theorem callResult_class (t b : CType) (c : Bool) (h : Means t c b) (hb : IsClass b) : callResult t = t := by
  have := ((means_iff _ _ _).mp h).2
  unfold callResult
  rw [← this]
  cases hb <;> rfl

theorem callResult_builtin (t : CType) (c : Bool) (n : Bytes) (h : Means t c (.builtin n)) : Points (callResult t) .value false (.builtin n) := by
  have hp := ((means_iff _ _ _).mp h).2
  have : callResult t = t.unqual := by
    unfold callResult
    rw [← hp]
  rw [this]
  refine .value ((means_iff _ _ _).mpr ⟨(unqual_peel t).2.symm, ?_⟩)
  rw [(unqual_peel t).1]; exact hp

theorem callResult_enum (t : CType) (c : Bool) (k n : Bytes) (h : Means t c (.enum k n)) :
    Points (callResult t) .value false (.enum k n) := by
  have hp := ((means_iff _ _ _).mp h).2
  have : callResult t = t.unqual := by
    unfold callResult
    rw [← hp]
  rw [this]
  refine .value ((means_iff _ _ _).mpr ⟨(unqual_peel t).2.symm, ?_⟩)
  rw [(unqual_peel t).1]; exact hp

theorem wellNamed_unqual (t : CType) (h : WellNamed t) : WellNamed t.unqual := by
  induction t with
  | const t ih => exact ih (wellNamed_const t h)
  | alias t ih =>
    unfold CType.unqual
    split
    · exact ih h
    · exact h
  | _ => exact h

theorem wellNamed_callResult (t : CType) (h : WellNamed t) : WellNamed (callResult t) := by
  have hp := wellNamed_peel t h
  unfold callResult
  split
  · rename_i u hu; rw [hu] at hp; exact hp
  · rename_i u hu; rw [hu] at hp; exact hp
  · exact h
  · exact h
  · exact h
  · exact wellNamed_unqual t h

/-! ### What can be recorded -/

theorem paramInfo_supported {n : Nat} {env : Env} {self : Nat → Db → Out Bytes} (hd : ∀ id, (env id).declared = true)
    (hs : ∀ id, CanRecord env n id → ∀ db, ∃ x db', self id db = .ok x db') (t : CType) (h : Supported env n t) (db : Db) :
    ∃ i db', paramInfo env self t db = .ok i db' := by
  rcases h with ⟨op, c, b, h1, h2⟩ | ⟨m, u, op, c, b, rfl, _, hm, h1, h2⟩
  · obtain ⟨x, d, hx⟩ := paramInfo_can hd hs t op c b h1 h2 db
    exact ⟨_, _, hx⟩
  · obtain ⟨x, d, hx⟩ := paramInfo_can_array hd hs u op c b h1 h2 m hm db
    exact ⟨_, _, hx⟩

theorem makeField_can {n : Nat} {env : Env} {self : Nat → Db → Out Bytes} (hd : ∀ id, (env id).declared = true)
    (hs : ∀ id, CanRecord env n id → ∀ db, ∃ x db', self id db = .ok x db') (t : CType) (h : Supported env n t)
    (name parent : Bytes) (offset : Int) (db : Db) : ∃ f db', makeField env self t name parent offset db = .ok f db' := by
  obtain ⟨i, d, hx⟩ := paramInfo_supported hd hs t h db
  exact ⟨_, _, by rw [makeField, hx]; rfl⟩

theorem paramLoop_can {n : Nat} {env : Env} {self : Nat → Db → Out Bytes} (hd : ∀ id, (env id).declared = true)
    (hs : ∀ id, CanRecord env n id → ∀ db, ∃ x db', self id db = .ok x db') (fn : Bytes) (ps : List ParamDecl)
    (h : ∀ p ∈ ps, Supported env n p.type) (k : Nat) (done : List Field) (db : Db) :
    ∃ fs db', paramLoop env self fn ps k done db = .ok fs db' := by
  induction ps generalizing k done db with
  | nil => exact ⟨_, _, rfl⟩
  | cons p r ih =>
    obtain ⟨f, d, hf⟩ := makeField_can hd hs p.type (h p List.mem_cons_self) (paramName p k) fn k db
    obtain ⟨fs, d', hfs⟩ := ih (fun p hp => h p (List.mem_cons_of_mem _ hp)) (k + 1) (done ++ [f]) d
    exact ⟨fs, d', by rw [paramLoop, hf]; exact hfs⟩

/-! ### Members -/

theorem fieldsFor_append {env : Env} {n : Nat} {parent : Bytes} {ps qs : List Place} {fs gs : List Field}
    (h : FieldsFor env n parent ps fs) (h' : FieldsFor env n parent qs gs) : FieldsFor env n parent (ps ++ qs) (fs ++ gs) := by
  induction h with
  | nil => exact h'
  | keep hf _ ih => exact .keep hf ih
  | skip hs _ ih => exact .skip hs ih

theorem addField_ok {env : Env} (he : WellNamedEnv env) (fuel : Nat) (parent name : Bytes) (t : CType) (hw : WellNamed t) (bits : Nat)
    (db db' : Db) (h : addField env (parseInst env fuel) parent name t bits db = some db') :
    ∃ new, db'.fields = db.fields ++ new ∧ FieldsFor env fuel parent [(name, t, bits)] new := by
  unfold addField at h
  split at h
  · cases h
  · rename_i s d hd
    injection h with h
    subst h
    have := makeField_same he fuel t hw name parent _ db d (by rw [hd]; rfl)
    refine ⟨[], by simpa using this.2, .skip (fun hs => ?_) .nil⟩
    obtain ⟨f, d', hf⟩ := makeField_can he.declared (fun id hc db => parseInst_can he fuel id hc fuel (Nat.le_refl _) db) t hs name parent
      ((bits / 8 : Nat) : Int) db
    rw [hd] at hf
    cases hf
  · rename_i f d hd
    injection h with h
    subst h
    have := makeField_same he fuel t hw name parent _ db d (by rw [hd]; rfl)
    exact ⟨[f], by rw [← this.2], .keep (makeField_field he fuel t hw name parent _ db d f hd) .nil⟩

mutual
theorem addMember_ok {env : Env} (he : WellNamedEnv env) (fuel : Nat) (parent : Bytes) : ∀ (m : Member) (_ : m.wellNamed) (db db' : Db),
    addMember env (parseInst env fuel) parent m db = some db' →
    ∃ new, db'.fields = db.fields ++ new ∧ FieldsFor env fuel parent m.ownPlaces new
  | .field name t bits, hw, db, db', h => addField_ok he fuel parent name t hw bits db db' h
  | .anon bits ms, hw, db, db', h => addMembers_ok he fuel parent ms hw db db' h

theorem addMembers_ok {env : Env} (he : WellNamedEnv env) (fuel : Nat) (parent : Bytes) : ∀ (ms : Members) (_ : ms.wellNamed) (db db' : Db),
    addMembers env (parseInst env fuel) parent ms db = some db' →
    ∃ new, db'.fields = db.fields ++ new ∧ FieldsFor env fuel parent ms.ownPlaces new
  | .nil, _, db, db', h => by
    injection h with h
    subst h
    exact ⟨[], by simp, .nil⟩
  | .cons m r, hw, db, db', h => by
    unfold addMembers at h
    obtain ⟨d, h1, h2⟩ := Option.bind_eq_some_iff.mp h
    obtain ⟨n1, e1, k1⟩ := addMember_ok he fuel parent m hw.1 db d h1
    obtain ⟨n2, e2, k2⟩ := addMembers_ok he fuel parent r hw.2 d db' h2
    exact ⟨n1 ++ n2, by rw [e2, e1, List.append_assoc], fieldsFor_append k1 k2⟩
end

mutual
theorem member_atStart : ∀ (m : Member), m.atStart → m.places 0 = m.ownPlaces
  | .field name t bits, _ => by simp [Member.places, Member.ownPlaces]
  | .anon bits ms, h => by
    have : bits = 0 := h.1
    subst this
    exact members_atStart ms h.2

theorem members_atStart : ∀ (ms : Members), ms.atStart → ms.places 0 = ms.ownPlaces
  | .nil, _ => rfl
  | .cons m r, h => by rw [Members.places, Members.ownPlaces, member_atStart m h.1, members_atStart r h.2]
end

end Clr.ScanTypes
