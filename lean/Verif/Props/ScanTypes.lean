import Verif.Proofs.ScanFunctions

/-!
C66: the types of fields and parameters. C67: instances of templates. C68: functions. C69: members of classes. C70: enums.
-/
namespace Clr.ScanTypes
open Clr.Hash (Op)

/-! ### C66 -/

/-- C66: what is recorded of a type is what it means: the name of the type, by way of any typedefs, whether it is a pointer or a reference,
whether what is held or pointed to is `const`, and the number of elements. -/
theorem C66_recorded_means {env : Env} (he : WellNamedEnv env) (fuel : Nat) (t : CType) (hw : WellNamed t) (db db' : Db) (i : PInfo)
    (h : paramInfo env (parseInst env fuel) t db = .ok i db') : Declares env t i :=
  ((paramInfo_ok he (parseInst_ok he fuel) t hw db).2 i db' h).1

/-- C66: a type has only one meaning. -/
theorem C66_spec_deterministic {env : Env} (t : CType) (i j : PInfo) (h : Declares env t i) (h' : Declares env t j) : i = j := by
  have no : ∀ {n : Nat} {u b : CType} {op : Op} {c : Bool} {x : Bytes}, Points (.array n u) op c b → HasName env b x → False := by
    intro n u b op c x hp hn
    have := shape_of _ op c b hp (hasName_ne hn)
    have hs : shape (.array n u) = (.value, false, .array n u) := rfl
    rw [hs] at this
    injection this with _ h
    injection h with _ h
    subst h
    cases hn
  cases h with
  | single hp hn =>
    cases h' with
    | single hp' hn' =>
      obtain ⟨rfl, rfl, rfl⟩ := points_det hp hn hp' hn'
      rw [hasName_det hn hn']
    | array _ _ hp' hn' => exact (no hp hn).elim
  | array _ _ hp hn =>
    cases h' with
    | single hp' hn' => exact (no hp' hn').elim
    | array _ _ hp' hn' =>
      obtain ⟨rfl, rfl, rfl⟩ := points_det hp hn hp' hn'
      rw [hasName_det hn hn']

/-- C66: a built-in type, an enum, a class or an instance that can be recorded, a pointer or a reference to one, is recorded, whatever is
in the database. -/
theorem C66_supported_recorded {env : Env} (he : WellNamedEnv env) (n fuel : Nat) (hf : n ≤ fuel) (t : CType) (hw : WellNamed t) (op : Op)
    (c : Bool) (b : CType) (h : Points t op c b) (hb : CanName (CanRecord env n) b) (db : Db) :
    ∃ x db', paramInfo env (parseInst env fuel) t db = .ok ⟨x, op, c, 0⟩ db' ∧ HasName env b x := by
  obtain ⟨x, db', hx⟩ := paramInfo_can he.declared (fun id hc db => parseInst_can he n id hc fuel hf db) t op c b h hb db
  refine ⟨x, db', hx, ?_⟩
  have hd := C66_recorded_means he fuel t hw db db' _ hx
  generalize hi : (⟨x, op, c, 0⟩ : PInfo) = i at hd
  cases hd with
  | single hp hn =>
    injection hi with h1 h2 h3 h4
    subst h1 h2 h3
    have e1 := shape_of _ _ _ _ h (canName_ne hb)
    rw [shape_of _ _ _ _ hp (hasName_ne hn)] at e1
    injection e1 with _ e1
    injection e1 with _ e1
    subst e1
    exact hn
  | array h0 _ _ _ => injection hi with _ _ _ h4; omega

/-- C66: so is an array of such, with its number of elements, if that fits 32 bits. -/
theorem C66_array_recorded {env : Env} (he : WellNamedEnv env) (n fuel : Nat) (hf : n ≤ fuel) (t : CType) (hw : WellNamed t) (op : Op)
    (c : Bool) (b : CType) (h : Points t op c b) (hb : CanName (CanRecord env n) b) (m : Nat) (h0 : 0 < m) (hm : m < 2 ^ 32) (db : Db) :
    ∃ x db', paramInfo env (parseInst env fuel) (.array m t) db = .ok ⟨x, op, c, m⟩ db' ∧ HasName env b x := by
  obtain ⟨x, db', hx⟩ := paramInfo_can_array he.declared (fun id hc db => parseInst_can he n id hc fuel hf db) t op c b h hb m hm db
  refine ⟨x, db', hx, ?_⟩
  have hd := C66_recorded_means he fuel (.array m t) ⟨h0, hw⟩ db db' _ hx
  have : Declares env (.array m t) ⟨x, op, c, m⟩ := hd
  generalize hi : (⟨x, op, c, m⟩ : PInfo) = i at hd
  generalize ht : CType.array m t = t' at hd
  cases hd with
  | single hp hn => injection hi with _ _ _ h4; omega
  | array _ _ hp hn =>
    injection hi with h1 h2 h3 h4
    injection ht with _ ht
    subst h1 h2 h3 ht
    have e1 := shape_of _ _ _ _ h (canName_ne hb)
    rw [shape_of _ _ _ _ hp (hasName_ne hn)] at e1
    injection e1 with _ e1
    injection e1 with _ e1
    subst e1
    exact hn

/-- C66: a type that has no such meaning, as pointers to pointers, arrays of arrays or functions, is not recorded. -/
theorem C66_unsupported_rejected {env : Env} (he : WellNamedEnv env) (fuel : Nat) (t : CType) (hw : WellNamed t)
    (hn : ¬ ∃ i, Declares env t i) (db db' : Db) (i : PInfo) : paramInfo env (parseInst env fuel) t db ≠ .ok i db' :=
  fun h => hn ⟨i, C66_recorded_means he fuel t hw db db' i h⟩

/-- C66: pointers to pointers, and to references, have no such meaning. -/
theorem C66_pointer_to_pointer {env : Env} (t u v : CType) (c c' : Bool) (h : Means t c (.pointer u)) (h' : Means u c' (.pointer v)) :
    ¬ ∃ i, Declares env t i := by
  rintro ⟨i, hd⟩
  have hp := ((means_iff _ _ _).mp h).2
  have hu := ((means_iff _ _ _).mp h').2
  cases hd with
  | single hpt hn =>
    have := shape_of _ _ _ _ hpt (hasName_ne hn)
    rw [shape, ← hp] at this
    injection this with _ h1
    injection h1 with _ h1
    rw [← hu] at h1
    subst h1
    cases hn
  | array _ _ _ _ => cases hp

/-- C66 fails for arrays by way of a typedef: the same declaration with the array written out is recorded. -/
theorem C66_typedef_array_false : ∃ (env : Env) (t : CType), WellNamedEnv env ∧ WellNamed t ∧
    (∀ fuel db, ∃ i, paramInfo env (parseInst env fuel) t db = .ok i db) ∧
    ∀ fuel db, paramInfo env (parseInst env fuel) (.alias t) db = .fail false db := by
  refine ⟨fun _ => { tname := b!"A", args := [] }, .array 3 (.builtin b!"int"), ⟨fun _ => by decide, fun _ => rfl, ?_, ?_⟩, ⟨by decide, ?_⟩, ?_, ?_⟩
  · intro _ t h; cases h
  · intro _ t h; cases h
  · exact plain_of_no_space _ (by decide)
  · intro fuel db
    exact ⟨_, rfl⟩
  · intro fuel db
    rfl

/-- C66: a type written as a template and its arguments that was not instantiated yet is passed over without a word, and nothing is
recorded. -/
theorem C66_uninstantiated_silent (env : Env) (self : Nat → Db → Out Bytes) (id : Nat) (h : (env id).declared = false) (db : Db) :
    paramInfo env self (.spec id) db = .fail true db ∧ paramInfo env self (.pointer (.spec id)) db = .fail true db := by
  constructor <;> simp [paramInfo, arrayStep, pointeeStep, CType.strip, CType.update, recordable, specialise, h, Out.bind]

/-! ### C67 -/

/-- C67: when a type is recorded, the instances of templates it is made of are in the database, each with its template, size, arguments
and bases; whatever the outcome, nothing else is added but inheritance relations, and nothing is taken away. -/
theorem C67_instances_described {env : Env} (he : WellNamedEnv env) (fuel : Nat) (t : CType) (hw : WellNamed t) (db : Db)
    (g : GoodDb env db) :
    (∀ i db', paramInfo env (parseInst env fuel) t db = .ok i db' → Grows db db' ∧ GoodDb env db' ∧
      ∀ op c b id, Points t op c b → IsInstance b id → HasName env (.inst id) i.name ∧ i.name ∈ db'.typeNames) ∧
    ∀ s db', paramInfo env (parseInst env fuel) t db = .fail s db' → Grows db db' ∧ GoodDb env db' := by
  have h := paramInfo_ok he (parseInst_ok he fuel) t hw db
  constructor
  · intro i db' hi
    have h1 := h.1
    rw [hi] at h1
    refine ⟨h1.1, h1.2 g, fun op c b id hp hb => ?_⟩
    have hd := (h.2 i db' hi).1
    have h0 : i.count = 0 := by
      cases hd with
      | single _ _ => rfl
      | array _ _ _ _ =>
        exfalso
        cases hp with
        | value hm =>
          have := ((means_iff _ _ _).mp hm).2
          subst this
          cases hb
        | pointer hm _ => exact absurd ((means_iff _ _ _).mp hm).2 (by simp [CType.peel])
        | reference hm _ => exact absurd ((means_iff _ _ _).mp hm).2 (by simp [CType.peel])
    exact (h.2 i db' hi).2.2 h0 op c b id hp hb
  · intro s db' hi
    have h1 := h.1
    rw [hi] at h1
    exact ⟨h1.1, h1.2 g⟩

/-- C67: if no instance is in itself and no two have the same name, then the parse ends, and no instance is recorded twice. -/
theorem C67_once_partial {env : Env} (he : WellNamedEnv env) (rank : Nat → Nat) (hr : Ranked env rank) (hn : DistinctNames env)
    (id fuel : Nat) (hf : rank id < fuel) (db : Db) (hd : db.typeNames.Nodup) :
    (∃ x db', parseInst env fuel id db = .ok x db' ∧ db'.typeNames.Nodup) ∨
      ∃ s db', parseInst env fuel id db = .fail s db' ∧ db'.typeNames.Nodup := by
  have h := parseInst_ranked he rank hr hn fuel id hf db
  cases ho : parseInst env fuel id db with
  | never => rw [ho] at h; exact h.elim
  | fail s d => rw [ho] at h; exact .inr ⟨s, d, rfl, h.1 hd⟩
  | ok x d => rw [ho] at h; exact .inl ⟨x, d, rfl, h.1 hd⟩

/-- C67: an instance that can be recorded is, whatever is in the database. -/
theorem C67_supported_recorded {env : Env} (he : WellNamedEnv env) (n fuel id : Nat) (hc : CanRecord env n id) (hf : n ≤ fuel) (db : Db) :
    ∃ x db', parseInst env fuel id db = .ok x db' ∧ HasName env (.inst id) x ∧ x ∈ db'.typeNames := by
  obtain ⟨x, db', h⟩ := parseInst_can he n id hc fuel hf db
  have := (parseInst_ok he fuel).name id db x db' h
  exact ⟨x, db', h, this.1, this.2.2⟩

/-- `template <T> struct Base {}; template <T> struct D : Base<D<T>> {};`, and `D<int>`, which is 0, and `Base<D<int>>`. -/
def recursiveEnv : Env := fun id => match id with
  | 0 => { tname := b!"D", args := [.type (.builtin b!"int")], bases := [{ type := .spec 1 }] }
  | _ => { tname := b!"Base", args := [.type (.spec 0)] }

/-- C67 fails for an instance that is an argument of its own base class: the parse does not end. -/
theorem C67_recursive_base_never : WellNamedEnv recursiveEnv ∧
    ∀ fuel db, b!"D<int>" ∉ db.typeNames → parseInst recursiveEnv fuel 0 db = .never := by
  constructor
  · have hcase : ∀ id, recursiveEnv id = recursiveEnv 0 ∨ recursiveEnv id = recursiveEnv 1 := by
      intro id
      cases id with
      | zero => exact .inl rfl
      | succ n => exact .inr rfl
    refine ⟨fun id => ?_, fun id => ?_, fun id t h => ?_, fun id b h => ?_⟩
    · rcases hcase id with h | h <;> rw [h] <;> decide
    · rcases hcase id with h | h <;> rw [h] <;> rfl
    · rcases hcase id with h' | h' <;> rw [h'] at h
      · have : t = .builtin b!"int" := by simpa [recursiveEnv] using h
        subst this
        exact plain_of_no_space _ (by decide)
      · have : t = .spec 0 := by simpa [recursiveEnv] using h
        subst this
        trivial
    · rcases hcase id with h' | h' <;> rw [h'] at h
      · have : b = { type := .spec 1 } := by simpa [recursiveEnv] using h
        subst this
        exact ⟨trivial, false, .spec 1, .self trivial, .spec⟩
      · have : b ∈ ([] : List Base) := h
        cases this
  · have both : ∀ fuel db, b!"D<int>" ∉ db.typeNames →
        parseInst recursiveEnv fuel 0 db = .never ∧ parseInst recursiveEnv fuel 1 db = .never := by
      intro fuel
      induction fuel with
      | zero => intro db _; exact ⟨rfl, rfl⟩
      | succ n ih =>
        intro db hdb
        obtain ⟨h0, h1⟩ := ih db hdb
        constructor
        · have hname : instName b!"D" [⟨cleanName b!"int", .value, false, 0⟩] = b!"D<int>" := by decide +kernel
          have hno : db.hasTemplateType b!"D<int>" = false := by
            cases hh : db.hasTemplateType b!"D<int>" with
            | false => rfl
            | true => exact absurd ((hasTemplateType_iff _ _).mp hh) hdb
          have harg : argLoop recursiveEnv (parseInst recursiveEnv n) (recursiveEnv 0).args [] db =
              .ok [⟨cleanName b!"int", .value, false, 0⟩] db := by
            simp [argLoop, recursiveEnv, paramInfo, arrayStep, pointeeStep, CType.strip, CType.update, CType.isConst, recordable,
              specialise, printed, Out.bind]
          have hbase : baseLoop recursiveEnv (parseInst recursiveEnv n) b!"D<int>" (recursiveEnv 0).bases db = .never := by
            have : specialise recursiveEnv (parseInst recursiveEnv n) (.spec 1)
                (removeAll b!"class " (removeAll b!"struct " (printed recursiveEnv (.spec 1)))) db = .never := by
              simp only [specialise]
              rw [h1]
              rfl
            show (parseBase recursiveEnv (parseInst recursiveEnv n) b!"D<int>" { type := .spec 1 } db).bind _ = _
            unfold parseBase
            show ((specialise recursiveEnv (parseInst recursiveEnv n) (.spec 1)
                (removeAll b!"class " (removeAll b!"struct " (printed recursiveEnv (.spec 1)))) db).bind _).bind _ = _
            rw [this]
            rfl
          show instBody recursiveEnv (parseInst recursiveEnv n) 0 db = _
          unfold instBody
          rw [if_neg (by decide), harg]
          simp only [Out.bind]
          have htn : (recursiveEnv 0).tname = b!"D" := rfl
          rw [htn, hname, hno, hbase]
          rfl
        · have harg : argLoop recursiveEnv (parseInst recursiveEnv n) (recursiveEnv 1).args [] db = .never := by
            show (paramInfo recursiveEnv (parseInst recursiveEnv n) (.spec 0) db).bind _ = _
            have : paramInfo recursiveEnv (parseInst recursiveEnv n) (.spec 0) db = .never := by
              have hd : (recursiveEnv 0).declared = true := rfl
              simp [paramInfo, arrayStep, pointeeStep, CType.strip, CType.update, recordable, specialise, h0, Out.bind, hd]
            rw [this]
            rfl
          show instBody recursiveEnv (parseInst recursiveEnv n) 1 db = _
          unfold instBody
          rw [if_neg (by decide), harg]
          rfl
    exact fun fuel db h => (both fuel db h).1

/-- `template <T> struct A;`, and `A<int>` and `A<const int>`, which has another size. -/
def constEnv : Env := fun id => match id with
  | 0 => { tname := b!"A", args := [.type (.builtin b!"int")], size := 4 }
  | _ => { tname := b!"A", args := [.type (.const (.builtin b!"int"))], size := 8 }

/-- C67 fails for arguments that are `const`: two instances have one name, and only the one that comes first is recorded. -/
theorem C67_const_argument_false : ∀ fuel, ∃ db db', parseInst constEnv (fuel + 1) 0 {} = .ok b!"A<int>" db ∧
    parseInst constEnv (fuel + 1) 1 db = .ok b!"A<int>" db' ∧ db'.templateTypes.map TemplateType.size = [4] := by
  intro fuel
  have hname : instName b!"A" [⟨cleanName b!"int", .value, false, 0⟩] = b!"A<int>" := by decide +kernel
  have hname' : instName b!"A" [⟨cleanName b!"int", .value, true, 0⟩] = b!"A<int>" := by decide +kernel
  have h0 : parseInst constEnv (fuel + 1) 0 {} = .ok b!"A<int>" { templateTypes :=
      [{ name := b!"A<int>", parent := b!"A", size := 4, params := [(cleanName b!"int", false)] }] } := by
    rw [← hname]
    simp [parseInst, instBody, argLoop, constEnv, paramInfo, arrayStep, pointeeStep, CType.strip, CType.update, CType.isConst, recordable,
      specialise, printed, Out.bind, maxArgs, baseLoop, Db.hasTemplateType]
  refine ⟨_, { templateTypes := [{ name := b!"A<int>", parent := b!"A", size := 4, params := [(cleanName b!"int", false)] }] }, h0, ?_, rfl⟩
  show instBody constEnv _ 1 _ = _
  have harg : ∀ db, argLoop constEnv (parseInst constEnv fuel) (constEnv 1).args [] db = .ok [⟨cleanName b!"int", .value, true, 0⟩] db := by
    intro db
    simp [argLoop, constEnv, paramInfo, arrayStep, pointeeStep, CType.strip, CType.update, CType.isConst, recordable,
      specialise, printed, Out.bind]
  unfold instBody
  rw [if_neg (by decide), harg]
  simp only [Out.bind]
  have htn : (constEnv 1).tname = b!"A" := rfl
  rw [htn, hname']
  simp [Db.hasTemplateType]

/-- C67: templates with up to four parameters are recorded, but no instance with four arguments is. -/
theorem C67_four_arguments_false (env : Env) (fuel id : Nat) (h : (env id).args.length = 4) (db : Db) :
    parseInst env (fuel + 1) id db = .fail false db := by
  unfold parseInst instBody
  rw [if_pos (by unfold maxArgs; omega)]

/-- `template <T> struct D : Base<D<int>>;` but for `D<int>`, which has no base: `D<const int>`, `Base<D<int>>` and `D<int>`. -/
def twiceEnv : Env := fun id => match id with
  | 0 => { tname := b!"D", args := [.type (.const (.builtin b!"int"))], bases := [{ type := .spec 1 }] }
  | 1 => { tname := b!"Base", args := [.type (.spec 2)] }
  | _ => { tname := b!"D", args := [.type (.builtin b!"int")] }

/-- C67 fails for them in another way, too: there may be two entries with the same name. -/
theorem C67_twice_false : ∃ x db, parseInst twiceEnv 3 0 {} = .ok x db ∧ db.typeNames = [b!"D<int>", b!"Base<D<int>>", b!"D<int>"] :=
  ⟨_, _, rfl, by decide +kernel⟩

/-- `template <T> struct D : A, virtual B {};`, and `D<int>`. -/
def leftEnv : Env := fun _ =>
  { tname := b!"D", args := [.type (.builtin b!"int")],
    bases := [{ type := .record [] b!"A" }, { virt := true, type := .record [] b!"B" }] }

/-- C67 fails for an instance that is not recorded because of one of its base classes: it still has an inheritance relation. -/
theorem C67_left_over_false : ∃ s db, parseInst leftEnv 1 0 {} = .fail s db ∧ db.typeNames = [] ∧ db.inherits = [(b!"D<int>", b!"A")] :=
  ⟨_, _, rfl, by decide +kernel, by decide +kernel⟩

/-! ### C68 -/

/-- C68: a function that is added has its parameters, in order, numbered, with their names and types; it, they and what it returns carry
the number computed from the parameters' types; what it returns is added, too, if its type is not `void`. -/
theorem C68_function_partial {env : Env} (he : WellNamedEnv env) (fuel : Nat) (fd : FnDecl) (db db' : Db)
    (hw : ∀ p ∈ fd.params, WellNamed p.type) (hr : WellNamed fd.result) (hf : fd.first = true)
    (h : makeFunction env (parseInst env fuel) fd [] db = .ok () db') :
    ∃ ret ps uid, FieldFor env (callResult fd.result) b!"return" fd.name (-1) uid ret ∧ ParamsFor env fd.name uid 0 fd.params ps ∧
      uid = Hash.uniqueId (ps.map fun f => { typeText := f.type, op := f.op, isConst := f.isConst }) ∧ db'.functions = db.functions ++ [⟨fd.name, fd.parent, uid⟩] ∧
      db'.fields = db.fields ++ (if ret.type ≠ b!"void" then [ret] else []) ++ ps := by
  obtain ⟨ret, ps, uid, h1, h2, h3, h4, h5⟩ := makeFunction_ok he fuel fd [] db db' hw (wellNamed_callResult _ hr) hf h
  exact ⟨ret, ps, uid, h1, h2, by rw [h3]; rfl, h4, by simpa using h5⟩

/-- C68: a method that is not static has `this` before its parameters. -/
theorem C68_method_partial {env : Env} (he : WellNamedEnv env) (fuel : Nat) (md : MethodDecl) (t : CType) (db db' : Db)
    (hw : ∀ p ∈ md.params, WellNamed p.type) (hr : WellNamed md.result) (ht : WellNamed t) (hf : md.first = true)
    (hop : md.isOperator = false) (hthis : md.thisType = some t) (h : addMethod env (parseInst env fuel) md db = .ok () db') :
    ∃ ret self ps uid, FieldFor env (callResult md.result) b!"return" md.name (-1) uid ret ∧
      FieldFor env t b!"this" md.name 0 uid self ∧ ParamsFor env md.name uid 1 md.params ps ∧
      uid = Hash.uniqueId ((self :: ps).map fun f => { typeText := f.type, op := f.op, isConst := f.isConst }) ∧ db'.functions = db.functions ++ [⟨md.name, md.parent, uid⟩] ∧
      db'.fields = db.fields ++ (if ret.type ≠ b!"void" then [ret] else []) ++ self :: ps := by
  unfold addMethod at h
  rw [hop, hthis] at h
  simp only [Bool.false_eq_true, if_false] at h
  obtain ⟨f, d, hfd, h⟩ := bind_ok _ _ _ _ h
  have hs := makeField_same he fuel t ht _ _ _ db d (by rw [hfd]; rfl)
  have hff := makeField_field he fuel t ht _ _ _ db d f hfd
  obtain ⟨ret, ps, uid, h1, h2, h3, h4, h5⟩ := makeFunction_ok he fuel md.toFnDecl [f] d db' hw (wellNamed_callResult _ hr) hf h
  refine ⟨ret, { f with uid := uid }, ps, uid, h1, fieldFor_uid hff, h2, ?_, ?_, ?_⟩
  · rw [h3]; rfl
  · rw [h4, hs.1]
  · rw [h5, hs.2]; simp

/-- C68: a function one of whose types is not recorded leaves no function and no parameter behind. -/
theorem C68_all_or_nothing {env : Env} (he : WellNamedEnv env) (fuel : Nat) (fd : FnDecl) (pre : List Field) (db db' : Db) (s : Bool)
    (hw : ∀ p ∈ fd.params, WellNamed p.type) (hr : WellNamed fd.result)
    (h : makeFunction env (parseInst env fuel) fd pre db = .fail s db') : db'.functions = db.functions ∧ db'.fields = db.fields :=
  makeFunction_fail he fuel fd pre db db' s hw (wellNamed_callResult _ hr) h

/-- C68: a function all of whose types can be recorded is added. -/
theorem C68_supported_added {env : Env} (he : WellNamedEnv env) (n fuel : Nat) (hf : n ≤ fuel) (fd : FnDecl)
    (hp : ∀ p ∈ fd.params, Supported env n p.type) (hr : Supported env n (callResult fd.result)) (pre : List Field) (db : Db) :
    ∃ db', makeFunction env (parseInst env fuel) fd pre db = .ok () db' := by
  have hs := fun id hc db => parseInst_can he n id hc fuel hf db
  unfold makeFunction
  split
  · exact ⟨_, rfl⟩
  · obtain ⟨f, d, hfd⟩ := makeField_can he.declared hs _ hr b!"return" fd.name (-1) db
    obtain ⟨fs, d', hfs⟩ := paramLoop_can he.declared hs fd.name fd.params hp pre.length pre d
    rw [hfd]
    simp only [Out.bind]
    rw [hfs]
    exact ⟨_, rfl⟩

/-- C68: a declaration of a function that is not its first adds nothing. -/
theorem C68_redeclared (env : Env) (self : Nat → Db → Out Bytes) (fd : FnDecl) (h : fd.first = false) (pre : List Field) (db : Db) :
    makeFunction env self fd pre db = .ok () db := by
  simp [makeFunction, h]

/-- C68: what is returned by pointer, and classes returned by value, are recorded as declared; built-in types and enums returned by value
without `const`. -/
theorem C68_return_partial (t b : CType) (c : Bool) :
    (Points t .pointer c b → Points (callResult t) .pointer c b) ∧
    (IsClass b → Points t .value c b → Points (callResult t) .value c b) ∧
    (∀ n, Points t .value c (.builtin n) → Points (callResult t) .value false (.builtin n)) ∧
    ∀ k n, Points t .value c (.enum k n) → Points (callResult t) .value false (.enum k n) := by
  refine ⟨callResult_pointer t b c, fun hb hp => ?_, fun n hp => ?_, fun k n hp => ?_⟩
  · cases hp with
    | value hm => rw [callResult_class t b c hm hb]; exact .value hm
  · cases hp with
    | value hm => exact callResult_builtin t c n hm
  · cases hp with
    | value hm => exact callResult_enum t c k n hm

/-- C68 fails for all functions that return a reference: what is recorded is that they return by value. -/
theorem C68_reference_return_false {env : Env} (he : WellNamedEnv env) (fuel : Nat) (fd : FnDecl) (db db' : Db) (c : Bool) (b : CType)
    (hw : ∀ p ∈ fd.params, WellNamed p.type) (hr : WellNamed fd.result) (hf : fd.first = true) (hp : Points fd.result .reference c b)
    (h : makeFunction env (parseInst env fuel) fd [] db = .ok () db') :
    ∃ ret ps, db'.fields = db.fields ++ (if ret.type ≠ b!"void" then [ret] else []) ++ ps ∧ ret.name = b!"return" ∧
      (∀ f ∈ ps, 0 ≤ f.offset) ∧ ret.offset = -1 ∧ ∀ x, HasName env b x → ret.op = .value ∧ ret.type = x := by
  obtain ⟨ret, ps, uid, ⟨i, hd, rfl⟩, h2, _, _, h5⟩ := C68_function_partial he fuel fd db db' hw hr hf h
  refine ⟨_, ps, h5, rfl, ?_, rfl, fun x hx => ?_⟩
  · have aux : ∀ (k : Nat) (pds : List ParamDecl) (fs : List Field), ParamsFor env fd.name uid k pds fs → ∀ f ∈ fs, 0 ≤ f.offset := by
      intro k pds fs hps
      induction hps with
      | nil => intro f hf; cases hf
      | cons _ hfl _ ih =>
        intro f hf
        rcases List.mem_cons.mp hf with rfl | hf
        · obtain ⟨j, _, rfl⟩ := hfl
          exact Int.natCast_nonneg _
        · exact ih f hf
    exact aux 0 _ ps h2
  · cases hp with
    | reference hm hu =>
      have hv := callResult_reference _ _ _ _ _ hm hu
      have := C66_spec_deterministic _ _ _ hd (.single hv hx)
      rw [this]
      exact ⟨rfl, rfl⟩

/-- C68 fails for all functions that return `void*`: what is recorded is as if they returned nothing. -/
theorem C68_void_pointer_false {env : Env} (he : WellNamedEnv env) (fuel : Nat) (fd : FnDecl) (db db' : Db) (c : Bool)
    (hw : ∀ p ∈ fd.params, WellNamed p.type) (hr : WellNamed fd.result) (hf : fd.first = true)
    (hp : Points fd.result .pointer c (.builtin b!"void")) (h : makeFunction env (parseInst env fuel) fd [] db = .ok () db') :
    ∃ ps uid, ParamsFor env fd.name uid 0 fd.params ps ∧ db'.fields = db.fields ++ ps := by
  obtain ⟨ret, ps, uid, ⟨i, hd, rfl⟩, h2, _, _, h5⟩ := C68_function_partial he fuel fd db db' hw hr hf h
  have := C66_spec_deterministic _ _ _ hd (.single (callResult_pointer _ _ _ hp) .builtin)
  refine ⟨ps, uid, h2, ?_⟩
  rw [h5, this]
  simp

/-! ### C69 -/

/-- C69: the fields of a class and of the anonymous structs and unions in it are added in order, but those with types that can not be
recorded, with their types, and with their offset in what they are declared in. -/
theorem C69_members_partial {env : Env} (he : WellNamedEnv env) (fuel : Nat) (parent : Bytes) (ms : Members) (hw : ms.wellNamed)
    (db db' : Db) (h : addMembers env (parseInst env fuel) parent ms db = some db') :
    ∃ new, db'.fields = db.fields ++ new ∧ FieldsFor env fuel parent ms.ownPlaces new :=
  addMembers_ok he fuel parent ms hw db db' h

/-- C69: which is their offset in the class, if all anonymous structs and unions are at the beginning of what they are in. -/
theorem C69_offsets_partial {env : Env} (he : WellNamedEnv env) (fuel : Nat) (parent : Bytes) (ms : Members) (hw : ms.wellNamed)
    (ha : ms.atStart) (db db' : Db) (h : addMembers env (parseInst env fuel) parent ms db = some db') :
    ∃ new, db'.fields = db.fields ++ new ∧ FieldsFor env fuel parent (ms.places 0) new := by
  rw [members_atStart ms ha]
  exact addMembers_ok he fuel parent ms hw db db' h

/-- C69: an array has an entry for the number of its elements, other fields have none. -/
theorem C69_array_counts {env : Env} (he : WellNamedEnv env) (fuel : Nat) (parent name : Bytes) (t : CType) (hw : WellNamed t) (bits : Nat)
    (db db' : Db) (h : addField env (parseInst env fuel) parent name t bits db = some db') (hs : Supported env fuel t) :
    ∃ i, Declares env t i ∧
      db'.containers = db.containers ++ (if i.count ≠ 0 then [⟨parent ++ b!"::" ++ name, i.count⟩] else []) := by
  obtain ⟨f, d, hf⟩ := makeField_can he.declared (fun id hc db => parseInst_can he fuel id hc fuel (Nat.le_refl _) db) t hs name parent
    ((bits / 8 : Nat) : Int) db
  obtain ⟨⟨i, h1, _, h2⟩, _⟩ := makeField_ok he fuel t hw name parent _ db d f hf
  rw [addField, hf] at h
  injection h with h
  subst h
  exact ⟨i, h1, h2⟩

/-- `struct { int a; struct { int b; }; }`. -/
def nestedMembers : Members :=
  .cons (.field b!"a" (.builtin b!"int") 0) (.cons (.anon 32 (.cons (.field b!"b" (.builtin b!"int") 0) .nil)) .nil)

/-- C69 fails for fields of anonymous structs elsewhere: two fields of a class are recorded at the same offset. -/
theorem C69_anonymous_struct_false : nestedMembers.places 0 = [(b!"a", .builtin b!"int", 0), (b!"b", .builtin b!"int", 32)] ∧
    ∃ db, addMembers (fun _ => { tname := b!"A", args := [] }) (parseInst (fun _ => { tname := b!"A", args := [] }) 1) b!"C" nestedMembers {} =
        some db ∧ db.fields.map (fun f => (f.name, f.offset)) = [(b!"a", 0), (b!"b", 0)] := by
  refine ⟨?_, ?_⟩
  · rfl
  · exact ⟨_, rfl, by decide +kernel⟩

/-! ### C70 -/

/-- C70: the constants of an enum are recorded in order, with the enum as their parent, named in the scope the enum is in, and the enum
itself, with what is written after `enum`: nothing, `class` or `struct`. -/
theorem C70_constants_partial (name parent : Bytes) (tag : EnumTag) (cs : List ConstDecl) (db : Db) :
    (∃ sc, (addEnum name parent tag cs db).enums = db.enums ++ [⟨name, parent, sc⟩] ∧
      (sc = .none ↔ tag.isScoped = false) ∧ (sc = .cls ↔ tag.isScoped = true ∧ tag.classTag = true) ∧
      (sc = .struct ↔ tag.isScoped = true ∧ tag.classTag = false)) ∧
    ∃ new, (addEnum name parent tag cs db).constants = db.constants ++ new ∧ new.length = cs.length ∧
      ∀ k, ∀ h : k < cs.length, ∃ x, new[k]? = some ⟨x, name, rawValue cs[k]⟩ ∧
        ((parent = [] ∧ x = cs[k].name) ∨ (parent ≠ [] ∧ x = parent ++ b!"::" ++ cs[k].name)) := by
  refine ⟨⟨_, rfl, ?_⟩, _, rfl, by simp, fun k h => ?_⟩
  · obtain ⟨a, b⟩ := tag
    cases a <;> cases b <;> decide
  refine ⟨if parent ≠ [] then parent ++ b!"::" ++ cs[k].name else cs[k].name, ?_, ?_⟩
  · rw [List.getElem?_map, List.getElem?_eq_getElem h]; rfl
  · by_cases hp : parent = []
    · exact .inl ⟨hp, by simp [hp]⟩
    · exact .inr ⟨hp, by simp [hp]⟩

/-- C70: the value recorded is the constant's, if and only if it fits a signed 32-bit number, and is not a negative one kept in fewer than
32 bits. -/
theorem C70_value_iff (c : ConstDecl) (h0 : 0 < c.width) (h64 : c.width ≤ 64) (hl : -(2 ^ (c.width - 1) : Int) ≤ c.value)
    (hu : c.value < (2 ^ c.width : Int)) :
    (rawValue c).toInt = c.value ↔ (0 ≤ c.value ∧ c.value < 2 ^ 31) ∨ (c.value < 0 ∧ -(2 ^ 31) ≤ c.value ∧ 32 ≤ c.width) := by
  obtain ⟨name, v, w⟩ := c
  dsimp only at *
  unfold rawValue
  dsimp only
  rw [Int32.toInt_ofInt]
  have hp : (2 ^ w : Int) = 2 * 2 ^ (w - 1) := by
    obtain ⟨k, rfl⟩ : ∃ k, w = k + 1 := ⟨w - 1, by omega⟩
    rw [Int.pow_succ]; simp; omega
  have h2 : (2 ^ w : Int) ≤ 2 ^ 64 := by
    have : 2 ^ w ≤ 2 ^ 64 := Nat.pow_le_pow_right (by decide) h64
    exact_mod_cast this
  have hpos : (0 : Int) < 2 ^ (w - 1) := by
    have : 0 < 2 ^ (w - 1) := Nat.pow_pos (by decide)
    exact_mod_cast this
  generalize hq : (2 ^ (w - 1) : Int) = q at *
  generalize hpw : (2 ^ w : Int) = p at *
  have hmod : v % p % (2 ^ 64 : Int) = if 0 ≤ v then v else v + p := by
    split
    · have : v % p = v := Int.emod_eq_of_lt (by omega) (by omega)
      rw [this, Int.emod_eq_of_lt (by omega) (by omega)]
    · have : v % p = v + p := by
        rw [← Int.add_emod_right, Int.emod_eq_of_lt (by omega) (by omega)]
      rw [this, Int.emod_eq_of_lt (by omega) (by omega)]
  rw [hmod]
  have hb : ∀ x : Int, x.bmod Int32.size = if x % 4294967296 < 2147483648 then x % 4294967296 else x % 4294967296 - 4294967296 := by
    intro x
    rw [Int.bmod_def]
    rfl
  rw [hb]
  by_cases hv : 0 ≤ v
  · rw [if_pos hv]
    split <;> omega
  · rw [if_neg hv]
    by_cases hw : 32 ≤ w
    · have : ∃ k : Int, p = 4294967296 * k := by
        refine ⟨2 ^ (w - 32), ?_⟩
        rw [← hpw]
        have h32 : (2 : Int) ^ w = 2 ^ 32 * 2 ^ (w - 32) := by rw [← Int.pow_add]; congr 1; omega
        exact h32
      obtain ⟨k, hk⟩ := this
      have : (v + p) % 4294967296 = v % 4294967296 := by rw [hk]; omega
      rw [this]
      split <;> omega
    · have : p ≤ 2147483648 := by
        have h31 : 2 ^ w ≤ 2147483648 := Nat.pow_le_pow_right (j := 31) (n := 2) (by decide) (by omega)
        have hc : ((2 ^ w : Nat) : Int) = p := by rw [← hpw]; norm_cast
        omega
      split <;> omega

/-- C70 fails for negative constants of small types: `enum E : signed char { A = -1 };` has 255 recorded. -/
theorem C70_small_negative_false : (rawValue { name := b!"A", value := -1, width := 8 }).toInt = 255 := by decide +kernel

/-- C70 fails for scoped enums: constants of different enums have the same name. -/
theorem C70_scoped_clash_false :
    (addEnum b!"ns::E2" b!"ns" ⟨true, true⟩ [{ name := b!"A", value := 1 }] (addEnum b!"ns::E1" b!"ns" ⟨true, true⟩ [{ name := b!"A", value := 0 }] {})).constants.map
      Constant.name = [b!"ns::A", b!"ns::A"] := by decide +kernel

/-! ### That the hypotheses can be met -/

/-- `ns::Vec<ns::S*>` with the base `Base<unsigned int>`. -/
def sampleEnv : Env := fun id => match id with
  | 0 => { tname := b!"ns::Vec", args := [.type (.pointer (.const (.alias (.record b!"struct " b!"ns::S"))))],
           bases := [{ type := .alias (.spec 1) }], size := 16 }
  | _ => { tname := b!"Base", args := [.type (.builtin b!"unsigned int")], size := 8 }

example : ∃ i db, paramInfo sampleEnv (parseInst sampleEnv 3) (.array 3 (.const (.alias (.pointer (.const (.spec 0)))))) {} = .ok i db ∧
    i.name = b!"ns::Vec<ns::S*>" ∧ i.op = .pointer ∧ i.isConst = true ∧ i.count = 3 ∧
    db.templateTypes.map TemplateType.name = [b!"Base<unsigned int>", b!"ns::Vec<ns::S*>"] ∧
    db.templateTypes.map TemplateType.params = [[(b!"unsigned int", false)], [(b!"ns::S", true)]] ∧
    db.inherits = [(b!"ns::Vec<ns::S*>", b!"Base<unsigned int>")] :=
  ⟨_, _, rfl, by decide +kernel, by decide +kernel, by decide +kernel, by decide +kernel, by decide +kernel, by decide +kernel,
    by decide +kernel⟩

theorem sampleEnv_wellNamed : WellNamedEnv sampleEnv := by
  have hcase : ∀ id, sampleEnv id = sampleEnv 0 ∨ sampleEnv id = sampleEnv 1 := by
    intro id
    cases id with
    | zero => exact .inl rfl
    | succ n => exact .inr rfl
  refine ⟨fun id => ?_, fun id => ?_, fun id t h => ?_, fun id b h => ?_⟩
  · rcases hcase id with h | h <;> rw [h] <;> decide
  · rcases hcase id with h | h <;> rw [h] <;> rfl
  · rcases hcase id with h' | h' <;> rw [h'] at h
    · have : t = .pointer (.const (.alias (.record b!"struct " b!"ns::S"))) := by simpa [sampleEnv] using h
      subst this
      exact ⟨by decide, by decide⟩
    · have : t = .builtin b!"unsigned int" := by simpa [sampleEnv] using h
      subst this
      constructor
      · intro p hp i ho
        obtain ⟨a, r, hs, hi⟩ := ho
        have hf : ∀ p ∈ patterns, FileUtils.find b!"unsigned int" p 0 = none := by decide
        have := FileUtils.find_none _ _ _ (by simp) (hf p hp) i
        exact this ⟨a, r, hs, hi⟩
      · intro a ha
        have : (b!"unsigned int").getLast? = some 32 := by rw [ha]; simp
        exact absurd this (by decide)
  · rcases hcase id with h' | h' <;> rw [h'] at h
    · have : b = { type := .alias (.spec 1) } := by simpa [sampleEnv] using h
      subst this
      exact ⟨trivial, false, .spec 1, .alias (.self trivial), .spec⟩
    · have : b ∈ ([] : List Base) := h
      cases this

/-- The instance 0 can be recorded. -/
example : CanRecord sampleEnv 2 0 := by
  refine ⟨by decide, ?_, ?_⟩
  · intro a ha
    have : a = .type (.pointer (.const (.alias (.record b!"struct " b!"ns::S")))) := by simpa [sampleEnv] using ha
    subst this
    exact ⟨_, .pointer, true, .record b!"struct " b!"ns::S", rfl, .pointer (.self trivial) (.const (.alias (.self trivial))), by simp, trivial⟩
  · intro b hb
    have : b = { type := .alias (.spec 1) } := by simpa [sampleEnv] using hb
    subst this
    refine ⟨rfl, false, .spec 1, .alias (.self trivial), ?_⟩
    refine ⟨by decide, ?_, ?_⟩
    · intro a ha
      have : a = .type (.builtin b!"unsigned int") := by simpa [sampleEnv] using ha
      subst this
      exact ⟨_, .value, false, _, rfl, .value (.self trivial), by simp, trivial⟩
    · intro b hb
      have : b ∈ ([] : List Base) := hb
      cases this

/-- `A<int>`, `B<A<int>*>`, and instances with values as arguments, that have no name. -/
def rankedEnv : Env := fun id => match id with
  | 0 => { tname := b!"A", args := [.type (.builtin b!"int")] }
  | 1 => { tname := b!"B", args := [.type (.pointer (.spec 0))] }
  | _ => { tname := b!"C", args := [.other] }

/-- The hypotheses of `C67_once_partial`. -/
example : Ranked rankedEnv id ∧ DistinctNames rankedEnv := by
  constructor
  · intro id' k h
    cases h with
    | @arg t b op c ha hp hb =>
      match k, ha with
      | 0, ha =>
        have : t = .builtin b!"int" := by simpa [rankedEnv] using ha
        subst this
        cases hp with
        | value hm => cases ((means_iff _ _ _).mp hm).2; cases hb
        | pointer hm _ => cases ((means_iff _ _ _).mp hm).2
        | reference hm _ => cases ((means_iff _ _ _).mp hm).2
      | 1, ha =>
        have : t = .pointer (.spec 0) := by simpa [rankedEnv] using ha
        subst this
        cases hp with
        | value hm => cases ((means_iff _ _ _).mp hm).2; cases hb
        | pointer hm hu =>
          cases ((means_iff _ _ _).mp hm).2
          cases ((means_iff _ _ _).mp hu).2
          cases hb
          exact Nat.zero_lt_one
        | reference hm _ => cases ((means_iff _ _ _).mp hm).2
      | k + 2, ha => simp [rankedEnv] at ha
    | arrayArg ha _ _ =>
      match k, ha with
      | 0, ha => simp [rankedEnv] at ha
      | 1, ha => simp [rankedEnv] at ha
      | k + 2, ha => simp [rankedEnv] at ha
    | base hb _ _ =>
      match k, hb with
      | 0, hb => simp [rankedEnv] at hb
      | 1, hb => simp [rankedEnv] at hb
      | k + 2, hb => simp [rankedEnv] at hb
  · have first : ∀ i x, HasName rankedEnv (.inst i) x → (i = 0 ∧ ∃ r, x = 65 :: r) ∨ (i = 1 ∧ ∃ r, x = 66 :: r) := by
      intro i x h
      cases h with
      | inst ha =>
        match i, ha with
        | 0, _ => exact .inl ⟨rfl, _, rfl⟩
        | 1, _ => exact .inr ⟨rfl, _, rfl⟩
        | i + 2, ha => cases ha
    intro i j x hi hj
    rcases first i x hi with ⟨rfl, r, rfl⟩ | ⟨rfl, r, rfl⟩ <;> rcases first j _ hj with ⟨rfl, r', h⟩ | ⟨rfl, r', h⟩
    · rfl
    · cases h
    · cases h
    · rfl

/-- `const ns::S* f(int, float& x)`. -/
def sampleFn : FnDecl where
  name := b!"ns::f"
  parent := b!"ns"
  result := .pointer (.const (.record [] b!"ns::S"))
  params := [⟨[], .builtin b!"int"⟩, ⟨b!"x", .lref (.builtin b!"float")⟩]

example : ∃ db, makeFunction sampleEnv (parseInst sampleEnv 1) sampleFn [] {} = .ok () db ∧
    db.fields.map (fun f => (f.name, f.type, f.op, f.isConst, f.offset)) =
      [(b!"return", b!"ns::S", .pointer, true, -1), (b!"unnamed0", b!"int", .value, false, 0),
       (b!"x", b!"float", .reference, false, 1)] := ⟨_, rfl, by decide +kernel⟩

end Clr.ScanTypes
