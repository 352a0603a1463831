import Verif.Proofs.ScanTypes

/-!
More lemmas about the types clscan records: which are, that the recursion ends, and that no instance is recorded twice.
-/
namespace Clr.ScanTypes
open Clr.FileUtils
open Clr.Hash (Op)

/-! ### What can be recorded is -/

theorem shape_of (t : CType) (op : Op) (c : Bool) (b : CType) (h : Points t op c b) (hn : ∀ u, b ≠ .pointer u ∧ b ≠ .lref u) :
    shape t = (op, c, b) := by
  rcases points_shape t op c b h with ⟨_, h⟩ | ⟨_, h⟩ | ⟨ho, hc, hb⟩
  · exact h
  · exact h
  · subst ho hc
    unfold shape
    rw [← hb]
    cases b with
    | pointer u => exact absurd rfl (hn u).1
    | lref u => exact absurd rfl (hn u).2
    | _ => rfl

theorem canName_ne {P : Nat → Prop} {b : CType} (h : CanName P b) : ∀ u, b ≠ .pointer u ∧ b ≠ .lref u := by
  intro u
  constructor <;> (rintro rfl; exact h)

theorem baseName_can {P : Nat → Prop} {self : Nat → Db → Out Bytes} (hs : ∀ id, P id → ∀ db, ∃ x db', self id db = .ok x db') (b : CType)
    (h : CanName P b) (db : Db) : ∃ x db', baseName self b db = .ok x db' := by
  cases b with
  | builtin n => exact ⟨_, _, rfl⟩
  | enum k n => exact ⟨_, _, rfl⟩
  | record k n => exact ⟨_, _, rfl⟩
  | inst id => exact hs id h db
  | spec id => exact hs id h db
  | _ => exact h.elim

theorem strip_points (t : CType) (op : Op) (c : Bool) (b : CType) (h : Points t op c b) (hn : ∀ n u, b ≠ .array n u) :
    ∀ n u, t.strip ≠ .array n u := by
  have aux : ∀ t : CType, (∀ n u, t.peel ≠ .array n u) → ∀ n u, t.strip ≠ .array n u := by
    intro t
    induction t with
    | const t ih => exact ih
    | alias t _ => intro _ n u h; cases h
    | _ => exact fun h => h
  apply aux
  intro n u hp
  cases h with
  | value hm => exact hn n u (by rw [((means_iff _ _ _).mp hm).2, hp])
  | pointer hm _ => exact absurd (((means_iff _ _ _).mp hm).2.trans hp) (by simp)
  | reference hm _ => exact absurd (((means_iff _ _ _).mp hm).2.trans hp) (by simp)

theorem arrayStep_of (t : CType) (h : ∀ n u, t.strip ≠ .array n u) : arrayStep t = some (0, t) := by
  unfold arrayStep
  split
  · rename_i n u hs; exact absurd hs (h n u)
  · rfl

theorem paramInfo_can {P : Nat → Prop} {env : Env} {self : Nat → Db → Out Bytes} (hd : ∀ id, (env id).declared = true)
    (hs : ∀ id, P id → ∀ db, ∃ x db', self id db = .ok x db') (t : CType) (op : Op) (c : Bool) (b : CType) (h : Points t op c b)
    (hb : CanName P b) (db : Db) :
    ∃ x db', paramInfo env self t db = .ok ⟨x, op, c, 0⟩ db' := by
  have hna : ∀ n u, b ≠ .array n u := by rintro n u rfl; exact hb
  have ha := arrayStep_of t (strip_points t op c b h hna)
  rw [paramInfo_eq env self hd, ha]
  dsimp only
  rw [shape_of t op c b h (canName_ne hb)]
  obtain ⟨x, db', hx⟩ := baseName_can hs b hb db
  exact ⟨cleanName x, db', by dsimp only; rw [hx]; rfl⟩

theorem paramInfo_can_array {P : Nat → Prop} {env : Env} {self : Nat → Db → Out Bytes} (hd : ∀ id, (env id).declared = true)
    (hs : ∀ id, P id → ∀ db, ∃ x db', self id db = .ok x db') (t : CType) (op : Op) (c : Bool) (b : CType) (h : Points t op c b)
    (hb : CanName P b) (n : Nat) (hn : n < 2 ^ 32) (db : Db) :
    ∃ x db', paramInfo env self (.array n t) db = .ok ⟨x, op, c, n⟩ db' := by
  have ha : arrayStep (.array n t) = some (n, t) := by
    have : ¬ n > 4294967295 := by omega
    simp [arrayStep, CType.strip, this]
  rw [paramInfo_eq env self hd, ha]
  dsimp only
  rw [shape_of t op c b h (canName_ne hb)]
  obtain ⟨x, db', hx⟩ := baseName_can hs b hb db
  exact ⟨cleanName x, db', by dsimp only; rw [hx]; rfl⟩

theorem argLoop_can {P : Nat → Prop} {env : Env} {self : Nat → Db → Out Bytes} (hd : ∀ id, (env id).declared = true)
    (hs : ∀ id, P id → ∀ db, ∃ x db', self id db = .ok x db') (args : List Arg)
    (h : ∀ a ∈ args, ∃ t op c b, a = .type t ∧ Points t op c b ∧ op ≠ .reference ∧ CanName P b) (done : List PInfo) (db : Db) :
    ∃ infos db', argLoop env self args done db = .ok infos db' := by
  induction args generalizing done db with
  | nil => exact ⟨_, _, rfl⟩
  | cons a r ih =>
    obtain ⟨t, op, c, b, rfl, h1, h2, h3⟩ := h a List.mem_cons_self
    obtain ⟨x, d, hx⟩ := paramInfo_can hd hs t op c b h1 h3 db
    obtain ⟨infos, d', hi⟩ := ih (fun a ha => h a (List.mem_cons_of_mem _ ha)) (done ++ [⟨x, op, c, 0⟩]) d
    refine ⟨infos, d', ?_⟩
    rw [argLoop, hx]
    simp only [Out.bind]
    rw [if_neg h2, if_neg (by simp)]
    exact hi

theorem baseLoop_can {P : Nat → Prop} {env : Env} {self : Nat → Db → Out Bytes} (hd : ∀ id, (env id).declared = true)
    (hs : ∀ id, P id → ∀ db, ∃ x db', self id db = .ok x db') (derived : Bytes) (bases : List Base)
    (hw : ∀ b ∈ bases, WellNamed b.type ∧ ∃ c u, Means b.type c u ∧ IsClass u)
    (h : ∀ b ∈ bases, b.virt = false ∧ ∃ c u, Means b.type c u ∧ CanName P u) (db : Db) :
    ∃ db', baseLoop env self derived bases db = .ok () db' := by
  induction bases generalizing db with
  | nil => exact ⟨_, rfl⟩
  | cons b r ih =>
    obtain ⟨w1, c, u, w2, w3⟩ := hw b List.mem_cons_self
    obtain ⟨hv, c', u', k1, k2⟩ := h b List.mem_cons_self
    have hu : u' = u := ((means_iff _ _ _).mp k1).2.trans ((means_iff _ _ _).mp w2).2.symm
    subst hu
    have : ∃ x d, parseBase env self derived b db = .ok x d := by
      rw [parseBase_eq env self hd derived b w1 c u' w2 w3 db, hv]
      simp only [Bool.false_eq_true, if_false]
      cases w3 with
      | record => exact ⟨_, _, rfl⟩
      | inst =>
        rename_i id
        obtain ⟨x, d, hx⟩ := hs id k2 db
        exact ⟨x, d.addInheritance derived x, by dsimp only; rw [hx]; rfl⟩
      | spec =>
        rename_i id
        obtain ⟨x, d, hx⟩ := hs id k2 db
        exact ⟨x, d.addInheritance derived x, by dsimp only; rw [hx]; rfl⟩
    obtain ⟨x, d, hx⟩ := this
    obtain ⟨d', hd'⟩ := ih (fun b hb => hw b (List.mem_cons_of_mem _ hb)) (fun b hb => h b (List.mem_cons_of_mem _ hb)) d
    exact ⟨d', by rw [baseLoop, hx]; exact hd'⟩

theorem parseInst_can {env : Env} (he : WellNamedEnv env) (n : Nat) : ∀ id, CanRecord env n id → ∀ fuel, n ≤ fuel → ∀ db,
    ∃ x db', parseInst env fuel id db = .ok x db' := by
  induction n with
  | zero => intro id h; exact h.elim
  | succ n ih =>
    intro id h fuel hf db
    obtain ⟨h1, h2, h3⟩ := h
    obtain ⟨fuel, rfl⟩ : ∃ f, fuel = f + 1 := ⟨fuel - 1, by omega⟩
    have hs : ∀ id, CanRecord env n id → ∀ db, ∃ x db', parseInst env fuel id db = .ok x db' :=
      fun id hc db => ih id hc fuel (by omega) db
    obtain ⟨infos, d, hi⟩ := argLoop_can he.declared hs (env id).args h2 [] db
    unfold parseInst instBody
    rw [if_neg (by unfold maxArgs; omega), hi]
    simp only [Out.bind]
    split
    · exact ⟨_, _, rfl⟩
    · obtain ⟨d', hd'⟩ := baseLoop_can he.declared hs (instName (env id).tname infos) (env id).bases (he.bases id) h3 d
      rw [hd']
      exact ⟨_, _, rfl⟩

/-! ### Relations between the databases before and after -/

/-- The outcome is one, and its database is related to `db`. -/
def Related {α : Type} (R : Db → Db → Prop) (db : Db) : Out α → Prop
  | .never => False
  | .fail _ db' => R db db'
  | .ok _ db' => R db db'

theorem related_bind {α β : Type} {R : Db → Db → Prop} (ht : ∀ a b c, R a b → R b c → R a c) (db : Db) (x : Out α)
    (f : α → Db → Out β) (hx : Related R db x) (hf : ∀ a db', x = .ok a db' → Related R db' (f a db')) : Related R db (x.bind f) := by
  cases x with
  | never => exact hx
  | fail s d => exact hx
  | ok a d =>
    have := hf a d rfl
    unfold Out.bind
    dsimp only
    generalize f a d = y at this ⊢
    cases y with
    | never => exact this
    | fail s d' => exact ht _ _ _ hx this
    | ok b d' => exact ht _ _ _ hx this

theorem baseName_related {R : Db → Db → Prop} (hr : ∀ a, R a a) {self : Nat → Db → Out Bytes} (b : CType)
    (hs : ∀ id, IsInstance b id → ∀ db, Related R db (self id db)) (db : Db) : Related R db (baseName self b db) := by
  cases b with
  | inst id => exact hs id .inst db
  | spec id => exact hs id .spec db
  | _ => exact hr db

theorem paramInfo_related {R : Db → Db → Prop} (hr : ∀ a, R a a) (ht : ∀ a b c, R a b → R b c → R a c) {env : Env}
    {self : Nat → Db → Out Bytes} (hd : ∀ id, (env id).declared = true) (t : CType) (hw : WellNamed t)
    (h1 : ∀ op c b id, Points t op c b → IsInstance b id → ∀ db, Related R db (self id db))
    (h2 : ∀ n u op c b id, t = .array n u → Points u op c b → IsInstance b id → ∀ db, Related R db (self id db)) (db : Db) :
    Related R db (paramInfo env self t db) := by
  rw [paramInfo_eq env self hd]
  cases ha : arrayStep t with
  | none => exact hr db
  | some ne =>
    obtain ⟨n, e⟩ := ne
    dsimp only
    refine related_bind ht db _ _ (baseName_related hr _ (fun id hi db => ?_) db) fun a d _ => hr d
    rcases arrayStep_cases t hw n e ha with ⟨_, rfl⟩ | ⟨rfl, _⟩
    · exact h1 _ _ _ id (shape_points e) hi db
    · exact h2 n e _ _ _ id rfl (shape_points e) hi db

theorem argLoop_related {R : Db → Db → Prop} (hr : ∀ a, R a a) (ht : ∀ a b c, R a b → R b c → R a c) {env : Env}
    {self : Nat → Db → Out Bytes} (hd : ∀ id, (env id).declared = true) (args : List Arg) (hw : ∀ t, .type t ∈ args → WellNamed t)
    (h1 : ∀ t op c b id, .type t ∈ args → Points t op c b → IsInstance b id → ∀ db, Related R db (self id db))
    (h2 : ∀ n u op c b id, .type (.array n u) ∈ args → Points u op c b → IsInstance b id → ∀ db, Related R db (self id db))
    (done : List PInfo) (db : Db) : Related R db (argLoop env self args done db) := by
  induction args generalizing done db with
  | nil => exact hr db
  | cons a r ih =>
    cases a with
    | other => exact hr db
    | type t =>
      unfold argLoop
      refine related_bind ht db _ _ (paramInfo_related hr ht hd t (hw t List.mem_cons_self)
        (fun op c b id => h1 t op c b id List.mem_cons_self)
        (fun n u op c b id e => h2 n u op c b id (e ▸ List.mem_cons_self)) db) fun i d _ => ?_
      split
      · exact hr d
      · split
        · exact hr d
        · exact ih (fun t h => hw t (List.mem_cons_of_mem _ h)) (fun t op c b id h => h1 t op c b id (List.mem_cons_of_mem _ h))
            (fun n u op c b id h => h2 n u op c b id (List.mem_cons_of_mem _ h)) _ _

theorem baseLoop_related {R : Db → Db → Prop} (hr : ∀ a, R a a) (ht : ∀ a b c, R a b → R b c → R a c)
    (hi : ∀ db d b, R db (db.addInheritance d b)) {env : Env} {self : Nat → Db → Out Bytes} (hd : ∀ id, (env id).declared = true)
    (derived : Bytes) (bases : List Base) (hw : ∀ b ∈ bases, WellNamed b.type ∧ ∃ c u, Means b.type c u ∧ IsClass u)
    (h : ∀ b c u id, b ∈ bases → Means b.type c u → IsInstance u id → ∀ db, Related R db (self id db)) (db : Db) :
    Related R db (baseLoop env self derived bases db) := by
  induction bases generalizing db with
  | nil => exact hr db
  | cons b r ih =>
    unfold baseLoop
    obtain ⟨w1, c, u, w2, w3⟩ := hw b List.mem_cons_self
    refine related_bind ht db _ _ ?_ fun a d _ =>
      ih (fun b hb => hw b (List.mem_cons_of_mem _ hb)) (fun b c u id hb => h b c u id (List.mem_cons_of_mem _ hb)) d
    rw [parseBase_eq env self hd derived b w1 c u w2 w3 db]
    split
    · exact hr db
    · refine related_bind ht db _ _ ?_ fun a d _ => hi d derived a
      cases w3 with
      | record => exact hr db
      | inst => exact h b c _ _ List.mem_cons_self w2 .inst db
      | spec => exact h b c _ _ List.mem_cons_self w2 .spec db

/-! ### With ranks -/

/-- What is added to the database are instances with a rank below `k`, each once. -/
def Adds (env : Env) (rank : Nat → Nat) (k : Nat) (db db' : Db) : Prop :=
  (db.typeNames.Nodup → db'.typeNames.Nodup) ∧
  ∀ x ∈ db'.typeNames, x ∈ db.typeNames ∨ ∃ id, rank id < k ∧ HasName env (.inst id) x

theorem adds_refl (env : Env) (rank : Nat → Nat) (k : Nat) (db : Db) : Adds env rank k db db := ⟨id, fun _ h => .inl h⟩

theorem adds_trans (env : Env) (rank : Nat → Nat) (k : Nat) (a b c : Db) (h : Adds env rank k a b) (h' : Adds env rank k b c) :
    Adds env rank k a c :=
  ⟨fun n => h'.1 (h.1 n), fun x hx => by
    rcases h'.2 x hx with hx | hx
    · exact h.2 x hx
    · exact .inr hx⟩

theorem adds_mono (env : Env) (rank : Nat → Nat) (k k' : Nat) (hk : k ≤ k') (a b : Db) (h : Adds env rank k a b) : Adds env rank k' a b :=
  ⟨h.1, fun x hx => by
    rcases h.2 x hx with hx | ⟨id, h1, h2⟩
    · exact .inl hx
    · exact .inr ⟨id, by omega, h2⟩⟩

theorem adds_inheritance (env : Env) (rank : Nat → Nat) (k : Nat) (db : Db) (d b : Bytes) : Adds env rank k db (db.addInheritance d b) := by
  have : (db.addInheritance d b).typeNames = db.typeNames := by
    unfold Db.typeNames; rw [(addInheritance_grows db d b).2.2]
  refine ⟨fun h => by rw [this]; exact h, fun x hx => .inl (by rw [this] at hx; exact hx)⟩

theorem related_mono {α : Type} {R R' : Db → Db → Prop} (h : ∀ a b, R a b → R' a b) (db : Db) (x : Out α) (hx : Related R db x) :
    Related R' db x := by
  cases x with
  | never => exact hx
  | fail s d => exact h _ _ hx
  | ok a d => exact h _ _ hx

theorem parseInst_ranked {env : Env} (he : WellNamedEnv env) (rank : Nat → Nat) (hr : Ranked env rank) (hn : DistinctNames env)
    (fuel : Nat) : ∀ id, rank id < fuel → ∀ db, Related (Adds env rank (rank id + 1)) db (parseInst env fuel id db) := by
  induction fuel with
  | zero => intro id h; omega
  | succ n ih =>
    intro id hf db
    have hself : ∀ id', In env id' id → ∀ db, Related (Adds env rank (rank id)) db (parseInst env n id' db) := by
      intro id' hin db
      have := hr id' id hin
      exact related_mono (adds_mono env rank _ _ (by omega)) db _ (ih id' (by omega) db)
    have up : ∀ a b, Adds env rank (rank id) a b → Adds env rank (rank id + 1) a b := adds_mono env rank _ _ (by omega)
    unfold parseInst instBody
    split
    · exact adds_refl _ _ _ _
    · refine related_bind (adds_trans env rank _) db _ _ (related_mono up db _
        (argLoop_related (adds_refl env rank _) (adds_trans env rank _) he.declared (env id).args (he.args id)
          (fun t op c b id' h1 h2 h3 => hself id' (.arg h1 h2 h3))
          (fun m u op c b id' h1 h2 h3 => hself id' (.arrayArg h1 h2 h3)) [] db)) fun infos d hi => ?_
      dsimp only
      split
      · exact adds_refl _ _ _ _
      · rename_i hno
        have hname : HasName env (.inst id) (instName (env id).tname infos) := by
          obtain ⟨new, e1, e2, _⟩ := (argLoop_ok he (parseInst_ok he n) (env id).args (he.args id) [] db).2 infos d hi
          rw [List.nil_append] at e1
          subst e1
          rw [instName, argsText_listing]
          exact .inst e2
        have hb := baseLoop_related (adds_refl env rank _) (adds_trans env rank _) (adds_inheritance env rank _) he.declared
          (instName (env id).tname infos) (env id).bases (he.bases id)
          (fun b c u id' h1 h2 h3 => hself id' (.base h1 h2 h3)) d
        generalize hbl : baseLoop env (parseInst env n) (instName (env id).tname infos) (env id).bases d = out at hb ⊢
        cases out with
        | never => exact hb
        | fail s d' => exact up _ _ hb
        | ok u d' =>
          have hnot : instName (env id).tname infos ∉ d'.typeNames := by
            intro hm
            rcases hb.2 _ hm with hm | ⟨id', h1, h2⟩
            · exact hno ((hasTemplateType_iff _ _).mpr hm)
            · rw [hn id' id _ h2 hname] at h1
              omega
          show Adds env rank (rank id + 1) d _
          constructor
          · intro hnd
            have := hb.1 hnd
            simp only [Db.typeNames, List.map_append, List.map_cons, List.map_nil] at this ⊢
            rw [List.nodup_append]
            refine ⟨this, by simp, ?_⟩
            rintro x hx y hy rfl
            rw [List.mem_singleton] at hy
            exact hnot (hy ▸ hx)
          · intro x hx
            simp only [Db.typeNames, List.map_append, List.map_cons, List.map_nil, List.mem_append, List.mem_singleton] at hx
            rcases hx with hx | rfl
            · exact (up _ _ hb).2 x hx
            · exact .inr ⟨id, by omega, hname⟩

end Clr.ScanTypes
