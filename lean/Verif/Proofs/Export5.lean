import Verif.Proofs.Export4
/-
Lemmas about the exporter model: the phases put together.
-/
namespace Clr.Export
open Clr.DB (hashOf)
attribute [local irreducible] hashOf

/-- `std::sort` sorts: the result is a permutation of the range, ascending by key. -/
def SortOK (env : Env) : Prop :=
  ∀ (key : Ref → UInt32) (l : List Ref), (env.sort key l).Perm l ∧ (env.sort key l).Pairwise fun a b => key a ≤ key b

/-! ### The raw copy -/

theorem rows_like (db : DB.Database) (k : K) (o : Obj) (ho : o ∈ rows db k) :
    (∃ h : UInt32, o.parent = ofHash h) ∧ (∀ s, o.kids s = []) ∧ o.ret = none ∧
    (o.type = .raw 0 ∨ ∃ h : UInt32, o.type = ofHash h) := by
  cases k
  all_goals
    (simp only [rows, List.mem_map] at ho
     obtain ⟨p, _, rfl⟩ := ho
     refine ⟨?_, ?_, ?_, ?_⟩
     · first
         | exact ⟨_, rfl⟩
         | exact ⟨0, rfl⟩
     · intro s; rfl
     · rfl
     · first
         | exact .inl rfl
         | exact .inr ⟨_, rfl⟩)

theorem copied_get (db : DB.Database) (r : Ref) : (Valid (copied db) r ∧ (copied db).get r ∈ rows db r.1) ∨
    (¬ Valid (copied db) r ∧ (copied db).get r = {}) := by
  unfold Valid copied
  simp only
  by_cases h : r.2 < (rows db r.1).length
  · left
    refine ⟨h, ?_⟩
    rw [List.getD_eq_getElem?_getD, List.getElem?_eq_getElem h, Option.getD_some]
    exact List.getElem_mem h
  · right
    refine ⟨h, ?_⟩
    rw [List.getD_eq_getElem?_getD, List.getElem?_eq_none (by omega), Option.getD_none]

theorem copied_kids (db : DB.Database) (r : Ref) (s : Slot) : ((copied db).get r).kids s = [] := by
  rcases copied_get db r with ⟨_, h⟩ | ⟨_, h⟩
  · exact (rows_like db _ _ h).2.1 s
  · rw [h]

theorem copied_ret (db : DB.Database) (r : Ref) : ((copied db).get r).ret = none := by
  rcases copied_get db r with ⟨_, h⟩ | ⟨_, h⟩
  · exact (rows_like db _ _ h).2.2.1
  · rw [h]

theorem hash_mem_names (db : DB.Database) (r : Ref) (hv : Valid (copied db) r) :
    ((copied db).get r).hash ∈ nameKeys db := by
  rcases copied_get db r with ⟨_, h⟩ | ⟨h, _⟩
  · unfold nameKeys
    rw [List.mem_append]
    right
    rw [List.mem_flatMap]
    refine ⟨r.1, ?_, List.mem_map_of_mem h⟩
    have hk : ∀ k : K, k ∈ kinds := by intro k; cases k <;> decide
    exact hk _
  · exact absurd hv h

/-! ### Links, return values, sorting -/

/-- The state after line 1189. -/
def linked (env : Env) (S1 : St) : St :=
  sortAll env (buildGlobals env ((linkAll env S1).map .function fun _ o => assignReturn (linkAll env S1) o))

theorem linkAll_get (env : Env) (S1 : St) (r : Ref) : (linkAll env S1).get r =
    if r.1 = .field then { S1.get r with type := link env S1 (S1.get r).type }
    else if r.1 = .instance then { S1.get r with args := (S1.get r).args.map (link env S1) } else S1.get r := by
  unfold linkAll St.map
  simp only
  obtain ⟨k, i⟩ := r
  cases k <;> rfl

theorem linkAll_hash (env : Env) (S1 : St) (r : Ref) : ((linkAll env S1).get r).hash = (S1.get r).hash := by
  rw [linkAll_get]; split
  · rfl
  · split <;> rfl

theorem linkAll_kids (env : Env) (S1 : St) (r : Ref) : ((linkAll env S1).get r).kids = (S1.get r).kids := by
  rw [linkAll_get]; split
  · rfl
  · split <;> rfl

theorem linkAll_ret (env : Env) (S1 : St) (r : Ref) : ((linkAll env S1).get r).ret = (S1.get r).ret := by
  rw [linkAll_get]; split
  · rfl
  · split <;> rfl

/-- The arrays of an object before sorting. -/
def unsortedKids (S1 : St) (r : Ref) (s : Slot) : List Ref :=
  if r.1 = .function ∧ s = .parameters then
    ((S1.get r).kids .parameters).filter fun c => returnOf S1 ((S1.get r).kids .parameters) != some c
  else (S1.get r).kids s

/-- The return parameter of an object. -/
def retOf (S1 : St) (r : Ref) : Option Ref :=
  if r.1 = .function then returnOf S1 ((S1.get r).kids .parameters) else none

structure Linked (env : Env) (S1 S4 : St) : Prop where
  count : S4.count = S1.count
  names : S4.names = S1.names
  hash : ∀ r, (S4.get r).hash = (S1.get r).hash
  text : ∀ r, (S4.get r).text = (S1.get r).text
  parent : ∀ r, (S4.get r).parent = (S1.get r).parent
  value : ∀ r, (S4.get r).value = (S1.get r).value
  uid : ∀ r, (S4.get r).uid = (S1.get r).uid
  target : ∀ r, (S4.get r).target = (S1.get r).target
  type : ∀ r, (S4.get r).type = if r.1 = .field then link env S1 (S1.get r).type else (S1.get r).type
  args : ∀ r, (S4.get r).args = if r.1 = .instance then (S1.get r).args.map (link env S1) else (S1.get r).args
  ret : ∀ r, (S4.get r).ret = retOf S1 r
  kids : ∀ r s, ((S4.get r).kids s).Perm (unsortedKids S1 r s)
  sorted : ∀ r s, s ∈ sortedSlots r.1 → ((S4.get r).kids s).Pairwise fun a b => (S1.get a).hash ≤ (S1.get b).hash
  types : S4.typePrims.Perm S1.typePrims
  typesSorted : S4.typePrims.Pairwise fun a b => (S1.get a).hash ≤ (S1.get b).hash
  globals : ∀ s k, (s, k) ∈ [(Slot.namespaces, K.space), (.types, .type), (.enums, .enum), (.classes, .cls),
    (.functions, .function), (.templates, .template)] →
    S4.globals s = (S1.all k).filter fun r => env.num (S1.get r).parent = 0

theorem returned_get (env : Env) (S1 : St) (hnd : ∀ r, ((S1.get r).kids .parameters).Nodup)
    (hret : ∀ r, (S1.get r).ret = none) (r : Ref) :
    ∃ ps, (((linkAll env S1).map .function fun _ o => assignReturn (linkAll env S1) o).get r) =
      { (linkAll env S1).get r with ret := retOf S1 r }.setKids .parameters ps ∧ ps.Perm (unsortedKids S1 r .parameters) := by
  unfold St.map
  simp only
  by_cases h : r.1 = .function
  · rw [if_pos h]
    obtain ⟨ps, h1, h2⟩ := assignReturn_spec (linkAll env S1) ((linkAll env S1).get r)
      (by rw [linkAll_kids]; exact hnd r) (by rw [linkAll_ret]; exact hret r)
    have hre : returnOf (linkAll env S1) (((linkAll env S1).get r).kids .parameters) = retOf S1 r := by
      unfold retOf returnOf
      rw [if_pos h, linkAll_kids]
      congr 1
      funext p
      rw [linkAll_hash]
    rw [hre] at h1 h2
    refine ⟨ps, h1, ?_⟩
    rw [linkAll_kids] at h2
    unfold unsortedKids
    rw [if_pos ⟨h, rfl⟩]
    have : returnOf S1 ((S1.get r).kids .parameters) = retOf S1 r := by unfold retOf; rw [if_pos h]
    rw [this]
    exact h2
  · rw [if_neg h]
    refine ⟨(S1.get r).kids .parameters, ?_, ?_⟩
    · have hk : ((linkAll env S1).get r).kids = (S1.get r).kids := linkAll_kids env S1 r
      have hr : ((linkAll env S1).get r).ret = retOf S1 r := by
        rw [linkAll_ret, hret]; unfold retOf; rw [if_neg h]
      rw [← hr, ← hk]
      generalize (linkAll env S1).get r = o
      unfold Obj.setKids
      show o = { o with kids := fun s => if s = Slot.parameters then o.kids .parameters else o.kids s }
      have : (fun s => if s = Slot.parameters then o.kids .parameters else o.kids s) = o.kids := by
        funext s; split
        · next e => rw [e]
        · rfl
      rw [this]
    · unfold unsortedKids
      rw [if_neg (by intro hh; exact h hh.1)]

theorem linked_spec (env : Env) (hs : SortOK env) (S1 : St) (hnd : ∀ r, ((S1.get r).kids .parameters).Nodup)
    (hret : ∀ r, (S1.get r).ret = none) : Linked env S1 (linked env S1) := by
  have hg := returned_get env S1 hnd hret
  have hS3 : ∀ r, ((linkAll env S1).map .function fun _ o => assignReturn (linkAll env S1) o).get r =
      ((buildGlobals env ((linkAll env S1).map .function fun _ o => assignReturn (linkAll env S1) o)).get r) := fun r => rfl
  generalize hS : (linkAll env S1).map .function (fun _ o => assignReturn (linkAll env S1) o) = S3 at hg hS3
  have hcount : S3.count = S1.count := by rw [← hS]; rfl
  have hnames : S3.names = S1.names := by rw [← hS]; rfl
  have htp : S3.typePrims = S1.typePrims := by rw [← hS]; rfl
  have hhash : ∀ r, (S3.get r).hash = (S1.get r).hash := by
    intro r
    obtain ⟨ps, h1, _⟩ := hg r
    rw [h1]
    exact linkAll_hash env S1 r
  have hpar : ∀ r, (S3.get r).parent = (S1.get r).parent := by
    intro r
    obtain ⟨ps, h1, _⟩ := hg r
    rw [h1]
    show ((linkAll env S1).get r).parent = _
    rw [linkAll_get]; split
    · rfl
    · split <;> rfl
  have hkey : (fun r => ((buildGlobals env S3).get r).hash) = fun r => (S1.get r).hash := by
    funext r; rw [← hS3 r]; exact hhash r
  unfold linked
  rw [hS]
  have hkids : ∀ r s, (S3.get r).kids s = (if s = .parameters then (S3.get r).kids .parameters else (S1.get r).kids s) := by
    intro r s
    by_cases hs : s = .parameters
    · rw [if_pos hs, hs]
    · rw [if_neg hs]
      obtain ⟨ps, h1, _⟩ := hg r
      rw [h1]
      simp only [Obj.setKids, if_neg hs]
      rw [linkAll_kids]
  have hperm : ∀ r s, ((S3.get r).kids s).Perm (unsortedKids S1 r s) := by
    intro r s
    by_cases hs : s = .parameters
    · subst hs
      obtain ⟨ps, h1, h2⟩ := hg r
      rw [h1]
      simpa [Obj.setKids] using h2
    · rw [hkids, if_neg hs]
      unfold unsortedKids
      rw [if_neg (by intro h; exact hs h.2)]
  constructor
  · exact hcount
  · exact hnames
  · exact hhash
  · intro r
    show (S3.get r).text = _
    obtain ⟨ps, h1, _⟩ := hg r
    rw [h1]
    show ((linkAll env S1).get r).text = _
    rw [linkAll_get]; split
    · rfl
    · split <;> rfl
  · exact hpar
  · intro r
    show (S3.get r).value = _
    obtain ⟨ps, h1, _⟩ := hg r
    rw [h1]
    show ((linkAll env S1).get r).value = _
    rw [linkAll_get]; split
    · rfl
    · split <;> rfl
  · intro r
    show (S3.get r).uid = _
    obtain ⟨ps, h1, _⟩ := hg r
    rw [h1]
    show ((linkAll env S1).get r).uid = _
    rw [linkAll_get]; split
    · rfl
    · split <;> rfl
  · intro r
    show (S3.get r).target = _
    obtain ⟨ps, h1, _⟩ := hg r
    rw [h1]
    show ((linkAll env S1).get r).target = _
    rw [linkAll_get]; split
    · rfl
    · split <;> rfl
  · intro r
    show (S3.get r).type = _
    obtain ⟨ps, h1, _⟩ := hg r
    rw [h1]
    show ((linkAll env S1).get r).type = _
    rw [linkAll_get]; split
    · rfl
    · split <;> rfl
  · intro r
    show (S3.get r).args = _
    obtain ⟨ps, h1, _⟩ := hg r
    rw [h1]
    show ((linkAll env S1).get r).args = _
    rw [linkAll_get]
    obtain ⟨k, i⟩ := r
    cases k <;> rfl
  · intro r
    show (S3.get r).ret = _
    obtain ⟨ps, h1, _⟩ := hg r
    rw [h1]
    rfl
  · intro r s
    show (if s ∈ sortedSlots r.1 then sortRefs env (buildGlobals env S3) ((S3.get r).kids s) else (S3.get r).kids s).Perm _
    split
    · exact ((hs _ _).1).trans (hperm r s)
    · exact hperm r s
  · intro r s hsl
    show (if s ∈ sortedSlots r.1 then sortRefs env (buildGlobals env S3) ((S3.get r).kids s) else (S3.get r).kids s).Pairwise _
    rw [if_pos hsl]
    unfold sortRefs
    rw [hkey]
    exact (hs _ _).2
  · show (sortRefs env (buildGlobals env S3) S3.typePrims).Perm _
    rw [htp]
    exact (hs _ _).1
  · show (sortRefs env (buildGlobals env S3) S3.typePrims).Pairwise _
    unfold sortRefs
    rw [hkey]
    exact (hs _ _).2
  · have hun : ∀ k, unparented env S3 k = (S1.all k).filter fun r => env.num (S1.get r).parent = 0 := by
      intro k
      unfold unparented St.all
      rw [hcount]
      apply List.filter_congr
      intro r _
      rw [hpar]
    intro s k hsk
    show (buildGlobals env S3).globals s = _
    simp only [List.mem_cons, Prod.mk.injEq, List.not_mem_nil, or_false] at hsk
    rcases hsk with ⟨rfl, rfl⟩ | ⟨rfl, rfl⟩ | ⟨rfl, rfl⟩ | ⟨rfl, rfl⟩ | ⟨rfl, rfl⟩ | ⟨rfl, rfl⟩ <;> exact hun _

/-! ### The whole export -/

/-- What is asked of the placement of the tables and of the database. -/
structure Exportable (env : Env) (fuel : Nat) (db : DB.Database) : Prop where
  placement : Placement env (copied db)
  sort : SortOK env
  /-- no object lies at an address whose low half is the hash of a name -/
  noAlias : ∀ r, Valid (copied db) r → env.hash (.obj r) ∉ nameKeys db
  /-- … or of the scoped name of a field -/
  noFieldAlias : ∀ i r, i < (copied db).count .field → Valid (copied db) r →
    hashOf (fieldPath env (copied db) i) ≠ env.hash (.obj r)
  /-- every primitive's name is in the name table -/
  named : ∀ r, Valid (copied db) r → ((copied db).get r).text ≠ none
  /-- every primitive's parent and every field's type is nothing or a name of the database -/
  knownParent : ∀ r, Valid (copied db) r → ((copied db).get r).parent = .raw 0 ∨ env.hash ((copied db).get r).parent ∈ nameKeys db
  knownType : ∀ r, Valid (copied db) r → ((copied db).get r).type = .raw 0 ∨ env.hash ((copied db).get r).type ∈ nameKeys db
  /-- every field belongs to a class or function of the database -/
  owned : ∀ i, i < (copied db).count .field →
    ∃ r, owner env (copied db) (scopeSteps (copied db)) (.field, i) = some r
  /-- tables within the range of the runtime's binary search -/
  typesSize : (copied db).typePrims.length ≤ 2 ^ 30
  functionsSize : (copied db).count .function ≤ 2 ^ 30
  /-- no type is its own base -/
  acyclic : ∃ rank : UInt32 → Nat, (∀ h, rank h < fuel) ∧ ∀ t ∈ db.inheritances, rank t.base.hash < rank t.derived.hash

/-- The state once the scopes are built. -/
def scopesBuilt (env : Env) (db : DB.Database) : St := stateOf env (copied db) (allSteps env (copied db))

theorem Exportable.raw {env : Env} {fuel : Nat} {db : DB.Database} (h : Exportable env fuel db) : Raw env (copied db) := by
  refine ⟨?_, copied_kids db, ?_⟩
  · intro r hv
    rcases copied_get db r with ⟨_, h⟩ | ⟨h, _⟩
    · exact (rows_like db _ _ h).1
    · exact absurd hv h
  · intro q r hq hr e
    exact h.noAlias r hr (e ▸ hash_mem_names db q hq)

theorem Exportable.fields {env : Env} {fuel : Nat} {db : DB.Database} (h : Exportable env fuel db) :
    FieldsOK env (copied db) := ⟨h.owned, h.named, h.noFieldAlias⟩

theorem scopesBuilt_spec {env : Env} {fuel : Nat} {db : DB.Database} (h : Exportable env fuel db) :
    exportScopes env db = .ok (scopesBuilt env db) :=
  exportScopes_spec env (copied db) h.placement h.raw h.fields

theorem kidsOf_nodup (env : Env) (S : St) (steps : List Step) (hn : ∀ d ∈ steps, d.children.Nodup) (r : Ref) (s : Slot) :
    (kidsOf env S steps r s).Nodup := by
  unfold kidsOf
  split
  · next d hd =>
    split
    · exact (hn d (List.mem_of_find?_eq_some hd)).filter _
    · exact List.nodup_nil
  · exact List.nodup_nil

theorem allSteps_nodup (env : Env) (S : St) : ∀ d ∈ allSteps env S, d.children.Nodup := by
  intro d hd
  unfold allSteps scopeSteps attributeSteps at hd
  simp only [List.mem_append, List.mem_map, List.mem_cons, List.not_mem_nil, or_false] at hd
  rcases hd with ⟨x, _, rfl⟩ | rfl | rfl | rfl | rfl
  · exact nodup_all _ _
  all_goals exact nodup_allAttributes S

theorem scopesBuilt_kids (env : Env) (db : DB.Database) (r : Ref) (s : Slot) :
    ((scopesBuilt env db).get r).kids s = kidsOf env (copied db) (allSteps env (copied db)) r s := rfl

theorem no_bases_step (env : Env) (S : St) (r : Ref) : kidsOf env S (allSteps env S) r .bases = [] := by
  unfold kidsOf
  rw [find?_none_of]
  intro d hd
  unfold allSteps scopeSteps attributeSteps at hd
  simp only [List.mem_append, List.mem_map, List.mem_cons, List.not_mem_nil, or_false] at hd
  have hslot : d.slot ≠ .bases := by
    rcases hd with ⟨x, hx, rfl⟩ | rfl | rfl | rfl | rfl
    · show x.2.1 ≠ .bases
      revert x
      unfold hierarchy
      decide
    all_goals simp
  simp [hslot]

theorem kidsOf_length_le (env : Env) (S : St) (r : Ref) (hr : r.1 = .cls) :
    (kidsOf env S (allSteps env S) r .methods).length ≤ S.count .function := by
  unfold kidsOf
  split
  · next d hd =>
    split
    · have hm := List.mem_of_find?_eq_some hd
      have hp := List.find?_some hd
      simp only [Bool.and_eq_true, beq_iff_eq] at hp
      have : d.children = S.all .function := by
        unfold allSteps scopeSteps attributeSteps at hm
        simp only [List.mem_append, List.mem_map, List.mem_cons, List.not_mem_nil, or_false] at hm
        rcases hm with ⟨x, hx, rfl⟩ | rfl | rfl | rfl | rfl
        · have hx2 : x.2.1 = .methods → x.2.2 = .function := by
            clear hd hp hr
            revert x
            unfold hierarchy
            decide
          show S.all x.2.2 = _
          rw [hx2 hp.2]
        all_goals (exact absurd hp.2 (by simp))
      rw [this]
      refine Nat.le_trans (List.length_filter_le _ _) ?_
      simp [St.all]
    · simp
  · simp

/-- What is known of the state after line 1211. -/
structure AfterLinks (env : Env) (db : DB.Database) (S9 : St) : Prop where
  same : Same (linked env (scopesBuilt env db)) S9
  parent : ∀ r, (S9.get r).parent = ((linked env (scopesBuilt env db)).get r).parent ∨
    (r.1 = .function ∧ Valid (copied db) r ∧ ∃ i, i < (copied db).count .instance ∧
      Makes (copied db) r i ∧ (S9.get r).parent = .obj (.instance, i))
  bases : ∀ r, (S9.get r).kids .bases = basesFrom (lookType S9) db.inheritances r
  flags : ∀ r, flagged r.1 → (S9.get r).flags = flagBits S9 ((S9.get r).kids .attributes)

theorem lookType_congr {a b : St} (h : Same a b) : lookType b = lookType a := by
  funext x
  unfold lookType findType
  rw [h.typePrims]
  have : (fun r => (b.get r).hash) = fun r => (a.get r).hash := funext h.hash
  rw [this]

theorem flagBits_congr {a b : St} (h : Same a b) (l : List Ref) : flagBits b l = flagBits a l := by
  unfold flagBits
  have : (fun (bits : BitVec 32) (r : Ref) => bits ||| attributeBits r.1 (b.get r)) =
      fun bits r => bits ||| attributeBits r.1 (a.get r) := by
    funext bits r
    congr 1
    unfold attributeBits
    rw [h.hash, h.text, h.value]
  rw [this]

theorem exportLinks_ok {env : Env} {fuel : Nat} {db : DB.Database} (h : Exportable env fuel db) :
    ∃ S9, exportLinks env db (scopesBuilt env db) = .ok S9 ∧ AfterLinks env db S9 := by
  have hlk : Linked env (scopesBuilt env db) (linked env (scopesBuilt env db)) := by
    apply linked_spec env h.sort
    · intro r; exact kidsOf_nodup env _ _ (allSteps_nodup env _) r _
    · intro r; exact copied_ret db r
  unfold exportLinks
  have hfk : fieldKeys (scopesBuilt env db) ((scopesBuilt env db).count .field) =
      .ok ((List.range ((copied db).count .field)).map fun i => hashOf (fieldPath env (copied db) i)) := by
    rw [← fieldKeys_spec env (copied db) h.fields _ (Nat.le_refl _)]
    apply fieldKeys_congr
    · intro r; rfl
    · intro i hi
      obtain ⟨r, hr⟩ := h.owned i hi
      have h1 : owner env (copied db) (allSteps env (copied db)) (.field, i) = some r := by
        unfold allSteps owner
        rw [List.findSome?_append]
        unfold owner at hr
        rw [hr]
        rfl
      show ownerPtr env (copied db) (allSteps env (copied db)) (.field, i) =
        ownerPtr env (copied db) (scopeSteps (copied db)) (.field, i)
      unfold ownerPtr
      rw [h1, hr]
  rw [hfk, rbind_ok]
  show ∃ S9, ((linkContainers env _ (List.range ((linked env (scopesBuilt env db)).count .container))
    (linked env (scopesBuilt env db))).bind _) = .ok S9 ∧ _
  have hsz4 : (linked env (scopesBuilt env db)).typePrims.length ≤ 2 ^ 30 := by
    rw [hlk.types.length_eq]; exact h.typesSize
  obtain ⟨S5, h5, s5⟩ := linkContainers_ok env
    ((List.range ((copied db).count .field)).map fun i => hashOf (fieldPath env (copied db) i))
    (List.range ((linked env (scopesBuilt env db)).count .container)) (linked env (scopesBuilt env db)) hsz4
  rw [h5, rbind_ok]
  have hb5 : ∀ r, (S5.get r).kids .bases = [] := by
    intro r
    rw [s5.bases]
    have := hlk.kids r .bases
    unfold unsortedKids at this
    rw [if_neg (by intro hh; exact absurd hh.2 (by decide)), scopesBuilt_kids, no_bases_step] at this
    exact List.Perm.eq_nil this
  obtain ⟨S6, h6, s6, p6, f6, b6⟩ := buildBases_ok db S5 (by rw [s5.typePrims]; exact hsz4) hb5
  rw [h6, rbind_ok]
  have s46 : Same (linked env (scopesBuilt env db)) S6 := s5.toSame.trans s6
  have htext : ∀ r, Valid (copied db) r → (S6.get r).text ≠ none := by
    intro r hv
    rw [s46.text, hlk.text]
    exact h.named r hv
  obtain ⟨S7, h7, s7⟩ := allClassConstructors_ok (S6.all .cls) S6
    (by
      intro r hr
      have := (mem_all S6 _ r).mp hr
      apply htext
      have hv := this.2
      unfold Valid at hv ⊢
      rw [s46.count, hlk.count] at hv
      exact hv)
    (by
      intro r hr
      have hr' := (mem_all S6 _ r).mp hr
      rw [s46.kids r _ (by decide), (hlk.kids r .methods).length_eq]
      unfold unsortedKids
      rw [if_neg (by intro hh; exact absurd hh.2 (by decide)), scopesBuilt_kids]
      exact Nat.le_trans (kidsOf_length_le env _ r hr'.1) h.functionsSize)
  rw [h7, rbind_ok]
  have s47 := s46.trans s7.toSame
  obtain ⟨S8, h8, s8⟩ := allInstanceConstructors_ok (S7.all .instance) S7
    (by intro r hr; exact (mem_all S7 _ r).mp hr)
    (by
      intro r hr
      have hv := ((mem_all S7 _ r).mp hr).2
      rw [s7.text]
      apply htext
      unfold Valid at hv ⊢
      rw [s47.count, hlk.count] at hv
      exact hv)
  rw [h8, rbind_ok]
  have s48 := s47.trans s8.toSame
  obtain ⟨s9, p9, b9⟩ := addFlags_same S8
  have s49 := s48.trans s9
  refine ⟨_, rfl, s49, ?_, ?_, ?_⟩
  · intro r
    rw [p9]
    rcases s8.parent r with hp | ⟨hf, hv, i, hi, hm, hp⟩
    · left
      rw [hp, s7.parent, p6, s5.parent]
    · right
      refine ⟨hf, ?_, i, ?_, ?_, hp⟩
      · unfold Valid at hv ⊢
        rw [s47.count, hlk.count] at hv
        exact hv
      · rw [s47.count, hlk.count] at hi
        exact hi
      · rw [Makes.congr s47.text s47.hash, Makes.congr hlk.text hlk.hash] at hm
        exact hm
  · intro r
    rw [b9, s8.bases, s7.bases, b6]
    have : Same S5 (addFlags S8) := (s6.trans s7.toSame).trans (s8.toSame.trans s9)
    rw [lookType_congr this]
  · intro r hr
    have hk : ((addFlags S8).get r).kids .attributes = (S8.get r).kids .attributes := s9.kids r _ (by decide)
    rw [hk, flagBits_congr s9, addFlags_get, if_pos hr]

end Clr.Export
