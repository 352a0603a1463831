import Verif.Proofs.Export5
/-
Lemmas about the exporter model: the exported database in terms of the offline one.
-/
namespace Clr.Export
open Clr.DB (hashOf)
attribute [local irreducible] hashOf

/-! ### Verification and isolation -/

/-- The state after line 1220. -/
def verified (env : Env) (st : St) : St :=
  { assignTargets env st with
    get := fun r => verifyObj env (assignTargets env st) r.1 ((assignTargets env st).get r) }

theorem assignTargets_other (env : Env) (st : St) (r : Ref) (h : r.1 ≠ .primAttr) :
    (assignTargets env st).get r = st.get r := by
  unfold assignTargets St.map; simp only [if_neg h]

theorem assignTargets_kids (env : Env) (st : St) (r : Ref) :
    ((assignTargets env st).get r).kids = (st.get r).kids ∧ ((assignTargets env st).get r).hash = (st.get r).hash ∧
    ((assignTargets env st).get r).text = (st.get r).text ∧ ((assignTargets env st).get r).flags = (st.get r).flags ∧
    ((assignTargets env st).get r).ret = (st.get r).ret ∧ ((assignTargets env st).get r).parent = (st.get r).parent ∧
    ((assignTargets env st).get r).type = (st.get r).type ∧ ((assignTargets env st).get r).value = (st.get r).value ∧
    ((assignTargets env st).get r).uid = (st.get r).uid ∧ ((assignTargets env st).get r).args = (st.get r).args := by
  unfold assignTargets St.map
  simp only
  split <;> exact ⟨rfl, rfl, rfl, rfl, rfl, rfl, rfl, rfl, rfl, rfl⟩

theorem verifyObj_same (env : Env) (st : St) (k : K) (o : Obj) :
    (verifyObj env st k o).kids = o.kids ∧ (verifyObj env st k o).hash = o.hash ∧
    (verifyObj env st k o).text = o.text ∧ (verifyObj env st k o).flags = o.flags ∧
    (verifyObj env st k o).ret = o.ret ∧ (verifyObj env st k o).value = o.value ∧ (verifyObj env st k o).uid = o.uid := by
  cases k <;> exact ⟨rfl, rfl, rfl, rfl, rfl, rfl, rfl⟩

theorem verifyObj_parent (env : Env) (st : St) (k : K) (o : Obj) (h1 : k ≠ .container) (h2 : k ≠ .primAttr) :
    (verifyObj env st k o).parent = verifyPtr env st o.parent := by
  cases k <;> first | rfl | exact absurd rfl h1 | exact absurd rfl h2

theorem verifyObj_type (env : Env) (st : St) (k : K) (o : Obj) :
    (verifyObj env st k o).type = if k = .field then verifyPtr env st o.type else o.type := by
  cases k <;> rfl

theorem verified_get (env : Env) (st : St) (r : Ref) :
    ((verified env st).get r).kids = (st.get r).kids ∧ ((verified env st).get r).hash = (st.get r).hash ∧
    ((verified env st).get r).text = (st.get r).text ∧ ((verified env st).get r).flags = (st.get r).flags ∧
    ((verified env st).get r).ret = (st.get r).ret ∧ ((verified env st).get r).value = (st.get r).value ∧
    ((verified env st).get r).uid = (st.get r).uid := by
  obtain ⟨a1, a2, a3, a4, a5, _, _, a8, a9, _⟩ := assignTargets_kids env st r
  obtain ⟨b1, b2, b3, b4, b5, b6, b7⟩ := verifyObj_same env (assignTargets env st) r.1 ((assignTargets env st).get r)
  unfold verified
  simp only
  exact ⟨b1.trans a1, b2.trans a2, b3.trans a3, b4.trans a4, b5.trans a5, b6.trans a8, b7.trans a9⟩

theorem verified_parent (env : Env) (st : St) (r : Ref) (h1 : r.1 ≠ .container) (h2 : r.1 ≠ .primAttr) :
    ((verified env st).get r).parent = verifyPtr env st (st.get r).parent := by
  unfold verified
  simp only
  rw [verifyObj_parent _ _ _ _ h1 h2, (assignTargets_kids env st r).2.2.2.2.2.1]
  rfl

theorem verified_type (env : Env) (st : St) (r : Ref) :
    ((verified env st).get r).type = if r.1 = .field then verifyPtr env st (st.get r).type else (st.get r).type := by
  unfold verified
  simp only
  rw [verifyObj_type, (assignTargets_kids env st r).2.2.2.2.2.2.1]
  rfl

/-- An object or what was there before. -/
def ptrOr (o : Option Ref) (p : Ptr) : Ptr :=
  match o with
  | some r => .obj r
  | none => p

theorem verified_args (env : Env) (st : St) (r : Ref) :
    ((verified env st).get r).args = if r.1 = .instance then (st.get r).args.map (verifyPtr env st) else (st.get r).args := by
  have : ∀ k o, (verifyObj env (assignTargets env st) k o).args =
      if k = .instance then o.args.map (verifyPtr env (assignTargets env st)) else o.args := by
    intro k o; cases k <;> rfl
  unfold verified
  simp only
  rw [this, (assignTargets_kids env st r).2.2.2.2.2.2.2.2.2]
  rfl

theorem verified_target (env : Env) (st : St) (r : Ref) (h : r.1 = .primAttr) :
    ((verified env st).get r).target = verifyPtr env st
      (ptrOr ((st.typePrims ++ st.all .function).reverse.find? fun t => (st.get t).hash == env.hash (st.get r).target) (st.get r).target) := by
  obtain ⟨k, i⟩ := r
  obtain rfl : k = .primAttr := h
  unfold verified assignTargets St.map ptrOr
  simp only [if_true, verifyObj]
  rfl

/-- The arrays of the final state. -/
def keptKids (env : Env) (V : St) (r : Ref) (s : Slot) : List Ref :=
  if r.1 = .cls ∧ s = .fields then ((V.get r).kids s).filter fun c => !noType env V c
  else if (r.1 = .cls ∧ s = .methods) ∨ (r.1 = .space ∧ s = .functions) then
    ((V.get r).kids s).filter fun c => !invalidFunction env V c
  else (V.get r).kids s

structure Cleaned (env : Env) (V F : St) : Prop where
  count : F.count = V.count
  names : F.names = V.names
  typePrims : F.typePrims = V.typePrims
  globals : F.globals = V.globals
  other : ∀ r, (F.get r).hash = (V.get r).hash ∧ (F.get r).text = (V.get r).text ∧ (F.get r).flags = (V.get r).flags ∧
    (F.get r).ret = (V.get r).ret ∧ (F.get r).value = (V.get r).value ∧ (F.get r).parent = (V.get r).parent ∧
    (F.get r).type = (V.get r).type ∧ (F.get r).uid = (V.get r).uid ∧ (F.get r).args = (V.get r).args ∧
    (F.get r).target = (V.get r).target
  kids : ∀ r s, Valid V r → (F.get r).kids s = keptKids env V r s

theorem exportClean_ok (env : Env) (st : St)
    (hb : ∀ r b, b ∈ (st.get r).kids .bases → env.hash (.obj b) ∉ st.names) :
    ∃ F, exportClean env st = .ok F ∧ Cleaned env (verified env st) F := by
  unfold exportClean
  have hv : verify env (assignTargets env st) = .ok (verified env st) := by
    unfold verify
    rw [if_neg]
    · rfl
    · intro h
      rw [List.any_eq_true] at h
      obtain ⟨r, _, h⟩ := h
      rw [List.any_eq_true] at h
      obtain ⟨b, hb1, h⟩ := h
      rw [(assignTargets_kids env st r).1] at hb1
      exact hb r b hb1 (of_decide_eq_true h)
  rw [hv, rbind_ok]
  generalize hV : verified env st = V
  obtain ⟨h1, h2⟩ := isolateClasses_spec env V (V.all .cls) (nodup_all V _) V (fun r => ⟨rfl, rfl, rfl⟩)
  rw [h1, rbind_ok]
  have h3 := isolateSpaces_spec env V (V.all .space) (nodup_all V _) _ h2
  refine ⟨_, h3, rfl, rfl, rfl, rfl, ?_, ?_⟩
  · intro r
    simp only
    split
    · split <;> exact ⟨rfl, rfl, rfl, rfl, rfl, rfl, rfl, rfl, rfl, rfl⟩
    · split <;> exact ⟨rfl, rfl, rfl, rfl, rfl, rfl, rfl, rfl, rfl, rfl⟩
  · intro r s hv
    have hm : ∀ k, r ∈ V.all k ↔ r.1 = k := by
      intro k; rw [mem_all]; exact ⟨fun h => h.1, fun h => ⟨h, hv⟩⟩
    simp only [hm]
    unfold keptKids
    by_cases hc : r.1 = .cls
    · have hns : r.1 ≠ .space := by rw [hc]; decide
      rw [if_neg hns, if_pos hc]
      unfold cleanClass Obj.setKids
      simp only [hc, true_and]
      by_cases hm : s = .methods
      · subst hm; simp
      · rw [if_neg hm]
        by_cases hf : s = .fields
        · subst hf; simp
        · rw [if_neg hf, if_neg hf, if_neg]
          rintro (h | ⟨h, _⟩)
          · exact hm h
          · cases h
    · by_cases hsp : r.1 = .space
      · rw [if_pos hsp, if_neg hc, if_neg (by intro h; exact hc h.1)]
        unfold cleanSpace Obj.setKids
        simp only
        by_cases hf : s = .functions
        · subst hf; rw [if_pos rfl, if_pos (.inr ⟨hsp, rfl⟩)]
        · rw [if_neg hf, if_neg]
          rintro (⟨h, _⟩ | ⟨_, h⟩)
          · exact hc h
          · exact hf h
      · rw [if_neg hsp, if_neg hc, if_neg (by intro h; exact hc h.1), if_neg]
        rintro (⟨h, _⟩ | ⟨h, _⟩)
        · exact hc h
        · exact hsp h

/-! ### The whole export -/

/-- The type a field refers to by name: the first exported type of that name. -/
def typeFor (env : Env) (db : DB.Database) (c : Ref) : Option Ref :=
  (copied db).typePrims.find? fun t => ((copied db).get t).hash == env.hash ((copied db).get c).type

/-- The scope a primitive belongs to by name. -/
def scopeFor (env : Env) (db : DB.Database) (c : Ref) : Option Ref :=
  owner env (copied db) (allSteps env (copied db)) c

/-- A function with a parameter, or a return value, of a type that was not exported. -/
def BadFunction (env : Env) (db : DB.Database) (f : Ref) : Prop :=
  ∃ p : Ref, p.1 = .field ∧ Valid (copied db) p ∧ scopeFor env db p = some f ∧ typeFor env db p = none

/-- A pointer to an optional object. -/
def optPtr : Option Ref → Ptr
  | some r => .obj r
  | none => .raw 0

theorem link_ptrOr (env : Env) (st : St) (p : Ptr) :
    link env st p = ptrOr (st.typePrims.find? fun r => (st.get r).hash == env.hash p) p := by
  unfold link ptrOr; rfl

theorem ownerPtr_ptrOr (env : Env) (S : St) (steps : List Step) (c : Ref) :
    ownerPtr env S steps c = ptrOr (owner env S steps c) (S.get c).parent := by
  unfold ownerPtr ptrOr; rfl

/-- What the exported database is. -/
structure Final (env : Env) (db : DB.Database) (F : St) : Prop where
  count : F.count = (copied db).count
  hash : ∀ r, (F.get r).hash = ((copied db).get r).hash
  text : ∀ r, (F.get r).text = ((copied db).get r).text
  value : ∀ r, (F.get r).value = ((copied db).get r).value
  types : F.typePrims.Perm (copied db).typePrims
  typesSorted : F.typePrims.Pairwise fun a b => (F.get a).hash ≤ (F.get b).hash
  globals : ∀ s k, (s, k) ∈ [(Slot.namespaces, K.space), (.types, .type), (.enums, .enum), (.classes, .cls),
    (.functions, .function), (.templates, .template)] →
    F.globals s = ((copied db).all k).filter fun r => scopeFor env db r = none ∧ ((copied db).get r).parent = .raw 0
  parent : ∀ r, Valid (copied db) r → r.1 ≠ .container → r.1 ≠ .primAttr →
    (F.get r).parent = optPtr (scopeFor env db r) ∨
    (r.1 = .function ∧ ∃ i, i < (copied db).count .instance ∧ Makes (copied db) r i ∧
      (F.get r).parent = .obj (.instance, i))
  primParent : ∀ r, r.1 = .primAttr → (F.get r).parent = ownerPtr env (copied db) (allSteps env (copied db)) r
  type : ∀ r, Valid (copied db) r → r.1 = .field → (F.get r).type = optPtr (typeFor env db r)
  ret : ∀ r, (F.get r).ret = retOf (scopesBuilt env db) r
  nodup : ∀ r s, Valid (copied db) r → s ≠ .bases → ((F.get r).kids s).Nodup
  sorted : ∀ r s, Valid (copied db) r → s ≠ .bases → s ∈ sortedSlots r.1 →
    ((F.get r).kids s).Pairwise fun a b => (F.get a).hash ≤ (F.get b).hash
  mem : ∀ r s c, Valid (copied db) r → s ≠ .bases → (c ∈ (F.get r).kids s ↔
    c ∈ kidsOf env (copied db) (allSteps env (copied db)) r s ∧
    (r.1 = .function → s = .parameters → (F.get r).ret ≠ some c) ∧
    (r.1 = .cls → s = .fields → typeFor env db c ≠ none) ∧
    ((r.1 = .cls ∧ s = .methods) ∨ (r.1 = .space ∧ s = .functions) → ¬ BadFunction env db c))
  bases : ∀ r, Valid (copied db) r → (F.get r).kids .bases = basesFrom (lookType F) db.inheritances r
  flags : ∀ r, Valid (copied db) r → (flagged r.1 = true → r.1 ≠ .cls → (F.get r).flags = flagBits F ((F.get r).kids .attributes)) ∧
    (r.1 = .cls → ∀ b, ((F.get r).flags.getLsbD b = true ↔
      (flagBits F ((F.get r).kids .attributes)).getLsbD b = true ∨
      Passes F (fun q => flagBits F ((F.get q).kids .attributes)) r b))
  uid : ∀ r, (F.get r).uid = ((copied db).get r).uid
  args : ∀ r, r.1 = .instance → (∀ p ∈ ((copied db).get r).args, p = .raw 0 ∨ env.hash p ∈ nameKeys db) →
    (F.get r).args = ((copied db).get r).args.map fun p =>
      optPtr ((copied db).typePrims.find? fun t => ((copied db).get t).hash == env.hash p)
  target : ∀ r, r.1 = .primAttr → (((copied db).get r).target = .raw 0 ∨ env.hash ((copied db).get r).target ∈ nameKeys db) →
    (F.get r).target = optPtr ((F.typePrims ++ F.all .function).reverse.find? fun t =>
      (F.get t).hash == env.hash ((copied db).get r).target)

theorem verifyPtr_opt {env : Env} {fuel : Nat} {db : DB.Database} (h : Exportable env fuel db) (st : St)
    (hn : st.names = nameKeys db) (o : Option Ref) (p : Ptr) (hv : ∀ r, o = some r → Valid (copied db) r)
    (hp : p = .raw 0 ∨ env.hash p ∈ nameKeys db) :
    verifyPtr env st (ptrOr o p) = optPtr o := by
  unfold verifyPtr ptrOr
  rw [hn]
  cases o with
  | some r => simp only; rw [if_neg (h.noAlias r (hv r rfl))]; rfl
  | none =>
    simp only
    rcases hp with rfl | hp
    · split <;> rfl
    · rw [if_pos hp]; rfl

theorem num_ptrOr {env : Env} {fuel : Nat} {db : DB.Database} (h : Exportable env fuel db) {o : Option Ref} {p : Ptr}
    (hp : ∃ x : UInt32, p = ofHash x) : env.num (ptrOr o p) = 0 ↔ o = none ∧ p = .raw 0 := by
  obtain ⟨x, rfl⟩ := hp
  cases o with
  | none => simp [ptrOr, ofHash, Env.num]
  | some q =>
    have := h.placement.far q.1
    simp only [ptrOr, Env.num, Env.addr]
    constructor
    · intro h0; omega
    · rintro ⟨h0, _⟩; cases h0

theorem mem_typePrims (db : DB.Database) (r : Ref) (h : r ∈ (copied db).typePrims) : Valid (copied db) r := by
  unfold copied at h
  simp only [List.mem_append, List.mem_map, List.mem_range] at h
  rcases h with ((⟨i, hi, rfl⟩ | ⟨i, hi, rfl⟩) | ⟨i, hi, rfl⟩) | ⟨i, hi, rfl⟩ <;> exact hi

theorem kidsOf_mem (env : Env) (S : St) (steps : List Step) (r : Ref) (s : Slot) (c : Ref) (h : c ∈ kidsOf env S steps r s) :
    owner env S steps c = some r ∧ ∃ d ∈ steps, d.pk = r.1 ∧ d.slot = s ∧ c ∈ d.children := by
  unfold kidsOf at h
  split at h
  · next d hd =>
    split at h
    · have hp := List.find?_some hd
      simp only [Bool.and_eq_true, beq_iff_eq] at hp
      rw [List.mem_filter] at h
      exact ⟨by simpa using h.2, d, List.mem_of_find?_eq_some hd, hp.1, hp.2, h.1⟩
    · cases h
  · cases h

theorem lookType_spec (st : St) (hsz : st.typePrims.length ≤ 2 ^ 30)
    (hs : st.typePrims.Pairwise fun a b => (st.get a).hash ≤ (st.get b).hash) (h : UInt32) :
    (∀ r, lookType st h = some r → r ∈ st.typePrims ∧ (st.get r).hash = h) ∧
    (lookType st h = none ↔ ∀ r ∈ st.typePrims, (st.get r).hash ≠ h) := by
  obtain ⟨o, h1, h2, h3⟩ := Search.C01_lookup_exact st.typePrims (fun r => (st.get r).hash) h hsz hs
  have : lookType st h = o := by
    have h4 := findType_look st h hsz
    unfold findType at h4
    rw [h1] at h4
    exact (Res.ok.inj h4).symm
  rw [this]
  exact ⟨h2, h3⟩

theorem basesFrom_mem (look : UInt32 → Option Ref) (ts : List DB.TypeInheritance) (r b : Ref) :
    b ∈ basesFrom look ts r ↔ ∃ t ∈ ts, look t.base.hash = some b ∧ look t.derived.hash = some r := by
  unfold basesFrom
  rw [List.mem_filterMap]
  constructor
  · rintro ⟨t, ht, h⟩
    refine ⟨t, ht, ?_⟩
    cases hl : look t.base.hash with
    | none => rw [hl] at h; cases h
    | some b' =>
      rw [hl] at h
      simp only at h
      split at h
      · next h2 => injection h with h; subst h; exact ⟨rfl, h2⟩
      · cases h
  · rintro ⟨t, ht, h1, h2⟩
    refine ⟨t, ht, ?_⟩
    rw [h1]
    simp only
    rw [if_pos h2]

theorem Passes.congr {a b : St} {f g : Ref → BitVec 32} (P : Ref → Prop)
    (hP : ∀ r q, q ∈ (a.get r).kids .bases → P q)
    (hb : ∀ r, P r → (b.get r).kids .bases = (a.get r).kids .bases)
    (hi : ∀ r, P r → r.1 = .cls → inheritedBits b (g r) r = inheritedBits a (f r) r) {r : Ref} {n : Nat} (hr : P r)
    (h : Passes a f r n) : Passes b g r n := by
  induction h with
  | own hc h => exact .own hc (by rw [hi _ hr hc]; exact h)
  | base hq _ ih => exact .base (by rw [hb _ hr]; exact hq) (ih (hP _ _ hq))

theorem Passes.congr' {a b : St} {f g : Ref → BitVec 32} (P : Ref → Prop)
    (hP : ∀ r q, q ∈ (a.get r).kids .bases → P q)
    (hb : ∀ r, P r → (b.get r).kids .bases = (a.get r).kids .bases)
    (hi : ∀ r, P r → r.1 = .cls → inheritedBits b (g r) r = inheritedBits a (f r) r) {r : Ref} {n : Nat} (hr : P r)
    (h : Passes b g r n) : Passes a f r n := by
  induction h with
  | own hc h => exact .own hc (by rw [← hi _ hr hc]; exact h)
  | base hq _ ih =>
    rw [hb _ hr] at hq
    exact .base hq (ih (hP _ _ hq))

theorem inheritedBits_congr (a b : St) (f : BitVec 32) (r : Ref) (hk : (b.get r).kids .attributes = (a.get r).kids .attributes)
    (hh : ∀ q, (b.get q).hash = (a.get q).hash) (hv : ∀ q, (b.get q).value = (a.get q).value) :
    inheritedBits b f r = inheritedBits a f r := by
  unfold inheritedBits customBits
  simp only [hk, hh, hv]

theorem flagBits_congr' (a b : St) (l : List Ref) (hh : ∀ q, (b.get q).hash = (a.get q).hash)
    (hv : ∀ q, (b.get q).value = (a.get q).value) (ht : ∀ q, (b.get q).text = (a.get q).text) :
    flagBits b l = flagBits a l := by
  unfold flagBits attributeBits
  simp only [hh, hv, ht]

theorem lookType_congr' (a b : St) (h1 : b.typePrims = a.typePrims) (h2 : ∀ r, (b.get r).hash = (a.get r).hash) :
    lookType b = lookType a := by
  funext x
  unfold lookType findType
  rw [h1]
  have : (fun r => (b.get r).hash) = fun r => (a.get r).hash := funext h2
  rw [this]

/-- The test of `RemoveInvalidFunctions` once the types are verified. -/
theorem invalid_iff (env : Env) (V : St) (ps : List Ref) (f : Ref)
    (h1 : ∀ c, c ∈ ps → c ∈ (V.get f).kids .parameters ∨ (V.get f).ret = some c)
    (h2 : ∀ c, c ∈ (V.get f).kids .parameters → c ∈ ps) (h3 : ∀ c, (V.get f).ret = some c → c ∈ ps) :
    invalidFunction env V f = true ↔ ∃ c ∈ ps, noType env V c = true := by
  unfold invalidFunction
  rw [Bool.or_eq_true, List.any_eq_true]
  constructor
  · rintro (⟨c, hc, h⟩ | h)
    · exact ⟨c, h2 c hc, h⟩
    · cases hr : (V.get f).ret with
      | none => rw [hr] at h; cases h
      | some c => rw [hr] at h; exact ⟨c, h3 c hr, h⟩
  · rintro ⟨c, hc, h⟩
    rcases h1 c hc with hk | hr
    · exact .inl ⟨c, hk, h⟩
    · right; rw [hr]; exact h

theorem hierarchy_children : ∀ y ∈ hierarchy, (y.2.1 = Slot.fields → y.2.2 = K.field) ∧
    (y.2.1 = Slot.methods ∨ y.2.1 = Slot.functions → y.2.2 = K.function) := by
  unfold hierarchy
  decide

theorem parameters_iff (env : Env) (S : St) (f c : Ref) (hf : f.1 = .function) (hv : Valid S f) :
    c ∈ kidsOf env S (allSteps env S) f .parameters ↔
      c.1 = .field ∧ Valid S c ∧ owner env S (allSteps env S) c = some f := by
  have hd : (allSteps env S).find? (fun d => d.pk == f.1 && d.slot == .parameters) =
      some (mkStep S (.function, .parameters, .field)) := by
    unfold allSteps scopeSteps hierarchy
    simp [hf, mkStep]
  unfold kidsOf
  rw [hd]
  simp only
  unfold Valid at hv
  rw [if_pos hv, List.mem_filter, mkStep]
  simp only
  rw [mem_all]
  simp [and_assoc]

theorem exportDB_ok {env : Env} {fuel : Nat} {db : DB.Database} (h : Exportable env fuel db) :
    ∃ F, exportDB env fuel db = some (.ok F) ∧ Final env db F := by
  obtain ⟨S9, h9, a9⟩ := exportLinks_ok h
  have hlk : Linked env (scopesBuilt env db) (linked env (scopesBuilt env db)) := by
    apply linked_spec env h.sort
    · intro r; exact kidsOf_nodup env _ _ (allSteps_nodup env _) r _
    · intro r; exact copied_ret db r
  have hcount : S9.count = (copied db).count := a9.same.count.trans hlk.count
  have hnames : S9.names = nameKeys db := a9.same.names.trans hlk.names
  have hhash : ∀ r, (S9.get r).hash = ((copied db).get r).hash := fun r => (a9.same.hash r).trans (hlk.hash r)
  have htext : ∀ r, (S9.get r).text = ((copied db).get r).text := fun r => (a9.same.text r).trans (hlk.text r)
  have hvalue : ∀ r, (S9.get r).value = ((copied db).get r).value := fun r => (a9.same.value r).trans (hlk.value r)
  have htp : S9.typePrims.Perm (copied db).typePrims := by rw [a9.same.typePrims]; exact hlk.types
  have hts : S9.typePrims.Pairwise fun a b => (S9.get a).hash ≤ (S9.get b).hash := by
    rw [a9.same.typePrims]
    simp only [hhash]
    exact hlk.typesSorted
  have hsz : S9.typePrims.length ≤ 2 ^ 30 := by rw [htp.length_eq]; exact h.typesSize
  have hlook := fun x => lookType_spec S9 hsz hts x
  obtain ⟨rank, hr1, hr2⟩ := h.acyclic
  have hbase : ∀ r b, b ∈ (S9.get r).kids .bases → Valid (copied db) b ∧ rank (S9.get b).hash < rank (S9.get r).hash := by
    intro r b hb
    rw [a9.bases, basesFrom_mem] at hb
    obtain ⟨t, ht, hb1, hb2⟩ := hb
    obtain ⟨g1, g2⟩ := (hlook _).1 b hb1
    obtain ⟨_, g4⟩ := (hlook _).1 r hb2
    refine ⟨mem_typePrims db b (htp.mem_iff.mp g1), ?_⟩
    rw [g2, g4]
    exact hr2 t ht
  obtain ⟨fl, hi, fl1, fl2⟩ := inheritAll_spec S9 (fun r => rank (S9.get r).hash) (fun r q hq => (hbase r q hq).2) fuel
    (fun r _ _ => hr1 _)
  obtain ⟨F, hF, c⟩ := exportClean_ok env { S9 with get := fun r => { S9.get r with flags := fl r } }
    (by
      intro r b hb
      show _ ∉ S9.names
      rw [hnames]
      exact h.noAlias b (hbase r b hb).1)
  refine ⟨F, ?_, ?_⟩
  · unfold exportDB
    rw [scopesBuilt_spec h, rbind_ok, h9]
    simp only
    rw [hi]
    show some (exportClean env _) = _
    rw [hF]
  · generalize hT : ({ S9 with get := fun r => { S9.get r with flags := fl r } } : St) = T at c
    have tget : ∀ r, T.get r = { S9.get r with flags := fl r } := by intro r; rw [← hT]
    have tn : T.names = nameKeys db := by rw [← hT]; exact hnames
    have vget := fun r => verified_get env T r
    have hvt : ∀ r, Valid (copied db) r → Valid (verified env T) r := by
      intro r hv
      unfold Valid at hv ⊢
      show r.2 < T.count r.1
      rw [← hT]
      show r.2 < S9.count r.1
      rw [hcount]; exact hv
    have fhash : ∀ r, (F.get r).hash = ((copied db).get r).hash := by
      intro r; rw [(c.other r).1, (vget r).2.1, tget]; exact hhash r
    have ftext : ∀ r, (F.get r).text = ((copied db).get r).text := by
      intro r; rw [(c.other r).2.1, (vget r).2.2.1, tget]; exact htext r
    have fvalue : ∀ r, (F.get r).value = ((copied db).get r).value := by
      intro r; rw [(c.other r).2.2.2.2.1, (vget r).2.2.2.2.2.1, tget]; exact hvalue r
    have ftp : F.typePrims = S9.typePrims := by rw [c.typePrims, ← hT]; rfl
    have hcands : ∀ x r, owner env (copied db) (allSteps env (copied db)) x = some r → Valid (copied db) r :=
      fun x r hx => (owner_valid env (copied db) _ x r hx).1
    have fret : ∀ r, (F.get r).ret = retOf (scopesBuilt env db) r := by
      intro r
      rw [(c.other r).2.2.2.1, (vget r).2.2.2.2.1, tget]
      show (S9.get r).ret = _
      rw [a9.same.ret]; exact hlk.ret r
    have ftype : ∀ r, Valid (copied db) r → r.1 = .field → (F.get r).type = optPtr (typeFor env db r) := by
      intro r hv hr
      rw [(c.other r).2.2.2.2.2.2.1, verified_type, if_pos hr, tget]
      show verifyPtr env T (S9.get r).type = _
      rw [a9.same.type, hlk.type, if_pos hr, link_ptrOr]
      exact verifyPtr_opt h T tn (typeFor env db r) _
        (fun t ht => mem_typePrims db t (List.mem_of_find?_eq_some ht)) (h.knownType r hv)
    have hnt : ∀ r, Valid (copied db) r → r.1 = .field →
        (noType env (verified env T) r = true ↔ typeFor env db r = none) := by
      intro r hv hr
      have := ftype r hv hr
      rw [(c.other r).2.2.2.2.2.2.1] at this
      unfold noType
      rw [this, decide_eq_true_iff]
      cases htf : typeFor env db r with
      | none => simp [optPtr, Env.num]
      | some t =>
        simp only [optPtr, Env.num, Env.addr]
        have := h.placement.far t.1
        constructor
        · intro h0; omega
        · intro h0; cases h0
    have vkids : ∀ r s, s ≠ .bases → (((verified env T).get r).kids s).Perm (unsortedKids (scopesBuilt env db) r s) := by
      intro r s hs
      rw [(vget r).1, tget]
      show ((S9.get r).kids s).Perm _
      rw [a9.same.kids r s hs]
      exact hlk.kids r s
    have vret : ∀ r, ((verified env T).get r).ret = retOf (scopesBuilt env db) r := by
      intro r; rw [← (c.other r).2.2.2.1]; exact fret r
    have hinv : ∀ f, f.1 = .function → Valid (copied db) f →
        (invalidFunction env (verified env T) f = true ↔ BadFunction env db f) := by
      intro f hf hv
      have hpm : ∀ x, x ∈ ((verified env T).get f).kids .parameters ↔
          x ∈ kidsOf env (copied db) (allSteps env (copied db)) f .parameters ∧
            retOf (scopesBuilt env db) f ≠ some x := by
        intro x
        rw [(vkids f .parameters (by decide)).mem_iff]
        unfold unsortedKids retOf
        rw [if_pos ⟨hf, rfl⟩, if_pos hf, List.mem_filter, scopesBuilt_kids]
        simp
      have hret : ∀ x, retOf (scopesBuilt env db) f = some x →
          x ∈ kidsOf env (copied db) (allSteps env (copied db)) f .parameters := by
        intro x hx
        unfold retOf at hx
        rw [if_pos hf] at hx
        unfold returnOf at hx
        exact List.mem_of_find?_eq_some hx
      rw [invalid_iff env (verified env T) (kidsOf env (copied db) (allSteps env (copied db)) f .parameters) f]
      · unfold BadFunction
        constructor
        · rintro ⟨x, hx, hn⟩
          obtain ⟨x1, x2, x3⟩ := (parameters_iff env _ f x hf hv).mp hx
          exact ⟨x, x1, x2, x3, (hnt x x2 x1).mp hn⟩
        · rintro ⟨x, x1, x2, x3, x4⟩
          exact ⟨x, (parameters_iff env _ f x hf hv).mpr ⟨x1, x2, x3⟩, (hnt x x2 x1).mpr x4⟩
      · intro x hx
        by_cases hr : retOf (scopesBuilt env db) f = some x
        · right; rw [vret]; exact hr
        · left; exact (hpm x).mpr ⟨hx, hr⟩
      · intro x hx; exact ((hpm x).mp hx).1
      · intro x hx; rw [vret] at hx; exact hret x hx
    have hchild : ∀ r s x, x ∈ kidsOf env (copied db) (allSteps env (copied db)) r s →
        (s = .fields → x.1 = .field ∧ Valid (copied db) x) ∧ (s = .methods ∨ s = .functions → x.1 = .function ∧ Valid (copied db) x) := by
      intro r s x hx
      obtain ⟨_, d, hd, _, hs, hxd⟩ := kidsOf_mem _ _ _ _ _ _ hx
      unfold allSteps scopeSteps attributeSteps at hd
      simp only [List.mem_append, List.mem_map, List.mem_cons, List.not_mem_nil, or_false] at hd
      rcases hd with ⟨y, hy, rfl⟩ | rfl | rfl | rfl | rfl
      · have hk : (y.2.1 = .fields → y.2.2 = .field) ∧ (y.2.1 = .methods ∨ y.2.1 = .functions → y.2.2 = .function) := by
          exact (hierarchy_children y hy)
        obtain ⟨e1, e2⟩ := (mem_all _ _ x).mp hxd
        refine ⟨fun e => ⟨e1.trans (hk.1 ?_), e2⟩, fun e => ⟨e1.trans (hk.2 ?_), e2⟩⟩
        · rw [← e, ← hs]; rfl
        · rcases e with e | e
          · left; rw [← e, ← hs]; rfl
          · right; rw [← e, ← hs]; rfl
      all_goals
        (simp only at hs
         subst hs
         constructor
         · intro e; cases e
         · intro e; rcases e with e | e <;> cases e)
    have hkeptmem : ∀ r s x, Valid (copied db) r → s ≠ .bases → (x ∈ (F.get r).kids s ↔
        x ∈ kidsOf env (copied db) (allSteps env (copied db)) r s ∧
        (r.1 = .function → s = .parameters → (F.get r).ret ≠ some x) ∧
        (r.1 = .cls → s = .fields → typeFor env db x ≠ none) ∧
        ((r.1 = .cls ∧ s = .methods) ∨ (r.1 = .space ∧ s = .functions) → ¬ BadFunction env db x)) := by
      intro r s x hv hs
      have hun : x ∈ ((verified env T).get r).kids s ↔ x ∈ kidsOf env (copied db) (allSteps env (copied db)) r s ∧
          (r.1 = .function → s = .parameters → (F.get r).ret ≠ some x) := by
        rw [(vkids r s hs).mem_iff, fret]
        unfold unsortedKids retOf
        by_cases hp : r.1 = .function ∧ s = .parameters
        · rw [if_pos hp, if_pos hp.1, List.mem_filter, scopesBuilt_kids, ← hp.2]
          simp [hp.1, hp.2]
        · rw [if_neg hp, scopesBuilt_kids]
          constructor
          · intro hx; exact ⟨hx, fun h1 h2 => absurd ⟨h1, h2⟩ hp⟩
          · exact fun hx => hx.1
      rw [c.kids r s (hvt r hv)]
      unfold keptKids
      by_cases h1 : r.1 = .cls ∧ s = .fields
      · rw [if_pos h1, List.mem_filter, hun]
        obtain ⟨h1a, h1b⟩ := h1
        constructor
        · rintro ⟨⟨k1, k2⟩, k3⟩
          obtain ⟨k4, k5⟩ := (hchild r s x k1).1 h1b
          refine ⟨k1, k2, fun _ _ e => ?_, ?_⟩
          · rw [(hnt x k5 k4).mpr e] at k3; cases k3
          · rintro (⟨_, e⟩ | ⟨_, e⟩) <;> (rw [h1b] at e; cases e)
        · rintro ⟨k1, k2, k3, _⟩
          obtain ⟨k4, k5⟩ := (hchild r s x k1).1 h1b
          refine ⟨⟨k1, k2⟩, ?_⟩
          have : ¬ noType env (verified env T) x = true := fun e => k3 h1a h1b ((hnt x k5 k4).mp e)
          simpa using this
      · rw [if_neg h1]
        by_cases h2 : (r.1 = .cls ∧ s = .methods) ∨ (r.1 = .space ∧ s = .functions)
        · rw [if_pos h2, List.mem_filter, hun]
          have hs2 : s = .methods ∨ s = .functions := by
            rcases h2 with h2 | h2
            · exact .inl h2.2
            · exact .inr h2.2
          constructor
          · rintro ⟨⟨k1, k2⟩, k3⟩
            obtain ⟨k4, k5⟩ := (hchild r s x k1).2 hs2
            refine ⟨k1, k2, fun e1 e2 => absurd ⟨e1, e2⟩ h1, fun _ e => ?_⟩
            rw [(hinv x k4 k5).mpr e] at k3; cases k3
          · rintro ⟨k1, k2, _, k3⟩
            obtain ⟨k4, k5⟩ := (hchild r s x k1).2 hs2
            refine ⟨⟨k1, k2⟩, ?_⟩
            have : ¬ invalidFunction env (verified env T) x = true := fun e => k3 h2 ((hinv x k4 k5).mp e)
            simpa using this
        · rw [if_neg h2, hun]
          constructor
          · rintro ⟨k1, k2⟩
            exact ⟨k1, k2, fun e1 e2 => absurd ⟨e1, e2⟩ h1, fun e => absurd e h2⟩
          · exact fun k => ⟨k.1, k.2.1⟩
    have hsub : ∀ r s, Valid (copied db) r → ((F.get r).kids s).Sublist (((verified env T).get r).kids s) := by
      intro r s hv
      rw [c.kids r s (hvt r hv)]
      unfold keptKids
      split
      · exact List.filter_sublist
      · split
        · exact List.filter_sublist
        · exact List.Sublist.refl _
    have fattr : ∀ r, Valid (copied db) r → (F.get r).kids .attributes = (S9.get r).kids .attributes := by
      intro r hv
      rw [c.kids r _ (hvt r hv)]
      unfold keptKids
      rw [if_neg (by rintro ⟨_, e⟩; cases e), if_neg (by rintro (⟨_, e⟩ | ⟨_, e⟩) <;> cases e), (vget r).1, tget]
    have fbases : ∀ r, Valid (copied db) r → (F.get r).kids .bases = (S9.get r).kids .bases := by
      intro r hv
      rw [c.kids r _ (hvt r hv)]
      unfold keptKids
      rw [if_neg (by rintro ⟨_, e⟩; cases e), if_neg (by rintro (⟨_, e⟩ | ⟨_, e⟩) <;> cases e), (vget r).1, tget]
    refine ⟨?_, fhash, ftext, fvalue, ?_, ?_, ?_, ?_, ?_, ftype, fret, ?_, ?_, hkeptmem, ?_, ?_, ?_, ?_, ?_⟩
    · rw [c.count, ← hT]; exact hcount
    · rw [ftp]; exact htp
    · rw [ftp]
      have := hts
      simp only [hhash] at this
      simp only [fhash]
      exact this
    · intro s k hsk
      rw [c.globals, ← hT]
      show S9.globals s = _
      rw [a9.same.globals, hlk.globals s k hsk]
      show ((copied db).all k).filter _ = _
      apply List.filter_congr
      intro r hr
      have hv := ((mem_all _ _ r).mp hr).2
      show decide (env.num (ownerPtr env (copied db) (allSteps env (copied db)) r) = 0) = _
      rw [ownerPtr_ptrOr]
      exact decide_eq_decide.mpr (num_ptrOr h (h.raw.parents r hv))
    · intro r hv h1 h2
      rw [(c.other r).2.2.2.2.2.1, verified_parent env T r h1 h2, tget]
      show verifyPtr env T (S9.get r).parent = _ ∨ _ ∧ ∃ i, _ ∧ _ ∧ verifyPtr env T (S9.get r).parent = _
      rcases a9.parent r with hp | ⟨hf, _, i, hi, hm, hp⟩
      · left
        rw [hp, hlk.parent]
        show verifyPtr env T (ownerPtr env (copied db) (allSteps env (copied db)) r) = _
        rw [ownerPtr_ptrOr]
        exact verifyPtr_opt h T tn (scopeFor env db r) _ (fun p hp => hcands r p hp) (h.knownParent r hv)
      · right
        refine ⟨hf, i, hi, hm, ?_⟩
        rw [hp]
        unfold verifyPtr
        rw [tn, if_neg (h.noAlias (.instance, i) hi)]
    · intro r hr
      rw [(c.other r).2.2.2.2.2.1]
      have h1 : ((verified env T).get r).parent = (T.get r).parent := by
        unfold verified
        simp only
        rw [hr]
        show ((assignTargets env T).get r).parent = _
        exact (assignTargets_kids env T r).2.2.2.2.2.1
      rw [h1, tget]
      show (S9.get r).parent = _
      rcases a9.parent r with hp | ⟨hf, _⟩
      · rw [hp, hlk.parent]; rfl
      · rw [hr] at hf; cases hf
    · intro r s hv hs
      refine (hsub r s hv).nodup ?_
      rw [(vkids r s hs).nodup_iff]
      unfold unsortedKids
      split
      · exact (kidsOf_nodup env _ _ (allSteps_nodup env _) r _).filter _
      · exact kidsOf_nodup env _ _ (allSteps_nodup env _) r _
    · intro r s hv hs hsl
      refine List.Pairwise.sublist (hsub r s hv) ?_
      rw [(vget r).1, tget]
      show ((S9.get r).kids s).Pairwise _
      rw [a9.same.kids r s hs]
      simp only [fhash]
      exact hlk.sorted r s hsl
    · intro r hv
      rw [fbases r hv, a9.bases, lookType_congr' S9 F ftp (fun q => (fhash q).trans (hhash q).symm)]
    · intro r hv
      have hfl : (F.get r).flags = fl r := by
        rw [(c.other r).2.2.1, (vget r).2.2.2.1, tget]
      have e1 : ∀ q, (F.get q).hash = (S9.get q).hash := fun q => (fhash q).trans (hhash q).symm
      have e2 : ∀ q, (F.get q).value = (S9.get q).value := fun q => (fvalue q).trans (hvalue q).symm
      have e3 : ∀ q, (F.get q).text = (S9.get q).text := fun q => (ftext q).trans (htext q).symm
      have hself : ∀ q, Valid (copied db) q → flagged q.1 = true →
          (S9.get q).flags = flagBits F ((F.get q).kids .attributes) := by
        intro q hq hq2
        rw [fattr q hq, flagBits_congr' S9 F _ e1 e2 e3]
        exact a9.flags q hq2
      constructor
      · intro h1 h2
        rw [hfl, ← hself r hv h1]
        apply BitVec.eq_of_getLsbD_eq
        intro b _
        exact fl1 r b h2
      · intro hc b
        have hvs : Valid S9 r := by unfold Valid at hv ⊢; rw [hcount]; exact hv
        have hfg : flagged r.1 = true := by rw [hc]; rfl
        rw [hfl, fl2 r b hc hvs, hself r hv hfg]
        have hib : ∀ q, Valid (copied db) q → q.1 = .cls →
            inheritedBits F (flagBits F ((F.get q).kids .attributes)) q = inheritedBits S9 (S9.get q).flags q := by
          intro q hq hqc
          rw [hself q hq (by rw [hqc]; rfl)]
          exact inheritedBits_congr S9 F _ q (fattr q hq) e1 e2
        constructor
        · rintro (h1 | h1)
          · exact .inl h1
          · exact .inr (h1.congr (Valid (copied db)) (fun r q hq => (hbase r q hq).1) fbases hib hv)
        · rintro (h1 | h1)
          · exact .inl h1
          · exact .inr (h1.congr' (Valid (copied db)) (fun r q hq => (hbase r q hq).1) fbases hib hv)
    · intro r
      rw [(c.other r).2.2.2.2.2.2.2.1, (vget r).2.2.2.2.2.2, tget]
      show (S9.get r).uid = _
      rw [a9.same.uid, hlk.uid]; rfl
    · intro r hr hp
      rw [(c.other r).2.2.2.2.2.2.2.2.1, verified_args, if_pos hr, tget]
      show (S9.get r).args.map (verifyPtr env T) = _
      rw [a9.same.args, hlk.args, if_pos hr]
      show (((copied db).get r).args.map (link env (scopesBuilt env db))).map (verifyPtr env T) = _
      rw [List.map_map]
      apply List.map_congr_left
      intro p hpm
      simp only [Function.comp]
      rw [link_ptrOr]
      exact verifyPtr_opt h T tn _ _ (fun t ht => mem_typePrims db t (List.mem_of_find?_eq_some ht)) (hp p hpm)
    · intro r hr hp
      have hcopy : (T.get r).target = ((copied db).get r).target := by
        rw [tget]
        show (S9.get r).target = _
        rw [a9.same.target, hlk.target]; rfl
      have hall : T.all .function = F.all .function := by
        unfold St.all
        rw [c.count]; rfl
      have htt : T.typePrims = F.typePrims := by rw [ftp, ← hT]
      have hth : ∀ q, (T.get q).hash = (F.get q).hash := by
        intro q; rw [tget, fhash]; exact hhash q
      rw [(c.other r).2.2.2.2.2.2.2.2.2, verified_target env T r hr, hcopy, hall, htt]
      simp only [hth]
      apply verifyPtr_opt h T tn _ _ _ hp
      intro t ht
      have := List.mem_of_find?_eq_some ht
      rw [List.mem_reverse, List.mem_append] at this
      rcases this with h1 | h1
      · rw [ftp] at h1; exact mem_typePrims db t (htp.mem_iff.mp h1)
      · have h2 := ((mem_all _ _ t).mp h1).2
        unfold Valid at h2 ⊢
        rw [c.count, ← hT] at h2
        have h2 : t.2 < S9.count t.1 := h2
        rw [hcount] at h2; exact h2

end Clr.Export
