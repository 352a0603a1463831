import Verif.Proofs.Export2
/-
Lemmas about the exporter model: return values, sorting, containers, base types, constructors, flags.
-/
namespace Clr.Export
open Clr.DB (hashOf)
attribute [local irreducible] hashOf

/-! ### Return values -/

theorem find?_of_findIdx? {α : Type} (l : List α) (p : α → Bool) :
    (l.findIdx? p = none → l.find? p = none) ∧
    (∀ i, l.findIdx? p = some i → ∃ x, l[i]? = some x ∧ l.find? p = some x) := by
  induction l with
  | nil => simp
  | cons a l ih =>
    rw [List.findIdx?_cons, List.find?_cons]
    cases hp : p a with
    | true => simp
    | false =>
      simp only [Bool.false_eq_true, if_false, Option.map_eq_none_iff, Option.map_eq_some_iff]
      refine ⟨ih.1, ?_⟩
      rintro i ⟨j, hj, rfl⟩
      obtain ⟨x, h1, h2⟩ := ih.2 j hj
      exact ⟨x, by simpa using h1, h2⟩

/-- The return parameter among the parameters. -/
def returnOf (st : St) (ps : List Ref) : Option Ref := ps.find? fun p => (st.get p).hash == returnHash

theorem assignReturn_spec (st : St) (o : Obj) (hnd : (o.kids .parameters).Nodup) (hret : o.ret = none) :
    ∃ ps, assignReturn st o = { o with ret := returnOf st (o.kids .parameters) }.setKids .parameters ps ∧
      ps.Perm ((o.kids .parameters).filter fun c => returnOf st (o.kids .parameters) != some c) := by
  have hi := find?_of_findIdx? (o.kids .parameters) fun p => (st.get p).hash == returnHash
  unfold assignReturn
  split
  · next h =>
    have hn : returnOf st (o.kids .parameters) = none := hi.1 h
    refine ⟨o.kids .parameters, ?_, ?_⟩
    · rw [hn]
      unfold Obj.setKids
      have : (fun s => if s = Slot.parameters then o.kids .parameters else o.kids s) = o.kids := by
        funext s; split
        · next e => rw [e]
        · rfl
      rw [← hret]
      show o = { o with kids := fun s => if s = Slot.parameters then o.kids .parameters else o.kids s }
      rw [this]
    · rw [hn, List.filter_eq_self.mpr (by intro c _; rfl)]
  · next i h =>
    obtain ⟨x, h1, h2⟩ := hi.2 i h
    have hx : returnOf st (o.kids .parameters) = some x := h2
    have hel : (⟨o.kids .parameters, (o.kids .parameters).length⟩ : CArray.Arr Ref).elems = o.kids .parameters := by
      simp [CArray.Arr.elems]
    obtain ⟨a, ha, hperm, _⟩ := (CArray.C24_unstable_remove ⟨o.kids .parameters, (o.kids .parameters).length⟩ i
      (Nat.le_refl _)).1 x (by rw [hel]; exact h1)
    rw [hel] at hperm
    rw [ha]
    refine ⟨a.elems, by rw [h1, hx], ?_⟩
    rw [hx]
    have hnd2 := (hperm.nodup_iff).mp hnd
    obtain ⟨hxa, _⟩ := List.nodup_cons.mp hnd2
    have h3 := hperm.filter fun c => some x != some c
    refine List.Perm.trans (List.Perm.of_eq ?_) h3.symm
    rw [List.filter_cons]
    simp only [bne_self_eq_false, Bool.false_eq_true, if_false]
    symm
    rw [List.filter_eq_self]
    intro c hc
    have : x ≠ c := fun e => hxa (e ▸ hc)
    simpa using this

/-! ### States that agree on everything the later phases read -/

/-- Two states with the same objects up to container links, constructors, flags, base types and parents. -/
structure Same (a b : St) : Prop where
  count : b.count = a.count
  names : b.names = a.names
  typePrims : b.typePrims = a.typePrims
  globals : b.globals = a.globals
  hash : ∀ r, (b.get r).hash = (a.get r).hash
  text : ∀ r, (b.get r).text = (a.get r).text
  type : ∀ r, (b.get r).type = (a.get r).type
  args : ∀ r, (b.get r).args = (a.get r).args
  target : ∀ r, (b.get r).target = (a.get r).target
  value : ∀ r, (b.get r).value = (a.get r).value
  uid : ∀ r, (b.get r).uid = (a.get r).uid
  ret : ∀ r, (b.get r).ret = (a.get r).ret
  kids : ∀ r s, s ≠ .bases → (b.get r).kids s = (a.get r).kids s

theorem Same.refl (a : St) : Same a a := by constructor <;> intros <;> rfl

theorem Same.trans {a b c : St} (h1 : Same a b) (h2 : Same b c) : Same a c := by
  constructor
  · rw [h2.count, h1.count]
  · rw [h2.names, h1.names]
  · rw [h2.typePrims, h1.typePrims]
  · rw [h2.globals, h1.globals]
  · intro r; rw [h2.hash, h1.hash]
  · intro r; rw [h2.text, h1.text]
  · intro r; rw [h2.type, h1.type]
  · intro r; rw [h2.args, h1.args]
  · intro r; rw [h2.target, h1.target]
  · intro r; rw [h2.value, h1.value]
  · intro r; rw [h2.uid, h1.uid]
  · intro r; rw [h2.ret, h1.ret]
  · intro r s hs; rw [h2.kids r s hs, h1.kids r s hs]

theorem Same.all {a b : St} (h : Same a b) (k : K) : b.all k = a.all k := by unfold St.all; rw [h.count]

/-- Parents, base types and flags agree too. -/
structure Same2 (a b : St) : Prop extends Same a b where
  parent : ∀ r, (b.get r).parent = (a.get r).parent
  bases : ∀ r, (b.get r).kids .bases = (a.get r).kids .bases
  flags : ∀ r, (b.get r).flags = (a.get r).flags

theorem Same2.refl (a : St) : Same2 a a := by
  refine ⟨Same.refl a, ?_, ?_, ?_⟩ <;> intros <;> rfl

theorem Same2.trans {a b c : St} (h1 : Same2 a b) (h2 : Same2 b c) : Same2 a c :=
  ⟨h1.toSame.trans h2.toSame, fun r => by rw [h2.parent, h1.parent], fun r => by rw [h2.bases, h1.bases],
   fun r => by rw [h2.flags, h1.flags]⟩

/-- Objects that agree up to container links and constructors. -/
def Obj.like (a b : Obj) : Prop :=
  b.hash = a.hash ∧ b.text = a.text ∧ b.type = a.type ∧ b.args = a.args ∧ b.target = a.target ∧ b.value = a.value ∧
  b.ret = a.ret ∧ b.kids = a.kids ∧ b.parent = a.parent ∧ b.flags = a.flags ∧ b.uid = a.uid

theorem Same2.of_like {st : St} {g : Ref → Obj} (h : ∀ r, (st.get r).like (g r)) : Same2 st { st with get := g } := by
  refine ⟨⟨rfl, rfl, rfl, rfl, ?_, ?_, ?_, ?_, ?_, ?_, ?_, ?_, ?_⟩, ?_, ?_, ?_⟩
  · intro r; exact (h r).1
  · intro r; exact (h r).2.1
  · intro r; exact (h r).2.2.1
  · intro r; exact (h r).2.2.2.1
  · intro r; exact (h r).2.2.2.2.1
  · intro r; exact (h r).2.2.2.2.2.1
  · intro r; exact (h r).2.2.2.2.2.2.2.2.2.2
  · intro r; exact (h r).2.2.2.2.2.2.1
  · intro r s _; rw [show (({ st with get := g } : St).get r).kids = _ from (h r).2.2.2.2.2.2.2.1]
  · intro r; exact (h r).2.2.2.2.2.2.2.2.1
  · intro r; rw [show (({ st with get := g } : St).get r).kids = _ from (h r).2.2.2.2.2.2.2.1]
  · intro r; exact (h r).2.2.2.2.2.2.2.2.2.1

theorem Same2.set {st : St} {r : Ref} {o : Obj} (h : (st.get r).like o) : Same2 st (st.set r o) := by
  apply Same2.of_like
  intro s
  by_cases hs : s = r
  · subst hs; simpa using h
  · simp [hs, Obj.like]

/-! ### Containers -/

theorem findType_ok (st : St) (h : UInt32) (hsz : st.typePrims.length ≤ 2 ^ 30) :
    ∃ r, findType st h = .ok r := Search.C01_lookup_safe _ _ _ hsz

theorem linkIterator_ok (env : Env) (st : St) (p : Ptr) (hsz : st.typePrims.length ≤ 2 ^ 30) :
    ∃ q, linkIterator env st p = .ok q := by
  unfold linkIterator
  split
  · exact ⟨_, rfl⟩
  · split
    · obtain ⟨r, hr⟩ := findType_ok st (env.hash p) hsz
      rw [hr]
      cases r with
      | none => exact ⟨_, rfl⟩
      | some r => exact ⟨_, rfl⟩
    · exact ⟨_, rfl⟩

theorem rbind_ok {α β : Type} (a : α) (f : α → Res β) : (Res.ok a).bind f = f a := rfl

theorem attach_same (fks : List UInt32) (st : St) (i : Nat) (t : Option Ref) : Same2 st (attach fks st i t) := by
  unfold attach
  cases t with
  | some t => exact Same2.set ⟨rfl, rfl, rfl, rfl, rfl, rfl, rfl, rfl, rfl, rfl, rfl⟩
  | none =>
    simp only
    cases findLast st .template (st.get (.container, i)).hash with
    | some t =>
      apply Same2.of_like
      intro r
      split
      · exact ⟨rfl, rfl, rfl, rfl, rfl, rfl, rfl, rfl, rfl, rfl, rfl⟩
      · exact ⟨rfl, rfl, rfl, rfl, rfl, rfl, rfl, rfl, rfl, rfl, rfl⟩
    | none =>
      simp only
      split
      · exact Same2.set ⟨rfl, rfl, rfl, rfl, rfl, rfl, rfl, rfl, rfl, rfl, rfl⟩
      · exact Same2.refl st

theorem linkContainer_ok (env : Env) (fks : List UInt32) (st : St) (i : Nat) (hsz : st.typePrims.length ≤ 2 ^ 30) :
    ∃ st', linkContainer env fks st i = .ok st' ∧ Same2 st st' := by
  unfold linkContainer
  obtain ⟨rd, h1⟩ := linkIterator_ok env st (st.get (.container, i)).readIt hsz
  obtain ⟨wr, h2⟩ := linkIterator_ok env st (st.get (.container, i)).writeIt hsz
  obtain ⟨t, h3⟩ := findType_ok st (st.get (.container, i)).hash hsz
  rw [h1, rbind_ok, h2, rbind_ok, h3, rbind_ok]
  refine ⟨_, rfl, Same2.trans (Same2.set ?_) (attach_same _ _ _ _)⟩
  exact ⟨rfl, rfl, rfl, rfl, rfl, rfl, rfl, rfl, rfl, rfl, rfl⟩

theorem linkContainers_ok (env : Env) (fks : List UInt32) (is : List Nat) (st : St)
    (hsz : st.typePrims.length ≤ 2 ^ 30) : ∃ st', linkContainers env fks is st = .ok st' ∧ Same2 st st' := by
  induction is generalizing st with
  | nil => exact ⟨st, rfl, Same2.refl st⟩
  | cons i is ih =>
    obtain ⟨st1, h1, h2⟩ := linkContainer_ok env fks st i hsz
    obtain ⟨st2, h3, h4⟩ := ih st1 (by rw [h2.typePrims]; exact hsz)
    refine ⟨st2, ?_, h2.trans h4⟩
    unfold linkContainers
    rw [h1]
    exact h3

/-! ### Base types -/

/-- The bases a derived type gets from a list of inheritance records, given how names are looked up. -/
def basesFrom (look : UInt32 → Option Ref) (ts : List DB.TypeInheritance) (r : Ref) : List Ref :=
  ts.filterMap fun t =>
    match look t.base.hash with
    | some b => if look t.derived.hash = some r then some b else none
    | none => none

/-- The value of a result. -/
def valueOr : Res (Option Ref) → Option Ref
  | .ok r => r
  | _ => none

theorem valueOr_ok {x : Res (Option Ref)} (h : ∃ r, x = .ok r) : x = .ok (valueOr x) := by
  obtain ⟨r, rfl⟩ := h
  rfl

/-- The lookup in the sorted type table as a function. -/
def lookType (st : St) (h : UInt32) : Option Ref := valueOr (findType st h)

theorem findType_look (st : St) (h : UInt32) (hsz : st.typePrims.length ≤ 2 ^ 30) :
    findType st h = .ok (lookType st h) := valueOr_ok (findType_ok st h hsz)

theorem collectBases_ok (st : St) (hsz : st.typePrims.length ≤ 2 ^ 30) (ts : List DB.TypeInheritance)
    (m : Ref → List Ref) :
    collectBases st ts m = .ok fun r => m r ++ basesFrom (lookType st) ts r := by
  induction ts generalizing m with
  | nil => simp [collectBases, basesFrom]
  | cons t ts ih =>
    unfold collectBases
    rw [findType_look st t.base.hash hsz]
    rw [rbind_ok]
    cases hb : lookType st t.base.hash with
    | none =>
      simp only
      rw [ih]
      simp [basesFrom, List.filterMap_cons, hb]
    | some b =>
      simp only
      rw [findType_look st t.derived.hash hsz]
      rw [rbind_ok]
      cases hd : lookType st t.derived.hash with
      | none =>
        simp only
        rw [ih]
        simp [basesFrom, List.filterMap_cons, hb, hd]
      | some d =>
        simp only
        rw [ih]
        congr 1
        funext r
        by_cases hr : r = d
        · subst hr
          simp [basesFrom, List.filterMap_cons, hb, hd]
        · have hr' : ¬ d = r := fun e => hr e.symm
          simp [basesFrom, List.filterMap_cons, hb, hd, hr, hr']

theorem buildBases_ok (db : DB.Database) (st : St) (hsz : st.typePrims.length ≤ 2 ^ 30)
    (hb : ∀ r, (st.get r).kids .bases = []) :
    ∃ st', buildBases db st = .ok st' ∧ Same st st' ∧ (∀ r, (st'.get r).parent = (st.get r).parent) ∧
      (∀ r, (st'.get r).flags = (st.get r).flags) ∧
      (∀ r, (st'.get r).kids .bases = basesFrom (lookType st) db.inheritances r) := by
  unfold buildBases
  rw [collectBases_ok st hsz]
  rw [rbind_ok]
  simp only [List.nil_append]
  refine ⟨_, rfl, ⟨rfl, rfl, rfl, rfl, ?_, ?_, ?_, ?_, ?_, ?_, ?_, ?_, ?_⟩, ?_, ?_, ?_⟩
  all_goals (intro r)
  · simp only; split <;> rfl
  · simp only; split <;> rfl
  · simp only; split <;> rfl
  · simp only; split <;> rfl
  · simp only; split <;> rfl
  · simp only; split <;> rfl
  · simp only; split <;> rfl
  · simp only; split <;> rfl
  · intro s hs
    simp only
    split
    · rfl
    · simp [Obj.setKids, hs]
  · simp only; split <;> rfl
  · simp only; split <;> rfl
  · simp only
    split
    · next h => rw [hb, h]
    · simp [Obj.setKids]

/-! ### Constructors -/

theorem findMethod_ok (st : St) (o : Obj) (suffix : Bytes) (ht : o.text ≠ none)
    (hsz : (o.kids .methods).length ≤ 2 ^ 30) : ∃ r, findMethod st o suffix = .ok r := by
  unfold findMethod
  cases h : o.text with
  | none => exact absurd h ht
  | some t => exact Search.C01_lookup_safe _ _ _ hsz

/-- What the constructor searches of classes leave: same core, and each class has what the search found. -/
theorem classConstructors_ok (st : St) (r : Ref) (ht : (st.get r).text ≠ none)
    (hsz : ((st.get r).kids .methods).length ≤ 2 ^ 30) :
    ∃ st', classConstructors st r = .ok st' ∧ Same2 st st' := by
  obtain ⟨c, hc⟩ := findMethod_ok st (st.get r) b!"::ConstructObject" ht hsz
  obtain ⟨d, hd⟩ := findMethod_ok st (st.get r) b!"::DestructObject" ht hsz
  unfold classConstructors
  rw [hc, rbind_ok, hd, rbind_ok]
  exact ⟨_, rfl, Same2.set ⟨rfl, rfl, rfl, rfl, rfl, rfl, rfl, rfl, rfl, rfl, rfl⟩⟩

theorem allClassConstructors_ok (rs : List Ref) (st : St) (ht : ∀ r ∈ rs, (st.get r).text ≠ none)
    (hsz : ∀ r ∈ rs, ((st.get r).kids .methods).length ≤ 2 ^ 30) :
    ∃ st', forAll classConstructors rs st = .ok st' ∧ Same2 st st' := by
  induction rs generalizing st with
  | nil => exact ⟨st, rfl, Same2.refl st⟩
  | cons r rs ih =>
    obtain ⟨st1, h1, h2⟩ := classConstructors_ok st r (ht r (by simp)) (hsz r (by simp))
    obtain ⟨st2, h3, h4⟩ := ih st1 (fun q hq => by rw [h2.text]; exact ht q (by simp [hq]))
      (fun q hq => by rw [h2.kids q _ (by decide)]; exact hsz q (by simp [hq]))
    refine ⟨st2, ?_, h2.trans h4⟩
    unfold forAll
    rw [h1]
    exact h3

/-- A function with the name of the constructing or destructing function of a template type. -/
def Makes (st : St) (r : Ref) (i : Nat) : Prop :=
  ∃ t, (st.get (.instance, i)).text = some t ∧
    ((st.get r).hash = hashOf (t ++ b!"::ConstructObject") ∨ (st.get r).hash = hashOf (t ++ b!"::DestructObject"))

theorem Makes.congr {a b : St} (ht : ∀ r, (b.get r).text = (a.get r).text) (hh : ∀ r, (b.get r).hash = (a.get r).hash)
    (r : Ref) (i : Nat) : Makes b r i ↔ Makes a r i := by
  unfold Makes; rw [ht, hh]

/-- Agreement except for the parents of functions that template types took over. -/
structure Same3 (a b : St) : Prop extends Same a b where
  bases : ∀ r, (b.get r).kids .bases = (a.get r).kids .bases
  flags : ∀ r, (b.get r).flags = (a.get r).flags
  parent : ∀ r, (b.get r).parent = (a.get r).parent ∨
    (r.1 = .function ∧ Valid a r ∧ ∃ i, i < a.count .instance ∧ Makes a r i ∧ (b.get r).parent = .obj (.instance, i))

theorem Same3.refl (a : St) : Same3 a a := ⟨Same.refl a, fun _ => rfl, fun _ => rfl, fun _ => .inl rfl⟩

theorem Same3.trans {a b c : St} (h1 : Same3 a b) (h2 : Same3 b c) : Same3 a c := by
  refine ⟨h1.toSame.trans h2.toSame, fun r => by rw [h2.bases, h1.bases], fun r => by rw [h2.flags, h1.flags], ?_⟩
  intro r
  rcases h2.parent r with h | ⟨hf, hv, i, hi, hm, h⟩
  · rw [h]; exact h1.parent r
  · right
    refine ⟨hf, ?_, i, ?_, (Makes.congr h1.text h1.hash r i).mp hm, h⟩
    · unfold Valid at hv ⊢; rw [h1.count] at hv; exact hv
    · rw [h1.count] at hi; exact hi

theorem adopt_ok (st : St) (f : Option Ref) (i : Nat) (hi : i < st.count .instance)
    (hf : ∀ r, f = some r → r.1 = .function ∧ Valid st r ∧ Makes st r i) : Same3 st (adopt st f (.instance, i)) := by
  cases f with
  | none => exact Same3.refl st
  | some f =>
    obtain ⟨h1, h2, hm⟩ := hf f rfl
    unfold adopt
    refine ⟨⟨rfl, rfl, rfl, rfl, ?_, ?_, ?_, ?_, ?_, ?_, ?_, ?_, ?_⟩, ?_, ?_, ?_⟩
    all_goals (intro r)
    · by_cases hr : r = f
      · subst hr; simp [St.set]
      · simp [St.set, hr]
    · by_cases hr : r = f
      · subst hr; simp [St.set]
      · simp [St.set, hr]
    · by_cases hr : r = f
      · subst hr; simp [St.set]
      · simp [St.set, hr]
    · by_cases hr : r = f
      · subst hr; simp [St.set]
      · simp [St.set, hr]
    · by_cases hr : r = f
      · subst hr; simp [St.set]
      · simp [St.set, hr]
    · by_cases hr : r = f
      · subst hr; simp [St.set]
      · simp [St.set, hr]
    · by_cases hr : r = f
      · subst hr; simp [St.set]
      · simp [St.set, hr]
    · by_cases hr : r = f
      · subst hr; simp [St.set]
      · simp [St.set, hr]
    · intro s _
      by_cases hr : r = f
      · subst hr; simp [St.set]
      · simp [St.set, hr]
    · by_cases hr : r = f
      · subst hr; simp [St.set]
      · simp [St.set, hr]
    · by_cases hr : r = f
      · subst hr; simp [St.set]
      · simp [St.set, hr]
    · by_cases hr : r = f
      · subst hr
        right
        exact ⟨h1, h2, i, hi, hm, by simp [St.set]⟩
      · left; simp [St.set, hr]

theorem firstFunction_some (st : St) (h : UInt32) (r : Ref) (hr : firstFunction st h = some r) :
    r.1 = .function ∧ Valid st r ∧ (st.get r).hash = h := by
  have h1 := (mem_all st _ r).mp (List.mem_of_find?_eq_some hr)
  have h2 := List.find?_some hr
  exact ⟨h1.1, h1.2, by simpa using h2⟩

theorem Same2.toSame3 {a b : St} (h : Same2 a b) : Same3 a b :=
  ⟨h.toSame, h.bases, h.flags, fun r => .inl (h.parent r)⟩

theorem instanceConstructors_ok (st : St) (i : Nat) (hi : i < st.count .instance)
    (ht : (st.get (.instance, i)).text ≠ none) :
    ∃ st', instanceConstructors st (.instance, i) = .ok st' ∧ Same3 st st' := by
  unfold instanceConstructors
  cases h : (st.get (.instance, i)).text with
  | none => exact absurd h ht
  | some t =>
    simp only
    refine ⟨_, rfl, ?_⟩
    have h1 : Same2 st (st.set (.instance, i) { st.get (.instance, i) with
        ctor := firstFunction st (hashOf (t ++ b!"::ConstructObject")) <|> (st.get (.instance, i)).ctor,
        dtor := firstFunction st (hashOf (t ++ b!"::DestructObject")) <|> (st.get (.instance, i)).dtor }) :=
      Same2.set ⟨rfl, rfl, rfl, rfl, rfl, rfl, rfl, rfl, rfl, rfl, rfl⟩
    generalize (st.set (.instance, i) { st.get (.instance, i) with
        ctor := firstFunction st (hashOf (t ++ b!"::ConstructObject")) <|> (st.get (.instance, i)).ctor,
        dtor := firstFunction st (hashOf (t ++ b!"::DestructObject")) <|> (st.get (.instance, i)).dtor }) = st1 at h1 ⊢
    have h2 := adopt_ok st1 (firstFunction st (hashOf (t ++ b!"::ConstructObject"))) i (by rw [h1.count]; exact hi)
      (by
        intro r hr
        have := firstFunction_some st _ r hr
        refine ⟨this.1, ?_, ?_⟩
        · unfold Valid; rw [h1.count]; exact this.2.1
        · rw [Makes.congr h1.text h1.hash]
          exact ⟨t, h, .inl this.2.2⟩)
    have h3 := adopt_ok (adopt st1 (firstFunction st (hashOf (t ++ b!"::ConstructObject"))) (.instance, i))
      (firstFunction st (hashOf (t ++ b!"::DestructObject"))) i (by rw [h2.count, h1.count]; exact hi)
      (by
        intro r hr
        have := firstFunction_some st _ r hr
        refine ⟨this.1, ?_, ?_⟩
        · unfold Valid; rw [h2.count, h1.count]; exact this.2.1
        · rw [Makes.congr h2.text h2.hash, Makes.congr h1.text h1.hash]
          exact ⟨t, h, .inr this.2.2⟩)
    exact (h1.toSame3.trans h2).trans h3

theorem allInstanceConstructors_ok (rs : List Ref) (st : St) (hr : ∀ r ∈ rs, r.1 = .instance ∧ Valid st r)
    (ht : ∀ r ∈ rs, (st.get r).text ≠ none) :
    ∃ st', forAll instanceConstructors rs st = .ok st' ∧ Same3 st st' := by
  induction rs generalizing st with
  | nil => exact ⟨st, rfl, Same3.refl st⟩
  | cons r rs ih =>
    obtain ⟨k, i⟩ := r
    obtain ⟨hk, hv⟩ := hr (k, i) (by simp)
    simp only at hk
    subst hk
    obtain ⟨st1, h1, h2⟩ := instanceConstructors_ok st i hv (ht _ (by simp))
    obtain ⟨st2, h3, h4⟩ := ih st1
      (fun q hq => by
        have := hr q (by simp [hq])
        refine ⟨this.1, ?_⟩
        unfold Valid; rw [h2.count]; exact this.2)
      (fun q hq => by rw [h2.text]; exact ht q (by simp [hq]))
    refine ⟨st2, ?_, h2.trans h4⟩
    unfold forAll
    rw [h1]
    exact h3

/-! ### Flags -/

theorem Same.of_get {st : St} {g : Ref → Obj}
    (h : ∀ r, ∃ f : BitVec 32, g r = { st.get r with flags := f }) : Same st { st with get := g } := by
  refine ⟨rfl, rfl, rfl, rfl, ?_, ?_, ?_, ?_, ?_, ?_, ?_, ?_, ?_⟩
  all_goals (intro r; obtain ⟨f, hf⟩ := h r)
  all_goals first
    | (show (g r).hash = _; rw [hf])
    | (show (g r).text = _; rw [hf])
    | (show (g r).type = _; rw [hf])
    | (show (g r).args = _; rw [hf])
    | (show (g r).target = _; rw [hf])
    | (show (g r).value = _; rw [hf])
    | (show (g r).uid = _; rw [hf])
    | (show (g r).ret = _; rw [hf])
    | (intro s _; show (g r).kids s = _; rw [hf])

/-- Flags of the tables that have them. -/
def flagged (k : K) : Bool := k == .enum || k == .field || k == .function || k == .cls

theorem addFlags_get (st : St) (r : Ref) : (addFlags st).get r =
    if flagged r.1 then { st.get r with flags := flagBits st ((st.get r).kids .attributes) } else st.get r := by
  unfold addFlags St.map flagged
  obtain ⟨k, i⟩ := r
  cases k <;> rfl

theorem addFlags_same (st : St) : Same st (addFlags st) ∧ (∀ r, ((addFlags st).get r).parent = (st.get r).parent) ∧
    (∀ r, ((addFlags st).get r).kids .bases = (st.get r).kids .bases) := by
  have hk : ∀ r, ∃ f : BitVec 32, (addFlags st).get r = { st.get r with flags := f } := by
    intro r
    rw [addFlags_get]
    split
    · exact ⟨_, rfl⟩
    · exact ⟨(st.get r).flags, rfl⟩
  refine ⟨Same.of_get hk, ?_, ?_⟩
  · intro r; obtain ⟨f, hf⟩ := hk r; rw [hf]
  · intro r; obtain ⟨f, hf⟩ := hk r; rw [hf]

end Clr.Export
