import Verif.Proofs.Export8
import Verif.Props.Export
/-
Lemmas about the exporter model: constructors, destructors and containers.
-/
namespace Clr.Export
open Clr.DB (hashOf)
attribute [local irreducible] hashOf

/-- What the passes about constructors and containers write, unchanged. -/
structure Extra (a b : Obj) : Prop where
  ctor : b.ctor = a.ctor
  dtor : b.dtor = a.dtor
  ci : b.ci = a.ci
  readIt : b.readIt = a.readIt
  writeIt : b.writeIt = a.writeIt

theorem Extra.refl (a : Obj) : Extra a a := ⟨rfl, rfl, rfl, rfl, rfl⟩

theorem Extra.trans {a b c : Obj} (h : Extra a b) (h' : Extra b c) : Extra a c :=
  ⟨h'.ctor.trans h.ctor, h'.dtor.trans h.dtor, h'.ci.trans h.ci, h'.readIt.trans h.readIt, h'.writeIt.trans h.writeIt⟩

/-! ### Before the containers -/

theorem rows_extra (db : DB.Database) (k : K) (o : Obj) (ho : o ∈ rows db k) : o.ctor = none ∧ o.dtor = none ∧ o.ci = none := by
  cases k
  all_goals
    (simp only [rows, List.mem_map] at ho
     obtain ⟨p, _, rfl⟩ := ho
     exact ⟨rfl, rfl, rfl⟩)

theorem copied_extra (db : DB.Database) (r : Ref) :
    ((copied db).get r).ctor = none ∧ ((copied db).get r).dtor = none ∧ ((copied db).get r).ci = none := by
  rcases copied_get db r with ⟨_, h⟩ | ⟨_, h⟩
  · exact rows_extra db _ _ h
  · rw [h]; exact ⟨rfl, rfl, rfl⟩

theorem scopesBuilt_extra (env : Env) (db : DB.Database) (r : Ref) : Extra ((copied db).get r) ((scopesBuilt env db).get r) :=
  ⟨rfl, rfl, rfl, rfl, rfl⟩

theorem linkAll_extra (env : Env) (S1 : St) (r : Ref) : Extra (S1.get r) ((linkAll env S1).get r) := by
  rw [linkAll_get]
  split
  · exact ⟨rfl, rfl, rfl, rfl, rfl⟩
  · split <;> exact ⟨rfl, rfl, rfl, rfl, rfl⟩

theorem linked_extra (env : Env) (S1 : St) (hnd : ∀ r, ((S1.get r).kids .parameters).Nodup)
    (hret : ∀ r, (S1.get r).ret = none) (r : Ref) : Extra (S1.get r) ((linked env S1).get r) := by
  obtain ⟨ps, h1, _⟩ := returned_get env S1 hnd hret r
  have h2 : Extra (((linkAll env S1).map .function fun _ o => assignReturn (linkAll env S1) o).get r) ((linked env S1).get r) :=
    ⟨rfl, rfl, rfl, rfl, rfl⟩
  refine (linkAll_extra env S1 r).trans (Extra.trans ?_ h2)
  rw [h1]
  exact ⟨rfl, rfl, rfl, rfl, rfl⟩

/-! ### Containers -/

/-- What a container is given to: the type found, else the instances of the template found, else the field found. -/
def GivenTo (t : Option Ref) (instances : Option (List Ref)) (field : Option Nat) (r : Ref) : Prop :=
  match t with
  | some t => r = t
  | none =>
    match instances with
    | some l => r ∈ l
    | none =>
      match field with
      | some j => r = (.field, j)
      | none => False

/-- The first field with a scoped name. -/
def fieldOf (fks : List UInt32) (n : Nat) (h : UInt32) : Option Nat := (List.range n).find? fun j => fks.getD j 0 == h

/-- The container `i` is given to `r`. -/
def Describes (fks : List UInt32) (st : St) (i : Nat) (r : Ref) : Prop :=
  GivenTo (lookType st (st.get (.container, i)).hash)
    ((findLast st .template (st.get (.container, i)).hash).map fun t => (st.get t).kids .instances)
    (fieldOf fks (st.count .field) (st.get (.container, i)).hash) r

open Classical in
/-- The last of some containers that is given to `r`. -/
noncomputable def lastInfo (fks : List UInt32) (st : St) (is : List Nat) (r : Ref) : Option Ref :=
  (is.reverse.find? fun i => decide (Describes fks st i r)).map fun i => (.container, i)

/-- What a pointer to an iterator becomes. -/
def iterPtr (env : Env) (st : St) (p : Ptr) : Ptr :=
  if env.num p = 0 then .raw 0
  else if env.hash p ∈ st.names then optPtr (lookType st (env.hash p)) else .raw 0

theorem linkIterator_look (env : Env) (st : St) (p : Ptr) (hsz : st.typePrims.length ≤ 2 ^ 30) :
    linkIterator env st p = .ok (iterPtr env st p) := by
  unfold linkIterator iterPtr
  split
  · rfl
  · split
    · rw [findType_look st _ hsz, rbind_ok]
      cases lookType st (env.hash p) <;> rfl
    · rfl

theorem findLast_congr {a b : St} (h : Same a b) (k : K) (x : UInt32) : findLast b k x = findLast a k x := by
  unfold findLast
  rw [h.all]
  simp only [h.hash]

theorem describes_congr {a b : St} (h : Same a b) (fks : List UInt32) (i : Nat) (r : Ref) :
    Describes fks b i r ↔ Describes fks a i r := by
  have e1 := lookType_congr h
  have e2 := findLast_congr h .template
  have e3 := h.hash (.container, i)
  have e4 : ∀ t, (b.get t).kids .instances = (a.get t).kids .instances := fun t => h.kids t _ (by decide)
  have e5 := h.count
  unfold Describes
  simp only [e1, e2, e3, e4, e5]

theorem iterPtr_congr {a b : St} (h : Same a b) (env : Env) (p : Ptr) : iterPtr env b p = iterPtr env a p := by
  unfold iterPtr
  rw [lookType_congr h, h.names]

/-- What changes when a container is given away. -/
structure Given (a b : Obj) : Prop where
  ctor : b.ctor = a.ctor
  dtor : b.dtor = a.dtor
  readIt : b.readIt = a.readIt
  writeIt : b.writeIt = a.writeIt

theorem attach_spec (fks : List UInt32) (st : St) (i : Nat) (r : Ref) :
    Given (st.get r) ((attach fks st i (lookType st (st.get (.container, i)).hash)).get r) ∧
    (Describes fks st i r →
      ((attach fks st i (lookType st (st.get (.container, i)).hash)).get r).ci = some (.container, i)) ∧
    (¬ Describes fks st i r →
      ((attach fks st i (lookType st (st.get (.container, i)).hash)).get r).ci = (st.get r).ci) := by
  have key : ∀ t, Given (st.get r) ((attach fks st i t).get r) ∧
      (GivenTo t ((findLast st .template (st.get (.container, i)).hash).map fun t => (st.get t).kids .instances)
        (fieldOf fks (st.count .field) (st.get (.container, i)).hash) r → ((attach fks st i t).get r).ci = some (.container, i)) ∧
      (¬ GivenTo t ((findLast st .template (st.get (.container, i)).hash).map fun t => (st.get t).kids .instances)
        (fieldOf fks (st.count .field) (st.get (.container, i)).hash) r → ((attach fks st i t).get r).ci = (st.get r).ci) := by
    intro t
    unfold attach fieldOf
    cases t with
    | some t =>
      simp only [St.set, GivenTo]
      by_cases h : r = t
      · subst h; rw [if_pos rfl]; exact ⟨⟨rfl, rfl, rfl, rfl⟩, fun _ => rfl, fun e => absurd rfl e⟩
      · rw [if_neg h]; exact ⟨⟨rfl, rfl, rfl, rfl⟩, fun e => absurd e h, fun _ => rfl⟩
    | none =>
      simp only
      cases findLast st .template (st.get (.container, i)).hash with
      | some t =>
        simp only [GivenTo, Option.map_some]
        by_cases h : r ∈ (st.get t).kids .instances
        · rw [if_pos h]; exact ⟨⟨rfl, rfl, rfl, rfl⟩, fun _ => rfl, fun e => absurd h e⟩
        · rw [if_neg h]; exact ⟨⟨rfl, rfl, rfl, rfl⟩, fun e => absurd e h, fun _ => rfl⟩
      | none =>
        simp only [GivenTo, Option.map_none]
        cases (List.range (st.count .field)).find? fun j => fks.getD j 0 == (st.get (.container, i)).hash with
        | some j =>
          simp only [St.set]
          by_cases h : r = (.field, j)
          · subst h; rw [if_pos rfl]; exact ⟨⟨rfl, rfl, rfl, rfl⟩, fun _ => rfl, fun e => absurd rfl e⟩
          · rw [if_neg h]; exact ⟨⟨rfl, rfl, rfl, rfl⟩, fun e => absurd e h, fun _ => rfl⟩
        | none => exact ⟨⟨rfl, rfl, rfl, rfl⟩, fun e => e.elim, fun _ => rfl⟩
  exact key _

open Classical in
theorem linkContainer_spec (env : Env) (fks : List UInt32) (st : St) (i : Nat) (hsz : st.typePrims.length ≤ 2 ^ 30) :
    ∃ st', linkContainer env fks st i = .ok st' ∧ Same2 st st' ∧ ∀ r,
      (st'.get r).ctor = (st.get r).ctor ∧ (st'.get r).dtor = (st.get r).dtor ∧
      (st'.get r).ci = (if Describes fks st i r then some (.container, i) else (st.get r).ci) ∧
      (st'.get r).readIt = (if r = (.container, i) then iterPtr env st (st.get r).readIt else (st.get r).readIt) ∧
      (st'.get r).writeIt = (if r = (.container, i) then iterPtr env st (st.get r).writeIt else (st.get r).writeIt) := by
  obtain ⟨st', h1, h2⟩ := linkContainer_ok env fks st i hsz
  refine ⟨st', h1, h2, ?_⟩
  unfold linkContainer at h1
  rw [linkIterator_look env st _ hsz, rbind_ok, linkIterator_look env st _ hsz, rbind_ok, findType_look st _ hsz, rbind_ok] at h1
  injection h1 with h1
  generalize hs : st.set (.container, i) { st.get (.container, i) with
    readIt := iterPtr env st (st.get (.container, i)).readIt, writeIt := iterPtr env st (st.get (.container, i)).writeIt } = st1 at h1
  have s1 : Same2 st st1 := by rw [← hs]; exact Same2.set ⟨rfl, rfl, rfl, rfl, rfl, rfl, rfl, rfl, rfl, rfl, rfl⟩
  have e1 : lookType st (st.get (.container, i)).hash = lookType st1 (st1.get (.container, i)).hash := by
    rw [lookType_congr s1.toSame, s1.hash]
  rw [e1] at h1
  intro r
  obtain ⟨g, gc, gn⟩ := attach_spec fks st1 i r
  rw [h1] at g gc gn
  have hd : Describes fks st1 i r ↔ Describes fks st i r := describes_congr s1.toSame fks i r
  have x1 : (st1.get r).ctor = (st.get r).ctor ∧ (st1.get r).dtor = (st.get r).dtor ∧ (st1.get r).ci = (st.get r).ci ∧
      (st1.get r).readIt = (if r = (.container, i) then iterPtr env st (st.get r).readIt else (st.get r).readIt) ∧
      (st1.get r).writeIt = (if r = (.container, i) then iterPtr env st (st.get r).writeIt else (st.get r).writeIt) := by
    rw [← hs]
    simp only [St.set]
    by_cases h : r = (.container, i)
    · subst h; simp only [if_true]; exact ⟨trivial, trivial, trivial, trivial, trivial⟩
    · simp only [if_neg h]; exact ⟨trivial, trivial, trivial, trivial, trivial⟩
  refine ⟨g.ctor.trans x1.1, g.dtor.trans x1.2.1, ?_, g.readIt.trans x1.2.2.2.1, g.writeIt.trans x1.2.2.2.2⟩
  by_cases h : Describes fks st i r
  · rw [if_pos h, gc (hd.mpr h)]
  · rw [if_neg h, gn (fun e => h (hd.mp e)), x1.2.2.1]

theorem linkContainers_spec (env : Env) (fks : List UInt32) (is : List Nat) (hn : is.Nodup) (st : St) (hsz : st.typePrims.length ≤ 2 ^ 30) :
    ∃ st', linkContainers env fks is st = .ok st' ∧ Same2 st st' ∧ ∀ r,
      (st'.get r).ctor = (st.get r).ctor ∧ (st'.get r).dtor = (st.get r).dtor ∧
      (st'.get r).ci = (lastInfo fks st is r).or (st.get r).ci ∧
      (st'.get r).readIt = (if r.1 = .container ∧ r.2 ∈ is then iterPtr env st (st.get r).readIt else (st.get r).readIt) ∧
      (st'.get r).writeIt = (if r.1 = .container ∧ r.2 ∈ is then iterPtr env st (st.get r).writeIt else (st.get r).writeIt) := by
  classical
  induction is generalizing st with
  | nil => exact ⟨st, rfl, Same2.refl st, fun r => ⟨rfl, rfl, by simp [lastInfo], by simp, by simp⟩⟩
  | cons i is ih =>
    obtain ⟨hi, hn⟩ := List.nodup_cons.mp hn
    obtain ⟨st1, h1, s1, x1⟩ := linkContainer_spec env fks st i hsz
    obtain ⟨st2, h2, s2, x2⟩ := ih hn st1 (by rw [s1.typePrims]; exact hsz)
    refine ⟨st2, ?_, s1.trans s2, ?_⟩
    · unfold linkContainers
      rw [h1]
      exact h2
    · intro r
      obtain ⟨a1, a2, a3, a4, a5⟩ := x1 r
      obtain ⟨b1, b2, b3, b4, b5⟩ := x2 r
      refine ⟨b1.trans a1, b2.trans a2, ?_, ?_, ?_⟩
      · rw [b3, a3]
        have e : lastInfo fks st1 is r = lastInfo fks st is r := by
          unfold lastInfo
          simp only [describes_congr s1.toSame]
        rw [e]
        unfold lastInfo
        rw [List.reverse_cons, List.find?_append]
        cases is.reverse.find? fun i => decide (Describes fks st i r) with
        | some j => rfl
        | none =>
          by_cases h : Describes fks st i r
          · simp [h]
          · simp [h]
      · rw [b4, a4]
        obtain ⟨k, j⟩ := r
        simp only [Prod.mk.injEq, List.mem_cons]
        by_cases hk : k = .container
        · subst hk
          by_cases hj : j = i
          · subst hj; simp [hi]
          · simp [hj, iterPtr_congr s1.toSame]
        · simp [hk]
      · rw [b5, a5]
        obtain ⟨k, j⟩ := r
        simp only [Prod.mk.injEq, List.mem_cons]
        by_cases hk : k = .container
        · subst hk
          by_cases hj : j = i
          · subst hj; simp [hi]
          · simp [hj, iterPtr_congr s1.toSame]
        · simp [hk]

/-! ### Base types -/

theorem buildBases_extra {db : DB.Database} {st st' : St} (h : buildBases db st = .ok st') (r : Ref) :
    Extra (st.get r) (st'.get r) := by
  unfold buildBases at h
  cases hc : collectBases st db.inheritances (fun _ => []) with
  | ok m =>
    rw [hc, rbind_ok] at h
    injection h with h
    subst h
    simp only
    split
    · exact Extra.refl _
    · exact ⟨rfl, rfl, rfl, rfl, rfl⟩
  | trap => rw [hc] at h; cases h
  | ub => rw [hc] at h; cases h

/-! ### Constructors of classes -/

theorem findMethod_congr {a b : St} (h : Same a b) (r : Ref) (suffix : Bytes) :
    findMethod b (b.get r) suffix = findMethod a (a.get r) suffix := by
  unfold findMethod
  rw [h.text, h.kids r _ (by decide)]
  have : (fun r => (b.get r).hash) = fun r => (a.get r).hash := funext h.hash
  rw [this]

/-- Everything but constructors and destructors unchanged. -/
structure Kept3 (a b : Obj) : Prop where
  ci : b.ci = a.ci
  readIt : b.readIt = a.readIt
  writeIt : b.writeIt = a.writeIt

theorem classConstructors_spec (st : St) (r : Ref) (ht : (st.get r).text ≠ none)
    (hsz : ((st.get r).kids .methods).length ≤ 2 ^ 30) :
    ∃ st', classConstructors st r = .ok st' ∧ Same2 st st' ∧
      findMethod st (st.get r) b!"::ConstructObject" = .ok (st'.get r).ctor ∧
      findMethod st (st.get r) b!"::DestructObject" = .ok (st'.get r).dtor ∧
      (∀ q, q ≠ r → st'.get q = st.get q) ∧ ∀ q, Kept3 (st.get q) (st'.get q) := by
  obtain ⟨st', h1, h2⟩ := classConstructors_ok st r ht hsz
  refine ⟨st', h1, h2, ?_⟩
  obtain ⟨c, hc⟩ := findMethod_ok st (st.get r) b!"::ConstructObject" ht hsz
  obtain ⟨d, hd⟩ := findMethod_ok st (st.get r) b!"::DestructObject" ht hsz
  unfold classConstructors at h1
  rw [hc, rbind_ok, hd, rbind_ok] at h1
  injection h1 with h1
  subst h1
  rw [hc, hd]
  simp only [St.set, if_true]
  refine ⟨trivial, trivial, fun q hq => if_neg hq, ?_⟩
  intro q
  by_cases hq : q = r
  · subst hq; rw [if_pos rfl]; exact ⟨rfl, rfl, rfl⟩
  · rw [if_neg hq]; exact ⟨rfl, rfl, rfl⟩

theorem allClassConstructors_spec (rs : List Ref) (hn : rs.Nodup) (st : St) (ht : ∀ r ∈ rs, (st.get r).text ≠ none)
    (hsz : ∀ r ∈ rs, ((st.get r).kids .methods).length ≤ 2 ^ 30) :
    ∃ st', forAll classConstructors rs st = .ok st' ∧ Same2 st st' ∧
      (∀ r ∈ rs, findMethod st (st.get r) b!"::ConstructObject" = .ok (st'.get r).ctor ∧
        findMethod st (st.get r) b!"::DestructObject" = .ok (st'.get r).dtor) ∧
      (∀ q, q ∉ rs → (st'.get q).ctor = (st.get q).ctor ∧ (st'.get q).dtor = (st.get q).dtor) ∧
      ∀ q, Kept3 (st.get q) (st'.get q) := by
  induction rs generalizing st with
  | nil => exact ⟨st, rfl, Same2.refl st, by simp, fun _ _ => ⟨rfl, rfl⟩, fun _ => ⟨rfl, rfl, rfl⟩⟩
  | cons r rs ih =>
    obtain ⟨hr, hn⟩ := List.nodup_cons.mp hn
    obtain ⟨st1, h1, s1, c1, d1, o1, k1⟩ := classConstructors_spec st r (ht r (by simp)) (hsz r (by simp))
    obtain ⟨st2, h2, s2, cd2, o2, k2⟩ := ih hn st1 (fun q hq => by rw [s1.text]; exact ht q (by simp [hq]))
      (fun q hq => by rw [s1.kids q _ (by decide)]; exact hsz q (by simp [hq]))
    refine ⟨st2, ?_, s1.trans s2, ?_, ?_, ?_⟩
    · unfold forAll
      rw [h1]
      exact h2
    · intro q hq
      rcases List.mem_cons.mp hq with rfl | hq
      · rw [(o2 q hr).1, (o2 q hr).2]; exact ⟨c1, d1⟩
      · have := cd2 q hq
        rw [findMethod_congr s1.toSame, findMethod_congr s1.toSame] at this
        exact this
    · intro q hq
      have hq' := List.ne_and_not_mem_of_not_mem_cons hq
      rw [(o2 q hq'.2).1, (o2 q hq'.2).2, o1 q hq'.1]
      exact ⟨rfl, rfl⟩
    · intro q
      exact ⟨(k2 q).ci.trans (k1 q).ci, (k2 q).readIt.trans (k1 q).readIt, (k2 q).writeIt.trans (k1 q).writeIt⟩

/-! ### Constructors of template types -/

/-- The function found under the name of a template type with a suffix. -/
def madeBy (st : St) (suffix : Bytes) (r : Ref) : Option Ref := firstFunction st (hashOf ((st.get r).text.getD [] ++ suffix))

theorem madeBy_congr {a b : St} (h : Same a b) (suffix : Bytes) (r : Ref) : madeBy b suffix r = madeBy a suffix r := by
  unfold madeBy firstFunction
  rw [h.text, h.all]
  simp only [h.hash]

/-- The template type constructs or destructs its objects with this function. -/
def Uses (st : St) (r f : Ref) : Prop := madeBy st b!"::ConstructObject" r = some f ∨ madeBy st b!"::DestructObject" r = some f

theorem Uses.congr {a b : St} (h : Same a b) (r f : Ref) : Uses b r f ↔ Uses a r f := by
  unfold Uses; rw [madeBy_congr h, madeBy_congr h]

theorem adopt_spec (st : St) (f : Option Ref) (r : Ref) (q : Ref) :
    Extra (st.get q) ((adopt st f r).get q) ∧ ((adopt st f r).get q).parent = if f = some q then .obj r else (st.get q).parent := by
  cases f with
  | none => exact ⟨Extra.refl _, rfl⟩
  | some g =>
    unfold adopt
    simp only [St.set, Option.some.injEq]
    by_cases h : q = g
    · subst h; simp only [if_true]; exact ⟨⟨rfl, rfl, rfl, rfl, rfl⟩, trivial⟩
    · rw [if_neg h, if_neg (fun e => h e.symm)]; exact ⟨Extra.refl _, rfl⟩

theorem instanceConstructors_spec (st : St) (i : Nat) (hi : i < st.count .instance)
    (ht : (st.get (.instance, i)).text ≠ none) :
    ∃ st', instanceConstructors st (.instance, i) = .ok st' ∧ Same3 st st' ∧
      (st'.get (.instance, i)).ctor = (madeBy st b!"::ConstructObject" (.instance, i)).or (st.get (.instance, i)).ctor ∧
      (st'.get (.instance, i)).dtor = (madeBy st b!"::DestructObject" (.instance, i)).or (st.get (.instance, i)).dtor ∧
      (∀ q, q ≠ (.instance, i) → (st'.get q).ctor = (st.get q).ctor ∧ (st'.get q).dtor = (st.get q).dtor) ∧
      (∀ q, Kept3 (st.get q) (st'.get q)) ∧
      ∀ f, (Uses st (.instance, i) f → (st'.get f).parent = .obj (.instance, i)) ∧
        (¬ Uses st (.instance, i) f → (st'.get f).parent = (st.get f).parent) := by
  obtain ⟨st', h1, h2⟩ := instanceConstructors_ok st i hi ht
  refine ⟨st', h1, h2, ?_⟩
  unfold instanceConstructors at h1
  cases h : (st.get (.instance, i)).text with
  | none => exact absurd h ht
  | some t =>
    rw [h] at h1
    simp only at h1
    injection h1 with h1
    have e1 : madeBy st b!"::ConstructObject" (.instance, i) = firstFunction st (hashOf (t ++ b!"::ConstructObject")) := by
      unfold madeBy; rw [h]; rfl
    have e2 : madeBy st b!"::DestructObject" (.instance, i) = firstFunction st (hashOf (t ++ b!"::DestructObject")) := by
      unfold madeBy; rw [h]; rfl
    unfold Uses
    rw [e1, e2]
    generalize firstFunction st (hashOf (t ++ b!"::ConstructObject")) = c at h1
    generalize firstFunction st (hashOf (t ++ b!"::DestructObject")) = d at h1
    generalize hs : st.set (.instance, i) { st.get (.instance, i) with
      ctor := c <|> (st.get (.instance, i)).ctor, dtor := d <|> (st.get (.instance, i)).dtor } = st1 at h1
    have hx : ∀ q, Extra (st1.get q) (st'.get q) := by
      intro q
      rw [← h1]
      exact (adopt_spec st1 c (.instance, i) q).1.trans (adopt_spec _ d (.instance, i) q).1
    have hp : ∀ q, (st'.get q).parent = if d = some q then .obj (.instance, i) else if c = some q then .obj (.instance, i)
        else (st.get q).parent := by
      intro q
      rw [← h1, (adopt_spec _ d (.instance, i) q).2, (adopt_spec st1 c (.instance, i) q).2]
      have : (st1.get q).parent = (st.get q).parent := by
        rw [← hs]
        simp only [St.set]
        split
        · next e => rw [e]
        · rfl
      rw [this]
    have hself : st1.get (.instance, i) = { st.get (.instance, i) with
        ctor := c <|> (st.get (.instance, i)).ctor, dtor := d <|> (st.get (.instance, i)).dtor } := by
      rw [← hs]; simp [St.set]
    have hother : ∀ q, q ≠ (.instance, i) → st1.get q = st.get q := by
      intro q hq; rw [← hs]; simp [St.set, hq]
    refine ⟨?_, ?_, ?_, ?_, ?_⟩
    · rw [(hx _).ctor, hself]
      cases c <;> rfl
    · rw [(hx _).dtor, hself]
      cases d <;> rfl
    · intro q hq
      rw [(hx q).ctor, (hx q).dtor, hother q hq]
      exact ⟨rfl, rfl⟩
    · intro q
      by_cases hq : q = (.instance, i)
      · subst hq
        have := hx (.instance, i)
        rw [hself] at this
        exact ⟨this.ci, this.readIt, this.writeIt⟩
      · have := hx q
        rw [hother q hq] at this
        exact ⟨this.ci, this.readIt, this.writeIt⟩
    · intro f
      rw [hp f]
      constructor
      · rintro (hu | hu)
        · rw [if_pos hu]; split <;> rfl
        · rw [if_pos hu]
      · intro hu
        rw [if_neg (fun e => hu (.inr e)), if_neg (fun e => hu (.inl e))]

theorem allInstanceConstructors_spec (rs : List Ref) (hn : rs.Nodup) (st : St) (hr : ∀ r ∈ rs, r.1 = .instance ∧ Valid st r)
    (ht : ∀ r ∈ rs, (st.get r).text ≠ none) :
    ∃ st', forAll instanceConstructors rs st = .ok st' ∧ Same3 st st' ∧
      (∀ r ∈ rs, (st'.get r).ctor = (madeBy st b!"::ConstructObject" r).or (st.get r).ctor ∧
        (st'.get r).dtor = (madeBy st b!"::DestructObject" r).or (st.get r).dtor) ∧
      (∀ q, q ∉ rs → (st'.get q).ctor = (st.get q).ctor ∧ (st'.get q).dtor = (st.get q).dtor) ∧
      (∀ q, Kept3 (st.get q) (st'.get q)) ∧
      ∀ f, ((∀ r ∈ rs, ¬ Uses st r f) ∧ (st'.get f).parent = (st.get f).parent) ∨
        ∃ r ∈ rs, Uses st r f ∧ (st'.get f).parent = .obj r := by
  induction rs generalizing st with
  | nil => exact ⟨st, rfl, Same3.refl st, by simp, fun _ _ => ⟨rfl, rfl⟩, fun _ => ⟨rfl, rfl, rfl⟩, fun f => .inl ⟨by simp, rfl⟩⟩
  | cons r rs ih =>
    obtain ⟨hrn, hn'⟩ := List.nodup_cons.mp hn
    obtain ⟨k, i⟩ := r
    obtain ⟨hk, hv⟩ := hr (k, i) (by simp)
    simp only at hk
    subst hk
    obtain ⟨st1, h1, s1, c1, d1, o1, k1, p1⟩ := instanceConstructors_spec st i hv (ht _ (by simp))
    obtain ⟨st2, h2, s2, cd2, o2, k2, p2⟩ := ih hn' st1
      (fun q hq => by
        have := hr q (by simp [hq])
        refine ⟨this.1, ?_⟩
        unfold Valid; rw [s1.count]; exact this.2)
      (fun q hq => by rw [s1.text]; exact ht q (by simp [hq]))
    refine ⟨st2, ?_, s1.trans s2, ?_, ?_, ?_, ?_⟩
    · unfold forAll
      rw [h1]
      exact h2
    · intro q hq
      rcases List.mem_cons.mp hq with rfl | hq
      · rw [(o2 _ hrn).1, (o2 _ hrn).2]; exact ⟨c1, d1⟩
      · have := cd2 q hq
        have hne : q ≠ (.instance, i) := fun e => hrn (e ▸ hq)
        rw [madeBy_congr s1.toSame, madeBy_congr s1.toSame, (o1 q hne).1, (o1 q hne).2] at this
        exact this
    · intro q hq
      have hq' := List.ne_and_not_mem_of_not_mem_cons hq
      rw [(o2 q hq'.2).1, (o2 q hq'.2).2]
      exact o1 q hq'.1
    · intro q
      exact ⟨(k2 q).ci.trans (k1 q).ci, (k2 q).readIt.trans (k1 q).readIt, (k2 q).writeIt.trans (k1 q).writeIt⟩
    · intro f
      rcases p2 f with ⟨n2, e2⟩ | ⟨q, hq, u2, e2⟩
      · have n2' : ∀ r ∈ rs, ¬ Uses st r f := fun r hr' hu => n2 r hr' ((Uses.congr s1.toSame r f).mpr hu)
        by_cases hu : Uses st (.instance, i) f
        · exact .inr ⟨_, List.mem_cons_self .., hu, e2.trans ((p1 f).1 hu)⟩
        · left
          refine ⟨?_, e2.trans ((p1 f).2 hu)⟩
          intro r hr'
          rcases List.mem_cons.mp hr' with rfl | hr'
          · exact hu
          · exact n2' r hr'
      · exact .inr ⟨q, List.mem_cons_of_mem _ hq, (Uses.congr s1.toSame q f).mp u2, e2⟩

end Clr.Export
