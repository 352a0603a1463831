import Verif.Proofs.Export8
/-
For C85: every pointer the exporter leaves behind is null or leads to an object. An invariant of all steps after the scopes
are built.
-/
namespace Clr.Link
open Clr Clr.Export
open Clr.DB (hashOf)
attribute [local irreducible] hashOf

theorem bok {α β : Type} {x : Res α} {f : α → Res β} {b : β} : x.bind f = .ok b ↔ ∃ a, x = .ok a ∧ f a = .ok b := by
  cases x <;> simp [Res.bind]

/-- The object is in its table. -/
def In (cn : K → Nat) (r : Ref) : Prop := r.2 < cn r.1

/-- The pointer is a number of some kind or leads to an object. -/
def PtrOK (cn : K → Nat) (P : Nat → Prop) : Ptr → Prop
  | .raw n => P n
  | .obj r => In cn r

def Zero (n : Nat) : Prop := n = 0

/-- Null or the hash of a known name. -/
def Pending (nm : List UInt32) (n : Nat) : Prop := n = 0 ∨ UInt32.ofNat n ∈ nm

structure ObjOK (cn : K → Nat) (P : Nat → Prop) (D : Nat → Prop) (r : Ref) (o : Obj) : Prop where
  parent : r.1 ≠ .primAttr → PtrOK cn (if r.1 = .container then Zero else P) o.parent
  type : PtrOK cn (if r.1 = .field then P else Zero) o.type
  args : ∀ x ∈ o.args, PtrOK cn (if r.1 = .instance then P else Zero) x
  target : PtrOK cn (if r.1 = .primAttr then P else Zero) o.target
  readIt : (r.1 = .container → D r.2) → PtrOK cn Zero o.readIt
  writeIt : (r.1 = .container → D r.2) → PtrOK cn Zero o.writeIt
  ret : ∀ x ∈ o.ret, In cn x
  ctor : ∀ x ∈ o.ctor, In cn x
  dtor : ∀ x ∈ o.dtor, In cn x
  ci : ∀ x ∈ o.ci, In cn x
  kids : ∀ s, ∀ x ∈ o.kids s, In cn x

structure Inv (cn : K → Nat) (nm : List UInt32) (P : Nat → Prop) (D : Nat → Prop) (st : St) : Prop where
  count : st.count = cn
  names : st.names = nm
  objects : ∀ r, ObjOK cn P D r (st.get r)
  globals : ∀ s, ∀ x ∈ st.globals s, In cn x
  types : ∀ x ∈ st.typePrims, In cn x

variable {cn : K → Nat} {nm : List UInt32} {P D : Nat → Prop} {st : St}

theorem Inv.all (h : Inv cn nm P D st) {k : K} {x : Ref} (hx : x ∈ st.all k) : In cn x := by
  have := (mem_all st k x).1 hx
  unfold In
  rw [← h.count]
  exact this.2

theorem Inv.withGet (h : Inv cn nm P D st) {D2 : Nat → Prop} {g : Ref → Obj} (hg : ∀ r, ObjOK cn P D2 r (g r)) :
    Inv cn nm P D2 { st with get := g } := ⟨h.count, h.names, hg, h.globals, h.types⟩

theorem Inv.map (h : Inv cn nm P D st) {k : K} {f : Ref → Obj → Obj}
    (hf : ∀ r, r.1 = k → ObjOK cn P D r (f r (st.get r))) : Inv cn nm P D (st.map k f) := by
  refine h.withGet fun r => ?_
  split
  · next e => exact hf r e
  · exact h.objects r

theorem Inv.set (h : Inv cn nm P D st) {r : Ref} {o : Obj} (ho : ObjOK cn P D r o) : Inv cn nm P D (st.set r o) := by
  refine h.withGet fun s => ?_
  split
  · next e => rw [e]; exact ho
  · exact h.objects s

/-! ### Links, return values, globals, sorting -/

theorem link_ok (env : Env) (h : Inv cn nm P D st) {p : Ptr} (hp : PtrOK cn P p) : PtrOK cn P (link env st p) := by
  unfold link
  split
  · next r hr => exact h.types r (List.mem_of_find?_eq_some hr)
  · exact hp

theorem linkAll_ok (env : Env) (h : Inv cn nm P D st) : Inv cn nm P D (linkAll env st) := by
  have h1 : Inv cn nm P D (st.map .field fun _ o => { o with type := link env st o.type }) := by
    refine h.map fun r hr => ?_
    have o := h.objects r
    refine ⟨o.parent, ?_, o.args, o.target, o.readIt, o.writeIt, o.ret, o.ctor, o.dtor, o.ci, o.kids⟩
    have := o.type
    rw [if_pos hr] at this ⊢
    exact link_ok env h this
  unfold linkAll
  refine h1.map fun r hr => ?_
  have o := h1.objects r
  refine ⟨o.parent, o.type, ?_, o.target, o.readIt, o.writeIt, o.ret, o.ctor, o.dtor, o.ci, o.kids⟩
  have h2 := o.args
  intro x hx
  obtain ⟨y, hy, rfl⟩ := List.mem_map.1 hx
  have h3 := h2 y hy
  rw [if_pos hr] at h3 ⊢
  exact link_ok env h h3

theorem unstableRemove_mem {α : Type} {a b : CArray.Arr α} {i : Nat} (h : CArray.unstableRemove a i = .ok b) :
    ∀ x ∈ b.elems, x ∈ a.data := by
  unfold CArray.unstableRemove at h
  split at h
  · split at h
    · next y hy =>
      injection h with h
      subst h
      intro x hx
      rcases List.mem_or_eq_of_mem_set (List.mem_of_mem_take hx) with h | rfl
      · exact h
      · exact List.mem_of_getElem? hy
    · cases h
  · cases h

theorem assignReturn_ok {r : Ref} {o : Obj} (ho : ObjOK cn P D r o) : ObjOK cn P D r (assignReturn st o) := by
  unfold assignReturn
  split
  · exact ho
  · next i hi =>
    split
    · next a ha =>
      refine ⟨ho.parent, ho.type, ho.args, ho.target, ho.readIt, ho.writeIt, ?_, ho.ctor, ho.dtor, ho.ci, ?_⟩
      · intro x hx
        exact ho.kids .parameters x (List.mem_of_getElem? hx)
      · intro s x hx
        unfold Obj.setKids at hx
        simp only at hx
        split at hx
        · exact ho.kids .parameters x (unstableRemove_mem ha x hx)
        · exact ho.kids s x hx
    · exact ho

theorem buildGlobals_ok (env : Env) (h : Inv cn nm P D st) : Inv cn nm P D (buildGlobals env st) := by
  refine ⟨h.count, h.names, h.objects, ?_, h.types⟩
  intro s x hx
  unfold buildGlobals unparented at hx
  simp only at hx
  split at hx <;> first | exact h.all (List.mem_filter.1 hx).1 | exact h.globals _ x hx

theorem sortAll_ok {env : Env} (hs : ∀ (key : Ref → UInt32) (l : List Ref), (env.sort key l).Perm l)
    (h : Inv cn nm P D st) : Inv cn nm P D (sortAll env st) := by
  refine ⟨h.count, h.names, ?_, h.globals, ?_⟩
  · intro r
    have o := h.objects r
    refine ⟨o.parent, o.type, o.args, o.target, o.readIt, o.writeIt, o.ret, o.ctor, o.dtor, o.ci, ?_⟩
    intro s x hx
    unfold sortAll sortRefs at hx
    simp only at hx
    split at hx
    · exact o.kids s x ((hs _ _).mem_iff.1 hx)
    · exact o.kids s x hx
  · intro x hx
    unfold sortAll sortRefs at hx
    exact h.types x ((hs _ _).mem_iff.1 hx)

/-! ### Containers -/

theorem find_mem {α : Type} {es : List α} {key : α → UInt32} {n : UInt32} {e : α}
    (h : Search.find es key n = .ok (some e)) : e ∈ es := by
  unfold Search.find at h
  have h : (Search.binarySearch es key n).bind (fun i => if i = -1 then (.ok none : Res (Option α)) else
      (Search.at' es i).bind fun e => .ok (some e)) = .ok (some e) := h
  rw [bok] at h
  obtain ⟨i, _, h⟩ := h
  split at h
  · cases h
  · rw [bok] at h
    obtain ⟨x, hx, h⟩ := h
    injection h with h
    injection h with h
    subst h
    unfold Search.at' at hx
    split at hx
    · next hy =>
      injection hx with hx
      subst hx
      exact List.mem_of_getElem? hy
    · cases hx

theorem linkIterator_ok {env : Env} (h : Inv cn nm P D st) {p q : Ptr} (hq : linkIterator env st p = .ok q) :
    PtrOK cn Zero q := by
  unfold linkIterator at hq
  split at hq
  · injection hq with hq; subst hq; rfl
  · split at hq
    · rw [bok] at hq
      obtain ⟨o, ho, hq⟩ := hq
      cases o with
      | none => injection hq with hq; subst hq; rfl
      | some r => injection hq with hq; subst hq; exact h.types r (find_mem ho)
    · injection hq with hq; subst hq; rfl

theorem withCi {r : Ref} {o : Obj} (ho : ObjOK cn P D r o) {i : Nat} (hi : i < cn .container) :
    ObjOK cn P D r { o with ci := some (.container, i) } := by
  refine ⟨ho.parent, ho.type, ho.args, ho.target, ho.readIt, ho.writeIt, ho.ret, ho.ctor, ho.dtor, ?_, ho.kids⟩
  intro x hx
  injection hx with hx
  subst hx
  exact hi

theorem attach_ok (fks : List UInt32) (h : Inv cn nm P D st) {i : Nat} (hi : i < cn .container) (t : Option Ref) :
    Inv cn nm P D (attach fks st i t) := by
  unfold attach
  cases t with
  | some t => exact h.set (withCi (h.objects t) hi)
  | none =>
    simp only
    split
    · refine h.withGet fun r => ?_
      split
      · exact withCi (h.objects r) hi
      · exact h.objects r
    · split
      · exact h.set (withCi (h.objects _) hi)
      · exact h

theorem linkContainer_ok {env : Env} {fks : List UInt32} (h : Inv cn nm P D st) {i : Nat} (hi : i < cn .container) {st' : St}
    (hr : linkContainer env fks st i = .ok st') : Inv cn nm P (fun j => j = i ∨ D j) st' := by
  unfold linkContainer at hr
  rw [bok] at hr
  obtain ⟨rd, h1, hr⟩ := hr
  rw [bok] at hr
  obtain ⟨wr, h2, hr⟩ := hr
  rw [bok] at hr
  obtain ⟨t, _, hr⟩ := hr
  injection hr with hr
  subst hr
  refine attach_ok fks ?_ hi t
  refine h.withGet fun s => ?_
  split
  · next e =>
    subst e
    have o := h.objects (.container, i)
    exact ⟨o.parent, o.type, o.args, o.target, fun _ => linkIterator_ok h h1, fun _ => linkIterator_ok h h2, o.ret, o.ctor,
      o.dtor, o.ci, o.kids⟩
  · next hne =>
    have o := h.objects s
    have hD : (s.1 = .container → s.2 = i ∨ D s.2) → (s.1 = .container → D s.2) := by
      intro h hs
      rcases h hs with e | h
      · exact absurd (show s = (.container, i) by rw [← hs, ← e]) hne
      · exact h
    exact ⟨o.parent, o.type, o.args, o.target, fun hd => o.readIt (hD hd), fun hd => o.writeIt (hD hd), o.ret, o.ctor,
      o.dtor, o.ci, o.kids⟩

theorem linkContainers_ok {env : Env} {fks : List UInt32} {is : List Nat} {st' : St} (h : Inv cn nm P D st)
    (hi : ∀ i ∈ is, i < cn .container) (hr : linkContainers env fks is st = .ok st') :
    Inv cn nm P (fun j => j ∈ is ∨ D j) st' := by
  induction is generalizing st D with
  | nil =>
    injection hr with hr
    subst hr
    have : (fun j => j ∈ ([] : List Nat) ∨ D j) = D := by funext j; simp
    rw [this]
    exact h
  | cons i is ih =>
    rw [linkContainers, bok] at hr
    obtain ⟨s1, h1, hr⟩ := hr
    have := ih (linkContainer_ok h (hi i (by simp)) h1) (fun j hj => hi j (by simp [hj])) hr
    have e : (fun j => j ∈ is ∨ (j = i ∨ D j)) = fun j => j ∈ i :: is ∨ D j := by
      funext j
      simp only [List.mem_cons, eq_iff_iff]
      constructor
      · rintro (h | h | h) <;> simp [h]
      · rintro ((h | h) | h) <;> simp [h]
    rw [← e]
    exact this

/-! ### Base types and constructors -/

theorem collectBases_ok (h : Inv cn nm P D st) {ts : List DB.TypeInheritance} {m m' : Ref → List Ref}
    (hm : ∀ r, ∀ x ∈ m r, In cn x) (hr : collectBases st ts m = .ok m') : ∀ r, ∀ x ∈ m' r, In cn x := by
  induction ts generalizing m with
  | nil => injection hr with hr; subst hr; exact hm
  | cons t ts ih =>
    rw [collectBases, bok] at hr
    obtain ⟨b, hb, hr⟩ := hr
    cases b with
    | none => exact ih hm hr
    | some b =>
      simp only at hr
      rw [bok] at hr
      obtain ⟨d, hd, hr⟩ := hr
      cases d with
      | none => exact ih hm hr
      | some d =>
        refine ih ?_ hr
        intro r x hx
        split at hx
        · rcases List.mem_append.1 hx with hx | hx
          · exact hm d x hx
          · rw [List.mem_singleton.1 hx]
            exact h.types b (find_mem hb)
        · exact hm r x hx

theorem buildBases_ok {db : DB.Database} (h : Inv cn nm P D st) {st' : St} (hr : buildBases db st = .ok st') :
    Inv cn nm P D st' := by
  unfold buildBases at hr
  rw [bok] at hr
  obtain ⟨m, hm, hr⟩ := hr
  injection hr with hr
  subst hr
  refine h.withGet fun r => ?_
  split
  · exact h.objects r
  · have o := h.objects r
    refine ⟨o.parent, o.type, o.args, o.target, o.readIt, o.writeIt, o.ret, o.ctor, o.dtor, o.ci, ?_⟩
    intro s x hx
    unfold Obj.setKids at hx
    simp only at hx
    split at hx
    · exact collectBases_ok h (by simp) hm r x hx
    · exact o.kids s x hx

theorem findMethod_ok {r : Ref} {o : Obj} (ho : ObjOK cn P D r o) {suffix : Bytes} {x : Option Ref}
    (hr : findMethod st o suffix = .ok x) : ∀ y ∈ x, In cn y := by
  intro y hy
  cases hy
  unfold findMethod at hr
  split at hr
  · exact ho.kids .methods y (find_mem hr)
  · cases hr

theorem forAll_ok {f : St → Ref → Res St} (hf : ∀ st, Inv cn nm P D st → ∀ r st', f st r = .ok st' → Inv cn nm P D st')
    {rs : List Ref} {st' : St} (h : Inv cn nm P D st) (hr : forAll f rs st = .ok st') : Inv cn nm P D st' := by
  induction rs generalizing st with
  | nil => injection hr with hr; subst hr; exact h
  | cons r rs ih =>
    rw [forAll, bok] at hr
    obtain ⟨s1, h1, hr⟩ := hr
    exact ih (hf st h r s1 h1) hr

theorem classConstructors_ok (h : Inv cn nm P D st) (r : Ref) (st' : St) (hr : classConstructors st r = .ok st') :
    Inv cn nm P D st' := by
  unfold classConstructors at hr
  rw [bok] at hr
  obtain ⟨c, hc, hr⟩ := hr
  rw [bok] at hr
  obtain ⟨d, hd, hr⟩ := hr
  injection hr with hr
  subst hr
  have o := h.objects r
  exact h.set ⟨o.parent, o.type, o.args, o.target, o.readIt, o.writeIt, o.ret, findMethod_ok o hc, findMethod_ok o hd, o.ci,
    o.kids⟩

theorem adopt_ok (h : Inv cn nm P D st) (f : Option Ref) (hf : ∀ x ∈ f, x.1 = .function) {r : Ref} (hr : In cn r) :
    Inv cn nm P D (adopt st f r) := by
  unfold adopt
  cases f with
  | none => exact h
  | some f =>
    have o := h.objects f
    exact h.set ⟨fun _ => hr, o.type, o.args, o.target, o.readIt, o.writeIt, o.ret, o.ctor, o.dtor, o.ci, o.kids⟩

theorem firstFunction_ok (h : Inv cn nm P D st) {n : UInt32} {x : Ref} (hx : x ∈ firstFunction st n) :
    In cn x ∧ x.1 = .function := by
  unfold firstFunction at hx
  have := List.mem_of_find?_eq_some hx
  exact ⟨h.all this, ((mem_all _ _ _).1 this).1⟩

theorem instanceConstructors_ok (h : Inv cn nm P D st) {r : Ref} (hv : In cn r) {st' : St}
    (hr : instanceConstructors st r = .ok st') : Inv cn nm P D st' := by
  unfold instanceConstructors at hr
  split at hr
  · cases hr
  · next t ht =>
    injection hr with hr
    subst hr
    have o := h.objects r
    refine adopt_ok (adopt_ok ?_ _ (fun x hx => (firstFunction_ok h hx).2) hv) _ (fun x hx => (firstFunction_ok h hx).2) hv
    refine h.set ⟨o.parent, o.type, o.args, o.target, o.readIt, o.writeIt, o.ret, ?_, ?_, o.ci, o.kids⟩
    · intro x hx
      cases hc : firstFunction st (hashOf (t ++ b!"::ConstructObject")) with
      | none => rw [hc] at hx; exact o.ctor x hx
      | some y => rw [hc] at hx; cases hx; exact (firstFunction_ok h hc).1
    · intro x hx
      cases hc : firstFunction st (hashOf (t ++ b!"::DestructObject")) with
      | none => rw [hc] at hx; exact o.dtor x hx
      | some y => rw [hc] at hx; cases hx; exact (firstFunction_ok h hc).1

theorem instances_ok {rs : List Ref} {st' : St} (h : Inv cn nm P D st) (hv : ∀ r ∈ rs, In cn r)
    (hr : forAll instanceConstructors rs st = .ok st') : Inv cn nm P D st' := by
  induction rs generalizing st with
  | nil => injection hr with hr; subst hr; exact h
  | cons r rs ih =>
    rw [forAll, bok] at hr
    obtain ⟨s1, h1, hr⟩ := hr
    exact ih (instanceConstructors_ok h (hv r (by simp)) h1) (fun x hx => hv x (by simp [hx])) hr

/-! ### Flags -/

theorem withFlags {r : Ref} {o : Obj} (ho : ObjOK cn P D r o) (f : BitVec 32) : ObjOK cn P D r { o with flags := f } :=
  ⟨ho.parent, ho.type, ho.args, ho.target, ho.readIt, ho.writeIt, ho.ret, ho.ctor, ho.dtor, ho.ci, ho.kids⟩

theorem addFlags_ok (h : Inv cn nm P D st) : Inv cn nm P D (addFlags st) := by
  unfold addFlags
  refine Inv.map (Inv.map (Inv.map (Inv.map h ?_) ?_) ?_) ?_
  all_goals
    intro r _
    refine withFlags ?_ _
  · exact h.objects r
  · exact (Inv.map h fun r _ => withFlags (h.objects r) _).objects r
  · exact (Inv.map (Inv.map h fun r _ => withFlags (h.objects r) _) fun r _ => withFlags
      ((Inv.map h fun r _ => withFlags (h.objects r) _).objects r) _).objects r
  · exact (Inv.map (Inv.map (Inv.map h fun r _ => withFlags (h.objects r) _) fun r _ => withFlags
      ((Inv.map h fun r _ => withFlags (h.objects r) _).objects r) _) fun r _ => withFlags ((Inv.map (Inv.map h fun r _ =>
      withFlags (h.objects r) _) fun r _ => withFlags ((Inv.map h fun r _ => withFlags (h.objects r) _).objects r) _).objects r)
      _).objects r

theorem inheritAll_ok {fuel : Nat} (h : Inv cn nm P D st) {st' : St} (hr : inheritAll fuel st = some st') :
    Inv cn nm P D st' := by
  unfold inheritAll at hr
  rw [Option.map_eq_some_iff] at hr
  obtain ⟨f, _, rfl⟩ := hr
  exact h.withGet fun r => withFlags (h.objects r) _

/-! ### Cleaning up -/

theorem assignTargets_ok (env : Env) (h : Inv cn nm P D st) : Inv cn nm P D (assignTargets env st) := by
  unfold assignTargets
  refine h.map fun r hr => ?_
  have o := h.objects r
  refine ⟨o.parent, o.type, o.args, ?_, o.readIt, o.writeIt, o.ret, o.ctor, o.dtor, o.ci, o.kids⟩
  have ht := o.target
  rw [if_pos hr] at ht ⊢
  simp only
  split
  · next x hx =>
    have := List.mem_of_find?_eq_some hx
    rw [List.mem_reverse, List.mem_append] at this
    rcases this with h1 | h1
    · exact h.types x h1
    · exact h.all h1
  · exact ht

theorem verifyPtr_ok (env : Env) (hn : st.names = nm) {p : Ptr} (hp : PtrOK cn (Pending nm) p) :
    PtrOK cn Zero (verifyPtr env st p) := by
  unfold verifyPtr
  rw [hn]
  split
  · rfl
  · next hne =>
    cases p with
    | obj r => exact hp
    | raw n =>
      rcases hp with rfl | hp
      · rfl
      · exact absurd hp hne

theorem verify_ok {env : Env} (h : Inv cn nm (Pending nm) D st) {st' : St} (hr : verify env st = .ok st') :
    Inv cn nm Zero D st' := by
  unfold verify at hr
  split at hr
  · cases hr
  · injection hr with hr
    subst hr
    refine ⟨h.count, h.names, ?_, h.globals, h.types⟩
    intro r
    have o := h.objects r
    obtain ⟨k, i⟩ := r
    have v := fun {p : Ptr} (hp : PtrOK cn (Pending nm) p) => verifyPtr_ok (cn := cn) env h.names hp
    have hp := o.parent
    have ht := o.type
    have ha := o.args
    have hg := o.target
    have hm : k = .instance → ∀ x ∈ ((st.get (k, i)).args.map (verifyPtr env st)), PtrOK cn Zero x := by
      intro e x hx
      obtain ⟨y, hy, rfl⟩ := List.mem_map.1 hx
      have := ha y hy
      rw [if_pos e] at this
      exact v this
    cases k <;> simp only [verifyObj, reduceCtorEq, if_false, if_true, ne_eq, not_true, not_false_eq_true,
      forall_const, false_implies] at hp ht ha hg hm ⊢
    all_goals
      refine ⟨?_, ?_, ?_, ?_, o.readIt, o.writeIt, o.ret, o.ctor, o.dtor, o.ci, o.kids⟩
    all_goals simp only [reduceCtorEq, if_false, if_true, ne_eq, not_true, not_false_eq_true, forall_const, false_implies, ite_self]
    all_goals first
      | exact hp
      | exact v hp
      | exact ht
      | exact v ht
      | exact ha
      | exact hm
      | exact hg
      | exact v hg

theorem isolateSlot_ok {bad : Ref → Bool} {s : Slot} {r : Ref} {o o' : Obj} (ho : ObjOK cn P D r o)
    (hr : isolateSlot bad s o = .ok o') : ObjOK cn P D r o' := by
  unfold isolateSlot at hr
  rw [bok] at hr
  obtain ⟨a, ha, hr⟩ := hr
  injection hr with hr
  subst hr
  obtain ⟨a', h1, h2⟩ := removeLoop_spec bad (o.kids s).length ⟨o.kids s, (o.kids s).length⟩ 0 (Nat.le_of_eq rfl) (Nat.zero_le _)
    (Nat.le_refl _)
  rw [ha] at h1
  injection h1 with h1
  subst h1
  refine ⟨ho.parent, ho.type, ho.args, ho.target, ho.readIt, ho.writeIt, ho.ret, ho.ctor, ho.dtor, ho.ci, ?_⟩
  intro t x hx
  unfold Obj.setKids at hx
  simp only at hx
  split at hx
  · rw [h2] at hx
    simp only [List.take_zero, List.nil_append, List.drop_zero] at hx
    exact ho.kids s x (List.mem_of_mem_take (List.mem_filter.1 hx).1)
  · exact ho.kids t x hx

theorem isolateClass_ok {env : Env} (h : Inv cn nm P D st) (r : Ref) (st' : St) (hr : isolateClass env st r = .ok st') :
    Inv cn nm P D st' := by
  unfold isolateClass at hr
  rw [bok] at hr
  obtain ⟨o1, h1, hr⟩ := hr
  rw [bok] at hr
  obtain ⟨o2, h2, hr⟩ := hr
  injection hr with hr
  subst hr
  exact h.set (isolateSlot_ok (isolateSlot_ok (h.objects r) h1) h2)

theorem isolateSpace_ok {env : Env} (h : Inv cn nm P D st) (r : Ref) (st' : St) (hr : isolateSpace env st r = .ok st') :
    Inv cn nm P D st' := by
  unfold isolateSpace at hr
  rw [bok] at hr
  obtain ⟨o1, h1, hr⟩ := hr
  injection hr with hr
  subst hr
  exact h.set (isolateSlot_ok (h.objects r) h1)

theorem exportClean_ok {env : Env} (h : Inv cn nm (Pending nm) D st) {F : St} (hr : exportClean env st = .ok F) :
    Inv cn nm Zero D F := by
  unfold exportClean at hr
  rw [bok] at hr
  obtain ⟨s1, h1, hr⟩ := hr
  rw [bok] at hr
  obtain ⟨s2, h2, hr⟩ := hr
  have i1 := verify_ok (assignTargets_ok env h) h1
  have i2 := forAll_ok (fun st hs r st' => isolateClass_ok hs r st') i1 h2
  exact forAll_ok (fun st hs r st' => isolateSpace_ok hs r st') i2 hr

theorem exportLinks_ok {env : Env} {db : DB.Database} (hs : ∀ (key : Ref → UInt32) (l : List Ref), (env.sort key l).Perm l)
    (h : Inv cn nm P (fun _ => False) st) {st' : St} (hr : exportLinks env db st = .ok st') :
    Inv cn nm P (fun i => i < cn .container) st' := by
  unfold exportLinks at hr
  rw [bok] at hr
  obtain ⟨fks, _, hr⟩ := hr
  simp only at hr
  rw [bok] at hr
  obtain ⟨s1, h1, hr⟩ := hr
  rw [bok] at hr
  obtain ⟨s2, h2, hr⟩ := hr
  rw [bok] at hr
  obtain ⟨s3, h3, hr⟩ := hr
  rw [bok] at hr
  obtain ⟨s4, h4, hr⟩ := hr
  injection hr with hr
  subst hr
  have i0 := linkAll_ok env h
  have ir : Inv cn nm P (fun _ => False) ((linkAll env st).map .function fun _ o => assignReturn (linkAll env st) o) :=
    i0.map fun r _ => assignReturn_ok (i0.objects r)
  have ig := sortAll_ok hs (buildGlobals_ok env ir)
  have i1 := linkContainers_ok ig (by
    intro i hi
    rw [List.mem_range] at hi
    rw [← ig.count]
    exact hi) h1
  have e : (fun j => j ∈ List.range ((sortAll env (buildGlobals env ((linkAll env st).map .function
      fun _ o => assignReturn (linkAll env st) o))).count .container) ∨ False) = fun i => i < cn .container := by
    funext j
    rw [ig.count]
    simp
  rw [e] at i1
  have i2 := buildBases_ok i1 h2
  have i3 := forAll_ok (fun st hs r st' => classConstructors_ok hs r st') i2 h3
  exact addFlags_ok (instances_ok i3 (fun r hr => i3.all hr) h4)

end Clr.Link
