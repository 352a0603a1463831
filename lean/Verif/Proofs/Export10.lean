import Verif.Proofs.Export9
/-
Lemmas about the exporter model: constructors, destructors and containers of the whole export.
-/
namespace Clr.Export
open Clr.DB (hashOf)
attribute [local irreducible] hashOf

/-- The state after the links are made and the tables sorted. -/
def linkedUp (env : Env) (db : DB.Database) : St := linked env (scopesBuilt env db)

/-- The hashes of the scoped names of fields. -/
def pathKeys (env : Env) (db : DB.Database) : List UInt32 :=
  (List.range ((copied db).count .field)).map fun i => hashOf (fieldPath env (copied db) i)

theorem linkedUp_linked {env : Env} {fuel : Nat} {db : DB.Database} (h : Exportable env fuel db) :
    Linked env (scopesBuilt env db) (linkedUp env db) := by
  apply linked_spec env h.sort
  · intro r; exact kidsOf_nodup env _ _ (allSteps_nodup env _) r _
  · intro r; exact copied_ret db r

theorem linkedUp_extra {env : Env} {db : DB.Database} (r : Ref) :
    Extra ((copied db).get r) ((linkedUp env db).get r) := by
  refine (scopesBuilt_extra env db r).trans (linked_extra env _ ?_ ?_ r)
  · intro r; exact kidsOf_nodup env _ _ (allSteps_nodup env _) r _
  · intro r; exact copied_ret db r

theorem addFlags_extra (st : St) (r : Ref) : Extra (st.get r) ((addFlags st).get r) := by
  rw [addFlags_get]
  split
  · exact ⟨rfl, rfl, rfl, rfl, rfl⟩
  · exact Extra.refl _

/-- Constructors, destructors and containers, in terms of the state after linking. -/
structure Extras (env : Env) (db : DB.Database) (L S : St) : Prop where
  ci : ∀ r, (S.get r).ci = lastInfo (pathKeys env db) L (List.range ((copied db).count .container)) r
  readIt : ∀ r, r.1 = .container → Valid (copied db) r →
    (S.get r).readIt = iterPtr env L ((copied db).get r).readIt
  writeIt : ∀ r, r.1 = .container → Valid (copied db) r →
    (S.get r).writeIt = iterPtr env L ((copied db).get r).writeIt
  classes : ∀ r, r.1 = .cls → Valid (copied db) r →
    findMethod L (L.get r) b!"::ConstructObject" = .ok (S.get r).ctor ∧
    findMethod L (L.get r) b!"::DestructObject" = .ok (S.get r).dtor
  instances : ∀ r, r.1 = .instance → Valid (copied db) r →
    (S.get r).ctor = madeBy L b!"::ConstructObject" r ∧
    (S.get r).dtor = madeBy L b!"::DestructObject" r
  others : ∀ r, r.1 ≠ .cls → r.1 ≠ .instance → (S.get r).ctor = none ∧ (S.get r).dtor = none

/-- The parents of functions. -/
def Adopted (db : DB.Database) (L S : St) : Prop :=
  ∀ f, ((∀ i, i < (copied db).count .instance → ¬ Uses L (.instance, i) f) ∧
      (S.get f).parent = (L.get f).parent) ∨
    ∃ i, i < (copied db).count .instance ∧ Uses L (.instance, i) f ∧ (S.get f).parent = .obj (.instance, i)

theorem exportLinks_extras {env : Env} {fuel : Nat} {db : DB.Database} (h : Exportable env fuel db) {S9 : St}
    (hS : exportLinks env db (scopesBuilt env db) = .ok S9) : Extras env db (linkedUp env db) S9 ∧ Adopted db (linkedUp env db) S9 := by
  have hlk := linkedUp_linked h
  have hx4 := fun r => linkedUp_extra (env := env) (db := db) r
  have hcount : (linkedUp env db).count = (copied db).count := hlk.count
  unfold exportLinks at hS
  have hfk : fieldKeys (scopesBuilt env db) ((scopesBuilt env db).count .field) = .ok (pathKeys env db) := by
    unfold pathKeys
    rw [← fieldKeys_spec env (copied db) h.fields _ (Nat.le_refl _)]
    apply fieldKeys_congr
    · intro r; rfl
    · intro i hi
      obtain ⟨r, hr⟩ := h.owned i hi
      have h1 : owner env (copied db) (allSteps env (copied db)) (.field, i) = some r := by
        unfold allSteps owner
        rw [List.findSome?_append]
        unfold owner at hr
        rw [hr]
        rfl
      show ownerPtr env (copied db) (allSteps env (copied db)) (.field, i) =
        ownerPtr env (copied db) (scopeSteps (copied db)) (.field, i)
      unfold ownerPtr
      rw [h1, hr]
  rw [hfk, rbind_ok] at hS
  change ((linkContainers env (pathKeys env db) (List.range ((linkedUp env db).count .container)) (linkedUp env db)).bind _) = _ at hS
  generalize linkedUp env db = L at *
  rw [hcount] at hS
  have hsz4 : L.typePrims.length ≤ 2 ^ 30 := by rw [hlk.types.length_eq]; exact h.typesSize
  obtain ⟨S5, h5, s5, x5⟩ := linkContainers_spec env (pathKeys env db) (List.range ((copied db).count .container)) List.nodup_range L hsz4
  rw [h5, rbind_ok] at hS
  have hb5 : ∀ r, (S5.get r).kids .bases = [] := by
    intro r
    rw [s5.bases]
    have := hlk.kids r .bases
    unfold unsortedKids at this
    rw [if_neg (by intro hh; exact absurd hh.2 (by decide)), scopesBuilt_kids, no_bases_step] at this
    exact List.Perm.eq_nil this
  obtain ⟨S6, h6, s6, p6, f6, b6⟩ := buildBases_ok db S5 (by rw [s5.typePrims]; exact hsz4) hb5
  have x6 := fun r => buildBases_extra h6 r
  rw [h6, rbind_ok] at hS
  have s46 : Same L S6 := s5.toSame.trans s6
  have htext : ∀ r, Valid (copied db) r → (S6.get r).text ≠ none := by
    intro r hv
    rw [s46.text, hlk.text]
    exact h.named r hv
  obtain ⟨S7, h7, s7, x7, o7, k7⟩ := allClassConstructors_spec (S6.all .cls) (nodup_all _ _) S6
    (by
      intro r hr
      have := (mem_all S6 _ r).mp hr
      apply htext
      have hv := this.2
      unfold Valid at hv ⊢
      rw [s46.count, hcount] at hv
      exact hv)
    (by
      intro r hr
      have hr' := (mem_all S6 _ r).mp hr
      rw [s46.kids r _ (by decide), (hlk.kids r .methods).length_eq]
      unfold unsortedKids
      rw [if_neg (by intro hh; exact absurd hh.2 (by decide)), scopesBuilt_kids]
      exact Nat.le_trans (kidsOf_length_le env _ r hr'.1) h.functionsSize)
  rw [h7, rbind_ok] at hS
  have s47 := s46.trans s7.toSame
  obtain ⟨S8, h8, s8, x8, o8, k8, p8⟩ := allInstanceConstructors_spec (S7.all .instance) (nodup_all _ _) S7
    (by intro r hr; exact (mem_all S7 _ r).mp hr)
    (by
      intro r hr
      have hv := ((mem_all S7 _ r).mp hr).2
      rw [s7.text]
      apply htext
      unfold Valid at hv ⊢
      rw [s47.count, hcount] at hv
      exact hv)
  rw [h8, rbind_ok] at hS
  have x9 := fun r => addFlags_extra S8 r
  obtain ⟨s9, p9, b9⟩ := addFlags_same S8
  injection hS with hS
  rw [hS] at x9 p9
  have hex := fun r => copied_extra db r
  have mem6 : ∀ r, r ∈ S6.all .cls ↔ r.1 = .cls ∧ Valid (copied db) r := by
    intro r; rw [mem_all]; unfold Valid; rw [s46.count, hcount]
  have mem7 : ∀ r, r ∈ S7.all .instance ↔ r.1 = .instance ∧ Valid (copied db) r := by
    intro r; rw [mem_all]; unfold Valid; rw [s47.count, hcount]
  have kept : ∀ r, Kept3 (S5.get r) (S9.get r) := by
    intro r
    exact ⟨(x9 r).ci.trans ((k8 r).ci.trans ((k7 r).ci.trans (x6 r).ci)),
      (x9 r).readIt.trans ((k8 r).readIt.trans ((k7 r).readIt.trans (x6 r).readIt)),
      (x9 r).writeIt.trans ((k8 r).writeIt.trans ((k7 r).writeIt.trans (x6 r).writeIt))⟩
  have none6 : ∀ r, (S6.get r).ctor = none ∧ (S6.get r).dtor = none := by
    intro r
    rw [(x6 r).ctor, (x6 r).dtor, (x5 r).1, (x5 r).2.1, (hx4 r).ctor, (hx4 r).dtor]
    exact ⟨(hex r).1, (hex r).2.1⟩
  refine ⟨⟨?_, ?_, ?_, ?_, ?_, ?_⟩, ?_⟩
  · intro r
    rw [(kept r).ci, (x5 r).2.2.1, (hx4 r).ci, (hex r).2.2, Option.or_none]
  · intro r hr hv
    rw [(kept r).readIt, (x5 r).2.2.2.1, if_pos, (hx4 r).readIt]
    refine ⟨hr, List.mem_range.mpr ?_⟩
    unfold Valid at hv; rw [hr] at hv; exact hv
  · intro r hr hv
    rw [(kept r).writeIt, (x5 r).2.2.2.2, if_pos, (hx4 r).writeIt]
    refine ⟨hr, List.mem_range.mpr ?_⟩
    unfold Valid at hv; rw [hr] at hv; exact hv
  · intro r hr hv
    have hn7 : r ∉ S7.all .instance := fun hm => by
      have := ((mem7 r).mp hm).1; rw [hr] at this; cases this
    rw [(x9 r).ctor, (x9 r).dtor, (o8 r hn7).1, (o8 r hn7).2]
    have := x7 r ((mem6 r).mpr ⟨hr, hv⟩)
    rw [findMethod_congr s46, findMethod_congr s46] at this
    exact this
  · intro r hr hv
    have hn6 : r ∉ S6.all .cls := fun hm => by
      have := ((mem6 r).mp hm).1; rw [hr] at this; cases this
    have := x8 r ((mem7 r).mpr ⟨hr, hv⟩)
    rw [(x9 r).ctor, (x9 r).dtor, this.1, this.2, (o7 r hn6).1, (o7 r hn6).2, (none6 r).1, (none6 r).2,
      Option.or_none, Option.or_none, madeBy_congr s47, madeBy_congr s47]
    exact ⟨rfl, rfl⟩
  · intro r hr1 hr2
    have hn6 : r ∉ S6.all .cls := fun hm => hr1 ((mem6 r).mp hm).1
    have hn7 : r ∉ S7.all .instance := fun hm => hr2 ((mem7 r).mp hm).1
    rw [(x9 r).ctor, (x9 r).dtor, (o8 r hn7).1, (o8 r hn7).2, (o7 r hn6).1, (o7 r hn6).2]
    exact none6 r
  · intro f
    rw [p9]
    rcases p8 f with ⟨hn, hp⟩ | ⟨r, hr, hu, hp⟩
    · left
      refine ⟨?_, by rw [hp, s7.parent, p6, s5.parent]⟩
      intro i hi hu
      exact hn (.instance, i) ((mem7 _).mpr ⟨rfl, hi⟩) ((Uses.congr s47 _ _).mpr hu)
    · right
      obtain ⟨k, i⟩ := r
      obtain ⟨hk, hv⟩ := (mem7 _).mp hr
      simp only at hk
      subst hk
      exact ⟨i, hv, (Uses.congr s47 _ _).mp hu, hp⟩

/-! ### Verification and isolation leave them alone -/

theorem verified_extra (env : Env) (st : St) (r : Ref) : Extra (st.get r) ((verified env st).get r) := by
  have h1 : Extra (st.get r) ((assignTargets env st).get r) := by
    unfold assignTargets St.map
    simp only
    split <;> exact ⟨rfl, rfl, rfl, rfl, rfl⟩
  refine h1.trans ?_
  unfold verified
  simp only
  cases r.1 <;> exact ⟨rfl, rfl, rfl, rfl, rfl⟩

theorem exportClean_extra {env : Env} {st F : St} (h : exportClean env st = .ok F) (r : Ref) : Extra (st.get r) (F.get r) := by
  unfold exportClean at h
  cases hv : verify env (assignTargets env st) with
  | trap => rw [hv] at h; cases h
  | ub => rw [hv] at h; cases h
  | ok V =>
    rw [hv, rbind_ok] at h
    have hV : V = verified env st := by
      unfold verify at hv
      split at hv
      · cases hv
      · injection hv with hv; rw [← hv]; rfl
    obtain ⟨h1, h2⟩ := isolateClasses_spec env V (V.all .cls) (nodup_all V _) V (fun r => ⟨rfl, rfl, rfl⟩)
    rw [h1, rbind_ok] at h
    have h3 := isolateSpaces_spec env V (V.all .space) (nodup_all V _) _ h2
    have h4 := h3.symm.trans h
    injection h4 with h4
    subst h4
    have hx := verified_extra env st r
    rw [← hV] at hx
    refine hx.trans ?_
    simp only
    split
    · split <;> exact ⟨rfl, rfl, rfl, rfl, rfl⟩
    · split <;> exact ⟨rfl, rfl, rfl, rfl, rfl⟩

theorem Extras.congr {env : Env} {db : DB.Database} {L a b : St} (h : Extras env db L a) (hx : ∀ r, Extra (a.get r) (b.get r)) :
    Extras env db L b := by
  refine ⟨?_, ?_, ?_, ?_, ?_, ?_⟩
  · intro r; rw [(hx r).ci]; exact h.ci r
  · intro r; rw [(hx r).readIt]; exact h.readIt r
  · intro r; rw [(hx r).writeIt]; exact h.writeIt r
  · intro r; rw [(hx r).ctor, (hx r).dtor]; exact h.classes r
  · intro r; rw [(hx r).ctor, (hx r).dtor]; exact h.instances r
  · intro r; rw [(hx r).ctor, (hx r).dtor]; exact h.others r

/-- Constructors, destructors, containers and the parents of functions in the exported database. -/
theorem export_extras {env : Env} {fuel : Nat} {db : DB.Database} (h : Exportable env fuel db) {F : St}
    (hF : exportDB env fuel db = some (.ok F)) : Extras env db (linkedUp env db) F ∧
      ∀ f, f.1 = .function → Valid (copied db) f →
        ((∀ i, i < (copied db).count .instance → ¬ Uses (linkedUp env db) (.instance, i) f) ∧
          (F.get f).parent = optPtr (scopeFor env db f)) ∨
        ∃ i, i < (copied db).count .instance ∧ Uses (linkedUp env db) (.instance, i) f ∧
          (F.get f).parent = .obj (.instance, i) := by
  obtain ⟨S9, h9, a9⟩ := exportLinks_ok h
  obtain ⟨x9, p9⟩ := exportLinks_extras h h9
  have hlk := linkedUp_linked h
  have hsame : Same (linkedUp env db) S9 := a9.same
  have fin := final_of h hF
  unfold exportDB at hF
  rw [scopesBuilt_spec h, rbind_ok, h9] at hF
  simp only at hF
  cases hi : inheritAll fuel S9 with
  | none => rw [hi] at hF; cases hF
  | some T =>
    rw [hi] at hF
    have hF' : exportClean env T = .ok F := Option.some.inj hF
    have hT : ∃ fl : Ref → BitVec 32, T = { S9 with get := fun r => { S9.get r with flags := fl r } } := by
      unfold inheritAll at hi
      cases hc : inheritClasses S9 fuel (S9.all .cls) (fun r => (S9.get r).flags) with
      | none => rw [hc] at hi; cases hi
      | some fl => rw [hc] at hi; exact ⟨fl, (Option.some.inj hi).symm⟩
    obtain ⟨fl, hT⟩ := hT
    have tx : ∀ r, Extra (S9.get r) (T.get r) := by intro r; rw [hT]; exact ⟨rfl, rfl, rfl, rfl, rfl⟩
    have tp : ∀ r, (T.get r).parent = (S9.get r).parent := by intro r; rw [hT]
    have tk : ∀ r, (T.get r).kids = (S9.get r).kids := by intro r; rw [hT]
    have tn : T.names = nameKeys db := by rw [hT]; exact hsame.names.trans hlk.names
    refine ⟨x9.congr fun r => (tx r).trans (exportClean_extra hF' r), ?_⟩
    intro f hf hv
    have hpar : (F.get f).parent = verifyPtr env T (S9.get f).parent := by
      have hb : ∀ r b, b ∈ (T.get r).kids .bases → env.hash (.obj b) ∉ T.names := by
        intro r b hb
        rw [tn]
        rw [tk, a9.bases, basesFrom_mem] at hb
        obtain ⟨t, ht, hb1, hb2⟩ := hb
        have hsz : S9.typePrims.length ≤ 2 ^ 30 := by
          rw [hsame.typePrims, hlk.types.length_eq]; exact h.typesSize
        have hts : S9.typePrims.Pairwise fun a b => (S9.get a).hash ≤ (S9.get b).hash := by
          rw [hsame.typePrims]
          have := hlk.typesSorted
          simp only [hsame.hash]
          simp only [hlk.hash]
          exact this
        obtain ⟨g1, _⟩ := (lookType_spec S9 hsz hts _).1 b hb1
        apply h.noAlias b
        apply mem_typePrims db b
        rw [hsame.typePrims] at g1
        exact hlk.types.mem_iff.mp g1
      obtain ⟨F', h1, c⟩ := exportClean_ok env T hb
      rw [hF'] at h1
      injection h1 with h1
      subst h1
      rw [(c.other f).2.2.2.2.2.1, verified_parent env T f (by rw [hf]; decide) (by rw [hf]; decide), tp]
    rcases p9 f with ⟨hn, hp⟩ | ⟨i, hi, hu, hp⟩
    · left
      refine ⟨hn, ?_⟩
      rw [hpar, hp, hlk.parent]
      show verifyPtr env T (ownerPtr env (copied db) (allSteps env (copied db)) f) = _
      rw [ownerPtr_ptrOr]
      exact verifyPtr_opt h T tn (scopeFor env db f) _
        (fun r hr => (owner_valid env (copied db) _ f r hr).1) (h.knownParent f hv)
    · right
      refine ⟨i, hi, hu, ?_⟩
      rw [hpar, hp]
      unfold verifyPtr
      rw [tn, if_neg]
      exact h.noAlias (.instance, i) hi

end Clr.Export
