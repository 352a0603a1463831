import Verif.Proofs.ScanUnitUsed
/-!
What a run over declarations leaves in the database.
-/
namespace Clr.ScanUnit
open Clr.ScanTypes

/-! ### What can be recorded -/

theorem makeFunction_can {env : Env} (he : WellNamedEnv env) (fuel : Nat) (fd : FnDecl) (pre : List Field) (db : Db)
    (hr : Supported env fuel (callResult fd.result)) (hp : ∀ p ∈ fd.params, Supported env fuel p.type) :
    ∃ db', makeFunction env (parseInst env fuel) fd pre db = .ok () db' := by
  have hs := fun id hc db => parseInst_can he fuel id hc fuel (Nat.le_refl _) db
  unfold makeFunction
  split
  · exact ⟨_, rfl⟩
  · obtain ⟨f, d1, h1⟩ := makeField_can he.declared hs _ hr b!"return" fd.name (-1) db
    obtain ⟨fs, d2, h2⟩ := paramLoop_can he.declared hs fd.name fd.params hp pre.length pre d1
    rw [h1]
    dsimp only [Out.bind]
    rw [h2]
    exact ⟨_, rfl⟩

theorem own_can {env : Env} (he : WellNamedEnv env) (fuel : Nat) (i : Item) (hw : WellItem i) (hc : CanBe env fuel i) (p : Bytes) (d : Data) :
    ∃ d1, own env fuel i p d = some (d1, true) := by
  have hs := fun id hc db => parseInst_can he fuel id hc fuel (Nat.le_refl _) db
  obtain ⟨name, what, invalid, attrs⟩ := i
  cases what with
  | «namespace» => exact ⟨_, rfl⟩
  | cls isClass definition freeStanding anonymous vbases bases size =>
    simp only [CanBe] at hc
    simp only [own]
    cases definition with
    | false =>
      simp only [Bool.false_eq_true, if_false] at hc
      subst hc
      cases anonymous <;> exact ⟨_, rfl⟩
    | true =>
      simp only [if_true] at hc
      obtain ⟨db, hb⟩ := baseLoop_can he.declared hs name bases hw hc.2 d.db
      simp only [Bool.not_true, Bool.false_and, Bool.false_eq_true, if_false, Bool.true_and, decide_eq_true_eq, if_true]
      rw [if_neg (by simpa using hc.1), classBases_eq, hb]
      cases anonymous <;> exact ⟨_, rfl⟩
  | enum tag constants => exact ⟨_, rfl⟩
  | function first result params =>
    obtain ⟨rfl, h1, h2⟩ := hc
    obtain ⟨db, hm⟩ := makeFunction_can he fuel { name := name, parent := p, first := true, result := result, params := params } [] d.db h1 h2
    simp only [own]
    rw [hm]
    exact ⟨_, rfl⟩
  | method isOperator thisType first result params =>
    obtain ⟨rfl, rfl, h0, h1, h2⟩ := hc
    simp only [own, addMethod]
    cases thisType with
    | none =>
      obtain ⟨db, hm⟩ := makeFunction_can he fuel { name := name, parent := p, first := true, result := result, params := params } [] d.db h1 h2
      simp only [Bool.false_eq_true, if_false]
      rw [hm]
      exact ⟨_, rfl⟩
    | some t =>
      obtain ⟨f, d1, hf⟩ := makeField_can he.declared hs t (h0 t rfl) b!"this" name 0 d.db
      obtain ⟨db, hm⟩ := makeFunction_can he fuel { name := name, parent := p, first := true, result := result, params := params } [f] d1 h1 h2
      simp only [Bool.false_eq_true, if_false]
      rw [hf]
      dsimp only [Out.bind]
      rw [hm]
      exact ⟨_, rfl⟩
  | field holder fname t bits =>
    obtain ⟨rfl, h1⟩ := hc
    obtain ⟨f, d1, hf⟩ := makeField_can he.declared hs t h1 fname p ((bits / 8 : Nat) : Int) d.db
    simp only [own, Bool.false_eq_true, if_false]
    rw [hf]
    exact ⟨_, rfl⟩
  | template params forward =>
    have hc : params ≤ 4 := hc
    simp only [own]
    exact ⟨_, by rw [decide_eq_true hc]⟩
  | other => exact ⟨_, rfl⟩

theorem labelled_can {env : Env} (he : WellNamedEnv env) (fuel : Nat) (x : Marked) (hw : WellItem x.1) (h : Labelled env fuel x)
    (hc : CanBe env fuel x.1) : x.2 = true := by
  rcases h with ⟨p, d, d1, h⟩ | ⟨h, _⟩
  · obtain ⟨d2, h2⟩ := own_can he fuel x.1 hw hc p d
    rw [h2] at h
    injection h with h
    injection h with _ h
    exact h.symm
  · obtain ⟨d2, h2⟩ := own_can he fuel x.1 hw hc [] {}
    rw [h2] at h
    cases h

theorem labelled_may {env : Env} (he : WellNamedEnv env) (fuel : Nat) (x : Marked) (hw : WellItem x.1) (h : Labelled env fuel x)
    (hx : x.2 = true) : MayBe env x.1 := by
  rcases h with ⟨p, d, d1, h⟩ | ⟨_, h⟩
  · exact (own_effect he fuel x.1 p d d1 x.2 hw h).may hx
  · rw [h] at hx
    cases hx

/-! ### The first of each name -/

theorem push_none {α : Type} (name : α → Bytes) (l : List α) : push name l none = l := rfl

theorem firsts_concat {α : Type} (name : α → Bytes) (l : List α) (x : α) : firsts name (l ++ [x]) = push name (firsts name l) (some x) := by
  induction l with
  | nil => rfl
  | cons y l ih =>
    rw [List.cons_append, firsts, firsts, ih]
    unfold push
    dsimp only
    by_cases hy : name y = name x
    · have h1 : ((y :: (firsts name l).filter fun z => decide (name z ≠ name y)).any fun z => name z == name x) = true := by
        rw [List.any_cons]
        simp [hy]
      rw [if_pos h1]
      split
      · rfl
      · rw [List.filter_append]
        simp [hy]
    · have h1 : ((y :: (firsts name l).filter fun z => decide (name z ≠ name y)).any fun z => name z == name x) =
          (firsts name l).any fun z => name z == name x := by
        rw [List.any_cons, show (name y == name x) = false by simpa using hy, Bool.false_or, Bool.eq_iff_iff]
        simp only [List.any_eq_true, List.mem_filter, decide_eq_true_eq, beq_iff_eq]
        constructor
        · rintro ⟨z, ⟨h1, _⟩, h3⟩
          exact ⟨z, h1, h3⟩
        · rintro ⟨z, h1, h3⟩
          exact ⟨z, ⟨h1, by rw [h3]; exact fun e => hy e.symm⟩, h3⟩
      rw [h1]
      split
      · rfl
      · rw [List.filter_append, List.filter_cons_of_pos (by simpa using fun e => hy e.symm), List.filter_nil, List.cons_append]

theorem firsts_push {α : Type} (name : α → Bytes) (l : List α) (o : Option α) :
    firsts name (l ++ o.toList) = push name (firsts name l) o := by
  cases o with
  | none => simp [push]
  | some x => exact firsts_concat name l x

theorem firsts_names {α : Type} (name : α → Bytes) (l : List α) (n : Bytes) :
    (∃ y ∈ firsts name l, name y = n) ↔ ∃ y ∈ l, name y = n := by
  induction l with
  | nil => simp [firsts]
  | cons x l ih =>
    rw [firsts]
    constructor
    · rintro ⟨y, hy, e⟩
      rcases List.mem_cons.1 hy with rfl | hy
      · exact ⟨y, List.mem_cons_self, e⟩
      · obtain ⟨z, hz, e⟩ := ih.1 ⟨y, (List.mem_filter.1 hy).1, e⟩
        exact ⟨z, List.mem_cons_of_mem _ hz, e⟩
    · rintro ⟨y, hy, e⟩
      by_cases hx : name x = n
      · exact ⟨x, List.mem_cons_self, hx⟩
      · rcases List.mem_cons.1 hy with rfl | hy
        · exact absurd e hx
        · obtain ⟨z, hz, e⟩ := ih.2 ⟨y, hy, e⟩
          exact ⟨z, List.mem_cons_of_mem _ (List.mem_filter.2 ⟨hz, by rw [e]; simpa using fun h => hx h.symm⟩), e⟩

theorem firsts_nodup {α : Type} (name : α → Bytes) (l : List α) : ((firsts name l).map name).Nodup := by
  induction l with
  | nil => simp [firsts]
  | cons x l ih =>
    rw [firsts, List.map_cons, List.nodup_cons]
    constructor
    · intro h
      obtain ⟨y, hy, e⟩ := List.mem_map.1 h
      have := (List.mem_filter.1 hy).2
      simp [e] at this
    · exact ih.sublist ((List.filter_sublist).map name)

/-! ### Classes -/

/-- What is known of a class but its size. -/
def known (c : Cls) : Bytes × Bytes × Bool := (c.name, c.parent, c.isClass)

theorem setSize_known (n : Bytes) (z : Nat) (l : List Cls) : (setSize n z l).map known = l.map known := by
  induction l with
  | nil => rfl
  | cons c l ih =>
    rw [setSize]
    split
    · rfl
    · rw [List.map_cons, ih, List.map_cons]

theorem setSize_mem (n : Bytes) (z : Nat) (l : List Cls) (hn : (l.map Cls.name).Nodup) (c : Cls) (hc : c ∈ setSize n z l) :
    (c.name = n ∧ c.size = z) ∨ (c.name ≠ n ∧ c ∈ l) := by
  induction l with
  | nil => exact absurd hc List.not_mem_nil
  | cons y l ih =>
    rw [List.map_cons, List.nodup_cons] at hn
    rw [setSize] at hc
    split at hc
    · rename_i hy
      rcases List.mem_cons.1 hc with rfl | hc
      · exact .inl ⟨hy, rfl⟩
      · refine .inr ⟨fun e => hn.1 ?_, List.mem_cons_of_mem _ hc⟩
        rw [hy, ← e]
        exact List.mem_map.2 ⟨c, hc, rfl⟩
    · rename_i hy
      rcases List.mem_cons.1 hc with rfl | hc
      · exact .inr ⟨hy, List.mem_cons_self⟩
      · rcases ih hn.2 hc with h | ⟨h1, h2⟩
        · exact .inl h
        · exact .inr ⟨h1, List.mem_cons_of_mem _ h2⟩

theorem push_known (l : List Cls) (c : Cls) : (push Cls.name l (some c)).map known = push Prod.fst (l.map known) (some (known c)) := by
  unfold push
  dsimp only
  rw [List.any_map]
  have : ((fun y : Bytes × Bytes × Bool => y.1 == (known c).1) ∘ known) = fun y => y.name == c.name := rfl
  rw [this]
  split
  · rfl
  · rw [List.map_append]; rfl

theorem known_names (l : List Cls) : (l.map known).map Prod.fst = l.map Cls.name := by
  rw [List.map_map]; rfl

theorem clsStep_known (p : Bytes) (x : Marked) (l : List Cls) :
    (clsStep p x l).map known = push Prod.fst (l.map known) (if x.2 then classOf (p, x.1) else none) := by
  obtain ⟨⟨name, what, invalid, attrs⟩, b⟩ := x
  unfold clsStep
  cases b with
  | false => rfl
  | true =>
    simp only [if_true]
    cases what with
    | cls isClass definition freeStanding anonymous vbases bases size =>
      cases anonymous with
      | true => rfl
      | false =>
        cases definition with
        | false => exact push_known l _
        | true =>
          show (setSize name size (push Cls.name l _)).map known = _
          rw [setSize_known, push_known]
          rfl
    | _ => rfl

/-! ### The declarations one after the other -/

/-- Those recorded. -/
def recs (l : List (Bytes × Marked)) : List (Bytes × Item) := (l.filter fun x => x.2.2).map fun x => (x.1, x.2.1)

theorem recs_concat (l : List (Bytes × Marked)) (p : Bytes) (x : Marked) :
    recs (l ++ [(p, x)]) = recs l ++ if x.2 then [(p, x.1)] else [] := by
  unfold recs
  rw [List.filter_append, List.map_append]
  congr 1
  cases hx : x.2 <;> simp [hx]

theorem recs_of (l : List (Bytes × Marked)) (y : Bytes × Item) (h : y ∈ recs l) : (y.1, (y.2, true)) ∈ l := by
  unfold recs at h
  obtain ⟨x, hx, rfl⟩ := List.mem_map.1 h
  obtain ⟨h1, h2⟩ := List.mem_filter.1 hx
  obtain ⟨p, i, b⟩ := x
  dsimp only at h2
  subst h2
  exact h1

theorem filterMap_concat {β : Type} (l : List (Bytes × Marked)) (p : Bytes) (x : Marked) (f : Bytes × Item → Option β) :
    (recs (l ++ [(p, x)])).filterMap f = (recs l).filterMap f ++ (if x.2 then f (p, x.1) else none).toList := by
  rw [recs_concat, List.filterMap_append]
  congr 1
  cases x.2 with
  | false => rfl
  | true => simp only [if_true]; cases h : f (p, x.1) <;> simp [h]

theorem Each.append {α β : Type} {R : α → β → Prop} {as as' : List α} {bs bs' : List β} (h : Each R as bs) (h' : Each R as' bs') :
    Each R (as ++ as') (bs ++ bs') := by
  induction h with
  | nil => exact h'
  | cons h1 _ ih => exact .cons h1 ih

/-- What is in the database after the declarations. -/
structure Inv (env : Env) (done : List (Bytes × Marked)) (d : Data) : Prop where
  blocks : ∃ bs, Each (fun x b => Says env x.1 x.2 b) (recs done) bs ∧ d.db.functions = bs.flatMap Block.functions ∧
    d.db.fields = bs.flatMap Block.fields ∧ d.db.enums = bs.flatMap Block.enums ∧ d.db.constants = bs.flatMap Block.constants
  namespaces : d.namespaces = firsts Prod.fst ((recs done).filterMap namespaceOf)
  templates : d.templates = firsts Prod.fst ((recs done).filterMap templateOf)
  classes : d.classes.map known = firsts Prod.fst ((recs done).filterMap classOf)
  sizes : ∀ c ∈ d.classes, c.size = ((recs done).filterMap (sizeOf c.name)).getLast?.getD 0xFFFFFFFF
  bases : ∀ x ∈ recs done, ∀ isClass freeStanding anonymous vbases bases size,
    x.2.what = .cls isClass true freeStanding anonymous vbases bases size →
    ∀ b ∈ bases, ∃ c u y, Means b.type c u ∧ HasName env u y ∧ (x.2.name, y) ∈ d.db.inherits ∧
      ∀ id, IsInstance u id → y ∈ d.db.typeNames
  onlyBases : ∀ r ∈ d.db.inherits, (∃ x ∈ done, ClsBase env x.2.1 r)
  instances : GoodDb env d.db
  used : ∀ x ∈ recs done, ∀ parent name t, Has x parent name t → ∀ id, Uses t id → Kept env d.db id
  arrays : ∀ x ∈ recs done, ∀ c, ItemArray env x.1 x.2 c → c ∈ d.db.containers
  noOthers : ∀ c ∈ d.db.containers, ∃ x ∈ done, ItemArray env x.1 x.2.1 c

theorem inv_nil (env : Env) : Inv env [] {} where
  blocks := ⟨[], .nil, rfl, rfl, rfl, rfl⟩
  namespaces := rfl
  templates := rfl
  classes := rfl
  sizes := fun c hc => absurd hc List.not_mem_nil
  bases := fun x hx => absurd hx List.not_mem_nil
  onlyBases := fun r hr => absurd hr List.not_mem_nil
  instances := fun e he => absurd he List.not_mem_nil
  used := fun x hx => absurd hx List.not_mem_nil
  arrays := fun x hx => absurd hx List.not_mem_nil
  noOthers := fun c hc => absurd hc List.not_mem_nil

theorem sizeOf_class {n : Bytes} {x : Bytes × Item} {z : Nat} (h : sizeOf n x = some z) : ∃ q, classOf x = some q ∧ q.1 = n := by
  unfold sizeOf at h
  unfold classOf
  split at h
  · rename_i hw
    split at h
    · rename_i hn
      rw [hw]
      exact ⟨_, rfl, hn⟩
    · cases h
  · cases h

theorem step_sizes {env : Env} {done : List (Bytes × Marked)} {d : Data} (hi : Inv env done d) (p : Bytes) (x : Marked) :
    ∀ c ∈ clsStep p x d.classes, c.size = ((recs (done ++ [(p, x)])).filterMap (sizeOf c.name)).getLast?.getD 0xFFFFFFFF := by
  intro c hc
  rw [filterMap_concat]
  -- nothing changes
  have stay : c ∈ d.classes → (if x.2 then sizeOf c.name (p, x.1) else none) = none →
      c.size = ((recs done).filterMap (sizeOf c.name) ++ (if x.2 then sizeOf c.name (p, x.1) else none).toList).getLast?.getD 0xFFFFFFFF := by
    intro h1 h2
    rw [h2, Option.toList_none, List.append_nil]
    exact hi.sizes c h1
  obtain ⟨⟨name, what, invalid, attrs⟩, b⟩ := x
  unfold clsStep at hc
  cases b with
  | false => exact stay hc rfl
  | true =>
    simp only [if_true] at hc stay ⊢
    cases what with
    | cls isClass definition freeStanding anonymous vbases bases size =>
      cases anonymous with
      | true =>
        refine stay hc ?_
        cases definition <;> rfl
      | false =>
        dsimp only at hc
        have hnd : ((push Cls.name d.classes (some { name := name, parent := p, isClass := isClass })).map Cls.name).Nodup := by
          rw [← known_names, push_known, hi.classes, ← firsts_concat]
          exact firsts_nodup _ _
        -- a class that is new
        have new : ∀ c ∈ push Cls.name d.classes (some { name := name, parent := p, isClass := isClass }),
            c ∈ d.classes ∨ (c.size = 0xFFFFFFFF ∧ c.name = name ∧ (recs done).filterMap (sizeOf name) = []) := by
          intro c hc
          unfold push at hc
          dsimp only at hc
          split at hc
          · exact .inl hc
          · rename_i hany
            rcases List.mem_append.1 hc with hc | hc
            · exact .inl hc
            · rw [List.mem_singleton] at hc
              subst hc
              refine .inr ⟨rfl, rfl, ?_⟩
              rw [List.filterMap_eq_nil_iff]
              intro y hy
              cases hs : sizeOf name y with
              | none => rfl
              | some z =>
                exfalso
                obtain ⟨q, hq1, hq2⟩ := sizeOf_class hs
                obtain ⟨q', hq', e'⟩ := (firsts_names Prod.fst ((recs done).filterMap classOf) name).2
                  ⟨q, List.mem_filterMap.2 ⟨y, hy, hq1⟩, hq2⟩
                rw [← hi.classes] at hq'
                obtain ⟨c', hc', rfl⟩ := List.mem_map.1 hq'
                apply hany
                rw [List.any_eq_true]
                exact ⟨c', hc', beq_iff_eq.2 e'⟩
        cases definition with
        | false =>
          simp only [Bool.false_eq_true, if_false] at hc
          rcases new c hc with h | ⟨h1, h2, h3⟩
          · exact stay h rfl
          · rw [h1, h2, h3]
            rfl
        | true =>
          simp only [if_true] at hc
          rcases setSize_mem name size _ hnd c hc with ⟨h1, h2⟩ | ⟨h1, h2⟩
          · have : sizeOf c.name (p, (⟨name, .cls isClass true freeStanding false vbases bases size, invalid, attrs⟩ : Item)) = some size := by
              simp [sizeOf, h1]
            rw [this, h2]
            simp
          · rcases new c h2 with h | ⟨_, h3, _⟩
            · refine stay h ?_
              simp [sizeOf, Ne.symm h1]
            · exact absurd h3 h1
    | _ => exact stay hc rfl

theorem inv_step {env : Env} {done : List (Bytes × Marked)} {d d1 : Data} {p : Bytes} {x : Marked} (hi : Inv env done d)
    (he : Effect env p x d d1)
    (hu : x.2 = true → ∀ parent name t, Has (p, x.1) parent name t → ∀ id, Uses t id → Kept env d1.db id) :
    Inv env (done ++ [(p, x)]) d1 where
  blocks := by
    obtain ⟨bs, h1, h2, h3, h4, h5⟩ := hi.blocks
    obtain ⟨B, b1, b2, b3, b4, b5, b6⟩ := he.block
    rw [recs_concat]
    cases hx : x.2 with
    | false =>
      have := b2 hx
      subst this
      refine ⟨bs, by simpa using h1, ?_, ?_, ?_, ?_⟩
      · rw [b3, h2]; simp
      · rw [b4, h3]; simp
      · rw [b5, h4]; simp
      · rw [b6, h5]; simp
    | true =>
      refine ⟨bs ++ [B], h1.append (.cons (b1 hx) .nil), ?_, ?_, ?_, ?_⟩
      · rw [b3, h2]; simp
      · rw [b4, h3]; simp
      · rw [b5, h4]; simp
      · rw [b6, h5]; simp
  namespaces := by rw [filterMap_concat, firsts_push, ← hi.namespaces]; exact he.namespaces
  templates := by rw [filterMap_concat, firsts_push, ← hi.templates]; exact he.templates
  classes := by rw [filterMap_concat, firsts_push, ← hi.classes, he.classes]; exact clsStep_known p x d.classes
  sizes := by rw [he.classes]; exact step_sizes hi p x
  bases := by
    intro y hy isClass freeStanding anonymous vbases bases size hw b hb
    rw [recs_concat] at hy
    rcases List.mem_append.1 hy with hy | hy
    · obtain ⟨c, u, z, k1, k2, k3, k4⟩ := hi.bases y hy isClass freeStanding anonymous vbases bases size hw b hb
      refine ⟨c, u, z, k1, k2, he.inherits.subset k3, fun id h => ?_⟩
      obtain ⟨e, he', e'⟩ := List.mem_map.mp (k4 id h)
      exact List.mem_map.mpr ⟨e, he.templateTypes.subset he', e'⟩
    · cases hx : x.2 with
      | false => rw [hx] at hy; exact absurd hy List.not_mem_nil
      | true =>
        rw [hx] at hy
        simp only [if_true, List.mem_singleton] at hy
        subst hy
        exact he.bases hx isClass freeStanding anonymous vbases bases size hw b hb
  onlyBases := by
    intro r hr
    rcases he.newInh r hr with h | h
    · obtain ⟨y, hy, k⟩ := hi.onlyBases r h
      exact ⟨y, List.mem_append_left _ hy, k⟩
    · exact ⟨(p, x), List.mem_append_right _ (List.mem_singleton.2 rfl), h⟩
  instances := he.good hi.instances
  used := by
    intro y hy parent name t hh id hu'
    rw [recs_concat] at hy
    rcases List.mem_append.1 hy with hy | hy
    · exact (hi.used y hy parent name t hh id hu').mono he.templateTypes
    · cases hx : x.2 with
      | false => rw [hx] at hy; exact absurd hy List.not_mem_nil
      | true =>
        rw [hx] at hy
        simp only [if_true, List.mem_singleton] at hy
        subst hy
        exact hu hx parent name t hh id hu'
  arrays := by
    intro y hy c hc
    rw [recs_concat] at hy
    rcases List.mem_append.1 hy with hy | hy
    · obtain ⟨new, e, _⟩ := he.containers
      rw [e]
      exact List.mem_append_left _ (hi.arrays y hy c hc)
    · cases hx : x.2 with
      | false => rw [hx] at hy; exact absurd hy List.not_mem_nil
      | true =>
        rw [hx] at hy
        simp only [if_true, List.mem_singleton] at hy
        subst hy
        exact he.arrays hx c hc
  noOthers := by
    intro c hc
    obtain ⟨new, e, k⟩ := he.containers
    rw [e] at hc
    rcases List.mem_append.1 hc with hc | hc
    · obtain ⟨y, hy, k⟩ := hi.noOthers c hc
      exact ⟨y, List.mem_append_left _ hy, k⟩
    · exact ⟨(p, x), List.mem_append_right _ (List.mem_singleton.2 rfl), k c hc⟩

theorem inv_runs {env : Env} (he : WellNamedEnv env) {fuel : Nat} {d d' : Data} {l : List (Bytes × Marked)} (h : Runs env fuel d l d')
    (hw : ∀ x ∈ l, WellItem x.2.1) (done : List (Bytes × Marked)) (hi : Inv env done d) : Inv env (done ++ l) d' := by
  induction h generalizing done with
  | nil => rw [List.append_nil]; exact hi
  | @cons d d1 d' p x l ho _ ih =>
    rw [List.append_cons]
    exact ih (fun y hy => hw y (List.mem_cons_of_mem _ hy)) _
      (inv_step hi (own_effect he fuel x.1 p d d1 x.2 (hw (p, x) List.mem_cons_self) ho)
        fun hx => own_used he fuel x.1 p d d1 (hw (p, x) List.mem_cons_self) (by rw [← hx]; exact ho))

end Clr.ScanUnit
