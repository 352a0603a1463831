import Verif.Proofs.Export
import Verif.Props.Search
import Verif.Props.CArray
/-
Lemmas about the exporter model: the phases after the scope hierarchy.
-/
namespace Clr.Export
open Clr.DB (hashOf)
attribute [local irreducible] hashOf

/-! ### The scope hierarchy of a database -/

/-- One call of `Parent` in lines 1140-1153, with the keys and children it sees. -/
def mkStep (S : St) (x : K × Slot × K) : Step := ⟨x.1, x.2.1, byName S x.1, S.all x.2.2⟩

theorem mem_all (S : St) (k : K) (r : Ref) : r ∈ S.all k ↔ r.1 = k ∧ Valid S r := by
  unfold St.all Valid
  simp only [List.mem_map, List.mem_range]
  constructor
  · rintro ⟨i, hi, rfl⟩
    exact ⟨rfl, hi⟩
  · rintro ⟨rfl, h⟩
    exact ⟨r.2, h, rfl⟩

theorem nodup_all (S : St) (k : K) : (S.all k).Nodup := by
  unfold St.all
  rw [List.nodup_iff_pairwise_ne, List.pairwise_map]
  apply List.Pairwise.imp _ List.nodup_range
  intro a b h e
  injection e with _ e
  exact h e

/-- What the parent pointers and keys of the raw copy look like. -/
structure Raw (env : Env) (S : St) : Prop where
  parents : ∀ r, Valid S r → ∃ h : UInt32, (S.get r).parent = ofHash h
  kids : ∀ r s, (S.get r).kids s = []
  noAlias : ∀ q r, Valid S q → Valid S r → (S.get q).hash ≠ env.hash (.obj r)

theorem parents_spec (env : Env) (S : St) (hp : Placement env S) (hr : Raw env S) (done rest : List (K × Slot × K))
    (hd : (done ++ rest).Pairwise fun a b => a.1 = b.1 → a.2.1 ≠ b.2.1 ∧ a.2.2 ≠ b.2.2) :
    parents env rest (stateOf env S (done.map (mkStep S))) = .ok (stateOf env S ((done ++ rest).map (mkStep S))) := by
  induction rest generalizing done with
  | nil => simp [parents]
  | cons x rest ih =>
    obtain ⟨pk, slot, ck⟩ := x
    unfold parents
    have hstep : parent env pk slot (byName (stateOf env S (done.map (mkStep S))) pk)
        ((stateOf env S (done.map (mkStep S))).all ck) (stateOf env S (done.map (mkStep S))) =
        .ok (stateOf env S (done.map (mkStep S) ++ [mkStep S (pk, slot, ck)])) := by
      apply parent_stateOf env S hp hr.kids (done.map (mkStep S)) (mkStep S (pk, slot, ck))
      constructor
      · exact nodup_all S ck
      · intro c hc; exact ((mem_all S ck c).mp hc).2
      · intro c hc; exact hr.parents c ((mem_all S ck c).mp hc).2
      · intro i hi r hv
        exact hr.noAlias (pk, i) r hi hv
      · intro d hdm hpk
        rw [List.mem_map] at hdm
        obtain ⟨y, hy, rfl⟩ := hdm
        have := (List.pairwise_append.mp hd).2.2 y hy (pk, slot, ck) (by simp) hpk
        refine ⟨this.1, ?_⟩
        intro c hc hc2
        apply this.2
        have h1 := ((mem_all S ck c).mp hc).1
        have h2 := ((mem_all S y.2.2 c).mp hc2).1
        rw [← h1, ← h2]
    rw [hstep]
    simp only [Res.bind]
    have := ih (done ++ [(pk, slot, ck)]) (by simpa using hd)
    simpa using this

theorem hierarchy_apart :
    hierarchy.Pairwise fun a b => a.1 = b.1 → a.2.1 ≠ b.2.1 ∧ a.2.2 ≠ b.2.2 := by
  unfold hierarchy
  decide

/-- The calls of lines 1140-1153. -/
def scopeSteps (S : St) : List Step := hierarchy.map (mkStep S)

theorem scopes_spec (env : Env) (S : St) (hp : Placement env S) (hr : Raw env S) :
    parents env hierarchy S = .ok (stateOf env S (scopeSteps S)) := by
  have := parents_spec env S hp hr [] hierarchy (by simpa using hierarchy_apart)
  simp only [List.map_nil, stateOf_nil env S hr.kids, List.nil_append] at this
  exact this

/-- The scoped name of a field, when its scope is known. -/
def fieldPath (env : Env) (S : St) (i : Nat) : Bytes :=
  match owner env S (scopeSteps S) (.field, i) with
  | some r => ((S.get r).text.getD []) ++ b!"::" ++ ((S.get (.field, i)).text.getD [])
  | none => []

/-- Every field has a scope, and the names involved are known. -/
structure FieldsOK (env : Env) (S : St) : Prop where
  owned : ∀ i, i < S.count .field → ∃ r, owner env S (scopeSteps S) (.field, i) = some r
  texts : ∀ r, Valid S r → (S.get r).text ≠ none
  noAlias : ∀ i r, i < S.count .field → Valid S r → hashOf (fieldPath env S i) ≠ env.hash (.obj r)

theorem fieldKeys_congr (S T : St) (n : Nat) (h : ∀ r, (T.get r).text = (S.get r).text)
    (h2 : ∀ i, i < n → (T.get (.field, i)).parent = (S.get (.field, i)).parent) : fieldKeys T n = fieldKeys S n := by
  induction n with
  | zero => rfl
  | succ n ih =>
    unfold fieldKeys
    rw [ih (fun i hi => h2 i (by omega))]
    have : fieldKey T n = fieldKey S n := by
      unfold fieldKey
      rw [h2 n (by omega), h]
      congr 1
      unfold ptrText
      split
      · rw [h]
      · rfl
    rw [this]

theorem fieldKeys_spec (env : Env) (S : St) (hf : FieldsOK env S) (n : Nat) (hn : n ≤ S.count .field) :
    fieldKeys (stateOf env S (scopeSteps S)) n = .ok ((List.range n).map fun i => hashOf (fieldPath env S i)) := by
  induction n with
  | zero => rfl
  | succ n ih =>
    unfold fieldKeys
    rw [ih (by omega)]
    have hk : fieldKey (stateOf env S (scopeSteps S)) n = .ok (hashOf (fieldPath env S n)) := by
      obtain ⟨r, hr⟩ := hf.owned n (by omega)
      have hv := (owner_valid env S _ _ _ hr).1
      have h1 := hf.texts r hv
      have h2 := hf.texts (.field, n) (by unfold Valid; simp only; omega)
      unfold fieldKey fieldPath
      have hp : ((stateOf env S (scopeSteps S)).get (.field, n)).parent = .obj r := by
        simp [stateOf, ownerPtr, hr, Obj.place]
      have ht : ∀ q, ((stateOf env S (scopeSteps S)).get q).text = (S.get q).text := fun q => rfl
      rw [hp, hr]
      simp only [ptrText, ht]
      cases e1 : (S.get r).text with
      | none => exact absurd e1 h1
      | some t =>
        cases e2 : (S.get (.field, n)).text with
        | none => exact absurd e2 h2
        | some t2 => rfl
    rw [hk]
    simp [List.range_succ]

/-- The calls of lines 1163-1166. -/
def attributeSteps (env : Env) (S : St) : List Step :=
  [⟨.enum, .attributes, byName S .enum, allAttributes S⟩,
   ⟨.field, .attributes, fun i => ((List.range (S.count .field)).map fun i => hashOf (fieldPath env S i)).getD i 0,
     allAttributes S⟩,
   ⟨.function, .attributes, byName S .function, allAttributes S⟩,
   ⟨.cls, .attributes, byName S .cls, allAttributes S⟩]

/-- All calls of `Parent`. -/
def allSteps (env : Env) (S : St) : List Step := scopeSteps S ++ attributeSteps env S

theorem mem_allAttributes (S : St) (r : Ref) : r ∈ allAttributes S ↔
    r.1 ∈ [K.flagAttr, .intAttr, .floatAttr, .primAttr, .textAttr] ∧ Valid S r := by
  unfold allAttributes
  simp only [List.mem_append, mem_all, List.mem_cons, List.not_mem_nil, or_false]
  constructor
  · rintro ((((⟨h1, h2⟩ | ⟨h1, h2⟩) | ⟨h1, h2⟩) | ⟨h1, h2⟩) | ⟨h1, h2⟩) <;> exact ⟨by simp [h1], h2⟩
  · rintro ⟨h1 | h1 | h1 | h1 | h1, h2⟩ <;> simp [h1, h2]

theorem nodup_append_of {α : Type} {a b : List α} (ha : a.Nodup) (hb : b.Nodup) (h : ∀ x ∈ a, x ∉ b) : (a ++ b).Nodup := by
  rw [List.nodup_append]
  refine ⟨ha, hb, ?_⟩
  intro x hx y hy e
  exact h x hx (e ▸ hy)

theorem nodup_allAttributes (S : St) : (allAttributes S).Nodup := by
  unfold allAttributes
  refine nodup_append_of (nodup_append_of (nodup_append_of (nodup_append_of ?_ ?_ ?_) ?_ ?_) ?_ ?_) ?_ ?_
  all_goals first
    | exact nodup_all _ _
    | (intro x hx hx2
       simp only [List.mem_append, mem_all] at hx hx2
       rcases hx with ((((h | h) | h) | h) | h) <;> (rw [hx2.1] at h; exact absurd h.1 (by decide)))
    | (intro x hx hx2
       simp only [List.mem_append, mem_all] at hx hx2
       rcases hx with (((h | h) | h) | h) <;> (rw [hx2.1] at h; exact absurd h.1 (by decide)))
    | (intro x hx hx2
       simp only [List.mem_append, mem_all] at hx hx2
       rcases hx with ((h | h) | h) <;> (rw [hx2.1] at h; exact absurd h.1 (by decide)))
    | (intro x hx hx2
       simp only [List.mem_append, mem_all] at hx hx2
       rcases hx with (h | h) <;> (rw [hx2.1] at h; exact absurd h.1 (by decide)))
    | (intro x hx hx2
       simp only [mem_all] at hx hx2
       rw [hx2.1] at hx; exact absurd hx.1 (by decide))

/-- No call before the attributes has attributes as children or the attribute array as target. -/
theorem scope_vs_attribute (S : St) (d : Step) (hd : d ∈ scopeSteps S) :
    d.slot ≠ .attributes ∧ ∀ c ∈ allAttributes S, c ∉ d.children := by
  unfold scopeSteps at hd
  rw [List.mem_map] at hd
  obtain ⟨x, hx, rfl⟩ := hd
  have hx' : x.2.1 ≠ .attributes ∧ x.2.2 ∉ [K.flagAttr, .intAttr, .floatAttr, .primAttr, .textAttr] := by
    revert x
    unfold hierarchy
    decide
  refine ⟨hx'.1, ?_⟩
  intro c hc hc2
  apply hx'.2
  have h1 := ((mem_allAttributes S c).mp hc).1
  have h2 := ((mem_all S _ c).mp hc2).1
  rw [← h2]
  exact h1

theorem attributeStep_ok (env : Env) (S : St) (hr : Raw env S) (done : List Step) (pk : K) (keys : Nat → UInt32)
    (hk : ∀ i, i < S.count pk → ∀ r, Valid S r → keys i ≠ env.hash (.obj r))
    (hd : ∀ d ∈ done, d ∈ scopeSteps S ∨ d.pk ≠ pk) :
    StepOK env S done ⟨pk, .attributes, keys, allAttributes S⟩ := by
  constructor
  · exact nodup_allAttributes S
  · intro c hc; exact ((mem_allAttributes S c).mp hc).2
  · intro c hc; exact hr.parents c ((mem_allAttributes S c).mp hc).2
  · exact hk
  · intro d hdm hpk
    rcases hd d hdm with h | h
    · have := scope_vs_attribute S d h
      exact ⟨this.1, this.2⟩
    · exact absurd hpk h

theorem exportScopes_spec (env : Env) (S : St) (hp : Placement env S) (hr : Raw env S) (hf : FieldsOK env S) :
    ((parents env hierarchy S).bind fun st => parentAttributes env st) = .ok (stateOf env S (allSteps env S)) := by
  rw [scopes_spec env S hp hr]
  simp only [Res.bind]
  unfold parentAttributes
  have hcount : (stateOf env S (scopeSteps S)).count .field = S.count .field := rfl
  rw [hcount, fieldKeys_spec env S hf _ (Nat.le_refl _)]
  simp only [Res.bind]
  have e1 := parent_stateOf env S hp hr.kids (scopeSteps S)
    ⟨.enum, .attributes, byName S .enum, allAttributes S⟩
    (attributeStep_ok env S hr _ _ _ (fun i hi r hv => hr.noAlias (.enum, i) r hi hv) (fun d hd => .inl hd))
  have e1' : parent env .enum .attributes (byName (stateOf env S (scopeSteps S)) .enum)
      (allAttributes (stateOf env S (scopeSteps S))) (stateOf env S (scopeSteps S)) = _ := e1
  rw [e1']
  simp only [Res.bind]
  have e2 := parent_stateOf env S hp hr.kids (scopeSteps S ++ [⟨.enum, .attributes, byName S .enum, allAttributes S⟩])
    ⟨.field, .attributes, fun i => ((List.range (S.count .field)).map fun i => hashOf (fieldPath env S i)).getD i 0,
     allAttributes S⟩
    (attributeStep_ok env S hr _ _ _ (by
        intro i hi r hv
        have : ((List.range (S.count .field)).map fun i => hashOf (fieldPath env S i)).getD i 0 =
            hashOf (fieldPath env S i) := by
          rw [List.getD_eq_getElem?_getD, List.getElem?_map, List.getElem?_range hi]
          rfl
        rw [this]
        exact hf.noAlias i r hi hv)
      (by
        intro d hd
        rw [List.mem_append] at hd
        rcases hd with hd | hd
        · exact .inl hd
        · simp only [List.mem_singleton] at hd; subst hd; exact .inr (by simp)))
  have e2' : parent env .field .attributes
      (fun i => ((List.range (S.count .field)).map fun i => hashOf (fieldPath env S i)).getD i 0)
      (allAttributes (stateOf env S (scopeSteps S ++ [⟨.enum, .attributes, byName S .enum, allAttributes S⟩])))
      (stateOf env S (scopeSteps S ++ [⟨.enum, .attributes, byName S .enum, allAttributes S⟩])) = _ := e2
  rw [e2']
  simp only [Res.bind]
  have e3 := parent_stateOf env S hp hr.kids
    (scopeSteps S ++ [⟨.enum, .attributes, byName S .enum, allAttributes S⟩] ++
      [⟨.field, .attributes, fun i => ((List.range (S.count .field)).map fun i => hashOf (fieldPath env S i)).getD i 0,
       allAttributes S⟩])
    ⟨.function, .attributes, byName S .function, allAttributes S⟩
    (attributeStep_ok env S hr _ _ _ (fun i hi r hv => hr.noAlias (.function, i) r hi hv)
      (by
        intro d hd
        simp only [List.mem_append, List.mem_singleton] at hd
        rcases hd with (hd | hd) | hd
        · exact .inl hd
        · subst hd; exact .inr (by simp)
        · subst hd; exact .inr (by simp)))
  have e3' : parent env .function .attributes
      (byName (stateOf env S (scopeSteps S ++ [⟨.enum, .attributes, byName S .enum, allAttributes S⟩] ++
      [⟨.field, .attributes, fun i => ((List.range (S.count .field)).map fun i => hashOf (fieldPath env S i)).getD i 0,
       allAttributes S⟩])) .function)
      (allAttributes (stateOf env S (scopeSteps S ++ [⟨.enum, .attributes, byName S .enum, allAttributes S⟩] ++
      [⟨.field, .attributes, fun i => ((List.range (S.count .field)).map fun i => hashOf (fieldPath env S i)).getD i 0,
       allAttributes S⟩])))
      (stateOf env S (scopeSteps S ++ [⟨.enum, .attributes, byName S .enum, allAttributes S⟩] ++
      [⟨.field, .attributes, fun i => ((List.range (S.count .field)).map fun i => hashOf (fieldPath env S i)).getD i 0,
       allAttributes S⟩])) = _ := e3
  rw [e3']
  simp only [Res.bind]
  have e4 := parent_stateOf env S hp hr.kids
    (scopeSteps S ++ [⟨.enum, .attributes, byName S .enum, allAttributes S⟩] ++
      [⟨.field, .attributes, fun i => ((List.range (S.count .field)).map fun i => hashOf (fieldPath env S i)).getD i 0,
       allAttributes S⟩] ++ [⟨.function, .attributes, byName S .function, allAttributes S⟩])
    ⟨.cls, .attributes, byName S .cls, allAttributes S⟩
    (attributeStep_ok env S hr _ _ _ (fun i hi r hv => hr.noAlias (.cls, i) r hi hv)
      (by
        intro d hd
        simp only [List.mem_append, List.mem_singleton] at hd
        rcases hd with ((hd | hd) | hd) | hd
        · exact .inl hd
        · subst hd; exact .inr (by simp)
        · subst hd; exact .inr (by simp)
        · subst hd; exact .inr (by simp)))
  have hfin : scopeSteps S ++ [⟨.enum, .attributes, byName S .enum, allAttributes S⟩] ++
      [⟨.field, .attributes, fun i => ((List.range (S.count .field)).map fun i => hashOf (fieldPath env S i)).getD i 0,
       allAttributes S⟩] ++ [⟨.function, .attributes, byName S .function, allAttributes S⟩] ++
      [⟨.cls, .attributes, byName S .cls, allAttributes S⟩] = allSteps env S := by
    simp [allSteps, attributeSteps]
  rw [hfin] at e4
  exact e4

end Clr.Export
