import Verif.Proofs.Link
/-
For C85: the state when the scopes are built, and with it the whole export.
-/
namespace Clr.Link
open Clr Clr.Export
open Clr.DB (hashOf)
attribute [local irreducible] hashOf

theorem step_children {env : Env} {S : St} {d : Step} (hd : d ∈ allSteps env S) {c : Ref} (hc : c ∈ d.children) :
    Valid S c := by
  unfold allSteps scopeSteps attributeSteps at hd
  simp only [List.mem_append, List.mem_map, List.mem_cons, List.not_mem_nil, or_false] at hd
  rcases hd with ⟨x, _, rfl⟩ | rfl | rfl | rfl | rfl
  · exact ((mem_all _ _ _).1 hc).2
  all_goals exact ((mem_allAttributes S c).1 hc).2

theorem pending_hash {db : DB.Database} {h : UInt32} (hk : h = 0 ∨ Known db h) :
    PtrOK (copied db).count (Pending (nameKeys db)) (ofHash h) := by
  show Pending _ _
  unfold Pending
  rcases hk with rfl | hk
  · exact .inl rfl
  · right
    rw [UInt32.ofNat_toNat]
    exact known_key hk

/-- The values in the raw copy that become pointers only later. -/
theorem rows_refs {db : DB.Database} (ha : ∀ t ∈ db.templateTypes, ∀ x ∈ [t.a0, t.a1, t.a2, t.a3], x.type.hash = 0 ∨ Known db x.type.hash)
    (hp : ∀ a ∈ db.primitiveAttributes, a.value.hash = 0 ∨ Known db a.value.hash) (k : K) (o : Obj) (ho : o ∈ rows db k) :
    (∀ x ∈ o.args, PtrOK (copied db).count (if k = .instance then Pending (nameKeys db) else Zero) x) ∧
    PtrOK (copied db).count (if k = .primAttr then Pending (nameKeys db) else Zero) o.target ∧
    (k ≠ .container → o.readIt = .raw 0 ∧ o.writeIt = .raw 0) ∧ o.ctor = none ∧ o.dtor = none ∧ o.ci = none := by
  cases k
  all_goals
    simp only [rows, List.mem_map] at ho
    obtain ⟨p, hm, rfl⟩ := ho
    refine ⟨?_, ?_, ?_, rfl, rfl, rfl⟩
  all_goals try (intro _; exact ⟨rfl, rfl⟩)
  all_goals try (intro x hx; cases hx; done)
  all_goals try (simp only [reduceCtorEq, if_false]; rfl)
  · have h0 := ha p hm
    intro x hx
    rw [if_pos rfl]
    simp only [List.mem_cons, List.not_mem_nil, or_false] at hx
    rcases hx with rfl | rfl | rfl | rfl <;> refine pending_hash (h0 _ ?_) <;> simp
  · rw [if_pos rfl]
    exact pending_hash (hp p hm)
  · intro h; exact absurd rfl h

theorem scopesBuilt_ok {env : Env} {fuel : Nat} {db : DB.Database} (h : Exportable env fuel db)
    (ha : ∀ t ∈ db.templateTypes, ∀ x ∈ [t.a0, t.a1, t.a2, t.a3], x.type.hash = 0 ∨ Known db x.type.hash)
    (hp : ∀ a ∈ db.primitiveAttributes, a.value.hash = 0 ∨ Known db a.value.hash) :
    Inv (copied db).count (nameKeys db) (Pending (nameKeys db)) (fun _ => False) (scopesBuilt env db) := by
  have hc : ∀ r, ((copied db).get r).ctor = none ∧ ((copied db).get r).dtor = none ∧ ((copied db).get r).ci = none ∧
      (∀ x ∈ ((copied db).get r).args, PtrOK (copied db).count (if r.1 = .instance then Pending (nameKeys db) else Zero) x) ∧
      PtrOK (copied db).count (if r.1 = .primAttr then Pending (nameKeys db) else Zero) ((copied db).get r).target ∧
      (r.1 ≠ .container → ((copied db).get r).readIt = .raw 0 ∧ ((copied db).get r).writeIt = .raw 0) := by
    intro r
    rcases copied_get db r with ⟨_, h1⟩ | ⟨_, h1⟩
    · obtain ⟨a, b, c, d, e, f⟩ := rows_refs ha hp _ _ h1
      exact ⟨d, e, f, a, b, c⟩
    · rw [h1]
      refine ⟨rfl, rfl, rfl, by simp, ?_, fun _ => ⟨rfl, rfl⟩⟩
      split
      · exact .inl rfl
      · rfl
  have pend : ∀ p : Ptr, (∃ x : UInt32, p = ofHash x) → (p = .raw 0 ∨ env.hash p ∈ nameKeys db) →
      PtrOK (copied db).count (Pending (nameKeys db)) p := by
    rintro p ⟨x, rfl⟩ hx
    show Pending _ _
    rcases hx with hx | hx
    · left; injection hx
    · right
      rw [hash_ofHash] at hx
      rw [UInt32.ofNat_toNat]
      exact hx
  refine ⟨rfl, rfl, ?_, ?_, ?_⟩
  · intro r
    obtain ⟨c1, c2, c3, c4, c5, c6⟩ := hc r
    refine ⟨?_, ?_, c4, c5, ?_, ?_, ?_, ?_, ?_, ?_, ?_⟩
    · intro hr
      show PtrOK _ _ (ownerPtr env (copied db) (allSteps env (copied db)) r)
      rw [ownerPtr_ptrOr]
      cases hq : owner env (copied db) (allSteps env (copied db)) r with
      | some q => exact (owner_valid env _ _ _ _ hq).1
      | none =>
        show PtrOK _ _ ((copied db).get r).parent
        rcases copied_get db r with ⟨hv, h1⟩ | ⟨_, h1⟩
        · split
          · next e =>
            rw [e] at h1
            simp only [rows, List.mem_map] at h1
            obtain ⟨p, _, h1⟩ := h1
            rw [← h1]
            rfl
          · exact pend _ (rows_like db _ _ h1).1 (h.knownParent r hv)
        · rw [h1]
          split
          · rfl
          · exact .inl rfl
    · show PtrOK _ _ ((copied db).get r).type
      rcases copied_get db r with ⟨hv, h1⟩ | ⟨_, h1⟩
      · split
        · next e =>
          obtain ⟨f, _, _, f3⟩ := field_row e hv
          exact pend _ ⟨_, f3⟩ (h.knownType r hv)
        · next e => rw [other_type e]; rfl
      · rw [h1]
        split
        · exact .inl rfl
        · rfl
    · intro hD
      show PtrOK _ _ ((copied db).get r).readIt
      by_cases e : r.1 = .container
      · exact (hD e).elim
      · rw [(c6 e).1]; rfl
    · intro hD
      show PtrOK _ _ ((copied db).get r).writeIt
      by_cases e : r.1 = .container
      · exact (hD e).elim
      · rw [(c6 e).2]; rfl
    · intro x hx
      have : ((copied db).get r).ret = some x := hx
      rw [copied_ret] at this
      cases this
    · intro x hx
      have : ((copied db).get r).ctor = some x := hx
      rw [c1] at this
      cases this
    · intro x hx
      have : ((copied db).get r).dtor = some x := hx
      rw [c2] at this
      cases this
    · intro x hx
      have : ((copied db).get r).ci = some x := hx
      rw [c3] at this
      cases this
    · intro s x hx
      rw [scopesBuilt_kids] at hx
      obtain ⟨_, d, hd, _, _, hx⟩ := kidsOf_mem env _ _ _ _ _ hx
      exact step_children hd hx
  · intro s x hx
    cases hx
  · intro x hx
    exact mem_typePrims db x hx

theorem exportDB_inv {env : Env} {fuel : Nat} {db : DB.Database} (h : Exportable env fuel db)
    (ha : ∀ t ∈ db.templateTypes, ∀ x ∈ [t.a0, t.a1, t.a2, t.a3], x.type.hash = 0 ∨ Known db x.type.hash)
    (hp : ∀ a ∈ db.primitiveAttributes, a.value.hash = 0 ∨ Known db a.value.hash) {F : St}
    (hF : exportDB env fuel db = some (.ok F)) :
    Inv (copied db).count (nameKeys db) Zero (fun i => i < (copied db).count .container) F := by
  unfold exportDB at hF
  rw [scopesBuilt_spec h] at hF
  have hF : (match exportLinks env db (scopesBuilt env db) with
    | .ok st => (inheritAll fuel st).map (exportClean env)
    | .trap => some .trap
    | .ub => some .ub) = some (.ok F) := hF
  split at hF
  · next st hst =>
    rw [Option.map_eq_some_iff] at hF
    obtain ⟨s1, h1, hF⟩ := hF
    have i0 := exportLinks_ok (fun key l => (h.sort key l).1) (scopesBuilt_ok h ha hp) hst
    exact exportClean_ok (inheritAll_ok i0 h1) hF
  · cases hF
  · cases hF

end Clr.Link
