import Verif.Proofs.ScanUnitFold
/-!
The walk over a translation unit comes to an end, if no instance of a template is in itself.
-/
namespace Clr.ScanUnit
open Clr.ScanTypes

/-- There is an outcome. -/
abbrev Ends {α : Type} (db : Db) (x : Out α) : Prop := Related (fun _ _ => True) db x

theorem ends_bind {α β : Type} (db : Db) (x : Out α) (f : α → Db → Out β) (hx : Ends db x)
    (hf : ∀ a db', x = .ok a db' → Ends db' (f a db')) : Ends db (x.bind f) :=
  related_bind (fun _ _ _ _ _ => trivial) db x f hx hf

theorem parseInst_ends {env : Env} (he : WellNamedEnv env) (rank : Nat → Nat) (hr : Ranked env rank) (fuel : Nat) :
    ∀ id, rank id < fuel → ∀ db, Ends db (parseInst env fuel id db) := by
  induction fuel with
  | zero => intro id h; omega
  | succ n ih =>
    intro id hf db
    have hself : ∀ id', In env id' id → ∀ db, Ends db (parseInst env n id' db) := by
      intro id' hin db
      have := hr id' id hin
      exact ih id' (by omega) db
    unfold parseInst instBody
    split
    · trivial
    · refine ends_bind db _ _ (argLoop_related (fun _ => trivial) (fun _ _ _ _ _ => trivial) he.declared (env id).args (he.args id)
          (fun t op c b id' h1 h2 h3 => hself id' (.arg h1 h2 h3))
          (fun m u op c b id' h1 h2 h3 => hself id' (.arrayArg h1 h2 h3)) [] db) fun infos d hi => ?_
      dsimp only
      split
      · trivial
      · exact ends_bind d _ _ (baseLoop_related (fun _ => trivial) (fun _ _ _ _ _ => trivial) (fun _ _ _ => trivial) he.declared _
          (env id).bases (he.bases id) (fun b c u id' h1 h2 h3 => hself id' (.base h1 h2 h3)) d) fun _ _ _ => trivial

theorem makeField_ends {env : Env} (he : WellNamedEnv env) {self : Nat → Db → Out Bytes} (hs : ∀ id db, Ends db (self id db)) (t : CType)
    (hw : WellNamed t) (name parent : Bytes) (offset : Int) (db : Db) : Ends db (makeField env self t name parent offset db) := by
  unfold makeField
  exact ends_bind db _ _ (paramInfo_related (fun _ => trivial) (fun _ _ _ _ _ => trivial) he.declared t hw
    (fun _ _ _ id _ _ => hs id) (fun _ _ _ _ _ id _ _ _ => hs id) db) fun _ _ _ => trivial

theorem paramLoop_ends {env : Env} (he : WellNamedEnv env) {self : Nat → Db → Out Bytes} (hs : ∀ id db, Ends db (self id db)) (fn : Bytes)
    (ps : List ParamDecl) (hw : ∀ p ∈ ps, WellNamed p.type) (k : Nat) (done : List Field) (db : Db) :
    Ends db (paramLoop env self fn ps k done db) := by
  induction ps generalizing k done db with
  | nil => trivial
  | cons p r ih =>
    unfold paramLoop
    exact ends_bind db _ _ (makeField_ends he hs _ (hw p List.mem_cons_self) _ _ _ db) fun f d _ =>
      ih (fun q hq => hw q (List.mem_cons_of_mem _ hq)) _ _ d

theorem makeFunction_ends {env : Env} (he : WellNamedEnv env) {self : Nat → Db → Out Bytes} (hs : ∀ id db, Ends db (self id db)) (fd : FnDecl)
    (hw : ∀ p ∈ fd.params, WellNamed p.type) (hr : WellNamed fd.result) (pre : List Field) (db : Db) :
    Ends db (makeFunction env self fd pre db) := by
  unfold makeFunction
  split
  · trivial
  · exact ends_bind db _ _ (makeField_ends he hs _ (wellNamed_callResult _ hr) _ _ _ db) fun f d _ =>
      ends_bind d _ _ (paramLoop_ends he hs _ _ hw _ _ d) fun _ _ _ => trivial

theorem own_ends {env : Env} (he : WellNamedEnv env) (fuel : Nat) (hs : ∀ id db, Ends db (parseInst env fuel id db)) (i : Item)
    (hw : WellItem i) (p : Bytes) (d : Data) : ∃ r, own env fuel i p d = some r := by
  obtain ⟨name, what, invalid, attrs⟩ := i
  cases what with
  | «namespace» => exact ⟨_, rfl⟩
  | cls isClass definition freeStanding anonymous vbases bases size =>
    simp only [own]
    split
    · exact ⟨_, rfl⟩
    · split
      · exact ⟨_, rfl⟩
      · have h1 : Ends d.db (classBases env (parseInst env fuel) name bases d.db) := by
          rw [classBases_eq]
          exact baseLoop_related (fun _ => trivial) (fun _ _ _ _ _ => trivial) (fun _ _ _ => trivial) he.declared _ bases hw
            (fun _ _ _ id _ _ _ => hs id) d.db
        cases definition with
        | false =>
          simp only [Bool.false_eq_true, if_false]
          cases anonymous <;> exact ⟨_, rfl⟩
        | true =>
          simp only [if_true]
          generalize classBases env (parseInst env fuel) name bases d.db = o at h1
          cases o with
          | never => exact h1.elim
          | fail s db => exact ⟨_, rfl⟩
          | ok u db => cases anonymous <;> exact ⟨_, rfl⟩
  | enum tag constants => exact ⟨_, rfl⟩
  | function first result params =>
    simp only [own]
    have h1 := makeFunction_ends he hs { name := name, parent := p, first := first, result := result, params := params } hw.2 hw.1 [] d.db
    generalize makeFunction env (parseInst env fuel) _ [] d.db = o at h1
    cases o with
    | never => exact h1.elim
    | fail s db => exact ⟨_, rfl⟩
    | ok u db => exact ⟨_, rfl⟩
  | method isOperator thisType first result params =>
    obtain ⟨w0, w1, w2⟩ := hw
    simp only [own]
    have h1 : Ends d.db (addMethod env (parseInst env fuel)
        { name := name, parent := p, first := first, result := result, params := params, thisType := thisType, isOperator := isOperator } d.db) := by
      unfold addMethod
      split
      · trivial
      · cases thisType with
        | none => exact makeFunction_ends he hs _ w2 w1 [] d.db
        | some t => exact ends_bind d.db _ _ (makeField_ends he hs t (w0 t rfl) _ _ _ d.db) fun f d' _ => makeFunction_ends he hs _ w2 w1 [f] d'
    generalize addMethod env (parseInst env fuel) _ d.db = o at h1
    cases o with
    | never => exact h1.elim
    | fail s db => exact ⟨_, rfl⟩
    | ok u db => exact ⟨_, rfl⟩
  | field holder fname t bits =>
    simp only [own]
    split
    · exact ⟨_, rfl⟩
    · have h1 := makeField_ends he hs t hw fname p ((bits / 8 : Nat) : Int) d.db
      generalize makeField env (parseInst env fuel) t fname p ((bits / 8 : Nat) : Int) d.db = o at h1
      cases o with
      | never => exact h1.elim
      | fail s db => exact ⟨_, rfl⟩
      | ok u db => exact ⟨_, rfl⟩
  | template params forward => exact ⟨_, rfl⟩
  | other => exact ⟨_, rfl⟩

theorem addItem_ends {env : Env} {fuel : Nat} {specs : Scan.Specs} {i : Item} (hf : i.what.forward = true → passes i = false)
    (ho : ∀ p d, ∃ r, own env fuel i p d = some r) {inner : Bytes → St → Option St} (hi : ∀ p s, ∃ s', inner p s = some s') (p : Bytes) (s : St) :
    ∃ s', addItem env fuel specs i inner p s = some s' := by
  have hk : ∀ s, ∃ s', addKind env fuel i inner p s = some s' := by
    intro s
    rw [addKind_own env fuel i hf]
    obtain ⟨r, hr⟩ := ho p s.data
    rw [hr]
    dsimp only [Option.bind_some]
    split
    · exact hi _ _
    · exact ⟨_, rfl⟩
  unfold addItem
  split
  · exact ⟨_, rfl⟩
  · dsimp only
    split
    · exact ⟨_, rfl⟩
    · split
      · obtain ⟨s', h⟩ := hk { allow := true, attrs := (Scan.parseAttributes specs i.asked s.allow s.attrs).2, data := s.data }
        exact ⟨_, by rw [h]; rfl⟩
      · split
        · exact hk _
        · exact ⟨_, rfl⟩

mutual
theorem addTree_ends {env : Env} {fuel : Nat} {specs : Scan.Specs} : ∀ (t : Tree Item),
    (∀ x ∈ t.listing, (x.2.what.forward = true → passes x.2 = false) ∧ ∀ p d, ∃ r, own env fuel x.2 p d = some r) → ∀ p s,
    ∃ s', addTree env fuel specs t p s = some s'
  | .node i kids, h, p, s => by
    rw [addTree]
    obtain ⟨h1, h2⟩ := h ([], i) List.mem_cons_self
    exact addItem_ends h1 h2 (fun p s => addForest_ends kids (fun x hx =>
      h (i :: x.1, x.2) (List.mem_cons_of_mem _ (List.mem_map.2 ⟨x, hx, rfl⟩))) p s) p s

theorem addForest_ends {env : Env} {fuel : Nat} {specs : Scan.Specs} : ∀ (f : Forest Item),
    (∀ x ∈ f.listing, (x.2.what.forward = true → passes x.2 = false) ∧ ∀ p d, ∃ r, own env fuel x.2 p d = some r) → ∀ p s,
    ∃ s', addForest env fuel specs f p s = some s'
  | .nil, _, p, s => ⟨s, rfl⟩
  | .cons t r, h, p, s => by
    rw [addForest]
    obtain ⟨s1, e1⟩ := addTree_ends t (fun x hx => h x (List.mem_append_left _ hx)) p s
    rw [e1]
    exact addForest_ends r (fun x hx => h x (List.mem_append_right _ hx)) p s1
end

theorem walk_ends {env : Env} {fuel : Nat} {specs : Scan.Specs} : ∀ (f : Forest Item),
    (∀ x ∈ f.listing, (x.2.what.forward = true → passes x.2 = false) ∧ ∀ p d, ∃ r, own env fuel x.2 p d = some r) → ∀ s,
    ∃ s', walk env fuel specs f s = some s'
  | .nil, _, s => ⟨s, rfl⟩
  | .cons t r, h, s => by
    rw [walk]
    obtain ⟨s1, e1⟩ : ∃ s1, (if Scan.topLevel t.item.what.kind then addTree env fuel specs t [] s else some s) = some s1 := by
      split
      · exact addTree_ends t (fun x hx => h x (List.mem_append_left _ hx)) [] s
      · exact ⟨_, rfl⟩
    rw [e1]
    exact walk_ends r (fun x hx => h x (List.mem_append_right _ hx)) s1

end Clr.ScanUnit
