import Verif.Proofs.ScanUnitStep
/-!
Instances of templates used by the declarations recorded are in the database.
-/
namespace Clr.ScanUnit
open Clr.ScanTypes

/-- The instance is in the database. -/
def Kept (env : Env) (db : Db) (id : Nat) : Prop := ∃ y, HasName env (.inst id) y ∧ y ∈ db.typeNames

theorem Kept.mono {env : Env} {a b : Db} {id : Nat} (h : Kept env a id) (hp : a.templateTypes <+: b.templateTypes) : Kept env b id := by
  obtain ⟨y, h1, h2⟩ := h
  obtain ⟨e, he, rfl⟩ := List.mem_map.mp h2
  exact ⟨_, h1, List.mem_map.mpr ⟨e, hp.subset he, rfl⟩⟩

theorem paramInfo_used {env : Env} {self : Nat → Db → Out Bytes} (he : WellNamedEnv env) (hs : SelfOk env self) (t : CType)
    (hw : WellNamed t) (db : Db) (i : PInfo) (db' : Db) (h : paramInfo env self t db = .ok i db') (id : Nat) (hu : Uses t id) :
    Kept env db' id := by
  rw [paramInfo_eq env self he.declared t db] at h
  cases ha : arrayStep t with
  | none => rw [ha] at h; cases h
  | some ne =>
    obtain ⟨n, e⟩ := ne
    rw [ha] at h
    dsimp only at h
    have hc := arrayStep_cases t hw n e ha
    have hwe : WellNamed e := by
      rcases hc with ⟨_, rfl⟩ | ⟨rfl, _⟩
      · exact hw
      · exact hw.2
    obtain ⟨_, h2⟩ := baseName_ok hs _ (wellNamed_shape e hwe) db
    obtain ⟨x, d, hx, hi⟩ := bind_ok _ _ _ _ h
    injection hi with hi hd
    subst hi hd
    obtain ⟨_, _, h5⟩ := h2 x d hx
    obtain ⟨op, c, b, hp, hib⟩ := hu
    have key : Points e op c b := by
      rcases hp with hp | ⟨m, u, rfl, hp⟩
      · rcases hc with ⟨rfl, rfl⟩ | ⟨rfl, _⟩
        · exact hp
        · exfalso
          cases hp with
          | value hm =>
            have := ((means_iff _ _ _).mp hm).2
            simp only [CType.peel] at this
            rw [this] at hib
            cases hib
          | pointer hm _ => exact absurd ((means_iff _ _ _).mp hm).2 (by simp [CType.peel])
          | reference hm _ => exact absurd ((means_iff _ _ _).mp hm).2 (by simp [CType.peel])
      · rcases hc with ⟨rfl, rfl⟩ | ⟨h1, _⟩
        · exfalso
          simp only [arrayStep, CType.strip] at ha
          split at ha
          · cases ha
          · injection ha with ha
            injection ha with h1 h2
            exact absurd hw.1 (by omega)
        · injection h1 with h1 h2
          rw [← h2]
          exact hp
    obtain ⟨hb, _⟩ := points_instance e op c b id key hib
    exact ⟨_, h5 id (hb ▸ hib)⟩

theorem makeField_used {env : Env} (he : WellNamedEnv env) (fuel : Nat) (t : CType) (hw : WellNamed t) (name parent : Bytes)
    (offset : Int) (db d : Db) (f : Field) (h : makeField env (parseInst env fuel) t name parent offset db = .ok f d) (id : Nat)
    (hu : Uses t id) : Kept env d id := by
  unfold makeField at h
  obtain ⟨i, d', hi, h⟩ := bind_ok _ _ _ _ h
  have := paramInfo_used he (parseInst_ok he fuel) t hw db i d' hi id hu
  injection h with _ h
  subst h
  refine this.mono ?_
  split <;> exact List.prefix_refl _

theorem paramLoop_used {env : Env} (he : WellNamedEnv env) (fuel : Nat) (fn : Bytes) (ps : List ParamDecl)
    (hw : ∀ p ∈ ps, WellNamed p.type) (k : Nat) (done : List Field) (db d : Db) (fs : List Field)
    (h : paramLoop env (parseInst env fuel) fn ps k done db = .ok fs d) (p : ParamDecl) (hp : p ∈ ps) (id : Nat) (hu : Uses p.type id) :
    Kept env d id := by
  induction ps generalizing k done db with
  | nil => cases hp
  | cons q r ih =>
    have hr : ∀ p ∈ r, WellNamed p.type := fun p h => hw p (List.mem_cons_of_mem _ h)
    unfold paramLoop at h
    obtain ⟨f, d', hf, h2⟩ := bind_ok _ _ _ _ h
    rcases List.mem_cons.1 hp with rfl | hp
    · refine (makeField_used he fuel _ (hw _ List.mem_cons_self) _ _ _ _ _ _ hf id hu).mono ?_
      exact (paramLoop_ext he fuel fn r hr (k + 1) _ d' d (by rw [h2]; rfl)).1.templateTypes
    · exact ih hr _ _ _ h2 hp

theorem makeFunction_used {env : Env} (he : WellNamedEnv env) (fuel : Nat) (fd : FnDecl) (pre : List Field) (db d : Db)
    (hw : ∀ p ∈ fd.params, WellNamed p.type) (hr : WellNamed (callResult fd.result)) (hf : fd.first = true)
    (h : makeFunction env (parseInst env fuel) fd pre db = .ok () d) (id : Nat)
    (hu : Uses (callResult fd.result) id ∨ ∃ p ∈ fd.params, Uses p.type id) : Kept env d id := by
  unfold makeFunction at h
  rw [hf] at h
  simp only [Bool.not_true, Bool.false_eq_true, if_false] at h
  obtain ⟨ret, d1, h1, h⟩ := bind_ok _ _ _ _ h
  obtain ⟨fs, d2, h2, h⟩ := bind_ok _ _ _ _ h
  injection h with _ h
  subst h
  have key : Kept env d2 id := by
    rcases hu with hu | ⟨p, hp, hu⟩
    · exact (makeField_used he fuel _ hr _ _ _ _ _ _ h1 id hu).mono
        (paramLoop_ext he fuel fd.name fd.params hw _ _ d1 d2 (by rw [h2]; rfl)).1.templateTypes
    · exact paramLoop_used he fuel fd.name fd.params hw _ _ _ _ _ h2 p hp id hu
  exact key.mono (List.prefix_refl _)

theorem own_used {env : Env} (he : WellNamedEnv env) (fuel : Nat) (i : Item) (p : Bytes) (d d1 : Data) (hw : WellItem i)
    (h : own env fuel i p d = some (d1, true)) (parent name : Bytes) (t : CType) (hh : Has (p, i) parent name t) (id : Nat)
    (hu : Uses t id) : Kept env d1.db id := by
  obtain ⟨iname, what, invalid, attrs⟩ := i
  have fn : ∀ (fd : FnDecl) pre d0 db, (∀ p ∈ fd.params, WellNamed p.type) → WellNamed fd.result → fd.first = true →
      makeFunction env (parseInst env fuel) fd pre d0 = .ok () db →
      (t = callResult fd.result ∨ ∃ (k : Nat) (q : ParamDecl), fd.params[k]? = some q ∧ t = q.type) → Kept env db id := by
    intro fd pre d0 db w2 w1 hf hm hq
    refine makeFunction_used he fuel fd pre d0 db w2 (wellNamed_callResult _ w1) hf hm id ?_
    rcases hq with rfl | ⟨k, q, hk, rfl⟩
    · exact .inl hu
    · exact .inr ⟨q, List.mem_of_getElem? hk, hu⟩
  cases what with
  | function first result params =>
    obtain ⟨w1, w2⟩ := hw
    have hh : parent = iname ∧ ((name = b!"return" ∧ t = callResult result) ∨ ∃ k q, params[k]? = some q ∧ NameOf q k name ∧ t = q.type) := hh
    simp only [own] at h
    cases hm : makeFunction env (parseInst env fuel) { name := iname, parent := p, first := first, result := result, params := params } [] d.db with
    | never => rw [hm] at h; cases h
    | fail s db => rw [hm] at h; injection h with h; injection h with _ h; cases h
    | ok u db =>
      rw [hm] at h
      injection h with h
      injection h with h1 h2
      subst h1
      cases first with
      | false => cases h2
      | true =>
        refine fn _ _ _ _ w2 w1 rfl hm ?_
        rcases hh.2 with ⟨_, h⟩ | ⟨k, q, hk, _, h⟩
        · exact .inl h
        · exact .inr ⟨k, q, hk, h⟩
  | method op this first result params =>
    obtain ⟨w0, w1, w2⟩ := hw
    have hh : parent = iname ∧ ((name = b!"return" ∧ t = callResult result) ∨ (name = b!"this" ∧ this = some t) ∨
        ∃ k q, params[k]? = some q ∧ NameOf q (if this = none then k else k + 1) name ∧ t = q.type) := hh
    simp only [own, addMethod] at h
    cases op with
    | true => injection h with h; injection h with _ h; cases h
    | false =>
      simp only [Bool.false_eq_true, if_false] at h
      cases this with
      | none =>
        dsimp only at h
        cases hm : makeFunction env (parseInst env fuel) { name := iname, parent := p, first := first, result := result, params := params } [] d.db with
        | never => rw [hm] at h; cases h
        | fail s db => rw [hm] at h; injection h with h; injection h with _ h; cases h
        | ok u db =>
          rw [hm] at h
          injection h with h
          injection h with h1 h2
          subst h1
          cases first with
          | false => cases h2
          | true =>
            refine fn _ _ _ _ w2 w1 rfl hm ?_
            rcases hh.2 with ⟨_, h⟩ | ⟨_, h⟩ | ⟨k, q, hk, _, h⟩
            · exact .inl h
            · cases h
            · exact .inr ⟨k, q, hk, h⟩
      | some t' =>
        dsimp only at h
        cases hf : makeField env (parseInst env fuel) t' b!"this" iname 0 d.db with
        | never => rw [hf] at h; cases h
        | fail s db => rw [hf] at h; injection h with h; injection h with _ h; cases h
        | ok f db0 =>
          rw [hf] at h
          dsimp only [Out.bind] at h
          cases hm : makeFunction env (parseInst env fuel) { name := iname, parent := p, first := first, result := result, params := params }
              [f] db0 with
          | never => rw [hm] at h; cases h
          | fail s db => rw [hm] at h; injection h with h; injection h with _ h; cases h
          | ok u db =>
            rw [hm] at h
            injection h with h
            injection h with h1 h2
            subst h1
            cases first with
            | false => cases h2
            | true =>
              rcases hh.2 with ⟨_, h⟩ | ⟨_, h⟩ | ⟨k, q, hk, _, h⟩
              · exact fn _ _ _ _ w2 w1 rfl hm (.inl h)
              · injection h with h
                subst h
                refine (makeField_used he fuel _ (w0 _ rfl) _ _ _ _ _ _ hf id hu).mono ?_
                exact (makeFunction_ext he fuel _ [f] db0 db w2 (wellNamed_callResult _ w1) (by rw [hm]; rfl)).1.templateTypes
              · exact fn _ _ _ _ w2 w1 rfl hm (.inr ⟨k, q, hk, h⟩)
  | field holder fname ty bits =>
    have hw : WellNamed ty := hw
    obtain ⟨rfl, rfl, rfl⟩ : parent = p ∧ name = fname ∧ t = ty := hh
    simp only [own] at h
    cases holder with
    | true => injection h with h; injection h with _ h; cases h
    | false =>
      simp only [Bool.false_eq_true, if_false] at h
      cases hm : makeField env (parseInst env fuel) t name parent ((bits / 8 : Nat) : Int) d.db with
      | never => rw [hm] at h; cases h
      | fail s db => rw [hm] at h; injection h with h; injection h with _ h; cases h
      | ok f db =>
        rw [hm] at h
        injection h with h
        injection h with h1 h2
        subst h1
        exact (makeField_used he fuel _ hw _ _ _ _ _ _ hm id hu).mono (List.prefix_refl _)
  | _ => exact hh.elim

end Clr.ScanUnit
