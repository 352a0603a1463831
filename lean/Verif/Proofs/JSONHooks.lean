import Verif.Model.JSONHooks
import Verif.Proofs.JSONParse
import Verif.Proofs.JSONInside
import Verif.Props.JSONHooksSpec

/-! The loader with functions of the user: without them it is the loader of `Verif/Model/JSON.lean`, and it ends on every text. -/
namespace Clr.JSON

theorem loadOf_none (tgt : Target) : Hooks.none.loadOf tgt = .none := by
  unfold Hooks.loadOf
  split <;> rfl

theorem runPost_none (tgt : Target) (s : St) : Hooks.none.runPost tgt s = .ok s := by
  unfold Hooks.runPost
  split <;> rfl

theorem bind_ok_right {α : Type} (x : Out α) : (x >>= fun a => Out.ok a) = x := by cases x <;> rfl

theorem parseH_none (e : Env) : ∀ n, parseValueH e .none n = parseValue e n ∧ parseObjectH e .none n = parseObject e n := by
  intro n
  induction n with
  | zero => exact ⟨by funext s tgt p arr; rw [parseValueH, parseValue], by funext s tgt; rw [parseObjectH, parseObject]⟩
  | succ n ih =>
    constructor
    · funext s tgt p arr
      rw [parseValueH, parseValue]
      simp only [loadOf_none, ih.1, ih.2]
      rfl
    · funext s tgt
      rw [parseObjectH, parseObject.eq_def]
      simp only [objectStep, runPost_none, ih.1, ih.2, bind_ok_right]
      rcases tgt with _ | ⟨ty, a⟩ <;> rfl

theorem loadJSONH_none (e : Env) (text : Bytes) (m : Mem) (ty : Ty) (a : Nat) : loadJSONH e .none text m ty a = loadJSON e text m ty a := by
  unfold loadJSONH loadJSON
  rw [(parseH_none e _).2]

/-! ### It ends on every text -/

theorem runPost_prog {H : Hooks} {tgt : Target} {s s' : St} (h : H.runPost tgt s = .ok s') : Prog s s' := by
  unfold Hooks.runPost at h
  split at h
  · split at h
    · obtain ⟨m, -, h⟩ := Out.bind_eq_ok.1 h
      cases h
      exact prog_mem (Prog.refl _)
    · cases h; exact Prog.refl _
  · cases h; exact Prog.refl _

theorem runPost_not_fuel {H : Hooks} {tgt : Target} {s : St} : H.runPost tgt s ≠ .fuel := by
  unfold Hooks.runPost
  split
  · split
    · exact ofRes_bind_not_fuel
    · exact ok_not_fuel
  · exact ok_not_fuel

theorem value_prog {e : Env} {pv : ValueParser} {po : ObjectParser} (hpv : PVok pv) (hpo : POok po) (n : Nat) : PVok (valueStep e pv po n) := by
  intro s tgt p arr s' h
  unfold valueStep at h
  split at h
  · obtain ⟨r, h1, h⟩ := Out.bind_eq_ok.1 h
    cases h
    exact prog_mem (expect_prog (by simp) h1)
  · obtain ⟨r, h1, h⟩ := Out.bind_eq_ok.1 h
    cases h
    exact prog_mem (expect_prog (by simp) h1)
  · obtain ⟨r, h1, h⟩ := Out.bind_eq_ok.1 h
    obtain ⟨m, h2, h⟩ := Out.bind_eq_ok.1 h
    cases h
    exact prog_mem (expect_prog (by simp) h1)
  · obtain ⟨s1, h1, h⟩ := Out.bind_eq_ok.1 h
    obtain ⟨r, h2, h⟩ := Out.bind_eq_ok.1 h
    cases h
    exact (hpo _ _ _ h1).trans (expect_prog (by simp) h2)
  · exact parseArray_prog hpv h
  · obtain ⟨r, h1, h⟩ := Out.bind_eq_ok.1 h
    cases h
    exact prog_mem (expect_prog (by simp) h1)
  · obtain ⟨r, h1, h⟩ := Out.bind_eq_ok.1 h
    cases h
    exact prog_mem (expect_prog (by simp) h1)
  · obtain ⟨r, h1, h⟩ := Out.bind_eq_ok.1 h
    cases h
    exact prog_mem (expect_prog (by simp) h1)
  · cases h
    exact prog_err (by simp)

theorem object_prog {e : Env} {H : Hooks} {pv : ValueParser} {po : ObjectParser} (hpv : PVok pv) (hpo : POok po) (n : Nat) :
    POok (objectStep e H pv po n) := by
  intro s tgt s' h
  unfold objectStep at h
  obtain ⟨r, h1, h⟩ := Out.bind_eq_ok.1 h
  have p1 := expect_prog (by simp) h1
  split at h
  · cases h; exact p1
  · split at h
    · cases h; exact p1
    · obtain ⟨s1, h2, h⟩ := Out.bind_eq_ok.1 h
      refine Prog.trans ?_ (runPost_prog h)
      split at h2
      · split at h2
        · exact p1.trans (parseDict_prog hpv hpo h2)
        · exact p1.trans (parseMembers_prog hpv _ _ _ _ h2)
      · exact p1.trans (parseMembers_prog hpv _ _ _ _ h2)

theorem parseH_prog (e : Env) (H : Hooks) : ∀ n, PVok (parseValueH e H n) ∧ POok (parseObjectH e H n) := by
  intro n
  induction n with
  | zero =>
    constructor
    · intro s tgt p arr s' h; rw [parseValueH] at h; cases h
    · intro s tgt s' h; rw [parseObjectH] at h; cases h
  | succ n ih =>
    constructor
    · intro s tgt p arr s' h
      rw [parseValueH] at h
      split at h
      · obtain ⟨m, -, h⟩ := Out.bind_eq_ok.1 h
        exact prog_mem' (nextTok_prog h)
      · exact value_prog ih.1 ih.2 n s tgt p arr s' h
    · intro s tgt s' h
      rw [parseObjectH] at h
      exact object_prog ih.1 ih.2 n s tgt s' h

theorem parseH_fin (e : Env) (H : Hooks) : ∀ n, (∀ s tgt p arr, 2 * left s + 1 ≤ n → parseValueH e H n s tgt p arr ≠ .fuel) ∧
    (∀ s tgt, 2 * left s ≤ n → 1 ≤ n → parseObjectH e H n s tgt ≠ .fuel) := by
  intro n
  induction n with
  | zero => exact ⟨fun _ _ _ _ h => by omega, fun _ _ _ h => by omega⟩
  | succ n ih =>
    have hV : ∀ k, 2 * k + 1 ≤ n → PVfin (parseValueH e H n) k := fun k hk s tgt p arr hs => ih.1 s tgt p arr (by omega)
    have ho := parseH_prog e H n
    constructor
    · intro s tgt p arr hs
      rw [parseValueH]
      split
      · exact bind_not_fuel ofRes_fuel fun _ _ => nextTok_not_fuel
      unfold valueStep
      split
      · exact bind_not_fuel expect_not_fuel (fun _ _ => ok_not_fuel)
      · exact bind_not_fuel expect_not_fuel (fun _ _ => ok_not_fuel)
      · refine bind_not_fuel expect_not_fuel fun r h1 => bind_not_fuel ?_ (fun _ _ => ok_not_fuel)
        exact loadDecimal_not_fuel
      · rename_i hb
        have hl : 1 ≤ left s := by simp [left, isValid_of_type hb (by simp)]
        exact bind_not_fuel (ih.2 _ _ (by omega) (by omega)) fun s1 _ => bind_not_fuel expect_not_fuel (fun _ _ => ok_not_fuel)
      · rename_i hb
        have hl : 1 ≤ left s := by simp [left, isValid_of_type hb (by simp)]
        exact parseArray_fin (k := left s - 1) ho.1 (hV _ (by omega)) (by omega) (by omega)
      · exact bind_not_fuel expect_not_fuel (fun _ _ => ok_not_fuel)
      · exact bind_not_fuel expect_not_fuel (fun _ _ => ok_not_fuel)
      · exact bind_not_fuel expect_not_fuel (fun _ _ => ok_not_fuel)
      · exact ok_not_fuel
    · intro s tgt hs _
      rw [parseObjectH]
      unfold objectStep
      refine bind_not_fuel expect_not_fuel fun r h1 => ?_
      split
      · exact ok_not_fuel
      · rename_i hv
        have p1 := (expect_step (by simp) h1 hv).2
        have hV := hV (left s - 1) (by omega)
        have hO : POfin (parseObjectH e H n) (left s - 1) := fun s' tgt' h' => ih.2 s' tgt' (by omega) (by omega)
        split
        · exact ok_not_fuel
        · refine bind_not_fuel ?_ fun _ _ => runPost_not_fuel
          split
          · split
            · exact parseDict_fin ho.1 ho.2 hV hO (by omega) (by omega)
            · exact parseMembers_fin ho.1 hV _ _ _ (by omega) (by omega)
          · exact parseMembers_fin ho.1 hV _ _ _ (by omega) (by omega)

/-- The steps `loadJSONH` takes always suffice. -/
theorem loadJSONH_not_fuel (e : Env) (H : Hooks) (text : Bytes) (m : Mem) (ty : Ty) (a : Nat) : loadJSONH e H text m ty a ≠ .fuel := by
  unfold loadJSONH
  refine bind_not_fuel nextTok_not_fuel fun s h => ?_
  have := (nextTok_left h).1
  dsimp only at this
  refine bind_not_fuel ((parseH_fin e H _).2 _ _ ?_ ?_) fun _ _ => ok_not_fuel
  · unfold fuelFor; omega
  · unfold fuelFor; omega

/-! ### It stays inside -/

theorem value_in {e : Env} {pv : ValueParser} {po : ObjectParser} (hpv : PVin e pv) (hpo : POin e po) {n : Nat} {s : St} {ty : Ty} {a : Nat} {p : Bool}
    {arr : Option Nat} {s' : St} (hf : Into e ty p arr) (h : valueStep e pv po n s (some (ty, a)) p arr = .ok s') :
    OnlyIn a (fieldBytes ty p arr) s.m s'.m := by
  unfold valueStep at h
  split at h
  · obtain ⟨r, h1, h⟩ := Out.bind_eq_ok.1 h
    cases h
    rw [← expect_mem h1]
    exact loadString_in hf
  · obtain ⟨r, h1, h⟩ := Out.bind_eq_ok.1 h
    cases h
    rw [← expect_mem h1]
    exact loadInteger_in hf
  · obtain ⟨r, h1, h⟩ := Out.bind_eq_ok.1 h
    obtain ⟨m, h2, h⟩ := Out.bind_eq_ok.1 h
    cases h
    rw [← expect_mem h1]
    exact loadDecimal_in hf h2
  · obtain ⟨s1, h1, h⟩ := Out.bind_eq_ok.1 h
    obtain ⟨r, h2, h⟩ := Out.bind_eq_ok.1 h
    cases h
    rw [expect_mem h2]
    have close : po s (some (ty, a)) = .ok s1 → OnlyIn a (fieldBytes ty p arr) s.m s1.m := by
      intro h1
      refine (hpo.1 _ _ _ _ hf.1 h1).mono (Nat.le_refl _) ?_
      have : objBytes ty ≤ slotBytes ty p := objBytes_le hf.2.1
      have := slot_le (t := ty) (p := p) hf.2.2
      omega
    unfold objectTarget at h1
    split at h1
    · rename_i h z fl fs bs a' he
      cases he
      split at h1
      · exact (hpo.2 _ _ h1 a).none
      · exact close h1
    · exact close h1
  · exact array_in hpv hf h
  · obtain ⟨r, h1, h⟩ := Out.bind_eq_ok.1 h
    cases h
    rw [← expect_mem h1]
    exact loadInteger_in hf
  · obtain ⟨r, h1, h⟩ := Out.bind_eq_ok.1 h
    cases h
    rw [← expect_mem h1]
    exact loadInteger_in hf
  · obtain ⟨r, h1, h⟩ := Out.bind_eq_ok.1 h
    cases h
    rw [← expect_mem h1]
    exact loadInteger_in hf
  · cases h; exact .refl _ _ _

theorem value_none {e : Env} {pv : ValueParser} {po : ObjectParser} (hpv : PVin e pv) (hpo : POin e po) {n : Nat} {s : St} {p : Bool}
    {arr : Option Nat} {s' : St} (h : valueStep e pv po n s none p arr = .ok s') (a : Nat) : OnlyIn a 0 s.m s'.m := by
  unfold valueStep at h
  split at h
  · obtain ⟨r, h1, h⟩ := Out.bind_eq_ok.1 h
    cases h
    rw [← expect_mem h1]
    show OnlyIn a 0 r.2.m (loadString r.2.m r.1 none)
    rw [(loadNone (e := e) (v := 0) (p := p)).1]
    exact .refl _ _ _
  · obtain ⟨r, h1, h⟩ := Out.bind_eq_ok.1 h
    cases h
    rw [← expect_mem h1]
    have : ∀ v, loadInteger e r.2.m r.1 v none p = r.2.m := fun v => loadNone.2.1
    dsimp only
    rw [this]
    exact .refl _ _ _
  · obtain ⟨r, h1, h⟩ := Out.bind_eq_ok.1 h
    obtain ⟨m, h2, h⟩ := Out.bind_eq_ok.1 h
    cases h
    rw [(loadNone (e := e) (v := 0) (p := p)).2.2] at h2
    cases h2
    rw [← expect_mem h1]
    exact .refl _ _ _
  · obtain ⟨s1, h1, h⟩ := Out.bind_eq_ok.1 h
    obtain ⟨r, h2, h⟩ := Out.bind_eq_ok.1 h
    cases h
    rw [expect_mem h2]
    exact hpo.2 _ _ h1 a
  · exact array_none hpv h a
  · obtain ⟨r, h1, h⟩ := Out.bind_eq_ok.1 h
    cases h
    rw [← expect_mem h1]
    have : ∀ v, loadInteger e r.2.m r.1 v none p = r.2.m := fun v => loadNone.2.1
    dsimp only
    rw [this]
    exact .refl _ _ _
  · obtain ⟨r, h1, h⟩ := Out.bind_eq_ok.1 h
    cases h
    rw [← expect_mem h1]
    have : ∀ v, loadInteger e r.2.m r.1 v none p = r.2.m := fun v => loadNone.2.1
    dsimp only
    rw [this]
    exact .refl _ _ _
  · obtain ⟨r, h1, h⟩ := Out.bind_eq_ok.1 h
    cases h
    rw [← expect_mem h1]
    have : ∀ v, loadInteger e r.2.m r.1 v none p = r.2.m := fun v => loadNone.2.1
    dsimp only
    rw [this]
    exact .refl _ _ _
  · cases h; exact .refl _ _ _

theorem runPost_in {H : Hooks} (hH : Confined H) {ty : Ty} {a : Nat} {s s' : St} (h : H.runPost (some (ty, a)) s = .ok s') :
    OnlyIn a (objBytes ty) s.m s'.m := by
  unfold Hooks.runPost at h
  split at h
  · rename_i hh z fl fs bs a' he
    cases he
    split at h
    · rename_i f hf
      obtain ⟨m, h1, h⟩ := Out.bind_eq_ok.1 h
      cases h
      cases hr : f a s.m <;> rw [hr] at h1 <;> cases h1
      exact hH.post _ _ _ hf _ _ _ hr
    · cases h; exact .refl _ _ _
  · cases h; exact .refl _ _ _

theorem parseH_in (e : Env) {H : Hooks} (hH : Confined H) : ∀ n, PVin e (parseValueH e H n) ∧ POin e (parseObjectH e H n) := by
  intro n
  induction n with
  | zero =>
    refine ⟨⟨?_, ?_⟩, ?_, ?_⟩
    · intro s ty a p arr s' _ h; rw [parseValueH] at h; cases h
    · intro s p arr s' h; rw [parseValueH] at h; cases h
    · intro s ty a s' _ h; rw [parseObjectH] at h; cases h
    · intro s s' h; rw [parseObjectH] at h; cases h
  | succ n ih =>
    refine ⟨⟨?_, ?_⟩, ?_, ?_⟩
    · intro s ty a p arr s' hf h
      rw [parseValueH] at h
      split at h
      · rename_i f a' hl
        obtain ⟨m, h1, h⟩ := Out.bind_eq_ok.1 h
        rw [nextTok_mem h]
        show OnlyIn a _ s.m m
        unfold Hooks.loadOf at hl
        split at hl
        · rename_i hh z fl fs bs b he
          cases he
          cases hx : H.load hh z with
          | none => rw [hx] at hl; cases hl
          | some g =>
            rw [hx] at hl
            cases hl
            cases hr : f s.t a s.m <;> rw [hr] at h1 <;> cases h1
            refine (hH.load _ _ _ hx _ _ _ _ hr).mono (Nat.le_refl _) ?_
            have h2 : z ≤ slotBytes (.cls hh z fl fs bs) p := objBytes_le (t := .cls hh z fl fs bs) hf.2.1
            have h3 := slot_le (t := .cls hh z fl fs bs) (p := p) hf.2.2
            omega
        · cases hl
      · exact value_in ih.1 ih.2 hf h
    · intro s p arr s' h a
      rw [parseValueH] at h
      exact value_none ih.1 ih.2 h a
    · intro s ty a s' hr h
      rw [parseObjectH] at h
      unfold objectStep at h
      obtain ⟨r, h1, h⟩ := Out.bind_eq_ok.1 h
      rw [← expect_mem h1]
      split at h
      · cases h; exact .refl _ _ _
      · split at h
        · cases h; exact .refl _ _ _
        · obtain ⟨s1, h, hpost⟩ := Out.bind_eq_ok.1 h
          refine OnlyIn.trans ?_ (runPost_in hH hpost)
          dsimp only at h
          split at h
          · rename_i hc
            unfold parseDict at h
            split at h
            · cases hr with
              | dict _ z kt vt p hn hs hk ht hp =>
                refine (setElems_inside (a := a) r.2.m [] (Nat.le_refl _) (Nat.lt_add_of_pos_right hs)).trans ?_
                exact dict_in ih.1 ih.2 hk ht hp (Nat.le_refl _) (Nat.lt_add_of_pos_right hs) _ _ _ h
            · split at h
              · cases h
              · cases h
                have : 0 < objBytes ty := by
                  cases hr with
                  | vec _ _ _ _ _ hs _ _ => exact hs
                  | dict _ _ _ _ _ _ hs _ _ _ => exact hs
                  | _ => simp [Ty.isContainer] at hc
                exact setElems_inside _ _ (Nat.le_refl _) (by omega)
          · exact members_in (fun _ _ hx => pair_in ih.1 hr hx) _ _ _ h
    · intro s s' h a
      rw [parseObjectH] at h
      unfold objectStep at h
      obtain ⟨r, h1, h⟩ := Out.bind_eq_ok.1 h
      rw [← expect_mem h1]
      split at h
      · cases h; exact .refl _ _ _
      · split at h
        · cases h; exact .refl _ _ _
        · obtain ⟨s1, h, hpost⟩ := Out.bind_eq_ok.1 h
          cases hpost
          exact members_in (fun _ _ hx => pair_none ih.1 hx a) _ _ _ h

end Clr.JSON
