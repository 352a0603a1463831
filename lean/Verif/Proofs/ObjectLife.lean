import Verif.Props.ObjectLifeSpec
import Verif.Props.ObjectGroup

/-! The library's state and the objects a user knows of. -/
namespace Clr.ObjectLife
open Clr.ObjectGroup (Group Obj Refines)

/-- What is known of a record. -/
def Rec.known (r : Rec) : Known := ⟨r.cls, r.uid, r.group⟩

structure Inv (w : World) (s : Objects) : Prop where
  known : ∀ a, s a = (w a).map Rec.known
  table : ∀ a r, w a = some r → (r.table.isSome ↔ r.cls.isGroup = true)
  groups : ∀ g r t, w g = some r → r.table = some t → ∃ m, Refines t m ∧ ∀ u o, m u = some o ↔ (o.uid = u ∧ In s g u o.addr)
  member : ∀ a k g, s a = some k → k.group = some g → k.uid ≠ 0 ∧ ∃ kg, s g = some kg ∧ kg.cls.isGroup = true

theorem inv_nothing : Inv nothing none where
  known _ := rfl
  table _ _ h := by cases h
  groups _ _ _ h := by cases h
  member _ _ _ h := by cases h

theorem Inv.live {w : World} {s : Objects} (h : Inv w s) {g : Nat} {k : Known} (hk : s g = some k) (hg : k.cls.isGroup = true) :
    ∃ r t, w g = some r ∧ r.known = k ∧ r.table = some t := by
  rw [h.known g] at hk
  cases hw : w g with
  | none => rw [hw] at hk; cases hk
  | some r =>
    rw [hw] at hk
    simp only [Option.map_some, Option.some.injEq] at hk
    have h1 := (h.table g r hw).2 (by rw [← hk] at hg; exact hg)
    obtain ⟨t, ht⟩ := Option.isSome_iff_exists.1 h1
    exact ⟨r, t, rfl, hk, ht⟩

theorem setUp_inv {w : World} {s : Objects} (h : Inv w s) {a : Nat} {c : Cls} {uid : Nat} {grp : Option Nat} (hm : MayStart s a c uid grp) :
    ∃ w', setUp w a c uid grp = .ok w' ∧ Inv w' (fun x => if x = a then some ⟨c, uid, grp⟩ else s x) := by
  have hwa : w a = .none := by
    have := hm.fresh
    rw [h.known a] at this
    simpa using this
  unfold setUp
  rw [if_pos hm.object]
  have hno : ∀ u b, ¬ In s a u b := by
    rintro u b ⟨k, h1, -, h3⟩
    obtain ⟨-, kg, h4, -⟩ := h.member b k a h1 h3
    rw [hm.fresh] at h4; cases h4
  cases grp with
  | none =>
    refine ⟨_, rfl, fun x => ?_, fun x r hx => ?_, fun g r t hg ht => ?_, fun x k g hx hg => ?_⟩
    · by_cases hxa : x = a
      · simp [World.set, hxa, Rec.known]
      · simp only [World.set, if_neg hxa]; exact h.known x
    · by_cases hxa : x = a
      · simp only [World.set, if_pos hxa, Option.some.injEq] at hx
        subst hx
        cases c.isGroup <;> simp
      · simp only [World.set, if_neg hxa] at hx; exact h.table x r hx
    · have hin : ∀ g u b, In (fun x => if x = a then some ⟨c, uid, .none⟩ else s x) g u b ↔ In s g u b := by
        intro g u b
        unfold In
        by_cases hba : b = a
        · simp [hba, hm.fresh]
        · simp [hba]
      simp only [hin]
      by_cases hga : g = a
      · subst hga
        simp only [World.set, if_pos, Option.some.injEq] at hg
        subst hg
        simp only at ht
        split at ht
        · cases ht
          refine ⟨_, Clr.ObjectGroup.refines_init, fun u o => ⟨fun h => (by cases h), fun h => (hno _ _ h.2).elim⟩⟩
        · cases ht
      · simp only [World.set, if_neg hga] at hg; exact h.groups g r t hg ht
    · by_cases hxa : x = a
      · simp only [if_pos hxa, Option.some.injEq] at hx
        subst hx; cases hg
      · simp only [if_neg hxa] at hx
        obtain ⟨h1, kg, h2, h3⟩ := h.member x k g hx hg
        refine ⟨h1, kg, ?_, h3⟩
        have : g ≠ a := fun e => by rw [e, hm.fresh] at h2; cases h2
        simp only [if_neg this]; exact h2
  | some g0 =>
    obtain ⟨hu, ⟨k0, hk0, hg0⟩, hfree⟩ := hm.grouped g0 rfl
    have hga0 : g0 ≠ a := fun e => by rw [e, hm.fresh] at hk0; cases hk0
    obtain ⟨r0, t0, hw0, hr0, ht0⟩ := h.live hk0 hg0
    obtain ⟨m, hr, hmem⟩ := h.groups g0 r0 t0 hw0 ht0
    have hall : Clr.ObjectGroup.Allowed m (.add ⟨a, uid⟩) := by
      refine ⟨hu, ?_⟩
      cases hmu : m uid with
      | none => rfl
      | some o => exact (hfree _ ((hmem uid o).1 hmu).2).elim
    obtain ⟨t', hstep, hr'⟩ := Clr.ObjectGroup.refines_step hr _ hall
    have hadd : Clr.ObjectGroup.addObject t0 ⟨a, uid⟩ = some t' := hstep
    refine ⟨((w.set a (some ⟨c, uid, .none, if c.isGroup then some Clr.ObjectGroup.init else .none⟩)).set g0
      (some { r0 with table := some t' })).set a (some ⟨c, uid, some g0, if c.isGroup then some Clr.ObjectGroup.init else .none⟩), ?_, ?_⟩
    · simp only [addTo, World.set, if_neg hga0, hw0, ht0, if_neg hu, hadd]
    have hin : ∀ g u b, In (fun x => if x = a then some ⟨c, uid, some g0⟩ else s x) g u b ↔ (b = a ∧ u = uid ∧ g = g0) ∨ In s g u b := by
      intro g u b
      unfold In
      by_cases hba : b = a
      · simp [hba, hm.fresh, eq_comm]
      · simp [hba]
    refine ⟨fun x => ?_, fun x r hx => ?_, fun g r t hg ht => ?_, fun x k g hx hg => ?_⟩
    · by_cases hxa : x = a
      · simp [World.set, hxa, Rec.known]
      · by_cases hxg : x = g0
        · subst hxg
          simp only [World.set, if_neg hxa, if_pos, Option.map_some, Rec.known]
          rw [h.known x, hw0]; rfl
        · simp only [World.set, if_neg hxa, if_neg hxg]; exact h.known x
    · by_cases hxa : x = a
      · simp only [World.set, if_pos hxa, Option.some.injEq] at hx
        subst hx
        cases c.isGroup <;> simp
      · by_cases hxg : x = g0
        · subst hxg
          simp only [World.set, if_neg hxa, if_pos, Option.some.injEq] at hx
          subst hx
          have := h.table x r0 hw0
          rw [ht0] at this
          simpa using this
        · simp only [World.set, if_neg hxa, if_neg hxg] at hx; exact h.table x r hx
    · simp only [hin]
      by_cases hga : g = a
      · subst hga
        simp only [World.set, if_pos, Option.some.injEq] at hg
        subst hg
        simp only at ht
        split at ht
        · cases ht
          refine ⟨_, Clr.ObjectGroup.refines_init, fun u o => ⟨fun h => (by cases h), fun h => ?_⟩⟩
          rcases h.2 with h | h
          · exact absurd h.2.2.symm hga0
          · exact (hno _ _ h).elim
        · cases ht
      · by_cases hgg : g = g0
        · subst hgg
          simp only [World.set, if_neg hga, if_pos, Option.some.injEq] at hg
          subst hg
          simp only [Option.some.injEq] at ht
          subst ht
          refine ⟨_, hr', fun u o => ?_⟩
          show (if u = uid then some (⟨a, uid⟩ : Obj) else m u) = some o ↔ _
          by_cases huu : u = uid
          · rw [if_pos huu]
            constructor
            · intro ho; cases ho; exact ⟨huu.symm, .inl ⟨rfl, huu, rfl⟩⟩
            · rintro ⟨h1, ⟨h2, -⟩ | h2⟩
              · cases o; simp_all
              · rw [huu] at h2; exact (hfree _ h2).elim
          · rw [if_neg huu, hmem u o]
            simp [huu]
        · simp only [World.set, if_neg hga, if_neg hgg] at hg
          simp only [hgg, and_false, false_or]
          exact h.groups g r t hg ht
    · have hlive : ∀ y ky, s y = some ky → (if y = a then some (⟨c, uid, some g0⟩ : Known) else s y) = some ky := by
        intro y ky hy
        have : y ≠ a := fun e => by rw [e, hm.fresh] at hy; cases hy
        rw [if_neg this]; exact hy
      by_cases hxa : x = a
      · simp only [if_pos hxa, Option.some.injEq] at hx
        subst hx
        cases hg
        exact ⟨hu, k0, hlive _ _ hk0, hg0⟩
      · simp only [if_neg hxa] at hx
        obtain ⟨h1, kg, h2, h3⟩ := h.member x k g hx hg
        exact ⟨h1, kg, hlive _ _ h2, h3⟩

theorem destroy_inv {w : World} {s : Objects} (h : Inv w s) {a : Nat} (hd : Allowed s (.destroy a)) :
    ∃ w', destroy w (some a) = .ok w' ∧ Inv w' (specStep s (.destroy a)) := by
  obtain ⟨k, hk, hc, hempty⟩ := hd
  have hk' := hk
  rw [h.known a] at hk'
  obtain ⟨r, hw, rfl⟩ := Option.map_eq_some_iff.1 hk'
  have hdt : ¬ (r.cls.hash ≠ groupHash ∧ r.cls.dtor = false) := by
    rintro ⟨h1, h2⟩
    rcases hc with hc | hc
    · exact h1 hc
    · have hc : r.cls.dtor = true := hc
      rw [h2] at hc; cases hc
  simp only [destroy, hw, if_neg hdt]
  have hin : ∀ g u b, In (specStep s (.destroy a)) g u b ↔ b ≠ a ∧ In s g u b := by
    intro g u b
    unfold In specStep
    by_cases hba : b = a <;> simp [hba]
  have hmember : ∀ x kx g, specStep s (.destroy a) x = some kx → kx.group = some g →
      kx.uid ≠ 0 ∧ ∃ kg, specStep s (.destroy a) g = some kg ∧ kg.cls.isGroup = true := by
    intro x kx g hx hg
    by_cases hxa : x = a
    · simp [specStep, hxa] at hx
    · simp only [specStep, if_neg hxa] at hx
      obtain ⟨h1, kg, h2, h3⟩ := h.member x kx g hx hg
      have : g ≠ a := by
        rintro rfl
        exact hempty kx.uid x ⟨kx, hx, rfl, hg⟩
      exact ⟨h1, kg, by simp only [specStep, if_neg this]; exact h2, h3⟩
  unfold destruct
  cases hg : r.group with
  | none =>
    refine ⟨_, rfl, fun x => ?_, fun x rx hx => ?_, fun g rg t hgr ht => ?_, hmember⟩
    · by_cases hxa : x = a
      · simp [World.set, specStep, hxa]
      · simp only [World.set, specStep, if_neg hxa]; exact h.known x
    · by_cases hxa : x = a
      · simp [World.set, hxa] at hx
      · simp only [World.set, if_neg hxa] at hx; exact h.table x rx hx
    · simp only [hin]
      by_cases hga : g = a
      · simp [World.set, hga] at hgr
      · simp only [World.set, if_neg hga] at hgr
        obtain ⟨m, h1, h2⟩ := h.groups g rg t hgr ht
        refine ⟨m, h1, fun u o => (h2 u o).trans ⟨fun ⟨p, q⟩ => ⟨p, ?_, q⟩, fun ⟨p, q⟩ => ⟨p, q.2⟩⟩⟩
        rintro he
        obtain ⟨k', h3, -, h5⟩ := q
        rw [he, hk] at h3
        cases h3
        simp only [Rec.known] at h5
        rw [hg] at h5; cases h5
  | some g0 =>
    obtain ⟨hu, k0, hk0, hg0⟩ := h.member a r.known g0 hk hg
    have hu : r.uid ≠ 0 := hu
    have hga0 : g0 ≠ a := by
      rintro rfl
      exact hempty r.uid g0 ⟨r.known, hk, rfl, hg⟩
    obtain ⟨r0, t0, hw0, hr0, ht0⟩ := h.live hk0 hg0
    obtain ⟨m, hr, hmem⟩ := h.groups g0 r0 t0 hw0 ht0
    have hma : m r.uid = some ⟨a, r.uid⟩ := (hmem _ _).2 ⟨rfl, r.known, hk, rfl, hg⟩
    obtain ⟨t', hstep, hr'⟩ := Clr.ObjectGroup.refines_step hr (.remove ⟨a, r.uid⟩) (.inr hma)
    have hrem : Clr.ObjectGroup.removeObject t0 ⟨a, r.uid⟩ = some t' := hstep
    simp only [hw0, ht0, hrem]
    refine ⟨_, rfl, fun x => ?_, fun x rx hx => ?_, fun g rg t hgr ht => ?_, hmember⟩
    · by_cases hxa : x = a
      · simp [World.set, specStep, hxa]
      · by_cases hxg : x = g0
        · subst hxg
          simp only [World.set, specStep, if_neg hxa, if_pos, Option.map_some, Rec.known]
          rw [h.known x, hw0]; rfl
        · simp only [World.set, specStep, if_neg hxa, if_neg hxg]; exact h.known x
    · by_cases hxa : x = a
      · simp [World.set, hxa] at hx
      · by_cases hxg : x = g0
        · subst hxg
          simp only [World.set, if_neg hxa, if_pos, Option.some.injEq] at hx
          subst hx
          have := h.table x r0 hw0
          rw [ht0] at this
          simpa using this
        · simp only [World.set, if_neg hxa, if_neg hxg] at hx; exact h.table x rx hx
    · simp only [hin]
      by_cases hga : g = a
      · simp [World.set, hga] at hgr
      · by_cases hgg : g = g0
        · subst hgg
          simp only [World.set, if_neg hga, if_pos, Option.some.injEq] at hgr
          subst hgr
          simp only [Option.some.injEq] at ht
          subst ht
          refine ⟨_, hr', fun u o => ?_⟩
          show (if u = r.uid then .none else m u) = some o ↔ _
          by_cases huu : u = r.uid
          · rw [if_pos huu]
            constructor
            · intro ho; cases ho
            · rintro ⟨h1, h2, h3⟩
              have h4 := (hmem u o).2 ⟨h1, h3⟩
              rw [huu, hma] at h4
              cases h4
              exact absurd rfl h2
          · rw [if_neg huu, hmem u o]
            constructor
            · rintro ⟨p, q⟩
              refine ⟨p, ?_, q⟩
              rintro he
              obtain ⟨k', h3, h4, -⟩ := q
              rw [he, hk] at h3
              cases h3
              exact huu h4.symm
            · rintro ⟨p, -, q⟩; exact ⟨p, q⟩
        · simp only [World.set, if_neg hga, if_neg hgg] at hgr
          obtain ⟨m', h1, h2⟩ := h.groups g rg t hgr ht
          refine ⟨m', h1, fun u o => (h2 u o).trans ⟨fun ⟨p, q⟩ => ⟨p, ?_, q⟩, fun ⟨p, q⟩ => ⟨p, q.2⟩⟩⟩
          rintro he
          obtain ⟨k', h3, -, h5⟩ := q
          rw [he, hk] at h3
          cases h3
          simp only [Rec.known] at h5
          rw [hg] at h5
          cases h5
          exact hgg rfl

theorem refused_iff (c : Cls) : (c.hash ≠ groupHash ∧ (c.ctor = false ∨ c.dtor = false)) ↔ ¬ Creatable c := by
  unfold Creatable
  cases c.ctor <;> cases c.dtor <;> simp

theorem step_inv {w : World} {s : Objects} (h : Inv w s) (op : Op) (ha : Allowed s op) :
    ∃ w', step w op = .ok w' ∧ Inv w' (specStep s op) := by
  cases op with
  | create a ty uid grp =>
    cases ty with
    | null => exact ⟨w, rfl, h⟩
    | other => exact ⟨w, rfl, h⟩
    | cls c =>
      by_cases hc : Creatable c
      · have hc' : ¬ (c.hash ≠ groupHash ∧ (c.ctor = false ∨ c.dtor = false)) := fun x => (refused_iff c).1 x hc
        obtain ⟨w', h1, h2⟩ := setUp_inv h (ha hc)
        refine ⟨w', ?_, ?_⟩
        · simp only [step, create, if_neg hc', h1]
        · simp only [specStep, if_pos hc]; exact h2
      · refine ⟨w, ?_, ?_⟩
        · simp only [step, create, if_pos ((refused_iff c).2 hc)]
        · simp only [specStep, if_neg hc]; exact h
  | new a c uid grp =>
    obtain ⟨w', h1, h2⟩ := setUp_inv h ha
    exact ⟨w', by simp only [step, new, h1], h2⟩
  | destroy a => exact destroy_inv h ha

theorem run_inv (ops : List Op) {w : World} {s : Objects} (h : Inv w s) (ha : AllAllowed s ops) :
    ∃ w', run w ops = .ok w' ∧ Inv w' (specRun s ops) := by
  induction ops generalizing w s with
  | nil => exact ⟨w, rfl, h⟩
  | cons op ops ih =>
    obtain ⟨w1, h1, h2⟩ := step_inv h op ha.1
    obtain ⟨w', h3, h4⟩ := ih h2 ha.2
    exact ⟨w', by simp only [run, h1]; exact h3, h4⟩

theorem findIn_inv {w : World} {s : Objects} (h : Inv w s) {g : Nat} {k : Known} (hk : s g = some k) (hg : k.cls.isGroup = true) (u : Nat) :
    ∃ o, findIn w g u = .ok o ∧ ∀ p, o = some p ↔ (p.uid = u ∧ In s g u p.addr) := by
  obtain ⟨r, t, hw, -, ht⟩ := h.live hk hg
  obtain ⟨m, hr, hm⟩ := h.groups g r t hw ht
  refine ⟨m u, ?_, fun p => hm u p⟩
  simp only [findIn, hw, ht, Clr.ObjectGroup.refines_find hr u]

end Clr.ObjectLife
