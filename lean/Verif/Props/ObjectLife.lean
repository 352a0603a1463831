import Verif.Proofs.ObjectLife
/-
C99: objects created and destroyed with object groups.
-/
namespace Clr.ObjectLife
open Clr.ObjectGroup (Obj)

/-- **C99** (partial): after any history of creations and destructions that may be made, every call has returned; the objects there are are those
that have been created and not destroyed, with the class, id and group they were created with; and looking for an id in a live group finds the object
that was created in the group with it, if it is still alive, and nothing otherwise.

Missing from the full property: ids used twice in a group, and groups destroyed before their members, for which it is false
(`C99_same_id_negation`, `C99_group_first_negation`). -/
theorem C99_objects_partial (ops : List Op) (ha : AllAllowed none ops) :
    ∃ w, run nothing ops = .ok w ∧ (∀ a, (w a).map (fun r => (⟨r.cls, r.uid, r.group⟩ : Known)) = specRun none ops a) ∧
      ∀ g k, specRun none ops g = some k → k.cls.isGroup = true → ∀ u,
        ∃ o, findIn w g u = .ok o ∧ ∀ p, o = some p ↔ (p.uid = u ∧ In (specRun none ops) g u p.addr) := by
  obtain ⟨w, h1, h2⟩ := run_inv ops inv_nothing ha
  exact ⟨w, h1, fun a => (h2.known a).symm, fun g k hk hg u => findIn_inv h2 hk hg u⟩

/-- **C99** (partial), what is returned: after such a history `CreateObject` returns null and changes nothing for null, for what is not a class, and
for a class without constructor or destructor; otherwise it returns the new object, which can be found in its group from then on. -/
theorem C99_create_partial (ops : List Op) (ha : AllAllowed none ops) (a : Nat) (ty : TypeArg) (uid : Nat) (grp : Option Nat)
    (hok : Allowed (specRun none ops) (.create a ty uid grp)) :
    ∃ w, run nothing ops = .ok w ∧
      ((∀ c, ty = .cls c → ¬ Creatable c) → create w a ty uid grp = .ok (w, .none)) ∧
      (∀ c, ty = .cls c → Creatable c → ∃ w', create w a ty uid grp = .ok (w', some a) ∧
        (w' a).map (fun r => (⟨r.cls, r.uid, r.group⟩ : Known)) = some ⟨c, uid, grp⟩ ∧
        ∀ g, grp = some g → findIn w' g uid = .ok (some ⟨a, uid⟩)) := by
  obtain ⟨w, h1, h2⟩ := run_inv ops inv_nothing ha
  refine ⟨w, h1, fun hno => ?_, ?_⟩
  · cases ty with
    | null => rfl
    | other => rfl
    | cls c => simp only [create, if_pos ((refused_iff c).2 (hno c rfl))]
  · rintro c rfl hc
    have hm : MayStart (specRun none ops) a c uid grp := hok hc
    obtain ⟨w', h3, h4⟩ := setUp_inv h2 hm
    refine ⟨w', ?_, ?_, ?_⟩
    · have hc' : ¬ (c.hash ≠ groupHash ∧ (c.ctor = false ∨ c.dtor = false)) := fun x => (refused_iff c).1 x hc
      simp only [create, if_neg hc', h3]
    · have := h4.known a
      simp only [if_pos] at this
      exact this.symm
    · rintro g rfl
      obtain ⟨-, ⟨k, hk, hg⟩, -⟩ := hm.grouped g rfl
      have hga : g ≠ a := fun e => by rw [e, hm.fresh] at hk; cases hk
      obtain ⟨o, h5, h6⟩ := findIn_inv h4 (g := g) (k := k) (by simp only [if_neg hga]; exact hk) hg uid
      rw [h5, (h6 ⟨a, uid⟩).2 ⟨rfl, ⟨c, uid, some g⟩, by simp, rfl, rfl⟩]

/-- **C99** (partial), no object is found after its destruction: in no group, under no id. -/
theorem C99_destroyed_is_gone_partial (ops : List Op) (ha : AllAllowed none ops) (a : Nat) (hd : Allowed (specRun none ops) (.destroy a)) :
    ∃ w, run nothing (ops ++ [.destroy a]) = .ok w ∧ w a = .none ∧
      ∀ g k u o, specRun none ops g = some k → k.cls.isGroup = true → g ≠ a → findIn w g u = .ok o → ∀ p, o = some p → p.addr ≠ a := by
  obtain ⟨w, h1, h2⟩ := run_inv ops inv_nothing ha
  obtain ⟨w', h3, h4⟩ := step_inv h2 _ hd
  have hrun : ∀ (l : List Op) (x y : World), run x l = .ok y → run x (l ++ [.destroy a]) = step y (.destroy a) := by
    intro l
    induction l with
    | nil => intro x y hx; cases hx; simp only [List.nil_append, run]; cases step x (.destroy a) <;> rfl
    | cons op l ih =>
      intro x y hx
      simp only [run] at hx
      simp only [List.cons_append, run]
      cases hs : step x op with
      | ok x' => rw [hs] at hx; exact ih x' y hx
      | trap => rw [hs] at hx; cases hx
      | ub => rw [hs] at hx; cases hx
      | hang => rw [hs] at hx; cases hx
  refine ⟨w', by rw [hrun ops _ _ h1, h3], ?_, ?_⟩
  · have := h4.known a
    simp only [specStep, if_pos] at this
    cases hw : w' a with
    | none => rfl
    | some r => rw [hw] at this; cases this
  · intro g k u o hk hg hga ho p hp he
    obtain ⟨o', h5, h6⟩ := findIn_inv h4 (g := g) (k := k) (by simp only [specStep, if_neg hga]; exact hk) hg u
    rw [ho] at h5
    cases h5
    obtain ⟨-, k', h7, -⟩ := (h6 p).1 hp
    rw [he] at h7
    simp [specStep] at h7

/-! ### Where it fails -/

/-- `clobj::ObjectGroup`. -/
def cGroup : Cls := ⟨groupHash, false, false, true, true⟩

/-- A class that derives from `Object`, with constructor and destructor. -/
def cThing : Cls := ⟨1, true, true, true, false⟩

/-- How a history ends. -/
def Out.ended : Out α → Nat
  | .ok _ => 0
  | .trap => 1
  | .ub => 2
  | .hang => 3

/-- What a lookup finds after a history. -/
def foundAfter (ops : List Op) (g u : Nat) : Option (Option Obj) :=
  match run nothing ops with
  | .ok w => match findIn w g u with
    | .ok o => some o
    | _ => .none
  | _ => .none

/-- **C99** is false if two objects of a group have the same id: after both have been destroyed, one of them is still found. -/
theorem C99_same_id_negation : ∃ ops : List Op, ops = [.create 16 (.cls cGroup) 0 .none, .create 32 (.cls cThing) 5 (some 16),
      .create 48 (.cls cThing) 5 (some 16), .destroy 32, .destroy 48] ∧ foundAfter ops 16 5 = some (some ⟨48, 5⟩) ∧
    specRun none ops 48 = .none :=
  ⟨_, rfl, by decide +kernel, by decide +kernel⟩

/-- **C99** is false if a group is destroyed before an object in it: destroying the object uses the group. -/
theorem C99_group_first_negation : (run nothing [.create 16 (.cls cGroup) 0 .none, .create 32 (.cls cThing) 5 (some 16), .destroy 16,
    .destroy 32]).ended = 2 := by decide +kernel

/-- An object that is to be in a group needs an id: an assertion fails for zero. -/
theorem C99_no_id_negation : (run nothing [.create 16 (.cls cGroup) 0 .none, .create 32 (.cls cThing) 0 (some 16)]).ended = 1 := by decide +kernel

/-- `CreateObject` takes any class with constructor and destructor, and sets members that one that does not derive from `Object` has not got. -/
theorem C99_not_an_object_negation : (run nothing [.create 16 (.cls ⟨2, true, true, false, false⟩) 0 .none]).ended = 2 := by decide +kernel

/-- `New` makes objects of any class, but `DestroyObject` fails an assertion for one whose class has no reflected destructor. -/
theorem C99_no_destructor_negation : (run nothing [.new 16 ⟨2, true, false, true, false⟩ 0 .none]).ended = 0 ∧
    (run nothing [.new 16 ⟨2, true, false, true, false⟩ 0 .none, .destroy 16]).ended = 1 := by decide +kernel

/-! ### Cases -/

/-- A group in a group, objects with and without ids, an address used again, refused creations. -/
def story : List Op :=
  [.create 16 (.cls cGroup) 0 .none, .create 32 (.cls cGroup) 7 (some 16), .create 48 (.cls cThing) 5 (some 32), .new 64 cThing 5 (some 16),
   .create 80 .null 1 .none, .create 80 (.cls ⟨3, true, false, true, false⟩) 1 (some 16), .create 80 (.cls cThing) 0 .none, .destroy 48,
   .destroy 32, .create 32 (.cls cThing) 9 (some 16)]

theorem story_allowed : AllAllowed none story := by
  have hG : Creatable cGroup := .inl rfl
  have hT : Creatable cThing := .inr ⟨rfl, rfl⟩
  have hN : ¬ Creatable ⟨3, true, false, true, false⟩ := by decide +kernel
  refine ⟨fun _ => ⟨rfl, rfl, fun g hg => (by cases hg)⟩, fun _ => ⟨by decide +kernel, rfl, ?_⟩, fun _ => ⟨by decide +kernel, rfl, ?_⟩,
    ⟨by decide +kernel, rfl, ?_⟩, trivial, fun h => absurd h hN, fun _ => ⟨by decide +kernel, rfl, fun g hg => (by cases hg)⟩,
    ⟨⟨cThing, 5, some 32⟩, by decide +kernel, .inr rfl, ?_⟩, ⟨⟨cGroup, 7, some 16⟩, by decide +kernel, .inl rfl, ?_⟩,
    fun _ => ⟨by decide +kernel, rfl, ?_⟩, trivial⟩
  all_goals simp only [specStep, if_pos hG, if_pos hT, if_neg hN, none]
  case refine_4 | refine_5 =>
    rintro u b ⟨k, h1, h2, h3⟩
    simp only at h1
    repeat' split at h1
    all_goals first | cases h1; done | (cases h1; simp at h3)
  all_goals
    intro g hg
    cases hg
    refine ⟨by decide, ⟨_, rfl, rfl⟩, ?_⟩
    rintro b ⟨k, h1, h2, h3⟩
    simp only at h1
    repeat' split at h1
    all_goals first | cases h1; done | (cases h1; simp at h2 h3; done) | (cases h1; simp at h2; done) | (cases h1; simp at h3; done)

/-- The hypotheses are met, and the lookups are as they should be. -/
example : ∃ w, run nothing story = .ok w ∧ (∀ a, (w a).map (fun r => (⟨r.cls, r.uid, r.group⟩ : Known)) = specRun none story a) := by
  obtain ⟨w, h1, h2, -⟩ := C99_objects_partial story story_allowed
  exact ⟨w, h1, h2⟩

example : [5, 7, 9].map (foundAfter story 16) = [some (some ⟨64, 5⟩), some .none, some (some ⟨32, 9⟩)] := by decide +kernel

/-- Those of the other two: an object of the story can be destroyed, and another created. -/
example : Allowed (specRun none story) (.destroy 64) ∧ Allowed (specRun none story) (.create 48 (.cls cThing) 5 .none) := by
  have hG : Creatable cGroup := .inl rfl
  have hT : Creatable cThing := .inr ⟨rfl, rfl⟩
  have hN : ¬ Creatable ⟨3, true, false, true, false⟩ := by decide +kernel
  refine ⟨⟨⟨cThing, 5, some 16⟩, by decide +kernel, .inr rfl, ?_⟩, fun _ => ⟨by decide +kernel, rfl, fun g hg => (by cases hg)⟩⟩
  rintro u b ⟨k, h1, h2, h3⟩
  simp only [specRun, story, List.foldl, specStep, if_pos hG, if_pos hT, if_neg hN, none] at h1
  repeat' split at h1
  all_goals first | cases h1; done | (cases h1; simp at h3)

end Clr.ObjectLife
