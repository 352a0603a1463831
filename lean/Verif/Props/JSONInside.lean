import Verif.Proofs.JSONInside
import Verif.Props.JSON
/-
C93: loading JSON changes nothing but the object, whatever the text.
-/
namespace Clr.JSON
set_option maxRecDepth 100000

/-- **C93** (partial): whatever the text, if loading ends then nothing outside the object has changed but what has been allocated for
the elements of its containers.

Missing from the full property: pointers to classes, enums of less than four bytes and types whose names the loader takes for those of
numbers, of which it is false. -/
theorem C93_inside_partial (e : Env) (text : Bytes) (m m' : Mem) (t : Ty) (ht : Room e t) (a : Nat) (err : Err)
    (h : loadJSON e text m t a = .ok (err, m')) : OnlyIn a t.size m m' := by
  unfold loadJSON at h
  obtain ⟨s1, h1, h⟩ := Out.bind_eq_ok.1 h
  obtain ⟨s2, h2, h⟩ := Out.bind_eq_ok.1 h
  cases h
  have m1 : s1.m = m := nextTok_mem h1
  rw [← m1]
  exact ((parse_in e (fuelFor text)).2.1 _ _ _ _ ht h2).mono (Nat.le_refl _) (by have := objBytes_le (t := t) (p := false) (by simp); simpa [slotBytes] using this)

/-! ### It is not empty -/

/-- A class with a number, an array, a pointer, numbers in a container and a base type. -/
def tRoomy : Ty :=
  .cls 7 64 0 (.cons ⟨b!"a", 4, 0, false, none⟩ tInt (.cons ⟨b!"b", 8, 0, false, some 3⟩ tInt (.cons ⟨b!"p", 24, 0, true, none⟩ tInt
    (.cons ⟨b!"c", 32, 0, false, none⟩ (.vec 9 16 tInt false) (.cons ⟨b!"d", 48, 0, false, none⟩ (.dict 10 16 tInt (.cls 11 4 0 .nil .nil) false) .nil)))))
    (.cons (.cls 12 4 0 (.cons ⟨b!"z", 0, 0, false, none⟩ tInt .nil) .nil) .nil)

theorem roomy_room : Room demoEnv tRoomy := by
  have hi : Room demoEnv tInt := .prim _ _ (by unfold NumFits; decide +kernel)
  refine .cls _ _ _ _ _ (by unfold NumFits; decide +kernel) (by decide +kernel) (by decide +kernel) ?_ ?_
  · intro x hx hp
    simp only [Ty.allFields, Flds.list, Tys.allFields, List.append_nil, List.cons_append, List.nil_append, List.mem_cons, List.not_mem_nil, or_false] at hx
    rcases hx with rfl | rfl | rfl | rfl | rfl | rfl
    case inr.inr.inl => exact ⟨.inl ⟨_, _, rfl⟩, by decide⟩
    all_goals cases hp
  · intro x hx
    simp only [Ty.allFields, Flds.list, Tys.allFields, List.append_nil, List.cons_append, List.nil_append, List.mem_cons, List.not_mem_nil, or_false] at hx
    rcases hx with rfl | rfl | rfl | rfl | rfl | rfl
    · exact hi
    · exact hi
    · exact hi
    · exact .vec _ _ _ _ (by unfold NumFits; decide +kernel) (by decide) hi (by simp)
    · exact .dict _ _ _ _ _ (by unfold NumFits; decide +kernel) (by decide) hi
        (.cls _ _ _ _ _ (by unfold NumFits; decide +kernel) (by decide) (by decide) (fun x hx => by cases hx) (fun x hx => by cases hx)) (by simp)
    · exact hi

/-- Too many entries for the array, an object where a number is expected, members the class does not have, and a text that ends
in the middle. -/
example : outcome (loadJSON demoEnv b!"{\"a\":5,\"z\":7,\"b\":[1,2,3],\"a\":{\"x\":8},\"c\":[1,2],\"q\":[1,{" (memOf []) tRoomy 100) 100 20 =
    some (.unexpectedToken, [7, 0, 0, 0, 5, 0, 0, 0, 1, 0, 0, 0, 2, 0, 0, 0, 3, 0, 0, 0]) := by decide +kernel

example : (match loadJSON demoEnv b!"{\"b\":[1,2,3,4]}" (memOf []) tRoomy 100 with | .trap => true | _ => false) = true := by decide +kernel

/-! ### What it is false of -/

/-- A class with just a pointer, of eight bytes, to a class with a number at offset 12. -/
def tPointer : Ty := .cls 7 8 0 (.cons ⟨b!"p", 0, 0, true, none⟩ (.cls 8 16 0 (.cons ⟨b!"x", 12, 0, false, none⟩ tInt .nil) .nil) .nil) .nil

/-- **C93** is false of the code: an object given for a pointer is loaded over the pointer and what follows it. -/
theorem C93_object_for_pointer_negation : ∃ err m', tPointer.size = 8 ∧
    loadJSON demoEnv b!"{\"p\":{\"x\":5}}" (memOf []) tPointer 100 = .ok (err, m') ∧
    (memOf []).byte 112 = 0 ∧ m'.byte 112 = 5 ∧ ¬ OnlyIn 100 8 (memOf []) m' := by
  have h : outcome (loadJSON demoEnv b!"{\"p\":{\"x\":5}}" (memOf []) tPointer 100) 112 1 = some (.none, [5]) := by decide +kernel
  revert h
  generalize hr : loadJSON demoEnv _ _ _ _ = r
  intro h
  cases r with
  | ok r =>
    have hb : r.2.byte 112 = 5 := by simpa [outcome, Mem.read] using (Prod.mk.inj (Option.some.inj h)).2
    refine ⟨r.1, r.2, rfl, rfl, rfl, hb, fun ho => ?_⟩
    have := ho.bytes 112 (by decide) (by decide)
    rw [hb] at this
    exact absurd this (by decide +kernel)
  | _ => simp [outcome] at h

/-- A class with just an enum of one byte. -/
def tSmallEnum : Ty := .cls 7 1 0 (.cons ⟨b!"e", 0, 0, false, none⟩ (.enum 8 1 [⟨b!"A", 0x01010101⟩] false) .nil) .nil

/-- **C93** is false of the code: four bytes are written to an enum of one. -/
theorem C93_small_enum_negation : ∃ err m', tSmallEnum.size = 1 ∧
    loadJSON demoEnv b!"{\"e\":\"A\"}" (memOf []) tSmallEnum 100 = .ok (err, m') ∧
    (memOf []).byte 103 = 0 ∧ m'.byte 103 = 1 ∧ ¬ OnlyIn 100 1 (memOf []) m' := by
  have h : outcome (loadJSON demoEnv b!"{\"e\":\"A\"}" (memOf []) tSmallEnum 100) 103 1 = some (.none, [1]) := by decide +kernel
  revert h
  generalize hr : loadJSON demoEnv _ _ _ _ = r
  intro h
  cases r with
  | ok r =>
    have hb : r.2.byte 103 = 1 := by simpa [outcome, Mem.read] using (Prod.mk.inj (Option.some.inj h)).2
    refine ⟨r.1, r.2, rfl, rfl, rfl, hb, fun ho => ?_⟩
    have := ho.bytes 103 (by decide) (by decide)
    rw [hb] at this
    exact absurd this (by decide +kernel)
  | _ => simp [outcome] at h

end Clr.JSON
