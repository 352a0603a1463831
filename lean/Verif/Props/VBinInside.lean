import Verif.Proofs.VBinInside
import Verif.Props.VBin
/-
C94: loading a versioned binary changes nothing but the object, whatever the bytes.
-/
namespace Clr.VBin
open Clr.JSON (Ty Flds Tys Mem FldInfo Const Env OnlyIn demoEnv tInt tLevel tInner tBase memOf)
set_option maxRecDepth 100000

/-- **C94** (partial): whatever bytes are read, from wherever in the buffer, nothing outside the object has changed but what has been
allocated for the elements of its containers. That is so when loading returns, when an assertion fails, when the end of the buffer is
read past, and after any number of steps of a loading that never ends.

Missing from the full property: pointers to types larger than pointers and enums of less than four bytes (which stop with `ub`). -/
theorem C94_inside_partial (e : Env) (n : Nat) (t : Ty) (ht : Sits t) (b : Nat) (s : St) :
    (∀ s', load e n t b s = .ok () s' → OnlyIn b t.size s.mem s'.mem) ∧
    ∀ k s', load e n t b s = .stop k s' → k ≠ .ub → OnlyIn b t.size s.mem s'.mem := by
  have := load_in e n ht b s
  exact ⟨fun s' h => by rw [h] at this; exact this, fun k s' h _ => by rw [h] at this; exact this⟩

/-! ### It is not empty -/

theorem inner_sits : Sits tInner := by
  refine .cls _ _ _ _ _ (by decide +kernel) (by decide +kernel) (fun x hx => ?_)
  simp only [Ty.allFields, Flds.list, Tys.allFields, List.append_nil, List.mem_cons, List.not_mem_nil, or_false] at hx
  rcases hx with rfl | rfl <;> exact .prim _ _

theorem doc_sits : Sits tDoc := by
  refine .cls _ _ _ _ _ (by decide +kernel) (by decide +kernel) (fun x hx => ?_)
  simp only [Ty.allFields, Flds.list, Tys.allFields, docFields, tBase, List.append_nil, List.cons_append, List.nil_append, List.mem_cons,
    List.not_mem_nil, or_false] at hx
  rcases hx with rfl | rfl | rfl | rfl | rfl | rfl | rfl
  · exact .enum _ _ _ _
  · exact inner_sits
  · exact .prim _ _
  · exact .vec _ _ _ _ (by decide) inner_sits
  · exact .prim _ _
  · exact .dict _ _ _ _ _ (by decide) (.prim _ _) inner_sits
  · exact .prim _ _

/-- An array that is longer than the field's: the first two are loaded, the third is passed over. -/
example : view (load demoEnv 100 tDoc 200 ⟨fieldHeader tDoc.hash.toNat 0 44 ++
      (fieldHeader tInt.hash.toNat (Hash.hashText b!"pair").toNat 32 ++ containerHeader 3 none tInt false ++ [1, 0, 0, 0, 2, 0, 0, 0, 3, 0, 0, 0]),
      0, memOf [], false⟩) 216 12 = (none, 56, false, [1, 0, 0, 0, 2, 0, 0, 0, 0, 0, 0, 0]) := by decide +kernel

/-- An array of more than there are bytes: an assertion stops it, and the first is loaded. -/
example : view (load demoEnv 100 tDoc 200 ⟨fieldHeader tDoc.hash.toNat 0 44 ++
      (fieldHeader tInt.hash.toNat (Hash.hashText b!"pair").toNat 32 ++ containerHeader 3 none tInt false ++ [1, 0, 0, 0]),
      0, memOf [], false⟩) 216 12 = (some .trap, 48, false, [1, 0, 0, 0, 0, 0, 0, 0, 0, 0, 0, 0]) := by decide +kernel

/-! ### What it is false of -/

/-- A class of sixteen bytes with a number at offset 12. -/
def tFar : Ty := .cls (Hash.hashText b!"Far") 16 0 (.cons ⟨b!"x", 12, 0, false, none⟩ tInt .nil) .nil

/-- A class with just a pointer to it, of eight bytes. -/
def tToFar : Ty := .cls (Hash.hashText b!"ToFar") 8 0 (.cons ⟨b!"p", 0, 0, true, none⟩ tFar .nil) .nil

/-- What saving a `ToFar` writes when the number is 5. -/
def farData : Bytes := fieldHeader tToFar.hash.toNat 0 28 ++ (fieldHeader tFar.hash.toNat (Hash.hashText b!"p").toNat 16 ++
  (fieldHeader tInt.hash.toNat (Hash.hashText b!"x").toNat 4 ++ [5, 0, 0, 0]))

/-- **C94** is false of the code: what a pointer points to is loaded over the pointer and what follows it. -/
theorem C94_pointer_negation : ∃ s', tToFar.size = 8 ∧ load demoEnv 100 tToFar 100 ⟨farData, 0, memOf [], false⟩ = .ok () s' ∧
    (memOf []).byte 112 = 0 ∧ s'.mem.byte 112 = 5 ∧ ¬ OnlyIn 100 8 (memOf []) s'.mem := by
  have h : view (load demoEnv 100 tToFar 100 ⟨farData, 0, memOf [], false⟩) 112 1 = (none, 40, false, [5]) := by decide +kernel
  revert h
  generalize hr : load demoEnv 100 tToFar 100 ⟨farData, 0, memOf [], false⟩ = r
  intro h
  cases r with
  | ok v s' =>
    have hb : s'.mem.byte 112 = 5 := by
      simp only [view, Out.why, Out.st, Mem.read, Prod.mk.injEq] at h
      simpa using h.2.2.2
    refine ⟨s', rfl, rfl, rfl, hb, fun ho => ?_⟩
    have := ho.bytes 112 (by decide) (by decide)
    rw [hb] at this
    exact absurd this (by decide +kernel)
  | stop k s' => simp [view, Out.why] at h

end Clr.VBin
