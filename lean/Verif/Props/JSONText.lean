import Verif.Proofs.JSONText
import Verif.Props.JSON
/-
C97: the text that saving an object produces.
-/
namespace Clr.JSON

section
attribute [local irreducible] Hash.hashText

/-- **C97**: the text that `SaveJSON` produces is the text of the object, in any memory and with any options: a number in decimal,
`unsigned long long` and the bits of floating point numbers in lower case hexadecimal, an enum by the names of its constants, a class
member by member with the names of its fields, in order, without the transient ones and the pointers that are not mapped, an array with
each of its elements, at their addresses. White space is only in formatted text, and only around the braces of objects and after the
commas between members. -/
theorem C97_saved_text (e : Env) (p : Platform) (hp : 1 ≤ p.longBytes ∧ 1 ≤ p.wcharBytes) (hl : setupDispatch p = .ok e.lut) (o : Opts) (m : Mem)
    (t : Ty) (ht : Showable e p o t) (indent a : Nat) (text : Bytes) (h : saveJSON e o m t indent a = .ok text) : Shows e p o m t a text := by
  obtain ⟨lut, h1, h2, -, -⟩ := C35_dispatch p
  rw [hl] at h1
  injection h1 with h1
  subst h1
  exact obj_shows hp h2 ht indent a text h

/-- The number types on their own. -/
theorem C97_numbers (fl : Floats) (hexFloats : Bool) (k : Num) (bs text : Bytes) (hk : 1 ≤ k.size) (hl : bs.length = k.size)
    (h : saveNum fl hexFloats k bs = .ok text) : NumText fl hexFloats k bs text := saveNum_text hk hl h

end

/-! ### Cases -/

/-- `struct Base { int z; }; struct Text : Base { unsigned long long u; E e; int b[2]; int* q; int t; int* r[2]; }`, where `e` has flags
and `t` is transient. -/
def tText : Ty :=
  .cls 7 64 0 (.cons ⟨b!"u", 8, 0, false, none⟩ (.prim (Hash.hashText b!"unsigned long long") 8)
    (.cons ⟨b!"e", 16, 0, false, none⟩ (.enum 8 4 [⟨b!"A", 1⟩, ⟨b!"B", 2⟩, ⟨b!"C", 4⟩] true)
    (.cons ⟨b!"b", 20, 0, false, some 2⟩ tInt
    (.cons ⟨b!"q", 32, 0, true, none⟩ tInt
    (.cons ⟨b!"t", 40, 1, false, none⟩ tInt
    (.cons ⟨b!"r", 48, 0, true, some 2⟩ tInt .nil))))))
    (.cons (.cls 12 4 0 (.cons ⟨b!"z", 0, 0, false, none⟩ tInt .nil) .nil) .nil)

/-- A pointer interface that maps everything. -/
def mapsAll : Opts := { ptrs := some { can := fun _ _ => true, map := fun p => BitVec.ofNat 32 (p + 1) } }

def textBytes : Bytes :=
  [255, 255, 255, 255, 0, 0, 0, 0, 0xCD, 0xAB, 0, 0, 0, 0, 0, 0, 5, 0, 0, 0, 3, 0, 0, 0, 4, 0, 0, 0, 0, 0, 0, 0, 9, 0, 0, 0, 0, 0, 0, 0,
   1, 1, 1, 1, 0, 0, 0, 0, 10, 0, 0, 0, 0, 0, 0, 0, 20, 0, 0, 0, 0, 0, 0, 0]

theorem text_showable : Showable demoEnv demoPlatform mapsAll tText := by
  have hi : Showable demoEnv demoPlatform mapsAll tInt := .prim (name := b!"int") (k := .int 4) (by decide) rfl
  have hm : AllMapped mapsAll := by intro h p; simp [Opts.mapPtr, mapsAll]
  have hsort : ∀ fs, SortOk demoEnv mapsAll fs := fun fs h => by cases h
  refine .cls (by decide) ⟨hsort _, ⟨hsort _, trivial⟩, trivial⟩ (fun _ _ _ _ => hm) ?_
  intro x hx hs hp
  simp only [Ty.allFields, Flds.list, Tys.allFields, List.append_nil, List.cons_append, List.nil_append, List.mem_cons, List.not_mem_nil, or_false] at hx
  rcases hx with rfl | rfl | rfl | rfl | rfl | rfl | rfl
  · exact .prim (name := b!"unsigned long long") (k := .hex 8) (by decide) rfl
  · exact .enum ..
  · exact hi
  · cases hp
  · exact hi
  · cases hp
  · exact hi

theorem text_saved : saveJSON demoEnv mapsAll (memOf textBytes) tText 0 0 =
    .ok b!"{\"u\":0xabcd,\"e\":\"A|C\",\"b\":[3,4],\"q\":10,\"r\":[11,21],\"z\":-1}" := by decide +kernel

example : Shows demoEnv demoPlatform mapsAll (memOf textBytes) tText 0
    b!"{\"u\":0xabcd,\"e\":\"A|C\",\"b\":[3,4],\"q\":10,\"r\":[11,21],\"z\":-1}" :=
  C97_saved_text demoEnv demoPlatform (by decide) (setup_eq _) mapsAll _ _ text_showable 0 0 _ text_saved

/-- Without a pointer interface the pointers are left out; in order of the offsets the base's member still comes last. -/
example : saveJSON demoEnv { sort := true } (memOf textBytes) tText 0 0 =
    .ok b!"{\"u\":0xabcd,\"e\":\"A|C\",\"b\":[3,4],\"z\":-1}" := by decide +kernel

end Clr.JSON
