import Verif.Model.Layout
/-
C58 Every pointer of the exported image is relocated.
-/
namespace Clr.Layout
open Clr Clr.Reloc

/-- The offsets of the pointers of a type that are stored in the image. -/
def storedPointers (s : Struct) : List Nat := (s.lay.ptrs.filter (·.2)).map (·.1)

/-- C58: for every type that is exported, the registered pointer offsets are exactly the pointers stored in it,
each once; the stride is the size of the type; and the offsets of two pointers are at least 8 bytes apart, also
from those of the neighbouring object. -/
theorem C58_every_pointer_registered :
    ∀ r ∈ registered, r.2.stride = r.1.lay.size ∧ r.2.offsets.isPerm (storedPointers r.1) = true ∧
      r.2.offsets.Pairwise (fun a b => a + 8 ≤ b ∨ b + 8 ≤ a) ∧ ∀ o ∈ r.2.offsets, o + 8 ≤ r.2.stride := by
  decide +kernel

/-- The sizes and offsets the loader model uses are those of the layout. -/
theorem C58_loader_layout :
    databaseMem.lay.size = memSize ∧ offsetOf databaseMem b!"functions" = functionsAt ∧
      function.lay.size = functionStride ∧ offsetOf function b!"address" = addressAt ∧
      offsetOf primitive b!"database" = databaseAt ∧
      primitiveArrays =
        [(b!"types", type), (b!"enum_constants", enumConstant), (b!"enums", enum), (b!"fields", field),
         (b!"functions", function), (b!"classes", cls), (b!"templates", template), (b!"template_types", templateType),
         (b!"namespaces", ns), (b!"flag_attributes", flagAttribute), (b!"int_attributes", intAttribute),
         (b!"float_attributes", intAttribute), (b!"primitive_attributes", primitiveAttribute),
         (b!"text_attributes", textAttribute)].map (fun p => (offsetOf databaseMem p.1, p.2.lay.size)) := by
  decide +kernel

theorem pairwise_range_objects {offsets : List Nat} {stride start : Nat}
    (hp : offsets.Pairwise (fun a b => a + 8 ≤ b ∨ b + 8 ≤ a)) (hs : ∀ o ∈ offsets, o + 8 ≤ stride) (n : Nat) :
    ((List.range n).flatMap fun j => offsets.map fun o => start + j * stride + o).Pairwise
      (fun a b => a + 8 ≤ b ∨ b + 8 ≤ a) := by
  rw [List.pairwise_flatMap]
  constructor
  · intro j _
    rw [List.pairwise_map]
    exact hp.imp (fun h => by omega)
  · refine (List.pairwise_lt_range).imp ?_
    intro i j hij x hx y hy
    rw [List.mem_map] at hx hy
    obtain ⟨o1, h1, rfl⟩ := hx
    obtain ⟨o2, h2, rfl⟩ := hy
    have := Nat.mul_le_mul_right stride (show i + 1 ≤ j from hij)
    rw [Nat.succ_mul] at this
    have := hs o1 h1
    omega

/-- C58: within any exported array of any length the pointer slots do not overlap, whatever type it holds. -/
theorem C58_array_slots_apart (r : Struct × Schema) (hr : r ∈ registered) (start n : Nat) :
    ((List.range n).flatMap fun j => r.2.offsets.map fun o => start + j * r.1.lay.size + o).Pairwise
      (fun a b => a + 8 ≤ b ∨ b + 8 ≤ a) := by
  obtain ⟨h1, -, h3, h4⟩ := C58_every_pointer_registered r hr
  rw [← h1]
  exact pairwise_range_objects h3 h4 n

example : (databaseMem, schemaDatabase) ∈ registered ∧ schemaDatabase.offsets.length = 25 ∧ cls.lay.size = 248 := by
  decide +kernel

end Clr.Layout
