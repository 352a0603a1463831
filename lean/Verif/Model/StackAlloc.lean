import Verif.Basic
/-
Model of `StackAllocator` (src/clReflectExport/StackAllocator.h:98-157): the arena the exporter
places its image in. Addresses are offsets from the arena's start.
-/
namespace Clr.StackAlloc

/-- `m_Size`, `m_Offset` (src/clReflectExport/StackAllocator.h:153-156). -/
structure Arena where
  size : Nat
  offset : Nat := 0
deriving DecidableEq, Repr

/-- A request: `Alloc<TYPE>(count)`, `sizeof(TYPE)`, and whether `TYPE` is constructed
(`!is_builtin<TYPE>()`). -/
structure Request where
  count : Nat
  elem : Nat
  construct : Bool
deriving DecidableEq, Repr

/-- A block handed out: its offset and length in bytes. -/
structure Block where
  start : Nat
  len : Nat
deriving DecidableEq, Repr

/-- `Alloc` (src/clReflectExport/StackAllocator.h:108-127). The sum `m_Offset + count * sizeof(TYPE)`
is 64 bits wide and then stored in an `unsigned int`; the assertion looks at the stored value.
Constructing elements outside the arena is undefined. -/
def alloc (a : Arena) (r : Request) : Res (Block × Arena) :=
  let off' := (a.offset + r.count * r.elem) % 2 ^ 32
  if off' ≤ a.size then
    if r.construct ∧ a.offset + r.count * r.elem > a.size then .ub
    else .ok (⟨a.offset, r.count * r.elem⟩, { a with offset := off' })
  else .trap

/-- A sequence of requests; the blocks come in the order they were handed out. -/
def run (a : Arena) : List Request → Res (List Block)
  | [] => .ok []
  | r :: rs => do
    let (b, a') ← alloc a r
    let bs ← run a' rs
    pure (b :: bs)

end Clr.StackAlloc
