/-
Shared vocabulary of the model.

* `Res` is the outcome of running a piece of C++: a value, a failed `Assert`/`assert`
  (the program stops, nothing later happens), or undefined behaviour (nothing can be said).
* `b!"..."` writes a byte string as an explicit list of byte literals.
-/
namespace Clr

/-- Outcome of a computation of the C++ program.
`trap` : `clcpp::internal::Assert` (src/clReflectCpp/clcpp.cpp:302-321) or `assert` fired.
`ub`   : undefined behaviour (out-of-bounds access, signed overflow, null dereference, ...). -/
inductive Res (α : Type u) where
  | ok (a : α)
  | trap
  | ub
deriving DecidableEq, Repr

namespace Res

@[simp] def bind {α : Type u} {β : Type v} : Res α → (α → Res β) → Res β
  | ok a, f => f a
  | trap, _ => trap
  | ub, _ => ub

@[simp] def map {α : Type u} {β : Type v} (f : α → β) : Res α → Res β
  | ok a => ok (f a)
  | trap => trap
  | ub => ub

instance : Monad Res where
  pure := ok
  bind := bind

@[simp] theorem pure_eq {α : Type u} (a : α) : (pure a : Res α) = ok a := rfl
@[simp] theorem bind_ok {α β : Type u} (a : α) (f : α → Res β) : (Bind.bind (ok a) f) = f a := rfl
@[simp] theorem bind_trap {α β : Type u} (f : α → Res β) : (Bind.bind (trap : Res α) f) = trap := rfl
@[simp] theorem bind_ub {α β : Type u} (f : α → Res β) : (Bind.bind (ub : Res α) f) = ub := rfl

theorem bind_eq_ok {α β : Type u} {x : Res α} {f : α → Res β} {b : β} :
    Bind.bind x f = ok b ↔ ∃ a, x = ok a ∧ f a = ok b := by
  cases x <;> simp

end Res

/-- A C `assert`. -/
def guardTrap (c : Bool) : Res Unit := if c then .ok () else .trap

/-- Byte strings. -/
abbrev Bytes := List UInt8

/-- `b!"abc"` is `[97, 98, 99]`, fully elaborated to literals (ASCII only). -/
syntax:max "b!" str : term

macro_rules
  | `(b! $s:str) => do
    let cs := s.getString.toList.map fun c => Lean.Syntax.mkNumLit (toString c.toNat)
    let ts : Array (Lean.TSyntax `term) := (cs.map fun c => ⟨c.raw⟩).toArray
    `(([ $ts,* ] : List UInt8))

example : b!"ab\t" = [97, 98, 9] := rfl

end Clr
