import Verif.Props.ScanStoreSpec
import Verif.Props.EndToEnd
/-!
What a program reads in memory, said in terms of the declarations of its translation units (specification for C91).
-/
namespace Clr.ScanStore
open Clr.DB Clr.Build Clr.Layout Clr.Image Clr.Tools
open Clr.ScanUnit (Item Has)
open Clr.ScanTypes (Declares HasName)
open Clr.Export (K typeKinds)

/-- The name stands for a type of this kind in the unit: one of the base types, a class, an enum or an instance of a template. -/
def TUnit.Means (u : TUnit) (k : K) (n : Bytes) : Prop :=
  match k with
  | .type => ∃ b ∈ builtIn, b.1 = n
  | .cls => u.Class n
  | .enum => u.Enum n
  | .instance => ∃ id, HasName u.env (.inst id) n
  | _ => False

/-- The name stands for such a type, and if that is an instance of a template, the declarations use it. -/
def TUnit.Type (u : TUnit) (k : K) (n : Bytes) : Prop := u.Means k n ∧ (k = .instance → u.Instance n)

/-- The translation units agree on what their names stand for, as those of one program do. -/
structure OneMeaning (us : List TUnit) : Prop where
  /-- a name is that of types of one kind only -/
  kinds : ∀ u ∈ us, ∀ v ∈ us, ∀ k l n, u.Means k n → v.Means l n → k = l
  /-- a function is not named like a class, or like a scope that has fields -/
  functions : ∀ u ∈ us, ∀ v ∈ us, ∀ p n, u.Function p n → ¬ v.Class n ∧ ∀ f type op isConst offset, ¬ v.Field n f type op isConst offset
  /-- all definitions of a class say the same -/
  sizes : ∀ u ∈ us, ∀ v ∈ us, ∀ n z z', u.Defines n z → v.Defines n z' → z = z' ∧ z < 0xFFFFFFFF
  fields : ∀ u ∈ us, ∀ v ∈ us, ∀ cls n type op isConst offset type' op' isConst' offset', u.Field cls n type op isConst offset →
    v.Field cls n type' op' isConst' offset' → type = type' ∧ op = op' ∧ isConst = isConst' ∧ offset = offset'
  constants : ∀ u ∈ us, ∀ v ∈ us, ∀ enum n x y, u.Constant enum n x → v.Constant enum n y → x = y

/-- All types in the declarations of the function, whatever the overload, are types of some unit. -/
def TypesOf (us : List TUnit) (n : Bytes) : Prop :=
  ∀ v ∈ us, ∀ x ∈ v.decls, IsFunction x.2 → x.2.name = n → ∀ name t j, Has x n name t → Declares v.env t j →
    ∃ w ∈ us, ∃ k, w.Type k j.name

/-- What a program finds in memory, and what it reads there. -/
structure Sees (us : List TUnit) (base database : Nat) (mem : Bytes) : Prop where
  /-- types are found by name, are of their kind and know their name -/
  types : ∀ u ∈ us, ∀ k ∈ typeKinds, ∀ n, u.Type k n → ∃ a, getType base mem (hashOf n) = .ok a ∧ a ≠ 0 ∧
    PrimitiveAt base mem database a k ⟨hashOf n, n⟩
  /-- no others are -/
  onlyTypes : ∀ h a, getType base mem h = .ok a → a ≠ 0 → ∃ u ∈ us, ∃ k ∈ typeKinds, ∃ n, u.Means k n ∧ h = hashOf n ∧
    PrimitiveAt base mem database a k ⟨hashOf n, n⟩
  /-- the size of a class that one of the units defines -/
  sizes : ∀ u ∈ us, ∀ n z, u.Class n → u.Defines n z → ∀ a, getType base mem (hashOf n) = .ok a →
    read base mem (a + offsetOf type b!"size") 8 = .ok z
  /-- fields are found in their class, and have the type, modifiers and place they are declared with -/
  fields : ∀ u ∈ us, ∀ cls n type op isConst offset, u.Field cls n type op isConst offset → (∃ v ∈ us, v.Class cls) →
    (∃ v ∈ us, ∃ k ∈ typeKinds, v.Type k type) → ∀ a, getType base mem (hashOf cls) = .ok a →
    ∃ b, findPrimitive base mem (a + offsetOf Layout.cls b!"fields") (hashOf n) = .ok b ∧ b ≠ 0 ∧
      FieldAt base mem database a b { name := ⟨hashOf n, n⟩, parent := ⟨hashOf cls, cls⟩, type := ⟨hashOf type, type⟩,
                                      qualifier := ⟨writtenOp op, isConst⟩, offset := Int32.ofInt offset }
  /-- no others are -/
  onlyFields : ∀ u ∈ us, ∀ cls, u.Class cls → ∀ a, getType base mem (hashOf cls) = .ok a →
    ∀ h b, findPrimitive base mem (a + offsetOf Layout.cls b!"fields") h = .ok b → b ≠ 0 →
      ∃ v ∈ us, ∃ n type op isConst offset, v.Field cls n type op isConst offset ∧ h = hashOf n
  /-- constants are found in their enum, and have their value -/
  constants : ∀ u ∈ us, ∀ enum n x, u.Constant enum n x → ∀ a, getType base mem (hashOf enum) = .ok a →
    ∃ b, findPrimitive base mem (a + offsetOf Layout.enum b!"constants") (hashOf n) = .ok b ∧ b ≠ 0 ∧
      ConstantAt base mem database a b { name := ⟨hashOf n, n⟩, parent := ⟨hashOf enum, enum⟩, value := x }
  /-- no others are -/
  onlyConstants : ∀ u ∈ us, ∀ enum, u.Enum enum → ∀ a, getType base mem (hashOf enum) = .ok a →
    ∀ h b, findPrimitive base mem (a + offsetOf Layout.enum b!"constants") h = .ok b → b ≠ 0 →
      ∃ v ∈ us, ∃ n x, v.Constant enum n x ∧ h = hashOf n
  /-- methods are found in their class -/
  methods : ∀ u ∈ us, ∀ cls n, u.Function cls n → TypesOf us n → (∃ v ∈ us, v.Class cls) → ∀ a, getType base mem (hashOf cls) = .ok a →
    ∃ b, findPrimitive base mem (a + offsetOf Layout.cls b!"methods") (hashOf n) = .ok b ∧ b ≠ 0 ∧
      PrimitiveAt base mem database b .function ⟨hashOf n, n⟩
  /-- no others are -/
  onlyMethods : ∀ u ∈ us, ∀ cls, u.Class cls → ∀ a, getType base mem (hashOf cls) = .ok a →
    ∀ h b, findPrimitive base mem (a + offsetOf Layout.cls b!"methods") h = .ok b → b ≠ 0 → ∃ v ∈ us, ∃ n, v.Function cls n ∧ h = hashOf n
  /-- namespaces are found by name -/
  namespaces : ∀ u ∈ us, ∀ n, u.Namespace n → ∃ a, getEntry base mem .space (hashOf n) = .ok a ∧ a ≠ 0 ∧
    PrimitiveAt base mem database a .space ⟨hashOf n, n⟩
  /-- no others are -/
  onlyNamespaces : ∀ h a, getEntry base mem .space h = .ok a → a ≠ 0 → ∃ u ∈ us, ∃ n, u.Namespace n ∧ h = hashOf n
  /-- functions are found in their namespace -/
  functions : ∀ u ∈ us, ∀ q n, u.Function q n → TypesOf us n → (∃ v ∈ us, v.Namespace q) →
    ∀ a, getEntry base mem .space (hashOf q) = .ok a →
    ∃ b, findPrimitive base mem (a + offsetOf ns b!"functions") (hashOf n) = .ok b ∧ b ≠ 0 ∧
      PrimitiveAt base mem database b .function ⟨hashOf n, n⟩
  /-- no others are -/
  onlyFunctions : ∀ u ∈ us, ∀ q, u.Namespace q → ∀ a, getEntry base mem .space (hashOf q) = .ok a →
    ∀ h b, findPrimitive base mem (a + offsetOf ns b!"functions") h = .ok b → b ≠ 0 → ∃ v ∈ us, ∃ n, v.Function q n ∧ h = hashOf n

end Clr.ScanStore
