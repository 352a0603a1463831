import Verif.Model.JSONHooks
import Verif.Model.JSONGrammar
import Verif.Props.JSONInsideSpec
/-
C101: what is asked of the functions of the user, and when they are called.
-/
namespace Clr.JSON

/-- The functions change nothing but the object they are given, and what they allocate. -/
structure Confined (H : Hooks) : Prop where
  load : ∀ h z f, H.load h z = some f → ∀ t a m m', f t a m = .ok m' → OnlyIn a z m m'
  post : ∀ h z f, H.post h z = some f → ∀ a m m', f a m = .ok m' → OnlyIn a z m m'

mutual
/-- No class in the type has functions. -/
def NoFunctions (H : Hooks) : Ty → Prop
  | .prim _ _ => True
  | .enum _ _ _ _ => True
  | .cls h z _ fs bs => H.load h z = none ∧ H.post h z = none ∧ NoFunctionsFlds H fs ∧ NoFunctionsTys H bs
  | .tmpl _ _ bs => NoFunctionsTys H bs
  | .vec _ _ elem _ => NoFunctions H elem
  | .dict _ _ key elem _ => NoFunctions H key ∧ NoFunctions H elem

/-- Nor in the fields. -/
def NoFunctionsFlds (H : Hooks) : Flds → Prop
  | .nil => True
  | .cons _ t r => NoFunctions H t ∧ NoFunctionsFlds H r

/-- Nor in the bases. -/
def NoFunctionsTys (H : Hooks) : Tys → Prop
  | .nil => True
  | .cons t r => NoFunctions H t ∧ NoFunctionsTys H r
end

/-- A text of a single value that is neither an object nor an array, and the token that stands for it: the text of a string, or what
the lexer makes of a number (C27, C60). -/
inductive Single (fl : Floats) : Bytes → Tok → Prop
  | str {s : Bytes} (h : JStr s) : Single fl (34 :: (s ++ [34])) { type := .string, text := s }
  | num {v : Bytes} {t : Tok} {c : Ctx} (h : JNum v) (ht : nextToken fl.strtod { rest := v ++ [125] } = .ok (t, c)) : Single fl v t
  | tru : Single fl b!"true" { type := .true }
  | fls : Single fl b!"false" { type := .false }
  | null : Single fl b!"null" { type := .null }

/-- What the library itself does with a value: a class with nothing but a field of that type is loaded from an object with nothing but
that value. -/
def Alone (e : Env) (v : Bytes) (t : Ty) (a : Nat) (isPtr : Bool) (count : Option Nat) (m m' : Mem) : Prop :=
  ∃ err, loadJSON e (b!"{\"v\":" ++ (v ++ b!"}")) m (.cls 0 0 0 (.cons ⟨b!"v", 0, 0, isPtr, count⟩ t .nil) .nil) a = .ok (err, m')

/-- The post-load function of a class, if it has one, is called for the object at `a`. -/
inductive After (H : Hooks) (h : BitVec 32) (z : Nat) (a : Nat) : Mem → Mem → Prop
  | none (m : Mem) (hn : H.post h z = none) : After H h z a m m
  | call {m m' : Mem} {f : Nat → Mem → Res Mem} (hf : H.post h z = some f) (hc : f a m = .ok m') : After H h z a m m'

/-- The text between the brackets of a JSON array, and the texts of its elements. -/
inductive ListOf : Bytes → List Bytes → Prop
  | one {w v x : Bytes} (hw : Ws w) (hv : JVal v) (hx : Ws x) : ListOf (w ++ (v ++ x)) [v]
  | more {w v x r u : Bytes} {vs : List Bytes} (hw : Ws w) (hv : JVal v) (hx : Ws x) (hr : ListOf r (u :: vs)) :
      ListOf (w ++ (v ++ (x ++ 44 :: r))) (v :: u :: vs)

/-- The type is not a class with a load function. -/
def NoLoad (H : Hooks) : Ty → Prop
  | .cls h z _ _ _ => H.load h z = none
  | _ => True

/-- Memory with a new, empty element at the end of the container at `c`; the element is at `m.next`. -/
def Mem.extended (m : Mem) (c n : Nat) : Mem := (m.alloc n).2.setElems c (m.elems c ++ [(0, m.next)])

mutual
/-- What a value in a text does to a field of type `t` at `a`, with the functions of the user. -/
inductive Does (e : Env) (H : Hooks) : Bytes → Ty → Nat → Bool → Option Nat → Mem → Mem → Prop
  /-- A class with a load function: the function is called with the value, and does all. -/
  | custom {v : Bytes} {tok : Tok} {h fl : BitVec 32} {z a : Nat} {fs : Flds} {bs : Tys} {p : Bool} {m m' : Mem}
      {f : Tok → Nat → Mem → Res Mem} (hv : Single e.fl v tok) (hf : H.load h z = some f) (hc : f tok a m = .ok m') :
      Does e H v (.cls h z fl fs bs) a p none m m'
  /-- A class without one, and an object with members: first the members, then the post-load function. -/
  | object {s : Bytes} {ms : List (Bytes × Bytes)} {h fl : BitVec 32} {z a : Nat} {fs : Flds} {bs : Tys} {p : Bool} {m m1 m' : Mem}
      (hl : H.load h z = none) (hs : e.skips fl = false) (ho : ObjOf s ms) (hne : ms ≠ [])
      (hd : (Ty.cls h z fl fs bs).allFields.Pairwise fun x y => Hash.hashText x.1.name ≠ Hash.hashText y.1.name)
      (hm : MembersDo e H (.cls h z fl fs bs) a ms m m1) (hp : After H h z a m1 m') :
      Does e H (123 :: (s ++ [125])) (.cls h z fl fs bs) a p none m m'
  /-- An object without members does nothing. -/
  | empty {w : Bytes} {h fl : BitVec 32} {z a : Nat} {fs : Flds} {bs : Tys} {p : Bool} {m : Mem} (hl : H.load h z = none) (hw : Ws w) :
      Does e H (123 :: (w ++ [125])) (.cls h z fl fs bs) a p none m m
  /-- Nor does an object for a transient class. -/
  | transient {s : Bytes} {ms : List (Bytes × Bytes)} {h fl : BitVec 32} {z a : Nat} {fs : Flds} {bs : Tys} {p : Bool} {m : Mem}
      (hl : H.load h z = none) (hs : e.skips fl = true) (ho : ObjOf s ms) (hj : JVal (123 :: (s ++ [125]))) :
      Does e H (123 :: (s ++ [125])) (.cls h z fl fs bs) a p none m m
  /-- An array for a container: its elements are replaced by those of the text, each of which is a value. -/
  | list {s : Bytes} {vs : List Bytes} {h : BitVec 32} {z a : Nat} {t : Ty} {q p : Bool} {m m' : Mem} (ho : ListOf s vs)
      (hm : Appended e H t q a vs (m.setElems a []) m') : Does e H (91 :: (s ++ [93])) (.vec h z t q) a p none m m'
  /-- An array for a C array that has room for it: each element is a value. -/
  | array {s : Bytes} {vs : List Bytes} {a n : Nat} {t : Ty} {p : Bool} {m m' : Mem} (hl : NoLoad H t) (ho : ListOf s vs)
      (hn : vs.length ≤ n) (hz : 0 < slotBytes t p) (hm : Stored e H t p a vs m m') : Does e H (91 :: (s ++ [93])) t a p (some n) m m'
  /-- Types without functions: what the library does. -/
  | plain {v : Bytes} {t : Ty} {a : Nat} {p : Bool} {n : Option Nat} {m m' : Mem} (hv : JVal v) (hf : NoFunctions H t) (hd : NoDict t)
      (ha : Alone e v t a p n m m') : Does e H v t a p n m m'

/-- What the members of a text do to an object of class `ct` at `a`, one after the other. -/
inductive MembersDo (e : Env) (H : Hooks) : Ty → Nat → List (Bytes × Bytes) → Mem → Mem → Prop
  | nil {ct : Ty} {a : Nat} (m : Mem) : MembersDo e H ct a [] m m
  | field {ct : Ty} {a : Nat} {v : Bytes} {ms : List (Bytes × Bytes)} {m m1 m' : Mem} {x : FldInfo × Ty} (hx : x ∈ ct.allFields)
      (hs : e.skips x.1.flags = false) (hv : Does e H v x.2 (a + x.1.offset) x.1.isPtr x.1.count m m1)
      (hr : MembersDo e H ct a ms m1 m') : MembersDo e H ct a ((x.1.name, v) :: ms) m m'
  /-- What the class does not have, or does not load. -/
  | unknown {ct : Ty} {a : Nat} {k v : Bytes} {ms : List (Bytes × Bytes)} {m m' : Mem} (hu : Unknown e ct k)
      (hr : MembersDo e H ct a ms m m') : MembersDo e H ct a ((k, v) :: ms) m m'

/-- What values do that are appended to a container of `t` at `c`. -/
inductive Appended (e : Env) (H : Hooks) : Ty → Bool → Nat → List Bytes → Mem → Mem → Prop
  | nil {t : Ty} {p : Bool} {c : Nat} (m : Mem) : Appended e H t p c [] m m
  | cons {t : Ty} {p : Bool} {c : Nat} {v : Bytes} {vs : List Bytes} {m m1 m' : Mem}
      (hv : Does e H v t m.next p none (m.extended c (slotBytes t p)) m1) (hr : Appended e H t p c vs m1 m') : Appended e H t p c (v :: vs) m m'

/-- What values do that are stored one behind the other from `a`. -/
inductive Stored (e : Env) (H : Hooks) : Ty → Bool → Nat → List Bytes → Mem → Mem → Prop
  | nil {t : Ty} {p : Bool} {a : Nat} (m : Mem) : Stored e H t p a [] m m
  | cons {t : Ty} {p : Bool} {a : Nat} {v : Bytes} {vs : List Bytes} {m m1 m' : Mem} (hv : Does e H v t a p none m m1)
      (hr : Stored e H t p (a + slotBytes t p) vs m1 m') : Stored e H t p a (v :: vs) m m'
end

end Clr.JSON
