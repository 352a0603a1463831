import Verif.Proofs.JSONConvert
import Verif.Props.JSON
/-
C95: numbers in a JSON text are converted to the types of the fields they are loaded into as C++ converts them.
-/
namespace Clr.JSON

section
attribute [local irreducible] Hash.hashText

/-- **C95**: load a JSON object whose members are numbers into an object of a class, in any layout. The members can be integers,
decimals, `true`, `false` and `null`, whatever the native types of the fields. Then no error is reported, and memory is changed, member
after member, at the field with the member's name, to the number converted to the field's type as C++ converts it, and nowhere else.
Members the class does not have change nothing. -/
theorem C95_converted (e : Env) (p : Platform) (hl : setupDispatch p = .ok e.lut) (hh : BitVec 32) (size : Nat) (cfl : BitVec 32) (fs : Flds) (bs : Tys)
    (hd : (Ty.cls hh size cfl fs bs).allFields.Pairwise (fun x y => Hash.hashText x.1.name ≠ Hash.hashText y.1.name))
    (w text q : Bytes) (hw : Ws w) (ms : List (Bytes × Bytes)) (ho : ObjOf text ms) (m m' : Mem) (a : Nat)
    (hm : Assigned e p (.cls hh size cfl fs bs) a ms m m') :
    ∃ err, loadJSON e (w ++ 123 :: (text ++ 125 :: q)) m (.cls hh size cfl fs bs) a = .ok (err, m') ∧ err.code = .none := by
  refine object_put ho hw ?_
  clear ho
  obtain ⟨lut, h1, h2, -, -⟩ := C35_dispatch p
  rw [hl] at h1
  injection h1 with h1
  subst h1
  induction hm with
  | nil m => exact .nil m
  | number hx hs hp hn ht hv hb hr ih =>
    refine .cons (.known (findField_mem hd hx) hs hv ?_) ih
    rw [hp]
    refine .num ?_ hb
    rw [ht]
    exact h2 (_, _) hn
  | pointer hx hs hp hv hb hr ih =>
    refine .cons (.known (findField_mem hd hx) hs hv ?_) ih
    rw [hp]
    exact .ptr hb
  | unknown hu hr ih =>
    refine .cons (.unknown fun f t hf => ?_) ih
    rw [findField_eq] at hf
    have hk := List.find?_some hf
    exact hu (f, t) (List.mem_of_find?_eq_some hf) (by simpa using hk)

end

/-! ### An example -/

/-- Floating point for the example: decimals are all 1.5. -/
def halfFloats : Floats :=
  { strtod := fun _ => 0x3FF8000000000000, format := fun _ => [], widen := fun _ => 0, narrow := fun _ => 0x3FC00000, floatOfInt := fun _ => 0,
    doubleOfInt := fun _ => 0x401C000000000000, trunc := fun _ => some 1, nonZero := fun _ => true }

def halfEnv : Env := { demoEnv with fl := halfFloats }

/-- A class with an `unsigned char`, a `bool`, a `short`, a pointer and a `double`. -/
def tNative : Ty := .cls 7 24 0
  (.cons ⟨b!"c", 0, 0, false, none⟩ (.prim (Hash.hashText b!"unsigned char") 1)
  (.cons ⟨b!"b", 1, 0, false, none⟩ (.prim (Hash.hashText b!"bool") 1)
  (.cons ⟨b!"s", 2, 0, false, none⟩ (.prim (Hash.hashText b!"short") 2)
  (.cons ⟨b!"p", 4, 0, true, none⟩ tInt
  (.cons ⟨b!"d", 16, 0, false, none⟩ (.prim (Hash.hashText b!"double") 8) .nil))))) .nil

def nativeMembers : List (Bytes × Bytes) :=
  [(b!"c", b!"-2"), (b!"b", b!"1.5"), (b!"d", b!"7"), (b!"s", b!"1.5"), (b!"p", b!"0x12345678"), (b!"q", b!"3"), (b!"b", b!"null")]

def nativeText : Bytes := b!"\"c\":-2,\"b\":1.5,\"d\":7,\"s\":1.5,\"p\":0x12345678,\"q\":3,\"b\":null"

example : outcome (loadJSON halfEnv (123 :: (nativeText ++ [125])) (memOf []) tNative 0) 0 24 =
    some (.none, [254, 0, 1, 0, 0x78, 0x56, 0x34, 0x12, 0, 0, 0, 0, 0, 0, 0, 0, 0, 0, 0, 0, 0, 0, 0x1C, 0x40]) := by decide +kernel

/-- What the members do to memory. -/
def nativeAfter : Mem :=
  ((((((memOf []).write 0 [254]).write 1 [1]).write 16 [0, 0, 0, 0, 0, 0, 0x1C, 0x40]).write 2 [1, 0]).write 4 [0x78, 0x56, 0x34, 0x12]).write 1 [0]

theorem nativeAssigned : Assigned halfEnv demoPlatform tNative 0 nativeMembers (memOf []) nativeAfter := by
  have dg : ∀ ds : Bytes, ds ≠ [] → (ds.all fun b => 48 ≤ b && b ≤ 57) = true → Decimal ds := by
    intro ds h0 h
    refine ⟨h0, fun b hb => ?_⟩
    have := List.all_eq_true.1 h b hb
    simpa using this
  refine .number (x := (⟨b!"c", 0, 0, false, none⟩, .prim (Hash.hashText b!"unsigned char") 1)) (n := .nat 1 false) (name := b!"unsigned char")
    (by simp [tNative, Ty.allFields, Flds.list]) (by decide) rfl (by simp [registrations]) rfl (.neg (dg b!"2" (by decide) (by decide)) (by decide))
    (.whole (.nat 1) _ (bs := [254]) ⟨rfl, by decide⟩) ?_
  refine .number (x := (⟨b!"b", 1, 0, false, none⟩, .prim (Hash.hashText b!"bool") 1)) (n := .bool) (name := b!"bool")
    (by simp [tNative, Ty.allFields, Flds.list]) (by decide) rfl (by simp [registrations]) rfl
    (.dec (ds := b!"1") (s := b!".5") (dg b!"1" (by decide) (by decide)) (.frac (by decide))) (.boolDec _) ?_
  refine .number (x := (⟨b!"d", 16, 0, false, none⟩, .prim (Hash.hashText b!"double") 8)) (n := .double) (name := b!"double")
    (by simp [tNative, Ty.allFields, Flds.list]) (by decide) rfl (by simp [registrations]) rfl (.nat (dg b!"7" (by decide) (by decide)) (by decide))
    (.doubleInt _) ?_
  refine .number (x := (⟨b!"s", 2, 0, false, none⟩, .prim (Hash.hashText b!"short") 2)) (n := .int 2) (name := b!"short")
    (by simp [tNative, Ty.allFields, Flds.list]) (by decide) rfl (by simp [registrations]) rfl
    (.dec (ds := b!"1") (s := b!".5") (dg b!"1" (by decide) (by decide)) (.frac (by decide)))
    (.wholeDec (.int 2) _ (v := 1) rfl (by decide) (by decide) (bs := [1, 0]) ⟨rfl, by decide⟩) ?_
  refine .pointer (x := (⟨b!"p", 4, 0, true, none⟩, tInt)) (by simp [tNative, Ty.allFields, Flds.list]) (by decide) rfl
    (.hex (ds := b!"12345678") ⟨by decide, by decide⟩ (by decide)) (bs := [0x78, 0x56, 0x34, 0x12]) ⟨rfl, by decide⟩ ?_
  refine .unknown ?_ ?_
  · intro x hx
    revert hx x
    decide +kernel
  refine .number (x := (⟨b!"b", 1, 0, false, none⟩, .prim (Hash.hashText b!"bool") 1)) (n := .bool) (name := b!"bool")
    (by simp [tNative, Ty.allFields, Flds.list]) (by decide) rfl (by simp [registrations]) rfl .null (.boolInt _) ?_
  exact .nil _

/-! ### What is not converted -/

/-- A decimal whose integer part is not a value of the field's type: the C++ conversion has no defined result. -/
theorem C95_out_of_range_undefined : ∃ (e : Env) (text : Bytes), setupDispatch demoPlatform = .ok e.lut ∧ text = b!"{\"s\":70000.5}" ∧
    (e.fl.trunc (e.fl.strtod b!"70000.5") = some 70000) ∧ loadJSON e text (memOf []) tNative 0 = .ub := by
  refine ⟨{ demoEnv with fl := { halfFloats with trunc := fun _ => some 70000 } }, _, setup_eq _, rfl, rfl, ?_⟩
  have h : (match loadJSON { demoEnv with fl := { halfFloats with trunc := fun _ => some 70000 } } b!"{\"s\":70000.5}" (memOf []) tNative 0 with
    | .ub => true | _ => false) = true := by decide +kernel
  revert h
  generalize loadJSON _ _ _ _ _ = r
  cases r <;> simp

end Clr.JSON
