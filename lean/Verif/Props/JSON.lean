import Verif.Proofs.JSONLocal

/-!
JSON saving and loading of objects: C30 (enums), C31 (round trip), C32 (unknown members), C34 (sorted output) and
C36 (containers of pointers).  The specification is in Model/JSONSpec.lean and Model/JSONGrammar.lean.
-/
namespace Clr.JSON

/-! ### An environment for examples -/

/-- A 64-bit platform. -/
def demoPlatform : Platform := ⟨8, 4, true⟩

/-- Floating point is not used by the examples. -/
def demoFloats : Floats :=
  { strtod := fun _ => 0, format := fun _ => [], widen := fun _ => 0, narrow := fun _ => 0, floatOfInt := fun _ => 0,
    doubleOfInt := fun _ => 0, trunc := fun _ => none, nonZero := fun _ => true }

/-- The table that is set up by the library; flag 1 is `transient`. -/
def demoEnv : Env := { fl := demoFloats, lut := expectedTable demoPlatform, transient := 1 }

/-- `int`. -/
def tInt : Ty := .prim (Hash.hashText b!"int") 4

/-- Memory that holds these bytes from address 0, with everything below 1000 in use. -/
def memOf (bs : Bytes) : Mem := { byte := fun x => (bs[x]?).getD 0, elems := fun _ => [], next := 1000 }

/-- What an example looks at: the error, and some bytes. -/
def outcome (r : Out (Err × Mem)) (a n : Nat) : Option (Code × Bytes) :=
  match r with
  | .ok (err, m) => some (err.code, m.read a n)
  | _ => none

/-! ### C31 -/

/-- **C31** (partial): saving an object of a class and loading the text into another object of the class, at any
address of any memory, reports no error and gives an object with the same value in every field that is neither
transient nor a pointer, nested classes, arrays, containers and dictionaries included; below the memory in use, nothing but the
bytes of such fields changes.

Missing from the full property: what `Supported` and `Savable` exclude (dictionaries but those from enums to classes,
pointers with a pointer map, non-hex floats, enums not of four bytes, template base classes, names needing escapes, two bases that overlap), and
containers that are not empty at the start (`Clear`).  See the negations below for why these are needed. -/
theorem C31_round_trip_partial {e : Env} {o : Opts} (hptr : o.ptrs = none) {h : BitVec 32} {s : Nat} {fl : BitVec 32}
    {fs : Flds} {bs : Tys} (hs : Supported e o (.cls h s fl fs bs)) (m : Mem) (a indent : Nat)
    (hsav : Savable e m (.cls h s fl fs bs) a) (m0 : Mem) (b : Nat) (hb : b + s ≤ m0.next) (hclear : Clear m0 b s) :
    ∃ text err m', saveJSON e o m (.cls h s fl fs bs) indent a = .ok text ∧
      loadJSON e text m0 (.cls h s fl fs bs) b = .ok (err, m') ∧ err.code = .none ∧
      Same e m m' (fun x => m0.next ≤ x ∧ x < m'.next) (.cls h s fl fs bs) a b ∧
      Effect m0 m' (Touched e (.cls h s fl fs bs) b) := by
  obtain ⟨text, xs, h1, h2, h3, h4, -, -⟩ := cls_save hptr hs (fun x hx => rt_all hptr _
    (((base_iff e o _ (cls_base hs)).2.2.2 x hx).1)) m a indent hsav
  obtain ⟨i1, i2, -, -⟩ := base_iff e o _ (cls_base hs)
  have hg : Good e.fl.strtod (123 :: (text ++ 125 :: newLine o indent)) := good_structural _ (by decide) _
  obtain ⟨s0, e0, a0, m0'⟩ := nextTok_at (e := e)
    (st := { t := {}, c := { rest := newLine o indent ++ 123 :: (text ++ 125 :: newLine o indent) }, m := m0 }) rfl rfl
    (good_ws (newLine_ws o indent) hg)
  have a0 := (at_ws (newLine_ws o indent) hg).1 a0
  have htext : newLine o indent ++ (123 :: (text ++ [125]) ++ newLine o indent) =
      newLine o indent ++ 123 :: (text ++ 125 :: newLine o indent) := by simp
  obtain ⟨n, hfuel, hn⟩ : ∃ n, fuelFor (newLine o indent ++ 123 :: (text ++ 125 :: newLine o indent)) = n + 1 ∧
      text.length ≤ n := ⟨_, rfl, by simp [List.length_append]; omega⟩
  obtain ⟨st1, e1, a1, ef, sm⟩ := object_load h2 h3 (n := n) (b := b) a0 hn (by rw [m0']; exact hb)
    (by rw [m0']; exact hclear)
  rw [m0'] at ef sm
  refine ⟨_, st1.c.err, st1.m, h1, ?_, a1.err, ?_, ?_⟩
  · rw [htext]
    unfold loadJSON
    rw [e0]
    simp only [Out.bind_ok]
    rw [hfuel, e1]
    rfl
  · rw [i1]
    intro x hx
    exact sm x ((h4 x).2 hx)
  · refine ef.mono ?_
    rintro y ⟨x, hx, hy⟩
    exact (i2 b y).2 ⟨x, (h4 x).1 hx, hy⟩

/-- **C31** (partial), the transient fields: loading a saved text leaves the bytes of a field that is not saved, and
does not overlap with one that is, as they were. -/
theorem C31_transient_untouched_partial {e : Env} {o : Opts} (hptr : o.ptrs = none) {h : BitVec 32} {s : Nat}
    {fl : BitVec 32} {fs : Flds} {bs : Tys} (hs : Supported e o (.cls h s fl fs bs)) (m : Mem) (a indent : Nat)
    (hsav : Savable e m (.cls h s fl fs bs) a) (m0 : Mem) (b : Nat) (hb : b + s ≤ m0.next) (hclear : Clear m0 b s)
    (f : FldInfo × Ty) (hin : f.1.offset + f.1.extent f.2 ≤ s)
    (hap : ∀ x ∈ (Ty.cls h s fl fs bs).savedFields e, Apart f x) :
    ∃ text err m', saveJSON e o m (.cls h s fl fs bs) indent a = .ok text ∧
      loadJSON e text m0 (.cls h s fl fs bs) b = .ok (err, m') ∧
      ∀ x, b + f.1.offset ≤ x → x < b + f.1.offset + f.1.extent f.2 → m'.byte x = m0.byte x ∧ m'.elems x = m0.elems x := by
  obtain ⟨text, err, m', h1, h2, -, -, ef⟩ := C31_round_trip_partial hptr hs m a indent hsav m0 b hb hclear
  refine ⟨text, err, m', h1, h2, fun x hx1 hx2 => ?_⟩
  have hnot : ¬ Touched e (.cls h s fl fs bs) b x := by
    obtain ⟨-, i2, -, i4⟩ := base_iff e o _ (cls_base hs)
    rw [i2]
    rintro ⟨y, hy, ht⟩
    have hw := cellTouched_within (touched_within y.2 (i4 y hy).1) ht
    have hsv := savedField_ptr (savedFields_sub e _ y hy).2
    rw [← extent_eq hsv.1] at hw
    have := hap y hy
    unfold Apart at this
    omega
  exact ⟨ef.byte x (by omega) hnot, ef.elems x (by omega) hnot⟩

/-! #### A class that meets the hypotheses -/

instance (x y : FldInfo × Ty) : Decidable (Apart x y) := by unfold Apart; infer_instance
instance (s : Bytes) : Decidable (PlainName s) := by unfold PlainName; infer_instance

/-- `enum Level { Low = 0, High = 5 }`. -/
def tLevel : Ty := .enum (Hash.hashText b!"Level") 4 [⟨b!"Low", 0⟩, ⟨b!"High", 5⟩] false

/-- `struct Inner { short a; int b; }`. -/
def tInner : Ty := .cls (Hash.hashText b!"Inner") 8 0
  (.cons { name := b!"a", offset := 0 } (.prim (Hash.hashText b!"short") 2)
    (.cons { name := b!"b", offset := 4 } tInt .nil)) .nil

/-- `struct Base { int id; }`. -/
def tBase : Ty := .cls (Hash.hashText b!"Base") 4 0 (.cons { name := b!"id", offset := 0 } tInt .nil) .nil

/-- The fields of `Outer`. -/
def outerFields : Flds :=
  .cons { name := b!"level", offset := 4 } tLevel
  (.cons { name := b!"inner", offset := 8 } tInner
  (.cons { name := b!"pair", offset := 16, count := some 2 } tInt
  (.cons { name := b!"list", offset := 24 } (.vec (Hash.hashText b!"Vec<Inner>") 8 tInner false)
  (.cons { name := b!"cache", offset := 32, flags := 1 } tInt .nil))))

/-- `struct Outer : Base { Level level; Inner inner; int pair[2]; Vec<Inner> list; clattr(transient) int cache; }`. -/
def tOuter : Ty := .cls (Hash.hashText b!"Outer") 40 0 outerFields (.cons tBase .nil)

theorem tInt_supported (o : Opts) : Supported demoEnv o tInt := by
  rw [tInt, Supported]
  exact ⟨.int 4, by decide +kernel, rfl, .inl (by simp [Num.Integer])⟩

theorem tInner_supported : Supported demoEnv {} tInner := by
  rw [tInner, Supported]
  refine ⟨by decide, ?_, by simp [SupportedTys], by decide +kernel, by decide +kernel, by decide +kernel, ?_⟩
  · simp only [SupportedFlds, and_true]
    refine ⟨fun _ => ⟨?_, by simp⟩, fun _ => ⟨tInt_supported _, by simp⟩⟩
    rw [Supported]
    exact ⟨.int 2, by decide +kernel, rfl, .inl (by simp [Num.Integer])⟩
  · intro h; cases h

theorem tOuter_supported : Supported demoEnv {} tOuter := by
  rw [tOuter, Supported]
  refine ⟨by decide, ?_, ?_, by decide +kernel, by decide +kernel, by decide +kernel, ?_⟩
  · simp only [outerFields, SupportedFlds, and_true]
    refine ⟨fun _ => ⟨?_, by simp⟩, fun _ => ⟨tInner_supported, by simp⟩, fun _ => ⟨tInt_supported _, by simp [tInt, Ty.size]⟩,
      fun _ => ⟨?_, by simp⟩, fun h => absurd h (by decide)⟩
    · rw [tLevel, Supported]
      exact ⟨rfl, by decide, by decide +kernel⟩
    · rw [Supported]
      exact ⟨rfl, by decide, by decide, tInner_supported⟩
  · simp only [SupportedTys, and_true, tBase, SupportedBase]
    exact .inr ⟨by simp only [SupportedFlds, and_true]; exact fun _ => ⟨tInt_supported _, by simp⟩, trivial, fun h => by cases h⟩
  · intro h; cases h

/-- An `Outer` at address 0, with two elements in its list at 100 and 108. -/
def outerMem : Mem :=
  { byte := fun x =>
      if x < 40 then (b!"\x2A\x00\x00\x00\x05\x00\x00\x00\xFF\xFF\x00\x00\x07\x00\x00\x00\x01\x00\x00\x00\x02\x00\x00\x00").getD x 9
      else if x = 100 then 3 else if x = 108 then 4 else 0
    elems := fun x => if x = 24 then [(0, 100), (0, 108)] else []
    next := 1000 }

theorem outerMem_savable : Savable demoEnv outerMem tOuter 0 := by
  have hshort : ∀ a, a = 8 ∨ a = 100 ∨ a = 108 → Savable demoEnv outerMem (.prim (Hash.hashText b!"short") 2) a := by
    intro a ha
    rw [Savable]
    intro k hk
    rw [show dispatch demoEnv.lut (Hash.hashText b!"short") = some (.int 2) by decide +kernel] at hk
    cases hk
    refine ⟨?_, by simp⟩
    rcases ha with rfl | rfl | rfl <;> simp only [Num.Savable] <;> decide +kernel
  have hint : ∀ a, a ∈ [0, 12, 16, 20, 104, 112] → Savable demoEnv outerMem tInt a := by
    intro a ha
    rw [tInt, Savable]
    intro k hk
    rw [show dispatch demoEnv.lut (Hash.hashText b!"int") = some (.int 4) by decide +kernel] at hk
    cases hk
    refine ⟨?_, by simp⟩
    simp only [List.mem_cons, List.not_mem_nil, or_false] at ha
    rcases ha with rfl | rfl | rfl | rfl | rfl | rfl <;> simp only [Num.Savable] <;> decide +kernel
  have hinner : ∀ a, a = 8 ∨ a = 100 ∨ a = 108 → Savable demoEnv outerMem tInner a := by
    intro a ha
    rw [tInner, Savable]
    refine .inr ⟨?_, by simp [SavableTys]⟩
    simp only [SavableFlds, and_true]
    refine ⟨fun _ => ⟨fun _ => hshort a ha, fun n hn => by simp at hn⟩, fun _ => ⟨fun _ => hint (a + 4) ?_, fun n hn => by simp at hn⟩⟩
    rcases ha with rfl | rfl | rfl <;> simp
  rw [tOuter, Savable]
  refine .inr ⟨?_, ?_⟩
  · simp only [outerFields, SavableFlds, and_true]
    refine ⟨fun _ => ⟨fun _ => ?_, fun n hn => by simp at hn⟩, fun _ => ⟨fun _ => hinner 8 (by simp), fun n hn => by simp at hn⟩,
      fun _ => ⟨fun h => by simp at h, fun n hn i hi => ?_⟩, fun _ => ⟨fun _ => ?_, fun n hn => by simp at hn⟩,
      fun h => absurd h (by decide)⟩
    · rw [tLevel, Savable]
      refine ⟨⟨b!"High", 5⟩, by simp, by decide +kernel⟩
    · cases hn
      have : i = 0 ∨ i = 1 := by omega
      rcases this with rfl | rfl
      · exact hint 16 (by simp)
      · exact hint 20 (by simp)
    · rw [Savable]
      intro i hi
      have : i = 0 ∨ i = 1 := by
        have : (outerMem.elems (0 + 24)).length = 2 := by decide
        omega
      rcases this with rfl | rfl
      · exact hinner 100 (by simp)
      · exact hinner 108 (by simp)
  · simp only [SavableTys, and_true, tBase, Savable, SavableFlds]
    exact .inr (fun _ => ⟨fun _ => hint 0 (by simp), fun n hn => by simp at hn⟩)

/-- The hypotheses of C31 are met by a class with a base class, an enum, a nested class, an array, a container of
classes and a transient field. -/
example : ∃ text err m', saveJSON demoEnv {} outerMem tOuter 0 0 = .ok text ∧
    loadJSON demoEnv text outerMem tOuter 200 = .ok (err, m') ∧ err.code = .none :=
  have ⟨text, err, m', h1, h2, h3, _⟩ := C31_round_trip_partial rfl tOuter_supported outerMem 0 0 outerMem_savable outerMem 200
    (by decide) (by intro x h1 h2; show (if x = 24 then _ else _) = _; rw [if_neg (by omega)])
  ⟨text, err, m', h1, h2, h3⟩

/-- The text. -/
example : saveJSON demoEnv {} outerMem tOuter 0 0 =
    .ok b!"{\"level\":\"High\",\"inner\":{\"a\":-1,\"b\":7},\"pair\":[1,2],\"list\":[{\"a\":3,\"b\":0},{\"a\":4,\"b\":0}],\"id\":42}" := by
  decide +kernel

/-! #### Where C31 fails: the hypotheses above cannot be dropped -/

/-- `struct A { int x; }; struct B { int y; }; struct Two : A, B {};`, where the `B` in a `Two` is at offset 4. -/
def tTwo : Ty := .cls (Hash.hashText b!"Two") 8 0 .nil
  (.cons (.cls (Hash.hashText b!"A") 4 0 (.cons { name := b!"x", offset := 0 } tInt .nil) .nil)
    (.cons (.cls (Hash.hashText b!"B") 4 0 (.cons { name := b!"y", offset := 0 } tInt .nil) .nil) .nil))

/-- C31 is false with two base classes: the fields of the second are saved and loaded as if it were at the address of
the object (SerialiseJSON.cpp:1053-1059), so what they hold is not in the text. -/
theorem C31_two_bases_negation :
    saveJSON demoEnv {} (memOf [1, 0, 0, 0, 2, 0, 0, 0]) tTwo 0 0 = .ok b!"{\"x\":1,\"y\":1}" ∧
    saveJSON demoEnv {} (memOf [1, 0, 0, 0, 3, 0, 0, 0]) tTwo 0 0 = .ok b!"{\"x\":1,\"y\":1}" := by
  decide +kernel

/-- `struct Base { int x; }; struct Derived : Base { int x; };`. -/
def tShadow : Ty := .cls (Hash.hashText b!"Derived") 8 0 (.cons { name := b!"x", offset := 4 } tInt .nil)
  (.cons (.cls (Hash.hashText b!"Base") 4 0 (.cons { name := b!"x", offset := 0 } tInt .nil) .nil) .nil)

/-- C31 is false when a base class has a field of the same name: both are saved, and both are loaded into the field of
the derived class (SerialiseJSON.cpp:393-416), without an error. -/
theorem C31_shadowed_name_negation :
    saveJSON demoEnv {} (memOf [1, 0, 0, 0, 2, 0, 0, 0]) tShadow 0 0 = .ok b!"{\"x\":2,\"x\":1}" ∧
    outcome (loadJSON demoEnv b!"{\"x\":2,\"x\":1}" (memOf []) tShadow 0) 0 8 = some (.none, [0, 0, 0, 0, 1, 0, 0, 0]) := by
  decide +kernel

/-- `struct Bag { Vec<int> v; };`. -/
def tBag : Ty := .cls (Hash.hashText b!"Bag") 8 0
  (.cons { name := b!"v", offset := 0 } (.vec (Hash.hashText b!"Vec<int>") 8 tInt false) .nil) .nil

/-- C31 is false for an empty container loaded over one that is not: the elements stay (SerialiseJSON.cpp:277-282). -/
theorem C31_empty_container_negation :
    saveJSON demoEnv {} (memOf []) tBag 0 0 = .ok b!"{\"v\":[]}" ∧
    (match loadJSON demoEnv b!"{\"v\":[]}" ((memOf []).setElems 0 [(0, 100)]) tBag 0 with
      | .ok (err, m) => some (err.code, m.elems 0)
      | _ => none) = some (.none, [(0, 100)]) := by
  decide +kernel

/-- `struct clattr(transient) T { int x; }; struct Has { T t; };`. -/
def tHas : Ty := .cls (Hash.hashText b!"Has") 4 0
  (.cons { name := b!"t", offset := 0 }
    (.cls (Hash.hashText b!"T") 4 1 (.cons { name := b!"x", offset := 0 } tInt .nil) .nil) .nil) .nil

/-- C31 is false for a field whose type is a transient class: nothing is written after the colon
(SerialiseJSON.cpp:1071), and loading the text reports an error. -/
theorem C31_transient_class_negation :
    saveJSON demoEnv {} (memOf []) tHas 0 0 = .ok b!"{\"t\":}" ∧
    outcome (loadJSON demoEnv b!"{\"t\":}" (memOf []) tHas 0) 0 4 = some (.unexpectedToken, [0, 0, 0, 0]) := by
  decide +kernel

/-! #### Dictionaries -/

/-- `struct Table { Map<Level, Inner> rows; };`. -/
def tTable : Ty := .cls (Hash.hashText b!"Table") 8 0
  (.cons { name := b!"rows", offset := 0 } (.dict (Hash.hashText b!"Map<Level, Inner>") 8 tLevel tInner false) .nil) .nil

theorem tTable_supported : Supported demoEnv {} tTable := by
  rw [tTable, Supported]
  refine ⟨by decide, ?_, by simp [SupportedTys], by decide +kernel, by decide +kernel, by decide +kernel, fun h => by cases h⟩
  simp only [SupportedFlds, and_true]
  refine fun _ => ⟨?_, by simp⟩
  rw [Supported]
  refine ⟨rfl, by decide, rfl, ?_, rfl, tInner_supported⟩
  rw [tLevel, Supported]
  exact ⟨rfl, by decide, by decide +kernel⟩

/-- A `Table` at address 0 with two rows: the keys at 100 and 104, the values at 200 and 208. -/
def tableMem : Mem :=
  { byte := fun x => if x = 104 then 5 else if x = 200 then 3 else if x = 212 then 4 else 0
    elems := fun x => if x = 0 then [(100, 200), (104, 208)] else []
    next := 1000 }

theorem tableMem_savable : Savable demoEnv tableMem tTable 0 := by
  have hshort : ∀ a, a = 200 ∨ a = 208 → Savable demoEnv tableMem (.prim (Hash.hashText b!"short") 2) a := by
    intro a ha
    rw [Savable]
    intro k hk
    rw [show dispatch demoEnv.lut (Hash.hashText b!"short") = some (.int 2) by decide +kernel] at hk
    cases hk
    refine ⟨?_, by simp⟩
    rcases ha with rfl | rfl <;> simp only [Num.Savable] <;> decide +kernel
  have hint : ∀ a, a = 204 ∨ a = 212 → Savable demoEnv tableMem tInt a := by
    intro a ha
    rw [tInt, Savable]
    intro k hk
    rw [show dispatch demoEnv.lut (Hash.hashText b!"int") = some (.int 4) by decide +kernel] at hk
    cases hk
    refine ⟨?_, by simp⟩
    rcases ha with rfl | rfl <;> simp only [Num.Savable] <;> decide +kernel
  have hinner : ∀ a, a = 200 ∨ a = 208 → Savable demoEnv tableMem tInner a := by
    intro a ha
    rw [tInner, Savable]
    refine .inr ⟨?_, by simp [SavableTys]⟩
    simp only [SavableFlds, and_true]
    refine ⟨fun _ => ⟨fun _ => hshort a ha, fun n hn => by simp at hn⟩, fun _ => ⟨fun _ => hint (a + 4) ?_, fun n hn => by simp at hn⟩⟩
    rcases ha with rfl | rfl <;> simp
  rw [tTable, Savable]
  refine .inr ⟨?_, by simp [SavableTys]⟩
  simp only [SavableFlds, and_true]
  refine fun _ => ⟨fun _ => ?_, fun n hn => by simp at hn⟩
  rw [Savable]
  intro i hi
  have : i = 0 ∨ i = 1 := by
    have : (tableMem.elems (0 + 0)).length = 2 := by decide
    omega
  rcases this with rfl | rfl
  · refine ⟨?_, hinner 200 (by simp)⟩
    rw [tLevel, Savable]
    exact ⟨⟨b!"Low", 0⟩, by simp, by decide +kernel⟩
  · refine ⟨?_, hinner 208 (by simp)⟩
    rw [tLevel, Savable]
    exact ⟨⟨b!"High", 5⟩, by simp, by decide +kernel⟩

/-- The hypotheses of C31 are met by a class with a dictionary of two elements. -/
example : ∃ text err m', saveJSON demoEnv {} tableMem tTable 0 0 = .ok text ∧
    loadJSON demoEnv text tableMem tTable 300 = .ok (err, m') ∧ err.code = .none ∧ (m'.elems 300).length = 2 := by
  obtain ⟨text, err, m', h1, h2, h3, h4, -⟩ := C31_round_trip_partial rfl tTable_supported tableMem 0 0 tableMem_savable tableMem 300
    (by decide) (by intro x h1 h2; show (if x = 0 then _ else _) = _; rw [if_neg (by omega)])
  refine ⟨text, err, m', h1, h2, h3, ?_⟩
  rw [Same] at h4
  have h5 := (h4.resolve_left (by decide)).1
  simp only [SameFlds, and_true] at h5
  have h6 := (h5 (by decide)).1 trivial
  rw [Same] at h6
  exact h6.1

/-- The text. -/
example : saveJSON demoEnv {} tableMem tTable 0 0 =
    .ok b!"{\"rows\":{\"Low\":{\"a\":3,\"b\":0},\"High\":{\"a\":0,\"b\":4}}}" := by decide +kernel

/-- `struct Counts { Map<Level, int> n; };`. -/
def tCounts : Ty := .cls (Hash.hashText b!"Counts") 8 0
  (.cons { name := b!"n", offset := 0 } (.dict (Hash.hashText b!"Map<Level, int>") 8 tLevel tInt false) .nil) .nil

/-- C31 is false for dictionaries of anything but classes: values are parsed as objects
(SerialiseJSON.cpp:498-500), so the text saved is not accepted. -/
theorem C31_dictionary_of_numbers_negation :
    saveJSON demoEnv {} { tableMem with elems := fun x => if x = 0 then [(100, 200)] else [] } tCounts 0 0 =
      .ok b!"{\"n\":{\"Low\":3}}" ∧
    outcome (loadJSON demoEnv b!"{\"n\":{\"Low\":3}}" (memOf []) tCounts 0) 0 4 = some (.unexpectedToken, [0, 0, 0, 0]) := by
  decide +kernel

/-- `struct Ids { Map<int, Inner> rows; };`. -/
def tIds : Ty := .cls (Hash.hashText b!"Ids") 8 0
  (.cons { name := b!"rows", offset := 0 } (.dict (Hash.hashText b!"Map<int, Inner>") 8 tInt tInner false) .nil) .nil

/-- `struct Lists { Vec<Ids> v; };`. -/
def tLists : Ty := .cls (Hash.hashText b!"Lists") 8 0
  (.cons { name := b!"v", offset := 0 } (.vec (Hash.hashText b!"Vec<Ids>") 8 tIds false) .nil) .nil

/-- C31 is false for dictionaries with keys that are numbers: keys are not quoted, so that the text is not JSON; it is
loaded again where it is looked at once, but not in a container, whose elements are first counted as JSON
(SerialiseJSON.cpp:239-306). -/
theorem C31_dictionary_from_numbers_negation :
    saveJSON demoEnv {} { tableMem with elems := fun x => if x = 0 then [(0, 400)] else if x = 400 then [(104, 200)] else [] }
      tLists 0 0 = .ok b!"{\"v\":[{\"rows\":{5:{\"a\":3,\"b\":0}}}]}" ∧
    outcome (loadJSON demoEnv b!"{\"v\":[{\"rows\":{5:{\"a\":3,\"b\":0}}}]}" (memOf []) tLists 0) 0 4 =
      some (.unexpectedToken, [0, 0, 0, 0]) ∧
    outcome (loadJSON demoEnv b!"{\"rows\":{5:{\"a\":3,\"b\":0}}}" (memOf []) tIds 0) 0 4 = some (.none, [0, 0, 0, 0]) := by
  decide +kernel

/-! ### C32 -/

theorem findOwn_mem {hash : BitVec 32} (fs : Flds) {f : FldInfo} {t : Ty} (h : findOwn hash fs = some (f, t)) :
    (f, t) ∈ fs.list ∧ Hash.hashText f.name = hash := by
  match fs with
  | .nil => simp [findOwn] at h
  | .cons f' t' r =>
    rw [findOwn] at h
    split at h
    · rename_i hh
      cases h
      exact ⟨by simp [Flds.list], hh⟩
    · have := findOwn_mem r h
      exact ⟨by simp [Flds.list, this.1], this.2⟩

mutual
theorem findField_sub {hash : BitVec 32} : ∀ (t : Ty) {f : FldInfo} {ft : Ty}, findField hash t = some (f, ft) →
    (f, ft) ∈ t.allFields ∧ Hash.hashText f.name = hash
  | .prim _ _, _, _ => by simp [findField]
  | .enum _ _ _ _, _, _ => by simp [findField]
  | .vec _ _ _ _, _, _ => by simp [findField]
  | .dict _ _ _ _ _, _, _ => by simp [findField]
  | .tmpl _ _ bs, f, ft => by
      intro h
      rw [findField] at h
      rw [Ty.allFields]
      exact findBases_sub bs h
  | .cls _ _ _ fs bs, f, ft => by
      intro h
      rw [findField] at h
      rw [Ty.allFields]
      cases ho : findOwn hash fs with
      | some r =>
        rw [ho] at h
        cases h
        have := findOwn_mem fs ho
        exact ⟨List.mem_append.2 (.inl this.1), this.2⟩
      | none =>
        rw [ho] at h
        have := findBases_sub bs h
        exact ⟨List.mem_append.2 (.inr this.1), this.2⟩

theorem findBases_sub {hash : BitVec 32} : ∀ (bs : Tys) {f : FldInfo} {ft : Ty}, findBases hash bs = some (f, ft) →
    (f, ft) ∈ bs.allFields ∧ Hash.hashText f.name = hash
  | .nil, _, _ => by simp [findBases]
  | .cons t r, f, ft => by
      intro h
      rw [findBases] at h
      rw [Tys.allFields]
      cases ho : findField hash t with
      | some x =>
        rw [ho] at h
        cases h
        have := findField_sub t ho
        exact ⟨List.mem_append.2 (.inl this.1), this.2⟩
      | none =>
        rw [ho] at h
        have := findBases_sub r h
        exact ⟨List.mem_append.2 (.inr this.1), this.2⟩
end

theorem memberOf_unknown {e : Env} {h : BitVec 32} {s : Nat} {fl : BitVec 32} {fs : Flds} {bs : Tys} {b : Nat} {name : Bytes}
    (hu : Unknown e (.cls h s fl fs bs) name) : memberOf e (some (.cls h s fl fs bs, b)) name = none := by
  unfold memberOf
  dsimp only
  split
  · rename_i f t hf
    have := findField_sub _ hf
    rw [if_pos (hu (f, t) this.1 this.2)]
  · rfl

theorem membersEffect_filter {e : Env} {h : BitVec 32} {s : Nat} {fl : BitVec 32} {fs : Flds} {bs : Tys} {b : Nat}
    (keep : Bytes × Bytes → Bool) (ms : List (Bytes × Bytes))
    (hdrop : ∀ x ∈ ms, keep x = false → Unknown e (.cls h s fl fs bs) x.1) (m : Mem) :
    membersEffect e (some (.cls h s fl fs bs, b)) ms m = membersEffect e (some (.cls h s fl fs bs, b)) (ms.filter keep) m := by
  induction ms generalizing m with
  | nil => rfl
  | cons x xs ih =>
    have ih := ih (fun y hy => hdrop y (by simp [hy]))
    rw [membersEffect]
    cases hk : keep x
    · rw [List.filter_cons_of_neg (by simp [hk]), memberEffect, memberOf_unknown (hdrop x (by simp) hk)]
      exact ih m
    · rw [List.filter_cons_of_pos hk, membersEffect]
      cases hm : memberEffect e (some (.cls h s fl fs bs, b)) m x with
      | ok m1 => exact ih m1
      | trap => rfl
      | ub => rfl
      | fuel => rfl

/-- Two loads end alike: with no error and the same memory, or both in a failed assertion, or both in undefined
behaviour. -/
def SameLoad (r r' : Out (Err × Mem)) : Prop :=
  (∃ err err' m, r = .ok (err, m) ∧ r' = .ok (err', m) ∧ err.code = .none ∧ err'.code = .none) ∨
  (r = .trap ∧ r' = .trap) ∨ (r = .ub ∧ r' = .ub)

/-- **C32** (partial): take any JSON object as text, with white space and members of any depth, and leave out, or put
in, any members whose names the class does not know or has as transient fields, wherever they stand: loading either text
into an object of the class ends the same way, with no error and the same memory if it ends normally.

Missing: classes where one of the fields that the text does name has a dictionary in its type (the library's
dictionaries do not take all of JSON). -/
theorem C32_unknown_members_partial {e : Env} {h : BitVec 32} {s : Nat} {fl : BitVec 32} {fs : Flds} {bs : Tys}
    {w w' text text' : Bytes} {ms : List (Bytes × Bytes)} (keep : Bytes × Bytes → Bool) (hw : Ws w) (hw' : Ws w')
    (ht : ObjOf text ms) (ht' : ObjOf text' (ms.filter keep))
    (hdrop : ∀ x ∈ ms, keep x = false → Unknown e (.cls h s fl fs bs) x.1)
    (hdict : ∀ x ∈ ms, ∀ f ∈ (Ty.cls h s fl fs bs).allFields, Hash.hashText f.1.name = Hash.hashText x.1 → NoDict f.2)
    (m : Mem) (b : Nat) (q q' : Bytes) :
    SameLoad (loadJSON e (w ++ 123 :: (text ++ 125 :: q)) m (.cls h s fl fs bs) b)
      (loadJSON e (w' ++ 123 :: (text' ++ 125 :: q')) m (.cls h s fl fs bs) b) := by
  have hnd : ∀ x ∈ ms, ∀ f t a, memberOf e (some (.cls h s fl fs bs, b)) x.1 = some (f, t, a) → NoDict t := by
    intro x hx f t a hm
    unfold memberOf at hm
    dsimp only at hm
    split at hm
    · rename_i f' t' hf
      have hsub := findField_sub _ hf
      split at hm
      · cases hm
      · cases hm
        exact hdict x hx _ hsub.1 hsub.2
    · cases hm
  have h1 := load_effect hw ht q m b hnd
  have h2 := load_effect hw' ht' q' m b (fun x hx => hnd x (List.mem_filter.1 hx).1)
  rw [membersEffect_filter keep ms hdrop m] at h1
  unfold SameLoad
  cases hr : membersEffect e (some (.cls h s fl fs bs, b)) (ms.filter keep) m with
  | ok m' =>
    rw [hr] at h1 h2
    generalize loadJSON e (w ++ 123 :: (text ++ 125 :: q)) m (.cls h s fl fs bs) b = r1 at h1 ⊢
    generalize loadJSON e (w' ++ 123 :: (text' ++ 125 :: q')) m (.cls h s fl fs bs) b = r2 at h2 ⊢
    cases h1 with
    | @ok x _ h1 => cases h2 with
      | @ok y _ h2 =>
        refine .inl ⟨x.1, y.1, m', ?_, ?_, h1.1, h2.1⟩
        · rw [← h1.2]
        · rw [← h2.2]
  | trap =>
    rw [hr] at h1 h2
    generalize loadJSON e (w ++ 123 :: (text ++ 125 :: q)) m (.cls h s fl fs bs) b = r1 at h1 ⊢
    generalize loadJSON e (w' ++ 123 :: (text' ++ 125 :: q')) m (.cls h s fl fs bs) b = r2 at h2 ⊢
    cases h1; cases h2; exact .inr (.inl ⟨rfl, rfl⟩)
  | ub =>
    rw [hr] at h1 h2
    generalize loadJSON e (w ++ 123 :: (text ++ 125 :: q)) m (.cls h s fl fs bs) b = r1 at h1 ⊢
    generalize loadJSON e (w' ++ 123 :: (text' ++ 125 :: q')) m (.cls h s fl fs bs) b = r2 at h2 ⊢
    cases h1; cases h2; exact .inr (.inr ⟨rfl, rfl⟩)
  | fuel =>
    rw [hr] at h1
    generalize loadJSON e (w ++ 123 :: (text ++ 125 :: q)) m (.cls h s fl fs bs) b = r1 at h1 ⊢
    cases h1

/-- **C32**, nothing known: if the class knows none of the members, whatever fields it has, loading changes nothing and
reports no error. -/
theorem C32_all_unknown {e : Env} {h : BitVec 32} {s : Nat} {fl : BitVec 32} {fs : Flds} {bs : Tys}
    {w text : Bytes} {ms : List (Bytes × Bytes)} (hw : Ws w) (ht : ObjOf text ms)
    (hun : ∀ x ∈ ms, Unknown e (.cls h s fl fs bs) x.1) (m : Mem) (b : Nat) (q : Bytes) :
    ∃ err, loadJSON e (w ++ 123 :: (text ++ 125 :: q)) m (.cls h s fl fs bs) b = .ok (err, m) ∧ err.code = .none := by
  have h1 := load_effect hw ht q m b (by
    intro x hx f t a hm
    rw [memberOf_unknown (hun x hx)] at hm
    cases hm)
  rw [membersEffect_filter (fun _ => false) ms (fun x hx _ => hun x hx) m] at h1
  rw [show ms.filter (fun _ => false) = [] by simp, membersEffect] at h1
  generalize loadJSON e (w ++ 123 :: (text ++ 125 :: q)) m (.cls h s fl fs bs) b = r1 at h1 ⊢
  cases h1 with
  | @ok x _ h1 => exact ⟨x.1, by rw [← h1.2], h1.1⟩

theorem ws_nil : Ws [] := by simp [Ws]

/-- The hypotheses are met by a text with an unknown member that has a nested value, before a known one. -/
example (m : Mem) : SameLoad
    (loadJSON demoEnv b!"{\"zz\":[1,{\"q\":null}],\"id\":5}" m tBase 0) (loadJSON demoEnv b!"{\"id\":5}" m tBase 0) := by
  have hid : JStr b!"id" := jstr_plain (by decide)
  have h5 : JVal b!"5" := .num (.int ⟨by decide, by decide⟩)
  have h1 : ObjOf b!"\"id\":5" [(b!"id", b!"5")] := ObjOf.one (w := []) (x := []) (y := []) (z := []) ws_nil hid ws_nil ws_nil h5 ws_nil
  have hq : JMembers b!"\"q\":null" :=
    .one (w := []) (k := b!"q") (x := []) (y := []) (z := []) ws_nil (jstr_plain (by decide)) ws_nil ws_nil .null ws_nil
  have hobj : JElems b!"{\"q\":null}" := .one (w := []) (x := []) ws_nil (JVal.obj hq) ws_nil
  have hone : JVal b!"1" := .num (.int ⟨by decide, by decide⟩)
  have hv : JVal b!"[1,{\"q\":null}]" := .arr (.more (w := []) (x := []) ws_nil hone ws_nil hobj)
  have h2 : ObjOf b!"\"zz\":[1,{\"q\":null}],\"id\":5" [(b!"zz", b!"[1,{\"q\":null}]"), (b!"id", b!"5")] :=
    ObjOf.more (w := []) (k := b!"zz") (x := []) (y := []) (z := []) ws_nil (jstr_plain (by decide)) ws_nil ws_nil hv ws_nil h1
  refine C32_unknown_members_partial (w := []) (w' := []) (q := []) (q' := []) (fun x => x.1 == b!"id") ws_nil ws_nil h2 h1 ?_ ?_ m 0
  · intro x hx hk f hf hh
    exfalso
    simp only [tBase, Ty.allFields, Flds.list, Tys.allFields, List.append_nil, List.mem_singleton] at hf
    subst hf
    simp only [List.mem_cons, List.not_mem_nil, or_false] at hx
    rcases hx with rfl | rfl
    · revert hh; decide +kernel
    · revert hk; decide
  · intro x _ f hf _
    simp only [Ty.allFields, Flds.list, Tys.allFields, List.append_nil, List.mem_singleton] at hf
    subst hf
    trivial

example : outcome (loadJSON demoEnv b!"{\"zz\":[1,{\"q\":null}],\"id\":5}" (memOf []) tBase 0) 0 8 =
    some (.none, [5, 0, 0, 0, 0, 0, 0, 0]) := by decide +kernel

/-! ### C34 -/

/-- **C34** (partial): with sorting, the text of an object is a JSON object whose members are named like the class's
own saved fields, each once and in increasing order of their offsets, followed by the inherited ones.  (That the values
are the right ones is C31.)

Missing: pointer fields with a pointer map, and what `Supported` excludes; in particular two fields with the same offset,
see `C34_equal_offsets_negation`. -/
theorem C34_sorted_partial {e : Env} {o : Opts} (hptr : o.ptrs = none) (hsort : o.sort = true) {h : BitVec 32} {s : Nat}
    {fl : BitVec 32} {fs : Flds} {bs : Tys} (hs : Supported e o (.cls h s fl fs bs)) (m : Mem) (a indent : Nat)
    (hsav : Savable e m (.cls h s fl fs bs) a) :
    ∃ (w text w' : Bytes) (ms : List (Bytes × Bytes)) (own inherited : List (FldInfo × Ty)),
      saveJSON e o m (.cls h s fl fs bs) indent a = .ok (w ++ (123 :: (text ++ [125]) ++ w')) ∧
      Ws w ∧ Ws w' ∧ ObjOf text ms ∧
      ms.map Prod.fst = own.map (fun x => x.1.name) ++ inherited.map (fun x => x.1.name) ∧
      own.Pairwise (fun x y => x.1.offset < y.1.offset) ∧
      (∀ x, x ∈ own ↔ x ∈ fs.list ∧ savedField e x.1 = true) ∧
      (∀ x, x ∈ inherited ↔ x ∈ bs.savedFields e) := by
  obtain ⟨text, xs, h1, -, -, -, ⟨ms, h5, h6⟩, rfl⟩ := cls_save hptr hs (fun x hx => rt_all hptr _
    (((base_iff e o _ (cls_base hs)).2.2.2 x hx).1)) m a indent hsav
  rw [Supported] at hs
  obtain ⟨-, -, hbs, -, -, -, hso⟩ := hs
  have h7 := own_ok e o m fs hso
  have h8 := bases_ok e o m bs hbs
  refine ⟨newLine o indent, text, newLine o indent, ms, written (order e o (savers e o m fs)), written (baseSavers e o m bs),
    h1, newLine_ws o _, newLine_ws o _, h5, by rw [h6]; simp [written], ?_, fun x => by rw [h7.mem]; simp [List.mem_filter], h8.mem⟩
  have o2 := (order_spec e o (savers e o m fs) (by
    intro hs
    obtain ⟨h1, h2⟩ := hso hs
    rw [← savers_map e o m fs] at h1 h2
    refine ⟨?_, fun s hs => h2 s.field (List.mem_map.2 ⟨s, hs, rfl⟩)⟩
    rw [List.pairwise_filter, List.pairwise_map] at h1
    rw [List.pairwise_filter]
    exact h1)).2.1 hsort
  unfold written
  rw [List.pairwise_map, List.pairwise_filter]
  exact o2.imp fun hlt _ _ => hlt

/-- `struct U { int b; int a; }` with `b` at offset 4 in the list of fields before `a` at 0. -/
def tUnsorted : Ty := .cls (Hash.hashText b!"U") 8 0
  (.cons { name := b!"b", offset := 4 } tInt (.cons { name := b!"a", offset := 0 } tInt .nil)) .nil

/-- The effect of the flag on a class whose fields are not in order. -/
example :
    saveJSON demoEnv { sort := true } (memOf [1, 0, 0, 0, 2, 0, 0, 0]) tUnsorted 0 0 = .ok b!"{\"a\":1,\"b\":2}" ∧
    saveJSON demoEnv {} (memOf [1, 0, 0, 0, 2, 0, 0, 0]) tUnsorted 0 0 = .ok b!"{\"b\":2,\"a\":1}" := by
  decide +kernel

/-- That class meets the hypotheses of C34. -/
example : Supported demoEnv { sort := true } tUnsorted ∧ Savable demoEnv (memOf [1, 0, 0, 0, 2, 0, 0, 0]) tUnsorted 0 := by
  have hint : ∀ a, a = 0 ∨ a = 4 → Savable demoEnv (memOf [1, 0, 0, 0, 2, 0, 0, 0]) tInt a := by
    intro a ha
    rw [tInt, Savable]
    intro k hk
    rw [show dispatch demoEnv.lut (Hash.hashText b!"int") = some (.int 4) by decide +kernel] at hk
    cases hk
    refine ⟨?_, by simp⟩
    rcases ha with rfl | rfl <;> simp only [Num.Savable] <;> decide +kernel
  rw [tUnsorted, Supported, Savable]
  refine ⟨⟨by decide, ?_, by simp [SupportedTys], by decide +kernel, by decide +kernel, by decide +kernel, ?_⟩,
    .inr ⟨?_, by simp [SavableTys]⟩⟩
  · simp only [SupportedFlds, and_true]
    exact ⟨fun _ => ⟨tInt_supported _, by simp⟩, fun _ => ⟨tInt_supported _, by simp⟩⟩
  · intro _; exact ⟨by decide, by decide⟩
  · simp only [SavableFlds, and_true]
    exact ⟨fun _ => ⟨fun _ => hint 4 (.inr rfl), fun n hn => by simp at hn⟩,
      fun _ => ⟨fun _ => hint 0 (.inl rfl), fun n hn => by simp at hn⟩⟩

/-- `union { int a; int b; }`. -/
def tUnion : Ty := .cls (Hash.hashText b!"U") 4 0
  (.cons { name := b!"b", offset := 0 } tInt (.cons { name := b!"a", offset := 0 } tInt .nil)) .nil

/-- C34 is false for two fields with the same offset: with sorting the second is left out
(SerialiseJSON.cpp:998-1006), although it is saved without. -/
theorem C34_equal_offsets_negation :
    saveJSON demoEnv { sort := true } (memOf [1, 0, 0, 0]) tUnion 0 0 = .ok b!"{\"b\":1}" ∧
    saveJSON demoEnv {} (memOf [1, 0, 0, 0]) tUnion 0 0 = .ok b!"{\"b\":1,\"a\":1}" := by
  decide +kernel

/-! ### C30 -/

/-- **C30**, plain enums: a value that one of the constants has is saved as the name of such a constant, and that text
is read back as the value.  For every enum of plain, differently hashed names. -/
theorem C30_plain_enum {cs : List Const} (hn : EnumNames cs) (v : BitVec 32) (hv : ∃ c ∈ cs, c.value = v) :
    ∃ c ∈ cs, c.value = v ∧ saveEnum cs false v = quote c.name ∧
      ∀ (m : Mem) (h : BitVec 32) (s a : Nat),
        loadString m { type := .string, text := c.name } (some (.enum h s cs false, a)) = m.write a (le 4 v.toNat) := by
  obtain ⟨c, hc, hcv⟩ := hv
  cases hfind : cs.find? (fun c => c.value == v) with
  | none =>
    have := List.find?_eq_none.1 hfind c hc
    simp [hcv] at this
  | some d =>
    have hd := List.mem_of_find?_eq_some hfind
    have hdv : d.value = v := by simpa using List.find?_some hfind
    refine ⟨d, hd, hdv, by simp [saveEnum, hfind], fun m h s a => ?_⟩
    simp only [loadString, Tok.isValid, enumOfText, findConst_mem hn hd, hdv]
    rfl

/-- **C30** (partial), flags: a value made of declared constants is saved as a `|` list of names of constants that make up
the value, and that text is read back as the value -- provided every constant that shares a bit with the value is part of
it, see `C30_overlapping_flags_negation`. -/
theorem C30_flags_enum_partial {cs : List Const} (hn : EnumNames cs) (v : BitVec 32) (hv : v ≠ 0)
    (hin : ∀ c ∈ cs, v &&& c.value = 0 ∨ v &&& c.value = c.value)
    (hparts : ∃ parts : List Const, (∀ c ∈ parts, c ∈ cs) ∧ orAll (parts.map Const.value) = v) :
    ∃ parts : List Const, (∀ c ∈ parts, c ∈ cs) ∧ orAll (parts.map Const.value) = v ∧
      saveEnum cs true v = quote (joinBar (parts.map Const.name)) ∧
      ∀ (m : Mem) (h : BitVec 32) (s a : Nat),
        loadString m { type := .string, text := joinBar (parts.map Const.name) } (some (.enum h s cs true, a)) =
          m.write a (le 4 v.toNat) := by
  obtain ⟨parts, hp, hor⟩ := hparts
  have hcov : ∀ i, v.getLsbD i = true → ∃ c ∈ cs, c.value.getLsbD i = true := by
    intro i hi
    rw [← hor, orAll_bit] at hi
    obtain ⟨x, hx, hxi⟩ := hi
    obtain ⟨c, hc, rfl⟩ := List.mem_map.1 hx
    exact ⟨c, hp c hc, hxi⟩
  have hpick := picks_or cs v hin hcov
  have hne : picks cs v ≠ [] := by
    intro hc
    rw [hc] at hpick
    exact hv hpick.symm
  refine ⟨picks cs v, fun c hc => (picks_mem cs v c hc).1, hpick, ?_, fun m h s a => ?_⟩
  · unfold saveEnum
    rw [if_pos (by simpa using hv), flagNames_eq]
    split
    · rename_i hc; simp at hc; exact absurd hc hne
    · rfl
  · simp only [loadString, Tok.isValid, enumOfText]
    rw [splitBar_join]
    · simp only [if_true]
      rw [orFlags_picks hn _ (fun c hc => (picks_mem cs v c hc).1) hne, hpick]
      rfl
    · intro n hn'
      obtain ⟨c, hc, rfl⟩ := List.mem_map.1 hn'
      have := hn.plain c (picks_mem cs v c hc).1
      exact ⟨this.1, fun b hb => (this.2 b hb).2.2⟩

/-- **C30** (partial), whole texts: an enum field of a class with that field only is saved and loaded back, from any memory
to any other. -/
theorem C30_field_round_trip_partial {e : Env} {o : Opts} (hptr : o.ptrs = none) (ch eh : BitVec 32) (name : Bytes)
    (hname : PlainName name) {cs : List Const} (hn : EnumNames cs) (isFlags : Bool) (v : BitVec 32) (hv : EnumValue cs isFlags v)
    (m m0 : Mem) (a b indent : Nat) (hread : m.read a 4 = le 4 v.toNat) (hb : b + 4 ≤ m0.next) (hcl : Clear m0 b 4) :
    ∃ text err m', saveJSON e o m (.cls ch 4 0 (.cons { name := name, offset := 0 } (.enum eh 4 cs isFlags) .nil) .nil) indent a = .ok text ∧
      loadJSON e text m0 (.cls ch 4 0 (.cons { name := name, offset := 0 } (.enum eh 4 cs isFlags) .nil) .nil) b = .ok (err, m') ∧
      err.code = .none ∧ m'.read b 4 = le 4 v.toNat := by
  have h0 : e.skips 0 = false := by simp [Env.skips]
  have h0' : e.skips 0#32 = false := h0
  have hsf : savedField e { name := name, offset := 0 } = true := by simp [savedField, h0']
  have hsf' : savedField e { name := name, offset := 0, flags := 0#32 } = true := hsf
  have hval : BitVec.ofNat 32 (unle (m.read a 4)) = v := by
    rw [hread, unle_le_of_lt (by exact v.isLt)]
    simp
  have hsup : Supported e o (.cls ch 4 0 (.cons { name := name, offset := 0 } (.enum eh 4 cs isFlags) .nil) .nil) := by
    rw [Supported]
    refine ⟨h0, ?_, by simp [SupportedTys], ?_, ?_, ?_, fun _ => ⟨?_, ?_⟩⟩
    · simp only [SupportedFlds, Supported, and_true]
      exact fun _ => ⟨⟨trivial, hn⟩, by simp⟩
    · simp [Ty.savedFields, h0', Flds.list, Tys.savedFields, hsf']
    · simp [Ty.allFields, Flds.list, Tys.allFields]
    · simp [Ty.savedFields, h0', Flds.list, Tys.savedFields, hsf', FldInfo.extent, strideOf, Ty.size, hname]
    · simp [Flds.list, h0']
    · simp [Flds.list]
  have hsav : Savable e m (.cls ch 4 0 (.cons { name := name, offset := 0 } (.enum eh 4 cs isFlags) .nil) .nil) a := by
    rw [Savable]
    refine .inr ⟨?_, by simp [SavableTys]⟩
    simp only [SavableFlds, Savable, and_true, Nat.add_zero]
    exact fun _ => ⟨fun _ => by rw [hval]; exact hv, fun n hn => by simp at hn⟩
  obtain ⟨text, err, m', h1, h2, h3, h4, -⟩ := C31_round_trip_partial hptr hsup m a indent hsav m0 b hb hcl
  refine ⟨text, err, m', h1, h2, h3, ?_⟩
  rw [Same] at h4
  have := ((h4.resolve_left (by simp [h0'])).1)
  simp only [SameFlds, Same, and_true, Nat.add_zero] at this
  rw [(this hsf).1 trivial, hread]

/-- An enum and values that meet the hypotheses: flags with a combination of two constants, one of two bits. -/
example : EnumNames [⟨b!"Read", 1⟩, ⟨b!"Write", 6⟩, ⟨b!"Hidden", 8⟩] ∧ EnumValue [⟨b!"Read", 1⟩, ⟨b!"Write", 6⟩, ⟨b!"Hidden", 8⟩] true 7 ∧
    saveEnum [⟨b!"Read", 1⟩, ⟨b!"Write", 6⟩, ⟨b!"Hidden", 8⟩] true 7 = b!"\"Read|Write\"" := by
  refine ⟨⟨by decide, by decide +kernel⟩, ?_, by decide⟩
  rw [EnumValue, if_pos (by decide)]
  exact ⟨by decide, [⟨b!"Read", 1⟩, ⟨b!"Write", 6⟩], by decide, by decide⟩

/-- C30 is false for flags with overlapping constants: `enum { All = 3, Read = 1 }` (in the order the database keeps
constants, by hash) saves the value of `Read` as `All`, which is read back as 3. -/
theorem C30_overlapping_flags_negation :
    (Hash.hashText b!"All").toNat < (Hash.hashText b!"Read").toNat ∧
    saveEnum [⟨b!"All", 3⟩, ⟨b!"Read", 1⟩] true 1 = b!"\"All\"" ∧
    enumOfText [⟨b!"All", 3⟩, ⟨b!"Read", 1⟩] true b!"All" = some 3 := by
  decide +kernel

/-! ### C36 -/

/-- Texts separated by commas. -/
def joinComma : List Bytes → Bytes
  | [] => []
  | [s] => s
  | s :: t :: r => s ++ 44 :: joinComma (t :: r)

/-- A text that is lexed as the integer, whatever follows that can follow a number. -/
def LexesTo (t : Bytes) (v : Nat) : Prop :=
  ∀ (f : Bytes → UInt64) (c : Ctx) (b : UInt8) (r : Bytes), isDelim b = true → c.rest = t ++ b :: r →
    nextToken f c = .ok ({ type := .integer, bits := UInt64.ofNat v }, c.adv t.length)

theorem savePtr_spec (o : Opts) (h : BitVec 32) : ∃ t, savePtr o h = .ok t ∧ LexesTo t h.toNat ∧ JNum t := by
  have hlt : h.toNat < 2 ^ 64 := Nat.lt_trans h.isLt (by decide)
  unfold savePtr
  cases o.hexPtrs
  · simp only [Bool.false_eq_true, if_false]
    obtain ⟨t, h1, h2⟩ := C28_unsigned_round_trip h.toNat hlt
    exact ⟨t, h1, h2, saveUnsigned_jnum h1⟩
  · simp only [if_true]
    obtain ⟨t, h1, h2⟩ := C28_hex_round_trip h.toNat hlt
    refine ⟨b!"0x" ++ t, by rw [h1]; rfl, fun f c b r hb hc => ?_, ?_⟩
    · have := (h2 f c b r hb).1 (by simpa using hc)
      simpa using this
    · have := saveHex_digits h1
      exact .hex (.inr rfl) this.1 this.2

/-- The texts are, in order, those of the integers that the pointers of the elements are mapped to. -/
def PtrTexts (o : Opts) (m : Mem) (type : BitVec 32) : List (Nat × Nat) → List Bytes → Prop
  | [], [] => True
  | kv :: items, t :: ts =>
    (∃ h, o.mapPtr type (m.ptr kv.2) = some h ∧ LexesTo t h.toNat ∧ JNum t) ∧ PtrTexts o m type items ts
  | _, _ => False

theorem saveItems_stuck (o : Opts) (m : Mem) (type : BitVec 32) (save : Nat → Res Bytes) (kv : Nat × Nat) (rest : List (Nat × Nat))
    (h : o.mapPtr type (m.ptr kv.2) = none) (n : Nat) (written : Bool) :
    saveItems o m type true none save n (kv :: rest) written = .ok (if written then List.replicate n 44 else []) := by
  induction n with
  | zero => cases written <;> rfl
  | succ n ih =>
    rw [saveItems]
    simp only [saveKey, saveValue, if_true, h, Res.bind_ok]
    rw [ih, Res.bind_ok]
    cases written <;> simp [List.replicate_succ]

theorem saveItems_ptrs (o : Opts) (m : Mem) (type : BitVec 32) (save : Nat → Res Bytes) (pre post : List (Nat × Nat))
    (hpre : ∀ kv ∈ pre, o.mapPtr type (m.ptr kv.2) ≠ none)
    (hpost : ∀ kv, post.head? = some kv → o.mapPtr type (m.ptr kv.2) = none) :
    ∃ ts, PtrTexts o m type pre ts ∧
      saveItems o m type true none save (pre.length + post.length) (pre ++ post) false =
        .ok (joinComma ts ++ (if ts = [] then [] else List.replicate post.length 44)) ∧
      saveItems o m type true none save (pre.length + post.length) (pre ++ post) true =
        .ok ((if ts = [] then [] else 44 :: joinComma ts) ++ List.replicate post.length 44) := by
  induction pre with
  | nil =>
    refine ⟨[], trivial, ?_⟩
    cases post with
    | nil => exact ⟨rfl, rfl⟩
    | cons kv rest =>
      have h := hpost kv rfl
      simp only [List.nil_append, saveItems_stuck o m type save kv rest h, joinComma, List.length_nil, Nat.zero_add]
      exact ⟨rfl, rfl⟩
  | cons kv pre ih =>
    obtain ⟨ts, h1, -, h3⟩ := ih (fun x hx => hpre x (by simp [hx]))
    cases hm : o.mapPtr type (m.ptr kv.2) with
    | none => exact absurd hm (hpre kv (by simp))
    | some h =>
      obtain ⟨t, t1, t2, t3⟩ := savePtr_spec o h
      refine ⟨t :: ts, ⟨⟨h, hm, t2, t3⟩, h1⟩, ?_⟩
      have hlen : (kv :: pre).length + post.length = (pre.length + post.length) + 1 := by simp; omega
      rw [hlen]
      simp only [List.cons_append, saveItems, saveKey, saveValue, if_true, hm, t1, Res.map, Res.bind_ok, h3,
        Bool.false_eq_true, if_false]
      cases ts with
      | nil => simp [joinComma]
      | cons t' ts => simp [joinComma]

theorem PtrTexts.ne_nil {o : Opts} {m : Mem} {type : BitVec 32} {items : List (Nat × Nat)} {ts : List Bytes}
    (h : PtrTexts o m type items ts) (hne : items ≠ []) : ts ≠ [] := by
  cases items with
  | nil => exact absurd rfl hne
  | cons kv items => cases ts with
    | nil => exact absurd h (by simp [PtrTexts])
    | cons => simp

theorem PtrTexts.jelems {o : Opts} {m : Mem} {type : BitVec 32} {items : List (Nat × Nat)} {ts : List Bytes}
    (h : PtrTexts o m type items ts) (hne : ts ≠ []) : JElems (joinComma ts) := by
  induction items generalizing ts with
  | nil => cases ts with
    | nil => exact absurd rfl hne
    | cons => exact absurd h (by simp [PtrTexts])
  | cons kv items ih => cases ts with
    | nil => exact absurd rfl hne
    | cons t ts =>
      obtain ⟨⟨_, _, _, ht⟩, h⟩ := h
      cases ts with
      | nil => simpa [joinComma] using JElems.one (w := []) (x := []) ws_nil (.num ht) ws_nil
      | cons t' ts => simpa [joinComma] using JElems.more (w := []) (x := []) ws_nil (.num ht) ws_nil (ih h (by simp))

/-- **C36** (partial): a container of pointers that can all be mapped is saved as a JSON array of the integers they are
mapped to, all of them and in order.

Missing: elements that cannot be mapped, see `C36_unmappable` for what is written then and `C36_negation`. -/
theorem C36_all_mappable_partial (e : Env) (o : Opts) (m : Mem) (h : BitVec 32) (s : Nat) (elem : Ty) (indent a : Nat)
    (hmap : ∀ kv ∈ m.elems a, o.mapPtr elem.hash (m.ptr kv.2) ≠ none) :
    ∃ ts, saveJSON e o m (.vec h s elem true) indent a = .ok (91 :: (joinComma ts ++ [93])) ∧
      PtrTexts o m elem.hash (m.elems a) ts ∧ JVal (91 :: (joinComma ts ++ [93])) := by
  unfold saveJSON
  rw [saveObj]
  unfold saveContainer
  by_cases hn : m.elems a = []
  · rw [if_pos hn, hn]
    exact ⟨[], rfl, trivial, .arr0 ws_nil⟩
  · rw [if_neg hn]
    obtain ⟨ts, h1, h2, -⟩ := saveItems_ptrs o m elem.hash (fun x => saveObj e o m elem indent x) (m.elems a) [] hmap (by simp)
    simp only [List.length_nil, Nat.add_zero, List.append_nil, List.replicate_zero, ite_self] at h2
    refine ⟨ts, ?_, h1, .arr (h1.jelems (h1.ne_nil hn))⟩
    rw [h2]
    rfl

/-- **C36**, what happens otherwise: the elements up to the first that cannot be mapped are saved in order; that one and
everything after it is replaced by nothing but commas (none if nothing was saved before it). -/
theorem C36_unmappable (e : Env) (o : Opts) (m : Mem) (h : BitVec 32) (s : Nat) (elem : Ty) (indent a : Nat)
    (pre post : List (Nat × Nat)) (kv : Nat × Nat) (hel : m.elems a = pre ++ kv :: post)
    (hmap : ∀ x ∈ pre, o.mapPtr elem.hash (m.ptr x.2) ≠ none) (hno : o.mapPtr elem.hash (m.ptr kv.2) = none) :
    ∃ ts, PtrTexts o m elem.hash pre ts ∧ saveJSON e o m (.vec h s elem true) indent a =
      .ok (91 :: (joinComma ts ++ (if pre = [] then [] else List.replicate (post.length + 1) 44) ++ [93])) := by
  unfold saveJSON
  rw [saveObj]
  unfold saveContainer
  rw [if_neg (by simp [hel]), hel]
  obtain ⟨ts, h1, h2, -⟩ := saveItems_ptrs o m elem.hash (fun x => saveObj e o m elem indent x) pre (kv :: post) hmap (by
    intro x hx; cases hx; exact hno)
  refine ⟨ts, h1, ?_⟩
  rw [show (pre ++ kv :: post).length = pre.length + (kv :: post).length by simp, h2]
  cases pre with
  | nil => cases ts with
    | nil => rfl
    | cons => exact absurd h1 (by simp [PtrTexts])
  | cons x pre =>
    have := h1.ne_nil (by simp)
    simp [this]

/-- A map that knows pointers to addresses below 100. -/
def demoPtrs : PtrMap := { can := fun p _ => p < 100, map := fun p => BitVec.ofNat 32 (p + 1) }

/-- A container at 0 of pointers at 16, 24 and 32. -/
def ptrMem (p q r : UInt8) : Mem :=
  { byte := fun x => if x = 16 then p else if x = 24 then q else if x = 32 then r else 0
    elems := fun x => if x = 0 then [(0, 16), (0, 24), (0, 32)] else []
    next := 1000 }

/-- `struct P { Vec<int*> v; };`. -/
def tPtrs : Ty := .cls (Hash.hashText b!"P") 8 0
  (.cons { name := b!"v", offset := 0 } (.vec (Hash.hashText b!"Vec<int*>") 8 tInt true) .nil) .nil

/-- With all of them mappable. -/
example : saveJSON demoEnv { ptrs := some demoPtrs } (ptrMem 5 6 7) tPtrs 0 0 = .ok b!"{\"v\":[6,7,8]}" := by decide +kernel

/-- C36 is false: with an element that cannot be mapped between two that can, the third is lost and the text is not
JSON; the library's own loader reports an error. With the first not mappable, nothing is saved at all. -/
theorem C36_negation :
    saveJSON demoEnv { ptrs := some demoPtrs } (ptrMem 5 200 7) tPtrs 0 0 = .ok b!"{\"v\":[6,,]}" ∧
    (outcome (loadJSON demoEnv b!"{\"v\":[6,,]}" (memOf []) tPtrs 0) 0 0).map (·.1) = some .unexpectedToken ∧
    saveJSON demoEnv { ptrs := some demoPtrs } (ptrMem 200 6 7) tPtrs 0 0 = .ok b!"{\"v\":[]}" := by
  decide +kernel

end Clr.JSON
