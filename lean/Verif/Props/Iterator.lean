import Verif.Model.Iterator
/-!
C75: iterating over C arrays, and the lives of the iterators' implementations.
-/
namespace Clr.Iter

/-! ### C arrays -/

/-- Where the elements of the array are: one behind the other from the address of the array on. A pointer has eight
bytes. -/
def place (f : ArrayField) (object i : Nat) : Nat := object + i * (if f.isPtr then 8 else f.typeSize.toNat)

theorem elementSize_toNat (f : ArrayField) : (elementSize f).toNat = if f.isPtr then 8 else f.typeSize.toNat := by
  unfold elementSize
  split <;> simp

theorem size_toNat (f : ArrayField) : (f.count.toUInt64 * elementSize f).toNat = f.count.toNat * (elementSize f).toNat := by
  rw [UInt64.toNat_mul, UInt32.toNat_toUInt64]
  apply Nat.mod_eq_of_lt
  have h1 := f.count.toNat_lt
  have h2 : (elementSize f).toNat < 2 ^ 32 := by
    rw [elementSize_toNat]
    split
    · omega
    · exact f.typeSize.toNat_lt
  exact Nat.lt_of_lt_of_le (Nat.mul_lt_mul'' h1 h2) (by decide)

/-- An iterator at its element `k`. -/
structure At (f : ArrayField) (object k : Nat) (it : ArrayIt) : Prop where
  data : it.data = object
  elem : it.elementSize = elementSize f
  pos : it.position.toNat = k * (elementSize f).toNat
  size : it.size.toNat = f.count.toNat * (elementSize f).toNat

theorem At.lt {f : ArrayField} {object k : Nat} {it : ArrayIt} (h : At f object k it) (h0 : 0 < (elementSize f).toNat) :
    it.position < it.size ↔ k < f.count.toNat := by
  rw [UInt64.lt_iff_toNat_lt, h.pos, h.size]
  exact Nat.mul_lt_mul_right h0

theorem At.next {f : ArrayField} {object k : Nat} {it : ArrayIt} (h : At f object k it) (hk : k < f.count.toNat) :
    At f object (k + 1) { it with position := it.position + it.elementSize } where
  data := h.data
  elem := h.elem
  size := h.size
  pos := by
    show (it.position + it.elementSize).toNat = _
    rw [UInt64.toNat_add, h.pos, h.elem, Nat.succ_mul]
    apply Nat.mod_eq_of_lt
    have hs := it.size.toNat_lt
    rw [h.size] at hs
    have : (k + 1) * (elementSize f).toNat ≤ f.count.toNat * (elementSize f).toNat := Nat.mul_le_mul_right _ hk
    rw [Nat.succ_mul] at this
    omega

theorem At.place {f : ArrayField} {object k : Nat} {it : ArrayIt} (h : At f object k it) :
    it.data + it.position.toNat = Iter.place f object k := by
  rw [h.data, h.pos, elementSize_toNat]; rfl

theorem readAll_at {f : ArrayField} {object : Nat} (h0 : 0 < (elementSize f).toNat) (n k : Nat) (it : ArrayIt)
    (h : At f object k it) (hk : k ≤ f.count.toNat) :
    readAll it n = if k + n ≤ f.count.toNat then .ok ((List.range' k n).map (place f object)) else .trap := by
  induction n generalizing k it with
  | zero => simp [readAll, hk]
  | succ n ih =>
    rw [readAll, getValue]
    by_cases hlt : k < f.count.toNat
    · rw [if_pos ((h.lt h0).mpr hlt)]
      simp only [Res.bind_ok]
      rw [moveNext, ih (k + 1) _ (h.next hlt) hlt, h.place]
      by_cases hn : k + 1 + n ≤ f.count.toNat
      · rw [if_pos hn, if_pos (by omega)]; rfl
      · rw [if_neg hn, if_neg (by omega)]; rfl
    · rw [if_neg (fun hc => hlt ((h.lt h0).mp hc)), if_neg (by omega)]; rfl

theorem addAll_at {f : ArrayField} {object : Nat} (h0 : 0 < (elementSize f).toNat) (ks : List (Option Nat)) (k : Nat)
    (it : ArrayIt) (h : At f object k it) (hk : k ≤ f.count.toNat) :
    addAll it ks = if k + ks.length ≤ f.count.toNat then .ok ((List.range' k ks.length).map (place f object)) else .trap := by
  induction ks generalizing k it with
  | nil => simp [addAll, hk]
  | cons x ks ih =>
    rw [addAll, addEmpty]
    by_cases hlt : k < f.count.toNat
    · rw [if_pos ((h.lt h0).mpr hlt)]
      simp only [Res.bind_ok, List.length_cons]
      rw [ih (k + 1) _ (h.next hlt) hlt, h.place]
      by_cases hn : k + 1 + ks.length ≤ f.count.toNat
      · rw [if_pos hn, if_pos (by omega)]; rfl
      · rw [if_neg hn, if_neg (by omega)]; rfl
    · rw [if_neg (fun hc => hlt ((h.lt h0).mp hc)), if_neg (by simp only [List.length_cons]; omega)]; rfl

/-- The elements take up space. -/
def Sized (f : ArrayField) : Prop := f.isPtr = true ∨ f.typeSize ≠ 0

theorem Sized.pos {f : ArrayField} (h : Sized f) : 0 < (elementSize f).toNat := by
  rw [elementSize_toNat]
  rcases h with h | h
  · simp [h]
  · split
    · omega
    · exact Nat.pos_of_ne_zero fun h0 => h (UInt32.toNat_inj.mp h0)

/-- C75: reading a C array gives its elements, each once, in order, each where it is in the array; looking for one more
than there are fails an assertion. -/
theorem C75_read_array (f : ArrayField) (hf : Sized f) (object : Nat) (ho : object ≠ 0) (n : Nat) :
    ∃ it, readInit (some (.field f)) object = .ok it ∧
      readAll it n = if n ≤ f.count.toNat then .ok ((List.range n).map (place f object)) else .trap := by
  refine ⟨_, by rw [readInit, if_neg ho], ?_⟩
  have := readAll_at hf.pos n 0 ⟨object, elementSize f, 0, f.count.toUInt64 * elementSize f⟩
    ⟨rfl, rfl, by simp, size_toNat f⟩ (Nat.zero_le _)
  rw [this, List.range_eq_range', Nat.zero_add]

/-- C75: writing to a C array goes to its elements, each once, in order, whether keys are given or not; writing more
than there are fails an assertion. -/
theorem C75_write_array (f : ArrayField) (hf : Sized f) (object : Nat) (ho : object ≠ 0) (keys : List (Option Nat)) :
    ∃ it, writeInit (some (.field f)) object f.count.toInt32 = .ok it ∧
      addAll it keys =
        if keys.length ≤ f.count.toNat then .ok ((List.range keys.length).map (place f object)) else .trap := by
  refine ⟨_, by rw [writeInit, if_neg ho], ?_⟩
  have := addAll_at hf.pos keys 0 ⟨object, elementSize f, 0, f.count.toInt32.toUInt32.toUInt64 * elementSize f⟩
    ⟨rfl, rfl, by simp, by simpa using size_toNat f⟩ (Nat.zero_le _)
  rw [this, List.range_eq_range', Nat.zero_add]

/-- C75: an element is inside the array, and no two elements overlap. -/
theorem C75_array_places (f : ArrayField) (object i : Nat) (hi : i < f.count.toNat) :
    object ≤ place f object i ∧ place f object (i + 1) ≤ place f object f.count.toNat ∧
    ∀ j, i < j → place f object (i + 1) ≤ place f object j := by
  unfold place
  exact ⟨Nat.le_add_right _ _, Nat.add_le_add_left (Nat.mul_le_mul_right _ hi) _,
    fun j hj => Nat.add_le_add_left (Nat.mul_le_mul_right _ hj) _⟩

/-- C75: an array of elements without a size can not be read at all. -/
theorem C75_unsized_elements_false :
    ∃ f it, f.count = 3 ∧ readInit (some (.field f)) 1000 = .ok it ∧ readAll it 1 = .trap :=
  ⟨⟨0, false, 3⟩, _, rfl, rfl, rfl⟩

/-! ### Lives -/

/-- The call finds an implementation to construct. -/
def Init.impl : Init → Option Impl
  | .type none => none
  | .type (some c) => if c.ctor ∧ c.dtor then some (.user c) else none
  | .field false => none
  | .field true => some .array

/-- There is room for the implementation, and one byte more. -/
def Init.Small : Init → Prop
  | .type (some c) => c.size < 128
  | _ => True

/-- C75: a `WriteIterator` on which `Initialise` is called once, or never, constructs and destroys the implementation
exactly once if there is one, and does nothing otherwise. -/
theorem C75_write_life_partial (i : Init) (h : i.Small) :
    writeLife [i] = .ok (match i.impl with
      | some x => [.construct x, .destroy x]
      | none => []) ∧
    writeLife [] = .ok [] := by
  refine ⟨?_, rfl⟩
  cases i with
  | type c =>
    cases c with
    | none => rfl
    | some c =>
      obtain ⟨id, size, ctor, dtor⟩ := c
      replace h : size < 128 := h
      cases ctor <;> cases dtor <;>
        simp [writeLife, It.all, It.writeInitialise, It.writeDestroy, Init.impl, It.construct, It.destroy, h]
  | field b => cases b <;> rfl

/-- C75: a `ReadIterator` on which `Initialise` is called once and finds an implementation constructs and destroys it
exactly once. -/
theorem C75_read_life_partial (i : Init) (h : i.Small) (x : Impl) (hx : i.impl = some x) :
    readLife [i] = .ok [.construct x, .destroy x] := by
  cases i with
  | type c =>
    cases c with
    | none => simp [Init.impl] at hx
    | some c =>
      obtain ⟨id, size, ctor, dtor⟩ := c
      have h : size < 128 := h
      cases ctor <;> cases dtor <;>
        simp_all [readLife, It.all, It.readInitialise, It.readDestroy, Init.impl, It.construct, It.destroy]
  | field b =>
    cases b
    · simp [Init.impl] at hx
    · injection hx with hx
      subst hx
      rfl

/-- C75 is false of read iterators that are not used: whenever no implementation was found, or `Initialise` was never
called, destroying the iterator is undefined. -/
theorem C75_unused_reader_undefined_false (i : Init) (hx : i.impl = none) : readLife [i] = .ub ∧ readLife [] = .ub := by
  refine ⟨?_, rfl⟩
  cases i with
  | type c =>
    cases c with
    | none => rfl
    | some c =>
      obtain ⟨id, size, ctor, dtor⟩ := c
      cases ctor <;> cases dtor <;>
        simp_all [readLife, It.all, It.readInitialise, It.readDestroy, Init.impl, It.construct, It.destroy]
  | field b =>
    cases b
    · rfl
    · simp [Init.impl] at hx

/-- C75 is false of iterators used twice: the first implementation is never destroyed, and going from a container to a C
array is undefined, for reading as for writing. -/
theorem C75_second_use_false (c d : ImplClass) (hc : c.ctor = true ∧ c.dtor = true ∧ c.size < 128)
    (hd : d.ctor = true ∧ d.dtor = true ∧ d.size < 128) :
    writeLife [.type (some c), .type (some d)] = .ok [.construct (.user c), .construct (.user d), .destroy (.user d)] ∧
    readLife [.type (some c), .type (some d)] = .ok [.construct (.user c), .construct (.user d), .destroy (.user d)] ∧
    writeLife [.type (some c), .field true] = .ub ∧
    readLife [.type (some c), .field true] = .ub := by
  obtain ⟨c1, c2, c3⟩ := hc
  obtain ⟨d1, d2, d3⟩ := hd
  simp [writeLife, readLife, It.all, It.readInitialise, It.writeInitialise, It.readDestroy, It.writeDestroy, It.construct,
    It.destroy, c1, c2, c3, d1, d2, d3]

/-- C75: an implementation that just fits the 128 bytes kept for it fails an assertion. -/
theorem C75_full_size_refused (c : ImplClass) (hc : c.ctor = true ∧ c.dtor = true) (hs : c.size = 128) :
    writeLife [.type (some c)] = .trap ∧ readLife [.type (some c)] = .trap := by
  obtain ⟨c1, c2⟩ := hc
  simp [writeLife, readLife, It.all, It.readInitialise, It.writeInitialise, c1, c2, hs]

/-! ### Non-vacuity -/

/-- Three shorts at address 1000. -/
example : ∃ it, readInit (some (.field ⟨2, false, 3⟩)) 1000 = .ok it ∧ readAll it 3 = .ok [1000, 1002, 1004] ∧
    readAll it 4 = .trap := ⟨_, rfl, by decide, by decide⟩

/-- Two pointers to a class of 100 bytes. -/
example : ∃ it, writeInit (some (.field ⟨100, true, 2⟩)) 64 2 = .ok it ∧ addAll it [none, some 7] = .ok [64, 72] ∧
    addAll it [none, none, none] = .trap := ⟨_, rfl, by decide, by decide⟩

example : (Init.type (some ⟨7, 40, true, true⟩)).Small ∧
    (Init.type (some ⟨7, 40, true, true⟩)).impl = some (.user ⟨7, 40, true, true⟩) := ⟨by show 40 < 128; decide, rfl⟩

end Clr.Iter
