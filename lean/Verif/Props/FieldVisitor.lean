import Verif.Proofs.FieldVisitor

/-!
C45: the field visitor.  Model: `Verif/Model/FieldVisitor.lean`; what the places of an object are:
`Verif/Model/FieldVisitorSpec.lean`.
-/
namespace Clr.Visit

/-- **C45** (partial): the visitor is called once for every path into the object that leads to a selected leaf, on the place it
leads to, and on nothing else.  (Missing: reference fields and bases that are not at the start of the object, for which it
does not hold, see below.) -/
theorem C45_each_leaf_once_partial (w : World) (all : Bool) (stop : BitVec 32) (object : Nat) (type : Ty) (h : type.Plain w) :
    ∃ calls : List (List Step × Place), visitFields w.elems all stop object type = .ok (calls.map Prod.snd) ∧
      (calls.map Prod.fst).Nodup ∧
      ∀ path place, (path, place) ∈ calls ↔
        At w stop ⟨object, none, type, .value⟩ path place ∧ Selected all stop place := by
  obtain ⟨vs, hv, walk, h1, h2, h3⟩ := visitField_walk w all stop type object none .value h (by decide)
  exact ⟨walk, by rw [visitFields, hv, h1], h2, h3⟩

/-- **C45** (partial): in particular no call is for a field with a stop flag. -/
theorem C45_stop_partial (w : World) (all : Bool) (stop : BitVec 32) (object : Nat) (type : Ty) (h : type.Plain w) {vs : List Place}
    (hv : visitFields w.elems all stop object type = .ok vs) :
    ∀ v ∈ vs, ∀ f, v.field = some f → f.flags &&& stop = 0 := by
  obtain ⟨calls, h1, _, h3⟩ := C45_each_leaf_once_partial w all stop object type h
  rw [hv] at h1
  have := Res.ok.inj h1
  subst this
  intro v hv f hf
  obtain ⟨⟨q, v'⟩, hm, rfl⟩ := List.mem_map.1 hv
  have := ((h3 _ _).1 hm).2.1
  refine Classical.byContradiction fun hne => this ⟨f, hf, hne⟩

/-- **C45** (partial): if only pointers are asked for, all calls are for pointers. -/
theorem C45_pointers_partial (w : World) (stop : BitVec 32) (object : Nat) (type : Ty) (h : type.Plain w) {vs : List Place}
    (hv : visitFields w.elems false stop object type = .ok vs) : ∀ v ∈ vs, v.op = .pointer := by
  obtain ⟨calls, h1, _, h3⟩ := C45_each_leaf_once_partial w false stop object type h
  rw [hv] at h1
  have := Res.ok.inj h1
  subst this
  intro v hv
  obtain ⟨⟨q, v'⟩, hm, rfl⟩ := List.mem_map.1 hv
  rcases ((h3 _ _).1 hm).2.2 with h | ⟨h, _⟩
  · exact h
  · cases h

/-- `int`. -/
def int : Ty := .leaf b!"int" 4

/-- `struct Base { int id; };` -/
def base : Ty := .cls b!"Base" 4 (.cons ⟨b!"id", 0, 0, .value, none⟩ int .nil) .nil

/-- `struct Sample : Base { int a[2]; std::vector<Base> v; Base* p; [transient] Base t; };`, with the flag 1 for `transient`. -/
def sample : Ty :=
  .cls b!"Sample" 56 (.cons ⟨b!"a", 4, 0, .value, some 2⟩ int (.cons ⟨b!"v", 16, 0, .value, none⟩ (.cont b!"std::vector<Base>" 24 base false)
    (.cons ⟨b!"p", 40, 0, .pointer, none⟩ (.leaf b!"Base" 4) (.cons ⟨b!"t", 48, 1, .value, none⟩ base .nil)))) (.cons base .nil)

/-- Memory in which the vector of the object at 1000 has two elements, and bases are at the start. -/
def world : World := ⟨fun a => if a = 1016 then [2000, 2004] else [], fun _ _ => 0⟩

/-- The hypothesis is met, and the calls are the expected ones. -/
example : sample.Plain world ∧
    (match visitFields world.elems true 1 1000 sample with
      | .ok vs => vs.map fun p => (p.addr, p.field.map Fld.name, p.type.name, p.op)
      | _ => []) =
      [(1004, some b!"a", b!"int", .value), (1008, some b!"a", b!"int", .value), (2000, some b!"id", b!"int", .value),
       (2004, some b!"id", b!"int", .value), (1040, some b!"p", b!"Base", .pointer), (1000, some b!"id", b!"int", .value)] ∧
    (match visitFields world.elems false 1 1000 sample with
      | .ok vs => vs.map fun p => (p.addr, p.op)
      | _ => []) = [(1040, .pointer)] := by
  refine ⟨?_, by decide +kernel, by decide +kernel⟩
  simp [sample, base, int, world, Ty.Plain, Flds.Plain, Tys.Plain, spacing, Ty.size]

/-- `struct Two : Base, Other {};` -/
def two : Ty := .cls b!"Two" 8 .nil (.cons base (.cons (.cls b!"Other" 4 (.cons ⟨b!"y", 0, 0, .value, none⟩ int .nil) .nil) .nil))

theorem get?_one {f f' : Fld} {t t' : Ty} {i : Nat} (h : (Flds.cons f t .nil).get? i = some (f', t')) : f = f' ∧ t = t' := by
  cases i with
  | zero => cases h; exact ⟨rfl, rfl⟩
  | succ i => cases h

/-- C45 is false of a second base, which is behind the first: its field is visited at the start of the object, where it is not
(FieldVisitor.cpp:110-112). -/
theorem C45_second_base_negation :
    let w : World := ⟨fun _ => [], fun n i => if n = b!"Two" ∧ i = 1 then 4 else 0⟩
    ∃ vs v, visitFields w.elems true 0 1000 two = .ok vs ∧ v ∈ vs ∧ v.field.map Fld.name = some b!"y" ∧
      ∀ path place, At w 0 ⟨1000, none, two, .value⟩ path place → place.field.map Fld.name = some b!"y" →
        place.addr ≠ v.addr := by
  refine ⟨_, ⟨1000, some ⟨b!"y", 0, 0, .value, none⟩, int, .value⟩, rfl, ?_, rfl, ?_⟩
  · simp [int]
  · intro path place hat hn
    cases hat with
    | here => cases hn
    | into _ hp hat =>
      cases hp with
      | field h _ => cases h
      | item h _ _ => cases h
      | base h =>
        rename_i i t
        match i, h with
        | 0, h =>
          cases h
          cases hat with
          | here => cases hn
          | into _ hp hat =>
            cases hp with
            | field h _ =>
              obtain ⟨rfl, rfl⟩ := get?_one h
              cases hat with
              | here => exact absurd hn (by decide)
              | into _ hp _ => cases hp
            | item h hc _ =>
              obtain ⟨rfl, rfl⟩ := get?_one h
              cases hc
            | base h => cases h
        | 1, h =>
          cases h
          cases hat with
          | here => cases hn
          | into _ hp hat =>
            cases hp with
            | field h _ =>
              obtain ⟨rfl, rfl⟩ := get?_one h
              cases hat with
              | here => decide
              | into _ hp _ => cases hp
            | item h hc _ =>
              obtain ⟨rfl, rfl⟩ := get?_one h
              cases hc
            | base h => cases h

/-- `struct Ref { Base& r; };` -/
def ref : Ty := .cls b!"Ref" 8 (.cons ⟨b!"r", 0, 0, .reference, none⟩ base .nil) .nil

/-- C45 is false of references: the bytes of the reference are visited as if they were the object it refers to. -/
theorem C45_reference_negation :
    let w : World := ⟨fun _ => [], fun _ _ => 0⟩
    ∃ vs v, visitFields w.elems true 0 1000 ref = .ok vs ∧ v ∈ vs ∧ v.addr = 1000 ∧ v.field.map Fld.name = some b!"id" ∧
      ∀ path, ¬ At w 0 ⟨1000, none, ref, .value⟩ path v := by
  refine ⟨_, ⟨1000, some ⟨b!"id", 0, 0, .value, none⟩, int, .value⟩, rfl, ?_, rfl, rfl, ?_⟩
  · simp [int]
  · intro path hat
    cases hat with
    | into _ hp hat =>
      cases hp with
      | field h _ =>
        obtain ⟨rfl, rfl⟩ := get?_one h
        cases hat
      | item h hc _ =>
        obtain ⟨rfl, rfl⟩ := get?_one h
        cases hc
      | base h => cases h

end Clr.Visit
