import Verif.Proofs.ScanUnitTotal
import Verif.Props.Scan
/-!
**C90**: what a whole translation unit leaves in the database (specification in `Verif/Props/ScanUnitSpec.lean`).
-/
namespace Clr.ScanUnit
open Clr.Scan (Attr Rec Kind Fine gather)
open Clr.ScanTypes

/-- **C90**: whatever the declarations of a translation unit, the database holds what is read off those that are reflected and no more.
The statement is partial in that a class that is left out may leave base classes behind (see `C90_left_over_false`), and that which declarations
are left out is given by a bound from either side (see `C90_order_false`; `C90_exact` for when the bounds meet). -/
theorem C90_scanned_partial {env : Env} (he : WellNamedEnv env) (fuel : Nat) (texts : List Bytes) (ds : Forest Item) (s : St)
    (hd : ∀ x ∈ ds.listing, Fine texts (info (x.2, true)) ∧ WellItem x.2) (h : walk env fuel (gather texts) ds {} = some s) :
    ∃ L, Scanned env fuel texts ds L s := by
  obtain ⟨L, e, w⟩ := walk_run env fuel texts ds {} s (fun x hx => (hd x hx).1) rfl h
  have hin : ∀ x ∈ L.listing, WellItem x.2.1 := by
    intro x hx
    refine (hd (x.1.map Prod.fst, x.2.1) ?_).2
    rw [← e, forest_listing_map]
    exact List.mem_map.2 ⟨x, hx, rfl⟩
  have inv := inv_runs he w.runs (fun x hx => by
    obtain ⟨y, hy, _, rfl⟩ := reached_mem.1 hx
    exact hin y hy) [] (inv_nil env)
  rw [List.nil_append] at inv
  have fine := listing_fine e fun x hx => (hd x hx).1
  have ha := (w.attrs {} rfl rfl).2
  exact ⟨L, {
    same := e
    can := fun x hx => labelled_can he fuel x.2 (hin x hx) (w.marks x hx)
    may := fun x hx => labelled_may he fuel x.2 (hin x hx) (w.marks x hx)
    blocks := inv.blocks
    namespaces := inv.namespaces
    templates := inv.templates
    classes := inv.classes
    sizes := inv.sizes
    bases := inv.bases
    onlyBases := fun r hr => by
      obtain ⟨x, hx, h | h⟩ := inv.onlyBases r hr
      · exact .inl ⟨x, hx, h⟩
      · exact .inr h
    instances := inv.instances
    used := inv.used
    arrays := fun x hx parent name t hh j hj hc => inv.arrays x hx _ ⟨parent, name, t, j, hh, hj, hc, rfl⟩
    noOthers := inv.noOthers
    attributes := fun x hx hr a hm hw => by
      obtain ⟨y, hy, hy', rfl⟩ := reached_mem.1 hx
      have := Scan.C49_recorded_partial texts L.decls fine _ _ (reached_declared hy hy') hy'.1 hr a hm hw
      rw [ha] at this
      exact this
    written := fun r hr => by
      rw [← ha] at hr
      obtain ⟨o, y, ⟨hy, _⟩, h1, h2⟩ := Scan.C49_only_written texts L.decls fine r hr
      obtain ⟨x, hx, _, rfl⟩ := (forest_inside L o y).1 hy
      exact ⟨x, hx, h1, h2⟩ }⟩

mutual
theorem tree_marks {g : Item → Bool} : ∀ t : Tree Marked, (∀ x ∈ t.listing, x.2.2 = g x.2.1) → (t.map Prod.fst).map (fun i => (i, g i)) = t
  | .node i kids, h => by
    rw [Tree.map, Tree.map, forest_marks kids fun x hx => h (i :: x.1, x.2) (List.mem_cons_of_mem _ (List.mem_map.2 ⟨x, hx, rfl⟩)),
      ← h ([], i) List.mem_cons_self]

theorem forest_marks {g : Item → Bool} : ∀ f : Forest Marked, (∀ x ∈ f.listing, x.2.2 = g x.2.1) →
    (f.map Prod.fst).map (fun i => (i, g i)) = f
  | .nil, _ => rfl
  | .cons t r, h => by
    rw [Forest.map, Forest.map, tree_marks t fun x hx => h x (List.mem_append_left _ hx),
      forest_marks r fun x hx => h x (List.mem_append_right _ hx)]
end

open Classical in
/-- **C90**: if of every declaration it can be told by itself whether it is supported, the declarations recorded are the supported ones. -/
theorem C90_exact {env : Env} (he : WellNamedEnv env) (fuel : Nat) (texts : List Bytes) (ds : Forest Item) (s : St)
    (hd : ∀ x ∈ ds.listing, Fine texts (info (x.2, true)) ∧ WellItem x.2) (hc : ∀ x ∈ ds.listing, MayBe env x.2 → CanBe env fuel x.2)
    (h : walk env fuel (gather texts) ds {} = some s) :
    Scanned env fuel texts ds (ds.map fun i => (i, decide (MayBe env i))) s := by
  obtain ⟨L, hL⟩ := C90_scanned_partial he fuel texts ds s hd h
  have : ds.map (fun i => (i, decide (MayBe env i))) = L := by
    rw [← hL.same]
    refine forest_marks L fun x hx => ?_
    by_cases hm : MayBe env x.2.1
    · rw [decide_eq_true hm]
      refine hL.can x hx (hc (x.1.map Prod.fst, x.2.1) ?_ hm)
      rw [← hL.same, forest_listing_map]
      exact List.mem_map.2 ⟨x, hx, rfl⟩
    · rw [decide_eq_false hm]
      exact Bool.eq_false_iff.2 fun e => hm (hL.may x hx e)
  rw [this]
  exact hL

/-- **C90**: the walk comes to an end, if the instances of templates are not nested without an end, and it can go deep enough. -/
theorem C90_ends {env : Env} (he : WellNamedEnv env) (rank : Nat → Nat) (hr : Ranked env rank) (fuel : Nat) (hf : ∀ id, rank id < fuel)
    (texts : List Bytes) (ds : Forest Item) (hd : ∀ x ∈ ds.listing, Fine texts (info (x.2, true)) ∧ WellItem x.2) :
    ∃ s, walk env fuel (gather texts) ds {} = some s :=
  walk_ends ds (fun x hx => ⟨fine_passes (hd x hx).1, own_ends he fuel (fun id db => parseInst_ends he rank hr fuel id (hf id) db) x.2
    (hd x hx).2⟩) {}

/-! ### Where the code does not do what one would expect -/

/-- `template <int> struct T`. -/
def valueEnv : Env := fun _ => { tname := b!"T", args := [.other] }

/-- `class D : A, T<3>`, with attributes that say that it is reflected. -/
def leftUnit : Forest Item :=
  .cons (.node { name := b!"D", what := .cls true true true false 0 [{ type := .record b!"struct " b!"A" }, { type := .inst 0 }] 8 } .nil) .nil

/-- **C90**, negation: of a class that is not recorded because one of its base classes is not supported, another base class is. -/
theorem C90_left_over_false : (walk valueEnv 1 (gather [b!"full-D"]) leftUnit {}).map (fun s => (s.data.classes, s.data.db.inherits)) =
    some ([], [(b!"D", b!"A")]) := by decide +kernel

/-- `T<int>` and, a specialisation of its own derived from `U<3>`, `T<const int>`. -/
def twoEnv : Env := fun id => match id with
  | 0 => { tname := b!"T", args := [.type (.builtin b!"int")] }
  | 1 => { tname := b!"T", args := [.type (.const (.builtin b!"int"))], bases := [{ type := .inst 2 }] }
  | _ => { tname := b!"U", args := [.other] }

def fieldA : Item := { name := b!"C::a", what := .field false b!"a" (.inst 0) 0 }
def fieldB : Item := { name := b!"C::b", what := .field false b!"b" (.inst 1) 8 }

/-- `class C` with the two fields in the order given. -/
def orderUnit (x y : Item) : Forest Item :=
  .cons (.node { name := b!"C", what := .cls true true true false 0 [] 16 } (.cons (.node x .nil) (.cons (.node y .nil) .nil))) .nil

/-- **C90**, negation: whether a field is recorded depends on the fields before it. -/
theorem C90_order_false :
    (walk twoEnv 3 (gather [b!"full-C"]) (orderUnit fieldA fieldB) {}).map (fun s => s.data.db.fields.map Field.name) = some [b!"a", b!"b"] ∧
    (walk twoEnv 3 (gather [b!"full-C"]) (orderUnit fieldB fieldA) {}).map (fun s => s.data.db.fields.map Field.name) = some [b!"a"] := by
  decide +kernel

/-! ### That the hypotheses can be met -/

def itemGet : Item where
  name := b!"ns::S::get"
  what := .method false (some (.pointer (.const (.record b!"struct " b!"ns::S")))) true (.builtin b!"void")
    [⟨[], .lref (.const (.record b!"struct " b!"ns::S"))⟩]

def itemX : Item where
  name := b!"ns::S::x"
  what := .field false b!"x" (.array 3 (.builtin b!"int")) 128
  attrs := [⟨b!"transient", .flag⟩]

/-- ```
namespace ns {
  struct S;
  template <class T> struct Vec;
  struct S : Vec<S*> { int x[3] /* attribute: transient */; struct { float y; }; void get(const S&) const; };
  enum class E { A, B };
  long f();
}
namespace other { struct X { }; }
``` -/
def sampleUnit : Forest Item :=
  .cons (.node { name := b!"ns", what := .namespace }
    (.cons (.node { name := b!"ns::S", what := .cls false false true false 0 [] 0 } .nil)
    (.cons (.node { name := b!"ns::Vec", what := .template 1 false } .nil)
    (.cons (.node { name := b!"ns::S", what := .cls false true true false 0 [{ type := .spec 0 }] 32 }
      (.cons (.node itemX .nil)
      (.cons (.node { name := b!"ns::S::(anonymous)", what := .cls false true false true 0 [] 4 }
        (.cons (.node { name := b!"ns::S::y", what := .field false b!"y" (.builtin b!"float") 224 } .nil) .nil))
      (.cons (.node itemGet .nil) .nil))))
    (.cons (.node { name := b!"ns::E", what := .enum ⟨true, true⟩ [{ name := b!"A", value := 0 }, { name := b!"B", value := 1 }] } .nil)
    (.cons (.node { name := b!"ns::f", what := .function true (.builtin b!"long") [] } .nil) .nil))))))
  (.cons (.node { name := b!"other", what := .namespace }
    (.cons (.node { name := b!"other::X", what := .cls false true true false 0 [] 1 } .nil) .nil)) .nil)

theorem plain_of {n : Bytes} (h1 : ∀ p ∈ patterns, FileUtils.find n p 0 = none) (h2 : n.getLast? ≠ some 32) : Plain n := by
  constructor
  · intro p hp i ho
    exact FileUtils.find_none _ _ _ (Nat.zero_le _) (h1 p hp) i ho
  · intro a ha
    exact h2 (by rw [ha]; simp)

/-- The hypotheses on the declarations of `C90_scanned_partial`, `C90_exact` and `C90_ends`. -/
theorem sampleUnit_well : ∀ x ∈ sampleUnit.listing, Fine [b!"full-ns"] (info (x.2, true)) ∧ WellItem x.2 := by
  have fine : ∀ x ∈ sampleUnit.listing, Fine [b!"full-ns"] (info (x.2, true)) := by
    unfold Fine Scan.NoClash
    decide +kernel
  have pint : Plain b!"int" := plain_of (by decide +kernel) (by decide +kernel)
  have pfloat : Plain b!"float" := plain_of (by decide +kernel) (by decide +kernel)
  have pvoid : Plain b!"void" := plain_of (by decide +kernel) (by decide +kernel)
  have plong : Plain b!"long" := plain_of (by decide +kernel) (by decide +kernel)
  intro x hx
  refine ⟨fine x hx, ?_⟩
  simp only [sampleUnit, Forest.listing, Tree.listing, List.map_cons, List.map_nil, List.append_nil, List.cons_append,
    List.nil_append, List.mem_cons, List.not_mem_nil, or_false] at hx
  rcases hx with rfl | rfl | rfl | rfl | rfl | rfl | rfl | rfl | rfl | rfl | rfl | rfl
  · trivial
  · intro b hb; cases hb
  · trivial
  · intro b hb
    obtain rfl := List.mem_singleton.1 hb
    exact ⟨trivial, false, .spec 0, .self trivial, .spec⟩
  · exact ⟨by decide, pint⟩
  · intro b hb; cases hb
  · exact pfloat
  · refine ⟨fun t ht => ?_, pvoid, fun p hp => ?_⟩
    · obtain rfl := Option.some.inj ht
      exact ⟨by decide, by decide⟩
    · obtain rfl := List.mem_singleton.1 hp
      exact ⟨by decide, by decide⟩
  · trivial
  · exact ⟨plong, fun p hp => by cases hp⟩
  · trivial
  · intro b hb; cases hb

/-- The other hypothesis of `C90_exact`: everything in it can be recorded. -/
theorem sampleUnit_can : ∀ x ∈ sampleUnit.listing, CanBe sampleEnv 3 x.2 := by
  intro x hx
  have builtin : ∀ n, Supported sampleEnv 3 (.builtin n) := fun n => .inl ⟨.value, false, .builtin n, .value (.self trivial), trivial⟩
  simp only [sampleUnit, Forest.listing, Tree.listing, List.map_cons, List.map_nil, List.append_nil, List.cons_append,
    List.nil_append, List.mem_cons, List.not_mem_nil, or_false] at hx
  rcases hx with rfl | rfl | rfl | rfl | rfl | rfl | rfl | rfl | rfl | rfl | rfl | rfl
  · trivial
  · rfl
  · exact (by decide : 1 ≤ 4)
  · refine ⟨rfl, fun b hb => ?_⟩
    obtain rfl := List.mem_singleton.1 hb
    refine ⟨rfl, false, .spec 0, .self trivial, by decide, ?_, ?_⟩
    · intro a ha
      have : a = .type (.pointer (.const (.alias (.record b!"struct " b!"ns::S")))) := by simpa [sampleEnv] using ha
      subst this
      exact ⟨_, .pointer, true, .record b!"struct " b!"ns::S", rfl, .pointer (.self trivial) (.const (.alias (.self trivial))), by simp, trivial⟩
    · intro b hb
      have : b = { type := .alias (.spec 1) } := by simpa [sampleEnv] using hb
      subst this
      refine ⟨rfl, false, .spec 1, .alias (.self trivial), by decide, ?_, ?_⟩
      · intro a ha
        have : a = .type (.builtin b!"unsigned int") := by simpa [sampleEnv] using ha
        subst this
        exact ⟨_, .value, false, _, rfl, .value (.self trivial), by simp, trivial⟩
      · intro b hb
        have : b ∈ ([] : List Base) := hb
        cases this
  · exact ⟨rfl, .inr ⟨3, _, .value, false, _, rfl, by decide, by decide, .value (.self trivial), trivial⟩⟩
  · exact ⟨rfl, fun b hb => by cases hb⟩
  · exact ⟨rfl, builtin _⟩
  · refine ⟨rfl, rfl, fun t ht => ?_, builtin _, fun p hp => ?_⟩
    · obtain rfl := Option.some.inj ht
      exact .inl ⟨.pointer, true, _, .pointer (.self trivial) (.const (.self trivial)), trivial⟩
    · obtain rfl := List.mem_singleton.1 hp
      exact .inl ⟨.reference, true, _, .reference (.self trivial) (.const (.self trivial)), trivial⟩
  · trivial
  · exact ⟨rfl, builtin _, fun p hp => by cases hp⟩
  · trivial
  · exact ⟨rfl, fun b hb => by cases hb⟩

/-- The hypothesis of `C90_ends` on the instances of templates. -/
theorem sampleEnv_ranked : Ranked sampleEnv (fun id => if id = 0 then 1 else 0) := by
  intro id' k h
  cases h with
  | @arg t b op c ha hp hb =>
    match k, ha with
    | 0, ha =>
      have : t = .pointer (.const (.alias (.record b!"struct " b!"ns::S"))) := by simpa [sampleEnv] using ha
      subst this
      cases hp with
      | value hm => cases ((means_iff _ _ _).mp hm).2; cases hb
      | pointer hm hu =>
        cases ((means_iff _ _ _).mp hm).2
        cases ((means_iff _ _ _).mp hu).2
        cases hb
      | reference hm _ => cases ((means_iff _ _ _).mp hm).2
    | k + 1, ha =>
      have : t = .builtin b!"unsigned int" := by simpa [sampleEnv] using ha
      subst this
      cases hp with
      | value hm => cases ((means_iff _ _ _).mp hm).2; cases hb
      | pointer hm _ => cases ((means_iff _ _ _).mp hm).2
      | reference hm _ => cases ((means_iff _ _ _).mp hm).2
  | arrayArg ha _ _ =>
    match k, ha with
    | 0, ha => simp [sampleEnv] at ha
    | k + 1, ha => simp [sampleEnv] at ha
  | @base b _ _ hb hm hi =>
    match k, hb with
    | 0, hb =>
      have : b = { type := .alias (.spec 1) } := by simpa [sampleEnv] using hb
      subst this
      cases ((means_iff _ _ _).mp hm).2
      cases hi
      decide
    | k + 1, hb => simp [sampleEnv] at hb

/-- All hypotheses together. -/
example : ∃ s L, walk sampleEnv 3 (gather [b!"full-ns"]) sampleUnit {} = some s ∧ Scanned sampleEnv 3 [b!"full-ns"] sampleUnit L s := by
  obtain ⟨s, hs⟩ := C90_ends sampleEnv_wellNamed _ sampleEnv_ranked 3 (fun id => by split <;> decide) [b!"full-ns"] sampleUnit sampleUnit_well
  exact ⟨s, _, hs, C90_exact sampleEnv_wellNamed 3 _ _ s sampleUnit_well (fun x hx _ => sampleUnit_can x hx) hs⟩

/-- What is in the database. -/
example : (walk sampleEnv 3 (gather [b!"full-ns"]) sampleUnit {}).map (fun s => (s.data.namespaces, s.data.templates, s.data.classes)) =
    some ([(b!"ns", [])], [(b!"ns::Vec", b!"ns")], [⟨b!"ns::S", b!"ns", false, 32⟩]) := by decide +kernel

example : (walk sampleEnv 3 (gather [b!"full-ns"]) sampleUnit {}).map (fun s => s.data.db.inherits) =
    some [(b!"ns::Vec<ns::S*>", b!"Base<unsigned int>"), (b!"ns::S", b!"ns::Vec<ns::S*>")] := by decide +kernel

example : (walk sampleEnv 3 (gather [b!"full-ns"]) sampleUnit {}).map (fun s =>
      (s.data.db.functions.map Function.name, s.data.db.fields.map fun f => (f.name, f.parent, f.offset))) =
    some ([b!"ns::S::get", b!"ns::f"], [(b!"x", b!"ns::S", 16), (b!"y", b!"ns::S", 28), (b!"this", b!"ns::S::get", 0),
      (b!"unnamed1", b!"ns::S::get", 1), (b!"return", b!"ns::f", -1)]) := by decide +kernel

example : (walk sampleEnv 3 (gather [b!"full-ns"]) sampleUnit {}).map (fun s => (s.data.db.containers, s.data.db.enums, s.attrs)) =
    some ([⟨b!"ns::S::x", 3⟩], [⟨b!"ns::E", b!"ns", .cls⟩], [⟨b!"ns::S::x", ⟨b!"transient", .flag⟩⟩]) := by decide +kernel

end Clr.ScanUnit
