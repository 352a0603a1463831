import Verif.Proofs.ScanWalk

/-!
C48, C49: what is reflected.  Model: `Verif/Model/Scan.lean`; specification: `Verif/Model/ScanSpec.lean`.
-/
namespace Clr.Scan

/-- **C48** (partial): for every translation unit, what is in the database afterwards is there for a declaration that is reflected:
that is marked (or is in a scope that is marked) reflect, or is itself marked reflect_part, all scopes around it being visible in the
same sense and none of them marked noreflect.  And everything there is to know of such declarations is in the database.
(Missing: forward declarations that are marked noreflect, see below, and attributes whose hash is by chance that of one of
the three words.) -/
theorem C48_reflected_partial (texts : List Bytes) (ds : Decls) (h : ∀ outer x, Inside ds outer x → Fine texts x) :
    (∀ e ∈ (walk (gather texts) ds {}).prims, ∃ outer x, Declared ds outer x ∧ Reflected texts outer x ∧ e ∈ entries outer x) ∧
    (∀ outer x, Declared ds outer x → Reflected texts outer x → ∀ e ∈ entries outer x,
      ∃ e' ∈ (walk (gather texts) ds {}).prims, e'.kind = e.kind ∧ e'.name = e.name) := by
  have g := grow_walk texts ds {} h rfl
  refine ⟨fun e he => ?_, fun outer x hd hr e he => g.complete e ⟨outer, x, hd, hr, he⟩⟩
  rcases g.sound e he with h | h
  · cases h
  · exact h

/-- **C48**: whatever a declaration is marked, and whatever is in it, what is reflected of the declarations after it does not change:
the state the walk goes on with is the state it came with. -/
theorem C48_siblings (specs : Specs) (d : Decl) (parent : Bytes) (s : St) : (addDecl specs d parent s).allow = s.allow :=
  addDecl_allow specs d parent s

/-- **C48**, negation: a forward declaration marked noreflect is reflected. -/
theorem C48_forward_negation : ∃ ds : Decls,
    (∀ outer x, Inside ds outer x → ⟨b!"noreflect", .flag⟩ ∈ x.attrs ∧ ¬ Reflected [] outer x) ∧
    (walk (gather []) ds {}).prims = [⟨.cls, b!"C", []⟩] := by
  refine ⟨.cons (.mk { name := b!"C", kind := .cls, attrs := [⟨b!"noreflect", .flag⟩], forward := true } .nil) .nil, ?_, by decide +kernel⟩
  intro outer x h
  rcases inside_cons.1 h with ⟨rfl, rfl⟩ | ⟨o, _, h⟩ | h
  · refine ⟨by simp, fun hr => ?_⟩
    exact (hr [] _ [] rfl).1.2.1 (by decide +kernel)
  · exact absurd h inside_nil
  · exact absurd h inside_nil

/-- **C49** (partial): the attributes of a declaration that is reflected are recorded, other than the words that say
whether it is reflected.  (Missing: declarations named by a reflection spec that do not say themselves whether they are reflected; see below.) -/
theorem C49_recorded_partial (texts : List Bytes) (ds : Decls) (h : ∀ outer x, Inside ds outer x → Fine texts x) (outer : List Info) (x : Info)
    (hd : Declared ds outer x) (hr : Reflected texts outer x) (hx : Recorded texts x) (a : Attr) (ha : a ∈ x.attrs) (hw : word a.name = none) :
    (⟨x.name, a⟩ : Rec) ∈ (walk (gather texts) ds {}).attrs :=
  (grow_walk texts ds {} h rfl).attrsComplete _ ⟨outer, x, hd, hr, hx, rfl, ha, hw⟩

/-- **C49**: nothing is recorded that is not written on the declaration it is recorded for. -/
theorem C49_only_written (texts : List Bytes) (ds : Decls) (h : ∀ outer x, Inside ds outer x → Fine texts x) :
    ∀ r ∈ (walk (gather texts) ds {}).attrs, ∃ outer x, Declared ds outer x ∧ r.parent = x.name ∧ r.attr ∈ x.attrs := by
  intro r hr
  rcases (grow_walk texts ds {} h rfl).attrsSound r hr with h | h
  · cases h
  · exact h

/-- **C49**, negation: of a class that is reflected because of a spec, the first attribute is not recorded, although it does
not say anything about reflection. -/
theorem C49_spec_negation : ∃ (texts : List Bytes) (ds : Decls) (x : Info) (a : Attr),
    Declared ds [] x ∧ Reflected texts [] x ∧ a ∈ x.attrs ∧ word a.name = none ∧
    (walk (gather texts) ds {}).prims = [⟨.cls, b!"C", []⟩] ∧ (⟨x.name, a⟩ : Rec) ∉ (walk (gather texts) ds {}).attrs := by
  refine ⟨[b!"full-C"], .cons (.mk { name := b!"C", kind := .cls, attrs := [⟨b!"transient", .flag⟩] } .nil) .nil,
    { name := b!"C", kind := .cls, attrs := [⟨b!"transient", .flag⟩] }, ⟨b!"transient", .flag⟩, ?_, ?_, by simp, by decide +kernel,
    by decide +kernel, by decide +kernel⟩
  · refine ⟨.here, fun t e => ?_⟩
    obtain rfl := Option.some.inj (show some _ = some t from e)
    exact .inr (.inl rfl)
  · refine reflected_nil.2 ⟨rfl, by decide +kernel, .inr ⟨_, List.mem_singleton.2 rfl, by decide +kernel⟩⟩

/-- **C49**: the attributes of declarations that are not reflected are recorded too. -/
theorem C49_unreflected_recorded : ∃ (ds : Decls) (x : Info) (a : Attr), Declared ds [] x ∧ ¬ Reflected [] [] x ∧
    (walk (gather []) ds {}).prims = [] ∧ (walk (gather []) ds {}).attrs = [⟨x.name, a⟩] := by
  refine ⟨.cons (.mk { name := b!"C", kind := .cls, attrs := [⟨b!"transient", .flag⟩] } .nil) .nil,
    { name := b!"C", kind := .cls, attrs := [⟨b!"transient", .flag⟩] }, ⟨b!"transient", .flag⟩, ?_, ?_, by decide +kernel, by decide +kernel⟩
  · refine ⟨.here, fun t e => ?_⟩
    obtain rfl := Option.some.inj (show some _ = some t from e)
    exact .inr (.inl rfl)
  · intro h
    obtain ⟨_, _, h | ⟨s, hs, h⟩⟩ := reflected_nil.1 h
    · exact absurd h (by decide +kernel)
    · rw [List.nil_append, List.mem_singleton] at hs
      subst hs
      exact absurd h (by decide +kernel)

/-! ### A translation unit -/

/-- `namespace N { struct A { int x; clcpp_attr(noreflect) int y; }; struct B { clcpp_attr(reflect) int z; }; }`, with `N` marked
reflect_part, `A` named by a spec and `B` not marked, and an enum after it that is marked reflect. -/
def unitA : Decls :=
  .cons (.mk { name := b!"N", kind := .namespace, attrs := [⟨b!"reflect_part", .flag⟩] }
    (.cons (.mk { name := b!"N::A", kind := .cls }
      (.cons (.mk { name := b!"N::A::x", unqualified := b!"x", kind := .field, attrs := [⟨b!"group", .text b!"g"⟩] } .nil)
      (.cons (.mk { name := b!"N::A::y", unqualified := b!"y", kind := .field, attrs := [⟨b!"noreflect", .flag⟩] } .nil) .nil)))
    (.cons (.mk { name := b!"N::B", kind := .cls }
      (.cons (.mk { name := b!"N::B::z", unqualified := b!"z", kind := .field, attrs := [⟨b!"reflect", .flag⟩] } .nil) .nil)) .nil)))
  (.cons (.mk { name := b!"E", kind := .enum, attrs := [⟨b!"reflect", .flag⟩, ⟨b!"flags", .flag⟩], constants := [b!"P", b!"Q"] } .nil) .nil)

/-- The spec: `clcpp_reflect(N::A)`. -/
def textsA : List Bytes := [b!"full-N::A"]

/-- Everything is as it should be. -/
theorem unitA_fine : ∀ outer x, Inside unitA outer x → Fine textsA x := by
  have all : ∀ x, x ∈ [({ name := b!"N", kind := .namespace, attrs := [⟨b!"reflect_part", .flag⟩] } : Info),
      { name := b!"N::A", kind := .cls },
      { name := b!"N::A::x", unqualified := b!"x", kind := .field, attrs := [⟨b!"group", .text b!"g"⟩] },
      { name := b!"N::A::y", unqualified := b!"y", kind := .field, attrs := [⟨b!"noreflect", .flag⟩] },
      { name := b!"N::B", kind := .cls },
      { name := b!"N::B::z", unqualified := b!"z", kind := .field, attrs := [⟨b!"reflect", .flag⟩] },
      { name := b!"E", kind := .enum, attrs := [⟨b!"reflect", .flag⟩, ⟨b!"flags", .flag⟩], constants := [b!"P", b!"Q"] }] →
      NoClash x ∧ x.forward = false := by
    unfold NoClash
    decide +kernel
  intro outer x h
  have hx := all x (by
    simp only [unitA, inside_cons] at h
    simp only [List.mem_cons]
    rcases h with ⟨_, rfl⟩ | ⟨o, _, h⟩ | ⟨_, rfl⟩ | ⟨o, _, h⟩ | h
    · simp
    · rcases h with ⟨_, rfl⟩ | ⟨o, _, h⟩ | ⟨_, rfl⟩ | ⟨o, _, h⟩ | h
      · simp
      · rcases h with ⟨_, rfl⟩ | ⟨o, _, h⟩ | ⟨_, rfl⟩ | ⟨o, _, h⟩ | h
        · simp
        · exact absurd h inside_nil
        · simp
        · exact absurd h inside_nil
        · exact absurd h inside_nil
      · simp
      · rcases h with ⟨_, rfl⟩ | ⟨o, _, h⟩ | h
        · simp
        · exact absurd h inside_nil
        · exact absurd h inside_nil
      · exact absurd h inside_nil
    · simp
    · exact absurd h inside_nil
    · exact absurd h inside_nil)
  exact ⟨hx.1, fun h => absurd h (by rw [hx.2]; decide), fun h => absurd h (by rw [hx.2]; decide)⟩

/-- What is reflected of it. -/
example : (walk (gather textsA) unitA {}).prims =
    [⟨.namespace, b!"N", []⟩, ⟨.cls, b!"N::A", b!"N"⟩, ⟨.field, b!"x", b!"N::A"⟩, ⟨.enum, b!"E", []⟩,
      ⟨.constant, b!"P", b!"E"⟩, ⟨.constant, b!"Q", b!"E"⟩] := by decide +kernel

example : (walk (gather textsA) unitA {}).attrs = [⟨b!"N::A::x", ⟨b!"group", .text b!"g"⟩⟩, ⟨b!"E", ⟨b!"flags", .flag⟩⟩] := by decide +kernel

example : ∀ e ∈ (walk (gather textsA) unitA {}).prims, ∃ outer x, Declared unitA outer x ∧ Reflected textsA outer x ∧ e ∈ entries outer x :=
  (C48_reflected_partial textsA unitA unitA_fine).1

end Clr.Scan
