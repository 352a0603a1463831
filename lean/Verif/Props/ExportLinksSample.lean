import Verif.Props.ExportLinks
import Verif.Props.ExportSample
/-
C88: a database that meets the conditions of the theorems.
-/
namespace Clr.Export
open Clr.DB (hashOf)
set_option maxRecDepth 100000

/-- A class with constructor and destructor, a template type with a constructor recorded outside of it, a type that is a
container twice, a template that is a container, a field that is a container, and iterators. -/
def makerDb : DB.Database :=
  { names := [nm b!"A", nm b!"T", nm b!"T<A>", nm b!"V", nm b!"It", nm b!"f", nm b!"A::f", nm b!"A::ConstructObject", nm b!"A::DestructObject",
      nm b!"T<A>::ConstructObject", nm b!"none", nm b!"g"]
    types := [{ name := nm b!"It", size := 8 }]
    classes := [{ name := nm b!"A" }, { name := nm b!"V" }]
    templates := [{ name := nm b!"T" }]
    templateTypes := [{ name := nm b!"T<A>", parent := nm b!"T", a0 := { type := nm b!"A", ptr := false } }]
    functions := [{ name := nm b!"A::DestructObject", parent := nm b!"A", uniqueId := 1 },
      { name := nm b!"T<A>::ConstructObject", uniqueId := 2 },
      { name := nm b!"A::ConstructObject", parent := nm b!"A", uniqueId := 3 },
      { name := nm b!"T<A>::ConstructObject", uniqueId := 4 }]
    fields := [{ name := nm b!"f", parent := nm b!"A", type := nm b!"V" }, { name := nm b!"g", parent := nm b!"A", type := nm b!"V" }]
    containerInfos := [{ name := nm b!"V", readIterator := nm b!"It", writeIterator := nm b!"none" },
      { name := nm b!"T", readIterator := nm b!"It", writeIterator := nm b!"It" },
      { name := nm b!"A::f", readIterator := nm b!"It", writeIterator := nm b!"It" },
      { name := nm b!"V", readIterator := nm b!"It", writeIterator := nm b!"It" }] }

theorem maker_ready : Ready sampleEnv 1 makerDb where
  wellFormed := wellFormed_of (by decide +kernel) ⟨fun _ => 0, fun _ => Nat.zero_lt_one, by decide +kernel⟩
  unambiguous := unambiguous_of (by decide +kernel)
  laidOut := laidOut_of (by decide +kernel)

theorem maker_types : UniqueTypes makerDb := by
  have h : ∀ t ∈ refs makerDb, ∀ t' ∈ refs makerDb, t.1 ∈ typeKinds → t'.1 ∈ typeKinds →
      (entry makerDb t).map (·.name.hash) = (entry makerDb t').map (·.name.hash) → t = t' := by
    unfold typeKinds; decide +kernel
  intro t t' p p' h1 h2 e1 e2 e3
  exact h t (entry_refs e1) t' (entry_refs e2) h1 h2 (by rw [e1, e2]; simp [e3])

/-- What the exporter makes of it. -/
example : onOk (exportDB sampleEnv 1 makerDb) (fun F =>
    ((F.get (.cls, 0)).ctor == some (.function, 2)) && ((F.get (.cls, 0)).dtor == some (.function, 0)) &&
    ((F.get (.cls, 1)).ctor == none) &&
    ((F.get (.instance, 0)).ctor == some (.function, 1)) && ((F.get (.instance, 0)).dtor == none) &&
    ((F.get (.function, 1)).parent == .obj (.instance, 0)) && ((F.get (.function, 3)).parent == .raw 0) &&
    ((F.get (.function, 2)).parent == .obj (.cls, 0)) &&
    ((F.get (.cls, 1)).ci == some (.container, 3)) && ((F.get (.cls, 0)).ci == none) &&
    ((F.get (.instance, 0)).ci == some (.container, 1)) && ((F.get (.field, 0)).ci == some (.container, 2)) &&
    ((F.get (.field, 1)).ci == none) &&
    ((F.get (.container, 0)).readIt == .obj (.type, 0)) && ((F.get (.container, 0)).writeIt == .raw 0)) = true := by
  decide +kernel

/-- The theorems apply to it. -/
example : ∃ F, exportDB sampleEnv 1 makerDb = some (.ok F) ∧
    ((F.get (.instance, 0)).ctor = some (.function, 1) → FirstFunctionNamed makerDb (.function, 1) b!"T<A>::ConstructObject") := by
  obtain ⟨F, hF⟩ := C17_export_succeeds sampleEnv 1 makerDb maker_ready
  refine ⟨F, hF, fun e => ?_⟩
  have := ((C88_template_type_constructors sampleEnv 1 makerDb maker_ready F hF (.instance, 0) rfl _ rfl (.function, 1)).1.mp e)
  have hn : nameText makerDb (.instance, 0) = b!"T<A>" := by decide +kernel
  rw [hn] at this
  exact this

/-- A method of class `B` that has the name of the constructor of a template type. -/
def claimedDb : DB.Database :=
  { names := [nm b!"T", nm b!"T<A>", nm b!"T<A>::ConstructObject", nm b!"B"]
    classes := [{ name := nm b!"B" }]
    templates := [{ name := nm b!"T" }]
    templateTypes := [{ name := nm b!"T<A>", parent := nm b!"T" }]
    functions := [{ name := nm b!"T<A>::ConstructObject", parent := nm b!"B", uniqueId := 2 }] }

/-- C17: the parent of such a function is not the class that has it among its methods. -/
theorem C88_claimed_function : Records claimedDb (.function, 0) (.cls, 0) ∧
    ∃ F, exportDB sampleEnv 1 claimedDb = some (.ok F) ∧ (F.get (.cls, 0)).kids .methods = [(.function, 0)] ∧
      (F.get (.function, 0)).parent = .obj (.instance, 0) := by
  refine ⟨recB_records (by decide +kernel), ?_⟩
  obtain ⟨F, h1, h2⟩ := onOk_spec (o := exportDB sampleEnv 1 claimedDb)
    (f := fun F => ((F.get (.cls, 0)).kids .methods == [(.function, 0)]) && (F.get (.function, 0)).parent == .obj (.instance, 0)) (by decide +kernel)
  simp only [Bool.and_eq_true, beq_iff_eq] at h2
  exact ⟨F, h1, h2.1, h2.2⟩

end Clr.Export
