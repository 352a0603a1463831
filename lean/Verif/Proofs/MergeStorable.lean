import Verif.Props.TextDB
import Verif.Props.Merge
/-!
The merge of storable databases is storable.
-/
namespace Clr.TextDB
open Clr.DB Clr.FileUtils Clr.Merge

attribute [local irreducible] hashOf

theorem known_mono {a b : List Name} (h : ∀ n ∈ a, n ∈ b) {n : Name} (hk : Known a n) : Known b n := by
  rcases hk with hk | hk
  · exact .inl hk
  · exact .inr (h n hk)

theorem knownPrim_mono {a b : List Name} (h : ∀ n ∈ a, n ∈ b) {p : Prim} (hk : KnownPrim a p) : KnownPrim b p :=
  ⟨known_mono h hk.1, known_mono h hk.2⟩

theorem argsOk_mono {a b : List Name} (h : ∀ n ∈ a, n ∈ b) {t : TemplateType} (hk : ArgsOk a t) : ArgsOk b t :=
  ⟨fun x hx => ⟨known_mono h (hk.1 x hx).1, (hk.1 x hx).2⟩, hk.2⟩

theorem pairwise_insertBy {α : Type} {key : α → UInt32} (x : α) (l : List α) (h : l.Pairwise fun a b => key a < key b)
    (hx : ∀ y ∈ l, key y ≠ key x) : (insertBy key x l).Pairwise fun a b => key a < key b := by
  induction l with
  | nil => simp [insertBy]
  | cons y l ih =>
    rw [insertBy]
    obtain ⟨h1, h2⟩ := List.pairwise_cons.mp h
    split
    · rename_i hlt
      refine List.pairwise_cons.mpr ⟨?_, h⟩
      intro z hz
      rcases List.mem_cons.mp hz with rfl | hz
      · exact hlt
      · exact UInt32.lt_trans hlt (h1 z hz)
    · rename_i hge
      refine List.pairwise_cons.mpr ⟨?_, ih h2 (fun z hz => hx z (by simp [hz]))⟩
      intro z hz
      rcases (mem_insertBy x z l).mp hz with rfl | hz
      · have h3 := hx y (by simp)
        have h4 : ¬ (key z).toNat < (key y).toNat := hge
        have h5 : (key y).toNat ≠ (key z).toNat := fun e => h3 (UInt32.toNat_inj.mp e)
        show (key y).toNat < (key z).toNat
        omega
      · exact h1 z hz

theorem mergeNames_strict {dest src r : List Name} (h : mergeNames dest src = .ok r)
    (hs : dest.Pairwise fun a b => a.hash < b.hash) : r.Pairwise fun a b => a.hash < b.hash := by
  induction src generalizing dest with
  | nil => simp only [mergeNames, Res.ok.injEq] at h; rw [← h]; exact hs
  | cons n src ih =>
    rw [mergeNames, Res.bind_eq_ok] at h
    obtain ⟨⟨a, d'⟩, h1, h2⟩ := h
    apply ih h2
    rcases getName_ok h1 with ⟨_, rfl, _⟩ | ⟨x, _, h0, _, ⟨_, rfl⟩ | ⟨rfl, hn, rfl⟩⟩
    · exact hs
    · exact hs
    · exact pairwise_insertBy _ _ hs hn

theorem mergeUniques_strict {α : Type} {key : α → UInt32} {dest src r : List α} (h : mergeUniques key dest src = .ok r)
    (hs : dest.Pairwise fun a b => key a < key b) : r.Pairwise fun a b => key a < key b := by
  induction src generalizing dest with
  | nil => simp only [mergeUniques, Res.ok.injEq] at h; rw [← h]; exact hs
  | cons s src ih =>
    rw [mergeUniques] at h
    split at h
    · rename_i hn
      rw [Res.bind_eq_ok] at h
      obtain ⟨d', h1, h2⟩ := h
      obtain ⟨_, rfl⟩ := add_eq_ok h1
      exact ih h2 (pairwise_insertBy _ _ hs (findBy_isNone.mp hn))
    · exact ih h hs

/-- Every name is stored under the hash of its text. -/
def NamesHashed (names : List Name) : Prop := ∀ n ∈ names, n.hash = hashOf n.text

theorem mergeNames_hashed {dest src r : List Name} (h : mergeNames dest src = .ok r) (hd : NamesHashed dest) :
    NamesHashed r := by
  intro n hn
  rcases mergeNames_mem h n hn with h | ⟨m, _, h1, h2⟩
  · exact hd n h
  · rw [h2, h1]

theorem mergeNames_contains {dest src r : List Name} (h : mergeNames dest src = .ok r) (hs : NamesHashed src)
    (h0 : ∀ n ∈ src, n.hash ≠ 0) : ∀ n ∈ src, n ∈ r := by
  intro n hn
  obtain ⟨m, hm, ht⟩ := mergeNames_found h n hn (by rw [← hs n hn]; exact h0 n hn)
  have := findBy_some hm
  have he : m = n := by
    have h1 : m.hash = n.hash := by rw [this.2, hs n hn]
    cases m; cases n; simp_all
  exact he ▸ this.1

/-- The merge of two storable databases is storable. -/
theorem merge_storable {cfg : Cfg} {d s r : Database} (h : mergeDatabases d s = .ok r) (hd : Storable cfg d)
    (hs : Storable cfg s) (nd : NamesHashed d.names) (ns : NamesHashed s.names) : Storable cfg r := by
  have t := (merge_iff_tables d s r).mp h
  have m1 : ∀ n ∈ d.names, n ∈ r.names := fun n hn => (mergeNames_sublist t.names).subset hn
  have m2 : ∀ n ∈ s.names, n ∈ r.names := mergeNames_contains t.names ns hs.names_nonzero
  have hh := mergeNames_hashed t.names nd
  exact {
    names_sorted := mergeNames_strict t.names hd.names_sorted
    names_nonzero := by
      intro n hn
      rcases mergeNames_mem t.names n hn with h | ⟨m, hm, h1, h2⟩
      · exact hd.names_nonzero n h
      · rw [h2, ← ns m hm]; exact hs.names_nonzero m hm
    names_text := by
      intro n hn
      rcases mergeNames_mem t.names n hn with h | ⟨m, hm, h1, h2⟩
      · exact hd.names_text n h
      · rw [h1]; exact hs.names_text m hm
    namespaces_sorted := mergeUniques_sorted t.namespaces hd.namespaces_sorted
    namespaces_ok := by
      intro x hx
      rcases mergeUniques_mem t.namespaces x hx with h | h
      · have := hd.namespaces_ok x h; exact ⟨this.1, knownPrim_mono m1 this.2⟩
      · have := hs.namespaces_ok x h; exact ⟨this.1, knownPrim_mono m2 this.2⟩
    types_sorted := mergeUniques_sorted t.types hd.types_sorted
    types_ok := by
      intro x hx
      rcases mergeUniques_mem t.types x hx with h | h
      · have := hd.types_ok x h; exact ⟨this.1, knownPrim_mono m1 this.2.1, this.2.2⟩
      · have := hs.types_ok x h; exact ⟨this.1, knownPrim_mono m2 this.2.1, this.2.2⟩
    templates_sorted := mergeUniques_sorted t.templates hd.templates_sorted
    templates_ok := by
      intro x hx
      rcases mergeUniques_mem t.templates x hx with h | h
      · have := hd.templates_ok x h; exact ⟨this.1, knownPrim_mono m1 this.2⟩
      · have := hs.templates_ok x h; exact ⟨this.1, knownPrim_mono m2 this.2⟩
    templateTypes_sorted := mergeUniques_sorted t.templateTypes hd.templateTypes_sorted
    templateTypes_ok := by
      intro x hx
      rcases mergeUniques_mem t.templateTypes x hx with h | h
      · have := hd.templateTypes_ok x h; exact ⟨this.1, knownPrim_mono m1 this.2.1, this.2.2.1, argsOk_mono m1 this.2.2.2⟩
      · have := hs.templateTypes_ok x h; exact ⟨this.1, knownPrim_mono m2 this.2.1, this.2.2.1, argsOk_mono m2 this.2.2.2⟩
    classes_sorted := mergeClasses_sorted t.classes hd.classes_sorted
    classes_ok := by
      intro x hx
      rcases mergeClasses_mem t.classes x hx with h | h
      · have := hd.classes_ok x h; exact ⟨this.1, knownPrim_mono m1 this.2.1, this.2.2⟩
      · have := hs.classes_ok x h; exact ⟨this.1, knownPrim_mono m2 this.2.1, this.2.2⟩
    enums_sorted := mergeUniques_sorted t.enums hd.enums_sorted
    enums_ok := by
      intro x hx
      rcases mergeUniques_mem t.enums x hx with h | h
      · have := hd.enums_ok x h; exact ⟨this.1, knownPrim_mono m1 this.2.1, this.2.2⟩
      · have := hs.enums_ok x h; exact ⟨this.1, knownPrim_mono m2 this.2.1, this.2.2⟩
    enumConstants_sorted := mergeOverloads_sorted t.enumConstants hd.enumConstants_sorted
    enumConstants_ok := by
      intro x hx
      rcases mergeOverloads_mem t.enumConstants x hx with h | h
      · have := hd.enumConstants_ok x h; exact ⟨this.1, knownPrim_mono m1 this.2.1, this.2.2⟩
      · have := hs.enumConstants_ok x h; exact ⟨this.1, knownPrim_mono m2 this.2.1, this.2.2⟩
    functions_sorted := mergeOverloads_sorted t.functions hd.functions_sorted
    functions_ok := by
      intro x hx
      rcases mergeOverloads_mem t.functions x hx with h | h
      · have := hd.functions_ok x h; exact ⟨this.1, knownPrim_mono m1 this.2.1, this.2.2⟩
      · have := hs.functions_ok x h; exact ⟨this.1, knownPrim_mono m2 this.2.1, this.2.2⟩
    fields_sorted := mergeOverloads_sorted t.fields hd.fields_sorted
    fields_ok := by
      intro x hx
      rcases mergeOverloads_mem t.fields x hx with h | h
      · have := hd.fields_ok x h; exact ⟨this.1, knownPrim_mono m1 this.2.1, known_mono m1 this.2.2.1, this.2.2.2⟩
      · have := hs.fields_ok x h; exact ⟨this.1, knownPrim_mono m2 this.2.1, known_mono m2 this.2.2.1, this.2.2.2⟩
    flagAttributes_sorted := mergeOverloads_sorted t.flagAttributes hd.flagAttributes_sorted
    flagAttributes_ok := by
      intro x hx
      rcases mergeOverloads_mem t.flagAttributes x hx with h | h
      · have := hd.flagAttributes_ok x h; exact ⟨this.1, knownPrim_mono m1 this.2⟩
      · have := hs.flagAttributes_ok x h; exact ⟨this.1, knownPrim_mono m2 this.2⟩
    intAttributes_sorted := mergeOverloads_sorted t.intAttributes hd.intAttributes_sorted
    intAttributes_ok := by
      intro x hx
      rcases mergeOverloads_mem t.intAttributes x hx with h | h
      · have := hd.intAttributes_ok x h; exact ⟨this.1, knownPrim_mono m1 this.2.1, this.2.2⟩
      · have := hs.intAttributes_ok x h; exact ⟨this.1, knownPrim_mono m2 this.2.1, this.2.2⟩
    floatAttributes_sorted := mergeOverloads_sorted t.floatAttributes hd.floatAttributes_sorted
    floatAttributes_ok := by
      intro x hx
      rcases mergeOverloads_mem t.floatAttributes x hx with h | h
      · have := hd.floatAttributes_ok x h; exact ⟨this.1, knownPrim_mono m1 this.2.1, this.2.2⟩
      · have := hs.floatAttributes_ok x h; exact ⟨this.1, knownPrim_mono m2 this.2.1, this.2.2⟩
    primitiveAttributes_sorted := mergeOverloads_sorted t.primitiveAttributes hd.primitiveAttributes_sorted
    primitiveAttributes_ok := by
      intro x hx
      rcases mergeOverloads_mem t.primitiveAttributes x hx with h | h
      · have := hd.primitiveAttributes_ok x h; exact ⟨this.1, knownPrim_mono m1 this.2.1, known_mono m1 this.2.2⟩
      · have := hs.primitiveAttributes_ok x h; exact ⟨this.1, knownPrim_mono m2 this.2.1, known_mono m2 this.2.2⟩
    textAttributes_sorted := mergeOverloads_sorted t.textAttributes hd.textAttributes_sorted
    textAttributes_ok := by
      intro x hx
      rcases mergeOverloads_mem t.textAttributes x hx with h | h
      · have := hd.textAttributes_ok x h; exact ⟨this.1, knownPrim_mono m1 this.2.1, this.2.2⟩
      · have := hs.textAttributes_ok x h; exact ⟨this.1, knownPrim_mono m2 this.2.1, this.2.2⟩
    containerInfos_sorted := mergeUniques_strict t.containerInfos hd.containerInfos_sorted
    containerInfos_ok := by
      intro x hx
      rcases mergeUniques_mem t.containerInfos x hx with h | h
      · have := hd.containerInfos_ok x h
        exact ⟨this.1, known_mono m1 this.2.1, known_mono m1 this.2.2.1, known_mono m1 this.2.2.2⟩
      · have := hs.containerInfos_ok x h
        exact ⟨this.1, known_mono m2 this.2.1, known_mono m2 this.2.2.1, known_mono m2 this.2.2.2⟩
    inheritances_sorted := mergeUniques_strict t.inheritances hd.inheritances_sorted
    inheritances_ok := by
      intro x hx
      rcases mergeUniques_mem t.inheritances x hx with h | h
      · have := hd.inheritances_ok x h
        exact ⟨this.1, known_mono m1 this.2.1, known_mono m1 this.2.2.1, known_mono m1 this.2.2.2⟩
      · have := hs.inheritances_ok x h
        exact ⟨this.1, known_mono m2 this.2.1, known_mono m2 this.2.2.1, known_mono m2 this.2.2.2⟩ }

theorem empty_storable (cfg : Cfg) : Storable cfg {} := by
  constructor <;> simp [SortedLe]

end Clr.TextDB
