import Verif.Proofs.CodeGenRead

/-!
C50: forward declarations.  Model: `Verif/Model/CodeGen.lean`; what a compiler reads, and what is expected: `Verif/Model/CodeGenSpec.lean`.
-/
namespace Clr.Gen

theorem read_forwardDeclare {db : Db} (S : Spelled db) :
    read [] [] false (forwardDeclare db) = ⟨openedAt db (depth db) 0#32 [], declaredAt db (depth db) 0#32 []⟩ := by
  rw [forwardDeclare, buildMap_eq S.hashes, List.append_assoc, List.singleton_append]
  have h : ∀ ls, read [] [] false (line 0 b!"// Forward declarations for all known types" :: ls) = read [] [] false ls := by
    intro ls
    rw [read]
    have := line_strip (ind := 0) (c := 47) (r := (b!"// Forward declarations for all known types").tail) (by decide) (by decide)
    rw [show (47 : UInt8) :: (b!"// Forward declarations for all known types").tail = b!"// Forward declarations for all known types"
      from rfl] at this
    rw [this]
    dsimp only
    rw [if_pos (by decide)]
  rw [h, read_declare S]
  have e : read [] [] false [line 0 []] = ⟨[], []⟩ := by decide
  rw [e, List.append_nil, List.append_nil]
  rfl

/-- **C50** (partial): every class, struct and enum of the database that is not inside a class is declared, as what it is and as often
as it is in the database, in the namespace that its name spells; and nothing else is declared.  (Missing: names for which it
does not hold, longer than 498 characters or in a namespace whose parent is not in the database, see below.) -/
theorem C50_declared_partial (db : Db) (S : Spelled db) : (read [] [] false (forwardDeclare db)).declared.Perm (decls db) := by
  rw [read_forwardDeclare S]
  refine (declaredAt_perm S (depth db) (.inl ⟨rfl, rfl⟩) (Nat.le_refl _)).trans ?_
  rw [List.filter_eq_self.2]
  intro d _
  rfl

/-- **C50** (partial): the namespaces that are opened are those of the database with a declaration below them, each once. -/
theorem C50_namespaces_partial (db : Db) (S : Spelled db) :
    (read [] [] false (forwardDeclare db)).opened.Perm
      ((db.namespaces.filter fun n => (decls db).any fun d => (parts n.text).isPrefixOf d.path).map fun n => parts n.text) := by
  rw [read_forwardDeclare S]
  refine (openedAt_perm S (depth db) (.inl ⟨rfl, rfl⟩) (Nat.le_refl _)).trans ?_
  rw [inside, List.filter_eq_self.2]
  · exact List.Perm.refl _
  · intro n _
    have h := parts_ne_nil n.text
    cases hp : parts n.text with
    | nil => exact absurd hp h
    | cons x xs => rfl

/-- A database with nested, empty and reopened namespaces:
`namespace a { class C; namespace b { struct S; enum E; } namespace e { namespace f {} } } enum class G;`, and a class nested in `S`. -/
def sampleDb : Db where
  namespaces := [⟨1, b!"a", 0⟩, ⟨2, b!"a::b", 1⟩, ⟨3, b!"a::e", 1⟩, ⟨4, b!"a::e::f", 3⟩]
  classes := [⟨10, b!"a::b::S", 2, false⟩, ⟨11, b!"a::C", 1, true⟩, ⟨12, b!"a::b::S::Inner", 10, true⟩]
  enums := [⟨20, b!"G", 0, .cls⟩, ⟨21, b!"a::b::E", 2, .none⟩]
  types := [⟨30, b!"int"⟩]

/-- It meets the hypothesis, and this is what is generated and read. -/
example : Spelled sampleDb ∧ read [] [] false (forwardDeclare sampleDb) =
    ⟨[[b!"a"], [b!"a", b!"b"]],
     [⟨[b!"a", b!"b"], b!"enum E;", true⟩, ⟨[b!"a", b!"b"], b!"struct S;", false⟩, ⟨[b!"a"], b!"class C;", false⟩, ⟨[], b!"enum class G;", false⟩]⟩ := by
  refine ⟨⟨by decide, by decide, by decide, ?_, ?_, ?_⟩, by decide +kernel⟩
  · simp [sampleDb, Placed, Ident, parts, scopeOf]
  · simp [sampleDb, Placed, Ident, parts, scopeOf, inNamespace]
  · simp [sampleDb, Placed, Ident, parts, scopeOf, inNamespace]

/-- A class with a name of 600 characters. -/
def longDb : Db where
  classes := [⟨1, List.replicate 600 97, 0, true⟩]

/-- **C50** fails for long names: the declaration is cut at 511 characters, and ends without its semicolon. -/
theorem C50_long_name_negation : ¬ (read [] [] false (forwardDeclare longDb)).declared.Perm (decls longDb) := by
  have h1 : (read [] [] false (forwardDeclare longDb)).declared.map (fun d => d.text.length) = [511] := by decide +kernel
  have h2 : (decls longDb).map (fun d => d.text.length) = [607] := by decide +kernel
  intro h
  have := h.map (fun d => d.text.length)
  rw [h1, h2] at this
  exact absurd (List.perm_singleton.1 this) (by decide)

/-- A class in `a::b`, without `a` in the database. -/
def orphanDb : Db where
  namespaces := [⟨2, b!"a::b", 1⟩]
  classes := [⟨10, b!"a::b::C", 2, true⟩]

/-- **C50** fails for a namespace whose parent is not in the database: the class is not declared, although code is generated for it
(it is one of the `primitives`). -/
theorem C50_orphan_negation : (read [] [] false (forwardDeclare orphanDb)).declared = [] ∧ (decls orphanDb).length = 1 ∧
    (primitives (buildMap orphanDb) orphanDb).length = 1 := by
  decide +kernel

end Clr.Gen
