import Verif.Proofs.CodeGenTypes

/-!
C71: the generated `GetType`, `GetTypeNameHash` and `clcppTypeHash`. Model: `Verif/Model/CodeGenTypes.lean`; what a compiler reads, and what is
expected: `Verif/Model/CodeGenTypesSpec.lean`.
-/
namespace Clr.Gen

theorem filterMap_flatMap_single {α β γ : Type} (l : List α) (f : α → List β) (h : β → Option γ) (k : α → γ)
    (H : ∀ x ∈ l, (f x).filterMap h = [k x]) : (l.flatMap f).filterMap h = l.map k := by
  induction l with
  | nil => rfl
  | cons x r ih =>
    rw [List.flatMap_cons, List.filterMap_append, H x List.mem_cons_self, ih fun y hy => H y (List.mem_cons_of_mem _ hy)]
    rfl

/-- **C71** (partial): in the generated source file there is a specialisation of `GetType` for each built-in type of the database, and for
each class and enum that is not inside a class, with its qualified name, and no other; after the initialisation it returns the type that the
database gives for the type's own hash. (Missing: names longer than 430 characters, see below.) -/
theorem C71_getType_partial (db : Db) (L : Listed db) : (getTypesIn (stmts (cppFile db))).Perm (symbols db) := by
  rw [stmts_cppFile L, ← primitives_symbols L.spelled]
  generalize primitives db.namespaces db = ps
  have hel : ∀ A B : List (Prim × Nat), ∀ i, element (.size ps.length :: (ps.zipIdx.map (fun x => .assign x.2 x.1.hash.toNat) ++
      (A.flatMap (both false) ++ B.flatMap (both true)))) i = ps[i]?.map fun p => p.hash.toNat := by
    intro A B i
    unfold element
    have hb : ∀ (g : Bool) (C : List (Prim × Nat)), (C.flatMap (both g)).filterMap (Stmt.assigned i) = [] := by
      intro g C
      rw [List.filterMap_eq_nil_iff]
      intro s hs
      obtain ⟨x, _, hx⟩ := List.mem_flatMap.mp hs
      simp only [both, List.mem_cons, List.not_mem_nil, or_false] at hx
      rcases hx with rfl | rfl <;> rfl
    rw [List.filterMap_cons_none rfl, List.filterMap_append, List.filterMap_append, hb, hb, List.filterMap_map]
    have := element_assigns ps 0 i
    rw [if_pos (Nat.zero_le _), Nat.sub_zero] at this
    rw [List.append_nil, List.append_nil]
    show ((ps.zipIdx 0).filterMap fun x => if x.2 = i then some x.1.hash.toNat else none).getLast? = _
    rw [this]
    cases ps[i]?.map fun p => p.hash.toNat <;> rfl
  unfold getTypesIn
  have hA : ∀ (f : Nat → Option Nat) (g : Bool) (m : PrimType → Bool), (∀ i, f i = ps[i]?.map fun p => p.hash.toNat) →
      ((ps.zipIdx.filter fun x => m x.1.type).flatMap (both g)).filterMap (Stmt.typeOf f) =
        (ps.filter fun p => m p.type).map fun p => (globalName p, some p.hash.toNat, g) := by
    intro f g m hf
    rw [← filter_zipIdx m (fun p => (globalName p, some p.hash.toNat, g)) ps 0]
    apply filterMap_flatMap_single
    rintro ⟨p, i⟩ hx
    have := List.mem_zipIdx_iff_getElem?.mp (List.mem_filter.mp hx).1
    dsimp only at this
    simp only [both, List.filterMap_cons, List.filterMap_nil, Stmt.typeOf, hf, this, Option.map_some]
  generalize hf : element _ = f
  rw [List.filterMap_cons_none rfl, List.filterMap_append, List.filterMap_append, hA f _ _ (fun i => by rw [← hf]; exact hel _ _ i),
    hA f _ _ (fun i => by rw [← hf]; exact hel _ _ i), List.filterMap_map]
  have hnone : ps.zipIdx.filterMap (Stmt.typeOf f ∘ fun x : Prim × Nat => Stmt.assign x.2 x.1.hash.toNat) = [] := by
    rw [List.filterMap_eq_nil_iff]
    intro x _
    rfl
  rw [hnone, List.nil_append]
  exact split_perm (fun p g => (globalName p, some p.hash.toNat, g)) ps

/-- **C71** (partial): likewise `GetTypeNameHash`, which returns the hash of the type's name. -/
theorem C71_getHash_partial (db : Db) (L : Listed db) : (getHashesIn (stmts (cppFile db))).Perm (symbols db) := by
  rw [stmts_cppFile L, ← primitives_symbols L.spelled]
  generalize primitives db.namespaces db = ps
  unfold getHashesIn
  have hA : ∀ (g : Bool) (m : PrimType → Bool),
      ((ps.zipIdx.filter fun x => m x.1.type).flatMap (both g)).filterMap Stmt.nameHash =
        (ps.filter fun p => m p.type).map fun p => (globalName p, some p.hash.toNat, g) := by
    intro g m
    rw [← filter_zipIdx m (fun p => (globalName p, some p.hash.toNat, g)) ps 0]
    exact filterMap_flatMap_single _ _ _ _ fun x _ => rfl
  rw [List.filterMap_cons_none rfl, List.filterMap_append, List.filterMap_append, hA, hA, List.filterMap_map]
  have hnone : ps.zipIdx.filterMap (Stmt.nameHash ∘ fun x : Prim × Nat => Stmt.assign x.2 x.1.hash.toNat) = [] := by
    rw [List.filterMap_eq_nil_iff]
    intro x _
    rfl
  rw [hnone, List.nil_append]
  exact split_perm (fun p g => (globalName p, some p.hash.toNat, g)) ps

/-- **C71** (partial): likewise `clcppTypeHash` in the generated header. -/
theorem C71_typeHash_partial (db : Db) (L : Listed db) : (typeHashesIn (stmts (hFile db))).Perm (symbols db) := by
  rw [stmts_hFile L, ← primitives_symbols L.spelled]
  generalize primitives db.namespaces db = ps
  unfold typeHashesIn
  rw [List.filterMap_append, List.filterMap_map, List.filterMap_map]
  have hA : ∀ (g : Bool) (qs : List Prim), qs.filterMap (Stmt.constHash ∘ fun p => Stmt.typeHash (globalName p) p.hash.toNat g) =
      qs.map fun p => (globalName p, some p.hash.toNat, g) := by
    intro g qs
    rw [← List.filterMap_eq_map]
    rfl
  rw [hA, hA]
  exact split_perm (fun p g => (globalName p, some p.hash.toNat, g)) ps

/-- **C71**: all elements that are assigned to or returned are in the array. -/
theorem C71_in_array_partial (db : Db) (L : Listed db) : ∃ n, Stmt.size n ∈ stmts (cppFile db) ∧
    (∀ m, Stmt.size m ∈ stmts (cppFile db) → m = n) ∧
    (∀ i h, Stmt.assign i h ∈ stmts (cppFile db) → i < n) ∧ ∀ name i g, Stmt.getType name i g ∈ stmts (cppFile db) → i < n := by
  rw [stmts_cppFile L]
  generalize primitives db.namespaces db = ps
  have hidx : ∀ p i, (p, i) ∈ ps.zipIdx → i < ps.length := by
    intro p i h
    have := List.mem_zipIdx_iff_getElem?.mp h
    exact (List.getElem?_eq_some_iff.mp this).1
  have hboth : ∀ (s : Stmt) (g : Bool) (m : PrimType → Bool), s ∈ (ps.zipIdx.filter fun x => m x.1.type).flatMap (both g) →
      ∃ p i, i < ps.length ∧ (s = .getType (globalName p) i g ∨ s = .getHash (globalName p) p.hash.toNat g) := by
    intro s g m hs
    obtain ⟨⟨p, i⟩, hx, hs⟩ := List.mem_flatMap.mp hs
    simp only [both, List.mem_cons, List.not_mem_nil, or_false] at hs
    exact ⟨p, i, hidx p i (List.mem_filter.mp hx).1, hs⟩
  have hall : ∀ s, s ∈ Stmt.size ps.length :: (ps.zipIdx.map (fun x => .assign x.2 x.1.hash.toNat) ++
      ((ps.zipIdx.filter fun x => notEnum x.1.type).flatMap (both false) ++ (ps.zipIdx.filter fun x => isEnum x.1.type).flatMap (both true))) →
      s = .size ps.length ∨ ∃ i, i < ps.length ∧ ((∃ h, s = .assign i h) ∨ (∃ n g, s = .getType n i g) ∨ ∃ n h g, s = .getHash n h g) := by
    intro s hs
    rcases List.mem_cons.mp hs with rfl | hs
    · exact .inl rfl
    rcases List.mem_append.mp hs with hs | hs
    · obtain ⟨⟨p, i⟩, hx, rfl⟩ := List.mem_map.mp hs
      exact .inr ⟨i, hidx p i hx, .inl ⟨_, rfl⟩⟩
    rcases List.mem_append.mp hs with hs | hs
    · obtain ⟨p, i, hi, h | h⟩ := hboth s _ _ hs
      · exact .inr ⟨i, hi, .inr (.inl ⟨_, _, h⟩)⟩
      · exact .inr ⟨i, hi, .inr (.inr ⟨_, _, _, h⟩)⟩
    · obtain ⟨p, i, hi, h | h⟩ := hboth s _ _ hs
      · exact .inr ⟨i, hi, .inr (.inl ⟨_, _, h⟩)⟩
      · exact .inr ⟨i, hi, .inr (.inr ⟨_, _, _, h⟩)⟩
  refine ⟨ps.length, List.mem_cons_self, fun m hm => ?_, fun i h hm => ?_, fun n i g hm => ?_⟩
  · rcases hall _ hm with h | ⟨_, _, ⟨_, h⟩ | ⟨_, _, h⟩ | ⟨_, _, _, h⟩⟩
    · injection h
    · cases h
    · cases h
    · cases h
  · rcases hall _ hm with h | ⟨_, hi, ⟨_, h⟩ | ⟨_, _, h⟩ | ⟨_, _, _, h⟩⟩
    · cases h
    · injection h with h _; rw [h]; exact hi
    · cases h
    · cases h
  · rcases hall _ hm with h | ⟨_, hi, ⟨_, h⟩ | ⟨_, _, h⟩ | ⟨_, _, _, h⟩⟩
    · cases h
    · cases h
    · injection h with _ h _; rw [h]; exact hi
    · cases h

/-- **C71**: so if no two types of the database have the same qualified name, a call of `GetType` for one of them compiles to just one
function, that returns what the database has for the type's hash. -/
theorem C71_call_partial (db : Db) (L : Listed db) (hd : ((symbols db).map Prod.fst).Nodup) (name : Bytes) (hash : Option Nat) (g : Bool)
    (h : (name, hash, g) ∈ symbols db) : (getTypesIn (stmts (cppFile db))).filter (fun s => s.1 == name) = [(name, hash, g)] := by
  have hp := (C71_getType_partial db L).filter (fun s => s.1 == name)
  have : ∀ l : List (Bytes × Option Nat × Bool), (l.map Prod.fst).Nodup → (name, hash, g) ∈ l →
      l.filter (fun s => s.1 == name) = [(name, hash, g)] := by
    intro l
    induction l with
    | nil => intro _ h; cases h
    | cons x r ih =>
      intro hn hm
      rw [List.map_cons, List.nodup_cons] at hn
      rw [List.filter_cons]
      rcases List.mem_cons.mp hm with rfl | hm
      · rw [if_pos (beq_self_eq_true _), List.filter_eq_nil_iff.2]
        intro y hy e
        exact hn.1 (List.mem_map.mpr ⟨y, hy, beq_iff_eq.mp e⟩)
      · rw [if_neg, ih hn.2 hm]
        intro e
        exact hn.1 (List.mem_map.mpr ⟨_, hm, (beq_iff_eq.mp e).symm⟩)
  rw [this _ hd h] at hp
  exact List.perm_singleton.mp hp

example : getTypesIn (stmts (cppFile sampleDb)) = [(b!"a::b::S", some 10, false), (b!"a::C", some 11, false), (b!"::G", some 20, false),
    (b!"int", some 30, false), (b!"a::b::E", some 21, true)] ∧ ((symbols sampleDb).map Prod.fst).Nodup := by decide +kernel

/-- A database with a class of the given name. -/
def oneDb (text : Bytes) : Db where
  classes := [⟨5#32, text, 0#32, true⟩]
  types := [⟨7#32, b!"unsigned int"⟩]

theorem oneDb_listed {text : Bytes} (h : 58 ∉ text) (hs : Short text) : Listed (oneDb text) where
  spelled := {
    nonzero := fun _ h => by cases h
    hashes := .nil
    texts := .nil
    namespaces := fun _ h => by cases h
    classes := fun c hc _ => by
      have : c = ⟨5#32, text, 0#32, true⟩ := by simpa [oneDb] using hc
      subst this
      have hp : parts text = [text] := by
        have : ∀ t : Bytes, 58 ∉ t → parts t = [t] := by
          intro t
          induction t with
          | nil => intro _; rfl
          | cons c r ih =>
            intro h
            rw [List.mem_cons, not_or] at h
            have e := ih h.2
            unfold parts
            split
            · rename_i h'; cases h'
            · rename_i h'; injection h' with h1 _; exact absurd h1.symm h.1
            · rename_i h'
              injection h' with h1 h2
              subst h1 h2
              rw [e]
        exact this text h
      refine ⟨fun x hx => ?_, .inl ⟨?_, rfl⟩⟩
      · rw [hp, List.mem_singleton] at hx
        subst hx
        exact ⟨h, by have := hs.2; omega⟩
      · rw [scopeOf, hp]
        rfl
    enums := fun _ h => by cases h }
  classes := fun c hc => by
    have : c = ⟨5#32, text, 0#32, true⟩ := by simpa [oneDb] using hc
    subst this
    exact hs
  enums := fun _ h => by cases h
  types := fun t ht => by
    have : t = ⟨7#32, b!"unsigned int"⟩ := by simpa [oneDb] using ht
    subst this
    exact ⟨by decide, by decide⟩
  few := by show 1 + 0 + 1 < 10 ^ 9; decide

example : getTypesIn (stmts (cppFile (oneDb b!"Foo"))) = [(b!"::Foo", some 5, false), (b!"unsigned int", some 7, false)] := by decide +kernel

/-- **C71** fails for a long name: the line ends before the statement does. -/
theorem C71_long_name_negation : ∃ text : Bytes, 58 ∉ text ∧ 40 ∉ text ∧ text.length = 446 ∧
    getTypesIn (stmts (cppFile (oneDb text))) = [(b!"unsigned int", some 7, false)] :=
  ⟨List.replicate 446 65, by decide +kernel, by decide +kernel, by decide +kernel, by decide +kernel⟩

/-- **C71** fails for a database without types: the array is declared with no elements, which is not C++. -/
theorem C71_no_types_negation : Stmt.size 0 ∈ stmts (cppFile {}) := by decide +kernel

end Clr.Gen
