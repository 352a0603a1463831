import Verif.Proofs.CodeGenTree

/-!
Forward declarations: reading the lines.
-/
namespace Clr.Gen

theorem line_strip {ind : Nat} {c : UInt8} {r : Bytes} (hc : c ≠ 9) (hl : r.length ≤ 510) :
    (line ind (c :: r)).dropWhile (· == 9) = c :: r := by
  rw [line, List.take_of_length_le (by simp only [List.length_cons]; omega)]
  induction ind with
  | zero =>
    rw [List.replicate_zero, List.nil_append, List.dropWhile_cons, if_neg (by rw [beq_iff_eq]; exact hc)]
  | succ n ih =>
    rw [List.replicate_succ, List.cons_append, List.dropWhile_cons, if_pos (by decide)]
    exact ih

theorem read_open (path : List Bytes) (name : Bytes) (g : Bool) (ind : Nat) (ls : List Bytes) :
    read path name g (line ind b!"{" :: ls) =
      { read (path ++ [name]) [] g ls with opened := (path ++ [name]) :: (read (path ++ [name]) [] g ls).opened } := by
  rw [read, line_strip (c := 123) (by decide) (by decide)]
  dsimp only
  rw [if_neg (by decide), if_pos (by decide)]

theorem read_close (path : List Bytes) (name : Bytes) (g : Bool) (ind : Nat) (ls : List Bytes) :
    read path name g (line ind b!"}" :: ls) = read path.dropLast [] g ls := by
  rw [read, line_strip (c := 125) (by decide) (by decide)]
  dsimp only
  rw [if_neg (by decide), if_neg (by decide), if_pos (by decide)]

theorem read_namespace (path : List Bytes) (name : Bytes) (g : Bool) (ind : Nat) (x : Bytes) (hx : x.length ≤ 498) (ls : List Bytes) :
    read path name g (line ind (b!"namespace " ++ x) :: ls) = read path x g ls := by
  show read path name g (line ind (110 :: ([97, 109, 101, 115, 112, 97, 99, 101, 32] ++ x)) :: ls) = _
  rw [read, line_strip (c := 110) (by decide) (by rw [List.length_append]; simp only [List.length_cons, List.length_nil]; omega)]
  dsimp only
  rw [if_neg (by simp), if_neg (by simp), if_neg (by simp), if_pos (by simp)]
  rfl

theorem read_if (path : List Bytes) (name : Bytes) (g : Bool) (ind : Nat) (ls : List Bytes) :
    read path name g (line ind b!"#if defined(CLCPP_USING_MSVC)" :: ls) = read path name true ls := by
  rw [read]
  have := line_strip (ind := ind) (c := 35) (r := (b!"#if defined(CLCPP_USING_MSVC)").tail) (by decide) (by decide)
  rw [show (35 : UInt8) :: (b!"#if defined(CLCPP_USING_MSVC)").tail = b!"#if defined(CLCPP_USING_MSVC)" from rfl] at this
  rw [this]
  dsimp only
  rw [if_neg (by decide), if_neg (by decide), if_neg (by decide), if_neg (by decide), if_pos (by decide)]

theorem read_endif (path : List Bytes) (name : Bytes) (g : Bool) (ind : Nat) (ls : List Bytes) :
    read path name g (line ind b!"#endif" :: ls) = read path name false ls := by
  rw [read]
  have := line_strip (ind := ind) (c := 35) (r := (b!"#endif").tail) (by decide) (by decide)
  rw [show (35 : UInt8) :: (b!"#endif").tail = b!"#endif" from rfl] at this
  rw [this]
  dsimp only
  rw [if_neg (by decide), if_neg (by decide), if_neg (by decide), if_neg (by decide), if_neg (by decide), if_pos (by decide)]

theorem read_other (path : List Bytes) (name : Bytes) (g : Bool) (ind : Nat) (c : UInt8) (r : Bytes) (hl : r.length ≤ 510)
    (hc : c ≠ 9 ∧ c ≠ 47 ∧ c ≠ 123 ∧ c ≠ 125 ∧ c ≠ 110 ∧ c ≠ 35) (ls : List Bytes) :
    read path name g (line ind (c :: r) :: ls) =
      { read path name g ls with declared := ⟨path, c :: r, g⟩ :: (read path name g ls).declared } := by
  obtain ⟨h1, h2, h3, h4, h5, h6⟩ := hc
  have h : ∀ {d : UInt8} {s : Bytes}, c ≠ d → c :: r ≠ d :: s := fun h e => h (List.cons.inj e).1
  rw [read, line_strip h1 hl]
  dsimp only
  rw [if_neg, if_neg (h h3), if_neg (h h4), if_neg, if_neg (h h6), if_neg (h h6)]
  · rw [List.take_succ_cons]
    exact fun e => h5 (List.cons.inj e).1
  · rintro (e | e)
    · cases e
    · rw [List.take_succ_cons] at e
      exact h2 (List.cons.inj e).1

/-- A primitive that is declared in a namespace, with a name that fits the line. -/
def Fits (p : Prim) : Prop := p.type ≠ .type ∧ (unscope p.text).length ≤ 498

theorem read_declaration {p : Prim} (hp : Fits p) (path : List Bytes) (name : Bytes) (g : Bool) (ind : Nat) (ls : List Bytes) :
    read path name g (line ind (declaration p) :: ls) =
      { read path name g ls with declared := ⟨path, declaration p, g⟩ :: (read path name g ls).declared } := by
  obtain ⟨h1, h2⟩ := hp
  have key : ∃ c r, declaration p = c :: r ∧ r.length ≤ 510 ∧ (c ≠ 9 ∧ c ≠ 47 ∧ c ≠ 123 ∧ c ≠ 125 ∧ c ≠ 110 ∧ c ≠ 35) := by
    rw [declaration]
    cases ht : p.type with
    | type => exact absurd ht h1
    | cls => exact ⟨99, [108, 97, 115, 115, 32] ++ unscope p.text ++ b!";", rfl, by simp; omega, by decide⟩
    | struct => exact ⟨115, [116, 114, 117, 99, 116, 32] ++ unscope p.text ++ b!";", rfl, by simp; omega, by decide⟩
    | enum => exact ⟨101, [110, 117, 109, 32] ++ unscope p.text ++ b!";", rfl, by simp; omega, by decide⟩
    | enumCls => exact ⟨101, [110, 117, 109, 32, 99, 108, 97, 115, 115, 32] ++ unscope p.text ++ b!";", rfl, by simp; omega, by decide⟩
    | enumStruct =>
      exact ⟨101, [110, 117, 109, 32, 115, 116, 114, 117, 99, 116, 32] ++ unscope p.text ++ b!";", rfl, by simp; omega, by decide⟩
  obtain ⟨c, r, e, hl, hc⟩ := key
  rw [e]
  exact read_other path name g ind c r hl hc ls

theorem read_declarations (path : List Bytes) (name : Bytes) (g : Bool) (ind : Nat) (ls : List Bytes) : ∀ ps : List Prim, (∀ p ∈ ps, Fits p) →
    read path name g (ps.map (fun p => line ind (declaration p)) ++ ls) =
      ⟨(read path name g ls).opened, ps.map (fun p => ⟨path, declaration p, g⟩) ++ (read path name g ls).declared⟩
  | [], _ => rfl
  | p :: ps, h => by
    rw [List.map_cons, List.cons_append, read_declaration (h p (List.mem_cons_self ..)),
      read_declarations path name g ind ls ps fun q hq => h q (List.mem_cons_of_mem _ hq)]
    rfl

theorem enumsOf_fits {db : Db} (S : Spelled db) (h : BitVec 32) : ∀ p ∈ enumsOf db.namespaces db h, Fits p := by
  intro p hp
  rw [enumsOf, List.mem_filter, enumPrims] at hp
  obtain ⟨e, he, rfl⟩ := List.mem_map.1 hp.1
  have hp := placed_enum S e he
  refine ⟨?_, ?_⟩
  · show enumType e.scope ≠ .type
    cases e.scope <;> simp [enumType]
  · show (unscope e.text).length ≤ 498
    rw [hp.unscope]
    exact (hp.1 _ (localOf_mem _)).2

theorem classesOf_fits {db : Db} (S : Spelled db) (h : BitVec 32) : ∀ p ∈ classesOf db.namespaces db h, Fits p := by
  intro p hp
  rw [classesOf] at hp
  rcases List.mem_append.1 hp with hp | hp
  · rw [List.mem_filter, classPrims] at hp
    obtain ⟨e, he, rfl⟩ := List.mem_map.1 hp.1
    have hp := placed_class S e he
    refine ⟨?_, ?_⟩
    · show (if e.isClass then PrimType.cls else .struct) ≠ .type
      cases e.isClass <;> simp
    · show (unscope e.text).length ≤ 498
      rw [hp.unscope]
      exact (hp.1 _ (localOf_mem _)).2
  · rw [List.mem_filter, enumPrims] at hp
    obtain ⟨e, he, rfl⟩ := List.mem_map.1 hp.1
    have hp := placed_enum S e he
    refine ⟨?_, ?_⟩
    · show enumType e.scope ≠ .type
      cases e.scope <;> simp [enumType]
    · show (unscope e.text).length ≤ 498
      rw [hp.unscope]
      exact (hp.1 _ (localOf_mem _)).2

theorem read_contents {db : Db} (S : Spelled db) (h : BitVec 32) (path : List Bytes) (ind : Nat) (ls : List Bytes) :
    read path [] false (contents db.namespaces db h ind ++ ls) =
      ⟨(read path [] false ls).opened, itemsAt db h path ++ (read path [] false ls).declared⟩ := by
  rw [contents, itemsAt]
  have h1 := enumsOf_fits S h
  have h2 := classesOf_fits S h
  by_cases he : (enumsOf db.namespaces db h).isEmpty = true
  · rw [if_pos he, List.isEmpty_iff.1 he, List.nil_append, read_declarations _ _ _ _ _ _ h2]
    rfl
  · rw [if_neg he, List.append_assoc, List.append_assoc, List.append_assoc, List.singleton_append, read_if,
      read_declarations _ _ _ _ _ _ h1, List.singleton_append, read_endif, read_declarations _ _ _ _ _ _ h2]
    simp

theorem read_declare {db : Db} (S : Spelled db) : ∀ (n : Nat) (h : BitVec 32) (path : List Bytes) (ind : Nat) (ls : List Bytes),
    read path [] false (declare db.namespaces db n h ind ++ ls) =
      ⟨openedAt db n h path ++ (read path [] false ls).opened, declaredAt db n h path ++ (read path [] false ls).declared⟩
  | 0, h, path, ind, ls => rfl
  | n + 1, h, path, ind, ls => by
    rw [declare, openedAt, declaredAt, List.append_assoc]
    have hsub : ∀ c ∈ remaining db.namespaces db (n + 1) h, c ∈ db.namespaces := by
      intro c hc
      rw [remaining] at hc
      have := (pruneLoop_perm _ _ _ _ (by omega) (by simp)).mem_iff.1 hc
      rw [List.mem_filter] at this
      rw [children, List.mem_filter] at this
      exact this.1.1
    generalize remaining db.namespaces db (n + 1) h = kids at hsub
    induction kids with
    | nil =>
      rw [List.flatMap_nil, List.nil_append, read_contents S]
      rfl
    | cons c kids ih =>
      have hp := S.namespaces c (hsub c (List.mem_cons_self ..))
      have ih := ih fun x hx => hsub x (List.mem_cons_of_mem _ hx)
      rw [List.flatMap_cons, List.flatMap_cons, List.flatMap_cons, List.append_assoc, List.append_assoc, List.append_assoc,
        List.cons_append, List.singleton_append, hp.unscope, read_namespace _ _ _ _ _ (hp.1 _ (localOf_mem _)).2, read_open,
        read_declare S n, List.singleton_append, read_close, List.dropLast_concat, ih]
      simp

end Clr.Gen
