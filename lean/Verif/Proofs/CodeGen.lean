import Verif.Model.CodeGenSpec

/-!
Forward declarations: reading back what is generated.
-/
namespace Clr.Gen

/-! ### Names -/

theorem parts_ne_nil (t : Bytes) : parts t ≠ [] := by
  unfold parts
  split
  · exact fun h => by cases h
  · exact fun h => by cases h
  · split <;> exact fun h => by cases h

/-- The name with the given parts. -/
def join : List Bytes → Bytes
  | [] => []
  | [x] => x
  | x :: y :: xs => x ++ 58 :: 58 :: join (y :: xs)

theorem join_cons {x : Bytes} {xs : List Bytes} (h : xs ≠ []) : join (x :: xs) = x ++ 58 :: 58 :: join xs := by
  cases xs with
  | nil => exact absurd rfl h
  | cons y ys => rfl

theorem join_parts (t : Bytes) : join (parts t) = t := by
  fun_induction parts t with
  | case1 => rfl
  | case2 r ih => rw [join_cons (parts_ne_nil r), ih]; rfl
  | case3 c r _ p ps h ih =>
    rw [h] at ih
    cases ps with
    | nil => rw [join] at ih ⊢; rw [ih]
    | cons q qs => rw [join] at ih ⊢; rw [← ih]; rfl
  | case4 c r _ h ih => exact absurd h (parts_ne_nil r)

theorem parts_inj {s t : Bytes} (h : parts s = parts t) : s = t := by
  rw [← join_parts s, ← join_parts t, h]

theorem parts_length (t : Bytes) : (parts t).length ≤ t.length + 1 := by
  fun_induction parts t with
  | case1 => decide
  | case2 r ih => simp only [List.length_cons]; omega
  | case3 c r _ p ps h ih =>
    rw [h] at ih
    simp only [List.length_cons] at ih ⊢
    omega
  | case4 c r _ h ih => simp only [List.length_cons, List.length_nil]; omega

theorem lastScope_parts (t : Bytes) (h : ∀ x ∈ parts t, 58 ∉ x) :
    (lastScope t = none ∧ parts t = [t]) ∨ ∃ a b init, lastScope t = some (a, b) ∧ init ≠ [] ∧ parts t = init ++ [b] := by
  fun_induction parts t with
  | case1 => exact .inl ⟨rfl, rfl⟩
  | case2 r ih =>
    right
    rcases ih fun x hx => h x (List.mem_cons_of_mem _ hx) with ⟨h1, h2⟩ | ⟨a, b, init, h1, h2, h3⟩
    · have hr : 58 ∉ r := h r (by rw [h2]; simp)
      refine ⟨[], r, [[]], ?_, by simp, by rw [h2]; rfl⟩
      have hc : lastScope (58 :: r) = none := by
        rw [lastScope, h1]
        refine if_neg fun hc => hr ?_
        cases r with
        | nil => exact absurd hc.2 (by simp)
        | cons x r => rw [Option.some.inj hc.2]; exact List.mem_cons_self ..
      rw [lastScope, hc]
      rfl
    · refine ⟨58 :: 58 :: a, b, [] :: init, ?_, by simp, by rw [h3]; rfl⟩
      rw [lastScope, lastScope, h1]
  | case3 c r hne p ps hp ih =>
    rw [hp] at ih
    have hx : ∀ x ∈ p :: ps, 58 ∉ x := by
      intro x hx
      rcases List.mem_cons.1 hx with rfl | hx
      · exact fun hm => h _ (List.mem_cons_self ..) (List.mem_cons_of_mem _ hm)
      · exact h x (List.mem_cons_of_mem _ hx)
    rcases ih hx with ⟨h1, h2⟩ | ⟨a, b, init, h1, h2, h3⟩
    · left
      obtain ⟨rfl, rfl⟩ := List.cons.inj h2
      refine ⟨?_, rfl⟩
      rw [lastScope, h1]
      refine if_neg fun hc => ?_
      cases p with
      | nil => exact absurd hc.2 (by simp)
      | cons x p =>
        have := Option.some.inj hc.2
        subst this
        exact hne p hc.1 rfl
    · right
      cases init with
      | nil => exact absurd rfl h2
      | cons i is =>
        obtain ⟨rfl, rfl⟩ := List.cons.inj h3
        refine ⟨c :: a, b, (c :: p) :: is, ?_, by simp, rfl⟩
        rw [lastScope, h1]
  | case4 c r _ hp ih => exact absurd hp (parts_ne_nil r)

theorem unscope_eq {t : Bytes} (h : ∀ x ∈ parts t, 58 ∉ x) : unscope t = localOf t := by
  rw [unscope, localOf]
  rcases lastScope_parts t h with ⟨h1, h2⟩ | ⟨a, b, init, h1, h2, h3⟩
  · rw [h1, h2]; rfl
  · rw [h1, h3]; simp

theorem parts_eq (t : Bytes) : parts t = scopeOf t ++ [localOf t] := by
  rw [scopeOf, localOf]
  have := parts_ne_nil t
  generalize parts t = l at this
  rw [List.getLast?_eq_some_getLast this, Option.getD_some, List.dropLast_concat_getLast]

theorem localOf_mem (t : Bytes) : localOf t ∈ parts t := by
  rw [parts_eq]
  simp

/-! ### The map -/

theorem foldl_put : ∀ (l acc : List Ns), ((acc ++ l).map Ns.hash).Nodup → l.foldl put acc = acc ++ l
  | [], acc, _ => (List.append_nil _).symm
  | n :: l, acc, h => by
    have hn : acc.any (fun x => x.hash == n.hash) = false := by
      rw [List.any_eq_false]
      intro x hx he
      rw [List.map_append, List.nodup_append] at h
      exact h.2.2 x.hash (List.mem_map_of_mem hx) n.hash (by simp) (eq_of_beq he)
    rw [List.foldl_cons, put, hn, if_neg (by decide), foldl_put l (acc ++ [n]) (by simpa using h)]
    simp

theorem buildMap_eq {db : Db} (h : (db.namespaces.map Ns.hash).Nodup) : buildMap db = db.namespaces :=
  foldl_put _ [] h

/-! ### Removing -/

theorem split_at {α : Type} : ∀ {v : List α} {i : Nat} {x : α}, v[i]? = some x → ∃ a b, v = a ++ x :: b ∧ a.length = i
  | y :: v, 0, x, h => by
    cases h
    exact ⟨[], v, rfl, rfl⟩
  | y :: v, i + 1, x, h => by
    obtain ⟨a, b, rfl, rfl⟩ := split_at (v := v) (i := i) (x := x) (by simpa using h)
    exact ⟨y :: a, b, rfl, rfl⟩

theorem pruneLoop_perm (empty : Ns → Bool) : ∀ (n i : Nat) (v : List Ns), v.length < n + i → (∀ x ∈ v.take i, empty x = false) →
    (pruneLoop empty n i v).Perm (v.filter fun x => !empty x)
  | 0, i, v, hn, h => by
    rw [pruneLoop]
    rw [List.take_of_length_le (by omega)] at h
    rw [List.filter_eq_self.2 fun x hx => by rw [h x hx]; rfl]
  | n + 1, i, v, hn, h => by
    rw [pruneLoop]
    cases hv : v[i]? with
    | none =>
      rw [List.take_of_length_le (List.getElem?_eq_none_iff.1 hv)] at h
      dsimp only
      rw [List.filter_eq_self.2 fun x hx => by rw [h x hx]; rfl]
    | some child =>
      dsimp only
      obtain ⟨a, b, rfl, rfl⟩ := split_at hv
      rw [List.take_left] at h
      by_cases he : empty child = true
      · rw [if_pos he]
        have hf : (a ++ child :: b).filter (fun x => !empty x) = (a ++ b).filter (fun x => !empty x) := by
          rw [List.filter_append, List.filter_append, List.filter_cons, if_neg (by rw [he]; decide)]
        rw [hf]
        rcases List.eq_nil_or_concat b with rfl | ⟨b', l, rfl⟩
        · have : (a ++ [child]).getLast? = some child := by simp
          rw [this]
          dsimp only
          have e : ((a ++ [child]).set a.length child).dropLast = a := by simp [List.set_append]
          rw [e, List.append_nil]
          exact pruneLoop_perm empty n a.length a (by simp at hn; omega) (by rw [List.take_length]; exact h)
        · rw [List.concat_eq_append]
          have : (a ++ child :: (b' ++ [l])).getLast? = some l := by
            rw [List.getLast?_append, List.getLast?_cons]; simp
          rw [this]
          dsimp only
          have e : ((a ++ child :: (b' ++ [l])).set a.length l).dropLast = a ++ l :: b' := by
            rw [List.set_append, if_neg (by omega), Nat.sub_self, List.set_cons_zero, ← List.cons_append, ← List.append_assoc,
              List.dropLast_concat]
          rw [e]
          refine (pruneLoop_perm empty n a.length (a ++ l :: b') ?_ (by rw [List.take_left]; exact h)).trans ?_
          · simp at hn ⊢; omega
          · refine List.Perm.filter _ (List.Perm.append_left a ?_)
            exact (List.perm_append_singleton l b').symm
      · rw [if_neg he]
        refine pruneLoop_perm empty n (a.length + 1) _ (by omega) ?_
        intro x hx
        have : (a ++ child :: b).take (a.length + 1) = a ++ [child] := by
          rw [List.take_append, List.take_of_length_le (by omega)]
          simp
        rw [this] at hx
        rcases List.mem_append.1 hx with hx | hx
        · exact h x hx
        · rw [List.mem_singleton.1 hx]; simpa using he

/-! ### Where things are -/

theorem eq_of_nodup_map {α β : Type} {f : α → β} : ∀ {l : List α}, (l.map f).Nodup → ∀ {a b : α}, a ∈ l → b ∈ l → f a = f b → a = b
  | [], _, _, _, h, _, _ => absurd h (by simp)
  | x :: l, hn, a, b, ha, hb, e => by
    rw [List.map_cons, List.nodup_cons] at hn
    rcases List.mem_cons.1 ha with h1 | h1
    · rcases List.mem_cons.1 hb with h2 | h2
      · rw [h1, h2]
      · exact absurd (by rw [← h1, e]; exact List.mem_map_of_mem h2) hn.1
    · rcases List.mem_cons.1 hb with h2 | h2
      · exact absurd (by rw [← h2, ← e]; exact List.mem_map_of_mem h1) hn.1
      · exact eq_of_nodup_map hn.2 h1 h2 e

/-- A hash stands for the global namespace or for the one at a path. -/
def Node (db : Db) (h : BitVec 32) (path : List Bytes) : Prop :=
  (h = 0#32 ∧ path = []) ∨ ∃ n ∈ db.namespaces, n.hash = h ∧ parts n.text = path

theorem placed_iff {db : Db} (S : Spelled db) {text : Bytes} {parent h : BitVec 32} {path : List Bytes} (hp : Placed db text parent)
    (hn : Node db h path) : parent = h ↔ scopeOf text = path := by
  constructor
  · rintro rfl
    rcases hp.2 with ⟨h1, h2⟩ | ⟨n, h1, h2, h3⟩
    · rcases hn with ⟨_, h4⟩ | ⟨n', h3, h4, _⟩
      · rw [h1, h4]
      · exact absurd (h4.trans h2) (S.nonzero n' h3)
    · rcases hn with ⟨h4, _⟩ | ⟨n', h4, h5, h6⟩
      · exact absurd (h2.trans h4) (S.nonzero n h1)
      · have := eq_of_nodup_map S.hashes h1 h4 (h2.trans h5.symm)
        rw [← h3, this, h6]
  · rintro rfl
    rcases hp.2 with ⟨h1, h2⟩ | ⟨n, h1, h2, h3⟩
    · rcases hn with ⟨h3, _⟩ | ⟨n', _, _, h4⟩
      · rw [h2, h3]
      · rw [h1] at h4
        exact absurd h4 (parts_ne_nil _)
    · rcases hn with ⟨_, h4⟩ | ⟨n', h4, h5, h6⟩
      · rw [h4] at h3
        exact absurd h3 (parts_ne_nil _)
      · have := eq_of_nodup_map S.texts h1 h4 (parts_inj (h3.trans h6.symm))
        rw [← h2, this, h5]

theorem child_node {db : Db} (S : Spelled db) {h : BitVec 32} {path : List Bytes} (hn : Node db h path) {c : Ns}
    (hc : c ∈ children db.namespaces h) : c ∈ db.namespaces ∧ parts c.text = path ++ [localOf c.text] ∧
      Node db c.hash (path ++ [localOf c.text]) := by
  rw [children, List.mem_filter] at hc
  have hs := (placed_iff S (S.namespaces c hc.1) hn).1 (eq_of_beq hc.2)
  have hp : parts c.text = path ++ [localOf c.text] := by rw [parts_eq, hs]
  exact ⟨hc.1, hp, .inr ⟨c, hc.1, rfl, hp⟩⟩

theorem mem_children {db : Db} (S : Spelled db) {h : BitVec 32} {path : List Bytes} (hn : Node db h path) {c : Ns} {x : Bytes}
    (hc : c ∈ db.namespaces) (hp : parts c.text = path ++ [x]) : c ∈ children db.namespaces h := by
  rw [children, List.mem_filter]
  refine ⟨hc, beq_iff_eq.2 ((placed_iff S (S.namespaces c hc) hn).2 ?_)⟩
  rw [scopeOf, hp, List.dropLast_concat]

theorem known_eq (db : Db) (h : BitVec 32) : known db.namespaces h = inNamespace db h := rfl

theorem filter_parent {db : Db} (S : Spelled db) {h : BitVec 32} {path : List Bytes} (hn : Node db h path) {α : Type} (l : List α)
    (text : α → Bytes) (parent : α → BitVec 32) (hl : ∀ x ∈ l, Placed db (text x) (parent x)) :
    l.filter (fun x => parent x == h) = l.filter (fun x => scopeOf (text x) == path) := by
  refine List.filter_congr fun x hx => ?_
  have := placed_iff S (hl x hx) hn
  rw [Bool.eq_iff_iff, beq_iff_eq, beq_iff_eq, this]

/-! ### Declarations -/

/-- The declarations directly in a namespace. -/
def itemsAt (db : Db) (h : BitVec 32) (path : List Bytes) : List Decl :=
  (enumsOf db.namespaces db h).map (fun p => ⟨path, declaration p, true⟩) ++
    (classesOf db.namespaces db h).map (fun p => ⟨path, declaration p, false⟩)

/-- The enums of the database that are in namespaces. -/
def enumsIn (db : Db) : List En := db.enums.filter fun e => inNamespace db e.parent

/-- The classes of the database that are in namespaces. -/
def classesIn (db : Db) : List Cls := db.classes.filter fun c => inNamespace db c.parent

theorem placed_class {db : Db} (S : Spelled db) : ∀ c ∈ classesIn db, Placed db c.text c.parent := by
  intro c hc
  rw [classesIn, List.mem_filter] at hc
  exact S.classes c hc.1 hc.2

theorem placed_enum {db : Db} (S : Spelled db) : ∀ c ∈ enumsIn db, Placed db c.text c.parent := by
  intro c hc
  rw [enumsIn, List.mem_filter] at hc
  exact S.enums c hc.1 hc.2

theorem Placed.unscope {db : Db} {text : Bytes} {parent : BitVec 32} (h : Placed db text parent) : unscope text = localOf text :=
  unscope_eq fun x hx => (h.1 x hx).1

theorem class_items {db : Db} (S : Spelled db) {h : BitVec 32} {path : List Bytes} (hn : Node db h path) :
    ((classPrims db.namespaces db).filter (fun p => p.parent == h)).map (fun p => (⟨path, declaration p, false⟩ : Decl)) =
      ((classesIn db).map Cls.decl).filter (fun d => d.path == path) := by
  rw [classPrims, List.filter_map, List.map_map, List.filter_map]
  have e := filter_parent S hn (classesIn db) Cls.text Cls.parent (placed_class S)
  show ((classesIn db).filter (fun c => c.parent == h)).map _ = ((classesIn db).filter (fun c => scopeOf c.text == path)).map _
  rw [e]
  refine List.map_congr_left fun c hc => ?_
  rw [List.mem_filter] at hc
  have hs : scopeOf c.text = path := eq_of_beq hc.2
  have hu := (placed_class S c hc.1).unscope
  show (⟨path, keyword (if c.isClass then .cls else .struct) ++ unscope c.text ++ b!";", false⟩ : Decl) = c.decl
  rw [hu, Cls.decl, hs]
  cases c.isClass <;> rfl

theorem enum_items {db : Db} (S : Spelled db) {h : BitVec 32} {path : List Bytes} (hn : Node db h path) :
    (((enumPrims db.namespaces db).filter (fun p => p.parent == h && p.type == .enum)).map
        (fun p => (⟨path, declaration p, true⟩ : Decl)) ++
      ((enumPrims db.namespaces db).filter (fun p => p.parent == h && p.type != .enum)).map
        (fun p => (⟨path, declaration p, false⟩ : Decl))).Perm
      (((enumsIn db).map En.decl).filter (fun d => d.path == path)) := by
  have e := filter_parent S hn (enumsIn db) En.text En.parent (placed_enum S)
  have hu : ∀ x ∈ (enumsIn db).filter (fun x => x.parent == h), scopeOf x.text = path ∧ unscope x.text = localOf x.text := by
    intro x hx
    rw [e, List.mem_filter] at hx
    exact ⟨eq_of_beq hx.2, (placed_enum S x hx.1).unscope⟩
  have e3 : ((enumsIn db).map En.decl).filter (fun d => d.path == path) = ((enumsIn db).filter (fun x => x.parent == h)).map En.decl := by
    rw [List.filter_map, e]
    congr 1
    refine List.filter_congr fun x _ => ?_
    show ((En.decl x).path == path) = _
    rw [En.decl]
    cases x.scope <;> rfl
  have e1 : ((enumPrims db.namespaces db).filter (fun p => p.parent == h && p.type == .enum)).map
      (fun p => (⟨path, declaration p, true⟩ : Decl)) =
      (((enumsIn db).filter (fun x => x.parent == h)).filter (fun x => x.scope == .none)).map En.decl := by
    rw [enumPrims, List.filter_map, List.map_map]
    have : ∀ x : En, ((fun p : Prim => p.parent == h && p.type == .enum) ∘ fun e : En => ⟨e.text, e.hash, e.parent, enumType e.scope⟩) x =
        (x.scope == .none && x.parent == h) := by
      intro x
      show (x.parent == h && enumType x.scope == .enum) = _
      rw [Bool.and_comm]
      cases x.scope <;> rfl
    rw [funext this]
    show ((enumsIn db).filter _).map _ = _
    rw [List.filter_filter]
    refine List.map_congr_left fun c hc => ?_
    rw [List.mem_filter, Bool.and_eq_true] at hc
    obtain ⟨h1, h2⟩ := hu c (List.mem_filter.2 ⟨hc.1, hc.2.2⟩)
    have h3 : c.scope = .none := eq_of_beq hc.2.1
    show (⟨path, keyword (enumType c.scope) ++ unscope c.text ++ b!";", true⟩ : Decl) = c.decl
    rw [h2, En.decl, h3, h1]
    rfl
  have e2 : ((enumPrims db.namespaces db).filter (fun p => p.parent == h && p.type != .enum)).map
      (fun p => (⟨path, declaration p, false⟩ : Decl)) =
      (((enumsIn db).filter (fun x => x.parent == h)).filter (fun x => !(x.scope == .none))).map En.decl := by
    rw [enumPrims, List.filter_map, List.map_map]
    have : ∀ x : En, ((fun p : Prim => p.parent == h && p.type != .enum) ∘ fun e : En => ⟨e.text, e.hash, e.parent, enumType e.scope⟩) x =
        (!(x.scope == .none) && x.parent == h) := by
      intro x
      show (x.parent == h && enumType x.scope != .enum) = _
      rw [Bool.and_comm]
      cases x.scope <;> rfl
    rw [funext this]
    show ((enumsIn db).filter _).map _ = _
    rw [List.filter_filter]
    refine List.map_congr_left fun c hc => ?_
    rw [List.mem_filter, Bool.and_eq_true] at hc
    obtain ⟨h1, h2⟩ := hu c (List.mem_filter.2 ⟨hc.1, hc.2.2⟩)
    have h3 := hc.2.1
    show (⟨path, keyword (enumType c.scope) ++ unscope c.text ++ b!";", false⟩ : Decl) = c.decl
    rw [h2, En.decl, h1]
    cases hs : c.scope with
    | none => rw [hs] at h3; cases h3
    | cls => rfl
    | struct => rfl
  rw [e1, e2, e3, ← List.map_append]
  exact List.Perm.map _ (List.filter_append_perm _ _)

theorem itemsAt_perm {db : Db} (S : Spelled db) {h : BitVec 32} {path : List Bytes} (hn : Node db h path) :
    (itemsAt db h path).Perm ((decls db).filter (fun d => d.path == path)) := by
  show List.Perm _ (((classesIn db).map Cls.decl ++ (enumsIn db).map En.decl).filter _)
  rw [itemsAt, classesOf, enumsOf, List.map_append, List.filter_append, class_items S hn]
  refine (List.perm_append_comm_assoc _ _ _).trans (List.Perm.append_left _ (enum_items S hn))

end Clr.Gen
