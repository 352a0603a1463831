import Verif.Proofs.CodeGen

/-!
Forward declarations: the tree of namespaces.
-/
namespace Clr.Gen

/-! ### Lists -/

theorem partition {α κ : Type} (l : List α) (P0 : α → Bool) (Q : κ → α → Bool) : ∀ (K : List κ) (P : α → Bool),
    (∀ x ∈ l, P x = (P0 x || K.any fun k => Q k x)) → (∀ x ∈ l, P0 x = true → ∀ k ∈ K, Q k x = false) →
    K.Pairwise (fun a b => ∀ x ∈ l, Q a x = true → Q b x = false) →
    (l.filter P).Perm (K.flatMap (fun k => l.filter (Q k)) ++ l.filter P0)
  | [], P, hP, _, _ => by
    rw [List.filter_congr (q := P0) fun x hx => by rw [hP x hx]; simp]
    simp
  | k :: K, P, hP, h0, hQ => by
    rw [List.pairwise_cons] at hQ
    have ih := partition l P0 Q K (fun x => P x && !Q k x) (fun x hx => by
        rw [hP x hx, List.any_cons]
        cases hk : Q k x with
        | false => simp
        | true =>
          have h1 : P0 x = false := by
            cases hp : P0 x with
            | false => rfl
            | true => rw [h0 x hx hp k (List.mem_cons_self ..)] at hk; cases hk
          have h2 : (K.any fun k => Q k x) = false := by
            rw [List.any_eq_false]
            intro j hj
            rw [hQ.1 j hj x hx hk]
            decide
          rw [h1, h2]
          rfl)
      (fun x hx hp j hj => h0 x hx hp j (List.mem_cons_of_mem _ hj)) hQ.2
    rw [List.flatMap_cons, List.append_assoc]
    refine (List.filter_append_perm (Q k) (l.filter P)).symm.trans ?_
    rw [List.filter_filter, List.filter_filter]
    rw [List.filter_congr (p := fun a => Q k a && P a) (q := Q k) fun x hx => by
      rw [hP x hx, List.any_cons]
      cases Q k x <;> simp]
    refine List.Perm.append_left _ ?_
    rw [List.filter_congr (p := fun a => !Q k a && P a) (q := fun x => P x && !Q k x) fun x _ => Bool.and_comm ..]
    exact ih

theorem filter_none {α : Type} (l : List α) : l.filter (fun _ => false) = [] := List.filter_eq_nil_iff.2 (fun _ _ h => by cases h)

theorem perm_flatMap {κ β : Type} {f g : κ → List β} : ∀ {K : List κ}, (∀ k ∈ K, (f k).Perm (g k)) → (K.flatMap f).Perm (K.flatMap g)
  | [], _ => .nil
  | k :: K, h => by
    rw [List.flatMap_cons, List.flatMap_cons]
    exact (h k (List.mem_cons_self ..)).append (perm_flatMap fun j hj => h j (List.mem_cons_of_mem _ hj))

theorem prefix_same {α : Type} {a b c : List α} (ha : a <+: c) (hb : b <+: c) (h : a.length = b.length) : a = b :=
  (List.prefix_of_prefix_length_le ha hb (Nat.le_of_eq h)).eq_of_length h

/-! ### Namespaces with something below them -/

/-- Whether there is a declaration below a path. -/
def hasBelow (db : Db) (path : List Bytes) : Bool := (decls db).any fun d => path.isPrefixOf d.path

theorem ns_prefix {db : Db} (S : Spelled db) : ∀ (k : Nat) {n : Ns} {q : List Bytes}, n ∈ db.namespaces → (parts n.text).length ≤ k → q ≠ [] →
    q <+: parts n.text → ∃ n' ∈ db.namespaces, parts n'.text = q
  | 0, n, q, _, hk, _, _ => by
    have := parts_ne_nil n.text
    exact absurd (List.length_eq_zero_iff.1 (Nat.le_zero.1 hk)) this
  | k + 1, n, q, hn, hk, hq, hp => by
    by_cases he : q = parts n.text
    · exact ⟨n, hn, he.symm⟩
    · have hp' : q <+: scopeOf n.text := by
        obtain ⟨r, hr⟩ := hp
        rcases List.eq_nil_or_concat r with rfl | ⟨r', x, rfl⟩
        · rw [List.append_nil] at hr
          exact absurd hr he
        · refine ⟨r', ?_⟩
          rw [scopeOf, ← hr, List.concat_eq_append, ← List.append_assoc, List.dropLast_concat]
      rcases (S.namespaces n hn).2 with ⟨h1, _⟩ | ⟨n', h1, _, h3⟩
      · rw [h1] at hp'
        exact absurd (List.prefix_nil.1 hp') hq
      · rw [← h3] at hp'
        refine ns_prefix S k h1 ?_ hq hp'
        rw [h3, scopeOf, List.length_dropLast]
        omega

theorem decl_path {db : Db} (S : Spelled db) {d : Decl} (hd : d ∈ decls db) : d.path = [] ∨ ∃ n ∈ db.namespaces, parts n.text = d.path := by
  have key : ∀ {text : Bytes} {parent : BitVec 32}, Placed db text parent → scopeOf text = d.path →
      d.path = [] ∨ ∃ n ∈ db.namespaces, parts n.text = d.path := by
    intro text parent hp he
    rcases hp.2 with ⟨h1, _⟩ | ⟨n, h1, _, h3⟩
    · exact .inl (he ▸ h1)
    · exact .inr ⟨n, h1, h3.trans he⟩
  rcases List.mem_append.1 hd with h | h
  · obtain ⟨c, hc, rfl⟩ := List.mem_map.1 h
    exact key (placed_class S c hc) rfl
  · obtain ⟨e, he, rfl⟩ := List.mem_map.1 h
    refine key (placed_enum S e he) ?_
    rw [En.decl]
    cases e.scope <;> rfl

theorem decl_prefix {db : Db} (S : Spelled db) {d : Decl} (hd : d ∈ decls db) {q : List Bytes} (hq : q ≠ []) (hp : q <+: d.path) :
    ∃ n ∈ db.namespaces, parts n.text = q := by
  rcases decl_path S hd with h | ⟨n, h1, h2⟩
  · rw [h] at hp
    exact absurd (List.prefix_nil.1 hp) hq
  · rw [← h2] at hp
    exact ns_prefix S _ h1 (Nat.le_refl _) hq hp

/-- A list below a path is at the path or below a longer one. -/
theorem prefix_cases {α : Type} {p q : List α} (h : p <+: q) : p = q ∨ ∃ x, p ++ [x] <+: q := by
  obtain ⟨r, rfl⟩ := h
  cases r with
  | nil => exact .inl (List.append_nil p).symm
  | cons x r => exact .inr ⟨x, ⟨r, by rw [List.append_assoc]; rfl⟩⟩

theorem hasBelow_iff {db : Db} {path : List Bytes} : hasBelow db path = true ↔ ∃ d ∈ decls db, path <+: d.path := by
  rw [hasBelow, List.any_eq_true]
  simp only [List.isPrefixOf_iff_prefix]

theorem hasBelow_node {db : Db} (S : Spelled db) {h : BitVec 32} {path : List Bytes} (hn : Node db h path) :
    hasBelow db path = true ↔ (∃ d ∈ decls db, d.path = path) ∨ ∃ c ∈ children db.namespaces h, hasBelow db (parts c.text) = true := by
  rw [hasBelow_iff]
  constructor
  · rintro ⟨d, hd, hp⟩
    rcases prefix_cases hp with h | ⟨x, hx⟩
    · exact .inl ⟨d, hd, h.symm⟩
    · obtain ⟨c, hc, he⟩ := decl_prefix S hd (q := path ++ [x]) (by simp) hx
      refine .inr ⟨c, mem_children S hn hc he, hasBelow_iff.2 ⟨d, hd, ?_⟩⟩
      rw [he]
      exact hx
  · rintro (⟨d, hd, he⟩ | ⟨c, hc, hb⟩)
    · exact ⟨d, hd, he ▸ List.prefix_refl _⟩
    · obtain ⟨d, hd, hp⟩ := hasBelow_iff.1 hb
      rw [(child_node S hn hc).2.1] at hp
      exact ⟨d, hd, (List.prefix_append _ _).trans hp⟩

/-- The sum of the lengths of all names. -/
def total (db : Db) : Nat := (db.namespaces.map fun n => n.text.length).sum

theorem le_sum {l : List Nat} {n : Nat} (h : n ∈ l) : n ≤ l.sum := by
  induction l with
  | nil => cases h
  | cons x l ih =>
    rw [List.sum_cons]
    rcases List.mem_cons.1 h with rfl | h
    · omega
    · have := ih h; omega

theorem node_length {db : Db} {h : BitVec 32} {path : List Bytes} (hn : Node db h path) : path.length ≤ total db + 1 := by
  rcases hn with ⟨_, rfl⟩ | ⟨n, h1, _, rfl⟩
  · exact Nat.zero_le _
  · have h2 := le_sum (List.mem_map_of_mem (f := fun n : Ns => n.text.length) h1)
    have h3 := parts_length n.text
    exact Nat.le_trans h3 (Nat.succ_le_succ h2)

theorem nbPrimitives_eq {db : Db} (S : Spelled db) {h : BitVec 32} {path : List Bytes} (hn : Node db h path) :
    (nbPrimitives db.namespaces db h == 0) = true ↔ ¬ ∃ d ∈ decls db, d.path = path := by
  have h1 := (itemsAt_perm S hn).length_eq
  rw [itemsAt, List.length_append, List.length_map, List.length_map, Nat.add_comm] at h1
  rw [beq_iff_eq]
  show (classesOf db.namespaces db h).length + (enumsOf db.namespaces db h).length = 0 ↔ _
  rw [h1, List.length_eq_zero_iff, List.filter_eq_nil_iff]
  constructor
  · rintro h ⟨d, hd, he⟩
    exact h d hd (beq_iff_eq.2 he)
  · intro h d hd he
    exact h ⟨d, hd, eq_of_beq he⟩

theorem remaining_perm {db : Db} (S : Spelled db) : ∀ (n : Nat) {h : BitVec 32} {path : List Bytes}, Node db h path →
    total db + 2 ≤ n + path.length →
    (remaining db.namespaces db n h).Perm ((children db.namespaces h).filter fun c => hasBelow db (parts c.text))
  | 0, h, path, hn, hf => by have := node_length hn; omega
  | n + 1, h, path, hn, hf => by
    rw [remaining]
    refine (pruneLoop_perm _ _ _ _ (by omega) (by simp)).trans ?_
    refine List.Perm.of_eq (List.filter_congr fun c hc => ?_)
    obtain ⟨h1, h2, h3⟩ := child_node S hn hc
    have ih := remaining_perm S n h3 (by rw [List.length_append]; simp only [List.length_cons, List.length_nil]; omega)
    have hb := hasBelow_node S h3
    rw [← h2] at hb
    have h4 := nbPrimitives_eq S h3
    rw [← h2] at h4
    have h5 : (remaining db.namespaces db n c.hash).isEmpty = true ↔
        ¬ ∃ x ∈ children db.namespaces c.hash, hasBelow db (parts x.text) = true := by
      rw [List.isEmpty_iff]
      constructor
      · rintro he ⟨x, hx, hy⟩
        rw [he] at ih
        have := ih.nil_eq
        have hm : x ∈ (children db.namespaces c.hash).filter fun c => hasBelow db (parts c.text) := List.mem_filter.2 ⟨hx, hy⟩
        rw [← this] at hm
        cases hm
      · intro hno
        have : (children db.namespaces c.hash).filter (fun c => hasBelow db (parts c.text)) = [] :=
          List.filter_eq_nil_iff.2 fun x hx hy => hno ⟨x, hx, hy⟩
        rw [this] at ih
        exact ih.eq_nil
    show (!((remaining db.namespaces db n c.hash).isEmpty && nbPrimitives db.namespaces db c.hash == 0)) = _
    rw [Bool.eq_iff_iff, Bool.not_eq_true', Bool.and_eq_false_iff, ← Bool.not_eq_true, ← Bool.not_eq_true, h5, h4, hb]
    simp only [Classical.not_not]
    exact Or.comm

/-- What remains of the children. -/
theorem remaining_facts {db : Db} (S : Spelled db) {n : Nat} {h : BitVec 32} {path : List Bytes} (hn : Node db h path)
    (hf : total db + 2 ≤ n + path.length) : (remaining db.namespaces db n h).Nodup ∧
      ∀ c, c ∈ remaining db.namespaces db n h ↔ c ∈ children db.namespaces h ∧ hasBelow db (parts c.text) = true := by
  have hp := remaining_perm S n hn hf
  refine ⟨?_, fun c => ?_⟩
  · rw [hp.nodup_iff]
    refine List.Nodup.sublist List.filter_sublist (List.Nodup.sublist List.filter_sublist ?_)
    exact List.Pairwise.of_map _ (fun a b h e => h (by rw [e])) S.hashes
  · rw [hp.mem_iff, List.mem_filter]

/-- Children with a common descendant are the same. -/
theorem kids_disjoint {db : Db} (S : Spelled db) {n : Nat} {h : BitVec 32} {path : List Bytes} (hn : Node db h path)
    (hf : total db + 2 ≤ n + path.length) {α : Type} (l : List α) (f : α → List Bytes) :
    (remaining db.namespaces db n h).Pairwise
      (fun a b => ∀ x ∈ l, (parts a.text).isPrefixOf (f x) = true → (parts b.text).isPrefixOf (f x) = false) := by
  obtain ⟨h1, h2⟩ := remaining_facts S hn hf
  refine List.Pairwise.imp_of_mem ?_ h1
  intro a b ha hb hne x _ hx
  cases hy : (parts b.text).isPrefixOf (f x) with
  | false => rfl
  | true =>
    exfalso
    obtain ⟨a1, a2, _⟩ := child_node S hn ((h2 a).1 ha).1
    obtain ⟨b1, b2, _⟩ := child_node S hn ((h2 b).1 hb).1
    have := prefix_same (List.isPrefixOf_iff_prefix.1 hx) (List.isPrefixOf_iff_prefix.1 hy) (by rw [a2, b2]; simp)
    exact hne (eq_of_nodup_map S.texts a1 b1 (parts_inj this))

/-! ### What is generated -/

/-- The declarations generated for a namespace. -/
def declaredAt (db : Db) : Nat → BitVec 32 → List Bytes → List Decl
  | 0, _, _ => []
  | n + 1, h, path =>
    (remaining db.namespaces db (n + 1) h).flatMap (fun c => declaredAt db n c.hash (path ++ [localOf c.text])) ++ itemsAt db h path

/-- The namespaces opened in a namespace. -/
def openedAt (db : Db) : Nat → BitVec 32 → List Bytes → List (List Bytes)
  | 0, _, _ => []
  | n + 1, h, path =>
    (remaining db.namespaces db (n + 1) h).flatMap
      (fun c => (path ++ [localOf c.text]) :: openedAt db n c.hash (path ++ [localOf c.text]))

theorem declaredAt_perm {db : Db} (S : Spelled db) : ∀ (n : Nat) {h : BitVec 32} {path : List Bytes}, Node db h path →
    total db + 2 ≤ n + path.length → (declaredAt db n h path).Perm ((decls db).filter fun d => path.isPrefixOf d.path)
  | 0, h, path, hn, hf => by have := node_length hn; omega
  | n + 1, h, path, hn, hf => by
    obtain ⟨_, h2⟩ := remaining_facts S hn hf
    rw [declaredAt]
    refine .trans ?_ (partition (decls db) (fun d => d.path == path) (fun c d => (parts c.text).isPrefixOf d.path)
      (remaining db.namespaces db (n + 1) h) _ ?_ ?_ (kids_disjoint S hn hf _ _)).symm
    · refine List.Perm.append (perm_flatMap fun c hc => ?_) (itemsAt_perm S hn)
      obtain ⟨_, h4, h5⟩ := child_node S hn ((h2 c).1 hc).1
      rw [h4]
      exact declaredAt_perm S n h5 (by rw [List.length_append]; simp only [List.length_cons, List.length_nil]; omega)
    · intro d hd
      rw [Bool.eq_iff_iff, Bool.or_eq_true, List.any_eq_true, List.isPrefixOf_iff_prefix, beq_iff_eq]
      constructor
      · intro hp
        rcases prefix_cases hp with h | ⟨x, hx⟩
        · exact .inl h.symm
        · obtain ⟨c, hc, he⟩ := decl_prefix S hd (q := path ++ [x]) (by simp) hx
          refine .inr ⟨c, (h2 c).2 ⟨mem_children S hn hc he, hasBelow_iff.2 ⟨d, hd, he ▸ hx⟩⟩, ?_⟩
          rw [List.isPrefixOf_iff_prefix, he]
          exact hx
      · rintro (h | ⟨c, hc, hp⟩)
        · exact h ▸ List.prefix_refl _
        · obtain ⟨_, h4, h5⟩ := child_node S hn ((h2 c).1 hc).1
          rw [h4, List.isPrefixOf_iff_prefix] at hp
          exact (List.prefix_append _ _).trans hp
    · intro d hd he c hc
      obtain ⟨_, h4, h5⟩ := child_node S hn ((h2 c).1 hc).1
      rw [← Bool.not_eq_true, List.isPrefixOf_iff_prefix, eq_of_beq he, h4]
      intro hp
      have := hp.length_le
      simp only [List.length_append, List.length_cons, List.length_nil] at this
      omega

theorem filter_key {α β : Type} [BEq β] [LawfulBEq β] {f : α → β} : ∀ {l : List α} {a : α}, (l.map f).Nodup → a ∈ l →
    l.filter (fun x => f x == f a) = [a]
  | [], _, _, h => absurd h (by simp)
  | x :: l, a, hn, ha => by
    rw [List.map_cons, List.nodup_cons] at hn
    rw [List.filter_cons]
    by_cases hx : f x = f a
    · have : x = a := eq_of_nodup_map (l := x :: l) (by rw [List.map_cons, List.nodup_cons]; exact hn) (List.mem_cons_self ..) ha hx
      subst this
      rw [if_pos (beq_iff_eq.2 rfl)]
      congr 1
      rw [List.filter_eq_nil_iff]
      intro y hy he
      exact hn.1 (eq_of_beq he ▸ List.mem_map_of_mem hy)
    · rw [if_neg (by rw [beq_iff_eq]; exact hx)]
      rcases List.mem_cons.1 ha with rfl | ha
      · exact absurd rfl hx
      · exact filter_key hn.2 ha

/-- The namespaces that have something below them and are inside a path. -/
def inside (db : Db) (path : List Bytes) : List Ns :=
  (db.namespaces.filter fun n => hasBelow db (parts n.text)).filter fun n => path.isPrefixOf (parts n.text) && !(parts n.text == path)

theorem openedAt_perm {db : Db} (S : Spelled db) : ∀ (n : Nat) {h : BitVec 32} {path : List Bytes}, Node db h path →
    total db + 2 ≤ n + path.length → (openedAt db n h path).Perm ((inside db path).map fun n => parts n.text)
  | 0, h, path, hn, hf => by have := node_length hn; omega
  | n + 1, h, path, hn, hf => by
    obtain ⟨_, h2⟩ := remaining_facts S hn hf
    rw [openedAt]
    have hpart := partition (db.namespaces.filter fun n => hasBelow db (parts n.text)) (fun _ => false)
      (fun (c x : Ns) => (parts c.text).isPrefixOf (parts x.text))
      (remaining db.namespaces db (n + 1) h) (fun x => path.isPrefixOf (parts x.text) && !(parts x.text == path)) ?_ ?_
      (kids_disjoint S hn hf _ fun x : Ns => parts x.text)
    · refine .trans ?_ (hpart.map _).symm
      rw [filter_none, List.append_nil, List.map_flatMap]
      refine perm_flatMap fun c hc => ?_
      obtain ⟨h3, h4, h5⟩ := child_node S hn ((h2 c).1 hc).1
      have hb := ((h2 c).1 hc).2
      have ih := openedAt_perm S n h5 (by rw [List.length_append]; simp only [List.length_cons, List.length_nil]; omega)
      rw [← h4] at ih
      rw [← h4]
      have hc' : c ∈ db.namespaces.filter fun n => hasBelow db (parts n.text) := List.mem_filter.2 ⟨h3, hb⟩
      refine .trans (List.Perm.cons _ ih) ?_
      rw [← List.map_cons (f := fun n : Ns => parts n.text)]
      refine List.Perm.map _ ?_
      refine .trans ?_ (List.filter_append_perm (fun x : Ns => parts x.text == parts c.text) _)
      have hnd : ((db.namespaces.filter fun n => hasBelow db (parts n.text)).map Ns.text).Nodup :=
        List.Nodup.sublist (List.filter_sublist.map _) S.texts
      rw [inside]
      generalize (db.namespaces.filter fun n => hasBelow db (parts n.text)) = l at hc' hnd
      rw [List.filter_filter, List.filter_filter]
      have e1 : l.filter
          (fun x => parts x.text == parts c.text && (parts c.text).isPrefixOf (parts x.text)) = [c] := by
        rw [List.filter_congr (q := fun x : Ns => x.text == c.text)]
        · refine filter_key (f := Ns.text) hnd hc'
        · intro x _
          rw [Bool.eq_iff_iff, Bool.and_eq_true, beq_iff_eq, beq_iff_eq, List.isPrefixOf_iff_prefix]
          exact ⟨fun h => parts_inj h.1, fun h => by rw [h]; exact ⟨rfl, List.prefix_refl _⟩⟩
      rw [e1]
      refine List.Perm.cons _ ?_
      exact List.Perm.of_eq (List.filter_congr fun x _ => Bool.and_comm ..)
    · intro x hx
      rw [List.mem_filter] at hx
      rw [Bool.false_or, Bool.eq_iff_iff, Bool.and_eq_true, List.any_eq_true, List.isPrefixOf_iff_prefix, Bool.not_eq_true',
        ← Bool.not_eq_true, beq_iff_eq]
      constructor
      · rintro ⟨hp, hne⟩
        rcases prefix_cases hp with h | ⟨y, hy⟩
        · exact absurd h.symm hne
        · obtain ⟨c, hc, he⟩ := ns_prefix S _ hx.1 (Nat.le_refl _) (q := path ++ [y]) (by simp) hy
          obtain ⟨d, hd, hdp⟩ := hasBelow_iff.1 hx.2
          refine ⟨c, (h2 c).2 ⟨mem_children S hn hc he, hasBelow_iff.2 ⟨d, hd, he ▸ hy.trans hdp⟩⟩, ?_⟩
          rw [List.isPrefixOf_iff_prefix, he]
          exact hy
      · rintro ⟨c, hc, hp⟩
        obtain ⟨_, h4, h5⟩ := child_node S hn ((h2 c).1 hc).1
        rw [h4, List.isPrefixOf_iff_prefix] at hp
        refine ⟨(List.prefix_append _ _).trans hp, fun he => ?_⟩
        rw [he] at hp
        have := hp.length_le
        simp only [List.length_append, List.length_cons, List.length_nil] at this
        omega
    · intro x _ h
      cases h

end Clr.Gen
