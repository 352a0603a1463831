import Verif.Model.ObjectIterator
import Verif.Props.ObjectGroup
/-!
Property C44: object iteration.
-/
namespace Clr.ObjectIterator
open Clr.ObjectGroup

/-! ### Specification -/

/-- All objects of a tree of groups of depth at most `n`: each object of the group, followed by what
is inside it if it is a group. -/
def listing (heap : Heap) : Nat → Group → List Obj
  | 0, _ => []
  | n + 1, g => (live g).flatMap fun o =>
      o :: match heap o.addr with
        | some g' => listing heap n g'
        | none => []

/-- The groups form a finite tree of depth at most `n` below `g`. -/
def DepthLe (heap : Heap) : Nat → Group → Prop
  | 0, _ => False
  | n + 1, g => ∀ o ∈ live g, ∀ g', heap o.addr = some g' → DepthLe heap n g'

/-- An object is somewhere below a group. -/
inductive Inside (heap : Heap) : Group → Obj → Prop
  | here {g o} : o ∈ live g → Inside heap g o
  | deeper {g o g' p} : o ∈ live g → heap o.addr = some g' → Inside heap g' p → Inside heap g p

/-! ### Proofs -/

/-- What the theorems need to know about a group; every reachable group has it. -/
structure Good (g : Group) : Prop where
  len : g.tab.length = g.max
  count : g.nb = (live g).length

theorem good_of_reachable {g : Group} (h : Reachable g) : Good g := by
  obtain ⟨m, hm⟩ := h.refines
  exact ⟨hm.shape.len, hm.count⟩

def liveFrom (g : Group) (p : Nat) : List Obj := (g.tab.drop p).filterMap (·.obj)

theorem liveFrom_zero (g : Group) : liveFrom g 0 = live g := rfl

theorem nextSlot_spec (g : Group) (hlen : g.tab.length = g.max) (n p : Nat) (h : p + n = g.max) :
    (nextSlot g n p = none ∧ liveFrom g p = []) ∨
    (∃ q o, nextSlot g n p = some (q, o) ∧ q < g.max ∧ (∃ e, g.tab[q]? = some e ∧ e.obj = some o) ∧
      liveFrom g p = o :: liveFrom g (q + 1)) := by
  induction n generalizing p with
  | zero =>
    left
    refine ⟨rfl, ?_⟩
    unfold liveFrom
    rw [List.drop_eq_nil_of_le (by omega)]; rfl
  | succ n ih =>
    have hp : p < g.tab.length := by omega
    have hget : g.tab[p]? = some g.tab[p] := List.getElem?_eq_getElem hp
    have hdrop : liveFrom g p = (g.tab[p] :: g.tab.drop (p + 1)).filterMap (·.obj) := by
      unfold liveFrom
      rw [List.drop_eq_getElem_cons hp]
    unfold nextSlot
    rw [hget]
    simp only
    cases ho : g.tab[p].obj with
    | some o =>
      right
      refine ⟨p, o, rfl, by omega, ⟨_, hget, ho⟩, ?_⟩
      rw [hdrop, List.filterMap_cons, ho]; rfl
    | none =>
      have hd2 : liveFrom g p = liveFrom g (p + 1) := by
        rw [hdrop, List.filterMap_cons, ho]; rfl
      rcases ih (p + 1) (by omega) with ⟨h1, h2⟩ | ⟨q, o, h1, h2, h3, h4⟩
      · left; exact ⟨h1, hd2.trans h2⟩
      · right; exact ⟨q, o, h1, h2, h3, hd2.trans h4⟩

theorem listing_stable (heap : Heap) (n m : Nat) (g : Group) (h : DepthLe heap n g) (hm : n ≤ m) :
    listing heap m g = listing heap n g ∧ DepthLe heap m g := by
  induction n generalizing m g with
  | zero => exact h.elim
  | succ n ih =>
    cases m with
    | zero => omega
    | succ m =>
      constructor
      · simp only [listing]
        have : ∀ o ∈ live g, (o :: match heap o.addr with | some g' => listing heap m g' | none => []) =
            (o :: match heap o.addr with | some g' => listing heap n g' | none => []) := by
          intro o ho
          cases hh : heap o.addr with
          | none => rfl
          | some g' => simp only; rw [(ih m g' (h o ho g' hh) (by omega)).1]
        rw [List.flatMap_def, List.flatMap_def, List.map_congr_left this]
      · intro o ho g' hh
        exact (ih m g' (h o ho g' hh) (by omega)).2

/-- What hangs below one object. -/
def below (heap : Heap) (N : Nat) (o : Obj) : List Obj :=
  match heap o.addr with
  | some g' => listing heap N g'
  | none => []

/-- What remains to be visited from a position in a group, with the given stack. -/
def pending (heap : Heap) (N : Nat) (g : Group) (p : Nat) (st : List Group) : List Obj :=
  (liveFrom g p).flatMap (fun o => o :: below heap N o) ++ st.flatMap (listing heap N)

def Kids (heap : Heap) (N : Nat) (g : Group) : Prop :=
  ∀ o ∈ live g, ∀ g', heap o.addr = some g' → DepthLe heap N g'

def StackOk (heap : Heap) (N : Nat) (st : List Group) : Prop :=
  ∀ g ∈ st, Good g ∧ DepthLe heap N g

theorem kids_of_depth {heap : Heap} {N : Nat} {g : Group} (h : DepthLe heap N g) :
    Kids heap N g := by
  cases N with
  | zero => exact h.elim
  | succ n =>
    intro o ho g' hg'
    exact (listing_stable heap n (n + 1) g' (h o ho g' hg') (by omega)).2

theorem listing_eq {heap : Heap} {N : Nat} {g : Group} (h : DepthLe heap N g) :
    listing heap N g = (live g).flatMap (fun o => o :: below heap N o) := by
  rw [← (listing_stable heap N (N + 1) g h (by omega)).1]
  rfl

theorem below_push (heap : Heap) (hh : ∀ a g', heap a = some g' → Good g') (N : Nat)
    (o : Obj) (st : List Group) (hd : ∀ g', heap o.addr = some g' → DepthLe heap N g')
    (hst : StackOk heap N st) :
    (pushNested true heap o st).flatMap (listing heap N) =
      below heap N o ++ st.flatMap (listing heap N) ∧ StackOk heap N (pushNested true heap o st) := by
  unfold pushNested below
  simp only [if_true]
  cases hho : heap o.addr with
  | none => exact ⟨rfl, hst⟩
  | some g' =>
    simp only
    have hg := hh _ _ hho
    by_cases hnb : g'.nb = 0
    · rw [if_neg (by omega)]
      have hl : live g' = [] := by
        have := hg.count
        rw [hnb] at this
        exact List.length_eq_zero_iff.mp (by omega)
      have : listing heap N g' = [] := by
        cases N with
        | zero => rfl
        | succ N => simp [listing, hl]
      rw [this]
      exact ⟨rfl, hst⟩
    · rw [if_pos hnb]
      refine ⟨by simp, ?_⟩
      intro g hgm
      rcases List.mem_cons.mp hgm with rfl | hgm
      · exact ⟨hg, hd _ hho⟩
      · exact hst g hgm

theorem pending_step (heap : Heap) (N : Nat) (g : Group) (p q : Nat) (o : Obj) (st st1 : List Group)
    (h4 : liveFrom g p = o :: liveFrom g (q + 1))
    (h5 : st1.flatMap (listing heap N) = below heap N o ++ st.flatMap (listing heap N)) :
    (pending heap N g p st).Perm (o :: pending heap N g (q + 1) st1) := by
  unfold pending
  rw [h4, h5, List.flatMap_cons]
  simp only [List.cons_append]
  refine List.Perm.cons _ ?_
  generalize below heap N o = B
  generalize (liveFrom g (q + 1)).flatMap _ = R
  generalize st.flatMap _ = S
  rw [List.append_assoc, ← List.append_assoc R B S, ← List.append_assoc B R S]
  exact List.perm_append_comm.append_right S

/-- One recursive scan: either everything has been visited, or the iterator stands on an object. -/
theorem scan_rec (heap : Heap) (hh : ∀ a g', heap a = some g' → Good g') (N : Nat)
    (st : List Group) (g : Group) (p : Nat) (hg : Good g) (hp : p ≤ g.max)
    (hd : Kids heap N g) (hst : StackOk heap N st) :
    ((scan true heap g p st).group = none ∧ pending heap N g p st = []) ∨
    (∃ g1 q o st1, scan true heap g p st = ⟨some g1, q, st1⟩ ∧ Good g1 ∧ q < g1.max ∧
      (∃ e, g1.tab[q]? = some e ∧ e.obj = some o) ∧ Kids heap N g1 ∧ StackOk heap N st1 ∧
      (pending heap N g p st).Perm (o :: pending heap N g1 (q + 1) st1)) := by
  induction st generalizing g p with
  | nil =>
    rcases nextSlot_spec g hg.len (g.max - p) p (by omega) with ⟨h1, h2⟩ | ⟨q, o, h1, h2, h3, h4⟩
    · left
      refine ⟨by simp [scan, h1], ?_⟩
      unfold pending; rw [h2]; rfl
    · right
      obtain ⟨e, he, heo⟩ := h3
      have hbp := below_push heap hh N o [] (hd o (mem_live.mpr ⟨q, e, he, heo⟩)) hst
      exact ⟨g, q, o, _, by simp [scan, h1], hg, h2, ⟨e, he, heo⟩, hd, hbp.2,
        pending_step heap N g p q o _ _ h4 hbp.1⟩
  | cons g' st ih =>
    rcases nextSlot_spec g hg.len (g.max - p) p (by omega) with ⟨h1, h2⟩ | ⟨q, o, h1, h2, h3, h4⟩
    · have hg' := hst g' (by simp)
      have heq : pending heap N g p (g' :: st) = pending heap N g' 0 st := by
        unfold pending
        rw [h2, liveFrom_zero, ← listing_eq hg'.2, List.flatMap_cons]
        rfl
      have hs : scan true heap g p (g' :: st) = scan true heap g' 0 st := by simp [scan, h1]
      rw [heq, hs]
      exact ih g' 0 hg'.1 (Nat.zero_le _) (kids_of_depth hg'.2) (fun x hx => hst x (by simp [hx]))
    · right
      obtain ⟨e, he, heo⟩ := h3
      have hbp := below_push heap hh N o (g' :: st) (hd o (mem_live.mpr ⟨q, e, he, heo⟩)) hst
      exact ⟨g, q, o, _, by simp [scan, h1], hg, h2, ⟨e, he, heo⟩, hd, hbp.2,
        pending_step heap N g p q o _ _ h4 hbp.1⟩

theorem collect_rec (heap : Heap) (hh : ∀ a g', heap a = some g' → Good g') (N : Nat)
    (k : Nat) (st : List Group) (g : Group) (p : Nat) (hg : Good g) (hp : p ≤ g.max)
    (hd : Kids heap N g) (hst : StackOk heap N st) (hk : (pending heap N g p st).length = k) :
    ∃ vs : List Obj, vs.Perm (pending heap N g p st) ∧
      ∀ n, k < n → collect true heap n (scan true heap g p st) = some (.ok (vs.map some)) := by
  induction k generalizing st g p with
  | zero =>
    rcases scan_rec heap hh N st g p hg hp hd hst with ⟨h1, h2⟩ | ⟨g1, q, o, st1, h1, _, _, _, _, _, h7⟩
    · refine ⟨[], by rw [h2], ?_⟩
      intro n hn
      obtain ⟨m, rfl⟩ : ∃ m, n = m + 1 := ⟨n - 1, by omega⟩
      simp only [collect, h1]
      rfl
    · have := h7.length_eq
      simp at this; omega
  | succ k ih =>
    rcases scan_rec heap hh N st g p hg hp hd hst with ⟨h1, h2⟩ | ⟨g1, q, o, st1, h1, h2, h3, ⟨e, he, heo⟩, h5, h6, h7⟩
    · rw [h2] at hk; simp at hk
    · have hl := h7.length_eq
      rw [List.length_cons] at hl
      obtain ⟨vs, hv1, hv2⟩ := ih st1 g1 (q + 1) h2 (by omega) h5 h6 (by omega)
      refine ⟨o :: vs, (hv1.cons o).trans h7.symm, ?_⟩
      intro n hn
      obtain ⟨m, rfl⟩ : ∃ m, n = m + 1 := ⟨n - 1, by omega⟩
      rw [h1]
      simp only [collect, moveNext, getObject, he, heo]
      rw [hv2 m (by omega)]
      rfl

theorem scan_single (heap : Heap) (g : Group) (p : Nat) (hg : Good g) (hp : p ≤ g.max) :
    ((scan false heap g p []).group = none ∧ liveFrom g p = []) ∨
    (∃ q o, scan false heap g p [] = ⟨some g, q, []⟩ ∧ q < g.max ∧
      (∃ e, g.tab[q]? = some e ∧ e.obj = some o) ∧ liveFrom g p = o :: liveFrom g (q + 1)) := by
  rcases nextSlot_spec g hg.len (g.max - p) p (by omega) with ⟨h1, h2⟩ | ⟨q, o, h1, h2, h3, h4⟩
  · left; exact ⟨by simp [scan, h1], h2⟩
  · right; exact ⟨q, o, by simp [scan, h1, pushNested], h2, h3, h4⟩

theorem collect_single (heap : Heap) (g : Group) (hg : Good g) (k p : Nat) (hp : p ≤ g.max)
    (hk : (liveFrom g p).length = k) (n : Nat) (hn : k < n) :
    collect false heap n (scan false heap g p []) = some (.ok ((liveFrom g p).map some)) := by
  induction k generalizing p n with
  | zero =>
    obtain ⟨m, rfl⟩ : ∃ m, n = m + 1 := ⟨n - 1, by omega⟩
    rcases scan_single heap g p hg hp with ⟨h1, h2⟩ | ⟨q, o, h1, h2, h3, h4⟩
    · simp only [collect, h1, h2]; rfl
    · rw [h4] at hk; simp at hk
  | succ k ih =>
    obtain ⟨m, rfl⟩ : ∃ m, n = m + 1 := ⟨n - 1, by omega⟩
    rcases scan_single heap g p hg hp with ⟨h1, h2⟩ | ⟨q, o, h1, h2, ⟨e, he, heo⟩, h4⟩
    · rw [h2] at hk; simp at hk
    · rw [h4] at hk ⊢
      rw [h1]
      simp only [collect, moveNext, getObject, he, heo]
      rw [ih (q + 1) (by omega) (by simpa using hk) m (by omega)]
      rfl

/-! ### C44 -/

/-- C44, single iteration: the loop ends and visits exactly the objects in the group, each once,
in table order. -/
theorem C44_single_visits_each_once (heap : Heap) (g : Group) (hg : Reachable g) :
    (live g).Nodup ∧
    ∀ n, (live g).length < n → collect false heap n (start false heap g) = some (.ok ((live g).map some)) := by
  constructor
  · obtain ⟨m, hm⟩ := hg.refines
    exact List.Pairwise.of_map _ (fun a b hne heq => hne (by rw [heq])) hm.nodup
  · intro n hn
    exact collect_single heap g (good_of_reachable hg) _ 0 (Nat.zero_le _) rfl n hn

/-- C44, recursive iteration: over a finite tree of groups the loop ends and its visits are, up to
order, the listing of the tree. -/
theorem C44_recursive_visits_tree (heap : Heap) (g : Group) (hg : Reachable g)
    (hh : ∀ a g', heap a = some g' → Reachable g') (N : Nat) (hd : DepthLe heap N g) :
    ∃ vs : List Obj, vs.Perm (listing heap N g) ∧
      ∀ n, vs.length < n → collect true heap n (start true heap g) = some (.ok (vs.map some)) := by
  have hkids : Kids heap N g := kids_of_depth hd
  have heq : pending heap N g 0 [] = listing heap N g := by
    rw [listing_eq hd]; simp [pending, liveFrom_zero]
  obtain ⟨vs, h1, h2⟩ := collect_rec heap (fun a g' h => good_of_reachable (hh a g' h)) N _ [] g 0
    (good_of_reachable hg) (Nat.zero_le _) hkids (by intro x hx; cases hx) rfl
  rw [heq] at h1
  refine ⟨vs, h1, ?_⟩
  intro n hn
  apply h2
  rw [heq, ← h1.length_eq]; exact hn

/-- The listing of a tree contains exactly the objects inside it. -/
theorem C44_listing_is_inside (heap : Heap) (N : Nat) (g : Group) (hd : DepthLe heap N g) (o : Obj) :
    o ∈ listing heap N g ↔ Inside heap g o := by
  induction N generalizing g with
  | zero => exact hd.elim
  | succ n ih =>
    simp only [listing, List.mem_flatMap, List.mem_cons]
    constructor
    · rintro ⟨a, ha, rfl | h⟩
      · exact .here ha
      · cases hh : heap a.addr with
        | none => rw [hh] at h; cases h
        | some g' =>
          rw [hh] at h
          exact .deeper ha hh ((ih g' (hd a ha g' hh)).mp h)
    · intro h
      cases h with
      | here h => exact ⟨o, h, Or.inl rfl⟩
      | deeper ha hh h =>
        refine ⟨_, ha, Or.inr ?_⟩
        rw [hh]
        exact (ih _ (hd _ ha _ hh)).mpr h

/-! ### The array of pending groups behaves as a stack -/

/-- The array holds the given stack (top first): the array exists once something was pushed, has
`cap` elements and its first `nb` are the stack's elements from bottom to top. -/
def Holds {α : Type} (s : GroupStack α) (l : List α) : Prop :=
  s.nb = l.length ∧
  ((s.arr = none ∧ l = []) ∨
   ∃ arr, s.arr = some arr ∧ arr.length = s.cap ∧ 4 ≤ s.cap ∧ s.nb ≤ s.cap ∧
     ∀ i (h : i < l.reverse.length), arr[i]? = some (some l.reverse[i]))

theorem holds_new (α : Type) : Holds ({} : GroupStack α) [] := ⟨rfl, Or.inl ⟨rfl, rfl⟩⟩

theorem copyLoop_spec {α : Type} (old : List (Option α)) (n i : Nat) (new : List (Option α))
    (h1 : i + n ≤ old.length) (h2 : i + n ≤ new.length)
    (h3 : ∀ j, i ≤ j → j < i + n → ∃ a, old[j]? = some (some a)) :
    ∃ r, copyLoop old n i new = .ok r ∧ r.length = new.length ∧
      ∀ j, r[j]? = if i ≤ j ∧ j < i + n then old[j]? else new[j]? := by
  induction n generalizing i new with
  | zero =>
    refine ⟨new, rfl, rfl, ?_⟩
    intro j
    rw [if_neg (by omega)]
  | succ n ih =>
    obtain ⟨a, ha⟩ := h3 i (by omega) (by omega)
    obtain ⟨r, r1, r2, r3⟩ := ih (i + 1) (new.set i (some a)) (by omega) (by simp; omega)
      (fun j hj hj' => h3 j (by omega) (by omega))
    refine ⟨r, ?_, by simpa using r2, ?_⟩
    · simp only [copyLoop, ha, store, if_pos (show i < new.length by omega), Res.bind_ok]
      exact r1
    · intro j
      rw [r3 j]
      by_cases hij : j = i
      · subst hij
        rw [if_neg (by omega), if_pos (by omega), ha]
        rw [List.getElem?_set_self (by omega)]
      · rw [List.getElem?_set_ne (by omega)]
        by_cases hr : i ≤ j ∧ j < i + (n + 1)
        · rw [if_pos hr, if_pos (by omega)]
        · rw [if_neg hr, if_neg (by omega)]

/-- C44, memory safety of the pending stack: pushes never write outside the array (which grows when
full), pops on a non-empty stack return the last group pushed, for every sequence of pushes and
pops. -/
theorem C44_push_is_stack_push {α : Type} (s : GroupStack α) (l : List α) (h : Holds s l) (a : α) :
    ∃ s', push s a = .ok s' ∧ Holds s' (a :: l) := by
  obtain ⟨hn, ⟨h1, rfl⟩ | ⟨arr, h1, h2, h3, h4, h5⟩⟩ := h
  · refine ⟨{ arr := some ((List.replicate 4 none).set 0 (some a)), nb := 1, cap := 4 }, ?_, rfl, Or.inr ?_⟩
    · simp [push, h1, store]
    · refine ⟨_, rfl, rfl, by simp, by simp, ?_⟩
      intro i hi
      simp only [List.reverse_cons, List.reverse_nil, List.nil_append, List.length_cons,
        List.length_nil] at hi
      have : i = 0 := by omega
      subst this
      simp
  · have hset : ∀ (t : List (Option α)), s.nb < t.length →
        (∀ i (h : i < l.reverse.length), t[i]? = some (some l.reverse[i])) →
        ∀ i (h : i < (a :: l).reverse.length), (t.set s.nb (some a))[i]? = some (some (a :: l).reverse[i]) := by
      intro t ht hin i hi
      have hi' : i < l.length + 1 := by simpa using hi
      by_cases hlast : i = l.length
      · subst hlast
        rw [hn, List.getElem?_set_self (by omega)]
        simp
      · have hil : i < l.reverse.length := by simp; omega
        rw [List.getElem?_set_ne (by omega), hin i hil]
        simp only [List.reverse_cons]
        rw [List.getElem_append_left hil]
    by_cases hfull : s.nb = s.cap
    · obtain ⟨new, c1, c2, c3⟩ := copyLoop_spec arr s.cap 0 (List.replicate (s.cap * 2) none)
        (by omega) (by simp; omega) (by
          intro j _ hj
          exact ⟨_, h5 j (by simp; omega)⟩)
      have c2' : new.length = s.cap * 2 := by simpa using c2
      refine ⟨{ arr := some (new.set s.nb (some a)), nb := s.nb + 1, cap := s.cap * 2 }, ?_, ?_, Or.inr ?_⟩
      · simp only [push, h1, if_pos hfull, c1, Res.bind_ok, store]
        rw [if_pos (by omega)]
        rfl
      · simp [hn]
      · refine ⟨_, rfl, by simpa using c2', by simp; omega, by simp; omega, ?_⟩
        apply hset new (by omega)
        intro i hi
        have : i < l.length := by simpa using hi
        rw [c3 i, if_pos (by omega), h5 i hi]
    · refine ⟨{ s with arr := some (arr.set s.nb (some a)), nb := s.nb + 1 }, ?_, ?_, Or.inr ?_⟩
      · simp only [push, h1, if_neg hfull, store]
        rw [if_pos (by omega)]
        rfl
      · simp [hn]
      · refine ⟨_, rfl, by simpa using h2, by simpa using h3, by simp; omega, ?_⟩
        exact hset arr (by omega) h5

theorem C44_pop_is_stack_pop {α : Type} (s : GroupStack α) (l : List α) (a : α)
    (h : Holds s (a :: l)) : ∃ s', pop s = .ok (a, s') ∧ Holds s' l := by
  obtain ⟨hn, ⟨_, h1⟩ | ⟨arr, h1, h2, h3, h4, h5⟩⟩ := h
  · cases h1
  · have hn' : s.nb = l.length + 1 := by simpa using hn
    have hget := h5 l.length (by simp)
    have hlast : (a :: l).reverse[l.length]'(by simp) = a := by simp
    rw [hlast] at hget
    refine ⟨{ s with nb := s.nb - 1 }, ?_, ?_, Or.inr ?_⟩
    · simp only [pop, if_pos (show s.nb > 0 by omega), h1]
      rw [show s.nb - 1 = l.length by omega, hget]
    · show s.nb - 1 = _; omega
    · refine ⟨arr, h1, h2, h3, by show s.nb - 1 ≤ s.cap; omega, ?_⟩
      intro i hi
      have := h5 i (by simp at hi ⊢; omega)
      rw [this]
      simp only [List.reverse_cons]
      rw [List.getElem_append_left hi]

/-! ### Non-vacuity -/

example : DepthLe nest3 3 (single ⟨16, 1⟩) := by
  have h1 : live (single ⟨16, 1⟩) = [⟨16, 1⟩] := by decide +kernel
  have h2 : live (single ⟨32, 2⟩) = [⟨32, 2⟩] := by decide +kernel
  have h3 : live (single ⟨48, 3⟩) = [⟨48, 3⟩] := by decide +kernel
  intro o ho g' hg'
  rw [h1] at ho; simp at ho; subst ho
  simp [nest3] at hg'; subst hg'
  intro o ho g' hg'
  rw [h2] at ho; simp at ho; subst ho
  simp [nest3] at hg'; subst hg'
  intro o ho g' hg'
  rw [h3] at ho; simp at ho; subst ho
  simp [nest3] at hg'
example : listing nest3 3 (single ⟨16, 1⟩) = [⟨16, 1⟩, ⟨32, 2⟩, ⟨48, 3⟩] := by decide +kernel
example : collect true nest3 9 (start true nest3 (single ⟨16, 1⟩)) =
    some (.ok [some ⟨16, 1⟩, some ⟨32, 2⟩, some ⟨48, 3⟩]) := by decide +kernel

end Clr.ObjectIterator
