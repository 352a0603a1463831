import Verif.Proofs.ObjectGroup
/-!
Properties C40 - C43: object groups.
-/
namespace Clr.ObjectGroup

/-! ### Specification: a partial map from ids to objects -/

/-- What a map does on each operation. -/
def specStep (m : Nat → Option Obj) : Op → Nat → Option Obj
  | .add o => fun u => if u = o.uid then some o else m u
  | .remove o => fun u => if u = o.uid then none else m u

/-- Adding needs a non-zero id that is not in use; a named object is removed only while it is in
the group. Unnamed objects (id 0) are never in a group and may be "removed" freely. -/
def Allowed (m : Nat → Option Obj) : Op → Prop
  | .add o => o.uid ≠ 0 ∧ m o.uid = none
  | .remove o => o.uid = 0 ∨ m o.uid = some o

def specRun (m : Nat → Option Obj) (ops : List Op) : Nat → Option Obj := ops.foldl specStep m

def AllAllowed : (Nat → Option Obj) → List Op → Prop
  | _, [] => True
  | m, op :: ops => Allowed m op ∧ AllAllowed (specStep m op) ops

/-- The empty map. -/
def empty : Nat → Option Obj := fun _ => none

/-! ### C40 -/

structure Refines (g : Group) (m : Nat → Option Obj) : Prop where
  shape : Shape g
  clean : Clean g
  nodup : ((live g).map (·.uid)).Nodup
  count : g.nb = (live g).length
  mem : ∀ u o, m u = some o ↔ (o ∈ live g ∧ o.uid = u)

theorem refines_init : Refines init empty where
  shape := shape_init
  clean := clean_init
  nodup := by rw [live_init]; exact List.nodup_nil
  count := by rw [live_init]; rfl
  mem := by intro u o; rw [live_init]; simp [empty]

theorem refines_step {g : Group} {m : Nat → Option Obj} (h : Refines g m) (op : Op)
    (ha : Allowed m op) : ∃ g', step g op = some g' ∧ Refines g' (specStep m op) := by
  cases op with
  | add o =>
    obtain ⟨h0, hn⟩ := ha
    have hfree : ∀ p ∈ live g, p.uid ≠ o.uid := by
      intro p hp heq
      rw [(h.mem o.uid p).mpr ⟨hp, heq⟩] at hn; cases hn
    have hnd : ((o :: live g).map (·.uid)).Nodup := by
      rw [List.map_cons, List.nodup_cons]
      refine ⟨?_, h.nodup⟩
      intro hm
      obtain ⟨p, hp, heq⟩ := List.mem_map.mp hm
      exact hfree p hp heq
    obtain ⟨g', h1, h2, h3, h4, h5⟩ := add_spec 0 g h.shape o h0
    refine ⟨g', ?_, h2, h4 h.clean hnd, (perm_uids h3).mpr hnd, h5 h.count, ?_⟩
    · simp only [step, addObject, if_neg h0]; exact h1
    · intro u p
      rw [h3.mem_iff]
      show (if u = o.uid then some o else m u) = some p ↔ _
      by_cases hu : u = o.uid
      · rw [if_pos hu]
        constructor
        · intro hp; injection hp with hp; subst hp; exact ⟨by simp, hu.symm⟩
        · rintro ⟨hp, hpu⟩
          rcases List.mem_cons.mp hp with rfl | hp
          · rfl
          · exact absurd (hpu.trans hu) (hfree p hp)
      · rw [if_neg hu, h.mem u p, List.mem_cons]
        constructor
        · rintro ⟨a, b⟩; exact ⟨Or.inr a, b⟩
        · rintro ⟨rfl | a, b⟩
          · exact absurd b.symm hu
          · exact ⟨a, b⟩
  | remove o =>
    by_cases h0 : o.uid = 0
    · refine ⟨g, by simp [step, removeObject, h0], h.shape, h.clean, h.nodup, h.count, ?_⟩
      intro u p
      show (if u = o.uid then none else m u) = some p ↔ _
      by_cases hu : u = o.uid
      · rw [if_pos hu]
        constructor
        · intro hc; cases hc
        · rintro ⟨a, b⟩; exact absurd (b.trans (hu.trans h0)) (h.shape.uid_ne a)
      · rw [if_neg hu]; exact h.mem u p
    · have ho : m o.uid = some o := ha.resolve_left h0
      have hm := ((h.mem o.uid o).mp ho).1
      obtain ⟨g', h1, h2, h3, h4, h5⟩ := remove_exact h.shape h.clean h.nodup o hm
      have hnd : ((o :: live g').map (·.uid)).Nodup := (perm_uids h4).mp h.nodup
      have hnd' := hnd
      rw [List.map_cons, List.nodup_cons] at hnd'
      refine ⟨g', by simp [step, removeObject, h0, h1], h2, h3, hnd'.2, ?_, ?_⟩
      · rw [h5, h.count, h4.length_eq, List.length_cons]; omega
      · intro u p
        show (if u = o.uid then none else m u) = some p ↔ _
        have hne : ∀ p ∈ live g', p.uid ≠ o.uid := by
          intro p hp heq
          apply hnd'.1
          rw [← heq]; exact List.mem_map_of_mem hp
        by_cases hu : u = o.uid
        · rw [if_pos hu]
          constructor
          · intro hc; cases hc
          · rintro ⟨a, b⟩; exact absurd (b.trans hu) (hne p a)
        · rw [if_neg hu, h.mem u p, h4.mem_iff, List.mem_cons]
          constructor
          · rintro ⟨rfl | a, b⟩
            · exact absurd b.symm hu
            · exact ⟨a, b⟩
          · rintro ⟨a, b⟩; exact ⟨Or.inr a, b⟩

theorem refines_run (ops : List Op) {g : Group} {m : Nat → Option Obj} (h : Refines g m)
    (ha : AllAllowed m ops) : ∃ g', run g ops = some g' ∧ Refines g' (specRun m ops) := by
  induction ops generalizing g m with
  | nil => exact ⟨g, rfl, h⟩
  | cons op ops ih =>
    obtain ⟨g1, h1, h2⟩ := refines_step h op ha.1
    obtain ⟨g', h3, h4⟩ := ih h2 ha.2
    refine ⟨g', ?_, h4⟩
    unfold run
    rw [List.foldlM_cons, h1]; exact h3

theorem refines_find {g : Group} {m : Nat → Option Obj} (h : Refines g m) (u : Nat) :
    find g u = some (m u) := by
  obtain ⟨r, hr, h1, h2⟩ := find_spec h.shape u
  rw [hr]
  cases hm : m u with
  | none =>
    cases r with
    | none => rfl
    | some o =>
      obtain ⟨a, b⟩ := h1 o rfl
      rw [(h.mem u o).mpr ⟨a, b⟩] at hm; cases hm
  | some o =>
    obtain ⟨a, b⟩ := (h.mem u o).mp hm
    cases r with
    | none => exact absurd b (h2 rfl o a)
    | some p =>
      obtain ⟨c, d⟩ := h1 p rfl
      rw [(h.mem u p).mpr ⟨c, d⟩] at hm
      rw [hm]

/-- C40. After any history of additions of objects with unused non-zero ids and removals of present
objects, every call has returned, and for every id a lookup returns what a map would. -/
theorem C40_group_is_a_map (ops : List Op) (h : AllAllowed empty ops) :
    ∃ g, run init ops = some g ∧ ∀ u, find g u = some (specRun empty ops u) := by
  obtain ⟨g, h1, h2⟩ := refines_run ops refines_init h
  exact ⟨g, h1, refines_find h2⟩

/-- C40, contents and count: after such a history the objects in the table are exactly those of the
map, each once, and the object counter is their number. -/
theorem C40_group_contents (ops : List Op) (h : AllAllowed empty ops) :
    ∃ g, run init ops = some g ∧ (live g).Nodup ∧ g.nb = (live g).length ∧
      ∀ o, o ∈ live g ↔ specRun empty ops o.uid = some o := by
  obtain ⟨g, h1, h2⟩ := refines_run ops refines_init h
  refine ⟨g, h1, List.Pairwise.of_map _ (fun a b hne heq => hne (by rw [heq])) h2.nodup, h2.count, ?_⟩
  intro o
  rw [h2.mem o.uid o]
  simp

/-! ### C41 -/

/-- Any history whose additions have non-zero ids: ids may repeat, absent objects may be removed. -/
def Named : Op → Prop
  | .add o => o.uid ≠ 0
  | .remove _ => True

theorem shape_step {g : Group} (h : Shape g) (op : Op) (hn : Named op) :
    ∃ g', step g op = some g' ∧ Shape g' := by
  cases op with
  | add o =>
    obtain ⟨g', h1, h2, _⟩ := add_spec 0 g h o hn
    have hn' : ¬ o.uid = 0 := hn
    exact ⟨g', by simp only [step, addObject, if_neg hn']; exact h1, h2⟩
  | remove o =>
    by_cases h0 : o.uid = 0
    · exact ⟨g, by simp [step, removeObject, h0], h⟩
    · obtain ⟨g', h1, h2, _⟩ := remove_total h o.uid
      exact ⟨g', by simp [step, removeObject, h0, h1], h2⟩

theorem shape_run (ops : List Op) {g : Group} (h : Shape g) (hn : ∀ op ∈ ops, Named op) :
    ∃ g', run g ops = some g' ∧ Shape g' := by
  induction ops generalizing g with
  | nil => exact ⟨g, rfl, h⟩
  | cons op ops ih =>
    obtain ⟨g1, h1, h2⟩ := shape_step h op (hn op (by simp))
    obtain ⟨g', h3, h4⟩ := ih h2 (fun o ho => hn o (by simp [ho]))
    refine ⟨g', ?_, h4⟩
    unfold run
    rw [List.foldlM_cons, h1]; exact h3

/-- C41. Whatever the history (repeated ids and removals of absent objects included) all calls
return, an empty slot is left, and any further find, add or remove call returns; adding an object without an id
is refused by an assertion. -/
theorem C41_probing_terminates (ops : List Op) (hn : ∀ op ∈ ops, Named op) :
    ∃ g, run init ops = some g ∧ (∃ e ∈ g.tab, e.hash = 0) ∧
      (∀ u, ∃ r, find g u = some r) ∧
      (∀ o, (∃ g', addObject g o = some g') ↔ o.uid ≠ 0) ∧
      (∀ o, ∃ g', removeObject g o = some g') := by
  obtain ⟨g, h1, h2⟩ := shape_run ops shape_init hn
  refine ⟨g, h1, h2.free, ?_, ?_, ?_⟩
  · intro u
    obtain ⟨r, hr, _⟩ := find_spec h2 u
    exact ⟨r, hr⟩
  · refine fun o => ⟨fun ⟨g', h⟩ h0 => ?_, fun ho => ?_⟩
    · rw [addObject, if_pos h0] at h
      cases h
    · obtain ⟨g', h, _⟩ := shape_step h2 (.add o) ho
      exact ⟨g', h⟩
  · intro o
    obtain ⟨g', h, _⟩ := shape_step h2 (.remove o) trivial
    exact ⟨g', h⟩

/-- C41, what the model's `none` means: if the bounded probe loop gives up, no number of further
iterations finds a slot to stop at, so that the code's unbounded loop would not return. -/
theorem C41_giving_up_means_endless (stop : Entry → Bool) (g : Group) (k : Nat) (hk : g.max = 2 ^ k)
    (hlen : g.tab.length = g.max) (u : Nat) (h : probe stop g u = none) (steps : Nat) :
    probeLoop stop g steps (u &&& (g.max - 1)) = none := by
  refine probeLoop_fuel_irrelevant stop g k hk hlen _ ?_ h steps
  rw [hk, and_mask]
  exact Nat.mod_lt _ (Nat.two_pow_pos k)

/-- C41, the free slot is needed: in a table without one, looking up an absent id does not return. -/
theorem C41_full_table_diverges (g : Group) (k : Nat) (hk : g.max = 2 ^ k)
    (hfull : ∀ e ∈ g.tab, e.hash ≠ 0) (u : Nat) (hu : ∀ e ∈ g.tab, e.hash ≠ u) : find g u = none := by
  cases hf : find g u with
  | none => rfl
  | some r =>
    exfalso
    unfold find at hf
    cases hp : probe (fun e => e.hash == 0 || (e.hash == u && e.obj.isSome)) g u with
    | none => rw [hp] at hf; cases hf
    | some i =>
      obtain ⟨_, _, _, ⟨e, he, hs⟩, _⟩ := probe_some _ g k hk u i hp
      have hm := List.mem_of_getElem? he
      simp [hfull e hm, hu e hm] at hs

/-! ### C42 -/

/-- C42 for histories with distinct ids: once an object has been removed no lookup returns it and it
is not among the objects of the table. -/
theorem C42_removed_is_gone_partial (ops : List Op) (o : Obj) (h : AllAllowed empty ops)
    (ho : specRun empty ops o.uid = some o) :
    ∃ g, run init (ops ++ [.remove o]) = some g ∧ o ∉ live g ∧ ∀ u, find g u ≠ some (some o) := by
  obtain ⟨g, h1, h2⟩ := refines_run ops refines_init h
  obtain ⟨g', h3, h4⟩ := refines_step h2 (.remove o) (Or.inr ho)
  refine ⟨g', ?_, ?_, ?_⟩
  · unfold run at *
    rw [List.foldlM_append, h1]
    show (List.foldlM step g [Op.remove o]) = _
    rw [List.foldlM_cons, h3]; rfl
  · intro hm
    have := (h4.mem o.uid o).mpr ⟨hm, rfl⟩
    simp [specStep] at this
  · intro u hf
    rw [refines_find h4 u] at hf
    injection hf with hf
    simp only [specStep] at hf
    split at hf
    · cases hf
    · rename_i hu
      exact hu ((h2.mem u o).mp hf).2.symm

/-- C42 fails when ids repeat: of two objects with the same id, the one removed is still returned by
lookups and still in the table, even after both have been removed. -/
theorem C42_duplicate_ids_leave_dangling :
    ∃ a b : Obj, a.uid = b.uid ∧ a ≠ b ∧
      ∃ g, run init [.add a, .add b, .remove a, .remove b] = some g ∧
        find g b.uid = some (some b) ∧ b ∈ live g := by
  exact ⟨⟨16, 5⟩, ⟨32, 5⟩, rfl, by decide, _, rfl, by decide +kernel, by decide +kernel⟩

/-- ... and removing the second object first destroys the first one's entry instead. -/
theorem C42_duplicate_ids_remove_wrong_object :
    ∃ a b : Obj, a.uid = b.uid ∧ a ≠ b ∧
      ∃ g, run init [.add a, .add b, .remove b] = some g ∧
        find g b.uid = some (some b) ∧ a ∉ live g := by
  exact ⟨⟨16, 5⟩, ⟨32, 5⟩, rfl, by decide, _, rfl, by decide +kernel, by decide +kernel⟩

/-! ### C43 -/

/-- Specification: `path` names `p`, each id being looked up in the group found so far. -/
inductive Names (heap : Heap) : Group → List Nat → Obj → Prop
  | last {g o u} : o ∈ live g → o.uid = u → Names heap g [u] o
  | step {g o u g' us p} : o ∈ live g → o.uid = u → heap o.addr = some g' →
      Names heap g' us p → Names heap g (u :: us) p

/-- A group built by an allowed history. -/
def Reachable (g : Group) : Prop := ∃ ops, AllAllowed empty ops ∧ run init ops = some g

theorem Reachable.refines {g : Group} (h : Reachable g) : ∃ m, Refines g m := by
  obtain ⟨ops, h1, h2⟩ := h
  obtain ⟨g', h3, h4⟩ := refines_run ops refines_init h1
  rw [h2] at h3
  injection h3 with h3
  subst h3
  exact ⟨_, h4⟩

/-- C43 holds for paths of one or two ids. Missing: longer paths, for which it is false
(`C43_three_ids_fail`). -/
theorem C43_short_paths_resolve_partial (heap : Heap) (g : Group) (ids : List Nat)
    (hg : Reachable g) (hh : ∀ a g', heap a = some g' → Reachable g')
    (hl : ids.length = 1 ∨ ids.length = 2) :
    ∃ r, findRelative heap g ids = some r ∧ ∀ o, r = some o ↔ Names heap g ids o := by
  obtain ⟨m, hm⟩ := hg.refines
  match ids, hl with
  | [u], _ =>
    refine ⟨m u, refines_find hm u, ?_⟩
    intro o
    rw [hm.mem u o]
    constructor
    · rintro ⟨a, b⟩; exact .last a b
    · intro h
      cases h with
      | last a b => exact ⟨a, b⟩
      | step _ _ _ hn => cases hn
  | [u, v], _ =>
    have hinv : ∀ p, Names heap g [u, v] p → ∃ o g', m u = some o ∧ heap o.addr = some g' ∧
        p ∈ live g' ∧ p.uid = v := by
      intro p hp
      cases hp with
      | step a b c d =>
        cases d with
        | last e f => exact ⟨_, _, (hm.mem u _).mpr ⟨a, b⟩, c, e, f⟩
        | step _ _ _ hn => cases hn
    unfold findRelative relLoop
    rw [refines_find hm u]
    cases hmu : m u with
    | none =>
      refine ⟨none, rfl, ?_⟩
      intro p
      constructor
      · intro h; cases h
      · intro h
        obtain ⟨o, g', h1, _⟩ := hinv p h
        rw [hmu] at h1; cases h1
    | some o =>
      have ho := (hm.mem u o).mp hmu
      cases hho : heap o.addr with
      | none =>
        refine ⟨none, by simp [hho], ?_⟩
        intro p
        constructor
        · intro h; cases h
        · intro h
          obtain ⟨o', g', h1, h2, _⟩ := hinv p h
          rw [hmu] at h1; injection h1 with h1; subst h1
          rw [hho] at h2; cases h2
      | some g' =>
        obtain ⟨m', hm'⟩ := (hh _ _ hho).refines
        refine ⟨m' v, by simp [hho, relLoop, refines_find hm' v], ?_⟩
        intro p
        rw [hm'.mem v p]
        constructor
        · rintro ⟨a, b⟩; exact .step ho.1 ho.2 hho (.last a b)
        · intro h
          obtain ⟨o', g'', h1, h2, h3, h4⟩ := hinv p h
          rw [hmu] at h1; injection h1 with h1; subst h1
          rw [hho] at h2; injection h2 with h2; subst h2
          exact ⟨h3, h4⟩

/-- The group holding just one object. -/
def single (o : Obj) : Group := { init with nb := 1, occ := 1, tab := init.tab.set (o.uid % 8) ⟨o.uid, some o⟩ }

/-- Three nested groups: root contains `a` (a group) contains `b` (a group) contains `c`. -/
def nest3 : Heap := fun addr =>
  if addr = 16 then some (single ⟨32, 2⟩) else if addr = 32 then some (single ⟨48, 3⟩) else none

/-- C43 fails for three ids: the path a/b/c names an object, but the call returns null, because the
second id is looked up in the starting group again. -/
theorem C43_three_ids_fail :
    ∃ (heap : Heap) (g : Group) (ids : List Nat) (o : Obj),
      Reachable g ∧ (∀ a g', heap a = some g' → Reachable g') ∧
      Names heap g ids o ∧ findRelative heap g ids = some none := by
  have hre : ∀ o : Obj, o = ⟨16, 1⟩ ∨ o = ⟨32, 2⟩ ∨ o = ⟨48, 3⟩ → Reachable (single o) := by
    rintro o h
    refine ⟨[.add o], ⟨⟨?_, rfl⟩, trivial⟩, ?_⟩
    · rcases h with rfl | rfl | rfl <;> decide
    · rcases h with rfl | rfl | rfl <;> decide +kernel
  refine ⟨nest3, single ⟨16, 1⟩, [1, 2, 3], ⟨48, 3⟩, hre _ (by simp), ?_, ?_, by decide +kernel⟩
  · intro a g' h
    unfold nest3 at h
    split at h
    · injection h with h; subst h; exact hre _ (by simp)
    · split at h
      · injection h with h; subst h; exact hre _ (by simp)
      · cases h
  · refine .step (o := ⟨16, 1⟩) (g' := single ⟨32, 2⟩) (by decide +kernel) rfl rfl ?_
    refine .step (o := ⟨32, 2⟩) (g' := single ⟨48, 3⟩) (by decide +kernel) rfl rfl ?_
    exact .last (by decide +kernel) rfl

/-- What the code computes on longer paths: all ids but the last two are only checked to name groups
directly inside the starting group; the result is that of the last two ids. -/
theorem C43_only_last_two_ids_count (heap : Heap) (g : Group) (hg : Reachable g) (us : List Nat)
    (hus : ∀ u ∈ us, ∃ o g', o ∈ live g ∧ o.uid = u ∧ heap o.addr = some g') (u v : Nat) :
    findRelative heap g (us ++ [u, v]) = findRelative heap g [u, v] := by
  obtain ⟨m, hm⟩ := hg.refines
  unfold findRelative
  suffices h : ∀ cur, relLoop heap g cur (us ++ [u, v]) = relLoop heap g g [u, v] from h g
  induction us with
  | nil => intro cur; rfl
  | cons w us ih =>
    intro cur
    obtain ⟨o, g', h1, h2, h3⟩ := hus w (by simp)
    have hf : find g w = some (some o) := by
      rw [refines_find hm w, (hm.mem w o).mpr ⟨h1, h2⟩]
    have ih' := ih (fun x hx => hus x (by simp [hx])) g'
    obtain ⟨x, xs, hx⟩ : ∃ x xs, us ++ [u, v] = x :: xs := by
      cases us with
      | nil => exact ⟨_, _, rfl⟩
      | cons a as => exact ⟨_, _, rfl⟩
    rw [hx] at ih'
    rw [List.cons_append, hx]
    show (do let r ← find g w; _) = _
    simp only [hf, h3, bind, Option.bind]
    exact ih'

/-- C43, searching parents: the result is the object of the nearest enclosing group that has one. -/
theorem C43_search_parents_nearest (chain : List Group) (hc : ∀ g ∈ chain, Reachable g) (u : Nat) :
    ∃ r, findSearchParents chain u = some r ∧
      (∀ o, r = some o ↔ ∃ pre g post, chain = pre ++ g :: post ∧ (o ∈ live g ∧ o.uid = u) ∧
        ∀ g' ∈ pre, ∀ p ∈ live g', p.uid ≠ u) := by
  induction chain with
  | nil =>
    refine ⟨none, rfl, ?_⟩
    intro o
    constructor
    · intro h; cases h
    · rintro ⟨pre, g, post, h, _⟩
      cases pre <;> cases h
  | cons g gs ih =>
    obtain ⟨m, hm⟩ := (hc g (by simp)).refines
    obtain ⟨r, hr, hspec⟩ := ih (fun g' hg' => hc g' (by simp [hg']))
    unfold findSearchParents
    rw [refines_find hm u]
    cases hmu : m u with
    | some o =>
      refine ⟨some o, rfl, ?_⟩
      intro p
      constructor
      · intro h; injection h with h; subst h
        exact ⟨[], g, gs, rfl, (hm.mem u o).mp hmu, by simp⟩
      · rintro ⟨pre, g', post, h1, h2, h3⟩
        cases pre with
        | nil =>
          injection h1 with h1 h1'
          subst h1
          rw [← (hm.mem u p)] at h2
          rw [hmu] at h2; exact h2
        | cons a pre =>
          injection h1 with h1 h1'
          subst h1
          have := (hm.mem u o).mp hmu
          exact absurd this.2 (h3 g (by simp) o this.1)
    | none =>
      have hno : ∀ p ∈ live g, p.uid ≠ u := by
        intro p hp hpu
        rw [(hm.mem u p).mpr ⟨hp, hpu⟩] at hmu; cases hmu
      refine ⟨r, hr, ?_⟩
      intro p
      rw [hspec p]
      constructor
      · rintro ⟨pre, g', post, h1, h2, h3⟩
        refine ⟨g :: pre, g', post, by rw [h1]; rfl, h2, ?_⟩
        intro q hq
        rcases List.mem_cons.mp hq with rfl | hq
        · exact hno
        · exact h3 q hq
      · rintro ⟨pre, g', post, h1, h2, h3⟩
        cases pre with
        | nil =>
          injection h1 with h1 h1'
          subst h1
          exact absurd h2.2 (hno p h2.1)
        | cons a pre =>
          injection h1 with h1 h1'
          exact ⟨pre, g', post, h1', h2, fun q hq => h3 q (by simp [hq])⟩

/-! ### Non-vacuity -/

/-- Six colliding objects, with removals and a growth step in between. -/
def exampleOps : List Op :=
  [.add ⟨16, 8⟩, .add ⟨32, 16⟩, .add ⟨48, 24⟩, .remove ⟨32, 16⟩, .add ⟨64, 32⟩, .add ⟨80, 40⟩,
   .add ⟨96, 48⟩, .add ⟨112, 16⟩, .remove ⟨48, 24⟩]

example : AllAllowed empty exampleOps := by
  unfold exampleOps
  simp [AllAllowed, Allowed, specStep, empty]
example : (run init exampleOps).map (·.max) = some 32 := by decide +kernel
example : ((run init exampleOps).bind (find · 16)) = some (some ⟨112, 16⟩) := by decide +kernel
/-- A history with repeated ids and a removal of an absent object. -/
example : ∀ op ∈ [Op.add ⟨16, 8⟩, .add ⟨32, 8⟩, .remove ⟨48, 9⟩], Named op := by
  intro op h; simp at h; rcases h with rfl | rfl | rfl <;> simp [Named]

end Clr.ObjectGroup
