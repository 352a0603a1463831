import Verif.Model.ObjectGroup
namespace Clr.ObjectGroup

/-! ### Probing -/

theorem and_mask (k x : Nat) : x &&& (2 ^ k - 1) = x % 2 ^ k := Nat.and_two_pow_sub_one_eq_mod x k

theorem probeLoop_some (stop : Entry → Bool) (g : Group) (k : Nat) (hk : g.max = 2 ^ k)
    (f i r : Nat) (hi : i < g.max) (h : probeLoop stop g f i = some r) :
    ∃ j, j < f ∧ r = (i + j) % g.max ∧ (∃ e, g.tab[r]? = some e ∧ stop e = true) ∧
      ∀ j', j' < j → ∀ e, g.tab[(i + j') % g.max]? = some e → stop e = false := by
  induction f generalizing i with
  | zero => simp [probeLoop] at h
  | succ f ih =>
    unfold probeLoop at h
    split at h
    · cases h
    · rename_i e he
      by_cases hs : stop e = true
      · rw [if_pos hs] at h
        injection h with h
        subst h
        refine ⟨0, by omega, by rw [Nat.add_zero, Nat.mod_eq_of_lt hi], ⟨e, he, hs⟩, ?_⟩
        intro j' hj'; omega
      · rw [if_neg hs, hk, and_mask, ← hk] at h
        have hlt : (i + 1) % g.max < g.max := Nat.mod_lt _ (by omega)
        obtain ⟨j, hj, hr, hst, hb⟩ := ih _ hlt h
        refine ⟨j + 1, by omega, ?_, hst, ?_⟩
        · rw [hr, Nat.mod_add_mod]; congr 1; omega
        · intro j' hj' e' he'
          cases j' with
          | zero =>
            rw [Nat.add_zero, Nat.mod_eq_of_lt hi, he] at he'
            injection he' with he'
            subst he'
            simpa using hs
          | succ j' =>
            apply hb j' (by omega) e'
            rw [Nat.mod_add_mod]
            rw [show i + 1 + j' = i + (j' + 1) by omega]
            exact he'

theorem probeLoop_ex (stop : Entry → Bool) (g : Group) (k : Nat) (hk : g.max = 2 ^ k)
    (hlen : g.tab.length = g.max) (f i : Nat) (hi : i < g.max)
    (h : ∃ j, j < f ∧ ∃ e, g.tab[(i + j) % g.max]? = some e ∧ stop e = true) :
    ∃ r, probeLoop stop g f i = some r := by
  induction f generalizing i with
  | zero => obtain ⟨j, hj, _⟩ := h; omega
  | succ f ih =>
    obtain ⟨j, hj, e, he, hs⟩ := h
    unfold probeLoop
    have : g.tab[i]? = some g.tab[i] := List.getElem?_eq_getElem (by omega)
    rw [this]
    simp only
    by_cases hst : stop g.tab[i] = true
    · exact ⟨i, by rw [if_pos hst]⟩
    · rw [if_neg hst, hk, and_mask, ← hk]
      have hlt : (i + 1) % g.max < g.max := Nat.mod_lt _ (by omega)
      apply ih _ hlt
      cases j with
      | zero =>
        rw [Nat.add_zero, Nat.mod_eq_of_lt hi, this] at he
        injection he with he
        subst he
        exact absurd hs hst
      | succ j =>
        refine ⟨j, by omega, e, ?_, hs⟩
        rw [Nat.mod_add_mod, show i + 1 + j = i + (j + 1) by omega]
        exact he

/-- A run that visited every slot without stopping never stops. -/
theorem probeLoop_fuel_irrelevant (stop : Entry → Bool) (g : Group) (k : Nat) (hk : g.max = 2 ^ k)
    (hlen : g.tab.length = g.max) (i : Nat) (hi : i < g.max)
    (h : probeLoop stop g g.max i = none) (f : Nat) : probeLoop stop g f i = none := by
  cases hf : probeLoop stop g f i with
  | none => rfl
  | some r =>
    exfalso
    obtain ⟨j, _, hr, ⟨e, he, hs⟩, _⟩ := probeLoop_some stop g k hk f i r hi hf
    have : ∃ r, probeLoop stop g g.max i = some r := by
      apply probeLoop_ex stop g k hk hlen g.max i hi
      refine ⟨j % g.max, Nat.mod_lt _ (by omega), e, ?_, hs⟩
      rw [Nat.add_mod_mod, ← hr]
      exact he
    obtain ⟨r', hr'⟩ := this
    rw [h] at hr'
    cases hr'

theorem probe_some (stop : Entry → Bool) (g : Group) (k : Nat) (hk : g.max = 2 ^ k)
    (h r : Nat) (hp : probe stop g h = some r) :
    ∃ j, j < g.max ∧ r = (h + j) % g.max ∧ (∃ e, g.tab[r]? = some e ∧ stop e = true) ∧
      ∀ j', j' < j → ∀ e, g.tab[(h + j') % g.max]? = some e → stop e = false := by
  unfold probe at hp
  rw [hk, and_mask, ← hk] at hp
  have hpos : 0 < g.max := by rw [hk]; exact Nat.two_pow_pos k
  obtain ⟨j, h1, h2, h3, h4⟩ := probeLoop_some stop g k hk _ _ _ (Nat.mod_lt _ hpos) hp
  refine ⟨j, h1, by rw [h2, Nat.mod_add_mod], h3, ?_⟩
  intro j' hj' e he
  apply h4 j' hj' e
  rw [Nat.mod_add_mod]; exact he

/-- Every index is at some probe distance below the table size. -/
theorem exists_dist (m h i : Nat) (hi : i < m) : ∃ j, j < m ∧ i = (h + j) % m := by
  refine ⟨(i + (m - h % m)) % m, Nat.mod_lt _ (by omega), ?_⟩
  rw [Nat.add_mod_mod, Nat.add_mod]
  have hh : h % m < m := Nat.mod_lt _ (by omega)
  rw [← Nat.add_mod, ← Nat.mod_add_mod]
  rw [show h % m + (i + (m - h % m)) = i + m by omega, Nat.add_mod_right, Nat.mod_eq_of_lt hi]

theorem probe_ex (stop : Entry → Bool) (g : Group) (k : Nat) (hk : g.max = 2 ^ k)
    (hlen : g.tab.length = g.max) (h : Nat) (hex : ∃ e ∈ g.tab, stop e = true) :
    ∃ r, probe stop g h = some r := by
  unfold probe
  rw [hk, and_mask, ← hk]
  have hpos : 0 < g.max := by rw [hk]; exact Nat.two_pow_pos k
  obtain ⟨e, he, hs⟩ := hex
  obtain ⟨i, hi, rfl⟩ := List.getElem_of_mem he
  obtain ⟨j, hj, hij⟩ := exists_dist g.max h i (by omega)
  apply probeLoop_ex stop g k hk hlen _ _ (Nat.mod_lt _ hpos)
  refine ⟨j, hj, g.tab[i], ?_, hs⟩
  rw [Nat.mod_add_mod, ← hij]
  exact List.getElem?_eq_getElem hi

/-! ### Invariants -/

/-- Number of slots with a non-zero hash. -/
def used (t : List Entry) : Nat := t.countP (fun e => e.hash != 0)

structure Shape0 (g : Group) : Prop where
  pow : ∃ k, 3 ≤ k ∧ g.max = 2 ^ k
  len : g.tab.length = g.max
  zero : ∀ e ∈ g.tab, e.hash = 0 → e.obj = none
  key : ∀ e ∈ g.tab, ∀ o, e.obj = some o → o.uid = e.hash
  path : ∀ i e o, g.tab[i]? = some e → e.obj = some o →
    ∃ j, j < g.max ∧ i = (o.uid + j) % g.max ∧
      ∀ j', j' < j → ∀ e', g.tab[(o.uid + j') % g.max]? = some e' → e'.hash ≠ 0
  occ : used g.tab ≤ g.occ

/-- The invariant of every reachable state: in particular some slot is free. -/
structure Shape (g : Group) : Prop extends Shape0 g where
  occlt : g.occ < g.max

/-- No slot before an object's slot on its probe path carries its id (not even a dummy). -/
def Clean (g : Group) : Prop :=
  ∀ i e o, g.tab[i]? = some e → e.obj = some o →
    ∃ j, j < g.max ∧ i = (o.uid + j) % g.max ∧
      ∀ j', j' < j → ∀ e', g.tab[(o.uid + j') % g.max]? = some e' → e'.hash ≠ 0 ∧ e'.hash ≠ o.uid

theorem Shape.free {g : Group} (h : Shape g) : ∃ e ∈ g.tab, e.hash = 0 := by
  refine Classical.byContradiction fun hc => ?_
  have : used g.tab = g.tab.length := by
    unfold used
    rw [List.countP_eq_length]
    intro e he
    have : e.hash ≠ 0 := fun h0 => hc ⟨e, he, h0⟩
    simpa using this
  have := h.occ
  have := h.occlt
  have := h.len
  omega

theorem mem_live {g : Group} {o : Obj} : o ∈ live g ↔ ∃ (i : Nat) (e : Entry), g.tab[i]? = some e ∧ e.obj = some o := by
  unfold live
  rw [List.mem_filterMap]
  constructor
  · rintro ⟨e, he, ho⟩
    obtain ⟨i, hi, rfl⟩ := List.getElem_of_mem he
    exact ⟨i, g.tab[i], List.getElem?_eq_getElem hi, ho⟩
  · rintro ⟨i, e, he, ho⟩
    exact ⟨e, List.mem_of_getElem? he, ho⟩

theorem Shape0.uid_ne {g : Group} (h : Shape0 g) {o : Obj} (ho : o ∈ live g) : o.uid ≠ 0 := by
  obtain ⟨i, e, he, ho⟩ := mem_live.mp ho
  have hm := List.mem_of_getElem? he
  intro h0
  rw [h.key e hm o ho] at h0
  rw [h.zero e hm h0] at ho
  cases ho

theorem find_spec {g : Group} (h : Shape g) (u : Nat) :
    ∃ r, find g u = some r ∧ (∀ o, r = some o → o ∈ live g ∧ o.uid = u) ∧
      (r = none → ∀ o ∈ live g, o.uid ≠ u) := by
  obtain ⟨k, hk3, hk⟩ := h.pow
  let stop := fun (e : Entry) => e.hash == 0 || (e.hash == u && e.obj.isSome)
  obtain ⟨r, hr⟩ := probe_ex stop g k hk h.len u (by
    obtain ⟨e, he, h0⟩ := h.free
    exact ⟨e, he, by simp [stop, h0]⟩)
  obtain ⟨j, hj, hrj, ⟨e, he, hs⟩, hb⟩ := probe_some stop g k hk u r hr
  have hm := List.mem_of_getElem? he
  refine ⟨e.obj, ?_, ?_, ?_⟩
  · unfold find
    show (do let i ← probe stop g u; let e ← g.tab[i]?; pure e.obj) = _
    rw [hr]
    simp [he]
  · intro o ho
    refine ⟨mem_live.mpr ⟨r, e, he, ho⟩, ?_⟩
    have hk' := h.key e hm o ho
    rw [hk']
    simp only [stop, Bool.or_eq_true, beq_iff_eq, Bool.and_eq_true] at hs
    rcases hs with h0 | ⟨h1, _⟩
    · rw [h.zero e hm h0] at ho; cases ho
    · exact h1
  · intro hnone o ho hu
    obtain ⟨i, e2, he2, ho2⟩ := mem_live.mp ho
    obtain ⟨j0, hj0, hi0, hp0⟩ := h.path i e2 o he2 ho2
    rw [hu] at hi0 hp0
    simp only [stop, Bool.or_eq_true, beq_iff_eq, Bool.and_eq_true] at hs
    have hs0 : e.hash = 0 := by
      rcases hs with h0 | ⟨_, h1⟩
      · exact h0
      · rw [hnone] at h1; cases h1
    rcases Nat.lt_trichotomy j j0 with hlt | heq | hgt
    · exact hp0 j hlt e (hrj ▸ he) hs0
    · subst heq
      rw [← hi0] at hrj
      subst hrj
      rw [he] at he2
      injection he2 with he2
      subst he2
      rw [hnone] at ho2; cases ho2
    · have := hb j0 hgt e2 (hi0 ▸ he2)
      have hk2 := h.key e2 (List.mem_of_getElem? he2) o ho2
      simp [stop, ho2, ← hk2, hu] at this

/-! ### Placing an object -/

theorem filterMap_set_perm {t : List Entry} {i : Nat} {e : Entry} {o : Obj} {h : Nat}
    (he : t[i]? = some e) (hn : e.obj = none) :
    ((t.set i ⟨h, some o⟩).filterMap (·.obj)).Perm (o :: t.filterMap (·.obj)) := by
  induction t generalizing i with
  | nil => simp at he
  | cons a t ih =>
    cases i with
    | zero =>
      simp only [List.getElem?_cons_zero, Option.some.injEq] at he
      subst he
      simp [hn]
    | succ i =>
      simp only [List.getElem?_cons_succ] at he
      simp only [List.set_cons_succ, List.filterMap_cons]
      cases a.obj with
      | none => exact ih he
      | some b => exact ((ih he).cons b).trans (List.Perm.swap _ _ _)

theorem filterMap_clear_perm {t : List Entry} {i : Nat} {e : Entry} {o : Obj}
    (he : t[i]? = some e) (ho : e.obj = some o) :
    (t.filterMap (·.obj)).Perm (o :: (t.set i { e with obj := none }).filterMap (·.obj)) := by
  induction t generalizing i with
  | nil => simp at he
  | cons a t ih =>
    cases i with
    | zero =>
      simp only [List.getElem?_cons_zero, Option.some.injEq] at he
      subst he
      simp [ho]
    | succ i =>
      simp only [List.getElem?_cons_succ] at he
      simp only [List.set_cons_succ, List.filterMap_cons]
      cases a.obj with
      | none => exact ih he
      | some b => exact ((ih he).cons b).trans (List.Perm.swap _ _ _)

theorem used_set_le (t : List Entry) (i : Nat) (e : Entry) : used (t.set i e) ≤ used t + 1 := by
  unfold used
  induction t generalizing i with
  | nil => simp
  | cons a t ih =>
    cases i with
    | zero =>
      simp only [List.set_cons_zero, List.countP_cons]
      split <;> split <;> omega
    | succ i =>
      simp only [List.set_cons_succ, List.countP_cons]
      have := ih i
      omega

theorem used_set_same (t : List Entry) (i : Nat) (e e' : Entry) (he : t[i]? = some e)
    (hh : e'.hash = e.hash) : used (t.set i e') = used t := by
  unfold used
  induction t generalizing i with
  | nil => simp
  | cons a t ih =>
    cases i with
    | zero =>
      simp only [List.getElem?_cons_zero, Option.some.injEq] at he
      subst he
      simp [List.countP_cons, hh]
    | succ i =>
      simp only [List.getElem?_cons_succ] at he
      simp only [List.set_cons_succ, List.countP_cons, ih i he]

/-- What placing an object into a state with a free slot does. -/
theorem place_spec {g : Group} (h : Shape g) (o : Obj) (ho : o.uid ≠ 0) :
    ∃ g', place g o = some g' ∧ Shape0 g' ∧ g'.max = g.max ∧ g'.nb = g.nb + 1 ∧
      g'.occ = g.occ + 1 ∧ (live g').Perm (o :: live g) ∧
      (Clean g → (∀ p ∈ live g, p.uid ≠ o.uid) → Clean g') := by
  obtain ⟨k, hk3, hk⟩ := h.pow
  let stop := fun (e : Entry) => e.hash == 0 || e.obj.isNone
  obtain ⟨r, hr⟩ := probe_ex stop g k hk h.len o.uid (by
    obtain ⟨e, he, h0⟩ := h.free
    exact ⟨e, he, by simp [stop, h0]⟩)
  obtain ⟨j, hj, hrj, ⟨e, he, hs⟩, hb⟩ := probe_some stop g k hk o.uid r hr
  have hm := List.mem_of_getElem? he
  have hlt : r < g.tab.length := by
    rcases List.getElem?_eq_some_iff.mp he with ⟨h, _⟩; exact h
  have hnone : e.obj = none := by
    simp only [stop, Bool.or_eq_true, beq_iff_eq] at hs
    rcases hs with h0 | h1
    · exact h.zero e hm h0
    · simpa using h1
  -- slots strictly before are live
  have hbefore : ∀ j', j' < j → ∀ e' : Entry, g.tab[(o.uid + j') % g.max]? = some e' →
      e'.hash ≠ 0 ∧ ∃ p, e'.obj = some p := by
    intro j' hj' e' he'
    have := hb j' hj' e' he'
    simp only [stop, Bool.or_eq_false_iff, beq_eq_false_iff_ne] at this
    exact ⟨this.1, by
      cases hp : e'.obj with
      | none => simp [hp] at this
      | some p => exact ⟨p, rfl⟩⟩
  have hdist : ∀ j', j' < j → (o.uid + j') % g.max ≠ r := by
    intro j' hj' heq
    rw [← heq] at he
    have := hb j' hj' e he
    rw [hs] at this; cases this
  let g' : Group := { g with tab := g.tab.set r ⟨o.uid, some o⟩, nb := g.nb + 1, occ := g.occ + 1 }
  have hget : ∀ (i : Nat) (e' : Entry), g'.tab[i]? = some e' →
      (i = r ∧ e' = ⟨o.uid, some o⟩) ∨ (i ≠ r ∧ g.tab[i]? = some e') := by
    intro i e' he'
    simp only [g', List.getElem?_set] at he'
    by_cases hir : r = i
    · subst hir
      rw [if_pos rfl, if_pos hlt] at he'
      injection he' with he'
      exact Or.inl ⟨rfl, he'.symm⟩
    · rw [if_neg hir] at he'
      exact Or.inr ⟨fun h => hir h.symm, he'⟩
  have hkeep : ∀ (i : Nat) (e' : Entry), g'.tab[i]? = some e' → ∀ e'' : Entry, g.tab[i]? = some e'' → e''.hash ≠ 0 →
      e'.hash ≠ 0 := by
    intro i e' he' e'' he'' hne
    rcases hget i e' he' with ⟨_, rfl⟩ | ⟨_, h2⟩
    · exact ho
    · rw [h2] at he''; injection he'' with he''; subst he''; exact hne
  refine ⟨g', ?_, ?_, rfl, rfl, rfl, filterMap_set_perm he hnone, ?_⟩
  · unfold place
    show (do let i ← probe stop g o.uid; pure _) = _
    rw [hr]; rfl
  · refine ⟨⟨k, hk3, hk⟩, by simp [g', h.len], ?_, ?_, ?_, ?_⟩
    · intro e' he' h0
      obtain ⟨i, hi⟩ := List.getElem?_of_mem he'
      rcases hget i e' hi with ⟨_, rfl⟩ | ⟨_, h2⟩
      · exact absurd h0 ho
      · exact h.zero e' (List.mem_of_getElem? h2) h0
    · intro e' he' p hp
      obtain ⟨i, hi⟩ := List.getElem?_of_mem he'
      rcases hget i e' hi with ⟨_, rfl⟩ | ⟨_, h2⟩
      · simp only [Option.some.injEq] at hp; subst hp; rfl
      · exact h.key e' (List.mem_of_getElem? h2) p hp
    · intro i e' p hi hp
      show ∃ j, j < g.max ∧ i = (p.uid + j) % g.max ∧ _
      rcases hget i e' hi with ⟨rfl, rfl⟩ | ⟨hne, h2⟩
      · simp only [Option.some.injEq] at hp; subst hp
        refine ⟨j, hj, hrj, ?_⟩
        intro j' hj' e'' he''
        rcases hget _ e'' he'' with ⟨heq, _⟩ | ⟨_, h3⟩
        · exact absurd heq (hdist j' hj')
        · exact (hbefore j' hj' e'' h3).1
      · obtain ⟨j1, h1, h3, h4⟩ := h.path i e' p h2 hp
        refine ⟨j1, h1, h3, ?_⟩
        intro j' hj' e'' he''
        rcases hget _ e'' he'' with ⟨_, rfl⟩ | ⟨_, h5⟩
        · exact ho
        · exact h4 j' hj' e'' h5
    · have := used_set_le g.tab r ⟨o.uid, some o⟩
      have := h.occ
      show used (g.tab.set r ⟨o.uid, some o⟩) ≤ g.occ + 1
      omega
  · intro hc hfresh i e' p hi hp
    show ∃ j, j < g.max ∧ i = (p.uid + j) % g.max ∧ _
    rcases hget i e' hi with ⟨rfl, rfl⟩ | ⟨hne, h2⟩
    · simp only [Option.some.injEq] at hp; subst hp
      refine ⟨j, hj, hrj, ?_⟩
      intro j' hj' e'' he''
      rcases hget _ e'' he'' with ⟨heq, _⟩ | ⟨_, h3⟩
      · exact absurd heq (hdist j' hj')
      · obtain ⟨h5, q, hq⟩ := hbefore j' hj' e'' h3
        refine ⟨h5, ?_⟩
        rw [← h.key e'' (List.mem_of_getElem? h3) q hq]
        exact hfresh q (mem_live.mpr ⟨_, e'', h3, hq⟩)
    · obtain ⟨j1, h1, h3, h4⟩ := hc i e' p h2 hp
      refine ⟨j1, h1, h3, ?_⟩
      intro j' hj' e'' he''
      rcases hget _ e'' he'' with ⟨_, rfl⟩ | ⟨_, h5⟩
      · exact ⟨ho, fun heq => hfresh p (mem_live.mpr ⟨i, e', h2, hp⟩) heq.symm⟩
      · exact h4 j' hj' e'' h5

/-! ### Insertion with resizing -/

/-- State right after a rebuild: counters are exact. -/
structure Exact (g : Group) : Prop extends Shape g where
  nb : g.nb = (live g).length
  occEq : g.occ = g.nb
  load : g.nb ≤ (g.max * 2 / 3 : Nat)

def fresh (n : Nat) : Group := { max := n, nb := 0, occ := 0, tab := freshTab n }

theorem live_fresh (n : Nat) : live (fresh n) = [] := by
  unfold live fresh freshTab
  rw [List.filterMap_eq_nil_iff]
  intro e he
  rw [List.eq_of_mem_replicate he]

theorem fresh_get {n i : Nat} {e : Entry} (h : (fresh n).tab[i]? = some e) : e = {} :=
  List.eq_of_mem_replicate (List.mem_of_getElem? h)

theorem exact_fresh (k : Nat) (hk : 3 ≤ k) : Exact (fresh (2 ^ k)) where
  pow := ⟨k, hk, rfl⟩
  len := List.length_replicate
  zero := by intro e he _; rw [List.eq_of_mem_replicate he]
  key := by intro e he o ho; rw [List.eq_of_mem_replicate he] at ho; cases ho
  path := by intro i e o he ho; rw [fresh_get he] at ho; cases ho
  occ := by
    show used (freshTab (2 ^ k)) ≤ 0
    unfold used
    rw [Nat.le_zero, List.countP_eq_zero]
    intro e he
    rw [List.eq_of_mem_replicate he]; simp
  occlt := Nat.two_pow_pos k
  nb := by rw [live_fresh]; rfl
  occEq := rfl
  load := Int.natCast_nonneg _

theorem clean_fresh (n : Nat) : Clean (fresh n) := by
  intro i e o he ho; rw [fresh_get he] at ho; cases ho

theorem foldlM_live (add : Group → Obj → Option Group) (t : List Entry) (s : Group) :
    t.foldlM (fun g' e => match e.obj with | some o => add g' o | none => some g') s =
      (t.filterMap (·.obj)).foldlM add s := by
  induction t generalizing s with
  | nil => rfl
  | cons a t ih =>
    rw [List.foldlM_cons, List.filterMap_cons]
    cases a.obj with
    | none => simp only; exact ih s
    | some o =>
      simp only [List.foldlM_cons]
      congr 1
      funext s'
      exact ih s'

theorem resizeWith_eq (add : Group → Obj → Option Group) (g : Group) (inc : Bool) :
    resizeWith add g inc = (live g).foldlM add
      (fresh (if inc then (if g.max < 8192 * 4 then g.max * 4 else g.max * 2) else g.max)) := by
  unfold resizeWith live fresh
  exact foldlM_live add g.tab _

theorem perm_uids {l l' : List Obj} (h : l.Perm l') :
    (l.map (·.uid)).Nodup ↔ (l'.map (·.uid)).Nodup := (h.map _).nodup_iff

theorem add_keep (d : Nat) {g g1 : Group} {o : Obj} (hp : place g o = some g1)
    (h1 : ¬ (g1.nb < 0 ∨ g1.nb > (g1.max * 2 / 3 : Nat))) (h2 : ¬ (g1.occ = g1.max)) :
    addHashEntry (d + 1) g o = some g1 := by
  simp only [addHashEntry, hp]
  show (if g1.nb < 0 ∨ g1.nb > (g1.max * 2 / 3 : Nat) then resizeWith (addHashEntry d) g1 true
    else if g1.occ = g1.max then resizeWith (addHashEntry d) g1 false else some g1) = _
  rw [if_neg h1, if_neg h2]

/-- Reinsertion that never triggers another resize. -/
theorem fold_simple (d : Nat) (os : List Obj) (g : Group) (hg : Exact g)
    (hu : ∀ o ∈ os, o.uid ≠ 0) (hroom : g.nb + os.length ≤ (g.max * 2 / 3 : Nat)) :
    ∃ g', os.foldlM (addHashEntry (d + 1)) g = some g' ∧ Exact g' ∧ g'.max = g.max ∧
      (live g').Perm (os ++ live g) ∧
      (Clean g → ((os ++ live g).map (·.uid)).Nodup → Clean g') := by
  induction os generalizing g with
  | nil => exact ⟨g, rfl, hg, rfl, List.Perm.refl _, fun h _ => h⟩
  | cons o os ih =>
    obtain ⟨g1, hp, hs, hm, hn, ho, hl, hc⟩ := place_spec hg.toShape o (hu o (by simp))
    have hroom' : g.nb + (os.length + 1) ≤ (g.max * 2 / 3 : Nat) := by simpa using hroom
    have hmax8 : 8 ≤ g.max := by
      obtain ⟨k, hk3, hk⟩ := hg.pow
      rw [hk]
      exact Nat.le_trans (by decide : 8 ≤ 2 ^ 3) (Nat.pow_le_pow_right (by omega) hk3)
    have hex : Exact g1 := by
      refine { toShape0 := hs, occlt := ?_, nb := ?_, occEq := ?_, load := ?_ }
      · have := hg.occEq; omega
      · rw [hn, hl.length_eq, hg.nb]; rfl
      · have := hg.occEq; omega
      · rw [hn, hm]; omega
    have hadd : addHashEntry (d + 1) g o = some g1 := by
      have h1 : ¬ (g1.nb < 0 ∨ g1.nb > (g1.max * 2 / 3 : Nat)) := by
        have := hex.load; have := hex.nb; omega
      have h2 : ¬ (g1.occ = g1.max) := by have := hex.occlt; omega
      exact add_keep d hp h1 h2
    obtain ⟨g', h1, h2, h3, h4, h5⟩ := ih g1 hex (fun p hp => hu p (by simp [hp])) (by
      rw [hn, hm]; omega)
    have hperm : (os ++ live g1).Perm (o :: os ++ live g) :=
      (hl.append_left os).trans (List.perm_middle)
    refine ⟨g', ?_, h2, by rw [h3, hm], h4.trans hperm, ?_⟩
    · rw [List.foldlM_cons, hadd]; exact h1
    · intro hcl hnd
      apply h5
      · apply hc hcl
        intro p hp heq
        rw [List.cons_append, List.map_cons, List.nodup_cons] at hnd
        apply hnd.1
        rw [← heq]
        exact List.mem_map_of_mem (List.mem_append_right _ hp)
      · exact (perm_uids hperm).mpr hnd

theorem grow_pow {m : Nat} (h : ∃ k, 3 ≤ k ∧ m = 2 ^ k) :
    ∃ k, 3 ≤ k ∧ (if m < 8192 * 4 then m * 4 else m * 2) = 2 ^ k := by
  obtain ⟨k, h3, hk⟩ := h
  split
  · exact ⟨k + 2, by omega, by rw [hk, Nat.pow_add]⟩
  · exact ⟨k + 1, by omega, by rw [hk, Nat.pow_succ]⟩

/-- Insertion into an exact state, one level of resizing allowed. -/
theorem add_exact (d : Nat) (g : Group) (hg : Exact g) (o : Obj) (ho : o.uid ≠ 0) :
    ∃ g', addHashEntry (d + 2) g o = some g' ∧ Exact g' ∧ g.max ≤ g'.max ∧
      (live g').Perm (o :: live g) ∧
      (Clean g → ((o :: live g).map (·.uid)).Nodup → Clean g') := by
  obtain ⟨g1, hp, hs, hm, hn, hoc, hl, hc⟩ := place_spec hg.toShape o ho
  have hmax8 : 8 ≤ g.max := by
    obtain ⟨k, hk3, hk⟩ := hg.pow
    rw [hk]
    exact Nat.le_trans (by decide : 8 ≤ 2 ^ 3) (Nat.pow_le_pow_right (by omega) hk3)
  have hlen1 : ((live g1).length : Int) = g.nb + 1 := by rw [hl.length_eq, hg.nb]; rfl
  by_cases hbig : g1.nb < 0 ∨ g1.nb > (g1.max * 2 / 3 : Nat)
  · -- grow
    obtain ⟨k', hk3', hk'⟩ := grow_pow hs.pow
    have hge : g1.max * 2 ≤ (if g1.max < 8192 * 4 then g1.max * 4 else g1.max * 2) := by
      split <;> omega
    obtain ⟨g', h1, h2, h3, h4, h5⟩ := fold_simple d (live g1) (fresh (2 ^ k'))
      (exact_fresh k' hk3') (fun p hp => hs.uid_ne hp) (by
        show (0:Int) + (live g1).length ≤ (2 ^ k' * 2 / 3 : Nat)
        have := hg.load
        rw [hlen1, ← hk']; omega)
    refine ⟨g', ?_, h2, ?_, ?_, ?_⟩
    · simp only [addHashEntry, hp]
      show (if g1.nb < 0 ∨ g1.nb > (g1.max * 2 / 3 : Nat) then resizeWith (addHashEntry (d + 1)) g1 true else _) = _
      rw [if_pos hbig, resizeWith_eq]
      simp only [if_true]
      rw [hk']
      exact h1
    · rw [h3]; show g.max ≤ 2 ^ k'; omega
    · rw [live_fresh, List.append_nil] at h4; exact h4.trans hl
    · intro hcl hnd
      apply h5 (clean_fresh _)
      rw [live_fresh, List.append_nil]
      exact (perm_uids hl).mpr hnd
  · have hne : ¬ (g1.occ = g1.max) := by
      have := hg.occEq; omega
    refine ⟨g1, ?_, ?_, by omega, hl, ?_⟩
    · exact add_keep _ hp hbig hne
    · refine { toShape0 := hs, occlt := ?_, nb := ?_, occEq := ?_, load := by omega }
      · have := hg.occEq; omega
      · rw [hn, hlen1]
      · have := hg.occEq; omega
    · intro hcl hnd
      apply hc hcl
      intro p hp heq
      rw [List.map_cons, List.nodup_cons] at hnd
      apply hnd.1
      rw [← heq]
      exact List.mem_map_of_mem hp

theorem fold_exact (d : Nat) (os : List Obj) (g : Group) (hg : Exact g)
    (hu : ∀ o ∈ os, o.uid ≠ 0) :
    ∃ g', os.foldlM (addHashEntry (d + 2)) g = some g' ∧ Exact g' ∧
      (live g').Perm (os ++ live g) ∧
      (Clean g → ((os ++ live g).map (·.uid)).Nodup → Clean g') := by
  induction os generalizing g with
  | nil => exact ⟨g, rfl, hg, List.Perm.refl _, fun h _ => h⟩
  | cons o os ih =>
    obtain ⟨g1, h1, h2, _, h4, h5⟩ := add_exact d g hg o (hu o (by simp))
    obtain ⟨g', k1, k2, k3, k4⟩ := ih g1 h2 (fun p hp => hu p (by simp [hp]))
    have hperm : (os ++ live g1).Perm (o :: os ++ live g) :=
      (h4.append_left os).trans (List.perm_middle)
    refine ⟨g', ?_, k2, k3.trans hperm, ?_⟩
    · rw [List.foldlM_cons, h1]; exact k1
    · intro hcl hnd
      apply k4
      · apply h5 hcl
        rw [List.cons_append, List.map_cons, List.nodup_cons] at hnd
        rw [List.map_cons, List.nodup_cons]
        refine ⟨fun hm => hnd.1 ?_, ?_⟩
        · rw [List.map_append]; exact List.mem_append_right _ hm
        · rw [List.map_append] at hnd
          exact (List.nodup_append.mp hnd.2).2.1
      · exact (perm_uids hperm).mpr hnd

/-- Insertion into any state satisfying the invariant returns, keeps the invariant, and adds
exactly the object. -/
theorem add_spec (d : Nat) (g : Group) (hg : Shape g) (o : Obj) (ho : o.uid ≠ 0) :
    ∃ g', addHashEntry (d + 3) g o = some g' ∧ Shape g' ∧
      (live g').Perm (o :: live g) ∧
      (Clean g → ((o :: live g).map (·.uid)).Nodup → Clean g') ∧
      (g.nb = (live g).length → g'.nb = (live g').length) := by
  obtain ⟨g1, hp, hs, hm, hn, hoc, hl, hc⟩ := place_spec hg o ho
  have hres : ∀ inc, ∃ g', resizeWith (addHashEntry (d + 2)) g1 inc = some g' ∧ Shape g' ∧
      (live g').Perm (o :: live g) ∧
      (Clean g → ((o :: live g).map (·.uid)).Nodup → Clean g') ∧
      (g.nb = (live g).length → g'.nb = (live g').length) := by
    intro inc
    have hpow : ∃ k', 3 ≤ k' ∧
        (if inc then (if g1.max < 8192 * 4 then g1.max * 4 else g1.max * 2) else g1.max) = 2 ^ k' := by
      cases inc with
      | true => exact grow_pow hs.pow
      | false => exact hs.pow
    obtain ⟨k', hk3', hk'⟩ := hpow
    obtain ⟨g', h1, h2, h4, h5⟩ := fold_exact d (live g1) (fresh (2 ^ k'))
      (exact_fresh k' hk3') (fun p hp => hs.uid_ne hp)
    rw [live_fresh, List.append_nil] at h4 h5
    refine ⟨g', ?_, h2.toShape, h4.trans hl, ?_, fun _ => h2.nb⟩
    · rw [resizeWith_eq, hk']; exact h1
    · intro _ hnd
      exact h5 (clean_fresh _) ((perm_uids hl).mpr hnd)
  simp only [addHashEntry, hp]
  show ∃ g', (if g1.nb < 0 ∨ g1.nb > (g1.max * 2 / 3 : Nat) then resizeWith (addHashEntry (d + 2)) g1 true
    else if g1.occ = g1.max then resizeWith (addHashEntry (d + 2)) g1 false else some g1) = some g' ∧ _
  by_cases hbig : g1.nb < 0 ∨ g1.nb > (g1.max * 2 / 3 : Nat)
  · rw [if_pos hbig]; exact hres true
  · rw [if_neg hbig]
    by_cases hfull : g1.occ = g1.max
    · rw [if_pos hfull]; exact hres false
    · rw [if_neg hfull]
      refine ⟨g1, rfl, ⟨hs, ?_⟩, hl, ?_, fun h => by rw [hn, h, hl.length_eq]; rfl⟩
      · have := hg.occlt; omega
      · intro hcl hnd
        apply hc hcl
        intro p hp heq
        rw [List.map_cons, List.nodup_cons] at hnd
        apply hnd.1
        rw [← heq]
        exact List.mem_map_of_mem hp

/-! ### Removal -/

theorem clear_shape {g : Group} (h : Shape g) {r : Nat} {e : Entry} (he : g.tab[r]? = some e) (n : Int) :
    Shape { g with tab := g.tab.set r { e with obj := none }, nb := n } ∧
    (Clean g → Clean { g with tab := g.tab.set r { e with obj := none }, nb := n }) := by
  have hlt : r < g.tab.length := by
    rcases List.getElem?_eq_some_iff.mp he with ⟨h, _⟩; exact h
  have hget : ∀ (i : Nat) (e' : Entry), (g.tab.set r { e with obj := none })[i]? = some e' →
      ∃ e'', g.tab[i]? = some e'' ∧ e'.hash = e''.hash ∧ (∀ o, e'.obj = some o → e''.obj = some o) := by
    intro i e' he'
    rw [List.getElem?_set] at he'
    by_cases hir : r = i
    · subst hir
      rw [if_pos rfl, if_pos hlt] at he'
      injection he' with he'
      subst he'
      exact ⟨e, he, rfl, by intro o ho; cases ho⟩
    · rw [if_neg hir] at he'
      exact ⟨e', he', rfl, fun o ho => ho⟩
  refine ⟨⟨⟨h.pow, by simp [h.len], ?_, ?_, ?_, ?_⟩, h.occlt⟩, ?_⟩
  · intro e' he' h0
    obtain ⟨i, hi⟩ := List.getElem?_of_mem he'
    obtain ⟨e'', h1, h2, h3⟩ := hget i e' hi
    have := h.zero e'' (List.mem_of_getElem? h1) (h2 ▸ h0)
    cases ho : e'.obj with
    | none => rfl
    | some o => rw [h3 o ho] at this; cases this
  · intro e' he' o ho
    obtain ⟨i, hi⟩ := List.getElem?_of_mem he'
    obtain ⟨e'', h1, h2, h3⟩ := hget i e' hi
    rw [h2]
    exact h.key e'' (List.mem_of_getElem? h1) o (h3 o ho)
  · intro i e' o hi ho
    obtain ⟨e'', h1, h2, h3⟩ := hget i e' hi
    obtain ⟨j, p1, p2, p3⟩ := h.path i e'' o h1 (h3 o ho)
    refine ⟨j, p1, p2, ?_⟩
    intro j' hj' e3 he3
    obtain ⟨e4, q1, q2, q3⟩ := hget _ e3 he3
    rw [q2]
    exact p3 j' hj' e4 q1
  · rw [show used (g.tab.set r { e with obj := none }) = used g.tab from
      used_set_same _ _ _ _ he rfl]
    exact h.occ
  · intro hc i e' o hi ho
    obtain ⟨e'', h1, h2, h3⟩ := hget i e' hi
    obtain ⟨j, p1, p2, p3⟩ := hc i e'' o h1 (h3 o ho)
    refine ⟨j, p1, p2, ?_⟩
    intro j' hj' e3 he3
    obtain ⟨e4, q1, q2, q3⟩ := hget _ e3 he3
    rw [q2]
    exact p3 j' hj' e4 q1

/-- Removal always returns and keeps the invariant, whatever is removed. -/
theorem remove_total {g : Group} (h : Shape g) (u : Nat) :
    ∃ g', removeHashEntry g u = some g' ∧ Shape g' ∧ (Clean g → Clean g') := by
  obtain ⟨k, hk3, hk⟩ := h.pow
  let stop := fun (e : Entry) => e.hash == 0 || e.hash == u
  obtain ⟨r, hr⟩ := probe_ex stop g k hk h.len u (by
    obtain ⟨e, he, h0⟩ := h.free
    exact ⟨e, he, by simp [stop, h0]⟩)
  obtain ⟨j, hj, hrj, ⟨e, he, hs⟩, hb⟩ := probe_some stop g k hk u r hr
  have := clear_shape h he (g.nb - 1)
  refine ⟨_, ?_, this.1, this.2⟩
  unfold removeHashEntry
  have hr' : probe (fun e => e.hash == 0 || e.hash == u) g u = some r := hr
  simp [hr', he]

/-- Removing a present object from a clean table removes exactly that object. -/
theorem remove_exact {g : Group} (h : Shape g) (hc : Clean g)
    (hnd : ((live g).map (·.uid)).Nodup) (o : Obj) (ho : o ∈ live g) :
    ∃ g', removeHashEntry g o.uid = some g' ∧ Shape g' ∧ Clean g' ∧
      (live g).Perm (o :: live g') ∧ g'.nb = (g.nb - 1) := by
  obtain ⟨k, hk3, hk⟩ := h.pow
  let stop := fun (e : Entry) => e.hash == 0 || e.hash == o.uid
  obtain ⟨r, hr⟩ := probe_ex stop g k hk h.len o.uid (by
    obtain ⟨e, he, h0⟩ := h.free
    exact ⟨e, he, by simp [stop, h0]⟩)
  obtain ⟨j, hj, hrj, ⟨e, he, hs⟩, hb⟩ := probe_some stop g k hk o.uid r hr
  obtain ⟨i, e2, he2, ho2⟩ := mem_live.mp ho
  obtain ⟨j0, hj0, hi0, hp0⟩ := hc i e2 o he2 ho2
  have hjj : j = j0 := by
    rcases Nat.lt_trichotomy j j0 with hlt | heq | hgt
    · have := hp0 j hlt e (hrj ▸ he)
      simp [stop, this.1, this.2] at hs
    · exact heq
    · have := hb j0 hgt e2 (hi0 ▸ he2)
      have hk2 := h.key e2 (List.mem_of_getElem? he2) o ho2
      simp [stop, ← hk2] at this
  subst hjj
  rw [← hi0] at hrj
  subst hrj
  rw [he] at he2
  injection he2 with he2
  subst he2
  have hcs := clear_shape h he (g.nb - 1)
  refine ⟨_, ?_, hcs.1, hcs.2 hc, filterMap_clear_perm he ho2, rfl⟩
  unfold removeHashEntry
  have hr' : probe (fun e => e.hash == 0 || e.hash == o.uid) g o.uid = some r := hr
  simp [hr', he]

theorem shape_init : Shape init := (exact_fresh 3 (by omega)).toShape
theorem clean_init : Clean init := clean_fresh 8
theorem live_init : live init = [] := live_fresh 8

end Clr.ObjectGroup
