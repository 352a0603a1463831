import Verif.Proofs.ScanUnit
/-!
The declarations a walk over a translation unit runs over are those that are reflected.
-/
namespace Clr.ScanUnit
open Clr.Scan (Attr Rec Kind gather allowOf scopeName Visible Scope Fine ReflFrom Inside Declared)
open Clr.ScanTypes

open Classical in
mutual
theorem tree_rlist (texts : List Bytes) : ∀ (t : Tree Marked) (pre : List Marked),
    t.rlist texts pre = (t.listing.filter fun x => decide (ReflFrom texts (pre.map info) (x.1.map info) (info x.2))).map
      fun x => (scopeName ((pre ++ x.1).map info), x.2)
  | .node x kids, pre => by
    rw [Tree.rlist, Tree.listing, List.filter_cons]
    by_cases hv : Visible texts (pre.map info) (info x)
    · have hd : decide (ReflFrom texts (pre.map info) ((([], x) : List Marked × Marked).1.map info) (info (([], x) : List Marked × Marked).2)) =
          true := decide_eq_true (Scan.reflFrom_nil.2 hv)
      rw [if_pos hv, if_pos hd, List.map_cons, List.append_nil]
      congr 1
      by_cases hs : Scope (info x)
      · rw [if_pos hs, forest_rlist texts kids, List.filter_map, List.map_map]
        have e : (fun y : List Marked × Marked => decide (ReflFrom texts ((pre ++ [x]).map info) (y.1.map info) (info y.2))) =
            ((fun y => decide (ReflFrom texts (pre.map info) (y.1.map info) (info y.2))) ∘ fun y : List Marked × Marked => (x :: y.1, y.2)) := by
          funext y
          simp [Scan.reflFrom_cons, hv, hs]
        rw [e]
        refine List.map_congr_left fun y _ => ?_
        simp
      · rw [if_neg hs]
        symm
        rw [List.map_eq_nil_iff, List.filter_eq_nil_iff]
        intro y hy
        obtain ⟨z, _, rfl⟩ := List.mem_map.1 hy
        simp [Scan.reflFrom_cons, hs]
    · have hd : ¬ decide (ReflFrom texts (pre.map info) ((([], x) : List Marked × Marked).1.map info) (info (([], x) : List Marked × Marked).2)) =
          true := fun h => hv (Scan.reflFrom_nil.1 (of_decide_eq_true h))
      rw [if_neg hv, if_neg hd]
      symm
      rw [List.map_eq_nil_iff, List.filter_eq_nil_iff]
      intro y hy
      obtain ⟨z, _, rfl⟩ := List.mem_map.1 hy
      simp [Scan.reflFrom_cons, hv]

theorem forest_rlist (texts : List Bytes) : ∀ (f : Forest Marked) (pre : List Marked),
    f.rlist texts pre = (f.listing.filter fun x => decide (ReflFrom texts (pre.map info) (x.1.map info) (info x.2))).map
      fun x => (scopeName ((pre ++ x.1).map info), x.2)
  | .nil, pre => rfl
  | .cons t r, pre => by
    rw [Forest.rlist, Forest.listing, List.filter_append, List.map_append, tree_rlist texts t, forest_rlist texts r]
end

theorem tree_head {α : Type} (t : Tree α) : ∀ x ∈ t.listing, (x.1 ++ [x.2]).head? = some t.item := by
  cases t with
  | node i kids =>
    intro x hx
    rw [Tree.listing] at hx
    rcases List.mem_cons.1 hx with rfl | hx
    · rfl
    · obtain ⟨y, _, rfl⟩ := List.mem_map.1 hx
      rfl

theorem kind_tops (k : Kind) : (k = .namespace ∨ k = .cls ∨ k = .function ∨ k = .enum ∨ k = .template) ↔ Scan.topLevel k = true :=
  Scan.topLevel_iff.symm

theorem reached_nil (texts : List Bytes) : reached texts .nil = [] := rfl

open Classical in
theorem reached_cons (texts : List Bytes) (t : Tree Marked) (r : Forest Marked) :
    reached texts (.cons t r) = (if Scan.topLevel t.item.1.what.kind then t.rlist texts [] else []) ++ reached texts r := by
  rw [reached, Forest.listing, List.filter_append, List.map_append, ← reached]
  congr 1
  by_cases h : Scan.topLevel t.item.1.what.kind = true
  · rw [if_pos h, tree_rlist]
    rw [List.filter_congr (q := fun x => decide (ReflFrom texts (([] : List Marked).map info) (x.1.map info) (info x.2)))]
    · rfl
    · intro x hx
      have hr : Reached texts x ↔ ReflFrom texts (([] : List Marked).map info) (x.1.map info) (info x.2) := by
        constructor
        · exact fun h => h.1
        · intro h'
          refine ⟨h', fun y hy => ?_⟩
          rw [tree_head t x hx] at hy
          injection hy with hy
          subst hy
          exact (kind_tops _).2 h
      exact decide_eq_decide.2 hr
  · rw [if_neg h, List.map_eq_nil_iff, List.filter_eq_nil_iff]
    intro x hx
    simp only [decide_eq_true_eq]
    intro hr
    exact h ((kind_tops _).1 (hr.2 _ (tree_head t x hx)))

theorem decl_kind (t : Tree Marked) : Scan.topLevel t.decl.kind = Scan.topLevel t.item.1.what.kind := by
  cases t with
  | node x kids => rfl

open Classical in
theorem walk_run (env : Env) (fuel : Nat) (texts : List Bytes) : ∀ (f : Forest Item) (s s' : St),
    (∀ x ∈ f.listing, Fine texts (info (x.2, true))) → s.allow = false → walk env fuel (gather texts) f s = some s' →
    ∃ L : Forest Marked, L.map Prod.fst = f ∧
      Went env fuel texts s s' L.listing (reached texts L) (Scan.walk (gather texts) L.decls)
  | .nil, s, s', _, _, h => by
    rw [walk] at h
    injection h with h
    subst h
    refine ⟨.nil, rfl, fun x hx => absurd hx List.not_mem_nil, rfl, .nil, fun sc h1 h2 => ⟨h1, h2⟩⟩
  | .cons t r, s, s', hf, ha, h => by
    rw [walk] at h
    obtain ⟨s1, h1, h2⟩ := Option.bind_eq_some_iff.1 h
    have htree : ∃ lt : Tree Marked, lt.map Prod.fst = t ∧ Went env fuel texts s s1 lt.listing
        (if Scan.topLevel lt.item.1.what.kind then lt.rlist texts [] else [])
        (fun sc => if Scan.topLevel lt.item.1.what.kind then Scan.addDecl (gather texts) lt.decl [] sc else sc) := by
      by_cases ht : Scan.topLevel t.item.what.kind = true
      · rw [if_pos ht] at h1
        obtain ⟨lt, e1, w1⟩ := tree_run env fuel texts t [] s s1 (fun x hx => hf x (List.mem_append_left _ hx)) (by rw [ha]; rfl) h1
        refine ⟨lt, e1, ?_⟩
        have hk : Scan.topLevel lt.item.1.what.kind = true := by
          rw [← e1] at ht
          cases lt with
          | node x kids => exact ht
        simp only [hk, if_true]
        exact w1
      · rw [if_neg ht] at h1
        injection h1 with h1
        subst h1
        refine ⟨t.map (guess env fuel), tree_guess env fuel t, ?_⟩
        have hk : ¬ Scan.topLevel (t.map (guess env fuel)).item.1.what.kind = true := by
          cases t with
          | node x kids => exact ht
        simp only [hk]
        refine ⟨fun x hx => ?_, rfl, .nil, fun sc h1 h2 => ⟨h1, h2⟩⟩
        rw [tree_listing_map] at hx
        obtain ⟨y, _, rfl⟩ := List.mem_map.1 hx
        exact guess_labelled env fuel _
    obtain ⟨lt, e1, w1⟩ := htree
    obtain ⟨lr, e2, w2⟩ := walk_run env fuel texts r s1 s' (fun x hx => hf x (List.mem_append_right _ hx)) (w1.allow.trans ha) h2
    refine ⟨.cons lt lr, by rw [Forest.map, e1, e2], fun x hx => ?_, w2.allow.trans w1.allow, ?_, fun sc a1 a2 => ?_⟩
    · rcases List.mem_append.1 hx with hx | hx
      · exact w1.marks x hx
      · exact w2.marks x hx
    · rw [reached_cons]
      exact w1.runs.append w2.runs
    · rw [Forest.decls, Scan.walk, decl_kind]
      obtain ⟨b1, b2⟩ := w1.attrs sc a1 a2
      have := w2.attrs _ (b1.trans w1.allow.symm) b2
      exact ⟨this.1.trans w1.allow, this.2⟩

/-! ### The same trees in the model of what is reflected -/

mutual
theorem tree_inside : ∀ (t : Tree Marked) (r : Scan.Decls) (o : List Scan.Info) (y : Scan.Info),
    Inside (.cons t.decl r) o y ↔ (∃ x ∈ t.listing, x.1.map info = o ∧ info x.2 = y) ∨ Inside r o y
  | .node i kids, r, o, y => by
    rw [Tree.decl, Scan.inside_cons, Tree.listing]
    constructor
    · rintro (⟨rfl, rfl⟩ | ⟨o', rfl, h⟩ | h)
      · exact .inl ⟨([], i), List.mem_cons_self, rfl, rfl⟩
      · obtain ⟨x, hx, rfl, rfl⟩ := (forest_inside kids o' y).1 h
        exact .inl ⟨(i :: x.1, x.2), List.mem_cons_of_mem _ (List.mem_map.2 ⟨x, hx, rfl⟩), rfl, rfl⟩
      · exact .inr h
    · rintro (⟨x, hx, rfl, rfl⟩ | h)
      · rcases List.mem_cons.1 hx with rfl | hx
        · exact .inl ⟨rfl, rfl⟩
        · obtain ⟨z, hz, rfl⟩ := List.mem_map.1 hx
          exact .inr (.inl ⟨z.1.map info, rfl, (forest_inside kids _ _).2 ⟨z, hz, rfl, rfl⟩⟩)
      · exact .inr (.inr h)

theorem forest_inside : ∀ (f : Forest Marked) (o : List Scan.Info) (y : Scan.Info),
    Inside f.decls o y ↔ ∃ x ∈ f.listing, x.1.map info = o ∧ info x.2 = y
  | .nil, o, y => by
    constructor
    · intro h
      exact absurd h Scan.inside_nil
    · rintro ⟨x, hx, _⟩
      exact absurd hx List.not_mem_nil
  | .cons t r, o, y => by
    rw [Forest.decls, tree_inside t, forest_inside r, Forest.listing]
    constructor
    · rintro (⟨x, hx, h⟩ | ⟨x, hx, h⟩)
      · exact ⟨x, List.mem_append_left _ hx, h⟩
      · exact ⟨x, List.mem_append_right _ hx, h⟩
    · rintro ⟨x, hx, h⟩
      rcases List.mem_append.1 hx with hx | hx
      · exact .inl ⟨x, hx, h⟩
      · exact .inr ⟨x, hx, h⟩
end

theorem listing_fine {texts : List Bytes} {L : Forest Marked} {f : Forest Item} (e : L.map Prod.fst = f)
    (hf : ∀ x ∈ f.listing, Fine texts (info (x.2, true))) : ∀ o y, Inside L.decls o y → Fine texts y := by
  intro o y h
  obtain ⟨x, hx, _, rfl⟩ := (forest_inside L o y).1 h
  have := hf (x.1.map Prod.fst, x.2.1) (by
    rw [← e, forest_listing_map]
    exact List.mem_map.2 ⟨x, hx, rfl⟩)
  exact fine_mark (b' := x.2.2) this

open Classical in
theorem reached_mem {texts : List Bytes} {L : Forest Marked} {y : Bytes × Marked} : y ∈ reached texts L ↔
    ∃ x ∈ L.listing, Reached texts x ∧ y = (scopeName (x.1.map info), x.2) := by
  unfold reached
  simp only [List.mem_map, List.mem_filter, decide_eq_true_eq]
  constructor
  · rintro ⟨x, ⟨h1, h2⟩, rfl⟩
    exact ⟨x, h1, h2, rfl⟩
  · rintro ⟨x, h1, h2, rfl⟩
    exact ⟨x, ⟨h1, h2⟩, rfl⟩

theorem reached_declared {texts : List Bytes} {L : Forest Marked} {x : List Marked × Marked} (hx : x ∈ L.listing) (h : Reached texts x) :
    Declared L.decls (x.1.map info) (info x.2) := by
  refine ⟨(forest_inside L _ _).2 ⟨x, hx, rfl, rfl⟩, fun t ht => ?_⟩
  rw [← List.map_singleton, ← List.map_append, List.head?_map] at ht
  obtain ⟨y, hy, rfl⟩ := Option.map_eq_some_iff.1 ht
  exact h.2 y hy

end Clr.ScanUnit
