import Verif.Props.ScanUnitSpec
import Verif.Proofs.ScanWalk
import Verif.Proofs.ScanFunctions
/-!
The walk over a translation unit as a run over the declarations that are reflected.
-/
namespace Clr.ScanUnit
open Clr.Scan (Attr Rec Kind gather allowOf scopeName Visible Scope Fine ReflFrom)
open Clr.ScanTypes

/-! ### What is done for a declaration before those in it -/

/-- The database with other tables of one kind. -/
def Data.withDb (d : Data) (db : Db) : Data := { d with db := db }

/-- What is done for a declaration, without those in it: the database, and whether it is recorded. -/
def own (env : Env) (fuel : Nat) (i : Item) (parent : Bytes) (d : Data) : Option (Data × Bool) :=
  match i.what with
  | .namespace => some (d.addNamespace i.name parent, true)
  | .cls isClass definition freeStanding anonymous vbases bases size =>
    if !definition && !freeStanding then some (d, false)
    else if definition && vbases ≠ 0 then some (d, false)
    else
      match if definition then classBases env (parseInst env fuel) i.name bases d.db else .ok () d.db with
      | .never => none
      | .fail _ db => some (d.withDb db, false)
      | .ok _ db =>
        if anonymous then some (d.withDb db, true)
        else if definition then some (((d.withDb db).addClass i.name parent isClass).sizeClass i.name size, true)
        else some ((d.withDb db).addClass i.name parent isClass, true)
  | .enum tag constants => some (d.withDb (addEnum i.name parent tag constants d.db), true)
  | .function first result params =>
    match makeFunction env (parseInst env fuel) { name := i.name, parent := parent, first := first, result := result, params := params } [] d.db with
    | .never => none
    | .fail _ db => some (d.withDb db, false)
    | .ok _ db => some (d.withDb db, first)
  | .method isOperator thisType first result params =>
    match addMethod env (parseInst env fuel)
      { name := i.name, parent := parent, first := first, result := result, params := params, thisType := thisType, isOperator := isOperator } d.db with
    | .never => none
    | .fail _ db => some (d.withDb db, false)
    | .ok _ db => some (d.withDb db, !isOperator && first)
  | .field holder name type bits =>
    if holder then some (d, false)
    else
      match makeField env (parseInst env fuel) type name parent ((bits / 8 : Nat) : Int) d.db with
      | .never => none
      | .fail _ db => some (d.withDb db, false)
      | .ok f db => some (d.withDb { db with fields := db.fields ++ [f] }, true)
  | .template params _ => some (d.addTemplate i.name parent params, decide (params ≤ 4))
  | .other => some (d, true)

/-- Whether the declarations in it are looked at. -/
def enters (x : Marked) : Bool :=
  match x.1.what with
  | .namespace => true
  | .cls _ definition _ _ _ _ _ => definition && x.2
  | _ => false

/-- Whether those in it belong to what is around it. -/
def passes (i : Item) : Bool :=
  match i.what with
  | .cls _ _ _ anonymous _ _ _ => anonymous
  | _ => false

theorem addKind_own (env : Env) (fuel : Nat) (i : Item) (h : i.what.forward = true → passes i = false)
    (inner : Bytes → St → Option St) (parent : Bytes) (s : St) :
    addKind env fuel i inner parent s = (own env fuel i parent s.data).bind fun r =>
      if enters (i, r.2) = true then inner (if passes i = true then parent else i.name) { s with data := r.1 }
      else some { s with data := r.1 } := by
  obtain ⟨name, what, invalid, attrs⟩ := i
  cases what with
  | «namespace» => rfl
  | cls isClass definition freeStanding anonymous vbases bases size =>
    simp only [addKind, own, enters, passes] at h ⊢
    cases definition with
    | false =>
      cases freeStanding with
      | false => rfl
      | true =>
        have ha : anonymous = false := h rfl
        subst ha
        rfl
    | true =>
      by_cases hv : vbases = 0
      · subst hv
        simp only [Bool.not_true, Bool.false_and, Bool.false_eq_true, if_false, ne_eq, not_true_eq_false, decide_false, Bool.and_false, if_true]
        cases classBases env (parseInst env fuel) name bases s.data.db with
        | never => rfl
        | fail _ db => rfl
        | ok _ db => cases anonymous <;> rfl
      · simp [hv]
  | enum tag constants => rfl
  | function first result params =>
    simp only [addKind, own]
    cases makeFunction env (parseInst env fuel) _ [] s.data.db <;> rfl
  | method isOperator thisType first result params =>
    simp only [addKind, own]
    cases addMethod env (parseInst env fuel) _ s.data.db <;> rfl
  | field holder fname type bits =>
    simp only [addKind, own]
    cases holder with
    | true => rfl
    | false =>
      simp only [Bool.false_eq_true, if_false]
      unfold addField
      cases makeField env (parseInst env fuel) type fname parent ((bits / 8 : Nat) : Int) s.data.db <;> rfl
  | template params forward => rfl
  | other => rfl

/-! ### The same in the model of what is reflected -/

theorem info_scope (x : Marked) : Scope (info x) ↔ enters x = true := by
  obtain ⟨⟨name, what, invalid, attrs⟩, b⟩ := x
  cases what with
  | cls isClass definition freeStanding anonymous vbases bases size =>
    cases definition <;> cases freeStanding <;> simp [Scope, info, enters, Item.asked, What.kind, What.forward]
  | _ => simp [Scope, info, enters, Item.asked, What.kind]

theorem parse_info (specs : Scan.Specs) (x : Marked) (allow : Bool) (store : List Rec) :
    Scan.parseAttributes specs (info x) allow store = Scan.parseAttributes specs x.1.asked allow store := rfl

theorem addOnce_attrs (s : Scan.St) (e : Scan.Entry) : (s.addOnce e).attrs = s.attrs := by
  rw [Scan.St.addOnce]
  split <;> rfl

theorem info_passes (x : Marked) : ((info x).kind == .cls && (info x).anonymous) = passes x.1 := by
  obtain ⟨⟨name, what, invalid, attrs⟩, b⟩ := x
  cases what <;> rfl

theorem scopeName_snoc (pre : List Marked) (x : Marked) :
    scopeName ((pre ++ [x]).map info) = if passes x.1 = true then scopeName (pre.map info) else x.1.name := by
  rw [List.map_append, List.map_singleton, Scan.scopeName_append, info_passes]
  rfl

theorem scan_kind (x : Marked) (h : x.1.what.forward = true → passes x.1 = false) (inner : Bytes → Scan.St → Scan.St) (parent : Bytes)
    (s : Scan.St) : ∃ s1 : Scan.St, s1.attrs = s.attrs ∧ s1.allow = s.allow ∧
      Scan.addKind (info x) inner parent s =
        if enters x = true then inner (if passes x.1 = true then parent else x.1.name) s1 else s1 := by
  obtain ⟨⟨name, what, invalid, attrs⟩, b⟩ := x
  cases what with
  | «namespace» => exact ⟨_, addOnce_attrs _ _, Scan.addOnce_allow _ _, rfl⟩
  | cls isClass definition freeStanding anonymous vbases bases size =>
    simp only [passes, What.forward] at h
    cases definition with
    | false =>
      cases freeStanding with
      | false => exact ⟨s, rfl, rfl, rfl⟩
      | true =>
        have ha : anonymous = false := h rfl
        subst ha
        exact ⟨_, addOnce_attrs _ _, Scan.addOnce_allow _ _, rfl⟩
    | true =>
      cases b with
      | false => exact ⟨s, rfl, rfl, rfl⟩
      | true =>
        cases anonymous with
        | true => exact ⟨s, rfl, rfl, rfl⟩
        | false => exact ⟨_, addOnce_attrs _ _, Scan.addOnce_allow _ _, rfl⟩
  | enum tag constants => exact ⟨Scan.addKind (info (⟨name, .enum tag constants, invalid, attrs⟩, b)) inner parent s, rfl, rfl, rfl⟩
  | function first result params =>
    cases b with
    | false => exact ⟨s, rfl, rfl, rfl⟩
    | true => exact ⟨Scan.addKind (info (⟨name, .function first result params, invalid, attrs⟩, true)) inner parent s, rfl, rfl, rfl⟩
  | method isOperator thisType first result params =>
    cases b with
    | false => exact ⟨s, rfl, rfl, rfl⟩
    | true => exact ⟨Scan.addKind (info (⟨name, .method isOperator thisType first result params, invalid, attrs⟩, true)) inner parent s, rfl, rfl, rfl⟩
  | field holder fname type bits =>
    cases b with
    | false => exact ⟨s, rfl, rfl, rfl⟩
    | true => exact ⟨Scan.addKind (info (⟨name, .field holder fname type bits, invalid, attrs⟩, true)) inner parent s, rfl, rfl, rfl⟩
  | template params forward =>
    cases b with
    | false => exact ⟨_, rfl, rfl, rfl⟩
    | true => exact ⟨_, addOnce_attrs _ _, Scan.addOnce_allow _ _, rfl⟩
  | other => exact ⟨s, rfl, rfl, rfl⟩

mutual
/-- The tree in the model of what is reflected. -/
def Tree.decl : Tree Marked → Scan.Decl
  | .node x kids => .mk (info x) kids.decls

/-- The same of trees in order. -/
def Forest.decls : Forest Marked → Scan.Decls
  | .nil => .nil
  | .cons t r => .cons t.decl r.decls
end

/-! ### Runs -/

/-- One declaration after the other. -/
inductive Runs (env : Env) (fuel : Nat) : Data → List (Bytes × Marked) → Data → Prop where
  | nil {d : Data} : Runs env fuel d [] d
  | cons {d d1 d' : Data} {p : Bytes} {x : Marked} {l : List (Bytes × Marked)} : own env fuel x.1 p d = some (d1, x.2) →
      Runs env fuel d1 l d' → Runs env fuel d ((p, x) :: l) d'

theorem Runs.append {env : Env} {fuel : Nat} {d d1 d2 : Data} {l l' : List (Bytes × Marked)} (h : Runs env fuel d l d1)
    (h' : Runs env fuel d1 l' d2) : Runs env fuel d (l ++ l') d2 := by
  induction h with
  | nil => exact h'
  | cons ho _ ih => exact .cons ho (ih h')

/-- The mark comes from doing it. -/
def Labelled (env : Env) (fuel : Nat) (x : Marked) : Prop :=
  (∃ p d d1, own env fuel x.1 p d = some (d1, x.2)) ∨ (own env fuel x.1 [] {} = none ∧ x.2 = false)

/-- A mark for a declaration that is not reached. -/
def guess (env : Env) (fuel : Nat) (i : Item) : Marked :=
  (i, match own env fuel i [] {} with
    | some r => r.2
    | none => false)

theorem guess_labelled (env : Env) (fuel : Nat) (i : Item) : Labelled env fuel (guess env fuel i) := by
  unfold guess Labelled
  cases h : own env fuel i [] {} with
  | none => exact .inr ⟨rfl, rfl⟩
  | some r => exact .inl ⟨[], {}, r.1, h⟩

mutual
theorem tree_guess (env : Env) (fuel : Nat) : ∀ t : Tree Item, (t.map (guess env fuel)).map Prod.fst = t
  | .node i kids => by rw [Tree.map, Tree.map, forest_guess env fuel kids]; rfl

theorem forest_guess (env : Env) (fuel : Nat) : ∀ f : Forest Item, (f.map (guess env fuel)).map Prod.fst = f
  | .nil => rfl
  | .cons t r => by rw [Forest.map, Forest.map, tree_guess env fuel t, forest_guess env fuel r]
end

mutual
theorem tree_listing_map {α β : Type} (f : α → β) : ∀ t : Tree α, (t.map f).listing = t.listing.map fun x => (x.1.map f, f x.2)
  | .node i kids => by
    rw [Tree.map, Tree.listing, Tree.listing, forest_listing_map f kids]
    simp [Function.comp_def]

theorem forest_listing_map {α β : Type} (f : α → β) : ∀ t : Forest α, (t.map f).listing = t.listing.map fun x => (x.1.map f, f x.2)
  | .nil => rfl
  | .cons t r => by
    rw [Forest.map, Forest.listing, Forest.listing, tree_listing_map f t, forest_listing_map f r, List.map_append]
end

open Classical in
mutual
/-- The declarations of a tree that are reflected, in known scopes. -/
noncomputable def Tree.rlist (texts : List Bytes) (pre : List Marked) : Tree Marked → List (Bytes × Marked)
  | .node x kids =>
    if Visible texts (pre.map info) (info x) then
      (scopeName (pre.map info), x) :: if Scope (info x) then kids.rlist texts (pre ++ [x]) else []
    else []

/-- The same of trees in order. -/
noncomputable def Forest.rlist (texts : List Bytes) (pre : List Marked) : Forest Marked → List (Bytes × Marked)
  | .nil => []
  | .cons t r => t.rlist texts pre ++ r.rlist texts pre
end

/-- What the run over a tree amounts to. -/
structure Went (env : Env) (fuel : Nat) (texts : List Bytes) (s s' : St) (all : List (List Marked × Marked)) (l : List (Bytes × Marked))
    (scan : Scan.St → Scan.St) : Prop where
  marks : ∀ x ∈ all, Labelled env fuel x.2
  allow : s'.allow = s.allow
  runs : Runs env fuel s.data l s'.data
  attrs : ∀ sc : Scan.St, sc.allow = s.allow → sc.attrs = s.attrs → (scan sc).allow = s.allow ∧ (scan sc).attrs = s'.attrs

/-- What is assumed of a declaration, whatever its mark. -/
theorem fine_mark {texts : List Bytes} {i : Item} {b b' : Bool} (h : Fine texts (info (i, b))) : Fine texts (info (i, b')) := h

theorem fine_passes {texts : List Bytes} {x : Marked} (h : Fine texts (info x)) : x.1.what.forward = true → passes x.1 = false := by
  intro hf
  have := h.2.2 hf
  obtain ⟨⟨name, what, invalid, attrs⟩, b⟩ := x
  cases what <;> first | rfl | exact this

theorem allow_snoc (texts : List Bytes) (pre : List Marked) (x : Marked) :
    allowOf texts ((pre ++ [x]).map info) = (allowOf texts (pre.map info) || Scan.mark texts (info x) == .reflect) := by
  rw [List.map_append, List.map_singleton, Scan.allowOf_append]

open Classical in
mutual
theorem tree_run (env : Env) (fuel : Nat) (texts : List Bytes) : ∀ (t : Tree Item) (pre : List Marked) (s s' : St),
    (∀ x ∈ t.listing, Fine texts (info (x.2, true))) → s.allow = allowOf texts (pre.map info) →
    addTree env fuel (gather texts) t (scopeName (pre.map info)) s = some s' →
    ∃ L : Tree Marked, L.map Prod.fst = t ∧
      Went env fuel texts s s' L.listing (L.rlist texts pre) (Scan.addDecl (gather texts) L.decl (scopeName (pre.map info)))
  | .node i kids, pre, s, s', hf, ha, h => by
    rw [addTree, addItem] at h
    have hfi : Fine texts (info (i, true)) := hf ([], i) List.mem_cons_self
    have hfk : ∀ x ∈ kids.listing, Fine texts (info (x.2, true)) := fun x hx =>
      hf (i :: x.1, x.2) (List.mem_cons_of_mem _ (List.mem_map.2 ⟨x, hx, rfl⟩))
    -- nothing is done
    have skip : ∀ (s1 : St), some s1 = some s' → s1.allow = s.allow → s1.data = s.data →
        (∀ b, ¬ Visible texts (pre.map info) (info (i, b))) →
        (∀ (b : Bool) (kids : Scan.Decls) (sc : Scan.St), sc.allow = s.allow → sc.attrs = s.attrs →
          (Scan.addDecl (gather texts) (.mk (info (i, b)) kids) (scopeName (pre.map info)) sc).allow = s.allow ∧
          (Scan.addDecl (gather texts) (.mk (info (i, b)) kids) (scopeName (pre.map info)) sc).attrs = s1.attrs) →
        ∃ L : Tree Marked, L.map Prod.fst = .node i kids ∧
          Went env fuel texts s s' L.listing (L.rlist texts pre) (Scan.addDecl (gather texts) L.decl (scopeName (pre.map info))) := by
      intro s1 e hal hd hv hs
      injection e with e
      subst e
      refine ⟨(Tree.node i kids).map (guess env fuel), tree_guess env fuel _, ?_, hal, ?_, ?_⟩
      · intro x hx
        rw [tree_listing_map] at hx
        obtain ⟨y, _, rfl⟩ := List.mem_map.1 hx
        exact guess_labelled env fuel _
      · rw [Tree.map, Tree.rlist]
        have hv' : ¬ Visible texts (pre.map info) (info (guess env fuel i)) := hv (guess env fuel i).2
        rw [if_neg hv', hd]
        exact .nil
      · intro sc h1 h2
        rw [Tree.map, Tree.decl]
        exact hs (guess env fuel i).2 _ sc h1 h2
    by_cases hinv : i.invalid = true
    · rw [if_pos hinv] at h
      refine skip s h rfl rfl (fun b hv => ?_) (fun b kids sc h1 h2 => ?_)
      · have : i.invalid = false := hv.1
        rw [hinv] at this; cases this
      · rw [Scan.addDecl, Scan.addInfo, if_pos (show (info (i, b)).invalid = true from hinv)]
        exact ⟨h1, h2⟩
    · rw [if_neg hinv] at h
      have hinv : i.invalid = false := by simpa using hinv
      have hm : ∀ b, Scan.mark texts (info (i, b)) = Scan.mark texts (info (i, true)) := fun _ => rfl
      have hmark := Scan.parse_mark hfi s.allow s.attrs
      rw [parse_info] at hmark
      dsimp only at h
      generalize hr : Scan.parseAttributes (gather texts) i.asked s.allow s.attrs = r at h hmark
      rw [hmark] at h
      -- the attributes on the other side
      have hsc : ∀ (b : Bool) (sc : Scan.St), sc.allow = s.allow → sc.attrs = s.attrs →
          Scan.parseAttributes (gather texts) (info (i, b)) sc.allow sc.attrs = r := by
        intro b sc h1 h2
        rw [parse_info, h1, h2, hr]
      by_cases hno : Scan.mark texts (info (i, true)) = .no
      · rw [if_pos hno] at h
        refine skip _ h rfl rfl (fun b hv => hv.2.1 hno) (fun b kids sc h1 h2 => ?_)
        rw [Scan.addDecl, Scan.addInfo, if_neg (by rw [show (info (i, b)).invalid = i.invalid from rfl, hinv]; simp)]
        dsimp only
        rw [hsc b sc h1 h2, hmark, if_pos hno]
        exact ⟨h1, rfl⟩
      · rw [if_neg hno] at h
        -- it is reached
        have reach : ∀ (s1 : St), s1.attrs = r.2 → s1.data = s.data → s1.allow = allowOf texts ((pre ++ [(i, true)]).map info) →
            ∀ s2, addKind env fuel i (fun p s => addForest env fuel (gather texts) kids p s) (scopeName (pre.map info)) s1 = some s2 →
            (∀ b, Visible texts (pre.map info) (info (i, b))) →
            ∃ L : Tree Marked, L.map Prod.fst = .node i kids ∧ (∀ x ∈ L.listing, Labelled env fuel x.2) ∧ s2.allow = s1.allow ∧
              Runs env fuel s.data (L.rlist texts pre) s2.data ∧ ∃ (b : Bool) (lk : Forest Marked), L = .node (i, b) lk ∧
              ∀ sc : Scan.St, sc.allow = s1.allow → sc.attrs = r.2 →
                (Scan.addKind (info (i, b)) (fun p s => Scan.addDecls (gather texts) lk.decls p s) (scopeName (pre.map info)) sc).allow =
                  s1.allow ∧
                (Scan.addKind (info (i, b)) (fun p s => Scan.addDecls (gather texts) lk.decls p s) (scopeName (pre.map info)) sc).attrs =
                  s2.attrs := by
          intro s1 e1 e2 e3 s2 hk hv
          rw [addKind_own env fuel i (fine_passes hfi)] at hk
          obtain ⟨⟨d1, b⟩, ho, hk⟩ := Option.bind_eq_some_iff.1 hk
          rw [e2] at ho
          dsimp only at hk
          have hpass := fine_passes (x := (i, b)) hfi
          by_cases hen : enters (i, b) = true
          · rw [if_pos hen] at hk
            have hk' : addForest env fuel (gather texts) kids (scopeName ((pre ++ [(i, b)]).map info)) { s1 with data := d1 } = some s2 := by
              rw [scopeName_snoc]; exact hk
            obtain ⟨lk, el, w⟩ := forest_run env fuel texts kids (pre ++ [(i, b)]) { s1 with data := d1 } s2 hfk (by
              rw [allow_snoc]; rw [allow_snoc] at e3; exact e3) hk'
            refine ⟨.node (i, b) lk, by rw [Tree.map, el], ?_, w.allow, ?_, b, lk, rfl, fun sc h1 h2 => ?_⟩
            · intro x hx
              rw [Tree.listing] at hx
              rcases List.mem_cons.1 hx with rfl | hx
              · exact .inl ⟨_, _, _, ho⟩
              · obtain ⟨y, hy, rfl⟩ := List.mem_map.1 hx
                exact w.marks y hy
            · rw [Tree.rlist, if_pos (hv b), if_pos ((info_scope _).2 hen)]
              exact .cons ho w.runs
            · obtain ⟨sc1, a1, a2, a3⟩ := scan_kind (i, b) hpass (fun p s => Scan.addDecls (gather texts) lk.decls p s)
                (scopeName (pre.map info)) sc
              rw [a3, if_pos hen]
              have := w.attrs sc1 (a2.trans h1) (a1.trans (h2.trans e1.symm))
              rw [scopeName_snoc] at this
              exact this
          · rw [if_neg hen] at hk
            injection hk with hk
            subst hk
            refine ⟨.node (i, b) (kids.map (guess env fuel)), by rw [Tree.map, forest_guess], ?_, rfl, ?_, b, _, rfl, fun sc h1 h2 => ?_⟩
            · intro x hx
              rw [Tree.listing] at hx
              rcases List.mem_cons.1 hx with rfl | hx
              · exact .inl ⟨_, _, _, ho⟩
              · obtain ⟨y, hy, rfl⟩ := List.mem_map.1 hx
                rw [forest_listing_map] at hy
                obtain ⟨z, _, rfl⟩ := List.mem_map.1 hy
                exact guess_labelled env fuel _
            · rw [Tree.rlist, if_pos (hv b), if_neg (fun h => hen ((info_scope _).1 h))]
              exact .cons ho .nil
            · obtain ⟨sc1, a1, a2, a3⟩ := scan_kind (i, b) hpass (fun p s => Scan.addDecls (gather texts) (kids.map (guess env fuel)).decls p s)
                (scopeName (pre.map info)) sc
              rw [a3, if_neg hen]
              exact ⟨a2.trans h1, a1.trans (h2.trans e1.symm)⟩
        have hrfl : ∀ b, (info (i, b)).invalid = false := fun _ => hinv
        by_cases hre : Scan.mark texts (info (i, true)) = .reflect
        · rw [if_pos hre] at h
          obtain ⟨s2, hk, h⟩ := Option.map_eq_some_iff.1 h
          have hv : ∀ b, Visible texts (pre.map info) (info (i, b)) := fun b => ⟨hinv, hno, .inr ⟨info (i, b), List.mem_append_right _ (List.mem_singleton.2 rfl), hre⟩⟩
          obtain ⟨L, el, hl, hal, hrun, b, lk, eL, hat⟩ := reach { allow := true, attrs := r.2, data := s.data } rfl rfl
            (by rw [allow_snoc, hre]; simp) s2 hk hv
          subst h
          refine ⟨L, el, hl, rfl, hrun, fun sc h1 h2 => ?_⟩
          subst eL
          rw [Tree.decl, Scan.addDecl, Scan.addInfo, if_neg (by rw [hrfl]; simp)]
          dsimp only
          rw [hsc b sc h1 h2, hmark, if_neg hno, if_pos hre]
          have := hat { sc with attrs := r.2, allow := true } rfl rfl
          exact ⟨h1, this.2⟩
        · rw [if_neg hre] at h
          have hall : allowOf texts ((pre ++ [(i, true)]).map info) = allowOf texts (pre.map info) := by
            rw [allow_snoc, show (Scan.mark texts (info (i, true)) == Scan.Mark.reflect) = false by simpa using hre, Bool.or_false]
          by_cases hp : s.allow = true ∨ Scan.mark texts (info (i, true)) = .part
          · rw [if_pos hp] at h
            have hv : ∀ b, Visible texts (pre.map info) (info (i, b)) := by
              intro b
              refine ⟨hinv, hno, ?_⟩
              rcases hp with h | h
              · rw [ha] at h
                obtain ⟨x, hx, hm⟩ := Scan.allowOf_iff.1 h
                exact .inr ⟨x, List.mem_append_left _ hx, hm⟩
              · exact .inl h
            obtain ⟨L, el, hl, hal, hrun, b, lk, eL, hat⟩ := reach { allow := s.allow, attrs := r.2, data := s.data } rfl rfl
              (by rw [hall]; exact ha) s' h hv
            refine ⟨L, el, hl, hal, hrun, fun sc h1 h2 => ?_⟩
            subst eL
            rw [Tree.decl, Scan.addDecl, Scan.addInfo, if_neg (by rw [hrfl]; simp)]
            dsimp only
            rw [hsc b sc h1 h2, hmark, if_neg hno, if_neg hre, if_pos (by rw [h1]; exact hp)]
            exact hat { sc with attrs := r.2 } h1 rfl
          · rw [if_neg hp] at h
            refine skip _ h rfl rfl (fun b => ?_) (fun b kids sc h1 h2 => ?_)
            · rintro ⟨_, _, h | ⟨x, hx, hm⟩⟩
              · exact hp (.inr h)
              · have := Scan.allowOf_iff.2 ⟨x, hx, hm⟩
                rw [← List.map_singleton, ← List.map_append] at this
                have h3 : allowOf texts ((pre ++ [(i, true)]).map info) = true := by rw [allow_snoc]; rw [allow_snoc] at this; exact this
                rw [hall, ← ha] at h3
                exact hp (.inl h3)
            · rw [Scan.addDecl, Scan.addInfo, if_neg (by rw [hrfl]; simp)]
              dsimp only
              rw [hsc b sc h1 h2, hmark, if_neg hno, if_neg hre, if_neg (by rw [h1]; exact hp)]
              exact ⟨h1, rfl⟩

theorem forest_run (env : Env) (fuel : Nat) (texts : List Bytes) : ∀ (f : Forest Item) (pre : List Marked) (s s' : St),
    (∀ x ∈ f.listing, Fine texts (info (x.2, true))) → s.allow = allowOf texts (pre.map info) →
    addForest env fuel (gather texts) f (scopeName (pre.map info)) s = some s' →
    ∃ L : Forest Marked, L.map Prod.fst = f ∧
      Went env fuel texts s s' L.listing (L.rlist texts pre) (Scan.addDecls (gather texts) L.decls (scopeName (pre.map info)))
  | .nil, pre, s, s', _, _, h => by
    rw [addForest] at h
    injection h with h
    subst h
    refine ⟨.nil, rfl, ?_, rfl, .nil, fun sc h1 h2 => ⟨h1, h2⟩⟩
    intro x hx
    exact absurd hx List.not_mem_nil
  | .cons t r, pre, s, s', hf, ha, h => by
    rw [addForest] at h
    obtain ⟨s1, h1, h2⟩ := Option.bind_eq_some_iff.1 h
    obtain ⟨lt, e1, w1⟩ := tree_run env fuel texts t pre s s1 (fun x hx => hf x (List.mem_append_left _ hx)) ha h1
    obtain ⟨lr, e2, w2⟩ := forest_run env fuel texts r pre s1 s' (fun x hx => hf x (List.mem_append_right _ hx)) (w1.allow.trans ha) h2
    refine ⟨.cons lt lr, by rw [Forest.map, e1, e2], fun x hx => ?_, w2.allow.trans w1.allow, ?_, fun sc a1 a2 => ?_⟩
    · rcases List.mem_append.1 hx with hx | hx
      · exact w1.marks x hx
      · exact w2.marks x hx
    · exact w1.runs.append w2.runs
    · rw [Forest.decls, Scan.addDecls]
      obtain ⟨b1, b2⟩ := w1.attrs sc a1 a2
      have := w2.attrs _ (b1.trans w1.allow.symm) b2
      exact ⟨this.1.trans w1.allow, this.2⟩
end

end Clr.ScanUnit
