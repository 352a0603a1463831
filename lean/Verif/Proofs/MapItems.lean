import Verif.Proofs.Merge
import Verif.Model.MapItemsSpec
import Verif.Props.MapFileName
import Verif.Proofs.MapFileGcc
import Verif.Proofs.MapFiles
/-!
Reading the items of a map file into a database.
-/
namespace Clr.MapFiles
open Clr.Map Clr.DB Clr.FileUtils
attribute [local irreducible] hashOf

theorem starts_of {text p : Bytes} (h : startswith text p = true) : p <+: text := startswith_prefix h

/-! ### Functions -/

/-- What one function does to the table. -/
def give (fs : List Function) (c : Call) (a : UInt64) : List Function :=
  match c.scope with
  | none => (setAddress (hashOf c.full) ⟨Hash.uniqueId (c.params.map Par.param)⟩ a fs).getD fs
  | some s =>
    match setAddress (hashOf c.full) ⟨Hash.uniqueId (⟨s, .pointer, c.const⟩ :: c.params.map Par.param)⟩ a fs with
    | some fs => fs
    | none => (setAddress (hashOf c.full) ⟨Hash.uniqueId (c.params.map Par.param)⟩ a fs).getD fs

theorem setAddress_unnamed {h id : UInt32} {a : UInt64} : ∀ {fs : List Function}, (∀ f ∈ fs, f.name.hash ≠ h) → setAddress h id a fs = none := by
  intro fs hf
  exact setAddress_none (fun g hg e => absurd e (hf g hg))

theorem rfind_no {s pat : Bytes} (h : ∀ i, ¬ pat <+: s.drop i) : ∀ k, rfind s pat k = none
  | 0 => by
    rw [rfind, if_neg]
    intro e
    exact h 0 (by simpa using e)
  | k + 1 => by
    rw [rfind, if_neg]
    · exact rfind_no h k
    · intro e
      exact h (k + 1) (List.isPrefixOf_iff_prefix.mp e)

theorem endsConst_text {c : Call} (hok : c.Ok) {s : Bytes} (hs : c.scope = some s) : endsConst c.text = c.const := by
  have hlen : 5 ≤ c.text.length := by
    have h1 := hok.name.1
    have : 1 ≤ c.name.length := List.length_pos_iff.mpr h1
    simp only [Call.text, Call.full, hs, List.length_append, List.length_cons, List.length_nil]
    omega
  have h4 : (c.text.length == 4) = false := by simp; omega
  rw [endsConst, h4, Bool.false_or]
  cases hc : c.const with
  | true =>
    have e : c.text = c.full ++ b!"(" ++ gccAll c.params ++ b!") " ++ b!"const" := by simp [Call.text, hc]
    have hl : c.text.length = (c.full ++ b!"(" ++ gccAll c.params ++ b!") ").length + 5 := by
      rw [e]
      simp only [List.length_append, List.length_cons, List.length_nil]
    have key : rfind c.text b!"const" c.text.length = some (c.text.length - 5) := by
      generalize hx : c.full ++ b!"(" ++ gccAll c.params ++ b!") " = x at *
      rw [hl, e, show x.length + 5 - 5 = x.length by omega]
      have hstep : ∀ j, 0 < j → j ≤ 5 → ¬ b!"const" <+: (x ++ b!"const").drop (x.length + j) := by
        intro j h1 h2 h
        have := h.length_le
        simp only [List.length_drop, List.length_append, List.length_cons, List.length_nil] at this
        omega
      have h0 : b!"const" <+: (x ++ b!"const").drop x.length := by rw [List.drop_left]; exact List.prefix_rfl
      have st : ∀ j, 0 < j → j ≤ 5 → rfind (x ++ b!"const") b!"const" (x.length + j) = rfind (x ++ b!"const") b!"const" (x.length + j - 1) := by
        intro j h1 h2
        obtain ⟨k, rfl⟩ : ∃ k, j = k + 1 := ⟨j - 1, by omega⟩
        rw [show x.length + (k + 1) = (x.length + k) + 1 by omega, rfind, if_neg (fun e => hstep (k + 1) (by omega) h2 (by
          simpa [Nat.add_assoc] using (List.isPrefixOf_iff_prefix.mp e)))]
        simp
      rw [st 5 (by omega) (by omega), show x.length + 5 - 1 = x.length + 4 by omega, st 4 (by omega) (by omega),
        show x.length + 4 - 1 = x.length + 3 by omega, st 3 (by omega) (by omega), show x.length + 3 - 1 = x.length + 2 by omega,
        st 2 (by omega) (by omega), show x.length + 2 - 1 = x.length + 1 by omega, st 1 (by omega) (by omega),
        show x.length + 1 - 1 = x.length by omega]
      cases hxl : x.length with
      | zero =>
        have : x = [] := List.length_eq_zero_iff.mp hxl
        subst this
        decide
      | succ n =>
        rw [rfind, if_pos]
        rw [← hxl]
        exact List.isPrefixOf_iff_prefix.mpr h0
    rw [key]
    simp [hlen]
  | false =>
    have e : c.text = c.full ++ b!"(" ++ gccAll c.params ++ b!")" := by simp [Call.text, hc]
    have hl : c.text.getLast? = some 41 := by rw [e, List.getLast?_append]; rfl
    simp only [Bool.and_eq_false_iff]
    right
    rw [beq_eq_false_iff_ne]
    intro h
    have := rfind_some h
    obtain ⟨y, hy⟩ := this
    have hlen2 : (b!"const" ++ y).length = 5 := by
      rw [hy, List.length_drop]; omega
    have hy0 : y = [] := by
      simp only [List.length_append, List.length_cons, List.length_nil] at hlen2
      exact List.length_eq_zero_iff.mp (by omega)
    subst hy0
    have h3 : c.text = c.text.take (c.text.length - 5) ++ b!"const" := by
      conv => lhs; rw [← List.take_append_drop (c.text.length - 5) c.text, ← hy]
      simp
    rw [h3] at hl
    simp at hl

theorem call_name (rand : Nat → Nat) {c : Call} (hok : c.Ok) : parseFunctionName rand c.text = c.full := by
  have e : c.text = c.full ++ b!"(" ++ (gccAll c.params ++ b!")" ++ (if c.const then b!" const" else [])) := by simp [Call.text]
  rw [e]
  refine C63_plain_name_alone_partial rand c.full _ (fun h => (hok.chars _ h).2.2.1 rfl) (fun h => (hok.chars _ h).2.2.2 rfl)
    (fun h => (hok.chars _ h).1 rfl) ?_ hok.noPointer hok.noAnonymous
  intro h
  exact (hok.chars _ (List.mem_of_getLast? h)).2.1 rfl

theorem full_ne {c : Call} (hok : c.Ok) : c.full ≠ [] := by
  unfold Call.full
  cases c.scope with
  | none => exact hok.name.1
  | some s => simp

theorem not_starts {text p : Bytes} (h : ¬ p <+: text) : ¬ startswith text p = true := by rw [startswith_false h]; simp

theorem call_not_generated {c : Call} (hok : c.Ok) :
    ∀ g ∈ [b!"clcppConstructObject", b!"clcppDestructObject", b!"clcpp::GetType<", b!"clcpp::GetTypeNameHash<"], ¬ startswith c.full g = true := by
  intro g hg
  refine not_starts ?_
  simp only [List.mem_cons, List.not_mem_nil, or_false] at hg
  rcases hg with rfl | rfl | rfl | rfl
  · exact hok.notGenerated.1
  · exact hok.notGenerated.2
  · exact fun h => (hok.chars 60 (h.subset (by decide))).2.2.2 rfl
  · exact fun h => (hok.chars 60 (h.subset (by decide))).2.2.2 rfl

theorem call_step (rand : Nat → Nat) {s : St} {c : Call} {a : UInt64} {T : List Bytes} (hok : c.Ok) (ha : a ≠ 0) (hT : Clear s.db.names T)
    (ht : ∀ t ∈ c.texts, t ∈ T) :
    ∃ names, Grown s.db.names names T ∧ processItem rand s c.text a = .ok { s with db := { s.db with names := names, functions := give s.db.functions c a } } := by
  have hname := call_name rand hok
  have hgen := call_not_generated hok
  have h40 : (40 : UInt8) ∉ c.full := fun h => (hok.chars _ h).2.2.1 rfl
  have hk' : ∀ p ∈ c.params.map glue, Good p ∧ p.ty.text ∈ T := by
    intro p hp
    obtain ⟨q, hq, rfl⟩ := List.mem_map.mp hp
    obtain ⟨g1, _, _, g4⟩ := glue_good (hok.params q hq)
    refine ⟨g1, ?_⟩
    rw [g4]
    exact ht _ (by unfold Call.texts; exact List.mem_append_right _ (List.mem_map.mpr ⟨q, hq, rfl⟩))
  have hsig : c.text = signature [] c.full true false (c.params.map glue) (if c.const then b!" const" else []) := by
    have := gcc_signature (pre := []) (name := c.full) (post := if c.const then b!" const" else []) (fun p hp => hok.params p hp)
    rw [List.nil_append] at this
    exact this
  have hid0 := glue_ids (fun p hp => hok.params p hp) []
  rw [List.nil_append, List.nil_append] at hid0
  rcases Classical.em (∃ f ∈ s.db.functions, f.name.hash = hashOf c.full) with hnone | hnone
  rotate_left
  · replace hnone : ∀ f ∈ s.db.functions, f.name.hash ≠ hashOf c.full := fun f hf e => hnone ⟨f, hf, e⟩
    refine ⟨s.db.names, hT.grown, ?_⟩
    have hg : getFirst (fun f : Function => f.name.hash) c.full s.db.functions = none := by
      unfold getFirst findBy
      rw [List.find?_eq_none]
      intro f hf
      simpa using hnone f hf
    have hgive : give s.db.functions c a = s.db.functions := by
      unfold give
      cases c.scope with
      | none => rw [setAddress_unnamed hnone]; rfl
      | some sc => dsimp only; rw [setAddress_unnamed hnone, setAddress_unnamed hnone]; rfl
    rw [processItem, hname]
    dsimp only
    rw [if_neg (full_ne hok), if_neg (hgen _ (by simp)), if_neg (hgen _ (by simp)), if_neg (hgen _ (by simp)), if_neg (hgen _ (by simp)), hg, hgive]
  · obtain ⟨g, hg⟩ : ∃ g, getFirst (fun f : Function => f.name.hash) c.full s.db.functions = some g := by
      obtain ⟨f, hf, e⟩ := hnone
      exact Merge.findBy_of_mem (key := fun f : Function => f.name.hash) (k := hashOf c.full) ⟨f, hf, e⟩
    have start : ∀ r, (do
        let (found, db) ← addFunctionAddress s.db c.full c.text a true (endsConst c.text)
        if found then (.ok { s with db := db } : Res St)
        else do
          let (_, db) ← addFunctionAddress db c.full c.text a false (endsConst c.text)
          .ok { s with db := db }) = r → processItem rand s c.text a = r := by
      intro r hr
      rw [processItem, hname]
      dsimp only
      rw [if_neg (full_ne hok), if_neg (hgen _ (by simp)), if_neg (hgen _ (by simp)), if_neg (hgen _ (by simp)), if_neg (hgen _ (by simp)), hg]
      exact hr
    have second : ∀ names, Grown s.db.names names T → ∃ names2, Grown s.db.names names2 T ∧ (do
          let (_, db) ← addFunctionAddress { s.db with names := names } c.full c.text a false (endsConst c.text)
          (.ok { s with db := db } : Res St)) =
          .ok { s with db := { s.db with names := names2, functions := (setAddress (hashOf c.full) ⟨Hash.uniqueId (c.params.map Par.param)⟩ a s.db.functions).getD s.db.functions } } := by
      intro names hn
      obtain ⟨names2, c2, e2⟩ := static_clear (db := { s.db with names := names }) (pre := []) (name := c.full)
        (post := if c.const then b!" const" else []) (sep := true) (void := false)
        (address := a) (c := endsConst c.text) (by simpa using h40) ha hn hk' (by intro h; cases h)
      rw [hid0, ← hsig] at e2
      refine ⟨names2, c2, ?_⟩
      rw [e2]
      dsimp only
      cases setAddress (hashOf c.full) ⟨Hash.uniqueId (c.params.map Par.param)⟩ a s.db.functions <;> rfl
    cases hsc : c.scope with
    | none =>
      obtain ⟨names2, c2, e2⟩ := second s.db.names hT.grown
      refine ⟨names2, c2, start _ ?_⟩
      have hfirst : addFunctionAddress s.db c.full c.text a true (endsConst c.text) = .ok (false, s.db) := by
        have hth : thisParam s.db.names c.full (endsConst c.text) = .ok none := by
          have hf : c.full = c.name := by simp [Call.full, hsc]
          rw [thisParam, rfind_no]
          intro i h
          exact hok.name.2 (by rw [hf] at h; exact List.mem_of_mem_drop (h.subset (by decide)))
        obtain ⟨f, _, e1, e2, e3⟩ := brackets (pre := []) (name := c.full) (post := if c.const then b!" const" else []) (sep := true) (void := false)
          (ps := c.params.map glue) (by simpa using h40) (fun p hp => (hk' p hp).1.1)
        rw [← hsig] at e1 e2 e3
        rw [addFunctionAddress, if_neg ha, e1]
        dsimp only
        rw [e2]
        dsimp only
        rw [e3]
        dsimp only
        rw [if_pos rfl, hth]
        rfl
      rw [hfirst, Res.bind_ok]
      dsimp only
      rw [if_neg (by decide)]
      have : (give s.db.functions c a) = (setAddress (hashOf c.full) ⟨Hash.uniqueId (c.params.map Par.param)⟩ a s.db.functions).getD s.db.functions := by
        unfold give; rw [hsc]
      rw [this]
      exact e2
    | some sc =>
      have hfull : c.full = sc ++ b!"::" ++ c.name := by simp [Call.full, hsc]
      have hcT : sc ∈ T := ht _ (by unfold Call.texts; rw [hsc]; simp)
      obtain ⟨names1, c1, e1⟩ := method_clear (db := s.db) (pre := []) (cls := sc) (m := c.name) (post := if c.const then b!" const" else [])
        (sep := true) (void := false) (address := a) (c := c.const) (by rw [← hfull]; simpa using h40)
        hok.name.2 (hok.scope sc hsc) hcT ha hT.grown hk' (by intro h; cases h)
      have hid1 := glue_ids (fun p hp => hok.params p hp) [⟨sc, .pointer, c.const⟩]
      rw [List.singleton_append, List.singleton_append] at hid1
      rw [hid1, ← hfull, ← hsig] at e1
      have hcon := endsConst_text hok hsc
      cases hset : setAddress (hashOf c.full) ⟨Hash.uniqueId (⟨sc, .pointer, c.const⟩ :: c.params.map Par.param)⟩ a s.db.functions with
      | some fs =>
        rw [hset] at e1
        refine ⟨names1, c1, start _ ?_⟩
        rw [hcon, e1, Res.bind_ok]
        dsimp only
        rw [if_pos rfl]
        have : give s.db.functions c a = fs := by
          unfold give; rw [hsc]; dsimp only; rw [hset]
        rw [this]
      | none =>
        rw [hset] at e1
        obtain ⟨names2, c2, e2⟩ := second names1 c1
        refine ⟨names2, c2, start _ ?_⟩
        have e1' : addFunctionAddress s.db c.full c.text a true (endsConst c.text) = .ok (false, { s.db with names := names1 }) := by rw [hcon]; exact e1
        rw [e1', Res.bind_ok]
        dsimp only
        rw [if_neg (by decide)]
        have : give s.db.functions c a = (setAddress (hashOf c.full) ⟨Hash.uniqueId (c.params.map Par.param)⟩ a s.db.functions).getD s.db.functions := by
          unfold give; rw [hsc]; dsimp only; rw [hset]
        rw [this]
        exact e2

/-- Of functions without twins, the one with the key is changed. -/
theorem setAddress_map {h id : UInt32} {a : UInt64} : ∀ {fs : List Function},
    (fs.Pairwise fun f g => f.name.hash = g.name.hash → f.name.hash = h → f.uniqueId ≠ g.uniqueId) →
    ((∃ f ∈ fs, f.name.hash = h ∧ f.uniqueId = id) →
      setAddress h id a fs = some (fs.map fun f => if f.name.hash = h ∧ f.uniqueId = id then { f with address := a } else f)) ∧
    ((∀ f ∈ fs, ¬ (f.name.hash = h ∧ f.uniqueId = id)) → setAddress h id a fs = none)
  | [], _ => ⟨(by rintro ⟨f, hf, _⟩; cases hf), fun _ => rfl⟩
  | f :: fs, hp => by
    obtain ⟨h1, h2⟩ := List.pairwise_cons.mp hp
    obtain ⟨i1, i2⟩ := setAddress_map (h := h) (id := id) (a := a) h2
    constructor
    · rintro ⟨g, hg, e⟩
      rw [setAddress]
      by_cases hf : f.name.hash = h ∧ f.uniqueId = id
      · rw [if_pos hf, List.map_cons, if_pos hf]
        have : fs.map (fun f => if f.name.hash = h ∧ f.uniqueId = id then { f with address := a } else f) = fs := by
          conv => rhs; rw [← List.map_id fs]
          refine List.map_congr_left fun x hx => ?_
          rw [if_neg]
          · rfl
          · intro hx'
            exact h1 x hx (hf.1.trans hx'.1.symm) hf.1 (hf.2.trans hx'.2.symm)
        rw [this]
      · rw [if_neg hf, List.map_cons, if_neg hf]
        rw [i1 ?_]
        · rfl
        · rcases List.mem_cons.mp hg with rfl | hg
          · exact absurd e hf
          · exact ⟨g, hg, e⟩
    · intro hno
      rw [setAddress, if_neg (hno f List.mem_cons_self), i2 fun g hg => hno g (List.mem_cons_of_mem _ hg)]
      rfl

theorem give_spec {fs : List Function} {c : Call} {a : UInt64}
    (hp : fs.Pairwise fun f g => f.name.hash = g.name.hash → f.name.hash = hashOf c.full → f.uniqueId ≠ g.uniqueId) :
    ∃ F : Function → Function, give fs c a = fs.map F ∧ ∀ f ∈ fs, (c.Means fs f → F f = { f with address := a }) ∧ (¬ c.Means fs f → F f = f) := by
  have plain : (∀ g ∈ fs, ¬ c.Method g) →
      ∃ F : Function → Function, (setAddress (hashOf c.full) ⟨Hash.uniqueId (c.params.map Par.param)⟩ a fs).getD fs = fs.map F ∧
        ∀ f ∈ fs, (c.Means fs f → F f = { f with address := a }) ∧ (¬ c.Means fs f → F f = f) := by
    intro hno
    obtain ⟨k1, k2⟩ := setAddress_map (id := ⟨Hash.uniqueId (c.params.map Par.param)⟩) (a := a) hp
    rcases Classical.em (∃ f ∈ fs, f.name.hash = hashOf c.full ∧ f.uniqueId = ⟨Hash.uniqueId (c.params.map Par.param)⟩) with he | he
    · rw [k1 he]
      refine ⟨_, rfl, fun f hf => ⟨?_, ?_⟩⟩
      · rintro (h | ⟨h, _⟩)
        · exact absurd h (hno f hf)
        · exact if_pos h
      · intro h
        exact if_neg fun e => h (.inr ⟨e, hno⟩)
    · rw [k2 fun f hf e => he ⟨f, hf, e⟩]
      refine ⟨id, by simp, fun f hf => ⟨?_, fun _ => rfl⟩⟩
      rintro (h | ⟨h, _⟩)
      · exact absurd h (hno f hf)
      · exact absurd ⟨f, hf, h⟩ he
  unfold give
  cases hsc : c.scope with
  | none =>
    exact plain (by rintro g _ ⟨s, h, _⟩; rw [hsc] at h; cases h)
  | some s =>
    dsimp only
    obtain ⟨k1, k2⟩ := setAddress_map (id := ⟨Hash.uniqueId (⟨s, .pointer, c.const⟩ :: c.params.map Par.param)⟩) (a := a) hp
    have hm : ∀ g : Function, c.Method g ↔ (g.name.hash = hashOf c.full ∧ g.uniqueId = ⟨Hash.uniqueId (⟨s, .pointer, c.const⟩ :: c.params.map Par.param)⟩) := by
      intro g
      constructor
      · rintro ⟨s', h1, h2, h3⟩
        rw [hsc] at h1
        cases h1
        exact ⟨h2, h3⟩
      · rintro ⟨h2, h3⟩
        exact ⟨s, hsc, h2, h3⟩
    rcases Classical.em (∃ f ∈ fs, f.name.hash = hashOf c.full ∧ f.uniqueId = ⟨Hash.uniqueId (⟨s, .pointer, c.const⟩ :: c.params.map Par.param)⟩) with he | he
    · rw [k1 he]
      dsimp only
      refine ⟨_, rfl, fun f hf => ⟨?_, ?_⟩⟩
      · rintro (h | ⟨_, h⟩)
        · exact if_pos ((hm f).mp h)
        · obtain ⟨g, hg, e⟩ := he
          exact absurd ((hm g).mpr e) (h g hg)
      · intro h
        exact if_neg fun e => h (.inl ((hm f).mpr e))
    · rw [k2 fun f hf e => he ⟨f, hf, e⟩]
      dsimp only
      exact plain fun g hg h => he ⟨g, hg, (hm g).mp h⟩

/-! ### Constructors, types and the rest -/

theorem maker_step (rand : Nat → Nat) {s : St} {t : Bytes} {b : Bool} {a : UInt64} {T : List Bytes} {N : List UInt32}
    (hok : (Item.maker t b).Ok rand N) (ha : a ≠ 0) (hT : Clear s.db.names T) (ht : ∀ x ∈ (Item.maker t b).texts, x ∈ T) :
    ∃ names f p, Grown s.db.names names T ∧ (∀ x ∈ (Item.maker t b).texts, ⟨hashOf x, x⟩ ∈ names) ∧
      Item.made (.maker t b, a) = some f ∧ Item.madeParam (.maker t b, a) = some p ∧
      processItem rand s (Item.maker t b).text a = .ok { s with db := { s.db with
        names := names
        functions := insertBy (fun x : Function => x.name.hash) f s.db.functions
        fields := insertBy (fun x : DB.Field => x.name.hash) p s.db.fields } } := by
  obtain ⟨h1, h2, h3⟩ := hok
  obtain ⟨t1, t2, t3⟩ : t ∈ T ∧ b!"this" ∈ T ∧ makerName t b ∈ T := ⟨ht _ (by simp [Item.texts]), ht _ (by simp [Item.texts]), ht _ (by simp [Item.texts])⟩
  obtain ⟨n1, g1, c1, m1⟩ := getName_grown hT t1
  obtain ⟨n2, g2, c2, m2⟩ := getName_grown c1.clear t2
  obtain ⟨n3, g3, c3, m3⟩ := getName_grown c2.clear t3
  refine ⟨n3, _, _, c1.trans (c2.trans c3), ?_, rfl, rfl, ?_⟩
  · intro x hx
    simp only [Item.texts, List.mem_cons, List.not_mem_nil, or_false] at hx
    rcases hx with rfl | rfl | rfl
    · exact c3.kept _ (c2.kept _ m1)
    · exact c3.kept _ m2
    · exact m3
  have hadd : addImpl s.db t a b = .ok { s.db with
        names := n3
        functions := insertBy (fun x : Function => x.name.hash) { name := ⟨hashOf (makerName t b), makerName t b⟩, parent := ⟨hashOf t, t⟩, uniqueId := ⟨Hash.uniqueId [⟨t, .pointer, false⟩]⟩, address := a } s.db.functions
        fields := insertBy (fun x : DB.Field => x.name.hash) { name := ⟨hashOf b!"this", b!"this"⟩, parent := ⟨hashOf (makerName t b), makerName t b⟩, type := ⟨hashOf t, t⟩, qualifier := ⟨.pointer, false⟩, offset := 0, parentUniqueId := ⟨Hash.uniqueId [⟨t, .pointer, false⟩]⟩ } s.db.fields } := by
    unfold makerName at g3 ⊢
    rw [addImpl, g1, Res.bind_ok]
    dsimp only
    rw [g2, Res.bind_ok]
    dsimp only
    rw [g3, Res.bind_ok]
    dsimp only
    have z := (hT _ t3).1
    unfold makerName at z
    rw [DB.add, if_neg (hT _ t2).1, Res.bind_ok, DB.add, if_neg z, Res.bind_ok]
  have hcls : addClassImpl s.db (Item.maker t b).text a b = addImpl s.db t a b := by
    have := addClassImpl_eq (db := s.db) (pre := if b then b!"clcppConstructObject" else b!"clcppDestructObject") (t := t) (post := b!")") (kw := .none)
      (address := a) (b := b) 0 (by cases b <;> decide) (fun x hx => by have := h2 x hx; simp [isEnd, this]) h1 h3 ha
    rw [← this]
    congr 1
    cases b <;> simp [Item.text, Kw.print]
  have hname : parseFunctionName rand (Item.maker t b).text = if b then b!"clcppConstructObject" else b!"clcppDestructObject" := by
    have e : (Item.maker t b).text = (if b then b!"clcppConstructObject" else b!"clcppDestructObject") ++ b!"(" ++ (t ++ b!"*)") := by
      simp [Item.text]
    rw [e]
    refine C63_plain_name_alone_partial rand _ _ (by cases b <;> decide) (by cases b <;> decide) (by cases b <;> decide) (by cases b <;> decide) ?_ ?_
    · intro h
      obtain ⟨x, t', rfl⟩ := List.exists_cons_of_ne_nil h1
      obtain ⟨y, hy⟩ := h
      simp at hy
      exact (h2 x (by simp)).2.2 hy.1.symm
    · intro h
      have := h.subset (show (32 : UInt8) ∈ b!"anonymous namespace)" by decide)
      rcases List.mem_append.mp this with hm | hm
      · exact (h2 _ hm).1 rfl
      · revert hm; decide
  rw [processItem, hname]
  cases b with
  | true =>
    simp only [if_true]
    rw [if_neg (by decide), if_pos (by decide), hcls, hadd]
    rfl
  | false =>
    simp only [Bool.false_eq_true, if_false]
    rw [if_neg (by decide), if_neg (by decide), if_pos (by decide), hcls, hadd]
    rfl

theorem query_step (rand : Nat → Nat) {s : St} {ret t : Bytes} {b : Bool} {a : UInt64} {T : List Bytes} {N : List UInt32}
    (hok : (Item.query ret t b).Ok rand N) (ha : a ≠ 0) (hT : Clear s.db.names T) (ht : ∀ x ∈ (Item.query ret t b).texts, x ∈ T) :
    ∃ names gs, Grown s.db.names names T ∧ processItem rand s (Item.query ret t b).text a = .ok { s with db := { s.db with names := names }, getTypes := gs } := by
  obtain ⟨h1, h2, h3, h4⟩ := hok
  obtain ⟨n1, g1, c1, _⟩ := getName_grown hT (ht t (by simp [Item.texts]))
  have h0 := (hT t (ht t (by simp [Item.texts]))).1
  have ht' : ∀ x ∈ t, isEnd x = false := fun x hx => by have := h3 x hx; simp [isEnd, this]
  have hadd : ∀ pfx : Bytes, (60 : UInt8) ∉ pfx → addGetTypeAddress s (pfx ++ (b!"<" ++ t ++ b!">") ++ []) a b =
      .ok { s with db := { s.db with names := n1 }, getTypes := assignGetType (hashOf t) a b s.getTypes } := by
    intro pfx hp
    have e1 : pfx ++ (b!"<" ++ t ++ b!">") ++ [] = pfx ++ 60 :: (Kw.none.print ++ (t ++ 62 :: [])) := by simp [Kw.print]
    have e2 : (pfx ++ 60 :: (Kw.none.print ++ (t ++ [62]))).drop (pfx.length + 1) = Kw.none.print ++ (t ++ [62]) := by simp
    have ht2 : (62 : UInt8) ∉ t := fun hm => (h3 _ hm).2.1 rfl
    obtain ⟨f1, f2⟩ := take_find (b := []) ht2
    rw [e1, addGetTypeAddress, if_neg ha, find_char (Nat.zero_le _) hp]
    dsimp only
    rw [e2, skipTypePrefix_kw .none ht' (by decide) h4, f1]
    dsimp only
    rw [f2, g1, Res.bind_ok]
    dsimp only
    rw [if_neg h0]
  refine ⟨n1, assignGetType (hashOf t) a b s.getTypes, c1, ?_⟩
  have hname := get_type_name rand ret t h1 h2 h3
  have e : (Item.query ret t b).text = ret ++ b!" " ++ (if b then b!"clcpp::GetType" else b!"clcpp::GetTypeNameHash") ++ (b!"<" ++ t ++ b!">") ++ ([] ++ b!"(" ++ b!")") := rfl
  rw [e]
  cases b with
  | true =>
    simp only [if_true]
    rw [processItem, hname _ (by decide)]
    dsimp only
    rw [if_neg (by simp), if_neg (fun h => by obtain ⟨y, hy⟩ := startswith_prefix h; simp at hy),
      if_neg (fun h => by obtain ⟨y, hy⟩ := startswith_prefix h; simp at hy), if_pos (prefix_startswith ⟨t ++ b!">", by simp⟩)]
    exact hadd _ (by decide)
  | false =>
    simp only [Bool.false_eq_true, if_false]
    rw [processItem, hname _ (by decide)]
    dsimp only
    rw [if_neg (by simp), if_neg (fun h => by obtain ⟨y, hy⟩ := startswith_prefix h; simp at hy),
      if_neg (fun h => by obtain ⟨y, hy⟩ := startswith_prefix h; simp at hy),
      if_neg (fun h => by obtain ⟨y, hy⟩ := startswith_prefix h; simp at hy), if_pos (prefix_startswith ⟨t ++ b!">", by simp⟩)]
    exact hadd _ (by decide)

theorem other_step (rand : Nat → Nat) {s : St} {sig : Bytes} {a : UInt64} {N : List UInt32} (hok : Irrelevant rand N sig)
    (hN : ∀ f ∈ s.db.functions, f.name.hash ∈ N) : processItem rand s sig a = .ok s := by
  have hgen : ∀ g ∈ [b!"clcppConstructObject", b!"clcppDestructObject", b!"clcpp::GetType<", b!"clcpp::GetTypeNameHash<"],
      ¬ startswith (parseFunctionName rand sig) g = true := fun g hg => not_starts (hok.generated g hg)
  have hg : getFirst (fun f : Function => f.name.hash) (parseFunctionName rand sig) s.db.functions = none := by
    unfold getFirst findBy
    rw [List.find?_eq_none]
    intro f hf
    have := hN f hf
    simp only [beq_iff_eq]
    intro e
    exact hok.unknown (e ▸ this)
  rw [processItem]
  dsimp only
  rw [if_neg (hgen _ (by simp)), if_neg (hgen _ (by simp)), if_neg (hgen _ (by simp)), if_neg (hgen _ (by simp)), hg]
  split <;> rfl

/-! ### All items -/

/-- Functions with the same names and identities. -/
theorem means_congr {fs fs' : List Function} {c : Call} {f f' : Function} (h1 : f.name.hash = f'.name.hash) (h2 : f.uniqueId = f'.uniqueId)
    (hm : (∃ g ∈ fs, c.Method g) ↔ ∃ g ∈ fs', c.Method g) : c.Means fs f ↔ c.Means fs' f' := by
  have e : (∀ g ∈ fs, ¬ c.Method g) ↔ ∀ g ∈ fs', ¬ c.Method g := by
    constructor
    · intro h g hg hc
      obtain ⟨x, hx, hx'⟩ := hm.mpr ⟨g, hg, hc⟩
      exact h x hx hx'
    · intro h g hg hc
      obtain ⟨x, hx, hx'⟩ := hm.mp ⟨g, hg, hc⟩
      exact h x hx hx'
  unfold Call.Means Call.Method Call.Plain
  unfold Call.Method at e
  rw [h1, h2, e]

structure Inv (rand : Nat → Nat) (N : List UInt32) (T : List Bytes) (db : Database) (items : List (Item × UInt64)) : Prop where
  twins : ∀ c a, (Item.call c, a) ∈ items →
    db.functions.Pairwise fun f g => f.name.hash = g.name.hash → f.name.hash = hashOf c.full → f.uniqueId ≠ g.uniqueId
  ok : ∀ i a, (i, a) ∈ items → i.Ok rand N ∧ ∀ t ∈ i.texts, t ∈ T
  known : ∀ f ∈ db.functions, f.name.hash ∈ N
  makers : ∀ f ∈ items.filterMap Item.made, f.name.hash ∈ N
  addresses : ∀ i a, (i, a) ∈ items → a ≠ 0
  clear : Clear db.names T
  apart : ∀ c a f, (Item.call c, a) ∈ items → f ∈ items.filterMap Item.made → hashOf c.full ≠ f.name.hash

theorem Inv.tail {rand : Nat → Nat} {N : List UInt32} {T : List Bytes} {db db' : Database} {x : Item × UInt64} {items : List (Item × UInt64)}
    (h : Inv rand N T db (x :: items)) (hc : Clear db'.names T) (hk : ∀ f ∈ db'.functions, f.name.hash ∈ N)
    (ht : ∀ c a, (Item.call c, a) ∈ items →
      db'.functions.Pairwise fun f g => f.name.hash = g.name.hash → f.name.hash = hashOf c.full → f.uniqueId ≠ g.uniqueId) :
    Inv rand N T db' items where
  twins := ht
  ok i a hm := h.ok i a (List.mem_cons_of_mem _ hm)
  known := hk
  makers f hf := h.makers f (by
    rw [List.filterMap_cons]
    split
    · exact hf
    · exact List.mem_cons_of_mem _ hf)
  addresses i a hm := h.addresses i a (List.mem_cons_of_mem _ hm)
  clear := hc
  apart c a f hm hf := h.apart c a f (List.mem_cons_of_mem _ hm) (by
    rw [List.filterMap_cons]
    split
    · exact hf
    · exact List.mem_cons_of_mem _ hf)

/-- An item that leaves the functions alone. -/
theorem Told.skip {T : List Bytes} {db db' : Database} {names : List Name} {x : Item × UInt64} {items : List (Item × UInt64)}
    (h1 : Item.made x = none) (h2 : Item.madeParam x = none) (hx : ∀ c, x.1 ≠ .call c) (hn : Grown db.names names T)
    (h : Told T { db with names := names } items db') : Told T db (x :: items) db' where
  functions := by
    obtain ⟨address, g1, g2⟩ := h.functions
    refine ⟨address, fun f hf => ?_, by rw [List.filterMap_cons, h1]; exact g2⟩
    rcases g1 f hf with ⟨pre, c, post, e, m⟩ | ⟨e, m⟩
    · exact .inl ⟨x :: pre, c, post, by rw [e]; rfl, m⟩
    · refine .inr ⟨e, fun d y hd => ?_⟩
      rcases List.mem_cons.mp hd with rfl | hd
      · exact absurd rfl (hx d)
      · exact m d y hd
  fields := by rw [List.filterMap_cons, h2]; exact h.fields
  kept n hm := h.kept n (hn.kept n hm)
  origin n hm := by
    rcases h.origin n hm with hm | hm
    · exact hn.origin n hm
    · exact .inr hm
  sorted hs := h.sorted (hn.sorted hs)
  made f hf := h.made f (by rw [List.filterMap_cons, h1] at hf; exact hf)
  madeParam p hp := h.madeParam p (by rw [List.filterMap_cons, h2] at hp; exact hp)
  rest := h.rest

theorem process_items (rand : Nat → Nat) {N : List UInt32} {T : List Bytes} : ∀ (items : List (Item × UInt64)) (s : St), Inv rand N T s.db items →
    ∃ s', processAll rand s (items.map fun x => (x.1.text, x.2)) = .ok s' ∧ Told T s.db items s'.db
  | [], s, _ => ⟨s, rfl, ⟨⟨fun f => f.address, fun f _ => .inr ⟨rfl, by simp⟩, by simp⟩, by simp, fun _ h => h, fun _ h => .inl h, fun h => h, by simp, by simp, rfl⟩⟩
  | (.call c, a) :: items, s, h => by
    obtain ⟨names, c1, e1⟩ := call_step rand (h.ok _ _ List.mem_cons_self).1 (h.addresses _ _ List.mem_cons_self) h.clear (h.ok _ _ List.mem_cons_self).2
    obtain ⟨F, f1, f2⟩ := give_spec (a := a) (h.twins c a List.mem_cons_self)
    have hkey : ∀ f ∈ s.db.functions, (F f).name = f.name ∧ (F f).uniqueId = f.uniqueId ∧
        ∀ x, ({ F f with address := x } : Function) = { f with address := x } := by
      intro f hf
      rcases Classical.em (c.Means s.db.functions f) with m | m
      · rw [(f2 f hf).1 m]; exact ⟨rfl, rfl, fun _ => rfl⟩
      · rw [(f2 f hf).2 m]; exact ⟨rfl, rfl, fun _ => rfl⟩
    have hmeth : ∀ d : Call, (∃ g ∈ s.db.functions.map F, d.Method g) ↔ ∃ g ∈ s.db.functions, d.Method g := by
      intro d
      constructor
      · rintro ⟨g, hg, m⟩
        obtain ⟨f, hf, rfl⟩ := List.mem_map.mp hg
        refine ⟨f, hf, ?_⟩
        unfold Call.Method at m ⊢
        rw [(hkey f hf).1, (hkey f hf).2.1] at m
        exact m
      · rintro ⟨f, hf, m⟩
        refine ⟨F f, List.mem_map.mpr ⟨f, hf, rfl⟩, ?_⟩
        unfold Call.Method at m ⊢
        rw [(hkey f hf).1, (hkey f hf).2.1]
        exact m
    rw [f1] at e1
    obtain ⟨s', p1, p2⟩ := process_items rand items { s with db := { s.db with names := names, functions := s.db.functions.map F } } (h.tail c1.clear (by
        intro f hf
        obtain ⟨g, hg, rfl⟩ := List.mem_map.mp hf
        rw [(hkey g hg).1]
        exact h.known g hg) (by
        intro d x hd
        have := h.twins d x (List.mem_cons_of_mem _ hd)
        dsimp only
        rw [List.pairwise_map]
        refine this.imp_of_mem ?_
        intro f g hf hg hp
        rw [(hkey f hf).1, (hkey f hf).2.1, (hkey g hg).1, (hkey g hg).2.1]
        exact hp))
    refine ⟨s', ?_, ?_⟩
    · rw [List.map_cons, processAll]
      show (processItem rand s c.text a >>= _) = _
      rw [e1, Res.bind_ok]
      exact p1
    · obtain ⟨address, g1, g2⟩ := p2.functions
      refine ⟨⟨fun f => address (F f), ?_, ?_⟩, p2.fields, fun n hn => p2.kept n (c1.kept n hn), ?_, fun hs => p2.sorted (c1.sorted hs), p2.made, p2.madeParam, p2.rest⟩
      · intro f hf
        have hc : ∀ d : Call, d.Means (s.db.functions.map F) (F f) ↔ d.Means s.db.functions f := fun d =>
          means_congr (by rw [(hkey f hf).1]) (hkey f hf).2.1 (hmeth d)
        rcases g1 (F f) (List.mem_map.mpr ⟨f, hf, rfl⟩) with ⟨pre, d, post, e, m1, m2⟩ | ⟨e, m⟩
        · exact .inl ⟨(.call c, a) :: pre, d, post, by rw [e]; rfl, (hc d).mp m1, fun d' x hd' hm => m2 d' x hd' ((hc d').mpr hm)⟩
        · dsimp only
          rw [e]
          rcases Classical.em (c.Means s.db.functions f) with hm | hm
          · rw [(f2 f hf).1 hm]
            exact .inl ⟨[], c, items, rfl, hm, fun d x hd hm' => m d x hd ((hc d).mpr hm')⟩
          · rw [(f2 f hf).2 hm]
            refine .inr ⟨rfl, fun d x hd hm' => ?_⟩
            rcases List.mem_cons.mp hd with e' | hd
            · cases e'
              exact hm hm'
            · exact m d x hd ((hc d).mpr hm')
      · refine g2.trans ?_
        rw [List.filterMap_cons]
        dsimp only [Item.made]
        rw [List.map_map]
        refine List.Perm.of_eq ?_
        congr 1
        exact List.map_congr_left fun f hf => (hkey f hf).2.2 _
      · intro n hn
        rcases p2.origin n hn with hn | hn
        · exact c1.origin n hn
        · exact .inr hn
  | (.maker t b, a) :: items, s, h => by
    obtain ⟨names, mk, mp, c1, ct, e1, e2, e3⟩ := maker_step rand (h.ok _ _ List.mem_cons_self).1 (h.addresses _ _ List.mem_cons_self) h.clear (h.ok _ _ List.mem_cons_self).2
    have hmade : mk ∈ ((Item.maker t b, a) :: items).filterMap Item.made := by rw [List.filterMap_cons, e1]; exact List.mem_cons_self
    have hperm := Clr.Merge.perm_insertBy (key := fun x : Function => x.name.hash) mk s.db.functions
    have hmem : ∀ f, f ∈ insertBy (fun x : Function => x.name.hash) mk s.db.functions ↔ f = mk ∨ f ∈ s.db.functions := fun f => by
      rw [hperm.mem_iff, List.mem_cons]
    obtain ⟨s', p1, p2⟩ := process_items rand items { s with db := { s.db with names := names, functions := insertBy (fun x : Function => x.name.hash) mk s.db.functions, fields := insertBy (fun x : DB.Field => x.name.hash) mp s.db.fields } } (h.tail c1.clear (by
        intro f hf
        rcases (hmem f).mp hf with rfl | hf
        · exact h.makers f hmade
        · exact h.known f hf) (by
        intro d x hd
        have hw := h.twins d x (List.mem_cons_of_mem _ hd)
        have ha := h.apart d x mk (List.mem_cons_of_mem _ hd) hmade
        dsimp only
        refine hperm.symm.pairwise ?_ ?_
        · refine List.pairwise_cons.mpr ⟨fun g _ _ h2 => absurd h2.symm ha, hw⟩
        · intro f g hfg h1 h2
          exact fun e => hfg h1.symm (h1.symm.trans h2) e.symm))
    have hno : ∀ d x, (Item.call d, x) ∈ items → ∀ fs, ¬ d.Means fs mk ∧ ¬ d.Method mk := by
      intro d x hd fs
      have ha := h.apart d x mk (List.mem_cons_of_mem _ hd) hmade
      have : ¬ d.Method mk := by rintro ⟨_, _, e, _⟩; exact ha e.symm
      refine ⟨?_, this⟩
      rintro (m | ⟨m, _⟩)
      · exact this m
      · exact ha m.1.symm
    refine ⟨s', ?_, ?_⟩
    · rw [List.map_cons, processAll]
      show (processItem rand s (Item.maker t b).text a >>= _) = _
      rw [e3, Res.bind_ok]
      exact p1
    · obtain ⟨address, g1, g2⟩ := p2.functions
      dsimp only at g1 g2
      refine ⟨⟨address, ?_, ?_⟩, ?_, fun n hn => p2.kept n (c1.kept n hn), ?_, fun hs => p2.sorted (c1.sorted hs), ?_, ?_, p2.rest⟩
      · intro f hf
        have hc : ∀ d x, (Item.call d, x) ∈ items → (d.Means (insertBy (fun x : Function => x.name.hash) mk s.db.functions) f ↔ d.Means s.db.functions f) := by
          intro d x hd
          refine means_congr rfl rfl ⟨?_, ?_⟩
          · rintro ⟨g, hg, m⟩
            rcases (hmem g).mp hg with rfl | hg
            · exact absurd m (hno d x hd []).2
            · exact ⟨g, hg, m⟩
          · rintro ⟨g, hg, m⟩
            exact ⟨g, (hmem g).mpr (.inr hg), m⟩
        rcases g1 f ((hmem f).mpr (.inr hf)) with ⟨pre, d, post, e, m1, m2⟩ | ⟨e, m⟩
        · refine .inl ⟨(.maker t b, a) :: pre, d, post, by rw [e]; rfl, (hc d (address f) (by rw [e]; simp)).mp m1, fun d' x hd' hm => m2 d' x hd' ?_⟩
          exact (hc d' x (by rw [e]; simp [hd'])).mpr hm
        · refine .inr ⟨e, fun d x hd hm' => ?_⟩
          rcases List.mem_cons.mp hd with e' | hd
          · cases e'
          · exact m d x hd ((hc d x hd).mpr hm')
      · have hmk : ({ mk with address := address mk } : Function) = mk := by
          rcases g1 mk ((hmem mk).mpr (.inl rfl)) with ⟨pre, d, post, e, m1, m2⟩ | ⟨e, m⟩
          · exact absurd m1 (hno d (address mk) (by rw [e]; simp) _).1
          · rw [e]
        rw [List.filterMap_cons, e1]
        dsimp only
        refine g2.trans ?_
        have h3 := (hperm.map fun f : Function => { f with address := address f }).append_right (items.filterMap Item.made)
        refine h3.trans ?_
        rw [List.map_cons, hmk, List.cons_append]
        exact List.perm_middle.symm
      · rw [List.filterMap_cons, e2]
        dsimp only
        refine p2.fields.trans ?_
        refine ((Clr.Merge.perm_insertBy (key := fun x : DB.Field => x.name.hash) mp s.db.fields).append_right _).trans ?_
        rw [List.cons_append]
        exact List.perm_middle.symm
      · intro n hn
        rcases p2.origin n hn with hn | hn
        · exact c1.origin n hn
        · exact .inr hn
      · intro f hf
        rw [List.filterMap_cons, e1, List.mem_cons] at hf
        rcases hf with rfl | hf
        · injection e1 with e1
          subst e1
          exact ⟨p2.kept _ (ct _ (by simp [Item.texts])), p2.kept _ (ct _ (by simp [Item.texts]))⟩
        · exact p2.made f hf
      · intro f hf
        rw [List.filterMap_cons, e2, List.mem_cons] at hf
        rcases hf with rfl | hf
        · injection e2 with e2
          subst e2
          exact ⟨p2.kept _ (ct _ (by simp [Item.texts])), p2.kept _ (ct _ (by simp [Item.texts])), p2.kept _ (ct _ (by simp [Item.texts]))⟩
        · exact p2.madeParam f hf
  | (.query ret t b, a) :: items, s, h => by
    obtain ⟨names, gs, c1, e1⟩ := query_step rand (h.ok _ _ List.mem_cons_self).1 (h.addresses _ _ List.mem_cons_self) h.clear (h.ok _ _ List.mem_cons_self).2
    obtain ⟨s', p1, p2⟩ := process_items rand items { s with db := { s.db with names := names }, getTypes := gs } (h.tail c1.clear h.known
      fun d x hd => h.twins d x (List.mem_cons_of_mem _ hd))
    refine ⟨s', ?_, p2.skip rfl rfl (by simp) c1⟩
    rw [List.map_cons, processAll]
    show (processItem rand s (Item.query ret t b).text a >>= _) = _
    rw [e1, Res.bind_ok]
    exact p1
  | (.other sig, a) :: items, s, h => by
    have e1 := other_step rand (a := a) (h.ok (.other sig) _ List.mem_cons_self).1 h.known
    obtain ⟨s', p1, p2⟩ := process_items rand items s (h.tail h.clear h.known fun d x hd => h.twins d x (List.mem_cons_of_mem _ hd))
    refine ⟨s', ?_, Told.skip (names := s.db.names) rfl rfl (by simp) h.clear.grown p2⟩
    rw [List.map_cons, processAll]
    show (processItem rand s sig a >>= _) = _
    rw [e1, Res.bind_ok]
    exact p1

theorem Items.inv {rand : Nat → Nat} {db : Database} {items : List (Item × UInt64)} {T : List Bytes} (h : Items rand db items T) :
    Inv rand (db.functions.map (fun f : Function => f.name.hash) ++ (items.filterMap Item.made).map (fun f : Function => f.name.hash)) T db items where
  twins _ _ _ := h.twins.imp fun hp e _ => hp e
  ok := h.ok
  known f hf := List.mem_append_left _ (List.mem_map.mpr ⟨f, hf, rfl⟩)
  makers f hf := List.mem_append_right _ (List.mem_map.mpr ⟨f, hf, rfl⟩)
  addresses := h.addresses
  clear := h.clear
  apart := h.apart

end Clr.MapFiles
