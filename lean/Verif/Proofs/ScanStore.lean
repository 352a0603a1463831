import Verif.Props.ScanStoreSpec
import Verif.Props.ScanUnit
import Verif.Props.ScanTool
/-!
The database of a scanned translation unit holds what the unit declares.
-/
namespace Clr.ScanStore
open Clr.DB Clr.Build Clr.Merge
open Clr.ScanUnit (Item St Has Uses classOf namespaceOf Scanned Each Block Says Cls firsts)
open Clr.ScanTypes (Declares HasName)

attribute [local irreducible] hashOf

/-! ### The history -/

theorem filter_resize_cls (h : UInt32) (z : UInt64) (l : List Entry) :
    (resize h z l).filter (fun e => e.kind = .cls) = resize h z (l.filter fun e => e.kind = .cls) := by
  induction l with
  | nil => rfl
  | cons e l ih =>
    cases e with
    | cls c =>
      by_cases hc : c.name.hash = h
      · rw [List.filter_cons_of_pos (by simp [Entry.kind])]
        simp only [resize, hc, if_true]
        rw [List.filter_cons_of_pos (by simp [Entry.kind])]
      · rw [List.filter_cons_of_pos (by simp [Entry.kind])]
        simp only [resize, hc, if_false]
        rw [List.filter_cons_of_pos (by simp [Entry.kind]), ih]
    | _ =>
      simp only [resize]
      rw [List.filter_cons_of_neg (by simp [Entry.kind]), List.filter_cons_of_neg (by simp [Entry.kind]), ih]

theorem filter_hold_cls (l : List Entry) (c : Call) :
    (hold l c).filter (fun e => e.kind = .cls) = (hold (l.filter fun e => e.kind = .cls) c).filter fun e => e.kind = .cls := by
  cases c with
  | add e h => simp [hold, List.filter_append, List.filter_filter]
  | sizeClass n z => rw [hold, hold, filter_resize_cls, filter_resize_cls, List.filter_filter]; simp
  | _ => simp [hold, List.filter_filter]

theorem filter_foldl_cls (cs : List Call) (l : List Entry) :
    (cs.foldl hold l).filter (fun e => e.kind = .cls) = (cs.foldl hold (l.filter fun e => e.kind = .cls)).filter fun e => e.kind = .cls := by
  induction cs generalizing l with
  | nil => simp [List.filter_filter]
  | cons c cs ih =>
    rw [List.foldl_cons, List.foldl_cons, ih, filter_hold_cls, ← ih]

/-- The entries of the base types. -/
def baseEntries : List Entry := baseTypes.map fun b => .type { name := nameOf b.1, size := b.2 }

theorem added_base (l : List (Bytes × UInt64)) :
    added (ScanTool.baseCalls l) = l.map fun b => .type { name := nameOf b.1, size := b.2 } := by
  induction l with
  | nil => rfl
  | cons p l ih => rw [ScanTool.baseCalls_cons, added_append, ih]; rfl

theorem held_base (l : List (Bytes × UInt64)) (acc : List Entry) :
    (ScanTool.baseCalls l).foldl hold acc = acc ++ l.map fun b => .type { name := nameOf b.1, size := b.2 } := by
  induction l generalizing acc with
  | nil => simp [ScanTool.baseCalls]
  | cons p l ih =>
    rw [ScanTool.baseCalls_cons, List.foldl_append, ih]
    simp [hold]

theorem added_containers (l : List (Bytes × ScanTool.Cont)) : added (ScanTool.containerCalls l) = [] := by
  induction l with
  | nil => rfl
  | cons p l ih => exact ih

theorem held_containers (l : List (Bytes × ScanTool.Cont)) (acc : List Entry) : (ScanTool.containerCalls l).foldl hold acc = acc := by
  induction l with
  | nil => rfl
  | cons p l ih => exact ih

/-- All that a run over one file adds. -/
theorem held_all {s : St} {cs : List Call} (ht : Told s cs) (l : List (Bytes × ScanTool.Cont)) (k : EKind) (hk : k ≠ .containerInfo) :
    (held (ScanTool.baseCalls baseTypes ++ cs ++ ScanTool.containerCalls l)).filter (fun e => e.kind = k) =
      baseEntries.filter (fun e => e.kind = k) ++ (primitives s).filter fun e => e.kind = k := by
  rw [← ht.primitives k hk]
  by_cases hc : k = .cls
  · subst hc
    unfold held
    rw [List.foldl_append, held_containers, List.foldl_append, held_base, filter_foldl_cls]
    have hb : (([] : List Entry) ++ baseTypes.map fun b => Entry.type { name := nameOf b.1, size := b.2 }).filter (fun e => e.kind = .cls) = [] := by
      rw [List.nil_append, List.filter_eq_nil_iff]
      intro e he
      obtain ⟨b, _, rfl⟩ := List.mem_map.1 he
      simp [Entry.kind]
    have hb' : baseEntries.filter (fun e => e.kind = .cls) = [] := hb
    rw [hb, hb', List.nil_append]
  · rw [C74_as_added _ k hc, C74_as_added _ k hc, added_append, added_append, added_containers, List.append_nil, List.filter_append, added_base]
    rfl

/-- What is in the tables. -/
theorem has_iff {s : St} {cs : List Call} (ht : Told s cs) {l : List (Bytes × ScanTool.Cont)} {d : Database}
    (hr : run {} (ScanTool.baseCalls baseTypes ++ cs ++ ScanTool.containerCalls l) = .ok d) (e : Entry) (hk : isTable e.kind = true) :
    d.Has e ↔ e ∈ baseEntries ∨ e ∈ primitives s := by
  have hk' : e.kind ≠ .containerInfo := by intro h; rw [h] at hk; cases hk
  have h1 : d.Has e ↔ e ∈ d.table e.kind := by
    cases e <;> simp [Database.Has, Database.table, Entry.kind, isTable] at hk ⊢
  rw [h1, (C74_tables _ d hr e.kind hk).1.mem_iff, held_all ht l _ hk', List.mem_append, List.mem_filter, List.mem_filter]
  simp

section
variable {s : St}

theorem attribute_kind (r : Scan.Rec) : (attributeEntry r).kind = .flagAttribute ∨ (attributeEntry r).kind = .intAttribute ∨
    (attributeEntry r).kind = .floatAttribute ∨ (attributeEntry r).kind = .primitiveAttribute ∨ (attributeEntry r).kind = .textAttribute := by
  unfold attributeEntry
  split <;> simp [Entry.kind]

theorem attribute_not {e : Entry} (h : e.kind ≠ .flagAttribute ∧ e.kind ≠ .intAttribute ∧ e.kind ≠ .floatAttribute ∧
    e.kind ≠ .primitiveAttribute ∧ e.kind ≠ .textAttribute) (r : Scan.Rec) : attributeEntry r ≠ e := by
  rintro rfl
  rcases attribute_kind r with h' | h' | h' | h' | h'
  · exact h.1 h'
  · exact h.2.1 h'
  · exact h.2.2.1 h'
  · exact h.2.2.2.1 h'
  · exact h.2.2.2.2 h'

theorem base_builtIn : ∀ b ∈ baseTypes, ∃ c ∈ builtIn, b.1 = c.1 ∧ b.2 = UInt64.ofNat c.2 := by decide +kernel

theorem builtIn_base : ∀ c ∈ builtIn, (c.1, UInt64.ofNat c.2) ∈ baseTypes := by decide +kernel

theorem base_mem (e : Entry) : e ∈ baseEntries ↔ ∃ b ∈ baseTypes, e = .type { name := nameOf b.1, size := b.2 } := by
  unfold baseEntries
  rw [List.mem_map]
  constructor
  · rintro ⟨b, h1, h2⟩; exact ⟨b, h1, h2.symm⟩
  · rintro ⟨b, h1, h2⟩; exact ⟨b, h1, h2.symm⟩

theorem mem_primitives (e : Entry) (h : e.kind ≠ .flagAttribute ∧ e.kind ≠ .intAttribute ∧ e.kind ≠ .floatAttribute ∧
    e.kind ≠ .primitiveAttribute ∧ e.kind ≠ .textAttribute) : e ∈ primitives s ↔
      (∃ x ∈ s.data.namespaces, e = .namespace (namespaceEntry x)) ∨ (∃ x ∈ s.data.classes, e = .cls (classEntry x)) ∨
      (∃ x ∈ s.data.templates, e = .template (templateEntry x)) ∨ (∃ x ∈ s.data.db.templateTypes, e = .templateType (instanceEntry x)) ∨
      (∃ x ∈ s.data.db.enums, e = .enum (enumEntry x)) ∨ (∃ x ∈ s.data.db.constants, e = .enumConstant (constantEntry x)) ∨
      (∃ x ∈ s.data.db.functions, e = .function (functionEntry x)) ∨ ∃ x ∈ s.data.db.fields, e = .field (fieldEntry x) := by
  have ha : ¬ ∃ x ∈ s.attrs, attributeEntry x = e := by
    rintro ⟨r, _, hr⟩
    exact attribute_not h r hr
  unfold primitives
  simp only [List.mem_append, List.mem_map, ha, or_false, or_assoc, eq_comm (a := e)]

end

/-! ### Blocks -/

theorem each_mem {α β : Type} {R : α → β → Prop} {l : List α} {m : List β} (h : Each R l m) :
    (∀ x ∈ l, ∃ b ∈ m, R x b) ∧ ∀ b ∈ m, ∃ x ∈ l, R x b := by
  induction h with
  | nil => exact ⟨by simp, by simp⟩
  | cons hr _ ih =>
    constructor
    · intro x hx
      rcases List.mem_cons.1 hx with rfl | hx
      · exact ⟨_, List.mem_cons_self, hr⟩
      · obtain ⟨b, hb, h⟩ := ih.1 x hx
        exact ⟨b, List.mem_cons_of_mem _ hb, h⟩
    · intro b hb
      rcases List.mem_cons.1 hb with rfl | hb
      · exact ⟨_, List.mem_cons_self, hr⟩
      · obtain ⟨x, hx, h⟩ := ih.2 b hb
        exact ⟨x, List.mem_cons_of_mem _ hx, h⟩

theorem params_mem {env : ScanTypes.Env} {fn : Bytes} {uid : BitVec 32} {k : Nat} {ps : List ScanTypes.ParamDecl} {fs : List ScanTypes.Field}
    (h : ScanTypes.ParamsFor env fn uid k ps fs) : ∀ f ∈ fs, ∃ (i : Nat) (p : ScanTypes.ParamDecl) (name : Bytes) (j : ScanTypes.PInfo), ps[i]? = some p ∧
      ScanTypes.NameOf p (k + i) name ∧ Declares env p.type j ∧ f.parent = fn ∧ f.type = j.name ∧ f.name = name := by
  induction h with
  | nil => simp
  | cons hn hf _ ih =>
    intro f hm
    rcases List.mem_cons.1 hm with rfl | hm
    · obtain ⟨j, hj, rfl⟩ := hf
      exact ⟨0, _, _, j, rfl, hn, hj, rfl, rfl, rfl⟩
    · obtain ⟨i, p, name, j, h1, h2, h3⟩ := ih f hm
      exact ⟨i + 1, p, name, j, h1, by rw [Nat.add_comm i 1, ← Nat.add_assoc]; exact h2, h3⟩

section
variable {env : ScanTypes.Env} {x : Bytes × Item} {b : Block}

/-- The entries of a declaration. -/
structure Entries (env : ScanTypes.Env) (x : Bytes × Item) (b : Block) : Prop where
  enums : ∀ e, e ∈ b.enums ↔ ∃ tag cs, x.2.what = .enum tag cs ∧ e = ⟨x.2.name, x.1, ScanUnit.tagOf tag⟩
  constants : ∀ e, e ∈ b.constants ↔ ∃ tag cs, x.2.what = .enum tag cs ∧
    ∃ c ∈ cs, e = ⟨if x.1 = [] then c.name else x.1 ++ b!"::" ++ c.name, x.2.name, ScanTypes.rawValue c⟩
  functions : ∀ f ∈ b.functions, IsFunction x.2 ∧ f.name = x.2.name ∧ f.parent = x.1
  function : IsFunction x.2 → ∃ f ∈ b.functions, f.name = x.2.name ∧ f.parent = x.1
  field : ∀ holder n t bits, x.2.what = .field holder n t bits →
    ∃ j, Declares env t j ∧ b.fields = [⟨n, x.1, j.name, j.op, j.isConst, ((bits / 8 : Nat) : Int), 0#32⟩]
  fields : ∀ f ∈ b.fields, (∃ holder n t bits, x.2.what = .field holder n t bits) ∨ IsFunction x.2 ∧ f.parent = x.2.name ∧
    ∃ name t j, Has x x.2.name name t ∧ Declares env t j ∧ f.type = j.name ∧ f.name = name

theorem entries_nothing (he : ∀ tag cs, x.2.what ≠ .enum tag cs) (hf : ¬ IsFunction x.2) (hd : ∀ holder n t bits, x.2.what ≠ .field holder n t bits) :
    Entries env x {} := by
  refine ⟨fun e => ?_, fun e => ?_, by simp, fun h => absurd h hf, fun _ _ _ _ h => absurd h (hd _ _ _ _), by simp⟩
  · refine ⟨fun h => absurd h (by simp), ?_⟩
    rintro ⟨_, _, h, _⟩; exact absurd h (he _ _)
  · refine ⟨fun h => absurd h (by simp), ?_⟩
    rintro ⟨_, _, h, _⟩; exact absurd h (he _ _)

theorem entries_function (he : ∀ tag cs, x.2.what ≠ .enum tag cs) (hi : IsFunction x.2) (hd : ∀ holder n t bits, x.2.what ≠ .field holder n t bits)
    {uid : BitVec 32} {fs : List ScanTypes.Field} (hf : ∀ f ∈ fs, f.parent = x.2.name ∧
      ∃ name t j, Has x x.2.name name t ∧ Declares env t j ∧ f.type = j.name ∧ f.name = name) :
    Entries env x { functions := [⟨x.2.name, x.1, uid⟩], fields := fs } := by
  refine ⟨fun e => ?_, fun e => ?_, ?_, fun _ => ⟨_, List.mem_singleton.2 rfl, rfl, rfl⟩, fun _ _ _ _ h => absurd h (hd _ _ _ _),
    fun f h => .inr ⟨hi, hf f h⟩⟩
  · refine ⟨fun h => absurd h (by simp), ?_⟩
    rintro ⟨_, _, h, _⟩; exact absurd h (he _ _)
  · refine ⟨fun h => absurd h (by simp), ?_⟩
    rintro ⟨_, _, h, _⟩; exact absurd h (he _ _)
  · intro f h
    rw [List.mem_singleton] at h
    subst h
    exact ⟨hi, rfl, rfl⟩

theorem says_entries (h : Says env x.1 x.2 b) : Entries env x b := by
  cases hw : x.2.what with
  | enum tag cs =>
    unfold Says at h
    rw [hw] at h
    have h : b = _ := h
    subst h
    refine ⟨fun e => ?_, fun e => ?_, by simp, ?_, ?_, by simp⟩
    · rw [List.mem_singleton, hw]
      constructor
      · rintro rfl; exact ⟨_, _, rfl, rfl⟩
      · rintro ⟨_, _, h1, rfl⟩; cases h1; rfl
    · rw [hw]
      constructor
      · intro h
        obtain ⟨c, hc, rfl⟩ := List.mem_map.1 h
        exact ⟨_, _, rfl, c, hc, rfl⟩
      · rintro ⟨_, _, h1, c, hc, rfl⟩
        cases h1
        exact List.mem_map.2 ⟨c, hc, rfl⟩
    · rintro (⟨_, _, _, h⟩ | ⟨_, _, _, _, _, h⟩) <;> rw [hw] at h <;> cases h
    · intro _ _ _ _ h; rw [hw] at h; cases h
  | function first result params =>
    unfold Says at h
    rw [hw] at h
    obtain ⟨ret, ps, uid, ⟨j, hj, rfl⟩, hp, _, rfl⟩ := h
    refine entries_function (by rw [hw]; simp) (.inl ⟨_, _, _, hw⟩) (by rw [hw]; simp) fun f hf => ?_
    unfold Has
    rw [hw]
    rcases List.mem_append.1 hf with hf | hf
    · split at hf
      · cases hf
      · rw [List.mem_singleton] at hf
        subst hf
        exact ⟨rfl, _, _, j, ⟨rfl, .inl ⟨rfl, rfl⟩⟩, hj, rfl, rfl⟩
    · obtain ⟨i, p, name, j', h1, h2, h3, h4, h5, h6⟩ := params_mem hp f hf
      rw [Nat.zero_add] at h2
      exact ⟨h4, name, _, j', ⟨rfl, .inr ⟨i, p, h1, h2, rfl⟩⟩, h3, h5, h6⟩
  | method isOperator thisType first result params =>
    unfold Says at h
    rw [hw] at h
    have key : ∀ (k : Nat) (uid : BitVec 32) (ps : List ScanTypes.Field), ScanTypes.ParamsFor env x.2.name uid k params ps →
        k = (if thisType = none then 0 else 1) → ∀ f ∈ ps, f.parent = x.2.name ∧
          ∃ name t j, Has x x.2.name name t ∧ Declares env t j ∧ f.type = j.name ∧ f.name = name := by
      intro k uid ps hp hk f hf
      unfold Has
      rw [hw]
      obtain ⟨i, p, name, j', h1, h2, h3, h4, h5, h6⟩ := params_mem hp f hf
      refine ⟨h4, name, _, j', ⟨rfl, .inr (.inr ⟨i, p, h1, ?_, rfl⟩)⟩, h3, h5, h6⟩
      have e : (if thisType = none then i else i + 1) = k + i := by
        rw [hk]; split <;> omega
      rw [e]
      exact h2
    cases thisType with
    | none =>
      obtain ⟨ret, ps, uid, ⟨j, hj, rfl⟩, hp, _, rfl⟩ := h
      refine entries_function (by rw [hw]; simp) (.inr ⟨_, _, _, _, _, hw⟩) (by rw [hw]; simp) fun f hf => ?_
      rcases List.mem_append.1 hf with hf | hf
      · split at hf
        · cases hf
        · rw [List.mem_singleton] at hf
          subst hf
          unfold Has
          rw [hw]
          exact ⟨rfl, _, _, j, ⟨rfl, .inl ⟨rfl, rfl⟩⟩, hj, rfl, rfl⟩
      · exact key 0 uid ps hp rfl f hf
    | some t =>
      obtain ⟨ret, this, ps, uid, ⟨j, hj, rfl⟩, ⟨j', hj', rfl⟩, hp, _, rfl⟩ := h
      refine entries_function (by rw [hw]; simp) (.inr ⟨_, _, _, _, _, hw⟩) (by rw [hw]; simp) fun f hf => ?_
      rcases List.mem_append.1 hf with hf | hf
      · split at hf
        · cases hf
        · rw [List.mem_singleton] at hf
          subst hf
          unfold Has
          rw [hw]
          exact ⟨rfl, _, _, j, ⟨rfl, .inl ⟨rfl, rfl⟩⟩, hj, rfl, rfl⟩
      · rcases List.mem_cons.1 hf with rfl | hf
        · unfold Has
          rw [hw]
          exact ⟨rfl, _, _, j', ⟨rfl, .inr (.inl ⟨rfl, rfl⟩)⟩, hj', rfl, rfl⟩
        · exact key 1 uid ps hp (by simp) f hf
  | field holder n t bits =>
    unfold Says at h
    rw [hw] at h
    obtain ⟨f, ⟨j, hj, rfl⟩, rfl⟩ := h
    refine ⟨fun e => ?_, fun e => ?_, by simp, ?_, ?_, fun _ _ => .inl ⟨_, _, _, _, hw⟩⟩
    · rw [hw]; simp
    · rw [hw]; simp
    · rintro (⟨_, _, _, h⟩ | ⟨_, _, _, _, _, h⟩) <;> rw [hw] at h <;> cases h
    · intro _ _ _ _ h
      rw [hw] at h
      cases h
      exact ⟨j, hj, rfl⟩
  | _ =>
    unfold Says at h
    rw [hw] at h
    have h : b = {} := h
    subst h
    refine entries_nothing (by rw [hw]; simp) ?_ (by rw [hw]; simp)
    rintro (⟨_, _, _, h⟩ | ⟨_, _, _, _, _, h⟩) <;> rw [hw] at h <;> cases h

end

/-! ### What the database holds -/

theorem opOf_written (o : Hash.Op) : opOf o = writtenOp o := by cases o <;> rfl

theorem holds_of {env : ScanTypes.Env} {fuel : Nat} {texts : List Bytes} {ds : ScanUnit.Forest Item} {L : ScanUnit.Forest ScanUnit.Marked} {s : St}
    (hs : Scanned env fuel texts ds L s) {cs : List Call} (ht : Told s cs) {l : List (Bytes × ScanTool.Cont)} {d : Database}
    (hr : run {} (ScanTool.baseCalls baseTypes ++ cs ++ ScanTool.containerCalls l) = .ok d) :
    Holds ⟨env, ScanUnit.recorded texts L⟩ d := by
  obtain ⟨bs, hb, hfn, hfd, hen, hco⟩ := hs.blocks
  obtain ⟨b1, b2⟩ := each_mem hb
  have key := has_iff ht hr
  refine ⟨?_, ?_, ?_, ?_, ?_, ?_, ?_, ?_, ?_, ?_, ?_⟩
  · intro x n
    constructor
    · rintro ⟨e, he, rfl, rfl⟩
      rcases (key (.type e) rfl).1 he with h | h
      · obtain ⟨b, hb, h⟩ := (base_mem _).1 h
        injection h with h
        subst h
        obtain ⟨c, hc, h1, h2⟩ := base_builtIn b hb
        exact ⟨c, hc, by rw [h1], h2⟩
      · rw [mem_primitives _ (by simp [Entry.kind])] at h
        simp at h
    · rintro ⟨b, hb, rfl, rfl⟩
      have hb' := builtIn_base b hb
      exact ⟨_, (key (.type { name := nameOf b.1, size := UInt64.ofNat b.2 }) rfl).2 (.inl ((base_mem _).2 ⟨_, hb', rfl⟩)), rfl, rfl⟩
  · intro x
    constructor
    · rintro ⟨e, he, rfl⟩
      rcases (key (.cls e) rfl).1 he with h | h
      · obtain ⟨b, hb, h⟩ := (base_mem _).1 h
        cases h
      · rw [mem_primitives _ (by simp [Entry.kind])] at h
        simp at h
        obtain ⟨c, hc, rfl⟩ := h
        have h1 : (c.name, c.parent, c.isClass) ∈ s.data.classes.map (fun c => (c.name, c.parent, c.isClass)) := List.mem_map.2 ⟨c, hc, rfl⟩
        rw [hs.classes] at h1
        obtain ⟨y, hy, hn⟩ := (ScanUnit.firsts_names Prod.fst _ c.name).1 ⟨_, h1, rfl⟩
        obtain ⟨x, hx, hxy⟩ := List.mem_filterMap.1 hy
        exact ⟨c.name, ⟨x, hx, y, hxy, hn⟩, rfl⟩
    · rintro ⟨n, ⟨x, hx, c, hxc, rfl⟩, rfl⟩
      obtain ⟨y, hy, hn⟩ := (ScanUnit.firsts_names Prod.fst _ c.1).2 ⟨c, List.mem_filterMap.2 ⟨x, hx, hxc⟩, rfl⟩
      rw [← hs.classes] at hy
      obtain ⟨c', hc', rfl⟩ := List.mem_map.1 hy
      refine ⟨classEntry c', (key (.cls (classEntry c')) rfl).2 (.inr ?_), ?_⟩
      · rw [mem_primitives _ (by simp [Entry.kind])]
        exact .inr (.inl ⟨c', hc', rfl⟩)
      · show nameOf c'.name = nameOf c.1
        rw [← hn]
  · intro e he
    rcases (key (.cls e) rfl).1 he with h | h
    · obtain ⟨b, hb, h⟩ := (base_mem _).1 h
      cases h
    · rw [mem_primitives _ (by simp [Entry.kind])] at h
      simp at h
      obtain ⟨c, hc, rfl⟩ := h
      refine ⟨c.name, rfl, ?_⟩
      have hz := hs.sizes c hc
      cases hl : ((ScanUnit.recorded texts L).filterMap (ScanUnit.sizeOf c.name)).getLast? with
      | none =>
        right
        rw [List.getLast?_eq_none_iff] at hl
        rw [hl] at hz
        refine ⟨?_, ?_⟩
        · rintro ⟨z, x, hx, hxz⟩
          have : z ∈ (ScanUnit.recorded texts L).filterMap (ScanUnit.sizeOf c.name) := List.mem_filterMap.2 ⟨x, hx, hxz⟩
          rw [hl] at this
          cases this
        · show UInt64.ofNat c.size = _
          rw [hz]
          rfl
      | some z =>
        left
        rw [hl] at hz
        obtain ⟨x, hx, hxz⟩ := List.mem_filterMap.1 (List.mem_of_getLast? hl)
        refine ⟨z, ⟨x, hx, hxz⟩, ?_⟩
        show UInt64.ofNat c.size = _
        rw [hz]
        rfl
  · intro x
    constructor
    · rintro ⟨e, he, rfl⟩
      rcases (key (.enum e) rfl).1 he with h | h
      · obtain ⟨b, hb, h⟩ := (base_mem _).1 h
        cases h
      · rw [mem_primitives _ (by simp [Entry.kind])] at h
        simp at h
        obtain ⟨c, hc, rfl⟩ := h
        rw [hen] at hc
        obtain ⟨b, hb, hc⟩ := List.mem_flatMap.1 hc
        obtain ⟨x, hx, hsay⟩ := b2 b hb
        obtain ⟨tag, cs', hw, rfl⟩ := ((says_entries hsay).enums c).1 hc
        exact ⟨x.2.name, ⟨x, hx, rfl, tag, cs', hw⟩, rfl⟩
    · rintro ⟨n, ⟨x, hx, rfl, tag, cs', hw⟩, rfl⟩
      obtain ⟨b, hb, hsay⟩ := b1 x hx
      refine ⟨enumEntry ⟨x.2.name, x.1, ScanUnit.tagOf tag⟩, (key (.enum _) rfl).2 (.inr ?_), rfl⟩
      rw [mem_primitives _ (by simp [Entry.kind])]
      refine .inr (.inr (.inr (.inr (.inl ⟨_, ?_, rfl⟩))))
      rw [hen]
      exact List.mem_flatMap.2 ⟨b, hb, ((says_entries hsay).enums _).2 ⟨tag, cs', hw, rfl⟩⟩
  · intro x
    constructor
    · rintro ⟨e, he, rfl⟩
      rcases (key (.namespace e) rfl).1 he with h | h
      · obtain ⟨b, hb, h⟩ := (base_mem _).1 h
        cases h
      · rw [mem_primitives _ (by simp [Entry.kind])] at h
        simp only [Entry.namespace.injEq, reduceCtorEq, and_false, exists_false, or_false] at h
        obtain ⟨c, hc, rfl⟩ := h
        rw [hs.namespaces] at hc
        obtain ⟨y, hy, hn⟩ := (ScanUnit.firsts_names Prod.fst _ c.1).1 ⟨_, hc, rfl⟩
        obtain ⟨x, hx, hxy⟩ := List.mem_filterMap.1 hy
        refine ⟨y.1, ⟨x, hx, y.2, hxy⟩, ?_⟩
        rw [hn]
        rfl
    · rintro ⟨n, ⟨x, hx, p, hxc⟩, rfl⟩
      obtain ⟨y, hy, hn⟩ := (ScanUnit.firsts_names Prod.fst _ n).2 ⟨(n, p), List.mem_filterMap.2 ⟨x, hx, hxc⟩, rfl⟩
      rw [← hs.namespaces] at hy
      refine ⟨namespaceEntry y, (key (.namespace _) rfl).2 (.inr ?_), ?_⟩
      · rw [mem_primitives _ (by simp [Entry.kind])]
        exact .inl ⟨y, hy, rfl⟩
      · show nameOf y.1 = nameOf n
        rw [hn]
  · rintro n ⟨x, hx, parent, name, t, id, hh, hu, hn⟩
    obtain ⟨y, hy, hm⟩ := hs.used x hx parent name t hh id hu
    rw [ScanTypes.hasName_det hy hn] at hm
    obtain ⟨e, he, rfl⟩ := List.mem_map.1 hm
    refine ⟨instanceEntry e, (key (.templateType _) rfl).2 (.inr ?_), rfl⟩
    rw [mem_primitives _ (by simp [Entry.kind])]
    exact .inr (.inr (.inr (.inl ⟨e, he, rfl⟩)))
  · intro e he
    rcases (key (.templateType e) rfl).1 he with h | h
    · obtain ⟨b, hb, h⟩ := (base_mem _).1 h
      cases h
    · rw [mem_primitives _ (by simp [Entry.kind])] at h
      simp at h
      obtain ⟨c, hc, rfl⟩ := h
      obtain ⟨id, hid⟩ := hs.instances c hc
      exact ⟨id, c.name, hid.name, rfl⟩
  · intro x p
    constructor
    · rintro ⟨e, he, rfl, rfl⟩
      rcases (key (.function e) rfl).1 he with h | h
      · obtain ⟨b, hb, h⟩ := (base_mem _).1 h
        cases h
      · rw [mem_primitives _ (by simp [Entry.kind])] at h
        simp at h
        obtain ⟨c, hc, rfl⟩ := h
        rw [hfn] at hc
        obtain ⟨b, hb, hc⟩ := List.mem_flatMap.1 hc
        obtain ⟨x, hx, hsay⟩ := b2 b hb
        obtain ⟨hw, h1, h2⟩ := (says_entries hsay).functions c hc
        refine ⟨x.1, x.2.name, ⟨x, hx, hw, rfl, rfl⟩, ?_, ?_⟩
        · show nameOf c.name = _; rw [h1]
        · show nameOf c.parent = _; rw [h2]
    · rintro ⟨q, n, ⟨x, hx, hw, rfl, rfl⟩, rfl, rfl⟩
      obtain ⟨b, hb, hsay⟩ := b1 x hx
      obtain ⟨f, hf, h1, h2⟩ := (says_entries hsay).function hw
      refine ⟨functionEntry f, (key (.function _) rfl).2 (.inr ?_), ?_, ?_⟩
      · rw [mem_primitives _ (by simp [Entry.kind])]
        refine .inr (.inr (.inr (.inr (.inr (.inr (.inl ⟨_, ?_, rfl⟩))))))
        rw [hfn]
        exact List.mem_flatMap.2 ⟨b, hb, hf⟩
      · show nameOf f.name = _; rw [h1]
      · show nameOf f.parent = _; rw [h2]
  · intro x p v
    constructor
    · rintro ⟨e, he, rfl, rfl, rfl⟩
      rcases (key (.enumConstant e) rfl).1 he with h | h
      · obtain ⟨b, hb, h⟩ := (base_mem _).1 h
        cases h
      · rw [mem_primitives _ (by simp [Entry.kind])] at h
        simp at h
        obtain ⟨c, hc, rfl⟩ := h
        rw [hco] at hc
        obtain ⟨b, hb, hc⟩ := List.mem_flatMap.1 hc
        obtain ⟨x, hx, hsay⟩ := b2 b hb
        obtain ⟨tag, cs', hw, c', hc', rfl⟩ := ((says_entries hsay).constants c).1 hc
        exact ⟨x.2.name, _, ⟨x, hx, rfl, tag, cs', hw, c', hc', rfl, rfl⟩, rfl, rfl⟩
    · rintro ⟨q, n, ⟨x, hx, rfl, tag, cs', hw, c', hc', rfl, rfl⟩, rfl, rfl⟩
      obtain ⟨b, hb, hsay⟩ := b1 x hx
      refine ⟨constantEntry ⟨if x.1 = [] then c'.name else x.1 ++ b!"::" ++ c'.name, x.2.name, ScanTypes.rawValue c'⟩,
        (key (.enumConstant _) rfl).2 (.inr ?_), rfl, rfl, rfl⟩
      rw [mem_primitives _ (by simp [Entry.kind])]
      refine .inr (.inr (.inr (.inr (.inr (.inl ⟨_, ?_, rfl⟩)))))
      rw [hco]
      exact List.mem_flatMap.2 ⟨b, hb, ((says_entries hsay).constants _).2 ⟨tag, cs', hw, c', hc', rfl⟩⟩
  · rintro cls n type op isConst offset ⟨x, hx, rfl, holder, t, bits, j, hw, hj, rfl, rfl, rfl, rfl⟩
    obtain ⟨b, hb, hsay⟩ := b1 x hx
    obtain ⟨j', hj', e⟩ := (says_entries hsay).field holder n t bits hw
    rw [ScanTypes.C66_spec_deterministic _ _ _ hj hj']
    rw [← opOf_written]
    refine (key (.field _) rfl).2 (.inr ?_)
    rw [mem_primitives _ (by simp [Entry.kind])]
    refine .inr (.inr (.inr (.inr (.inr (.inr (.inr ⟨⟨n, x.1, j'.name, j'.op, j'.isConst, ((bits / 8 : Nat) : Int), 0#32⟩, ?_, rfl⟩))))))
    rw [hfd]
    exact List.mem_flatMap.2 ⟨b, hb, by rw [e]; exact List.mem_singleton.2 rfl⟩
  · intro f hf
    rcases (key (.field f) rfl).1 hf with h | h
    · obtain ⟨b, hb, h⟩ := (base_mem _).1 h
      cases h
    · rw [mem_primitives _ (by simp [Entry.kind])] at h
      simp at h
      obtain ⟨c, hc, rfl⟩ := h
      rw [hfd] at hc
      obtain ⟨b, hb, hc⟩ := List.mem_flatMap.1 hc
      obtain ⟨x, hx, hsay⟩ := b2 b hb
      rcases (says_entries hsay).fields c hc with ⟨holder, n, t, bits, hw⟩ | ⟨hw, h1, name, t, j, h2, h3, h4, h5⟩
      · left
        obtain ⟨j, hj, e⟩ := (says_entries hsay).field holder n t bits hw
        rw [e, List.mem_singleton] at hc
        subst hc
        exact ⟨_, _, _, _, _, _, ⟨x, hx, rfl, holder, t, bits, j, hw, hj, rfl, rfl, rfl, rfl⟩, by rw [← opOf_written]; rfl⟩
      · right
        refine ⟨x, hx, hw, ?_, name, t, j, h2, h3, ?_, ?_⟩
        · show nameOf c.parent = _; rw [h1]
        · show nameOf c.type = _; rw [h4]
        · show nameOf c.name = _; rw [h5]

/-! ### Such calls there are -/

theorem attribute_primitive (r : Scan.Rec) : isPrimitive (attributeEntry r) = true := by
  unfold attributeEntry
  split <;> rfl

theorem primitives_primitive (s : St) : ∀ e ∈ primitives s, isPrimitive e = true ∧ e.kind ≠ .containerInfo := by
  intro e he
  unfold primitives at he
  simp only [List.mem_append, List.mem_map] at he
  rcases he with (((((((h | h) | h) | h) | h) | h) | h) | h) | h <;> obtain ⟨x, _, rfl⟩ := h
  all_goals first
    | exact ⟨rfl, fun h => by cases h⟩
    | skip
  refine ⟨attribute_primitive x, fun h => ?_⟩
  rcases attribute_kind x with h' | h' | h' | h' | h' <;> rw [h] at h' <;> cases h'

theorem added_adds (l : List Entry) (h : ∀ e ∈ l, isPrimitive e = true) :
    added (l.filterMap fun e => if h : isPrimitive e = true then some (Call.add e h) else none) = l := by
  induction l with
  | nil => rfl
  | cons e l ih =>
    have he := h e List.mem_cons_self
    rw [List.filterMap_cons, dif_pos he]
    show e :: added _ = _
    rw [ih fun x hx => h x (List.mem_cons_of_mem _ hx)]

theorem added_names (l : List Bytes) : added (l.map fun t => .getName (some t)) = [] := by
  induction l with
  | nil => rfl
  | cons e l ih => exact ih

theorem added_bases (l : List (Bytes × Bytes)) : added (l.map fun r => .addInheritance (nameOf r.1) (nameOf r.2)) = [] := by
  induction l with
  | nil => rfl
  | cons e l ih => exact ih

theorem added_arrays (l : List ScanTypes.Container) : added (l.map fun c => .add (.containerInfo (arrayEntry c)) rfl) =
    l.map fun c => .containerInfo (arrayEntry c) := by
  induction l with
  | nil => rfl
  | cons e l ih =>
    show _ :: added _ = _
    rw [ih]
    rfl

theorem added_tell (s : St) : added (tell s) = primitives s ++ s.data.db.containers.map fun c => .containerInfo (arrayEntry c) := by
  unfold tell
  rw [added_append, added_append, added_append, added_names, added_adds _ fun e he => (primitives_primitive s e he).1, added_arrays, added_bases]
  simp

theorem held_added (cs : List Call) (h : ∀ n z, Call.sizeClass n z ∉ cs) : held cs = added cs := by
  have key : ∀ (cs : List Call) (l : List Entry), (∀ n z, Call.sizeClass n z ∉ cs) → cs.foldl hold l = l ++ added cs := by
    intro cs
    induction cs with
    | nil => intro l _; simp [added]
    | cons c cs ih =>
      intro l hc
      have e : added (c :: cs) = added [c] ++ added cs := by rw [← added_append]; rfl
      rw [List.foldl_cons, ih _ fun n z hm => hc n z (List.mem_cons_of_mem _ hm), e, ← List.append_assoc]
      congr 1
      cases c with
      | sizeClass n z => exact absurd List.mem_cons_self (hc n z)
      | add x hx => rfl
      | _ => simp [hold, added]
  unfold held
  simpa using key cs [] h

theorem tell_calls {s : St} {c : Call} (h : c ∈ tell s) :
    (∃ t ∈ texts s, c = .getName (some t)) ∨ (∃ e h, c = .add e h) ∨ ∃ r ∈ s.data.db.inherits, c = .addInheritance (nameOf r.1) (nameOf r.2) := by
  unfold tell at h
  simp only [List.mem_append, List.mem_map, List.mem_filterMap] at h
  rcases h with ((⟨t, ht, rfl⟩ | ⟨e, he, h⟩) | ⟨x, hx, rfl⟩) | ⟨x, hx, rfl⟩
  · exact .inl ⟨t, ht, rfl⟩
  · split at h
    · injection h with h
      exact .inr (.inl ⟨_, _, h.symm⟩)
    · cases h
  · exact .inr (.inl ⟨_, _, rfl⟩)
  · exact .inr (.inr ⟨x, hx, rfl⟩)

/-- The containers among the entries. -/
def arraysOf (l : List Entry) : List ContainerInfo :=
  l.filterMap fun | .containerInfo c => some c | _ => none

theorem told_tell (s : St) : Told s (tell s) := by
  have hh : held (tell s) = primitives s ++ s.data.db.containers.map fun c => .containerInfo (arrayEntry c) := by
    rw [held_added _ fun n z hm => ?_, added_tell]
    rcases tell_calls hm with ⟨_, _, h⟩ | ⟨_, _, h⟩ | ⟨_, _, h⟩ <;> cases h
  refine ⟨fun k hk => ?_, ?_, ?_⟩
  · rw [hh, List.filter_append]
    have : (s.data.db.containers.map fun c => Entry.containerInfo (arrayEntry c)).filter (fun e => e.kind = k) = [] := by
      rw [List.filter_eq_nil_iff]
      intro e he
      obtain ⟨c, _, rfl⟩ := List.mem_map.1 he
      intro h
      exact hk (of_decide_eq_true h).symm
    rw [this, List.append_nil]
  · unfold arrays
    rw [added_tell, List.filterMap_append]
    have h1 : ∀ l : List Entry, (∀ e ∈ l, e.kind ≠ .containerInfo) → arraysOf l = [] := by
      intro l hl
      unfold arraysOf
      rw [List.filterMap_eq_nil_iff]
      intro e he
      have := hl e he
      cases e <;> first | rfl | exact absurd rfl this
    have h2 : ∀ l : List ScanTypes.Container, arraysOf (l.map fun c => .containerInfo (arrayEntry c)) = l.map arrayEntry := by
      intro l
      induction l with
      | nil => rfl
      | cons c l ih =>
        show _ :: arraysOf _ = _
        rw [ih]
        rfl
    have h3 := h1 _ fun e he => (primitives_primitive s e he).2
    show arraysOf _ ++ arraysOf _ = _
    rw [h3, h2]
    rfl
  · unfold tell
    rw [inheritances_append, inheritances_append, inheritances_append]
    have h1 : ∀ l : List Bytes, inheritances (l.map fun t => .getName (some t)) = [] := by
      intro l; induction l with
      | nil => rfl
      | cons _ _ ih => exact ih
    have h2 : ∀ l : List Entry, inheritances (l.filterMap fun e => if h : isPrimitive e = true then some (Call.add e h) else none) = [] := by
      intro l; induction l with
      | nil => rfl
      | cons e l ih =>
        rw [List.filterMap_cons]
        split
        · exact ih
        · rename_i b hb
          split at hb
          · injection hb with hb; subst hb; exact ih
          · cases hb
    have h3 : ∀ l : List ScanTypes.Container, inheritances (l.map fun c => .add (.containerInfo (arrayEntry c)) rfl) = [] := by
      intro l; induction l with
      | nil => rfl
      | cons _ _ ih => exact ih
    have h4 : ∀ l : List (Bytes × Bytes), inheritances (l.map fun r => .addInheritance (nameOf r.1) (nameOf r.2)) = l.map baseEntry := by
      intro l; induction l with
      | nil => rfl
      | cons r l ih =>
        show _ :: inheritances _ = _
        rw [ih]
        rfl
    rw [h1, h2, h3, h4]
    rfl

end Clr.ScanStore
