import Verif.Model.ScanToolSpec
import Verif.Proofs.Scan
import Verif.Proofs.BuildDB
namespace Clr.ScanTool
open Clr.DB Clr.Scan

/-! ### Splitting -/

theorem split_ne (sep : UInt8) (s : Bytes) : split sep s ≠ [] := by
  cases s with
  | nil => simp [split]
  | cons c s =>
    rw [split]
    split
    · simp
    · split <;> simp

theorem split_none {sep : UInt8} {s : Bytes} (h : sep ∉ s) : split sep s = [s] := by
  induction s with
  | nil => rfl
  | cons c s ih =>
    rw [split, if_neg (fun e => h (by simp [e])), ih (fun hs => h (by simp [hs]))]

theorem split_append {sep : UInt8} {a : Bytes} (s : Bytes) (h : sep ∉ a) : split sep (a ++ sep :: s) = a :: split sep s := by
  induction a with
  | nil => simp [split]
  | cons c a ih =>
    rw [List.cons_append, split, if_neg (fun e => h (by simp [e])), ih (fun hs => h (by simp [hs]))]

/-- One part more than there are separators. -/
theorem split_length (sep : UInt8) (s : Bytes) : (split sep s).length = s.count sep + 1 := by
  induction s with
  | nil => rfl
  | cons c s ih =>
    rw [split]
    by_cases h : c = sep
    · rw [if_pos h, h, List.length_cons, ih, List.count_cons_self]
    · rw [if_neg h, List.count_cons_of_ne h, ← ih]
      cases hs : split sep s with
      | nil => exact absurd hs (split_ne sep s)
      | cons p ps => rfl

/-! ### The map of containers -/

theorem lt_or_eq (a b : Bytes) (h1 : ¬ a < b) (h2 : ¬ b < a) : a = b :=
  List.le_antisymm (List.not_lt.mp h2) (List.not_lt.mp h1)

def SortedKeys (l : List (Bytes × Cont)) : Prop := l.Pairwise fun a b => a.1 < b.1

theorem mem_assign {k : Bytes} {v : Cont} {l : List (Bytes × Cont)} {e : Bytes × Cont} (h : e ∈ assign k v l) :
    e = (k, v) ∨ e ∈ l := by
  induction l with
  | nil => simpa [assign] using h
  | cons x l ih =>
    rw [assign] at h
    split at h
    · simpa using h
    · split at h
      · rcases List.mem_cons.mp h with h | h
        · simp [h]
        · rcases ih h with h | h <;> simp [h]
      · rcases List.mem_cons.mp h with h | h <;> simp [h]

theorem assign_sorted (k : Bytes) (v : Cont) {l : List (Bytes × Cont)} (h : SortedKeys l) : SortedKeys (assign k v l) := by
  induction l with
  | nil => simp [assign, SortedKeys]
  | cons x l ih =>
    have hp := List.pairwise_cons.mp h
    rw [assign]
    split
    · rename_i h1
      refine List.pairwise_cons.mpr ⟨fun e he => ?_, h⟩
      rcases List.mem_cons.mp he with he | he
      · rw [he]; exact h1
      · exact List.lt_trans h1 (hp.1 e he)
    · split
      · rename_i h1 h2
        refine List.pairwise_cons.mpr ⟨fun e he => ?_, ih hp.2⟩
        rcases mem_assign he with he | he
        · rw [he]; exact h2
        · exact hp.1 e he
      · rename_i h1 h2
        have := lt_or_eq _ _ h1 h2
        refine List.pairwise_cons.mpr ⟨fun e he => ?_, hp.2⟩
        rw [this]; exact hp.1 e he

theorem sorted_unique {l : List (Bytes × Cont)} (h : SortedKeys l) {a b : Bytes × Cont} (ha : a ∈ l) (hb : b ∈ l)
    (he : a.1 = b.1) : a = b := by
  induction l with
  | nil => simp at ha
  | cons x l ih =>
    have hp := List.pairwise_cons.mp h
    rcases List.mem_cons.mp ha with h1 | h1 <;> rcases List.mem_cons.mp hb with h2 | h2
    · rw [h1, h2]
    · have := hp.1 b h2
      rw [← h1, he] at this
      exact absurd this (List.lt_irrefl _)
    · have := hp.1 a h1
      rw [← h2, he] at this
      exact absurd this (List.lt_irrefl _)
    · exact ih hp.2 h1 h2

theorem mem_assign_iff (k : Bytes) (v : Cont) {l : List (Bytes × Cont)} (h : SortedKeys l) (e : Bytes × Cont) :
    e ∈ assign k v l ↔ e = (k, v) ∨ (e ∈ l ∧ e.1 ≠ k) := by
  induction l with
  | nil => simp [assign]
  | cons x l ih =>
    have hp := List.pairwise_cons.mp h
    rw [assign]
    split
    · rename_i h1
      have : ∀ y ∈ x :: l, y.1 ≠ k := by
        intro y hy hk
        rcases List.mem_cons.mp hy with rfl | hy
        · rw [hk] at h1; exact List.lt_irrefl _ h1
        · have := hp.1 y hy
          rw [hk] at this
          exact List.lt_irrefl _ (List.lt_trans h1 this)
      constructor
      · intro he
        rcases List.mem_cons.mp he with he | he
        · exact .inl he
        · exact .inr ⟨he, this e he⟩
      · rintro (he | he)
        · simp [he]
        · simp [List.mem_cons.mp he.1]
    · split
      · rename_i h1 h2
        rw [List.mem_cons, ih hp.2, List.mem_cons]
        constructor
        · rintro (he | he | he)
          · refine .inr ⟨.inl he, fun hk => ?_⟩
            rw [he] at hk; rw [hk] at h2; exact List.lt_irrefl _ h2
          · exact .inl he
          · exact .inr ⟨.inr he.1, he.2⟩
        · rintro (he | ⟨he | he, hk⟩)
          · exact .inr (.inl he)
          · exact .inl he
          · exact .inr (.inr ⟨he, hk⟩)
      · rename_i h1 h2
        have hx := lt_or_eq _ _ h1 h2
        rw [List.mem_cons, List.mem_cons]
        constructor
        · rintro (he | he)
          · exact .inl he
          · refine .inr ⟨.inr he, fun hk => ?_⟩
            have := hp.1 e he
            rw [hk, hx] at this
            exact List.lt_irrefl _ this
        · rintro (he | ⟨he | he, hk⟩)
          · exact .inl he
          · exact absurd (by rw [he, hx]) hk
          · exact .inr he

/-- The map holds the last of each name. -/
structure Holds (l : List (Bytes × Cont)) (said : List (Bytes × Cont)) : Prop where
  sorted : SortedKeys l
  mem : ∀ n c, (n, c) ∈ l ↔ lastFor n said = some c

theorem holds_nil : Holds [] [] := ⟨List.Pairwise.nil, by simp [lastFor]⟩

theorem lastFor_snoc (n : Bytes) (said : List (Bytes × Cont)) (e : Bytes × Cont) :
    lastFor n (said ++ [e]) = if e.1 = n then some e.2 else lastFor n said := by
  simp only [lastFor, List.reverse_append, List.reverse_cons, List.reverse_nil, List.nil_append, List.singleton_append, List.find?_cons]
  split <;> simp_all

theorem Holds.assign {l said : List (Bytes × Cont)} (h : Holds l said) (n : Bytes) (c : Cont) :
    Holds (assign n c l) (said ++ [(n, c)]) := by
  refine ⟨assign_sorted n c h.sorted, fun m d => ?_⟩
  rw [mem_assign_iff n c h.sorted, lastFor_snoc, h.mem]
  by_cases hm : n = m
  · simp only [hm, if_pos]
    constructor
    · rintro (he | he)
      · rw [(Prod.mk.inj he).2]
      · exact absurd rfl he.2
    · intro he; injection he with he; simp [he]
  · rw [if_neg hm]
    constructor
    · rintro (he | he)
      · exact absurd (Prod.mk.inj he).1.symm hm
      · exact he.1
    · intro he; exact .inr ⟨he, fun e => hm e.symm⟩

/-! ### Gathering -/

theorem keyInfo_spec (k : Bytes) : keyInfo k = if k = b!"haskey" then some true else if k = b!"nokey" then some false else none := rfl

theorem count_pos_of_mem {a : UInt8} {l : Bytes} (h : a ∈ l) : 1 ≤ l.count a := List.count_pos_iff.mpr h

theorem containerSpec_macro (c r w k : Bytes) (l : List (Bytes × Cont)) :
    containerSpec (b!"container-" ++ c ++ b!"-" ++ r ++ b!"-" ++ w ++ b!"-" ++ k) l =
      match described (.container c r w k) with
      | some e => assign e.1 e.2 l
      | none => l := by
  have e : (b!"container-" ++ c ++ b!"-" ++ r ++ b!"-" ++ w ++ b!"-" ++ k : Bytes) =
      b!"container" ++ 45 :: (c ++ 45 :: (r ++ 45 :: (w ++ 45 :: k))) := by simp
  by_cases hd : 45 ∈ c ∨ 45 ∈ r ∨ 45 ∈ w ∨ 45 ∈ k
  · have hn : described (.container c r w k) = none := by
      rw [described]
      split
      · rfl
      · rename_i hx
        have hk : 45 ∈ k := by
          rcases hd with h | h | h | h
          · exact absurd (.inl h) hx
          · exact absurd (.inr (.inl h)) hx
          · exact absurd (.inr (.inr h)) hx
          · exact h
        rw [if_neg, if_neg]
        · intro e; rw [e] at hk; revert hk; decide
        · intro e; rw [e] at hk; revert hk; decide
    rw [hn]
    have hlen : 6 ≤ (split 45 (b!"container-" ++ c ++ b!"-" ++ r ++ b!"-" ++ w ++ b!"-" ++ k)).length := by
      rw [e, split_length]
      simp only [List.count_append, List.count_cons_self]
      have : 1 ≤ c.count 45 + r.count 45 + w.count 45 + k.count 45 := by
        rcases hd with h | h | h | h <;> have := count_pos_of_mem h <;> omega
      omega
    unfold containerSpec
    split
    · rename_i hs
      rw [hs] at hlen
      simp at hlen
    · rfl
  · have hc : 45 ∉ c := fun h => hd (.inl h)
    have hr : 45 ∉ r := fun h => hd (.inr (.inl h))
    have hw : 45 ∉ w := fun h => hd (.inr (.inr (.inl h)))
    have hk : 45 ∉ k := fun h => hd (.inr (.inr (.inr h)))
    unfold containerSpec
    rw [e, split_append _ (by decide), split_append _ hc, split_append _ hr, split_append _ hw, split_none hk]
    simp only [described, hc, hr, hw, or_self, if_false, keyInfo_spec]
    by_cases h1 : k = b!"haskey"
    · simp only [if_pos h1]
    · by_cases h2 : k = b!"nokey"
      · simp only [if_neg h1, if_pos h2]
      · simp only [if_neg h1, if_neg h2]

theorem gatherTop_full (g : Gathered) (n : Bytes) :
    gatherTop g (annotated (b!"full-" ++ n)) = { g with specs := g.specs.annotation (b!"full-" ++ n) } := by
  simp [gatherTop, annotated, getReflectionSpec]

theorem gatherTop_part (g : Gathered) (n : Bytes) :
    gatherTop g (annotated (b!"part-" ++ n)) = { g with specs := g.specs.annotation (b!"part-" ++ n) } := by
  simp [gatherTop, annotated, getReflectionSpec]

theorem gatherTop_container (g : Gathered) (n : Bytes) :
    gatherTop g (annotated (b!"container-" ++ n)) = { g with containers := containerSpec (b!"container-" ++ n) g.containers } := by
  simp [gatherTop, annotated, getReflectionSpec]

/-- What a macro changes. -/
theorem gather_macro (g : Gathered) (m : Macro) :
    (gatherFile g m.expand).containers = (match described m with
      | some e => assign e.1 e.2 g.containers
      | none => g.containers) ∧
    ∀ n, (gatherFile g m.expand).specs.get n = (g.specs.get n).or (specBy n m) := by
  have hfull : ∀ n x : Bytes, specIn n (b!"full-" ++ x) = if x = n then some Spec.full else none := by
    intro n x
    rw [specIn]
    by_cases h : x = n
    · simp [h]
    · rw [if_neg (fun e => h (List.append_cancel_left e)), if_neg (by simp), if_neg h]
  have hpart : ∀ n x : Bytes, specIn n (b!"part-" ++ x) = if x = n then some Spec.part else none := by
    intro n x
    rw [specIn]
    by_cases h : x = n
    · simp [h]
    · rw [if_neg (by simp), if_neg (fun e => h (List.append_cancel_left e)), if_neg h]
  cases m with
  | reflect x =>
    simp only [Macro.expand, gatherFile, List.foldl_cons, List.foldl_nil, gatherTop_full, described, specBy]
    refine ⟨trivial, fun n => ?_⟩
    rw [get_annotation, hfull]
  | reflectPart x =>
    simp only [Macro.expand, gatherFile, List.foldl_cons, List.foldl_nil, gatherTop_part, described, specBy]
    refine ⟨trivial, fun n => ?_⟩
    rw [get_annotation, hpart]
  | container c r w k =>
    have ee : (b!"container-" ++ c ++ b!"-" ++ r ++ b!"-" ++ w ++ b!"-" ++ k : Bytes) =
      b!"container-" ++ (c ++ b!"-" ++ r ++ b!"-" ++ w ++ b!"-" ++ k) := by simp
    simp only [Macro.expand, gatherFile, List.foldl_cons, List.foldl_nil, gatherTop_part, specBy]
    rw [ee, gatherTop_container, ← ee]
    refine ⟨containerSpec_macro c r w k g.containers, fun n => ?_⟩
    show ((g.specs.annotation (b!"part-" ++ r)).annotation (b!"part-" ++ w)).get n = _
    rw [get_annotation, get_annotation, hpart, hpart, Option.or_assoc]
    congr 1
    by_cases h1 : r = n
    · simp [h1]
    · by_cases h2 : w = n
      · rw [if_neg h1, if_pos h2, if_pos (.inr h2)]; rfl
      · simp [h1, h2]

theorem gather_plain (g : Gathered) (i : Item) (h : ∀ m, i ≠ .mac m) : gatherFile g i.tops = g := by
  cases i with
  | mac m => exact absurd rfl (h m)
  | decl name body hn => simp [Item.tops, gatherFile, gatherTop, getReflectionSpec, hn]
  | other => simp [Item.tops, gatherFile, gatherTop, getReflectionSpec]

theorem gatherFile_append (g : Gathered) (a b : List Top) : gatherFile g (a ++ b) = gatherFile (gatherFile g a) b := by
  simp [gatherFile]

theorem macros_append (a b : List Item) : macros (a ++ b) = macros a ++ macros b := by simp [macros]

/-- The specs and containers gathered are what the macros say. -/
structure Gathers (g : Gathered) (ms : List Macro) : Prop where
  containers : Holds g.containers (ms.filterMap described)
  specs : ∀ n, g.specs.get n = ms.findSome? (specBy n)

theorem gathers_nil : Gathers {} [] := ⟨holds_nil, fun _ => rfl⟩

theorem findSome?_append' {α β : Type} (f : α → Option β) (a b : List α) :
    (a ++ b).findSome? f = (a.findSome? f).or (b.findSome? f) := by
  rw [List.findSome?_append]

theorem Gathers.file {g : Gathered} {ms : List Macro} (h : Gathers g ms) (items : List Item) :
    Gathers (gatherFile g (items.flatMap Item.tops)) (ms ++ macros items) := by
  induction items generalizing g ms with
  | nil => simpa [gatherFile, macros] using h
  | cons i items ih =>
    rw [List.flatMap_cons, gatherFile_append, show i :: items = [i] ++ items from rfl, macros_append, ← List.append_assoc]
    refine ih ?_
    by_cases hm : ∃ m, i = .mac m
    · obtain ⟨m, rfl⟩ := hm
      obtain ⟨h1, h2⟩ := gather_macro g m
      show Gathers (gatherFile g m.expand) (ms ++ [m])
      refine ⟨?_, fun n => ?_⟩
      · rw [h1, List.filterMap_append]
        cases hd : described m with
        | none => simpa [hd] using h.containers
        | some e => simpa [hd] using h.containers.assign e.1 e.2
      · rw [h2, h.specs, findSome?_append']
        simp [List.findSome?_cons]
        cases specBy n m <;> rfl
    · have hp : ∀ m, i ≠ .mac m := fun m e => hm ⟨m, e⟩
      rw [gather_plain g i hp]
      have : macros [i] = [] := by
        cases i with
        | mac m => exact absurd rfl (hp m)
        | decl _ _ _ => rfl
        | other => rfl
      rw [this, List.append_nil]
      exact h

/-! ### The calls of a whole run -/

theorem run_append (a b : List Build.Call) (db : Database) :
    Build.run db (a ++ b) = (Build.run db a).bind fun db => Build.run db b := by
  induction a generalizing db with
  | nil => rfl
  | cons c a ih =>
    rw [List.cons_append, Build.run, Build.run]
    cases Build.step db c with
    | ok d => exact ih d
    | trap => rfl
    | ub => rfl

/-- The base types as calls. -/
def baseCalls (l : List (Bytes × UInt64)) : List Build.Call :=
  l.flatMap fun p => [.getName (some p.1), .add (.type { name := Build.nameOf p.1, size := p.2 }) rfl]

theorem baseCalls_cons (p : Bytes × UInt64) (l : List (Bytes × UInt64)) : baseCalls (p :: l) =
    [.getName (some p.1), .add (.type { name := Build.nameOf p.1, size := p.2 }) rfl] ++ baseCalls l := by
  rw [baseCalls, List.flatMap_cons]; rfl

theorem step_getName {db : Database} {t : Bytes} {n : Name} {names : List Name} (h : getName db.names (some t) = .ok (n, names)) :
    Build.step db (.getName (some t)) = .ok { db with names := names } := by
  rw [Build.step, h]; rfl

theorem step_type {db : Database} {x : Ty} {types : List Ty} (h : add (fun y : Ty => y.name.hash) x db.types = .ok types)
    (hp : Build.isPrimitive (.type x) = true) : Build.step db (.add (.type x) hp) = .ok { db with types := types } := by
  show (add (fun y : Ty => y.name.hash) x db.types).map _ = _
  rw [h]; rfl

theorem run_two {db d1 d2 : Database} {a b : Build.Call} (h1 : Build.step db a = .ok d1) (h2 : Build.step d1 b = .ok d2) :
    Build.run db [a, b] = .ok d2 := by
  rw [Build.run, h1]
  show Build.run _ _ = _
  rw [Build.run, h2]
  rfl

theorem run_bind {db d : Database} {a : List Build.Call} (h : Build.run db a = .ok d) (b : List Build.Call) :
    Build.run db (a ++ b) = Build.run d b := by
  rw [run_append, h]; rfl

theorem base_run {l : List (Bytes × UInt64)} {pre : List Build.Call} {db db' : Database} (hi : Build.Inv pre db)
    (h : addBaseTypes db l = .ok db') : Build.run db (baseCalls l) = .ok db' := by
  induction l generalizing db pre with
  | nil => simpa [addBaseTypes, baseCalls, Build.run] using h
  | cons p l ih =>
    obtain ⟨t, size⟩ := p
    rw [addBaseTypes, Res.bind_eq_ok] at h
    obtain ⟨⟨n, names⟩, h1, h⟩ := h
    simp only at h
    rw [Res.bind_eq_ok] at h
    obtain ⟨types, h2, h⟩ := h
    have hn := (hi.names.getName h1).1
    have hs1 := step_getName h1
    rw [hn] at h2
    have hs2 := step_type (db := { db with names := names }) h2 rfl
    have hi2 := (hi.step hs1).step hs2
    rw [baseCalls_cons, run_bind (run_two hs1 hs2)]
    exact ih hi2 h

/-- The container specs as calls. -/
def containerCalls (l : List (Bytes × Cont)) : List Build.Call := l.map fun e => .addContainer e.1 e.2.read e.2.write e.2.hasKey

theorem containers_run (l : List (Bytes × Cont)) (db : Database) : addContainers db l = Build.run db (containerCalls l) := by
  induction l generalizing db with
  | nil => rfl
  | cons e l ih =>
    obtain ⟨n, c⟩ := e
    rw [addContainers, containerCalls, List.map_cons, Build.run]
    simp only [Build.step]
    cases addContainerInfo db n c.read c.write c.hasKey with
    | ok d => exact ih d
    | trap => rfl
    | ub => rfl

variable {α : Type}

/-- The calls of the walks, with those for the base types in front of each. -/
inductive FileCalls (env : Env α) : Gathered → Database → List (File α) → List Build.Call → Gathered → Database → Prop where
  | nil (g db) : FileCalls env g db [] [] g db
  | cons {g db f fs calls g' db' db1 db2} (h1 : Build.run db (baseCalls baseTypes) = .ok db1)
      (h2 : Build.run db1 ((env.walk (gatherFile g f.tops).specs f.rest db1).map Subtype.val) = .ok db2)
      (h3 : FileCalls env (gatherFile g f.tops) db2 fs calls g' db') :
      FileCalls env g db (f :: fs)
        (baseCalls baseTypes ++ (env.walk (gatherFile g f.tops).specs f.rest db1).map Subtype.val ++ calls) g' db'

theorem FileCalls.run {env : Env α} {g g' : Gathered} {db db' : Database} {fs : List (File α)} {calls : List Build.Call}
    (h : FileCalls env g db fs calls g' db') : Build.run db calls = .ok db' := by
  induction h with
  | nil => rfl
  | cons h1 h2 h3 ih =>
    rw [run_append, run_append, h1]
    show (Build.run _ _).bind _ = _
    rw [h2]
    exact ih

theorem fileCalls {env : Env α} {fs : List (File α)} {g g' : Gathered} {db db' : Database} {pre : List Build.Call}
    (hi : Build.Inv pre db) (h : scanFiles env g db fs = .ok (g', db')) : ∃ calls, FileCalls env g db fs calls g' db' := by
  induction fs generalizing g db pre with
  | nil =>
    rw [scanFiles] at h
    injection h with h; injection h with h1 h2; subst h1; subst h2
    exact ⟨[], .nil _ _⟩
  | cons f fs ih =>
    rw [scanFiles, Res.bind_eq_ok] at h
    obtain ⟨⟨g1, db2⟩, h1, h⟩ := h
    rw [scanFile] at h1
    rw [Res.bind_eq_ok] at h1
    obtain ⟨db1, hb, h1⟩ := h1
    rw [Res.bind_eq_ok] at h1
    obtain ⟨db2', hw, h1⟩ := h1
    injection h1 with h1; injection h1 with e1 e2; subst e1; subst e2
    have hb' := base_run hi hb
    have hi2 := (hi.run hb').run hw
    obtain ⟨calls, hc⟩ := ih hi2 h
    exact ⟨_, .cons hb' hw hc⟩

theorem FileCalls.noContainers {env : Env α} {g g' : Gathered} {db db' : Database} {fs : List (File α)} {calls : List Build.Call}
    (h : FileCalls env g db fs calls g' db') : Build.containers calls = [] := by
  induction h with
  | nil => rfl
  | @cons g db f fs calls g' db' db1 db2 h1 h2 h3 ih =>
    rw [Build.containers_append, Build.containers_append, ih, List.append_nil]
    have hb : Build.containers (baseCalls baseTypes) = [] := rfl
    rw [hb, List.nil_append, Build.containers, List.filterMap_eq_nil_iff]
    intro c hc
    obtain ⟨w, _, rfl⟩ := List.mem_map.mp hc
    have := w.2
    split
    · rename_i heq
      exact absurd heq (this _ _ _ _)
    · rfl

theorem arrays_mem {calls : List Build.Call} {i : ContainerInfo} :
    i ∈ Build.arrays calls ↔ ∃ h, Build.Call.add (.containerInfo i) h ∈ calls := by
  constructor
  · intro h
    obtain ⟨e, he, hi⟩ := List.mem_filterMap.mp h
    obtain ⟨c, hc, hce⟩ := List.mem_filterMap.mp he
    cases e with
    | containerInfo x =>
      injection hi with hi; subst hi
      cases c with
      | add y hy => injection hce with hce; subst hce; exact ⟨hy, hc⟩
      | _ => cases hce
    | _ => cases hi
  · rintro ⟨h, hc⟩
    exact List.mem_filterMap.mpr ⟨.containerInfo i, List.mem_filterMap.mpr ⟨_, hc, rfl⟩, rfl⟩

theorem FileCalls.arrays {env : Env α} {g g' : Gathered} {db db' : Database} {fs : List (File α)} {calls : List Build.Call}
    (h : FileCalls env g db fs calls g' db') : ∀ i ∈ Build.arrays calls, ArrayIn env fs i := by
  induction h with
  | nil => intro i hi; cases hi
  | @cons g db f fs calls g' db' db1 db2 h1 h2 h3 ih =>
    intro i hi
    rw [Build.arrays_append, Build.arrays_append] at hi
    have hb : Build.arrays (baseCalls baseTypes) = [] := rfl
    rw [hb, List.nil_append] at hi
    rcases List.mem_append.mp hi with hi | hi
    · obtain ⟨h, hc⟩ := arrays_mem.mp hi
      obtain ⟨w, hw, e⟩ := List.mem_map.mp hc
      exact ⟨f, by simp, _, _, w, hw, h, e⟩
    · obtain ⟨f', hf, r⟩ := ih i hi
      exact ⟨f', by simp [hf], r⟩

theorem FileCalls.gathered {env : Env α} {g g' : Gathered} {db db' : Database} {fs : List (File α)} {calls : List Build.Call}
    (h : FileCalls env g db fs calls g' db') : g' = gatherFile g (fs.flatMap File.tops) := by
  induction h with
  | nil => rfl
  | cons h1 h2 h3 ih => rw [ih, List.flatMap_cons, gatherFile_append]

end Clr.ScanTool
