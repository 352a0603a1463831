import Verif.Proofs.ScanTool
import Verif.Props.BuildDB
import Verif.Props.Tools
/-!
C80: container specs reach the database.
C81: clscan writes one database for all its files, in the format asked for.
-/
namespace Clr.ScanTool
open Clr.DB Clr.Scan
variable {α : Type}

/-! ### C80 -/

theorem tops_files (srcs : List (Source α)) :
    (srcs.map Source.file).flatMap File.tops = (srcs.flatMap Source.items).flatMap Item.tops := by
  induction srcs with
  | nil => rfl
  | cons s l ih => rw [List.map_cons, List.flatMap_cons, ih, List.flatMap_cons, List.flatMap_append]; rfl

theorem macros_all (srcs : List (Source α)) : macros (srcs.flatMap Source.items) = allMacros srcs := by
  induction srcs with
  | nil => rfl
  | cons s l ih => rw [List.flatMap_cons, macros_append, ih]; rfl

/-- All calls of a run. -/
theorem built_calls {env : Env α} {srcs : List (Source α)} {db : Database} (h : Built env (srcs.map Source.file) db) :
    ∃ g calls, Gathers g (allMacros srcs) ∧ (∃ db₀, FileCalls env {} {} (srcs.map Source.file) calls g db₀) ∧
      Build.run {} (calls ++ containerCalls g.containers) = .ok db ∧
      (Build.containers (calls ++ containerCalls g.containers) = g.containers.map fun e => info e.1 e.2) ∧
      ∀ i ∈ Build.arrays (calls ++ containerCalls g.containers), ArrayIn env (srcs.map Source.file) i := by
  obtain ⟨g, db₀, h1, h2⟩ := h
  obtain ⟨calls, hc⟩ := fileCalls Build.inv_empty h1
  have hg : Gathers g (allMacros srcs) := by
    rw [hc.gathered, tops_files]
    have := gathers_nil.file (srcs.flatMap Source.items)
    rwa [macros_all, List.nil_append] at this
  refine ⟨g, calls, hg, ⟨_, hc⟩, ?_, ?_, ?_⟩
  · rw [run_append, hc.run, ← h2, containers_run]
    rfl
  · rw [Build.containers_append, hc.noContainers, List.nil_append]
    have : ∀ l : List (Bytes × Cont), Build.containers (containerCalls l) = l.map fun e => info e.1 e.2 := by
      intro l
      induction l with
      | nil => rfl
      | cons e l ih =>
        show Build.containers ([_] ++ containerCalls l) = _
        rw [Build.containers_append, ih]
        rfl
    exact this _
  · have : ∀ l : List (Bytes × Cont), Build.arrays (containerCalls l) = [] := by
      intro l
      induction l with
      | nil => rfl
      | cons e l ih => exact ih
    rw [Build.arrays_append, this, List.append_nil]
    exact hc.arrays

theorem find?_unique {β : Type} {p : β → Bool} {l : List β} {x : β} (hx : x ∈ l) (hp : p x = true)
    (hu : ∀ y ∈ l, p y = true → y = x) : l.find? p = some x := by
  cases hf : l.find? p with
  | none => exact absurd hp (by simpa using List.find?_eq_none.mp hf x hx)
  | some y => rw [hu y (List.mem_of_find?_eq_some hf) (List.find?_some hf)]

theorem lastFor_some {name : Bytes} {l : List (Bytes × Cont)} {c : Cont} (h : lastFor name l = some c) : (name, c) ∈ l := by
  rw [lastFor, Option.map_eq_some_iff] at h
  obtain ⟨⟨n, d⟩, h1, rfl⟩ := h
  have := List.mem_of_find?_eq_some h1
  have hn := List.find?_some h1
  simp only [decide_eq_true_eq] at hn
  subst hn
  simpa using this

theorem lastFor_isSome {name : Bytes} {l : List (Bytes × Cont)} {c : Cont} (h : (name, c) ∈ l) : ∃ d, lastFor name l = some d := by
  cases hl : lastFor name l with
  | some d => exact ⟨d, rfl⟩
  | none =>
    rw [lastFor, Option.map_eq_none_iff, List.find?_eq_none] at hl
    have := hl (name, c) (by simpa using h)
    simp at this

theorem nameFor_hash (n : Bytes) : (nameFor n).hash = hashOf n := by
  rw [nameFor]
  split
  · rename_i h0; rw [h0]
  · rfl

/-- C80: after a run over any files, with any declarations and uses of the macros in any order, what the database says
about a container is what the last proper use of `clcpp_container_iterators` for it in the last of the files says, and
nothing if there is none (for a name that is in no proper use: if it does not hash like one that is or like the name of
an array). -/
theorem C80_containers (env : Env α) (srcs : List (Source α)) (db : Database) (h : Built env (srcs.map Source.file) db)
    (name : Bytes) (hz : hashOf name ≠ 0)
    (hc : (∃ c, (name, c) ∈ allContainers srcs) ∨ (∀ e ∈ allContainers srcs, hashOf e.1 ≠ hashOf name) ∧
      ∀ i, ArrayIn env (srcs.map Source.file) i → i.name.hash ≠ hashOf name) :
    findBy (fun c : ContainerInfo => c.name.hash) (hashOf name) db.containerInfos =
      (lastFor name (allContainers srcs)).map (info name) := by
  obtain ⟨g, calls, hg, -, hrun, hcont, harr⟩ := built_calls h
  rw [(Build.C74_last_counts _ db hrun).1, hcont, Build.lastOf]
  have hi : Build.Inv (calls ++ containerCalls g.containers) db := by simpa using Build.inv_empty.run hrun
  have hnc := hi.names.noClash
  have hin : ∀ e ∈ g.containers, e.1 ∈ Build.interned (calls ++ containerCalls g.containers) := by
    intro e he
    rw [Build.interned_append]
    refine List.mem_append.mpr (.inr (List.mem_flatMap.mpr ⟨_, List.mem_map.mpr ⟨e, he, rfl⟩, ?_⟩))
    simp
  cases hl : lastFor name (allContainers srcs) with
  | none =>
    have hc : (∀ e ∈ allContainers srcs, hashOf e.1 ≠ hashOf name) ∧
        ∀ i, ArrayIn env (srcs.map Source.file) i → i.name.hash ≠ hashOf name := by
      rcases hc with ⟨d, hd⟩ | hc
      · obtain ⟨x, hx⟩ := lastFor_isSome hd
        rw [hl] at hx; cases hx
      · exact hc
    rw [Option.map_none, Option.or_eq_none_iff, Build.firstOf, List.find?_eq_none, List.find?_eq_none]
    refine ⟨fun i hi hh => ?_, fun i hi hh => ?_⟩
    · rw [List.mem_reverse] at hi
      obtain ⟨⟨n, c⟩, he, rfl⟩ := List.mem_map.mp hi
      simp only [info, nameFor_hash, beq_iff_eq] at hh
      exact hc.1 (n, c) (lastFor_some ((hg.containers.mem n c).mp he)) hh
    · exact hc.2 i (harr i hi) (by simpa using hh)
  | some c =>
    have hm : (name, c) ∈ g.containers := (hg.containers.mem name c).mpr hl
    refine Option.or_eq_some_iff.mpr (.inl (find?_unique ?_ ?_ ?_))
    · rw [List.mem_reverse]
      exact List.mem_map.mpr ⟨(name, c), hm, rfl⟩
    · simp [info, nameFor_hash]
    · intro i hi hh
      rw [List.mem_reverse] at hi
      obtain ⟨⟨n, d⟩, he, rfl⟩ := List.mem_map.mp hi
      simp only [info, nameFor_hash, beq_iff_eq] at hh
      have hn : n = name := hnc n (hin _ he) name (hin _ hm) hh (by rw [hh]; exact hz)
      subst hn
      rw [Prod.mk.inj (sorted_unique hg.containers.sorted he hm rfl) |>.2]

/-- C80: nothing else is described as a container, but arrays the walks over the files describe. -/
theorem C80_nothing_else (env : Env α) (srcs : List (Source α)) (db : Database) (h : Built env (srcs.map Source.file) db)
    (i : ContainerInfo) (hi : i ∈ db.containerInfos) :
    (∃ name c, lastFor name (allContainers srcs) = some c ∧ i = info name c) ∨ ArrayIn env (srcs.map Source.file) i := by
  obtain ⟨g, calls, hg, -, hrun, hcont, harr⟩ := built_calls h
  have hl := (Build.C74_last_counts _ db hrun)
  have hf := Build.find_strict hl.2.1 hi
  rw [hl.1, hcont, Option.or_eq_some_iff] at hf
  rcases hf with hf | ⟨-, hf⟩
  · obtain ⟨⟨n, c⟩, he, rfl⟩ := List.mem_map.mp (Build.lastOf_mem hf)
    exact .inl ⟨n, c, (hg.containers.mem n c).mp he, rfl⟩
  · exact .inr (harr i (List.mem_of_find?_eq_some hf))

/-- C80: how much of a symbol is to be reflected, when a file is scanned: as the first macro for it says in the files
up to it. The iterators of a container are to be reflected partially. -/
theorem C80_specs (pre : List (Source α)) (s : Source α) (name : Bytes) :
    (gatherFile {} ((pre ++ [s]).flatMap fun s => s.file.tops)).specs.get name =
      (allMacros (pre ++ [s])).findSome? (specBy name) := by
  have e : (pre ++ [s]).flatMap (fun s => s.file.tops) = ((pre ++ [s]).map Source.file).flatMap File.tops := by
    rw [List.flatMap_map]
  rw [e, tops_files]
  have := (gathers_nil.file ((pre ++ [s]).flatMap Source.items)).specs name
  rwa [macros_all, List.nil_append] at this

/-- C80 in full is false: a container with a dash in its name or in those of its iterators is not described, although
the macro was used for it. -/
theorem C80_dash_false (c r w k : Bytes) (h : 45 ∈ c ∨ 45 ∈ r ∨ 45 ∈ w) (g : Gathered) :
    (gatherFile g (Macro.expand (.container c r w k))).containers = g.containers := by
  rw [(gather_macro g _).1, described, if_pos h]

/-- C80 in full is false: any other text than the two known ones for the key info, and the container is not described. -/
theorem C80_key_false (c r w k : Bytes) (h1 : k ≠ b!"haskey") (h2 : k ≠ b!"nokey") (g : Gathered) :
    (gatherFile g (Macro.expand (.container c r w k))).containers = g.containers := by
  rw [(gather_macro g _).1, described, if_neg h1, if_neg h2, ite_self]

/-! ### C81 -/

theorem take_drop_suffix {str what : Bytes} (h : what.length ≤ str.length) :
    (str.drop (str.length - what.length)).take what.length = what ↔ what <:+ str := by
  have hl : (str.drop (str.length - what.length)).length = what.length := by simp; omega
  rw [List.take_of_length_le (by omega)]
  constructor
  · intro e; rw [← e]; exact List.drop_suffix _ _
  · rintro ⟨t, rfl⟩
    simp

/-- C81: the format: a database is written as text exactly if the name of the file ends with `.csv`, unless the name has
three characters. -/
theorem C81_format (name : Bytes) (h3 : name.length ≠ 3) (hlen : name.length < 2 ^ 63) :
    endsWith name b!".csv" = true ↔ b!".csv" <:+ name := by
  unfold endsWith rfind
  by_cases hl : (b!".csv" : Bytes).length ≤ name.length
  · rw [if_pos hl, ← take_drop_suffix hl]
    have hl' : 4 ≤ name.length := hl
    have hm : (name.length + 2 ^ 64 - (b!".csv" : Bytes).length) % 2 ^ 64 = name.length - 4 := by
      show (name.length + 2 ^ 64 - 4) % 2 ^ 64 = _
      omega
    rw [hm, List.range_succ, List.reverse_append]
    simp only [List.reverse_cons, List.reverse_nil, List.nil_append, List.singleton_append, List.find?_cons]
    show _ ↔ (name.drop (name.length - 4)).take 4 = b!".csv"
    by_cases hx : (name.drop (name.length - 4)).take 4 = b!".csv"
    · simp only [hx, iff_true]
      have : ((name.drop (name.length - (b!".csv" : Bytes).length)).take (b!".csv" : Bytes).length == b!".csv") = true := by
        simpa using hx
      rw [this]
      simp
    · have hb : ((name.drop (name.length - (b!".csv" : Bytes).length)).take (b!".csv" : Bytes).length == b!".csv") = false := by
        simpa using hx
      rw [hb]
      simp only [hx, iff_false]
      cases hf : (List.range (name.length - (b!".csv" : Bytes).length)).reverse.find?
          (fun i => (name.drop i).take (b!".csv" : Bytes).length == b!".csv") with
      | none => simp only [Option.getD_none, npos, beq_iff_eq]; omega
      | some i =>
        have hi := List.mem_of_find?_eq_some hf
        rw [List.mem_reverse, List.mem_range] at hi
        have hi' : i < name.length - 4 := hi
        simp only [Option.getD_some, beq_iff_eq]; omega
  · rw [if_neg hl]
    have hl' : name.length < 4 := by simpa using hl
    constructor
    · intro h
      simp only [Option.getD_none, npos, beq_iff_eq] at h
      have : (name.length + 2 ^ 64 - 4) % 2 ^ 64 = 2 ^ 64 - 1 := h.symm
      omega
    · intro h
      have := h.length_le
      have h4 : (b!".csv" : Bytes).length = 4 := rfl
      omega

/-- C81 in full is false: a name of any three characters counts as one that ends with `.csv`. -/
theorem C81_three_characters_false (name : Bytes) (h : name.length = 3) : endsWith name b!".csv" = true := by
  unfold endsWith rfind
  rw [if_neg (by rw [h]; decide), h]
  rfl

/-- What a run leaves in the output. -/
def Written (env : Env α) (name : Bytes) (db : Database) (data : Bytes) : Prop :=
  if endsWith name b!".csv" then data = TextDB.writeText env.cfg db else BinDB.writeBinary 8 env.pad db = .ok data

/-- C81: a run that ends changes nothing and says so, or all files had no errors and exactly the output is written, if
one was asked for. -/
theorem C81_outcome (env : Env α) (files : List (File α)) (output : Bytes) (fs fs' : Tools.Files) (code : Nat)
    (h : scanMain env files output fs = .ok (code, fs')) :
    (code = 1 ∧ fs' = fs ∧ ∃ f ∈ files, f.parsed = false) ∨
    (code = 0 ∧ (∀ f ∈ files, f.parsed = true) ∧ ∃ db, Built env files db ∧
      ((output = [] ∧ fs' = fs) ∨
       (output ≠ [] ∧ fs.canWrite output = true ∧ ∃ data, Written env output db data ∧ fs' = fs.write output data))) := by
  unfold scanMain at h
  rw [Res.bind_eq_ok] at h
  obtain ⟨⟨g, db₀⟩, h1, h⟩ := h
  simp only at h
  split at h
  · rename_i hp
    injection h with h; injection h with e1 e2
    refine .inl ⟨e1.symm, e2.symm, ?_⟩
    simpa using hp
  · rename_i hp
    rw [Res.bind_eq_ok] at h
    obtain ⟨db, h2, h⟩ := h
    have hall : ∀ f ∈ files, f.parsed = true := by
      intro f hf
      cases hx : f.parsed with
      | true => rfl
      | false => exact absurd (List.any_eq_true.mpr ⟨f, hf, by simp [hx]⟩) hp
    split at h
    · rename_i ho
      rw [Res.bind_eq_ok] at h
      obtain ⟨fs2, h3, h⟩ := h
      injection h with h; injection h with e1 e2; subst e2
      refine .inr ⟨e1.symm, hall, db, ⟨g, db₀, h1, h2⟩, .inr ⟨ho, ?_⟩⟩
      unfold writeDatabase at h3
      split at h3
      · rename_i hcsv
        unfold Tools.writeDatabase at h3
        split at h3
        · rename_i hw
          injection h3 with h3
          exact ⟨hw, _, by rw [Written, if_pos hcsv], h3.symm⟩
        · cases h3
      · rename_i hcsv
        split at h3
        · rename_i hw
          rw [Res.bind_eq_ok] at h3
          obtain ⟨data, h4, h3⟩ := h3
          injection h3 with h3
          exact ⟨hw, data, by rw [Written, if_neg hcsv]; exact h4, h3.symm⟩
        · cases h3
    · rename_i ho
      injection h with h; injection h with e1 e2
      exact .inr ⟨e1.symm, hall, db, ⟨g, db₀, h1, h2⟩, .inl ⟨by simpa using ho, e2.symm⟩⟩

/-! What is written can be read again. -/

open Build (Disciplined Given) in
theorem disciplined_append {cfg : TextDB.Cfg} {a b : List Build.Call} (ha : Disciplined cfg a) (hb : Disciplined cfg b) :
    Disciplined cfg (a ++ b) where
  texts := by
    intro t ht
    rw [Build.interned_append] at ht
    rcases List.mem_append.mp ht with ht | ht
    · exact ha.texts t ht
    · exact hb.texts t ht
  names := by
    intro e he n hn
    rw [Build.added_append] at he
    rcases List.mem_append.mp he with he | he
    · rcases ha.names e he n hn with h | ⟨t, ht, h⟩
      · exact .inl h
      · exact .inr ⟨t, by rw [Build.interned_append]; simp [ht], h⟩
    · rcases hb.names e he n hn with h | ⟨t, ht, h⟩
      · exact .inl h
      · exact .inr ⟨t, by rw [Build.interned_append]; simp [ht], h⟩
  fits := by
    intro e he
    rw [Build.added_append] at he
    rcases List.mem_append.mp he with he | he
    · exact ha.fits e he
    · exact hb.fits e he
  sizes := by
    intro z hz
    rw [Build.sizes_append] at hz
    rcases List.mem_append.mp hz with hz | hz
    · exact ha.sizes z hz
    · exact hb.sizes z hz
  containers := by
    intro c hc
    rw [Build.containers_append] at hc
    rcases List.mem_append.mp hc with hc | hc
    · exact ha.containers c hc
    · exact hb.containers c hc
  inheritances := by
    intro t ht
    rw [Build.inheritances_append] at ht
    have mono : ∀ n, Given a n ∨ Given b n → Given (a ++ b) n := by
      rintro n ((h | ⟨t, ht, h⟩) | (h | ⟨t, ht, h⟩))
      · exact .inl h
      · exact .inr ⟨t, by rw [Build.interned_append]; simp [ht], h⟩
      · exact .inl h
      · exact .inr ⟨t, by rw [Build.interned_append]; simp [ht], h⟩
    rcases List.mem_append.mp ht with ht | ht
    · obtain ⟨h1, h2, h3⟩ := ha.inheritances t ht
      exact ⟨h1, mono _ (.inl h2), mono _ (.inl h3)⟩
    · obtain ⟨h1, h2, h3⟩ := hb.inheritances t ht
      exact ⟨h1, mono _ (.inr h2), mono _ (.inr h3)⟩

theorem disciplined_nil (cfg : TextDB.Cfg) : Build.Disciplined cfg [] where
  texts := by simp [Build.interned]
  names := by simp [Build.added]
  fits := by simp [Build.added]
  sizes := by simp [Build.sizes]
  containers := by simp [Build.containers]
  inheritances := by simp [Build.inheritances]

theorem disciplined_base (cfg : TextDB.Cfg) : Build.Disciplined cfg (baseCalls baseTypes) where
  texts := by decide +kernel
  names := by decide +kernel
  fits := by
    intro e he
    have : ∀ e ∈ Build.added (baseCalls baseTypes), ∃ x, e = .type x ∧ x.size.toNat < 2 ^ 32 := by
      intro e he
      simp only [Build.added, baseCalls, List.mem_filterMap, List.mem_flatMap] at he
      obtain ⟨c, ⟨p, hp, hc⟩, he⟩ := he
      simp only [List.mem_cons, List.not_mem_nil, or_false] at hc
      rcases hc with rfl | rfl
      · cases he
      · injection he with he
        subst he
        refine ⟨_, rfl, ?_⟩
        revert p
        decide
    obtain ⟨x, rfl, hx⟩ := this e he
    exact hx
  sizes := by decide +kernel
  containers := by decide +kernel
  inheritances := by decide +kernel

/-- The texts of a container spec can be stored as text. -/
def Storable (e : Bytes × Cont) : Prop :=
  hashOf e.1 ≠ 0 ∧ ∀ t ∈ [e.1, e.2.read, e.2.write], hashOf t ≠ 0 → TextDB.CleanText t ∧ t.length ≤ 4000

theorem disciplined_containers (cfg : TextDB.Cfg) (l : List (Bytes × Cont)) (h : ∀ e ∈ l, Storable e) :
    Build.Disciplined cfg (containerCalls l) := by
  induction l with
  | nil => exact disciplined_nil cfg
  | cons e l ih =>
    show Build.Disciplined cfg ([_] ++ containerCalls l)
    refine disciplined_append ?_ (ih fun x hx => h x (by simp [hx]))
    have he := h e (by simp)
    exact {
      texts := he.2
      names := by intro e he; cases he
      fits := by intro e he; cases he
      sizes := by intro e he; cases he
      containers := by
        intro c hc
        have : c = info e.1 e.2 := by
          have := List.mem_singleton.mp (show c ∈ [info e.1 e.2] from hc)
          exact this
        rw [this, info, nameFor_hash]
        exact he.1
      inheritances := by intro e he; cases he }

theorem FileCalls.disciplined {env : Env α} {g g' : Gathered} {db db' : Database} {fs : List (File α)} {calls : List Build.Call}
    (h : FileCalls env g db fs calls g' db')
    (hw : ∀ s a d, Build.Disciplined env.cfg ((env.walk s a d).map Subtype.val)) : Build.Disciplined env.cfg calls := by
  induction h with
  | nil => exact disciplined_nil _
  | cons h1 h2 h3 ih => exact disciplined_append (disciplined_append (disciplined_base _) (hw _ _ _)) ih

/-- C81: what clscan writes to a file whose name ends with `.csv` is read by the other tools as the database of the
run, if the calls the walks make are such as can be stored (see C74). -/
theorem C81_text_read_back (env : Env α) (srcs : List (Source α)) (output : Bytes) (fs fs' : Tools.Files)
    (hw : ∀ s a d, Build.Disciplined env.cfg ((env.walk s a d).map Subtype.val))
    (hs : ∀ e ∈ allContainers srcs, Storable e) (hname : b!".csv" <:+ output) (hlen : output.length < 2 ^ 63)
    (h : scanMain env (srcs.map Source.file) output fs = .ok (0, fs')) :
    ∃ db data, Built env (srcs.map Source.file) db ∧ fs'.read output = some data ∧
      Tools.HoldsDatabase env.cfg db data ∧ Tools.loadDatabase env.cfg (fs'.read output) = .ok (some db) := by
  have h4 : 4 ≤ output.length := hname.length_le
  rcases C81_outcome env _ output fs fs' 0 h with ⟨h0, _⟩ | ⟨_, _, db, hb, ⟨ho, _⟩ | ⟨ho, _, data, hd, rfl⟩⟩
  · cases h0
  · rw [ho] at h4; simp at h4
  · rw [Written, if_pos ((C81_format output (by omega) hlen).mpr hname)] at hd
    obtain ⟨g, calls, hg, ⟨db₀, hc⟩, hrun, -, -⟩ := built_calls hb
    have hst := Build.storable_of_disciplined env.cfg _ db hrun (disciplined_append (hc.disciplined hw)
      (disciplined_containers _ _ fun e he => hs e (lastFor_some ((hg.containers.mem e.1 e.2).mp he))))
    have hread : (fs.write output data).read output = some data := by simp [Tools.Files.write]
    have hh : Tools.HoldsDatabase env.cfg db data := by rw [hd]; exact .text hst
    exact ⟨db, data, hb, hread, hh, by rw [hread]; exact Tools.C72_input_loaded env.cfg db data hh⟩

/-- C81, partial: what is written to any other file is read as the database of the run, if it can be stored (see C13)
and has no attributes. -/
theorem C81_binary_read_back_partial (env : Env α) (hpad : ∀ x, (env.pad x).length = 3) (srcs : List (Source α))
    (output : Bytes) (fs fs' : Tools.Files) (hne : output ≠ []) (h3 : output.length ≠ 3) (hlen : output.length < 2 ^ 63)
    (hname : ¬ b!".csv" <:+ output)
    (hs : ∀ db, Built env (srcs.map Source.file) db → BinDB.Storable db ∧ BinDB.NoAttributes db)
    (h : scanMain env (srcs.map Source.file) output fs = .ok (0, fs')) :
    ∃ db data, Built env (srcs.map Source.file) db ∧ fs'.read output = some data ∧
      Tools.HoldsDatabase env.cfg db data ∧ Tools.loadDatabase env.cfg (fs'.read output) = .ok (some db) := by
  rcases C81_outcome env _ output fs fs' 0 h with ⟨h0, _⟩ | ⟨_, _, db, hb, ⟨ho, _⟩ | ⟨ho, _, data, hd, rfl⟩⟩
  · cases h0
  · exact absurd ho hne
  · rw [Written, if_neg (fun e => hname ((C81_format output h3 hlen).mp e))] at hd
    have hread : (fs.write output data).read output = some data := by simp [Tools.Files.write]
    have hh : Tools.HoldsDatabase env.cfg db data := .binary env.pad hpad data (hs db hb).1 (hs db hb).2 hd
    exact ⟨db, data, hb, hread, hh, by rw [hread]; exact Tools.C72_input_loaded env.cfg db data hh⟩

/-- C81: an output in text that can be written is never undefined behaviour. -/
theorem C81_defined (env : Env α) (srcs : List (Source α)) (output : Bytes) (fs : Tools.Files)
    (hw : fs.canWrite output = true) (hname : endsWith output b!".csv" = true) :
    scanMain env (srcs.map Source.file) output fs ≠ .ub := by
  unfold scanMain
  have hscan : ∀ (fs : List (File α)) g db, scanFiles env g db fs ≠ .ub := by
    intro fs
    induction fs with
    | nil => intro g db; simp [scanFiles]
    | cons f fs ih =>
      intro g db
      rw [scanFiles]
      refine Build.bind_not_ub ?_ (fun r => ih _ _)
      rw [scanFile]
      have hbase : ∀ (l : List (Bytes × UInt64)) db, addBaseTypes db l ≠ .ub := by
        intro l
        induction l with
        | nil => intro db; simp [addBaseTypes]
        | cons p l ih =>
          intro db
          obtain ⟨t, size⟩ := p
          rw [addBaseTypes]
          refine Build.bind_not_ub (Build.getName_not_ub _ _) (fun r => Build.bind_not_ub ?_ (fun _ => ih _))
          unfold add
          split <;> simp
      exact Build.bind_not_ub (hbase _ _) (fun d => Build.bind_not_ub (Build.run_not_ub _ _) (fun _ => by simp [pure]))
  refine Build.bind_not_ub (hscan _ _ _) (fun r => ?_)
  obtain ⟨g, db⟩ := r
  show (if _ then _ else _) ≠ _
  split
  · simp [pure]
  · refine Build.bind_not_ub (by rw [containers_run]; exact Build.run_not_ub _ _) (fun d => ?_)
    split
    · refine Build.bind_not_ub ?_ (fun _ => by simp [pure])
      rw [writeDatabase, if_pos hname, Tools.writeDatabase, if_pos hw]
      simp
    · simp [pure]

/-- C81 in full is false: if the output cannot be opened, the program writes to no file. -/
theorem C81_unwritable_undefined (env : Env α) (files : List (File α)) (output : Bytes) (fs : Tools.Files) (db : Database)
    (hb : Built env files db) (hp : ∀ f ∈ files, f.parsed = true) (hne : output ≠ []) (hw : fs.canWrite output = false) :
    scanMain env files output fs = .ub := by
  obtain ⟨g, db₀, h1, h2⟩ := hb
  have ha : files.any (fun f => !f.parsed) = false := by
    rw [List.any_eq_false]
    intro f hf
    simp [hp f hf]
  unfold scanMain
  rw [h1]
  simp only [Res.bind_ok, ha, Bool.false_eq_true, if_false]
  rw [h2]
  simp only [Res.bind_ok, ne_eq, hne, not_false_eq_true, if_true]
  unfold writeDatabase Tools.writeDatabase
  rw [hw]
  cases endsWith output b!".csv" <;> rfl

theorem count_base {env : Env α} {g g' : Gathered} {db db' : Database} {fs : List (File α)} {calls : List Build.Call}
    (h : FileCalls env g db fs calls g' db') (p : Bytes × UInt64) (hp : p ∈ baseTypes) :
    fs.length ≤ (Build.added calls).countP fun e => decide (e = .type { name := nameFor p.1, size := p.2 }) := by
  induction h with
  | nil => simp
  | cons h1 h2 h3 ih =>
    rw [Build.added_append, Build.added_append, List.countP_append, List.countP_append, List.length_cons]
    have : 1 ≤ (Build.added (baseCalls baseTypes)).countP fun e => decide (e = .type { name := nameFor p.1, size := p.2 }) := by
      rw [Nat.succ_le_iff, List.countP_pos_iff]
      refine ⟨.type { name := nameFor p.1, size := p.2 }, ?_, by simp⟩
      simp only [Build.added, baseCalls, List.mem_filterMap, List.mem_flatMap]
      exact ⟨.add (.type { name := Build.nameOf p.1, size := p.2 }) rfl, ⟨p, hp, by simp⟩, rfl⟩
    omega

theorem count_types {calls : List Build.Call} {db : Database} (h : Build.run {} calls = .ok db) (x : Ty) :
    db.types.countP (fun t => decide (t = x)) = (Build.added calls).countP fun e => decide (e = .type x) := by
  have h2 := (Build.C74_tables _ db h .type rfl).1.countP_eq (fun e => decide (e = .type x))
  have h3 : (db.table .type).countP (fun e => decide (e = .type x)) = db.types.countP fun t => decide (t = x) := by
    show (db.types.map Merge.Entry.type).countP _ = _
    rw [List.countP_map]
    congr 1
    funext t
    simp
  rw [← h3, h2, Build.C74_as_added calls .type (by simp), List.countP_filter]
  congr 1
  funext e
  by_cases he : e = .type x
  · subst he; simp [Merge.Entry.kind]
  · simp [he]

/-- C81 in full is false: after a run over several files every base type is in the database once for each file. -/
theorem C81_base_types_repeated_false (env : Env α) (srcs : List (Source α)) (db : Database)
    (h : Built env (srcs.map Source.file) db) (p : Bytes × UInt64) (hp : p ∈ baseTypes) :
    srcs.length ≤ db.types.countP fun t => decide (t = { name := nameFor p.1, size := p.2 }) := by
  obtain ⟨g, calls, hg, ⟨db₀, hc⟩, hrun, -, -⟩ := built_calls h
  have h1 := count_base hc p hp
  rw [List.length_map] at h1
  rw [count_types hrun, Build.added_append, List.countP_append]
  exact Nat.le_trans h1 (Nat.le_add_right _ _)

/-! ### The hypotheses can be met -/

/-- A walk that adds the declared classes for which there is a spec, with an array of four in each. -/
def walkClasses (specs : Specs) (names : List Bytes) (_ : Database) : List Walked :=
  (names.filter fun n => (specs.get n).isSome).flatMap fun n =>
    [⟨.getName (some n), by intros; simp⟩, ⟨.add (.cls { name := nameFor n, size := 4 }) rfl, by intros; simp⟩,
     ⟨.getName (some (n ++ b!"::a")), by intros; simp⟩,
     ⟨.add (.containerInfo { name := ⟨hashOf (n ++ b!"::a"), n ++ b!"::a"⟩, flags := 2, count := 4 }) rfl, by intros; simp⟩,
     ⟨.sizeClass n 16, by intros; simp⟩]

def sampleEnv : Env (List Bytes) := ⟨⟨true, fun _ => [48], fun _ => 0⟩, fun _ => [0, 0, 0], walkClasses⟩

def fileA : Source (List Bytes) :=
  ⟨[.mac (.reflect b!"X"), .other, .mac (.container b!"vec" b!"R" b!"W" b!"nokey"),
    .mac (.container b!"m" b!"A-B" b!"W" b!"haskey"), .mac (.container b!"map" b!"MR" b!"MW" b!"haskey")], [b!"R"], true⟩

def fileB : Source (List Bytes) := ⟨[.mac (.container b!"vec" b!"R2" b!"W2" b!"haskey")], [b!"X", b!"Y"], true⟩

def built (srcs : List (Source (List Bytes))) : Database :=
  match (do let (g, db) ← scanFiles sampleEnv {} {} (srcs.map Source.file); addContainers db g.containers : Res Database) with
  | .ok db => db
  | _ => {}

example : ((built [fileA, fileB]).containerInfos.map fun c => (c.name.text, c.readIterator.text, c.flags)).Perm
    [(b!"vec", b!"R2", 1), (b!"map", b!"MR", 1), (b!"R::a", [], 2), (b!"X::a", [], 2)] := by decide +kernel

/-- C81 in full is false: what is recorded of a file depends on the files before it, by whose specs it is scanned. -/
theorem C81_specs_carry_over_false :
    (built [fileB]).classes.map (fun c => c.name.text) = [] ∧
    (built [fileB, fileA]).classes.map (fun c => c.name.text) = [b!"R"] ∧
    ((built [fileA, fileB]).classes.map fun c => c.name.text).Perm [b!"R", b!"X"] := by
  refine ⟨by decide +kernel, by decide +kernel, by decide +kernel⟩

theorem sample_built (srcs : List (Source (List Bytes))) (h : (built srcs).types ≠ []) :
    Built sampleEnv (srcs.map Source.file) (built srcs) := by
  unfold built at h ⊢
  split
  · rename_i db hd
    rw [Res.bind_eq_ok] at hd
    obtain ⟨⟨g, d⟩, h1, h2⟩ := hd
    exact ⟨g, d, h1, h2⟩
  · rename_i hd
    split at h
    · rename_i db hd'
      exact absurd hd' (hd db)
    · exact absurd rfl h

example : Built sampleEnv ([fileA, fileB].map Source.file) (built [fileA, fileB]) := sample_built _ (by decide +kernel)

example : scanMain sampleEnv ([fileA, fileB].map Source.file) b!"out.csv" ⟨fun _ => none, fun _ => true⟩ ≠ .ub :=
  C81_defined _ _ _ _ rfl (by decide +kernel)

/-- A walk over a file that declares one class. -/
def plainEnv : Env Unit := ⟨⟨true, fun _ => [48], fun _ => 0⟩, fun _ => [0, 0, 0], fun _ _ _ =>
  [⟨.getName (some b!"X"), by intros; simp⟩, ⟨.add (.cls { name := nameFor b!"X", size := 4 }) rfl, by intros; simp⟩]⟩

/-- What `C81_text_read_back` asks of the walk and of the containers is met. -/
example : (∀ s a d, Build.Disciplined plainEnv.cfg ((plainEnv.walk s a d).map Subtype.val)) ∧
    (∀ e ∈ allContainers [fileA, fileB], Storable e) ∧
    ∃ fs', scanMain plainEnv ([(⟨fileA.items, (), true⟩ : Source Unit)].map Source.file) b!"out.csv" ⟨fun _ => none, fun _ => true⟩ = .ok (0, fs') := by
  have hx : Build.Disciplined plainEnv.cfg [.getName (some b!"X"), .add (.cls { name := nameFor b!"X", size := 4 }) rfl] := ?_
  refine ⟨fun s a d => hx, by unfold Storable; decide +kernel, ⟨_, rfl⟩⟩
  exact {
    texts := by decide +kernel
    names := by decide +kernel
    fits := by
      intro e he
      have : e = .cls { name := nameFor b!"X", size := 4 } := List.mem_singleton.mp he
      rw [this]
      show (4 : UInt64).toNat < 2 ^ 32
      decide
    sizes := by decide +kernel
    containers := by decide +kernel
    inheritances := by decide +kernel }

end Clr.ScanTool
