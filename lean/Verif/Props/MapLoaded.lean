import Verif.Props.Contents
import Verif.Props.MapFiles
import Verif.Proofs.MapItems
import Verif.Model.ExportMap
/-
C89 Addresses of functions from the linker's map file to the memory of the loaded database.
-/
namespace Clr.Tools
open Clr Clr.DB Clr.Args Clr.Layout Clr.Image Clr.MapFiles
open Clr.Map (Clear Par gccAll)
open Clr.Export (K Ref entries entry Records FunctionNamed)
attribute [local irreducible] hashOf

/-! ## Specification -/

/-- In memory, with its objects at `at'`, the functions of a database have the addresses that the items of a map file give them, moved
to where the program is. -/
structure Addressed (db : Database) (items : List (Item × UInt64)) (base database : Nat) (mem : Bytes) (move : Nat → Nat)
    (at' : Ref → Nat) : Prop where
  /-- all functions of the database -/
  functions : ∀ f ∈ db.functions, ∃ a i, Gets db.functions items f a ∧
    PrimitiveAt base mem database (at' (.function, i)) .function f.name ∧
    Reads base mem (at' (.function, i) + offsetOf function b!"unique_id") 4 f.uniqueId.toNat ∧
    Reads base mem (at' (.function, i) + offsetOf function b!"address") 8 (move a.toNat)
  /-- all constructors and destructors of the map file -/
  makers : ∀ t b a, (Item.maker t b, a) ∈ items → ∃ i,
    PrimitiveAt base mem database (at' (.function, i)) .function ⟨hashOf (makerName t b), makerName t b⟩ ∧
    Reads base mem (at' (.function, i) + offsetOf function b!"address") 8 (move a.toNat)
  /-- classes with a constructor or destructor in the map file point to it -/
  classes : ∀ c ∈ db.classes, ∀ t b a, c.name = ⟨hashOf t, t⟩ → (Item.maker t b, a) ∈ items →
    (∀ f ∈ db.functions, f.name.hash ≠ hashOf (makerName t b)) →
    ∃ i r a', PrimitiveAt base mem database (at' (.cls, i)) .cls c.name ∧
      Reads base mem (at' (.cls, i) + offsetOf cls (if b then b!"constructor" else b!"destructor")) 8 (at' r) ∧
      (Item.maker t b, a') ∈ items ∧ Reads base mem (at' r + offsetOf function b!"address") 8 (move a'.toNat)

/-! ## Lemmas -/

theorem told_entries {T : List Bytes} {db db' : Database} {items : List (Item × UInt64)} (h : Told T db items db') {k : K}
    (h1 : k ≠ .function) (h2 : k ≠ .field) : entries db' k = entries db k := by
  rw [h.rest]
  cases k <;> first | rfl | exact absurd rfl h1 | exact absurd rfl h2

/-- A function of the database afterwards: one that was there, or a constructor or destructor. -/
theorem told_function {T : List Bytes} {db db' : Database} {items : List (Item × UInt64)} (h : Told T db items db') {f : Function}
    (hf : f ∈ db'.functions) : (∃ g ∈ db.functions, f.toPrim = g.toPrim ∧ f.uniqueId = g.uniqueId ∧ Gets db.functions items g f.address) ∨
      f ∈ items.filterMap Item.made := by
  obtain ⟨address, h1, h2⟩ := h.functions
  rcases List.mem_append.mp (h2.mem_iff.mp hf) with hm | hm
  · obtain ⟨g, hg, rfl⟩ := List.mem_map.mp hm
    exact .inl ⟨g, hg, rfl, rfl, h1 g hg⟩
  · exact .inr hm

theorem told_texts {T : List Bytes} {db db' : Database} {items : List (Item × UInt64)} (h : Told T db items db') (hk : TextsKnown db)
    (hc : Clear db.names T) (h0 : ∀ t ∈ T, 0 ∉ t) : TextsKnown db' where
  sorted := h.sorted hk.sorted
  nonzero n hn := by
    rcases h.origin n hn with hn | ⟨t, ht, rfl⟩
    · exact hk.nonzero n hn
    · exact (hc t ht).1
  texts n hn := by
    rcases h.origin n hn with hn | ⟨t, ht, rfl⟩
    · exact hk.texts n hn
    · exact h0 t ht
  named r q hq := by
    obtain ⟨k, i⟩ := r
    by_cases h1 : k = .function
    · subst h1
      simp only [entry, entries, List.getElem?_map, Option.map_eq_some_iff] at hq
      obtain ⟨f, hf, rfl⟩ := hq
      rcases told_function h (List.mem_of_getElem? hf) with ⟨g, hg, e, _⟩ | hm
      · obtain ⟨j, hj, rfl⟩ := List.getElem_of_mem hg
        refine h.kept _ (e ▸ hk.named (.function, j) _ ?_)
        simp [entry, entries, List.getElem?_map, List.getElem?_eq_getElem hj]
      · exact (h.made f hm).1
    · by_cases h2 : k = .field
      · subst h2
        simp only [entry, entries, List.getElem?_map, Option.map_eq_some_iff] at hq
        obtain ⟨f, hf, rfl⟩ := hq
        rcases List.mem_append.mp (h.fields.mem_iff.mp (List.mem_of_getElem? hf)) with hm | hm
        · obtain ⟨j, hj, rfl⟩ := List.getElem_of_mem hm
          refine h.kept _ (hk.named (.field, j) _ ?_)
          simp [entry, entries, List.getElem?_map, List.getElem?_eq_getElem hj]
        · exact (h.madeParam f hm).1
      · refine h.kept _ (hk.named (k, i) q ?_)
        unfold entry at hq ⊢
        rw [← told_entries h h1 h2]
        exact hq

theorem makerName_inj {t t' : Bytes} {b b' : Bool} (h : makerName t b = makerName t' b') : t = t' ∧ b = b' := by
  unfold makerName at h
  have hr := congrArg List.reverse h
  cases b <;> cases b' <;> simp at hr ⊢ <;> exact hr

/-- What the functions of the database afterwards are in memory. -/
theorem addressed_of {T : List Bytes} {rand : Nat → Nat} {db db' : Database} {items : List (Item × UInt64)} (hi : Items rand db items T)
    (h : Told T db items db') (hk : TextsKnown db') {base database : Nat} {mem : Bytes} {move : Nat → Nat} {at' : Ref → Nat}
    (C : Contents db' base database mem move at') : Addressed db items base database mem move at' where
  functions f hf := by
    obtain ⟨address, h1, h2⟩ := h.functions
    have hm : ({ f with address := address f } : Function) ∈ db'.functions :=
      h2.mem_iff.mpr (List.mem_append_left _ (List.mem_map.mpr ⟨f, hf, rfl⟩))
    obtain ⟨i, hi⟩ := List.getElem?_of_mem hm
    have c1 := C.functions i _ hi
    exact ⟨address f, i, h1 f hf, C.prims (.function, i) f.toPrim (by simp [entry, entries, List.getElem?_map, hi]), c1.2.1, c1.1⟩
  makers t b a hm := by
    have hm' := (List.mem_filterMap (f := Item.made)).mpr ⟨_, hm, rfl⟩
    obtain ⟨_, _, h2⟩ := h.functions
    obtain ⟨i, hi⟩ := List.getElem?_of_mem (h2.mem_iff.mpr (List.mem_append_right _ hm'))
    exact ⟨i, C.prims (.function, i) _ (by simp only [entry, entries, List.getElem?_map, hi]; rfl), (C.functions i _ hi).1⟩
  classes c hc t b a hn hm hno := by
    obtain ⟨i, hci⟩ := List.getElem?_of_mem hc
    have he : entry db' (.cls, i) = some c.toPrim := by
      unfold entry
      rw [told_entries h (by simp) (by simp)]
      simp [entries, List.getElem?_map, hci]
    have htext : Export.nameText db' (.cls, i) = t := by
      have := text_known hk (hk.named _ _ he)
      unfold Export.textOf at this
      unfold Export.nameText
      rw [he]
      dsimp only
      rw [this, hn]
      rfl
    have hname : (if b then Export.nameText db' (.cls, i) ++ b!"::ConstructObject" else Export.nameText db' (.cls, i) ++ b!"::DestructObject") = makerName t b := by
      rw [htext]
      cases b <;> simp [makerName]
    have hlead : LeadsTo base mem at' (at' (.cls, i) + offsetOf cls (if b then b!"constructor" else b!"destructor")) fun f =>
        Records db' f (.cls, i) ∧ FunctionNamed db' f (makerName t b) := by
      have := C.classFunctions i _ he
      rw [← hname]
      cases b
      · exact this.2
      · exact this.1
    have hm' := (List.mem_filterMap (f := Item.made)).mpr ⟨_, hm, rfl⟩
    obtain ⟨_, _, h2⟩ := h.functions
    obtain ⟨j, hj⟩ := List.getElem?_of_mem (h2.mem_iff.mpr (List.mem_append_right _ hm'))
    have hej : entry db' (.function, j) = some { name := ⟨hashOf (makerName t b), makerName t b⟩, parent := ⟨hashOf t, t⟩ } := by
      simp only [entry, entries, List.getElem?_map, hj]
      rfl
    rcases hlead with ⟨_, h0⟩ | ⟨r, ⟨hrec, hr, p, hp, hph⟩, hread⟩
    · refine absurd ⟨⟨⟨.methods, (by decide : (K.cls, Export.Slot.methods, K.function) ∈ Export.scopeTable)⟩, ⟨_, _, hej, he, ?_⟩, fun e => by cases e⟩, rfl, _, hej, rfl⟩ (h0 (.function, j))
      rw [hn]
    · obtain ⟨k, l⟩ := r
      cases hr
      simp only [entry, entries, List.getElem?_map, Option.map_eq_some_iff] at hp
      obtain ⟨g, hg, rfl⟩ := hp
      rcases told_function h (List.mem_of_getElem? hg) with ⟨g', hg', e, _⟩ | hmade
      · exact absurd (by rw [← e]; exact hph) (hno g' hg')
      · obtain ⟨⟨x, a'⟩, hx, hx'⟩ := List.mem_filterMap.mp hmade
        cases x with
        | maker t' b' =>
          simp only [Item.made, Option.some.injEq] at hx'
          have ha : g.address = a' := by rw [← hx']
          have hh : hashOf (makerName t' b') = hashOf (makerName t b) := by rw [← hph, ← hx']
          have hT' : makerName t' b' ∈ T := (hi.ok _ _ hx).2 _ (by simp [Item.texts])
          have hT : makerName t b ∈ T := (hi.ok _ _ hm).2 _ (by simp [Item.texts])
          obtain ⟨rfl, rfl⟩ := makerName_inj ((hi.clear _ hT).2.2 _ hT' hh)
          refine ⟨i, (.function, l), a', C.prims _ _ he, hread, hx, ?_⟩
          rw [← ha]
          exact (C.functions l g hg).1
        | call c => simp [Item.made] at hx'
        | query _ _ _ => simp [Item.made] at hx'
        | other _ => simp [Item.made] at hx'

/-! ## Theorems -/

/-- C89, partial: from a map file of a Linux linker, every function of the database that the file is about gets the address of the last
line that means it; the others keep theirs. Every constructor and destructor that the file has is added with its parameter. Nothing else
changes except for new names. Partial: `Items`. -/
theorem C89_linux_partial (demangle : Bytes → Option Bytes) (rand : Nat → Nat) (map : Bytes) (fs : Files) (db : Database)
    (f : LinuxFile) (h : f.Ok) (unfinished : Bytes) (hu : 10 ∉ unfinished) (hr : fs.read map = some (fileOf f.lines unfinished))
    (items : List (Item × UInt64)) (T : List Bytes)
    (hitems : f.entries.filterMap (LinuxEntry.item demangle) = items.map fun x => (x.1.text, x.2)) (hi : Items rand db items T) :
    ∃ db', gccMapFile demangle rand map fs db = .ok (UInt64.ofNat (hexNumber f.address), db') ∧ Told T db items db' := by
  obtain ⟨s', h1, h2⟩ := process_items rand items { db := db } hi.inv
  refine ⟨s'.db, ?_, h2⟩
  unfold gccMapFile
  rw [hr, C83_linux_partial demangle rand _ f h unfinished hu, hitems, h1]
  rfl

/-- C89, partial: the same for a map file of the linker of macOS. -/
theorem C89_macos_partial (demangle : Bytes → Option Bytes) (rand : Nat → Nat) (map : Bytes) (fs : Files) (db : Database)
    (f : MacFile) (h : f.Ok) (unfinished : Bytes) (hu : 10 ∉ unfinished) (hr : fs.read map = some (fileOf f.lines unfinished))
    (items : List (Item × UInt64)) (T : List Bytes)
    (hitems : f.entries.filterMap (MacEntry.item demangle) = items.map fun x => (x.1.text, x.2)) (hi : Items rand db items T) :
    ∃ db', gccMapFile demangle rand map fs db = .ok (f.base, db') ∧ Told T db items db' := by
  obtain ⟨s', h1, h2⟩ := process_items rand items { db := db } hi.inv
  refine ⟨s'.db, ?_, h2⟩
  unfold gccMapFile
  rw [hr, C83_macos_partial demangle rand _ f h unfinished hu, hitems, h1]
  rfl

/-- A map file of either linker, with its load address and what its lines say. -/
def MapText (demangle : Bytes → Option Bytes) (text : Bytes) (load : UInt64) (items : List (Bytes × UInt64)) : Prop :=
  (∃ (f : LinuxFile) (unfinished : Bytes), f.Ok ∧ 10 ∉ unfinished ∧ text = fileOf f.lines unfinished ∧
    load = UInt64.ofNat (hexNumber f.address) ∧ items = f.entries.filterMap (LinuxEntry.item demangle)) ∨
  (∃ (f : MacFile) (unfinished : Bytes), f.Ok ∧ 10 ∉ unfinished ∧ text = fileOf f.lines unfinished ∧
    load = f.base ∧ items = f.entries.filterMap (MacEntry.item demangle))

/-- C89, partial: `clexport prog db -cpp file -map map` on a file of a database and a map file writes a file. When the program
loads it, the memory holds every function of the database with the address the map file gives it, relative to where the program is, and
so it does the constructors and destructors in the map file; the classes point to theirs. Partial: `Items`, and `Fits` of the database
with what the map file adds. -/
theorem C89_loaded_partial (cfg : TextDB.Cfg) (host : Host) (hg : host.Good) (depth : Nat) (demangle : Bytes → Option Bytes) (rand : Nat → Nat)
    (fs : Files) (prog dbFile file map data text : Bytes) (db : Database) (load : UInt64) (items : List (Item × UInt64)) (T : List Bytes)
    (hp : prog ≠ b!"-cpp" ∧ prog ≠ b!"-map") (hd1 : dbFile ≠ b!"-cpp" ∧ dbFile ≠ b!"-map") (hf : file ≠ [] ∧ file ≠ b!"-map")
    (hm : map ≠ []) (hw : fs.canWrite file = true) (hr : fs.read dbFile = some data) (hd : HoldsDatabase cfg db data)
    (hrm : fs.read map = some text) (ht : MapText demangle text load (items.map fun x => (x.1.text, x.2)))
    (hi : Items rand db items T) (hT : ∀ t ∈ T, 0 ∉ t) (hst : TextsKnown db)
    (hfit : ∀ db', gccMapFile demangle rand map fs db = .ok (load, db') → Fits host depth db') :
    ∃ fs' bytes, fileMain { cfg := cfg, mapFile := gccMapFile demangle rand, host := host, depth := depth }
        [prog, dbFile, b!"-cpp", file, b!"-map", map] fs = some (.ok (0, fs')) ∧
      fs'.read file = some bytes ∧ (∀ n, n ≠ file → fs'.read n = fs.read n) ∧
      ∀ base loadAddr database dont, base + arenaSize < Reloc.W64 → database < Reloc.W64 →
        ∃ mem at', Reloc.load base loadAddr database dont bytes = .ok (some mem) ∧
          Addressed db items base database mem (if dont then id else Reloc.moved load.toNat loadAddr) at' := by
  obtain ⟨db', h1, h2⟩ : ∃ db', gccMapFile demangle rand map fs db = .ok (load, db') ∧ Told T db items db' := by
    rcases ht with ⟨f, u, g1, g2, rfl, rfl, g3⟩ | ⟨f, u, g1, g2, rfl, rfl, g3⟩
    · exact C89_linux_partial demangle rand map fs db f g1 u g2 hrm items T g3.symm hi
    · exact C89_macos_partial demangle rand map fs db f g1 u g2 hrm items T g3.symm hi
  have hk := told_texts h2 hst hi.clear hT
  obtain ⟨bytes, b1, b2⟩ := C87_contents_partial host hg depth load.toNat load.toBitVec.isLt db' hk (hfit db' h1)
  obtain ⟨fs', m1, m2, m3⟩ := C85_map_file { cfg := cfg, mapFile := gccMapFile demangle rand, host := host, depth := depth } fs prog dbFile file map data
    db db' load hp hd1 hf hm hr hd h1 bytes b1 hw
  refine ⟨fs', bytes, m1, m2, m3, ?_⟩
  intro base loadAddr database dont hb hdb
  obtain ⟨mem, at', l1, C⟩ := b2 base loadAddr database dont hb hdb
  exact ⟨mem, at', l1, addressed_of hi h2 hk C⟩

end Clr.Tools
