import Verif.Model.ExportFile
import Verif.Proofs.Plan5
import Verif.Props.Image
import Verif.Props.Pipeline
import Verif.Props.StackAlloc
/-
C85 The file clexport writes, once loaded, holds the database that was exported.
-/
namespace Clr.Image
open Clr Clr.Reloc Clr.Layout
open Clr.Export (K Slot Ref Ptr St Ready Known Records AttributeOf tableSize nameText)
attribute [local irreducible] DB.hashOf

/-! ## What is asked of the machine and of the database -/

/-- The machine: the arena is above the 32-bit range, `std::sort` sorts, padding is padding. -/
structure Host.Good (h : Host) : Prop where
  far : 2 ^ 32 ≤ h.start
  near : h.start + arenaSize < W64
  memory : h.memory.length = arenaSize
  sort : ∀ (key : Ref → UInt32) (l : List Ref), (h.sort key l).Perm l ∧ (h.sort key l).Pairwise fun a b => key a ≤ key b
  pad : ∀ i, (h.pad i).length = 4

/-- The database: everything it refers to is in it, nothing has two possible parents. No object ends up at an address
whose low half is the hash of a name, of the database or of the scoped name of a field. Five megabytes are enough. -/
structure Fits (h : Host) (depth : Nat) (db : DB.Database) : Prop where
  wellFormed : Export.WellFormed depth db
  unambiguous : Export.Unambiguous db
  arguments : ∀ t ∈ db.templateTypes, ∀ x ∈ [t.a0, t.a1, t.a2, t.a3], x.type.hash = 0 ∨ Known db x.type.hash
  targets : ∀ a ∈ db.primitiveAttributes, a.value.hash = 0 ∨ Known db a.value.hash
  owners : ∀ i, i < db.primitiveAttributes.length → ∃ r, AttributeOf db (.primAttr, i) r
  noAlias : ∀ r : Ref, r.2 < tableSize db r.1 → ¬ Known db (UInt32.ofNat ((h.env db).addr r))
  noFieldAlias : ∀ r : Ref, r.2 < tableSize db r.1 → ∀ c s, Records db c s →
    DB.hashOf (nameText db s ++ b!"::" ++ nameText db c) ≠ UInt32.ofNat ((h.env db).addr r)
  room : ∀ F ps, exportPieces h depth db = some (.ok (F, ps)) → total ps ≤ arenaSize

theorem Fits.ready {h : Host} {depth : Nat} {db : DB.Database} (hg : h.Good) (hf : Fits h depth db) :
    Ready (h.env db) depth db :=
  ⟨hf.wellFormed, hf.unambiguous, laidOut_of h.start h.junk h.sort db hg.far hg.sort hf.noAlias hf.noFieldAlias⟩

/-- The linked database and what is allocated for it. -/
theorem pieces_ok {h : Host} {depth : Nat} {db : DB.Database} (hr : Ready (h.env db) depth db) :
    ∃ F fks, Export.exportDB (h.env db) depth db = some (.ok F) ∧
      exportPieces h depth db = some (.ok (F, pieces db (Export.scopesBuilt (h.env db) db) F fks)) := by
  obtain ⟨F, hF⟩ := Export.C17_export_succeeds _ _ _ hr
  have hS := Export.scopesBuilt_spec hr.exportable
  have hk : ∃ fks, Export.fieldKeys (Export.scopesBuilt (h.env db) db) ((Export.scopesBuilt (h.env db) db).count .field) = .ok fks := by
    have hF' := hF
    unfold Export.exportDB at hF'
    rw [hS] at hF'
    simp only [Res.bind, Export.exportLinks] at hF'
    cases hx : Export.fieldKeys (Export.scopesBuilt (h.env db) db) ((Export.scopesBuilt (h.env db) db).count .field) with
    | ok fks => exact ⟨fks, rfl⟩
    | trap => rw [hx] at hF'; cases hF'
    | ub => rw [hx] at hF'; cases hF'
  obtain ⟨fks, hk⟩ := hk
  refine ⟨F, fks, hF, ?_⟩
  unfold exportPieces
  rw [hF, Option.map_some, Res.bind, hS, Res.bind, hk]
  rfl

/-! ## Theorems -/

/-- C85: the allocator hands out memory for everything there is, where the model takes it to be and large enough; what is
handed out for different things does not overlap. -/
theorem C85_allocations (h : Host) (hg : h.Good) (depth functionBase : Nat) (db : DB.Database) (hf : Fits h depth db) :
    ∃ F ps bs, Export.exportDB (h.env db) depth db = some (.ok F) ∧ exportPieces h depth db = some (.ok (F, ps)) ∧
      StackAlloc.run ⟨arenaSize, 0⟩ (ps.map Piece.request) = .ok bs ∧ bs.Pairwise StackAlloc.Disjoint ∧
      ∀ a o n, area (placeOf db ps) (dataOf functionBase db F) a = some (o, n) →
        ∃ b ∈ bs, b.start = o ∧ n ≤ b.len ∧ StackAlloc.Inside arenaSize b := by
  have hr := hf.ready hg
  obtain ⟨F, fks, hF, hps⟩ := pieces_ok hr
  have hroom := hf.room _ _ hps
  have hin := fun {a : Area} {o n : Nat} => area_in hr.exportable hF functionBase fks (a := a) (o := o) (n := n)
  have hpc := fun {a : Area} {p : Piece} => piece_size (db := db) (S := Export.scopesBuilt (h.env db) db) (F := F) (fks := fks) (a := a) (q := p)
  have hse := fun {a : Area} {o : Nat} => size_expected (db := db) (S := Export.scopesBuilt (h.env db) db) (F := F) (fks := fks) (a := a) (o := o)
  generalize hq : pieces db (Export.scopesBuilt (h.env db) db) F fks = ps at *
  obtain ⟨bs, h1, h2, h3⟩ := run_pieces ps arenaSize 0 (by omega) (by decide)
  have ht : StackAlloc.total (ps.map Piece.request) = total ps := by
    unfold StackAlloc.total total
    rw [List.map_map]
    rfl
  have hA : arenaSize = 5242880 := by decide
  obtain ⟨_, h4, h5⟩ := (StackAlloc.C23_blocks_disjoint_partial arenaSize (ps.map Piece.request) (by omega)).2 bs h1
  refine ⟨F, ps, bs, hF, hps, h1, h5, ?_⟩
  intro a o n ha
  obtain ⟨k1, k2⟩ := hin ha
  obtain ⟨i, p, g1, g2, g3⟩ := h3 a o k1
  have hm := List.mem_of_getElem? g3
  refine ⟨_, hm, ?_, ?_, h4 _ hm⟩
  · show 0 + o = o
    omega
  · show n ≤ p.size
    rw [hpc (List.mem_of_getElem? g1) g2, ← hse k1]
    exact k2

/-- C85, partial: clexport's file for a database, loaded at any address, is memory that holds the linked database: all its
objects with all their members, linked to each other, all names and texts, the functions at their addresses in the module
as it is loaded. Partial: `Fits`. -/
theorem C85_loaded_partial (h : Host) (hg : h.Good) (depth functionBase : Nat) (hb : functionBase < W64) (db : DB.Database)
    (hf : Fits h depth db) :
    ∃ F p bytes, Export.exportDB (h.env db) depth db = some (.ok F) ∧ exportBytes h depth functionBase db = some (.ok bytes) ∧
      Linked (dataOf functionBase db F) ∧
      ∀ base loadAddr database dont, base + arenaSize < W64 → database < W64 →
        ∃ out, load base loadAddr database dont bytes = .ok (some out) ∧ out.length ≤ arenaSize ∧
          Laid p (dataOf functionBase db F) out.length ∧
          Represents p ((dataOf functionBase db F).readdress (if dont then id else moved functionBase loadAddr)) database base out := by
  have hr := hf.ready hg
  obtain ⟨F, fks, hF, hps⟩ := pieces_ok hr
  have hroom := hf.room _ _ hps
  have hA : arenaSize = 5242880 := by decide
  obtain ⟨bs, h1, _, _⟩ := run_pieces (pieces db (Export.scopesBuilt (h.env db) db) F fks) arenaSize 0 (by omega) (by decide)
  have L := laid_of hr.exportable hF functionBase fks
  have N := linked_of hr hf.arguments hf.targets hf.owners hF functionBase
  have near := hg.near
  have hmem := hg.memory
  obtain ⟨g1, g2⟩ := represents_of hr.exportable hF hb fks (by omega) N h.start (by omega)
    (h.memory.take (total (pieces db (Export.scopesBuilt (h.env db) db) F fks)))
    (by rw [List.length_take]; omega)
  have hfb : (dataOf functionBase db F).functionBase = functionBase := rfl
  generalize hpl : placeOf db (pieces db (Export.scopesBuilt (h.env db) db) F fks) = p at *
  generalize himg : imageOf h.start p (dataOf functionBase db F) (pieces db (Export.scopesBuilt (h.env db) db) F fks)
    (h.memory.take (total (pieces db (Export.scopesBuilt (h.env db) db) F fks))) = img at *
  have far := hg.far
  rw [← g1] at L
  obtain ⟨file, k1, k2⟩ := C84_loaded h.pad hg.pad h.start img ⟨by omega, by omega⟩ (by omega) p _ L N g2
  refine ⟨F, p, file, hF, ?_, N, ?_⟩
  · unfold exportBytes
    rw [hps]
    simp only [Option.map_some, Res.bind, h1, hpl, himg, k1]
  · intro base loadAddr database dont hbase hdb
    obtain ⟨out, m1, m2, m3⟩ := k2 base loadAddr database dont (by omega) hdb
    exact ⟨out, m1, by omega, by rw [m2]; exact L, m3⟩

/-- C85: a database that needs more than five megabytes can not be exported. -/
theorem C85_too_large_false (h : Host) (depth functionBase : Nat) (db : DB.Database) (F : St) (ps : List Piece)
    (hps : exportPieces h depth db = some (.ok (F, ps))) (hl : arenaSize < total ps) (hs : total ps < 2 ^ 32) :
    exportBytes h depth functionBase db = some .trap := by
  have key : ∀ (ps : List Piece) (o : Nat), o ≤ arenaSize → arenaSize < o + total ps → o + total ps < 2 ^ 32 →
      StackAlloc.run ⟨arenaSize, o⟩ (ps.map Piece.request) = .trap := by
    intro ps
    induction ps with
    | nil => intro o h1 h2; simp [total] at h2; omega
    | cons p ps ih =>
      intro o h1 h2 h3
      rw [total_cons] at h2 h3
      have hm : (o + p.count * p.elem) % 2 ^ 32 = o + p.size := by
        rw [Nat.mod_eq_of_lt]
        · rfl
        · unfold Piece.size at h3; omega
      rw [List.map_cons, StackAlloc.run]
      unfold StackAlloc.alloc
      simp only [Piece.request, hm]
      by_cases hle : o + p.size ≤ arenaSize
      · rw [if_pos hle, if_neg (by unfold Piece.size at hle; omega)]
        simp only [Res.bind_ok]
        have := ih (o + p.size) hle (by omega) (by omega)
        rw [this]
        rfl
      · rw [if_neg hle]
        rfl
  unfold exportBytes
  rw [hps]
  simp only [Option.map_some, Res.bind]
  rw [key ps 0 (by omega) (by omega) (by omega)]

end Clr.Image

namespace Clr.Tools
open Clr.DB Clr.Args Clr.Merge
attribute [local irreducible] hashOf

/-- C85: clexport with these arguments writes the bytes of the exported database under the name given, changes no other
file, and ends with the exit code 0. -/
theorem C85_file_written (env : FileEnv) (fs : Files) (args : List Bytes) (dbFile file data : Bytes) (db : Database)
    (hl : ExportLine args dbFile file) (hr : fs.read dbFile = some data) (hd : HoldsDatabase env.cfg db data) (bytes : Bytes)
    (hb : Image.exportBytes env.host env.depth 0 db = some (.ok bytes)) (hw : fs.canWrite file = true) :
    ∃ fs', fileMain env args fs = some (.ok (0, fs')) ∧ fs'.read file = some bytes ∧ ∀ n, n ≠ file → fs'.read n = fs.read n := by
  obtain ⟨h1, h2, h3, h4⟩ := export_line hl
  refine ⟨fs.write file bytes, ?_, by simp [Files.write], fun n hn => by simp [Files.write, hn]⟩
  unfold fileMain
  rw [if_neg (by omega), h2, hr, C72_input_loaded env.cfg db data hd]
  simp only [fileMap, h4, ne_eq, not_true, if_false, fileSave, h3, hl.plainFile.1, not_false_eq_true, if_true]
  rw [show (0 : UInt64).toNat = 0 from rfl, hb]
  simp [Res.map, hw]

/-- C85: when the file can not be opened for writing, nothing is written and the exit code is still 0. -/
theorem C85_unwritable (env : FileEnv) (fs : Files) (args : List Bytes) (dbFile file data : Bytes) (db : Database)
    (hl : ExportLine args dbFile file) (hr : fs.read dbFile = some data) (hd : HoldsDatabase env.cfg db data) (bytes : Bytes)
    (hb : Image.exportBytes env.host env.depth 0 db = some (.ok bytes)) (hw : fs.canWrite file = false) :
    fileMain env args fs = some (.ok (0, fs)) := by
  obtain ⟨h1, h2, h3, h4⟩ := export_line hl
  unfold fileMain
  rw [if_neg (by omega), h2, hr, C72_input_loaded env.cfg db data hd]
  simp only [fileMap, h4, ne_eq, not_true, if_false, fileSave, h3, hl.plainFile.1, not_false_eq_true, if_true]
  rw [show (0 : UInt64).toNat = 0 from rfl, hb]
  simp [Res.map, hw]

/-- C85: with a map file, what is written is the database with the addresses of its functions, as the map file parser gives
them, based at the preferred load address of the module. -/
theorem C85_map_file (env : FileEnv) (fs : Files) (prog dbFile file map data : Bytes) (db db' : Database) (load : UInt64)
    (hp : prog ≠ b!"-cpp" ∧ prog ≠ b!"-map") (hd1 : dbFile ≠ b!"-cpp" ∧ dbFile ≠ b!"-map") (hf : file ≠ [] ∧ file ≠ b!"-map")
    (hm : map ≠ []) (hr : fs.read dbFile = some data) (hd : HoldsDatabase env.cfg db data)
    (hmap : env.mapFile map fs db = .ok (load, db')) (bytes : Bytes)
    (hb : Image.exportBytes env.host env.depth load.toNat db' = some (.ok bytes)) (hw : fs.canWrite file = true) :
    ∃ fs', fileMain env [prog, dbFile, b!"-cpp", file, b!"-map", map] fs = some (.ok (0, fs')) ∧ fs'.read file = some bytes ∧
      ∀ n, n ≠ file → fs'.read n = fs.read n := by
  have h3 : getProperty [prog, dbFile, b!"-cpp", file, b!"-map", map] b!"-cpp" = file := by
    rw [getProperty_skip _ _ _ hp.1, getProperty_skip _ _ _ hd1.1, getProperty_here]
  have h4 : getProperty [prog, dbFile, b!"-cpp", file, b!"-map", map] b!"-map" = map := by
    rw [getProperty_skip _ _ _ hp.2, getProperty_skip _ _ _ hd1.2, getProperty_skip _ _ _ (by decide),
      getProperty_skip _ _ _ hf.2, getProperty_here]
  refine ⟨fs.write file bytes, ?_, by simp [Files.write], fun n hn => by simp [Files.write, hn]⟩
  unfold fileMain
  rw [if_neg (by simp)]
  rw [show List.getD [prog, dbFile, b!"-cpp", file, b!"-map", map] 1 [] = dbFile from rfl, hr, C72_input_loaded env.cfg db data hd]
  simp only [fileMap, h4, ne_eq, hm, not_false_eq_true, if_true, hmap, fileSave, h3, hf.1, hb]
  simp [Res.map, hw]

end Clr.Tools

/-! ## Examples -/

namespace Clr.Image
open Clr Clr.Reloc Clr.Layout
open Clr.Export (K Slot Ref Ptr St Ready Known Records AttributeOf tableSize nameText)

/-- A machine. -/
def sampleHost : Host where
  start := 2 ^ 32
  memory := List.replicate arenaSize 205
  junk := .raw 7
  sort := Export.sampleEnv.sort
  pad _ := [0, 0, 0, 0]

theorem sampleHost_good : sampleHost.Good where
  far := Nat.le_refl _
  near := by decide
  memory := List.length_replicate
  sort := (Export.laidOut_of (db := {}) (by decide +kernel)).sort
  pad _ := rfl

/-- The checks for `Fits`. -/
def checkF (db : DB.Database) : Bool :=
  (Export.kinds.all fun k => decide ((offsetIn (fixedPieces db) (.table k)).getD 0 + tableSize db k * stride k < 65536)) &&
  (db.names.all fun n => decide (65536 ≤ n.hash.toNat)) &&
  ((Export.refs db).all fun c => (Export.refs db).all fun s => !Export.recB db c s ||
    decide (65536 ≤ (DB.hashOf (nameText db s ++ b!"::" ++ nameText db c)).toNat))

theorem alias_of {db : DB.Database} (h : checkF db = true) :
    (∀ r : Ref, r.2 < tableSize db r.1 → ¬ Known db (UInt32.ofNat ((sampleHost.env db).addr r))) ∧
    ∀ r : Ref, r.2 < tableSize db r.1 → ∀ c s, Records db c s →
      DB.hashOf (nameText db s ++ b!"::" ++ nameText db c) ≠ UInt32.ofNat ((sampleHost.env db).addr r) := by
  unfold checkF at h
  simp only [Bool.and_eq_true, List.all_eq_true, decide_eq_true_eq, Bool.or_eq_true, Bool.not_eq_true'] at h
  obtain ⟨⟨h1, h2⟩, h3⟩ := h
  have hlow : ∀ r : Ref, r.2 < tableSize db r.1 → (UInt32.ofNat ((sampleHost.env db).addr r)).toNat < 65536 := by
    rintro ⟨k, i⟩ hr
    have h := h1 k (by cases k <;> decide)
    have hr : i < tableSize db k := hr
    have hm : i * stride k ≤ tableSize db k * stride k := Nat.mul_le_mul_right _ (Nat.le_of_lt hr)
    have e : (sampleHost.env db).addr (k, i) = 2 ^ 32 + (offsetIn (fixedPieces db) (.table k)).getD 0 + i * stride k := rfl
    rw [e, UInt32.toNat_ofNat']
    omega
  constructor
  · rintro r hr ⟨n, hn, e⟩
    have := h2 n hn
    have := hlow r hr
    rw [← e] at this
    omega
  · intro r hr c s hs e
    obtain ⟨p, q, hp, hq, _⟩ := hs.2.1
    rcases h3 c (Export.entry_refs hp) s (Export.entry_refs hq) with h | h
    · rw [Export.recB_of hs] at h; cases h
    · have := hlow r hr
      rw [← e] at this
      omega

/-- The same allocations for a scope, in another order. -/
def plainScope (S : St) (pk : K) (slot : Slot) : List Piece :=
  (List.range (S.count pk)).filterMap fun i =>
    if ((S.get (pk, i)).kids slot).length = 0 then none
    else some ⟨some (.kids (pk, i) slot), ((S.get (pk, i)).kids slot).length, 8, true⟩

theorem total_scope (S : St) (pk : K) (slot : Slot) (keys : Nat → UInt32) :
    total (scopePieces S pk slot keys) = total (plainScope S pk slot) := by
  unfold total scopePieces plainScope
  exact (((List.mergeSort_perm _ _).filterMap _).map _).sum_nat

theorem total_flatMap {α : Type} (l : List α) (f g : α → List Piece) (h : ∀ x ∈ l, total (f x) = total (g x)) :
    total (l.flatMap f) = total (l.flatMap g) := by
  induction l with
  | nil => rfl
  | cons a l ih =>
    rw [List.flatMap_cons, List.flatMap_cons, total_append, total_append, h a (by simp), ih fun x hx => h x (by simp [hx])]

/-- How much is allocated. -/
def roomFor (db : DB.Database) (S F : St) : Nat :=
  total (fixedPieces db ++ ((Export.hierarchy.flatMap fun h => plainScope S h.1 h.2.1) ++
    [⟨none, (Export.allAttributes S).length, 8, true⟩] ++ attributeScopes.flatMap fun k => plainScope S k .attributes) ++
    globalPieces F ++ basePieces F)

theorem total_pieces (db : DB.Database) (S F : St) (fks : List UInt32) : total (pieces db S F fks) = roomFor db S F := by
  unfold pieces treePieces roomFor
  simp only [total_append]
  rw [total_flatMap Export.hierarchy _ _ fun x _ => total_scope S x.1 x.2.1 (Export.byName S x.1),
    total_flatMap attributeScopes _ _ fun k _ => total_scope S k .attributes _]

def checkR (db : DB.Database) : Bool :=
  match Export.exportDB (sampleHost.env db) 2 db, Export.exportScopes (sampleHost.env db) db with
  | some (.ok F), .ok S => decide (roomFor db S F ≤ arenaSize)
  | _, _ => true

theorem room_of {db : DB.Database} (h : checkR db = true) (F : St) (ps : List Piece)
    (hp : exportPieces sampleHost 2 db = some (.ok (F, ps))) : total ps ≤ arenaSize := by
  unfold exportPieces at hp
  unfold checkR at h
  cases h1 : Export.exportDB (sampleHost.env db) 2 db with
  | none => rw [h1] at hp; cases hp
  | some x =>
    rw [h1] at hp h
    simp only [Option.map_some, Option.some.injEq] at hp
    obtain ⟨F', rfl, hp1⟩ := Link.bok.mp hp
    obtain ⟨S, h2, hp2⟩ := Link.bok.mp hp1
    obtain ⟨fks, _, hp3⟩ := Link.bok.mp hp2
    rw [h2] at h
    injection hp3 with hp3
    injection hp3 with e1 e2
    subst e1; subst e2
    rw [total_pieces]
    exact of_decide_eq_true h

/-- A database with something of everything. -/
def richDb : DB.Database :=
  { Export.sampleDb with
    names := Export.sampleDb.names ++ [Export.nm b!"mode", Export.nm b!"g::E", Export.nm b!"one", Export.nm b!"g::T", Export.nm b!"g::T<int>",
      Export.nm b!"note"]
    enums := [{ name := Export.nm b!"g::E", parent := Export.nm b!"g", size := 4 }]
    enumConstants := [{ name := Export.nm b!"one", parent := Export.nm b!"g::E", value := 1 }]
    templates := [{ name := Export.nm b!"g::T", parent := Export.nm b!"g" }]
    templateTypes := [{ name := Export.nm b!"g::T<int>", parent := Export.nm b!"g::T", a0 := { type := Export.nm b!"int", ptr := true } }]
    primitiveAttributes := [{ name := Export.nm b!"mode", parent := Export.nm b!"g::E", value := Export.nm b!"g::D" }]
    textAttributes := [{ name := Export.nm b!"note", parent := Export.nm b!"g::B", value := b!"text" }] }

theorem rich_fits : Fits sampleHost 2 richDb where
  wellFormed := Export.wellFormed_of (by decide +kernel)
    ⟨fun h => if h = DB.hashOf b!"g::D" then 1 else 0, fun h => by dsimp only; split <;> omega, by decide +kernel⟩
  unambiguous := Export.unambiguous_of (by decide +kernel)
  arguments := by unfold Known; decide +kernel
  targets := by unfold Known; decide +kernel
  owners := by
    intro i hi
    have : i = 0 := by
      have : richDb.primitiveAttributes.length = 1 := rfl
      omega
    subst this
    exact ⟨(.enum, 0), by decide, _, rfl, .inl ⟨by decide, _, rfl, rfl⟩⟩
  noAlias := (alias_of (by decide +kernel)).1
  noFieldAlias := (alias_of (by decide +kernel)).2
  room := room_of (by decide +kernel)

theorem units_fit : ∀ m, Merge.mergeAll {} [Tools.unitA, Tools.unitB] = .ok m → Fits sampleHost 2 m := by
  intro m hm
  have e : m = Tools.unitsMerged := by unfold Tools.unitsMerged; rw [hm]
  subst e
  exact {
    wellFormed := Export.wellFormed_of (by decide +kernel) ⟨fun _ => 0, fun _ => Nat.zero_lt_succ 1, by decide +kernel⟩
    unambiguous := Export.unambiguous_of (by decide +kernel)
    arguments := by unfold Known; decide +kernel
    targets := by unfold Known; decide +kernel
    owners := by
      have : Tools.unitsMerged.primitiveAttributes.length = 0 := by decide +kernel
      intro i hi
      omega
    noAlias := (alias_of (by decide +kernel)).1
    noFieldAlias := (alias_of (by decide +kernel)).2
    room := room_of (by decide +kernel) }

example : ∃ F p bytes, Export.exportDB (sampleHost.env richDb) 2 richDb = some (.ok F) ∧
    exportBytes sampleHost 2 4096 richDb = some (.ok bytes) ∧ Linked (dataOf 4096 richDb F) ∧
    ∀ base loadAddr database dont, base + arenaSize < W64 → database < W64 →
      ∃ out, load base loadAddr database dont bytes = .ok (some out) ∧ out.length ≤ arenaSize ∧
        Laid p (dataOf 4096 richDb F) out.length ∧
        Represents p ((dataOf 4096 richDb F).readdress (if dont then id else moved 4096 loadAddr)) database base out :=
  C85_loaded_partial sampleHost sampleHost_good 2 4096 (by decide) richDb rich_fits

/-- C85: the tables are where the texts end: not all objects are aligned as C++ asks. A database with the single name `f`
has its table of types at an odd address, wherever the arena is. -/
theorem C85_alignment_false : ∃ db : DB.Database, Fits sampleHost 2 db ∧ ∀ h : Host, h.start % 8 = 0 →
    0 < tableSize db .type ∧ (h.env db).addr (.type, 0) % 8 = 2 := by
  refine ⟨{ names := [Export.nm b!"f"], types := [{ name := Export.nm b!"f", size := 4 }] }, ?_, ?_⟩
  · exact {
      wellFormed := Export.wellFormed_of (by decide +kernel) ⟨fun _ => 0, fun _ => Nat.zero_lt_succ 1, by decide +kernel⟩
      unambiguous := Export.unambiguous_of (by decide +kernel)
      arguments := by unfold Known; decide +kernel
      targets := by unfold Known; decide +kernel
      owners := by intro i hi; cases hi
      noAlias := (alias_of (by decide +kernel)).1
      noFieldAlias := (alias_of (by decide +kernel)).2
      room := room_of (by decide +kernel) }
  · intro h h8
    refine ⟨by decide +kernel, ?_⟩
    have : ∀ db : DB.Database, (offsetIn (fixedPieces db) (.table .type)).getD 0 % 8 = 2 → (h.env db).addr (.type, 0) % 8 = 2 := by
      intro db hd
      have e : (h.env db).addr (.type, 0) = h.start + (offsetIn (fixedPieces db) (.table .type)).getD 0 + 0 * stride .type := rfl
      rw [e]
      omega
    exact this _ (by decide +kernel)

/-- C85: the owners asked for by `Fits` are needed: an attribute that names a primitive, on something that is not reflected,
keeps the hash of its parent where a pointer should be; such a database is not exported (C84_unresolved_stops). -/
theorem C85_unowned_attribute_false : ∃ db : DB.Database, Ready (sampleHost.env db) 2 db ∧
    (∀ a ∈ db.primitiveAttributes, Known db a.value.hash ∧ Known db a.parent.hash) ∧
    ∃ F, Export.exportDB (sampleHost.env db) 2 db = some (.ok F) ∧
      (F.get (.primAttr, 0)).parent = .raw (DB.hashOf b!"g::gone").toNat ∧ ∀ functionBase, ¬ Linked (dataOf functionBase db F) := by
  let db : DB.Database := { Export.sampleDb with
    names := Export.sampleDb.names ++ [Export.nm b!"mode", Export.nm b!"g::gone"]
    primitiveAttributes := [{ name := Export.nm b!"mode", parent := Export.nm b!"g::gone", value := Export.nm b!"g::D" }] }
  have hr : Ready (sampleHost.env db) 2 db :=
    ⟨Export.wellFormed_of (by decide +kernel)
      ⟨fun h => if h = DB.hashOf b!"g::D" then 1 else 0, fun h => by dsimp only; split <;> omega, by decide +kernel⟩,
     Export.unambiguous_of (by decide +kernel),
     laidOut_of _ _ _ _ sampleHost_good.far sampleHost_good.sort (alias_of (by decide +kernel)).1 (alias_of (by decide +kernel)).2⟩
  obtain ⟨F, h1, h2⟩ := Export.onOk_spec (o := Export.exportDB (sampleHost.env db) 2 db)
    (f := fun F => (F.get (.primAttr, 0)).parent == .raw (DB.hashOf b!"g::gone").toNat && decide (0 < F.count .primAttr)) (by decide +kernel)
  rw [Bool.and_eq_true, beq_iff_eq, decide_eq_true_eq] at h2
  refine ⟨db, hr, by unfold Known; decide +kernel, F, h1, h2.1, ?_⟩
  intro fb N
  have := (N.objects (.primAttr, 0) h2.2).parent
  have e : ((dataOf fb db F).st.get (.primAttr, 0)).parent = .raw (DB.hashOf b!"g::gone").toNat := h2.1
  rw [e] at this
  revert this
  show Resolved _ (.raw _) → False
  have h0 : (DB.hashOf b!"g::gone").toNat ≠ 0 := by decide +kernel
  exact fun h => h0 h

end Clr.Image
