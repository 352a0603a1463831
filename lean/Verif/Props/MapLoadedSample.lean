import Verif.Props.MapLoaded
/-
C89: a program for which all hypotheses are met.
-/
namespace Clr.Tools
open Clr Clr.DB Clr.Args Clr.Layout Clr.Image Clr.MapFiles
open Clr.Map (Clear Par)
open Clr.Export (K Ref nm)

def intRef : Par := { ty := .named .none .none b!"int", op := .reference }

def fId : UInt32 := ⟨Hash.uniqueId [⟨b!"int", .reference, false⟩]⟩
def gId : UInt32 := ⟨Hash.uniqueId [⟨b!"A", .pointer, true⟩]⟩

/-- `class A { void g() const; };`, `void f(int&);` and `void u();`. -/
def mapDb : Database :=
  { names := sortBy (·.hash) [nm b!"A", nm b!"int", nm b!"f", nm b!"A::g", nm b!"this", nm b!"x", nm b!"u"]
    types := [{ name := nm b!"int", size := 4 }]
    classes := [{ name := nm b!"A", size := 4 }]
    functions := sortBy (·.name.hash) [{ name := nm b!"f", uniqueId := fId }, { name := nm b!"A::g", parent := nm b!"A", uniqueId := gId },
      { name := nm b!"u", uniqueId := ⟨Hash.uniqueId []⟩ }]
    fields := sortBy (·.name.hash) [{ name := nm b!"x", parent := nm b!"f", type := nm b!"int", qualifier := ⟨.reference, false⟩, offset := 0, parentUniqueId := fId },
      { name := nm b!"this", parent := nm b!"A::g", type := nm b!"A", qualifier := ⟨.pointer, true⟩, offset := 0, parentUniqueId := gId }] }

def mapDemangle (name : Bytes) : Option Bytes :=
  if name = b!"_Z1fRi" then some b!"f(int&)" else if name = b!"_ZNK1A1gEv" then some b!"A::g() const"
  else if name = b!"_Z20clcppConstructObjectP1A" then some b!"clcppConstructObject(A*)" else if name = b!"_Z1hv" then some b!"h()"
  else if name = b!"_ZTV1A" then some b!"vtable for A" else none

def mapLinux : LinuxFile :=
  { linuxExample with entries := [.other b!" .text          0x0000000000401000       0xf0 a.o",
    .symbol b!"                " b!"0000000000401010" b!"                " b!"_Z1fRi" [],
    .symbol b!"                " b!"0000000000402000" b!"                " b!"_ZTV1A" [],
    .symbol b!"                " b!"0000000000401020" b!"                " b!"_ZNK1A1gEv" [],
    .symbol b!"                " b!"0000000000401030" b!"                " b!"_Z20clcppConstructObjectP1A" [],
    .symbol b!"                " b!"0000000000401040" b!"                " b!"_Z1hv" []] }

theorem mapLinux_ok : mapLinux.Ok where
  lines := by unfold Line; decide +kernel
  before := by decide
  gap1 := by unfold Gap; decide
  address := by unfold HexText; decide
  gap2 := by unfold Gap; decide
  size := by unfold HexText; decide
  tail := by unfold Tail; simp [mapLinux, linuxExample]
  entries := by
    intro e he
    simp only [mapLinux, List.mem_cons, List.not_mem_nil, or_false] at he
    rcases he with rfl | rfl | rfl | rfl | rfl | rfl
    · simp only [LinuxEntry.Ok]; decide +kernel
    all_goals refine ⟨by unfold Gap; decide, by unfold HexText; decide, by unfold Gap; decide, by unfold MapFiles.Field; decide, by unfold Tail; simp⟩

def mapItems : List (Item × UInt64) :=
  [(.call ⟨none, b!"f", [intRef], false⟩, 0x401010), (.call ⟨some b!"A", b!"g", [], true⟩, 0x401020), (.maker b!"A" true, 0x401030),
   (.other b!"h()", 0x401040)]

def mapTexts : List Bytes := [b!"A", b!"int&", b!"this", b!"A::ConstructObject"]

theorem mapDb_items : Items (fun _ => 0) mapDb mapItems mapTexts where
  twins := by decide +kernel
  ok := by
    intro i a h
    simp only [mapItems, List.mem_cons, List.not_mem_nil, or_false, Prod.mk.injEq] at h
    rcases h with ⟨rfl, rfl⟩ | ⟨rfl, rfl⟩ | ⟨rfl, rfl⟩ | ⟨rfl, rfl⟩
    · refine ⟨⟨by decide, by decide, by simp, ?_, by decide, by decide, by decide⟩, by decide⟩
      intro p hp
      simp at hp
      subst hp
      exact ⟨rfl, .inl ⟨_, _, rfl, by decide, by decide, by decide, by decide, by decide⟩, by decide, by decide⟩
    · exact ⟨⟨by decide, by decide, by simp, by simp, by decide, by decide, by decide⟩, by decide⟩
    · refine ⟨?_, by decide⟩
      simp only [Item.Ok]
      decide
    · refine ⟨⟨by decide +kernel, by decide +kernel⟩, by decide⟩
  addresses := by
    intro i a h
    simp only [mapItems, List.mem_cons, List.not_mem_nil, or_false, Prod.mk.injEq] at h
    rcases h with ⟨rfl, rfl⟩ | ⟨rfl, rfl⟩ | ⟨rfl, rfl⟩ | ⟨rfl, rfl⟩ <;> decide
  clear := by unfold Map.Clear; decide +kernel
  apart := by
    have : ∀ n ∈ [b!"f", b!"A::g"], ∀ f ∈ mapItems.filterMap Item.made, hashOf n ≠ f.name.hash := by decide +kernel
    intro c a f h hf
    simp only [mapItems, List.mem_cons, List.not_mem_nil, or_false, Prod.mk.injEq, Item.call.injEq, reduceCtorEq, false_and] at h
    rcases h with ⟨rfl, rfl⟩ | ⟨rfl, rfl⟩
    · exact this _ (by decide) f hf
    · exact this _ (by decide) f hf

theorem mapDb_storable : TextDB.Storable TextDB.exampleCfg mapDb := by
  constructor <;> (try unfold TextDB.SortedLe) <;>
    (try simp only [TextDB.KnownPrim, TextDB.Known, TextDB.CleanText, TextDB.Cfg.IntOk, TextDB.Cfg.FloatOk, TextDB.ArgsOk]) <;>
    decide +kernel

def mapFiles : Files where
  read n := if n = b!"a.db" then some (TextDB.writeText TextDB.exampleCfg mapDb) else if n = b!"a.map" then some (fileOf mapLinux.lines []) else none
  canWrite _ := true

/-- The database with what the map file says. -/
def mappedDb : Database :=
  match gccMapFile mapDemangle (fun _ => 0) b!"a.map" mapFiles mapDb with
  | .ok (_, db) => db
  | _ => {}

theorem mappedDb_fits : Fits sampleHost 2 mappedDb where
  wellFormed := Export.wellFormed_of (by decide +kernel)
    ⟨fun h => if h = hashOf b!"g::D" then 1 else 0, fun h => by dsimp only; split <;> omega, by decide +kernel⟩
  unambiguous := Export.unambiguous_of (by decide +kernel)
  arguments := by unfold Export.Known; decide +kernel
  targets := by unfold Export.Known; decide +kernel
  owners := by
    have hl : mappedDb.primitiveAttributes.length = 0 := by decide +kernel
    intro i hi
    omega
  noAlias := (alias_of (by decide +kernel)).1
  noFieldAlias := (alias_of (by decide +kernel)).2
  room := room_of (by decide +kernel)

theorem means_name {fs : List Function} {c : Call} {f : Function} (h : c.Means fs f) : f.name.hash = hashOf c.full := by
  rcases h with ⟨_, _, h, _⟩ | ⟨h, _⟩
  · exact h
  · exact h.1

attribute [local irreducible] hashOf in
/-- The functions that the lines of the file may mean. -/
theorem gets_mapItems {f : Function} {a : UInt64} (h : Gets mapDb.functions mapItems f a) :
    (a = 0x401010 ∧ f.name.hash = hashOf b!"f") ∨ (a = 0x401020 ∧ f.name.hash = hashOf b!"A::g") ∨
    (a = f.address ∧ ∀ d x, (.call d, x) ∈ mapItems → ¬ d.Means mapDb.functions f) := by
  rcases h with ⟨pre, c, post, e, m, _⟩ | h
  · have hm : (Item.call c, a) ∈ mapItems := by rw [e]; simp
    simp only [mapItems, List.mem_cons, List.not_mem_nil, or_false, Prod.mk.injEq, Item.call.injEq, reduceCtorEq, false_and] at hm
    rcases hm with ⟨rfl, rfl⟩ | ⟨rfl, rfl⟩
    · refine .inl ⟨rfl, (means_name m).trans ?_⟩
      rw [show Call.full _ = b!"f" from rfl]
    · refine .inr (.inl ⟨rfl, (means_name m).trans ?_⟩)
      rw [show Call.full _ = b!"A::g" from rfl]
  · exact .inr (.inr h)

/-- All hypotheses of C89, and some of what it says then: with the program loaded 0x1000 bytes above its preferred address, `f`, `A::g`
and the constructor of `A` have the addresses of the map file plus 0x1000, and `u` has none. -/
example : ∃ fs' bytes mem, ∃ at' : Ref → Nat,
    fileMain { cfg := TextDB.exampleCfg, mapFile := gccMapFile mapDemangle (fun _ => 0), host := sampleHost, depth := 2 }
      [b!"clexport", b!"a.db", b!"-cpp", b!"a.cppbin", b!"-map", b!"a.map"] mapFiles = some (.ok (0, fs')) ∧
    fs'.read b!"a.cppbin" = some bytes ∧ Reloc.load 65536 0x402000 8 false bytes = .ok (some mem) ∧
    (∃ i, PrimitiveAt 65536 mem 8 (at' (.function, i)) .function (nm b!"f") ∧
      Reads 65536 mem (at' (.function, i) + offsetOf function b!"address") 8 0x402010) ∧
    (∃ i, PrimitiveAt 65536 mem 8 (at' (.function, i)) .function (nm b!"A::g") ∧
      Reads 65536 mem (at' (.function, i) + offsetOf function b!"address") 8 0x402020) ∧
    (∃ i, PrimitiveAt 65536 mem 8 (at' (.function, i)) .function (nm b!"u") ∧
      Reads 65536 mem (at' (.function, i) + offsetOf function b!"address") 8 0) ∧
    ∃ i r, PrimitiveAt 65536 mem 8 (at' (.cls, i)) .cls (nm b!"A") ∧
      Reads 65536 mem (at' (.cls, i) + offsetOf cls b!"constructor") 8 (at' r) ∧
      Reads 65536 mem (at' r + offsetOf function b!"address") 8 0x402030 := by
  obtain ⟨fs', bytes, h1, h2, _, h3⟩ := C89_loaded_partial TextDB.exampleCfg sampleHost sampleHost_good 2 mapDemangle (fun _ => 0) mapFiles
    b!"clexport" b!"a.db" b!"a.cppbin" b!"a.map" _ _ mapDb 0x401000 mapItems mapTexts (by decide) (by decide) (by decide) (by decide) rfl
    rfl (.text mapDb_storable) rfl (.inl ⟨mapLinux, [], mapLinux_ok, by simp, rfl, by decide +kernel, by decide +kernel⟩)
    mapDb_items (by decide) (textsKnown mapDb_storable) (by
      intro db' h
      have : mappedDb = db' := by unfold mappedDb; rw [h]
      rw [← this]
      exact mappedDb_fits)
  obtain ⟨mem, at', h4, C⟩ := h3 65536 0x402000 8 false (by decide) (by decide)
  refine ⟨fs', bytes, mem, at', h1, h2, h4, ?_, ?_, ?_, ?_⟩
  · obtain ⟨a, i, g1, g2, _, g3⟩ := C.functions { name := nm b!"f", uniqueId := fId } (by decide +kernel)
    refine ⟨i, g2, ?_⟩
    rcases gets_mapItems g1 with ⟨rfl, _⟩ | ⟨_, h⟩ | ⟨_, h⟩
    · exact g3
    · exact absurd h (by decide +kernel)
    · refine absurd (.inr ⟨⟨rfl, rfl⟩, ?_⟩) (h ⟨none, b!"f", [intRef], false⟩ 0x401010 (by simp [mapItems]))
      rintro _ _ ⟨_, h, _⟩
      cases h
  · obtain ⟨a, i, g1, g2, _, g3⟩ := C.functions { name := nm b!"A::g", parent := nm b!"A", uniqueId := gId } (by decide +kernel)
    refine ⟨i, g2, ?_⟩
    rcases gets_mapItems g1 with ⟨_, h⟩ | ⟨rfl, _⟩ | ⟨_, h⟩
    · exact absurd h (by decide +kernel)
    · exact g3
    · exact absurd (.inl ⟨_, rfl, rfl, rfl⟩) (h ⟨some b!"A", b!"g", [], true⟩ 0x401020 (by simp [mapItems]))
  · obtain ⟨a, i, g1, g2, _, g3⟩ := C.functions { name := nm b!"u", uniqueId := ⟨Hash.uniqueId []⟩ } (by decide +kernel)
    refine ⟨i, g2, ?_⟩
    rcases gets_mapItems g1 with ⟨_, h⟩ | ⟨_, h⟩ | ⟨rfl, _⟩
    · exact absurd h (by decide +kernel)
    · exact absurd h (by decide +kernel)
    · exact g3
  · obtain ⟨i, r, a', g1, g2, g3, g4⟩ := C.classes { name := nm b!"A", size := 4 } (by decide +kernel) b!"A" true 0x401030 rfl (by simp [mapItems])
      (by decide +kernel)
    refine ⟨i, r, g1, g2, ?_⟩
    simp only [mapItems, List.mem_cons, List.not_mem_nil, or_false, Prod.mk.injEq, reduceCtorEq, false_and, false_or] at g3
    obtain ⟨_, rfl⟩ := g3
    exact g4

end Clr.Tools
