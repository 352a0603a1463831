import Verif.Proofs.Source
import Verif.Proofs.ScanRecords
/-!
**C91**: what is declared in C++ source files is what a program reads in memory, after clscan, clmerge, clexport and loading.
-/
namespace Clr.ScanStore
open Clr.DB Clr.Build Clr.Layout Clr.Image Clr.Tools
open Clr.ScanUnit (Item Has Each St Forest Scanned recorded)
open Clr.ScanTool (Source scanMain gatherFile allContainers)

attribute [local irreducible] hashOf

/-! ### Specification -/

/-- The annotations a macro makes that say how much of a symbol to reflect (inc/clcpp/clcpp.h:223-259). -/
def specTexts : ScanTool.Macro → List Bytes
  | .reflect n => [b!"full-" ++ n]
  | .reflectPart n => [b!"part-" ++ n]
  | .container _ r w _ => [b!"part-" ++ r, b!"part-" ++ w]

/-- A source file: its macros, its declarations and the instances of templates in it. -/
structure CFile where
  src : Source (Forest Item)
  env : ScanTypes.Env
  /-- how deep instances of templates may be nested -/
  fuel : Nat

/-- What its macros say. -/
def CFile.texts (f : CFile) : List Bytes := (ScanTool.macros f.src.items).flatMap specTexts

/-- The declarations are such as a compiler has them. -/
structure CFile.Fine (f : CFile) : Prop where
  named : ScanTypes.WellNamedEnv f.env
  items : ∀ x ∈ f.src.rest.listing, Scan.Fine f.texts (ScanUnit.info (x.2, true)) ∧ ScanUnit.WellItem x.2

/-- The walk of clscan over the file goes as modelled in `Verif/Model/ScanUnit.lean`: its calls on the database come to the tables of the
walk (`Told`), and what it says can be stored. -/
def Walks (te : ScanTool.Env (Forest Item)) (f : CFile) : Prop :=
  ∃ s, ScanUnit.walk f.env f.fuel (Scan.gather f.texts) f.src.rest {} = some s ∧
    ∀ d, Told s ((te.walk (Scan.gather f.texts) f.src.rest d).map Subtype.val) ∧
      Disciplined te.cfg ((te.walk (Scan.gather f.texts) f.src.rest d).map Subtype.val)

/-- clscan was run on the file, and what it wrote is in the file `name`. -/
structure ScannedTo (te : ScanTool.Env (Forest Item)) (fs : Files) (f : CFile) (name : Bytes) : Prop where
  fine : f.Fine
  walks : Walks te f
  containers : ∀ e ∈ allContainers [f.src], ScanTool.Storable e
  ran : ∃ out before after, b!".csv" <:+ out ∧ out.length < 2 ^ 63 ∧ scanMain te [f.src.file] out before = .ok (0, after) ∧
    fs.read name = after.read out

/-- What is recorded of a file: the declarations that are reflected, but those that are not supported (see C90). -/
def RecordedOf (f : CFile) (u : TUnit) : Prop :=
  ∃ L s, ScanUnit.walk f.env f.fuel (Scan.gather f.texts) f.src.rest {} = some s ∧ Scanned f.env f.fuel f.texts f.src.rest L s ∧
    u = ⟨f.env, recorded f.texts L⟩

/-! ### Proofs -/

theorem annotation_container (g : Scan.Specs) (t : Bytes) : Scan.Specs.annotation g (b!"container-" ++ t) = g := by
  have h5 : (b!"container-" ++ t).take 5 = b!"conta" := rfl
  unfold Scan.Specs.annotation
  rw [h5, if_neg (by decide), if_neg (by decide)]

theorem gatherTop_annotated (g : ScanTool.Gathered) (t : Bytes) (h : t.take 5 = b!"full-" ∨ t.take 5 = b!"part-") :
    ScanTool.gatherTop g (ScanTool.annotated t) = { g with specs := g.specs.annotation t } := by
  unfold ScanTool.gatherTop
  show (if t.take 5 = b!"full-" ∨ t.take 5 = b!"part-" then _ else _) = _
  rw [if_pos h]

theorem gatherTop_container (g : ScanTool.Gathered) (t : Bytes) : (ScanTool.gatherTop g (ScanTool.annotated (b!"container-" ++ t))).specs = g.specs := by
  unfold ScanTool.gatherTop
  have h5 : (b!"container-" ++ t).take 5 = b!"conta" := rfl
  show (if (b!"container-" ++ t).take 5 = b!"full-" ∨ (b!"container-" ++ t).take 5 = b!"part-" then _ else _ : ScanTool.Gathered).specs = _
  rw [h5, if_neg (by decide)]
  split <;> rfl

/-- The specs that clscan gathers are those of the macros. -/
theorem gathered_specs (items : List ScanTool.Item) (g : ScanTool.Gathered) :
    (gatherFile g (items.flatMap ScanTool.Item.tops)).specs = ((ScanTool.macros items).flatMap specTexts).foldl Scan.Specs.annotation g.specs := by
  induction items generalizing g with
  | nil => rfl
  | cons i items ih =>
    rw [List.flatMap_cons]
    unfold gatherFile at ih ⊢
    rw [List.foldl_append, ih]
    cases i with
    | mac m =>
      show _ = ((m :: ScanTool.macros items).flatMap specTexts).foldl _ _
      rw [List.flatMap_cons, List.foldl_append]
      congr 1
      cases m with
      | reflect n => exact congrArg ScanTool.Gathered.specs (gatherTop_annotated g (b!"full-" ++ n) (.inl rfl))
      | reflectPart n => exact congrArg ScanTool.Gathered.specs (gatherTop_annotated g (b!"part-" ++ n) (.inr rfl))
      | container c r w k =>
        show (ScanTool.gatherTop (ScanTool.gatherTop (ScanTool.gatherTop g (ScanTool.annotated (b!"part-" ++ r))) (ScanTool.annotated (b!"part-" ++ w)))
          (ScanTool.annotated (b!"container-" ++ c ++ b!"-" ++ r ++ b!"-" ++ w ++ b!"-" ++ k))).specs = _
        have e : b!"container-" ++ c ++ b!"-" ++ r ++ b!"-" ++ w ++ b!"-" ++ k = b!"container-" ++ (c ++ b!"-" ++ r ++ b!"-" ++ w ++ b!"-" ++ k) := by
          simp only [List.append_assoc]
        rw [e, gatherTop_container, gatherTop_annotated _ _ (.inr rfl), gatherTop_annotated _ _ (.inr rfl)]
        rfl
    | decl name body h =>
      show _ = ((ScanTool.macros items).flatMap specTexts).foldl _ _
      congr 1
      show (ScanTool.gatherTop g (.ns name body)).specs = _
      have e : ScanTool.getReflectionSpec (.ns name body) = none := if_pos h
      unfold ScanTool.gatherTop
      rw [e]
    | other => rfl

theorem file_specs (f : CFile) : (gatherFile {} f.src.file.tops).specs = Scan.gather f.texts := gathered_specs f.src.items {}

theorem single_calls {α : Type} {te : ScanTool.Env α} {f : ScanTool.File α} {calls : List Call} {g : ScanTool.Gathered} {d : Database}
    (h : ScanTool.FileCalls te {} {} [f] calls g d) :
    ∃ d1, calls = ScanTool.baseCalls baseTypes ++ (te.walk (gatherFile {} f.tops).specs f.rest d1).map Subtype.val := by
  cases h with
  | cons h1 h2 h3 =>
    cases h3
    exact ⟨_, List.append_nil _⟩

/-- What clscan writes is a database that holds what the file declares. -/
theorem scanned_records {te : ScanTool.Env (Forest Item)} {fs : Files} {f : CFile} {name : Bytes} (h : ScannedTo te fs f name) :
    ∃ L s d data, ScanUnit.walk f.env f.fuel (Scan.gather f.texts) f.src.rest {} = some s ∧ Scanned f.env f.fuel f.texts f.src.rest L s ∧
      fs.read name = some data ∧ HoldsDatabase te.cfg d data ∧ TextDB.Storable te.cfg d ∧ Holds ⟨f.env, recorded f.texts L⟩ d ∧
      ScanTool.Built te [f.src.file] d ∧
      Records f.env f.texts (recorded f.texts L) ((ScanUnit.reached f.texts L).map fun x => (x.1, x.2.1)) (L.listing.map fun x => x.2.1)
        (allContainers [f.src]) d := by
  obtain ⟨s, hw, hcalls⟩ := h.walks
  obtain ⟨L, hL⟩ := ScanUnit.C90_scanned_partial h.fine.named f.fuel f.texts f.src.rest s h.fine.items hw
  obtain ⟨out, before, after, hcsv, hlen, hrun, hread⟩ := h.ran
  have h4 : 4 ≤ out.length := hcsv.length_le
  rcases ScanTool.C81_outcome te [f.src.file] out before after 0 hrun with ⟨h0, _⟩ | ⟨_, _, db, hb, ⟨ho, _⟩ | ⟨_, _, data, hd, rfl⟩⟩
  · cases h0
  · rw [ho] at h4; simp at h4
  · rw [ScanTool.Written, if_pos ((ScanTool.C81_format out (by omega) hlen).mpr hcsv)] at hd
    obtain ⟨g, calls, hg, ⟨db₀, hc⟩, hrun', hconts, -⟩ := ScanTool.built_calls (srcs := [f.src]) hb
    obtain ⟨db1, e⟩ := single_calls (te := te) (f := f.src.file) hc
    rw [file_specs] at e
    have e : calls = ScanTool.baseCalls baseTypes ++ (te.walk (Scan.gather f.texts) f.src.rest db1).map Subtype.val := e
    rw [e] at hrun' hconts
    have hst := storable_of_disciplined te.cfg _ db hrun' (ScanTool.disciplined_append
      (ScanTool.disciplined_append (ScanTool.disciplined_base _) ((hcalls db1).2))
      (ScanTool.disciplined_containers _ _ fun e he => h.containers e (ScanTool.lastFor_some ((hg.containers.mem e.1 e.2).mp he))))
    have hh := holds_of hL (hcalls db1).1 hrun'
    refine ⟨L, s, db, data, hw, hL, ?_, by rw [hd]; exact .text hst, hst, hh, hb, records_of hL (hcalls db1).1 hrun' hconts
      fun e he => ScanTool.lastFor_some ((hg.containers.mem e.1 e.2).mp he)⟩
    rw [hread]
    simp [Tools.Files.write]

theorem scanned_holds {te : ScanTool.Env (Forest Item)} {fs : Files} {f : CFile} {name : Bytes} (h : ScannedTo te fs f name) :
    ∃ u d data, RecordedOf f u ∧ fs.read name = some data ∧ HoldsDatabase te.cfg d data ∧ TextDB.Storable te.cfg d ∧ Holds u d ∧
      ScanTool.Built te [f.src.file] d := by
  obtain ⟨L, s, d, data, h1, h2, h3, h4, h5, h6, h7, _⟩ := scanned_records h
  exact ⟨_, d, data, ⟨L, s, h1, h2, rfl⟩, h3, h4, h5, h6, h7⟩

/-- The same of all files. -/
theorem all_hold {te : ScanTool.Env (Forest Item)} {fs : Files} {files : List CFile} {names : List Bytes}
    (h : Each (ScannedTo te fs) files names) :
    ∃ us dbs, Each RecordedOf files us ∧ Inputs te.cfg fs names dbs ∧ Each Holds us dbs := by
  induction h with
  | nil => exact ⟨[], [], .nil, .nil, .nil⟩
  | cons hr _ ih =>
    obtain ⟨us, dbs, h1, h2, h3⟩ := ih
    obtain ⟨u, d, data, g1, g2, g3, g4, g5, -⟩ := scanned_holds hr
    exact ⟨u :: us, d :: dbs, .cons g1 h1, .cons g2 g3 g4 h2, .cons g5 h3⟩

/-- **C91**, partial, first half: what clscan writes for a source file is a database whose entries are what is declared in the file and
recorded (C90).  Partial: of two base classes known by texts with the same hash, or two arrays, one is lost. -/
theorem C91_database_partial (te : ScanTool.Env (Forest Item)) (fs : Files) (f : CFile) (name : Bytes) (h : ScannedTo te fs f name) :
    ∃ L s d data, ScanUnit.walk f.env f.fuel (Scan.gather f.texts) f.src.rest {} = some s ∧ Scanned f.env f.fuel f.texts f.src.rest L s ∧
      fs.read name = some data ∧ HoldsDatabase te.cfg d data ∧
      Records f.env f.texts (recorded f.texts L) ((ScanUnit.reached f.texts L).map fun x => (x.1, x.2.1)) (L.listing.map fun x => x.2.1)
        (allContainers [f.src]) d := by
  obtain ⟨L, s, d, data, h1, h2, h3, h4, _, _, _, h8⟩ := scanned_records h
  exact ⟨L, s, d, data, h1, h2, h3, h4, h8⟩

/-- **C91**, partial: source files are scanned by clscan, each by itself, what it writes is merged by clmerge and exported by clexport, and the
file is loaded at any address.  If the files agree on what their names stand for, a program finds in memory, by name, the types, fields,
methods, constants, namespaces and functions that are declared and recorded (C90) in the files, and no others, and reads of them what the declarations say.
Partial: asks what C86 asks of the databases, that no two texts in them have the same hash, and of the merged one that it fits. -/
theorem C91_source_to_memory_partial (te : ScanTool.Env (Forest Item)) (env : Env) (xenv : FileEnv) (ht : te.cfg = env.cfg)
    (hcfg : xenv.cfg = env.cfg) (hg : xenv.host.Good) (fs : Files) (files : List CFile) (args : List Bytes) (out file : Bytes)
    (inputs : List Bytes) (hscan : Each (ScannedTo te fs) files inputs) (hc : CommandLine args out [] [] inputs)
    (hw : fs.canWrite out = true) (hw2 : fs.canWrite file = true) (xargs : List Bytes) (hx : ExportLine xargs out file)
    (hdb : ∀ dbs, Inputs env.cfg fs inputs dbs → NoCollisions dbs ∧ ∀ m, Merge.mergeAll {} dbs = .ok m → Fits xenv.host xenv.depth m) :
    ∃ us, Each RecordedOf files us ∧
      ∃ fs1 fs2 bytes, mergeMain env args fs = .ok (0, fs1) ∧ fileMain xenv xargs fs1 = some (.ok (0, fs2)) ∧
        fs2.read file = some bytes ∧
        ∀ base loadAddr database dont, base + arenaSize < Reloc.W64 → database < Reloc.W64 →
          ∃ mem, Reloc.load base loadAddr database dont bytes = .ok (some mem) ∧ (OneMeaning us → Sees us base database mem) := by
  obtain ⟨us, dbs, h1, h2, h3⟩ := all_hold hscan
  rw [ht] at h2
  obtain ⟨hcol, hfit⟩ := hdb dbs h2
  obtain ⟨fs1, fs2, bytes, k1, k2, k3, k4⟩ :=
    C86_scan_to_memory_partial env xenv hcfg hg fs args out file inputs dbs hc h2 hcol hw hw2 xargs hx hfit
  refine ⟨us, h1, fs1, fs2, bytes, k1, k2, k3, fun base loadAddr database dont hb hd => ?_⟩
  obtain ⟨mem, m1, m2⟩ := k4 base loadAddr database dont hb hd
  exact ⟨mem, m1, fun hm => sees_of h3 (fun d hd => inputs_names h2 d hd) hcol hm m2⟩

end Clr.ScanStore
