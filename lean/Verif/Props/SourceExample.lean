import Verif.Props.Source
/-!
That the hypotheses of C91 can be met: two source files that share a class.
-/
namespace Clr.ScanStore
open Clr.DB Clr.Build Clr.Layout Clr.Image Clr.Tools
open Clr.ScanUnit (Item Has Each St Forest Scanned recorded)
open Clr.ScanTool (Source scanMain gatherFile allContainers)
open Clr.ScanTypes (Declares HasName)

/-! ### A walk that can be stored -/

/-- What a walk has to say can be stored. -/
structure Tellable (cfg : TextDB.Cfg) (s : St) : Prop where
  texts : ∀ t ∈ texts s, hashOf t ≠ 0 → TextDB.CleanText t ∧ t.length ≤ 4000
  bases : ∀ r ∈ s.data.db.inherits, hashOf (inheritanceText (nameOf r.1) (nameOf r.2)) ≠ 0 ∧
    TextDB.CleanText (inheritanceText (nameOf r.1) (nameOf r.2)) ∧ (inheritanceText (nameOf r.1) (nameOf r.2)).length ≤ 4000
  fits : ∀ e ∈ primitives s, Build.Fits cfg e

theorem given_text {s : St} {t : Bytes} (h : t ∈ texts s) : Given (tell s) (nameOf t) := by
  refine .inr ⟨t, ?_, rfl⟩
  unfold interned
  rw [List.mem_flatMap]
  refine ⟨.getName (some t), ?_, by simp⟩
  unfold tell
  simp only [List.mem_append, List.mem_map]
  exact .inl (.inl (.inl ⟨t, h, rfl⟩))

theorem given_arg {s : St} {t : ScanTypes.TemplateType} (ht : t ∈ s.data.db.templateTypes) (k : Nat) :
    Given (tell s) (argEntry t.params k).type := by
  unfold argEntry
  split
  · rename_i p hp
    refine given_text ?_
    unfold texts
    simp only [List.mem_append, List.mem_flatMap]
    refine .inl (.inl (.inl (.inl (.inl (.inl (.inl (.inr ⟨t, ht, ?_⟩)))))))
    simp only [List.mem_cons, List.mem_map]
    exact .inr (.inr ⟨p, List.mem_of_getElem? hp, rfl⟩)
  · exact .inl rfl

theorem given_primitive {s : St} {e : Merge.Entry} (he : e ∈ primitives s) : ∀ n ∈ names e, Given (tell s) n := by
  intro n hn
  unfold primitives at he
  simp only [List.mem_append, List.mem_map] at he
  rcases he with (((((((⟨x, hx, rfl⟩ | ⟨x, hx, rfl⟩) | ⟨x, hx, rfl⟩) | ⟨x, hx, rfl⟩) | ⟨x, hx, rfl⟩) | ⟨x, hx, rfl⟩) | ⟨x, hx, rfl⟩) |
    ⟨x, hx, rfl⟩) | ⟨x, hx, rfl⟩
  case inr =>
    have key : ∀ t ∈ (x.attr.name :: x.parent :: match x.attr.val with
        | .prim p => [p]
        | _ => [] : List Bytes), Given (tell s) (nameOf t) := by
      intro t ht
      refine given_text ?_
      unfold texts
      simp only [List.mem_append, List.mem_flatMap]
      exact .inl (.inl (.inr ⟨x, hx, ht⟩))
    unfold attributeEntry at hn
    cases hv : x.attr.val <;> rw [hv] at hn key <;> simp only [names, List.mem_cons, List.not_mem_nil, or_false] at hn
    case prim p =>
      rcases hn with rfl | rfl | rfl
      · exact key _ (by simp)
      · exact key _ (by simp)
      · exact key _ (by simp)
    all_goals
      rcases hn with rfl | rfl
      · exact key _ (by simp)
      · exact key _ (by simp)
  case inl.inl.inl.inl.inl.inr =>
    simp only [names, instanceEntry, List.mem_cons, List.not_mem_nil, or_false] at hn
    rcases hn with rfl | rfl | rfl | rfl | rfl | rfl
    · exact given_text (by unfold texts; simp only [List.mem_append, List.mem_flatMap]
                           exact .inl (.inl (.inl (.inl (.inl (.inl (.inl (.inr ⟨x, hx, by simp⟩))))))))
    · exact given_text (by unfold texts; simp only [List.mem_append, List.mem_flatMap]
                           exact .inl (.inl (.inl (.inl (.inl (.inl (.inl (.inr ⟨x, hx, by simp⟩))))))))
    all_goals exact given_arg hx _
  case inl.inr =>
    simp only [names, fieldEntry, List.mem_cons, List.not_mem_nil, or_false] at hn
    rcases hn with rfl | rfl | rfl <;> refine given_text ?_ <;> unfold texts <;> simp only [List.mem_append, List.mem_flatMap] <;>
      exact .inl (.inl (.inl (.inr ⟨x, hx, by simp⟩)))
  all_goals
    simp only [names, namespaceEntry, classEntry, templateEntry, enumEntry, constantEntry, functionEntry, List.mem_cons,
      List.not_mem_nil, or_false] at hn
    rcases hn with rfl | rfl <;> refine given_text ?_ <;> unfold texts <;> simp only [List.mem_append, List.mem_flatMap] <;>
      first
        | exact (.inl (.inl (.inl (.inl (.inl (.inl (.inl (.inl (.inl (.inl ⟨x, hx, by simp⟩))))))))))
        | exact (.inl (.inl (.inl (.inl (.inl (.inl (.inl (.inl (.inl (.inr ⟨x, hx, by simp⟩))))))))))
        | exact (.inl (.inl (.inl (.inl (.inl (.inl (.inl (.inl (.inr ⟨x, hx, by simp⟩)))))))))
        | exact (.inl (.inl (.inl (.inl (.inl (.inl (.inl (.inr ⟨x, hx, by simp⟩))))))))
        | exact (.inl (.inl (.inl (.inl (.inl (.inl (.inr ⟨x, hx, by simp⟩)))))))
        | exact (.inl (.inl (.inl (.inl (.inl (.inr ⟨x, hx, by simp⟩))))))
        | exact (.inl (.inl (.inl (.inl (.inr ⟨x, hx, by simp⟩)))))
        | exact (.inl (.inl (.inl (.inr ⟨x, hx, by simp⟩))))
        | exact (.inl (.inl (.inr ⟨x, hx, by simp⟩)))

theorem sizes_tell (s : St) : sizes (tell s) = [] := by
  unfold sizes
  rw [List.filterMap_eq_nil_iff]
  intro c hc
  rcases tell_calls hc with ⟨_, _, rfl⟩ | ⟨_, _, rfl⟩ | ⟨_, _, rfl⟩ <;> rfl

theorem containers_tell (s : St) : Build.containers (tell s) = [] := by
  unfold Build.containers
  rw [List.filterMap_eq_nil_iff]
  intro c hc
  rcases tell_calls hc with ⟨_, _, rfl⟩ | ⟨_, _, rfl⟩ | ⟨_, _, rfl⟩ <;> rfl

/-- What a walk says, in the order of `tell`, is such as the databases ask for. -/
theorem disciplined_tell {cfg : TextDB.Cfg} {s : St} (h : Tellable cfg s) : Disciplined cfg (tell s) where
  texts := by
    intro t ht h0
    unfold interned at ht
    obtain ⟨c, hc, ht⟩ := List.mem_flatMap.1 ht
    rcases tell_calls hc with ⟨x, hx, rfl⟩ | ⟨_, _, rfl⟩ | ⟨x, hx, rfl⟩
    · obtain rfl := List.mem_singleton.1 ht
      exact h.texts _ hx h0
    · cases ht
    · obtain rfl := List.mem_singleton.1 ht
      exact (h.bases _ hx).2
  names := by
    intro e he n hn
    rw [added_tell] at he
    rcases List.mem_append.1 he with he | he
    · exact given_primitive he n hn
    · obtain ⟨c, hc, rfl⟩ := List.mem_map.1 he
      simp only [names, arrayEntry, List.mem_cons, List.not_mem_nil, or_false] at hn
      rcases hn with rfl | rfl | rfl
      · refine given_text ?_
        unfold texts
        simp only [List.mem_append, List.mem_map]
        exact .inl (.inr ⟨c, hc, rfl⟩)
      · exact .inl rfl
      · exact .inl rfl
  fits := by
    intro e he
    rw [added_tell] at he
    rcases List.mem_append.1 he with he | he
    · exact h.fits e he
    · obtain ⟨c, hc, rfl⟩ := List.mem_map.1 he
      trivial
  sizes := by rw [sizes_tell]; intro s hs; cases hs
  containers := by rw [containers_tell]; intro s hs; cases hs
  inheritances := by
    intro t ht
    rw [(told_tell s).bases] at ht
    obtain ⟨r, hr, rfl⟩ := List.mem_map.1 ht
    have hin : ∀ t ∈ [r.1, r.2], Given (tell s) (nameOf t) := by
      intro t ht
      refine given_text ?_
      unfold texts
      simp only [List.mem_append, List.mem_flatMap]
      exact .inr ⟨r, hr, ht⟩
    refine ⟨?_, hin _ (by simp), hin _ (by simp)⟩
    unfold baseEntry nameOf
    have := (h.bases r hr).1
    unfold nameOf at this
    dsimp only at this ⊢
    rw [if_neg this]
    exact this

/-- The same calls as the walk makes them. -/
def tells (s : St) : List ScanTool.Walked :=
  (tell s).attach.map fun c => ⟨c.1, by
    intro a r w k h
    rcases tell_calls c.2 with ⟨_, _, e⟩ | ⟨_, _, e⟩ | ⟨_, _, e⟩ <;> rw [e] at h <;> cases h⟩

theorem tells_tell (s : St) : (tells s).map Subtype.val = tell s := by
  refine (List.map_map (f := (_ : {c // c ∈ tell s} → ScanTool.Walked)) (g := Subtype.val)).trans ?_
  exact List.attach_map_subtype_val _

/-! ### Two files -/

/-- There are no instances of templates in them. -/
def noInstances : ScanTypes.Env := fun _ => { tname := b!"T", args := [] }

def itemX : Item := { name := b!"ns::S::x", what := .field false b!"x" (.builtin b!"int") 0 }
def itemP : Item := { name := b!"ns::S::e", what := .field false b!"e" (.pointer (.const (.enum b!"enum " b!"ns::E"))) 64 }
def itemGet : Item where
  name := b!"ns::S::get"
  what := .method false (some (.pointer (.const (.record b!"struct " b!"ns::S")))) true (.builtin b!"void") []
def itemS : Item := { name := b!"ns::S", what := .cls false true true false 0 [] 16 }

/-- `namespace ns { struct S { int x; const E* e; void get() const; }; }` -/
def declsA : Forest Item :=
  .cons (.node { name := b!"ns", what := .namespace }
    (.cons (.node itemS (.cons (.node itemX .nil) (.cons (.node itemP .nil) (.cons (.node itemGet .nil) .nil)))) .nil)) .nil

def itemE : Item := { name := b!"ns::E", what := .enum ⟨true, true⟩ [{ name := b!"A", value := 0 }, { name := b!"B", value := 1 }] }
def itemF : Item where
  name := b!"ns::f"
  what := .function true (.pointer (.record b!"struct " b!"ns::S")) [⟨b!"how", .enum b!"enum " b!"ns::E"⟩]
def itemFwd : Item := { name := b!"ns::S", what := .cls false false true false 0 [] 0 }

/-- `namespace ns { struct S; enum class E { A, B }; S* f(E how); }` -/
def declsB : Forest Item :=
  .cons (.node { name := b!"ns", what := .namespace }
    (.cons (.node itemFwd .nil) (.cons (.node itemE .nil) (.cons (.node itemF .nil) .nil)))) .nil

/-- With `clcpp_reflect(ns)` in both. -/
def fileA : CFile := ⟨⟨[.mac (.reflect b!"ns")], declsA, true⟩, noInstances, 1⟩
def fileB : CFile := ⟨⟨[.mac (.reflect b!"ns")], declsB, true⟩, noInstances, 1⟩

/-- Numbers as on Windows; elsewhere -1, the place of a return value, does not fit the text format (see C11). -/
def sourceCfg : TextDB.Cfg := { TextDB.exampleCfg with msvc := true }

/-- clscan for such files. -/
def toolEnv : ScanTool.Env (Forest Item) where
  cfg := sourceCfg
  pad := fun _ => [0, 0, 0]
  walk := fun specs ds _ => match ScanUnit.walk noInstances 1 specs ds {} with
    | some s => tells s
    | none => []

def walkOf (f : CFile) : St := (ScanUnit.walk f.env f.fuel (Scan.gather f.texts) f.src.rest {}).getD {}

theorem walkA : ScanUnit.walk fileA.env fileA.fuel (Scan.gather fileA.texts) fileA.src.rest {} = some (walkOf fileA) := by
  have : (ScanUnit.walk fileA.env fileA.fuel (Scan.gather fileA.texts) fileA.src.rest {}).isSome = true := by decide +kernel
  unfold walkOf
  rw [Option.isSome_iff_exists] at this
  obtain ⟨s, h⟩ := this
  rw [h]
  rfl

theorem walkB : ScanUnit.walk fileB.env fileB.fuel (Scan.gather fileB.texts) fileB.src.rest {} = some (walkOf fileB) := by
  have : (ScanUnit.walk fileB.env fileB.fuel (Scan.gather fileB.texts) fileB.src.rest {}).isSome = true := by decide +kernel
  unfold walkOf
  rw [Option.isSome_iff_exists] at this
  obtain ⟨s, h⟩ := this
  rw [h]
  rfl

/-- The database that clscan builds. -/
def storeOf (f : CFile) : Database :=
  match ScanTool.scanFiles toolEnv {} {} [f.src.file] with
  | .ok (g, d) => match ScanTool.addContainers d g.containers with
    | .ok d => d
    | _ => {}
  | _ => {}

theorem built_store {f : CFile} {d : Database} (h : ScanTool.Built toolEnv [f.src.file] d) : d = storeOf f := by
  obtain ⟨g, d0, h1, h2⟩ := h
  unfold storeOf
  rw [h1]
  dsimp only
  rw [h2]

/-- `Fits`, decided. -/
def fitsB : Merge.Entry → Bool
  | .namespace _ => true
  | .template _ => true
  | .function x => decide (x.address = 0)
  | .cls x => decide (x.size.toNat < 2 ^ 32)
  | .enum x => decide (x.size = 4)
  | .enumConstant _ => true
  | .field _ => true
  | _ => false

theorem fits_of {l : List Merge.Entry} (h : l.all fitsB = true) : ∀ e ∈ l, Build.Fits sourceCfg e := by
  intro e he
  have := List.all_eq_true.1 h e he
  cases e with
  | «namespace» _ => trivial
  | template _ => trivial
  | function x => exact of_decide_eq_true (p := x.address = 0) this
  | cls x => exact of_decide_eq_true (p := x.size.toNat < 2 ^ 32) this
  | enum x => exact of_decide_eq_true (p := x.size = 4) this
  | enumConstant _ => exact .inl rfl
  | field _ => exact .inl rfl
  | _ => exact absurd this Bool.false_ne_true

theorem tellableA : Tellable sourceCfg (walkOf fileA) where
  texts := by unfold TextDB.CleanText; decide +kernel
  bases := by
    have : (walkOf fileA).data.db.inherits = [] := by decide +kernel
    rw [this]
    intro r hr
    cases hr
  fits := fits_of (by decide +kernel)

theorem tellableB : Tellable sourceCfg (walkOf fileB) where
  texts := by unfold TextDB.CleanText; decide +kernel
  bases := by
    have : (walkOf fileB).data.db.inherits = [] := by decide +kernel
    rw [this]
    intro r hr
    cases hr
  fits := fits_of (by decide +kernel)

theorem fine_of {f : CFile} {l : List (List Item × Item)} (he : f.env = noInstances) (hl : f.src.rest.listing = l)
    (hf : ∀ x ∈ l, Scan.Fine f.texts (ScanUnit.info (x.2, true))) (hw : ∀ x ∈ l, ScanUnit.WellItem x.2) : f.Fine where
  named := by
    rw [he]
    exact ⟨fun _ => (by show (32 : UInt8) ∉ b!"T"; decide), fun _ => rfl, fun _ t h => (by cases h), fun _ b h => (by cases h)⟩
  items := by
    rw [hl]
    exact fun x hx => ⟨hf x hx, hw x hx⟩

theorem plain_int : ScanTypes.Plain b!"int" := ScanUnit.plain_of (by decide +kernel) (by decide +kernel)
theorem plain_void : ScanTypes.Plain b!"void" := ScanUnit.plain_of (by decide +kernel) (by decide +kernel)

theorem fineA : fileA.Fine := by
  refine fine_of rfl (l := fileA.src.rest.listing) rfl ?_ ?_
  · unfold Scan.Fine Scan.NoClash
    decide +kernel
  · intro x hx
    simp only [fileA, declsA, Forest.listing, ScanUnit.Tree.listing, List.map_cons, List.map_nil, List.append_nil, List.cons_append,
      List.nil_append, List.mem_cons, List.not_mem_nil, or_false] at hx
    rcases hx with rfl | rfl | rfl | rfl | rfl
    · trivial
    · intro b hb; cases hb
    · exact plain_int
    · exact ⟨by decide, by decide⟩
    · refine ⟨fun t ht => ?_, plain_void, fun p hp => by cases hp⟩
      obtain rfl := Option.some.inj ht
      exact ⟨by decide, by decide⟩

theorem fineB : fileB.Fine := by
  refine fine_of rfl (l := fileB.src.rest.listing) rfl ?_ ?_
  · unfold Scan.Fine Scan.NoClash
    decide +kernel
  · intro x hx
    simp only [fileB, declsB, Forest.listing, ScanUnit.Tree.listing, List.map_cons, List.map_nil, List.append_nil, List.cons_append,
      List.nil_append, List.mem_cons, List.not_mem_nil, or_false] at hx
    rcases hx with rfl | rfl | rfl | rfl
    · trivial
    · intro b hb; cases hb
    · trivial
    · refine ⟨⟨by decide, by decide⟩, fun p hp => ?_⟩
      obtain rfl := List.mem_singleton.1 hp
      exact ⟨by decide, by decide⟩

theorem walks_of {f : CFile} (he : f.env = noInstances) (hf : f.fuel = 1)
    (hw : ScanUnit.walk f.env f.fuel (Scan.gather f.texts) f.src.rest {} = some (walkOf f)) (ht : Tellable toolEnv.cfg (walkOf f)) :
    Walks toolEnv f := by
  refine ⟨walkOf f, hw, fun d => ?_⟩
  have : (toolEnv.walk (Scan.gather f.texts) f.src.rest d).map Subtype.val = tell (walkOf f) := by
    rw [he, hf] at hw
    show (match ScanUnit.walk noInstances 1 (Scan.gather f.texts) f.src.rest {} with
      | some s => tells s
      | none => []).map Subtype.val = _
    rw [hw]
    exact tells_tell _
  rw [this]
  exact ⟨told_tell _, disciplined_tell ht⟩

/-- What clscan wrote to the file. -/
def scanned (f : CFile) : Option Bytes :=
  match scanMain toolEnv [f.src.file] b!"x.csv" ⟨fun _ => none, fun _ => true⟩ with
  | .ok (0, fs) => fs.read b!"x.csv"
  | _ => none

theorem scanned_ran {f : CFile} {data : Bytes} (h : scanned f = some data) :
    ∃ after, scanMain toolEnv [f.src.file] b!"x.csv" ⟨fun _ => none, fun _ => true⟩ = .ok (0, after) ∧ after.read b!"x.csv" = some data := by
  unfold scanned at h
  split at h
  · rename_i fs hr
    exact ⟨fs, hr, h⟩
  · cases h

theorem scannedA : ∃ data, scanned fileA = some data := Option.isSome_iff_exists.1 (by decide +kernel)
theorem scannedB : ∃ data, scanned fileB = some data := Option.isSome_iff_exists.1 (by decide +kernel)

attribute [local irreducible] scanned storeOf hashOf walkOf

/-- Both files written. -/
def sourceFiles : Files where
  read := fun n => if n = b!"a.csv" then scanned fileA else if n = b!"b.csv" then scanned fileB else none
  canWrite := fun _ => true

theorem scannedTo_of {f : CFile} {name data : Bytes} (he : f.env = noInstances) (hf : f.fuel = 1) (hi : allContainers [f.src] = [])
    (hw : ScanUnit.walk f.env f.fuel (Scan.gather f.texts) f.src.rest {} = some (walkOf f)) (ht : Tellable toolEnv.cfg (walkOf f))
    (hfine : f.Fine) (hs : scanned f = some data) (hr : sourceFiles.read name = scanned f) : ScannedTo toolEnv sourceFiles f name where
  fine := hfine
  walks := walks_of he hf hw ht
  containers := by
    intro e h
    rw [hi] at h
    cases h
  ran := by
    obtain ⟨after, h1, h2⟩ := scanned_ran hs
    exact ⟨b!"x.csv", _, after, ⟨b!"x", rfl⟩, by decide, h1, by rw [h2, hr, hs]⟩

theorem readA : sourceFiles.read b!"a.csv" = scanned fileA := by
  unfold sourceFiles
  dsimp only
  rw [if_pos rfl]
theorem readB : sourceFiles.read b!"b.csv" = scanned fileB := by
  unfold sourceFiles
  dsimp only
  rw [if_neg (by decide), if_pos rfl]

theorem source_scanned : Each (ScannedTo toolEnv sourceFiles) [fileA, fileB] [b!"a.csv", b!"b.csv"] := by
  obtain ⟨a, ha⟩ := scannedA
  obtain ⟨b, hb⟩ := scannedB
  exact .cons (scannedTo_of rfl rfl rfl walkA tellableA fineA ha readA) (.cons (scannedTo_of rfl rfl rfl walkB tellableB fineB hb readB) .nil)

/-- There are no other databases in the files. -/
theorem source_inputs {dbs : List Database} (h : Inputs sourceCfg sourceFiles [b!"a.csv", b!"b.csv"] dbs) :
    dbs = [storeOf fileA, storeOf fileB] := by
  have one : ∀ {f : CFile} {name data : Bytes} {d : Database}, ScannedTo toolEnv sourceFiles f name → sourceFiles.read name = some data →
      HoldsDatabase sourceCfg d data → d = storeOf f := by
    intro f name data d hs hr hd
    obtain ⟨u, d', data', -, k1, k2, -, -, k3⟩ := scanned_holds hs
    rw [hr] at k1
    cases k1
    have e := C72_input_loaded _ _ _ hd
    rw [show sourceCfg = toolEnv.cfg from rfl, C72_input_loaded _ _ _ k2] at e
    cases e
    exact built_store k3
  cases source_scanned with
  | cons s1 t =>
    cases t with
    | cons s2 _ =>
      cases h with
      | cons r d _ t =>
        cases t with
        | cons r' d' _ t' =>
          cases t'
          rw [one s1 r d, one s2 r' d']

/-! ### What clexport asks of them -/

def sourceMerged : Database :=
  match Merge.mergeAll {} [storeOf fileA, storeOf fileB] with
  | .ok m => m
  | _ => {}

theorem source_collisions : NoCollisions [storeOf fileA, storeOf fileB] := by
  unfold NoCollisions
  exact ⟨by decide +kernel, by decide +kernel⟩

theorem source_fits : ∀ m, Merge.mergeAll {} [storeOf fileA, storeOf fileB] = .ok m → Fits sampleHost 2 m := by
  intro m hm
  have e : m = sourceMerged := by unfold sourceMerged; rw [hm]
  subst e
  exact {
    wellFormed := Export.wellFormed_of (by decide +kernel) ⟨fun _ => 0, fun _ => Nat.zero_lt_succ 1, by decide +kernel⟩
    unambiguous := Export.unambiguous_of (by decide +kernel)
    arguments := by unfold Export.Known; decide +kernel
    targets := by unfold Export.Known; decide +kernel
    owners := by
      have : sourceMerged.primitiveAttributes.length = 0 := by decide +kernel
      intro i hi
      omega
    noAlias := (alias_of (by decide +kernel)).1
    noFieldAlias := (alias_of (by decide +kernel)).2
    room := room_of (by decide +kernel) }

/-! ### The files agree on what names stand for -/

/-- All declarations of a unit come from the file. -/
theorem recordedOf_decls {f : CFile} {u : TUnit} (h : RecordedOf f u) : u.env = f.env ∧
    ∀ x ∈ u.decls, ∃ y ∈ f.src.rest.listing, x = (Scan.scopeName (y.1.map fun i => ScanUnit.info (i, true)), y.2) := by
  obtain ⟨L, s, -, hL, rfl⟩ := h
  refine ⟨rfl, fun x hx => ?_⟩
  obtain ⟨z, hz, rfl⟩ := List.mem_map.1 hx
  obtain ⟨y, hy, -, rfl⟩ := ScanUnit.reached_mem.1 (List.mem_filter.1 hz).1
  refine ⟨(y.1.map Prod.fst, y.2.1), ?_, ?_⟩
  · rw [← hL.same, ScanUnit.forest_listing_map]
    exact List.mem_map.2 ⟨y, hy, rfl⟩
  · have : ∀ l : List ScanUnit.Marked, Scan.scopeName (l.map ScanUnit.info) =
        Scan.scopeName ((l.map Prod.fst).map fun i => ScanUnit.info (i, true)) := by
      intro l
      unfold Scan.scopeName
      simp only [List.map_map, List.filter_map, List.getLast?_map, Option.map_map]
      rfl
    rw [this]

/-- Units with fewer declarations agree as well. -/
theorem oneMeaning_of {w : TUnit} {us : List TUnit} (h : ∀ u ∈ us, u.env = w.env ∧ ∀ x ∈ u.decls, x ∈ w.decls) (hw : OneMeaning [w]) :
    OneMeaning us := by
  have hm : w ∈ [w] := List.mem_singleton.2 rfl
  have hcls : ∀ u ∈ us, ∀ n, u.Class n → w.Class n := fun u hu n ⟨x, hx, r⟩ => ⟨x, (h u hu).2 x hx, r⟩
  have hmeans : ∀ u ∈ us, ∀ k n, u.Means k n → w.Means k n := by
    intro u hu k n hk
    cases k with
    | type => exact hk
    | cls => exact hcls u hu n hk
    | enum => obtain ⟨x, hx, r⟩ := hk; exact ⟨x, (h u hu).2 x hx, r⟩
    | «instance» => obtain ⟨id, r⟩ := hk; exact ⟨id, (h u hu).1 ▸ r⟩
    | _ => exact hk
  have hfun : ∀ u ∈ us, ∀ p n, u.Function p n → w.Function p n := fun u hu p n ⟨x, hx, r⟩ => ⟨x, (h u hu).2 x hx, r⟩
  have hdef : ∀ u ∈ us, ∀ n z, u.Defines n z → w.Defines n z := fun u hu n z ⟨x, hx, r⟩ => ⟨x, (h u hu).2 x hx, r⟩
  have hcon : ∀ u ∈ us, ∀ e n x, u.Constant e n x → w.Constant e n x := fun u hu e n x ⟨y, hy, r⟩ => ⟨y, (h u hu).2 y hy, r⟩
  have hfld : ∀ u ∈ us, ∀ cls n type op isConst offset, u.Field cls n type op isConst offset → w.Field cls n type op isConst offset := by
    intro u hu cls n type op isConst offset ⟨x, hx, r1, holder, t, bits, j, r2, r3, r4⟩
    exact ⟨x, (h u hu).2 x hx, r1, holder, t, bits, j, r2, (h u hu).1 ▸ r3, r4⟩
  exact {
    kinds := fun u hu v hv k l n h1 h2 => hw.kinds w hm w hm k l n (hmeans u hu k n h1) (hmeans v hv l n h2)
    functions := fun u hu v hv p n h1 => ⟨fun h2 => (hw.functions w hm w hm p n (hfun u hu p n h1)).1 (hcls v hv n h2),
      fun f type op isConst offset h2 => (hw.functions w hm w hm p n (hfun u hu p n h1)).2 f type op isConst offset (hfld v hv _ _ _ _ _ _ h2)⟩
    sizes := fun u hu v hv n z z' h1 h2 => hw.sizes w hm w hm n z z' (hdef u hu n z h1) (hdef v hv n z' h2)
    fields := fun u hu v hv cls n type op isConst offset type' op' isConst' offset' h1 h2 =>
      hw.fields w hm w hm _ _ _ _ _ _ _ _ _ _ (hfld u hu _ _ _ _ _ _ h1) (hfld v hv _ _ _ _ _ _ h2)
    constants := fun u hu v hv enum n x y h1 h2 => hw.constants w hm w hm _ _ _ _ (hcon u hu _ _ _ h1) (hcon v hv _ _ _ h2) }

/-- All declarations, with the names of the scopes they are in. -/
def allDecls : List (Bytes × Item) :=
  [([], { name := b!"ns", what := .namespace }), (b!"ns", itemS), (b!"ns::S", itemX), (b!"ns::S", itemP), (b!"ns::S", itemGet),
   (b!"ns", itemFwd), (b!"ns", itemE), (b!"ns", itemF)]

theorem in_allDecls : ∀ f ∈ [fileA, fileB], ∀ y ∈ f.src.rest.listing,
    (Scan.scopeName (y.1.map fun i => ScanUnit.info (i, true)), y.2) ∈ allDecls := by decide +kernel

/-- The kind of type that a name stands for. -/
def kindOf (n : Bytes) : Export.K :=
  if n = b!"ns::S" then .cls else if n = b!"ns::E" then .enum else if n = b!"T<>" then .instance else .type

theorem only_field {x : Bytes × Item} (hx : x ∈ allDecls) {holder : Bool} {n : Bytes} {t : ScanTypes.CType} {bits : Nat}
    (h : x.2.what = .field holder n t bits) : x = (b!"ns::S", itemX) ∨ x = (b!"ns::S", itemP) := by
  simp only [allDecls, List.mem_cons, List.not_mem_nil, or_false] at hx
  rcases hx with rfl | rfl | rfl | rfl | rfl | rfl | rfl | rfl <;> first | exact .inl rfl | exact .inr rfl | cases h

theorem only_enum {x : Bytes × Item} (hx : x ∈ allDecls) {tag cs}
    (h : x.2.what = .enum tag cs) : x = (b!"ns", itemE) := by
  simp only [allDecls, List.mem_cons, List.not_mem_nil, or_false] at hx
  rcases hx with rfl | rfl | rfl | rfl | rfl | rfl | rfl | rfl <;> first | rfl | cases h

theorem only_function {x : Bytes × Item} (hx : x ∈ allDecls) (h : IsFunction x.2) : x = (b!"ns::S", itemGet) ∨ x = (b!"ns", itemF) := by
  simp only [allDecls, List.mem_cons, List.not_mem_nil, or_false] at hx
  rcases hx with rfl | rfl | rfl | rfl | rfl | rfl | rfl | rfl <;>
    first
    | exact .inl rfl
    | exact .inr rfl
    | (rcases h with ⟨_, _, _, h⟩ | ⟨_, _, _, _, _, h⟩ <;> cases h)

theorem only_class : ∀ x ∈ allDecls, ∀ c ∈ ScanUnit.classOf x, c.1 = b!"ns::S" := by decide +kernel

theorem all_oneMeaning : OneMeaning [⟨noInstances, allDecls⟩] := by
  have hone : ∀ {P : TUnit → TUnit → Prop}, P ⟨noInstances, allDecls⟩ ⟨noInstances, allDecls⟩ →
      ∀ u ∈ [(⟨noInstances, allDecls⟩ : TUnit)], ∀ v ∈ [(⟨noInstances, allDecls⟩ : TUnit)], P u v := by
    intro P h u hu v hv
    obtain rfl := List.mem_singleton.1 hu
    obtain rfl := List.mem_singleton.1 hv
    exact h
  have hcls : ∀ n, (⟨noInstances, allDecls⟩ : TUnit).Class n → n = b!"ns::S" := by
    rintro n ⟨x, hx, c, hc, rfl⟩
    exact only_class x hx c hc
  have hfld : ∀ cls n type op isConst offset, (⟨noInstances, allDecls⟩ : TUnit).Field cls n type op isConst offset → cls = b!"ns::S" := by
    rintro cls n type op isConst offset ⟨x, hx, rfl, holder, t, bits, j, r, -⟩
    rcases only_field hx r with rfl | rfl <;> rfl
  refine ⟨hone ?_, hone ?_, hone ?_, hone ?_, hone ?_⟩
  · have key : ∀ k n, (⟨noInstances, allDecls⟩ : TUnit).Means k n → k = kindOf n := by
      intro k n h
      cases k with
      | type =>
        obtain ⟨b, hb, rfl⟩ := h
        have : ∀ b ∈ builtIn, Export.K.type = kindOf b.1 := by decide +kernel
        exact this b hb
      | cls => rw [hcls n h]; rfl
      | enum =>
        obtain ⟨x, hx, rfl, tag, cs, r⟩ := h
        rw [only_enum hx r]
        rfl
      | «instance» =>
        obtain ⟨id, r⟩ := h
        cases r with
        | inst ha => cases ha; rfl
      | _ => exact h.elim
    intro k l n h1 h2
    rw [key k n h1, key l n h2]
  · rintro p n ⟨x, hx, hf, -, rfl⟩
    have hn : x.2.name ≠ b!"ns::S" := by
      rcases only_function hx hf with rfl | rfl <;> decide
    exact ⟨fun h => hn (hcls _ h), fun f type op isConst offset h => hn (hfld _ _ _ _ _ _ h)⟩
  · have key : ∀ n z, (⟨noInstances, allDecls⟩ : TUnit).Defines n z → z = 16 := by
      rintro n z ⟨x, hx, h⟩
      simp only [allDecls, List.mem_cons, List.not_mem_nil, or_false] at hx
      rcases hx with rfl | rfl | rfl | rfl | rfl | rfl | rfl | rfl <;> first | cases h | skip
      have h : (if b!"ns::S" = n then some 16 else none) = some z := h
      by_cases hn : b!"ns::S" = n
      · rw [if_pos hn] at h
        exact (Option.some.inj h).symm
      · rw [if_neg hn] at h
        cases h
    intro n z z' h1 h2
    rw [key n z h1, key n z' h2]
    decide
  · rintro cls n type op isConst offset type' op' isConst' offset' ⟨x, hx, hx1, holder, t, bits, j, r, hj, rfl, rfl, rfl, rfl⟩
      ⟨y, hy, hy1, holder', t', bits', j', r', hj', rfl, rfl, rfl, rfl⟩
    have : t = t' ∧ bits = bits' := by
      rcases only_field hx r with rfl | rfl <;> rcases only_field hy r' with rfl | rfl <;> cases r <;> cases r' <;> exact ⟨rfl, rfl⟩
    obtain ⟨rfl, rfl⟩ := this
    rw [ScanTypes.C66_spec_deterministic t j j' hj hj']
    exact ⟨rfl, rfl, rfl, rfl⟩
  · rintro enum n v v' ⟨x, hx, -, tag, cs, r, c, hc, rfl, hn⟩ ⟨y, hy, -, tag', cs', r', c', hc', rfl, hn'⟩
    have e := only_enum hx r
    have e' := only_enum hy r'
    subst e e'
    cases r
    cases r'
    rw [hn] at hn'
    simp only [List.mem_cons, List.not_mem_nil, or_false] at hc hc'
    rcases hc with rfl | rfl <;> rcases hc' with rfl | rfl <;> first | rfl | (exfalso; revert hn'; decide)

theorem source_oneMeaning {us : List TUnit} (h : Each RecordedOf [fileA, fileB] us) : OneMeaning us := by
  refine oneMeaning_of (w := ⟨noInstances, allDecls⟩) ?_ all_oneMeaning
  have one : ∀ f ∈ [fileA, fileB], ∀ u, RecordedOf f u → u.env = noInstances ∧ ∀ x ∈ u.decls, x ∈ allDecls := by
    intro f hf u hu
    obtain ⟨h1, h2⟩ := recordedOf_decls hu
    refine ⟨?_, fun x hx => ?_⟩
    · rw [h1]
      simp only [List.mem_cons, List.not_mem_nil, or_false] at hf
      rcases hf with rfl | rfl <;> rfl
    · obtain ⟨y, hy, rfl⟩ := h2 x hx
      exact in_allDecls f hf y hy
  cases h with
  | cons ha t =>
    cases t with
    | cons hb t =>
      cases t
      intro u hu
      simp only [List.mem_cons, List.not_mem_nil, or_false] at hu
      rcases hu with rfl | rfl
      · exact one fileA (by simp) _ ha
      · exact one fileB (by simp) _ hb

/-! ### All hypotheses together -/

def sourceEnv : Env := { exampleEnv with cfg := sourceCfg }
def sourceFileEnv : FileEnv := { unitFileEnv with cfg := sourceCfg }

/-- The unit of the first file declares the class, and defines it. -/
theorem recordedA {u : TUnit} (h : RecordedOf fileA u) : u.Class b!"ns::S" ∧ u.Defines b!"ns::S" 16 := by
  obtain ⟨L, s, hw, hL, rfl⟩ := h
  have hs : s = walkOf fileA := by
    rw [walkA] at hw
    exact (Option.some.inj hw).symm
  subst hs
  have hc : (walkOf fileA).data.classes = [⟨b!"ns::S", b!"ns", false, 16⟩] := by decide +kernel
  have h1 := hL.classes
  have h2 := hL.sizes
  rw [hc] at h1 h2
  have h3 := h2 _ (List.mem_singleton.2 rfl)
  constructor
  · have hm : b!"ns::S" ∈ (ScanUnit.firsts Prod.fst ((recorded fileA.texts L).filterMap ScanUnit.classOf)).map Prod.fst := by
      rw [← h1]
      exact List.mem_singleton.2 rfl
    obtain ⟨c, hc, e⟩ := (ScanUnit.firsts_names _ _ _).1 (List.mem_map.1 hm)
    obtain ⟨x, hx, e'⟩ := List.mem_filterMap.1 hc
    exact ⟨x, hx, c, e', e⟩
  · cases hg : ((recorded fileA.texts L).filterMap (ScanUnit.sizeOf b!"ns::S")).getLast? with
    | none =>
      dsimp only at h3
      rw [hg] at h3
      cases h3
    | some z =>
      dsimp only at h3
      rw [hg] at h3
      have h3 : (16 : Nat) = z := h3
      subst h3
      obtain ⟨x, hx, e⟩ := List.mem_filterMap.1 (List.mem_of_getLast? hg)
      exact ⟨x, hx, e⟩

/-- C91: the two files are scanned, merged and exported; in memory there is the class, and its size is that of the definition. -/
example : ∃ fs1 fs2 bytes, mergeMain sourceEnv [b!"clmerge", b!"out.csv", b!"a.csv", b!"b.csv"] sourceFiles = .ok (0, fs1) ∧
    fileMain sourceFileEnv [b!"clexport", b!"out.csv", b!"-cpp", b!"out.cppbin"] fs1 = some (.ok (0, fs2)) ∧
    fs2.read b!"out.cppbin" = some bytes ∧ ∃ mem, Reloc.load 4096 0 8 false bytes = .ok (some mem) ∧
    ∃ a, getType 4096 mem (hashOf b!"ns::S") = .ok a ∧ PrimitiveAt 4096 mem 8 a .cls ⟨hashOf b!"ns::S", b!"ns::S"⟩ ∧
      read 4096 mem (a + offsetOf type b!"size") 8 = .ok 16 := by
  obtain ⟨us, h0, fs1, fs2, bytes, h1, h2, h3, h4⟩ := C91_source_to_memory_partial toolEnv sourceEnv sourceFileEnv rfl rfl sampleHost_good
    sourceFiles [fileA, fileB] [b!"clmerge", b!"out.csv", b!"a.csv", b!"b.csv"] b!"out.csv" b!"out.cppbin" [b!"a.csv", b!"b.csv"]
    source_scanned
    ⟨⟨b!"clmerge", [], rfl, .none, by unfold Plain; decide⟩, by unfold Plain; decide, by unfold Plain; decide,
      by unfold Plain; decide, by unfold Plain; decide, by decide⟩ rfl rfl [b!"clexport", b!"out.csv", b!"-cpp", b!"out.cppbin"]
    ⟨⟨b!"clexport", [], rfl, .inl rfl, by decide, by decide⟩, by decide, by decide⟩
    (fun dbs hd => by
      rw [source_inputs hd]
      exact ⟨source_collisions, source_fits⟩)
  obtain ⟨mem, h5, S⟩ := h4 4096 0 8 false (by decide) (by decide)
  have S := S (source_oneMeaning h0)
  refine ⟨fs1, fs2, bytes, h1, h2, h3, mem, h5, ?_⟩
  cases h0 with
  | @cons _ u _ us hu _ =>
    obtain ⟨c1, c2⟩ := recordedA hu
    obtain ⟨a, g1, -, g2⟩ := S.types u List.mem_cons_self .cls (by decide) b!"ns::S" ⟨c1, fun h => by cases h⟩
    exact ⟨a, g1, g2, S.sizes u List.mem_cons_self _ _ c1 c2 a g1⟩

/-- The database of the first file: `S` is a struct in `ns`, of 16 bytes. -/
example : ∃ d data, sourceFiles.read b!"a.csv" = some data ∧ HoldsDatabase sourceCfg d data ∧
    ({ name := nameOf b!"ns::S", parent := nameOf b!"ns", size := 16, isClass := false } : Class) ∈ d.classes := by
  have hA : ScannedTo toolEnv sourceFiles fileA b!"a.csv" := by
    cases source_scanned with
    | cons h _ => exact h
  obtain ⟨L, s, d, data, hw, hL, h3, h4, R⟩ := C91_database_partial toolEnv sourceFiles fileA b!"a.csv" hA
  have hs : s = walkOf fileA := by
    rw [walkA] at hw
    exact (Option.some.inj hw).symm
  subst hs
  have hc : (walkOf fileA).data.classes = [⟨b!"ns::S", b!"ns", false, 16⟩] := by decide +kernel
  have h1 := hL.classes
  have h2 := hL.sizes
  rw [hc] at h1 h2
  have h5 := h2 _ (List.mem_singleton.2 rfl)
  refine ⟨d, data, h3, h4, (R.classes _).2 ⟨(b!"ns::S", b!"ns", false), by rw [← h1]; exact List.mem_singleton.2 rfl, rfl, rfl, rfl, ?_⟩⟩
  dsimp only at h5
  rw [← h5]
  rfl

end Clr.ScanStore
