import Verif.Model.Tools
import Verif.Proofs.MergeStorable
import Verif.Props.BinDB
import Verif.Props.Arguments
/-!
Property C72: what a run of clmerge leaves behind.
-/
namespace Clr.Tools
open Clr.DB Clr.Args Clr.Merge

attribute [local irreducible] hashOf

/-! ### Specification -/

/-- The contents are the database, as text or as a binary file (which can hold no attributes), and the
database's values fit the format. -/
inductive HoldsDatabase (cfg : TextDB.Cfg) (db : Database) : Bytes → Prop where
  | text (h : TextDB.Storable cfg db) : HoldsDatabase cfg db (TextDB.writeText cfg db)
  | binary (pad : Field → Bytes) (hpad : ∀ x, (pad x).length = 3) (file : Bytes) (h : BinDB.Storable db)
      (hn : BinDB.NoAttributes db) (hw : BinDB.writeBinary 8 pad db = .ok file) : HoldsDatabase cfg db file

/-- The codegen options, in any order, and the file names given with them (empty: not given). -/
inductive Options : List Bytes → Bytes → Bytes → Prop where
  | none : Options [] [] []
  | cpp (c : Bytes) : c ≠ [] → Options [b!"-cpp_codegen", c] c []
  | h (h : Bytes) : h ≠ [] → Options [b!"-h_codegen", h] [] h
  | cppH (c h : Bytes) : c ≠ [] → h ≠ [] → Options [b!"-cpp_codegen", c, b!"-h_codegen", h] c h
  | hCpp (c h : Bytes) : c ≠ [] → h ≠ [] → Options [b!"-h_codegen", h, b!"-cpp_codegen", c] c h

/-- Not the name of an option. -/
def Plain (a : Bytes) : Prop := a ≠ b!"-cpp_codegen" ∧ a ≠ b!"-h_codegen"

/-- A command line as the manual has it: program, output, options, inputs. -/
structure CommandLine (args : List Bytes) (out cpp h : Bytes) (inputs : List Bytes) : Prop where
  shape : ∃ prog opts, args = prog :: out :: (opts ++ inputs) ∧ Options opts cpp h ∧ Plain prog
  plainOut : Plain out
  plainCpp : Plain cpp
  plainH : Plain h
  plainInputs : ∀ i ∈ inputs, Plain i
  notEmpty : inputs ≠ []

/-- The inputs exist and are, in this order, these databases. -/
inductive Inputs (cfg : TextDB.Cfg) (fs : Files) : List Bytes → List Database → Prop where
  | nil : Inputs cfg fs [] []
  | cons {name data db names dbs} : fs.read name = some data → HoldsDatabase cfg db data → TextDB.Storable cfg db →
      Inputs cfg fs names dbs → Inputs cfg fs (name :: names) (db :: dbs)

/-- Names are under the hash of their text, and no two texts share a hash. -/
def NoCollisions (dbs : List Database) : Prop :=
  (∀ d ∈ dbs, ∀ n ∈ d.names, n.hash = hashOf n.text) ∧
  ∀ d ∈ dbs, ∀ d' ∈ dbs, ∀ n ∈ d.names, ∀ m ∈ d'.names, hashOf n.text = hashOf m.text → n.text = m.text

/-! ### Reading the inputs -/

theorem writeText_head (cfg : TextDB.Cfg) (db : Database) :
    ∃ rest, TextDB.writeText cfg db = b!"\nclReflect Database\n" ++ rest := by
  unfold TextDB.writeText TextDB.fileLines
  exact ⟨_, rfl⟩

theorem text_not_binary (cfg : TextDB.Cfg) (db : Database) :
    BinDB.isBinary (some (TextDB.writeText cfg db)) = .ok false := by
  obtain ⟨rest, hr⟩ := writeText_head cfg db
  rw [BinDB.C13_recognised_iff _ (by rw [hr]; simp), hr]
  rfl

theorem readBinary_not {file : Bytes} {db : Database} (h : BinDB.isBinary (some file) = .ok false) :
    BinDB.readBinary 8 (some file) db = .ok (false, db) := by
  unfold BinDB.readBinary
  rw [h]
  rfl

theorem load_text {cfg : TextDB.Cfg} {db : Database} (h : TextDB.Storable cfg db) :
    loadDatabase cfg (some (TextDB.writeText cfg db)) = .ok (some db) := by
  unfold loadDatabase
  rw [readBinary_not (text_not_binary cfg db)]
  simp only [Res.bind_ok, Bool.false_eq_true, if_false]
  rw [TextDB.C11_text_roundtrip_partial cfg db h]
  rfl

/-- C72: a file that holds a database, text or binary, is loaded as that database. -/
theorem C72_input_loaded (cfg : TextDB.Cfg) (db : Database) (data : Bytes) (h : HoldsDatabase cfg db data) :
    loadDatabase cfg (some data) = .ok (some db) := by
  cases h with
  | text h => exact load_text h
  | binary pad hpad file h hn hw =>
    obtain ⟨f, h1, h2⟩ := BinDB.C13_binary_roundtrip_partial 8 pad hpad db h (.inr hn)
    rw [hw] at h1
    injection h1 with h1
    subst h1
    unfold loadDatabase
    rw [h2]
    rfl

/-! ### The merge -/

theorem storable_named {cfg : TextDB.Cfg} {s : Database} (h : TextDB.Storable cfg s) :
    ∀ e, s.Has e → e.name.hash ≠ 0 := by
  intro e he
  cases e with
  | «namespace» x => exact (h.namespaces_ok x he).1
  | type x => exact (h.types_ok x he).1
  | enum x => exact (h.enums_ok x he).1
  | template x => exact (h.templates_ok x he).1
  | templateType x => exact (h.templateTypes_ok x he).1
  | cls x => exact (h.classes_ok x he).1
  | containerInfo x => exact (h.containerInfos_ok x he).1
  | inheritance x => exact (h.inheritances_ok x he).1
  | enumConstant x => exact (h.enumConstants_ok x he).1
  | function x => exact (h.functions_ok x he).1
  | field x => exact (h.fields_ok x he).1
  | flagAttribute x => exact (h.flagAttributes_ok x he).1
  | intAttribute x => exact (h.intAttributes_ok x he).1
  | floatAttribute x => exact (h.floatAttributes_ok x he).1
  | primitiveAttribute x => exact (h.primitiveAttributes_ok x he).1
  | textAttribute x => exact (h.textAttributes_ok x he).1

theorem mergeFiles_ok {cfg : TextDB.Cfg} {fs : Files} {names : List Bytes} {dbs : List Database}
    (h : Inputs cfg fs names dbs) : ∀ dest, TextDB.Storable cfg dest → NoCollisions (dest :: dbs) →
    ∃ m, mergeFiles cfg fs dest names = .ok (some m) ∧ mergeAll dest dbs = .ok m ∧ TextDB.Storable cfg m ∧
      TextDB.NamesHashed m.names := by
  induction h with
  | nil => intro dest hs hc; exact ⟨dest, rfl, rfl, hs, hc.1 dest (by simp)⟩
  | @cons name data db names dbs hr hd hst hrest ih =>
    intro dest hs hc
    have hl := C72_input_loaded cfg db data hd
    have nd : TextDB.NamesHashed dest.names := hc.1 dest (by simp)
    have ns : TextDB.NamesHashed db.names := hc.1 db (by simp)
    obtain ⟨r, hm⟩ := C07_merge_goes_through dest db (storable_named hst) nd (by
      intro n hn m hm
      rcases hm with hm | hm
      · exact hc.2 db (by simp) dest (by simp) n hn m hm
      · exact hc.2 db (by simp) db (by simp) n hn m hm)
    have hr' := TextDB.merge_storable hm hs hst nd ns
    have t := (merge_iff_tables dest db r).mp hm
    have hmem : ∀ n ∈ r.names, ∃ d ∈ [dest, db], ∃ m ∈ d.names, n.text = m.text := by
      intro n hn
      rcases mergeNames_mem t.names n hn with h | ⟨m, hm, h1, _⟩
      · exact ⟨dest, by simp, n, h, rfl⟩
      · exact ⟨db, by simp, m, hm, h1⟩
    have lift : ∀ d ∈ r :: dbs, ∀ n ∈ d.names, ∃ d' ∈ dest :: db :: dbs, ∃ m ∈ d'.names, n.text = m.text := by
      intro d hd' n hn
      rcases List.mem_cons.mp hd' with rfl | hd'
      · obtain ⟨d', h1, m, h2, h3⟩ := hmem n hn
        exact ⟨d', by simp at h1 ⊢; rcases h1 with h1 | h1 <;> simp [h1], m, h2, h3⟩
      · exact ⟨d, by simp [hd'], n, hn, rfl⟩
    obtain ⟨m, h1, h2, h3, h4⟩ := ih r hr' ⟨by
        intro d hd'
        rcases List.mem_cons.mp hd' with rfl | hd'
        · exact TextDB.mergeNames_hashed t.names nd
        · exact hc.1 d (by simp [hd']), by
        intro d hd1 d' hd2 n hn n' hn' he
        obtain ⟨e, he1, k, hk1, hk2⟩ := lift d hd1 n hn
        obtain ⟨e', he1', k', hk1', hk2'⟩ := lift d' hd2 n' hn'
        rw [hk2, hk2'] at he ⊢
        exact hc.2 e he1 e' he1' k hk1 k' hk1' he⟩
    refine ⟨m, ?_, ?_, h3, h4⟩
    · rw [mergeFiles, hr, hl]
      simp only [Res.bind_ok]
      rw [hm]
      exact h1
    · rw [mergeAll, hm]
      exact h2

/-! ### The command line -/

theorem getIndexOf_cons (a : Bytes) (args : List Bytes) (arg : Bytes) :
    getIndexOf (a :: args) arg 0 = if a = arg then some 0 else (getIndexOf args arg 0).map (· + 1) := by
  have key : ∀ (l : List Bytes) (i : Nat), indexLoop arg 0 l (i + 1) 0 = (indexLoop arg 0 l i 0).map (· + 1) := by
    intro l
    induction l with
    | nil => intro i; rfl
    | cons b l ih =>
      intro i
      simp only [indexLoop]
      split
      · rfl
      · exact ih (i + 1)
  unfold getIndexOf
  simp only [indexLoop]
  split
  · rfl
  · exact key args 0

theorem getProperty_skip (a : Bytes) (args : List Bytes) (arg : Bytes) (h : a ≠ arg) :
    getProperty (a :: args) arg 0 = getProperty args arg 0 := by
  unfold getProperty
  rw [getIndexOf_cons, if_neg h]
  cases hx : getIndexOf args arg 0 with
  | none => rfl
  | some i =>
    simp only [Option.map_some, List.length_cons, List.getD_cons_succ]
    by_cases hi : i + 1 ≥ args.length
    · rw [if_pos (by omega), if_pos hi]
    · rw [if_neg (by omega), if_neg hi]

theorem getProperty_here (arg v : Bytes) (args : List Bytes) : getProperty (arg :: v :: args) arg 0 = v := by
  unfold getProperty
  rw [getIndexOf_cons, if_pos rfl]
  simp

theorem getProperty_none (args : List Bytes) (arg : Bytes) (h : ∀ a ∈ args, a ≠ arg) : getProperty args arg 0 = [] := by
  induction args with
  | nil => rfl
  | cons a args ih =>
    rw [getProperty_skip a args arg (h a (by simp))]
    exact ih (fun x hx => h x (by simp [hx]))

theorem command_line {args : List Bytes} {out cpp h : Bytes} {inputs : List Bytes} (hc : CommandLine args out cpp h inputs) :
    getProperty args b!"-cpp_codegen" = cpp ∧ getProperty args b!"-h_codegen" = h ∧ 3 ≤ args.length ∧
    args.getD 1 [] = out ∧ args.drop (argStart args) = inputs := by
  obtain ⟨prog, opts, rfl, ho, hp⟩ := hc.shape
  have hi1 : getProperty inputs b!"-cpp_codegen" 0 = [] := getProperty_none _ _ fun a ha => (hc.plainInputs a ha).1
  have hi2 : getProperty inputs b!"-h_codegen" 0 = [] := getProperty_none _ _ fun a ha => (hc.plainInputs a ha).2
  have ne : (b!"-h_codegen" : Bytes) ≠ b!"-cpp_codegen" := by decide
  have hlen : 3 ≤ (prog :: out :: (opts ++ inputs)).length := by
    have := List.length_pos_iff.mpr hc.notEmpty
    simp only [List.length_cons, List.length_append]; omega
  have hstart : ∀ c' h', getProperty (prog :: out :: (opts ++ inputs)) b!"-cpp_codegen" 0 = c' →
      getProperty (prog :: out :: (opts ++ inputs)) b!"-h_codegen" 0 = h' →
      argStart (prog :: out :: (opts ++ inputs)) = 2 + (if c' ≠ [] then 2 else 0) + (if h' ≠ [] then 2 else 0) := by
    rintro c' h' rfl rfl; rfl
  have q1 : getProperty (prog :: out :: (opts ++ inputs)) b!"-cpp_codegen" 0 = getProperty (opts ++ inputs) b!"-cpp_codegen" 0 := by
    rw [getProperty_skip _ _ _ hp.1, getProperty_skip _ _ _ hc.plainOut.1]
  have q2 : getProperty (prog :: out :: (opts ++ inputs)) b!"-h_codegen" 0 = getProperty (opts ++ inputs) b!"-h_codegen" 0 := by
    rw [getProperty_skip _ _ _ hp.2, getProperty_skip _ _ _ hc.plainOut.2]
  cases ho with
  | none =>
    have p1 := q1.trans hi1
    have p2 := q2.trans hi2
    exact ⟨p1, p2, hlen, rfl, by rw [hstart _ _ p1 p2]; rfl⟩
  | cpp c hne =>
    have p1 := q1.trans (getProperty_here _ _ _)
    have p2 := q2.trans ((getProperty_skip _ _ _ ne.symm).trans ((getProperty_skip _ _ _ hc.plainCpp.2).trans hi2))
    exact ⟨p1, p2, hlen, rfl, by rw [hstart _ _ p1 p2, if_pos hne, if_neg (by simp)]; rfl⟩
  | h c hne =>
    have p2 := q2.trans (getProperty_here _ _ _)
    have p1 := q1.trans ((getProperty_skip _ _ _ ne).trans ((getProperty_skip _ _ _ hc.plainH.1).trans hi1))
    exact ⟨p1, p2, hlen, rfl, by rw [hstart _ _ p1 p2, if_pos hne, if_neg (by simp)]; rfl⟩
  | cppH c c' h1 h2 =>
    have p1 := q1.trans (getProperty_here _ _ _)
    have p2 := q2.trans ((getProperty_skip _ _ _ ne.symm).trans ((getProperty_skip _ _ _ hc.plainCpp.2).trans (getProperty_here _ _ _)))
    exact ⟨p1, p2, hlen, rfl, by rw [hstart _ _ p1 p2, if_pos h1, if_pos h2]; rfl⟩
  | hCpp c c' h1 h2 =>
    have p2 := q2.trans (getProperty_here _ _ _)
    have p1 := q1.trans ((getProperty_skip _ _ _ ne).trans ((getProperty_skip _ _ _ hc.plainH.1).trans (getProperty_here _ _ _)))
    exact ⟨p1, p2, hlen, rfl, by rw [hstart _ _ p1 p2, if_pos h1, if_pos h2]; rfl⟩

/-! ### C72 -/

theorem noCollisions_empty {dbs : List Database} (hcol : NoCollisions dbs) : NoCollisions (({} : Database) :: dbs) := by
  refine ⟨?_, ?_⟩
  · intro d hd
    rcases List.mem_cons.mp hd with rfl | hd
    · intro n hn; cases hn
    · exact hcol.1 d hd
  · intro d hd d' hd' n hn m hm
    rcases List.mem_cons.mp hd with rfl | hd
    · cases hn
    · rcases List.mem_cons.mp hd' with rfl | hd'
      · cases hm
      · exact hcol.2 d hd d' hd' n hn m hm

/-- C72, partial: given readable databases, clmerge ends with exit code 0 and the output file holds, as text, the
merge of all inputs in the order given; it can be an input again. All other files are untouched unless code is
generated. Partial: asks for names without hash collisions and for values that fit the file format (`Storable`,
see C11), and for an output that can be written (`C72_unwritable_output_undefined`). -/
theorem C72_output_is_the_merge_partial (env : Env) (fs : Files) (args : List Bytes) (out cpp h : Bytes)
    (inputs : List Bytes) (dbs : List Database) (hc : CommandLine args out cpp h inputs)
    (hin : Inputs env.cfg fs inputs dbs) (hcol : NoCollisions dbs) (hw : fs.canWrite out = true)
    (hgen : cpp ≠ [] ∨ h ≠ [] → ∀ db fs1, ∃ fs2, env.codegen cpp h db fs1 = .ok fs2 ∧ fs2.read out = fs1.read out) :
    ∃ m fs', mergeMain env args fs = .ok (0, fs') ∧ mergeAll {} dbs = .ok m ∧
      (∃ data, fs'.read out = some data ∧ HoldsDatabase env.cfg m data) ∧ TextDB.Storable env.cfg m ∧
      NoCollisions [m] ∧ (cpp = [] → h = [] → (∀ n, n ≠ out → fs'.read n = fs.read n) ∧ fs'.canWrite = fs.canWrite) := by
  obtain ⟨p1, p2, p3, p4, p5⟩ := command_line hc
  obtain ⟨m, h1, h2, h3, h4⟩ := mergeFiles_ok hin {} (TextDB.empty_storable _) (noCollisions_empty hcol)
  have hnc : NoCollisions [m] := by
    refine ⟨fun d hd => by rw [List.mem_singleton.mp hd]; exact h4, ?_⟩
    intro d hd d' hd' n hn n' hn' he
    rw [List.mem_singleton.mp hd] at hn
    rw [List.mem_singleton.mp hd'] at hn'
    have e1 : n.hash = n'.hash := by rw [h4 n hn, h4 n' hn', he]
    have g1 := (h3.namesOk).get (.inr hn)
    have g2 := (h3.namesOk).get (.inr hn')
    rw [e1] at g1
    rw [g2] at g1
    rw [g1]
  have hw' : writeDatabase env.cfg fs out m = .ok (fs.write out (TextDB.writeText env.cfg m)) := by
    unfold writeDatabase; rw [if_pos hw]
  have hself : (fs.write out (TextDB.writeText env.cfg m)).read out = some (TextDB.writeText env.cfg m) := by
    simp [Files.write]
  have hmain : mergeMain env args fs = (if cpp ≠ [] ∨ h ≠ [] then
      (env.codegen cpp h m (fs.write out (TextDB.writeText env.cfg m))).bind fun fs => .ok (0, fs)
      else .ok (0, fs.write out (TextDB.writeText env.cfg m))) := by
    unfold mergeMain
    rw [if_neg (by omega), p5, h1]
    simp only [Res.bind_ok, p1, p2, p4, hw']
    rfl
  by_cases hg : cpp ≠ [] ∨ h ≠ []
  · obtain ⟨fs2, g1, g2⟩ := hgen hg m (fs.write out (TextDB.writeText env.cfg m))
    refine ⟨m, fs2, ?_, h2, ⟨_, g2.trans hself, .text h3⟩, h3, hnc, ?_⟩
    · rw [hmain, if_pos hg, g1]; rfl
    · intro e1 e2; exact absurd hg (by simp [e1, e2])
  · refine ⟨m, _, ?_, h2, ⟨_, hself, .text h3⟩, h3, hnc, ?_⟩
    · rw [hmain, if_neg hg]
    · intro _ _
      exact ⟨fun n hn => by simp [Files.write, hn], rfl⟩

/-- C72: what is in the output came from an input, and what an input has is, by kind and name, in the output. -/
theorem C72_every_symbol (dbs : List Database) : ∀ (d m : Database), mergeAll d dbs = .ok m →
    (∀ e, m.Has e → d.Has e ∨ ∃ s ∈ dbs, s.Has e) ∧
    (∀ k n, d.HasName k n ∨ (∃ s ∈ dbs, s.HasName k n) → m.HasName k n) := by
  induction dbs with
  | nil =>
    intro d m h
    simp only [mergeAll, Res.ok.injEq] at h
    subst h
    exact ⟨fun e he => .inl he, fun k n hk => by rcases hk with hk | ⟨s, hs, _⟩; exact hk; cases hs⟩
  | cons s ss ih =>
    intro d m h
    rw [mergeAll, Res.bind_eq_ok] at h
    obtain ⟨r, h1, h2⟩ := h
    obtain ⟨i1, i2⟩ := ih r m h2
    refine ⟨?_, ?_⟩
    · intro e he
      rcases i1 e he with he | ⟨x, hx, he⟩
      · rcases C07_nothing_invented d s r h1 e he with he | he
        · exact .inl he
        · exact .inr ⟨s, by simp, he⟩
      · exact .inr ⟨x, by simp [hx], he⟩
    · intro k n hk
      apply i2
      rcases hk with ⟨e, he, ek, en⟩ | ⟨x, hx, hxn⟩
      · rcases C06_destination_kept d s r h1 e he with hr | ⟨c, c', rfl, _, _, hn, _, hr⟩
        · exact .inl ⟨e, hr, ek, en⟩
        · exact .inl ⟨.cls c', hr, ek, by rw [← en]; exact hn⟩
      · rcases List.mem_cons.mp hx with rfl | hx
        · obtain ⟨e, he, ek, en⟩ := hxn
          have := C07_source_names_present d x r h1 e he
          rw [ek, en] at this
          exact .inl this
        · exact .inr ⟨x, hx, hxn⟩

theorem mergeFiles_none {cfg : TextDB.Cfg} {fs : Files} : ∀ {names : List Bytes} {dest : Database},
    mergeFiles cfg fs dest names = .ok none → ∃ n ∈ names, loadDatabase cfg (fs.read n) = .ok none := by
  intro names
  induction names with
  | nil => intro dest h; cases h
  | cons n names ih =>
    intro dest h
    rw [mergeFiles, Res.bind_eq_ok] at h
    obtain ⟨a, h1, h2⟩ := h
    cases a with
    | none => exact ⟨n, by simp, h1⟩
    | some db =>
      simp only [Res.bind_eq_ok] at h2
      obtain ⟨r, _, h4⟩ := h2
      obtain ⟨x, hx, hl⟩ := ih h4
      exact ⟨x, by simp [hx], hl⟩

theorem mergeFiles_some {cfg : TextDB.Cfg} {fs : Files} : ∀ {names : List Bytes} {dest m : Database},
    mergeFiles cfg fs dest names = .ok (some m) →
    ∃ dbs, mergeAll dest dbs = .ok m ∧ names.map (fun n => loadDatabase cfg (fs.read n)) = dbs.map fun d => .ok (some d) := by
  intro names
  induction names with
  | nil => intro dest m h; injection h with h; injection h with h; subst h; exact ⟨[], rfl, rfl⟩
  | cons n names ih =>
    intro dest m h
    rw [mergeFiles, Res.bind_eq_ok] at h
    obtain ⟨a, h1, h2⟩ := h
    cases a with
    | none => cases h2
    | some db =>
      simp only [Res.bind_eq_ok] at h2
      obtain ⟨r, h3, h4⟩ := h2
      obtain ⟨dbs, h5, h6⟩ := ih h4
      exact ⟨db :: dbs, by rw [mergeAll, h3]; exact h5, by rw [List.map_cons, List.map_cons, h1, h6]⟩

/-- C72: whatever the arguments and files, a run that ends with an exit code other than 0 has the exit code 1 and has
touched no file, and a run that ends with 0 has loaded every input and written their merge. -/
theorem C72_exit_code (env : Env) (fs fs' : Files) (args : List Bytes) (code : Nat)
    (h : mergeMain env args fs = .ok (code, fs')) :
    (code = 0 ∨ (code = 1 ∧ fs' = fs ∧ (args.length < 3 ∨
      ∃ n ∈ args.drop (argStart args), loadDatabase env.cfg (fs.read n) = .ok none))) ∧
    (code = 0 → ∃ dbs m fs1, mergeAll {} dbs = .ok m ∧
      (args.drop (argStart args)).map (fun n => loadDatabase env.cfg (fs.read n)) = dbs.map (fun d => .ok (some d)) ∧
      fs1 = fs.write (args.getD 1 []) (TextDB.writeText env.cfg m) ∧ fs.canWrite (args.getD 1 []) = true ∧
      (fs' = fs1 ∨ env.codegen (getProperty args b!"-cpp_codegen") (getProperty args b!"-h_codegen") m fs1 = .ok fs')) := by
  unfold mergeMain at h
  by_cases hl : args.length < 3
  · rw [if_pos hl] at h
    simp only [Res.ok.injEq, Prod.mk.injEq] at h
    obtain ⟨rfl, rfl⟩ := h
    exact ⟨.inr ⟨rfl, rfl, .inl hl⟩, by simp⟩
  · rw [if_neg hl, Res.bind_eq_ok] at h
    obtain ⟨o, h1, h2⟩ := h
    cases o with
    | none =>
      simp only [Res.pure_eq, Res.ok.injEq, Prod.mk.injEq] at h2
      obtain ⟨rfl, rfl⟩ := h2
      exact ⟨.inr ⟨rfl, rfl, .inr (mergeFiles_none h1)⟩, by simp⟩
    | some m =>
      simp only [Res.bind_eq_ok] at h2
      obtain ⟨fs1, h3, h4⟩ := h2
      obtain ⟨dbs, h5, h6⟩ := mergeFiles_some h1
      unfold writeDatabase at h3
      split at h3
      · rename_i hw
        injection h3 with h3
        subst h3
        by_cases hg : getProperty args b!"-cpp_codegen" ≠ [] ∨ getProperty args b!"-h_codegen" ≠ []
        · rw [if_pos hg] at h4
          rw [Res.bind_eq_ok] at h4
          obtain ⟨fs2, h7, h8⟩ := h4
          simp only [Res.pure_eq, Res.ok.injEq, Prod.mk.injEq] at h8
          obtain ⟨rfl, rfl⟩ := h8
          exact ⟨.inl rfl, fun _ => ⟨dbs, m, _, h5, h6, rfl, hw, .inr h7⟩⟩
        · rw [if_neg hg] at h4
          simp only [Res.pure_eq, Res.ok.injEq, Prod.mk.injEq] at h4
          obtain ⟨rfl, rfl⟩ := h4
          exact ⟨.inl rfl, fun _ => ⟨dbs, m, _, h5, h6, rfl, hw, .inl rfl⟩⟩
      · cases h3

/-- C72: a run with an input that does not exist never ends with the exit code 0. -/
theorem C72_missing_input (env : Env) (fs fs' : Files) (args : List Bytes) (n : Bytes)
    (hn : n ∈ args.drop (argStart args)) (hm : fs.read n = none) : mergeMain env args fs ≠ .ok (0, fs') := by
  intro h
  obtain ⟨dbs, m, fs1, _, h2, _⟩ := (C72_exit_code env fs fs' args 0 h).2 rfl
  have hx : loadDatabase env.cfg (fs.read n) ∈ dbs.map fun d => Res.ok (some d) := by
    rw [← h2]; exact List.mem_map_of_mem hn
  rw [hm] at hx
  obtain ⟨d, _, hd⟩ := List.mem_map.mp hx
  cases hd

/-! ### Where the program disagrees -/

/-- The file system with two files, all of it writable. -/
def twoFiles (a da b db : Bytes) : Files :=
  { read := fun n => if n = a then some da else if n = b then some db else none, canWrite := fun _ => true }

def exampleEnv : Env := { cfg := TextDB.exampleCfg, codegen := fun _ _ _ fs => .ok fs }

/-- C72: an output that can not be opened for writing is written to nevertheless: undefined, not an exit code. -/
theorem C72_unwritable_output_undefined (env : Env) (fs : Files) (args : List Bytes) (out cpp h : Bytes)
    (inputs : List Bytes) (dbs : List Database) (hc : CommandLine args out cpp h inputs)
    (hin : Inputs env.cfg fs inputs dbs) (hcol : NoCollisions dbs) (hw : fs.canWrite out = false) :
    mergeMain env args fs = .ub := by
  obtain ⟨_, _, p3, p4, p5⟩ := command_line hc
  obtain ⟨m, h1, _⟩ := mergeFiles_ok hin {} (TextDB.empty_storable _) (noCollisions_empty hcol)
  unfold mergeMain
  rw [if_neg (by omega), p5, h1]
  simp only [Res.bind_ok, p4, writeDatabase, hw]
  rfl

/-- What a run leaves: the exit code and one file. -/
def left (r : Res (Nat × Files)) (name : Bytes) : Res (Nat × Option Bytes) := r.map fun x => (x.1, x.2.read name)

theorem left_of_merge {args : List Bytes} {fs : Files} {m : Database} (hl : 3 ≤ args.length)
    (hm : mergeFiles TextDB.exampleCfg fs {} (args.drop (argStart args)) = .ok (some m)) (hw : fs.canWrite (args.getD 1 []) = true) :
    left (mergeMain exampleEnv args fs) (args.getD 1 []) = .ok (0, some (TextDB.writeText TextDB.exampleCfg m)) := by
  have hself : (fs.write (args.getD 1 []) (TextDB.writeText TextDB.exampleCfg m)).read (args.getD 1 []) =
      some (TextDB.writeText TextDB.exampleCfg m) := by simp [Files.write]
  unfold mergeMain
  rw [if_neg (by omega), show exampleEnv.cfg = TextDB.exampleCfg from rfl, hm]
  simp only [Res.bind_ok, writeDatabase, hw, if_true]
  split
  · simp only [exampleEnv, Res.bind_ok, Res.pure_eq, left, Res.map, hself]
  · simp only [Res.pure_eq, left, Res.map, hself]

/-- C72: "fails unless every input is a database" is false: any file with at least 8 characters and no line that
starts with `Format Version: ` is taken for an empty database. -/
theorem C72_any_file_false :
    left (mergeMain exampleEnv [b!"clmerge", b!"out.csv", b!"main.cpp"] (twoFiles b!"main.cpp" b!"int main() {}\n" [] [])) b!"out.csv" =
      .ok (0, some (TextDB.writeText TextDB.exampleCfg {})) :=
  left_of_merge (by decide) (by decide +kernel) rfl

/-- C72: and a file with fewer than 8 characters is undefined behaviour: the header is compared uninitialised. -/
theorem C72_short_file_undefined (env : Env) (fs : Files) (out name data : Bytes) (h : fs.read name = some data)
    (hl : data.length < 8) (hn : Plain name) (ho : Plain out) : mergeMain env [b!"clmerge", out, name] fs = .ub := by
  have hc : CommandLine [b!"clmerge", out, name] out [] [] [name] :=
    ⟨⟨b!"clmerge", [], rfl, .none, by unfold Plain; decide⟩, ho, by unfold Plain; decide, by unfold Plain; decide,
      by simpa using hn, by simp⟩
  obtain ⟨_, _, _, _, p5⟩ := command_line hc
  have hb : BinDB.isBinary (some data) = .ub := by
    unfold BinDB.isBinary BinDB.readU32 BinDB.readN
    match data, hl with
    | [], _ => rfl
    | [_], _ => rfl
    | [_, _], _ => rfl
    | [_, _, _], _ => rfl
    | [_, _, _, _], _ => rfl
    | [_, _, _, _, _], _ => rfl
    | [_, _, _, _, _, _], _ => rfl
    | [_, _, _, _, _, _, _], _ => rfl
    | _ :: _ :: _ :: _ :: _ :: _ :: _ :: _ :: _, hl => simp at hl; omega
  have hload : loadDatabase env.cfg (some data) = .ub := by
    unfold loadDatabase BinDB.readBinary
    rw [hb]
    rfl
  unfold mergeMain
  rw [if_neg (by simp), p5, mergeFiles, h, hload]
  rfl

/-- A database with one class. -/
def classDatabase : Database := { names := [TextDB.nm b!"A"], classes := [{ name := TextDB.nm b!"A", size := 4 }] }

theorem class_storable : TextDB.Storable TextDB.exampleCfg classDatabase := by
  constructor <;> (try unfold TextDB.SortedLe) <;>
    (try simp only [TextDB.KnownPrim, TextDB.Known, TextDB.CleanText, TextDB.Cfg.IntOk, TextDB.Cfg.FloatOk, TextDB.ArgsOk]) <;>
    decide +kernel

/-- C72: options have to be given in front of the inputs, which is not checked. Here the input is in front of the
option: it is dropped, the file with the generated code is read instead as an empty database, and the exit code is 0. -/
theorem C72_option_behind_input_false :
    left (mergeMain exampleEnv [b!"clmerge", b!"out.csv", b!"a.csv", b!"-cpp_codegen", b!"gen.cpp"]
        (twoFiles b!"a.csv" (TextDB.writeText TextDB.exampleCfg classDatabase) b!"gen.cpp" b!"#include <clcpp/clcpp.h>\n"))
      b!"out.csv" = .ok (0, some (TextDB.writeText TextDB.exampleCfg {})) ∧
    TextDB.writeText TextDB.exampleCfg {} ≠ TextDB.writeText TextDB.exampleCfg classDatabase := by
  refine ⟨left_of_merge (by decide) (by decide +kernel) rfl, ?_⟩
  intro h
  have h1 := TextDB.C11_text_roundtrip_partial TextDB.exampleCfg _ class_storable
  rw [← h, TextDB.C11_text_roundtrip_partial TextDB.exampleCfg _ (TextDB.empty_storable _)] at h1
  injection h1 with h1
  injection h1 with _ h1
  have h2 := congrArg Database.classes h1
  exact absurd h2 (by decide)

/-! ### The hypotheses can be met -/

/-- A second input: a forward declaration of the class, and a type. -/
def otherDatabase : Database :=
  { names := [TextDB.nm b!"A", TextDB.nm b!"unsigned int"]
    types := [{ name := TextDB.nm b!"unsigned int", size := 4 }]
    classes := [{ name := TextDB.nm b!"A", size := 0xFFFFFFFF }] }

def exampleFiles : Files := twoFiles b!"a.csv" (TextDB.writeText TextDB.exampleCfg otherDatabase)
  b!"b.csv" (TextDB.writeText TextDB.exampleCfg classDatabase)

theorem other_storable : TextDB.Storable TextDB.exampleCfg otherDatabase := by
  constructor <;> (try unfold TextDB.SortedLe) <;>
    (try simp only [TextDB.KnownPrim, TextDB.Known, TextDB.CleanText, TextDB.Cfg.IntOk, TextDB.Cfg.FloatOk, TextDB.ArgsOk]) <;>
    decide +kernel

example : ∃ args : List Bytes, CommandLine args b!"out.csv" b!"gen.cpp" b!"gen.h" [b!"a.csv", b!"b.csv"] ∧
    Inputs exampleEnv.cfg exampleFiles [b!"a.csv", b!"b.csv"] [otherDatabase, classDatabase] ∧
    NoCollisions [otherDatabase, classDatabase] ∧ exampleFiles.canWrite b!"out.csv" = true := by
  refine ⟨b!"clmerge" :: b!"out.csv" :: ([b!"-h_codegen", b!"gen.h", b!"-cpp_codegen", b!"gen.cpp"] ++ [b!"a.csv", b!"b.csv"]), ?_, ?_, ?_, rfl⟩
  · exact ⟨⟨_, _, rfl, .hCpp _ _ (by decide) (by decide), by unfold Plain; decide⟩, by unfold Plain; decide, by unfold Plain; decide,
      by unfold Plain; decide, by unfold Plain; decide, by decide⟩
  · exact .cons rfl (.text other_storable) other_storable (.cons rfl (.text class_storable) class_storable .nil)
  · unfold NoCollisions
    refine ⟨by decide +kernel, by decide +kernel⟩

/-- What comes out of it: the definition of the class and the type. -/
example : left (mergeMain exampleEnv [b!"clmerge", b!"out.csv", b!"a.csv", b!"b.csv"] exampleFiles) b!"out.csv" =
    .ok (0, some (TextDB.writeText TextDB.exampleCfg { otherDatabase with classes := classDatabase.classes })) :=
  left_of_merge (by decide) (by decide +kernel) rfl

end Clr.Tools
