import Verif.Proofs.MapFileGcc

/-!
C62: addresses in a map file reach the functions they are the addresses of.
C64: addresses of generated functions reach the types.
C65: reading a signature ends, and short ones are read within their buffers.
-/
namespace Clr.Map

open Clr.DB Clr.FileUtils

/-! ### C62 -/

/-- Whatever is in the database: of the functions with the signature's name and parameters the first is given the address, and nothing else changes.
`p.print` is how a parameter is spelled, `p.param` what the database has of it, `f.uniqueId` the id of a function with these parameters. -/
theorem C62_function_address_partial (db : Database) (A B : List Function) (f : Function) (pre name post : Bytes) (sep void : Bool) (ps : List Par)
    (address : UInt64) (c : Bool) (h1 : (40 : UInt8) ∉ pre ++ name) (ha : address ≠ 0) (hk : ∀ p ∈ ps, Known db.names p)
    (hv : void = true → ps = [] → Knows db.names b!"void") (hdb : db.functions = A ++ f :: B) (hf : f.name.hash = hashOf name)
    (hid : f.uniqueId = ⟨Hash.uniqueId (ps.map Par.param)⟩) (hA : ∀ g ∈ A, g.name.hash = hashOf name → g.uniqueId ≠ f.uniqueId) :
    addFunctionAddress db name (signature pre name sep void ps post) address false c =
      .ok (true, { db with functions := A ++ { f with address := address } :: B }) := by
  rw [addFunctionAddress_static h1 ha hk hv, hdb, setAddress_found hf hid (fun g hg hh => by rw [← hid]; exact hA g hg hh)]

/-- The same for methods: the class, as a pointer, is the first of the parameters. -/
theorem C62_method_address_partial (db : Database) (A B : List Function) (f : Function) (pre cls m post : Bytes) (sep void : Bool) (ps : List Par)
    (address : UInt64) (c : Bool) (h1 : (40 : UInt8) ∉ pre ++ (cls ++ b!"::" ++ m)) (hm : (58 : UInt8) ∉ m) (hcl : cls.length < 1024)
    (hcls : Knows db.names cls) (ha : address ≠ 0) (hk : ∀ p ∈ ps, Known db.names p)
    (hv : void = true → ps = [] → Knows db.names b!"void") (hdb : db.functions = A ++ f :: B) (hf : f.name.hash = hashOf (cls ++ b!"::" ++ m))
    (hid : f.uniqueId = ⟨Hash.uniqueId (⟨cls, .pointer, c⟩ :: ps.map Par.param)⟩)
    (hA : ∀ g ∈ A, g.name.hash = hashOf (cls ++ b!"::" ++ m) → g.uniqueId ≠ f.uniqueId) :
    addFunctionAddress db (cls ++ b!"::" ++ m) (signature pre (cls ++ b!"::" ++ m) sep void ps post) address true c =
      .ok (true, { db with functions := A ++ { f with address := address } :: B }) := by
  rw [addFunctionAddress_method h1 hm hcl hcls ha hk hv, hdb, setAddress_found hf hid (fun g hg hh => by rw [← hid]; exact hA g hg hh)]

/-- If no function has the name and the parameters, nothing changes. -/
theorem C62_no_such_function (db : Database) (pre name post : Bytes) (sep void : Bool) (ps : List Par) (address : UInt64) (c : Bool)
    (h1 : (40 : UInt8) ∉ pre ++ name) (ha : address ≠ 0) (hk : ∀ p ∈ ps, Known db.names p) (hv : void = true → ps = [] → Knows db.names b!"void")
    (hno : ∀ g ∈ db.functions, g.name.hash = hashOf name → g.uniqueId ≠ ⟨Hash.uniqueId (ps.map Par.param)⟩) :
    addFunctionAddress db name (signature pre name sep void ps post) address false c = .ok (false, db) := by
  rw [addFunctionAddress_static h1 ha hk hv, setAddress_none hno]

/-- Whatever the signature: at most the address of one function changes, to the one in the map file, and of a function of this name. -/
theorem C62_one_address (db db' : Database) (name sig : Bytes) (address : UInt64) (t c found : Bool)
    (h : addFunctionAddress db name sig address t c = .ok (found, db')) :
    (∃ names, db' = { db with names := names }) ∨
    ∃ names A f B, db.functions = A ++ f :: B ∧ f.name.hash = hashOf name ∧
      db' = { db with names := names, functions := A ++ { f with address := address } :: B } := by
  have key : ∀ {l r first names}, addAddress db name sig l r address first names = .ok (found, db') →
      (∃ names, db' = { db with names := names }) ∨
      ∃ names A f B, db.functions = A ++ f :: B ∧ f.name.hash = hashOf name ∧
        db' = { db with names := names, functions := A ++ { f with address := address } :: B } := by
    intro l r first names h
    rw [addAddress] at h
    obtain ⟨ps, _, h⟩ := Res.bind_eq_ok.mp h
    have hset : ∀ (id : UInt32) (fs fs' : List Function), setAddress (hashOf name) id address fs = some fs' →
        ∃ A f B, fs = A ++ f :: B ∧ f.name.hash = hashOf name ∧ fs' = A ++ { f with address := address } :: B := by
      intro id fs
      induction fs with
      | nil => intro _ h; cases h
      | cons g fs ih =>
        intro fs' h
        rw [setAddress] at h
        split at h
        · rename_i hg
          cases h
          exact ⟨[], g, fs, rfl, hg.1, rfl⟩
        · cases hr : setAddress (hashOf name) id address fs with
          | none => rw [hr] at h; cases h
          | some r =>
            rw [hr] at h
            cases h
            obtain ⟨A, f, B, e1, e2, e3⟩ := ih r hr
            exact ⟨g :: A, f, B, by rw [e1]; rfl, e2, by rw [e3]; rfl⟩
    cases hps : ps.getD ([], names) with
    | mk ps names =>
      rw [hps] at h
      dsimp only at h
      generalize hid : (⟨Hash.uniqueId (first ++ ps)⟩ : UInt32) = id at h
      cases hs : setAddress (hashOf name) id address db.functions with
      | none =>
        rw [hs] at h
        cases h
        exact .inl ⟨names, rfl⟩
      | some fs =>
        rw [hs] at h
        cases h
        obtain ⟨A, f, B, e1, e2, e3⟩ := hset id _ _ hs
        exact .inr ⟨names, A, f, B, e1, e2, by rw [e3]⟩
  have same : (.ok (false, db) : Res (Bool × Database)) = .ok (found, db') → (∃ names, db' = { db with names := names }) := by
    intro h
    cases h
    exact ⟨db.names, rfl⟩
  rw [addFunctionAddress] at h
  split at h
  · exact .inl (same h)
  · cases hf : find sig name 0 with
    | none => rw [hf] at h; exact .inl (same h)
    | some p =>
      rw [hf] at h
      dsimp only at h
      cases hl : find sig b!"(" p with
      | none => rw [hl] at h; exact .inl (same h)
      | some l =>
        rw [hl] at h
        dsimp only at h
        cases hr : find sig b!")" l with
        | none => rw [hr] at h; exact .inl (same h)
        | some r =>
          rw [hr] at h
          dsimp only at h
          split at h
          · obtain ⟨o, _, h⟩ := Res.bind_eq_ok.mp h
            cases o with
            | none => exact .inl (same h)
            | some o => exact key h
          · exact key h

/-- A field of a line: not empty, no blanks, and it fits the buffer. -/
def IsField (w : Bytes) : Prop := w ≠ [] ∧ (∀ c ∈ w, c ≠ 32 ∧ c ≠ 9) ∧ w.length < 1024

theorem skipWhitespace_blanks (n : Nat) {w rest : Bytes} (h : IsField w) : skipWhitespace (List.replicate n 32 ++ (w ++ rest)) = w ++ rest := by
  induction n with
  | zero =>
    obtain ⟨c, w, rfl⟩ := List.exists_cons_of_ne_nil h.1
    have := h.2.1 c (by simp)
    rw [List.replicate_zero, List.nil_append, List.cons_append, skipWhitespace, if_neg (by simp [this])]
  | succ n ih =>
    rw [List.replicate_succ, List.cons_append, skipWhitespace, if_pos (.inl rfl), ih]

theorem blankToken_field {w rest : Bytes} (h : IsField w) : blankToken (w ++ 32 :: rest) = .ok (w, 32 :: rest) := by
  have h1 : (w ++ 32 :: rest).takeWhile (· != 32) = w ∧ (w ++ 32 :: rest).dropWhile (· != 32) = 32 :: rest := by
    have hw : ∀ c ∈ w, c ≠ 32 := fun c hc => (h.2.1 c hc).1
    clear h
    induction w with
    | nil => exact ⟨rfl, rfl⟩
    | cons c w ih =>
      obtain ⟨i1, i2⟩ := ih (fun x hx => hw x (by simp [hx]))
      have hc := hw c (by simp)
      constructor
      · rw [List.cons_append, List.takeWhile_cons, if_pos (by simp [hc]), i1]
      · rw [List.cons_append, List.dropWhile_cons, if_pos (by simp [hc]), i2]
  rw [blankToken, h1.1, h1.2, if_pos h.2.2]

/-- A line of the list of public symbols: section, symbol, address, and an `f` for a function. -/
def mapLine (n0 n1 n2 n3 : Nat) (sect sym hex rest : Bytes) : Bytes :=
  List.replicate n0 32 ++ sect ++ List.replicate (n1 + 1) 32 ++ sym ++ List.replicate (n2 + 1) 32 ++ hex ++ List.replicate (n3 + 1) 32 ++ b!"f" ++ rest

theorem parseAddressField_eq (n2 n3 : Nat) {hex rest : Bytes} (h : IsField hex) :
    parseAddressField (List.replicate (n2 + 1) 32 ++ (hex ++ (List.replicate (n3 + 1) 32 ++ (102 :: rest)))) = .ok (UInt64.ofNat (hextoi hex).toNat) := by
  rw [parseAddressField, skipWhitespace_blanks _ h, List.replicate_succ (n := n3), List.cons_append, blankToken_field h, Res.bind_ok]
  have : skipWhitespace (32 :: (List.replicate n3 32 ++ 102 :: rest)) = 102 :: rest :=
    skipWhitespace_blanks (n3 + 1) (w := [102]) (rest := rest) ⟨by simp, by decide, by decide⟩
  dsimp only
  rw [this]
  exact if_pos rfl

/-- A line of Microsoft's map file for a function whose symbol is undecorated to a return type, `__cdecl`, and a signature: the function with this
signature is given the number in the line, and nothing else changes. -/
theorem C62_msvc_line_partial (undName undSig : Bytes → Bytes) (s : St) (A B : List Function) (f : Function) (n0 n1 n2 n3 : Nat)
    (sect sym hex rest : Bytes) (ret : Par) (name post : Bytes) (sep void : Bool) (ps : List Par)
    (hfields : IsField sect ∧ IsField sym ∧ IsField hex) (hname : undName sym = name)
    (hsig : withoutPrefixes (undSig sym) = signature (ret.print ++ b!" __cdecl ") name sep void ps post)
    (hplain : Plain name) (hgen : ∀ g ∈ [b!"clcppConstructObject", b!"clcppDestructObject", b!"clcpp::GetType<", b!"clcpp::GetTypeNameHash<"], ¬ startswith name g)
    (hnot : ∀ k < (ret.print ++ b!" __cdecl ").length, ¬ OccursAt name (signature (ret.print ++ b!" __cdecl ") name sep void ps post) k)
    (h1 : (40 : UInt8) ∉ ret.print ++ b!" __cdecl " ++ name) (ha : (hextoi hex) ≠ 0)
    (hret : ret.ty.Words ∧ ret.ty.text.length < 1024 ∧ Knows s.db.names ret.ty.text) (hk : ∀ p ∈ ps, Known s.db.names p)
    (hv : void = true → ps = [] → Knows s.db.names b!"void") (hdb : s.db.functions = A ++ f :: B) (hf : f.name.hash = hashOf name)
    (hid : f.uniqueId = ⟨Hash.uniqueId (ps.map Par.param)⟩) (hA : ∀ g ∈ A, g.name.hash = hashOf name → g.uniqueId ≠ f.uniqueId) :
    msvcLine undName undSig s (mapLine n0 n1 n2 n3 sect sym hex rest) =
      .ok (some { s with db := { s.db with functions := A ++ { f with address := UInt64.ofNat (hextoi hex).toNat } :: B } }) := by
  have e1 : mapLine n0 n1 n2 n3 sect sym hex rest = List.replicate n0 32 ++ (sect ++ (List.replicate (n1 + 1) 32 ++ (sym ++ (List.replicate (n2 + 1) 32 ++
      (hex ++ (List.replicate (n3 + 1) 32 ++ (102 :: rest))))))) := by simp [mapLine]
  have hpre : ret.print ++ b!" __cdecl " ++ (name ++ b!"(" ++ args (if sep then [32] else []) void ps ++ b!")" ++ post) =
      signature (ret.print ++ b!" __cdecl ") name sep void ps post := by simp [signature]
  have hfind : find (signature (ret.print ++ b!" __cdecl ") name sep void ps post) name 0 = some (ret.print ++ b!" __cdecl ").length := by
    obtain ⟨i, hi, hfi, _⟩ := brackets (post := post) (sep := sep) (void := void) (ps := ps) h1 (fun p hp => (hk p hp).1)
    rw [hfi]
    congr 1
    obtain ⟨_, h2, _⟩ := find_some _ _ _ _ hfi
    rcases Nat.lt_or_ge i (ret.print ++ b!" __cdecl ").length with hlt | hge
    · exact absurd h2 (hnot i hlt)
    · omega
  have hmp := matchParameter_return (p := ret) false hret.1 hret.2.1 hret.2.2 (plain_append hplain (b!"(" ++ args (if sep then [32] else []) void ps ++ b!")" ++ post))
  have e2 : name ++ (b!"(" ++ args (if sep then [32] else []) void ps ++ b!")" ++ post) = name ++ b!"(" ++ args (if sep then [32] else []) void ps ++ b!")" ++ post := by
    simp
  change matchParameter _ _ (ret.print ++ b!" __cdecl " ++ _) = _ at hmp
  rw [e2, hpre] at hmp
  have e3 : (signature (ret.print ++ b!" __cdecl ") name sep void ps post).length - (ret.print ++ b!" __cdecl ").length =
      (name ++ b!"(" ++ args (if sep then [32] else []) void ps ++ b!")" ++ post).length := by
    rw [← hpre, List.length_append]; omega
  obtain ⟨g, hg⟩ := Merge.findBy_of_mem (key := fun f : Function => f.name.hash) (k := hashOf name) (l := s.db.functions) ⟨f, by rw [hdb]; simp, hf⟩
  have hne : UInt64.ofNat (hextoi hex).toNat ≠ 0 := by
    intro h
    have h2 : (hextoi hex).toNat % 2 ^ 64 = 0 := by
      have := congrArg UInt64.toNat h
      simpa using this
    have h3 := (hextoi hex).toNat_lt
    have h4 : (hextoi hex).toNat = 0 := by omega
    exact ha (UInt32.toNat_inj.mp (by simpa using h4))
  have hadd := C62_function_address_partial s.db A B f (ret.print ++ b!" __cdecl ") name post sep void ps (UInt64.ofNat (hextoi hex).toNat) ret.isConst
    h1 hne hk hv hdb hf hid hA
  rw [msvcLine, e1, skipWhitespace_blanks _ hfields.1, List.replicate_succ, List.cons_append, blankToken_field hfields.1, Res.bind_ok]
  have e4 : (32 : UInt8) :: (List.replicate n1 32 ++ (sym ++ (List.replicate (n2 + 1) 32 ++ (hex ++ (List.replicate (n3 + 1) 32 ++ (102 :: rest)))))) =
      List.replicate (n1 + 1) 32 ++ (sym ++ (List.replicate (n2 + 1) 32 ++ (hex ++ (List.replicate (n3 + 1) 32 ++ (102 :: rest))))) := rfl
  dsimp only
  rw [e4, skipWhitespace_blanks _ hfields.2.1]
  have e5 : sym ++ (List.replicate (n2 + 1) 32 ++ (hex ++ (List.replicate (n3 + 1) 32 ++ (102 :: rest)))) =
      sym ++ 32 :: (List.replicate n2 32 ++ (hex ++ (List.replicate (n3 + 1) 32 ++ (102 :: rest)))) := rfl
  rw [e5, blankToken_field hfields.2.1, Res.bind_ok]
  dsimp only
  have e6 : (32 : UInt8) :: (List.replicate n2 32 ++ (hex ++ (List.replicate (n3 + 1) 32 ++ (102 :: rest)))) =
      List.replicate (n2 + 1) 32 ++ (hex ++ (List.replicate (n3 + 1) 32 ++ (102 :: rest))) := rfl
  rw [hname, hsig, e6, parseAddressField_eq n2 n3 hfields.2.2]
  rw [if_neg (hgen _ (by simp)), if_neg (hgen _ (by simp)), if_neg (hgen _ (by simp)), if_neg (hgen _ (by simp)), getFirst, hg]
  dsimp only
  rw [Res.bind_ok, hfind]
  dsimp only
  rw [e3, hmp, Res.bind_ok]
  dsimp only
  have e7 : ret.param.isConst = ret.isConst := rfl
  rw [e7, hadd, Res.bind_ok]

/-- GCC's map files: a function that is not a method, once its name is read from the signature.  It is first looked for as a method of what is in front of
its name; if there is none, it is given the address.  Names of types may be added to the database. -/
theorem C62_gcc_function_partial (rand : Nat → Nat) (s : St) (A B : List Function) (f : Function) (cls m post : Bytes) (ps : List Par) (T : List Bytes)
    (address : UInt64) (hname : parseFunctionName rand (cls ++ b!"::" ++ m ++ b!"(" ++ gccAll ps ++ b!")" ++ post) = cls ++ b!"::" ++ m)
    (hgen : ∀ g ∈ [b!"clcppConstructObject", b!"clcppDestructObject", b!"clcpp::GetType<", b!"clcpp::GetTypeNameHash<"], ¬ startswith (cls ++ b!"::" ++ m) g)
    (h1 : (40 : UInt8) ∉ cls ++ b!"::" ++ m) (hm : (58 : UInt8) ∉ m) (hcl : cls.length < 1024) (ha : address ≠ 0)
    (hT : Clear s.db.names T) (hclsT : cls ∈ T) (hk : ∀ p ∈ ps, p.Gcc ∧ p.ty.text ++ gccOp p.op ∈ T)
    (hdb : s.db.functions = A ++ f :: B) (hf : f.name.hash = hashOf (cls ++ b!"::" ++ m)) (hid : f.uniqueId = ⟨Hash.uniqueId (ps.map Par.param)⟩)
    (hA : ∀ g ∈ A, g.name.hash = hashOf (cls ++ b!"::" ++ m) → g.uniqueId ≠ f.uniqueId)
    (hno : ∀ g ∈ s.db.functions, g.name.hash = hashOf (cls ++ b!"::" ++ m) → ∀ c, g.uniqueId ≠ ⟨Hash.uniqueId (⟨cls, .pointer, c⟩ :: ps.map Par.param)⟩) :
    ∃ names, processItem rand s (cls ++ b!"::" ++ m ++ b!"(" ++ gccAll ps ++ b!")" ++ post) address =
      .ok { s with db := { s.db with names := names, functions := A ++ { f with address := address } :: B } } := by
  have hsig := gcc_signature (pre := []) (name := cls ++ b!"::" ++ m) (post := post) (fun p hp => (hk p hp).1)
  rw [List.nil_append] at hsig
  rw [hsig] at hname ⊢
  have hk' : ∀ p ∈ ps.map glue, Good p ∧ p.ty.text ∈ T := by
    intro p hp
    obtain ⟨q, hq, rfl⟩ := List.mem_map.mp hp
    obtain ⟨g1, _, _, g4⟩ := glue_good (hk q hq).1
    exact ⟨g1, by rw [g4]; exact (hk q hq).2⟩
  obtain ⟨g, hg⟩ := Merge.findBy_of_mem (key := fun f : Function => f.name.hash) (k := hashOf (cls ++ b!"::" ++ m)) (l := s.db.functions)
    ⟨f, by rw [hdb]; simp, hf⟩
  generalize hc : endsConst (signature [] (cls ++ b!"::" ++ m) true false (ps.map glue) post) = c
  obtain ⟨names1, c1, e1⟩ := method_clear (db := s.db) (pre := []) (post := post) (sep := true) (void := false) (address := address) (c := c) (by simpa using h1)
    hm hcl hclsT ha hT.grown hk' (by intro h; cases h)
  have hid1 := glue_ids (fun p hp => (hk p hp).1) [⟨cls, .pointer, c⟩]
  rw [List.singleton_append, List.singleton_append] at hid1
  rw [hid1, setAddress_none (fun g hg hh => hno g hg hh c)] at e1
  have hid0 := glue_ids (fun p hp => (hk p hp).1) []
  rw [List.nil_append, List.nil_append] at hid0
  obtain ⟨names2, c2, e2⟩ := static_clear (db := { s.db with names := names1 }) (pre := []) (name := cls ++ b!"::" ++ m) (post := post) (sep := true) (void := false)
    (address := address) (c := c) (by simpa using h1) ha c1 hk' (by intro h; cases h)
  rw [hid0] at e2
  dsimp only at e2
  have hset : setAddress (hashOf (cls ++ b!"::" ++ m)) ⟨Hash.uniqueId (ps.map Par.param)⟩ address s.db.functions =
      some (A ++ { f with address := address } :: B) := by
    rw [hdb]
    exact setAddress_found hf hid (fun g hg hh => by rw [← hid]; exact hA g hg hh)
  rw [hset] at e2
  refine ⟨names2, ?_⟩
  have hne : cls ++ b!"::" ++ m ≠ [] := by simp
  generalize cls ++ b!"::" ++ m = name at *
  rw [processItem, hname]
  dsimp only
  rw [if_neg hne, if_neg (hgen _ (by simp)), if_neg (hgen _ (by simp)), if_neg (hgen _ (by simp)), if_neg (hgen _ (by simp)), getFirst, hg]
  dsimp only
  rw [hc, e1, Res.bind_ok]
  dsimp only
  rw [if_neg (by decide), e2, Res.bind_ok]

/-- And a method: it is const if the signature ends so. -/
theorem C62_gcc_method_partial (rand : Nat → Nat) (s : St) (A B : List Function) (f : Function) (cls m post : Bytes) (ps : List Par) (T : List Bytes)
    (address : UInt64) (hname : parseFunctionName rand (cls ++ b!"::" ++ m ++ b!"(" ++ gccAll ps ++ b!")" ++ post) = cls ++ b!"::" ++ m)
    (hgen : ∀ g ∈ [b!"clcppConstructObject", b!"clcppDestructObject", b!"clcpp::GetType<", b!"clcpp::GetTypeNameHash<"], ¬ startswith (cls ++ b!"::" ++ m) g)
    (h1 : (40 : UInt8) ∉ cls ++ b!"::" ++ m) (hm : (58 : UInt8) ∉ m) (hcl : cls.length < 1024) (ha : address ≠ 0)
    (hT : Clear s.db.names T) (hclsT : cls ∈ T) (hk : ∀ p ∈ ps, p.Gcc ∧ p.ty.text ++ gccOp p.op ∈ T)
    (hdb : s.db.functions = A ++ f :: B) (hf : f.name.hash = hashOf (cls ++ b!"::" ++ m))
    (hid : f.uniqueId = ⟨Hash.uniqueId (⟨cls, .pointer, endsConst (cls ++ b!"::" ++ m ++ b!"(" ++ gccAll ps ++ b!")" ++ post)⟩ :: ps.map Par.param)⟩)
    (hA : ∀ g ∈ A, g.name.hash = hashOf (cls ++ b!"::" ++ m) → g.uniqueId ≠ f.uniqueId) :
    ∃ names, processItem rand s (cls ++ b!"::" ++ m ++ b!"(" ++ gccAll ps ++ b!")" ++ post) address =
      .ok { s with db := { s.db with names := names, functions := A ++ { f with address := address } :: B } } := by
  have hsig := gcc_signature (pre := []) (name := cls ++ b!"::" ++ m) (post := post) (fun p hp => (hk p hp).1)
  rw [List.nil_append] at hsig
  rw [hsig] at hname hid ⊢
  have hk' : ∀ p ∈ ps.map glue, Good p ∧ p.ty.text ∈ T := by
    intro p hp
    obtain ⟨q, hq, rfl⟩ := List.mem_map.mp hp
    obtain ⟨g1, _, _, g4⟩ := glue_good (hk q hq).1
    exact ⟨g1, by rw [g4]; exact (hk q hq).2⟩
  obtain ⟨g, hg⟩ := Merge.findBy_of_mem (key := fun f : Function => f.name.hash) (k := hashOf (cls ++ b!"::" ++ m)) (l := s.db.functions)
    ⟨f, by rw [hdb]; simp, hf⟩
  generalize hc : endsConst (signature [] (cls ++ b!"::" ++ m) true false (ps.map glue) post) = c at hid
  obtain ⟨names1, c1, e1⟩ := method_clear (db := s.db) (pre := []) (post := post) (sep := true) (void := false) (address := address) (c := c) (by simpa using h1)
    hm hcl hclsT ha hT.grown hk' (by intro h; cases h)
  have hid1 := glue_ids (fun p hp => (hk p hp).1) [⟨cls, .pointer, c⟩]
  rw [List.singleton_append, List.singleton_append] at hid1
  rw [hid1, hdb, setAddress_found hf hid (fun g hg hh => by rw [← hid]; exact hA g hg hh)] at e1
  refine ⟨names1, ?_⟩
  have hne : cls ++ b!"::" ++ m ≠ [] := by simp
  generalize cls ++ b!"::" ++ m = name at *
  rw [processItem, hname]
  dsimp only
  rw [if_neg hne, if_neg (hgen _ (by simp)), if_neg (hgen _ (by simp)), if_neg (hgen _ (by simp)), if_neg (hgen _ (by simp)), getFirst, hg]
  dsimp only
  rw [hc, e1, Res.bind_ok]
  dsimp only
  rw [if_pos rfl]

/-! Examples: overloads, a method and a template. -/

/-- Names in order of their hashes. -/
def exampleNames : List Name := match internAll [] ([b!"void", b!"int", b!"float", b!"A", b!"A<int>", b!"f", b!"A::g", b!"long long"].map some) with
  | .ok (_, ns) => ns
  | _ => []

def exampleFunction (name : Bytes) (ps : List Hash.Param) : Function := { name := ⟨hashOf name, name⟩, uniqueId := ⟨Hash.uniqueId ps⟩ }

/-- `f(int, const float&)`. -/
def fRef : Function := exampleFunction b!"f" [⟨b!"int", .value, false⟩, ⟨b!"float", .reference, true⟩]
/-- `f(A<int>*)`. -/
def fTempl : Function := exampleFunction b!"f" [⟨b!"A<int>", .pointer, false⟩]
/-- `f(A<int*>)`. -/
def fTemplPtr : Function := exampleFunction b!"f" [⟨b!"A<int*>", .value, false⟩]
/-- `f(long long)`. -/
def fLong : Function := exampleFunction b!"f" [⟨b!"long long", .value, false⟩]
/-- `f(M<int, float>)`. -/
def fTwo : Function := exampleFunction b!"f" [⟨b!"M<int,float>", .value, false⟩]
/-- `f(int&)`. -/
def fInt : Function := exampleFunction b!"f" [⟨b!"int", .reference, false⟩]
/-- `A::g(int)`. -/
def gMut : Function := exampleFunction b!"A::g" [⟨b!"A", .pointer, false⟩, ⟨b!"int", .value, false⟩]
/-- `A::g(int) const`. -/
def gConst : Function := exampleFunction b!"A::g" [⟨b!"A", .pointer, true⟩, ⟨b!"int", .value, false⟩]

def exampleDb : Database := { names := exampleNames, functions := [gMut, gConst, fInt, fLong, fTwo, fTempl, fTemplPtr, fRef] }

def intPar : Par := { ty := .named .none .none b!"int" }
def floatRef : Par := { ty := .named .none .none b!"float", isConst := true, op := .reference }

theorem intPar_known : Known exampleNames intPar :=
  ⟨⟨by decide, by decide, by decide, by decide, by decide⟩, by decide, ⟨by decide +kernel, by decide +kernel⟩, by decide⟩

theorem floatRef_known : Known exampleNames floatRef :=
  ⟨⟨by decide, by decide, by decide, by decide, by decide⟩, by decide, ⟨by decide +kernel, by decide +kernel⟩, by decide⟩

example : signature (b!"void __cdecl ") b!"f" false true [intPar, floatRef] [] = b!"void __cdecl f(int,float const &)" := by decide

example : addFunctionAddress exampleDb b!"f" b!"void __cdecl f(int,float const &)" 4096 false false =
    .ok (true, { exampleDb with functions := [gMut, gConst, fInt, fLong, fTwo, fTempl, fTemplPtr] ++ { fRef with address := 4096 } :: [] }) :=
  C62_function_address_partial exampleDb [gMut, gConst, fInt, fLong, fTwo, fTempl, fTemplPtr] [] fRef b!"void __cdecl " b!"f" [] false true
    [intPar, floatRef] 4096 false (by decide) (by decide)
    (by intro p hp; simp at hp; rcases hp with rfl | rfl; exact intPar_known; exact floatRef_known) (by intro _ h; cases h) rfl rfl rfl (by decide +kernel)

example : addFunctionAddress exampleDb b!"A::g" b!"void __thiscall A::g(int)" 4096 true true =
    .ok (true, { exampleDb with functions := [gMut] ++ { gConst with address := 4096 } :: [fInt, fLong, fTwo, fTempl, fTemplPtr, fRef] }) :=
  C62_method_address_partial exampleDb [gMut] [fInt, fLong, fTwo, fTempl, fTemplPtr, fRef] gConst b!"void __thiscall " b!"A" b!"g" [] false true
    [intPar] 4096 true (by decide) (by decide) (by decide) ⟨by decide +kernel, by decide +kernel⟩ (by decide)
    (by intro p hp; simp at hp; rcases hp with rfl; exact intPar_known) (by intro _ h; cases h) rfl rfl rfl (by decide +kernel)

example : addFunctionAddress exampleDb b!"f" b!"void __cdecl f(void)" 4096 false false = .ok (false, exampleDb) :=
  C62_no_such_function exampleDb b!"void __cdecl " b!"f" [] false true [] 4096 false (by decide) (by decide) (by simp)
    (fun _ _ => ⟨by decide +kernel, by decide +kernel⟩) (by decide +kernel)

example : msvcLine (fun _ => b!"f") (fun _ => b!"void __cdecl f(int,float const &)") { db := exampleDb }
      b!" 0001:00000010       ?f@@YAXHABM@Z              00401010 f   a.obj" =
    .ok (some { db := { exampleDb with functions := [gMut, gConst, fInt, fLong, fTwo, fTempl, fTemplPtr] ++ { fRef with address := 0x401010 } :: [] } }) :=
  C62_msvc_line_partial (fun _ => b!"f") (fun _ => b!"void __cdecl f(int,float const &)") { db := exampleDb }
    [gMut, gConst, fInt, fLong, fTwo, fTempl, fTemplPtr] [] fRef 1 6 13 0 b!"0001:00000010" b!"?f@@YAXHABM@Z" b!"00401010" b!"   a.obj"
    { ty := .named .none .none b!"void" } b!"f" [] false true [intPar, floatRef]
    (by refine ⟨⟨?_, ?_, ?_⟩, ⟨?_, ?_, ?_⟩, ⟨?_, ?_, ?_⟩⟩ <;> decide) rfl (by decide +kernel) ⟨_, _, rfl, by decide⟩ (by decide)
    (by
      intro k hk ⟨a, b, h1, h2⟩
      have hk : k < 13 := hk
      have : ∀ k < 13, (b!"void __cdecl f(int,float const &)")[k]? ≠ some 102 := by decide
      refine this k hk ?_
      have e : signature (Par.print { ty := .named .none .none b!"void" } ++ b!" __cdecl ") b!"f" false true [intPar, floatRef] [] = b!"void __cdecl f(int,float const &)" := by decide
      rw [← e, h1, ← h2]
      simp)
    (by decide) (by decide +kernel)
    ⟨⟨by decide, by decide, by decide, by decide, by decide⟩, by decide, ⟨by decide +kernel, by decide +kernel⟩⟩
    (by intro p hp; simp at hp; rcases hp with rfl | rfl; exact intPar_known; exact floatRef_known) (by intro _ h; cases h) rfl rfl rfl (by decide +kernel)

/-- `A::h(int*, A<int>)`, a function in a namespace. -/
def hFun : Function := exampleFunction b!"A::h" [⟨b!"int", .pointer, false⟩, ⟨b!"A<int>", .value, false⟩]
def intPtr : Par := { ty := .named .none .none b!"int", op := .pointer }
def templPar : Par := { ty := .templ .none b!"A" (.named .none .none b!"int") false }

theorem intPtr_gcc : intPtr.Gcc := ⟨rfl, .inl ⟨_, _, rfl, by decide, by decide, by decide, by decide, by decide⟩, by decide, by decide⟩
theorem templPar_gcc : templPar.Gcc :=
  ⟨rfl, .inr ⟨⟨⟨by decide, by decide, by decide, by decide, by decide⟩, by decide, by decide, by decide, by decide, by decide⟩, rfl⟩, by decide, by decide⟩

theorem example_clear : Clear exampleNames [b!"A", b!"int*", b!"A<int>"] := by
  intro t ht
  simp only [List.mem_cons, List.not_mem_nil, or_false] at ht
  rcases ht with rfl | rfl | rfl
  · exact ⟨by decide +kernel, by decide +kernel, by decide +kernel⟩
  · exact ⟨by decide +kernel, by decide +kernel, by decide +kernel⟩
  · exact ⟨by decide +kernel, by decide +kernel, by decide +kernel⟩

example : ∃ names, processItem (fun _ => 0) { db := { exampleDb with functions := [gMut, hFun, fInt] } } b!"A::h(int*, A<int>)" 4096 =
    .ok { db := { exampleDb with names := names, functions := [gMut] ++ { hFun with address := 4096 } :: [fInt] } } :=
  C62_gcc_function_partial (fun _ => 0) { db := { exampleDb with functions := [gMut, hFun, fInt] } } [gMut] [fInt] hFun b!"A" b!"h" [] [intPtr, templPar]
    [b!"A", b!"int*", b!"A<int>"] 4096 (by decide +kernel) (by decide) (by decide) (by decide) (by decide) (by decide) example_clear (by decide)
    (by intro p hp; simp at hp; rcases hp with rfl | rfl; exact ⟨intPtr_gcc, by decide⟩; exact ⟨templPar_gcc, by decide⟩) rfl rfl rfl (by decide +kernel)
    (by
      intro g hg _ c
      simp at hg
      cases c <;> (rcases hg with rfl | rfl | rfl <;> decide +kernel))

example : ∃ names, processItem (fun _ => 0) { db := { exampleDb with functions := [gMut, gConst, fInt] } } b!"A::g(int) const" 4096 =
    .ok { db := { exampleDb with names := names, functions := [gMut] ++ { gConst with address := 4096 } :: [fInt] } } :=
  C62_gcc_method_partial (fun _ => 0) { db := { exampleDb with functions := [gMut, gConst, fInt] } } [gMut] [fInt] gConst b!"A" b!"g" b!" const" [intPar]
    [b!"A", b!"int"] 4096 (by decide +kernel) (by decide) (by decide) (by decide) (by decide) (by decide)
    (by
      intro t ht
      simp only [List.mem_cons, List.not_mem_nil, or_false] at ht
      rcases ht with rfl | rfl
      · exact ⟨by decide +kernel, by decide +kernel, by decide +kernel⟩
      · exact ⟨by decide +kernel, by decide +kernel, by decide +kernel⟩) (by decide)
    (by
      intro p hp
      simp at hp
      rcases hp with rfl
      exact ⟨⟨rfl, .inl ⟨_, _, rfl, by decide, by decide, by decide, by decide, by decide⟩, by decide, by decide⟩, by decide⟩)
    rfl rfl (by decide +kernel) (by decide +kernel)

/-! ### Where it fails -/

/-- The functions, if all went well. -/
def functionsOf (r : Res (Bool × Database)) : List Function := match r with | .ok (_, db) => db.functions | _ => []
def lineFunctions (r : Res (Option St)) : List Function := match r with | .ok (some s) => s.db.functions | _ => []

/-- GCC's demangler writes `const` and the operator as one word: `f(int, const float&)` is not given its address. -/
theorem C62_gcc_const_reference_false :
    functionsOf (addFunctionAddress exampleDb b!"f" b!"f(int, float const&)" 4096 false false) = exampleDb.functions := by decide +kernel

/-- Types of two words are run together: `f(long long)` is not given its address (with Microsoft's `__int64` it is). -/
theorem C62_gcc_long_long_false :
    functionsOf (addFunctionAddress exampleDb b!"f" b!"f(long long)" 4096 false false) = exampleDb.functions ∧
    functionsOf (addFunctionAddress exampleDb b!"f" b!"void __cdecl f(__int64)" 4096 false false) =
      [gMut, gConst, fInt, { fLong with address := 4096 }, fTwo, fTempl, fTemplPtr, fRef] := by decide +kernel

/-- The operator of a template argument is taken for the parameter's: the address of `f(A<int *>)` is given to `f(A<int> *)`. -/
theorem C62_template_operator_false :
    functionsOf (addFunctionAddress exampleDb b!"f" b!"void __cdecl f(A<int *>)" 4096 false false) =
      [gMut, gConst, fInt, fLong, fTwo, { fTempl with address := 4096 }, fTemplPtr, fRef] := by decide +kernel

/-- Template arguments are split at the comma: `f(M<int,float>)` is not given its address. -/
theorem C62_two_arguments_false :
    functionsOf (addFunctionAddress exampleDb b!"f" b!"void __cdecl f(M<int,float>)" 4096 false false) = exampleDb.functions := by decide +kernel

/-- Whether a method is const is taken from what it returns: the address of `void A::g(int) const` is given to the method that is not const. -/
theorem C62_const_method_false :
    lineFunctions (msvcLine (fun _ => b!"A::g") (fun _ => b!"void __thiscall A::g(int)const ") { db := exampleDb }
      b!" 0001:00000010       ?g@A@@QBEXH@Z              00401010 f   a.obj") =
      [{ gMut with address := 0x401010 }, gConst, fInt, fLong, fTwo, fTempl, fTemplPtr, fRef] := by decide +kernel

/-- Addresses are read with 32 bits: in a program of 64 bits functions get other addresses. -/
theorem C62_wide_address_false :
    lineFunctions (msvcLine (fun _ => b!"A::g") (fun _ => b!"void __thiscall A::g(int)") { db := exampleDb }
      b!" 0001:00000010       ?g@A@@QEAAXH@Z              0000000140001010 f   a.obj") =
      [{ gMut with address := 0x40001010 }, gConst, fInt, fLong, fTwo, fTempl, fTemplPtr, fRef] := by decide +kernel

/-- The keywords are also removed from the ends of names. -/
theorem C62_prefix_in_name_false : withoutPrefixes b!"void __cdecl f(struct Mystruct *)" = b!"void __cdecl f(My*)" := by decide +kernel

/-! ### C64 -/

/-- The address of `GetType<T>` (`GetTypeNameHash<T>`) becomes that of the type `T`: nothing is changed for other types, nor is the other address of this
type. -/
theorem C64_get_type_partial (s s' : St) (pfx t post : Bytes) (kw : Kw) (address : UInt64) (isGetType : Bool) (hp : (60 : UInt8) ∉ pfx)
    (ht : ∀ x ∈ t, x ≠ 32 ∧ x ≠ 62 ∧ x ≠ 42) (hk : t ∉ [b!"struct", b!"class", b!"enum"]) (h0 : hashOf t ≠ 0) (ha : address ≠ 0)
    (hs : s.getTypes.Pairwise (·.1 < ·.1))
    (h : addGetTypeAddress s (pfx ++ b!"<" ++ kw.print ++ t ++ b!">" ++ post) address isGetType = .ok s') :
    s'.getTypes.Pairwise (·.1 < ·.1) ∧
    entry s'.getTypes (hashOf t) = some (if isGetType then (((entry s.getTypes (hashOf t)).getD (0, 0)).1, address)
      else (address, ((entry s.getTypes (hashOf t)).getD (0, 0)).2)) ∧
    (∀ k, k ≠ hashOf t → entry s'.getTypes k = entry s.getTypes k) ∧ ∃ names, s'.db = { s.db with names := names } := by
  obtain ⟨h1, h2⟩ := addGetTypeAddress_eq hp (fun x hx => by have := ht x hx; simp [isEnd, this]) hk h0 ha h
  rw [h1]
  refine ⟨(assignGetType_sorted hs).1, ?_, ?_, h2⟩
  · rw [assignGetType_entry hs, if_pos rfl]
  · intro k hk
    rw [assignGetType_entry hs, if_neg hk]

/-- The functions that construct and destruct a type's objects become functions of the type, with the address and a parameter `this`; nothing is lost. -/
theorem C64_constructor_partial (db db' : Database) (pre t post : Bytes) (kw : Kw) (n : Nat) (address : UInt64) (isConstructor : Bool)
    (hp : (40 : UInt8) ∉ pre) (ht : ∀ x ∈ t, x ≠ 32 ∧ x ≠ 62 ∧ x ≠ 42) (hk : t ∉ [b!"struct", b!"class", b!"enum"]) (ht0 : t ≠ [])
    (h0 : hashOf t ≠ 0) (ha : address ≠ 0)
    (h : addClassImpl db (pre ++ b!"(" ++ kw.print ++ t ++ List.replicate n 32 ++ b!"*" ++ post) address isConstructor = .ok db') :
    ∃ (f : Function) (p : Field) (names : List Name), f.name.text = t ++ (if isConstructor then b!"::ConstructObject" else b!"::DestructObject") ∧
      f.name.hash = hashOf f.name.text ∧ f.parent.text = t ∧ f.parent.hash = hashOf t ∧ f.address = address ∧
      f.uniqueId = ⟨Hash.uniqueId [⟨t, .pointer, false⟩]⟩ ∧
      p.name.text = b!"this" ∧ p.parent = f.name ∧ p.parentUniqueId = f.uniqueId ∧ p.type.text = t ∧ p.type.hash = hashOf t ∧
      p.qualifier = ⟨.pointer, false⟩ ∧
      db'.functions.Perm (f :: db.functions) ∧ db.functions.Sublist db'.functions ∧ db'.fields.Perm (p :: db.fields) ∧ db.fields.Sublist db'.fields ∧
      db' = { db with names := names, functions := db'.functions, fields := db'.fields } := by
  rw [addClassImpl_eq n hp (fun x hx => by have := ht x hx; simp [isEnd, this]) ht0 hk ha] at h
  obtain ⟨names, rfl⟩ := addImpl_eq h0 h
  refine ⟨_, _, names, ?_, rfl, rfl, rfl, rfl, rfl, rfl, rfl, rfl, rfl, rfl, rfl, Merge.perm_insertBy _ _, Merge.sublist_insertBy _ _,
    Merge.perm_insertBy _ _, Merge.sublist_insertBy _ _, rfl⟩
  cases isConstructor <;> simp

example : ∃ s', addGetTypeAddress { db := exampleDb, getTypes := [(5, 6, 7)] } b!"clcpp::GetType<class A>" 4096 true = .ok s' ∧
    s'.getTypes = [(5, 6, 7), (hashOf b!"A", 0, 4096)] ∧
    entry s'.getTypes (hashOf b!"A") = some (0, 4096) := by
  cases h : addGetTypeAddress { db := exampleDb, getTypes := [(5, 6, 7)] } b!"clcpp::GetType<class A>" 4096 true with
  | ok s' =>
    refine ⟨s', rfl, ?_, ?_⟩
    · have : s' = { db := exampleDb, getTypes := [(5, 6, 7), (hashOf b!"A", 0, 4096)] } := by
        have h2 : addGetTypeAddress { db := exampleDb, getTypes := [(5, 6, 7)] } b!"clcpp::GetType<class A>" 4096 true =
          .ok { db := exampleDb, getTypes := [(5, 6, 7), (hashOf b!"A", 0, 4096)] } := by decide +kernel
        rw [h] at h2
        cases h2
        rfl
      rw [this]
    · exact (C64_get_type_partial { db := exampleDb, getTypes := [(5, 6, 7)] } s' b!"clcpp::GetType" b!"A" [] .cls 4096 true (by decide) (by decide) (by decide)
        (by decide +kernel) (by decide) (by simp) h).2.1
  | trap => exact absurd h (by decide +kernel)
  | ub => exact absurd h (by decide +kernel)

example : ∃ db', addClassImpl exampleDb b!"void __cdecl clcppConstructObject(A *)" 4096 true = .ok db' ∧ ∃ f ∈ db'.functions, f.name.text = b!"A::ConstructObject" ∧
    f.address = 4096 := by
  cases h : addClassImpl exampleDb b!"void __cdecl clcppConstructObject(A *)" 4096 true with
  | ok db' =>
    obtain ⟨f, p, names, h1, _, _, _, h5, _, _, _, _, _, _, _, h13, _⟩ := C64_constructor_partial exampleDb db' b!"void __cdecl clcppConstructObject" b!"A" b!")" .none 1
      4096 true (by decide) (by decide) (by decide) (by decide) (by decide +kernel) (by decide) h
    exact ⟨db', rfl, f, h13.symm.subset (by simp), h1, h5⟩
  | trap => exact absurd h (by decide +kernel)
  | ub => exact absurd h (by decide +kernel)

/-- A template's name is cut at the first closing bracket: the address of `GetType<A<int> >` is given to a type `A<int`. -/
theorem C64_template_false :
    addGetTypeAddress { db := exampleDb } b!"clcpp::GetType<A<int> >" 4096 true =
      addGetTypeAddress { db := exampleDb } b!"clcpp::GetType<A<int>" 4096 true ∧
    ∃ s, addGetTypeAddress { db := exampleDb } b!"clcpp::GetType<A<int> >" 4096 true = .ok s ∧ s.getTypes = [(hashOf b!"A<int", 0, 4096)] ∧
      entry s.getTypes (hashOf b!"A<int>") = none := by
  refine ⟨by decide +kernel, { db := { exampleDb with names := assignBy Name.hash ⟨hashOf b!"A<int", b!"A<int"⟩ exampleNames }
                               getTypes := [(hashOf b!"A<int", 0, 4096)] }, by decide +kernel, rfl, by decide +kernel⟩

/-! ### C65 -/

/-- Reading the parameters ends, for every text and every end. -/
theorem C65_parameters_end (e : Nat) (names : List Name) (text : Bytes) :
    paramLoop e (text.length + 1) names text ≠ .ok none ∧ matchLoop e (text.length + 1) text {} ≠ .ok none :=
  ⟨paramLoop_ends (Nat.lt_succ_self _), matchLoop_ends e _ text {} (Nat.lt_succ_self _)⟩

/-- Every parameter read is at least a character long: the reader never stands still. -/
theorem C65_parameter_shorter (e : Nat) (names names' : List Name) (text rest : Bytes) (q : Hash.Param) (b : Bool) (he : e < text.length)
    (h : matchParameter e names text = .ok (q, b, rest, names')) : rest.length < text.length := matchParameter_shorter he h

/-- Signatures of less than 512 characters are read within the buffers. -/
theorem C65_short_signatures_partial (db : Database) (name sig : Bytes) (address : UInt64) (t c : Bool) (hs : sig.length < 512) (hn : name.length < 1024) :
    addFunctionAddress db name sig address t c ≠ .ub := addFunctionAddress_notUb hs hn

/-- The name of a type of 1024 characters is written past the buffer. -/
theorem C65_long_type_false : addFunctionAddress { exampleDb with names := [] } b!"f" (b!"f(" ++ List.replicate 1024 65 ++ b!")") 4096 false false = .ub := by
  decide +kernel

/-- And a symbol of 1024 characters in a line of a map file, whatever it means. -/
theorem C65_long_symbol_false (demangle : Bytes → Option Bytes) (rand : Nat → Nat) (s : St) (b : UInt64) :
    linuxLine demangle rand { text := true, base := b, st := s } (b!"                0x0000000000400500                " ++ List.replicate 1024 65) = .ub := by
  have h : scanAddress (b!"                0x0000000000400500                " ++ List.replicate 1024 65) =
      some (0x400500, b!"                " ++ List.replicate 1024 65) := by decide +kernel
  have h2 : scanWord (b!"                " ++ List.replicate 1024 65) = .ub := by decide +kernel
  generalize List.replicate 1024 65 = l at *
  rw [linuxLine, if_pos rfl, h]
  dsimp only
  rw [h2]
  rfl

/-- An empty map file is not read at all: a null pointer is searched for the first line's words. -/
theorem C65_empty_file_false (demangle : Bytes → Option Bytes) (rand : Nat → Nat) (s : St) : parseLinux demangle rand [] s = .ub := rfl

example : addFunctionAddress exampleDb b!"f" b!"void __cdecl f(int,float const &)" 4096 false false ≠ .ub :=
  C65_short_signatures_partial _ _ _ _ _ _ (by decide) (by decide)

end Clr.Map
