import Verif.Proofs.MapFile
import Verif.Proofs.BuildDB

/-!
Lemmas for C62: names that are new to the database, and signatures as GCC's demangler spells them.
-/
namespace Clr.Map

open Clr.DB Clr.FileUtils

/-- The names `names` are those of `B` and some of the texts `T`, and there is no doubt about `T`. -/
structure Grown (B names : List Name) (T : List Bytes) : Prop where
  clear : Clear names T
  kept : ∀ n ∈ B, n ∈ names
  origin : ∀ n ∈ names, n ∈ B ∨ ∃ t ∈ T, n = ⟨hashOf t, t⟩
  sorted : B.Pairwise (fun a b => a.hash < b.hash) → names.Pairwise (fun a b => a.hash < b.hash)

theorem Clear.grown {names : List Name} {T : List Bytes} (h : Clear names T) : Grown names names T :=
  ⟨h, fun _ h => h, fun _ h => .inl h, fun h => h⟩

theorem Grown.trans {A B C : List Name} {T : List Bytes} (h1 : Grown A B T) (h2 : Grown B C T) : Grown A C T where
  clear := h2.clear
  kept n hn := h2.kept n (h1.kept n hn)
  origin n hn := by
    rcases h2.origin n hn with h | h
    · exact h1.origin n h
    · exact .inr h
  sorted h := h2.sorted (h1.sorted h)

theorem getName_grown {names : List Name} {T : List Bytes} (h : Clear names T) {t : Bytes} (ht : t ∈ T) :
    ∃ names', getName names (some t) = .ok (⟨hashOf t, t⟩, names') ∧ Grown names names' T ∧ ⟨hashOf t, t⟩ ∈ names' := by
  obtain ⟨h0, h1, h2⟩ := h t ht
  rw [getName]
  rw [if_neg h0]
  have hH : ∀ k, hashOf t = k → ∃ names', (match findBy Name.hash k names with
      | some n => if n.text = t then Res.ok (n, names) else .trap
      | none => .ok (⟨k, t⟩, assignBy Name.hash ⟨k, t⟩ names)) = .ok (⟨k, t⟩, names') ∧ Grown names names' T ∧ ⟨k, t⟩ ∈ names' := by
    intro k hk
    cases hf : findBy Name.hash k names with
    | some n =>
      obtain ⟨m1, m2⟩ := Merge.findBy_some hf
      have ht' := h1 n m1 (by rw [m2, hk])
      have hn : n = ⟨k, t⟩ := by
        cases n
        simp at m2 ht'
        rw [m2, ht']
      refine ⟨names, ?_, h.grown, hn ▸ m1⟩
      dsimp only
      rw [if_pos ht', hn]
    | none =>
      have hmem : ∀ n, n ∈ assignBy Name.hash ⟨k, t⟩ names ↔ n = ⟨k, t⟩ ∨ n ∈ names :=
        fun n => Merge.mem_assignBy_of_absent _ _ _ (Merge.findBy_none hf)
      refine ⟨_, rfl, ⟨?_, fun n hn => (hmem n).mpr (.inr hn), ?_, Build.pairwise_assignBy _ _⟩, (hmem _).mpr (.inl rfl)⟩
      · intro u hu
        obtain ⟨u0, u1, u2⟩ := h u hu
        refine ⟨u0, ?_, u2⟩
        intro n hn he
        rcases (hmem n).mp hn with rfl | hn
        · exact u2 t ht (by rw [hk]; exact he)
        · exact u1 n hn he
      · intro n hn
        rcases (hmem n).mp hn with rfl | hn
        · exact .inr ⟨t, ht, by rw [hk]⟩
        · exact .inl hn
  exact hH _ rfl

theorem getName_clear {B names : List Name} {T : List Bytes} (h : Grown B names T) {t : Bytes} (ht : t ∈ T) :
    ∃ names', getName names (some t) = .ok (⟨hashOf t, t⟩, names') ∧ Grown B names' T := by
  obtain ⟨names', h1, h2, _⟩ := getName_grown h.clear ht
  exact ⟨names', h1, h.trans h2⟩

variable {B : List Name}

/-- A parameter that is spelled well. -/
def Good (p : Par) : Prop := p.ty.Words ∧ p.ty.text.length < 1024 ∧ ¬ (p.op = .value ∧ p.ty.text = b!"void")

theorem matchParameter_clear {e : Nat} {names : List Name} {T : List Bytes} (b : Bool) {p : Par} {d : UInt8} {r : Bytes} (hc : Grown B names T)
    (ht : p.ty.text ∈ T) (hp : Good p) (hd : d = 44 ∨ d = 41) (he : e < (d :: r).length ∨ (e = (d :: r).length ∧ d = 41)) :
    ∃ names', matchParameter e names ((if b then [32] else []) ++ (p.print ++ d :: r)) = .ok (p.param, false, r, names') ∧ Grown B names' T := by
  have hpl := plain_par p hp.1
  have hpos : 0 < p.print.length := by
    obtain ⟨c, x, h, _⟩ := hpl
    rw [h]; simp
  have ho := out_blank b (plain_append hpl (d :: r)) (by rw [List.length_append]; rcases he with h | h <;> omega)
    (out_par p hp.1 hp.2.1 hd he)
  obtain ⟨names', h1, h2⟩ := getName_clear hc ht
  refine ⟨names', ?_, h2⟩
  rw [matchParameter, ho.run, Res.bind_ok]
  dsimp only [Option.getD]
  rw [toParam, h1, Res.bind_ok, Res.bind_ok, Par.param]
  cases p.op <;> rfl

theorem isVoid_good {p : Par} (h : Good p) : isVoid p.param = false := by
  rw [isVoid, Par.param]
  by_cases h1 : p.op = .value
  · have h2 : p.ty.text ≠ b!"void" := fun h2 => h.2.2 ⟨h1, h2⟩
    simp [h2]
  · simp [h1]

theorem paramLoop_clear {T : List Bytes} (sep : Bool) (post : Bytes) : ∀ (ps : List Par) (names : List Name) (b : Bool) (fuel : Nat),
    Grown B names T → (∀ p ∈ ps, Good p ∧ p.ty.text ∈ T) → ps ≠ [] → ps.length < fuel →
    ∃ names', paramLoop (41 :: post).length fuel names ((if b then [32] else []) ++ (printAll (if sep then [32] else []) ps ++ 41 :: post)) =
      .ok (some (ps.map Par.param, names')) ∧ Grown B names' T
  | [], _, _, _, _, _, h, _ => absurd rfl h
  | [p], names, b, fuel, hc, hk, _, hf => by
    obtain ⟨n, rfl⟩ : ∃ n, fuel = n + 2 := ⟨fuel - 2, by simp at hf; omega⟩
    obtain ⟨hp, ht⟩ := hk p (by simp)
    have hpos : 0 < p.print.length := by
      obtain ⟨c, x, h, _⟩ := plain_par p hp.1
      rw [h]; simp
    obtain ⟨names', h1, h2⟩ := matchParameter_clear (e := (41 :: post).length) (r := post) b hc ht hp (.inr rfl) (.inr ⟨rfl, rfl⟩)
    refine ⟨names', ?_, h2⟩
    rw [paramLoop, if_pos (by rw [printAll]; simp; omega), printAll, h1, Res.bind_ok]
    dsimp only
    rw [paramLoop, if_neg (by simp), Res.bind_ok]
    dsimp only [Option.map]
    rw [isVoid_good hp]
    rfl
  | p :: q :: ps, names, b, fuel, hc, hk, _, hf => by
    obtain ⟨n, rfl⟩ : ∃ n, fuel = n + 1 := ⟨fuel - 1, by simp at hf; omega⟩
    obtain ⟨hp, ht⟩ := hk p (by simp)
    have hpos : 0 < p.print.length := by
      obtain ⟨c, x, h, _⟩ := plain_par p hp.1
      rw [h]; simp
    have e : printAll (if sep then [32] else []) (p :: q :: ps) ++ 41 :: post =
        p.print ++ (44 :: ((if sep then [32] else []) ++ (printAll (if sep then [32] else []) (q :: ps) ++ 41 :: post))) := by
      rw [printAll]
      · simp
      · intro h; cases h
    obtain ⟨names1, h1, h2⟩ := matchParameter_clear (e := (41 :: post).length)
      (r := (if sep then [32] else []) ++ (printAll (if sep then [32] else []) (q :: ps) ++ 41 :: post)) b hc ht hp (.inl rfl) (.inl (by simp; omega))
    obtain ⟨names2, h3, h4⟩ := paramLoop_clear sep post (q :: ps) names1 sep n h2 (fun x hx => hk x (by simp [hx])) (by simp) (by simp at hf ⊢; omega)
    refine ⟨names2, ?_, h4⟩
    rw [e, paramLoop, if_pos (by simp; omega), h1, Res.bind_ok]
    dsimp only
    rw [h3, Res.bind_ok]
    dsimp only [Option.map]
    rw [isVoid_good hp]
    rfl

theorem paramLoop_args_clear {names : List Name} {T : List Bytes} (sep void : Bool) (post : Bytes) (ps : List Par) (fuel : Nat) (hc : Grown B names T)
    (hk : ∀ p ∈ ps, Good p ∧ p.ty.text ∈ T) (hv : void = true → ps = [] → b!"void" ∈ T) (hf : ps.length + 1 < fuel) :
    ∃ names', paramLoop (41 :: post).length fuel names (args (if sep then [32] else []) void ps ++ 41 :: post) = .ok (some (ps.map Par.param, names')) ∧
      Grown B names' T := by
  rw [args]
  by_cases hps : ps = []
  · subst hps
    rw [if_pos rfl]
    obtain ⟨n, rfl⟩ : ∃ n, fuel = n + 2 := ⟨fuel - 2, by simp at hf; omega⟩
    cases void with
    | false =>
      refine ⟨names, ?_, hc⟩
      rw [paramLoop, if_neg (by simp)]
      rfl
    | true =>
      have hw : Ty.Words (.named .none .none b!"void") := by
        refine ⟨by decide, by decide, by decide, by decide, by decide⟩
      have ho := out_par (e := (41 :: post).length) (p := { ty := .named .none .none b!"void" }) (d := 41) (r := post) hw (by decide) (.inr rfl)
        (.inr ⟨rfl, rfl⟩)
      have hpr : Par.print { ty := .named .none .none b!"void" } = b!"void" := rfl
      rw [hpr] at ho
      obtain ⟨names', h1, h2⟩ := getName_clear hc (hv rfl rfl)
      refine ⟨names', ?_, h2⟩
      rw [if_pos rfl, paramLoop, if_pos (by simp), matchParameter, ho.run, Res.bind_ok]
      dsimp only [Option.getD]
      rw [toParam]
      have ht : Ty.text (.named .none .none b!"void") = b!"void" := rfl
      dsimp only
      rw [ht, h1, Res.bind_ok, Res.bind_ok, Res.bind_ok]
      dsimp only
      rw [paramLoop, if_neg (by simp), Res.bind_ok]
      dsimp only [Option.map]
      rw [if_pos (by rfl)]
      rfl
  · rw [if_neg hps]
    exact paramLoop_clear sep post ps names false fuel hc hk hps (by omega)

theorem addAddress_clear {db : Database} {names : List Name} {T : List Bytes} {pre name post : Bytes} {sep void : Bool} {ps : List Par} {address : UInt64}
    {first : List Hash.Param} (hc : Grown B names T) (hk : ∀ p ∈ ps, Good p ∧ p.ty.text ∈ T) (hv : void = true → ps = [] → b!"void" ∈ T) :
    ∃ names', Grown B names' T ∧ addAddress db name (signature pre name sep void ps post) (pre ++ name).length
        ((pre ++ name).length + 1 + (args (if sep then [32] else []) void ps).length) address first names =
      match setAddress (hashOf name) ⟨Hash.uniqueId (first ++ ps.map Par.param)⟩ address db.functions with
      | some fs => .ok (true, { db with names := names', functions := fs })
      | none => .ok (false, { db with names := names' }) := by
  have e1 : signature pre name sep void ps post = (pre ++ name ++ [40]) ++ (args (if sep then [32] else []) void ps ++ 41 :: post) := by
    simp [signature]
  have hlen : ps.length ≤ (args (if sep then [32] else []) void ps).length := by
    rw [args]
    split
    · rename_i h; subst h; simp
    · exact printAll_length _ ps (fun p hp => (hk p hp).1.1)
  have e2 : (signature pre name sep void ps post).drop ((pre ++ name).length + 1) = args (if sep then [32] else []) void ps ++ 41 :: post := by
    rw [e1]
    have : (pre ++ name).length + 1 = (pre ++ name ++ [40]).length := by simp [Nat.add_assoc]
    rw [this, List.drop_left]
  have e3 : (signature pre name sep void ps post).length - ((pre ++ name).length + 1 + (args (if sep then [32] else []) void ps).length) =
      (41 :: post).length := by
    rw [e1]
    simp
    omega
  obtain ⟨names', h1, h2⟩ := paramLoop_args_clear sep void post ps ((signature pre name sep void ps post).length + 1) hc hk hv (by rw [e1]; simp at hlen ⊢; omega)
  refine ⟨names', h2, ?_⟩
  rw [addAddress, e2, e3, h1, Res.bind_ok]
  rfl

theorem static_clear {db : Database} {T : List Bytes} {pre name post : Bytes} {sep void : Bool} {ps : List Par} {address : UInt64} {c : Bool}
    (h1 : (40 : UInt8) ∉ pre ++ name) (ha : address ≠ 0) (hc : Grown B db.names T) (hk : ∀ p ∈ ps, Good p ∧ p.ty.text ∈ T)
    (hv : void = true → ps = [] → b!"void" ∈ T) :
    ∃ names', Grown B names' T ∧ addFunctionAddress db name (signature pre name sep void ps post) address false c =
      match setAddress (hashOf name) ⟨Hash.uniqueId (ps.map Par.param)⟩ address db.functions with
      | some fs => .ok (true, { db with names := names', functions := fs })
      | none => .ok (false, { db with names := names' }) := by
  obtain ⟨f, _, e1, e2, e3⟩ := brackets (post := post) (sep := sep) (void := void) h1 (fun p hp => (hk p hp).1.1)
  obtain ⟨names', h2, h3⟩ := addAddress_clear (db := db) (pre := pre) (name := name) (post := post) (sep := sep) (address := address) (first := []) hc hk hv
  refine ⟨names', h2, ?_⟩
  rw [addFunctionAddress, if_neg ha, e1]
  dsimp only
  rw [e2]
  dsimp only
  rw [e3]
  dsimp only
  rw [if_neg (by decide), h3]
  rfl

theorem method_clear {db : Database} {T : List Bytes} {pre cls m post : Bytes} {sep void : Bool} {ps : List Par} {address : UInt64} {c : Bool}
    (h1 : (40 : UInt8) ∉ pre ++ (cls ++ b!"::" ++ m)) (hm : (58 : UInt8) ∉ m) (hcl : cls.length < 1024) (hcT : cls ∈ T)
    (ha : address ≠ 0) (hc : Grown B db.names T) (hk : ∀ p ∈ ps, Good p ∧ p.ty.text ∈ T) (hv : void = true → ps = [] → b!"void" ∈ T) :
    ∃ names', Grown B names' T ∧
    addFunctionAddress db (cls ++ b!"::" ++ m) (signature pre (cls ++ b!"::" ++ m) sep void ps post) address true c =
      match setAddress (hashOf (cls ++ b!"::" ++ m)) ⟨Hash.uniqueId (⟨cls, .pointer, c⟩ :: ps.map Par.param)⟩ address db.functions with
      | some fs => .ok (true, { db with names := names', functions := fs })
      | none => .ok (false, { db with names := names' }) := by
  obtain ⟨f, _, e1, e2, e3⟩ := brackets (post := post) (sep := sep) (void := void) h1 (fun p hp => (hk p hp).1.1)
  obtain ⟨names1, g1, g2⟩ := getName_clear hc hcT
  have et : thisParam db.names (cls ++ b!"::" ++ m) c = .ok (some (⟨cls, .pointer, c⟩, names1)) := by
    rw [thisParam, rfind_scope hm _ (by simp)]
    dsimp only
    have htake : (cls ++ b!"::" ++ m).take cls.length = cls := by rw [List.append_assoc, List.take_left]
    rw [if_pos hcl, htake, g1, Res.bind_ok]
  generalize cls ++ b!"::" ++ m = name at *
  obtain ⟨names', h2, h3⟩ := addAddress_clear (db := db) (pre := pre) (name := name) (post := post) (sep := sep) (address := address)
    (first := [⟨cls, .pointer, c⟩]) g2 hk hv
  refine ⟨names', h2, ?_⟩
  rw [addFunctionAddress, if_neg ha, e1]
  dsimp only
  rw [e2]
  dsimp only
  rw [e3]
  dsimp only
  rw [if_pos rfl, et, Res.bind_ok]
  dsimp only
  rw [h3]
  rfl

/-! ### GCC's spelling -/

/-- A word and its operator are read as one word. -/
def glue (p : Par) : Par :=
  match p.ty with
  | .named kw sign w => { ty := .named kw sign (w ++ gccOp p.op) }
  | ty => { ty := ty }

theorem uniqueId_text {ps qs : List Hash.Param} (h : ps.map Hash.Param.text = qs.map Hash.Param.text) : Hash.uniqueId ps = Hash.uniqueId qs := by
  have : ∀ (ps : List Hash.Param) (z : BitVec 32), ps.foldl (fun id p => Hash.mixHashes id (Hash.fieldHash p)) z =
      (ps.map Hash.Param.text).foldl (fun id t => Hash.mixHashes id (Hash.hashText t)) z := by
    intro ps z
    rw [List.foldl_map]
    rfl
  rw [Hash.uniqueId, Hash.uniqueId, this, this, h]

theorem word_glue {w : Bytes} (h : Word w) (op : Hash.Op) : Word (w ++ gccOp op) := by
  cases op with
  | value => rw [gccOp, List.append_nil]; exact h
  | pointer | reference =>
    obtain ⟨h1, h2, h3, h4, h5⟩ := h
    obtain ⟨c, w', rfl⟩ := List.exists_cons_of_ne_nil h1
    refine ⟨by simp, ?_, by simpa using h3, by simpa using h4, ?_⟩
    · intro x hx
      rcases List.mem_append.mp hx with hx | hx
      · exact h2 x hx
      · simp [gccOp] at hx
        rw [hx]
        decide
    · intro hmem
      simp only [gccOp, List.mem_cons, List.not_mem_nil, or_false] at hmem
      rcases hmem with h | h | h | h | h | h | h | h | h | h | h <;>
        · have := congrArg List.getLast? h
          rw [List.getLast?_append] at this
          simp at this

theorem text_le (ty : Ty) : ty.text.length ≤ 2 * ty.print.length := by
  induction ty with
  | named kw sign w => simp [Ty.text, Ty.print]; omega
  | int64 sign => simp [Ty.text, Ty.print]; omega
  | templ kw w arg sp ih => simp [Ty.text, Ty.print]; omega

theorem glue_good {p : Par} (h : p.Gcc) : Good (glue p) ∧ (glue p).print = p.gcc ∧ (glue p).param.text = p.param.text ∧ (glue p).ty.text = p.ty.text ++ gccOp p.op := by
  obtain ⟨h1, h2, h3, h4⟩ := h
  obtain ⟨ty, c, op⟩ := p
  dsimp only at *
  subst h1
  rcases h2 with ⟨sign, w, rfl, hw⟩ | ⟨hw, rfl⟩
  · have hg : glue { ty := .named .none sign w, isConst := false, op := op } = { ty := .named .none sign (w ++ gccOp op) } := rfl
    rw [hg]
    have ht : Ty.text (.named .none sign (w ++ gccOp op)) = Ty.text (.named .none sign w) ++ gccOp op := by simp [Ty.text]
    refine ⟨⟨word_glue hw op, ?_, ?_⟩, ?_, ?_, ht⟩
    · rw [ht]
      simp [Ty.print, Ty.text, Kw.print] at h3 ⊢
      omega
    · rintro ⟨_, he⟩
      dsimp only at he
      rw [ht] at he
      exact h4 he
    · simp [Par.print, Par.gcc, Ty.print, Kw.print, opText]
    · simp only [Par.param, Hash.Param.text]
      rw [ht]
      cases op <;> simp [gccOp]
  · have hg : glue { ty := ty, isConst := false, op := .value } = { ty := ty } := by
      cases ty <;> simp [glue, gccOp]
    rw [hg]
    have hl := text_le ty
    rw [gccOp, List.append_nil] at *
    refine ⟨⟨hw, ?_, fun h => h4 h.2⟩, ?_, rfl, rfl⟩
    · dsimp only; omega
    · simp [Par.print, Par.gcc, opText, gccOp]

theorem glueAll {ps : List Par} (h : ∀ p ∈ ps, p.Gcc) : printAll [32] (ps.map glue) = gccAll ps := by
  match ps with
  | [] => rfl
  | [p] => exact (glue_good (h p (by simp))).2.1
  | p :: q :: ps =>
    have ih := glueAll (ps := q :: ps) (fun x hx => h x (by simp [hx]))
    have e1 : gccAll (p :: q :: ps) = p.gcc ++ b!", " ++ gccAll (q :: ps) := rfl
    have e2 : printAll [32] ((p :: q :: ps).map glue) = (glue p).print ++ (44 :: [32]) ++ printAll [32] ((q :: ps).map glue) := rfl
    rw [e1, e2, ih, (glue_good (h p (by simp))).2.1]

/-- A signature as GCC's demangler spells it. -/
theorem gcc_signature {pre name post : Bytes} {ps : List Par} (h : ∀ p ∈ ps, p.Gcc) :
    pre ++ name ++ b!"(" ++ gccAll ps ++ b!")" ++ post = signature pre name true false (ps.map glue) post := by
  rw [signature, args]
  cases ps with
  | nil => rfl
  | cons p ps => rw [if_neg (by simp), if_pos rfl, glueAll h]

theorem glue_ids {ps : List Par} (h : ∀ p ∈ ps, p.Gcc) (first : List Hash.Param) :
    Hash.uniqueId (first ++ (ps.map glue).map Par.param) = Hash.uniqueId (first ++ ps.map Par.param) := by
  refine uniqueId_text ?_
  rw [List.map_append, List.map_append]
  congr 1
  rw [List.map_map, List.map_map, List.map_map]
  exact List.map_congr_left (fun p hp => (glue_good (h p hp)).2.2.1)

end Clr.Map
