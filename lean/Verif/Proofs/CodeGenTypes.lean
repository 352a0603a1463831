import Verif.Model.CodeGenTypesSpec
import Verif.Props.CodeGen
import Verif.Proofs.CodeGenFile
import Verif.Props.FileUtils

/-!
What is read in the generated files with `GetType` and its likes.
-/
namespace Clr.Gen
open FileUtils (decLoop)

/-! ### Numbers -/

/-- A decimal digit. -/
def isDec (c : UInt8) : Bool := 48 ≤ c && c ≤ 57

theorem isDec_ofNat (k : Nat) (h : k < 10) : isDec (UInt8.ofNat (48 + k)) = true := by
  have : ∀ k : Fin 10, isDec (UInt8.ofNat (48 + k)) = true := by decide
  exact this ⟨k, h⟩

theorem decText_digits (n : Nat) : ∀ c ∈ decText n, isDec c = true := by
  have : ∀ (n : Nat) (acc : Bytes), (∀ c ∈ acc, isDec c = true) → ∀ c ∈ decLoop n acc, isDec c = true := by
    intro n
    induction n using Nat.strongRecOn with
    | _ n ih =>
      intro acc hacc
      have hcons : ∀ c ∈ UInt8.ofNat (48 + n % 10) :: acc, isDec c = true := by
        intro c hc
        rcases List.mem_cons.mp hc with rfl | hc
        · exact isDec_ofNat _ (Nat.mod_lt _ (by decide))
        · exact hacc c hc
      rw [decLoop]
      split
      · exact hcons
      · exact ih (n / 10) (by omega) _ hcons
  exact this n [] (by simp)

theorem decText_ne_nil (n : Nat) : decText n ≠ [] := by
  obtain ⟨c, cs, h, _⟩ := FileUtils.decLoop_head n []
  rw [decText, h]
  exact List.cons_ne_nil _ _

theorem decText_value (n : Nat) : (decText n).foldl (fun a c => a * 10 + (c.toNat - 48)) 0 = n := by
  have : ∀ (ds : Bytes) (a : Nat), (∀ c ∈ ds, isDec c = true) →
      ds.foldl (fun a c => a * 10 + (c.toNat - 48)) a = FileUtils.atoiDigits ds a := by
    intro ds
    induction ds with
    | nil => intro a _; rfl
    | cons c cs ih =>
      intro a h
      have hc := h c List.mem_cons_self
      simp only [isDec, Bool.and_eq_true, decide_eq_true_eq, UInt8.le_iff_toNat_le] at hc
      have hc' : 48 ≤ c.toNat ∧ c.toNat ≤ 57 := hc
      rw [List.foldl_cons, FileUtils.atoiDigits, if_pos hc', ih _ fun c hc => h c (List.mem_cons_of_mem _ hc)]
  rw [this _ _ (decText_digits n), decText, FileUtils.atoiDigits_loop]
  rfl

theorem takeWhile_all {p : UInt8 → Bool} {ds rest : Bytes} (h : ∀ c ∈ ds, p c = true) (hr : ∀ c, rest.head? = some c → p c = false) :
    (ds ++ rest).takeWhile p = ds := by
  induction ds with
  | nil =>
    cases rest with
    | nil => rfl
    | cons c r => simp [hr c rfl]
  | cons d ds ih =>
    rw [List.cons_append, List.takeWhile_cons, if_pos (h d List.mem_cons_self), ih fun c hc => h c (List.mem_cons_of_mem _ hc)]

theorem decimal_decText (n : Nat) (c : UInt8) (r : Bytes) (h : isDec c = false) : decimal (decText n ++ c :: r) = some (n, c :: r) := by
  have ht : (decText n ++ c :: r).takeWhile (fun c => 48 ≤ c && c ≤ 57) = decText n :=
    takeWhile_all (p := isDec) (decText_digits n) (by rintro d ⟨⟩; exact h)
  unfold decimal
  simp only [ht]
  rw [if_neg (decText_ne_nil n), decText_value, List.drop_left]

theorem hexadecimal_hexText (n : Nat) (c : UInt8) (r : Bytes) (h : isHex c = false) : hexadecimal (hexText n ++ c :: r) = some (n, c :: r) := by
  have ht : (hexText n ++ c :: r).takeWhile isHex = hexText n := takeWhile_hexText n (by rintro d ⟨⟩; exact h)
  have hn : hexText n ≠ [] := by
    obtain ⟨d, ds, _, e, _⟩ := hexText_head n
    rw [e]
    exact List.cons_ne_nil _ _
  unfold hexadecimal
  simp only [ht]
  have := hexText_value n
  rw [valueFrom] at this
  rw [if_neg hn, this, List.drop_left]

theorem hexText_length (k n : Nat) (h : n < 16 ^ (k + 1)) : (hexText n).length ≤ k + 1 := by
  induction k generalizing n with
  | zero => rw [hexText_small (by omega)]; simp
  | succ k ih =>
    by_cases hn : n < 16
    · rw [hexText_small hn]; simp
    · rw [hexText_big hn, List.length_append]
      have := ih (n / 16) (by rw [Nat.pow_succ] at h; omega)
      simp only [List.length_cons, List.length_nil]
      omega

theorem hash_length (h : BitVec 32) : (hexText h.toNat).length ≤ 8 := hexText_length 7 _ (by have := h.isLt; omega)

theorem index_length (n : Nat) (h : n < 10 ^ 9) : (decText n).length ≤ 9 := FileUtils.decLoop_length n 8 h

/-! ### Names -/

theorem behind_self (p r : Bytes) : behind p (p ++ r) = some r := by
  induction p with
  | nil => cases r <;> rfl
  | cons a p ih => rw [List.cons_append, behind, if_pos rfl, ih]

theorem argument_name (name r : Bytes) (h : 40 ∉ name) : argument (name ++ b!" >" ++ 40 :: r) = some (name, 40 :: r) := by
  have ht : (name ++ b!" >" ++ 40 :: r).takeWhile (· != 40) = name ++ b!" >" := by
    refine takeWhile_all ?_ (by rintro d ⟨⟩; decide)
    intro c hc
    have : c ≠ 40 := by
      rintro rfl
      rcases List.mem_append.mp hc with hc | hc
      · exact h hc
      · exact absurd hc (by decide)
    simpa using this
  unfold argument
  simp only [ht]
  have hl : (name ++ b!" >").length - 2 = name.length := by simp
  rw [hl, List.drop_left, if_pos rfl, List.take_left, List.drop_left]

/-- What is needed of a primitive. -/
structure Good (p : Prim) : Prop where
  name : 40 ∉ globalName p
  length : (globalName p).length ≤ 432

theorem good_of {p : Prim} (h : Short p.text) : Good p := by
  obtain ⟨h1, h2⟩ := h
  constructor
  · unfold globalName
    split
    · simp [h1]
    · exact h1
  · unfold globalName
    split
    · simp only [List.length_append, List.length_cons, List.length_nil]; omega
    · omega

/-! ### Statements -/

theorem getType_stmt {p : Prim} (hp : Good p) (i : Nat) (g : Bool) :
    stmtOf ⟨[b!"clcpp"], getTypeLine p i, g⟩ = some (.getType (globalName p) i g) := by
  have e : getTypeLine p i = b!"template <> const Type* GetType< " ++ (globalName p ++ b!" >" ++ 40 :: (b!") { return clcppTypePtrs[" ++
      (decText i ++ b!"]; }"))) := by simp [getTypeLine]
  have h1 : sizeOf ⟨[b!"clcpp"], getTypeLine p i, g⟩ = none := by rw [e]; rfl
  have h2 : assignOf ⟨[b!"clcpp"], getTypeLine p i, g⟩ = none := by rw [e]; rfl
  have h3 : getTypeOf ⟨[b!"clcpp"], getTypeLine p i, g⟩ = some (.getType (globalName p) i g) := by
    have hb : ∀ r, behind b!"() { return clcppTypePtrs[" (40 :: (b!") { return clcppTypePtrs[" ++ r)) = some r := fun r => behind_self _ r
    rw [getTypeOf, e]
    dsimp only
    rw [behind_self]
    dsimp only [Option.bind_eq_bind, Option.bind_some]
    rw [argument_name _ _ hp.name]
    dsimp only [Option.bind_eq_bind, Option.bind_some]
    rw [hb]
    dsimp only [Option.bind_eq_bind, Option.bind_some]
    rw [decimal_decText _ _ _ (by decide)]
    dsimp only [Option.bind_eq_bind, Option.bind_some]
    rw [if_pos ⟨rfl, rfl⟩]
  rw [stmtOf, h1, h2, h3]
  rfl

theorem getHash_stmt {p : Prim} (hp : Good p) (g : Bool) :
    stmtOf ⟨[b!"clcpp"], getHashLine p, g⟩ = some (.getHash (globalName p) p.hash.toNat g) := by
  have e : getHashLine p = b!"template <> unsigned int GetTypeNameHash< " ++ (globalName p ++ b!" >" ++ 40 :: (b!") { return 0x" ++
      (hexText p.hash.toNat ++ b!"; }"))) := by simp [getHashLine]
  have h1 : sizeOf ⟨[b!"clcpp"], getHashLine p, g⟩ = none := by rw [e]; rfl
  have h2 : assignOf ⟨[b!"clcpp"], getHashLine p, g⟩ = none := by rw [e]; rfl
  have h3 : getTypeOf ⟨[b!"clcpp"], getHashLine p, g⟩ = none := by rw [e]; rfl
  have h4 : getHashOf ⟨[b!"clcpp"], getHashLine p, g⟩ = some (.getHash (globalName p) p.hash.toNat g) := by
    have hb : ∀ r, behind b!"() { return 0x" (40 :: (b!") { return 0x" ++ r)) = some r := fun r => behind_self _ r
    rw [getHashOf, e]
    dsimp only
    rw [behind_self]
    dsimp only [Option.bind_eq_bind, Option.bind_some]
    rw [argument_name _ _ hp.name]
    dsimp only [Option.bind_eq_bind, Option.bind_some]
    rw [hb]
    dsimp only [Option.bind_eq_bind, Option.bind_some]
    rw [hexadecimal_hexText _ _ _ (by decide)]
    dsimp only [Option.bind_eq_bind, Option.bind_some]
    rw [if_pos ⟨rfl, rfl⟩]
  rw [stmtOf, h1, h2, h3, h4]
  rfl

theorem typeHash_stmt {p : Prim} (hp : Good p) (g : Bool) :
    stmtOf ⟨[], typeHashLine p, g⟩ = some (.typeHash (globalName p) p.hash.toNat g) := by
  have e : typeHashLine p = b!"template <> constexpr unsigned int clcppTypeHash< " ++ (globalName p ++ b!" >" ++ 40 :: (b!") { return 0x" ++
      (hexText p.hash.toNat ++ b!"; }"))) := by simp [typeHashLine]
  have h1 : sizeOf ⟨[], typeHashLine p, g⟩ = none := by rw [e]; rfl
  have h2 : assignOf ⟨[], typeHashLine p, g⟩ = none := by rw [e]; rfl
  have h3 : getTypeOf ⟨[], typeHashLine p, g⟩ = none := by rw [e]; rfl
  have h3' : getHashOf ⟨[], typeHashLine p, g⟩ = none := by rw [e]; rfl
  have h4 : typeHashOf ⟨[], typeHashLine p, g⟩ = some (.typeHash (globalName p) p.hash.toNat g) := by
    have hb : ∀ r, behind b!"() { return 0x" (40 :: (b!") { return 0x" ++ r)) = some r := fun r => behind_self _ r
    rw [typeHashOf, e]
    dsimp only
    rw [behind_self]
    dsimp only [Option.bind_eq_bind, Option.bind_some]
    rw [argument_name _ _ hp.name]
    dsimp only [Option.bind_eq_bind, Option.bind_some]
    rw [hb]
    dsimp only [Option.bind_eq_bind, Option.bind_some]
    rw [hexadecimal_hexText _ _ _ (by decide)]
    dsimp only [Option.bind_eq_bind, Option.bind_some]
    rw [if_pos ⟨rfl, rfl⟩]
  rw [stmtOf, h1, h2, h3, h3', h4]
  rfl

theorem assign_stmt (p : Prim) (i : Nat) (g : Bool) : stmtOf ⟨[[], []], initLine p i, g⟩ = some (.assign i p.hash.toNat) := by
  have e : initLine p i = b!"clcppTypePtrs[" ++ (decText i ++ 93 :: (b!" = db->GetType(0x" ++ (hexText p.hash.toNat ++ b!");"))) := by
    simp [initLine]
  have h1 : sizeOf ⟨[[], []], initLine p i, g⟩ = none := by rw [e]; rfl
  have h2 : assignOf ⟨[[], []], initLine p i, g⟩ = some (.assign i p.hash.toNat) := by
    have hb : ∀ r, behind b!"] = db->GetType(0x" (93 :: (b!" = db->GetType(0x" ++ r)) = some r := fun r => behind_self _ r
    rw [assignOf, e]
    dsimp only
    rw [behind_self]
    dsimp only [Option.bind_eq_bind, Option.bind_some]
    rw [decimal_decText _ _ _ (by decide)]
    dsimp only [Option.bind_eq_bind, Option.bind_some]
    rw [hb]
    dsimp only [Option.bind_eq_bind, Option.bind_some]
    rw [hexadecimal_hexText _ _ _ (by decide)]
    dsimp only [Option.bind_eq_bind, Option.bind_some]
    rw [if_pos ⟨rfl, rfl⟩]
  rw [stmtOf, h1, h2]
  rfl

theorem size_stmt (n : Nat) (g : Bool) :
    stmtOf ⟨[], b!"static const int clcppNbTypes = " ++ decText n ++ b!";", g⟩ = some (.size n) := by
  have h1 : sizeOf ⟨[], b!"static const int clcppNbTypes = " ++ decText n ++ b!";", g⟩ = some (.size n) := by
    rw [List.append_assoc, sizeOf]
    dsimp only
    rw [behind_self]
    dsimp only [Option.bind_eq_bind, Option.bind_some]
    rw [decimal_decText _ _ _ (by decide)]
    dsimp only [Option.bind_eq_bind, Option.bind_some]
    rw [if_pos ⟨rfl, rfl⟩]
  rw [stmtOf, h1]
  rfl

/-- A declaration is none of them. -/
theorem decl_stmt {db : Db} {d : Decl} (h : d ∈ decls db) : stmtOf d = none := by
  have key : ∀ (q r : Bytes) (path : List Bytes) (g : Bool), q = b!"class " ∨ q = b!"struct " ∨ q = b!"enum " →
      stmtOf ⟨path, q ++ r, g⟩ = none := by
    rintro q r path g (rfl | rfl | rfl) <;> rfl
  rw [decls, List.mem_append, List.mem_map, List.mem_map] at h
  rcases h with ⟨c, _, rfl⟩ | ⟨e, _, rfl⟩
  · unfold Cls.decl
    rw [List.append_assoc]
    split
    · exact key _ _ _ _ (.inl rfl)
    · exact key _ _ _ _ (.inr (.inl rfl))
  · unfold En.decl
    split
    · rw [List.append_assoc]; exact key _ _ _ _ (.inr (.inr rfl))
    · rw [List.append_assoc]; exact key (b!"enum ") (b!"class " ++ _) _ _ (.inr (.inr rfl))
    · rw [List.append_assoc]; exact key (b!"enum ") (b!"struct " ++ _) _ _ (.inr (.inr rfl))

/-! ### Lines -/

/-- The statements read from lines in a scope. -/
def within (path : List Bytes) (name : Bytes) (g : Bool) (ls : List Bytes) : List Stmt := (read path name g ls).declared.filterMap stmtOf

theorem within_other (path : List Bytes) (name : Bytes) (g : Bool) (ind : Nat) (c : UInt8) (r : Bytes) (hl : r.length ≤ 510)
    (hc : c ≠ 9 ∧ c ≠ 47 ∧ c ≠ 123 ∧ c ≠ 125 ∧ c ≠ 110 ∧ c ≠ 35) (ls : List Bytes) :
    within path name g (line ind (c :: r) :: ls) = (stmtOf ⟨path, c :: r, g⟩).toList ++ within path name g ls := by
  unfold within
  rw [read_other path name g ind c r hl hc]
  dsimp only
  rw [List.filterMap_cons]
  cases stmtOf ⟨path, c :: r, g⟩ <;> rfl

theorem within_text (path : List Bytes) (name : Bytes) (g : Bool) (ind : Nat) (t : Bytes) (c : UInt8) (hh : t.head? = some c)
    (hl : t.length ≤ 511) (hc : c ≠ 9 ∧ c ≠ 47 ∧ c ≠ 123 ∧ c ≠ 125 ∧ c ≠ 110 ∧ c ≠ 35) (ls : List Bytes) :
    within path name g (line ind t :: ls) = (stmtOf ⟨path, t, g⟩).toList ++ within path name g ls := by
  cases t with
  | nil => cases hh
  | cons d r =>
    injection hh with hh
    subst hh
    exact within_other path name g ind d r (by simp only [List.length_cons] at hl; omega) hc ls

theorem within_assigns (ps : List (Prim × Nat)) (hi : ∀ x ∈ ps, x.2 < 10 ^ 9) (ls : List Bytes) :
    within [[], []] [] false (ps.map (fun x => line 2 (initLine x.1 x.2)) ++ ls) =
      ps.map (fun x => .assign x.2 x.1.hash.toNat) ++ within [[], []] [] false ls := by
  induction ps with
  | nil => rfl
  | cons x r ih =>
    rw [List.map_cons, List.map_cons, List.cons_append, List.cons_append, ← ih fun y hy => hi y (List.mem_cons_of_mem _ hy)]
    have hs := assign_stmt x.1 x.2 false
    have hlen : (initLine x.1 x.2).length ≤ 511 := by
      have := hash_length x.1.hash
      have := index_length x.2 (hi x List.mem_cons_self)
      simp only [initLine, List.length_append, List.length_cons, List.length_nil]
      omega
    have he : ∃ t, initLine x.1 x.2 = 99 :: t := ⟨_, rfl⟩
    obtain ⟨t, ht⟩ := he
    rw [ht] at hs hlen ⊢
    rw [within_other _ _ _ _ _ _ (by simp only [List.length_cons] at hlen; omega) (by decide), hs]
    rfl

/-- The statements for a primitive. -/
def both (g : Bool) (x : Prim × Nat) : List Stmt := [.getType (globalName x.1) x.2 g, .getHash (globalName x.1) x.1.hash.toNat g]

theorem within_both (ps : List (Prim × Nat)) (hi : ∀ x ∈ ps, x.2 < 10 ^ 9 ∧ Good x.1) (g : Bool) (name : Bytes) (ls : List Bytes) :
    within [b!"clcpp"] name g ((ps.flatMap fun x => [line 1 (getTypeLine x.1 x.2), line 1 (getHashLine x.1)]) ++ ls) =
      ps.flatMap (both g) ++ within [b!"clcpp"] name g ls := by
  induction ps with
  | nil => rfl
  | cons x r ih =>
    rw [List.flatMap_cons, List.flatMap_cons, List.append_assoc, List.append_assoc, ← ih fun y hy => hi y (List.mem_cons_of_mem _ hy)]
    obtain ⟨h1, h2⟩ := hi x List.mem_cons_self
    have hs := getType_stmt h2 x.2 g
    have hs' := getHash_stmt h2 g
    have hlen : (getTypeLine x.1 x.2).length ≤ 511 := by
      have := index_length x.2 h1
      have := h2.length
      simp only [getTypeLine, List.length_append, List.length_cons, List.length_nil]
      omega
    have hlen' : (getHashLine x.1).length ≤ 511 := by
      have := hash_length x.1.hash
      have := h2.length
      simp only [getHashLine, List.length_append, List.length_cons, List.length_nil]
      omega
    have he : ∃ t, getTypeLine x.1 x.2 = 116 :: t := ⟨_, rfl⟩
    obtain ⟨t, ht⟩ := he
    have he' : ∃ t, getHashLine x.1 = 116 :: t := ⟨_, rfl⟩
    obtain ⟨t', ht'⟩ := he'
    rw [ht] at hs hlen ⊢
    rw [ht'] at hs' hlen' ⊢
    rw [List.cons_append, within_other _ _ _ _ _ _ (by simp only [List.length_cons] at hlen; omega) (by decide), hs, List.cons_append,
      within_other _ _ _ _ _ _ (by simp only [List.length_cons] at hlen'; omega) (by decide), hs']
    rfl

theorem within_typeHashes (ps : List Prim) (hi : ∀ p ∈ ps, Good p) (g : Bool) (name : Bytes) (ls : List Bytes) :
    within [] name g (ps.map (fun p => line 0 (typeHashLine p)) ++ ls) =
      ps.map (fun p => .typeHash (globalName p) p.hash.toNat g) ++ within [] name g ls := by
  induction ps with
  | nil => rfl
  | cons p r ih =>
    rw [List.map_cons, List.map_cons, List.cons_append, List.cons_append, ← ih fun y hy => hi y (List.mem_cons_of_mem _ hy)]
    have h2 := hi p List.mem_cons_self
    have hs := typeHash_stmt h2 g
    have hlen : (typeHashLine p).length ≤ 511 := by
      have := hash_length p.hash
      have := h2.length
      simp only [typeHashLine, List.length_append, List.length_cons, List.length_nil]
      omega
    have he : ∃ t, typeHashLine p = 116 :: t := ⟨_, rfl⟩
    obtain ⟨t, ht⟩ := he
    rw [ht] at hs hlen ⊢
    rw [within_other _ _ _ _ _ _ (by simp only [List.length_cons] at hlen; omega) (by decide), hs]
    rfl

theorem within_comment (path : List Bytes) (name : Bytes) (g : Bool) (ind : Nat) (t : Bytes) (hh : t.take 2 = b!"//") (hl : t.length ≤ 511)
    (ls : List Bytes) : within path name g (line ind t :: ls) = within path name g ls := by
  cases t with
  | nil => cases hh
  | cons d r =>
    cases r with
    | nil => cases hh
    | cons e r =>
      injection hh with h1 h2
      injection h2 with h2 _
      subst h1 h2
      unfold within
      rw [read, line_strip (by decide) (by simp only [List.length_cons] at hl ⊢; omega)]
      dsimp only
      rw [if_pos (.inr rfl)]

theorem within_empty (path : List Bytes) (name : Bytes) (g : Bool) (ls : List Bytes) :
    within path name g (line 0 [] :: ls) = within path name g ls := by
  unfold within
  rw [read]
  have : (line 0 []).dropWhile (· == 9) = [] := rfl
  rw [this]
  dsimp only
  rw [if_pos (.inl rfl)]

theorem within_open (path : List Bytes) (name : Bytes) (g : Bool) (ind : Nat) (ls : List Bytes) :
    within path name g (line ind b!"{" :: ls) = within (path ++ [name]) [] g ls := by
  unfold within
  rw [read_open]

theorem within_close (path : List Bytes) (name : Bytes) (g : Bool) (ind : Nat) (ls : List Bytes) :
    within path name g (line ind b!"}" :: ls) = within path.dropLast [] g ls := by
  unfold within
  rw [read_close]

theorem within_forward {db : Db} (S : Spelled db) (ls : List Bytes) : within [] [] false (forwardDeclare db ++ ls) = within [] [] false ls := by
  rw [forwardDeclare, buildMap_eq S.hashes, List.append_assoc, List.append_assoc, List.singleton_append]
  rw [within_comment _ _ _ _ _ (by decide) (by decide)]
  unfold within
  rw [read_declare S]
  dsimp only
  rw [List.filterMap_append]
  have : (declaredAt db (depth db) 0#32 []).filterMap stmtOf = [] := by
    have hp := C50_declared_partial db S
    rw [read_forwardDeclare S] at hp
    dsimp only at hp
    rw [List.filterMap_eq_nil_iff]
    exact fun d hd => decl_stmt (hp.mem_iff.mp hd)
  rw [show (0 : BitVec 32) = 0#32 from rfl, this, List.nil_append]
  exact within_empty [] [] false ls

/-- The `#include` at the beginning is not one of the statements. -/
theorem within_include (ls : List Bytes) : within [] [] false (includeDependencies ++ ls) = within [] [] false ls := by
  rw [includeDependencies, List.cons_append, List.cons_append, List.cons_append, List.nil_append]
  rw [within_comment _ _ _ _ _ (by decide) (by decide)]
  have : within [] [] false (line 0 b!"#include <clcpp/clcpp.h>" :: line 0 [] :: ls) = within [] [] false (line 0 [] :: ls) := by
    unfold within
    rw [read]
    have hl := line_strip (ind := 0) (c := 35) (r := (b!"#include <clcpp/clcpp.h>").tail) (by decide) (by decide)
    rw [show (35 : UInt8) :: (b!"#include <clcpp/clcpp.h>").tail = b!"#include <clcpp/clcpp.h>" from rfl] at hl
    rw [hl]
    dsimp only
    rw [if_neg (by decide), if_neg (by decide), if_neg (by decide), if_neg (by decide), if_neg (by decide), if_neg (by decide)]
    dsimp only
    rw [List.filterMap_cons_none (by decide)]
  rw [this, within_empty]

/-! ### The primitives -/

theorem primitives_good {db : Db} (L : Listed db) : ∀ p ∈ primitives db.namespaces db, Good p := by
  intro p hp
  rw [primitives, List.mem_append, List.mem_append] at hp
  rcases hp with (hp | hp) | hp
  · obtain ⟨c, hc, rfl⟩ := List.mem_map.mp hp
    exact good_of (L.classes c (List.mem_filter.mp hc).1)
  · obtain ⟨c, hc, rfl⟩ := List.mem_map.mp hp
    exact good_of (L.enums c (List.mem_filter.mp hc).1)
  · obtain ⟨c, hc, rfl⟩ := List.mem_map.mp hp
    exact good_of (L.types c hc)

theorem primitives_few {db : Db} (L : Listed db) : (primitives db.namespaces db).length < 10 ^ 9 := by
  have := L.few
  have h1 := List.length_filter_le (fun c : Cls => known db.namespaces c.parent) db.classes
  have h2 := List.length_filter_le (fun c : En => known db.namespaces c.parent) db.enums
  simp only [primitives, classPrims, enumPrims, typePrims, List.length_append, List.length_map]
  omega

theorem zipIdx_good {db : Db} (L : Listed db) : ∀ x ∈ (primitives db.namespaces db).zipIdx, x.2 < 10 ^ 9 ∧ Good x.1 := by
  rintro ⟨p, i⟩ hx
  have := primitives_few L
  have h := List.mem_zipIdx_iff_getElem?.mp hx
  have hi := (List.getElem?_eq_some_iff.mp h).1
  exact ⟨by dsimp only at hi ⊢; omega, primitives_good L p (List.mem_of_getElem? h)⟩

/-- What is read in the source file. -/
theorem stmts_cppFile {db : Db} (L : Listed db) :
    stmts (cppFile db) = .size (primitives db.namespaces db).length ::
      ((primitives db.namespaces db).zipIdx.map (fun x => .assign x.2 x.1.hash.toNat) ++
      (((primitives db.namespaces db).zipIdx.filter fun x => notEnum x.1.type).flatMap (both false) ++
      ((primitives db.namespaces db).zipIdx.filter fun x => isEnum x.1.type).flatMap (both true))) := by
  show within [] [] false (cppFile db) = _
  rw [cppFile, buildMap_eq L.spelled.hashes]
  dsimp only
  have hgood := zipIdx_good L
  have hfew := primitives_few L
  generalize primitives db.namespaces db = ps at hgood hfew
  have hsize := size_stmt ps.length false
  have hlen : (b!"static const int clcppNbTypes = " ++ decText ps.length ++ b!";").length ≤ 511 := by
    have := index_length ps.length hfew
    simp only [List.length_append, List.length_cons, List.length_nil]
    omega
  have hhead : (b!"static const int clcppNbTypes = " ++ decText ps.length ++ b!";").head? = some 115 := rfl
  generalize b!"static const int clcppNbTypes = " ++ decText ps.length ++ b!";" = t at hsize hlen hhead ⊢
  simp only [List.append_assoc]
  rw [within_include]
  show within [] [] false (line 0 b!"// Array of type name pointers" :: line 0 t ::
    line 0 b!"static const clcpp::Type* clcppTypePtrs[clcppNbTypes] = { 0 };" :: line 0 [] ::
    line 0 b!"void clcppInitGetType(const clcpp::Database* db)" :: line 0 b!"{" ::
    line 1 b!"// Populate the type pointer array if a database is specified" :: line 1 b!"if (db != 0)" :: line 1 b!"{" ::
    (ps.zipIdx.map (fun x => line 2 (initLine x.1 x.2)) ++ (line 1 b!"}" :: line 0 b!"}" :: line 0 [] :: (forwardDeclare db ++
    (line 0 b!"// Specialisations for GetType and GetTypeNameHash" :: line 0 b!"namespace clcpp" :: line 0 b!"{" :: (getTypes ps notEnum 1 ++
    (line 1 b!"#if defined(CLCPP_USING_MSVC)" :: (getTypes ps isEnum 1 ++ (line 1 b!"#endif" :: line 0 b!"}" :: []))))))))) = _
  rw [within_comment _ _ _ _ _ (by decide) (by decide), within_text _ _ _ _ _ _ hhead hlen (by decide), hsize,
    within_text _ _ _ _ _ 115 rfl (by decide) (by decide), within_empty, within_text _ _ _ _ _ 118 rfl (by decide) (by decide), within_open,
    within_comment _ _ _ _ _ (by decide) (by decide), within_text _ _ _ _ _ 105 rfl (by decide) (by decide), within_open]
  show _ = [Stmt.size ps.length] ++ _
  congr 1
  rw [show stmtOf ⟨[], b!"static const clcpp::Type* clcppTypePtrs[clcppNbTypes] = { 0 };", false⟩ = none from rfl,
    show stmtOf ⟨[], b!"void clcppInitGetType(const clcpp::Database* db)", false⟩ = none from rfl,
    show stmtOf ⟨[] ++ [[]], b!"if (db != 0)", false⟩ = none from rfl]
  show within [[], []] [] false _ = _
  rw [within_assigns _ fun x hx => (hgood x hx).1]
  congr 1
  rw [within_close, within_close]
  show within [] [] false _ = _
  rw [within_empty, within_forward L.spelled, within_comment _ _ _ _ _ (by decide) (by decide)]
  have hns : ∀ ls, within [] [] false (line 0 b!"namespace clcpp" :: ls) = within [] b!"clcpp" false ls := by
    intro ls
    unfold within
    rw [show b!"namespace clcpp" = b!"namespace " ++ b!"clcpp" from rfl, read_namespace _ _ _ _ _ (by decide)]
  rw [hns, within_open]
  show within [b!"clcpp"] [] false _ = _
  rw [getTypes, within_both _ (fun x hx => hgood x (List.mem_filter.mp hx).1)]
  congr 1
  have hif : ∀ ls, within [b!"clcpp"] [] false (line 1 b!"#if defined(CLCPP_USING_MSVC)" :: ls) = within [b!"clcpp"] [] true ls := by
    intro ls
    unfold within
    rw [read_if]
  rw [hif, getTypes, within_both _ (fun x hx => hgood x (List.mem_filter.mp hx).1)]
  have hend : within [b!"clcpp"] [] true [line 1 b!"#endif", line 0 b!"}"] = [] := by
    unfold within
    rw [read_endif, read_close]
    rfl
  rw [hend, List.append_nil]

/-- What is read in the header. -/
theorem stmts_hFile {db : Db} (L : Listed db) :
    stmts (hFile db) =
      ((primitives db.namespaces db).filter fun p => notEnum p.type).map (fun p => .typeHash (globalName p) p.hash.toNat false) ++
      ((primitives db.namespaces db).filter fun p => isEnum p.type).map (fun p => .typeHash (globalName p) p.hash.toNat true) := by
  show within [] [] false (hFile db) = _
  rw [hFile, buildMap_eq L.spelled.hashes]
  dsimp only
  have hgood := primitives_good L
  generalize primitives db.namespaces db = ps at hgood
  simp only [List.append_assoc]
  rw [within_include, within_forward L.spelled, List.singleton_append, within_comment _ _ _ _ _ (by decide) (by decide), typeHashes,
    within_typeHashes _ (fun x hx => hgood x (List.mem_filter.mp hx).1)]
  congr 1
  have hif : ∀ ls, within [] [] false (line 0 b!"#if defined(CLCPP_USING_MSVC)" :: ls) = within [] [] true ls := by
    intro ls
    unfold within
    rw [read_if]
  rw [List.singleton_append, hif, typeHashes, within_typeHashes _ (fun x hx => hgood x (List.mem_filter.mp hx).1)]
  have hend : within [] [] true [line 0 b!"#endif"] = [] := by
    unfold within
    rw [read_endif]
    rfl
  rw [hend, List.append_nil]

/-! ### The tables -/

theorem element_assigns (ps : List Prim) (k i : Nat) :
    (ps.zipIdx k).filterMap (fun x => if x.2 = i then some x.1.hash.toNat else none) =
      if k ≤ i then (ps[i - k]?.map fun p => p.hash.toNat).toList else [] := by
  induction ps generalizing k with
  | nil => simp
  | cons p r ih =>
    rw [List.zipIdx_cons, List.filterMap_cons, ih (k + 1)]
    dsimp only
    by_cases h : k = i
    · subst h
      rw [if_pos rfl, if_neg (by omega), if_pos (Nat.le_refl _), Nat.sub_self]
      rfl
    · rw [if_neg h]
      dsimp only
      by_cases h' : k + 1 ≤ i
      · rw [if_pos h', if_pos (by omega)]
        have : i - k = (i - (k + 1)) + 1 := by omega
        rw [this, List.getElem?_cons_succ]
      · rw [if_neg h', if_neg (by omega)]

theorem filter_zipIdx {α : Type} (m : PrimType → Bool) (f : Prim → α) (ps : List Prim) (k : Nat) :
    ((ps.zipIdx k).filter fun x => m x.1.type).map (fun x => f x.1) = (ps.filter fun p => m p.type).map f := by
  induction ps generalizing k with
  | nil => rfl
  | cons p r ih =>
    rw [List.zipIdx_cons, List.filter_cons, List.filter_cons]
    dsimp only
    split
    · rw [List.map_cons, List.map_cons, ih]
    · exact ih _

theorem split_perm {α : Type} (f : Prim → Bool → α) (ps : List Prim) :
    (((ps.filter fun p => notEnum p.type).map fun p => f p false) ++ (ps.filter fun p => isEnum p.type).map fun p => f p true).Perm
      (ps.map fun p => f p (isEnum p.type)) := by
  have hn : ∀ t, notEnum t = !isEnum t := by intro t; cases t <;> rfl
  induction ps with
  | nil => exact .refl _
  | cons p r ih =>
    rw [List.filter_cons, List.filter_cons, List.map_cons]
    simp only [hn] at ih ⊢
    cases hp : isEnum p.type with
    | false =>
      simp only [Bool.not_false, if_true, Bool.false_eq_true, if_false, List.map_cons, List.cons_append]
      exact ih.cons _
    | true =>
      simp only [Bool.not_true, if_true, Bool.false_eq_true, if_false, List.map_cons]
      exact List.perm_middle.trans (ih.cons _)

theorem globalName_eq {db : Db} (S : Spelled db) {p : Prim} (hp : Placed db p.text p.parent) (ht : p.type ≠ .type) :
    globalName p = qualified p.text := by
  unfold globalName qualified
  have : (p.type ≠ .type ∧ p.parent = 0#32) ↔ scopeOf p.text = [] := by
    constructor
    · rintro ⟨_, h0⟩
      rcases hp.2 with ⟨h, _⟩ | ⟨n, hn, h, _⟩
      · exact h
      · exact absurd (h.trans h0) (S.nonzero n hn)
    · intro hs
      rcases hp.2 with ⟨_, h⟩ | ⟨n, _, _, h⟩
      · exact ⟨ht, h⟩
      · exact absurd (h.trans hs) (parts_ne_nil _)
  by_cases h : scopeOf p.text = []
  · rw [if_pos (this.mpr h), if_pos h]
  · rw [if_neg (fun h' => h (this.mp h')), if_neg h]

theorem primitives_symbols {db : Db} (S : Spelled db) :
    (primitives db.namespaces db).map (fun p => (globalName p, some p.hash.toNat, isEnum p.type)) = symbols db := by
  rw [primitives, symbols, List.map_append, List.map_append, classPrims, enumPrims, typePrims, List.map_map, List.map_map, List.map_map]
  have hc : ((db.classes.filter fun c => known db.namespaces c.parent).map ((fun p => (globalName p, some p.hash.toNat, isEnum p.type)) ∘
      fun c => ⟨c.text, c.hash, c.parent, if c.isClass then PrimType.cls else .struct⟩)) =
      (db.classes.filter fun c => inNamespace db c.parent).map (fun c => (qualified c.text, some c.hash.toNat, false)) := by
    apply List.map_congr_left
    intro c hc
    dsimp only [Function.comp]
    have hp := placed_class S c hc
    rw [globalName_eq S (p := ⟨c.text, c.hash, c.parent, if c.isClass then .cls else .struct⟩) hp (by dsimp only; split <;> exact nofun)]
    cases c.isClass <;> rfl
  have he : ((db.enums.filter fun c => known db.namespaces c.parent).map ((fun p => (globalName p, some p.hash.toNat, isEnum p.type)) ∘
      fun c => ⟨c.text, c.hash, c.parent, enumType c.scope⟩)) =
      (db.enums.filter fun c => inNamespace db c.parent).map (fun c => (qualified c.text, some c.hash.toNat, c.scope == .none)) := by
    apply List.map_congr_left
    intro c hc
    dsimp only [Function.comp]
    have hp := placed_enum S c hc
    rw [globalName_eq S (p := ⟨c.text, c.hash, c.parent, enumType c.scope⟩) hp (by dsimp only; cases c.scope <;> exact nofun)]
    cases c.scope <;> rfl
  rw [hc, he]
  congr 1

end Clr.Gen
