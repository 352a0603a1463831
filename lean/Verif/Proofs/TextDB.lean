import Verif.Model.TextDB
import Verif.Proofs.Merge
import Verif.Props.FileUtils
/-!
Lemmas about the text database model.
-/
namespace Clr.TextDB
open Clr.DB Clr.FileUtils Clr.Merge

/-! ### Tokens -/

theorem takeWhile_tok {d : UInt8} (t r : Bytes) (h : d ∉ t) :
    (t ++ d :: r).takeWhile (· != d) = t ∧ (t ++ d :: r).dropWhile (· != d) = d :: r := by
  induction t with
  | nil => simp
  | cons c t ih =>
    have hc : (c != d) = true := by simp; intro he; exact h (by simp [he])
    have := ih (fun hm => h (by simp [hm]))
    simp only [List.cons_append, List.takeWhile_cons, hc, List.dropWhile_cons, if_true, this.1, this.2, and_self]

theorem takeWhile_all {d : UInt8} (t : Bytes) (h : d ∉ t) :
    t.takeWhile (· != d) = t ∧ t.dropWhile (· != d) = [] := by
  induction t with
  | nil => simp
  | cons c t ih =>
    have hc : (c != d) = true := by simp; intro he; exact h (by simp [he])
    have := ih (fun hm => h (by simp [hm]))
    simp only [List.takeWhile_cons, hc, List.dropWhile_cons, if_true, this.1, this.2, and_self]

theorem strtok_sep {d : UInt8} (t r : Bytes) (h0 : t ≠ []) (h : d ∉ t) :
    strtok d (t ++ d :: r) = (some t, r) := by
  cases t with
  | nil => exact absurd rfl h0
  | cons c t =>
    have hc : (c == d) = false := by simp; intro he; exact h (by simp [he])
    have := takeWhile_tok (c :: t) r h
    rw [List.cons_append] at this
    simp only [strtok, List.cons_append, List.dropWhile_cons, hc, Bool.false_eq_true, if_false]
    rw [this.1]
    have h2 := this.2
    rw [List.dropWhile_cons] at h2
    rw [h2]; rfl

theorem strtok_end {d : UInt8} (t : Bytes) (h0 : t ≠ []) (h : d ∉ t) : strtok d t = (some t, []) := by
  cases t with
  | nil => exact absurd rfl h0
  | cons c t =>
    have hc : (c == d) = false := by simp; intro he; exact h (by simp [he])
    have := takeWhile_all (c :: t) h
    simp only [strtok, List.dropWhile_cons, hc, Bool.false_eq_true, if_false]
    rw [this.1]
    have h2 := this.2
    rw [List.dropWhile_cons] at h2
    rw [h2]; rfl

theorem strtok_skip {d : UInt8} (r : Bytes) : strtok d (d :: r) = strtok d r := by
  simp [strtok, List.dropWhile_cons]

theorem strtok_nil {d : UInt8} : strtok d [] = (none, []) := rfl

theorem itohex_tok (v : UInt32) : itohex v ≠ [] ∧ 9 ∉ itohex v := by
  obtain ⟨_, h2, h3⟩ := C10_hex_roundtrip v
  constructor
  · intro h; rw [h] at h2; simp at h2
  · intro h
    have := h3 9 h
    simp at this

theorem getHexInt_sep (v : UInt32) (r : Bytes) : getHexInt (itohex v ++ 9 :: r) = (v, r) := by
  rw [getHexInt, strtok_sep _ _ (itohex_tok v).1 (itohex_tok v).2]
  simp [(C10_hex_roundtrip v).1]

theorem getHexInt_end (v : UInt32) : getHexInt (itohex v) = (v, []) := by
  rw [getHexInt, strtok_end _ (itohex_tok v).1 (itohex_tok v).2]
  simp [(C10_hex_roundtrip v).1]

theorem getHexInt_skip (r : Bytes) : getHexInt (9 :: r) = getHexInt r := by
  rw [getHexInt, strtok_skip, getHexInt]

theorem getInt_skip (r : Bytes) : getInt 9 (9 :: r) = getInt 9 r := by
  rw [getInt, strtok_skip, getInt]

/-! ### Decimal texts -/

theorem decLoop_chars (v : Nat) (acc : Bytes) (ha : ∀ c ∈ acc, 48 ≤ c.toNat ∧ c.toNat ≤ 57) :
    ∀ c ∈ decLoop v acc, 48 ≤ c.toNat ∧ c.toNat ≤ 57 := by
  induction v using Nat.strongRecOn generalizing acc with
  | _ v ih =>
    have hacc : ∀ c ∈ UInt8.ofNat (48 + v % 10) :: acc, 48 ≤ c.toNat ∧ c.toNat ≤ 57 := by
      intro c hc
      rcases List.mem_cons.mp hc with rfl | hc
      · rw [digit_toNat]; omega
      · exact ha c hc
    rw [decLoop]
    split
    · exact hacc
    · exact ih (v / 10) (by omega) _ hacc

theorem decLoop_ne (v : Nat) : decLoop v [] ≠ [] := by
  obtain ⟨c, cs, h, _⟩ := decLoop_head v []
  rw [h]; simp

/-- Characters that may occur in a number or a letter column. -/
def Printable (l : Bytes) : Prop := ∀ c ∈ l, 33 ≤ c.toNat ∧ c.toNat ≤ 122

theorem Printable.tab {l : Bytes} (h : Printable l) : 9 ∉ l := by
  intro hm; have := h 9 hm; simp at this

theorem cfg_itoa_spec (cfg : Cfg) (v : UInt32) :
    cfg.itoa v ≠ [] ∧ Printable (cfg.itoa v) ∧ (cfg.itoa v).length ≤ 11 := by
  have hv := v.toNat_lt
  unfold Cfg.itoa
  split
  · unfold itoaMSVC
    simp only
    have hi : (v.toBitVec.toInt).natAbs ≤ 2 ^ 31 := by
      have h1 := BitVec.le_toInt v.toBitVec
      have h2 := BitVec.toInt_lt (x := v.toBitVec)
      omega
    split
    · refine ⟨by simp, ?_, ?_⟩
      · intro c hc
        rcases List.mem_cons.mp hc with rfl | hc
        · decide
        · have := decLoop_chars _ [] (by simp) c hc; omega
      · have := decLoop_length (-v.toBitVec.toInt).toNat 9 (by omega)
        simp; omega
    · refine ⟨decLoop_ne _, ?_, ?_⟩
      · intro c hc
        have := decLoop_chars _ [] (by simp) c hc; omega
      · have := decLoop_length (v.toBitVec.toInt).toNat 9 (by omega)
        omega
  · unfold FileUtils.itoa
    refine ⟨?_, ?_, ?_⟩
    · obtain ⟨c, cs, h, _⟩ := decLoop_head v.toNat []
      rw [h]; simp
    · intro c hc
      have := decLoop_chars _ [] (by simp) c (List.mem_of_mem_take hc); omega
    · rw [List.length_take]; omega

/-- The value survives `itoa`: always with Microsoft's compiler, below 10^9 otherwise. -/
def Cfg.IntOk (cfg : Cfg) (v : Int32) : Prop := cfg.msvc = true ∨ v.toUInt32.toNat < 10 ^ 9

theorem int32_of_uint32 {a b : Int32} (h : a.toUInt32 = b.toUInt32) : a = b := by
  cases a; cases b; simp_all

theorem atoi_itoa {cfg : Cfg} {v : Int32} (h : cfg.IntOk v) : atoi (cfg.itoa v.toUInt32) = v := by
  apply int32_of_uint32
  rcases h with h | h
  · simp only [Cfg.itoa, h, if_true]; exact C10_decimal_roundtrip_msvc _
  · unfold Cfg.itoa
    split
    · exact C10_decimal_roundtrip_msvc _
    · exact C10_decimal_roundtrip_partial _ h

theorem getInt_sep {cfg : Cfg} {v : Int32} (h : cfg.IntOk v) (r : Bytes) :
    getInt 9 (cfg.itoa v.toUInt32 ++ 9 :: r) = (v, r) := by
  obtain ⟨h1, h2, _⟩ := cfg_itoa_spec cfg v.toUInt32
  rw [getInt, strtok_sep _ _ h1 h2.tab]
  simp [atoi_itoa h]

theorem getInt_end {cfg : Cfg} {v : Int32} (h : cfg.IntOk v) : getInt 9 (cfg.itoa v.toUInt32) = (v, []) := by
  obtain ⟨h1, h2, _⟩ := cfg_itoa_spec cfg v.toUInt32
  rw [getInt, strtok_end _ h1 h2.tab]
  simp [atoi_itoa h]

/-! ### Names -/

/-- The name is the empty name or one of the database's names. -/
def Known (names : List Name) (n : Name) : Prop := n = {} ∨ n ∈ names

theorem lookup_known {names : List Name} (hs : names.Pairwise (fun a b => a.hash < b.hash))
    (h0 : ∀ n ∈ names, n.hash ≠ 0) {n : Name} (h : Known names n) : getNameByHash names n.hash = n := by
  unfold getNameByHash
  rcases h with rfl | h
  · have : findBy Name.hash 0 names = none := by
      unfold findBy
      rw [List.find?_eq_none]
      intro x hx
      simpa using h0 x hx
    show (findBy Name.hash 0 names).getD {} = {}
    rw [this]; rfl
  · have : findBy Name.hash n.hash names = some n := by
      clear h0
      unfold findBy
      induction names with
      | nil => cases h
      | cons m ms ih =>
        rw [List.pairwise_cons] at hs
        rw [List.find?_cons]
        rcases List.mem_cons.mp h with rfl | hm
        · simp
        · have hlt := hs.1 n hm
          have : (m.hash == n.hash) = false := by
            rw [beq_eq_false_iff_ne]; intro he; rw [he] at hlt; exact UInt32.lt_irrefl _ hlt
          rw [this]
          exact ih hs.2 hm
    rw [this]; rfl

/-- The names of a well-formed database. -/
structure NamesOk (names : List Name) : Prop where
  sorted : names.Pairwise (fun a b => a.hash < b.hash)
  nonzero : ∀ n ∈ names, n.hash ≠ 0

theorem NamesOk.get {names : List Name} (h : NamesOk names) {n : Name} (hk : Known names n) :
    getNameByHash names n.hash = n := lookup_known h.sorted h.nonzero hk

/-- The names an entry's `Primitive` part refers to are known. -/
def KnownPrim (names : List Name) (p : Prim) : Prop := Known names p.name ∧ Known names p.parent

theorem getPrim_sep {names : List Name} (h : NamesOk names) {p : Prim} (hp : KnownPrim names p) (r : Bytes) :
    getPrim names (rowPrim p ++ 9 :: r) = (p, r) := by
  unfold getPrim rowPrim
  simp only [List.append_assoc, List.singleton_append, List.cons_append, List.nil_append]
  rw [getHexInt_sep]
  simp only
  rw [getHexInt_sep]
  simp only
  rw [h.get hp.1, h.get hp.2]

theorem getPrim_end {names : List Name} (h : NamesOk names) {p : Prim} (hp : KnownPrim names p) :
    getPrim names (rowPrim p) = (p, []) := by
  unfold getPrim rowPrim
  simp only [List.append_assoc, List.singleton_append, List.cons_append, List.nil_append]
  rw [getHexInt_sep]
  simp only
  rw [getHexInt_end]
  simp only
  rw [h.get hp.1, h.get hp.2]

/-! ### Inserting rows in order -/

theorem insertBy_append {α : Type} {key : α → UInt32} (x : α) (l : List α) (h : ∀ y ∈ l, key y ≤ key x) :
    insertBy key x l = l ++ [x] := by
  induction l with
  | nil => rfl
  | cons y l ih =>
    rw [insertBy, if_neg]
    · rw [ih (fun z hz => h z (by simp [hz]))]; rfl
    · have := h y (by simp)
      rw [UInt32.le_iff_toNat_le] at this
      rw [UInt32.lt_iff_toNat_lt]; omega

theorem assignBy_append {α : Type} {key : α → UInt32} (x : α) (l : List α) (h : ∀ y ∈ l, key y < key x) :
    assignBy key x l = l ++ [x] := by
  induction l with
  | nil => rfl
  | cons y l ih =>
    have hy := h y (by simp)
    rw [UInt32.lt_iff_toNat_lt] at hy
    rw [assignBy, if_neg, if_neg]
    · rw [ih (fun z hz => h z (by simp [hz]))]; rfl
    · intro he; rw [he] at hy; omega
    · rw [UInt32.lt_iff_toNat_lt]; omega

/-- Parse rows one after another. -/
def foldRows (parse : Bytes → Database → Res Database) : List Bytes → Database → Res Database
  | [], db => .ok db
  | l :: ls, db => do
    let db ← parse l db
    foldRows parse ls db

theorem foldRows_append {parse : Bytes → Database → Res Database} {α : Type} (row : α → Bytes)
    (mk : List α → Database) (R : α → α → Prop) (xs : List α) (hs : xs.Pairwise R)
    (hp : ∀ x ∈ xs, ∀ l, (∀ y ∈ l, R y x) → (∀ y ∈ l, y ∈ xs) → parse (row x) (mk l) = .ok (mk (l ++ [x]))) :
    foldRows parse (xs.map row) (mk []) = .ok (mk xs) := by
  have key : ∀ (post pre : List α), pre ++ post = xs →
      foldRows parse (post.map row) (mk pre) = .ok (mk xs) := by
    intro post
    induction post with
    | nil => intro pre h; simp at h; subst h; rfl
    | cons x post ih =>
      intro pre h
      have hx : x ∈ xs := by rw [← h]; simp
      have hR : ∀ y ∈ pre, R y x := by
        intro y hy
        rw [← h, List.pairwise_append] at hs
        exact hs.2.2 y hy x (by simp)
      rw [List.map_cons, foldRows, hp x hx pre hR (fun y hy => by rw [← h]; simp [hy])]
      simp only [Res.bind_ok]
      exact ih (pre ++ [x]) (by simp [h])
  exact key xs [] rfl

/-- Sorted by key, equal keys allowed. -/
abbrev SortedLe {α : Type} (key : α → UInt32) (l : List α) : Prop := l.Pairwise (fun a b => key a ≤ key b)

theorem foldRows_table {parse : Bytes → Database → Res Database} {α : Type} (row : α → Bytes)
    (mk : List α → Database) (key : α → UInt32) (xs : List α) (hs : SortedLe key xs) (h0 : ∀ x ∈ xs, key x ≠ 0)
    (hp : ∀ x ∈ xs, ∀ l, parse (row x) (mk l) = (add key x l).bind (fun l => .ok (mk l))) :
    foldRows parse (xs.map row) (mk []) = .ok (mk xs) := by
  apply foldRows_append row mk (fun a b => key a ≤ key b) xs hs
  intro x hx l hl _
  rw [hp x hx l, add, if_neg (h0 x hx)]
  simp only [Res.bind, insertBy_append x l hl]

theorem foldRows_unique {parse : Bytes → Database → Res Database} {α : Type} (row : α → Bytes)
    (mk : List α → Database) (key : α → UInt32) (xs : List α) (hs : xs.Pairwise (fun a b => key a < key b))
    (h0 : ∀ x ∈ xs, key x ≠ 0)
    (hp : ∀ x ∈ xs, ∀ l, parse (row x) (mk l) = (addUnique key x l).bind (fun l => .ok (mk l))) :
    foldRows parse (xs.map row) (mk []) = .ok (mk xs) := by
  apply foldRows_append row mk (fun a b => key a < key b) xs hs
  intro x hx l hl _
  have hn : findBy key (key x) l = none := by
    unfold findBy
    rw [List.find?_eq_none]
    intro y hy he
    have := hl y hy
    rw [beq_iff_eq] at he
    rw [he] at this
    exact UInt32.lt_irrefl _ this
  rw [hp x hx l, addUnique, if_neg (h0 x hx), hn]
  simp only [Option.isSome_none, Bool.false_eq_true, if_false, Res.bind]
  rw [insertBy_append x l (fun y hy => UInt32.le_of_lt (hl y hy))]

/-! ### The table loops -/

theorem startswith_false {text cmp : Bytes} (h : ∀ r, text ≠ cmp ++ r) : startswith text cmp = false := by
  rw [Bool.eq_false_iff]
  intro hs
  obtain ⟨r, hr⟩ := (C52_startswith_iff text cmp).mp hs
  exact h r hr

theorem rowLoop_rows (parse : Bytes → Database → Res Database) (rs rest : List Bytes) (db : Database)
    (h : ∀ r ∈ rs, startswith r b!"----" = false) :
    rowLoop parse (rs ++ ruler :: rest) db = (foldRows parse rs db).bind (fun db => .ok (ruler, rest, db)) := by
  induction rs generalizing db with
  | nil =>
    rw [List.nil_append, rowLoop, if_pos (by decide +kernel)]; rfl
  | cons r rs ih =>
    rw [List.cons_append, rowLoop, h r (by simp)]
    simp only [Bool.false_eq_true, if_false, foldRows]
    cases hp : parse r db with
    | ok d => simp only [Res.bind_ok]; exact ih d (fun r hr => h r (by simp [hr]))
    | trap => rfl
    | ub => rfl

theorem tryTables_none (cfg : Cfg) (ts : List Table) (line : Bytes) (lines : List Bytes) (db : Database)
    (h : ∀ t ∈ ts, startswith line (b!"---- " ++ t.title ++ b!" ") = false) :
    tryTables cfg ts line lines db = .ok (lines, db) := by
  induction ts with
  | nil => rfl
  | cons t ts ih =>
    have hp : parseTable cfg t line lines db = .ok (line, lines, db) := by
      unfold parseTable; rw [h t (by simp)]; rfl
    rw [tryTables, hp]
    exact ih (fun t ht => h t (by simp [ht]))

theorem tryTables_match (cfg : Cfg) (pre post : List Table) (t : Table) (line : Bytes) (h1 h2 : Bytes)
    (rs rest : List Bytes) (db : Database)
    (hpre : ∀ t ∈ pre, startswith line (b!"---- " ++ t.title ++ b!" ") = false)
    (ht : startswith line (b!"---- " ++ t.title ++ b!" ") = true)
    (hpost : ∀ t ∈ post, startswith ruler (b!"---- " ++ t.title ++ b!" ") = false)
    (hr : ∀ r ∈ rs, startswith r b!"----" = false) :
    tryTables cfg (pre ++ t :: post) line (h1 :: h2 :: (rs ++ ruler :: rest)) db =
      (foldRows (parseRow cfg t) rs db).bind (fun db => .ok (rest, db)) := by
  induction pre with
  | nil =>
    rw [List.nil_append, tryTables, parseTable, if_pos ht]
    simp only
    rw [rowLoop_rows _ rs rest db hr]
    cases hf : foldRows (parseRow cfg t) rs db with
    | ok d => simp only [Res.bind, Res.bind_ok]; exact tryTables_none cfg post ruler rest d hpost
    | trap => rfl
    | ub => rfl
  | cons s pre ih =>
    rw [List.cons_append, tryTables, parseTable, hpre s (by simp)]
    simp only [Bool.false_eq_true, if_false, Res.bind_ok]
    exact ih (fun t ht => hpre t (by simp [ht]))

theorem readLoop_nil (cfg : Cfg) (n : Nat) (db : Database) : readLoop cfg n [] db = .ok db := by
  cases n <;> rfl

theorem readLoop_skip (cfg : Cfg) (n : Nat) (l : Bytes) (ls : List Bytes) (db : Database)
    (h : ∀ t ∈ readOrder, startswith l (b!"---- " ++ t.title ++ b!" ") = false) :
    readLoop cfg (n + 1) (l :: ls) db = readLoop cfg n ls db := by
  rw [readLoop, tryTables_none cfg readOrder l ls db h]; rfl

/-- The header line of each table is recognised as this table's and no other's. -/
theorem headers_distinct : ∀ t ∈ writeOrder, ∀ t' ∈ readOrder,
    startswith (namedRuler t.title) (b!"---- " ++ t'.title ++ b!" ") = decide (t' = t) := by
  decide +kernel

theorem ruler_no_header : ∀ t ∈ readOrder, startswith ruler (b!"---- " ++ t.title ++ b!" ") = false := by
  decide +kernel

theorem blank_no_header : ∀ t ∈ readOrder, startswith [] (b!"---- " ++ t.title ++ b!" ") = false := by
  decide +kernel

theorem mem_readOrder (t : Table) : t ∈ readOrder := by cases t <;> decide
theorem mem_writeOrder (t : Table) : t ∈ writeOrder := by cases t <;> decide
theorem nodup_readOrder : readOrder.Nodup := by decide

theorem readLoop_table (cfg : Cfg) (n : Nat) (db src : Database) (t : Table) (rest : List Bytes)
    (hr : ∀ r ∈ rows cfg src t, startswith r b!"----" = false) :
    readLoop cfg (n + 3) (tableLines cfg src t ++ rest) db =
      (foldRows (parseRow cfg t) (rows cfg src t) db).bind (fun db => readLoop cfg n rest db) := by
  obtain ⟨pre, post, hsp⟩ := List.append_of_mem (mem_readOrder t)
  have hnd := nodup_readOrder
  rw [hsp, List.nodup_append] at hnd
  have hm : ∀ t' ∈ readOrder, startswith (namedRuler t.title) (b!"---- " ++ t'.title ++ b!" ") = decide (t' = t) :=
    headers_distinct t (mem_writeOrder t)
  have hpre : ∀ t' ∈ pre, startswith (namedRuler t.title) (b!"---- " ++ t'.title ++ b!" ") = false := by
    intro t' ht'
    rw [hm t' (mem_readOrder t')]
    simp only [decide_eq_false_iff_not]
    rintro rfl
    exact hnd.2.2 t' ht' t' (by simp) rfl
  have heq := tryTables_match cfg pre post t (namedRuler t.title) t.headers ruler (rows cfg src t)
    ([] :: [] :: rest) db hpre (by rw [hm t (mem_readOrder t)]; simp)
    (fun t' _ => ruler_no_header t' (mem_readOrder t')) hr
  have hl : tableLines cfg src t ++ rest = namedRuler t.title :: (t.headers :: ruler ::
      (rows cfg src t ++ ruler :: [] :: [] :: rest)) := by
    simp [tableLines]
  rw [hl, show n + 3 = (n + 2) + 1 from rfl, readLoop, hsp, heq]
  cases foldRows (parseRow cfg t) (rows cfg src t) db with
  | ok d =>
    simp only [Res.bind, Res.bind_ok]
    rw [show n + 2 = (n + 1) + 1 from rfl, readLoop_skip _ _ _ _ _ blank_no_header,
      readLoop_skip _ _ _ _ _ blank_no_header]
  | trap => rfl
  | ub => rfl

end Clr.TextDB
