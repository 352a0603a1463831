import Verif.Model.MapFilesSpec
import Verif.Props.MapFileName
import Verif.Props.FileUtils

/-! Lemmas for whole map files. -/
namespace Clr.MapFiles

open Clr.Map

open Clr.DB Clr.FileUtils

theorem dropWhile_app {p : UInt8 → Bool} {g rest : Bytes} (hg : ∀ c ∈ g, p c = true) (hr : ∀ c, rest.head? = some c → p c = false) :
    (g ++ rest).dropWhile p = rest := by
  induction g with
  | nil =>
    cases rest with
    | nil => rfl
    | cons c r => simp [List.dropWhile, hr c rfl]
  | cons c g ih =>
    rw [List.cons_append, List.dropWhile_cons, if_pos (hg c List.mem_cons_self)]
    exact ih fun c hc => hg c (List.mem_cons_of_mem _ hc)

theorem takeWhile_app {p : UInt8 → Bool} {g rest : Bytes} (hg : ∀ c ∈ g, p c = true) (hr : ∀ c, rest.head? = some c → p c = false) :
    (g ++ rest).takeWhile p = g := by
  induction g with
  | nil =>
    cases rest with
    | nil => rfl
    | cons c r => simp [List.takeWhile, hr c rfl]
  | cons c g ih =>
    rw [List.cons_append, List.takeWhile_cons, if_pos (hg c List.mem_cons_self), ih fun c hc => hg c (List.mem_cons_of_mem _ hc)]

theorem hex_facts (c : UInt8) : isHex c = true → hexVal c = digitValue c ∧ isSpace c = false := by
  have h : ∀ n : Fin 256, isHex (UInt8.ofNat n.1) = true → hexVal (UInt8.ofNat n.1) = digitValue (UInt8.ofNat n.1) ∧
    isSpace (UInt8.ofNat n.1) = false := by decide +kernel
  have := h ⟨c.toNat, c.toNat_lt⟩
  simpa using this

theorem space_not_hex (c : UInt8) (h : isSpace c = true) : isHex c = false := by
  cases hx : isHex c with
  | false => rfl
  | true => rw [(hex_facts c hx).2] at h; cases h

theorem digit_facts (c : UInt8) : isDigit c = true → isSpace c = false ∧ c ≠ 43 ∧ c ≠ 45 ∧ c ≠ 93 := by
  have h : ∀ n : Fin 256, isDigit (UInt8.ofNat n.1) = true → isSpace (UInt8.ofNat n.1) = false ∧ UInt8.ofNat n.1 ≠ 43 ∧
    UInt8.ofNat n.1 ≠ 45 ∧ UInt8.ofNat n.1 ≠ 93 := by decide +kernel
  have := h ⟨c.toNat, c.toNat_lt⟩
  simpa using this

theorem hexAcc_number (ds : Bytes) (h : ∀ c ∈ ds, isHex c = true) : hexAcc 64 ds = hexNumber ds % 2 ^ 64 := by
  rw [hexAcc_eq]
  unfold hexNumber
  have : ∀ (ds : Bytes) (a b : Nat), (∀ c ∈ ds, isHex c = true) → a = b % 2 ^ 64 →
      ds.foldl (hexStep 64) a = ds.foldl (fun n c => 16 * n + digitValue c) b % 2 ^ 64 := by
    intro ds
    induction ds with
    | nil => intro a b _ hab; exact hab
    | cons c ds ih =>
      intro a b hd hab
      simp only [List.foldl_cons]
      refine ih _ _ (fun c hc => hd c (List.mem_cons_of_mem _ hc)) ?_
      unfold hexStep
      rw [(hex_facts c (hd c List.mem_cons_self)).1]
      subst hab
      omega
  exact this ds 0 0 h rfl

theorem hextoi64_number {ds : Bytes} (h : ∀ c ∈ ds, isHex c = true) : hextoi64 ds = UInt64.ofNat (hexNumber ds) := by
  unfold hextoi64
  rw [hexAcc_number ds h]
  apply UInt64.toNat_inj.mp
  simp

theorem hexNumber_lt {ds : Bytes} (h : HexText ds) : hexNumber ds < 2 ^ 64 := by
  have hv : ∀ c, isHex c = true → digitValue c < 16 := by
    intro c
    have h : ∀ n : Fin 256, isHex (UInt8.ofNat n.1) = true → digitValue (UInt8.ofNat n.1) < 16 := by decide +kernel
    have := h ⟨c.toNat, c.toNat_lt⟩
    simpa using this
  have : ∀ (ds : Bytes) (a k : Nat), (∀ c ∈ ds, isHex c = true) → a < 16 ^ k →
      ds.foldl (fun n c => 16 * n + digitValue c) a < 16 ^ (k + ds.length) := by
    intro ds
    induction ds with
    | nil => intro a k _ ha; exact ha
    | cons c ds ih =>
      intro a k hd ha
      have := hv c (hd c List.mem_cons_self)
      have h2 := ih (16 * a + digitValue c) (k + 1) (fun c hc => hd c (List.mem_cons_of_mem _ hc)) (by rw [Nat.pow_succ]; omega)
      simp only [List.foldl_cons, List.length_cons]
      rw [show k + (ds.length + 1) = k + 1 + ds.length by omega]
      exact h2
  have h1 := this ds 0 0 h.2.1 (by decide)
  unfold hexNumber
  refine Nat.lt_of_lt_of_le h1 ?_
  rw [show 2 ^ 64 = 16 ^ 16 by decide]
  exact Nat.pow_le_pow_right (by decide) (by have := h.2.2; omega)

theorem Gap.head {g : Bytes} (h : Gap g) (rest : Bytes) : ∀ c, (g ++ rest).head? = some c → isSpace c = true := by
  intro c hc
  cases g with
  | nil => exact absurd rfl h.1
  | cons d g =>
    simp only [List.cons_append, List.head?_cons, Option.some.injEq] at hc
    exact h.2 c (by simp [hc])

theorem scanAddress_eq {g ds rest : Bytes} (hg : ∀ c ∈ g, isSpace c = true) (hd : HexText ds) (hr : ∀ c, rest.head? = some c → isHex c = false) :
    scanAddress (g ++ (b!"0x" ++ (ds ++ rest))) = some (UInt64.ofNat (hexNumber ds), rest) := by
  unfold scanAddress
  rw [dropWhile_app hg (by intro c hc; simp at hc; subst hc; decide)]
  have h0 : ∀ c, (ds ++ rest).head? = some c → isSpace c = false := by
    intro c hc
    obtain ⟨h1, h2, _⟩ := hd
    cases ds with
    | nil => exact absurd rfl h1
    | cons d ds =>
      simp only [List.cons_append, List.head?_cons, Option.some.injEq] at hc
      exact (hex_facts c (h2 c (by simp [hc]))).2
  have h1 : (ds ++ rest).dropWhile isSpace = ds ++ rest := dropWhile_app (g := []) (by simp) h0
  show (if List.takeWhile isHex (List.dropWhile isSpace (ds ++ rest)) = [] then none
    else some (hextoi64 (List.takeWhile isHex (List.dropWhile isSpace (ds ++ rest))),
      List.dropWhile isHex (List.dropWhile isSpace (ds ++ rest)))) = _
  rw [h1, takeWhile_app hd.2.1 hr, dropWhile_app hd.2.1 hr, if_neg hd.1, hextoi64_number hd.2.1]

theorem scanAddress_other {t : Bytes} (h : ¬ b!"0x" <+: t.dropWhile isSpace) : scanAddress t = none := by
  unfold scanAddress
  split
  next r hr => exact absurd ⟨r, by rw [hr]; rfl⟩ h
  next => rfl

theorem scanWord_eq {g w tail : Bytes} (hg : ∀ c ∈ g, isSpace c = true) (hw : Field w) (ht : Tail tail) :
    scanWord (g ++ (w ++ tail)) = .ok (some w) := by
  have h0 : ∀ c, (w ++ tail).head? = some c → isSpace c = false := by
    intro c hc
    obtain ⟨h1, h2, _⟩ := hw
    cases w with
    | nil => exact absurd rfl h1
    | cons d w =>
      simp only [List.cons_append, List.head?_cons, Option.some.injEq] at hc
      exact h2 c (by simp [hc])
  unfold scanWord
  rw [dropWhile_app hg h0, takeWhile_app (p := fun c => !isSpace c) (by intro c hc; simp [hw.2.1 c hc]) (by intro c hc; simp [ht c hc])]
  simp only [if_neg hw.1, if_pos hw.2.2]

theorem scanWordRest_eq {g w tail : Bytes} (hg : ∀ c ∈ g, isSpace c = true) (hw : Field w) (ht : Tail tail) :
    scanWordRest (g ++ (w ++ tail)) = .ok (some (w, tail)) := by
  have h0 : ∀ c, (w ++ tail).head? = some c → isSpace c = false := by
    intro c hc
    obtain ⟨h1, h2, _⟩ := hw
    cases w with
    | nil => exact absurd rfl h1
    | cons d w =>
      simp only [List.cons_append, List.head?_cons, Option.some.injEq] at hc
      exact h2 c (by simp [hc])
  unfold scanWordRest
  rw [scanWord_eq hg hw ht, dropWhile_app hg h0]
  simp [Res.map]

theorem Line.cut {l : Bytes} (h : Line l) : l.takeWhile (· != 0) = l := by
  have := takeWhile_app (p := (· != 0)) (g := l) (rest := []) (by
    intro c hc
    simp only [bne_iff_ne, ne_eq]
    intro e; subst e; exact h.2.1 hc) (by simp)
  simpa using this

theorem allLines_fileOf {lines : List Bytes} {u : Bytes} (hl : ∀ l ∈ lines, Line l) (hu : 10 ∉ u) :
    ∀ n, lines.length < n → allLines n (fileOf lines u) = lines := by
  induction lines with
  | nil =>
    intro n hn
    cases n with
    | zero => omega
    | succ n => simp [fileOf, allLines, readLine, readLoop_tail u [] hu]
  | cons l ls ih =>
    intro n hn
    cases n with
    | zero => omega
    | succ n =>
      have h := hl l List.mem_cons_self
      have : fileOf (l :: ls) u = l ++ 10 :: fileOf ls u := by simp [fileOf]
      rw [this, allLines, readLine, readLoop_line l _ [] h.1 (by simp)]
      simp only [List.nil_append, List.take_of_length_le h.2.2]
      rw [ih (fun l hm => hl l (List.mem_cons_of_mem _ hm)) n (by simp at hn; omega)]

theorem fileOf_length (lines : List Bytes) (u : Bytes) : lines.length ≤ (fileOf lines u).length := by
  induction lines with
  | nil => simp
  | cons l ls ih =>
    have : fileOf (l :: ls) u = l ++ 10 :: fileOf ls u := by simp [fileOf]
    rw [this]; simp; omega

theorem startswith_false {text cmp : Bytes} (h : ¬ cmp <+: text) : startswith text cmp = false := by
  cases hs : startswith text cmp with
  | false => rfl
  | true => exact absurd (startswith_prefix hs) h

/-! ### Linux -/

theorem linuxLine_entry {demangle : Bytes → Option Bytes} {rand : Nat → Nat} {base : UInt64} {s : St} {e : LinuxEntry} (h : e.Ok) :
    linuxLine demangle rand ⟨true, base, s⟩ e.text =
      match e.item demangle with
      | none => .ok ⟨true, base, s⟩
      | some (sig, address) => (processItem rand s sig address).map fun s => ⟨true, base, s⟩ := by
  cases e with
  | other t =>
    rw [linuxLine, if_pos rfl]
    show (match scanAddress t with | none => _ | some (address, rest) => _) = _
    rw [scanAddress_other h]
    rfl
  | symbol g1 address g2 name tail =>
    obtain ⟨h1, h2, h3, h4, h5⟩ := h
    rw [linuxLine, if_pos rfl]
    simp only [LinuxEntry.text]
    rw [scanAddress_eq h1.2 h2 (fun c hc => space_not_hex c (h3.head _ c hc))]
    dsimp only
    rw [scanWord_eq h3.2 h4 h5]
    simp only [Res.bind_ok, LinuxEntry.item, signatureOf, contains]
    split
    · split
      next hd => rw [hd]
      next sig hd =>
        simp only [hd]
        split
        next hf => simp [hf]
        next hf => simp [hf]
    · rfl

theorem linuxLines_entries {demangle : Bytes → Option Bytes} {rand : Nat → Nat} {base : UInt64} {s : St} {es : List LinuxEntry}
    (h : ∀ e ∈ es, e.Ok) (hl : ∀ l ∈ es.map LinuxEntry.text, Line l) :
    linuxLines demangle rand ⟨true, base, s⟩ (es.map LinuxEntry.text) =
      (processAll rand s (es.filterMap (LinuxEntry.item demangle))).map fun s => ⟨true, base, s⟩ := by
  induction es generalizing s with
  | nil => rfl
  | cons e es ih =>
    have ih := fun s => ih (s := s) (fun e he => h e (List.mem_cons_of_mem _ he)) (fun l hm => hl l (List.mem_cons_of_mem _ hm))
    rw [List.map_cons, linuxLines, (hl e.text (by simp)).cut, linuxLine_entry (h e List.mem_cons_self), List.filterMap_cons]
    cases hi : e.item demangle with
    | none => exact ih s
    | some p =>
      obtain ⟨sig, address⟩ := p
      simp only [processAll]
      cases processItem rand s sig address with
      | ok s' => exact ih s'
      | trap => rfl
      | ub => rfl

theorem linuxLines_before {demangle : Bytes → Option Bytes} {rand : Nat → Nat} {r : Reader} (hr : r.text = false) {ls rest : List Bytes}
    (h : ∀ l ∈ ls, ¬ b!".text" <+: l) (hl : ∀ l ∈ ls, Line l) :
    linuxLines demangle rand r (ls ++ rest) = linuxLines demangle rand r rest := by
  induction ls with
  | nil => rfl
  | cons l ls ih =>
    rw [List.cons_append, linuxLines, (hl l List.mem_cons_self).cut, linuxLine, if_neg (by simp [hr]),
      if_neg (by rw [startswith_false (h l List.mem_cons_self)]; simp)]
    exact ih (fun l hm => h l (List.mem_cons_of_mem _ hm)) (fun l hm => hl l (List.mem_cons_of_mem _ hm))

/-! ### macOS -/

theorem scanFirst_eq {ds rest : Bytes} (hd : HexText ds) (hr : ∀ c, rest.head? = some c → isHex c = false) :
    scanFirst (b!"0x" ++ (ds ++ rest)) = some (UInt64.ofNat (hexNumber ds), rest) :=
  scanAddress_eq (g := []) (by simp) hd hr

theorem scanFirst_other {t : Bytes} (h : ¬ b!"0x" <+: t) : scanFirst t = none := by
  unfold scanFirst
  split
  next r => exact absurd ⟨r, rfl⟩ h
  next => rfl

theorem scanIndex_eq {g blanks index rest : Bytes} (hg : ∀ c ∈ g, isSpace c = true) (hb : ∀ c ∈ blanks, isSpace c = true)
    (hi : index ≠ [] ∧ ∀ c ∈ index, isDigit c = true) :
    scanIndex (g ++ (b!"[" ++ (blanks ++ (index ++ (b!"]" ++ rest))))) = some rest := by
  obtain ⟨h1, h2⟩ := hi
  have ho : scanInt (blanks ++ (index ++ (b!"]" ++ rest))) = some (b!"]" ++ rest) := by
    obtain ⟨d, ds, rfl⟩ := List.exists_cons_of_ne_nil h1
    have hd := digit_facts d (h2 d List.mem_cons_self)
    unfold scanInt
    rw [dropWhile_app hb (by intro c hc; simp at hc; subst hc; exact hd.1)]
    simp only [List.cons_append, if_neg (show ¬ (d = 43 ∨ d = 45) by simp [hd.2.1, hd.2.2.1])]
    have ht : (d :: ds ++ (b!"]" ++ rest)).takeWhile isDigit = d :: ds :=
      takeWhile_app h2 (by intro c hc; simp at hc; subst hc; decide)
    have hw : (d :: ds ++ (b!"]" ++ rest)).dropWhile isDigit = b!"]" ++ rest :=
      dropWhile_app h2 (by intro c hc; simp at hc; subst hc; decide)
    simp only [List.cons_append] at ht hw
    rw [ht, hw, if_neg (by simp)]
  unfold scanIndex
  rw [dropWhile_app hg (by intro c hc; simp at hc; subst hc; decide)]
  show (match scanInt (blanks ++ (index ++ (b!"]" ++ rest))) with | some (93 :: r) => some r | _ => none) = _
  rw [ho]
  rfl

theorem macSection_eq {r : MacReader} {e : MacSection} (h : e.Ok) :
    macSection r e.text = .ok (if e.name = b!"__text" then { r with base := UInt64.ofNat (hexNumber e.address) } else r) := by
  unfold macSection MacSection.text
  rw [scanFirst_eq h.address (fun c hc => space_not_hex c (h.gap1.head _ c hc))]
  dsimp only
  rw [scanAddress_eq h.gap1.2 h.size (fun c hc => space_not_hex c (h.gap2.head _ c hc))]
  dsimp only
  rw [scanWordRest_eq h.gap2.2 h.segment (h.gap3.head _)]
  simp only [Res.bind_ok]
  rw [scanWord_eq h.gap3.2 h.name h.tail]
  simp only [Res.bind_ok]
  split <;> rfl

theorem macSymbol_eq {demangle : Bytes → Option Bytes} {rand : Nat → Nat} {r : MacReader} {e : MacEntry} (h : e.Ok) :
    macSymbol demangle rand r e.text =
      match e.item demangle with
      | none => .ok r
      | some (sig, address) => (processItem rand r.st sig address).map fun s => { r with st := s } := by
  cases e with
  | other t =>
    show (match scanFirst t with | none => _ | some (address, rest) => _) = _
    rw [scanFirst_other h]
    rfl
  | symbol address gap1 size gap2 blanks index gap3 name tail =>
    obtain ⟨h1, h2, h3, h4, h5, h6, h7, h8, h9⟩ := h
    unfold macSymbol MacEntry.text
    dsimp only
    rw [scanFirst_eq h1 (fun c hc => space_not_hex c (h2.head _ c hc))]
    dsimp only
    rw [scanAddress_eq h2.2 h3 (fun c hc => space_not_hex c (h4.head _ c hc))]
    dsimp only
    rw [scanIndex_eq h4.2 h5 h6]
    dsimp only
    rw [scanWord_eq h7.2 h8 h9]
    simp only [Res.bind_ok, MacEntry.item, signatureOf]
    by_cases hp : b!"__" <+: name
    · rw [if_pos (prefix_startswith hp), if_pos hp]
      cases hd : demangle (name.drop 1) with
      | none => rfl
      | some sig =>
        dsimp only
        by_cases hf : contains sig b!" for "
        · rw [if_pos hf, if_pos hf]
        · rw [if_neg hf, if_neg hf]
    · rw [if_neg (by rw [startswith_false hp]; simp), if_neg hp]

theorem macLines_cons {demangle : Bytes → Option Bytes} {rand : Nat → Nat} {r : MacReader} {l : Bytes} {ls : List Bytes} :
    macLines demangle rand r (l :: ls) = (macLine demangle rand r (l.takeWhile (· != 0))).bind fun r =>
      if contains (l.takeWhile (· != 0)) b!"# Sections:" then macLines demangle rand { r with sections := true, symbols := false } (ls.drop 1)
      else if contains (l.takeWhile (· != 0)) b!"# Symbols:" then macLines demangle rand { r with sections := false, symbols := true } (ls.drop 1)
      else macLines demangle rand r ls := by
  cases ls with
  | cons m ls => rfl
  | nil =>
    simp only [macLines, List.drop_nil]
    cases macLine demangle rand r (l.takeWhile (· != 0)) with
    | ok r =>
      show Res.ok _ = _
      simp only [Res.bind]
      split
      · rfl
      · split <;> rfl
    | trap => rfl
    | ub => rfl

theorem macLines_plain {demangle : Bytes → Option Bytes} {rand : Nat → Nat} {r : MacReader} {l : Bytes} {ls : List Bytes} (hl : Line l)
    (ht : NoTitle l) : macLines demangle rand r (l :: ls) = (macLine demangle rand r l).bind fun r => macLines demangle rand r ls := by
  rw [macLines_cons, hl.cut]
  simp only [ht.1, ht.2, Bool.false_eq_true, if_false]

theorem macLines_before {demangle : Bytes → Option Bytes} {rand : Nat → Nat} {b : UInt64} {s : St} {ls rest : List Bytes}
    (ht : ∀ l ∈ ls, NoTitle l) (hl : ∀ l ∈ ls, Line l) :
    macLines demangle rand ⟨false, false, b, s⟩ (ls ++ rest) = macLines demangle rand ⟨false, false, b, s⟩ rest := by
  induction ls with
  | nil => rfl
  | cons l ls ih =>
    rw [List.cons_append, macLines_plain (hl l List.mem_cons_self) (ht l List.mem_cons_self)]
    exact ih (fun l hm => ht l (List.mem_cons_of_mem _ hm)) (fun l hm => hl l (List.mem_cons_of_mem _ hm))

/-- The base address after a table of sections. -/
def baseAfter (b : UInt64) : List MacSection → UInt64
  | [] => b
  | e :: es => baseAfter (if e.name = b!"__text" then UInt64.ofNat (hexNumber e.address) else b) es

theorem baseAfter_eq (b : UInt64) (es : List MacSection) :
    baseAfter b es = match (es.filter fun e => e.name = b!"__text").getLast? with
      | some e => UInt64.ofNat (hexNumber e.address)
      | none => b := by
  induction es generalizing b with
  | nil => rfl
  | cons e es ih =>
    rw [baseAfter, ih, List.filter_cons]
    by_cases h : e.name = b!"__text"
    · simp only [h, decide_true, if_true]
      rw [List.getLast?_cons]
      cases (es.filter fun e => e.name = b!"__text").getLast? <;> rfl
    · simp only [h, decide_false, if_false, Bool.false_eq_true]

theorem macLines_sections {demangle : Bytes → Option Bytes} {rand : Nat → Nat} {b : UInt64} {s : St} {es : List MacSection} {rest : List Bytes}
    (h : ∀ e ∈ es, e.Ok ∧ NoTitle e.text) (hl : ∀ l ∈ es.map MacSection.text, Line l) :
    macLines demangle rand ⟨true, false, b, s⟩ (es.map MacSection.text ++ rest) =
      macLines demangle rand ⟨true, false, baseAfter b es, s⟩ rest := by
  induction es generalizing b with
  | nil => rfl
  | cons e es ih =>
    have he := h e List.mem_cons_self
    rw [List.map_cons, List.cons_append, macLines_plain (hl _ (by simp)) he.2, macLine, if_pos rfl, macSection_eq he.1]
    simp only [Res.bind]
    rw [baseAfter, ← ih (fun e hm => h e (List.mem_cons_of_mem _ hm)) (fun l hm => hl l (List.mem_cons_of_mem _ hm))]
    split <;> rfl

theorem macLines_entries {demangle : Bytes → Option Bytes} {rand : Nat → Nat} {b : UInt64} {s : St} {es : List MacEntry}
    (h : ∀ e ∈ es, e.Ok ∧ NoTitle e.text) (hl : ∀ l ∈ es.map MacEntry.text, Line l) :
    macLines demangle rand ⟨false, true, b, s⟩ (es.map MacEntry.text) =
      (processAll rand s (es.filterMap (MacEntry.item demangle))).map fun s => ⟨false, true, b, s⟩ := by
  induction es generalizing s with
  | nil => rfl
  | cons e es ih =>
    have ih := fun s => ih (s := s) (fun e he => h e (List.mem_cons_of_mem _ he)) (fun l hm => hl l (List.mem_cons_of_mem _ hm))
    have he := h e List.mem_cons_self
    rw [List.map_cons, macLines_plain (hl _ (by simp)) he.2, macLine, if_neg (by simp), if_pos rfl, macSymbol_eq he.1, List.filterMap_cons]
    cases hi : e.item demangle with
    | none => exact ih s
    | some p =>
      obtain ⟨sig, address⟩ := p
      simp only [processAll]
      cases processItem rand s sig address with
      | ok s' => exact ih s'
      | trap => rfl
      | ub => rfl

/-! ### Microsoft -/

theorem contains_infix {s pat : Bytes} (h : contains s pat = true) : ∃ a b, s = a ++ pat ++ b := by
  unfold contains at h
  rw [Option.isSome_iff_exists] at h
  obtain ⟨j, hj⟩ := h
  obtain ⟨_, ⟨a, b, e, _⟩, _⟩ := find_some _ _ _ _ hj
  exact ⟨a, b, by simpa using e⟩

theorem infix_contains {s pat a b : Bytes} (h : s = a ++ pat ++ b) : contains s pat = true := by
  unfold contains
  cases hf : find s pat 0 with
  | some _ => rfl
  | none => exact absurd ⟨a, b, h, rfl⟩ (find_none _ _ _ (Nat.zero_le _) hf a.length)

theorem load_line_no_title {t : Bytes} (h : (115 : UInt8) ∉ t) : contains (b!" Preferred load address is " ++ t) b!"  Address" = false := by
  cases hc : contains (b!" Preferred load address is " ++ t) b!"  Address" with
  | false => rfl
  | true =>
    exfalso
    obtain ⟨a, b, e⟩ := contains_infix hc
    have hlen : a.length + 9 ≤ 27 := by
      apply Classical.byContradiction
      intro hn
      apply h
      have h1 : (b!" Preferred load address is " ++ t)[a.length + 8]? = some 115 := by
        rw [e, List.append_assoc, List.getElem?_append_right (by omega)]
        simp
      rw [List.getElem?_append_right (by simp; omega)] at h1
      exact List.mem_of_getElem? h1
    have h2 : contains b!" Preferred load address is " b!"  Address" = true := by
      refine infix_contains (a := a) (b := b.take (27 - (a.length + 9))) ?_
      have h3 := congrArg (List.take 27) e
      rw [List.take_append_of_le_length (by simp), List.take_of_length_le (by simp), List.take_append] at h3
      rw [h3, List.take_of_length_le (by simp; omega)]
      simp
    revert h2
    decide +kernel

theorem loadAddress_set {b : UInt64} (hb : b ≠ 0) (l : Bytes) : loadAddress b l = .ok b := by
  unfold loadAddress
  rw [if_neg (by simp [hb])]

theorem loadAddress_none {b : UInt64} {l : Bytes} (h : contains l b!"Preferred load address is " = false) : loadAddress b l = .ok b := by
  unfold loadAddress
  rw [if_neg (by simp [h])]

theorem loadAddress_line {ds : Bytes} (hd : HexText ds) (cr : Bool) :
    loadAddress 0 (b!" Preferred load address is " ++ (ds ++ if cr then [13] else [])) = .ok (UInt64.ofNat (hexNumber ds)) := by
  unfold loadAddress
  rw [if_pos ⟨rfl, infix_contains (a := [32]) (b := ds ++ if cr then [13] else []) (by simp)⟩, if_neg (by simp)]
  have h1 : (b!" Preferred load address is " ++ (ds ++ if cr then [13] else [])).drop 27 = ds ++ if cr then [13] else [] := by
    rw [List.drop_append_of_le_length (by simp)]
    rfl
  have h2 : (ds ++ if cr then [13] else []).takeWhile (fun c : UInt8 => c != 13) = ds := by
    refine takeWhile_app (p := fun c => c != 13) ?_ ?_
    · intro c hc
      have := (hex_facts c (hd.2.1 c hc)).2
      simp only [bne_iff_ne, ne_eq]
      rintro rfl
      revert this; decide
    · intro c hc
      cases cr
      · simp at hc
      · simp at hc; subst hc; rfl
  rw [h1]
  unfold loadAddressToken
  rw [h2, if_pos (by have := hd.2.2; omega)]
  simp only [Res.map, Res.bind]
  rw [hextoi64_number hd.2.1]

theorem afterSymbol_ok {undName undSig : Bytes → Bytes} {s : St} {line : Bytes} {o : Option St}
    (h : msvcLine undName undSig s line = .ok o) : ∃ rest, afterSymbol line = .ok rest := by
  unfold msvcLine at h
  rw [Res.bind_eq_ok] at h
  obtain ⟨⟨a, l1⟩, h1, h⟩ := h
  dsimp only at h
  rw [Res.bind_eq_ok] at h
  obtain ⟨⟨c, l2⟩, h2, h⟩ := h
  exact ⟨l2, by unfold afterSymbol; rw [h1]; simp only [Res.bind_ok]; rw [h2]; rfl⟩

theorem msvcLines_publics {undName undSig : Bytes → Bytes} {b : UInt64} (hb : b ≠ 0) {s : St} {ls : List Bytes} (hl : ∀ l ∈ ls, Line l) :
    (msvcLines undName undSig ⟨true, b, s⟩ ls).map (fun r => (r.base, r.st)) = (publicSymbols undName undSig s ls).map fun s => (b, s) := by
  induction ls generalizing s with
  | nil => rfl
  | cons l ls ih =>
    rw [msvcLines.eq_def]
    dsimp only
    rw [if_pos rfl, (hl l List.mem_cons_self).cut, publicSymbols]
    cases hm : msvcLine undName undSig s l with
    | ok o =>
      cases o with
      | none => rfl
      | some s' =>
        obtain ⟨rest, hr⟩ := afterSymbol_ok hm
        simp only [Res.bind_ok]
        rw [hr]
        simp only [Res.bind_ok]
        rw [loadAddress_set hb]
        exact ih (fun l hm => hl l (List.mem_cons_of_mem _ hm))
    | trap => rfl
    | ub => rfl

theorem msvcLines_before {undName undSig : Bytes → Bytes} {b : UInt64} {s : St} {ls rest : List Bytes}
    (ht : ∀ l ∈ ls, contains l b!"  Address" = false ∧ (b = 0 → contains l b!"Preferred load address is " = false)) (hl : ∀ l ∈ ls, Line l) :
    msvcLines undName undSig ⟨false, b, s⟩ (ls ++ rest) = msvcLines undName undSig ⟨false, b, s⟩ rest := by
  induction ls with
  | nil => rfl
  | cons l ls ih =>
    have h := ht l List.mem_cons_self
    have hb : loadAddress b l = .ok b := by
      by_cases hz : b = 0
      · exact loadAddress_none (h.2 hz)
      · exact loadAddress_set hz l
    rw [List.cons_append, msvcLines.eq_def]
    dsimp only
    rw [if_neg (by simp), (hl l List.mem_cons_self).cut, if_neg (by simp [h.1]), hb]
    exact ih (fun l hm => ht l (List.mem_cons_of_mem _ hm)) (fun l hm => hl l (List.mem_cons_of_mem _ hm))

end Clr.MapFiles
