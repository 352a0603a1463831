import Verif.Proofs.JSONNum

/-!
C60: what integer tokens of JSON text mean.  Model: `Verif/Model/JSONLexer.lean`.
-/
namespace Clr.JSON

/-- The number a hexadecimal digit stands for, in either case. -/
def hexDigitNum (b : UInt8) : Nat :=
  if b < 65 then b.toNat - 48 else if b < 97 then b.toNat - 55 else b.toNat - 87

/-- The number a text of decimal digits stands for. -/
def decimalNum (ds : Bytes) : Nat := ds.foldl (fun a d => a * 10 + (d.toNat - 48)) 0

/-- The number a text of hexadecimal digits stands for. -/
def hexNum (ds : Bytes) : Nat := ds.foldl (fun a d => a * 16 + hexDigitNum d) 0

/-- A text of decimal digits. -/
def Decimal (ds : Bytes) : Prop := ds ≠ [] ∧ ∀ d ∈ ds, 48 ≤ d ∧ d ≤ 57

/-- A text of hexadecimal digits. -/
def Hexadecimal (ds : Bytes) : Prop :=
  ds ≠ [] ∧ ∀ d ∈ ds, (48 ≤ d ∧ d ≤ 57) ∨ (65 ≤ d ∧ d ≤ 70) ∨ (97 ≤ d ∧ d ≤ 102)

/-- What may follow a number: a blank, a line end or one of `{}[],:`. -/
def MayFollow (b : UInt8) : Prop := b ∈ b!" \t\n\r{}[],:"

theorem isDelim_follows {b : UInt8} (h : MayFollow b) : isDelim b = true := by
  have : ∀ x ∈ b!" \t\n\r{}[],:", isDelim x = true := by decide
  exact this b h

theorem digitChar_sub : ∀ b : UInt8, 48 ≤ b → b ≤ 57 → digitChar (b.toNat - 48) = b ∧ b.toNat - 48 < 10 := by
  have : ∀ n : Fin 256, 48 ≤ UInt8.ofNat n → UInt8.ofNat n ≤ 57 →
      digitChar ((UInt8.ofNat n).toNat - 48) = UInt8.ofNat n ∧ (UInt8.ofNat n).toNat - 48 < 10 := by decide +kernel
  intro b
  have h := this ⟨b.toNat, b.toNat_lt⟩
  simpa using h

theorem hex_byte : ∀ b : UInt8, (48 ≤ b ∧ b ≤ 57) ∨ (65 ≤ b ∧ b ≤ 70) ∨ (97 ≤ b ∧ b ≤ 102) →
    isHexDigit b = true ∧ hexVal b = UInt64.ofNat (hexDigitNum b) := by
  have : ∀ n : Fin 256, (48 ≤ UInt8.ofNat n ∧ UInt8.ofNat n ≤ 57) ∨ (65 ≤ UInt8.ofNat n ∧ UInt8.ofNat n ≤ 70) ∨
      (97 ≤ UInt8.ofNat n ∧ UInt8.ofNat n ≤ 102) →
      isHexDigit (UInt8.ofNat n) = true ∧ hexVal (UInt8.ofNat n) = UInt64.ofNat (hexDigitNum (UInt8.ofNat n)) := by
    decide +kernel
  intro b
  have h := this ⟨b.toNat, b.toNat_lt⟩
  simpa using h

theorem digits_of {ds : Bytes} (h : Decimal ds) :
    ∃ ns : List Nat, ns.map digitChar = ds ∧ ns ≠ [] ∧ (∀ d ∈ ns, d < 10) ∧ ofDigits 10 ns = decimalNum ds ∧ ns.length = ds.length := by
  refine ⟨ds.map fun b => b.toNat - 48, ?_, by simpa using h.1, ?_, ?_, by simp⟩
  · rw [List.map_map]
    conv => rhs; rw [← List.map_id ds]
    exact List.map_congr_left fun b hb => (digitChar_sub b (h.2 b hb).1 (h.2 b hb).2).1
  · intro d hd
    obtain ⟨b, hb, rfl⟩ := List.mem_map.1 hd
    exact (digitChar_sub b (h.2 b hb).1 (h.2 b hb).2).2
  · simp [ofDigits, decimalNum, List.foldl_map]

theorem hexLoop_bytes (ds : Bytes) (c : Ctx) (a : Nat) (b : UInt8) (r : Bytes)
    (hds : ∀ d ∈ ds, (48 ≤ d ∧ d ≤ 57) ∨ (65 ≤ d ∧ d ≤ 70) ∨ (97 ≤ d ∧ d ≤ 102)) (hb : isHexDigit b = false)
    (hc : c.rest = ds ++ b :: r) :
    hexLoop c (UInt64.ofNat a) = (some (UInt64.ofNat (ds.foldl (fun a d => a * 16 + hexDigitNum d) a)), c.adv ds.length) := by
  induction ds generalizing c a with
  | nil =>
    rw [hexLoop]
    simp only [List.nil_append] at hc
    split
    · rename_i h; rw [hc] at h; simp at h
    · rename_i b' r' h
      rw [hc] at h
      have := (List.cons.inj h).1
      subst this
      simp [hb, Ctx.adv]
  | cons d ds ih =>
    rw [hexLoop]
    simp only [List.cons_append] at hc
    split
    · rename_i h; rw [hc] at h; simp at h
    · rename_i b' r' h
      rw [hc] at h
      have := (List.cons.inj h).1
      subst this
      have hf := hex_byte d (hds d (by simp))
      rw [if_pos hf.1, hf.2]
      have : UInt64.ofNat a * 16 + UInt64.ofNat (hexDigitNum d) = UInt64.ofNat (a * 16 + hexDigitNum d) := by
        rw [UInt64.ofNat_add, UInt64.ofNat_mul]; rfl
      rw [this, ih (c.adv 1) _ (fun x hx => hds x (by simp [hx])) (by simp [hc]), adv_adv]
      simp [Nat.add_comm]

/-- Spaces and tabs in front of a token are skipped. -/
theorem nextToken_blanks (f : Bytes → UInt64) (ws : Bytes) (hws : ∀ b ∈ ws, b = 32 ∨ b = 9) (c : Ctx) (rest : Bytes)
    (hc : c.rest = ws ++ rest) : nextToken f c = nextToken f (c.adv ws.length) := by
  induction ws generalizing c with
  | nil => simp [Ctx.adv]
  | cons w ws ih =>
    rw [nextToken]
    split
    · rename_i h; rw [hc] at h; simp at h
    · rename_i b' r' h
      rw [hc] at h
      have := (List.cons.inj h).1
      subst this
      have hs : isSpace w = true ∧ w ≠ 10 := by
        rcases hws w (by simp) with h | h <;> subst h <;> decide
      rw [if_pos hs.1, Ctx.skipSpace, if_neg hs.2, ih (fun b hb => hws b (by simp [hb])) (c.adv 1) (by simp [hc]), adv_adv]
      simp [Nat.add_comm]

/-- **C60**, decimal: digits before a blank, line end or punctuation are one integer token with their value (modulo 2^64),
exactly they are consumed, and no error is recorded. -/
theorem C60_decimal (f : Bytes → UInt64) (c : Ctx) (ws ds : Bytes) (hws : ∀ b ∈ ws, b = 32 ∨ b = 9) (hds : Decimal ds) (b : UInt8)
    (hb : MayFollow b) (r : Bytes) (hc : c.rest = ws ++ ds ++ b :: r) :
    ∃ tok c', nextToken f c = .ok (tok, c') ∧ tok.type = .integer ∧ tok.bits.toNat = decimalNum ds % 2 ^ 64 ∧ c'.rest = b :: r ∧
      c'.err = c.err := by
  obtain ⟨ns, h1, h2, h3, h4, h5⟩ := digits_of hds
  rw [nextToken_blanks f ws hws c (ds ++ b :: r) (by simp [hc]),
    nextToken_pos f ns _ b r h2 h3 (isDelim_follows hb) (by simp [hc, h1])]
  refine ⟨_, _, rfl, rfl, ?_, ?_, rfl⟩
  · simp [h4, UInt64.toNat_ofNat']
  · simp [hc, h5]

/-- **C60**, negative: with a minus in front it is the negated value, in two's complement. -/
theorem C60_negative (f : Bytes → UInt64) (c : Ctx) (ws ds : Bytes) (hws : ∀ b ∈ ws, b = 32 ∨ b = 9) (hds : Decimal ds) (b : UInt8)
    (hb : MayFollow b) (r : Bytes) (hc : c.rest = ws ++ 45 :: (ds ++ b :: r)) :
    ∃ tok c', nextToken f c = .ok (tok, c') ∧ tok.type = .integer ∧
      (tok.bits.toNat : Int) = (-(decimalNum ds : Int)) % 2 ^ 64 ∧ c'.rest = b :: r ∧ c'.err = c.err := by
  obtain ⟨ns, h1, h2, h3, h4, h5⟩ := digits_of hds
  rw [nextToken_blanks f ws hws c (45 :: (ds ++ b :: r)) (by simp [hc]),
    nextToken_neg f ns _ b r h2 h3 (isDelim_follows hb) (by simp [hc, h1])]
  refine ⟨_, _, rfl, rfl, ?_, ?_, rfl⟩
  · simp only [h4, UInt64.toNat_sub, UInt64.toNat_ofNat', UInt64.toNat_zero]
    omega
  · simp [hc, h5]

/-- **C60**, hexadecimal: `0x` and digits in either case. -/
theorem C60_hex (f : Bytes → UInt64) (c : Ctx) (ws ds : Bytes) (hws : ∀ b ∈ ws, b = 32 ∨ b = 9) (hds : Hexadecimal ds) (b : UInt8)
    (hb : MayFollow b) (r : Bytes) (hc : c.rest = ws ++ 48 :: 120 :: (ds ++ b :: r)) :
    ∃ tok c', nextToken f c = .ok (tok, c') ∧ tok.type = .integer ∧ tok.bits.toNat = hexNum ds % 2 ^ 64 ∧ c'.rest = b :: r ∧
      c'.err = c.err := by
  obtain ⟨hne, hall⟩ := hds
  rw [nextToken_blanks f ws hws c (48 :: 120 :: (ds ++ b :: r)) (by simp [hc])]
  have hc' : (c.adv ws.length).rest = 48 :: 120 :: (ds ++ b :: r) := by simp [hc]
  generalize hg : c.adv ws.length = c1 at hc'
  have herr : c1.err = c.err := by rw [← hg]; rfl
  rw [← herr]
  rw [nextToken_lex f c1 48 _ hc' (by decide)]
  unfold lexToken
  rw [show structural 48 = none by decide]
  dsimp only
  rw [if_neg (by decide), if_pos (by decide)]
  unfold lexNumber
  rw [peekAt_cons c1 48 _ hc']
  simp only [Res.bind_ok, if_true]
  rw [not_overflows (by simp [hc'])]
  have hp : c1.peekAt 1 = .ok 120 := by simp [Ctx.peekAt, hc']
  rw [hp]
  simp only [Res.bind_ok, Bool.false_eq_true, if_false]
  rw [if_neg (by decide), if_pos (by trivial), consume_ok c1 2 (by simp [hc'])]
  simp only [Res.bind_ok]
  unfold lexHexInteger
  have hc2 : (c1.adv 2).rest = ds ++ b :: r := by simp [hc']
  rw [not_overflows (by rw [hc2]; simp; omega)]
  obtain ⟨d, ds', hd⟩ := List.exists_cons_of_ne_nil hne
  rw [peekAt_cons _ d (ds' ++ b :: r) (by rw [hc2, hd]; rfl)]
  have hf := hex_byte d (hall d (by simp [hd]))
  simp only [Res.bind_ok, Bool.false_eq_true, if_false, hf.1, if_true]
  have hl := hexLoop_bytes ds (c1.adv 2) 0 b r hall (isDelim_facts (isDelim_follows hb)).2.1 hc2
  rw [show (0 : UInt64) = UInt64.ofNat 0 from rfl, hl]
  refine ⟨_, _, rfl, rfl, ?_, ?_, rfl⟩
  · show (UInt64.ofNat (hexNum ds)).toNat = _
    simp [UInt64.toNat_ofNat']
  · simp [hc']

/-- **C60**, the bits of a double: `0d` and hexadecimal digits in either case. -/
theorem C60_double_bits (f : Bytes → UInt64) (c : Ctx) (ws ds : Bytes) (hws : ∀ b ∈ ws, b = 32 ∨ b = 9) (hds : Hexadecimal ds) (b : UInt8)
    (hb : MayFollow b) (r : Bytes) (hc : c.rest = ws ++ 48 :: 100 :: (ds ++ b :: r)) :
    ∃ tok c', nextToken f c = .ok (tok, c') ∧ tok.type = .decimal ∧ tok.bits.toNat = hexNum ds % 2 ^ 64 ∧ c'.rest = b :: r ∧
      c'.err = c.err := by
  obtain ⟨hne, hall⟩ := hds
  rw [nextToken_blanks f ws hws c (48 :: 100 :: (ds ++ b :: r)) (by simp [hc])]
  have hc' : (c.adv ws.length).rest = 48 :: 100 :: (ds ++ b :: r) := by simp [hc]
  generalize hg : c.adv ws.length = c1 at hc'
  have herr : c1.err = c.err := by rw [← hg]; rfl
  rw [← herr]
  rw [nextToken_lex f c1 48 _ hc' (by decide)]
  unfold lexToken
  rw [show structural 48 = none by decide]
  dsimp only
  rw [if_neg (by decide), if_pos (by decide)]
  unfold lexNumber
  rw [peekAt_cons c1 48 _ hc']
  simp only [Res.bind_ok, if_true]
  rw [not_overflows (by simp [hc'])]
  have hp : c1.peekAt 1 = .ok 100 := by simp [Ctx.peekAt, hc']
  rw [hp]
  simp only [Res.bind_ok, Bool.false_eq_true, if_false]
  rw [if_pos (by trivial), consume_ok c1 2 (by simp [hc'])]
  simp only [Res.bind_ok]
  unfold lexHexInteger
  have hc2 : (c1.adv 2).rest = ds ++ b :: r := by simp [hc']
  rw [not_overflows (by rw [hc2]; simp; omega)]
  obtain ⟨d, ds', hd⟩ := List.exists_cons_of_ne_nil hne
  rw [peekAt_cons _ d (ds' ++ b :: r) (by rw [hc2, hd]; rfl)]
  have hf := hex_byte d (hall d (by simp [hd]))
  simp only [Res.bind_ok, Bool.false_eq_true, if_false, hf.1, if_true]
  have hl := hexLoop_bytes ds (c1.adv 2) 0 b r hall (isDelim_facts (isDelim_follows hb)).2.1 hc2
  rw [show (0 : UInt64) = UInt64.ofNat 0 from rfl, hl]
  refine ⟨_, _, rfl, rfl, ?_, ?_, rfl⟩
  · show (UInt64.ofNat (hexNum ds)).toNat = _
    simp [UInt64.toNat_ofNat']
  · simp [hc']

/-- The hypotheses are met: ` 0xAbF,`. -/
example : Hexadecimal b!"AbF" ∧ hexNum b!"AbF" = 0xABF ∧ Decimal b!"1234567890123" ∧ decimalNum b!"1234567890123" = 1234567890123 ∧ MayFollow 44 := by
  refine ⟨⟨by decide, by decide⟩, by decide, ⟨by decide, by decide⟩, by decide, by simp [MayFollow]⟩

theorem digitLoop_end (ds : Bytes) (hds : ∀ d ∈ ds, 48 ≤ d ∧ d ≤ 57) (c : Ctx) (hc : c.rest = ds) (v : UInt64) :
    digitLoop c v = (none, (c.adv ds.length).setError .unexpectedEnd) := by
  induction ds generalizing c v with
  | nil =>
    rw [digitLoop]
    split
    · simp [Ctx.adv]
    · rename_i h; rw [hc] at h; simp at h
  | cons d ds ih =>
    rw [digitLoop]
    split
    · rename_i h; rw [hc] at h; simp at h
    · rename_i b' r' h
      rw [hc] at h
      have := (List.cons.inj h).1
      subst this
      have hd := hds d (by simp)
      rw [if_pos (by simp [isDigit, hd.1, hd.2]), ih (fun x hx => hds x (by simp [hx])) (c.adv 1) (by simp [hc]), adv_adv]
      simp [Nat.add_comm]

/-- The delimiter in C60 is needed: at the end of the text every decimal number is the error "unexpected end of data"
(JSONLexer.cpp:154-155). -/
theorem C60_at_end (f : Bytes → UInt64) (c : Ctx) (ds : Bytes) (hds : Decimal ds) (hc : c.rest = ds) (hx : ds.head? ≠ some 48) :
    ∃ tok c', nextToken f c = .ok (tok, c') ∧ tok.type = .none ∧ c' = (c.adv ds.length).setError .unexpectedEnd := by
  obtain ⟨hne, hall⟩ := hds
  obtain ⟨d, ds', rfl⟩ := List.exists_cons_of_ne_nil hne
  have hd := hall d (by simp)
  have h48 : d ≠ 48 := fun h => hx (by simp [h])
  obtain ⟨h1, h2⟩ := digitChar_sub d hd.1 hd.2
  have hf := digit_facts _ h2
  rw [h1] at hf
  rw [nextToken_lex f c d ds' hc hf.2.2.2.2.2.2.1]
  unfold lexToken
  rw [hf.2.2.2.2.2.2.2.1]
  dsimp only
  rw [if_neg hf.2.2.2.2.2.2.2.2, if_pos (by simp [hf.1])]
  unfold lexNumber
  rw [peekAt_cons c d ds' hc]
  simp only [Res.bind_ok, h48, if_false]
  unfold lexSigned
  rw [peekAt_cons c d ds' hc]
  simp only [Res.bind_ok, skipSign, hf.2.2.2.2.2.1, if_false]
  unfold lexInteger
  rw [not_overflows (by simp [hc]), peekAt_cons c d ds' hc]
  simp only [Res.bind_ok, Bool.false_eq_true, if_false, hf.1, if_true]
  rw [digitLoop_end _ hall c hc]
  exact ⟨_, _, rfl, rfl, rfl⟩

/-- An instance: the text `12`. -/
example : Decimal b!"12" ∧ (b!"12").head? ≠ some 48 := by
  refine ⟨⟨by decide, by decide⟩, by decide⟩

end Clr.JSON
