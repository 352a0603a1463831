import Verif.Model.JSONNum
import Verif.Proofs.JSONLexer

/-! Lemmas about saving and lexing numbers. -/
namespace Clr.JSON

/-- What may follow a value in JSON text: whitespace or a structural character. -/
def isDelim (b : UInt8) : Bool := isSpace b || (structural b).isSome

theorem isDelim_cases {b : UInt8} (h : isDelim b = true) :
    b = 10 ∨ b = 32 ∨ b = 9 ∨ b = 11 ∨ b = 12 ∨ b = 13 ∨ b = 123 ∨ b = 125 ∨ b = 44 ∨ b = 91 ∨ b = 93 ∨ b = 58 := by
  unfold isDelim isSpace structural at h
  by_cases h1 : b = 123; · simp [h1]
  by_cases h2 : b = 125; · simp [h2]
  by_cases h3 : b = 44; · simp [h3]
  by_cases h4 : b = 91; · simp [h4]
  by_cases h5 : b = 93; · simp [h5]
  by_cases h6 : b = 58; · simp [h6]
  simp [h1, h2, h3, h4, h5, h6] at h ⊢
  simp only [or_assoc] at h
  exact h

theorem isDelim_facts {b : UInt8} (h : isDelim b = true) :
    isDigit b = false ∧ isHexDigit b = false ∧ b ≠ 46 ∧ b ≠ 101 ∧ b ≠ 69 ∧ b ≠ 100 ∧ b ≠ 120 := by
  rcases isDelim_cases h with h | h | h | h | h | h | h | h | h | h | h | h <;> subst h <;> decide

/-! ### Digits -/

/-- The number a list of digits stands for. -/
def ofDigits (radix : Nat) (ds : List Nat) : Nat := ds.foldl (fun a d => a * radix + d) 0

theorem digit_facts : ∀ d, d < 10 → isDigit (digitChar d) = true ∧ isHexDigit (digitChar d) = true ∧
    (digitChar d - 48).toUInt64 = UInt64.ofNat d ∧ digitChar d ≠ 100 ∧ digitChar d ≠ 120 ∧
    digitChar d ≠ 45 ∧ isSpace (digitChar d) = false ∧ structural (digitChar d) = none ∧ digitChar d ≠ 34 := by
  decide

theorem hex_facts : ∀ d, d < 16 → isHexDigit (digitChar d) = true ∧ hexVal (digitChar d) = UInt64.ofNat d := by
  decide

theorem radixLoop_ok (cap radix v : Nat) (acc : Bytes) (hr : 2 ≤ radix) (hc : acc.length < cap)
    (hv : v < radix ^ (cap - acc.length)) :
    ∃ ds : List Nat, radixLoop cap radix v acc = .ok (ds.map digitChar ++ acc) ∧ ds ≠ [] ∧
      (∀ d ∈ ds, d < radix) ∧ ofDigits radix ds = v := by
  fun_induction radixLoop cap radix v acc with
  | case1 v acc hlt hz =>
    refine ⟨[v % radix], rfl, by simp, ?_, ?_⟩
    · intro d hd
      have := List.mem_singleton.1 hd
      subst this
      exact Nat.mod_lt _ (by omega)
    · simp only [ofDigits, List.foldl_cons, List.foldl_nil, Nat.zero_mul, Nat.zero_add]
      have := Nat.div_add_mod v radix
      rw [hz] at this
      simpa using this
  | case2 v acc hlt hz ih =>
    have hpow : radix ^ (cap - acc.length) = radix ^ (cap - (acc.length + 1)) * radix := by
      rw [← Nat.pow_succ]; congr 1; omega
    have hlt' : v / radix < radix ^ (cap - (acc.length + 1)) := by
      rw [hpow] at hv
      exact Nat.div_lt_of_lt_mul (by rw [Nat.mul_comm]; exact hv)
    have hcap : acc.length + 1 < cap := by
      refine Nat.lt_of_not_le fun h => ?_
      rw [show cap - (acc.length + 1) = 0 by omega] at hlt'
      simp at hlt'
      have := Nat.div_eq_zero_iff.2 (Or.inr (by omega : v < radix))
      omega
    obtain ⟨ds, h1, h2, h3, h4⟩ := ih (by simpa using hcap) (by simpa using hlt')
    refine ⟨ds ++ [v % radix], ?_, by simp, ?_, ?_⟩
    · rw [h1]; simp
    · intro d hd
      rcases List.mem_append.1 hd with h | h
      · exact h3 d h
      · have := List.mem_singleton.1 h
        subst this
        exact Nat.mod_lt _ (by omega)
    · have h4' : ds.foldl (fun a d => a * radix + d) 0 = v / radix := h4
      simp only [ofDigits, List.foldl_append, List.foldl_cons, List.foldl_nil]
      rw [h4', Nat.mul_comm]
      exact Nat.div_add_mod v radix
  | case3 v acc hlt => exact absurd hc hlt

theorem radixLoop_ub (cap radix v : Nat) (acc : Bytes) (hr : 2 ≤ radix)
    (hv : radix ^ (cap - acc.length) ≤ v) : radixLoop cap radix v acc = .ub := by
  fun_induction radixLoop cap radix v acc with
  | case1 v acc hlt hz =>
    exfalso
    have : v < radix := by
      rcases Nat.div_eq_zero_iff.1 hz with h | h <;> omega
    have h1 : radix ^ 1 ≤ radix ^ (cap - acc.length) := Nat.pow_le_pow_right (by omega) (by omega)
    simp at h1
    omega
  | case2 v acc hlt hz ih =>
    apply ih
    have hpow : radix ^ (cap - acc.length) = radix ^ (cap - (acc.length + 1)) * radix := by
      rw [← Nat.pow_succ]; congr 1; omega
    rw [hpow] at hv
    simpa using (Nat.le_div_iff_mul_le (by omega)).2 hv
  | case3 v acc hlt => rfl

/-- How many digits are written. -/
theorem radixLoop_length (cap radix v : Nat) (acc out : Bytes) (k : Nat) (hr : 2 ≤ radix) (hk : v < radix ^ (k + 1))
    (h : radixLoop cap radix v acc = .ok out) : out.length ≤ acc.length + k + 1 := by
  fun_induction radixLoop cap radix v acc generalizing k with
  | case1 v acc hlt hz => have := Res.ok.inj h; subst this; simp
  | case2 v acc hlt hz ih =>
    cases k with
    | zero =>
      exfalso; apply hz
      exact Nat.div_eq_zero_iff.2 (Or.inr (by simpa using hk))
    | succ k =>
      have := ih k (Nat.div_lt_of_lt_mul (by rw [Nat.pow_succ, Nat.mul_comm] at hk; exact hk)) h
      simp at this; omega
  | case3 v acc hlt => simp at h

theorem radixLoop_length_ge (cap radix v : Nat) (acc out : Bytes) (k : Nat) (hr : 2 ≤ radix) (hk : radix ^ k ≤ v)
    (h : radixLoop cap radix v acc = .ok out) : acc.length + k + 1 ≤ out.length := by
  fun_induction radixLoop cap radix v acc generalizing k with
  | case1 v acc hlt hz =>
    have := Res.ok.inj h; subst this
    have hvr : v < radix := by
      rcases Nat.div_eq_zero_iff.1 hz with h | h <;> omega
    cases k with
    | zero => simp
    | succ k =>
      have : radix ^ 1 ≤ radix ^ (k + 1) := Nat.pow_le_pow_right (by omega) (by omega)
      simp at this; omega
  | case2 v acc hlt hz ih =>
    cases k with
    | zero =>
      have := ih 0 (by simp only [Nat.pow_zero]; exact Nat.pos_of_ne_zero hz) h
      simp at this ⊢; omega
    | succ k =>
      have := ih k ((Nat.le_div_iff_mul_le (by omega)).2 (by rw [← Nat.pow_succ]; exact hk)) h
      simp at this; omega
  | case3 v acc hlt => simp at h

/-! ### Lexing digits -/

theorem foldl_ofNat (radix : Nat) (ds : List Nat) (a : Nat) :
    UInt64.ofNat (ds.foldl (fun a d => a * radix + d) a) =
      ds.foldl (fun a d => a * UInt64.ofNat radix + UInt64.ofNat d) (UInt64.ofNat a) := by
  induction ds generalizing a with
  | nil => rfl
  | cons d ds ih => simp only [List.foldl_cons]; rw [ih, UInt64.ofNat_add, UInt64.ofNat_mul]

theorem adv_adv (c : Ctx) (m n : Nat) : (c.adv m).adv n = c.adv (m + n) := by
  simp [Ctx.adv, List.drop_drop, Nat.add_assoc]

theorem digitLoop_digits (ds : List Nat) (c : Ctx) (v : UInt64) (b : UInt8) (r : Bytes)
    (hds : ∀ d ∈ ds, d < 10) (hb : isDigit b = false) (hc : c.rest = ds.map digitChar ++ b :: r) :
    digitLoop c v = (some (ds.foldl (fun a d => a * 10 + UInt64.ofNat d) v), c.adv ds.length) := by
  induction ds generalizing c v with
  | nil =>
    rw [digitLoop]
    simp only [List.map_nil, List.nil_append] at hc
    split
    · rename_i h; rw [hc] at h; simp at h
    · rename_i b' r' h
      rw [hc] at h
      have := (List.cons.inj h).1
      subst this
      simp [hb, Ctx.adv]
  | cons d ds ih =>
    rw [digitLoop]
    simp only [List.map_cons, List.cons_append] at hc
    split
    · rename_i h; rw [hc] at h; simp at h
    · rename_i b' r' h
      rw [hc] at h
      have := (List.cons.inj h).1
      subst this
      have hf := digit_facts d (hds d (by simp))
      rw [if_pos hf.1, ih (c.adv 1) _ (fun x hx => hds x (by simp [hx])) (by simp [hc]), hf.2.2.1, adv_adv]
      simp [Nat.add_comm]

theorem hexLoop_digits (ds : List Nat) (c : Ctx) (v : UInt64) (b : UInt8) (r : Bytes)
    (hds : ∀ d ∈ ds, d < 16) (hb : isHexDigit b = false) (hc : c.rest = ds.map digitChar ++ b :: r) :
    hexLoop c v = (some (ds.foldl (fun a d => a * 16 + UInt64.ofNat d) v), c.adv ds.length) := by
  induction ds generalizing c v with
  | nil =>
    rw [hexLoop]
    simp only [List.map_nil, List.nil_append] at hc
    split
    · rename_i h; rw [hc] at h; simp at h
    · rename_i b' r' h
      rw [hc] at h
      have := (List.cons.inj h).1
      subst this
      simp [hb, Ctx.adv]
  | cons d ds ih =>
    rw [hexLoop]
    simp only [List.map_cons, List.cons_append] at hc
    split
    · rename_i h; rw [hc] at h; simp at h
    · rename_i b' r' h
      rw [hc] at h
      have := (List.cons.inj h).1
      subst this
      have hf := hex_facts d (hds d (by simp))
      rw [if_pos hf.1, ih (c.adv 1) _ (fun x hx => hds x (by simp [hx])) (by simp [hc]), hf.2, adv_adv]
      simp [Nat.add_comm]

theorem peekAt_cons (c : Ctx) (b : UInt8) (r : Bytes) (hc : c.rest = b :: r) : c.peekAt 0 = .ok b := by
  simp [Ctx.peekAt, hc]

theorem not_overflows {c : Ctx} {n : Nat} (h : n < c.rest.length) : c.overflows n = false := by
  simp [Ctx.overflows]; omega

theorem nextToken_lex (f : Bytes → UInt64) (c : Ctx) (b : UInt8) (r : Bytes) (hc : c.rest = b :: r)
    (hb : isSpace b = false) : nextToken f c = lexToken f c b := by
  rw [nextToken]
  split
  · rename_i h; rw [hc] at h; simp at h
  · rename_i b' r' h
    rw [hc] at h
    have := (List.cons.inj h).1
    subst this
    simp [hb]

/-- Decimal digits followed by a delimiter, lexed by `LexerInteger`. -/
theorem lexInteger_digits (ds : List Nat) (c : Ctx) (b : UInt8) (r : Bytes) (hne : ds ≠ [])
    (hds : ∀ d ∈ ds, d < 10) (hb : isDigit b = false) (hc : c.rest = ds.map digitChar ++ b :: r) :
    lexInteger c = .ok (some (UInt64.ofNat (ofDigits 10 ds)), c.adv ds.length) := by
  unfold lexInteger
  rw [not_overflows (by simp [hc]; omega)]
  obtain ⟨d, ds', rfl⟩ := List.exists_cons_of_ne_nil hne
  rw [peekAt_cons c (digitChar d) (ds'.map digitChar ++ b :: r) (by simp [hc])]
  have hf := digit_facts d (hds d (by simp))
  simp only [Res.bind_ok, Bool.false_eq_true, if_false, hf.1, if_true]
  rw [digitLoop_digits (d :: ds') c 0 b r hds hb hc, ofDigits, foldl_ofNat]
  rfl

theorem lexDecimal_delim (f : Bytes → UInt64) (num : Bytes) (k : Nat) (v : UInt64) (c : Ctx) (b : UInt8) (r : Bytes)
    (hb : isDelim b = true) (hc : c.rest = b :: r) :
    lexDecimal f num k v c = .ok ({ type := .integer, bits := v }, c) := by
  unfold lexDecimal
  rw [peekAt_cons c b r hc]
  have := isDelim_facts hb
  simp [this]

theorem lexSigned_pos (f : Bytes → UInt64) (ds : List Nat) (c : Ctx) (b : UInt8) (r : Bytes) (hne : ds ≠ [])
    (hds : ∀ d ∈ ds, d < 10) (hb : isDelim b = true) (hc : c.rest = ds.map digitChar ++ b :: r) :
    lexSigned f c = .ok ({ type := .integer, bits := UInt64.ofNat (ofDigits 10 ds) }, c.adv ds.length) := by
  unfold lexSigned
  obtain ⟨d, ds', hd⟩ := List.exists_cons_of_ne_nil hne
  rw [peekAt_cons c (digitChar d) (ds'.map digitChar ++ b :: r) (by simp [hc, hd])]
  have hf := digit_facts d (hds d (by simp [hd]))
  have h45 : digitChar d ≠ 45 := hf.2.2.2.2.2.1
  simp only [Res.bind_ok, skipSign, h45, if_false]
  rw [lexInteger_digits ds c b r hne hds (isDelim_facts hb).1 hc]
  simp only [Res.bind_ok]
  exact lexDecimal_delim f _ _ _ _ b r hb (by simp [hc])

theorem lexNumber_pos (f : Bytes → UInt64) (ds : List Nat) (c : Ctx) (b : UInt8) (r : Bytes) (hne : ds ≠ [])
    (hds : ∀ d ∈ ds, d < 10) (hb : isDelim b = true) (hc : c.rest = ds.map digitChar ++ b :: r) :
    lexNumber f c = .ok ({ type := .integer, bits := UInt64.ofNat (ofDigits 10 ds) }, c.adv ds.length) := by
  unfold lexNumber
  obtain ⟨d, ds', hd⟩ := List.exists_cons_of_ne_nil hne
  rw [peekAt_cons c (digitChar d) (ds'.map digitChar ++ b :: r) (by simp [hc, hd])]
  simp only [Res.bind_ok]
  have hs := lexSigned_pos f ds c b r hne hds hb hc
  split
  · rw [not_overflows (by simp [hc, hd]; omega)]
    simp only [Bool.false_eq_true, if_false]
    have hx : ∃ x, c.peekAt 1 = .ok x ∧ x ≠ 100 ∧ x ≠ 120 := by
      cases ds' with
      | nil =>
        refine ⟨b, by simp [Ctx.peekAt, hc, hd], ?_⟩
        have := isDelim_facts hb
        exact ⟨this.2.2.2.2.2.1, this.2.2.2.2.2.2⟩
      | cons e ds' =>
        refine ⟨digitChar e, by simp [Ctx.peekAt, hc, hd], ?_⟩
        have := digit_facts e (hds e (by simp [hd]))
        exact ⟨this.2.2.2.1, this.2.2.2.2.1⟩
    obtain ⟨x, h1, h2, h3⟩ := hx
    rw [h1]
    simp only [Res.bind_ok, h2, h3, if_false]
    exact hs
  · exact hs

theorem nextToken_pos (f : Bytes → UInt64) (ds : List Nat) (c : Ctx) (b : UInt8) (r : Bytes) (hne : ds ≠ [])
    (hds : ∀ d ∈ ds, d < 10) (hb : isDelim b = true) (hc : c.rest = ds.map digitChar ++ b :: r) :
    nextToken f c = .ok ({ type := .integer, bits := UInt64.ofNat (ofDigits 10 ds) }, c.adv ds.length) := by
  obtain ⟨d, ds', hd⟩ := List.exists_cons_of_ne_nil hne
  have hf := digit_facts d (hds d (by simp [hd]))
  rw [nextToken_lex f c (digitChar d) (ds'.map digitChar ++ b :: r) (by simp [hc, hd]) hf.2.2.2.2.2.2.1]
  unfold lexToken
  rw [hf.2.2.2.2.2.2.2.1]
  dsimp only
  rw [if_neg hf.2.2.2.2.2.2.2.2, if_pos (by simp [hf.1])]
  exact lexNumber_pos f ds c b r hne hds hb hc

theorem nextToken_neg (f : Bytes → UInt64) (ds : List Nat) (c : Ctx) (b : UInt8) (r : Bytes) (hne : ds ≠ [])
    (hds : ∀ d ∈ ds, d < 10) (hb : isDelim b = true) (hc : c.rest = 45 :: (ds.map digitChar ++ b :: r)) :
    nextToken f c =
      .ok ({ type := .integer, bits := 0 - UInt64.ofNat (ofDigits 10 ds) }, c.adv (ds.length + 1)) := by
  rw [nextToken_lex f c 45 (ds.map digitChar ++ b :: r) hc (by decide)]
  unfold lexToken
  rw [show structural 45 = none by decide]
  dsimp only
  rw [if_neg (by decide), if_pos (by decide)]
  unfold lexNumber
  rw [peekAt_cons c 45 _ hc]
  simp only [Res.bind_ok]
  rw [if_neg (by decide)]
  unfold lexSigned
  rw [peekAt_cons c 45 _ hc]
  simp only [Res.bind_ok, skipSign, if_true]
  rw [consume_ok c 1 (by simp [hc])]
  simp only [Res.bind_ok]
  rw [lexInteger_digits ds (c.adv 1) b r hne hds (isDelim_facts hb).1 (by simp [hc])]
  simp only [Res.bind_ok]
  rw [lexDecimal_delim f _ _ _ _ b r hb (by simp [hc]), adv_adv, Nat.add_comm]

/-- Hex digits after `0x` or `0d`. -/
theorem nextToken_hex (f : Bytes → UInt64) (x : UInt8) (ty : TokType) (hx : x = 100 ∧ ty = .decimal ∨ x = 120 ∧ ty = .integer)
    (ds : List Nat) (c : Ctx) (b : UInt8) (r : Bytes) (hne : ds ≠ [])
    (hds : ∀ d ∈ ds, d < 16) (hb : isDelim b = true) (hc : c.rest = 48 :: x :: (ds.map digitChar ++ b :: r)) :
    nextToken f c = .ok ({ type := ty, bits := UInt64.ofNat (ofDigits 16 ds) }, c.adv (ds.length + 2)) := by
  rw [nextToken_lex f c 48 _ hc (by decide)]
  unfold lexToken
  rw [show structural 48 = none by decide]
  dsimp only
  rw [if_neg (by decide), if_pos (by decide)]
  unfold lexNumber
  rw [peekAt_cons c 48 _ hc]
  simp only [Res.bind_ok, if_true]
  rw [not_overflows (by simp [hc])]
  have hp : c.peekAt 1 = .ok x := by simp [Ctx.peekAt, hc]
  rw [hp]
  simp only [Res.bind_ok, Bool.false_eq_true, if_false]
  have hh : ∀ t, lexHexInteger (c.adv 2) t =
      .ok ({ type := t, bits := UInt64.ofNat (ofDigits 16 ds) }, c.adv (ds.length + 2)) := by
    intro t
    unfold lexHexInteger
    have hc2 : (c.adv 2).rest = ds.map digitChar ++ b :: r := by simp [hc]
    rw [not_overflows (by rw [hc2]; simp; omega)]
    obtain ⟨d, ds', hd⟩ := List.exists_cons_of_ne_nil hne
    rw [peekAt_cons _ (digitChar d) (ds'.map digitChar ++ b :: r) (by rw [hc2, hd]; rfl)]
    have hf := hex_facts d (hds d (by simp [hd]))
    simp only [Res.bind_ok, Bool.false_eq_true, if_false, hf.1, if_true]
    rw [hexLoop_digits ds (c.adv 2) 0 b r hds (isDelim_facts hb).2.1 hc2, ofDigits, foldl_ofNat, adv_adv,
      Nat.add_comm]
    rfl
  have hcons : c.consume 2 = .ok (c.adv 2) := consume_ok c 2 (by simp [hc])
  rcases hx with ⟨rfl, rfl⟩ | ⟨rfl, rfl⟩
  · rw [if_pos rfl, hcons]
    simp only [Res.bind_ok]
    exact hh _
  · rw [if_neg (by decide), if_pos rfl, hcons]
    simp only [Res.bind_ok]
    exact hh _

end Clr.JSON
