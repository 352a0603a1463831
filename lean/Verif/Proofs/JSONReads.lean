import Verif.Model.JSONGrammar
import Verif.Proofs.JSONNum
import Verif.Proofs.JSONLexer

/-! Which token the lexer makes of a text, and what text it leaves. -/
namespace Clr.JSON

/-- From the text `s` the lexer makes the token `t` and goes on at `r`, without an error. -/
def Reads (f : Bytes → UInt64) (s : Bytes) (t : Tok) (r : Bytes) : Prop :=
  ∀ c : Ctx, c.rest = s → c.err.code = .none →
    ∃ c', nextToken f c = .ok (t, c') ∧ c'.rest = r ∧ c'.err.code = .none

/-- The lexer makes a token of the text, without an error (the end of the data is no error). -/
def Good (f : Bytes → UInt64) (s : Bytes) : Prop := ∃ t r, Reads f s t r

theorem Reads.unique {f : Bytes → UInt64} {s : Bytes} {t t' : Tok} {r r' : Bytes} (h : Reads f s t r)
    (h' : Reads f s t' r') : t = t' ∧ r = r' := by
  obtain ⟨c1, e1, r1, -⟩ := h { rest := s } rfl rfl
  obtain ⟨c2, e2, r2, -⟩ := h' { rest := s } rfl rfl
  rw [e1] at e2
  have := Res.ok.inj e2
  simp only [Prod.mk.injEq] at this
  exact ⟨this.1, by rw [← r1, ← r2, this.2]⟩

theorem reads_nil (f : Bytes → UInt64) : Reads f [] {} [] := by
  intro c hc he
  refine ⟨c.setError .none, ?_, by simp [hc], by simp [Ctx.setError, he]⟩
  rw [nextToken]
  split
  · rfl
  · rename_i h; rw [hc] at h; simp at h

theorem reads_space {f : Bytes → UInt64} {b : UInt8} {s r : Bytes} {t : Tok} (hb : isSpace b = true)
    (h : Reads f s t r) : Reads f (b :: s) t r := by
  intro c hc he
  have h1 : (c.skipSpace b).rest = s := by
    unfold Ctx.skipSpace; split <;> simp [hc, Ctx.incLine]
  have h2 : (c.skipSpace b).err.code = .none := by
    unfold Ctx.skipSpace; split <;> simp [he, Ctx.incLine, Ctx.adv]
  obtain ⟨c', e1, e2, e3⟩ := h _ h1 h2
  refine ⟨c', ?_, e2, e3⟩
  rw [nextToken]
  split
  · rename_i h; rw [hc] at h; simp at h
  · rename_i b' r' h
    rw [hc] at h
    simp only [List.cons.injEq] at h
    obtain ⟨rfl, rfl⟩ := h
    rw [if_pos hb]; exact e1

theorem reads_unspace {f : Bytes → UInt64} {b : UInt8} {s r : Bytes} {t : Tok} (hb : isSpace b = true)
    (h : Reads f (b :: s) t r) (hg : Good f s) : Reads f s t r := by
  obtain ⟨t', r', h'⟩ := hg
  obtain ⟨rfl, rfl⟩ := (reads_space hb h').unique h
  exact h'

theorem reads_ws {f : Bytes → UInt64} {ws s r : Bytes} {t : Tok} (hw : Ws ws) (h : Reads f s t r) :
    Reads f (ws ++ s) t r := by
  induction ws with
  | nil => exact h
  | cons b ws ih =>
    exact reads_space (hw b (by simp)) (ih fun x hx => hw x (by simp [hx]))

theorem good_ws {f : Bytes → UInt64} {ws s : Bytes} (hw : Ws ws) (h : Good f s) : Good f (ws ++ s) := by
  obtain ⟨t, r, h⟩ := h
  exact ⟨t, r, reads_ws hw h⟩

theorem reads_structural (f : Bytes → UInt64) {b : UInt8} {ty : TokType} (hb : structural b = some ty) (s : Bytes) :
    Reads f (b :: s) { type := ty } s := by
  intro c hc he
  have hsp : isSpace b = false := by
    unfold structural at hb
    unfold isSpace
    by_cases h1 : b = 123; · subst h1; decide
    by_cases h2 : b = 125; · subst h2; decide
    by_cases h3 : b = 44; · subst h3; decide
    by_cases h4 : b = 91; · subst h4; decide
    by_cases h5 : b = 93; · subst h5; decide
    by_cases h6 : b = 58; · subst h6; decide
    simp [h1, h2, h3, h4, h5, h6] at hb
  refine ⟨c.adv 1, ?_, by simp [hc], he⟩
  rw [nextToken_lex f c b s hc hsp]
  unfold lexToken
  rw [hb]
  simp only []
  rw [consume_ok _ _ (by simp [hc])]
  rfl

theorem good_structural (f : Bytes → UInt64) {b : UInt8} (hb : (structural b).isSome) (s : Bytes) :
    Good f (b :: s) := by
  obtain ⟨ty, h⟩ := Option.isSome_iff_exists.1 hb
  exact ⟨_, _, reads_structural f h s⟩

/-! ### Keywords -/

theorem keywordLoop_match (k : Bytes) (c : Ctx) (s : Bytes) (hc : c.rest = k ++ s) :
    keywordLoop c k = (some true, c.adv k.length) := by
  induction k generalizing c with
  | nil => simp [keywordLoop, Ctx.adv]
  | cons x k ih =>
    rw [keywordLoop]
    split
    · rename_i h; rw [hc] at h; simp at h
    · rename_i b r h
      rw [hc] at h
      simp only [List.cons_append, List.cons.injEq] at h
      rw [if_pos h.1, ih (c.adv 1) (by simp [hc]), adv_adv]
      simp [Nat.add_comm]

theorem reads_keyword (f : Bytes → UInt64) (b : UInt8) (k : Bytes) (ty : TokType)
    (h : b = 116 ∧ k = b!"rue" ∧ ty = .true ∨ b = 102 ∧ k = b!"alse" ∧ ty = .false ∨
      b = 110 ∧ k = b!"ull" ∧ ty = .null) (s : Bytes) :
    Reads f (b :: (k ++ s)) { type := ty } s := by
  intro c hc he
  have hsp : isSpace b = false := by rcases h with h | h | h <;> obtain ⟨rfl, -⟩ := h <;> decide
  refine ⟨(c.adv 1).adv k.length, ?_, ?_, he⟩
  · rw [nextToken_lex f c b _ hc hsp]
    have hk : lexKeyword c ty k = .ok ({ type := ty }, (c.adv 1).adv k.length) := by
      unfold lexKeyword
      rw [consume_ok _ _ (by simp [hc])]
      simp only [Res.bind_ok]
      rw [keywordLoop_match k (c.adv 1) s (by simp [hc])]
    rcases h with ⟨rfl, rfl, rfl⟩ | ⟨rfl, rfl, rfl⟩ | ⟨rfl, rfl, rfl⟩ <;> exact hk
  · simp [hc]

/-! ### Strings -/

theorem JStr.append {s t : Bytes} (h : JStr s) (ht : JStr t) : JStr (s ++ t) := by
  induction h with
  | nil => exact ht
  | char h1 h2 _ ih => exact .char h1 h2 ih
  | esc hb _ ih => exact .esc hb ih
  | uni hw hx hy hz _ ih => exact .uni hw hx hy hz ih

theorem jstr_plain {s : Bytes} (h : ∀ b ∈ s, b ≠ 34 ∧ b ≠ 92) : JStr s := by
  induction s with
  | nil => exact .nil
  | cons b s ih => exact .char (h b (by simp)).1 (h b (by simp)).2 (ih fun x hx => h x (by simp [hx]))

theorem lexEscape_single (c : Ctx) (b : UInt8) (s : Bytes) (hb : b ∈ b!"\"\\/bfnrt") (hc : c.rest = 92 :: b :: s) :
    lexEscape c = .ok (1, c.adv 2) := by
  have he : isEscape b = true := by
    simp only [List.mem_cons, List.not_mem_nil, or_false] at hb
    rcases hb with rfl | rfl | rfl | rfl | rfl | rfl | rfl | rfl <;> decide
  unfold lexEscape
  rw [consume_ok _ _ (by simp [hc])]
  simp only [Res.bind_ok]
  rw [not_overflows (by simp [hc])]
  simp only [Bool.false_eq_true, if_false]
  rw [peekAt_cons _ b s (by simp [hc])]
  simp only [Res.bind_ok, he, if_true]
  rw [consume_ok _ _ (by simp [hc])]
  simp [adv_adv]

theorem lexEscape_uni (c : Ctx) (w x y z q : UInt8) (s : Bytes) (hw : isHexDigit w) (hx : isHexDigit x)
    (hy : isHexDigit y) (hz : isHexDigit z) (hc : c.rest = 92 :: 117 :: w :: x :: y :: z :: q :: s) :
    lexEscape c = .ok (5, c.adv 6) := by
  unfold lexEscape
  rw [consume_ok _ _ (by simp [hc])]
  simp only [Res.bind_ok]
  rw [not_overflows (by simp [hc])]
  simp only [Bool.false_eq_true, if_false]
  rw [peekAt_cons _ 117 (w :: x :: y :: z :: q :: s) (by simp [hc])]
  simp only [Res.bind_ok]
  rw [show isEscape 117 = false by decide]
  simp only [Bool.false_eq_true, if_false, if_true]
  have : lexHex4 (c.adv 1) = .ok (4, c.adv 6) := by
    unfold lexHex4
    rw [consume_ok _ _ (by simp [hc])]
    simp only [Res.bind_ok]
    rw [not_overflows (by simp [hc])]
    simp only [Bool.false_eq_true, if_false]
    have h : hexRun ((c.adv 1).adv 1) 0 4 = .ok true := by
      simp [hexRun, Ctx.peekAt, hc, hw, hx, hy, hz]
    rw [h]
    simp only [Res.bind_ok, if_true]
    rw [consume_ok _ _ (by simp [hc])]
    simp [adv_adv]
  rw [this]
  rfl

theorem strLoop_jstr {s : Bytes} (h : JStr s) (c : Ctx) (n : Nat) (r : Bytes) (hc : c.rest = s ++ 34 :: r) :
    strLoop c n = .ok (some (n + s.length), c.adv (s.length + 1)) := by
  induction h generalizing c n with
  | nil =>
    rw [strLoop]
    split
    · rename_i h; rw [hc] at h; simp at h
    · rename_i b r' h
      rw [hc] at h
      simp only [List.nil_append, List.cons.injEq] at h
      simp [← h.1]
  | @char b s h1 h2 hs ih =>
    rw [strLoop]
    split
    · rename_i h; rw [hc] at h; simp at h
    · rename_i b' r' h
      rw [hc] at h
      simp only [List.cons_append, List.cons.injEq] at h
      obtain ⟨rfl, rfl⟩ := h
      rw [if_neg h1, if_neg h2, ih (c.adv 1) (n + 1) (by simp [hc]), adv_adv]
      simp [Nat.add_comm, Nat.add_assoc, Nat.add_left_comm]
  | @esc b s hb hs ih =>
    rw [strLoop]
    split
    · rename_i h; rw [hc] at h; simp at h
    · rename_i b' r' h
      rw [hc] at h
      simp only [List.cons_append, List.cons.injEq] at h
      obtain ⟨rfl, rfl⟩ := h
      rw [if_neg (by decide), if_pos rfl]
      have he := lexEscape_single c b (s ++ 34 :: r) hb hc
      split
      · rename_i q hq
        rw [he] at hq
        have := Res.ok.inj hq
        subst this
        simp only []
        rw [if_neg (by decide), ih (c.adv 2) _ (by simp [hc]), adv_adv]
        simp [Nat.add_comm, Nat.add_left_comm]
      · rename_i hq; rw [he] at hq; cases hq
      · rename_i hq; rw [he] at hq; cases hq
  | @uni w x y z s hw hx hy hz hs ih =>
    rw [strLoop]
    split
    · rename_i h; rw [hc] at h; simp at h
    · rename_i b' r' h
      rw [hc] at h
      simp only [List.cons_append, List.cons.injEq] at h
      obtain ⟨rfl, rfl⟩ := h
      rw [if_neg (by decide), if_pos rfl]
      have he : lexEscape c = .ok (5, c.adv 6) := by
        cases hq : s ++ 34 :: r with
        | nil => simp at hq
        | cons q t => exact lexEscape_uni c w x y z q t hw hx hy hz (by rw [hc]; simp [hq])
      split
      · rename_i q hq
        rw [he] at hq
        have := Res.ok.inj hq
        subst this
        simp only []
        rw [if_neg (by decide), ih (c.adv 6) _ (by simp [hc]), adv_adv]
        simp [Nat.add_comm, Nat.add_left_comm]
      · rename_i hq; rw [he] at hq; cases hq
      · rename_i hq; rw [he] at hq; cases hq

theorem reads_string (f : Bytes → UInt64) {s : Bytes} (h : JStr s) (r : Bytes) :
    Reads f (34 :: (s ++ 34 :: r)) { type := .string, text := s } r := by
  intro c hc he
  refine ⟨(c.adv 1).adv (s.length + 1), ?_, ?_, he⟩
  · rw [nextToken_lex f c 34 _ hc (by decide)]
    show lexString c = _
    unfold lexString
    rw [consume_ok _ _ (by simp [hc])]
    simp only [Res.bind_ok]
    rw [strLoop_jstr h (c.adv 1) 0 r (by simp [hc])]
    simp [hc]
  · simp [hc, ← List.drop_drop]

/-! ### Numbers -/

theorem digitLoop_run (ds : Bytes) (v : UInt64) (hds : ∀ x ∈ ds, isDigit x = true) :
    ∃ w, ∀ (b : UInt8) (r : Bytes), isDigit b = false → ∀ c : Ctx, c.rest = ds ++ b :: r → digitLoop c v = (some w, c.adv ds.length) := by
  induction ds generalizing v with
  | nil =>
    refine ⟨v, fun b r hb c hc => ?_⟩
    rw [digitLoop]
    split
    · rename_i h; rw [hc] at h; simp at h
    · rename_i b' r' h
      rw [hc] at h
      simp only [List.nil_append, List.cons.injEq] at h
      obtain ⟨rfl, rfl⟩ := h
      rw [if_neg (by simp [hb])]
      simp [Ctx.adv]
  | cons x ds ih =>
    obtain ⟨w, hw⟩ := ih (v * 10 + (x - 48).toUInt64) (fun y hy => hds y (by simp [hy]))
    refine ⟨w, fun b r hb c hc => ?_⟩
    rw [digitLoop]
    split
    · rename_i h; rw [hc] at h; simp at h
    · rename_i b' r' h
      rw [hc] at h
      simp only [List.cons_append, List.cons.injEq] at h
      obtain ⟨rfl, rfl⟩ := h
      rw [if_pos (hds _ (by simp)), hw b r hb (c.adv 1) (by simp [hc]), adv_adv]
      simp [Nat.add_comm]

theorem hexLoop_run (ds : Bytes) (v : UInt64) (hds : ∀ x ∈ ds, isHexDigit x = true) :
    ∃ w, ∀ (b : UInt8) (r : Bytes), isHexDigit b = false → ∀ c : Ctx, c.rest = ds ++ b :: r → hexLoop c v = (some w, c.adv ds.length) := by
  induction ds generalizing v with
  | nil =>
    refine ⟨v, fun b r hb c hc => ?_⟩
    rw [hexLoop]
    split
    · rename_i h; rw [hc] at h; simp at h
    · rename_i b' r' h
      rw [hc] at h
      simp only [List.nil_append, List.cons.injEq] at h
      obtain ⟨rfl, rfl⟩ := h
      rw [if_neg (by simp [hb])]
      simp [Ctx.adv]
  | cons x ds ih =>
    obtain ⟨w, hw⟩ := ih (v * 16 + hexVal x) (fun y hy => hds y (by simp [hy]))
    refine ⟨w, fun b r hb c hc => ?_⟩
    rw [hexLoop]
    split
    · rename_i h; rw [hc] at h; simp at h
    · rename_i b' r' h
      rw [hc] at h
      simp only [List.cons_append, List.cons.injEq] at h
      obtain ⟨rfl, rfl⟩ := h
      rw [if_pos (hds _ (by simp)), hw b r hb (c.adv 1) (by simp [hc]), adv_adv]
      simp [Nat.add_comm]

theorem lexInteger_run (ds : Bytes) (hds : Digits ds) :
    ∃ w, ∀ (b : UInt8) (r : Bytes), isDigit b = false → ∀ c : Ctx, c.rest = ds ++ b :: r →
      lexInteger c = .ok (some w, c.adv ds.length) := by
  obtain ⟨w, hw⟩ := digitLoop_run ds 0 hds.2
  refine ⟨w, fun b r hb c hc => ?_⟩
  have hw := hw b r hb c hc
  unfold lexInteger
  rw [not_overflows (by simp [hc]; omega)]
  obtain ⟨d, ds', rfl⟩ := List.exists_cons_of_ne_nil hds.1
  rw [peekAt_cons c d (ds' ++ b :: r) (by simp [hc])]
  simp [show isDigit d = true from hds.2 d (by simp), hw]

theorem verifyDigits_run (ds : Bytes) (b : UInt8) (r : Bytes) (hds : ∀ x ∈ ds, isDigit x = true)
    (hb : isDigit b = false) : verifyDigits (ds ++ b :: r) = some (b :: r) := by
  induction ds with
  | nil => simp [verifyDigits, hb]
  | cons x ds ih =>
    simp only [List.cons_append, verifyDigits, hds x (by simp), if_true]
    exact ih fun y hy => hds y (by simp [hy])

theorem digit_not {b : UInt8} (h : isDigit b = true) : b ≠ 45 ∧ b ≠ 43 ∧ b ≠ 46 ∧ b ≠ 101 ∧ b ≠ 69 ∧ b ≠ 34 ∧
    b ≠ 100 ∧ b ≠ 120 ∧ isSpace b = false ∧ structural b = none := by
  have : ∀ n : Fin 256, isDigit (UInt8.ofFin n) = true → UInt8.ofFin n ≠ 45 ∧ UInt8.ofFin n ≠ 43 ∧ UInt8.ofFin n ≠ 46 ∧
      UInt8.ofFin n ≠ 101 ∧ UInt8.ofFin n ≠ 69 ∧ UInt8.ofFin n ≠ 34 ∧ UInt8.ofFin n ≠ 100 ∧ UInt8.ofFin n ≠ 120 ∧
      isSpace (UInt8.ofFin n) = false ∧ structural (UInt8.ofFin n) = none := by decide +kernel
  exact this b.toFin h

theorem verifyExponent_run {s : Bytes} (h : JExp s) (b : UInt8) (r : Bytes) (hb : isDigit b = false) :
    ∃ x t, s = x :: t ∧ (x = 101 ∨ x = 69) ∧ verifyExponent (t ++ b :: r) = .ok true ∧
      exponentCount (s ++ b :: r) = .ok s.length := by
  cases h with
  | @plain x ds hx h =>
    refine ⟨x, ds, rfl, hx, ?_, ?_⟩
    · obtain ⟨d, ds', rfl⟩ := List.exists_cons_of_ne_nil h.1
      have hd := digit_not (h.2 d (by simp))
      have := verifyDigits_run (d :: ds') b r h.2 hb
      simp only [List.cons_append] at this
      simp [verifyExponent, hd, this]
    · obtain ⟨d, ds', rfl⟩ := List.exists_cons_of_ne_nil h.1
      have hd := digit_not (h.2 d (by simp))
      have := digitCount_append (ds := d :: ds') b r h.2 hb
      simp only [List.cons_append] at this
      have hx' : (x = 101 || x = 69) = true := by simpa using hx
      rw [exponentCount.eq_def]
      simp [hx', hd, this]
  | @signed x y ds hx hy h =>
    refine ⟨x, y :: ds, rfl, hx, ?_, ?_⟩
    · have := verifyDigits_run ds b r h.2 hb
      have hy' : (y = 45 || y = 43) = true := by simpa using hy.symm
      simp [verifyExponent, hy', this]
    · have := digitCount_append (ds := ds) b r h.2 hb
      have hx' : (x = 101 || x = 69) = true := by simpa using hx
      have hy' : (y = 45 || y = 43) = true := by simpa using hy.symm
      have hl : ds.length ≠ 0 := by simpa using h.1
      rw [exponentCount.eq_def]
      simp [hx', hy', this, h.1]

theorem decimal_run {s : Bytes} (h : JFrac s) (b : UInt8) (r : Bytes) (hb : isDelim b = true) :
    ∃ x t, s = x :: t ∧ (x = 46 ∨ x = 101 ∨ x = 69) ∧ verifyDecimal (s ++ b :: r) = .ok true ∧
      strtodEnd (s ++ b :: r) = .ok s.length := by
  have hf := isDelim_facts hb
  cases h with
  | @frac ds h =>
    refine ⟨46, ds, rfl, .inl rfl, ?_, ?_⟩
    · unfold verifyDecimal
      simp only [List.cons_append, List.length_cons, List.length_append]
      rw [if_neg (by omega), verifyDigits_run ds b r h hf.1]
      simp [hf]
    · unfold strtodEnd
      simp only [List.cons_append, if_true]
      rw [digitCount_append b r h hf.1]
      simp only [Res.bind_ok, List.drop_left]
      rw [exponentCount.eq_def]
      simp [hf, Nat.add_comm]
  | exp h =>
    obtain ⟨x, t, rfl, hx, h1, h2⟩ := verifyExponent_run h b r hf.1
    have h46 : x ≠ 46 := by rcases hx with rfl | rfl <;> decide
    refine ⟨x, t, rfl, .inr hx, ?_, ?_⟩
    · unfold verifyDecimal
      simp only [List.cons_append, List.length_cons, List.length_append]
      rw [if_neg (by omega), if_neg h46, h1]
    · unfold strtodEnd
      simp only [List.cons_append, h46, if_false]
      simpa using h2
  | @both ds s h he =>
    obtain ⟨x, t, rfl, hx, h1, h2⟩ := verifyExponent_run he b r hf.1
    have hxd : isDigit x = false := by rcases hx with rfl | rfl <;> decide
    refine ⟨46, ds ++ x :: t, rfl, .inl rfl, ?_, ?_⟩
    · unfold verifyDecimal
      simp only [List.cons_append, List.length_cons, List.length_append, List.append_assoc]
      rw [if_neg (by omega), verifyDigits_run ds x (t ++ b :: r) h hxd]
      have : (x ≠ 101 && x ≠ 69) = false := by rcases hx with rfl | rfl <;> decide
      simp only [this, Bool.false_eq_true, if_false, if_true, h1]
    · unfold strtodEnd
      simp only [List.cons_append, if_true, List.append_assoc]
      rw [digitCount_append x (t ++ b :: r) h hxd]
      simp only [Res.bind_ok, List.drop_left]
      rw [show x :: (t ++ b :: r) = (x :: t) ++ b :: r from rfl, h2]
      simp; omega

/-- The integer part, and what follows it. -/
theorem lexSigned_run (f : Bytes → UInt64) (neg : Bool) (ds s : Bytes) (hds : Digits ds) (hs : s = [] ∨ JFrac s) :
    ∃ t : Tok, (t.type = .integer ∨ t.type = .decimal) ∧
      (s ≠ [] → t.type = .decimal ∧ t.bits = f ((if neg then [45] else []) ++ (ds ++ s))) ∧
      ∀ (b : UInt8) (r : Bytes), isDelim b = true →
      ∀ c : Ctx, c.rest = (if neg then [45] else []) ++ (ds ++ (s ++ b :: r)) →
        lexSigned f c = .ok (t, c.adv ((if neg then 1 else 0) + ds.length + s.length)) := by
  obtain ⟨d, ds', hd⟩ := List.exists_cons_of_ne_nil hds.1
  have hdd := digit_not (hds.2 d (by simp [hd]))
  obtain ⟨w, hw⟩ := lexInteger_run ds hds
  have main : ∀ (b : UInt8) (r : Bytes), isDelim b = true → ∀ c : Ctx,
      c.rest = (if neg then [45] else []) ++ (ds ++ (s ++ b :: r)) →
      lexSigned f c = lexDecimal f ((if neg then [45] else []) ++ (ds ++ (s ++ b :: r)))
        ((if neg then 1 else 0) + ds.length) (if neg then 0 - w else w)
        (c.adv ((if neg then 1 else 0) + ds.length)) := by
    intro b r hb c hc
    have hfacts := isDelim_facts hb
    -- the character after the digits
    obtain ⟨x, q, hx, hxd⟩ : ∃ x q, s ++ b :: r = x :: q ∧ isDigit x = false := by
      rcases hs with rfl | hs
      · exact ⟨b, r, rfl, hfacts.1⟩
      · obtain ⟨x, t, rfl, hx, -⟩ := decimal_run hs b r hb
        refine ⟨x, t ++ b :: r, rfl, ?_⟩
        rcases hx with rfl | rfl | rfl <;> decide
    -- after the sign
    obtain ⟨y, hy, hskip, hyn⟩ : ∃ y, c.peekAt 0 = .ok y ∧ skipSign c y = .ok (c.adv (if neg then 1 else 0)) ∧
        (y = 45 ↔ neg = true) := by
      cases neg with
      | true =>
        simp only [if_true, List.singleton_append] at hc
        refine ⟨45, peekAt_cons c _ _ hc, ?_, by simp⟩
        simp only [skipSign, if_true]
        exact consume_ok _ 1 (by simp [hc])
      | false =>
        simp only [Bool.false_eq_true, if_false, List.nil_append, hd, List.cons_append] at hc
        refine ⟨d, peekAt_cons c _ _ hc, ?_, by simp [hdd]⟩
        simp [skipSign, hdd, Ctx.adv]
    have hrest : (c.adv (if neg then 1 else 0)).rest = ds ++ x :: q := by
      rw [← hx]; cases neg <;> simp [hc]
    unfold lexSigned
    rw [hy]
    simp only [Res.bind_ok]
    rw [hskip]
    simp only [Res.bind_ok]
    rw [hw x q hxd _ hrest]
    simp only [Res.bind_ok]
    have hr2 : ((c.adv (if neg then 1 else 0)).adv ds.length).rest = x :: q := by
      rw [adv_rest, hrest]; simp
    rw [adv_adv] at hr2 ⊢
    have hk : c.rest.length - (c.adv ((if neg then 1 else 0) + ds.length)).rest.length =
        (if neg then 1 else 0) + ds.length := by
      rw [hr2, hc, hx]; cases neg <;> simp <;> omega
    rw [hk, hc]
    congr 1
    cases neg <;> simp at hyn ⊢ <;> simp [hyn]
  have hr2 : ∀ (b : UInt8) (r : Bytes) (c : Ctx), c.rest = (if neg then [45] else []) ++ (ds ++ (s ++ b :: r)) →
      (c.adv ((if neg then 1 else 0) + ds.length)).rest = s ++ b :: r := by
    intro b r c hc
    rw [adv_rest, hc]; cases neg <;> simp [Nat.add_comm]
  rcases hs with rfl | hs
  · refine ⟨{ type := .integer, bits := if neg then 0 - w else w }, .inl rfl, fun h => absurd rfl h, fun b r hb c hc => ?_⟩
    rw [main b r hb c hc, lexDecimal_delim f _ _ _ _ b r hb (by rw [hr2 b r c hc]; rfl)]
    simp
  · refine ⟨{ type := .decimal, bits := f ((if neg then [45] else []) ++ (ds ++ s)) }, .inr rfl, fun _ => ⟨rfl, rfl⟩, fun b r hb c hc => ?_⟩
    obtain ⟨x', t, hst, hx', h1, h2⟩ := decimal_run hs b r hb
    rw [main b r hb c hc]
    have hsb := hr2 b r c hc
    have htake : ((if neg then [45] else []) ++ (ds ++ (s ++ b :: r))).take ((if neg then 1 else 0) + ds.length + s.length) =
        (if neg then [45] else []) ++ (ds ++ s) := by
      have : (if neg then [45] else []) ++ (ds ++ (s ++ b :: r)) = ((if neg then [45] else []) ++ (ds ++ s)) ++ b :: r := by simp
      rw [this, List.take_left' (by cases neg <;> simp <;> omega)]
    unfold lexDecimal
    rw [peekAt_cons _ x' (t ++ b :: r) (by rw [hsb, hst]; rfl)]
    simp only [Res.bind_ok]
    have : (x' = 46 || x' = 101 || x' = 69) = true := by
      rcases hx' with rfl | rfl | rfl <;> decide
    rw [if_pos this, hsb, h1]
    simp only [Res.bind_ok, if_true]
    rw [h2]
    simp only [Res.bind_ok]
    rw [consume_ok _ _ (by rw [hsb]; simp), htake]
    simp [adv_adv]

theorem lexNumber_signed (f : Bytes → UInt64) (c : Ctx) (x y : UInt8) (q : Bytes)
    (hc : c.rest = x :: y :: q) (h : x = 48 → y ≠ 100 ∧ y ≠ 120) : lexNumber f c = lexSigned f c := by
  unfold lexNumber
  rw [peekAt_cons c x (y :: q) hc]
  simp only [Res.bind_ok]
  split
  · rename_i hx
    rw [not_overflows (by simp [hc])]
    have : c.peekAt 1 = .ok y := by simp [Ctx.peekAt, hc]
    simp [this, h hx]
  · rfl

theorem lexToken_number (f : Bytes → UInt64) (c : Ctx) (b : UInt8) (h : b = 45 ∨ isDigit b = true) :
    lexToken f c b = lexNumber f c := by
  unfold lexToken
  rcases h with rfl | h
  · rfl
  · have := digit_not h
    rw [this.2.2.2.2.2.2.2.2.2]
    simp [this, h]

/-- Integer and decimal numbers with or without a sign. -/
theorem reads_signed (f : Bytes → UInt64) (neg : Bool) (ds s : Bytes) (hds : Digits ds) (hs : s = [] ∨ JFrac s) :
    ∃ t : Tok, (t.type = .integer ∨ t.type = .decimal) ∧
      (s ≠ [] → t.type = .decimal ∧ t.bits = f ((if neg then [45] else []) ++ (ds ++ s))) ∧
      ∀ (b : UInt8) (r : Bytes), isDelim b = true →
        Reads f ((if neg then [45] else []) ++ (ds ++ (s ++ b :: r))) t (b :: r) := by
  obtain ⟨t, ht, hd0, hrun⟩ := lexSigned_run f neg ds s hds hs
  refine ⟨t, ht, hd0, fun b r hb => ?_⟩
  have hrun := hrun b r hb
  have hfacts := isDelim_facts hb
  obtain ⟨x, q, hx, hq⟩ : ∃ x q, s ++ b :: r = x :: q ∧ x ≠ 100 ∧ x ≠ 120 := by
    rcases hs with rfl | hs
    · exact ⟨b, r, rfl, hfacts.2.2.2.2.2.1, hfacts.2.2.2.2.2.2⟩
    · obtain ⟨x, t, rfl, hx, -⟩ := decimal_run hs b r hb
      refine ⟨x, t ++ b :: r, rfl, ?_⟩
      rcases hx with rfl | rfl | rfl <;> decide
  obtain ⟨d, ds', hd⟩ := List.exists_cons_of_ne_nil hds.1
  have hdig := hds.2 d (by simp [hd])
  have hdd := digit_not hdig
  refine fun c hc he => ⟨c.adv ((if neg then 1 else 0) + ds.length + s.length), ?_, ?_, he⟩
  · have hnum : lexNumber f c = lexSigned f c := by
      cases neg with
      | true =>
        simp only [if_true, List.singleton_append, hd, List.cons_append] at hc
        exact lexNumber_signed f c _ _ _ hc (fun h => absurd h (by decide))
      | false =>
        simp only [Bool.false_eq_true, if_false, List.nil_append] at hc
        cases ds' with
        | nil =>
          rw [hd, hx] at hc
          exact lexNumber_signed f c _ _ _ hc fun _ => hq
        | cons d2 ds2 =>
          rw [hd] at hc
          have := digit_not (hds.2 d2 (by simp [hd]))
          exact lexNumber_signed f c _ _ _ hc fun _ => ⟨this.2.2.2.2.2.2.1, this.2.2.2.2.2.2.2.1⟩
    rw [← hrun c hc, ← hnum]
    cases neg with
    | true =>
      simp only [if_true, List.singleton_append] at hc
      rw [nextToken_lex f c _ _ hc (by decide), lexToken_number f c _ (.inl rfl)]
    | false =>
      simp only [Bool.false_eq_true, if_false, List.nil_append, hd, List.cons_append] at hc
      rw [nextToken_lex f c _ _ hc hdd.2.2.2.2.2.2.2.2.1, lexToken_number f c _ (.inr hdig)]
  · rw [adv_rest, hc]
    cases neg
    · simp [← List.drop_drop]
    · rw [if_pos rfl, if_pos rfl, ← List.drop_drop, ← List.drop_drop]; simp

theorem reads_number_uniform (f : Bytes → UInt64) {s : Bytes} (h : JNum s) :
    ∃ t : Tok, (t.type = .integer ∨ t.type = .decimal) ∧
      ∀ (b : UInt8) (r : Bytes), isDelim b = true → Reads f (s ++ b :: r) t (b :: r) := by
  have key : ∀ (neg : Bool) (ds s : Bytes), Digits ds → (s = [] ∨ JFrac s) →
      ∃ t : Tok, (t.type = .integer ∨ t.type = .decimal) ∧ ∀ (b : UInt8) (r : Bytes), isDelim b = true →
        Reads f ((if neg then [45] else []) ++ (ds ++ (s ++ b :: r))) t (b :: r) := fun neg ds s hds hs =>
    let ⟨t, ht, _, h⟩ := reads_signed f neg ds s hds hs
    ⟨t, ht, h⟩
  cases h with
  | @int ds h => simpa using key false s [] h (.inl rfl)
  | @neg ds h => simpa using key true ds [] h (.inl rfl)
  | @dec ds s h hf => simpa using key false ds s h (.inr hf)
  | @negDec ds s h hf => simpa using key true ds s h (.inr hf)
  | @hex x ds hx hne hds =>
    obtain ⟨w, hw⟩ := hexLoop_run ds 0 hds
    have main : ∀ (b : UInt8) (r : Bytes), isDelim b = true → ∀ (ty : TokType) (c : Ctx), c.rest = ds ++ b :: r →
        lexHexInteger c ty = .ok ({ type := ty, bits := w }, c.adv ds.length) := by
      intro b r hb ty c hc
      have hw := hw b r (isDelim_facts hb).2.1 c hc
      unfold lexHexInteger
      rw [not_overflows (by simp [hc]; omega)]
      obtain ⟨d, ds', rfl⟩ := List.exists_cons_of_ne_nil hne
      rw [peekAt_cons c d (ds' ++ b :: r) (by simp [hc])]
      simp [show isHexDigit d = true from hds d (by simp), hw]
    have hlex : ∀ (b : UInt8) (r : Bytes), isDelim b = true → ∀ (ty : TokType) (c : Ctx), (x = 100 ∧ ty = .decimal ∨ x = 120 ∧ ty = .integer) →
        c.rest = 48 :: x :: (ds ++ b :: r) → nextToken f c = .ok ({ type := ty, bits := w }, c.adv (2 + ds.length)) := by
      intro b r hb ty c hty hc
      rw [nextToken_lex f c _ _ hc (by decide), lexToken_number f c _ (.inr (by decide))]
      unfold lexNumber
      rw [peekAt_cons c _ _ hc]
      simp only [Res.bind_ok, if_true]
      rw [not_overflows (by simp [hc])]
      have : c.peekAt 1 = .ok x := by simp [Ctx.peekAt, hc]
      rw [this]
      simp only [Bool.false_eq_true, if_false, Res.bind_ok]
      rw [consume_ok _ _ (by simp [hc])]
      simp only [Res.bind_ok]
      rw [main b r hb .decimal (c.adv 2) (by simp [hc]), main b r hb .integer (c.adv 2) (by simp [hc]), adv_adv]
      rcases hty with ⟨rfl, rfl⟩ | ⟨rfl, rfl⟩ <;> rfl
    have hdrop : ∀ (b : UInt8) (r : Bytes) (c : Ctx), c.rest = 48 :: x :: (ds ++ b :: r) → (c.adv (2 + ds.length)).rest = b :: r := by
      intro b r c hc
      rw [adv_rest, hc]; simp [Nat.add_comm 2]
    rcases hx with rfl | rfl
    · exact ⟨_, .inr rfl, fun b r hb c hc he => ⟨_, hlex b r hb .decimal c (.inl ⟨rfl, rfl⟩) hc, hdrop b r c hc, he⟩⟩
    · exact ⟨_, .inl rfl, fun b r hb c hc he => ⟨_, hlex b r hb .integer c (.inr ⟨rfl, rfl⟩) hc, hdrop b r c hc, he⟩⟩

theorem reads_number (f : Bytes → UInt64) {s : Bytes} (h : JNum s) (b : UInt8) (r : Bytes) (hb : isDelim b = true) :
    ∃ t : Tok, (t.type = .integer ∨ t.type = .decimal) ∧ Reads f (s ++ b :: r) t (b :: r) := by
  obtain ⟨t, ht, h⟩ := reads_number_uniform f h
  exact ⟨t, ht, h b r hb⟩

end Clr.JSON
