import Verif.Model.JSONLexer

/-! Lemmas about the JSON lexer: it only moves forward, only sees the buffer, keeps the first error. -/
namespace Clr.JSON

/-- The context `c'` can follow `c`: some bytes were consumed, an earlier error was kept. -/
structure Follows (c c' : Ctx) : Prop where
  consumed : ∃ n, n ≤ c.rest.length ∧ c'.rest = c.rest.drop n ∧ c'.pos = c.pos + n
  sticky : c.err.code ≠ .none → c'.err = c.err
  fresh : c.err.code = .none → c'.err.code ≠ .none → c.pos ≤ c'.err.position ∧ c'.err.position ≤ c'.pos

theorem Follows.refl (c : Ctx) : Follows c c := ⟨⟨0, by simp, by simp, by simp⟩, fun _ => rfl, fun h h' => absurd h h'⟩

theorem Follows.trans {a b c : Ctx} (h1 : Follows a b) (h2 : Follows b c) : Follows a c := by
  obtain ⟨n, hn, hr, hp⟩ := h1.consumed
  obtain ⟨m, hm, hr', hp'⟩ := h2.consumed
  refine ⟨⟨n + m, ?_, ?_, ?_⟩, ?_, ?_⟩
  · rw [hr] at hm; simp at hm; omega
  · rw [hr', hr, List.drop_drop]
  · omega
  · intro h
    have e := h1.sticky h
    rw [h2.sticky (by rw [e]; exact h), e]
  · intro ha hc
    by_cases hb : b.err.code = .none
    · have := h2.fresh hb hc; omega
    · have e := h2.sticky hb
      have := h1.fresh ha hb
      rw [e]; omega

theorem Follows.length_le {a b : Ctx} (h : Follows a b) : b.rest.length ≤ a.rest.length := by
  obtain ⟨n, hn, hr, -⟩ := h.consumed
  rw [hr]; simp

theorem Follows.setError (c : Ctx) (k : Code) : Follows c (c.setError k) := by
  refine ⟨⟨0, by simp, by simp, ?_⟩, ?_, ?_⟩
  · unfold Ctx.setError; split <;> rfl
  · intro h; simp [Ctx.setError, h]
  · intro h _; simp [Ctx.setError, h]

theorem Follows.adv (c : Ctx) (n : Nat) (h : n ≤ c.rest.length) : Follows c (c.adv n) :=
  ⟨⟨n, h, rfl, rfl⟩, fun _ => rfl, fun h h' => absurd h h'⟩

theorem Follows.incLine (c : Ctx) : Follows c c.incLine := 
  ⟨⟨0, by simp, by simp [Ctx.incLine], rfl⟩, fun _ => rfl, fun h h' => absurd h h'⟩

theorem setError_code (c : Ctx) {k : Code} (hk : k ≠ .none) : (c.setError k).err.code ≠ .none := by
  unfold Ctx.setError
  split
  · exact hk
  · assumption

theorem peekAt_ok (c : Ctx) (i : Nat) (h : i < c.rest.length) : c.peekAt i = .ok c.rest[i] := by
  simp [Ctx.peekAt, h]

theorem hexRun_ok (c : Ctx) (i n : Nat) (h : i + n ≤ c.rest.length) : ∃ b, hexRun c i n = .ok b := by
  induction n generalizing i with
  | zero => exact ⟨_, rfl⟩
  | succ n ih =>
    rw [hexRun, peekAt_ok _ _ (by omega)]
    simp only [Res.bind_ok]
    split
    · exact ih (i + 1) (by omega)
    · exact ⟨_, rfl⟩

theorem consume_ok (c : Ctx) (n : Nat) (h : n ≤ c.rest.length) : c.consume n = .ok (c.adv n) := by
  simp [Ctx.consume, h]

theorem lt_of_not_overflows {c : Ctx} {n : Nat} (h : ¬ c.overflows n = true) : n < c.rest.length := by
  simp only [Ctx.overflows, decide_eq_true_eq] at h; omega

/-- An unfinished escape (`n = 0`) has recorded an error. -/
theorem lexHex4_spec (c : Ctx) (h : c.rest ≠ []) :
    ∃ r, lexHex4 c = .ok r ∧ Follows c r.2 ∧ r.2.rest.length + 1 + r.1 = c.rest.length ∧
      (r.1 = 0 → r.2.err.code ≠ .none) := by
  have h1 : 1 ≤ c.rest.length := List.length_pos_iff.2 h
  unfold lexHex4
  rw [consume_ok _ _ h1]
  simp only [Res.bind_ok]
  have hf := Follows.adv c 1 h1
  split
  · refine ⟨_, rfl, hf.trans (Follows.setError _ _), ?_, fun _ => setError_code _ (by simp)⟩
    simp; omega
  · rename_i ho
    have hl : 5 ≤ (c.adv 1).rest.length := lt_of_not_overflows ho
    obtain ⟨b, hb⟩ := hexRun_ok (c.adv 1) 0 4 (by omega)
    rw [hb]
    simp only [Res.bind_ok]
    split
    · rw [consume_ok _ _ (by omega)]
      simp only [Res.bind_ok]
      refine ⟨_, rfl, hf.trans (Follows.adv _ 4 (by omega)), ?_, by simp⟩
      simp at hl ⊢; omega
    · refine ⟨_, rfl, hf.trans (Follows.setError _ _), ?_, fun _ => setError_code _ (by simp)⟩
      simp; omega

theorem lexEscape_spec (c : Ctx) (h : c.rest ≠ []) :
    ∃ r, lexEscape c = .ok r ∧ Follows c r.2 ∧ r.2.rest.length + 1 + r.1 = c.rest.length ∧
      (r.1 = 0 → r.2.err.code ≠ .none) := by
  have h1 : 1 ≤ c.rest.length := List.length_pos_iff.2 h
  unfold lexEscape
  rw [consume_ok _ _ h1]
  simp only [Res.bind_ok]
  have hf := Follows.adv c 1 h1
  split
  · refine ⟨_, rfl, hf.trans (Follows.setError _ _), ?_, fun _ => setError_code _ (by simp)⟩
    simp; omega
  · rename_i ho
    have hl : 1 ≤ (c.adv 1).rest.length := lt_of_not_overflows ho
    rw [peekAt_ok _ _ (by omega)]
    simp only [Res.bind_ok]
    split
    · rw [consume_ok _ _ hl]
      simp only [Res.bind_ok]
      refine ⟨_, rfl, hf.trans (Follows.adv _ 1 hl), ?_, by simp⟩
      simp at hl ⊢; omega
    · split
      · obtain ⟨r, hr, hfr, hlr, -⟩ := lexHex4_spec (c.adv 1) (List.length_pos_iff.1 hl)
        rw [hr]
        simp only [Res.bind_ok]
        refine ⟨_, rfl, hf.trans hfr, ?_, fun h0 => absurd h0 (by simp)⟩
        simp at hlr hl ⊢; omega
      · refine ⟨_, rfl, hf.trans (Follows.setError _ _), ?_, fun _ => setError_code _ (by simp)⟩
        simp; omega

/-- The string loop; the length it counts is the number of bytes before the closing quote. -/
theorem strLoop_spec (c : Ctx) (n : Nat) :
    ∃ r, strLoop c n = .ok r ∧ Follows c r.2 ∧
      (r.1 = none → r.2.err.code ≠ .none) ∧
      (∀ m, r.1 = some m → m + 1 + r.2.rest.length = n + c.rest.length) := by
  fun_induction strLoop c n with
  | case1 c n hc => exact ⟨_, rfl, Follows.setError _ _, fun _ => setError_code _ (by simp), by simp⟩
  | case2 c n r hc =>
    refine ⟨_, rfl, Follows.adv _ 1 (by simp [hc]), by simp, ?_⟩
    intro m hm
    have := Option.some.inj hm
    simp [hc]; omega
  | case3 c n r e he h0 hc hb =>
    obtain ⟨r', hr', hf, hl, hz⟩ := lexEscape_spec c (by simp [hc])
    rw [he] at hr'
    have := Res.ok.inj hr'; subst this
    exact ⟨_, rfl, hf, fun _ => hz h0, by simp⟩
  | case4 c n r e he h0 hc hb ih =>
    obtain ⟨r', hr', hf, hl, hz⟩ := lexEscape_spec c (by simp [hc])
    rw [he] at hr'
    have := Res.ok.inj hr'; subst this
    obtain ⟨q, hq, hfq, hn, hm⟩ := ih
    refine ⟨q, hq, hf.trans hfq, hn, ?_⟩
    intro m h
    have := hm m h
    omega
  | case5 c n r he hc hb =>
    obtain ⟨r', hr', -⟩ := lexEscape_spec c (by simp [hc])
    rw [he] at hr'; simp at hr'
  | case6 c n r he hc hb =>
    obtain ⟨r', hr', -⟩ := lexEscape_spec c (by simp [hc])
    rw [he] at hr'; simp at hr'
  | case7 c n b r hc hb hb2 ih =>
    obtain ⟨q, hq, hfq, hn, hm⟩ := ih
    refine ⟨q, hq, (Follows.adv c 1 (by simp [hc])).trans hfq, hn, ?_⟩
    intro m h
    have := hm m h
    simp [hc] at this ⊢
    omega

/-- What every lexing function guarantees: it moves forward, an empty token comes with an error, a token
consumes something. -/
structure Lexed (c : Ctx) (r : Tok × Ctx) : Prop where
  follows : Follows c r.2
  failed : r.1.isValid = false → r.2.err.code ≠ .none
  shorter : r.1.isValid = true → r.2.rest.length < c.rest.length

theorem lexString_spec (c : Ctx) (h : c.rest ≠ []) : ∃ r, lexString c = .ok r ∧ Lexed c r := by
  have h1 : 1 ≤ c.rest.length := List.length_pos_iff.2 h
  unfold lexString
  rw [consume_ok _ _ h1]
  simp only [Res.bind_ok]
  obtain ⟨r, hr, hf, hn, hm⟩ := strLoop_spec (c.adv 1) 0
  rw [hr]
  simp only [Res.bind_ok]
  have hf' := (Follows.adv c 1 h1).trans hf
  have := hf.length_le
  simp at this
  cases h' : r.1 with
  | none => exact ⟨_, rfl, hf', fun _ => hn h', by simp [Tok.isValid]⟩
  | some m => exact ⟨_, rfl, hf', by simp [Tok.isValid], by intro _; simp; omega⟩

theorem digitLoop_spec (c : Ctx) (v : UInt64) :
    Follows c (digitLoop c v).2 ∧
      ((digitLoop c v).1 = none → (digitLoop c v).2.err.code ≠ .none) ∧
      ((digitLoop c v).1.isSome → (digitLoop c v).2.rest ≠ []) := by
  fun_induction digitLoop c v with
  | case1 c v hc => exact ⟨Follows.setError _ _, fun _ => setError_code _ (by simp), by simp⟩
  | case2 c v b r hc hb ih =>
    exact ⟨(Follows.adv c 1 (by simp [hc])).trans ih.1, ih.2⟩
  | case3 c v b r hc hb => exact ⟨Follows.refl _, by simp, by simp [hc]⟩

theorem hexLoop_spec (c : Ctx) (v : UInt64) :
    Follows c (hexLoop c v).2 ∧
      ((hexLoop c v).1 = none → (hexLoop c v).2.err.code ≠ .none) := by
  fun_induction hexLoop c v with
  | case1 c v hc => exact ⟨Follows.setError _ _, fun _ => setError_code _ (by simp)⟩
  | case2 c v b r hc hb ih =>
    exact ⟨(Follows.adv c 1 (by simp [hc])).trans ih.1, ih.2⟩
  | case3 c v b r hc hb => exact ⟨Follows.refl _, by simp⟩

theorem lexInteger_spec (c : Ctx) :
    ∃ r, lexInteger c = .ok r ∧ Follows c r.2 ∧ (r.1 = none → r.2.err.code ≠ .none) ∧
      (r.1.isSome → r.2.rest ≠ [] ∧ r.2.rest.length < c.rest.length) := by
  unfold lexInteger
  split
  · exact ⟨_, rfl, Follows.setError _ _, fun _ => setError_code _ (by simp), by simp⟩
  · rename_i ho
    have hl : 1 ≤ c.rest.length := lt_of_not_overflows ho
    rw [peekAt_ok _ _ hl]
    simp only [Res.bind_ok]
    split
    · rename_i hd
      refine ⟨_, rfl, (digitLoop_spec c 0).1, (digitLoop_spec c 0).2.1, ?_⟩
      intro hs
      refine ⟨(digitLoop_spec c 0).2.2 hs, ?_⟩
      rw [digitLoop]
      split
      · rename_i h; simp [h] at hl
      · rename_i b r h
        have : b = c.rest[0] := by simp [h]
        rw [this, if_pos hd]
        exact Nat.lt_of_le_of_lt (digitLoop_spec (c.adv 1) _).1.length_le (by simp; omega)
    · exact ⟨_, rfl, Follows.setError _ _, fun _ => setError_code _ (by simp), by simp⟩

theorem lexHexInteger_spec (c : Ctx) (t : TokType) :
    ∃ r, lexHexInteger c t = .ok r ∧ Follows c r.2 ∧ (r.1.isValid = false → t = .none ∨ r.2.err.code ≠ .none) := by
  unfold lexHexInteger
  split
  · exact ⟨_, rfl, Follows.setError _ _, fun _ => .inr (setError_code _ (by simp))⟩
  · rename_i ho
    have hl : 1 ≤ c.rest.length := lt_of_not_overflows ho
    rw [peekAt_ok _ _ hl]
    simp only [Res.bind_ok]
    split
    · have hs := hexLoop_spec c 0
      rcases hq : hexLoop c 0 with ⟨_ | v, c'⟩ <;> rw [hq] at hs
      · exact ⟨_, rfl, hs.1, fun _ => .inr (hs.2 rfl)⟩
      · exact ⟨_, rfl, hs.1, fun hv => .inl (by simpa [Tok.isValid] using hv)⟩
    · exact ⟨_, rfl, Follows.setError _ _, fun _ => .inr (setError_code _ (by simp))⟩

/-! ### Decimals -/

/-- The text stops inside an exponent: its last byte is `e` or `E`. -/
def EndsInE (d : Bytes) : Prop := d.getLast? = some 101 ∨ d.getLast? = some 69

theorem EndsInE.drop {d : Bytes} {n : Nat} (h : EndsInE (d.drop n)) : EndsInE d := by
  unfold EndsInE at *
  rw [List.getLast?_drop] at h
  split at h <;> simp_all

theorem verifyDigits_some {d r : Bytes} (h : verifyDigits d = some r) :
    ∃ ds b t, d = ds ++ b :: t ∧ r = b :: t ∧ (∀ x ∈ ds, isDigit x = true) ∧ isDigit b = false := by
  induction d with
  | nil => simp [verifyDigits] at h
  | cons b t ih =>
    rw [verifyDigits] at h
    split at h
    · rename_i hb
      obtain ⟨ds, b', t', h1, h2, h3, h4⟩ := ih h
      exact ⟨b :: ds, b', t', by simp [h1], h2, by simpa [hb] using h3, h4⟩
    · rename_i hb
      exact ⟨[], b, t, rfl, (Option.some.inj h).symm, by simp, by simpa using hb⟩

theorem digitCount_append {ds : Bytes} (b : UInt8) (t : Bytes) (h : ∀ x ∈ ds, isDigit x = true)
    (hb : isDigit b = false) : digitCount (ds ++ b :: t) = .ok ds.length := by
  induction ds with
  | nil => simp [digitCount, hb]
  | cons x ds ih =>
    have hx := h x (by simp)
    simp [digitCount, hx, ih (fun y hy => h y (by simp [hy]))]

theorem digitCount_of_verify {d : Bytes} (h : (verifyDigits d).isSome) :
    ∃ n, digitCount d = .ok n ∧ n ≤ d.length := by
  obtain ⟨r, hr⟩ := Option.isSome_iff_exists.1 h
  obtain ⟨ds, b, t, rfl, -, h3, h4⟩ := verifyDigits_some hr
  exact ⟨_, digitCount_append b t h3 h4, by simp⟩

theorem exponentCount_of_verify {b : UInt8} {r : Bytes} (h : verifyExponent r = .ok true) :
    ∃ n, exponentCount (b :: r) = .ok n ∧ n ≤ r.length + 1 := by
  rw [exponentCount.eq_def]
  dsimp only
  split
  · cases r with
    | nil => simp [verifyExponent] at h
    | cons s r' =>
      simp only [verifyExponent] at h
      have h := Res.ok.inj h
      dsimp only
      split
      · rename_i hs
        rw [if_pos hs] at h
        obtain ⟨n, hn, hl⟩ := digitCount_of_verify h
        rw [hn]
        refine ⟨_, rfl, ?_⟩
        simp; split <;> omega
      · rename_i hs
        rw [if_neg hs] at h
        obtain ⟨n, hn, hl⟩ := digitCount_of_verify h
        rw [hn]
        refine ⟨_, rfl, ?_⟩
        simp at hl ⊢; split <;> omega
  · exact ⟨0, rfl, by omega⟩

theorem verifyDecimal_strtod {d : Bytes} (h : verifyDecimal d = .ok true)
    (hb : ∀ b r, d = b :: r → b = 46 ∨ b = 101 ∨ b = 69) :
    ∃ n, strtodEnd d = .ok n ∧ n ≤ d.length := by
  unfold verifyDecimal at h
  split at h
  · simp at h
  · cases d with
    | nil => simp at h
    | cons b r =>
      dsimp only at h
      rw [strtodEnd]
      split at h
      · rename_i h46
        rw [if_pos h46]
        cases hv : verifyDigits r with
        | none => rw [hv] at h; simp at h
        | some q =>
          rw [hv] at h
          obtain ⟨ds, e, t, rfl, rfl, h3, h4⟩ := verifyDigits_some hv
          rw [digitCount_append e t h3 h4]
          simp only [Res.bind_ok, List.drop_left']
          dsimp only at h
          split at h
          · rename_i he
            simp only [decide_not, Bool.and_eq_true, Bool.not_eq_eq_eq_not, Bool.not_true,
              decide_eq_false_iff_not] at he
            rw [exponentCount.eq_def]
            simp [he.1, he.2]
            omega
          · obtain ⟨n, hn, hl⟩ := exponentCount_of_verify (b := e) h
            rw [hn]
            exact ⟨_, rfl, by simp; omega⟩
      · rename_i h46
        rw [if_neg h46]
        obtain ⟨n, hn, hl⟩ := exponentCount_of_verify (b := b) h
        exact ⟨n, hn, by simpa using hl⟩

theorem verifyExponent_ok {r : Bytes} (h : r ≠ []) : ∃ b, verifyExponent r = .ok b := by
  cases r with
  | nil => exact absurd rfl h
  | cons b r => exact ⟨_, rfl⟩

theorem verifyDecimal_ok {d : Bytes} (he : ¬ EndsInE d) : ∃ b, verifyDecimal d = .ok b := by
  unfold verifyDecimal
  split
  · exact ⟨_, rfl⟩
  · rename_i hl
    cases d with
    | nil => simp at hl
    | cons b r =>
      dsimp only
      have hr : r ≠ [] := by rintro rfl; simp at hl
      split
      · cases hv : verifyDigits r with
        | none => exact ⟨_, rfl⟩
        | some q =>
          obtain ⟨ds, e, t, rfl, rfl, h3, h4⟩ := verifyDigits_some hv
          dsimp only
          split
          · exact ⟨_, rfl⟩
          · rename_i hne
            apply verifyExponent_ok
            rintro rfl
            apply he
            unfold EndsInE
            have : e = 101 ∨ e = 69 := by
              by_cases h1 : e = 101
              · exact .inl h1
              · by_cases h2 : e = 69
                · exact .inr h2
                · simp [h1, h2] at hne
            have hg : (b :: (ds ++ [e])).getLast? = some e := by
              rw [← List.cons_append, List.getLast?_append]; simp
            rw [hg]
            rcases this with rfl | rfl <;> simp
      · exact verifyExponent_ok hr

theorem lexDecimal_spec (f : Bytes → UInt64) (num : Bytes) (k : Nat) (v : UInt64) (c : Ctx)
    (hc : c.rest ≠ []) (he : ¬ EndsInE c.rest) :
    ∃ r, lexDecimal f num k v c = .ok r ∧ Follows c r.2 ∧ (r.1.isValid = false → r.2.err.code ≠ .none) := by
  unfold lexDecimal
  obtain ⟨b, r, hcr⟩ := List.exists_cons_of_ne_nil hc
  have hl : 0 < c.rest.length := List.length_pos_iff.2 hc
  rw [peekAt_ok _ _ hl]
  simp only [Res.bind_ok]
  split
  · rename_i hb
    obtain ⟨g, hg⟩ := verifyDecimal_ok he
    rw [hg]
    simp only [Res.bind_ok]
    split
    · rename_i hgt
      subst hgt
      obtain ⟨n, hn, hnl⟩ := verifyDecimal_strtod hg (by
        intro b' r' h
        simp only [h, List.getElem_cons_zero, Bool.or_eq_true, decide_eq_true_eq] at hb
        rcases hb with (h | h) | h
        · exact .inl h
        · exact .inr (.inl h)
        · exact .inr (.inr h))
      rw [hn]
      simp only [Res.bind_ok]
      rw [consume_ok _ _ hnl]
      exact ⟨_, rfl, Follows.adv _ _ hnl, by simp [Tok.isValid]⟩
    · exact ⟨_, rfl, Follows.setError _ _, fun _ => setError_code _ (by simp)⟩
  · exact ⟨_, rfl, Follows.refl _, by simp [Tok.isValid]⟩

theorem Follows.endsInE {c c' : Ctx} (h : Follows c c') (he : ¬ EndsInE c.rest) : ¬ EndsInE c'.rest := by
  obtain ⟨n, -, hr, -⟩ := h.consumed
  rw [hr]
  exact fun h => he h.drop

theorem lexSigned_spec (f : Bytes → UInt64) (c : Ctx) (hc : c.rest ≠ []) (he : ¬ EndsInE c.rest) :
    ∃ r, lexSigned f c = .ok r ∧ Lexed c r := by
  have hl : 1 ≤ c.rest.length := List.length_pos_iff.2 hc
  unfold lexSigned
  rw [peekAt_ok _ _ hl]
  simp only [Res.bind_ok]
  have hsign : ∃ c1, skipSign c c.rest[0] = .ok c1 ∧ Follows c c1 := by
    unfold skipSign
    split
    · exact ⟨_, consume_ok _ _ hl, Follows.adv _ _ hl⟩
    · exact ⟨_, rfl, Follows.refl _⟩
  obtain ⟨c1, h1, hf1⟩ := hsign
  rw [h1]
  simp only [Res.bind_ok]
  obtain ⟨r, hr, hfr, hn, hs⟩ := lexInteger_spec c1
  rw [hr]
  simp only [Res.bind_ok]
  cases hv : r.1 with
  | none => exact ⟨_, rfl, hf1.trans hfr, fun _ => hn hv, by simp [Tok.isValid]⟩
  | some v =>
    have hs' := hs (by simp [hv])
    have hfc := hf1.trans hfr
    obtain ⟨q, hq, hfq, hqn⟩ := lexDecimal_spec f c.rest (c.rest.length - r.2.rest.length)
      (if c.rest[0] = 45 then 0 - v else v) r.2 hs'.1 (hfc.endsInE he)
    refine ⟨q, hq, hfc.trans hfq, hqn, fun _ => ?_⟩
    have := hfq.length_le
    have := hf1.length_le
    omega

theorem lexNumber_spec (f : Bytes → UInt64) (c : Ctx) (hc : c.rest ≠ []) (he : ¬ EndsInE c.rest) :
    ∃ r, lexNumber f c = .ok r ∧ Lexed c r := by
  have hl : 1 ≤ c.rest.length := List.length_pos_iff.2 hc
  unfold lexNumber
  rw [peekAt_ok _ _ hl]
  simp only [Res.bind_ok]
  split
  · split
    · exact ⟨_, rfl, Follows.setError _ _, fun _ => setError_code _ (by simp), by simp [Tok.isValid]⟩
    · rename_i ho
      have hl2 : 2 ≤ c.rest.length := lt_of_not_overflows ho
      rw [peekAt_ok _ _ hl2]
      simp only [Res.bind_ok]
      split
      · rw [consume_ok _ _ hl2]
        simp only [Res.bind_ok]
        obtain ⟨r, hr, hf, hn⟩ := lexHexInteger_spec (c.adv 2) .decimal
        refine ⟨r, hr, (Follows.adv _ _ hl2).trans hf, fun h => (hn h).resolve_left (by simp), fun _ => ?_⟩
        have := hf.length_le
        simp at this; omega
      · split
        · rw [consume_ok _ _ hl2]
          simp only [Res.bind_ok]
          obtain ⟨r, hr, hf, hn⟩ := lexHexInteger_spec (c.adv 2) .integer
          refine ⟨r, hr, (Follows.adv _ _ hl2).trans hf, fun h => (hn h).resolve_left (by simp), fun _ => ?_⟩
          have := hf.length_le
          simp at this; omega
        · exact lexSigned_spec f c hc he
  · exact lexSigned_spec f c hc he

theorem keywordLoop_spec (c : Ctx) (k : Bytes) :
    Follows c (keywordLoop c k).2 ∧
      ((keywordLoop c k).1 = none → (keywordLoop c k).2.err.code ≠ .none) := by
  induction k generalizing c with
  | nil => exact ⟨Follows.refl _, by simp [keywordLoop]⟩
  | cons k ks ih =>
    rw [keywordLoop]
    split
    · exact ⟨Follows.setError _ _, fun _ => setError_code _ (by simp)⟩
    · rename_i b r hc
      split
      · exact ⟨(Follows.adv c 1 (by simp [hc])).trans (ih _).1, (ih _).2⟩
      · exact ⟨Follows.refl _, by simp⟩

theorem lexKeyword_spec (c : Ctx) (t : TokType) (ht : t ≠ .none) (k : Bytes) (hc : c.rest ≠ []) :
    ∃ r, lexKeyword c t k = .ok r ∧ Lexed c r := by
  have hl : 1 ≤ c.rest.length := List.length_pos_iff.2 hc
  unfold lexKeyword
  rw [consume_ok _ _ hl]
  simp only [Res.bind_ok]
  have hs := keywordLoop_spec (c.adv 1) k
  have hf := (Follows.adv c 1 hl).trans hs.1
  have hl2 := hs.1.length_le
  rcases hq : keywordLoop (c.adv 1) k with ⟨_ | _ | _, c'⟩ <;> rw [hq] at hs hf hl2
  · exact ⟨_, rfl, hf, fun _ => hs.2 rfl, by simp [Tok.isValid]⟩
  · exact ⟨_, rfl, hf.trans (Follows.setError _ _), fun _ => setError_code _ (by simp), by simp [Tok.isValid]⟩
  · exact ⟨_, rfl, hf, by simp [Tok.isValid, ht], fun _ => by simp at hl2 ⊢; omega⟩

theorem structural_ne_none {b : UInt8} {t : TokType} (h : structural b = some t) : t ≠ .none := by
  unfold structural at h
  repeat (split at h; · have := Option.some.inj h; subst this; simp)
  simp at h

theorem lexToken_spec (f : Bytes → UInt64) (c : Ctx) (b : UInt8) (hc : c.rest ≠ [])
    (he : ¬ EndsInE c.rest) : ∃ r, lexToken f c b = .ok r ∧ Lexed c r := by
  have hl : 1 ≤ c.rest.length := List.length_pos_iff.2 hc
  unfold lexToken
  split
  · rename_i t ht
    rw [consume_ok _ _ hl]
    simp only [Res.bind_ok]
    exact ⟨_, rfl, Follows.adv _ _ hl, by simp [Tok.isValid, structural_ne_none ht],
      fun _ => by simp; omega⟩
  · repeat' split
    · exact lexString_spec c hc
    · exact lexNumber_spec f c hc he
    · exact lexKeyword_spec c _ (by simp) _ hc
    · exact lexKeyword_spec c _ (by simp) _ hc
    · exact lexKeyword_spec c _ (by simp) _ hc
    · exact ⟨_, rfl, Follows.setError _ _, fun _ => setError_code _ (by simp), by simp [Tok.isValid]⟩

theorem nextToken_spec (f : Bytes → UInt64) (c : Ctx) (he : ¬ EndsInE c.rest) :
    ∃ r, nextToken f c = .ok r ∧ Follows c r.2 ∧
      (r.1.isValid = false → r.2.rest = [] ∨ r.2.err.code ≠ .none) ∧
      (r.1.isValid = true → r.2.rest.length < c.rest.length) := by
  fun_induction nextToken f c with
  | case1 c hc => exact ⟨_, rfl, Follows.setError _ _, fun _ => .inl (by simp [hc]), by simp [Tok.isValid]⟩
  | case2 c b r hc hb ih =>
    have hf : Follows c (c.skipSpace b) := by
      unfold Ctx.skipSpace
      split
      · exact (Follows.incLine c).trans (Follows.adv _ 1 (by simp [Ctx.incLine, hc]))
      · exact Follows.adv _ 1 (by simp [hc])
    obtain ⟨q, hq, hfq, h1, h2⟩ := ih (hf.endsInE he)
    refine ⟨q, hq, hf.trans hfq, h1, fun h => ?_⟩
    have := h2 h
    have := hf.length_le
    omega
  | case3 c b r hc hb =>
    obtain ⟨q, hq, hl⟩ := lexToken_spec f c b (by simp [hc]) he
    exact ⟨q, hq, hl.follows, fun h => .inr (hl.failed h), hl.shorter⟩

end Clr.JSON
