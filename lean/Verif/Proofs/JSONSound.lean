import Verif.Proofs.JSONLocal

/-!
Soundness of the JSON lexer: what it makes a token of, without an error, is a lexeme of the grammar.
-/
namespace Clr.JSON

/-! ### Without assumptions on the text: the lexer only moves forward -/

theorem lexDecimal_follows {f : Bytes → UInt64} {num : Bytes} {k : Nat} {v : UInt64} {c : Ctx} {r : Tok × Ctx}
    (h : lexDecimal f num k v c = .ok r) : Follows c r.2 := by
  unfold lexDecimal at h
  obtain ⟨b, -, h⟩ := Res.bind_eq_ok.1 h
  split at h
  · obtain ⟨g, -, h⟩ := Res.bind_eq_ok.1 h
    split at h
    · obtain ⟨n, -, h⟩ := Res.bind_eq_ok.1 h
      obtain ⟨c1, h1, h⟩ := Res.bind_eq_ok.1 h
      obtain ⟨hl, rfl⟩ := consume_eq_ok.1 h1
      cases h
      exact Follows.adv _ _ hl
    · cases h
      exact Follows.setError _ _
  · cases h
    exact Follows.refl _

theorem skipSign_follows {c c' : Ctx} {b : UInt8} (h : skipSign c b = .ok c') : Follows c c' := by
  unfold skipSign at h
  split at h
  · obtain ⟨hl, rfl⟩ := consume_eq_ok.1 h
    exact Follows.adv _ _ hl
  · cases h
    exact Follows.refl _

/-- The lexer went forward, by at least a character if it has a token. -/
def Fwd (c : Ctx) (r : Tok × Ctx) : Prop := Follows c r.2 ∧ (r.1.isValid = true → r.2.rest.length < c.rest.length)

theorem Lexed.fwd {c : Ctx} {r : Tok × Ctx} (h : Lexed c r) : Fwd c r := ⟨h.follows, h.shorter⟩

theorem lexSigned_fwd {f : Bytes → UInt64} {c : Ctx} {r : Tok × Ctx} (h : lexSigned f c = .ok r) : Fwd c r := by
  unfold lexSigned at h
  obtain ⟨b, -, h⟩ := Res.bind_eq_ok.1 h
  obtain ⟨c1, h1, h⟩ := Res.bind_eq_ok.1 h
  have f1 := skipSign_follows h1
  obtain ⟨q, h2, h⟩ := Res.bind_eq_ok.1 h
  obtain ⟨q', h2', f2, -, f3⟩ := lexInteger_spec c1
  rw [h2] at h2'
  cases h2'
  split at h
  · cases h
    exact ⟨f1.trans f2, by simp [Tok.isValid]⟩
  · rename_i v hv
    have f4 := lexDecimal_follows h
    refine ⟨(f1.trans f2).trans f4, fun _ => ?_⟩
    have := (f3 (by simp [hv])).2
    have := f1.length_le
    have := f4.length_le
    omega

theorem lexNumber_fwd {f : Bytes → UInt64} {c : Ctx} {r : Tok × Ctx} (h : lexNumber f c = .ok r) : Fwd c r := by
  have hex : ∀ {c1 : Ctx} {ty : TokType}, c.consume 2 = .ok c1 → lexHexInteger c1 ty = .ok r → Fwd c r := by
    intro c1 ty h1 h2
    obtain ⟨hl, rfl⟩ := consume_eq_ok.1 h1
    obtain ⟨r', h3, f1, -⟩ := lexHexInteger_spec (c.adv 2) ty
    rw [h2] at h3
    cases h3
    refine ⟨(Follows.adv _ _ hl).trans f1, fun _ => ?_⟩
    have := f1.length_le
    simp at this
    omega
  unfold lexNumber at h
  obtain ⟨b, -, h⟩ := Res.bind_eq_ok.1 h
  split at h
  · split at h
    · cases h
      exact ⟨Follows.setError _ _, by simp [Tok.isValid]⟩
    · obtain ⟨x, -, h⟩ := Res.bind_eq_ok.1 h
      split at h
      · obtain ⟨c1, h1, h⟩ := Res.bind_eq_ok.1 h
        exact hex h1 h
      · split at h
        · obtain ⟨c1, h1, h⟩ := Res.bind_eq_ok.1 h
          exact hex h1 h
        · exact lexSigned_fwd h
  · exact lexSigned_fwd h

theorem lexToken_fwd {f : Bytes → UInt64} {c : Ctx} {b : UInt8} {r : Tok × Ctx} (hc : c.rest ≠ []) (h : lexToken f c b = .ok r) :
    Fwd c r := by
  have kw : ∀ {ty : TokType} {k : Bytes}, ty ≠ .none → lexKeyword c ty k = .ok r → Fwd c r := by
    intro ty k ht h
    obtain ⟨r', h1, h2⟩ := lexKeyword_spec c ty ht k hc
    rw [h] at h1
    cases h1
    exact h2.fwd
  unfold lexToken at h
  split at h
  · obtain ⟨c1, h1, h⟩ := Res.bind_eq_ok.1 h
    obtain ⟨hl, rfl⟩ := consume_eq_ok.1 h1
    cases h
    exact ⟨Follows.adv _ _ hl, fun _ => by simp; omega⟩
  · split at h
    · obtain ⟨r', h1, h2⟩ := lexString_spec c hc
      rw [h] at h1
      cases h1
      exact h2.fwd
    · split at h
      · exact lexNumber_fwd h
      · split at h
        · exact kw (by simp) h
        · split at h
          · exact kw (by simp) h
          · split at h
            · exact kw (by simp) h
            · cases h
              exact ⟨Follows.setError _ _, by simp [Tok.isValid]⟩

theorem skipSpace_follows {c : Ctx} {b : UInt8} {s : Bytes} (hc : c.rest = b :: s) : Follows c (c.skipSpace b) := by
  unfold Ctx.skipSpace
  split
  · exact (Follows.incLine c).trans (Follows.adv _ _ (by simp [Ctx.incLine, hc]))
  · exact Follows.adv _ _ (by simp [hc])

theorem nextToken_fwd {f : Bytes → UInt64} {c : Ctx} {r : Tok × Ctx} (h : nextToken f c = .ok r) : Fwd c r := by
  fun_induction nextToken f c with
  | case1 c hc =>
    cases h
    exact ⟨Follows.setError _ _, by simp [Tok.isValid]⟩
  | case2 c b s hc hb ih =>
    obtain ⟨h1, h2⟩ := ih h
    have f1 := skipSpace_follows hc
    exact ⟨f1.trans h1, fun hv => Nat.lt_of_lt_of_le (h2 hv) f1.length_le⟩
  | case3 c b s hc hb => exact lexToken_fwd (by simp [hc]) h

theorem Follows.clean {c c' : Ctx} (h : Follows c c') (he : c'.err.code = .none) : c.err.code = .none := by
  by_cases hc : c.err.code = .none
  · exact hc
  · rw [h.sticky hc] at he
    exact he

/-! ### Lexemes -/

/-- The text of a token. -/
def Lexeme (t : Tok) (s : Bytes) : Prop :=
  match t.type with
  | .none => s = []
  | .lbrace => s = [123]
  | .rbrace => s = [125]
  | .comma => s = [44]
  | .lbracket => s = [91]
  | .rbracket => s = [93]
  | .colon => s = [58]
  | .string => JStr t.text ∧ s = 34 :: (t.text ++ [34])
  | .true => s = b!"true"
  | .false => s = b!"false"
  | .null => s = b!"null"
  | .integer => JNum s
  | .decimal => JNum s

/-- No digit comes next. -/
def Stops (r : Bytes) : Prop := ∀ b s, r = b :: s → isDigit b = false

/-- No digit comes after a number. -/
def Munch (t : Tok) (r : Bytes) : Prop := t.type = .integer ∨ t.type = .decimal → Stops r

/-- What the lexer consumed is the text of the token. -/
def Sound (c : Ctx) (r : Tok × Ctx) : Prop :=
  r.2.err.code = .none → r.1.isValid = true ∧ (∃ s, c.rest = s ++ r.2.rest ∧ Lexeme r.1 s) ∧ Munch r.1 r.2.rest

theorem Sound.fail {c : Ctx} {c' : Ctx} {k : Code} (hk : k ≠ .none) : Sound c ({}, c'.setError k) := by
  intro h
  exact absurd h (setError_code _ hk)

theorem digitLoop_stops (c : Ctx) (v : UInt64) : ∀ w, (digitLoop c v).1 = some w → Stops (digitLoop c v).2.rest := by
  fun_induction digitLoop c v with
  | case1 c v hc => intro w h; cases h
  | case2 c v b r hc hb ih => exact ih
  | case3 c v b r hc hb =>
    intro w h x s hx
    dsimp only at hx
    rw [hc] at hx
    cases hx
    simpa using hb

theorem hexLoop_stops (c : Ctx) (v : UInt64) : ∀ w, (hexLoop c v).1 = some w → Stops (hexLoop c v).2.rest := by
  fun_induction hexLoop c v with
  | case1 c v hc => intro w h; cases h
  | case2 c v b r hc hb ih => exact ih
  | case3 c v b r hc hb =>
    intro w h x s hx
    dsimp only at hx
    rw [hc] at hx
    cases hx
    have hb : isHexDigit b = false := by simpa using hb
    simp only [isHexDigit, Bool.or_eq_false_iff] at hb
    exact hb.1.1

theorem digitLoop_sound (c : Ctx) (v : UInt64) : ∀ w, (digitLoop c v).1 = some w →
    ∃ ds, c.rest = ds ++ (digitLoop c v).2.rest ∧ (∀ b ∈ ds, isDigit b = true) := by
  fun_induction digitLoop c v with
  | case1 c v hc => intro w h; cases h
  | case2 c v b r hc hb ih =>
    intro w h
    obtain ⟨ds, h1, h2⟩ := ih w h
    refine ⟨b :: ds, ?_, by simpa [hb] using h2⟩
    simp [hc] at h1
    rw [hc, h1]
    simp
  | case3 c v b r hc hb =>
    intro w h
    exact ⟨[], by simp, by simp⟩

theorem hexLoop_sound (c : Ctx) (v : UInt64) : ∀ w, (hexLoop c v).1 = some w →
    ∃ ds, c.rest = ds ++ (hexLoop c v).2.rest ∧ (∀ b ∈ ds, isHexDigit b = true) := by
  fun_induction hexLoop c v with
  | case1 c v hc => intro w h; cases h
  | case2 c v b r hc hb ih =>
    intro w h
    obtain ⟨ds, h1, h2⟩ := ih w h
    refine ⟨b :: ds, ?_, by simpa [hb] using h2⟩
    simp [hc] at h1
    rw [hc, h1]
    simp
  | case3 c v b r hc hb =>
    intro w h
    exact ⟨[], by simp, by simp⟩

theorem lexInteger_sound {c : Ctx} {v : UInt64} {c' : Ctx} (h : lexInteger c = .ok (some v, c')) :
    ∃ ds, Digits ds ∧ c.rest = ds ++ c'.rest := by
  unfold lexInteger at h
  split at h
  · cases h
  · obtain ⟨b, hb, h⟩ := Res.bind_eq_ok.1 h
    split at h
    · rename_i hd
      have h := Res.ok.inj h
      obtain ⟨ds, h1, h2⟩ := digitLoop_sound c 0 v (by rw [h])
      rw [h] at h1
      refine ⟨ds, ⟨?_, h2⟩, h1⟩
      have := (lexInteger_spec c)
      rintro rfl
      unfold Ctx.peekAt at hb
      cases hc : c.rest with
      | nil => rw [hc] at hb; cases hb
      | cons x xs =>
        rw [hc] at hb
        cases hb
        rw [digitLoop] at h
        split at h
        · rename_i hn; rw [hc] at hn; cases hn
        · rename_i b' r' hcr
          rw [hc] at hcr
          cases hcr
          rw [if_pos hd] at h
          have hf := (digitLoop_spec (c.adv 1) (0 * 10 + (b - 48).toUInt64)).1.length_le
          rw [h] at hf
          simp [hc] at hf h1
          rw [← h1] at hf
          simp at hf
          omega
    · cases h

theorem lexInteger_stops {c : Ctx} {v : UInt64} {c' : Ctx} (h : lexInteger c = .ok (some v, c')) : Stops c'.rest := by
  unfold lexInteger at h
  split at h
  · cases h
  · obtain ⟨b, hb, h⟩ := Res.bind_eq_ok.1 h
    split at h
    · have h := Res.ok.inj h
      have := digitLoop_stops c 0 v (by rw [h])
      rw [h] at this
      exact this
    · cases h

theorem lexHexInteger_stops {c : Ctx} {ty : TokType} {r : Tok × Ctx} (h : lexHexInteger c ty = .ok r) (he : r.2.err.code = .none) :
    Stops r.2.rest := by
  unfold lexHexInteger at h
  split at h
  · cases h
    exact absurd he (setError_code _ (by simp))
  · obtain ⟨b, hb, h⟩ := Res.bind_eq_ok.1 h
    split at h
    · split at h
      · rename_i v c1 hl
        cases h
        have := hexLoop_stops c 0 v (by rw [hl])
        rw [hl] at this
        exact this
      · rename_i c1 hl
        cases h
        have := (hexLoop_spec c 0).2
        rw [hl] at this
        exact absurd he (this rfl)
    · cases h
      exact absurd he (setError_code _ (by simp))

theorem lexHexInteger_sound {c : Ctx} {ty : TokType} {r : Tok × Ctx} (h : lexHexInteger c ty = .ok r) (he : r.2.err.code = .none) :
    r.1.type = ty ∧ ∃ ds, ds ≠ [] ∧ (∀ b ∈ ds, isHexDigit b = true) ∧ c.rest = ds ++ r.2.rest := by
  unfold lexHexInteger at h
  split at h
  · cases h
    exact absurd he (setError_code _ (by simp))
  · obtain ⟨b, hb, h⟩ := Res.bind_eq_ok.1 h
    split at h
    · rename_i hd
      split at h
      · rename_i v c1 hl
        cases h
        obtain ⟨ds, h1, h2⟩ := hexLoop_sound c 0 v (by rw [hl])
        rw [hl] at h1
        refine ⟨rfl, ds, ?_, h2, h1⟩
        rintro rfl
        unfold Ctx.peekAt at hb
        cases hc : c.rest with
        | nil => rw [hc] at hb; cases hb
        | cons x xs =>
          rw [hc] at hb
          cases hb
          rw [hexLoop] at hl
          split at hl
          · rename_i hn; rw [hc] at hn; cases hn
          · rename_i b' r' hcr
            rw [hc] at hcr
            cases hcr
            rw [if_pos hd] at hl
            have hf := (hexLoop_spec (c.adv 1) (0 * 16 + hexVal b)).1.length_le
            rw [hl] at hf
            simp [hc] at hf h1
            rw [← h1] at hf
            simp at hf
            omega
      · rename_i c1 hl
        cases h
        have := (hexLoop_spec c 0).2
        rw [hl] at this
        exact absurd he (this rfl)
    · cases h
      exact absurd he (setError_code _ (by simp))

theorem digitCount_sound {d : Bytes} : ∀ {n : Nat}, digitCount d = .ok n → n ≤ d.length ∧ ∀ b ∈ d.take n, isDigit b = true := by
  induction d with
  | nil => intro n h; cases h
  | cons b r ih =>
    intro n h
    rw [digitCount] at h
    split at h
    · rename_i hb
      obtain ⟨k, h1, h⟩ := Res.bind_eq_ok.1 h
      cases h
      have := ih h1
      exact ⟨by simp; omega, by simpa [hb] using this.2⟩
    · cases h
      simp

theorem digitCount_stops {d : Bytes} : ∀ {n : Nat}, digitCount d = .ok n → Stops (d.drop n) := by
  induction d with
  | nil => intro n h; cases h
  | cons b r ih =>
    intro n h
    rw [digitCount] at h
    split at h
    · obtain ⟨k, h1, h⟩ := Res.bind_eq_ok.1 h
      cases h
      simpa using ih h1
    · rename_i hb
      cases h
      intro x s hx
      simp at hx
      rw [← hx.1]
      simpa using hb

theorem exponentCount_stops {d : Bytes} {n : Nat} (hd : Stops d) (h : exponentCount d = .ok n) : Stops (d.drop n) := by
  rw [exponentCount.eq_def] at h
  split at h
  · cases h
  · rename_i b r
    split at h
    · split at h
      · cases h
      · rename_i s r'
        split at h
        · obtain ⟨k, h1, h⟩ := Res.bind_eq_ok.1 h
          have h := Res.ok.inj h
          subst h
          by_cases hk : k = 0
          · rw [if_pos hk]; exact hd
          · rw [if_neg hk]
            simpa using digitCount_stops h1
        · obtain ⟨k, h1, h⟩ := Res.bind_eq_ok.1 h
          have h := Res.ok.inj h
          subst h
          by_cases hk : k = 0
          · rw [if_pos hk]; exact hd
          · rw [if_neg hk]
            have := digitCount_stops h1
            simpa using this
    · cases h
      exact hd

theorem strtodEnd_stops {d : Bytes} {n : Nat} (hd : Stops d) (h : strtodEnd d = .ok n) : Stops (d.drop n) := by
  unfold strtodEnd at h
  split at h
  · cases h
  · rename_i b r
    split at h
    · obtain ⟨k, h1, h⟩ := Res.bind_eq_ok.1 h
      obtain ⟨x, h2, h⟩ := Res.bind_eq_ok.1 h
      have h := Res.ok.inj h
      subst h
      have := exponentCount_stops (digitCount_stops h1) h2
      rw [show 1 + k + x = (k + x) + 1 by omega, List.drop_succ_cons, ← List.drop_drop]
      exact this
    · exact exponentCount_stops hd h

theorem lexDecimal_stops {f : Bytes → UInt64} {num : Bytes} {k : Nat} {v : UInt64} {c : Ctx} {r : Tok × Ctx} (hc : Stops c.rest)
    (h : lexDecimal f num k v c = .ok r) (he : r.2.err.code = .none) : Stops r.2.rest := by
  unfold lexDecimal at h
  obtain ⟨b, -, h⟩ := Res.bind_eq_ok.1 h
  split at h
  · obtain ⟨g, -, h⟩ := Res.bind_eq_ok.1 h
    split at h
    · obtain ⟨n, h0, h⟩ := Res.bind_eq_ok.1 h
      obtain ⟨c1, h1, h⟩ := Res.bind_eq_ok.1 h
      obtain ⟨hl, rfl⟩ := consume_eq_ok.1 h1
      cases h
      simpa using strtodEnd_stops hc h0
    · cases h
      exact absurd he (setError_code _ (by simp))
  · cases h
    exact hc

theorem exponentCount_sound {d : Bytes} {n : Nat} (h : exponentCount d = .ok n) : n = 0 ∨ JExp (d.take n) := by
  have digs : ∀ {d : Bytes} {k : Nat}, digitCount d = .ok k → k ≠ 0 → Digits (d.take k) := by
    intro d k hk hne
    have := digitCount_sound hk
    refine ⟨fun h => ?_, this.2⟩
    have hl := congrArg List.length h
    rw [List.length_take, Nat.min_eq_left this.1] at hl
    exact hne hl
  rw [exponentCount.eq_def] at h
  split at h
  · cases h
  · rename_i b r
    split at h
    · rename_i hb
      have hb' : b = 101 ∨ b = 69 := by simpa using hb
      split at h
      · cases h
      · rename_i s r'
        split at h
        · rename_i hs
          have hs' : s = 43 ∨ s = 45 := by
            have : s = 45 ∨ s = 43 := by simpa using hs
            exact this.symm
          obtain ⟨k, h1, h⟩ := Res.bind_eq_ok.1 h
          have h := Res.ok.inj h
          subst h
          by_cases hk : k = 0
          · left; rw [if_pos hk]
          · right
            rw [if_neg hk]
            exact .signed hb' hs' (digs h1 hk)
        · obtain ⟨k, h1, h⟩ := Res.bind_eq_ok.1 h
          have h := Res.ok.inj h
          subst h
          by_cases hk : k = 0
          · left; rw [if_pos hk]
          · right
            rw [if_neg hk]
            exact .plain hb' (digs h1 hk)
    · left
      exact (Res.ok.inj h).symm

theorem strtodEnd_sound {d : Bytes} {n : Nat} (h : strtodEnd d = .ok n) : n = 0 ∨ JFrac (d.take n) := by
  unfold strtodEnd at h
  split at h
  · cases h
  · rename_i b r
    split at h
    · rename_i hb
      obtain ⟨k, h1, h⟩ := Res.bind_eq_ok.1 h
      obtain ⟨x, h2, h⟩ := Res.bind_eq_ok.1 h
      have h := Res.ok.inj h
      subst h
      have hd := digitCount_sound h1
      right
      subst hb
      rcases exponentCount_sound h2 with rfl | he
      · rw [show 1 + k + 0 = k + 1 by omega, List.take_succ_cons]
        exact .frac hd.2
      · have := JFrac.both hd.2 he
        rw [show 1 + k + x = (k + x) + 1 by omega, List.take_succ_cons, List.take_add]
        exact this
    · rcases exponentCount_sound h with rfl | he
      · exact .inl rfl
      · exact .inr (.exp he)

theorem lexDecimal_sound {f : Bytes → UInt64} {num : Bytes} {k : Nat} {v : UInt64} {c : Ctx} {r : Tok × Ctx}
    (h : lexDecimal f num k v c = .ok r) (he : r.2.err.code = .none) :
    (r.1.type = .integer ∨ r.1.type = .decimal) ∧ ∃ s, c.rest = s ++ r.2.rest ∧ (s = [] ∨ JFrac s) := by
  unfold lexDecimal at h
  obtain ⟨b, -, h⟩ := Res.bind_eq_ok.1 h
  split at h
  · obtain ⟨g, -, h⟩ := Res.bind_eq_ok.1 h
    split at h
    · obtain ⟨n, h0, h⟩ := Res.bind_eq_ok.1 h
      obtain ⟨c1, h1, h⟩ := Res.bind_eq_ok.1 h
      obtain ⟨hl, rfl⟩ := consume_eq_ok.1 h1
      cases h
      refine ⟨.inr rfl, c.rest.take n, by simp, ?_⟩
      rcases strtodEnd_sound h0 with rfl | h
      · exact .inl (by simp)
      · exact .inr h
    · cases h
      exact absurd he (setError_code _ (by simp))
  · cases h
    exact ⟨.inl rfl, [], by simp, .inl rfl⟩

theorem lexSigned_sound {f : Bytes → UInt64} {c : Ctx} {r : Tok × Ctx} (h : lexSigned f c = .ok r) : Sound c r := by
  intro he
  unfold lexSigned at h
  obtain ⟨b, hb, h⟩ := Res.bind_eq_ok.1 h
  obtain ⟨c1, h1, h⟩ := Res.bind_eq_ok.1 h
  obtain ⟨q, h2, h⟩ := Res.bind_eq_ok.1 h
  obtain ⟨q', h2', -, f2, -⟩ := lexInteger_spec c1
  rw [h2] at h2'
  cases h2'
  obtain ⟨qv, qc⟩ := q
  cases qv with
  | none =>
    cases h
    exact absurd he (f2 rfl)
  | some v =>
    obtain ⟨ty, s, h3, h4⟩ := lexDecimal_sound h he
    obtain ⟨ds, hd, h5⟩ := lexInteger_sound h2
    have hv : r.1.isValid = true := by rcases ty with ty | ty <;> simp [Tok.isValid, ty]
    refine ⟨hv, ?_, fun _ => lexDecimal_stops (lexInteger_stops h2) h he⟩
    have hlex : ∀ s, JNum s → Lexeme r.1 s := by
      intro s hs
      unfold Lexeme
      rcases ty with ty | ty <;> rw [ty] <;> exact hs
    unfold skipSign at h1
    split at h1
    · rename_i hb45
      obtain ⟨hl, rfl⟩ := consume_eq_ok.1 h1
      unfold Ctx.peekAt at hb
      cases hc : c.rest with
      | nil => rw [hc] at hb; cases hb
      | cons x xs =>
        rw [hc] at hb
        cases hb
        subst hb45
        simp [hc] at h5
        simp only at h3
        refine ⟨45 :: (ds ++ s), by rw [h5, h3]; simp, hlex _ ?_⟩
        rcases h4 with rfl | h4
        · simpa using JNum.neg hd
        · exact .negDec hd h4
    · cases h1
      simp only at h3
      refine ⟨ds ++ s, by rw [h5, h3]; simp, hlex _ ?_⟩
      rcases h4 with rfl | h4
      · simpa using JNum.int hd
      · exact .dec hd h4

theorem lexNumber_sound {f : Bytes → UInt64} {c : Ctx} {r : Tok × Ctx} (h : lexNumber f c = .ok r) : Sound c r := by
  have hex : ∀ {c1 : Ctx} {ty : TokType} {x : UInt8}, (x = 100 ∧ ty = .decimal ∨ x = 120 ∧ ty = .integer) → c.peekAt 0 = .ok 48 →
      c.peekAt 1 = .ok x → c.consume 2 = .ok c1 → lexHexInteger c1 ty = .ok r → Sound c r := by
    intro c1 ty x hx h0 h1 h2 h3 he
    obtain ⟨hl, rfl⟩ := consume_eq_ok.1 h2
    obtain ⟨h4, ds, h5, h6, h7⟩ := lexHexInteger_sound h3 he
    unfold Ctx.peekAt at h0 h1
    have hty : r.1.type = .integer ∨ r.1.type = .decimal := by
      rcases hx with ⟨-, rfl⟩ | ⟨-, rfl⟩
      · exact .inr h4
      · exact .inl h4
    refine ⟨by rcases hty with ty | ty <;> simp [Tok.isValid, ty], ?_, fun _ => lexHexInteger_stops h3 he⟩
    match hc : c.rest with
    | [] => rw [hc] at h0; cases h0
    | [a] => rw [hc] at h1; cases h1
    | a :: b :: xs =>
      rw [hc] at h0 h1
      cases h0
      cases h1
      simp [hc] at h7
      refine ⟨48 :: x :: ds, by rw [h7]; simp, ?_⟩
      have hx' : x = 100 ∨ x = 120 := by rcases hx with ⟨h, -⟩ | ⟨h, -⟩; exact .inl h; exact .inr h
      have hj : JNum (48 :: x :: ds) := .hex hx' h5 h6
      unfold Lexeme
      rcases hty with ty | ty <;> rw [ty] <;> exact hj
  unfold lexNumber at h
  obtain ⟨b, hb, h⟩ := Res.bind_eq_ok.1 h
  split at h
  · rename_i hb48
    subst hb48
    split at h
    · cases h
      exact Sound.fail (by simp)
    · obtain ⟨x, hx, h⟩ := Res.bind_eq_ok.1 h
      split at h
      · rename_i hx'
        subst hx'
        obtain ⟨c1, h1, h⟩ := Res.bind_eq_ok.1 h
        exact hex (.inl ⟨rfl, rfl⟩) hb hx h1 h
      · split at h
        · rename_i hx'
          subst hx'
          obtain ⟨c1, h1, h⟩ := Res.bind_eq_ok.1 h
          exact hex (.inr ⟨rfl, rfl⟩) hb hx h1 h
        · exact lexSigned_sound h
  · exact lexSigned_sound h

theorem keywordLoop_sound {c c' : Ctx} {ks : Bytes} (h : keywordLoop c ks = (some true, c')) : c.rest = ks ++ c'.rest := by
  induction ks generalizing c with
  | nil => cases h; rfl
  | cons k ks ih =>
    rw [keywordLoop] at h
    split at h
    · cases h
    · rename_i b r hc
      split at h
      · rename_i hk
        have := ih h
        simp [hc] at this
        rw [hc, this, hk]
        simp
      · cases h

theorem lexKeyword_sound {c : Ctx} {ty : TokType} {b : UInt8} {s ks : Bytes} {r : Tok × Ctx} (hc : c.rest = b :: s)
    (h : lexKeyword c ty ks = .ok r) (he : r.2.err.code = .none) : r.1.type = ty ∧ c.rest = (b :: ks) ++ r.2.rest := by
  unfold lexKeyword at h
  obtain ⟨c1, h1, h⟩ := Res.bind_eq_ok.1 h
  obtain ⟨hl, rfl⟩ := consume_eq_ok.1 h1
  split at h
  · rename_i c2 hk
    cases h
    have := (keywordLoop_spec (c.adv 1) ks).2
    rw [hk] at this
    exact absurd he (this rfl)
  · cases h
    exact absurd he (setError_code _ (by simp))
  · rename_i c2 hk
    cases h
    have := keywordLoop_sound hk
    simp [hc] at this
    exact ⟨rfl, by rw [hc, this]; simp⟩

theorem isEscape_mem {b : UInt8} (h : isEscape b = true) : b ∈ b!"\"\\/bfnrt" := by
  unfold isEscape at h
  simp at h
  simp
  rcases h with ((((((h | h) | h) | h) | h) | h) | h) | h <;> simp [h]

theorem hexRun_sound {c : Ctx} : ∀ (n i : Nat), hexRun c i n = .ok true → i + n ≤ c.rest.length →
    ∀ b ∈ (c.rest.drop i).take n, isHexDigit b = true := by
  intro n
  induction n with
  | zero => simp
  | succ n ih =>
    intro i h hl
    rw [hexRun, peekAt_ok _ _ (by omega)] at h
    simp only [Res.bind_ok] at h
    split at h
    · rename_i hd
      have := ih (i + 1) h (by omega)
      rw [List.drop_eq_getElem_cons (by omega), List.take_succ_cons]
      intro b hb
      rcases List.mem_cons.1 hb with rfl | hb
      · exact hd
      · exact this b hb
    · cases h

theorem lexHex4_sound {c : Ctx} {r : Nat × Ctx} (hc : c.rest ≠ []) (h : lexHex4 c = .ok r) (he : r.2.err.code = .none) :
    ∃ b w x y z, c.rest = b :: w :: x :: y :: z :: r.2.rest ∧ isHexDigit w ∧ isHexDigit x ∧ isHexDigit y ∧ isHexDigit z ∧ r.1 = 4 := by
  unfold lexHex4 at h
  obtain ⟨c1, h1, h⟩ := Res.bind_eq_ok.1 h
  obtain ⟨hl, rfl⟩ := consume_eq_ok.1 h1
  split at h
  · cases h
    exact absurd he (setError_code _ (by simp))
  · rename_i ho
    have ho := lt_of_not_overflows ho
    obtain ⟨g, hg, h⟩ := Res.bind_eq_ok.1 h
    split at h
    · rename_i hgt
      subst hgt
      obtain ⟨c2, h2, h⟩ := Res.bind_eq_ok.1 h
      obtain ⟨hl2, rfl⟩ := consume_eq_ok.1 h2
      cases h
      have hx := hexRun_sound 4 0 hg (by simpa using hl2)
      obtain ⟨b, s, hcs⟩ := List.exists_cons_of_ne_nil hc
      rw [adv_rest, hcs] at hx
      simp only [List.drop_succ_cons, List.drop_zero] at hx
      simp [hcs] at ho
      match s, ho with
      | w :: x :: y :: z :: t, _ =>
        refine ⟨b, w, x, y, z, by simp [hcs], hx w (by simp), hx x (by simp), hx y (by simp), hx z (by simp), rfl⟩
    · cases h
      exact absurd he (setError_code _ (by simp))

theorem lexEscape_sound {c : Ctx} {r : Nat × Ctx} {s : Bytes} (hc : c.rest = 92 :: s) (h : lexEscape c = .ok r)
    (he : r.2.err.code = .none) :
    ∃ body, c.rest = body ++ r.2.rest ∧ r.1 + 1 = body.length ∧ ∀ t, JStr t → JStr (body ++ t) := by
  unfold lexEscape at h
  obtain ⟨c1, h1, h⟩ := Res.bind_eq_ok.1 h
  obtain ⟨hl, rfl⟩ := consume_eq_ok.1 h1
  split at h
  · cases h
    exact absurd he (setError_code _ (by simp))
  · rename_i ho
    have ho := lt_of_not_overflows ho
    obtain ⟨b, hb, h⟩ := Res.bind_eq_ok.1 h
    simp [hc] at ho
    obtain ⟨x, s', hs⟩ := List.exists_cons_of_length_pos ho
    unfold Ctx.peekAt at hb
    simp [hc, hs] at hb
    subst hb
    split at h
    · rename_i hesc
      obtain ⟨c2, h2, h⟩ := Res.bind_eq_ok.1 h
      obtain ⟨hl2, rfl⟩ := consume_eq_ok.1 h2
      cases h
      exact ⟨[92, x], by simp [hc, hs], rfl, fun t ht => .esc (isEscape_mem hesc) ht⟩
    · split at h
      · rename_i hu
        subst hu
        obtain ⟨q, h2, h⟩ := Res.bind_eq_ok.1 h
        cases h
        obtain ⟨b', w, x, y, z, h3, hw, hx, hy, hz, h4⟩ := lexHex4_sound (by simp [hc, hs]) h2 he
        simp [hc, hs] at h3
        refine ⟨[92, 117, w, x, y, z], by rw [hc, hs, h3.2]; rfl, by simp [h4], fun t ht => .uni hw hx hy hz ht⟩
      · cases h
        exact absurd he (setError_code _ (by simp))

theorem strLoop_sound (c : Ctx) (n : Nat) : ∀ r, strLoop c n = .ok r → r.2.err.code = .none →
    ∃ body, c.rest = body ++ 34 :: r.2.rest ∧ JStr body ∧ r.1 = some (n + body.length) := by
  fun_induction strLoop c n with
  | case1 c n hc => intro r h he; cases h; exact absurd he (setError_code _ (by simp))
  | case2 c n r' hc =>
    intro r h he
    cases h
    exact ⟨[], by simp [hc], .nil, rfl⟩
  | case3 c n r' q he hz hc hb =>
    intro r h hcode
    cases h
    obtain ⟨q', h1, -, -, h2⟩ := lexEscape_spec c (by simp [hc])
    rw [he] at h1
    cases h1
    exact absurd hcode (h2 hz)
  | case4 c n r' q he hz hc hb ih =>
    intro r h hcode
    obtain ⟨body, h1, h2, h3⟩ := ih r h hcode
    obtain ⟨r'', h0, hf, -⟩ := strLoop_spec q.2 (n + (1 + q.1))
    rw [h] at h0
    cases h0
    obtain ⟨b0, h4, h5, h6⟩ := lexEscape_sound hc he (hf.clean hcode)
    refine ⟨b0 ++ body, by rw [h4, h1]; simp, h6 _ h2, ?_⟩
    rw [h3]
    simp
    omega
  | case5 => intro r h; cases h
  | case6 => intro r h; cases h
  | case7 c n b r' hc hb hb' ih =>
    intro r h hcode
    obtain ⟨body, h1, h2, h3⟩ := ih r h hcode
    simp [hc] at h1
    refine ⟨b :: body, by rw [hc, h1]; simp, .char hb hb' h2, ?_⟩
    rw [h3]
    simp
    omega

theorem lexString_sound {c : Ctx} {s : Bytes} {r : Tok × Ctx} (hc : c.rest = 34 :: s) (h : lexString c = .ok r) : Sound c r := by
  intro he
  unfold lexString at h
  obtain ⟨c1, h1, h⟩ := Res.bind_eq_ok.1 h
  obtain ⟨hl, rfl⟩ := consume_eq_ok.1 h1
  obtain ⟨q, h2, h⟩ := Res.bind_eq_ok.1 h
  obtain ⟨q', h0, -, f2, -⟩ := strLoop_spec (c.adv 1) 0
  rw [h2] at h0
  cases h0
  split at h
  · rename_i n hn
    cases h
    obtain ⟨body, h3, h4, h5⟩ := strLoop_sound _ _ q h2 he
    rw [hn] at h5
    simp at h5
    subst h5
    simp [hc] at h3
    refine ⟨rfl, ⟨34 :: (body ++ [34]), by rw [hc, h3]; simp, ?_⟩, by simp [Munch]⟩
    show JStr _ ∧ _
    simp [hc, h3, h4]
  · rename_i hn
    cases h
    exact absurd he (f2 hn)

theorem lexToken_sound {f : Bytes → UInt64} {c : Ctx} {b : UInt8} {s : Bytes} {r : Tok × Ctx} (hc : c.rest = b :: s)
    (h : lexToken f c b = .ok r) : Sound c r := by
  have kw : ∀ {ty : TokType} {k : Bytes}, ty ≠ .none ∧ ty ≠ .integer ∧ ty ≠ .decimal → lexKeyword c ty k = .ok r →
      (∀ t : Tok, t.type = ty → Lexeme t (b :: k)) → Sound c r := by
    intro ty k ⟨ht, ht1, ht2⟩ h hx he
    obtain ⟨h1, h2⟩ := lexKeyword_sound hc h he
    refine ⟨?_, ⟨b :: k, h2, hx _ h1⟩, by unfold Munch; rw [h1]; intro h; exact absurd h (by simp [ht1, ht2])⟩
    unfold Tok.isValid
    rw [h1]
    simpa using ht
  unfold lexToken at h
  split at h
  · rename_i ty hst
    obtain ⟨c1, h1, h⟩ := Res.bind_eq_ok.1 h
    obtain ⟨hl, rfl⟩ := consume_eq_ok.1 h1
    cases h
    intro _
    refine ⟨by simpa [Tok.isValid] using structural_ne_none hst, ?_⟩
    unfold structural at hst
    repeat (split at hst; · rename_i hb; cases hst; exact ⟨⟨[b], by simp [hc], by rw [hb]; rfl⟩, by simp [Munch]⟩)
    cases hst
  · split at h
    · rename_i hb
      subst hb
      exact lexString_sound hc h
    · split at h
      · exact lexNumber_sound h
      · split at h
        · rename_i hb; subst hb
          exact kw (by simp) h (fun t ht => by unfold Lexeme; rw [ht])
        · split at h
          · rename_i hb; subst hb
            exact kw (by simp) h (fun t ht => by unfold Lexeme; rw [ht])
          · split at h
            · rename_i hb; subst hb
              exact kw (by simp) h (fun t ht => by unfold Lexeme; rw [ht])
            · cases h
              exact Sound.fail (by simp)

theorem skipSpace_rest {c : Ctx} {b : UInt8} {s : Bytes} (hc : c.rest = b :: s) : (c.skipSpace b).rest = s := by
  unfold Ctx.skipSpace; split <;> simp [hc, Ctx.incLine]

/-- Without an error, the lexer has skipped white space and then consumed the text of its token; it has no token only at
the end of the text. -/
theorem nextToken_sound {f : Bytes → UInt64} {c : Ctx} {r : Tok × Ctx} (h : nextToken f c = .ok r) (he : r.2.err.code = .none) :
    ∃ w s, c.rest = w ++ (s ++ r.2.rest) ∧ Ws w ∧ Lexeme r.1 s ∧ (r.1.isValid = false → r.2.rest = []) ∧ Munch r.1 r.2.rest := by
  fun_induction nextToken f c with
  | case1 c hc =>
    cases h
    exact ⟨[], [], by simp, by simp [Ws], rfl, fun _ => by simp [hc], by simp [Munch]⟩
  | case2 c b s hc hb ih =>
    obtain ⟨w, s', h1, h2, h3, h4⟩ := ih h
    rw [skipSpace_rest hc] at h1
    refine ⟨b :: w, s', by rw [hc, h1]; simp, ?_, h3, h4⟩
    intro x hx
    rcases List.mem_cons.1 hx with rfl | hx
    · exact hb
    · exact h2 x hx
  | case3 c b s hc hb =>
    obtain ⟨h1, ⟨s', h2, h3⟩, h4⟩ := lexToken_sound hc h he
    exact ⟨[], s', by simpa using h2, by simp [Ws], h3, (fun hv => by rw [h1] at hv; cases hv), h4⟩

end Clr.JSON
