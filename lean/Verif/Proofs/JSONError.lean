import Verif.Props.JSONErrorSpec
import Verif.Proofs.JSONParse
import Verif.Proofs.JSONClass
/-
C96: the position, line and column of an error.
-/
namespace Clr.JSON

/-! ### Newlines -/

theorem modeAfter_append (x y : Bytes) : modeAfter (x ++ y) = y.foldl Mode.next (modeAfter x) := List.foldl_append ..

theorem newlinesFrom_append (m : Mode) (x y : Bytes) : newlinesFrom m (x ++ y) = newlinesFrom m x + newlinesFrom (x.foldl Mode.next m) y := by
  induction x generalizing m with
  | nil => simp [newlinesFrom]
  | cons b x ih => simp [newlinesFrom, ih, Nat.add_assoc]

theorem Column.append {x y : Bytes} {n : Int} (h : Column x n) (hy : newlinesFrom (modeAfter x) y = 0) : Column (x ++ y) (n + y.length) := by
  cases h with
  | first h =>
    have : Column (x ++ y) (x ++ y).length := .first (by unfold newlines at *; rw [newlinesFrom_append]; unfold modeAfter at hy; omega)
    simpa using this
  | @other before line hb h =>
    have : Column (before ++ 10 :: (line ++ y)) ((line ++ y).length + 1) := .other hb (by
      unfold newlines at *
      rw [newlinesFrom_append]
      have : List.foldl Mode.next .out line = modeAfter (before ++ 10 :: line) := by
        rw [modeAfter_append, List.foldl_cons, hb]; rfl
      rw [this]
      omega)
    have e : ((line.length : Int) + 1 + y.length) = (((line ++ y).length : Nat) : Int) + 1 := by simp; omega
    rw [e]
    simpa using this

/-- Neither quotes nor newlines. -/
def Plain (x : Bytes) : Prop := ∀ b ∈ x, b ≠ 34 ∧ b ≠ 10

theorem Plain.mode {x : Bytes} (h : Plain x) : x.foldl Mode.next .out = .out := by
  induction x with
  | nil => rfl
  | cons b x ih =>
    rw [List.foldl_cons, show Mode.next .out b = .out by simp [Mode.next, (h b (by simp)).1]]
    exact ih fun c hc => h c (by simp [hc])

theorem Plain.newlines {x : Bytes} (h : Plain x) : newlinesFrom .out x = 0 := by
  induction x with
  | nil => rfl
  | cons b x ih =>
    rw [newlinesFrom, show Mode.next .out b = .out by simp [Mode.next, (h b (by simp)).1], ih fun c hc => h c (by simp [hc])]
    simp [(h b (by simp)).2]

/-! ### The lexer's position -/

/-- The lexer is after `pre`; `b` is whether lines are of interest. -/
structure Track (b : Bool) (text pre : Bytes) (c : Ctx) : Prop where
  text : text = pre ++ c.rest
  pos : c.pos = pre.length
  line : b = true → c.line = 1 + Clr.JSON.newlines pre ∧ Column pre ((c.pos : Int) - c.linePos)

theorem Track.adv {b : Bool} {text pre x r : Bytes} {c : Ctx} (h : Track b text pre c) (hc : c.rest = x ++ r) (hx : newlinesFrom (modeAfter pre) x = 0) :
    Track b text (pre ++ x) (c.adv x.length) := by
  refine ⟨by rw [h.text, hc]; simp [Ctx.adv, hc], by simp [Ctx.adv, h.pos], fun hb => ?_⟩
  obtain ⟨h1, h2⟩ := h.line hb
  refine ⟨?_, ?_⟩
  · show c.line = _
    rw [h1]
    unfold newlines
    rw [newlinesFrom_append]
    unfold modeAfter at hx
    omega
  · have := h2.append hx
    show Column _ (((c.pos + x.length : Nat) : Int) - c.linePos)
    have e : (((c.pos + x.length : Nat) : Int) - c.linePos) = (c.pos : Int) - c.linePos + x.length := by omega
    rw [e]
    exact this

theorem Track.one {b : Bool} {text pre r : Bytes} {x : UInt8} {c : Ctx} (h : Track b text pre c) (hc : c.rest = x :: r) (hx : modeAfter pre = .out → x ≠ 10) :
    Track b text (pre ++ [x]) (c.adv 1) := by
  refine h.adv (x := [x]) (by simpa using hc) ?_
  rw [newlinesFrom, newlinesFrom]
  have : ¬ (modeAfter pre = .out ∧ x = 10) := fun h => hx h.1 h.2
  simp [this]

theorem Track.newline {b : Bool} {text pre r : Bytes} {c : Ctx} (h : Track b text pre c) (hc : c.rest = 10 :: r) (hm : modeAfter pre = .out) :
    Track b text (pre ++ [10]) (c.incLine.adv 1) := by
  refine ⟨by rw [h.text]; simp [Ctx.adv, Ctx.incLine, hc], by simp [Ctx.adv, Ctx.incLine, h.pos], fun hb => ?_⟩
  obtain ⟨h1, -⟩ := h.line hb
  refine ⟨?_, ?_⟩
  · show c.line + 1 = _
    rw [h1]
    unfold newlines
    rw [newlinesFrom_append, newlinesFrom, newlinesFrom]
    unfold modeAfter at hm
    simp [hm]; omega
  · have : Column (pre ++ 10 :: []) (([] : Bytes).length + 1) := .other hm rfl
    show Column _ (((c.pos + 1 : Nat) : Int) - c.pos)
    have e : (((c.pos + 1 : Nat) : Int) - c.pos) = (([] : Bytes).length : Int) + 1 := by simp; omega
    rw [e]
    exact this

theorem mode_one {pre : Bytes} {x : UInt8} : modeAfter (pre ++ [x]) = (modeAfter pre).next x := by rw [modeAfter_append]; rfl

/-- The error that has been recorded. -/
def Told (b : Bool) (text : Bytes) (err : Err) : Prop :=
  ∃ before after, text = before ++ after ∧ err.position = before.length ∧ Wrong err.code before after ∧
    (b = true → err.line = 1 + newlines before ∧ Column before err.column)

/-- After lexing without an earlier error. -/
def Done (b : Bool) (text : Bytes) (m : Mode) (c : Ctx) : Prop :=
  (c.err.code = .none ∧ ∃ pre, Track b text pre c ∧ modeAfter pre = m) ∨ (c.err.code ≠ .none ∧ Told b text c.err)

theorem Done.fail {b : Bool} {text pre : Bytes} {m : Mode} {c : Ctx} {k : Code} (h : Track b text pre c) (he : c.err.code = .none) (hk : k ≠ .none)
    (hw : Wrong k pre c.rest) : Done b text m (c.setError k) := by
  refine .inr ⟨setError_code _ hk, pre, c.rest, h.text, ?_⟩
  simp only [Ctx.setError, he, if_true]
  exact ⟨h.pos, hw, h.line⟩

/-- An error stays. -/
theorem Done.keep {b : Bool} {text : Bytes} {m m' : Mode} {c c' : Ctx} (h : Done b text m c) (he : c.err.code ≠ .none) (hs : Follows c c') : Done b text m' c' := by
  rcases h with ⟨h, -⟩ | ⟨-, h⟩
  · exact absurd h he
  · right
    rw [hs.sticky he]
    exact ⟨he, h⟩

theorem isHex_iff {b : UInt8} : isHexDigit b = true ↔ HexByte b := by
  simp [isHexDigit, HexByte, or_assoc]

theorem hexRun_false {c : Ctx} : ∀ (n i : Nat), hexRun c i n = .ok false → ∃ b ∈ (c.rest.drop i).take n, ¬ HexByte b := by
  intro n
  induction n with
  | zero => intro i h; cases h
  | succ n ih =>
    intro i h
    rw [hexRun] at h
    obtain ⟨d, hd, h⟩ := Res.bind_eq_ok.1 h
    unfold Ctx.peekAt at hd
    split at hd
    · rename_i b hb
      cases hd
      have hlt : i < c.rest.length := by
        rcases Nat.lt_or_ge i c.rest.length with h | h
        · exact h
        · rw [List.getElem?_eq_none h] at hb; cases hb
      have hdrop : c.rest.drop i = d :: c.rest.drop (i + 1) := by
        rw [List.drop_eq_getElem_cons hlt]
        rw [List.getElem?_eq_getElem hlt] at hb
        cases hb
        rfl
      rw [hdrop, List.take_succ_cons]
      split at h
      · obtain ⟨x, hx, hx'⟩ := ih _ h
        exact ⟨x, List.mem_cons_of_mem _ hx, hx'⟩
      · rename_i hn
        exact ⟨d, by simp, fun hh => hn (isHex_iff.2 hh)⟩
    · cases hd

theorem mode_hex {pre ds : Bytes} (hp : modeAfter pre = .str) (h : ∀ b ∈ ds, isHexDigit b = true) : modeAfter (pre ++ ds) = .str ∧ newlinesFrom .str ds = 0 := by
  rw [modeAfter_append, hp]
  clear hp
  induction ds with
  | nil => exact ⟨rfl, rfl⟩
  | cons b ds ih =>
    have hb := h b (by simp)
    have h1 : b ≠ 34 := by rintro rfl; revert hb; decide
    have h2 : b ≠ 92 := by rintro rfl; revert hb; decide
    rw [List.foldl_cons, newlinesFrom, show Mode.next .str b = .str by simp [Mode.next, h1, h2]]
    obtain ⟨i1, i2⟩ := ih fun c hc => h c (by simp [hc])
    exact ⟨i1, by rw [i2]; simp⟩

theorem lexHex4_done {b : Bool} {text pre s : Bytes} {c : Ctx} {r : Nat × Ctx} (h : Track b text (pre ++ [92]) c) (he : c.err.code = .none)
    (hm : modeAfter (pre ++ [92]) = .esc) (hc : c.rest = 117 :: s) (hr : lexHex4 c = .ok r) : Done b text .str r.2 := by
  unfold lexHex4 at hr
  obtain ⟨c1, h1, hr⟩ := Res.bind_eq_ok.1 hr
  obtain ⟨-, rfl⟩ := consume_eq_ok.1 h1
  have t1 := h.one hc (by simp)
  have m1 : modeAfter (pre ++ [92] ++ [117]) = .str := by rw [mode_one, hm]; rfl
  have e1 : (c.adv 1).err.code = .none := he
  split at hr
  · rename_i ho
    cases hr
    exact .fail t1 e1 (by simp) (.inl (by simpa [Ctx.overflows] using ho))
  · obtain ⟨x, h2, hr⟩ := Res.bind_eq_ok.1 hr
    split at hr
    · rename_i hx
      subst hx
      obtain ⟨c2, h3, hr⟩ := Res.bind_eq_ok.1 hr
      obtain ⟨hl, rfl⟩ := consume_eq_ok.1 h3
      cases hr
      have hd := hexRun_sound _ _ h2 (by omega)
      obtain ⟨m2, n2⟩ := mode_hex m1 hd
      have := t1.adv (x := ((c.adv 1).rest.drop 0).take 4) (r := (c.adv 1).rest.drop 4) (by rw [List.drop_zero, List.take_append_drop]) (by rw [m1]; exact n2)
      have hlen : (((c.adv 1).rest.drop 0).take 4).length = 4 := by simp only [List.drop_zero, List.length_take]; omega
      rw [hlen] at this
      exact .inl ⟨he, _, this, m2⟩
    · rename_i hx
      cases hr
      have hx : x = false := by simpa using hx
      subst hx
      exact .fail t1 e1 (by simp) (.inl ⟨pre, by simp, by simpa using hexRun_false 4 0 h2⟩)

theorem lexEscape_done {b : Bool} {text pre s : Bytes} {c : Ctx} {r : Nat × Ctx} (h : Track b text pre c) (he : c.err.code = .none)
    (hm : modeAfter pre = .str) (hc : c.rest = 92 :: s) (hr : lexEscape c = .ok r) : Done b text .str r.2 := by
  unfold lexEscape at hr
  obtain ⟨c1, h1, hr⟩ := Res.bind_eq_ok.1 hr
  obtain ⟨-, rfl⟩ := consume_eq_ok.1 h1
  have t1 := h.one hc (by simp)
  have m1 : modeAfter (pre ++ [92]) = .esc := by rw [mode_one, hm]; rfl
  have e1 : (c.adv 1).err.code = .none := he
  split at hr
  · rename_i ho
    cases hr
    exact .fail t1 e1 (by simp) (.inl (by have : (c.adv 1).rest.length ≤ 0 := by simpa [Ctx.overflows] using ho
                                          omega))
  · obtain ⟨x, h2, hr⟩ := Res.bind_eq_ok.1 hr
    have hs : ∃ s', (c.adv 1).rest = x :: s' := by
      unfold Ctx.peekAt at h2
      cases hh : (c.adv 1).rest with
      | nil => rw [hh] at h2; cases h2
      | cons y ys => rw [hh] at h2; cases h2; exact ⟨ys, rfl⟩
    obtain ⟨s', hs⟩ := hs
    split at hr
    · rename_i hx
      obtain ⟨c2, h3, hr⟩ := Res.bind_eq_ok.1 hr
      obtain ⟨hl, rfl⟩ := consume_eq_ok.1 h3
      cases hr
      exact .inl ⟨he, _, t1.one hs (by rw [m1]; simp), by rw [mode_one, m1]; rfl⟩
    · rename_i hx
      split at hr
      · rename_i hu
        subst hu
        obtain ⟨q, h3, hr⟩ := Res.bind_eq_ok.1 hr
        cases hr
        exact lexHex4_done (r := q) t1 e1 m1 hs h3
      · rename_i hu
        cases hr
        refine .fail t1 e1 (by simp) ⟨m1, x, s', hs, fun hmem => ?_⟩
        simp only [List.mem_cons, List.not_mem_nil, or_false] at hmem
        rcases hmem with rfl | rfl | rfl | rfl | rfl | rfl | rfl | rfl | rfl
        case inr.inr.inr.inr.inr.inr.inr.inr => exact hu rfl
        all_goals exact hx rfl

theorem strLoop_done {b : Bool} {text : Bytes} (c : Ctx) (n : Nat) : ∀ r pre, strLoop c n = .ok r → Track b text pre c → c.err.code = .none →
    modeAfter pre = .str → Done b text .out r.2 := by
  fun_induction strLoop c n with
  | case1 c n hc =>
    intro r pre h ht he hm
    cases h
    exact .fail ht he (by simp) (.inl (by simp [hc]))
  | case2 c n s hc =>
    intro r pre h ht he hm
    cases h
    exact .inl ⟨he, _, ht.one hc (by simp), by rw [mode_one, hm]; rfl⟩
  | case3 c n s r' hr' h0 hc hb =>
    intro r pre h ht he hm
    cases h
    obtain ⟨q, hq, -, -, hz⟩ := lexEscape_spec c (by simp [hc])
    rw [hr'] at hq
    cases hq
    exact (lexEscape_done ht he hm hc hr').keep (hz h0) (Follows.refl _)
  | case4 c n s r' hr' h0 hc hb ih =>
    intro r pre h ht he hm
    have hd := lexEscape_done ht he hm hc hr'
    by_cases hn : r'.2.err.code = .none
    · rcases hd with ⟨-, p, hp, hpm⟩ | ⟨hn', -⟩
      · exact ih _ _ h hp hn hpm
      · exact absurd hn hn'
    · obtain ⟨q, hq, hf, -⟩ := strLoop_spec r'.2 (n + (1 + r'.1))
      rw [h] at hq
      cases hq
      exact hd.keep hn hf
  | case5 => intro r pre h; cases h
  | case6 => intro r pre h; cases h
  | case7 c n x s hc hb hb2 ih =>
    intro r pre h ht he hm
    exact ih _ _ h (ht.one hc (by rw [hm]; simp)) he (by rw [mode_one, hm]; simp [Mode.next, hb, hb2])

theorem digit_plain {b : UInt8} (h : isDigit b = true) : b ≠ 34 ∧ b ≠ 10 := by
  constructor <;> (rintro rfl; revert h; decide)

theorem hex_plain {b : UInt8} (h : isHexDigit b = true) : b ≠ 34 ∧ b ≠ 10 := by
  constructor <;> (rintro rfl; revert h; decide)

theorem digitLoop_done {b : Bool} {text : Bytes} (c : Ctx) (v : UInt64) : ∀ pre, Track b text pre c → c.err.code = .none →
    modeAfter pre = .out → Done b text .out (digitLoop c v).2 := by
  fun_induction digitLoop c v with
  | case1 c v hc => intro pre ht he hm; exact .fail ht he (by simp) (.inl (by simp [hc]))
  | case2 c v x r hc hb ih =>
    intro pre ht he hm
    exact ih _ (ht.one hc fun _ => (digit_plain hb).2) he (by rw [mode_one, hm]; simp [Mode.next, (digit_plain hb).1])
  | case3 c v x r hc hb => intro pre ht he hm; exact .inl ⟨he, pre, ht, hm⟩

theorem hexLoop_done {b : Bool} {text : Bytes} (c : Ctx) (v : UInt64) : ∀ pre, Track b text pre c → c.err.code = .none →
    modeAfter pre = .out → Done b text .out (hexLoop c v).2 := by
  fun_induction hexLoop c v with
  | case1 c v hc => intro pre ht he hm; exact .fail ht he (by simp) (.inl (by simp [hc]))
  | case2 c v x r hc hb ih =>
    intro pre ht he hm
    exact ih _ (ht.one hc fun _ => (hex_plain hb).2) he (by rw [mode_one, hm]; simp [Mode.next, (hex_plain hb).1])
  | case3 c v x r hc hb => intro pre ht he hm; exact .inl ⟨he, pre, ht, hm⟩

theorem peek_cons {c : Ctx} {x : UInt8} (h : c.peekAt 0 = .ok x) : ∃ s, c.rest = x :: s := by
  unfold Ctx.peekAt at h
  cases hh : c.rest with
  | nil => rw [hh] at h; cases h
  | cons y ys => rw [hh] at h; cases h; exact ⟨ys, rfl⟩

theorem overflows_zero {c : Ctx} (h : c.overflows 0 = true) : c.rest.length ≤ 4 := by
  have : c.rest.length ≤ 0 := by simpa [Ctx.overflows] using h
  omega

theorem lexInteger_done {b : Bool} {text pre : Bytes} {c : Ctx} {r : Option UInt64 × Ctx} (h : Track b text pre c) (he : c.err.code = .none)
    (hm : modeAfter pre = .out) (hd : (∃ x s, c.rest = x :: s ∧ isDigit x = true) ∨ ∃ p, pre = p ++ [45]) (hr : lexInteger c = .ok r) : Done b text .out r.2 := by
  unfold lexInteger at hr
  split at hr
  · rename_i ho
    cases hr
    exact .fail h he (by simp) (.inl (overflows_zero ho))
  · obtain ⟨x, h2, hr⟩ := Res.bind_eq_ok.1 hr
    obtain ⟨s, hs⟩ := peek_cons h2
    split at hr
    · cases hr
      exact digitLoop_done c 0 pre h he hm
    · rename_i hx
      cases hr
      rcases hd with ⟨x', s', hs', hx'⟩ | ⟨p, hp⟩
      · rw [hs] at hs'
        cases hs'
        exact absurd hx' hx
      · refine .fail h he (by simp) ⟨p, x, s, hp, hs, fun hh => hx ?_⟩
        simp [isDigit, hh]

theorem lexHexInteger_done {b : Bool} {text pre : Bytes} {c : Ctx} {ty : TokType} {r : Tok × Ctx} (h : Track b text pre c) (he : c.err.code = .none)
    (hm : modeAfter pre = .out) (hp : ∃ p, pre = p ++ b!"0x" ∨ pre = p ++ b!"0d") (hr : lexHexInteger c ty = .ok r) : Done b text .out r.2 := by
  unfold lexHexInteger at hr
  split at hr
  · rename_i ho
    cases hr
    exact .fail h he (by simp) (.inl (overflows_zero ho))
  · obtain ⟨x, h2, hr⟩ := Res.bind_eq_ok.1 hr
    obtain ⟨s, hs⟩ := peek_cons h2
    split at hr
    · have hd := hexLoop_done (b := b) (text := text) c 0 pre h he hm
      split at hr <;> (rename_i hl; rw [hl] at hd; cases hr; exact hd)
    · rename_i hx
      cases hr
      obtain ⟨p, hp⟩ := hp
      exact .fail h he (by simp) (.inr ⟨p, hp, x, s, hs, fun hh => hx (isHex_iff.2 hh)⟩)

/-- The characters of numbers. -/
def NumBytes (d : Bytes) : Prop := ∀ b ∈ d, b ∈ b!"0123456789.eE+-"

theorem digit_num {b : UInt8} (h : isDigit b = true) : b ∈ b!"0123456789.eE+-" := by
  have key : ∀ n, n < 256 → isDigit (UInt8.ofNat n) = true → UInt8.ofNat n ∈ b!"0123456789.eE+-" := by decide +kernel
  have := key b.toNat b.toNat_lt
  rw [UInt8.ofNat_toNat] at this
  exact this h

theorem numBytes_plain {d : Bytes} (h : NumBytes d) : Plain d := by
  intro b hb
  have := h b hb
  constructor <;> (rintro rfl; revert this; decide)

theorem jexp_num {d : Bytes} (h : JExp d) : NumBytes d := by
  cases h with
  | @plain x ds hx h =>
    intro b hb
    rcases List.mem_cons.1 hb with rfl | hb
    · rcases hx with rfl | rfl <;> decide
    · exact digit_num (h.2 b hb)
  | @signed x y ds hx hy h =>
    intro b hb
    rcases List.mem_cons.1 hb with rfl | hb
    · rcases hx with rfl | rfl <;> decide
    · rcases List.mem_cons.1 hb with rfl | hb
      · rcases hy with rfl | rfl <;> decide
      · exact digit_num (h.2 b hb)

theorem jfrac_num {d : Bytes} (h : JFrac d) : NumBytes d := by
  cases h with
  | @frac ds h =>
    intro b hb
    rcases List.mem_cons.1 hb with rfl | hb
    · decide
    · exact digit_num (h b hb)
  | exp h => exact jexp_num h
  | @both ds s h he =>
    intro b hb
    rcases List.mem_cons.1 hb with rfl | hb
    · decide
    · rcases List.mem_append.1 hb with hb | hb
      · exact digit_num (h b hb)
      · exact jexp_num he b hb

theorem verifyDigits_none {d : Bytes} (h : verifyDigits d = none) : ∀ b ∈ d, isDigit b = true := by
  induction d with
  | nil => simp
  | cons b r ih =>
    rw [verifyDigits] at h
    split at h
    · rename_i hb
      intro x hx
      rcases List.mem_cons.1 hx with rfl | hx
      · exact hb
      · exact ih h x hx
    · cases h

theorem verifyExponent_false {d : Bytes} (h : verifyExponent d = .ok false) : NumBytes d := by
  unfold verifyExponent at h
  split at h
  · cases h
  · rename_i x r
    have h := Res.ok.inj h
    have h : verifyDigits (if (x = 45 || x = 43) = true then r else x :: r) = none := by
      cases hv : verifyDigits (if (x = 45 || x = 43) = true then r else x :: r) with
      | none => rfl
      | some _ => rw [hv] at h; cases h
    have h := verifyDigits_none h
    split at h
    · rename_i hx
      intro b hb
      rcases List.mem_cons.1 hb with rfl | hb
      · simp at hx
        rcases hx with rfl | rfl <;> decide
      · exact digit_num (h b hb)
    · exact fun b hb => digit_num (h b hb)

theorem verifyDecimal_false {x : UInt8} {r : Bytes} (hx : x = 46 ∨ x = 101 ∨ x = 69) (h : verifyDecimal (x :: r) = .ok false) :
    (x :: r).length ≤ 4 ∨ NumBytes (x :: r) := by
  have hxn : x ∈ b!"0123456789.eE+-" := by rcases hx with rfl | rfl | rfl <;> decide
  have cons : ∀ {y : UInt8} {s : Bytes}, y ∈ b!"0123456789.eE+-" → NumBytes s → NumBytes (y :: s) := by
    intro y s hy hs b hb
    rcases List.mem_cons.1 hb with rfl | hb
    · exact hy
    · exact hs b hb
  unfold verifyDecimal at h
  split at h
  · left; omega
  · right
    dsimp only at h
    split at h
    · split at h
      · rename_i hv
        exact cons hxn fun b hb => digit_num (verifyDigits_none hv b hb)
      · cases h
      · rename_i y q hv
        split at h
        · cases h
        · rename_i hy
          obtain ⟨ds, y', t, rfl, h2, h3, -⟩ := verifyDigits_some hv
          cases h2
          refine cons hxn fun b hb => ?_
          rcases List.mem_append.1 hb with hb | hb
          · exact digit_num (h3 b hb)
          · refine cons ?_ (verifyExponent_false h) b hb
            simp at hy
            by_cases h1 : y = 101
            · rw [h1]; decide
            · rw [hy h1]; decide
    · exact cons hxn (verifyExponent_false h)

theorem lexDecimal_done {b : Bool} {text pre : Bytes} {f : Bytes → UInt64} {num : Bytes} {k : Nat} {v : UInt64} {c : Ctx} {r : Tok × Ctx} (h : Track b text pre c)
    (he : c.err.code = .none) (hm : modeAfter pre = .out) (hr : lexDecimal f num k v c = .ok r) : Done b text .out r.2 := by
  unfold lexDecimal at hr
  obtain ⟨x, h2, hr⟩ := Res.bind_eq_ok.1 hr
  obtain ⟨s, hs⟩ := peek_cons h2
  split at hr
  · rename_i hx
    obtain ⟨g, h3, hr⟩ := Res.bind_eq_ok.1 hr
    split at hr
    · obtain ⟨n, h4, hr⟩ := Res.bind_eq_ok.1 hr
      obtain ⟨c2, h5, hr⟩ := Res.bind_eq_ok.1 hr
      obtain ⟨hl, rfl⟩ := consume_eq_ok.1 h5
      cases hr
      have hp : Plain (c.rest.take n) := by
        rcases strtodEnd_sound h4 with rfl | hj
        · simp [Plain]
        · exact numBytes_plain (jfrac_num hj)
      have := h.adv (x := c.rest.take n) (r := c.rest.drop n) (by simp) (by rw [hm]; exact hp.newlines)
      rw [List.length_take, Nat.min_eq_left hl] at this
      exact .inl ⟨he, _, this, by rw [modeAfter_append, hm]; exact hp.mode⟩
    · rename_i hg
      cases hr
      have hg : g = false := by simpa using hg
      subst hg
      rw [hs] at h3
      refine .fail h he (by simp) ?_
      rw [hs]
      exact verifyDecimal_false (by simpa [or_assoc] using hx) h3
  · cases hr
    exact .inl ⟨he, pre, h, hm⟩

theorem lexSigned_done {b : Bool} {text pre : Bytes} {f : Bytes → UInt64} {c : Ctx} {r : Tok × Ctx} {x : UInt8} {s : Bytes} (h : Track b text pre c)
    (he : c.err.code = .none) (hm : modeAfter pre = .out) (hc : c.rest = x :: s) (hx : x = 45 ∨ isDigit x = true) (hr : lexSigned f c = .ok r) :
    Done b text .out r.2 := by
  unfold lexSigned at hr
  obtain ⟨x', h1, hr⟩ := Res.bind_eq_ok.1 hr
  obtain ⟨s', hs⟩ := peek_cons h1
  rw [hc] at hs
  cases hs
  obtain ⟨c1, h2, hr⟩ := Res.bind_eq_ok.1 hr
  obtain ⟨q, h3, hr⟩ := Res.bind_eq_ok.1 hr
  have hd : Done b text .out q.2 := by
    unfold skipSign at h2
    split at h2
    · rename_i h45
      obtain ⟨-, rfl⟩ := consume_eq_ok.1 h2
      subst h45
      exact lexInteger_done (h.one hc (by simp)) he (by rw [mode_one, hm]; rfl) (.inr ⟨pre, rfl⟩) h3
    · rename_i h45
      cases h2
      exact lexInteger_done h he hm (.inl ⟨x, s, hc, hx.resolve_left h45⟩) h3
  split at hr
  · cases hr; exact hd
  · rename_i v hv
    by_cases hn : q.2.err.code = .none
    · rcases hd with ⟨-, p, hp, hpm⟩ | ⟨hn', -⟩
      · exact lexDecimal_done hp hn hpm hr
      · exact absurd hn hn'
    · exact hd.keep hn (lexDecimal_follows hr)

theorem lexNumber_done {b : Bool} {text pre : Bytes} {f : Bytes → UInt64} {c : Ctx} {r : Tok × Ctx} {x : UInt8} {s : Bytes} (h : Track b text pre c)
    (he : c.err.code = .none) (hm : modeAfter pre = .out) (hc : c.rest = x :: s) (hx : x = 45 ∨ isDigit x = true) (hr : lexNumber f c = .ok r) :
    Done b text .out r.2 := by
  unfold lexNumber at hr
  obtain ⟨x', h1, hr⟩ := Res.bind_eq_ok.1 hr
  obtain ⟨s', hs⟩ := peek_cons h1
  rw [hc] at hs
  cases hs
  split at hr
  · rename_i h48
    subst h48
    split at hr
    · rename_i ho
      cases hr
      exact .fail h he (by simp) (.inl (by have : c.rest.length ≤ 1 := by simpa [Ctx.overflows] using ho
                                           omega))
    · obtain ⟨y, h2, hr⟩ := Res.bind_eq_ok.1 hr
      have hy : ∃ s', s = y :: s' := by
        unfold Ctx.peekAt at h2
        rw [hc] at h2
        cases s with
        | nil => cases h2
        | cons z zs => cases h2; exact ⟨zs, rfl⟩
      obtain ⟨s', rfl⟩ := hy
      have two : ∀ y : UInt8, y ≠ 34 → y ≠ 10 → c.rest = 48 :: y :: s' → Track b text (pre ++ [48, y]) (c.adv 2) ∧ modeAfter (pre ++ [48, y]) = .out := by
        intro y hy1 hy2 hc
        have hp : Plain [48, y] := by
          intro z hz
          simp at hz
          rcases hz with rfl | rfl
          · decide
          · exact ⟨hy1, hy2⟩
        exact ⟨h.adv (x := [48, y]) (by simpa using hc) (by rw [hm]; exact hp.newlines), by rw [modeAfter_append, hm]; exact hp.mode⟩
      split at hr
      · rename_i hy
        subst hy
        obtain ⟨c1, h3, hr⟩ := Res.bind_eq_ok.1 hr
        obtain ⟨-, rfl⟩ := consume_eq_ok.1 h3
        obtain ⟨t2, m2⟩ := two 100 (by decide) (by decide) hc
        exact lexHexInteger_done t2 he m2 ⟨pre, .inr rfl⟩ hr
      · split at hr
        · rename_i hy
          subst hy
          obtain ⟨c1, h3, hr⟩ := Res.bind_eq_ok.1 hr
          obtain ⟨-, rfl⟩ := consume_eq_ok.1 h3
          obtain ⟨t2, m2⟩ := two 120 (by decide) (by decide) hc
          exact lexHexInteger_done t2 he m2 ⟨pre, .inl rfl⟩ hr
        · exact lexSigned_done h he hm hc hx hr
  · exact lexSigned_done h he hm hc hx hr

theorem keywordLoop_done {b : Bool} {text : Bytes} : ∀ (l : Bytes) (c : Ctx) (pre k : Bytes), k ≠ [] → k ++ l ∈ [b!"true", b!"false", b!"null"] →
    Track b text (pre ++ k) c → c.err.code = .none → modeAfter (pre ++ k) = .out → Plain l →
    (((keywordLoop c l).1 = some true ∨ (keywordLoop c l).1 = none) ∧ Done b text .out (keywordLoop c l).2) ∨
      ((keywordLoop c l).1 = some false ∧ (keywordLoop c l).2.err.code = .none ∧ ∃ p, Track b text p (keywordLoop c l).2 ∧ Wrong .invalidKeyword p (keywordLoop c l).2.rest) := by
  intro l
  induction l with
  | nil => intro c pre k hk hin ht he hm hp; exact .inl ⟨.inl rfl, .inl ⟨he, _, ht, hm⟩⟩
  | cons x l ih =>
    intro c pre k hk hin ht he hm hp
    rw [keywordLoop]
    cases hc : c.rest with
    | nil => exact .inl ⟨.inr rfl, .fail ht he (by simp) (.inl (by simp [hc]))⟩
    | cons y s =>
      dsimp only
      split
      · rename_i hxy
        subst hxy
        have hx := hp x (by simp)
        have := ih (c.adv 1) pre (k ++ [x]) (by simp) (by simpa using hin) (by simpa using ht.one hc fun _ => hx.2) he
          (by rw [← List.append_assoc, mode_one, hm]; simp [Mode.next, hx.1]) (fun z hz => hp z (by simp [hz]))
        exact this
      · rename_i hxy
        exact .inr ⟨rfl, he, _, ht, pre, k, l, x, y, s, hin, hk, rfl, hc, fun h => hxy h.symm⟩

theorem lexKeyword_done {b : Bool} {text pre : Bytes} {c : Ctx} {r : Tok × Ctx} {ty : TokType} {x : UInt8} {s l : Bytes} (h : Track b text pre c)
    (he : c.err.code = .none) (hm : modeAfter pre = .out) (hc : c.rest = x :: s) (hin : x :: l ∈ [b!"true", b!"false", b!"null"])
    (hr : lexKeyword c ty l = .ok r) : Done b text .out r.2 := by
  unfold lexKeyword at hr
  obtain ⟨c1, h1, hr⟩ := Res.bind_eq_ok.1 hr
  obtain ⟨-, rfl⟩ := consume_eq_ok.1 h1
  have hp : Plain (x :: l) := by
    have : ∀ z ∈ [b!"true", b!"false", b!"null"], Plain z := by unfold Plain; decide
    exact this _ hin
  have hx := hp x (by simp)
  have t1 := h.one hc fun _ => hx.2
  have m1 : modeAfter (pre ++ [x]) = .out := by rw [mode_one, hm]; simp [Mode.next, hx.1]
  have hk := keywordLoop_done l (c.adv 1) pre [x] (by simp) hin t1 he m1 (fun z hz => hp z (by simp [hz]))
  split at hr <;> (rename_i c2 hl; rw [hl] at hk; cases hr)
  · rcases hk with ⟨-, hk⟩ | ⟨hf, -⟩
    · exact hk
    · cases hf
  · rcases hk with ⟨hf | hf, -⟩ | ⟨-, h2, p, h3, h4⟩
    · cases hf
    · cases hf
    · exact .fail h3 h2 (by simp) h4
  · rcases hk with ⟨-, hk⟩ | ⟨hf, -⟩
    · exact hk
    · cases hf

theorem lexToken_done {b : Bool} {text pre : Bytes} {f : Bytes → UInt64} {c : Ctx} {r : Tok × Ctx} {x : UInt8} {s : Bytes} (h : Track b text pre c)
    (he : c.err.code = .none) (hm : modeAfter pre = .out) (hc : c.rest = x :: s) (hsp : isSpace x = false) (hr : lexToken f c x = .ok r) :
    Done b text .out r.2 := by
  unfold lexToken at hr
  split at hr
  · rename_i ty hty
    obtain ⟨c1, h1, hr⟩ := Res.bind_eq_ok.1 hr
    obtain ⟨-, rfl⟩ := consume_eq_ok.1 h1
    cases hr
    have hx : x ≠ 34 ∧ x ≠ 10 := by constructor <;> (rintro rfl; revert hty; simp [structural])
    exact .inl ⟨he, _, h.one hc fun _ => hx.2, by rw [mode_one, hm]; simp [Mode.next, hx.1]⟩
  · rename_i hst
    split at hr
    · rename_i hq
      subst hq
      unfold lexString at hr
      obtain ⟨c1, h1, hr⟩ := Res.bind_eq_ok.1 hr
      obtain ⟨-, rfl⟩ := consume_eq_ok.1 h1
      obtain ⟨q, h2, hr⟩ := Res.bind_eq_ok.1 hr
      have := strLoop_done _ _ _ _ h2 (h.one hc (by simp)) he (by rw [mode_one, hm]; rfl)
      split at hr <;> (cases hr; exact this)
    · rename_i h34
      split at hr
      · rename_i hx
        exact lexNumber_done h he hm hc (by simpa using hx) hr
      · rename_i hnum
        split at hr
        · rename_i hx; subst hx; exact lexKeyword_done h he hm hc (by decide) hr
        · rename_i h116
          split at hr
          · rename_i hx; subst hx; exact lexKeyword_done h he hm hc (by decide) hr
          · rename_i h102
            split at hr
            · rename_i hx; subst hx; exact lexKeyword_done h he hm hc (by decide) hr
            · rename_i h110
              cases hr
              refine .fail h he (by simp) ⟨hm, x, s, hc, ?_⟩
              have key : ∀ n, n < 256 → ((structural (UInt8.ofNat n)).isNone && UInt8.ofNat n != 34 && !(UInt8.ofNat n = 45 || isDigit (UInt8.ofNat n)) &&
                  UInt8.ofNat n != 116 && UInt8.ofNat n != 102 && UInt8.ofNat n != 110 && !isSpace (UInt8.ofNat n)) = true →
                  UInt8.ofNat n ∉ b!"{}[],:\"-0123456789tfn \t\n\r" ∧ UInt8.ofNat n ≠ 11 ∧ UInt8.ofNat n ≠ 12 := by decide +kernel
              have := key x.toNat x.toNat_lt
              rw [UInt8.ofNat_toNat] at this
              refine this ?_
              have hnum : (decide (x = 45) || isDigit x) = false := by simpa using hnum
              rw [hst, hsp, hnum]
              simp [h34, h116, h102, h110]

theorem nextToken_done {b : Bool} {text : Bytes} {f : Bytes → UInt64} (c : Ctx) : ∀ (r : Tok × Ctx) (pre : Bytes), nextToken f c = .ok r → Track b text pre c →
    c.err.code = .none → modeAfter pre = .out → Done b text .out r.2 := by
  fun_induction nextToken f c with
  | case1 c hc =>
    intro r pre h ht he hm
    cases h
    refine .inl ⟨by simp [Ctx.setError, he], pre, ⟨?_, ?_, ?_⟩, hm⟩
    · simpa using ht.text
    · simp [Ctx.setError, he, ht.pos]
    · simpa [Ctx.setError, he] using ht.line
  | case2 c x s hc hb ih =>
    intro r pre h ht he hm
    unfold Ctx.skipSpace at h ih
    by_cases hx : x = 10
    · subst hx
      rw [if_pos rfl] at h ih
      exact ih _ _ h (ht.newline hc hm) he (by rw [mode_one, hm]; rfl)
    · rw [if_neg hx] at h ih
      have h34 : x ≠ 34 := by rintro rfl; revert hb; decide
      exact ih _ _ h (ht.one hc fun _ => hx) he (by rw [mode_one, hm]; simp [Mode.next, h34])
  | case3 c x s hc hb =>
    intro r pre h ht he hm
    exact lexToken_done ht he hm hc (by simpa using hb) h

/-! ### The parser -/

def Fine (b : Bool) (tgt : Target) : Prop := b = true → ∀ t a, tgt = some (t, a) → NoLists t

theorem fine_none {b : Bool} : Fine b none := fun _ _ _ h => by cases h

theorem Fine.ty {b : Bool} {t : Ty} {a a' : Nat} (h : Fine b (some (t, a))) : Fine b (some (t, a')) := by
  intro hb t' x hx
  cases hx
  exact h hb _ _ rfl

theorem nextTok_done {b : Bool} {text : Bytes} {e : Env} {s s' : St} (h : nextTok e s = .ok s') (hd : Done b text .out s.c) : Done b text .out s'.c := by
  obtain ⟨r, h1, rfl⟩ := nextTok_eq h
  by_cases hn : s.c.err.code = .none
  · rcases hd with ⟨-, p, hp, hpm⟩ | ⟨hn', -⟩
    · exact nextToken_done _ _ _ h1 hp hn hpm
    · exact absurd hn hn'
  · exact hd.keep hn (nextToken_fwd h1).1

theorem token_done {b : Bool} {text : Bytes} {c : Ctx} (hd : Done b text .out c) : Done b text .out (c.setError .unexpectedToken) := by
  by_cases hn : c.err.code = .none
  · rcases hd with ⟨-, p, hp, hpm⟩ | ⟨hn', -⟩
    · exact .fail hp hn (by simp) hpm
    · exact absurd hn hn'
  · exact hd.keep hn (Follows.setError _ _)

theorem expect_done {b : Bool} {text : Bytes} {e : Env} {s : St} {y : TokType} {r : Tok × St} (hy : y ≠ .none) (h : expect e s y = .ok r)
    (hd : Done b text .out s.c) : Done b text .out r.2.c := by
  rcases expect_eq hy h with ⟨-, rfl⟩ | ⟨-, -, h, -⟩
  · exact token_done hd
  · exact nextTok_done h hd

def PVdone (b : Bool) (text : Bytes) (pv : ValueParser) : Prop :=
  ∀ s tgt p arr s', pv s tgt p arr = .ok s' → Fine b tgt → Done b text .out s.c → Done b text .out s'.c

def POdone (b : Bool) (text : Bytes) (po : ObjectParser) : Prop :=
  ∀ s tgt s', po s tgt = .ok s' → Fine b tgt → Done b text .out s.c → Done b text .out s'.c

theorem addEmpty_elem {w w' : Writer} {m m' : Mem} {a : Nat} (h : w.addEmpty m = .ok (a, w', m')) : w'.elem = w.elem := by
  unfold Writer.addEmpty at h
  split at h
  · split at h
    · cases h; rfl
    · cases h
  · cases h; rfl

theorem parseElements_done {b : Bool} {text : Bytes} {e : Env} {pv : ValueParser} (hpv : PVdone b text pv) : ∀ (n : Nat) (w : Option Writer) (s : St) (r : Nat × St),
    parseElements e pv n w s = .ok r → (b = true → ∀ x, w = some x → NoLists x.elem.1) → Done b text .out s.c → Done b text .out r.2.c := by
  intro n
  induction n with
  | zero => intro w s r h; rw [parseElements] at h; cases h
  | succ n ih =>
    intro w s r h hw hd
    cases w with
    | none =>
      rw [parseElements] at h
      obtain ⟨s1, h1, h⟩ := Out.bind_eq_ok.1 h
      have p1 := hpv _ _ _ _ _ h1 fine_none hd
      split at h
      · cases h; exact p1
      · obtain ⟨s2, h2, h⟩ := Out.bind_eq_ok.1 h
        obtain ⟨r3, h3, h⟩ := Out.bind_eq_ok.1 h
        cases h
        exact ih _ _ r3 h3 hw (nextTok_done h2 p1)
    | some w =>
      rw [parseElements] at h
      obtain ⟨r0, h0, h⟩ := Out.bind_eq_ok.1 h
      obtain ⟨s1, h1, h⟩ := Out.bind_eq_ok.1 h
      have p1 := hpv _ _ _ _ _ h1 (fun hb t a ht => by cases ht; exact hw hb _ rfl) hd
      split at h
      · cases h; exact p1
      · obtain ⟨s2, h2, h⟩ := Out.bind_eq_ok.1 h
        obtain ⟨r3, h3, h⟩ := Out.bind_eq_ok.1 h
        cases h
        refine ih _ _ r3 h3 ?_ (nextTok_done h2 p1)
        intro hb x hx
        cases hx
        rw [addEmpty_elem (w := w) (m := s.m) (a := r0.1) (w' := r0.2.1) (m' := r0.2.2) h0]
        exact hw hb _ rfl

theorem arrayWriter_done {b : Bool} {text : Bytes} {e : Env} {pv : ValueParser} (hpv : PVdone b text pv) (hok : PVok pv) {n : Nat} {s : St} {tgt : Target} {isPtr : Bool}
    {arr : Option Nat} {r : Option Writer × St} (h : arrayWriter e pv n s tgt isPtr arr = .ok r) (hf : Fine b tgt) (hd : Done b text .out s.c) :
    Done b text .out r.2.c ∧ (b = true → ∀ x, r.1 = some x → NoLists x.elem.1) := by
  unfold arrayWriter at h
  split at h
  · cases h
    exact ⟨hd, fun hb x hx => by cases hx; exact hf hb _ _ rfl⟩
  · rename_i hh ss elem p a _
    have hb : b = false := by
      cases b with
      | false => rfl
      | true => have := hf rfl _ _ rfl; cases this
    subst hb
    obtain ⟨q, h1, h⟩ := Out.bind_eq_ok.1 h
    cases h
    refine ⟨?_, fun hb => by cases hb⟩
    have hq := parseElements_done hpv _ _ _ _ h1 (fun hb => by cases hb) hd
    have hp := (parseElements_prog hok _ _ _ _ h1).2
    rcases hq with ⟨hn, -⟩ | hq
    · have hs := hp hn
      rcases hd with ⟨-, pre, hpre, hm⟩ | ⟨hn', -⟩
      · exact .inl ⟨hn, pre, ⟨hpre.text, hpre.pos, fun hb => by cases hb⟩, hm⟩
      · exact absurd hs hn'
    · exact .inr hq
  · cases h
  · cases h; exact ⟨hd, fun _ x hx => by cases hx⟩

theorem parseArray_done {b : Bool} {text : Bytes} {e : Env} {pv : ValueParser} (hpv : PVdone b text pv) (hok : PVok pv) {n : Nat} {s : St} {tgt : Target} {isPtr : Bool}
    {arr : Option Nat} {s' : St} (h : parseArray e pv n s tgt isPtr arr = .ok s') (hf : Fine b tgt) (hd : Done b text .out s.c) : Done b text .out s'.c := by
  unfold parseArray at h
  obtain ⟨r, h1, h⟩ := Out.bind_eq_ok.1 h
  have p1 := expect_done (by simp) h1 hd
  split at h
  · cases h; exact p1
  · split at h
    · exact nextTok_done h p1
    · obtain ⟨w, h2, h⟩ := Out.bind_eq_ok.1 h
      obtain ⟨q, h3, h⟩ := Out.bind_eq_ok.1 h
      obtain ⟨x, h4, h⟩ := Out.bind_eq_ok.1 h
      cases h
      obtain ⟨p2, hw⟩ := arrayWriter_done hpv hok h2 hf p1
      exact expect_done (by simp) h4 (parseElements_done hpv _ _ _ _ h3 hw p2)

theorem fine_member {b : Bool} {e : Env} {tgt : Target} {k : Bytes} {f : FldInfo} {t : Ty} {a : Nat} (hf : Fine b tgt) (h : memberOf e tgt k = some (f, t, a)) :
    Fine b (some (t, a)) := by
  intro hb t' a' ht
  cases ht
  unfold memberOf at h
  split at h
  · rename_i hh s fl fs bs a0
    have := hf hb _ _ rfl
    cases this with
    | cls _ _ _ _ _ hall =>
      split at h
      · rename_i f' t'' hff
        split at h
        · cases h
        · cases h
          rw [findField_eq] at hff
          exact hall _ (List.mem_of_find?_eq_some hff)
      · cases h
  · cases h

theorem parsePair_done {b : Bool} {text : Bytes} {e : Env} {pv : ValueParser} (hpv : PVdone b text pv) {s : St} {tgt : Target} {s' : St}
    (h : parsePair e pv s tgt = .ok s') (hf : Fine b tgt) (hd : Done b text .out s.c) : Done b text .out s'.c := by
  unfold parsePair at h
  obtain ⟨r, h1, h⟩ := Out.bind_eq_ok.1 h
  have p1 := expect_done (by simp) h1 hd
  split at h
  · cases h; exact p1
  · obtain ⟨q, h2, h⟩ := Out.bind_eq_ok.1 h
    have p2 := expect_done (by simp) h2 p1
    split at h
    · cases h; exact p2
    · split at h
      · rename_i hm
        exact hpv _ _ _ _ _ h (fine_member hf hm) p2
      · exact hpv _ _ _ _ _ h fine_none p2

theorem parseMembers_done {b : Bool} {text : Bytes} {e : Env} {pv : ValueParser} (hpv : PVdone b text pv) : ∀ (n : Nat) (s : St) (tgt : Target) (s' : St),
    parseMembers e pv n s tgt = .ok s' → Fine b tgt → Done b text .out s.c → Done b text .out s'.c := by
  intro n
  induction n with
  | zero => intro s tgt s' h; rw [parseMembers] at h; cases h
  | succ n ih =>
    intro s tgt s' h hf hd
    rw [parseMembers] at h
    obtain ⟨s1, h1, h⟩ := Out.bind_eq_ok.1 h
    have p1 := parsePair_done hpv h1 hf hd
    split at h
    · obtain ⟨s2, h2, h⟩ := Out.bind_eq_ok.1 h
      exact ih _ _ _ h hf (nextTok_done h2 p1)
    · cases h; exact p1

theorem dictLoop_done {b : Bool} {text : Bytes} {e : Env} {pv : ValueParser} {po : ObjectParser} (hpv : PVdone b text pv) (hpo : POdone b text po) {kt vt : Ty}
    {isPtr : Bool} {a : Nat} (hk : b = true → NoLists kt) (hv : b = true → NoLists vt) :
    ∀ (n : Nat) (s s' : St), dictLoop e pv po kt vt isPtr a n s = .ok s' → Done b text .out s.c → Done b text .out s'.c := by
  intro n
  induction n with
  | zero => intro s s' h; rw [dictLoop] at h; cases h
  | succ n ih =>
    intro s s' h hd
    rw [dictLoop] at h
    split at h
    · split at h
      · obtain ⟨s1, h1, h⟩ := Out.bind_eq_ok.1 h
        have p1 := hpv _ _ _ _ _ h1 (fun hb t a ht => by cases ht; exact hk hb) hd
        obtain ⟨r, h2, h⟩ := Out.bind_eq_ok.1 h
        have p2 := expect_done (by simp) h2 p1
        split at h
        · cases h; exact p2
        · obtain ⟨s3, h3, h⟩ := Out.bind_eq_ok.1 h
          have p3 := hpo _ _ _ h3 (fun hb t a ht => by cases ht; exact hv hb) p2
          obtain ⟨r4, h4, h⟩ := Out.bind_eq_ok.1 h
          have p4 := expect_done (by simp) h4 p3
          split at h
          · obtain ⟨s5, h5, h⟩ := Out.bind_eq_ok.1 h
            exact ih _ _ h (nextTok_done h5 p4)
          · exact ih _ _ h p4
      · cases h
    · cases h; exact hd

theorem parseDict_done {b : Bool} {text : Bytes} {e : Env} {pv : ValueParser} {po : ObjectParser} (hpv : PVdone b text pv) (hpo : POdone b text po) {n : Nat} {ty : Ty}
    {a : Nat} {s s' : St} (h : parseDict e pv po n s ty a = .ok s') (hf : b = true → NoLists ty) (hd : Done b text .out s.c) : Done b text .out s'.c := by
  unfold parseDict at h
  split at h
  · exact dictLoop_done hpv hpo (fun hb => by cases hf hb; assumption) (fun hb => by cases hf hb; assumption) _ _ _ h hd
  · split at h
    · cases h
    · cases h; exact hd

theorem fine_object {b : Bool} {e : Env} {tgt : Target} (hf : Fine b tgt) : Fine b (objectTarget e tgt) := by
  unfold objectTarget
  split
  · split
    · exact fine_none
    · exact hf
  · exact hf

theorem parse_done (e : Env) (b : Bool) (text : Bytes) : ∀ n, PVdone b text (parseValue e n) ∧ POdone b text (parseObject e n) := by
  intro n
  induction n with
  | zero =>
    constructor
    · intro s tgt p arr s' h; rw [parseValue] at h; cases h
    · intro s tgt s' h; rw [parseObject] at h; cases h
  | succ n ih =>
    constructor
    · intro s tgt p arr s' h hf hd
      rw [parseValue] at h
      split at h
      · obtain ⟨r, h1, h⟩ := Out.bind_eq_ok.1 h
        cases h
        exact expect_done (by simp) h1 hd
      · obtain ⟨r, h1, h⟩ := Out.bind_eq_ok.1 h
        cases h
        exact expect_done (by simp) h1 hd
      · obtain ⟨r, h1, h⟩ := Out.bind_eq_ok.1 h
        obtain ⟨m, h2, h⟩ := Out.bind_eq_ok.1 h
        cases h
        exact expect_done (by simp) h1 hd
      · obtain ⟨s1, h1, h⟩ := Out.bind_eq_ok.1 h
        obtain ⟨r, h2, h⟩ := Out.bind_eq_ok.1 h
        cases h
        exact expect_done (by simp) h2 (ih.2 _ _ _ h1 (fine_object hf) hd)
      · exact parseArray_done ih.1 (parse_prog e n).1 h hf hd
      · obtain ⟨r, h1, h⟩ := Out.bind_eq_ok.1 h
        cases h
        exact expect_done (by simp) h1 hd
      · obtain ⟨r, h1, h⟩ := Out.bind_eq_ok.1 h
        cases h
        exact expect_done (by simp) h1 hd
      · obtain ⟨r, h1, h⟩ := Out.bind_eq_ok.1 h
        cases h
        exact expect_done (by simp) h1 hd
      · cases h
        exact token_done hd
    · intro s tgt s' h hf hd
      rw [parseObject.eq_def] at h
      dsimp only at h
      obtain ⟨r, h1, h⟩ := Out.bind_eq_ok.1 h
      have p1 := expect_done (by simp) h1 hd
      split at h
      · cases h; exact p1
      · split at h
        · cases h; exact p1
        · split at h
          · split at h
            · exact parseDict_done ih.1 ih.2 h (fun hb => hf hb _ _ rfl) p1
            · exact parseMembers_done ih.1 _ _ _ _ h hf p1
          · exact parseMembers_done ih.1 _ _ _ _ h hf p1

theorem load_done {b : Bool} {e : Env} {text : Bytes} {m m' : Mem} {t : Ty} {a : Nat} {err : Err} (h : loadJSON e text m t a = .ok (err, m'))
    (hf : b = true → NoLists t) (he : err.code ≠ .none) : Told b text err := by
  unfold loadJSON at h
  obtain ⟨s1, h1, h⟩ := Out.bind_eq_ok.1 h
  obtain ⟨s2, h2, h⟩ := Out.bind_eq_ok.1 h
  cases h
  have d0 : Done b text .out ({ rest := text } : Ctx) := .inl ⟨rfl, [], ⟨by simp, rfl, fun _ => ⟨rfl, .first rfl⟩⟩, rfl⟩
  have d1 := nextTok_done h1 d0
  rcases (parse_done e b text _).2 _ _ _ h2 (fun hb t a ht => by cases ht; exact hf hb) d1 with ⟨hn, -⟩ | ⟨-, hd⟩
  · exact absurd hn he
  · exact hd

end Clr.JSON
