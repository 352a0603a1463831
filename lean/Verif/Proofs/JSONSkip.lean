import Verif.Model.JSON
import Verif.Proofs.JSONReads

/-! The parser over a JSON value that goes nowhere: it ends after the value and changes nothing. -/
namespace Clr.JSON

/-- The parser has looked ahead one token into the text `s`, and there is no error. -/
def At (e : Env) (s : Bytes) (st : St) : Prop :=
  ∃ t r, Reads e.fl.strtod s t r ∧ st.t = t ∧ st.c.rest = r ∧ st.c.err.code = .none

theorem At.tok {e : Env} {s : Bytes} {st : St} (h : At e s st) {t : Tok} {r : Bytes} (hr : Reads e.fl.strtod s t r) :
    st.t = t ∧ st.c.rest = r ∧ st.c.err.code = .none := by
  obtain ⟨t', r', h1, h2, h3, h4⟩ := h
  obtain ⟨rfl, rfl⟩ := hr.unique h1
  exact ⟨h2, h3, h4⟩

theorem At.good {e : Env} {s : Bytes} {st : St} (h : At e s st) : Good e.fl.strtod s := by
  obtain ⟨t', r', h1, -⟩ := h
  exact ⟨_, _, h1⟩

theorem At.setMem {e : Env} {s : Bytes} {st : St} (h : At e s st) (m : Mem) : At e s { st with m := m } := h

theorem at_ws {e : Env} {w s : Bytes} {st : St} (hw : Ws w) (hg : Good e.fl.strtod s) :
    At e (w ++ s) st ↔ At e s st := by
  obtain ⟨t, r, hr⟩ := hg
  constructor
  · intro h
    obtain ⟨h1, h2, h3⟩ := h.tok (reads_ws hw hr)
    exact ⟨t, r, hr, h1, h2, h3⟩
  · intro h
    obtain ⟨h1, h2, h3⟩ := h.tok hr
    exact ⟨t, r, reads_ws hw hr, h1, h2, h3⟩

theorem nextTok_at {e : Env} {r : Bytes} {st : St} (hr : st.c.rest = r) (he : st.c.err.code = .none)
    (hg : Good e.fl.strtod r) : ∃ st', nextTok e st = .ok st' ∧ At e r st' ∧ st'.m = st.m := by
  obtain ⟨t, r', h⟩ := hg
  obtain ⟨c', h1, h2, h3⟩ := h st.c hr he
  refine ⟨{ st with t := t, c := c' }, ?_, ⟨t, r', h, rfl, h2, h3⟩, rfl⟩
  unfold nextTok
  rw [h1]
  rfl

/-- A token of the expected type is consumed. -/
theorem expect_at {e : Env} {s r : Bytes} {st : St} {t : Tok} {ty : TokType} (h : At e s st)
    (hr : Reads e.fl.strtod s t r) (hty : t.type = ty) (hg : Good e.fl.strtod r) :
    ∃ st', expect e st ty = .ok (t, st') ∧ At e r st' ∧ st'.m = st.m := by
  obtain ⟨h1, h2, h3⟩ := h.tok hr
  obtain ⟨st', h4, h5, h6⟩ := nextTok_at h2 h3 hg
  refine ⟨st', ?_, h5, h6⟩
  unfold expect
  rw [h1, if_neg (by simp [hty]), h4]
  rfl

/-- The next character decides where a value ends. -/
structure Tail (e : Env) (q : Bytes) : Prop where
  delim : ∃ b r, q = b :: r ∧ isDelim b = true
  good : Good e.fl.strtod q

theorem Tail.structural (e : Env) {b : UInt8} (hb : (structural b).isSome) (r : Bytes) : Tail e (b :: r) :=
  ⟨⟨b, r, rfl, by simp [isDelim, hb]⟩, good_structural _ hb r⟩

theorem Tail.ws {e : Env} {w q : Bytes} (hw : Ws w) (h : Tail e q) : Tail e (w ++ q) := by
  refine ⟨?_, good_ws hw h.good⟩
  cases w with
  | nil => exact h.delim
  | cons b w => exact ⟨b, w ++ q, rfl, by simp [isDelim, show isSpace b = true from hw b (by simp)]⟩

/-- What a value's text begins with. -/
theorem JVal.reads (f : Bytes → UInt64) {v : Bytes} (h : JVal v) {b : UInt8} {q : Bytes} (hb : isDelim b = true) :
    Good f (v ++ b :: q) := by
  cases h with
  | @str s h => exact ⟨_, _, by simpa using reads_string f h (b :: q)⟩
  | num h =>
    obtain ⟨t, -, h⟩ := reads_number f h b q hb
    exact ⟨_, _, h⟩
  | tru => exact ⟨_, _, reads_keyword f 116 b!"rue" .true (by simp) (b :: q)⟩
  | fls => exact ⟨_, _, reads_keyword f 102 b!"alse" .false (by simp) (b :: q)⟩
  | null => exact ⟨_, _, reads_keyword f 110 b!"ull" .null (by simp) (b :: q)⟩
  | arr0 hw => exact good_structural f (by decide) _
  | arr h => exact good_structural f (by decide) _
  | obj0 hw => exact good_structural f (by decide) _
  | obj h => exact good_structural f (by decide) _

theorem JVal.good {e : Env} {v q : Bytes} (h : JVal v) (hq : Tail e q) : Good e.fl.strtod (v ++ q) := by
  obtain ⟨b, r, rfl, hb⟩ := hq.delim
  exact h.reads _ hb

theorem JVal.ne_nil {v : Bytes} (h : JVal v) : 1 ≤ v.length := by
  cases h with
  | num h => cases h with
    | int h => exact List.length_pos_iff.2 h.1
    | dec h hf => have := List.length_pos_iff.2 h.1; simp; omega
    | _ => simp
  | _ => simp

/-- The first token of a value is neither a closing bracket nor a closing brace. -/
theorem JVal.first (f : Bytes → UInt64) {v : Bytes} (h : JVal v) {b : UInt8} {q : Bytes} (hb : isDelim b = true) :
    ∃ t r, Reads f (v ++ b :: q) t r ∧ t.type ≠ .rbracket ∧ t.type ≠ .rbrace := by
  cases h with
  | @str s h => exact ⟨_, _, by simpa using reads_string f h (b :: q), by simp, by simp⟩
  | num h =>
    obtain ⟨t, ht, h⟩ := reads_number f h b q hb
    exact ⟨_, _, h, by rcases ht with ht | ht <;> simp [ht], by rcases ht with ht | ht <;> simp [ht]⟩
  | tru => exact ⟨_, _, reads_keyword f 116 b!"rue" .true (by simp) (b :: q), by simp, by simp⟩
  | fls => exact ⟨_, _, reads_keyword f 102 b!"alse" .false (by simp) (b :: q), by simp, by simp⟩
  | null => exact ⟨_, _, reads_keyword f 110 b!"ull" .null (by simp) (b :: q), by simp, by simp⟩
  | arr0 hw => exact ⟨_, _, reads_structural f (b := 91) (ty := .lbracket) rfl _, by simp, by simp⟩
  | arr h => exact ⟨_, _, reads_structural f (b := 91) (ty := .lbracket) rfl _, by simp, by simp⟩
  | obj0 hw => exact ⟨_, _, reads_structural f (b := 123) (ty := .lbrace) rfl _, by simp, by simp⟩
  | obj h => exact ⟨_, _, reads_structural f (b := 123) (ty := .lbrace) rfl _, by simp, by simp⟩

theorem JElems.first (f : Bytes → UInt64) {s : Bytes} (h : JElems s) {b : UInt8} {q : Bytes} (hb : isDelim b = true) :
    ∃ t r, Reads f (s ++ b :: q) t r ∧ t.type ≠ .rbracket := by
  cases h with
  | @one w v x hw hv hx =>
    obtain ⟨b', r', hd, hb'⟩ : ∃ b' r', x ++ b :: q = b' :: r' ∧ isDelim b' = true := by
      cases x with
      | nil => exact ⟨b, q, rfl, hb⟩
      | cons y x => exact ⟨y, x ++ b :: q, rfl, by simp [isDelim, show isSpace y = true from hx y (by simp)]⟩
    obtain ⟨t, r, h1, h2, -⟩ := hv.first f (q := r') hb'
    refine ⟨t, r, ?_, h2⟩
    have := reads_ws hw h1
    rw [← hd] at this
    simpa using this
  | @more w v x r hw hv hx hr =>
    obtain ⟨b', r', hd, hb'⟩ : ∃ b' r', x ++ 44 :: (r ++ b :: q) = b' :: r' ∧ isDelim b' = true := by
      cases x with
      | nil => exact ⟨44, _, rfl, by decide⟩
      | cons y x => exact ⟨y, _, rfl, by simp [isDelim, show isSpace y = true from hx y (by simp)]⟩
    obtain ⟨t, r, h1, h2, -⟩ := hv.first f (q := r') hb'
    refine ⟨t, r, ?_, h2⟩
    have := reads_ws hw h1
    rw [← hd] at this
    simpa using this

theorem JMembers.first (f : Bytes → UInt64) {s : Bytes} (h : JMembers s) (q : Bytes) :
    ∃ t r, Reads f (s ++ q) t r ∧ t.type ≠ .rbrace := by
  cases h with
  | @one w k x y v z hw hk hx hy hv hz =>
    exact ⟨_, _, by simpa using reads_ws hw (reads_string f hk _), by simp⟩
  | @more w k x y v z r hw hk hx hy hv hz hr =>
    exact ⟨_, _, by simpa using reads_ws hw (reads_string f hk _), by simp⟩

/-- A scalar token is consumed and goes nowhere. -/
theorem skip_token {e : Env} {s q : Bytes} {st : St} {t : Tok} (h : At e s st) (hr : Reads e.fl.strtod s t q)
    (hg : Good e.fl.strtod q)
    (ht : t.type = .string ∨ t.type = .integer ∨ t.type = .decimal ∨ t.type = .true ∨ t.type = .false ∨
      t.type = .null) (n : Nat) (p : Bool) (arr : Option Nat) :
    ∃ st', parseValue e (n + 1) st none p arr = .ok st' ∧ At e q st' ∧ st'.m = st.m := by
  obtain ⟨h1, -, -⟩ := h.tok hr
  have hi : ∀ v : Int, ∀ m : Mem, loadInteger e m t v none p = m := by
    intro v m; unfold loadInteger; split <;> rfl
  have hs : ∀ m : Mem, loadString m t none = m := by
    intro m; unfold loadString; split <;> rfl
  have hd : ∀ m : Mem, loadDecimal e m t none = .ok m := by
    intro m; unfold loadDecimal; split <;> rfl
  rcases ht with ht | ht | ht | ht | ht | ht <;>
    obtain ⟨st', e1, e2, e3⟩ := expect_at h hr ht hg <;>
    refine ⟨st', ?_, e2, e3⟩ <;>
    rw [parseValue, h1, ht] <;> simp only [] <;> rw [e1] <;> simp [hi, hs, hd]

/-- The value is skipped. -/
def SkipsV (e : Env) (v : Bytes) : Prop :=
  ∀ {q : Bytes} (_ : Tail e q) {st : St} (_ : At e (v ++ q) st) {n : Nat} (_ : v.length ≤ n) (p : Bool) (arr : Option Nat),
    ∃ st', parseValue e n st none p arr = .ok st' ∧ At e q st' ∧ st'.m = st.m

/-- The elements of an array are skipped. -/
def SkipsE (e : Env) (s : Bytes) : Prop :=
  ∀ {b : UInt8} {q : Bytes} (_ : (structural b).isSome) (_ : b ≠ 44)
    {st : St} (_ : At e (s ++ b :: q) st) {n n' : Nat} (_ : s.length ≤ n) (_ : s.length ≤ n'),
    ∃ k st', parseElements e (parseValue e n) n' none st = .ok (k, st') ∧ At e (b :: q) st' ∧ st'.m = st.m

/-- The members of an object are skipped. -/
def SkipsM (e : Env) (s : Bytes) : Prop :=
  ∀ {q : Bytes} {st : St} (_ : At e (s ++ 125 :: q) st)
    {n n' : Nat} (_ : s.length ≤ n) (_ : s.length ≤ n'),
    ∃ st', parseMembers e (parseValue e n) n' st none = .ok st' ∧ At e (125 :: q) st' ∧ st'.m = st.m

theorem skip_value_step {e : Env} {v : Bytes} (h : JVal v)
    (skip_elems : ∀ s, s.length < v.length → JElems s → SkipsE e s)
    (skip_members : ∀ s, s.length < v.length → JMembers s → SkipsM e s) : SkipsV e v := by
  intro q hq st hat n hn p arr
  have hv := h.ne_nil
  obtain ⟨n, rfl⟩ : ∃ k, n = k + 1 := ⟨n - 1, by omega⟩
  cases h with
  | @str s h =>
    exact skip_token hat (by simpa using reads_string e.fl.strtod h q) hq.good (.inl rfl) n p arr
  | num h =>
    obtain ⟨b, r, rfl, hb⟩ := hq.delim
    obtain ⟨t, ht, hr⟩ := reads_number e.fl.strtod h b r hb
    exact skip_token hat hr hq.good (.inr (ht.imp_right .inl)) n p arr
  | tru =>
    exact skip_token hat (reads_keyword e.fl.strtod 116 b!"rue" .true (by simp) q) hq.good (by simp) n p arr
  | fls =>
    exact skip_token hat (reads_keyword e.fl.strtod 102 b!"alse" .false (by simp) q) hq.good (by simp) n p arr
  | null =>
    exact skip_token hat (reads_keyword e.fl.strtod 110 b!"ull" .null (by simp) q) hq.good (by simp) n p arr
  | @arr0 w hw =>
    have hr := reads_structural e.fl.strtod (b := 91) (ty := .lbracket) rfl (w ++ ([93] ++ q))
    have hr2 := reads_structural e.fl.strtod (b := 93) (ty := .rbracket) rfl q
    have hat' : At e (91 :: (w ++ ([93] ++ q))) st := by simpa using hat
    obtain ⟨h1, -, -⟩ := hat'.tok hr
    obtain ⟨st1, e1, a1, m1⟩ := expect_at hat' hr rfl (good_ws hw (good_structural _ (by decide) q))
    obtain ⟨t1, t2, t3⟩ := a1.tok (reads_ws hw hr2)
    obtain ⟨st2, e2, a2, m2⟩ := nextTok_at t2 t3 hq.good
    refine ⟨st2, ?_, a2, by rw [m2, m1]⟩
    rw [parseValue, h1]
    simp only []
    rw [parseArray, e1]
    simp only [Out.bind_ok, t1]
    simpa [Tok.isValid] using e2
  | @arr s h =>
    have hr := reads_structural e.fl.strtod (b := 91) (ty := .lbracket) rfl (s ++ ([93] ++ q))
    have hr2 := reads_structural e.fl.strtod (b := 93) (ty := .rbracket) rfl q
    have hat' : At e (91 :: (s ++ ([93] ++ q))) st := by simpa using hat
    obtain ⟨h1, -, -⟩ := hat'.tok hr
    obtain ⟨tf, rf, hf, hft⟩ := h.first e.fl.strtod (b := 93) (q := q) (by decide)
    obtain ⟨st1, e1, a1, m1⟩ := expect_at hat' hr rfl ⟨tf, rf, hf⟩
    obtain ⟨t1, -, -⟩ := a1.tok hf
    obtain ⟨k, st2, e2, a2, m2⟩ := skip_elems s (by simp; omega) h (b := 93) (q := q) (by decide) (by decide) a1
      (n := n) (n' := n + 1) (by simp at hn; omega) (by simp at hn; omega)
    obtain ⟨st3, e3, a3, m3⟩ := expect_at a2 hr2 rfl hq.good
    refine ⟨st3, ?_, a3, by rw [m3, m2, m1]⟩
    rw [parseValue, h1]
    simp only []
    rw [parseArray, e1]
    simp only [Out.bind_ok, t1, hft, if_false]
    have hw : arrayWriter e (parseValue e n) (n + 1) st1 none p arr = .ok (none, st1) := by
      unfold arrayWriter; split <;> simp_all
    rw [hw]
    simp only [Out.bind_ok]
    rw [e2]
    simp only [Out.bind_ok]
    rw [e3]
    simp [Tok.isValid]
  | @obj0 w hw =>
    have hr := reads_structural e.fl.strtod (b := 123) (ty := .lbrace) rfl (w ++ ([125] ++ q))
    have hr2 := reads_structural e.fl.strtod (b := 125) (ty := .rbrace) rfl q
    have hat' : At e (123 :: (w ++ ([125] ++ q))) st := by simpa using hat
    obtain ⟨h1, -, -⟩ := hat'.tok hr
    obtain ⟨st1, e1, a1, m1⟩ := expect_at hat' hr rfl (good_ws hw (good_structural _ (by decide) q))
    obtain ⟨t1, -, -⟩ := a1.tok (reads_ws hw hr2)
    obtain ⟨st2, e2, a2, m2⟩ := expect_at a1 (reads_ws hw hr2) rfl hq.good
    refine ⟨st2, ?_, a2, by rw [m2, m1]⟩
    obtain ⟨n, rfl⟩ : ∃ k, n = k + 1 := ⟨n - 1, by simp at hn; omega⟩
    rw [parseValue, h1]
    simp only []
    rw [show objectTarget e none = none from rfl, parseObject, e1]
    simp only [Out.bind_ok, t1]
    simp only [Tok.isValid]
    simp only [bne_self_eq_false, Bool.not_true, if_true, Out.bind_ok]
    simp [e2]
  | @obj s h =>
    have hr := reads_structural e.fl.strtod (b := 123) (ty := .lbrace) rfl (s ++ ([125] ++ q))
    have hr2 := reads_structural e.fl.strtod (b := 125) (ty := .rbrace) rfl q
    have hat' : At e (123 :: (s ++ ([125] ++ q))) st := by simpa using hat
    obtain ⟨h1, -, -⟩ := hat'.tok hr
    obtain ⟨tf, rf, hf, hft⟩ := h.first e.fl.strtod (125 :: q)
    obtain ⟨st1, e1, a1, m1⟩ := expect_at hat' hr rfl ⟨tf, rf, hf⟩
    obtain ⟨t1, -, -⟩ := a1.tok hf
    obtain ⟨n, rfl⟩ : ∃ k, n = k + 1 := ⟨n - 1, by simp at hn; omega⟩
    obtain ⟨st2, e2, a2, m2⟩ := skip_members s (by simp; omega) h (q := q) a1
      (n := n) (n' := n + 1) (by simp at hn; omega) (by simp at hn; omega)
    obtain ⟨st3, e3, a3, m3⟩ := expect_at a2 hr2 rfl hq.good
    refine ⟨st3, ?_, a3, by rw [m3, m2, m1]⟩
    rw [parseValue, h1]
    simp only []
    rw [show objectTarget e none = none from rfl, parseObject, e1]
    simp only [Out.bind_ok, t1, hft, if_false]
    simp only [Tok.isValid]
    simp only [show (TokType.lbrace != TokType.none) = true from rfl, Bool.not_true, Bool.false_eq_true, if_false]
    rw [e2]
    simp only [Out.bind_ok]
    rw [e3]
    rfl

theorem skip_elems_step {e : Env} {s : Bytes} (h : JElems s)
    (skip_value : ∀ v, v.length ≤ s.length → JVal v → SkipsV e v)
    (skip_elems : ∀ r, r.length < s.length → JElems r → SkipsE e r) : SkipsE e s := by
  intro b q hb hc st hat n n' hn hn'
  cases h with
  | @one w v x hw hv hx =>
    have hv1 := hv.ne_nil
    obtain ⟨n', rfl⟩ : ∃ k, n' = k + 1 := ⟨n' - 1, by simp at hn'; omega⟩
    have ht : Tail e (x ++ b :: q) := (Tail.structural e hb q).ws hx
    have hat1 : At e (v ++ (x ++ b :: q)) st :=
      (at_ws hw (hv.good ht)).1 (by simpa using hat)
    obtain ⟨st1, e1, a1, m1⟩ := skip_value v (by simp; try omega) hv ht hat1 (n := n) (by simp at hn; omega) false none
    have a2 := (at_ws hx (good_structural _ hb q)).1 a1
    obtain ⟨ty, hty⟩ := Option.isSome_iff_exists.1 hb
    obtain ⟨t1, -, -⟩ := a2.tok (reads_structural _ hty q)
    refine ⟨1, st1, ?_, a2, m1⟩
    rw [parseElements, e1]
    have : ty ≠ .comma := by
      rintro rfl
      apply hc
      unfold structural at hty
      repeat (split at hty; · first | assumption | simp at hty)
      simp at hty
    simp [t1, this]
  | @more w v x r hw hv hx hr =>
    have hv1 := hv.ne_nil
    obtain ⟨n', rfl⟩ : ∃ k, n' = k + 1 := ⟨n' - 1, by simp at hn'; omega⟩
    have ht : Tail e (x ++ 44 :: (r ++ b :: q)) := (Tail.structural e (by decide) _).ws hx
    have hat1 : At e (v ++ (x ++ 44 :: (r ++ b :: q))) st :=
      (at_ws hw (hv.good ht)).1 (by simpa using hat)
    obtain ⟨st1, e1, a1, m1⟩ := skip_value v (by simp; try omega) hv ht hat1 (n := n) (by simp at hn; omega) false none
    have a2 := (at_ws hx (good_structural _ (by decide) _)).1 a1
    obtain ⟨t1, t2, t3⟩ := a2.tok (reads_structural _ (b := 44) (ty := .comma) rfl (r ++ b :: q))
    obtain ⟨tf, rf, hf, -⟩ := hr.first e.fl.strtod (b := b) (q := q) (by simp [isDelim, hb])
    obtain ⟨st2, e2, a3, m2⟩ := nextTok_at t2 t3 ⟨tf, rf, hf⟩
    obtain ⟨k, st3, e3, a4, m3⟩ := skip_elems r (by simp; omega) hr hb hc a3 (n := n) (n' := n')
      (by simp at hn; omega) (by simp at hn'; omega)
    refine ⟨k + 1, st3, ?_, a4, by rw [m3, m2, m1]⟩
    rw [parseElements, e1]
    simp only [Out.bind_ok, t1]
    simp only [ne_eq, not_true_eq_false, if_false]
    rw [e2]
    simp only [Out.bind_ok]
    rw [e3]
    rfl

theorem skip_members_step {e : Env} {s : Bytes} (h : JMembers s)
    (skip_value : ∀ v, v.length ≤ s.length → JVal v → SkipsV e v)
    (skip_members : ∀ r, r.length < s.length → JMembers r → SkipsM e r) : SkipsM e s := by
  intro q st hat n n' hn hn'
  cases h with
  | @one w k x y v z hw hk hx hy hv hz =>
    obtain ⟨n', rfl⟩ : ∃ k, n' = k + 1 := ⟨n' - 1, by simp at hn'; omega⟩
    have ht : Tail e (z ++ 125 :: q) := (Tail.structural e (by decide) q).ws hz
    have hgv : Good e.fl.strtod (y ++ (v ++ (z ++ 125 :: q))) := good_ws hy (hv.good ht)
    have hat1 : At e (w ++ (34 :: (k ++ 34 :: (x ++ 58 :: (y ++ (v ++ (z ++ 125 :: q))))))) st := by
      simpa using hat
    obtain ⟨st1, e1, a1, m1⟩ := expect_at hat1 (reads_ws hw (reads_string _ hk _)) rfl
      (good_ws hx (good_structural _ (by decide) _))
    obtain ⟨st2, e2, a2, m2⟩ := expect_at a1 (reads_ws hx (reads_structural _ (b := 58) (ty := .colon) rfl _)) rfl hgv
    obtain ⟨st3, e3, a3, m3⟩ := skip_value v (by simp; try omega) hv ht ((at_ws hy (hv.good ht)).1 a2) (n := n) (by simp at hn; omega) false none
    have a4 := (at_ws hz (good_structural _ (by decide) q)).1 a3
    obtain ⟨t4, -, -⟩ := a4.tok (reads_structural _ (b := 125) (ty := .rbrace) rfl q)
    refine ⟨st3, ?_, a4, by rw [m3, m2, m1]⟩
    rw [parseMembers, parsePair, e1]
    simp only [Out.bind_ok]
    rw [e2]
    simp only [Out.bind_ok]
    simp only [Tok.isValid, show (TokType.string != TokType.none) = true from rfl,
      show (TokType.colon != TokType.none) = true from rfl, Bool.not_true, Bool.false_eq_true, if_false]
    rw [show memberOf e none k = none from rfl]
    simp only []
    rw [e3]
    simp [t4]
  | @more w k x y v z r hw hk hx hy hv hz hr =>
    obtain ⟨n', rfl⟩ : ∃ k, n' = k + 1 := ⟨n' - 1, by simp at hn'; omega⟩
    have ht : Tail e (z ++ 44 :: (r ++ 125 :: q)) := (Tail.structural e (by decide) _).ws hz
    have hgv : Good e.fl.strtod (y ++ (v ++ (z ++ 44 :: (r ++ 125 :: q)))) := good_ws hy (hv.good ht)
    have hat1 : At e (w ++ (34 :: (k ++ 34 :: (x ++ 58 :: (y ++ (v ++ (z ++ 44 :: (r ++ 125 :: q)))))))) st := by
      simpa using hat
    obtain ⟨st1, e1, a1, m1⟩ := expect_at hat1 (reads_ws hw (reads_string _ hk _)) rfl
      (good_ws hx (good_structural _ (by decide) _))
    obtain ⟨st2, e2, a2, m2⟩ := expect_at a1 (reads_ws hx (reads_structural _ (b := 58) (ty := .colon) rfl _)) rfl hgv
    obtain ⟨st3, e3, a3, m3⟩ := skip_value v (by simp; try omega) hv ht ((at_ws hy (hv.good ht)).1 a2) (n := n) (by simp at hn; omega) false none
    have a4 := (at_ws hz (good_structural _ (by decide) _)).1 a3
    obtain ⟨t4, t5, t6⟩ := a4.tok (reads_structural _ (b := 44) (ty := .comma) rfl (r ++ 125 :: q))
    obtain ⟨tf, rf, hf, -⟩ := hr.first e.fl.strtod (125 :: q)
    obtain ⟨st5, e5, a5, m5⟩ := nextTok_at t5 t6 ⟨tf, rf, hf⟩
    obtain ⟨st6, e6, a6, m6⟩ := skip_members r (by simp; omega) hr a5 (n := n) (n' := n') (by simp at hn; omega) (by simp at hn'; omega)
    refine ⟨st6, ?_, a6, by rw [m6, m5, m3, m2, m1]⟩
    rw [parseMembers, parsePair, e1]
    simp only [Out.bind_ok]
    rw [e2]
    simp only [Out.bind_ok]
    simp only [Tok.isValid, show (TokType.string != TokType.none) = true from rfl,
      show (TokType.colon != TokType.none) = true from rfl, Bool.not_true, Bool.false_eq_true, if_false]
    rw [show memberOf e none k = none from rfl]
    simp only []
    rw [e3]
    simp only [Out.bind_ok, t4]
    rw [e5]
    simp only [Out.bind_ok, if_true]
    exact e6
theorem skip_all (e : Env) (N : Nat) :
    (∀ v, v.length ≤ N → JVal v → SkipsV e v) ∧ (∀ s, s.length ≤ N → JElems s → SkipsE e s) ∧
      (∀ s, s.length ≤ N → JMembers s → SkipsM e s) := by
  induction N with
  | zero =>
    have hV : ∀ v, v.length ≤ 0 → JVal v → SkipsV e v := fun v hv h => by have := h.ne_nil; omega
    refine ⟨hV, fun s hs h => ?_, fun s hs h => ?_⟩
    · exact skip_elems_step h (fun v hv => hV v (by omega)) (fun r hr => by omega)
    · exact skip_members_step h (fun v hv => hV v (by omega)) (fun r hr => by omega)
  | succ N ih =>
    have hV : ∀ v, v.length ≤ N + 1 → JVal v → SkipsV e v := fun v hv h =>
      skip_value_step h (fun s hs => ih.2.1 s (by omega)) (fun s hs => ih.2.2 s (by omega))
    refine ⟨hV, fun s hs h => ?_, fun s hs h => ?_⟩
    · exact skip_elems_step h (fun v hv => hV v (by omega)) (fun r hr => ih.2.1 r (by omega))
    · exact skip_members_step h (fun v hv => hV v (by omega)) (fun r hr => ih.2.2 r (by omega))

/-- Every value is skipped. -/
theorem skip_value {e : Env} {v : Bytes} (h : JVal v) : SkipsV e v := (skip_all e v.length).1 v (Nat.le_refl _) h

theorem skip_elems {e : Env} {s : Bytes} (h : JElems s) : SkipsE e s := (skip_all e s.length).2.1 s (Nat.le_refl _) h

theorem skip_members {e : Env} {s : Bytes} (h : JMembers s) : SkipsM e s := (skip_all e s.length).2.2 s (Nat.le_refl _) h

end Clr.JSON
