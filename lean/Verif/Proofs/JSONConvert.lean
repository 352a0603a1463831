import Verif.Props.JSONConvertSpec
import Verif.Proofs.JSONClass
import Verif.Props.JSONNum
/-
C95: numbers in a JSON text are converted to the types of the fields.
-/
namespace Clr.JSON

theorem decimal_digits {ds : Bytes} (h : Decimal ds) : Digits ds := by
  refine ⟨h.1, fun b hb => ?_⟩
  have := h.2 b hb
  simp [digitByte, this]

theorem hexadecimal_digits {ds : Bytes} (h : Hexadecimal ds) : ∀ b ∈ ds, isHexDigit b = true := fun b hb => (hex_byte b (h.2 b hb)).1

/-- The token of a number: what the parser makes of it. -/
def TokSays (t : Tok) : Given → Prop
  | .int v => (t.type = .integer ∧ int64Of t.bits = v) ∨ (t.type = .true ∧ v = 1) ∨ (t.type = .false ∧ v = 0) ∨ (t.type = .null ∧ v = 0)
  | .dec b => t.type = .decimal ∧ t.bits = b

/-- A token that is the same whatever comes next is the one of an example. -/
theorem reads_of {f : Bytes → UInt64} {s : Bytes} {t : Tok} (h : ∀ (b : UInt8) (r : Bytes), isDelim b = true → Reads f (s ++ b :: r) t (b :: r))
    {tok : Tok} {c' : Ctx} (hc : nextToken f { rest := s ++ 44 :: [] } = .ok (tok, c')) : t = tok := by
  obtain ⟨c1, h1, -⟩ := h 44 [] (by decide) { rest := s ++ 44 :: [] } rfl rfl
  rw [h1] at hc
  cases hc
  rfl

theorem valid_of_type {t : Tok} {ty : TokType} (h : t.type = ty) (hn : ty ≠ .none) : t.isValid = true := by
  subst h
  simp [Tok.isValid, hn]

theorem objOf_first (f : Bytes → UInt64) {text : Bytes} {ms : List (Bytes × Bytes)} (h : ObjOf text ms) (hne : ms ≠ []) (q : Bytes) :
    ∃ t r, Reads f (text ++ q) t r ∧ t.type ≠ .rbrace := by
  cases h with
  | nil => exact absurd rfl hne
  | @one w k x y v z hw hk hx hy hv hz =>
    have h := reads_ws hw (reads_string f hk (x ++ 58 :: (y ++ (v ++ z)) ++ q))
    exact ⟨_, _, by simpa using h, by simp⟩
  | @more w k x y v z r m ms hw hk hx hy hv hz hr =>
    have h := reads_ws hw (reads_string f hk (x ++ 58 :: (y ++ (v ++ (z ++ 44 :: r))) ++ q))
    exact ⟨_, _, by simpa using h, by simp⟩

theorem comma_follows : MayFollow 44 := by simp [MayFollow]

theorem toNat_int64 {b : UInt64} {n : Nat} (h : b.toNat = n % 2 ^ 64) (hn : n < 2 ^ 63) : int64Of b = n := by
  unfold int64Of signedOf
  have : b.toNat = n := by omega
  rw [this, if_pos (by omega)]

theorem says_reads {fl : Floats} {v : Bytes} {g : Given} (h : Says fl v g) :
    ∃ t : Tok, TokSays t g ∧ ∀ (b : UInt8) (r : Bytes), isDelim b = true → Reads fl.strtod (v ++ b :: r) t (b :: r) := by
  cases h with
  | nat h hlt =>
    obtain ⟨t, -, ht⟩ := reads_number_uniform fl.strtod (JNum.int (decimal_digits h))
    obtain ⟨tok, c', h1, h2, h3, -⟩ := C60_decimal fl.strtod { rest := v ++ 44 :: [] } [] v (by simp) h 44 comma_follows [] (by simp)
    cases reads_of ht h1
    exact ⟨_, .inl ⟨h2, toNat_int64 h3 hlt⟩, ht⟩
  | @neg ds h hlt =>
    obtain ⟨t, -, ht⟩ := reads_number_uniform fl.strtod (JNum.neg (decimal_digits h))
    obtain ⟨tok, c', h1, h2, h3, -⟩ := C60_negative fl.strtod { rest := (45 :: ds) ++ 44 :: [] } [] ds (by simp) h 44 comma_follows [] (by simp)
    cases reads_of ht h1
    refine ⟨_, .inl ⟨h2, ?_⟩, ht⟩
    unfold int64Of signedOf
    have := t.bits.toNat_lt
    split <;> omega
  | @hex ds h hlt =>
    obtain ⟨t, -, ht⟩ := reads_number_uniform fl.strtod (JNum.hex (.inr rfl) h.1 (hexadecimal_digits h))
    obtain ⟨tok, c', h1, h2, h3, -⟩ := C60_hex fl.strtod { rest := (48 :: 120 :: ds) ++ 44 :: [] } [] ds (by simp) h 44 comma_follows [] (by simp)
    cases reads_of ht h1
    refine ⟨_, .inl ⟨h2, ?_⟩, ht⟩
    rw [Nat.mod_eq_of_lt hlt] at h3
    unfold int64Of signedOf
    rw [h3]
    split <;> omega
  | @dec ds s h hf =>
    have hne : s ≠ [] := by cases hf with
      | frac => simp
      | exp h => cases h <;> simp
      | both => simp
    obtain ⟨t, -, hd, ht⟩ := reads_signed fl.strtod false ds s (decimal_digits h) (.inr hf)
    refine ⟨t, ?_, fun b r hb => ?_⟩
    · have := hd hne; simpa [TokSays] using this
    · have := ht b r hb; simpa using this
  | @negDec ds s h hf =>
    have hne : s ≠ [] := by cases hf with
      | frac => simp
      | exp h => cases h <;> simp
      | both => simp
    obtain ⟨t, -, hd, ht⟩ := reads_signed fl.strtod true ds s (decimal_digits h) (.inr hf)
    refine ⟨t, ?_, fun b r hb => ?_⟩
    · have := hd hne; simpa [TokSays] using this
    · have := ht b r hb; simpa using this
  | @bits ds h hlt =>
    obtain ⟨t, -, ht⟩ := reads_number_uniform fl.strtod (JNum.hex (.inl rfl) h.1 (hexadecimal_digits h))
    obtain ⟨tok, c', h1, h2, h3, -⟩ := C60_double_bits fl.strtod { rest := (48 :: 100 :: ds) ++ 44 :: [] } [] ds (by simp) h 44 comma_follows [] (by simp)
    cases reads_of ht h1
    refine ⟨_, ⟨h2, ?_⟩, ht⟩
    apply UInt64.toNat_inj.1
    rw [h3, UInt64.toNat_ofNat']
  | tru => exact ⟨_, .inr (.inl ⟨rfl, rfl⟩), fun b r _ => reads_keyword _ 116 b!"rue" .true (by simp) (b :: r)⟩
  | fls => exact ⟨_, .inr (.inr (.inl ⟨rfl, rfl⟩)), fun b r _ => reads_keyword _ 102 b!"alse" .false (by simp) (b :: r)⟩
  | null => exact ⟨_, .inr (.inr (.inr ⟨rfl, rfl⟩)), fun b r _ => reads_keyword _ 110 b!"ull" .null (by simp) (b :: r)⟩

theorem intBytes_eq {w : Nat} {v : Int} {bs : Bytes} (h : IntBytes w v bs) : bs = le w (wrapTo w v) := by
  have : unle bs = wrapTo w v := by
    have h2 := h.2
    unfold wrapTo
    omega
  rw [← this, ← h.1, le_unle]

theorem converts_int {fl : Floats} {k : Num} {v : Int} {bs : Bytes} (h : Converts fl k (.int v) bs) : storeInt fl k v = bs := by
  cases h with
  | boolInt => by_cases hv : v = 0 <;> simp [storeInt, hv]
  | whole hk _ hb => rw [intBytes_eq hb]; cases hk <;> rfl
  | floatInt => rfl
  | doubleInt => rfl

theorem converts_dec {fl : Floats} {k : Num} {b : UInt64} {bs : Bytes} (h : Converts fl k (.dec b) bs) : storeDec fl k b = .ok bs := by
  cases h with
  | boolDec => rfl
  | @wholeDec k w lo hi hk b v hv hlo hhi bs hb =>
    rw [intBytes_eq hb]
    cases hk <;> simp [storeDec, castInt, hv, hlo, hhi]
  | floatDec => rfl
  | doubleDec => rfl

/-- The memory after a number has been parsed into a field. -/
inductive Puts (e : Env) (t : Ty) (a : Nat) (m : Mem) : Bool → Given → Mem → Prop
  | num {n : Num} {g : Given} {bs : Bytes} (hd : dispatch e.lut t.hash = some n) (hb : Converts e.fl n g bs) : Puts e t a m false g (m.write a bs)
  | ptr {i : Int} {bs : Bytes} (hb : IntBytes 4 i bs) : Puts e t a m true (.int i) (m.write a bs)

theorem puts_int {e : Env} {t : Ty} {a : Nat} {m m' : Mem} {p : Bool} {v : Int} {tok : Tok} (hv : tok.isValid = true)
    (h : Puts e t a m p (.int v) m') : loadInteger e m tok v (some (t, a)) p = m' := by
  unfold loadInteger
  rw [if_pos hv]
  cases h with
  | num hd hb => simp [hd, converts_int hb]
  | ptr hb => simp [intBytes_eq hb]

theorem value_puts {e : Env} {v q : Bytes} {g : Given} (hs : Says e.fl v g) (hq : Tail e q) {st : St} (hat : At e (v ++ q) st) {n : Nat} {t : Ty} {a : Nat}
    {p : Bool} {arr : Option Nat} {m' : Mem} (hp : Puts e t a st.m p g m') :
    ∃ st', parseValue e (n + 1) st (some (t, a)) p arr = .ok st' ∧ At e q st' ∧ st'.m = m' := by
  obtain ⟨tok, htok, hr⟩ := says_reads hs
  obtain ⟨b, r, rfl, hb⟩ := hq.delim
  have hr := hr b r hb
  obtain ⟨h1, -, -⟩ := hat.tok hr
  rw [parseValue, h1]
  cases g with
  | int i =>
    have fin : ∀ {ty : TokType}, tok.type = ty → ty ≠ .none → ∃ st' , expect e st ty = .ok (tok, st') ∧ At e (b :: r) st' ∧ st'.m = st.m ∧ tok.isValid = true := by
      intro ty hty hne
      obtain ⟨st', e1, a1, m1⟩ := expect_at hat hr hty hq.good
      exact ⟨st', e1, a1, m1, valid_of_type hty hne⟩
    rcases htok with ⟨ht, hi⟩ | ⟨ht, rfl⟩ | ⟨ht, rfl⟩ | ⟨ht, rfl⟩
    all_goals
      rw [ht]
      obtain ⟨st', e1, a1, m1, hv⟩ := fin ht (by simp)
      dsimp only
      rw [e1]
      simp only [Out.bind_ok]
      refine ⟨_, rfl, a1.setMem _, ?_⟩
      dsimp only
      rw [m1]
    · rw [hi]; exact puts_int hv hp
    · exact puts_int hv hp
    · exact puts_int hv hp
    · exact puts_int hv hp
  | dec bits =>
    obtain ⟨ht, hi⟩ := htok
    rw [ht]
    obtain ⟨st', e1, a1, m1⟩ := expect_at hat hr ht hq.good
    dsimp only
    rw [e1]
    simp only [Out.bind_ok]
    cases hp with
    | @num n g bs hd hb =>
      have : loadDecimal e st'.m tok (some (t, a)) = .ok (st.m.write a bs) := by
        unfold loadDecimal
        rw [if_pos (valid_of_type ht (by simp))]
        dsimp only
        rw [hd, hi]
        dsimp only
        rw [converts_dec hb, m1]
        rfl
      rw [this]
      exact ⟨_, rfl, a1.setMem _, rfl⟩

/-- What `ParserPair` does for a member that is a number. -/
inductive Member (e : Env) (ct : Ty) (a : Nat) (k v : Bytes) (m : Mem) : Mem → Prop
  | known {x : FldInfo × Ty} {g : Given} {m' : Mem} (hf : findField (Hash.hashText k) ct = some x) (hs : e.skips x.1.flags = false) (hv : Says e.fl v g)
      (hp : Puts e x.2 (a + x.1.offset) m x.1.isPtr g m') : Member e ct a k v m m'
  | unknown (hf : ∀ f t, findField (Hash.hashText k) ct = some (f, t) → e.skips f.flags = true) : Member e ct a k v m m

theorem pair_puts {e : Env} {hh : BitVec 32} {size : Nat} {cfl : BitVec 32} {fs : Flds} {bs : Tys} {a : Nat}
    {w k x y v z : Bytes} (hw : Ws w) (hk : JStr k) (hx : Ws x) (hy : Ws y) (hv : JVal v) (hz : Ws z)
    {q : Bytes} (hq : Tail e q) {st : St} (hat : At e (w ++ (34 :: (k ++ 34 :: (x ++ 58 :: (y ++ (v ++ (z ++ q))))))) st)
    {n : Nat} (hn : v.length ≤ n) {m' : Mem} (hm : Member e (.cls hh size cfl fs bs) a k v st.m m') :
    ∃ st', parsePair e (parseValue e n) st (some (.cls hh size cfl fs bs, a)) = .ok st' ∧ At e q st' ∧ st'.m = m' := by
  have hq' : Tail e (z ++ q) := hq.ws hz
  have hgv : Good e.fl.strtod (y ++ (v ++ (z ++ q))) := good_ws hy (hv.good hq')
  obtain ⟨st1, e1, a1, m1⟩ := expect_at hat (reads_ws hw (reads_string _ hk _)) rfl
    (good_ws hx (good_structural _ (by decide) _))
  obtain ⟨st2, e2, a2, m2⟩ := expect_at a1 (reads_ws hx (reads_structural _ (b := 58) (ty := .colon) rfl _)) rfl hgv
  have a3 := (at_ws hy (hv.good hq')).1 a2
  rw [parsePair, e1]
  simp only [Out.bind_ok]
  rw [e2]
  simp only [Out.bind_ok]
  simp only [Tok.isValid, show (TokType.string != TokType.none) = true from rfl,
    show (TokType.colon != TokType.none) = true from rfl, Bool.not_true, Bool.false_eq_true, if_false]
  cases hm with
  | @known x' g m' hf hs hsay hp =>
    obtain ⟨n, rfl⟩ : ∃ j, n = j + 1 := ⟨n - 1, by have := hv.ne_nil; omega⟩
    have hmem : memberOf e (some (.cls hh size cfl fs bs, a)) k = some (x'.1, x'.2, a + x'.1.offset) := by
      simp only [memberOf, hf, hs, Bool.false_eq_true, if_false]
    rw [hmem]
    rw [← m1, ← m2] at hp
    obtain ⟨st3, e3, a4, m3⟩ := value_puts (n := n) (arr := x'.1.count) hsay hq' a3 hp
    exact ⟨st3, e3, (at_ws hz hq.good).1 a4, m3⟩
  | unknown hf =>
    have hmem : memberOf e (some (.cls hh size cfl fs bs, a)) k = none := by
      simp only [memberOf]
      split
      · rename_i f t hft
        rw [if_pos (hf f t hft)]
      · rfl
    rw [hmem]
    obtain ⟨st3, e3, a5, m3⟩ := skip_value hv hq' a3 (n := n) hn false none
    exact ⟨st3, e3, (at_ws hz hq.good).1 a5, by rw [m3, m2, m1]⟩

/-- Members one after the other. -/
inductive Puts' (e : Env) (ct : Ty) (a : Nat) : List (Bytes × Bytes) → Mem → Mem → Prop
  | nil (m : Mem) : Puts' e ct a [] m m
  | cons {k v : Bytes} {ms : List (Bytes × Bytes)} {m m1 m' : Mem} (h : Member e ct a k v m m1) (hr : Puts' e ct a ms m1 m') :
      Puts' e ct a ((k, v) :: ms) m m'

theorem members_put {e : Env} {hh : BitVec 32} {size : Nat} {cfl : BitVec 32} {fs : Flds} {bs : Tys} {a : Nat} {text : Bytes}
    {ms : List (Bytes × Bytes)} (h : ObjOf text ms) (hne : ms ≠ []) :
    ∀ {q : Bytes} {st : St} {n n' : Nat} {m' : Mem}, At e (text ++ 125 :: q) st → text.length ≤ n → text.length ≤ n' →
      Puts' e (.cls hh size cfl fs bs) a ms st.m m' →
      ∃ st', parseMembers e (parseValue e n) n' st (some (.cls hh size cfl fs bs, a)) = .ok st' ∧ At e (125 :: q) st' ∧ st'.m = m' := by
  induction h with
  | nil => exact absurd rfl hne
  | @one w k x y v z hw hk hx hy hv hz =>
    intro q st n n' m' hat hn hn' hp
    simp at hn hn'
    obtain ⟨n', rfl⟩ : ∃ j, n' = j + 1 := ⟨n' - 1, by omega⟩
    cases hp with
    | cons hm hr =>
      cases hr
      obtain ⟨st1, e1, a1, m1⟩ := pair_puts hw hk hx hy hv hz (Tail.structural e (b := 125) (by decide) q) (by simpa using hat) (n := n) (by omega) hm
      obtain ⟨t1, -, -⟩ := a1.tok (reads_structural _ (b := 125) (ty := .rbrace) rfl q)
      refine ⟨st1, ?_, a1, m1⟩
      rw [parseMembers, e1]
      simp [t1]
  | @more w k x y v z r m ms hw hk hx hy hv hz hr ih =>
    intro q st n n' m' hat hn hn' hp
    simp at hn hn'
    obtain ⟨n', rfl⟩ : ∃ j, n' = j + 1 := ⟨n' - 1, by omega⟩
    cases hp with
    | cons hm hrest =>
      obtain ⟨st1, e1, a1, m1⟩ := pair_puts hw hk hx hy hv hz (Tail.structural e (b := 44) (by decide) (r ++ 125 :: q)) (by simpa using hat)
        (n := n) (by omega) hm
      obtain ⟨t1, t2, t3⟩ := a1.tok (reads_structural _ (b := 44) (ty := .comma) rfl (r ++ 125 :: q))
      have hg : Good e.fl.strtod (r ++ 125 :: q) := by
        obtain ⟨t, r', h, -⟩ := objOf_first e.fl.strtod hr (by simp) (125 :: q)
        exact ⟨t, r', h⟩
      obtain ⟨st2, e2, a2, m2⟩ := nextTok_at t2 t3 hg
      rw [← m1, ← m2] at hrest
      obtain ⟨st3, e3, a3, m3⟩ := ih (by simp) (q := q) (n := n) (n' := n') a2 (by omega) (by omega) hrest
      refine ⟨st3, ?_, a3, m3⟩
      rw [parseMembers, e1]
      simp only [Out.bind_ok, t1, if_true]
      rw [e2]
      simp only [Out.bind_ok]
      exact e3

theorem object_put {e : Env} {hh : BitVec 32} {size : Nat} {cfl : BitVec 32} {fs : Flds} {bs : Tys} {a : Nat} {text : Bytes}
    {ms : List (Bytes × Bytes)} (h : ObjOf text ms) {w q : Bytes} (hw : Ws w) {m m' : Mem} (hp : Puts' e (.cls hh size cfl fs bs) a ms m m') :
    ∃ err, loadJSON e (w ++ 123 :: (text ++ 125 :: q)) m (.cls hh size cfl fs bs) a = .ok (err, m') ∧ err.code = .none := by
  have hr := reads_structural e.fl.strtod (b := 123) (ty := .lbrace) rfl (text ++ 125 :: q)
  have hr2 := reads_structural e.fl.strtod (b := 125) (ty := .rbrace) rfl q
  obtain ⟨st0, e0, a0, m0⟩ := nextTok_at (e := e) (st := { t := {}, c := { rest := w ++ 123 :: (text ++ 125 :: q) }, m := m }) rfl rfl
    (good_ws hw ⟨_, _, hr⟩)
  have a0 := (at_ws hw ⟨_, _, hr⟩).1 a0
  have m0 : st0.m = m := m0
  unfold loadJSON
  rw [e0]
  simp only [Out.bind_ok]
  have hfuel : fuelFor (w ++ 123 :: (text ++ 125 :: q)) = (fuelFor (w ++ 123 :: (text ++ 125 :: q)) - 1) + 1 := by unfold fuelFor; omega
  rw [hfuel]
  have hlen : text.length ≤ fuelFor (w ++ 123 :: (text ++ 125 :: q)) - 1 := by unfold fuelFor; simp; omega
  generalize fuelFor (w ++ 123 :: (text ++ 125 :: q)) - 1 = N at hlen
  suffices hs : ∃ st', parseObject e (N + 1) st0 (some (.cls hh size cfl fs bs, a)) = .ok st' ∧ At e (125 :: q) st' ∧ st'.m = m' by
    obtain ⟨st', e1, a1, m1⟩ := hs
    rw [e1]
    simp only [Out.bind_ok]
    obtain ⟨-, -, he⟩ := a1.tok hr2
    exact ⟨_, by rw [m1], he⟩
  by_cases hne : ms = []
  · subst hne
    cases hp
    cases h with
    | nil hw' =>
      obtain ⟨st1, e1, a1, m1⟩ := expect_at a0 hr rfl (good_ws hw' (good_structural _ (by decide) q))
      obtain ⟨t1, -, -⟩ := a1.tok (reads_ws hw' hr2)
      refine ⟨st1, ?_, (at_ws hw' ⟨_, _, hr2⟩).1 a1, by rw [m1, m0]⟩
      rw [parseObject, e1]
      simp [t1, Tok.isValid]
  · obtain ⟨tf, rf, hf, hft⟩ := objOf_first e.fl.strtod h hne (125 :: q)
    obtain ⟨st1, e1, a1, m1⟩ := expect_at a0 hr rfl ⟨tf, rf, hf⟩
    obtain ⟨t1, -, -⟩ := a1.tok hf
    rw [← m0, ← m1] at hp
    obtain ⟨st2, e2, a2, m2⟩ := members_put h hne (q := q) (n := N) (n' := N + 1) a1 hlen (by omega) hp
    refine ⟨st2, ?_, a2, m2⟩
    rw [parseObject, e1]
    simp only [Out.bind_ok, t1, hft, if_false, Tok.isValid, show (TokType.lbrace != TokType.none) = true from rfl,
      Bool.not_true, Bool.false_eq_true, Ty.isContainer]
    exact e2

end Clr.JSON
