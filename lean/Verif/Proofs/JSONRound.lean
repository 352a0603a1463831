import Verif.Proofs.JSONMem
import Verif.Proofs.JSONOrder
import Verif.Proofs.JSONSkip

/-! Saved text is loaded back. -/
namespace Clr.JSON

/-! ### Numbers -/

theorem digits_map (ds : List Nat) (hne : ds ≠ []) (h : ∀ d ∈ ds, d < 10) : Digits (ds.map digitChar) := by
  refine ⟨by simpa using hne, fun b hb => ?_⟩
  obtain ⟨d, hd, rfl⟩ := List.mem_map.1 hb
  exact (digit_facts d (h d hd)).1

theorem saveInteger_jnum {v : Int} {text : Bytes} (h : saveInteger v = .ok text) : JNum text := by
  have key : ∀ (n : Nat) (t : Bytes), radixLoop 19 10 n [] = .ok t → Digits t := by
    intro n t hr
    by_cases hn : n < 10 ^ 19
    · obtain ⟨ds, hd, hne, hds, -⟩ := radixLoop_ok 19 10 n [] (by omega) (by simp) (by simpa using hn)
      rw [hd] at hr
      cases hr
      simpa using digits_map ds hne hds
    · rw [radixLoop_ub 19 10 n [] (by omega) (by simp at hn ⊢; omega)] at hr
      cases hr
  unfold saveInteger at h
  split at h
  · split at h
    · cases h
    · obtain ⟨t, h1, h2⟩ := Res.bind_eq_ok.1 h
      unfold pushChar at h2
      split at h2
      · cases h2
        exact .neg (key _ _ h1)
      · cases h2
  · exact .int (key _ _ h)

theorem saveUnsigned_jnum {v : Nat} {text : Bytes} (h : saveUnsigned v = .ok text) : JNum text := by
  unfold saveUnsigned at h
  by_cases hn : v < 10 ^ 20
  · obtain ⟨ds, hd, hne, hds, -⟩ := radixLoop_ok 20 10 v [] (by omega) (by simp) (by simpa using hn)
    rw [hd] at h
    cases h
    simpa using JNum.int (digits_map ds hne hds)
  · rw [radixLoop_ub 20 10 v [] (by omega) (by simp at hn ⊢; omega)] at h
    cases h

theorem saveHex_digits {v : Nat} {text : Bytes} (h : saveHex v = .ok text) :
    text ≠ [] ∧ ∀ b ∈ text, isHexDigit b = true := by
  unfold saveHex at h
  by_cases hn : v < 16 ^ 20
  · obtain ⟨ds, hd, hne, hds, -⟩ := radixLoop_ok 20 16 v [] (by omega) (by simp) (by simpa using hn)
    rw [hd] at h
    cases h
    refine ⟨by simpa using hne, fun b hb => ?_⟩
    obtain ⟨d, hd, rfl⟩ := List.mem_map.1 (by simpa using hb)
    exact (hex_facts d (hds d hd)).1
  · rw [radixLoop_ub 20 16 v [] (by omega) (by simp at hn ⊢; omega)] at h
    cases h

theorem saveNum_jnum {fl : Floats} {hex : Bool} {k : Num} {obj text : Bytes} (hk : NumOk fl hex k)
    (h : saveNum fl hex k obj = .ok text) : JNum text := by
  have hdec : ∀ bits, hex = true → saveDecimal fl hex bits = .ok text → JNum text := by
    intro bits hx hd
    unfold saveDecimal at hd
    rw [if_pos hx] at hd
    obtain ⟨t, h1, h2⟩ := Res.bind_eq_ok.1 hd
    cases h2
    obtain ⟨a1, a2⟩ := saveHex_digits h1
    exact .hex (.inl rfl) a1 a2
  cases k with
  | bool =>
    simp only [saveNum] at h
    split at h
    · exact saveInteger_jnum h
    · cases h
  | int w => exact saveInteger_jnum h
  | nat w s => exact saveUnsigned_jnum h
  | hex w =>
    simp only [saveNum] at h
    obtain ⟨t, h1, h2⟩ := Res.bind_eq_ok.1 h
    cases h2
    obtain ⟨a1, a2⟩ := saveHex_digits h1
    exact .hex (.inr rfl) a1 a2
  | float =>
    refine hdec _ ?_ h
    rcases hk with hk | hk
    · exact absurd hk (by simp [Num.Integer])
    · exact hk.1
  | double =>
    refine hdec _ ?_ h
    rcases hk with hk | hk
    · exact absurd hk (by simp [Num.Integer])
    · exact hk.1

/-- A number is saved as a text that is lexed as a number whose loading gives the same bytes. -/
theorem num_round_trip (fl : Floats) (hex : Bool) (k : Num) (hk : NumOk fl hex k) (obj : Bytes)
    (hlen : obj.length = k.size) (hs : NumSavable k obj) :
    ∃ text, saveNum fl hex k obj = .ok text ∧ JNum text ∧
      ∀ (f : Bytes → UInt64) (b : UInt8) (r : Bytes), isDelim b = true →
        ∃ t, Reads f (text ++ b :: r) t (b :: r) ∧
          ((t.type = .integer ∧ storeInt fl k (int64Of t.bits) = obj) ∨
           (t.type = .decimal ∧ storeDec fl k t.bits = .ok obj)) := by
  have key : ∃ text, saveNum fl hex k obj = .ok text ∧
      ∀ (f : Bytes → UInt64) (c : Ctx) (b : UInt8) (r : Bytes), isDelim b = true → c.rest = text ++ b :: r →
        ∃ t c', nextToken f c = .ok (t, c') ∧
          ((t.type = .integer ∧ storeInt fl k (int64Of t.bits) = obj) ∨
           (t.type = .decimal ∧ storeDec fl k t.bits = .ok obj)) := by
    rcases hk with hk | ⟨rfl, rfl | ⟨rfl, hi⟩⟩
    · obtain ⟨text, h1, h2⟩ := C28_object_round_trip_partial fl hex k hk obj hlen hs.1
      refine ⟨text, h1, fun f c b r hb hc => ?_⟩
      obtain ⟨bits, h3, h4⟩ := h2 f c b r hb hc
      exact ⟨_, _, h3, .inl ⟨rfl, h4⟩⟩
    · obtain ⟨text, h1, h2⟩ := C29_double_round_trip fl obj hlen
      refine ⟨text, h1, fun f c b r hb hc => ?_⟩
      obtain ⟨bits, h3, h4⟩ := h2 f c b r hb hc
      exact ⟨_, _, h3, .inr ⟨rfl, h4⟩⟩
    · obtain ⟨text, h1, h2⟩ := C29_float_round_trip fl obj hlen
      refine ⟨text, h1, fun f c b r hb hc => ?_⟩
      obtain ⟨bits, h3, -, h4⟩ := h2 f c b r hb hc
      exact ⟨_, _, h3, .inr ⟨rfl, h4 hi (hs.2 rfl)⟩⟩
  obtain ⟨text, h1, h2⟩ := key
  have hj := saveNum_jnum hk h1
  refine ⟨text, h1, hj, fun f b r hb => ?_⟩
  obtain ⟨t, -, hr⟩ := reads_number f hj b r hb
  refine ⟨t, hr, ?_⟩
  obtain ⟨c', e1, -, -⟩ := hr { rest := text ++ b :: r } rfl rfl
  obtain ⟨t', c'', e2, h3⟩ := h2 f { rest := text ++ b :: r } b r hb rfl
  rw [e1] at e2
  have := Res.ok.inj e2
  simp only [Prod.mk.injEq] at this
  rw [this.1]
  exact h3

/-! ### What is to be shown of each type -/

/-- A value with white space around it. -/
def Padded (text : Bytes) : Prop := ∃ w v x, text = w ++ (v ++ x) ∧ Ws w ∧ JVal v ∧ Ws x

/-- The memory taken into use between two moments. -/
def Fresh (m m' : Mem) (x : Nat) : Prop := m.next ≤ x ∧ x < m'.next

/-- The text is a value and loading it into an object gives the values of the object at `a`. -/
def Loads (e : Env) (text : Bytes) (count : Option Nat) (t : Ty) (m : Mem) (a : Nat) : Prop :=
  Padded text ∧
  ∀ (q : Bytes), Tail e q → ∀ (st : St) (b n : Nat), At e (text ++ q) st → text.length ≤ n →
    b + cellSize count t ≤ st.m.next → Clear st.m b (cellSize count t) →
    ∃ st', parseValue e n st (some (t, b)) false count = .ok st' ∧ At e q st' ∧
      Effect st.m st'.m (CellTouched e count t b) ∧ CellSame e m st'.m (Fresh st.m st'.m) count t a b

/-- Saving succeeds and the text can be loaded. -/
def RT (e : Env) (o : Opts) (t : Ty) : Prop :=
  ∀ (m : Mem) (a indent : Nat), Savable e m t a → ∃ text, saveObj e o m t indent a = .ok text ∧ Loads e text none t m a

theorem Padded.good {e : Env} {text q : Bytes} (h : Padded text) (hq : Tail e q) : Good e.fl.strtod (text ++ q) := by
  obtain ⟨w, v, x, rfl, hw, hv, hx⟩ := h
  have := good_ws hw (hv.good (hq.ws hx))
  simpa using this

theorem Padded.pos {text : Bytes} (h : Padded text) : 1 ≤ text.length := by
  obtain ⟨w, v, x, rfl, hw, hv, hx⟩ := h
  have := hv.ne_nil
  simp; omega

theorem JVal.padded {v : Bytes} (h : JVal v) : Padded v := ⟨[], v, [], by simp, by simp [Ws], h, by simp [Ws]⟩

theorem cellSame_none {e : Env} {m m' : Mem} {R : Nat → Prop} {t : Ty} {a b : Nat} (h : Same e m m' R t a b) :
    CellSame e m m' R none t a b := ⟨fun _ => h, fun n hn => by simp at hn⟩

theorem cellTouched_none {e : Env} {t : Ty} {b x : Nat} : CellTouched e none t b x ↔ Touched e t b x := by
  simp [CellTouched]

/-! ### Numbers and enums -/

theorem rt_prim {e : Env} {o : Opts} {h : BitVec 32} {s : Nat} (hs : Supported e o (.prim h s)) : RT e o (.prim h s) := by
  rw [Supported] at hs
  obtain ⟨k, hk, hsz, hok⟩ := hs
  subst hsz
  intro m a indent hsav
  rw [Savable] at hsav
  obtain ⟨text, h1, h2, h3⟩ := num_round_trip e.fl o.hexFloats k hok (m.read a k.size) (read_length _ _ _) (hsav k hk)
  refine ⟨text, by simp only [saveObj, saveType, hk, h1], (JVal.num h2).padded, ?_⟩
  intro q hq st b n hat hn hb _
  obtain ⟨c, r, rfl, hc⟩ := hq.delim
  obtain ⟨t, hr, ht⟩ := h3 e.fl.strtod c r hc
  have hn1 := (JVal.num h2).ne_nil
  obtain ⟨n, rfl⟩ : ∃ j, n = j + 1 := ⟨n - 1, by omega⟩
  obtain ⟨ht1, -, -⟩ := hat.tok hr
  have heff : Effect st.m (st.m.write b (m.read a k.size)) (CellTouched e none (.prim h k.size) b) := by
    refine (effect_write st.m b (m.read a k.size)).mono fun x hx => ?_
    rw [cellTouched_none, Touched]
    rw [read_length] at hx
    exact hx
  have hsame : ∀ R, CellSame e m (st.m.write b (m.read a k.size)) R none (.prim h k.size) a b := by
    intro R
    apply cellSame_none
    rw [Same]
    have := read_write st.m b (m.read a k.size)
    rw [read_length] at this
    exact this
  rcases ht with ⟨hty, hst⟩ | ⟨hty, hst⟩
  · obtain ⟨st1, e1, a1, m1⟩ := expect_at hat hr hty hq.good
    refine ⟨{ st1 with m := st.m.write b (m.read a k.size) }, ?_, a1.setMem _, heff, hsame _⟩
    rw [parseValue, ht1, hty]
    simp only []
    rw [e1]
    simp only [Out.bind_ok, loadInteger, Tok.isValid, hty, Ty.hash, hk, m1, hst]
    simp
  · obtain ⟨st1, e1, a1, m1⟩ := expect_at hat hr hty hq.good
    refine ⟨{ st1 with m := st.m.write b (m.read a k.size) }, ?_, a1.setMem _, heff, hsame _⟩
    rw [parseValue, ht1, hty]
    simp only []
    rw [e1]
    simp only [Out.bind_ok, loadDecimal, Tok.isValid, hty, Ty.hash, hk, m1, hst]
    simp [Out.ofRes]

theorem rt_enum {e : Env} {o : Opts} {h : BitVec 32} {s : Nat} {cs : List Const} {fl : Bool}
    (hs : Supported e o (.enum h s cs fl)) : RT e o (.enum h s cs fl) := by
  rw [Supported] at hs
  obtain ⟨rfl, hn⟩ := hs
  intro m a indent hsav
  rw [Savable] at hsav
  obtain ⟨text, h1, h2, h3⟩ := enum_round_trip hn fl _ hsav
  have hjv : JVal (quote text) := .str h2
  refine ⟨quote text, by simp only [saveObj, h1], hjv.padded, ?_⟩
  intro q hq st b n hat hn hb _
  have hr : Reads e.fl.strtod (quote text ++ q) { type := .string, text := text } q := by
    have := reads_string e.fl.strtod h2 q
    simpa [quote] using this
  have hn1 := hjv.ne_nil
  obtain ⟨n, rfl⟩ : ∃ j, n = j + 1 := ⟨n - 1, by omega⟩
  obtain ⟨ht1, -, -⟩ := hat.tok hr
  obtain ⟨st1, e1, a1, m1⟩ := expect_at hat hr rfl hq.good
  have hlt := unle_lt (m.read a 4)
  rw [read_length] at hlt
  have hback := le_unle (m.read a 4)
  rw [read_length] at hback
  have hbytes : le 4 (BitVec.ofNat 32 (unle (m.read a 4))).toNat = m.read a 4 := by
    rw [BitVec.toNat_ofNat, Nat.mod_eq_of_lt (by simpa using hlt), hback]
  refine ⟨{ st1 with m := st.m.write b (m.read a 4) }, ?_, a1.setMem _, ?_, ?_⟩
  · rw [parseValue, ht1]
    simp only []
    rw [e1]
    simp only [Out.bind_ok, loadString, Tok.isValid, h3, m1, hbytes]
    simp
  · refine (effect_write st.m b (m.read a 4)).mono fun x hx => ?_
    rw [cellTouched_none, Touched]
    rw [read_length] at hx
    exact hx
  · apply cellSame_none
    rw [Same]
    have := read_write st.m b (m.read a 4)
    rw [read_length] at this
    exact this

/-! ### Elements -/

/-- Texts of elements: loading them into consecutive elements of a C array, or appending them to a container. -/
structure ElemsLoad (e : Env) (text : Bytes) (t : Ty) (m : Mem) (as : List Nat) : Prop where
  elems : JElems text
  array : ∀ (q : Bytes) (st : St) (n n' base limit pos : Nat), At e (text ++ 93 :: q) st → text.length ≤ n →
    text.length ≤ n' → pos + as.length * t.size ≤ limit → base + limit ≤ st.m.next →
    Clear st.m (base + pos) (as.length * t.size) →
    ∃ cnt st', parseElements e (parseValue e n) n' (some (.arr t false base limit pos)) st = .ok (cnt, st') ∧
      At e (93 :: q) st' ∧
      Effect st.m st'.m (fun x => ∃ i, i < as.length ∧ Touched e t (elemAt (base + pos) i t.size) x) ∧
      ∀ i, i < as.length → Same e m st'.m (Fresh st.m st'.m) t (as.getD i 0) (elemAt (base + pos) i t.size)
  cont : ∀ (q : Bytes) (st : St) (n n' addr : Nat), At e (text ++ 93 :: q) st → text.length ≤ n →
    text.length ≤ n' → addr < st.m.next →
    ∃ cnt st' news, parseElements e (parseValue e n) n' (some (.cont t false addr)) st = .ok (cnt, st') ∧
      At e (93 :: q) st' ∧ Effect st.m st'.m (fun x => x = addr) ∧
      st'.m.elems addr = st.m.elems addr ++ news ∧ news.length = as.length ∧
      ∀ i, i < as.length →
        (∀ x, (news.getD i (0, 0)).2 ≤ x → x < (news.getD i (0, 0)).2 + t.size → Fresh st.m st'.m x) ∧
        Same e m st'.m (Fresh st.m st'.m) t (as.getD i 0) (news.getD i (0, 0)).2

theorem Padded.jelems {text : Bytes} (h : Padded text) : JElems text := by
  obtain ⟨w, v, x, rfl, hw, hv, hx⟩ := h
  exact .one hw hv hx

theorem Padded.jelems_more {text r : Bytes} (h : Padded text) (hr : JElems r) : JElems (text ++ 44 :: r) := by
  obtain ⟨w, v, x, rfl, hw, hv, hx⟩ := h
  have := JElems.more hw hv hx hr
  simpa using this

theorem JElems.pos {s : Bytes} (h : JElems s) : 1 ≤ s.length := by
  cases h with
  | one hw hv hx => have := hv.ne_nil; simp; omega
  | more hw hv hx hr => simp; omega

/-- One step of the parser for the elements of a C array: the element, without what follows it. -/
theorem array_step {e : Env} {o : Opts} {text : Bytes} {t : Ty} {m : Mem} {a : Nat} (hs : Supported e o t) (hpos : 0 < t.size)
    (hl : Loads e text none t m a) {q : Bytes} (hq : Tail e q) {st : St} (n n' base limit pos : Nat)
    (hat : At e (text ++ q) st) (hn : text.length ≤ n) (hlim : pos + t.size ≤ limit) (hnext : base + limit ≤ st.m.next)
    (hclear : Clear st.m (base + pos) t.size) :
    ∃ st', (parseElements e (parseValue e n) (n' + 1) (some (.arr t false base limit pos)) st =
        if st'.t.type ≠ .comma then .ok (1, st')
        else do
          let s ← nextTok e st'
          let r ← parseElements e (parseValue e n) n' (some (.arr t false base limit (pos + t.size))) s
          .ok (r.1 + 1, r.2)) ∧
      At e q st' ∧ Effect st.m st'.m (Touched e t (base + pos)) ∧
      Same e m st'.m (Fresh st.m st'.m) t a (base + pos) := by
  obtain ⟨st', e1, a1, ef, sm⟩ := hl.2 q hq st (base + pos) n hat hn (by simp only [cellSize]; omega) hclear
  refine ⟨st', ?_, a1, ef.mono (fun x hx => cellTouched_none.1 hx), sm.1 rfl⟩
  rw [parseElements]
  simp only [Writer.addEmpty]
  rw [if_pos (by omega)]
  simp only [Out.bind_ok, Writer.elem]
  rw [show ({ t := st.t, c := st.c, m := st.m } : St) = st from rfl, e1]
  simp only [Out.bind_ok, strideOf, Bool.false_eq_true, if_false]

/-- One step of the parser for the elements of a container. -/
theorem cont_step {e : Env} {o : Opts} {text : Bytes} {t : Ty} {m : Mem} {a : Nat} (hs : Supported e o t)
    (hl : Loads e text none t m a) {q : Bytes} (hq : Tail e q) {st : St} (n n' addr : Nat)
    (hat : At e (text ++ q) st) (hn : text.length ≤ n) (haddr : addr < st.m.next) :
    ∃ st', (parseElements e (parseValue e n) (n' + 1) (some (.cont t false addr)) st =
        if st'.t.type ≠ .comma then .ok (1, st')
        else do
          let s ← nextTok e st'
          let r ← parseElements e (parseValue e n) n' (some (.cont t false addr)) s
          .ok (r.1 + 1, r.2)) ∧
      At e q st' ∧ Effect st.m st'.m (fun x => x = addr) ∧
      st'.m.elems addr = st.m.elems addr ++ [(0, st.m.next)] ∧ st.m.next + t.size ≤ st'.m.next ∧
      Same e m st'.m (Fresh st.m st'.m) t a st.m.next := by
  let m1 : Mem := (st.m.alloc t.size).2.setElems addr (st.m.elems addr ++ [(0, st.m.next)])
  have hn1 : m1.next = st.m.next + t.size := rfl
  have hb1 : ∀ x, m1.byte x = st.m.byte x := fun x => rfl
  have he1 : ∀ x, x < st.m.next → x ≠ addr → m1.elems x = st.m.elems x := by
    intro x hx hne
    simp only [m1, Mem.setElems, Mem.alloc]
    rw [if_neg hne, if_neg (by omega)]
  have heA : m1.elems addr = st.m.elems addr ++ [(0, st.m.next)] := by simp [m1, Mem.setElems]
  have hclear : Clear m1 st.m.next t.size := by
    intro x h1 h2
    simp only [m1, Mem.setElems, Mem.alloc]
    rw [if_neg (by omega), if_pos ⟨h1, h2⟩]
  obtain ⟨st', e1, a1, ef, sm⟩ := hl.2 q hq { st with m := m1 } st.m.next n (hat.setMem m1) hn
    (by simp only [cellSize]; omega) (by simpa [cellSize] using hclear)
  have htw : ∀ x, CellTouched e none t st.m.next x → st.m.next ≤ x := fun x hx =>
    (touched_within t hs _ _ (cellTouched_none.1 hx)).1
  have hnx := ef.next
  simp only [hn1] at hnx
  refine ⟨st', ?_, a1, ⟨by omega, ?_, ?_⟩, ?_, hnx, ?_⟩
  · rw [parseElements]
    simp only [Writer.addEmpty, Out.bind_ok, Writer.elem, strideOf, Bool.false_eq_true, if_false]
    rw [show ({ t := st.t, c := st.c, m := (st.m.alloc t.size).2.setElems addr (st.m.elems addr ++ [(0, (st.m.alloc t.size).1)]) } : St)
      = { st with m := m1 } from rfl, show (st.m.alloc t.size).1 = st.m.next from rfl, e1]
    simp only [Out.bind_ok]
  · intro x hx hne
    rw [ef.byte x (by simp only [hn1]; omega) (fun hh => by have := htw x hh; omega)]
    exact hb1 x
  · intro x hx hne
    rw [ef.elems x (by simp only [hn1]; omega) (fun hh => by have := htw x hh; omega)]
    exact he1 x hx hne
  · rw [ef.elems addr (by simp only [hn1]; omega) (fun hh => by have := htw addr hh; omega)]
    exact heA
  · refine same_congr t hs (sm.1 rfl) (fun x hx => ?_) (fun x _ => ⟨rfl, rfl⟩)
    simp only [Fresh, hn1] at hx
    exact ⟨by omega, hx.2⟩

theorem elems_one {e : Env} {o : Opts} {text : Bytes} {t : Ty} {m : Mem} {a : Nat} (hs : Supported e o t) (hpos : 0 < t.size)
    (hl : Loads e text none t m a) : ElemsLoad e text t m [a] := by
  refine ⟨hl.1.jelems, ?_, ?_⟩
  · intro q st n n' base limit pos hat hn hn' hlim hnext hclear
    have h1 := hl.1.pos
    obtain ⟨n', rfl⟩ : ∃ j, n' = j + 1 := ⟨n' - 1, by omega⟩
    obtain ⟨st', e1, a1, ef, sm⟩ := array_step hs hpos hl (Tail.structural e (by decide) q) n n' base limit pos hat hn
      (by simpa using hlim) hnext (by simpa using hclear)
    obtain ⟨t1, -, -⟩ := a1.tok (reads_structural _ (b := 93) (ty := .rbracket) rfl q)
    refine ⟨1, st', by rw [e1]; simp [t1], a1, ef.mono fun x hx => ⟨0, by simp, by simpa [elemAt] using hx⟩, ?_⟩
    intro i hi
    obtain rfl : i = 0 := by simpa using hi
    simpa [elemAt] using sm
  · intro q st n n' addr hat hn hn' haddr
    have h1 := hl.1.pos
    obtain ⟨n', rfl⟩ : ∃ j, n' = j + 1 := ⟨n' - 1, by omega⟩
    obtain ⟨st', e1, a1, ef, hel, hnx, sm⟩ := cont_step hs hl (Tail.structural e (by decide) q) n n' addr hat hn haddr
    obtain ⟨t1, -, -⟩ := a1.tok (reads_structural _ (b := 93) (ty := .rbracket) rfl q)
    refine ⟨1, st', [(0, st.m.next)], by rw [e1]; simp [t1], a1, ef, hel, rfl, ?_⟩
    intro i hi
    obtain rfl : i = 0 := by simpa using hi
    refine ⟨fun x h1 h2 => ?_, sm⟩
    simp at h1 h2
    exact ⟨h1, by omega⟩

theorem elems_cons {e : Env} {o : Opts} {text r : Bytes} {t : Ty} {m : Mem} {a : Nat} {as : List Nat} (hs : Supported e o t)
    (hpos : 0 < t.size) (hl : Loads e text none t m a) (hr : ElemsLoad e r t m as) :
    ElemsLoad e (text ++ 44 :: r) t m (a :: as) := by
  refine ⟨hl.1.jelems_more hr.elems, ?_, ?_⟩
  · intro q st n n' base limit pos hat hn hn' hlim hnext hclear
    have h1 := hl.1.pos
    simp only [List.length_append, List.length_cons] at hn hn'
    obtain ⟨n', rfl⟩ : ∃ j, n' = j + 1 := ⟨n' - 1, by omega⟩
    have hmul : (as.length + 1) * t.size = as.length * t.size + t.size := Nat.succ_mul _ _
    simp only [List.length_cons, hmul] at hlim hclear
    obtain ⟨st', e1, a1, ef, sm⟩ := array_step hs hpos hl (Tail.structural e (b := 44) (by decide) (r ++ 93 :: q)) n n' base limit pos
      (by simpa using hat) (by omega) (by omega) hnext (hclear.sub (Nat.le_refl _) (by omega))
    obtain ⟨t1, t2, t3⟩ := a1.tok (reads_structural _ (b := 44) (ty := .comma) rfl (r ++ 93 :: q))
    obtain ⟨tf, rf, hf, -⟩ := hr.elems.first e.fl.strtod (b := 93) (q := q) (by decide)
    obtain ⟨st2, e2, a2, m2⟩ := nextTok_at t2 t3 ⟨tf, rf, hf⟩
    have hnx := ef.next
    have htw := touched_within t hs (base + pos)
    obtain ⟨cnt, st3, e3, a3, ef3, sm3⟩ := hr.array q st2 n n' base limit (pos + t.size) a2 (by omega) (by omega) (by omega)
      (by rw [m2]; omega) (by
        rw [m2]
        refine Clear.effect (hclear.sub (by omega) (by omega)) ef (by omega) ?_
        intro x h1 h2 h3
        have := htw x h3
        omega)
    rw [m2] at ef3 sm3
    have hel : ∀ i, elemAt (base + (pos + t.size)) i t.size = elemAt (base + pos) (i + 1) t.size := by
      intro i; unfold elemAt; rw [Nat.succ_mul]; omega
    refine ⟨cnt + 1, st3, ?_, a3, ?_, ?_⟩
    · rw [e1, t1]
      simp only [ne_eq, not_true_eq_false, if_false]
      rw [e2]
      simp only [Out.bind_ok]
      rw [e3]
      rfl
    · refine (ef.trans ef3).mono fun x hx => ?_
      rcases hx with hx | ⟨i, hi, hx⟩
      · exact ⟨0, by simp, by simpa [elemAt] using hx⟩
      · rw [hel] at hx
        exact ⟨i + 1, by simpa using hi, hx⟩
    · intro i hi
      cases i with
      | zero =>
        simp only [List.getD_cons_zero]
        rw [show elemAt (base + pos) 0 t.size = base + pos by simp [elemAt]]
        refine same_congr t hs sm (fun x hx => ⟨hx.1, by have := hx.2; have := ef3.next; omega⟩) ?_
        intro x hx
        have hlt : x < st'.m.next := by
          rcases hx with hx | hx
          · have := htw x hx; omega
          · exact hx.2
        have hnot : ¬ ∃ i, i < as.length ∧ Touched e t (elemAt (base + (pos + t.size)) i t.size) x := by
          rintro ⟨i, hi, ht⟩
          have h5 := touched_within t hs _ _ ht
          have h6 := elem_le (s := t.size) hi
          unfold elemAt at h5
          rcases hx with hx | hx
          · have := htw x hx; omega
          · have := hx.1; omega
        exact ⟨ef3.byte x hlt hnot, ef3.elems x hlt hnot⟩
      | succ i =>
        simp only [List.getD_cons_succ]
        rw [← hel]
        refine same_congr t hs (sm3 i (by simpa using hi)) (fun x hx => ⟨by have := hx.1; omega, hx.2⟩) (fun x _ => ⟨rfl, rfl⟩)
  · intro q st n n' addr hat hn hn' haddr
    have h1 := hl.1.pos
    simp only [List.length_append, List.length_cons] at hn hn'
    obtain ⟨n', rfl⟩ : ∃ j, n' = j + 1 := ⟨n' - 1, by omega⟩
    obtain ⟨st', e1, a1, ef, hel, hnx, sm⟩ := cont_step hs hl (Tail.structural e (b := 44) (by decide) (r ++ 93 :: q)) n n' addr
      (by simpa using hat) (by omega) haddr
    obtain ⟨t1, t2, t3⟩ := a1.tok (reads_structural _ (b := 44) (ty := .comma) rfl (r ++ 93 :: q))
    obtain ⟨tf, rf, hf, -⟩ := hr.elems.first e.fl.strtod (b := 93) (q := q) (by decide)
    obtain ⟨st2, e2, a2, m2⟩ := nextTok_at t2 t3 ⟨tf, rf, hf⟩
    obtain ⟨cnt, st3, news, e3, a3, ef3, hel3, hlen3, sm3⟩ := hr.cont q st2 n n' addr a2 (by omega) (by omega) (by rw [m2]; omega)
    rw [m2] at ef3 hel3 sm3
    have hnx3 := ef3.next
    refine ⟨cnt + 1, st3, (0, st.m.next) :: news, ?_, a3, ?_, ?_, by simp [hlen3], ?_⟩
    · rw [e1, t1]
      simp only [ne_eq, not_true_eq_false, if_false]
      rw [e2]
      simp only [Out.bind_ok]
      rw [e3]
      rfl
    · exact (ef.trans ef3).mono fun x hx => hx.elim id id
    · rw [hel3, hel]; simp
    · intro i hi
      cases i with
      | zero =>
        simp only [List.getD_cons_zero]
        refine ⟨fun x h1 h2 => ⟨h1, by omega⟩, ?_⟩
        refine same_congr t hs sm (fun x hx => ⟨hx.1, by have := hx.2; omega⟩) ?_
        intro x hx
        have hx' : st.m.next ≤ x ∧ x < st'.m.next := by
          rcases hx with hx | hx
          · have := touched_within t hs _ _ hx; omega
          · exact hx
        exact ⟨ef3.byte x hx'.2 (by omega), ef3.elems x hx'.2 (by omega)⟩
      | succ i =>
        simp only [List.getD_cons_succ]
        obtain ⟨r1, r2⟩ := sm3 i (by simpa using hi)
        refine ⟨fun x h1 h2 => ⟨by have := (r1 x h1 h2).1; omega, (r1 x h1 h2).2⟩, ?_⟩
        exact same_congr t hs r2 (fun x hx => ⟨by have := hx.1; omega, hx.2⟩) (fun x _ => ⟨rfl, rfl⟩)

/-- The loop of `SaveContainer` over values that are not pointers. -/
theorem saveItems_loads {e : Env} {o : Opts} {t : Ty} (hs : Supported e o t) (hpos : 0 < t.size) (m : Mem)
    (save : Nat → Res Bytes) (items : List (Nat × Nat)) (hne : items ≠ [])
    (hok : ∀ kv ∈ items, ∃ text, save kv.2 = .ok text ∧ Loads e text none t m kv.2) :
    ∃ text, saveItems o m t.hash false none save items.length items false = .ok text ∧
      saveItems o m t.hash false none save items.length items true = .ok (44 :: text) ∧
      ElemsLoad e text t m (items.map Prod.snd) := by
  induction items with
  | nil => exact absurd rfl hne
  | cons kv rest ih =>
    obtain ⟨v, hv, hl⟩ := hok kv (by simp)
    by_cases hr : rest = []
    · subst hr
      refine ⟨v, ?_, ?_, elems_one hs hpos hl⟩
      · simp [saveItems, saveKey, saveValue, hv, Res.map]
      · simp [saveItems, saveKey, saveValue, hv, Res.map]
    · obtain ⟨text, -, h2, h3⟩ := ih hr (fun x hx => hok x (by simp [hx]))
      refine ⟨v ++ 44 :: text, ?_, ?_, elems_cons hs hpos hl h3⟩
      · simp [saveItems, saveKey, saveValue, hv, Res.map, h2]
      · simp [saveItems, saveKey, saveValue, hv, Res.map, h2]

/-! ### C arrays and containers -/

/-- An empty array is read without effect. -/
theorem empty_array {e : Env} {q : Bytes} (hq : Tail e q) {st : St} (hat : At e (b!"[]" ++ q) st) (n : Nat)
    (tgt : Target) (p : Bool) (arr : Option Nat) :
    ∃ st', parseValue e (n + 1) st tgt p arr = .ok st' ∧ At e q st' ∧ st'.m = st.m := by
  have hr := reads_structural e.fl.strtod (b := 91) (ty := .lbracket) rfl (93 :: q)
  have hr2 := reads_structural e.fl.strtod (b := 93) (ty := .rbracket) rfl q
  obtain ⟨h1, -, -⟩ := hat.tok hr
  obtain ⟨st1, e1, a1, m1⟩ := expect_at hat hr rfl ⟨_, _, hr2⟩
  obtain ⟨t1, t2, t3⟩ := a1.tok hr2
  obtain ⟨st2, e2, a2, m2⟩ := nextTok_at t2 t3 hq.good
  refine ⟨st2, ?_, a2, by rw [m2, m1]⟩
  rw [parseValue, h1]
  simp only []
  rw [parseArray, e1]
  simp only [Out.bind_ok, t1]
  simpa [Tok.isValid] using e2

/-- The parser for an array that is not empty, up to its elements. -/
theorem array_open {e : Env} {text q : Bytes} {st : St} (hj : JElems text) (hat : At e (91 :: (text ++ 93 :: q)) st) (n : Nat)
    (tgt : Target) (p : Bool) (arr : Option Nat) :
    ∃ st1, At e (text ++ 93 :: q) st1 ∧ st1.m = st.m ∧
      parseValue e (n + 1) st tgt p arr = (do
        let w ← arrayWriter e (parseValue e n) (n + 1) st1 tgt p arr
        let q ← parseElements e (parseValue e n) (n + 1) w.1 w.2
        let x ← expect e q.2 .rbracket
        .ok x.2) := by
  have hr := reads_structural e.fl.strtod (b := 91) (ty := .lbracket) rfl (text ++ 93 :: q)
  obtain ⟨h1, -, -⟩ := hat.tok hr
  obtain ⟨tf, rf, hf, hft⟩ := hj.first e.fl.strtod (b := 93) (q := q) (by decide)
  obtain ⟨st1, e1, a1, m1⟩ := expect_at hat hr rfl ⟨tf, rf, hf⟩
  obtain ⟨t1, -, -⟩ := a1.tok hf
  refine ⟨st1, a1, m1, ?_⟩
  rw [parseValue, h1]
  simp only []
  rw [parseArray, e1]
  simp only [Out.bind_ok, t1, hft, if_false]
  simp only [Tok.isValid, show (TokType.lbracket != TokType.none) = true from rfl, Bool.not_true, Bool.false_eq_true,
    if_false]

theorem arrayItems_length (a n s : Nat) : (arrayItems a n s).length = n := by simp [arrayItems]

theorem arrayItems_map (a n s : Nat) (i : Nat) (h : i < n) : ((arrayItems a n s).map Prod.snd).getD i 0 = elemAt a i s := by
  simp [arrayItems, elemAt, List.getD, h]

/-- A C array. -/
theorem array_loads {e : Env} {o : Opts} {t : Ty} (hs : Supported e o t) (hpos : 0 < t.size) (hrt : RT e o t) (m : Mem) (a indent k : Nat)
    (hsav : ∀ i, i < k → Savable e m t (elemAt a i t.size)) :
    ∃ text, saveContainer o m t.hash false none (saveObj e o m t indent) (arrayItems a k t.size) = .ok text ∧
      Loads e text (some k) t m a := by
  by_cases hk : k = 0
  · subst hk
    refine ⟨b!"[]", by simp [saveContainer, arrayItems], JVal.padded (v := b!"[]") (.arr0 (w := []) (by simp [Ws])), ?_⟩
    intro q hq st b n hat hn hb _
    obtain ⟨n, rfl⟩ : ∃ j, n = j + 1 := ⟨n - 1, by simp at hn; omega⟩
    obtain ⟨st', e1, a1, m1⟩ := empty_array hq hat n (some (t, b)) false (some 0)
    refine ⟨st', e1, a1, by rw [m1]; exact Effect.refl _ _, ?_, ?_⟩
    · intro h; simp at h
    · intro n hn i hi
      cases hn
      omega
  · have hne : arrayItems a k t.size ≠ [] := by
      intro hc
      have := arrayItems_length a k t.size
      rw [hc] at this
      simp at this
      omega
    obtain ⟨text, h1, -, h3⟩ := saveItems_loads hs hpos m (saveObj e o m t indent) (arrayItems a k t.size) hne (by
      intro kv hkv
      obtain ⟨i, hi, rfl⟩ := List.mem_map.1 hkv
      exact hrt m _ indent (hsav i (List.mem_range.1 hi)))
    refine ⟨91 :: (text ++ [93]), by simp [saveContainer, hne, h1], JVal.padded (.arr h3.elems), ?_⟩
    intro q hq st b n hat hn hb hclear
    obtain ⟨n, rfl⟩ : ∃ j, n = j + 1 := ⟨n - 1, by simp at hn; omega⟩
    obtain ⟨st1, a1, m1, hp⟩ := array_open h3.elems (q := q) (by simpa using hat) n (some (t, b)) false (some k)
    have hlen : ((arrayItems a k t.size).map Prod.snd).length = k := by simp [arrayItems_length]
    obtain ⟨cnt, st2, e2, a2, ef, sm⟩ := h3.array q st1 n (n + 1) b (k * t.size) 0 a1 (by simp at hn; omega)
      (by simp at hn; omega) (by rw [hlen]; omega) (by rw [m1]; simpa [cellSize] using hb)
      (by rw [m1, hlen]; simpa [cellSize] using hclear)
    rw [m1] at ef sm
    obtain ⟨st3, e3, a3, m3⟩ := expect_at a2 (reads_structural _ (b := 93) (ty := .rbracket) rfl q) rfl hq.good
    refine ⟨st3, ?_, a3, ?_, ?_, ?_⟩
    · rw [hp]
      simp only [arrayWriter, strideOf, Bool.false_eq_true, if_false, Out.bind_ok]
      rw [e2]
      simp only [Out.bind_ok]
      rw [e3]
      simp
    · rw [m3]
      refine ef.mono fun x hx => ?_
      obtain ⟨i, hi, hx⟩ := hx
      rw [hlen] at hi
      exact .inr ⟨k, i, rfl, hi, by simpa using hx⟩
    · intro h; simp at h
    · intro k' hk' i hi
      cases hk'
      rw [m3]
      have := sm i (by rw [hlen]; exact hi)
      rw [arrayItems_map a k t.size i hi] at this
      simpa using this

theorem rt_vec {e : Env} {o : Opts} {h : BitVec 32} {s : Nat} {elem : Ty} {p : Bool} (hs : Supported e o (.vec h s elem p))
    (ih : RT e o elem) : RT e o (.vec h s elem p) := by
  have hs' := hs
  rw [Supported] at hs
  obtain ⟨rfl, hsz, hpos, hse⟩ := hs
  intro m a indent hsav
  rw [Savable] at hsav
  by_cases hne : m.elems a = []
  · refine ⟨b!"[]", by simp [saveObj, saveContainer, hne], JVal.padded (v := b!"[]") (.arr0 (w := []) (by simp [Ws])), ?_⟩
    intro q hq st b n hat hn hb hclear
    obtain ⟨n, rfl⟩ : ∃ j, n = j + 1 := ⟨n - 1, by simp at hn; omega⟩
    obtain ⟨st', e1, a1, m1⟩ := empty_array hq hat n (some (.vec h s elem false, b)) false none
    refine ⟨st', e1, a1, by rw [m1]; exact Effect.refl _ _, cellSame_none ?_⟩
    rw [Same, m1, hne, hclear b (Nat.le_refl _) (by simp only [cellSize, Ty.size]; omega)]
    simp
  · obtain ⟨text, h1, -, h3⟩ := saveItems_loads hse hpos m (fun x => saveObj e o m elem indent x) (m.elems a) hne (by
      intro kv hkv
      obtain ⟨i, hi, rfl⟩ := List.getElem_of_mem hkv
      have := hsav i hi
      rw [show (m.elems a).getD i (0, 0) = (m.elems a)[i] by simp [List.getD, hi]] at this
      exact ih m _ indent this)
    refine ⟨91 :: (text ++ [93]), by simp [saveObj, saveContainer, hne, h1], JVal.padded (.arr h3.elems), ?_⟩
    intro q hq st b n hat hn hb hclear
    simp only [cellSize, Ty.size] at hb
    obtain ⟨n, rfl⟩ : ∃ j, n = j + 1 := ⟨n - 1, by simp at hn; omega⟩
    obtain ⟨st1, a1, m1, hp⟩ := array_open h3.elems (q := q) (by simpa using hat) n (some (.vec h s elem false, b)) false none
    obtain ⟨k0, st2, e2, a2, m2⟩ := skip_elems h3.elems (b := 93) (q := q) (by decide) (by decide) a1 (n := n) (n' := n + 1)
      (by simp at hn; omega) (by simp at hn; omega)
    let st3 : St := { t := st1.t, c := { st2.c with rest := st1.c.rest, pos := st1.c.pos }, m := st2.m.setElems b [] }
    have a3 : At e (text ++ 93 :: q) st3 := by
      obtain ⟨t, r, hr, q1, q2, -⟩ := a1
      obtain ⟨-, -, -, -, -, q3⟩ := a2
      exact ⟨t, r, hr, q1, q2, q3⟩
    have hm3 : st3.m = st.m.setElems b [] := by simp only [st3, m2, m1]
    obtain ⟨cnt, st4, news, e4, a4, ef, hel, hlen, sm⟩ := h3.cont q st3 n (n + 1) b a3 (by simp at hn; omega) (by simp at hn; omega)
      (by rw [hm3]; simp only [Mem.setElems]; omega)
    obtain ⟨st5, e5, a5, m5⟩ := expect_at a4 (reads_structural _ (b := 93) (ty := .rbracket) rfl q) rfl hq.good
    have hfr : ∀ x, Fresh st3.m st4.m x → Fresh st.m st4.m x := by
      intro x hx
      rw [hm3] at hx
      exact hx
    refine ⟨st5, ?_, a5, ?_, cellSame_none ?_⟩
    · rw [hp]
      simp only [arrayWriter]
      rw [e2]
      simp only [Out.bind_ok]
      rw [show ({ t := st1.t, c := { st2.c with rest := st1.c.rest, pos := st1.c.pos }, m := st2.m.setElems b [] } : St) = st3 from rfl, e4]
      simp only [Out.bind_ok]
      rw [e5]
      simp
    · rw [m5]
      have hnx := ef.next
      rw [hm3] at hnx
      refine ⟨hnx, ?_, ?_⟩
      · intro x hx hn
        rw [cellTouched_none, Touched] at hn
        rw [ef.byte x (by rw [hm3]; exact hx) (by omega), hm3]
        rfl
      · intro x hx hn
        rw [cellTouched_none, Touched] at hn
        rw [ef.elems x (by rw [hm3]; exact hx) (by omega), hm3]
        simp only [Mem.setElems]
        rw [if_neg (by omega)]
    · rw [Same, m5]
      have hel' : st4.m.elems b = news := by
        rw [hel, hm3]
        simp [Mem.setElems]
      rw [hel', hlen]
      refine ⟨by simp, fun i hi => ?_⟩
      obtain ⟨r1, r2⟩ := sm i (by simpa using hi)
      refine ⟨fun x h1 h2 => hfr x (r1 x h1 h2), ?_⟩
      have hgd : ((m.elems a).map Prod.snd).getD i 0 = ((m.elems a).getD i (0, 0)).2 := by
        simp [List.getD, hi]
      rw [hgd] at r2
      exact same_congr elem hse r2 hfr (fun x _ => ⟨rfl, rfl⟩)

end Clr.JSON
