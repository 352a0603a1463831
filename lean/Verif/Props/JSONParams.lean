import Verif.Props.JSON
import Verif.Proofs.JSONParams

/-!
C76: the arguments of a function are loaded from a JSON list (src/clReflectUtil/SerialiseFunction.cpp:150-189).
-/
namespace Clr.JSON

/-! ### Specification -/

/-- The text of an argument: what saving the value at `a` writes, with white space around it. -/
def ArgText (e : Env) (o : Opts) (m : Mem) (text : Bytes) (p : Param) (a : Nat) : Prop :=
  ∃ indent w t x, Ws w ∧ Ws x ∧ saveJSON e o m p.2 indent a = .ok t ∧ text = w ++ (t ++ x)

/-- The texts of arguments, one for each parameter. -/
inductive ArgTexts (e : Env) (o : Opts) (m : Mem) : List Bytes → List Param → List Nat → Prop
  | nil : ArgTexts e o m [] [] []
  | cons {t : Bytes} {ts : List Bytes} {p : Param} {ps : List Param} {a : Nat} {as : List Nat}
      (h : ArgText e o m t p a) (hr : ArgTexts e o m ts ps as) : ArgTexts e o m (t :: ts) (p :: ps) (a :: as)

/-- Parameters passed by value or by reference, of types that can be saved and loaded. -/
def ByValue (e : Env) (o : Opts) (p : Param) : Prop := p.1.isPtr = false ∧ p.1.count = none ∧ Supported e o p.2

/-- The values at these addresses can be saved. -/
inductive ArgsSavable (e : Env) (m : Mem) : List Param → List Nat → Prop
  | nil : ArgsSavable e m [] []
  | cons {p : Param} {ps : List Param} {a : Nat} {as : List Nat} (h : Savable e m p.2 a) (hr : ArgsSavable e m ps as) :
      ArgsSavable e m (p :: ps) (a :: as)

/-- The memory that was in use holds what it held. -/
def Untouched (m m' : Mem) : Prop := m.next ≤ m'.next ∧ ∀ x, x < m.next → m'.byte x = m.byte x ∧ m'.elems x = m.elems x

theorem Effect.untouched {m m' : Mem} (h : Effect m m' (fun _ => False)) : Untouched m m' :=
  ⟨h.next, fun x hx => ⟨h.byte x hx (by simp), h.elems x hx (by simp)⟩⟩

/-! ### Proofs -/

theorem argText_loads {e : Env} {o : Opts} (hptr : o.ptrs = none) {m : Mem} {t : Bytes} {p : Param} {a : Nat} (hv : ByValue e o p)
    (hsav : Savable e m p.2 a) (ht : ArgText e o m t p a) : ArgLoads e m t p a := by
  obtain ⟨indent, w, t, x, hw, hx, h1, rfl⟩ := ht
  obtain ⟨t', h2, hl⟩ := rt_all hptr p.2 hv.2.2 m a indent hsav
  rw [saveJSON, h2] at h1
  cases h1
  exact ⟨hv.1, hv.2.1, (hl.wsEnd hx).wsStart hw⟩

/-- Texts with separators. -/
theorem args_load {e : Env} {o : Opts} (hptr : o.ptrs = none) {m : Mem} {ts : List Bytes} {ps : List Param} {as : List Nat}
    (ht : ArgTexts e o m ts ps as) (hv : ∀ p ∈ ps, ByValue e o p) (hsav : ArgsSavable e m ps as) (seps : List UInt8)
    (hlen : seps.length = ts.length) (hsep : ∀ b ∈ seps, (structural b).isSome) : ArgsLoad e m (ts.zip seps) ps as := by
  induction ht generalizing seps with
  | nil => exact .nil
  | cons h hr ih =>
    cases hsav with
    | cons hs1 hs2 =>
      match seps, hlen with
      | b :: seps, hlen =>
        rw [List.zip_cons_cons]
        exact .cons (argText_loads hptr (hv _ (by simp)) hs1 h) (hsep b (by simp))
          (ih (fun p hp => hv p (by simp [hp])) hs2 seps (by simpa using hlen) (fun c hc => hsep c (by simp [hc])))

/-- Commas and a last separator. -/
def commasThen (last : UInt8) : Nat → List UInt8
  | 0 => []
  | 1 => [last]
  | n + 2 => 44 :: commasThen last (n + 1)

theorem commasThen_length (last : UInt8) : ∀ n, (commasThen last n).length = n
  | 0 => rfl
  | 1 => rfl
  | n + 2 => by simp [commasThen, commasThen_length last (n + 1)]

theorem commasThen_structural {last : UInt8} (h : (structural last).isSome) : ∀ n, ∀ b ∈ commasThen last n, (structural b).isSome
  | 0, b, hb => by simp [commasThen] at hb
  | 1, b, hb => by simp [commasThen] at hb; subst hb; exact h
  | n + 2, b, hb => by
    simp only [commasThen, List.mem_cons] at hb
    rcases hb with rfl | hb
    · decide
    · exact commasThen_structural h (n + 1) b hb

theorem joinComma_argText (last : UInt8) (rest : Bytes) : ∀ (ts : List Bytes), ts ≠ [] →
    joinComma ts ++ last :: rest = argText (ts.zip (commasThen last ts.length)) ++ rest
  | [], h => absurd rfl h
  | [t], _ => by simp [joinComma, argText, commasThen]
  | t :: t' :: r, _ => by
    have := joinComma_argText last rest (t' :: r) (by simp)
    simp only [List.length_cons] at this ⊢
    simp only [joinComma, commasThen, List.zip_cons_cons, argText, List.append_assoc, List.cons_append]
    rw [this]

theorem ArgTexts.length {e : Env} {o : Opts} {m : Mem} {ts : List Bytes} {ps : List Param} {as : List Nat}
    (h : ArgTexts e o m ts ps as) : ts.length = ps.length ∧ as.length = ps.length := by
  induction h with
  | nil => exact ⟨rfl, rfl⟩
  | cons h hr ih => simp [ih]

/-- The commas and the closing bracket are separators. -/
theorem texts_load {e : Env} {o : Opts} (hptr : o.ptrs = none) {m : Mem} {ts : List Bytes} {ps : List Param} {as : List Nat}
    (ht : ArgTexts e o m ts ps as) (hv : ∀ p ∈ ps, ByValue e o p) (hsav : ArgsSavable e m ps as) (rest : Bytes) :
    ∃ xs q, joinComma ts ++ 93 :: rest = argText xs ++ q ∧ ArgsLoad e m xs ps as ∧ (q = 93 :: rest ∨ q = rest) := by
  by_cases hne : ts = []
  · subst hne
    cases ht
    exact ⟨[], 93 :: rest, rfl, .nil, .inl rfl⟩
  · exact ⟨_, rest, joinComma_argText 93 rest ts hne,
      args_load hptr ht hv hsav _ (commasThen_length _ _) (commasThen_structural (by decide) _), .inr rfl⟩

/-! ### C76 -/

/-- **C76** (partial): a function's parameters, in whatever order the database lists them, are loaded from a JSON list of as
many values in the order of the call: the call succeeds, there is one object for each parameter in the order of the call, in
memory that was not in use and apart from each other, with the value that was saved, and memory that was in use is as before.

Missing from the full property: pointers, and what `Supported` excludes. -/
theorem C76_arguments_partial {e : Env} {o : Opts} (hptr : o.ptrs = none) {params qs : List Param} (ho : Ordered params qs)
    (hfew : qs.length ≤ 16) (hv : ∀ p ∈ qs, ByValue e o p) (m : Mem) (args : List Nat) (hsav : ArgsSavable e m qs args)
    (texts : List Bytes) (ht : ArgTexts e o m texts qs args) (w rest : Bytes) (hw : Ws w) (m0 : Mem) :
    ∃ objs m', buildParams e (w ++ 91 :: (joinComma texts ++ 93 :: rest)) m0 params = .ok (true, objs, m') ∧
      objs.length = qs.length ∧ Untouched m0 m' ∧
      ∀ i (h : i < qs.length), m0.next ≤ objs.getD i 0 ∧
        (∀ j, i < j → j < qs.length → objs.getD i 0 + qs[i].2.size ≤ objs.getD j 0) ∧
        Same e m m' (fun x => m0.next ≤ x ∧ x < m'.next) qs[i].2 (args.getD i 0) (objs.getD i 0) := by
  have hsup : ∀ x ∈ qs, Supported e o x.2 := fun x hx => (hv x hx).2.2
  obtain ⟨ts, q, htext, hl, -⟩ := texts_load hptr ht hv hsav rest
  obtain ⟨c', m', objs, h1, h2, h3, h4, h5⟩ := buildParams_first ho hfew hsup hl (after := []) (by simp) hw q m0
  refine ⟨objs, m', ?_, h4.1, h3.untouched, fun i hi => ⟨(h4.2 i hi).1.1, (h4.2 i hi).1.2.2, (h4.2 i hi).2⟩⟩
  rw [htext, h5]
  simp [paramLoop]

/-- **C76**, too few values: a list with fewer values than the function has parameters, with nothing after it, is refused. -/
theorem C76_too_few_refused {e : Env} {o : Opts} (hptr : o.ptrs = none) {params given more : List Param}
    (ho : Ordered params (given ++ more)) (hmore : more ≠ [])
    (hfew : (given ++ more).length ≤ 16) (hv : ∀ p ∈ given ++ more, ByValue e o p) (m : Mem) (args : List Nat)
    (hsav : ArgsSavable e m given args) (texts : List Bytes) (ht : ArgTexts e o m texts given args) (w rest : Bytes) (hw : Ws w)
    (hrest : Ws rest) (m0 : Mem) :
    ∃ objs m', buildParams e (w ++ 91 :: (joinComma texts ++ 93 :: rest)) m0 params = .ok (false, objs, m') ∧ Untouched m0 m' := by
  have hsup : ∀ x ∈ given ++ more, Supported e o x.2 := fun x hx => (hv x hx).2.2
  obtain ⟨ts, q, htext, hl, hq⟩ := texts_load hptr ht (fun p hp => hv p (by simp [hp])) hsav rest
  obtain ⟨c', m', objs, h1, h2, h3, h4, h5⟩ := buildParams_first ho hfew hsup hl rfl hw q m0
  rw [htext, h5]
  match more, hmore with
  | p :: ps, _ =>
    have hat := ho.at (i := given.length) (by simp)
    simp only [List.getElem_append_right (Nat.le_refl _), Nat.sub_self, List.getElem_cons_zero] at hat
    have hreads : ∃ t r, Reads e.fl.strtod q t r ∧ (t.type = .none ∨ t.type = .rbracket) := by
      rcases hq with rfl | rfl
      · exact ⟨_, _, reads_structural _ (b := 93) (ty := .rbracket) rfl rest, .inr rfl⟩
      · exact ⟨_, _, by simpa using reads_ws hrest (reads_nil e.fl.strtod), .inl rfl⟩
    obtain ⟨t, r, hr, hty⟩ := hreads
    let m1 : Mem := (m'.alloc (strideOf p.2 p.1.isPtr)).2
    obtain ⟨s0, e0, a0, hm0⟩ := nextTok_at (e := e) (st := { t := {}, c := c', m := m1 }) h1 h2 ⟨t, r, hr⟩
    obtain ⟨t1, t2, t3⟩ := a0.tok hr
    obtain ⟨n, hn⟩ : ∃ n, fuelFor (w ++ 91 :: (argText ts ++ q)) = n + 1 := ⟨_, rfl⟩
    have hload : loadParam e (n + 1) c' m1 p m'.next = .ok (s0.c.setError .unexpectedToken, m1) := by
      unfold loadParam
      rw [e0]
      simp only [Out.bind_ok]
      rw [parseValue, t1]
      rcases hty with h | h <;> rw [h] <;> simp only [Out.bind_ok, hm0]
    have herr : (s0.c.setError .unexpectedToken).err.code ≠ .none := by simp [Ctx.setError, t3]
    refine ⟨objs ++ [m'.next], m1, ?_, ?_⟩
    · rw [hn, List.length_cons, paramLoop, hat]
      simp only [show (m'.alloc (strideOf p.2 p.1.isPtr)).1 = m'.next from rfl]
      rw [show (m'.alloc (strideOf p.2 p.1.isPtr)).2 = m1 from rfl, hload]
      simp only [Out.bind_ok, if_pos herr]
    · have hu := h3.untouched
      refine ⟨Nat.le_trans hu.1 (Nat.le_add_right _ _), fun x hx => ?_⟩
      have h := hu.2 x hx
      have hlt := hu.1
      refine ⟨h.1, ?_⟩
      rw [← h.2]
      show (if m'.next ≤ x ∧ x < m'.next + strideOf p.2 p.1.isPtr then [] else m'.elems x) = m'.elems x
      rw [if_neg (by omega)]

/-- **C76**, not a list: a JSON value that is not a list is refused, and no object is made. -/
theorem C76_no_list_refused {e : Env} {v : Bytes} (hj : JVal v) (hv : v.head? ≠ some 91) (w rest : Bytes) (b : UInt8) (hw : Ws w)
    (hb : isDelim b = true) {params : List Param} (hfew : ∀ p ∈ params, p.1.offset < 16) (m0 : Mem) :
    buildParams e (w ++ (v ++ b :: rest)) m0 params = .ok (false, [], m0) := by
  have key : ∃ t r, Reads e.fl.strtod (v ++ b :: rest) t r ∧ t.type ≠ .lbracket := by
    cases hj with
    | @str s h => exact ⟨_, _, by simpa using reads_string _ h (b :: rest), by simp⟩
    | num h =>
      obtain ⟨t, ht, h⟩ := reads_number e.fl.strtod h b rest hb
      exact ⟨_, _, h, by rcases ht with ht | ht <;> simp [ht]⟩
    | tru => exact ⟨_, _, reads_keyword _ 116 b!"rue" .true (by simp) (b :: rest), by simp⟩
    | fls => exact ⟨_, _, reads_keyword _ 102 b!"alse" .false (by simp) (b :: rest), by simp⟩
    | null => exact ⟨_, _, reads_keyword _ 110 b!"ull" .null (by simp) (b :: rest), by simp⟩
    | arr0 hw => simp at hv
    | arr h => simp at hv
    | obj0 hw => exact ⟨_, _, reads_structural _ (b := 123) (ty := .lbrace) rfl _, by simp⟩
    | obj h => exact ⟨_, _, reads_structural _ (b := 123) (ty := .lbrace) rfl _, by simp⟩
  obtain ⟨t, r, hr, hty⟩ := key
  obtain ⟨s0, e0, a0, -⟩ := nextTok_at (e := e) (st := { t := {}, c := { rest := w ++ (v ++ b :: rest) }, m := m0 }) rfl rfl
    ⟨_, _, reads_ws hw hr⟩
  obtain ⟨t1, -, -⟩ := a0.tok (reads_ws hw hr)
  unfold buildParams
  rw [if_pos (by simpa using hfew), e0]
  simp only [Out.bind_ok, t1]
  rw [if_pos hty]

/-- C76 is false of what lies between and after the values: any of the six structural characters may stand for the commas and
for the closing bracket, and anything may follow, further values included
(src/clReflectUtil/SerialiseJSON.cpp:562-570: the token read ahead is dropped). -/
theorem C76_separators_unchecked_false {e : Env} {o : Opts} (hptr : o.ptrs = none) {params qs : List Param} (ho : Ordered params qs)
    (hfew : qs.length ≤ 16) (hv : ∀ p ∈ qs, ByValue e o p) (m : Mem) (args : List Nat) (hsav : ArgsSavable e m qs args)
    (texts : List Bytes) (ht : ArgTexts e o m texts qs args) (seps : List UInt8) (hlen : seps.length = texts.length)
    (hsep : ∀ b ∈ seps, b ∈ b!"{}[]:,") (rest : Bytes) (m0 : Mem) :
    ∃ objs m', buildParams e (91 :: (argText (texts.zip seps) ++ rest)) m0 params = .ok (true, objs, m') ∧
      ∀ i (h : i < qs.length),
        Same e m m' (fun x => m0.next ≤ x ∧ x < m'.next) qs[i].2 (args.getD i 0) (objs.getD i 0) := by
  have hsup : ∀ x ∈ qs, Supported e o x.2 := fun x hx => (hv x hx).2.2
  have hl := args_load hptr ht hv hsav seps hlen (fun b hb => by
    have := hsep b hb
    simp only [List.mem_cons, List.not_mem_nil, or_false] at this
    rcases this with rfl | rfl | rfl | rfl | rfl | rfl <;> decide)
  obtain ⟨c', m', objs, h1, h2, h3, h4, h5⟩ := buildParams_first ho hfew hsup hl (after := []) (by simp) (w := []) (by simp [Ws]) rest m0
  refine ⟨objs, m', ?_, fun i hi => (h4.2 i hi).2⟩
  rw [List.nil_append] at h5
  rw [h5]
  simp [paramLoop]

/-- C76 is false of strings for parameters that are not enums, pointers to characters among them: the call succeeds and the
object made for the parameter holds what the memory held (src/clReflectUtil/SerialiseJSON.cpp:102-163). -/
theorem C76_string_ignored_false {e : Env} {p : Param} (hnum : p.1.offset = 0) (hty : p.2.isEnum = false) {k : Bytes} (hk : JStr k)
    (rest : Bytes) (m0 : Mem) :
    ∃ m', buildParams e (91 :: (quote k ++ 93 :: rest)) m0 [p] = .ok (true, [m0.next], m') ∧ ∀ x, m'.byte x = m0.byte x := by
  have hr := reads_structural e.fl.strtod (b := 91) (ty := .lbracket) rfl (quote k ++ 93 :: rest)
  have hr2 : Reads e.fl.strtod (quote k ++ 93 :: rest) { type := .string, text := k } (93 :: rest) := by
    have := reads_string e.fl.strtod hk (93 :: rest)
    simpa [quote] using this
  have hg : Good e.fl.strtod (93 :: rest) := good_structural _ (by decide) _
  obtain ⟨s0, e0, a0, hm0⟩ := nextTok_at (e := e) (st := { t := {}, c := { rest := 91 :: (quote k ++ 93 :: rest) }, m := m0 }) rfl rfl
    ⟨_, _, hr⟩
  obtain ⟨t1, t2, t3⟩ := a0.tok hr
  let m1 : Mem := (m0.alloc (strideOf p.2 p.1.isPtr)).2
  obtain ⟨s1, e1, a1, hm1⟩ := nextTok_at (e := e) (st := { t := {}, c := s0.c, m := m1 }) t2 t3 ⟨_, _, hr2⟩
  obtain ⟨t4, -, -⟩ := a1.tok hr2
  obtain ⟨s2, e2, a2, hm2⟩ := expect_at a1 hr2 rfl hg
  have hload : ∀ n, loadParam e (n + 1) s0.c m1 p m0.next = .ok (s2.c, m1) := by
    intro n
    unfold loadParam
    rw [e1]
    simp only [Out.bind_ok]
    rw [parseValue, t4]
    simp only []
    rw [e2]
    simp only [Out.bind_ok]
    have : loadString s2.m { type := .string, text := k } (some (p.2, m0.next)) = s2.m := by
      unfold loadString
      cases hp : p.2 <;> simp [hp, Ty.isEnum] at hty ⊢
    rw [this, hm2, hm1]
  have herr : s2.c.err.code = .none := by
    obtain ⟨-, -, h⟩ := a2.tok (reads_structural _ (b := 93) (ty := .rbracket) rfl rest)
    exact h
  obtain ⟨n, hn⟩ : ∃ n, fuelFor (91 :: (quote k ++ 93 :: rest)) = n + 1 := ⟨_, rfl⟩
  refine ⟨m1, ?_, fun x => rfl⟩
  unfold buildParams
  rw [if_pos (by simp [hnum]), e0]
  simp only [Out.bind_ok, t1, ne_eq, not_true_eq_false, if_false, hn, List.length_singleton]
  rw [paramLoop, show paramAt [p] 0 = some p by simp [paramAt, hnum]]
  simp only [show (m0.alloc (strideOf p.2 p.1.isPtr)).1 = m0.next from rfl]
  rw [show (m0.alloc (strideOf p.2 p.1.isPtr)).2 = m1 from rfl, hload]
  simp [herr, paramLoop]

/-! ### Examples -/

/-- `void f(Outer o, int n, Level l)`, as the database may list it. -/
def demoParams : List Param :=
  [({ name := b!"l", offset := 2 }, tLevel), ({ name := b!"o", offset := 0 }, tOuter), ({ name := b!"n", offset := 1 }, tInt)]

/-- In the order of the call. -/
def demoOrder : List Param :=
  [({ name := b!"o", offset := 0 }, tOuter), ({ name := b!"n", offset := 1 }, tInt), ({ name := b!"l", offset := 2 }, tLevel)]

theorem demo_ordered : Ordered demoParams demoOrder := by
  refine ⟨?_, ?_⟩
  · unfold demoParams demoOrder
    exact (List.Perm.swap _ _ _).trans (.cons _ (List.Perm.swap _ _ _))
  · intro i h
    have : i = 0 ∨ i = 1 ∨ i = 2 := by
      have : demoOrder.length = 3 := rfl
      omega
    rcases this with rfl | rfl | rfl <;> rfl

theorem demo_byValue : ∀ p ∈ demoOrder, ByValue demoEnv {} p := by
  intro p hp
  simp only [demoOrder, List.mem_cons, List.not_mem_nil, or_false] at hp
  rcases hp with rfl | rfl | rfl
  · exact ⟨rfl, rfl, tOuter_supported⟩
  · exact ⟨rfl, rfl, tInt_supported _⟩
  · refine ⟨rfl, rfl, ?_⟩
    rw [tLevel, Supported]
    exact ⟨rfl, by decide, by decide +kernel⟩

theorem demo_savable : ArgsSavable demoEnv outerMem demoOrder [0, 0, 4] := by
  refine .cons outerMem_savable (.cons ?_ (.cons ?_ .nil))
  · show Savable demoEnv outerMem tInt 0
    rw [tInt, Savable]
    intro k hk
    rw [show dispatch demoEnv.lut (Hash.hashText b!"int") = some (.int 4) by decide +kernel] at hk
    cases hk
    refine ⟨?_, by simp⟩
    simp only [Num.Savable]
    decide +kernel
  · show Savable demoEnv outerMem tLevel 4
    rw [tLevel, Savable]
    exact ⟨⟨b!"High", 5⟩, by simp, by decide +kernel⟩

theorem demo_texts : ArgTexts demoEnv {} outerMem
    [b!"{\"level\":\"High\",\"inner\":{\"a\":-1,\"b\":7},\"pair\":[1,2],\"list\":[{\"a\":3,\"b\":0},{\"a\":4,\"b\":0}],\"id\":42}",
      b!" 42", b!" \"High\" "] demoOrder [0, 0, 4] := by
  refine .cons ⟨0, [], b!"{\"level\":\"High\",\"inner\":{\"a\":-1,\"b\":7},\"pair\":[1,2],\"list\":[{\"a\":3,\"b\":0},{\"a\":4,\"b\":0}],\"id\":42}", [],
      by simp [Ws], by simp [Ws], by decide +kernel, rfl⟩
    (.cons ⟨0, [32], b!"42", [], by simp [Ws]; decide, by simp [Ws], by decide +kernel, rfl⟩
      (.cons ⟨0, [32], b!"\"High\"", [32], by simp [Ws]; decide, by simp [Ws]; decide, by decide +kernel, rfl⟩ .nil))

/-- The hypotheses of C76 are met by a function with three parameters that the database lists in another order. -/
example : ∃ objs m', buildParams demoEnv
    (91 :: (joinComma [b!"{\"level\":\"High\",\"inner\":{\"a\":-1,\"b\":7},\"pair\":[1,2],\"list\":[{\"a\":3,\"b\":0},{\"a\":4,\"b\":0}],\"id\":42}",
      b!" 42", b!" \"High\" "] ++ [93])) (memOf []) demoParams = .ok (true, objs, m') ∧
    m'.read (objs.getD 1 0) 4 = [42, 0, 0, 0] := by
  obtain ⟨objs, m', h1, -, -, h4⟩ := C76_arguments_partial (e := demoEnv) (o := {}) rfl demo_ordered (by decide) demo_byValue outerMem
    [0, 0, 4] demo_savable _ demo_texts [] [] (by simp [Ws]) (memOf [])
  refine ⟨objs, m', h1, ?_⟩
  have h5 : Same demoEnv outerMem m' _ tInt 0 (objs.getD 1 0) := (h4 1 (by decide)).2.2
  rw [tInt, Same] at h5
  rw [h5]
  decide +kernel

/-- Too few: the hypotheses of `C76_too_few_refused` are met. -/
example : ∃ objs m', buildParams demoEnv b!"[42]" (memOf [])
    [({ name := b!"n", offset := 0 }, tInt), ({ name := b!"m", offset := 1 }, tInt)] = .ok (false, objs, m') := by
  obtain ⟨objs, m', h, -⟩ := C76_too_few_refused (e := demoEnv) (o := {}) rfl
    (params := [({ name := b!"n", offset := 0 }, tInt), ({ name := b!"m", offset := 1 }, tInt)])
    (given := [({ name := b!"n", offset := 0 }, tInt)]) (more := [({ name := b!"m", offset := 1 }, tInt)])
    ⟨.refl _, by intro i h; have : i = 0 ∨ i = 1 := by simp at h; omega
                 rcases this with rfl | rfl <;> rfl⟩ (by simp) (by decide)
    (by intro p hp; simp at hp; rcases hp with rfl | rfl <;> exact ⟨rfl, rfl, tInt_supported _⟩) outerMem [0]
    (.cons (by
      show Savable demoEnv outerMem tInt 0
      rw [tInt, Savable]
      intro k hk
      rw [show dispatch demoEnv.lut (Hash.hashText b!"int") = some (.int 4) by decide +kernel] at hk
      cases hk
      refine ⟨?_, by simp⟩
      simp only [Num.Savable]
      decide +kernel) .nil) [b!"42"]
    (.cons ⟨0, [], b!"42", [], by simp [Ws], by simp [Ws], by decide +kernel, rfl⟩ .nil) [] [] (by simp [Ws]) (by simp [Ws]) (memOf [])
  exact ⟨objs, m', h⟩

/-- What an example looks at: whether it succeeded and the bytes of the objects. -/
def argOutcome (r : Out (Bool × List Nat × Mem)) (n : Nat) : Option (Bool × List Bytes) :=
  match r with
  | .ok (b, objs, m) => some (b, objs.map fun a => m.read a n)
  | _ => none

/-- Commas and brackets are not looked at, and values after the last parameter are ignored. -/
example : argOutcome (buildParams demoEnv b!"[1:2}" (memOf [])
      [({ name := b!"n", offset := 0 }, tInt), ({ name := b!"m", offset := 1 }, tInt)]) 4 = some (true, [[1, 0, 0, 0], [2, 0, 0, 0]]) ∧
    argOutcome (buildParams demoEnv b!"[1,2,3" (memOf [])
      [({ name := b!"n", offset := 0 }, tInt), ({ name := b!"m", offset := 1 }, tInt)]) 4 = some (true, [[1, 0, 0, 0], [2, 0, 0, 0]]) ∧
    argOutcome (buildParams demoEnv b!"[1] 2 " (memOf [])
      [({ name := b!"n", offset := 0 }, tInt), ({ name := b!"m", offset := 1 }, tInt)]) 4 = some (true, [[1, 0, 0, 0], [2, 0, 0, 0]]) := by
  decide +kernel

/-- A string for a `const char*`. -/
example : argOutcome (buildParams demoEnv b!"[\"text\"]" (memOf [])
    [({ name := b!"s", offset := 0, isPtr := true }, .prim (Hash.hashText b!"char") 1)]) 8 = some (true, [[0, 0, 0, 0, 0, 0, 0, 0]]) := by
  decide +kernel

end Clr.JSON
