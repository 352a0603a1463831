import Verif.Proofs.JSONHooksAgree
import Verif.Props.JSON

/-! What a text does with the functions of the user. -/
namespace Clr.JSON

/-- The value does that, before any text. -/
def DoesV (e : Env) (H : Hooks) (v : Bytes) (t : Ty) (a : Nat) (p : Bool) (arr : Option Nat) (m m' : Mem) : Prop :=
  ∀ {q : Bytes}, Tail e q → ∀ {st : St}, At e (v ++ q) st → st.m = m → ∀ {n : Nat}, v.length ≤ n →
    ∃ st', parseValueH e H n st (some (t, a)) p arr = .ok st' ∧ At e q st' ∧ st'.m = m'

/-- The members do that. -/
def DoesM (e : Env) (H : Hooks) (ct : Ty) (a : Nat) (ms : List (Bytes × Bytes)) (m m' : Mem) : Prop :=
  (ct.allFields.Pairwise fun x y => Hash.hashText x.1.name ≠ Hash.hashText y.1.name) → (∃ h z fl fs bs, ct = .cls h z fl fs bs) → ms ≠ [] →
    ∀ {s : Bytes}, ObjOf s ms → ∀ {q : Bytes} {st : St}, At e (s ++ 125 :: q) st → st.m = m → ∀ {n k : Nat}, s.length ≤ n → s.length ≤ k →
      ∃ st', parseMembers e (parseValueH e H n) k st (some (ct, a)) = .ok st' ∧ At e (125 :: q) st' ∧ st'.m = m'

/-- A pair does that. -/
def DoesP (e : Env) (H : Hooks) (ct : Ty) (a : Nat) (k v : Bytes) (m m' : Mem) : Prop :=
  JVal v → ∀ {w x y : Bytes}, Ws w → JStr k → Ws x → Ws y → ∀ {q : Bytes}, Tail e q → ∀ {st : St},
    At e (w ++ (34 :: (k ++ 34 :: (x ++ 58 :: (y ++ (v ++ q)))))) st → st.m = m → ∀ {n : Nat}, v.length ≤ n →
    ∃ st', parsePair e (parseValueH e H n) st (some (ct, a)) = .ok st' ∧ At e q st' ∧ st'.m = m'

theorem Single.reads {e : Env} {v : Bytes} {tok : Tok} (h : Single e.fl v tok) {q : Bytes} (hq : Tail e q) :
    Reads e.fl.strtod (v ++ q) tok q := by
  cases h with
  | @str s h => simpa using reads_string e.fl.strtod h q
  | @num _ _ c hn ht =>
    obtain ⟨t, -, hr⟩ := reads_number_uniform e.fl.strtod hn
    obtain ⟨c', e1, -⟩ := hr 125 [] (by decide) { rest := v ++ [125] } rfl rfl
    rw [ht] at e1
    injection e1 with e1
    injection e1 with e1 _
    subst e1
    obtain ⟨b, r, rfl, hb⟩ := hq.delim
    exact hr b r hb
  | tru => exact reads_keyword _ 116 b!"rue" .true (.inl ⟨rfl, rfl, rfl⟩) q
  | fls => exact reads_keyword _ 102 b!"alse" .false (.inr (.inl ⟨rfl, rfl, rfl⟩)) q
  | null => exact reads_keyword _ 110 b!"ull" .null (.inr (.inr ⟨rfl, rfl, rfl⟩)) q

theorem Single.length {fl : Floats} {v : Bytes} {tok : Tok} (h : Single fl v tok) : 1 ≤ v.length := by
  cases h with
  | num hn => exact (JVal.num hn).ne_nil
  | _ => simp

theorem custom_does {e : Env} {H : Hooks} {v : Bytes} {tok : Tok} {h fl : BitVec 32} {z a : Nat} {fs : Flds} {bs : Tys} {p : Bool} {m m' : Mem}
    {f : Tok → Nat → Mem → Res Mem} (hv : Single e.fl v tok) (hf : H.load h z = some f) (hc : f tok a m = .ok m') :
    DoesV e H v (.cls h z fl fs bs) a p none m m' := by
  intro q hq st hat hm n hn
  obtain ⟨n, rfl⟩ : ∃ k, n = k + 1 := ⟨n - 1, by have := hv.length; omega⟩
  obtain ⟨h1, h2, h3⟩ := hat.tok (hv.reads hq)
  rw [parseValueH]
  simp only [Hooks.loadOf, hf, Option.map_some, h1, hm, hc, Out.ofRes, Out.bind_ok]
  obtain ⟨st', e1, a1, m1⟩ := nextTok_at (e := e) (st := { st with m := m' }) (r := q) h2 h3 hq.good
  simp only [h1] at e1
  exact ⟨st', e1, a1, m1⟩

theorem plain_does {e : Env} {H : Hooks} {v : Bytes} {t : Ty} {a : Nat} {p : Bool} {arr : Option Nat} {m m' : Mem} (hv : JVal v)
    (hf : NoFunctions H t) (hd : NoDict t) (ha : Alone e v t a p arr m m') : DoesV e H v t a p arr m m' := by
  intro q hq st hat hm n hn
  rw [parseH_agree e H n _ (some (t, a)) _ _ hf]
  obtain ⟨err, ha⟩ := ha
  have hmo : memberOf e (some (.cls 0 0 0 (.cons ⟨b!"v", 0, 0, p, arr⟩ t .nil) .nil, a)) b!"v" = some (⟨b!"v", 0, 0, p, arr⟩, t, a) := by
    simp [memberOf, findField, findOwn, Env.skips]
  have ho : ObjOf (b!"\"v\":" ++ v) [(b!"v", v)] := by
    have := ObjOf.one (w := []) (k := b!"v") (x := []) (y := []) (v := v) (z := []) (by intro b hb; cases hb) (jstr_plain (by decide))
      (by intro b hb; cases hb) (by intro b hb; cases hb) hv (by intro b hb; cases hb)
    simpa using this
  have h1 := load_effect (e := e) (w := []) (by intro b hb; cases hb) ho [] m (hh := 0) (size := 0) (cfl := 0)
    (fs := .cons ⟨b!"v", 0, 0, p, arr⟩ t .nil) (bs := .nil) a (by
      intro x hx f t' a' hm'
      simp only [List.mem_singleton] at hx
      subst hx
      rw [hmo] at hm'
      cases hm'
      exact hd)
  have heq : ([] : Bytes) ++ 123 :: (b!"\"v\":" ++ v ++ 125 :: []) = b!"{\"v\":" ++ (v ++ b!"}") := by simp
  rw [heq, ha] at h1
  simp only [membersEffect, memberEffect, hmo] at h1
  have h2 := value_effect hv hq hat hn (some (t, a)) hd p arr
  rw [hm] at h2
  cases hx : valueEffect e v (some (t, a)) p arr m with
  | ok m2 =>
    rw [hx] at h1 h2
    cases h1 with
    | ok h1 =>
      generalize hy : parseValue e n st (some (t, a)) p arr = r at h2
      cases h2 with
      | ok h2 => exact ⟨_, rfl, h2.1, by rw [h2.2]; exact h1.2.symm⟩
  | trap => rw [hx] at h1; cases h1
  | ub => rw [hx] at h1; cases h1
  | fuel => rw [hx] at h1; cases h1

theorem memberOf_field {e : Env} {h : BitVec 32} {z : Nat} {fl : BitVec 32} {fs : Flds} {bs : Tys} {a : Nat}
    (hd : (Ty.cls h z fl fs bs).allFields.Pairwise fun x y => Hash.hashText x.1.name ≠ Hash.hashText y.1.name) {x : FldInfo × Ty}
    (hx : x ∈ (Ty.cls h z fl fs bs).allFields) (hs : e.skips x.1.flags = false) :
    memberOf e (some (.cls h z fl fs bs, a)) x.1.name = some (x.1, x.2, a + x.1.offset) := by
  unfold memberOf
  simp only [findField_eq]
  have : (Ty.cls h z fl fs bs).allFields.find? (fun y => Hash.hashText y.1.name == Hash.hashText x.1.name) = some x := by
    generalize (Ty.cls h z fl fs bs).allFields = l at *
    induction l with
    | nil => cases hx
    | cons y l ih =>
      rw [List.pairwise_cons] at hd
      rcases List.mem_cons.1 hx with rfl | hx
      · simp
      · rw [List.find?_cons_of_neg (by simpa using hd.1 x hx)]
        exact ih hd.2 hx
  rw [this]
  simp [hs]

theorem pair_does {e : Env} {H : Hooks} {ct : Ty} {a : Nat} {k v : Bytes} {m m' : Mem}
    (h : (∃ f t a', memberOf e (some (ct, a)) k = some (f, t, a') ∧ DoesV e H v t a' f.isPtr f.count m m') ∨
      memberOf e (some (ct, a)) k = none ∧ m' = m) : DoesP e H ct a k v m m' := by
  intro hv w x y hw hk hx hy q hq st hat hm n hn
  have hgv : Good e.fl.strtod (y ++ (v ++ q)) := good_ws hy (hv.good hq)
  obtain ⟨st1, e1, a1, m1⟩ := expect_at hat (reads_ws hw (reads_string _ hk _)) rfl
    (good_ws hx (good_structural _ (by decide) _))
  obtain ⟨st2, e2, a2, m2⟩ := expect_at a1 (reads_ws hx (reads_structural _ (b := 58) (ty := .colon) rfl _)) rfl hgv
  have a3 := (at_ws hy (hv.good hq)).1 a2
  rw [parsePair, e1]
  simp only [Out.bind_ok]
  rw [e2]
  simp only [Out.bind_ok]
  simp only [Tok.isValid, show (TokType.string != TokType.none) = true from rfl,
    show (TokType.colon != TokType.none) = true from rfl, Bool.not_true, Bool.false_eq_true, if_false]
  rcases h with ⟨f, t, a', hmem, hd⟩ | ⟨hmem, rfl⟩
  · rw [hmem]
    exact hd hq a3 (by rw [m2, m1, hm]) hn
  · rw [hmem]
    obtain ⟨st3, e3, a4, m3⟩ := skip_value hv hq a3 hn false none
    rw [parseH_agree e H n _ none _ _ trivial]
    exact ⟨st3, e3, a4, by rw [m3, m2, m1, hm]⟩

theorem members_cons {e : Env} {H : Hooks} {ct : Ty} {a : Nat} {k v : Bytes} {ms : List (Bytes × Bytes)} {m m1 m' : Mem}
    (hp : (ct.allFields.Pairwise fun x y => Hash.hashText x.1.name ≠ Hash.hashText y.1.name) → (∃ h z fl fs bs, ct = .cls h z fl fs bs) →
      DoesP e H ct a k v m m1)
    (hr : DoesM e H ct a ms m1 m') (hn : ms = [] → m' = m1) : DoesM e H ct a ((k, v) :: ms) m m' := by
  intro hd hct _ s ho q st hat hm n j hn' hj
  have hp := hp hd hct
  cases ho with
  | @one w kk x y v z hw hkk hx hy hv hz =>
    simp at hn' hj
    obtain ⟨j, rfl⟩ : ∃ i, j = i + 1 := ⟨j - 1, by omega⟩
    have ht : Tail e (z ++ 125 :: q) := (Tail.structural e (by decide) q).ws hz
    rw [parseMembers]
    obtain ⟨s1, e1, b1, b2⟩ := hp hv hw hkk hx hy ht (by simpa using hat) hm (n := n) (by omega)
    rw [e1]
    have b1 := (at_ws hz (good_structural _ (by decide) q)).1 b1
    obtain ⟨t1, -, -⟩ := b1.tok (reads_structural _ (b := 125) (ty := .rbrace) rfl q)
    simp only [Out.bind_ok, t1]
    exact ⟨s1, rfl, b1, by rw [b2, hn rfl]⟩
  | @more w kk x y v z r m0 ms hw hkk hx hy hv hz hrr =>
    simp at hn' hj
    obtain ⟨j, rfl⟩ : ∃ i, j = i + 1 := ⟨j - 1, by omega⟩
    have ht : Tail e (z ++ 44 :: (r ++ 125 :: q)) := (Tail.structural e (by decide) _).ws hz
    rw [parseMembers]
    obtain ⟨s1, e1, b1, b2⟩ := hp hv hw hkk hx hy ht (by simpa using hat) hm (n := n) (by omega)
    rw [e1]
    have b1 := (at_ws hz (good_structural _ (by decide) _)).1 b1
    obtain ⟨t1, t2, t3⟩ := b1.tok (reads_structural _ (b := 44) (ty := .comma) rfl _)
    obtain ⟨tf, rf, hf, -⟩ := hrr.first e.fl.strtod (125 :: q)
    obtain ⟨s2, e2, a2, m2⟩ := nextTok_at t2 t3 ⟨tf, rf, hf⟩
    simp only [Out.bind_ok, t1, if_true]
    rw [e2]
    simp only [Out.bind_ok]
    exact hr hd hct (by simp) hrr a2 (by rw [m2, b2]) (by omega) (by omega)

/-- The object itself, up to its closing brace. -/
theorem object_does {e : Env} {H : Hooks} {s : Bytes} {ms : List (Bytes × Bytes)} {h fl : BitVec 32} {z a : Nat} {fs : Flds} {bs : Tys}
    {m m1 m' : Mem} (ho : ObjOf s ms) (hne : ms ≠ [])
    (hd : (Ty.cls h z fl fs bs).allFields.Pairwise fun x y => Hash.hashText x.1.name ≠ Hash.hashText y.1.name)
    (hm : DoesM e H (.cls h z fl fs bs) a ms m m1) (hp : After H h z a m1 m') {q : Bytes} {st : St} (hat : At e (123 :: (s ++ 125 :: q)) st)
    (hst : st.m = m) {n : Nat} (hn : s.length ≤ n) :
    ∃ st', parseObjectH e H (n + 1) st (some (.cls h z fl fs bs, a)) = .ok st' ∧ At e (125 :: q) st' ∧ st'.m = m' := by
  have hr := reads_structural e.fl.strtod (b := 123) (ty := .lbrace) rfl (s ++ 125 :: q)
  obtain ⟨x, xs, rfl⟩ := List.exists_cons_of_ne_nil hne
  obtain ⟨tf, rf, hf, hft⟩ := ho.first e.fl.strtod (125 :: q)
  obtain ⟨st1, e1, a1, m1'⟩ := expect_at hat hr rfl ⟨tf, rf, hf⟩
  obtain ⟨t1, -, -⟩ := a1.tok hf
  rw [parseObjectH, objectStep, e1]
  simp only [Out.bind_ok, t1, hft, if_false, Tok.isValid, show (TokType.lbrace != TokType.none) = true from rfl,
    Bool.not_true, Bool.false_eq_true, Ty.isContainer]
  obtain ⟨st2, e2, a2, m2⟩ := hm hd ⟨_, _, _, _, _, rfl⟩ (by simp) ho a1 (by rw [m1', hst]) (n := n) (k := n + 1) hn (by omega)
  rw [e2]
  simp only [Out.bind_ok, Hooks.runPost]
  cases hp with
  | none hp => rw [hp]; exact ⟨st2, rfl, a2, m2⟩
  | call hp hc =>
    rw [hp]
    simp only [m2, hc, Out.ofRes, Out.bind_ok]
    exact ⟨_, rfl, a2.setMem _, rfl⟩

theorem value_brace {e : Env} {H : Hooks} {s : Bytes} {h fl : BitVec 32} {z a : Nat} {fs : Flds} {bs : Tys} {p : Bool}
    {m m' : Mem} (hl : H.load h z = none)
    (hobj : ∀ {q : Bytes} {st : St}, At e (123 :: (s ++ 125 :: q)) st → st.m = m → ∀ {n : Nat}, s.length ≤ n →
      ∃ st', parseObjectH e H (n + 1) st (objectTarget e (some (.cls h z fl fs bs, a))) = .ok st' ∧ At e (125 :: q) st' ∧ st'.m = m') :
    DoesV e H (123 :: (s ++ [125])) (.cls h z fl fs bs) a p none m m' := by
  intro q hq st hat hm n hn
  simp at hn
  obtain ⟨n, rfl⟩ : ∃ k, n = k + 2 := ⟨n - 2, by omega⟩
  have hat : At e (123 :: (s ++ 125 :: q)) st := by simpa using hat
  obtain ⟨t1, -, -⟩ := hat.tok (reads_structural e.fl.strtod (b := 123) (ty := .lbrace) rfl (s ++ 125 :: q))
  rw [parseValueH]
  simp only [Hooks.loadOf, hl, Option.map_none, valueStep, t1]
  obtain ⟨st1, e1, a1, m1⟩ := hobj hat hm (n := n) (by omega)
  rw [e1]
  simp only [Out.bind_ok]
  obtain ⟨st2, e2, a2, m2⟩ := expect_at a1 (reads_structural e.fl.strtod (b := 125) (ty := .rbrace) rfl q) rfl hq.good
  rw [e2]
  exact ⟨st2, rfl, a2, by rw [m2, m1]⟩

theorem empty_object {e : Env} {H : Hooks} {w : Bytes} (hw : Ws w) (tgt : Target) {q : Bytes} {st : St}
    (hat : At e (123 :: (w ++ 125 :: q)) st) (n : Nat) :
    ∃ st', parseObjectH e H (n + 1) st tgt = .ok st' ∧ At e (125 :: q) st' ∧ st'.m = st.m := by
  have hr2 := reads_structural e.fl.strtod (b := 125) (ty := .rbrace) rfl q
  obtain ⟨st1, e1, a1, m1⟩ := expect_at hat (reads_structural e.fl.strtod (b := 123) (ty := .lbrace) rfl (w ++ 125 :: q)) rfl
    (good_ws hw (good_structural _ (by decide) q))
  obtain ⟨t1, -, -⟩ := a1.tok (reads_ws hw hr2)
  rw [parseObjectH, objectStep, e1]
  simp only [Out.bind_ok, t1, Tok.isValid, if_true]
  exact ⟨st1, rfl, (at_ws hw (good_structural _ (by decide) q)).1 a1, m1⟩

theorem transient_does {e : Env} {H : Hooks} {v : Bytes} {h fl : BitVec 32} {z a : Nat} {fs : Flds} {bs : Tys} {p : Bool} {m : Mem}
    {s : Bytes} (hs : v = 123 :: (s ++ [125])) (hl : H.load h z = none) (hsk : e.skips fl = true) (hj : JVal v) :
    DoesV e H v (.cls h z fl fs bs) a p none m m := by
  intro q hq st hat hm n hn
  obtain ⟨st1, e1, a1, m1⟩ := skip_value hj hq hat hn p none
  rw [← parseH_agree e H n _ none _ _ trivial] at e1
  refine ⟨st1, ?_, a1, by rw [m1, hm]⟩
  subst hs
  have hat' : At e (123 :: (s ++ 125 :: q)) st := by simpa using hat
  obtain ⟨t1, -, -⟩ := hat'.tok (reads_structural e.fl.strtod (b := 123) (ty := .lbrace) rfl (s ++ 125 :: q))
  cases n with
  | zero => simp at hn
  | succ n =>
    rw [parseValueH] at e1 ⊢
    simp only [Hooks.loadOf, hl, Option.map_none, valueStep, t1, objectTarget, hsk, if_true] at e1 ⊢
    exact e1

/-- The elements do that. -/
def DoesE (e : Env) (H : Hooks) (w : Writer) (vs : List Bytes) (m m' : Mem) : Prop :=
  ∀ {s : Bytes}, ListOf s vs → ∀ {q : Bytes} {st : St}, At e (s ++ 93 :: q) st → st.m = m → ∀ {n k : Nat}, s.length ≤ n → s.length ≤ k →
    ∃ c st', parseElements e (parseValueH e H n) k (some w) st = .ok (c, st') ∧ At e (93 :: q) st' ∧ st'.m = m'

theorem ListOf.elems {s : Bytes} {vs : List Bytes} (h : ListOf s vs) : JElems s := by
  induction h with
  | one hw hv hx => exact .one hw hv hx
  | more hw hv hx _ ih => exact .more hw hv hx ih

theorem elems_consH {e : Env} {H : Hooks} {w w' : Writer} {v : Bytes} {vs : List Bytes} {x : Nat} {m m0 m1 m' : Mem}
    (ha : w.addEmpty m = .ok (x, w', m0)) (hd : DoesV e H v w.elem.1 x w.elem.2 none m0 m1) (hr : DoesE e H w' vs m1 m')
    (hnil : vs = [] → m' = m1) : DoesE e H w (v :: vs) m m' := by
  intro s ho q st hat hm n k hn hk
  cases ho with
  | @one u v y hu hv hy =>
    have := hv.ne_nil
    simp at hn hk
    obtain ⟨k, rfl⟩ : ∃ j, k = j + 1 := ⟨k - 1, by omega⟩
    have ht : Tail e (y ++ 93 :: q) := (Tail.structural e (by decide) q).ws hy
    have a1 : At e (v ++ (y ++ 93 :: q)) st := (at_ws hu (hv.good ht)).1 (by simpa using hat)
    obtain ⟨s1, e1, b1, b2⟩ := hd ht (a1.setMem m0) rfl (n := n) (by omega)
    have b1 := (at_ws hy (good_structural _ (by decide) q)).1 b1
    obtain ⟨t1, -, -⟩ := b1.tok (reads_structural _ (b := 93) (ty := .rbracket) rfl q)
    rw [parseElements, hm, ha]
    simp only [Out.bind_ok, e1, t1]
    exact ⟨_, s1, rfl, b1, by rw [b2, hnil rfl]⟩
  | @more u v y r u' vs hu hv hy hrr =>
    have := hv.ne_nil
    simp at hn hk
    obtain ⟨k, rfl⟩ : ∃ j, k = j + 1 := ⟨k - 1, by omega⟩
    have ht : Tail e (y ++ 44 :: (r ++ 93 :: q)) := (Tail.structural e (by decide) _).ws hy
    have a1 : At e (v ++ (y ++ 44 :: (r ++ 93 :: q))) st := (at_ws hu (hv.good ht)).1 (by simpa using hat)
    obtain ⟨s1, e1, b1, b2⟩ := hd ht (a1.setMem m0) rfl (n := n) (by omega)
    have b1 := (at_ws hy (good_structural _ (by decide) _)).1 b1
    obtain ⟨t1, t2, t3⟩ := b1.tok (reads_structural _ (b := 44) (ty := .comma) rfl _)
    obtain ⟨tf, rf, hf, -⟩ := hrr.elems.first e.fl.strtod (b := 93) (q := q) (by decide)
    obtain ⟨s2, e2, a2, m2⟩ := nextTok_at t2 t3 ⟨tf, rf, hf⟩
    obtain ⟨c, s3, e3, a3, m3⟩ := hr hrr a2 (by rw [m2, b2]) (n := n) (k := k) (by omega) (by omega)
    rw [parseElements, hm, ha]
    simp only [Out.bind_ok, e1, t1, ne_eq, not_true_eq_false, if_false, e2, e3]
    exact ⟨_, s3, rfl, a3, m3⟩

theorem array_does {e : Env} {H : Hooks} {s : Bytes} {vs : List Bytes} (ho : ListOf s vs) {t : Ty} {a : Nat} {p : Bool} {arr : Option Nat}
    (hl : NoLoad H t) {w : Writer} {m m0 m' : Mem}
    (hw : ∀ {q : Bytes} {st : St}, At e (s ++ 93 :: q) st → st.m = m → ∀ {n k : Nat}, s.length ≤ n → s.length ≤ k →
      ∃ st', arrayWriter e (parseValueH e H n) k st (some (t, a)) p arr = .ok (some w, st') ∧ At e (s ++ 93 :: q) st' ∧ st'.m = m0)
    (hE : DoesE e H w vs m0 m') : DoesV e H (91 :: (s ++ [93])) t a p arr m m' := by
  intro q hq st hat hm n hn
  simp at hn
  obtain ⟨n, rfl⟩ : ∃ k, n = k + 1 := ⟨n - 1, by omega⟩
  have hat : At e (91 :: (s ++ 93 :: q)) st := by simpa using hat
  have hr := reads_structural e.fl.strtod (b := 91) (ty := .lbracket) rfl (s ++ 93 :: q)
  obtain ⟨h1, -, -⟩ := hat.tok hr
  obtain ⟨tf, rf, hf, hft⟩ := ho.elems.first e.fl.strtod (b := 93) (q := q) (by decide)
  obtain ⟨st1, e1, a1, m1⟩ := expect_at hat hr rfl ⟨tf, rf, hf⟩
  obtain ⟨t1, -, -⟩ := a1.tok hf
  obtain ⟨st2, e2, a2, m2⟩ := hw a1 (by rw [m1, hm]) (n := n) (k := n + 1) (by omega) (by omega)
  obtain ⟨c, st3, e3, a3, m3⟩ := hE ho a2 m2 (n := n) (k := n + 1) (by omega) (by omega)
  obtain ⟨st4, e4, a4, m4⟩ := expect_at a3 (reads_structural e.fl.strtod (b := 93) (ty := .rbracket) rfl q) rfl hq.good
  have hlo : H.loadOf (some (t, a)) = none := by
    unfold Hooks.loadOf
    split
    · rename_i he
      cases he
      simp only [NoLoad] at hl
      rw [hl]; rfl
    · rfl
  rw [parseValueH, hlo]
  simp only [valueStep, h1]
  rw [parseArray, e1]
  simp only [Out.bind_ok, Tok.isValid, show (TokType.lbracket != TokType.none) = true from rfl, Bool.not_true, Bool.false_eq_true, if_false, t1, hft]
  rw [e2]
  simp only [Out.bind_ok]
  rw [e3]
  simp only [Out.bind_ok]
  rw [e4]
  exact ⟨st4, rfl, a4, by rw [m4, m3]⟩

theorem list_does {e : Env} {H : Hooks} {s : Bytes} {vs : List Bytes} {h : BitVec 32} {z a : Nat} {t : Ty} {q p : Bool} {m m' : Mem}
    (ho : ListOf s vs) (hE : DoesE e H (.cont t q a) vs (m.setElems a []) m') : DoesV e H (91 :: (s ++ [93])) (.vec h z t q) a p none m m' := by
  refine array_does ho (t := .vec h z t q) trivial (fun {q' st} hat hst {n k} hn hk => ?_) hE
  obtain ⟨j, s1, e1, a1, m1⟩ := skip_elems ho.elems (b := 93) (q := q') (by decide) (by decide) hat hn hk
  rw [← elements_agree (parseH_agree e H n) k none st trivial] at e1
  unfold arrayWriter
  dsimp only
  rw [e1]
  exact ⟨_, rfl, hat.back _ a1.err _ _, by simp only [m1, hst]⟩

theorem stored_does {e : Env} {H : Hooks} {s : Bytes} {vs : List Bytes} {a n : Nat} {t : Ty} {p : Bool} {m m' : Mem} (hl : NoLoad H t)
    (ho : ListOf s vs) (hE : DoesE e H (.arr t p a (n * strideOf t p) 0) vs m m') : DoesV e H (91 :: (s ++ [93])) t a p (some n) m m' :=
  array_does ho hl (fun {_ st} hat hst {_ _} _ _ => ⟨st, rfl, hat, hst⟩) hE

theorem does_value {e : Env} {H : Hooks} {v : Bytes} {t : Ty} {a : Nat} {p : Bool} {arr : Option Nat} {m m' : Mem}
    (h : Does e H v t a p arr m m') : DoesV e H v t a p arr m m' := by
  refine Does.rec (motive_1 := fun v t a p arr m m' _ => DoesV e H v t a p arr m m')
    (motive_2 := fun ct a ms m m' _ => DoesM e H ct a ms m m' ∧ (ms = [] → m' = m))
    (motive_3 := fun t p c vs m m' _ => DoesE e H (.cont t p c) vs m m' ∧ (vs = [] → m' = m))
    (motive_4 := fun t p a vs m m' _ => ∀ base limit pos, a = base + pos → pos + vs.length * slotBytes t p ≤ limit → 0 < slotBytes t p →
      DoesE e H (.arr t p base limit pos) vs m m' ∧ (vs = [] → m' = m)) ?_ ?_ ?_ ?_ ?_ ?_ ?_ ?_ ?_ ?_ ?_ ?_ ?_ ?_ h
  · intro v tok h fl z a fs bs p m m' f hv hf hc
    exact custom_does hv hf hc
  · intro s ms h fl z a fs bs p m m1 m' hl hs ho hne hd hm hp ih
    refine value_brace hl fun {q st} hat hst {n} hn => ?_
    simp only [objectTarget, hs, Bool.false_eq_true, if_false]
    exact object_does ho hne hd ih.1 hp hat hst hn
  · intro w h fl z a fs bs p m hl hw
    refine value_brace hl fun {q st} hat hst {n} hn => ?_
    subst hst
    exact empty_object hw _ hat n
  · intro s ms h fl z a fs bs p m hl hs ho hj
    exact transient_does rfl hl hs hj
  · intro s vs h z a t q p m m' ho hm ih
    exact list_does ho ih.1
  · intro s vs a n t p m m' hl ho hn hz hm ih
    refine stored_does hl ho (ih a (n * strideOf t p) 0 rfl ?_ hz).1
    have : slotBytes t p = strideOf t p := rfl
    rw [this]
    have := Nat.mul_le_mul_right (strideOf t p) hn
    omega
  · intro v t a p n m m' hv hf hd ha
    exact plain_does hv hf hd ha
  · intro ct a m
    exact ⟨fun _ _ h => absurd rfl h, fun _ => rfl⟩
  · intro ct a v ms m m1 m' x hx hs hv hr ih ihr
    refine ⟨members_cons (fun hd hct => ?_) ihr.1 ihr.2, fun h => by cases h⟩
    obtain ⟨h, z, fl, fs, bs, rfl⟩ := hct
    exact pair_does (.inl ⟨_, _, _, memberOf_field hd hx hs, ih⟩)
  · intro ct a k v ms m m' hu hr ihr
    refine ⟨members_cons (fun hd hct => ?_) ihr.1 ihr.2, fun h => by cases h⟩
    obtain ⟨h, z, fl, fs, bs, rfl⟩ := hct
    exact pair_does (.inr ⟨memberOf_unknown hu, rfl⟩)
  · intro t p c m
    exact ⟨(by intro s ho; cases ho), fun _ => rfl⟩
  · intro t p c v vs m m1 m' hv hr ih ihr
    exact ⟨elems_consH (w := .cont t p c) (x := m.next) rfl ih ihr.1 ihr.2, fun h => by cases h⟩
  · intro t p a m base limit pos _ _ _
    exact ⟨(by intro s ho; cases ho), fun _ => rfl⟩
  · intro t p a v vs m m1 m' hv hr ih ihr base limit pos hpos hlim hz
    have hlt : pos < limit := by
      have : 0 < (v :: vs).length * slotBytes t p := Nat.mul_pos (by simp) hz
      omega
    obtain ⟨h1, h2⟩ := ihr base limit (pos + slotBytes t p) (by omega) (by
      simp only [List.length_cons, Nat.add_mul, Nat.one_mul] at hlim
      omega) hz
    refine ⟨elems_consH (w := .arr t p base limit pos) (x := a) ?_ ih h1 h2, fun h => by cases h⟩
    unfold Writer.addEmpty
    simp only [hlt, if_true, hpos]
    rfl

theorem does_members {e : Env} {H : Hooks} {ct : Ty} {a : Nat} {ms : List (Bytes × Bytes)} {m m' : Mem} (h : MembersDo e H ct a ms m m') :
    DoesM e H ct a ms m m' ∧ (ms = [] → m' = m) := by
  induction ms generalizing m with
  | nil =>
    cases h
    exact ⟨fun _ _ h => absurd rfl h, fun _ => rfl⟩
  | cons y ys ih =>
    cases h with
    | @field _ _ v _ _ m1 _ x hx hs hv hr =>
      refine ⟨members_cons (fun hd hct => ?_) (ih hr).1 (ih hr).2, fun h => by cases h⟩
      obtain ⟨h, z, fl, fs, bs, rfl⟩ := hct
      exact pair_does (.inl ⟨_, _, _, memberOf_field hd hx hs, does_value hv⟩)
    | unknown hu hr =>
      refine ⟨members_cons (fun hd hct => ?_) (ih hr).1 (ih hr).2, fun h => by cases h⟩
      obtain ⟨h, z, fl, fs, bs, rfl⟩ := hct
      exact pair_does (.inr ⟨memberOf_unknown hu, rfl⟩)

end Clr.JSON
