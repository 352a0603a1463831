import Verif.Proofs.JSONClass

/-! Dictionaries from enums to classes are saved and loaded back. -/
namespace Clr.JSON

/-- The text of a class value begins with a brace. -/
theorem class_text {e : Env} {o : Opts} {t : Ty} (hc : t.isClass = true) (hs : Supported e o t) {m : Mem} {indent a : Nat}
    {text : Bytes} (h : saveObj e o m t indent a = .ok text) : ∃ w r, text = w ++ 123 :: r ∧ Ws w := by
  match t, hc with
  | .cls hh s fl fs bs, _ =>
    have hfl : e.skips fl = false := by rw [Supported] at hs; exact hs.1
    rw [saveObj] at h
    simp only [hfl, Bool.false_eq_true, if_false] at h
    obtain ⟨t, -, h2⟩ := Res.bind_eq_ok.1 h
    cases h2
    exact ⟨newLine o indent, newLine o (indent + 1) ++ (t ++ closeScope o indent), by simp [openScope], newLine_ws o indent⟩

/-- The text of an enum value is a string. -/
theorem enum_text {e : Env} {o : Opts} {t : Ty} (hc : t.isEnum = true) (hs : Supported e o t) (m : Mem) (a indent : Nat)
    (hsav : Savable e m t a) :
    ∃ k, saveObj e o m t indent a = .ok (quote k) ∧ JStr k ∧ Loads e (quote k) none t m a := by
  obtain ⟨text, h1, h2⟩ := (by
    match t, hc with
    | .enum hh s cs fl, _ => exact rt_enum hs : RT e o t) m a indent hsav
  match t, hc with
  | .enum hh s cs fl, _ =>
    rw [Supported] at hs
    rw [Savable] at hsav
    obtain ⟨k, h3, h4, -⟩ := enum_round_trip hs.2 fl _ hsav
    rw [saveObj, h3] at h1
    cases h1
    exact ⟨k, by rw [saveObj, h3], h4, h2⟩

/-- What an enum takes: four bytes. -/
theorem enum_size {e : Env} {o : Opts} {t : Ty} (hc : t.isEnum = true) (hs : Supported e o t) : t.size = 4 := by
  match t, hc with
  | .enum hh s cs fl, _ =>
    rw [Supported] at hs
    exact hs.1

theorem enum_same {e : Env} {t : Ty} (hc : t.isEnum = true) {m m' : Mem} {R : Nat → Prop} {a b : Nat} :
    Same e m m' R t a b ↔ m'.read b t.size = m.read a t.size := by
  match t, hc with
  | .enum hh s cs fl, _ => rw [Same]; rfl

/-- A class is read as an object and a brace. -/
theorem class_value {e : Env} {o : Opts} {t : Ty} (hc : t.isClass = true) (hs : Supported e o t) {st : St} {n b : Nat}
    (ht : st.t.type = .lbrace) : parseValue e (n + 1) st (some (t, b)) false none = (do
      let s ← parseObject e n st (some (t, b))
      let r ← expect e s .rbrace
      .ok r.2) := by
  match t, hc with
  | .cls hh s fl fs bs, _ =>
    have hfl : e.skips fl = false := by rw [Supported] at hs; exact hs.1
    rw [parseValue, ht]
    simp only [objectTarget, hfl, Bool.false_eq_true, if_false]

theorem addKey_elems (m : Mem) (a key : Nat) (kt vt : Ty) (x : Nat) :
    (addKey m a key kt vt false).2.elems x =
      if x = a then m.elems a ++ [(m.next, m.next + kt.size)]
      else if m.next + kt.size ≤ x ∧ x < m.next + kt.size + vt.size then []
      else if m.next ≤ x ∧ x < m.next + kt.size then [] else m.elems x := rfl

theorem addKey_byte (m : Mem) (a key : Nat) (kt vt : Ty) (x : Nat) :
    (addKey m a key kt vt false).2.byte x =
      if m.next ≤ x then ((m.read key kt.size)[x - m.next]?).getD (m.byte x) else m.byte x := rfl

/-- Texts of the members of a dictionary: loading them adds them. -/
structure DictLoad (e : Env) (text : Bytes) (kt vt : Ty) (m : Mem) (as : List (Nat × Nat)) : Prop where
  members : JMembers text
  load : ∀ (q : Bytes) (st : St) (n n' addr : Nat), At e (text ++ 125 :: q) st → text.length ≤ n →
    text.length ≤ n' → addr < st.m.next →
    ∃ st' news, dictLoop e (parseValue e n) (parseObject e n) kt vt false addr n' st = .ok st' ∧
      At e (125 :: q) st' ∧ Effect st.m st'.m (fun x => x = addr) ∧
      st'.m.elems addr = st.m.elems addr ++ news ∧ news.length = as.length ∧
      ∀ i, i < as.length →
        (∀ x, (news.getD i (0, 0)).1 ≤ x → x < (news.getD i (0, 0)).1 + kt.size → Fresh st.m st'.m x) ∧
        (∀ x, (news.getD i (0, 0)).2 ≤ x → x < (news.getD i (0, 0)).2 + vt.size → Fresh st.m st'.m x) ∧
        Same e m st'.m (Fresh st.m st'.m) kt (as.getD i (0, 0)).1 (news.getD i (0, 0)).1 ∧
        Same e m st'.m (Fresh st.m st'.m) vt (as.getD i (0, 0)).2 (news.getD i (0, 0)).2

/-- One step of the loop over the members of a dictionary. -/
theorem dict_step {e : Env} {o : Opts} {k vtext : Bytes} {kt vt : Ty} {m : Mem} {ka va : Nat} (hke : kt.isEnum = true)
    (hks : Supported e o kt) (hvc : vt.isClass = true) (hvs : Supported e o vt) (hk : JStr k)
    (hkl : Loads e (quote k) none kt m ka) (hvl : Loads e vtext none vt m va) (hbrace : ∃ w r, vtext = w ++ 123 :: r ∧ Ws w)
    {q : Bytes} (hq : Tail e q) {st : St} (n n' addr : Nat) (hat : At e (quote k ++ 58 :: (vtext ++ q)) st)
    (hn : (quote k).length ≤ n) (hn2 : vtext.length ≤ n) (haddr : addr < st.m.next) :
    ∃ st' kb vb, (dictLoop e (parseValue e n) (parseObject e n) kt vt false addr (n' + 1) st =
        if st'.t.type = .comma then do
          let s ← nextTok e st'
          dictLoop e (parseValue e n) (parseObject e n) kt vt false addr n' s
        else dictLoop e (parseValue e n) (parseObject e n) kt vt false addr n' st') ∧
      At e q st' ∧ Effect st.m st'.m (fun x => x = addr) ∧
      st'.m.elems addr = st.m.elems addr ++ [(kb, vb)] ∧
      (∀ x, kb ≤ x → x < kb + kt.size → Fresh st.m st'.m x) ∧ (∀ x, vb ≤ x → x < vb + vt.size → Fresh st.m st'.m x) ∧
      Same e m st'.m (Fresh st.m st'.m) kt ka kb ∧ Same e m st'.m (Fresh st.m st'.m) vt va vb := by
  have hksz := enum_size hke hks
  -- the key
  let mB : Mem := (st.m.alloc 128).2
  have hBn : mB.next = st.m.next + 128 := rfl
  have hBe : ∀ x, x < st.m.next → mB.elems x = st.m.elems x := by
    intro x hx
    simp only [mB, Mem.alloc]
    rw [if_neg (by omega)]
  have hBc : Clear mB st.m.next kt.size := by
    intro x h1 h2
    simp only [mB, Mem.alloc]
    rw [if_pos ⟨h1, by omega⟩]
  have hq1 : Tail e (58 :: (vtext ++ q)) := Tail.structural e (by decide) _
  obtain ⟨s1, e1, a1, ef1, sm1⟩ := hkl.2 _ hq1 { st with m := mB } st.m.next n (hat.setMem mB) hn
    (by simp only [cellSize, hBn]; omega) (by simpa [cellSize] using hBc)
  have sm1 := enum_same hke |>.1 (sm1.1 rfl)
  simp only [] at ef1
  have ef1n := ef1.next
  rw [hBn] at ef1n
  have htk : ∀ x, CellTouched e none kt st.m.next x → st.m.next ≤ x := fun x hx =>
    (touched_within kt hks _ _ (cellTouched_none.1 hx)).1
  -- the colon
  obtain ⟨s2, e2, a2, m2⟩ := expect_at a1 (reads_structural _ (b := 58) (ty := .colon) rfl _) rfl (hvl.1.good hq)
  -- the element
  let kb := s2.m.next
  let vb := s2.m.next + kt.size
  let mV : Mem := (addKey s2.m addr st.m.next kt vt false).2
  have hvb : (addKey s2.m addr st.m.next kt vt false).1 = vb := rfl
  have hVn : mV.next = vb + vt.size := rfl
  have hs2n : st.m.next + 128 ≤ s2.m.next := by rw [m2]; exact ef1n
  have hVe : ∀ x, x < s2.m.next → x ≠ addr → mV.elems x = s2.m.elems x := by
    intro x hx hne
    rw [addKey_elems, if_neg hne, if_neg (by omega), if_neg (by omega)]
  have hVa : mV.elems addr = s2.m.elems addr ++ [(kb, vb)] := by
    rw [addKey_elems, if_pos rfl]
  have hVc : Clear mV vb vt.size := by
    intro x h1 h2
    rw [addKey_elems, if_neg (by omega), if_pos ⟨h1, h2⟩]
  have hVb : ∀ x, x < s2.m.next → mV.byte x = s2.m.byte x := by
    intro x hx
    rw [addKey_byte, if_neg (by omega)]
  have hVk : mV.read kb kt.size = m.read ka kt.size := by
    have h := read_write ((s2.m.alloc kt.size).2.alloc (strideOf vt false)).2 kb (s2.m.read st.m.next kt.size)
    rw [read_length] at h
    rw [← sm1, ← m2, ← h]
    exact read_congr fun x _ _ => rfl
  obtain ⟨s3, e3, a3, ef3, sm3⟩ := hvl.2 q hq { s2 with m := mV } vb (n + 1) (a2.setMem mV) (by omega)
    (by simp only [cellSize, hVn]; omega) (by simpa [cellSize] using hVc)
  simp only [] at ef3
  have ef3n := ef3.next
  rw [hVn] at ef3n
  have htv : ∀ x, CellTouched e none vt vb x → vb ≤ x := fun x hx =>
    (touched_within vt hvs _ _ (cellTouched_none.1 hx)).1
  have hkbn : st.m.next + 128 ≤ kb := hs2n
  have hvbe : vb = kb + kt.size := rfl
  -- the token
  have hlb : s2.t.type = .lbrace := by
    obtain ⟨w, r, rfl, hw⟩ := hbrace
    have hg : Good e.fl.strtod (123 :: (r ++ q)) := good_structural _ (by decide) _
    have a2' : At e (w ++ 123 :: (r ++ q)) s2 := by simpa using a2
    obtain ⟨t1, -, -⟩ := ((at_ws hw hg).1 a2').tok (reads_structural _ (b := 123) (ty := .lbrace) rfl _)
    rw [t1]
  rw [class_value hvc hvs (by exact hlb)] at e3
  obtain ⟨s4, e4, e5⟩ := Out.bind_eq_ok.1 e3
  obtain ⟨s5, e5, e6⟩ := Out.bind_eq_ok.1 e5
  have e6 : s5.2 = s3 := by cases e6; rfl
  have hstr : st.t = { type := .string, text := k } := by
    have hr : Reads e.fl.strtod (quote k ++ 58 :: (vtext ++ q)) { type := .string, text := k } (58 :: (vtext ++ q)) := by
      have := reads_string e.fl.strtod hk (58 :: (vtext ++ q))
      simpa [quote] using this
    exact (hat.tok hr).1
  refine ⟨s3, kb, vb, ?_, a3, ⟨?_, ?_, ?_⟩, ?_, ?_, ?_, ?_, ?_⟩
  · rw [dictLoop, hstr]
    simp only [Tok.isValid, show (TokType.string != TokType.none) = true from rfl,
      show (TokType.string != TokType.rbrace) = true from rfl, Bool.and_true, if_true]
    rw [if_pos (by omega)]
    rw [← hstr]
    rw [show ({ t := st.t, c := st.c, m := (st.m.alloc 128).2 } : St) = { st with m := mB } from rfl,
      show (st.m.alloc 128).1 = st.m.next from rfl, e1]
    simp only [Out.bind_ok]
    rw [e2]
    simp only [Out.bind_ok, show (TokType.colon != TokType.none) = true from rfl, Bool.not_true, Bool.false_eq_true, if_false]
    rw [show ({ t := s2.t, c := s2.c, m := (addKey s2.m addr st.m.next kt vt false).2 } : St) = { s2 with m := mV } from rfl,
      hvb, e4]
    simp only [Out.bind_ok]
    rw [e5]
    simp only [Out.bind_ok, e6]
  · omega
  · intro x hx hne
    rw [ef3.byte x (by rw [hVn]; omega) (fun hh => by have := htv x hh; omega), hVb x (by omega), m2,
      ef1.byte x (by rw [hBn]; omega) (fun hh => by have := htk x hh; omega)]
    rfl
  · intro x hx hne
    rw [ef3.elems x (by rw [hVn]; omega) (fun hh => by have := htv x hh; omega), hVe x (by omega) hne, m2,
      ef1.elems x (by rw [hBn]; omega) (fun hh => by have := htk x hh; omega), hBe x hx]
  · rw [ef3.elems addr (by rw [hVn]; omega) (fun hh => by have := htv addr hh; omega), hVa, m2,
      ef1.elems addr (by rw [hBn]; omega) (fun hh => by have := htk addr hh; omega), hBe addr haddr]
  · intro x h1 h2
    exact ⟨by omega, by omega⟩
  · intro x h1 h2
    exact ⟨by omega, by omega⟩
  · rw [enum_same hke, ← hVk]
    refine read_congr fun x h1 h2 => ?_
    exact ef3.byte x (by rw [hVn]; omega) (fun hh => by have := htv x hh; omega)
  · refine same_congr vt hvs (sm3.1 rfl) (fun x hx => ?_) (fun x _ => ⟨rfl, rfl⟩)
    simp only [Fresh, hVn] at hx
    exact ⟨by omega, hx.2⟩

theorem quote_pos (k : Bytes) : 2 ≤ (quote k).length := by simp [quote]

theorem dict_one {e : Env} {o : Opts} {k vtext : Bytes} {kt vt : Ty} {m : Mem} {a : Nat × Nat} (hke : kt.isEnum = true)
    (hks : Supported e o kt) (hvc : vt.isClass = true) (hvs : Supported e o vt) (hk : JStr k)
    (hkl : Loads e (quote k) none kt m a.1) (hvl : Loads e vtext none vt m a.2)
    (hbrace : ∃ w r, vtext = w ++ 123 :: r ∧ Ws w) : DictLoad e (quote k ++ 58 :: vtext) kt vt m [a] := by
  refine ⟨?_, ?_⟩
  · obtain ⟨w, v, x, rfl, hw, hv, hx⟩ := hvl.1
    have := JMembers.one (w := []) (by simp [Ws]) hk (x := []) (by simp [Ws]) hw hv hx
    simpa [quote] using this
  · intro q st n n' addr hat hn hn' haddr
    have hkp := quote_pos k
    simp only [List.length_append, List.length_cons] at hn hn'
    obtain ⟨n', rfl⟩ : ∃ j, n' = j + 2 := ⟨n' - 2, by omega⟩
    obtain ⟨st', kb, vb, e1, a1, ef, hel, rk, rv, sk, sv⟩ := dict_step hke hks hvc hvs hk hkl hvl hbrace
      (Tail.structural e (b := 125) (by decide) q) n (n' + 1) addr (by simpa using hat) (by omega) (by omega) haddr
    obtain ⟨t1, -, -⟩ := a1.tok (reads_structural _ (b := 125) (ty := .rbrace) rfl q)
    refine ⟨st', [(kb, vb)], ?_, a1, ef, hel, rfl, ?_⟩
    · rw [e1, if_neg (by rw [t1]; decide), dictLoop, t1]
      simp
    · intro i hi
      obtain rfl : i = 0 := by simpa using hi
      exact ⟨rk, rv, sk, sv⟩

theorem dict_cons {e : Env} {o : Opts} {k vtext r : Bytes} {kt vt : Ty} {m : Mem} {a : Nat × Nat} {as : List (Nat × Nat)}
    (hke : kt.isEnum = true) (hks : Supported e o kt) (hvc : vt.isClass = true) (hvs : Supported e o vt) (hk : JStr k)
    (hkl : Loads e (quote k) none kt m a.1) (hvl : Loads e vtext none vt m a.2)
    (hbrace : ∃ w r, vtext = w ++ 123 :: r ∧ Ws w) (hr : DictLoad e r kt vt m as) :
    DictLoad e (quote k ++ 58 :: (vtext ++ 44 :: r)) kt vt m (a :: as) := by
  refine ⟨?_, ?_⟩
  · obtain ⟨w, v, x, rfl, hw, hv, hx⟩ := hvl.1
    have := JMembers.more (w := []) (by simp [Ws]) hk (x := []) (by simp [Ws]) hw hv hx hr.members
    simpa [quote] using this
  · intro q st n n' addr hat hn hn' haddr
    have hkp := quote_pos k
    simp only [List.length_append, List.length_cons] at hn hn'
    obtain ⟨n', rfl⟩ : ∃ j, n' = j + 1 := ⟨n' - 1, by omega⟩
    obtain ⟨st', kb, vb, e1, a1, ef, hel, rk, rv, sk, sv⟩ := dict_step hke hks hvc hvs hk hkl hvl hbrace
      (Tail.structural e (b := 44) (by decide) (r ++ 125 :: q)) n n' addr (by simpa using hat) (by omega) (by omega) haddr
    obtain ⟨t1, t2, t3⟩ := a1.tok (reads_structural _ (b := 44) (ty := .comma) rfl (r ++ 125 :: q))
    obtain ⟨tf, rf, hf, -⟩ := hr.members.first e.fl.strtod (125 :: q)
    obtain ⟨st2, e2, a2, m2⟩ := nextTok_at t2 t3 ⟨tf, rf, hf⟩
    have hnx := ef.next
    obtain ⟨st3, news, e3, a3, ef3, hel3, hlen3, sm3⟩ := hr.load q st2 n n' addr a2 (by omega) (by omega) (by rw [m2]; omega)
    rw [m2] at ef3 hel3 sm3
    have hnx3 := ef3.next
    have hmono : ∀ x, Fresh st.m st'.m x → Fresh st.m st3.m x := fun x hx => ⟨hx.1, by have := hx.2; omega⟩
    have hmono3 : ∀ x, Fresh st'.m st3.m x → Fresh st.m st3.m x := fun x hx => ⟨by have := hx.1; omega, hx.2⟩
    have hkeep : ∀ x, Fresh st.m st'.m x → st3.m.byte x = st'.m.byte x ∧ st3.m.elems x = st'.m.elems x := fun x hx =>
      ⟨ef3.byte x hx.2 (by have := hx.1; omega), ef3.elems x hx.2 (by have := hx.1; omega)⟩
    refine ⟨st3, (kb, vb) :: news, ?_, a3, ?_, ?_, by simp [hlen3], ?_⟩
    · rw [e1, t1]
      simp only [if_true]
      rw [e2]
      simp only [Out.bind_ok]
      exact e3
    · exact (ef.trans ef3).mono fun x hx => hx.elim id id
    · rw [hel3, hel]; simp
    · intro i hi
      cases i with
      | zero =>
        simp only [List.getD_cons_zero]
        refine ⟨fun x h1 h2 => hmono x (rk x h1 h2), fun x h1 h2 => hmono x (rv x h1 h2), ?_, ?_⟩
        · refine same_congr kt hks sk hmono fun x hx => hkeep x ?_
          rcases hx with hx | hx
          · have := touched_within kt hks _ _ hx; exact rk x this.1 this.2
          · exact hx
        · refine same_congr vt hvs sv hmono fun x hx => hkeep x ?_
          rcases hx with hx | hx
          · have := touched_within vt hvs _ _ hx; exact rv x this.1 this.2
          · exact hx
      | succ i =>
        simp only [List.getD_cons_succ]
        obtain ⟨r1, r2, r3, r4⟩ := sm3 i (by simpa using hi)
        exact ⟨fun x h1 h2 => hmono3 x (r1 x h1 h2), fun x h1 h2 => hmono3 x (r2 x h1 h2),
          same_congr kt hks r3 hmono3 (fun x _ => ⟨rfl, rfl⟩), same_congr vt hvs r4 hmono3 (fun x _ => ⟨rfl, rfl⟩)⟩

/-- The loop of `SaveContainer` over the elements of a dictionary. -/
theorem saveItems_dict {e : Env} {o : Opts} {kt vt : Ty} (hke : kt.isEnum = true) (hks : Supported e o kt)
    (hvc : vt.isClass = true) (hvs : Supported e o vt) (hrt : RT e o vt) (m : Mem) (indent : Nat) (items : List (Nat × Nat))
    (hne : items ≠ []) (hok : ∀ kv ∈ items, Savable e m kt kv.1 ∧ Savable e m vt kv.2) :
    ∃ text, saveItems o m vt.hash false (some fun x => saveObj e o m kt indent x) (fun x => saveObj e o m vt indent x)
        items.length items false = .ok text ∧
      saveItems o m vt.hash false (some fun x => saveObj e o m kt indent x) (fun x => saveObj e o m vt indent x)
        items.length items true = .ok (44 :: text) ∧
      DictLoad e text kt vt m items := by
  induction items with
  | nil => exact absurd rfl hne
  | cons kv rest ih =>
    obtain ⟨h1, h2⟩ := hok kv (by simp)
    obtain ⟨k, hk, hj, hkl⟩ := enum_text hke hks m kv.1 indent h1
    obtain ⟨v, hv, hvl⟩ := hrt m kv.2 indent h2
    have hb := class_text hvc hvs hv
    by_cases hr : rest = []
    · subst hr
      refine ⟨quote k ++ 58 :: v, ?_, ?_, dict_one hke hks hvc hvs hj hkl hvl hb⟩
      · simp [saveItems, saveKey, saveValue, hk, hv, Res.map]
      · simp [saveItems, saveKey, saveValue, hk, hv, Res.map]
    · obtain ⟨text, -, h4, h5⟩ := ih hr (fun x hx => hok x (by simp [hx]))
      refine ⟨quote k ++ 58 :: (v ++ 44 :: text), ?_, ?_, dict_cons hke hks hvc hvs hj hkl hvl hb h5⟩
      · simp [saveItems, saveKey, saveValue, hk, hv, Res.map, h4]
      · simp [saveItems, saveKey, saveValue, hk, hv, Res.map, h4]

theorem rt_dict {e : Env} {o : Opts} {h : BitVec 32} {s : Nat} {key elem : Ty} {p : Bool}
    (hs : Supported e o (.dict h s key elem p)) (ih : RT e o elem) : RT e o (.dict h s key elem p) := by
  have hs' := hs
  rw [Supported] at hs
  obtain ⟨rfl, hsz, hke, hks, hvc, hvs⟩ := hs
  intro m a indent hsav
  rw [Savable] at hsav
  by_cases hne : m.elems a = []
  · refine ⟨b!"[]", by simp [saveObj, saveContainer, hne], JVal.padded (v := b!"[]") (.arr0 (w := []) (by simp [Ws])), ?_⟩
    intro q hq st b n hat hn hb hclear
    obtain ⟨n, rfl⟩ : ∃ j, n = j + 1 := ⟨n - 1, by simp at hn; omega⟩
    obtain ⟨st', e1, a1, m1⟩ := empty_array hq hat n (some (.dict h s key elem false, b)) false none
    refine ⟨st', e1, a1, by rw [m1]; exact Effect.refl _ _, cellSame_none ?_⟩
    rw [Same, m1, hne, hclear b (Nat.le_refl _) (by simp only [cellSize, Ty.size]; omega)]
    simp
  · obtain ⟨text, h1, -, h3⟩ := saveItems_dict hke hks hvc hvs ih m indent (m.elems a) hne (by
      intro kv hkv
      obtain ⟨i, hi, rfl⟩ := List.getElem_of_mem hkv
      have := hsav i hi
      rw [show (m.elems a).getD i (0, 0) = (m.elems a)[i] by simp [List.getD, hi]] at this
      exact this)
    refine ⟨123 :: (text ++ [125]), by simp [saveObj, saveContainer, hne, h1], JVal.padded (.obj h3.members), ?_⟩
    intro q hq st b n hat hn hb hclear
    simp only [cellSize, Ty.size] at hb
    simp only [List.length_cons, List.length_append, List.length_nil] at hn
    obtain ⟨n, rfl⟩ : ∃ j, n = j + 2 := ⟨n - 2, by omega⟩
    have hat' : At e (123 :: (text ++ 125 :: q)) st := by simpa using hat
    have hr := reads_structural e.fl.strtod (b := 123) (ty := .lbrace) rfl (text ++ 125 :: q)
    obtain ⟨tf, rf, hf, hft⟩ := h3.members.first e.fl.strtod (125 :: q)
    obtain ⟨st1, e1, a1, m1⟩ := expect_at hat' hr rfl ⟨tf, rf, hf⟩
    obtain ⟨t0, -, -⟩ := hat'.tok hr
    obtain ⟨t1, -, -⟩ := a1.tok hf
    let st3 : St := { st1 with m := st1.m.setElems b [] }
    have hm3 : st3.m = st.m.setElems b [] := by simp only [st3, m1]
    obtain ⟨st4, news, e4, a4, ef, hel, hlen, sm⟩ := h3.load q st3 n (n + 1) b (a1.setMem _) (by omega) (by omega)
      (by rw [hm3]; simp only [Mem.setElems]; omega)
    obtain ⟨st5, e5, a5, m5⟩ := expect_at a4 (reads_structural _ (b := 125) (ty := .rbrace) rfl q) rfl hq.good
    have hfr : ∀ x, Fresh st3.m st4.m x → Fresh st.m st4.m x := by
      intro x hx
      rw [hm3] at hx
      exact hx
    refine ⟨st5, ?_, a5, ?_, cellSame_none ?_⟩
    · rw [parseValue, t0]
      simp only [objectTarget]
      rw [parseObject, e1]
      simp only [Out.bind_ok, t1, hft, if_false, Tok.isValid, show (TokType.lbrace != TokType.none) = true from rfl,
        Bool.not_true, Bool.false_eq_true, Ty.isContainer, if_true, parseDict]
      rw [← t1, show ({ t := st1.t, c := st1.c, m := st1.m.setElems b [] } : St) = st3 from rfl, e4]
      simp only [Out.bind_ok]
      rw [e5]
      rfl
    · rw [m5]
      have hnx := ef.next
      rw [hm3] at hnx
      refine ⟨hnx, ?_, ?_⟩
      · intro x hx hn
        rw [cellTouched_none, Touched] at hn
        rw [ef.byte x (by rw [hm3]; exact hx) (by omega), hm3]
        rfl
      · intro x hx hn
        rw [cellTouched_none, Touched] at hn
        rw [ef.elems x (by rw [hm3]; exact hx) (by omega), hm3]
        simp only [Mem.setElems]
        rw [if_neg (by omega)]
    · rw [Same, m5]
      have hel' : st4.m.elems b = news := by
        rw [hel, hm3]
        simp [Mem.setElems]
      rw [hel', hlen]
      refine ⟨rfl, fun i hi => ?_⟩
      obtain ⟨r1, r2, r3, r4⟩ := sm i hi
      exact ⟨fun x h1 h2 => hfr x (r1 x h1 h2), fun x h1 h2 => hfr x (r2 x h1 h2),
        same_congr key hks r3 hfr (fun x _ => ⟨rfl, rfl⟩), same_congr elem hvs r4 hfr (fun x _ => ⟨rfl, rfl⟩)⟩

/-- Every supported type can be saved and loaded back. -/
theorem rt_all {e : Env} {o : Opts} (hptr : o.ptrs = none) (t : Ty) (hs : Supported e o t) : RT e o t := by
  revert hs
  refine tyInd (P := fun t => Supported e o t → RT e o t) ?_ ?_ ?_ ?_ ?_ ?_ t
  · intro h s hs; exact rt_prim hs
  · intro h s cs fl hs; exact rt_enum hs
  · intro h s fl fs bs ih hs
    refine rt_cls hptr hs fun x hx => ?_
    obtain ⟨-, -, -, i4⟩ := base_iff e o _ (cls_base hs)
    exact ih x (savedFields_sub e _ x hx).1 (i4 x hx).1
  · intro h s bs hs; simp [Supported] at hs
  · intro h s elem p ih hs
    refine rt_vec hs (ih ?_)
    rw [Supported] at hs
    exact hs.2.2.2
  · intro h s k elem p _ ih hs
    refine rt_dict hs (ih ?_)
    rw [Supported] at hs
    exact hs.2.2.2.2.2

end Clr.JSON
