import Verif.Proofs.JSONDict

/-!
What a JSON value does to memory depends only on the value and on where it goes, not on the text around it
(for types without dictionaries, whose parser goes its own way).
-/
namespace Clr.JSON

/-- Two outcomes of the same sort, with related results. -/
inductive ORel {α β : Type} (P : α → β → Prop) : Out α → Out β → Prop
  | ok {a : α} {b : β} (h : P a b) : ORel P (.ok a) (.ok b)
  | trap : ORel P .trap .trap
  | ub : ORel P .ub .ub

theorem ORel.bind {α β γ δ : Type} {P : α → β → Prop} {Q : γ → δ → Prop} {x : Out α} {y : Out β} {f : α → Out γ} {g : β → Out δ}
    (h : ORel P x y) (hf : ∀ a b, P a b → ORel Q (f a) (g b)) : ORel Q (x >>= f) (y >>= g) := by
  cases h with
  | ok h => exact hf _ _ h
  | trap => exact .trap
  | ub => exact .ub

theorem ORel.imp {α β : Type} {P Q : α → β → Prop} {x : Out α} {y : Out β} (h : ORel P x y) (hf : ∀ a b, P a b → Q a b) :
    ORel Q x y := by
  cases h with
  | ok h => exact .ok (hf _ _ h)
  | trap => exact .trap
  | ub => exact .ub

/-- The states after two texts, with the same memory. -/
def Both (e : Env) (q q' : Bytes) (s s' : St) : Prop := At e q s ∧ At e q' s' ∧ s.m = s'.m

theorem noDictFlds_mem : ∀ (fs : Flds), NoDictFlds fs → ∀ x ∈ fs.list, NoDict x.2
  | .nil, _, x, hx => by simp [Flds.list] at hx
  | .cons f t r, h, x, hx => by
    rw [NoDictFlds] at h
    rw [Flds.list] at hx
    rcases List.mem_cons.1 hx with rfl | hx
    · exact h.1
    · exact noDictFlds_mem r h.2 x hx

mutual
theorem noDict_mem : ∀ (t : Ty), NoDict t → ∀ x ∈ t.allFields, NoDict x.2
  | .prim _ _, _, x, hx => by simp [Ty.allFields] at hx
  | .enum _ _ _ _, _, x, hx => by simp [Ty.allFields] at hx
  | .vec _ _ _ _, _, x, hx => by simp [Ty.allFields] at hx
  | .dict _ _ _ _ _, _, x, hx => by simp [Ty.allFields] at hx
  | .cls _ _ _ fs bs, h, x, hx => by
    rw [NoDict] at h
    rw [Ty.allFields] at hx
    rcases List.mem_append.1 hx with hx | hx
    · exact noDictFlds_mem fs h.1 x hx
    · exact noDictTys_mem bs h.2 x hx
  | .tmpl _ _ bs, h, x, hx => by
    rw [NoDict] at h
    rw [Ty.allFields] at hx
    exact noDictTys_mem bs h x hx

theorem noDictTys_mem : ∀ (bs : Tys), NoDictTys bs → ∀ x ∈ bs.allFields, NoDict x.2
  | .nil, _, x, hx => by simp [Tys.allFields] at hx
  | .cons t r, h, x, hx => by
    rw [NoDictTys] at h
    rw [Tys.allFields] at hx
    rcases List.mem_append.1 hx with hx | hx
    · exact noDict_mem t h.1 x hx
    · exact noDictTys_mem r h.2 x hx
end

/-- A target without dictionaries. -/
def TgtOk : Target → Prop
  | none => True
  | some (t, _) => NoDict t

/-- A writer without dictionaries. -/
def WrOk : Option Writer → Prop
  | none => True
  | some w => NoDict w.elem.1

theorem memberOf_ok {e : Env} {tgt : Target} (h : TgtOk tgt) {k : Bytes} {f : FldInfo} {t : Ty} {a : Nat}
    (hm : memberOf e tgt k = some (f, t, a)) : NoDict t := by
  unfold memberOf at hm
  split at hm
  · rename_i hh s fl fs bs b
    split at hm
    · rename_i f' t' hf
      rw [findField_eq] at hf
      have hmem := List.mem_of_find?_eq_some hf
      split at hm
      · simp at hm
      · simp only [Option.some.injEq, Prod.mk.injEq] at hm
        obtain ⟨-, rfl, -⟩ := hm
        exact noDict_mem _ h _ hmem
    · simp at hm
  · simp at hm

theorem objectTarget_ok {e : Env} {tgt : Target} (h : TgtOk tgt) : TgtOk (objectTarget e tgt) := by
  unfold objectTarget
  split
  · split
    · trivial
    · exact h
  · exact h

/-- The value acts alike before any two texts. -/
def LocalV (e : Env) (v : Bytes) : Prop :=
  ∀ (q q' : Bytes), Tail e q → Tail e q' → ∀ (st st' : St), At e (v ++ q) st → At e (v ++ q') st' → st.m = st'.m →
    ∀ (n n' : Nat), v.length ≤ n → v.length ≤ n' → ∀ (tgt : Target), TgtOk tgt → ∀ (p : Bool) (arr : Option Nat),
    ORel (Both e q q') (parseValue e n st tgt p arr) (parseValue e n' st' tgt p arr)

/-- The elements act alike. -/
def LocalE (e : Env) (s : Bytes) : Prop :=
  ∀ (q q' : Bytes) (st st' : St), At e (s ++ 93 :: q) st → At e (s ++ 93 :: q') st' → st.m = st'.m →
    ∀ (n n' k k' : Nat), s.length ≤ n → s.length ≤ n' → s.length ≤ k → s.length ≤ k' → ∀ (w : Option Writer), WrOk w →
    ORel (fun x y => Both e (93 :: q) (93 :: q') x.2 y.2) (parseElements e (parseValue e n) k w st)
      (parseElements e (parseValue e n') k' w st')

/-- The members act alike. -/
def LocalM (e : Env) (s : Bytes) : Prop :=
  ∀ (q q' : Bytes) (st st' : St), At e (s ++ 125 :: q) st → At e (s ++ 125 :: q') st' → st.m = st'.m →
    ∀ (n n' k k' : Nat), s.length ≤ n → s.length ≤ n' → s.length ≤ k → s.length ≤ k' → ∀ (tgt : Target), TgtOk tgt →
    ORel (Both e (125 :: q) (125 :: q')) (parseMembers e (parseValue e n) k st tgt) (parseMembers e (parseValue e n') k' st' tgt)

theorem token_local {e : Env} {v q q' : Bytes} {t : Tok} (hr : Reads e.fl.strtod (v ++ q) t q) (hr' : Reads e.fl.strtod (v ++ q') t q')
    (hq : Tail e q) (hq' : Tail e q') {st st' : St} (hat : At e (v ++ q) st) (hat' : At e (v ++ q') st') (hm : st.m = st'.m)
    (ht : t.type = .string ∨ t.type = .integer ∨ t.type = .decimal ∨ t.type = .true ∨ t.type = .false ∨
      t.type = .null) (n n' : Nat) (tgt : Target) (p : Bool) (arr : Option Nat) :
    ORel (Both e q q') (parseValue e (n + 1) st tgt p arr) (parseValue e (n' + 1) st' tgt p arr) := by
  obtain ⟨h1, -, -⟩ := hat.tok hr
  obtain ⟨h1', -, -⟩ := hat'.tok hr'
  have close : ∀ (s1 s1' : St), At e q s1 → At e q' s1' → s1.m = s1'.m → ∀ g : Mem → Mem,
      ORel (Both e q q') (.ok { s1 with m := g s1.m }) (.ok { s1' with m := g s1'.m }) := by
    intro s1 s1' a1 a1' hh g
    exact .ok ⟨a1.setMem _, a1'.setMem _, by rw [hh]⟩
  rcases ht with ht | ht | ht | ht | ht | ht <;>
    obtain ⟨s1, e1, a1, m1⟩ := expect_at hat hr ht hq.good <;>
    obtain ⟨s1', e1', a1', m1'⟩ := expect_at hat' hr' ht hq'.good <;>
    rw [parseValue, h1, ht, parseValue, h1', ht] <;> simp only [] <;> rw [e1, e1'] <;> simp only [Out.bind_ok]
  · exact close s1 s1' a1 a1' (by rw [m1, m1', hm]) (fun m => loadString m t tgt)
  · exact close s1 s1' a1 a1' (by rw [m1, m1', hm]) (fun m => loadInteger e m t (int64Of t.bits) tgt p)
  · rw [m1, m1', hm]
    cases hd : loadDecimal e st'.m t tgt with
    | ok m2 => exact .ok ⟨a1.setMem _, a1'.setMem _, rfl⟩
    | trap => exact .trap
    | ub => exact .ub
    | fuel =>
      exfalso
      unfold loadDecimal at hd
      split at hd
      · split at hd
        · simp at hd
        · split at hd
          · rename_i k hk
            cases hs : storeDec e.fl k t.bits <;> simp [hs, Out.ofRes] at hd
          · simp at hd
      · simp at hd
  · exact close s1 s1' a1 a1' (by rw [m1, m1', hm]) (fun m => loadInteger e m t 1 tgt p)
  · exact close s1 s1' a1 a1' (by rw [m1, m1', hm]) (fun m => loadInteger e m t 0 tgt p)
  · exact close s1 s1' a1 a1' (by rw [m1, m1', hm]) (fun m => loadInteger e m t 0 tgt p)

/-- Back to the beginning of an array after counting its elements. -/
theorem At.back {e : Env} {s : Bytes} {st : St} (h : At e s st) (c : Ctx) (hc : c.err.code = .none) (p : Nat) (m : Mem) :
    At e s { t := st.t, c := { c with rest := st.c.rest, pos := p }, m := m } := by
  obtain ⟨t, r, h1, h2, h3, -⟩ := h
  exact ⟨t, r, h1, h2, h3, hc⟩

theorem At.err {e : Env} {s : Bytes} {st : St} (h : At e s st) : st.c.err.code = .none := by
  obtain ⟨t, r, -, -, -, h4⟩ := h
  exact h4

theorem writer_local {e : Env} {s : Bytes} (hs : JElems s) {q q' : Bytes} {st st' : St} (hat : At e (s ++ 93 :: q) st)
    (hat' : At e (s ++ 93 :: q') st') (hm : st.m = st'.m) (n n' k k' : Nat) (hn : s.length ≤ n) (hn' : s.length ≤ n')
    (hk : s.length ≤ k) (hk' : s.length ≤ k') (tgt : Target) (htgt : TgtOk tgt) (p : Bool) (arr : Option Nat) :
    ORel (fun x y => x.1 = y.1 ∧ WrOk x.1 ∧ Both e (s ++ 93 :: q) (s ++ 93 :: q') x.2 y.2)
      (arrayWriter e (parseValue e n) k st tgt p arr) (arrayWriter e (parseValue e n') k' st' tgt p arr) := by
  obtain _ | ⟨ty, a⟩ := tgt
  · have h1 : ∀ (pv : ValueParser) (n : Nat) (st : St), arrayWriter e pv n st none p arr = .ok (none, st) := by
      intro pv n st; unfold arrayWriter; split <;> simp_all
    rw [h1, h1]
    exact .ok ⟨rfl, trivial, hat, hat', hm⟩
  · cases arr with
    | some j => exact .ok ⟨rfl, htgt, hat, hat', hm⟩
    | none =>
      cases ty with
      | vec hh ss elem pp =>
        unfold arrayWriter
        obtain ⟨j, s1, e1, a1, m1⟩ := skip_elems hs (b := 93) (q := q) (by decide) (by decide) hat hn hk
        obtain ⟨j', s1', e1', a1', m1'⟩ := skip_elems hs (b := 93) (q := q') (by decide) (by decide) hat' hn' hk'
        dsimp only
        rw [e1, e1']
        simp only [Out.bind_ok]
        refine .ok ⟨rfl, ?_, hat.back _ a1.err _ _, hat'.back _ a1'.err _ _, ?_⟩
        · simpa [WrOk, Writer.elem, TgtOk, NoDict] using htgt
        · simp only [m1, m1', hm]
      | dict hh ss kt vt pp => simp [TgtOk, NoDict] at htgt
      | _ => exact .ok ⟨rfl, trivial, hat, hat', hm⟩

theorem addEmpty_ok {w : Writer} {m : Mem} {r : Nat × Writer × Mem} (h : w.addEmpty m = .ok r) : r.2.1.elem = w.elem := by
  unfold Writer.addEmpty at h
  split at h
  · split at h
    · cases h; rfl
    · simp at h
  · cases h; rfl

theorem local_elems_step {e : Env} {s : Bytes} (h : JElems s)
    (hV : ∀ v, v.length ≤ s.length → JVal v → LocalV e v)
    (hE : ∀ r, r.length < s.length → JElems r → LocalE e r) : LocalE e s := by
  intro q q' st st' hat hat' hm n n' k k' hn hn' hk hk' w hw
  -- the first element
  have first : ∀ (v tl tl' : Bytes), JVal v → v.length ≤ s.length → 1 ≤ s.length → Tail e tl → Tail e tl' →
      At e (v ++ tl) st → At e (v ++ tl') st' →
      ∀ (f g : Nat → Option Writer → St → Out (Nat × St)),
      (∀ w s1 s1', WrOk w → Both e tl tl' s1 s1' →
        ORel (fun x y => Both e (93 :: q) (93 :: q') x.2 y.2)
          (if s1.t.type ≠ .comma then .ok (1, s1) else do let s ← nextTok e s1; let r ← f (k - 1) w s; .ok (r.1 + 1, r.2))
          (if s1'.t.type ≠ .comma then .ok (1, s1') else do let s ← nextTok e s1'; let r ← g (k' - 1) w s; .ok (r.1 + 1, r.2))) →
      f = parseElements e (parseValue e n) → g = parseElements e (parseValue e n') →
      ORel (fun x y => Both e (93 :: q) (93 :: q') x.2 y.2) (parseElements e (parseValue e n) k w st)
        (parseElements e (parseValue e n') k' w st') := by
    intro v tl tl' hv hvl hs1 htl htl' av av' f g hcont hf hg
    obtain ⟨k, rfl⟩ : ∃ j, k = j + 1 := ⟨k - 1, by omega⟩
    obtain ⟨k', rfl⟩ : ∃ j, k' = j + 1 := ⟨k' - 1, by omega⟩
    subst hf hg
    cases w with
    | none =>
      rw [parseElements, parseElements]
      exact ORel.bind (hV v hvl hv tl tl' htl htl' st st' av av' hm n n' (by omega) (by omega) none trivial false none)
        (fun s1 s1' hb => hcont none s1 s1' trivial hb)
    | some w =>
      rw [parseElements, parseElements, ← hm]
      cases ha : w.addEmpty st.m with
      | ok r =>
        simp only [Out.bind_ok]
        refine ORel.bind (hV v hvl hv tl tl' htl htl' { st with m := r.2.2 } { st' with m := r.2.2 } (av.setMem _) (av'.setMem _) rfl
          n n' (by omega) (by omega) (some (w.elem.1, r.1)) hw w.elem.2 none) (fun s1 s1' hb => ?_)
        exact hcont (some r.2.1) s1 s1' (by show NoDict r.2.1.elem.1; rw [addEmpty_ok ha]; exact hw) hb
      | trap => exact .trap
      | ub => exact .ub
      | fuel =>
        unfold Writer.addEmpty at ha
        split at ha
        · split at ha <;> simp at ha
        · simp at ha
  cases h with
  | @one u v x hu hv hx =>
    have ht : Tail e (x ++ 93 :: q) := (Tail.structural e (by decide) q).ws hx
    have ht' : Tail e (x ++ 93 :: q') := (Tail.structural e (by decide) q').ws hx
    have a1 : At e (v ++ (x ++ 93 :: q)) st := (at_ws hu (hv.good ht)).1 (by simpa using hat)
    have a1' : At e (v ++ (x ++ 93 :: q')) st' := (at_ws hu (hv.good ht')).1 (by simpa using hat')
    have := hv.ne_nil
    refine first v _ _ hv (by simp; omega) (by simp; omega) ht ht' a1 a1' _ _ ?_ rfl rfl
    rintro w s1 s1' hw' ⟨b1, b2, b3⟩
    have b1 := (at_ws hx (good_structural _ (by decide) q)).1 b1
    have b2 := (at_ws hx (good_structural _ (by decide) q')).1 b2
    obtain ⟨t1, -, -⟩ := b1.tok (reads_structural _ (b := 93) (ty := .rbracket) rfl q)
    obtain ⟨t2, -, -⟩ := b2.tok (reads_structural _ (b := 93) (ty := .rbracket) rfl q')
    rw [t1, t2]
    exact .ok ⟨b1, b2, b3⟩
  | @more u v x r hu hv hx hr =>
    have ht : Tail e (x ++ 44 :: (r ++ 93 :: q)) := (Tail.structural e (by decide) _).ws hx
    have ht' : Tail e (x ++ 44 :: (r ++ 93 :: q')) := (Tail.structural e (by decide) _).ws hx
    have a1 : At e (v ++ (x ++ 44 :: (r ++ 93 :: q))) st := (at_ws hu (hv.good ht)).1 (by simpa using hat)
    have a1' : At e (v ++ (x ++ 44 :: (r ++ 93 :: q'))) st' := (at_ws hu (hv.good ht')).1 (by simpa using hat')
    have := hv.ne_nil
    refine first v _ _ hv (by simp; omega) (by simp; omega) ht ht' a1 a1' _ _ ?_ rfl rfl
    rintro w s1 s1' hw' ⟨b1, b2, b3⟩
    have b1 := (at_ws hx (good_structural _ (by decide) _)).1 b1
    have b2 := (at_ws hx (good_structural _ (by decide) _)).1 b2
    obtain ⟨t1, t2, t3⟩ := b1.tok (reads_structural _ (b := 44) (ty := .comma) rfl _)
    obtain ⟨t1', t2', t3'⟩ := b2.tok (reads_structural _ (b := 44) (ty := .comma) rfl _)
    obtain ⟨tf, rf, hf, -⟩ := hr.first e.fl.strtod (b := 93) (q := q) (by decide)
    obtain ⟨tf', rf', hf', -⟩ := hr.first e.fl.strtod (b := 93) (q := q') (by decide)
    obtain ⟨s2, e2, a2, m2⟩ := nextTok_at t2 t3 ⟨tf, rf, hf⟩
    obtain ⟨s2', e2', a2', m2'⟩ := nextTok_at t2' t3' ⟨tf', rf', hf'⟩
    rw [t1, t1']
    simp only [ne_eq, not_true_eq_false, if_false]
    rw [e2, e2']
    simp only [Out.bind_ok]
    simp at hn hn' hk hk'
    refine ORel.bind (hE r (by simp; omega) hr q q' s2 s2' a2 a2' (by rw [m2, m2', b3]) n n' (k - 1) (k' - 1) (by omega) (by omega)
      (by omega) (by omega) w hw') (fun x y hxy => .ok hxy)

theorem pair_local {e : Env} {w k x y v : Bytes} (hw : Ws w) (hk : JStr k) (hx : Ws x) (hy : Ws y) (hv : JVal v)
    {q q' : Bytes} (hq : Tail e q) (hq' : Tail e q') {st st' : St}
    (hat : At e (w ++ (34 :: (k ++ 34 :: (x ++ 58 :: (y ++ (v ++ q)))))) st)
    (hat' : At e (w ++ (34 :: (k ++ 34 :: (x ++ 58 :: (y ++ (v ++ q')))))) st') (hm : st.m = st'.m)
    (n n' : Nat) (hn : v.length ≤ n) (hn' : v.length ≤ n') (hV : LocalV e v) (tgt : Target) (htgt : TgtOk tgt) :
    ORel (Both e q q') (parsePair e (parseValue e n) st tgt) (parsePair e (parseValue e n') st' tgt) := by
  have main : ∀ {q : Bytes} (_ : Tail e q) {st : St} (_ : At e (w ++ (34 :: (k ++ 34 :: (x ++ 58 :: (y ++ (v ++ q)))))) st) (n : Nat),
      ∃ st2, At e (v ++ q) st2 ∧ st2.m = st.m ∧
        (memberOf e tgt k = none → parsePair e (parseValue e n) st tgt = parseValue e n st2 none false none) ∧
        ∀ f t a, memberOf e tgt k = some (f, t, a) →
          parsePair e (parseValue e n) st tgt = parseValue e n st2 (some (t, a)) f.isPtr f.count := by
    intro q hq st hat n
    have hgv : Good e.fl.strtod (y ++ (v ++ q)) := good_ws hy (hv.good hq)
    obtain ⟨st1, e1, a1, m1⟩ := expect_at hat (reads_ws hw (reads_string _ hk _)) rfl
      (good_ws hx (good_structural _ (by decide) _))
    obtain ⟨st2, e2, a2, m2⟩ := expect_at a1 (reads_ws hx (reads_structural _ (b := 58) (ty := .colon) rfl _)) rfl hgv
    refine ⟨st2, (at_ws hy (hv.good hq)).1 a2, by rw [m2, m1], ?_, ?_⟩
    · intro hmem
      rw [parsePair, e1]
      simp only [Out.bind_ok]
      rw [e2]
      simp only [Out.bind_ok]
      simp only [Tok.isValid, show (TokType.string != TokType.none) = true from rfl,
        show (TokType.colon != TokType.none) = true from rfl, Bool.not_true, Bool.false_eq_true, if_false, hmem]
    · intro f t a hmem
      rw [parsePair, e1]
      simp only [Out.bind_ok]
      rw [e2]
      simp only [Out.bind_ok]
      simp only [Tok.isValid, show (TokType.string != TokType.none) = true from rfl,
        show (TokType.colon != TokType.none) = true from rfl, Bool.not_true, Bool.false_eq_true, if_false, hmem]
  obtain ⟨s2, a2, m2, h0, h1⟩ := main hq hat n
  obtain ⟨s2', a2', m2', h0', h1'⟩ := main hq' hat' n'
  cases hmem : memberOf e tgt k with
  | none =>
    rw [h0 hmem, h0' hmem]
    exact hV q q' hq hq' s2 s2' a2 a2' (by rw [m2, m2', hm]) n n' hn hn' none trivial false none
  | some r =>
    obtain ⟨f, t, a⟩ := r
    rw [h1 f t a hmem, h1' f t a hmem]
    exact hV q q' hq hq' s2 s2' a2 a2' (by rw [m2, m2', hm]) n n' hn hn' (some (t, a)) (memberOf_ok htgt hmem) f.isPtr f.count

theorem local_members_step {e : Env} {s : Bytes} (h : JMembers s)
    (hV : ∀ v, v.length ≤ s.length → JVal v → LocalV e v)
    (hM : ∀ r, r.length < s.length → JMembers r → LocalM e r) : LocalM e s := by
  intro q q' st st' hat hat' hm n n' k k' hn hn' hk hk' tgt htgt
  cases h with
  | @one w kk x y v z hw hkk hx hy hv hz =>
    simp at hn hn' hk hk'
    obtain ⟨k, rfl⟩ : ∃ j, k = j + 1 := ⟨k - 1, by omega⟩
    obtain ⟨k', rfl⟩ : ∃ j, k' = j + 1 := ⟨k' - 1, by omega⟩
    have ht : Tail e (z ++ 125 :: q) := (Tail.structural e (by decide) q).ws hz
    have ht' : Tail e (z ++ 125 :: q') := (Tail.structural e (by decide) q').ws hz
    rw [parseMembers, parseMembers]
    refine ORel.bind (pair_local hw hkk hx hy hv ht ht' (by simpa using hat) (by simpa using hat') hm n n' (by omega) (by omega)
      (hV v (by simp; omega) hv) tgt htgt) ?_
    rintro s1 s1' ⟨b1, b2, b3⟩
    have b1 := (at_ws hz (good_structural _ (by decide) q)).1 b1
    have b2 := (at_ws hz (good_structural _ (by decide) q')).1 b2
    obtain ⟨t1, -, -⟩ := b1.tok (reads_structural _ (b := 125) (ty := .rbrace) rfl q)
    obtain ⟨t2, -, -⟩ := b2.tok (reads_structural _ (b := 125) (ty := .rbrace) rfl q')
    rw [t1, t2]
    exact .ok ⟨b1, b2, b3⟩
  | @more w kk x y v z r hw hkk hx hy hv hz hr =>
    simp at hn hn' hk hk'
    obtain ⟨k, rfl⟩ : ∃ j, k = j + 1 := ⟨k - 1, by omega⟩
    obtain ⟨k', rfl⟩ : ∃ j, k' = j + 1 := ⟨k' - 1, by omega⟩
    have ht : Tail e (z ++ 44 :: (r ++ 125 :: q)) := (Tail.structural e (by decide) _).ws hz
    have ht' : Tail e (z ++ 44 :: (r ++ 125 :: q')) := (Tail.structural e (by decide) _).ws hz
    rw [parseMembers, parseMembers]
    refine ORel.bind (pair_local hw hkk hx hy hv ht ht' (by simpa using hat) (by simpa using hat') hm n n' (by omega) (by omega)
      (hV v (by simp; omega) hv) tgt htgt) ?_
    rintro s1 s1' ⟨b1, b2, b3⟩
    have b1 := (at_ws hz (good_structural _ (by decide) _)).1 b1
    have b2 := (at_ws hz (good_structural _ (by decide) _)).1 b2
    obtain ⟨t1, t2, t3⟩ := b1.tok (reads_structural _ (b := 44) (ty := .comma) rfl _)
    obtain ⟨t1', t2', t3'⟩ := b2.tok (reads_structural _ (b := 44) (ty := .comma) rfl _)
    obtain ⟨tf, rf, hf, -⟩ := hr.first e.fl.strtod (125 :: q)
    obtain ⟨tf', rf', hf', -⟩ := hr.first e.fl.strtod (125 :: q')
    obtain ⟨s2, e2, a2, m2⟩ := nextTok_at t2 t3 ⟨tf, rf, hf⟩
    obtain ⟨s2', e2', a2', m2'⟩ := nextTok_at t2' t3' ⟨tf', rf', hf'⟩
    rw [t1, t1']
    simp only [if_true]
    rw [e2, e2']
    simp only [Out.bind_ok]
    exact hM r (by simp; omega) hr q q' s2 s2' a2 a2' (by rw [m2, m2', b3]) n n' k k' (by omega) (by omega) (by omega) (by omega) tgt htgt

/-- Members begin with a name. -/
theorem JMembers.first' (f : Bytes → UInt64) {s : Bytes} (h : JMembers s) (q : Bytes) :
    ∃ t r, Reads f (s ++ q) t r ∧ t.type = .string := by
  cases h with
  | @one w k x y v z hw hk hx hy hv hz =>
    exact ⟨_, _, by simpa using reads_ws hw (reads_string f hk _), rfl⟩
  | @more w k x y v z r hw hk hx hy hv hz hr =>
    exact ⟨_, _, by simpa using reads_ws hw (reads_string f hk _), rfl⟩

/-- The text between the braces of an object, for `parseObject`. -/
theorem object_local {e : Env} {s : Bytes} (h : Ws s ∨ JMembers s) (hM : JMembers s → LocalM e s) {q q' : Bytes} {st st' : St}
    (hat : At e (123 :: (s ++ 125 :: q)) st) (hat' : At e (123 :: (s ++ 125 :: q')) st') (hm : st.m = st'.m) (n n' : Nat)
    (hn : s.length ≤ n) (hn' : s.length ≤ n') (tgt : Target) (htgt : TgtOk tgt) :
    ORel (Both e (125 :: q) (125 :: q')) (parseObject e (n + 1) st tgt) (parseObject e (n' + 1) st' tgt) := by
  have hr := reads_structural e.fl.strtod (b := 123) (ty := .lbrace) rfl (s ++ 125 :: q)
  have hr' := reads_structural e.fl.strtod (b := 123) (ty := .lbrace) rfl (s ++ 125 :: q')
  have hr2 := reads_structural e.fl.strtod (b := 125) (ty := .rbrace) rfl q
  have hr2' := reads_structural e.fl.strtod (b := 125) (ty := .rbrace) rfl q'
  rcases h with hw | h
  · obtain ⟨st1, e1, a1, m1⟩ := expect_at hat hr rfl (good_ws hw (good_structural _ (by decide) q))
    obtain ⟨st1', e1', a1', m1'⟩ := expect_at hat' hr' rfl (good_ws hw (good_structural _ (by decide) q'))
    obtain ⟨t1, -, -⟩ := a1.tok (reads_ws hw hr2)
    obtain ⟨t1', -, -⟩ := a1'.tok (reads_ws hw hr2')
    rw [parseObject, parseObject, e1, e1']
    simp only [Out.bind_ok, t1, t1', Tok.isValid, if_true]
    exact .ok ⟨(at_ws hw ⟨_, _, hr2⟩).1 a1, (at_ws hw ⟨_, _, hr2'⟩).1 a1', by rw [m1, m1', hm]⟩
  · obtain ⟨tf, rf, hf, hft⟩ := h.first e.fl.strtod (125 :: q)
    obtain ⟨tf', rf', hf', hft'⟩ := h.first e.fl.strtod (125 :: q')
    obtain ⟨st1, e1, a1, m1⟩ := expect_at hat hr rfl ⟨tf, rf, hf⟩
    obtain ⟨st1', e1', a1', m1'⟩ := expect_at hat' hr' rfl ⟨tf', rf', hf'⟩
    obtain ⟨t1, -, -⟩ := a1.tok hf
    obtain ⟨t1', -, -⟩ := a1'.tok hf'
    have hlen : ∀ tgt, TgtOk tgt → ORel (Both e (125 :: q) (125 :: q')) (parseMembers e (parseValue e n) (n + 1) st1 tgt)
        (parseMembers e (parseValue e n') (n' + 1) st1' tgt) := fun tgt htgt =>
      hM h q q' st1 st1' a1 a1' (by rw [m1, m1', hm]) n n' (n + 1) (n' + 1) (by omega) (by omega) (by omega) (by omega) tgt htgt
    rw [parseObject, parseObject, e1, e1']
    simp only [Out.bind_ok, t1, t1', hft, hft', if_false, Tok.isValid, show (TokType.lbrace != TokType.none) = true from rfl,
      Bool.not_true, Bool.false_eq_true]
    obtain _ | ⟨ty, a⟩ := tgt
    · exact hlen none trivial
    · cases ty with
      | vec hh ss elem p =>
        have hval : tf.type ≠ .none := by
          obtain ⟨tt, rr, h1, h2⟩ := h.first' e.fl.strtod (125 :: q)
          obtain ⟨rfl, rfl⟩ := hf.unique h1
          rw [h2]; decide
        have hval' : tf'.type ≠ .none := by
          obtain ⟨tt, rr, h1, h2⟩ := h.first' e.fl.strtod (125 :: q')
          obtain ⟨rfl, rfl⟩ := hf'.unique h1
          rw [h2]; decide
        simp only [Ty.isContainer, if_true, parseDict, t1, t1', Tok.isValid]
        simp only [bne_iff_ne, ne_eq, hval, hft, hval', hft', not_false_eq_true, if_true, and_self, Bool.and_eq_true]
        exact .ub
      | dict hh ss kt vt p => simp [TgtOk, NoDict] at htgt
      | prim hh ss => simpa [Ty.isContainer] using hlen _ htgt
      | enum hh ss cs fl => simpa [Ty.isContainer] using hlen _ htgt
      | cls hh ss fl fs bs => simpa [Ty.isContainer] using hlen _ htgt
      | tmpl hh ss bs => simpa [Ty.isContainer] using hlen _ htgt

theorem local_value_step {e : Env} {v : Bytes} (h : JVal v)
    (hE : ∀ s, s.length < v.length → JElems s → LocalE e s)
    (hM : ∀ s, s.length < v.length → JMembers s → LocalM e s) : LocalV e v := by
  intro q q' hq hq' st st' hat hat' hm n n' hn hn' tgt htgt p arr
  have hv := h.ne_nil
  obtain ⟨n, rfl⟩ : ∃ k, n = k + 1 := ⟨n - 1, by omega⟩
  obtain ⟨n', rfl⟩ : ∃ k, n' = k + 1 := ⟨n' - 1, by omega⟩
  have obj : ∀ s, v = 123 :: (s ++ [125]) → (Ws s ∨ JMembers s) →
      ORel (Both e q q') (parseValue e (n + 1) st tgt p arr) (parseValue e (n' + 1) st' tgt p arr) := by
    rintro s rfl hs
    have a0 : At e (123 :: (s ++ 125 :: q)) st := by simpa using hat
    have a0' : At e (123 :: (s ++ 125 :: q')) st' := by simpa using hat'
    obtain ⟨h1, -, -⟩ := a0.tok (reads_structural _ (b := 123) (ty := .lbrace) rfl _)
    obtain ⟨h1', -, -⟩ := a0'.tok (reads_structural _ (b := 123) (ty := .lbrace) rfl _)
    simp at hn hn'
    obtain ⟨n, rfl⟩ : ∃ k, n = k + 1 := ⟨n - 1, by omega⟩
    obtain ⟨n', rfl⟩ : ∃ k, n' = k + 1 := ⟨n' - 1, by omega⟩
    rw [parseValue, h1, parseValue, h1']
    simp only []
    refine ORel.bind (object_local hs (hM s (by simp; omega)) a0 a0' hm n n' (by omega) (by omega) _ (objectTarget_ok htgt)) ?_
    rintro s1 s1' ⟨b1, b2, b3⟩
    obtain ⟨st2, e2, a2, m2⟩ := expect_at b1 (reads_structural e.fl.strtod (b := 125) (ty := .rbrace) rfl q) rfl hq.good
    obtain ⟨st2', e2', a2', m2'⟩ := expect_at b2 (reads_structural e.fl.strtod (b := 125) (ty := .rbrace) rfl q') rfl hq'.good
    rw [e2, e2']
    exact .ok ⟨a2, a2', by rw [m2, m2', b3]⟩
  cases h with
  | @str s h =>
    exact token_local (by simpa using reads_string e.fl.strtod h q) (by simpa using reads_string e.fl.strtod h q') hq hq' hat hat' hm
      (.inl rfl) n n' tgt p arr
  | num h =>
    obtain ⟨b, r, rfl, hb⟩ := hq.delim
    obtain ⟨b', r', rfl, hb'⟩ := hq'.delim
    obtain ⟨t, ht, hr⟩ := reads_number_uniform e.fl.strtod h
    exact token_local (hr b r hb) (hr b' r' hb') hq hq' hat hat' hm (.inr (ht.imp_right .inl)) n n' tgt p arr
  | tru =>
    exact token_local (reads_keyword e.fl.strtod 116 b!"rue" .true (by simp) q) (reads_keyword e.fl.strtod 116 b!"rue" .true (by simp) q')
      hq hq' hat hat' hm (by simp) n n' tgt p arr
  | fls =>
    exact token_local (reads_keyword e.fl.strtod 102 b!"alse" .false (by simp) q) (reads_keyword e.fl.strtod 102 b!"alse" .false (by simp) q')
      hq hq' hat hat' hm (by simp) n n' tgt p arr
  | null =>
    exact token_local (reads_keyword e.fl.strtod 110 b!"ull" .null (by simp) q) (reads_keyword e.fl.strtod 110 b!"ull" .null (by simp) q')
      hq hq' hat hat' hm (by simp) n n' tgt p arr
  | @arr0 w hw =>
    have main : ∀ {q : Bytes} (_ : Tail e q) {st : St} (_ : At e ((91 :: (w ++ [93])) ++ q) st) (n : Nat),
        ∃ s1, parseValue e (n + 1) st tgt p arr = .ok s1 ∧ At e q s1 ∧ s1.m = st.m := by
      intro q hq st hat n
      have hr := reads_structural e.fl.strtod (b := 91) (ty := .lbracket) rfl (w ++ ([93] ++ q))
      have hr2 := reads_structural e.fl.strtod (b := 93) (ty := .rbracket) rfl q
      have hat' : At e (91 :: (w ++ ([93] ++ q))) st := by simpa using hat
      obtain ⟨h1, -, -⟩ := hat'.tok hr
      obtain ⟨st1, e1, a1, m1⟩ := expect_at hat' hr rfl (good_ws hw (good_structural _ (by decide) q))
      obtain ⟨t1, t2, t3⟩ := a1.tok (reads_ws hw hr2)
      obtain ⟨st2, e2, a2, m2⟩ := nextTok_at t2 t3 hq.good
      refine ⟨st2, ?_, a2, by rw [m2, m1]⟩
      rw [parseValue, h1]
      simp only []
      rw [parseArray, e1]
      simp only [Out.bind_ok, t1]
      simpa [Tok.isValid] using e2
    obtain ⟨s1, e1, a1, m1⟩ := main hq hat n
    obtain ⟨s1', e1', a1', m1'⟩ := main hq' hat' n'
    rw [e1, e1']
    exact .ok ⟨a1, a1', by rw [m1, m1', hm]⟩
  | @arr s h =>
    have a0 : At e (91 :: (s ++ 93 :: q)) st := by simpa using hat
    have a0' : At e (91 :: (s ++ 93 :: q')) st' := by simpa using hat'
    simp at hn hn'
    obtain ⟨st1, a1, m1, e1⟩ := array_open h a0 n tgt p arr
    obtain ⟨st1', a1', m1', e1'⟩ := array_open h a0' n' tgt p arr
    rw [e1, e1']
    refine ORel.bind (writer_local h a1 a1' (by rw [m1, m1', hm]) n n' (n + 1) (n' + 1) (by omega) (by omega) (by omega) (by omega)
      tgt htgt p arr) ?_
    rintro ⟨w, s2⟩ ⟨w', s2'⟩ ⟨rfl, hw, b1, b2, b3⟩
    refine ORel.bind (hE s (by simp; omega) h q q' s2 s2' b1 b2 b3 n n' (n + 1) (n' + 1) (by omega) (by omega) (by omega) (by omega)
      w hw) ?_
    rintro ⟨j, s3⟩ ⟨j', s3'⟩ ⟨c1, c2, c3⟩
    obtain ⟨st4, e4, a4, m4⟩ := expect_at c1 (reads_structural e.fl.strtod (b := 93) (ty := .rbracket) rfl q) rfl hq.good
    obtain ⟨st4', e4', a4', m4'⟩ := expect_at c2 (reads_structural e.fl.strtod (b := 93) (ty := .rbracket) rfl q') rfl hq'.good
    rw [e4, e4']
    exact .ok ⟨a4, a4', by rw [m4, m4', c3]⟩
  | @obj0 w hw => exact obj w rfl (.inl hw)
  | @obj s h => exact obj s rfl (.inr h)

theorem local_all (e : Env) (N : Nat) :
    (∀ v, v.length ≤ N → JVal v → LocalV e v) ∧ (∀ s, s.length ≤ N → JElems s → LocalE e s) ∧
      (∀ s, s.length ≤ N → JMembers s → LocalM e s) := by
  induction N with
  | zero =>
    have hV : ∀ v, v.length ≤ 0 → JVal v → LocalV e v := fun v hv h => by have := h.ne_nil; omega
    refine ⟨hV, fun s hs h => ?_, fun s hs h => ?_⟩
    · exact local_elems_step h (fun v hv => hV v (by omega)) (fun r hr => by omega)
    · exact local_members_step h (fun v hv => hV v (by omega)) (fun r hr => by omega)
  | succ N ih =>
    have hV : ∀ v, v.length ≤ N + 1 → JVal v → LocalV e v := fun v hv h =>
      local_value_step h (fun s hs => ih.2.1 s (by omega)) (fun s hs => ih.2.2 s (by omega))
    refine ⟨hV, fun s hs h => ?_, fun s hs h => ?_⟩
    · exact local_elems_step h (fun v hv => hV v (by omega)) (fun r hr => ih.2.1 r (by omega))
    · exact local_members_step h (fun v hv => hV v (by omega)) (fun r hr => ih.2.2 r (by omega))

theorem local_value {e : Env} {v : Bytes} (h : JVal v) : LocalV e v := (local_all e v.length).1 v (Nat.le_refl _) h

/-! ### What an object's members do -/

/-- What a value does to memory. -/
def valueEffect (e : Env) (v : Bytes) (tgt : Target) (p : Bool) (arr : Option Nat) (m : Mem) : Out Mem := do
  let s ← nextTok e { t := {}, c := { rest := v ++ [125] }, m := m }
  let s ← parseValue e v.length s tgt p arr
  .ok s.m

theorem value_effect {e : Env} {v : Bytes} (h : JVal v) {q : Bytes} (hq : Tail e q) {st : St} (hat : At e (v ++ q) st) {n : Nat}
    (hn : v.length ≤ n) (tgt : Target) (htgt : TgtOk tgt) (p : Bool) (arr : Option Nat) :
    ORel (fun s m' => At e q s ∧ s.m = m') (parseValue e n st tgt p arr) (valueEffect e v tgt p arr st.m) := by
  have ht : Tail e [125] := Tail.structural e (by decide) []
  obtain ⟨s0, e0, a0, m0⟩ := nextTok_at (e := e) (st := { t := {}, c := { rest := v ++ [125] }, m := st.m }) rfl rfl (h.good ht)
  unfold valueEffect
  rw [e0]
  simp only [Out.bind_ok]
  have := local_value h q [125] hq ht st s0 hat a0 m0.symm n v.length hn (Nat.le_refl _) tgt htgt p arr
  cases hx : parseValue e n st tgt p arr <;> cases hy : parseValue e v.length s0 tgt p arr <;> rw [hx, hy] at this <;> cases this
  · rename_i hb
    exact .ok ⟨hb.1, hb.2.2⟩
  · exact .trap
  · exact .ub

/-- What a member does to memory. -/
def memberEffect (e : Env) (tgt : Target) (m : Mem) (x : Bytes × Bytes) : Out Mem :=
  match memberOf e tgt x.1 with
  | some (f, t, a) => valueEffect e x.2 (some (t, a)) f.isPtr f.count m
  | none => .ok m

/-- What members do, one after another. -/
def membersEffect (e : Env) (tgt : Target) : List (Bytes × Bytes) → Mem → Out Mem
  | [], m => .ok m
  | x :: xs, m => do
    let m ← memberEffect e tgt m x
    membersEffect e tgt xs m

theorem pair_effect {e : Env} {w k x y v : Bytes} (hw : Ws w) (hk : JStr k) (hx : Ws x) (hy : Ws y) (hv : JVal v)
    {q : Bytes} (hq : Tail e q) {st : St} (hat : At e (w ++ (34 :: (k ++ 34 :: (x ++ 58 :: (y ++ (v ++ q)))))) st)
    (n : Nat) (hn : v.length ≤ n) (tgt : Target) (htgt : ∀ f t a, memberOf e tgt k = some (f, t, a) → NoDict t) :
    ORel (fun s m' => At e q s ∧ s.m = m') (parsePair e (parseValue e n) st tgt) (memberEffect e tgt st.m (k, v)) := by
  have hgv : Good e.fl.strtod (y ++ (v ++ q)) := good_ws hy (hv.good hq)
  obtain ⟨st1, e1, a1, m1⟩ := expect_at hat (reads_ws hw (reads_string _ hk _)) rfl
    (good_ws hx (good_structural _ (by decide) _))
  obtain ⟨st2, e2, a2, m2⟩ := expect_at a1 (reads_ws hx (reads_structural _ (b := 58) (ty := .colon) rfl _)) rfl hgv
  have a3 := (at_ws hy (hv.good hq)).1 a2
  rw [parsePair, e1]
  simp only [Out.bind_ok]
  rw [e2]
  simp only [Out.bind_ok]
  simp only [Tok.isValid, show (TokType.string != TokType.none) = true from rfl,
    show (TokType.colon != TokType.none) = true from rfl, Bool.not_true, Bool.false_eq_true, if_false]
  unfold memberEffect
  cases hmem : memberOf e tgt k with
  | none =>
    obtain ⟨st3, e3, a4, m3⟩ := skip_value hv hq a3 hn false none
    simp only []
    rw [e3]
    exact .ok ⟨a4, by rw [m3, m2, m1]⟩
  | some r =>
    obtain ⟨f, t, a⟩ := r
    simp only []
    have := value_effect hv hq a3 hn (some (t, a)) (htgt f t a hmem) f.isPtr f.count
    rw [m2, m1] at this
    exact this

theorem ObjOf.first (f : Bytes → UInt64) {s : Bytes} {m : Bytes × Bytes} {ms : List (Bytes × Bytes)} (h : ObjOf s (m :: ms)) (q : Bytes) :
    ∃ t r, Reads f (s ++ q) t r ∧ t.type ≠ .rbrace := by
  cases h with
  | one hw hk => exact ⟨_, _, by simpa using reads_ws hw (reads_string f hk _), by simp⟩
  | more hw hk => exact ⟨_, _, by simpa using reads_ws hw (reads_string f hk _), by simp⟩

theorem members_effect {e : Env} {s : Bytes} {ms : List (Bytes × Bytes)} (h : ObjOf s ms) (tgt : Target) (hne : ms ≠ [])
    (htgt : ∀ x ∈ ms, ∀ f t a, memberOf e tgt x.1 = some (f, t, a) → NoDict t) :
    ∀ {q : Bytes} {st : St}, At e (s ++ 125 :: q) st → ∀ {n k : Nat}, s.length ≤ n → s.length ≤ k →
      ORel (fun s m' => At e (125 :: q) s ∧ s.m = m') (parseMembers e (parseValue e n) k st tgt) (membersEffect e tgt ms st.m) := by
  induction h with
  | nil hw => exact absurd rfl hne
  | @one w kk x y v z hw hkk hx hy hv hz =>
    intro q st hat n k hn hk
    simp at hn hk
    obtain ⟨k, rfl⟩ : ∃ j, k = j + 1 := ⟨k - 1, by omega⟩
    have ht : Tail e (z ++ 125 :: q) := (Tail.structural e (by decide) q).ws hz
    rw [parseMembers, membersEffect]
    refine ORel.bind (pair_effect hw hkk hx hy hv ht (by simpa using hat) n (by omega) tgt (htgt (kk, v) (List.mem_cons_self))) ?_
    rintro s1 m1 ⟨b1, b3⟩
    have b1 := (at_ws hz (good_structural _ (by decide) q)).1 b1
    obtain ⟨t1, -, -⟩ := b1.tok (reads_structural _ (b := 125) (ty := .rbrace) rfl q)
    rw [t1]
    exact .ok ⟨b1, b3⟩
  | @more w kk x y v z r m0 ms hw hkk hx hy hv hz hr ih =>
    intro q st hat n k hn hk
    simp at hn hk
    obtain ⟨k, rfl⟩ : ∃ j, k = j + 1 := ⟨k - 1, by omega⟩
    have ht : Tail e (z ++ 44 :: (r ++ 125 :: q)) := (Tail.structural e (by decide) _).ws hz
    rw [parseMembers, membersEffect]
    refine ORel.bind (pair_effect hw hkk hx hy hv ht (by simpa using hat) n (by omega) tgt (htgt (kk, v) (List.mem_cons_self))) ?_
    rintro s1 m1 ⟨b1, rfl⟩
    have b1 := (at_ws hz (good_structural _ (by decide) _)).1 b1
    obtain ⟨t1, t2, t3⟩ := b1.tok (reads_structural _ (b := 44) (ty := .comma) rfl _)
    obtain ⟨tf, rf, hf, -⟩ := hr.first e.fl.strtod (125 :: q)
    obtain ⟨s2, e2, a2, m2⟩ := nextTok_at t2 t3 ⟨tf, rf, hf⟩
    rw [t1]
    simp only [if_true]
    rw [e2]
    simp only [Out.bind_ok]
    have := ih (by simp) (fun x hx => htgt x (by simp [hx])) a2 (n := n) (k := k) (by omega) (by omega)
    rw [m2] at this
    exact this

/-- `LoadJSON` of an object's text does what the members do, one after another, whatever follows the object. -/
theorem load_effect {e : Env} {w s : Bytes} {ms : List (Bytes × Bytes)} (hw : Ws w) (h : ObjOf s ms) (q : Bytes) (m : Mem)
    {hh : BitVec 32} {size : Nat} {cfl : BitVec 32} {fs : Flds} {bs : Tys} (b : Nat)
    (htgt : ∀ x ∈ ms, ∀ f t a, memberOf e (some (.cls hh size cfl fs bs, b)) x.1 = some (f, t, a) → NoDict t) :
    ORel (fun r m' => r.1.code = .none ∧ r.2 = m') (loadJSON e (w ++ 123 :: (s ++ 125 :: q)) m (.cls hh size cfl fs bs) b)
      (membersEffect e (some (.cls hh size cfl fs bs, b)) ms m) := by
  have hg : Good e.fl.strtod (123 :: (s ++ 125 :: q)) := good_structural _ (by decide) _
  obtain ⟨s0, e0, a0, m0⟩ := nextTok_at (e := e) (st := { t := {}, c := { rest := w ++ 123 :: (s ++ 125 :: q) }, m := m }) rfl rfl
    (good_ws hw hg)
  have a0 := (at_ws hw hg).1 a0
  unfold loadJSON
  rw [e0]
  simp only [Out.bind_ok]
  have hfuel : fuelFor (w ++ 123 :: (s ++ 125 :: q)) = (2 * w.length + 2 * s.length + 2 * q.length + 7) + 1 := by
    simp [fuelFor]; omega
  rw [hfuel]
  have hr := reads_structural e.fl.strtod (b := 123) (ty := .lbrace) rfl (s ++ 125 :: q)
  have hr2 := reads_structural e.fl.strtod (b := 125) (ty := .rbrace) rfl q
  cases ms with
  | nil =>
    cases h with
    | nil hws =>
      obtain ⟨st1, e1, a1, m1⟩ := expect_at a0 hr rfl (good_ws hws (good_structural _ (by decide) q))
      obtain ⟨t1, -, -⟩ := a1.tok (reads_ws hws hr2)
      rw [parseObject, e1]
      simp only [Out.bind_ok, t1, Tok.isValid, if_true, membersEffect]
      exact .ok ⟨a1.err, by rw [m1, m0]⟩
  | cons x xs =>
    obtain ⟨tf, rf, hf, hft⟩ := h.first e.fl.strtod (125 :: q)
    obtain ⟨st1, e1, a1, m1⟩ := expect_at a0 hr rfl ⟨tf, rf, hf⟩
    obtain ⟨t1, -, -⟩ := a1.tok hf
    rw [parseObject, e1]
    simp only [Out.bind_ok, t1, hft, if_false, Tok.isValid, show (TokType.lbrace != TokType.none) = true from rfl,
      Bool.not_true, Bool.false_eq_true, Ty.isContainer]
    have hmem := members_effect h (some (.cls hh size cfl fs bs, b)) (by simp) htgt a1
      (n := 2 * w.length + 2 * s.length + 2 * q.length + 7)
      (k := 2 * w.length + 2 * s.length + 2 * q.length + 7 + 1) (by omega) (by omega)
    rw [m1, m0] at hmem
    cases hx : parseMembers e (parseValue e (2 * w.length + 2 * s.length + 2 * q.length + 7))
        (2 * w.length + 2 * s.length + 2 * q.length + 7 + 1) st1 (some (.cls hh size cfl fs bs, b)) <;>
      cases hy : membersEffect e (some (.cls hh size cfl fs bs, b)) (x :: xs) m <;> rw [hx, hy] at hmem <;> cases hmem
    · rename_i hb
      exact .ok ⟨hb.1.err, hb.2⟩
    · exact .trap
    · exact .ub

end Clr.JSON
