import Verif.Proofs.JSONRound

/-! Classes: members of an object, saved and loaded. -/
namespace Clr.JSON

/-! ### Looking up fields -/

theorem find_cons (F : Bytes → BitVec 32) (h : BitVec 32) (f : FldInfo) (t : Ty) (r : Flds) :
    (Flds.cons f t r).list.find? (fun x => F x.1.name == h) =
      if F f.name = h then some (f, t) else r.list.find? (fun x => F x.1.name == h) := by
  rw [Flds.list, List.find?_cons]
  split <;> rename_i hc
  · rw [if_pos (by simpa using hc)]
  · rw [if_neg (by simpa using hc)]

theorem findOwn_eq (h : BitVec 32) (fs : Flds) : findOwn h fs = fs.list.find? (fun x => Hash.hashText x.1.name == h) := by
  match fs with
  | .nil => rw [findOwn]; rfl
  | .cons f t r => rw [find_cons Hash.hashText h f t r, findOwn, findOwn_eq h r]

mutual
theorem findField_eq (h : BitVec 32) : ∀ t : Ty, findField h t = t.allFields.find? (fun x => Hash.hashText x.1.name == h)
  | .prim _ _ => by simp [findField, Ty.allFields]
  | .enum _ _ _ _ => by simp [findField, Ty.allFields]
  | .cls _ _ _ fs bs => by
      rw [findField, Ty.allFields, List.find?_append, findOwn_eq, findBases_eq h bs]
      cases fs.list.find? (fun x => Hash.hashText x.1.name == h) <;> simp
  | .tmpl _ _ bs => by rw [findField, Ty.allFields, findBases_eq h bs]
  | .vec _ _ _ _ => by simp [findField, Ty.allFields]
  | .dict _ _ _ _ _ => by simp [findField, Ty.allFields]

theorem findBases_eq (h : BitVec 32) : ∀ bs : Tys, findBases h bs = bs.allFields.find? (fun x => Hash.hashText x.1.name == h)
  | .nil => by simp [findBases, Tys.allFields]
  | .cons t r => by
      rw [findBases, Tys.allFields, List.find?_append, findField_eq h t, findBases_eq h r]
      cases t.allFields.find? (fun x => Hash.hashText x.1.name == h) <;> simp
end

theorem findField_mem {t : Ty} (hd : t.allFields.Pairwise (fun x y => Hash.hashText x.1.name ≠ Hash.hashText y.1.name))
    {x : FldInfo × Ty} (hx : x ∈ t.allFields) : findField (Hash.hashText x.1.name) t = some x := by
  rw [findField_eq]
  cases hf : t.allFields.find? (fun y => Hash.hashText y.1.name == Hash.hashText x.1.name) with
  | none =>
    have := List.find?_eq_none.1 hf x hx
    simp at this
  | some y =>
    have h1 := List.mem_of_find?_eq_some hf
    have h2 : Hash.hashText y.1.name = Hash.hashText x.1.name := by simpa using List.find?_some hf
    by_cases hne : y = x
    · rw [hne]
    · exact absurd h2 (pairwise_forall (fun _ _ h => Ne.symm h) hd y h1 x hx hne)

/-! ### Members -/

/-- What a member `"k": v` of the JSON object is to the class `ct`: a saved field, with the text of the value it
has in the object at `a`; or something the class does not have or that is transient. -/
inductive Item (e : Env) (o : Opts) (ct : Ty) (m : Mem) (a : Nat) (k v : Bytes) : Option (FldInfo × Ty) → Prop
  | known (x : FldInfo × Ty) (hk : k = x.1.name) (hf : findField (Hash.hashText x.1.name) ct = some x)
      (hsv : savedField e x.1 = true) (hsup : CellSupported e o x.1.count x.2)
      (hl : Loads e v x.1.count x.2 m (a + x.1.offset)) : Item e o ct m a k v (some x)
  | unknown (hp : Padded v) (hf : ∀ f t, findField (Hash.hashText k) ct = some (f, t) → e.skips f.flags = true) :
      Item e o ct m a k v none

/-- The text between the braces of a JSON object, and the saved fields among its members. -/
inductive Members (e : Env) (o : Opts) (ct : Ty) (m : Mem) (a : Nat) : Bytes → List (FldInfo × Ty) → Prop
  | one {w k x y v : Bytes} {kn : Option (FldInfo × Ty)} (hw : Ws w) (hk : JStr k) (hx : Ws x) (hy : Ws y)
      (hi : Item e o ct m a k v kn) : Members e o ct m a (w ++ (34 :: (k ++ 34 :: (x ++ 58 :: (y ++ v))))) kn.toList
  | more {w k x y v r : Bytes} {kn : Option (FldInfo × Ty)} {xs : List (FldInfo × Ty)} (hw : Ws w) (hk : JStr k)
      (hx : Ws x) (hy : Ws y) (hi : Item e o ct m a k v kn) (hr : Members e o ct m a r xs) :
      Members e o ct m a (w ++ (34 :: (k ++ 34 :: (x ++ 58 :: (y ++ (v ++ 44 :: r)))))) (kn.toList ++ xs)

theorem Item.padded {e : Env} {o : Opts} {ct : Ty} {m : Mem} {a : Nat} {k v : Bytes} {kn : Option (FldInfo × Ty)}
    (h : Item e o ct m a k v kn) : Padded v := by
  cases h with
  | known x hk hf hsv hsup hl => exact hl.1
  | unknown hp hf => exact hp

theorem Ws.append {x y : Bytes} (hx : Ws x) (hy : Ws y) : Ws (x ++ y) := by
  intro b hb
  rcases List.mem_append.1 hb with hb | hb
  · exact hx b hb
  · exact hy b hb

theorem Members.ws {e : Env} {o : Opts} {ct : Ty} {m : Mem} {a : Nat} {s : Bytes} {xs : List (FldInfo × Ty)} {w0 : Bytes}
    (hw0 : Ws w0) (h : Members e o ct m a s xs) : Members e o ct m a (w0 ++ s) xs := by
  cases h with
  | one hw hk hx hy hi =>
    rw [← List.append_assoc]
    exact .one (hw0.append hw) hk hx hy hi
  | more hw hk hx hy hi hr =>
    rw [← List.append_assoc]
    exact .more (hw0.append hw) hk hx hy hi hr

theorem Members.jmembers {e : Env} {o : Opts} {ct : Ty} {m : Mem} {a : Nat} {s : Bytes} {xs : List (FldInfo × Ty)}
    (h : Members e o ct m a s xs) : JMembers s := by
  induction h with
  | one hw hk hx hy hi =>
    obtain ⟨w', v', x', rfl, hw', hv', hx'⟩ := hi.padded
    have := JMembers.one hw hk hx (hy.append hw') hv' hx'
    simpa using this
  | more hw hk hx hy hi hr ih =>
    obtain ⟨w', v', x', rfl, hw', hv', hx'⟩ := hi.padded
    have := JMembers.more hw hk hx (hy.append hw') hv' hx' ih
    simpa using this

theorem JMembers.ws {w0 s : Bytes} (hw0 : Ws w0) (h : JMembers s) : JMembers (w0 ++ s) := by
  cases h with
  | one hw hk hx hy hv hz =>
    rw [← List.append_assoc]
    exact .one (hw0.append hw) hk hx hy hv hz
  | more hw hk hx hy hv hz hr =>
    rw [← List.append_assoc]
    exact .more (hw0.append hw) hk hx hy hv hz hr

theorem JMembers.wsEnd {w0 s : Bytes} (hw0 : Ws w0) (h : JMembers s) : JMembers (s ++ w0) := by
  match s, h with
  | _, .one hw hk hx hy hv hz =>
    have := JMembers.one hw hk hx hy hv (hz.append hw0)
    simpa using this
  | _, .more hw hk hx hy hv hz hr =>
    have := JMembers.more hw hk hx hy hv hz (hr.wsEnd hw0)
    simpa using this
termination_by s.length

/-- The bytes of the fields. -/
def SlotsTouched (e : Env) (xs : List (FldInfo × Ty)) (b y : Nat) : Prop :=
  ∃ x ∈ xs, CellTouched e x.1.count x.2 (b + x.1.offset) y

/-- Fields that lie in a class of that size without overlap. -/
structure Fits (e : Env) (o : Opts) (size : Nat) (xs : List (FldInfo × Ty)) : Prop where
  apart : xs.Pairwise Apart
  within : ∀ x ∈ xs, x.1.offset + x.1.extent x.2 ≤ size
  saved : ∀ x ∈ xs, savedField e x.1 = true
  supported : ∀ x ∈ xs, CellSupported e o x.1.count x.2

theorem Fits.tail {e : Env} {o : Opts} {size : Nat} {kn : Option (FldInfo × Ty)} {xs : List (FldInfo × Ty)}
    (h : Fits e o size (kn.toList ++ xs)) : Fits e o size xs :=
  ⟨(List.pairwise_append.1 h.apart).2.1, fun x hx => h.within x (by simp [hx]), fun x hx => h.saved x (by simp [hx]),
    fun x hx => h.supported x (by simp [hx])⟩

theorem savedField_ptr {e : Env} {f : FldInfo} (h : savedField e f = true) : f.isPtr = false ∧ e.skips f.flags = false := by
  simp [savedField] at h
  exact ⟨h.2, h.1⟩

theorem slot_within {e : Env} {o : Opts} {size : Nat} {xs : List (FldInfo × Ty)} (h : Fits e o size xs)
    {x : FldInfo × Ty} (hx : x ∈ xs) {b y : Nat} (hy : CellTouched e x.1.count x.2 (b + x.1.offset) y) :
    b + x.1.offset ≤ y ∧ y < b + x.1.offset + x.1.extent x.2 ∧ y < b + size := by
  have h1 := cellTouched_within (touched_within x.2 (h.supported x hx).1) hy
  have h2 := h.within x hx
  rw [extent_eq (savedField_ptr (h.saved x hx)).1] at h2 ⊢
  omega

/-- What `ParserPair` does for a member. -/
theorem pair_load {e : Env} {o : Opts} {hh : BitVec 32} {size : Nat} {cfl : BitVec 32} {fs : Flds} {bs : Tys} {m : Mem} {a : Nat}
    {w k x y v : Bytes} {kn : Option (FldInfo × Ty)} (hw : Ws w) (hk : JStr k) (hx : Ws x) (hy : Ws y)
    (hi : Item e o (.cls hh size cfl fs bs) m a k v kn) (hfit : Fits e o size kn.toList)
    {q : Bytes} (hq : Tail e q) {st : St} (hat : At e (w ++ (34 :: (k ++ 34 :: (x ++ 58 :: (y ++ (v ++ q)))))) st)
    {n b : Nat} (hn : v.length ≤ n) (hb : b + size ≤ st.m.next)
    (hclear : ∀ z ∈ kn.toList, Clear st.m (b + z.1.offset) (z.1.extent z.2)) :
    ∃ st', parsePair e (parseValue e n) st (some (.cls hh size cfl fs bs, b)) = .ok st' ∧ At e q st' ∧
      Effect st.m st'.m (SlotsTouched e kn.toList b) ∧
      ∀ z ∈ kn.toList, CellSame e m st'.m (Fresh st.m st'.m) z.1.count z.2 (a + z.1.offset) (b + z.1.offset) := by
  have hgv : Good e.fl.strtod (y ++ (v ++ q)) := good_ws hy (hi.padded.good hq)
  obtain ⟨st1, e1, a1, m1⟩ := expect_at hat (reads_ws hw (reads_string _ hk _)) rfl
    (good_ws hx (good_structural _ (by decide) _))
  obtain ⟨st2, e2, a2, m2⟩ := expect_at a1 (reads_ws hx (reads_structural _ (b := 58) (ty := .colon) rfl _)) rfl hgv
  have a3 := (at_ws hy (hi.padded.good hq)).1 a2
  have hsome : ∀ f t b', memberOf e (some (.cls hh size cfl fs bs, b)) k = some (f, t, b') →
      parsePair e (parseValue e n) st (some (.cls hh size cfl fs bs, b)) = parseValue e n st2 (some (t, b')) f.isPtr f.count := by
    intro f t b' hmem
    rw [parsePair, e1]
    simp only [Out.bind_ok]
    rw [e2]
    simp only [Out.bind_ok]
    simp only [Tok.isValid, show (TokType.string != TokType.none) = true from rfl,
      show (TokType.colon != TokType.none) = true from rfl, Bool.not_true, Bool.false_eq_true, if_false, hmem]
  have hnone : memberOf e (some (.cls hh size cfl fs bs, b)) k = none →
      parsePair e (parseValue e n) st (some (.cls hh size cfl fs bs, b)) = parseValue e n st2 none false none := by
    intro hmem
    rw [parsePair, e1]
    simp only [Out.bind_ok]
    rw [e2]
    simp only [Out.bind_ok]
    simp only [Tok.isValid, show (TokType.string != TokType.none) = true from rfl,
      show (TokType.colon != TokType.none) = true from rfl, Bool.not_true, Bool.false_eq_true, if_false, hmem]
  cases hi with
  | known z hkz hf hsv hsup hl =>
    subst hkz
    obtain ⟨hp, hsk⟩ := savedField_ptr hsv
    have hext := extent_eq (f := z.1) (t := z.2) hp
    have hwz := hfit.within z (by simp)
    have hcz := hclear z (by simp)
    rw [hext] at hwz hcz
    obtain ⟨st3, e3, a4, ef, sm⟩ := hl.2 q hq st2 (b + z.1.offset) n a3 hn (by rw [m2, m1]; omega) (by rw [m2, m1]; exact hcz)
    rw [m2, m1] at ef sm
    refine ⟨st3, ?_, a4, ef.mono fun u hu => ⟨z, by simp, hu⟩, fun z' hz' => ?_⟩
    · have hmem : memberOf e (some (.cls hh size cfl fs bs, b)) z.1.name = some (z.1, z.2, b + z.1.offset) := by
        simp only [memberOf, hf, hsk, Bool.false_eq_true, if_false]
      rw [hsome _ _ _ hmem, hp]
      exact e3
    · obtain rfl : z' = z := by simpa using hz'
      exact sm
  | unknown hp hf =>
    obtain ⟨w', v', x', rfl, hw', hv', hx'⟩ := hp
    have a4 : At e (v' ++ (x' ++ q)) st2 := (at_ws hw' (hv'.good (hq.ws hx'))).1 (by simpa using a3)
    obtain ⟨st3, e3, a5, m3⟩ := skip_value hv' (hq.ws hx') a4 (n := n) (by simp at hn; omega) false none
    refine ⟨st3, ?_, (at_ws hx' hq.good).1 a5, by rw [m3, m2, m1]; exact Effect.refl _ _, fun z hz => by simp at hz⟩
    have hmem : memberOf e (some (.cls hh size cfl fs bs, b)) k = none := by
      simp only [memberOf]
      split
      · rename_i f t hft
        rw [if_pos (hf f t hft)]
      · rfl
    rw [hnone hmem]
    exact e3

theorem members_load {e : Env} {o : Opts} {hh : BitVec 32} {size : Nat} {cfl : BitVec 32} {fs : Flds} {bs : Tys} {m : Mem} {a : Nat}
    {text : Bytes} {xs : List (FldInfo × Ty)} (h : Members e o (.cls hh size cfl fs bs) m a text xs) (hfit : Fits e o size xs) :
    ∀ {q : Bytes} {st : St} {n n' b : Nat}, At e (text ++ 125 :: q) st → text.length ≤ n → text.length ≤ n' →
      b + size ≤ st.m.next → (∀ z ∈ xs, Clear st.m (b + z.1.offset) (z.1.extent z.2)) →
      ∃ st', parseMembers e (parseValue e n) n' st (some (.cls hh size cfl fs bs, b)) = .ok st' ∧ At e (125 :: q) st' ∧
        Effect st.m st'.m (SlotsTouched e xs b) ∧
        ∀ z ∈ xs, CellSame e m st'.m (Fresh st.m st'.m) z.1.count z.2 (a + z.1.offset) (b + z.1.offset) := by
  induction h with
  | @one w k x y v kn hw hk hx hy hi =>
    intro q st n n' b hat hn hn' hb hclear
    simp at hn hn'
    obtain ⟨n', rfl⟩ : ∃ j, n' = j + 1 := ⟨n' - 1, by omega⟩
    obtain ⟨st1, e1, a1, ef, sm⟩ := pair_load hw hk hx hy hi hfit (Tail.structural e (b := 125) (by decide) q)
      (by simpa using hat) (n := n) (b := b) (by omega) hb hclear
    obtain ⟨t1, -, -⟩ := a1.tok (reads_structural _ (b := 125) (ty := .rbrace) rfl q)
    refine ⟨st1, ?_, a1, ef, sm⟩
    rw [parseMembers, e1]
    simp [t1]
  | @more w k x y v r kn xs hw hk hx hy hi hr ih =>
    intro q st n n' b hat hn hn' hb hclear
    simp at hn hn'
    obtain ⟨n', rfl⟩ : ∃ j, n' = j + 1 := ⟨n' - 1, by omega⟩
    have hfit1 : Fits e o size kn.toList :=
      ⟨(List.pairwise_append.1 hfit.apart).1, fun x hx => hfit.within x (by simp [hx]), fun x hx => hfit.saved x (by simp [hx]),
        fun x hx => hfit.supported x (by simp [hx])⟩
    have hfit2 := hfit.tail
    have hcross := (List.pairwise_append.1 hfit.apart).2.2
    obtain ⟨st1, e1, a1, ef, sm⟩ := pair_load hw hk hx hy hi hfit1 (Tail.structural e (b := 44) (by decide) (r ++ 125 :: q))
      (by simpa using hat) (n := n) (b := b) (by omega) hb (fun z hz => hclear z (by simp [hz]))
    obtain ⟨t1, t2, t3⟩ := a1.tok (reads_structural _ (b := 44) (ty := .comma) rfl (r ++ 125 :: q))
    obtain ⟨tf, rf, hf, -⟩ := hr.jmembers.first e.fl.strtod (125 :: q)
    obtain ⟨st2, e2, a2, m2⟩ := nextTok_at t2 t3 ⟨tf, rf, hf⟩
    have hnx := ef.next
    have hnot : ∀ z ∈ xs, ∀ y, b + z.1.offset ≤ y → y < b + z.1.offset + z.1.extent z.2 → ¬ SlotsTouched e kn.toList b y := by
      rintro z hz y h1 h2 ⟨z', hz', hy⟩
      have hw1 := slot_within hfit1 hz' hy
      have := hcross z' hz' z hz
      unfold Apart at this
      omega
    obtain ⟨st3, e3, a3, ef3, sm3⟩ := ih hfit2 (q := q) (st := st2) (n := n) (n' := n') (b := b) a2 (by omega) (by omega)
      (by rw [m2]; omega) (by
        intro z hz
        rw [m2]
        exact Clear.effect (hclear z (by simp [hz])) ef (by have := hfit2.within z hz; omega) (hnot z hz))
    rw [m2] at ef3 sm3
    have hnx3 := ef3.next
    refine ⟨st3, ?_, a3, ?_, ?_⟩
    · rw [parseMembers, e1]
      simp only [Out.bind_ok, t1, if_true]
      rw [e2]
      simp only [Out.bind_ok]
      exact e3
    · refine (ef.trans ef3).mono ?_
      rintro y (⟨z, hz, hy⟩ | ⟨z, hz, hy⟩)
      · exact ⟨z, by simp [hz], hy⟩
      · exact ⟨z, by simp [hz], hy⟩
    · intro z hz
      rcases List.mem_append.1 hz with hz | hz
      · refine cellSame_congr (hfit1.supported z hz).1 (sm z hz) (fun y hy => ⟨hy.1, by have := hy.2; omega⟩) ?_
        intro y hy
        have hlt : y < st1.m.next := by
          rcases hy with hy | hy
          · have := slot_within hfit1 hz hy; omega
          · exact hy.2
        have hnt : ¬ SlotsTouched e xs b y := by
          rintro ⟨z', hz', hy'⟩
          have h5 := slot_within hfit2 hz' hy'
          rcases hy with hy | hy
          · have h6 := slot_within hfit1 hz hy
            have := hcross z hz z' hz'
            unfold Apart at this
            omega
          · have := hy.1; omega
        exact ⟨ef3.byte y hlt hnt, ef3.elems y hlt hnt⟩
      · exact cellSame_congr (hfit2.supported z hz).1 (sm3 z hz) (fun y hy => ⟨by have := hy.1; omega, hy.2⟩) (fun y _ => ⟨rfl, rfl⟩)

/-! ### The list of fields that are saved -/

/-- The field of a saver. -/
def Saver.field (s : Saver) : FldInfo × Ty := (s.info, s.type)

/-- The fields written, i.e. without pointers. -/
def written (ss : List Saver) : List (FldInfo × Ty) := (ss.filter fun s => !s.info.isPtr).map Saver.field

/-- The savers save with `saveObj`, the fields written are those listed, and they keep every symmetric relation
between the fields. -/
structure SaversOk (e : Env) (o : Opts) (m : Mem) (ss : List Saver) (xs : List (FldInfo × Ty)) : Prop where
  save : ∀ s ∈ ss, s.save = fun i a => saveObj e o m s.type i a
  mem : ∀ x, x ∈ written ss ↔ x ∈ xs
  pair : ∀ R : FldInfo × Ty → FldInfo × Ty → Prop, (∀ x y, R x y → R y x) → xs.Pairwise R → (written ss).Pairwise R

theorem savers_map (e : Env) (o : Opts) (m : Mem) (fs : Flds) : (savers e o m fs).map Saver.field = fs.list := by
  match fs with
  | .nil => simp [savers, Flds.list]
  | .cons f t r => simp [savers, Flds.list, savers_map e o m r, Saver.field]

theorem savers_save (e : Env) (o : Opts) (m : Mem) (fs : Flds) :
    ∀ s ∈ savers e o m fs, s.save = fun i a => saveObj e o m s.type i a := by
  match fs with
  | .nil => simp [savers]
  | .cons f t r =>
    intro s hs
    rw [savers] at hs
    rcases List.mem_cons.1 hs with rfl | hs
    · rfl
    · exact savers_save e o m r s hs

theorem own_ok (e : Env) (o : Opts) (m : Mem) (fs : Flds) (hsort : SortOk e o fs) :
    SaversOk e o m (order e o (savers e o m fs)) (fs.list.filter fun x => savedField e x.1) := by
  obtain ⟨o1, -, o3⟩ := order_spec e o (savers e o m fs) (by
    intro hs
    obtain ⟨h1, h2⟩ := hsort hs
    rw [← savers_map e o m fs] at h1 h2
    refine ⟨?_, fun s hs => h2 s.field (List.mem_map.2 ⟨s, hs, rfl⟩)⟩
    rw [List.pairwise_filter, List.pairwise_map] at h1
    rw [List.pairwise_filter]
    exact h1)
  refine ⟨fun s hs => savers_save e o m fs s ((o1 s).1 hs).1, fun x => ?_, fun R hsym hR => ?_⟩
  · rw [← savers_map e o m fs]
    unfold written
    simp only [List.mem_map, List.mem_filter, o1]
    constructor
    · rintro ⟨s, ⟨⟨h1, h2⟩, h3⟩, rfl⟩
      refine ⟨⟨s, h1, rfl⟩, ?_⟩
      simp [savedField, Saver.field, h2]
      simpa using h3
    · rintro ⟨⟨s, h1, rfl⟩, h2⟩
      have := savedField_ptr h2
      exact ⟨s, ⟨⟨h1, this.2⟩, by simpa [Saver.field] using this.1⟩, rfl⟩
  · unfold written
    rw [List.pairwise_map, List.pairwise_filter]
    apply o3 (fun s t => (!s.info.isPtr) = true → (!t.info.isPtr) = true → R s.field t.field)
    · intro x y h h1 h2
      exact hsym _ _ (h h2 h1)
    · rw [← savers_map e o m fs, List.pairwise_filter, List.pairwise_map] at hR
      rw [List.pairwise_filter]
      refine hR.imp ?_
      intro s t h h1 h2 h3 h4
      apply h
      · simp [savedField, Saver.field] at h1 h3 ⊢; exact ⟨h1, h3⟩
      · simp [savedField, Saver.field] at h2 h4 ⊢; exact ⟨h2, h4⟩

theorem SaversOk.nil (e : Env) (o : Opts) (m : Mem) : SaversOk e o m [] [] :=
  ⟨by simp, by simp [written], fun R _ _ => by simp [written]⟩

theorem SaversOk.append {e : Env} {o : Opts} {m : Mem} {ss ss' : List Saver} {xs xs' : List (FldInfo × Ty)}
    (h : SaversOk e o m ss xs) (h' : SaversOk e o m ss' xs') : SaversOk e o m (ss ++ ss') (xs ++ xs') := by
  have hw : written (ss ++ ss') = written ss ++ written ss' := by simp [written]
  refine ⟨fun s hs => ?_, fun x => ?_, fun R hsym hR => ?_⟩
  · rcases List.mem_append.1 hs with hs | hs
    · exact h.save s hs
    · exact h'.save s hs
  · rw [hw, List.mem_append, List.mem_append, h.mem, h'.mem]
  · rw [hw]
    obtain ⟨p1, p2, p3⟩ := List.pairwise_append.1 hR
    exact List.pairwise_append.2 ⟨h.pair R hsym p1, h'.pair R hsym p2, fun x hx y hy =>
      p3 x ((h.mem x).1 hx) y ((h'.mem y).1 hy)⟩

mutual
theorem class_ok (e : Env) (o : Opts) (m : Mem) : ∀ t : Ty, SupportedBase e o t → SaversOk e o m (classSavers e o m t) (t.savedFields e)
  | .prim _ _ => by simp [SupportedBase]
  | .enum _ _ _ _ => by simp [SupportedBase]
  | .vec _ _ _ _ => by simp [SupportedBase]
  | .dict _ _ _ _ _ => by simp [SupportedBase]
  | .tmpl _ _ bs => by
      intro hs
      rw [SupportedBase] at hs
      rw [classSavers, Ty.savedFields]
      exact bases_ok e o m bs hs
  | .cls _ _ fl fs bs => by
      intro hs
      rw [SupportedBase] at hs
      rw [classSavers, Ty.savedFields]
      cases hfl : e.skips fl
      · rw [hfl] at hs
        obtain ⟨-, h2, h3⟩ := hs.resolve_left (by simp)
        simp only [Bool.false_eq_true, if_false]
        exact (own_ok e o m fs h3).append (bases_ok e o m bs h2)
      · simp only [if_true]
        exact SaversOk.nil e o m

theorem bases_ok (e : Env) (o : Opts) (m : Mem) : ∀ bs : Tys, SupportedTys e o bs → SaversOk e o m (baseSavers e o m bs) (bs.savedFields e)
  | .nil => by
      intro _
      rw [baseSavers, Tys.savedFields]
      exact SaversOk.nil e o m
  | .cons t r => by
      intro hs
      rw [SupportedTys] at hs
      rw [baseSavers, Tys.savedFields]
      exact (class_ok e o m t hs.1).append (bases_ok e o m r hs.2)
end

/-! ### Saving the members -/

theorem field_loads {e : Env} {o : Opts} {m : Mem} {s : Saver} (hsave : s.save = fun i a => saveObj e o m s.type i a)
    (hp : s.info.isPtr = false) (hsup : CellSupported e o s.info.count s.type) (hrt : RT e o s.type) (indent a : Nat)
    (hsav : CellSavable e m s.info.count s.type a) :
    ∃ text, saveField o m s indent a = .ok text ∧ Loads e text s.info.count s.type m a := by
  unfold saveField
  cases hc : s.info.count with
  | none =>
    obtain ⟨text, h1, h2⟩ := hrt m a indent (hsav.1 hc)
    refine ⟨text, ?_, h2⟩
    simp only [hp, Bool.false_eq_true, if_false, hsave, h1]
  | some k =>
    have hpos := hsup.2 (by simp [hc])
    obtain ⟨text, h1, h2⟩ := array_loads hsup.1 hpos hrt m a indent k (hsav.2 k hc)
    refine ⟨text, ?_, h2⟩
    simp only [hp, hsave, strideOf, Bool.false_eq_true, if_false]
    rw [if_neg (by omega)]
    exact h1

theorem newLine_ws (o : Opts) (indent : Nat) : Ws (newLine o indent) := by
  unfold newLine
  split
  · intro b hb
    rcases List.mem_cons.1 hb with rfl | hb
    · decide
    · rw [List.eq_of_mem_replicate hb]; decide
  · simp [Ws]

theorem ObjOf.ws {w0 s : Bytes} {ms : List (Bytes × Bytes)} (hw0 : Ws w0) (h : ObjOf s ms) : ObjOf (w0 ++ s) ms := by
  cases h with
  | nil hw => exact .nil (hw0.append hw)
  | one hw hk hx hy hv hz =>
    have := ObjOf.one (hw0.append hw) hk hx hy hv hz
    simpa using this
  | more hw hk hx hy hv hz hr =>
    have := ObjOf.more (hw0.append hw) hk hx hy hv hz hr
    simpa using this

theorem ObjOf.wsEnd {w0 s : Bytes} {ms : List (Bytes × Bytes)} (hw0 : Ws w0) (h : ObjOf s ms) : ObjOf (s ++ w0) ms := by
  induction h with
  | nil hw => exact .nil (hw.append hw0)
  | one hw hk hx hy hv hz =>
    have := ObjOf.one hw hk hx hy hv (hz.append hw0)
    simpa using this
  | more hw hk hx hy hv hz hr ih =>
    have := ObjOf.more hw hk hx hy hv hz ih
    simpa using this

/-- The members in a text are named like these fields. -/
def Named (text : Bytes) (xs : List (FldInfo × Ty)) : Prop :=
  ∃ ms, ObjOf text ms ∧ ms.map Prod.fst = xs.map (fun x => x.1.name)

theorem saveMembers_spec {e : Env} {o : Opts} {ct : Ty} {m : Mem} (indent a : Nat) (hptr : o.ptrs = none) (ss : List Saver)
    (hok : ∀ s ∈ ss, s.info.isPtr = false →
      PlainName s.info.name ∧ findField (Hash.hashText s.info.name) ct = some s.field ∧ savedField e s.info = true ∧
      CellSupported e o s.info.count s.type ∧
      ∃ text, saveField o m s indent (a + s.info.offset) = .ok text ∧
        Loads e text s.info.count s.type m (a + s.info.offset)) :
    (written ss = [] → ∀ b, saveMembers o m indent a ss b = .ok []) ∧
    (written ss ≠ [] → ∃ text, saveMembers o m indent a ss false = .ok text ∧
      saveMembers o m indent a ss true = .ok (44 :: (newLine o indent ++ text)) ∧ Members e o ct m a text (written ss) ∧
      Named text (written ss)) := by
  induction ss with
  | nil => exact ⟨fun _ b => rfl, fun h => absurd rfl h⟩
  | cons s ss ih =>
    have ih := ih (fun t ht => hok t (by simp [ht]))
    cases hp : s.info.isPtr
    · have hw : written (s :: ss) = s.field :: written ss := by simp [written, hp]
      obtain ⟨hpl, hf, hsv, hsup, v, hv, hl⟩ := hok s (by simp) hp
      have hj : JStr s.info.name := jstr_plain hpl
      have hi : Item e o ct m a s.info.name v (some s.field) := .known s.field rfl hf hsv hsup hl
      refine ⟨fun h => by rw [hw] at h; simp at h, fun _ => ?_⟩
      have hcond : ¬ (s.info.isPtr = true ∧ o.mapPtr s.type.hash (m.ptr (a + s.info.offset)) = none) := by simp [hp]
      by_cases hr : written ss = []
      · refine ⟨quote s.info.name ++ 58 :: v, ?_, ?_, ?_, ?_⟩
        · rw [saveMembers, if_neg hcond, hv, Res.bind_ok, ih.1 hr true, Res.bind_ok]; simp
        · rw [saveMembers, if_neg hcond, hv, Res.bind_ok, ih.1 hr true, Res.bind_ok]; simp
        · rw [hw, hr]
          have := Members.one (w := []) (x := []) (y := []) (by simp [Ws]) hj (by simp [Ws]) (by simp [Ws]) hi
          simpa [quote] using this
        · rw [hw, hr]
          obtain ⟨y, v', z, rfl, hy, hv', hz⟩ := hl.1
          refine ⟨[(s.info.name, v')], ?_, rfl⟩
          have := ObjOf.one (w := []) (x := []) (by simp [Ws]) hj (by simp [Ws]) hy hv' hz
          simpa [quote] using this
      · obtain ⟨r, -, h2, h3, ms, h4, h5⟩ := ih.2 hr
        refine ⟨quote s.info.name ++ 58 :: (v ++ 44 :: (newLine o indent ++ r)), ?_, ?_, ?_, ?_⟩
        · rw [saveMembers, if_neg hcond, hv, Res.bind_ok, h2, Res.bind_ok]; simp
        · rw [saveMembers, if_neg hcond, hv, Res.bind_ok, h2, Res.bind_ok]; simp
        · rw [hw]
          have := Members.more (w := []) (x := []) (y := []) (by simp [Ws]) hj (by simp [Ws]) (by simp [Ws]) hi
            (h3.ws (newLine_ws o indent))
          simpa [quote] using this
        · rw [hw]
          obtain ⟨y, v', z, rfl, hy, hv', hz⟩ := hl.1
          cases ms with
          | nil => cases hh : written ss with
            | nil => exact absurd hh hr
            | cons => rw [hh] at h5; simp at h5
          | cons m1 ms =>
            refine ⟨(s.info.name, v') :: m1 :: ms, ?_, by simp only [List.map_cons] at h5 ⊢; rw [h5]; rfl⟩
            have := ObjOf.more (w := []) (x := []) (by simp [Ws]) hj (by simp [Ws]) hy hv' hz (h4.ws (newLine_ws o indent))
            simpa [quote] using this
    · have hw : written (s :: ss) = written ss := by simp [written, hp]
      have hcond : s.info.isPtr = true ∧ o.mapPtr s.type.hash (m.ptr (a + s.info.offset)) = none := by
        simp [hp, Opts.mapPtr, hptr]
      rw [hw]
      refine ⟨fun h b => ?_, fun h => ?_⟩
      · rw [saveMembers, if_pos hcond]; exact ih.1 h b
      · obtain ⟨text, h1, h2, h3⟩ := ih.2 h
        refine ⟨text, ?_, ?_, h3⟩
        · rw [saveMembers, if_pos hcond]; exact h1
        · rw [saveMembers, if_pos hcond]; exact h2

theorem Members.pos {e : Env} {o : Opts} {ct : Ty} {m : Mem} {a : Nat} {s : Bytes} {xs : List (FldInfo × Ty)}
    (h : Members e o ct m a s xs) : 1 ≤ s.length := by
  cases h <;> simp <;> omega

/-! ### Objects -/

/-- The text of an object: it is empty, or it has members. -/
inductive ObjText (e : Env) (o : Opts) (ct : Ty) (m : Mem) (a : Nat) : Bytes → List (FldInfo × Ty) → Prop
  | empty {w : Bytes} (hw : Ws w) : ObjText e o ct m a w []
  | members {s w : Bytes} {xs : List (FldInfo × Ty)} (hw : Ws w) (h : Members e o ct m a s xs) : ObjText e o ct m a (s ++ w) xs

theorem ObjText.jval {e : Env} {o : Opts} {ct : Ty} {m : Mem} {a : Nat} {s : Bytes} {xs : List (FldInfo × Ty)}
    (h : ObjText e o ct m a s xs) : JVal (123 :: (s ++ [125])) := by
  cases h with
  | empty hw => exact .obj0 hw
  | members hw h => exact .obj (h.jmembers.wsEnd hw)

theorem Members.wsEnd {e : Env} {o : Opts} {ct : Ty} {m : Mem} {a : Nat} {s : Bytes} {xs : List (FldInfo × Ty)} {w0 : Bytes}
    (h : Members e o ct m a s xs)
    (hpad : ∀ {k v kn}, Item e o ct m a k v kn → Item e o ct m a k (v ++ w0) kn) : Members e o ct m a (s ++ w0) xs := by
  induction h with
  | one hw hk hx hy hi =>
    have := Members.one hw hk hx hy (hpad hi)
    simpa using this
  | more hw hk hx hy hi hr ih =>
    have := Members.more hw hk hx hy hi ih
    simpa using this

theorem Loads.wsEnd {e : Env} {text : Bytes} {count : Option Nat} {t : Ty} {m : Mem} {a : Nat} (h : Loads e text count t m a)
    {w0 : Bytes} (hw0 : Ws w0) : Loads e (text ++ w0) count t m a := by
  refine ⟨?_, ?_⟩
  · obtain ⟨w, v, x, rfl, hw, hv, hx⟩ := h.1
    exact ⟨w, v, x ++ w0, by simp, hw, hv, hx.append hw0⟩
  · intro q hq st b n hat hn hb hclear
    obtain ⟨st', e1, a1, ef, sm⟩ := h.2 (w0 ++ q) (hq.ws hw0) st b n (by simpa using hat) (by simp at hn; omega) hb hclear
    exact ⟨st', e1, (at_ws hw0 hq.good).1 a1, ef, sm⟩

theorem Item.wsEnd {e : Env} {o : Opts} {ct : Ty} {m : Mem} {a : Nat} {k v : Bytes} {kn : Option (FldInfo × Ty)}
    (h : Item e o ct m a k v kn) {w0 : Bytes} (hw0 : Ws w0) : Item e o ct m a k (v ++ w0) kn := by
  cases h with
  | known x hk hf hsv hsup hl => exact .known x hk hf hsv hsup (hl.wsEnd hw0)
  | unknown hp hf =>
    obtain ⟨w, v, x, rfl, hw, hv, hx⟩ := hp
    exact .unknown ⟨w, v, x ++ w0, by simp, hw, hv, hx.append hw0⟩ hf

/-- The parser for an object of a class, up to the closing brace. -/
theorem object_load {e : Env} {o : Opts} {hh : BitVec 32} {size : Nat} {cfl : BitVec 32} {fs : Flds} {bs : Tys} {m : Mem} {a : Nat}
    {text : Bytes} {xs : List (FldInfo × Ty)} (h : ObjText e o (.cls hh size cfl fs bs) m a text xs) (hfit : Fits e o size xs)
    {q : Bytes} {st : St} {n b : Nat} (hat : At e (123 :: (text ++ 125 :: q)) st) (hn : text.length ≤ n) (hb : b + size ≤ st.m.next)
    (hclear : Clear st.m b size) :
    ∃ st', parseObject e (n + 1) st (some (.cls hh size cfl fs bs, b)) = .ok st' ∧ At e (125 :: q) st' ∧
      Effect st.m st'.m (SlotsTouched e xs b) ∧
      ∀ z ∈ xs, CellSame e m st'.m (Fresh st.m st'.m) z.1.count z.2 (a + z.1.offset) (b + z.1.offset) := by
  have hr := reads_structural e.fl.strtod (b := 123) (ty := .lbrace) rfl (text ++ 125 :: q)
  have hr2 := reads_structural e.fl.strtod (b := 125) (ty := .rbrace) rfl q
  cases h with
  | empty hw =>
    obtain ⟨st1, e1, a1, m1⟩ := expect_at hat hr rfl (good_ws hw (good_structural _ (by decide) q))
    obtain ⟨t1, -, -⟩ := a1.tok (reads_ws hw hr2)
    refine ⟨st1, ?_, (at_ws hw ⟨_, _, hr2⟩).1 a1, by rw [m1]; exact Effect.refl _ _, by simp⟩
    rw [parseObject, e1]
    simp [t1, Tok.isValid]
  | @members s w _ hw h =>
    have h := h.wsEnd (fun hi => hi.wsEnd hw)
    obtain ⟨tf, rf, hf, hft⟩ := h.jmembers.first e.fl.strtod (125 :: q)
    obtain ⟨st1, e1, a1, m1⟩ := expect_at hat hr rfl ⟨tf, rf, hf⟩
    obtain ⟨t1, -, -⟩ := a1.tok hf
    obtain ⟨st2, e2, a2, ef, sm⟩ := members_load h hfit (q := q) (st := st1) (n := n) (n' := n + 1) (b := b) a1 hn (by omega)
      (by rw [m1]; exact hb) (by
        intro z hz
        rw [m1]
        have := hfit.within z hz
        exact hclear.sub (by omega) (by omega))
    rw [m1] at ef sm
    refine ⟨st2, ?_, a2, ef, sm⟩
    rw [parseObject, e1]
    simp only [Out.bind_ok, t1, hft, if_false, Tok.isValid, show (TokType.lbrace != TokType.none) = true from rfl,
      Bool.not_true, Bool.false_eq_true, Ty.isContainer]
    exact e2

theorem saver_ok {e : Env} {o : Opts} {ct : Ty} {m : Mem} {a : Nat} {s : Saver}
    (hsave : s.save = fun i a => saveObj e o m s.type i a) (hp : s.info.isPtr = false) (hn : PlainName s.field.1.name)
    (hf : findField (Hash.hashText s.field.1.name) ct = some s.field) (hsv : savedField e s.field.1 = true)
    (hsup : CellSupported e o s.field.1.count s.field.2) (hrt : RT e o s.field.2) (indent : Nat)
    (hsav : CellSavable e m s.field.1.count s.field.2 (a + s.field.1.offset)) :
    PlainName s.info.name ∧ findField (Hash.hashText s.info.name) ct = some s.field ∧ savedField e s.info = true ∧
      CellSupported e o s.info.count s.type ∧
      ∃ text, saveField o m s indent (a + s.info.offset) = .ok text ∧
        Loads e text s.info.count s.type m (a + s.info.offset) := by
  dsimp only [Saver.field] at hn hf hsv hsup hrt hsav
  exact ⟨hn, hf, hsv, hsup, field_loads hsave hp hsup hrt indent _ hsav⟩

theorem apart_symm (x y : FldInfo × Ty) (h : Apart x y) : Apart y x := h.symm

/-- What saving a class writes. -/
theorem cls_save {e : Env} {o : Opts} (hptr : o.ptrs = none) {h : BitVec 32} {s : Nat} {fl : BitVec 32} {fs : Flds} {bs : Tys}
    (hs : Supported e o (.cls h s fl fs bs)) (ih : ∀ x ∈ (Ty.cls h s fl fs bs).savedFields e, RT e o x.2)
    (m : Mem) (a indent : Nat) (hsav : Savable e m (.cls h s fl fs bs) a) :
    ∃ text xs, saveObj e o m (.cls h s fl fs bs) indent a = .ok (newLine o indent ++ (123 :: (text ++ [125]) ++ newLine o indent)) ∧
      ObjText e o (.cls h s fl fs bs) m a text xs ∧ Fits e o s xs ∧
      (∀ x, x ∈ xs ↔ x ∈ (Ty.cls h s fl fs bs).savedFields e) ∧ Named text xs ∧
      xs = written (order e o (savers e o m fs) ++ baseSavers e o m bs) := by
  obtain ⟨-, -, i3, i4⟩ := base_iff e o _ (cls_base hs)
  have hcls := class_ok e o m _ (cls_base hs)
  rw [Supported] at hs
  obtain ⟨hfl, -, -, hap, hdist, hwi, -⟩ := hs
  rw [classSavers] at hcls
  simp only [hfl, Bool.false_eq_true, if_false] at hcls
  have hsav' := (i3 m a).1 hsav
  have hmem : ∀ sv ∈ order e o (savers e o m fs) ++ baseSavers e o m bs, sv.info.isPtr = false →
      sv.field ∈ (Ty.cls h s fl fs bs).savedFields e := by
    intro sv hsv hp
    exact (hcls.mem _).1 (List.mem_map.2 ⟨sv, by simpa [List.mem_filter, hp] using hsv, rfl⟩)
  have hspec := saveMembers_spec (e := e) (ct := .cls h s fl fs bs) (m := m) (indent + 1) a hptr (order e o (savers e o m fs) ++ baseSavers e o m bs) (by
    intro sv hsv hp
    have hx := hmem sv hsv hp
    have hsub := savedFields_sub e _ _ hx
    exact saver_ok (hcls.save sv hsv) hp (hwi _ hx).2 (findField_mem hdist hsub.1) hsub.2 (i4 _ hx) (ih _ hx) (indent + 1)
      (hsav' _ hx))
  have hfit : Fits e o s (written (order e o (savers e o m fs) ++ baseSavers e o m bs)) :=
    ⟨hcls.pair _ apart_symm hap, fun x hx => (hwi x ((hcls.mem x).1 hx)).1,
      fun x hx => (savedFields_sub e _ x ((hcls.mem x).1 hx)).2, fun x hx => i4 x ((hcls.mem x).1 hx)⟩
  by_cases hw : written (order e o (savers e o m fs) ++ baseSavers e o m bs) = []
  · refine ⟨newLine o (indent + 1) ++ newLine o indent, _, ?_, ?_, hfit, hcls.mem, ?_, rfl⟩
    · rw [saveObj]
      simp only [hfl, Bool.false_eq_true, if_false]
      rw [hspec.1 hw false, Res.bind_ok]
      simp [openScope, closeScope]
    · rw [hw]
      exact .empty ((newLine_ws o _).append (newLine_ws o _))
    · rw [hw]
      exact ⟨[], .nil ((newLine_ws o _).append (newLine_ws o _)), rfl⟩
  · obtain ⟨text, h1, -, h3, ms, h4, h5⟩ := hspec.2 hw
    refine ⟨(newLine o (indent + 1) ++ text) ++ newLine o indent, _, ?_, ?_, hfit, hcls.mem,
      ⟨ms, (h4.ws (newLine_ws o _)).wsEnd (newLine_ws o _), h5⟩, rfl⟩
    · rw [saveObj]
      simp only [hfl, Bool.false_eq_true, if_false]
      rw [h1, Res.bind_ok]
      simp [openScope, closeScope]
    · exact .members (newLine_ws o _) (h3.ws (newLine_ws o _))

theorem rt_cls {e : Env} {o : Opts} (hptr : o.ptrs = none) {h : BitVec 32} {s : Nat} {fl : BitVec 32} {fs : Flds} {bs : Tys}
    (hs : Supported e o (.cls h s fl fs bs)) (ih : ∀ x ∈ (Ty.cls h s fl fs bs).savedFields e, RT e o x.2) :
    RT e o (.cls h s fl fs bs) := by
  intro m a indent hsav
  obtain ⟨text, xs, h1, h2, h3, h4, -, -⟩ := cls_save hptr hs ih m a indent hsav
  obtain ⟨i1, i2, -, -⟩ := base_iff e o _ (cls_base hs)
  refine ⟨_, h1, ⟨newLine o indent, 123 :: (text ++ [125]), newLine o indent, rfl, newLine_ws o _, h2.jval, newLine_ws o _⟩, ?_⟩
  intro q hq st b n hat hn hb hclear
  simp only [cellSize, Ty.size] at hb hclear
  have hg : Good e.fl.strtod (123 :: (text ++ 125 :: (newLine o indent ++ q))) := good_structural _ (by decide) _
  have a1 : At e (123 :: (text ++ 125 :: (newLine o indent ++ q))) st := (at_ws (newLine_ws o indent) hg).1 (by simpa using hat)
  simp at hn
  obtain ⟨n, rfl⟩ : ∃ j, n = j + 2 := ⟨n - 2, by omega⟩
  obtain ⟨st1, e1, a2, ef, sm⟩ := object_load h2 h3 (n := n) (b := b) a1 (by omega) hb hclear
  obtain ⟨st2, e2, a3, m2⟩ := expect_at a2 (reads_structural _ (b := 125) (ty := .rbrace) rfl _) rfl (good_ws (newLine_ws o indent) hq.good)
  obtain ⟨t1, -, -⟩ := a1.tok (reads_structural _ (b := 123) (ty := .lbrace) rfl _)
  refine ⟨st2, ?_, (at_ws (newLine_ws o indent) hq.good).1 a3, ?_, cellSame_none ?_⟩
  · rw [parseValue, t1]
    simp only []
    have hfl : e.skips fl = false := by rw [Supported] at hs; exact hs.1
    have hot : objectTarget e (some (.cls h s fl fs bs, b)) = some (.cls h s fl fs bs, b) := by
      simp only [objectTarget, hfl, Bool.false_eq_true, if_false]
    rw [hot, e1]
    simp only [Out.bind_ok]
    rw [e2]
    rfl
  · rw [m2]
    refine ef.mono ?_
    rintro y ⟨x, hx, hy⟩
    exact cellTouched_none.2 ((i2 b y).2 ⟨x, (h4 x).1 hx, hy⟩)
  · rw [i1, m2]
    intro x hx
    exact sm x ((h4 x).2 hx)

end Clr.JSON
