import Verif.Proofs.JSONSaveHooks
import Verif.Proofs.JSONHooksLoad

/-! What is saved with functions of the user, and loaded again with such. -/
namespace Clr.JSON

theorem int64Of_inj {x y : UInt64} (h : int64Of x = int64Of y) : x = y := by
  unfold int64Of signedOf at h
  have hx := x.toNat_lt
  have hy := y.toNat_lt
  apply UInt64.toNat_inj.1
  split at h <;> split at h <;> omega

theorem lasting_single {e : Env} {o : Opts} {tok : Tok} (h : Lasting o.hexFloats tok) :
    ∃ text, saveToken e o tok = .ok text ∧ Single e.fl text tok := by
  cases h with
  | str h => exact ⟨_, rfl, .str h⟩
  | @int bits h =>
    have hlt : int64Of bits < 2 ^ 63 := by
      unfold int64Of signedOf
      have := bits.toNat_lt
      split <;> omega
    obtain ⟨text, h1, h2⟩ := C28_signed_round_trip (int64Of bits) h hlt
    obtain ⟨bits', h3, h4⟩ := h2 e.fl.strtod { rest := text ++ [125] } 125 [] (by decide) rfl
    rw [int64Of_inj h4] at h3
    exact ⟨text, h1, .num (saveInteger_jnum h1) h3⟩
  | @dec bits h =>
    obtain ⟨text, h1, h2⟩ := C28_hex_round_trip bits.toNat bits.toNat_lt
    have h3 := (h2 e.fl.strtod { rest := b!"0d" ++ text ++ [125] } 125 [] (by decide)).2 rfl
    rw [UInt64.ofNat_toNat] at h3
    refine ⟨b!"0d" ++ text, ?_, ?_⟩
    · simp [saveToken, saveDecimal, h, h1]
    · obtain ⟨a1, a2⟩ := saveHex_digits h1
      exact .num (.hex (.inl rfl) a1 a2) h3

theorem single_jval {fl : Floats} {v : Bytes} {tok : Tok} (h : Single fl v tok) : JVal v := by
  cases h with
  | str h => exact .str h
  | num h => exact .num h
  | tru => exact .tru
  | fls => exact .fls
  | null => exact .null

/-- A field of a type of C31 without functions. -/
theorem plain_survives {e : Env} {o : Opts} {S : SaveHooks} {H : Hooks} (hptr : o.ptrs = none) {f : FldInfo} {t : Ty} (hp : f.isPtr = false)
    (hs : Supported e o t) (hz : f.count ≠ none → 0 < t.size) (hd : NoDict t) (hv : NoSaving S t) (hf : NoFunctions H t) {m : Mem} {a : Nat}
    (hsav : CellSavable e m f.count t a) (indent b : Nat) (n : Mem) (hb : b + cellSize f.count t ≤ n.next)
    (hclear : Clear n b (cellSize f.count t)) :
    ∃ w v y n', saveFieldH o (saverOfH e o S (f, t)) indent a m = .ok (w ++ (v ++ y), m) ∧ Ws w ∧ JVal v ∧ Ws y ∧
      DoesV e H v t b false f.count n n' ∧ Effect n n' (CellTouched e f.count t b) ∧ CellSame e m n' (Fresh n n') f.count t a b := by
  have hst : ∀ i x, Still m ((saverOfH e o S (f, t)).save i x m) := by
    intro i x
    show Still m (saveObjH e o S t i x m)
    rw [saveObjH_eq e o S m t hv]
    exact still_map _ _
  obtain ⟨text, h1, h2, h3⟩ := field_loads (e := e) (o := o) (m := m) (s := (saverOfH e o S (f, t)).at m) (by
      funext i x
      show (saveObjH e o S t i x m).map (·.1) = _
      rw [saveObjH_eq e o S m t hv, map_fst]
      rfl) hp ⟨hs, hz⟩ (rt_all hptr t hs) indent a hsav
  obtain ⟨w, v, y, rfl, hw, hj, hy⟩ := h2
  have ht : Tail e [125] := Tail.structural e (by decide) []
  have hty : Tail e (y ++ [125]) := ht.ws hy
  obtain ⟨s0, e0, a0, m0⟩ := nextTok_at (e := e) (st := { t := {}, c := { rest := w ++ (v ++ (y ++ [125])) }, m := n }) rfl rfl
    (good_ws hw (hj.good hty))
  obtain ⟨st', e1, a1, ef, sm⟩ := h3 [125] ht s0 b (w ++ (v ++ y)).length (by simpa using a0) (Nat.le_refl _) (by rw [m0]; exact hb)
    (by rw [m0]; exact hclear)
  rw [m0] at ef sm
  refine ⟨w, v, y, st'.m, ?_, hw, hj, hy, ?_, ef, sm⟩
  · rw [fieldH_eq hst, h1]; rfl
  · have hval : valueEffect e v (some (t, b)) false f.count n = .ok st'.m := by
      have h4 := value_effect hj hty (n := (w ++ (v ++ y)).length) ((at_ws hw (hj.good hty)).1 a0) (by simp; omega) (some (t, b)) hd false f.count
      rw [show parseValue e (w ++ (v ++ y)).length s0 (some (t, b)) false f.count = .ok st' from e1, m0] at h4
      generalize valueEffect e v (some (t, b)) false f.count n = r at h4
      cases h4 with
      | ok h4 => rw [h4.2]
    intro q hq st hat hm k hk
    rw [parseH_agree e H k _ (some (t, b)) _ _ hf]
    have h5 := value_effect hj hq hat hk (some (t, b)) hd false f.count
    rw [hm, hval] at h5
    generalize hr : parseValue e k st (some (t, b)) false f.count = r at h5
    cases h5 with
    | ok h5 => exact ⟨_, rfl, h5.1, h5.2⟩

/-- `read` looks at nothing but the bytes. -/
theorem read_eq_of {m m' : Mem} {a n : Nat} (h : ∀ x, a ≤ x → x < a + n → m'.byte x = m.byte x) : m'.read a n = m.read a n := by
  induction n generalizing a with
  | zero => rfl
  | succ n ih =>
    rw [Mem.read, Mem.read, h a (by omega) (by omega), ih fun x h1 h2 => h x (by omega) (by omega)]

theorem ws_append {x y : Bytes} (hx : Ws x) (hy : Ws y) : Ws (x ++ y) := by
  intro b hb
  rcases List.mem_append.1 hb with h | h
  · exact hx b h
  · exact hy b h

/-- A field of type `t` that is saved from `a` and loaded again. -/
def Round (e : Env) (o : Opts) (S : SaveHooks) (H : Hooks) (m : Mem) (c : Option Nat) (t : Ty) (a : Nat) : Prop :=
  ∀ (f : FldInfo), f.count = c → f.isPtr = false → ∀ (indent b : Nat) (n : Mem), b + cellSize c t ≤ n.next → Clear n b (cellSize c t) →
    ∃ w v y n', saveFieldH o (saverOfH e o S (f, t)) indent a m = .ok (w ++ (v ++ y), m) ∧ Ws w ∧ JVal v ∧ Ws y ∧
      DoesV e H v t b false c n n' ∧ n.next ≤ n'.next ∧
      (∀ x, x < n.next → (x < b ∨ b + cellSize c t ≤ x) → n'.byte x = n.byte x ∧ n'.elems x = n.elems x) ∧
      ∀ n2 R, (∀ x, Fresh n n' x → R x) →
        (∀ x, (b ≤ x ∧ x < b + cellSize c t) ∨ Fresh n n' x → n2.byte x = n'.byte x ∧ n2.elems x = n'.elems x) →
        Kept e S m n2 R c t a b

theorem round_plain {e : Env} {o : Opts} {S : SaveHooks} {H : Hooks} (hptr : o.ptrs = none) {c : Option Nat} {t : Ty} {m : Mem} {a : Nat}
    (hs : Supported e o t) (hz : c ≠ none → 0 < t.size) (hd : NoDict t) (hv : NoSaving S t) (hf : NoFunctions H t)
    (hsav : CellSavable e m c t a) : Round e o S H m c t a := by
  intro f hc hp indent b n hb hclear
  subst hc
  obtain ⟨w, v, y, n', h1, h2, h3, h4, h5, h6, h7⟩ := plain_survives hptr hp hs hz hd hv hf hsav indent b n hb hclear
  refine ⟨w, v, y, n', h1, h2, h3, h4, h5, h6.next, fun x hx hout => ?_, fun n2 R hR hag => ?_⟩
  · have hnot : ¬ CellTouched e f.count t b x := fun ht => by
      have := cellTouched_within (touched_within t hs) ht
      omega
    exact ⟨h6.byte x hx hnot, h6.elems x hx hnot⟩
  · have := cellSame_congr hs h7 hR fun x hx => hag x (hx.imp_left fun ht => cellTouched_within (touched_within t hs) ht)
    exact .plain hv this.1 this.2

theorem round_custom {e : Env} {o : Opts} {S : SaveHooks} {H : Hooks} {m : Mem} {a : Nat} {h : BitVec 32} {z : Nat} {fl : BitVec 32} {fs : Flds}
    {bs : Tys} {g : Nat → Mem → Res Tok} {l : Tok → Nat → Mem → Res Mem} (hk : e.skips fl = false) (hg : S.save h z = some g)
    (hf : H.load h z = some l) (hi : Inverse o.hexFloats z g l) : Round e o S H m none (.cls h z fl fs bs) a := by
  intro f hc hp indent b n hb hclear
  obtain ⟨tok, h1, h2, h3⟩ := hi a m
  obtain ⟨n', h4, h5, h6⟩ := h3 b n
  obtain ⟨text, h7, h8⟩ := lasting_single (e := e) h2
  have hsv : saveFieldH o (saverOfH e o S (f, .cls h z fl fs bs)) indent a m = .ok ([] ++ (text ++ []), m) := by
    unfold saveFieldH
    simp only [saverOfH, hc, hp]
    simp only [Bool.false_eq_true, if_false]
    rw [saveObjH]
    simp [hk, hg, h1, h7]
  refine ⟨[], text, [], n', hsv, by simp [Ws], single_jval h8, by simp [Ws], custom_does h8 hf h4, h5.grows, fun x hx hout => ?_,
    fun n2 R hR hag => ?_⟩
  · exact ⟨h5.bytes x hx hout, h5.elems x hx hout⟩
  · refine .custom hg ?_
    rw [← h6]
    exact read_eq_of fun x h1 h2 => (hag x (.inl ⟨h1, h2⟩)).1

/-- The members of an object that survive. -/
theorem members_round {e : Env} {o : Opts} {S : SaveHooks} {H : Hooks} (hptr : o.ptrs = none) {ct : Ty} {indent a b z : Nat} {m : Mem}
    (hd : ct.allFields.Pairwise fun x y => Hash.hashText x.1.name ≠ Hash.hashText y.1.name) (ms : List (FldInfo × Ty))
    (hms : ∀ x ∈ ms, x ∈ ct.allFields ∧ e.skips x.1.flags = false)
    (hf : ∀ x ∈ ms, x.1.isPtr = false → PlainName x.1.name ∧ x.1.offset + x.1.extent x.2 ≤ z ∧ Round e o S H m x.1.count x.2 (a + x.1.offset))
    (hap : ms.Pairwise Apart) (n : Mem) (hb : b + z ≤ n.next)
    (hclear : ∀ x ∈ ms, x.1.isPtr = false → Clear n (b + x.1.offset) (x.1.extent x.2)) :
    ∃ text pairs n', saveMembersH o indent a (ms.map (saverOfH e o S)) false m = .ok (text, m) ∧
      saveMembersH o indent a (ms.map (saverOfH e o S)) true m = .ok (if pairs = [] then [] else 44 :: (newLine o indent ++ text), m) ∧
      (pairs = [] ↔ ∀ x ∈ ms, x.1.isPtr = true) ∧
      (∀ w y, Ws w → Ws y → ObjOf (w ++ (text ++ y)) pairs) ∧
      (ct.isClass = true → DoesM e H ct b pairs n n') ∧ (pairs = [] → n' = n) ∧ n.next ≤ n'.next ∧
      (∀ n2 R, (∀ y, Fresh n n' y → R y) →
        (∀ x, (b ≤ x ∧ x < b + z) ∨ Fresh n n' x → n2.byte x = n'.byte x ∧ n2.elems x = n'.elems x) →
        ∀ x ∈ ms, x.1.isPtr = false → Kept e S m n2 R x.1.count x.2 (a + x.1.offset) (b + x.1.offset)) ∧
      ∀ x, x < n.next → (∀ y ∈ ms, y.1.isPtr = false → x < b + y.1.offset ∨ b + y.1.offset + y.1.extent y.2 ≤ x) →
        n'.byte x = n.byte x ∧ n'.elems x = n.elems x := by
  induction ms generalizing n with
  | nil =>
    refine ⟨[], [], n, rfl, rfl, by simp, fun w y hw hy => .nil (by simpa using ws_append hw hy), fun _ _ _ hne => absurd rfl hne, fun _ => rfl,
      Nat.le_refl _, by simp, fun _ _ _ => ⟨rfl, rfl⟩⟩
  | cons x r ih =>
    rw [List.pairwise_cons] at hap
    cases hp : x.1.isPtr with
    | true =>
      obtain ⟨text, pairs, n', t1, t2, t3, t4, t5, t6, t7, t8, t9⟩ := ih (fun y hy => hms y (List.mem_cons_of_mem _ hy))
        (fun y hy => hf y (List.mem_cons_of_mem _ hy)) hap.2 n hb (fun y hy => hclear y (List.mem_cons_of_mem _ hy))
      have hcond : (saverOfH e o S x).info.isPtr = true ∧
          o.mapPtr (saverOfH e o S x).type.hash (m.ptr (a + (saverOfH e o S x).info.offset)) = none := by
        simp [saverOfH, hp, Opts.mapPtr, hptr]
      refine ⟨text, pairs, n', ?_, ?_, ?_, t4, t5, t6, t7, ?_, ?_⟩
      · rw [List.map_cons, saveMembersH, if_pos hcond]; exact t1
      · rw [List.map_cons, saveMembersH, if_pos hcond]; exact t2
      · rw [t3]; simp [hp]
      · intro n2 R hR hag y hy hpy
        rcases List.mem_cons.1 hy with rfl | hy
        · rw [hp] at hpy; cases hpy
        · exact t8 n2 R hR hag y hy hpy
      · exact fun w hw hout => t9 w hw fun y hy => hout y (List.mem_cons_of_mem _ hy)
    | false =>
      obtain ⟨hn, hz, hs⟩ := hf x (List.mem_cons_self ..) hp
      obtain ⟨hx1, hx2⟩ := hms x (List.mem_cons_self ..)
      have hext := extent_eq (t := x.2) hp
      have hcx := hclear x (List.mem_cons_self ..) hp
      rw [hext] at hcx
      obtain ⟨v0, v, v1, n1, s1, s0, s2, s01, s3, s4, s5, s6⟩ := hs x.1 rfl hp indent (b + x.1.offset) n (by omega) hcx
      rw [← hext] at s5 s6
      have hapart : ∀ y ∈ r, x.1.offset + x.1.extent x.2 ≤ y.1.offset ∨ y.1.offset + y.1.extent y.2 ≤ x.1.offset := fun y hy => hap.1 y hy
      obtain ⟨text, pairs, n', t1, t2, t3, t4, t5, t6, t7, t8, t9⟩ := ih (fun y hy => hms y (List.mem_cons_of_mem _ hy))
        (fun y hy => hf y (List.mem_cons_of_mem _ hy)) hap.2 n1
        (by omega) (by
          intro y hy hpy w h1 h2
          have hyz := (hf y (List.mem_cons_of_mem _ hy) hpy).2.1
          have := hapart y hy
          rw [(s5 w (by omega) (by omega)).2]
          exact hclear y (List.mem_cons_of_mem _ hy) hpy w h1 h2)
      have hcond : ¬ ((saverOfH e o S x).info.isPtr = true ∧
          o.mapPtr (saverOfH e o S x).type.hash (m.ptr (a + (saverOfH e o S x).info.offset)) = none) := by
        simp [saverOfH, hp]
      have hfld : saveFieldH o (saverOfH e o S x) indent (a + (saverOfH e o S x).info.offset) m = .ok (v0 ++ (v ++ v1), m) := s1
      have hj : JStr x.1.name := jstr_plain hn
      refine ⟨quote x.1.name ++ 58 :: (v0 ++ (v ++ v1)) ++ (if pairs = [] then [] else 44 :: (newLine o indent ++ text)), (x.1.name, v) :: pairs, n',
        ?_, ?_, by simp [hp], ?_, ?_, by simp, Nat.le_trans s4 t7, ?_, ?_⟩
      · rw [List.map_cons, saveMembersH, if_neg hcond, hfld]
        simp only [Res.bind_ok, t2]
        simp [saverOfH]
      · rw [List.map_cons, saveMembersH, if_neg hcond, hfld]
        simp only [Res.bind_ok, t2]
        simp [saverOfH]
      · intro w y hw hy
        cases pairs with
        | nil =>
          have := ObjOf.one (w := w) (k := x.1.name) (x := []) (y := v0) (v := v) (z := v1 ++ y) hw hj (by simp [Ws]) s0 s2 (ws_append s01 hy)
          simpa [quote] using this
        | cons p ps =>
          have := ObjOf.more (w := w) (k := x.1.name) (x := []) (y := v0) (v := v) (z := v1) hw hj (by simp [Ws]) s0 s2 s01
            (t4 (newLine o indent) y (newLine_ws o indent) hy)
          simpa [quote] using this
      · intro hcls
        refine members_cons (m1 := n1) (fun _ hct => ?_) (t5 hcls) t6
        obtain ⟨ch, cz, cf, cfs, cbs, rfl⟩ := hct
        refine pair_does (.inl ⟨x.1, x.2, b + x.1.offset, memberOf_field hd hx1 hx2, ?_⟩)
        rw [hp]
        exact s3
      · intro n2 R hR hag y hy hpy
        rcases List.mem_cons.1 hy with rfl | hy
        · refine s6 n2 R (fun w hw => hR w ⟨hw.1, by have := hw.2; omega⟩) fun w hw => ?_
          have h1 := hag w (by
            rcases hw with hw | hw
            · exact .inl ⟨by omega, by omega⟩
            · exact .inr ⟨hw.1, by have := hw.2; omega⟩)
          have h2 := t9 w (by
            rcases hw with hw | hw
            · omega
            · exact hw.2) fun u hu hpu => by
              have := hapart u hu
              have hu2 := (hf u (List.mem_cons_of_mem _ hu) hpu).2.1
              rcases hw with hw | hw
              · omega
              · have := hw.1
                omega
          exact ⟨h1.1.trans h2.1, h1.2.trans h2.2⟩
        · exact t8 n2 R (fun w hw => hR w ⟨by have := hw.1; omega, hw.2⟩)
            (fun w hw => hag w (hw.imp_right fun hw => ⟨by have := hw.1; omega, hw.2⟩)) y hy hpy
      · intro w hw hout
        have h1 := t9 w (by omega) fun y hy => hout y (List.mem_cons_of_mem _ hy)
        have h2 := s5 w hw (hout x (List.mem_cons_self ..) hp)
        exact ⟨h1.1.trans h2.1, h1.2.trans h2.2⟩

/-! ### The members of a class -/

theorem pairwise_any {α : Type} {R : α → α → Prop} (hs : ∀ x y, R x y → R y x) {l : List α} (h : l.Pairwise R) :
    ∀ x ∈ l, ∀ y ∈ l, x ≠ y → R x y := by
  induction h with
  | nil => simp
  | @cons a l h1 _ ih =>
    intro x hx y hy hne
    rcases List.mem_cons.1 hx with rfl | hx'
    · rcases List.mem_cons.1 hy with rfl | hy'
      · exact absurd rfl hne
      · exact h1 y hy'
    · rcases List.mem_cons.1 hy with rfl | hy'
      · exact hs _ _ (h1 x hx')
      · exact ih x hx' y hy' hne

theorem inOrder_pairwise {e : Env} {o : Opts} {R : FldInfo × Ty → FldInfo × Ty → Prop} (hs : ∀ x y, R x y → R y x) {fs : Flds}
    {l : List (FldInfo × Ty)} (h : InOrder e o fs l) (hp : fs.list.Pairwise R) : l.Pairwise R := by
  cases hsort : o.sort with
  | false => rw [h.1 hsort]; exact hp.sublist List.filter_sublist
  | true =>
    obtain ⟨h1, h2⟩ := h.2 hsort
    refine List.Pairwise.imp_of_mem (fun {x y} hx hy hlt => ?_) h1
    exact pairwise_any hs hp x ((h2 x).1 hx).1 y ((h2 y).1 hy).1 fun heq => by rw [heq] at hlt; omega

mutual
theorem members_pairwise {e : Env} {o : Opts} {R : FldInfo × Ty → FldInfo × Ty → Prop} (hs : ∀ x y, R x y → R y x) :
    ∀ (t : Ty) (ms : List (FldInfo × Ty)), ClassMembers e o t ms → t.allFields.Pairwise R → ms.Pairwise R
  | .cls .., _, .hidden _, _ => .nil
  | .cls _ _ _ fs bs, _, .cls hk ho hb, hp => by
    rw [Ty.allFields, List.pairwise_append] at hp
    rw [List.pairwise_append]
    refine ⟨inOrder_pairwise hs ho hp.1, baseMembers_pairwise hs bs _ hb hp.2.1, fun x hx y hy => ?_⟩
    exact hp.2.2 x (inOrder_mem ho hx).1 y (baseMembers_mem bs _ hb y hy).1
  | .tmpl _ _ bs, _, .tmpl hb, hp => by
    rw [Ty.allFields] at hp
    exact baseMembers_pairwise hs bs _ hb hp
  | _, _, .prim, _ => .nil
  | _, _, .enum, _ => .nil
  | _, _, .vec, _ => .nil
  | _, _, .dict, _ => .nil

theorem baseMembers_pairwise {e : Env} {o : Opts} {R : FldInfo × Ty → FldInfo × Ty → Prop} (hs : ∀ x y, R x y → R y x) :
    ∀ (bs : Tys) (ms : List (FldInfo × Ty)), BaseMembers e o bs ms → bs.allFields.Pairwise R → ms.Pairwise R
  | .nil, _, .nil, _ => .nil
  | .cons t r, _, .cons ht hr, hp => by
    rw [Tys.allFields, List.pairwise_append] at hp
    rw [List.pairwise_append]
    refine ⟨members_pairwise hs t _ ht hp.1, baseMembers_pairwise hs r _ hr hp.2.1, fun x hx y hy => ?_⟩
    exact hp.2.2 x (members_mem t _ ht x hx).1 y (baseMembers_mem r _ hr y hy).1
end

/-! ### Objects and containers -/

theorem inOrder_iff {e : Env} {o : Opts} {fs : Flds} {l : List (FldInfo × Ty)} (h : InOrder e o fs l) (x : FldInfo × Ty) :
    x ∈ l ↔ x ∈ fs.list ∧ e.skips x.1.flags = false := by
  cases hs : o.sort with
  | true => exact (h.2 hs).2 x
  | false => rw [h.1 hs]; simp

mutual
/-- The members that are no pointers are the fields that are saved. -/
theorem members_saved {e : Env} {o : Opts} (x : FldInfo × Ty) : ∀ (t : Ty) (ms : List (FldInfo × Ty)), ClassMembers e o t ms →
    (x ∈ t.savedFields e ↔ x ∈ ms ∧ x.1.isPtr = false)
  | .cls .., _, .hidden hk => by rw [Ty.savedFields, if_pos hk]; simp
  | .cls _ _ _ fs bs, _, .cls hk ho hb => by
    rw [Ty.savedFields, if_neg (by simp [hk]), List.mem_append, List.mem_append, List.mem_filter, inOrder_iff ho,
      baseMembers_saved x bs _ hb]
    simp only [savedField, Bool.and_eq_true, Bool.not_eq_true']
    constructor
    · rintro (⟨h1, h2, h3⟩ | ⟨h1, h2⟩)
      · exact ⟨.inl ⟨h1, h2⟩, h3⟩
      · exact ⟨.inr h1, h2⟩
    · rintro ⟨⟨h1, h2⟩ | h1, h3⟩
      · exact .inl ⟨h1, h2, h3⟩
      · exact .inr ⟨h1, h3⟩
  | .tmpl _ _ bs, _, .tmpl hb => by rw [Ty.savedFields]; exact baseMembers_saved x bs _ hb
  | _, _, .prim => by simp [Ty.savedFields]
  | _, _, .enum => by simp [Ty.savedFields]
  | _, _, .vec => by simp [Ty.savedFields]
  | _, _, .dict => by simp [Ty.savedFields]

theorem baseMembers_saved {e : Env} {o : Opts} (x : FldInfo × Ty) : ∀ (bs : Tys) (ms : List (FldInfo × Ty)), BaseMembers e o bs ms →
    (x ∈ bs.savedFields e ↔ x ∈ ms ∧ x.1.isPtr = false)
  | .nil, _, .nil => by simp [Tys.savedFields]
  | .cons t r, _, .cons ht hr => by
    rw [Tys.savedFields, List.mem_append, List.mem_append, members_saved x t _ ht, baseMembers_saved x r _ hr]
    constructor
    · rintro (⟨h1, h2⟩ | ⟨h1, h2⟩)
      · exact ⟨.inl h1, h2⟩
      · exact ⟨.inr h1, h2⟩
    · rintro ⟨h1 | h1, h2⟩
      · exact .inl ⟨h1, h2⟩
      · exact .inr ⟨h1, h2⟩
end

theorem ObjOf.jmembers {s : Bytes} {ms : List (Bytes × Bytes)} (h : ObjOf s ms) (hne : ms ≠ []) : JMembers s := by
  induction h with
  | nil => exact absurd rfl hne
  | one hw hk hx hy hv hz => exact .one hw hk hx hy hv hz
  | more hw hk hx hy hv hz _ ih => exact .more hw hk hx hy hv hz (ih (by simp))

theorem ObjOf.blank {s : Bytes} {ms : List (Bytes × Bytes)} (h : ObjOf s ms) (hn : ms = []) : Ws s := by
  cases h with
  | nil hw => exact hw
  | one => cases hn
  | more => cases hn

/-- The object of a class, as its members. -/
theorem class_round {e : Env} {o : Opts} {S : SaveHooks} {H : Hooks} (hptr : o.ptrs = none) {h : BitVec 32} {z : Nat} {fl : BitVec 32} {fs : Flds}
    {bs : Tys} {m : Mem} {a : Nat} (hk : e.skips fl = false) (hsort : SortsOk e o (.cls h z fl fs bs))
    (hd : (Ty.cls h z fl fs bs).allFields.Pairwise fun x y => Hash.hashText x.1.name ≠ Hash.hashText y.1.name)
    (hap : (Ty.cls h z fl fs bs).allFields.Pairwise Apart)
    (hf : ∀ x ∈ (Ty.cls h z fl fs bs).savedFields e, PlainName x.1.name ∧ x.1.offset + x.1.extent x.2 ≤ z ∧
      Round e o S H m x.1.count x.2 (a + x.1.offset))
    (indent b : Nat) (n : Mem) (hb : b + z ≤ n.next) (hclear : Clear n b z) :
    ∃ text pairs n1, saveMembersH o (indent + 1) a (orderH e o (saversH e o S fs) ++ baseSaversH e o S bs) false m = .ok (text, m) ∧
      (pairs = [] ↔ (Ty.cls h z fl fs bs).savedFields e = []) ∧ (∀ w y, Ws w → Ws y → ObjOf (w ++ (text ++ y)) pairs) ∧
      DoesM e H (.cls h z fl fs bs) b pairs n n1 ∧ (pairs = [] → n1 = n) ∧ n.next ≤ n1.next ∧
      (∀ n2 R, (∀ y, Fresh n n1 y → R y) →
        (∀ x, (b ≤ x ∧ x < b + z) ∨ Fresh n n1 x → n2.byte x = n1.byte x ∧ n2.elems x = n1.elems x) →
        ∀ x ∈ (Ty.cls h z fl fs bs).savedFields e, Kept e S m n2 R x.1.count x.2 (a + x.1.offset) (b + x.1.offset)) ∧
      ∀ x, x < n.next → (∀ y ∈ (Ty.cls h z fl fs bs).savedFields e, x < b + y.1.offset ∨ b + y.1.offset + y.1.extent y.2 ≤ x) →
        n1.byte x = n.byte x ∧ n1.elems x = n.elems x := by
  obtain ⟨ms, c1, c2⟩ := classH_members e o S (.cls h z fl fs bs) hsort
  rw [classSaversH, if_neg (by simp [hk])] at c2
  have hsv := fun x => members_saved x _ _ c1
  obtain ⟨text, pairs, n1, r1, -, r3, r4, r5, r6, r7, r8, r9⟩ := members_round (o := o) (S := S) (H := H) hptr (indent := indent + 1) (a := a) (b := b)
    (z := z) (m := m) hd ms (members_mem _ _ c1) (fun x hx hp => hf x ((hsv x).2 ⟨hx, hp⟩))
    (members_pairwise (fun x y h => h.symm) _ _ c1 hap) n hb (by
      intro x hx hp w h1 h2
      have := (hf x ((hsv x).2 ⟨hx, hp⟩)).2.1
      exact hclear w (by omega) (by omega))
  refine ⟨text, pairs, n1, by rw [c2]; exact r1, ?_, r4, r5 rfl, r6, r7, fun n2 R hR hag x hx => ?_, fun x hx hout => ?_⟩
  · rw [r3, List.eq_nil_iff_forall_not_mem]
    constructor
    · intro h1 x hx
      have := (hsv x).1 hx
      rw [h1 x this.1] at this
      cases this.2
    · intro h1 x hx
      cases hp : x.1.isPtr with
      | true => rfl
      | false => exact absurd ((hsv x).2 ⟨hx, hp⟩) (h1 x)
  · exact r8 n2 R hR hag x ((hsv x).1 hx).1 ((hsv x).1 hx).2
  · exact r9 x hx fun y hy hp => hout y ((hsv y).2 ⟨hy, hp⟩)

theorem round_object {e : Env} {o : Opts} {S : SaveHooks} {H : Hooks} (hptr : o.ptrs = none) {h : BitVec 32} {z : Nat} {fl : BitVec 32} {fs : Flds}
    {bs : Tys} {m : Mem} {a : Nat} (hk : e.skips fl = false) (hg : S.save h z = none) (hpre : S.pre h z = none) (hl : H.load h z = none)
    (hq : H.post h z = none) (hsort : SortsOk e o (.cls h z fl fs bs))
    (hd : (Ty.cls h z fl fs bs).allFields.Pairwise fun x y => Hash.hashText x.1.name ≠ Hash.hashText y.1.name)
    (hap : (Ty.cls h z fl fs bs).allFields.Pairwise Apart)
    (hf : ∀ x ∈ (Ty.cls h z fl fs bs).savedFields e, PlainName x.1.name ∧ x.1.offset + x.1.extent x.2 ≤ z ∧
      Round e o S H m x.1.count x.2 (a + x.1.offset)) : Round e o S H m none (.cls h z fl fs bs) a := by
  intro f hc hp indent b n hb hclear
  obtain ⟨text, pairs, n1, r1, r3, r4, r5, r6, r7, r8, r9⟩ := class_round hptr hk hsort hd hap hf indent b n hb hclear
  have ho := r4 (newLine o (indent + 1)) (newLine o indent) (newLine_ws o _) (newLine_ws o _)
  have hsv : saveFieldH o (saverOfH e o S (f, .cls h z fl fs bs)) indent a m =
      .ok (newLine o indent ++ ((123 :: ((newLine o (indent + 1) ++ (text ++ newLine o indent)) ++ [125])) ++ newLine o indent), m) := by
    unfold saveFieldH
    simp only [saverOfH, hc, hp]
    simp only [Bool.false_eq_true, if_false]
    rw [saveObjH]
    simp only [hk, Bool.false_eq_true, if_false, hg, SaveHooks.runPre, hpre, Res.bind_ok, r1]
    simp [openScope, closeScope]
  refine ⟨newLine o indent, _, newLine o indent, n1, hsv, newLine_ws o _, ?_, newLine_ws o _, ?_, r7, fun x hx hout => ?_, fun n2 R hR hag => ?_⟩
  · by_cases hpn : pairs = []
    · exact .obj0 (ho.blank hpn)
    · exact .obj (ho.jmembers hpn)
  · refine value_brace hl fun {q st} hat hst {k} hn => ?_
    simp only [objectTarget, hk, Bool.false_eq_true, if_false]
    by_cases hpn : pairs = []
    · obtain ⟨st', e1, a1, m1⟩ := empty_object (H := H) (ho.blank hpn) (some (.cls h z fl fs bs, b)) hat k
      exact ⟨st', e1, a1, by rw [m1, hst, r6 hpn]⟩
    · exact object_does ho hpn hd r5 (.none _ hq) hat hst hn
  · refine r9 x hx fun y hy => ?_
    have := (hf y hy).2.1
    simp only [cellSize, Ty.size] at hout
    omega
  · exact .object hg (r8 n2 R hR hag)

/-- The elements of a container. -/
theorem items_round {e : Env} {o : Opts} {S : SaveHooks} {H : Hooks} {t : Ty} {indent : Nat} {m : Mem} (b : Nat) (items : List (Nat × Nat))
    (hf : ∀ x ∈ items, Round e o S H m none t x.2) (n : Mem) (hb : b < n.next) :
    ∃ text vs ys n', saveItemsH o t.hash false none (fun x => saveObjH e o S t indent x) items.length items false m = .ok (text, m) ∧
      saveItemsH o t.hash false none (fun x => saveObjH e o S t indent x) items.length items true m = .ok (if vs = [] then [] else 44 :: text, m) ∧
      (vs = [] ↔ items = []) ∧ (vs ≠ [] → ListOf text vs) ∧ DoesE e H (.cont t false b) vs n n' ∧ (vs = [] → n' = n) ∧ n.next ≤ n'.next ∧
      (∀ x, x < n.next → n'.byte x = n.byte x ∧ (x ≠ b → n'.elems x = n.elems x)) ∧ n'.elems b = n.elems b ++ ys ∧ ys.length = items.length ∧
      ∀ i, i < items.length → (∀ x, (ys.getD i (0, 0)).2 ≤ x → x < (ys.getD i (0, 0)).2 + t.size → Fresh n n' x) ∧
        ∀ n2 R, (∀ x, Fresh n n' x → R x) → (∀ x, Fresh n n' x → n2.byte x = n'.byte x ∧ n2.elems x = n'.elems x) →
          Kept e S m n2 R none t (items.getD i (0, 0)).2 (ys.getD i (0, 0)).2 := by
  induction items generalizing n with
  | nil =>
    exact ⟨[], [], [], n, rfl, rfl, by simp, by simp, (by intro s ho; cases ho), by simp, Nat.le_refl _, fun _ _ => ⟨rfl, fun _ => rfl⟩, by simp, rfl,
      by simp⟩
  | cons kv r ih =>
    let n0 : Mem := n.extended b (slotBytes t false)
    have hn0 : n0.next = n.next + t.size := rfl
    have hb0 : ∀ x, n0.byte x = n.byte x := fun _ => rfl
    have he0 : ∀ x, x < n.next → x ≠ b → n0.elems x = n.elems x := by
      intro x hx hne
      simp only [n0, Mem.extended, Mem.setElems, Mem.alloc]
      rw [if_neg hne, if_neg (by omega)]
    have hA : n0.elems b = n.elems b ++ [(0, n.next)] := by simp [n0, Mem.extended, Mem.setElems]
    have hclear : Clear n0 n.next t.size := by
      intro x h1 h2
      simp only [n0, Mem.extended, Mem.setElems, Mem.alloc, slotBytes, Bool.false_eq_true, if_false]
      rw [if_neg (by omega), if_pos ⟨h1, h2⟩]
    obtain ⟨v0, v, v1, n1, s1, s0, s2, s01, s3, s4, s5, s6⟩ := hf kv (List.mem_cons_self ..) ⟨[], 0, 0, false, none⟩ rfl rfl indent n.next n0
      (by simp only [cellSize]; omega) hclear
    simp only [cellSize] at s5 s6
    rw [hn0] at s4 s5
    have s1 : saveObjH e o S t indent kv.2 m = .ok (v0 ++ (v ++ v1), m) := s1
    obtain ⟨text, vs, ys, n', t1, t2, t3, t4, t5, t6, t7, t8, t9, t10, t11⟩ := ih (fun x hx => hf x (List.mem_cons_of_mem _ hx)) n1 (by omega)
    have hb1 : n1.elems b = n.elems b ++ [(0, n.next)] := by rw [(s5 b (by omega) (by omega)).2, hA]
    have hstep : ∀ w, saveItemsH o t.hash false none (fun x => saveObjH e o S t indent x) (kv :: r).length (kv :: r) w m =
        .ok ((if w then [44] else []) ++ ((v0 ++ (v ++ v1)) ++ (if vs = [] then [] else 44 :: text)), m) := by
      intro w
      rw [List.length_cons, saveItemsH]
      simp only [saveKeyH, saveValueH, Res.bind_ok, Bool.false_eq_true, if_false, s1, Res.map, t2]
      simp
    refine ⟨(v0 ++ (v ++ v1)) ++ (if vs = [] then [] else 44 :: text), v :: vs, (0, n.next) :: ys, n', ?_, ?_, by simp, ?_, ?_, by simp, by omega, ?_, ?_, ?_, ?_⟩
    · rw [hstep false]; rfl
    · rw [hstep true]; simp
    · intro _
      cases vs with
      | nil => simpa using ListOf.one s0 s2 s01
      | cons u us => simpa using ListOf.more s0 s2 s01 (t4 (by simp))
    · exact elems_consH (w := .cont t false b) (x := n.next) (m0 := n0) rfl s3 t5 t6
    · intro x hx
      obtain ⟨h1, h2⟩ := t8 x (by omega)
      obtain ⟨h3, h4⟩ := s5 x (by omega) (by omega)
      exact ⟨by rw [h1, h3]; rfl, fun hne => by rw [h2 hne, h4, he0 x hx hne]⟩
    · rw [t9, hb1]; simp
    · simp [t10]
    · intro i hi
      cases i with
      | zero =>
        simp only [List.getD_cons_zero]
        refine ⟨fun x h1 h2 => ⟨h1, by omega⟩, fun n2 R hR hag => ?_⟩
        refine s6 n2 R (fun x hx => hR x ⟨by have := hx.1; omega, by have := hx.2; omega⟩) fun x hx => ?_
        have hx' : n.next ≤ x ∧ x < n1.next := by
          rcases hx with hx | hx
          · omega
          · exact ⟨by have := hx.1; omega, hx.2⟩
        have h1 := hag x ⟨hx'.1, by omega⟩
        have h2 := t8 x hx'.2
        exact ⟨h1.1.trans h2.1, h1.2.trans (h2.2 (by omega))⟩
      | succ i =>
        simp only [List.getD_cons_succ]
        simp only [List.length_cons, Nat.add_lt_add_iff_right] at hi
        obtain ⟨h1, h2⟩ := t11 i hi
        refine ⟨fun x hx1 hx2 => ?_, fun n2 R hR hag => ?_⟩
        · have := h1 x hx1 hx2
          exact ⟨by have := this.1; omega, this.2⟩
        · exact h2 n2 R (fun x hx => hR x ⟨by have := hx.1; omega, hx.2⟩) fun x hx => hag x ⟨by have := hx.1; omega, hx.2⟩

theorem empty_list_does {e : Env} {H : Hooks} {h : BitVec 32} {z a : Nat} {t : Ty} {q p : Bool} {m : Mem} :
    DoesV e H b!"[]" (.vec h z t q) a p none m m := by
  intro r hr st hat hm n hn
  obtain ⟨n, rfl⟩ : ∃ k, n = k + 1 := ⟨n - 1, by simp at hn; omega⟩
  have hr1 := reads_structural e.fl.strtod (b := 91) (ty := .lbracket) rfl (93 :: r)
  have hr2 := reads_structural e.fl.strtod (b := 93) (ty := .rbracket) rfl r
  obtain ⟨h1, -, -⟩ := hat.tok hr1
  obtain ⟨st1, e1, a1, m1⟩ := expect_at hat hr1 rfl ⟨_, _, hr2⟩
  obtain ⟨t1, t2, t3⟩ := a1.tok hr2
  obtain ⟨st2, e2, a2, m2⟩ := nextTok_at t2 t3 hr.good
  refine ⟨st2, ?_, a2, by rw [m2, m1, hm]⟩
  rw [parseValueH]
  simp only [Hooks.loadOf, valueStep, h1]
  rw [parseArray, e1]
  simp only [Out.bind_ok, t1]
  simpa [Tok.isValid] using e2

theorem round_list {e : Env} {o : Opts} {S : SaveHooks} {H : Hooks} {h : BitVec 32} {z : Nat} {t : Ty} {m : Mem} {a : Nat} (hz : 0 < z)
    (hf : ∀ x ∈ m.elems a, Round e o S H m none t x.2) : Round e o S H m none (.vec h z t false) a := by
  intro f hc hp indent b n hb hclear
  simp only [cellSize, Ty.size] at hb hclear ⊢
  have hempty : n.elems b = [] := hclear b (Nat.le_refl _) (by omega)
  have hsv : saveFieldH o (saverOfH e o S (f, .vec h z t false)) indent a m =
      saveContainerH o t.hash false none (fun x => saveObjH e o S t indent x) (m.elems a) m := by
    unfold saveFieldH
    simp only [saverOfH, hc, hp]
    simp only [Bool.false_eq_true, if_false]
    rw [saveObjH]
  by_cases hnil : m.elems a = []
  · refine ⟨[], b!"[]", [], n, ?_, by simp [Ws], .arr0 (w := []) (by simp [Ws]), by simp [Ws], empty_list_does, Nat.le_refl _, fun _ _ _ => ⟨rfl, rfl⟩,
      fun n2 R hR hag => ?_⟩
    · rw [hsv, saveContainerH, if_pos hnil]; rfl
    · refine .list ?_ (by simp [hnil]) (by simp [hnil])
      rw [(hag b (.inl ⟨Nat.le_refl _, by omega⟩)).2, hempty, hnil]
  · have hset : n.setElems b [] = n := by
      unfold Mem.setElems
      congr 1
      funext x
      split
      · rename_i hx; rw [hx, hempty]
      · rfl
    obtain ⟨text, vs, ys, n', t1, -, t3, t4, t5, -, t7, t8, t9, t10, t11⟩ := items_round (indent := indent) b (m.elems a) hf n (by omega)
    have hvs : vs ≠ [] := fun h => hnil (t3.1 h)
    have hlo := t4 hvs
    rw [hempty, List.nil_append] at t9
    refine ⟨[], 91 :: (text ++ [93]), [], n', ?_, by simp [Ws], .arr hlo.elems, by simp [Ws], list_does hlo (by rw [hset]; exact t5), t7,
      fun x hx hout => ?_, fun n2 R hR hag => ?_⟩
    · rw [hsv, saveContainerH, if_neg hnil, t1]
      simp
    · exact ⟨(t8 x hx).1, (t8 x hx).2 (by omega)⟩
    · have hel : n2.elems b = ys := by rw [(hag b (.inl ⟨Nat.le_refl _, by omega⟩)).2, t9]
      refine .list (by rw [hel, t10]) (fun i hi x h1 h2 => ?_) fun i hi => ?_
      · rw [hel] at h1 h2
        exact hR x ((t11 i hi).1 x h1 h2)
      · rw [hel]
        exact (t11 i hi).2 n2 R hR fun x hx => hag x (.inr hx)

/-- The elements of a C array. -/
theorem slots_round {e : Env} {o : Opts} {S : SaveHooks} {H : Hooks} {t : Ty} {indent : Nat} {m : Mem} (hz : 0 < t.size) (base limit : Nat)
    (items : List (Nat × Nat)) (hf : ∀ x ∈ items, Round e o S H m none t x.2) (pos : Nat) (n : Mem) (hlim : pos + items.length * t.size ≤ limit)
    (hb : base + limit ≤ n.next) (hclear : Clear n (base + pos) (items.length * t.size)) :
    ∃ text vs n', saveItemsH o t.hash false none (fun x => saveObjH e o S t indent x) items.length items false m = .ok (text, m) ∧
      saveItemsH o t.hash false none (fun x => saveObjH e o S t indent x) items.length items true m = .ok (if vs = [] then [] else 44 :: text, m) ∧
      (vs = [] ↔ items = []) ∧ (vs ≠ [] → ListOf text vs) ∧ DoesE e H (.arr t false base limit pos) vs n n' ∧ (vs = [] → n' = n) ∧
      n.next ≤ n'.next ∧
      (∀ x, x < n.next → (x < base + pos ∨ base + pos + items.length * t.size ≤ x) → n'.byte x = n.byte x ∧ n'.elems x = n.elems x) ∧
      ∀ n2 R, (∀ x, Fresh n n' x → R x) →
        (∀ x, (base + pos ≤ x ∧ x < base + pos + items.length * t.size) ∨ Fresh n n' x → n2.byte x = n'.byte x ∧ n2.elems x = n'.elems x) →
        ∀ i, i < items.length → Kept e S m n2 R none t (items.getD i (0, 0)).2 (elemAt (base + pos) i t.size) := by
  induction items generalizing n pos with
  | nil =>
    exact ⟨[], [], n, rfl, rfl, by simp, by simp, (by intro s ho; cases ho), by simp, Nat.le_refl _, fun _ _ _ => ⟨rfl, rfl⟩, by simp⟩
  | cons kv r ih =>
    simp only [List.length_cons, Nat.add_mul, Nat.one_mul] at hlim hclear ⊢
    obtain ⟨v0, v, v1, n1, s1, s0, s2, s01, s3, s4, s5, s6⟩ := hf kv (List.mem_cons_self ..) ⟨[], 0, 0, false, none⟩ rfl rfl indent (base + pos) n
      (by simp only [cellSize]; omega) (by intro x h1 h2; simp only [cellSize] at h2; exact hclear x h1 (by omega))
    simp only [cellSize] at s5 s6
    have s1 : saveObjH e o S t indent kv.2 m = .ok (v0 ++ (v ++ v1), m) := s1
    obtain ⟨text, vs, n', t1, t2, t3, t4, t5, t6, t7, t8, t9⟩ := ih (fun x hx => hf x (List.mem_cons_of_mem _ hx)) (pos + t.size) n1 (by omega)
      (by omega) (by
        intro x h1 h2
        rw [(s5 x (by omega) (by omega)).2]
        exact hclear x (by omega) (by omega))
    have hstep : ∀ w, saveItemsH o t.hash false none (fun x => saveObjH e o S t indent x) (r.length + 1) (kv :: r) w m =
        .ok ((if w then [44] else []) ++ ((v0 ++ (v ++ v1)) ++ (if vs = [] then [] else 44 :: text)), m) := by
      intro w
      rw [saveItemsH]
      simp only [saveKeyH, saveValueH, Res.bind_ok, Bool.false_eq_true, if_false, s1, Res.map, t2]
      simp
    refine ⟨(v0 ++ (v ++ v1)) ++ (if vs = [] then [] else 44 :: text), v :: vs, n', ?_, ?_, by simp, ?_, ?_, by simp, by omega, ?_, ?_⟩
    · rw [hstep false]; rfl
    · rw [hstep true]; simp
    · intro _
      cases vs with
      | nil => simpa using ListOf.one s0 s2 s01
      | cons u us => simpa using ListOf.more s0 s2 s01 (t4 (by simp))
    · refine elems_consH (w := .arr t false base limit pos) (x := base + pos) (m0 := n) ?_ s3 t5 t6
      unfold Writer.addEmpty
      simp only [show pos < limit by omega, if_true]
      rfl
    · intro x hx hout
      have h1 := t8 x (by omega) (by omega)
      have h2 := s5 x hx (by omega)
      exact ⟨h1.1.trans h2.1, h1.2.trans h2.2⟩
    · intro n2 R hR hag i hi
      cases i with
      | zero =>
        have hel : elemAt (base + pos) 0 t.size = base + pos := by simp [elemAt]
        rw [List.getD_cons_zero, hel]
        refine s6 n2 R (fun x hx => hR x ⟨hx.1, by have := hx.2; omega⟩) fun x hx => ?_
        have h1 := hag x (by
          rcases hx with hx | hx
          · exact .inl ⟨hx.1, by omega⟩
          · exact .inr ⟨hx.1, by have := hx.2; omega⟩)
        have h2 := t8 x (by
          rcases hx with hx | hx
          · omega
          · exact hx.2) (by
          rcases hx with hx | hx
          · omega
          · have := hx.1; omega)
        exact ⟨h1.1.trans h2.1, h1.2.trans h2.2⟩
      | succ i =>
        have hel : elemAt (base + pos) (i + 1) t.size = elemAt (base + (pos + t.size)) i t.size := by
          simp only [elemAt, Nat.add_mul, Nat.one_mul]; omega
        rw [List.getD_cons_succ, hel]
        refine t9 n2 R (fun x hx => hR x ⟨by have := hx.1; omega, hx.2⟩) (fun x hx => hag x ?_) i (by omega)
        rcases hx with hx | hx
        · exact .inl ⟨by omega, by omega⟩
        · exact .inr ⟨by have := hx.1; omega, hx.2⟩

theorem round_array {e : Env} {o : Opts} {S : SaveHooks} {H : Hooks} {k : Nat} {t : Ty} {m : Mem} {a : Nat} (hk : 0 < k) (hz : 0 < t.size)
    (hl : NoLoad H t) (hf : ∀ i, i < k → Round e o S H m none t (elemAt a i t.size)) : Round e o S H m (some k) t a := by
  intro f hc hp indent b n hb hclear
  simp only [cellSize] at hb hclear ⊢
  have hlen := arrayItems_length a k t.size
  have hget : ∀ i, i < k → ((arrayItems a k t.size).getD i (0, 0)).2 = elemAt a i t.size := by
    intro i hi
    simp [arrayItems, elemAt, List.getD, hi]
  have hnil : arrayItems a k t.size ≠ [] := by
    intro h
    rw [h] at hlen
    simp at hlen
    omega
  obtain ⟨text, vs, n', t1, -, t3, t4, t5, -, t7, t8, t9⟩ := slots_round (indent := indent) (S := S) (o := o) (e := e) (m := m) hz b (k * t.size)
    (arrayItems a k t.size) (by
      intro x hx
      simp only [arrayItems, List.mem_map, List.mem_range] at hx
      obtain ⟨i, hi, rfl⟩ := hx
      exact hf i hi) 0 n (by rw [hlen]; omega) (by omega) (by rw [hlen]; exact hclear)
  rw [hlen] at t8 t9
  have hvs : vs ≠ [] := fun h => hnil (t3.1 h)
  have hlo := t4 hvs
  have hsv : saveFieldH o (saverOfH e o S (f, t)) indent a m = .ok ([] ++ ((91 :: (text ++ [93])) ++ []), m) := by
    unfold saveFieldH
    simp only [saverOfH, hc, hp, strideOf, Bool.false_eq_true, if_false]
    rw [if_neg (by omega), saveContainerH, if_neg hnil]
    rw [hlen] at t1
    simp only [hlen]
    erw [t1]
    simp
  refine ⟨[], 91 :: (text ++ [93]), [], n', hsv, by simp [Ws], .arr hlo.elems, by simp [Ws], stored_does hl hlo t5, t7,
    fun x hx hout => t8 x hx (by omega), fun n2 R hR hag => ?_⟩
  refine .array fun i hi => ?_
  have := t9 n2 R hR (by simpa using hag) i hi
  rw [hget i hi] at this
  simpa using this

/-- All that survives. -/
theorem survives_round {e : Env} {o : Opts} {S : SaveHooks} {H : Hooks} (hptr : o.ptrs = none) {m : Mem} {c : Option Nat} {t : Ty} {a : Nat}
    (h : Survives e o S H m c t a) : Round e o S H m c t a := by
  induction h with
  | plain hs hz hd hv hf h1 h2 => exact round_plain hptr hs hz hd hv hf ⟨h1, h2⟩
  | custom hk hg hf hi => exact round_custom hk hg hf hi
  | object hk hg hp hl hq hsort hd hap hn _ ih =>
    exact round_object hptr hk hg hp hl hq hsort hd hap fun x hx => ⟨(hn x hx).1, (hn x hx).2, ih x hx⟩
  | list hz _ ih => exact round_list hz ih
  | array hk hz hl _ ih => exact round_array hk hz hl ih

end Clr.JSON
