import Verif.Props.JSONInsideSpec
import Verif.Proofs.JSONParse
/-
C93: loading JSON stays inside the object.
-/
namespace Clr.JSON

theorem OnlyIn.refl (a n : Nat) (m : Mem) : OnlyIn a n m m := ⟨Nat.le_refl _, fun _ _ _ => rfl, fun _ _ _ => rfl, fun _ _ _ => rfl⟩

theorem OnlyIn.trans {a n : Nat} {m m' m'' : Mem} (h : OnlyIn a n m m') (h' : OnlyIn a n m' m'') : OnlyIn a n m m'' :=
  ⟨Nat.le_trans h.grows h'.grows,
   fun x hx hr => (h'.bytes x (Nat.lt_of_lt_of_le hx h.grows) hr).trans (h.bytes x hx hr),
   fun x hx hr => (h'.elems x (Nat.lt_of_lt_of_le hx h.grows) hr).trans (h.elems x hx hr),
   fun x hx hr => (h'.free x hx hr).trans (h.free x (Nat.le_trans h'.grows hx) hr)⟩

theorem OnlyIn.mono {a n b k : Nat} {m m' : Mem} (h : OnlyIn b k m m') (h1 : a ≤ b) (h2 : b + k ≤ a + n) : OnlyIn a n m m' :=
  ⟨h.grows, fun x hx hr => h.bytes x hx (by omega), fun x hx hr => h.elems x hx (by omega), fun x hx hr => h.free x hx (by omega)⟩

theorem OnlyIn.none {a n : Nat} {m m' : Mem} (h : OnlyIn a 0 m m') : OnlyIn a n m m' := h.mono (Nat.le_refl _) (by omega)

theorem write_inside (m : Mem) (a : Nat) (bs : Bytes) {n : Nat} (h : bs.length ≤ n) : OnlyIn a n m (m.write a bs) := by
  have : ∀ x, (x < a ∨ a + n ≤ x) → (m.write a bs).byte x = m.byte x := by
    intro x hx
    show (if a ≤ x then (bs[x - a]?).getD (m.byte x) else m.byte x) = _
    split
    · rw [List.getElem?_eq_none (by omega)]; rfl
    · rfl
  exact ⟨Nat.le_refl _, fun x _ hr => this x hr, fun _ _ _ => rfl, fun x _ hr => this x hr⟩

theorem setElems_inside (m : Mem) {a n b : Nat} (l : List (Nat × Nat)) (h1 : a ≤ b) (h2 : b < a + n) : OnlyIn a n m (m.setElems b l) := by
  refine ⟨Nat.le_refl _, fun _ _ _ => rfl, fun x _ hr => ?_, fun _ _ _ => rfl⟩
  show (if x = b then l else m.elems x) = _
  rw [if_neg (by omega)]

theorem alloc_inside (m : Mem) (n a k : Nat) : OnlyIn a k m (m.alloc n).2 := by
  refine ⟨Nat.le_add_right _ _, fun _ _ _ => rfl, fun x hx hr => ?_, fun _ _ _ => rfl⟩
  show (if m.next ≤ x ∧ x < m.next + n then [] else m.elems x) = _
  rw [if_neg (by omega)]

/-- What happens to memory that has been allocated is seen by nobody. -/
theorem OnlyIn.fresh {a n v k : Nat} {m m1 m2 : Mem} (h : OnlyIn a n m m1) (hv : m.next ≤ v) (hk : v + k ≤ m1.next)
    (h2 : OnlyIn v k m1 m2) : OnlyIn a n m m2 := by
  have := h.grows
  have := h2.grows
  refine ⟨by omega, fun x hx hr => ?_, fun x hx hr => ?_, fun x hx hr => ?_⟩
  · rw [h2.bytes x (by omega) (by omega), h.bytes x hx hr]
  · rw [h2.elems x (by omega) (by omega), h.elems x hx hr]
  · rw [h2.free x hx (by omega), h.free x (by omega) hr]

theorem mem_read_length (m : Mem) : ∀ (n a : Nat), (m.read a n).length = n := by
  intro n
  induction n with
  | zero => intro a; rfl
  | succ n ih => intro a; rw [Mem.read, List.length_cons, ih]

theorem nextTok_mem {e : Env} {s s' : St} (h : nextTok e s = .ok s') : s'.m = s.m := by
  obtain ⟨r, _, rfl⟩ := nextTok_eq h
  rfl

theorem expect_mem {e : Env} {s : St} {y : TokType} {r : Tok × St} (h : expect e s y = .ok r) : r.2.m = s.m := by
  unfold expect at h
  split at h
  · cases h; rfl
  · obtain ⟨s1, h1, h⟩ := Out.bind_eq_ok.1 h
    cases h
    exact nextTok_mem h1

theorem storeInt_length (fl : Floats) (k : Num) (v : Int) : (storeInt fl k v).length = k.size := by
  cases k <;> simp [storeInt, Num.size, length_le]

theorem storeDec_length {fl : Floats} {k : Num} {b : UInt64} {bs : Bytes} (h : storeDec fl k b = .ok bs) : bs.length = k.size := by
  cases k with
  | bool => cases h; rfl
  | float => cases h; simp [Num.size, length_le]
  | double => cases h; simp [Num.size, length_le]
  | int w =>
    unfold storeDec at h
    obtain ⟨v, _, h⟩ := Res.bind_eq_ok.1 h
    cases h
    simp [Num.size, length_le]
  | nat w sg =>
    unfold storeDec at h
    dsimp only at h
    split at h
    all_goals
      obtain ⟨v, _, h⟩ := Res.bind_eq_ok.1 h
      cases h
      simp [Num.size, length_le]
  | hex w =>
    unfold storeDec at h
    obtain ⟨v, _, h⟩ := Res.bind_eq_ok.1 h
    cases h
    simp [Num.size, length_le]

/-- What a value may be loaded into. -/
def Into (e : Env) (t : Ty) (p : Bool) (arr : Option Nat) : Prop := Room e t ∧ (p = true → Simple t) ∧ arr ≠ some 0

theorem Into.none {e : Env} {t : Ty} {p : Bool} {arr : Option Nat} (h : Into e t p arr) : Into e t p .none := ⟨h.1, h.2.1, by simp⟩

/-- The first value of a field is in it. -/
theorem slot_le {t : Ty} {p : Bool} {arr : Option Nat} (h : arr ≠ some 0) : slotBytes t p ≤ fieldBytes t p arr := by
  cases arr with
  | none => exact Nat.le_refl _
  | some n =>
    have : 0 < n := by
      rcases n with _ | n
      · exact absurd rfl h
      · omega
    exact Nat.le_mul_of_pos_left _ this

theorem Room.num {e : Env} {t : Ty} (h : Room e t) : NumFits e t := by cases h <;> assumption

theorem num_in {e : Env} {t : Ty} {p : Bool} {arr : Option Nat} (h : Into e t p arr) {k : Num} (hk : dispatch e.lut t.hash = some k) :
    k.size ≤ fieldBytes t p arr := by
  refine Nat.le_trans ?_ (slot_le h.2.2)
  have := h.1.num k hk
  unfold slotBytes
  split
  · rename_i hp
    have := (h.2.1 hp).2
    omega
  · exact this

theorem loadString_in {e : Env} {m : Mem} {t : Tok} {ty : Ty} {a : Nat} {p : Bool} {arr : Option Nat} (h : Into e ty p arr) :
    OnlyIn a (fieldBytes ty p arr) m (loadString m t (some (ty, a))) := by
  unfold loadString
  split
  · split
    · rename_i h0 s0 cs fl a' he
      cases he
      have hs : 4 ≤ fieldBytes (.enum h0 s0 cs fl) p arr := by
        refine Nat.le_trans ?_ (slot_le h.2.2)
        have := h.1
        cases this with
        | enum _ _ _ _ _ hs =>
          unfold slotBytes
          split
          · omega
          · exact hs
      split
      · exact write_inside _ _ _ (by rw [length_le]; exact hs)
      · exact .refl _ _ _
    · exact .refl _ _ _
  · exact .refl _ _ _

theorem loadInteger_in {e : Env} {m : Mem} {t : Tok} {v : Int} {ty : Ty} {a : Nat} {p : Bool} {arr : Option Nat} (h : Into e ty p arr) :
    OnlyIn a (fieldBytes ty p arr) m (loadInteger e m t v (some (ty, a)) p) := by
  unfold loadInteger
  split
  · dsimp only
    split
    · rename_i hp
      refine write_inside _ _ _ ?_
      rw [length_le]
      refine Nat.le_trans ?_ (slot_le h.2.2)
      unfold slotBytes
      rw [if_pos hp]
      omega
    · split
      · rename_i k hk
        exact write_inside _ _ _ (by rw [storeInt_length]; exact num_in h hk)
      · exact .refl _ _ _
  · exact .refl _ _ _

theorem loadDecimal_in {e : Env} {m m' : Mem} {t : Tok} {ty : Ty} {a : Nat} {p : Bool} {arr : Option Nat} (h : Into e ty p arr)
    (hm : loadDecimal e m t (some (ty, a)) = .ok m') : OnlyIn a (fieldBytes ty p arr) m m' := by
  unfold loadDecimal at hm
  split at hm
  · dsimp only at hm
    split at hm
    · rename_i k hk
      obtain ⟨bs, h1, hm⟩ := Out.bind_eq_ok.1 hm
      cases hm
      exact write_inside _ _ _ (by rw [storeDec_length (ofRes_ok h1)]; exact num_in h hk)
    · cases hm; exact .refl _ _ _
  · cases hm; exact .refl _ _ _

theorem loadNone {e : Env} {m : Mem} {t : Tok} {v : Int} {p : Bool} : loadString m t none = m ∧ loadInteger e m t v none p = m ∧
    loadDecimal e m t none = .ok m := by
  refine ⟨?_, ?_, ?_⟩
  · unfold loadString; split <;> rfl
  · unfold loadInteger; split <;> rfl
  · unfold loadDecimal; split <;> rfl

/-- The bytes that an object can be loaded into. -/
def objBytes : Ty → Nat
  | .cls _ s _ _ _ => s
  | .vec _ s _ _ => s
  | .dict _ s _ _ _ => s
  | _ => 0

theorem objBytes_le {t : Ty} {p : Bool} (hp : p = true → Simple t) : objBytes t ≤ slotBytes t p := by
  unfold slotBytes
  cases p with
  | false => cases t <;> simp [objBytes, Ty.size]
  | true =>
    obtain ⟨h1 | h1, _⟩ := hp rfl
    · obtain ⟨_, _, rfl⟩ := h1; simp [objBytes]
    · obtain ⟨_, _, _, _, rfl⟩ := h1; simp [objBytes]

/-- A parser of values that stays inside. -/
def PVin (e : Env) (pv : ValueParser) : Prop :=
  (∀ s ty a p arr s', Into e ty p arr → pv s (some (ty, a)) p arr = .ok s' → OnlyIn a (fieldBytes ty p arr) s.m s'.m) ∧
  ∀ s p arr s', pv s none p arr = .ok s' → ∀ a, OnlyIn a 0 s.m s'.m

def POin (e : Env) (po : ObjectParser) : Prop :=
  (∀ s ty a s', Room e ty → po s (some (ty, a)) = .ok s' → OnlyIn a (objBytes ty) s.m s'.m) ∧
  ∀ s s', po s none = .ok s' → ∀ a, OnlyIn a 0 s.m s'.m

/-- A writer for what is in some bytes. -/
def WIn (e : Env) (a n : Nat) : Writer → Prop
  | .arr t p base limit pos => a ≤ base ∧ base + limit ≤ a + n ∧ (∃ k, limit = k * slotBytes t p) ∧ (∃ j, pos = j * slotBytes t p) ∧ Into e t p none
  | .cont t p addr => a ≤ addr ∧ addr < a + n ∧ Into e t p none

theorem elements_none {e : Env} {pv : ValueParser} (hpv : PVin e pv) : ∀ (n : Nat) (s : St) (r : Nat × St),
    parseElements e pv n none s = .ok r → ∀ a, OnlyIn a 0 s.m r.2.m := by
  intro n
  induction n with
  | zero => intro s r h; rw [parseElements] at h; cases h
  | succ n ih =>
    intro s r h a
    rw [parseElements] at h
    obtain ⟨s1, h1, h⟩ := Out.bind_eq_ok.1 h
    have p1 := hpv.2 _ _ _ _ h1 a
    split at h
    · cases h; exact p1
    · obtain ⟨s2, h2, h⟩ := Out.bind_eq_ok.1 h
      obtain ⟨r3, h3, h⟩ := Out.bind_eq_ok.1 h
      cases h
      have := ih _ r3 h3 a
      rw [nextTok_mem h2] at this
      exact p1.trans this

theorem elements_in {e : Env} {pv : ValueParser} (hpv : PVin e pv) {a n : Nat} : ∀ (f : Nat) (w : Writer) (s : St) (r : Nat × St),
    WIn e a n w → parseElements e pv f (some w) s = .ok r → OnlyIn a n s.m r.2.m := by
  intro f
  induction f with
  | zero => intro w s r _ h; rw [parseElements] at h; cases h
  | succ f ih =>
    intro w s r hw h
    rw [parseElements] at h
    obtain ⟨r0, h0, h⟩ := Out.bind_eq_ok.1 h
    obtain ⟨s1, h1, h⟩ := Out.bind_eq_ok.1 h
    have key : OnlyIn a n s.m s1.m ∧ WIn e a n r0.2.1 := by
      cases w with
      | arr t p base limit pos =>
        obtain ⟨w1, w2, ⟨k, rfl⟩, ⟨j, rfl⟩, hf⟩ := hw
        unfold Writer.addEmpty at h0
        dsimp only at h0
        split at h0
        · rename_i hlt
          cases h0
          have hj : j < k := Nat.lt_of_mul_lt_mul_right hlt
          have hjk : (j + 1) * slotBytes t p ≤ k * slotBytes t p := Nat.mul_le_mul_right _ hj
          rw [Nat.succ_mul] at hjk
          have := hpv.1 _ _ _ _ _ _ hf h1
          refine ⟨this.mono (by omega) (by show base + j * slotBytes t p + slotBytes t p ≤ _; omega), w1, w2, ⟨k, rfl⟩, ⟨j + 1, ?_⟩, hf⟩
          rw [Nat.succ_mul]; rfl
        · cases h0
      | cont t p addr =>
        obtain ⟨w1, w2, hf⟩ := hw
        cases h0
        refine ⟨?_, w1, w2, hf⟩
        have i1 : OnlyIn a n s.m ((s.m.alloc (strideOf t p)).2.setElems addr (s.m.elems addr ++ [(0, (s.m.alloc (strideOf t p)).1)])) :=
          (alloc_inside s.m (strideOf t p) a n).trans (setElems_inside _ _ w1 w2)
        exact i1.fresh (Nat.le_refl s.m.next) (Nat.le_refl (s.m.next + slotBytes t p)) (hpv.1 _ _ _ _ _ _ hf h1)
    split at h
    · cases h; exact key.1
    · obtain ⟨s2, h2, h⟩ := Out.bind_eq_ok.1 h
      obtain ⟨r3, h3, h⟩ := Out.bind_eq_ok.1 h
      cases h
      have := ih _ _ r3 key.2 h3
      rw [nextTok_mem h2] at this
      exact key.1.trans this

theorem writer_in {e : Env} {pv : ValueParser} (hpv : PVin e pv) {n : Nat} {s : St} {ty : Ty} {a : Nat} {p : Bool} {arr : Option Nat}
    (hf : Into e ty p arr) {w : Option Writer × St} (h : arrayWriter e pv n s (some (ty, a)) p arr = .ok w) :
    OnlyIn a (fieldBytes ty p arr) s.m w.2.m ∧ ∀ w', w.1 = some w' → WIn e a (fieldBytes ty p arr) w' := by
  cases arr with
  | some k =>
    unfold arrayWriter at h
    cases h
    refine ⟨.refl _ _ _, fun w' hw => ?_⟩
    cases hw
    exact ⟨Nat.le_refl _, Nat.le_refl _, ⟨k, rfl⟩, ⟨0, (Nat.zero_mul _).symm⟩, hf.none⟩
  | none =>
    cases ty with
    | vec hh ss elem pp =>
      unfold arrayWriter at h
      obtain ⟨r5, h5, h⟩ := Out.bind_eq_ok.1 h
      cases h
      have hp : p = false := by
        cases p with
        | false => rfl
        | true =>
          obtain ⟨h1 | h1, _⟩ := hf.2.1 rfl
          · obtain ⟨_, _, h1⟩ := h1; cases h1
          · obtain ⟨_, _, _, _, h1⟩ := h1; cases h1
      subst hp
      obtain ⟨_, hs, ht, hp⟩ : NumFits e (.vec hh ss elem pp) ∧ 0 < ss ∧ Room e elem ∧ (pp = true → Simple elem) := by
        cases hf.1 with
        | vec _ _ _ _ hn hs ht hp => exact ⟨hn, hs, ht, hp⟩
      have i1 := elements_none hpv _ _ _ h5 a
      have i2 : OnlyIn a (fieldBytes (.vec hh ss elem pp) false none) r5.2.m (r5.2.m.setElems a []) :=
        setElems_inside _ _ (Nat.le_refl _) (by show a < a + ss; omega)
      refine ⟨i1.none.trans i2, fun w' hw => ?_⟩
      cases hw
      exact ⟨Nat.le_refl _, by show a < a + ss; omega, ht, hp, by simp⟩
    | dict => unfold arrayWriter at h; cases h
    | _ =>
      unfold arrayWriter at h
      cases h
      exact ⟨.refl _ _ _, fun w' hw => by cases hw⟩

theorem array_in {e : Env} {pv : ValueParser} (hpv : PVin e pv) {n : Nat} {s s' : St} {ty : Ty} {a : Nat} {p : Bool} {arr : Option Nat}
    (hf : Into e ty p arr) (h : parseArray e pv n s (some (ty, a)) p arr = .ok s') : OnlyIn a (fieldBytes ty p arr) s.m s'.m := by
  unfold parseArray at h
  obtain ⟨r, h1, h⟩ := Out.bind_eq_ok.1 h
  have m1 := expect_mem h1
  split at h
  · cases h; rw [m1]; exact .refl _ _ _
  · split at h
    · rw [nextTok_mem h, m1]; exact .refl _ _ _
    · obtain ⟨w, h2, h⟩ := Out.bind_eq_ok.1 h
      obtain ⟨q, h3, h⟩ := Out.bind_eq_ok.1 h
      obtain ⟨x, h4, h⟩ := Out.bind_eq_ok.1 h
      cases h
      rw [expect_mem h4, ← m1]
      obtain ⟨i1, i2⟩ := writer_in hpv hf h2
      refine i1.trans ?_
      cases hw : w.1 with
      | none =>
        rw [hw] at h3
        exact (elements_none hpv _ _ _ h3 a).none
      | some w' =>
        rw [hw] at h3
        exact elements_in hpv _ _ _ _ (i2 w' hw) h3

theorem writer_none {e : Env} {pv : ValueParser} {n : Nat} {s : St} {p : Bool} {arr : Option Nat} :
    arrayWriter e pv n s none p arr = .ok (none, s) := by
  cases arr <;> rfl

theorem array_none {e : Env} {pv : ValueParser} (hpv : PVin e pv) {n : Nat} {s s' : St} {p : Bool} {arr : Option Nat}
    (h : parseArray e pv n s none p arr = .ok s') (a : Nat) : OnlyIn a 0 s.m s'.m := by
  unfold parseArray at h
  obtain ⟨r, h1, h⟩ := Out.bind_eq_ok.1 h
  have m1 := expect_mem h1
  split at h
  · cases h; rw [m1]; exact .refl _ _ _
  · split at h
    · rw [nextTok_mem h, m1]; exact .refl _ _ _
    · obtain ⟨w, h2, h⟩ := Out.bind_eq_ok.1 h
      obtain ⟨q, h3, h⟩ := Out.bind_eq_ok.1 h
      obtain ⟨x, h4, h⟩ := Out.bind_eq_ok.1 h
      cases h
      rw [expect_mem h4, ← m1]
      rw [writer_none] at h2
      cases h2
      exact elements_none hpv _ _ _ h3 a

theorem memberOf_in {e : Env} {ty : Ty} {a : Nat} (hr : Room e ty) {k : Bytes} {f : FldInfo} {t : Ty} {b : Nat}
    (hm : memberOf e (some (ty, a)) k = some (f, t, b)) :
    (∃ h z fl fs bs, ty = .cls h z fl fs bs) ∧ Into e t f.isPtr f.count ∧ a ≤ b ∧ b + fieldBytes t f.isPtr f.count ≤ a + ty.size := by
  unfold memberOf at hm
  split at hm
  · rename_i hh s fl fs bs b' he
    cases he
    split at hm
    · rename_i f' t' hf
      rw [findField_eq] at hf
      have hmem := List.mem_of_find?_eq_some hf
      split at hm
      · simp at hm
      · simp only [Option.some.injEq, Prod.mk.injEq] at hm
        obtain ⟨rfl, rfl, rfl⟩ := hm
        cases hr with
        | cls _ _ _ _ _ hn hin h0 hp hr =>
          have := hin _ hmem
          exact ⟨⟨_, _, _, _, _, rfl⟩, ⟨hr _ hmem, hp _ hmem, h0 _ hmem⟩, by omega, by show _ ≤ a + s; dsimp only at this; omega⟩
    · simp at hm
  · simp at hm

theorem objBytes_cls {t : Ty} (h : ∃ h z fl fs bs, t = .cls h z fl fs bs) : objBytes t = t.size := by
  obtain ⟨_, _, _, _, _, rfl⟩ := h
  rfl

theorem pair_in {e : Env} {pv : ValueParser} (hpv : PVin e pv) {s s' : St} {ty : Ty} {a : Nat} (hr : Room e ty)
    (h : parsePair e pv s (some (ty, a)) = .ok s') :
    OnlyIn a (objBytes ty) s.m s'.m := by
  unfold parsePair at h
  obtain ⟨r, h1, h⟩ := Out.bind_eq_ok.1 h
  have m1 := expect_mem h1
  split at h
  · cases h; rw [m1]; exact .refl _ _ _
  · obtain ⟨q, h2, h⟩ := Out.bind_eq_ok.1 h
    have m2 := (expect_mem h2).trans m1
    split at h
    · cases h; rw [m2]; exact .refl _ _ _
    · split at h
      · rename_i f t b hm
        obtain ⟨c1, c2, c3, c4⟩ := memberOf_in hr hm
        rw [objBytes_cls c1, ← m2]
        exact (hpv.1 _ _ _ _ _ _ c2 h).mono c3 c4
      · rw [← m2]; exact (hpv.2 _ _ _ _ h a).none

theorem pair_none {e : Env} {pv : ValueParser} (hpv : PVin e pv) {s s' : St} (h : parsePair e pv s none = .ok s') (a : Nat) :
    OnlyIn a 0 s.m s'.m := by
  unfold parsePair at h
  obtain ⟨r, h1, h⟩ := Out.bind_eq_ok.1 h
  have m1 := expect_mem h1
  split at h
  · cases h; rw [m1]; exact .refl _ _ _
  · obtain ⟨q, h2, h⟩ := Out.bind_eq_ok.1 h
    have m2 := (expect_mem h2).trans m1
    split at h
    · cases h; rw [m2]; exact .refl _ _ _
    · rw [← m2]; exact hpv.2 _ _ _ _ h a

theorem members_in {e : Env} {pv : ValueParser} {tgt : Target} {a n : Nat}
    (hp : ∀ s s', parsePair e pv s tgt = .ok s' → OnlyIn a n s.m s'.m) : ∀ (f : Nat) (s s' : St),
    parseMembers e pv f s tgt = .ok s' → OnlyIn a n s.m s'.m := by
  intro f
  induction f with
  | zero => intro s s' h; rw [parseMembers] at h; cases h
  | succ f ih =>
    intro s s' h
    rw [parseMembers] at h
    obtain ⟨s1, h1, h⟩ := Out.bind_eq_ok.1 h
    have p1 := hp _ _ h1
    split at h
    · obtain ⟨s2, h2, h⟩ := Out.bind_eq_ok.1 h
      have := ih _ _ h
      rw [nextTok_mem h2] at this
      exact p1.trans this
    · cases h; exact p1

theorem dict_in {e : Env} {pv : ValueParser} {po : ObjectParser} (hpv : PVin e pv) (hpo : POin e po) {kt vt : Ty} {p : Bool} {a n b : Nat}
    (hk : Room e kt) (hv : Room e vt) (hp : p = true → Simple vt) (h1 : a ≤ b) (h2 : b < a + n) :
    ∀ (f : Nat) (s s' : St), dictLoop e pv po kt vt p b f s = .ok s' → OnlyIn a n s.m s'.m := by
  intro f
  induction f with
  | zero => intro s s' h; rw [dictLoop] at h; cases h
  | succ f ih =>
    intro s s' h
    rw [dictLoop] at h
    split at h
    · split at h
      · rename_i hsize
        obtain ⟨s1, e1, h⟩ := Out.bind_eq_ok.1 h
        have i1 : OnlyIn a n s.m s1.m := by
          refine (alloc_inside s.m 128 a n).fresh (Nat.le_refl s.m.next) (k := fieldBytes kt false none) ?_
            (hpv.1 _ _ _ _ _ _ ⟨hk, (by simp), (by simp)⟩ e1)
          show s.m.next + kt.size ≤ s.m.next + 128
          omega
        obtain ⟨r, e2, h⟩ := Out.bind_eq_ok.1 h
        have m2 := expect_mem e2
        split at h
        · cases h; rw [m2]; exact i1
        · obtain ⟨s3, e3, h⟩ := Out.bind_eq_ok.1 h
          have i3 : OnlyIn a n r.2.m s3.m := by
            have j1 : OnlyIn a n r.2.m (addKey r.2.m b s.m.next kt vt p).2 := by
              have a1 := alloc_inside r.2.m kt.size a n
              have a2 := a1.trans (alloc_inside (r.2.m.alloc kt.size).2 (strideOf vt p) a n)
              have a3 := a2.fresh (v := r.2.m.next) (k := kt.size) (Nat.le_refl _)
                (by show r.2.m.next + kt.size ≤ r.2.m.next + kt.size + strideOf vt p; omega)
                (write_inside _ r.2.m.next (r.2.m.read s.m.next kt.size) (Nat.le_of_eq (mem_read_length _ _ _)))
              exact a3.trans (setElems_inside _ _ h1 h2)
            refine j1.fresh (v := (addKey r.2.m b s.m.next kt vt p).1) ?_ ?_ (hpo.1 _ _ _ _ hv e3)
            · show r.2.m.next ≤ r.2.m.next + kt.size
              omega
            · show r.2.m.next + kt.size + _ ≤ r.2.m.next + kt.size + strideOf vt p
              have : objBytes vt ≤ strideOf vt p := objBytes_le hp
              omega
          obtain ⟨r4, e4, h⟩ := Out.bind_eq_ok.1 h
          have i4 : OnlyIn a n s.m r4.2.m := by
            rw [expect_mem e4]
            rw [m2] at i3
            exact i1.trans i3
          split at h
          · obtain ⟨s5, e5, h⟩ := Out.bind_eq_ok.1 h
            have := ih _ _ h
            rw [nextTok_mem e5] at this
            exact i4.trans this
          · exact i4.trans (ih _ _ h)
      · cases h
    · cases h; exact .refl _ _ _

theorem parse_in (e : Env) : ∀ n, PVin e (parseValue e n) ∧ POin e (parseObject e n) := by
  intro n
  induction n with
  | zero =>
    refine ⟨⟨?_, ?_⟩, ?_, ?_⟩
    · intro s ty a p arr s' _ h; rw [parseValue] at h; cases h
    · intro s p arr s' h; rw [parseValue] at h; cases h
    · intro s ty a s' _ h; rw [parseObject] at h; cases h
    · intro s s' h; rw [parseObject] at h; cases h
  | succ n ih =>
    refine ⟨⟨?_, ?_⟩, ?_, ?_⟩
    · intro s ty a p arr s' hf h
      rw [parseValue] at h
      split at h
      · obtain ⟨r, h1, h⟩ := Out.bind_eq_ok.1 h
        cases h
        rw [← expect_mem h1]
        exact loadString_in hf
      · obtain ⟨r, h1, h⟩ := Out.bind_eq_ok.1 h
        cases h
        rw [← expect_mem h1]
        exact loadInteger_in hf
      · obtain ⟨r, h1, h⟩ := Out.bind_eq_ok.1 h
        obtain ⟨m, h2, h⟩ := Out.bind_eq_ok.1 h
        cases h
        rw [← expect_mem h1]
        exact loadDecimal_in hf h2
      · obtain ⟨s1, h1, h⟩ := Out.bind_eq_ok.1 h
        obtain ⟨r, h2, h⟩ := Out.bind_eq_ok.1 h
        cases h
        rw [expect_mem h2]
        have close : parseObject e n s (some (ty, a)) = .ok s1 → OnlyIn a (fieldBytes ty p arr) s.m s1.m := by
          intro h1
          refine (ih.2.1 _ _ _ _ hf.1 h1).mono (Nat.le_refl _) ?_
          have : objBytes ty ≤ slotBytes ty p := objBytes_le hf.2.1
          have := slot_le (t := ty) (p := p) hf.2.2
          omega
        unfold objectTarget at h1
        split at h1
        · rename_i h z fl fs bs a' he
          cases he
          split at h1
          · exact (ih.2.2 _ _ h1 a).none
          · exact close h1
        · exact close h1
      · exact array_in ih.1 hf h
      · obtain ⟨r, h1, h⟩ := Out.bind_eq_ok.1 h
        cases h
        rw [← expect_mem h1]
        exact loadInteger_in hf
      · obtain ⟨r, h1, h⟩ := Out.bind_eq_ok.1 h
        cases h
        rw [← expect_mem h1]
        exact loadInteger_in hf
      · obtain ⟨r, h1, h⟩ := Out.bind_eq_ok.1 h
        cases h
        rw [← expect_mem h1]
        exact loadInteger_in hf
      · cases h; exact .refl _ _ _
    · intro s p arr s' h a
      rw [parseValue] at h
      split at h
      · obtain ⟨r, h1, h⟩ := Out.bind_eq_ok.1 h
        cases h
        rw [← expect_mem h1]
        show OnlyIn a 0 r.2.m (loadString r.2.m r.1 none)
        rw [(loadNone (e := e) (v := 0) (p := p)).1]
        exact .refl _ _ _
      · obtain ⟨r, h1, h⟩ := Out.bind_eq_ok.1 h
        cases h
        rw [← expect_mem h1]
        have : ∀ v, loadInteger e r.2.m r.1 v none p = r.2.m := fun v => loadNone.2.1
        dsimp only
        rw [this]
        exact .refl _ _ _
      · obtain ⟨r, h1, h⟩ := Out.bind_eq_ok.1 h
        obtain ⟨m, h2, h⟩ := Out.bind_eq_ok.1 h
        cases h
        rw [(loadNone (e := e) (v := 0) (p := p)).2.2] at h2
        cases h2
        rw [← expect_mem h1]
        exact .refl _ _ _
      · obtain ⟨s1, h1, h⟩ := Out.bind_eq_ok.1 h
        obtain ⟨r, h2, h⟩ := Out.bind_eq_ok.1 h
        cases h
        rw [expect_mem h2]
        exact ih.2.2 _ _ h1 a
      · exact array_none ih.1 h a
      · obtain ⟨r, h1, h⟩ := Out.bind_eq_ok.1 h
        cases h
        rw [← expect_mem h1]
        have : ∀ v, loadInteger e r.2.m r.1 v none p = r.2.m := fun v => loadNone.2.1
        dsimp only
        rw [this]
        exact .refl _ _ _
      · obtain ⟨r, h1, h⟩ := Out.bind_eq_ok.1 h
        cases h
        rw [← expect_mem h1]
        have : ∀ v, loadInteger e r.2.m r.1 v none p = r.2.m := fun v => loadNone.2.1
        dsimp only
        rw [this]
        exact .refl _ _ _
      · obtain ⟨r, h1, h⟩ := Out.bind_eq_ok.1 h
        cases h
        rw [← expect_mem h1]
        have : ∀ v, loadInteger e r.2.m r.1 v none p = r.2.m := fun v => loadNone.2.1
        dsimp only
        rw [this]
        exact .refl _ _ _
      · cases h; exact .refl _ _ _
    · intro s ty a s' hr h
      rw [parseObject.eq_def] at h
      dsimp only at h
      obtain ⟨r, h1, h⟩ := Out.bind_eq_ok.1 h
      rw [← expect_mem h1]
      split at h
      · cases h; exact .refl _ _ _
      · split at h
        · cases h; exact .refl _ _ _
        · split at h
          · rename_i hc
            unfold parseDict at h
            split at h
            · cases hr with
              | dict _ z kt vt p hn hs hk ht hp =>
                refine (setElems_inside (a := a) r.2.m [] (Nat.le_refl _) (Nat.lt_add_of_pos_right hs)).trans ?_
                exact dict_in ih.1 ih.2 hk ht hp (Nat.le_refl _) (Nat.lt_add_of_pos_right hs) _ _ _ h
            · split at h
              · cases h
              · cases h
                have : 0 < objBytes ty := by
                  cases hr with
                  | vec _ _ _ _ _ hs _ _ => exact hs
                  | dict _ _ _ _ _ _ hs _ _ _ => exact hs
                  | _ => simp [Ty.isContainer] at hc
                exact setElems_inside _ _ (Nat.le_refl _) (by omega)
          · exact members_in (fun _ _ hx => pair_in ih.1 hr hx) _ _ _ h
    · intro s s' h a
      rw [parseObject.eq_def] at h
      dsimp only at h
      obtain ⟨r, h1, h⟩ := Out.bind_eq_ok.1 h
      rw [← expect_mem h1]
      split at h
      · cases h; exact .refl _ _ _
      · split at h
        · cases h; exact .refl _ _ _
        · exact members_in (fun _ _ hx => pair_none ih.1 hx a) _ _ _ h

end Clr.JSON
