import Verif.Model.Call

/-!
C79: calling a reflected function hands over its arguments.
-/
namespace Clr.Call

/-! ### Specification -/

/-- The bytes of an argument that the called function uses: the object, the pointer that is passed, or the address of what is
referred to. -/
def argSize (p : Desc) : Nat := if p.op = .value then p.size.toNat else 4

/-- The room of an argument on the stack: in words of four bytes. -/
def slotSize (p : Desc) : Nat := (argSize p + 3) / 4 * 4

/-- Where the called function expects argument number `i`: behind the room of those before it. -/
def slotOffset (ps : List Desc) (i : Nat) : Nat := ((ps.take i).map slotSize).sum

/-- The argument's bytes. -/
def argBytes (m : Mem) (p : Desc) : Res Bytes :=
  if p.op = .reference then .ok (le32 p.object) else read m p.object (argSize p)

/-- Bytes that can be read. -/
def Readable (m : Mem) (a : BitVec 32) (n : Nat) : Prop := ∀ i, i < n → (m (a + BitVec.ofNat 32 i)).isSome

/-- The arguments can be read, up to a whole number of words. -/
def ArgsReadable (m : Mem) (ps : List Desc) : Prop := ∀ p ∈ ps, p.op ≠ .reference → Readable m p.object (slotSize p)

/-- `args` holds the arguments, each where it is expected. -/
def Holds (m : Mem) (ps : List Desc) (args : Bytes) : Prop :=
  args.length = (ps.map slotSize).sum ∧
  ∀ i (h : i < ps.length), argBytes m ps[i] = .ok ((args.drop (slotOffset ps i)).take (argSize ps[i]))

/-! ### Lemmas -/

theorem read_ok {m : Mem} : ∀ (n : Nat) (a : BitVec 32), Readable m a n → ∃ b, read m a n = .ok b := by
  intro n
  induction n with
  | zero => intro a _; exact ⟨[], rfl⟩
  | succ n ih =>
    intro a h
    have h0 := h 0 (by omega)
    rw [show a + BitVec.ofNat 32 0 = a by simp] at h0
    obtain ⟨x, hx⟩ := Option.isSome_iff_exists.mp h0
    obtain ⟨b, hb⟩ := ih (a + 1) (fun i hi => by
      have := h (i + 1) (by omega)
      rwa [show a + 1 + BitVec.ofNat 32 i = a + BitVec.ofNat 32 (i + 1) by
        rw [BitVec.add_assoc]; congr 1; apply BitVec.eq_of_toNat_eq; simp; omega])
    exact ⟨x :: b, by rw [read, hx]; simp only [hb, Res.map]⟩

theorem read_length {m : Mem} : ∀ (n : Nat) (a : BitVec 32) (b : Bytes), read m a n = .ok b → b.length = n := by
  intro n
  induction n with
  | zero => intro a b h; simp only [read, Res.ok.injEq] at h; rw [← h]; rfl
  | succ n ih =>
    intro a b h
    rw [read] at h
    cases hx : m a with
    | none => rw [hx] at h; simp at h
    | some x =>
      rw [hx] at h
      cases hr : read m (a + 1) n with
      | ok c =>
        rw [hr] at h
        simp only [Res.map, Res.ok.injEq] at h
        rw [← h, List.length_cons, ih _ _ hr]
      | trap => rw [hr] at h; simp at h
      | ub => rw [hr] at h; simp at h

theorem read_take {m : Mem} : ∀ (n k : Nat) (a : BitVec 32) (b : Bytes), read m a n = .ok b → k ≤ n → read m a k = .ok (b.take k) := by
  intro n
  induction n with
  | zero =>
    intro k a b h hk
    obtain rfl : k = 0 := by omega
    simp [read]
  | succ n ih =>
    intro k a b h hk
    cases k with
    | zero => simp [read]
    | succ k =>
      rw [read] at h ⊢
      cases hx : m a with
      | none => rw [hx] at h; simp at h
      | some x =>
        rw [hx] at h
        cases hr : read m (a + 1) n with
        | ok c =>
          rw [hr] at h
          simp only [Res.map, Res.ok.injEq] at h
          subst h
          simp only [ih k _ _ hr (by omega), Res.map, List.take_succ_cons]
        | trap => rw [hr] at h; simp at h
        | ub => rw [hr] at h; simp at h

theorem and_mask (x : Nat) (hx : x < 2 ^ 32) : x &&& 0xFFFFFFFC = x / 4 * 4 := by
  apply Nat.eq_of_testBit_eq
  intro i
  rw [show (0xFFFFFFFC : Nat) = (2 ^ 30 - 1) <<< 2 from rfl, Nat.testBit_and, Nat.testBit_shiftLeft, Nat.testBit_two_pow_sub_one]
  rw [show x / 4 * 4 = (x / 2 ^ 2) <<< 2 by rw [Nat.shiftLeft_eq], Nat.testBit_shiftLeft, Nat.testBit_div_two_pow]
  by_cases h2 : 2 ≤ i
  · have e : i - 2 + 2 = i := by omega
    rw [e]
    by_cases h3 : i < 32
    · simp [h2, show i - 2 < 30 by omega]
    · have : x.testBit i = false := Nat.testBit_lt_two_pow (Nat.lt_of_lt_of_le hx (Nat.pow_le_pow_right (by omega) (by omega)))
      simp [this]
  · simp [h2]

theorem roundUp_toNat (s : BitVec 32) (h : s.toNat + 3 < 2 ^ 32) : (roundUp s).toNat = (s.toNat + 3) / 4 * 4 := by
  unfold roundUp
  rw [BitVec.toNat_and, BitVec.toNat_add]
  simp only [BitVec.ofNat_eq_ofNat, BitVec.toNat_ofNat]
  rw [Nat.mod_eq_of_lt (a := 3) (by omega), Nat.mod_eq_of_lt (a := s.toNat + 3) h, Nat.mod_eq_of_lt (by omega)]
  exact and_mask _ h

theorem pushed_ok {m : Mem} {p : Desc} (hs : p.size.toNat + 3 < 2 ^ 32) (hr : p.op ≠ .reference → Readable m p.object (slotSize p)) :
    ∃ b, pushed m p = .ok b ∧ b.length = slotSize p ∧ argBytes m p = .ok (b.take (argSize p)) := by
  unfold pushed argBytes
  cases hop : p.op with
  | value =>
    have ha : argSize p = p.size.toNat := by simp [argSize, hop]
    obtain ⟨b, hb⟩ := read_ok _ _ (hr (by simp [hop]))
    have hl := read_length _ _ _ hb
    have hn : (roundUp p.size >>> 2).toNat * 4 = slotSize p := by
      rw [BitVec.toNat_ushiftRight, roundUp_toNat _ hs, Nat.shiftRight_eq_div_pow, slotSize, ha]
      omega
    refine ⟨b, ?_, hl, ?_⟩
    · simp only []
      rw [hn]
      exact hb
    · rw [if_neg (by simp)]
      exact read_take _ _ _ _ hb (by unfold slotSize; omega)
  | pointer =>
    have ha : argSize p = 4 := by simp [argSize, hop]
    have hsl : slotSize p = 4 := by simp [slotSize, ha]
    obtain ⟨b, hb⟩ := read_ok _ _ (hr (by simp [hop]))
    have hl := read_length _ _ _ hb
    rw [hsl] at hb
    refine ⟨b, hb, hl, ?_⟩
    rw [if_neg (by simp)]
    exact read_take _ _ _ _ hb (by omega)
  | reference =>
    have ha : argSize p = 4 := by simp [argSize, hop]
    have hsl : slotSize p = 4 := by simp [slotSize, ha]
    refine ⟨_, rfl, by rw [hsl]; rfl, ?_⟩
    rw [if_pos rfl, ha]
    rfl

/-- What pushing the parameters leaves on the stack. -/
def Pushed (m : Mem) (ps : List Desc) (bs : List Bytes) : Prop :=
  bs.length = ps.length ∧ ∀ i (h : i < ps.length), (bs.getD i []).length = slotSize ps[i] ∧
    argBytes m ps[i] = .ok ((bs.getD i []).take (argSize ps[i]))

theorem pushed_all {m : Mem} : ∀ (ps : List Desc), (∀ p ∈ ps, p.size.toNat + 3 < 2 ^ 32) → ArgsReadable m ps →
    ∃ bs, Pushed m ps bs ∧ ∀ i (h : i < ps.length), pushed m ps[i] = .ok (bs.getD i []) := by
  intro ps
  induction ps with
  | nil => intro _ _; exact ⟨[], ⟨rfl, fun i h => absurd h (by simp)⟩, fun i h => absurd h (by simp)⟩
  | cons p ps ih =>
    intro h1 h2
    obtain ⟨b, e1, e2, e3⟩ := pushed_ok (h1 p (by simp)) (h2 p (by simp))
    obtain ⟨bs, f1, f2⟩ := ih (fun q hq => h1 q (by simp [hq])) (fun q hq => h2 q (by simp [hq]))
    refine ⟨b :: bs, ⟨by simp [f1.1], fun i h => ?_⟩, fun i h => ?_⟩
    · cases i with
      | zero => exact ⟨e2, e3⟩
      | succ i => exact f1.2 i (by simpa using h)
    · cases i with
      | zero => exact e1
      | succ i => exact f2 i (by simpa using h)

theorem pushLoop_ok {m : Mem} {ps : List Desc} (hfew : ps.length < 16) (hs : ∀ p ∈ ps, p.size.toNat + 3 < 2 ^ 32) {bs : List Bytes}
    (hb : Pushed m ps bs) (hp : ∀ i (h : i < ps.length), pushed m ps[i] = .ok (bs.getD i [])) (last : Nat) :
    ∀ (k : Nat) (s : Stack), last + k ≤ ps.length →
      ∃ n, pushLoop m ps last k s = .ok ⟨((bs.drop last).take k).flatten ++ s.bytes, s.size + BitVec.ofNat 32 n⟩ ∧
        n = (((bs.drop last).take k).flatten).length := by
  intro k
  induction k with
  | zero => intro s _; exact ⟨0, by simp [pushLoop], by simp⟩
  | succ k ih =>
    intro s hk
    have hlt : last + k < ps.length := by omega
    have hpk := hp (last + k) hlt
    have hmem : ps[last + k] ∈ ps := List.getElem_mem hlt
    have hlen := (hb.2 (last + k) hlt).1
    have hlb : last + k < bs.length := by rw [hb.1]; exact hlt
    have hsz : pushSize ps[last + k] = BitVec.ofNat 32 (bs.getD (last + k) []).length := by
      rw [hlen, pushSize]
      apply BitVec.eq_of_toNat_eq
      cases hop : ps[last + k].op with
      | value =>
        simp only [if_true]
        have := hs _ hmem
        rw [roundUp_toNat _ this, slotSize, argSize, if_pos hop, BitVec.toNat_ofNat, Nat.mod_eq_of_lt]
        omega
      | pointer => simp [slotSize, argSize, hop]
      | reference => simp [slotSize, argSize, hop]
    obtain ⟨n, h1, h2⟩ := ih ⟨bs.getD (last + k) [] ++ s.bytes, s.size + BitVec.ofNat 32 (bs.getD (last + k) []).length⟩ (by omega)
    have htake : (bs.drop last).take (k + 1) = (bs.drop last).take k ++ [bs.getD (last + k) []] := by
      rw [List.take_succ_eq_append_getElem (by rw [List.length_drop]; omega)]
      simp [List.getElem_drop, hlb]
    refine ⟨n + (bs.getD (last + k) []).length, ?_, ?_⟩
    · rw [pushLoop, getParameter, if_pos hfew, List.getElem?_eq_getElem hlt]
      simp only [Res.bind_ok, push, hpk, hsz]
      rw [h1, htake]
      simp only [List.flatten_append, List.flatten_cons, List.flatten_nil, List.append_nil, List.append_assoc, Res.ok.injEq, Stack.mk.injEq,
        true_and]
      rw [BitVec.add_assoc, ← BitVec.ofNat_add, Nat.add_comm]
    · rw [htake, h2]
      simp

theorem Pushed.drop {m : Mem} {ps : List Desc} {bs : List Bytes} (h : Pushed m ps bs) (n : Nat) : Pushed m (ps.drop n) (bs.drop n) := by
  refine ⟨by simp [h.1], fun i hi => ?_⟩
  have hi' : n + i < ps.length := by simp at hi; omega
  have := h.2 (n + i) hi'
  simp only [List.getElem_drop]
  rw [show (bs.drop n).getD i [] = bs.getD (n + i) [] by simp [List.getD_eq_getElem?_getD]]
  exact this

theorem Pushed.sum {m : Mem} : ∀ {ps : List Desc} {bs : List Bytes}, Pushed m ps bs → bs.flatten.length = (ps.map slotSize).sum := by
  intro ps
  induction ps with
  | nil => intro bs h; rw [List.length_eq_zero_iff.mp h.1]; rfl
  | cons p ps ih =>
    intro bs h
    match bs, h with
    | b :: bs, h =>
      have h0 := (h.2 0 (by simp)).1
      have := ih (h.drop 1)
      simp only [List.drop_one, List.tail_cons] at this
      simp only [List.flatten_cons, List.length_append, List.map_cons, List.sum_cons, this]
      simp at h0
      rw [h0]

theorem Pushed.holds {m : Mem} : ∀ {ps : List Desc} {bs : List Bytes}, Pushed m ps bs → Holds m ps bs.flatten := by
  intro ps
  induction ps with
  | nil => intro bs h; exact ⟨h.sum, fun i hi => absurd hi (by simp)⟩
  | cons p ps ih =>
    intro bs h
    refine ⟨h.sum, fun i hi => ?_⟩
    match bs, h with
    | b :: bs, h =>
      have h0 := h.2 0 (by simp)
      simp only [List.getElem_cons_zero, List.getD_cons_zero] at h0
      have hle : argSize p ≤ slotSize p := by unfold slotSize; omega
      cases i with
      | zero =>
        simp only [List.getElem_cons_zero, slotOffset, List.take_zero, List.map_nil, List.sum_nil, List.drop_zero, List.flatten_cons]
        rw [List.take_append_of_le_length (by omega)]
        exact h0.2
      | succ i =>
        have hd := h.drop 1
        simp only [List.drop_one, List.tail_cons] at hd
        have := (ih hd).2 i (by simpa using hi)
        simp only [List.getElem_cons_succ]
        rw [this]
        congr 2
        simp only [slotOffset, List.take_succ_cons, List.map_cons, List.sum_cons, List.flatten_cons]
        rw [← h0.1, List.drop_append]
        simp

/-! ### C79 -/

/-- **C79**, calls without `this`: with as many parameters as the function has, the function is called once, each argument's
bytes lie where it expects them, the result is true, and the stack is as before.

It is assumed, and not checked by the code, that the function has an address, and that whole words can be read of each
argument. -/
theorem C79_cdecl_partial (m : Mem) (address : BitVec 32) (ps : List Desc) (ha : address ≠ 0) (hfew : ps.length < 16)
    (hs : ∀ p ∈ ps, p.size.toNat + 3 < 2 ^ 32) (hsum : (ps.map slotSize).sum < 2 ^ 32) (hr : ArgsReadable m ps) :
    ∃ args, callCdecl m address ps.length ps = .ok ⟨true, some ⟨address, none, args⟩, 0⟩ ∧ Holds m ps args := by
  obtain ⟨bs, hb, hp⟩ := pushed_all ps hs hr
  obtain ⟨n, h1, h2⟩ := pushLoop_ok hfew hs hb hp 0 ps.length ⟨[], 0⟩ (by omega)
  refine ⟨bs.flatten, ?_, hb.holds⟩
  rw [List.drop_zero, List.take_of_length_le (by rw [hb.1]; exact Nat.le_refl _), List.append_nil] at h1
  rw [List.drop_zero, List.take_of_length_le (by rw [hb.1]; exact Nat.le_refl _), hb.sum] at h2
  unfold callCdecl callX86
  simp only [ne_eq, not_true_eq_false, if_false, Bool.false_eq_true, Nat.sub_zero]
  rw [h1]
  simp only [Res.bind_ok, if_neg ha]
  rw [hb.sum, h2]
  rw [show (0 : BitVec 32) + BitVec.ofNat 32 (ps.map slotSize).sum = BitVec.ofNat 32 (ps.map slotSize).sum by simp, BitVec.toNat_ofNat,
    Nat.mod_eq_of_lt hsum]
  simp

/-- **C79**, calls with `this`: the first parameter is the pointer `this`, the others are arguments; if it is not null the
function is called once with it and them. -/
theorem C79_thiscall_partial (m : Mem) (address : BitVec 32) (p : Desc) (ps : List Desc) (ha : address ≠ 0) (hfew : ps.length < 15)
    (hs : ∀ p ∈ ps, p.size.toNat + 3 < 2 ^ 32) (hr : ArgsReadable m ps) (hp : p.op = .pointer)
    (b : Bytes) (hb : argBytes m p = .ok b) (hthis : unle32 b ≠ 0) :
    ∃ args, callThis m address (ps.length + 1) (p :: ps) = .ok ⟨true, some ⟨address, some (unle32 b), args⟩, 0⟩ ∧ Holds m ps args := by
  obtain ⟨bs, hbs, hps⟩ := pushed_all ps hs hr
  have hread : read m p.object 4 = .ok b := by
    simpa [argBytes, hp, argSize] using hb
  -- the loop over the parameters behind the first
  have loop : ∀ (k : Nat) (s : Stack), k ≤ ps.length →
      ∃ z, pushLoop m (p :: ps) 1 k s = .ok ⟨(bs.take k).flatten ++ s.bytes, z⟩ := by
    intro k
    induction k with
    | zero => intro s _; exact ⟨s.size, by simp [pushLoop]⟩
    | succ k ih =>
      intro s hk
      have hlt : k < ps.length := by omega
      have hlb : k < bs.length := by rw [hbs.1]; exact hlt
      obtain ⟨z, hz⟩ := ih ⟨bs.getD k [] ++ s.bytes, s.size + pushSize ps[k]⟩ (by omega)
      refine ⟨z, ?_⟩
      rw [pushLoop, getParameter, if_pos (by simp; omega), Nat.add_comm 1 k, List.getElem?_cons_succ, List.getElem?_eq_getElem hlt]
      simp only [Res.bind_ok, push, hps k hlt]
      rw [hz, List.take_succ_eq_append_getElem hlb]
      simp only [List.getD_eq_getElem?_getD, List.getElem?_eq_getElem hlb, Option.getD_some, List.flatten_append, List.flatten_cons,
        List.flatten_nil, List.append_nil, List.append_assoc]
  obtain ⟨z, hz⟩ := loop ps.length ⟨[], 0⟩ (Nat.le_refl _)
  refine ⟨bs.flatten, ?_, hbs.holds⟩
  rw [List.take_of_length_le (by rw [hbs.1]; exact Nat.le_refl _), List.append_nil] at hz
  unfold callThis callX86
  simp only [List.length_cons, ne_eq, not_true_eq_false, if_false, if_true, Nat.add_sub_cancel]
  rw [hz]
  simp only [Res.bind_ok, getParameter, List.length_cons, if_pos (show ps.length + 1 < 16 by omega), List.getElem?_cons_zero, hread,
    if_neg hthis, if_neg ha]

/-- **C79**, counts: with another number of parameters than the function has, nothing is called and the result is false. -/
theorem C79_count_refused (m : Mem) (address : BitVec 32) (n : Nat) (ps : List Desc) (h : n ≠ ps.length) :
    callCdecl m address n ps = .ok ⟨false, none, 0⟩ ∧ callThis m address n ps = .ok ⟨false, none, 0⟩ := by
  simp [callCdecl, callThis, h]

/-- **C79**, the templates with one to three arguments: exactly functions with an address and that many parameters are called;
everything else fails an assertion. -/
theorem C79_templates (f : Function) (n : Nat) (hn : n ≠ 0) :
    callFunction f n = if f.nbParams = n ∧ f.address ≠ 0 then .ok f.address else .trap := by
  unfold callFunction
  rw [if_neg hn]
  by_cases h1 : f.nbParams = n <;> by_cases h2 : f.address = 0 <;> simp [h1, h2]

/-! ### Where it fails -/

/-- C79 is false of the template without arguments: a function that has parameters is called without any. -/
theorem C79_no_arguments_unchecked_false (f : Function) (h : f.address ≠ 0) : callFunction f 0 = .ok f.address := by
  simp [callFunction, h]

/-- C79 is false of objects that do not fill words: up to three bytes behind the object are read, which is undefined if there is
no object there. -/
theorem C79_reads_behind_object_undefined (m : Mem) (address : BitVec 32) (p : Desc) (hop : p.op = .value)
    (hs : p.size.toNat + 3 < 2 ^ 32) (hodd : p.size.toNat % 4 ≠ 0) (hend : m (p.object + p.size) = none) :
    callCdecl m address 1 [p] = .ub := by
  have key : ∀ (n k : Nat) (a : BitVec 32), k < n → m (a + BitVec.ofNat 32 k) = none → read m a n = .ub := by
    intro n
    induction n with
    | zero => intro k a h; omega
    | succ n ih =>
      intro k a hk hm
      rw [read]
      cases hx : m a with
      | none => rfl
      | some x =>
        cases k with
        | zero => simp at hm; rw [hm] at hx; cases hx
        | succ k =>
          rw [ih k (a + 1) (by omega)]
          · rfl
          · rwa [show a + 1 + BitVec.ofNat 32 k = a + BitVec.ofNat 32 (k + 1) by
              rw [BitVec.add_assoc]; congr 1; apply BitVec.eq_of_toNat_eq; simp; omega]
  have hp : pushed m p = .ub := by
    unfold pushed
    rw [hop]
    simp only
    refine key _ p.size.toNat _ ?_ (by simpa using hend)
    rw [BitVec.toNat_ushiftRight, roundUp_toNat _ hs, Nat.shiftRight_eq_div_pow]
    omega
  unfold callCdecl callX86
  simp only [List.length_singleton, ne_eq, not_true_eq_false, if_false, Bool.false_eq_true, Nat.sub_zero]
  rw [pushLoop, getParameter]
  simp [push, hp]

/-- C79 is false of functions without an address: they are called. -/
theorem C79_no_address_undefined (m : Mem) : callCdecl m 0 0 [] = .ub := rfl

/-- C79 is false of calls with a null `this`: the function is not called, but the arguments stay on the stack. -/
theorem C79_null_this_leaves_stack_false (m : Mem) (address : BitVec 32) (p q : Desc) (hq : q.op = .reference)
    (b : Bytes) (hb : read m p.object 4 = .ok b) (hthis : unle32 b = 0) :
    callThis m address 2 [p, q] = .ok ⟨true, none, 4⟩ := by
  unfold callThis callX86
  simp [pushLoop, getParameter, push, pushed, hq, hb, hthis, le32]

/-- C79 is false of sixteen parameters, which a cache can hold: an assertion fails. -/
theorem C79_sixteen_asserts (m : Mem) (address : BitVec 32) (ps : List Desc) (h : ps.length = 16) : callCdecl m address 16 ps = .trap := by
  unfold callCdecl callX86
  simp only [h, ne_eq, not_true_eq_false, if_false, Bool.false_eq_true, Nat.sub_zero]
  rw [pushLoop, getParameter, if_neg (by omega)]
  rfl

/-! ### Examples -/

/-- A structure of six bytes at 100, a pointer at 200. -/
def demoMem : Mem := fun a =>
  if 100 ≤ a.toNat ∧ a.toNat < 112 then some (UInt8.ofNat a.toNat) else if 200 ≤ a.toNat ∧ a.toNat < 204 then some 1 else none

def demoParams : List Desc := [⟨6, .value, 100⟩, ⟨4, .pointer, 200⟩, ⟨1, .reference, 300⟩]

/-- The hypotheses of `C79_cdecl_partial` are met, and this is what the function gets. -/
example : ∃ args, callCdecl demoMem 4096 3 demoParams = .ok ⟨true, some ⟨4096, none, args⟩, 0⟩ ∧ Holds demoMem demoParams args := by
  refine C79_cdecl_partial demoMem 4096 demoParams (by decide) (by decide) (by decide) (by decide +kernel) ?_
  intro p hp hop i hi
  simp only [demoParams, List.mem_cons, List.not_mem_nil, or_false] at hp
  rcases hp with rfl | rfl | rfl
  · have : i < 8 := hi
    match i, this with
    | 0, _ => decide
    | 1, _ => decide
    | 2, _ => decide
    | 3, _ => decide
    | 4, _ => decide
    | 5, _ => decide
    | 6, _ => decide
    | 7, _ => decide
  · have : i < 4 := hi
    match i, this with
    | 0, _ => decide
    | 1, _ => decide
    | 2, _ => decide
    | 3, _ => decide
  · exact absurd rfl hop

example : callCdecl demoMem 4096 3 demoParams =
    .ok ⟨true, some ⟨4096, none, [100, 101, 102, 103, 104, 105, 106, 107, 1, 1, 1, 1, 44, 1, 0, 0]⟩, 0⟩ := by decide +kernel

/-- A call with `this`. -/
example : callThis demoMem 4096 2 [⟨4, .pointer, 200⟩, ⟨2, .value, 104⟩] =
    .ok ⟨true, some ⟨4096, some 0x01010101, [104, 105, 106, 107]⟩, 0⟩ := by decide +kernel

end Clr.Call
