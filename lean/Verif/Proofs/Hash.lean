import Verif.Model.Hash
/- Helper lemmas for the hash properties. -/
namespace Clr.Hash

theorem eq_zero_of_eq_shift (z : BitVec 32) (k : Nat) (hk : 0 < k) (h : z = z >>> k) : z = 0#32 := by
  have h2 : z.toNat = z.toNat / 2 ^ k := by
    have := congrArg BitVec.toNat h
    simpa [BitVec.toNat_ushiftRight, Nat.shiftRight_eq_div_pow] using this
  by_cases hz : z.toNat = 0
  · exact BitVec.eq_of_toNat_eq (by simpa using hz)
  · have : z.toNat / 2 ^ k < z.toNat := Nat.div_lt_self (by omega) (Nat.one_lt_two_pow (by omega))
    omega

theorem xor_eq_zero {x y : BitVec 32} (h : x ^^^ y = 0#32) : x = y := by
  have : (x ^^^ y) ^^^ y = 0#32 ^^^ y := by rw [h]
  simpa [BitVec.xor_assoc] using this

theorem xorshift_inj (k : Nat) (hk : 0 < k) {x y : BitVec 32}
    (h : x ^^^ (x >>> k) = y ^^^ (y >>> k)) : x = y := by
  apply xor_eq_zero
  apply eq_zero_of_eq_shift _ k hk
  rw [BitVec.ushiftRight_xor_distrib]
  have h1 : (x ^^^ (x >>> k)) ^^^ (y ^^^ (y >>> k)) = 0#32 := by rw [h]; simp
  apply xor_eq_zero
  rw [← h1]
  ac_rfl

theorem mul_inj (c ci : BitVec 32) (hc : c * ci = 1#32) {x y : BitVec 32} (h : x * c = y * c) :
    x = y := by
  have : x * c * ci = y * c * ci := by rw [h]
  simpa [BitVec.mul_assoc, hc] using this

theorem xor_left_inj' {x y z : BitVec 32} (h : x ^^^ z = y ^^^ z) : x = y := by
  have : (x ^^^ z) ^^^ z = (y ^^^ z) ^^^ z := by rw [h]
  simpa [BitVec.xor_assoc] using this

theorem xor_right_inj' {x y z : BitVec 32} (h : z ^^^ x = z ^^^ y) : x = y := by
  rw [BitVec.xor_comm z x, BitVec.xor_comm z y] at h
  exact xor_left_inj' h

theorem add_right_inj' {x y z : BitVec 32} (h : x + z = y + z) : x = y := by
  have : x + z - z = y + z - z := by rw [h]
  simpa [BitVec.add_sub_cancel] using this

theorem rotl_inj (b : Nat) (h0 : 0 < b) (h32 : b < 32) {x y : BitVec 32}
    (h : rotl x b = rotl y b) : x = y := by
  have key : ∀ (v : BitVec 32) (i : Nat), i < 32 →
      v.getLsbD i = (rotl v b).getLsbD (if i < 32 - b then i + b else i - (32 - b)) := by
    intro v i hi
    unfold rotl
    by_cases h1 : i < 32 - b
    · have e : v.getLsbD (32 - b + (i + b)) = false := BitVec.getLsbD_of_ge v _ (by omega)
      have e2 : i + b < 32 := by omega
      have e6 : ¬ (i + b < b) := by omega
      simp [h1, e, e2, e6]
      rw [BitVec.getLsbD_eq_getElem]
    · have e3 : i - (32 - b) < b := by omega
      have e4 : i - (32 - b) < 32 := by omega
      have e5 : 32 - b + (i - (32 - b)) = i := by omega
      simp [h1, e3, e5]
  apply BitVec.eq_of_getLsbD_eq
  intro i hi
  rw [key x i hi, key y i hi, h]

theorem fmix_inj {x y : BitVec 32} (h : fmix x = fmix y) : x = y := by
  unfold fmix at h
  have h := xorshift_inj 16 (by omega) h
  have h := mul_inj 0xc2b2ae35#32 0x7ed1b41d#32 (by decide) h
  have h := xorshift_inj 13 (by omega) h
  have h := mul_inj 0x85ebca6b#32 0xa5cb9243#32 (by decide) h
  exact xorshift_inj 16 (by omega) h

theorem scramble_inj {x y : BitVec 32} (h : scramble x = scramble y) : x = y := by
  unfold scramble at h
  have h := mul_inj 0x1b873593#32 0x56ed309b#32 (by decide) h
  have h := rotl_inj 15 (by omega) (by omega) h
  exact mul_inj 0xcc9e2d51#32 0xdee13bb1#32 (by decide) h

theorem round_inj_h {h h' k : BitVec 32} (e : round h k = round h' k) : h = h' := by
  unfold round at e
  have e := add_right_inj' e
  have e := mul_inj 5#32 0xcccccccd#32 (by decide) e
  have e := rotl_inj 13 (by omega) (by omega) e
  exact xor_left_inj' e

theorem round_inj_k {h k k' : BitVec 32} (e : round h k = round h k') : k = k' := by
  unfold round at e
  have e := add_right_inj' e
  have e := mul_inj 5#32 0xcccccccd#32 (by decide) e
  have e := rotl_inj 13 (by omega) (by omega) e
  exact scramble_inj (xor_right_inj' e)

theorem xorshift16_surj (y : BitVec 32) :
    (y ^^^ (y >>> 16)) ^^^ ((y ^^^ (y >>> 16)) >>> 16) = y := by
  rw [BitVec.ushiftRight_xor_distrib, ← BitVec.shiftRight_add]
  have : y >>> (16 + 16) = 0#32 := by
    apply BitVec.eq_of_toNat_eq
    have := y.isLt
    simp [BitVec.toNat_ushiftRight, Nat.shiftRight_eq_div_pow]
    omega
  rw [this]
  calc y ^^^ y >>> 16 ^^^ (y >>> 16 ^^^ 0#32) = y ^^^ (y >>> 16 ^^^ y >>> 16) ^^^ 0#32 := by ac_rfl
    _ = y := by simp

theorem xorshift13_surj (y : BitVec 32) :
    (y ^^^ (y >>> 13) ^^^ (y >>> 26)) ^^^ ((y ^^^ (y >>> 13) ^^^ (y >>> 26)) >>> 13) = y := by
  simp only [BitVec.ushiftRight_xor_distrib, ← BitVec.shiftRight_add]
  have : y >>> (26 + 13) = 0#32 := by
    apply BitVec.eq_of_toNat_eq
    have := y.isLt
    simp [BitVec.toNat_ushiftRight, Nat.shiftRight_eq_div_pow]
    omega
  rw [this]
  show y ^^^ y >>> 13 ^^^ y >>> 26 ^^^ (y >>> 13 ^^^ y >>> 26 ^^^ 0#32) = y
  calc y ^^^ y >>> 13 ^^^ y >>> 26 ^^^ (y >>> 13 ^^^ y >>> 26 ^^^ 0#32)
      = y ^^^ (y >>> 13 ^^^ y >>> 13) ^^^ (y >>> 26 ^^^ y >>> 26) ^^^ 0#32 := by ac_rfl
    _ = y := by simp

theorem mul_surj (c ci : BitVec 32) (hc : ci * c = 1#32) (y : BitVec 32) : (y * ci) * c = y := by
  simp [BitVec.mul_assoc, hc]

theorem fmix_surj (y : BitVec 32) : ∃ x, fmix x = y := by
  let a := y ^^^ (y >>> 16)
  let b := a * 0x7ed1b41d#32
  let c := b ^^^ (b >>> 13) ^^^ (b >>> 26)
  let d := c * 0xa5cb9243#32
  refine ⟨d ^^^ (d >>> 16), ?_⟩
  unfold fmix
  simp only [xorshift16_surj d]
  rw [show d * 0x85ebca6b#32 = c from mul_surj _ _ (by decide) c]
  rw [show c ^^^ c >>> 13 = b from xorshift13_surj b]
  rw [show b * 0xc2b2ae35#32 = a from mul_surj _ _ (by decide) a]
  exact xorshift16_surj y

theorem word_toNat (a b c d : UInt8) :
    (word a b c d).toNat = d.toNat * 2^24 + c.toNat * 2^16 + b.toNat * 2^8 + a.toNat := by
  unfold word
  have ha := a.toBitVec.isLt
  have hb := b.toBitVec.isLt
  have hc := c.toBitVec.isLt
  simp only [BitVec.toNat_append, UInt8.toNat_toBitVec, Nat.shiftLeft_eq] at *
  rw [← Nat.shiftLeft_eq, ← Nat.shiftLeft_add_eq_or_of_lt (by simpa using ha),
      ← Nat.shiftLeft_eq, ← Nat.shiftLeft_add_eq_or_of_lt (by simpa using hb),
      ← Nat.shiftLeft_eq, ← Nat.shiftLeft_add_eq_or_of_lt (by simpa using hc)]
  simp only [Nat.shiftLeft_eq]
  omega

theorem u8lt (a : UInt8) : a.toNat < 256 := a.toBitVec.isLt

theorem word_inj {a b c d a' b' c' d' : UInt8} (h : word a b c d = word a' b' c' d') :
    a = a' ∧ b = b' ∧ c = c' ∧ d = d' := by
  have h := congrArg BitVec.toNat h
  simp only [word_toNat] at h
  have := u8lt a; have := u8lt b; have := u8lt c; have := u8lt d
  have := u8lt a'; have := u8lt b'; have := u8lt c'; have := u8lt d'
  refine ⟨UInt8.toNat_inj.mp ?_, UInt8.toNat_inj.mp ?_, UInt8.toNat_inj.mp ?_,
    UInt8.toNat_inj.mp ?_⟩ <;> omega

theorem tail1 (a : UInt8) : a.toBitVec.setWidth 32 = word a 0 0 0 := by
  apply BitVec.eq_of_toNat_eq
  have := u8lt a
  rw [word_toNat]
  simp

theorem shl_xor (hi : BitVec 32) (lo : BitVec 32) (k : Nat) (hlo : lo.toNat < 2^k)
    (hhi : hi.toNat * 2^k < 2^32) : ((hi <<< k) ^^^ lo).toNat = hi.toNat * 2^k + lo.toNat := by
  have : (hi <<< k) &&& lo = 0#32 := by
    apply BitVec.eq_of_getLsbD_eq
    intro i hi'
    simp only [BitVec.getLsbD_and, BitVec.getLsbD_shiftLeft, BitVec.getLsbD_zero]
    by_cases h : i < k
    · simp [h]
    · have : lo.getLsbD i = false := by
        rw [BitVec.getLsbD]
        apply Nat.testBit_lt_two_pow
        exact Nat.lt_of_lt_of_le hlo (Nat.pow_le_pow_right (by omega) (by omega))
      simp [this]
  have hx : (hi <<< k) ^^^ lo = (hi <<< k) ||| lo := by
    apply BitVec.eq_of_getLsbD_eq
    intro i hi'
    have := congrArg (fun v => v.getLsbD i) this
    simp only [BitVec.getLsbD_and, BitVec.getLsbD_zero] at this
    simp only [BitVec.getLsbD_xor, BitVec.getLsbD_or]
    revert this
    cases (hi <<< k).getLsbD i <;> cases lo.getLsbD i <;> simp
  rw [hx, ← BitVec.add_eq_or_of_and_eq_zero _ _ this, BitVec.toNat_add, BitVec.toNat_shiftLeft, Nat.shiftLeft_eq,
    Nat.mod_eq_of_lt hhi]
  have hb : hi.toNat * 2^k + lo.toNat < 2^32 := by
    by_cases hk : k ≤ 32
    · have e : (2:Nat)^32 = 2^(32-k) * 2^k := by rw [← Nat.pow_add]; congr 1; omega
      have h1 : hi.toNat < 2^(32-k) := by
        rw [e] at hhi
        exact Nat.lt_of_mul_lt_mul_right hhi
      calc hi.toNat * 2^k + lo.toNat < hi.toNat * 2^k + 2^k := by omega
        _ = (hi.toNat + 1) * 2^k := by rw [Nat.add_mul]; omega
        _ ≤ 2^(32-k) * 2^k := Nat.mul_le_mul_right _ h1
        _ = 2^32 := e.symm
    · have : hi.toNat = 0 := by
        rcases Nat.eq_zero_or_pos hi.toNat with h | h
        · exact h
        · have : 2^32 ≤ 2^k := Nat.pow_le_pow_right (by omega) (by omega)
          have : 1 * 2^k ≤ hi.toNat * 2^k := Nat.mul_le_mul_right _ h
          omega
      have := lo.isLt
      rw [‹hi.toNat = 0›]; omega
  exact Nat.mod_eq_of_lt hb

theorem setWidth_toNat (a : UInt8) : (a.toBitVec.setWidth 32).toNat = a.toNat := by
  simp

theorem tail2 (a b : UInt8) :
    (b.toBitVec.setWidth 32 <<< 8) ^^^ a.toBitVec.setWidth 32 = word a b 0 0 := by
  apply BitVec.eq_of_toNat_eq
  have := u8lt a
  have := u8lt b
  rw [shl_xor _ _ _ (by rw [setWidth_toNat]; omega) (by rw [setWidth_toNat]; omega), word_toNat,
    setWidth_toNat, setWidth_toNat]
  simp

theorem tail3 (a b c : UInt8) :
    (c.toBitVec.setWidth 32 <<< 16) ^^^ (b.toBitVec.setWidth 32 <<< 8) ^^^ a.toBitVec.setWidth 32
      = word a b c 0 := by
  have := u8lt a
  have := u8lt b
  have := u8lt c
  rw [BitVec.xor_assoc, tail2]
  apply BitVec.eq_of_toNat_eq
  have e : (word a b 0 0).toNat = b.toNat * 2^8 + a.toNat := by rw [word_toNat]; simp
  rw [shl_xor _ _ _ (by rw [e]; omega) (by rw [setWidth_toNat]; omega), e, word_toNat,
    setWidth_toNat]
  simp
  omega

theorem tail_eq (h : BitVec 32) (t : Bytes) : tail h t =
    match t with
    | [a] => h ^^^ scramble (word a 0 0 0)
    | [a, b] => h ^^^ scramble (word a b 0 0)
    | [a, b, c] => h ^^^ scramble (word a b c 0)
    | _ => h := by
  unfold tail
  split
  · simp only [tail1]
  · rw [tail2]
  · rw [tail3]
  · simp_all


/-- Appending after whole blocks: the body first runs over the prefix. -/
theorem walk_append (f) (pre rest : Bytes) (h : BitVec 32) (hp : pre.length % 4 = 0) :
    walk f (pre ++ rest) h = walk f rest (walk f pre h).1 := by
  fun_induction walk f pre h with
  | case1 a b c d r h ih =>
    simp only [List.cons_append, walk]
    apply ih
    simp at hp; omega
  | case2 pre h hne =>
    have : pre = [] := by
      match pre with
      | [] => rfl
      | [_] => simp at hp
      | [_, _] => simp at hp
      | [_, _, _] => simp at hp
      | a :: b :: c :: d :: r => exact absurd rfl (hne a b c d r)
    subst this
    simp

theorem walk_snd (f) (s : Bytes) (h h' : BitVec 32) : (walk f s h).2 = (walk f s h').2 := by
  fun_induction walk f s h generalizing h' with
  | case1 a b c d r h ih => rw [walk]; exact ih _
  | case2 s h hne =>
    rw [walk]
    exact hne

theorem walk_snd_length (f) (s : Bytes) (h : BitVec 32) : (walk f s h).2.length < 4 := by
  fun_induction walk f s h with
  | case1 a b c d r h ih => exact ih
  | case2 s h hne =>
    match s with
    | [] => simp
    | [_] => simp
    | [_, _] => simp
    | [_, _, _] => simp
    | a :: b :: c :: d :: r => exact absurd rfl (hne a b c d r)

theorem walk_fst_inj (f) (hf : ∀ h h' a b c d, f h a b c d = f h' a b c d → h = h')
    (s : Bytes) (h h' : BitVec 32) (e : (walk f s h).1 = (walk f s h').1) : h = h' := by
  fun_induction walk f s h generalizing h' with
  | case1 a b c d r h ih =>
    rw [walk] at e
    exact hf _ _ _ _ _ _ (ih _ e)
  | case2 s h hne =>
    rw [walk] at e
    · exact e
    · exact hne

theorem body_append (pre rest : Bytes) (h : BitVec 32) (hp : pre.length % 4 = 0) :
    body (pre ++ rest) h = body rest (body pre h).1 := walk_append _ _ _ _ hp

theorem body_snd (s : Bytes) (h h' : BitVec 32) : (body s h).2 = (body s h').2 := walk_snd _ _ _ _

theorem body_snd_length (s : Bytes) (h : BitVec 32) : (body s h).2.length < 4 := walk_snd_length _ _ _

theorem body_fst_inj (s : Bytes) (h h' : BitVec 32) (e : (body s h).1 = (body s h').1) : h = h' :=
  walk_fst_inj (fun h a b c d => round h (word a b c d)) (fun _ _ _ _ _ _ e => round_inj_h e) s h h' e

theorem body_cons (a b c d : UInt8) (r : Bytes) (h : BitVec 32) :
    body (a :: b :: c :: d :: r) h = body r (round h (word a b c d)) := by
  exact walk.eq_1 _ _ _ _ _ _ _

theorem body_nil (h : BitVec 32) : body [] h = (h, []) := by
  unfold body; rw [walk]; simp

theorem tail_inj_h {h h' : BitVec 32} {t : Bytes} (e : tail h t = tail h' t) : h = h' := by
  rw [tail_eq, tail_eq] at e
  split at e
  · exact xor_left_inj' e
  · exact xor_left_inj' e
  · exact xor_left_inj' e
  · exact e

theorem tail_inj_t {h : BitVec 32} {t t' : Bytes} (hl : t.length = t'.length) (h4 : t.length < 4)
    (e : tail h t = tail h t') : t = t' := by
  rw [tail_eq, tail_eq] at e
  match t, t', hl, h4 with
  | [], [], _, _ => rfl
  | [a], [a'], _, _ =>
    have := word_inj (scramble_inj (xor_right_inj' e)); simp [this.1]
  | [a, b], [a', b'], _, _ =>
    have := word_inj (scramble_inj (xor_right_inj' e)); simp [this.1, this.2.1]
  | [a, b, c], [a', b', c'], _, _ =>
    have := word_inj (scramble_inj (xor_right_inj' e)); simp [this.1, this.2.1, this.2.2.1]

theorem four_of_length {l : Bytes} (h : l.length = 4) : ∃ a b c d, l = [a, b, c, d] := by
  match l, h with
  | [a, b, c, d], _ => exact ⟨a, b, c, d, rfl⟩

theorem murmur_eq (s : Bytes) (a : BitVec 32) : murmur s a =
    fmix (tail (body s a).1 (body s a).2 ^^^ BitVec.ofNat 32 s.length) := rfl

theorem murmur_inj_seed (s : Bytes) {a b : BitVec 32} (h : murmur s a = murmur s b) : a = b := by
  rw [murmur_eq, murmur_eq] at h
  have h := xor_left_inj' (fmix_inj h)
  rw [body_snd s a b] at h
  exact body_fst_inj s _ _ (tail_inj_h h)

theorem word_bytesLE (w : BitVec 32) :
    word ⟨w.extractLsb' 0 8⟩ ⟨w.extractLsb' 8 8⟩ ⟨w.extractLsb' 16 8⟩ ⟨w.extractLsb' 24 8⟩ = w := by
  apply BitVec.eq_of_toNat_eq
  rw [word_toNat]
  have := w.isLt
  simp only [← UInt8.toNat_toBitVec, BitVec.extractLsb'_toNat, Nat.shiftRight_eq_div_pow]
  omega

theorem mixHashes_eq (a b : BitVec 32) : mixHashes a b = fmix (round a b ^^^ 4#32) := by
  unfold mixHashes bytesLE
  rw [murmur_eq]
  simp only [body_cons, body_nil, word_bytesLE, List.length_cons, List.length_nil, tail]

end Clr.Hash
