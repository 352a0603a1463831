import Verif.Proofs.Hash
/-
C03 Function unique ids separate overloads that differ in one parameter.
C04 Name hashing is exact on short names and depends on nothing but the bytes.
-/
namespace Clr.Hash

/-- C03: the finalisation step of the hash is a bijection on 32-bit words. -/
theorem C03_fmix_bijective :
    (∀ x y : BitVec 32, fmix x = fmix y → x = y) ∧ (∀ y : BitVec 32, ∃ x, fmix x = y) :=
  ⟨fun _ _ h => fmix_inj h, fmix_surj⟩

/-- C03: mixing is injective in its first argument, for every second argument. -/
theorem C03_mix_injective_left (a a' b : BitVec 32) (h : mixHashes a b = mixHashes a' b) : a = a' :=
  murmur_inj_seed _ h

/-- C03: mixing is injective in its second argument, for every first argument. -/
theorem C03_mix_injective_right (a b b' : BitVec 32) (h : mixHashes a b = mixHashes a b') :
    b = b' := by
  rw [mixHashes_eq, mixHashes_eq] at h
  exact round_inj_k (xor_left_inj' (fmix_inj h))

theorem foldl_mix_inj (ps : List Param) (a b : BitVec 32)
    (h : ps.foldl (fun id p => mixHashes id (fieldHash p)) a =
      ps.foldl (fun id p => mixHashes id (fieldHash p)) b) : a = b := by
  induction ps generalizing a b with
  | nil => exact h
  | cons p ps ih => exact C03_mix_injective_left _ _ _ (ih _ _ h)

/-- C03: two parameter lists of any equal length that differ in exactly one position, where the
qualified type hashes differ, get different unique ids. -/
theorem C03_uniqueId_differs_in_one_parameter (before : List Param) (p q : Param)
    (after : List Param) (hpq : fieldHash p ≠ fieldHash q) :
    uniqueId (before ++ p :: after) ≠ uniqueId (before ++ q :: after) := by
  intro h
  unfold uniqueId at h
  rw [List.foldl_append, List.foldl_append, List.foldl_cons, List.foldl_cons] at h
  exact hpq (C03_mix_injective_right _ _ _ (foldl_mix_inj _ _ _ h))

/-- A type name without qualifiers: non-empty, not starting with `const `, not ending in `*` or `&`. -/
structure PlainType (t : Bytes) : Prop where
  notConst : ¬ b!"const " <+: t
  last : ∃ pre c, t = pre ++ [c] ∧ c ≠ 42 ∧ c ≠ 38

/-- C03: the hashed text determines the parameter's type, pointer/reference-ness and constness. So
overloads that differ in one of these hash different texts. -/
theorem C03_qualified_text_injective (p q : Param) (hp : PlainType p.typeText)
    (hq : PlainType q.typeText) (h : p.text = q.text) : p = q := by
  obtain ⟨t, op, c⟩ := p
  obtain ⟨t', op', c'⟩ := q
  obtain ⟨hp1, pre, a, rfl, ha1, ha2⟩ := hp
  obtain ⟨hq1, pre', a', rfl, ha1', ha2'⟩ := hq
  simp only at hp1 hq1
  simp only [Param.text] at h
  have e : (if c = true then b!"const " else []) ++ (pre ++ [a]) =
      (if c' = true then b!"const " else []) ++ (pre' ++ [a']) ∧ op = op' := by
    have hl := congrArg List.getLast? h
    cases op <;> cases op' <;>
      simp only [List.append_nil, List.getLast?_append, List.getLast?_singleton,
        Option.some_or, Option.some.injEq] at hl h ⊢
    all_goals first
      | exact ⟨h, trivial⟩
      | exact ⟨List.append_cancel_right h, trivial⟩
      | exact absurd hl.symm (by first | exact ha1' | exact ha2')
      | exact absurd hl (by first | exact ha1 | exact ha2)
      | exact absurd hl (by decide)
      | exact absurd hl.symm ha1
      | exact absurd hl.symm ha2
  obtain ⟨e, rfl⟩ := e
  cases c <;> cases c' <;> simp only [if_true, Bool.false_eq_true, if_false, List.nil_append] at e
  · rw [e]
  · exact absurd ⟨_, e.symm⟩ hp1
  · exact absurd ⟨_, e⟩ hq1
  · rw [List.append_cancel_left e]

/-- The qualified texts are what the ids are computed from: `const T*`, `T&` and so on. -/
theorem C03_qualified_text (t : Bytes) :
    Param.text ⟨t, .value, false⟩ = t ∧ Param.text ⟨t, .value, true⟩ = b!"const " ++ t ∧
    Param.text ⟨t, .pointer, false⟩ = t ++ b!"*" ∧ Param.text ⟨t, .reference, true⟩ = b!"const " ++ t ++ b!"&" := by
  simp [Param.text]

/-- How a parameter's qualified type is spelled. -/
def spelled : Param → Bytes
  | ⟨t, .value, false⟩ => t
  | ⟨t, .value, true⟩ => b!"const " ++ t
  | ⟨t, .pointer, false⟩ => t ++ b!"*"
  | ⟨t, .pointer, true⟩ => b!"const " ++ t ++ b!"*"
  | ⟨t, .reference, false⟩ => t ++ b!"&"
  | ⟨t, .reference, true⟩ => b!"const " ++ t ++ b!"&"

theorem text_spelled (p : Param) : p.text = spelled p := by
  obtain ⟨t, op, c⟩ := p
  cases op <;> cases c <;> simp [Param.text, spelled]

/-- C03: overloads that differ in one parameter, in its type, its constness, or whether it is a pointer or a reference, have the same id
only if the qualified types, which are different texts, have the same hash. -/
theorem C03_overloads (before : List Param) (p q : Param) (after : List Param) :
    (uniqueId (before ++ p :: after) = uniqueId (before ++ q :: after) ↔
      hashText (spelled p) = hashText (spelled q)) ∧
    (PlainType p.typeText → PlainType q.typeText → p ≠ q → spelled p ≠ spelled q) := by
  refine ⟨⟨fun h => ?_, fun h => ?_⟩, fun hp hq hne h => ?_⟩
  · refine Classical.byContradiction fun hn => ?_
    refine C03_uniqueId_differs_in_one_parameter before p q after (fun he => hn ?_) h
    rwa [fieldHash, fieldHash, text_spelled, text_spelled] at he
  · have hf : fieldHash p = fieldHash q := by rw [fieldHash, fieldHash, text_spelled, text_spelled, h]
    simp only [uniqueId, List.foldl_append, List.foldl_cons, hf]
  · exact hne (C03_qualified_text_injective p q hp hq (by rw [text_spelled, text_spelled, h]))

example : PlainType b!"unsigned int" := ⟨by decide, b!"unsigned in", 116, rfl, by decide, by decide⟩

/-- The premises are met: `f(int, float*)` against `f(int, const float&)`. -/
example : fieldHash ⟨b!"float", .pointer, false⟩ ≠ fieldHash ⟨b!"float", .reference, true⟩ := by
  decide +kernel

example : uniqueId [⟨b!"int", .value, false⟩, ⟨b!"float", .pointer, false⟩] ≠
    uniqueId [⟨b!"int", .value, false⟩, ⟨b!"float", .reference, true⟩] :=
  C03_uniqueId_differs_in_one_parameter [⟨b!"int", .value, false⟩] _ _ [] (by decide +kernel)

/-- C04: the hash of a C string is a function of the bytes before the first NUL alone: whatever
follows the terminator in memory is not looked at. -/
theorem C04_hash_depends_only_on_text (s rest : Bytes) (seed : BitVec 32) (hs : (0 : UInt8) ∉ s) :
    hashNameString (s ++ 0 :: rest) seed = .ok (murmur s seed) := by
  have : cstr (s ++ 0 :: rest) = some s := by
    induction s with
    | nil => simp [cstr]
    | cons c cs ih =>
      have hc : c ≠ 0 := fun h => hs (by simp [h])
      have hcs : (0 : UInt8) ∉ cs := fun h => hs (by simp [h])
      simp [cstr, hc, ih hcs]
  simp [hashNameString, this]

/-- C04: reading past the memory is the only way hashing a name can go wrong. -/
theorem C04_hash_defined_iff_terminated (mem : Bytes) (seed : BitVec 32) :
    (∃ h, hashNameString mem seed = .ok h) ↔ (0 : UInt8) ∈ mem := by
  have : ∀ m : Bytes, (cstr m).isSome = true ↔ (0 : UInt8) ∈ m := by
    intro m
    induction m with
    | nil => simp [cstr]
    | cons c cs ih =>
      unfold cstr
      by_cases hc : c = 0
      · simp [hc]
      · have : ¬ (0 = c) := fun h => hc h.symm
        simp [hc, this, ih]
  rw [← this mem]
  unfold hashNameString
  cases cstr mem <;> simp

/-- C04: the hash of data is a function of the bytes given alone, is undefined if so many cannot be read, and is for a name's characters the
hash of the name. -/
theorem C04_data (s rest : Bytes) (seed : BitVec 32) :
    hashData (s ++ rest) s.length seed = .ok (murmur s seed) ∧
    (∀ n, (s ++ rest).length < n → hashData (s ++ rest) n seed = .ub) ∧
    ((0 : UInt8) ∉ s → ∀ rest', hashNameString (s ++ 0 :: rest') seed = hashData (s ++ rest) s.length seed) := by
  have h : hashData (s ++ rest) s.length seed = .ok (murmur s seed) := by
    rw [hashData, if_pos (by simp), List.take_left']
    rfl
  refine ⟨h, fun n hn => ?_, fun hs rest' => ?_⟩
  · rw [hashData, if_neg (by omega)]
  · rw [h, C04_hash_depends_only_on_text s rest' seed hs]

/-- C04 (at any length): two names that differ only inside one aligned block of at most four bytes
(a full block anywhere, or the tail at the end) never collide. -/
theorem C04_no_collision_within_one_block (pre w w' post : Bytes) (seed : BitVec 32)
    (hpre : pre.length % 4 = 0) (hlen : w.length = w'.length) (h4 : w.length ≤ 4)
    (hfull : w.length = 4 ∨ post = []) (hne : w ≠ w') :
    murmur (pre ++ (w ++ post)) seed ≠ murmur (pre ++ (w' ++ post)) seed := by
  intro h
  rw [murmur_eq, murmur_eq] at h
  have hl : (pre ++ (w ++ post)).length = (pre ++ (w' ++ post)).length := by simp [hlen]
  rw [hl] at h
  have h := xor_left_inj' (fmix_inj h)
  rw [body_append _ _ _ hpre, body_append _ _ _ hpre] at h
  generalize (body pre seed).1 = s at h
  by_cases hw : w.length = 4
  · obtain ⟨a, b, c, d, rfl⟩ := four_of_length hw
    obtain ⟨a', b', c', d', rfl⟩ := four_of_length (hlen ▸ hw)
    simp only [List.cons_append, List.nil_append, body_cons] at h
    rw [body_snd post _ (round s (word a' b' c' d'))] at h
    have := word_inj (round_inj_k (body_fst_inj _ _ _ (tail_inj_h h)))
    exact hne (by simp [this.1, this.2.1, this.2.2.1, this.2.2.2])
  · have hp : post = [] := by rcases hfull with h | h; exact absurd h hw; exact h
    subst hp
    have hs : ∀ v : Bytes, v.length < 4 → body v s = (s, v) := by
      intro v hv
      unfold body
      match v, hv with
      | [], _ => exact walk.eq_2 _ _ _ (by simp)
      | [_], _ => exact walk.eq_2 _ _ _ (by simp)
      | [_, _], _ => exact walk.eq_2 _ _ _ (by simp)
      | [_, _, _], _ => exact walk.eq_2 _ _ _ (by simp)
    rw [List.append_nil, List.append_nil, hs w (by omega), hs w' (by omega)] at h
    exact hne (tail_inj_t hlen (by omega) h)

/-- C04: two different names of the same length of at most four characters never collide. -/
theorem C04_short_names_never_collide (s t : Bytes) (hlen : s.length = t.length)
    (h4 : s.length ≤ 4) (hne : s ≠ t) : hashText s ≠ hashText t := by
  have := C04_no_collision_within_one_block [] s t [] 0#32 rfl hlen h4 (Or.inr rfl) hne
  simpa [hashText] using this

example : hashText b!"abc" ≠ hashText b!"abd" :=
  C04_short_names_never_collide _ _ rfl (by decide) (by decide)

example : hashText b!"clreflect" ≠ hashText b!"clreXlect" := by
  have := C04_no_collision_within_one_block b!"clre" b!"flec" b!"Xlec" b!"t" 0#32 rfl rfl
    (by decide) (Or.inl rfl) (by decide)
  exact this

end Clr.Hash
