import Verif.Model.Reloc
namespace Clr.Reloc
open Clr

/-! ## Loops -/

theorem loop_append {σ α} (f : σ → α → Res σ) (a b : List α) (s : σ) :
    loop f (a ++ b) s = (loop f a s).bind (loop f b) := by
  induction a generalizing s with
  | nil => rfl
  | cons x a ih =>
    simp only [List.cons_append, loop]
    cases f s x <;> simp [ih]

theorem loop_flatMap {σ α β} (f : σ → β → Res σ) (h : α → List β) (l : List α) (s : σ) :
    loop f (l.flatMap h) s = loop (fun s a => loop f (h a) s) l s := by
  induction l generalizing s with
  | nil => rfl
  | cons x l ih =>
    rw [List.flatMap_cons, loop_append, loop]
    cases loop f (h x) s <;> simp [ih]

theorem loop_map {σ α β} (f : σ → β → Res σ) (h : α → β) (l : List α) (s : σ) :
    loop f (l.map h) s = loop (fun s a => f s (h a)) l s := by
  induction l generalizing s with
  | nil => rfl
  | cons x l ih =>
    rw [List.map_cons, loop, loop]
    cases f s (h x) <;> simp [ih]

theorem loop_congr {σ α} {f g : σ → α → Res σ} {l : List α} (h : ∀ a ∈ l, ∀ s, f s a = g s a) (s : σ) :
    loop f l s = loop g l s := by
  induction l generalizing s with
  | nil => rfl
  | cons x l ih =>
    rw [loop, loop, h x (by simp)]
    cases g s x <;> simp
    exact ih (fun a ha => h a (by simp [ha])) _

theorem loop_inv {σ α} {f : σ → α → Res σ} {l : List α} (P : σ → Prop)
    (h : ∀ a ∈ l, ∀ s t, P s → f s a = .ok t → P t) {s t : σ} (hs : P s) (ht : loop f l s = .ok t) : P t := by
  induction l generalizing s with
  | nil => simp only [loop, Res.ok.injEq] at ht; exact ht ▸ hs
  | cons x l ih =>
    rw [loop] at ht
    cases hx : f s x with
    | ok u =>
      rw [hx] at ht
      exact ih (fun a ha => h a (by simp [ha])) (h x (by simp) s u hs hx) ht
    | trap => rw [hx] at ht; simp at ht
    | ub => rw [hx] at ht; simp at ht

/-! ## Words -/

theorem length_setWord {img : Bytes} {o : Nat} (v : Nat) (h : o + 8 ≤ img.length) :
    (setWord img o v).length = img.length := by
  simp only [setWord, List.length_append, List.length_take, List.length_drop, length_le]
  omega

theorem getElem?_setWord {img : Bytes} {o i : Nat} (v : Nat) (h : o + 8 ≤ img.length) (hi : i < o ∨ o + 8 ≤ i) :
    (setWord img o v)[i]? = img[i]? := by
  have h1 : (img.take o).length = o := by rw [List.length_take]; omega
  unfold setWord
  rcases hi with hi | hi
  · rw [List.append_assoc, List.getElem?_append_left (by omega), List.getElem?_take, if_pos hi]
  · rw [List.getElem?_append_right (by rw [List.length_append, length_le]; omega), List.getElem?_drop,
      List.length_append, length_le, h1]
    congr 1
    omega

theorem word_ext {a b : Bytes} {o : Nat} (hl : a.length = b.length)
    (h : ∀ i, o ≤ i → i < o + 8 → a[i]? = b[i]?) : word a o = word b o := by
  unfold word
  rw [hl]
  split
  · congr 2
    apply List.ext_getElem?
    intro i
    rw [List.getElem?_take, List.getElem?_take]
    split
    · rw [List.getElem?_drop, List.getElem?_drop]
      exact h _ (by omega) (by omega)
    · rfl
  · rfl

theorem word_lt {img : Bytes} {o v : Nat} (h : word img o = some v) : v < W64 := by
  unfold word at h
  split at h
  · simp only [Option.some.injEq] at h
    subst h
    have := unle_lt ((img.drop o).take 8)
    have hl : ((img.drop o).take 8).length = 8 := by
      rw [List.length_take, List.length_drop]; omega
    rw [hl] at this
    exact this
  · simp at h

theorem word_inside {img : Bytes} {o v : Nat} (h : word img o = some v) : o + 8 ≤ img.length := by
  unfold word at h
  split at h
  · assumption
  · simp at h

theorem word_setWord_self {img : Bytes} {o v : Nat} (h : o + 8 ≤ img.length) (hv : v < W64) :
    word (setWord img o v) o = some v := by
  unfold word
  rw [length_setWord v h, if_pos h]
  congr 1
  unfold setWord
  have h1 : (img.take o).length = o := by rw [List.length_take]; omega
  rw [List.append_assoc, List.drop_left' h1, List.take_left' (length_le 8 v)]
  exact unle_le_of_lt hv

theorem word_setWord_ne {img : Bytes} {o s v : Nat} (h : o + 8 ≤ img.length) (hs : s + 8 ≤ o ∨ o + 8 ≤ s) :
    word (setWord img o v) s = word img s :=
  word_ext (length_setWord v h) (fun i h1 h2 => getElem?_setWord v h (by omega))

theorem setWord_word {img : Bytes} {o v : Nat} (h : word img o = some v) : setWord img o v = img := by
  have hin := word_inside h
  unfold word at h
  rw [if_pos hin] at h
  simp only [Option.some.injEq] at h
  have hl : ((img.drop o).take 8).length = 8 := by
    rw [List.length_take, List.length_drop]; omega
  have h2 := le_unle ((img.drop o).take 8)
  rw [hl, h] at h2
  unfold setWord
  rw [h2, List.append_assoc, ← List.drop_drop, List.take_append_drop, List.take_append_drop]

/-! ## Changing disjoint words -/

/-- The 8-byte slots at two offsets do not overlap. -/
def Apart (a b : Nat) : Prop := a + 8 ≤ b ∨ b + 8 ≤ a

instance : DecidableRel Apart := fun a b => inferInstanceAs (Decidable (a + 8 ≤ b ∨ b + 8 ≤ a))

/-- Same length, and equal outside the slots. -/
def SameBut (slots : List Nat) (a b : Bytes) : Prop :=
  b.length = a.length ∧ ∀ i, (∀ s ∈ slots, i < s ∨ s + 8 ≤ i) → b[i]? = a[i]?

/-- `b` is `a` with the word in every slot changed by `g`. -/
def Mapped (g : Nat → Nat) (slots : List Nat) (a b : Bytes) : Prop :=
  SameBut slots a b ∧ ∀ s ∈ slots, word b s = (word a s).map g

theorem SameBut.refl (slots : List Nat) (a : Bytes) : SameBut slots a a := ⟨rfl, fun _ _ => rfl⟩

theorem SameBut.trans {sl : List Nat} {a b c : Bytes} (h1 : SameBut sl a b) (h2 : SameBut sl b c) :
    SameBut sl a c := ⟨h2.1.trans h1.1, fun i hi => (h2.2 i hi).trans (h1.2 i hi)⟩

theorem SameBut.mono {s1 s2 : List Nat} {a b : Bytes} (h : SameBut s1 a b) (hs : ∀ s ∈ s1, s ∈ s2) :
    SameBut s2 a b := ⟨h.1, fun i hi => h.2 i (fun s hm => hi s (hs s hm))⟩

theorem SameBut.word {slots : List Nat} {a b : Bytes} (h : SameBut slots a b) {s : Nat}
    (hs : ∀ t ∈ slots, Apart s t) : word b s = word a s :=
  word_ext h.1 (fun i h1 h2 => h.2 i (fun t ht => by have := hs t ht; unfold Apart at this; omega))

theorem loop_mapped {step : Bytes → Nat → Res Bytes} {g : Nat → Nat} {slots : List Nat} {img : Bytes}
    (hin : ∀ s ∈ slots, s + 8 ≤ img.length) (hap : slots.Pairwise Apart)
    (hg : ∀ s ∈ slots, ∀ v, word img s = some v → g v < W64)
    (hstep : ∀ s ∈ slots, ∀ img', SameBut slots img img' → word img' s = word img s →
      ∀ v, word img s = some v → step img' s = .ok (setWord img' s (g v))) :
    ∃ out, loop step slots img = .ok out ∧ Mapped g slots img out := by
  -- generalise over the part done
  suffices h : ∀ (todo done : List Nat), slots = done ++ todo → ∀ cur, Mapped g done img cur →
      ∃ out, loop step todo cur = .ok out ∧ Mapped g slots img out by
    exact h slots [] rfl img ⟨SameBut.refl _ _, by simp⟩
  intro todo
  induction todo with
  | nil =>
    intro done hd cur hc
    refine ⟨cur, rfl, ?_⟩
    rw [List.append_nil] at hd
    exact hd ▸ hc
  | cons s todo ih =>
    intro done hd cur hc
    have hs : s ∈ slots := by rw [hd]; simp
    have hsub : ∀ t ∈ done, t ∈ slots := fun t ht => by rw [hd]; simp [ht]
    have hapt : ∀ t ∈ done, Apart s t := by
      intro t ht
      rw [hd, List.pairwise_append] at hap
      have := hap.2.2 t ht s (by simp)
      unfold Apart at this ⊢; omega
    have hw : word cur s = word img s := hc.1.word hapt
    have hins := hin s hs
    have hinc : s + 8 ≤ cur.length := by rw [hc.1.1]; exact hins
    have hv : word img s = some (unle ((img.drop s).take 8)) := by unfold word; rw [if_pos hins]
    generalize unle ((img.drop s).take 8) = v at hv
    have hst := hstep s hs cur (hc.1.mono hsub) hw v hv
    rw [loop, hst]
    refine ih (done ++ [s]) (by rw [hd]; simp) _ ⟨⟨?_, ?_⟩, ?_⟩
    · rw [length_setWord _ hinc, hc.1.1]
    · intro i hi
      rw [getElem?_setWord _ hinc (hi s (by simp))]
      exact hc.1.2 i (fun t ht => hi t (by simp [ht]))
    · intro t ht
      rw [List.mem_append, List.mem_singleton] at ht
      rcases ht with ht | ht
      · rw [word_setWord_ne hinc (by have := hapt t ht; unfold Apart at this; omega)]
        exact hc.2 t ht
      · subst ht
        rw [word_setWord_self hinc (hg t hs v hv), hv]
        rfl

/-! ## Files -/

theorem entries_flatMap {α β} (w : Nat) (f : Bytes → α) (enc : β → Bytes) (conv : β → α)
    (l : List β) (hw : ∀ b ∈ l, (enc b).length = w) (hf : ∀ b ∈ l, f (enc b) = conv b) :
    entries w f l.length (l.flatMap enc) = l.map conv := by
  induction l with
  | nil => rfl
  | cons b l ih =>
    rw [List.length_cons, entries, List.flatMap_cons, List.take_left' (hw b (by simp)),
      List.drop_left' (hw b (by simp)), hf b (by simp), ih (fun c hc => hw c (by simp [hc]))
        (fun c hc => hf c (by simp [hc])), List.map_cons]

theorem length_flatMap_const {β} (w : Nat) (enc : β → Bytes) (l : List β) (hw : ∀ b ∈ l, (enc b).length = w) :
    (l.flatMap enc).length = l.length * w := by
  induction l with
  | nil => simp
  | cons b l ih =>
    rw [List.flatMap_cons, List.length_append, hw b (by simp), ih (fun c hc => hw c (by simp [hc])),
      List.length_cons, Nat.add_mul]
    omega

theorem readArray_flatMap {α β} (w : Nat) (f : Bytes → α) (enc : β → Bytes) (conv : β → α)
    (l : List β) (rest : Bytes) (hw : ∀ b ∈ l, (enc b).length = w) (hf : ∀ b ∈ l, f (enc b) = conv b) :
    readArray w f l.length (l.flatMap enc ++ rest) = some (l.map conv, rest) := by
  unfold readArray
  rw [takeN_eq (length_flatMap_const w enc l hw), Option.map_some, entries_flatMap w f enc conv l hw hf]

theorem num_skip {a : Bytes} {k : Nat} (b : Bytes) (h : a.length = k) (o w : Nat) :
    num (a ++ b) (k + o) w = num b o w := by
  subst h
  unfold num
  rw [← List.drop_drop, List.drop_left]

theorem num_head {a : Bytes} {w : Nat} (b : Bytes) (h : a.length = w) : num (a ++ b) 0 w = unle a := by
  unfold num
  rw [List.drop_zero, List.take_left' h]

theorem num_whole {a : Bytes} {w : Nat} (h : a.length = w) : num a 0 w = unle a := by
  unfold num
  rw [List.drop_zero, List.take_of_length_le (by omega)]

theorem header_num (nS nO nR size : Nat) :
    let h := headerBytes nS nO nR size
    num h 0 4 = signature0 ∧ num h 4 4 = signature1 ∧ num h 8 4 = version ∧ num h 12 4 = nS % 2 ^ 32 ∧
      num h 16 4 = nO % 2 ^ 32 ∧ num h 20 4 = nR % 2 ^ 32 ∧ num h 24 8 = size % W64 := by
  have p4 : ∀ v, unle (le 4 v) = v % 2 ^ 32 := fun v => unle_le 4 v
  have p8 : ∀ v, unle (le 8 v) = v % W64 := fun v => unle_le 8 v
  have l4 := length_le 4
  have l8 := length_le 8
  unfold headerBytes
  refine ⟨?_, ?_, ?_, ?_, ?_, ?_, ?_⟩
  · rw [num_head _ (l4 _), p4]; rfl
  · rw [show 4 = 4 + 0 from rfl, num_skip _ (l4 _), num_head _ (l4 _), p4]; rfl
  · rw [show 8 = 4 + (4 + 0) from rfl, num_skip _ (l4 _), num_skip _ (l4 _), num_head _ (l4 _), p4]; rfl
  · rw [show 12 = 4 + (4 + (4 + 0)) from rfl, num_skip _ (l4 _), num_skip _ (l4 _), num_skip _ (l4 _),
      num_head _ (l4 _), p4]
  · rw [show 16 = 4 + (4 + (4 + (4 + 0))) from rfl, num_skip _ (l4 _), num_skip _ (l4 _), num_skip _ (l4 _),
      num_skip _ (l4 _), num_head _ (l4 _), p4]
  · rw [show 20 = 4 + (4 + (4 + (4 + (4 + 0)))) from rfl, num_skip _ (l4 _), num_skip _ (l4 _),
      num_skip _ (l4 _), num_skip _ (l4 _), num_skip _ (l4 _), num_head _ (l4 _), p4]
  · rw [show 24 = 4 + (4 + (4 + (4 + (4 + (4 + 0))))) from rfl, num_skip _ (l4 _), num_skip _ (l4 _),
      num_skip _ (l4 _), num_skip _ (l4 _), num_skip _ (l4 _), num_skip _ (l4 _), num_whole (l8 _), p8]

theorem length_header (nS nO nR size : Nat) : (headerBytes nS nO nR size).length = 32 := by
  simp [headerBytes, length_le]

/-- The schemas as they stand in the file. -/
def lschemas : Nat → List Schema → List LSchema
  | _, [] => []
  | a, s :: ss => ⟨s.stride, a, s.offsets.length⟩ :: lschemas (a + s.offsets.length) ss

def lschemaBytes (s : LSchema) : Bytes := le 8 s.stride ++ (le 8 s.at' ++ le 8 s.count)

theorem schemaBytes_eq (a : Nat) (ss : List Schema) : schemaBytes a ss = (lschemas a ss).flatMap lschemaBytes := by
  induction ss generalizing a with
  | nil => rfl
  | cons s ss ih => rw [schemaBytes, lschemas, List.flatMap_cons, ih]; rfl

theorem length_lschemas (a : Nat) (ss : List Schema) : (lschemas a ss).length = ss.length := by
  induction ss generalizing a with
  | nil => rfl
  | cons s ss ih => rw [lschemas, List.length_cons, List.length_cons, ih]

theorem parseSchema_bytes {s : LSchema} (h1 : s.stride < W64) (h2 : s.at' < W64) (h3 : s.count < W64) :
    parseSchema (lschemaBytes s) = s := by
  have l8 := length_le 8
  have p8 : ∀ v, v < W64 → unle (le 8 v) = v := fun v hv => unle_le_of_lt (w := 8) hv
  unfold parseSchema lschemaBytes
  rw [show num (le 8 s.stride ++ (le 8 s.at' ++ le 8 s.count)) 8 8 = unle (le 8 s.at') by
      rw [show 8 = 8 + 0 from rfl, num_skip _ (l8 _), num_head _ (l8 _)],
    show num (le 8 s.stride ++ (le 8 s.at' ++ le 8 s.count)) 16 8 = unle (le 8 s.count) by
      rw [show 16 = 8 + (8 + 0) from rfl, num_skip _ (l8 _), num_skip _ (l8 _), num_whole (l8 _)],
    num_head _ (l8 _), p8 _ h1, p8 _ h2, p8 _ h3]

theorem length_lschemaBytes (s : LSchema) : (lschemaBytes s).length = 24 := by
  simp [lschemaBytes, length_le]

theorem lschemas_bound {a : Nat} {ss : List Schema} {s : LSchema} (hs : s ∈ lschemas a ss) :
    s.at' + s.count ≤ a + (ss.flatMap (·.offsets)).length ∧ ∃ t ∈ ss, s.stride = t.stride := by
  induction ss generalizing a with
  | nil => simp [lschemas] at hs
  | cons x ss ih =>
    rw [lschemas, List.mem_cons] at hs
    rw [List.flatMap_cons, List.length_append]
    rcases hs with hs | hs
    · subst hs
      exact ⟨by simp only []; omega, x, by simp, rfl⟩
    · obtain ⟨h1, t, h2, h3⟩ := ih hs
      exact ⟨by omega, t, by simp [h2], h3⟩

theorem lschemas_get {a : Nat} {ss : List Schema} {h : Nat} {s : Schema} (hs : ss[h]? = some s) :
    ∃ at', (lschemas a ss)[h]? = some ⟨s.stride, a + at', s.offsets.length⟩ ∧
      at' + s.offsets.length ≤ (ss.flatMap (·.offsets)).length ∧
      ∀ k < s.offsets.length, (ss.flatMap (·.offsets))[at' + k]? = s.offsets[k]? := by
  induction ss generalizing a h with
  | nil => simp at hs
  | cons x ss ih =>
    rw [List.flatMap_cons]
    cases h with
    | zero =>
      simp only [List.getElem?_cons_zero, Option.some.injEq] at hs
      subst hs
      refine ⟨0, by simp [lschemas], by rw [List.length_append]; omega, ?_⟩
      intro k hk
      rw [Nat.zero_add, List.getElem?_append_left hk]
    | succ h =>
      simp only [List.getElem?_cons_succ] at hs
      obtain ⟨at', h1, h2, h3⟩ := ih (a := a + x.offsets.length) hs
      refine ⟨x.offsets.length + at', ?_, by rw [List.length_append]; omega, ?_⟩
      · rw [lschemas, List.getElem?_cons_succ, h1, Nat.add_assoc]
      · intro k hk
        rw [Nat.add_assoc, List.getElem?_append_right (by omega), Nat.add_sub_cancel_left]
        exact h3 k hk

theorem parseRel_bytes {pad : Nat → Bytes} (hp : ∀ i, (pad i).length = 4) {r : Rel} (h1 : r.handle < 2 ^ 32)
    (h2 : r.offset < W64) (h3 : r.count < 2 ^ 32) : parseRel (relBytes pad r) = r := by
  have l4 := length_le 4
  have l8 := length_le 8
  have p8 : ∀ v, v < W64 → unle (le 8 v) = v := fun v hv => unle_le_of_lt (w := 8) hv
  have p4 : ∀ v, v < 2 ^ 32 → unle (le 4 v) = v := fun v hv => unle_le_of_lt (w := 4) hv
  unfold parseRel relBytes
  rw [num_head _ (l4 _), show (8 : Nat) = 4 + (4 + 0) from rfl, num_skip _ (l4 _), num_skip _ (hp 0),
    show 4 + (4 + 0) = 8 from rfl, num_head _ (l8 _), show (16 : Nat) = 4 + (4 + (8 + 0)) from rfl, num_skip _ (l4 _),
    num_skip _ (hp 0), num_skip _ (l8 _), num_head _ (l4 _), p4 _ h1, p8 _ h2, p4 _ h3]

theorem length_relBytes {pad : Nat → Bytes} (hp : ∀ i, (pad i).length = 4) (r : Rel) :
    (relBytes pad r).length = 24 := by
  simp [relBytes, length_le, hp]

/-- What the loader finds in a file that was saved. -/
theorem loadImage_save {pad : Nat → Bytes} (hp : ∀ i, (pad i).length = 4) {schemas : List Schema}
    {rels : List Rel} {img : Bytes} (base : Nat)
    (hs : schemas.length < 2 ^ 31) (ho : (schemas.flatMap (·.offsets)).length < 2 ^ 31) (hr : rels.length < 2 ^ 31)
    (hi : img.length < W64)
    (hss : ∀ s ∈ schemas, s.stride < W64 ∧ ∀ o ∈ s.offsets, o < W64)
    (hrs : ∀ r ∈ rels, r.handle < 2 ^ 32 ∧ r.offset < W64 ∧ r.count < 2 ^ 32) (rest : Bytes) :
    loadImage base ((headerBytes schemas.length (schemas.flatMap (·.offsets)).length rels.length img.length ++
    (img ++ (schemaBytes 0 schemas ++ (offsetBytes schemas ++ rels.flatMap (relBytes pad))))) ++ rest) =
      (loop (patchRel base img.length (lschemas 0 schemas) (schemas.flatMap (·.offsets))) rels img).map some := by
  obtain ⟨n1, n2, n3, n4, n5, n6, n7⟩ := header_num schemas.length (schemas.flatMap (·.offsets)).length rels.length
    img.length
  rw [Nat.mod_eq_of_lt (by omega)] at n4 n5 n6
  rw [Nat.mod_eq_of_lt hi] at n7
  unfold loadImage
  rw [List.append_assoc, takeN_eq (length_header _ _ _ _)]
  simp only []
  rw [n1, n2, n3, n4, n5, n6, n7, if_neg (by simp), if_neg (by simp), List.append_assoc, takeN_append]
  simp only []
  rw [schemaBytes_eq, List.append_assoc]
  rw [← length_lschemas 0 schemas]
  rw [readArray_flatMap 24 parseSchema lschemaBytes id (lschemas 0 schemas) _ (fun s _ => length_lschemaBytes s)
    (fun s hs' => by
      obtain ⟨h1, t, h2, h3⟩ := lschemas_bound hs'
      have := hss t h2
      have hW : W64 = 18446744073709551616 := rfl
      exact parseSchema_bytes (by omega) (by omega) (by omega))]
  simp only []
  rw [offsetBytes, List.append_assoc, readArray_flatMap 8 unle (le 8) id _ _ (fun o _ => length_le 8 o)
    (fun o ho' => by
      rw [List.mem_flatMap] at ho'
      obtain ⟨s, h1, h2⟩ := ho'
      exact unle_le_of_lt ((hss s h1).2 o h2))]
  simp only []
  rw [readArray_flatMap 24 parseRel (relBytes pad) id _ _ (fun r _ => length_relBytes hp r)
    (fun r hr' => parseRel_bytes hp (hrs r hr').1 (hrs r hr').2.1 (hrs r hr').2.2)]
  simp only [List.map_id]
  rw [rounds, if_pos hr, List.take_length]

/-! ## The loops of MakeRelative and of the loader as one pass over the slots -/

/-- The offsets in the image of the pointers one relocation instruction stands for. -/
def relSlots (schemas : List Schema) (r : Rel) : List Nat :=
  match schemas[r.handle]? with
  | some s => (List.range r.count).flatMap fun j => s.offsets.map fun o => r.offset + j * s.stride + o
  | none => []

/-- The offsets in the image of all registered pointers, in order. -/
def slots (schemas : List Schema) (rels : List Rel) : List Nat := rels.flatMap (relSlots schemas)

theorem mem_relSlots {schemas : List Schema} {r : Rel} {s : Schema} (h : schemas[r.handle]? = some s) {x : Nat} :
    x ∈ relSlots schemas r ↔ ∃ j < r.count, ∃ o ∈ s.offsets, x = r.offset + j * s.stride + o := by
  simp only [relSlots, h, List.mem_flatMap, List.mem_range, List.mem_map]
  constructor
  · rintro ⟨j, hj, o, ho, rfl⟩; exact ⟨j, hj, o, ho, rfl⟩
  · rintro ⟨j, hj, o, ho, rfl⟩; exact ⟨j, hj, o, ho, rfl⟩

theorem makeRelative_eq {start : Nat} {schemas : List Schema} {rels : List Rel} (img : Bytes)
    (hr : ∀ r ∈ rels, r.handle < schemas.length ∧ r.count < 2 ^ 31)
    (hs : ∀ x ∈ slots schemas rels, x < 2 ^ 32) :
    makeRelative start schemas rels img =
      loop (fun img x => relSlot start img.length img x) (slots schemas rels) img := by
  unfold makeRelative slots
  rw [loop_flatMap]
  apply loop_congr
  intro r hrm img
  obtain ⟨h1, h2⟩ := hr r hrm
  have hget : schemas[r.handle]? = some (schemas[r.handle]) := List.getElem?_eq_getElem h1
  have hsl : ∀ x ∈ relSlots schemas r, x < 2 ^ 32 := fun x hx =>
    hs x (by unfold slots; rw [List.mem_flatMap]; exact ⟨r, hrm, hx⟩)
  generalize schemas[r.handle] = s at hget
  have hrs : relSlots schemas r =
      (List.range r.count).flatMap fun j => s.offsets.map fun o => r.offset + j * s.stride + o := by
    unfold relSlots; rw [hget]
  rw [hget, hrs]
  simp only []
  rw [loop_flatMap, rounds, if_pos h2]
  apply loop_congr
  intro j hj img
  rw [loop_map]
  apply loop_congr
  intro o ho img
  rw [Nat.mod_eq_of_lt (hsl _ ((mem_relSlots hget).2 ⟨j, List.mem_range.1 hj, o, ho, rfl⟩))]

theorem map_range_getD (l : List Nat) : (List.range l.length).map (fun k => l.getD k 0) = l := by
  apply List.ext_getElem?
  intro i
  rw [List.getElem?_map]
  by_cases h : i < l.length
  · rw [List.getElem?_range h, Option.map_some, List.getD, List.getElem?_eq_getElem h]
    rfl
  · rw [List.getElem?_eq_none (by rw [List.length_range]; omega), List.getElem?_eq_none (by omega)]
    rfl

theorem patchRel_eq {base size : Nat} {schemas : List Schema} {r : Rel} (img : Bytes)
    (hso : (schemas.flatMap (·.offsets)).length < 2 ^ 31)
    (hr : r.handle < schemas.length) (hc : r.count < 2 ^ 31)
    (hne : ∀ s ∈ schemas, s.offsets ≠ [])
    (hs : ∀ x ∈ relSlots schemas r, x < W64) :
    patchRel base size (lschemas 0 schemas) (schemas.flatMap (·.offsets)) img r =
      loop (patchSlot base size) (relSlots schemas r) img := by
  have hget : schemas[r.handle]? = some (schemas[r.handle]) := List.getElem?_eq_getElem hr
  have hmem : schemas[r.handle] ∈ schemas := List.getElem_mem hr
  generalize schemas[r.handle] = s at hget hmem
  obtain ⟨a, h1, h2, h3⟩ := lschemas_get (a := 0) hget
  have hpos : 0 < s.offsets.length := List.length_pos_iff.2 (hne s hmem)
  have hrs : relSlots schemas r =
      (List.range r.count).flatMap fun j => s.offsets.map fun o => r.offset + j * s.stride + o := by
    unfold relSlots; rw [hget]
  have hW : W64 = 18446744073709551616 := rfl
  unfold patchRel
  rw [h1]
  simp only [Nat.zero_add]
  rw [Nat.mod_eq_of_lt (show a < 2 ^ 32 by omega), if_neg (by omega), rounds, if_pos hc, hrs, loop_flatMap]
  apply loop_congr
  intro j hj img
  rw [loop_map]
  have key : loop (fun img o => patchSlot base size img (r.offset + j * s.stride + o)) s.offsets img =
      loop (fun img k => patchSlot base size img (r.offset + j * s.stride + s.offsets.getD k 0))
        (List.range s.offsets.length) img := by
    rw [← loop_map (fun img o => patchSlot base size img (r.offset + j * s.stride + o)) (fun k => s.offsets.getD k 0),
      map_range_getD]
  rw [key]
  apply loop_congr
  intro k hk img
  rw [List.mem_range] at hk
  rw [Nat.mod_eq_of_lt (show s.offsets.length < 2 ^ 32 by omega), Nat.mod_eq_of_lt (show k < 2 ^ 32 by omega),
    if_neg (by omega), h3 k hk, List.getElem?_eq_getElem hk]
  simp only []
  have hx := hs _ ((mem_relSlots hget).2 ⟨j, List.mem_range.1 hj, s.offsets[k], List.getElem_mem hk, rfl⟩)
  rw [Nat.mod_eq_of_lt (show r.offset + j * s.stride < W64 by omega), Nat.mod_eq_of_lt hx, List.getD,
    List.getElem?_eq_getElem hk]
  rfl

/-! ## Rebasing and parenting -/

theorem loop_congr_inv {σ α} {f g : σ → α → Res σ} {l : List α} (P : σ → Prop)
    (h : ∀ a ∈ l, ∀ s, P s → f s a = g s a) (hg : ∀ a ∈ l, ∀ s t, P s → g s a = .ok t → P t)
    {s : σ} (hs : P s) : loop f l s = loop g l s := by
  induction l generalizing s with
  | nil => rfl
  | cons x l ih =>
    rw [loop, loop, h x (by simp) s hs]
    cases hx : g s x with
    | ok t => exact ih (fun a ha => h a (by simp [ha])) (fun a ha => hg a (by simp [ha])) (hg x (by simp) s t hs hx)
    | trap => rfl
    | ub => rfl

/-- The bytes of `DatabaseMem` are the same. -/
def SameHead (a b : Bytes) : Prop := b.length = a.length ∧ ∀ i < memSize, b[i]? = a[i]?

theorem SameHead.refl (a : Bytes) : SameHead a a := ⟨rfl, fun _ _ => rfl⟩

theorem SameBut.head {sl : List Nat} {a b : Bytes} (h : SameBut sl a b) (hs : ∀ s ∈ sl, memSize ≤ s) :
    SameHead a b := ⟨h.1, fun i hi => h.2 i (fun s hm => .inl (by have := hs s hm; omega))⟩

theorem SameHead.setWord {a b : Bytes} (h : SameHead a b) {s v : Nat} (hs : memSize ≤ s) (hin : s + 8 ≤ a.length) :
    SameHead a (setWord b s v) := by
  have hin' : s + 8 ≤ b.length := by rw [h.1]; exact hin
  refine ⟨by rw [length_setWord _ hin', h.1], fun i hi => ?_⟩
  rw [getElem?_setWord v hin' (.inl (by omega)), h.2 i hi]

theorem num_ext {a b : Bytes} {o w : Nat} (h : ∀ i, o ≤ i → i < o + w → b[i]? = a[i]?) : num b o w = num a o w := by
  unfold num
  congr 1
  apply List.ext_getElem?
  intro i
  rw [List.getElem?_take, List.getElem?_take]
  split
  · rw [List.getElem?_drop, List.getElem?_drop]
    exact h _ (by omega) (by omega)
  · rfl

theorem SameHead.num {a b : Bytes} (h : SameHead a b) {o w : Nat} (hw : o + w ≤ memSize) :
    num b o w = num a o w := num_ext (fun i _ h2 => h.2 i (by omega))

theorem SameHead.data {a b : Bytes} (h : SameHead a b) (base : Nat) {o : Nat} (hw : o + 16 ≤ memSize) :
    arrayData base b o = arrayData base a o := by
  unfold arrayData; rw [h.num (by omega)]

theorem SameHead.size {a b : Bytes} (h : SameHead a b) {o : Nat} (hw : o + 24 ≤ memSize) :
    arraySize b o = arraySize a o := by
  unfold arraySize; rw [h.num (by omega), h.1]

/-- The slots of one member of the entries of an array. -/
def memberSlots (base : Nat) (img : Bytes) (o stride member : Nat) : List Nat :=
  (List.range (num img o 4)).map fun i => arrayData base img o + i * stride + member

theorem memberSlots_apart (base : Nat) (img : Bytes) (o stride member : Nat) (h : 8 ≤ stride) :
    (memberSlots base img o stride member).Pairwise Apart := by
  unfold memberSlots
  rw [List.pairwise_map]
  refine (List.pairwise_lt_range).imp ?_
  intro i j hij
  have := Nat.mul_le_mul_right stride (show i + 1 ≤ j from hij)
  rw [Nat.succ_mul] at this
  unfold Apart
  omega

theorem memberSlots_congr {base : Nat} {a b : Bytes} {o stride member : Nat} (h1 : num b o 4 = num a o 4)
    (h2 : arrayData base b o = arrayData base a o) :
    memberSlots base b o stride member = memberSlots base a o stride member := by
  unfold memberSlots
  rw [h1, h2]

theorem flatMap_congr' {α β} {f g : α → List β} {l : List α} (h : ∀ a ∈ l, f a = g a) :
    l.flatMap f = l.flatMap g := by
  induction l with
  | nil => rfl
  | cons a l ih => rw [List.flatMap_cons, List.flatMap_cons, h a (by simp), ih (fun b hb => h b (by simp [hb]))]

/-- The array at `o` with entries of `stride` bytes has its entries inside the image, behind `DatabaseMem`. -/
def PlacedArray (base : Nat) (img : Bytes) (o stride : Nat) : Prop :=
  num img o 4 = 0 ∨
    (memSize ≤ arrayData base img o ∧ arrayData base img o + num img o 4 * stride ≤ img.length)

theorem memberSlots_inside {base : Nat} {img : Bytes} {o stride member : Nat} (h : PlacedArray base img o stride)
    (hm : member + 8 ≤ stride) : ∀ s ∈ memberSlots base img o stride member, memSize ≤ s ∧ s + 8 ≤ img.length := by
  intro s hs
  unfold memberSlots at hs
  rw [List.mem_map] at hs
  obtain ⟨i, hi, rfl⟩ := hs
  rw [List.mem_range] at hi
  rcases h with h | ⟨h1, h2⟩
  · omega
  · have := Nat.mul_le_mul_right stride (show i + 1 ≤ num img o 4 from hi)
    rw [Nat.succ_mul] at this
    omega

theorem memberSlots_range {base : Nat} {img : Bytes} {o stride member : Nat}
    (hm : member + 8 ≤ stride) : ∀ s ∈ memberSlots base img o stride member,
      0 < num img o 4 ∧ arrayData base img o ≤ s ∧ s + 8 ≤ arrayData base img o + num img o 4 * stride := by
  intro s hs
  unfold memberSlots at hs
  rw [List.mem_map] at hs
  obtain ⟨i, hi, rfl⟩ := hs
  rw [List.mem_range] at hi
  have := Nat.mul_le_mul_right stride (show i + 1 ≤ num img o 4 from hi)
  rw [Nat.succ_mul] at this
  omega

/-- How a function's address is moved from the exporter's base to the load address. -/
def moved (fbase load a : Nat) : Nat := if a = 0 then 0 else (a + W64 - fbase + load) % W64

theorem SameHead.rebaseSlot {fbase load : Nat} {img s t : Bytes} {slot : Nat} (hs : SameHead img s)
    (h1 : memSize ≤ slot) (h2 : slot + 8 ≤ img.length) (ht : rebaseSlot fbase load s slot = .ok t) :
    SameHead img t := by
  unfold Reloc.rebaseSlot at ht
  cases hw : word s slot with
  | none => rw [hw] at ht; simp at ht
  | some a =>
    rw [hw] at ht
    simp only [] at ht
    by_cases h0 : a = 0
    · rw [if_pos h0, Res.ok.injEq] at ht
      exact ht ▸ hs
    · rw [if_neg h0, Res.ok.injEq] at ht
      exact ht ▸ hs.setWord h1 h2

theorem rebase_mapped {base load : Nat} {img : Bytes} (hlen : memSize ≤ img.length)
    (hp : PlacedArray base img functionsAt functionStride) :
    ∃ out, rebaseFunctions base load img = .ok out ∧
      Mapped (moved (num img 0 8) load) (memberSlots base img functionsAt functionStride addressAt) img out := by
  have hW : W64 = 18446744073709551616 := rfl
  have hsl := memberSlots_inside (member := addressAt) hp (by decide)
  unfold rebaseFunctions
  have hsz : arraySize img functionsAt = .ok (num img functionsAt 4) := by
    unfold arraySize
    rw [if_pos (by unfold functionsAt; unfold memSize at hlen; omega)]
  rw [hsz, Res.bind]
  obtain ⟨out, h1, h2⟩ := loop_mapped
    (step := fun img' s => rebaseSlot (num img 0 8) load img' s)
    (g := moved (num img 0 8) load)
    (img := img) (slots := memberSlots base img functionsAt functionStride addressAt)
    (fun s hs => (hsl s hs).2) (memberSlots_apart _ _ _ _ _ (by decide))
    (fun s hs v hv => by
      unfold moved
      split
      · omega
      · exact Nat.mod_lt _ (by omega))
    (fun s hs img' hsame hw v hv => by
      unfold rebaseSlot moved
      rw [hw, hv]
      simp only []
      by_cases h0 : v = 0
      · rw [if_pos h0, if_pos h0]
        rw [h0] at hv
        rw [setWord_word (by rw [hw, hv])]
      · rw [if_neg h0, if_neg h0])
  refine ⟨out, ?_, h2⟩
  rw [← h1]
  unfold memberSlots
  rw [loop_map]
  apply loop_congr_inv (SameHead img)
  · intro i hi s hs
    rw [hs.num (by decide), hs.data base (by decide)]
  · intro i hi s t hs ht
    have hmem : arrayData base img functionsAt + i * functionStride + addressAt ∈
        memberSlots base img functionsAt functionStride addressAt := by
      unfold memberSlots; rw [List.mem_map]; exact ⟨i, hi, rfl⟩
    have hb := hsl _ hmem
    exact hs.rebaseSlot hb.1 hb.2 ht
  · exact SameHead.refl _

/-- The slots of the `database` members of all primitives. -/
def databaseSlots (base : Nat) (img : Bytes) : List Nat :=
  primitiveArrays.flatMap fun a => memberSlots base img a.1 a.2 databaseAt

/-- The entries of two arrays do not overlap. -/
def ArraysApart (base : Nat) (img : Bytes) (a b : Nat × Nat) : Prop :=
  num img a.1 4 = 0 ∨ num img b.1 4 = 0 ∨
    arrayData base img a.1 + num img a.1 4 * a.2 ≤ arrayData base img b.1 ∨
    arrayData base img b.1 + num img b.1 4 * b.2 ≤ arrayData base img a.1

theorem arrays_shape : ∀ a ∈ primitiveArrays, a.1 + 24 ≤ memSize ∧ databaseAt + 8 ≤ a.2 := by decide

theorem parent_mapped {base database : Nat} {img : Bytes} (hlen : memSize ≤ img.length)
    (hdb : database < W64)
    (hp : ∀ a ∈ primitiveArrays, PlacedArray base img a.1 a.2)
    (hap : primitiveArrays.Pairwise (ArraysApart base img)) :
    ∃ out, loop (parentTo base database) primitiveArrays img = .ok out ∧
      Mapped (fun _ => database) (databaseSlots base img) img out := by
  have hsl : ∀ s ∈ databaseSlots base img, memSize ≤ s ∧ s + 8 ≤ img.length := by
    intro s hs
    unfold databaseSlots at hs
    rw [List.mem_flatMap] at hs
    obtain ⟨a, ha, hs⟩ := hs
    exact memberSlots_inside (hp a ha) (arrays_shape a ha).2 s hs
  have happ : (databaseSlots base img).Pairwise Apart := by
    unfold databaseSlots
    rw [List.pairwise_flatMap]
    refine ⟨fun a ha => memberSlots_apart _ _ _ _ _ (by have := (arrays_shape a ha).2; unfold databaseAt at this; omega), ?_⟩
    apply List.Pairwise.imp_of_mem _ hap
    intro a b ha hb hab x hx y hy
    have h1 := memberSlots_range (arrays_shape a ha).2 x hx
    have h2 := memberSlots_range (arrays_shape b hb).2 y hy
    unfold ArraysApart at hab
    unfold Apart
    omega
  obtain ⟨out, h1, h2⟩ := loop_mapped (step := parentSlot database) (g := fun _ => database) (img := img)
    (slots := databaseSlots base img) (fun s hs => (hsl s hs).2) happ (fun _ _ _ _ => hdb)
    (fun s hs img' hsame hw v hv => by
      unfold parentSlot
      rw [hw, hv])
  refine ⟨out, ?_, h2⟩
  rw [← h1]
  unfold databaseSlots
  rw [loop_flatMap]
  have hstep : ∀ s t slot, memSize ≤ slot → slot + 8 ≤ img.length → SameHead img s →
      parentSlot database s slot = .ok t → SameHead img t := by
    intro s t slot h3 h4 hs ht
    unfold parentSlot at ht
    split at ht
    · simp at ht
    · simp only [Res.ok.injEq] at ht; exact ht ▸ hs.setWord h3 h4
  have hin : ∀ a ∈ primitiveArrays, ∀ x ∈ memberSlots base img a.1 a.2 databaseAt, memSize ≤ x ∧ x + 8 ≤ img.length :=
    fun a ha x hx => hsl x (by unfold databaseSlots; rw [List.mem_flatMap]; exact ⟨a, ha, hx⟩)
  apply loop_congr_inv (SameHead img)
  · intro a ha s hs
    unfold parentTo
    have hsh := arrays_shape a ha
    have hsz : arraySize s a.1 = .ok (num img a.1 4) := by
      rw [hs.size (by omega)]
      unfold arraySize
      rw [if_pos (by omega)]
    rw [hsz, Res.bind]
    unfold memberSlots
    rw [loop_map]
    apply loop_congr_inv (SameHead img)
    · intro i hi s hs
      rw [hs.data base (by omega)]
    · intro i hi s t hs ht
      have hb := hin a ha (arrayData base img a.1 + i * a.2 + databaseAt) (by
        unfold memberSlots; rw [List.mem_map]; exact ⟨i, hi, rfl⟩)
      exact hstep s t _ hb.1 hb.2 hs ht
    · exact hs
  · intro a ha s t hs ht
    exact loop_inv (SameHead img) (fun x hx s t hs ht => hstep s t x (hin a ha x hx).1 (hin a ha x hx).2 hs ht) hs ht
  · exact SameHead.refl _

end Clr.Reloc
