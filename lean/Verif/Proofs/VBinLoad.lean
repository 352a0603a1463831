import Verif.Proofs.VBinSave
import Verif.Proofs.JSONDict

/-! Loading what was saved. -/
namespace Clr.VBin
open Clr.JSON (Ty Flds Tys Mem FldInfo Const Env strideOf Apart elemAt arrayItems savedField Effect)

theorem run_bind {α β : Type} {x : Load α} {f : α → Load β} {s s' : St} {v : α} (h : x s = .ok v s') :
    (x >>= f) s = f v s' := by
  show Load.bind x f s = _
  simp [Load.bind, h]

theorem run_pure {α : Type} (v : α) (s : St) : (pure v : Load α) s = .ok v s := rfl

/-- After reading `k` bytes. -/
def adv (s : St) (k : Nat) : St := { s with pos := s.pos + k }

/-- After reading `k` bytes, with memory `m`. -/
def done (s : St) (k : Nat) (m : Mem) : St := { s with pos := s.pos + k, mem := m }

/-- These bytes come next, and the buffer is not too large. -/
def Has (s : St) (d : Bytes) : Prop :=
  0 ≤ s.pos ∧ s.data.length < 2 ^ 31 ∧ s.pos.toNat + d.length ≤ s.data.length ∧
    (s.data.drop s.pos.toNat).take d.length = d

theorem Has.left {s : St} {d d' : Bytes} (h : Has s (d ++ d')) : Has s d := by
  obtain ⟨h1, h2, h3, h4⟩ := h
  simp only [List.length_append] at h3 h4
  refine ⟨h1, h2, by omega, ?_⟩
  have : ((s.data.drop s.pos.toNat).take (d.length + d'.length)).take d.length = (d ++ d').take d.length := by rw [h4]
  rw [List.take_take, Nat.min_eq_left (by omega)] at this
  rw [this, List.take_left']
  rfl

theorem Has.right {s : St} {d d' : Bytes} (h : Has s (d ++ d')) : Has (adv s d.length) d' := by
  obtain ⟨h1, h2, h3, h4⟩ := h
  simp only [List.length_append] at h3 h4
  have hp : (s.pos + (d.length : Int)).toNat = s.pos.toNat + d.length := by omega
  refine ⟨by simp only [adv]; omega, h2, by simp only [adv]; omega, ?_⟩
  simp only [adv, hp]
  have : ((s.data.drop s.pos.toNat).take (d.length + d'.length)).drop d.length = (d ++ d').drop d.length := by rw [h4]
  rw [List.drop_left'] at this
  · rw [List.drop_take, List.drop_drop] at this
    rw [Nat.add_sub_cancel_left] at this
    exact this
  · rfl

theorem Has.mem {s : St} {d : Bytes} (h : Has s d) (m : Mem) : Has { s with mem := m } d := h

theorem Has.len {s : St} {d : Bytes} (h : Has s d) : d.length < 2 ^ 31 := by
  obtain ⟨h1, h2, h3, h4⟩ := h
  omega

theorem read_has {s : St} {d : Bytes} (h : Has s d) : read d.length s = .ok d (adv s d.length) := by
  obtain ⟨h1, h2, h3, h4⟩ := h
  simp only [read]
  rw [if_pos (by omega), if_pos h1, h4]
  rfl

theorem readU32_has {s : St} {v : Nat} (h : Has s (le 4 v)) (hv : v < 2 ^ 32) : readU32 s = .ok v (adv s 4) := by
  have := read_has h
  rw [length_le] at this
  rw [readU32, run_bind this]
  simp only [run_pure, unle_le_of_lt (show v < 256 ^ 4 by omega)]

theorem asInt_lt {n : Nat} (h : n < 2 ^ 31) : asInt n = n := by simp [asInt, h]

theorem seek_has {s : St} {d : Bytes} (h : Has s d) : seekRel d.length s = .ok () (adv s d.length) := by
  have hl := h.len
  obtain ⟨h1, h2, h3, h4⟩ := h
  simp only [seekRel, asInt_lt hl]
  rw [if_pos (by omega)]
  simp [adv]
  omega

theorem bytesRead_has {s : St} {d : Bytes} (h : Has s d) : bytesRead s = .ok s.pos.toNat s := by
  obtain ⟨h1, h2, h3, h4⟩ := h
  simp only [bytesRead]
  rw [Int.emod_eq_of_lt h1 (by omega)]

theorem adv_adv (s : St) (j k : Nat) : adv (adv s j) k = adv s (j + k) := by
  simp [adv, Int.add_assoc]

theorem Has.nil {s : St} {d : Bytes} (h : Has s d) : Has s [] := by
  have : Has s ([] ++ d) := h
  exact this.left

theorem toNat_lt32 (h : BitVec 32) : h.toNat < 2 ^ 32 := h.isLt

/-- Reading a chunk's header. -/
theorem readChunk_has {s : St} {t n : BitVec 32} {d : Bytes} (h : Has s (encChunk t n d)) :
    readChunk s = .ok (t.toNat, n.toNat, d.length) (adv s 12) ∧ Has (adv s 12) d := by
  simp only [encChunk, List.append_assoc] at h
  have h1 := readU32_has h.left (toNat_lt32 t)
  have r1 := h.right; rw [length_le] at r1
  have h2 := readU32_has r1.left (toNat_lt32 n)
  have r2 := r1.right; rw [length_le, adv_adv] at r2
  have h3 := readU32_has r2.left (by have := r2.right.len; omega)
  have r3 := r2.right; rw [length_le, adv_adv] at r3
  rw [adv_adv] at h2 h3
  refine ⟨?_, r3⟩
  rw [readChunk, run_bind h1, run_bind h2, run_bind h3]
  rfl

/-- Reading a container's header. -/
theorem readHeader_has {s : St} {count : Nat} {key : Option Ty} {t : Ty} {d : Bytes} (hc : count < 2 ^ 32)
    (hk : ∀ k, key = some k → k.size < 2 ^ 32) (ht : valueTypeSize t false < 2 ^ 32)
    (h : Has s (containerHeader count key t false ++ d)) :
    readHeader s = .ok ⟨count, (keyInfo key).1, (keyInfo key).2, t.hash.toNat, valueTypeSize t false⟩ (adv s 20) ∧
      Has (adv s 20) d := by
  have hk1 : (keyInfo key).1 < 2 ^ 32 := by
    cases key with
    | none => simp [keyInfo]
    | some k => exact toNat_lt32 _
  have hk2 : (keyInfo key).2 < 2 ^ 32 := by
    cases key with
    | none => simp [keyInfo]
    | some k => exact hk k rfl
  simp only [containerHeader, List.append_assoc] at h
  have h1 := readU32_has h.left hc
  have r1 := h.right; rw [length_le] at r1
  have h2 := readU32_has r1.left hk1
  have r2 := r1.right; rw [length_le, adv_adv] at r2
  have h3 := readU32_has r2.left hk2
  have r3 := r2.right; rw [length_le, adv_adv] at r3
  have h4 := readU32_has r3.left (toNat_lt32 _)
  have r4 := r3.right; rw [length_le, adv_adv] at r4
  have h5 := readU32_has r4.left ht
  have r5 := r4.right; rw [length_le, adv_adv] at r5
  rw [adv_adv] at h2 h3 h4 h5
  refine ⟨?_, r5⟩
  rw [readHeader, run_bind h1, run_bind h2, run_bind h3, run_bind h4, run_bind h5]
  rfl

/-! ### Where values lie -/

/-- `Shared` for two fields. -/
def CellShared (e : Env) (x y : FldInfo × Ty) (b z : Nat) : Prop :=
  (x.1.count = none ∧ y.1.count = none ∧ Shared e x.2 y.2 b z) ∨
  ∃ n n' i, x.1.count = some n ∧ y.1.count = some n' ∧ i < n ∧ i < n' ∧ Shared e x.2 y.2 (elemAt b i y.2.size) z

/-- `Got` for two fields. -/
def CellGot (e : Env) (m m' : Mem) (R : Nat → Prop) (m0 : Mem) (x y : FldInfo × Ty) (a b : Nat) : Prop :=
  (x.1.count = none → y.1.count = none → Got e m m' R m0 x.2 y.2 a b) ∧
  (∀ n n', x.1.count = some n → y.1.count = some n' → ∀ i, i < n → i < n' →
    Got e m m' R m0 x.2 y.2 (elemAt a i x.2.size) (elemAt b i y.2.size))

theorem extent_none {y : FldInfo × Ty} (hp : y.1.isPtr = false) (hc : y.1.count = none) : y.1.extent y.2 = y.2.size := by
  simp [FldInfo.extent, hc, strideOf, hp]

theorem extent_some {y : FldInfo × Ty} {n : Nat} (hp : y.1.isPtr = false) (hc : y.1.count = some n) :
    y.1.extent y.2 = n * y.2.size := by
  simp [FldInfo.extent, hc, strideOf, hp]

theorem shared_within {e : Env} {t t' : Ty} {b x : Nat} (h : Shared e t t' b x) (hs : Supported e t') :
    b ≤ x ∧ x < b + t'.size := by
  induction h with
  | prim h1 h2 => exact ⟨h1, h2⟩
  | enum h1 h2 => exact ⟨h1, h2⟩
  | vec h1 h2 => exact ⟨h1, h2⟩
  | dict h1 h2 => exact ⟨h1, h2⟩
  | @one h h' s s' fl fl' fs fs' bs bs' b z x y hx hy hn ht hc hc' hz ih =>
    cases hs with
    | cls _ _ _ _ _ bases names plain types inside apart =>
      have hw := ih (types y hy)
      have hi := inside y hy
      rw [extent_none (plain y hy).1 hc'] at hi
      simp only [Ty.size]
      omega
  | @arr h h' s s' fl fl' fs fs' bs bs' b z n n' i x y hx hy hn ht hc hc' hi hi' hz ih =>
    cases hs with
    | cls _ _ _ _ _ bases names plain types inside apart =>
      have hw := ih (types y hy)
      have hin := inside y hy
      rw [extent_some (plain y hy).1 hc'] at hin
      have hle := Clr.JSON.elem_le (s := y.2.size) hi'
      simp only [Ty.size]
      simp only [elemAt] at hw
      omega

theorem cellShared_within {e : Env} {x y : FldInfo × Ty} {b z : Nat} (h : CellShared e x y b z) (hs : Supported e y.2)
    (hp : y.1.isPtr = false) : b ≤ z ∧ z < b + y.1.extent y.2 := by
  rcases h with ⟨hc, hc', hz⟩ | ⟨n, n', i, hc, hc', hi, hi', hz⟩
  · rw [extent_none hp hc']
    exact shared_within hz hs
  · rw [extent_some hp hc']
    have hw := shared_within hz hs
    have hle := Clr.JSON.elem_le (s := y.2.size) hi'
    simp only [elemAt] at hw
    omega

theorem got_congr {e : Env} {m m1 m2 : Mem} {R R' : Nat → Prop} {m0 m0' : Mem} {t t' : Ty} {a b : Nat}
    (hg : Got e m m1 R m0 t t' a b) (hs : Supported e t')
    (h0 : ∀ x, b ≤ x → x < b + t'.size → m0'.byte x = m0.byte x)
    (h2 : ∀ x, (b ≤ x ∧ x < b + t'.size) ∨ R x → m2.byte x = m1.byte x ∧ m2.elems x = m1.elems x)
    (hR : ∀ x, R x → R' x) : Got e m m2 R' m0' t t' a b := by
  induction hg generalizing m0' with
  | @prim m0 h s a b hv =>
    refine .prim ?_
    rw [← hv]
    exact Clr.JSON.read_congr fun x h3 h4 => (h2 x (.inl ⟨h3, h4⟩)).1
  | @resized m0 h s s' a b hne hv =>
    refine .resized hne ?_
    have h3 : m2.read b s' = m1.read b s' := Clr.JSON.read_congr fun x h3 h4 => (h2 x (.inl ⟨h3, h4⟩)).1
    have h4 : m0.read b s' = m0'.read b s' := Clr.JSON.read_congr fun x h3 h4 => (h0 x h3 h4).symm
    rw [h3, hv, h4]
  | @enum m0 h cs cs' fl fl' a b hv hn =>
    have hr : m2.read b 4 = m1.read b 4 := Clr.JSON.read_congr fun x h3 h4 => (h2 x (.inl ⟨h3, h4⟩)).1
    refine .enum (fun v hv' => ?_) (fun hn' => ?_)
    · rw [enumAt, hr]; exact hv v hv'
    · rw [hr, hn hn']
      exact Clr.JSON.read_congr fun x h3 h4 => (h0 x h3 h4).symm
  | @cls m0 h s s' fl fl' fs fs' bs bs' a b one arr ihone iharr =>
    cases hs with
    | cls _ _ _ _ _ bases names plain types inside apart =>
      refine .cls (fun x hx y hy hn ht hc hc' => ?_) (fun x hx y hy hn ht n n' hc hc' i hi hi' => ?_)
      · have hin := inside y hy
        rw [extent_none (plain y hy).1 hc'] at hin
        refine ihone x hx y hy hn ht hc hc' (types y hy) (fun z h3 h4 => h0 z (by omega) (by simp only [Ty.size]; omega))
          (fun z hz => h2 z (hz.imp_left fun hz => ⟨by omega, by simp only [Ty.size]; omega⟩))
      · have hin := inside y hy
        rw [extent_some (plain y hy).1 hc'] at hin
        have hle := Clr.JSON.elem_le (s := y.2.size) hi'
        refine iharr x hx y hy hn ht n n' hc hc' i hi hi' (types y hy)
          (fun z h3 h4 => h0 z (by simp only [elemAt] at h3 h4; omega) (by simp only [Ty.size]; simp only [elemAt] at h3 h4; omega))
          (fun z hz => h2 z (hz.imp_left fun hz => ⟨by simp only [elemAt] at hz; omega, by simp only [Ty.size]; simp only [elemAt] at hz; omega⟩))
  | @vec m0 h s s' t t' a b ms len fresh elems ih =>
    cases hs with
    | vec _ _ _ hs hl ht =>
      have he : m2.elems b = m1.elems b := (h2 b (.inl ⟨by omega, by simp only [Ty.size]; omega⟩)).2
      refine .vec ms (by rw [he]; exact len) (fun i hi x h3 h4 => ?_) (fun i hi => ?_)
      · rw [he] at h3 h4
        exact hR x (fresh i hi x h3 h4)
      · rw [he]
        exact ih i hi ht (fun _ _ _ => rfl) (fun x hx => h2 x (.inr (hx.elim (fun hx => fresh i hi x hx.1 hx.2) id)))
  | @dict m0 h s s' k k' t t' a b ms len freshKey keys fresh elems ihk ih =>
    cases hs with
    | dict _ _ _ _ hs hl hk ht hkl hp =>
      have he : m2.elems b = m1.elems b := (h2 b (.inl ⟨by omega, by simp only [Ty.size]; omega⟩)).2
      refine .dict ms (by rw [he]; exact len) (fun i hi x h3 h4 => ?_) (fun i hi => ?_) (fun i hi x h3 h4 => ?_) (fun i hi => ?_)
      · rw [he] at h3 h4
        exact hR x (freshKey i hi x h3 h4)
      · rw [he]
        exact ihk i hi hk (fun _ _ _ => rfl) (fun x hx => h2 x (.inr (hx.elim (fun hx => freshKey i hi x hx.1 hx.2) id)))
      · rw [he] at h3 h4
        exact hR x (fresh i hi x h3 h4)
      · rw [he]
        exact ih i hi ht (fun _ _ _ => rfl) (fun x hx => h2 x (.inr (hx.elim (fun hx => fresh i hi x hx.1 hx.2) id)))

theorem cellGot_congr {e : Env} {m m1 m2 : Mem} {R R' : Nat → Prop} {m0 m0' : Mem} {x y : FldInfo × Ty} {a b : Nat}
    (hg : CellGot e m m1 R m0 x y a b) (hs : Supported e y.2) (hp : y.1.isPtr = false)
    (h0 : ∀ z, b ≤ z → z < b + y.1.extent y.2 → m0'.byte z = m0.byte z)
    (h2 : ∀ z, (b ≤ z ∧ z < b + y.1.extent y.2) ∨ R z → m2.byte z = m1.byte z ∧ m2.elems z = m1.elems z)
    (hR : ∀ z, R z → R' z) : CellGot e m m2 R' m0' x y a b := by
  refine ⟨fun hc hc' => ?_, fun n n' hc hc' i hi hi' => ?_⟩
  · rw [extent_none hp hc'] at h0 h2
    exact got_congr (hg.1 hc hc') hs h0 h2 hR
  · rw [extent_some hp hc'] at h0 h2
    have hle := Clr.JSON.elem_le (s := y.2.size) hi'
    exact got_congr (hg.2 n n' hc hc' i hi hi') hs
      (fun z h3 h4 => h0 z (by simp only [elemAt] at h3 h4; omega) (by simp only [elemAt] at h3 h4; omega))
      (fun z hz => h2 z (hz.imp_left fun hz => ⟨by simp only [elemAt] at hz; omega, by simp only [elemAt] at hz; omega⟩)) hR

/-! ### Finding fields -/

theorem findOwn_eq (h : BitVec 32) (fs : Flds) : Clr.JSON.findOwn h fs = fs.list.find? fun x => nameHash x == h :=
  Clr.JSON.findOwn_eq h fs

mutual
theorem findBases_eq (h : Nat) (bs : Tys) (hb : ClassBasesOf bs) :
    findBases h bs = .ok (bs.allFields.find? fun x => nameHash x == BitVec.ofNat 32 h) := by
  match bs with
  | .nil => simp [findBases, Tys.allFields]
  | .cons t r =>
    rw [ClassBasesOf] at hb
    rw [findBases, findField_eq h t hb.1, Tys.allFields, List.find?_append]
    cases t.allFields.find? (fun x => nameHash x == BitVec.ofNat 32 h) with
    | none => simp [findBases_eq h r hb.2]
    | some x => simp

theorem findField_eq (h : Nat) (t : Ty) (hb : ClassBases t) :
    findField h t = .ok (t.allFields.find? fun x => nameHash x == BitVec.ofNat 32 h) := by
  match t with
  | .cls hh s fl fs bs =>
    rw [ClassBases] at hb
    rw [findField, Ty.allFields, List.find?_append, findOwn_eq, findBases_eq h bs hb]
    cases fs.list.find? (fun x => nameHash x == BitVec.ofNat 32 h) <;> simp
  | .prim _ _ => simp [ClassBases] at hb
  | .enum _ _ _ _ => simp [ClassBases] at hb
  | .tmpl _ _ _ => simp [ClassBases] at hb
  | .vec _ _ _ _ => simp [ClassBases] at hb
  | .dict _ _ _ _ _ => simp [ClassBases] at hb
end

theorem pairwise_unique {α β : Type} {f : α → β} {l : List α} (h : l.Pairwise fun x y => f x ≠ f y) {x y : α} (hx : x ∈ l)
    (hy : y ∈ l) (he : f x = f y) : x = y := by
  induction l with
  | nil => simp at hx
  | cons z l ih =>
    rw [List.pairwise_cons] at h
    rcases List.mem_cons.1 hx with hx' | hx' <;> rcases List.mem_cons.1 hy with hy' | hy'
    · rw [hx', hy']
    · rw [hx'] at he; exact absurd he (h.1 y hy')
    · rw [hy'] at he; exact absurd he.symm (h.1 x hx')
    · exact ih h.2 hx' hy'

end Clr.VBin
