import Verif.Props.VBinInsideSpec
import Verif.Proofs.JSONInside
import Verif.Proofs.VBinTerm
/-
C94: loading a versioned binary stays inside the object.
-/
namespace Clr.VBin
open Clr.JSON (Ty Flds Tys Mem FldInfo Const Env strideOf OnlyIn slotBytes fieldBytes write_inside setElems_inside alloc_inside mem_read_length)

/-- Changes only what is in the `n` bytes at `a`, however it ends. -/
def Ins (a n : Nat) {α : Type} (x : Load α) : Prop := ∀ s, OnlyIn a n s.mem (x s).st.mem

/-- Changes no memory. -/
def Keeps {α : Type} (x : Load α) : Prop := ∀ s, (x s).st.mem = s.mem

theorem Keeps.ins {α : Type} {x : Load α} (h : Keeps x) (a n : Nat) : Ins a n x := fun s => by rw [h s]; exact .refl _ _ _

theorem Keeps.ok {α : Type} {x : Load α} (h : Keeps x) {s s' : St} {v : α} (hx : x s = .ok v s') : s'.mem = s.mem := by
  have := h s; rw [hx] at this; exact this

theorem Ins.ok {α : Type} {x : Load α} {a n : Nat} (h : Ins a n x) {s s' : St} {v : α} (hx : x s = .ok v s') : OnlyIn a n s.mem s'.mem := by
  have := h s; rw [hx] at this; exact this

theorem Ins.bind {α β : Type} {x : Load α} {f : α → Load β} {a n : Nat} (hx : Ins a n x) (hf : ∀ v, Ins a n (f v)) : Ins a n (x >>= f) := by
  intro s
  rw [bind_match]
  have := hx s
  cases h : x s with
  | ok v s' => rw [h] at this; exact this.trans (hf v s')
  | stop k s' => rw [h] at this; exact this

theorem Keeps.bind {α β : Type} {x : Load α} {f : α → Load β} (hx : Keeps x) (hf : ∀ v, Keeps (f v)) : Keeps (x >>= f) := by
  intro s
  rw [bind_match]
  have := hx s
  cases h : x s with
  | ok v s' => rw [h] at this; exact (hf v s').trans this
  | stop k s' => rw [h] at this; exact this

theorem Ins.mono {α : Type} {x : Load α} {a n b k : Nat} (h : Ins b k x) (h1 : a ≤ b) (h2 : b + k ≤ a + n) : Ins a n x :=
  fun s => (h s).mono h1 h2

theorem keeps_pure {α : Type} (v : α) : Keeps (pure v : Load α) := fun _ => rfl
theorem keeps_halt {α : Type} (k : Stop) : Keeps (Load.halt k : Load α) := fun _ => rfl

theorem keeps_read (n : Nat) : Keeps (read n) := by
  intro s
  unfold read
  split
  · split
    · rfl
    · split <;> rfl
  · rfl

theorem keeps_readU32 : Keeps readU32 := (keeps_read 4).bind fun _ => keeps_pure _

theorem keeps_seek (n : Nat) : Keeps (seekRel n) := by
  intro s
  unfold seekRel
  split <;> rfl

theorem keeps_bytesRead : Keeps bytesRead := fun _ => rfl

theorem keeps_peekCount : Keeps peekCount := by
  intro s
  unfold peekCount
  dsimp only
  split
  · split <;> rfl
  · rfl

theorem keeps_readHeader : Keeps readHeader :=
  keeps_readU32.bind fun _ => keeps_readU32.bind fun _ => keeps_readU32.bind fun _ => keeps_readU32.bind fun _ => keeps_readU32.bind fun _ => keeps_pure _

theorem keeps_readChunk : Keeps readChunk :=
  keeps_readU32.bind fun _ => keeps_readU32.bind fun _ => keeps_readU32.bind fun _ => keeps_pure _

theorem keeps_readSize (n : Nat) : Keeps (readSize n) := by
  unfold readSize
  split
  · exact keeps_readU32
  · exact keeps_pure _

theorem read_length {n : Nat} {s s' : St} {bs : Bytes} (h : read n s = .ok bs s') : bs.length ≤ n := by
  unfold read at h
  split at h
  · split at h
    · cases h; rw [List.length_take]; omega
    · split at h
      · cases h; exact Nat.zero_le _
      · cases h
  · cases h

theorem loadType_in (size b d : Nat) : Ins b size (loadType size b d) := by
  unfold loadType
  split
  · exact (keeps_seek _).ins _ _
  · intro s
    rw [bind_match]
    have := keeps_read size s
    cases h : read size s with
    | ok v s' => rw [h] at this; rw [← this]; exact write_inside _ _ _ (read_length h)
    | stop k s' => rw [h] at this; rw [← this]; exact .refl _ _ _

theorem loadEnum_in (size : Nat) (cs : List Const) (b d : Nat) : Ins b size (loadEnum size cs b d) := by
  unfold loadEnum
  split
  · exact (keeps_seek _).ins _ _
  · refine (keeps_readU32.ins _ _).bind fun h => ?_
    split
    · split
      · exact (keeps_halt _).ins _ _
      · intro s
        exact write_inside _ _ _ (by rw [length_le]; omega)
    · exact (keeps_pure _).ins _ _

/-- A writer whose elements go inside. -/
def WSits (a n : Nat) (w : Writer) : Prop :=
  Sits w.val ∧ (∀ k, w.key = some k → Sits k) ∧
  match w.place with
  | .arr base limit pos => a ≤ base ∧ base + limit ≤ a + n ∧ (∃ k, limit = k * slotBytes w.val w.isPtr) ∧ ∃ j, pos = j * slotBytes w.val w.isPtr
  | .cont addr => a ≤ addr ∧ addr < a + n

/-- `LoadObject` stays inside. -/
def LoIn (lo : LoadObj) : Prop := ∀ t b d h, Sits t → Ins b t.size (lo t b d h)

/-- What adding an element gives: one that is inside, or in memory that has been allocated. -/
structure Added (a n : Nat) (s s' : St) (w : Writer) (r : Nat × Writer) : Prop where
  only : OnlyIn a n s.mem s'.mem
  next : WSits a n r.2
  same : r.2.val = w.val ∧ r.2.isPtr = w.isPtr
  place : (a ≤ r.1 ∧ r.1 + slotBytes w.val w.isPtr ≤ a + n) ∨ (s.mem.next ≤ r.1 ∧ r.1 + slotBytes w.val w.isPtr ≤ s'.mem.next)

theorem addEmpty_in {a n : Nat} {w : Writer} (hw : WSits a n w) (s : St) : OnlyIn a n s.mem (addEmpty w s).st.mem ∧
    ∀ r s', addEmpty w s = .ok r s' → Added a n s s' w r := by
  obtain ⟨key, val, isPtr, place⟩ := w
  obtain ⟨hv, hk, hp⟩ := hw
  dsimp only at hv hk hp
  cases place with
  | arr base limit pos =>
    dsimp only at hp
    obtain ⟨w1, w2, ⟨k, rfl⟩, ⟨j, rfl⟩⟩ := hp
    unfold addEmpty
    dsimp only
    split
    · rename_i hlt
      refine ⟨.refl _ _ _, fun r s' h => ?_⟩
      cases h
      have hj : j < k := Nat.lt_of_mul_lt_mul_right hlt
      have hjk : (j + 1) * slotBytes val isPtr ≤ k * slotBytes val isPtr := Nat.mul_le_mul_right _ hj
      rw [Nat.succ_mul] at hjk
      refine ⟨.refl _ _ _, ⟨hv, hk, w1, w2, ⟨k, rfl⟩, ⟨j + 1, ?_⟩⟩, ⟨rfl, rfl⟩, .inl ⟨by dsimp only; omega, by dsimp only; omega⟩⟩
      rw [Nat.succ_mul]; rfl
    · exact ⟨.refl _ _ _, fun r s' h => by cases h⟩
  | cont addr =>
    dsimp only at hp
    have i1 : OnlyIn a n s.mem ((s.mem.alloc (strideOf val isPtr)).2.setElems addr (s.mem.elems addr ++ [(0, (s.mem.alloc (strideOf val isPtr)).1)])) :=
      (alloc_inside s.mem (strideOf val isPtr) a n).trans (setElems_inside _ _ hp.1 hp.2)
    refine ⟨i1, fun r s' h => ?_⟩
    cases h
    exact ⟨i1, ⟨hv, hk, hp⟩, ⟨rfl, rfl⟩, .inr ⟨Nat.le_refl s.mem.next, Nat.le_refl (s.mem.next + slotBytes val isPtr)⟩⟩

theorem addEmptyKey_in {a n : Nat} {w : Writer} (hw : WSits a n w) (k : Ty) (key : Nat) (s : St) :
    OnlyIn a n s.mem (addEmptyKey w k key s).st.mem ∧ ∀ r s', addEmptyKey w k key s = .ok r s' → Added a n s s' w r := by
  unfold addEmptyKey
  obtain ⟨wk, val, isPtr, place⟩ := w
  cases place with
  | arr base limit pos => exact addEmpty_in hw s
  | cont addr =>
    have hp : a ≤ addr ∧ addr < a + n := hw.2.2
    have hfr : OnlyIn a n s.mem ((s.mem.alloc k.size).2.alloc (strideOf val isPtr)).2 :=
      (alloc_inside _ _ _ _).trans (alloc_inside _ _ _ _)
    have i1 : OnlyIn a n s.mem (Clr.JSON.addKey s.mem addr key k val isPtr).2 := by
      refine (hfr.fresh (v := s.mem.next) (k := k.size) (Nat.le_refl _) (Nat.le_add_right (s.mem.next + k.size) _)
        (write_inside _ _ _ ?_)).trans (setElems_inside _ _ hp.1 hp.2)
      rw [mem_read_length]
      exact Nat.le_refl _
    refine ⟨i1, fun r s' h => ?_⟩
    cases h
    exact ⟨i1, hw, ⟨rfl, rfl⟩, .inr ⟨Nat.le_add_right s.mem.next k.size, Nat.le_refl (s.mem.next + k.size + slotBytes val isPtr)⟩⟩

theorem addElem_in {lo : LoadObj} (hlo : LoIn lo) (h : Header) {a n : Nat} {w : Writer} (hw : WSits a n w) (s : St) :
    OnlyIn a n s.mem (addElem lo h w s).st.mem ∧ ∀ r s', addElem lo h w s = .ok r s' → Added a n s s' w r := by
  unfold addElem
  cases hk : w.key with
  | some k =>
    dsimp only
    unfold addKeyed
    split
    · rename_i hlt
      rw [bind_match]
      have hs0 : OnlyIn a n s.mem (s.mem.alloc 128).2 := alloc_inside _ _ _ _
      have hl := hlo k s.mem.next h.keySize h.keyHash (hw.2.1 k hk) { s with mem := (s.mem.alloc 128).2 }
      have hl' := hs0.fresh (Nat.le_refl _) (show s.mem.next + k.size ≤ s.mem.next + 128 by omega) hl
      rw [show (keyData s) = .ok s.mem.next { s with mem := (s.mem.alloc 128).2 } from rfl]
      dsimp only
      rw [bind_match]
      cases hx : lo k s.mem.next h.keySize h.keyHash { s with mem := (s.mem.alloc 128).2 } with
      | ok v s1 =>
        rw [hx] at hl'
        have := addEmptyKey_in hw k s.mem.next s1
        refine ⟨hl'.trans this.1, fun r s' h => ?_⟩
        have ha := this.2 r s' h
        have := hl'.grows
        refine ⟨hl'.trans ha.only, ha.next, ha.same, ha.place.imp id fun hp => ⟨Nat.le_trans this hp.1, hp.2⟩⟩
      | stop k s1 =>
        rw [hx] at hl'
        exact ⟨hl', fun r s' h => by cases h⟩
    · exact ⟨.refl _ _ _, fun r s' h => by cases h⟩
  | none => exact addEmpty_in hw s

theorem loadItems_in {lo : LoadObj} (hlo : LoIn lo) (h : Header) {a n : Nat} : ∀ (c : Nat) (w : Writer), WSits a n w → Ins a n (loadItems lo h c w) := by
  intro c
  induction c with
  | zero => intro w _; exact (keeps_pure _).ins _ _
  | succ c ih =>
    intro w hw s
    rw [loadItems, bind_match]
    obtain ⟨h1, h2⟩ := addElem_in hlo h hw s
    cases hx : addElem lo h w s with
    | stop k s1 => rw [hx] at h1; exact h1
    | ok r s1 =>
      have ha := h2 r s1 hx
      dsimp only
      rw [bind_match]
      have hr := keeps_readSize h.valueSize s1
      cases hy : readSize h.valueSize s1 with
      | stop k s2 => rw [hy] at hr; show OnlyIn a n s.mem s2.mem; rw [show s2.mem = s1.mem from hr]; exact ha.only
      | ok z s2 =>
        rw [hy] at hr
        have hr : s2.mem = s1.mem := hr
        dsimp only
        rw [bind_match]
        have hv : OnlyIn a n s.mem (loadValue lo w r.1 z s2).st.mem := by
          unfold loadValue
          split
          · show OnlyIn a n s.mem s2.mem
            rw [hr]; exact ha.only
          · rename_i hp
            have hsl : slotBytes w.val w.isPtr = w.val.size := by unfold slotBytes; rw [if_neg hp]
            have hl := hlo w.val r.1 z w.val.hash.toNat hw.1 s2
            rw [hr] at hl
            have hpl := ha.place
            rw [hsl] at hpl
            rcases hpl with ⟨p1, p2⟩ | ⟨p1, p2⟩
            · exact ha.only.trans (hl.mono p1 p2)
            · exact ha.only.fresh p1 p2 hl
        cases hu : loadValue lo w r.1 z s2 with
        | stop k s3 => rw [hu] at hv; exact hv
        | ok u s3 => rw [hu] at hv; exact hv.trans (ih r.2 ha.next s3)

theorem loadContainer_in {lo : LoadObj} (hlo : LoIn lo) {a n : Nat} {w : Writer} (hw : WSits a n w) (d x : Nat) :
    Ins a n (loadContainer lo w d x) := by
  unfold loadContainer
  refine (keeps_bytesRead.ins _ _).bind fun start => (keeps_readHeader.ins _ _).bind fun h => ?_
  generalize (if x < h.count then x else h.count) = c
  dsimp only
  split
  · exact (keeps_seek _).ins _ _
  · refine (loadItems_in hlo h _ w hw).bind fun _ => (keeps_bytesRead.ins _ _).bind fun now => ?_
    split
    · exact (keeps_seek _).ins _ _
    · exact (keeps_pure _).ins _ _

theorem loadNoContainer_in (a n : Nat) : Ins a n loadNoContainer := by
  unfold loadNoContainer
  refine (keeps_peekCount.ins _ _).bind fun _ => (keeps_readHeader.ins _ _).bind fun h => ?_
  split
  · exact (keeps_halt _).ins _ _
  · exact (keeps_pure _).ins _ _

mutual
theorem findBases_mem {h : Nat} {x : FldInfo × Ty} (bs : Tys) (hf : findBases h bs = .ok (some x)) : x ∈ bs.allFields := by
  match bs with
  | .nil => rw [findBases] at hf; cases hf
  | .cons t r =>
    rw [findBases] at hf
    rw [Tys.allFields, List.mem_append]
    cases hft : findField h t with
    | ok o =>
      rw [hft] at hf
      cases o with
      | some y =>
        have hxy : y = x := by simpa using hf
        exact .inl (findField_mem t (hxy ▸ hft))
      | none => exact .inr (findBases_mem r hf)
    | trap => rw [hft] at hf; cases hf
    | ub => rw [hft] at hf; cases hf

theorem findField_mem {h : Nat} {x : FldInfo × Ty} (t : Ty) (hf : findField h t = .ok (some x)) : x ∈ t.allFields := by
  match t with
  | .cls hh s fl fs bs =>
    rw [findField, findOwn_eq] at hf
    rw [Ty.allFields, List.mem_append]
    cases hfo : fs.list.find? (fun x => nameHash x == BitVec.ofNat 32 h) with
    | some y =>
      rw [hfo] at hf
      have hxy : y = x := by simpa using hf
      exact .inl (hxy ▸ List.mem_of_find?_eq_some hfo)
    | none => rw [hfo] at hf; exact .inr (findBases_mem bs hf)
  | .prim _ _ => rw [findField] at hf; cases hf; all_goals simp
  | .enum _ _ _ _ => rw [findField] at hf; cases hf; all_goals simp
  | .tmpl _ _ _ => rw [findField] at hf; cases hf; all_goals simp
  | .vec _ _ _ _ => rw [findField] at hf; cases hf; all_goals simp
  | .dict _ _ _ _ _ => rw [findField] at hf; cases hf; all_goals simp
end

theorem loadField_in {e : Env} {lo : LoadObj} (hlo : LoIn lo) {h : BitVec 32} {s : Nat} {fl : BitVec 32} {fs : Flds} {bs : Tys}
    (ht : Sits (.cls h s fl fs bs)) (b : Nat) : Ins b s (loadField e lo (.cls h s fl fs bs) b) := by
  unfold loadField
  refine (keeps_readChunk.ins _ _).bind fun c => ?_
  split
  · rename_i f t hf
    have hmem := findField_mem _ hf
    cases ht with
    | cls _ _ _ _ _ hin hp hr =>
      have h1 := hin _ hmem
      have h2 := hp _ hmem
      have h3 := hr _ hmem
      dsimp only at h1 h2 h3
      split
      · exact (keeps_seek _).ins _ _
      · split
        · rename_i n hn
          rw [hn] at h1
          unfold fieldBytes at h1
          dsimp only at h1
          refine (loadContainer_in (a := b) (n := s) hlo ?_ _ _)
          refine ⟨h3, fun k hk => (by cases hk), Nat.le_add_right b f.offset, ?_, ⟨n, rfl⟩, ⟨0, (Nat.zero_mul _).symm⟩⟩
          show b + f.offset + n * slotBytes t f.isPtr ≤ b + s
          omega
        · rename_i hn
          rw [hn] at h1 h2
          unfold fieldBytes slotBytes at h1
          dsimp only at h1
          refine (hlo t _ _ _ h3).mono (by omega) ?_
          cases hq : f.isPtr with
          | true =>
            have := h2 hq rfl
            rw [hq] at h1
            simp only [if_true] at h1
            omega
          | false =>
            rw [hq] at h1
            simp only [Bool.false_eq_true, if_false] at h1
            omega
  · exact (keeps_seek _).ins _ _
  · exact (keeps_halt _).ins _ _

theorem classLoop_in {field : Load Unit} {a n : Nat} (hf : Ins a n field) (p : Nat) : ∀ c, Ins a n (classLoop field p c) := by
  intro c
  induction c with
  | zero => exact (keeps_halt _).ins _ _
  | succ c ih =>
    rw [classLoop]
    refine (keeps_bytesRead.ins _ _).bind fun q => ?_
    split
    · exact hf.bind fun _ => ih
    · exact (keeps_pure _).ins _ _

theorem loadBody_in {e : Env} {lo : LoadObj} (hlo : LoIn lo) (n : Nat) {t : Ty} (ht : Sits t) (b d : Nat) : Ins b t.size (loadBody e lo n t b d) := by
  cases t with
  | prim h s => exact loadType_in s b d
  | enum h s cs fl => exact loadEnum_in s cs b d
  | cls h s fl fs bs => exact (keeps_bytesRead.ins _ _).bind fun p => classLoop_in (loadField_in hlo ht b) _ _
  | tmpl h s bs => exact loadNoContainer_in _ _
  | vec h s v p =>
    cases ht with
    | vec _ _ _ _ hs hv =>
      refine (keeps_peekCount.ins _ _).bind fun c => ?_
      refine Ins.bind (fun s => setElems_inside _ _ (Nat.le_refl _) (Nat.lt_add_of_pos_right hs)) fun _ => loadContainer_in hlo ?_ _ _
      exact ⟨hv, fun k hk => (by cases hk), Nat.le_refl _, Nat.lt_add_of_pos_right hs⟩
  | dict h s k v p =>
    cases ht with
    | dict _ _ _ _ _ hs hk hv =>
      refine (keeps_peekCount.ins _ _).bind fun c => ?_
      refine Ins.bind (fun s => setElems_inside _ _ (Nat.le_refl _) (Nat.lt_add_of_pos_right hs)) fun _ => loadContainer_in hlo ?_ _ _
      exact ⟨hv, fun k' hk' => (by cases hk'; exact hk), Nat.le_refl _, Nat.lt_add_of_pos_right hs⟩

theorem loadObject_in (e : Env) : ∀ n, LoIn (loadObject e n) := by
  intro n
  induction n with
  | zero => intro t b d h _; exact (keeps_halt _).ins _ _
  | succ n ih =>
    intro t b d h ht
    rw [loadObject]
    split
    · exact (keeps_seek _).ins _ _
    · exact loadBody_in ih n ht b d

theorem load_in (e : Env) (n : Nat) {t : Ty} (ht : Sits t) (b : Nat) : Ins b t.size (load e n t b) :=
  (keeps_readChunk.ins _ _).bind fun c => loadObject_in e n t b _ _ ht

end Clr.VBin
