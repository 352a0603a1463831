import Verif.Proofs.VBinLoad

/-! Loading ends unless it seeks backwards; more steps do not change what it does. -/
namespace Clr.VBin
open Clr.JSON (Ty Flds Tys Mem FldInfo Const Env strideOf)

/-- The state at the end. -/
def Out.st {α : Type} : Out α → St
  | .ok _ s => s
  | .stop _ s => s

/-- A place in a buffer that is not too large, reached without a backward seek. -/
def Fwd (s : St) : Prop := s.back = false ∧ 0 ≤ s.pos ∧ s.pos ≤ s.data.length ∧ s.data.length < 2 ^ 31

/-- The stops allowed: `ub` only if so stated, no running out of steps. -/
def StopOk (ub : Prop) (k : Stop) : Prop := k ≠ .fuel ∧ (k = .ub → ub)

/-- Keeps `back` once set and the data; going forward, it moves by at least `d` bytes and stops for a permitted
reason.  Its steps suffice for buffers no longer than `L`. -/
structure Fine (ub : Prop) (L d : Nat) {α : Type} (x : Load α) : Prop where
  back : ∀ s, s.back = true → (x s).st.back = true
  data : ∀ s v s', x s = .ok v s' → s'.data = s.data
  ok : ∀ s v s', Fwd s → s.data.length ≤ L → x s = .ok v s' → s'.back = false → Fwd s' ∧ s.pos + d ≤ s'.pos
  stop : ∀ s k s', Fwd s → s.data.length ≤ L → x s = .stop k s' → s'.back = false → StopOk ub k

variable {ub : Prop} {L : Nat}

theorem Fine.pure {α : Type} (v : α) : Fine ub L 0 (pure v : Load α) :=
  ⟨fun s h => h, fun s v s' h => by cases h; rfl, fun s v s' hf _ h _ => by cases h; exact ⟨hf, by simp⟩,
    fun s k s' _ _ h => by cases h⟩

theorem bind_match {α β : Type} (x : Load α) (f : α → Load β) (s : St) :
    (x >>= f) s = match x s with | .ok v s' => f v s' | .stop k s' => .stop k s' := rfl

theorem Fine.bind {α β : Type} {d d' : Nat} {x : Load α} {f : α → Load β} (hx : Fine ub L d x) (hf : ∀ v, Fine ub L d' (f v)) :
    Fine ub L (d + d') (x >>= f) := by
  have hb : ∀ s, (x >>= f) s = match x s with | .ok v s' => f v s' | .stop k s' => .stop k s' := fun s => rfl
  refine ⟨fun s h => ?_, fun s v s' h => ?_, fun s v s' hs hL h hbk => ?_, fun s k s' hs hL h hbk => ?_⟩
  · have h1 := hx.back s h
    rw [hb]
    cases hxs : x s with
    | ok v s1 => rw [hxs] at h1; exact (hf v).back s1 h1
    | stop k s1 => rw [hxs] at h1; exact h1
  · rw [hb] at h
    cases hxs : x s with
    | ok v1 s1 => rw [hxs] at h; exact ((hf v1).data s1 v s' h).trans (hx.data s v1 s1 hxs)
    | stop k s1 => rw [hxs] at h; cases h
  · rw [hb] at h
    cases hxs : x s with
    | ok v1 s1 =>
      rw [hxs] at h
      dsimp only at h
      have h1 : s1.back = false := by
        cases hh : s1.back with
        | false => rfl
        | true =>
          have := (hf v1).back s1 hh
          rw [h] at this
          simp [Out.st, hbk] at this
      obtain ⟨h2, h3⟩ := hx.ok s v1 s1 hs hL hxs h1
      obtain ⟨h4, h5⟩ := (hf v1).ok s1 v s' h2 (by rw [hx.data s v1 s1 hxs]; exact hL) h hbk
      exact ⟨h4, by omega⟩
    | stop k s1 => rw [hxs] at h; cases h
  · rw [hb] at h
    cases hxs : x s with
    | ok v1 s1 =>
      rw [hxs] at h
      dsimp only at h
      have h1 : s1.back = false := by
        cases hh : s1.back with
        | false => rfl
        | true =>
          have := (hf v1).back s1 hh
          rw [h] at this
          simp [Out.st, hbk] at this
      obtain ⟨h2, h3⟩ := hx.ok s v1 s1 hs hL hxs h1
      exact (hf v1).stop s1 k s' h2 (by rw [hx.data s v1 s1 hxs]; exact hL) h hbk
    | stop k1 s1 =>
      rw [hxs] at h
      cases h
      exact hx.stop s k s' hs hL hxs hbk

theorem Fine.weaken {α : Type} {d d' : Nat} {x : Load α} (hx : Fine ub L d x) (h : d' ≤ d) : Fine ub L d' x :=
  ⟨hx.back, hx.data, fun s v s' h1 h2 h3 h4 => by obtain ⟨h5, h6⟩ := hx.ok s v s' h1 h2 h3 h4; exact ⟨h5, by omega⟩, hx.stop⟩

theorem fine_halt {α : Type} {k : Stop} {d : Nat} (hk : StopOk ub k) : Fine ub L d (Load.halt k : Load α) :=
  ⟨fun s h => h, fun s v s' h => (by cases h), fun s v s' _ _ h => (by cases h), fun s k s' _ _ h _ => by cases h; exact hk⟩

theorem fine_read (n : Nat) : Fine ub L n (read n) := by
  refine ⟨fun s h => ?_, fun s v s' h => ?_, fun s v s' hs hL h hbk => ?_, fun s k s' hs hL h hbk => ?_⟩
  · unfold read; split
    · split
      · exact h
      · split <;> exact h
    · exact h
  · unfold read at h; split at h
    · split at h
      · cases h; rfl
      · split at h <;> cases h; rfl
    · cases h
  · obtain ⟨h1, h2, h3, h4⟩ := hs
    unfold read at h
    rw [if_pos h2] at h
    split at h
    · cases h; exact ⟨⟨h1, by simp only []; omega, by simp only []; omega, h4⟩, by simp only []; omega⟩
    · cases h
  · obtain ⟨h1, h2, h3, h4⟩ := hs
    unfold read at h
    rw [if_pos h2] at h
    split at h
    · cases h
    · cases h; exact ⟨by simp, by simp⟩

theorem fine_readU32 : Fine ub L 4 readU32 := (fine_read 4).bind fun v => Fine.pure _

theorem fine_seek (n : Nat) : Fine ub L 0 (seekRel n) := by
  refine ⟨fun s h => ?_, fun s v s' h => ?_, fun s v s' hs hL h hbk => ?_, fun s k s' hs hL h hbk => ?_⟩
  · unfold seekRel; split
    · simp [Out.st, h]
    · exact h
  · unfold seekRel at h; split at h <;> cases h; rfl
  · obtain ⟨h1, h2, h3, h4⟩ := hs
    unfold seekRel at h
    split at h
    · cases h
      simp only [h1, Bool.false_or, decide_eq_false_iff_not] at hbk
      exact ⟨⟨by simp only [h1, Bool.false_or, decide_eq_false_iff_not]; exact hbk, by simp only []; omega, by simp only []; omega, h4⟩, by simp only []; omega⟩
    · cases h
  · unfold seekRel at h
    split at h
    · cases h
    · cases h; exact ⟨by simp, by simp⟩

theorem fine_bytesRead : Fine ub L 0 bytesRead :=
  ⟨fun s h => h, fun s v s' h => by cases h; rfl, fun s v s' hf _ h _ => by cases h; exact ⟨hf, by simp⟩,
    fun s k s' _ _ h => by cases h⟩

theorem fine_store (f : Mem → Mem) : Fine ub L 0 (store f) :=
  ⟨fun s h => h, fun s v s' h => by cases h; rfl, fun s v s' hf _ h _ => by cases h; exact ⟨hf, by simp⟩,
    fun s k s' _ _ h => by cases h⟩

theorem fine_peekCount : Fine ub L 0 peekCount := by
  refine ⟨fun s h => ?_, fun s v s' h => ?_, fun s v s' hs hL h hbk => ?_, fun s k s' hs hL h hbk => ?_⟩
  · unfold peekCount; simp only; split
    · split <;> exact h
    · exact h
  · unfold peekCount at h; simp only at h; split at h
    · split at h <;> cases h; rfl
    · cases h
  · unfold peekCount at h; simp only at h; split at h
    · split at h <;> cases h; exact ⟨hs, by simp⟩
    · cases h
  · unfold peekCount at h; simp only at h; split at h
    · split at h <;> cases h; exact ⟨by simp, by simp⟩
    · cases h; exact ⟨by simp, by simp⟩

theorem fine_readHeader : Fine ub L 0 readHeader :=
  (fine_readU32.bind fun _ => fine_readU32.bind fun _ => fine_readU32.bind fun _ => fine_readU32.bind fun _ =>
    fine_readU32.bind fun _ => Fine.pure _).weaken (Nat.zero_le _)

theorem fine_readChunk : Fine ub L 12 readChunk :=
  fine_readU32.bind fun _ => fine_readU32.bind fun _ => fine_readU32.bind fun _ => Fine.pure _

theorem fine_loadType (size b ds : Nat) : Fine ub L 0 (loadType size b ds) := by
  unfold loadType
  split
  · exact fine_seek _
  · exact ((fine_read size).bind fun _ => fine_store _).weaken (Nat.zero_le _)

theorem fine_loadEnum (size : Nat) (cs : List Const) (b ds : Nat) (hu : size < 4 → ub) : Fine ub L 0 (loadEnum size cs b ds) := by
  unfold loadEnum
  split
  · exact fine_seek _
  · refine (fine_readU32.bind fun h => ?_).weaken (Nat.zero_le (4 + 0))
    split
    · split
      · exact fine_halt ⟨by simp, fun _ => hu (by assumption)⟩
      · exact fine_store _
    · exact Fine.pure _

/-- Objects of the types that lie in a type are loaded so. -/
def FineObj (ub : Prop) (L : Nat) (lo : LoadObj) (t : Ty) : Prop := ∀ b ds th, Fine ub L 0 (lo t b ds th)

theorem fine_addEmpty (w : Writer) : Fine ub L 0 (addEmpty w) := by
  refine ⟨fun s h => ?_, fun s v s' h => ?_, fun s v s' hs hL h hbk => ?_, fun s k s' hs hL h hbk => ?_⟩
  · unfold addEmpty; split
    · split <;> exact h
    · exact h
  · unfold addEmpty at h; split at h
    · split at h <;> cases h; rfl
    · cases h; rfl
  · unfold addEmpty at h; split at h
    · split at h <;> cases h; exact ⟨hs, by simp⟩
    · cases h; exact ⟨hs, by simp⟩
  · unfold addEmpty at h; split at h
    · split at h <;> cases h; exact ⟨by simp, by simp⟩
    · cases h

theorem fine_keyData : Fine ub L 0 keyData :=
  ⟨fun s h => h, fun s v s' h => by cases h; rfl, fun s v s' hf _ h _ => by cases h; exact ⟨hf, by simp⟩,
    fun s k s' _ _ h => by cases h⟩

theorem fine_addEmptyKey (w : Writer) (k : Ty) (key : Nat) : Fine ub L 0 (addEmptyKey w k key) := by
  cases hp : w.place with
  | arr x y z =>
    have : addEmptyKey w k key = addEmpty w := by
      funext s
      simp only [addEmptyKey, hp]
    rw [this]
    exact fine_addEmpty w
  | cont addr =>
    have : addEmptyKey w k key = fun s => .ok ((Clr.JSON.addKey s.mem addr key k w.val w.isPtr).1, w)
        { s with mem := (Clr.JSON.addKey s.mem addr key k w.val w.isPtr).2 } := by
      funext s
      simp only [addEmptyKey, hp]
    rw [this]
    exact ⟨fun s h => h, fun s v s' h => by cases h; rfl, fun s v s' hf _ h _ => by cases h; exact ⟨hf, by simp⟩,
      fun s k s' _ _ h => by cases h⟩

theorem fine_addElem {lo : LoadObj} (h : Header) (w : Writer) (hk : ∀ k, w.key = some k → FineObj ub L lo k) :
    Fine ub L 0 (addElem lo h w) := by
  unfold addElem
  split
  · rename_i k hkk
    unfold addKeyed
    split
    · exact fine_keyData.bind fun _ => (hk k hkk _ _ _).bind fun _ => fine_addEmptyKey _ _ _
    · exact fine_halt ⟨by simp, by simp⟩
  · exact fine_addEmpty w

theorem addElem_writer {lo : LoadObj} {h : Header} {w : Writer} {s s' : St} {r : Nat × Writer} (hr : addElem lo h w s = .ok r s') :
    r.2.key = w.key ∧ r.2.val = w.val ∧ r.2.isPtr = w.isPtr := by
  have hempty : ∀ s, addEmpty w s = .ok r s' → r.2.key = w.key ∧ r.2.val = w.val ∧ r.2.isPtr = w.isPtr := by
    intro s h
    unfold addEmpty at h; split at h
    · split at h <;> cases h; exact ⟨rfl, rfl, rfl⟩
    · cases h; exact ⟨rfl, rfl, rfl⟩
  have hkey : ∀ k key s, addEmptyKey w k key s = .ok r s' → r.2.key = w.key ∧ r.2.val = w.val ∧ r.2.isPtr = w.isPtr := by
    intro k key s h
    unfold addEmptyKey at h; split at h
    · exact hempty s h
    · cases h; exact ⟨rfl, rfl, rfl⟩
  cases hkk : w.key with
  | some k =>
    simp only [addElem, hkk] at hr
    rw [← hkk]
    unfold addKeyed at hr
    split at hr
    · rw [run_bind (show keyData s = .ok s.mem.next { s with mem := (s.mem.alloc 128).2 } from rfl)] at hr
      rw [bind_match] at hr
      split at hr
      · exact hkey _ _ _ hr
      · cases hr
    · cases hr
  | none =>
    simp only [addElem, hkk] at hr
    rw [← hkk]
    exact hempty s hr

theorem fine_loadValue {lo : LoadObj} (w : Writer) (v size : Nat) (hv : FineObj ub L lo w.val) : Fine ub L 0 (loadValue lo w v size) := by
  unfold loadValue
  split
  · exact Fine.pure _
  · exact hv _ _ _

theorem fine_readSize (n : Nat) : Fine ub L 0 (readSize n) := by
  unfold readSize
  split
  · exact fine_readU32.weaken (Nat.zero_le _)
  · exact Fine.pure _

/-- `Fine.bind`, with what is known of the value. -/
theorem Fine.bind' {α β : Type} {d d' : Nat} {P : α → Prop} {x : Load α} {f : α → Load β} (hx : Fine ub L d x)
    (hP : ∀ s v s', x s = .ok v s' → P v) (hf : ∀ v, P v → Fine ub L d' (f v)) : Fine ub L (d + d') (x >>= f) := by
  have heq : (x >>= f) = (x >>= fun v => fun s => (haveI := Classical.propDecidable (P v); if P v then f v s else .stop .trap s)) := by
    funext s
    show (match x s with | .ok v s' => f v s' | .stop k s' => .stop k s') =
      (match x s with | .ok v s' => (haveI := Classical.propDecidable (P v); if P v then f v s' else .stop .trap s') | .stop k s' => .stop k s')
    cases hxs : x s with
    | ok v s' => simp only []; rw [if_pos (hP s v s' hxs)]
    | stop k s' => rfl
  rw [heq]
  refine hx.bind fun v => ?_
  by_cases hv : P v
  · have : (fun s => (haveI := Classical.propDecidable (P v); if P v then f v s else .stop .trap s)) = f v := by
      funext s; rw [if_pos hv]
    rw [this]; exact hf v hv
  · have : (fun s => (haveI := Classical.propDecidable (P v); if P v then f v s else .stop .trap s)) = (Load.halt .trap : Load β) := by
      funext s; rw [if_neg hv]; rfl
    rw [this]; exact fine_halt ⟨by simp, by simp⟩

theorem fine_loadItems {lo : LoadObj} (h : Header) (n : Nat) : ∀ (w : Writer), (∀ k, w.key = some k → FineObj ub L lo k) →
    FineObj ub L lo w.val → Fine ub L 0 (loadItems lo h n w) := by
  induction n with
  | zero => intro w _ _; exact Fine.pure _
  | succ n ih =>
    intro w hk hv
    rw [loadItems]
    refine (fine_addElem h w hk).bind' (d' := 0) (P := fun r => r.2.key = w.key ∧ r.2.val = w.val ∧ r.2.isPtr = w.isPtr)
      (fun s v s' hr => addElem_writer hr) fun r hr => ?_
    refine (fine_readSize _).bind (d' := 0) fun size => (fine_loadValue w r.1 size hv).bind (d' := 0) fun _ => ?_
    exact ih r.2 (by rw [hr.1]; exact hk) (by rw [hr.2.1]; exact hv)

theorem fine_loadContainer {lo : LoadObj} (w : Writer) (ds expected : Nat) (hk : ∀ k, w.key = some k → FineObj ub L lo k)
    (hv : FineObj ub L lo w.val) : Fine ub L 0 (loadContainer lo w ds expected) := by
  unfold loadContainer
  refine fine_bytesRead.bind (d' := 0) fun start => fine_readHeader.bind (d' := 0) fun h => ?_
  simp only []
  generalize (if expected < h.count then expected else h.count) = count
  split
  · exact fine_seek _
  · refine (fine_loadItems h _ w hk hv).bind (d' := 0) fun _ => fine_bytesRead.bind (d' := 0) fun now => ?_
    split
    · exact fine_seek _
    · exact Fine.pure _

theorem fine_loadNoContainer (hu : ub) : Fine ub L 0 loadNoContainer := by
  unfold loadNoContainer
  refine fine_peekCount.bind (d' := 0) fun _ => fine_readHeader.bind (d' := 0) fun h => ?_
  split
  · exact fine_halt ⟨by simp, fun _ => hu⟩
  · exact Fine.pure _


mutual
/-- No template type and no enum of less than four bytes is in the type. -/
def Clean : Ty → Prop
  | .prim _ _ => True
  | .enum _ s _ _ => 4 ≤ s
  | .cls _ _ _ fs bs => CleanFields fs ∧ CleanBases bs
  | .tmpl _ _ _ => False
  | .vec _ _ t _ => Clean t
  | .dict _ _ k t _ => Clean k ∧ Clean t

/-- Of fields. -/
def CleanFields : Flds → Prop
  | .nil => True
  | .cons _ t r => Clean t ∧ CleanFields r

/-- Of base types. -/
def CleanBases : Tys → Prop
  | .nil => True
  | .cons t r => Clean t ∧ CleanBases r
end

theorem list_inside {x : FldInfo × Ty} : ∀ fs : Flds, x ∈ fs.list → sizeOf x.2 < sizeOf fs ∧ (CleanFields fs → Clean x.2)
  | .nil, h => by simp [Flds.list] at h
  | .cons f t r, h => by
    rw [Flds.list] at h
    rw [CleanFields]
    rcases List.mem_cons.1 h with h' | h'
    · subst h'; exact ⟨by simp; omega, fun h => h.1⟩
    · have := list_inside r h'
      exact ⟨by simp; omega, fun h => this.2 h.2⟩

mutual
theorem findBases_inside {h : Nat} {x : FldInfo × Ty} (bs : Tys) (hf : findBases h bs = .ok (some x)) :
    sizeOf x.2 < sizeOf bs ∧ (CleanBases bs → Clean x.2) := by
  match bs with
  | .nil => simp [findBases] at hf
  | .cons t r =>
    rw [findBases] at hf
    rw [CleanBases]
    cases hft : findField h t with
    | ok o =>
      rw [hft] at hf
      cases o with
      | some y =>
        have hxy : y = x := by simpa using hf
        have := findField_inside t (hxy ▸ hft)
        exact ⟨by simp; omega, fun h => this.2 h.1⟩
      | none =>
        have := findBases_inside r hf
        exact ⟨by simp; omega, fun h => this.2 h.2⟩
    | trap => rw [hft] at hf; cases hf
    | ub => rw [hft] at hf; cases hf

theorem findField_inside {h : Nat} {x : FldInfo × Ty} (t : Ty) (hf : findField h t = .ok (some x)) :
    sizeOf x.2 < sizeOf t ∧ (Clean t → Clean x.2) := by
  match t with
  | .cls hh s fl fs bs =>
    rw [findField, findOwn_eq] at hf
    rw [Clean]
    cases hfo : fs.list.find? (fun x => nameHash x == BitVec.ofNat 32 h) with
    | some y =>
      rw [hfo] at hf
      have hxy : y = x := by simpa using hf
      have := list_inside fs (hxy ▸ List.mem_of_find?_eq_some hfo)
      exact ⟨by simp; omega, fun h => this.2 h.1⟩
    | none =>
      rw [hfo] at hf
      have := findBases_inside bs hf
      exact ⟨by simp; omega, fun h => this.2 h.2⟩
  | .prim _ _ => simp [findField] at hf
  | .enum _ _ _ _ => simp [findField] at hf
  | .tmpl _ _ _ => simp [findField] at hf
  | .vec _ _ _ _ => simp [findField] at hf
  | .dict _ _ _ _ _ => simp [findField] at hf
end

theorem fine_loadField {e : Env} {lo : LoadObj} (ct : Ty) (b : Nat)
    (hlo : ∀ t, sizeOf t < sizeOf ct → (Clean ct → Clean t) → FineObj ub L lo t) : Fine ub L 12 (loadField e lo ct b) := by
  unfold loadField
  refine fine_readChunk.bind (d' := 0) fun h => ?_
  cases hf : findField h.2.1 ct with
  | ok o =>
    cases o with
    | some x =>
      obtain ⟨f, t⟩ := x
      have ⟨h1, h2⟩ := findField_inside ct hf
      have hft := hlo t h1 h2
      simp only []
      split
      · exact fine_seek _
      · split
        · exact fine_loadContainer _ _ _ (by simp [arrWriter]) hft
        · exact hft _ _ _
    | none => exact fine_seek _
  | trap => exact fine_halt ⟨by simp, by simp⟩
  | ub => exact fine_halt ⟨by simp, by simp⟩

theorem classLoop_succ (field : Load Unit) (endPos n : Nat) (s : St) :
    classLoop field endPos (n + 1) s =
      if (s.pos % 2 ^ 32).toNat < endPos then
        match field s with
        | .ok _ s' => classLoop field endPos n s'
        | .stop k s' => .stop k s'
      else .ok () s := by
  show (if (s.pos % 2 ^ 32).toNat < endPos then _ else _ : Load Unit) s = _
  split
  · rw [bind_match]
    cases field s <;> rfl
  · rfl

theorem fine_classLoop {field : Load Unit} (hf : Fine ub L 12 field) (endPos n : Nat) (hn : L + 1 ≤ n) :
    Fine ub L 0 (classLoop field endPos n) := by
  have hback : ∀ n s, s.back = true → (classLoop field endPos n s).st.back = true := by
    intro n
    induction n with
    | zero => intro s h; exact h
    | succ n ih =>
      intro s h
      rw [classLoop_succ]
      split
      · have h1 := hf.back s h
        cases hfs : field s with
        | ok v s' => rw [hfs] at h1; exact ih s' h1
        | stop k s' => rw [hfs] at h1; exact h1
      · exact h
  have hdata : ∀ n s v s', classLoop field endPos n s = .ok v s' → s'.data = s.data := by
    intro n
    induction n with
    | zero => intro s v s' h; cases h
    | succ n ih =>
      intro s v s' h
      rw [classLoop_succ] at h
      split at h
      · cases hfs : field s with
        | ok v1 s1 => rw [hfs] at h; exact (ih s1 v s' h).trans (hf.data s v1 s1 hfs)
        | stop k s1 => rw [hfs] at h; cases h
      · cases h; rfl
  have hmain : ∀ (n : Nat) (s : St), Fwd s → s.data.length ≤ L → (s.data.length : Int) - s.pos < n →
      (∀ v s', classLoop field endPos n s = .ok v s' → s'.back = false → Fwd s' ∧ s.pos ≤ s'.pos) ∧
      (∀ k s', classLoop field endPos n s = .stop k s' → s'.back = false → StopOk ub k) := by
    intro n
    induction n with
    | zero =>
      intro s hs hL hn
      have := hs.2.2.1
      omega
    | succ n ih =>
      intro s hs hL hn
      rw [classLoop_succ]
      split
      · cases hfs : field s with
        | ok v1 s1 =>
          simp only []
          have hstep : s1.back = false → Fwd s1 ∧ s.pos + 12 ≤ s1.pos := fun h => hf.ok s v1 s1 hs hL hfs h
          have hd := hf.data s v1 s1 hfs
          have hb1 : ∀ s', (classLoop field endPos n s1).st = s' → s'.back = false → s1.back = false := by
            intro s' h1 h2
            cases hh : s1.back with
            | false => rfl
            | true =>
              have := hback n s1 hh
              rw [h1, h2] at this
              cases this
          refine ⟨fun v s' h hbk => ?_, fun k s' h hbk => ?_⟩
          · obtain ⟨h1, h2⟩ := hstep (hb1 s' (by rw [h]; rfl) hbk)
            obtain ⟨h3, h4⟩ := (ih s1 h1 (by rw [hd]; exact hL) (by rw [hd]; omega)).1 v s' h hbk
            exact ⟨h3, by omega⟩
          · obtain ⟨h1, h2⟩ := hstep (hb1 s' (by rw [h]; rfl) hbk)
            exact (ih s1 h1 (by rw [hd]; exact hL) (by rw [hd]; omega)).2 k s' h hbk
        | stop k1 s1 =>
          simp only []
          refine ⟨fun v s' h => (by cases h), fun k s' h hbk => ?_⟩
          cases h
          exact hf.stop s k1 s1 hs hL hfs hbk
      · refine ⟨fun v s' h hbk => ?_, fun k s' h => by cases h⟩
        cases h
        exact ⟨hs, by omega⟩
  refine ⟨hback n, hdata n, fun s v s' hs hL h hbk => ?_, fun s k s' hs hL h hbk => ?_⟩
  · have := (hmain n s hs hL (by have := hs.2.1; omega)).1 v s' h hbk
    exact ⟨this.1, by have := this.2; omega⟩
  · exact (hmain n s hs hL (by have := hs.2.1; omega)).2 k s' h hbk

theorem fine_loadObject (e : Env) (m : Nat) : ∀ (t : Ty) (n : Nat), sizeOf t ≤ m → (ub ∨ Clean t) → m + L + 2 ≤ n →
    FineObj ub L (loadObject e n) t := by
  induction m with
  | zero =>
    intro t n hs
    exfalso
    cases t <;> simp at hs
  | succ m ih =>
    intro t n hs hu hn b ds th
    obtain ⟨n, rfl⟩ : ∃ k, n = k + 1 := ⟨n - 1, by omega⟩
    have hsub : ∀ t' : Ty, sizeOf t' < sizeOf t → (Clean t → Clean t') → FineObj ub L (loadObject e n) t' := fun t' h1 h2 =>
      ih t' n (by omega) (hu.imp_right h2) (by omega)
    show Fine ub L 0 (if th ≠ t.hash.toNat then seekRel ds else loadBody e (loadObject e n) n t b ds)
    split
    · exact fine_seek _
    · cases t with
      | prim h s => exact fine_loadType _ _ _
      | enum h s cs fl =>
        refine fine_loadEnum _ _ _ _ fun h4 => hu.elim id fun hc => ?_
        rw [Clean] at hc
        omega
      | cls h s fl fs bs =>
        simp only [loadBody]
        exact fine_bytesRead.bind (d' := 0) fun p => fine_classLoop (fine_loadField _ b hsub) _ n (by omega)
      | tmpl h s bs => exact fine_loadNoContainer (hu.elim id fun hc => by rw [Clean] at hc; exact hc.elim)
      | vec h s t p =>
        have ht := hsub t (by simp; omega) (by rw [Clean]; exact id)
        exact fine_peekCount.bind (d' := 0) fun _ => (fine_store _).bind (d' := 0) fun _ => fine_loadContainer _ _ _ (by simp) ht
      | dict h s k t p =>
        have hk := hsub k (by simp; omega) (by rw [Clean]; exact fun h => h.1)
        have ht := hsub t (by simp; omega) (by rw [Clean]; exact fun h => h.2)
        exact fine_peekCount.bind (d' := 0) fun _ => (fine_store _).bind (d' := 0) fun _ =>
          fine_loadContainer _ _ _ (fun k' hk' => by cases hk'; exact hk) ht

theorem fine_load (e : Env) (t : Ty) (b n : Nat) (hu : ub ∨ Clean t) (hn : sizeOf t + L + 2 ≤ n) : Fine ub L 12 (load e n t b) :=
  fine_readChunk.bind (d' := 0) fun h => fine_loadObject e (sizeOf t) t n (Nat.le_refl _) hu hn b _ _

/-! ### More steps -/

/-- The second does what the first does, unless the first runs out of steps. -/
def Approx {α : Type} (x y : Load α) : Prop := ∀ s, (∃ s', x s = .stop .fuel s') ∨ x s = y s

theorem Approx.refl {α : Type} (x : Load α) : Approx x x := fun _ => .inr rfl

theorem Approx.bind {α β : Type} {x y : Load α} {f g : α → Load β} (h : Approx x y) (h' : ∀ v, Approx (f v) (g v)) :
    Approx (x >>= f) (y >>= g) := by
  intro s
  show (∃ s', (match x s with | .ok v s' => f v s' | .stop k s' => .stop k s') = .stop .fuel s') ∨
    (match x s with | .ok v s' => f v s' | .stop k s' => .stop k s') = (match y s with | .ok v s' => g v s' | .stop k s' => .stop k s')
  rcases h s with ⟨s', hs⟩ | hs
  · left; exact ⟨s', by rw [hs]⟩
  · rw [← hs]
    cases x s with
    | ok v s1 => exact h' v s1
    | stop k s1 => right; rfl

/-- For objects. -/
def ApproxObj (lo lo' : LoadObj) : Prop := ∀ t b ds th, Approx (lo t b ds th) (lo' t b ds th)

theorem approx_addElem {lo lo' : LoadObj} (h : ApproxObj lo lo') (hd : Header) (w : Writer) : Approx (addElem lo hd w) (addElem lo' hd w) := by
  unfold addElem
  split
  · unfold addKeyed
    split
    · exact (Approx.refl _).bind fun _ => (h _ _ _ _).bind fun _ => .refl _
    · exact .refl _
  · exact .refl _

theorem approx_loadItems {lo lo' : LoadObj} (h : ApproxObj lo lo') (hd : Header) (n : Nat) :
    ∀ w, Approx (loadItems lo hd n w) (loadItems lo' hd n w) := by
  induction n with
  | zero => exact fun w => .refl _
  | succ n ih =>
    intro w
    rw [loadItems, loadItems]
    refine (approx_addElem h hd w).bind fun r => (Approx.refl _).bind fun size => Approx.bind ?_ fun _ => ih _
    unfold loadValue
    split
    · exact .refl _
    · exact h _ _ _ _

theorem approx_loadContainer {lo lo' : LoadObj} (h : ApproxObj lo lo') (w : Writer) (ds ex : Nat) :
    Approx (loadContainer lo w ds ex) (loadContainer lo' w ds ex) := by
  unfold loadContainer
  refine (Approx.refl _).bind fun _ => (Approx.refl _).bind fun hd => ?_
  simp only []
  generalize (if ex < hd.count then ex else hd.count) = count
  split
  · exact .refl _
  · exact (approx_loadItems h hd _ w).bind fun _ => .refl _

theorem approx_loadField {e : Env} {lo lo' : LoadObj} (h : ApproxObj lo lo') (ct : Ty) (b : Nat) :
    Approx (loadField e lo ct b) (loadField e lo' ct b) := by
  unfold loadField
  refine (Approx.refl _).bind fun hd => ?_
  cases findField hd.2.1 ct with
  | ok o =>
    cases o with
    | some x =>
      obtain ⟨f, t⟩ := x
      simp only []
      split
      · exact .refl _
      · split
        · exact approx_loadContainer h _ _ _
        · exact h _ _ _ _
    | none => exact .refl _
  | trap => exact .refl _
  | ub => exact .refl _

theorem approx_classLoop {f f' : Load Unit} (h : Approx f f') (endPos : Nat) : ∀ n n', n ≤ n' →
    Approx (classLoop f endPos n) (classLoop f' endPos n') := by
  intro n
  induction n with
  | zero => exact fun n' _ s => .inl ⟨s, rfl⟩
  | succ n ih =>
    intro n' hn
    obtain ⟨n', rfl⟩ : ∃ k, n' = k + 1 := ⟨n' - 1, by omega⟩
    rw [classLoop, classLoop]
    refine (Approx.refl _).bind fun p => ?_
    split
    · exact h.bind fun _ => ih n' (by omega)
    · exact .refl _

theorem approx_loadObject (e : Env) : ∀ n n', n ≤ n' → ApproxObj (loadObject e n) (loadObject e n') := by
  intro n
  induction n with
  | zero => exact fun n' _ t b ds th s => .inl ⟨s, rfl⟩
  | succ n ih =>
    intro n' hn t b ds th
    obtain ⟨n', rfl⟩ : ∃ k, n' = k + 1 := ⟨n' - 1, by omega⟩
    have h := ih n' (by omega)
    show Approx (if th ≠ t.hash.toNat then seekRel ds else loadBody e (loadObject e n) n t b ds)
      (if th ≠ t.hash.toNat then seekRel ds else loadBody e (loadObject e n') n' t b ds)
    split
    · exact .refl _
    · cases t with
      | prim h s => exact .refl _
      | enum h s cs fl => exact .refl _
      | cls hh s fl fs bs =>
        simp only [loadBody]
        exact (Approx.refl _).bind fun p => approx_classLoop (approx_loadField h _ b) _ n n' (by omega)
      | tmpl h s bs => exact .refl _
      | vec hh s t p => exact (Approx.refl _).bind fun _ => (Approx.refl _).bind fun _ => approx_loadContainer h _ _ _
      | dict hh s k t p => exact (Approx.refl _).bind fun _ => (Approx.refl _).bind fun _ => approx_loadContainer h _ _ _

theorem approx_load (e : Env) (t : Ty) (b n n' : Nat) (hn : n ≤ n') : Approx (load e n t b) (load e n' t b) :=
  (Approx.refl _).bind fun h => approx_loadObject e n n' hn t b _ _

/-! ### Data that never seeks backwards -/

/-- No byte has its top bit set. -/
def Low (s : St) : Prop := ∀ x ∈ s.data, x < 128

/-- Never seeks backwards on such data; its result is as stated. -/
structure Safe {α : Type} (P : α → Prop) (x : Load α) : Prop where
  back : ∀ s, Low s → s.back = false → (x s).st.back = false
  ok : ∀ s v s', Low s → x s = .ok v s' → s'.data = s.data ∧ P v

theorem Safe.pure {α : Type} {P : α → Prop} {v : α} (h : P v) : Safe P (pure v : Load α) :=
  ⟨fun s _ h => h, fun s v s' _ h' => by cases h'; exact ⟨rfl, h⟩⟩

theorem Safe.bind {α β : Type} {P : α → Prop} {Q : β → Prop} {x : Load α} {f : α → Load β} (hx : Safe P x)
    (hf : ∀ v, P v → Safe Q (f v)) : Safe Q (x >>= f) := by
  refine ⟨fun s hl hb => ?_, fun s v s' hl h => ?_⟩
  · have h1 := hx.back s hl hb
    rw [bind_match]
    cases hxs : x s with
    | ok v s' =>
      rw [hxs] at h1
      obtain ⟨h2, h3⟩ := hx.ok s v s' hl hxs
      exact (hf v h3).back s' (by unfold Low; rw [h2]; exact hl) h1
    | stop k s' => rw [hxs] at h1; exact h1
  · rw [bind_match] at h
    cases hxs : x s with
    | ok v1 s1 =>
      rw [hxs] at h
      obtain ⟨h2, h3⟩ := hx.ok s v1 s1 hl hxs
      obtain ⟨h4, h5⟩ := (hf v1 h3).ok s1 v s' (by unfold Low; rw [h2]; exact hl) h
      exact ⟨h4.trans h2, h5⟩
    | stop k s1 => rw [hxs] at h; cases h

theorem safe_halt {α : Type} {P : α → Prop} (k : Stop) : Safe P (Load.halt k : Load α) :=
  ⟨fun s _ h => h, fun s v s' _ h' => by cases h'⟩

theorem unle_low : ∀ (l : Bytes), (∀ x ∈ l, x < 128) → l.length ≤ 4 → unle l < 2 ^ 31
  | [], _, _ => by simp [unle]
  | [a], h, _ => by
    have := a.toNat_lt
    simp only [unle]; omega
  | [a, b], h, _ => by
    have := a.toNat_lt; have := b.toNat_lt
    simp only [unle]; omega
  | [a, b, c], h, _ => by
    have := a.toNat_lt; have := b.toNat_lt; have := c.toNat_lt
    simp only [unle]; omega
  | [a, b, c, d], h, _ => by
    have := a.toNat_lt; have := b.toNat_lt; have := c.toNat_lt
    have h1 : d < 128 := h d (by simp)
    have h2 : d.toNat < 128 := h1
    simp only [unle]; omega
  | _ :: _ :: _ :: _ :: _ :: _, _, h => by simp at h

theorem safe_read (n : Nat) : Safe (fun bs => bs.length ≤ n ∧ ∀ x ∈ bs, x < 128) (read n) := by
  refine ⟨fun s hl h => ?_, fun s v s' hl h => ?_⟩
  · unfold read; split
    · split
      · exact h
      · split <;> exact h
    · exact h
  · unfold read at h; split at h
    · split at h
      · cases h
        refine ⟨rfl, List.length_take_le _ _, fun x hx => hl x ?_⟩
        exact List.mem_of_mem_drop (List.mem_of_mem_take hx)
      · split at h <;> cases h
        exact ⟨rfl, by simp⟩
    · cases h

theorem safe_readU32 : Safe (fun n => n < 2 ^ 31) readU32 :=
  (safe_read 4).bind fun v hv => Safe.pure (unle_low v hv.2 hv.1)

theorem safe_seek {n : Nat} (h : 0 ≤ asInt n) : Safe (fun _ => True) (seekRel n) := by
  refine ⟨fun s hl hb => ?_, fun s v s' hl h => ?_⟩
  · unfold seekRel; split
    · have : ¬ asInt n < 0 := by omega
      simp [Out.st, hb, this]
    · exact hb
  · unfold seekRel at h; split at h
    · cases h; exact ⟨rfl, trivial⟩
    · cases h

theorem safe_seek' {n : Nat} (h : n < 2 ^ 31) : Safe (fun _ => True) (seekRel n) := safe_seek (by rw [asInt_lt h]; omega)

theorem safe_bytesRead : Safe (fun _ => True) bytesRead :=
  ⟨fun s _ h => h, fun s v s' _ h' => by cases h'; exact ⟨rfl, trivial⟩⟩

theorem safe_store (f : Mem → Mem) : Safe (fun _ => True) (store f) :=
  ⟨fun s _ h => h, fun s v s' _ h' => by cases h'; exact ⟨rfl, trivial⟩⟩

theorem safe_peekCount : Safe (fun _ => True) peekCount := by
  refine ⟨fun s hl h => ?_, fun s v s' hl h => ?_⟩
  · unfold peekCount; simp only; split
    · split <;> exact h
    · exact h
  · unfold peekCount at h; simp only at h; split at h
    · split at h <;> cases h; exact ⟨rfl, trivial⟩
    · cases h

theorem safe_readHeader : Safe (fun h => h.keySize < 2 ^ 31 ∧ h.valueSize < 2 ^ 31) readHeader :=
  safe_readU32.bind fun _ _ => safe_readU32.bind fun _ _ => safe_readU32.bind fun _ hk => safe_readU32.bind fun _ _ =>
    safe_readU32.bind fun _ hv => Safe.pure ⟨hk, hv⟩

theorem safe_readChunk : Safe (fun h => h.2.2 < 2 ^ 31) readChunk :=
  safe_readU32.bind fun _ _ => safe_readU32.bind fun _ _ => safe_readU32.bind fun _ hk => Safe.pure hk

/-- For objects. -/
def SafeObj (lo : LoadObj) : Prop := ∀ t b ds th, ds < 2 ^ 31 → Safe (fun _ => True) (lo t b ds th)

theorem safe_addEmpty (w : Writer) : Safe (fun _ => True) (addEmpty w) := by
  refine ⟨fun s hl h => ?_, fun s v s' hl h => ?_⟩
  · unfold addEmpty; split
    · split <;> exact h
    · exact h
  · unfold addEmpty at h; split at h
    · split at h <;> cases h; exact ⟨rfl, trivial⟩
    · cases h; exact ⟨rfl, trivial⟩

theorem safe_addEmptyKey (w : Writer) (k : Ty) (key : Nat) : Safe (fun _ => True) (addEmptyKey w k key) := by
  cases hp : w.place with
  | arr x y z =>
    have : addEmptyKey w k key = addEmpty w := by
      funext s
      simp only [addEmptyKey, hp]
    rw [this]
    exact safe_addEmpty w
  | cont addr =>
    have : addEmptyKey w k key = fun s => .ok ((Clr.JSON.addKey s.mem addr key k w.val w.isPtr).1, w)
        { s with mem := (Clr.JSON.addKey s.mem addr key k w.val w.isPtr).2 } := by
      funext s
      simp only [addEmptyKey, hp]
    rw [this]
    exact ⟨fun s _ h => h, fun s v s' _ h => by cases h; exact ⟨rfl, trivial⟩⟩

theorem safe_addElem {lo : LoadObj} (hlo : SafeObj lo) (h : Header) (hk : h.keySize < 2 ^ 31) (w : Writer) :
    Safe (fun _ => True) (addElem lo h w) := by
  unfold addElem
  split
  · unfold addKeyed
    split
    · have hkd : Safe (fun _ => True) keyData := ⟨fun s _ h => h, fun s v s' _ h => by cases h; exact ⟨rfl, trivial⟩⟩
      exact hkd.bind fun _ _ => (hlo _ _ _ _ hk).bind fun _ _ => safe_addEmptyKey _ _ _
    · exact safe_halt _
  · exact safe_addEmpty w

theorem safe_loadItems {lo : LoadObj} (hlo : SafeObj lo) (h : Header) (hk : h.keySize < 2 ^ 31) (hv : h.valueSize < 2 ^ 31)
    (n : Nat) : ∀ w, Safe (fun _ => True) (loadItems lo h n w) := by
  induction n with
  | zero => exact fun w => Safe.pure trivial
  | succ n ih =>
    intro w
    rw [loadItems]
    refine (safe_addElem hlo h hk w).bind fun r _ => ?_
    have hrs : Safe (fun n => n < 2 ^ 31) (readSize h.valueSize) := by
      unfold readSize
      split
      · exact safe_readU32
      · exact Safe.pure hv
    have hlv : ∀ size, size < 2 ^ 31 → Safe (fun _ => True) (loadValue lo w r.1 size) := by
      intro size hs
      unfold loadValue
      split
      · exact Safe.pure trivial
      · exact hlo _ _ _ _ hs
    exact hrs.bind fun size hs => (hlv size hs).bind fun _ _ => ih _

theorem safe_loadContainer {lo : LoadObj} (hlo : SafeObj lo) (w : Writer) (ds ex : Nat) (hds : ds < 2 ^ 31) :
    Safe (fun _ => True) (loadContainer lo w ds ex) := by
  unfold loadContainer
  refine safe_bytesRead.bind fun start _ => safe_readHeader.bind fun h hh => ?_
  simp only []
  generalize (if ex < h.count then ex else h.count) = count
  split
  · exact safe_seek' hds
  · refine (safe_loadItems hlo h hh.1 hh.2 _ w).bind fun _ _ => safe_bytesRead.bind fun now _ => ?_
    split
    · rename_i hc
      exact safe_seek (by omega)
    · exact Safe.pure trivial

theorem safe_classLoop {f : Load Unit} (h : Safe (fun _ => True) f) (endPos : Nat) : ∀ n, Safe (fun _ => True) (classLoop f endPos n) := by
  intro n
  induction n with
  | zero => exact safe_halt _
  | succ n ih =>
    rw [classLoop]
    refine safe_bytesRead.bind fun p _ => ?_
    split
    · exact h.bind fun _ _ => ih
    · exact Safe.pure trivial

theorem safe_loadField {e : Env} {lo : LoadObj} (hlo : SafeObj lo) (ct : Ty) (b : Nat) : Safe (fun _ => True) (loadField e lo ct b) := by
  unfold loadField
  refine safe_readChunk.bind fun h hh => ?_
  cases findField h.2.1 ct with
  | ok o =>
    cases o with
    | some x =>
      obtain ⟨f, t⟩ := x
      simp only []
      split
      · exact safe_seek' hh
      · split
        · exact safe_loadContainer hlo _ _ _ hh
        · exact hlo _ _ _ _ hh
    | none => exact safe_seek' hh
  | trap => exact safe_halt _
  | ub => exact safe_halt _

theorem safe_loadObject (e : Env) : ∀ n, SafeObj (loadObject e n) := by
  intro n
  induction n with
  | zero => exact fun t b ds th _ => safe_halt _
  | succ n ih =>
    intro t b ds th hds
    show Safe _ (if th ≠ t.hash.toNat then seekRel ds else loadBody e (loadObject e n) n t b ds)
    split
    · exact safe_seek' hds
    · cases t with
      | prim h s =>
        simp only [loadBody, loadType]
        split
        · exact safe_seek' hds
        · exact (safe_read s).bind fun _ _ => safe_store _
      | enum h s cs fl =>
        simp only [loadBody, loadEnum]
        split
        · exact safe_seek' hds
        · refine safe_readU32.bind fun h _ => ?_
          split
          · split
            · exact safe_halt _
            · exact safe_store _
          · exact Safe.pure trivial
      | cls h s fl fs bs =>
        simp only [loadBody]
        exact safe_bytesRead.bind fun p _ => safe_classLoop (safe_loadField ih _ b) _ n
      | tmpl h s bs =>
        simp only [loadBody, loadNoContainer]
        refine safe_peekCount.bind fun _ _ => safe_readHeader.bind fun h _ => ?_
        split
        · exact safe_halt _
        · exact Safe.pure trivial
      | vec hh s t p =>
        exact safe_peekCount.bind fun _ _ => (safe_store _).bind fun _ _ => safe_loadContainer ih _ _ _ hds
      | dict hh s k t p =>
        exact safe_peekCount.bind fun _ _ => (safe_store _).bind fun _ _ => safe_loadContainer ih _ _ _ hds

theorem safe_load (e : Env) (t : Ty) (b n : Nat) : Safe (fun _ => True) (load e n t b) :=
  safe_readChunk.bind fun _ hh => safe_loadObject e n t b _ _ hh

end Clr.VBin
