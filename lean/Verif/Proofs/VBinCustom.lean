import Verif.Props.VBinCustomSpec
import Verif.Proofs.VBinEqual

/-! Custom functions in the versioned binary. -/
namespace Clr.VBin
open Clr.JSON (Ty Flds Tys Mem FldInfo Const Env strideOf Apart elemAt arrayItems savedField Effect)

/-! ### Saving -/

/-- What is saved for a field. -/
def dataC (cu : Custom) (e : Env) (m : Mem) (a : Nat) (x : FldInfo × Ty) : Bytes :=
  match cu.save (nameHash x) with
  | some g => g m a (a + x.1.offset)
  | none => encCell (enc e m x.2) x.1.count x.2 (a + x.1.offset)

/-- Its chunk. -/
def encFieldC (cu : Custom) (e : Env) (m : Mem) (a : Nat) (x : FldInfo × Ty) : Bytes :=
  encChunk x.2.hash (nameHash x) (dataC cu e m a x)

theorem saveCell_ok {e : Env} {m : Mem} {x : FldInfo × Ty} (h : Ordinary e x) (a : Nat) (out : Bytes) :
    saveCell e m x.1 x.2 a out = .ok (out ++ encCell (enc e m x.2) x.1.count x.2 (a + x.1.offset)) := by
  obtain ⟨hp, hc, -, hs⟩ := h
  have hs := saves_of_supported hs m
  rw [saveCell]
  cases hcnt : x.1.count with
  | none => simp only [encCell]; exact hs _ _
  | some n =>
    have hst : strideOf x.2 false = x.2.size := by simp [strideOf]
    have h0 : 0 < x.2.size := hc (by simp [hcnt])
    simp only [encCell, hp, hst]
    rw [if_neg (by omega), saveItems_ok (keyE := none) (valueE := enc e m x.2) _ (by simp) (by simp) hs]
    simp

theorem saveData_ok {cu : Custom} {e : Env} {m : Mem} {x : FldInfo × Ty} (h : cu.save (nameHash x) = none → Ordinary e x)
    (a : Nat) (out : Bytes) : saveData cu e m x.1 x.2 a out = .ok (out ++ dataC cu e m a x) := by
  show (match cu.save (nameHash x) with
    | some g => _
    | none => _) = _
  rw [dataC]
  cases hc : cu.save (nameHash x) with
  | some g => rfl
  | none => exact saveCell_ok (h hc) a out

theorem dataOf_dataC {cu : Custom} {e : Env} {m : Mem} {x : FldInfo × Ty} (h : cu.save (nameHash x) = none → Ordinary e x)
    (a : Nat) : DataOf cu e m a x (dataC cu e m a x) := by
  rw [DataOf, dataC]
  cases hc : cu.save (nameHash x) with
  | some g => rfl
  | none => exact fun out => saveCell_ok (h hc) a out

theorem saveFieldsC_ok {cu : Custom} {e : Env} {m : Mem} : ∀ (fs : Flds)
    (_ : ∀ x ∈ fs.list, e.skips x.1.flags = false → cu.save (nameHash x) = none → Ordinary e x) (a : Nat) (out : Bytes),
    saveFieldsC cu e m fs a out = .ok (out ++ (fs.list.filter fun x => !e.skips x.1.flags).flatMap (encFieldC cu e m a))
  | .nil, _, a, out => by simp [saveFieldsC, Flds.list]
  | .cons f t r, h, a, out => by
    have ih := fun out => saveFieldsC_ok (m := m) r (fun x hx => h x (by simp [Flds.list, hx])) a out
    have hx := h (f, t) (by simp [Flds.list])
    rw [saveFieldsC, Flds.list, List.filter_cons]
    cases hsk : e.skips f.flags
    · simp only [Bool.false_eq_true, if_false, Bool.not_false, if_true, List.flatMap_cons]
      rw [chunk_ok (d := dataC cu e m a (f, t)) _ _ _ (fun out => saveData_ok (x := (f, t)) (hx hsk) a out)]
      simp only [Res.bind_ok, ih, List.append_assoc]
      rfl
    · simp [ih]

mutual
theorem saveClassC_ok {cu : Custom} {e : Env} {m : Mem} : ∀ (t : Ty) (_ : ClassBases t)
    (_ : ∀ x ∈ t.allFields, e.skips x.1.flags = false → cu.save (nameHash x) = none → Ordinary e x) (a : Nat) (out : Bytes),
    saveClassC cu e m t a out = .ok (out ++ (keptFields e t).flatMap (encFieldC cu e m a))
  | .cls hh s fl fs bs, hb, h, a, out => by
    rw [ClassBases] at hb
    rw [saveClassC, keptFields]
    split
    · simp
    · rw [saveFieldsC_ok fs (fun x hx => h x (by simp [Ty.allFields, hx]))]
      simp [saveBasesC_ok bs hb (fun x hx => h x (by simp [Ty.allFields, hx]))]
  | .prim _ _, hb, _, _, _ => by simp [ClassBases] at hb
  | .enum _ _ _ _, hb, _, _, _ => by simp [ClassBases] at hb
  | .tmpl _ _ _, hb, _, _, _ => by simp [ClassBases] at hb
  | .vec _ _ _ _, hb, _, _, _ => by simp [ClassBases] at hb
  | .dict _ _ _ _ _, hb, _, _, _ => by simp [ClassBases] at hb

theorem saveBasesC_ok {cu : Custom} {e : Env} {m : Mem} : ∀ (bs : Tys) (_ : ClassBasesOf bs)
    (_ : ∀ x ∈ bs.allFields, e.skips x.1.flags = false → cu.save (nameHash x) = none → Ordinary e x) (a : Nat) (out : Bytes),
    saveBasesC cu e m bs a out = .ok (out ++ (keptBases e bs).flatMap (encFieldC cu e m a))
  | .nil, _, _, _, _ => by simp [saveBasesC, keptBases]
  | .cons t r, hb, h, a, out => by
    rw [ClassBasesOf] at hb
    rw [saveBasesC, keptBases, saveClassC_ok t hb.1 (fun x hx => h x (by simp [Tys.allFields, hx]))]
    simp [saveBasesC_ok r hb.2 (fun x hx => h x (by simp [Tys.allFields, hx]))]
end

mutual
theorem kept_sublist (e : Env) : ∀ t : Ty, (keptFields e t).Sublist t.allFields
  | .cls hh s fl fs bs => by
    rw [keptFields, Ty.allFields]
    split
    · simp
    · exact List.filter_sublist.append (keptBases_sublist e bs)
  | .prim _ _ => by simp [keptFields]
  | .enum _ _ _ _ => by simp [keptFields]
  | .tmpl _ _ bs => by simp [keptFields]
  | .vec _ _ _ _ => by simp [keptFields]
  | .dict _ _ _ _ _ => by simp [keptFields]

theorem keptBases_sublist (e : Env) : ∀ bs : Tys, (keptBases e bs).Sublist bs.allFields
  | .nil => by simp [keptBases]
  | .cons t r => by
    rw [keptBases, Tys.allFields]
    exact (kept_sublist e t).append (keptBases_sublist e r)
end

mutual
theorem kept_skips (e : Env) : ∀ (t : Ty) (x : FldInfo × Ty), x ∈ keptFields e t → e.skips x.1.flags = false
  | .cls hh s fl fs bs, x, hx => by
    rw [keptFields] at hx
    split at hx
    · simp at hx
    · rcases List.mem_append.1 hx with hx | hx
      · simpa using (List.mem_filter.1 hx).2
      · exact keptBases_skips e bs x hx
  | .prim _ _, x, hx => by simp [keptFields] at hx
  | .enum _ _ _ _, x, hx => by simp [keptFields] at hx
  | .tmpl _ _ bs, x, hx => by simp [keptFields] at hx
  | .vec _ _ _ _, x, hx => by simp [keptFields] at hx
  | .dict _ _ _ _ _, x, hx => by simp [keptFields] at hx

theorem keptBases_skips (e : Env) : ∀ (bs : Tys) (x : FldInfo × Ty), x ∈ keptBases e bs → e.skips x.1.flags = false
  | .nil, x, hx => by simp [keptBases] at hx
  | .cons t r, x, hx => by
    rw [keptBases] at hx
    rcases List.mem_append.1 hx with hx | hx
    · exact kept_skips e t x hx
    · exact keptBases_skips e r x hx
end

mutual
theorem kept_saved (e : Env) : ∀ (t : Ty) (x : FldInfo × Ty), ClassBases t →
    (x ∈ t.savedFields e ↔ x ∈ keptFields e t ∧ x.1.isPtr = false)
  | .cls hh s fl fs bs, x, hb => by
    rw [ClassBases] at hb
    rw [keptFields, Ty.savedFields]
    split
    · simp
    · rw [List.mem_append, List.mem_append, keptBases_saved e bs x hb, List.mem_filter, List.mem_filter]
      simp only [savedField, Bool.and_eq_true, Bool.not_eq_true']
      constructor
      · rintro (h | h)
        · exact ⟨.inl ⟨h.1, h.2.1⟩, h.2.2⟩
        · exact ⟨.inr h.1, h.2⟩
      · rintro ⟨h | h, h2⟩
        · exact .inl ⟨h.1, h.2, h2⟩
        · exact .inr ⟨h, h2⟩
  | .prim _ _, x, hb => by simp [ClassBases] at hb
  | .enum _ _ _ _, x, hb => by simp [ClassBases] at hb
  | .tmpl _ _ bs, x, hb => by simp [ClassBases] at hb
  | .vec _ _ _ _, x, hb => by simp [ClassBases] at hb
  | .dict _ _ _ _ _, x, hb => by simp [ClassBases] at hb

theorem keptBases_saved (e : Env) : ∀ (bs : Tys) (x : FldInfo × Ty), ClassBasesOf bs →
    (x ∈ bs.savedFields e ↔ x ∈ keptBases e bs ∧ x.1.isPtr = false)
  | .nil, x, hb => by simp [keptBases, Tys.savedFields]
  | .cons t r, x, hb => by
    rw [ClassBasesOf] at hb
    rw [keptBases, Tys.savedFields, List.mem_append, List.mem_append, kept_saved e t x hb.1, keptBases_saved e r x hb.2]
    constructor
    · rintro (h | h)
      · exact ⟨.inl h.1, h.2⟩
      · exact ⟨.inr h.1, h.2⟩
    · rintro ⟨h | h, h2⟩
      · exact .inl ⟨h, h2⟩
      · exact .inr ⟨h, h2⟩
end

theorem saveC_ok {cu : Custom} {e : Env} {t t' : Ty} (h : CustomVersions e cu t t') (m : Mem) (a : Nat) (out : Bytes) :
    saveC cu e m t a out = .ok (out ++ encChunk t.hash 0 ((keptFields e t).flatMap (encFieldC cu e m a))) := by
  rw [saveC, chunk_ok _ _ _ (fun out => saveClassC_ok t h.bases (fun x hx hs hn =>
    h.ordinary x (mem_loadFields.2 ⟨hx, hs⟩) hn) a out)]

/-! ### Loading -/

/-- The names of fields without functions. -/
def Bare (cu : Custom) (n : BitVec 32) : Prop := cu.save n = none ∧ cu.load n = none

theorem CustomVersions.pair {cu : Custom} {e : Env} {t t' : Ty} (h : CustomVersions e cu t t') (m : Mem) :
    Pair e m (Bare cu) t t' where
  names := h.names
  plain := fun x hx hP => ⟨(h.ordinary x hx hP.1).1, (h.ordinary x hx hP.1).2.1, (h.ordinary x hx hP.1).2.2.1⟩
  types := fun x hx hP => (h.ordinary x hx hP.1).2.2.2
  bases' := h.bases'
  names' := h.names'
  plain' := fun x hx hP => ⟨(h.ordinary' x hx hP.2).1, (h.ordinary' x hx hP.2).2.1, (h.ordinary' x hx hP.2).2.2.1⟩
  types' := fun x hx hP => (h.ordinary' x hx hP.2).2.2.2
  inside' := h.inside'
  apart' := h.apart'
  arrays := fun x hx hP y hy hn => h.arrays x ((kept_saved e t x h.bases).1 hx).1 y hy hn (hn ▸ hP.2)
  loads := fun x hx hP y hy hn ht => loads_of_versions
    (h.types x ((kept_saved e t x h.bases).1 hx).1 y hy hn (hn ▸ hP.2) ht)
    (h.ordinary x (saved_load hx) hP.1).2.2.2 (h.ordinary' y hy (hn ▸ hP.2)).2.2.2

theorem before_has {s : St} {d rest : Bytes} (h : Has s (d ++ rest)) : Before s d := by
  obtain ⟨h1, h2, h3, h4⟩ := h.left
  refine ⟨s.data.take s.pos.toNat, s.data.drop (s.pos.toNat + d.length), ?_, ?_⟩
  · conv => lhs; rw [← List.take_append_drop s.pos.toNat s.data]
    rw [List.append_assoc]
    congr 1
    conv => lhs; rw [← List.take_append_drop d.length (s.data.drop s.pos.toNat)]
    rw [h4, List.drop_drop]
  · rw [List.length_take, Nat.min_eq_left (by omega)]
    omega

/-- The addresses the chunk of a field is loaded to. -/
def TouchC (cu : Custom) (e : Env) (t' : Ty) (b : Nat) (x : FldInfo × Ty) (z : Nat) : Prop :=
  (Bare cu (nameHash x) ∧ FieldShared e t' b x z) ∨
  ∃ y ∈ loadFields e t', nameHash x = nameHash y ∧ cu.load (nameHash y) ≠ none ∧ InField b y z

theorem touchC_field {cu : Custom} {e : Env} {t t' : Ty} (h : CustomVersions e cu t t') {b z : Nat} {x : FldInfo × Ty}
    (hz : TouchC cu e t' b x z) : ∃ y ∈ loadFields e t', nameHash x = nameHash y ∧ InField b y z := by
  rcases hz with ⟨hP, y, hy, hn, -, hc⟩ | ⟨y, hy, hn, -, hz⟩
  · have ho := h.ordinary' y hy (hn ▸ hP.2)
    exact ⟨y, hy, hn, cellShared_within hc ho.2.2.2 ho.1⟩
  · exact ⟨y, hy, hn, hz⟩

theorem touchC_within {cu : Custom} {e : Env} {t t' : Ty} (h : CustomVersions e cu t t') {b z : Nat} {x : FldInfo × Ty}
    (hz : TouchC cu e t' b x z) : z < b + t'.size := by
  obtain ⟨y, hy, -, hz⟩ := touchC_field h hz
  have := h.inside' y hy
  unfold InField at hz
  omega

theorem touchC_apart {cu : Custom} {e : Env} {t t' : Ty} (h : CustomVersions e cu t t') {b z : Nat} {x y : FldInfo × Ty}
    (hz : TouchC cu e t' b x z) (hy : y ∈ loadFields e t') (hn : nameHash x ≠ nameHash y) : ¬ InField b y z := by
  obtain ⟨y', hy', hn', hz⟩ := touchC_field h hz
  have hap := pairwise_apart h.apart' hy' hy (fun he => hn (by rw [hn', he]))
  unfold Apart at hap
  unfold InField at hz ⊢
  omega

/-- What the loading function of the field of the same name has done. -/
def ServedC (cu : Custom) (e : Env) (m : Mem) (t' : Ty) (a b : Nat) (data : Bytes) (m0 m1 : Mem) (x : FldInfo × Ty) : Prop :=
  ∀ y ∈ loadFields e t', nameHash x = nameHash y → ∀ f, cu.load (nameHash y) = some f →
    Served f b y data (dataC cu e m a x) m0 m1

/-- It has just been called. -/
def NowC (cu : Custom) (e : Env) (m : Mem) (t' : Ty) (a b : Nat) (data : Bytes) (m0 m1 : Mem) (x : FldInfo × Ty) : Prop :=
  ∀ y ∈ loadFields e t', nameHash x = nameHash y → ∀ f, cu.load (nameHash y) = some f →
    ∃ s s', f b (b + y.1.offset) s = .ok () s' ∧ s.data = data ∧ Before s (dataC cu e m a x) ∧ s.mem = m0 ∧ s'.mem = m1

/-- After reading `k` bytes. -/
def doneB (s : St) (k : Nat) (m : Mem) (bk : Bool) : St := { s with pos := s.pos + k, mem := m, back := bk }

theorem doneB_doneB (s : St) (j k : Nat) (m m' : Mem) (bk bk' : Bool) :
    doneB (doneB s j m bk) k m' bk' = doneB s (j + k) m' bk' := by
  simp [doneB, Int.add_assoc]

theorem Has.doneB {s : St} {d d' : Bytes} (h : Has s (d ++ d')) (m : Mem) (bk : Bool) : Has (doneB s d.length m bk) d' := h.right

theorem length_encFieldC (cu : Custom) (e : Env) (m : Mem) (a : Nat) (x : FldInfo × Ty) :
    (encFieldC cu e m a x).length = 12 + (dataC cu e m a x).length := by
  simp [encFieldC, encChunk, length_le]
  omega

theorem loadCustom_ok {f : Nat → Nat → Load Unit} {b fld : Nat} {s s' : St} {d rest : Bytes} (h : Has s (d ++ rest))
    (hf : f b fld s = .ok () s') (hd : s'.data = s.data) (h0 : 0 ≤ s'.pos) (h1 : s'.pos ≤ s.data.length) :
    ∃ bk, loadCustom f b fld d.length s = .ok () (doneB s d.length s'.mem bk) := by
  obtain ⟨h2, h3, h4, -⟩ := h.left
  have hb' : bytesRead s' = .ok s'.pos.toNat s' := by
    simp only [bytesRead]
    rw [Int.emod_eq_of_lt h0 (by omega)]
  have hbb : ∀ k : Int, 0 ≤ k → (k.toNat : Int) = k := by intro k hk; omega
  rw [loadCustom, run_bind (bytesRead_has h)]
  simp only []
  rw [run_bind hf, run_bind hb']
  have hm : (s.pos.toNat + d.length) % 2 ^ 32 = s.pos.toNat + d.length := Nat.mod_eq_of_lt (by omega)
  rw [hm, asInt_lt (by omega), asInt_lt (by omega)]
  have hsk : ∀ k : Int, k = (s.pos.toNat + d.length : Nat) - (s'.pos.toNat : Int) →
      seekBy k s' = .ok () (doneB s d.length s'.mem (s'.back || decide (k < 0))) := by
    intro k hk
    simp only [seekBy, hd]
    rw [if_pos (by omega)]
    congr 1
    simp only [doneB]
    rw [← hd]
    congr 1
    omega
  split
  · exact ⟨_, hsk _ rfl⟩
  · split
    · exact ⟨_, hsk _ rfl⟩
    · refine ⟨s'.back, ?_⟩
      rw [run_pure]
      congr 1
      simp only [doneB]
      rw [← hd]
      have : s'.pos = s.pos + d.length := by omega
      rw [← this]

theorem loadFieldC_bare {cu : Custom} {e : Env} {lo : LoadObj} {t' : Ty} {b : Nat} {s : St} {d rest : Bytes} {th n : BitVec 32}
    (hb : ClassBases t') (hhas : Has s (encChunk th n d ++ rest)) (hn : cu.load n = none) :
    loadFieldC cu e lo t' b s = loadField e lo t' b s := by
  obtain ⟨hrd, -⟩ := cell_len hhas
  rw [loadFieldC, loadField, run_bind hrd, run_bind hrd]
  simp only []
  have hff := findField_eq n.toNat t' hb
  rw [BitVec.ofNat_toNat, BitVec.setWidth_eq] at hff
  rw [hff]
  cases hf : t'.allFields.find? (fun y => nameHash y == n) with
  | none => rfl
  | some y =>
    have hyn : nameHash y = n := by simpa using List.find?_some hf
    have : cu.load (Hash.hashText y.1.name) = none := by
      show cu.load (nameHash y) = none
      rw [hyn, hn]
    simp only [this]
    rfl

theorem field_stepC {cu : Custom} {e : Env} {m : Mem} {t t' : Ty} (h : CustomVersions e cu t t') (a b : Nat) {x : FldInfo × Ty}
    (hx : x ∈ keptFields e t) (s : St) (rest : Bytes) (hhas : Has s (encFieldC cu e m a x ++ rest))
    (hb : b + t'.size ≤ s.mem.next)
    (hok : ∀ y ∈ loadFields e t', nameHash x = nameHash y → ∀ f, cu.load (nameHash y) = some f →
      Behaves f b y s.data (dataC cu e m a x) t'.size) :
    ∃ m1 bk, Effect s.mem m1 (TouchC cu e t' b x) ∧
      (Bare cu (nameHash x) → FieldGot e m m1 (fun z => s.mem.next ≤ z ∧ z < m1.next) s.mem t' a b x) ∧
      NowC cu e m t' a b s.data s.mem m1 x ∧
      ∀ n, sizeOf t' + s.data.length + 1 ≤ n →
        loadFieldC cu e (loadObject e n) t' b s = .ok () (doneB s (encFieldC cu e m a x).length m1 bk) := by
  have hxk := kept_skips e t x hx
  have hxl : x ∈ loadFields e t := mem_loadFields.2 ⟨(kept_sublist e t).subset hx, hxk⟩
  by_cases hP : Bare cu (nameHash x)
  · -- no functions
    have hdc : dataC cu e m a x = encCell (enc e m x.2) x.1.count x.2 (a + x.1.offset) := by
      rw [dataC, hP.1]
    have hef : encFieldC cu e m a x = encField e m a x := by rw [encFieldC, encField, hdc]
    have hxs : x ∈ t.savedFields e := (kept_saved e t x h.bases).2 ⟨hx, (h.ordinary x hxl hP.1).1⟩
    rw [hef] at hhas ⊢
    obtain ⟨m1, he, hg, hld⟩ := field_step (h.pair m) a b hxs hP s rest hhas hb
    refine ⟨m1, s.back, he.mono fun z hz => .inl ⟨hP, hz⟩, fun _ => hg, fun y hy hn f hf => ?_, fun n hn => ?_⟩
    · rw [← hn, hP.2] at hf; cases hf
    · rw [loadFieldC_bare h.bases' hhas hP.2, hld n hn]
      rfl
  · rw [length_encFieldC]
    obtain ⟨hrd, hc⟩ := cell_len hhas
    have hff := findField_eq (nameHash x).toNat t' h.bases'
    rw [BitVec.ofNat_toNat, BitVec.setWidth_eq] at hff
    generalize hd : dataC cu e m a x = d at hrd hc hok ⊢
    have skip : ∀ (hno : ∀ y ∈ loadFields e t', nameHash x = nameHash y → False)
        (hsk : ∀ n, loadFieldC cu e (loadObject e n) t' b s = seekRel d.length (adv s 12)),
        ∃ m1 bk, Effect s.mem m1 (TouchC cu e t' b x) ∧
          (Bare cu (nameHash x) → FieldGot e m m1 (fun z => s.mem.next ≤ z ∧ z < m1.next) s.mem t' a b x) ∧
          NowC cu e m t' a b s.data s.mem m1 x ∧
          ∀ n, sizeOf t' + s.data.length + 1 ≤ n →
            loadFieldC cu e (loadObject e n) t' b s = .ok () (doneB s (12 + d.length) m1 bk) := by
      intro hno hsk
      refine ⟨s.mem, s.back, Effect.refl _ _, fun h => (hP h).elim, fun y hy hn => (hno y hy hn).elim, fun n hn => ?_⟩
      rw [hsk n, seek_has hc.left, adv_adv]
      rfl
    cases hf : t'.allFields.find? (fun y => nameHash y == nameHash x) with
    | none =>
      rw [hf] at hff
      refine skip (fun y hy hn => ?_) (fun n => ?_)
      · have := List.find?_eq_none.1 hf y (mem_loadFields.1 hy).1
        simp [hn] at this
      · rw [loadFieldC, run_bind hrd]
        simp only [hff]
    | some y =>
      rw [hf] at hff
      have hy0 : y ∈ t'.allFields := List.mem_of_find?_eq_some hf
      have hyn : nameHash y = nameHash x := by simpa using List.find?_some hf
      by_cases hs : e.skips y.1.flags = true
      · refine skip (fun y' hy' hn => ?_) (fun n => ?_)
        · obtain ⟨h1, h2⟩ := mem_loadFields.1 hy'
          have := pairwise_unique h.names' hy0 h1 (hyn.trans hn)
          rw [← this, hs] at h2
          cases h2
        · rw [loadFieldC, run_bind hrd]
          simp only [hff, hs, if_true]
      have hs' : e.skips y.1.flags = false := by simpa using hs
      have hy : y ∈ loadFields e t' := mem_loadFields.2 ⟨hy0, hs'⟩
      have huni : ∀ y' ∈ loadFields e t', nameHash x = nameHash y' → y' = y := fun y' hy' hn =>
        pairwise_unique h.names' (mem_loadFields.1 hy').1 hy0 (hn.symm.trans hyn.symm)
      have hne : cu.load (nameHash y) ≠ none := by
        intro hn
        refine hP ⟨?_, by rw [← hyn]; exact hn⟩
        by_cases hsv : cu.save (nameHash x) = none
        · exact hsv
        · exact absurd hn (h.both x hx y hy hyn.symm hsv)
      obtain ⟨g, hg⟩ : ∃ g, cu.load (nameHash y) = some g := Option.ne_none_iff_exists'.1 hne
      have hbef : Before (adv s 12) d := before_has hc
      obtain ⟨s', h1, h2, h3, h4, h5⟩ := hok y hy hyn.symm g hg (adv s 12) rfl hbef hb
      obtain ⟨bk, hlc⟩ := loadCustom_ok hc h1 h2 h3 h4
      have h5' : Effect s.mem s'.mem (InField b y) := h5
      refine ⟨s'.mem, bk, h5'.mono fun z hz => .inr ⟨y, hy, hyn.symm, hne, hz⟩, fun h => (hP h).elim, fun y' hy' hn f' hf' => ?_,
        fun n hn => ?_⟩
      · have := huni y' hy' hn
        subst this
        rw [hg] at hf'
        cases hf'
        rw [hd]
        exact ⟨adv s 12, s', h1, rfl, hbef, rfl, rfl⟩
      · have hg' : cu.load (Hash.hashText y.1.name) = some g := hg
        rw [loadFieldC, run_bind hrd]
        simp only [hff, hs', Bool.false_eq_true, if_false, hg']
        rw [hlc]
        congr 1
        simp [doneB, adv, Int.add_assoc]

theorem class_loopC {cu : Custom} {e : Env} {m : Mem} {t t' : Ty} (h : CustomVersions e cu t t') (a b : Nat) (data : Bytes) :
    ∀ (l : List (FldInfo × Ty)) (s : St) (rest : Bytes), s.data = data → (∀ x ∈ l, x ∈ keptFields e t) →
      l.Pairwise (fun x y => nameHash x ≠ nameHash y) → Has s (l.flatMap (encFieldC cu e m a) ++ rest) →
      b + t'.size ≤ s.mem.next →
      (∀ x ∈ l, ∀ y ∈ loadFields e t', nameHash x = nameHash y → ∀ f, cu.load (nameHash y) = some f →
        Behaves f b y data (dataC cu e m a x) t'.size) →
      ∃ m1 bk, Effect s.mem m1 (fun z => ∃ x ∈ l, TouchC cu e t' b x z) ∧
        (∀ x ∈ l, Bare cu (nameHash x) → FieldGot e m m1 (fun z => s.mem.next ≤ z ∧ z < m1.next) s.mem t' a b x) ∧
        (∀ x ∈ l, ServedC cu e m t' a b data s.mem m1 x) ∧
        ∀ n k, sizeOf t' + s.data.length + 1 ≤ n → l.length + 1 ≤ k →
          classLoop (loadFieldC cu e (loadObject e n) t' b) (s.pos.toNat + (l.flatMap (encFieldC cu e m a)).length) k s =
            .ok () (doneB s (l.flatMap (encFieldC cu e m a)).length m1 bk) := by
  intro l
  induction l with
  | nil =>
    intro s rest _ _ _ hhas _ _
    refine ⟨s.mem, s.back, Effect.refl _ _, by simp, by simp, fun n k _ hk => ?_⟩
    obtain ⟨k, rfl⟩ : ∃ j, k = j + 1 := ⟨k - 1, by omega⟩
    rw [classLoop, run_bind (bytesRead_has hhas), if_neg (by simp), run_pure]
    simp [doneB]
  | cons x l ih =>
    intro s rest hdata hl hpw hhas hb hok
    rw [List.pairwise_cons] at hpw
    rw [List.flatMap_cons, List.append_assoc] at hhas
    obtain ⟨m2, bk2, he2, hg2, hv2, hld2⟩ := field_stepC h a b (hl x (by simp)) s _ hhas hb
      (by rw [hdata]; exact hok x (by simp))
    rw [hdata] at hv2
    have hn2 := he2.next
    have hhas2 : Has (doneB s (encFieldC cu e m a x).length m2 bk2) _ := hhas.doneB m2 bk2
    obtain ⟨m1, bk1, he1, hg1, hv1, hld1⟩ := ih (doneB s (encFieldC cu e m a x).length m2 bk2) rest hdata (fun y hy => hl y (by simp [hy])) hpw.2 hhas2
      (by show _ ≤ m2.next; omega) (fun y hy => hok y (by simp [hy]))
    have he1' : Effect m2 m1 (fun z => ∃ x ∈ l, TouchC cu e t' b x z) := he1
    have hn1 := he1'.next
    -- what a later field leaves
    have keep : ∀ y ∈ loadFields e t', nameHash x = nameHash y → ∀ z, z < m2.next → (InField b y z ∨ s.mem.next ≤ z) →
        m1.byte z = m2.byte z ∧ m1.elems z = m2.elems z := by
      intro y hy hn z hz1 hz
      have hz2 : ¬ ∃ x ∈ l, TouchC cu e t' b x z := by
        rintro ⟨v, hv, hsh⟩
        rcases hz with hz | hz
        · exact touchC_apart h hsh hy (fun he => hpw.1 v hv (hn.trans he.symm)) hz
        · have := touchC_within h hsh
          omega
      exact ⟨he1'.byte z hz1 hz2, he1'.elems z hz1 hz2⟩
    -- what this field has left
    have left : ∀ w ∈ l, ∀ y ∈ loadFields e t', nameHash w = nameHash y → ∀ z, InField b y z →
        m2.byte z = s.mem.byte z ∧ m2.elems z = s.mem.elems z := by
      intro w hw y hy hn z hz
      have hys := h.inside' y hy
      have hz1 : z < s.mem.next := by unfold InField at hz; omega
      have hz2 : ¬ TouchC cu e t' b x z := fun hsh =>
        touchC_apart h hsh hy (fun he => hpw.1 w hw (he.trans hn.symm)) hz
      exact ⟨he2.byte z hz1 hz2, he2.elems z hz1 hz2⟩
    refine ⟨m1, bk1, (he2.trans he1').mono fun z hz => ?_, fun w hw hPw => ?_, fun w hw => ?_, fun n k hn hk => ?_⟩
    · rcases hz with hz | ⟨w, hw, hz⟩
      · exact ⟨x, by simp, hz⟩
      · exact ⟨w, by simp [hw], hz⟩
    · rcases List.mem_cons.1 hw with hw' | hw'
      · subst hw'
        intro y hy hn ht
        have hys := h.inside' y hy
        have ho := h.ordinary' y hy (hn ▸ hPw.2)
        refine cellGot_congr (hg2 hPw y hy hn ht) ho.2.2.2 ho.1 (fun _ _ _ => rfl) (fun z hz => ?_) (fun z hz => ⟨hz.1, by omega⟩)
        refine keep y hy hn z (by omega) ?_
        rcases hz with hz | hz
        · exact .inl hz
        · exact .inr hz.1
      · intro y hy hn ht
        have hys := h.inside' y hy
        have ho := h.ordinary' y hy (hn ▸ hPw.2)
        refine cellGot_congr (hg1 w hw' hPw y hy hn ht) ho.2.2.2 ho.1 (fun z h3 h4 => ?_) (fun _ _ => ⟨rfl, rfl⟩) (fun z hz => ?_)
        · exact (left w hw' y hy hn z ⟨h3, h4⟩).1.symm
        · have : m2.next ≤ z ∧ z < m1.next := hz
          omega
    · rcases List.mem_cons.1 hw with hw' | hw'
      · subst hw'
        intro y hy hn f hf
        obtain ⟨s1, s2, q1, q2, q3, q4, q5⟩ := hv2 y hy hn f hf
        refine ⟨s1, s2, q1, q2, q3, fun z _ => by rw [q4]; exact ⟨rfl, rfl⟩, fun z hz => ?_⟩
        have hys := h.inside' y hy
        rw [q4, q5] at hz
        rw [q5]
        refine keep y hy hn z ?_ ?_
        · rcases hz with hz | hz
          · unfold InField at hz; omega
          · exact hz.2
        · rcases hz with hz | hz
          · exact .inl hz
          · exact .inr hz.1
      · intro y hy hn f hf
        obtain ⟨s1, s2, q1, q2, q3, q4, q5⟩ := hv1 w hw' y hy hn f hf
        refine ⟨s1, s2, q1, q2, q3, fun z hz => ?_, q5⟩
        have r1 := q4 z hz
        have r2 := left w hw' y hy hn z hz
        exact ⟨r1.1.trans r2.1, r1.2.trans r2.2⟩
    · obtain ⟨k, rfl⟩ : ∃ j, k = j + 1 := ⟨k - 1, by simp at hk; omega⟩
      have hlen : 12 ≤ (encFieldC cu e m a x).length := by rw [length_encFieldC]; omega
      have hpos := hhas.1
      rw [List.flatMap_cons, List.length_append, classLoop, run_bind (bytesRead_has hhas), if_pos (by omega),
        run_bind (hld2 n hn)]
      have h3 := hld1 n k hn (by simpa using hk)
      have h4 : (doneB s (encFieldC cu e m a x).length m2 bk2).pos.toNat = s.pos.toNat + (encFieldC cu e m a x).length := by
        simp only [doneB]; omega
      rw [h4, Nat.add_assoc] at h3
      rw [h3, doneB_doneB]

theorem flatMap_countC (cu : Custom) (e : Env) (m : Mem) (a : Nat) (l : List (FldInfo × Ty)) :
    l.length ≤ (l.flatMap (encFieldC cu e m a)).length := by
  induction l with
  | nil => simp
  | cons x l ih =>
    rw [List.flatMap_cons, List.length_append, length_encFieldC, List.length_cons]
    omega

theorem loadC_saved {cu : Custom} {e : Env} {m : Mem} {t t' : Ty} (h : CustomVersions e cu t t') (a b : Nat) (m0 : Mem)
    (hb : b + t'.size ≤ m0.next) (before after d data : Bytes)
    (hd : d = encChunk t.hash 0 ((keptFields e t).flatMap (encFieldC cu e m a))) (hdata : data = before ++ d ++ after)
    (hlen : data.length < 2 ^ 31)
    (hok : ∀ x ∈ keptFields e t, ∀ y ∈ loadFields e t', nameHash x = nameHash y → ∀ f, cu.load (nameHash y) = some f →
        Behaves f b y data (dataC cu e m a x) t'.size) :
    ∃ m1 bk, Effect m0 m1 (fun z => ∃ x ∈ keptFields e t, TouchC cu e t' b x z) ∧
      (∀ x ∈ keptFields e t, Bare cu (nameHash x) → FieldGot e m m1 (fun z => m0.next ≤ z ∧ z < m1.next) m0 t' a b x) ∧
      (∀ x ∈ keptFields e t, ServedC cu e m t' a b data m0 m1 x) ∧
      Returns (fun n => loadC cu e n t' b ⟨data, before.length, m0, false⟩)
        (.ok () ⟨data, ((before ++ d).length : Nat), m1, bk⟩) := by
  have hhas : Has ⟨data, before.length, m0, false⟩ (encChunk t.hash 0 ((keptFields e t).flatMap (encFieldC cu e m a)) ++ after) := by
    rw [← hd]
    refine ⟨by simp, hlen, ?_, ?_⟩
    · simp [hdata]
    · show List.take _ (List.drop before.length data) = _
      rw [hdata, List.append_assoc, List.drop_left, List.take_length]
  obtain ⟨hrd, hc⟩ := cell_len hhas
  obtain ⟨m1, bk, h1, h2, h3, h4⟩ := class_loopC h a b data (keptFields e t) (adv ⟨data, before.length, m0, false⟩ 12) after rfl
    (fun x hx => hx) (h.names.sublist (kept_sublist e t)) hc hb hok
  refine ⟨m1, bk, h1, h2, h3, sizeOf t' + data.length + 2, fun n hn => ?_⟩
  show loadC cu e n t' b _ = _
  have hcnt := flatMap_countC cu e m a (keptFields e t)
  obtain ⟨q1, q2, q3, -⟩ := hc.left
  have q3' : (adv ⟨data, before.length, m0, false⟩ 12).pos.toNat + ((keptFields e t).flatMap (encFieldC cu e m a)).length ≤ data.length := q3
  have hmod : ((adv ⟨data, before.length, m0, false⟩ 12).pos.toNat + ((keptFields e t).flatMap (encFieldC cu e m a)).length) % 2 ^ 32 =
      (adv ⟨data, before.length, m0, false⟩ 12).pos.toNat + ((keptFields e t).flatMap (encFieldC cu e m a)).length :=
    Nat.mod_eq_of_lt (by omega)
  rw [loadC, run_bind hrd, if_neg (by rw [h.same]; simp), run_bind (bytesRead_has hc)]
  simp only [hmod]
  rw [h4 n n (by show _ + data.length + 1 ≤ n; omega) (by omega)]
  congr 1
  simp only [doneB, adv, hd, List.length_append]
  congr 1
  simp [encChunk, length_le]
  omega

end Clr.VBin
