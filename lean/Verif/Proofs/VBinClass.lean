import Verif.Proofs.VBinCont

/-! Loading what was saved: classes, and all supported types. -/
namespace Clr.VBin
open Clr.JSON (Ty Flds Tys Mem FldInfo Const Env strideOf Apart elemAt arrayItems savedField Effect)

mutual
theorem bases_sublist (e : Env) : ∀ bs : Tys, (bs.savedFields e).Sublist bs.allFields
  | .nil => by simp [Tys.savedFields]
  | .cons t r => by
    rw [Tys.savedFields, Tys.allFields]
    exact (fields_sublist e t).append (bases_sublist e r)

theorem fields_sublist (e : Env) : ∀ t : Ty, (t.savedFields e).Sublist t.allFields
  | .cls hh s fl fs bs => by
    rw [Ty.savedFields, Ty.allFields]
    split
    · simp
    · exact List.filter_sublist.append (bases_sublist e bs)
  | .prim _ _ => by simp [Ty.savedFields]
  | .enum _ _ _ _ => by simp [Ty.savedFields]
  | .tmpl _ _ bs => by
    rw [Ty.savedFields, Ty.allFields]
    exact bases_sublist e bs
  | .vec _ _ _ _ => by simp [Ty.savedFields]
  | .dict _ _ _ _ _ => by simp [Ty.savedFields]
end

theorem list_sizeOf : ∀ (fs : Flds) (x : FldInfo × Ty), x ∈ fs.list → sizeOf x.2 < sizeOf fs
  | .nil, x, hx => by simp [Flds.list] at hx
  | .cons f t r, x, hx => by
    rw [Flds.list] at hx
    rcases List.mem_cons.1 hx with hx' | hx'
    · subst hx'; simp; omega
    · have := list_sizeOf r x hx'; simp; omega

mutual
theorem bases_sizeOf : ∀ (bs : Tys) (x : FldInfo × Ty), x ∈ bs.allFields → sizeOf x.2 < sizeOf bs
  | .nil, x, hx => by simp [Tys.allFields] at hx
  | .cons t r, x, hx => by
    rw [Tys.allFields] at hx
    rcases List.mem_append.1 hx with hx' | hx'
    · have := fields_sizeOf t x hx'; simp; omega
    · have := bases_sizeOf r x hx'; simp; omega

theorem fields_sizeOf : ∀ (t : Ty) (x : FldInfo × Ty), x ∈ t.allFields → sizeOf x.2 < sizeOf t
  | .cls hh s fl fs bs, x, hx => by
    rw [Ty.allFields] at hx
    rcases List.mem_append.1 hx with hx' | hx'
    · have := list_sizeOf fs x hx'; simp; omega
    · have := bases_sizeOf bs x hx'; simp; omega
  | .prim _ _, x, hx => by simp [Ty.allFields] at hx
  | .enum _ _ _ _, x, hx => by simp [Ty.allFields] at hx
  | .tmpl _ _ bs, x, hx => by
    rw [Ty.allFields] at hx
    have := bases_sizeOf bs x hx; simp; omega
  | .vec _ _ _ _, x, hx => by simp [Ty.allFields] at hx
  | .dict _ _ _ _ _, x, hx => by simp [Ty.allFields] at hx
end

theorem saved_load {e : Env} {t : Ty} {x : FldInfo × Ty} (h : x ∈ t.savedFields e) : x ∈ loadFields e t := by
  obtain ⟨h1, h2⟩ := Clr.JSON.savedFields_sub e t x h
  rw [mem_loadFields]
  refine ⟨h1, ?_⟩
  simp only [savedField, Bool.and_eq_true, Bool.not_eq_true'] at h2
  exact h2.1

theorem pairwise_apart {l : List (FldInfo × Ty)} (h : l.Pairwise Apart) {x y : FldInfo × Ty} (hx : x ∈ l) (hy : y ∈ l)
    (hn : x ≠ y) : Apart x y := by
  induction l with
  | nil => simp at hx
  | cons z l ih =>
    rw [List.pairwise_cons] at h
    rcases List.mem_cons.1 hx with hx' | hx' <;> rcases List.mem_cons.1 hy with hy' | hy'
    · exact absurd (hx'.trans hy'.symm) hn
    · rw [hx']; exact h.1 y hy'
    · rw [hy']; exact (h.1 x hx').symm
    · exact ih h.2 hx' hy'

/-- The addresses a saved field is loaded to. -/
def FieldShared (e : Env) (t' : Ty) (b : Nat) (x : FldInfo × Ty) (z : Nat) : Prop :=
  ∃ y ∈ loadFields e t', nameHash x = nameHash y ∧ x.2.hash = y.2.hash ∧ CellShared e x y (b + y.1.offset) z

/-- The values a saved field gives. -/
def FieldGot (e : Env) (m m1 : Mem) (R : Nat → Prop) (m0 : Mem) (t' : Ty) (a b : Nat) (x : FldInfo × Ty) : Prop :=
  ∀ y ∈ loadFields e t', nameHash x = nameHash y → x.2.hash = y.2.hash →
    CellGot e m m1 R m0 x y (a + x.1.offset) (b + y.1.offset)

/-- What is known of the two classes, of the types of fields as far as their names satisfy `P`. -/
structure Pair (e : Env) (m : Mem) (P : BitVec 32 → Prop) (t t' : Ty) : Prop where
  names : t.allFields.Pairwise fun x y => nameHash x ≠ nameHash y
  plain : ∀ x ∈ loadFields e t, P (nameHash x) → x.1.isPtr = false ∧ (x.1.count ≠ none → 0 < x.2.size) ∧ (∀ n, x.1.count = some n → n < 2 ^ 32)
  types : ∀ x ∈ loadFields e t, P (nameHash x) → Supported e x.2
  bases' : ClassBases t'
  names' : t'.allFields.Pairwise fun x y => nameHash x ≠ nameHash y
  plain' : ∀ x ∈ loadFields e t', P (nameHash x) → x.1.isPtr = false ∧ (x.1.count ≠ none → 0 < x.2.size) ∧ (∀ n, x.1.count = some n → n < 2 ^ 32)
  types' : ∀ x ∈ loadFields e t', P (nameHash x) → Supported e x.2
  inside' : ∀ x ∈ loadFields e t', x.1.offset + x.1.extent x.2 ≤ t'.size
  apart' : (loadFields e t').Pairwise Apart
  arrays : ∀ x ∈ t.savedFields e, P (nameHash x) → ∀ y ∈ loadFields e t', nameHash x = nameHash y →
    x.1.count.isSome = y.1.count.isSome ∧ (x.1.count.isSome = true → x.2.hash = y.2.hash)
  loads : ∀ x ∈ t.savedFields e, P (nameHash x) → ∀ y ∈ loadFields e t', nameHash x = nameHash y → x.2.hash = y.2.hash → Loads e m x.2 y.2

theorem Pair.unique {e : Env} {m : Mem} {P : BitVec 32 → Prop} {t t' : Ty} (h : Pair e m P t t') {y y' : FldInfo × Ty} (hy : y ∈ t'.allFields)
    (hy' : y' ∈ t'.allFields) (hn : nameHash y = nameHash y') : y = y' := pairwise_unique h.names' hy hy' hn

theorem cell_len {s : St} {d : Bytes} {t n : BitVec 32} {rest : Bytes} (h : Has s (encChunk t n d ++ rest)) :
    readChunk s = .ok (t.toNat, n.toNat, d.length) (adv s 12) ∧ Has (adv s 12) (d ++ rest) := by
  have h0 := h.left
  obtain ⟨h1, h2⟩ := readChunk_has h0
  refine ⟨h1, ?_⟩
  simp only [encChunk, List.append_assoc] at h
  have r1 := h.right; rw [length_le] at r1
  have r2 := r1.right; rw [length_le, adv_adv] at r2
  have r3 := r2.right; rw [length_le, adv_adv] at r3
  exact r3

theorem length_encField (e : Env) (m : Mem) (a : Nat) (x : FldInfo × Ty) :
    (encField e m a x).length = 12 + (encCell (enc e m x.2) x.1.count x.2 (a + x.1.offset)).length := by
  simp [encField, encChunk, length_le]
  omega

theorem field_step {e : Env} {m : Mem} {P : BitVec 32 → Prop} {t t' : Ty} (hp : Pair e m P t t') (a b : Nat) {x : FldInfo × Ty}
    (hx : x ∈ t.savedFields e) (hP : P (nameHash x)) (s : St) (rest : Bytes) (hhas : Has s (encField e m a x ++ rest))
    (hb : b + t'.size ≤ s.mem.next) :
    ∃ m1, Effect s.mem m1 (FieldShared e t' b x) ∧
      FieldGot e m m1 (fun z => s.mem.next ≤ z ∧ z < m1.next) s.mem t' a b x ∧
      ∀ n, sizeOf t' + s.data.length + 1 ≤ n →
        loadField e (loadObject e n) t' b s = .ok () (done s (encField e m a x).length m1) := by
  rw [length_encField]
  obtain ⟨hrd, hc⟩ := cell_len hhas
  generalize hd : encCell (enc e m x.2) x.1.count x.2 (a + x.1.offset) = d at hrd hc ⊢
  have hff := findField_eq (nameHash x).toNat t' hp.bases'
  rw [BitVec.ofNat_toNat, BitVec.setWidth_eq] at hff
  -- nothing is loaded
  have skip : ∀ (hno : ∀ y ∈ loadFields e t', nameHash x = nameHash y → x.2.hash = y.2.hash → False)
      (hsk : ∀ n, 1 ≤ n → loadField e (loadObject e n) t' b s = seekRel d.length (adv s 12)),
      ∃ m1, Effect s.mem m1 (FieldShared e t' b x) ∧
        FieldGot e m m1 (fun z => s.mem.next ≤ z ∧ z < m1.next) s.mem t' a b x ∧
        ∀ n, sizeOf t' + s.data.length + 1 ≤ n →
          loadField e (loadObject e n) t' b s = .ok () (done s (12 + d.length) m1) := by
    intro hno hsk
    refine ⟨s.mem, Effect.refl _ _, fun y hy hn ht => (hno y hy hn ht).elim, fun n hn => ?_⟩
    rw [hsk n (by omega), seek_has hc.left, adv_adv]
    rfl
  have hunf : ∀ lo, loadField e lo t' b s =
      (match findField (nameHash x).toNat t' with
      | .ok (some (f, t)) =>
        if e.skips f.flags then seekRel d.length
        else
          match f.count with
          | some n => loadContainer lo (arrWriter f t n b) d.length n
          | none => lo t (b + f.offset) d.length x.2.hash.toNat
      | .ok none => seekRel d.length
      | _ => Load.halt .trap) (adv s 12) := by
    intro lo
    rw [loadField, run_bind hrd]
    rfl
  cases hf : t'.allFields.find? (fun y => nameHash y == nameHash x) with
  | none =>
    rw [hf] at hff
    refine skip (fun y hy hn _ => ?_) (fun n _ => ?_)
    · have := List.find?_eq_none.1 hf y (mem_loadFields.1 hy).1
      simp [hn] at this
    · rw [hunf, hff]
  | some y =>
    rw [hf] at hff
    have hy0 : y ∈ t'.allFields := List.mem_of_find?_eq_some hf
    have hyn : nameHash y = nameHash x := by simpa using List.find?_some hf
    by_cases hs : e.skips y.1.flags = true
    · refine skip (fun y' hy' hn _ => ?_) (fun n _ => ?_)
      · obtain ⟨h1, h2⟩ := mem_loadFields.1 hy'
        have := hp.unique hy0 h1 (hyn.trans hn)
        rw [← this, hs] at h2
        cases h2
      · rw [hunf, hff]
        simp only [hs, if_true]
    have hs' : e.skips y.1.flags = false := by simpa using hs
    have hy : y ∈ loadFields e t' := mem_loadFields.2 ⟨hy0, hs'⟩
    have huni : ∀ y' ∈ loadFields e t', nameHash x = nameHash y' → y' = y := fun y' hy' hn =>
      hp.unique (mem_loadFields.1 hy').1 hy0 (hn.symm.trans hyn.symm)
    have hPy : P (nameHash y) := by rw [hyn]; exact hP
    have hyp := hp.plain' y hy hPy
    have hyi := hp.inside' y hy
    have hxl := saved_load hx
    have hsz := fields_sizeOf t' y hy0
    obtain ⟨harr, harrh⟩ := hp.arrays x hx hP y hy hyn.symm
    cases hcy : y.1.count with
    | some n' =>
      rw [hcy] at harr
      obtain ⟨n0, hcx⟩ := Option.isSome_iff_exists.1 harr
      have hh := harrh (by rw [hcx]; rfl)
      rw [extent_some hyp.1 hcy] at hyi
      subst hd
      obtain ⟨m1, he, hg, hld⟩ := arr_load hcx hcy (hp.loads x hx hP y hy hyn.symm hh) (hp.types x hxl hP) (hp.types' y hy hPy) hh hyp.1
        (hyp.2.1 (by rw [hcy]; simp)) ((hp.plain x hxl hP).2.2 n0 hcx) (a + x.1.offset) b (adv s 12) rest hc
        (by show _ ≤ s.mem.next; omega)
      refine ⟨m1, (show Effect s.mem m1 _ from he).mono fun z hz => ⟨y, hy, hyn.symm, hh, hz⟩, fun y' hy' hn _ => ?_,
        fun n hn => ?_⟩
      · rw [huni y' hy' hn]
        exact hg
      · rw [hunf, hff]
        simp only [hs', Bool.false_eq_true, if_false, hcy]
        rw [hld n (by show _ + s.data.length + 2 ≤ n; omega), done_adv]
    | none =>
      rw [hcy] at harr
      have hcx : x.1.count = none := by simpa using harr
      rw [extent_none hyp.1 hcy] at hyi
      by_cases hh : x.2.hash = y.2.hash
      · have hd' : d = enc e m x.2 (a + x.1.offset) := by rw [← hd]; simp [encCell, hcx]
        subst hd'
        obtain ⟨m1, hld1, hld⟩ := hp.loads x hx hP y hy hyn.symm hh (a + x.1.offset) (b + y.1.offset) _ (adv s 12) hc.left
          (by show _ ≤ s.mem.next; omega) (.inl rfl)
        refine ⟨m1, (show Effect s.mem m1 _ from hld1.eff).mono fun z hz => ⟨y, hy, hyn.symm, hh, .inl ⟨hcx, hcy, hz⟩⟩,
          fun y' hy' hn _ => ?_, fun n hn => ?_⟩
        · rw [huni y' hy' hn]
          exact ⟨fun _ _ => hld1.got, fun n n' hn => by rw [hcx] at hn; cases hn⟩
        · rw [hunf, hff]
          simp only [hs', Bool.false_eq_true, if_false, hcy]
          rw [hld n (by show _ + s.data.length + 2 ≤ n; omega), done_adv]
      · refine skip (fun y' hy' hn ht => ?_) (fun n hn => ?_)
        · rw [huni y' hy' hn] at ht
          exact hh ht
        · rw [hunf, hff]
          simp only [hs', Bool.false_eq_true, if_false, hcy]
          obtain ⟨n, rfl⟩ : ∃ k, n = k + 1 := ⟨n - 1, by omega⟩
          rw [loadObject_ne (fun h => hh (BitVec.eq_of_toNat_eq h))]

theorem fieldShared_within {e : Env} {m : Mem} {P : BitVec 32 → Prop} {t t' : Ty} (hp : Pair e m P t t') {b z : Nat} {x : FldInfo × Ty}
    (h : FieldShared e t' b x z) (hP : P (nameHash x)) : b ≤ z ∧ z < b + t'.size := by
  obtain ⟨y, hy, hn, _, hc⟩ := h
  rw [hn] at hP
  have := cellShared_within hc (hp.types' y hy hP) (hp.plain' y hy hP).1
  have := hp.inside' y hy
  omega

theorem fieldShared_apart {e : Env} {m : Mem} {P : BitVec 32 → Prop} {t t' : Ty} (hp : Pair e m P t t') {b z : Nat} {x y : FldInfo × Ty}
    (h : FieldShared e t' b x z) (hP : P (nameHash x)) (hy : y ∈ loadFields e t') (hn : nameHash x ≠ nameHash y) :
    ¬ (b + y.1.offset ≤ z ∧ z < b + y.1.offset + y.1.extent y.2) := by
  obtain ⟨y', hy', hn', _, hc⟩ := h
  rw [hn'] at hP
  have hw := cellShared_within hc (hp.types' y' hy' hP) (hp.plain' y' hy' hP).1
  have hap := pairwise_apart hp.apart' hy' hy (fun h => hn (by rw [hn', h]))
  unfold Apart at hap
  omega

theorem class_loop {e : Env} {m : Mem} {P : BitVec 32 → Prop} {t t' : Ty} (hp : Pair e m P t t') (a b : Nat) :
    ∀ (l : List (FldInfo × Ty)) (s : St) (rest : Bytes), (∀ x ∈ l, x ∈ t.savedFields e) → (∀ x ∈ l, P (nameHash x)) →
      l.Pairwise (fun x y => nameHash x ≠ nameHash y) → Has s (l.flatMap (encField e m a) ++ rest) →
      b + t'.size ≤ s.mem.next →
      ∃ m1, Effect s.mem m1 (fun z => ∃ x ∈ l, FieldShared e t' b x z) ∧
        (∀ x ∈ l, FieldGot e m m1 (fun z => s.mem.next ≤ z ∧ z < m1.next) s.mem t' a b x) ∧
        ∀ n k, sizeOf t' + s.data.length + 1 ≤ n → l.length + 1 ≤ k →
          classLoop (loadField e (loadObject e n) t' b) (s.pos.toNat + (l.flatMap (encField e m a)).length) k s =
            .ok () (done s (l.flatMap (encField e m a)).length m1) := by
  intro l
  induction l with
  | nil =>
    intro s rest _ _ _ hhas _
    refine ⟨s.mem, Effect.refl _ _, by simp, fun n k _ hk => ?_⟩
    obtain ⟨k, rfl⟩ : ∃ j, k = j + 1 := ⟨k - 1, by omega⟩
    rw [classLoop, run_bind (bytesRead_has hhas), if_neg (by simp), run_pure]
    simp [done]
  | cons x l ih =>
    intro s rest hl hPl hpw hhas hb
    rw [List.pairwise_cons] at hpw
    rw [List.flatMap_cons, List.append_assoc] at hhas
    obtain ⟨m2, he2, hg2, hld2⟩ := field_step hp a b (hl x (by simp)) (hPl x (by simp)) s _ hhas hb
    have hn2 := he2.next
    have hhas2 : Has (done s (encField e m a x).length m2) _ := hhas.done m2
    obtain ⟨m1, he1, hg1, hld1⟩ := ih _ rest (fun y hy => hl y (by simp [hy])) (fun y hy => hPl y (by simp [hy])) hpw.2 hhas2 (by show _ ≤ m2.next; omega)
    have he1' : Effect m2 m1 (fun z => ∃ x ∈ l, FieldShared e t' b x z) := he1
    have hn1 := he1'.next
    refine ⟨m1, (he2.trans he1').mono fun z hz => ?_, fun w hw => ?_, fun n k hn hk => ?_⟩
    · rcases hz with hz | ⟨w, hw, hz⟩
      · exact ⟨x, by simp, hz⟩
      · exact ⟨w, by simp [hw], hz⟩
    · rcases List.mem_cons.1 hw with hw' | hw'
      · subst hw'
        intro y hy hn ht
        have hys := hp.inside' y hy
        refine cellGot_congr (hg2 y hy hn ht) (hp.types' y hy (hn ▸ hPl w hw)) (hp.plain' y hy (hn ▸ hPl w hw)).1 (fun _ _ _ => rfl) (fun z hz => ?_)
          (fun z hz => ⟨hz.1, by omega⟩)
        have hz1 : z < m2.next := by omega
        have hz2 : ¬ ∃ x ∈ l, FieldShared e t' b x z := by
          rintro ⟨v, hv, hsh⟩
          rcases hz with hz | hz
          · exact fieldShared_apart hp hsh (hPl v (by simp [hv])) hy (fun h => hpw.1 v hv (hn.trans h.symm)) hz
          · have := fieldShared_within hp hsh (hPl v (by simp [hv]))
            omega
        exact ⟨he1'.byte z hz1 hz2, he1'.elems z hz1 hz2⟩
      · intro y hy hn ht
        have hys := hp.inside' y hy
        refine cellGot_congr (hg1 w hw' y hy hn ht) (hp.types' y hy (hn ▸ hPl w hw)) (hp.plain' y hy (hn ▸ hPl w hw)).1 (fun z h3 h4 => ?_) (fun _ _ => ⟨rfl, rfl⟩)
          (fun z hz => ?_)
        · exact (he2.byte z (by omega) fun hsh => fieldShared_apart hp hsh (hPl x (by simp)) hy (fun h => hpw.1 w hw' (h.trans hn.symm)) ⟨h3, h4⟩).symm
        · have : m2.next ≤ z ∧ z < m1.next := hz
          omega
    · obtain ⟨k, rfl⟩ : ∃ j, k = j + 1 := ⟨k - 1, by simp at hk; omega⟩
      have hlen : 12 ≤ (encField e m a x).length := by rw [length_encField]; omega
      have hpos := hhas.1
      rw [List.flatMap_cons, List.length_append, classLoop, run_bind (bytesRead_has hhas), if_pos (by omega),
        run_bind (hld2 n hn)]
      have h3 := hld1 n k hn (by simpa using hk)
      have h4 : (done s (encField e m a x).length m2).pos.toNat = s.pos.toNat + (encField e m a x).length := by
        simp only [done]; omega
      rw [h4, Nat.add_assoc] at h3
      rw [h3, done_done]

theorem flatMap_count (e : Env) (m : Mem) (a : Nat) (l : List (FldInfo × Ty)) :
    l.length ≤ (l.flatMap (encField e m a)).length := by
  induction l with
  | nil => simp
  | cons x l ih =>
    rw [List.flatMap_cons, List.length_append, length_encField, List.length_cons]
    omega

theorem loads_cls {e : Env} {m : Mem} (h : BitVec 32) (sz sz' : Nat) (fl fl' : BitVec 32) (fs fs' : Flds) (bs bs' : Tys)
    (hb : ClassBases (.cls h sz fl fs bs)) (hp : Pair e m (fun _ => True) (.cls h sz fl fs bs) (.cls h sz' fl' fs' bs')) :
    Loads e m (.cls h sz fl fs bs) (.cls h sz' fl' fs' bs') := by
  intro a b ds s hhas hbn hsz
  have hds : ds = (enc e m (.cls h sz fl fs bs) a).length := by
    rcases hsz with h | ⟨_, _, _, _, h⟩ | ⟨_, _, _, _, _, h⟩
    · exact h
    · cases h
    · cases h
  rw [encClass_eq e m _ hb a] at hhas hds ⊢
  obtain ⟨m1, he, hg, hld⟩ := class_loop hp a b _ s [] (fun x hx => hx) (fun _ _ => trivial) (hp.names.sublist (fields_sublist e _))
    (by simpa using hhas) hbn
  refine ⟨m1, ⟨he.mono fun z hz => ?_, ?_⟩, fun n hn => ?_⟩
  · obtain ⟨x, hx, y, hy, hn, ht, hc⟩ := hz
    rcases hc with ⟨hc, hc', hz⟩ | ⟨n, n', i, hc, hc', hi, hi', hz⟩
    · exact .one hx hy hn ht hc hc' hz
    · exact .arr hx hy hn ht hc hc' hi hi' hz
  · exact .cls (fun x hx y hy hn ht hc hc' => (hg x hx y hy hn ht).1 hc hc')
      (fun x hx y hy hn ht n n' hc hc' i hi hi' => (hg x hx y hy hn ht).2 n n' hc hc' i hi hi')
  · obtain ⟨n, rfl⟩ : ∃ k, n = k + 1 := ⟨n - 1, by omega⟩
    have hth : (Ty.cls h sz fl fs bs).hash.toNat = (Ty.cls h sz' fl' fs' bs').hash.toNat := rfl
    rw [loadObject_eq hth]
    show loadBody e (loadObject e n) n (.cls h sz' fl' fs' bs') b ds s = _
    simp only [loadBody]
    have h1 := hhas.1
    have h2 := hhas.2.1
    have h3 := hhas.2.2.1
    have hcnt := flatMap_count e m a ((Ty.cls h sz fl fs bs).savedFields e)
    rw [run_bind (bytesRead_has hhas), hds, Nat.mod_eq_of_lt (by omega)]
    exact hld n n (by omega) (by omega)

/-- Every supported type is loaded from what every version of it has saved. -/
theorem loads_of_versions {e : Env} {m : Mem} {t t' : Ty} (hv : Versions e t t') (hs : Supported e t) (hs' : Supported e t') :
    Loads e m t t' := by
  induction hv with
  | prim h s s' =>
    by_cases hne : s = s'
    · subst hne; exact loads_prim h s
    · exact loads_resized h s s' hne
  | enum h cs cs' fl fl' =>
    cases hs' with
    | enum _ _ _ hz => exact loads_enum h cs cs' fl fl' hz
  | cls h s s' fl fl' fs fs' bs bs' arrays types ih =>
    cases hs with
    | cls _ _ _ _ _ bases names plain typesS inside apart =>
      cases hs' with
      | cls _ _ _ _ _ bases' names' plain' types' inside' apart' =>
        exact loads_cls h s s' fl fl' fs fs' bs bs' bases
          ⟨names, fun x hx _ => plain x hx, fun x hx _ => typesS x hx, bases', names', fun x hx _ => plain' x hx,
            fun x hx _ => types' x hx, inside', apart', fun x hx _ => arrays x hx, fun x hx _ y hy hn ht =>
            ih x hx y hy hn ht (typesS x (saved_load hx)) (types' y hy)⟩
  | vec h s s' t t' ht ih =>
    cases hs with
    | vec _ _ _ h0 hl hts =>
      cases hs' with
      | vec _ _ _ h0' hl' hts' => exact loads_vec h s s' (ih hts hts') hts hts' (versions_hash ht) h0'
  | dict h s s' k k' t t' hk ht ihk ih =>
    cases hs with
    | dict _ _ _ _ h0 hl hks hts hkl hp =>
      cases hs' with
      | dict _ _ _ _ h0' hl' hks' hts' hkl' hp' =>
        exact loads_dict h s s' (ihk hks hks') (ih hts hts') hts hts' hks' (versions_hash ht) h0' hkl hkl' hp hp'

end Clr.VBin
