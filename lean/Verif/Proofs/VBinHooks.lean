import Verif.Props.VBinHooksSpec
import Verif.Proofs.VBinCustom
import Verif.Proofs.VBinDict

/-! Custom functions at any depth in the versioned binary. -/
namespace Clr.VBin
open Clr.JSON (Ty Flds Tys Mem FldInfo Const Env strideOf Apart elemAt arrayItems savedField Effect findOwn)

/-! ### Saving -/

/-- What `SaveClassField` writes into the chunk of a field. -/
def saveDataH (fn : Functions) (e : Env) (m : Mem) (x : Owned) : Save := fun a out =>
  match fn.save x.1 x.2.1 with
  | some g => .ok (out ++ g m a (a + x.2.1.offset))
  | none =>
    match x.2.1.count with
    | some n =>
      if 0 < n ∧ strideOf x.2.2 x.2.1.isPtr = 0 then .trap
      else saveItems none (saveObjectH fn e m x.2.2) (valueTypeSize x.2.2 x.2.1.isPtr == 0) x.2.1.isPtr
        (arrayItems (a + x.2.1.offset) n (strideOf x.2.2 x.2.1.isPtr)) (out ++ containerHeader n none x.2.2 x.2.1.isPtr)
    | none => saveObjectH fn e m x.2.2 (a + x.2.1.offset) out

/-- The bytes of an object. -/
def encH (fn : Functions) (e : Env) (m : Mem) (t : Ty) (a : Nat) : Bytes :=
  match saveObjectH fn e m t a [] with
  | .ok d => d
  | _ => []

/-- The bytes in a field's chunk. -/
def dataH (fn : Functions) (e : Env) (m : Mem) (a : Nat) (x : Owned) : Bytes :=
  match saveDataH fn e m x a [] with
  | .ok d => d
  | _ => []

/-- Its chunk. -/
def encFieldH (fn : Functions) (e : Env) (m : Mem) (a : Nat) (x : Owned) : Bytes :=
  encChunk x.2.2.hash (nameHash x.2) (dataH fn e m a x)

theorem encH_of {fn : Functions} {e : Env} {m : Mem} {t : Ty} {a : Nat} {d : Bytes}
    (h : ∀ out, saveObjectH fn e m t a out = .ok (out ++ d)) : encH fn e m t a = d := by
  rw [encH, h []]; rfl

theorem dataH_of {fn : Functions} {e : Env} {m : Mem} {x : Owned} {a : Nat} {d : Bytes}
    (h : ∀ out, saveDataH fn e m x a out = .ok (out ++ d)) : dataH fn e m a x = d := by
  rw [dataH, h []]; rfl

/-- Saving appends these bytes. -/
def SavesH (fn : Functions) (e : Env) (m : Mem) (t : Ty) (a : Nat) : Prop :=
  ∀ out, saveObjectH fn e m t a out = .ok (out ++ encH fn e m t a)

/-- For a field. -/
def SavesF (fn : Functions) (e : Env) (m : Mem) (a : Nat) (x : Owned) : Prop :=
  ∀ out, saveDataH fn e m x a out = .ok (out ++ dataH fn e m a x)

theorem saveItems_mem {value : Save} {valueE : Nat → Bytes} (sized : Bool) (l : List (Nat × Nat))
    (hv : ∀ x ∈ l, ∀ out, value x.2 out = .ok (out ++ valueE x.2)) (out : Bytes) :
    saveItems none value sized false l out = .ok (out ++ encItems none valueE sized l) := by
  induction l generalizing out with
  | nil => simp [saveItems, encItems]
  | cons x l ih =>
    obtain ⟨k, v⟩ := x
    simp only [saveItems, encItems, Res.bind_ok, Bool.false_eq_true, if_false]
    rw [withSize_ok' sized (fun out => hv (k, v) (by simp) out)]
    simp [ih (fun x hx => hv x (by simp [hx]))]

theorem saveFieldsH_ok {fn : Functions} {e : Env} {m : Mem} {o : BitVec 32} : ∀ (fs : Flds) (a : Nat)
    (_ : ∀ x ∈ (fs.list.filter fun x => !e.skips x.1.flags).map (fun x => (o, x)), SavesF fn e m a x) (out : Bytes),
    saveFieldsH fn e m o fs a out =
      .ok (out ++ ((fs.list.filter fun x => !e.skips x.1.flags).map (fun x => (o, x))).flatMap (encFieldH fn e m a))
  | .nil, a, _, out => by simp [saveFieldsH, Flds.list]
  | .cons f t r, a, h, out => by
    rw [saveFieldsH, Flds.list]
    rw [Flds.list] at h
    cases hsk : e.skips f.flags
    · simp only [List.filter_cons, hsk, Bool.not_false, if_true, List.map_cons, List.flatMap_cons] at h ⊢
      have ih := fun out => saveFieldsH_ok (o := o) r a (fun x hx => h x (List.mem_cons_of_mem _ hx)) out
      have hx : SavesF fn e m a (o, f, t) := h (o, f, t) (by simp)
      simp only [Bool.false_eq_true, if_false]
      have hc := chunk_ok t.hash (Hash.hashText f.name) out hx
      change (do
        let out ← chunk t.hash (Hash.hashText f.name) (saveDataH fn e m (o, f, t) a) out
        saveFieldsH fn e m o r a out) = _
      rw [hc]
      simp only [Res.bind_ok, ih, List.append_assoc]
      rfl
    · simp only [List.filter_cons, hsk, Bool.not_true, Bool.false_eq_true, if_false] at h ⊢
      have ih := fun out => saveFieldsH_ok (o := o) r a h out
      simp [ih]

mutual
theorem saveClassH_ok {fn : Functions} {e : Env} {m : Mem} : ∀ (t : Ty) (_ : ClassBases t) (a : Nat)
    (_ : ∀ x ∈ keptOwned e t, SavesF fn e m a x) (out : Bytes),
    isClass t = true ∧ saveObjectH fn e m t a out = .ok (out ++ (keptOwned e t).flatMap (encFieldH fn e m a))
  | .cls hh s fl fs bs, hb, a, h, out => by
    rw [ClassBases] at hb
    rw [saveObjectH]
    rw [keptOwned] at h ⊢
    refine ⟨rfl, ?_⟩
    split
    · simp
    · rename_i hs
      simp only [hs] at h
      rw [saveFieldsH_ok fs a (fun x hx => h x (List.mem_append.2 (.inl hx)))]
      simp [saveBasesH_ok bs hb a (fun x hx => h x (List.mem_append.2 (.inr hx)))]
  | .prim _ _, hb, _, _, _ => by simp [ClassBases] at hb
  | .enum _ _ _ _, hb, _, _, _ => by simp [ClassBases] at hb
  | .tmpl _ _ _, hb, _, _, _ => by simp [ClassBases] at hb
  | .vec _ _ _ _, hb, _, _, _ => by simp [ClassBases] at hb
  | .dict _ _ _ _ _, hb, _, _, _ => by simp [ClassBases] at hb

theorem saveBasesH_ok {fn : Functions} {e : Env} {m : Mem} : ∀ (bs : Tys) (_ : ClassBasesOf bs) (a : Nat)
    (_ : ∀ x ∈ keptOwnedBases e bs, SavesF fn e m a x) (out : Bytes),
    saveBasesH fn e m bs a out = .ok (out ++ (keptOwnedBases e bs).flatMap (encFieldH fn e m a))
  | .nil, _, _, _, _ => by simp [saveBasesH, keptOwnedBases]
  | .cons t r, hb, a, h, out => by
    rw [ClassBasesOf] at hb
    rw [keptOwnedBases] at h
    have h1 := saveClassH_ok t hb.1 a (fun x hx => h x (List.mem_append.2 (.inl hx))) out
    rw [saveBasesH, keptOwnedBases, if_pos h1.1, h1.2]
    simp [saveBasesH_ok r hb.2 a (fun x hx => h x (List.mem_append.2 (.inr hx)))]
end

mutual
theorem keptOwned_sublist (e : Env) : ∀ t : Ty, (keptOwned e t).Sublist (ownedFields t)
  | .cls hh s fl fs bs => by
    rw [keptOwned, ownedFields]
    split
    · simp
    · exact (List.filter_sublist.map _).append (keptOwnedBases_sublist e bs)
  | .prim _ _ => by simp [keptOwned]
  | .enum _ _ _ _ => by simp [keptOwned]
  | .tmpl _ _ bs => by simp [keptOwned]
  | .vec _ _ _ _ => by simp [keptOwned]
  | .dict _ _ _ _ _ => by simp [keptOwned]

theorem keptOwnedBases_sublist (e : Env) : ∀ bs : Tys, (keptOwnedBases e bs).Sublist (ownedBases bs)
  | .nil => by simp [keptOwnedBases]
  | .cons t r => by
    rw [keptOwnedBases, ownedBases]
    exact (keptOwned_sublist e t).append (keptOwnedBases_sublist e r)
end

mutual
theorem keptOwned_skips (e : Env) : ∀ (t : Ty) (x : Owned), x ∈ keptOwned e t → e.skips x.2.1.flags = false
  | .cls hh s fl fs bs, x, hx => by
    rw [keptOwned] at hx
    split at hx
    · simp at hx
    · rcases List.mem_append.1 hx with hx | hx
      · obtain ⟨y, hy, rfl⟩ := List.mem_map.1 hx
        simpa using (List.mem_filter.1 hy).2
      · exact keptOwnedBases_skips e bs x hx
  | .prim _ _, x, hx => by simp [keptOwned] at hx
  | .enum _ _ _ _, x, hx => by simp [keptOwned] at hx
  | .tmpl _ _ bs, x, hx => by simp [keptOwned] at hx
  | .vec _ _ _ _, x, hx => by simp [keptOwned] at hx
  | .dict _ _ _ _ _, x, hx => by simp [keptOwned] at hx

theorem keptOwnedBases_skips (e : Env) : ∀ (bs : Tys) (x : Owned), x ∈ keptOwnedBases e bs → e.skips x.2.1.flags = false
  | .nil, x, hx => by simp [keptOwnedBases] at hx
  | .cons t r, x, hx => by
    rw [keptOwnedBases] at hx
    rcases List.mem_append.1 hx with hx | hx
    · exact keptOwned_skips e t x hx
    · exact keptOwnedBases_skips e r x hx
end

mutual
theorem keptOwned_sizeOf (e : Env) : ∀ (t : Ty) (x : Owned), x ∈ keptOwned e t → sizeOf x.2.2 < sizeOf t
  | .cls hh s fl fs bs, x, hx => by
    rw [keptOwned] at hx
    split at hx
    · simp at hx
    · rcases List.mem_append.1 hx with hx | hx
      · obtain ⟨y, hy, rfl⟩ := List.mem_map.1 hx
        have := list_sizeOf fs y (List.mem_filter.1 hy).1
        simp; omega
      · have := keptOwnedBases_sizeOf e bs x hx
        simp; omega
  | .prim _ _, x, hx => by simp [keptOwned] at hx
  | .enum _ _ _ _, x, hx => by simp [keptOwned] at hx
  | .tmpl _ _ bs, x, hx => by simp [keptOwned] at hx
  | .vec _ _ _ _, x, hx => by simp [keptOwned] at hx
  | .dict _ _ _ _ _, x, hx => by simp [keptOwned] at hx

theorem keptOwnedBases_sizeOf (e : Env) : ∀ (bs : Tys) (x : Owned), x ∈ keptOwnedBases e bs → sizeOf x.2.2 < sizeOf bs
  | .nil, x, hx => by simp [keptOwnedBases] at hx
  | .cons t r, x, hx => by
    rw [keptOwnedBases] at hx
    rcases List.mem_append.1 hx with hx | hx
    · have := keptOwned_sizeOf e t x hx; simp; omega
    · have := keptOwnedBases_sizeOf e r x hx; simp; omega
end

/-! ### Finding fields -/

mutual
theorem findOwner_eq (h : Nat) : ∀ (t : Ty) (_ : ClassBases t),
    findOwner h t = .ok ((ownedFields t).find? fun x => nameHash x.2 == BitVec.ofNat 32 h)
  | .cls hh s fl fs bs, hb => by
    rw [ClassBases] at hb
    rw [findOwner, ownedFields, List.find?_append, findOwn_eq, findOwnerBases_eq h bs hb, List.find?_map]
    show _ = Res.ok (((List.find? (fun x => nameHash x == BitVec.ofNat 32 h) fs.list).map _).or _)
    cases fs.list.find? (fun x => nameHash x == BitVec.ofNat 32 h) <;> simp
  | .prim _ _, hb => by simp [ClassBases] at hb
  | .enum _ _ _ _, hb => by simp [ClassBases] at hb
  | .tmpl _ _ _, hb => by simp [ClassBases] at hb
  | .vec _ _ _ _, hb => by simp [ClassBases] at hb
  | .dict _ _ _ _ _, hb => by simp [ClassBases] at hb

theorem findOwnerBases_eq (h : Nat) : ∀ (bs : Tys) (_ : ClassBasesOf bs),
    findOwnerBases h bs = .ok ((ownedBases bs).find? fun x => nameHash x.2 == BitVec.ofNat 32 h)
  | .nil, _ => by simp [findOwnerBases, ownedBases]
  | .cons t r, hb => by
    rw [ClassBasesOf] at hb
    rw [findOwnerBases, ownedBases, List.find?_append, findOwner_eq h t hb.1]
    cases (ownedFields t).find? (fun x => nameHash x.2 == BitVec.ofNat 32 h) with
    | none => simp [findOwnerBases_eq h r hb.2]
    | some x => simp
end

theorem findOwner_mem {t : Ty} (hb : ClassBases t) (hn : (ownedFields t).Pairwise fun x y => nameHash x.2 ≠ nameHash y.2)
    {x : Owned} (hx : x ∈ ownedFields t) : findOwner (nameHash x.2).toNat t = .ok (some x) := by
  rw [findOwner_eq _ t hb]
  congr 1
  simp only [BitVec.ofNat_toNat, BitVec.setWidth_eq]
  cases hf : (ownedFields t).find? (fun y => nameHash y.2 == nameHash x.2) with
  | none => exact absurd (List.find?_eq_none.1 hf x hx) (by simp)
  | some y =>
    have h1 := List.mem_of_find?_eq_some hf
    have h2 : nameHash y.2 = nameHash x.2 := by simpa using List.find?_some hf
    rw [pairwise_unique (f := fun z : Owned => nameHash z.2) hn h1 hx h2]

/-! ### Loading -/

theorem doneB_adv (s : St) (j k : Nat) (m : Mem) (bk : Bool) : doneB (adv s j) k m bk = doneB s (j + k) m bk := by
  simp [doneB, adv, Int.add_assoc]

theorem loadObjectH_eq {fn : Functions} {e : Env} {n : Nat} {t : Ty} {b ds th : Nat} (h : th = t.hash.toNat) :
    loadObjectH fn e (n + 1) t b ds th = loadBodyH fn e (loadObjectH fn e n) n t b ds := by
  simp [loadObjectH, h]

/-- In an object of some size at `b`. -/
def Span (b z x : Nat) : Prop := b ≤ x ∧ x < b + z

/-- Loading the bytes of an object brings it back. -/
def RoundV (fn : Functions) (e : Env) (m : Mem) (t : Ty) (a : Nat) : Prop :=
  SavesH fn e m t a ∧ (valueTypeSize t false ≠ 0 → SizeOk t (encH fn e m t a).length (valueTypeSize t false)) ∧
  ∀ (s : St) (rest : Bytes) (b ds : Nat), Has s (encH fn e m t a ++ rest) → SizeOk t (encH fn e m t a).length ds →
    b + t.size ≤ s.mem.next →
    ∃ m1 bk, Effect s.mem m1 (Span b t.size) ∧
      (∀ m2 R, (∀ x, Span b t.size x ∨ (s.mem.next ≤ x ∧ x < m1.next) → Agree m2 m1 x) →
        (∀ x, s.mem.next ≤ x → x < m1.next → R x) → Back fn e m m2 R none t a b) ∧
      ∀ n, sizeOf t + s.data.length + 2 ≤ n →
        loadObjectH fn e n t b ds t.hash.toNat s = .ok () (doneB s (encH fn e m t a).length m1 bk)

theorem read_agree {m m' : Mem} {b z : Nat} (h : ∀ x, Span b z x → Agree m m' x) : m.read b z = m'.read b z := by
  induction z generalizing b with
  | zero => rfl
  | succ z ih =>
    simp only [Clr.JSON.Mem.read]
    rw [(h b ⟨by omega, by omega⟩).1, ih fun x hx => h x ⟨by have := hx.1; omega, by have := hx.2; omega⟩]

theorem Agree.symm {m m' : Mem} {x : Nat} (h : Agree m m' x) : Agree m' m x := ⟨h.1.symm, h.2.symm⟩

theorem Agree.trans {m m' m'' : Mem} {x : Nat} (h : Agree m m' x) (h' : Agree m' m'' x) : Agree m m'' x :=
  ⟨h.1.trans h'.1, h.2.trans h'.2⟩

theorem effect_agree {m m' : Mem} {S : Nat → Prop} (h : Effect m m' S) {x : Nat} (hx : x < m.next) (hn : ¬ S x) : Agree m' m x :=
  ⟨h.byte x hx hn, h.elems x hx hn⟩

theorem round_prim (fn : Functions) (e : Env) (m : Mem) (h : BitVec 32) (z a : Nat) : RoundV fn e m (.prim h z) a := by
  have hsv : ∀ out, saveObjectH fn e m (.prim h z) a out = .ok (out ++ m.read a z) := fun out => by rw [saveObjectH]
  have henc := encH_of hsv
  have hlen : (m.read a z).length = z := Clr.JSON.read_length _ _ _
  rw [RoundV, SavesH, henc]
  refine ⟨hsv, fun hv => ?_, fun s rest b ds hhas hsz hb => ?_⟩
  · rw [hlen]
    left
    simp only [valueTypeSize, Bool.false_eq_true, if_false] at hv ⊢
    split
    · rename_i hc; rw [if_pos hc] at hv; exact absurd rfl hv
    · rfl
  · have hds : ds = z := by
      rcases hsz with hsz | ⟨_, _, _, _, hx⟩ | ⟨_, _, _, _, _, hx⟩
      · rw [hsz, hlen]
      · cases hx
      · cases hx
    subst hds
    have hrw := Clr.JSON.read_write s.mem b (m.read a ds)
    rw [hlen] at hrw
    refine ⟨s.mem.write b (m.read a ds), s.back, ?_, fun m2 R hag _ => ?_, fun n hn => ?_⟩
    · refine (Clr.JSON.effect_write s.mem b (m.read a ds)).mono fun x hx => ?_
      rw [hlen] at hx
      exact hx
    · exact .prim ((read_agree fun x hx => hag x (.inl hx)).trans hrw)
    · obtain ⟨n, rfl⟩ : ∃ k, n = k + 1 := ⟨n - 1, by omega⟩
      have hr := read_has hhas.left
      rw [hlen] at hr ⊢
      rw [loadObjectH_eq rfl]
      simp only [loadBodyH, loadType, ne_eq, not_true, if_false]
      rw [run_bind hr]
      rfl

theorem round_enum {fn : Functions} {e : Env} {m : Mem} {h : BitVec 32} {cs : List Const} {fl : Bool} {a : Nat}
    (hz : ∀ c ∈ cs, Hash.hashText c.name ≠ 0) (hv : enumValue cs cs (enumAt m a) = some (enumAt m a)) :
    RoundV fn e m (.enum h 4 cs fl) a := by
  have hsv : ∀ out, saveObjectH fn e m (.enum h 4 cs fl) a out = .ok (out ++ le 4 (enumHash cs (enumAt m a)).toNat) := fun out => by
    rw [saveObjectH, if_neg (by decide)]; rfl
  have henc := encH_of hsv
  rw [RoundV, SavesH, henc]
  refine ⟨hsv, fun hv => ?_, fun s rest b ds hhas hsz hb => ?_⟩
  · rw [length_le]
    left
    simp only [valueTypeSize, Bool.false_eq_true, if_false] at hv ⊢
    split
    · rename_i hc; rw [if_pos hc] at hv; exact absurd rfl hv
    · rfl
  · have hds : ds = 4 := by
      rcases hsz with hsz | ⟨_, _, _, _, hx⟩ | ⟨_, _, _, _, _, hx⟩
      · rw [hsz, length_le]
      · cases hx
      · cases hx
    subst hds
    have hf := enum_found (cs := cs) hz (enumAt m a)
    rw [hv] at hf
    have hr := readU32_has hhas.left (toNat_lt32 _)
    cases hc : cs.find? (fun c => (Hash.hashText c.name).toNat == (enumHash cs (enumAt m a)).toNat) with
    | none => rw [hc] at hf; cases hf
    | some c =>
      rw [hc] at hf
      simp only [Option.map_some, Option.some.injEq] at hf
      have hw := Clr.JSON.read_write s.mem b (le 4 c.value.toNat)
      rw [length_le] at hw
      refine ⟨s.mem.write b (le 4 c.value.toNat), s.back, ?_, fun m2 R hag _ => ?_, fun n hn => ?_⟩
      · refine (Clr.JSON.effect_write s.mem b (le 4 c.value.toNat)).mono fun x hx => ?_
        rw [length_le] at hx
        exact hx
      · refine .enum ?_
        have h1 : m2.read b 4 = le 4 c.value.toNat := (read_agree fun x hx => hag x (.inl hx)).trans hw
        rw [enumAt, h1, unle_le_of_lt (by have := toNat_lt32 c.value; omega), ← hf]
        simp
      · obtain ⟨n, rfl⟩ : ∃ k, n = k + 1 := ⟨n - 1, by omega⟩
        rw [loadObjectH_eq rfl, length_le]
        simp only [loadBodyH, loadEnum, ne_eq, not_true, if_false]
        rw [run_bind hr, hc]
        rfl

/-- Loading an element: its size, if that is saved, and its bytes. -/
theorem elem_round {fn : Functions} {e : Env} {m : Mem} {t : Ty} {a : Nat} (hl : RoundV fn e m t a) {b : Nat} {s : St} {rest : Bytes}
    (hh : Has s ((if valueTypeSize t false == 0 then le 4 (encH fn e m t a).length else []) ++ encH fn e m t a ++ rest))
    (hb : b + t.size ≤ s.mem.next) :
    ∃ m1 bk k ds, Effect s.mem m1 (Span b t.size) ∧
      (∀ m2 R, (∀ x, Span b t.size x ∨ (s.mem.next ≤ x ∧ x < m1.next) → Agree m2 m1 x) →
        (∀ x, s.mem.next ≤ x → x < m1.next → R x) → Back fn e m m2 R none t a b) ∧
      k + (encH fn e m t a).length =
        ((if valueTypeSize t false == 0 then le 4 (encH fn e m t a).length else []) ++ encH fn e m t a).length ∧
      readSize (valueTypeSize t false) s = .ok ds (adv s k) ∧
      ∀ n, sizeOf t + s.data.length + 2 ≤ n →
        loadObjectH fn e n t b ds t.hash.toNat (adv s k) = .ok () (doneB (adv s k) (encH fn e m t a).length m1 bk) := by
  obtain ⟨-, hsz, hl⟩ := hl
  by_cases hv : valueTypeSize t false = 0
  · simp only [hv, beq_self_eq_true, if_true, List.append_assoc] at hh ⊢
    have hr := hh.right
    rw [length_le] at hr
    obtain ⟨m1, bk, h1, h2, h3⟩ := hl (adv s 4) rest b _ hr (.inl rfl) hb
    refine ⟨m1, bk, 4, (encH fn e m t a).length, h1, h2, by simp [length_le], ?_, h3⟩
    rw [readSize, if_pos rfl]
    exact readU32_has hh.left (by have := hr.left.len; omega)
  · have hbq : (valueTypeSize t false == 0) = false := by simpa using hv
    simp only [hbq, Bool.false_eq_true, if_false, List.nil_append] at hh ⊢
    obtain ⟨m1, bk, h1, h2, h3⟩ := hl s rest b (valueTypeSize t false) hh (hsz hv) hb
    refine ⟨m1, bk, 0, valueTypeSize t false, h1, h2, by simp, ?_, ?_⟩
    · simp [readSize, hv, run_pure, adv]
    · simpa [adv] using h3

/-- The elements of a container. -/
theorem cont_round {fn : Functions} {e : Env} {m : Mem} {t : Ty} (h : Header) (hv : h.valueSize = valueTypeSize t false) (b : Nat) :
    ∀ (l : List (Nat × Nat)) (s : St) (rest : Bytes) (old : List (Nat × Nat)), (∀ x ∈ l, RoundV fn e m t x.2) → s.mem.elems b = old →
      Has s (encItems none (encH fn e m t) (valueTypeSize t false == 0) l ++ rest) → b < s.mem.next →
      ∃ m1 bk news, Effect s.mem m1 (fun z => z = b) ∧ m1.elems b = old ++ news ∧ news.length = l.length ∧
        (∀ i, i < l.length → s.mem.next ≤ (news.getD i (0, 0)).2 ∧ (news.getD i (0, 0)).2 + t.size ≤ m1.next) ∧
        (∀ m2 R, (∀ x, s.mem.next ≤ x ∧ x < m1.next → Agree m2 m1 x) → (∀ x, s.mem.next ≤ x → x < m1.next → R x) →
          ∀ i, i < l.length → Back fn e m m2 R none t (l.getD i (0, 0)).2 (news.getD i (0, 0)).2) ∧
        ∀ n, sizeOf t + s.data.length + 2 ≤ n →
          loadItems (loadObjectH fn e n) h l.length ⟨none, t, false, .cont b⟩ s =
            .ok () (doneB s (encItems none (encH fn e m t) (valueTypeSize t false == 0) l).length m1 bk) := by
  intro l
  induction l with
  | nil =>
    intro s rest old _ hold _ _
    refine ⟨s.mem, s.back, [], Effect.refl _ _, by simp [hold], rfl, by simp, by simp, fun n _ => ?_⟩
    simp [loadItems, run_pure, encItems, doneB]
  | cons kv l ih =>
    obtain ⟨ka, v⟩ := kv
    intro s rest old hl hold hhas hb
    rw [encItems, List.nil_append, List.append_assoc] at hhas
    let sm : Mem := (s.mem.alloc t.size).2.setElems b (old ++ [(0, s.mem.next)])
    have hnext : sm.next = s.mem.next + t.size := rfl
    have hbyte : ∀ x, sm.byte x = s.mem.byte x := fun x => rfl
    have helems : ∀ x, x < s.mem.next → x ≠ b → sm.elems x = s.mem.elems x := by
      intro x hx hxb
      show (if x = b then _ else (s.mem.alloc t.size).2.elems x) = _
      rw [if_neg hxb, elems_alloc hx]
    have helemb : sm.elems b = old ++ [(0, s.mem.next)] := by
      show (if b = b then _ else _) = _
      rw [if_pos rfl]
    have hhas' : Has { s with mem := sm } _ := hhas.mem sm
    obtain ⟨m2, bk2, k1, ds, heff, hst, hlen, hsize, hlo⟩ := elem_round (b := s.mem.next) (hl (ka, v) (by simp)) hhas'
      (by show _ ≤ sm.next; omega)
    have heff : Effect sm m2 (Span s.mem.next t.size) := heff
    have hnx := heff.next
    have hns : ∀ x, x < s.mem.next → ¬ Span s.mem.next t.size x := fun x hx hsh => by
      have := hsh.1
      omega
    have hm2b : m2.elems b = old ++ [(0, s.mem.next)] := by rw [heff.elems b (by omega) (hns b hb), helemb]
    have hhas2 : Has (doneB { s with mem := sm } _ m2 bk2) _ := hhas'.doneB m2 bk2
    obtain ⟨m1, bk1, news, e1, n1, len1, in1, g1, l1⟩ := ih _ rest _ (fun x hx => hl x (by simp [hx])) hm2b hhas2
      (by show b < m2.next; omega)
    have e1' : Effect m2 m1 (fun z => z = b) := e1
    have hnx1 : m2.next ≤ m1.next := e1'.next
    have hdn : (doneB { s with mem := sm } ((if (valueTypeSize t false == 0) = true then le 4 (encH fn e m t v).length else []) ++
      encH fn e m t v).length m2 bk2).mem = m2 := rfl
    rw [hdn] at in1 g1
    refine ⟨m1, bk1, (0, s.mem.next) :: news, ⟨by omega, ?_, ?_⟩, by rw [n1]; simp, by simp [len1], ?_, ?_, ?_⟩
    · intro x hx hxb
      rw [e1'.byte x (by omega) hxb, heff.byte x (by omega) (hns x hx), hbyte]
    · intro x hx hxb
      rw [e1'.elems x (by omega) hxb, heff.elems x (by omega) (hns x hx), helems x hx hxb]
    · intro i hi
      cases i with
      | zero => simp only [List.getD_cons_zero]; omega
      | succ i =>
        simp only [List.getD_cons_succ]
        have := in1 i (by simpa using hi)
        omega
    · intro m3 R hag hR i hi
      cases i with
      | zero =>
        simp only [List.getD_cons_zero]
        refine hst m3 R (fun x hx => ?_) (fun x h1 h2 => hR x (by have h1 : sm.next ≤ x := h1; omega) (by omega))
        have hx1 : s.mem.next ≤ x ∧ x < m2.next := by
          rcases hx with hx | hx
          · have := hx.1; have := hx.2; omega
          · have h1 : sm.next ≤ x := hx.1
            have := hx.2; omega
        exact (hag x ⟨hx1.1, by omega⟩).trans (effect_agree e1' hx1.2 (by omega))
      | succ i =>
        simp only [List.getD_cons_succ]
        exact g1 m3 R (fun x hx => hag x ⟨by omega, hx.2⟩) (fun x h1 h2 => hR x (by omega) h2) i (by simpa using hi)
    · intro n hn
      rw [List.length_cons, loadItems, encItems, List.nil_append]
      have hadd : addElem (loadObjectH fn e n) h ⟨none, t, false, .cont b⟩ s =
          .ok (s.mem.next, ⟨none, t, false, .cont b⟩) { s with mem := sm } := by
        simp only [addElem, addEmpty, strideOf, Bool.false_eq_true, if_false, hold]
        rfl
      rw [run_bind hadd, hv, run_bind hsize]
      rw [run_bind (loadValue_eq (hlo n hn)), doneB_adv, hlen]
      rw [l1 n hn, doneB_doneB, ← List.length_append]
      rfl

/-- The elements of a C array. -/
theorem arr_round {fn : Functions} {e : Env} {m : Mem} {t : Ty} (h : Header) (hv : h.valueSize = valueTypeSize t false) (a base n' : Nat)
    (hz : 0 < t.size) (hl : ∀ i, i < n' → RoundV fn e m t (elemAt a i t.size)) :
    ∀ (k i : Nat) (s : St) (rest : Bytes), i + k = n' →
      Has s (encItems none (encH fn e m t) (valueTypeSize t false == 0) (arrItems a t.size i k) ++ rest) →
      base + n' * t.size ≤ s.mem.next →
      ∃ m1 bk, Effect s.mem m1 (fun z => base + i * t.size ≤ z ∧ z < base + n' * t.size) ∧
        (∀ m2 R, (∀ x, (base + i * t.size ≤ x ∧ x < base + n' * t.size) ∨ (s.mem.next ≤ x ∧ x < m1.next) → Agree m2 m1 x) →
          (∀ x, s.mem.next ≤ x → x < m1.next → R x) →
          ∀ j, i ≤ j → j < n' → Back fn e m m2 R none t (elemAt a j t.size) (elemAt base j t.size)) ∧
        ∀ n, sizeOf t + s.data.length + 2 ≤ n →
          loadItems (loadObjectH fn e n) h k ⟨none, t, false, .arr base (n' * t.size) (i * t.size)⟩ s =
            .ok () (doneB s (encItems none (encH fn e m t) (valueTypeSize t false == 0) (arrItems a t.size i k)).length m1 bk) := by
  intro k
  induction k with
  | zero =>
    intro i s rest _ _ _
    refine ⟨s.mem, s.back, Effect.refl _ _, fun m2 R _ _ j h1 h2 => by omega, fun n _ => ?_⟩
    simp [loadItems, run_pure, arrItems, encItems, doneB]
  | succ k ih =>
    intro i s rest hik hhas hb
    have hlist : arrItems a t.size i (k + 1) = (0, elemAt a i t.size) :: arrItems a t.size (i + 1) k := by
      simp [arrItems, List.range'_succ]
    rw [hlist, encItems, List.nil_append, List.append_assoc] at hhas
    have hin := elemAt_next (sz := t.size) (show i < n' by omega)
    have hi1 : (i + 1) * t.size = i * t.size + t.size := Nat.succ_mul i t.size
    obtain ⟨m2, bk2, k1, ds, heff, hst, hlen, hsize, hlo⟩ := elem_round (b := elemAt base i t.size) (hl i (by omega)) hhas
      (by simp only [elemAt]; omega)
    have hnx := heff.next
    have hhas2 := hhas.doneB m2 bk2
    obtain ⟨m1, bk1, e1, g1, l1⟩ := ih (i + 1) _ rest (by omega) hhas2 (by show _ ≤ m2.next; omega)
    have e1' : Effect m2 m1 _ := e1
    have hnx1 : m2.next ≤ m1.next := e1'.next
    refine ⟨m1, bk1, ?_, ?_, ?_⟩
    · refine (heff.trans e1').mono fun z hz => ?_
      simp only [Span, elemAt] at hz
      omega
    · intro m3 R hag hR j h1 h2
      by_cases hj : j = i
      · subst hj
        refine hst m3 R (fun x hx => ?_) (fun x h3 h4 => hR x h3 (by omega))
        simp only [Span, elemAt] at hx
        exact (hag x (by omega)).trans (effect_agree e1' (by omega) (by omega))
      · refine g1 m3 R (fun x hx => ?_) (fun x h3 h4 => hR x ?_ h4) j (by omega) h2
        · have hx' : (base + (i + 1) * t.size ≤ x ∧ x < base + n' * t.size) ∨ (m2.next ≤ x ∧ x < m1.next) := hx
          exact hag x (by omega)
        · have : m2.next ≤ x := h3
          omega
    · intro n hn
      rw [loadItems, hlist, encItems, List.nil_append]
      have hadd : addElem (loadObjectH fn e n) h ⟨none, t, false, .arr base (n' * t.size) (i * t.size)⟩ s =
          .ok (elemAt base i t.size, ⟨none, t, false, .arr base (n' * t.size) ((i + 1) * t.size)⟩) s := by
        simp only [addElem, addEmpty, strideOf, Bool.false_eq_true, if_false]
        rw [if_pos (by omega)]
        simp [elemAt, Nat.succ_mul]
      rw [run_bind hadd, hv, run_bind hsize]
      rw [run_bind (loadValue_eq (hlo n hn)), doneB_adv, hlen]
      rw [l1 n hn, doneB_doneB, ← List.length_append]

/-! ### Dictionaries -/

/-- The types of keys. -/
def KeyTy (k : Ty) : Prop := (∃ h s, k = .prim h s) ∨ (∃ h cs fl, k = .enum h 4 cs fl)

theorem back_moved {fn : Functions} {e : Env} {m mk m1 : Mem} {R R1 : Nat → Prop} {k : Ty} {ko kd kn : Nat} (hp : KeyTy k)
    (hg : Back fn e m mk R none k ko kd) (hr : m1.read kn k.size = mk.read kd k.size) : Back fn e m m1 R1 none k ko kn := by
  rcases hp with ⟨h, s, rfl⟩ | ⟨h, cs, fl, rfl⟩
  · cases hg with
    | prim hv => exact .prim (hr.trans hv)
  · cases hg with
    | enum hv =>
      refine .enum ?_
      have hr' : m1.read kn 4 = mk.read kd 4 := hr
      rw [enumAt, hr']
      exact hv

theorem sizeOk_keyH {fn : Functions} {e : Env} {m : Mem} {k : Ty} (hp : KeyTy k) (a : Nat) :
    SizeOk k (encH fn e m k a).length k.size := by
  rcases hp with ⟨h, s, rfl⟩ | ⟨h, cs, fl, rfl⟩
  · left; simp [Ty.size, encH, saveObjectH, Clr.JSON.read_length]
  · left; simp [Ty.size, encH, saveObjectH, length_le]

theorem saveItems_keys {key value : Save} {keyE valueE : Nat → Bytes} (sized : Bool) (l : List (Nat × Nat))
    (hk : ∀ x ∈ l, ∀ out, key x.1 out = .ok (out ++ keyE x.1)) (hv : ∀ x ∈ l, ∀ out, value x.2 out = .ok (out ++ valueE x.2))
    (out : Bytes) : saveItems (some key) value sized false l out = .ok (out ++ encItems (some keyE) valueE sized l) := by
  induction l generalizing out with
  | nil => simp [saveItems, encItems]
  | cons x l ih =>
    obtain ⟨k, v⟩ := x
    simp only [saveItems, encItems, Bool.false_eq_true, if_false, hk (k, v) (by simp), Res.bind_ok]
    rw [withSize_ok' sized (fun out => hv (k, v) (by simp) out)]
    simp [ih (fun x hx => hk x (by simp [hx])) (fun x hx => hv x (by simp [hx]))]

/-- The keys and elements of a dictionary. -/
theorem dict_round {fn : Functions} {e : Env} {m : Mem} {k t : Ty} (hp : KeyTy k) (hk128 : k.size < 128) (h : Header)
    (hv : h.valueSize = valueTypeSize t false) (hks : h.keySize = k.size) (hkh : h.keyHash = k.hash.toNat) (b : Nat) :
    ∀ (l : List (Nat × Nat)) (s : St) (rest : Bytes) (old : List (Nat × Nat)), (∀ x ∈ l, RoundV fn e m k x.1) →
      (∀ x ∈ l, RoundV fn e m t x.2) → s.mem.elems b = old →
      Has s (encItems (some (encH fn e m k)) (encH fn e m t) (valueTypeSize t false == 0) l ++ rest) → b < s.mem.next →
      ∃ m1 bk news, Effect s.mem m1 (fun z => z = b) ∧ m1.elems b = old ++ news ∧ news.length = l.length ∧
        (∀ i, i < l.length → s.mem.next ≤ (news.getD i (0, 0)).1 ∧ (news.getD i (0, 0)).1 + k.size ≤ m1.next ∧
          s.mem.next ≤ (news.getD i (0, 0)).2 ∧ (news.getD i (0, 0)).2 + t.size ≤ m1.next) ∧
        (∀ m2 R, (∀ x, s.mem.next ≤ x ∧ x < m1.next → Agree m2 m1 x) → (∀ x, s.mem.next ≤ x → x < m1.next → R x) →
          ∀ i, i < l.length → Back fn e m m2 R none k (l.getD i (0, 0)).1 (news.getD i (0, 0)).1 ∧
            Back fn e m m2 R none t (l.getD i (0, 0)).2 (news.getD i (0, 0)).2) ∧
        ∀ n, sizeOf k + sizeOf t + s.data.length + 2 ≤ n →
          loadItems (loadObjectH fn e n) h l.length ⟨some k, t, false, .cont b⟩ s =
            .ok () (doneB s (encItems (some (encH fn e m k)) (encH fn e m t) (valueTypeSize t false == 0) l).length m1 bk) := by
  intro l
  induction l with
  | nil =>
    intro s rest old _ _ hold _ _
    refine ⟨s.mem, s.back, [], Effect.refl _ _, by simp [hold], rfl, by simp, by simp, fun n _ => ?_⟩
    simp [loadItems, run_pure, encItems, doneB]
  | cons kv l ih =>
    obtain ⟨ko, v⟩ := kv
    intro s rest old hlk hl hold hhas hb
    rw [encItems, List.append_assoc, List.append_assoc] at hhas
    -- the key
    let kdm : Mem := (s.mem.alloc 128).2
    have hkdn : kdm.next = s.mem.next + 128 := rfl
    have hhas0 : Has { s with mem := kdm } _ := hhas.mem kdm
    obtain ⟨mk, bkk, heffk, hstk, hlk2⟩ := (hlk (ko, v) (by simp)).2.2 { s with mem := kdm } _ s.mem.next h.keySize hhas0
      (by rw [hks]; exact sizeOk_keyH hp ko) (by show _ ≤ kdm.next; omega)
    have heffk : Effect kdm mk (Span s.mem.next k.size) := heffk
    have hnk := heffk.next
    have hnsk : ∀ x, x < s.mem.next → ¬ Span s.mem.next k.size x := fun x hx hsh => by
      have := hsh.1
      omega
    have hmkb : mk.elems b = old := by
      rw [heffk.elems b (by omega) (hnsk b hb), ← hold]; exact elems_alloc hb
    have hkeyback : Back fn e m mk (fun _ => True) none k ko s.mem.next :=
      hstk mk _ (fun x _ => ⟨rfl, rfl⟩) (fun _ _ _ => trivial)
    -- the new element
    obtain ⟨sm, hsm, hsmn, hsmb, hsme, hsmeb, hsmk⟩ := addKey_facts (mk := mk) (b := b) (kd := s.mem.next) (k' := k) (t' := t)
      (by omega) (by omega)
    have hhas1 : Has (doneB s (encH fn e m k ko).length sm bkk)
        (((if valueTypeSize t false == 0 then le 4 (encH fn e m t v).length else []) ++ encH fn e m t v) ++
          (encItems (some (encH fn e m k)) (encH fn e m t) (valueTypeSize t false == 0) l ++ rest)) := hhas.doneB sm bkk
    -- its value
    obtain ⟨m2, bk2, k1, ds, heff, hst, hlen, hsize, hlo⟩ := elem_round (b := mk.next + k.size)
      (s := doneB s (encH fn e m k ko).length sm bkk) (hl (ko, v) (by simp)) hhas1 (by show _ ≤ sm.next; omega)
    have heff : Effect sm m2 (Span (mk.next + k.size) t.size) := heff
    have hnx := heff.next
    have hns : ∀ x, x < mk.next + k.size → ¬ Span (mk.next + k.size) t.size x := fun x hx hsh => by
      have := hsh.1
      omega
    have hm2b : m2.elems b = old ++ [(mk.next, mk.next + k.size)] := by
      rw [heff.elems b (by omega) (hns b (by omega)), hsmeb, hmkb]
    have hhas2 : Has (doneB (doneB s (encH fn e m k ko).length sm bkk) _ m2 bk2) _ := hhas1.doneB m2 bk2
    obtain ⟨m1, bk1, news, e1, n1, len1, in1, g1, l1⟩ := ih _ rest _ (fun x hx => hlk x (by simp [hx])) (fun x hx => hl x (by simp [hx]))
      hm2b hhas2 (by show b < m2.next; omega)
    have e1' : Effect m2 m1 (fun z => z = b) := e1
    have in1' : ∀ i, i < l.length → m2.next ≤ (news.getD i (0, 0)).1 ∧ (news.getD i (0, 0)).1 + k.size ≤ m1.next ∧
          m2.next ≤ (news.getD i (0, 0)).2 ∧ (news.getD i (0, 0)).2 + t.size ≤ m1.next := in1
    have hnx1 : m2.next ≤ m1.next := e1'.next
    refine ⟨m1, bk1, (mk.next, mk.next + k.size) :: news, ⟨by omega, ?_, ?_⟩, by rw [n1]; simp, by simp [len1], ?_, ?_, ?_⟩
    · intro x hx hxb
      rw [e1'.byte x (by omega) hxb, heff.byte x (by omega) (hns x (by omega)), hsmb x (by omega), heffk.byte x (by omega) (hnsk x hx)]
      rfl
    · intro x hx hxb
      rw [e1'.elems x (by omega) hxb, heff.elems x (by omega) (hns x (by omega)), hsme x (by omega) hxb,
        heffk.elems x (by omega) (hnsk x hx)]
      exact elems_alloc hx
    · intro i hi
      cases i with
      | zero => simp only [List.getD_cons_zero]; omega
      | succ i =>
        simp only [List.getD_cons_succ]
        have := in1' i (by simpa using hi)
        omega
    · intro m3 R hag hR i hi
      cases i with
      | zero =>
        simp only [List.getD_cons_zero]
        refine ⟨back_moved hp hkeyback ?_, hst m3 R (fun x hx => ?_) (fun x h1 h2 => hR x (by have h1 : sm.next ≤ x := h1; omega) (by omega))⟩
        · rw [← hsmk]
          refine read_agree fun x hx => (hag x ?_).trans ((effect_agree e1' ?_ ?_).trans (effect_agree heff ?_ (hns x ?_)))
          all_goals have := hx.1; have := hx.2; omega
        · have hx1 : s.mem.next ≤ x ∧ x < m2.next := by
            rcases hx with hx | hx
            · have := hx.1; have := hx.2; omega
            · have h1 : sm.next ≤ x := hx.1
              have := hx.2; omega
          exact (hag x ⟨hx1.1, by omega⟩).trans (effect_agree e1' hx1.2 (by omega))
      | succ i =>
        simp only [List.getD_cons_succ]
        refine g1 m3 R (fun x hx => hag x ⟨?_, hx.2⟩) (fun x h1 h2 => hR x ?_ h2) i (by simpa using hi)
        · have : m2.next ≤ x := hx.1
          omega
        · have : m2.next ≤ x := h1
          omega
    · intro n hn
      rw [List.length_cons, loadItems, encItems]
      have hkld := hlk2 n (by show _ + s.data.length + 2 ≤ n; omega)
      rw [← hkh] at hkld
      have hadd : addElem (loadObjectH fn e n) h ⟨some k, t, false, .cont b⟩ s =
          .ok (mk.next + k.size, ⟨some k, t, false, .cont b⟩) (doneB s (encH fn e m k ko).length sm bkk) := by
        rw [addKeyed_eq hk128 hkld]
        have hsm' : Clr.JSON.addKey (doneB { s with mem := kdm } (encH fn e m k ko).length mk bkk).mem b s.mem.next k t false =
          (mk.next + k.size, sm) := hsm
        rw [hsm']
        rfl
      rw [run_bind hadd, hv, run_bind hsize]
      have := hlo n (by show _ + s.data.length + 2 ≤ n; omega)
      rw [run_bind (loadValue_eq this), doneB_adv, hlen]
      have hl1 := l1 n hn
      rw [hl1, doneB_doneB, doneB_doneB]
      congr 2
      simp only [List.length_append]
      omega

theorem valueTypeSize_le {t : Ty} (h : t.size < 2 ^ 32) : valueTypeSize t false < 2 ^ 32 := by
  simp only [valueTypeSize, Bool.false_eq_true, if_false]
  split <;> omega

/-- A container as a whole, of any kind. -/
theorem loadContainer_items {lo : LoadObj} {key : Option Ty} {t : Ty} {pl : Place} {ds count : Nat} {s : St} {m1 : Mem} {bk : Bool}
    {items rest : Bytes} (hk : ∀ k, key = some k → k.size < 2 ^ 32) (hsz : t.size < 2 ^ 32) (hc : count < 2 ^ 32)
    (hhas : Has s (containerHeader count key t false ++ (items ++ rest)))
    (hl : loadItems lo ⟨count, (keyInfo key).1, (keyInfo key).2, t.hash.toNat, valueTypeSize t false⟩ count
      ⟨key, t, false, pl⟩ (adv s 20) = .ok () (doneB (adv s 20) items.length m1 bk)) :
    loadContainer lo ⟨key, t, false, pl⟩ ds count s =
      .ok () (doneB s (containerHeader count key t false ++ items).length m1 bk) := by
  obtain ⟨hrd, hA1⟩ := readHeader_has hc hk (valueTypeSize_le hsz) hhas
  have hfin : Has (doneB (adv s 20) items.length m1 bk) _ := hA1.doneB m1 bk
  rw [loadContainer, run_bind (bytesRead_has hhas), run_bind hrd]
  simp only [Nat.lt_irrefl, if_false]
  rw [if_neg (by simp), run_bind hl, run_bind (bytesRead_has hfin), if_neg (by simp), run_pure, doneB_adv]
  congr 2
  simp [containerHeader, length_le]
  omega

theorem round_list {fn : Functions} {e : Env} {m : Mem} {h : BitVec 32} {z : Nat} {t : Ty} {a : Nat} (hz : 0 < z) (hsz : t.size < 2 ^ 32)
    (hc : (m.elems a).length < 2 ^ 32) (hf : ∀ x ∈ m.elems a, RoundV fn e m t x.2) : RoundV fn e m (.vec h z t false) a := by
  have hsv : ∀ out, saveObjectH fn e m (.vec h z t false) a out = .ok (out ++ (containerHeader (m.elems a).length none t false ++
      encItems none (encH fn e m t) (valueTypeSize t false == 0) (m.elems a))) := fun out => by
    rw [saveObjectH, saveItems_mem (valueE := encH fn e m t) _ _ (fun x hx => (hf x hx).1), List.append_assoc]
  have henc := encH_of hsv
  rw [RoundV, SavesH, henc]
  refine ⟨hsv, fun _ => .inr (.inl ⟨_, _, _, _, rfl⟩), fun s rest b ds hhas _ hb => ?_⟩
  simp only [Ty.size] at hb
  rw [List.append_assoc] at hhas
  let s0 : St := { s with mem := s.mem.setElems b [] }
  have hhas0 : Has s0 _ := hhas.mem (s.mem.setElems b [])
  obtain ⟨hrd, hA1⟩ := readHeader_has (key := none) hc (by simp) (valueTypeSize_le hsz) hhas0
  have hb0 : (adv s0 20).mem.elems b = [] := by
    show (if b = b then _ else _) = _
    rw [if_pos rfl]
  obtain ⟨m1, bk, news, he, hne, hlen, hin, hst, hld⟩ := cont_round
    ⟨(m.elems a).length, (keyInfo none).1, (keyInfo none).2, t.hash.toNat, valueTypeSize t false⟩ rfl b (m.elems a) (adv s0 20) rest
    [] hf hb0 hA1 (by show b < s.mem.next; omega)
  rw [List.nil_append] at hne
  have he' : Effect s0.mem m1 (fun z => z = b) := he
  have hs0 : (adv s0 20).mem.next = s.mem.next := rfl
  rw [hs0] at hin hst
  refine ⟨m1, bk, ?_, fun m2 R hag hR => ?_, fun n hn => ?_⟩
  · refine ((effect_setElems s.mem b []).trans he').mono fun x hx => ?_
    have hx : x = b := hx.elim id id
    subst hx
    exact ⟨Nat.le_refl _, by simp only [Ty.size]; omega⟩
  · have heb : m2.elems b = news := by
      rw [(hag b (.inl ⟨Nat.le_refl _, by simp only [Ty.size]; omega⟩)).2, hne]
    refine .list (by rw [heb, hlen]) (fun i hi x h3 h4 => ?_) (fun i hi => ?_)
    · rw [heb] at h3 h4
      have := hin i hi
      exact hR x (by omega) (by omega)
    · rw [heb]
      exact hst m2 R (fun x hx => hag x (.inr hx)) hR i hi
  · obtain ⟨n, rfl⟩ : ∃ k, n = k + 1 := ⟨n - 1, by omega⟩
    rw [loadObjectH_eq rfl]
    simp only [loadBodyH]
    rw [run_bind (peekCount_has hc hhas), run_bind (show store (fun m => m.setElems b []) s = .ok () s0 from rfl)]
    rw [loadContainer_items (by simp) hsz hc hhas0 (hld n (by simp at hn ⊢; show _ + s.data.length + 2 ≤ n; omega))]
    rfl

theorem round_dict {fn : Functions} {e : Env} {m : Mem} {h : BitVec 32} {z : Nat} {k t : Ty} {a : Nat} (hz : 0 < z) (hk : k.size < 128)
    (hp : KeyTy k) (hsz : t.size < 2 ^ 32) (hc : (m.elems a).length < 2 ^ 32) (hi : ∀ x ∈ m.elems a, RoundV fn e m k x.1)
    (hf : ∀ x ∈ m.elems a, RoundV fn e m t x.2) : RoundV fn e m (.dict h z k t false) a := by
  have hk' : ∀ k', some k = some k' → k'.size < 2 ^ 32 := fun k' hk' => by cases hk'; omega
  have hsv : ∀ out, saveObjectH fn e m (.dict h z k t false) a out = .ok (out ++ (containerHeader (m.elems a).length (some k) t false ++
      encItems (some (encH fn e m k)) (encH fn e m t) (valueTypeSize t false == 0) (m.elems a))) := fun out => by
    rw [saveObjectH, saveItems_keys (keyE := encH fn e m k) (valueE := encH fn e m t) _ _ (fun x hx => (hi x hx).1) (fun x hx => (hf x hx).1),
      List.append_assoc]
  have henc := encH_of hsv
  rw [RoundV, SavesH, henc]
  refine ⟨hsv, fun _ => .inr (.inr ⟨_, _, _, _, _, rfl⟩), fun s rest b ds hhas _ hb => ?_⟩
  simp only [Ty.size] at hb
  rw [List.append_assoc] at hhas
  let s0 : St := { s with mem := s.mem.setElems b [] }
  have hhas0 : Has s0 _ := hhas.mem (s.mem.setElems b [])
  obtain ⟨hrd, hA1⟩ := readHeader_has (key := some k) hc hk' (valueTypeSize_le hsz) hhas0
  have hb0 : (adv s0 20).mem.elems b = [] := by
    show (if b = b then _ else _) = _
    rw [if_pos rfl]
  obtain ⟨m1, bk, news, he, hne, hlen, hin, hst, hld⟩ := dict_round hp hk
    ⟨(m.elems a).length, (keyInfo (some k)).1, (keyInfo (some k)).2, t.hash.toNat, valueTypeSize t false⟩ rfl rfl rfl b (m.elems a)
    (adv s0 20) rest [] hi hf hb0 hA1 (by show b < s.mem.next; omega)
  rw [List.nil_append] at hne
  have he' : Effect s0.mem m1 (fun z => z = b) := he
  have hs0 : (adv s0 20).mem.next = s.mem.next := rfl
  rw [hs0] at hin hst
  refine ⟨m1, bk, ?_, fun m2 R hag hR => ?_, fun n hn => ?_⟩
  · refine ((effect_setElems s.mem b []).trans he').mono fun x hx => ?_
    have hx : x = b := hx.elim id id
    subst hx
    exact ⟨Nat.le_refl _, by simp only [Ty.size]; omega⟩
  · have heb : m2.elems b = news := by
      rw [(hag b (.inl ⟨Nat.le_refl _, by simp only [Ty.size]; omega⟩)).2, hne]
    have hst' := hst m2 R (fun x hx => hag x (.inr hx)) hR
    refine .dict (by rw [heb, hlen]) (fun i hi x h3 h4 => ?_) (fun i hi x h3 h4 => ?_) (fun i hi => ?_) (fun i hi => ?_)
    · rw [heb] at h3 h4
      have := hin i hi
      exact hR x (by omega) (by omega)
    · rw [heb] at h3 h4
      have := hin i hi
      exact hR x (by omega) (by omega)
    · rw [heb]
      exact (hst' i hi).1
    · rw [heb]
      exact (hst' i hi).2
  · obtain ⟨n, rfl⟩ : ∃ k, n = k + 1 := ⟨n - 1, by omega⟩
    rw [loadObjectH_eq rfl]
    simp only [loadBodyH]
    rw [run_bind (peekCount_has hc hhas), run_bind (show store (fun m => m.setElems b []) s = .ok () s0 from rfl)]
    rw [loadContainer_items hk' hsz hc hhas0 (hld n (by simp at hn ⊢; show _ + s.data.length + 2 ≤ n; omega))]
    rfl

/-! ### Fields -/

/-- A field has come back. -/
def BackF (fn : Functions) (e : Env) (m m2 : Mem) (R : Nat → Prop) (a b : Nat) (x : Owned) : Prop :=
  (fn.saves x ≠ none → m2.read (b + x.2.1.offset) (x.2.1.extent x.2.2) = m.read (a + x.2.1.offset) (x.2.1.extent x.2.2)) ∧
  (fn.saves x = none → Back fn e m m2 R x.2.1.count x.2.2 (a + x.2.1.offset) (b + x.2.1.offset))

/-- Loading the chunk of a field brings it back. -/
def RoundF (fn : Functions) (e : Env) (m : Mem) (a : Nat) (x : Owned) : Prop :=
  SavesF fn e m a x ∧
  ∀ (s : St) (rest : Bytes) (b : Nat), Has s (dataH fn e m a x ++ rest) →
    b + x.2.1.offset + x.2.1.extent x.2.2 ≤ s.mem.next →
    ∃ m1 bk, Effect s.mem m1 (InField b x.2) ∧
      (∀ m2 R, (∀ z, InField b x.2 z ∨ (s.mem.next ≤ z ∧ z < m1.next) → Agree m2 m1 z) →
        (∀ z, s.mem.next ≤ z → z < m1.next → R z) → BackF fn e m m2 R a b x) ∧
      ∀ n, sizeOf x.2.2 + s.data.length + 2 ≤ n →
        loadDataH fn (loadObjectH fn e n) x b (dataH fn e m a x).length x.2.2.hash.toNat s =
          .ok () (doneB s (dataH fn e m a x).length m1 bk)

theorem roundF_custom {fn : Functions} {e : Env} {m : Mem} {a : Nat} {x : Owned} {g : Mem → Nat → Nat → Bytes} {l : Nat → Nat → Load Unit}
    (hg : fn.saves x = some g) (hl : fn.loads x = some l) (hi : InverseOn x.2 g l) : RoundF fn e m a x := by
  have hsv : ∀ out, saveDataH fn e m x a out = .ok (out ++ g m a (a + x.2.1.offset)) := fun out => by
    have : fn.save x.1 x.2.1 = some g := hg
    simp only [saveDataH, this]
  have hd := dataH_of hsv
  rw [RoundF, SavesF, hd]
  refine ⟨hsv, fun s rest b hhas hb => ?_⟩
  obtain ⟨s', h1, h2, h3, h4, h5, h6⟩ := hi m a s b hhas.2.1 (before_has hhas) hb
  obtain ⟨bk, hbk⟩ := loadCustom_ok hhas h1 h2 h3 h4
  refine ⟨s'.mem, bk, h5, fun m2 R hag _ => ⟨fun _ => ?_, fun hn => by rw [hg] at hn; cases hn⟩, fun n _ => ?_⟩
  · rw [← h6]
    exact read_agree fun z hz => hag z (.inl hz)
  · have hl' : fn.load x.1 x.2.1 = some l := hl
    simp only [loadDataH, hl']
    exact hbk

theorem roundF_value {fn : Functions} {e : Env} {m : Mem} {a : Nat} {x : Owned} (hg : fn.saves x = none) (hl : fn.loads x = none)
    (hp : x.2.1.isPtr = false) (hc : x.2.1.count = none) (hv : RoundV fn e m x.2.2 (a + x.2.1.offset)) : RoundF fn e m a x := by
  have hg' : fn.save x.1 x.2.1 = none := hg
  have hl' : fn.load x.1 x.2.1 = none := hl
  obtain ⟨hs, -, hv⟩ := hv
  have hsv : ∀ out, saveDataH fn e m x a out = .ok (out ++ encH fn e m x.2.2 (a + x.2.1.offset)) := fun out => by
    simp only [saveDataH, hg', hc]
    exact hs out
  have hd := dataH_of hsv
  have hext : x.2.1.extent x.2.2 = x.2.2.size := extent_none hp hc
  rw [RoundF, SavesF, hd]
  refine ⟨hsv, fun s rest b hhas hb => ?_⟩
  obtain ⟨m1, bk, h1, h2, h3⟩ := hv s rest (b + x.2.1.offset) _ hhas (.inl rfl) (by omega)
  refine ⟨m1, bk, h1.mono fun z hz => ?_, fun m2 R hag hR => ⟨fun hn => absurd hg hn, fun _ => ?_⟩, fun n hn => ?_⟩
  · unfold InField; rw [hext]; exact hz
  · rw [hc]
    refine h2 m2 R (fun z hz => hag z ?_) hR
    unfold InField
    rw [hext]
    exact hz
  · simp only [loadDataH, hl', hc]
    exact h3 n hn

theorem roundF_array {fn : Functions} {e : Env} {m : Mem} {a k : Nat} {x : Owned} (hg : fn.saves x = none) (hl : fn.loads x = none)
    (hp : x.2.1.isPtr = false) (hc : x.2.1.count = some k) (hz : 0 < x.2.2.size) (hsz : x.2.2.size < 2 ^ 32) (hk : k < 2 ^ 32)
    (hv : ∀ i, i < k → RoundV fn e m x.2.2 (elemAt (a + x.2.1.offset) i x.2.2.size)) : RoundF fn e m a x := by
  have hg' : fn.save x.1 x.2.1 = none := hg
  have hl' : fn.load x.1 x.2.1 = none := hl
  have hst : strideOf x.2.2 false = x.2.2.size := by simp [strideOf]
  have hsv : ∀ out, saveDataH fn e m x a out = .ok (out ++ (containerHeader k none x.2.2 false ++
      encItems none (encH fn e m x.2.2) (valueTypeSize x.2.2 false == 0) (arrItems (a + x.2.1.offset) x.2.2.size 0 k))) := fun out => by
    simp only [saveDataH, hg', hc, hp, hst]
    rw [if_neg (by omega), arrayItems_eq, saveItems_mem (valueE := encH fn e m x.2.2) _ _ ?_, List.append_assoc]
    intro y hy
    simp only [arrItems, List.mem_map, List.mem_range'_1] at hy
    obtain ⟨j, hj, rfl⟩ := hy
    exact (hv j (by omega)).1
  have hd := dataH_of hsv
  have hext : x.2.1.extent x.2.2 = k * x.2.2.size := extent_some hp hc
  rw [RoundF, SavesF, hd]
  refine ⟨hsv, fun s rest b hhas hb => ?_⟩
  rw [List.append_assoc] at hhas
  obtain ⟨hrd, hA1⟩ := readHeader_has (key := none) hk (by simp) (valueTypeSize_le hsz) hhas
  obtain ⟨m1, bk, he, hst', hld⟩ := arr_round
    ⟨k, (keyInfo none).1, (keyInfo none).2, x.2.2.hash.toNat, valueTypeSize x.2.2 false⟩ rfl (a + x.2.1.offset) (b + x.2.1.offset) k
    hz hv k 0 (adv s 20) rest (by omega) hA1 (by show _ ≤ s.mem.next; omega)
  have hs0 : (adv s 20).mem.next = s.mem.next := rfl
  rw [hs0] at hst'
  refine ⟨m1, bk, (show Effect s.mem m1 _ from he).mono fun z hz => ?_, fun m2 R hag hR => ⟨fun hn => absurd hg hn, fun _ => ?_⟩, fun n hn => ?_⟩
  · unfold InField; rw [hext]; omega
  · rw [hc]
    refine .array fun i hi => hst' m2 R (fun z hz => hag z ?_) hR i (by omega) hi
    unfold InField
    rw [hext]
    omega
  · simp only [loadDataH, hl', hc, arrWriter, hp, hst]
    have := hld n hn
    rw [Nat.zero_mul] at this
    exact loadContainer_items (by simp) hsz hk hhas this

/-! ### Classes -/

theorem length_encFieldH (fn : Functions) (e : Env) (m : Mem) (a : Nat) (x : Owned) :
    (encFieldH fn e m a x).length = 12 + (dataH fn e m a x).length := by
  simp [encFieldH, encChunk, length_le]
  omega

theorem class_round {fn : Functions} {e : Env} {m : Mem} {t : Ty} (hb : ClassBases t)
    (hn : (ownedFields t).Pairwise fun x y => nameHash x.2 ≠ nameHash y.2)
    (hi : ∀ x ∈ keptOwned e t, x.2.1.offset + x.2.1.extent x.2.2 ≤ t.size) (a b : Nat) :
    ∀ (l : List Owned) (s : St) (rest : Bytes), (∀ x ∈ l, x ∈ keptOwned e t) → (∀ x ∈ l, RoundF fn e m a x) →
      l.Pairwise (fun x y => Apart x.2 y.2) → Has s (l.flatMap (encFieldH fn e m a) ++ rest) → b + t.size ≤ s.mem.next →
      ∃ m1 bk, Effect s.mem m1 (fun z => ∃ x ∈ l, InField b x.2 z) ∧
        (∀ m2 R, (∀ z, (∃ x ∈ l, InField b x.2 z) ∨ (s.mem.next ≤ z ∧ z < m1.next) → Agree m2 m1 z) →
          (∀ z, s.mem.next ≤ z → z < m1.next → R z) → ∀ x ∈ l, BackF fn e m m2 R a b x) ∧
        ∀ n k, sizeOf t + s.data.length + 1 ≤ n → l.length + 1 ≤ k →
          classLoop (loadFieldH fn e (loadObjectH fn e n) t b) (s.pos.toNat + (l.flatMap (encFieldH fn e m a)).length) k s =
            .ok () (doneB s (l.flatMap (encFieldH fn e m a)).length m1 bk) := by
  intro l
  induction l with
  | nil =>
    intro s rest _ _ _ hhas _
    refine ⟨s.mem, s.back, Effect.refl _ _, by simp, fun n k _ hk => ?_⟩
    obtain ⟨k, rfl⟩ : ∃ j, k = j + 1 := ⟨k - 1, by omega⟩
    rw [classLoop, run_bind (bytesRead_has hhas), if_neg (by simp), run_pure]
    simp [doneB]
  | cons x l ih =>
    intro s rest hl hr hpw hhas hbn
    rw [List.pairwise_cons] at hpw
    rw [List.flatMap_cons, List.append_assoc] at hhas
    have hx := hl x (by simp)
    have hxi := hi x hx
    have hhas0 := hhas
    rw [encFieldH] at hhas0
    have hck : Has s (encChunk x.2.2.hash (nameHash x.2) (dataH fn e m a x)) := hhas0.left
    obtain ⟨hrc, -⟩ := readChunk_has hck
    have hd : Has (adv s 12) (dataH fn e m a x ++ (l.flatMap (encFieldH fn e m a) ++ rest)) := by
      have h1 : Has s ((le 4 x.2.2.hash.toNat ++ le 4 (nameHash x.2).toNat ++ le 4 (dataH fn e m a x).length) ++
        (dataH fn e m a x ++ (l.flatMap (encFieldH fn e m a) ++ rest))) := by
        simpa [encChunk, List.append_assoc] using hhas0
      have h2 := h1.right
      simpa [length_le] using h2
    obtain ⟨m2, bk2, he2, hst2, hld2⟩ := (hr x (by simp)).2 (adv s 12) _ b hd (by show _ ≤ s.mem.next; omega)
    have he2 : Effect s.mem m2 (InField b x.2) := he2
    have hst2 : ∀ m3 R, (∀ z, InField b x.2 z ∨ (s.mem.next ≤ z ∧ z < m2.next) → Agree m3 m2 z) →
        (∀ z, s.mem.next ≤ z → z < m2.next → R z) → BackF fn e m m3 R a b x := hst2
    have hn2 := he2.next
    have hhas2 : Has (doneB s (encFieldH fn e m a x).length m2 bk2) _ := hhas.doneB m2 bk2
    obtain ⟨m1, bk1, he1, hst1, hld1⟩ := ih _ rest (fun y hy => hl y (by simp [hy])) (fun y hy => hr y (by simp [hy])) hpw.2 hhas2
      (by show _ ≤ m2.next; omega)
    have he1' : Effect m2 m1 (fun z => ∃ x ∈ l, InField b x.2 z) := he1
    have hst1' : ∀ m3 R, (∀ z, (∃ x ∈ l, InField b x.2 z) ∨ (m2.next ≤ z ∧ z < m1.next) → Agree m3 m1 z) →
        (∀ z, m2.next ≤ z → z < m1.next → R z) → ∀ x ∈ l, BackF fn e m m3 R a b x := hst1
    have hn1 := he1'.next
    have hwithin : ∀ y ∈ l, ∀ z, InField b y.2 z → z < s.mem.next := by
      intro y hy z hz
      have := hi y (hl y (by simp [hy]))
      unfold InField at hz
      omega
    refine ⟨m1, bk1, (he2.trans he1').mono fun z hz => ?_, fun m3 R hag hR w hw => ?_, fun n k hfu hk => ?_⟩
    · rcases hz with hz | ⟨w, hw, hz⟩
      · exact ⟨x, by simp, hz⟩
      · exact ⟨w, by simp [hw], hz⟩
    · rcases List.mem_cons.1 hw with rfl | hw'
      · refine hst2 m3 R (fun z hz => ?_) (fun z h1 h2 => hR z h1 (by omega))
        have hz1 : z < m2.next := by
          rcases hz with hz | hz
          · unfold InField at hz; omega
          · exact hz.2
        refine (hag z ?_).trans (effect_agree he1' hz1 ?_)
        · rcases hz with hz | hz
          · exact .inl ⟨w, by simp, hz⟩
          · exact .inr ⟨hz.1, by omega⟩
        · rintro ⟨y, hy, hzy⟩
          have hap := hpw.1 y hy
          unfold Apart at hap
          rcases hz with hz | hz
          · unfold InField at hz hzy; omega
          · have := hwithin y hy z hzy; omega
      · refine hst1' m3 R (fun z hz => ?_) (fun z h1 h2 => hR z (by omega) h2) w hw'
        rcases hz with ⟨y, hy, hzy⟩ | hz
        · exact hag z (.inl ⟨y, by simp [hy], hzy⟩)
        · exact hag z (.inr ⟨by omega, hz.2⟩)
    · obtain ⟨k, rfl⟩ : ∃ j, k = j + 1 := ⟨k - 1, by simp at hk; omega⟩
      have hlen := length_encFieldH fn e m a x
      have hpos := hhas.1
      have hsize := keptOwned_sizeOf e t x hx
      have hfld : loadFieldH fn e (loadObjectH fn e n) t b s = .ok () (doneB s (encFieldH fn e m a x).length m2 bk2) := by
        rw [loadFieldH, run_bind hrc]
        simp only [findOwner_mem hb hn ((keptOwned_sublist e t).subset hx), keptOwned_skips e t x hx, Bool.false_eq_true, if_false]
        rw [hld2 n (by show _ + s.data.length + 2 ≤ n; omega), doneB_adv, hlen]
      rw [List.flatMap_cons, List.length_append, classLoop, run_bind (bytesRead_has hhas), if_pos (by omega), run_bind hfld]
      have h3 := hld1 n k hfu (by simpa using hk)
      have h4 : (doneB s (encFieldH fn e m a x).length m2 bk2).pos.toNat = s.pos.toNat + (encFieldH fn e m a x).length := by
        simp only [doneB]; omega
      rw [h4, Nat.add_assoc] at h3
      rw [h3, doneB_doneB]

theorem flatMapH_count (fn : Functions) (e : Env) (m : Mem) (a : Nat) (l : List Owned) :
    l.length ≤ (l.flatMap (encFieldH fn e m a)).length := by
  induction l with
  | nil => simp
  | cons x l ih =>
    rw [List.flatMap_cons, List.length_append, length_encFieldH, List.length_cons]
    omega

theorem round_object {fn : Functions} {e : Env} {m : Mem} {h : BitVec 32} {z : Nat} {fl : BitVec 32} {fs : Flds} {bs : Tys} {a : Nat}
    (hb : ClassBases (.cls h z fl fs bs))
    (hn : (ownedFields (.cls h z fl fs bs)).Pairwise fun x y => nameHash x.2 ≠ nameHash y.2)
    (hi : ∀ x ∈ keptOwned e (.cls h z fl fs bs), x.2.1.offset + x.2.1.extent x.2.2 ≤ z)
    (hap : (keptOwned e (.cls h z fl fs bs)).Pairwise fun x y => Apart x.2 y.2)
    (hf : ∀ x ∈ keptOwned e (.cls h z fl fs bs), RoundF fn e m a x) : RoundV fn e m (.cls h z fl fs bs) a := by
  have hsv : ∀ out, saveObjectH fn e m (.cls h z fl fs bs) a out = _ := fun out =>
    (saveClassH_ok _ hb a (fun x hx => (hf x hx).1) out).2
  have henc := encH_of hsv
  rw [RoundV, SavesH, henc]
  refine ⟨hsv, fun hv => absurd (by simp [valueTypeSize, isClass]) hv, fun s rest b ds hhas hsz hbn => ?_⟩
  have hds : ds = ((keptOwned e (.cls h z fl fs bs)).flatMap (encFieldH fn e m a)).length := by
    rcases hsz with h | ⟨_, _, _, _, h⟩ | ⟨_, _, _, _, _, h⟩
    · exact h
    · cases h
    · cases h
  obtain ⟨m1, bk, he, hst, hld⟩ := class_round hb hn hi a b _ s rest (fun x hx => hx) hf hap hhas hbn
  have hsp : ∀ x, (∃ y ∈ keptOwned e (.cls h z fl fs bs), InField b y.2 x) → Span b z x := by
    rintro x ⟨y, hy, hx⟩
    have := hi y hy
    unfold InField at hx
    exact ⟨by omega, by omega⟩
  refine ⟨m1, bk, he.mono hsp, fun m2 R hag hR => ?_, fun n hfu => ?_⟩
  · have hall := hst m2 R (fun x hx => hag x (hx.imp (hsp x) id)) hR
    exact .object (fun x hx hs => (hall x hx).1 hs) (fun x hx hs => (hall x hx).2 hs)
  · obtain ⟨n, rfl⟩ : ∃ k, n = k + 1 := ⟨n - 1, by omega⟩
    rw [loadObjectH_eq rfl]
    simp only [loadBodyH]
    have hle := hhas.left
    have hc := flatMapH_count fn e m a (keptOwned e (.cls h z fl fs bs))
    obtain ⟨h1, h2, h3, -⟩ := hle
    rw [run_bind (bytesRead_has hhas), hds, Nat.mod_eq_of_lt (by omega)]
    exact hld n n (by omega) (by omega)

theorem lasts_round {fn : Functions} {e : Env} {m : Mem} {c : Option Nat} {t : Ty} {a : Nat} (h : Lasts fn e m c t a) :
    (c = none → RoundV fn e m t a) ∧
      ∀ k, c = some k → 0 < t.size ∧ t.size < 2 ^ 32 ∧ k < 2 ^ 32 ∧ ∀ i, i < k → RoundV fn e m t (elemAt a i t.size) := by
  induction h with
  | prim h s a => exact ⟨fun _ => round_prim fn e m h s a, fun k hk => by cases hk⟩
  | enum hz hv => exact ⟨fun _ => round_enum hz hv, fun k hk => by cases hk⟩
  | object hb hn hi hap hg hp hf ih =>
    refine ⟨fun _ => round_object hb hn hi hap fun x hx => ?_, fun k hk => by cases hk⟩
    cases hs : fn.saves x with
    | some g =>
      obtain ⟨l, hl, hinv⟩ := hg x hx g hs
      exact roundF_custom hs hl hinv
    | none =>
      obtain ⟨hl, hptr⟩ := hp x hx hs
      obtain ⟨h1, h2⟩ := ih x hx hs
      cases hc : x.2.1.count with
      | none => exact roundF_value hs hl hptr hc (h1 hc)
      | some k =>
        obtain ⟨h3, h4, h5, h6⟩ := h2 k hc
        exact roundF_array hs hl hptr hc h3 h4 h5 h6
  | list hz hl hc hf ih => exact ⟨fun _ => round_list hz hl hc fun x hx => (ih x hx).1 rfl, fun k hk => by cases hk⟩
  | dict hz hk hp hl hc hi hf ihk ih =>
    exact ⟨fun _ => round_dict hz hk hp hl hc (fun x hx => (ihk x hx).1 rfl) (fun x hx => (ih x hx).1 rfl), fun k hk => by cases hk⟩
  | array hz hl hk hf ih =>
    refine ⟨(fun h => nomatch h), fun k h => ?_⟩
    cases h
    exact ⟨hz, hl, hk, fun i hi => (ih i hi).1 rfl⟩

end Clr.VBin
