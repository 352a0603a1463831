import Verif.Proofs.VBinLoad

/-! Loading what was saved: objects, containers and classes. -/
namespace Clr.VBin
open Clr.JSON (Ty Flds Tys Mem FldInfo Const Env strideOf Apart elemAt arrayItems savedField Effect)

/-- The `data_size` an object is loaded with: its length, unless it is a container. -/
def SizeOk (t : Ty) (len ds : Nat) : Prop :=
  ds = len ∨ (∃ h s t' p, t = .vec h s t' p) ∨ ∃ h s k t' p, t = .dict h s k t' p

/-- What loading does to memory. -/
structure Loaded (e : Env) (m : Mem) (t t' : Ty) (a b : Nat) (m0 m1 : Mem) : Prop where
  eff : Effect m0 m1 (Shared e t t' b)
  got : Got e m m1 (fun x => m0.next ≤ x ∧ x < m1.next) m0 t t' a b

/-- Loading the bytes of an object. -/
def Loads (e : Env) (m : Mem) (t t' : Ty) : Prop :=
  ∀ (a b ds : Nat) (s : St), Has s (enc e m t a) → b + t'.size ≤ s.mem.next → SizeOk t (enc e m t a).length ds →
    ∃ m1, Loaded e m t t' a b s.mem m1 ∧ ∀ n, sizeOf t' + s.data.length + 2 ≤ n →
      loadObject e n t' b ds t.hash.toNat s = .ok () (done s (enc e m t a).length m1)

theorem versions_hash {e : Env} {t t' : Ty} (h : Versions e t t') : t.hash = t'.hash := by
  cases h <;> rfl

theorem done_adv (s : St) (j k : Nat) (m : Mem) : done (adv s j) k m = done s (j + k) m := by
  simp [done, adv, Int.add_assoc]

theorem done_done (s : St) (j k : Nat) (m m' : Mem) : done (done s j m) k m' = done s (j + k) m' := by
  simp [done, Int.add_assoc]

theorem adv_done (s : St) (j k : Nat) (m : Mem) : adv (done s j m) k = done s (j + k) m := by
  simp [done, adv, Int.add_assoc]

theorem Has.done {s : St} {d d' : Bytes} (h : Has s (d ++ d')) (m : Mem) : Has (done s d.length m) d' := h.right

theorem loadObject_eq {e : Env} {n : Nat} {t : Ty} {b ds th : Nat} (h : th = t.hash.toNat) :
    loadObject e (n + 1) t b ds th = loadBody e (loadObject e n) n t b ds := by
  simp [loadObject, h]

theorem loadObject_ne {e : Env} {n : Nat} {t : Ty} {b ds th : Nat} (h : th ≠ t.hash.toNat) :
    loadObject e (n + 1) t b ds th = seekRel ds := by
  simp [loadObject, h]

theorem loadValue_eq {lo : LoadObj} {k : Option Ty} {t : Ty} {pl : Place} {v size : Nat} {s s' : St}
    (h : lo t v size t.hash.toNat s = .ok () s') : loadValue lo ⟨k, t, false, pl⟩ v size s = .ok () s' := by
  simpa [loadValue] using h

theorem loads_resized {e : Env} {m : Mem} (h : BitVec 32) (s s' : Nat) (hne : s ≠ s') : Loads e m (.prim h s) (.prim h s') := by
  intro a b ds st hh hb hsz
  have hds : ds = s := by
    rcases hsz with hsz | ⟨_, _, _, _, hx⟩ | ⟨_, _, _, _, _, hx⟩
    · rw [hsz, enc, Clr.JSON.read_length]
    · cases hx
    · cases hx
  subst hds
  have hlen : (m.read a ds).length = ds := Clr.JSON.read_length _ _ _
  refine ⟨st.mem, ⟨Effect.refl _ _, .resized hne rfl⟩, fun n hn => ?_⟩
  obtain ⟨n, rfl⟩ : ∃ k, n = k + 1 := ⟨n - 1, by omega⟩
  have hth : (Ty.prim h ds).hash.toNat = (Ty.prim h s').hash.toNat := rfl
  rw [loadObject_eq hth]
  have hr := seek_has hh
  simp only [enc, hlen] at hr ⊢
  simp only [loadBody, loadType]
  rw [if_pos (Ne.symm hne)]
  exact hr

theorem loads_prim {e : Env} {m : Mem} (h : BitVec 32) (s : Nat) : Loads e m (.prim h s) (.prim h s) := by
  intro a b ds st hh hb hsz
  have hds : ds = s := by
    rcases hsz with hsz | ⟨_, _, _, _, hx⟩ | ⟨_, _, _, _, _, hx⟩
    · rw [hsz, enc, Clr.JSON.read_length]
    · cases hx
    · cases hx
  subst hds
  have hlen : (m.read a ds).length = ds := Clr.JSON.read_length _ _ _
  refine ⟨st.mem.write b (m.read a ds), ⟨?_, ?_⟩, fun n hn => ?_⟩
  · refine (Clr.JSON.effect_write st.mem b (m.read a ds)).mono fun x hx => ?_
    rw [hlen] at hx
    exact .prim hx.1 hx.2
  · refine .prim ?_
    have := Clr.JSON.read_write st.mem b (m.read a ds)
    rwa [hlen] at this
  · obtain ⟨n, rfl⟩ : ∃ k, n = k + 1 := ⟨n - 1, by omega⟩
    have hr := read_has hh
    simp only [enc, hlen] at hr ⊢
    rw [loadObject_eq rfl]
    simp only [loadBody, loadType, ne_eq, not_true, if_false]
    rw [run_bind hr]
    rfl

theorem find_hash (cs : List Const) (v : BitVec 32) :
    (cs.find? fun c => (Hash.hashText c.name).toNat == v.toNat) = cs.find? fun c => Hash.hashText c.name == v := by
  congr 1
  funext c
  generalize Hash.hashText c.name = w
  rw [Bool.eq_iff_iff]
  simp only [beq_iff_eq]
  exact ⟨fun h => BitVec.eq_of_toNat_eq h, fun h => by rw [h]⟩

theorem find_none_zero {cs : List Const} (hz : ∀ c ∈ cs, Hash.hashText c.name ≠ 0) :
    (cs.find? fun c => Hash.hashText c.name == 0) = none := by
  rw [List.find?_eq_none]
  intro c hc
  simpa using hz c hc

/-- The constant the loader finds. -/
theorem enum_found {cs cs' : List Const} (hz : ∀ c ∈ cs', Hash.hashText c.name ≠ 0) (v : BitVec 32) :
    (cs'.find? fun c => (Hash.hashText c.name).toNat == (enumHash cs v).toNat).map Const.value = enumValue cs cs' v := by
  rw [find_hash]
  unfold enumHash enumValue
  cases cs.find? (fun c => c.value == v) with
  | none => simp only; rw [find_none_zero hz]; rfl
  | some c => simp only

theorem loads_enum {e : Env} {m : Mem} (h : BitVec 32) (cs cs' : List Const) (fl fl' : Bool)
    (hz : ∀ c ∈ cs', Hash.hashText c.name ≠ 0) : Loads e m (.enum h 4 cs fl) (.enum h 4 cs' fl') := by
  intro a b ds st hh hb hsz
  have hds : ds = 4 := by
    rcases hsz with hsz | ⟨_, _, _, _, hx⟩ | ⟨_, _, _, _, _, hx⟩
    · rw [hsz, enc, length_le]
    · cases hx
    · cases hx
  subst hds
  have hf := enum_found (cs := cs) hz (enumAt m a)
  rw [enc] at hh
  have hr := readU32_has hh (toNat_lt32 _)
  cases hc : cs'.find? (fun c => (Hash.hashText c.name).toNat == (enumHash cs (enumAt m a)).toNat) with
  | none =>
    rw [hc] at hf
    refine ⟨st.mem, ⟨Effect.refl _ _, .enum (fun v hv => ?_) (fun _ => rfl)⟩, fun n hn => ?_⟩
    · rw [← hf] at hv; cases hv
    · obtain ⟨n, rfl⟩ : ∃ k, n = k + 1 := ⟨n - 1, by omega⟩
      have hth : (Ty.enum h 4 cs fl).hash.toNat = (Ty.enum h 4 cs' fl').hash.toNat := rfl
      rw [loadObject_eq hth]
      simp only [loadBody, loadEnum, ne_eq, not_true, if_false, enc, length_le]
      rw [run_bind hr, hc]
      rfl
  | some c =>
    rw [hc] at hf
    have hw := Clr.JSON.read_write st.mem b (le 4 c.value.toNat)
    rw [length_le] at hw
    refine ⟨st.mem.write b (le 4 c.value.toNat), ⟨?_, .enum (fun v hv => ?_) (fun hn => ?_)⟩, fun n hn => ?_⟩
    · refine (Clr.JSON.effect_write st.mem b _).mono fun x hx => ?_
      rw [length_le] at hx
      exact .enum hx.1 hx.2
    · rw [← hf] at hv
      cases hv
      rw [enumAt, hw, unle_le_of_lt (show c.value.toNat < 256 ^ 4 by have := c.value.isLt; omega), BitVec.ofNat_toNat]
      simp
    · rw [← hf] at hn; cases hn
    · obtain ⟨n, rfl⟩ : ∃ k, n = k + 1 := ⟨n - 1, by omega⟩
      have hth : (Ty.enum h 4 cs fl).hash.toNat = (Ty.enum h 4 cs' fl').hash.toNat := rfl
      rw [loadObject_eq hth]
      simp only [loadBody, loadEnum, ne_eq, not_true, if_false, enc, length_le]
      rw [run_bind hr, hc]
      rfl

/-! ### Elements -/

theorem valueTypeSize_lt {e : Env} {t : Ty} (h : Supported e t) : valueTypeSize t false < 2 ^ 32 := by
  unfold valueTypeSize
  simp only [Bool.false_eq_true, if_false]
  split
  · omega
  · cases h with
    | prim => simpa [Ty.size]
    | enum => simp [Ty.size]
    | cls => simp_all [isClass]
    | vec => simpa [Ty.size]
    | dict => simpa [Ty.size]

theorem sizeOk_elem {e : Env} {m : Mem} {t : Ty} (h : Supported e t) (hv : valueTypeSize t false ≠ 0) (a : Nat) :
    SizeOk t (enc e m t a).length (valueTypeSize t false) := by
  unfold valueTypeSize at hv ⊢
  simp only [Bool.false_eq_true, if_false] at hv ⊢
  split
  · rename_i hc; rw [if_pos hc] at hv; exact absurd rfl hv
  · cases h with
    | prim => left; simp [Ty.size, enc, Clr.JSON.read_length]
    | enum => left; simp [Ty.size, enc, length_le]
    | cls => simp_all [isClass]
    | vec => right; left; exact ⟨_, _, _, _, rfl⟩
    | dict => right; right; exact ⟨_, _, _, _, _, rfl⟩

/-- What an element's value is loaded from: its size, if that is saved, and its bytes. -/
theorem elem_load {e : Env} {m : Mem} {t t' : Ty} (hl : Loads e m t t') (hs : Supported e t) {a b : Nat} {s : St} {rest : Bytes}
    (hh : Has s ((if valueTypeSize t false == 0 then le 4 (enc e m t a).length else []) ++ enc e m t a ++ rest))
    (hb : b + t'.size ≤ s.mem.next) :
    ∃ m1 k ds, Loaded e m t t' a b s.mem m1 ∧
      k + (enc e m t a).length = ((if valueTypeSize t false == 0 then le 4 (enc e m t a).length else []) ++ enc e m t a).length ∧
      readSize (valueTypeSize t false) s = .ok ds (adv s k) ∧
      ∀ n, sizeOf t' + s.data.length + 2 ≤ n →
        loadObject e n t' b ds t.hash.toNat (adv s k) = .ok () (done (adv s k) (enc e m t a).length m1) := by
  by_cases hv : valueTypeSize t false = 0
  · simp only [hv, beq_self_eq_true, if_true, List.append_assoc] at hh ⊢
    have hr := hh.right
    rw [length_le] at hr
    obtain ⟨m1, h1, h2⟩ := hl a b (enc e m t a).length (adv s 4) hr.left hb (.inl rfl)
    refine ⟨m1, 4, (enc e m t a).length, h1, by simp [length_le], by rw [readSize, if_pos rfl]; exact readU32_has hh.left (by have := hr.left.len; omega), h2⟩
  · have hbq : (valueTypeSize t false == 0) = false := by simpa using hv
    simp only [hbq, Bool.false_eq_true, if_false, List.nil_append, hv] at hh ⊢
    obtain ⟨m1, h1, h2⟩ := hl a b (valueTypeSize t false) s hh.left hb (sizeOk_elem hs hv a)
    refine ⟨m1, 0, valueTypeSize t false, h1, by simp, ?_, ?_⟩
    · simp [readSize, hv, run_pure, adv]
    · simpa [adv] using h2

/-- The addresses of the elements of an array from index `i` on. -/
def arrItems (a stride i k : Nat) : List (Nat × Nat) := (List.range' i k).map fun j => (0, elemAt a j stride)

theorem arrayItems_eq (a n stride : Nat) : arrayItems a n stride = arrItems a stride 0 n := by
  simp [arrayItems, arrItems, List.range_eq_range', elemAt]

theorem elemAt_next {i j sz : Nat} (h : i < j) : i * sz + sz ≤ j * sz := Clr.JSON.elem_le h

/-- The elements of a C array. -/
theorem arr_items {e : Env} {m : Mem} {t t' : Ty} (hl : Loads e m t t') (hs : Supported e t) (hs' : Supported e t')
    (hh : t.hash = t'.hash) (h : Header) (hv : h.valueSize = valueTypeSize t false) (a base n' : Nat) (hz : 0 < t'.size) :
    ∀ (k i : Nat) (s : St) (rest : Bytes), i + k ≤ n' →
      Has s (encItems none (enc e m t) (valueTypeSize t false == 0) (arrItems a t.size i k) ++ rest) →
      base + n' * t'.size ≤ s.mem.next →
      ∃ m1, Effect s.mem m1 (fun z => ∃ j, i ≤ j ∧ j < i + k ∧ Shared e t t' (elemAt base j t'.size) z) ∧
        (∀ j, i ≤ j → j < i + k → Got e m m1 (fun x => s.mem.next ≤ x ∧ x < m1.next) s.mem t t' (elemAt a j t.size)
          (elemAt base j t'.size)) ∧
        ∀ n, sizeOf t' + s.data.length + 2 ≤ n →
          loadItems (loadObject e n) h k ⟨none, t', false, .arr base (n' * t'.size) (i * t'.size)⟩ s =
            .ok () (done s (encItems none (enc e m t) (valueTypeSize t false == 0) (arrItems a t.size i k)).length m1) := by
  intro k
  induction k with
  | zero =>
    intro i s rest _ _ _
    refine ⟨s.mem, Effect.refl _ _, fun j h1 h2 => by omega, fun n _ => ?_⟩
    simp [loadItems, run_pure, arrItems, encItems, done]
  | succ k ih =>
    intro i s rest hik hhas hb
    have hlist : arrItems a t.size i (k + 1) = (0, elemAt a i t.size) :: arrItems a t.size (i + 1) k := by
      simp [arrItems, List.range'_succ]
    rw [hlist, encItems, List.nil_append, List.append_assoc] at hhas
    have hin := elemAt_next (sz := t'.size) (show i < n' by omega)
    obtain ⟨m2, k1, ds, hld, hlen, hsize, hlo⟩ := elem_load hl hs (b := elemAt base i t'.size) hhas (by simp only [elemAt]; omega)
    have heff := hld.eff
    have hnx := heff.next
    have hhas2 := hhas.done m2
    obtain ⟨m1, e1, g1, l1⟩ := ih (i + 1) _ rest (by omega) hhas2 (by show _ ≤ m2.next; omega)
    have e1' : Effect m2 m1 _ := e1
    have hnx1 : m2.next ≤ m1.next := e1'.next
    refine ⟨m1, ?_, ?_, ?_⟩
    · refine (heff.trans e1').mono fun z hz => ?_
      rcases hz with hz | ⟨j, h1, h2, hz⟩
      · exact ⟨i, by omega, by omega, hz⟩
      · exact ⟨j, by omega, by omega, hz⟩
    · intro j h1 h2
      by_cases hj : j = i
      · subst hj
        refine got_congr hld.got hs' (fun _ _ _ => rfl) (fun x hx => ?_) (fun x hx => ⟨hx.1, by omega⟩)
        have hlt : x < m2.next := by
          rcases hx with hx | hx
          · simp only [elemAt] at hx; omega
          · exact hx.2
        have hns : ¬ ∃ j', j + 1 ≤ j' ∧ j' < j + 1 + k ∧ Shared e t t' (elemAt base j' t'.size) x := by
          rintro ⟨j', h3, h4, hsh⟩
          have hw := shared_within hsh hs'
          have hstep := elemAt_next (sz := t'.size) (show j < j' by omega)
          have hlast := elemAt_next (sz := t'.size) (show j' < n' by omega)
          simp only [elemAt] at hw hx
          rcases hx with hx | hx
          · omega
          · have := hx.1; omega
        exact ⟨e1'.byte x hlt hns, e1'.elems x hlt hns⟩
      · have hg := g1 j (by omega) (by omega)
        refine got_congr hg hs' (fun x hx1 hx2 => ?_) (fun _ _ => ⟨rfl, rfl⟩) (fun x hx => ⟨?_, hx.2⟩)
        · have hstep := elemAt_next (sz := t'.size) (show i < j by omega)
          have hlast := elemAt_next (sz := t'.size) (show j < n' by omega)
          have : m2.byte x = s.mem.byte x := by
            refine heff.byte x (by simp only [elemAt] at hx2; omega) fun hsh => ?_
            have hw := shared_within hsh hs'
            simp only [elemAt] at hw hx1
            omega
          exact this.symm
        · have : m2.next ≤ x := hx.1
          omega
    · intro n hn
      rw [loadItems, hlist, encItems, List.nil_append]
      have hadd : addElem (loadObject e n) h ⟨none, t', false, .arr base (n' * t'.size) (i * t'.size)⟩ s =
          .ok (elemAt base i t'.size, ⟨none, t', false, .arr base (n' * t'.size) ((i + 1) * t'.size)⟩) s := by
        simp only [addElem, addEmpty, strideOf, Bool.false_eq_true, if_false]
        rw [if_pos (by omega)]
        simp [elemAt, Nat.succ_mul]
      rw [run_bind hadd, hv, run_bind hsize]
      have := hlo n hn
      rw [hh] at this
      rw [run_bind (loadValue_eq this), done_adv, hlen]
      have hl1 := l1 n hn
      rw [hl1, done_done, ← List.length_append]

theorem encItems_append (key : Option (Nat → Bytes)) (value : Nat → Bytes) (sized : Bool) (l l' : List (Nat × Nat)) :
    encItems key value sized (l ++ l') = encItems key value sized l ++ encItems key value sized l' := by
  induction l with
  | nil => rfl
  | cons x l ih => obtain ⟨k, v⟩ := x; simp [encItems, ih]

theorem arrItems_split (a stride k n : Nat) (h : k ≤ n) :
    arrItems a stride 0 n = arrItems a stride 0 k ++ arrItems a stride k (n - k) := by
  rw [arrItems, arrItems, arrItems, ← List.map_append]
  congr 1
  have := List.range'_append (s := 0) (m := k) (n := n - k) (step := 1)
  simp only [Nat.one_mul, Nat.zero_add] at this
  rw [this]; congr 1; omega

/-- A C array. -/
theorem arr_load {e : Env} {m : Mem} {x y : FldInfo × Ty} {n0 n' : Nat} (hc : x.1.count = some n0)
    (hc' : y.1.count = some n') (hl : Loads e m x.2 y.2) (hs : Supported e x.2) (hs' : Supported e y.2)
    (hh : x.2.hash = y.2.hash) (hp : y.1.isPtr = false) (hz : 0 < y.2.size) (hn0 : n0 < 2 ^ 32) (a b : Nat) (s : St)
    (rest : Bytes) (hhas : Has s (encCell (enc e m x.2) x.1.count x.2 a ++ rest))
    (hb : b + y.1.offset + n' * y.2.size ≤ s.mem.next) :
    ∃ m1, Effect s.mem m1 (CellShared e x y (b + y.1.offset)) ∧
      CellGot e m m1 (fun z => s.mem.next ≤ z ∧ z < m1.next) s.mem x y a (b + y.1.offset) ∧
      ∀ n, sizeOf y.2 + s.data.length + 2 ≤ n →
        loadContainer (loadObject e n) (arrWriter y.1 y.2 n' b) (encCell (enc e m x.2) x.1.count x.2 a).length n' s =
          .ok () (done s (encCell (enc e m x.2) x.1.count x.2 a).length m1) := by
  have henc : encCell (enc e m x.2) x.1.count x.2 a = containerHeader n0 none x.2 false ++
      encItems none (enc e m x.2) (valueTypeSize x.2 false == 0) (arrayItems a n0 x.2.size) := by simp [encCell, hc]
  rw [henc] at hhas ⊢
  generalize hk : (if n' < n0 then n' else n0) = k
  have hkn : k ≤ n0 ∧ k ≤ n' ∧ (k = n0 ∨ k = n') := by subst hk; split <;> omega
  rw [arrayItems_eq, arrItems_split a x.2.size k n0 hkn.1, encItems_append] at hhas ⊢
  generalize hA : encItems none (enc e m x.2) (valueTypeSize x.2 false == 0) (arrItems a x.2.size 0 k) = A at hhas ⊢
  generalize hB : encItems none (enc e m x.2) (valueTypeSize x.2 false == 0) (arrItems a x.2.size k (n0 - k)) = B at hhas ⊢
  have hhl : (containerHeader n0 none x.2 false).length = 20 := by simp [containerHeader, length_le]
  have h0 : Has s (containerHeader n0 none x.2 false ++ (A ++ (B ++ rest))) := by simpa using hhas
  obtain ⟨hrd, hA1⟩ := readHeader_has (key := none) hn0 (by simp) (valueTypeSize_lt hs) h0
  obtain ⟨m1, he, hg, hld⟩ := arr_items hl hs hs' hh
    ⟨n0, (keyInfo none).1, (keyInfo none).2, x.2.hash.toNat, valueTypeSize x.2 false⟩ rfl a (b + y.1.offset) n' hz k 0
    (adv s 20) (B ++ rest) (by omega) (by rw [hA]; exact hA1) hb
  rw [hA] at hld
  refine ⟨m1, ?_, ?_, ?_⟩
  · refine (show Effect s.mem m1 _ from he).mono fun z hz => ?_
    obtain ⟨j, h1, h2, hsh⟩ := hz
    exact .inr ⟨n0, n', j, hc, hc', by omega, by omega, hsh⟩
  · refine ⟨fun hcn => (by rw [hc] at hcn; cases hcn), fun n2 n2' hc2 hc2' i hi hi' => ?_⟩
    rw [hc] at hc2; rw [hc'] at hc2'; cases hc2; cases hc2'
    exact hg i (by omega) (by omega)
  · intro n hn
    have hst := bytesRead_has h0
    have hB1 : Has (done (adv s 20) A.length m1) (B ++ rest) := hA1.done m1
    have hwr : arrWriter y.1 y.2 n' b = ⟨none, y.2, false, .arr (b + y.1.offset) (n' * y.2.size) (0 * y.2.size)⟩ := by
      simp [arrWriter, hp, strideOf]
    rw [loadContainer, run_bind hst, run_bind hrd]
    simp only [hk]
    rw [if_neg (by rw [hwr, hh]; simp), hwr, run_bind (hld n hn), run_bind (bytesRead_has hB1)]
    have hl1 := h0.len
    simp only [List.length_append, hhl] at hl1 ⊢
    have hp0 := h0.1
    have hp2 := h0.2.1
    have hp3 := h0.2.2.1
    simp only [List.length_append, hhl] at hp3
    have hleft : (s.pos.toNat + (20 + (A.length + B.length)) + (2 ^ 32 - (done (adv s 20) A.length m1).pos.toNat)) % 2 ^ 32 =
        B.length := by
      have : (done (adv s 20) A.length m1).pos.toNat = s.pos.toNat + 20 + A.length := by simp only [done, adv]; omega
      rw [this]; omega
    rw [hleft]
    have hasint : asInt B.length = B.length := asInt_lt (by omega)
    rw [hasint]
    by_cases hbr : 0 < (B.length : Int) ∧ n0 ≠ k
    · rw [if_pos hbr, seek_has hB1.left, adv_done, done_adv]
    · rw [if_neg hbr]
      have hB0 : B.length = 0 := by
        by_cases hkk : n0 = k
        · subst hkk
          rw [← hB]; simp [arrItems, encItems]
        · exact Nat.eq_zero_of_not_pos fun hpos => hbr ⟨by omega, hkk⟩
      rw [run_pure, hB0, done_adv]
      congr 1

/-! ### Containers -/

theorem elems_alloc {m : Mem} {n b : Nat} (h : b < m.next) : (m.alloc n).2.elems b = m.elems b := by
  simp only [Mem.alloc]
  rw [if_neg (by omega)]

/-- What happens to a container while it is loaded: only it changes, below the memory that was in use. -/
theorem cont_items {e : Env} {m : Mem} {t t' : Ty} (hl : Loads e m t t') (hs : Supported e t) (hs' : Supported e t')
    (hh : t.hash = t'.hash) (h : Header) (hv : h.valueSize = valueTypeSize t false) (b : Nat) :
    ∀ (l : List (Nat × Nat)) (s : St) (rest : Bytes) (old : List (Nat × Nat)), s.mem.elems b = old →
      Has s (encItems none (enc e m t) (valueTypeSize t false == 0) l ++ rest) → b < s.mem.next →
      ∃ m1 news, Effect s.mem m1 (fun z => z = b) ∧ m1.byte b = s.mem.byte b ∧ m1.elems b = old ++ news ∧
        news.length = l.length ∧
        (∀ i, i < l.length → s.mem.next ≤ (news.getD i (0, 0)).2 ∧ (news.getD i (0, 0)).2 + t'.size ≤ m1.next ∧
          ∃ mi, Got e m m1 (fun x => s.mem.next ≤ x ∧ x < m1.next) mi t t' (l.getD i (0, 0)).2 (news.getD i (0, 0)).2) ∧
        ∀ n, sizeOf t' + s.data.length + 2 ≤ n →
          loadItems (loadObject e n) h l.length ⟨none, t', false, .cont b⟩ s =
            .ok () (done s (encItems none (enc e m t) (valueTypeSize t false == 0) l).length m1) := by
  intro l
  induction l with
  | nil =>
    intro s rest old hold _ _
    refine ⟨s.mem, [], Effect.refl _ _, rfl, by simp [hold], rfl, by simp, fun n _ => ?_⟩
    simp [loadItems, run_pure, encItems, done]
  | cons kv l ih =>
    obtain ⟨ka, v⟩ := kv
    intro s rest old hold hhas hb
    rw [encItems, List.nil_append, List.append_assoc] at hhas
    let sm : Mem := (s.mem.alloc t'.size).2.setElems b (old ++ [(0, s.mem.next)])
    have hnext : sm.next = s.mem.next + t'.size := rfl
    have hbyte : ∀ x, sm.byte x = s.mem.byte x := fun x => rfl
    have helems : ∀ x, x < s.mem.next → x ≠ b → sm.elems x = s.mem.elems x := by
      intro x hx hxb
      show (if x = b then _ else (s.mem.alloc t'.size).2.elems x) = _
      rw [if_neg hxb, elems_alloc hx]
    have helemb : sm.elems b = old ++ [(0, s.mem.next)] := by
      show (if b = b then _ else _) = _
      rw [if_pos rfl]
    have hhas' : Has { s with mem := sm } _ := hhas.mem sm
    obtain ⟨m2, k1, ds, hld, hlen, hsize, hlo⟩ := elem_load (b := s.mem.next) hl hs hhas' (by show _ ≤ sm.next; omega)
    have heff : Effect sm m2 (Shared e t t' s.mem.next) := hld.eff
    have hnx := heff.next
    have hns : ∀ x, x < s.mem.next → ¬ Shared e t t' s.mem.next x := fun x hx hsh => by
      have := shared_within hsh hs'
      omega
    have hm2b : m2.elems b = old ++ [(0, s.mem.next)] := by rw [heff.elems b (by omega) (hns b hb), helemb]
    have hhas2 := hhas'.done m2
    obtain ⟨m1, news, e1, b1, n1, len1, g1, l1⟩ := ih _ rest _ hm2b hhas2 (by show b < m2.next; omega)
    have e1' : Effect m2 m1 (fun z => z = b) := e1
    have b1' : m1.byte b = m2.byte b := b1
    have hnx1 : m2.next ≤ m1.next := e1'.next
    refine ⟨m1, (0, s.mem.next) :: news, ⟨by omega, ?_, ?_⟩, ?_, by rw [n1]; simp, by simp [len1], ?_, ?_⟩
    · intro x hx hxb
      rw [e1'.byte x (by omega) hxb, heff.byte x (by omega) (hns x hx), hbyte]
    · intro x hx hxb
      rw [e1'.elems x (by omega) hxb, heff.elems x (by omega) (hns x hx), helems x hx hxb]
    · rw [b1', heff.byte b (by omega) (hns b hb), hbyte]
    · intro i hi
      cases i with
      | zero =>
        simp only [List.getD_cons_zero]
        refine ⟨Nat.le_refl _, by omega, sm, ?_⟩
        have hg : Got e m m2 (fun x => sm.next ≤ x ∧ x < m2.next) sm t t' v s.mem.next := hld.got
        refine got_congr hg hs' (fun _ _ _ => rfl) (fun x hx => ?_) (fun x hx => ⟨by have := hx.1; omega, by have := hx.2; omega⟩)
        have hx1 : s.mem.next ≤ x ∧ x < m2.next := by
          rcases hx with hx | hx
          · omega
          · have := hx.1; have := hx.2; omega
        exact ⟨e1'.byte x hx1.2 (by omega), e1'.elems x hx1.2 (by omega)⟩
      | succ i =>
        simp only [List.getD_cons_succ]
        obtain ⟨h1, h2, mi, hg⟩ := g1 i (by simpa using hi)
        have h1' : m2.next ≤ (news.getD i (0, 0)).2 := h1
        refine ⟨by omega, h2, mi, got_congr hg hs' (fun _ _ _ => rfl) (fun _ _ => ⟨rfl, rfl⟩) (fun x hx => ⟨?_, hx.2⟩)⟩
        have : m2.next ≤ x := hx.1
        omega
    · intro n hn
      rw [List.length_cons, loadItems, encItems, List.nil_append]
      have hadd : addElem (loadObject e n) h ⟨none, t', false, .cont b⟩ s =
          .ok (s.mem.next, ⟨none, t', false, .cont b⟩) { s with mem := sm } := by
        simp only [addElem, addEmpty, strideOf, Bool.false_eq_true, if_false, hold]
        rfl
      rw [run_bind hadd, hv, run_bind hsize]
      have := hlo n hn
      rw [hh] at this
      rw [run_bind (loadValue_eq this), done_adv, hlen]
      have hl1 := l1 n hn
      have hdd : ∀ k, done { s with mem := sm } k m2 = done s k m2 := fun k => rfl
      rw [hl1, done_done, ← List.length_append]
      rfl

end Clr.VBin
