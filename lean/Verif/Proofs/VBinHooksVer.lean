import Verif.Props.VBinHooksVerSpec
import Verif.Proofs.VBinHooks

/-! Custom functions at any depth and classes that have changed, in the versioned binary. -/
namespace Clr.VBin
open Clr.JSON (Ty Flds Tys Mem FldInfo Const Env strideOf Apart elemAt arrayItems savedField Effect findOwn)

/-- Loading the bytes of an object of an old type into one of a new type. -/
def RoundW (fn fn' : Functions) (e : Env) (m : Mem) (t t' : Ty) (a : Nat) : Prop :=
  SavesH fn e m t a ∧ (valueTypeSize t false ≠ 0 → SizeOk t (encH fn e m t a).length (valueTypeSize t false)) ∧
  (∀ (s : St) (rest : Bytes) (b ds : Nat), Has s (encH fn e m t a ++ rest) → SizeOk t (encH fn e m t a).length ds →
    b + t'.size ≤ s.mem.next →
    ∃ m1 bk, Effect s.mem m1 (Reach fn' e none none t t' b) ∧
      (∀ m2 R, (∀ x, Span b t'.size x ∨ (s.mem.next ≤ x ∧ x < m1.next) → Agree m2 m1 x) →
        (∀ x, s.mem.next ≤ x → x < m1.next → R x) → Carried fn' e m m2 R none none t t' a b) ∧
      ∀ n, sizeOf t' + s.data.length + 2 ≤ n →
        loadObjectH fn' e n t' b ds t'.hash.toNat s = .ok () (doneB s (encH fn e m t a).length m1 bk)) ∧
  t.hash = t'.hash ∧ ∀ b z, Reach fn' e none none t t' b z → Span b t'.size z

theorem roundW_prim (fn fn' : Functions) (e : Env) (m : Mem) (h : BitVec 32) (z a : Nat) :
    RoundW fn fn' e m (.prim h z) (.prim h z) a := by
  obtain ⟨h1, h2, h3⟩ := round_prim fn e m h z a
  have hsv : ∀ out, saveObjectH fn e m (.prim h z) a out = .ok (out ++ m.read a z) := fun out => by rw [saveObjectH]
  have henc := encH_of hsv
  have hlen : (m.read a z).length = z := Clr.JSON.read_length _ _ _
  refine ⟨h1, h2, fun s rest b ds hhas hsz hb => ?_, rfl, fun b x hx => ?_⟩
  · rw [henc] at hhas hsz ⊢
    have hds : ds = z := by
      rcases hsz with hsz | ⟨_, _, _, _, hx⟩ | ⟨_, _, _, _, _, hx⟩
      · rw [hsz, hlen]
      · cases hx
      · cases hx
    subst hds
    have hrw := Clr.JSON.read_write s.mem b (m.read a ds)
    rw [hlen] at hrw
    refine ⟨s.mem.write b (m.read a ds), s.back, ?_, fun m2 R hag _ => ?_, fun n hn => ?_⟩
    · refine (Clr.JSON.effect_write s.mem b (m.read a ds)).mono fun x hx => ?_
      rw [hlen] at hx
      exact .prim hx
    · exact .prim ((read_agree fun x hx => hag x (.inl hx)).trans hrw)
    · obtain ⟨n, rfl⟩ : ∃ k, n = k + 1 := ⟨n - 1, by omega⟩
      have hr := read_has hhas.left
      rw [hlen] at hr ⊢
      rw [loadObjectH_eq rfl]
      simp only [loadBodyH, loadType, ne_eq, not_true, if_false]
      rw [run_bind hr]
      rfl
  · cases hx with
    | prim hz => exact hz
    | function hx => simp [keptOwned] at hx
    | field hx => simp [keptOwned] at hx

/-- A value of a primitive type that has another size now is passed over. -/
theorem roundW_resized (fn fn' : Functions) (e : Env) (m : Mem) (h : BitVec 32) {z z' : Nat} (a : Nat) (hne : z ≠ z') :
    RoundW fn fn' e m (.prim h z) (.prim h z') a := by
  obtain ⟨h1, h2, -⟩ := round_prim fn e m h z a
  have hsv : ∀ out, saveObjectH fn e m (.prim h z) a out = .ok (out ++ m.read a z) := fun out => by rw [saveObjectH]
  have henc := encH_of hsv
  have hlen : (m.read a z).length = z := Clr.JSON.read_length _ _ _
  refine ⟨h1, h2, fun s rest b ds hhas hsz hb => ?_, rfl, fun b x hx => ?_⟩
  · rw [henc] at hhas hsz ⊢
    have hds : ds = z := by
      rcases hsz with hsz | ⟨_, _, _, _, hx⟩ | ⟨_, _, _, _, _, hx⟩
      · rw [hsz, hlen]
      · cases hx
      · cases hx
    subst hds
    refine ⟨s.mem, s.back, Clr.JSON.Effect.refl _ _, fun m2 R hag _ => .resized hne, fun n hn => ?_⟩
    obtain ⟨n, rfl⟩ : ∃ k, n = k + 1 := ⟨n - 1, by omega⟩
    have hr := seek_has hhas.left
    rw [hlen] at hr ⊢
    rw [loadObjectH_eq rfl]
    simp only [loadBodyH, loadType]
    rw [if_pos (fun h => hne h.symm), hr]
    rfl
  · cases hx with
    | prim hz => exact absurd rfl hne
    | function hx => simp [keptOwned] at hx
    | field hx => simp [keptOwned] at hx

theorem roundW_enum {fn fn' : Functions} {e : Env} {m : Mem} {h : BitVec 32} {cs cs' : List Const} {fl fl' : Bool} {a : Nat}
    (hz : ∀ c ∈ cs', Hash.hashText c.name ≠ 0) : RoundW fn fn' e m (.enum h 4 cs fl) (.enum h 4 cs' fl') a := by
  have hsv : ∀ out, saveObjectH fn e m (.enum h 4 cs fl) a out = .ok (out ++ le 4 (enumHash cs (enumAt m a)).toNat) := fun out => by
    rw [saveObjectH, if_neg (by decide)]; rfl
  have henc := encH_of hsv
  rw [RoundW, SavesH, henc]
  refine ⟨hsv, fun hv => ?_, fun s rest b ds hhas hsz hb => ?_, rfl, fun b x hx => ?_⟩
  · rw [length_le]
    left
    simp only [valueTypeSize, Bool.false_eq_true, if_false] at hv ⊢
    split
    · rename_i hc; rw [if_pos hc] at hv; exact absurd rfl hv
    · rfl
  · have hds : ds = 4 := by
      rcases hsz with hsz | ⟨_, _, _, _, hx⟩ | ⟨_, _, _, _, _, hx⟩
      · rw [hsz, length_le]
      · cases hx
      · cases hx
    subst hds
    have hf := enum_found (cs := cs) hz (enumAt m a)
    have hr := readU32_has hhas.left (toNat_lt32 _)
    cases hc : cs'.find? (fun c => (Hash.hashText c.name).toNat == (enumHash cs (enumAt m a)).toNat) with
    | none =>
      rw [hc] at hf
      refine ⟨s.mem, s.back, Effect.refl _ _, fun m2 R hag _ => .enum fun v hv => ?_, fun n hn => ?_⟩
      · rw [← hf] at hv; cases hv
      · obtain ⟨n, rfl⟩ : ∃ k, n = k + 1 := ⟨n - 1, by omega⟩
        rw [loadObjectH_eq rfl, length_le]
        simp only [loadBodyH, loadEnum, ne_eq, not_true, if_false]
        rw [run_bind hr, hc]
        rfl
    | some c =>
      rw [hc] at hf
      have hw := Clr.JSON.read_write s.mem b (le 4 c.value.toNat)
      rw [length_le] at hw
      refine ⟨s.mem.write b (le 4 c.value.toNat), s.back, ?_, fun m2 R hag _ => ?_, fun n hn => ?_⟩
      · refine (Clr.JSON.effect_write s.mem b (le 4 c.value.toNat)).mono fun x hx => ?_
        rw [length_le] at hx
        exact .enum hx
      · refine .enum fun v hv => ?_
        rw [← hf] at hv
        cases hv
        have h1 : m2.read b 4 = le 4 c.value.toNat := (read_agree fun x hx => hag x (.inl hx)).trans hw
        rw [enumAt, h1, unle_le_of_lt (by have := toNat_lt32 c.value; omega)]
        simp
      · obtain ⟨n, rfl⟩ : ∃ k, n = k + 1 := ⟨n - 1, by omega⟩
        rw [loadObjectH_eq rfl, length_le]
        simp only [loadBodyH, loadEnum, ne_eq, not_true, if_false]
        rw [run_bind hr, hc]
        rfl
  · cases hx with
    | enum hz => exact hz
    | function hx => simp [keptOwned] at hx
    | field hx => simp [keptOwned] at hx

/-- Loading an element: its size, if that is saved, and its bytes. -/
theorem elem_roundW {fn fn' : Functions} {e : Env} {m : Mem} {t t' : Ty} {a : Nat} (hl : RoundW fn fn' e m t t' a) {b : Nat} {s : St} {rest : Bytes}
    (hh : Has s ((if valueTypeSize t false == 0 then le 4 (encH fn e m t a).length else []) ++ encH fn e m t a ++ rest))
    (hb : b + t'.size ≤ s.mem.next) :
    ∃ m1 bk k ds, Effect s.mem m1 (Reach fn' e none none t t' b) ∧
      (∀ m2 R, (∀ x, Span b t'.size x ∨ (s.mem.next ≤ x ∧ x < m1.next) → Agree m2 m1 x) →
        (∀ x, s.mem.next ≤ x → x < m1.next → R x) → Carried fn' e m m2 R none none t t' a b) ∧
      k + (encH fn e m t a).length =
        ((if valueTypeSize t false == 0 then le 4 (encH fn e m t a).length else []) ++ encH fn e m t a).length ∧
      readSize (valueTypeSize t false) s = .ok ds (adv s k) ∧
      ∀ n, sizeOf t' + s.data.length + 2 ≤ n →
        loadObjectH fn' e n t' b ds t'.hash.toNat (adv s k) = .ok () (doneB (adv s k) (encH fn e m t a).length m1 bk) := by
  obtain ⟨-, hsz, hl, hth, -⟩ := hl
  by_cases hv : valueTypeSize t false = 0
  · simp only [hv, beq_self_eq_true, if_true, List.append_assoc] at hh ⊢
    have hr := hh.right
    rw [length_le] at hr
    obtain ⟨m1, bk, h1, h2, h3⟩ := hl (adv s 4) rest b _ hr (.inl rfl) hb
    refine ⟨m1, bk, 4, (encH fn e m t a).length, h1, h2, by simp [length_le], ?_, h3⟩
    rw [readSize, if_pos rfl]
    exact readU32_has hh.left (by have := hr.left.len; omega)
  · have hbq : (valueTypeSize t false == 0) = false := by simpa using hv
    simp only [hbq, Bool.false_eq_true, if_false, List.nil_append] at hh ⊢
    obtain ⟨m1, bk, h1, h2, h3⟩ := hl s rest b (valueTypeSize t false) hh (hsz hv) hb
    refine ⟨m1, bk, 0, valueTypeSize t false, h1, h2, by simp, ?_, ?_⟩
    · simp [readSize, hv, run_pure, adv]
    · simpa [adv] using h3

/-- The elements of a container. -/
theorem cont_roundW {fn fn' : Functions} {e : Env} {m : Mem} {t t' : Ty} (h : Header) (hv : h.valueSize = valueTypeSize t false) (b : Nat) :
    ∀ (l : List (Nat × Nat)) (s : St) (rest : Bytes) (old : List (Nat × Nat)), (∀ x ∈ l, RoundW fn fn' e m t t' x.2) → s.mem.elems b = old →
      Has s (encItems none (encH fn e m t) (valueTypeSize t false == 0) l ++ rest) → b < s.mem.next →
      ∃ m1 bk news, Effect s.mem m1 (fun z => z = b) ∧ m1.elems b = old ++ news ∧ news.length = l.length ∧
        (∀ i, i < l.length → s.mem.next ≤ (news.getD i (0, 0)).2 ∧ (news.getD i (0, 0)).2 + t'.size ≤ m1.next) ∧
        (∀ m2 R, (∀ x, s.mem.next ≤ x ∧ x < m1.next → Agree m2 m1 x) → (∀ x, s.mem.next ≤ x → x < m1.next → R x) →
          ∀ i, i < l.length → Carried fn' e m m2 R none none t t' (l.getD i (0, 0)).2 (news.getD i (0, 0)).2) ∧
        ∀ n, sizeOf t' + s.data.length + 2 ≤ n →
          loadItems (loadObjectH fn' e n) h l.length ⟨none, t', false, .cont b⟩ s =
            .ok () (doneB s (encItems none (encH fn e m t) (valueTypeSize t false == 0) l).length m1 bk) := by
  intro l
  induction l with
  | nil =>
    intro s rest old _ hold _ _
    refine ⟨s.mem, s.back, [], Effect.refl _ _, by simp [hold], rfl, by simp, by simp, fun n _ => ?_⟩
    simp [loadItems, run_pure, encItems, doneB]
  | cons kv l ih =>
    obtain ⟨ka, v⟩ := kv
    intro s rest old hl hold hhas hb
    rw [encItems, List.nil_append, List.append_assoc] at hhas
    let sm : Mem := (s.mem.alloc t'.size).2.setElems b (old ++ [(0, s.mem.next)])
    have hnext : sm.next = s.mem.next + t'.size := rfl
    have hbyte : ∀ x, sm.byte x = s.mem.byte x := fun x => rfl
    have helems : ∀ x, x < s.mem.next → x ≠ b → sm.elems x = s.mem.elems x := by
      intro x hx hxb
      show (if x = b then _ else (s.mem.alloc t'.size).2.elems x) = _
      rw [if_neg hxb, elems_alloc hx]
    have helemb : sm.elems b = old ++ [(0, s.mem.next)] := by
      show (if b = b then _ else _) = _
      rw [if_pos rfl]
    have hhas' : Has { s with mem := sm } _ := hhas.mem sm
    obtain ⟨m2, bk2, k1, ds, heff, hst, hlen, hsize, hlo⟩ := elem_roundW (b := s.mem.next) (hl (ka, v) (by simp)) hhas'
      (by show _ ≤ sm.next; omega)
    have heff : Effect sm m2 (Span s.mem.next t'.size) := (show Effect sm m2 _ from heff).mono fun x hx => (hl (ka, v) (by simp)).2.2.2.2 _ _ hx
    have hnx := heff.next
    have hns : ∀ x, x < s.mem.next → ¬ Span s.mem.next t'.size x := fun x hx hsh => by
      have := hsh.1
      omega
    have hm2b : m2.elems b = old ++ [(0, s.mem.next)] := by rw [heff.elems b (by omega) (hns b hb), helemb]
    have hhas2 : Has (doneB { s with mem := sm } _ m2 bk2) _ := hhas'.doneB m2 bk2
    obtain ⟨m1, bk1, news, e1, n1, len1, in1, g1, l1⟩ := ih _ rest _ (fun x hx => hl x (by simp [hx])) hm2b hhas2
      (by show b < m2.next; omega)
    have e1' : Effect m2 m1 (fun z => z = b) := e1
    have hnx1 : m2.next ≤ m1.next := e1'.next
    have hdn : (doneB { s with mem := sm } ((if (valueTypeSize t false == 0) = true then le 4 (encH fn e m t v).length else []) ++
      encH fn e m t v).length m2 bk2).mem = m2 := rfl
    rw [hdn] at in1 g1
    refine ⟨m1, bk1, (0, s.mem.next) :: news, ⟨by omega, ?_, ?_⟩, by rw [n1]; simp, by simp [len1], ?_, ?_, ?_⟩
    · intro x hx hxb
      rw [e1'.byte x (by omega) hxb, heff.byte x (by omega) (hns x hx), hbyte]
    · intro x hx hxb
      rw [e1'.elems x (by omega) hxb, heff.elems x (by omega) (hns x hx), helems x hx hxb]
    · intro i hi
      cases i with
      | zero => simp only [List.getD_cons_zero]; omega
      | succ i =>
        simp only [List.getD_cons_succ]
        have := in1 i (by simpa using hi)
        omega
    · intro m3 R hag hR i hi
      cases i with
      | zero =>
        simp only [List.getD_cons_zero]
        refine hst m3 R (fun x hx => ?_) (fun x h1 h2 => hR x (by have h1 : sm.next ≤ x := h1; omega) (by omega))
        have hx1 : s.mem.next ≤ x ∧ x < m2.next := by
          rcases hx with hx | hx
          · have := hx.1; have := hx.2; omega
          · have h1 : sm.next ≤ x := hx.1
            have := hx.2; omega
        exact (hag x ⟨hx1.1, by omega⟩).trans (effect_agree e1' hx1.2 (by omega))
      | succ i =>
        simp only [List.getD_cons_succ]
        exact g1 m3 R (fun x hx => hag x ⟨by omega, hx.2⟩) (fun x h1 h2 => hR x (by omega) h2) i (by simpa using hi)
    · intro n hn
      rw [List.length_cons, loadItems, encItems, List.nil_append]
      have hadd : addElem (loadObjectH fn' e n) h ⟨none, t', false, .cont b⟩ s =
          .ok (s.mem.next, ⟨none, t', false, .cont b⟩) { s with mem := sm } := by
        simp only [addElem, addEmpty, strideOf, Bool.false_eq_true, if_false, hold]
        rfl
      rw [run_bind hadd, hv, run_bind hsize]
      rw [run_bind (loadValue_eq (hlo n hn)), doneB_adv, hlen]
      rw [l1 n hn, doneB_doneB, ← List.length_append]
      rfl


theorem carried_moved {fn' : Functions} {e : Env} {m mk m1 : Mem} {R R1 : Nat → Prop} {k k' : Ty} {ko kd kn : Nat} (hp' : KeyTy k')
    (hg : Carried fn' e m mk R none none k k' ko kd) (hr : m1.read kn k'.size = mk.read kd k'.size) :
    Carried fn' e m m1 R1 none none k k' ko kn := by
  rcases hp' with ⟨h, s, rfl⟩ | ⟨h, cs, fl, rfl⟩
  · cases hg with
    | prim hv => exact .prim (hr.trans hv)
    | resized hs => exact .resized hs
  · cases hg with
    | enum hv =>
      refine .enum fun v h => ?_
      have hr' : m1.read kn 4 = mk.read kd 4 := hr
      rw [enumAt, hr']
      exact hv v h

/-- A container as a whole, of any kind. -/
theorem loadContainer_itemsW {lo : LoadObj} {key key' : Option Ty} {t t' : Ty} {pl : Place} {ds count : Nat} {s : St} {m1 : Mem} {bk : Bool}
    {items rest : Bytes} (hk : ∀ k, key = some k → k.size < 2 ^ 32) (hsz : t.size < 2 ^ 32) (hh : t.hash = t'.hash) (hc : count < 2 ^ 32)
    (hhas : Has s (containerHeader count key t false ++ (items ++ rest)))
    (hl : loadItems lo ⟨count, (keyInfo key).1, (keyInfo key).2, t.hash.toNat, valueTypeSize t false⟩ count
      ⟨key', t', false, pl⟩ (adv s 20) = .ok () (doneB (adv s 20) items.length m1 bk)) :
    loadContainer lo ⟨key', t', false, pl⟩ ds count s =
      .ok () (doneB s (containerHeader count key t false ++ items).length m1 bk) := by
  obtain ⟨hrd, hA1⟩ := readHeader_has hc hk (valueTypeSize_le hsz) hhas
  have hfin : Has (doneB (adv s 20) items.length m1 bk) _ := hA1.doneB m1 bk
  rw [loadContainer, run_bind (bytesRead_has hhas), run_bind hrd]
  simp only [Nat.lt_irrefl, if_false]
  rw [if_neg (by simp [hh]), run_bind hl, run_bind (bytesRead_has hfin), if_neg (by simp), run_pure, doneB_adv]
  congr 2
  simp [containerHeader, length_le]
  omega

/-- The keys and elements of a dictionary. -/
theorem dict_roundW {fn fn' : Functions} {e : Env} {m : Mem} {k k' t t' : Ty} (hp : KeyTy k) (hp' : KeyTy k') (hk128 : k'.size < 128) (h : Header)
    (hv : h.valueSize = valueTypeSize t false) (hks : h.keySize = k.size) (hkh : h.keyHash = k.hash.toNat) (b : Nat) :
    ∀ (l : List (Nat × Nat)) (s : St) (rest : Bytes) (old : List (Nat × Nat)), (∀ x ∈ l, RoundW fn fn' e m k k' x.1) →
      (∀ x ∈ l, RoundW fn fn' e m t t' x.2) → s.mem.elems b = old →
      Has s (encItems (some (encH fn e m k)) (encH fn e m t) (valueTypeSize t false == 0) l ++ rest) → b < s.mem.next →
      ∃ m1 bk news, Effect s.mem m1 (fun z => z = b) ∧ m1.elems b = old ++ news ∧ news.length = l.length ∧
        (∀ i, i < l.length → s.mem.next ≤ (news.getD i (0, 0)).1 ∧ (news.getD i (0, 0)).1 + k'.size ≤ m1.next ∧
          s.mem.next ≤ (news.getD i (0, 0)).2 ∧ (news.getD i (0, 0)).2 + t'.size ≤ m1.next) ∧
        (∀ m2 R, (∀ x, s.mem.next ≤ x ∧ x < m1.next → Agree m2 m1 x) → (∀ x, s.mem.next ≤ x → x < m1.next → R x) →
          ∀ i, i < l.length → Carried fn' e m m2 R none none k k' (l.getD i (0, 0)).1 (news.getD i (0, 0)).1 ∧
            Carried fn' e m m2 R none none t t' (l.getD i (0, 0)).2 (news.getD i (0, 0)).2) ∧
        ∀ n, sizeOf k' + sizeOf t' + s.data.length + 2 ≤ n →
          loadItems (loadObjectH fn' e n) h l.length ⟨some k', t', false, .cont b⟩ s =
            .ok () (doneB s (encItems (some (encH fn e m k)) (encH fn e m t) (valueTypeSize t false == 0) l).length m1 bk) := by
  intro l
  induction l with
  | nil =>
    intro s rest old _ _ hold _ _
    refine ⟨s.mem, s.back, [], Effect.refl _ _, by simp [hold], rfl, by simp, by simp, fun n _ => ?_⟩
    simp [loadItems, run_pure, encItems, doneB]
  | cons kv l ih =>
    obtain ⟨ko, v⟩ := kv
    intro s rest old hlk hl hold hhas hb
    rw [encItems, List.append_assoc, List.append_assoc] at hhas
    -- the key
    let kdm : Mem := (s.mem.alloc 128).2
    have hkdn : kdm.next = s.mem.next + 128 := rfl
    have hhas0 : Has { s with mem := kdm } _ := hhas.mem kdm
    obtain ⟨mk, bkk, heffk, hstk, hlk2⟩ := (hlk (ko, v) (by simp)).2.2.1 { s with mem := kdm } _ s.mem.next h.keySize hhas0
      (by rw [hks]; exact sizeOk_keyH hp ko) (by show _ ≤ kdm.next; omega)
    have heffk : Effect kdm mk (Span s.mem.next k'.size) :=
      (show Effect kdm mk _ from heffk).mono fun x hx => (hlk (ko, v) (by simp)).2.2.2.2 _ _ hx
    have hnk := heffk.next
    have hnsk : ∀ x, x < s.mem.next → ¬ Span s.mem.next k'.size x := fun x hx hsh => by
      have := hsh.1
      omega
    have hmkb : mk.elems b = old := by
      rw [heffk.elems b (by omega) (hnsk b hb), ← hold]; exact elems_alloc hb
    have hkeyback : Carried fn' e m mk (fun _ => True) none none k k' ko s.mem.next :=
      hstk mk _ (fun x _ => ⟨rfl, rfl⟩) (fun _ _ _ => trivial)
    -- the new element
    obtain ⟨sm, hsm, hsmn, hsmb, hsme, hsmeb, hsmk⟩ := addKey_facts (mk := mk) (b := b) (kd := s.mem.next) (k' := k') (t' := t')
      (by omega) (by omega)
    have hhas1 : Has (doneB s (encH fn e m k ko).length sm bkk)
        (((if valueTypeSize t false == 0 then le 4 (encH fn e m t v).length else []) ++ encH fn e m t v) ++
          (encItems (some (encH fn e m k)) (encH fn e m t) (valueTypeSize t false == 0) l ++ rest)) := hhas.doneB sm bkk
    -- its value
    obtain ⟨m2, bk2, k1, ds, heff, hst, hlen, hsize, hlo⟩ := elem_roundW (b := mk.next + k'.size)
      (s := doneB s (encH fn e m k ko).length sm bkk) (hl (ko, v) (by simp)) hhas1 (by show _ ≤ sm.next; omega)
    have heff : Effect sm m2 (Span (mk.next + k'.size) t'.size) :=
      (show Effect sm m2 _ from heff).mono fun x hx => (hl (ko, v) (by simp)).2.2.2.2 _ _ hx
    have hnx := heff.next
    have hns : ∀ x, x < mk.next + k'.size → ¬ Span (mk.next + k'.size) t'.size x := fun x hx hsh => by
      have := hsh.1
      omega
    have hm2b : m2.elems b = old ++ [(mk.next, mk.next + k'.size)] := by
      rw [heff.elems b (by omega) (hns b (by omega)), hsmeb, hmkb]
    have hhas2 : Has (doneB (doneB s (encH fn e m k ko).length sm bkk) _ m2 bk2) _ := hhas1.doneB m2 bk2
    obtain ⟨m1, bk1, news, e1, n1, len1, in1, g1, l1⟩ := ih _ rest _ (fun x hx => hlk x (by simp [hx])) (fun x hx => hl x (by simp [hx]))
      hm2b hhas2 (by show b < m2.next; omega)
    have e1' : Effect m2 m1 (fun z => z = b) := e1
    have in1' : ∀ i, i < l.length → m2.next ≤ (news.getD i (0, 0)).1 ∧ (news.getD i (0, 0)).1 + k'.size ≤ m1.next ∧
          m2.next ≤ (news.getD i (0, 0)).2 ∧ (news.getD i (0, 0)).2 + t'.size ≤ m1.next := in1
    have hnx1 : m2.next ≤ m1.next := e1'.next
    refine ⟨m1, bk1, (mk.next, mk.next + k'.size) :: news, ⟨by omega, ?_, ?_⟩, by rw [n1]; simp, by simp [len1], ?_, ?_, ?_⟩
    · intro x hx hxb
      rw [e1'.byte x (by omega) hxb, heff.byte x (by omega) (hns x (by omega)), hsmb x (by omega), heffk.byte x (by omega) (hnsk x hx)]
      rfl
    · intro x hx hxb
      rw [e1'.elems x (by omega) hxb, heff.elems x (by omega) (hns x (by omega)), hsme x (by omega) hxb,
        heffk.elems x (by omega) (hnsk x hx)]
      exact elems_alloc hx
    · intro i hi
      cases i with
      | zero => simp only [List.getD_cons_zero]; omega
      | succ i =>
        simp only [List.getD_cons_succ]
        have := in1' i (by simpa using hi)
        omega
    · intro m3 R hag hR i hi
      cases i with
      | zero =>
        simp only [List.getD_cons_zero]
        refine ⟨carried_moved hp' hkeyback ?_, hst m3 R (fun x hx => ?_) (fun x h1 h2 => hR x (by have h1 : sm.next ≤ x := h1; omega) (by omega))⟩
        · rw [← hsmk]
          refine read_agree fun x hx => (hag x ?_).trans ((effect_agree e1' ?_ ?_).trans (effect_agree heff ?_ (hns x ?_)))
          all_goals have := hx.1; have := hx.2; omega
        · have hx1 : s.mem.next ≤ x ∧ x < m2.next := by
            rcases hx with hx | hx
            · have := hx.1; have := hx.2; omega
            · have h1 : sm.next ≤ x := hx.1
              have := hx.2; omega
          exact (hag x ⟨hx1.1, by omega⟩).trans (effect_agree e1' hx1.2 (by omega))
      | succ i =>
        simp only [List.getD_cons_succ]
        refine g1 m3 R (fun x hx => hag x ⟨?_, hx.2⟩) (fun x h1 h2 => hR x ?_ h2) i (by simpa using hi)
        · have : m2.next ≤ x := hx.1
          omega
        · have : m2.next ≤ x := h1
          omega
    · intro n hn
      rw [List.length_cons, loadItems, encItems]
      have hkld := hlk2 n (by show _ + s.data.length + 2 ≤ n; omega)
      rw [← (hlk (ko, v) (by simp)).2.2.2.1, ← hkh] at hkld
      have hadd : addElem (loadObjectH fn' e n) h ⟨some k', t', false, .cont b⟩ s =
          .ok (mk.next + k'.size, ⟨some k', t', false, .cont b⟩) (doneB s (encH fn e m k ko).length sm bkk) := by
        rw [addKeyed_eq hk128 hkld]
        have hsm' : Clr.JSON.addKey (doneB { s with mem := kdm } (encH fn e m k ko).length mk bkk).mem b s.mem.next k' t' false =
          (mk.next + k'.size, sm) := hsm
        rw [hsm']
        rfl
      rw [run_bind hadd, hv, run_bind hsize]
      have := hlo n (by show _ + s.data.length + 2 ≤ n; omega)
      rw [run_bind (loadValue_eq this), doneB_adv, hlen]
      have hl1 := l1 n hn
      rw [hl1, doneB_doneB, doneB_doneB]
      congr 2
      simp only [List.length_append]
      omega

theorem roundW_list {fn fn' : Functions} {e : Env} {m : Mem} {h : BitVec 32} {z z' : Nat} {t t' : Ty} {a : Nat} (hz : 0 < z') (hsz : t.size < 2 ^ 32) (hh : t.hash = t'.hash)
    (hc : (m.elems a).length < 2 ^ 32) (hf : ∀ x ∈ m.elems a, RoundW fn fn' e m t t' x.2) : RoundW fn fn' e m (.vec h z t false) (.vec h z' t' false) a := by
  have hsv : ∀ out, saveObjectH fn e m (.vec h z t false) a out = .ok (out ++ (containerHeader (m.elems a).length none t false ++
      encItems none (encH fn e m t) (valueTypeSize t false == 0) (m.elems a))) := fun out => by
    rw [saveObjectH, saveItems_mem (valueE := encH fn e m t) _ _ (fun x hx => (hf x hx).1), List.append_assoc]
  have henc := encH_of hsv
  rw [RoundW, SavesH, henc]
  refine ⟨hsv, fun _ => .inr (.inl ⟨_, _, _, _, rfl⟩), fun s rest b ds hhas _ hb => ?_, rfl, fun b x hx => ?_⟩
  rotate_left
  · cases hx with
    | list hz => exact hz
    | function hx => simp [keptOwned] at hx
    | field hx => simp [keptOwned] at hx
  simp only [Ty.size] at hb
  rw [List.append_assoc] at hhas
  let s0 : St := { s with mem := s.mem.setElems b [] }
  have hhas0 : Has s0 _ := hhas.mem (s.mem.setElems b [])
  obtain ⟨hrd, hA1⟩ := readHeader_has (key := none) hc (by simp) (valueTypeSize_le hsz) hhas0
  have hb0 : (adv s0 20).mem.elems b = [] := by
    show (if b = b then _ else _) = _
    rw [if_pos rfl]
  obtain ⟨m1, bk, news, he, hne, hlen, hin, hst, hld⟩ := cont_roundW
    ⟨(m.elems a).length, (keyInfo none).1, (keyInfo none).2, t.hash.toNat, valueTypeSize t false⟩ rfl b (m.elems a) (adv s0 20) rest
    [] hf hb0 hA1 (by show b < s.mem.next; omega)
  rw [List.nil_append] at hne
  have he' : Effect s0.mem m1 (fun z => z = b) := he
  have hs0 : (adv s0 20).mem.next = s.mem.next := rfl
  rw [hs0] at hin hst
  refine ⟨m1, bk, ?_, fun m2 R hag hR => ?_, fun n hn => ?_⟩
  · refine ((effect_setElems s.mem b []).trans he').mono fun x hx => ?_
    have hx : x = b := hx.elim id id
    subst hx
    exact .list ⟨Nat.le_refl _, by omega⟩
  · have heb : m2.elems b = news := by
      rw [(hag b (.inl ⟨Nat.le_refl _, by simp only [Ty.size]; omega⟩)).2, hne]
    refine .list (by rw [heb, hlen]) (fun i hi x h3 h4 => ?_) (fun i hi => ?_)
    · rw [heb] at h3 h4
      have := hin i hi
      exact hR x (by omega) (by omega)
    · rw [heb]
      exact hst m2 R (fun x hx => hag x (.inr hx)) hR i hi
  · obtain ⟨n, rfl⟩ : ∃ k, n = k + 1 := ⟨n - 1, by omega⟩
    rw [loadObjectH_eq rfl]
    simp only [loadBodyH]
    rw [run_bind (peekCount_has hc hhas), run_bind (show store (fun m => m.setElems b []) s = .ok () s0 from rfl)]
    rw [loadContainer_itemsW (by simp) hsz hh hc hhas0 (hld n (by simp at hn ⊢; show _ + s.data.length + 2 ≤ n; omega))]
    rfl

theorem roundW_dict {fn fn' : Functions} {e : Env} {m : Mem} {h : BitVec 32} {z z' : Nat} {k k' t t' : Ty} {a : Nat} (hz : 0 < z') (hk : k.size < 128) (hk' : k'.size < 128)
    (hp : KeyTy k) (hp' : KeyTy k') (hsz : t.size < 2 ^ 32) (hh : t.hash = t'.hash) (hc : (m.elems a).length < 2 ^ 32) (hi : ∀ x ∈ m.elems a, RoundW fn fn' e m k k' x.1)
    (hf : ∀ x ∈ m.elems a, RoundW fn fn' e m t t' x.2) : RoundW fn fn' e m (.dict h z k t false) (.dict h z' k' t' false) a := by
  have hk2 : ∀ k', some k = some k' → k'.size < 2 ^ 32 := fun k' hk' => by cases hk'; omega
  have hsv : ∀ out, saveObjectH fn e m (.dict h z k t false) a out = .ok (out ++ (containerHeader (m.elems a).length (some k) t false ++
      encItems (some (encH fn e m k)) (encH fn e m t) (valueTypeSize t false == 0) (m.elems a))) := fun out => by
    rw [saveObjectH, saveItems_keys (keyE := encH fn e m k) (valueE := encH fn e m t) _ _ (fun x hx => (hi x hx).1) (fun x hx => (hf x hx).1),
      List.append_assoc]
  have henc := encH_of hsv
  rw [RoundW, SavesH, henc]
  refine ⟨hsv, fun _ => .inr (.inr ⟨_, _, _, _, _, rfl⟩), fun s rest b ds hhas _ hb => ?_, rfl, fun b x hx => ?_⟩
  rotate_left
  · cases hx with
    | dict hz => exact hz
    | function hx => simp [keptOwned] at hx
    | field hx => simp [keptOwned] at hx
  simp only [Ty.size] at hb
  rw [List.append_assoc] at hhas
  let s0 : St := { s with mem := s.mem.setElems b [] }
  have hhas0 : Has s0 _ := hhas.mem (s.mem.setElems b [])
  obtain ⟨hrd, hA1⟩ := readHeader_has (key := some k) hc hk2 (valueTypeSize_le hsz) hhas0
  have hb0 : (adv s0 20).mem.elems b = [] := by
    show (if b = b then _ else _) = _
    rw [if_pos rfl]
  obtain ⟨m1, bk, news, he, hne, hlen, hin, hst, hld⟩ := dict_roundW hp hp' hk'
    ⟨(m.elems a).length, (keyInfo (some k)).1, (keyInfo (some k)).2, t.hash.toNat, valueTypeSize t false⟩ rfl rfl rfl b (m.elems a)
    (adv s0 20) rest [] hi hf hb0 hA1 (by show b < s.mem.next; omega)
  rw [List.nil_append] at hne
  have he' : Effect s0.mem m1 (fun z => z = b) := he
  have hs0 : (adv s0 20).mem.next = s.mem.next := rfl
  rw [hs0] at hin hst
  refine ⟨m1, bk, ?_, fun m2 R hag hR => ?_, fun n hn => ?_⟩
  · refine ((effect_setElems s.mem b []).trans he').mono fun x hx => ?_
    have hx : x = b := hx.elim id id
    subst hx
    exact .dict ⟨Nat.le_refl _, by omega⟩
  · have heb : m2.elems b = news := by
      rw [(hag b (.inl ⟨Nat.le_refl _, by simp only [Ty.size]; omega⟩)).2, hne]
    have hst' := hst m2 R (fun x hx => hag x (.inr hx)) hR
    refine .dict (by rw [heb, hlen]) (fun i hi x h3 h4 => ?_) (fun i hi x h3 h4 => ?_) (fun i hi => ?_) (fun i hi => ?_)
    · rw [heb] at h3 h4
      have := hin i hi
      exact hR x (by omega) (by omega)
    · rw [heb] at h3 h4
      have := hin i hi
      exact hR x (by omega) (by omega)
    · rw [heb]
      exact (hst' i hi).1
    · rw [heb]
      exact (hst' i hi).2
  · obtain ⟨n, rfl⟩ : ∃ k, n = k + 1 := ⟨n - 1, by omega⟩
    rw [loadObjectH_eq rfl]
    simp only [loadBodyH]
    rw [run_bind (peekCount_has hc hhas), run_bind (show store (fun m => m.setElems b []) s = .ok () s0 from rfl)]
    rw [loadContainer_itemsW hk2 hsz hh hc hhas0 (hld n (by simp at hn ⊢; show _ + s.data.length + 2 ≤ n; omega))]
    rfl

/-- The elements of a C array. -/
theorem arr_roundW {fn fn' : Functions} {e : Env} {m : Mem} {t t' : Ty} (h : Header) (hv : h.valueSize = valueTypeSize t false) (a base n' n0 : Nat)
    (hz : 0 < t'.size) (hl : ∀ i, i < n0 → RoundW fn fn' e m t t' (elemAt a i t.size)) :
    ∀ (k i : Nat) (s : St) (rest : Bytes), i + k ≤ n' → i + k ≤ n0 →
      Has s (encItems none (encH fn e m t) (valueTypeSize t false == 0) (arrItems a t.size i k) ++ rest) →
      base + n' * t'.size ≤ s.mem.next →
      ∃ m1 bk, Effect s.mem m1 (fun z => ∃ j, i ≤ j ∧ j < i + k ∧ Reach fn' e none none t t' (elemAt base j t'.size) z) ∧
        (∀ m2 R, (∀ x, (base + i * t'.size ≤ x ∧ x < base + n' * t'.size) ∨ (s.mem.next ≤ x ∧ x < m1.next) → Agree m2 m1 x) →
          (∀ x, s.mem.next ≤ x → x < m1.next → R x) →
          ∀ j, i ≤ j → j < i + k → Carried fn' e m m2 R none none t t' (elemAt a j t.size) (elemAt base j t'.size)) ∧
        ∀ n, sizeOf t' + s.data.length + 2 ≤ n →
          loadItems (loadObjectH fn' e n) h k ⟨none, t', false, .arr base (n' * t'.size) (i * t'.size)⟩ s =
            .ok () (doneB s (encItems none (encH fn e m t) (valueTypeSize t false == 0) (arrItems a t.size i k)).length m1 bk) := by
  intro k
  induction k with
  | zero =>
    intro i s rest _ _ _ _
    refine ⟨s.mem, s.back, Effect.refl _ _, fun m2 R _ _ j h1 h2 => by omega, fun n _ => ?_⟩
    simp [loadItems, run_pure, arrItems, encItems, doneB]
  | succ k ih =>
    intro i s rest hik hik0 hhas hb
    have hlist : arrItems a t.size i (k + 1) = (0, elemAt a i t.size) :: arrItems a t.size (i + 1) k := by
      simp [arrItems, List.range'_succ]
    rw [hlist, encItems, List.nil_append, List.append_assoc] at hhas
    have hin := elemAt_next (sz := t'.size) (show i < n' by omega)
    have hi1 : (i + 1) * t'.size = i * t'.size + t'.size := Nat.succ_mul i t'.size
    obtain ⟨m2, bk2, k1, ds, heff, hst, hlen, hsize, hlo⟩ := elem_roundW (b := elemAt base i t'.size) (hl i (by omega)) hhas
      (by simp only [elemAt]; omega)
    have hnx := heff.next
    have hhas2 := hhas.doneB m2 bk2
    obtain ⟨m1, bk1, e1, g1, l1⟩ := ih (i + 1) _ rest (by omega) (by omega) hhas2 (by show _ ≤ m2.next; omega)
    have e1' : Effect m2 m1 _ := e1
    have hnx1 : m2.next ≤ m1.next := e1'.next
    have hlow : ∀ x, (∃ j, i + 1 ≤ j ∧ j < i + 1 + k ∧ Reach fn' e none none t t' (elemAt base j t'.size) x) →
        base + (i + 1) * t'.size ≤ x ∧ x < base + n' * t'.size := by
      rintro x ⟨j, h1, h2, h3⟩
      have hsp := (hl j (by omega)).2.2.2.2 _ _ h3
      have hj := elemAt_next (sz := t'.size) (show j < n' by omega)
      have hj1 : (i + 1) * t'.size ≤ j * t'.size := Nat.mul_le_mul_right _ h1
      simp only [Span, elemAt] at hsp
      omega
    refine ⟨m1, bk1, ?_, ?_, ?_⟩
    · refine (heff.trans e1').mono fun z hz => ?_
      rcases hz with hz | ⟨j, h1, h2, h3⟩
      · exact ⟨i, by omega, by omega, hz⟩
      · exact ⟨j, by omega, by omega, h3⟩
    · intro m3 R hag hR j h1 h2
      by_cases hj : j = i
      · subst hj
        refine hst m3 R (fun x hx => ?_) (fun x h3 h4 => hR x h3 (by omega))
        simp only [Span, elemAt] at hx
        refine (hag x (by omega)).trans (effect_agree e1' (by omega) fun hx' => ?_)
        have := hlow x hx'
        omega
      · refine g1 m3 R (fun x hx => ?_) (fun x h3 h4 => hR x ?_ h4) j (by omega) (by omega)
        · have hx' : (base + (i + 1) * t'.size ≤ x ∧ x < base + n' * t'.size) ∨ (m2.next ≤ x ∧ x < m1.next) := hx
          exact hag x (by omega)
        · have : m2.next ≤ x := h3
          omega
    · intro n hn
      rw [loadItems, hlist, encItems, List.nil_append]
      have hadd : addElem (loadObjectH fn' e n) h ⟨none, t', false, .arr base (n' * t'.size) (i * t'.size)⟩ s =
          .ok (elemAt base i t'.size, ⟨none, t', false, .arr base (n' * t'.size) ((i + 1) * t'.size)⟩) s := by
        simp only [addElem, addEmpty, strideOf, Bool.false_eq_true, if_false]
        rw [if_pos (by omega)]
        simp [elemAt, Nat.succ_mul]
      rw [run_bind hadd, hv, run_bind hsize]
      rw [run_bind (loadValue_eq (hlo n hn)), doneB_adv, hlen]
      rw [l1 n hn, doneB_doneB, ← List.length_append]

/-! ### Fields -/

/-- A field has been loaded from another. -/
def CarriedF (fn' : Functions) (e : Env) (m m2 : Mem) (R : Nat → Prop) (a b : Nat) (x y : Owned) : Prop :=
  (fn'.loads y ≠ none → m2.read (b + y.2.1.offset) (y.2.1.extent y.2.2) = m.read (a + x.2.1.offset) (x.2.1.extent x.2.2)) ∧
  (fn'.loads y = none → x.2.2.hash = y.2.2.hash →
    Carried fn' e m m2 R x.2.1.count y.2.1.count x.2.2 y.2.2 (a + x.2.1.offset) (b + y.2.1.offset))

/-- The addresses of a field that are loaded. -/
def ReachF (fn' : Functions) (e : Env) (x y : Owned) (b z : Nat) : Prop :=
  (fn'.loads y ≠ none ∧ InField b y.2 z) ∨
  (fn'.loads y = none ∧ x.2.2.hash = y.2.2.hash ∧ Reach fn' e x.2.1.count y.2.1.count x.2.2 y.2.2 (b + y.2.1.offset) z)

/-- Loading the chunk of a field into another. -/
def RoundG (fn fn' : Functions) (e : Env) (m : Mem) (a : Nat) (x y : Owned) : Prop :=
  SavesF fn e m a x ∧ (∀ b z, ReachF fn' e x y b z → InField b y.2 z) ∧
  ∀ (s : St) (rest : Bytes) (b : Nat), Has s (dataH fn e m a x ++ rest) →
    b + y.2.1.offset + y.2.1.extent y.2.2 ≤ s.mem.next →
    ∃ m1 bk, Effect s.mem m1 (ReachF fn' e x y b) ∧
      (∀ m2 R, (∀ z, InField b y.2 z ∨ (s.mem.next ≤ z ∧ z < m1.next) → Agree m2 m1 z) →
        (∀ z, s.mem.next ≤ z → z < m1.next → R z) → CarriedF fn' e m m2 R a b x y) ∧
      ∀ n, sizeOf y.2.2 + s.data.length + 2 ≤ n →
        loadDataH fn' (loadObjectH fn' e n) y b (dataH fn e m a x).length x.2.2.hash.toNat s =
          .ok () (doneB s (dataH fn e m a x).length m1 bk)

theorem roundG_custom {fn fn' : Functions} {e : Env} {m : Mem} {a : Nat} {x y : Owned} {g : Mem → Nat → Nat → Bytes}
    {l : Nat → Nat → Load Unit} (hg : fn.saves x = some g) (hl : fn'.loads y = some l) (hi : InverseTo x.2 y.2 g l) :
    RoundG fn fn' e m a x y := by
  have hsv : ∀ out, saveDataH fn e m x a out = .ok (out ++ g m a (a + x.2.1.offset)) := fun out => by
    have : fn.save x.1 x.2.1 = some g := hg
    simp only [saveDataH, this]
  have hd := dataH_of hsv
  rw [RoundG, SavesF, hd]
  refine ⟨hsv, fun b z hz => ?_, fun s rest b hhas hb => ?_⟩
  · rcases hz with hz | ⟨hn, -⟩
    · exact hz.2
    · rw [hl] at hn; cases hn
  obtain ⟨s', h1, h2, h3, h4, h5, h6⟩ := hi m a s b hhas.2.1 (before_has hhas) hb
  obtain ⟨bk, hbk⟩ := loadCustom_ok hhas h1 h2 h3 h4
  refine ⟨s'.mem, bk, h5.mono fun z hz => .inl ⟨by rw [hl]; simp, hz⟩,
    fun m2 R hag _ => ⟨fun _ => ?_, fun hn => by rw [hl] at hn; cases hn⟩, fun n _ => ?_⟩
  · rw [← h6]
    exact read_agree fun z hz => hag z (.inl hz)
  · have hl' : fn'.load y.1 y.2.1 = some l := hl
    simp only [loadDataH, hl']
    exact hbk

theorem roundG_value {fn fn' : Functions} {e : Env} {m : Mem} {a : Nat} {x y : Owned} (hg : fn.saves x = none) (hl : fn'.loads y = none)
    (hp : y.2.1.isPtr = false) (hc : x.2.1.count = none) (hc' : y.2.1.count = none)
    (hv : RoundW fn fn' e m x.2.2 y.2.2 (a + x.2.1.offset)) : RoundG fn fn' e m a x y := by
  have hg' : fn.save x.1 x.2.1 = none := hg
  have hl' : fn'.load y.1 y.2.1 = none := hl
  obtain ⟨hs, -, hv, hh, hsub⟩ := hv
  have hsv : ∀ out, saveDataH fn e m x a out = .ok (out ++ encH fn e m x.2.2 (a + x.2.1.offset)) := fun out => by
    simp only [saveDataH, hg', hc]
    exact hs out
  have hd := dataH_of hsv
  have hext : y.2.1.extent y.2.2 = y.2.2.size := extent_none hp hc'
  rw [RoundG, SavesF, hd]
  refine ⟨hsv, fun b z hz => ?_, fun s rest b hhas hb => ?_⟩
  · rcases hz with ⟨hn, -⟩ | ⟨-, -, hz⟩
    · exact absurd hl hn
    · rw [hc, hc'] at hz
      have := hsub _ _ hz
      unfold InField; rw [hext]; exact this
  obtain ⟨m1, bk, h1, h2, h3⟩ := hv s rest (b + y.2.1.offset) _ hhas (.inl rfl) (by omega)
  refine ⟨m1, bk, h1.mono fun z hz => ?_, fun m2 R hag hR => ⟨fun hn => absurd hl hn, fun _ _ => ?_⟩, fun n hn => ?_⟩
  · exact .inr ⟨hl, hh, by rw [hc, hc']; exact hz⟩
  · rw [hc, hc']
    refine h2 m2 R (fun z hz => hag z ?_) hR
    unfold InField
    rw [hext]
    exact hz
  · simp only [loadDataH, hl', hc', hh]
    exact h3 n hn

theorem roundG_array {fn fn' : Functions} {e : Env} {m : Mem} {a k k' : Nat} {x y : Owned} (hg : fn.saves x = none) (hl : fn'.loads y = none)
    (hpx : x.2.1.isPtr = false) (hp : y.2.1.isPtr = false) (hc : x.2.1.count = some k) (hc' : y.2.1.count = some k')
    (hz : 0 < x.2.2.size) (hz' : 0 < y.2.2.size) (hsz : x.2.2.size < 2 ^ 32) (hk : k < 2 ^ 32) (hh : x.2.2.hash = y.2.2.hash)
    (hv : ∀ i, i < k → RoundW fn fn' e m x.2.2 y.2.2 (elemAt (a + x.2.1.offset) i x.2.2.size)) : RoundG fn fn' e m a x y := by
  have hg' : fn.save x.1 x.2.1 = none := hg
  have hl' : fn'.load y.1 y.2.1 = none := hl
  have hst : ∀ t : Ty, strideOf t false = t.size := fun t => by simp [strideOf]
  have hsv : ∀ out, saveDataH fn e m x a out = .ok (out ++ (containerHeader k none x.2.2 false ++
      encItems none (encH fn e m x.2.2) (valueTypeSize x.2.2 false == 0) (arrItems (a + x.2.1.offset) x.2.2.size 0 k))) := fun out => by
    simp only [saveDataH, hg', hc, hpx, hst]
    rw [if_neg (by omega), arrayItems_eq, saveItems_mem (valueE := encH fn e m x.2.2) _ _ ?_, List.append_assoc]
    intro y hy
    simp only [arrItems, List.mem_map, List.mem_range'_1] at hy
    obtain ⟨j, hj, rfl⟩ := hy
    exact (hv j (by omega)).1
  have hd := dataH_of hsv
  have hext : y.2.1.extent y.2.2 = k' * y.2.2.size := extent_some hp hc'
  rw [RoundG, SavesF, hd]
  refine ⟨hsv, fun b z hzz => ?_, fun s rest b hhas hb => ?_⟩
  · rcases hzz with ⟨hn, -⟩ | ⟨-, -, hzz⟩
    · exact absurd hl hn
    · rw [hc, hc'] at hzz
      cases hzz with
      | array hi hi' hr =>
        have hsp := (hv _ hi).2.2.2.2 _ _ hr
        have hj := elemAt_next (sz := y.2.2.size) hi'
        unfold InField; rw [hext]
        simp only [Span, elemAt] at hsp
        omega
  generalize hn0 : (if k' < k then k' else k) = j
  have hkn : j ≤ k ∧ j ≤ k' ∧ (j = k ∨ j = k') := by subst hn0; split <;> omega
  rw [arrItems_split (a + x.2.1.offset) x.2.2.size j k hkn.1, encItems_append] at hhas ⊢
  generalize hA : encItems none (encH fn e m x.2.2) (valueTypeSize x.2.2 false == 0) (arrItems (a + x.2.1.offset) x.2.2.size 0 j) = A at hhas ⊢
  generalize hB : encItems none (encH fn e m x.2.2) (valueTypeSize x.2.2 false == 0)
    (arrItems (a + x.2.1.offset) x.2.2.size j (k - j)) = B at hhas ⊢
  have hhl : (containerHeader k none x.2.2 false).length = 20 := by simp [containerHeader, length_le]
  have h0 : Has s (containerHeader k none x.2.2 false ++ (A ++ (B ++ rest))) := by simpa using hhas
  obtain ⟨hrd, hA1⟩ := readHeader_has (key := none) hk (by simp) (valueTypeSize_le hsz) h0
  obtain ⟨m1, bk, he, hst', hld⟩ := arr_roundW
    ⟨k, (keyInfo none).1, (keyInfo none).2, x.2.2.hash.toNat, valueTypeSize x.2.2 false⟩ rfl (a + x.2.1.offset) (b + y.2.1.offset) k' k
    hz' hv j 0 (adv s 20) (B ++ rest) (by omega) (by omega) (by rw [hA]; exact hA1) (by show _ ≤ s.mem.next; omega)
  rw [hA] at hld
  have hs0 : (adv s 20).mem.next = s.mem.next := rfl
  rw [hs0] at hst'
  refine ⟨m1, bk, (show Effect s.mem m1 _ from he).mono fun z hz => ?_, fun m2 R hag hR => ⟨fun hn => absurd hl hn, fun _ _ => ?_⟩, fun n hn => ?_⟩
  · obtain ⟨i, h1, h2, h3⟩ := hz
    refine .inr ⟨hl, hh, ?_⟩
    rw [hc, hc']
    exact .array (by omega) (by omega) h3
  · rw [hc, hc']
    refine .array fun i hi hi' => hst' m2 R (fun z hz => hag z ?_) hR i (by omega) (by omega)
    unfold InField
    rw [hext]
    omega
  · simp only [loadDataH, hl', hc']
    have hB1 : Has (doneB (adv s 20) A.length m1 bk) (B ++ rest) := hA1.doneB m1 bk
    have hwr : arrWriter y.2.1 y.2.2 k' b = ⟨none, y.2.2, false, .arr (b + y.2.1.offset) (k' * y.2.2.size) (0 * y.2.2.size)⟩ := by
      simp [arrWriter, hp, strideOf]
    rw [loadContainer, run_bind (bytesRead_has h0), run_bind hrd]
    simp only [hn0]
    rw [if_neg (by rw [hwr, hh]; simp), hwr, run_bind (hld n hn), run_bind (bytesRead_has hB1)]
    have hp0 := h0.1
    have hp2 := h0.2.1
    have hp3 := h0.2.2.1
    simp only [List.length_append, hhl] at hp3 ⊢
    have hleft : (s.pos.toNat + (20 + (A.length + B.length)) + (2 ^ 32 - (doneB (adv s 20) A.length m1 bk).pos.toNat)) % 2 ^ 32 =
        B.length := by
      have : (doneB (adv s 20) A.length m1 bk).pos.toNat = s.pos.toNat + 20 + A.length := by simp only [doneB, adv]; omega
      rw [this]; omega
    rw [hleft]
    have hasint : asInt B.length = B.length := asInt_lt (by omega)
    rw [hasint]
    by_cases hbr : 0 < (B.length : Int) ∧ k ≠ j
    · rw [if_pos hbr, seek_has hB1.left]
      congr 1
      simp only [adv, doneB, St.mk.injEq, true_and, and_true]
      omega
    · rw [if_neg hbr]
      have hB0 : B.length = 0 := by
        by_cases hkk : k = j
        · subst hkk
          rw [← hB]; simp [arrItems, encItems]
        · exact Nat.eq_zero_of_not_pos fun hpos => hbr ⟨by omega, hkk⟩
      rw [run_pure, hB0, doneB_adv]
      congr 1

/-! ### Classes -/

mutual
theorem ownedFields_sizeOf : ∀ (t : Ty) (x : Owned), x ∈ ownedFields t → sizeOf x.2.2 < sizeOf t
  | .cls hh s fl fs bs, x, hx => by
    rw [ownedFields] at hx
    rcases List.mem_append.1 hx with hx | hx
    · obtain ⟨y, hy, rfl⟩ := List.mem_map.1 hx
      have := list_sizeOf fs y hy
      simp; omega
    · have := ownedBases_sizeOf bs x hx
      simp; omega
  | .prim _ _, x, hx => by simp [ownedFields] at hx
  | .enum _ _ _ _, x, hx => by simp [ownedFields] at hx
  | .tmpl _ _ bs, x, hx => by simp [ownedFields] at hx
  | .vec _ _ _ _, x, hx => by simp [ownedFields] at hx
  | .dict _ _ _ _ _, x, hx => by simp [ownedFields] at hx

theorem ownedBases_sizeOf : ∀ (bs : Tys) (x : Owned), x ∈ ownedBases bs → sizeOf x.2.2 < sizeOf bs
  | .nil, x, hx => by simp [ownedBases] at hx
  | .cons t r, x, hx => by
    rw [ownedBases] at hx
    rcases List.mem_append.1 hx with hx | hx
    · have := ownedFields_sizeOf t x hx; simp; omega
    · have := ownedBases_sizeOf r x hx; simp; omega
end

/-- Loading the chunk of a field into an object of the new class. -/
def RoundX (fn fn' : Functions) (e : Env) (m : Mem) (t' : Ty) (a : Nat) (x : Owned) : Prop :=
  SavesF fn e m a x ∧
  (∀ b z, (∃ y ∈ loadableOwned e t', SameName x y ∧ ReachF fn' e x y b z) → ∃ y ∈ loadableOwned e t', SameName x y ∧ InField b y.2 z) ∧
  ∀ (s : St) (rest : Bytes) (b : Nat), Has s (encFieldH fn e m a x ++ rest) → b + t'.size ≤ s.mem.next →
    ∃ m1 bk, Effect s.mem m1 (fun z => ∃ y ∈ loadableOwned e t', SameName x y ∧ ReachF fn' e x y b z) ∧
      (∀ m2 R, (∀ z, (∃ y ∈ loadableOwned e t', SameName x y ∧ InField b y.2 z) ∨ (s.mem.next ≤ z ∧ z < m1.next) → Agree m2 m1 z) →
        (∀ z, s.mem.next ≤ z → z < m1.next → R z) → ∀ y ∈ loadableOwned e t', SameName x y → CarriedF fn' e m m2 R a b x y) ∧
      ∀ n, sizeOf t' + s.data.length + 1 ≤ n →
        loadFieldH fn' e (loadObjectH fn' e n) t' b s = .ok () (doneB s (encFieldH fn e m a x).length m1 bk)

theorem roundX_field {fn fn' : Functions} {e : Env} {m : Mem} {t' : Ty} {a : Nat} {x : Owned} (hb : ClassBases t')
    (hn : (ownedFields t').Pairwise fun x y => ¬ SameName x y)
    (hi : ∀ y ∈ loadableOwned e t', y.2.1.offset + y.2.1.extent y.2.2 ≤ t'.size)
    (hs : SavesF fn e m a x)
    (hf : ∀ y ∈ loadableOwned e t', SameName x y → (fn'.loads y ≠ none ∨ x.2.2.hash = y.2.2.hash) → RoundG fn fn' e m a x y)
    (hc : ∀ y ∈ loadableOwned e t', SameName x y → fn'.loads y = none → x.2.2.hash ≠ y.2.2.hash → y.2.1.count = none) :
    RoundX fn fn' e m t' a x := by
  have huniq : ∀ y ∈ loadableOwned e t', ∀ w ∈ loadableOwned e t', SameName x y → SameName x w → w = y := by
    intro y hy w hw h1 h2
    exact pairwise_unique (f := fun z : Owned => nameHash z.2) hn (List.mem_filter.1 hw).1 (List.mem_filter.1 hy).1 (h2.symm.trans h1)
  refine ⟨hs, ?_, fun s rest b hhas hbn => ?_⟩
  · rintro b z ⟨y, hy, h1, h2⟩
    refine ⟨y, hy, h1, ?_⟩
    refine (hf y hy h1 ?_).2.1 b z h2
    rcases h2 with h2 | h2
    · exact .inl h2.1
    · exact .inr h2.2.1
  have hhas0 := hhas
  rw [encFieldH] at hhas0
  have hck : Has s (encChunk x.2.2.hash (nameHash x.2) (dataH fn e m a x)) := hhas0.left
  obtain ⟨hrc, -⟩ := readChunk_has hck
  have hd : Has (adv s 12) (dataH fn e m a x ++ rest) := by
    have h1 : Has s ((le 4 x.2.2.hash.toNat ++ le 4 (nameHash x.2).toNat ++ le 4 (dataH fn e m a x).length) ++
      (dataH fn e m a x ++ rest)) := by
      simpa [encChunk, List.append_assoc] using hhas0
    have h2 := h1.right
    simpa [length_le] using h2
  have hlen := length_encFieldH fn e m a x
  have hskip : ∀ (_ : ∀ y ∈ loadableOwned e t', SameName x y → fn'.loads y = none ∧ x.2.2.hash ≠ y.2.2.hash)
      (_ : ∀ n, 1 ≤ n → loadFieldH fn' e (loadObjectH fn' e n) t' b s = seekRel (dataH fn e m a x).length (adv s 12)),
      ∃ m1 bk, Effect s.mem m1 (fun z => ∃ y ∈ loadableOwned e t', SameName x y ∧ ReachF fn' e x y b z) ∧
      (∀ m2 R, (∀ z, (∃ y ∈ loadableOwned e t', SameName x y ∧ InField b y.2 z) ∨ (s.mem.next ≤ z ∧ z < m1.next) → Agree m2 m1 z) →
        (∀ z, s.mem.next ≤ z → z < m1.next → R z) → ∀ y ∈ loadableOwned e t', SameName x y → CarriedF fn' e m m2 R a b x y) ∧
      ∀ n, sizeOf t' + s.data.length + 1 ≤ n →
        loadFieldH fn' e (loadObjectH fn' e n) t' b s = .ok () (doneB s (encFieldH fn e m a x).length m1 bk) := by
    intro hno hld
    refine ⟨s.mem, s.back, Effect.refl _ _, fun m2 R _ _ y hy hxy => ?_, fun n hn => ?_⟩
    · obtain ⟨h1, h2⟩ := hno y hy hxy
      exact ⟨fun h => absurd h1 h, fun _ h => absurd h h2⟩
    · rw [hld n (by omega), seek_has hd.left]
      congr 1
      simp only [adv, doneB, hlen, St.mk.injEq, true_and, and_true]
      omega
  have hfind := findOwner_eq (nameHash x.2).toNat t' hb
  simp only [BitVec.ofNat_toNat, BitVec.setWidth_eq] at hfind
  cases hfo : (ownedFields t').find? (fun y => nameHash y.2 == nameHash x.2) with
  | none =>
    rw [hfo] at hfind
    refine hskip (fun y hy hxy => ?_) (fun n _ => ?_)
    · have := List.find?_eq_none.1 hfo y (List.mem_filter.1 hy).1
      exact absurd (show nameHash x.2 = nameHash y.2 from hxy).symm (by simpa using this)
    · rw [loadFieldH, run_bind hrc]
      simp only [hfind]
  | some y =>
    rw [hfo] at hfind
    have hy0 := List.mem_of_find?_eq_some hfo
    have hxy : SameName x y := (show nameHash y.2 = nameHash x.2 by simpa using List.find?_some hfo).symm
    cases hsk : e.skips y.2.1.flags with
    | true =>
      refine hskip (fun w hw hxw => ?_) (fun n _ => ?_)
      · have hwy : w = y := pairwise_unique (f := fun z : Owned => nameHash z.2) hn (List.mem_filter.1 hw).1 hy0 (hxw.symm.trans hxy)
        have := (List.mem_filter.1 hw).2
        rw [hwy, hsk] at this
        cases this
      · rw [loadFieldH, run_bind hrc]
        simp only [hfind, hsk, if_true]
    | false =>
      have hy : y ∈ loadableOwned e t' := List.mem_filter.2 ⟨hy0, by simp [hsk]⟩
      by_cases hor : fn'.loads y ≠ none ∨ x.2.2.hash = y.2.2.hash
      · obtain ⟨-, -, hG⟩ := hf y hy hxy hor
        have hyi := hi y hy
        obtain ⟨m1, bk, he, hst, hld⟩ := hG (adv s 12) rest b hd (by show _ ≤ s.mem.next; omega)
        have he : Effect s.mem m1 _ := he
        refine ⟨m1, bk, he.mono fun z hz => ⟨y, hy, hxy, hz⟩, fun m2 R hag hR w hw hxw => ?_, fun n hn2 => ?_⟩
        · rw [huniq y hy w hw hxy hxw]
          exact hst m2 R (fun z hz => hag z (hz.imp (fun h => ⟨y, hy, hxy, h⟩) id)) hR
        · have hsize := ownedFields_sizeOf t' y hy0
          rw [loadFieldH, run_bind hrc]
          simp only [hfind, hsk, Bool.false_eq_true, if_false]
          rw [hld n (by show _ + s.data.length + 2 ≤ n; omega), doneB_adv, hlen]
      · have hl : fn'.loads y = none := by
          cases h : fn'.loads y with
          | none => rfl
          | some l => exact absurd (.inl (by rw [h]; simp)) hor
        have hne : x.2.2.hash ≠ y.2.2.hash := fun h => hor (.inr h)
        refine hskip (fun w hw hxw => ?_) (fun n hn1 => ?_)
        · rw [huniq y hy w hw hxy hxw]
          exact ⟨hl, hne⟩
        · obtain ⟨n, rfl⟩ : ∃ k, n = k + 1 := ⟨n - 1, by omega⟩
          have hl' : fn'.load y.1 y.2.1 = none := hl
          rw [loadFieldH, run_bind hrc]
          simp only [hfind, hsk, Bool.false_eq_true, if_false, loadDataH, hl', hc y hy hxy hl hne, loadObjectH]
          rw [if_pos fun h => hne (BitVec.eq_of_toNat_eq h)]

theorem class_roundW {fn fn' : Functions} {e : Env} {m : Mem} {t' : Ty}
    (hn' : (ownedFields t').Pairwise fun x y => ¬ SameName x y)
    (hi : ∀ y ∈ loadableOwned e t', y.2.1.offset + y.2.1.extent y.2.2 ≤ t'.size)
    (hap : (loadableOwned e t').Pairwise fun x y => Apart x.2 y.2) (a b : Nat) :
    ∀ (l : List Owned) (s : St) (rest : Bytes), (∀ x ∈ l, RoundX fn fn' e m t' a x) →
      l.Pairwise (fun x y => ¬ SameName x y) → Has s (l.flatMap (encFieldH fn e m a) ++ rest) → b + t'.size ≤ s.mem.next →
      ∃ m1 bk, Effect s.mem m1 (fun z => ∃ x ∈ l, ∃ y ∈ loadableOwned e t', SameName x y ∧ ReachF fn' e x y b z) ∧
        (∀ m2 R, (∀ z, (∃ x ∈ l, ∃ y ∈ loadableOwned e t', SameName x y ∧ InField b y.2 z) ∨ (s.mem.next ≤ z ∧ z < m1.next) → Agree m2 m1 z) →
          (∀ z, s.mem.next ≤ z → z < m1.next → R z) → ∀ x ∈ l, ∀ y ∈ loadableOwned e t', SameName x y → CarriedF fn' e m m2 R a b x y) ∧
        ∀ n k, sizeOf t' + s.data.length + 1 ≤ n → l.length + 1 ≤ k →
          classLoop (loadFieldH fn' e (loadObjectH fn' e n) t' b) (s.pos.toNat + (l.flatMap (encFieldH fn e m a)).length) k s =
            .ok () (doneB s (l.flatMap (encFieldH fn e m a)).length m1 bk) := by
  have hapart : ∀ y ∈ loadableOwned e t', ∀ w ∈ loadableOwned e t', ¬ SameName y w → Apart y.2 w.2 := by
    intro y hy w hw hne
    have h1 : (loadableOwned e t').Pairwise fun x y => Apart x.2 y.2 := hap
    have h2 : ∀ (l : List Owned), l.Pairwise (fun x y => Apart x.2 y.2) → y ∈ l → w ∈ l → Apart y.2 w.2 := by
      intro l
      induction l with
      | nil => intro _ h; cases h
      | cons z l ih =>
        intro hp h1 h2
        rw [List.pairwise_cons] at hp
        rcases List.mem_cons.1 h1 with h1' | h1' <;> rcases List.mem_cons.1 h2 with h2' | h2'
        · exact absurd (show SameName y w by rw [h1', h2']; rfl) hne
        · rw [h1']; exact hp.1 w h2'
        · rw [h2']; exact (hp.1 y h1').symm
        · exact ih hp.2 h1' h2'
    exact h2 _ h1 hy hw
  intro l
  induction l with
  | nil =>
    intro s rest _ _ hhas _
    refine ⟨s.mem, s.back, Effect.refl _ _, by simp, fun n k _ hk => ?_⟩
    obtain ⟨k, rfl⟩ : ∃ j, k = j + 1 := ⟨k - 1, by omega⟩
    rw [classLoop, run_bind (bytesRead_has hhas), if_neg (by simp), run_pure]
    simp [doneB]
  | cons x l ih =>
    intro s rest hr hpw hhas hbn
    rw [List.pairwise_cons] at hpw
    rw [List.flatMap_cons, List.append_assoc] at hhas
    obtain ⟨m2, bk2, he2, hst2, hld2⟩ := (hr x (by simp)).2.2 s _ b hhas hbn
    have hn2 := he2.next
    have hhas2 : Has (doneB s (encFieldH fn e m a x).length m2 bk2) _ := hhas.doneB m2 bk2
    obtain ⟨m1, bk1, he1, hst1, hld1⟩ := ih _ rest (fun y hy => hr y (by simp [hy])) hpw.2 hhas2 (by show _ ≤ m2.next; omega)
    have he1' : Effect m2 m1 (fun z => ∃ x ∈ l, ∃ y ∈ loadableOwned e t', SameName x y ∧ ReachF fn' e x y b z) := he1
    have hst1' : ∀ m3 R, (∀ z, (∃ x ∈ l, ∃ y ∈ loadableOwned e t', SameName x y ∧ InField b y.2 z) ∨ (m2.next ≤ z ∧ z < m1.next) →
        Agree m3 m1 z) → (∀ z, m2.next ≤ z → z < m1.next → R z) → ∀ x ∈ l, ∀ y ∈ loadableOwned e t', SameName x y →
        CarriedF fn' e m m3 R a b x y := hst1
    have hn1 := he1'.next
    have hwithin : ∀ y ∈ loadableOwned e t', ∀ z, InField b y.2 z → z < s.mem.next := by
      intro y hy z hz
      have := hi y hy
      unfold InField at hz
      omega
    refine ⟨m1, bk1, (he2.trans he1').mono fun z hz => ?_, fun m3 R hag hR w hw => ?_, fun n k hfu hk => ?_⟩
    · rcases hz with hz | ⟨w, hw, hz⟩
      · exact ⟨x, by simp, hz⟩
      · exact ⟨w, by simp [hw], hz⟩
    · rcases List.mem_cons.1 hw with hwx | hw'
      · rw [hwx]
        refine hst2 m3 R (fun z hz => ?_) (fun z h1 h2 => hR z h1 (by omega))
        have hz1 : z < m2.next := by
          rcases hz with ⟨y, hy, -, hz⟩ | hz
          · have := hwithin y hy z hz; omega
          · exact hz.2
        refine (hag z ?_).trans (effect_agree he1' hz1 ?_)
        · rcases hz with hz | hz
          · exact .inl ⟨x, by simp, hz⟩
          · exact .inr ⟨hz.1, by omega⟩
        · rintro ⟨v, hv, hzv⟩
          obtain ⟨y2, hy2, hn2', hz2⟩ := (hr v (by simp [hv])).2.1 b z hzv
          rcases hz with ⟨y, hy, hxy, hz⟩ | hz
          · have hne : ¬ SameName y y2 := fun h =>
              hpw.1 v hv ((show nameHash x.2 = nameHash y.2 from hxy).trans (h.trans (show nameHash v.2 = nameHash y2.2 from hn2').symm))
            have hap := hapart y hy y2 hy2 hne
            unfold Apart at hap
            unfold InField at hz hz2
            omega
          · have := hwithin y2 hy2 z hz2; omega
      · refine hst1' m3 R (fun z hz => ?_) (fun z h1 h2 => hR z (by omega) h2) w hw'
        rcases hz with ⟨v, hv, hzv⟩ | hz
        · exact hag z (.inl ⟨v, by simp [hv], hzv⟩)
        · exact hag z (.inr ⟨by omega, hz.2⟩)
    · obtain ⟨k, rfl⟩ : ∃ j, k = j + 1 := ⟨k - 1, by simp at hk; omega⟩
      have hlen := length_encFieldH fn e m a x
      have hpos := hhas.1
      rw [List.flatMap_cons, List.length_append, classLoop, run_bind (bytesRead_has hhas), if_pos (by omega), run_bind (hld2 n hfu)]
      have h3 := hld1 n k hfu (by simpa using hk)
      have h4 : (doneB s (encFieldH fn e m a x).length m2 bk2).pos.toNat = s.pos.toNat + (encFieldH fn e m a x).length := by
        simp only [doneB]; omega
      rw [h4, Nat.add_assoc] at h3
      rw [h3, doneB_doneB]

theorem roundW_object {fn fn' : Functions} {e : Env} {m : Mem} {h : BitVec 32} {z z' : Nat} {fl fl' : BitVec 32} {fs fs' : Flds} {bs bs' : Tys}
    {a : Nat} (hb : ClassBases (.cls h z fl fs bs))
    (hn : (ownedFields (.cls h z fl fs bs)).Pairwise fun x y => ¬ SameName x y)
    (hn' : (ownedFields (.cls h z' fl' fs' bs')).Pairwise fun x y => ¬ SameName x y)
    (hi : ∀ y ∈ loadableOwned e (.cls h z' fl' fs' bs'), y.2.1.offset + y.2.1.extent y.2.2 ≤ z')
    (hap : (loadableOwned e (.cls h z' fl' fs' bs')).Pairwise fun x y => Apart x.2 y.2)
    (hf : ∀ x ∈ keptOwned e (.cls h z fl fs bs), RoundX fn fn' e m (.cls h z' fl' fs' bs') a x) :
    RoundW fn fn' e m (.cls h z fl fs bs) (.cls h z' fl' fs' bs') a := by
  have hsv : ∀ out, saveObjectH fn e m (.cls h z fl fs bs) a out = _ := fun out =>
    (saveClassH_ok _ hb a (fun x hx => (hf x hx).1) out).2
  have henc := encH_of hsv
  have hsp : ∀ b x, (∃ w ∈ keptOwned e (.cls h z fl fs bs), ∃ y ∈ loadableOwned e (.cls h z' fl' fs' bs'), SameName w y ∧
      InField b y.2 x) → Span b z' x := by
    rintro b x ⟨w, hw, y, hy, -, hx⟩
    have := hi y hy
    unfold InField at hx
    exact ⟨by omega, by omega⟩
  rw [RoundW, SavesH, henc]
  refine ⟨hsv, fun hv => absurd (by simp [valueTypeSize, isClass]) hv, fun s rest b ds hhas hsz hbn => ?_, rfl, fun b x hx => ?_⟩
  · have hds : ds = ((keptOwned e (.cls h z fl fs bs)).flatMap (encFieldH fn e m a)).length := by
      rcases hsz with h | ⟨_, _, _, _, h⟩ | ⟨_, _, _, _, _, h⟩
      · exact h
      · cases h
      · cases h
    obtain ⟨m1, bk, he, hst, hld⟩ := class_roundW hn' hi hap a b _ s rest hf (hn.sublist (keptOwned_sublist e _)) hhas hbn
    refine ⟨m1, bk, he.mono ?_, fun m2 R hag hR => ?_, fun n hfu => ?_⟩
    · rintro x ⟨w, hw, y, hy, hwy, hx⟩
      rcases hx with ⟨h1, h2⟩ | ⟨h1, h2, h3⟩
      · exact .function hw hy hwy h1 h2
      · exact .field hw hy hwy h1 h2 h3
    · have hall := hst m2 R (fun x hx => hag x (hx.imp (hsp b x) id)) hR
      exact .object (fun x hx y hy hxy => (hall x hx y hy hxy).1) (fun x hx y hy hxy => (hall x hx y hy hxy).2)
    · obtain ⟨n, rfl⟩ : ∃ k, n = k + 1 := ⟨n - 1, by omega⟩
      rw [loadObjectH_eq rfl]
      simp only [loadBodyH]
      have hle := hhas.left
      have hc := flatMapH_count fn e m a (keptOwned e (.cls h z fl fs bs))
      obtain ⟨h1, h2, h3, -⟩ := hle
      rw [run_bind (bytesRead_has hhas), hds, Nat.mod_eq_of_lt (by omega)]
      exact hld n n (by omega) (by omega)
  · refine hsp b x ?_
    cases hx with
    | function hx hy hn hl hz => exact ⟨_, hx, _, hy, hn, hz⟩
    | field hx hy hn hl hh hz => exact ⟨_, hx, (hf _ hx).2.1 b x ⟨_, hy, hn, .inr ⟨hl, hh, hz⟩⟩⟩

theorem written_savesF {fn : Functions} {e : Env} {m : Mem} {a : Nat} {x : Owned}
    (h : ∃ d, ∀ out, saveDataH fn e m x a out = .ok (out ++ d)) : SavesF fn e m a x := by
  obtain ⟨d, h⟩ := h
  rw [SavesF, dataH_of h]
  exact h

end Clr.VBin
