import Verif.Proofs.VBinRound

/-! Loading what was saved: dictionaries. -/
namespace Clr.VBin
open Clr.JSON (Ty Flds Tys Mem FldInfo Const Env strideOf Apart elemAt arrayItems savedField Effect)

theorem key_moved {e : Env} {m mk m1 mk0 ms : Mem} {R R1 : Nat → Prop} {k k' : Ty} {ko kd kn : Nat}
    (hp : (∃ h s, k' = .prim h s) ∨ (∃ h cs fl, k' = .enum h 4 cs fl)) (hg : Got e m mk R mk0 k k' ko kd)
    (hr : m1.read kn k'.size = mk.read kd k'.size) (hms : ms.read kn k'.size = m1.read kn k'.size) :
    Got e m m1 R1 ms k k' ko kn := by
  cases hg with
  | prim hv => exact .prim (hr.trans hv)
  | resized hne hv => exact .resized hne hms.symm
  | enum hv hn =>
    refine .enum (fun v hv' => ?_) (fun _ => hms.symm)
    have hr' : m1.read kn 4 = mk.read kd 4 := hr
    rw [enumAt, hr']
    exact hv v hv'
  | cls => simp at hp
  | vec => simp at hp
  | dict => simp at hp

theorem sizeOk_key {e : Env} {m : Mem} {k : Ty} (hp : (∃ h s, k = .prim h s) ∨ (∃ h cs fl, k = .enum h 4 cs fl)) (a : Nat) :
    SizeOk k (enc e m k a).length k.size := by
  rcases hp with ⟨h, s, rfl⟩ | ⟨h, cs, fl, rfl⟩
  · left; simp [Ty.size, enc, Clr.JSON.read_length]
  · left; simp [Ty.size, enc, length_le]

theorem read_write_other (m : Mem) (a n b : Nat) (bs : Bytes) (h : b + bs.length ≤ a ∨ a + n ≤ b) :
    (m.write b bs).read a n = m.read a n := by
  refine Clr.JSON.read_congr fun x h1 h2 => ?_
  exact (Clr.JSON.effect_write { m with next := x + 1 } b bs).byte x (Nat.lt_succ_self x) (by omega)

/-- Memory after `AddEmpty(key)`. -/
theorem addKey_facts {mk : Mem} {b kd : Nat} {k' t' : Ty} (hb : b < mk.next) (hkd : kd + k'.size ≤ mk.next) :
    ∃ sm : Mem, Clr.JSON.addKey mk b kd k' t' false = (mk.next + k'.size, sm) ∧
      sm.next = mk.next + k'.size + t'.size ∧ (∀ x, x < mk.next → sm.byte x = mk.byte x) ∧
      (∀ x, x < mk.next → x ≠ b → sm.elems x = mk.elems x) ∧
      sm.elems b = mk.elems b ++ [(mk.next, mk.next + k'.size)] ∧ sm.read mk.next k'.size = mk.read kd k'.size := by
  refine ⟨_, rfl, rfl, fun x hx => ?_, fun x hx hxb => ?_, ?_, ?_⟩
  · show (if mk.next ≤ x then _ else mk.byte x) = mk.byte x
    rw [if_neg (by omega)]
  · show (if x = b then _ else _) = _
    rw [if_neg hxb]
    show (if _ then _ else if _ then _ else _) = _
    rw [if_neg (by simp only [Mem.alloc]; omega), if_neg (by omega)]
  · show (if b = b then _ else _) = _
    rw [if_pos rfl]
    rfl
  · have hlen : (mk.read kd k'.size).length = k'.size := Clr.JSON.read_length _ _ _
    have := Clr.JSON.read_write ((mk.alloc k'.size).2.alloc t'.size).2 mk.next (mk.read kd k'.size)
    rw [hlen] at this
    refine Eq.trans (b := (((mk.alloc k'.size).2.alloc t'.size).2.write mk.next (mk.read kd k'.size)).read mk.next k'.size) ?_ this
    exact Clr.JSON.read_congr (fun x _ _ => rfl)

theorem addKeyed_eq {lo : LoadObj} {h : Header} {k t : Ty} {b : Nat} {s s1 : St} (hk : k.size < 128)
    (hl : lo k s.mem.next h.keySize h.keyHash { s with mem := (s.mem.alloc 128).2 } = .ok () s1) :
    addElem lo h ⟨some k, t, false, .cont b⟩ s =
      .ok ((Clr.JSON.addKey s1.mem b s.mem.next k t false).1, ⟨some k, t, false, .cont b⟩)
        { s1 with mem := (Clr.JSON.addKey s1.mem b s.mem.next k t false).2 } := by
  unfold addElem addKeyed
  dsimp only
  rw [if_pos hk, run_bind (show keyData s = .ok s.mem.next { s with mem := (s.mem.alloc 128).2 } from rfl), run_bind hl]
  rfl

theorem dict_items {e : Env} {m : Mem} {k k' t t' : Ty} (hlk : Loads e m k k') (hl : Loads e m t t')
    (hs : Supported e t) (hs' : Supported e t') (hsk' : Supported e k') (hh : t.hash = t'.hash)
    (hp : (∃ h s, k = .prim h s) ∨ (∃ h cs fl, k = .enum h 4 cs fl))
    (hp' : (∃ h s, k' = .prim h s) ∨ (∃ h cs fl, k' = .enum h 4 cs fl)) (hk128 : k'.size < 128) (h : Header)
    (hv : h.valueSize = valueTypeSize t false) (hks : h.keySize = k.size) (hkh : h.keyHash = k.hash.toNat) (b : Nat) :
    ∀ (l : List (Nat × Nat)) (s : St) (rest : Bytes) (old : List (Nat × Nat)), s.mem.elems b = old →
      Has s (encItems (some (enc e m k)) (enc e m t) (valueTypeSize t false == 0) l ++ rest) → b < s.mem.next →
      ∃ m1 news, Effect s.mem m1 (fun z => z = b) ∧ m1.byte b = s.mem.byte b ∧ m1.elems b = old ++ news ∧
        news.length = l.length ∧
        (∀ i, i < l.length → s.mem.next ≤ (news.getD i (0, 0)).1 ∧ (news.getD i (0, 0)).1 + k'.size ≤ m1.next ∧
          s.mem.next ≤ (news.getD i (0, 0)).2 ∧ (news.getD i (0, 0)).2 + t'.size ≤ m1.next ∧
          ∃ mi, Got e m m1 (fun x => s.mem.next ≤ x ∧ x < m1.next) mi k k' (l.getD i (0, 0)).1 (news.getD i (0, 0)).1 ∧
            Got e m m1 (fun x => s.mem.next ≤ x ∧ x < m1.next) mi t t' (l.getD i (0, 0)).2 (news.getD i (0, 0)).2) ∧
        ∀ n, sizeOf k' + sizeOf t' + s.data.length + 2 ≤ n →
          loadItems (loadObject e n) h l.length ⟨some k', t', false, .cont b⟩ s =
            .ok () (done s (encItems (some (enc e m k)) (enc e m t) (valueTypeSize t false == 0) l).length m1) := by
  intro l
  induction l with
  | nil =>
    intro s rest old hold _ _
    refine ⟨s.mem, [], Effect.refl _ _, rfl, by simp [hold], rfl, by simp, fun n _ => ?_⟩
    simp [loadItems, run_pure, encItems, done]
  | cons kv l ih =>
    obtain ⟨ko, v⟩ := kv
    intro s rest old hold hhas hb
    rw [encItems, List.append_assoc, List.append_assoc] at hhas
    -- the key
    let kdm : Mem := (s.mem.alloc 128).2
    have hkdn : kdm.next = s.mem.next + 128 := rfl
    have hhas0 : Has { s with mem := kdm } _ := hhas.mem kdm
    obtain ⟨mk, hlk1, hlk2⟩ := hlk ko s.mem.next h.keySize { s with mem := kdm } hhas0.left
      (by show _ ≤ kdm.next; omega) (by rw [hks]; exact sizeOk_key hp ko)
    have heffk : Effect kdm mk (Shared e k k' s.mem.next) := hlk1.eff
    have hnk := heffk.next
    have hnsk : ∀ x, x < s.mem.next → ¬ Shared e k k' s.mem.next x := fun x hx hsh => by
      have := shared_within hsh hsk'
      omega
    have hmkb : mk.elems b = old := by
      rw [heffk.elems b (by omega) (hnsk b hb), ← hold]; exact elems_alloc hb
    -- the new element
    obtain ⟨sm, hsm, hsmn, hsmb, hsme, hsmeb, hsmk⟩ := addKey_facts (mk := mk) (b := b) (kd := s.mem.next) (k' := k') (t' := t')
      (by omega) (by omega)
    have hhas1 : Has { done s (enc e m k ko).length sm with mem := sm } _ := hhas.done sm
    have hhas1' : Has (done s (enc e m k ko).length sm)
        (((if valueTypeSize t false == 0 then le 4 (enc e m t v).length else []) ++ enc e m t v) ++
          (encItems (some (enc e m k)) (enc e m t) (valueTypeSize t false == 0) l ++ rest)) := by
      exact hhas1
    -- its value
    obtain ⟨m2, k1, ds, hld, hlen, hsize, hlo⟩ := elem_load (b := mk.next + k'.size) (s := done s (enc e m k ko).length sm)
      (rest := encItems (some (enc e m k)) (enc e m t) (valueTypeSize t false == 0) l ++ rest) hl hs
      hhas1' (by show _ ≤ sm.next; omega)
    have heff : Effect sm m2 (Shared e t t' (mk.next + k'.size)) := hld.eff
    have hnx := heff.next
    have hns : ∀ x, x < mk.next + k'.size → ¬ Shared e t t' (mk.next + k'.size) x := fun x hx hsh => by
      have := shared_within hsh hs'
      omega
    have hm2b : m2.elems b = old ++ [(mk.next, mk.next + k'.size)] := by
      rw [heff.elems b (by omega) (hns b (by omega)), hsmeb, hmkb]
    have hhas2 : Has (done (done s (enc e m k ko).length sm) _ m2) _ := hhas1'.done m2
    obtain ⟨m1, news, e1, b1, n1, len1, g1, l1⟩ := ih _ rest _ hm2b hhas2 (by show b < m2.next; omega)
    have e1' : Effect m2 m1 (fun z => z = b) := e1
    have b1' : m1.byte b = m2.byte b := b1
    have hnx1 : m2.next ≤ m1.next := e1'.next
    have hbyte : ∀ x, x < s.mem.next → m2.byte x = s.mem.byte x := by
      intro x hx
      rw [heff.byte x (by omega) (hns x (by omega)), hsmb x (by omega), heffk.byte x (by omega) (hnsk x hx)]
      rfl
    refine ⟨m1, (mk.next, mk.next + k'.size) :: news, ⟨by omega, ?_, ?_⟩, ?_, by rw [n1]; simp, by simp [len1], ?_, ?_⟩
    · intro x hx hxb
      rw [e1'.byte x (by omega) hxb, hbyte x hx]
    · intro x hx hxb
      rw [e1'.elems x (by omega) hxb, heff.elems x (by omega) (hns x (by omega)), hsme x (by omega) hxb,
        heffk.elems x (by omega) (hnsk x hx)]
      exact elems_alloc hx
    · rw [b1', hbyte b hb]
    · intro i hi
      cases i with
      | zero =>
        simp only [List.getD_cons_zero]
        refine ⟨by omega, by omega, by omega, by omega, sm, ?_, ?_⟩
        · have hsame : m1.read mk.next k'.size = sm.read mk.next k'.size := by
            refine Clr.JSON.read_congr fun x h1 h2 => ?_
            rw [e1'.byte x (by omega) (by omega), heff.byte x (by omega) (hns x (by omega))]
          exact key_moved hp' hlk1.got (hsame.trans hsmk) hsame.symm
        · have hg : Got e m m2 (fun x => sm.next ≤ x ∧ x < m2.next) sm t t' v (mk.next + k'.size) := hld.got
          refine got_congr hg hs' (fun _ _ _ => rfl) (fun x hx => ?_) (fun x hx => ⟨by have := hx.1; omega, by have := hx.2; omega⟩)
          have hx1 : s.mem.next ≤ x ∧ x < m2.next := by
            rcases hx with hx | hx
            · omega
            · have := hx.1; have := hx.2; omega
          exact ⟨e1'.byte x hx1.2 (by omega), e1'.elems x hx1.2 (by omega)⟩
      | succ i =>
        simp only [List.getD_cons_succ]
        obtain ⟨h1, h2, h3, h4, mi, hg1, hg2⟩ := g1 i (by simpa using hi)
        have h1' : m2.next ≤ (news.getD i (0, 0)).1 := h1
        have h3' : m2.next ≤ (news.getD i (0, 0)).2 := h3
        have hR : ∀ x, m2.next ≤ x ∧ x < m1.next → s.mem.next ≤ x ∧ x < m1.next := fun x hx => ⟨by omega, hx.2⟩
        exact ⟨by omega, h2, by omega, h4, mi, got_congr hg1 hsk' (fun _ _ _ => rfl) (fun _ _ => ⟨rfl, rfl⟩) hR,
          got_congr hg2 hs' (fun _ _ _ => rfl) (fun _ _ => ⟨rfl, rfl⟩) hR⟩
    · intro n hn
      rw [List.length_cons, loadItems, encItems]
      have hkld := hlk2 n (by show _ + s.data.length + 2 ≤ n; omega)
      rw [← hkh] at hkld
      have hadd : addElem (loadObject e n) h ⟨some k', t', false, .cont b⟩ s =
          .ok (mk.next + k'.size, ⟨some k', t', false, .cont b⟩) (done s (enc e m k ko).length sm) := by
        rw [addKeyed_eq hk128 hkld]
        have hsm' : Clr.JSON.addKey (done { s with mem := kdm } (enc e m k ko).length mk).mem b s.mem.next k' t' false =
          (mk.next + k'.size, sm) := hsm
        rw [hsm']
        rfl
      rw [run_bind hadd, hv, run_bind hsize]
      have := hlo n (by show _ + s.data.length + 2 ≤ n; omega)
      rw [hh] at this
      rw [run_bind (loadValue_eq this), done_adv, hlen]
      have hl1 := l1 n hn
      rw [hl1, done_done, done_done]
      congr 2
      simp only [List.length_append]
      omega

end Clr.VBin
