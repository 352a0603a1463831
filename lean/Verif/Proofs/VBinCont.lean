import Verif.Proofs.VBinDict

/-! Loading what was saved: whole containers. -/
namespace Clr.VBin
open Clr.JSON (Ty Flds Tys Mem FldInfo Const Env strideOf Apart elemAt arrayItems savedField Effect)

theorem enc_pos {e : Env} {m : Mem} {t : Ty} (h : Supported e t) (hv : valueTypeSize t false ≠ 0) (a : Nat) :
    0 < (enc e m t a).length := by
  cases h with
  | prim h s hl => simp [enc, Clr.JSON.read_length]; simp [valueTypeSize, isClass] at hv; simp [Ty.size] at hv; omega
  | enum => simp [enc, length_le]
  | cls => simp [valueTypeSize, isClass] at hv
  | vec => simp [enc, containerHeader, length_le]; omega
  | dict => simp [enc, containerHeader, length_le]; omega

theorem items_count {e : Env} {m : Mem} {t : Ty} (h : Supported e t) (key : Option (Nat → Bytes)) (l : List (Nat × Nat)) :
    l.length ≤ (encItems key (enc e m t) (valueTypeSize t false == 0) l).length := by
  induction l with
  | nil => simp
  | cons kv l ih =>
    obtain ⟨k, v⟩ := kv
    rw [encItems.eq_def]
    simp only [List.length_append, List.length_cons]
    have : 0 < (if valueTypeSize t false == 0 then le 4 (enc e m t v).length else []).length + (enc e m t v).length := by
      by_cases hv : valueTypeSize t false = 0
      · simp [hv, length_le]; omega
      · have := enc_pos (m := m) h hv v; omega
    omega

theorem peekCount_has {s : St} {count : Nat} {key : Option Ty} {t : Ty} {d : Bytes} (hc : count < 2 ^ 32)
    (h : Has s (containerHeader count key t false ++ d)) : peekCount s = .ok count s := by
  have hl := h.len
  simp only [containerHeader, List.append_assoc] at h
  have hlt := h.left
  obtain ⟨h1, h2, h3, h4⟩ := hlt
  rw [length_le] at h3 h4
  have hp : (s.pos % 2 ^ 32).toNat = s.pos.toNat := by omega
  simp only [peekCount]
  rw [hp, if_pos (by omega), if_pos (by omega), h4, unle_le_of_lt (by omega)]

theorem effect_setElems (m : Mem) (b : Nat) (l : List (Nat × Nat)) : Effect m (m.setElems b l) (fun z => z = b) := by
  refine ⟨Nat.le_refl _, fun x _ _ => rfl, fun x _ hx => ?_⟩
  show (if x = b then _ else _) = _
  rw [if_neg hx]

/-- The part both kinds of containers have in common. -/
theorem loadContainer_has {e : Env} {n : Nat} {key key' : Option Ty} {t t' : Ty} {b ds count : Nat} {s : St} {m1 : Mem} {items : Bytes}
    (hs : Supported e t) (hh : t.hash = t'.hash) (hc : count < 2 ^ 32) (hk : ∀ k, key = some k → k.size < 2 ^ 32)
    (hhas : Has s (containerHeader count key t false ++ items))
    (hl : loadItems (loadObject e n) ⟨count, (keyInfo key).1, (keyInfo key).2, t.hash.toNat, valueTypeSize t false⟩ count
      ⟨key', t', false, .cont b⟩ (adv s 20) = .ok () (done (adv s 20) items.length m1)) :
    loadContainer (loadObject e n) ⟨key', t', false, .cont b⟩ ds count s =
      .ok () (done s (containerHeader count key t false ++ items).length m1) := by
  obtain ⟨hrd, hA1⟩ := readHeader_has hc hk (valueTypeSize_lt hs) hhas
  have hfin : Has (done (adv s 20) items.length m1) [] := Has.done (by simpa using hA1) m1
  rw [loadContainer, run_bind (bytesRead_has hhas), run_bind hrd]
  simp only [Nat.lt_irrefl, if_false]
  rw [if_neg (by rw [hh]; simp), run_bind hl, run_bind (bytesRead_has hfin), if_neg (by simp), run_pure, done_adv]
  congr 2
  simp [containerHeader, length_le]
  omega

theorem loads_vec {e : Env} {m : Mem} {t t' : Ty} (h : BitVec 32) (sz sz' : Nat) (hl : Loads e m t t') (hs : Supported e t)
    (hs' : Supported e t') (hh : t.hash = t'.hash) (h0 : 0 < sz') : Loads e m (.vec h sz t false) (.vec h sz' t' false) := by
  intro a b ds s hhas hb hsz
  simp only [Ty.size] at hb
  rw [enc] at hhas ⊢
  have hcnt : (m.elems a).length < 2 ^ 31 := by
    have h1 := hhas.len
    rw [List.length_append] at h1
    have h2 := items_count (m := m) hs none (m.elems a)
    omega
  let s0 : St := { s with mem := s.mem.setElems b [] }
  have hhas0 : Has s0 _ := hhas.mem (s.mem.setElems b [])
  obtain ⟨hrd, hA1⟩ := readHeader_has (key := none) (by omega) (by simp) (valueTypeSize_lt hs) hhas0
  have hb0 : (adv s0 20).mem.elems b = [] := by
    show (if b = b then _ else _) = _
    rw [if_pos rfl]
  obtain ⟨m1, news, he, _, hne, hlen, hg, hld⟩ := cont_items hl hs hs' hh
    ⟨(m.elems a).length, (keyInfo none).1, (keyInfo none).2, t.hash.toNat, valueTypeSize t false⟩ rfl b (m.elems a) (adv s0 20) []
    [] hb0 (by simpa using hA1) (by show b < s.mem.next; omega)
  rw [List.nil_append] at hne
  have he' : Effect s0.mem m1 (fun z => z = b) := he
  have hg' : ∀ i, ∃ mi, i < (m.elems a).length →
      Got e m m1 (fun x => s.mem.next ≤ x ∧ x < m1.next) mi t t' ((m.elems a).getD i (0, 0)).2 (news.getD i (0, 0)).2 := by
    intro i
    by_cases hi : i < (m.elems a).length
    · obtain ⟨_, _, mi, hgi⟩ := hg i hi
      exact ⟨mi, fun _ => hgi⟩
    · exact ⟨m, fun h => absurd h hi⟩
  obtain ⟨ms, hms⟩ := Classical.skolem.mp hg'
  refine ⟨m1, ⟨?_, ?_⟩, fun n hn => ?_⟩
  · refine ((effect_setElems s.mem b []).trans he').mono fun z hz => ?_
    have hz : z = b := hz.elim id id
    subst hz
    exact .vec (Nat.le_refl _) (by omega)
  · refine .vec ms (by rw [hne, hlen]) (fun i hi x h3 h4 => ?_) (fun i hi => ?_)
    · rw [hne] at h3 h4
      obtain ⟨h1, h2, _⟩ := hg i hi
      have h1' : s.mem.next ≤ (news.getD i (0, 0)).2 := h1
      omega
    · rw [hne]
      exact hms i hi
  · obtain ⟨n, rfl⟩ : ∃ k, n = k + 1 := ⟨n - 1, by omega⟩
    have hth : (Ty.vec h sz t false).hash.toNat = (Ty.vec h sz' t' false).hash.toNat := rfl
    rw [loadObject_eq hth]
    show loadBody e (loadObject e n) n (.vec h sz' t' false) b ds s = _
    simp only [loadBody]
    rw [run_bind (peekCount_has (by omega) hhas), run_bind (show store (fun m => m.setElems b []) s = .ok () s0 from rfl)]
    rw [loadContainer_has hs hh (by omega) (by simp) hhas0 (hld n (by simp at hn ⊢; show _ + s.data.length + 2 ≤ n; omega))]
    rfl

theorem loads_dict {e : Env} {m : Mem} {k k' t t' : Ty} (h : BitVec 32) (sz sz' : Nat) (hlk : Loads e m k k') (hl : Loads e m t t')
    (hs : Supported e t) (hs' : Supported e t') (hsk' : Supported e k') (hh : t.hash = t'.hash) (h0 : 0 < sz')
    (hk : k.size < 128) (hk' : k'.size < 128)
    (hp : (∃ h s, k = .prim h s) ∨ (∃ h cs fl, k = .enum h 4 cs fl))
    (hp' : (∃ h s, k' = .prim h s) ∨ (∃ h cs fl, k' = .enum h 4 cs fl)) :
    Loads e m (.dict h sz k t false) (.dict h sz' k' t' false) := by
  intro a b ds s hhas hb hsz
  simp only [Ty.size] at hb
  rw [enc] at hhas ⊢
  have hcnt : (m.elems a).length < 2 ^ 31 := by
    have h1 := hhas.len
    rw [List.length_append] at h1
    have h2 := items_count (m := m) hs (some (enc e m k)) (m.elems a)
    omega
  let s0 : St := { s with mem := s.mem.setElems b [] }
  have hhas0 : Has s0 _ := hhas.mem (s.mem.setElems b [])
  have hks : ∀ k1, some k = some k1 → k1.size < 2 ^ 32 := fun k1 h1 => by cases h1; omega
  obtain ⟨hrd, hA1⟩ := readHeader_has (key := some k) (by omega) hks (valueTypeSize_lt hs) hhas0
  have hb0 : (adv s0 20).mem.elems b = [] := by
    show (if b = b then _ else _) = _
    rw [if_pos rfl]
  obtain ⟨m1, news, he, _, hne, hlen, hg, hld⟩ := dict_items hlk hl hs hs' hsk' hh hp hp' hk'
    ⟨(m.elems a).length, (keyInfo (some k)).1, (keyInfo (some k)).2, t.hash.toNat, valueTypeSize t false⟩ rfl rfl rfl b (m.elems a)
    (adv s0 20) [] [] hb0 (by simpa using hA1) (by show b < s.mem.next; omega)
  rw [List.nil_append] at hne
  have he' : Effect s0.mem m1 (fun z => z = b) := he
  have hg' : ∀ i, ∃ mi, i < (m.elems a).length →
      Got e m m1 (fun x => s.mem.next ≤ x ∧ x < m1.next) mi k k' ((m.elems a).getD i (0, 0)).1 (news.getD i (0, 0)).1 ∧
      Got e m m1 (fun x => s.mem.next ≤ x ∧ x < m1.next) mi t t' ((m.elems a).getD i (0, 0)).2 (news.getD i (0, 0)).2 := by
    intro i
    by_cases hi : i < (m.elems a).length
    · obtain ⟨_, _, _, _, mi, hgi⟩ := hg i hi
      exact ⟨mi, fun _ => hgi⟩
    · exact ⟨m, fun h => absurd h hi⟩
  obtain ⟨ms, hms⟩ := Classical.skolem.mp hg'
  refine ⟨m1, ⟨?_, ?_⟩, fun n hn => ?_⟩
  · refine ((effect_setElems s.mem b []).trans he').mono fun z hz => ?_
    have hz : z = b := hz.elim id id
    subst hz
    exact .dict (Nat.le_refl _) (by omega)
  · refine .dict ms (by rw [hne, hlen]) (fun i hi x h3 h4 => ?_) (fun i hi => ?_) (fun i hi x h3 h4 => ?_) (fun i hi => ?_)
    · rw [hne] at h3 h4
      obtain ⟨h1, h2, _⟩ := hg i hi
      have h1' : s.mem.next ≤ (news.getD i (0, 0)).1 := h1
      omega
    · rw [hne]
      exact (hms i hi).1
    · rw [hne] at h3 h4
      obtain ⟨_, _, h1, h2, _⟩ := hg i hi
      have h1' : s.mem.next ≤ (news.getD i (0, 0)).2 := h1
      omega
    · rw [hne]
      exact (hms i hi).2
  · obtain ⟨n, rfl⟩ : ∃ k, n = k + 1 := ⟨n - 1, by omega⟩
    have hth : (Ty.dict h sz k t false).hash.toNat = (Ty.dict h sz' k' t' false).hash.toNat := rfl
    rw [loadObject_eq hth]
    show loadBody e (loadObject e n) n (.dict h sz' k' t' false) b ds s = _
    simp only [loadBody]
    rw [run_bind (peekCount_has (by omega) hhas), run_bind (show store (fun m => m.setElems b []) s = .ok () s0 from rfl)]
    rw [loadContainer_has hs hh (by omega) hks hhas0 (hld n (by simp at hn ⊢; show _ + s.data.length + 2 ≤ n; omega))]
    rfl

end Clr.VBin
