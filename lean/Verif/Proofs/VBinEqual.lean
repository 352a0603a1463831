import Verif.Proofs.VBinClass

/-! The same type on both sides. -/
namespace Clr.VBin
open Clr.JSON (Ty Flds Tys Mem FldInfo Const Env strideOf Apart elemAt arrayItems savedField Effect)

theorem versions_refl {e : Env} {t : Ty} (h : Supported e t) : Versions e t t := by
  induction h with
  | prim h s hl => exact .prim h s s
  | enum h cs fl hz => exact .enum h cs cs fl fl
  | cls h s fl fs bs bases names plain types inside apart ih =>
    have huni : ∀ x ∈ (Ty.cls h s fl fs bs).savedFields e, ∀ y ∈ loadFields e (.cls h s fl fs bs), nameHash x = nameHash y →
        x = y := fun x hx y hy hn =>
      pairwise_unique names (mem_loadFields.1 (saved_load hx)).1 (mem_loadFields.1 hy).1 hn
    refine .cls h s s fl fl fs fs bs bs (fun x hx y hy hn => ?_) (fun x hx y hy hn _ => ?_)
    · rw [huni x hx y hy hn]
      exact ⟨rfl, fun _ => rfl⟩
    · rw [huni x hx y hy hn]
      exact ih y hy
  | vec h s t hs hl ht ih => exact .vec h s s t t ih
  | dict h s k t hs hl hk ht hkl hp ihk ih => exact .dict h s s k k t t ihk ih

theorem find_self {cs : List Const} (hd : cs.Pairwise fun x y => Hash.hashText x.name ≠ Hash.hashText y.name) {c : Const}
    (hc : c ∈ cs) : cs.find? (fun c' => Hash.hashText c'.name == Hash.hashText c.name) = some c := by
  cases hf : cs.find? (fun c' => Hash.hashText c'.name == Hash.hashText c.name) with
  | none =>
    have := List.find?_eq_none.1 hf c hc
    simp at this
  | some c' =>
    have h1 : c' ∈ cs := List.mem_of_find?_eq_some hf
    have h2 : Hash.hashText c'.name = Hash.hashText c.name := by simpa using List.find?_some hf
    rw [pairwise_unique (f := fun c : Const => Hash.hashText c.name) hd h1 hc h2]

theorem enumValue_self {cs : List Const} {v : BitVec 32} (hv : ∃ c ∈ cs, c.value = v)
    (hd : cs.Pairwise fun x y => Hash.hashText x.name ≠ Hash.hashText y.name) : enumValue cs cs v = some v := by
  obtain ⟨c, hc, hcv⟩ := hv
  cases hf : cs.find? (fun c => c.value == v) with
  | none =>
    have := List.find?_eq_none.1 hf c hc
    simp [hcv] at this
  | some c' =>
    have h1 : c' ∈ cs := List.mem_of_find?_eq_some hf
    have h2 : c'.value = v := by simpa using List.find?_some hf
    simp only [enumValue, hf, find_self hd h1, Option.map_some, h2]

theorem enumAt_read {m m' : Mem} {a b : Nat} (h : enumAt m' b = enumAt m a) : m'.read b 4 = m.read a 4 := by
  have hl : ∀ (m : Mem) (a : Nat), unle (m.read a 4) < 2 ^ 32 := fun m a => by
    have := unle_lt (m.read a 4)
    rwa [Clr.JSON.read_length] at this
  have h1 : unle (m'.read b 4) = unle (m.read a 4) := by
    have := congrArg BitVec.toNat h
    simp only [enumAt, BitVec.toNat_ofNat] at this
    rw [Nat.mod_eq_of_lt (hl _ _), Nat.mod_eq_of_lt (hl _ _)] at this
    exact this
  have h2 : le 4 (unle (m'.read b 4)) = le 4 (unle (m.read a 4)) := by rw [h1]
  have h3 : ∀ (m : Mem) (a : Nat), le 4 (unle (m.read a 4)) = m.read a 4 := fun m a => by
    have := le_unle (m.read a 4)
    rwa [Clr.JSON.read_length] at this
  rwa [h3, h3] at h2

theorem equal_of_got {e : Env} {m m' : Mem} {R : Nat → Prop} {m0 : Mem} {t : Ty} {a b : Nat} (hs : Supported e t)
    (hn : EnumsNamed e m t a) (hg : Got e m m' R m0 t t a b) : Equal e m m' t a b := by
  induction hs generalizing a b m0 with
  | prim h s hl =>
    cases hg with
    | prim hv => exact .prim hv
    | resized hne _ => exact absurd rfl hne
  | enum h cs fl hz =>
    cases hg with
    | enum hv _ =>
      cases hn with
      | enum h1 h2 => exact .enum (enumAt_read (hv _ (enumValue_self h1 h2)))
  | cls h s fl fs bs bases names plain types inside apart ih =>
    cases hg with
    | cls one arr =>
      cases hn with
      | cls none' narr =>
        refine .cls (fun x hx hc => ?_) (fun x hx n hc i hi => ?_)
        · exact ih x (saved_load hx) (none' x hx hc) (one x hx x (saved_load hx) rfl rfl hc hc)
        · exact ih x (saved_load hx) (narr x hx n hc i hi) (arr x hx x (saved_load hx) rfl rfl n n hc hc i hi hi)
  | vec h s t hs hl ht ih =>
    cases hg with
    | vec ms len fresh elems =>
      cases hn with
      | vec nel => exact .vec len fun i hi => ih (nel i hi) (elems i hi)
  | dict h s k t hs hl hk ht hkl hp ihk ih =>
    cases hg with
    | dict ms len fk keys fresh elems =>
      cases hn with
      | dict nk nel => exact .dict len (fun i hi => ihk (nk i hi) (keys i hi)) fun i hi => ih (nel i hi) (elems i hi)

/-- Loading what was saved, from the top. -/
theorem load_saved {e : Env} {m : Mem} {t t' : Ty} (hv : Versions e t t') (hs : Supported e t) (hs' : Supported e t')
    (a b : Nat) (m0 : Mem) (hb : b + t'.size ≤ m0.next) (before after : Bytes)
    (hlen : (before ++ encChunk t.hash 0 (enc e m t a) ++ after).length < 2 ^ 31) :
    ∃ m1, Loaded e m t t' a b m0 m1 ∧
      Returns (fun n => load e n t' b ⟨before ++ encChunk t.hash 0 (enc e m t a) ++ after, before.length, m0, false⟩)
        (.ok () ⟨before ++ encChunk t.hash 0 (enc e m t a) ++ after,
          ((before ++ encChunk t.hash 0 (enc e m t a)).length : Nat), m1, false⟩) := by
  generalize hd : before ++ encChunk t.hash 0 (enc e m t a) ++ after = data at hlen
  have hhas : Has ⟨data, before.length, m0, false⟩ (encChunk t.hash 0 (enc e m t a) ++ after) := by
    refine ⟨by simp, hlen, ?_, ?_⟩
    · simp [← hd]
    · show List.take _ (List.drop before.length data) = _
      rw [← hd, List.append_assoc, List.drop_left, List.take_length]
  obtain ⟨hrd, hc⟩ := cell_len hhas
  obtain ⟨m1, h1, h2⟩ := loads_of_versions hv hs hs' a b _ _ hc.left hb (.inl rfl)
  refine ⟨m1, h1, sizeOf t' + data.length + 2, fun n hn => ?_⟩
  show load e n t' b _ = _
  rw [load, run_bind hrd, h2 n hn, done_adv]
  congr 1
  simp only [done, List.length_append]
  congr 1
  simp [encChunk, length_le]
  omega

end Clr.VBin
