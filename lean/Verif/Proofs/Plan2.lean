import Verif.Proofs.Plan
import Verif.Proofs.Link2
import Verif.Proofs.Image2
import Verif.Props.Export
/-
Lemmas for C85: the pieces of memory of an exported database and what they are for.
-/
namespace Clr.Image
open Clr Clr.Reloc Clr.Layout
open Clr.Export (K Slot Ref Ptr St Exportable exportDB copied scopesBuilt final_of)
attribute [local irreducible] DB.hashOf

/-- The size of the memory for an area. -/
def expected (db : DB.Database) (S F : St) : Area → Nat
  | .header => databaseMem.lay.size
  | .nameText => textBytes (db.names.map (·.text))
  | .names => db.names.length * name.lay.size
  | .table k => (Export.rows db k).length * stride k
  | .attributeText => textBytes (db.textAttributes.map (·.value))
  | .typePrims => ((Export.rows db .type).length + (Export.rows db .cls).length + (Export.rows db .enum).length +
     (Export.rows db .instance).length) * 8
  | .globals s => (F.globals s).length * 8
  | .kids r s => if s = .bases then ((F.get r).kids s).length * 8 else ((S.get r).kids s).length * 8

theorem mem_scopePieces {S : St} {pk : K} {slot : Slot} {keys : Nat → UInt32} {q : Piece} :
    q ∈ scopePieces S pk slot keys ↔ ∃ i, i < S.count pk ∧ ((S.get (pk, i)).kids slot).length ≠ 0 ∧
      q = ⟨some (.kids (pk, i) slot), ((S.get (pk, i)).kids slot).length, 8, true⟩ := by
  unfold scopePieces
  rw [List.mem_filterMap]
  constructor
  · rintro ⟨i, hi, h⟩
    rw [List.mem_mergeSort, List.mem_range] at hi
    split at h
    · cases h
    · next e =>
      injection h with h
      exact ⟨i, hi, e, h.symm⟩
  · rintro ⟨i, hi, e, rfl⟩
    exact ⟨i, by rw [List.mem_mergeSort, List.mem_range]; exact hi, by rw [if_neg e]⟩

theorem mem_treePieces {S : St} {fks : List UInt32} {q : Piece} : q ∈ treePieces S fks ↔
    q = ⟨none, (Export.allAttributes S).length, 8, true⟩ ∨
    ∃ pk slot, ((∃ ck, (pk, slot, ck) ∈ Export.hierarchy) ∨ (pk ∈ attributeScopes ∧ slot = .attributes)) ∧
      ∃ i, i < S.count pk ∧ ((S.get (pk, i)).kids slot).length ≠ 0 ∧
        q = ⟨some (.kids (pk, i) slot), ((S.get (pk, i)).kids slot).length, 8, true⟩ := by
  unfold treePieces
  rw [List.mem_append, List.mem_append, List.mem_flatMap, List.mem_singleton, List.mem_flatMap]
  constructor
  · rintro ((⟨⟨pk, slot, ck⟩, hh, h⟩ | h) | ⟨k, hk, h⟩)
    · exact .inr ⟨pk, slot, .inl ⟨ck, hh⟩, mem_scopePieces.1 h⟩
    · exact .inl h
    · exact .inr ⟨k, .attributes, .inr ⟨hk, rfl⟩, mem_scopePieces.1 h⟩
  · rintro (h | ⟨pk, slot, ⟨ck, hh⟩ | ⟨hk, rfl⟩, h⟩)
    · exact .inl (.inr h)
    · exact .inl (.inl ⟨(pk, slot, ck), hh, mem_scopePieces.2 h⟩)
    · exact .inr ⟨pk, hk, mem_scopePieces.2 h⟩

theorem mem_basePieces {F : St} {q : Piece} : q ∈ basePieces F ↔ ∃ r : Ref, r.1 ∈ [K.type, .enum, .cls, .instance] ∧
    r.2 < F.count r.1 ∧ ((F.get r).kids .bases).length ≠ 0 ∧
      q = ⟨some (.kids r .bases), ((F.get r).kids .bases).length, 8, true⟩ := by
  unfold basePieces
  rw [List.mem_flatMap]
  constructor
  · rintro ⟨k, hk, h⟩
    rw [List.mem_filterMap] at h
    obtain ⟨r, hr, h⟩ := h
    obtain ⟨e, hr⟩ := mem_all.1 hr
    split at h
    · cases h
    · next e2 =>
      injection h with h
      exact ⟨r, by rw [e]; exact hk, by rw [e]; exact hr, e2, h.symm⟩
  · rintro ⟨r, hk, hr, e, rfl⟩
    refine ⟨r.1, hk, ?_⟩
    rw [List.mem_filterMap]
    exact ⟨r, mem_all.2 ⟨rfl, hr⟩, by rw [if_neg e]⟩

theorem hierarchy_slot {pk : K} {slot : Slot} (h : (∃ ck, (pk, slot, ck) ∈ Export.hierarchy) ∨ (pk ∈ attributeScopes ∧ slot = .attributes)) :
    slot ≠ .bases := by
  rcases h with ⟨ck, h⟩ | ⟨_, rfl⟩
  · have : ∀ x ∈ Export.hierarchy, x.2.1 ≠ .bases := by decide
    exact this _ h
  · decide

theorem piece_size {db : DB.Database} {S F : St} {fks : List UInt32} {q : Piece} (hq : q ∈ pieces db S F fks) {a : Area}
    (hu : q.use = some a) : q.size = expected db S F a := by
  unfold pieces at hq
  rw [List.mem_append, List.mem_append, List.mem_append] at hq
  rcases hq with ((hq | hq) | hq) | hq
  · unfold fixedPieces at hq
    simp only [List.cons_append, List.nil_append, List.mem_cons, List.mem_append, List.mem_map, List.not_mem_nil, or_false] at hq
    rcases hq with rfl | rfl | rfl | ⟨k, _, rfl⟩ | rfl | rfl
    all_goals
      injection hu with hu
      subst hu
      unfold Piece.size expected
      simp
  · rcases mem_treePieces.1 hq with rfl | ⟨pk, slot, hs, i, _, _, rfl⟩
    · cases hu
    · injection hu with hu
      subst hu
      show _ = if slot = .bases then _ else _
      rw [if_neg (hierarchy_slot hs)]
      rfl
  · unfold globalPieces at hq
    rw [List.mem_map] at hq
    obtain ⟨s, _, rfl⟩ := hq
    injection hu with hu
    subst hu
    rfl
  · obtain ⟨r, _, _, _, rfl⟩ := mem_basePieces.1 hq
    injection hu with hu
    subst hu
    rfl

theorem size_expected {db : DB.Database} {S F : St} {fks : List UInt32} {a : Area} {o : Nat}
    (h : offsetIn (pieces db S F fks) a = some o) : sizeIn (pieces db S F fks) a = expected db S F a :=
  size_of (some_offset h) fun _ hp hu => piece_size hp hu

/-- The areas that are there before the scopes are built. -/
def fixedArea : Area → Bool
  | .globals _ => false
  | .kids _ _ => false
  | _ => true

theorem fixed_piece (db : DB.Database) {a : Area} (ha : fixedArea a = true) : ∃ p ∈ fixedPieces db, p.use = some a := by
  unfold fixedPieces
  cases a with
  | table k =>
    refine ⟨⟨some (.table k), (Export.rows db k).length, stride k, true⟩, ?_, rfl⟩
    have : k ∈ tableOrder := by cases k <;> decide
    exact List.mem_append_left _ (List.mem_append_right _ (List.mem_map_of_mem this))
  | globals s => cases ha
  | kids r s => cases ha
  | header => exact ⟨⟨some .header, 1, databaseMem.lay.size, true⟩, by simp, rfl⟩
  | names => exact ⟨⟨some .names, db.names.length, name.lay.size, true⟩, by simp, rfl⟩
  | nameText => exact ⟨⟨some .nameText, textBytes (db.names.map (·.text)), 1, false⟩, by simp, rfl⟩
  | attributeText => exact ⟨⟨some .attributeText, textBytes (db.textAttributes.map (·.value)), 1, false⟩, by simp, rfl⟩
  | typePrims =>
    exact ⟨⟨some .typePrims, (Export.rows db .type).length + (Export.rows db .cls).length + (Export.rows db .enum).length +
      (Export.rows db .instance).length, 8, true⟩, by simp, rfl⟩

theorem fixed_offset (db : DB.Database) {a : Area} (ha : fixedArea a = true) : ∃ o, offsetIn (fixedPieces db) a = some o :=
  offset_some (fixed_piece db ha)

theorem fixed_whole (db : DB.Database) (S F : St) (fks : List UInt32) {a : Area} (ha : fixedArea a = true) :
    offsetIn (pieces db S F fks) a = offsetIn (fixedPieces db) a := by
  obtain ⟨o, ho⟩ := fixed_offset db ha
  unfold pieces
  rw [List.append_assoc, List.append_assoc, offset_append_left ho, ho]

theorem fixed_getD (db : DB.Database) (S F : St) (fks : List UInt32) {a : Area} (ha : fixedArea a = true) :
    offsetIn (pieces db S F fks) a = some ((offsetIn (pieces db S F fks) a).getD 0) := by
  rw [fixed_whole db S F fks ha]
  obtain ⟨o, ho⟩ := fixed_offset db ha
  rw [ho]
  rfl

theorem header_first (db : DB.Database) (S F : St) (fks : List UInt32) : offsetIn (pieces db S F fks) .header = some 0 := by
  rw [fixed_whole db S F fks rfl]
  rfl

/-! ### Arrays only get shorter -/

theorem nodup_le {α : Type} [DecidableEq α] {a b : List α} (ha : a.Nodup) (h : ∀ x ∈ a, x ∈ b) : a.length ≤ b.length := by
  induction a generalizing b with
  | nil => simp
  | cons x a ih =>
    rw [List.nodup_cons] at ha
    have hx := h x (by simp)
    have := ih ha.2 (b := b.erase x) (by
      intro y hy
      refine (List.mem_erase_of_ne ?_).2 (h y (List.mem_cons_of_mem _ hy))
      rintro rfl
      exact ha.1 hy)
    rw [List.length_erase_of_mem hx] at this
    have : b.length ≠ 0 := by
      intro e
      rw [List.length_eq_zero_iff.1 e] at hx
      cases hx
    simp only [List.length_cons]
    omega

variable {env : Export.Env} {fuel : Nat} {db : DB.Database} {F : St}

theorem kids_shorter (h : Exportable env fuel db) (hF : exportDB env fuel db = some (.ok F)) {r : Ref}
    (hr : r.2 < F.count r.1) {s : Slot} (hs : s ≠ .bases) :
    ((F.get r).kids s).length ≤ (((scopesBuilt env db).get r).kids s).length ∧
    ∀ x ∈ (F.get r).kids s, x ∈ ((scopesBuilt env db).get r).kids s := by
  have fin := final_of h hF
  have hv : Export.Valid (copied db) r := by unfold Export.Valid; rw [← fin.count]; exact hr
  have hm : ∀ x ∈ (F.get r).kids s, x ∈ ((scopesBuilt env db).get r).kids s := by
    intro x hx
    rw [Export.scopesBuilt_kids]
    exact ((fin.mem r s x hv hs).1 hx).1
  exact ⟨nodup_le (fin.nodup r s hv hs) hm, hm⟩

/-! ### The layout -/

theorem length_typePrims (h : Exportable env fuel db) (hF : exportDB env fuel db = some (.ok F)) :
    F.typePrims.length = (Export.rows db .type).length + (Export.rows db .cls).length + (Export.rows db .enum).length +
      (Export.rows db .instance).length := by
  rw [(final_of h hF).types.length_eq]
  unfold copied
  simp only [List.length_append, List.length_map, List.length_range]

theorem slot_step {k : K} {s : Slot} (h : s ∈ slotsOf k) (hs : s ≠ .bases) :
    (∃ ck, (k, s, ck) ∈ Export.hierarchy) ∨ (k ∈ attributeScopes ∧ s = .attributes) := by
  have : ∀ k ∈ Export.kinds, ∀ s ∈ slotsOf k, s ≠ .bases →
      (∃ x ∈ Export.hierarchy, x.1 = k ∧ x.2.1 = s) ∨ (k ∈ attributeScopes ∧ s = .attributes) := by decide
  rcases this k (mem_kinds k) s h hs with ⟨⟨a, b, c⟩, hx, rfl, rfl⟩ | h
  · exact .inl ⟨c, hx⟩
  · exact .inr h

theorem slot_base {k : K} (h : Slot.bases ∈ slotsOf k) : k ∈ [K.type, .enum, .cls, .instance] := by
  have : ∀ k ∈ Export.kinds, Slot.bases ∈ slotsOf k → k ∈ [K.type, .enum, .cls, .instance] := by decide
  exact this k (mem_kinds k) h

theorem kids_piece (h : Exportable env fuel db) (hF : exportDB env fuel db = some (.ok F)) (fks : List UInt32) {r : Ref}
    (hr : r.2 < F.count r.1) {s : Slot} (hs : s ∈ slotsOf r.1) (hne : (F.get r).kids s ≠ []) :
    ∃ o, offsetIn (pieces db (scopesBuilt env db) F fks) (.kids r s) = some o := by
  refine offset_some ?_
  have hl : ((F.get r).kids s).length ≠ 0 := fun e => hne (List.length_eq_zero_iff.1 e)
  unfold pieces
  by_cases e : s = .bases
  · subst e
    refine ⟨⟨some (.kids r .bases), ((F.get r).kids .bases).length, 8, true⟩, ?_, rfl⟩
    rw [List.mem_append]
    exact .inr (mem_basePieces.2 ⟨r, slot_base hs, hr, hl, rfl⟩)
  · have := (kids_shorter h hF hr e).1
    refine ⟨⟨some (.kids r s), (((scopesBuilt env db).get r).kids s).length, 8, true⟩, ?_, rfl⟩
    rw [List.mem_append, List.mem_append, List.mem_append]
    refine .inl (.inl (.inr (mem_treePieces.2 (.inr ⟨r.1, s, slot_step hs e, r.2, ?_, ?_, rfl⟩))))
    · show r.2 < (copied db).count r.1
      rw [← (final_of h hF).count]
      exact hr
    · show (((scopesBuilt env db).get r).kids s).length ≠ 0
      omega

theorem area_in (h : Exportable env fuel db) (hF : exportDB env fuel db = some (.ok F)) (fb : Nat) (fks : List UInt32)
    {a : Area} {o n : Nat}
    (ha : area (placeOf db (pieces db (scopesBuilt env db) F fks)) (dataOf fb db F) a = some (o, n)) :
    offsetIn (pieces db (scopesBuilt env db) F fks) a = some o ∧ n ≤ sizeIn (pieces db (scopesBuilt env db) F fks) a := by
  have fin := final_of h hF
  have key : ∀ {a : Area}, offsetIn (pieces db (scopesBuilt env db) F fks) a = some o →
      n ≤ expected db (scopesBuilt env db) F a →
      offsetIn (pieces db (scopesBuilt env db) F fks) a = some o ∧ n ≤ sizeIn (pieces db (scopesBuilt env db) F fks) a := by
    intro a h1 h2
    exact ⟨h1, by rw [size_expected h1]; exact h2⟩
  have cnt : ∀ k, F.count k = (Export.rows db k).length := by intro k; rw [fin.count]; rfl
  cases a with
  | header =>
    injection ha with ha
    injection ha with h1 h2
    subst h1 h2
    exact key (header_first _ _ _ _) (Nat.le_refl _)
  | names =>
    injection ha with ha
    injection ha with h1 h2
    subst h1 h2
    exact key (fixed_getD _ _ _ _ rfl) (by unfold dataOf expected; simp)
  | table k =>
    injection ha with ha
    injection ha with h1 h2
    subst h1 h2
    exact key (fixed_getD _ _ _ _ rfl) (by unfold dataOf expected; simp only; rw [cnt]; exact Nat.le_refl _)
  | typePrims =>
    injection ha with ha
    injection ha with h1 h2
    subst h1 h2
    refine key (fixed_getD _ _ _ _ rfl) ?_
    unfold dataOf expected
    simp only
    rw [length_typePrims h hF]
    exact Nat.le_refl _
  | nameText =>
    injection ha with ha
    injection ha with h1 h2
    subst h1 h2
    exact key (fixed_getD _ _ _ _ rfl) (Nat.le_refl _)
  | attributeText =>
    injection ha with ha
    injection ha with h1 h2
    subst h1 h2
    exact key (fixed_getD _ _ _ _ rfl) (Nat.le_refl _)
  | globals s =>
    unfold area at ha
    simp only at ha
    split at ha
    · rw [Option.map_eq_some_iff] at ha
      obtain ⟨x, hx, ha⟩ := ha
      injection ha with h1 h2
      subst h1 h2
      exact key hx (Nat.le_refl _)
    · cases ha
  | kids r s =>
    unfold area at ha
    simp only at ha
    split at ha
    · next hc =>
      rw [Option.map_eq_some_iff] at ha
      obtain ⟨x, hx, ha⟩ := ha
      injection ha with h1 h2
      subst h1 h2
      refine key hx ?_
      show ((F.get r).kids s).length * 8 ≤ if s = .bases then _ else _
      split
      · exact Nat.le_refl _
      · next e => exact Nat.mul_le_mul_right 8 (kids_shorter h hF hc.1 e).1
    · cases ha

theorem rows_text (db : DB.Database) (k : K) (o : Export.Obj) (ho : o ∈ Export.rows db k) : o.text = Export.textOf db o.hash := by
  cases k <;> simp only [Export.rows, List.mem_map] at ho <;>
  · obtain ⟨p, _, rfl⟩ := ho
    rfl

theorem copied_text {r : Ref} (hr : r.2 < (copied db).count r.1) :
    ((copied db).get r).text = Export.textOf db ((copied db).get r).hash := by
  refine rows_text db r.1 _ ?_
  have hl : r.2 < (Export.rows db r.1).length := hr
  show (Export.rows db r.1).getD r.2 {} ∈ _
  rw [List.getD_eq_getElem?_getD, List.getElem?_eq_getElem hl]
  exact List.getElem_mem hl

theorem find_idx {α : Type} (f : α → Bool) (l : List α) : l.find? f = (l.findIdx? f).bind fun i => l[i]? := by
  induction l with
  | nil => rfl
  | cons x l ih =>
    rw [List.find?_cons, List.findIdx?_cons]
    cases f x
    · simp only [Bool.false_eq_true, if_false]
      rw [ih]
      cases l.findIdx? f <;> simp
    · simp

theorem behind_header (db : DB.Database) (S F : St) (fks : List UInt32) {a : Area} {o : Nat} (hne : a ≠ .header)
    (h : offsetIn (pieces db S F fks) a = some o) : databaseMem.lay.size ≤ o := by
  have e : pieces db S F fks = ⟨some .header, 1, databaseMem.lay.size, true⟩ :: (pieces db S F fks).tail := rfl
  rw [e] at h
  generalize (pieces db S F fks).tail = l at h
  unfold offsetIn at h
  rw [if_neg (by intro e; injection e with e; exact hne e.symm)] at h
  obtain ⟨x, _, rfl⟩ := Option.map_eq_some_iff.1 h
  show databaseMem.lay.size ≤ 1 * databaseMem.lay.size + x
  omega

/-- Everything is where it was allocated. -/
theorem laid_of (h : Exportable env fuel db) (hF : exportDB env fuel db = some (.ok F)) (fb : Nat) (fks : List UInt32) :
    Laid (placeOf db (pieces db (scopesBuilt env db) F fks)) (dataOf fb db F)
      (total (pieces db (scopesBuilt env db) F fks)) := by
  have fin := final_of h hF
  have bh := fun {a : Area} {o : Nat} => behind_header db (scopesBuilt env db) F fks (a := a) (o := o)
  generalize hps : pieces db (scopesBuilt env db) F fks = ps
  have hd := header_first db (scopesBuilt env db) F fks
  have hin : ∀ {a : Area} {o n : Nat}, area (placeOf db ps) (dataOf fb db F) a = some (o, n) →
      offsetIn ps a = some o ∧ n ≤ sizeIn ps a := by
    intro a o n ha
    subst hps
    exact area_in h hF fb fks ha
  have hsz : sizeIn ps .header = databaseMem.lay.size := by rw [← hps, size_expected hd]; rfl
  rw [hps] at hd
  refine ⟨?_, ?_, ?_, ?_, ?_, ?_, ?_, ?_, ?_⟩
  · have := offset_within hd
    omega
  · intro a o n ha hne
    obtain ⟨h1, h2⟩ := hin ha
    have h3 := offset_within h1
    rw [hps] at bh
    exact ⟨bh hne h1, by omega⟩
  · intro a b hab o n q m ha hb
    obtain ⟨h1, h2⟩ := hin ha
    obtain ⟨h3, h4⟩ := hin hb
    rcases offset_apart hab h1 h3 with h5 | h5
    · left; omega
    · right; omega
  · intro i hh t ht
    have : (db.names.map (·.text))[i]? = some t := by
      unfold dataOf at ht
      simp only [List.getElem?_map, Option.map_eq_some_iff] at ht ⊢
      obtain ⟨x, hx, e⟩ := ht
      injection e with _ e
      exact ⟨x, hx, e⟩
    have := text_inside this
    unfold placeOf
    simp only
    omega
  · intro r hr t ht
    have h1 : (F.get r).text = some t := ht
    have hv : r.2 < (copied db).count r.1 := by rw [← fin.count]; exact hr
    rw [fin.text, copied_text hv] at h1
    unfold Export.textOf at h1
    rw [find_idx] at h1
    obtain ⟨n, hn, rfl⟩ := Option.map_eq_some_iff.1 h1
    obtain ⟨i, hi, hn⟩ := Option.bind_eq_some_iff.1 hn
    have hl : (db.names.map (·.text))[i]? = some n.text := by rw [List.getElem?_map, hn]; rfl
    have := text_inside hl
    refine ⟨(offsetIn ps .nameText).getD 0 + textOffset (db.names.map (·.text)) i, ?_, ?_, ?_⟩
    · show Option.map _ _ = _
      rw [hi]
      rfl
    · exact Nat.le_add_right _ _
    · unfold placeOf
      simp only
      omega
  · intro r hr ht
    have h1 : (F.get r).text = none := ht
    have hv : r.2 < (copied db).count r.1 := by rw [← fin.count]; exact hr
    rw [fin.text, copied_text hv] at h1
    unfold Export.textOf at h1
    rw [Option.map_eq_none_iff, List.find?_eq_none] at h1
    show Option.map _ _ = none
    rw [Option.map_eq_none_iff, List.findIdx?_eq_none_iff]
    intro x hx
    have := h1 x hx
    simpa using this
  · rintro ⟨k, i⟩ hk hr
    have hk : k = .textAttr := hk
    subst hk
    have hv : i < (copied db).count .textAttr := by rw [← fin.count]; exact hr
    have hl : i < db.textAttributes.length := by simpa [copied, Export.rows] using hv
    have : (db.textAttributes.map (·.value))[i]? = some (db.textAttributes.getD i {}).value := by
      rw [List.getElem?_map, List.getD_eq_getElem?_getD, List.getElem?_eq_getElem hl]
      rfl
    have := text_inside this
    refine ⟨Nat.le_add_right _ _, ?_⟩
    unfold placeOf dataOf
    simp only
    omega
  · intro r s hr hs hne
    subst hps
    obtain ⟨o, ho⟩ := kids_piece h hF fks hr hs hne
    show offsetIn _ _ ≠ none
    rw [ho]
    simp
  · intro s hs _
    subst hps
    have : ∃ q ∈ pieces db (scopesBuilt env db) F fks, q.use = some (.globals s) := by
      refine ⟨⟨some (.globals s), (F.globals s).length, 8, true⟩, ?_, rfl⟩
      unfold pieces
      refine List.mem_append_left _ (List.mem_append_right _ ?_)
      exact List.mem_map_of_mem (f := fun s => (⟨some (.globals s), (F.globals s).length, 8, true⟩ : Piece)) hs
    obtain ⟨o, ho⟩ := offset_some this
    show offsetIn _ _ ≠ none
    rw [ho]
    simp

end Clr.Image
