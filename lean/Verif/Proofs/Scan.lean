import Verif.Model.ScanSpec

/-!
The walk over a translation unit.
-/
namespace Clr.Scan

/-! ### Reflection specs -/

theorem get_nil (name : Bytes) : Specs.get [] name = none := rfl

theorem get_append (s : Specs) (symbol name : Bytes) (t : Spec) :
    Specs.get (s ++ [(symbol, t)]) name = (s.get name).or (if symbol = name then some t else none) := by
  rw [Specs.get, Specs.get, List.find?_append]
  by_cases h : symbol = name
  · rw [if_pos h, List.find?_cons_of_pos (by rw [beq_iff_eq]; exact h)]
    cases s.find? (fun e => e.1 == name) <;> rfl
  · rw [if_neg h, List.find?_cons_of_neg (by rw [beq_iff_eq]; exact h)]
    cases s.find? (fun e => e.1 == name) <;> rfl

theorem get_add (s : Specs) (symbol name : Bytes) (t : Spec) :
    (s.add symbol t).get name = (s.get name).or (if symbol = name then some t else none) := by
  rw [Specs.add]
  by_cases h : (s.get symbol).isNone = true
  · rw [if_pos h, get_append]
  · rw [if_neg h]
    by_cases hn : symbol = name
    · subst hn
      cases hg : s.get symbol with
      | none => rw [hg] at h; exact absurd rfl h
      | some x => rfl
    · rw [if_neg hn, Option.or_none]

/-- The spec in an annotation, for a name. -/
def specIn (name t : Bytes) : Option Spec :=
  if t = b!"full-" ++ name then some .full
  else if t = b!"part-" ++ name then some .part
  else none

theorem take_drop {t p name : Bytes} (hp : p.length = 5) : t.take 5 = p ∧ t.drop 5 = name ↔ t = p ++ name := by
  constructor
  · rintro ⟨h1, h2⟩
    rw [← h1, ← h2, List.take_append_drop]
  · rintro rfl
    rw [← hp, List.take_left, List.drop_left]
    exact ⟨rfl, rfl⟩

theorem get_annotation (s : Specs) (t name : Bytes) : (s.annotation t).get name = (s.get name).or (specIn name t) := by
  rw [Specs.annotation, specIn]
  by_cases h1 : t.take 5 = b!"full-"
  · rw [if_pos h1, get_add]
    by_cases h2 : t.drop 5 = name
    · rw [if_pos h2, if_pos ((take_drop rfl).1 ⟨h1, h2⟩)]
    · rw [if_neg h2, if_neg (fun e => h2 ((take_drop rfl).2 e).2), if_neg]
      intro e
      have := ((take_drop rfl).2 e).1
      rw [h1] at this
      exact absurd this (by decide)
  · rw [if_neg h1, if_neg (fun e => h1 ((take_drop rfl).2 e).1)]
    by_cases h3 : t.take 5 = b!"part-"
    · rw [if_pos h3, get_add]
      by_cases h2 : t.drop 5 = name
      · rw [if_pos h2, if_pos ((take_drop rfl).1 ⟨h3, h2⟩)]
      · rw [if_neg h2, if_neg (fun e => h2 ((take_drop rfl).2 e).2)]
    · rw [if_neg h3, if_neg (fun e => h3 ((take_drop rfl).2 e).1), Option.or_none]

theorem get_foldl (name : Bytes) : ∀ (texts : List Bytes) (s : Specs),
    (texts.foldl Specs.annotation s).get name = (s.get name).or (texts.findSome? (specIn name))
  | [], s => by rw [List.foldl_nil, List.findSome?_nil, Option.or_none]
  | t :: ts, s => by
    rw [List.foldl_cons, get_foldl name ts, get_annotation, List.findSome?_cons, Option.or_assoc]
    cases specIn name t <;> rfl

theorem specMark_gather (texts : List Bytes) (name : Bytes) :
    specMark ((gather texts).get name) = (specFor texts name).getD .normal := by
  rw [gather, get_foldl, get_nil, Option.none_or, specFor]
  induction texts with
  | nil => rfl
  | cons t ts ih =>
    rw [List.findSome?_cons, List.findSome?_cons]
    have h : specIn name t = some .full ∧ (if t = b!"full-" ++ name then some Mark.reflect else if t = b!"part-" ++ name then some .part else none) = some .reflect ∨
        specIn name t = some .part ∧ (if t = b!"full-" ++ name then some Mark.reflect else if t = b!"part-" ++ name then some .part else none) = some .part ∨
        specIn name t = none ∧ (if t = b!"full-" ++ name then some Mark.reflect else if t = b!"part-" ++ name then some .part else none) = none := by
      rw [specIn]
      by_cases h1 : t = b!"full-" ++ name
      · rw [if_pos h1, if_pos h1]; exact .inl ⟨rfl, rfl⟩
      · rw [if_neg h1, if_neg h1]
        by_cases h2 : t = b!"part-" ++ name
        · rw [if_pos h2, if_pos h2]; exact .inr (.inl ⟨rfl, rfl⟩)
        · rw [if_neg h2, if_neg h2]; exact .inr (.inr ⟨rfl, rfl⟩)
    rcases h with ⟨h1, h2⟩ | ⟨h1, h2⟩ | ⟨h1, h2⟩
    · rw [h1, h2]; rfl
    · rw [h1, h2]; rfl
    · rw [h1, h2]; exact ih

/-! ### Marks -/

theorem attrMark_eq {i : Info} (h : NoClash i) {a : Attr} (ha : a ∈ i.attrs) (m : Mark) : attrMark m a = (word a.name).getD m := by
  have key : ∀ w ∈ [b!"reflect", b!"reflect_part", b!"noreflect"], (Hash.hashText a.name = Hash.hashText w) ↔ a.name = w :=
    fun w hw => ⟨h a ha w hw, fun e => by rw [e]⟩
  have k1 := key b!"reflect" (by simp)
  have k2 := key b!"reflect_part" (by simp)
  have k3 := key b!"noreflect" (by simp)
  rw [attrMark, word]
  simp only [k1, k2, k3]
  split
  · rfl
  · split
    · rfl
    · split <;> rfl

theorem firstResult_eq {i : Info} (h : NoClash i) (texts : List Bytes) : firstResult (gather texts) i = ownMark texts i := by
  rw [firstResult, ownMark]
  cases ha : i.attrs with
  | nil => exact specMark_gather texts i.name
  | cons a as =>
    dsimp only
    rw [attrMark_eq h (a := a) (by rw [ha]; simp), specMark_gather, List.head?_cons, Option.bind_some]
    cases word a.name <;> rfl


theorem parse_mark {texts : List Bytes} {i : Info} (h : Fine texts i) (allow : Bool) (store : List Rec) :
    (parseAttributes (gather texts) i allow store).1 = mark texts i := by
  show (if i.forward = true then Mark.part else firstResult (gather texts) i) = _
  rw [mark, firstResult_eq h.1]
  by_cases hf : i.forward = true
  · rw [if_pos hf, if_pos ⟨hf, h.2.1 hf⟩]
  · rw [if_neg hf, if_neg (fun e => hf e.1)]

/-! ### Attributes -/

theorem addAttribute_sub {store : List Rec} {r x : Rec} (hx : x ∈ store) : x ∈ addAttribute store r := by
  unfold addAttribute
  split
  · exact List.mem_append_left _ hx
  · split
    · exact List.mem_append_left _ hx
    · exact hx

theorem addAttribute_mem (store : List Rec) (r : Rec) : r ∈ addAttribute store r := by
  unfold addAttribute
  split
  · simp
  · next x hx =>
    split
    · simp
    · next h =>
      have := Classical.not_not.1 h
      subst this
      exact List.mem_of_find?_eq_some hx

theorem addAttribute_sound {store : List Rec} {r x : Rec} (hx : x ∈ addAttribute store r) : x ∈ store ∨ x = r := by
  unfold addAttribute at hx
  split at hx
  · rcases List.mem_append.1 hx with h | h
    · exact .inl h
    · exact .inr (List.mem_singleton.1 h)
  · split at hx
    · rcases List.mem_append.1 hx with h | h
      · exact .inl h
      · exact .inr (List.mem_singleton.1 h)
    · exact .inl hx

theorem foldl_sub (p : Bytes) : ∀ (l : List Attr) (store : List Rec) {x : Rec}, x ∈ store →
    x ∈ l.foldl (fun s a => addAttribute s ⟨p, a⟩) store
  | [], _, _, h => h
  | a :: l, store, x, h => foldl_sub p l _ (addAttribute_sub h)

theorem foldl_mem (p : Bytes) : ∀ (l : List Attr) (store : List Rec) {a : Attr}, a ∈ l →
    (⟨p, a⟩ : Rec) ∈ l.foldl (fun s a => addAttribute s ⟨p, a⟩) store
  | b :: l, store, a, h => by
    rcases List.mem_cons.1 h with rfl | h
    · exact foldl_sub p l _ (addAttribute_mem _ _)
    · exact foldl_mem p l _ h

theorem foldl_sound (p : Bytes) : ∀ (l : List Attr) (store : List Rec) {x : Rec},
    x ∈ l.foldl (fun s a => addAttribute s ⟨p, a⟩) store → x ∈ store ∨ (x.parent = p ∧ x.attr ∈ l)
  | [], _, _, h => .inl h
  | b :: l, store, x, h => by
    rcases foldl_sound p l _ h with h | ⟨h1, h2⟩
    · rcases addAttribute_sound h with h | rfl
      · exact .inl h
      · exact .inr ⟨rfl, List.mem_cons_self ..⟩
    · exact .inr ⟨h1, List.mem_cons_of_mem _ h2⟩

theorem parse_sub (specs : Specs) (i : Info) (allow : Bool) {store : List Rec} {x : Rec} (h : x ∈ store) :
    x ∈ (parseAttributes specs i allow store).2 := by
  rw [parseAttributes]
  dsimp only
  split
  · exact foldl_sub _ _ _ h
  · exact h

theorem parse_sound (specs : Specs) (i : Info) (allow : Bool) {store : List Rec} {x : Rec}
    (h : x ∈ (parseAttributes specs i allow store).2) : x ∈ store ∨ (x.parent = i.name ∧ x.attr ∈ i.attrs) := by
  rw [parseAttributes] at h
  dsimp only at h
  split at h
  · rcases foldl_sound _ _ _ h with h | ⟨h1, h2⟩
    · exact .inl h
    · exact .inr ⟨h1, List.mem_of_mem_drop h2⟩
  · exact .inl h

theorem parse_complete {texts : List Bytes} {i : Info} (h : Fine texts i) (hm : mark texts i ≠ .no) (hr : Recorded texts i) (allow : Bool)
    (store : List Rec) {a : Attr} (ha : a ∈ i.attrs) (hw : word a.name = none) :
    (⟨i.name, a⟩ : Rec) ∈ (parseAttributes (gather texts) i allow store).2 := by
  have hno : firstResult (gather texts) i ≠ .no := by
    rw [firstResult_eq h.1]
    intro e
    refine hm ?_
    rw [mark, if_neg (fun h => h.2 e), e]
  rw [parseAttributes]
  dsimp only
  rw [if_pos (.inr hno)]
  refine foldl_mem _ _ _ ?_
  rw [searchStart]
  split
  · next hs =>
    cases hl : i.attrs with
    | nil => rw [hl] at ha; cases ha
    | cons b bs =>
      rw [hl] at ha
      rw [List.drop_succ_cons, List.drop_zero]
      rcases List.mem_cons.1 ha with rfl | ha
      · exfalso
        rcases hr with hr | ⟨c, cs, he, hc⟩
        · have := hs.2
          rw [firstResult_eq h.1, ownMark, hl, List.head?_cons, Option.bind_some, hw] at this
          dsimp only at this
          rw [hr] at this
          exact this rfl
        · rw [hl] at he
          obtain ⟨rfl, rfl⟩ := List.cons.inj he
          exact hc hw
      · exact ha
  · exact ha

end Clr.Scan
