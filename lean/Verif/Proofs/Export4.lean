import Verif.Proofs.Export3
/-
Lemmas about the exporter model: inherited flags, verification, isolation.
-/
namespace Clr.Export
open Clr.DB (hashOf)
attribute [local irreducible] hashOf

/-! ### Inherited flags -/

/-- A bit that a type passes on to the types derived from it. -/
inductive Passes (st : St) (flags : Ref → BitVec 32) : Ref → Nat → Prop where
  | own {r : Ref} {b : Nat} (hc : r.1 = .cls) (hb : (inheritedBits st (flags r) r).getLsbD b = true) : Passes st flags r b
  | base {r q : Ref} {b : Nat} (hq : q ∈ (st.get r).kids .bases) (hb : Passes st flags q b) : Passes st flags r b

/-- Flags between the original ones and those with all inherited bits. -/
def Between (st : St) (orig flags : Ref → BitVec 32) : Prop :=
  ∀ r b, ((orig r).getLsbD b = true → (flags r).getLsbD b = true) ∧
    ((flags r).getLsbD b = true → (orig r).getLsbD b = true ∨ (r.1 = .cls ∧ Passes st orig r b))

theorem inheritedBits_bit (st : St) (f : BitVec 32) (r : Ref) (b : Nat) : (inheritedBits st f r).getLsbD b = true ↔
    (f.getLsbD b = true ∧ fReplicate.getLsbD b = true) ∨
    ((customBits st ((st.get r).kids .attributes)).1 &&& (customBits st ((st.get r).kids .attributes)).2).getLsbD b = true := by
  unfold inheritedBits
  simp only [BitVec.getLsbD_or, BitVec.getLsbD_and, Bool.or_eq_true, Bool.and_eq_true]

theorem inheritedBits_between (st : St) (orig flags : Ref → BitVec 32) (h : Between st orig flags) (r : Ref)
    (hr : r.1 = .cls) (b : Nat) :
    ((inheritedBits st (orig r) r).getLsbD b = true → (inheritedBits st (flags r) r).getLsbD b = true) ∧
    ((inheritedBits st (flags r) r).getLsbD b = true → Passes st orig r b) := by
  rw [inheritedBits_bit, inheritedBits_bit]
  constructor
  · rintro (⟨h1, h2⟩ | h1)
    · exact .inl ⟨(h r b).1 h1, h2⟩
    · exact .inr h1
  · rintro (⟨h1, h2⟩ | h1)
    · rcases (h r b).2 h1 with h3 | ⟨_, h3⟩
      · exact .own hr ((inheritedBits_bit st _ r b).mpr (.inl ⟨h3, h2⟩))
      · exact h3
    · exact .own hr ((inheritedBits_bit st _ r b).mpr (.inr h1))

/-- What one call of `InheritFlagAttributes` achieves. -/
def Inherited (st : St) (orig flags : Ref → BitVec 32) (r : Ref) (out : (Ref → BitVec 32) × BitVec 32) : Prop :=
  Between st orig out.1 ∧
  (∀ b, out.2.getLsbD b = true ↔ Passes st orig r b) ∧
  (∀ q b, (flags q).getLsbD b = true → (out.1 q).getLsbD b = true) ∧
  (r.1 = .cls → ∀ b, Passes st orig r b → (out.1 r).getLsbD b = true)

theorem inheritBases_spec (st : St) (orig : Ref → BitVec 32) (fuel : Nat) (bs : List Ref)
    (hin : ∀ q ∈ bs, ∀ flags, Between st orig flags → ∃ out, inherit st fuel q flags = some out ∧ Inherited st orig flags q out)
    (flags : Ref → BitVec 32) (hb : Between st orig flags) (acc : BitVec 32) :
    ∃ out, inheritBases (inherit st fuel) bs flags acc = some out ∧ Between st orig out.1 ∧
      (∀ b, out.2.getLsbD b = true ↔ acc.getLsbD b = true ∨ ∃ q ∈ bs, Passes st orig q b) ∧
      (∀ q b, (flags q).getLsbD b = true → (out.1 q).getLsbD b = true) := by
  induction bs generalizing flags acc with
  | nil => exact ⟨(flags, acc), by simp [inheritBases], hb, by simp, fun _ _ h => h⟩
  | cons q bs ih =>
    obtain ⟨⟨f1, i1⟩, h1, h2, h3, h4, _⟩ := hin q (by simp) flags hb
    obtain ⟨out, g1, g2, g3, g4⟩ := ih (fun x hx => hin x (by simp [hx])) f1 h2 (acc ||| i1)
    refine ⟨out, ?_, g2, ?_, fun x b hx => g4 x b (h4 x b hx)⟩
    · rw [inheritBases, h1]; exact g1
    · intro b
      rw [g3 b]
      simp only [BitVec.getLsbD_or, Bool.or_eq_true, List.mem_cons, exists_eq_or_imp]
      rw [h3 b]
      constructor
      · rintro ((h | h) | h)
        · exact .inl h
        · exact .inr (.inl h)
        · exact .inr (.inr h)
      · rintro (h | h | h)
        · exact .inl (.inl h)
        · exact .inl (.inr h)
        · exact .inr h

theorem inherit_spec (st : St) (orig : Ref → BitVec 32) (rank : Ref → Nat)
    (hrank : ∀ r q, q ∈ (st.get r).kids .bases → rank q < rank r) (fuel : Nat) (r : Ref) (hfuel : rank r < fuel)
    (flags : Ref → BitVec 32) (hb : Between st orig flags) :
    ∃ out, inherit st fuel r flags = some out ∧ Inherited st orig flags r out := by
  induction fuel generalizing r flags with
  | zero => omega
  | succ fuel ih =>
    obtain ⟨⟨f1, i1⟩, h1, h2, h3, h4⟩ := inheritBases_spec st orig fuel ((st.get r).kids .bases)
      (fun q hq fl hfl => ih q (by have := hrank r q hq; omega) fl hfl) flags hb 0
    rw [inherit, h1]
    simp only
    by_cases hc : r.1 = .cls
    · rw [if_pos hc]
      have hbits := inheritedBits_between st orig f1 h2 r hc
      have hinh : ∀ b, (i1 ||| inheritedBits st (f1 r) r).getLsbD b = true ↔ Passes st orig r b := by
        intro b
        simp only [BitVec.getLsbD_or, Bool.or_eq_true]
        rw [h3 b]
        constructor
        · rintro ((h | ⟨q, hq, h⟩) | h)
          · simp at h
          · exact .base hq h
          · exact (hbits b).2 h
        · intro h
          cases h with
          | own _ h => exact .inr ((hbits b).1 h)
          | base hq h => exact .inl (.inr ⟨_, hq, h⟩)
      refine ⟨_, rfl, ?_, hinh, ?_, ?_⟩
      · intro q b
        simp only
        by_cases hq : q = r
        · subst hq
          simp only [if_true]
          constructor
          · intro h
            have := (h2 q b).1 h
            rw [BitVec.getLsbD_or, this]; rfl
          · intro h
            rw [BitVec.getLsbD_or, Bool.or_eq_true] at h
            rcases h with h | h
            · exact (h2 q b).2 h
            · exact .inr ⟨hc, (hinh b).mp h⟩
        · simp only [if_neg hq]
          exact h2 q b
      · intro q b h
        simp only
        have := h4 q b h
        by_cases hq : q = r
        · subst hq
          simp only [if_true]
          rw [BitVec.getLsbD_or, this]; rfl
        · simp only [if_neg hq]; exact this
      · intro _ b hp
        simp only [if_true]
        rw [BitVec.getLsbD_or, (hinh b).mpr hp, Bool.or_true]
    · rw [if_neg hc]
      refine ⟨_, rfl, h2, ?_, h4, ?_⟩
      · intro b
        rw [h3 b]
        constructor
        · rintro (h | ⟨q, hq, h⟩)
          · simp at h
          · exact .base hq h
        · intro h
          cases h with
          | own hc' _ => exact absurd hc' hc
          | base hq h => exact .inr ⟨_, hq, h⟩
      · intro h; exact absurd h hc

theorem inheritClasses_spec (st : St) (orig : Ref → BitVec 32) (rank : Ref → Nat)
    (hrank : ∀ r q, q ∈ (st.get r).kids .bases → rank q < rank r) (fuel : Nat) (rs : List Ref)
    (hfuel : ∀ r ∈ rs, rank r < fuel) (hcls : ∀ r ∈ rs, r.1 = .cls)
    (flags : Ref → BitVec 32) (hb : Between st orig flags) :
    ∃ out, inheritClasses st fuel rs flags = some out ∧ Between st orig out ∧
      (∀ q b, (flags q).getLsbD b = true → (out q).getLsbD b = true) ∧
      (∀ r ∈ rs, ∀ b, Passes st orig r b → (out r).getLsbD b = true) := by
  induction rs generalizing flags with
  | nil => exact ⟨flags, rfl, hb, fun _ _ h => h, by simp⟩
  | cons r rs ih =>
    obtain ⟨⟨f1, i1⟩, h1, h2, _, h4, h5⟩ := inherit_spec st orig rank hrank fuel r (hfuel r (by simp)) flags hb
    obtain ⟨out, g1, g2, g3, g4⟩ := ih (fun q hq => hfuel q (by simp [hq])) (fun q hq => hcls q (by simp [hq])) f1 h2
    refine ⟨out, ?_, g2, fun q b h => g3 q b (h4 q b h), ?_⟩
    · rw [inheritClasses, h1]; exact g1
    · intro q hq b hp
      rcases List.mem_cons.mp hq with rfl | hq
      · exact g3 _ b (h5 (hcls _ (by simp)) b hp)
      · exact g4 q hq b hp

theorem inheritAll_spec (st : St) (rank : Ref → Nat)
    (hrank : ∀ r q, q ∈ (st.get r).kids .bases → rank q < rank r) (fuel : Nat)
    (hfuel : ∀ r, r.1 = .cls → Valid st r → rank r < fuel) :
    ∃ flags : Ref → BitVec 32, inheritAll fuel st = some { st with get := fun r => { st.get r with flags := flags r } } ∧
      (∀ r b, r.1 ≠ .cls → (flags r).getLsbD b = (st.get r).flags.getLsbD b) ∧
      (∀ r b, r.1 = .cls → Valid st r → ((flags r).getLsbD b = true ↔
        (st.get r).flags.getLsbD b = true ∨ Passes st (fun q => (st.get q).flags) r b)) := by
  obtain ⟨out, h1, h2, h3, h4⟩ := inheritClasses_spec st (fun q => (st.get q).flags) rank hrank fuel (st.all .cls)
    (fun r hr => hfuel r ((mem_all st _ r).mp hr).1 ((mem_all st _ r).mp hr).2)
    (fun r hr => ((mem_all st _ r).mp hr).1) (fun q => (st.get q).flags) (fun r b => ⟨id, .inl⟩)
  refine ⟨out, by unfold inheritAll; rw [h1]; rfl, ?_, ?_⟩
  · intro r b hr
    rw [Bool.eq_iff_iff]
    constructor
    · intro h
      rcases (h2 r b).2 h with h | ⟨h, _⟩
      · exact h
      · exact absurd h hr
    · exact (h2 r b).1
  · intro r b hr hv
    constructor
    · intro h
      rcases (h2 r b).2 h with h | ⟨_, h⟩
      · exact .inl h
      · exact .inr h
    · rintro (h | h)
      · exact (h2 r b).1 h
      · exact h4 r ((mem_all st _ r).mpr ⟨hr, hv⟩) b h

/-! ### The removal loops -/

theorem removeLoop_spec (bad : Ref → Bool) (n : Nat) (a : CArray.Arr Ref) (i : Nat) (hn : a.size - i ≤ n)
    (hi : i ≤ a.size) (hcap : a.size ≤ a.data.length) :
    ∃ a', removeLoop bad a i = .ok a' ∧
      a'.elems = a.elems.take i ++ (a.elems.drop i).filter fun r => !bad r := by
  induction n generalizing a i with
  | zero =>
    refine ⟨a, ?_, ?_⟩
    · unfold removeLoop; rw [if_neg (by omega)]
    · have hl : a.elems.length = a.size := by simp [CArray.Arr.elems]; omega
      rw [List.take_of_length_le (by omega), List.drop_eq_nil_of_le (by omega)]
      simp
  | succ n ih =>
    have hl : a.elems.length = a.size := by simp [CArray.Arr.elems]; omega
    by_cases hlt : i < a.size
    · have hget : a.data[i]? = some a.data[i] := List.getElem?_eq_getElem (by omega)
      have hel : a.elems[i]? = some a.data[i] := by
        unfold CArray.Arr.elems
        rw [List.getElem?_take, if_pos hlt, hget]
      have hdrop : a.elems.drop i = a.data[i] :: a.elems.drop (i + 1) := by
        have hil : i < a.elems.length := by omega
        rw [List.drop_eq_getElem_cons hil]
        congr 1
        have : a.elems[i]? = some a.elems[i] := List.getElem?_eq_getElem hil
        rw [hel] at this
        exact (Option.some.inj this).symm
      unfold removeLoop
      rw [if_pos hlt, hget]
      simp only
      by_cases hb : bad a.data[i] = true
      · rw [if_pos hb]
        obtain ⟨b, h1, h2, h3, h4⟩ := (CArray.C24_stable_remove a i hcap).1 hlt
        obtain ⟨a', g1, g2⟩ := ih b i (by omega) (by omega) (by omega)
        refine ⟨a', ?_, ?_⟩
        · split
          · next b' h => rw [h1] at h; injection h with h; subst h; exact g1
          · next h => rw [h1] at h; cases h
          · next h => rw [h1] at h; cases h
        · rw [g2, h2, hdrop, List.filter_cons]
          simp only [hb, Bool.not_true, Bool.false_eq_true, if_false]
          rw [List.eraseIdx_eq_take_drop_succ]
          have htl : (a.elems.take i).length = i := by simp; omega
          congr 1
          · rw [List.take_append_of_le_length (by omega), List.take_of_length_le (by omega)]
          · rw [List.drop_append_of_le_length (by omega), List.drop_eq_nil_of_le (by omega), List.nil_append]
      · rw [if_neg hb]
        obtain ⟨a', g1, g2⟩ := ih a (i + 1) (by omega) (by omega) hcap
        refine ⟨a', g1, ?_⟩
        rw [g2, hdrop, List.filter_cons]
        have hb' : bad a.data[i] = false := by simpa using hb
        simp only [hb', Bool.not_false, if_true]
        have : a.elems.take (i + 1) = a.elems.take i ++ [a.data[i]] := by
          rw [List.take_add_one, hel]; rfl
        rw [this]
        simp
    · refine ⟨a, ?_, ?_⟩
      · unfold removeLoop; rw [if_neg hlt]
      · rw [List.take_of_length_le (by omega), List.drop_eq_nil_of_le (by omega)]
        simp

theorem isolateSlot_spec (bad : Ref → Bool) (slot : Slot) (o : Obj) :
    isolateSlot bad slot o = .ok (o.setKids slot ((o.kids slot).filter fun r => !bad r)) := by
  obtain ⟨a, h1, h2⟩ := removeLoop_spec bad (o.kids slot).length ⟨o.kids slot, (o.kids slot).length⟩ 0
    (Nat.le_refl _) (Nat.zero_le _) (Nat.le_refl _)
  unfold isolateSlot
  rw [h1, rbind_ok, h2]
  simp [CArray.Arr.elems]

/-- The class after `IsolateInvalidPrimitives`. -/
def cleanClass (env : Env) (st : St) (o : Obj) : Obj :=
  (o.setKids .fields ((o.kids .fields).filter fun r => !noType env st r)).setKids .methods
    ((o.kids .methods).filter fun r => !invalidFunction env st r)

/-- The namespace after `IsolateInvalidPrimitives`. -/
def cleanSpace (env : Env) (st : St) (o : Obj) : Obj :=
  o.setKids .functions ((o.kids .functions).filter fun r => !invalidFunction env st r)

/-- The states agree on what the tests read. -/
def SameTests (a b : St) : Prop :=
  ∀ r, (b.get r).type = (a.get r).type ∧ (b.get r).kids .parameters = (a.get r).kids .parameters ∧
    (b.get r).ret = (a.get r).ret

theorem noType_congr (env : Env) {a b : St} (h : SameTests a b) : noType env b = noType env a := by
  funext r; unfold noType; rw [(h r).1]

theorem invalid_congr (env : Env) {a b : St} (h : SameTests a b) : invalidFunction env b = invalidFunction env a := by
  funext r; unfold invalidFunction; rw [(h r).2.1, (h r).2.2, noType_congr env h]

theorem isolateClass_spec (env : Env) (st : St) (r : Ref) :
    isolateClass env st r = .ok (st.set r (cleanClass env st (st.get r))) := by
  unfold isolateClass
  rw [isolateSlot_spec, rbind_ok, isolateSlot_spec, rbind_ok]
  rfl

theorem isolateSpace_spec (env : Env) (st : St) (r : Ref) :
    isolateSpace env st r = .ok (st.set r (cleanSpace env st (st.get r))) := by
  unfold isolateSpace
  rw [isolateSlot_spec, rbind_ok]
  rfl

theorem SameTests.set {st0 st : St} (h : SameTests st0 st) (r : Ref) (o : Obj)
    (ho : o.type = (st.get r).type ∧ o.kids .parameters = (st.get r).kids .parameters ∧ o.ret = (st.get r).ret) :
    SameTests st0 (st.set r o) := by
  intro q
  by_cases hq : q = r
  · subst hq
    simp only [St.set, if_true]
    rw [ho.1, ho.2.1, ho.2.2]
    exact h q
  · simp only [St.set, if_neg hq]
    exact h q

theorem isolateClasses_spec (env : Env) (st0 : St) (rs : List Ref) (hnd : rs.Nodup) (st : St) (hs : SameTests st0 st) :
    forAll (isolateClass env) rs st =
      .ok { st with get := fun r => if r ∈ rs then cleanClass env st0 (st.get r) else st.get r } ∧
    SameTests st0 { st with get := fun r => if r ∈ rs then cleanClass env st0 (st.get r) else st.get r } := by
  induction rs generalizing st with
  | nil => exact ⟨by simp [forAll], by simpa using hs⟩
  | cons r rs ih =>
    obtain ⟨hr, hrs⟩ := List.nodup_cons.mp hnd
    have hcl : cleanClass env st (st.get r) = cleanClass env st0 (st.get r) := by
      unfold cleanClass; rw [noType_congr env hs, invalid_congr env hs]
    have hs1 : SameTests st0 (st.set r (cleanClass env st0 (st.get r))) := hs.set r _ ⟨rfl, rfl, rfl⟩
    obtain ⟨h1, h2⟩ := ih hrs _ hs1
    have hget : (fun q => if q ∈ rs then cleanClass env st0 ((st.set r (cleanClass env st0 (st.get r))).get q)
          else (st.set r (cleanClass env st0 (st.get r))).get q) =
        fun q => if q ∈ r :: rs then cleanClass env st0 (st.get q) else st.get q := by
      funext q
      by_cases hq : q = r
      · subst hq; simp [St.set, hr]
      · simp [St.set, hq]
    have hst : ({ (st.set r (cleanClass env st0 (st.get r))) with
          get := fun q => if q ∈ rs then cleanClass env st0 ((st.set r (cleanClass env st0 (st.get r))).get q)
            else (st.set r (cleanClass env st0 (st.get r))).get q } : St) =
        { st with get := fun q => if q ∈ r :: rs then cleanClass env st0 (st.get q) else st.get q } := by
      rw [hget]; rfl
    rw [hst] at h1 h2
    refine ⟨?_, h2⟩
    unfold forAll
    rw [isolateClass_spec, hcl, rbind_ok]
    exact h1

theorem isolateSpaces_spec (env : Env) (st0 : St) (rs : List Ref) (hnd : rs.Nodup) (st : St) (hs : SameTests st0 st) :
    forAll (isolateSpace env) rs st =
      .ok { st with get := fun r => if r ∈ rs then cleanSpace env st0 (st.get r) else st.get r } := by
  induction rs generalizing st with
  | nil => simp [forAll]
  | cons r rs ih =>
    obtain ⟨hr, hrs⟩ := List.nodup_cons.mp hnd
    have hcl : cleanSpace env st (st.get r) = cleanSpace env st0 (st.get r) := by
      unfold cleanSpace; rw [invalid_congr env hs]
    have hs1 : SameTests st0 (st.set r (cleanSpace env st0 (st.get r))) := hs.set r _ ⟨rfl, rfl, rfl⟩
    have h1 := ih hrs _ hs1
    have hget : (fun q => if q ∈ rs then cleanSpace env st0 ((st.set r (cleanSpace env st0 (st.get r))).get q)
          else (st.set r (cleanSpace env st0 (st.get r))).get q) =
        fun q => if q ∈ r :: rs then cleanSpace env st0 (st.get q) else st.get q := by
      funext q
      by_cases hq : q = r
      · subst hq; simp [St.set, hr]
      · simp [St.set, hq]
    have hst : ({ (st.set r (cleanSpace env st0 (st.get r))) with
          get := fun q => if q ∈ rs then cleanSpace env st0 ((st.set r (cleanSpace env st0 (st.get r))).get q)
            else (st.set r (cleanSpace env st0 (st.get r))).get q } : St) =
        { st with get := fun q => if q ∈ r :: rs then cleanSpace env st0 (st.get q) else st.get q } := by
      rw [hget]; rfl
    rw [hst] at h1
    unfold forAll
    rw [isolateSpace_spec, hcl, rbind_ok]
    exact h1

end Clr.Export
