import Verif.Proofs.VBinEqual
import Verif.Proofs.VBinTerm
import Verif.Props.JSON

/-!
C37, C38, C39: versioned binary saving and loading.  Model: `Verif/Model/VBin.lean`; specification:
`Verif/Model/VBinSpec.lean`.
-/
namespace Clr.VBin
open Clr.JSON (Ty Flds Tys Mem FldInfo Const Env strideOf Apart elemAt Effect demoEnv tInt tLevel tInner tBase tOuter outerMem
  outerFields memOf)

/-! ### C37 -/

/-- **C37** (partial): saving an object, behind any other bytes, and loading what was saved with the same type, at any
address of any memory and with any bytes behind it, returns; it has read exactly the bytes that were written; the object
loaded has the value of the object saved in every field that is not transient, nested classes, arrays and
containers included; below the memory in use, only such fields change.

Missing from the full property: what `Supported` and `EnumsNamed` exclude (pointers, enums not of four bytes or with a
value that has no name, dictionaries with keys of class type, overlapping bases, names with the same hash).  See the
negations below for why these are needed. -/
theorem C37_round_trip_partial {e : Env} {t : Ty} (hs : Supported e t) {m : Mem} {a : Nat} (hn : EnumsNamed e m t a)
    (before : Bytes) :
    ∃ saved, save e m t a before = .ok (before ++ saved) ∧
      ∀ (after : Bytes) (m0 : Mem) (b : Nat), b + t.size ≤ m0.next → (before ++ saved ++ after).length < 2 ^ 31 →
        ∃ m1, Returns (fun n => load e n t b ⟨before ++ saved ++ after, before.length, m0, false⟩)
            (.ok () ⟨before ++ saved ++ after, ((before ++ saved).length : Nat), m1, false⟩) ∧
          Equal e m m1 t a b ∧ Effect m0 m1 (Shared e t t b) := by
  refine ⟨_, save_ok hs m a before, fun after m0 b hb hlen => ?_⟩
  obtain ⟨m1, h1, h2⟩ := load_saved (versions_refl hs) hs hs a b m0 hb before after hlen
  exact ⟨m1, h2, equal_of_got hs hn h1.got, h1.eff⟩

/-- Where loading can change memory: in fields that can be loaded. -/
theorem shared_field {e : Env} {t : Ty} {h : BitVec 32} {s : Nat} {fl : BitVec 32} {fs : Flds} {bs : Tys} {b z : Nat}
    (hs : Supported e (.cls h s fl fs bs)) (hz : Shared e t (.cls h s fl fs bs) b z) :
    ∃ y ∈ loadFields e (.cls h s fl fs bs), (b + y.1.offset ≤ z ∧ z < b + y.1.offset + y.1.extent y.2) ∧
      ∃ x ∈ t.savedFields e, nameHash x = nameHash y ∧ x.2.hash = y.2.hash := by
  cases hs with
  | cls _ _ _ _ _ bases names plain types inside apart =>
    cases hz with
    | @one h h' s s' fl fl' fs fs' bs bs' b z x y hx hy hn ht hc hc' hz =>
      exact ⟨y, hy, cellShared_within (.inl ⟨hc, hc', hz⟩) (types y hy) (plain y hy).1, x, hx, hn, ht⟩
    | @arr h h' s s' fl fl' fs fs' bs bs' b z n n' i x y hx hy hn ht hc hc' hi hi' hz =>
      exact ⟨y, hy, cellShared_within (.inr ⟨n, n', i, hc, hc', hi, hi', hz⟩) (types y hy) (plain y hy).1, x, hx, hn, ht⟩

/-- **C37** (partial), the transient fields: loading leaves the bytes of a transient field, and whatever else lies
in the object apart from the fields that are loaded, as they were. -/
theorem C37_transient_untouched_partial {e : Env} {h : BitVec 32} {s : Nat} {fl : BitVec 32} {fs : Flds} {bs : Tys}
    (hs : Supported e (.cls h s fl fs bs)) {m : Mem} {a : Nat} (before after : Bytes) (m0 : Mem) (b : Nat) (hb : b + s ≤ m0.next)
    (f : FldInfo × Ty) (hin : f.1.offset + f.1.extent f.2 ≤ s)
    (hap : ∀ y ∈ loadFields e (.cls h s fl fs bs), Apart f y) :
    ∃ saved, save e m (.cls h s fl fs bs) a before = .ok (before ++ saved) ∧
      ((before ++ saved ++ after).length < 2 ^ 31 →
        ∃ m1, Returns (fun n => load e n (.cls h s fl fs bs) b ⟨before ++ saved ++ after, before.length, m0, false⟩)
            (.ok () ⟨before ++ saved ++ after, ((before ++ saved).length : Nat), m1, false⟩) ∧
          ∀ z, b + f.1.offset ≤ z → z < b + f.1.offset + f.1.extent f.2 → m1.byte z = m0.byte z ∧ m1.elems z = m0.elems z) := by
  refine ⟨_, save_ok hs m a before, fun hlen => ?_⟩
  obtain ⟨m1, h1, h2⟩ := load_saved (versions_refl hs) hs hs a b m0 hb before after hlen
  refine ⟨m1, h2, fun z hz1 hz2 => ?_⟩
  have hnot : ¬ Shared e (.cls h s fl fs bs) (.cls h s fl fs bs) b z := by
    intro hz
    obtain ⟨y, hy, hw, -⟩ := shared_field hs hz
    have := hap y hy
    unfold Apart at this
    omega
  exact ⟨h1.eff.byte z (by omega) hnot, h1.eff.elems z (by omega) hnot⟩

/-! ### C38 -/

/-- **C38** (partial): what was saved with one version of a type loads with another.  It returns, having read
exactly the bytes that were written; every field (element of an array or container) that both versions have with the same
name and type has got the saved value, or keeps its own if the type is a native one whose size is another now (`Got`); and
nothing else changes (`Shared`).

Missing from the full property: what `Supported` excludes, as in C37, and what `Versions` excludes: a C array that becomes a
single value or the reverse, and a C array whose element type becomes one of another name.  See the negations below. -/
theorem C38_versions_partial {e : Env} {t t' : Ty} (hv : Versions e t t') (hs : Supported e t) (hs' : Supported e t') (m : Mem)
    (a : Nat) (before : Bytes) :
    ∃ saved, save e m t a before = .ok (before ++ saved) ∧
      ∀ (after : Bytes) (m0 : Mem) (b : Nat), b + t'.size ≤ m0.next → (before ++ saved ++ after).length < 2 ^ 31 →
        ∃ m1, Returns (fun n => load e n t' b ⟨before ++ saved ++ after, before.length, m0, false⟩)
            (.ok () ⟨before ++ saved ++ after, ((before ++ saved).length : Nat), m1, false⟩) ∧
          Got e m m1 (fun x => m0.next ≤ x ∧ x < m1.next) m0 t t' a b ∧ Effect m0 m1 (Shared e t t' b) := by
  refine ⟨_, save_ok hs m a before, fun after m0 b hb hlen => ?_⟩
  obtain ⟨m1, h1, h2⟩ := load_saved hv hs hs' a b m0 hb before after hlen
  exact ⟨m1, h2, h1.got, h1.eff⟩

/-- **C38** (partial), new and retyped fields: a field of the new version for which the old version saved none of the
same name and type keeps its value. -/
theorem C38_new_fields_keep_partial {e : Env} {t : Ty} {h : BitVec 32} {s : Nat} {fl : BitVec 32} {fs : Flds} {bs : Tys}
    (hv : Versions e t (.cls h s fl fs bs)) (hs : Supported e t) (hs' : Supported e (.cls h s fl fs bs)) (m : Mem) (a : Nat)
    (before : Bytes) :
    ∃ saved, save e m t a before = .ok (before ++ saved) ∧
      ∀ (after : Bytes) (m0 : Mem) (b : Nat), b + s ≤ m0.next → (before ++ saved ++ after).length < 2 ^ 31 →
        ∃ m1, Returns (fun n => load e n (.cls h s fl fs bs) b ⟨before ++ saved ++ after, before.length, m0, false⟩)
            (.ok () ⟨before ++ saved ++ after, ((before ++ saved).length : Nat), m1, false⟩) ∧
          ∀ y ∈ loadFields e (.cls h s fl fs bs), (∀ x ∈ t.savedFields e, ¬ (nameHash x = nameHash y ∧ x.2.hash = y.2.hash)) →
            ∀ z, b + y.1.offset ≤ z → z < b + y.1.offset + y.1.extent y.2 → m1.byte z = m0.byte z ∧ m1.elems z = m0.elems z := by
  refine ⟨_, save_ok hs m a before, fun after m0 b hb hlen => ?_⟩
  obtain ⟨m1, h1, h2⟩ := load_saved hv hs hs' a b m0 hb before after hlen
  refine ⟨m1, h2, fun y hy hno z hz1 hz2 => ?_⟩
  have hnot : ¬ Shared e t (.cls h s fl fs bs) b z := by
    intro hz
    obtain ⟨y', hy', hw, x, hx, hn, ht⟩ := shared_field hs' hz
    cases hs' with
    | cls _ _ _ _ _ bases names plain types inside apart =>
      have := pairwise_apart apart hy hy' (fun he => hno x hx (by rw [he]; exact ⟨hn, ht⟩))
      unfold Apart at this
      omega
  have hin : y.1.offset + y.1.extent y.2 ≤ s := by
    cases hs' with
    | cls _ _ _ _ _ bases names plain types inside apart => exact inside y hy
  exact ⟨h1.eff.byte z (by omega) hnot, h1.eff.elems z (by omega) hnot⟩

/-- **C38** (partial), another type altogether: an object loaded with a type of another name is skipped, and nothing
changes. -/
theorem C38_other_type_skipped_partial {e : Env} {t t' : Ty} (hne : t.hash ≠ t'.hash) (hs : Supported e t) (m : Mem) (a : Nat)
    (before : Bytes) :
    ∃ saved, save e m t a before = .ok (before ++ saved) ∧
      ∀ (after : Bytes) (m0 : Mem) (b : Nat), (before ++ saved ++ after).length < 2 ^ 31 →
        Returns (fun n => load e n t' b ⟨before ++ saved ++ after, before.length, m0, false⟩)
          (.ok () ⟨before ++ saved ++ after, ((before ++ saved).length : Nat), m0, false⟩) := by
  refine ⟨_, save_ok hs m a before, fun after m0 b hlen => ?_⟩
  generalize hd : before ++ encChunk t.hash 0 (enc e m t a) ++ after = data at hlen
  have hhas : Has ⟨data, before.length, m0, false⟩ (encChunk t.hash 0 (enc e m t a) ++ after) := by
    refine ⟨by simp, hlen, ?_, ?_⟩
    · simp [← hd]
    · show List.take _ (List.drop before.length data) = _
      rw [← hd, List.append_assoc, List.drop_left, List.take_length]
  obtain ⟨hrd, hc⟩ := cell_len hhas
  refine ⟨1, fun n hn => ?_⟩
  obtain ⟨n, rfl⟩ : ∃ k, n = k + 1 := ⟨n - 1, by omega⟩
  show load e (n + 1) t' b _ = _
  rw [load, run_bind hrd, loadObject_ne (fun h => hne (BitVec.eq_of_toNat_eq h)), seek_has hc.left]
  congr 1
  simp only [adv, List.length_append]
  congr 1
  simp [encChunk, length_le]
  omega

/-! ### C39 -/

/-- Why a call stopped, or `none` if it returned. -/
def Out.why {α : Type} : Out α → Option Stop
  | .ok _ _ => none
  | .stop k _ => some k

/-- A call that has not run out of steps does the same with more of them. -/
theorem returns_of {e : Env} {t : Ty} {b N : Nat} {s : St} (h : (load e N t b s).why ≠ some .fuel) :
    Returns (fun n => load e n t b s) (load e N t b s) := by
  refine ⟨N, fun n hn => ?_⟩
  rcases approx_load e t b N n hn s with ⟨s', h1⟩ | h1
  · rw [h1] at h
    exact absurd rfl h
  · exact h1.symm

/-- **C39** (partial): on any bytes (less than 2 GB), from any position, loading any type returns or stops, unless it
seeks backwards.  If the type has no template types that are not containers and no enums of less than four
bytes, what it stops at is a failed assertion or a container's count at the very end of the buffer (`over`).

Missing from the full property: that case, and data that seeks backwards; see the negations. -/
theorem C39_ends_partial (e : Env) (t : Ty) (b : Nat) (s : St) (hpos : 0 ≤ s.pos) (hend : s.pos ≤ s.data.length)
    (hlen : s.data.length < 2 ^ 31) (hback : s.back = false) :
    (∃ r, Returns (fun n => load e n t b s) r ∧ r.why ≠ some .fuel ∧
      (r.st.back = false → Clean t → r.why = none ∨ r.why = some .trap ∨ r.why = some .over)) ∨
    (∀ n, sizeOf t + s.data.length + 2 ≤ n → ∃ s', load e n t b s = .stop .fuel s' ∧ s'.back = true) := by
  have hf : Fwd s := ⟨hback, hpos, hend, hlen⟩
  by_cases hd : ∃ n, (load e n t b s).why ≠ some .fuel
  · left
    obtain ⟨n, hn⟩ := hd
    refine ⟨_, returns_of hn, hn, fun hb hc => ?_⟩
    obtain ⟨N, hN⟩ := returns_of hn
    have hN' := hN (max N (sizeOf t + s.data.length + 2)) (Nat.le_max_left _ _)
    have hfine := fine_load (ub := False) (L := s.data.length) e t b (max N (sizeOf t + s.data.length + 2)) (.inr hc)
      (Nat.le_max_right _ _)
    cases hr : load e n t b s with
    | ok v s' => left; rfl
    | stop k s' =>
      rw [hr] at hN' hb
      have := hfine.stop s k s' hf (Nat.le_refl _) hN' hb
      right
      cases k with
      | trap => left; rfl
      | ub => exact (this.2 rfl).elim
      | over => right; rfl
      | fuel => exact absurd rfl this.1
  · right
    intro n hn
    have hfine := fine_load (ub := True) (L := s.data.length) e t b n (.inl trivial) hn
    cases hr : load e n t b s with
    | ok v s' => exact absurd ⟨n, by rw [hr]; simp [Out.why]⟩ hd
    | stop k s' =>
      have hk : k = .fuel := by
        cases k with
        | fuel => rfl
        | _ => exact absurd ⟨n, by rw [hr]; simp [Out.why]⟩ hd
      subst hk
      refine ⟨s', rfl, ?_⟩
      cases hb : s'.back with
      | true => rfl
      | false => exact absurd rfl (hfine.stop s _ s' hf (Nat.le_refl _) hr hb).1

/-- **C39** (partial), data in which no byte has its top bit set (so no size is negative): loading any type returns or
stops at an assertion or a container's count at the very end. -/
theorem C39_ends_low_partial (e : Env) (t : Ty) (hc : Clean t) (b : Nat) (data : Bytes) (m : Mem) (hlen : data.length < 2 ^ 31)
    (hlow : ∀ x ∈ data, x < 128) :
    ∃ r, Returns (fun n => load e n t b ⟨data, 0, m, false⟩) r ∧
      (r.why = none ∨ r.why = some .trap ∨ r.why = some .over) := by
  have hsafe : ∀ n, (load e n t b ⟨data, 0, m, false⟩).st.back = false := fun n =>
    (safe_load e t b n).back ⟨data, 0, m, false⟩ hlow rfl
  rcases C39_ends_partial e t b ⟨data, 0, m, false⟩ (Int.le_refl 0) (by show (0 : Int) ≤ (data.length : Int); omega) hlen rfl with
    ⟨r, h1, h2, h3⟩ | h
  · refine ⟨r, h1, h3 ?_ hc⟩
    obtain ⟨N, hN⟩ := h1
    have := hN N (Nat.le_refl N)
    rw [← this]
    exact hsafe N
  · obtain ⟨s', h1, h2⟩ := h _ (Nat.le_refl _)
    have := hsafe (sizeOf t + data.length + 2)
    rw [show load e (sizeOf t + data.length + 2) t b ⟨data, 0, m, false⟩ = .stop .fuel s' from h1] at this
    simp only [Out.st] at this
    rw [h2] at this
    cases this

/-! ### Types and objects that meet the hypotheses -/

/-- A dictionary from `int` to `Inner`. -/
def tMap (inner : Ty) : Ty := .dict (Hash.hashText b!"Map<int,Inner>") 8 tInt inner false

/-- A container of `Inner`. -/
def tList (inner : Ty) : Ty := .vec (Hash.hashText b!"Vec<Inner>") 8 inner false

/-- The fields of `Doc`. -/
def docFields : Flds :=
  .cons { name := b!"level", offset := 4 } tLevel
  (.cons { name := b!"inner", offset := 8 } tInner
  (.cons { name := b!"pair", offset := 16, count := some 2 } tInt
  (.cons { name := b!"list", offset := 24 } (tList tInner)
  (.cons { name := b!"cache", offset := 32, flags := 1 } tInt
  (.cons { name := b!"map", offset := 40 } (tMap tInner) .nil)))))

/-- `struct Doc : Base { Level level; Inner inner; int pair[2]; Vec<Inner> list; clattr(transient) int cache;
Map<int,Inner> map; }`. -/
def tDoc : Ty := .cls (Hash.hashText b!"Doc") 48 0 docFields (.cons tBase .nil)

/-- A later version of `Inner`: `struct Inner { int b; float c; }`. -/
def tInner2 : Ty := .cls (Hash.hashText b!"Inner") 8 0
  (.cons { name := b!"b", offset := 0 } tInt
    (.cons { name := b!"c", offset := 4 } (.prim (Hash.hashText b!"float") 4) .nil)) .nil

/-- A later version of `Level`. -/
def tLevel2 : Ty := .enum (Hash.hashText b!"Level") 4 [⟨b!"Mid", 5⟩, ⟨b!"High", 7⟩] false

/-- The fields of the later version of `Doc`. -/
def doc2Fields : Flds :=
  .cons { name := b!"id", offset := 0 } tInt
  (.cons { name := b!"pair", offset := 4, count := some 3 } tInt
  (.cons { name := b!"list", offset := 16 } (tList tInner2)
  (.cons { name := b!"level", offset := 24 } tLevel2
  (.cons { name := b!"inner", offset := 28 } (.prim (Hash.hashText b!"float") 4)
  (.cons { name := b!"extra", offset := 32 } tInt
  (.cons { name := b!"map", offset := 40 } (tMap tInner2) .nil))))))

/-- A later version of `Doc`: no base class, `pair` is longer, `inner` is a `float`, `cache` is gone, `extra` is new, and
everything has moved. -/
def tDoc2 : Ty := .cls (Hash.hashText b!"Doc") 48 0 doc2Fields .nil

theorem int_supported : Supported demoEnv tInt := .prim _ 4 (by decide)

theorem level_supported : Supported demoEnv tLevel := .enum _ _ _ (by decide +kernel)

theorem level2_supported : Supported demoEnv tLevel2 := .enum _ _ _ (by decide +kernel)

theorem inner_supported : Supported demoEnv tInner := by
  refine .cls _ _ _ _ _ ⟨⟩ (by decide +kernel) (by decide +kernel) (fun x hx => ?_) (by decide +kernel) (by decide +kernel)
  have hl : loadFields demoEnv tInner = [({ name := b!"a", offset := 0 }, .prim (Hash.hashText b!"short") 2),
    ({ name := b!"b", offset := 4 }, tInt)] := rfl
  have hx : x ∈ loadFields demoEnv tInner := hx
  rw [hl] at hx
  simp only [List.mem_cons, List.not_mem_nil, or_false] at hx
  rcases hx with rfl | rfl
  · exact .prim _ 2 (by decide)
  · exact int_supported

theorem inner2_supported : Supported demoEnv tInner2 := by
  refine .cls _ _ _ _ _ ⟨⟩ (by decide +kernel) (by decide +kernel) (fun x hx => ?_) (by decide +kernel) (by decide +kernel)
  have hl : loadFields demoEnv tInner2 = [({ name := b!"b", offset := 0 }, tInt),
    ({ name := b!"c", offset := 4 }, .prim (Hash.hashText b!"float") 4)] := rfl
  have hx : x ∈ loadFields demoEnv tInner2 := hx
  rw [hl] at hx
  simp only [List.mem_cons, List.not_mem_nil, or_false] at hx
  rcases hx with rfl | rfl
  · exact int_supported
  · exact .prim _ 4 (by decide)

/-- The fields of `Doc` that are saved. -/
def docSaved : List (FldInfo × Ty) :=
  [({ name := b!"level", offset := 4 }, tLevel), ({ name := b!"inner", offset := 8 }, tInner),
   ({ name := b!"pair", offset := 16, count := some 2 }, tInt), ({ name := b!"list", offset := 24 }, tList tInner),
   ({ name := b!"map", offset := 40 }, tMap tInner), ({ name := b!"id", offset := 0 }, tInt)]

/-- The fields of the later `Doc`. -/
def doc2Load : List (FldInfo × Ty) :=
  [({ name := b!"id", offset := 0 }, tInt), ({ name := b!"pair", offset := 4, count := some 3 }, tInt),
   ({ name := b!"list", offset := 16 }, tList tInner2), ({ name := b!"level", offset := 24 }, tLevel2),
   ({ name := b!"inner", offset := 28 }, .prim (Hash.hashText b!"float") 4), ({ name := b!"extra", offset := 32 }, tInt),
   ({ name := b!"map", offset := 40 }, tMap tInner2)]

theorem doc_supported : Supported demoEnv tDoc := by
  refine .cls _ _ _ _ _ ⟨⟨⟩, ⟨⟩⟩ (by decide +kernel) (by decide +kernel) (fun x hx => ?_) (by decide +kernel) (by decide +kernel)
  have hl : loadFields demoEnv tDoc = docSaved := rfl
  have hx : x ∈ loadFields demoEnv tDoc := hx
  rw [hl, docSaved] at hx
  simp only [List.mem_cons, List.not_mem_nil, or_false] at hx
  rcases hx with rfl | rfl | rfl | rfl | rfl | rfl
  · exact level_supported
  · exact inner_supported
  · exact int_supported
  · exact .vec _ _ _ (by decide) (by decide) inner_supported
  · exact .dict _ _ _ _ (by decide) (by decide) int_supported inner_supported (by decide) (.inl ⟨_, _, rfl⟩)
  · exact int_supported

theorem doc2_supported : Supported demoEnv tDoc2 := by
  refine .cls _ _ _ _ _ ⟨⟩ (by decide +kernel) (by decide +kernel) (fun x hx => ?_) (by decide +kernel) (by decide +kernel)
  have hl : loadFields demoEnv tDoc2 = doc2Load := rfl
  have hx : x ∈ loadFields demoEnv tDoc2 := hx
  rw [hl, doc2Load] at hx
  simp only [List.mem_cons, List.not_mem_nil, or_false] at hx
  rcases hx with rfl | rfl | rfl | rfl | rfl | rfl | rfl
  · exact int_supported
  · exact int_supported
  · exact .vec _ _ _ (by decide) (by decide) inner2_supported
  · exact level2_supported
  · exact .prim _ 4 (by decide)
  · exact int_supported
  · exact .dict _ _ _ _ (by decide) (by decide) int_supported inner2_supported (by decide) (.inl ⟨_, _, rfl⟩)

theorem inner_versions : Versions demoEnv tInner tInner2 := by
  refine .cls _ _ _ _ _ _ _ _ _ (by decide +kernel) (fun x hx y hy hn ht => ?_)
  have hx : x ∈ tInner.savedFields demoEnv := hx
  have hy : y ∈ loadFields demoEnv tInner2 := hy
  have hl : tInner.savedFields demoEnv = [({ name := b!"a", offset := 0 }, .prim (Hash.hashText b!"short") 2),
    ({ name := b!"b", offset := 4 }, tInt)] := rfl
  have hl2 : loadFields demoEnv tInner2 = [({ name := b!"b", offset := 0 }, tInt),
    ({ name := b!"c", offset := 4 }, .prim (Hash.hashText b!"float") 4)] := rfl
  rw [hl] at hx
  rw [hl2] at hy
  simp only [List.mem_cons, List.not_mem_nil, or_false] at hx hy
  rcases hx with rfl | rfl <;> rcases hy with rfl | rfl
  · exact absurd hn (by decide +kernel)
  · exact absurd hn (by decide +kernel)
  · exact .prim _ _ _
  · exact absurd hn (by decide +kernel)

theorem doc_versions : Versions demoEnv tDoc tDoc2 := by
  refine .cls _ _ _ _ _ _ _ _ _ (by decide +kernel) (fun x hx y hy hn ht => ?_)
  have hx : x ∈ tDoc.savedFields demoEnv := hx
  have hy : y ∈ loadFields demoEnv tDoc2 := hy
  have hl : tDoc.savedFields demoEnv = docSaved := rfl
  have hl2 : loadFields demoEnv tDoc2 = doc2Load := rfl
  rw [hl, docSaved] at hx
  rw [hl2, doc2Load] at hy
  simp only [List.mem_cons, List.not_mem_nil, or_false] at hx hy
  rcases hx with rfl | rfl | rfl | rfl | rfl | rfl <;> rcases hy with rfl | rfl | rfl | rfl | rfl | rfl | rfl <;>
    first
    | exact absurd hn (by decide +kernel)
    | exact absurd ht (by decide +kernel)
    | exact .prim _ _ _
    | exact .enum _ _ _ _ _
    | exact .vec _ _ _ _ _ inner_versions
    | exact .dict _ _ _ _ _ _ _ (.prim _ _ _) inner_versions

/-- A `Doc` at address 0: two elements in its list (at 100 and 108) and one in its map (the key at 120, the value at
124). -/
def docMem : Mem :=
  { byte := fun x =>
      if x < 40 then (b!"\x2A\x00\x00\x00\x05\x00\x00\x00\xFF\xFF\x00\x00\x07\x00\x00\x00\x01\x00\x00\x00\x02\x00\x00\x00").getD x 9
      else if x = 104 then 3 else if x = 112 then 4 else if x = 120 then 1 else if x = 128 then 8 else 0
    elems := fun x => if x = 24 then [(0, 100), (0, 108)] else if x = 40 then [(120, 124)] else []
    next := 1000 }

theorem doc_enums : EnumsNamed demoEnv docMem tDoc 0 := by
  have hinner : ∀ a, EnumsNamed demoEnv docMem tInner a := by
    intro a
    refine .cls (fun x hx _ => ?_) (fun x hx n hn i hi => ?_)
    all_goals
      have hx : x ∈ tInner.savedFields demoEnv := hx
      have hl : tInner.savedFields demoEnv = [({ name := b!"a", offset := 0 }, .prim (Hash.hashText b!"short") 2),
        ({ name := b!"b", offset := 4 }, tInt)] := rfl
      rw [hl] at hx
      simp only [List.mem_cons, List.not_mem_nil, or_false] at hx
      rcases hx with rfl | rfl <;> exact .prim
  refine .cls (fun x hx hc => ?_) (fun x hx n hn i hi => ?_)
  all_goals
    have hx : x ∈ tDoc.savedFields demoEnv := hx
    have hl : tDoc.savedFields demoEnv = docSaved := rfl
    rw [hl, docSaved] at hx
    simp only [List.mem_cons, List.not_mem_nil, or_false] at hx
    rcases hx with rfl | rfl | rfl | rfl | rfl | rfl
  · exact .enum ⟨⟨b!"High", 5⟩, by simp, by decide +kernel⟩ (by decide +kernel)
  · exact hinner _
  · exact .prim
  · exact .vec fun i hi => hinner _
  · exact .dict (fun i hi => .prim) fun i hi => hinner _
  · exact .prim
  all_goals first | exact .prim | cases hn

/-- The hypotheses of C37 are met by a class with a base class, an enum, a nested class, an array, a container of
classes, a dictionary and a transient field. -/
example : ∃ saved, save demoEnv docMem tDoc 0 [] = .ok ([] ++ saved) ∧
    ((saved ++ [1, 2, 3]).length < 2 ^ 31 → ∃ m1 N, load demoEnv N tDoc 200 ⟨saved ++ [1, 2, 3], 0, docMem, false⟩ =
      .ok () ⟨saved ++ [1, 2, 3], saved.length, m1, false⟩ ∧ Equal demoEnv docMem m1 tDoc 0 200) := by
  obtain ⟨saved, h1, h2⟩ := C37_round_trip_partial doc_supported doc_enums []
  refine ⟨saved, h1, fun hlen => ?_⟩
  obtain ⟨m1, ⟨N, hN⟩, h3, -⟩ := h2 [1, 2, 3] docMem 200 (by decide) hlen
  exact ⟨m1, N, hN N (Nat.le_refl N), h3⟩

/-- Those of C38, by a class that has been changed in many ways. -/
example : ∃ saved, save demoEnv docMem tDoc 0 [] = .ok ([] ++ saved) ∧
    ((saved ++ [1, 2, 3]).length < 2 ^ 31 → ∃ m1 N, load demoEnv N tDoc2 200 ⟨saved ++ [1, 2, 3], 0, docMem, false⟩ =
      .ok () ⟨saved ++ [1, 2, 3], saved.length, m1, false⟩) := by
  obtain ⟨saved, h1, h2⟩ := C38_versions_partial doc_versions doc_supported doc2_supported docMem 0 []
  refine ⟨saved, h1, fun hlen => ?_⟩
  obtain ⟨m1, ⟨N, hN⟩, -⟩ := h2 [1, 2, 3] docMem 200 (by decide) hlen
  exact ⟨m1, N, hN N (Nat.le_refl N)⟩

/-- What an example looks at: why it stopped, the position, whether it has sought backwards, and some bytes. -/
def view (r : Out Unit) (a n : Nat) : Option Stop × Int × Bool × Bytes := (r.why, r.st.pos, r.st.back, r.st.mem.read a n)

/-- What was saved, loaded: `none` if saving fails. -/
def saveLoad (e : Env) (n : Nat) (t t' : Ty) (m : Mem) (a b k : Nat) : Option (Nat × Option Stop × Int × Bool × Bytes) :=
  match save e m t a [] with
  | .ok d => some (d.length, view (load e n t' b ⟨d, 0, m, false⟩) b k)
  | _ => none

/-- An `int` that is of eight bytes now is skipped. -/
example : Versions demoEnv tInt (.prim (Hash.hashText b!"int") 8) ∧ saveLoad demoEnv 1000 tInt (.prim (Hash.hashText b!"int") 8) docMem 0 12 8 =
    some (16, none, 16, false, docMem.read 12 8) := ⟨.prim _ _ _, by decide +kernel⟩

/-- The later version of `Doc`, loaded: `id`, two elements of `pair`, the container (elsewhere), the renumbered
`level`, and nothing in the rest. -/
example : saveLoad demoEnv 1000 tDoc tDoc2 docMem 0 200 48 = some (296, none, 296, false,
    [42, 0, 0, 0, 1, 0, 0, 0, 2, 0, 0, 0, 0, 0, 0, 0, 0, 0, 0, 0, 0, 0, 0, 0, 7, 0, 0, 0, 0, 0, 0, 0, 0, 0, 0, 0, 0, 0, 0, 0,
     0, 0, 0, 0, 0, 0, 0, 0]) := by
  decide +kernel

/-- The outcome does not depend on the number of steps, once there are enough. -/
theorem saveLoad_mono {e : Env} {n n' : Nat} {t t' : Ty} {m : Mem} {a b k : Nat} {v : Nat × Option Stop × Int × Bool × Bytes}
    (h : saveLoad e n t t' m a b k = some v) (hv : v.2.1 ≠ some .fuel) (hn : n ≤ n') : saveLoad e n' t t' m a b k = some v := by
  unfold saveLoad at h ⊢
  cases hs : save e m t a [] with
  | ok d =>
    rw [hs] at h
    simp only [] at h ⊢
    rcases approx_load e t' b n n' hn ⟨d, 0, m, false⟩ with ⟨s', h1⟩ | h1
    · rw [h1] at h
      cases h
      exact absurd rfl hv
    · rw [← h1]; exact h
  | trap => rw [hs] at h; cases h
  | ub => rw [hs] at h; cases h

/-! ### Where C37 fails -/

/-- A class without bases. -/
def plainClass (name : Bytes) (size : Nat) (fs : Flds) : Ty := .cls (Hash.hashText name) size 0 fs .nil

/-- `float`. -/
def tFloat : Ty := .prim (Hash.hashText b!"float") 4

/-- C37 is false for pointers: of a pointer to `int` (eight bytes), the first four bytes are saved (`SaveObject` with the type of
what is pointed to, SerialiseVersionedBinary.cpp:262-271), so the pointer that is loaded is another one. -/
theorem C37_pointer_negation :
    let t := plainClass b!"P" 8 (.cons { name := b!"p", offset := 0, isPtr := true } tInt .nil)
    ∀ n, 1000 ≤ n → saveLoad demoEnv n t t (memOf [1, 2, 3, 4, 5, 6, 7, 8]) 0 200 8 =
      some (28, none, 28, false, [1, 2, 3, 4, 0, 0, 0, 0]) := by
  intro t n hn
  exact saveLoad_mono (by decide +kernel) (by decide) hn

/-- C37 is false for arrays (and containers) of pointers: nothing is saved of the elements (SerialiseVersionedBinary.cpp:210-220). -/
theorem C37_pointer_elements_negation :
    let t := plainClass b!"P" 8 (.cons { name := b!"v", offset := 0, count := some 1, isPtr := true } tInt .nil)
    ∀ n, 1000 ≤ n → saveLoad demoEnv n t t (memOf [1, 2, 3, 4, 5, 6, 7, 8]) 0 200 8 =
      some (44, none, 44, false, [0, 0, 0, 0, 0, 0, 0, 0]) := by
  intro t n hn
  exact saveLoad_mono (by decide +kernel) (by decide) hn

/-- C37 is false for a value of an enum that has no name: it is not loaded. -/
theorem C37_unnamed_value_negation :
    let t := plainClass b!"C" 4 (.cons { name := b!"level", offset := 0 } tLevel .nil)
    ∀ n, 1000 ≤ n → saveLoad demoEnv n t t (memOf [3, 0, 0, 0]) 0 200 4 = some (28, none, 28, false, [0, 0, 0, 0]) := by
  intro t n hn
  exact saveLoad_mono (by decide +kernel) (by decide) hn

/-- C37 is false for an enum of eight bytes: the hash that is saved has four, and is skipped (SerialiseVersionedBinary.cpp:352-356). -/
theorem C37_wide_enum_negation :
    let t := plainClass b!"C" 8 (.cons { name := b!"e", offset := 0 } (.enum (Hash.hashText b!"E") 8 [⟨b!"X", 0⟩, ⟨b!"Y", 1⟩] false) .nil)
    ∀ n, 1000 ≤ n → saveLoad demoEnv n t t (memOf [1, 0, 0, 0, 0, 0, 0, 0]) 0 200 8 =
      some (28, none, 28, false, [0, 0, 0, 0, 0, 0, 0, 0]) := by
  intro t n hn
  exact saveLoad_mono (by decide +kernel) (by decide) hn

/-- C37 is false for an enum of one byte: four bytes are read from the object (SerialiseVersionedBinary.cpp:171). -/
theorem C37_narrow_enum_negation (m : Mem) (a : Nat) (out : Bytes) :
    save demoEnv m (.enum (Hash.hashText b!"E") 1 [⟨b!"X", 0⟩, ⟨b!"Y", 1⟩] false) a out = .ub := rfl

/-- C37 is false with two base classes: both are saved as if they were at the address of the object. -/
theorem C37_two_bases_negation :
    ∀ n, 1000 ≤ n → saveLoad demoEnv n Clr.JSON.tTwo Clr.JSON.tTwo (memOf [1, 0, 0, 0, 2, 0, 0, 0]) 0 200 8 =
      some (44, none, 44, false, [1, 0, 0, 0, 0, 0, 0, 0]) := by
  intro n hn
  exact saveLoad_mono (by decide +kernel) (by decide) hn

/-- `struct Pt { int x; int y; }`. -/
def tPt : Ty := plainClass b!"Pt" 8 (.cons { name := b!"x", offset := 0 } tInt (.cons { name := b!"y", offset := 4 } tInt .nil))

/-- A dictionary at 0 with one entry: the key at 16, the value at 24. -/
def keyMem : Mem := { memOf [0, 0, 0, 0, 0, 0, 0, 0, 0, 0, 0, 0, 0, 0, 0, 0, 1, 0, 0, 0, 2, 0, 0, 0, 7] with
  elems := fun x => if x = 0 then [(16, 24)] else [] }

/-- C37 is false for a dictionary with keys of a class: the size of the class is taken for the number of bytes that were saved of it
(SerialiseVersionedBinary.cpp:409), so loading goes on in the middle of the key, until an assertion fails. -/
theorem C37_class_keys_negation :
    let t := plainClass b!"K" 8 (.cons { name := b!"m", offset := 0 } (.dict (Hash.hashText b!"M") 8 tPt tInt false) .nil)
    ∀ n, 1000 ≤ n → saveLoad demoEnv n t t keyMem 0 200 8 = some (80, some .trap, 78, false, [0, 0, 0, 0, 0, 0, 0, 0]) := by
  intro t n hn
  exact saveLoad_mono (by decide +kernel) (by decide) hn

/-! ### Where C38 fails -/

/-- C38 is false when the element type of an array changes: `data_size` is skipped after the container's header, which it includes, has
been read (SerialiseVersionedBinary.cpp:391-396), so what comes next is lost; here, an assertion fails. -/
theorem C38_array_type_negation :
    let t := plainClass b!"A" 12 (.cons { name := b!"a", offset := 0, count := some 2 } tInt
      (.cons { name := b!"b", offset := 8 } tInt .nil))
    let t' := plainClass b!"A" 12 (.cons { name := b!"a", offset := 0, count := some 2 } tFloat
      (.cons { name := b!"b", offset := 8 } tInt .nil))
    ∀ n, 1000 ≤ n → saveLoad demoEnv n t t' (memOf [1, 0, 0, 0, 2, 0, 0, 0, 3]) 0 200 12 =
      some (68, some .trap, 44, false, [0, 0, 0, 0, 0, 0, 0, 0, 0, 0, 0, 0]) := by
  intro t t' n hn
  exact saveLoad_mono (by decide +kernel) (by decide) hn

/-- C38 is false when a field becomes an array: its value is read as a container's header. -/
theorem C38_becomes_array_negation :
    let t := plainClass b!"A" 8 (.cons { name := b!"a", offset := 0 } tInt (.cons { name := b!"b", offset := 4 } tInt .nil))
    let t' := plainClass b!"A" 12 (.cons { name := b!"a", offset := 0, count := some 2 } tInt
      (.cons { name := b!"b", offset := 8 } tInt .nil))
    ∀ n, 1000 ≤ n → saveLoad demoEnv n t t' (memOf [1, 0, 0, 0, 2, 0, 0, 0]) 0 200 12 =
      some (44, some .trap, 44, false, [0, 0, 0, 0, 0, 0, 0, 0, 0, 0, 0, 0]) := by
  intro t t' n hn
  exact saveLoad_mono (by decide +kernel) (by decide) hn

/-- C38 is false when an array of a class becomes a single object: the container's header is read as a field. -/
theorem C38_becomes_single_negation :
    let t := plainClass b!"A" 20 (.cons { name := b!"a", offset := 0, count := some 2 } tPt
      (.cons { name := b!"b", offset := 16 } tInt .nil))
    let t' := plainClass b!"A" 20 (.cons { name := b!"a", offset := 0 } tPt (.cons { name := b!"b", offset := 16 } tInt .nil))
    ∀ n, 1000 ≤ n → ((saveLoad demoEnv n t t' (memOf [1, 0, 0, 0, 2, 0, 0, 0]) 0 200 12).map fun v => v.2.1) = some (some .trap) := by
  intro t t' n hn
  rw [saveLoad_mono (v := (132, some .trap, 92, false, [0, 0, 0, 0, 0, 0, 0, 0, 0, 0, 0, 0])) (n := 1000) (by decide +kernel) (by decide) hn]
  rfl

/-! ### Where C39 fails -/

/-- A chunk for a field: type, name and size. -/
def fieldHeader (typeHash nameHash size : Nat) : Bytes := le 4 typeHash ++ le 4 nameHash ++ le 4 size

/-- C39 is false: for every class, an object with a single field that the class does not have and of size -12, makes
loading read the field's header for ever (SerialiseVersionedBinary.cpp:556-560, Serialise.cpp:137-141). -/
theorem C39_negative_size_negation (e : Env) (h : BitVec 32) (s : Nat) (fl : BitVec 32) (fs : Flds) (bs : Tys)
    (hb : ClassBases (.cls h s fl fs bs)) (nh : BitVec 32) (hno : ∀ x ∈ (Ty.cls h s fl fs bs).allFields, nameHash x ≠ nh) (b : Nat) (m : Mem) :
    Diverges fun n => load e n (.cls h s fl fs bs) b
      ⟨fieldHeader h.toNat 0 12 ++ fieldHeader 0 nh.toNat (2 ^ 32 - 12), 0, m, false⟩ := by
  generalize hd : fieldHeader h.toNat 0 12 ++ fieldHeader 0 nh.toNat (2 ^ 32 - 12) = data
  have hlen : data.length = 24 := by rw [← hd]; simp [fieldHeader, length_le]
  have hhas : ∀ bk, Has ⟨data, 0, m, bk⟩ (fieldHeader h.toNat 0 12 ++ fieldHeader 0 nh.toNat (2 ^ 32 - 12)) := by
    intro bk
    refine ⟨Int.le_refl _, by show data.length < _; omega, ?_, ?_⟩
    · show 0 + _ ≤ data.length; rw [hd]; omega
    · rw [hd]; show List.take _ (List.drop 0 data) = _; simp
  have hchunk : ∀ {s : St} {x y z : Nat} {rest : Bytes}, Has s (fieldHeader x y z ++ rest) → x < 2 ^ 32 → y < 2 ^ 32 → z < 2 ^ 32 →
      readChunk s = .ok (x, y, z) (adv s 12) := by
    intro s x y z rest hh hx hy hz
    simp only [fieldHeader, List.append_assoc] at hh
    have h1 := readU32_has hh.left hx
    have r1 := hh.right; rw [length_le] at r1
    have h2 := readU32_has r1.left hy
    have r2 := r1.right; rw [length_le, adv_adv] at r2
    have h3 := readU32_has r2.left hz
    rw [adv_adv] at h2 h3
    rw [readChunk, run_bind h1, run_bind h2, run_bind h3]
    rfl
  have hfield : ∀ bk lo, loadField e lo (.cls h s fl fs bs) b ⟨data, 12, m, bk⟩ = .ok () ⟨data, 12, m, true⟩ := by
    intro bk lo
    have h12 : Has (adv ⟨data, 0, m, bk⟩ 12) (fieldHeader 0 nh.toNat (2 ^ 32 - 12) ++ []) := by
      have := (hhas bk).right
      simp only [fieldHeader, List.length_append, length_le] at this
      simpa [fieldHeader] using this
    have hrd := hchunk h12 (by decide) (toNat_lt32 nh) (by decide)
    have hst : (⟨data, 12, m, bk⟩ : St) = adv ⟨data, 0, m, bk⟩ 12 := rfl
    rw [hst, loadField, run_bind hrd]
    have hff := findField_eq nh.toNat _ hb
    rw [BitVec.ofNat_toNat, BitVec.setWidth_eq] at hff
    have hnone : (Ty.cls h s fl fs bs).allFields.find? (fun x => nameHash x == nh) = none := by
      rw [List.find?_eq_none]
      intro x hx
      simp [hno x hx]
    rw [hnone] at hff
    simp only [hff]
    show seekRel (2 ^ 32 - 12) ⟨data, 24, m, bk⟩ = _
    have hi : asInt (2 ^ 32 - 12) = -12 := by decide
    simp only [seekRel, hi]
    rw [if_pos (by omega)]
    simp
  have hloop : ∀ lo n bk, ∃ s', classLoop (loadField e lo (.cls h s fl fs bs) b) 24 n ⟨data, 12, m, bk⟩ = .stop .fuel s' := by
    intro lo n
    induction n with
    | zero => exact fun bk => ⟨_, rfl⟩
    | succ n ih =>
      intro bk
      obtain ⟨s', hs'⟩ := ih true
      refine ⟨s', ?_⟩
      rw [classLoop_succ, if_pos (by show (((12 : Int) % 2 ^ 32).toNat < 24); decide), hfield]
      exact hs'
  intro n
  have hrd := hchunk (hhas false) (toNat_lt32 h) (by decide) (by decide)
  cases n with
  | zero => exact ⟨adv ⟨data, 0, m, false⟩ 12, by show load e 0 _ b _ = _; rw [load, run_bind hrd]; rfl⟩
  | succ n =>
    obtain ⟨s', hs'⟩ := hloop (loadObject e n) n false
    refine ⟨s', ?_⟩
    show load e (n + 1) _ b _ = _
    rw [load, run_bind hrd]
    have hth : h.toNat = (Ty.cls h s fl fs bs).hash.toNat := rfl
    rw [loadObject_eq hth]
    exact hs'

/-- C39 is false: a container whose data ends right after its chunk's header makes loading read its count from behind
the buffer, for no assertion keeps it from that (SerialiseVersionedBinary.cpp:103-106, Serialise.cpp:131-135). -/
theorem C39_peek_negation (e : Env) (h : BitVec 32) (s : Nat) (t : Ty) (p : Bool) (size b : Nat) (hsz : size < 2 ^ 32) (m : Mem) :
    ∃ s', Returns (fun n => load e n (.vec h s t p) b ⟨fieldHeader h.toNat 0 size, 0, m, false⟩) (.stop .over s') := by
  have hlen : (fieldHeader h.toNat 0 size).length = 12 := by simp [fieldHeader, length_le]
  have hhas : Has ⟨fieldHeader h.toNat 0 size, 0, m, false⟩ (le 4 h.toNat ++ (le 4 0 ++ le 4 size)) := by
    refine ⟨Int.le_refl _, by show (fieldHeader h.toNat 0 size).length < _; omega, ?_, ?_⟩
    · show 0 + _ ≤ (fieldHeader h.toNat 0 size).length; rw [hlen]; simp [length_le]
    · show List.take _ (List.drop 0 (fieldHeader h.toNat 0 size)) = _
      simp only [fieldHeader, List.drop_zero, List.append_assoc]
      exact List.take_of_length_le (Nat.le_refl _)
  have h1 := readU32_has hhas.left (toNat_lt32 h)
  have r1 := hhas.right; rw [length_le] at r1
  have h2 := readU32_has r1.left (by decide)
  have r2 := r1.right; rw [length_le, adv_adv] at r2
  have h3 := readU32_has r2 hsz
  rw [adv_adv] at h2 h3
  refine ⟨adv ⟨fieldHeader h.toNat 0 size, 0, m, false⟩ 12, 1, fun n hn => ?_⟩
  obtain ⟨n, rfl⟩ : ∃ k, n = k + 1 := ⟨n - 1, by omega⟩
  show load e (n + 1) _ b _ = _
  have hrd : readChunk ⟨fieldHeader h.toNat 0 size, 0, m, false⟩ =
      .ok (h.toNat, 0, size) (adv ⟨fieldHeader h.toNat 0 size, 0, m, false⟩ 12) := by
    rw [readChunk, run_bind h1, run_bind h2, run_bind h3]; rfl
  rw [load, run_bind hrd]
  have hth : h.toNat = (Ty.vec h s t p).hash.toNat := rfl
  rw [loadObject_eq hth]
  show (peekCount >>= _ : Load Unit) _ = _
  have hpk : peekCount (adv ⟨fieldHeader h.toNat 0 size, 0, m, false⟩ 12) =
      .stop .over (adv ⟨fieldHeader h.toNat 0 size, 0, m, false⟩ 12) := by
    unfold peekCount
    have hp : ((adv ⟨fieldHeader h.toNat 0 size, 0, m, false⟩ 12).pos % 2 ^ 32).toNat = 12 := rfl
    have hl : (adv ⟨fieldHeader h.toNat 0 size, 0, m, false⟩ 12).data.length = 12 := hlen
    rw [if_pos (by rw [hp, hl]; omega), if_neg (by rw [hp, hl]; omega)]
  rw [bind_match, hpk]

/-- The hypotheses of `C39_ends_partial` and `C39_ends_low_partial` are met, for a class with everything in it, by every
buffer of less than 2 GB; those of `C39_negative_size_negation` by that class, too. -/
example : Clean tDoc ∧ ClassBases tDoc ∧ ∀ x ∈ tDoc.allFields, nameHash x ≠ Hash.hashText b!"nothing" := by
  refine ⟨?_, ⟨⟨⟩, ⟨⟩⟩, by decide +kernel⟩
  simp [tDoc, docFields, tBase, tLevel, tInner, tInt, tList, tMap, Clean, CleanFields, CleanBases]

end Clr.VBin
