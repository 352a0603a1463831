import Verif.Proofs.VBinCustom
import Verif.Props.VBin

/-!
C100: custom functions in the versioned binary.  Model: `Verif/Model/VBinCustom.lean`; specification:
`Verif/Props/VBinCustomSpec.lean`.
-/
namespace Clr.VBin
open Clr.JSON (Ty Flds Tys Mem FldInfo Const Env strideOf Apart elemAt Effect demoEnv tInt)

/-- **C100** (partial): a class some of whose fields are saved and loaded by functions of the program, whatever these functions
write, wherever in the buffer they stop reading.  Saving succeeds.  Loading what was saved, with the same or another version of
the class, at any address of any memory and with any bytes before and behind it, returns, having read exactly the bytes
that were written.  Every loading function whose field has been saved was called with its object and its field, standing before
exactly the bytes that were saved for the field, and what it has put into its field is there in the end; every other field
has got what was saved, as in C38; and nothing else changes: only fields that are loaded and for which something was
saved.

Missing from the full property: fields that a function saves and none loads (see the negation below); functions of fields of
classes inside the class; functions that write outside their field or leave the buffer (`Behaves`); and what C38 excludes for
the fields without functions. -/
theorem C100_custom_partial {cu : Custom} {e : Env} {t t' : Ty} (hv : CustomVersions e cu t t') (m : Mem) (a : Nat)
    (before : Bytes) :
    ∃ saved, saveC cu e m t a before = .ok (before ++ saved) ∧
      ∀ (after : Bytes) (m0 : Mem) (b : Nat) (data : Bytes), data = before ++ saved ++ after → data.length < 2 ^ 31 →
        b + t'.size ≤ m0.next →
        (∀ x ∈ keptFields e t, ∀ y ∈ loadFields e t', nameHash x = nameHash y → ∀ f, cu.load (nameHash y) = some f →
          ∀ d, DataOf cu e m a x d → Behaves f b y data d t'.size) →
        ∃ m1 back, Returns (fun n => loadC cu e n t' b ⟨data, before.length, m0, false⟩)
            (.ok () ⟨data, ((before ++ saved).length : Nat), m1, back⟩) ∧
          (∀ x ∈ keptFields e t, ∀ y ∈ loadFields e t', nameHash x = nameHash y → ∀ f, cu.load (nameHash y) = some f →
            ∃ d, DataOf cu e m a x d ∧ Served f b y data d m0 m1) ∧
          (∀ x ∈ keptFields e t, ∀ y ∈ loadFields e t', nameHash x = nameHash y → cu.load (nameHash y) = none →
            x.2.hash = y.2.hash → Kept e m m1 m0 a b x y) ∧
          Effect m0 m1 (fun z => ∃ x ∈ keptFields e t, ∃ y ∈ loadFields e t', nameHash x = nameHash y ∧ InField b y z) := by
  refine ⟨_, saveC_ok hv m a before, fun after m0 b data hdata hlen hb hok => ?_⟩
  have hord : ∀ x ∈ keptFields e t, cu.save (nameHash x) = none → Ordinary e x := fun x hx =>
    hv.ordinary x (mem_loadFields.2 ⟨(kept_sublist e t).subset hx, kept_skips e t x hx⟩)
  obtain ⟨m1, bk, h1, h2, h3, h4⟩ := loadC_saved hv a b m0 hb before after _ data rfl hdata hlen
    (fun x hx y hy hn f hf => hok x hx y hy hn f hf _ (dataOf_dataC (hord x hx) a))
  refine ⟨m1, bk, h4, fun x hx y hy hn f hf => ⟨_, dataOf_dataC (hord x hx) a, h3 x hx y hy hn f hf⟩, fun x hx y hy hn hl ht => ?_,
    h1.mono fun z hz => ?_⟩
  · have hP : Bare cu (nameHash x) := by
      refine ⟨?_, by rw [hn]; exact hl⟩
      by_cases hs : cu.save (nameHash x) = none
      · exact hs
      · exact absurd hl (hv.both x hx y hy hn hs)
    exact h2 x hx hP y hy hn ht
  · obtain ⟨x, hx, hz⟩ := hz
    obtain ⟨y, hy, hn, hz⟩ := touchC_field hv hz
    exact ⟨x, hx, y, hy, hn, hz⟩

/-- **C100** (partial), what is saved: one chunk for each field, in the order of the class and its bases, in which a function's
bytes stand in the place of the field's value; the chunk of a field without a function is what it would be without any
functions. -/
theorem C100_saved_partial {cu : Custom} {e : Env} {t t' : Ty} (hv : CustomVersions e cu t t') (m : Mem) (a : Nat) (before : Bytes) :
    ∃ ds : List Bytes, ds.length = (keptFields e t).length ∧
      (∀ p ∈ (keptFields e t).zip ds, DataOf cu e m a p.1 p.2) ∧
      saveC cu e m t a before = .ok (before ++ encChunk t.hash 0
        (((keptFields e t).zip ds).flatMap fun p => encChunk p.1.2.hash (nameHash p.1) p.2)) := by
  have hord : ∀ x ∈ keptFields e t, cu.save (nameHash x) = none → Ordinary e x := fun x hx =>
    hv.ordinary x (mem_loadFields.2 ⟨(kept_sublist e t).subset hx, kept_skips e t x hx⟩)
  refine ⟨(keptFields e t).map (dataC cu e m a), by simp, fun p hp => ?_, ?_⟩
  · obtain ⟨x, y⟩ := p
    have hx := (List.of_mem_zip hp).1
    have : y = dataC cu e m a x := by
      have := List.map_id (keptFields e t)
      rw [show (keptFields e t).zip ((keptFields e t).map (dataC cu e m a)) =
        (keptFields e t).map (fun x => (x, dataC cu e m a x)) from by
          generalize keptFields e t = l
          induction l with
          | nil => rfl
          | cons z l ih => simp [ih]] at hp
      obtain ⟨z, -, hz⟩ := List.mem_map.1 hp
      cases hz
      rfl
    rw [this]
    exact dataOf_dataC (hord x hx) a
  · rw [saveC_ok hv m a before]
    congr 3
    generalize keptFields e t = l
    induction l with
    | nil => rfl
    | cons z l ih =>
      rw [List.map_cons, List.zip_cons_cons, List.flatMap_cons, List.flatMap_cons, ih]
      rfl

/-- Without functions, this is the loading of C37 to C39 (of a class). -/
theorem loadC_none {cu : Custom} {e : Env} {n : Nat} {t : Ty} {b : Nat} (h : ∀ k, cu.load k = none) (hc : isClass t = true) :
    loadC cu e n t b = load e (n + 1) t b := by
  have hf : ∀ lo, loadFieldC cu e lo t b = loadField e lo t b := by
    intro lo
    simp only [loadFieldC, loadField, h]
    rfl
  cases t with
  | cls hh s fl fs bs =>
    simp only [loadC, load, hf, loadObject, loadBody]
  | _ => cases hc

/-! ### Classes and functions that meet the hypotheses -/

/-- `struct Node { int id; clattr(save_vbin=.., load_vbin=..) Blob* blob; int tail; }`. -/
def tNode : Ty := .cls (Hash.hashText b!"Node") 24 0
  (.cons { name := b!"id", offset := 0 } tInt
  (.cons { name := b!"blob", offset := 8, isPtr := true } (.prim (Hash.hashText b!"Blob") 1)
  (.cons { name := b!"tail", offset := 16 } tInt .nil))) .nil

/-- A later version: the fields have moved. -/
def tNode2 : Ty := .cls (Hash.hashText b!"Node") 24 0
  (.cons { name := b!"blob", offset := 0, isPtr := true } (.prim (Hash.hashText b!"Blob") 1)
  (.cons { name := b!"tail", offset := 8 } tInt
  (.cons { name := b!"id", offset := 12 } tInt .nil))) .nil

/-- A function that reads two bytes, puts them into the field, and goes to the very end of the buffer. -/
def greedy : Nat → Nat → Load Unit := fun _ field => do
  let bs ← read 2
  store fun m => m.write field bs
  fun s => .ok () { s with pos := s.data.length }

/-- The functions of `blob`: three bytes are saved. -/
def blobFunctions : Custom :=
  { save := fun n => if n = Hash.hashText b!"blob" then some fun _ _ _ => [10, 11, 12] else none
    load := fun n => if n = Hash.hashText b!"blob" then some greedy else none }

theorem node_versions : CustomVersions demoEnv blobFunctions tNode tNode2 where
  same := rfl
  bases := ⟨⟩
  bases' := ⟨⟩
  names := by decide +kernel
  names' := by decide +kernel
  inside' := by decide +kernel
  apart' := by decide +kernel
  ordinary := by
    intro x hx
    have hl : loadFields demoEnv tNode = [({ name := b!"id", offset := 0 }, tInt),
      ({ name := b!"blob", offset := 8, isPtr := true }, .prim (Hash.hashText b!"Blob") 1),
      ({ name := b!"tail", offset := 16 }, tInt)] := rfl
    rw [hl] at hx
    simp only [List.mem_cons, List.not_mem_nil, or_false] at hx
    rcases hx with rfl | rfl | rfl
    · exact fun _ => ⟨rfl, by simp, by simp, int_supported⟩
    · intro h; exact absurd h (by simp [blobFunctions, nameHash])
    · exact fun _ => ⟨rfl, by simp, by simp, int_supported⟩
  ordinary' := by
    intro x hx
    have hl : loadFields demoEnv tNode2 = [
      ({ name := b!"blob", offset := 0, isPtr := true }, .prim (Hash.hashText b!"Blob") 1),
      ({ name := b!"tail", offset := 8 }, tInt), ({ name := b!"id", offset := 12 }, tInt)] := rfl
    rw [hl] at hx
    simp only [List.mem_cons, List.not_mem_nil, or_false] at hx
    rcases hx with rfl | rfl | rfl
    · intro h; exact absurd h (by simp [blobFunctions, nameHash])
    · exact fun _ => ⟨rfl, by simp, by simp, int_supported⟩
    · exact fun _ => ⟨rfl, by simp, by simp, int_supported⟩
  both := by
    intro x hx y hy hn hs
    rw [← hn]
    simp only [blobFunctions] at hs ⊢
    split at hs
    · rename_i h; simp [h]
    · exact absurd rfl hs
  arrays := by
    intro x hx y hy hn _
    have hxc : ∀ x ∈ keptFields demoEnv tNode, x.1.count = none := by decide +kernel
    have hyc : ∀ x ∈ loadFields demoEnv tNode2, x.1.count = none := by decide +kernel
    rw [hxc x hx, hyc y hy]
    simp
  types := by
    intro x hx y hy hn hl ht
    have hl1 : keptFields demoEnv tNode = [({ name := b!"id", offset := 0 }, tInt),
      ({ name := b!"blob", offset := 8, isPtr := true }, .prim (Hash.hashText b!"Blob") 1),
      ({ name := b!"tail", offset := 16 }, tInt)] := rfl
    have hl2 : loadFields demoEnv tNode2 = [
      ({ name := b!"blob", offset := 0, isPtr := true }, .prim (Hash.hashText b!"Blob") 1),
      ({ name := b!"tail", offset := 8 }, tInt), ({ name := b!"id", offset := 12 }, tInt)] := rfl
    rw [hl1] at hx
    rw [hl2] at hy
    simp only [List.mem_cons, List.not_mem_nil, or_false] at hx hy
    rcases hx with rfl | rfl | rfl <;> rcases hy with rfl | rfl | rfl <;>
      first
      | exact absurd ht (by decide +kernel)
      | exact .prim _ _ _

theorem greedy_behaves {b : Nat} {y : FldInfo × Ty} {data d : Bytes} {size : Nat} (hd : 2 ≤ d.length) (hy : 2 ≤ y.1.extent y.2) :
    Behaves greedy b y data d size := by
  rintro s hs ⟨pre, post, h1, h2⟩ hb
  have hr : read 2 s = .ok ((s.data.drop s.pos.toNat).take 2) { s with pos := s.pos + 2 } := by
    have hl : s.pos + 2 ≤ s.data.length := by
      rw [h2, h1]; simp only [List.length_append]; omega
    simp only [read]
    rw [if_pos (by omega), if_pos (by rw [h2]; omega)]
    rfl
  refine ⟨{ s with pos := s.data.length, mem := s.mem.write (b + y.1.offset) ((s.data.drop s.pos.toNat).take 2) },
    by rw [greedy, run_bind hr]; rfl, hs, ?_, ?_, ?_⟩
  · show (0 : Int) ≤ (s.data.length : Int); omega
  · show (s.data.length : Int) ≤ _; rw [hs]; exact Int.le_refl _
  · refine (Clr.JSON.effect_write s.mem (b + y.1.offset) ((s.data.drop s.pos.toNat).take 2)).mono fun z hz => ?_
    have : ((s.data.drop s.pos.toNat).take 2).length ≤ 2 := List.length_take_le _ _
    unfold InField
    omega

/-- The hypotheses of C100 are met by a class with a function for a pointer, that is given three bytes, takes two of them and
leaves the reader at the end of the buffer; the classes are different versions. -/
example : ∃ saved, saveC blobFunctions demoEnv docMem tNode 0 [9] = .ok (([9] : Bytes) ++ saved) ∧
    ((([9] : Bytes) ++ saved ++ [1, 2, 3]).length < 2 ^ 31 → ∃ m1 back N,
      loadC blobFunctions demoEnv N tNode2 200 ⟨([9] : Bytes) ++ saved ++ [1, 2, 3], 1, docMem, false⟩ =
        .ok () ⟨([9] : Bytes) ++ saved ++ [1, 2, 3], ((([9] : Bytes) ++ saved).length : Nat), m1, back⟩) := by
  obtain ⟨saved, h1, h2⟩ := C100_custom_partial node_versions docMem 0 [9]
  refine ⟨saved, h1, fun hlen => ?_⟩
  obtain ⟨m1, back, ⟨N, hN⟩, -⟩ := h2 [1, 2, 3] docMem 200 _ rfl hlen (by decide) (fun x hx y hy hn f hf d hd => by
    have hf' : nameHash y = Hash.hashText b!"blob" ∧ f = greedy := by
      simp only [blobFunctions] at hf
      split at hf
      · rename_i h; exact ⟨h, by cases hf; rfl⟩
      · cases hf
    obtain ⟨hyn, rfl⟩ := hf'
    rw [DataOf, hn, hyn] at hd
    simp only [blobFunctions, if_true] at hd
    subst hd
    have hye : ∀ y ∈ loadFields demoEnv tNode2, 2 ≤ y.1.extent y.2 := by decide +kernel
    exact greedy_behaves (by decide) (hye y hy))
  exact ⟨m1, back, N, hN N (Nat.le_refl N)⟩

/-- `struct Holder { clattr(save_vbin=..) Inner inner; }`. -/
def tHolder : Ty := .cls (Hash.hashText b!"Holder") 8 0 (.cons { name := b!"inner", offset := 0 } Clr.JSON.tInner .nil) .nil

/-- A function that saves one byte, and none that loads. -/
def saveOnly : Custom :=
  { save := fun n => if n = Hash.hashText b!"inner" then some fun _ _ _ => [1] else none
    load := fun _ => none }

/-- **C100** (negation): a field that a function saves and that is loaded without one.  Its bytes are taken for those of a
value: here loading stops at an assertion, though what was saved is complete. -/
theorem C100_save_only_negation : ∃ saved, saveC saveOnly demoEnv docMem tHolder 0 [] = .ok saved ∧
    ∃ s, Returns (fun n => loadC saveOnly demoEnv n tHolder 200 ⟨saved, 0, docMem, false⟩) (.stop .trap s) := by
  refine ⟨le 4 (Hash.hashText b!"Holder").toNat ++ le 4 0 ++ le 4 13 ++ (le 4 (Hash.hashText b!"Inner").toNat ++
    le 4 (Hash.hashText b!"inner").toNat ++ le 4 1 ++ [1]), by decide +kernel, ?_⟩
  have h : (load demoEnv 8 tHolder 200 ⟨le 4 (Hash.hashText b!"Holder").toNat ++ le 4 0 ++ le 4 13 ++
      (le 4 (Hash.hashText b!"Inner").toNat ++ le 4 (Hash.hashText b!"inner").toNat ++ le 4 1 ++ [1]), 0, docMem, false⟩).why =
      some .trap := by decide +kernel
  obtain ⟨N, hN⟩ := returns_of (by rw [h]; simp)
  cases hr : load demoEnv 8 tHolder 200 ⟨le 4 (Hash.hashText b!"Holder").toNat ++ le 4 0 ++ le 4 13 ++
      (le 4 (Hash.hashText b!"Inner").toNat ++ le 4 (Hash.hashText b!"inner").toNat ++ le 4 1 ++ [1]), 0, docMem, false⟩ with
  | ok v s => rw [hr] at h; cases h
  | stop k s =>
    rw [hr] at h
    simp only [Out.why, Option.some.injEq] at h
    subst h
    refine ⟨s, N, fun n hn => ?_⟩
    show loadC saveOnly demoEnv n tHolder 200 _ = _
    rw [loadC_none (fun _ => rfl) (by simp [tHolder, isClass])]
    exact (hN (n + 1) (by omega)).trans hr

end Clr.VBin
