import Verif.Proofs.VBinHooksVer
import Verif.Props.VBinHooks

/-!
C103: custom functions of fields at any depth in the versioned binary, and classes that have changed between saving and loading.
-/
namespace Clr.VBin
open Clr.JSON (Ty Flds Tys Mem FldInfo Const Env strideOf Apart elemAt arrayItems savedField Effect findOwn demoEnv tInt)

theorem carries_round {fn fn' : Functions} {e : Env} {m : Mem} {c c' : Option Nat} {t t' : Ty} {a : Nat}
    (h : Carries fn fn' e m c c' t t' a) :
    (c = none → c' = none ∧ RoundW fn fn' e m t t' a) ∧
      ∀ k, c = some k → (∃ k', c' = some k') ∧ 0 < t.size ∧ 0 < t'.size ∧ t.size < 2 ^ 32 ∧ k < 2 ^ 32 ∧ t.hash = t'.hash ∧
        ∀ i, i < k → RoundW fn fn' e m t t' (elemAt a i t.size) := by
  induction h with
  | prim h s a => exact ⟨fun _ => ⟨rfl, roundW_prim fn fn' e m h s a⟩, fun k hk => by cases hk⟩
  | resized h a hs => exact ⟨fun _ => ⟨rfl, roundW_resized fn fn' e m h a hs⟩, fun k hk => by cases hk⟩
  | enum hz => exact ⟨fun _ => ⟨rfl, roundW_enum hz⟩, fun k hk => by cases hk⟩
  | object hb hb' hn hn' hi hap hw hs hg hp hf ih =>
    rename_i h z z' fl fl' fs fs' bs bs' a
    refine ⟨fun _ => ⟨rfl, roundW_object hb hn hn' hi hap fun x hx => ?_⟩, fun k hk => by cases hk⟩
    have hG : ∀ y ∈ loadableOwned e (.cls h z' fl' fs' bs'), SameName x y → (fn'.loads y ≠ none ∨ x.2.2.hash = y.2.2.hash) →
        RoundG fn fn' e m a x y := by
      intro y hy hxy hor
      cases hl : fn'.loads y with
      | some l =>
        obtain ⟨g, hsg, hinv⟩ := hg x hx y hy hxy l hl
        exact roundG_custom hsg hl hinv
      | none =>
        have hh : x.2.2.hash = y.2.2.hash := hor.resolve_left fun h => h hl
        obtain ⟨h1, h2, h3⟩ := hp x hx y hy hxy hl hh
        obtain ⟨h4, h5⟩ := ih x hx y hy hxy hl hh
        cases hc : x.2.1.count with
        | none =>
          obtain ⟨hc', hr⟩ := h4 hc
          exact roundG_value h1 hl h3 hc hc' hr
        | some k =>
          obtain ⟨⟨k', hc'⟩, h6, h7, h8, h9, h10, h11⟩ := h5 k hc
          exact roundG_array h1 hl h2 h3 hc hc' h6 h7 h8 h9 h10 h11
    refine roundX_field hb' hn' hi ?_ hG (fun y hy hxy => hs x hx y hy hxy)
    by_cases hall : ∀ y ∈ loadableOwned e (.cls h z' fl' fs' bs'), SameName x y → fn'.loads y = none ∧ x.2.2.hash ≠ y.2.2.hash
    · obtain ⟨d, hd⟩ := hw x hx hall
      exact written_savesF ⟨d, written_saves hd⟩
    · simp only [Classical.not_forall] at hall
      obtain ⟨y, hy, hxy, hno⟩ := hall
      refine (hG y hy hxy ?_).1
      by_cases hl : fn'.loads y = none
      · exact .inr (Classical.byContradiction fun h => hno ⟨hl, h⟩)
      · exact .inl hl
  | list hz hl hh hc hf ih => exact ⟨fun _ => ⟨rfl, roundW_list hz hl hh hc fun x hx => ((ih x hx).1 rfl).2⟩, fun k hk => by cases hk⟩
  | dict hz hk hk' hp hp' hl hh hc hi hf ihk ih =>
    exact ⟨fun _ => ⟨rfl, roundW_dict hz hk hk' hp hp' hl hh hc (fun x hx => ((ihk x hx).1 rfl).2) (fun x hx => ((ih x hx).1 rfl).2)⟩,
      fun k hk => by cases hk⟩
  | array hz hz' hl hk hh hf ih =>
    refine ⟨(fun h => nomatch h), fun k h => ?_⟩
    cases h
    exact ⟨⟨_, rfl⟩, hz, hz', hl, hk, hh, fun i hi => ((ih i hi).1 rfl).2⟩

/-- **C103** (classes that have changed; partial).  An object saved by a program with the functions `fn` is loaded by a program with the
functions `fn'` and another version of its type, if it can be (`Carries`): fields that both versions have come back, at any depth, by their
functions or without; loading goes on behind the object, wherever a function has left the reader; and of memory in use nothing changes but
what is loaded (`Reach`), so fields that are new, are transient, or have another type or a primitive type of
another size, stay as they were.

Missing: containers and C arrays of pointers. -/
theorem C103_versions_partial {fn fn' : Functions} {e : Env} {m : Mem} {t t' : Ty} {a : Nat}
    (h : Carries fn fn' e m none none t t' a) (out : Bytes) :
    ∃ saved, saveH fn e m t a out = .ok (out ++ saved) ∧
      ∀ (rest : Bytes) (m0 : Mem) (b : Nat) (data : Bytes), data = out ++ saved ++ rest → data.length < 2 ^ 31 →
        b + t'.size ≤ m0.next → ∃ m1 back,
          Returns (fun n => loadH fn' e n t' b ⟨data, out.length, m0, false⟩)
            (.ok () ⟨data, ((out ++ saved).length : Nat), m1, back⟩) ∧
          Effect m0 m1 (Reach fn' e none none t t' b) ∧
          Carried fn' e m m1 (fun x => m0.next ≤ x ∧ x < m1.next) none none t t' a b := by
  obtain ⟨hs, -, hl, hth, -⟩ := ((carries_round h).1 rfl).2
  refine ⟨encChunk t.hash 0 (encH fn e m t a), ?_, ?_⟩
  · rw [saveH, chunk_ok _ _ _ hs]
  · rintro rest m0 b data rfl hlen hb
    have hhas : Has ⟨out ++ encChunk t.hash 0 (encH fn e m t a) ++ rest, out.length, m0, false⟩
        (encChunk t.hash 0 (encH fn e m t a) ++ rest) := by
      refine ⟨by simp, hlen, by simp, ?_⟩
      simp only [Int.toNat_natCast, List.append_assoc]
      rw [List.drop_left, List.take_of_length_le (Nat.le_refl _)]
    obtain ⟨hrc, -⟩ := readChunk_has hhas.left
    have hd : Has (adv ⟨out ++ encChunk t.hash 0 (encH fn e m t a) ++ rest, out.length, m0, false⟩ 12) (encH fn e m t a ++ rest) := by
      have h1 : Has ⟨out ++ encChunk t.hash 0 (encH fn e m t a) ++ rest, out.length, m0, false⟩
        ((le 4 t.hash.toNat ++ le 4 (0 : BitVec 32).toNat ++ le 4 (encH fn e m t a).length) ++ (encH fn e m t a ++ rest)) := by
        have : (le 4 t.hash.toNat ++ le 4 (0 : BitVec 32).toNat ++ le 4 (encH fn e m t a).length) ++ (encH fn e m t a ++ rest) =
          encChunk t.hash 0 (encH fn e m t a) ++ rest := by simp [encChunk]
        rw [this]; exact hhas
      have h2 := h1.right
      simpa [length_le] using h2
    obtain ⟨m1, bk, he, hst, hld⟩ := hl _ rest b _ hd (.inl rfl) hb
    refine ⟨m1, bk, ⟨sizeOf t' + (out ++ encChunk t.hash 0 (encH fn e m t a) ++ rest).length + 2, fun n hn => ?_⟩, he,
      hst m1 _ (fun x _ => ⟨rfl, rfl⟩) (fun x h1 h2 => ⟨h1, h2⟩)⟩
    show loadH fn' e n t' b _ = _
    rw [loadH, run_bind hrc]
    have hld' := hld n hn
    rw [← hth] at hld'
    rw [hld', doneB_adv]
    congr 1
    simp [doneB, encChunk, length_le]
    omega

/-- **C103** (what loading can change): of an object that can be loaded, nothing but fields of the new class that are not transient, have a
namesake among the saved fields of the old class, and have a function or the same type. -/
theorem C103_reach {fn fn' : Functions} {e : Env} {m : Mem} {h h' : BitVec 32} {z z' : Nat} {fl fl' : BitVec 32} {fs fs' : Flds} {bs bs' : Tys}
    {a b v : Nat} (hc : Carries fn fn' e m none none (.cls h z fl fs bs) (.cls h' z' fl' fs' bs') a)
    (hr : Reach fn' e none none (.cls h z fl fs bs) (.cls h' z' fl' fs' bs') b v) :
    ∃ x ∈ keptOwned e (.cls h z fl fs bs), ∃ y ∈ ownedFields (.cls h' z' fl' fs' bs'), e.skips y.2.1.flags = false ∧ SameName x y ∧
      (fn'.loads y ≠ none ∨ x.2.2.hash = y.2.2.hash) ∧ InField b y.2 v := by
  have hmem : ∀ y ∈ loadableOwned e (.cls h' z' fl' fs' bs'), y ∈ ownedFields (.cls h' z' fl' fs' bs') ∧ e.skips y.2.1.flags = false := by
    intro y hy
    have := List.mem_filter.1 hy
    exact ⟨this.1, by simpa using this.2⟩
  cases hr with
  | function hx hy hn hl hz => exact ⟨_, hx, _, (hmem _ hy).1, (hmem _ hy).2, hn, .inl hl, hz⟩
  | field hx hy hn hl hh hz =>
    rename_i x y
    refine ⟨x, hx, y, (hmem y hy).1, (hmem y hy).2, hn, .inr hh, ?_⟩
    cases hc with
    | object _ _ _ _ _ _ _ _ _ hp hf =>
      obtain ⟨h1, h2, h3⟩ := hp x hx y hy hn hl hh
      obtain ⟨h4, h5⟩ := carries_round (hf x hx y hy hn hl hh)
      cases hcx : x.2.1.count with
      | none =>
        obtain ⟨hc', hR⟩ := h4 hcx
        rw [hcx, hc'] at hz
        have := hR.2.2.2.2 _ _ hz
        unfold InField
        rw [extent_none h3 hc']
        exact this
      | some k =>
        obtain ⟨⟨k', hc'⟩, -, -, -, -, -, h11⟩ := h5 k hcx
        rw [hcx, hc'] at hz
        cases hz with
        | array hi hi' hq =>
          have hsp := (h11 _ hi).2.2.2.2 _ _ hq
          have hj := elemAt_next (sz := y.2.2.size) hi'
          unfold InField
          rw [extent_some h3 hc']
          simp only [Span, elemAt] at hsp
          omega

/-! ### A class that has changed -/

/-- `struct Node { Blob* blob; int id; int extra; }`, a later version of `Node`: a field is gone, one is new, and the order is another. -/
def tNodeLater : Ty := .cls (Hash.hashText b!"Node") 16 0
  (.cons { name := b!"blob", offset := 0, isPtr := true } (.prim (Hash.hashText b!"Blob") 1)
  (.cons { name := b!"id", offset := 8 } tInt
  (.cons { name := b!"extra", offset := 12 } tInt .nil))) .nil

theorem copy_inverseTo {x y : FldInfo × Ty} (hx : x.1.extent x.2 = 8) (hy : y.1.extent y.2 = 8) : InverseTo x y copyOut copyIn := by
  rintro m a s b hlen ⟨pre, post, h1, h2⟩ hb
  have hl8 : (m.read (a + x.1.offset) 8).length = 8 := Clr.JSON.read_length _ _ _
  have hhas : Has s (m.read (a + x.1.offset) 8) := by
    have hl : s.data.length = pre.length + (8 + 1) + post.length := by rw [h1]; simp [copyOut, hl8]; omega
    refine ⟨by omega, hlen, by rw [hl8, h2]; simp; omega, ?_⟩
    rw [h2, h1, hl8]
    simp only [Int.toNat_natCast, copyOut, List.append_assoc]
    rw [List.drop_left, List.take_append_of_le_length (by omega), List.take_of_length_le (by omega)]
  have hr := read_has hhas
  rw [hl8] at hr
  have hw := Clr.JSON.read_write s.mem (b + y.1.offset) (m.read (a + x.1.offset) 8)
  rw [hl8] at hw
  have h3 := hhas.1
  have h4 := hhas.2.2.1
  rw [hl8] at h4
  refine ⟨{ adv s 8 with mem := s.mem.write (b + y.1.offset) (m.read (a + x.1.offset) 8) }, ?_, rfl, ?_, ?_, ?_, ?_⟩
  · rw [copyIn, run_bind hr]; rfl
  · simp only [adv]; omega
  · simp only [adv]; omega
  · refine (Clr.JSON.effect_write s.mem (b + y.1.offset) (m.read (a + x.1.offset) 8)).mono fun z hz => ?_
    rw [hl8] at hz
    unfold InField
    rw [hy]
    exact hz
  · rw [hx, hy]; exact hw

/-- The fields of both versions. -/
theorem node_fields : keptOwned demoEnv tNode = [(Hash.hashText b!"Node", { name := b!"id", offset := 0 }, tInt),
      (Hash.hashText b!"Node", { name := b!"blob", offset := 8, isPtr := true }, .prim (Hash.hashText b!"Blob") 1),
      (Hash.hashText b!"Node", { name := b!"tail", offset := 16 }, tInt)] ∧
    loadableOwned demoEnv tNodeLater = [
      (Hash.hashText b!"Node", { name := b!"blob", offset := 0, isPtr := true }, .prim (Hash.hashText b!"Blob") 1),
      (Hash.hashText b!"Node", { name := b!"id", offset := 8 }, tInt),
      (Hash.hashText b!"Node", { name := b!"extra", offset := 12 }, tInt)] := ⟨rfl, rfl⟩

theorem node_carries (m : Mem) (a : Nat) : Carries nodeFunctions nodeFunctions demoEnv m none none tNode tNodeLater a := by
  obtain ⟨hk, hk'⟩ := node_fields
  have names : Hash.hashText b!"id" ≠ Hash.hashText b!"blob" ∧ Hash.hashText b!"id" ≠ Hash.hashText b!"extra" ∧
    Hash.hashText b!"blob" ≠ Hash.hashText b!"extra" ∧ Hash.hashText b!"tail" ≠ Hash.hashText b!"id" ∧
    Hash.hashText b!"tail" ≠ Hash.hashText b!"blob" ∧ Hash.hashText b!"tail" ≠ Hash.hashText b!"extra" := by decide +kernel
  obtain ⟨n1, n2, n3, n4, n5, n6⟩ := names
  have cases9 : ∀ x ∈ keptOwned demoEnv tNode, ∀ y ∈ loadableOwned demoEnv tNodeLater, SameName x y →
      (x = (Hash.hashText b!"Node", { name := b!"id", offset := 0 }, tInt) ∧
        y = (Hash.hashText b!"Node", { name := b!"id", offset := 8 }, tInt)) ∨
      (x = (Hash.hashText b!"Node", { name := b!"blob", offset := 8, isPtr := true }, .prim (Hash.hashText b!"Blob") 1) ∧
        y = (Hash.hashText b!"Node", { name := b!"blob", offset := 0, isPtr := true }, .prim (Hash.hashText b!"Blob") 1)) := by
    intro x hx y hy hxy
    rw [hk] at hx
    rw [hk'] at hy
    simp only [List.mem_cons, List.not_mem_nil, or_false] at hx hy
    unfold SameName nameHash at hxy
    rcases hx with rfl | rfl | rfl <;> rcases hy with rfl | rfl | rfl
    · exact absurd hxy n1
    · exact .inl ⟨rfl, rfl⟩
    · exact absurd hxy n2
    · exact .inr ⟨rfl, rfl⟩
    · exact absurd hxy.symm n1
    · exact absurd hxy n3
    · exact absurd hxy n5
    · exact absurd hxy n4
    · exact absurd hxy n6
  rw [tNode] at hk cases9
  rw [tNodeLater] at hk' cases9
  refine .object ⟨⟩ ⟨⟩ (by unfold SameName; decide +kernel) (by unfold SameName; decide +kernel) ?_ ?_ ?_ ?_ ?_ ?_ ?_
  · rw [hk']; decide +kernel
  · rw [hk']; decide +kernel
  · intro x hx _
    rw [hk] at hx
    simp only [List.mem_cons, List.not_mem_nil, or_false] at hx
    rcases hx with rfl | rfl | rfl
    · exact ⟨m.read (a + 0) 4, .value (by simp [nodeFunctions, Functions.saves]) rfl (fun out => by simp only [saveObjectH, tInt])⟩
    · exact ⟨_, .function (g := copyOut) (by simp [nodeFunctions, Functions.saves])⟩
    · exact ⟨m.read (a + 16) 4, .value (by simp [nodeFunctions, Functions.saves]) rfl (fun out => by simp only [saveObjectH, tInt])⟩
  · intro x hx y hy hxy _ hne
    rcases cases9 x hx y hy hxy with ⟨rfl, rfl⟩ | ⟨rfl, rfl⟩ <;> exact absurd rfl hne
  · intro x hx y hy hxy l hl
    rcases cases9 x hx y hy hxy with ⟨rfl, rfl⟩ | ⟨rfl, rfl⟩
    · simp [nodeFunctions, Functions.loads] at hl
    · have : l = copyIn := by simpa [nodeFunctions, Functions.loads] using hl.symm
      subst this
      exact ⟨copyOut, by simp [nodeFunctions, Functions.saves], copy_inverseTo rfl rfl⟩
  · intro x hx y hy hxy hl _
    rcases cases9 x hx y hy hxy with ⟨rfl, rfl⟩ | ⟨rfl, rfl⟩
    · exact ⟨by simp [nodeFunctions, Functions.saves], rfl, rfl⟩
    · simp [nodeFunctions, Functions.loads] at hl
  · intro x hx y hy hxy hl _
    rcases cases9 x hx y hy hxy with ⟨rfl, rfl⟩ | ⟨rfl, rfl⟩
    · exact .prim _ _ _
    · simp [nodeFunctions, Functions.loads] at hl

/-- The hypotheses of `C103_versions_partial` are met by a list of such objects. -/
example : ∃ saved, saveH nodeFunctions demoEnv sceneMem (.vec (Hash.hashText b!"std::vector<Node>") 24 tNode false) 0 [9] =
      .ok (([9] : Bytes) ++ saved) ∧
    ((([9] : Bytes) ++ saved ++ [1, 2]).length < 2 ^ 31 → ∃ m1 back,
      Returns (fun n => loadH nodeFunctions demoEnv n (.vec (Hash.hashText b!"std::vector<Node>") 24 tNodeLater false) 300
          ⟨([9] : Bytes) ++ saved ++ [1, 2], 1, docMem, false⟩)
        (.ok () ⟨([9] : Bytes) ++ saved ++ [1, 2], ((([9] : Bytes) ++ saved).length : Nat), m1, back⟩) ∧
      (m1.elems 300).length = 2) := by
  obtain ⟨saved, h1, h2⟩ := C103_versions_partial (m := sceneMem) (a := 0) (Carries.list (h := Hash.hashText b!"std::vector<Node>") (z := 24)
    (z' := 24) (t := tNode) (t' := tNodeLater) (by decide) (by decide) rfl (by decide) (fun x _ => node_carries sceneMem x.2)) [9]
  refine ⟨saved, h1, fun hlen => ?_⟩
  obtain ⟨m1, back, h3, -, h4⟩ := h2 [1, 2] docMem 300 _ rfl hlen (by decide)
  refine ⟨m1, back, h3, ?_⟩
  cases h4 with
  | list hl _ _ => rw [hl]; rfl

/-- The hypotheses of `C103_versions_partial` are met by lists of `long`, four bytes in the program that saves, eight in the one that loads:
there are as many elements as were saved, and what follows the list is loaded next. -/
example : ∃ saved, saveH nodeFunctions demoEnv sceneMem (.vec (Hash.hashText b!"std::vector<long>") 24 (.prim (Hash.hashText b!"long") 4) false)
      0 [9] = .ok (([9] : Bytes) ++ saved) ∧
    ((([9] : Bytes) ++ saved ++ [1, 2]).length < 2 ^ 31 → ∃ m1 back,
      Returns (fun n => loadH nodeFunctions demoEnv n
          (.vec (Hash.hashText b!"std::vector<long>") 24 (.prim (Hash.hashText b!"long") 8) false) 300
          ⟨([9] : Bytes) ++ saved ++ [1, 2], 1, docMem, false⟩)
        (.ok () ⟨([9] : Bytes) ++ saved ++ [1, 2], ((([9] : Bytes) ++ saved).length : Nat), m1, back⟩) ∧
      (m1.elems 300).length = 2) := by
  obtain ⟨saved, h1, h2⟩ := C103_versions_partial (fn := nodeFunctions) (fn' := nodeFunctions) (e := demoEnv) (m := sceneMem) (a := 0)
    (Carries.list (h := Hash.hashText b!"std::vector<long>") (z := 24) (z' := 24) (t := .prim (Hash.hashText b!"long") 4)
      (t' := .prim (Hash.hashText b!"long") 8) (by decide) (by decide) rfl (by decide) (fun x _ => .resized _ _ (by decide))) [9]
  refine ⟨saved, h1, fun hlen => ?_⟩
  obtain ⟨m1, back, h3, -, h4⟩ := h2 [1, 2] docMem 300 _ rfl hlen (by decide)
  refine ⟨m1, back, h3, ?_⟩
  cases h4 with
  | list hl _ _ => rw [hl]; rfl

/-- A value of a primitive type that has another size now stays as it was. -/
example (h : BitVec 32) (b z : Nat) : ¬ Reach nodeFunctions demoEnv none none (.prim h 4) (.prim h 8) b z := by
  intro hr
  cases hr with
  | function hx => simp [keptOwned, ownedFields] at hx
  | field hx => simp [keptOwned, ownedFields] at hx

/-- A new field stays as it was. -/
example (m : Mem) (a b z : Nat) (hz : b + 12 ≤ z ∧ z < b + 16) :
    ¬ Reach nodeFunctions demoEnv none none tNode tNodeLater b z := by
  intro hr
  obtain ⟨x, hx, y, hy, hs, hxy, -, hin⟩ := C103_reach (node_carries m a) hr
  obtain ⟨hk, hk'⟩ := node_fields
  have hy' : y ∈ loadableOwned demoEnv tNodeLater := List.mem_filter.2 ⟨hy, by simp [hs]⟩
  have names : Hash.hashText b!"id" ≠ Hash.hashText b!"extra" ∧
    Hash.hashText b!"blob" ≠ Hash.hashText b!"extra" ∧ Hash.hashText b!"tail" ≠ Hash.hashText b!"extra" := by decide +kernel
  rw [tNode] at hk
  rw [hk] at hx
  rw [hk'] at hy'
  simp only [List.mem_cons, List.not_mem_nil, or_false] at hx hy'
  rcases hy' with rfl | rfl | rfl
  · have h8 : InField b (({ name := b!"blob", offset := 0, isPtr := true } : FldInfo), Ty.prim (Hash.hashText b!"Blob") 1) z := hin
    have he : FldInfo.extent { name := b!"blob", offset := 0, isPtr := true } (Ty.prim (Hash.hashText b!"Blob") 1) = 8 := rfl
    unfold InField at h8
    rw [he] at h8
    simp only at h8
    omega
  · have h8 : InField b (({ name := b!"id", offset := 8 } : FldInfo), tInt) z := hin
    have he : FldInfo.extent { name := b!"id", offset := 8 } tInt = 4 := rfl
    unfold InField at h8
    rw [he] at h8
    simp only at h8
    omega
  · unfold SameName nameHash at hxy
    rcases hx with rfl | rfl | rfl
    · exact names.1 hxy
    · exact names.2.1 hxy
    · exact names.2.2 hxy

end Clr.VBin
