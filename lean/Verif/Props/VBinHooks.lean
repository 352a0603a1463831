import Verif.Proofs.VBinHooks
import Verif.Props.VBinCustom

/-!
C103: custom functions of fields at any depth in the versioned binary.
-/
namespace Clr.VBin
open Clr.JSON (Ty Flds Tys Mem FldInfo Const Env strideOf Apart elemAt arrayItems savedField Effect findOwn demoEnv tInt)

/-! ### What is saved -/

theorem saveItems_range {value : Save} {ds : Nat → Bytes} (sized : Bool) (base stride : Nat) : ∀ (k i : Nat)
    (_ : ∀ j, i ≤ j → j < i + k → ∀ out, value (base + j * stride) out = .ok (out ++ ds j)) (out : Bytes),
    saveItems none value sized false ((List.range' i k).map fun j => (0, base + j * stride)) out =
      .ok (out ++ (List.range' i k).flatMap fun j => (if sized then le 4 (ds j).length else []) ++ ds j)
  | 0, i, _, out => by simp [saveItems]
  | k + 1, i, h, out => by
    rw [List.range'_succ, List.map_cons, List.flatMap_cons, saveItems]
    simp only [Res.bind_ok, Bool.false_eq_true, if_false]
    rw [withSize_ok' sized (h i (by omega) (by omega))]
    simp only [Res.bind_ok]
    rw [saveItems_range sized base stride k (i + 1) (fun j h1 h2 => h j (by omega) (by omega))]
    simp

theorem written_saves {fn : Functions} {e : Env} {m : Mem} {a : Nat} {x : Owned} {d : Bytes} (h : Written fn e m a x d) :
    ∀ out, saveDataH fn e m x a out = .ok (out ++ d) := by
  intro out
  cases h with
  | function hg =>
    have hg' : fn.save x.1 x.2.1 = _ := hg
    simp only [saveDataH, hg']
  | value hg hc hs =>
    have hg' : fn.save x.1 x.2.1 = none := hg
    simp only [saveDataH, hg', hc]
    exact hs out
  | array hg hc hp hz hs =>
    rename_i k ds
    have hg' : fn.save x.1 x.2.1 = none := hg
    have hst : strideOf x.2.2 false = x.2.2.size := by simp [strideOf]
    simp only [saveDataH, hg', hc, hp, hst]
    rw [if_neg (by omega), arrayItems, List.range_eq_range',
      saveItems_range (ds := ds) _ _ _ k 0 (fun j _ hj out => hs j (by omega) out), List.append_assoc]
    simp only [beq_iff_eq]

theorem flatMap_same {α : Type} {l : List α} {f g : α → Bytes} (h : ∀ x ∈ l, f x = g x) : l.flatMap f = l.flatMap g := by
  induction l with
  | nil => rfl
  | cons x l ih => rw [List.flatMap_cons, List.flatMap_cons, h x (by simp), ih fun y hy => h y (by simp [hy])]

/-- **C103** (what is saved).  An object of a class, wherever it is, is saved as one chunk for every field that is not transient: the names of
the field's type and of the field, the number of bytes, and these, which a function of the field has written or which are those of its
value. -/
theorem C103_chunks (fn : Functions) (e : Env) (m : Mem) (t : Ty) (hb : ClassBases t) (a : Nat) (d : Owned → Bytes)
    (hd : ∀ x ∈ keptOwned e t, Written fn e m a x (d x)) (out : Bytes) :
    saveObjectH fn e m t a out = .ok (out ++ (keptOwned e t).flatMap fun x =>
      le 4 x.2.2.hash.toNat ++ le 4 (nameHash x.2).toNat ++ le 4 (d x).length ++ d x) := by
  have hd' : ∀ x ∈ keptOwned e t, dataH fn e m a x = d x := fun x hx => dataH_of (written_saves (hd x hx))
  rw [(saveClassH_ok t hb a (fun x hx out => by rw [hd' x hx]; exact written_saves (hd x hx) out) out).2]
  rw [flatMap_same fun x hx => by rw [encFieldH, hd' x hx, encChunk]]

/-! ### Saving and loading -/

/-- **C103** (partial).  Objects, in which fields have functions at any depth - in fields of class type, in base classes, in the elements of
containers and of C arrays - come back, if what is in them survives (`Lasts`): the functions of a field are inverse to each other, and other
fields are supported.  Loading goes on behind the object, wherever a function has left the reader, and of memory in use it changes nothing
but the object.

Missing: containers and C arrays of pointers.  For classes that have changed since, see `C103_versions_partial`. -/
theorem C103_round_trip_partial {fn : Functions} {e : Env} {m : Mem} {t : Ty} {a : Nat} (h : Lasts fn e m none t a) (out : Bytes) :
    ∃ saved, saveH fn e m t a out = .ok (out ++ saved) ∧
      ∀ (rest : Bytes) (m0 : Mem) (b : Nat) (data : Bytes), data = out ++ saved ++ rest → data.length < 2 ^ 31 →
        b + t.size ≤ m0.next → ∃ m1 back,
          Returns (fun n => loadH fn e n t b ⟨data, out.length, m0, false⟩)
            (.ok () ⟨data, ((out ++ saved).length : Nat), m1, back⟩) ∧
          Effect m0 m1 (fun x => b ≤ x ∧ x < b + t.size) ∧
          Back fn e m m1 (fun x => m0.next ≤ x ∧ x < m1.next) none t a b := by
  obtain ⟨hs, -, hl⟩ := (lasts_round h).1 rfl
  refine ⟨encChunk t.hash 0 (encH fn e m t a), ?_, ?_⟩
  · rw [saveH, chunk_ok _ _ _ hs]
  · rintro rest m0 b data rfl hlen hb
    have hhas : Has ⟨out ++ encChunk t.hash 0 (encH fn e m t a) ++ rest, out.length, m0, false⟩
        (encChunk t.hash 0 (encH fn e m t a) ++ rest) := by
      refine ⟨by simp, hlen, by simp, ?_⟩
      simp only [Int.toNat_natCast, List.append_assoc]
      rw [List.drop_left, List.take_of_length_le (Nat.le_refl _)]
    obtain ⟨hrc, -⟩ := readChunk_has hhas.left
    have hd : Has (adv ⟨out ++ encChunk t.hash 0 (encH fn e m t a) ++ rest, out.length, m0, false⟩ 12) (encH fn e m t a ++ rest) := by
      have h1 : Has ⟨out ++ encChunk t.hash 0 (encH fn e m t a) ++ rest, out.length, m0, false⟩
        ((le 4 t.hash.toNat ++ le 4 (0 : BitVec 32).toNat ++ le 4 (encH fn e m t a).length) ++ (encH fn e m t a ++ rest)) := by
        have : (le 4 t.hash.toNat ++ le 4 (0 : BitVec 32).toNat ++ le 4 (encH fn e m t a).length) ++ (encH fn e m t a ++ rest) =
          encChunk t.hash 0 (encH fn e m t a) ++ rest := by simp [encChunk]
        rw [this]; exact hhas
      have h2 := h1.right
      simpa [length_le] using h2
    obtain ⟨m1, bk, he, hst, hld⟩ := hl _ rest b _ hd (.inl rfl) hb
    have he : Effect m0 m1 (Span b t.size) := he
    refine ⟨m1, bk, ⟨sizeOf t + (out ++ encChunk t.hash 0 (encH fn e m t a) ++ rest).length + 2, fun n hn => ?_⟩, he,
      hst m1 _ (fun x _ => ⟨rfl, rfl⟩) (fun x h1 h2 => ⟨h1, h2⟩)⟩
    show loadH fn e n t b _ = _
    rw [loadH, run_bind hrc]
    rw [hld n hn, doneB_adv]
    congr 1
    simp [doneB, encChunk, length_le]
    omega

/-! ### Without functions -/

mutual
theorem saveObjectH_none {fn : Functions} {e : Env} {m : Mem} (h : ∀ o f, fn.save o f = none) : ∀ t : Ty,
    saveObjectH fn e m t = saveObject e m t
  | .prim _ _ => by funext a out; simp [saveObjectH, saveObject]
  | .enum _ _ _ _ => by funext a out; simp [saveObjectH, saveObject]
  | .cls _ _ _ fs bs => by
    funext a out
    simp only [saveObjectH, saveObject, saveFields_same h fs, saveBases_same h bs]
  | .tmpl _ _ _ => by funext a out; simp [saveObjectH, saveObject]
  | .vec _ _ t _ => by funext a out; simp [saveObjectH, saveObject, saveObjectH_none h t]
  | .dict _ _ k t _ => by funext a out; simp [saveObjectH, saveObject, saveObjectH_none h t, saveObjectH_none h k]

theorem saveFields_same {fn : Functions} {e : Env} {m : Mem} (h : ∀ o f, fn.save o f = none) : ∀ (fs : Flds) {o : BitVec 32},
    saveFieldsH fn e m o fs = saveFields e m fs
  | .nil, o => by funext a out; simp [saveFieldsH, saveFields]
  | .cons f t r, o => by
    funext a out
    simp only [saveFieldsH, saveFields, h, saveObjectH_none h t, saveFields_same h r]
    rfl

theorem saveBases_same {fn : Functions} {e : Env} {m : Mem} (h : ∀ o f, fn.save o f = none) : ∀ (bs : Tys),
    saveBasesH fn e m bs = saveBases e m bs
  | .nil => by funext a out; simp [saveBasesH, saveBases]
  | .cons t r => by
    funext a out
    simp only [saveBasesH, saveBases, saveObjectH_none h t, saveBases_same h r]
end

/-- The field, without its class. -/
def dropOwner : Res (Option Owned) → Res (Option (FldInfo × Ty))
  | .ok (some x) => .ok (some x.2)
  | .ok none => .ok none
  | .trap => .trap
  | .ub => .ub

mutual
theorem findOwner_findField (h : Nat) : ∀ t : Ty, findField h t = dropOwner (findOwner h t)
  | .prim _ _ => by simp [findField, findOwner, dropOwner]
  | .enum _ _ _ _ => by simp [findField, findOwner, dropOwner]
  | .cls _ _ _ fs bs => by
    rw [findField, findOwner]
    cases findOwn (BitVec.ofNat 32 h) fs with
    | none => exact findOwnerBases_findBases h bs
    | some x => rfl
  | .tmpl _ _ _ => by simp [findField, findOwner, dropOwner]
  | .vec _ _ _ _ => by simp [findField, findOwner, dropOwner]
  | .dict _ _ _ _ _ => by simp [findField, findOwner, dropOwner]

theorem findOwnerBases_findBases (h : Nat) : ∀ bs : Tys, findBases h bs = dropOwner (findOwnerBases h bs)
  | .nil => by simp [findBases, findOwnerBases, dropOwner]
  | .cons t r => by
    rw [findBases, findOwnerBases, findOwner_findField h t]
    cases findOwner h t with
    | ok v =>
      cases v with
      | none => exact findOwnerBases_findBases h r
      | some x => rfl
    | trap => rfl
    | ub => rfl
end

theorem loadFieldH_none {fn : Functions} {e : Env} {lo : LoadObj} {ct : Ty} {b : Nat} (h : ∀ o f, fn.load o f = none) :
    loadFieldH fn e lo ct b = loadField e lo ct b := by
  simp only [loadFieldH, loadField]
  congr 1
  funext hd
  rw [findOwner_findField]
  cases findOwner hd.2.1 ct with
  | ok v =>
    cases v with
    | none => rfl
    | some x =>
      simp only [dropOwner, loadDataH, h]
      rfl
  | trap => rfl
  | ub => rfl

theorem loadObjectH_none {fn : Functions} {e : Env} (h : ∀ o f, fn.load o f = none) : ∀ n, loadObjectH fn e n = loadObject e n
  | 0 => rfl
  | n + 1 => by
    funext t b ds th
    simp only [loadObjectH, loadObject, loadObjectH_none h n]
    congr 1
    cases t <;> simp only [loadBodyH, loadBody, loadFieldH_none h]

/-- **C103** (no functions): a program without functions saves and loads as in C37 to C39. -/
theorem C103_none {fn : Functions} (hs : ∀ o f, fn.save o f = none) (hl : ∀ o f, fn.load o f = none) (e : Env) (m : Mem) (t : Ty)
    (a b n : Nat) (out : Bytes) : saveH fn e m t a out = save e m t a out ∧ loadH fn e n t b = load e n t b := by
  refine ⟨?_, ?_⟩
  · rw [saveH, save, saveObjectH_none hs]
  · rw [loadH, load, loadObjectH_none hl]

/-! ### Objects and functions that meet the hypotheses -/

/-- A function that saves the eight bytes of its field, and one more. -/
def copyOut : Mem → Nat → Nat → Bytes := fun m _ field => m.read field 8 ++ [77]

/-- A function that loads the eight bytes, and leaves the reader before the ninth. -/
def copyIn : Nat → Nat → Load Unit := fun _ field => do
  let bs ← read 8
  store fun m => m.write field bs

/-- The functions of the field `blob` of the class `Node`, and of no other class. -/
def nodeFunctions : Functions :=
  { save := fun o f => if o = Hash.hashText b!"Node" ∧ f.name = b!"blob" then some copyOut else none
    load := fun o f => if o = Hash.hashText b!"Node" ∧ f.name = b!"blob" then some copyIn else none }

theorem copy_inverse {x : FldInfo × Ty} (hx : x.1.extent x.2 = 8) : InverseOn x copyOut copyIn := by
  rintro m a s b hlen ⟨pre, post, h1, h2⟩ hb
  have hl8 : (m.read (a + x.1.offset) 8).length = 8 := Clr.JSON.read_length _ _ _
  have hhas : Has s (m.read (a + x.1.offset) 8) := by
    have hl : s.data.length = pre.length + (8 + 1) + post.length := by rw [h1]; simp [copyOut, hl8]; omega
    refine ⟨by omega, hlen, by rw [hl8, h2]; simp; omega, ?_⟩
    rw [h2, h1, hl8]
    simp only [Int.toNat_natCast, copyOut, List.append_assoc]
    rw [List.drop_left, List.take_append_of_le_length (by omega), List.take_of_length_le (by omega)]
  have hr := read_has hhas
  rw [hl8] at hr
  have hw := Clr.JSON.read_write s.mem (b + x.1.offset) (m.read (a + x.1.offset) 8)
  rw [hl8] at hw
  have h3 := hhas.1
  have h4 := hhas.2.2.1
  rw [hl8] at h4
  refine ⟨{ adv s 8 with mem := s.mem.write (b + x.1.offset) (m.read (a + x.1.offset) 8) }, ?_, rfl, ?_, ?_, ?_, ?_⟩
  · rw [copyIn, run_bind hr]; rfl
  · simp only [adv]; omega
  · simp only [adv]; omega
  · refine (Clr.JSON.effect_write s.mem (b + x.1.offset) (m.read (a + x.1.offset) 8)).mono fun z hz => ?_
    rw [hl8] at hz
    unfold InField
    rw [hx]
    exact hz
  · rw [hx]; exact hw

theorem node_lasts (m : Mem) (a : Nat) : Lasts nodeFunctions demoEnv m none tNode a := by
  have hk : keptOwned demoEnv tNode = [(Hash.hashText b!"Node", { name := b!"id", offset := 0 }, tInt),
      (Hash.hashText b!"Node", { name := b!"blob", offset := 8, isPtr := true }, .prim (Hash.hashText b!"Blob") 1),
      (Hash.hashText b!"Node", { name := b!"tail", offset := 16 }, tInt)] := rfl
  have hk' := hk
  rw [tNode] at hk'
  refine .object ⟨⟩ (by decide +kernel) ?_ ?_ ?_ ?_ ?_
  · rw [hk']; decide +kernel
  · rw [hk']; decide +kernel
  · intro x hx g hg
    rw [hk'] at hx
    simp only [List.mem_cons, List.not_mem_nil, or_false] at hx
    rcases hx with rfl | rfl | rfl
    · simp [nodeFunctions, Functions.saves] at hg
    · refine ⟨copyIn, by simp [nodeFunctions, Functions.saves, Functions.loads], ?_⟩
      have : g = copyOut := by simpa [nodeFunctions, Functions.saves] using hg.symm
      subst this
      exact copy_inverse rfl
    · simp [nodeFunctions, Functions.saves] at hg
  · intro x hx hg
    rw [hk'] at hx
    simp only [List.mem_cons, List.not_mem_nil, or_false] at hx
    rcases hx with rfl | rfl | rfl
    · exact ⟨by simp [nodeFunctions, Functions.saves, Functions.loads], rfl⟩
    · simp [nodeFunctions, Functions.saves] at hg
    · exact ⟨by simp [nodeFunctions, Functions.saves, Functions.loads], rfl⟩
  · intro x hx hg
    rw [hk'] at hx
    simp only [List.mem_cons, List.not_mem_nil, or_false] at hx
    rcases hx with rfl | rfl | rfl
    · exact .prim _ _ _
    · simp [nodeFunctions, Functions.saves] at hg
    · exact .prim _ _ _

/-- `struct Scene { std::vector<Node> nodes; Node pair[2]; int blob; std::map<int, Node> by; }`: a field has the name of another class's
field with functions. -/
def tScene : Ty := .cls (Hash.hashText b!"Scene") 88 0
  (.cons { name := b!"nodes", offset := 0 } (.vec (Hash.hashText b!"std::vector<Node>") 24 tNode false)
  (.cons { name := b!"pair", offset := 24, count := some 2 } tNode
  (.cons { name := b!"blob", offset := 72 } tInt
  (.cons { name := b!"by", offset := 80 } (.dict (Hash.hashText b!"std::map<int,Node>") 8 tInt tNode false) .nil)))) .nil

/-- A `Scene` at address 0: two elements in its list (at 100 and 124) and one in its map (the key at 150, the value at 156). -/
def sceneMem : Mem :=
  { byte := fun x => UInt8.ofNat x
    elems := fun x => if x = 0 then [(0, 100), (0, 124)] else if x = 80 then [(150, 156)] else []
    next := 1000 }

theorem scene_lasts : Lasts nodeFunctions demoEnv sceneMem none tScene 0 := by
  have hn := node_lasts sceneMem
  have hk : keptOwned demoEnv tScene = [
      (Hash.hashText b!"Scene", { name := b!"nodes", offset := 0 }, .vec (Hash.hashText b!"std::vector<Node>") 24 tNode false),
      (Hash.hashText b!"Scene", { name := b!"pair", offset := 24, count := some 2 }, tNode),
      (Hash.hashText b!"Scene", { name := b!"blob", offset := 72 }, tInt),
      (Hash.hashText b!"Scene", { name := b!"by", offset := 80 },
        .dict (Hash.hashText b!"std::map<int,Node>") 8 tInt tNode false)] := rfl
  have hk' := hk
  rw [tScene] at hk'
  have hne : Hash.hashText b!"Scene" ≠ Hash.hashText b!"Node" := by decide +kernel
  have hno : ∀ f, nodeFunctions.save (Hash.hashText b!"Scene") f = none ∧ nodeFunctions.load (Hash.hashText b!"Scene") f = none :=
    fun f => by simp only [nodeFunctions, hne, false_and, if_false, and_self]
  refine .object ⟨⟩ (by decide +kernel) (by rw [hk']; decide +kernel) (by rw [hk']; decide +kernel) ?_ ?_ ?_
  · intro x hx g hg
    rw [hk'] at hx
    simp only [List.mem_cons, List.not_mem_nil, or_false] at hx
    rcases hx with rfl | rfl | rfl | rfl <;> (rw [Functions.saves, (hno _).1] at hg; cases hg)
  · intro x hx _
    rw [hk'] at hx
    simp only [List.mem_cons, List.not_mem_nil, or_false] at hx
    rcases hx with rfl | rfl | rfl | rfl <;> exact ⟨(hno _).2, rfl⟩
  · intro x hx _
    rw [hk'] at hx
    simp only [List.mem_cons, List.not_mem_nil, or_false] at hx
    rcases hx with rfl | rfl | rfl | rfl
    · exact .list (by decide) (by decide) (by decide) (fun x _ => hn _)
    · exact .array (by decide) (by decide) (by decide) (fun i _ => hn _)
    · exact .prim _ _ _
    · exact .dict (by decide) (by decide) (.inl ⟨_, _, rfl⟩) (by decide) (by decide) (fun x _ => .prim _ _ _) (fun x _ => hn _)

/-- The hypotheses of the round trip are met by a class with functions at depth: in a list, in a C array and in a dictionary. -/
example : ∃ saved, saveH nodeFunctions demoEnv sceneMem tScene 0 [9] = .ok (([9] : Bytes) ++ saved) ∧
    ((([9] : Bytes) ++ saved ++ [1, 2]).length < 2 ^ 31 → ∃ m1 back,
      Returns (fun n => loadH nodeFunctions demoEnv n tScene 300 ⟨([9] : Bytes) ++ saved ++ [1, 2], 1, docMem, false⟩)
        (.ok () ⟨([9] : Bytes) ++ saved ++ [1, 2], ((([9] : Bytes) ++ saved).length : Nat), m1, back⟩) ∧
      Back nodeFunctions demoEnv sceneMem m1 (fun x => 1000 ≤ x ∧ x < m1.next) none tScene 0 300) := by
  obtain ⟨saved, h1, h2⟩ := C103_round_trip_partial scene_lasts [9]
  refine ⟨saved, h1, fun hlen => ?_⟩
  obtain ⟨m1, back, h3, -, h4⟩ := h2 [1, 2] docMem 300 _ rfl hlen (by decide)
  exact ⟨m1, back, h3, h4⟩

/-- The chunk of such a field, wherever its object is. -/
example (m : Mem) (a : Nat) (out : Bytes) : saveObjectH nodeFunctions demoEnv m tNode a out = .ok (out ++
    (le 4 tInt.hash.toNat ++ le 4 (Hash.hashText b!"id").toNat ++ le 4 4 ++ m.read a 4 ++
    (le 4 (Hash.hashText b!"Blob").toNat ++ le 4 (Hash.hashText b!"blob").toNat ++ le 4 9 ++ (m.read (a + 8) 8 ++ [77])) ++
    (le 4 tInt.hash.toNat ++ le 4 (Hash.hashText b!"tail").toNat ++ le 4 4 ++ m.read (a + 16) 4))) := by
  have hk : keptOwned demoEnv tNode = [(Hash.hashText b!"Node", { name := b!"id", offset := 0 }, tInt),
      (Hash.hashText b!"Node", { name := b!"blob", offset := 8, isPtr := true }, .prim (Hash.hashText b!"Blob") 1),
      (Hash.hashText b!"Node", { name := b!"tail", offset := 16 }, tInt)] := rfl
  have h := C103_chunks nodeFunctions demoEnv m tNode ⟨⟩ a
    (fun x => if x.2.1.isPtr then copyOut m a (a + x.2.1.offset) else m.read (a + x.2.1.offset) 4) (fun x hx => by
      rw [hk] at hx
      simp only [List.mem_cons, List.not_mem_nil, or_false] at hx
      rcases hx with rfl | rfl | rfl
      · exact .value (by simp [nodeFunctions, Functions.saves]) rfl (fun out => by simp [saveObjectH, tInt])
      · exact .function (g := copyOut) (by simp [nodeFunctions, Functions.saves])
      · exact .value (by simp [nodeFunctions, Functions.saves]) rfl (fun out => by simp [saveObjectH, tInt])) out
  rw [h, hk]
  simp [copyOut, Clr.JSON.read_length, nameHash, Ty.hash]

end Clr.VBin
