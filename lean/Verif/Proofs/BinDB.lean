import Verif.Model.BinDB
import Verif.Proofs.TextDB
import Verif.Proofs.Merge
/-! Lemmas for the binary database format (C13). -/
namespace Clr.BinDB
open Clr.DB Clr.TextDB Clr.Merge

attribute [local irreducible] hashOf

/-! ### Numbers -/

theorem take_le (w v : Nat) (r : Bytes) : (le w v ++ r).take w = le w v := by
  rw [List.take_append_of_le_length (by rw [length_le]; omega), List.take_of_length_le (by rw [length_le]; omega)]

theorem drop_le (w v : Nat) (r : Bytes) : (le w v ++ r).drop w = r := by
  have := List.drop_left (l₁ := le w v) (l₂ := r)
  rwa [length_le] at this

theorem take_le' (w v : Nat) : (le w v).take w = le w v := List.take_of_length_le (by rw [length_le]; omega)

theorem u32_back (v : UInt32) : UInt32.ofNat (unle (le 4 v.toNat)) = v := by
  rw [unle_le_of_lt (by have := v.toNat_lt; omega)]; simp

theorem u64_back (v : UInt64) : UInt64.ofNat (unle (le 8 v.toNat)) = v := by
  rw [unle_le_of_lt (by have := v.toNat_lt; omega)]; simp

theorem i32_back (v : Int32) : (UInt32.ofNat (unle (le 4 v.toUInt32.toNat))).toInt32 = v := by
  rw [u32_back]; simp

theorem i32_back' (v : Int32) : Int32.ofNat (unle (le 4 v.toUInt32.toNat)) = v := by
  have := i32_back v
  simpa using this

theorem take_boolB (b : Bool) (r : Bytes) : (boolB b ++ r).take 1 = boolB b := rfl
theorem drop_boolB (b : Bool) (r : Bytes) : (boolB b ++ r).drop 1 = r := rfl
theorem take_boolB' (b : Bool) : (boolB b).take 1 = boolB b := rfl
theorem length_boolB (b : Bool) : (boolB b).length = 1 := rfl
theorem zero_back : UInt64.ofNat (unle (le 8 0)) = 0 := by decide

theorem length_qualB (pad : Bytes) (hp : pad.length = 3) (q : Qualifier) : (qualB pad q).length = 8 := by
  simp [qualB, length_le, length_boolB, hp]
theorem take_qualB (pad : Bytes) (hp : pad.length = 3) (q : Qualifier) (r : Bytes) :
    (qualB pad q ++ r).take 8 = qualB pad q := by
  rw [← length_qualB pad hp q, List.take_left]
theorem drop_qualB (pad : Bytes) (hp : pad.length = 3) (q : Qualifier) (r : Bytes) :
    (qualB pad q ++ r).drop 8 = r := by
  rw [← length_qualB pad hp q, List.drop_left]

theorem unBool_back (b : Bool) : unBool (boolB b) = some b := by cases b <;> rfl
theorem unScoped_back (s : Scoped) : unScoped (le 4 (scopedVal s)) = some s := by cases s <;> decide +kernel
theorem unOp_back (s : QualOp) : unOp (le 4 (opVal s)) = some s := by cases s <;> decide +kernel

theorem unQual_back (pad : Bytes) (q : Qualifier) : unQual (qualB pad q) = some q := by
  unfold unQual qualB
  simp only [List.append_assoc, take_le, drop_le, unOp_back, Option.bind_eq_bind, Option.bind_some]
  cases h : q.isConst <;> cases q <;> simp_all [boolB, unBool]

set_option linter.unusedSimpArgs false

/-! ### One record -/

/-- A record comes back from its packed form. -/
def RT {α : Type} (r : RecType α) (names : List Name) (texts : List (UInt32 × Bytes)) (x : α) : Prop :=
  ∃ b, packObj (r.toObj x) r.slots = .ok b ∧ b.length = packedSize r.slots ∧
    ∃ o, unpackObj names texts r.slots b r.fresh = .ok o ∧ r.ofObj o = some x

section
variable {names : List Name} (hn : NamesOk names) (texts : List (UInt32 × Bytes))
include hn

theorem rt_template (x : Template) (h : KnownPrim names x.toPrim) : RT templateRec names texts x := by
  unfold RT
  simp [-List.drop_drop, templateRec, primObj, primSlots, packObj, packCell, cellAt, unpackObj, unpackCell, setCell, unPrim,
    packedSize, length_le, FType.packed, take_le, drop_le, take_le', u32_back, u64_back, i32_back, i32_back', take_boolB, drop_boolB, take_boolB', length_boolB, unBool_back, unScoped_back,
    unQual_back, hn.get h.1, hn.get h.2]

theorem rt_namespace (x : Namespace) (h : KnownPrim names x.toPrim) : RT namespaceRec names texts x := by
  unfold RT
  simp [-List.drop_drop, namespaceRec, primObj, primSlots, packObj, packCell, cellAt, unpackObj, unpackCell, setCell, unPrim,
    packedSize, length_le, FType.packed, take_le, drop_le, take_le', u32_back, u64_back, i32_back, i32_back', take_boolB, drop_boolB, take_boolB', length_boolB, unBool_back, unScoped_back,
    unQual_back, hn.get h.1, hn.get h.2]

theorem rt_type (x : Ty) (h : KnownPrim names x.toPrim) : RT typeRec names texts x := by
  unfold RT
  simp [-List.drop_drop, typeRec, primObj, primSlots, packObj, packCell, cellAt, unpackObj, unpackCell, setCell, unPrim,
    packedSize, length_le, FType.packed, take_le, drop_le, take_le', u32_back, u64_back, i32_back, i32_back', take_boolB, drop_boolB, take_boolB', length_boolB, unBool_back, unScoped_back,
    unQual_back, hn.get h.1, hn.get h.2]

theorem rt_enumConstant (x : EnumConstant) (h : KnownPrim names x.toPrim) : RT enumConstantRec names texts x := by
  unfold RT
  simp [-List.drop_drop, enumConstantRec, primObj, primSlots, packObj, packCell, cellAt, unpackObj, unpackCell, setCell, unPrim,
    packedSize, length_le, FType.packed, take_le, drop_le, take_le', u32_back, u64_back, i32_back, i32_back', take_boolB, drop_boolB, take_boolB', length_boolB, unBool_back, unScoped_back,
    unQual_back, hn.get h.1, hn.get h.2]

theorem rt_enum (x : Enum) (h : KnownPrim names x.toPrim) : RT enumRec names texts x := by
  unfold RT
  simp [-List.drop_drop, enumRec, primObj, primSlots, packObj, packCell, cellAt, unpackObj, unpackCell, setCell, unPrim,
    packedSize, length_le, FType.packed, take_le, drop_le, take_le', u32_back, u64_back, i32_back, i32_back', take_boolB, drop_boolB, take_boolB', length_boolB, unBool_back, unScoped_back,
    unQual_back, hn.get h.1, hn.get h.2]

theorem rt_function (x : Function) (h : KnownPrim names x.toPrim) (ha : x.address = 0) : RT functionRec names texts x := by
  unfold RT
  simp [-List.drop_drop, functionRec, primObj, primSlots, packObj, packCell, cellAt, unpackObj, unpackCell, setCell, unPrim,
    packedSize, length_le, FType.packed, take_le, drop_le, take_le', u32_back, u64_back, i32_back, i32_back', take_boolB, drop_boolB, take_boolB', length_boolB, unBool_back, unScoped_back,
    unQual_back, hn.get h.1, hn.get h.2, ha, zero_back]
  rw [← ha]

theorem rt_class (x : Class) (h : KnownPrim names x.toPrim) : RT classRec names texts x := by
  unfold RT
  simp [-List.drop_drop, classRec, primObj, primSlots, packObj, packCell, cellAt, unpackObj, unpackCell, setCell, unPrim,
    packedSize, length_le, FType.packed, take_le, drop_le, take_le', u32_back, u64_back, i32_back, i32_back', take_boolB, drop_boolB, take_boolB', length_boolB, unBool_back, unScoped_back,
    unQual_back, hn.get h.1, hn.get h.2]

theorem rt_field (pad : Field → Bytes) (x : Field) (h : KnownPrim names x.toPrim) (ht : Known names x.type) (hpad : (pad x).length = 3) : RT (fieldRec pad) names texts x := by
  unfold RT
  simp [-List.drop_drop, fieldRec, primObj, primSlots, packObj, packCell, cellAt, unpackObj, unpackCell, setCell, unPrim,
    packedSize, length_le, FType.packed, take_le, drop_le, take_le', u32_back, u64_back, i32_back, i32_back', take_boolB, drop_boolB, take_boolB', length_boolB, unBool_back, unScoped_back,
    unQual_back, hn.get h.1, hn.get h.2, hn.get ht, hpad,
    length_qualB (pad x) hpad, take_qualB (pad x) hpad, drop_qualB (pad x) hpad]

theorem rt_templateType (x : TemplateType) (h : KnownPrim names x.toPrim) (h0 : Known names x.a0.type) (h1 : Known names x.a1.type) (h2 : Known names x.a2.type) (h3 : Known names x.a3.type) : RT templateTypeRec names texts x := by
  unfold RT
  simp [-List.drop_drop, -List.drop_one, -List.tail_drop, templateTypeRec, primObj, primSlots, packObj, packCell, cellAt, unpackObj, unpackCell, setCell, unPrim,
    packedSize, length_le, FType.packed, take_le, drop_le, take_le', u32_back, u64_back, i32_back, i32_back', take_boolB, drop_boolB, take_boolB', length_boolB, unBool_back, unScoped_back,
    unQual_back, hn.get h.1, hn.get h.2, hn.get h0, hn.get h1, hn.get h2, hn.get h3]

theorem rt_container (x : ContainerInfo) (h0 : Known names x.name) (h1 : Known names x.readIterator) (h2 : Known names x.writeIterator) : RT containerRec names texts x := by
  unfold RT
  simp [-List.drop_drop, containerRec, primObj, primSlots, packObj, packCell, cellAt, unpackObj, unpackCell, setCell, unPrim,
    packedSize, length_le, FType.packed, take_le, drop_le, take_le', u32_back, u64_back, i32_back, i32_back', take_boolB, drop_boolB, take_boolB', length_boolB, unBool_back, unScoped_back,
    unQual_back, hn.get h0, hn.get h1, hn.get h2]

theorem rt_inheritance (x : TypeInheritance) (h0 : Known names x.name) (h1 : Known names x.derived) (h2 : Known names x.base) : RT inheritanceRec names texts x := by
  unfold RT
  simp [-List.drop_drop, inheritanceRec, primObj, primSlots, packObj, packCell, cellAt, unpackObj, unpackCell, setCell, unPrim,
    packedSize, length_le, FType.packed, take_le, drop_le, take_le', u32_back, u64_back, i32_back, i32_back', take_boolB, drop_boolB, take_boolB', length_boolB, unBool_back, unScoped_back,
    unQual_back, hn.get h0, hn.get h1, hn.get h2]

theorem rt_flag (x : FlagAttribute) (h : KnownPrim names x.toPrim) : RT (flagRec 0) names texts x := by
  unfold RT
  simp [-List.drop_drop, flagRec, primObj, primSlots, packObj, packCell, cellAt, unpackObj, unpackCell, setCell, unPrim,
    packedSize, length_le, FType.packed, take_le, drop_le, take_le', u32_back, u64_back, i32_back, i32_back', take_boolB, drop_boolB, take_boolB', length_boolB, unBool_back, unScoped_back,
    unQual_back, hn.get h.1, hn.get h.2]

theorem rt_int (x : IntAttribute) (h : KnownPrim names x.toPrim) : RT (intRec 0) names texts x := by
  unfold RT
  simp [-List.drop_drop, intRec, primObj, primSlots, packObj, packCell, cellAt, unpackObj, unpackCell, setCell, unPrim,
    packedSize, length_le, FType.packed, take_le, drop_le, take_le', u32_back, u64_back, i32_back, i32_back', take_boolB, drop_boolB, take_boolB', length_boolB, unBool_back, unScoped_back,
    unQual_back, hn.get h.1, hn.get h.2]

theorem rt_float (x : FloatAttribute) (h : KnownPrim names x.toPrim) : RT (floatRec 0) names texts x := by
  unfold RT
  simp [-List.drop_drop, floatRec, primObj, primSlots, packObj, packCell, cellAt, unpackObj, unpackCell, setCell, unPrim,
    packedSize, length_le, FType.packed, take_le, drop_le, take_le', u32_back, u64_back, i32_back, i32_back', take_boolB, drop_boolB, take_boolB', length_boolB, unBool_back, unScoped_back,
    unQual_back, hn.get h.1, hn.get h.2]

theorem rt_primitive (x : PrimitiveAttribute) (h : KnownPrim names x.toPrim) (hv : Known names x.value) : RT (primitiveRec 0) names texts x := by
  unfold RT
  simp [-List.drop_drop, primitiveRec, primObj, primSlots, packObj, packCell, cellAt, unpackObj, unpackCell, setCell, unPrim,
    packedSize, length_le, FType.packed, take_le, drop_le, take_le', u32_back, u64_back, i32_back, i32_back', take_boolB, drop_boolB, take_boolB', length_boolB, unBool_back, unScoped_back,
    unQual_back, hn.get h.1, hn.get h.2, hn.get hv]

theorem rt_text (x : TextAttribute) (h : KnownPrim names x.toPrim) (hv : texts.find? (fun t => t.1 == hashOf (cstr x.value)) = some (hashOf (cstr x.value), x.value)) : RT (textRec 0) names texts x := by
  unfold RT
  simp [-List.drop_drop, textRec, primObj, primSlots, packObj, packCell, cellAt, unpackObj, unpackCell, setCell, unPrim,
    packedSize, length_le, FType.packed, take_le, drop_le, take_le', u32_back, u64_back, i32_back, i32_back', take_boolB, drop_boolB, take_boolB', length_boolB, unBool_back, unScoped_back,
    unQual_back, hn.get h.1, hn.get h.2, hv]

end

/-! ### Tables -/

section
variable {α : Type} (r : RecType α) (names : List Name) (texts : List (UInt32 × Bytes))

/-- Adding entries one by one. -/
def addAll (addTo : α → List α → Res (List α)) : List α → List α → Res (List α)
  | [], l => .ok l
  | x :: xs, l => do
    let l ← addTo x l
    addAll addTo xs l

theorem packAll_spec (xs : List α) (h : ∀ x ∈ xs, RT r names texts x) :
    ∃ b, packAll r xs = .ok b ∧ b.length = xs.length * packedSize r.slots ∧
      ∀ addTo l, readEntries r addTo names texts xs.length b l = addAll addTo xs l := by
  induction xs with
  | nil => exact ⟨[], rfl, by simp, fun _ _ => rfl⟩
  | cons x xs ih =>
    obtain ⟨b, hb1, hb2, o, ho1, ho2⟩ := h x (by simp)
    obtain ⟨bs, h1, h2, h3⟩ := ih (fun y hy => h y (by simp [hy]))
    refine ⟨b ++ bs, ?_, ?_, ?_⟩
    · rw [packAll, hb1, h1]; rfl
    · rw [List.length_append, hb2, h2, List.length_cons, Nat.add_mul]; omega
    · intro addTo l
      rw [List.length_cons, readEntries]
      have ht : (b ++ bs).take (packedSize r.slots) = b := by rw [← hb2, List.take_left]
      have hd : (b ++ bs).drop (packedSize r.slots) = bs := by rw [← hb2, List.drop_left]
      rw [ht, hd, ho1]
      simp only [Res.bind_ok, ho2, addAll]
      cases addTo x l <;> simp [h3]

theorem readU32_le (v : Nat) (hv : v < 2 ^ 32) (rest : Bytes) : readU32 (le 4 v ++ rest) = .ok (v, rest) := by
  unfold readU32 readN
  rw [takeN_eq (length_le 4 v)]
  simp only [Res.bind_ok, unle_le_of_lt (w := 4) (v := v) (by omega)]
  rfl

theorem table_spec (addTo : α → List α → Res (List α)) (xs ys : List α) (l : List α)
    (h : ∀ x ∈ xs, RT r names texts x) (hsize : xs.length * packedSize r.slots < 2 ^ 31) (hcount : xs.length < 2 ^ 31)
    (hadd : addAll addTo xs l = .ok ys) :
    ∃ b, writeTable r xs = .ok b ∧ ∀ rest, readTable r addTo names texts (b ++ rest) l = .ok (ys, rest) := by
  obtain ⟨b, h1, h2, h3⟩ := packAll_spec r names texts xs h
  refine ⟨le 4 xs.length ++ b, ?_, ?_⟩
  · rw [writeTable, if_pos hsize, h1]; rfl
  · intro rest
    rw [readTable, List.append_assoc, readU32_le _ (by omega)]
    simp only [Res.bind_ok]
    rw [if_neg (by omega), if_neg (by omega), readN, takeN_eq h2]
    simp only [Res.bind_ok, h3, hadd]
    rfl

theorem addAll_sorted (key : α → UInt32) (xs : List α) (hs : SortedLe key xs) (h0 : ∀ x ∈ xs, key x ≠ 0) :
    addAll (add key) xs [] = .ok xs := by
  have gen : ∀ (post pre : List α), pre ++ post = xs → addAll (add key) post pre = .ok xs := by
    intro post
    induction post with
    | nil => intro pre h; simp at h; subst h; rfl
    | cons x post ih =>
      intro pre h
      have hx : x ∈ xs := by rw [← h]; simp
      have hR : ∀ y ∈ pre, key y ≤ key x := by
        intro y hy
        have hs' := hs
        rw [← h, SortedLe, List.pairwise_append] at hs'
        exact hs'.2.2 y hy x (by simp)
      rw [addAll, add, if_neg (h0 x hx), insertBy_append x pre hR]
      simp only [Res.bind_ok]
      exact ih (pre ++ [x]) (by simp [h])
  exact gen xs [] rfl

theorem addAll_map (key : α → UInt32) (xs : List α) (hs : xs.Pairwise (fun a b => key a < key b))
    (h0 : ∀ x ∈ xs, key x ≠ 0) : addAll (addMap key) xs [] = .ok xs := by
  have gen : ∀ (post pre : List α), pre ++ post = xs → addAll (addMap key) post pre = .ok xs := by
    intro post
    induction post with
    | nil => intro pre h; simp at h; subst h; rfl
    | cons x post ih =>
      intro pre h
      have hx : x ∈ xs := by rw [← h]; simp
      have hR : ∀ y ∈ pre, key y < key x := by
        intro y hy
        have hs' := hs
        rw [← h, List.pairwise_append] at hs'
        exact hs'.2.2 y hy x (by simp)
      have hn : findBy key (key x) pre = none := by
        unfold findBy
        rw [List.find?_eq_none]
        intro y hy he
        have := hR y hy
        rw [beq_iff_eq] at he
        rw [he] at this
        exact UInt32.lt_irrefl _ this
      rw [addAll, addMap, if_neg (h0 x hx), hn]
      simp only [Option.isSome_none, Bool.false_eq_true, if_false, Res.bind_ok]
      rw [insertBy_append x pre (fun y hy => UInt32.le_of_lt (hR y hy))]
      exact ih (pre ++ [x]) (by simp [h])
  exact gen xs [] rfl

/-- A multimap table is read back as it was written. -/
theorem multi_spec (xs : List α) (h : ∀ x ∈ xs, RT r names texts x)
    (hsize : xs.length * packedSize r.slots < 2 ^ 31) (hcount : xs.length < 2 ^ 31)
    (hs : SortedLe r.key xs) (h0 : ∀ x ∈ xs, r.key x ≠ 0) :
    ∃ b, writeTable r xs = .ok b ∧ ∀ rest, readMulti r names texts (b ++ rest) [] = .ok (xs, rest) :=
  table_spec r names texts (add r.key) xs xs [] h hsize hcount (addAll_sorted r.key xs hs h0)

/-- A map table is read back as it was written. -/
theorem map_spec (xs : List α) (h : ∀ x ∈ xs, RT r names texts x)
    (hsize : xs.length * packedSize r.slots < 2 ^ 31) (hcount : xs.length < 2 ^ 31)
    (hs : xs.Pairwise (fun a b => r.key a < r.key b)) (h0 : ∀ x ∈ xs, r.key x ≠ 0) :
    ∃ b, writeTable r xs = .ok b ∧ ∀ rest, readMap r names texts (b ++ rest) [] = .ok (xs, rest) :=
  table_spec r names texts (addMap r.key) xs xs [] h hsize hcount (addAll_map r.key xs hs h0)

end

/-! ### Names and texts -/

theorem readString_write (s rest : Bytes) (h0 : 0 ∉ s) (hl : s.length ≤ 1023) :
    readString (writeString s ++ rest) = .ok (s, rest) := by
  unfold readString writeString
  rw [List.append_assoc, readU32_le _ (by omega)]
  simp only [Res.bind_ok]
  rw [if_neg (by omega), readN, takeN_append]
  simp only [Res.bind_ok, Res.pure_eq]
  rw [show cstr s = s from (takeWhile_all s h0).1]

theorem readNames_write (l : List Name) (rest : Bytes) (hs : l.Pairwise (fun a b => a.hash < b.hash))
    (hc : l.length < 2 ^ 31) (ht : ∀ n ∈ l, 0 ∉ n.text ∧ n.text.length ≤ 1023) :
    readNames (writeNames l ++ rest) [] = .ok (l, rest) := by
  have gen : ∀ (post pre : List Name), pre ++ post = l →
      readNameEntries post.length (post.flatMap (fun n => le 4 n.hash.toNat ++ writeString n.text) ++ rest) pre =
        .ok (l, rest) := by
    intro post
    induction post with
    | nil => intro pre h; simp at h; subst h; rfl
    | cons n post ih =>
      intro pre h
      have hx : n ∈ l := by rw [← h]; simp
      have hR : ∀ y ∈ pre, y.hash < n.hash := by
        intro y hy
        have hs' := hs
        rw [← h, List.pairwise_append] at hs'
        exact hs'.2.2 y hy n (by simp)
      rw [List.length_cons, readNameEntries, List.flatMap_cons]
      simp only [List.append_assoc]
      rw [readU32_le _ (by have := n.hash.toNat_lt; omega)]
      simp only [Res.bind_ok]
      rw [readString_write _ _ (ht n hx).1 (ht n hx).2]
      simp only [Res.bind_ok, UInt32.ofNat_toNat]
      rw [assignBy_append (key := Name.hash) n pre hR]
      exact ih (pre ++ [n]) (by simp [h])
  unfold readNames writeNames
  rw [List.append_assoc, readU32_le _ (by omega)]
  simp only [Res.bind_ok]
  rw [if_neg (by omega)]
  exact gen l [] rfl

theorem assignBy_absent {α : Type} {key : α → UInt32} (x : α) (l : List α) (h : ∀ y ∈ l, key y ≠ key x) :
    assignBy key x l = insertBy key x l := by
  induction l with
  | nil => rfl
  | cons y l ih =>
    rw [assignBy, insertBy]
    split
    · rfl
    · rw [if_neg (fun he => h y (by simp) he.symm), ih (fun z hz => h z (by simp [hz]))]

/-- The entry of the text map for an attribute. -/
def textEntry (a : TextAttribute) : UInt32 × Bytes := (hashOf (cstr a.value), a.value)

theorem textMap_spec (l : List TextAttribute) (hd : l.Pairwise (fun a b => (textEntry a).1 ≠ (textEntry b).1)) :
    (textMap l).Perm (l.map textEntry) ∧ (textMap l).Pairwise (fun a b => a.1 < b.1) := by
  have gen : ∀ (post pre : List TextAttribute) (m : List (UInt32 × Bytes)), pre ++ post = l →
      m.Perm (pre.map textEntry) → m.Pairwise (fun a b => a.1 ≤ b.1) →
      (post.foldl (fun m a => assignText (hashOf (cstr a.value), a.value) m) m).Perm (l.map textEntry) ∧
      (post.foldl (fun m a => assignText (hashOf (cstr a.value), a.value) m) m).Pairwise (fun a b => a.1 ≤ b.1) := by
    intro post
    induction post with
    | nil => intro pre m h hp hs; simp at h; subst h; exact ⟨hp, hs⟩
    | cons x post ih =>
      intro pre m h hp hs
      rw [List.foldl_cons]
      have hab : ∀ y ∈ m, y.1 ≠ (textEntry x).1 := by
        intro y hy
        obtain ⟨a, ha, rfl⟩ := List.mem_map.mp (hp.mem_iff.mp hy)
        have hd' := hd
        rw [← h, List.pairwise_append] at hd'
        exact hd'.2.2 a ha x (by simp)
      have he : assignText (hashOf (cstr x.value), x.value) m = insertBy (·.1) (textEntry x) m :=
        assignBy_absent (key := fun t : UInt32 × Bytes => t.1) (textEntry x) m hab
      rw [he]
      apply ih (pre ++ [x])
      · simp [h]
      · refine (perm_insertBy (key := fun t : UInt32 × Bytes => t.1) (textEntry x) m).trans ?_
        rw [List.map_append]
        refine (List.Perm.cons _ hp).trans ?_
        exact List.perm_append_comm (l₁ := [textEntry x])
      · exact sorted_insertBy (key := fun t : UInt32 × Bytes => t.1) (textEntry x) m hs
  obtain ⟨hp, hs⟩ := gen l [] [] rfl (by simp) (by simp)
  refine ⟨hp, ?_⟩
  have hn : (textMap l).Pairwise (fun a b => a.1 ≠ b.1) := by
    have hd' : (l.map textEntry).Pairwise (fun a b => a.1 ≠ b.1) := List.pairwise_map.mpr hd
    exact hp.symm.pairwise hd' (fun {a b} h he => h he.symm)
  have := List.Pairwise.and hs hn
  refine this.imp (fun {a b} h => ?_)
  have h1 := h.1
  have h2 := h.2
  rw [UInt32.le_iff_toNat_le] at h1
  rw [UInt32.lt_iff_toNat_lt]
  have : a.1.toNat ≠ b.1.toNat := fun he => h2 (UInt32.toNat_inj.mp he)
  omega

theorem readTexts_write (l : List TextAttribute) (rest : Bytes)
    (hd : l.Pairwise (fun a b => (textEntry a).1 ≠ (textEntry b).1)) (hc : l.length < 2 ^ 31)
    (ht : ∀ a ∈ l, 0 ∉ a.value ∧ a.value.length ≤ 1023) :
    readTexts (writeTexts l ++ rest) = .ok (textMap l, rest) := by
  obtain ⟨hp, hs⟩ := textMap_spec l hd
  have ht' : ∀ t ∈ textMap l, 0 ∉ t.2 ∧ t.2.length ≤ 1023 := by
    intro t hm
    obtain ⟨a, ha, rfl⟩ := List.mem_map.mp (hp.mem_iff.mp hm)
    exact ht a ha
  have hlen : (textMap l).length = l.length := by rw [hp.length_eq, List.length_map]
  have gen : ∀ (post pre : List (UInt32 × Bytes)), pre ++ post = textMap l →
      readTextEntries post.length (post.flatMap (fun t => le 4 t.1.toNat ++ writeString t.2) ++ rest) pre =
        .ok (textMap l, rest) := by
    intro post
    induction post with
    | nil => intro pre h; simp at h; subst h; rfl
    | cons n post ih =>
      intro pre h
      have hx : n ∈ textMap l := by rw [← h]; simp
      have hR : ∀ y ∈ pre, y.1 < n.1 := by
        intro y hy
        have hs' := hs
        rw [← h, List.pairwise_append] at hs'
        exact hs'.2.2 y hy n (by simp)
      rw [List.length_cons, readTextEntries, List.flatMap_cons]
      simp only [List.append_assoc]
      rw [readU32_le _ (by have := n.1.toNat_lt; omega)]
      simp only [Res.bind_ok]
      rw [readString_write _ _ (ht' n hx).1 (ht' n hx).2]
      simp only [Res.bind_ok, UInt32.ofNat_toNat, assignText]
      rw [assignBy_append (key := fun t : UInt32 × Bytes => t.1) n pre hR]
      exact ih (pre ++ [n]) (by simp [h])
  unfold readTexts writeTexts
  rw [List.append_assoc, readU32_le _ (by omega)]
  simp only [Res.bind_ok]
  rw [if_neg (by omega), ← hlen]
  exact gen (textMap l) [] rfl

theorem find_sorted (m : List (UInt32 × Bytes)) (hs : m.Pairwise (fun a b => a.1 < b.1)) (e : UInt32 × Bytes)
    (hm : e ∈ m) : m.find? (fun t => t.1 == e.1) = some e := by
  induction m with
  | nil => cases hm
  | cons t m ih =>
    rw [List.pairwise_cons] at hs
    rw [List.find?_cons]
    rcases List.mem_cons.mp hm with rfl | hm
    · simp
    · have := hs.1 _ hm
      have hne : (t.1 == e.1) = false := by
        rw [beq_eq_false_iff_ne]
        intro he
        rw [he] at this
        exact UInt32.lt_irrefl _ this
      rw [hne]
      exact ih hs.2 hm

theorem textMap_find (l : List TextAttribute) (hd : l.Pairwise (fun a b => (textEntry a).1 ≠ (textEntry b).1))
    (a : TextAttribute) (ha : a ∈ l) :
    (textMap l).find? (fun t => t.1 == (textEntry a).1) = some (textEntry a) :=
  find_sorted _ (textMap_spec l hd).2 _ ((textMap_spec l hd).1.mem_iff.mpr (List.mem_map_of_mem ha))

end Clr.BinDB
