import Verif.Proofs.Reloc
/-
C14 Exported pointers survive relocation to any load address.
C15 Loading a database file never writes outside the loaded image.
C16 Function addresses are rebased uniformly.

`word img o` is the 8-byte little-endian number at offset `o` of the image (`none` if it is not inside),
`slots schemas rels` the offsets of the pointers the exporter registered, `num bs o w` the little-endian
number of `w` bytes at offset `o`.
-/
namespace Clr.Reloc
open Clr

/-! ## C14 -/

/-- The image built at address `start` with its registered pointers: the pointer slots lie inside the image
and do not overlap, each holds null or an address inside the image (or just behind it) other than that of
the image itself; sizes fit the types that store them. -/
structure Exported (start : Nat) (schemas : List Schema) (rels : List Rel) (img : Bytes) : Prop where
  imageSmall : img.length < 2 ^ 32
  addresses : 0 < start ∧ start + img.length < W64
  nbSchemas : schemas.length < 2 ^ 31
  nbOffsets : (schemas.flatMap (·.offsets)).length < 2 ^ 31
  nbRels : rels.length < 2 ^ 31
  someRel : rels ≠ []
  schemasOk : ∀ s ∈ schemas, s.stride < W64 ∧ s.offsets ≠ [] ∧ ∀ o ∈ s.offsets, o < W64
  relsOk : ∀ r ∈ rels, r.handle < schemas.length ∧ r.offset < W64 ∧ r.count < 2 ^ 31
  inside : ∀ s ∈ slots schemas rels, s + 8 ≤ img.length
  apart : (slots schemas rels).Pairwise Apart
  pointing : ∀ s ∈ slots schemas rels, ∀ p, word img s = some p → p = 0 ∨ (start ≤ p ∧ p ≤ start + img.length)

/-- What loading at `base` should make of an image built at `start`. -/
structure Relocated (start base : Nat) (slots : List Nat) (img out : Bytes) : Prop where
  size : out.length = img.length
  null : ∀ s ∈ slots, word img s = some 0 → word out s = some 0
  pointer : ∀ s ∈ slots, ∀ d, word img s = some (start + d) → word out s = some (base + d)
  rest : ∀ i, (∀ s ∈ slots, i < s ∨ s + 8 ≤ i) → out[i]? = img[i]?

theorem relocate_core {pad : Nat → Bytes} (hp : ∀ i, (pad i).length = 4) {start : Nat} {schemas : List Schema}
    {rels : List Rel} {img : Bytes} (h : Exported start schemas rels img) :
    ∃ rel file, makeRelative start schemas rels img = .ok rel ∧ saveFile pad schemas rels rel = .ok file ∧
      ∀ base, base + img.length < W64 → ∃ out, loadImage base file = .ok (some out) ∧
        Mapped (fun p => if p = 0 ∨ p = start then 0 else p - start + base) (slots schemas rels) img out := by
  have hW : W64 = 18446744073709551616 := rfl
  have h32 : ∀ x ∈ slots schemas rels, x < 2 ^ 32 := fun x hx => by
    have := h.inside x hx; have := h.imageSmall; omega
  obtain ⟨hA0, hA⟩ := h.addresses
  have hlen := h.imageSmall
  obtain ⟨rel, h1, h2⟩ := loop_mapped (step := fun img x => relSlot start img.length img x)
    (g := fun p => if p = 0 then 0 else p - start) (img := img) h.inside h.apart
    (fun s hs v hv => by have := word_lt hv; split <;> omega)
    (fun s hs img' hsame hw v hv => by
      have hpt := h.pointing s hs v hv
      unfold relSlot
      rw [hw, hv]
      simp only []
      split
      · rename_i h0; rw [← h0, setWord_word (by rw [hw, hv])]
      · rw [show (v + W64 - start) % W64 = v - start by
          rw [show v + W64 - start = (v - start) + W64 by omega, Nat.add_mod_right]
          exact Nat.mod_eq_of_lt (by omega), if_pos (by rw [hsame.1]; omega)])
  have hrl : rel.length = img.length := h2.1.1
  refine ⟨rel, headerBytes schemas.length (schemas.flatMap (·.offsets)).length rels.length rel.length ++
      (rel ++ (schemaBytes 0 schemas ++ (offsetBytes schemas ++ rels.flatMap (relBytes pad)))), by rw [makeRelative_eq img (fun r hr => ⟨(h.relsOk r hr).1, (h.relsOk r hr).2.2⟩) h32]; exact h1, ?_, ?_⟩
  · unfold saveFile
    rw [if_neg]
    intro hc
    rcases hc with hc | hc
    · exact h.someRel hc
    · rw [List.any_eq_true] at hc
      obtain ⟨s, hs, he⟩ := hc
      exact (h.schemasOk s hs).2.1 (List.isEmpty_iff.1 he)
  · intro base hb
    have hsch := h.nbSchemas
    have hload := loadImage_save hp (schemas := schemas) (rels := rels) (img := rel) base h.nbSchemas h.nbOffsets h.nbRels
      (by omega) (fun s hs => ⟨(h.schemasOk s hs).1, (h.schemasOk s hs).2.2⟩)
      (fun r hr => ⟨by have := (h.relsOk r hr).1; omega, (h.relsOk r hr).2.1, by have := (h.relsOk r hr).2.2; omega⟩) []
    rw [List.append_nil] at hload
    rw [hload]
    have heq : loop (patchRel base rel.length (lschemas 0 schemas) (schemas.flatMap (·.offsets))) rels rel =
        loop (patchSlot base rel.length) (slots schemas rels) rel := by
      unfold slots
      rw [loop_flatMap]
      apply loop_congr
      intro r hr cur
      exact patchRel_eq cur h.nbOffsets (h.relsOk r hr).1 (h.relsOk r hr).2.2 (fun s hs => (h.schemasOk s hs).2.1)
        (fun x hx => by
          have := h32 x (by unfold slots; rw [List.mem_flatMap]; exact ⟨r, hr, hx⟩)
          omega)
    have hval : ∀ s ∈ slots schemas rels, ∀ v, word rel s = some v → v ≤ img.length := by
      intro s hs v hv
      have hwm := h2.2 s hs
      rw [hv] at hwm
      cases hwi : word img s with
      | none => rw [hwi] at hwm; simp at hwm
      | some p =>
        rw [hwi, Option.map_some, Option.some.injEq] at hwm
        have := h.pointing s hs p hwi
        split at hwm <;> omega
    obtain ⟨out, h3, h4⟩ := loop_mapped (step := patchSlot base rel.length)
      (g := fun p => if p = 0 then 0 else p + base) (img := rel) (slots := slots schemas rels)
      (fun s hs => by rw [hrl]; exact h.inside s hs) h.apart
      (fun s hs v hv => by have := hval s hs v hv; split <;> omega)
      (fun s hs img' hsame hw v hv => by
        have := hval s hs v hv
        unfold patchSlot
        rw [hw, hv]
        simp only []
        rw [if_neg (by omega)]
        split
        · rename_i h0; rw [← h0, setWord_word (by rw [hw, hv])]
        · rw [Nat.mod_eq_of_lt (by omega)])
    refine ⟨out, by rw [heq, h3]; rfl, h2.1.trans h4.1, ?_⟩
    intro s hs
    rw [h4.2 s hs, h2.2 s hs, Option.map_map]
    cases hwi : word img s with
    | none => rfl
    | some p =>
      have := h.pointing s hs p hwi
      simp only [Option.map_some, Function.comp, Option.some.injEq]
      by_cases hp0 : p = 0
      · simp [hp0]
      · by_cases hps : p = start
        · simp [hps]
        · rw [if_neg hp0, if_neg (by omega), if_neg (by omega)]

/-- C14: making the pointers of the exported image relative, saving it and loading the file at any address
gives the same image with every registered pointer moved along: null stays null, a pointer to offset `d`
points to offset `d`, and every byte outside the slots is unchanged. The pointers must not point to the very
first byte of the image (`C14_start_pointer_lost`). The padding bytes of the file are arbitrary. -/
theorem C14_relocation_partial (pad : Nat → Bytes) (hp : ∀ i, (pad i).length = 4) (start : Nat)
    (schemas : List Schema) (rels : List Rel) (img : Bytes) (h : Exported start schemas rels img)
    (hs : ∀ s ∈ slots schemas rels, word img s ≠ some start) :
    ∃ rel file, makeRelative start schemas rels img = .ok rel ∧ saveFile pad schemas rels rel = .ok file ∧
      ∀ base, base + img.length < W64 → ∃ out, loadImage base file = .ok (some out) ∧
        Relocated start base (slots schemas rels) img out := by
  obtain ⟨rel, file, h1, h2, h3⟩ := relocate_core hp h
  refine ⟨rel, file, h1, h2, fun base hb => ?_⟩
  obtain ⟨out, h4, h5⟩ := h3 base hb
  refine ⟨out, h4, h5.1.1, ?_, ?_, h5.1.2⟩
  · intro s hs' hw
    rw [h5.2 s hs', hw]; simp
  · intro s hs' d hw
    have hne := hs s hs'
    have hst := h.addresses.1
    rw [hw] at hne
    simp only [ne_eq, Option.some.injEq] at hne
    rw [h5.2 s hs', hw, Option.map_some, if_neg (by omega)]
    congr 1
    omega

/-- C14 fails for pointers to the start of the image: whatever the image and wherever it is loaded, they come
back as null. -/
theorem C14_start_pointer_lost (pad : Nat → Bytes) (hp : ∀ i, (pad i).length = 4) (start : Nat)
    (schemas : List Schema) (rels : List Rel) (img : Bytes) (h : Exported start schemas rels img)
    (s : Nat) (hs : s ∈ slots schemas rels) (hw : word img s = some start) :
    ∃ rel file, makeRelative start schemas rels img = .ok rel ∧ saveFile pad schemas rels rel = .ok file ∧
      ∀ base, base + img.length < W64 → ∃ out, loadImage base file = .ok (some out) ∧ word out s = some 0 := by
  obtain ⟨rel, file, h1, h2, h3⟩ := relocate_core hp h
  refine ⟨rel, file, h1, h2, fun base hb => ?_⟩
  obtain ⟨out, h4, h5⟩ := h3 base hb
  exact ⟨out, h4, by rw [h5.2 s hs, hw]; simp⟩

/-- Two objects of 16 bytes, each a number and a pointer: the first points to the second, the second is
null-terminated; a third slot behind them points to the first. -/
def exampleImage : Bytes :=
  le 8 7 ++ le 8 0x1018 ++ (le 8 0x1008 ++ (le 8 9 ++ le 8 0))

def exampleSchemas : List Schema := [⟨8, [0]⟩, mkSchema 16 none [8]]

def exampleRels : List Rel := addPointers 0x1000 0 0x1010 1 (addPointers 0x1000 1 0 5 (addPointers 0x1000 1 0x1000 1 []))

theorem example_exported : Exported 0x1000 exampleSchemas (exampleRels ++ [⟨1, 24, 1⟩]) exampleImage := by
  constructor <;> decide +kernel

example : ∀ s ∈ slots exampleSchemas (exampleRels ++ [⟨1, 24, 1⟩]), word exampleImage s ≠ some 0x1000 := by
  decide +kernel

/-- A slot that is registered twice is made relative twice: the assertion in MakeRelative stops the export,
so non-overlapping slots are needed. -/
theorem C14_registered_twice_stops :
    makeRelative 0x1000 [⟨8, [0]⟩] [⟨0, 0, 1⟩, ⟨0, 0, 1⟩] (le 8 0x1004 ++ le 8 0) = .trap := by decide +kernel

/-- C14: after any sequence of calls that add the pointers of arrays of the image at `start`, given as schema, address and number of
objects, those registered are all arrays that are not null, in order, by their distance from the start. -/
theorem C14_registered (start : Nat) (calls : List (Nat × Nat × Nat))
    (h : ∀ c ∈ calls, c.2.1 ≠ 0 → start ≤ c.2.1 ∧ c.2.1 < 2 ^ 64) :
    calls.foldl (fun rels c => addPointers start c.1 c.2.1 c.2.2 rels) [] =
      (calls.filter fun c => c.2.1 ≠ 0).map fun c => ⟨c.1, c.2.1 - start, c.2.2⟩ := by
  suffices hg : ∀ (calls : List (Nat × Nat × Nat)) (rels : List Rel),
      (∀ c ∈ calls, c.2.1 ≠ 0 → start ≤ c.2.1 ∧ c.2.1 < 2 ^ 64) →
      calls.foldl (fun rels c => addPointers start c.1 c.2.1 c.2.2 rels) rels =
        rels ++ (calls.filter fun c => c.2.1 ≠ 0).map fun c => ⟨c.1, c.2.1 - start, c.2.2⟩ by
    simpa using hg calls [] h
  intro calls
  induction calls with
  | nil => intro rels _; simp
  | cons c cs ih =>
    intro rels hc
    rw [List.foldl_cons, ih _ fun x hx => hc x (by simp [hx])]
    by_cases h0 : c.2.1 = 0
    · rw [addPointers, if_pos h0, List.filter_cons_of_neg (by simp [h0])]
    · obtain ⟨h1, h2⟩ := hc c (by simp) h0
      rw [addPointers, if_neg h0, List.filter_cons_of_pos (by simp [h0])]
      have hm : (c.2.1 + W64 - start) % W64 = c.2.1 - start := by
        show (c.2.1 + 2 ^ 64 - start) % 2 ^ 64 = _
        omega
      rw [hm]
      simp

/-- An array that was never allocated is passed over. -/
example : [(1, 0x1000, 1), (1, 0, 5), (0, 0x1010, 1)].foldl (fun rels c => addPointers 0x1000 c.1 c.2.1 c.2.2 rels) [] =
    [⟨1, 0, 1⟩, ⟨0, 0x10, 1⟩] := C14_registered 0x1000 _ (by decide)

/-! ## C15 -/

/-- The number of bytes a file with this header must have (inc/clcpp/clcpp_internal.h:61-80): header, image,
24 bytes for each schema, 8 for each offset, 24 for each relocation. -/
def fileSize (file : Bytes) : Nat :=
  32 + num file 24 8 + num file 12 4 * 24 + num file 16 4 * 8 + num file 20 4 * 24

theorem num_take {file : Bytes} {o w n : Nat} (h : o + w ≤ n) : num (file.take n) o w = num file o w := by
  unfold num
  rw [List.drop_take, List.take_take, Nat.min_eq_left (by omega)]

theorem readArray_eq {α} (w : Nat) (f : Bytes → α) (n : Nat) (file : Bytes) :
    readArray w f n file = if file.length < n * w then none else
      some (entries w f n (file.take (n * w)), file.drop (n * w)) := by
  unfold readArray takeN
  split <;> rfl

/-- C15, rejection: null is returned, without touching the image, exactly for files that are shorter than a
header, carry another signature or version, or are shorter than the header says. -/
theorem C15_rejected_iff (base : Nat) (file : Bytes) :
    loadImage base file = .ok none ↔
      ¬ (32 ≤ file.length ∧ num file 0 4 = 0x70636C63 ∧ num file 4 4 = 0x00626470 ∧ num file 8 4 = 2 ∧
        fileSize file ≤ file.length) := by
  unfold loadImage
  by_cases h1 : file.length < 32
  · have : takeN 32 file = none := by unfold takeN; rw [if_pos h1]
    rw [this]
    simp only [true_iff]
    omega
  · have ht : takeN 32 file = some (file.take 32, file.drop 32) := by unfold takeN; rw [if_neg h1]
    rw [ht]
    simp only []
    repeat rw [num_take (by omega)]
    unfold fileSize
    generalize hD : num file 24 8 = D
    generalize hS : num file 12 4 = S
    generalize hO : num file 16 4 = O
    generalize hR : num file 20 4 = R
    generalize hV : num file 8 4 = V
    generalize hs0 : num file 0 4 = s0
    generalize hs1 : num file 4 4 = s1
    by_cases hv : V = version
    · rw [if_neg (by simp [hv])]
      by_cases hsig : s0 ≠ signature0 ∨ s1 ≠ signature1
      · rw [if_pos hsig]
        simp only [true_iff]
        unfold signature0 signature1 at hsig
        omega
      · rw [if_neg hsig]
        have hsig' : s0 = 0x70636C63 ∧ s1 = 0x00626470 := by
          unfold signature0 signature1 at hsig; omega
        have hv' : V = 2 := hv
        unfold takeN
        rw [List.length_drop]
        by_cases hd : file.length - 32 < D
        · rw [if_pos hd]; simp only [true_iff]; omega
        · rw [if_neg hd]
          simp only []
          rw [readArray_eq]
          simp only [List.length_drop, List.drop_drop]
          by_cases hs : file.length - (32 + D) < S * 24
          · rw [if_pos hs]; simp only [true_iff]; omega
          · rw [if_neg hs]
            simp only []
            rw [readArray_eq]
            simp only [List.length_drop, List.drop_drop]
            by_cases ho : file.length - (32 + D + S * 24) < O * 8
            · rw [if_pos ho]; simp only [true_iff]; omega
            · rw [if_neg ho]
              simp only []
              rw [readArray_eq]
              simp only [List.length_drop, List.drop_drop]
              by_cases hr : file.length - (32 + D + S * 24 + O * 8) < R * 24
              · rw [if_pos hr]; simp only [true_iff]; omega
              · rw [if_neg hr]
                simp only []
                constructor
                · intro hc
                  exfalso
                  revert hc
                  generalize loop _ _ _ = x
                  cases x <;> simp
                · intro hc; omega
    · rw [if_pos hv]
      simp only [true_iff]
      unfold version at hv
      omega

/-- C15: every proper beginning of a saved file is rejected. -/
theorem C15_truncated_rejected (pad : Nat → Bytes) (hp : ∀ i, (pad i).length = 4) (schemas : List Schema)
    (rels : List Rel) (img file : Bytes) (hi : img.length < W64) (hsc : schemas.length < 2 ^ 31)
    (ho : (schemas.flatMap (·.offsets)).length < 2 ^ 31) (hr : rels.length < 2 ^ 31)
    (h : saveFile pad schemas rels img = .ok file) (base n : Nat) (hn : n < file.length) :
    loadImage base (file.take n) = .ok none := by
  rw [C15_rejected_iff]
  rintro ⟨h1, -, -, -, h2⟩
  rw [List.length_take] at h1 h2
  unfold saveFile at h
  split at h
  · simp at h
  · simp only [Res.ok.injEq] at h
    have h32 : 32 ≤ n := by omega
    unfold fileSize at h2
    rw [num_take (by omega), num_take (by omega), num_take (by omega), num_take (by omega)] at h2
    obtain ⟨-, -, -, n4, n5, n6, n7⟩ := header_num schemas.length (schemas.flatMap (·.offsets)).length rels.length
      img.length
    rw [Nat.mod_eq_of_lt (by omega)] at n4 n5 n6
    rw [Nat.mod_eq_of_lt hi] at n7
    have hh := length_header schemas.length (schemas.flatMap (·.offsets)).length rels.length img.length
    have hfst : file.take 32 = headerBytes schemas.length (schemas.flatMap (·.offsets)).length rels.length img.length := by
      rw [← h, List.take_left' hh]
    have hl : file.length = 32 + (img.length + (schemas.length * 24 + ((schemas.flatMap (·.offsets)).length * 8 +
        rels.length * 24))) := by
      rw [← h, List.length_append, hh, List.length_append, List.length_append, List.length_append, schemaBytes_eq,
        length_flatMap_const 24 _ _ (fun s _ => length_lschemaBytes s), length_lschemas, offsetBytes,
        length_flatMap_const 8 _ _ (fun o _ => length_le 8 o),
        length_flatMap_const 24 _ _ (fun r _ => length_relBytes hp r)]
    have e1 := num_take (file := file) (o := 24) (w := 8) (n := 32) (by omega)
    have e2 := num_take (file := file) (o := 12) (w := 4) (n := 32) (by omega)
    have e3 := num_take (file := file) (o := 16) (w := 4) (n := 32) (by omega)
    have e4 := num_take (file := file) (o := 20) (w := 4) (n := 32) (by omega)
    rw [hfst] at e1 e2 e3 e4
    omega

/-- C15, in part: when the relocation instructions of a well-formed file only name slots inside the image,
loading never leaves the image, whatever the image contains: it finishes having changed nothing but slots, or
an assertion stops it. -/
theorem C15_stays_inside_partial (pad : Nat → Bytes) (hp : ∀ i, (pad i).length = 4) (schemas : List Schema)
    (rels : List Rel) (img file : Bytes) (hi : img.length < W64) (hsc : schemas.length < 2 ^ 31)
    (ho : (schemas.flatMap (·.offsets)).length < 2 ^ 31) (hr : rels.length < 2 ^ 31)
    (hss : ∀ s ∈ schemas, s.stride < W64 ∧ ∀ o ∈ s.offsets, o < W64)
    (hrs : ∀ r ∈ rels, r.handle < schemas.length ∧ r.offset < W64 ∧ r.count < 2 ^ 31)
    (hin : ∀ s ∈ slots schemas rels, s + 8 ≤ img.length)
    (h : saveFile pad schemas rels img = .ok file) (base : Nat) :
    loadImage base file = .trap ∨
      ∃ out, loadImage base file = .ok (some out) ∧ out.length = img.length ∧
        ∀ i, (∀ s ∈ slots schemas rels, i < s ∨ s + 8 ≤ i) → out[i]? = img[i]? := by
  unfold saveFile at h
  split at h
  · simp at h
  · rename_i hne
    simp only [Res.ok.injEq] at h
    have hload := loadImage_save hp (schemas := schemas) (rels := rels) (img := img) base hsc ho hr
      hi hss
      (fun r hr' => ⟨by have := (hrs r hr').1; omega, (hrs r hr').2.1, by have := (hrs r hr').2.2; omega⟩) []
    rw [List.append_nil, h] at hload
    rw [hload]
    have hnemp : ∀ s ∈ schemas, s.offsets ≠ [] := by
      intro s hs he
      apply hne
      right
      rw [List.any_eq_true]
      exact ⟨s, hs, by simp [he]⟩
    have heq : loop (patchRel base img.length (lschemas 0 schemas) (schemas.flatMap (·.offsets))) rels img =
        loop (patchSlot base img.length) (slots schemas rels) img := by
      unfold slots
      rw [loop_flatMap]
      apply loop_congr
      intro r hr cur
      exact patchRel_eq cur ho (hrs r hr).1 (hrs r hr).2.2 hnemp
        (fun x hx => by
          have := hin x (by unfold slots; rw [List.mem_flatMap]; exact ⟨r, hr, hx⟩)
          omega)
    rw [heq]
    generalize hgen : slots schemas rels = sl at hin
    have key : ∀ (todo : List Nat) (cur : Bytes), (∀ s ∈ todo, s ∈ sl) → SameBut sl img cur →
        loop (patchSlot base img.length) todo cur = .trap ∨
          ∃ out, loop (patchSlot base img.length) todo cur = .ok out ∧ SameBut sl img out := by
      intro todo
      induction todo with
      | nil => intro cur _ hc; exact .inr ⟨cur, rfl, hc⟩
      | cons s todo ih =>
        intro cur hsub hc
        have hs := hsub s (by simp)
        have hinc : s + 8 ≤ cur.length := by rw [hc.1]; exact hin s hs
        rw [loop]
        unfold patchSlot
        have hw : word cur s = some (unle ((cur.drop s).take 8)) := by unfold word; rw [if_pos hinc]
        rw [hw]
        simp only []
        split
        · exact .inl rfl
        · split
          · exact ih cur (fun t ht => hsub t (by simp [ht])) hc
          · refine ih _ (fun t ht => hsub t (by simp [ht])) ⟨?_, ?_⟩
            · rw [length_setWord _ hinc, hc.1]
            · intro i hi
              rw [getElem?_setWord _ hinc (hi s hs), hc.2 i hi]
    rcases key sl img (fun _ h => h) (SameBut.refl _ _) with hk | ⟨out, hk, hsm⟩
    · left; rw [hk]; rfl
    · right; exact ⟨out, by rw [hk]; rfl, hsm.1, hsm.2⟩

/-- C15 fails for crafted files: for every image and every offset not inside it there is a well-formed file
with that image that makes the loader access the 8 bytes at that offset. -/
theorem C15_crafted_file_outside (img : Bytes) (hi : img.length < W64) (target : Nat) (ht : target < W64)
    (hout : img.length < target + 8) :
    ∃ file, saveFile (fun _ => [0, 0, 0, 0]) [⟨8, [0]⟩] [⟨0, target, 1⟩] img = .ok file ∧
      ∀ base, loadImage base file = .ub := by
  refine ⟨_, rfl, ?_⟩
  intro base
  have hload := loadImage_save (pad := fun _ => [0, 0, 0, 0]) (fun _ => rfl) (schemas := [⟨8, [0]⟩])
    (rels := [⟨0, target, 1⟩]) (img := img) base (by decide) (by decide) (by simp)
      hi (by decide) (by simp; exact ht) []
  rw [List.append_nil] at hload
  rw [hload]
  have heq : relSlots [⟨8, [0]⟩] ⟨0, target, 1⟩ = [target] := by simp [relSlots, List.range, List.range.loop]
  rw [loop, patchRel_eq img (by decide) (by simp) (by simp) (by decide) (by
    rw [heq]; simp; exact ht), heq]
  simp only [loop]
  have : patchSlot base img.length img target = .ub := by
    unfold patchSlot word
    rw [if_neg (by omega)]
  rw [this]
  rfl

example : ∃ file, saveFile (fun _ => [0, 0, 0, 0]) exampleSchemas exampleRels exampleImage = .ok file ∧
    (∀ s ∈ slots exampleSchemas exampleRels, s + 8 ≤ exampleImage.length) := ⟨_, rfl, by decide +kernel⟩

/-! ## C16 -/

/-- The arrays of primitives and attributes of a loaded image lie inside it, behind `DatabaseMem`, and do not
overlap. `arrayData base img o` is the offset in the image of the entries of the array whose header is at
`o`, `num img o 4` their number. -/
structure Placed (base : Nat) (img : Bytes) : Prop where
  size : memSize ≤ img.length
  inside : ∀ a ∈ primitiveArrays, num img a.1 4 = 0 ∨
    (memSize ≤ arrayData base img a.1 ∧ arrayData base img a.1 + num img a.1 4 * a.2 ≤ img.length)
  apart : primitiveArrays.Pairwise (ArraysApart base img)

/-- The offset of the address of function `i`. -/
def addressSlot (base : Nat) (img : Bytes) (i : Nat) : Nat :=
  arrayData base img functionsAt + i * functionStride + addressAt

/-- `out` is the loaded image with the functions moved by `f` and all primitives told their database. -/
structure Bound (f : Nat → Nat) (base database : Nat) (img out : Bytes) : Prop where
  size : out.length = img.length
  addresses : ∀ i < num img functionsAt 4, word out (addressSlot base img i) = (word img (addressSlot base img i)).map f
  owners : ∀ a ∈ primitiveArrays, ∀ i < num img a.1 4,
    word out (arrayData base img a.1 + i * a.2 + databaseAt) = some database
  rest : ∀ b, (∀ i < num img functionsAt 4, b < addressSlot base img i ∨ addressSlot base img i + 8 ≤ b) →
    (∀ a ∈ primitiveArrays, ∀ i < num img a.1 4, b < arrayData base img a.1 + i * a.2 + databaseAt ∨
      arrayData base img a.1 + i * a.2 + databaseAt + 8 ≤ b) → out[b]? = img[b]?

theorem functions_array : (functionsAt, functionStride) ∈ primitiveArrays := by decide

theorem load_bound {base loadAddr database : Nat} {file img : Bytes} (hdb : database < W64)
    (hl : loadImage base file = .ok (some img)) (hp : Placed base img) (dont : Bool) :
    ∃ out, load base loadAddr database dont file = .ok (some out) ∧
      Bound (if dont then id else moved (num img 0 8) loadAddr) base database img out := by
  have hmf : ∀ i < num img functionsAt 4, addressSlot base img i ∈
      memberSlots base img functionsAt functionStride addressAt := fun i hi => by
    unfold memberSlots; rw [List.mem_map]; exact ⟨i, List.mem_range.2 hi, rfl⟩
  have hmf' : ∀ s ∈ memberSlots base img functionsAt functionStride addressAt, ∃ i < num img functionsAt 4,
      s = addressSlot base img i := fun s hs => by
    unfold memberSlots at hs; rw [List.mem_map] at hs
    obtain ⟨i, hi, rfl⟩ := hs
    exact ⟨i, List.mem_range.1 hi, rfl⟩
  have hmd : ∀ a ∈ primitiveArrays, ∀ i < num img a.1 4, arrayData base img a.1 + i * a.2 + databaseAt ∈
      databaseSlots base img := fun a ha i hi => by
    unfold databaseSlots; rw [List.mem_flatMap]
    exact ⟨a, ha, by unfold memberSlots; rw [List.mem_map]; exact ⟨i, List.mem_range.2 hi, rfl⟩⟩
  have hmd' : ∀ s ∈ databaseSlots base img, ∃ a ∈ primitiveArrays, ∃ i < num img a.1 4,
      s = arrayData base img a.1 + i * a.2 + databaseAt := fun s hs => by
    unfold databaseSlots at hs; rw [List.mem_flatMap] at hs
    obtain ⟨a, ha, hs⟩ := hs
    unfold memberSlots at hs; rw [List.mem_map] at hs
    obtain ⟨i, hi, rfl⟩ := hs
    exact ⟨a, ha, i, List.mem_range.1 hi, rfl⟩
  -- an address slot is not a database slot
  have hfd : ∀ s ∈ memberSlots base img functionsAt functionStride addressAt, ∀ t ∈ databaseSlots base img, Apart s t := by
    intro s hs t ht
    have hs1 := memberSlots_range (member := addressAt) (stride := functionStride) (by decide) s hs
    unfold databaseSlots at ht
    rw [List.mem_flatMap] at ht
    obtain ⟨a, ha, ht⟩ := ht
    have ht1 := memberSlots_range (arrays_shape a ha).2 t ht
    by_cases hsame : a = (functionsAt, functionStride)
    · subst hsame
      unfold memberSlots at hs ht
      rw [List.mem_map] at hs ht
      obtain ⟨i, -, rfl⟩ := hs
      obtain ⟨j, -, rfl⟩ := ht
      simp only [Apart, functionStride, addressAt, databaseAt]
      omega
    · have hab : ArraysApart base img a (functionsAt, functionStride) ∨
          ArraysApart base img (functionsAt, functionStride) a := by
        have hgen : ∀ l : List (Nat × Nat), l.Pairwise (ArraysApart base img) → ∀ x ∈ l, ∀ y ∈ l, x ≠ y →
            ArraysApart base img x y ∨ ArraysApart base img y x := by
          intro l hl
          induction hl with
          | nil => intro x hx; simp at hx
          | cons hh _ ih =>
            intro x hx y hy hne
            rw [List.mem_cons] at hx hy
            rcases hx with hx | hx <;> rcases hy with hy | hy
            · exact absurd (hx.trans hy.symm) hne
            · subst hx; exact .inl (hh y hy)
            · subst hy; exact .inr (hh x hx)
            · exact ih x hx y hy hne
        exact hgen _ hp.apart a ha _ functions_array hsame
      unfold ArraysApart at hab
      unfold Apart
      simp only [] at hab
      omega
  have hfin := memberSlots_inside (member := addressAt) (hp.inside _ functions_array) (by decide)
  -- rebasing
  obtain ⟨mid, h1, h2⟩ : ∃ mid, (if dont then .ok img else rebaseFunctions base loadAddr img) = .ok mid ∧
      Mapped (if dont then id else moved (num img 0 8) loadAddr)
        (memberSlots base img functionsAt functionStride addressAt) img mid := by
    cases dont
    · simp only [Bool.false_eq_true, if_false]
      exact rebase_mapped hp.size (hp.inside _ functions_array)
    · simp only [if_true]
      exact ⟨img, rfl, SameBut.refl _ _, fun s _ => by simp⟩
  have hhead : SameHead img mid := h2.1.head (fun s hs => (hfin s hs).1)
  have hn : ∀ a ∈ primitiveArrays, num mid a.1 4 = num img a.1 4 ∧ arrayData base mid a.1 = arrayData base img a.1 := by
    intro a ha
    have := arrays_shape a ha
    exact ⟨hhead.num (by omega), hhead.data base (by omega)⟩
  have hds : databaseSlots base mid = databaseSlots base img := by
    unfold databaseSlots
    exact flatMap_congr' (fun a ha => memberSlots_congr (hn a ha).1 (hn a ha).2)
  obtain ⟨out, h3, h4⟩ := parent_mapped (base := base) (database := database) (img := mid)
    (by rw [hhead.1]; exact hp.size) hdb
    (fun a ha => by
      unfold PlacedArray
      rw [(hn a ha).1, (hn a ha).2, hhead.1]
      exact hp.inside a ha)
    (by
      apply List.Pairwise.imp_of_mem _ hp.apart
      intro a b ha hb hab
      unfold ArraysApart at hab ⊢
      rw [(hn a ha).1, (hn a ha).2, (hn b hb).1, (hn b hb).2]
      exact hab)
  rw [hds] at h4
  refine ⟨out, ?_, ?_⟩
  · unfold load
    rw [hl, Res.bind]
    simp only []
    rw [h1, Res.bind, h3]
    rfl
  · refine ⟨by rw [h4.1.1, h2.1.1], ?_, ?_, ?_⟩
    · intro i hi
      rw [h4.1.word (hfd _ (hmf i hi)), h2.2 _ (hmf i hi)]
    · intro a ha i hi
      rw [h4.2 _ (hmd a ha i hi)]
      have hin := memberSlots_inside (member := databaseAt) (hp.inside a ha) (arrays_shape a ha).2
        (arrayData base img a.1 + i * a.2 + databaseAt) (by
          unfold memberSlots; rw [List.mem_map]; exact ⟨i, List.mem_range.2 hi, rfl⟩)
      unfold word
      rw [if_pos (by rw [hhead.1]; exact hin.2)]
      rfl
    · intro b hb1 hb2
      rw [h4.1.2 b (fun s hs => by obtain ⟨a, ha, i, hi, rfl⟩ := hmd' s hs; exact hb2 a ha i hi),
        h2.1.2 b (fun s hs => by obtain ⟨i, hi, rfl⟩ := hmf' s hs; exact hb1 i hi)]

/-- C16: after Database::Load every exported function's address is its offset from the exporter's base added
to the load address (64-bit arithmetic), null addresses stay null, every primitive knows its database and
nothing else of the image is changed. -/
theorem C16_rebased (base loadAddr database : Nat) (file img : Bytes) (hdb : database < W64)
    (hl : loadImage base file = .ok (some img)) (hp : Placed base img) :
    ∃ out f, load base loadAddr database false file = .ok (some out) ∧ Bound f base database img out ∧
      f 0 = 0 ∧ ∀ offset, (num img 0 8 + offset) % W64 ≠ 0 → f ((num img 0 8 + offset) % W64) = (loadAddr + offset) % W64 := by
  obtain ⟨out, h1, h2⟩ := load_bound hdb hl hp (loadAddr := loadAddr) false
  refine ⟨out, _, h1, h2, rfl, ?_⟩
  intro off hne
  have hlt : num img 0 8 < W64 := by
    unfold num
    have := unle_lt ((img.drop 0).take 8)
    have hln : ((img.drop 0).take 8).length = 8 := by
      have := hp.size; unfold memSize at this
      rw [List.length_take, List.length_drop]; omega
    rw [hln] at this
    exact this
  generalize num img 0 8 = fb at *
  simp only [Bool.false_eq_true, if_false, moved]
  rw [if_neg hne, show (fb + off) % W64 + W64 - fb + loadAddr = (fb + off) % W64 + (W64 - fb + loadAddr) by omega,
    Nat.mod_add_mod, show fb + off + (W64 - fb + loadAddr) = (loadAddr + off) + W64 by omega, Nat.add_mod_right]

/-- C16: with OPT_DONT_REBASE_FUNCTIONS the addresses are left as exported. -/
theorem C16_not_rebased (base loadAddr database : Nat) (file img : Bytes) (hdb : database < W64)
    (hl : loadImage base file = .ok (some img)) (hp : Placed base img) :
    ∃ out, load base loadAddr database true file = .ok (some out) ∧ Bound id base database img out := by
  obtain ⟨out, h1, h2⟩ := load_bound hdb hl hp (loadAddr := loadAddr) true
  exact ⟨out, h1, by simpa using h2⟩

/-- C16: moving an address to the load address and back restores it, unless it lands on zero. -/
theorem C16_back (fbase loadAddr a : Nat) (hf : fbase < W64) (hl : loadAddr < W64) (ha : a < W64)
    (hz : moved fbase loadAddr a ≠ 0 ∨ a = 0) : moved loadAddr fbase (moved fbase loadAddr a) = a := by
  have hW : W64 = 18446744073709551616 := rfl
  unfold moved at hz ⊢
  by_cases h0 : a = 0
  · simp [h0]
  · rw [if_neg h0] at hz ⊢
    rw [if_neg (by omega)]
    rw [show ((a + W64 - fbase + loadAddr) % W64 + W64 - loadAddr + fbase) =
      (a + W64 - fbase + loadAddr) % W64 + (W64 - loadAddr + fbase) by omega, Nat.mod_add_mod,
      show a + W64 - fbase + loadAddr + (W64 - loadAddr + fbase) = a + W64 + W64 by omega, Nat.add_mod_right,
      Nat.add_mod_right, Nat.mod_eq_of_lt ha]

/-- C16: every function of a module that fits the address space at both places comes back. -/
theorem C16_module_back (fbase loadAddr offset : Nat) (h1 : 0 < fbase) (h2 : fbase + offset < W64) (h3 : 0 < loadAddr)
    (h4 : loadAddr + offset < W64) : moved loadAddr fbase (moved fbase loadAddr (fbase + offset)) = fbase + offset := by
  refine C16_back _ _ _ (by omega) (by omega) (by omega) (.inl ?_)
  unfold moved
  rw [if_neg (by omega), show fbase + offset + W64 - fbase + loadAddr = (loadAddr + offset) + W64 by omega,
    Nat.add_mod_right, Nat.mod_eq_of_lt h4]
  omega

/-- An address that lands on zero is lost: a function at the exporter's base loaded at address zero. -/
theorem C16_zero_lost : moved 0x400000 0 0x400000 = 0 := by decide

/-- An exported image with two functions, one of them without an address; the exporter's base is 0x400000. -/
def functionImage : Bytes :=
  let img := List.replicate (memSize + 2 * functionStride) 0
  let img := setWord (setWord (setWord img 0 0x400000) 136 2) 144 memSize
  setWord img (memSize + addressAt) 0x400123

/-- The file with that image: one relocation, for the pointer to the functions. -/
def functionFile : Bytes :=
  match saveFile (fun _ => [0, 0, 0, 0]) [⟨8, [0]⟩] [⟨0, 144, 1⟩] functionImage with
  | .ok f => f
  | _ => []

/-- The image as it is loaded at 0x10000. -/
def functionLoaded : Bytes := setWord functionImage 144 (0x10000 + memSize)

theorem function_loaded : loadImage 0x10000 functionFile = .ok (some functionLoaded) := by decide +kernel

instance (base : Nat) (img : Bytes) (a b : Nat × Nat) : Decidable (ArraysApart base img a b) := by
  unfold ArraysApart; infer_instance

theorem function_placed : Placed 0x10000 functionLoaded := by
  constructor <;> decide +kernel

/-- The function at offset 0x123 of the module ends up at offset 0x123 of the loaded module. -/
example : ∃ out, load 0x10000 0x7f0000 0xdb functionFile.isEmpty functionFile = .ok (some out) ∧
    word out (memSize + addressAt) = some 0x7f0123 ∧ word out (memSize + functionStride + addressAt) = some 0 ∧
    word out (memSize + databaseAt) = some 0xdb := by
  refine ⟨match load 0x10000 0x7f0000 0xdb false functionFile with | .ok (some o) => o | _ => [], ?_, ?_, ?_, ?_⟩ <;>
    decide +kernel

end Clr.Reloc
