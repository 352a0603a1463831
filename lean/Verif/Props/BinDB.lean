import Verif.Proofs.BinDB
import Verif.Props.TextDB
/-!
Property C13: the binary database round-trip.
-/
namespace Clr.BinDB
open Clr.DB Clr.TextDB Clr.Merge

attribute [local irreducible] hashOf

/-! ### What a database must look like to survive the binary format -/

/-- A database as the library's own operations build it (names sorted and unique, tables sorted by name hash,
no unnamed entries, every name referred to interned), whose texts are C strings of at most 1023 characters,
whose attribute texts all have different hashes, and whose tables are not gigantic (`2^25` entries). -/
structure Storable (db : Database) : Prop where
  names_sorted : db.names.Pairwise (fun a b => a.hash < b.hash)
  names_nonzero : ∀ n ∈ db.names, n.hash ≠ 0
  names_text : ∀ n ∈ db.names, 0 ∉ n.text ∧ n.text.length ≤ 1023
  names_count : db.names.length < 2 ^ 25
  types_sorted : SortedLe (fun x : Ty => x.name.hash) db.types
  types_ok : ∀ x ∈ db.types, x.name.hash ≠ 0 ∧ KnownPrim db.names x.toPrim
  types_count : db.types.length < 2 ^ 25
  enumConstants_sorted : SortedLe (fun x : EnumConstant => x.name.hash) db.enumConstants
  enumConstants_ok : ∀ x ∈ db.enumConstants, x.name.hash ≠ 0 ∧ KnownPrim db.names x.toPrim
  enumConstants_count : db.enumConstants.length < 2 ^ 25
  enums_sorted : SortedLe (fun x : Enum => x.name.hash) db.enums
  enums_ok : ∀ x ∈ db.enums, x.name.hash ≠ 0 ∧ KnownPrim db.names x.toPrim
  enums_count : db.enums.length < 2 ^ 25
  fields_sorted : SortedLe (fun x : Field => x.name.hash) db.fields
  fields_ok : ∀ x ∈ db.fields, x.name.hash ≠ 0 ∧ KnownPrim db.names x.toPrim ∧ Known db.names x.type
  fields_count : db.fields.length < 2 ^ 25
  functions_sorted : SortedLe (fun x : Function => x.name.hash) db.functions
  functions_ok : ∀ x ∈ db.functions, x.name.hash ≠ 0 ∧ KnownPrim db.names x.toPrim ∧ x.address = 0
  functions_count : db.functions.length < 2 ^ 25
  classes_sorted : SortedLe (fun x : Class => x.name.hash) db.classes
  classes_ok : ∀ x ∈ db.classes, x.name.hash ≠ 0 ∧ KnownPrim db.names x.toPrim
  classes_count : db.classes.length < 2 ^ 25
  templates_sorted : SortedLe (fun x : Template => x.name.hash) db.templates
  templates_ok : ∀ x ∈ db.templates, x.name.hash ≠ 0 ∧ KnownPrim db.names x.toPrim
  templates_count : db.templates.length < 2 ^ 25
  templateTypes_sorted : SortedLe (fun x : TemplateType => x.name.hash) db.templateTypes
  templateTypes_ok : ∀ x ∈ db.templateTypes, x.name.hash ≠ 0 ∧ KnownPrim db.names x.toPrim ∧ Known db.names x.a0.type ∧ Known db.names x.a1.type ∧ Known db.names x.a2.type ∧ Known db.names x.a3.type
  templateTypes_count : db.templateTypes.length < 2 ^ 25
  namespaces_sorted : SortedLe (fun x : Namespace => x.name.hash) db.namespaces
  namespaces_ok : ∀ x ∈ db.namespaces, x.name.hash ≠ 0 ∧ KnownPrim db.names x.toPrim
  namespaces_count : db.namespaces.length < 2 ^ 25
  flagAttributes_sorted : SortedLe (fun x : FlagAttribute => x.name.hash) db.flagAttributes
  flagAttributes_ok : ∀ x ∈ db.flagAttributes, x.name.hash ≠ 0 ∧ KnownPrim db.names x.toPrim
  flagAttributes_count : db.flagAttributes.length < 2 ^ 25
  intAttributes_sorted : SortedLe (fun x : IntAttribute => x.name.hash) db.intAttributes
  intAttributes_ok : ∀ x ∈ db.intAttributes, x.name.hash ≠ 0 ∧ KnownPrim db.names x.toPrim
  intAttributes_count : db.intAttributes.length < 2 ^ 25
  floatAttributes_sorted : SortedLe (fun x : FloatAttribute => x.name.hash) db.floatAttributes
  floatAttributes_ok : ∀ x ∈ db.floatAttributes, x.name.hash ≠ 0 ∧ KnownPrim db.names x.toPrim
  floatAttributes_count : db.floatAttributes.length < 2 ^ 25
  primitiveAttributes_sorted : SortedLe (fun x : PrimitiveAttribute => x.name.hash) db.primitiveAttributes
  primitiveAttributes_ok : ∀ x ∈ db.primitiveAttributes, x.name.hash ≠ 0 ∧ KnownPrim db.names x.toPrim ∧ Known db.names x.value
  primitiveAttributes_count : db.primitiveAttributes.length < 2 ^ 25
  textAttributes_sorted : SortedLe (fun x : TextAttribute => x.name.hash) db.textAttributes
  textAttributes_ok : ∀ x ∈ db.textAttributes, x.name.hash ≠ 0 ∧ KnownPrim db.names x.toPrim ∧ (0 ∉ x.value ∧ x.value.length ≤ 1023)
  textAttributes_count : db.textAttributes.length < 2 ^ 25
  containerInfos_sorted : db.containerInfos.Pairwise (fun a b => a.name.hash < b.name.hash)
  containerInfos_ok : ∀ x ∈ db.containerInfos, x.name.hash ≠ 0 ∧ Known db.names x.name ∧ Known db.names x.readIterator ∧ Known db.names x.writeIterator
  containerInfos_count : db.containerInfos.length < 2 ^ 25
  inheritances_sorted : db.inheritances.Pairwise (fun a b => a.name.hash < b.name.hash)
  inheritances_ok : ∀ x ∈ db.inheritances, x.name.hash ≠ 0 ∧ Known db.names x.name ∧ Known db.names x.derived ∧ Known db.names x.base
  inheritances_count : db.inheritances.length < 2 ^ 25
  texts_differ : db.textAttributes.Pairwise (fun a b => hashOf (cstr a.value) ≠ hashOf (cstr b.value))

/-- No attributes at all. -/
def NoAttributes (db : Database) : Prop :=
  db.flagAttributes = [] ∧ db.intAttributes = [] ∧ db.floatAttributes = [] ∧ db.primitiveAttributes = [] ∧
  db.textAttributes = []

theorem Storable.namesOk {db : Database} (h : Storable db) : NamesOk db.names := ⟨h.names_sorted, h.names_nonzero⟩

theorem nil_spec {α : Type} (r : RecType α) (names : List Name) (texts : List (UInt32 × Bytes)) :
    ∃ b, writeTable r [] = .ok b ∧ ∀ rest, readMulti r names texts (b ++ rest) [] = .ok ([], rest) :=
  multi_spec r names texts [] (by simp) (by simp) (by simp) (by simp) (by simp)

/-- The reader does not depend on the padding written. -/
theorem readMulti_pad (pad pad' : Field → Bytes) (names : List Name) (texts : List (UInt32 × Bytes)) (file : Bytes)
    (l : List Field) : readMulti (fieldRec pad) names texts file l = readMulti (fieldRec pad') names texts file l := by
  have he : ∀ n data l, readEntries (fieldRec pad) (add (fieldRec pad).key) names texts n data l =
      readEntries (fieldRec pad') (add (fieldRec pad').key) names texts n data l := by
    intro n
    induction n with
    | zero => intro data l; rfl
    | succ n ih =>
      intro data l
      rw [readEntries, readEntries]
      simp only [ih]
      rfl
  unfold readMulti readTable
  simp only [he]
  rfl

/-- C13. Writing a storable database and reading the file into an empty database gives back the same
database, if the `Primitive` part of an attribute starts at its address (`vptr = 0`, not so in the code), or
else if there are no attributes. -/
theorem C13_binary_roundtrip_partial (vptr : Nat) (pad : Field → Bytes) (hpad : ∀ x, (pad x).length = 3)
    (db : Database) (h : Storable db) (hv : vptr = 0 ∨ NoAttributes db) :
    ∃ file, writeBinary vptr pad db = .ok file ∧ readBinary vptr (some file) {} = .ok (true, db) := by
  have hn := h.namesOk
  obtain ⟨b0, w0, r0⟩ := multi_spec typeRec db.names (textMap db.textAttributes) db.types (fun x hx => rt_type hn _ x (h.types_ok x hx).2)
      (by have := h.types_count; have : packedSize typeRec.slots ≤ 40 := by decide
          exact Nat.lt_of_le_of_lt (Nat.mul_le_mul_left _ this) (by omega)) (by have := h.types_count; omega) h.types_sorted (fun x hx => (h.types_ok x hx).1)
  obtain ⟨b1, w1, r1⟩ := multi_spec enumConstantRec db.names (textMap db.textAttributes) db.enumConstants (fun x hx => rt_enumConstant hn _ x (h.enumConstants_ok x hx).2)
      (by have := h.enumConstants_count; have : packedSize enumConstantRec.slots ≤ 40 := by decide
          exact Nat.lt_of_le_of_lt (Nat.mul_le_mul_left _ this) (by omega)) (by have := h.enumConstants_count; omega) h.enumConstants_sorted (fun x hx => (h.enumConstants_ok x hx).1)
  obtain ⟨b2, w2, r2⟩ := multi_spec enumRec db.names (textMap db.textAttributes) db.enums (fun x hx => rt_enum hn _ x (h.enums_ok x hx).2)
      (by have := h.enums_count; have : packedSize enumRec.slots ≤ 40 := by decide
          exact Nat.lt_of_le_of_lt (Nat.mul_le_mul_left _ this) (by omega)) (by have := h.enums_count; omega) h.enums_sorted (fun x hx => (h.enums_ok x hx).1)
  obtain ⟨b3, w3, r3⟩ := multi_spec (fieldRec pad) db.names (textMap db.textAttributes) db.fields (fun x hx => rt_field hn _ pad x (h.fields_ok x hx).2.1 (h.fields_ok x hx).2.2 (hpad x))
      (by have := h.fields_count; have : packedSize (fieldRec pad).slots ≤ 40 := show packedSize (fieldRec (fun _ => [])).slots ≤ 40 by decide
          exact Nat.lt_of_le_of_lt (Nat.mul_le_mul_left _ this) (by omega)) (by have := h.fields_count; omega) h.fields_sorted (fun x hx => (h.fields_ok x hx).1)
  obtain ⟨b4, w4, r4⟩ := multi_spec functionRec db.names (textMap db.textAttributes) db.functions (fun x hx => rt_function hn _ x (h.functions_ok x hx).2.1 (h.functions_ok x hx).2.2)
      (by have := h.functions_count; have : packedSize functionRec.slots ≤ 40 := by decide
          exact Nat.lt_of_le_of_lt (Nat.mul_le_mul_left _ this) (by omega)) (by have := h.functions_count; omega) h.functions_sorted (fun x hx => (h.functions_ok x hx).1)
  obtain ⟨b5, w5, r5⟩ := multi_spec classRec db.names (textMap db.textAttributes) db.classes (fun x hx => rt_class hn _ x (h.classes_ok x hx).2)
      (by have := h.classes_count; have : packedSize classRec.slots ≤ 40 := by decide
          exact Nat.lt_of_le_of_lt (Nat.mul_le_mul_left _ this) (by omega)) (by have := h.classes_count; omega) h.classes_sorted (fun x hx => (h.classes_ok x hx).1)
  obtain ⟨b6, w6, r6⟩ := multi_spec templateRec db.names (textMap db.textAttributes) db.templates (fun x hx => rt_template hn _ x (h.templates_ok x hx).2)
      (by have := h.templates_count; have : packedSize templateRec.slots ≤ 40 := by decide
          exact Nat.lt_of_le_of_lt (Nat.mul_le_mul_left _ this) (by omega)) (by have := h.templates_count; omega) h.templates_sorted (fun x hx => (h.templates_ok x hx).1)
  obtain ⟨b7, w7, r7⟩ := multi_spec templateTypeRec db.names (textMap db.textAttributes) db.templateTypes (fun x hx => rt_templateType hn _ x (h.templateTypes_ok x hx).2.1 (h.templateTypes_ok x hx).2.2.1 (h.templateTypes_ok x hx).2.2.2.1 (h.templateTypes_ok x hx).2.2.2.2.1 (h.templateTypes_ok x hx).2.2.2.2.2)
      (by have := h.templateTypes_count; have : packedSize templateTypeRec.slots ≤ 40 := by decide
          exact Nat.lt_of_le_of_lt (Nat.mul_le_mul_left _ this) (by omega)) (by have := h.templateTypes_count; omega) h.templateTypes_sorted (fun x hx => (h.templateTypes_ok x hx).1)
  obtain ⟨b8, w8, r8⟩ := multi_spec namespaceRec db.names (textMap db.textAttributes) db.namespaces (fun x hx => rt_namespace hn _ x (h.namespaces_ok x hx).2)
      (by have := h.namespaces_count; have : packedSize namespaceRec.slots ≤ 40 := by decide
          exact Nat.lt_of_le_of_lt (Nat.mul_le_mul_left _ this) (by omega)) (by have := h.namespaces_count; omega) h.namespaces_sorted (fun x hx => (h.namespaces_ok x hx).1)
  obtain ⟨b9, w9, r9⟩ : ∃ b, writeTable (flagRec vptr) db.flagAttributes = .ok b ∧
      ∀ rest, readMulti (flagRec vptr) db.names (textMap db.textAttributes) (b ++ rest) [] = .ok (db.flagAttributes, rest) := by
    rcases hv with rfl | hv
    · exact multi_spec (flagRec 0) db.names (textMap db.textAttributes) db.flagAttributes (fun x hx => rt_flag hn _ x (h.flagAttributes_ok x hx).2)
        (by have := h.flagAttributes_count; have : packedSize (flagRec 0).slots ≤ 40 := by decide
            exact Nat.lt_of_le_of_lt (Nat.mul_le_mul_left _ this) (by omega)) (by have := h.flagAttributes_count; omega) h.flagAttributes_sorted (fun x hx => (h.flagAttributes_ok x hx).1)
    · rw [hv.1]; exact nil_spec _ _ _
  obtain ⟨b10, w10, r10⟩ : ∃ b, writeTable (intRec vptr) db.intAttributes = .ok b ∧
      ∀ rest, readMulti (intRec vptr) db.names (textMap db.textAttributes) (b ++ rest) [] = .ok (db.intAttributes, rest) := by
    rcases hv with rfl | hv
    · exact multi_spec (intRec 0) db.names (textMap db.textAttributes) db.intAttributes (fun x hx => rt_int hn _ x (h.intAttributes_ok x hx).2)
        (by have := h.intAttributes_count; have : packedSize (intRec 0).slots ≤ 40 := by decide
            exact Nat.lt_of_le_of_lt (Nat.mul_le_mul_left _ this) (by omega)) (by have := h.intAttributes_count; omega) h.intAttributes_sorted (fun x hx => (h.intAttributes_ok x hx).1)
    · rw [hv.2.1]; exact nil_spec _ _ _
  obtain ⟨b11, w11, r11⟩ : ∃ b, writeTable (floatRec vptr) db.floatAttributes = .ok b ∧
      ∀ rest, readMulti (floatRec vptr) db.names (textMap db.textAttributes) (b ++ rest) [] = .ok (db.floatAttributes, rest) := by
    rcases hv with rfl | hv
    · exact multi_spec (floatRec 0) db.names (textMap db.textAttributes) db.floatAttributes (fun x hx => rt_float hn _ x (h.floatAttributes_ok x hx).2)
        (by have := h.floatAttributes_count; have : packedSize (floatRec 0).slots ≤ 40 := by decide
            exact Nat.lt_of_le_of_lt (Nat.mul_le_mul_left _ this) (by omega)) (by have := h.floatAttributes_count; omega) h.floatAttributes_sorted (fun x hx => (h.floatAttributes_ok x hx).1)
    · rw [hv.2.2.1]; exact nil_spec _ _ _
  obtain ⟨b12, w12, r12⟩ : ∃ b, writeTable (primitiveRec vptr) db.primitiveAttributes = .ok b ∧
      ∀ rest, readMulti (primitiveRec vptr) db.names (textMap db.textAttributes) (b ++ rest) [] = .ok (db.primitiveAttributes, rest) := by
    rcases hv with rfl | hv
    · exact multi_spec (primitiveRec 0) db.names (textMap db.textAttributes) db.primitiveAttributes (fun x hx => rt_primitive hn _ x (h.primitiveAttributes_ok x hx).2.1 (h.primitiveAttributes_ok x hx).2.2)
        (by have := h.primitiveAttributes_count; have : packedSize (primitiveRec 0).slots ≤ 40 := by decide
            exact Nat.lt_of_le_of_lt (Nat.mul_le_mul_left _ this) (by omega)) (by have := h.primitiveAttributes_count; omega) h.primitiveAttributes_sorted (fun x hx => (h.primitiveAttributes_ok x hx).1)
    · rw [hv.2.2.2.1]; exact nil_spec _ _ _
  obtain ⟨b13, w13, r13⟩ : ∃ b, writeTable (textRec vptr) db.textAttributes = .ok b ∧
      ∀ rest, readMulti (textRec vptr) db.names (textMap db.textAttributes) (b ++ rest) [] = .ok (db.textAttributes, rest) := by
    rcases hv with rfl | hv
    · exact multi_spec (textRec 0) db.names (textMap db.textAttributes) db.textAttributes (fun x hx => rt_text hn _ x (h.textAttributes_ok x hx).2.1 (textMap_find _ h.texts_differ x hx))
        (by have := h.textAttributes_count; have : packedSize (textRec 0).slots ≤ 40 := by decide
            exact Nat.lt_of_le_of_lt (Nat.mul_le_mul_left _ this) (by omega)) (by have := h.textAttributes_count; omega) h.textAttributes_sorted (fun x hx => (h.textAttributes_ok x hx).1)
    · rw [hv.2.2.2.2]; exact nil_spec _ _ _
  obtain ⟨b14, w14, r14⟩ := map_spec containerRec db.names (textMap db.textAttributes) db.containerInfos (fun x hx => rt_container hn _ x (h.containerInfos_ok x hx).2.1 (h.containerInfos_ok x hx).2.2.1 (h.containerInfos_ok x hx).2.2.2)
      (by have := h.containerInfos_count; have : packedSize containerRec.slots ≤ 40 := by decide
          exact Nat.lt_of_le_of_lt (Nat.mul_le_mul_left _ this) (by omega)) (by have := h.containerInfos_count; omega) h.containerInfos_sorted (fun x hx => (h.containerInfos_ok x hx).1)
  obtain ⟨b15, w15, r15⟩ := map_spec inheritanceRec db.names (textMap db.textAttributes) db.inheritances (fun x hx => rt_inheritance hn _ x (h.inheritances_ok x hx).2.1 (h.inheritances_ok x hx).2.2.1 (h.inheritances_ok x hx).2.2.2)
      (by have := h.inheritances_count; have : packedSize inheritanceRec.slots ≤ 40 := by decide
          exact Nat.lt_of_le_of_lt (Nat.mul_le_mul_left _ this) (by omega)) (by have := h.inheritances_count; omega) h.inheritances_sorted (fun x hx => (h.inheritances_ok x hx).1)
  have r3' : ∀ rest, readMulti (fieldRec (fun _ => [0, 0, 0])) db.names (textMap db.textAttributes) (b3 ++ rest) [] = .ok (db.fields, rest) := fun rest => by rw [← r3 rest, readMulti_pad]
  have hnames := fun rest => readNames_write db.names rest h.names_sorted (by have := h.names_count; omega) h.names_text
  have htexts := fun rest => readTexts_write db.textAttributes rest h.texts_differ (by have := h.textAttributes_count; omega) (fun a ha => (h.textAttributes_ok a ha).2.2)
  have hlast := r15 []
  rw [List.append_nil] at hlast
  refine ⟨_, by unfold writeBinary; simp only [w0, w1, w2, w3, w4, w5, w6, w7, w8, w9, w10, w11, w12, w13, w14, w15, Res.bind_ok]; rfl, ?_⟩
  unfold readBinary isBinary
  simp only [readU32_le fileHeader (by decide), readU32_le fileVersion (by decide), Res.bind_ok, Res.pure_eq,
    beq_self_eq_true, Bool.and_self, if_true, hnames, htexts, r0, r1, r2, r3', r4, r5, r6, r7, r8, r9, r10, r11, r12, r13, r14, hlast]

/-! ### What is lost -/

/-- C13 fails for every database with an attribute, of whatever kind, in the code as it is: the virtual
destructor of `Attribute` puts 8 bytes before the `Primitive` part, the field table does not count them, so
the writer looks for the name where the kind is. The behaviour is undefined. -/
theorem C13_attributes_undefined (pad : Field → Bytes) (db : Database) (h : ¬ NoAttributes db) (file : Bytes) :
    writeBinary 8 pad db ≠ .ok file := by
  intro hw
  apply h
  have key : ∀ {α : Type} (r : RecType α) (l : List α) (b : Bytes), (∀ x, packObj (r.toObj x) r.slots = .ub) →
      writeTable r l = .ok b → l = [] := by
    intro α r l b hub hb
    cases l with
    | nil => rfl
    | cons x xs =>
      unfold writeTable at hb
      split at hb
      · rw [packAll, hub x] at hb; simp at hb
      · cases hb
  have hprim : ∀ (k : Kind) (p : Prim) (rest : Obj) (ss : Slots), (∀ c ∈ rest, 96 ≤ c.1) →
      packObj (primObj 8 k p ++ rest) (primSlots ++ ss) = .ub := by
    intro k p rest ss hr
    have h0 : cellAt (primObj 8 k p ++ rest) 0 = none := by
      unfold cellAt primObj
      rw [List.find?_eq_none.mpr]
      · rfl
      · intro c hc
        rcases List.mem_append.mp hc with hc | hc
        · simp at hc; rcases hc with rfl | rfl | rfl <;> simp
        · have := hr c hc; simp; omega
    simp [primSlots, packObj, packCell, h0]
  unfold writeBinary at hw
  simp only [Res.bind_eq_ok] at hw
  obtain ⟨_, _, _, _, _, _, _, _, _, _, _, _, _, _, _, _, _, _, b1, h1, b2, h2, b3, h3, b4, h4, b5, h5, _⟩ := hw
  refine ⟨key _ _ _ ?_ h1, key _ _ _ ?_ h2, key _ _ _ ?_ h3, key _ _ _ ?_ h4, key _ _ _ ?_ h5⟩
  · intro x
    have := hprim .flagAttribute x.toPrim [] [] (by simp)
    simpa [flagRec] using this
  · exact fun x => hprim _ _ _ _ (by simp)
  · exact fun x => hprim _ _ _ _ (by simp)
  · exact fun x => hprim _ _ _ _ (by simp)
  · exact fun x => hprim _ _ _ _ (by simp)

/-- Two attributes with the same text. -/
def sharedTextDatabase : Database :=
  { names := [⟨1, b!"a"⟩, ⟨2, b!"b"⟩]
    textAttributes := [{ name := ⟨1, b!"a"⟩, parent := ⟨2, b!"b"⟩, value := b!"tooltip" },
      { name := ⟨1, b!"a"⟩, parent := ⟨1, b!"a"⟩, value := b!"tooltip" }] }

/-- Were it not for that, C13 would still fail when two attributes carry the same text: two entries are
announced, one is written, and what follows is read at the wrong place. -/
theorem C13_shared_text_wrong :
    ∃ file, writeBinary 0 (fun _ => [0, 0, 0]) sharedTextDatabase = .ok file ∧
      readBinary 0 (some file) {} ≠ .ok (true, sharedTextDatabase) := by
  refine ⟨match writeBinary 0 (fun _ => [0, 0, 0]) sharedTextDatabase with | .ok f => f | _ => [], ?_, ?_⟩
  · decide +kernel
  · decide +kernel

/-- C13 fails for texts of more than 1023 characters: the reader takes 1023 and goes on in the middle of the
text. -/
theorem C13_long_text_cut (t rest : Bytes) (h : 1023 < t.length) (hl : t.length < 2 ^ 31) :
    readString (writeString t ++ rest) = .ok (cstr (t.take 1023), t.drop 1023 ++ rest) := by
  unfold readString writeString
  rw [List.append_assoc, readU32_le _ (by omega)]
  simp only [Res.bind_ok]
  rw [if_pos (Or.inr h), readN, takeN, if_neg (by rw [List.length_append]; omega)]
  simp only [Res.bind_ok, Res.pure_eq]
  rw [List.take_append_of_le_length (by omega), List.drop_append_of_le_length (by omega)]

/-! ### Recognising binary databases -/

/-- Exactly the files that start with the header and the version are accepted; files of fewer than 8 bytes
are read uninitialised. -/
theorem C13_recognised_iff (file : Bytes) (h8 : 8 ≤ file.length) :
    isBinary (some file) = .ok (decide (file.take 8 = [0x63, 0x72, 0x64, 0x62, 1, 0, 0, 0])) := by
  obtain ⟨a, b, rest, hf, ha, hb⟩ : ∃ a b rest : Bytes, file = a ++ (b ++ rest) ∧ a.length = 4 ∧ b.length = 4 :=
    ⟨file.take 4, (file.drop 4).take 4, (file.drop 4).drop 4, by rw [List.take_append_drop, List.take_append_drop], by simp; omega, by simp; omega⟩
  subst hf
  simp only [isBinary, readU32, readN, takeN_eq ha, takeN_eq hb, Res.bind_ok, Res.pure_eq]
  congr 1
  have ht : (a ++ (b ++ rest)).take 8 = a ++ b := by
    rw [← List.append_assoc, show 8 = (a ++ b).length by simp [ha, hb], List.take_left]
  rw [ht, Bool.eq_iff_iff, Bool.and_eq_true, beq_iff_eq, beq_iff_eq, decide_eq_true_iff]
  have hh : le 4 fileHeader = [0x63, 0x72, 0x64, 0x62] := by decide
  have hv : le 4 fileVersion = [1, 0, 0, 0] := by decide
  have h1 : unle a = fileHeader ↔ a = [0x63, 0x72, 0x64, 0x62] := by
    constructor
    · intro he; rw [← hh, ← he, ← ha, le_unle]
    · intro he; rw [he]; decide
  have h2 : unle b = fileVersion ↔ b = [1, 0, 0, 0] := by
    constructor
    · intro he; rw [← hv, ← he, ← hb, le_unle]
    · intro he; rw [he]; decide
  rw [h1, h2]
  constructor
  · rintro ⟨rfl, rfl⟩; rfl
  · intro he
    have h3 := congrArg (List.take 4) he
    have h4 := congrArg (List.drop 4) he
    rw [← ha, List.take_left] at h3
    rw [← ha, List.drop_left] at h4
    rw [ha] at h3 h4
    exact ⟨by simpa using h3, by simpa using h4⟩

/-! ### Non-vacuity -/

/-- A database without attributes and with entries in the other tables. -/
def plainDatabase : Database :=
  { richDatabase with flagAttributes := [], intAttributes := [], floatAttributes := [], primitiveAttributes := [], textAttributes := [] }

theorem rich_storable : Storable richDatabase := by
  constructor <;> (try unfold SortedLe) <;> (try simp only [KnownPrim, Known]) <;> decide +kernel

theorem plain_storable : Storable plainDatabase := by
  constructor <;> (try unfold SortedLe) <;> (try simp only [KnownPrim, Known]) <;> decide +kernel

example : ∃ file, writeBinary 8 (fun _ => [0, 0, 0]) plainDatabase = .ok file ∧
    readBinary 8 (some file) {} = .ok (true, plainDatabase) :=
  C13_binary_roundtrip_partial 8 _ (fun _ => rfl) _ plain_storable (.inr (by unfold NoAttributes; decide +kernel))

example : NoAttributes plainDatabase ∧ ¬ NoAttributes richDatabase := by
  constructor <;> unfold NoAttributes <;> decide +kernel

end Clr.BinDB
