import Verif.Proofs.TextDB
/-!
Properties C11 (text database round-trip) and C12 (recognising text databases).
-/
namespace Clr.TextDB
open Clr.DB Clr.FileUtils Clr.Merge

/-! ### What a database must look like to survive the text format -/

/-- A text the format can hold: not empty, no NUL, tab or newline. -/
def CleanText (t : Bytes) : Prop := t ≠ [] ∧ 0 ∉ t ∧ 9 ∉ t ∧ 10 ∉ t

/-- The float survives being printed with `"%f"` and scanned. -/
def Cfg.FloatOk (cfg : Cfg) (b : UInt32) : Prop :=
  cfg.scanF (cfg.printF b) = b ∧ CleanText (cfg.printF b) ∧ (cfg.printF b).length ≤ 4000

/-- Unused template argument slots are empty and come last. -/
def ArgsOk (names : List Name) (t : TemplateType) : Prop :=
  (∀ a ∈ [t.a0, t.a1, t.a2, t.a3], Known names a.type ∧ (a.type.hash = 0 → a.ptr = false)) ∧
  (t.a0.type.hash = 0 → t.a1.type.hash = 0) ∧ (t.a1.type.hash = 0 → t.a2.type.hash = 0) ∧
  (t.a2.type.hash = 0 → t.a3.type.hash = 0)

/-- A database as the library's own operations build it (names sorted and unique, every table sorted by
name hash, no unnamed entries, every name referred to interned), and whose values fit the format. -/
structure Storable (cfg : Cfg) (db : Database) : Prop where
  names_sorted : db.names.Pairwise (fun a b => a.hash < b.hash)
  names_nonzero : ∀ n ∈ db.names, n.hash ≠ 0
  names_text : ∀ n ∈ db.names, CleanText n.text ∧ n.text.length ≤ 4000
  namespaces_sorted : SortedLe (fun x : Namespace => x.name.hash) db.namespaces
  namespaces_ok : ∀ x ∈ db.namespaces, x.name.hash ≠ 0 ∧ KnownPrim db.names x.toPrim
  types_sorted : SortedLe (fun x : Ty => x.name.hash) db.types
  types_ok : ∀ x ∈ db.types, x.name.hash ≠ 0 ∧ KnownPrim db.names x.toPrim ∧ x.size.toNat < 2 ^ 32
  templates_sorted : SortedLe (fun x : Template => x.name.hash) db.templates
  templates_ok : ∀ x ∈ db.templates, x.name.hash ≠ 0 ∧ KnownPrim db.names x.toPrim
  templateTypes_sorted : SortedLe (fun x : TemplateType => x.name.hash) db.templateTypes
  templateTypes_ok : ∀ x ∈ db.templateTypes, x.name.hash ≠ 0 ∧ KnownPrim db.names x.toPrim ∧
    x.size.toNat < 2 ^ 32 ∧ ArgsOk db.names x
  classes_sorted : SortedLe (fun x : Class => x.name.hash) db.classes
  classes_ok : ∀ x ∈ db.classes, x.name.hash ≠ 0 ∧ KnownPrim db.names x.toPrim ∧ x.size.toNat < 2 ^ 32
  enums_sorted : SortedLe (fun x : Enum => x.name.hash) db.enums
  enums_ok : ∀ x ∈ db.enums, x.name.hash ≠ 0 ∧ KnownPrim db.names x.toPrim ∧ x.size = 4
  enumConstants_sorted : SortedLe (fun x : EnumConstant => x.name.hash) db.enumConstants
  enumConstants_ok : ∀ x ∈ db.enumConstants, x.name.hash ≠ 0 ∧ KnownPrim db.names x.toPrim ∧ cfg.IntOk x.value
  functions_sorted : SortedLe (fun x : Function => x.name.hash) db.functions
  functions_ok : ∀ x ∈ db.functions, x.name.hash ≠ 0 ∧ KnownPrim db.names x.toPrim ∧ x.address = 0
  fields_sorted : SortedLe (fun x : Field => x.name.hash) db.fields
  fields_ok : ∀ x ∈ db.fields, x.name.hash ≠ 0 ∧ KnownPrim db.names x.toPrim ∧ Known db.names x.type ∧
    cfg.IntOk x.offset
  flagAttributes_sorted : SortedLe (fun x : FlagAttribute => x.name.hash) db.flagAttributes
  flagAttributes_ok : ∀ x ∈ db.flagAttributes, x.name.hash ≠ 0 ∧ KnownPrim db.names x.toPrim
  intAttributes_sorted : SortedLe (fun x : IntAttribute => x.name.hash) db.intAttributes
  intAttributes_ok : ∀ x ∈ db.intAttributes, x.name.hash ≠ 0 ∧ KnownPrim db.names x.toPrim ∧ cfg.IntOk x.value
  floatAttributes_sorted : SortedLe (fun x : FloatAttribute => x.name.hash) db.floatAttributes
  floatAttributes_ok : ∀ x ∈ db.floatAttributes, x.name.hash ≠ 0 ∧ KnownPrim db.names x.toPrim ∧ cfg.FloatOk x.bits
  primitiveAttributes_sorted : SortedLe (fun x : PrimitiveAttribute => x.name.hash) db.primitiveAttributes
  primitiveAttributes_ok : ∀ x ∈ db.primitiveAttributes, x.name.hash ≠ 0 ∧ KnownPrim db.names x.toPrim ∧
    Known db.names x.value
  textAttributes_sorted : SortedLe (fun x : TextAttribute => x.name.hash) db.textAttributes
  textAttributes_ok : ∀ x ∈ db.textAttributes, x.name.hash ≠ 0 ∧ KnownPrim db.names x.toPrim ∧
    CleanText x.value ∧ x.value.length ≤ 4000
  containerInfos_sorted : db.containerInfos.Pairwise (fun a b => a.name.hash < b.name.hash)
  containerInfos_ok : ∀ x ∈ db.containerInfos, x.name.hash ≠ 0 ∧ Known db.names x.name ∧
    Known db.names x.readIterator ∧ Known db.names x.writeIterator
  inheritances_sorted : db.inheritances.Pairwise (fun a b => a.name.hash < b.name.hash)
  inheritances_ok : ∀ x ∈ db.inheritances, x.name.hash ≠ 0 ∧ Known db.names x.name ∧
    Known db.names x.derived ∧ Known db.names x.base

theorem Storable.namesOk {cfg : Cfg} {db : Database} (h : Storable cfg db) : NamesOk db.names :=
  ⟨h.names_sorted, h.names_nonzero⟩

/-! ### Parsing one row -/

theorem cstr_id {t : Bytes} (h : 0 ∉ t) : cstr t = t := (takeWhile_all t h).1

theorem size_back {s : UInt64} (h : s.toNat < 2 ^ 32) : s.toUInt32.toUInt64 = s := by
  apply UInt64.toNat_inj.mp
  simp
  omega

theorem parseName_row (n : Name) (h0 : n.hash ≠ 0) (ht : CleanText n.text) (db : Database) :
    parseName (rowName n) db = .ok { db with names := assignBy Name.hash n db.names } := by
  unfold parseName rowName
  simp only [List.append_assoc, List.singleton_append, List.cons_append, List.nil_append, getHexInt_sep]
  rw [cstr_id ht.2.1, strtok_end _ ht.1 ht.2.2.1]
  simp only [if_neg h0]

section
variable {names : List Name} (hn : NamesOk names)
include hn

theorem parseNamespace_row (x : Namespace) (hp : KnownPrim names x.toPrim) (db : Database) (hd : db.names = names) :
    parseNamespace (rowPrim x.toPrim) db =
      (add (fun x : Namespace => x.name.hash) x db.namespaces).bind (fun l => .ok { db with namespaces := l }) := by
  subst hd
  unfold parseNamespace
  rw [getPrim_end hn hp]
  rfl

theorem parseTemplate_row (x : Template) (hp : KnownPrim names x.toPrim) (db : Database) (hd : db.names = names) :
    parseTemplate (rowPrim x.toPrim) db =
      (add (fun x : Template => x.name.hash) x db.templates).bind (fun l => .ok { db with templates := l }) := by
  subst hd
  unfold parseTemplate
  rw [getPrim_end hn hp]
  rfl

theorem parseFlagAttribute_row (x : FlagAttribute) (hp : KnownPrim names x.toPrim) (db : Database)
    (hd : db.names = names) : parseFlagAttribute (rowPrim x.toPrim) db =
      (add (fun x : FlagAttribute => x.name.hash) x db.flagAttributes).bind
        (fun l => .ok { db with flagAttributes := l }) := by
  subst hd
  unfold parseFlagAttribute
  rw [getPrim_end hn hp]
  rfl

theorem parseType_row (x : Ty) (hp : KnownPrim names x.toPrim) (hs : x.size.toNat < 2 ^ 32) (db : Database)
    (hd : db.names = names) : parseType (rowType x) db =
      (add (fun x : Ty => x.name.hash) x db.types).bind (fun l => .ok { db with types := l }) := by
  subst hd
  unfold parseType rowType
  simp only [List.append_assoc, List.singleton_append, List.cons_append, List.nil_append]
  rw [getPrim_sep hn hp]
  simp only
  rw [getHexInt_end]
  simp only [size_back hs]
  rfl

theorem parseEnumConstant_row {cfg : Cfg} (x : EnumConstant) (hp : KnownPrim names x.toPrim)
    (hs : cfg.IntOk x.value) (db : Database) (hd : db.names = names) :
    parseEnumConstant (rowEnumConstant cfg x) db =
      (add (fun x : EnumConstant => x.name.hash) x db.enumConstants).bind
        (fun l => .ok { db with enumConstants := l }) := by
  subst hd
  unfold parseEnumConstant rowEnumConstant
  simp only [List.append_assoc, List.singleton_append, List.cons_append, List.nil_append]
  rw [getPrim_sep hn hp]
  simp only
  rw [getInt_end hs]
  rfl

theorem parseIntAttribute_row {cfg : Cfg} (x : IntAttribute) (hp : KnownPrim names x.toPrim)
    (hs : cfg.IntOk x.value) (db : Database) (hd : db.names = names) :
    parseIntAttribute (rowIntAttribute cfg x) db =
      (add (fun x : IntAttribute => x.name.hash) x db.intAttributes).bind
        (fun l => .ok { db with intAttributes := l }) := by
  subst hd
  unfold parseIntAttribute rowIntAttribute
  simp only [List.append_assoc, List.singleton_append, List.cons_append, List.nil_append]
  rw [getPrim_sep hn hp]
  simp only
  rw [getInt_end hs]
  rfl

theorem parseEnum_row (x : Enum) (hp : KnownPrim names x.toPrim) (hs : x.size = 4) (db : Database)
    (hd : db.names = names) : parseEnum (rowEnum x) db =
      (add (fun x : Enum => x.name.hash) x db.enums).bind (fun l => .ok { db with enums := l }) := by
  subst hd
  unfold parseEnum rowEnum rowType
  simp only [List.append_assoc, List.singleton_append, List.cons_append, List.nil_append]
  rw [getPrim_sep hn hp]
  simp only
  rw [getHexInt_sep]
  simp only
  have hsc : parseScoped (scopedText x.scope) = .ok x.scope := by cases x.scope <;> decide +kernel
  rw [hsc]
  simp only [Res.bind_ok]
  rw [← hs]
  rfl

theorem parseFunction_row (x : Function) (hp : KnownPrim names x.toPrim) (hs : x.address = 0) (db : Database)
    (hd : db.names = names) : parseFunction (rowFunction x) db =
      (add (fun x : Function => x.name.hash) x db.functions).bind (fun l => .ok { db with functions := l }) := by
  subst hd
  unfold parseFunction rowFunction
  simp only [List.append_assoc, List.singleton_append, List.cons_append, List.nil_append]
  rw [getPrim_sep hn hp]
  simp only
  rw [getHexInt_end]
  simp only
  rw [← hs]
  rfl

theorem parseClass_row (x : Class) (hp : KnownPrim names x.toPrim) (hs : x.size.toNat < 2 ^ 32) (db : Database)
    (hd : db.names = names) : parseClass (rowClass x) db =
      (add (fun x : Class => x.name.hash) x db.classes).bind (fun l => .ok { db with classes := l }) := by
  subst hd
  unfold parseClass rowClass rowType
  simp only [List.append_assoc, List.singleton_append, List.cons_append, List.nil_append]
  rw [getPrim_sep hn hp]
  simp only
  rw [getHexInt_sep]
  simp only [size_back hs]
  have hb : ((getInt 9 (if x.isClass = true then [9, 49] else [9, 48])).1 != 0) = x.isClass := by
    cases x.isClass <;> decide +kernel
  rw [hb]
  rfl

theorem parsePrimitiveAttribute_row (x : PrimitiveAttribute) (hp : KnownPrim names x.toPrim)
    (hv : Known names x.value) (db : Database) (hd : db.names = names) :
    parsePrimitiveAttribute (rowPrimitiveAttribute x) db =
      (add (fun x : PrimitiveAttribute => x.name.hash) x db.primitiveAttributes).bind
        (fun l => .ok { db with primitiveAttributes := l }) := by
  subst hd
  unfold parsePrimitiveAttribute rowPrimitiveAttribute
  simp only [List.append_assoc, List.singleton_append, List.cons_append, List.nil_append]
  rw [getPrim_sep hn hp]
  simp only
  rw [getHexInt_end]
  simp only [hn.get hv]
  rfl

theorem parseTextAttribute_row (x : TextAttribute) (hp : KnownPrim names x.toPrim)
    (hv : CleanText x.value) (db : Database) (hd : db.names = names) :
    parseTextAttribute (rowTextAttribute x) db =
      (add (fun x : TextAttribute => x.name.hash) x db.textAttributes).bind
        (fun l => .ok { db with textAttributes := l }) := by
  subst hd
  unfold parseTextAttribute rowTextAttribute
  simp only [List.append_assoc, List.singleton_append, List.cons_append, List.nil_append]
  rw [getPrim_sep hn hp]
  simp only
  rw [cstr_id hv.2.1, strtok_end _ hv.1 hv.2.2.1]
  rfl

theorem parseFloatAttribute_row {cfg : Cfg} (x : FloatAttribute) (hp : KnownPrim names x.toPrim)
    (hv : cfg.FloatOk x.bits) (db : Database) (hd : db.names = names) :
    parseFloatAttribute cfg (rowFloatAttribute cfg x) db =
      (add (fun x : FloatAttribute => x.name.hash) x db.floatAttributes).bind
        (fun l => .ok { db with floatAttributes := l }) := by
  subst hd
  unfold parseFloatAttribute rowFloatAttribute
  simp only [List.append_assoc, List.singleton_append, List.cons_append, List.nil_append]
  rw [getPrim_sep hn hp]
  simp only
  rw [strtok_end _ hv.2.1.1 hv.2.1.2.2.1]
  simp only [hv.1]
  rfl

theorem parseContainerInfo_row (x : ContainerInfo) (h1 : Known names x.name) (h2 : Known names x.readIterator)
    (h3 : Known names x.writeIterator) (db : Database) (hd : db.names = names) :
    parseContainerInfo (rowContainerInfo x) db =
      (addUnique (fun x : ContainerInfo => x.name.hash) x db.containerInfos).bind
        (fun l => .ok { db with containerInfos := l }) := by
  subst hd
  unfold parseContainerInfo rowContainerInfo
  simp only [List.append_assoc, List.singleton_append, List.cons_append, List.nil_append, getHexInt_sep, getHexInt_end, hn.get h1, hn.get h2, hn.get h3]
  rfl

theorem parseInheritance_row (x : TypeInheritance) (h1 : Known names x.name) (h2 : Known names x.derived)
    (h3 : Known names x.base) (db : Database) (hd : db.names = names) :
    parseInheritance (rowInheritance x) db =
      (addUnique (fun x : TypeInheritance => x.name.hash) x db.inheritances).bind
        (fun l => .ok { db with inheritances := l }) := by
  subst hd
  unfold parseInheritance rowInheritance
  simp only [List.append_assoc, List.singleton_append, List.cons_append, List.nil_append, getHexInt_sep, getHexInt_end, hn.get h1, hn.get h2, hn.get h3]
  rfl

theorem parseField_row {cfg : Cfg} (x : Field) (hp : KnownPrim names x.toPrim) (ht : Known names x.type)
    (ho : cfg.IntOk x.offset) (db : Database) (hd : db.names = names) :
    parseField (rowField cfg x) db =
      (add (fun x : Field => x.name.hash) x db.fields).bind (fun l => .ok { db with fields := l }) := by
  subst hd
  have hq : ∀ (q : Qualifier) (r : Bytes), parseQualifier (qualText q ++ 9 :: r) = .ok (q, r) := by
    intro q r
    obtain ⟨op, c⟩ := q
    have h1 : ∀ (m k : UInt8), m ≠ 9 → k ≠ 9 → strtok 9 (m :: 9 :: k :: 9 :: r) = (some [m], k :: 9 :: r) :=
      fun m k hm _ => strtok_sep [m] _ (by simp) (by simpa using hm.symm)
    have h2 : ∀ (k : UInt8), k ≠ 9 → strtok 9 (k :: 9 :: r) = (some [k], r) :=
      fun k hk => strtok_sep [k] _ (by simp) (by simpa using hk.symm)
    cases op <;> cases c <;> simp [parseQualifier, qualText, h1, h2]
  unfold parseField rowField
  simp only [List.append_assoc, List.singleton_append, List.cons_append, List.nil_append]
  rw [getPrim_sep hn hp]
  simp only
  rw [getHexInt_sep]
  simp only [hq, Res.bind_ok]
  have h3 : getInt 9 (cfg.itoa x.offset.toUInt32 ++ 9 :: 9 :: itohex x.parentUniqueId) =
      (x.offset, 9 :: itohex x.parentUniqueId) := getInt_sep ho _
  rw [h3]
  simp only [getHexInt_skip, getHexInt_end, hn.get ht]
  rfl

theorem parseTArg_text (a : TArg) (hk : Known names a.type) (h0 : a.type.hash ≠ 0) (r : Bytes) :
    parseTArg names (targText a ++ r) = some (a, r) := by
  unfold parseTArg targText
  rw [if_neg h0]
  have hb : ∀ (p : Bool) (r : Bytes), getInt 9 ((if p = true then [49] else [48]) ++ 9 :: r) = (if p then 1 else 0, r) := by
    intro p r
    have h49 : getInt 9 ([49] ++ 9 :: r) = (1, r) := by
      rw [getInt, strtok_sep [49] r (by simp) (by decide)]; rfl
    have h48 : getInt 9 ([48] ++ 9 :: r) = (0, r) := by
      rw [getInt, strtok_sep [48] r (by simp) (by decide)]; rfl
    cases p
    · simpa using h48
    · simpa using h49
  have hs : itohex a.type.hash ++ (if a.ptr = true then [9, 49] else [9, 48]) ++ [9] ++ r =
      itohex a.type.hash ++ 9 :: ((if a.ptr = true then [49] else [48]) ++ 9 :: r) := by
    cases a.ptr <;> simp
  rw [hs, getHexInt_sep]
  simp only [if_neg h0, hb, hn.get hk]
  cases a with | mk t p => cases p <;> simp <;> decide

theorem parseTArgs_texts (as : List TArg) (k : Nat) (hk : ∀ a ∈ as, Known names a.type ∧ a.type.hash ≠ 0) :
    parseTArgs names (as.length + k) (as.flatMap targText) = as := by
  induction as with
  | nil =>
    have : parseTArg names [] = none := rfl
    cases k <;> simp [parseTArgs, this]
  | cons a as ih =>
    rw [List.length_cons, show as.length + 1 + k = (as.length + k) + 1 by omega, parseTArgs, List.flatMap_cons,
      parseTArg_text hn a (hk a (by simp)).1 (hk a (by simp)).2]
    simp only
    rw [ih (fun b hb => hk b (by simp [hb]))]

theorem parseTemplateType_row (x : TemplateType) (hp : KnownPrim names x.toPrim) (hs : x.size.toNat < 2 ^ 32)
    (ha : ArgsOk names x) (db : Database) (hd : db.names = names) :
    parseTemplateType (rowTemplateType x) db =
      (add (fun x : TemplateType => x.name.hash) x db.templateTypes).bind
        (fun l => .ok { db with templateTypes := l }) := by
  subst hd
  obtain ⟨h1, h2, h3, h4⟩ := ha
  have hempty : ∀ a : TArg, Known db.names a.type → (a.type.hash = 0 → a.ptr = false) → a.type.hash = 0 → a = {} := by
    intro a hk hf hz
    have ht : a.type = {} := by
      rcases hk with hk | hk
      · exact hk
      · exact absurd hz (hn.nonzero _ hk)
    cases a
    simp_all
  have e0 := hempty x.a0 (h1 x.a0 (by simp)).1 (h1 x.a0 (by simp)).2
  have e1 := hempty x.a1 (h1 x.a1 (by simp)).1 (h1 x.a1 (by simp)).2
  have e2 := hempty x.a2 (h1 x.a2 (by simp)).1 (h1 x.a2 (by simp)).2
  have e3 := hempty x.a3 (h1 x.a3 (by simp)).1 (h1 x.a3 (by simp)).2
  have z : ∀ a : TArg, a.type.hash = 0 → targText a = [] := fun a h => by simp [targText, h]
  have hargs : ∃ as : List TArg, as.length ≤ 4 ∧ (∀ a ∈ as, Known db.names a.type ∧ a.type.hash ≠ 0) ∧
      as.flatMap targText = targText x.a0 ++ targText x.a1 ++ targText x.a2 ++ targText x.a3 ∧
      as.getD 0 {} = x.a0 ∧ as.getD 1 {} = x.a1 ∧ as.getD 2 {} = x.a2 ∧ as.getD 3 {} = x.a3 := by
    by_cases z0 : x.a0.type.hash = 0
    · have z1 := h2 z0; have z2 := h3 z1; have z3 := h4 z2
      exact ⟨[], by simp, by simp, by simp [z, z0, z1, z2, z3], by simp [e0 z0], by simp [e1 z1], by simp [e2 z2], by simp [e3 z3]⟩
    · by_cases z1 : x.a1.type.hash = 0
      · have z2 := h3 z1; have z3 := h4 z2
        refine ⟨[x.a0], by simp, ?_, by simp [z, z1, z2, z3], by simp, by simp [e1 z1], by simp [e2 z2], by simp [e3 z3]⟩
        intro a ha; simp at ha; subst ha; exact ⟨(h1 _ (by simp)).1, z0⟩
      · by_cases z2 : x.a2.type.hash = 0
        · have z3 := h4 z2
          refine ⟨[x.a0, x.a1], by simp, ?_, by simp [z, z2, z3], by simp, by simp, by simp [e2 z2], by simp [e3 z3]⟩
          intro a ha; simp at ha
          rcases ha with rfl | rfl
          · exact ⟨(h1 _ (by simp)).1, z0⟩
          · exact ⟨(h1 _ (by simp)).1, z1⟩
        · by_cases z3 : x.a3.type.hash = 0
          · refine ⟨[x.a0, x.a1, x.a2], by simp, ?_, by simp [z, z3], by simp, by simp, by simp, by simp [e3 z3]⟩
            intro a ha; simp at ha
            rcases ha with rfl | rfl | rfl
            · exact ⟨(h1 _ (by simp)).1, z0⟩
            · exact ⟨(h1 _ (by simp)).1, z1⟩
            · exact ⟨(h1 _ (by simp)).1, z2⟩
          · refine ⟨[x.a0, x.a1, x.a2, x.a3], by simp, ?_, by simp, by simp, by simp, by simp, by simp⟩
            intro a ha; simp at ha
            rcases ha with rfl | rfl | rfl | rfl
            · exact ⟨(h1 _ (by simp)).1, z0⟩
            · exact ⟨(h1 _ (by simp)).1, z1⟩
            · exact ⟨(h1 _ (by simp)).1, z2⟩
            · exact ⟨(h1 _ (by simp)).1, z3⟩
  obtain ⟨as, l1, l2, l3, l4, l5, l6, l7⟩ := hargs
  unfold parseTemplateType rowTemplateType rowType
  have hrow : rowPrim x.toPrim ++ [9] ++ itohex x.size.toUInt32 ++ [9] ++ targText x.a0 ++ targText x.a1 ++
      targText x.a2 ++ targText x.a3 = rowPrim x.toPrim ++ 9 :: (itohex x.size.toUInt32 ++ 9 :: as.flatMap targText) := by
    rw [l3]; simp
  rw [hrow, getPrim_sep hn hp]
  simp only
  rw [getHexInt_sep]
  have h4 := parseTArgs_texts hn as (4 - as.length) l2
  rw [show as.length + (4 - as.length) = 4 by omega] at h4
  simp only [h4, size_back hs, l4, l5, l6, l7]
  rfl

end

/-! ### Every line written is read as it was written -/

/-- No NUL, no newline, at most `n` characters. -/
def PlainN (n : Nat) (l : Bytes) : Prop := (∀ c ∈ l, c ≠ 0 ∧ c ≠ 10) ∧ l.length ≤ n

theorem PlainN.append {n m : Nat} {a b : Bytes} (ha : PlainN n a) (hb : PlainN m b) : PlainN (n + m) (a ++ b) := by
  refine ⟨?_, ?_⟩
  · intro c hc
    rcases List.mem_append.mp hc with hc | hc
    · exact ha.1 c hc
    · exact hb.1 c hc
  · rw [List.length_append]; have := ha.2; have := hb.2; omega

theorem PlainN.mono {n m : Nat} {a : Bytes} (ha : PlainN n a) (h : n ≤ m) : PlainN m a := ⟨ha.1, by have := ha.2; omega⟩

theorem plain_hex (v : UInt32) : PlainN 8 (itohex v) := by
  obtain ⟨_, h2, h3⟩ := C10_hex_roundtrip v
  refine ⟨?_, by omega⟩
  intro c hc
  have := h3 c hc
  constructor <;> (rintro rfl; simp at this)

theorem plain_itoa (cfg : Cfg) (v : UInt32) : PlainN 11 (cfg.itoa v) := by
  obtain ⟨_, h2, h3⟩ := cfg_itoa_spec cfg v
  refine ⟨?_, h3⟩
  intro c hc
  have := h2 c hc
  constructor <;> (rintro rfl; simp at this)

theorem plain_tab : PlainN 1 [9] := ⟨by decide, by decide⟩

theorem plain_text {t : Bytes} {n : Nat} (h : CleanText t) (hl : t.length ≤ n) : PlainN n t :=
  ⟨fun c hc => ⟨fun he => h.2.1 (he ▸ hc), fun he => h.2.2.2 (he ▸ hc)⟩, hl⟩

theorem plain_prim (p : Prim) : PlainN 17 (rowPrim p) := ((plain_hex _).append plain_tab).append (plain_hex _)
theorem plain_type (p : Ty) : PlainN 26 (rowType p) := ((plain_prim _).append plain_tab).append (plain_hex _)

theorem plain_targ (a : TArg) : PlainN 11 (targText a) := by
  unfold targText
  split
  · exact ⟨by simp, by simp⟩
  · refine ((plain_hex _).append (m := 2) ?_).append plain_tab
    split <;> exact ⟨by decide, by decide⟩

/-- The rows start with a hexadecimal number. -/
theorem row_hex (v : UInt32) (r : Bytes) : startswith (itohex v ++ r) b!"----" = false := by
  apply startswith_false
  intro q hq
  obtain ⟨_, h2, h3⟩ := C10_hex_roundtrip v
  cases hv : itohex v with
  | nil => rw [hv] at h2; simp at h2
  | cons c cs =>
    have hc := h3 c (by rw [hv]; simp)
    rw [hv] at hq
    simp only [List.cons_append] at hq
    injection hq with hq _
    rw [hq] at hc
    simp at hc

theorem rows_spec {cfg : Cfg} {db : Database} (h : Storable cfg db) (t : Table) :
    ∀ r ∈ rows cfg db t, PlainN 4095 r ∧ startswith r b!"----" = false := by
  intro r hr
  have hex : ∀ v q, r = itohex v ++ q → startswith r b!"----" = false := fun v q he => he ▸ row_hex v q
  cases t <;> simp only [rows, List.mem_map] at hr <;> obtain ⟨x, hx, rfl⟩ := hr
  case names =>
    obtain ⟨ht, hl⟩ := h.names_text x hx
    refine ⟨?_, hex x.hash (9 :: cstr x.text) (by simp [rowName])⟩
    exact (((plain_hex _).append plain_tab).append (n := 9) (m := 4000)
      (by rw [cstr_id ht.2.1]; exact plain_text ht hl)).mono (by omega)
  case types =>
    exact ⟨(plain_type _).mono (by omega), hex _ _ (by simp only [rowType, rowPrim, List.append_assoc]; rfl)⟩
  case enumConstants =>
    exact ⟨(((plain_prim _).append plain_tab).append (plain_itoa _ _)).mono (by omega),
      hex _ _ (by simp only [rowEnumConstant, rowPrim, List.append_assoc]; rfl)⟩
  case enums =>
    refine ⟨(((plain_type _).append plain_tab).append (m := 1) ?_).mono (by omega),
      hex _ _ (by simp only [rowEnum, rowType, rowPrim, List.append_assoc]; rfl)⟩
    cases x.scope <;> exact ⟨by decide, by decide⟩
  case fields =>
    refine ⟨?_, hex _ _ (by simp only [rowField, rowPrim, List.append_assoc]; rfl)⟩
    refine ((((((((plain_prim _).append plain_tab).append (plain_hex _)).append plain_tab).append (m := 3) ?_).append
      plain_tab).append (plain_itoa _ _)).append (m := 2) ⟨by decide, by decide⟩).append (plain_hex _) |>.mono (by omega)
    unfold qualText
    cases x.qualifier.op <;> cases x.qualifier.isConst <;> exact ⟨by decide, by decide⟩
  case functions =>
    exact ⟨(((plain_prim _).append plain_tab).append (plain_hex _)).mono (by omega),
      hex _ _ (by simp only [rowFunction, rowPrim, List.append_assoc]; rfl)⟩
  case classes =>
    refine ⟨(((plain_type _).append plain_tab).append (m := 2) ?_).mono (by omega),
      hex _ _ (by simp only [rowClass, rowType, rowPrim, List.append_assoc]; rfl)⟩
    split <;> exact ⟨by decide, by decide⟩
  case templates =>
    exact ⟨(plain_prim _).mono (by omega), hex _ _ (by simp only [rowPrim, List.append_assoc]; rfl)⟩
  case templateTypes =>
    exact ⟨((((((plain_type _).append plain_tab).append (plain_targ _)).append (plain_targ _)).append
      (plain_targ _)).append (plain_targ _)).mono (by omega),
      hex _ _ (by simp only [rowTemplateType, rowType, rowPrim, List.append_assoc]; rfl)⟩
  case namespaces =>
    exact ⟨(plain_prim _).mono (by omega), hex _ _ (by simp only [rowPrim, List.append_assoc]; rfl)⟩
  case flagAttributes =>
    exact ⟨(plain_prim _).mono (by omega), hex _ _ (by simp only [rowPrim, List.append_assoc]; rfl)⟩
  case intAttributes =>
    exact ⟨(((plain_prim _).append plain_tab).append (plain_itoa _ _)).mono (by omega),
      hex _ _ (by simp only [rowIntAttribute, rowPrim, List.append_assoc]; rfl)⟩
  case floatAttributes =>
    obtain ⟨_, _, _, h2, h3⟩ := h.floatAttributes_ok x hx
    exact ⟨(((plain_prim _).append plain_tab).append (plain_text h2 h3)).mono (by omega),
      hex _ _ (by simp only [rowFloatAttribute, rowPrim, List.append_assoc]; rfl)⟩
  case primitiveAttributes =>
    exact ⟨(((plain_prim _).append plain_tab).append (plain_hex _)).mono (by omega),
      hex _ _ (by simp only [rowPrimitiveAttribute, rowPrim, List.append_assoc]; rfl)⟩
  case textAttributes =>
    obtain ⟨_, _, h2, h3⟩ := h.textAttributes_ok x hx
    exact ⟨(((plain_prim _).append plain_tab).append (by rw [cstr_id h2.2.1]; exact plain_text h2 h3)).mono (by omega),
      hex _ _ (by simp only [rowTextAttribute, rowPrim, List.append_assoc]; rfl)⟩
  case containers =>
    exact ⟨(((((((((plain_hex _).append plain_tab).append (plain_hex _)).append plain_tab).append (plain_hex _)).append
      plain_tab).append (plain_hex _)).append plain_tab).append (plain_hex _)).mono (by omega),
      hex _ _ (by simp only [rowContainerInfo, List.append_assoc]; rfl)⟩
  case inheritance =>
    exact ⟨(((((plain_hex _).append plain_tab).append (plain_hex _)).append plain_tab).append (plain_hex _)).mono (by omega),
      hex _ _ (by simp only [rowInheritance, List.append_assoc]; rfl)⟩

theorem ruler_plain : PlainN 4095 ruler := ⟨by decide +kernel, by decide +kernel⟩
theorem titles_plain (t : Table) : PlainN 4095 (namedRuler t.title) := by
  cases t <;> exact ⟨by decide +kernel, by decide +kernel⟩
theorem headers_plain (t : Table) : PlainN 4095 t.headers := by
  cases t <;> exact ⟨by decide +kernel, by decide +kernel⟩

theorem fileLines_plain {cfg : Cfg} {db : Database} (h : Storable cfg db) :
    ∀ l ∈ fileLines cfg db, PlainN 4095 l := by
  intro l hl
  have h0 : PlainN 4095 [] := ⟨by simp, by simp⟩
  rcases List.mem_append.mp hl with hl | hl
  · simp only [List.mem_cons, List.not_mem_nil, or_false] at hl
    rcases hl with rfl | rfl | rfl | rfl | rfl
    · exact h0
    · exact ⟨by decide, by decide⟩
    · exact (PlainN.append (n := 16) ⟨by decide, by decide⟩ (plain_itoa cfg 1)).mono (by omega)
    · exact h0
    · exact h0
  · rw [List.mem_flatMap] at hl
    obtain ⟨t, _, hl⟩ := hl
    simp only [tableLines, List.mem_append, List.mem_cons, List.not_mem_nil, or_false] at hl
    rcases hl with ((rfl | rfl | rfl) | hl) | (rfl | rfl | rfl)
    · exact titles_plain t
    · exact headers_plain t
    · exact ruler_plain
    · exact (rows_spec h t l hl).1
    · exact ruler_plain
    · exact h0
    · exact h0

theorem linesOf_write {cfg : Cfg} {db : Database} (h : Storable cfg db) :
    linesOf (writeText cfg db) = fileLines cfg db := by
  have hp := fileLines_plain h
  unfold linesOf writeText
  have hf : (fileLines cfg db).flatMap (· ++ [10]) = ((fileLines cfg db).map (· ++ [10])).flatten ++ [] := by
    rw [List.append_nil, List.flatMap_def]
  have hlen : ∀ ls : List Bytes, ls.length ≤ ((ls.map (· ++ [10])).flatten).length := by
    intro ls
    induction ls with
    | nil => simp
    | cons l ls ih => rw [List.map_cons, List.flatten_cons, List.length_append, List.length_append, List.length_cons, List.length_singleton]; omega
  rw [hf, C56_lines_exact (fileLines cfg db) [] _ (fun l hl h10 => ((hp l hl).1 10 h10).2 rfl) (by simp)
    (by have := hlen (fileLines cfg db); rw [List.append_nil]; omega), List.map_map]
  conv => rhs; rw [← List.map_id (fileLines cfg db)]
  apply List.map_congr_left
  intro l hl
  simp only [Function.comp_apply, id]
  rw [List.take_of_length_le (hp l hl).2, cstr_id (fun h0 => ((hp l hl).1 0 h0).1 rfl)]

/-! ### C11 -/

theorem foldRows_all {cfg : Cfg} {db : Database} (h : Storable cfg db) :
    foldRows (parseRow cfg .names) (rows cfg db .names) {} = .ok { names := db.names } := by
  show foldRows parseName (db.names.map rowName) _ = _
  apply foldRows_append rowName (fun l => { names := l }) (fun a b => a.hash < b.hash) db.names h.names_sorted
  intro n hn l hl _
  rw [parseName_row n (h.names_nonzero n hn) (h.names_text n hn).1]
  simp only [assignBy_append (key := Name.hash) n l hl]

/-- C11 for storable databases: writing a database as text and reading the file into an empty database
gives back the same database, all tables in the same order. What "storable" excludes is exactly what the
theorems below show to be lost. -/
theorem C11_text_roundtrip_partial (cfg : Cfg) (db : Database) (h : Storable cfg db) :
    readText cfg (some (writeText cfg db)) {} = .ok (true, db) := by
  have hlines := linesOf_write h
  have hn := h.namesOk
  have hver : isText (some (writeText cfg db)) = true := by
    show isTextLoop true 0 (linesOf (writeText cfg db)) = true
    rw [hlines]
    have h1 : cfg.itoa 1 = [49] := by
      unfold Cfg.itoa; cases cfg.msvc <;> decide +kernel
    have hs : ∀ rest, isTextLoop true 0 ([[], b!"clReflect Database", b!"Format Version: " ++ cfg.itoa 1] ++ rest) = true := by
      intro rest
      rw [h1]
      have a1 : startswith [] b!"clReflect Database" = false := by decide +kernel
      have a2 : startswith [] b!"Format Version: " = false := by decide +kernel
      have a3 : startswith b!"clReflect Database" b!"clReflect Database" = true := by decide +kernel
      have a4 : startswith b!"clReflect Database" b!"Format Version: " = false := by decide +kernel
      have a5 : startswith (b!"Format Version: " ++ [49]) b!"clReflect Database" = false := by decide +kernel
      have a6 : startswith (b!"Format Version: " ++ [49]) b!"Format Version: " = true := by decide +kernel
      have a7 : (getInt 58 (strtok 58 (b!"Format Version: " ++ [49])).2).1 = 1 := by decide +kernel
      simp only [List.cons_append, List.nil_append, isTextLoop, a1, a2, a3, a4]
      rw [show (b!"Format Version: " ++ [49] : Bytes) = [70, 111, 114, 109, 97, 116, 32, 86, 101, 114, 115, 105, 111, 110, 58, 32, 49] from rfl] at a5 a6 a7
      simp [a5, a6, a7]
    exact hs _
  unfold readText
  simp only [hver, if_true, hlines]
  have hloop : ∀ k, readLoop cfg (k + 56) (fileLines cfg db) {} = .ok db := by
    intro k
    have hr : ∀ t, ∀ r ∈ rows cfg db t, startswith r b!"----" = false := fun t r hr => (rows_spec h t r hr).2
    have s1 : ∀ t ∈ readOrder, startswith b!"clReflect Database" (b!"---- " ++ t.title ++ b!" ") = false := by
      decide +kernel
    have s2 : ∀ t ∈ readOrder, startswith (b!"Format Version: " ++ cfg.itoa 1) (b!"---- " ++ t.title ++ b!" ") = false := by
      intro t _
      apply startswith_false
      intro r hr
      simp at hr
    show readLoop cfg (k + 56) ([] :: b!"clReflect Database" :: (b!"Format Version: " ++ cfg.itoa 1) :: [] :: [] ::
      writeOrder.flatMap (tableLines cfg db)) {} = _
    rw [readLoop_skip _ (k + 55) _ _ _ blank_no_header, readLoop_skip _ (k + 54) _ _ _ s1,
      readLoop_skip _ (k + 53) _ _ _ s2, readLoop_skip _ (k + 52) _ _ _ blank_no_header,
      readLoop_skip _ (k + 51) _ _ _ blank_no_header]
    simp only [writeOrder, List.flatMap_cons, List.flatMap_nil, List.append_nil]
    rw [readLoop_table cfg (k + 48) _ db .names _ (hr _), foldRows_all h]
    simp only [Res.bind]
    rw [readLoop_table cfg (k + 45) _ db .types _ (hr _)]
    rw [show foldRows (parseRow cfg .types) (rows cfg db .types) { names := db.names } = .ok _ from
      foldRows_table rowType (fun l => ({ names := db.names, types := l } : Database)) _ db.types h.types_sorted
        (fun x hx => (h.types_ok x hx).1)
        (fun x hx l => parseType_row hn x (h.types_ok x hx).2.1 (h.types_ok x hx).2.2 _ rfl)]
    simp only [Res.bind]
    rw [readLoop_table cfg (k + 42) _ db .enumConstants _ (hr _)]
    rw [show foldRows (parseRow cfg .enumConstants) (rows cfg db .enumConstants) _ = .ok _ from
      foldRows_table (rowEnumConstant cfg)
        (fun l => ({ names := db.names, types := db.types, enumConstants := l } : Database)) _
        db.enumConstants h.enumConstants_sorted (fun x hx => (h.enumConstants_ok x hx).1)
        (fun x hx l => parseEnumConstant_row hn x (h.enumConstants_ok x hx).2.1 (h.enumConstants_ok x hx).2.2 _ rfl)]
    simp only [Res.bind]
    rw [readLoop_table cfg (k + 39) _ db .enums _ (hr _)]
    rw [show foldRows (parseRow cfg .enums) (rows cfg db .enums) _ = .ok _ from
      foldRows_table rowEnum
        (fun l => ({ names := db.names, types := db.types, enumConstants := db.enumConstants, enums := l } : Database)) _
        db.enums h.enums_sorted (fun x hx => (h.enums_ok x hx).1)
        (fun x hx l => parseEnum_row hn x (h.enums_ok x hx).2.1 (h.enums_ok x hx).2.2 _ rfl)]
    simp only [Res.bind]
    rw [readLoop_table cfg (k + 36) _ db .fields _ (hr _)]
    rw [show foldRows (parseRow cfg .fields) (rows cfg db .fields) _ = .ok _ from
      foldRows_table (rowField cfg)
        (fun l => ({ names := db.names, types := db.types, enumConstants := db.enumConstants, enums := db.enums, fields := l } : Database)) _
        db.fields h.fields_sorted (fun x hx => (h.fields_ok x hx).1)
        (fun x hx l => parseField_row hn x (h.fields_ok x hx).2.1 (h.fields_ok x hx).2.2.1 (h.fields_ok x hx).2.2.2 _ rfl)]
    simp only [Res.bind]
    rw [readLoop_table cfg (k + 33) _ db .functions _ (hr _)]
    rw [show foldRows (parseRow cfg .functions) (rows cfg db .functions) _ = .ok _ from
      foldRows_table rowFunction
        (fun l => ({ names := db.names, types := db.types, enumConstants := db.enumConstants, enums := db.enums, fields := db.fields, functions := l } : Database)) _
        db.functions h.functions_sorted (fun x hx => (h.functions_ok x hx).1)
        (fun x hx l => parseFunction_row hn x (h.functions_ok x hx).2.1 (h.functions_ok x hx).2.2 _ rfl)]
    simp only [Res.bind]
    rw [readLoop_table cfg (k + 30) _ db .classes _ (hr _)]
    rw [show foldRows (parseRow cfg .classes) (rows cfg db .classes) _ = .ok _ from
      foldRows_table rowClass
        (fun l => ({ names := db.names, types := db.types, enumConstants := db.enumConstants, enums := db.enums, fields := db.fields, functions := db.functions, classes := l } : Database)) _
        db.classes h.classes_sorted (fun x hx => (h.classes_ok x hx).1)
        (fun x hx l => parseClass_row hn x (h.classes_ok x hx).2.1 (h.classes_ok x hx).2.2 _ rfl)]
    simp only [Res.bind]
    rw [readLoop_table cfg (k + 27) _ db .templates _ (hr _)]
    rw [show foldRows (parseRow cfg .templates) (rows cfg db .templates) _ = .ok _ from
      foldRows_table (fun p : Template => rowPrim p.toPrim)
        (fun l => ({ names := db.names, types := db.types, enumConstants := db.enumConstants, enums := db.enums, fields := db.fields, functions := db.functions, classes := db.classes, templates := l } : Database)) _
        db.templates h.templates_sorted (fun x hx => (h.templates_ok x hx).1)
        (fun x hx l => parseTemplate_row hn x (h.templates_ok x hx).2 _ rfl)]
    simp only [Res.bind]
    rw [readLoop_table cfg (k + 24) _ db .templateTypes _ (hr _)]
    rw [show foldRows (parseRow cfg .templateTypes) (rows cfg db .templateTypes) _ = .ok _ from
      foldRows_table rowTemplateType
        (fun l => ({ names := db.names, types := db.types, enumConstants := db.enumConstants, enums := db.enums, fields := db.fields, functions := db.functions, classes := db.classes, templates := db.templates, templateTypes := l } : Database)) _
        db.templateTypes h.templateTypes_sorted (fun x hx => (h.templateTypes_ok x hx).1)
        (fun x hx l => parseTemplateType_row hn x (h.templateTypes_ok x hx).2.1 (h.templateTypes_ok x hx).2.2.1 (h.templateTypes_ok x hx).2.2.2 _ rfl)]
    simp only [Res.bind]
    rw [readLoop_table cfg (k + 21) _ db .namespaces _ (hr _)]
    rw [show foldRows (parseRow cfg .namespaces) (rows cfg db .namespaces) _ = .ok _ from
      foldRows_table (fun p : Namespace => rowPrim p.toPrim)
        (fun l => ({ names := db.names, types := db.types, enumConstants := db.enumConstants, enums := db.enums, fields := db.fields, functions := db.functions, classes := db.classes, templates := db.templates, templateTypes := db.templateTypes, namespaces := l } : Database)) _
        db.namespaces h.namespaces_sorted (fun x hx => (h.namespaces_ok x hx).1)
        (fun x hx l => parseNamespace_row hn x (h.namespaces_ok x hx).2 _ rfl)]
    simp only [Res.bind]
    rw [readLoop_table cfg (k + 18) _ db .flagAttributes _ (hr _)]
    rw [show foldRows (parseRow cfg .flagAttributes) (rows cfg db .flagAttributes) _ = .ok _ from
      foldRows_table (fun p : FlagAttribute => rowPrim p.toPrim)
        (fun l => ({ names := db.names, types := db.types, enumConstants := db.enumConstants, enums := db.enums, fields := db.fields, functions := db.functions, classes := db.classes, templates := db.templates, templateTypes := db.templateTypes, namespaces := db.namespaces, flagAttributes := l } : Database)) _
        db.flagAttributes h.flagAttributes_sorted (fun x hx => (h.flagAttributes_ok x hx).1)
        (fun x hx l => parseFlagAttribute_row hn x (h.flagAttributes_ok x hx).2 _ rfl)]
    simp only [Res.bind]
    rw [readLoop_table cfg (k + 15) _ db .intAttributes _ (hr _)]
    rw [show foldRows (parseRow cfg .intAttributes) (rows cfg db .intAttributes) _ = .ok _ from
      foldRows_table (rowIntAttribute cfg)
        (fun l => ({ names := db.names, types := db.types, enumConstants := db.enumConstants, enums := db.enums, fields := db.fields, functions := db.functions, classes := db.classes, templates := db.templates, templateTypes := db.templateTypes, namespaces := db.namespaces, flagAttributes := db.flagAttributes, intAttributes := l } : Database)) _
        db.intAttributes h.intAttributes_sorted (fun x hx => (h.intAttributes_ok x hx).1)
        (fun x hx l => parseIntAttribute_row hn x (h.intAttributes_ok x hx).2.1 (h.intAttributes_ok x hx).2.2 _ rfl)]
    simp only [Res.bind]
    rw [readLoop_table cfg (k + 12) _ db .floatAttributes _ (hr _)]
    rw [show foldRows (parseRow cfg .floatAttributes) (rows cfg db .floatAttributes) _ = .ok _ from
      foldRows_table (rowFloatAttribute cfg)
        (fun l => ({ names := db.names, types := db.types, enumConstants := db.enumConstants, enums := db.enums, fields := db.fields, functions := db.functions, classes := db.classes, templates := db.templates, templateTypes := db.templateTypes, namespaces := db.namespaces, flagAttributes := db.flagAttributes, intAttributes := db.intAttributes, floatAttributes := l } : Database)) _
        db.floatAttributes h.floatAttributes_sorted (fun x hx => (h.floatAttributes_ok x hx).1)
        (fun x hx l => parseFloatAttribute_row hn x (h.floatAttributes_ok x hx).2.1 (h.floatAttributes_ok x hx).2.2 _ rfl)]
    simp only [Res.bind]
    rw [readLoop_table cfg (k + 9) _ db .primitiveAttributes _ (hr _)]
    rw [show foldRows (parseRow cfg .primitiveAttributes) (rows cfg db .primitiveAttributes) _ = .ok _ from
      foldRows_table rowPrimitiveAttribute
        (fun l => ({ names := db.names, types := db.types, enumConstants := db.enumConstants, enums := db.enums, fields := db.fields, functions := db.functions, classes := db.classes, templates := db.templates, templateTypes := db.templateTypes, namespaces := db.namespaces, flagAttributes := db.flagAttributes, intAttributes := db.intAttributes, floatAttributes := db.floatAttributes, primitiveAttributes := l } : Database)) _
        db.primitiveAttributes h.primitiveAttributes_sorted (fun x hx => (h.primitiveAttributes_ok x hx).1)
        (fun x hx l => parsePrimitiveAttribute_row hn x (h.primitiveAttributes_ok x hx).2.1 (h.primitiveAttributes_ok x hx).2.2 _ rfl)]
    simp only [Res.bind]
    rw [readLoop_table cfg (k + 6) _ db .textAttributes _ (hr _)]
    rw [show foldRows (parseRow cfg .textAttributes) (rows cfg db .textAttributes) _ = .ok _ from
      foldRows_table rowTextAttribute
        (fun l => ({ names := db.names, types := db.types, enumConstants := db.enumConstants, enums := db.enums, fields := db.fields, functions := db.functions, classes := db.classes, templates := db.templates, templateTypes := db.templateTypes, namespaces := db.namespaces, flagAttributes := db.flagAttributes, intAttributes := db.intAttributes, floatAttributes := db.floatAttributes, primitiveAttributes := db.primitiveAttributes, textAttributes := l } : Database)) _
        db.textAttributes h.textAttributes_sorted (fun x hx => (h.textAttributes_ok x hx).1)
        (fun x hx l => parseTextAttribute_row hn x (h.textAttributes_ok x hx).2.1 (h.textAttributes_ok x hx).2.2.1 _ rfl)]
    simp only [Res.bind]
    rw [readLoop_table cfg (k + 3) _ db .containers _ (hr _)]
    rw [show foldRows (parseRow cfg .containers) (rows cfg db .containers) _ = .ok _ from
      foldRows_unique rowContainerInfo
        (fun l => ({ names := db.names, types := db.types, enumConstants := db.enumConstants, enums := db.enums, fields := db.fields, functions := db.functions, classes := db.classes, templates := db.templates, templateTypes := db.templateTypes, namespaces := db.namespaces, flagAttributes := db.flagAttributes, intAttributes := db.intAttributes, floatAttributes := db.floatAttributes, primitiveAttributes := db.primitiveAttributes, textAttributes := db.textAttributes, containerInfos := l } : Database)) _
        db.containerInfos h.containerInfos_sorted (fun x hx => (h.containerInfos_ok x hx).1)
        (fun x hx l => parseContainerInfo_row hn x (h.containerInfos_ok x hx).2.1 (h.containerInfos_ok x hx).2.2.1 (h.containerInfos_ok x hx).2.2.2 _ rfl)]
    simp only [Res.bind]
    have hlast : tableLines cfg db .inheritance = tableLines cfg db .inheritance ++ [] := by simp
    rw [hlast, readLoop_table cfg k _ db .inheritance _ (hr _)]
    rw [show foldRows (parseRow cfg .inheritance) (rows cfg db .inheritance) _ = .ok _ from
      foldRows_unique rowInheritance
        (fun l => ({ names := db.names, types := db.types, enumConstants := db.enumConstants, enums := db.enums, fields := db.fields, functions := db.functions, classes := db.classes, templates := db.templates, templateTypes := db.templateTypes, namespaces := db.namespaces, flagAttributes := db.flagAttributes, intAttributes := db.intAttributes, floatAttributes := db.floatAttributes, primitiveAttributes := db.primitiveAttributes, textAttributes := db.textAttributes, containerInfos := db.containerInfos, inheritances := l } : Database)) _
        db.inheritances h.inheritances_sorted (fun x hx => (h.inheritances_ok x hx).1)
        (fun x hx l => parseInheritance_row hn x (h.inheritances_ok x hx).2.1 (h.inheritances_ok x hx).2.2.1 (h.inheritances_ok x hx).2.2.2 _ rfl)]
    simp only [Res.bind, readLoop_nil]
  have hlen : ∃ k, (fileLines cfg db).length = k + 56 := by
    refine ⟨(fileLines cfg db).length - 56, ?_⟩
    have : 56 ≤ (fileLines cfg db).length := by
      simp only [fileLines, writeOrder, List.flatMap_cons, List.flatMap_nil, tableLines, List.length_append,
        List.length_cons, List.length_nil]
      omega
    omega
  obtain ⟨k, hk⟩ := hlen
  rw [hk, hloop k]
  rfl

/-- A platform to run the examples on: floats are written as their bits in hexadecimal. -/
def exampleCfg : Cfg := { msvc := false, printF := itohex, scanF := hextoi }

def nm (t : Bytes) : Name := ⟨hashOf t, t⟩

/-- One attribute "doc" on a class "A". -/
def docDatabase (text : Bytes) : Database :=
  { names := [nm b!"A", nm b!"doc"]
    textAttributes := [{ name := nm b!"doc", parent := nm b!"A", value := text }] }

/-- One `unsigned` field at the given offset. -/
def fieldDatabase (offset : Int32) : Database :=
  { names := [nm b!"A", nm b!"A::x", nm b!"unsigned int"]
    fields := [{ name := nm b!"A::x", parent := nm b!"A", type := nm b!"unsigned int", offset := offset }] }

/-- A database with an entry in every table. -/
def richDatabase : Database :=
  { names := [nm b!"f", nm b!"A", nm b!"tag", nm b!"Color::Red", nm b!"flt", nm b!"std::vector<unsigned int>",
      nm b!"it", nm b!"std::vector", nm b!"A::x", nm b!"unsigned int", nm b!"num", nm b!"wit", nm b!"Base",
      nm b!"f::a", nm b!"ref", nm b!"Color", nm b!"ns", nm b!"doc"]
    namespaces := [{ name := nm b!"ns", parent := {} }]
    types := [{ name := nm b!"unsigned int", parent := {}, size := 4 }]
    templates := [{ name := nm b!"std::vector", parent := {} }]
    templateTypes := [{ name := nm b!"std::vector<unsigned int>", parent := nm b!"std::vector", size := 24, a0 := { type := nm b!"unsigned int", ptr := false }, a1 := { type := nm b!"A", ptr := true } }]
    classes := [{ name := nm b!"A", parent := {}, size := 4, isClass := false },
      { name := nm b!"Base", parent := nm b!"ns", size := 1, isClass := true }]
    enums := [{ name := nm b!"Color", parent := {}, size := 4, scope := .cls }]
    enumConstants := [{ name := nm b!"Color::Red", parent := nm b!"Color", value := 7 }]
    functions := [{ name := nm b!"f", parent := {}, uniqueId := 0xDEADBEEF },
      { name := nm b!"f", parent := {}, uniqueId := 1 }]
    fields := [{ name := nm b!"A::x", parent := nm b!"A", type := nm b!"unsigned int", offset := 0, qualifier := { op := .value, isConst := true } },
      { name := nm b!"f::a", parent := nm b!"f", type := nm b!"A", offset := 0, qualifier := { op := .pointer, isConst := false }, parentUniqueId := 0xDEADBEEF }]
    flagAttributes := [{ name := nm b!"tag", parent := nm b!"A" }]
    intAttributes := [{ name := nm b!"num", parent := nm b!"A", value := 123456 }]
    floatAttributes := [{ name := nm b!"flt", parent := nm b!"A::x", bits := 0x3F800000 }]
    primitiveAttributes := [{ name := nm b!"ref", parent := nm b!"A", value := nm b!"Base" }]
    textAttributes := [{ name := nm b!"doc", parent := nm b!"A", value := b!"a plain text" }]
    containerInfos := [{ name := nm b!"A::x", readIterator := nm b!"it", writeIterator := nm b!"wit", flags := 1, count := 3 }]
    inheritances := [{ name := nm b!"A", derived := nm b!"A", base := nm b!"Base" }] }

/-- Non-vacuity: a storable database with an entry in every table. -/
example : Storable exampleCfg richDatabase := by
  constructor <;>
    (try unfold SortedLe) <;>
    (try simp only [KnownPrim, Known, CleanText, Cfg.IntOk, Cfg.FloatOk, ArgsOk]) <;>
    decide +kernel

/-- C11 fails for attribute texts with a tab: the text is cut there. -/
theorem C11_tab_cuts_text :
    readText exampleCfg (some (writeText exampleCfg (docDatabase b!"a\tb"))) {} =
      .ok (true, docDatabase b!"a") := by decide +kernel

/-- C11 fails for the empty attribute text: `std::string` is built from a null pointer. -/
theorem C11_empty_text_undefined :
    readText exampleCfg (some (writeText exampleCfg (docDatabase []))) {} = .ub := by decide +kernel

/-- C11 fails for attribute texts with a newline: the rest of the text is read as a row of its own. -/
theorem C11_newline_undefined :
    readText exampleCfg (some (writeText exampleCfg (docDatabase b!"a\nb"))) {} = .ub := by decide +kernel

/-- C11 fails for negative numbers unless built with Microsoft's compiler: a field whose offset was never
set (-1) comes back with another offset. -/
theorem C11_negative_offset_wrong :
    readText exampleCfg (some (writeText exampleCfg (fieldDatabase (-1)))) {} =
      .ok (true, fieldDatabase 429496729) := by decide +kernel

/-- C11 fails for types of 4 GiB and more. -/
theorem C11_large_size_wrong :
    readText exampleCfg (some (writeText exampleCfg { names := [nm b!"A"], types := [{ name := nm b!"A", size := 4294967297 }] })) {} =
      .ok (true, { names := [nm b!"A"], types := [{ name := nm b!"A", size := 1 }] }) := by decide +kernel

/-- C11 fails for floats that `"%f"` prints alike, such as 0 and 1e-7: two databases that differ are
written as the same file, so at most one of them can come back. -/
theorem C11_alike_floats_lost (cfg : Cfg) (a b : UInt32) (hab : a ≠ b) (hp : cfg.printF a = cfg.printF b)
    (p : Prim) (db : Database) (da dbb : Database)
    (ha : da = { db with floatAttributes := [{ toPrim := p, bits := a }] })
    (hb : dbb = { db with floatAttributes := [{ toPrim := p, bits := b }] }) :
    ¬ (readText cfg (some (writeText cfg da)) {} = .ok (true, da) ∧
       readText cfg (some (writeText cfg dbb)) {} = .ok (true, dbb)) := by
  subst ha hb
  have hw : writeText cfg { db with floatAttributes := [{ toPrim := p, bits := a }] } =
      writeText cfg { db with floatAttributes := [{ toPrim := p, bits := b }] } := by
    have hr : ∀ t, rows cfg { db with floatAttributes := [{ toPrim := p, bits := a }] } t =
        rows cfg { db with floatAttributes := [{ toPrim := p, bits := b }] } t := by
      intro t
      cases t <;> simp [rows, rowFloatAttribute, hp]
    unfold writeText fileLines
    simp only [writeOrder, List.flatMap_cons, List.flatMap_nil, tableLines, hr]
  rintro ⟨h1, h2⟩
  rw [hw, h2] at h1
  simp only [Res.ok.injEq, Prod.mk.injEq, true_and] at h1
  have := congrArg Database.floatAttributes h1
  simp only [List.cons.injEq, FloatAttribute.mk.injEq, true_and, and_true] at this
  exact hab this.symm

/-! ### C12 -/

/-- The first of the lines `IsTextDatabase` looks at that carries a version number. -/
def versionLine (file : Bytes) : Option Bytes :=
  ((linesOf file).take 7).find? (fun l => (b!"Format Version: ").isPrefixOf l)

/-- The number after the first colon. -/
def versionOf (l : Bytes) : Int32 := (getInt 58 (strtok 58 l).2).1

theorem startswith_prefix (l p : Bytes) : startswith l p = p.isPrefixOf l := by
  rw [Bool.eq_iff_iff, C52_startswith_iff, List.isPrefixOf_iff_prefix]
  constructor
  · rintro ⟨r, rfl⟩; exact ⟨r, rfl⟩
  · rintro ⟨r, rfl⟩; exact ⟨r, rfl⟩

theorem isTextLoop_eq (ls : List Bytes) (i : Nat) (hi : i ≤ 6) :
    isTextLoop true i ls = match (ls.take (7 - i)).find? (fun l => (b!"Format Version: ").isPrefixOf l) with
      | none => true
      | some l => versionOf l == 1 := by
  induction ls generalizing i with
  | nil => simp [isTextLoop]
  | cons l ls ih =>
    obtain ⟨m, hm⟩ : ∃ m, 7 - i = m + 1 := ⟨6 - i, by omega⟩
    rw [hm, List.take_succ_cons, List.find?_cons, isTextLoop]
    simp only [ite_self, Bool.true_and, startswith_prefix]
    cases hp : (b!"Format Version: ").isPrefixOf l with
    | true =>
      simp only [if_true, versionOf]
      by_cases hv : (getInt 58 (strtok 58 l).2).1 = 1 <;> simp [hv]
    | false =>
      simp only [Bool.false_eq_true, if_false]
      by_cases h5 : i > 5
      · have : m = 0 := by omega
        simp [h5, this]
      · rw [if_neg h5, ih (i + 1) (by omega), show 7 - (i + 1) = m by omega]

/-- C12, exactly what the check decides: a file is taken for a text database unless one of its first seven
lines starts with "Format Version: " and the first such line gives a number other than 1. -/
theorem C12_what_is_accepted (file : Bytes) :
    isText (some file) = true ↔ ∀ l, versionLine file = some l → versionOf l = 1 := by
  show isTextLoop true 0 (linesOf file) = true ↔ _
  rw [isTextLoop_eq _ 0 (by omega)]
  unfold versionLine
  cases ((linesOf file).take 7).find? (fun l => (b!"Format Version: ").isPrefixOf l) <;> simp

/-- C12: files of another format version are rejected. -/
theorem C12_other_versions_rejected_partial (file l : Bytes) (hl : versionLine file = some l) (hv : versionOf l ≠ 1) :
    isText (some file) = false := by
  rw [← Bool.not_eq_true, C12_what_is_accepted]
  exact fun h => hv (h l hl)

/-- C12: a file that cannot be opened is rejected. -/
theorem C12_missing_file_rejected : isText none = false := rfl

theorem linesOf_cons (l rest : Bytes) (h : 10 ∉ l) (hl : l.length ≤ 4095) (h0 : 0 ∉ l) :
    linesOf (l ++ 10 :: rest) = l :: ((allLines (l.length + rest.length + 1) rest).map cstr) := by
  unfold linesOf
  rw [show (l ++ 10 :: rest).length + 1 = (l.length + rest.length + 1) + 1 by simp; omega, allLines, readLine,
    readLoop_line l rest [] h (by simp)]
  simp only [List.nil_append, List.map_cons, List.take_of_length_le hl, cstr_id h0]

theorem allLines_cons (n : Nat) (l rest : Bytes) (h : 10 ∉ l) (hl : l.length ≤ 4095) (h0 : 0 ∉ l) :
    (allLines (n + 1) (l ++ 10 :: rest)).map cstr = l :: (allLines n rest).map cstr := by
  rw [allLines, readLine, readLoop_line l rest [] h (by simp)]
  simp only [List.nil_append, List.map_cons, List.take_of_length_le hl, cstr_id h0]

/-- C12: every file the library writes is recognised, whatever the database holds. -/
theorem C12_written_files_accepted (cfg : Cfg) (db : Database) : isText (some (writeText cfg db)) = true := by
  have h1 : cfg.itoa 1 = [49] := by
    unfold Cfg.itoa; cases cfg.msvc <;> decide +kernel
  obtain ⟨rest, hrest⟩ : ∃ rest, writeText cfg db =
      [] ++ 10 :: (b!"clReflect Database" ++ 10 :: (b!"Format Version: 1" ++ 10 :: rest)) := by
    refine ⟨(([] : Bytes) :: [] :: writeOrder.flatMap (tableLines cfg db)).flatMap (· ++ [10]), ?_⟩
    unfold writeText fileLines
    rw [h1]
    simp only [List.cons_append, List.nil_append, List.flatMap_cons, List.append_assoc]
  rw [C12_what_is_accepted]
  unfold versionLine
  rw [hrest]
  have hlines : ∃ ls, linesOf ([] ++ 10 :: (b!"clReflect Database" ++ 10 :: (b!"Format Version: 1" ++ 10 :: rest))) =
      [] :: b!"clReflect Database" :: b!"Format Version: 1" :: ls := by
    rw [linesOf_cons _ _ (by decide) (by decide) (by decide)]
    obtain ⟨n, hn⟩ : ∃ n, ([] : Bytes).length + (b!"clReflect Database" ++ 10 :: (b!"Format Version: 1" ++ 10 :: rest)).length + 1 = n + 1 + 1 :=
      ⟨_, by simp only [List.length_append, List.length_cons, List.length_nil]; rfl⟩
    rw [hn, allLines_cons _ _ _ (by decide) (by decide) (by decide), allLines_cons _ _ _ (by decide) (by decide) (by decide)]
    exact ⟨_, rfl⟩
  obtain ⟨ls, hls⟩ := hlines
  rw [hls]
  intro l hl
  have e1 : (b!"Format Version: ").isPrefixOf ([] : Bytes) = false := by decide
  have e2 : (b!"Format Version: ").isPrefixOf b!"clReflect Database" = false := by decide
  have e3 : (b!"Format Version: ").isPrefixOf b!"Format Version: 1" = true := by decide
  simp only [List.take_succ_cons, List.find?_cons, e1, e2, e3, Option.some.injEq] at hl
  subst hl
  decide +kernel

/-- C12 fails: a file without the header is accepted, for instance an empty file, ... -/
theorem C12_headerless_accepted : isText (some []) = true ∧ isText (some b!"int main() {}\n") = true := by decide +kernel

/-- ... in general every file whose first seven lines do not mention a version, ... -/
theorem C12_no_version_accepted (file : Bytes) (h : ∀ l ∈ (linesOf file).take 7, ¬ b!"Format Version: " <+: l) :
    isText (some file) = true := by
  rw [C12_what_is_accepted]
  intro l hl
  have hm := List.mem_of_find?_eq_some hl
  have hp := List.find?_some hl
  exact absurd (List.isPrefixOf_iff_prefix.mp hp) (h l hm)

/-- ... and loading it succeeds and yields an empty database. -/
theorem C12_headerless_loads : readText exampleCfg (some b!"int main() {}\n") {} = .ok (true, {}) := by decide +kernel

/-- Non-vacuity of `C12_other_versions_rejected_partial`. -/
example : isText (some b!"\nclReflect Database\nFormat Version: 2\n") = false := by decide +kernel

end Clr.TextDB
