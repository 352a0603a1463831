import Verif.Props.SourceSpec
import Verif.Proofs.ScanStore
/-!
From the databases of translation units to what a program sees of them.
-/
namespace Clr.ScanStore
open Clr.DB Clr.Build Clr.Layout Clr.Image Clr.Tools
open Clr.ScanUnit (Item Has Each)
open Clr.ScanTypes (Declares HasName)
open Clr.Export (K typeKinds entries)

attribute [local irreducible] hashOf

/-- Names in a database that can be stored. -/
theorem prim_known {cfg : TextDB.Cfg} {d : Database} (hst : TextDB.Storable cfg d) {k : K} {p : Prim} (hp : p ∈ entries d k) :
    p.name.hash ≠ 0 ∧ p.name ∈ d.names ∧ TextDB.Known d.names p.parent := by
  unfold entries at hp
  have key : p.name.hash ≠ 0 ∧ TextDB.KnownPrim d.names p := by
    cases k <;> simp only [List.mem_map, List.not_mem_nil] at hp <;> obtain ⟨x, hx, rfl⟩ := hp
    · exact ⟨(hst.types_ok x hx).1, (hst.types_ok x hx).2.1⟩
    · exact ⟨(hst.enumConstants_ok x hx).1, (hst.enumConstants_ok x hx).2.1⟩
    · exact ⟨(hst.enums_ok x hx).1, (hst.enums_ok x hx).2.1⟩
    · exact ⟨(hst.fields_ok x hx).1, (hst.fields_ok x hx).2.1⟩
    · exact ⟨(hst.functions_ok x hx).1, (hst.functions_ok x hx).2.1⟩
    · exact ⟨(hst.classes_ok x hx).1, (hst.classes_ok x hx).2.1⟩
    · exact ⟨(hst.templates_ok x hx).1, (hst.templates_ok x hx).2⟩
    · exact ⟨(hst.templateTypes_ok x hx).1, (hst.templateTypes_ok x hx).2.1⟩
    · exact ⟨(hst.namespaces_ok x hx).1, (hst.namespaces_ok x hx).2⟩
    · exact ⟨(hst.flagAttributes_ok x hx).1, (hst.flagAttributes_ok x hx).2⟩
    · exact ⟨(hst.intAttributes_ok x hx).1, (hst.intAttributes_ok x hx).2.1⟩
    · exact ⟨(hst.floatAttributes_ok x hx).1, (hst.floatAttributes_ok x hx).2.1⟩
    · exact ⟨(hst.primitiveAttributes_ok x hx).1, (hst.primitiveAttributes_ok x hx).2.1⟩
    · exact ⟨(hst.textAttributes_ok x hx).1, (hst.textAttributes_ok x hx).2.1⟩
  exact ⟨key.1, known_mem key.2.1 key.1, key.2.2⟩

theorem nameOf_hash {n : Bytes} (h : (nameOf n).hash ≠ 0) : hashOf n ≠ 0 ∧ nameOf n = ⟨hashOf n, n⟩ := by
  unfold nameOf at h ⊢
  by_cases h0 : hashOf n = 0
  · rw [if_pos h0] at h; exact absurd rfl h
  · rw [if_neg h0]; exact ⟨h0, rfl⟩

theorem nameOf_inj {m n : Bytes} (h : nameOf m = nameOf n) (h0 : (nameOf m).hash ≠ 0) : m = n := by
  have h1 := (nameOf_hash h0).2
  have h2 := (nameOf_hash (h ▸ h0)).2
  rw [h1, h2] at h
  exact (Name.mk.inj h).2

section
variable {cfg : TextDB.Cfg} {us : List TUnit} {dbs : List Database} (hh : Each Holds us dbs)
  (hst : ∀ d ∈ dbs, TextDB.Storable cfg d) (hcol : NoCollisions dbs)

include hcol in
theorem same_name {d d' : Database} (hd : d ∈ dbs) (hd' : d' ∈ dbs) {m n : Name} (hm : m ∈ d.names) (hn : n ∈ d'.names)
    (h : m.hash = n.hash) : m = n := by
  have h1 := hcol.1 d hd m hm
  have h2 := hcol.1 d' hd' n hn
  have := hcol.2 d hd d' hd' m hm n hn (by rw [← h1, ← h2, h])
  cases m; cases n
  simp_all

include hcol in
theorem same_text {d d' : Database} (hd : d ∈ dbs) (hd' : d' ∈ dbs) {m n : Bytes} (hm : nameOf m ∈ d.names) (hn : nameOf n ∈ d'.names)
    (h0 : (nameOf m).hash ≠ 0) (h : (nameOf m).hash = (nameOf n).hash) : m = n :=
  nameOf_inj (same_name hcol hd hd' hm hn h) h0

/-! ### Types -/

theorem type_entry {u : TUnit} {d : Database} (h : Holds u d) {k : K} (hk : k ∈ typeKinds) {p : Prim} (hp : p ∈ entries d k) :
    ∃ n, u.Means k n ∧ p.name = nameOf n := by
  simp only [typeKinds, List.mem_cons, List.not_mem_nil, or_false] at hk
  unfold entries at hp
  rcases hk with rfl | rfl | rfl | rfl <;> obtain ⟨x, hx, rfl⟩ := List.mem_map.1 hp
  · obtain ⟨b, hb, e, -⟩ := (h.types x.name _).1 ⟨x, hx, rfl, rfl⟩
    exact ⟨b.1, ⟨b, hb, rfl⟩, e⟩
  · obtain ⟨n, hn, e⟩ := (h.classes x.name).1 ⟨x, hx, rfl⟩
    exact ⟨n, hn, e⟩
  · obtain ⟨n, hn, e⟩ := (h.enums x.name).1 ⟨x, hx, rfl⟩
    exact ⟨n, hn, e⟩
  · obtain ⟨id, n, hn, e⟩ := h.onlyInstances x hx
    exact ⟨n, ⟨id, hn⟩, e⟩

theorem entry_type {u : TUnit} {d : Database} (h : Holds u d) {k : K} {n : Bytes} (hu : u.Type k n) :
    k ∈ typeKinds ∧ ∃ p ∈ entries d k, p.name = nameOf n := by
  obtain ⟨h1, h2⟩ := hu
  cases k with
  | type =>
    obtain ⟨b, hb, rfl⟩ := h1
    obtain ⟨x, hx, e, -⟩ := (h.types _ _).2 ⟨b, hb, rfl, rfl⟩
    exact ⟨by simp [typeKinds], x.toPrim, List.mem_map.2 ⟨x, hx, rfl⟩, e⟩
  | cls =>
    obtain ⟨x, hx, e⟩ := (h.classes _).2 ⟨n, h1, rfl⟩
    exact ⟨by simp [typeKinds], x.toPrim, List.mem_map.2 ⟨x, hx, rfl⟩, e⟩
  | enum =>
    obtain ⟨x, hx, e⟩ := (h.enums _).2 ⟨n, h1, rfl⟩
    exact ⟨by simp [typeKinds], x.toPrim, List.mem_map.2 ⟨x, hx, rfl⟩, e⟩
  | «instance» =>
    obtain ⟨x, hx, e⟩ := h.instances n (h2 rfl)
    exact ⟨by simp [typeKinds], x.toPrim, List.mem_map.2 ⟨x, hx, rfl⟩, e⟩
  | _ => exact h1.elim

include hh in
theorem unit_db {u : TUnit} (hu : u ∈ us) : ∃ d ∈ dbs, Holds u d := (each_mem hh).1 u hu

include hh in
theorem db_unit {d : Database} (hd : d ∈ dbs) : ∃ u ∈ us, Holds u d := (each_mem hh).2 d hd

include hh hst in
/-- The name of a type. -/
theorem type_named {u : TUnit} (hu : u ∈ us) {k : K} {n : Bytes} (ht : u.Type k n) :
    hashOf n ≠ 0 ∧ nameOf n = ⟨hashOf n, n⟩ ∧ DeclaresType dbs (hashOf n) ∧ ∃ d ∈ dbs, nameOf n ∈ d.names := by
  obtain ⟨d, hd, h⟩ := unit_db hh hu
  obtain ⟨hk, p, hp, e⟩ := entry_type h ht
  have hp' := prim_known (hst d hd) hp
  have h0 : (nameOf n).hash ≠ 0 := by rw [← e]; exact hp'.1
  obtain ⟨h1, h2⟩ := nameOf_hash h0
  refine ⟨h1, h2, ⟨d, hd, k, hk, p, hp, ?_⟩, d, hd, by rw [← e]; exact hp'.2.1⟩
  rw [e, h2]

variable {base database : Nat} {mem : Bytes} (hm : OneMeaning us) (ha : Answers dbs base database mem)

include hh hst hcol hm ha in
theorem sees_type {u : TUnit} (hu : u ∈ us) {k : K} {n : Bytes} (ht : u.Type k n) :
    ∃ a, getType base mem (hashOf n) = .ok a ∧ a ≠ 0 ∧ PrimitiveAt base mem database a k ⟨hashOf n, n⟩ := by
  obtain ⟨h0, e0, hdt, d, hd, hmem⟩ := type_named hh hst hu ht
  obtain ⟨a, h1, h2, h3⟩ := ha.types (hashOf n)
  have hne := h2.2 hdt
  obtain ⟨d', hd', l, hl, p, hp, hph, hpa⟩ := h3 hne
  obtain ⟨v, hv, hvd⟩ := db_unit hh hd'
  obtain ⟨m, hmm, em⟩ := type_entry hvd hl hp
  have hp' := prim_known (hst d' hd') hp
  have : m = n := by
    refine same_text hcol hd' hd (by rw [← em]; exact hp'.2.1) hmem (by rw [← em]; exact hp'.1) ?_
    rw [← em, hph, e0]
  subst this
  have hkl := hm.kinds u hu v hv k l m ht.1 hmm
  subst hkl
  exact ⟨a, h1, hne, by rw [← e0, ← em]; exact hpa⟩

include hh hst hcol hm ha in
/-- An address under which there is a class. -/
theorem class_at {u : TUnit} (hu : u ∈ us) {n : Bytes} (hc : u.Class n) {a : Nat} (h : getType base mem (hashOf n) = .ok a) :
    a ≠ 0 ∧ read base mem (a + offsetOf primitive b!"kind") 4 = .ok (kindOf .cls) ∧ nameOf n = ⟨hashOf n, n⟩ ∧ ∃ d ∈ dbs, nameOf n ∈ d.names := by
  have ht : u.Type .cls n := ⟨hc, fun h => by cases h⟩
  obtain ⟨a', h1, h2, h3⟩ := sees_type hh hst hcol hm ha hu ht
  rw [h] at h1
  injection h1 with h1
  subst h1
  obtain ⟨_, e, _, hd⟩ := type_named hh hst hu ht
  exact ⟨h2, h3.kind, e, hd⟩

include hh hst hcol hm ha in
/-- An address under which there is an enum. -/
theorem enum_at {u : TUnit} (hu : u ∈ us) {n : Bytes} (hc : u.Enum n) {a : Nat} (h : getType base mem (hashOf n) = .ok a) :
    a ≠ 0 ∧ read base mem (a + offsetOf primitive b!"kind") 4 = .ok (kindOf .enum) ∧ nameOf n = ⟨hashOf n, n⟩ ∧ ∃ d ∈ dbs, nameOf n ∈ d.names := by
  have ht : u.Type .enum n := ⟨hc, fun h => by cases h⟩
  obtain ⟨a', h1, h2, h3⟩ := sees_type hh hst hcol hm ha hu ht
  rw [h] at h1
  injection h1 with h1
  subst h1
  obtain ⟨_, e, _, hd⟩ := type_named hh hst hu ht
  exact ⟨h2, h3.kind, e, hd⟩

include hcol in
/-- A name in a database under the hash of a known one. -/
theorem text_eq {d d' : Database} (hd : d ∈ dbs) (hd' : d' ∈ dbs) {n : Bytes} (hn : nameOf n ∈ d.names) (e : nameOf n = ⟨hashOf n, n⟩)
    {x : Name} (hx : TextDB.Known d'.names x) (h : x.hash = hashOf n) (h0 : x.hash ≠ 0) {m : Bytes} (hxm : x = nameOf m) : m = n := by
  subst hxm
  refine same_text hcol hd' hd (known_mem hx h0) hn h0 ?_
  rw [h, e]

/-! ### What functions need -/

include hh hst in
theorem function_declared (hm : OneMeaning us) {u : TUnit} (hu : u ∈ us) {q n : Bytes} (hf : u.Function q n) (ht : TypesOf us n)
    (hcol : NoCollisions dbs) : hashOf n ≠ 0 ∧ nameOf n = ⟨hashOf n, n⟩ ∧ (∃ d ∈ dbs, nameOf n ∈ d.names) ∧
      ((nameOf q).hash = hashOf q → DeclaresFunction dbs (hashOf q) (hashOf n)) := by
  obtain ⟨d, hd, h⟩ := unit_db hh hu
  obtain ⟨f, hfd, e1, e2⟩ := (h.functions (nameOf n) (nameOf q)).2 ⟨q, n, hf, rfl, rfl⟩
  have hp : f.toPrim ∈ entries d .function := List.mem_map.2 ⟨f, hfd, rfl⟩
  have hk := prim_known (hst d hd) hp
  have h0 : (nameOf n).hash ≠ 0 := by rw [← e1]; exact hk.1
  obtain ⟨g1, g2⟩ := nameOf_hash h0
  have hnm : nameOf n ∈ d.names := by rw [← e1]; exact hk.2.1
  refine ⟨g1, g2, ⟨d, hd, hnm⟩, fun hq => ⟨d, hd, f, hfd, by rw [e1, g2], by rw [e2]; exact hq, ?_⟩⟩
  intro d' hd' p hp hpar
  obtain ⟨v, hv, hvd⟩ := db_unit hh hd'
  have hok := (hst d' hd').fields_ok p hp
  have hph : p.parent.hash = hashOf n := by rw [hpar.1, e1, g2]
  rcases hvd.onlyFields p hp with ⟨cls, m, type, op, c, off, hfield, rfl⟩ | ⟨x, hx, hif, hpn, name, t, j, hhas, hdec, htype, _⟩
  · exfalso
    have : cls = n := text_eq hcol hd hd' hnm g2 hok.2.1.2 hph (by rw [hph]; exact g1) rfl
    subst this
    exact (hm.functions u hu v hv q cls hf).2 _ _ _ _ _ hfield
  · have : x.2.name = n := text_eq hcol hd hd' hnm g2 hok.2.1.2 hph (by rw [hph]; exact g1) hpn
    subst this
    obtain ⟨w, hw, k, hwk⟩ := ht v hv x hx hif rfl name t j hhas hdec
    obtain ⟨_, e, hdt, _⟩ := type_named hh hst hw hwk
    rw [htype, e]
    exact hdt

include hh hst hcol hm ha in
theorem sees_of : Sees us base database mem := by
  have cat := @class_at cfg us dbs hh hst hcol base database mem hm ha
  have eat := @enum_at cfg us dbs hh hst hcol base database mem hm ha
  refine ⟨?_, ?_, ?_, ?_, ?_, ?_, ?_, ?_, ?_, ?_, ?_, ?_, ?_⟩
  · intro u hu k _ n ht
    exact sees_type hh hst hcol hm ha hu ht
  · intro h a h1 h0
    obtain ⟨a', g1, _, g3⟩ := ha.types h
    rw [h1] at g1
    injection g1 with g1
    subst g1
    obtain ⟨d, hd, k, hk, p, hp, hph, hpa⟩ := g3 h0
    obtain ⟨v, hv, hvd⟩ := db_unit hh hd
    obtain ⟨n, hn, e⟩ := type_entry hvd hk hp
    have hp' := prim_known (hst d hd) hp
    obtain ⟨_, e'⟩ := nameOf_hash (n := n) (by rw [← e]; exact hp'.1)
    refine ⟨v, hv, k, hk, n, hn, ?_, by rw [← e', ← e]; exact hpa⟩
    rw [← hph, e, e']
  · intro u hu n z hc hz a h1
    obtain ⟨h0, hk, e, d, hd, hnm⟩ := cat hu hc h1
    obtain ⟨d', hd', c, hcm, hch, hr, hfwd⟩ := ha.sizes _ a h1 h0 hk
    obtain ⟨v, hv, hvd⟩ := db_unit hh hd'
    have hcp : c.toPrim ∈ entries d' .cls := List.mem_map.2 ⟨c, hcm, rfl⟩
    have hck := prim_known (hst d' hd') hcp
    obtain ⟨m, em, hsz⟩ := hvd.sizes c hcm
    have : m = n := text_eq hcol hd hd' hnm e (.inr hck.2.1) hch hck.1 em
    subst this
    have hzlt := (hm.sizes u hu u hu m z z hz hz).2
    have hnat : (UInt64.ofNat z).toNat = z := by
      rw [UInt64.toNat_ofNat']
      exact Nat.mod_eq_of_lt (by omega)
    rcases hsz with ⟨z', hz', e'⟩ | ⟨hno, e'⟩
    · have := (hm.sizes u hu v hv m z z' hz hz').1
      subst this
      rw [hr, e', hnat]
    · exfalso
      obtain ⟨d2, hd2, h2⟩ := unit_db hh hu
      obtain ⟨c2, hc2, ec2⟩ := (h2.classes (nameOf m)).2 ⟨m, hc, rfl⟩
      have hf2 := hfwd e' d2 hd2 c2 hc2 (by rw [ec2, e])
      have hck2 := prim_known (hst d2 hd2) (p := c2.toPrim) (k := .cls) (List.mem_map.2 ⟨c2, hc2, rfl⟩)
      obtain ⟨m2, em2, hsz2⟩ := h2.sizes c2 hc2
      have : m = m2 := nameOf_inj (ec2.symm.trans em2) (by rw [← ec2]; exact hck2.1)
      subst this
      rcases hsz2 with ⟨z2, hz2, e2⟩ | ⟨hno2, _⟩
      · have := (hm.sizes u hu u hu m z z2 hz hz2).1
        subst this
        have hf2 : c2.size = 0xFFFFFFFF := hf2
        rw [e2] at hf2
        have := congrArg UInt64.toNat hf2
        rw [hnat] at this
        have : z = 4294967295 := this
        omega
      · exact hno2 ⟨z, hz⟩
  · intro u hu cls n type op c off hf ⟨w, hw, hwc⟩ ⟨v, hv, k, hk, hvt⟩ a h1
    obtain ⟨h0, hkind, e, d, hd, hnm⟩ := cat hw hwc h1
    obtain ⟨b, g1, g2, g3⟩ := ha.fields _ a h1 h0 hkind (hashOf n)
    obtain ⟨du, hdu, hudu⟩ := unit_db hh hu
    have hmem := hudu.fields cls n type op c off hf
    have hok := (hst du hdu).fields_ok _ hmem
    obtain ⟨hn0, en⟩ := nameOf_hash hok.1
    obtain ⟨_, et, hdt, dt, hdt', htm⟩ := type_named hh hst hv hvt
    have hb : b ≠ 0 := g2.2 ⟨du, hdu, _, hmem, by rw [en], by rw [e], by rw [et]; exact hdt⟩
    refine ⟨b, g1, hb, ?_⟩
    obtain ⟨d', hd', x, hx, hxn, hxp, hxa⟩ := g3 hb
    obtain ⟨v', hv', hvd'⟩ := db_unit hh hd'
    have hxok := (hst d' hd').fields_ok x hx
    have hx0 : x.parent.hash ≠ 0 := by
      have : (nameOf cls).hash = hashOf cls := by rw [e]
      rw [hxp, ← this]
      exact (hst d hd).names_nonzero _ hnm
    rcases hvd'.onlyFields x hx with ⟨cls', m, type', op', c', off', hfield, rfl⟩ | ⟨y, hy, hif, hpn, _⟩
    · have h1 : cls' = cls := text_eq hcol hd hd' hnm e hxok.2.1.2 hxp hx0 rfl
      have h2 : m = n := text_eq hcol hdu hd' (known_mem hok.2.1.1 hok.1) en hxok.2.1.1 hxn hxok.1 rfl
      subst h1; subst h2
      obtain ⟨rfl, rfl, rfl, rfl⟩ := hm.fields u hu v' hv' _ _ _ _ _ _ _ _ _ _ hf hfield
      rw [en, e, et] at hxa
      exact hxa
    · exfalso
      have : y.2.name = cls := text_eq hcol hd hd' hnm e hxok.2.1.2 hxp hx0 hpn
      exact (hm.functions v' hv' w hw y.1 y.2.name ⟨y, hy, hif, rfl, rfl⟩).1 (this ▸ hwc)
  · intro u hu cls hc a h1 h b hb hb0
    obtain ⟨h0, hkind, e, d, hd, hnm⟩ := cat hu hc h1
    obtain ⟨b', g1, _, g3⟩ := ha.fields _ a h1 h0 hkind h
    rw [hb] at g1
    injection g1 with g1
    subst g1
    obtain ⟨d', hd', x, hx, hxn, hxp, _⟩ := g3 hb0
    obtain ⟨v', hv', hvd'⟩ := db_unit hh hd'
    have hxok := (hst d' hd').fields_ok x hx
    have hx0 : x.parent.hash ≠ 0 := by
      have : (nameOf cls).hash = hashOf cls := by rw [e]
      rw [hxp, ← this]
      exact (hst d hd).names_nonzero _ hnm
    rcases hvd'.onlyFields x hx with ⟨cls', m, type', op', c', off', hfield, rfl⟩ | ⟨y, hy, hif, hpn, _⟩
    · have h1 : cls' = cls := text_eq hcol hd hd' hnm e hxok.2.1.2 hxp hx0 rfl
      subst h1
      obtain ⟨_, en⟩ := nameOf_hash hxok.1
      exact ⟨v', hv', m, type', op', c', off', hfield, by rw [← hxn]; show (nameOf m).hash = _; rw [en]⟩
    · exfalso
      have : y.2.name = cls := text_eq hcol hd hd' hnm e hxok.2.1.2 hxp hx0 hpn
      exact (hm.functions v' hv' u hu y.1 y.2.name ⟨y, hy, hif, rfl, rfl⟩).1 (this ▸ hc)
  · intro u hu enum n x hx a h1
    have hen : u.Enum enum := by
      obtain ⟨y, hy, rfl, tag, cs, hw, _⟩ := hx
      exact ⟨y, hy, rfl, tag, cs, hw⟩
    obtain ⟨h0, hkind, e, d, hd, hnm⟩ := eat hu hen h1
    obtain ⟨b, g1, g2, g3⟩ := ha.constants _ a h1 h0 hkind (hashOf n)
    obtain ⟨du, hdu, hudu⟩ := unit_db hh hu
    obtain ⟨y, hy, y1, y2, y3⟩ := (hudu.constants (nameOf n) (nameOf enum) x).2 ⟨enum, n, hx, rfl, rfl⟩
    have hok := (hst du hdu).enumConstants_ok _ hy
    obtain ⟨hn0, en⟩ := nameOf_hash (n := n) (by rw [← y1]; exact hok.1)
    have hb : b ≠ 0 := g2.2 ⟨du, hdu, y, hy, by rw [y1, en], by rw [y2, e]⟩
    refine ⟨b, g1, hb, ?_⟩
    obtain ⟨d', hd', z, hz, hzn, hzp, hza⟩ := g3 hb
    obtain ⟨v', hv', hvd'⟩ := db_unit hh hd'
    have hzok := (hst d' hd').enumConstants_ok z hz
    have hz0 : z.parent.hash ≠ 0 := by
      have : (nameOf enum).hash = hashOf enum := by rw [e]
      rw [hzp, ← this]
      exact (hst d hd).names_nonzero _ hnm
    obtain ⟨q, m, hc, z1, z2⟩ := (hvd'.constants z.name z.parent z.value).1 ⟨z, hz, rfl, rfl, rfl⟩
    have k1 : q = enum := text_eq hcol hd hd' hnm e hzok.2.1.2 hzp hz0 z2
    have k2 : m = n := text_eq hcol hdu hd' (by rw [← y1]; exact known_mem hok.2.1.1 hok.1) en hzok.2.1.1 hzn hzok.1 z1
    subst k1; subst k2
    have := hm.constants u hu v' hv' _ _ _ _ hx hc
    subst this
    have : z = { name := ⟨hashOf m, m⟩, parent := ⟨hashOf q, q⟩, value := z.value } := by
      rw [← en, ← e, ← z1, ← z2]
    rw [← this]
    exact hza
  · intro u hu enum hen a h1 h b hb hb0
    obtain ⟨h0, hkind, e, d, hd, hnm⟩ := eat hu hen h1
    obtain ⟨b', g1, _, g3⟩ := ha.constants _ a h1 h0 hkind h
    rw [hb] at g1
    injection g1 with g1
    subst g1
    obtain ⟨d', hd', z, hz, hzn, hzp, _⟩ := g3 hb0
    obtain ⟨v', hv', hvd'⟩ := db_unit hh hd'
    have hzok := (hst d' hd').enumConstants_ok z hz
    have hz0 : z.parent.hash ≠ 0 := by
      have : (nameOf enum).hash = hashOf enum := by rw [e]
      rw [hzp, ← this]
      exact (hst d hd).names_nonzero _ hnm
    obtain ⟨q, m, hc, z1, z2⟩ := (hvd'.constants z.name z.parent z.value).1 ⟨z, hz, rfl, rfl, rfl⟩
    have k1 : q = enum := text_eq hcol hd hd' hnm e hzok.2.1.2 hzp hz0 z2
    subst k1
    obtain ⟨_, en⟩ := nameOf_hash (n := m) (by rw [← z1]; exact hzok.1)
    exact ⟨v', hv', m, z.value, hc, by rw [← hzn, z1, en]⟩
  · intro u hu cls n hf ht ⟨w, hw, hwc⟩ a h1
    obtain ⟨h0, hkind, e, d, hd, hnm⟩ := cat hw hwc h1
    obtain ⟨n0, en, ⟨dn, hdn, hnn⟩, hdec⟩ := function_declared hh hst hm hu hf ht hcol
    obtain ⟨b, g1, g2, g3⟩ := ha.methods _ a h1 h0 hkind (hashOf n)
    have hb := g2.2 (hdec (by rw [e]))
    refine ⟨b, g1, hb, ?_⟩
    obtain ⟨d', hd', x, hx, hxn, _, hxa⟩ := g3 hb
    have hxok := (hst d' hd').functions_ok x hx
    have : x.name = nameOf n := same_name hcol hd' hdn (known_mem hxok.2.1.1 hxok.1) hnn (by rw [hxn, en])
    rw [← en, ← this]
    exact hxa
  · intro u hu cls hc a h1 h b hb hb0
    obtain ⟨h0, hkind, e, d, hd, hnm⟩ := cat hu hc h1
    obtain ⟨b', g1, _, g3⟩ := ha.methods _ a h1 h0 hkind h
    rw [hb] at g1
    injection g1 with g1
    subst g1
    obtain ⟨d', hd', x, hx, hxn, hxp, _⟩ := g3 hb0
    obtain ⟨v', hv', hvd'⟩ := db_unit hh hd'
    have hxok := (hst d' hd').functions_ok x hx
    have hx0 : x.parent.hash ≠ 0 := by
      have : (nameOf cls).hash = hashOf cls := by rw [e]
      rw [hxp, ← this]
      exact (hst d hd).names_nonzero _ hnm
    obtain ⟨q, m, hf, z1, z2⟩ := (hvd'.functions x.name x.parent).1 ⟨x, hx, rfl, rfl⟩
    have k1 : q = cls := text_eq hcol hd hd' hnm e hxok.2.1.2 hxp hx0 z2
    subst k1
    obtain ⟨_, en⟩ := nameOf_hash (n := m) (by rw [← z1]; exact hxok.1)
    exact ⟨v', hv', m, hf, by rw [← hxn, z1, en]⟩
  · intro u hu n hn
    obtain ⟨d, hd, h⟩ := unit_db hh hu
    obtain ⟨s, hs, es⟩ := (h.namespaces (nameOf n)).2 ⟨n, hn, rfl⟩
    have hok := (hst d hd).namespaces_ok s hs
    obtain ⟨n0, en⟩ := nameOf_hash (n := n) (by rw [← es]; exact hok.1)
    obtain ⟨a, g1, g2, g3⟩ := ha.spaces (hashOf n)
    have ha0 := g2.2 ⟨d, hd, s, hs, by rw [es, en]⟩
    refine ⟨a, g1, ha0, ?_⟩
    obtain ⟨d', hd', x, hx, hxn, hxa⟩ := g3 ha0
    have hxok := (hst d' hd').namespaces_ok x hx
    have : x.name = nameOf n := same_name hcol hd' hd (known_mem hxok.2.1 hxok.1) (by rw [← es]; exact known_mem hok.2.1 hok.1) (by rw [hxn, en])
    rw [← en, ← this]
    exact hxa
  · intro h a h1 h0
    obtain ⟨a', g1, _, g3⟩ := ha.spaces h
    rw [h1] at g1
    injection g1 with g1
    subst g1
    obtain ⟨d, hd, x, hx, hxn, _⟩ := g3 h0
    obtain ⟨v, hv, hvd⟩ := db_unit hh hd
    obtain ⟨n, hn, e⟩ := (hvd.namespaces x.name).1 ⟨x, hx, rfl⟩
    obtain ⟨_, en⟩ := nameOf_hash (n := n) (by rw [← e]; exact ((hst d hd).namespaces_ok x hx).1)
    exact ⟨v, hv, n, hn, by rw [← hxn, e, en]⟩
  · intro u hu q n hf ht ⟨w, hw, hwq⟩ a h1
    obtain ⟨n0, en, ⟨dn, hdn, hnn⟩, hdec⟩ := function_declared hh hst hm hu hf ht hcol
    obtain ⟨d, hd, h⟩ := unit_db hh hw
    obtain ⟨s, hs, es⟩ := (h.namespaces (nameOf q)).2 ⟨q, hwq, rfl⟩
    have hok := (hst d hd).namespaces_ok s hs
    obtain ⟨q0, eq⟩ := nameOf_hash (n := q) (by rw [← es]; exact hok.1)
    obtain ⟨a', k1, k2, _⟩ := ha.spaces (hashOf q)
    rw [h1] at k1
    injection k1 with k1
    subst k1
    have h0 := k2.2 ⟨d, hd, s, hs, by rw [es, eq]⟩
    obtain ⟨b, g1, g2, g3⟩ := ha.functions _ a h1 h0 (hashOf n)
    have hb := g2.2 (hdec (by rw [eq]))
    refine ⟨b, g1, hb, ?_⟩
    obtain ⟨d', hd', x, hx, hxn, _, hxa⟩ := g3 hb
    have hxok := (hst d' hd').functions_ok x hx
    have : x.name = nameOf n := same_name hcol hd' hdn (known_mem hxok.2.1.1 hxok.1) hnn (by rw [hxn, en])
    rw [← en, ← this]
    exact hxa
  · intro u hu q hq a h1 h b hb hb0
    obtain ⟨d, hd, hud⟩ := unit_db hh hu
    obtain ⟨s, hs, es⟩ := (hud.namespaces (nameOf q)).2 ⟨q, hq, rfl⟩
    have hok := (hst d hd).namespaces_ok s hs
    obtain ⟨q0, eq⟩ := nameOf_hash (n := q) (by rw [← es]; exact hok.1)
    obtain ⟨a', k1, k2, _⟩ := ha.spaces (hashOf q)
    rw [h1] at k1
    injection k1 with k1
    subst k1
    have h0 := k2.2 ⟨d, hd, s, hs, by rw [es, eq]⟩
    obtain ⟨b', g1, _, g3⟩ := ha.functions _ a h1 h0 h
    rw [hb] at g1
    injection g1 with g1
    subst g1
    obtain ⟨d', hd', x, hx, hxn, hxp, _⟩ := g3 hb0
    obtain ⟨v', hv', hvd'⟩ := db_unit hh hd'
    have hxok := (hst d' hd').functions_ok x hx
    have hx0 : x.parent.hash ≠ 0 := by rw [hxp]; exact q0
    obtain ⟨q', m, hf, z1, z2⟩ := (hvd'.functions x.name x.parent).1 ⟨x, hx, rfl, rfl⟩
    have k1 : q' = q := text_eq hcol hd hd' (by rw [← es]; exact known_mem hok.2.1 hok.1) eq hxok.2.1.2 hxp hx0 z2
    subst k1
    obtain ⟨_, en⟩ := nameOf_hash (n := m) (by rw [← z1]; exact hxok.1)
    exact ⟨v', hv', m, hf, by rw [← hxn, z1, en]⟩

end

end Clr.ScanStore
