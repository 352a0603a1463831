import Verif.Proofs.ExportLog
import Verif.Props.ExportFile
/-
C92: the text log of clexport lists the exported database.
-/
namespace Clr.ExportLog
open Clr Clr.Logging Clr.Image
open Clr.Export (K Slot Ref Ptr St entry entries Ready UniqueTypes Records AttributeOf Known nameText HasType GoodFunction typeKinds
  Valid copied scopeTable attributeKinds exportDB refs entry_refs recB recB_of)
attribute [local irreducible] DB.hashOf

/-- What the theorems ask for: the database is one that can be exported, its types have different names, primitive attributes
name known things, no name is hashed to 0, and it can be printed. -/
structure Setting (env : Export.Env) (fuel : Nat) (db : DB.Database) (P : Printer) : Prop where
  ready : Ready env fuel db
  unique : UniqueTypes db
  targets : ∀ a ∈ db.primitiveAttributes, a.value.hash = 0 ∨ Known db a.value.hash
  nonzero : ∀ r p, entry db r = some p → p.name.hash ≠ 0
  printable : Printable db P

section
variable {env : Export.Env} {fuel : Nat} {db : DB.Database} {P : Printer} {F : St} {base : Nat}

theorem word_name {r : Ref} {p : DB.Prim} (hp : entry db r = some p) : wordOf db p.name.hash = nameText db r := by
  unfold wordOf nameText
  rw [hp]

theorem name_ok (S : Setting env fuel db P) (hF : exportDB env fuel db = some (.ok F)) {r : Ref} {p : DB.Prim}
    (hp : entry db r = some p) : nameOf (dataOf base db F) r = .ok (nameText db r) := by
  have fin := Export.final_of S.ready.exportable hF
  have h1 : (F.get r).text = Export.textOf db p.name.hash := by rw [fin.text, (Export.entry_copied hp).2.2.2.2]
  have h2 : ∃ t, Export.textOf db p.name.hash = some t := by
    obtain ⟨n, hn, e⟩ := S.ready.wellFormed.names r p hp
    unfold Export.textOf
    cases hf : db.names.find? fun n => n.hash == p.name.hash with
    | none =>
      have := List.find?_eq_none.mp hf n hn
      simp [e] at this
    | some m => exact ⟨_, rfl⟩
  obtain ⟨t, h2⟩ := h2
  unfold nameOf
  show (match (F.get r).text with | some t => Res.ok t | none => .ub) = _
  have h3 : nameText db r = (Export.textOf db p.name.hash).getD [] := by unfold nameText; rw [hp]; rfl
  rw [h1, h3, h2]
  rfl

theorem lines {d : Nat} {t : Bytes} (hd : d < 128) (ht : t.length ≤ 511) : Writes P d [line P t] (tabs d ++ t) := .line d t hd ht

/-! ### Attributes -/

theorem attribute_writes (S : Setting env fuel db P) (hF : exportDB env fuel db = some (.ok F)) {a : Ref} (hk : a.1 ∈ attributeKinds)
    {p : DB.Prim} (hp : entry db a = some p) (d : Nat) (hd : d < 128) :
    ∃ ops t, logAttribute P (dataOf base db F) a = .ok ops ∧ Writes P d ops t ∧ Item db P.float d a t := by
  have hn := name_ok (base := base) S hF hp
  have fin := Export.final_of S.ready.exportable hF
  have hl := S.printable.names a
  obtain ⟨k, i⟩ := a
  have hv := (Export.entry_copied hp).1
  simp only [attributeKinds, List.mem_cons, List.not_mem_nil, or_false] at hk
  rcases hk with rfl | rfl | rfl | rfl | rfl
  · unfold logAttribute
    simp only [hn, Res.bind_ok]
    exact ⟨_, _, rfl, .line d _ hd (by simp; omega), .attribute d _ _ (.flag i)⟩
  · unfold logAttribute
    simp only [hn, Res.bind_ok]
    obtain ⟨x, hx⟩ : ∃ x, db.intAttributes[i]? = some x := by
      unfold entry entries at hp
      simp only [List.getElem?_map, Option.map_eq_some_iff] at hp
      exact ⟨_, hp.choose_spec.1⟩
    have hval : (F.get (.intAttr, i)).value = x.value.toBitVec := by
      rw [fin.value]
      simp [copied, Export.rows, List.getD_eq_getElem?_getD, hx]
    have hlen : (dec (F.get (.intAttr, i)).value.toInt).length ≤ 11 := dec_length _
    refine ⟨_, _, rfl, .line d _ hd ?_, .attribute d _ _ (.int i x _ hx ?_)⟩
    · show (b!"int: " ++ nameText db (.intAttr, i) ++ b!" = " ++ dec (F.get (.intAttr, i)).value.toInt).length ≤ 511
      simp; omega
    · show Decimal x.value.toInt (dec (F.get (.intAttr, i)).value.toInt)
      rw [hval]
      exact decimal_dec _
  · unfold logAttribute
    simp only [hn, Res.bind_ok]
    obtain ⟨x, hx⟩ : ∃ x, db.floatAttributes[i]? = some x := by
      unfold entry entries at hp
      simp only [List.getElem?_map, Option.map_eq_some_iff] at hp
      exact ⟨_, hp.choose_spec.1⟩
    have hval : (dataOf base db F).scalar (.floatAttr, i) .number = x.bits.toNat := by
      show (db.floatAttributes.getD i {}).bits.toNat = _
      rw [List.getD_eq_getElem?_getD, hx]; rfl
    rw [hval]
    have := S.printable.floats x.bits.toNat
    exact ⟨_, _, rfl, .line d _ hd (by simp; omega), .attribute d _ _ (.float i x hx)⟩
  · obtain ⟨x, hx⟩ : ∃ x, db.primitiveAttributes[i]? = some x := by
      unfold entry entries at hp
      simp only [List.getElem?_map, Option.map_eq_some_iff] at hp
      exact ⟨_, hp.choose_spec.1⟩
    have htc : ((copied db).get (.primAttr, i)).target = Export.ofHash x.value.hash := by
      simp [copied, Export.rows, List.getD_eq_getElem?_getD, hx]
    have hh : env.hash (Export.ofHash x.value.hash) = x.value.hash := by
      simp [Export.Env.hash, Export.Env.num, Export.ofHash]
    have hknown : ((copied db).get (.primAttr, i)).target = .raw 0 ∨ env.hash ((copied db).get (.primAttr, i)).target ∈ Export.nameKeys db := by
      rw [htc, hh]
      rcases S.targets x (List.mem_of_getElem? hx) with e | ⟨n, hn, e⟩
      · left; rw [e]; rfl
      · right; exact List.mem_append.mpr (.inl (List.mem_map.mpr ⟨n, hn, e⟩))
    have ht := fin.target (.primAttr, i) rfl hknown
    rw [htc, hh] at ht
    obtain ⟨_, _, _, _, hm, hhash⟩ := Export.C18_tables_sorted_partial env fuel db S.ready F hF
    have hin : ∀ q : Ref, q ∈ F.typePrims ++ F.all .function ↔ (q.1 ∈ typeKinds ∨ q.1 = .function) ∧ ∃ p, entry db q = some p := by
      intro q
      rw [List.mem_append, hm, Export.mem_all]
      constructor
      · rintro (⟨h1, h2⟩ | ⟨h1, h2⟩)
        · exact ⟨.inl h1, h2⟩
        · refine ⟨.inr h1, Export.copied_entry ?_ (by rw [h1]; simp)⟩
          unfold Valid at h2 ⊢
          rw [fin.count] at h2
          exact h2
      · rintro ⟨h1 | h1, p, h2⟩
        · exact .inl ⟨h1, p, h2⟩
        · refine .inr ⟨h1, ?_⟩
          have := (Export.entry_copied h2).1
          unfold Valid at this ⊢
          rw [fin.count]
          exact this
    unfold logAttribute
    cases hf : (F.typePrims ++ F.all .function).reverse.find? fun t => (F.get t).hash == x.value.hash with
    | none =>
      rw [hf] at ht
      have ht' : ((dataOf base db F).st.get (.primAttr, i)).target = .raw 0 := ht
      simp only [ht', hn, Res.bind_ok]
      refine ⟨_, _, rfl, .line d _ hd (by simp; omega), .attribute d _ _ (.unresolved i x hx ?_)⟩
      rintro ⟨q, p', hq, hp', e⟩
      have := List.find?_eq_none.mp hf q (by rw [List.mem_reverse, hin]; exact ⟨hq, p', hp'⟩)
      rw [hhash q p' hp', e] at this
      simp at this
    | some q =>
      rw [hf] at ht
      have ht' : ((dataOf base db F).st.get (.primAttr, i)).target = .obj q := ht
      have hq := List.mem_of_find?_eq_some hf
      rw [List.mem_reverse, hin] at hq
      obtain ⟨hq, p', hp'⟩ := hq
      have e : p'.name.hash = x.value.hash := by
        have := List.find?_some hf
        rw [hhash q p' hp'] at this
        simpa using this
      simp only [ht', hn, name_ok (base := base) S hF hp', Res.bind_ok]
      have hl' := S.printable.names q
      have hitem := ValueText.primitive (float := P.float) i x hx ⟨q, p', hq, hp', e⟩
      rw [← e, word_name hp'] at hitem
      exact ⟨_, _, rfl, .line d _ hd (by simp; omega), .attribute d _ _ hitem⟩
  · unfold logAttribute
    simp only [hn, Res.bind_ok]
    obtain ⟨x, hx⟩ : ∃ x, db.textAttributes[i]? = some x := by
      unfold entry entries at hp
      simp only [List.getElem?_map, Option.map_eq_some_iff] at hp
      exact ⟨_, hp.choose_spec.1⟩
    have hval : (dataOf base db F).text (.textAttr, i) = x.value := by
      show (db.textAttributes.getD i {}).value = _
      rw [List.getD_eq_getElem?_getD, hx]; rfl
    rw [hval]
    have := S.printable.texts x (List.mem_of_getElem? hx)
    exact ⟨_, _, rfl, .line d _ hd (by simp; omega), .attribute d _ _ (.text i x hx)⟩

theorem all_writes {f : Ref → Res (List Op)} {d : Nat} (hd : d < 128) : ∀ (l : List Ref),
    (∀ r ∈ l, ∃ ops t, f r = .ok ops ∧ Writes P d ops t ∧ Item db P.float d r t) →
    ∃ ops t, logAll P f l = .ok ops ∧ Writes P d ops t ∧ Listing db P.float d l t := by
  intro l
  induction l with
  | nil => intro _; exact ⟨[], [], rfl, .nil d, .nil d⟩
  | cons r rs ih =>
    intro h
    obtain ⟨o1, t1, e1, w1, i1⟩ := h r (by simp)
    obtain ⟨o2, t2, e2, w2, i2⟩ := ih fun r hr => h r (by simp [hr])
    refine ⟨o1 ++ newline P :: o2, _, ?_, ?_, .cons d r rs t1 t2 i1 i2⟩
    · simp only [logAll, e1, e2, Res.bind_ok]
    · exact w1.app (Writes.cons (lines hd (by simp)) w2 rfl) (by simp)

theorem byHash {l : List Ref} (hh : ∀ r p, entry db r = some p → (F.get r).hash = p.name.hash)
    (h : l.Pairwise fun a b => (F.get a).hash ≤ (F.get b).hash) : ByHash db l := by
  refine h.imp ?_
  intro a b hab p q hp hq
  rw [hh a p hp, hh b q hq] at hab
  exact hab

theorem attributes_writes (S : Setting env fuel db P) (hF : exportDB env fuel db = some (.ok F)) {r : Ref}
    (hk : r.1 ∈ [K.enum, .field, .function, .cls]) {p : DB.Prim} (hp : entry db r = some p) (d : Nat) (hd : d < 127) :
    ∃ as u ops, logAttributes P (dataOf base db F) r = .ok ops ∧ Attached db r as ∧ Listing db P.float (d + 1) as u ∧
      Writes P d ops (heading d (nameText db r) as u) := by
  obtain ⟨k, i⟩ := r
  have hi : i < (entries db k).length := Export.entry_lt hp
  obtain ⟨h1, h2⟩ := Export.C17_attribute_arrays_partial env fuel db S.ready F hF k hk i hi
  obtain ⟨_, h3, _, _, _, hh⟩ := Export.C18_tables_sorted_partial env fuel db S.ready F hF
  have h3 := byHash hh (h3 k hk i hi)
  obtain ⟨ops, u, e, w, li⟩ := all_writes (P := P) (db := db) (f := logAttribute P (dataOf base db F)) (d := d + 1) (by omega)
    ((F.get (k, i)).kids .attributes) (by
      intro a ha
      obtain ⟨ka, q, hq, _⟩ := (h2 a).mp ha
      exact attribute_writes S hF ka hq (d + 1) (by omega))
  have hn := name_ok (base := base) S hF hp
  have hl := S.printable.names (k, i)
  by_cases he : (F.get (k, i)).kids .attributes = []
  · refine ⟨[], [], [], ?_, ⟨List.nodup_nil, ?_, List.Pairwise.nil⟩, .nil _, ?_⟩
    · unfold logAttributes
      rw [if_neg (by show ¬ ((F.get (k, i)).kids .attributes).length ≠ 0; rw [he]; simp)]
    · intro a; rw [← h2 a, he]
    · simp [heading]; exact .nil d
  · refine ⟨(F.get (k, i)).kids .attributes, u,
      line P (b!"Attributes for " ++ nameText db (k, i)) :: newline P :: inner P ops, ?_, ⟨h1, h2, h3⟩, li, ?_⟩
    · have e' : logAll P (logAttribute P (dataOf base db F)) (((dataOf base db F).st.get (k, i)).kids .attributes) = .ok ops := e
      unfold logAttributes
      simp only
      rw [if_pos (by show ((F.get (k, i)).kids .attributes).length ≠ 0; simpa using he)]
      simp only [hn, e', Res.bind_ok]
    · unfold heading
      rw [if_neg he]
      refine Writes.cons (lines (t := b!"Attributes for " ++ nameText db (k, i)) (by omega) (by simp; omega))
        (Writes.cons (lines (t := b!"\n") (by omega) (by simp)) (.inner d _ _ (by omega) w) rfl) ?_
      simp [List.append_assoc]

/-! ### Fields -/

theorem last_of {q : Nat → Prop} : ∀ n, (∃ i, i < n ∧ q i) → ∃ i, i < n ∧ q i ∧ ∀ j, i < j → j < n → ¬ q j := by
  intro n
  induction n with
  | zero => rintro ⟨i, hi, _⟩; omega
  | succ n ih =>
    rintro ⟨i, hi, h⟩
    by_cases hn : q n
    · exact ⟨n, by omega, hn, fun j h1 h2 => by omega⟩
    · have : i ≠ n := fun e => hn (e ▸ h)
      obtain ⟨m, h1, h2, h3⟩ := ih ⟨i, by omega, h⟩
      refine ⟨m, by omega, h2, ?_⟩
      intro j h4 h5 h6
      have : j ≠ n := fun e => hn (e ▸ h6)
      exact h3 j h4 (by omega) h6

theorem count_text (S : Setting env fuel db P) (hF : exportDB env fuel db = some (.ok F)) (c : Ref) (d : Nat) :
    ∃ t, CountText db c t ∧ Writes P d (logCount P (dataOf base db F) c) t := by
  have hc' : logCount P (dataOf base db F) c = match (F.get c).ci with
      | some i => [more P (b!"[" ++ dec (int ((dataOf base db F).scalar i .count)) ++ b!"]")]
      | none => [] := rfl
  rw [hc']
  have hci := fun x => Export.C88_containers_partial env fuel db S.ready S.unique F hF c x
  cases h : (F.get c).ci with
  | none =>
    refine ⟨[], .inr ⟨?_, rfl⟩, .nil d⟩
    intro i x hx hc
    have hlt : ∀ {i : Nat} {x : DB.ContainerInfo}, db.containerInfos[i]? = some x → i < db.containerInfos.length := by
      intro i x hx
      obtain ⟨h, _⟩ := List.getElem?_eq_some_iff.mp hx
      exact h
    obtain ⟨m, h1, ⟨y, h2, h2'⟩, h3⟩ := last_of (q := fun i => ∃ x, db.containerInfos[i]? = some x ∧ Export.ContainerOf db x.name.hash c)
      db.containerInfos.length ⟨i, hlt hx, x, hx, hc⟩
    have := (hci (.container, m)).mpr ⟨m, y, rfl, h2, h2', fun j z hj hz hc' => h3 j hj (hlt hz) ⟨z, hz, hc'⟩⟩
    rw [h] at this
    cases this
  | some x =>
    obtain ⟨i, y, rfl, h1, h2, h3⟩ := (hci x).mp h
    have hv : int ((dataOf base db F).scalar (.container, i) .count) = y.count.toBitVec.toInt := by
      show int (db.containerInfos.getD i {}).count.toNat = _
      rw [List.getD_eq_getElem?_getD, h1]
      simp [int]
    have := dec_length y.count.toBitVec
    refine ⟨_, .inl ⟨i, y, dec y.count.toBitVec.toInt, h1, h2, h3, decimal_dec _, rfl⟩, ?_⟩
    simp only [hv]
    exact .more d _ (by simp; omega)

theorem type_text (S : Setting env fuel db P) (hF : exportDB env fuel db = some (.ok F)) {c : Ref} (hc : c.1 = .field) {p : DB.Prim}
    (hp : entry db c = some p) : ∃ t, typeName (dataOf base db F) c = .ok t ∧ TypeText db c t ∧ t.length ≤ 240 := by
  have fin := Export.final_of S.ready.exportable hF
  have hv := (Export.entry_copied hp).1
  obtain ⟨h1, h2⟩ := Export.typeFor_iff (env := env) c hc hv
  have ht : ((dataOf base db F).st.get c).type = Export.optPtr (Export.typeFor env db c) := fin.type c hv hc
  unfold typeName
  cases hf : Export.typeFor env db c with
  | none =>
    rw [hf] at ht
    simp only [ht, Export.optPtr]
    refine ⟨_, rfl, .inr ⟨fun q hq => h1.mpr ⟨q, hq⟩ hf, rfl⟩, by decide⟩
  | some t =>
    rw [hf] at ht
    simp only [ht, Export.optPtr]
    have h3 := h2 t hf
    obtain ⟨_, q, _, hq, _⟩ := h3.2
    exact ⟨_, name_ok S hF hq, .inl ⟨t, h3, rfl⟩, S.printable.names t⟩

theorem field_at {c : Ref} (hc : c.1 = .field) {p : DB.Prim} (hp : entry db c = some p) : ∃ f, db.fields[c.2]? = some f := by
  unfold entry at hp
  rw [hc] at hp
  unfold entries at hp
  simp only [List.getElem?_map, Option.map_eq_some_iff] at hp
  exact ⟨_, hp.choose_spec.1⟩

theorem field_writes (S : Setting env fuel db P) (hF : exportDB env fuel db = some (.ok F)) {c : Ref} (hc : c.1 = .field) {p : DB.Prim}
    (hp : entry db c = some p) (named : Bool) (d : Nat) :
    ∃ ops t, logField P (dataOf base db F) c named = .ok ops ∧ Writes P d ops t ∧ FieldText db c named t := by
  obtain ⟨ty, e1, h1, l1⟩ := type_text (base := base) S hF hc hp
  obtain ⟨n, h2, w2⟩ := count_text (base := base) S hF c d
  obtain ⟨f, hf⟩ := field_at hc hp
  have hn := name_ok (base := base) S hF hp
  have hl := S.printable.names c
  have hop : (dataOf base db F).scalar c .op = qualifierOp f.qualifier.op := by
    show qualifierOp (db.fields.getD c.2 {}).qualifier.op = _
    rw [List.getD_eq_getElem?_getD, hf]; rfl
  have hconst : (dataOf base db F).scalar c .isConst = f.qualifier.isConst.toNat := by
    show (db.fields.getD c.2 {}).qualifier.isConst.toNat = _
    rw [List.getD_eq_getElem?_getD, hf]; rfl
  have wname : ∃ ops, logFieldName P (dataOf base db F) c named = .ok ops ∧
      Writes P d ops (if named then b!" " ++ nameText db c else []) := by
    cases named with
    | false => exact ⟨[], rfl, .nil d⟩
    | true =>
      refine ⟨[more P (b!" " ++ nameText db c)], ?_, .more d _ (by simp; omega)⟩
      simp only [logFieldName, if_true, hn, Res.bind_ok]
  obtain ⟨nops, en, wn⟩ := wname
  refine ⟨more P (if (dataOf base db F).scalar c .isConst ≠ 0 then b!"const " else []) :: more P ty ::
    more P (opText (dataOf base db F) c) :: (nops ++ logCount P (dataOf base db F) c), _, ?_, ?_, f, ty, n, hf, h1, h2, rfl⟩
  · simp only [logField, e1, en, Res.bind_ok]
  · have c1 : Writes P d [more P (if (dataOf base db F).scalar c .isConst ≠ 0 then b!"const " else [])] (if f.qualifier.isConst then b!"const " else []) := by
      rw [hconst]
      cases f.qualifier.isConst
      · exact .more d _ (by simp)
      · exact .more d _ (by simp)
    have c3 : Writes P d [more P (opText (dataOf base db F) c)]
        (opWord f.qualifier.op) := by
      unfold opText
      rw [hop]
      cases f.qualifier.op
      · exact .more d _ (by simp [qualifierOp])
      · exact .more d _ (by simp [qualifierOp])
      · exact .more d _ (by simp [qualifierOp])
    refine Writes.cons c1 (Writes.cons (.more d ty (by omega)) (Writes.cons c3 (wn.app w2 rfl) rfl) rfl) ?_
    simp [List.append_assoc]

theorem parameters_writes (S : Setting env fuel db P) (hF : exportDB env fuel db = some (.ok F)) (d : Nat) : ∀ (l : List Ref),
    (∀ c ∈ l, c.1 = .field ∧ ∃ p, entry db c = some p) →
    ∃ ops ts, logParameters P (dataOf base db F) l = .ok ops ∧ Writes P d ops (List.intercalate b!", " ts) ∧ FieldTexts db l ts := by
  intro l
  induction l with
  | nil => intro _; exact ⟨[], [], rfl, .nil d, .nil⟩
  | cons c cs ih =>
    intro h
    obtain ⟨hc, p, hp⟩ := h c (by simp)
    obtain ⟨o1, t1, e1, w1, f1⟩ := field_writes (base := base) S hF hc hp true d
    cases cs with
    | nil => exact ⟨o1, [t1], e1, by simpa [List.intercalate] using w1, .cons c [] t1 [] f1 .nil⟩
    | cons c' cs =>
      obtain ⟨o2, ts, e2, w2, f2⟩ := ih fun c hc => h c (by simp [hc])
      cases f2 with
      | cons _ _ t2 ts f2 fs =>
      refine ⟨o1 ++ more P b!", " :: o2, t1 :: t2 :: ts, ?_, ?_, .cons _ _ _ _ f1 (.cons _ _ _ _ f2 fs)⟩
      · simp only [logParameters, e1, e2, Res.bind_ok]
      · refine w1.app (Writes.cons (.more d b!", " (by simp)) w2 rfl) ?_
        simp [List.intercalate]

theorem member_entry {c r : Ref} (h : Records db c r) : ∃ p, entry db c = some p := by
  obtain ⟨p, _, hp, _⟩ := h.2.1
  exact ⟨p, hp⟩

theorem members_perm {r : Ref} {k : K} {keep : Ref → Prop} {l l' : List Ref} (h : l'.Perm l) (hm : Members db r k keep l) :
    Members db r k keep l' :=
  ⟨h.nodup_iff.mpr hm.1, fun c => by rw [h.mem_iff]; exact hm.2 c⟩

theorem offset_key (c : Ref) (f : DB.Field) (hf : db.fields[c.2]? = some f) : offsetKey (dataOf base db F) c = f.offset.toInt := by
  show int (db.fields.getD c.2 {}).offset.toBitVec.toNat = _
  rw [List.getD_eq_getElem?_getD, hf]
  simp [int]

theorem value_key (c : Ref) (f : DB.EnumConstant) (hf : db.enumConstants[c.2]? = some f) :
    int ((dataOf base db F).scalar c .value) = f.value.toInt := by
  show int (db.enumConstants.getD c.2 {}).value.toBitVec.toNat = _
  rw [List.getD_eq_getElem?_getD, hf]
  simp [int]

theorem byOffset (S : Setting env fuel db P) (l : List Ref) : ByOffset db (P.sort (offsetKey (dataOf base db F)) l) := by
  refine (S.printable.sort _ l).2.imp ?_
  intro a b hab p q hp hq
  rw [offset_key a p hp, offset_key b q hq] at hab
  exact hab

theorem byValue (S : Setting env fuel db P) (l : List Ref) : ByValue db (P.sort (valueKey (dataOf base db F)) l) := by
  refine (S.printable.sort _ l).2.imp ?_
  intro a b hab p q hp hq
  unfold valueKey at hab
  rw [value_key a p hp, value_key b q hq] at hab
  exact hab

/-- The array of a scope. -/
theorem scope_members (S : Setting env fuel db P) (hF : exportDB env fuel db = some (.ok F)) {pk : K} {s : Slot} {ck : K}
    (hrow : (pk, s, ck) ∈ scopeTable) {i : Nat} {p : DB.Prim} (hp : entry db (pk, i) = some p) :
    Members db (pk, i) ck (Export.Kept db F (pk, i) s) ((F.get (pk, i)).kids s) ∧ ByHash db ((F.get (pk, i)).kids s) := by
  have hi : i < (entries db pk).length := Export.entry_lt hp
  obtain ⟨h3, _, _, _, _, hh⟩ := Export.C18_tables_sorted_partial env fuel db S.ready F hF
  exact ⟨Export.C17_scope_arrays_partial env fuel db S.ready F hF pk s ck hrow i hi, byHash hh (h3 pk s ck hrow i hi)⟩

theorem members_keep {r : Ref} {k : K} {keep keep' : Ref → Prop} {l : List Ref} (hm : Members db r k keep l)
    (h : ∀ c, Records db c r → (keep c ↔ keep' c)) : Members db r k keep' l := by
  refine ⟨hm.1, fun c => ?_⟩
  rw [hm.2 c]
  constructor
  · rintro ⟨h1, h2, h3⟩; exact ⟨h1, h2, (h c h2).mp h3⟩
  · rintro ⟨h1, h2, h3⟩; exact ⟨h1, h2, (h c h2).mpr h3⟩

theorem field_line (S : Setting env fuel db P) (hF : exportDB env fuel db = some (.ok F)) {c : Ref} (hc : c.1 = .field) {p : DB.Prim}
    (hp : entry db c = some p) (d : Nat) (hd : d < 127) :
    ∃ ops t, logFieldLine P (dataOf base db F) c = .ok ops ∧ Writes P d ops t ∧ Item db P.float d c t := by
  obtain ⟨as, u, o1, e1, a1, l1, w1⟩ := attributes_writes (base := base) S hF (by rw [hc]; simp) hp d hd
  obtain ⟨o2, t, e2, w2, f2⟩ := field_writes (base := base) S hF hc hp true d
  obtain ⟨k, i⟩ := c
  obtain rfl : k = .field := hc
  refine ⟨o1 ++ line P [] :: (o2 ++ [more P b!";"]), _, ?_, ?_, .field d i as u t a1 l1 f2⟩
  · simp only [logFieldLine, e1, e2, Res.bind_ok]
  · refine w1.app (Writes.cons (lines (t := []) (by omega) (by simp)) (w2.app (.more d b!";" (by simp)) rfl) rfl) ?_
    simp [List.append_assoc]

/-! ### Functions -/

theorem function_writes (S : Setting env fuel db P) (hF : exportDB env fuel db = some (.ok F)) {r : Ref} (hr : r.1 = .function) {p : DB.Prim}
    (hp : entry db r = some p) (d : Nat) (hd : d < 127) :
    ∃ ops t, logFunction P (dataOf base db F) r = .ok ops ∧ Writes P d ops t ∧ Item db P.float d r t := by
  obtain ⟨as, u, o1, e1, a1, l1, w1⟩ := attributes_writes (base := base) S hF (by rw [hr]; simp) hp d hd
  obtain ⟨k, i⟩ := r
  obtain rfl : k = .function := hr
  have hi : i < (entries db .function).length := Export.entry_lt hp
  have hn := name_ok (base := base) S hF hp
  have hl := S.printable.names (.function, i)
  obtain ⟨r1, r2⟩ := Export.C17_return_value env fuel db S.ready F hF i hi
  have hret : Returns db (.function, i) (F.get (.function, i)).ret := by
    cases hx : (F.get (.function, i)).ret with
    | none => exact r2.mp hx
    | some c => exact r1 c hx
  have wret : ∃ o t, logReturn P (dataOf base db F) (.function, i) = Res.ok o ∧ Writes P d o (tabs d ++ t) ∧
      ReturnText db (F.get (.function, i)).ret t := by
    have hx' : ((dataOf base db F).st.get (.function, i)).ret = (F.get (.function, i)).ret := rfl
    unfold logReturn
    rw [hx']
    cases hx : (F.get (.function, i)).ret with
    | none => exact ⟨_, b!"void", rfl, lines (by omega) (by simp), rfl⟩
    | some c =>
      obtain ⟨c1, c2, _⟩ := r1 c hx
      obtain ⟨q, hq⟩ := member_entry c2
      obtain ⟨o, t, e, w, f⟩ := field_writes (base := base) S hF c1 hq false d
      refine ⟨line P [] :: o, t, by simp only [e, Res.bind_ok], ?_, f⟩
      exact Writes.cons (lines (t := []) (by omega) (by simp)) w (by simp)
  obtain ⟨o2, rt, e2, w2, f2⟩ := wret
  obtain ⟨hm, _⟩ := scope_members S hF (s := .parameters) (ck := .field) (by simp [scopeTable]) hp
  replace hm := members_keep (keep' := fun c => (F.get (.function, i)).ret ≠ some c) hm (fun c _ => by
    simp [Export.Kept])
  replace hm := members_perm (S.printable.sort (offsetKey (dataOf base db F)) _).1 hm
  obtain ⟨o3, ts, e3, w3, f3⟩ := parameters_writes (base := base) S hF d
    (P.sort (offsetKey (dataOf base db F)) ((F.get (.function, i)).kids .parameters)) (by
      intro c hc
      obtain ⟨c1, c2, _⟩ := (hm.2 c).mp hc
      exact ⟨c1, member_entry c2⟩)
  refine ⟨o1 ++ o2 ++ more P (b!" " ++ nameText db (.function, i) ++ b!"(") :: (o3 ++ [more P b!");"]), _, ?_, ?_, .function d i as u _ rt _ ts a1 l1 hret f2 hm (byOffset S _) f3⟩
  · have e3' : logParameters P (dataOf base db F) (P.sort (offsetKey (dataOf base db F))
      (((dataOf base db F).st.get (.function, i)).kids .parameters)) = .ok o3 := e3
    simp only [logFunction, e1, e2, hn, e3', Res.bind_ok]
  · refine (w1.app w2 rfl).app (Writes.cons (.more d (b!" " ++ nameText db (.function, i) ++ b!"(") (by simp; omega))
      (w3.app (.more d b!");" (by simp)) rfl) rfl) ?_
    simp [List.append_assoc]

/-! ### Enums -/

theorem constant_writes (S : Setting env fuel db P) (hF : exportDB env fuel db = some (.ok F)) {c : Ref} (hc : c.1 = .constant) {p : DB.Prim}
    (hp : entry db c = some p) (d : Nat) (hd : d < 127) :
    ∃ ops t, logConstant P (dataOf base db F) c = .ok ops ∧ Writes P d ops t ∧ Item db P.float d c t := by
  have hn := name_ok (base := base) S hF hp
  have hl := S.printable.names c
  obtain ⟨k, i⟩ := c
  obtain rfl : k = .constant := hc
  obtain ⟨x, hx⟩ : ∃ x, db.enumConstants[i]? = some x := by
    unfold entry entries at hp
    simp only [List.getElem?_map, Option.map_eq_some_iff] at hp
    exact ⟨_, hp.choose_spec.1⟩
  have hv := value_key (base := base) (F := F) (.constant, i) x hx
  have hlen : (dec (int ((dataOf base db F).scalar (.constant, i) .value))).length ≤ 11 := dec_length _
  unfold logConstant
  simp only [hn, Res.bind_ok]
  refine ⟨_, _, rfl, lines (by omega) (by simp; omega), ?_⟩
  have := Item.constant (float := P.float) d i x _ hx (decimal_dec _)
  rw [← hv] at this
  simpa [List.append_assoc] using this

theorem enum_writes (S : Setting env fuel db P) (hF : exportDB env fuel db = some (.ok F)) {r : Ref} (hr : r.1 = .enum) {p : DB.Prim}
    (hp : entry db r = some p) (d : Nat) (hd : Nested db d r) :
    ∃ ops t, logEnum P (dataOf base db F) r = .ok ops ∧ Writes P d ops t ∧ Item db P.float d r t := by
  have hd0 := S.printable.shallow d r hd
  obtain ⟨as, u, o1, e1, a1, l1, w1⟩ := attributes_writes (base := base) S hF (by rw [hr]; simp) hp d hd0
  have hn := name_ok (base := base) S hF hp
  have hl := S.printable.names r
  obtain ⟨k, i⟩ := r
  obtain rfl : k = .enum := hr
  obtain ⟨hm, _⟩ := scope_members S hF (s := .constants) (ck := .constant) (by simp [scopeTable]) hp
  replace hm := members_keep (keep' := fun c => True) hm (fun c _ => by simp [Export.Kept])
  replace hm := members_perm (S.printable.sort (valueKey (dataOf base db F)) _).1 hm
  obtain ⟨o2, t, e2, w2, l2⟩ := all_writes (P := P) (db := db) (f := logConstant P (dataOf base db F)) (d := d + 1) (by omega)
    (P.sort (valueKey (dataOf base db F)) ((F.get (.enum, i)).kids .constants)) (by
      intro c hc
      obtain ⟨c1, c2, _⟩ := (hm.2 c).mp hc
      obtain ⟨q, hq⟩ := member_entry c2
      exact constant_writes S hF c1 hq (d + 1) (S.printable.shallow _ _ (.inner d c _ c2 hd)))
  refine ⟨o1 ++ line P (b!"enum " ++ nameText db (.enum, i) ++ b!"\n") :: line P b!"{\n" :: (inner P o2 ++ [line P b!"};"]), _, ?_, ?_, .enum d i as u _ t a1 l1 hm (byValue S _) l2⟩
  · have e2' : logAll P (logConstant P (dataOf base db F)) (P.sort (valueKey (dataOf base db F))
      (((dataOf base db F).st.get (.enum, i)).kids .constants)) = .ok o2 := e2
    simp only [logEnum, e1, hn, e2', Res.bind_ok]
  · refine w1.app (Writes.cons (lines (t := b!"enum " ++ nameText db (.enum, i) ++ b!"\n") (by omega) (by simp; omega))
      (Writes.cons (lines (t := b!"{\n") (by omega) (by simp)) ((Writes.inner d _ _ (by omega) w2).app (lines (t := b!"};") (by omega) (by simp)) rfl)
        rfl) rfl) ?_
    simp [List.append_assoc]

/-! ### Templates -/

theorem bases_of {r : Ref} {look : UInt32 → Option Ref}
    (hsays : ∀ t q, SaysDerived db t r q ↔ look t.base.hash = some q ∧ look t.derived.hash = some r) (ts : List DB.TypeInheritance) :
    Bases db r ts (Export.basesFrom look ts r) := by
  induction ts with
  | nil => exact .nil
  | cons t ts ih =>
    have he : Export.basesFrom look (t :: ts) r = (match look t.base.hash with
        | some b => if look t.derived.hash = some r then b :: Export.basesFrom look ts r else Export.basesFrom look ts r
        | none => Export.basesFrom look ts r) := by
      unfold Export.basesFrom
      rw [List.filterMap_cons]
      cases look t.base.hash with
      | none => rfl
      | some b => by_cases h : look t.derived.hash = some r <;> simp [h]
    rw [he]
    cases h1 : look t.base.hash with
    | none =>
      refine .no t ts _ (fun q hq => ?_) ih
      have := ((hsays t q).mp hq).1
      rw [h1] at this
      cases this
    | some b =>
      simp only
      by_cases h2 : look t.derived.hash = some r
      · rw [if_pos h2]
        exact .yes t ts b _ ((hsays t b).mpr ⟨h1, h2⟩) ih
      · rw [if_neg h2]
        exact .no t ts _ (fun q hq => h2 ((hsays t q).mp hq).2) ih

theorem derives_of (S : Setting env fuel db P) (hF : exportDB env fuel db = some (.ok F)) {r : Ref} {p : DB.Prim} (hp : entry db r = some p) :
    Derives db r ((F.get r).kids .bases) := by
  have fin := Export.final_of S.ready.exportable hF
  rw [fin.bases r (Export.entry_copied hp).1]
  have hlook := Export.lookType_iff S.ready S.unique hF
  refine bases_of (fun t q => ?_) _
  constructor
  · rintro ⟨k1, k2, p1, p2, h1, h2, h3, h4⟩
    exact ⟨(hlook _ _).mpr ⟨k2, p2, h2, h4.symm⟩, (hlook _ _).mpr ⟨k1, p1, h1, h3.symm⟩⟩
  · rintro ⟨g1, g2⟩
    obtain ⟨k2, p2, h2, h4⟩ := (hlook _ _).mp g1
    obtain ⟨k1, p1, h1, h3⟩ := (hlook _ _).mp g2
    exact ⟨k1, k2, p1, p2, h1, h2, h3.symm, h4.symm⟩

theorem derives_entry {r : Ref} : ∀ {ts : List DB.TypeInheritance} {l : List Ref}, Bases db r ts l → ∀ b ∈ l, ∃ p, entry db b = some p := by
  intro ts l h
  induction h with
  | nil => intro b hb; cases hb
  | yes t ts q l h hs ih =>
    intro b hb
    rcases List.mem_cons.mp hb with rfl | hb
    · obtain ⟨_, _, _, p, _, hp, _⟩ := h
      exact ⟨p, hp⟩
    · exact ih b hb
  | no t ts l h hs ih => exact ih

theorem bases_rest (S : Setting env fuel db P) (hF : exportDB env fuel db = some (.ok F)) (d : Nat) : ∀ (l : List Ref) (i : Nat), i ≠ 0 →
    (∀ b ∈ l, ∃ p, entry db b = some p) →
    ∃ ops, logBases P (dataOf base db F) i l = .ok ops ∧ Writes P d ops (l.flatMap fun c => b!", public " ++ nameText db c) := by
  intro l
  induction l with
  | nil => intro i _ _; exact ⟨[], rfl, .nil d⟩
  | cons b bs ih =>
    intro i hi h
    obtain ⟨p, hp⟩ := h b (by simp)
    obtain ⟨ops, e, w⟩ := ih (i + 1) (by omega) fun c hc => h c (by simp [hc])
    have hl := S.printable.names b
    simp only [logBases, name_ok (base := base) S hF hp, e, Res.bind_ok, if_neg hi]
    exact ⟨_, rfl, Writes.cons (.more d _ (by simp; omega)) w (by simp)⟩

theorem bases_writes (S : Setting env fuel db P) (hF : exportDB env fuel db = some (.ok F)) {r : Ref} {p : DB.Prim} (hp : entry db r = some p)
    (d : Nat) :
    ∃ ops, logBases P (dataOf base db F) 0 ((F.get r).kids .bases) = .ok ops ∧ Writes P d ops (basesText db ((F.get r).kids .bases)) := by
  have h := derives_entry (derives_of S hF hp)
  generalize (F.get r).kids .bases = l at h
  cases l with
  | nil => exact ⟨[], rfl, .nil d⟩
  | cons b bs =>
    obtain ⟨p, hp⟩ := h b (by simp)
    obtain ⟨ops, e, w⟩ := bases_rest (base := base) S hF d bs 1 (by omega) fun c hc => h c (by simp [hc])
    have hl := S.printable.names b
    simp only [logBases, name_ok (base := base) S hF hp, e, Res.bind_ok, if_true]
    exact ⟨_, rfl, Writes.cons (.more d _ (by simp; omega)) w (by simp [basesText])⟩

theorem instance_writes (S : Setting env fuel db P) (hF : exportDB env fuel db = some (.ok F)) {r : Ref} (hr : r.1 = .instance) {p : DB.Prim}
    (hp : entry db r = some p) (d : Nat) (hd : d < 127) :
    ∃ ops t, logInstance P (dataOf base db F) r = .ok ops ∧ Writes P d ops t ∧ Item db P.float d r t := by
  obtain ⟨o, e, w⟩ := bases_writes (base := base) S hF hp d
  have hb := derives_of S hF hp
  have hn := name_ok (base := base) S hF hp
  have hl := S.printable.names r
  obtain ⟨k, i⟩ := r
  obtain rfl : k = .instance := hr
  refine ⟨line P (b!"class " ++ nameText db (.instance, i)) :: (o ++ [more P b!"\n"]), _, ?_, ?_, .instance d i _ hb⟩
  · have e' : logBases P (dataOf base db F) 0 (((dataOf base db F).st.get (.instance, i)).kids .bases) = .ok o := e
    simp only [logInstance, hn, e', Res.bind_ok]
  · refine Writes.cons (lines (t := b!"class " ++ nameText db (.instance, i)) (by omega) (by simp; omega))
      (w.app (.more d b!"\n" (by simp)) rfl) ?_
    simp [List.append_assoc]

theorem template_writes (S : Setting env fuel db P) (hF : exportDB env fuel db = some (.ok F)) {r : Ref} (hr : r.1 = .template) {p : DB.Prim}
    (hp : entry db r = some p) (d : Nat) (hd : Nested db d r) :
    ∃ ops t, logTemplate P (dataOf base db F) r = .ok ops ∧ Writes P d ops t ∧ Item db P.float d r t := by
  have hd0 := S.printable.shallow d r hd
  have hn := name_ok (base := base) S hF hp
  have hl := S.printable.names r
  obtain ⟨k, i⟩ := r
  obtain rfl : k = .template := hr
  obtain ⟨hm, ho⟩ := scope_members S hF (s := .instances) (ck := .instance) (by simp [scopeTable]) hp
  replace hm := members_keep (keep' := fun c => True) hm (fun c _ => by simp [Export.Kept])
  obtain ⟨o2, t, e2, w2, l2⟩ := all_writes (P := P) (db := db) (f := logInstance P (dataOf base db F)) (d := d + 1) (by omega)
    ((F.get (.template, i)).kids .instances) (by
      intro c hc
      obtain ⟨c1, c2, _⟩ := (hm.2 c).mp hc
      obtain ⟨q, hq⟩ := member_entry c2
      exact instance_writes S hF c1 hq (d + 1) (S.printable.shallow _ _ (.inner d c _ c2 hd)))
  refine ⟨line P (b!"template " ++ nameText db (.template, i) ++ b!"\n") :: line P b!"{\n" :: (inner P o2 ++ [line P b!"};"]), _, ?_, ?_, .template d i _ t hm ho l2⟩
  · have e2' : logAll P (logInstance P (dataOf base db F)) (((dataOf base db F).st.get (.template, i)).kids .instances) = .ok o2 := e2
    simp only [logTemplate, hn, e2', Res.bind_ok]
  · refine Writes.cons (lines (t := b!"template " ++ nameText db (.template, i) ++ b!"\n") (by omega) (by simp; omega))
      (Writes.cons (lines (t := b!"{\n") (by omega) (by simp)) ((Writes.inner d _ _ (by omega) w2).app (lines (t := b!"};") (by omega) (by simp)) rfl)
        rfl) ?_
    simp [List.append_assoc]

/-! ### Classes and namespaces -/

theorem class_writes (S : Setting env fuel db P) (hF : exportDB env fuel db = some (.ok F)) : ∀ (n d : Nat) (r : Ref), n + d = 128 → r.1 = .cls →
    (∃ p, entry db r = some p) → Nested db d r →
    ∃ ops t, logClass P (dataOf base db F) n r = .ok ops ∧ Writes P d ops t ∧ Item db P.float d r t := by
  intro n
  induction n with
  | zero => intro d r h _ _ hd; have := S.printable.shallow d r hd; omega
  | succ n ih =>
    rintro d r hnd hr ⟨p, hp⟩ hd
    have hd0 := S.printable.shallow d r hd
    obtain ⟨as, u, o1, e1, a1, l1, w1⟩ := attributes_writes (base := base) S hF (by rw [hr]; simp) hp d hd0
    have hn := name_ok (base := base) S hF hp
    have hl := S.printable.names r
    obtain ⟨ob, eb, wb⟩ := bases_writes (base := base) S hF hp d
    have hb := derives_of S hF hp
    obtain ⟨k, i⟩ := r
    obtain rfl : k = .cls := hr
    obtain ⟨m1, s1⟩ := scope_members S hF (s := .classes) (ck := .cls) (by simp [scopeTable]) hp
    replace m1 := members_keep (keep' := fun c => True) m1 (fun c _ => by simp [Export.Kept])
    obtain ⟨m2, _⟩ := scope_members S hF (s := .fields) (ck := .field) (by simp [scopeTable]) hp
    replace m2 := members_keep (keep' := fun c => ∃ q, HasType db c q) m2 (fun c _ => by simp [Export.Kept])
    replace m2 := members_perm (S.printable.sort (offsetKey (dataOf base db F)) _).1 m2
    obtain ⟨m3, s3⟩ := scope_members S hF (s := .enums) (ck := .enum) (by simp [scopeTable]) hp
    replace m3 := members_keep (keep' := fun c => True) m3 (fun c _ => by simp [Export.Kept])
    obtain ⟨m4, s4⟩ := scope_members S hF (s := .methods) (ck := .function) (by simp [scopeTable]) hp
    replace m4 := members_keep (keep' := GoodFunction db) m4 (fun c _ => by simp [Export.Kept])
    obtain ⟨m5, s5⟩ := scope_members S hF (s := .templates) (ck := .template) (by simp [scopeTable]) hp
    replace m5 := members_keep (keep' := fun c => True) m5 (fun c _ => by simp [Export.Kept])
    obtain ⟨q1, t1, g1, v1, y1⟩ := all_writes (P := P) (db := db) (f := logClass P (dataOf base db F) n) (d := d + 1) (by omega) _ (by
      intro c hc
      obtain ⟨c1, c2, _⟩ := (m1.2 c).mp hc
      exact ih (d + 1) c (by omega) c1 (member_entry c2) (.inner d c _ c2 hd))
    obtain ⟨q2, t2, g2, v2, y2⟩ := all_writes (P := P) (db := db) (f := logFieldLine P (dataOf base db F)) (d := d + 1) (by omega) _ (by
      intro c hc
      obtain ⟨c1, c2, _⟩ := (m2.2 c).mp hc
      exact field_line S hF c1 (member_entry c2).choose_spec (d + 1) (S.printable.shallow _ _ (.inner d c _ c2 hd)))
    obtain ⟨q3, t3, g3, v3, y3⟩ := all_writes (P := P) (db := db) (f := logEnum P (dataOf base db F)) (d := d + 1) (by omega) _ (by
      intro c hc
      obtain ⟨c1, c2, _⟩ := (m3.2 c).mp hc
      exact enum_writes S hF c1 (member_entry c2).choose_spec (d + 1) (.inner d c _ c2 hd))
    obtain ⟨q4, t4, g4, v4, y4⟩ := all_writes (P := P) (db := db) (f := logFunction P (dataOf base db F)) (d := d + 1) (by omega) _ (by
      intro c hc
      obtain ⟨c1, c2, _⟩ := (m4.2 c).mp hc
      exact function_writes S hF c1 (member_entry c2).choose_spec (d + 1) (S.printable.shallow _ _ (.inner d c _ c2 hd)))
    obtain ⟨q5, t5, g5, v5, y5⟩ := all_writes (P := P) (db := db) (f := logTemplate P (dataOf base db F)) (d := d + 1) (by omega) _ (by
      intro c hc
      obtain ⟨c1, c2, _⟩ := (m5.2 c).mp hc
      exact template_writes S hF c1 (member_entry c2).choose_spec (d + 1) (.inner d c _ c2 hd))
    refine ⟨o1 ++ line P (b!"class " ++ nameText db (.cls, i)) :: (ob ++ more P b!"\n" :: line P b!"{\n" ::
      (inner P (q1 ++ q2 ++ q3 ++ q4 ++ q5) ++ [line P b!"};"])), _, ?_, ?_,
      .cls d i as _ _ _ _ _ _ u t1 t2 t3 t4 t5 a1 l1 hb ⟨m1, s1⟩ y1 ⟨m2, byOffset S _⟩ y2 ⟨m3, s3⟩ y3 ⟨m4, s4⟩ y4 ⟨m5, s5⟩ y5⟩
    · have eb' : logBases P (dataOf base db F) 0 (((dataOf base db F).st.get (.cls, i)).kids .bases) = .ok ob := eb
      have g1' : logAll P (logClass P (dataOf base db F) n) (((dataOf base db F).st.get (.cls, i)).kids .classes) = .ok q1 := g1
      have g2' : logAll P (logFieldLine P (dataOf base db F)) (P.sort (offsetKey (dataOf base db F))
        (((dataOf base db F).st.get (.cls, i)).kids .fields)) = .ok q2 := g2
      have g3' : logAll P (logEnum P (dataOf base db F)) (((dataOf base db F).st.get (.cls, i)).kids .enums) = .ok q3 := g3
      have g4' : logAll P (logFunction P (dataOf base db F)) (((dataOf base db F).st.get (.cls, i)).kids .methods) = .ok q4 := g4
      have g5' : logAll P (logTemplate P (dataOf base db F)) (((dataOf base db F).st.get (.cls, i)).kids .templates) = .ok q5 := g5
      simp only [logClass, e1, hn, eb', g1', g2', g3', g4', g5', Res.bind_ok]
    · have wi := Writes.inner (P := P) d _ _ (by omega) ((((v1.app v2 rfl).app v3 rfl).app v4 rfl).app v5 rfl)
      refine w1.app (Writes.cons (lines (t := b!"class " ++ nameText db (.cls, i)) (by omega) (by simp; omega))
        (wb.app (Writes.cons (.more d b!"\n" (by simp)) (Writes.cons (lines (t := b!"{\n") (by omega) (by simp))
          (wi.app (lines (t := b!"};") (by omega) (by simp)) rfl) rfl) rfl) rfl) rfl) ?_
      simp [List.append_assoc]

theorem space_writes (S : Setting env fuel db P) (hF : exportDB env fuel db = some (.ok F)) : ∀ (n d : Nat) (r : Ref), n + d = 128 → r.1 = .space →
    (∃ p, entry db r = some p) → Nested db d r →
    ∃ ops t, logSpace P (dataOf base db F) n r = .ok ops ∧ Writes P d ops t ∧ Item db P.float d r t := by
  intro n
  induction n with
  | zero => intro d r h _ _ hd; have := S.printable.shallow d r hd; omega
  | succ n ih =>
    rintro d r hnd hr ⟨p, hp⟩ hd
    have hd0 := S.printable.shallow d r hd
    have hn := name_ok (base := base) S hF hp
    have hl := S.printable.names r
    obtain ⟨k, i⟩ := r
    obtain rfl : k = .space := hr
    obtain ⟨m1, s1⟩ := scope_members S hF (s := .namespaces) (ck := .space) (by simp [scopeTable]) hp
    replace m1 := members_keep (keep' := fun c => True) m1 (fun c _ => by simp [Export.Kept])
    obtain ⟨m2, s2⟩ := scope_members S hF (s := .classes) (ck := .cls) (by simp [scopeTable]) hp
    replace m2 := members_keep (keep' := fun c => True) m2 (fun c _ => by simp [Export.Kept])
    obtain ⟨m3, s3⟩ := scope_members S hF (s := .enums) (ck := .enum) (by simp [scopeTable]) hp
    replace m3 := members_keep (keep' := fun c => True) m3 (fun c _ => by simp [Export.Kept])
    obtain ⟨m4, s4⟩ := scope_members S hF (s := .functions) (ck := .function) (by simp [scopeTable]) hp
    replace m4 := members_keep (keep' := GoodFunction db) m4 (fun c _ => by simp [Export.Kept])
    obtain ⟨m5, s5⟩ := scope_members S hF (s := .templates) (ck := .template) (by simp [scopeTable]) hp
    replace m5 := members_keep (keep' := fun c => True) m5 (fun c _ => by simp [Export.Kept])
    obtain ⟨q1, t1, g1, v1, y1⟩ := all_writes (P := P) (db := db) (f := logSpace P (dataOf base db F) n) (d := d + 1) (by omega) _ (by
      intro c hc
      obtain ⟨c1, c2, _⟩ := (m1.2 c).mp hc
      exact ih (d + 1) c (by omega) c1 (member_entry c2) (.inner d c _ c2 hd))
    obtain ⟨q2, t2, g2, v2, y2⟩ := all_writes (P := P) (db := db) (f := logClass P (dataOf base db F) n) (d := d + 1) (by omega) _ (by
      intro c hc
      obtain ⟨c1, c2, _⟩ := (m2.2 c).mp hc
      exact class_writes S hF n (d + 1) c (by omega) c1 (member_entry c2) (.inner d c _ c2 hd))
    obtain ⟨q3, t3, g3, v3, y3⟩ := all_writes (P := P) (db := db) (f := logEnum P (dataOf base db F)) (d := d + 1) (by omega) _ (by
      intro c hc
      obtain ⟨c1, c2, _⟩ := (m3.2 c).mp hc
      exact enum_writes S hF c1 (member_entry c2).choose_spec (d + 1) (.inner d c _ c2 hd))
    obtain ⟨q4, t4, g4, v4, y4⟩ := all_writes (P := P) (db := db) (f := logFunction P (dataOf base db F)) (d := d + 1) (by omega) _ (by
      intro c hc
      obtain ⟨c1, c2, _⟩ := (m4.2 c).mp hc
      exact function_writes S hF c1 (member_entry c2).choose_spec (d + 1) (S.printable.shallow _ _ (.inner d c _ c2 hd)))
    obtain ⟨q5, t5, g5, v5, y5⟩ := all_writes (P := P) (db := db) (f := logTemplate P (dataOf base db F)) (d := d + 1) (by omega) _ (by
      intro c hc
      obtain ⟨c1, c2, _⟩ := (m5.2 c).mp hc
      exact template_writes S hF c1 (member_entry c2).choose_spec (d + 1) (.inner d c _ c2 hd))
    refine ⟨line P (b!"namespace " ++ nameText db (.space, i) ++ b!"\n") :: line P b!"{\n" ::
      (inner P (q1 ++ q2 ++ q3 ++ q4 ++ q5) ++ [line P b!"}"]), _, ?_, ?_,
      .space d i _ _ _ _ _ t1 t2 t3 t4 t5 ⟨m1, s1⟩ y1 ⟨m2, s2⟩ y2 ⟨m3, s3⟩ y3 ⟨m4, s4⟩ y4 ⟨m5, s5⟩ y5⟩
    · have g1' : logAll P (logSpace P (dataOf base db F) n) (((dataOf base db F).st.get (.space, i)).kids .namespaces) = .ok q1 := g1
      have g2' : logAll P (logClass P (dataOf base db F) n) (((dataOf base db F).st.get (.space, i)).kids .classes) = .ok q2 := g2
      have g3' : logAll P (logEnum P (dataOf base db F)) (((dataOf base db F).st.get (.space, i)).kids .enums) = .ok q3 := g3
      have g4' : logAll P (logFunction P (dataOf base db F)) (((dataOf base db F).st.get (.space, i)).kids .functions) = .ok q4 := g4
      have g5' : logAll P (logTemplate P (dataOf base db F)) (((dataOf base db F).st.get (.space, i)).kids .templates) = .ok q5 := g5
      simp only [logSpace, hn, g1', g2', g3', g4', g5', Res.bind_ok]
    · have wi := Writes.inner (P := P) d _ _ (by omega) ((((v1.app v2 rfl).app v3 rfl).app v4 rfl).app v5 rfl)
      refine Writes.cons (lines (t := b!"namespace " ++ nameText db (.space, i) ++ b!"\n") (by omega) (by simp; omega))
        (Writes.cons (lines (t := b!"{\n") (by omega) (by simp)) (wi.app (lines (t := b!"}") (by omega) (by simp)) rfl) rfl) ?_
      simp [List.append_assoc]

theorem outermost_of (S : Setting env fuel db P) (hF : exportDB env fuel db = some (.ok F)) {s : Slot} {k : K}
    (hs : (s, k) ∈ [(Slot.namespaces, K.space), (.types, .type), (.enums, .enum), (.classes, .cls), (.functions, .function), (.templates, .template)]) :
    Outermost db k (F.globals s) := by
  refine ⟨?_, (Export.C18_global_namespace env fuel db S.ready S.nonzero F hF s k hs).1⟩
  rw [(Export.final_of S.ready.exportable hF).globals s k hs]
  refine List.Pairwise.filter _ ?_
  unfold Export.St.all
  rw [List.pairwise_map]
  exact List.pairwise_lt_range

theorem globals_write (S : Setting env fuel db P) (hF : exportDB env fuel db = some (.ok F)) :
    ∃ ops t, logGlobals P (dataOf base db F) = .ok ops ∧ Writes P 0 ops t ∧ Whole db P.float t := by
  have m1 := outermost_of S hF (s := .namespaces) (k := .space) (by simp)
  have m2 := outermost_of S hF (s := .classes) (k := .cls) (by simp)
  have m3 := outermost_of S hF (s := .enums) (k := .enum) (by simp)
  have m4 := outermost_of S hF (s := .functions) (k := .function) (by simp)
  have m5 := outermost_of S hF (s := .templates) (k := .template) (by simp)
  obtain ⟨q1, t1, g1, v1, y1⟩ := all_writes (P := P) (db := db) (f := logSpace P (dataOf base db F) 128) (d := 0) (by omega) _ (by
    intro c hc
    obtain ⟨c1, p, c2, c3⟩ := (m1.2 c).mp hc
    exact space_writes S hF 128 0 c (by omega) c1 ⟨p, c2⟩ (.outer c p c2 c3))
  obtain ⟨q2, t2, g2, v2, y2⟩ := all_writes (P := P) (db := db) (f := logClass P (dataOf base db F) 128) (d := 0) (by omega) _ (by
    intro c hc
    obtain ⟨c1, p, c2, c3⟩ := (m2.2 c).mp hc
    exact class_writes S hF 128 0 c (by omega) c1 ⟨p, c2⟩ (.outer c p c2 c3))
  obtain ⟨q3, t3, g3, v3, y3⟩ := all_writes (P := P) (db := db) (f := logEnum P (dataOf base db F)) (d := 0) (by omega) _ (by
    intro c hc
    obtain ⟨c1, p, c2, c3⟩ := (m3.2 c).mp hc
    exact enum_writes S hF c1 c2 0 (.outer c p c2 c3))
  obtain ⟨q4, t4, g4, v4, y4⟩ := all_writes (P := P) (db := db) (f := logFunction P (dataOf base db F)) (d := 0) (by omega) _ (by
    intro c hc
    obtain ⟨c1, p, c2, c3⟩ := (m4.2 c).mp hc
    exact function_writes S hF c1 c2 0 (by omega))
  obtain ⟨q5, t5, g5, v5, y5⟩ := all_writes (P := P) (db := db) (f := logTemplate P (dataOf base db F)) (d := 0) (by omega) _ (by
    intro c hc
    obtain ⟨c1, p, c2, c3⟩ := (m5.2 c).mp hc
    exact template_writes S hF c1 c2 0 (.outer c p c2 c3))
  refine ⟨q1 ++ q2 ++ q3 ++ q4 ++ q5, t1 ++ t2 ++ t3 ++ t4 ++ t5, ?_, (((v1.app v2 rfl).app v3 rfl).app v4 rfl).app v5 rfl,
    _, _, _, _, _, t1, t2, t3, t4, t5, ⟨m1, y1⟩, ⟨m2, y2⟩, ⟨m3, y3⟩, ⟨m4, y4⟩, ⟨m5, y5⟩, rfl⟩
  have g1' : logAll P (logSpace P (dataOf base db F) 128) ((dataOf base db F).st.globals .namespaces) = .ok q1 := g1
  have g2' : logAll P (logClass P (dataOf base db F) 128) ((dataOf base db F).st.globals .classes) = .ok q2 := g2
  have g3' : logAll P (logEnum P (dataOf base db F)) ((dataOf base db F).st.globals .enums) = .ok q3 := g3
  have g4' : logAll P (logFunction P (dataOf base db F)) ((dataOf base db F).st.globals .functions) = .ok q4 := g4
  have g5' : logAll P (logTemplate P (dataOf base db F)) ((dataOf base db F).st.globals .templates) = .ok q5 := g5
  simp only [logGlobals, g1', g2', g3', g4', g5', Res.bind_ok]

end

/-! ### The property -/

/-- **C92** (partial): the text log of an export is the listing of the database: it ends, the file holds what has no parent,
each with everything that is in it, and nothing else; the standard output and other files stay as they are.

Missing from the full property: databases with names or texts of more than 240 bytes or nested more than 126 deep, which the
log cuts or writes behind its buffer for (C77). -/
theorem C92_text_log_partial (env : Export.Env) (fuel : Nat) (db : DB.Database) (P : Printer) (S : Setting env fuel db P) (F : St)
    (hF : exportDB env fuel db = some (.ok F)) (base : Nat) (can : Bytes → Bool) (file : Bytes) (hcan : can file = true) (s : State)
    (h0 : (s.sets P.name.addr).indent = 0) :
    ∃ s' t, writeText can P (dataOf base db F) file s = .ok s' ∧ s'.world.files file = some t ∧ Whole db P.float t ∧
      (s'.sets P.name.addr).indent = 0 ∧ s'.world.stdout = s.world.stdout ∧ ∀ g, g ≠ file → s'.world.files g = s.world.files g := by
  obtain ⟨ops, t, e, w, h⟩ := globals_write (base := base) S hF
  obtain ⟨fp, a, k⟩ := set_atEnd (P := P) hcan h0
  obtain ⟨s', r, a', k'⟩ := run_writes (can := can) w a
  refine ⟨s', t, ?_, by simpa using a'.file, h, by simpa using a'.indent, (k.trans k').1, (k.trans k').2⟩
  unfold writeText
  rw [e, Res.bind, run, step]
  exact r

/-- **C92**: a file that can not be opened stays as it is, like everything else. -/
theorem C92_unwritable (env : Export.Env) (fuel : Nat) (db : DB.Database) (P : Printer) (S : Setting env fuel db P) (F : St)
    (hF : exportDB env fuel db = some (.ok F)) (base : Nat) (can : Bytes → Bool) (file : Bytes) (hcan : can file = false) (s : State)
    (h0 : (s.sets P.name.addr).indent = 0) :
    ∃ s', writeText can P (dataOf base db F) file s = .ok s' ∧ s'.world = s.world := by
  obtain ⟨ops, t, e, w, h⟩ := globals_write (base := base) S hF
  obtain ⟨s', r, k⟩ := run_nowhere (can := can) w (set_nowhere (P := P) hcan h0).1
  refine ⟨s', ?_, k.trans (set_nowhere (P := P) hcan h0).2⟩
  unfold writeText
  rw [e, Res.bind, run, step]
  exact r

/-! ### Everything is found in it -/

/-- `r`, `d` deep, is something the log is about: native types, parameters, fields of unknown types and members with parameters of
unknown types are not. -/
inductive Listed (db : DB.Database) : Nat → Ref → Prop
  | outer (r : Ref) (p : DB.Prim) (hp : entry db r = some p) (h0 : p.parent.hash = 0)
      (hk : r.1 = .space ∨ r.1 = .cls ∨ r.1 = .enum ∨ r.1 = .function ∨ r.1 = .template) : Listed db 0 r
  | inner (d : Nat) (c r : Ref) (h : Records db c r) (hr : Listed db d r) (hp : r.1 ≠ .function) (ht : c.1 ≠ .type)
      (hf : c.1 = .field → ∃ q, HasType db c q) (hg : c.1 = .function → GoodFunction db c) : Listed db (d + 1) c

theorem listing_item {float : Nat → Bytes} {d : Nat} {c : Ref} : ∀ {l : List Ref} {t : Bytes}, Listing db float d l t → c ∈ l →
    ∃ u, Item db float d c u ∧ u <:+: t := by
  intro l
  induction l with
  | nil => intro t _ hc; cases hc
  | cons r rs ih =>
    intro t h hc
    cases h with
    | cons _ _ _ t u h hs =>
      rcases List.mem_cons.mp hc with rfl | hc
      · exact ⟨t, h, [], tabs d ++ b!"\n" ++ u, by simp [List.append_assoc]⟩
      · obtain ⟨v, hv, a, b, e⟩ := ih hs hc
        exact ⟨v, hv, t ++ (tabs d ++ b!"\n") ++ a, b, by simp only [← e, List.append_assoc]⟩

theorem infix_in {a b c : Bytes} (h : a <:+: b) (x y : Bytes) (e : c = x ++ b ++ y) : a <:+: c := by
  obtain ⟨p, q, rfl⟩ := h
  exact ⟨x ++ p, q ++ y, by simp only [e, List.append_assoc]⟩

/-- **C92**: a listing of a database has the lines of every namespace, class, enum, constant, function, member and template in it
that is not left out because of an unknown type. -/
theorem C92_everything_listed (db : DB.Database) (float : Nat → Bytes) (t : Bytes) (ht : Whole db float t) (d : Nat) (r : Ref)
    (hr : Listed db d r) : ∃ u, Item db float d r u ∧ u <:+: t := by
  induction hr with
  | outer r p hp h0 hk =>
    obtain ⟨ns, cs, es, fs, ts, t1, t2, t3, t4, t5, ⟨m1, l1⟩, ⟨m2, l2⟩, ⟨m3, l3⟩, ⟨m4, l4⟩, ⟨m5, l5⟩, rfl⟩ := ht
    rcases hk with hk | hk | hk | hk | hk
    · obtain ⟨u, h, e⟩ := listing_item l1 ((m1.2 r).mpr ⟨hk, p, hp, h0⟩)
      exact ⟨u, h, infix_in e [] (t2 ++ t3 ++ t4 ++ t5) (by simp)⟩
    · obtain ⟨u, h, e⟩ := listing_item l2 ((m2.2 r).mpr ⟨hk, p, hp, h0⟩)
      exact ⟨u, h, infix_in e t1 (t3 ++ t4 ++ t5) (by simp)⟩
    · obtain ⟨u, h, e⟩ := listing_item l3 ((m3.2 r).mpr ⟨hk, p, hp, h0⟩)
      exact ⟨u, h, infix_in e (t1 ++ t2) (t4 ++ t5) (by simp)⟩
    · obtain ⟨u, h, e⟩ := listing_item l4 ((m4.2 r).mpr ⟨hk, p, hp, h0⟩)
      exact ⟨u, h, infix_in e (t1 ++ t2 ++ t3) t5 (by simp)⟩
    · obtain ⟨u, h, e⟩ := listing_item l5 ((m5.2 r).mpr ⟨hk, p, hp, h0⟩)
      exact ⟨u, h, infix_in e (t1 ++ t2 ++ t3 ++ t4) [] (by simp)⟩
  | inner d c r h hr hp ht' hf hg ih =>
    obtain ⟨v, hv, hin⟩ := ih
    obtain ⟨s, hs⟩ := h.1
    suffices ∃ u, Item db float (d + 1) c u ∧ u <:+: v from by
      obtain ⟨u, a, b⟩ := this
      exact ⟨u, a, b.trans hin⟩
    have pick : ∀ {k : K} {keep : Ref → Prop} {l : List Ref} {w x y : Bytes}, c.1 = k → Members db r k keep l → keep c → Listing db float (d + 1) l w →
        v = x ++ w ++ y → ∃ u, Item db float (d + 1) c u ∧ u <:+: v := by
      intro k0 keep l w x y hk m k lw e
      obtain ⟨u, a, b⟩ := listing_item lw ((m.2 c).mpr ⟨hk, h, k⟩)
      exact ⟨u, a, infix_in b x y e⟩
    cases hv with
    | «attribute» _ _ t ht => cases ht <;> simp [scopeTable] at hs
    | field => simp [scopeTable] at hs
    | constant => simp [scopeTable] at hs
    | «instance» => simp [scopeTable] at hs
    | function => exact absurd rfl hp
    | enum _ i as u cs t ha hu hc ho ht =>
      have hk : c.1 = .constant := by simp [scopeTable] at hs; exact hs.2
      exact pick (x := heading d (nameText db (.enum, i)) as u ++ tabs d ++ b!"enum " ++ nameText db (.enum, i) ++ b!"\n" ++
        tabs d ++ b!"{\n") (y := tabs d ++ b!"};") hk hc trivial ht (by simp only [List.append_assoc])
    | template _ i is t hi ho ht =>
      have hk : c.1 = .instance := by simp [scopeTable] at hs; exact hs.2
      exact pick (x := tabs d ++ b!"template " ++ nameText db (.template, i) ++ b!"\n" ++
        tabs d ++ b!"{\n") (y := tabs d ++ b!"};") hk hi trivial ht (by simp only [List.append_assoc])
    | cls _ i as bs cs fs es ms ts u t1 t2 t3 t4 t5 ha hu hb h1 k1 h2 k2 h3 k3 h4 k4 h5 k5 =>
      let x := heading d (nameText db (.cls, i)) as u ++ tabs d ++ b!"class " ++ nameText db (.cls, i) ++ basesText db bs ++
        b!"\n" ++ tabs d ++ b!"{\n"
      let y := tabs d ++ b!"};"
      have hk : c.1 = .enum ∨ c.1 = .cls ∨ c.1 = .function ∨ c.1 = .field ∨ c.1 = .template := by
        simp [scopeTable] at hs; rcases hs with hs | hs | hs | hs | hs <;> simp [hs.2]
      rcases hk with hk | hk | hk | hk | hk
      · exact pick (x := x ++ t1 ++ t2) (y := t4 ++ t5 ++ y) hk h3.1 trivial k3 (by simp only [x, y, List.append_assoc])
      · exact pick (x := x) (y := t2 ++ t3 ++ t4 ++ t5 ++ y) hk h1.1 trivial k1 (by simp only [x, y, List.append_assoc])
      · exact pick (x := x ++ t1 ++ t2 ++ t3) (y := t5 ++ y) hk h4.1 (hg hk) k4 (by simp only [x, y, List.append_assoc])
      · exact pick (x := x ++ t1) (y := t3 ++ t4 ++ t5 ++ y) hk h2.1 (hf hk) k2 (by simp only [x, y, List.append_assoc])
      · exact pick (x := x ++ t1 ++ t2 ++ t3 ++ t4) (y := y) hk h5.1 trivial k5 (by simp only [x, y, List.append_assoc])
    | space _ i ns cs es fs ts t1 t2 t3 t4 t5 h1 k1 h2 k2 h3 k3 h4 k4 h5 k5 =>
      let x := tabs d ++ b!"namespace " ++ nameText db (.space, i) ++ b!"\n" ++ tabs d ++ b!"{\n"
      let y := tabs d ++ b!"}"
      have hk : c.1 = .enum ∨ c.1 = .cls ∨ c.1 = .function ∨ c.1 = .space ∨ c.1 = .template := by
        simp [scopeTable, ht'] at hs; rcases hs with hs | hs | hs | hs | hs <;> simp [hs.2]
      rcases hk with hk | hk | hk | hk | hk
      · exact pick (x := x ++ t1 ++ t2) (y := t4 ++ t5 ++ y) hk h3.1 trivial k3 (by simp only [x, y, List.append_assoc])
      · exact pick (x := x ++ t1) (y := t3 ++ t4 ++ t5 ++ y) hk h2.1 trivial k2 (by simp only [x, y, List.append_assoc])
      · exact pick (x := x ++ t1 ++ t2 ++ t3) (y := t5 ++ y) hk h4.1 (hg hk) k4 (by simp only [x, y, List.append_assoc])
      · exact pick (x := x) (y := t2 ++ t3 ++ t4 ++ t5 ++ y) hk h1.1 trivial k1 (by simp only [x, y, List.append_assoc])
      · exact pick (x := x ++ t1 ++ t2 ++ t3 ++ t4) (y := y) hk h5.1 trivial k5 (by simp only [x, y, List.append_assoc])

/-! ### It is not empty -/

def samplePrinter : Printer where
  name := ⟨4096, b!"CppExportLog"⟩
  float := fun _ => b!"1.500"
  sort := fun key l => l.mergeSort fun a b => decide (key a ≤ key b)

/-- How deep something of each kind is, at most, where namespaces and classes are not nested. -/
def levelOf : K → Nat
  | .space => 0
  | .cls | .enum | .template => 1
  | .function => 2
  | _ => 3

theorem shallow_of {db : DB.Database} (h : ((refs db).all fun c => (refs db).all fun r => !recB db c r || decide (levelOf r.1 < levelOf c.1)) = true) :
    ∀ d r, Nested db d r → d ≤ levelOf r.1 := by
  intro d r hd
  induction hd with
  | outer r p hp h0 => omega
  | inner d c r hcr hr ih =>
    obtain ⟨p, q, hp, hq, _⟩ := hcr.2.1
    have := List.all_eq_true.mp (List.all_eq_true.mp h c (entry_refs hp)) r (entry_refs hq)
    rw [recB_of hcr] at this
    have : levelOf r.1 < levelOf c.1 := by simpa using this
    omega

theorem names_of {db : DB.Database} (h : (db.names.all fun n => decide (n.text.length ≤ 240)) = true) : ∀ r, (nameText db r).length ≤ 240 := by
  intro r
  unfold nameText
  split
  · cases hf : db.names.find? _ with
    | none => simp
    | some n =>
      have := List.all_eq_true.mp h n (List.mem_of_find?_eq_some hf)
      simpa using this
  · simp

theorem unique_of {db : DB.Database} (h : ((refs db).all fun a => (refs db).all fun b => !(typeKinds.contains a.1 && typeKinds.contains b.1 &&
    (match entry db a, entry db b with
     | some p, some q => p.name.hash == q.name.hash
     | _, _ => false)) || decide (a = b)) = true) : UniqueTypes db := by
  intro t t' p p' ht ht' hp hp' e
  have := List.all_eq_true.mp (List.all_eq_true.mp h t (entry_refs hp)) t' (entry_refs hp')
  rw [hp, hp'] at this
  simpa [ht, ht', e] using this

theorem nonzero_of {db : DB.Database} (h : ((refs db).all fun r => match entry db r with
    | some p => p.name.hash != 0
    | none => true) = true) : ∀ r p, entry db r = some p → p.name.hash ≠ 0 := by
  intro r p hp
  have := List.all_eq_true.mp h r (entry_refs hp)
  rw [hp] at this
  simpa using this

theorem sorts (key : Ref → Int) (l : List Ref) :
    (l.mergeSort fun a b => decide (key a ≤ key b)).Perm l ∧ (l.mergeSort fun a b => decide (key a ≤ key b)).Pairwise fun a b => key a ≤ key b := by
  refine ⟨List.mergeSort_perm _ _, ?_⟩
  have := List.pairwise_mergeSort (le := fun a b : Ref => decide (key a ≤ key b)) (by
    intro a b c h1 h2
    simp only [decide_eq_true_eq] at *
    omega) (by
    intro a b
    simp only [Bool.or_eq_true, decide_eq_true_eq]
    omega) l
  simpa using this

theorem rich_setting : Setting (Image.sampleHost.env Image.richDb) 2 Image.richDb samplePrinter where
  ready := Image.Fits.ready Image.sampleHost_good Image.rich_fits
  unique := unique_of (by decide +kernel)
  targets := Image.rich_fits.targets
  nonzero := nonzero_of (by decide +kernel)
  printable := {
    shallow := fun d r h => by
      have := shallow_of (by decide +kernel) d r h
      have : levelOf r.1 ≤ 3 := by cases r.1 <;> decide
      omega
    names := names_of (by decide +kernel)
    texts := by decide +kernel
    floats := fun _ => by show List.length b!"1.500" ≤ 240; decide
    sort := sorts }

example : ∃ F s' t, exportDB (Image.sampleHost.env Image.richDb) 2 Image.richDb = some (.ok F) ∧
    writeText (fun _ => true) samplePrinter (dataOf 0 Image.richDb F) b!"out.txt" (start ⟨[], fun _ => none, []⟩) = .ok s' ∧
    s'.world.files b!"out.txt" = some t ∧ Whole Image.richDb (fun _ => b!"1.500") t := by
  obtain ⟨F, hF⟩ := Export.C17_export_succeeds _ _ _ rich_setting.ready
  obtain ⟨s', t, h1, h2, h3, _⟩ := C92_text_log_partial _ _ _ _ rich_setting F hF 0 (fun _ => true) b!"out.txt" rfl (start ⟨[], fun _ => none, []⟩) rfl
  exact ⟨F, s', t, hF, h1, h2, h3⟩

/-- `g::D::x` is one of the things listed, two deep. -/
example : Listed Image.richDb 2 (.field, 0) := by
  refine .inner 1 (.field, 0) (.cls, 0) (Export.recB_records (by decide +kernel))
    (.inner 0 (.cls, 0) (.space, 0) (Export.recB_records (by decide +kernel)) (.outer (.space, 0) ⟨Export.nm b!"g", {}⟩ rfl rfl (.inl rfl))
      (by decide) (by decide) (fun h => by cases h) (fun h => by cases h)) (by decide) (by decide) (fun _ => ?_) (fun h => by cases h)
  exact ⟨(.type, 0), by decide, _, _, rfl, rfl, rfl⟩

end Clr.ExportLog
