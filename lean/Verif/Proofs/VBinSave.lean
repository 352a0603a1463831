import Verif.Model.VBinSpec
import Verif.Proofs.JSONMem

/-! What saving writes. -/
namespace Clr.VBin
open Clr.JSON (Ty Flds Tys Mem FldInfo Const Env strideOf Apart elemAt arrayItems savedField)

/-- The items of a container. -/
def encItems (key : Option (Nat → Bytes)) (value : Nat → Bytes) (sized : Bool) : List (Nat × Nat) → Bytes
  | [] => []
  | (k, v) :: r =>
    (match key with
      | some f => f k
      | none => []) ++ ((if sized then le 4 (value v).length else []) ++ value v) ++ encItems key value sized r

/-- A chunk. -/
def encChunk (typeHash nameHash : BitVec 32) (d : Bytes) : Bytes :=
  le 4 typeHash.toNat ++ le 4 nameHash.toNat ++ le 4 d.length ++ d

/-- A field's value or its array. -/
def encCell (enc : Nat → Bytes) (count : Option Nat) (t : Ty) (a : Nat) : Bytes :=
  match count with
  | some n => containerHeader n none t false ++ encItems none enc (valueTypeSize t false == 0) (arrayItems a n t.size)
  | none => enc a

mutual
/-- The bytes of an object. -/
def enc (e : Env) (m : Mem) : Ty → Nat → Bytes
  | .prim _ s, a => m.read a s
  | .enum _ _ cs _, a => le 4 (enumHash cs (enumAt m a)).toNat
  | .cls _ _ fl fs bs, a => if e.skips fl then [] else encFields e m fs a ++ encBases e m bs a
  | .tmpl _ _ _, _ => []
  | .vec _ _ t _, a =>
    containerHeader (m.elems a).length none t false ++ encItems none (enc e m t) (valueTypeSize t false == 0) (m.elems a)
  | .dict _ _ k t _, a =>
    containerHeader (m.elems a).length (some k) t false ++
      encItems (some (enc e m k)) (enc e m t) (valueTypeSize t false == 0) (m.elems a)

/-- Of its fields. -/
def encFields (e : Env) (m : Mem) : Flds → Nat → Bytes
  | .nil, _ => []
  | .cons f t r, a =>
    (if savedField e f then encChunk t.hash (Hash.hashText f.name) (encCell (enc e m t) f.count t (a + f.offset)) else []) ++
      encFields e m r a

/-- Of its bases. -/
def encBases (e : Env) (m : Mem) : Tys → Nat → Bytes
  | .nil, _ => []
  | .cons t r, a => enc e m t a ++ encBases e m r a
end

/-- A saved field. -/
def encField (e : Env) (m : Mem) (a : Nat) (x : FldInfo × Ty) : Bytes :=
  encChunk x.2.hash (nameHash x) (encCell (enc e m x.2) x.1.count x.2 (a + x.1.offset))

theorem withSize_ok {body : Bytes → Res Bytes} {out d : Bytes} (h : body (out ++ le 4 0) = .ok (out ++ le 4 0 ++ d)) :
    withSize true body out = .ok (out ++ (le 4 d.length ++ d)) := by
  have h1 : (out ++ le 4 0).length = out.length + 4 := by simp [length_le]
  simp only [withSize, if_true, h, Res.bind_ok]
  congr 1
  rw [patch]
  have h2 : (out ++ le 4 0 ++ d).drop (out.length + 4) = d := by rw [← h1]; simp
  have h3 : (out ++ le 4 0 ++ d).take out.length = out := by simp [List.append_assoc]
  have h4 : (out ++ le 4 0 ++ d).length - (out.length + 4) = d.length := by
    rw [List.length_append, h1]; omega
  rw [h2, h3, h4, List.append_assoc]

theorem withSize_ok' {body : Bytes → Res Bytes} {out d : Bytes} (sized : Bool) (h : ∀ out, body out = .ok (out ++ d)) :
    withSize sized body out = .ok (out ++ ((if sized then le 4 d.length else []) ++ d)) := by
  cases sized
  · simp [withSize, h]
  · rw [withSize_ok (h _)]; rfl

theorem saveItems_ok {key : Option Save} {keyE : Option (Nat → Bytes)} {value : Save} {valueE : Nat → Bytes} (sized : Bool)
    (hk : ∀ k, key = some k → ∃ f, keyE = some f ∧ ∀ a out, k a out = .ok (out ++ f a)) (hkn : key = none → keyE = none)
    (hv : ∀ a out, value a out = .ok (out ++ valueE a)) (l : List (Nat × Nat)) (out : Bytes) :
    saveItems key value sized false l out = .ok (out ++ encItems keyE valueE sized l) := by
  induction l generalizing out with
  | nil => simp [saveItems, encItems]
  | cons x l ih =>
    obtain ⟨k, v⟩ := x
    cases key with
    | none =>
      rw [hkn rfl] at ih ⊢
      simp only [saveItems, encItems, Res.bind_ok, Bool.false_eq_true, if_false]
      rw [withSize_ok' sized (fun out => hv v out)]
      simp [ih]
    | some f =>
      obtain ⟨g, hg, hf⟩ := hk f rfl
      subst hg
      simp only [saveItems, encItems, Bool.false_eq_true, if_false, hf, Res.bind_ok]
      rw [withSize_ok' sized (fun out => hv v out)]
      simp [ih]

theorem chunk_ok {body : Bytes → Res Bytes} {d : Bytes} (t n : BitVec 32) (out : Bytes) (h : ∀ out, body out = .ok (out ++ d)) :
    chunk t n body out = .ok (out ++ encChunk t n d) := by
  rw [chunk, withSize_ok (h _), encChunk]
  simp

/-- Saving such a type appends its bytes. -/
def Saves (e : Env) (m : Mem) (t : Ty) : Prop := ∀ a out, saveObject e m t a out = .ok (out ++ enc e m t a)

/-- What is known of the fields that are not transient. -/
def FieldOk (e : Env) (m : Mem) (x : FldInfo × Ty) : Prop :=
  e.skips x.1.flags = false → x.1.isPtr = false ∧ (x.1.count ≠ none → 0 < x.2.size) ∧ Saves e m x.2

theorem saveFields_ok {e : Env} {m : Mem} (fs : Flds) (h : ∀ x ∈ fs.list, FieldOk e m x) (a : Nat) (out : Bytes) :
    saveFields e m fs a out = .ok (out ++ encFields e m fs a) := by
  match fs with
  | .nil => simp [saveFields, encFields]
  | .cons f t r =>
    have ih := fun out => saveFields_ok r (fun x hx => h x (by simp [Flds.list, hx])) a out
    have hx := h (f, t) (by simp [Flds.list])
    rw [saveFields, encFields]
    cases hsk : e.skips f.flags
    · obtain ⟨hp, hc, hs⟩ := hx hsk
      simp only at hp hc hs
      have hsv : savedField e f = true := by simp [savedField, hsk, hp]
      simp only [hsv, if_true, Bool.false_eq_true, if_false]
      rw [chunk_ok (d := encCell (enc e m t) f.count t (a + f.offset))]
      · simp only [Res.bind_ok, ih, List.append_assoc]
      · intro out
        cases hcnt : f.count with
        | none => simp only [encCell]; exact hs _ _
        | some n =>
          have hst : strideOf t false = t.size := by simp [strideOf]
          have h0 : 0 < t.size := hc (by simp [hcnt])
          simp only [encCell, hp, hst]
          rw [if_neg (by omega), saveItems_ok (keyE := none) (valueE := enc e m t) _ (by simp) (by simp) hs]
          simp
    · have hsv : savedField e f = false := by simp [savedField, hsk]
      simp [hsv, ih]

mutual
theorem saveBases_ok {e : Env} {m : Mem} (bs : Tys) (hb : ClassBasesOf bs) (h : ∀ x ∈ bs.allFields, FieldOk e m x) (a : Nat)
    (out : Bytes) : saveBases e m bs a out = .ok (out ++ encBases e m bs a) := by
  match bs with
  | .nil => simp [saveBases, encBases]
  | .cons t r =>
    rw [ClassBasesOf] at hb
    rw [saveBases, encBases]
    have h1 := saveClass_ok t hb.1 (fun x hx => h x (by simp [Tys.allFields, hx])) a out
    rw [if_pos h1.1, h1.2]
    simp [saveBases_ok r hb.2 (fun x hx => h x (by simp [Tys.allFields, hx]))]

theorem saveClass_ok {e : Env} {m : Mem} (t : Ty) (hb : ClassBases t) (h : ∀ x ∈ t.allFields, FieldOk e m x) (a : Nat)
    (out : Bytes) : isClass t = true ∧ saveObject e m t a out = .ok (out ++ enc e m t a) := by
  match t with
  | .cls hh s fl fs bs =>
    rw [ClassBases] at hb
    refine ⟨rfl, ?_⟩
    rw [saveObject, enc]
    split
    · simp
    · rw [saveFields_ok fs (fun x hx => h x (by simp [Ty.allFields, hx]))]
      simp [saveBases_ok bs hb (fun x hx => h x (by simp [Ty.allFields, hx]))]
  | .prim _ _ => simp [ClassBases] at hb
  | .enum _ _ _ _ => simp [ClassBases] at hb
  | .tmpl _ _ _ => simp [ClassBases] at hb
  | .vec _ _ _ _ => simp [ClassBases] at hb
  | .dict _ _ _ _ _ => simp [ClassBases] at hb
end

theorem mem_loadFields {e : Env} {t : Ty} {x : FldInfo × Ty} :
    x ∈ loadFields e t ↔ x ∈ t.allFields ∧ e.skips x.1.flags = false := by
  simp [loadFields]

theorem saves_of_supported {e : Env} {t : Ty} (hs : Supported e t) (m : Mem) : Saves e m t := by
  induction hs with
  | prim h s hlt => intro a out; simp [saveObject, enc]
  | enum h cs fl hz => intro a out; simp [saveObject, enc, enumAt]
  | cls h s fl fs bs bases names plain types inside apart ih =>
    intro a out
    refine (saveClass_ok _ bases (fun x hx hsk => ?_) a out).2
    have hm := mem_loadFields.2 ⟨hx, hsk⟩
    exact ⟨(plain x hm).1, (plain x hm).2.1, ih x hm⟩
  | vec h s t hs hlt ht ih =>
    intro a out
    rw [saveObject, enc, saveItems_ok (keyE := none) (valueE := enc e m t) _ (by simp) (by simp) ih]
    simp
  | dict h s k t hs hlt hk ht hl hp ihk iht =>
    intro a out
    rw [saveObject, enc, saveItems_ok (keyE := some (enc e m k)) (valueE := enc e m t) _ ?_ (by simp) iht]
    · simp
    · intro f hf
      cases hf
      exact ⟨_, rfl, ihk⟩

theorem save_ok {e : Env} {t : Ty} (hs : Supported e t) (m : Mem) (a : Nat) (out : Bytes) :
    save e m t a out = .ok (out ++ encChunk t.hash 0 (enc e m t a)) := by
  rw [save, chunk_ok _ _ _ (fun out => saves_of_supported hs m a out)]

/-! ### By fields -/

theorem encFields_eq (e : Env) (m : Mem) (fs : Flds) (a : Nat) :
    encFields e m fs a = (fs.list.filter fun x => savedField e x.1).flatMap (encField e m a) := by
  match fs with
  | .nil => simp [encFields, Flds.list]
  | .cons f t r =>
    rw [encFields, encFields_eq e m r a, Flds.list, List.filter_cons]
    cases hs : savedField e f <;> simp [encField, nameHash]

mutual
theorem encBases_eq (e : Env) (m : Mem) (bs : Tys) (hb : ClassBasesOf bs) (a : Nat) :
    encBases e m bs a = (bs.savedFields e).flatMap (encField e m a) := by
  match bs with
  | .nil => simp [encBases, Tys.savedFields]
  | .cons t r =>
    rw [ClassBasesOf] at hb
    rw [encBases, Tys.savedFields, encClass_eq e m t hb.1 a, encBases_eq e m r hb.2 a, List.flatMap_append]

theorem encClass_eq (e : Env) (m : Mem) (t : Ty) (hb : ClassBases t) (a : Nat) :
    enc e m t a = (t.savedFields e).flatMap (encField e m a) := by
  match t with
  | .cls hh s fl fs bs =>
    rw [ClassBases] at hb
    rw [enc, Ty.savedFields]
    split
    · simp
    · rw [encFields_eq, encBases_eq e m bs hb a, List.flatMap_append]
  | .prim _ _ => simp [ClassBases] at hb
  | .enum _ _ _ _ => simp [ClassBases] at hb
  | .tmpl _ _ _ => simp [ClassBases] at hb
  | .vec _ _ _ _ => simp [ClassBases] at hb
  | .dict _ _ _ _ _ => simp [ClassBases] at hb
end

end Clr.VBin
