import Verif.Props.VBinBytesSpec
import Verif.Proofs.VBinSave
/-
C98: the bytes that are saved.
-/
namespace Clr.VBin
open Clr.JSON (Ty Flds Tys Mem FldInfo Const Env strideOf arrayItems)

theorem enumHash_spec {cs : List Const} {v : BitVec 32} : ∀ (rest pre : List Const), (∀ x ∈ pre, x.value ≠ v) → cs = pre ++ rest →
    SavedAs cs v (enumHash rest v)
  | [], pre, hp, hc => by
    rw [List.append_nil] at hc
    subst hc
    exact .none hp
  | c :: r, pre, hp, hc => by
    unfold enumHash
    by_cases h : c.value = v
    · rw [List.find?_cons_of_pos (by simpa using h)]
      exact .name hc h hp
    · rw [List.find?_cons_of_neg (by simpa using h)]
      refine enumHash_spec r (pre ++ [c]) (fun x hx => ?_) (by simpa using hc)
      rcases List.mem_append.1 hx with hx | hx
      · exact hp x hx
      · rw [List.mem_singleton.1 hx]; exact h

theorem elementSize_spec (t : Ty) (p : Bool) : ElementSize t p (valueTypeSize t p) := by
  unfold valueTypeSize
  cases p with
  | true => rw [if_pos rfl]; exact .pointer t
  | false =>
    rw [if_neg (by simp)]
    split
    · rename_i h
      by_cases h0 : t.hash = 0
      · exact .noName t h0
      · have hc := h.resolve_left h0
        cases t <;> simp [isClass] at hc
        exact .cls ..
    · rename_i h
      refine .other t (fun h0 => h (.inl h0)) (fun _ _ _ _ _ hc => h (.inr ?_))
      rw [hc]
      rfl

/-- What is appended by something that writes. -/
def Appends (f : Bytes → Res Bytes) (P : Bytes → Prop) : Prop := ∀ out r, f out = .ok r → ∃ x, r = out ++ x ∧ P x

theorem withSize_appends {f : Bytes → Res Bytes} {P : Bytes → Prop} (h : Appends f P) (sized : Bool) :
    Appends (withSize sized f) (fun y => ∃ x, P x ∧ y = if sized then counted x else x) := by
  intro out r hr
  cases sized with
  | false =>
    obtain ⟨x, h1, h2⟩ := h out r hr
    exact ⟨x, h1, x, h2, rfl⟩
  | true =>
    cases hf : f (out ++ le 4 0) with
    | ok r' =>
      obtain ⟨x, h1, h2⟩ := h _ _ hf
      rw [h1] at hf
      rw [withSize_ok hf] at hr
      injection hr with hr
      exact ⟨counted x, hr.symm, x, h2, rfl⟩
    | trap => simp [withSize, hf] at hr
    | ub => simp [withSize, hf] at hr

theorem chunk_appends {f : Bytes → Res Bytes} {P : Bytes → Prop} (h : Appends f P) (t n : BitVec 32) :
    Appends (chunk t n f) (fun y => ∃ x, P x ∧ y = chunkBytes t n x) := by
  intro out r hr
  obtain ⟨y, h1, x, h2, h3⟩ := withSize_appends h true _ _ hr
  refine ⟨chunkBytes t n x, ?_, x, h2, rfl⟩
  rw [h1, h3]
  simp [chunkBytes]

theorem items_append {e : Env} {m : Mem} {t : Ty} {p : Bool} {value : Save} {n : Nat} (hv : ∀ a, Appends (value a) (Encodes e m t a)) (hp : p = true → n ≠ 0)
    (l : List (Nat × Nat)) : Appends (saveItems none value (n == 0) p l) (fun y => ∃ xs, ElementsEncode e m t p n (l.map (·.2)) xs ∧ y = xs.flatten) := by
  induction l with
  | nil =>
    intro out r hr
    injection hr with hr
    exact ⟨[], by simp [hr], [], .nil, rfl⟩
  | cons kv l ih =>
    intro out r hr
    obtain ⟨k, v⟩ := kv
    rw [saveItems] at hr
    simp only [Res.bind_ok] at hr
    obtain ⟨o1, h1, hr⟩ := Res.bind_eq_ok.1 hr
    obtain ⟨y, h2, xs, h3, h4⟩ := ih _ _ hr
    cases p with
    | true =>
      have hn : (n == 0) = false := by simpa using hp rfl
      rw [hn] at h1
      injection h1 with h1
      exact ⟨y, by rw [h2, h1], [] :: xs, .pointer h3, by simp [h4]⟩
    | false =>
      simp only [Bool.false_eq_true, if_false] at h1
      obtain ⟨z, g1, x, g2, g3⟩ := withSize_appends (hv v) _ _ _ h1
      refine ⟨z ++ y, by rw [h2, g1, List.append_assoc], _, .value g2 h3, ?_⟩
      rw [List.flatten_cons, ← h4, g3]
      by_cases hn : n = 0 <;> simp [hn]

theorem pairs_append {e : Env} {m : Mem} {k t : Ty} {p : Bool} {key value : Save} {n : Nat} (hk : ∀ a, Appends (key a) (Encodes e m k a))
    (hv : ∀ a, Appends (value a) (Encodes e m t a)) (hp : p = true → n ≠ 0) (l : List (Nat × Nat)) :
    Appends (saveItems (some key) value (n == 0) p l) (fun y => ∃ ks xs, KeysEncode e m k (l.map (·.1)) ks ∧
      ElementsEncode e m t p n (l.map (·.2)) xs ∧ y = (List.zipWith (· ++ ·) ks xs).flatten) := by
  induction l with
  | nil =>
    intro out r hr
    injection hr with hr
    exact ⟨[], by simp [hr], [], [], .nil, .nil, rfl⟩
  | cons kv l ih =>
    intro out r hr
    obtain ⟨a, v⟩ := kv
    rw [saveItems] at hr
    obtain ⟨o0, h0, hr⟩ := Res.bind_eq_ok.1 hr
    obtain ⟨o1, h1, hr⟩ := Res.bind_eq_ok.1 hr
    obtain ⟨y, h2, ks, xs, h5, h3, h4⟩ := ih _ _ hr
    obtain ⟨u, f1, f2⟩ := hk a _ _ h0
    cases p with
    | true =>
      have hn : (n == 0) = false := by simpa using hp rfl
      rw [hn] at h1
      injection h1 with h1
      exact ⟨u ++ y, by rw [h2, ← h1, f1, List.append_assoc], u :: ks, [] :: xs, .cons f2 h5, .pointer h3, by simp [h4]⟩
    | false =>
      simp only [Bool.false_eq_true, if_false] at h1
      obtain ⟨z, g1, x, g2, g3⟩ := withSize_appends (hv v) _ _ _ h1
      refine ⟨u ++ z ++ y, by rw [h2, g1, f1]; simp, u :: ks, _, .cons f2 h5, .value g2 h3, ?_⟩
      rw [List.zipWith_cons_cons, List.flatten_cons, ← h4, g3]
      by_cases hn : n = 0 <;> simp [hn]

theorem size_ptr (t : Ty) (p : Bool) (h : p = true) : valueTypeSize t p ≠ 0 := by
  subst h
  simp [valueTypeSize]

mutual
theorem object_appends (e : Env) (m : Mem) : ∀ (t : Ty) (a : Nat), Appends (saveObject e m t a) (Encodes e m t a)
  | .prim h s, a => by
    intro out r hr
    rw [saveObject] at hr
    injection hr with hr
    exact ⟨_, hr.symm, .prim⟩
  | .enum h s cs fl, a => by
    intro out r hr
    rw [saveObject] at hr
    split at hr
    · cases hr
    · injection hr with hr
      exact ⟨_, hr.symm, .enum (enumHash_spec cs [] (by simp) rfl)⟩
  | .cls h s fl fs bs, a => by
    intro out r hr
    rw [saveObject] at hr
    split at hr
    · rename_i hf
      injection hr with hr
      exact ⟨[], by simp [hr], .transient hf⟩
    · rename_i hf
      obtain ⟨o1, h1, hr⟩ := Res.bind_eq_ok.1 hr
      obtain ⟨x, g1, g2⟩ := fields_append e m fs a _ _ h1
      obtain ⟨y, g3, g4⟩ := bases_append e m bs a _ _ hr
      exact ⟨x ++ y, by rw [g3, g1, List.append_assoc], .cls (by simpa using hf) g2 g4⟩
  | .tmpl h s bs, a => by
    intro out r hr
    rw [saveObject] at hr
    injection hr with hr
    exact ⟨listHeader 0 0 0 0 0, by rw [← hr]; simp [listHeader], .tmpl⟩
  | .vec h s t p, a => by
    intro out r hr
    rw [saveObject] at hr
    obtain ⟨y, h1, xs, h2, h3⟩ := items_append (object_appends e m t) (size_ptr t p) _ _ _ hr
    refine ⟨containerHeader (m.elems a).length none t p ++ y, by rw [h1]; simp, ?_⟩
    rw [h3]
    exact .vec (elementSize_spec t p) h2
  | .dict h s k t p, a => by
    intro out r hr
    rw [saveObject] at hr
    obtain ⟨y, h1, ks, xs, h4, h2, h3⟩ := pairs_append (object_appends e m k) (object_appends e m t) (size_ptr t p) _ _ _ hr
    refine ⟨containerHeader (m.elems a).length (some k) t p ++ y, by rw [h1]; simp, ?_⟩
    rw [h3]
    exact .dict (elementSize_spec t p) h4 h2

theorem fields_append (e : Env) (m : Mem) : ∀ (fs : Flds) (a : Nat), Appends (saveFields e m fs a) (FieldsEncode e m fs a)
  | .nil, a => by
    intro out r hr
    rw [saveFields] at hr
    injection hr with hr
    exact ⟨[], by simp [hr], .nil⟩
  | .cons f t rest, a => by
    intro out r hr
    rw [saveFields] at hr
    split at hr
    · rename_i hf
      obtain ⟨o1, h1, hr⟩ := Res.bind_eq_ok.1 hr
      obtain ⟨y, h2, h3⟩ := fields_append e m rest a _ _ hr
      injection h1 with h1
      exact ⟨y, by rw [h2, h1], .transient hf h3⟩
    · rename_i hf
      have hf : e.skips f.flags = false := by simpa using hf
      obtain ⟨o1, h1, hr⟩ := Res.bind_eq_ok.1 hr
      obtain ⟨y, h2, h3⟩ := fields_append e m rest a _ _ hr
      cases hc : f.count with
      | none =>
        rw [hc] at h1
        simp only at h1
        obtain ⟨z, g1, x, g2, g3⟩ := chunk_appends (object_appends e m t (a + f.offset)) _ _ _ _ h1
        refine ⟨z ++ y, by rw [h2, g1, List.append_assoc], ?_⟩
        rw [g3]
        exact .one hf hc g2 h3
      | some n =>
        rw [hc] at h1
        simp only at h1
        have hb : Appends (fun out => if 0 < n ∧ strideOf t f.isPtr = 0 then Res.trap
            else saveItems none (saveObject e m t) (valueTypeSize t f.isPtr == 0) f.isPtr
              (arrayItems (a + f.offset) n (strideOf t f.isPtr)) (out ++ containerHeader n none t f.isPtr))
            (fun z => ∃ xs, ElementsEncode e m t f.isPtr (valueTypeSize t f.isPtr)
              ((List.range n).map fun i => a + f.offset + i * (if f.isPtr then 8 else t.size)) xs ∧
              z = listHeader n 0 0 t.hash (valueTypeSize t f.isPtr) ++ xs.flatten) := by
          intro out r hr
          simp only at hr
          split at hr
          · cases hr
          · obtain ⟨y, k1, xs, k2, k3⟩ := items_append (object_appends e m t) (size_ptr t f.isPtr) _ _ _ hr
            refine ⟨containerHeader n none t f.isPtr ++ y, by rw [k1]; simp, xs, ?_, by rw [k3]; rfl⟩
            rw [arrayItems, List.map_map] at k2
            exact k2
        obtain ⟨z, g1, x, ⟨xs, g2, g4⟩, g3⟩ := chunk_appends hb _ _ _ _ h1
        refine ⟨z ++ y, by rw [h2, g1, List.append_assoc], ?_⟩
        rw [g3, g4]
        exact .array hf hc (elementSize_spec t f.isPtr) g2 h3

theorem bases_append (e : Env) (m : Mem) : ∀ (bs : Tys) (a : Nat), Appends (saveBases e m bs a) (BasesEncode e m bs a)
  | .nil, a => by
    intro out r hr
    rw [saveBases] at hr
    injection hr with hr
    exact ⟨[], by simp [hr], .nil⟩
  | .cons t rest, a => by
    intro out r hr
    rw [saveBases] at hr
    split at hr
    · obtain ⟨o1, h1, hr⟩ := Res.bind_eq_ok.1 hr
      obtain ⟨y, h2, h3⟩ := bases_append e m rest a _ _ hr
      obtain ⟨x, g1, g2⟩ := object_appends e m t a _ _ h1
      exact ⟨x ++ y, by rw [h2, g1, List.append_assoc], .cons g2 h3⟩
    · cases hr
end

theorem savedAs_unique {cs : List Const} {v x y : BitVec 32} (h1 : SavedAs cs v x) (h2 : SavedAs cs v y) : x = y := by
  cases h1 with
  | none hn =>
    cases h2 with
    | none _ => rfl
    | @name pre post c hc hv _ => exact absurd hv (hn c (by rw [hc]; simp))
  | @name pre post c hc hv hp =>
    cases h2 with
    | none hn => exact absurd hv (hn c (by rw [hc]; simp))
    | @name pre' post' c' hc' hv' hp' =>
      rw [hc] at hc'
      rcases List.append_eq_append_iff.1 hc' with ⟨as, h1, h2⟩ | ⟨as, h1, h2⟩
      · cases as with
        | nil => simp only [List.nil_append, List.cons.injEq] at h2; rw [h2.1]
        | cons z zs =>
          simp only [List.cons_append, List.cons.injEq] at h2
          exact absurd hv (hp' c (by rw [h1, h2.1]; simp))
      · cases as with
        | nil => simp only [List.nil_append, List.cons.injEq] at h2; rw [h2.1]
        | cons z zs =>
          simp only [List.cons_append, List.cons.injEq] at h2
          exact absurd hv' (hp c' (by rw [h1, h2.1]; simp))

theorem elementSize_unique {t : Ty} {p : Bool} {n k : Nat} (h1 : ElementSize t p n) (h2 : ElementSize t p k) : n = k := by
  cases h1 <;> cases h2 <;> first | rfl | contradiction | (rename_i h; exact absurd rfl (h _ _ _ _ _))

mutual
theorem encodes_unique {e : Env} {m : Mem} : ∀ {t : Ty} {a : Nat} {x y : Bytes}, Encodes e m t a x → Encodes e m t a y → x = y
  | _, _, _, _, .prim, .prim => rfl
  | _, _, _, _, .enum h1, .enum h2 => by rw [savedAs_unique h1 h2]
  | _, _, _, _, .transient _, .transient _ => rfl
  | _, _, _, _, .transient h1, .cls h2 _ _ => by rw [h1] at h2; cases h2
  | _, _, _, _, .cls h2 _ _, .transient h1 => by rw [h1] at h2; cases h2
  | _, _, _, _, .cls _ f b, .cls _ f' b' => by rw [fields_unique f f', bases_unique b b']
  | _, _, _, _, .tmpl, .tmpl => rfl
  | _, _, _, _, .vec n x, .vec n' x' => by
    have := elementSize_unique n n'; subst this
    rw [elements_unique x x']
  | _, _, _, _, .dict n k x, .dict n' k' x' => by
    have := elementSize_unique n n'; subst this
    rw [keys_unique k k', elements_unique x x']

theorem fields_unique {e : Env} {m : Mem} : ∀ {fs : Flds} {a : Nat} {x y : Bytes}, FieldsEncode e m fs a x → FieldsEncode e m fs a y → x = y
  | _, _, _, _, .nil, .nil => rfl
  | _, _, _, _, .transient _ r, .transient _ r' => fields_unique r r'
  | _, _, _, _, .transient h1 _, .one h2 _ _ _ => by rw [h1] at h2; cases h2
  | _, _, _, _, .transient h1 _, .array h2 _ _ _ _ => by rw [h1] at h2; cases h2
  | _, _, _, _, .one h2 _ _ _, .transient h1 _ => by rw [h1] at h2; cases h2
  | _, _, _, _, .array h2 _ _ _ _, .transient h1 _ => by rw [h1] at h2; cases h2
  | _, _, _, _, .one _ h1 _ _, .array _ h2 _ _ _ => by rw [h1] at h2; cases h2
  | _, _, _, _, .array _ h2 _ _ _, .one _ h1 _ _ => by rw [h1] at h2; cases h2
  | _, _, _, _, .one _ _ x r, .one _ _ x' r' => by rw [encodes_unique x x', fields_unique r r']
  | _, _, _, _, .array _ c n x r, .array _ c' n' x' r' => by
    rw [c] at c'
    cases c'
    have := elementSize_unique n n'; subst this
    rw [elements_unique x x', fields_unique r r']

theorem bases_unique {e : Env} {m : Mem} : ∀ {bs : Tys} {a : Nat} {x y : Bytes}, BasesEncode e m bs a x → BasesEncode e m bs a y → x = y
  | _, _, _, _, .nil, .nil => rfl
  | _, _, _, _, .cons x r, .cons x' r' => by rw [encodes_unique x x', bases_unique r r']

theorem elements_unique {e : Env} {m : Mem} : ∀ {t : Ty} {p : Bool} {n : Nat} {as : List Nat} {x y : List Bytes},
    ElementsEncode e m t p n as x → ElementsEncode e m t p n as y → x = y
  | _, _, _, _, _, _, .nil, .nil => rfl
  | _, _, _, _, _, _, .pointer r, .pointer r' => by rw [elements_unique r r']
  | _, _, _, _, _, _, .value x r, .value x' r' => by rw [encodes_unique x x', elements_unique r r']

theorem keys_unique {e : Env} {m : Mem} : ∀ {t : Ty} {as : List Nat} {x y : List Bytes},
    KeysEncode e m t as x → KeysEncode e m t as y → x = y
  | _, _, _, _, .nil, .nil => rfl
  | _, _, _, _, .cons x r, .cons x' r' => by rw [encodes_unique x x', keys_unique r r']
end

end Clr.VBin
