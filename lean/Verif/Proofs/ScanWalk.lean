import Verif.Proofs.Scan

/-!
The walk over a translation unit: what it adds.
-/
namespace Clr.Scan

/-- `Reflected`, inside scopes that are known to be. -/
def ReflFrom (texts : List Bytes) (pre outer : List Info) (i : Info) : Prop :=
  ∀ a x b, outer ++ [i] = a ++ x :: b → Visible texts (pre ++ a) x ∧ (b ≠ [] → Scope x)

theorem reflFrom_nil {texts : List Bytes} {pre : List Info} {i : Info} : ReflFrom texts pre [] i ↔ Visible texts pre i := by
  constructor
  · intro h
    have := (h [] i [] rfl).1
    rwa [List.append_nil] at this
  · intro h a x b e
    cases a with
    | nil =>
      obtain ⟨rfl, rfl⟩ := List.cons.inj e
      rw [List.append_nil]
      exact ⟨h, fun h => absurd rfl h⟩
    | cons y a => cases a <;> cases e

theorem reflected_nil {texts : List Bytes} {i : Info} : Reflected texts [] i ↔ Visible texts [] i :=
  reflFrom_nil (pre := [])

theorem reflFrom_cons {texts : List Bytes} {pre outer : List Info} {i x : Info} :
    ReflFrom texts pre (i :: outer) x ↔ Visible texts pre i ∧ Scope i ∧ ReflFrom texts (pre ++ [i]) outer x := by
  constructor
  · intro h
    have h0 := h [] i (outer ++ [x]) rfl
    rw [List.append_nil] at h0
    refine ⟨h0.1, h0.2 (by simp), fun a y b e => ?_⟩
    have := h (i :: a) y b (by rw [List.cons_append, e]; rfl)
    rw [List.append_assoc]
    exact this
  · rintro ⟨h1, h2, h3⟩ a y b e
    cases a with
    | nil =>
      obtain ⟨rfl, rfl⟩ := List.cons.inj e
      rw [List.append_nil]
      exact ⟨h1, fun _ => h2⟩
    | cons z a =>
      obtain ⟨rfl, e'⟩ := List.cons.inj (show i :: (outer ++ [x]) = z :: (a ++ y :: b) from e)
      have := h3 a y b e'
      rw [List.append_assoc] at this
      exact this

/-- From `s` to `s'`, entries were added of which `S` is true, one at least for the kind and name of each; attributes of
which `R` is true, among them all of which `C` is true; and the state is as it was. -/
structure Grow (s s' : St) (S : Entry → Prop) (R C : Rec → Prop) : Prop where
  allow : s'.allow = s.allow
  prims : ∀ e ∈ s.prims, e ∈ s'.prims
  sound : ∀ e ∈ s'.prims, e ∈ s.prims ∨ S e
  complete : ∀ e, S e → ∃ e' ∈ s'.prims, e'.kind = e.kind ∧ e'.name = e.name
  attrs : ∀ r ∈ s.attrs, r ∈ s'.attrs
  attrsSound : ∀ r ∈ s'.attrs, r ∈ s.attrs ∨ R r
  attrsComplete : ∀ r, C r → r ∈ s'.attrs

theorem Grow.refl (s : St) : Grow s s (fun _ => False) (fun _ => False) (fun _ => False) :=
  ⟨rfl, fun _ h => h, fun _ h => .inl h, fun _ h => h.elim, fun _ h => h, fun _ h => .inl h, fun _ h => h.elim⟩

theorem Grow.trans {s s1 s2 : St} {S1 S2 : Entry → Prop} {R1 R2 C1 C2 : Rec → Prop} (h1 : Grow s s1 S1 R1 C1) (h2 : Grow s1 s2 S2 R2 C2) :
    Grow s s2 (fun e => S1 e ∨ S2 e) (fun r => R1 r ∨ R2 r) (fun r => C1 r ∨ C2 r) where
  allow := h2.allow.trans h1.allow
  prims e h := h2.prims e (h1.prims e h)
  sound e h := by
    rcases h2.sound e h with h | h
    · rcases h1.sound e h with h | h
      · exact .inl h
      · exact .inr (.inl h)
    · exact .inr (.inr h)
  complete e h := by
    rcases h with h | h
    · obtain ⟨e', h', hk⟩ := h1.complete e h
      exact ⟨e', h2.prims e' h', hk⟩
    · exact h2.complete e h
  attrs r h := h2.attrs r (h1.attrs r h)
  attrsSound r h := by
    rcases h2.attrsSound r h with h | h
    · rcases h1.attrsSound r h with h | h
      · exact .inl h
      · exact .inr (.inl h)
    · exact .inr (.inr h)
  attrsComplete r h := by
    rcases h with h | h
    · exact h2.attrs r (h1.attrsComplete r h)
    · exact h2.attrsComplete r h

theorem Grow.congr {s s' : St} {S S' : Entry → Prop} {R R' C C' : Rec → Prop} (h : Grow s s' S R C) (hS : ∀ e, S e ↔ S' e)
    (hR : ∀ r, R r → R' r) (hC : ∀ r, C' r → C r) : Grow s s' S' R' C' where
  allow := h.allow
  prims := h.prims
  sound e he := (h.sound e he).imp id (hS e).1
  complete e he := h.complete e ((hS e).2 he)
  attrs := h.attrs
  attrsSound r hr := (h.attrsSound r hr).imp id (hR r)
  attrsComplete r hr := h.attrsComplete r (hC r hr)

theorem grow_add (s : St) (e : Entry) : Grow s (s.add e) (fun x => x = e) (fun _ => False) (fun _ => False) where
  allow := rfl
  prims x h := List.mem_append_left _ h
  sound x h := (List.mem_append.1 h).imp id List.mem_singleton.1
  complete x h := ⟨e, by simp [St.add], by rw [h]; exact ⟨rfl, rfl⟩⟩
  attrs _ h := h
  attrsSound _ h := .inl h
  attrsComplete _ h := h.elim

theorem grow_addOnce (s : St) (e : Entry) : Grow s (s.addOnce e) (fun x => x = e) (fun _ => False) (fun _ => False) := by
  rw [St.addOnce]
  split
  · next h =>
    obtain ⟨x, hx, h⟩ := List.any_eq_true.1 h
    rw [Bool.and_eq_true, beq_iff_eq, beq_iff_eq] at h
    exact ⟨rfl, fun _ h => h, fun _ h => .inl h, fun y hy => ⟨x, hx, by rw [hy]; exact h⟩, fun _ h => h, fun _ h => .inl h, fun _ h => h.elim⟩
  · exact grow_add s e

theorem grow_constants (name : Bytes) (f : Bytes → Bytes) : ∀ (cs : List Bytes) (s : St),
    Grow s (cs.foldl (fun s c => s.add ⟨.constant, f c, name⟩) s) (fun x => x ∈ cs.map fun c => (⟨.constant, f c, name⟩ : Entry))
      (fun _ => False) (fun _ => False)
  | [], s => (Grow.refl s).congr (by simp) (by simp) (by simp)
  | c :: cs, s => by
    rw [List.foldl_cons]
    refine ((grow_add s _).trans (grow_constants name f cs _)).congr ?_ (by simp) (by simp)
    intro e
    simp

/-! ### What is added -/

/-- The entries for declarations in known scopes. -/
def Sof (texts : List Bytes) (pre : List Info) (ds : Decls) (e : Entry) : Prop :=
  ∃ outer x, Inside ds outer x ∧ ReflFrom texts pre outer x ∧ e ∈ entries (pre ++ outer) x

/-- The attributes written on declarations. -/
def Rof (ds : Decls) (r : Rec) : Prop := ∃ outer x, Inside ds outer x ∧ r.parent = x.name ∧ r.attr ∈ x.attrs

/-- The attributes that have to be recorded. -/
def Cof (texts : List Bytes) (pre : List Info) (ds : Decls) (r : Rec) : Prop :=
  ∃ outer x, Inside ds outer x ∧ ReflFrom texts pre outer x ∧ Recorded texts x ∧ r.parent = x.name ∧ r.attr ∈ x.attrs ∧ word r.attr.name = none

/-- Whether a scope is marked reflect. -/
def allowOf (texts : List Bytes) (pre : List Info) : Bool := pre.any fun i => mark texts i == .reflect

theorem allowOf_append (texts : List Bytes) (pre : List Info) (i : Info) :
    allowOf texts (pre ++ [i]) = (allowOf texts pre || mark texts i == .reflect) := by
  rw [allowOf, List.any_append, allowOf]
  simp

theorem allowOf_iff {texts : List Bytes} {pre : List Info} : allowOf texts pre = true ↔ ∃ s ∈ pre, mark texts s = .reflect := by
  rw [allowOf, List.any_eq_true]
  simp

theorem scopeName_append (pre : List Info) (i : Info) :
    scopeName (pre ++ [i]) = if (i.kind == .cls && i.anonymous) = true then scopeName pre else i.name := by
  rw [scopeName, List.filter_append]
  by_cases h : (i.kind == .cls && i.anonymous) = true
  · rw [if_pos h, List.filter_cons, if_neg (by rw [h]; decide), List.filter_nil, List.append_nil, scopeName]
  · rw [if_neg h, List.filter_cons, if_pos (by rw [Bool.not_eq_true'] ; exact Bool.eq_false_iff.2 h), List.filter_nil, List.getLast?_concat]
    rfl

/-- What a declaration that is reached adds. -/
theorem grow_kind {texts : List Bytes} {pre : List Info} {i : Info} {kids : Decls} {inner : Bytes → St → St} (hfi : Fine texts i)
    (hi : ∀ s, s.allow = allowOf texts (pre ++ [i]) →
      Grow s (inner (scopeName (pre ++ [i])) s) (Sof texts (pre ++ [i]) kids) (Rof kids) (Cof texts (pre ++ [i]) kids))
    {s : St} (ha : s.allow = allowOf texts (pre ++ [i])) :
    Grow s (addKind i inner (scopeName pre) s)
      (fun e => e ∈ entries pre i ∨ (Scope i ∧ Sof texts (pre ++ [i]) kids e)) (Rof kids) (fun r => Scope i ∧ Cof texts (pre ++ [i]) kids r) := by
  unfold addKind
  rw [scopeName_append] at hi
  have none : ∀ {S : Entry → Prop} {R C : Rec → Prop}, (∀ e, ¬ S e) → (∀ r, ¬ C r) → Grow s s S R C := fun h1 h2 =>
    (Grow.refl s).congr (fun e => ⟨fun h => h.elim, fun h => h1 e h⟩) (fun _ h => h.elim) (fun r h => h2 r h)
  cases hk : i.kind with
  | «namespace» =>
    dsimp only
    rw [hk, if_neg (by rw [show (Kind.namespace == Kind.cls) = false from rfl]; simp)] at hi
    have hs : Scope i := .inl hk
    refine ((grow_addOnce s _).trans (hi _ ((grow_addOnce s _).allow.trans ha))).congr (fun e => ?_) (fun r h => ?_) (fun r h => .inr h.2)
    · simp [entries, hk, hs]
    · rcases h with h | h
      · exact h.elim
      · exact h
  | cls =>
    dsimp only
    rw [hk] at hi
    have hsc : Scope i ↔ i.skipped = false ∧ i.forward = false ∧ i.supported = true := by simp [Scope, hk]
    by_cases h1 : i.skipped = true
    · rw [if_pos h1]
      have hns : ¬ Scope i := by rw [hsc, h1]; simp
      exact none (by simp [entries, hk, h1, hns]) (by simp [hns])
    · rw [if_neg h1]
      have h1 : i.skipped = false := by simpa using h1
      by_cases h2 : (!i.forward && !i.supported) = true
      · rw [if_pos h2]
        simp only [Bool.and_eq_true, Bool.not_eq_true'] at h2
        have hns : ¬ Scope i := by rw [hsc, h2.2]; simp
        exact none (by simp [entries, hk, h2.1, h2.2, hns]) (by simp [hns])
      · rw [if_neg h2]
        have h2 : i.forward = true ∨ i.supported = true := by
          cases hf : i.forward
          · right
            rw [hf] at h2
            simpa using h2
          · exact .inl rfl
        by_cases h3 : i.anonymous = true
        · rw [if_pos h3]
          have hf : i.forward = false := by
            cases hf : i.forward
            · rfl
            · rw [hfi.2.2 hf] at h3; cases h3
          have hs : Scope i := hsc.2 ⟨h1, hf, by simpa [hf] using h2⟩
          rw [h3, if_pos (by decide)] at hi
          exact (hi s ha).congr (by simp [entries, hk, h3, hs]) (fun _ h => h) (fun _ h => h.2)
        · rw [if_neg h3]
          have h3 : i.anonymous = false := by simpa using h3
          rw [h3, if_neg (by simp)] at hi
          by_cases hf : i.forward = true
          · rw [if_pos hf]
            have hns : ¬ Scope i := by rw [hsc, hf]; simp
            exact (grow_addOnce s _).congr (by simp [entries, hk, h1, h3, hf, hns]) (fun _ h => h.elim) (by simp [hns])
          · rw [if_neg hf]
            have hf : i.forward = false := by simpa using hf
            have hsup : i.supported = true := by simpa [hf] using h2
            have hs : Scope i := hsc.2 ⟨h1, hf, hsup⟩
            refine ((grow_addOnce s _).trans (hi _ ((grow_addOnce s _).allow.trans ha))).congr (fun e => ?_) (fun r h => ?_)
              (fun r h => .inr h.2)
            · simp [entries, hk, hs, h1, h3, hsup]
            · rcases h with h | h
              · exact h.elim
              · exact h
  | enum =>
    dsimp only
    have hns : ¬ Scope i := by simp [Scope, hk]
    refine ((grow_add s _).trans (grow_constants i.name (constantName (scopeName pre)) i.constants _)).congr (fun e => ?_) (by simp) (by simp [hns])
    have : ∀ c, constantName (scopeName pre) c = if scopeName pre = [] then c else scopeName pre ++ b!"::" ++ c := by
      intro c
      rw [constantName]
      by_cases h : scopeName pre = []
      · rw [if_neg (fun h' => h' h), if_pos h]
      · rw [if_pos h, if_neg h]
    simp only [funext this]
    simp [entries, hk, hns]
  | function =>
    dsimp only
    have hns : ¬ Scope i := by simp [Scope, hk]
    split
    · next h => exact (grow_add s _).congr (by simp [entries, hk, h, hns]) (fun _ h => h.elim) (by simp [hns])
    · next h => exact none (by simp [entries, hk, h, hns]) (by simp [hns])
  | method =>
    dsimp only
    have hns : ¬ Scope i := by simp [Scope, hk]
    split
    · next h => exact (grow_add s _).congr (by simp [entries, hk, h, hns]) (fun _ h => h.elim) (by simp [hns])
    · next h => exact none (by simp [entries, hk, h, hns]) (by simp [hns])
  | field =>
    dsimp only
    have hns : ¬ Scope i := by simp [Scope, hk]
    split
    · next h => exact (grow_add s _).congr (by simp [entries, hk, h, hns]) (fun _ h => h.elim) (by simp [hns])
    · next h => exact none (by simp [entries, hk, h, hns]) (by simp [hns])
  | template =>
    dsimp only
    have hns : ¬ Scope i := by simp [Scope, hk]
    split
    · next h => exact (grow_addOnce s _).congr (by simp [entries, hk, h, hns]) (fun _ h => h.elim) (by simp [hns])
    · next h => exact none (by simp [entries, hk, h, hns]) (by simp [hns])
  | constant =>
    have hns : ¬ Scope i := by simp [Scope, hk]
    exact none (by simp [entries, hk, hns]) (by simp [hns])
  | other =>
    have hns : ¬ Scope i := by simp [Scope, hk]
    exact none (by simp [entries, hk, hns]) (by simp [hns])

/-- What a declaration adds. -/
theorem grow_info {texts : List Bytes} {pre : List Info} {i : Info} {kids : Decls} {inner : Bytes → St → St} (hfi : Fine texts i)
    (hi : ∀ s, s.allow = allowOf texts (pre ++ [i]) →
      Grow s (inner (scopeName (pre ++ [i])) s) (Sof texts (pre ++ [i]) kids) (Rof kids) (Cof texts (pre ++ [i]) kids))
    {s : St} (ha : s.allow = allowOf texts pre) :
    Grow s (addInfo (gather texts) i inner (scopeName pre) s)
      (fun e => Visible texts pre i ∧ (e ∈ entries pre i ∨ (Scope i ∧ Sof texts (pre ++ [i]) kids e)))
      (fun r => (r.parent = i.name ∧ r.attr ∈ i.attrs) ∨ Rof kids r)
      (fun r => Visible texts pre i ∧ ((Recorded texts i ∧ r.parent = i.name ∧ r.attr ∈ i.attrs ∧ word r.attr.name = none) ∨
        (Scope i ∧ Cof texts (pre ++ [i]) kids r))) := by
  rw [addInfo]
  by_cases hinv : i.invalid = true
  · rw [if_pos hinv]
    have hv : ¬ Visible texts pre i := by rw [Visible, hinv]; simp
    exact (Grow.refl s).congr (by simp [hv]) (fun _ h => h.elim) (by simp [hv])
  · rw [if_neg hinv]
    have hinv : i.invalid = false := by simpa using hinv
    have hmark := parse_mark hfi s.allow s.attrs
    -- recording the attributes
    have hattr : Grow s { s with attrs := (parseAttributes (gather texts) i s.allow s.attrs).2 } (fun _ => False)
        (fun r => r.parent = i.name ∧ r.attr ∈ i.attrs)
        (fun r => mark texts i ≠ .no ∧ Recorded texts i ∧ r.parent = i.name ∧ r.attr ∈ i.attrs ∧ word r.attr.name = none) :=
      ⟨rfl, fun _ h => h, fun _ h => .inl h, fun _ h => h.elim, fun r h => parse_sub _ _ _ h, fun r h => parse_sound _ _ _ h,
        fun r h => by
          have := parse_complete hfi h.1 h.2.1 s.allow s.attrs h.2.2.2.1 h.2.2.2.2
          rw [← h.2.2.1] at this
          exact this⟩
    dsimp only
    rw [hmark]
    generalize (parseAttributes (gather texts) i s.allow s.attrs).2 = attrs at hattr
    by_cases hno : mark texts i = .no
    · rw [if_pos hno]
      have hv : ¬ Visible texts pre i := fun h => h.2.1 hno
      exact hattr.congr (by simp [hv]) (fun _ h => .inl h) (by simp [hv])
    · rw [if_neg hno]
      have fin : ∀ {s' : St}, Visible texts pre i →
          Grow { s with attrs := attrs } s' (fun e => e ∈ entries pre i ∨ (Scope i ∧ Sof texts (pre ++ [i]) kids e)) (Rof kids)
            (fun r => Scope i ∧ Cof texts (pre ++ [i]) kids r) →
          Grow s s' (fun e => Visible texts pre i ∧ (e ∈ entries pre i ∨ (Scope i ∧ Sof texts (pre ++ [i]) kids e)))
            (fun r => (r.parent = i.name ∧ r.attr ∈ i.attrs) ∨ Rof kids r)
            (fun r => Visible texts pre i ∧ ((Recorded texts i ∧ r.parent = i.name ∧ r.attr ∈ i.attrs ∧ word r.attr.name = none) ∨
              (Scope i ∧ Cof texts (pre ++ [i]) kids r))) := by
        intro s' hv hg
        refine (hattr.trans hg).congr (fun e => by simp [hv]) (fun _ h => h) (fun r h => ?_)
        rcases h.2 with h | h
        · exact .inl ⟨hno, h⟩
        · exact .inr h
      by_cases hr : mark texts i = .reflect
      · rw [if_pos hr]
        have hv : Visible texts pre i := ⟨hinv, hno, .inr ⟨i, by simp, hr⟩⟩
        have hall : allowOf texts (pre ++ [i]) = true := by rw [allowOf_append, hr]; simp
        refine fin hv ?_
        have hg := grow_kind hfi hi (s := { allow := true, attrs := attrs, prims := s.prims }) hall.symm
        exact ⟨rfl, hg.prims, hg.sound, hg.complete, hg.attrs, hg.attrsSound, hg.attrsComplete⟩
      · rw [if_neg hr]
        have hall : allowOf texts (pre ++ [i]) = allowOf texts pre := by
          rw [allowOf_append]
          cases h : mark texts i <;> simp_all
        by_cases hp : s.allow = true ∨ mark texts i = .part
        · rw [if_pos hp]
          have hv : Visible texts pre i := by
            refine ⟨hinv, hno, ?_⟩
            rcases hp with h | h
            · rw [ha] at h
              obtain ⟨x, hx, hm⟩ := allowOf_iff.1 h
              exact .inr ⟨x, List.mem_append_left _ hx, hm⟩
            · exact .inl h
          refine fin hv (grow_kind hfi hi ?_)
          rw [hall]
          exact ha
        · rw [if_neg hp]
          have hv : ¬ Visible texts pre i := by
            rintro ⟨_, _, h | ⟨x, hx, hm⟩⟩
            · exact hp (.inr h)
            · have := allowOf_iff.2 ⟨x, hx, hm⟩
              rw [hall, ← ha] at this
              exact hp (.inl this)
          exact hattr.congr (by simp [hv]) (fun _ h => .inl h) (by simp [hv])

theorem inside_nil {outer : List Info} {x : Info} : ¬ Inside .nil outer x := fun h => by cases h

theorem inside_cons {i : Info} {kids r : Decls} {outer : List Info} {x : Info} : Inside (.cons (.mk i kids) r) outer x ↔
    (outer = [] ∧ x = i) ∨ (∃ o, outer = i :: o ∧ Inside kids o x) ∨ Inside r outer x := by
  constructor
  · intro h
    cases h with
    | here => exact .inl ⟨rfl, rfl⟩
    | under h => exact .inr (.inl ⟨_, rfl, h⟩)
    | next h => exact .inr (.inr h)
  · rintro (⟨rfl, rfl⟩ | ⟨o, rfl, h⟩ | h)
    · exact .here
    · exact .under h
    · exact .next h

theorem Sof_cons (texts : List Bytes) (pre : List Info) (i : Info) (kids r : Decls) (e : Entry) :
    Sof texts pre (.cons (.mk i kids) r) e ↔
      (Visible texts pre i ∧ (e ∈ entries pre i ∨ (Scope i ∧ Sof texts (pre ++ [i]) kids e))) ∨ Sof texts pre r e := by
  constructor
  · rintro ⟨outer, x, hin, hr, he⟩
    rcases inside_cons.1 hin with ⟨rfl, rfl⟩ | ⟨o, rfl, h⟩ | h
    · rw [List.append_nil] at he
      exact .inl ⟨reflFrom_nil.1 hr, .inl he⟩
    · obtain ⟨h1, h2, h3⟩ := reflFrom_cons.1 hr
      exact .inl ⟨h1, .inr ⟨h2, o, x, h, h3, by rw [List.append_assoc]; exact he⟩⟩
    · exact .inr ⟨outer, x, h, hr, he⟩
  · rintro (⟨hv, he | ⟨hs, o, x, h, h3, he⟩⟩ | ⟨outer, x, h, hr, he⟩)
    · exact ⟨[], i, .here, reflFrom_nil.2 hv, by rw [List.append_nil]; exact he⟩
    · exact ⟨i :: o, x, .under h, reflFrom_cons.2 ⟨hv, hs, h3⟩, by rw [List.append_assoc] at he; exact he⟩
    · exact ⟨outer, x, .next h, hr, he⟩

theorem Rof_cons {i : Info} {kids r : Decls} {x : Rec} (h : ((x.parent = i.name ∧ x.attr ∈ i.attrs) ∨ Rof kids x) ∨ Rof r x) :
    Rof (.cons (.mk i kids) r) x := by
  rcases h with (⟨h1, h2⟩ | ⟨o, y, h1, h2⟩) | ⟨o, y, h1, h2⟩
  · exact ⟨[], i, .here, h1, h2⟩
  · exact ⟨i :: o, y, .under h1, h2⟩
  · exact ⟨o, y, .next h1, h2⟩

theorem Cof_cons {texts : List Bytes} {pre : List Info} {i : Info} {kids r : Decls} {x : Rec} (h : Cof texts pre (.cons (.mk i kids) r) x) :
    (Visible texts pre i ∧ ((Recorded texts i ∧ x.parent = i.name ∧ x.attr ∈ i.attrs ∧ word x.attr.name = none) ∨
      (Scope i ∧ Cof texts (pre ++ [i]) kids x))) ∨ Cof texts pre r x := by
  obtain ⟨outer, y, hin, hr, hrest⟩ := h
  rcases inside_cons.1 hin with ⟨rfl, rfl⟩ | ⟨o, rfl, h⟩ | h
  · exact .inl ⟨reflFrom_nil.1 hr, .inl hrest⟩
  · obtain ⟨h1, h2, h3⟩ := reflFrom_cons.1 hr
    exact .inl ⟨h1, .inr ⟨h2, o, y, h, h3, hrest⟩⟩
  · exact .inr ⟨outer, y, h, hr, hrest⟩

mutual
theorem grow_decl (texts : List Bytes) : ∀ (d : Decl) (pre : List Info) (s : St), (∀ outer x, Inside (.cons d .nil) outer x → Fine texts x) →
    s.allow = allowOf texts pre →
    Grow s (addDecl (gather texts) d (scopeName pre) s) (Sof texts pre (.cons d .nil)) (Rof (.cons d .nil)) (Cof texts pre (.cons d .nil))
  | .mk i kids, pre, s, hf, ha => by
    rw [addDecl]
    refine (grow_info (kids := kids) (hf [] i .here) (fun s h => grow_decls texts kids (pre ++ [i]) s
      (fun outer x hx => hf (i :: outer) x (.under hx)) h) ha).congr (fun e => ?_) (fun r h => Rof_cons (.inl h)) (fun r h => ?_)
    · rw [Sof_cons]
      exact ⟨.inl, fun h => h.elim id fun ⟨_, _, h, _⟩ => absurd h inside_nil⟩
    · rcases Cof_cons h with h | ⟨_, _, h, _⟩
      · exact h
      · exact absurd h inside_nil

theorem grow_decls (texts : List Bytes) : ∀ (ds : Decls) (pre : List Info) (s : St), (∀ outer x, Inside ds outer x → Fine texts x) →
    s.allow = allowOf texts pre → Grow s (addDecls (gather texts) ds (scopeName pre) s) (Sof texts pre ds) (Rof ds) (Cof texts pre ds)
  | .nil, pre, s, _, _ => by
    rw [addDecls]
    exact (Grow.refl s).congr (fun e => ⟨fun h => h.elim, fun ⟨_, _, h, _⟩ => absurd h inside_nil⟩) (fun _ h => h.elim)
      (fun r ⟨_, _, h, _⟩ => absurd h inside_nil)
  | .cons (.mk i kids) r, pre, s, hf, ha => by
    rw [addDecls]
    have h1 := grow_decl texts (.mk i kids) pre s (fun outer x hx => hf outer x (by
      rcases inside_cons.1 hx with ⟨rfl, rfl⟩ | ⟨o, rfl, h⟩ | h
      · exact .here
      · exact .under h
      · exact absurd h inside_nil)) ha
    have h2 := grow_decls texts r pre _ (fun outer x hx => hf outer x (.next hx)) (h1.allow.trans ha)
    refine (h1.trans h2).congr (fun e => ?_) (fun x h => ?_) (fun x h => ?_)
    · rw [Sof_cons, Sof_cons]
      refine or_congr_left ⟨fun h => h.elim id fun ⟨_, _, h, _⟩ => absurd h inside_nil, .inl⟩
    · rcases h with ⟨o, y, hin, h2⟩ | ⟨o, y, h1, h2⟩
      · rcases inside_cons.1 hin with ⟨rfl, rfl⟩ | ⟨o, rfl, h⟩ | h
        · exact ⟨[], _, .here, by assumption⟩
        · exact ⟨i :: o, y, .under h, h2⟩
        · exact absurd h inside_nil
      · exact ⟨o, y, .next h1, h2⟩
    · obtain ⟨outer, y, hin, hr, hrest⟩ := h
      rcases inside_cons.1 hin with ⟨rfl, rfl⟩ | ⟨o, rfl, h⟩ | h
      · exact .inl ⟨[], _, .here, hr, hrest⟩
      · exact .inl ⟨i :: o, y, .under h, hr, hrest⟩
      · exact .inr ⟨outer, y, h, hr, hrest⟩
end

theorem topLevel_iff {k : Kind} : topLevel k = true ↔ k = .namespace ∨ k = .cls ∨ k = .function ∨ k = .enum ∨ k = .template := by
  cases k <;> decide

theorem inside_top {ds : Decls} {outer : List Info} {x : Info} (h : Inside ds outer x) : ∃ t, (outer ++ [x]).head? = some t := by
  cases outer <;> exact ⟨_, rfl⟩

theorem declared_nil {outer : List Info} {x : Info} : ¬ Declared .nil outer x := fun h => inside_nil h.1

theorem declared_cons {i : Info} {kids r : Decls} {outer : List Info} {x : Info} : Declared (.cons (.mk i kids) r) outer x ↔
    (topLevel i.kind = true ∧ Inside (.cons (.mk i kids) .nil) outer x) ∨ Declared r outer x := by
  constructor
  · rintro ⟨h, ht⟩
    rcases inside_cons.1 h with ⟨rfl, rfl⟩ | ⟨o, rfl, h'⟩ | h'
    · exact .inl ⟨topLevel_iff.2 (ht _ rfl), .here⟩
    · exact .inl ⟨topLevel_iff.2 (ht _ rfl), .under h'⟩
    · exact .inr ⟨h', ht⟩
  · rintro (⟨ht, h⟩ | ⟨h, ht⟩)
    · rcases inside_cons.1 h with ⟨rfl, rfl⟩ | ⟨o, rfl, h'⟩ | h'
      · refine ⟨.here, fun t e => ?_⟩
        obtain rfl := Option.some.inj (show some _ = some t from e)
        exact topLevel_iff.1 ht
      · refine ⟨.under h', fun t e => ?_⟩
        obtain rfl := Option.some.inj (show some _ = some t from e)
        exact topLevel_iff.1 ht
      · exact absurd h' inside_nil
    · exact ⟨.next h, ht⟩

/-- What a translation unit adds. -/
theorem grow_walk (texts : List Bytes) : ∀ (ds : Decls) (s : St), (∀ outer x, Inside ds outer x → Fine texts x) → s.allow = false →
    Grow s (walk (gather texts) ds s)
      (fun e => ∃ outer x, Declared ds outer x ∧ Reflected texts outer x ∧ e ∈ entries outer x)
      (fun r => ∃ outer x, Declared ds outer x ∧ r.parent = x.name ∧ r.attr ∈ x.attrs)
      (fun r => ∃ outer x, Declared ds outer x ∧ Reflected texts outer x ∧ Recorded texts x ∧ r.parent = x.name ∧ r.attr ∈ x.attrs ∧
        word r.attr.name = none)
  | .nil, s, _, _ => by
    rw [walk]
    exact (Grow.refl s).congr (fun e => ⟨fun h => h.elim, fun ⟨_, _, h, _⟩ => absurd h declared_nil⟩) (fun _ h => h.elim)
      (fun r ⟨_, _, h, _⟩ => absurd h declared_nil)
  | .cons (.mk i kids) r, s, hf, ha => by
    rw [walk, Decl.kind]
    by_cases ht : topLevel i.kind = true
    · rw [if_pos ht]
      have h1 := grow_decl texts (.mk i kids) [] s (fun outer x hx => hf outer x (by
        rcases inside_cons.1 hx with ⟨rfl, rfl⟩ | ⟨o, rfl, h⟩ | h
        · exact .here
        · exact .under h
        · exact absurd h inside_nil)) ha
      have h2 := grow_walk texts r _ (fun outer x hx => hf outer x (.next hx)) (h1.allow.trans ha)
      refine (h1.trans h2).congr (fun e => ?_) (fun x h => ?_) (fun x h => ?_)
      · constructor
        · rintro (⟨outer, x, h, hr, he⟩ | ⟨outer, x, h, hr⟩)
          · exact ⟨outer, x, declared_cons.2 (.inl ⟨ht, h⟩), hr, he⟩
          · exact ⟨outer, x, declared_cons.2 (.inr h), hr⟩
        · rintro ⟨outer, x, h, hr, he⟩
          rcases declared_cons.1 h with h | h
          · exact .inl ⟨outer, x, h.2, hr, he⟩
          · exact .inr ⟨outer, x, h, hr, he⟩
      · rcases h with ⟨outer, y, h, hr⟩ | ⟨outer, y, h, hr⟩
        · exact ⟨outer, y, declared_cons.2 (.inl ⟨ht, h⟩), hr⟩
        · exact ⟨outer, y, declared_cons.2 (.inr h), hr⟩
      · obtain ⟨outer, y, h, hr⟩ := h
        rcases declared_cons.1 h with h | h
        · exact .inl ⟨outer, y, h.2, hr⟩
        · exact .inr ⟨outer, y, h, hr⟩
    · rw [if_neg ht]
      have hd : ∀ {outer x}, Declared (.cons (.mk i kids) r) outer x ↔ Declared r outer x := by
        intro outer x
        rw [declared_cons]
        exact ⟨fun h => h.elim (fun h => absurd h.1 ht) id, .inr⟩
      simp only [hd]
      exact grow_walk texts r s (fun outer x hx => hf outer x (.next hx)) ha

/-! ### The state is restored -/

theorem add_allow (s : St) (e : Entry) : (s.add e).allow = s.allow := rfl

theorem addOnce_allow (s : St) (e : Entry) : (s.addOnce e).allow = s.allow := by
  rw [St.addOnce]
  split <;> rfl

theorem constants_allow (f : Bytes → Entry) (cs : List Bytes) (s : St) : (cs.foldl (fun s c => s.add (f c)) s).allow = s.allow := by
  induction cs generalizing s with
  | nil => rfl
  | cons c cs ih => exact ih _

theorem addKind_allow (i : Info) (inner : Bytes → St → St) (h : ∀ p s, (inner p s).allow = s.allow) (parent : Bytes) (s : St) :
    (addKind i inner parent s).allow = s.allow := by
  unfold addKind
  split
  · rw [h, addOnce_allow]
  · split
    · rfl
    · split
      · rfl
      · split
        · exact h _ _
        · split
          · exact addOnce_allow _ _
          · rw [h, addOnce_allow]
  · exact constants_allow (fun c => ⟨.constant, constantName parent c, i.name⟩) _ _
  · split <;> rfl
  · split <;> rfl
  · split <;> rfl
  · split
    · exact addOnce_allow _ _
    · rfl
  · rfl

theorem addInfo_allow (specs : Specs) (i : Info) (inner : Bytes → St → St) (h : ∀ p s, (inner p s).allow = s.allow) (parent : Bytes) (s : St) :
    (addInfo specs i inner parent s).allow = s.allow := by
  rw [addInfo]
  split
  · rfl
  · dsimp only
    split
    · rfl
    · split
      · rfl
      · split
        · exact addKind_allow i inner h _ _
        · rfl

mutual
theorem addDecl_allow (specs : Specs) : ∀ (d : Decl) (parent : Bytes) (s : St), (addDecl specs d parent s).allow = s.allow
  | .mk i kids, parent, s => by
    rw [addDecl]
    exact addInfo_allow specs i _ (fun p s => addDecls_allow specs kids p s) parent s

theorem addDecls_allow (specs : Specs) : ∀ (ds : Decls) (parent : Bytes) (s : St), (addDecls specs ds parent s).allow = s.allow
  | .nil, _, _ => rfl
  | .cons d r, parent, s => by rw [addDecls, addDecls_allow specs r, addDecl_allow specs d]
end

end Clr.Scan
