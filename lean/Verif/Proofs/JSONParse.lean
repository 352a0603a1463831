import Verif.Proofs.JSONSound

/-!
The JSON parser on any text: it only moves forward and keeps the first error (`Prog`), the steps it is given suffice
(`loadJSON_not_fuel`), and what it accepts without an error is in the grammar (`parse_sound`).
-/
namespace Clr.JSON

/-! ### It moves forward -/

/-- What is left: the characters, and the token. -/
def left (s : St) : Nat := s.c.rest.length + (if s.t.isValid then 1 else 0)

/-- From one state to a later one. -/
def Prog (s s' : St) : Prop := left s' ≤ left s ∧ (s'.c.err.code = .none → s.c.err.code = .none)

theorem Prog.refl (s : St) : Prog s s := ⟨Nat.le_refl _, id⟩

theorem Prog.trans {a b c : St} (h : Prog a b) (h' : Prog b c) : Prog a c :=
  ⟨Nat.le_trans h'.1 h.1, fun x => h.2 (h'.2 x)⟩

/-- Forward by a token. -/
def Step (s s' : St) : Prop := Prog s s' ∧ left s' < left s

theorem Step.trans {a b c : St} (h : Step a b) (h' : Prog b c) : Step a c :=
  ⟨h.1.trans h', Nat.lt_of_le_of_lt h'.1 h.2⟩

theorem prog_err {s : St} {k : Code} (hk : k ≠ .none) : Prog s { s with c := s.c.setError k } := by
  refine ⟨by simp [left], fun h => absurd h (setError_code _ hk)⟩

theorem ofRes_ok {α : Type} {r : Res α} {a : α} (h : Out.ofRes r = .ok a) : r = .ok a := by
  cases r <;> simp [Out.ofRes] at h
  rw [h]

theorem ofRes_fuel {α : Type} {r : Res α} : Out.ofRes r ≠ .fuel := by
  cases r <;> simp [Out.ofRes]

theorem nextTok_eq {e : Env} {s s' : St} (h : nextTok e s = .ok s') :
    ∃ r, nextToken e.fl.strtod s.c = .ok r ∧ s' = { s with t := r.1, c := r.2 } := by
  unfold nextTok at h
  obtain ⟨r, h1, h⟩ := Out.bind_eq_ok.1 h
  cases h
  exact ⟨r, ofRes_ok h1, rfl⟩

theorem nextTok_left {e : Env} {s s' : St} (h : nextTok e s = .ok s') :
    left s' ≤ s.c.rest.length ∧ (s'.c.err.code = .none → s.c.err.code = .none) := by
  obtain ⟨r, h1, rfl⟩ := nextTok_eq h
  obtain ⟨h2, h3⟩ := nextToken_fwd h1
  refine ⟨?_, h2.clean⟩
  unfold left
  dsimp only
  have := h2.length_le
  split
  · rename_i hv
    have := h3 hv
    omega
  · omega

theorem nextTok_prog {e : Env} {s s' : St} (h : nextTok e s = .ok s') : Prog s s' := by
  obtain ⟨h1, h2⟩ := nextTok_left h
  exact ⟨Nat.le_trans h1 (Nat.le_add_right _ _), h2⟩

theorem nextTok_step {e : Env} {s s' : St} (hv : s.t.isValid = true) (h : nextTok e s = .ok s') : Step s s' := by
  refine ⟨nextTok_prog h, ?_⟩
  obtain ⟨h1, h2⟩ := nextTok_left h
  have : left s = s.c.rest.length + 1 := by simp [left, hv]
  omega

theorem isValid_of_type {t : Tok} {y : TokType} (h : t.type = y) (hy : y ≠ .none) : t.isValid = true := by
  unfold Tok.isValid
  rw [h]
  simpa using hy

theorem expect_eq {e : Env} {s : St} {y : TokType} {r : Tok × St} (hy : y ≠ .none) (h : expect e s y = .ok r) :
    (s.t.type ≠ y ∧ r = ({}, { s with c := s.c.setError .unexpectedToken })) ∨
      (s.t.type = y ∧ r.1 = s.t ∧ nextTok e s = .ok r.2 ∧ Step s r.2) := by
  unfold expect at h
  split at h
  · rename_i hne
    cases h
    exact .inl ⟨hne, rfl⟩
  · rename_i he
    have he : s.t.type = y := Classical.not_not.1 he
    obtain ⟨s', h1, h⟩ := Out.bind_eq_ok.1 h
    cases h
    exact .inr ⟨he, rfl, h1, nextTok_step (isValid_of_type he hy) h1⟩

theorem expect_prog {e : Env} {s : St} {y : TokType} {r : Tok × St} (hy : y ≠ .none) (h : expect e s y = .ok r) : Prog s r.2 := by
  rcases expect_eq hy h with ⟨-, rfl⟩ | ⟨-, -, -, h⟩
  · exact prog_err (by simp)
  · exact h.1

theorem expect_step {e : Env} {s : St} {y : TokType} {r : Tok × St} (hy : y ≠ .none) (h : expect e s y = .ok r)
    (hv : ¬(!r.1.isValid) = true) : Step s r.2 := by
  rcases expect_eq hy h with ⟨-, rfl⟩ | ⟨-, -, -, h⟩
  · simp [Tok.isValid] at hv
  · exact h

theorem prog_mem {s s' : St} {m : Mem} (h : Prog s s') : Prog s { s' with m := m } := h

theorem prog_mem' {s s' : St} {m : Mem} (h : Prog { s with m := m } s') : Prog s s' := h

/-- A parser of values moves forward. -/
def PVok (pv : ValueParser) : Prop := ∀ s tgt p arr s', pv s tgt p arr = .ok s' → Prog s s'

theorem parseElements_prog {e : Env} {pv : ValueParser} (hpv : PVok pv) : ∀ (n : Nat) (w : Option Writer) (s : St) (r : Nat × St),
    parseElements e pv n w s = .ok r → Prog s r.2 := by
  intro n
  induction n with
  | zero => intro w s r h; rw [parseElements] at h; cases h
  | succ n ih =>
    intro w s r h
    cases w with
    | none =>
      rw [parseElements] at h
      obtain ⟨s1, h1, h⟩ := Out.bind_eq_ok.1 h
      have p1 := hpv _ _ _ _ _ h1
      split at h
      · cases h; exact p1
      · obtain ⟨s2, h2, h⟩ := Out.bind_eq_ok.1 h
        obtain ⟨r3, h3, h⟩ := Out.bind_eq_ok.1 h
        cases h
        exact (p1.trans (nextTok_prog h2)).trans (ih _ _ r3 h3)
    | some w =>
      rw [parseElements] at h
      obtain ⟨r0, h0, h⟩ := Out.bind_eq_ok.1 h
      obtain ⟨s1, h1, h⟩ := Out.bind_eq_ok.1 h
      have p1 := prog_mem' (hpv _ _ _ _ _ h1)
      split at h
      · cases h; exact p1
      · obtain ⟨s2, h2, h⟩ := Out.bind_eq_ok.1 h
        obtain ⟨r3, h3, h⟩ := Out.bind_eq_ok.1 h
        cases h
        exact (p1.trans (nextTok_prog h2)).trans (ih _ _ r3 h3)

theorem arrayWriter_prog {e : Env} {pv : ValueParser} (hpv : PVok pv) {n : Nat} {s : St} {tgt : Target} {isPtr : Bool}
    {arr : Option Nat} {r : Option Writer × St} (h : arrayWriter e pv n s tgt isPtr arr = .ok r) :
    Prog s r.2 ∧ r.2.t = s.t ∧ r.2.c.rest = s.c.rest := by
  unfold arrayWriter at h
  split at h
  · cases h; exact ⟨Prog.refl _, rfl, rfl⟩
  · obtain ⟨q, h1, h⟩ := Out.bind_eq_ok.1 h
    cases h
    have p := parseElements_prog hpv _ _ _ _ h1
    exact ⟨⟨by simp [left], p.2⟩, rfl, rfl⟩
  · cases h
  · cases h; exact ⟨Prog.refl _, rfl, rfl⟩

theorem parseArray_prog {e : Env} {pv : ValueParser} (hpv : PVok pv) {n : Nat} {s : St} {tgt : Target} {isPtr : Bool}
    {arr : Option Nat} {s' : St} (h : parseArray e pv n s tgt isPtr arr = .ok s') : Prog s s' := by
  unfold parseArray at h
  obtain ⟨r, h1, h⟩ := Out.bind_eq_ok.1 h
  have p1 := expect_prog (by simp) h1
  split at h
  · cases h; exact p1
  · split at h
    · exact p1.trans (nextTok_prog h)
    · obtain ⟨w, h2, h⟩ := Out.bind_eq_ok.1 h
      obtain ⟨q, h3, h⟩ := Out.bind_eq_ok.1 h
      obtain ⟨x, h4, h⟩ := Out.bind_eq_ok.1 h
      cases h
      exact ((p1.trans (arrayWriter_prog hpv h2).1).trans (parseElements_prog hpv _ _ _ _ h3)).trans (expect_prog (by simp) h4)

theorem parsePair_prog {e : Env} {pv : ValueParser} (hpv : PVok pv) {s : St} {tgt : Target} {s' : St}
    (h : parsePair e pv s tgt = .ok s') : Prog s s' := by
  unfold parsePair at h
  obtain ⟨r, h1, h⟩ := Out.bind_eq_ok.1 h
  have p1 := expect_prog (by simp) h1
  split at h
  · cases h; exact p1
  · obtain ⟨q, h2, h⟩ := Out.bind_eq_ok.1 h
    have p2 := p1.trans (expect_prog (by simp) h2)
    split at h
    · cases h; exact p2
    · split at h
      · exact p2.trans (hpv _ _ _ _ _ h)
      · exact p2.trans (hpv _ _ _ _ _ h)

theorem parseMembers_prog {e : Env} {pv : ValueParser} (hpv : PVok pv) : ∀ (n : Nat) (s : St) (tgt : Target) (s' : St),
    parseMembers e pv n s tgt = .ok s' → Prog s s' := by
  intro n
  induction n with
  | zero => intro s tgt s' h; rw [parseMembers] at h; cases h
  | succ n ih =>
    intro s tgt s' h
    rw [parseMembers] at h
    obtain ⟨s1, h1, h⟩ := Out.bind_eq_ok.1 h
    have p1 := parsePair_prog hpv h1
    split at h
    · obtain ⟨s2, h2, h⟩ := Out.bind_eq_ok.1 h
      exact (p1.trans (nextTok_prog h2)).trans (ih _ _ _ h)
    · cases h; exact p1

/-- A parser of objects moves forward. -/
def POok (po : ObjectParser) : Prop := ∀ s tgt s', po s tgt = .ok s' → Prog s s'

theorem dictLoop_prog {e : Env} {pv : ValueParser} {po : ObjectParser} (hpv : PVok pv) (hpo : POok po) {kt vt : Ty} {isPtr : Bool} {a : Nat} :
    ∀ (n : Nat) (s s' : St), dictLoop e pv po kt vt isPtr a n s = .ok s' → Prog s s' := by
  intro n
  induction n with
  | zero => intro s s' h; rw [dictLoop] at h; cases h
  | succ n ih =>
    intro s s' h
    rw [dictLoop] at h
    split at h
    · split at h
      · obtain ⟨s1, h1, h⟩ := Out.bind_eq_ok.1 h
        have p1 : Prog s s1 := prog_mem' (hpv _ _ _ _ _ h1)
        obtain ⟨r, h2, h⟩ := Out.bind_eq_ok.1 h
        have p2 := p1.trans (expect_prog (by simp) h2)
        split at h
        · cases h; exact p2
        · obtain ⟨s3, h3, h⟩ := Out.bind_eq_ok.1 h
          have p3 := p2.trans (prog_mem' (hpo _ _ _ h3))
          obtain ⟨r4, h4, h⟩ := Out.bind_eq_ok.1 h
          have p4 := p3.trans (expect_prog (by simp) h4)
          split at h
          · obtain ⟨s5, h5, h⟩ := Out.bind_eq_ok.1 h
            exact (p4.trans (nextTok_prog h5)).trans (ih _ _ h)
          · exact p4.trans (ih _ _ h)
      · cases h
    · cases h; exact Prog.refl _

theorem parseDict_prog {e : Env} {pv : ValueParser} {po : ObjectParser} (hpv : PVok pv) (hpo : POok po) {n : Nat} {ty : Ty} {a : Nat} {s s' : St}
    (h : parseDict e pv po n s ty a = .ok s') : Prog s s' := by
  unfold parseDict at h
  split at h
  · exact prog_mem' (dictLoop_prog hpv hpo _ _ _ h)
  · split at h
    · cases h
    · cases h
      exact prog_mem (Prog.refl _)

theorem parse_prog (e : Env) : ∀ n, PVok (parseValue e n) ∧ POok (parseObject e n) := by
  intro n
  induction n with
  | zero =>
    constructor
    · intro s tgt p arr s' h; rw [parseValue] at h; cases h
    · intro s tgt s' h; rw [parseObject] at h; cases h
  | succ n ih =>
    constructor
    · intro s tgt p arr s' h
      rw [parseValue] at h
      split at h
      · obtain ⟨r, h1, h⟩ := Out.bind_eq_ok.1 h
        cases h
        exact prog_mem (expect_prog (by simp) h1)
      · obtain ⟨r, h1, h⟩ := Out.bind_eq_ok.1 h
        cases h
        exact prog_mem (expect_prog (by simp) h1)
      · obtain ⟨r, h1, h⟩ := Out.bind_eq_ok.1 h
        obtain ⟨m, h2, h⟩ := Out.bind_eq_ok.1 h
        cases h
        exact prog_mem (expect_prog (by simp) h1)
      · obtain ⟨s1, h1, h⟩ := Out.bind_eq_ok.1 h
        obtain ⟨r, h2, h⟩ := Out.bind_eq_ok.1 h
        cases h
        exact (ih.2 _ _ _ h1).trans (expect_prog (by simp) h2)
      · exact parseArray_prog ih.1 h
      · obtain ⟨r, h1, h⟩ := Out.bind_eq_ok.1 h
        cases h
        exact prog_mem (expect_prog (by simp) h1)
      · obtain ⟨r, h1, h⟩ := Out.bind_eq_ok.1 h
        cases h
        exact prog_mem (expect_prog (by simp) h1)
      · obtain ⟨r, h1, h⟩ := Out.bind_eq_ok.1 h
        cases h
        exact prog_mem (expect_prog (by simp) h1)
      · cases h
        exact prog_err (by simp)
    · intro s tgt s' h
      rw [parseObject.eq_def] at h
      dsimp only at h
      obtain ⟨r, h1, h⟩ := Out.bind_eq_ok.1 h
      have p1 := expect_prog (by simp) h1
      split at h
      · cases h; exact p1
      · split at h
        · cases h; exact p1
        · split at h
          · split at h
            · exact p1.trans (parseDict_prog ih.1 ih.2 h)
            · exact p1.trans (parseMembers_prog ih.1 _ _ _ _ h)
          · exact p1.trans (parseMembers_prog ih.1 _ _ _ _ h)

/-! ### The steps suffice -/

theorem bind_not_fuel {α β : Type} {x : Out α} {f : α → Out β} (hx : x ≠ .fuel) (hf : ∀ a, x = .ok a → f a ≠ .fuel) :
    (x >>= f) ≠ .fuel := by
  cases x with
  | ok a => exact hf a rfl
  | trap => simp
  | ub => simp
  | fuel => exact absurd rfl hx

theorem ok_not_fuel {α : Type} {a : α} : Out.ok a ≠ .fuel := by simp

theorem nextTok_not_fuel {e : Env} {s : St} : nextTok e s ≠ .fuel := bind_not_fuel ofRes_fuel (fun _ _ => ok_not_fuel)

theorem expect_not_fuel {e : Env} {s : St} {y : TokType} : expect e s y ≠ .fuel := by
  unfold expect
  split
  · exact ok_not_fuel
  · exact bind_not_fuel nextTok_not_fuel (fun _ _ => ok_not_fuel)

theorem addEmpty_not_fuel {w : Writer} {m : Mem} : w.addEmpty m ≠ .fuel := by
  unfold Writer.addEmpty
  split
  · split <;> simp
  · simp

theorem ofRes_bind_not_fuel {α β : Type} {x : Res α} {g : α → β} : (Out.ofRes x >>= fun a => Out.ok (g a)) ≠ .fuel :=
  bind_not_fuel ofRes_fuel fun _ _ => ok_not_fuel

theorem loadDecimal_not_fuel {e : Env} {m : Mem} {t : Tok} {tgt : Target} : loadDecimal e m t tgt ≠ .fuel := by
  unfold loadDecimal
  repeat' split
  all_goals first | exact ok_not_fuel | exact ofRes_bind_not_fuel | simp

/-- A parser of values does not run out on states with at most `k` left. -/
def PVfin (pv : ValueParser) (k : Nat) : Prop := ∀ s tgt p arr, left s ≤ k → pv s tgt p arr ≠ .fuel

theorem PVfin.mem {pv : ValueParser} {k : Nat} (h : PVfin pv k) {s : St} {m : Mem} {tgt : Target} {p : Bool} {arr : Option Nat} (hs : left s ≤ k) :
    pv { s with m := m } tgt p arr ≠ .fuel := h _ _ _ _ hs

theorem parseElements_fin {e : Env} {pv : ValueParser} (hpv : PVok pv) {k : Nat} (hf : PVfin pv k) : ∀ (n : Nat) (w : Option Writer) (s : St),
    left s ≤ k → left s < n → parseElements e pv n w s ≠ .fuel := by
  intro n
  induction n with
  | zero => intro w s _ h; omega
  | succ n ih =>
    intro w s hk hn
    have step : ∀ (s1 : St) (w' : Option Writer), Prog s s1 →
        (if s1.t.type ≠ .comma then Out.ok (1, s1) else do
          let s ← nextTok e s1
          let r ← parseElements e pv n w' s
          .ok (r.1 + 1, r.2)) ≠ .fuel := by
      intro s1 w' p1
      split
      · exact ok_not_fuel
      · rename_i hc
        have hc : s1.t.type = .comma := Classical.not_not.1 hc
        refine bind_not_fuel nextTok_not_fuel fun s2 h2 => bind_not_fuel ?_ (fun _ _ => ok_not_fuel)
        have p2 := nextTok_step (isValid_of_type hc (by simp)) h2
        have := p1.1
        have := p2.2
        exact ih _ _ (by omega) (by omega)
    cases w with
    | none =>
      rw [parseElements]
      exact bind_not_fuel (hf _ _ _ _ hk) fun s1 h1 => step s1 none (hpv _ _ _ _ _ h1)
    | some w =>
      rw [parseElements]
      refine bind_not_fuel addEmpty_not_fuel fun r0 h0 => ?_
      exact bind_not_fuel (hf.mem hk) fun s1 h1 => step s1 _ (prog_mem' (hpv _ _ _ _ _ h1))

theorem arrayWriter_fin {e : Env} {pv : ValueParser} (hpv : PVok pv) {k : Nat} (hf : PVfin pv k) {n : Nat} {s : St} {tgt : Target} {isPtr : Bool}
    {arr : Option Nat} (hk : left s ≤ k) (hn : left s < n) : arrayWriter e pv n s tgt isPtr arr ≠ .fuel := by
  unfold arrayWriter
  split
  · exact ok_not_fuel
  · exact bind_not_fuel (parseElements_fin hpv hf _ _ _ hk hn) (fun _ _ => ok_not_fuel)
  · simp
  · exact ok_not_fuel

theorem parseArray_fin {e : Env} {pv : ValueParser} (hpv : PVok pv) {k : Nat} (hf : PVfin pv k) {n : Nat} {s : St} {tgt : Target} {isPtr : Bool}
    {arr : Option Nat} (hk : left s ≤ k + 1) (hn : left s ≤ n) : parseArray e pv n s tgt isPtr arr ≠ .fuel := by
  unfold parseArray
  refine bind_not_fuel expect_not_fuel fun r h1 => ?_
  split
  · exact ok_not_fuel
  · rename_i hv
    have p1 := (expect_step (by simp) h1 hv).2
    split
    · exact nextTok_not_fuel
    · refine bind_not_fuel (arrayWriter_fin hpv hf (by omega) (by omega)) fun w h2 => ?_
      have p2 := (arrayWriter_prog hpv h2).1.1
      refine bind_not_fuel (parseElements_fin hpv hf _ _ _ (by omega) (by omega)) fun q h3 => ?_
      exact bind_not_fuel expect_not_fuel (fun _ _ => ok_not_fuel)

theorem parsePair_fin {e : Env} {pv : ValueParser} {k : Nat} (hf : PVfin pv k) {s : St} {tgt : Target} (hk : left s ≤ k) :
    parsePair e pv s tgt ≠ .fuel := by
  unfold parsePair
  refine bind_not_fuel expect_not_fuel fun r h1 => ?_
  have p1 := (expect_prog (by simp) h1).1
  split
  · exact ok_not_fuel
  · refine bind_not_fuel expect_not_fuel fun q h2 => ?_
    have p2 := (expect_prog (by simp) h2).1
    split
    · exact ok_not_fuel
    · split
      · exact hf _ _ _ _ (by omega)
      · exact hf _ _ _ _ (by omega)

theorem parseMembers_fin {e : Env} {pv : ValueParser} (hpv : PVok pv) {k : Nat} (hf : PVfin pv k) : ∀ (n : Nat) (s : St) (tgt : Target),
    left s ≤ k → left s < n → parseMembers e pv n s tgt ≠ .fuel := by
  intro n
  induction n with
  | zero => intro s tgt _ h; omega
  | succ n ih =>
    intro s tgt hk hn
    rw [parseMembers]
    refine bind_not_fuel (parsePair_fin hf hk) fun s1 h1 => ?_
    have p1 := (parsePair_prog hpv h1).1
    split
    · rename_i hc
      refine bind_not_fuel nextTok_not_fuel fun s2 h2 => ?_
      have p2 := (nextTok_step (isValid_of_type hc (by simp)) h2).2
      exact ih _ _ (by omega) (by omega)
    · exact ok_not_fuel

/-- The same of a parser of objects. -/
def POfin (po : ObjectParser) (k : Nat) : Prop := ∀ s tgt, left s ≤ k → po s tgt ≠ .fuel

theorem POfin.mem {po : ObjectParser} {k : Nat} (h : POfin po k) {s : St} {m : Mem} {tgt : Target} (hs : left s ≤ k) :
    po { s with m := m } tgt ≠ .fuel := h _ _ hs

theorem dictLoop_fin {e : Env} {pv : ValueParser} {po : ObjectParser} (hpv : PVok pv) (hpo : POok po) {k : Nat} (hf : PVfin pv k) (hg : POfin po k)
    {kt vt : Ty} {isPtr : Bool} {a : Nat} : ∀ (n : Nat) (s : St), left s ≤ k → left s < n → dictLoop e pv po kt vt isPtr a n s ≠ .fuel := by
  intro n
  induction n with
  | zero => intro s _ h; omega
  | succ n ih =>
    intro s hk hn
    rw [dictLoop]
    split
    · split
      · refine bind_not_fuel (hf.mem hk) fun s1 h1 => ?_
        have p1 : Prog s s1 := prog_mem' (hpv _ _ _ _ _ h1)
        refine bind_not_fuel expect_not_fuel fun r h2 => ?_
        split
        · exact ok_not_fuel
        · rename_i hv
          have p2 := (expect_step (by simp) h2 hv).2
          have := p1.1
          refine bind_not_fuel (hg.mem (by omega)) fun s3 h3 => ?_
          have p3 : Prog r.2 s3 := prog_mem' (hpo _ _ _ h3)
          have := p3.1
          refine bind_not_fuel expect_not_fuel fun r4 h4 => ?_
          have p4 := (expect_prog (by simp) h4).1
          split
          · refine bind_not_fuel nextTok_not_fuel fun s5 h5 => ?_
            have p5 := (nextTok_prog h5).1
            exact ih _ (by omega) (by omega)
          · exact ih _ (by omega) (by omega)
      · simp
    · exact ok_not_fuel

theorem parseDict_fin {e : Env} {pv : ValueParser} {po : ObjectParser} (hpv : PVok pv) (hpo : POok po) {k : Nat} (hf : PVfin pv k) (hg : POfin po k)
    {n : Nat} {ty : Ty} {a : Nat} {s : St} (hk : left s ≤ k) (hn : left s < n) : parseDict e pv po n s ty a ≠ .fuel := by
  unfold parseDict
  split
  · exact dictLoop_fin hpv hpo hf hg _ _ hk hn
  · split <;> simp

theorem parse_fin (e : Env) : ∀ n, (∀ s tgt p arr, 2 * left s + 1 ≤ n → parseValue e n s tgt p arr ≠ .fuel) ∧
    (∀ s tgt, 2 * left s ≤ n → 1 ≤ n → parseObject e n s tgt ≠ .fuel) := by
  intro n
  induction n with
  | zero => exact ⟨fun _ _ _ _ h => by omega, fun _ _ _ h => by omega⟩
  | succ n ih =>
    have hV : ∀ k, 2 * k + 1 ≤ n → PVfin (parseValue e n) k := fun k hk s tgt p arr hs => ih.1 s tgt p arr (by omega)
    have ho := parse_prog e n
    constructor
    · intro s tgt p arr hs
      rw [parseValue]
      split
      · exact bind_not_fuel expect_not_fuel (fun _ _ => ok_not_fuel)
      · exact bind_not_fuel expect_not_fuel (fun _ _ => ok_not_fuel)
      · refine bind_not_fuel expect_not_fuel fun r h1 => bind_not_fuel ?_ (fun _ _ => ok_not_fuel)
        exact loadDecimal_not_fuel
      · rename_i hb
        have hl : 1 ≤ left s := by simp [left, isValid_of_type hb (by simp)]
        exact bind_not_fuel (ih.2 _ _ (by omega) (by omega)) fun s1 _ => bind_not_fuel expect_not_fuel (fun _ _ => ok_not_fuel)
      · rename_i hb
        have hl : 1 ≤ left s := by simp [left, isValid_of_type hb (by simp)]
        exact parseArray_fin (k := left s - 1) ho.1 (hV _ (by omega)) (by omega) (by omega)
      · exact bind_not_fuel expect_not_fuel (fun _ _ => ok_not_fuel)
      · exact bind_not_fuel expect_not_fuel (fun _ _ => ok_not_fuel)
      · exact bind_not_fuel expect_not_fuel (fun _ _ => ok_not_fuel)
      · exact ok_not_fuel
    · intro s tgt hs _
      rw [parseObject.eq_def]
      dsimp only
      refine bind_not_fuel expect_not_fuel fun r h1 => ?_
      split
      · exact ok_not_fuel
      · rename_i hv
        have p1 := (expect_step (by simp) h1 hv).2
        have hV := hV (left s - 1) (by omega)
        have hO : POfin (parseObject e n) (left s - 1) := fun s' tgt' h' => ih.2 s' tgt' (by omega) (by omega)
        split
        · exact ok_not_fuel
        · split
          · split
            · exact parseDict_fin ho.1 ho.2 hV hO (by omega) (by omega)
            · exact parseMembers_fin ho.1 hV _ _ _ (by omega) (by omega)
          · exact parseMembers_fin ho.1 hV _ _ _ (by omega) (by omega)

/-- The steps `loadJSON` takes always suffice. -/
theorem loadJSON_not_fuel (e : Env) (text : Bytes) (m : Mem) (ty : Ty) (a : Nat) : loadJSON e text m ty a ≠ .fuel := by
  unfold loadJSON
  refine bind_not_fuel nextTok_not_fuel fun s h => ?_
  have := (nextTok_left h).1
  dsimp only at this
  refine bind_not_fuel ((parse_fin e _).2 _ _ ?_ ?_) fun _ _ => ok_not_fuel
  · unfold fuelFor; omega
  · unfold fuelFor; omega

/-! ### What is accepted is in the grammar -/

/-- The text left at a state, with its token. -/
def View (s : St) (text : Bytes) : Prop :=
  ∃ lex, text = lex ++ s.c.rest ∧ Lexeme s.t lex ∧ Munch s.t s.c.rest ∧ (s.t.isValid = false → s.c.rest = [])

theorem View.mem {s : St} {text : Bytes} {m : Mem} (h : View s text) : View { s with m := m } text := h

/-- The text of the token that is looked at. -/
theorem View.lex {s : St} {text : Bytes} (h : View s text) : ∃ lex, text = lex ++ s.c.rest ∧ Lexeme s.t lex :=
  let ⟨lex, h1, h2, _⟩ := h; ⟨lex, h1, h2⟩

/-- Two texts that do not split a run of digits. -/
def NoSplit (b q : Bytes) : Prop := ∀ x y, b.getLast? = some x → q.head? = some y → isDigit x = true → isDigit y = false

theorem Stops.noSplit {b q : Bytes} (h : Stops q) : NoSplit b q := by
  intro x y _ hy _
  cases q with
  | nil => cases hy
  | cons z r => simp at hy; subst hy; exact h z r rfl

theorem noSplit_last {s q : Bytes} {z : UInt8} (hz : isDigit z = false) : NoSplit (s ++ [z]) q := by
  intro x y hx _ hd
  simp at hx
  rw [← hx, hz] at hd
  cases hd

theorem noSplit_append {s v q : Bytes} (hv : v ≠ []) (h : NoSplit v q) : NoSplit (s ++ v) q := by
  intro x y hx hy hd
  refine h x y ?_ hy hd
  rw [← hx]
  rw [List.getLast?_append, List.getLast?_eq_some_getLast hv]
  rfl

theorem space_not_digit : ∀ b : UInt8, isSpace b = true → isDigit b = false := by
  have : ∀ n : Fin 256, isSpace (UInt8.ofNat n) = true → isDigit (UInt8.ofNat n) = false := by decide +kernel
  intro b
  have := this ⟨b.toNat, b.toNat_lt⟩
  simpa using this

/-- White space after it does not change that. -/
theorem noSplit_ws {v z q : Bytes} (hz : Ws z) (h : NoSplit v (z ++ q)) : NoSplit (v ++ z) q := by
  rcases List.eq_nil_or_concat z with rfl | ⟨z, b, rfl⟩
  · simpa using h
  · rw [List.concat_eq_append, ← List.append_assoc]
    exact noSplit_last (space_not_digit b (hz b (by simp)))

theorem noSplit_comma {v q : Bytes} : NoSplit v (44 :: q) := by
  intro x y _ hy _
  simp at hy
  subst hy
  decide

theorem nextTok_view {e : Env} {s s' : St} (h : nextTok e s = .ok s') (he : s'.c.err.code = .none) :
    ∃ w text, s.c.rest = w ++ text ∧ Ws w ∧ View s' text := by
  obtain ⟨r, h1, rfl⟩ := nextTok_eq h
  obtain ⟨w, x, h2, h3, h4, h5, h6⟩ := nextToken_sound h1 he
  exact ⟨w, x ++ r.2.rest, h2, h3, x, rfl, h4, h6, h5⟩

/-- A token that is consumed. -/
theorem expect_view {e : Env} {s : St} {y : TokType} {r : Tok × St} {text : Bytes} (hy : y ≠ .none) (h : expect e s y = .ok r)
    (he : r.2.c.err.code = .none) (hs : View s text) :
    s.t.type = y ∧ r.1 = s.t ∧ ∃ lex w text', text = lex ++ (w ++ text') ∧ Lexeme s.t lex ∧ Ws w ∧ View r.2 text' ∧ Munch s.t (w ++ text') := by
  rcases expect_eq hy h with ⟨-, rfl⟩ | ⟨h1, h2, h3, -⟩
  · exact absurd he (setError_code _ (by simp))
  · obtain ⟨lex, hl, hx, hm, -⟩ := hs
    obtain ⟨w, text', h4, h5, h6⟩ := nextTok_view h3 he
    exact ⟨h1, h2, lex, w, text', by rw [hl, h4], hx, h5, h6, by rw [← h4]; exact hm⟩

/-- A parser of values accepts values. -/
def PVsound (pv : ValueParser) : Prop :=
  ∀ s tgt p arr s' text, TgtOk tgt → pv s tgt p arr = .ok s' → s'.c.err.code = .none → View s text →
    ∃ v w text', text = v ++ (w ++ text') ∧ JVal v ∧ Ws w ∧ View s' text' ∧ NoSplit v (w ++ text')

theorem ws_empty : Ws [] := by simp [Ws]

theorem jval_ne_nil {v : Bytes} (h : JVal v) : v ≠ [] := by
  cases h with
  | num h => cases h <;> simp [Digits] at * <;> simp_all
  | _ => simp

theorem elems_ws {w es : Bytes} (hw : Ws w) (h : JElems es) : JElems (w ++ es) := by
  cases h with
  | one hw' hv' hx' =>
    rw [← List.append_assoc]
    exact .one (by intro b hb; rcases List.mem_append.1 hb with hb | hb; exact hw b hb; exact hw' b hb) hv' hx'
  | more hw' hv' hx' hr' =>
    rw [← List.append_assoc]
    exact .more (by intro b hb; rcases List.mem_append.1 hb with hb | hb; exact hw b hb; exact hw' b hb) hv' hx' hr'

theorem members_ws {w es : Bytes} (hw : Ws w) (h : JMembers es) : JMembers (w ++ es) := by
  cases h with
  | one hw' hk hx hy hv hz =>
    rw [← List.append_assoc]
    exact .one (by intro b hb; rcases List.mem_append.1 hb with hb | hb; exact hw b hb; exact hw' b hb) hk hx hy hv hz
  | more hw' hk hx hy hv hz hr =>
    rw [← List.append_assoc]
    exact .more (by intro b hb; rcases List.mem_append.1 hb with hb | hb; exact hw b hb; exact hw' b hb) hk hx hy hv hz hr

/-- Elements from a comma on. -/
theorem elems_comma {e : Env} {pv : ValueParser} {n : Nat} {w' : Option Writer} {s1 : St} {r : Nat × St} {v w text' : Bytes}
    (hv : JVal v) (hw : Ws w) (hs : View s1 text')
    (h : (if s1.t.type ≠ .comma then Out.ok (1, s1) else do
          let s ← nextTok e s1
          let r ← parseElements e pv n w' s
          .ok (r.1 + 1, r.2)) = .ok r) (he : r.2.c.err.code = .none) (hpv : PVok pv)
    (ih : ∀ s r text, parseElements e pv n w' s = .ok r → r.2.c.err.code = .none → View s text →
      ∃ es text', text = es ++ text' ∧ JElems es ∧ View r.2 text') :
    ∃ es text'', v ++ (w ++ text') = es ++ text'' ∧ JElems es ∧ View r.2 text'' := by
  split at h
  · cases h
    exact ⟨v ++ w, text', by simp, by simpa using JElems.one ws_empty hv hw, hs⟩
  · rename_i hc
    have hc : s1.t.type = .comma := Classical.not_not.1 hc
    obtain ⟨s2, h2, h⟩ := Out.bind_eq_ok.1 h
    obtain ⟨r3, h3, h⟩ := Out.bind_eq_ok.1 h
    cases h
    have e2 : s2.c.err.code = .none := (parseElements_prog hpv _ _ _ _ h3).2 he
    obtain ⟨w2, t2, h4, h5, h6⟩ := nextTok_view h2 e2
    obtain ⟨es, t3, h7, h8, h9⟩ := ih _ _ _ h3 he h6
    obtain ⟨lex, hl, hx⟩ := hs.lex
    unfold Lexeme at hx
    rw [hc] at hx
    subst hx
    refine ⟨v ++ (w ++ 44 :: (w2 ++ es)), t3, ?_, by simpa using JElems.more ws_empty hv hw (elems_ws h5 h8), h9⟩
    rw [hl, h4, h7]
    simp

theorem parseElements_sound {e : Env} {pv : ValueParser} (hpv : PVok pv) (hs : PVsound pv) : ∀ (n : Nat) (w : Option Writer), WrOk w →
    ∀ (s : St) (r : Nat × St) (text : Bytes), parseElements e pv n w s = .ok r → r.2.c.err.code = .none → View s text →
    ∃ es text', text = es ++ text' ∧ JElems es ∧ View r.2 text' := by
  intro n
  induction n with
  | zero => intro w _ s r text h; rw [parseElements] at h; cases h
  | succ n ih =>
    intro w hw s r text h he hv
    have clean : ∀ {s1 : St} {w' : Option Writer}, (if s1.t.type ≠ .comma then Out.ok (1, s1) else do
          let s ← nextTok e s1
          let r ← parseElements e pv n w' s
          .ok (r.1 + 1, r.2)) = .ok r → s1.c.err.code = .none := by
      intro s1 w' h
      split at h
      · cases h; exact he
      · obtain ⟨s2, h2, h⟩ := Out.bind_eq_ok.1 h
        obtain ⟨r3, h3, h⟩ := Out.bind_eq_ok.1 h
        cases h
        exact (nextTok_prog h2).2 ((parseElements_prog hpv _ _ _ _ h3).2 he)
    cases w with
    | none =>
      rw [parseElements] at h
      obtain ⟨s1, h1, h⟩ := Out.bind_eq_ok.1 h
      obtain ⟨v, w, t1, rfl, h3, h4, h5, -⟩ := hs _ none _ _ _ _ trivial h1 (clean h) hv
      exact elems_comma h3 h4 h5 h he hpv (ih none trivial)
    | some w =>
      rw [parseElements] at h
      obtain ⟨r0, h0, h⟩ := Out.bind_eq_ok.1 h
      obtain ⟨s1, h1, h⟩ := Out.bind_eq_ok.1 h
      obtain ⟨v, w, t1, rfl, h3, h4, h5, -⟩ := hs _ (some (_, _)) _ _ _ _ hw h1 (clean h) hv.mem
      refine elems_comma h3 h4 h5 h he hpv (ih _ ?_)
      unfold Writer.addEmpty at h0
      split at h0
      · split at h0
        · cases h0; exact hw
        · cases h0
      · cases h0; exact hw

theorem arrayWriter_ok {e : Env} {pv : ValueParser} {n : Nat} {s : St} {tgt : Target} {isPtr : Bool}
    {arr : Option Nat} {r : Option Writer × St} (ht : TgtOk tgt) (h : arrayWriter e pv n s tgt isPtr arr = .ok r) : WrOk r.1 := by
  unfold arrayWriter at h
  split at h
  · cases h; exact ht
  · obtain ⟨q, h1, h⟩ := Out.bind_eq_ok.1 h
    cases h
    simpa [WrOk, Writer.elem, TgtOk, NoDict] using ht
  · cases h
  · cases h; trivial

/-- A token that is not the expected one is an error. -/
theorem expect_bad {e : Env} {s : St} {y : TokType} {r : Tok × St} (hy : y ≠ .none) (h : expect e s y = .ok r)
    (hv : (!r.1.isValid) = true) (he : r.2.c.err.code = .none) : False := by
  rcases expect_eq hy h with ⟨-, rfl⟩ | ⟨h2, h3, -, -⟩
  · exact absurd he (setError_code _ (by simp))
  · rw [h3, isValid_of_type h2 hy] at hv
    cases hv

theorem parseArray_sound {e : Env} {pv : ValueParser} (hpv : PVok pv) (hs : PVsound pv) {n : Nat} {s : St} {tgt : Target} {isPtr : Bool}
    {arr : Option Nat} {s' : St} {text : Bytes} (ht : TgtOk tgt) (h : parseArray e pv n s tgt isPtr arr = .ok s')
    (he : s'.c.err.code = .none) (hv : View s text) :
    ∃ v w text', text = v ++ (w ++ text') ∧ JVal v ∧ Ws w ∧ View s' text' ∧ NoSplit v (w ++ text') := by
  unfold parseArray at h
  obtain ⟨r, h1, h⟩ := Out.bind_eq_ok.1 h
  have opened : r.2.c.err.code = .none → ∃ w t1, text = 91 :: (w ++ t1) ∧ Ws w ∧ View r.2 t1 := by
    intro he1
    obtain ⟨h3, h4, lex, w, t1, h5, h6, h7, h8, -⟩ := expect_view (by simp) h1 he1 hv
    unfold Lexeme at h6
    rw [h3] at h6
    subst h6
    exact ⟨w, t1, h5, h7, h8⟩
  split at h
  · rename_i hi
    cases h
    exact (expect_bad (by simp) h1 hi he).elim
  · rename_i hi
    split at h
    · rename_i hb
      obtain ⟨w, t1, rfl, h7, h0⟩ := opened ((nextTok_prog h).2 he)
      obtain ⟨lex, rfl, hx⟩ := h0.lex
      obtain ⟨w2, t2, h8, h9, h10⟩ := nextTok_view h he
      unfold Lexeme at hx
      rw [hb] at hx
      subst hx
      exact ⟨91 :: (w ++ [93]), w2, t2, by rw [h8]; simp, .arr0 h7, h9, h10, noSplit_last (s := 91 :: w) rfl⟩
    · obtain ⟨w, h2, h⟩ := Out.bind_eq_ok.1 h
      obtain ⟨q, h3, h⟩ := Out.bind_eq_ok.1 h
      obtain ⟨x, h4, h⟩ := Out.bind_eq_ok.1 h
      cases h
      have eq2 : q.2.c.err.code = .none := (expect_prog (by simp) h4).2 he
      have ew : w.2.c.err.code = .none := (parseElements_prog hpv _ _ _ _ h3).2 eq2
      obtain ⟨aw1, aw2, aw3⟩ := arrayWriter_prog hpv h2
      obtain ⟨w1, t1, rfl, h7, lex, rfl, hx⟩ := opened (aw1.2 ew)
      have hvw : View w.2 (lex ++ r.2.c.rest) := ⟨lex, by rw [aw3], by rw [aw2, aw3]; exact hx⟩
      obtain ⟨es, t2, h8, h9, h10⟩ := parseElements_sound hpv hs _ _ (arrayWriter_ok ht h2) _ _ _ h3 eq2 hvw
      obtain ⟨h11, -, lex2, w3, t3, rfl, h13, h14, h15, -⟩ := expect_view (by simp) h4 he h10
      unfold Lexeme at h13
      rw [h11] at h13
      subst h13
      refine ⟨91 :: ((w1 ++ es) ++ [93]), w3, t3, ?_, .arr (elems_ws h7 h9), h14, h15, noSplit_last (s := 91 :: (w1 ++ es)) rfl⟩
      rw [h8]
      simp

theorem parsePair_sound {e : Env} {pv : ValueParser} (hpv : PVok pv) (hs : PVsound pv) {s : St} {tgt : Target} {s' : St} {text : Bytes}
    (ht : TgtOk tgt) (h : parsePair e pv s tgt = .ok s') (he : s'.c.err.code = .none) (hv : View s text) :
    ∃ k x y v z text', text = 34 :: (k ++ 34 :: (x ++ 58 :: (y ++ (v ++ (z ++ text'))))) ∧ JStr k ∧ Ws x ∧ Ws y ∧ JVal v ∧ Ws z ∧
      View s' text' ∧ NoSplit v (z ++ text') := by
  unfold parsePair at h
  obtain ⟨r, h1, h⟩ := Out.bind_eq_ok.1 h
  split at h
  · rename_i hi
    cases h
    exact (expect_bad (by simp) h1 hi he).elim
  · obtain ⟨q, h2, h⟩ := Out.bind_eq_ok.1 h
    split at h
    · rename_i hi
      cases h
      exact (expect_bad (by simp) h2 hi he).elim
    · have key : ∃ tgt' p arr, TgtOk tgt' ∧ pv q.2 tgt' p arr = .ok s' := by
        split at h
        · rename_i f t a hm
          exact ⟨some (t, a), _, _, memberOf_ok ht hm, h⟩
        · exact ⟨none, _, _, trivial, h⟩
      obtain ⟨tgt', p, arr, ht', hp⟩ := key
      have eq2 : q.2.c.err.code = .none := (hpv _ _ _ _ _ hp).2 he
      have er : r.2.c.err.code = .none := (expect_prog (by simp) h2).2 eq2
      obtain ⟨h3, h4, lex, w, t1, rfl, h6, h7, h8, -⟩ := expect_view (by simp) h1 er hv
      obtain ⟨h9, -, lex2, w2, t2, rfl, h11, h12, h13, -⟩ := expect_view (by simp) h2 eq2 h8
      obtain ⟨v, w3, t3, rfl, h15, h16, h17, h18⟩ := hs _ _ _ _ _ _ ht' hp he h13
      unfold Lexeme at h6 h11
      rw [h3] at h6
      rw [h9] at h11
      obtain ⟨h6, rfl⟩ := h6
      subst h11
      exact ⟨s.t.text, w, w2, v, w3, t3, by simp, h6, h7, h12, h15, h16, h17, h18⟩

theorem parseMembers_sound {e : Env} {pv : ValueParser} (hpv : PVok pv) (hs : PVsound pv) : ∀ (n : Nat) (s : St) (tgt : Target) (s' : St) (text : Bytes),
    TgtOk tgt → parseMembers e pv n s tgt = .ok s' → s'.c.err.code = .none → View s text →
    ∃ ms text', text = ms ++ text' ∧ JMembers ms ∧ View s' text' ∧ NoSplit ms text' ∧ s'.t.type ≠ .comma := by
  intro n
  induction n with
  | zero => intro s tgt s' text _ h; rw [parseMembers] at h; cases h
  | succ n ih =>
    intro s tgt s' text ht h he hv
    rw [parseMembers] at h
    obtain ⟨s1, h1, h⟩ := Out.bind_eq_ok.1 h
    split at h
    · rename_i hc
      obtain ⟨s2, h2, h⟩ := Out.bind_eq_ok.1 h
      have e2 := (parseMembers_prog hpv _ _ _ _ h).2 he
      have e1 := (nextTok_prog h2).2 e2
      obtain ⟨k, x, y, v, z, t1, rfl, hk, hx, hy, hj, hz, h0, -⟩ := parsePair_sound hpv hs ht h1 e1 hv
      obtain ⟨lex, rfl, hl⟩ := h0.lex
      obtain ⟨w, t2, h4, h5, h6⟩ := nextTok_view h2 e2
      obtain ⟨ms, t3, h7, h8, h9, h10, h11⟩ := ih _ _ _ _ ht h he h6
      unfold Lexeme at hl
      rw [hc] at hl
      subst hl
      refine ⟨34 :: (k ++ 34 :: (x ++ 58 :: (y ++ (v ++ (z ++ 44 :: (w ++ ms)))))), t3, ?_, ?_, h9, ?_, h11⟩
      · rw [h4, h7]; simp
      · exact JMembers.more ws_empty hk hx hy hj hz (members_ws h5 h8)
      · have hne : ms ≠ [] := by cases h8 <;> simp
        have := noSplit_append (s := 34 :: (k ++ 34 :: (x ++ 58 :: (y ++ (v ++ (z ++ 44 :: w)))))) hne h10
        simpa using this
    · rename_i hc
      cases h
      obtain ⟨k, x, y, v, z, t1, rfl, hk, hx, hy, hj, hz, h9, h10⟩ := parsePair_sound hpv hs ht h1 he hv
      refine ⟨34 :: (k ++ 34 :: (x ++ 58 :: (y ++ (v ++ z)))), t1, by simp, ?_, h9, ?_, hc⟩
      · exact JMembers.one ws_empty hk hx hy hj hz
      · have hne : v ++ z ≠ [] := by have := jval_ne_nil hj; simp [this]
        have := noSplit_append (s := 34 :: (k ++ 34 :: (x ++ 58 :: y))) hne (noSplit_ws hz h10)
        simpa using this

/-- What is between the braces of an object, and comes next: nothing but white space and then the closing brace (or, for
a container, the end of the text), or members and then anything but a comma. -/
def Inside (tgt : Target) (t : Tok) (b q : Bytes) : Prop :=
  (Ws b ∧ (t.type = .rbrace ∨ (t.isValid = false ∧ ∃ ty a, tgt = some (ty, a) ∧ ty.isContainer = true))) ∨
    (JMembers b ∧ t.type ≠ .comma ∧ NoSplit b q)

/-- A parser of objects accepts an opening brace and what may be inside. -/
def POsound (po : ObjectParser) : Prop :=
  ∀ s tgt s' text, TgtOk tgt → po s tgt = .ok s' → s'.c.err.code = .none → View s text →
    ∃ b text', text = 123 :: (b ++ text') ∧ Inside tgt s'.t b text' ∧ View s' text'

theorem parse_sound (e : Env) : ∀ n, PVsound (parseValue e n) ∧ POsound (parseObject e n) := by
  intro n
  induction n with
  | zero =>
    constructor
    · intro s tgt p arr s' text _ h; rw [parseValue] at h; cases h
    · intro s tgt s' text _ h; rw [parseObject] at h; cases h
  | succ n ih =>
    have ho := parse_prog e n
    constructor
    · intro s tgt p arr s' text ht h he hv
      have lexeme : ∀ {y : TokType} {r : Tok × St}, y ≠ .none → expect e s y = .ok r → r.2.c.err.code = .none →
          (∀ (t : Tok) x r, t.type = y → Lexeme t x → Munch t r → JVal x ∧ NoSplit x r) →
          ∃ v w text', text = v ++ (w ++ text') ∧ JVal v ∧ Ws w ∧ View r.2 text' ∧ NoSplit v (w ++ text') := by
        intro y r hy h1 he1 hj
        obtain ⟨h3, h4, lex, w, t1, h5, h6, h7, h8, h9⟩ := expect_view hy h1 he1 hv
        obtain ⟨j1, j2⟩ := hj _ _ _ h3 h6 h9
        exact ⟨lex, w, t1, h5, j1, h7, h8, j2⟩
      rw [parseValue] at h
      split at h
      · obtain ⟨r, h1, h⟩ := Out.bind_eq_ok.1 h
        cases h
        refine lexeme (by simp) h1 he (fun t x q hy hl _ => ?_)
        unfold Lexeme at hl; rw [hy] at hl; obtain ⟨hl, rfl⟩ := hl
        exact ⟨.str hl, noSplit_last (s := 34 :: t.text) rfl⟩
      · obtain ⟨r, h1, h⟩ := Out.bind_eq_ok.1 h
        cases h
        exact lexeme (by simp) h1 he (fun t x q hy hl hm => by unfold Lexeme at hl; rw [hy] at hl; exact ⟨.num hl, (hm (.inl hy)).noSplit⟩)
      · obtain ⟨r, h1, h⟩ := Out.bind_eq_ok.1 h
        obtain ⟨m, h2, h⟩ := Out.bind_eq_ok.1 h
        cases h
        exact lexeme (by simp) h1 he (fun t x q hy hl hm => by unfold Lexeme at hl; rw [hy] at hl; exact ⟨.num hl, (hm (.inr hy)).noSplit⟩)
      · obtain ⟨s1, h1, h⟩ := Out.bind_eq_ok.1 h
        obtain ⟨r, h2, h⟩ := Out.bind_eq_ok.1 h
        cases h
        have e1 := (expect_prog (by simp) h2).2 he
        obtain ⟨b, t1, rfl, h4, h5⟩ := ih.2 _ _ _ _ (objectTarget_ok ht) h1 e1 hv
        obtain ⟨h6, -, lex, w, t2, rfl, h8, h9, h10, -⟩ := expect_view (by simp) h2 he h5
        unfold Lexeme at h8
        rw [h6] at h8
        subst h8
        refine ⟨123 :: (b ++ [125]), w, t2, by simp, ?_, h9, h10, ?_⟩
        rotate_left
        · exact noSplit_last (s := 123 :: b) (z := 125) rfl
        rcases h4 with h4 | h4
        · exact .obj0 h4.1
        · exact .obj h4.1
      · exact parseArray_sound ho.1 ih.1 ht h he hv
      · obtain ⟨r, h1, h⟩ := Out.bind_eq_ok.1 h
        cases h
        exact lexeme (by simp) h1 he (fun t x q hy hl _ => by
          unfold Lexeme at hl; rw [hy] at hl; subst hl; exact ⟨.tru, noSplit_last (s := b!"tru") rfl⟩)
      · obtain ⟨r, h1, h⟩ := Out.bind_eq_ok.1 h
        cases h
        exact lexeme (by simp) h1 he (fun t x q hy hl _ => by
          unfold Lexeme at hl; rw [hy] at hl; subst hl; exact ⟨.fls, noSplit_last (s := b!"fals") rfl⟩)
      · obtain ⟨r, h1, h⟩ := Out.bind_eq_ok.1 h
        cases h
        exact lexeme (by simp) h1 he (fun t x q hy hl _ => by
          unfold Lexeme at hl; rw [hy] at hl; subst hl; exact ⟨.null, noSplit_last (s := b!"nul") rfl⟩)
      · cases h
        exact absurd he (setError_code _ (by simp))
    · intro s tgt s' text ht h he hv
      rw [parseObject.eq_def] at h
      dsimp only at h
      obtain ⟨r, h1, h⟩ := Out.bind_eq_ok.1 h
      have open' : r.2.c.err.code = .none → ∃ w t1, text = 123 :: (w ++ t1) ∧ Ws w ∧ View r.2 t1 := by
        intro he1
        obtain ⟨h3, h4, lex, w, t1, h5, h6, h7, h8, -⟩ := expect_view (by simp) h1 he1 hv
        unfold Lexeme at h6
        rw [h3] at h6
        subst h6
        exact ⟨w, t1, h5, h7, h8⟩
      have mem : parseMembers e (parseValue e n) (n + 1) r.2 tgt = .ok s' →
          ∃ b text', text = 123 :: (b ++ text') ∧ Inside tgt s'.t b text' ∧ View s' text' := by
        intro h
        obtain ⟨w, t1, rfl, h3, h4⟩ := open' ((parseMembers_prog ho.1 _ _ _ _ h).2 he)
        obtain ⟨ms, t2, rfl, h6, h7, h8, h9⟩ := parseMembers_sound ho.1 ih.1 _ _ _ _ _ ht h he h4
        have hne : ms ≠ [] := by cases h6 <;> simp
        exact ⟨w ++ ms, t2, by simp, .inr ⟨members_ws h3 h6, h9, noSplit_append hne h8⟩, h7⟩
      split at h
      · rename_i hi
        cases h
        exact (expect_bad (by simp) h1 hi he).elim
      · split at h
        · rename_i hb
          cases h
          obtain ⟨w, t1, h2, h3, h4⟩ := open' he
          exact ⟨w, t1, h2, .inl ⟨h3, .inl hb⟩, h4⟩
        · rename_i hb
          split at h
          · rename_i ty a
            split at h
            · rename_i hcont
              unfold parseDict at h
              split at h
              · simp [TgtOk, NoDict] at ht
              · split at h
                · cases h
                · rename_i hx
                  cases h
                  obtain ⟨w, t1, h2, h3, h4⟩ := open' he
                  refine ⟨w, t1, h2, .inl ⟨h3, .inr ⟨?_, _, _, rfl, hcont⟩⟩, h4.mem⟩
                  simp [hb] at hx
                  simpa using hx
            · exact mem h
          · exact mem h

end Clr.JSON
