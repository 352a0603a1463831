import Verif.Model.MapFileSpec
import Verif.Props.FileUtils
import Verif.Proofs.Merge

/-!
Lemmas for C62: the parameters of a signature.
-/
namespace Clr.Map

open Clr.DB Clr.FileUtils

/-! ### The loop of `MatchParameter` -/

/-- What a round does after the brackets. -/
def check (e fuel : Nat) (text : Bytes) (p : Parse) : Res (Option (Parse × Bytes)) :=
  match text with
  | c :: r => if c = 44 ∨ c = 41 then .ok (some (p, r)) else matchLoop e fuel text p
  | [] => matchLoop e fuel text p

/-- What a round does after the token. -/
def tail (e fuel : Nat) (text : Bytes) (p : Parse) : Res (Option (Parse × Bytes)) := do
  let (p2, t2) ← addAngle p (skipWhitespace text)
  check e fuel t2 p2

theorem matchLoop_succ (e fuel : Nat) (text : Bytes) (p : Parse) (h : e < text.length) :
    matchLoop e (fuel + 1) text p = (do
      let (tok, t1) ← token text
      let p1 ← addToken p tok
      tail e fuel t1 p1) := by
  rw [matchLoop, if_pos h]
  rfl

/-- More fuel does not change what the loop returns. -/
theorem matchLoop_mono {e fuel : Nat} {text : Bytes} {p : Parse} (h : matchLoop e fuel text p ≠ .ok none) :
    ∀ fuel', fuel ≤ fuel' → matchLoop e fuel' text p = matchLoop e fuel text p := by
  induction fuel generalizing text p with
  | zero => exact absurd rfl h
  | succ n ih =>
    intro fuel' hle
    obtain ⟨m, rfl⟩ : ∃ m, fuel' = m + 1 := ⟨fuel' - 1, by omega⟩
    rw [matchLoop] at h ⊢
    rw [matchLoop]
    by_cases he : e < text.length
    · rw [if_pos he] at h ⊢
      rw [if_pos he]
      cases h1 : token text with
      | trap => rfl
      | ub => rfl
      | ok x =>
        obtain ⟨tok, t1⟩ := x
        rw [h1, Res.bind_ok] at h
        rw [Res.bind_ok, Res.bind_ok]
        dsimp only at h ⊢
        cases h2 : addToken p tok with
        | trap => rfl
        | ub => rfl
        | ok p1 =>
          rw [h2, Res.bind_ok] at h
          rw [Res.bind_ok, Res.bind_ok]
          cases h3 : addAngle p1 (skipWhitespace t1) with
          | trap => rfl
          | ub => rfl
          | ok x =>
            obtain ⟨p2, t2⟩ := x
            rw [h3, Res.bind_ok] at h
            rw [Res.bind_ok, Res.bind_ok]
            dsimp only at h ⊢
            cases t2 with
            | nil => exact ih h _ (by omega)
            | cons c r =>
              dsimp only at h ⊢
              by_cases hc : c = 44 ∨ c = 41
              · rw [if_pos hc, if_pos hc]
              · rw [if_neg hc] at h ⊢
                rw [if_neg hc]
                exact ih h _ (by omega)
    · rw [if_neg he, if_neg he]

theorem skipWhitespace_length (t : Bytes) : (skipWhitespace t).length ≤ t.length := by
  induction t with
  | nil => exact Nat.le_refl _
  | cons c t ih =>
    rw [skipWhitespace]
    split
    · exact Nat.le_succ_of_le ih
    · exact Nat.le_refl _

theorem addAngle_length {p p2 : Parse} {t t2 : Bytes} (h : addAngle p t = .ok (p2, t2)) : t2.length ≤ t.length := by
  cases t with
  | nil =>
    rw [addAngle] at h
    cases h
    exact Nat.le_refl _
  | cons c r =>
    rw [addAngle] at h
    by_cases hc : c = 60 ∨ c = 62
    · rw [if_pos hc] at h
      cases h1 : cat p.type [c] with
      | trap => rw [h1] at h; cases h
      | ub => rw [h1] at h; cases h
      | ok t =>
        rw [h1] at h
        cases h
        exact Nat.le_succ _
    · rw [if_neg hc] at h
      cases h
      exact Nat.le_refl _

/-- A round of the loop ends it or consumes something. -/
theorem round_shorter {text tok t1 t2 : Bytes} {p1 p2 : Parse} (hne : text ≠ []) (h1 : token text = .ok (tok, t1))
    (h3 : addAngle p1 (skipWhitespace t1) = .ok (p2, t2)) : t2.length < text.length ∨ ∃ c r, t2 = c :: r ∧ (c = 44 ∨ c = 41) := by
  obtain ⟨c, r, rfl⟩ := List.exists_cons_of_ne_nil hne
  rw [token] at h1
  split at h1
  · cases h1
    by_cases hc : isStop c = true
    · rw [List.dropWhile_cons, if_neg (by simp [hc])] at h3
      simp only [isStop, Bool.or_eq_true, beq_iff_eq] at hc
      rcases hc with (((rfl | rfl) | rfl) | rfl) | rfl
      · left
        have e : skipWhitespace (32 :: r) = skipWhitespace r := by rw [skipWhitespace, if_pos (.inl rfl)]
        rw [e] at h3
        have := addAngle_length h3
        have := skipWhitespace_length r
        simp
        omega
      · right
        have e : skipWhitespace (44 :: r) = 44 :: r := by rw [skipWhitespace, if_neg (by decide)]
        rw [e, addAngle, if_neg (by decide)] at h3
        cases h3
        exact ⟨_, _, rfl, .inl rfl⟩
      · right
        have e : skipWhitespace (41 :: r) = 41 :: r := by rw [skipWhitespace, if_neg (by decide)]
        rw [e, addAngle, if_neg (by decide)] at h3
        cases h3
        exact ⟨_, _, rfl, .inr rfl⟩
      · left
        have e : skipWhitespace (60 :: r) = 60 :: r := by rw [skipWhitespace, if_neg (by decide)]
        rw [e, addAngle, if_pos (by decide)] at h3
        cases h1 : cat p1.type [60] with
        | trap => rw [h1] at h3; cases h3
        | ub => rw [h1] at h3; cases h3
        | ok t =>
          rw [h1] at h3
          cases h3
          exact Nat.lt_succ_self _
      · left
        have e : skipWhitespace (62 :: r) = 62 :: r := by rw [skipWhitespace, if_neg (by decide)]
        rw [e, addAngle, if_pos (by decide)] at h3
        cases h1 : cat p1.type [62] with
        | trap => rw [h1] at h3; cases h3
        | ub => rw [h1] at h3; cases h3
        | ok t =>
          rw [h1] at h3
          cases h3
          exact Nat.lt_succ_self _
    · left
      rw [List.dropWhile_cons, if_pos (by simp [hc])] at h3
      have := addAngle_length h3
      have := skipWhitespace_length (r.dropWhile fun c => !isStop c)
      have := (List.dropWhile_suffix (fun c => !isStop c) (l := r)).length_le
      simp
      omega
  · cases h1

/-- The loop ends. -/
theorem matchLoop_ends (e : Nat) : ∀ (fuel : Nat) (text : Bytes) (p : Parse), text.length < fuel → matchLoop e fuel text p ≠ .ok none
  | 0, _, _, h => by omega
  | fuel + 1, text, p, h => by
    rw [matchLoop]
    by_cases he : e < text.length
    · rw [if_pos he]
      have hne : text ≠ [] := by rintro rfl; simp at he
      cases h1 : token text with
      | trap => intro h; cases h
      | ub => intro h; cases h
      | ok x =>
        obtain ⟨tok, t1⟩ := x
        rw [Res.bind_ok]
        dsimp only
        cases h2 : addToken p tok with
        | trap => intro h; cases h
        | ub => intro h; cases h
        | ok p1 =>
          rw [Res.bind_ok]
          cases h3 : addAngle p1 (skipWhitespace t1) with
          | trap => intro h; cases h
          | ub => intro h; cases h
          | ok x =>
            obtain ⟨p2, t2⟩ := x
            rw [Res.bind_ok]
            dsimp only
            rcases round_shorter hne h1 h3 with hl | ⟨c, r, rfl, hc⟩
            · have := matchLoop_ends e fuel t2 p2 (by omega)
              cases t2 with
              | nil => exact this
              | cons c r =>
                dsimp only
                split
                · intro h; cases h
                · exact this
            · dsimp only
              rw [if_pos hc]
              intro h; cases h
    · rw [if_neg he]
      intro h; cases h

/-- The loop returns, and what. -/
def Out (e : Nat) (text : Bytes) (p : Parse) (out : Parse × Bytes) : Prop := ∃ n, matchLoop e n text p = .ok (some out)
/-- The same from behind a token. -/
def Tail (e : Nat) (text : Bytes) (p : Parse) (out : Parse × Bytes) : Prop := ∃ n, tail e n text p = .ok (some out)

/-- A stop, or the end. -/
def Stops (text : Bytes) : Prop := ∀ c ∈ text.head?, isStop c = true

theorem takeWhile_append {w rest : Bytes} (hw : ∀ c ∈ w, isStop c = false) (hr : Stops rest) :
    (w ++ rest).takeWhile (fun c => !isStop c) = w ∧ (w ++ rest).dropWhile (fun c => !isStop c) = rest := by
  induction w with
  | nil =>
    cases rest with
    | nil => exact ⟨rfl, rfl⟩
    | cons c r =>
      have := hr c rfl
      simp [this]
  | cons c w ih =>
    have hc := hw c (by simp)
    have := ih (fun x hx => hw x (by simp [hx]))
    simp [hc, this.1, this.2]

/-- A token is read. -/
theorem out_token {e : Nat} {w rest : Bytes} {p p1 : Parse} {out : Parse × Bytes} (hw : ∀ c ∈ w, isStop c = false) (hr : Stops rest)
    (hl : w.length < 1024) (he : e < (w ++ rest).length) (ha : addToken p w = .ok p1) (h : Tail e rest p1 out) : Out e (w ++ rest) p out := by
  obtain ⟨n, h⟩ := h
  refine ⟨n + 1, ?_⟩
  obtain ⟨h1, h2⟩ := takeWhile_append hw hr
  rw [matchLoop_succ _ _ _ _ he, token, h1, h2, if_pos hl, Res.bind_ok]
  dsimp only
  rw [ha, Res.bind_ok]
  exact h

theorem addToken_nil (p : Parse) : p.type.length < 1024 → addToken p [] = .ok p := by
  intro h
  simp [addToken, skipTokens, cat, h]

/-- Characters that are nothing special behind a blank. -/
def Plain (text : Bytes) : Prop := ∃ c r, text = c :: r ∧ c ≠ 32 ∧ c ≠ 9 ∧ c ≠ 60 ∧ c ≠ 62 ∧ c ≠ 44 ∧ c ≠ 41

theorem tail_end {e : Nat} {c : UInt8} {r : Bytes} {p : Parse} (hc : c = 44 ∨ c = 41) : Tail e (c :: r) p (p, r) := by
  refine ⟨0, ?_⟩
  rw [tail]
  have h1 : skipWhitespace (c :: r) = c :: r := by
    rw [skipWhitespace]
    rcases hc with rfl | rfl <;> rfl
  rw [h1, addAngle, if_neg (by rcases hc with rfl | rfl <;> decide), Res.bind_ok]
  dsimp only
  rw [check, if_pos hc]

theorem tail_blank {e : Nat} {x : Bytes} {p : Parse} {out : Parse × Bytes} (hx : Plain x) (h : Out e x p out) : Tail e (32 :: x) p out := by
  obtain ⟨c, r, rfl, h1, h2, h3, h4, h5, h6⟩ := hx
  obtain ⟨n, h⟩ := h
  refine ⟨n, ?_⟩
  rw [tail]
  have hs : skipWhitespace (32 :: c :: r) = c :: r := by
    rw [skipWhitespace, if_pos (.inl rfl), skipWhitespace, if_neg (by simp [h1, h2])]
  rw [hs, addAngle, if_neg (by simp [h3, h4]), Res.bind_ok]
  dsimp only
  rw [check, if_neg (by simp [h5, h6])]
  exact h

/-- A bracket, with or without a blank in front of it. -/
theorem tail_angle {e n : Nat} {c : UInt8} {r : Bytes} {p : Parse} {out : Parse × Bytes} (sp : Bool) (hc : c = 60 ∨ c = 62)
    (hl : p.type.length + 1 < 1024) (h : check e n r { p with type := p.type ++ [c] } = .ok (some out)) :
    Tail e ((if sp then [32] else []) ++ c :: r) p out := by
  refine ⟨n, ?_⟩
  rw [tail]
  have hs : skipWhitespace ((if sp then [32] else []) ++ c :: r) = c :: r := by
    have : skipWhitespace (c :: r) = c :: r := by
      rw [skipWhitespace]
      rcases hc with rfl | rfl <;> rfl
    cases sp
    · exact this
    · show skipWhitespace (32 :: c :: r) = _
      rw [skipWhitespace, if_pos (.inl rfl), this]
  rw [hs, addAngle, if_pos hc, cat, if_pos (by simpa using hl), Res.map, Res.bind_ok]
  exact h

theorem check_plain {e : Nat} {x : Bytes} {p : Parse} {out : Parse × Bytes} (hx : Plain x) (h : Out e x p out) :
    ∃ n, check e n x p = .ok (some out) := by
  obtain ⟨c, r, rfl, h1, h2, h3, h4, h5, h6⟩ := hx
  obtain ⟨n, h⟩ := h
  exact ⟨n, by rw [check, if_neg (by simp [h5, h6])]; exact h⟩

/-- Behind a bracket it goes on as behind a token. -/
theorem check_tail {e : Nat} {rest : Bytes} {p : Parse} {out : Parse × Bytes} (hs : Stops rest) (hl : p.type.length < 1024)
    (he : e < rest.length ∨ ∃ r, rest = 41 :: r) (h : Tail e rest p out) : ∃ n, check e n rest p = .ok (some out) := by
  by_cases hc : ∃ c r, rest = c :: r ∧ (c = 44 ∨ c = 41)
  · obtain ⟨c, r, rfl, hc⟩ := hc
    obtain ⟨n, h⟩ := h
    obtain ⟨m, h'⟩ := tail_end (e := e) (r := r) (p := p) hc
    refine ⟨0, ?_⟩
    rw [check, if_pos hc]
    rw [tail] at h
    have h1 : skipWhitespace (c :: r) = c :: r := by
      rw [skipWhitespace]
      rcases hc with rfl | rfl <;> rfl
    rw [h1, addAngle, if_neg (by rcases hc with rfl | rfl <;> decide), Res.bind_ok] at h
    dsimp only at h
    rw [check, if_pos hc] at h
    exact h
  · have he : e < rest.length := by
      rcases he with h | ⟨r, rfl⟩
      · exact h
      · exact absurd ⟨41, r, rfl, .inr rfl⟩ hc
    obtain ⟨m, hm⟩ : Out e ([] ++ rest) p out := out_token (by simp) hs (by decide) he (addToken_nil p hl) h
    refine ⟨m, ?_⟩
    rw [List.nil_append] at hm
    cases rest with
    | nil => exact hm
    | cons c r =>
      rw [check, if_neg fun h => hc ⟨c, r, rfl, h⟩]
      exact hm

/-! ### Types -/

theorem Word.stop {w : Bytes} (h : Word w) : ∀ c ∈ w, isStop c = false := by
  intro c hc
  have := h.2.1 c hc
  simp [isStop, this]

theorem Word.plain {w : Bytes} (h : Word w) (rest : Bytes) : Plain (w ++ rest) := by
  cases w with
  | nil => exact absurd rfl h.1
  | cons c w =>
    have := h.2.1 c (by simp)
    exact ⟨c, w ++ rest, rfl, this.1, this.2.1, this.2.2.2.2.1, this.2.2.2.2.2, this.2.2.1, this.2.2.2.1⟩

theorem addToken_word {w : Bytes} (h : Word w) (p : Parse) (hl : p.type.length + w.length < 1024) :
    addToken p w = .ok { p with type := p.type ++ w } := by
  obtain ⟨h1, h2, h3, h4, h5⟩ := h
  simp only [List.mem_cons, List.not_mem_nil, or_false, not_or] at h5
  rw [addToken, if_neg h3, if_neg h4, if_neg h5.1, if_neg h5.2.1, if_neg (by simp [h5]), if_neg h5.2.2.2.2.1, if_neg (by simp [skipTokens, h5]),
    cat, if_pos hl, Res.map]

/-- The keywords in front of a type are skipped. -/
theorem out_kw {e : Nat} (kw : Kw) {x : Bytes} {p : Parse} {out : Parse × Bytes} (hx : Plain x) (he : e < x.length) (h : Out e x p out) :
    Out e (kw.print ++ x) p out := by
  cases kw with
  | none => exact h
  | struct => exact out_token (w := b!"struct") (rest := 32 :: x) (by decide) (by rintro _ ⟨⟩; rfl) (by decide) (by simp; omega) rfl (tail_blank hx h)
  | cls => exact out_token (w := b!"class") (rest := 32 :: x) (by decide) (by rintro _ ⟨⟩; rfl) (by decide) (by simp; omega) rfl (tail_blank hx h)
  | enum => exact out_token (w := b!"enum") (rest := 32 :: x) (by decide) (by rintro _ ⟨⟩; rfl) (by decide) (by simp; omega) rfl (tail_blank hx h)

theorem out_sign {e : Nat} (sign : Sign) {x : Bytes} {p : Parse} {out : Parse × Bytes} (hx : Plain x) (he : e < x.length)
    (hl : p.type.length + sign.print.length < 1024) (h : Out e x { p with type := p.type ++ sign.print } out) :
    Out e (sign.print ++ x) p out := by
  cases sign with
  | none =>
    rw [Sign.print, List.append_nil] at h
    exact h
  | signed =>
    refine out_token (w := b!"signed") (rest := 32 :: x) (by decide) (by rintro _ ⟨⟩; rfl) (by decide) (by simp; omega) ?_ (tail_blank hx h)
    rw [addToken, if_neg (by decide), if_neg (by decide), if_neg (by decide), if_neg (by decide), if_pos (by decide), cat]
    exact (congrArg _ (if_pos hl))
  | unsigned =>
    refine out_token (w := b!"unsigned") (rest := 32 :: x) (by decide) (by rintro _ ⟨⟩; rfl) (by decide) (by simp; omega) ?_ (tail_blank hx h)
    rw [addToken, if_neg (by decide), if_neg (by decide), if_neg (by decide), if_neg (by decide), if_pos (by decide), cat]
    exact (congrArg _ (if_pos hl))

theorem plain_kw (kw : Kw) {x : Bytes} (hx : Plain x) : Plain (kw.print ++ x) := by
  cases kw with
  | none => exact hx
  | struct => exact ⟨_, _, rfl, by decide, by decide, by decide, by decide, by decide, by decide⟩
  | cls => exact ⟨_, _, rfl, by decide, by decide, by decide, by decide, by decide, by decide⟩
  | enum => exact ⟨_, _, rfl, by decide, by decide, by decide, by decide, by decide, by decide⟩

theorem plain_sign (s : Sign) {x : Bytes} (hx : Plain x) : Plain (s.print ++ x) := by
  cases s with
  | none => exact hx
  | signed => exact ⟨_, _, rfl, by decide, by decide, by decide, by decide, by decide, by decide⟩
  | unsigned => exact ⟨_, _, rfl, by decide, by decide, by decide, by decide, by decide, by decide⟩

theorem plain_append {x : Bytes} (hx : Plain x) (y : Bytes) : Plain (x ++ y) := by
  obtain ⟨c, r, rfl, h⟩ := hx
  exact ⟨c, r ++ y, rfl, h⟩

theorem plain_word {w : Bytes} (h : Word w) : Plain w := by
  have := h.plain []
  rwa [List.append_nil] at this

theorem plain_ty (ty : Ty) (hw : ty.Words) : Plain ty.print := by
  cases ty with
  | named kw sign w => exact plain_kw kw (plain_sign sign (plain_word hw))
  | int64 sign => exact plain_sign sign ⟨_, _, rfl, by decide, by decide, by decide, by decide, by decide, by decide⟩
  | templ kw w arg sp =>
    refine plain_kw kw ?_
    simp only [List.append_assoc]
    exact hw.1.plain _

/-- A type is read. -/
theorem out_ty {e : Nat} (ty : Ty) : ∀ {rest : Bytes} {p : Parse} {out : Parse × Bytes}, ty.Words → p.type.length + ty.text.length < 1024 →
    Stops rest → (e < rest.length ∨ (e = rest.length ∧ ∃ r, rest = 41 :: r)) →
    Tail e rest { p with type := p.type ++ ty.text } out → Out e (ty.print ++ rest) p out := by
  induction ty with
  | named kw sign w =>
    intro rest p out hw hl hs he h
    rw [Ty.print, List.append_assoc, List.append_assoc]
    have hp := hw.plain rest
    have he' : e < (w ++ rest).length := by
      have := List.length_pos_iff.2 hw.1
      rw [List.length_append]
      rcases he with h | h <;> omega
    simp only [Ty.text, List.length_append] at hl
    refine out_kw kw (plain_sign sign hp) (by rw [List.length_append]; omega) (out_sign sign hp he' (by omega) ?_)
    refine out_token hw.stop hs (by omega) he' (addToken_word hw _ (by rw [List.length_append]; omega)) ?_
    rw [Ty.text, ← List.append_assoc] at h
    exact h
  | int64 sign =>
    intro rest p out hw hl hs he h
    rw [Ty.print, List.append_assoc]
    have hp : Plain (b!"__int64" ++ rest) := ⟨_, _, rfl, by decide, by decide, by decide, by decide, by decide, by decide⟩
    have he' : e < (b!"__int64" ++ rest).length := by
      rw [List.length_append]
      rcases he with h | h <;> simp <;> omega
    simp only [Ty.text, List.length_append] at hl
    have hl9 : (b!"long long").length = 9 := rfl
    refine out_sign sign hp he' (by omega) ?_
    refine out_token (by decide) hs (by decide) he' ?_ h
    rw [addToken, if_neg (by decide), if_neg (by decide), if_neg (by decide), if_neg (by decide), if_neg (by decide), if_pos rfl, cat,
      if_pos (by rw [List.length_append]; omega), Res.map, Ty.text, List.append_assoc]
  | templ kw w arg sp ih =>
    intro rest p out hw hl hs he h
    have hlen : (b!"<").length = 1 ∧ (b!">").length = 1 := ⟨rfl, rfl⟩
    simp only [Ty.text, List.length_append] at hl
    have hx : (Ty.templ kw w arg sp).print ++ rest = kw.print ++ (w ++ (60 :: (arg.print ++ ((if sp then [32] else []) ++ (62 :: rest))))) := by
      rw [Ty.print]
      simp only [List.append_assoc]
      rfl
    rw [hx]
    refine out_kw kw (hw.1.plain _) (by simp; rcases he with h | h <;> omega) ?_
    refine out_token hw.1.stop (by rintro _ ⟨⟩; rfl) (by omega) (by simp; rcases he with h | h <;> omega) (addToken_word hw.1 _ (by omega)) ?_
    have hin : Out e (arg.print ++ ((if sp then [32] else []) ++ (62 :: rest))) { p with type := p.type ++ w ++ b!"<" } out := by
      refine ih hw.2 (by simp only [List.length_append]; omega) ?_ (.inl ?_) ?_
      · cases sp <;> rintro _ ⟨⟩ <;> rfl
      · rw [List.length_append, List.length_cons]
        rcases he with h | h <;> omega
      · have hc : ∃ n, check e n rest { p with type := p.type ++ w ++ b!"<" ++ arg.text ++ b!">" } = .ok (some out) := by
          refine check_tail hs (by simp only [List.length_append]; omega) ?_ ?_
          · rcases he with h | h
            · exact .inl h
            · exact .inr h.2
          · rw [Ty.text] at h
            simp only [List.append_assoc] at h ⊢
            exact h
        obtain ⟨n, hc⟩ := hc
        exact tail_angle sp (.inr rfl) (by simp only [List.length_append]; omega) hc
    obtain ⟨n, hc⟩ := check_plain (plain_append (plain_ty arg hw.2) _) hin
    exact tail_angle false (.inl rfl) (by simp only [List.length_append]; omega) hc

theorem Out.run {e : Nat} {text : Bytes} {p : Parse} {out : Parse × Bytes} (h : Out e text p out) :
    matchLoop e (text.length + 1) text p = .ok (some out) := by
  obtain ⟨n, h⟩ := h
  have h1 := matchLoop_ends e (text.length + 1) text p (Nat.lt_succ_self _)
  by_cases hn : n ≤ text.length + 1
  · rw [matchLoop_mono (by rw [h]; intro e; cases e) _ hn, h]
  · rw [← matchLoop_mono h1 n (by omega), h]

/-! ### Parameters -/

/-- The operator as `MatchParameter` keeps it. -/
def qop : Hash.Op → QualOp
  | .value => .value | .pointer => .pointer | .reference => .reference

theorem tail_op {e : Nat} (op : Hash.Op) {d : UInt8} {r : Bytes} {p : Parse} (hd : d = 44 ∨ d = 41) (he : e ≤ (d :: r).length) (hp : p.op = .value) :
    Tail e (opText op ++ d :: r) p ({ p with op := qop op }, r) := by
  have hs : Stops (d :: r) := by
    rintro _ ⟨⟩
    rcases hd with rfl | rfl <;> rfl
  cases op with
  | value =>
    have : ({ p with op := qop .value } : Parse) = p := by rw [qop, ← hp]
    rw [this]
    exact tail_end hd
  | pointer =>
    refine tail_blank (x := 42 :: d :: r) ⟨_, _, rfl, by decide, by decide, by decide, by decide, by decide, by decide⟩ ?_
    exact out_token (w := b!"*") (by decide) hs (by decide) (by simp at he ⊢; omega) rfl (tail_end hd)
  | reference =>
    refine tail_blank (x := 38 :: d :: r) ⟨_, _, rfl, by decide, by decide, by decide, by decide, by decide, by decide⟩ ?_
    exact out_token (w := b!"&") (by decide) hs (by decide) (by simp at he ⊢; omega) rfl (tail_end hd)

theorem stops_op (op : Hash.Op) {d : UInt8} (r : Bytes) (hd : d = 44 ∨ d = 41) :
    Stops (opText op ++ d :: r) := by
  cases op
  · rintro _ ⟨⟩
    rcases hd with rfl | rfl <;> rfl
  · rintro _ ⟨⟩; rfl
  · rintro _ ⟨⟩; rfl

/-- A parameter is read. -/
theorem out_par {e : Nat} (p : Par) {d : UInt8} {r : Bytes} (hw : p.ty.Words) (hl : p.ty.text.length < 1024) (hd : d = 44 ∨ d = 41)
    (he : e < (d :: r).length ∨ (e = (d :: r).length ∧ d = 41)) :
    Out e (p.print ++ d :: r) {} (⟨p.ty.text, qop p.op, p.isConst, false⟩, r) := by
  have he' : e ≤ (d :: r).length := by rcases he with h | h <;> omega
  rw [Par.print, List.append_assoc, List.append_assoc]
  have hop := tail_op (e := e) p.op (r := r) (p := { type := p.ty.text, isConst := p.isConst }) hd he' rfl
  have hstop := stops_op p.op r hd
  have hne : (d :: r).length ≤ (opText p.op ++ d :: r).length := by
    rw [List.length_append]; omega
  by_cases hc : p.isConst = true
  · rw [if_pos hc]
    refine out_ty p.ty hw (by simpa using hl) (by rintro _ ⟨⟩; rfl) (.inl ?_) ?_
    · simp only [List.length_append, List.length_cons] at hne ⊢
      simp only [List.length_cons] at he'
      omega
    · refine tail_blank (x := b!"const" ++ _) ⟨_, _, rfl, by decide, by decide, by decide, by decide, by decide, by decide⟩ ?_
      refine out_token (by decide) hstop (by decide) ?_ rfl ?_
      · rw [List.length_append]
        have : (b!"const").length = 5 := rfl
        omega
      · rw [hc] at hop
        simp only [List.nil_append]
        rw [hc]
        exact hop
  · rw [if_neg hc, List.nil_append]
    have hc : p.isConst = false := by simpa using hc
    rw [hc] at hop
    rw [hc]
    refine out_ty p.ty hw (by simpa using hl) hstop ?_ ?_
    · rcases he with h | ⟨h, rfl⟩
      · exact .inl (by omega)
      · cases hop' : p.op
        · exact .inr ⟨h, r, rfl⟩
        · exact .inl (by simp [opText] at h ⊢; omega)
        · exact .inl (by simp [opText] at h ⊢; omega)
    · exact hop

theorem plain_par (p : Par) (hw : p.ty.Words) : Plain p.print := by
  rw [Par.print, List.append_assoc]
  exact plain_append (plain_ty p.ty hw) _

/-- With or without a blank in front. -/
theorem out_blank {e : Nat} (b : Bool) {x : Bytes} {out : Parse × Bytes} (hx : Plain x) (he : e < x.length) (h : Out e x {} out) :
    Out e ((if b then [32] else []) ++ x) {} out := by
  cases b with
  | false => exact h
  | true =>
    exact out_token (w := []) (rest := 32 :: x) (by simp) (by rintro _ ⟨⟩; rfl) (by decide) (by simp; omega) (addToken_nil _ (by decide))
      (tail_blank hx h)

theorem getName_known {names : List Name} {t : Bytes} (h : Knows names t) : getName names (some t) = .ok (⟨hashOf t, t⟩, names) := by
  obtain ⟨h1, h2⟩ := h
  rw [getName]
  rw [if_neg h1, h2]
  dsimp only
  rw [if_pos rfl]

theorem toParam_known {names : List Name} {p : Par} (h : Known names p) :
    toParam names ⟨p.ty.text, qop p.op, p.isConst, false⟩ = .ok (p.param, names) := by
  rw [toParam, getName_known h.2.2.1, Res.bind_ok]
  rw [Par.param]
  cases p.op <;> rfl

theorem matchParameter_known {e : Nat} {names : List Name} (b : Bool) {p : Par} {d : UInt8} {r : Bytes} (hp : Known names p) (hd : d = 44 ∨ d = 41)
    (he : e < (d :: r).length ∨ (e = (d :: r).length ∧ d = 41)) :
    matchParameter e names ((if b then [32] else []) ++ (p.print ++ d :: r)) = .ok (p.param, false, r, names) := by
  have hpl := plain_par p hp.1
  have hpos : 0 < p.print.length := by
    obtain ⟨c, x, h, _⟩ := hpl
    rw [h]; simp
  have ho := out_blank b (plain_append hpl (d :: r)) (by rw [List.length_append]; rcases he with h | h <;> omega)
    (out_par p hp.1 hp.2.1 hd he)
  rw [matchParameter, ho.run, Res.bind_ok]
  dsimp only [Option.getD]
  rw [toParam_known hp, Res.bind_ok]

theorem isVoid_known {names : List Name} {p : Par} (h : Known names p) : isVoid p.param = false := by
  rw [isVoid, Par.param]
  by_cases h1 : p.op = .value
  · have h2 : p.ty.text ≠ b!"void" := fun h2 => h.2.2.2 ⟨h1, h2⟩
    simp [h2]
  · simp [h1]

/-- The parameters are read. -/
theorem paramLoop_known {names : List Name} (sep : Bool) (post : Bytes) : ∀ (ps : List Par) (b : Bool) (fuel : Nat), (∀ p ∈ ps, Known names p) →
    ps ≠ [] → ps.length < fuel →
    paramLoop (41 :: post).length fuel names ((if b then [32] else []) ++ (printAll (if sep then [32] else []) ps ++ 41 :: post)) =
      .ok (some (ps.map Par.param, names))
  | [], _, _, _, h, _ => absurd rfl h
  | [p], b, fuel, hk, _, hf => by
    obtain ⟨n, rfl⟩ : ∃ n, fuel = n + 2 := ⟨fuel - 2, by simp at hf; omega⟩
    have hp := hk p (by simp)
    have hpos : 0 < p.print.length := by
      obtain ⟨c, x, h, _⟩ := plain_par p hp.1
      rw [h]; simp
    rw [paramLoop, if_pos (by rw [printAll]; simp; omega), printAll, matchParameter_known b hp (.inr rfl) (.inr ⟨rfl, rfl⟩), Res.bind_ok]
    dsimp only
    rw [paramLoop, if_neg (by simp), Res.bind_ok]
    dsimp only [Option.map]
    rw [isVoid_known hp]
    rfl
  | p :: q :: ps, b, fuel, hk, _, hf => by
    obtain ⟨n, rfl⟩ : ∃ n, fuel = n + 1 := ⟨fuel - 1, by simp at hf; omega⟩
    have hp := hk p (by simp)
    have hpos : 0 < p.print.length := by
      obtain ⟨c, x, h, _⟩ := plain_par p hp.1
      rw [h]; simp
    have e : printAll (if sep then [32] else []) (p :: q :: ps) ++ 41 :: post =
        p.print ++ (44 :: ((if sep then [32] else []) ++ (printAll (if sep then [32] else []) (q :: ps) ++ 41 :: post))) := by
      rw [printAll]
      · simp
      · intro h; cases h
    rw [e, paramLoop, if_pos (by simp; omega), matchParameter_known b hp (.inl rfl) (.inl (by simp; omega)), Res.bind_ok]
    dsimp only
    rw [paramLoop_known sep post (q :: ps) sep n (fun x hx => hk x (by simp [hx])) (by simp) (by simp at hf ⊢; omega), Res.bind_ok]
    dsimp only [Option.map]
    rw [isVoid_known hp]
    rfl

/-! ### The brackets -/

theorem findFrom_char {c : UInt8} {x b : Bytes} (hx : c ∉ x) : ∀ i, findFrom [c] (x ++ c :: b) i = some (i + x.length) := by
  induction x with
  | nil => intro i; simp [findFrom]
  | cons y x ih =>
    intro i
    rw [List.mem_cons, not_or] at hx
    rw [List.cons_append, findFrom, if_neg (by simp [List.isPrefixOf, hx.1]), ih hx.2, List.length_cons]
    congr 1
    omega

theorem find_char {c : UInt8} {a b : Bytes} {i : Nat} (hi : i ≤ a.length) (h : c ∉ a) : find (a ++ c :: b) [c] i = some a.length := by
  rw [find, if_pos (by simp; omega), List.drop_append_of_le_length hi, findFrom_char (fun hc => h (List.mem_of_mem_drop hc))]
  simp
  omega

/-- From behind something else. -/
theorem find_char_from {c : UInt8} {p a b : Bytes} (h : c ∉ a) : find (p ++ (a ++ c :: b)) [c] p.length = some (p.length + a.length) := by
  rw [find, if_pos (by simp), List.drop_left, findFrom_char h]

theorem Word.noParen {w : Bytes} (h : Word w) : (41 : UInt8) ∉ w := fun hc => (h.2.1 41 hc).2.2.2.1 rfl

theorem ty_noParen (ty : Ty) (h : ty.Words) : (41 : UInt8) ∉ ty.print := by
  induction ty with
  | named kw sign w =>
    have := Word.noParen h
    cases kw <;> cases sign <;> simp [Ty.print, Kw.print, Sign.print, this]
  | int64 sign => cases sign <;> simp [Ty.print, Sign.print]
  | templ kw w arg sp ih =>
    have h1 := Word.noParen h.1
    have h2 := ih h.2
    cases kw <;> cases sp <;> simp [Ty.print, Kw.print, h1, h2]

theorem par_noParen (p : Par) (h : p.ty.Words) : (41 : UInt8) ∉ p.print := by
  have := ty_noParen p.ty h
  rw [Par.print]
  cases p.isConst <;> cases p.op <;> simp [opText, this]

theorem printAll_noParen (sep : Bool) : ∀ ps : List Par, (∀ p ∈ ps, p.ty.Words) → (41 : UInt8) ∉ printAll (if sep then [32] else []) ps
  | [], _ => by simp [printAll]
  | [p], h => by rw [printAll]; exact par_noParen p (h p (by simp))
  | p :: q :: ps, h => by
    have h1 := par_noParen p (h p (by simp))
    have h2 := printAll_noParen sep (q :: ps) (fun x hx => h x (by simp [hx]))
    rw [printAll]
    · cases sep <;> simp [h1] at h2 ⊢ <;> exact h2
    · intro h; cases h

theorem printAll_length (sep : Bytes) : ∀ ps : List Par, (∀ p ∈ ps, p.ty.Words) → ps.length ≤ (printAll sep ps).length
  | [], _ => by simp
  | [p], h => by
    obtain ⟨c, x, hx, _⟩ := plain_par p (h p (by simp))
    rw [printAll, hx]; simp
  | p :: q :: ps, h => by
    obtain ⟨c, x, hx, _⟩ := plain_par p (h p (by simp))
    have h2 := printAll_length sep (q :: ps) (fun x hx => h x (by simp [hx]))
    rw [printAll]
    · rw [hx]; simp at h2 ⊢; omega
    · intro h; cases h

/-- Everything between the brackets is read. -/
theorem paramLoop_args {names : List Name} (sep void : Bool) (post : Bytes) (ps : List Par) (fuel : Nat) (hk : ∀ p ∈ ps, Known names p)
    (hv : void = true → ps = [] → Knows names b!"void") (hf : ps.length + 1 < fuel) :
    paramLoop (41 :: post).length fuel names (args (if sep then [32] else []) void ps ++ 41 :: post) = .ok (some (ps.map Par.param, names)) := by
  rw [args]
  by_cases hps : ps = []
  · subst hps
    rw [if_pos rfl]
    obtain ⟨n, rfl⟩ : ∃ n, fuel = n + 2 := ⟨fuel - 2, by simp at hf; omega⟩
    cases void with
    | false =>
      rw [paramLoop, if_neg (by simp)]
      rfl
    | true =>
      have hw : Ty.Words (.named .none .none b!"void") := by
        refine ⟨by decide, by decide, by decide, by decide, by decide⟩
      have ho := out_par (e := (41 :: post).length) (p := { ty := .named .none .none b!"void" }) (d := 41) (r := post) hw (by decide) (.inr rfl)
        (.inr ⟨rfl, rfl⟩)
      have hpr : Par.print { ty := .named .none .none b!"void" } = b!"void" := rfl
      rw [hpr] at ho
      rw [if_pos rfl, paramLoop, if_pos (by simp), matchParameter, ho.run, Res.bind_ok]
      dsimp only [Option.getD]
      rw [toParam]
      have ht : Ty.text (.named .none .none b!"void") = b!"void" := rfl
      dsimp only
      rw [ht, getName_known (hv rfl rfl), Res.bind_ok, Res.bind_ok, Res.bind_ok]
      dsimp only
      rw [paramLoop, if_neg (by simp), Res.bind_ok]
      dsimp only [Option.map]
      rw [if_pos (by rfl)]
      rfl
  · rw [if_neg hps]
    exact paramLoop_known sep post ps false fuel hk hps (by omega)

/-! ### The address -/

theorem setAddress_found {hash id : UInt32} {address : UInt64} {f : Function} {B : List Function} : ∀ {A : List Function}, f.name.hash = hash →
    f.uniqueId = id → (∀ g ∈ A, g.name.hash = hash → g.uniqueId ≠ id) →
    setAddress hash id address (A ++ f :: B) = some (A ++ { f with address := address } :: B)
  | [], h1, h2, _ => by rw [List.nil_append, setAddress, if_pos ⟨h1, h2⟩]; rfl
  | g :: A, h1, h2, h3 => by
    rw [List.cons_append, setAddress, if_neg (fun h => h3 g (by simp) h.1 h.2), setAddress_found h1 h2 (fun x hx => h3 x (by simp [hx]))]
    rfl

theorem setAddress_none {hash id : UInt32} {address : UInt64} : ∀ {A : List Function}, (∀ g ∈ A, g.name.hash = hash → g.uniqueId ≠ id) →
    setAddress hash id address A = none
  | [], _ => rfl
  | g :: A, h3 => by
    rw [setAddress, if_neg (fun h => h3 g (by simp) h.1 h.2), setAddress_none (fun x hx => h3 x (by simp [hx]))]
    rfl

/-- The name and the brackets are found. -/
theorem brackets {pre name post : Bytes} {sep void : Bool} {ps : List Par} (h1 : (40 : UInt8) ∉ pre ++ name) (hw : ∀ p ∈ ps, p.ty.Words) :
    ∃ f, f ≤ pre.length ∧ find (signature pre name sep void ps post) name 0 = some f ∧
      find (signature pre name sep void ps post) b!"(" f = some (pre ++ name).length ∧
      find (signature pre name sep void ps post) b!")" (pre ++ name).length =
        some ((pre ++ name).length + 1 + (args (if sep then [32] else []) void ps).length) := by
  have e1 : signature pre name sep void ps post = (pre ++ name) ++ 40 :: (args (if sep then [32] else []) void ps ++ 41 :: post) := by
    simp [signature]
  have hn : (41 : UInt8) ∉ 40 :: args (if sep then [32] else []) void ps := by
    rw [args]
    split
    · cases void <;> decide
    · have := printAll_noParen sep ps hw
      simp [this]
  cases hf : find (signature pre name sep void ps post) name 0 with
  | none =>
    refine absurd ?_ (find_none _ _ _ (Nat.zero_le _) hf pre.length)
    exact ⟨pre, 40 :: (args (if sep then [32] else []) void ps ++ 41 :: post), by rw [e1]; simp, rfl⟩
  | some f =>
    have hle : f ≤ pre.length := by
      obtain ⟨_, _, h3⟩ := find_some _ _ _ _ hf
      rcases Nat.lt_or_ge pre.length f with h | h
      · exact absurd ⟨pre, 40 :: (args (if sep then [32] else []) void ps ++ 41 :: post), by rw [e1]; simp, rfl⟩ (h3 pre.length (by omega))
      · exact h
    refine ⟨f, hle, rfl, ?_, ?_⟩
    · rw [e1]
      exact find_char (by rw [List.length_append]; omega) h1
    · rw [e1]
      have := find_char_from (c := 41) (p := pre ++ name) (a := 40 :: args (if sep then [32] else []) void ps) (b := post) hn
      rw [List.cons_append] at this
      rw [this, List.length_cons]
      congr 1
      omega

/-- The parameters lead to the address. -/
theorem addAddress_args {db : Database} {names : List Name} {pre name post : Bytes} {sep void : Bool} {ps : List Par} {address : UInt64}
    {first : List Hash.Param} (hk : ∀ p ∈ ps, Known names p) (hv : void = true → ps = [] → Knows names b!"void") :
    addAddress db name (signature pre name sep void ps post) (pre ++ name).length
        ((pre ++ name).length + 1 + (args (if sep then [32] else []) void ps).length) address first names =
      match setAddress (hashOf name) ⟨Hash.uniqueId (first ++ ps.map Par.param)⟩ address db.functions with
      | some fs => .ok (true, { db with names := names, functions := fs })
      | none => .ok (false, { db with names := names }) := by
  have e1 : signature pre name sep void ps post = (pre ++ name ++ [40]) ++ (args (if sep then [32] else []) void ps ++ 41 :: post) := by
    simp [signature]
  have hlen : ps.length ≤ (args (if sep then [32] else []) void ps).length := by
    rw [args]
    split
    · rename_i h; subst h; simp
    · exact printAll_length _ ps (fun p hp => (hk p hp).1)
  rw [addAddress]
  have e2 : (signature pre name sep void ps post).drop ((pre ++ name).length + 1) = args (if sep then [32] else []) void ps ++ 41 :: post := by
    rw [e1]
    have : (pre ++ name).length + 1 = (pre ++ name ++ [40]).length := by simp [Nat.add_assoc]
    rw [this, List.drop_left]
  have e3 : (signature pre name sep void ps post).length - ((pre ++ name).length + 1 + (args (if sep then [32] else []) void ps).length) =
      (41 :: post).length := by
    rw [e1]
    simp
    omega
  rw [e2, e3, paramLoop_args sep void post ps _ hk hv (by rw [e1]; simp at hlen ⊢; omega), Res.bind_ok]
  rfl

/-! ### `AddFunctionAddress` -/

/-- What is done with a signature of a function without `this`. -/
theorem addFunctionAddress_static {db : Database} {pre name post : Bytes} {sep void : Bool} {ps : List Par} {address : UInt64} {c : Bool}
    (h1 : (40 : UInt8) ∉ pre ++ name) (ha : address ≠ 0) (hk : ∀ p ∈ ps, Known db.names p) (hv : void = true → ps = [] → Knows db.names b!"void") :
    addFunctionAddress db name (signature pre name sep void ps post) address false c =
      match setAddress (hashOf name) ⟨Hash.uniqueId (ps.map Par.param)⟩ address db.functions with
      | some fs => .ok (true, { db with functions := fs })
      | none => .ok (false, db) := by
  obtain ⟨f, _, e1, e2, e3⟩ := brackets (post := post) (sep := sep) (void := void) h1 (fun p hp => (hk p hp).1)
  rw [addFunctionAddress, if_neg ha, e1]
  dsimp only
  rw [e2]
  dsimp only
  rw [e3]
  dsimp only
  rw [if_neg (by decide), addAddress_args hk hv]
  rfl

theorem rfind_le {s pat : Bytes} : ∀ {i j}, rfind s pat i = some j → j ≤ i
  | 0, j, h => by rw [rfind] at h; split at h <;> cases h; omega
  | i + 1, j, h => by
    rw [rfind] at h
    split at h
    · cases h; omega
    · exact Nat.le_succ_of_le (rfind_le h)

/-- The last pair of colons. -/
theorem rfind_scope {cls m : Bytes} (hm : (58 : UInt8) ∉ m) : ∀ k, cls.length ≤ k → rfind (cls ++ b!"::" ++ m) b!"::" k = some cls.length
  | k, hk => by
    have hat : (cls ++ b!"::" ++ m).drop cls.length = b!"::" ++ m := by rw [List.append_assoc, List.drop_left]
    have hpre : (b!"::").isPrefixOf (b!"::" ++ m) = true := by simp [List.isPrefixOf]
    by_cases he : k = cls.length
    · subst he
      cases hc : cls.length with
      | zero =>
        rw [hc, List.drop_zero] at hat
        rw [rfind, hat, if_pos hpre]
      | succ n =>
        rw [hc] at hat
        rw [rfind, hat, if_pos hpre]
    · obtain ⟨n, rfl⟩ : ∃ n, k = n + 1 := ⟨k - 1, by omega⟩
      have hne : ¬ (b!"::").isPrefixOf ((cls ++ b!"::" ++ m).drop (n + 1)) = true := by
        intro h
        obtain ⟨t, ht⟩ := List.isPrefixOf_iff_prefix.mp h
        have : n + 1 = cls.length + ((n - cls.length) + 1) := by omega
        rw [this, ← List.drop_drop, hat] at ht
        have hd : (b!"::" ++ m).drop (n - cls.length + 1) = (b!":" ++ m).drop (n - cls.length) := rfl
        rw [hd] at ht
        have h2 : (58 : UInt8) ∈ ((b!":" ++ m).drop (n - cls.length)).drop 1 := by rw [← ht]; simp
        rw [List.drop_drop, Nat.add_comm, ← List.drop_drop] at h2
        exact hm (List.mem_of_mem_drop h2)
      rw [rfind, if_neg hne]
      exact rfind_scope hm n (by omega)

/-- What is done with a signature of a method. -/
theorem addFunctionAddress_method {db : Database} {pre cls m post : Bytes} {sep void : Bool} {ps : List Par} {address : UInt64} {c : Bool}
    (h1 : (40 : UInt8) ∉ pre ++ (cls ++ b!"::" ++ m)) (hm : (58 : UInt8) ∉ m) (hcl : cls.length < 1024) (hcls : Knows db.names cls)
    (ha : address ≠ 0) (hk : ∀ p ∈ ps, Known db.names p) (hv : void = true → ps = [] → Knows db.names b!"void") :
    addFunctionAddress db (cls ++ b!"::" ++ m) (signature pre (cls ++ b!"::" ++ m) sep void ps post) address true c =
      match setAddress (hashOf (cls ++ b!"::" ++ m)) ⟨Hash.uniqueId (⟨cls, .pointer, c⟩ :: ps.map Par.param)⟩ address db.functions with
      | some fs => .ok (true, { db with functions := fs })
      | none => .ok (false, db) := by
  obtain ⟨f, _, e1, e2, e3⟩ := brackets (post := post) (sep := sep) (void := void) h1 (fun p hp => (hk p hp).1)
  have et : thisParam db.names (cls ++ b!"::" ++ m) c = .ok (some (⟨cls, .pointer, c⟩, db.names)) := by
    rw [thisParam, rfind_scope hm _ (by simp)]
    dsimp only
    have htake : (cls ++ b!"::" ++ m).take cls.length = cls := by rw [List.append_assoc, List.take_left]
    rw [if_pos hcl, htake, getName_known hcls, Res.bind_ok]
  generalize cls ++ b!"::" ++ m = name at *
  rw [addFunctionAddress, if_neg ha, e1]
  dsimp only
  rw [e2]
  dsimp only
  rw [e3]
  dsimp only
  rw [if_pos rfl, et, Res.bind_ok]
  dsimp only
  rw [addAddress_args hk hv]
  rfl

/-! ### The part in front of the name -/

/-- A parameter is read and something follows. -/
theorem out_par_tail {e : Nat} (p : Par) {rest : Bytes} {out : Parse × Bytes} (hw : p.ty.Words) (hl : p.ty.text.length < 1024) (hs : Stops rest)
    (he : e < rest.length) (h : Tail e rest ⟨p.ty.text, qop p.op, p.isConst, false⟩ out) : Out e (p.print ++ rest) {} out := by
  rw [Par.print, List.append_assoc, List.append_assoc]
  have hop : Tail e (opText p.op ++ rest) { type := p.ty.text, isConst := p.isConst } out := by
    cases ho : p.op with
    | value => rw [ho] at h; exact h
    | pointer =>
      rw [ho] at h
      exact tail_blank (x := b!"*" ++ rest) ⟨_, _, rfl, by decide, by decide, by decide, by decide, by decide, by decide⟩
        (out_token (by decide) hs (by decide) (by simp; omega) rfl h)
    | reference =>
      rw [ho] at h
      exact tail_blank (x := b!"&" ++ rest) ⟨_, _, rfl, by decide, by decide, by decide, by decide, by decide, by decide⟩
        (out_token (by decide) hs (by decide) (by simp; omega) rfl h)
  have hstop : Stops (opText p.op ++ rest) := by
    cases p.op
    · exact hs
    · rintro _ ⟨⟩; rfl
    · rintro _ ⟨⟩; rfl
  have hne : e < (opText p.op ++ rest).length := by
    rw [List.length_append]; omega
  by_cases hc : p.isConst = true
  · rw [if_pos hc]
    refine out_ty p.ty hw (by simpa using hl) (by rintro _ ⟨⟩; rfl) (.inl ?_) ?_
    · rw [List.length_append]; omega
    · refine tail_blank (x := b!"const" ++ _) ⟨_, _, rfl, by decide, by decide, by decide, by decide, by decide, by decide⟩ ?_
      refine out_token (by decide) hstop (by decide) ?_ rfl ?_
      · rw [List.length_append]; omega
      · rw [hc] at hop
        exact hop
  · have hc : p.isConst = false := by simpa using hc
    rw [hc] at hop ⊢
    exact out_ty p.ty hw (by simpa using hl) hstop (.inl hne) hop

/-- Then the calling convention, and the name is reached. -/
theorem matchParameter_return {names : List Name} {p : Par} (this : Bool) {x : Bytes} (hw : p.ty.Words) (hl : p.ty.text.length < 1024)
    (hn : Knows names p.ty.text) (hx : Plain x) :
    matchParameter x.length names (p.print ++ (if this then b!" __thiscall " else b!" __cdecl ") ++ x) = .ok (p.param, this, x, names) := by
  have ho : ∀ q : Parse, q.thisCall = false → Tail x.length ((if this then b!" __thiscall " else b!" __cdecl ") ++ x) q ({ q with thisCall := this }, x) := by
    intro q hq
    have hout : ∀ p, Out x.length x p (p, x) := fun p => ⟨1, by rw [matchLoop, if_neg (by omega)]⟩
    cases this with
    | true =>
      refine tail_blank (x := b!"__thiscall" ++ 32 :: x) ⟨_, _, rfl, by decide, by decide, by decide, by decide, by decide, by decide⟩ ?_
      exact out_token (by decide) (by rintro _ ⟨⟩; rfl) (by decide) (by simp; omega) rfl (tail_blank hx (hout _))
    | false =>
      have : ({ q with thisCall := false } : Parse) = q := by rw [← hq]
      rw [this]
      refine tail_blank (x := b!"__cdecl" ++ 32 :: x) ⟨_, _, rfl, by decide, by decide, by decide, by decide, by decide, by decide⟩ ?_
      exact out_token (by decide) (by rintro _ ⟨⟩; rfl) (by decide) (by simp; omega) rfl (tail_blank hx (hout _))
  rw [matchParameter, List.append_assoc, (out_par_tail p hw hl (by cases this <;> (rintro _ ⟨⟩; rfl)) (by cases this <;> simp <;> omega) (ho _ rfl)).run,
    Res.bind_ok]
  dsimp only [Option.getD]
  rw [toParam]
  dsimp only
  rw [getName_known hn, Res.bind_ok, Res.bind_ok, Par.param]
  cases p.op <;> rfl

/-! ### The loops end -/

theorem matchLoop_shorter {e : Nat} : ∀ {fuel : Nat} {text : Bytes} {p q : Parse} {rest : Bytes}, e < text.length →
    matchLoop e fuel text p = .ok (some (q, rest)) → rest.length < text.length
  | 0, _, _, _, _, _, h => by cases h
  | fuel + 1, text, p, q, rest, he, h => by
    have hne : text ≠ [] := by rintro rfl; simp at he
    rw [matchLoop, if_pos he] at h
    obtain ⟨⟨tok, t1⟩, h1, h⟩ := Res.bind_eq_ok.mp h
    obtain ⟨p1, h2, h⟩ := Res.bind_eq_ok.mp h
    obtain ⟨⟨p2, t2⟩, h3, h⟩ := Res.bind_eq_ok.mp h
    have hle : t2.length ≤ text.length := by
      have ha := addAngle_length h3
      have hb := skipWhitespace_length t1
      rw [token] at h1
      split at h1
      · cases h1
        have hc := (List.dropWhile_suffix (fun c => !isStop c) (l := text)).length_le
        omega
      · cases h1
    rcases round_shorter hne h1 h3 with hlt | ⟨c, r, rfl, hc⟩
    · cases t2 with
      | nil =>
        dsimp only at h
        by_cases hz : e < ([] : Bytes).length
        · simp at hz
        · cases fuel with
          | zero => cases h
          | succ n =>
            rw [matchLoop, if_neg hz] at h
            cases h
            exact hlt
      | cons c r =>
        dsimp only at h
        split at h
        · cases h
          simp at hlt; omega
        · by_cases hz : e < (c :: r).length
          · exact Nat.lt_trans (matchLoop_shorter hz h) hlt
          · cases fuel with
            | zero => cases h
            | succ n =>
              rw [matchLoop, if_neg hz] at h
              cases h
              exact hlt
    · dsimp only at h
      rw [if_pos hc] at h
      cases h
      simp at hle; omega

theorem matchParameter_shorter {e : Nat} {names names' : List Name} {text rest : Bytes} {q : Hash.Param} {b : Bool} (he : e < text.length)
    (h : matchParameter e names text = .ok (q, b, rest, names')) : rest.length < text.length := by
  rw [matchParameter] at h
  obtain ⟨r, h1, h⟩ := Res.bind_eq_ok.mp h
  obtain ⟨⟨q', n'⟩, h2, h⟩ := Res.bind_eq_ok.mp h
  cases r with
  | none => exact absurd h1 (matchLoop_ends e _ text {} (Nat.lt_succ_self _))
  | some r =>
    obtain ⟨p, rest'⟩ := r
    have := matchLoop_shorter he h1
    dsimp only [Option.getD] at h
    cases h
    exact this

theorem paramLoop_ends {e : Nat} : ∀ {fuel : Nat} {names : List Name} {text : Bytes}, text.length < fuel → paramLoop e fuel names text ≠ .ok none
  | 0, _, _, h => by omega
  | fuel + 1, names, text, h => by
    intro hh
    rw [paramLoop] at hh
    split at hh
    · rename_i he
      obtain ⟨⟨q, b, rest, names'⟩, h1, hh⟩ := Res.bind_eq_ok.mp hh
      obtain ⟨r, h2, hh⟩ := Res.bind_eq_ok.mp hh
      have := matchParameter_shorter he h1
      cases r with
      | none => exact paramLoop_ends (by omega) h2
      | some r => cases hh
    · cases hh

/-! ### Short texts fit the buffers -/

theorem addToken_fits {p : Parse} {tok : Bytes} (h : p.type.length + 2 * tok.length < 1024) :
    ∃ p', addToken p tok = .ok p' ∧ p'.type.length ≤ p.type.length + 2 * tok.length := by
  rw [addToken]
  by_cases h1 : tok.head? = some 38
  · exact ⟨_, by rw [if_pos h1], by simp⟩
  rw [if_neg h1]
  by_cases h2 : tok.head? = some 42
  · exact ⟨_, by rw [if_pos h2], by simp⟩
  rw [if_neg h2]
  by_cases h3 : tok = b!"const"
  · exact ⟨_, by rw [if_pos h3], by simp⟩
  rw [if_neg h3]
  by_cases h4 : tok = b!"__thiscall"
  · exact ⟨_, by rw [if_pos h4], by simp⟩
  rw [if_neg h4]
  by_cases h5 : tok = b!"unsigned" ∨ tok = b!"signed"
  · have h6 : 1 ≤ tok.length := by rcases h5 with h | h <;> rw [h] <;> decide
    rw [if_pos h5, cat, if_pos (by simp; omega)]
    exact ⟨_, rfl, by simp; omega⟩
  rw [if_neg h5]
  by_cases h6 : tok = b!"__int64"
  · have h7 : tok.length = 7 := by rw [h6]; rfl
    rw [if_pos h6, cat, if_pos (by simp; omega)]
    exact ⟨_, rfl, by simp; omega⟩
  rw [if_neg h6]
  by_cases h7 : tok ∈ skipTokens
  · exact ⟨_, by rw [if_pos h7], by omega⟩
  rw [if_neg h7, cat, if_pos (by omega)]
  exact ⟨_, rfl, by simp; omega⟩

theorem addAngle_fits {p : Parse} {t : Bytes} (h : p.type.length + 2 * t.length < 1024) :
    ∃ p' t', addAngle p t = .ok (p', t') ∧ p'.type.length + 2 * t'.length ≤ p.type.length + 2 * t.length := by
  cases t with
  | nil => exact ⟨_, _, rfl, Nat.le_refl _⟩
  | cons c r =>
    rw [addAngle]
    split
    · simp at h
      rw [cat, if_pos (by simp; omega)]
      exact ⟨_, _, rfl, by simp; omega⟩
    · exact ⟨_, _, rfl, Nat.le_refl _⟩

theorem matchLoop_fits {e : Nat} : ∀ {fuel : Nat} {text : Bytes} {p : Parse}, p.type.length + 2 * text.length < 1024 →
    ∃ r, matchLoop e fuel text p = .ok r
  | 0, _, _, _ => ⟨_, rfl⟩
  | fuel + 1, text, p, h => by
    rw [matchLoop]
    split
    · have hlen : (text.takeWhile fun c => !isStop c).length + (text.dropWhile fun c => !isStop c).length = text.length := by
        rw [← List.length_append, List.takeWhile_append_dropWhile]
      rw [token, if_pos (by omega), Res.bind_ok]
      dsimp only
      obtain ⟨p1, h1, h2⟩ := addToken_fits (p := p) (tok := text.takeWhile fun c => !isStop c) (by omega)
      rw [h1, Res.bind_ok]
      have hsk := skipWhitespace_length (text.dropWhile fun c => !isStop c)
      obtain ⟨p2, t2, h3, h4⟩ := addAngle_fits (p := p1) (t := skipWhitespace (text.dropWhile fun c => !isStop c)) (by omega)
      rw [h3, Res.bind_ok]
      dsimp only
      have ih : ∃ r, matchLoop e fuel t2 p2 = .ok r := matchLoop_fits (by omega)
      cases t2 with
      | nil => exact ih
      | cons c r =>
        dsimp only
        split
        · exact ⟨_, rfl⟩
        · exact ih
    · exact ⟨_, rfl⟩

theorem getName_notUb (names : List Name) (t : Bytes) : getName names (some t) ≠ .ub := by
  rw [getName]
  generalize hashOf t = h
  split
  · exact fun e => by cases e
  · cases findBy Name.hash h names with
    | none => exact fun e => by cases e
    | some n =>
      dsimp only
      split
      · exact fun e => by cases e
      · exact fun e => by cases e

theorem bind_notUb {α β : Type} {x : Res α} {f : α → Res β} (h1 : x ≠ .ub) (h2 : ∀ a, x = .ok a → f a ≠ .ub) : (x >>= f) ≠ .ub := by
  cases x with
  | ok a => exact h2 a rfl
  | trap => exact fun h => by cases h
  | ub => exact absurd rfl h1

theorem matchParameter_notUb {e : Nat} {names : List Name} {text : Bytes} (h : text.length < 512) : matchParameter e names text ≠ .ub := by
  rw [matchParameter]
  obtain ⟨r, hr⟩ := matchLoop_fits (e := e) (fuel := text.length + 1) (text := text) (p := {}) (by simp; omega)
  rw [hr, Res.bind_ok]
  cases hp : r.getD ({}, []) with
  | mk p rest =>
    dsimp only
    refine bind_notUb ?_ (fun _ _ h => by cases h)
    rw [toParam]
    exact bind_notUb (getName_notUb _ _) (fun _ _ h => by cases h)

theorem paramLoop_notUb {e : Nat} : ∀ {fuel : Nat} {names : List Name} {text : Bytes}, text.length < 512 → paramLoop e fuel names text ≠ .ub
  | 0, _, _, _ => fun h => by cases h
  | fuel + 1, names, text, h => by
    rw [paramLoop]
    split
    · rename_i he
      refine bind_notUb (matchParameter_notUb h) ?_
      rintro ⟨q, b, rest, names'⟩ h1
      have := matchParameter_shorter he h1
      exact bind_notUb (paramLoop_notUb (by omega)) (fun _ _ h => by cases h)
    · exact fun h => by cases h

theorem addAddress_notUb {db : Database} {name sig : Bytes} {l r : Nat} {address : UInt64} {first : List Hash.Param} {names : List Name}
    (h : sig.length < 512) : addAddress db name sig l r address first names ≠ .ub := by
  rw [addAddress]
  refine bind_notUb (paramLoop_notUb (by rw [List.length_drop]; omega)) ?_
  intro ps _
  cases ps.getD ([], names) with
  | mk ps names =>
    dsimp only
    generalize setAddress _ _ _ _ = o
    cases o
    · exact fun h => by cases h
    · exact fun h => by cases h

theorem addFunctionAddress_notUb {db : Database} {name sig : Bytes} {address : UInt64} {t c : Bool} (hs : sig.length < 512) (hn : name.length < 1024) :
    addFunctionAddress db name sig address t c ≠ .ub := by
  rw [addFunctionAddress]
  split
  · exact fun h => by cases h
  · cases find sig name 0 with
    | none => exact fun h => by cases h
    | some f =>
      dsimp only
      cases find sig b!"(" f with
      | none => exact fun h => by cases h
      | some l =>
        dsimp only
        cases find sig b!")" l with
        | none => exact fun h => by cases h
        | some r =>
          dsimp only
          split
          · have ht : thisParam db.names name c ≠ .ub := by
              rw [thisParam]
              cases hr : rfind name b!"::" name.length with
              | none => exact fun h => by cases h
              | some i =>
                dsimp only
                have hi : i < 1024 ∨ i = 1024 := by have := rfind_le hr; omega
                rw [if_pos (by have := rfind_le hr; omega)]
                exact bind_notUb (getName_notUb _ _) (fun _ _ h => by cases h)
            refine bind_notUb ht ?_
            intro o _
            cases o with
            | none => exact fun h => by cases h
            | some o => exact addAddress_notUb hs
          · exact addAddress_notUb hs

/-! ### Generated functions -/

/-- What the map holds for a hash. -/
def entry (l : List (UInt32 × UInt64 × UInt64)) (h : UInt32) : Option (UInt64 × UInt64) := (l.find? (·.1 == h)).map (·.2)

theorem assignGetType_sorted {h : UInt32} {a : UInt64} {b : Bool} : ∀ {l : List (UInt32 × UInt64 × UInt64)}, l.Pairwise (·.1 < ·.1) →
    (assignGetType h a b l).Pairwise (·.1 < ·.1) ∧ ∀ x ∈ assignGetType h a b l, x.1 = h ∨ ∃ y ∈ l, y.1 = x.1
  | [], _ => by
    rw [assignGetType]
    exact ⟨List.pairwise_singleton _ _, fun x hx => by simp at hx; rw [hx]; exact .inl rfl⟩
  | e :: es, hs => by
    rw [assignGetType]
    obtain ⟨hs1, hs2⟩ := List.pairwise_cons.mp hs
    split
    · rename_i hlt
      refine ⟨List.pairwise_cons.mpr ⟨?_, hs⟩, ?_⟩
      · intro x hx
        rcases List.mem_cons.mp hx with rfl | hx
        · exact hlt
        · exact UInt32.lt_trans hlt (hs1 x hx)
      · intro x hx
        rcases List.mem_cons.mp hx with rfl | hx
        · exact .inl rfl
        · exact .inr ⟨x, hx, rfl⟩
    · split
      · rename_i heq
        refine ⟨List.pairwise_cons.mpr ⟨fun x hx => by rw [heq]; exact hs1 x hx, hs2⟩, ?_⟩
        intro x hx
        rcases List.mem_cons.mp hx with rfl | hx
        · exact .inl rfl
        · exact .inr ⟨x, by simp [hx], rfl⟩
      · rename_i h1 h2
        obtain ⟨i1, i2⟩ := assignGetType_sorted (h := h) (a := a) (b := b) hs2
        have hlt : e.1 < h := by
          rcases UInt32.lt_or_lt_of_ne (Ne.symm h2) with h | h
          · exact h
          · exact absurd h h1
        refine ⟨List.pairwise_cons.mpr ⟨?_, i1⟩, ?_⟩
        · intro x hx
          rcases i2 x hx with h | ⟨y, hy, hyx⟩
          · rw [h]; exact hlt
          · rw [← hyx]; exact hs1 y hy
        · intro x hx
          rcases List.mem_cons.mp hx with rfl | hx
          · exact .inr ⟨x, by simp, rfl⟩
          · rcases i2 x hx with h | ⟨y, hy, hyx⟩
            · exact .inl h
            · exact .inr ⟨y, by simp [hy], hyx⟩

theorem entry_none {l : List (UInt32 × UInt64 × UInt64)} {h : UInt32} (hl : ∀ x ∈ l, x.1 ≠ h) : entry l h = none := by
  rw [entry, List.find?_eq_none.mpr (fun x hx => by simp [hl x hx])]
  rfl

theorem assignGetType_entry {h k : UInt32} {a : UInt64} {b : Bool} : ∀ {l : List (UInt32 × UInt64 × UInt64)}, l.Pairwise (·.1 < ·.1) →
    entry (assignGetType h a b l) k =
      if k = h then some (let o := (entry l h).getD (0, 0); if b then (o.1, a) else (a, o.2)) else entry l k
  | [], _ => by
    rw [assignGetType]
    by_cases hk : k = h
    · subst hk
      rw [if_pos rfl]
      cases b <;> simp [entry]
    · rw [if_neg hk]
      have : ¬ (h = k) := fun e => hk e.symm
      simp [entry, this]
  | e :: es, hs => by
    rw [assignGetType]
    obtain ⟨hs1, hs2⟩ := List.pairwise_cons.mp hs
    split
    · rename_i hlt
      by_cases hk : k = h
      · subst hk
        rw [if_pos rfl]
        have hn : entry (e :: es) k = none := by
          refine entry_none ?_
          intro x hx he
          rcases List.mem_cons.mp hx with rfl | hx
          · rw [he] at hlt; exact absurd hlt (UInt32.lt_irrefl _)
          · have := UInt32.lt_trans hlt (hs1 x hx)
            rw [he] at this; exact absurd this (UInt32.lt_irrefl _)
        rw [hn]
        cases b <;> simp [entry]
      · rw [if_neg hk]
        have : ¬ (h = k) := fun e => hk e.symm
        simp [entry, this]
    · split
      · rename_i heq
        by_cases hk : k = h
        · subst hk
          rw [if_pos rfl]
          have : e.1 = k := heq.symm
          cases b <;> simp [entry, this]
        · rw [if_neg hk]
          have h1 : ¬ (h = k) := fun e => hk e.symm
          have h2 : ¬ (e.1 = k) := fun e' => h1 (heq.trans e')
          simp [entry, h1, h2]
      · rename_i h1 h2
        have ih := assignGetType_entry (h := h) (k := k) (a := a) (b := b) hs2
        by_cases he : e.1 = k
        · have hk : k ≠ h := fun e' => h2 (by rw [he, e'])
          rw [if_neg hk]
          simp [entry, he]
        · have e1 : ∀ es', entry (e :: es') k = entry es' k := fun es' => by simp [entry, he]
          have e2 : entry (e :: es) h = entry es h := by
            have : ¬ e.1 = h := fun e' => h2 e'.symm
            simp [entry, this]
          rw [e1, e1, e2, ih]

theorem take_find {a b : Bytes} {c : UInt8} (h : c ∉ a) : find (a ++ c :: b) [c] 0 = some a.length ∧ (a ++ c :: b).take a.length = a :=
  ⟨find_char (Nat.zero_le _) h, List.take_left⟩

/-- Characters behind a type's name. -/
def isEnd (c : UInt8) : Bool := c == 32 || c == 62 || c == 42

theorem takeWhile_end {t rest : Bytes} {c : UInt8} (ht : ∀ x ∈ t, isEnd x = false) (hc : isEnd c = true) :
    (t ++ c :: rest).takeWhile (fun x => !isEnd x) = t := by
  induction t with
  | nil => simp [hc]
  | cons x t ih =>
    rw [List.cons_append, List.takeWhile_cons, if_pos (by simp [ht x (by simp)]), ih (fun y hy => ht y (by simp [hy]))]

/-- The keyword in front of a type's name is skipped, and nothing else. -/
theorem skipTypePrefix_kw (kw : Kw) {t rest : Bytes} {c : UInt8} (ht : ∀ x ∈ t, isEnd x = false) (hc : isEnd c = true)
    (hk : t ∉ [b!"struct", b!"class", b!"enum"]) : skipTypePrefix (kw.print ++ (t ++ c :: rest)) = t ++ c :: rest := by
  have key : ∀ (w : Bytes), (∀ x ∈ w, isEnd x = false) → (t ++ c :: rest).take (w.length + 1) = w ++ [32] → t = w := by
    intro w hw he
    have h1 : t ++ c :: rest = w ++ 32 :: (t ++ c :: rest).drop (w.length + 1) := by
      conv => lhs; rw [← List.take_append_drop (w.length + 1) (t ++ c :: rest), he]
      simp
    have h2 := takeWhile_end (rest := rest) ht hc
    rw [h1, takeWhile_end hw (by decide)] at h2
    exact h2.symm
  simp only [List.mem_cons, List.not_mem_nil, or_false, not_or] at hk
  have k1 : (t ++ c :: rest).take 7 ≠ b!"struct " := fun h => hk.1 (key b!"struct" (by decide) h)
  have k2 : (t ++ c :: rest).take 6 ≠ b!"class " := fun h => hk.2.1 (key b!"class" (by decide) h)
  have k3 : (t ++ c :: rest).take 5 ≠ b!"enum " := fun h => hk.2.2 (key b!"enum" (by decide) h)
  generalize t ++ c :: rest = x at *
  cases kw with
  | none => rw [Kw.print, List.nil_append, skipTypePrefix]; simp [k1, k2, k3]
  | struct => rw [Kw.print, skipTypePrefix]; simp [k2, k3]
  | cls => rw [Kw.print, skipTypePrefix]; simp [k3]
  | enum => rw [Kw.print, skipTypePrefix]; simp

/-- What `GetName` returns if the text's hash is not zero. -/
theorem getName_hash {names names' : List Name} {t : Bytes} {n : Name} (h : getName names (some t) = .ok (n, names')) (h0 : hashOf t ≠ 0) :
    n = ⟨hashOf t, t⟩ := by
  rw [getName] at h
  rw [if_neg h0] at h
  generalize hashOf t = k at *
  cases hf : findBy Name.hash k names with
  | none =>
    rw [hf] at h
    cases h
    rfl
  | some m =>
    rw [hf] at h
    dsimp only at h
    split at h
    · cases h
      rename_i he
      have := (Merge.findBy_some hf).2
      cases n
      simp at he this
      simp [he, this]
    · cases h

theorem addGetTypeAddress_eq {s s' : St} {pfx t post : Bytes} {kw : Kw} {address : UInt64} {b : Bool} (hp : (60 : UInt8) ∉ pfx)
    (ht : ∀ x ∈ t, isEnd x = false) (hk : t ∉ [b!"struct", b!"class", b!"enum"]) (h0 : hashOf t ≠ 0) (ha : address ≠ 0)
    (h : addGetTypeAddress s (pfx ++ b!"<" ++ kw.print ++ t ++ b!">" ++ post) address b = .ok s') :
    s'.getTypes = assignGetType (hashOf t) address b s.getTypes ∧ ∃ names, s'.db = { s.db with names := names } := by
  have e1 : pfx ++ b!"<" ++ kw.print ++ t ++ b!">" ++ post = pfx ++ 60 :: (kw.print ++ (t ++ 62 :: post)) := by simp
  rw [e1, addGetTypeAddress, if_neg ha, find_char (Nat.zero_le _) hp] at h
  have e2 : (pfx ++ 60 :: (kw.print ++ (t ++ 62 :: post))).drop (pfx.length + 1) = kw.print ++ (t ++ 62 :: post) := by
    simp
  have ht2 : (62 : UInt8) ∉ t := fun hm => by have := ht 62 hm; cases this
  obtain ⟨f1, f2⟩ := take_find (b := post) ht2
  dsimp only at h
  rw [e2, skipTypePrefix_kw kw ht (by decide) hk, f1] at h
  dsimp only at h
  rw [f2] at h
  obtain ⟨⟨n, names⟩, h1, h⟩ := Res.bind_eq_ok.mp h
  have hn := getName_hash h1 h0
  dsimp only at h
  rw [hn] at h
  dsimp only at h
  rw [if_neg h0] at h
  cases h
  exact ⟨rfl, names, rfl⟩

/-- Back from the star over the blanks. -/
theorem backOver_type {a : Bytes} {x : UInt8} {rest : Bytes} (hx : isEnd x = false) : ∀ n : Nat,
    backOver (a ++ x :: (List.replicate n 32 ++ 42 :: rest)) (a.length + 1 + n) = .ok a.length := by
  have hstop : ∀ tail, backOver (a ++ x :: tail) a.length = .ok a.length := by
    intro tail
    have hget : (a ++ x :: tail)[a.length]? = some x := by simp
    have hx1 : x ≠ 32 := by rintro rfl; cases hx
    have hx2 : x ≠ 42 := by rintro rfl; cases hx
    cases hl : a.length with
    | zero =>
      rw [hl] at hget
      rw [backOver, hget, if_neg (by simp [hx1, hx2])]
    | succ k =>
      rw [hl] at hget
      rw [backOver, hget, if_neg (by simp [hx1, hx2])]
  have hblank : ∀ (n : Nat) tail k, k ≤ n → backOver (a ++ x :: (List.replicate n 32 ++ tail)) (a.length + k) = .ok a.length := by
    intro n tail k
    induction k with
    | zero => intro _; exact hstop _
    | succ k ih =>
      intro hk
      have hget : (a ++ x :: (List.replicate n 32 ++ tail))[a.length + k + 1]? = some 32 := by
        rw [List.getElem?_append_right (by omega)]
        have : a.length + k + 1 - a.length = k + 1 := by omega
        rw [this, List.getElem?_cons_succ, List.getElem?_append_left (by simp; omega), List.getElem?_replicate, if_pos (by omega)]
      rw [← Nat.add_assoc, backOver, hget, if_pos (.inl rfl)]
      exact ih (by omega)
  intro n
  have hget : (a ++ x :: (List.replicate n 32 ++ 42 :: rest))[a.length + n + 1]? = some 42 := by
    rw [List.getElem?_append_right (by omega)]
    have : a.length + n + 1 - a.length = n + 1 := by omega
    rw [this, List.getElem?_cons_succ, List.getElem?_append_right (by simp)]
    simp
  rw [show a.length + 1 + n = a.length + n + 1 by omega, backOver, hget, if_pos (.inr rfl)]
  exact hblank n _ n (Nat.le_refl _)

theorem addClassImpl_eq {db : Database} {pre t post : Bytes} {kw : Kw} {address : UInt64} {b : Bool} (n : Nat) (hp : (40 : UInt8) ∉ pre)
    (ht : ∀ x ∈ t, isEnd x = false) (ht0 : t ≠ []) (hk : t ∉ [b!"struct", b!"class", b!"enum"]) (ha : address ≠ 0) :
    addClassImpl db (pre ++ b!"(" ++ kw.print ++ t ++ List.replicate n 32 ++ b!"*" ++ post) address b = addImpl db t address b := by
  have e1 : pre ++ b!"(" ++ kw.print ++ t ++ List.replicate n 32 ++ b!"*" ++ post =
      pre ++ 40 :: (kw.print ++ (t ++ (List.replicate n 32 ++ 42 :: post))) := by simp
  rw [e1, addClassImpl, if_neg ha, find_char (Nat.zero_le _) hp]
  dsimp only
  have e2 : (pre ++ 40 :: (kw.print ++ (t ++ (List.replicate n 32 ++ 42 :: post)))).drop (pre.length + 1) =
      kw.print ++ (t ++ (List.replicate n 32 ++ 42 :: post)) := by
    simp
  have e3 : skipTypePrefix (kw.print ++ (t ++ (List.replicate n 32 ++ 42 :: post))) = t ++ (List.replicate n 32 ++ 42 :: post) := by
    cases n with
    | zero => exact skipTypePrefix_kw kw ht (by decide) hk
    | succ n => exact skipTypePrefix_kw kw (rest := List.replicate n 32 ++ 42 :: post) ht (c := 32) (by decide) hk
  rw [e2, e3]
  have e4 : (pre ++ 40 :: (kw.print ++ (t ++ (List.replicate n 32 ++ 42 :: post)))).length - (t ++ (List.replicate n 32 ++ 42 :: post)).length =
      (pre ++ 40 :: kw.print).length := by
    simp only [List.length_append, List.length_cons]
    omega
  rw [e4]
  have e5 : pre ++ 40 :: (kw.print ++ (t ++ (List.replicate n 32 ++ 42 :: post))) =
      (pre ++ 40 :: kw.print) ++ ((t ++ List.replicate n 32) ++ 42 :: post) := by simp
  have hstar : (42 : UInt8) ∉ t ++ List.replicate n 32 := by
    rw [List.mem_append]
    rintro (hm | hm)
    · have := ht 42 hm; cases this
    · have := List.eq_of_mem_replicate hm; cases this
  rw [e5, find_char_from hstar]
  dsimp only
  obtain ⟨t', x, rfl⟩ : ∃ t' x, t = t' ++ [x] := ⟨t.dropLast, t.getLast ht0, (List.dropLast_concat_getLast ht0).symm⟩
  have hback := backOver_type (a := pre ++ 40 :: kw.print ++ t') (x := x) (rest := post) (ht x (by simp)) n
  have e6 : pre ++ 40 :: kw.print ++ (t' ++ [x] ++ List.replicate n 32 ++ 42 :: post) =
      pre ++ 40 :: kw.print ++ t' ++ x :: (List.replicate n 32 ++ 42 :: post) := by simp
  have e7 : (pre ++ 40 :: kw.print).length + (t' ++ [x] ++ List.replicate n 32).length = (pre ++ 40 :: kw.print ++ t').length + 1 + n := by
    simp; omega
  rw [e6, e7, hback, Res.bind_ok]
  rw [if_neg (by simp; omega)]
  have e8 : (pre ++ 40 :: kw.print ++ t' ++ x :: (List.replicate n 32 ++ 42 :: post)).drop (pre ++ 40 :: kw.print).length =
      (t' ++ [x]) ++ (List.replicate n 32 ++ 42 :: post) := by
    rw [List.append_assoc, List.drop_left]; simp
  have e9 : (pre ++ 40 :: kw.print ++ t').length + 1 - (pre ++ 40 :: kw.print).length = (t' ++ [x]).length := by
    simp only [List.length_append, List.length_cons, List.length_nil]; omega
  rw [e8, e9, List.take_left]

/-- The function and its parameter. -/
theorem addImpl_eq {db db' : Database} {t : Bytes} {address : UInt64} {b : Bool} (h0 : hashOf t ≠ 0) (h : addImpl db t address b = .ok db') :
    ∃ names, db' = { db with
      names := names
      functions := insertBy (fun x : Function => x.name.hash)
        { name := ⟨hashOf (t ++ b!"::" ++ (if b then b!"ConstructObject" else b!"DestructObject")), t ++ b!"::" ++ (if b then b!"ConstructObject" else b!"DestructObject")⟩
          parent := ⟨hashOf t, t⟩, uniqueId := ⟨Hash.uniqueId [⟨t, .pointer, false⟩]⟩, address := address } db.functions
      fields := insertBy (fun x : Field => x.name.hash)
        { name := ⟨hashOf b!"this", b!"this"⟩
          parent := ⟨hashOf (t ++ b!"::" ++ (if b then b!"ConstructObject" else b!"DestructObject")), t ++ b!"::" ++ (if b then b!"ConstructObject" else b!"DestructObject")⟩
          type := ⟨hashOf t, t⟩, qualifier := ⟨.pointer, false⟩, offset := 0, parentUniqueId := ⟨Hash.uniqueId [⟨t, .pointer, false⟩]⟩ } db.fields } := by
  rw [addImpl] at h
  generalize hfn : t ++ b!"::" ++ (if b then b!"ConstructObject" else b!"DestructObject") = fn at *
  have hthis : hashOf b!"this" ≠ 0 := by decide +kernel
  generalize b!"this" = th at *
  obtain ⟨⟨ty, n1⟩, h1, h⟩ := Res.bind_eq_ok.mp h
  obtain ⟨⟨this, n2⟩, h2, h⟩ := Res.bind_eq_ok.mp h
  obtain ⟨⟨fname, n3⟩, h3, h⟩ := Res.bind_eq_ok.mp h
  obtain rfl := getName_hash h1 h0
  obtain rfl := getName_hash h2 hthis
  dsimp only at h
  obtain ⟨fields, h4, h⟩ := Res.bind_eq_ok.mp h
  obtain ⟨functions, h5, h⟩ := Res.bind_eq_ok.mp h
  obtain ⟨_, rfl⟩ := Merge.add_eq_ok h4
  obtain ⟨h6, rfl⟩ := Merge.add_eq_ok h5
  dsimp only at h6
  have hf0 : hashOf fn ≠ 0 := by
    intro hz
    rw [getName, if_pos hz] at h3
    cases h3
    exact h6 rfl
  obtain rfl := getName_hash h3 hf0
  cases h
  exact ⟨n3, rfl⟩

end Clr.Map
