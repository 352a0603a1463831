import Verif.Model.AttributeParser
import Verif.Props.FileUtils

/-!
Lemmas about the attribute parser.
-/
namespace Clr.Attr
open Clr.DB (Name getName)

@[simp] theorem ok_bind {α β : Type} (a : α) (f : α → Out β) : (Out.ok a >>= f) = f a := rfl
@[simp] theorem stop_bind {α β : Type} (k : Stop) (f : α → Out β) : ((Out.stop k : Out α) >>= f) = .stop k := rfl

/-- A fact about all bytes can be computed. -/
theorem all_bytes {P : UInt8 → Prop} [DecidablePred P] (h : ∀ n : Fin 256, P (UInt8.ofNat n.val)) (c : UInt8) : P c := by
  have := h ⟨c.toNat, c.toNat_lt⟩
  simpa using this

theorem symChar_facts (c : UInt8) : symChar c = true → c ≠ 0 ∧ ¬ 128 ≤ c := by
  revert c; exact all_bytes (P := fun c => symChar c = true → c ≠ 0 ∧ ¬ 128 ≤ c) (by decide +kernel)

theorem xdigit_facts (c : UInt8) : isXDigit c = true → c ≠ 0 ∧ ¬ 128 ≤ c := by
  revert c; exact all_bytes (P := fun c => isXDigit c = true → c ≠ 0 ∧ ¬ 128 ≤ c) (by decide +kernel)

/-- A character that can follow a word: a blank, '=' or ','. -/
def stopChar (c : UInt8) : Bool := c == 32 || c == 9 || c == 61 || c == 44

theorem stopChar_facts (c : UInt8) : stopChar c = true →
    c ≠ 0 ∧ ¬ 128 ≤ c ∧ symChar c = false ∧ isXDigit c = false ∧ ¬ (c = 46 ∨ c = 120 ∨ c = 88) := by
  revert c
  exact all_bytes (P := fun c => stopChar c = true →
    c ≠ 0 ∧ ¬ 128 ≤ c ∧ symChar c = false ∧ isXDigit c = false ∧ ¬ (c = 46 ∨ c = 120 ∨ c = 88)) (by decide +kernel)

/-- What can follow a word. -/
def Stops : Bytes → Prop
  | [] => True
  | c :: _ => stopChar c = true

theorem symLoop_word {s r : Bytes} (hs : ∀ c ∈ s, symChar c = true) (hr : Stops r) : symLoop (s ++ r) = .ok (s, r) := by
  induction s with
  | nil =>
    cases r with
    | nil => rfl
    | cons c cs =>
      obtain ⟨h0, h1, h2, _⟩ := stopChar_facts c hr
      simp [symLoop, h0, h1, h2]
  | cons c s ih =>
    obtain ⟨h0, h1⟩ := symChar_facts c (hs c (by simp))
    rw [List.cons_append, symLoop, if_neg h0, if_neg h1, if_pos (hs c (by simp)), ih (fun d hd => hs d (by simp [hd]))]
    rfl

theorem numLoop_digits {ty : TokenType} {s r : Bytes} (hs : ∀ c ∈ s, isXDigit c = true) (hr : Stops r) :
    numLoop ty (s ++ r) = .ok (some (ty, s, r)) := by
  induction s with
  | nil =>
    cases r with
    | nil => rfl
    | cons c cs =>
      obtain ⟨h0, h1, _, h2, h3⟩ := stopChar_facts c hr
      rw [List.nil_append, numLoop, if_neg h0, if_neg h1, if_neg (by simp [h2]), if_neg h3]
  | cons c s ih =>
    obtain ⟨h0, h1⟩ := xdigit_facts c (hs c (by simp))
    rw [List.cons_append, numLoop, if_neg h0, if_neg h1, if_pos (hs c (by simp)), ih (fun d hd => hs d (by simp [hd]))]
    rfl

theorem numLoop_mark {m : UInt8} (hm : m = 46 ∨ m = 120 ∨ m = 88) {s t r : Bytes} (hs : ∀ c ∈ s, isXDigit c = true)
    (ht : ∀ c ∈ t, isXDigit c = true) (hr : Stops r) :
    numLoop .int (s ++ m :: t ++ r) = .ok (some (if m = 46 then .float else .hex, s ++ m :: t, r)) := by
  induction s with
  | nil =>
    rw [List.nil_append, List.cons_append, numLoop, if_neg (by rcases hm with rfl | rfl | rfl <;> decide),
      if_neg (by rcases hm with rfl | rfl | rfl <;> decide), if_neg (by rcases hm with rfl | rfl | rfl <;> decide), if_pos hm,
      if_neg (by simp), numLoop_digits ht hr]
    rfl
  | cons c s ih =>
    obtain ⟨h0, h1⟩ := xdigit_facts c (hs c (by simp))
    rw [List.cons_append, List.cons_append, numLoop, if_neg h0, if_neg h1, if_pos (hs c (by simp)), ih (fun d hd => hs d (by simp [hd]))]
    rfl

theorem strLoop_text {s r : Bytes} (hs : ∀ c ∈ s, c ≠ 0 ∧ c ≠ 34) : strLoop (s ++ 34 :: r) = some (s, r) := by
  induction s with
  | nil => rfl
  | cons c s ih =>
    rw [List.cons_append, strLoop, if_neg (hs c (by simp)).1, if_neg (hs c (by simp)).2, ih fun d hd => hs d (by simp [hd])]
    rfl

/-! ### Spelled tokens -/

/-- The spelling of a token in the text. -/
inductive Spelled : Bytes → Token → Prop
  | equals : Spelled [61] ⟨.equals, [61]⟩
  | comma : Spelled [44] ⟨.comma, [44]⟩
  | string (s : Bytes) (hs : ∀ c ∈ s, c ≠ 0 ∧ c ≠ 34) : Spelled (34 :: (s ++ [34])) ⟨.string, s⟩
  | symbol (c : UInt8) (s : Bytes) (hc : isAlpha c = true ∨ c = 95) (hs : ∀ d ∈ s, symChar d = true) : Spelled (c :: s) ⟨.symbol, c :: s⟩
  | int (c : UInt8) (s : Bytes) (hc : isDigit c = true) (hs : ∀ d ∈ s, isDigit d = true) : Spelled (c :: s) ⟨.int, c :: s⟩
  | hex (m : UInt8) (t : Bytes) (hm : m = 120 ∨ m = 88) (ht : ∀ d ∈ t, isXDigit d = true) : Spelled (48 :: m :: t) ⟨.hex, 48 :: m :: t⟩
  | float (c : UInt8) (s t : Bytes) (hc : isDigit c = true) (hs : ∀ d ∈ s, isDigit d = true) (ht : ∀ d ∈ t, isXDigit d = true) :
      Spelled (c :: (s ++ 46 :: t)) ⟨.float, c :: (s ++ 46 :: t)⟩

/-- The spellings of tokens. -/
inductive SpelledAll : List Bytes → List Token → Prop
  | nil : SpelledAll [] []
  | cons {s : Bytes} {t : Token} {ss : List Bytes} {ts : List Token} (h : Spelled s t) (hs : SpelledAll ss ts) : SpelledAll (s :: ss) (t :: ts)

/-- Words need something behind them that ends them. -/
def isWord (t : Token) : Bool := !(t.type == .equals || t.type == .comma || t.type == .string)

theorem alpha_facts (c : UInt8) : isAlpha c = true → symChar c = true ∧ c ≠ 61 ∧ c ≠ 44 ∧ c ≠ 34 ∧ ¬ (c = 32 ∨ c = 9) ∧ ¬ 128 ≤ c ∧ c ≠ 0 := by
  revert c
  exact all_bytes (P := fun c => isAlpha c = true → symChar c = true ∧ c ≠ 61 ∧ c ≠ 44 ∧ c ≠ 34 ∧ ¬ (c = 32 ∨ c = 9) ∧ ¬ 128 ≤ c ∧ c ≠ 0)
    (by decide +kernel)

theorem digit_facts (c : UInt8) : isDigit c = true →
    isXDigit c = true ∧ c ≠ 61 ∧ c ≠ 44 ∧ c ≠ 34 ∧ ¬ (c = 32 ∨ c = 9) ∧ ¬ 128 ≤ c ∧ c ≠ 0 ∧ c ≠ 95 ∧ isAlpha c = false := by
  revert c
  exact all_bytes (P := fun c => isDigit c = true →
    isXDigit c = true ∧ c ≠ 61 ∧ c ≠ 44 ∧ c ≠ 34 ∧ ¬ (c = 32 ∨ c = 9) ∧ ¬ 128 ≤ c ∧ c ≠ 0 ∧ c ≠ 95 ∧ isAlpha c = false) (by decide +kernel)

/-- A token that starts with a digit. -/
theorem lexOne_num {c : UInt8} {cs r x : Bytes} {ty : TokenType} (hc : isDigit c = true)
    (h : numLoop .int (c :: cs) = .ok (some (ty, x, r))) : lexOne c cs = .ok (some (some ⟨ty, x⟩, r)) := by
  obtain ⟨_, h1, h2, h3, h4, h5, _, h7, h8⟩ := digit_facts c hc
  rw [lexOne, if_neg h1, if_neg h2, if_neg h3, if_neg h4, if_neg h7, if_neg h5, if_neg (by simp [h8]), if_pos hc, h]
  rfl

/-- The lexer reads a spelled token. -/
theorem lexOne_spelled {s : Bytes} {t : Token} (h : Spelled s t) {r : Bytes} (hr : isWord t = true → Stops r) :
    ∃ c cs, s ++ r = c :: cs ∧ c ≠ 0 ∧ lexOne c cs = .ok (some (some t, r)) := by
  cases h with
  | equals => exact ⟨61, r, rfl, by decide, rfl⟩
  | comma => exact ⟨44, r, rfl, by decide, rfl⟩
  | string s hs =>
    refine ⟨34, s ++ [34] ++ r, rfl, by decide, ?_⟩
    rw [List.append_assoc]
    have := strLoop_text (r := r) hs
    show Out.ok ((strLoop (s ++ 34 :: r)).map _) = _
    rw [this]; rfl
  | symbol c s hc hs =>
    have hr' := hr rfl
    have hsym : ∀ d ∈ c :: s, symChar d = true := by
      intro d hd
      rcases List.mem_cons.1 hd with rfl | hd
      · rcases hc with hc | rfl
        · exact (alpha_facts d hc).1
        · decide
      · exact hs d hd
    have hl : symLoop (c :: (s ++ r)) = .ok (c :: s, r) := symLoop_word hsym hr'
    refine ⟨c, s ++ r, rfl, ?_, ?_⟩
    · rcases hc with hc | rfl
      · exact (alpha_facts c hc).2.2.2.2.2.2
      · decide
    · rcases hc with hc | rfl
      · obtain ⟨_, h1, h2, h3, h4, h5, _⟩ := alpha_facts c hc
        rw [lexOne, if_neg h1, if_neg h2, if_neg h3, if_neg h4, if_neg h5, if_pos hc, ite_self, hl]
        rfl
      · rw [lexOne, if_neg (by decide), if_neg (by decide), if_neg (by decide), if_neg (by decide), if_pos rfl, hl]
        rfl
  | int c s hc hs =>
    refine ⟨c, s ++ r, rfl, (digit_facts c hc).2.2.2.2.2.2.1, lexOne_num hc ?_⟩
    refine numLoop_digits (s := c :: s) (fun d hd => ?_) (hr rfl)
    rcases List.mem_cons.1 hd with rfl | hd
    · exact (digit_facts d hc).1
    · exact (digit_facts d (hs d hd)).1
  | hex m t hm ht =>
    refine ⟨48, m :: t ++ r, rfl, by decide, lexOne_num rfl ?_⟩
    have := numLoop_mark (m := m) (.inr hm) (s := [48]) (t := t) (r := r) (by decide) ht (hr rfl)
    rw [if_neg (by rcases hm with rfl | rfl <;> decide)] at this
    exact this
  | float c s t hc hs ht =>
    refine ⟨c, s ++ 46 :: t ++ r, rfl, (digit_facts c hc).2.2.2.2.2.2.1, lexOne_num hc ?_⟩
    exact numLoop_mark (m := 46) (.inl rfl) (s := c :: s) (t := t) (r := r) (fun d hd => by
      rcases List.mem_cons.1 hd with rfl | hd
      · exact (digit_facts d hc).1
      · exact (digit_facts d (hs d hd)).1) ht (hr rfl)

theorem lexLoop_blanks {b : Bytes} (hb : Blank b) (n : Nat) (r : Bytes) (acc : List Token) :
    lexLoop (b.length + n) (b ++ r) acc = lexLoop n r acc := by
  induction b with
  | nil => simp
  | cons c b ih =>
    have hc := hb c (by simp)
    have : (c :: b).length + n = (b.length + n) + 1 := by simp; omega
    rw [this, List.cons_append, lexLoop, if_neg (by rcases hc with rfl | rfl <;> decide)]
    have h1 : lexOne c (b ++ r) = .ok (some (none, b ++ r)) := by
      rcases hc with rfl | rfl <;> rfl
    rw [h1, ok_bind]
    simp only [Option.toList_none, List.append_nil]
    exact ih fun d hd => hb d (by simp [hd])

/-- More rounds than needed make no difference. -/
theorem lexLoop_fuel {n : Nat} {text : Bytes} {acc toks : List Token} (h : lexLoop n text acc = .ok toks) {m : Nat} (hm : n ≤ m) :
    lexLoop m text acc = .ok toks := by
  induction n generalizing text acc m with
  | zero => cases h
  | succ n ih =>
    obtain ⟨m, rfl⟩ : ∃ k, m = k + 1 := ⟨m - 1, by omega⟩
    cases text with
    | nil => exact h
    | cons c cs =>
      rw [lexLoop] at h ⊢
      split at h
      · next h0 => rw [if_pos h0]; exact h
      · next h0 =>
        rw [if_neg h0]
        cases hl : lexOne c cs with
        | stop k => rw [hl] at h; cases h
        | ok r =>
          rw [hl, ok_bind] at h
          rw [ok_bind]
          cases r with
          | none => exact h
          | some r => exact ih h (by omega)

/-- A word is followed by punctuation, or by nothing. -/
def Alternating : List Token → Prop
  | [] => True
  | [_] => True
  | t :: u :: r => (isWord t = true → u.type = .equals ∨ u.type = .comma) ∧ Alternating (u :: r)

theorem stops_blank {b r : Bytes} (hb : Blank b) (hr : Stops r) : Stops (b ++ r) := by
  cases b with
  | nil => exact hr
  | cons c b =>
    show stopChar c = true
    rcases hb c (by simp) with rfl | rfl <;> decide

theorem stops_spaced {ts : List Bytes} {toks : List Token} {r : Bytes} (h : Spaced ts r) (hs : SpelledAll ts toks)
    (hp : ∀ t, toks.head? = some t → t.type = .equals ∨ t.type = .comma) : Stops r := by
  cases h with
  | nil b hb => simpa using stops_blank (r := []) hb trivial
  | cons b t ts r hb h =>
    cases hs with
    | cons h1 h2 =>
      rw [List.append_assoc]
      refine stops_blank hb ?_
      have := hp _ rfl
      cases h1 <;> simp at this <;> rfl

/-- The lexer reads a text of spelled tokens. -/
theorem lexLoop_spaced {ts : List Bytes} {text : Bytes} (h : Spaced ts text) {toks : List Token} (hs : SpelledAll ts toks)
    (ha : Alternating toks) (acc : List Token) : ∃ n, n ≤ text.length + 1 ∧ lexLoop n text acc = .ok (acc ++ toks) := by
  induction h generalizing toks acc with
  | nil b hb =>
    cases hs
    refine ⟨b.length + 1, Nat.le_refl _, ?_⟩
    have := lexLoop_blanks hb 1 [] acc
    rw [List.append_nil] at this
    rw [this, List.append_nil]; rfl
  | cons b t ts r hb h ih =>
    cases hs with
    | @cons _ tok _ toks h1 h2 =>
      have hst : isWord tok = true → Stops r := by
        intro hw
        refine stops_spaced h h2 ?_
        intro u hu
        cases toks with
        | nil => cases hu
        | cons v toks => cases hu; exact ha.1 hw
      have ha' : Alternating toks := by
        cases toks with
        | nil => trivial
        | cons v toks => exact ha.2
      obtain ⟨c, cs, he, h0, hl⟩ := lexOne_spelled h1 hst
      obtain ⟨n, hn, hn'⟩ := ih h2 ha' (acc ++ [tok])
      refine ⟨b.length + (n + 1), ?_, ?_⟩
      · have : (t ++ r).length = cs.length + 1 := by rw [he]; rfl
        have ht : 1 ≤ t.length := by cases h1 <;> simp
        simp only [List.length_append] at this ⊢
        omega
      · rw [List.append_assoc, lexLoop_blanks hb, he, lexLoop, if_neg h0, hl, ok_bind]
        simp only [Option.toList_some]
        rw [hn', List.append_assoc]; rfl

theorem lexer_spaced {ts : List Bytes} {text : Bytes} (h : Spaced ts text) {toks : List Token} (hs : SpelledAll ts toks)
    (ha : Alternating toks) : lexer text = .ok toks := by
  obtain ⟨n, hn, h'⟩ := lexLoop_spaced h hs ha []
  rw [List.nil_append] at h'
  exact lexLoop_fuel h' hn

/-! ### What remains of the text -/

theorem symLoop_suffix {text : Bytes} {r : Bytes × Bytes} (h : symLoop text = .ok r) : text = r.1 ++ r.2 := by
  induction text generalizing r with
  | nil => cases h; rfl
  | cons c cs ih =>
    rw [symLoop] at h
    split at h
    · cases h; rfl
    · split at h
      · cases h
      · split at h
        · cases hs : symLoop cs with
          | stop k => rw [hs] at h; cases h
          | ok q => rw [hs, ok_bind] at h; cases h; rw [ih hs]; rfl
        · cases h; rfl

theorem numLoop_suffix {text : Bytes} {ty : TokenType} {r : TokenType × Bytes × Bytes} (h : numLoop ty text = .ok (some r)) :
    text = r.2.1 ++ r.2.2 ∧ (∀ q, ty = q → q ≠ .comma → r.1 ≠ .comma) := by
  induction text generalizing ty r with
  | nil => cases h; exact ⟨rfl, fun _ h1 h2 => h1 ▸ h2⟩
  | cons c cs ih =>
    rw [numLoop] at h
    split at h
    · cases h; exact ⟨rfl, fun _ h1 h2 => h1 ▸ h2⟩
    · split at h
      · cases h
      · split at h
        · cases hs : numLoop ty cs with
          | stop k => rw [hs] at h; cases h
          | ok q =>
            rw [hs, ok_bind] at h
            cases q with
            | none => cases h
            | some q => cases h; exact ⟨by rw [(ih hs).1]; rfl, (ih hs).2⟩
        · split at h
          · split at h
            · cases h
            · cases hs : numLoop (if c = 46 then .float else .hex) cs with
              | stop k => rw [hs] at h; cases h
              | ok q =>
                rw [hs, ok_bind] at h
                cases q with
                | none => cases h
                | some q =>
                  cases h
                  refine ⟨by rw [(ih hs).1]; rfl, fun _ _ _ => ?_⟩
                  refine (ih hs).2 _ rfl ?_
                  split <;> simp
          · cases h; exact ⟨rfl, fun _ h1 h2 => h1 ▸ h2⟩

theorem strLoop_suffix {text : Bytes} {r : Bytes × Bytes} (h : strLoop text = some r) : text = r.1 ++ 34 :: r.2 := by
  induction text generalizing r with
  | nil => cases h
  | cons c cs ih =>
    rw [strLoop] at h
    split at h
    · cases h
    · split at h
      · next h34 => cases h; rw [h34]; rfl
      · cases hs : strLoop cs with
        | none => rw [hs] at h; cases h
        | some q => rw [hs] at h; cases h; rw [ih hs]; rfl

/-- `symLoop` takes the first character it is called for. -/
theorem symLoop_first {c : UInt8} {cs : Bytes} (hc : symChar c = true) {r : Bytes × Bytes} (h : symLoop (c :: cs) = .ok r) :
    ∃ x, r.1 = c :: x := by
  obtain ⟨h0, h1⟩ := symChar_facts c hc
  rw [symLoop, if_neg h0, if_neg h1, if_pos hc] at h
  cases hs : symLoop cs with
  | stop k => rw [hs] at h; cases h
  | ok q => rw [hs, ok_bind] at h; cases h; exact ⟨q.1, rfl⟩

theorem numLoop_first {c : UInt8} {cs : Bytes} {ty : TokenType} (hc : isDigit c = true) {r : TokenType × Bytes × Bytes}
    (h : numLoop ty (c :: cs) = .ok (some r)) : ∃ x, r.2.1 = c :: x := by
  obtain ⟨hx, _, _, _, _, h5, h0, _⟩ := digit_facts c hc
  rw [numLoop, if_neg h0, if_neg h5, if_pos hx] at h
  cases hs : numLoop ty cs with
  | stop k => rw [hs] at h; cases h
  | ok q =>
    rw [hs, ok_bind] at h
    cases q with
    | none => cases h
    | some q => cases h; exact ⟨q.2.1, rfl⟩

/-- What `lexOne` leaves is a proper end of the text; and only a comma gives a comma. -/
theorem lexOne_suffix {c : UInt8} {cs r : Bytes} {t : Option Token} (h : lexOne c cs = .ok (some (t, r))) :
    (∃ x, cs = x ++ r) ∧ (∀ u, t = some u → u.type = .comma → c = 44 ∧ r = cs) ∧ (t = none → r = cs ∧ (c = 32 ∨ c = 9)) := by
  have sym : ∀ {q : Bytes × Bytes}, symChar c = true → symLoop (c :: cs) = .ok q → ∃ x, cs = x ++ q.2 := by
    intro q hc hq
    obtain ⟨x, hx⟩ := symLoop_first hc hq
    have := symLoop_suffix hq
    rw [hx] at this
    exact ⟨x, (List.cons.inj this).2⟩
  unfold lexOne at h
  split at h
  · cases h; exact ⟨⟨[], rfl⟩, (fun u hu hc => by cases hu; cases hc), (fun hn => by cases hn)⟩
  · split at h
    · next h44 => cases h; exact ⟨⟨[], rfl⟩, (fun u hu hc => ⟨h44, rfl⟩), (fun hn => by cases hn)⟩
    · split at h
      · cases hs : strLoop cs with
        | none => rw [hs] at h; cases h
        | some q =>
          rw [hs] at h; cases h
          refine ⟨⟨q.1 ++ [34], ?_⟩, (fun u hu hc => by cases hu; cases hc), (fun hn => by cases hn)⟩
          rw [strLoop_suffix hs]; simp
      · split at h
        · next hb => cases h; exact ⟨⟨[], rfl⟩, (fun u hu hc => by cases hu), (fun _ => ⟨rfl, hb⟩)⟩
        · split at h
          · next h95 =>
            cases hs : symLoop (c :: cs) with
            | stop k => rw [hs] at h; cases h
            | ok q =>
              rw [hs, ok_bind] at h; cases h
              exact ⟨sym (by rw [h95]; decide) hs, (fun u hu hc => by cases hu; cases hc), (fun hn => by cases hn)⟩
          · split at h
            · cases h
            · split at h
              · next ha =>
                cases hs : symLoop (c :: cs) with
                | stop k => rw [hs] at h; cases h
                | ok q =>
                  rw [hs, ok_bind] at h; cases h
                  exact ⟨sym (alpha_facts c ha).1 hs, (fun u hu hc => by cases hu; cases hc), (fun hn => by cases hn)⟩
              · split at h
                · next hd =>
                  cases hs : numLoop .int (c :: cs) with
                  | stop k => rw [hs] at h; cases h
                  | ok q =>
                    rw [hs, ok_bind] at h
                    cases q with
                    | none => cases h
                    | some q =>
                      cases h
                      obtain ⟨x, hx⟩ := numLoop_first hd hs
                      obtain ⟨h1, h2⟩ := numLoop_suffix hs
                      rw [hx] at h1
                      refine ⟨⟨x, (List.cons.inj h1).2⟩, (fun u hu hc => ?_), (fun hn => by cases hn)⟩
                      cases hu
                      exact absurd hc (h2 .int rfl (by simp))
                · cases h

/-- The lexer ends. -/
theorem lexLoop_ends {n : Nat} {text : Bytes} {acc : List Token} (hn : text.length < n) : lexLoop n text acc ≠ .stop .fuel := by
  have hk : ∀ {α : Type} {x : Out α} {f : α → Out (Option (Option Token × Bytes))}, x ≠ .stop .fuel → (∀ a, f a ≠ .stop .fuel) →
      (x >>= f) ≠ .stop .fuel := by
    intro α x f h1 h2
    cases x with
    | ok a => exact h2 a
    | stop k => exact fun h => h1 (by cases h; rfl)
  have hsym : ∀ t, symLoop t ≠ .stop .fuel := by
    intro t
    induction t with
    | nil => intro h; cases h
    | cons c cs ih =>
      rw [symLoop]
      split
      · simp
      · split
        · simp
        · split
          · cases hs : symLoop cs with
            | ok q => simp
            | stop k => rw [hs] at ih; intro h; cases h; exact ih rfl
          · simp
  have hnum : ∀ t ty, numLoop ty t ≠ .stop .fuel := by
    intro t
    induction t with
    | nil => intro ty h; cases h
    | cons c cs ih =>
      intro ty
      rw [numLoop]
      split
      · simp
      · split
        · simp
        · split
          · cases hs : numLoop ty cs with
            | ok q => simp
            | stop k => have := ih ty; rw [hs] at this; intro h; cases h; exact this rfl
          · split
            · split
              · simp
              · cases hs : numLoop (if c = 46 then .float else .hex) cs with
                | ok q => simp
                | stop k => have := ih (if c = 46 then .float else .hex); rw [hs] at this; intro h; cases h; exact this rfl
            · simp
  have hone : ∀ c cs, lexOne c cs ≠ .stop .fuel := by
    intro c cs
    unfold lexOne
    split
    · simp
    · split
      · simp
      · split
        · simp
        · split
          · simp
          · split
            · exact hk (hsym _) (by simp)
            · split
              · simp
              · split
                · exact hk (hsym _) (by simp)
                · split
                  · exact hk (hnum _ _) (by simp)
                  · simp
  induction n generalizing text acc with
  | zero => omega
  | succ n ih =>
    cases text with
    | nil => simp [lexLoop]
    | cons c cs =>
      rw [lexLoop]
      split
      · simp
      · cases hl : lexOne c cs with
        | stop k => have := hone c cs; rw [hl] at this; intro h; cases h; exact this rfl
        | ok r =>
          rw [ok_bind]
          cases r with
          | none => simp
          | some r =>
            obtain ⟨⟨x, hx⟩, _⟩ := lexOne_suffix (t := r.1) (r := r.2) hl
            refine ih ?_
            have := congrArg List.length hx
            simp at this hn
            omega

/-- Characters of ASCII are no trouble for the lexer. -/
theorem lexLoop_ascii {n : Nat} {text : Bytes} {acc : List Token} (ha : ∀ c ∈ text, ¬ 128 ≤ c) : lexLoop n text acc ≠ .stop .ctype := by
  have hsym : ∀ t : Bytes, (∀ c ∈ t, ¬ 128 ≤ c) → ∃ r, symLoop t = .ok r := by
    intro t
    induction t with
    | nil => exact fun _ => ⟨_, rfl⟩
    | cons c cs ih =>
      intro ht
      obtain ⟨r, hr⟩ := ih fun d hd => ht d (by simp [hd])
      rw [symLoop, if_neg (ht c (by simp)), hr]
      split
      · exact ⟨_, rfl⟩
      · split <;> exact ⟨_, rfl⟩
  have hnum : ∀ (t : Bytes) (ty : TokenType), (∀ c ∈ t, ¬ 128 ≤ c) → ∃ r, numLoop ty t = .ok r := by
    intro t
    induction t with
    | nil => exact fun _ _ => ⟨_, rfl⟩
    | cons c cs ih =>
      intro ty ht
      obtain ⟨r, hr⟩ := ih ty fun d hd => ht d (by simp [hd])
      obtain ⟨r', hr'⟩ := ih (if c = 46 then .float else .hex) fun d hd => ht d (by simp [hd])
      rw [numLoop, if_neg (ht c (by simp)), hr, hr']
      split
      · exact ⟨_, rfl⟩
      · split
        · exact ⟨_, rfl⟩
        · split
          · split <;> exact ⟨_, rfl⟩
          · exact ⟨_, rfl⟩
  have hone : ∀ (c : UInt8) (cs : Bytes), (∀ d ∈ c :: cs, ¬ 128 ≤ d) → ∃ r, lexOne c cs = .ok r := by
    intro c cs ht
    obtain ⟨r, hr⟩ := hsym (c :: cs) ht
    obtain ⟨r', hr'⟩ := hnum (c :: cs) .int ht
    rw [lexOne, hr, hr', if_neg (ht c (by simp))]
    repeat' split
    all_goals exact ⟨_, rfl⟩
  induction n generalizing text acc with
  | zero => simp [lexLoop]
  | succ n ih =>
    cases text with
    | nil => simp [lexLoop]
    | cons c cs =>
      rw [lexLoop]
      split
      · simp
      · obtain ⟨r, hr⟩ := hone c cs ha
        rw [hr, ok_bind]
        cases r with
        | none => simp
        | some r =>
          obtain ⟨⟨x, hx⟩, _⟩ := lexOne_suffix (t := r.1) (r := r.2) hr
          refine ih fun d hd => ha d ?_
          rw [hx]; simp [hd]

/-- The lexer stops for no other reason than these. -/
theorem lexLoop_stop {n : Nat} {text : Bytes} {acc : List Token} {k : Stop} (h : lexLoop n text acc = .stop k) : k = .fuel ∨ k = .ctype := by
  have hsym : ∀ (t : Bytes) (k : Stop), symLoop t = .stop k → k = .ctype := by
    intro t
    induction t with
    | nil => intro k h; cases h
    | cons c cs ih =>
      intro k h
      rw [symLoop] at h
      split at h
      · cases h
      · split at h
        · cases h; rfl
        · split at h
          · cases hs : symLoop cs with
            | ok q => rw [hs] at h; cases h
            | stop k' => rw [hs] at h; cases h; exact ih _ hs
          · cases h
  have hnum : ∀ (t : Bytes) (ty : TokenType) (k : Stop), numLoop ty t = .stop k → k = .ctype := by
    intro t
    induction t with
    | nil => intro ty k h; cases h
    | cons c cs ih =>
      intro ty k h
      rw [numLoop] at h
      split at h
      · cases h
      · split at h
        · cases h; rfl
        · split at h
          · cases hs : numLoop ty cs with
            | ok q => rw [hs] at h; cases h
            | stop k' => rw [hs] at h; cases h; exact ih _ _ hs
          · split at h
            · split at h
              · cases h
              · cases hs : numLoop (if c = 46 then .float else .hex) cs with
                | ok q => rw [hs] at h; cases h
                | stop k' => rw [hs] at h; cases h; exact ih _ _ hs
            · cases h
  have hone : ∀ (c : UInt8) (cs : Bytes) (k : Stop), lexOne c cs = .stop k → k = .ctype := by
    intro c cs k h
    unfold lexOne at h
    split at h
    · cases h
    · split at h
      · cases h
      · split at h
        · cases h
        · split at h
          · cases h
          · split at h
            · cases hs : symLoop (c :: cs) with
              | ok q => rw [hs] at h; cases h
              | stop k' => rw [hs] at h; cases h; exact hsym _ _ hs
            · split at h
              · cases h; rfl
              · split at h
                · cases hs : symLoop (c :: cs) with
                  | ok q => rw [hs] at h; cases h
                  | stop k' => rw [hs] at h; cases h; exact hsym _ _ hs
                · split at h
                  · cases hs : numLoop .int (c :: cs) with
                    | ok q => rw [hs] at h; cases h
                    | stop k' => rw [hs] at h; cases h; exact hnum _ _ _ hs
                  · cases h
  induction n generalizing text acc with
  | zero => cases h; exact .inl rfl
  | succ n ih =>
    cases text with
    | nil => cases h
    | cons c cs =>
      rw [lexLoop] at h
      split at h
      · cases h
      · cases hl : lexOne c cs with
        | stop k' => rw [hl] at h; cases h; exact .inr (hone _ _ _ hl)
        | ok r =>
          rw [hl, ok_bind] at h
          cases r with
          | none => cases h
          | some r => exact ih h

/-! ### Commas at the end -/

/-- The characters that are not blanks. -/
def visible (text : Bytes) : Bytes := text.filter fun c => !(c == 32 || c == 9)

/-- The last token of a text whose last visible character is no comma, is no comma. -/
theorem lexLoop_last {n : Nat} {text : Bytes} {acc toks : List Token} (h : lexLoop n text acc = .ok toks) (h0 : (0 : UInt8) ∉ text)
    (hv : (visible text).getLast? ≠ some 44) (hacc : visible text = [] → ∀ t, acc.getLast? = some t → t.type ≠ .comma) :
    ∀ t, toks.getLast? = some t → t.type ≠ .comma := by
  induction n generalizing text acc with
  | zero => cases h
  | succ n ih =>
    cases text with
    | nil => cases h; exact hacc rfl
    | cons c cs =>
      rw [lexLoop] at h
      split at h
      · next h00 => exact absurd (by simp [h00]) h0
      · cases hl : lexOne c cs with
        | stop k => rw [hl] at h; cases h
        | ok r =>
          rw [hl, ok_bind] at h
          cases r with
          | none => cases h; simp
          | some r =>
            obtain ⟨⟨x, hx⟩, hc, hn⟩ := lexOne_suffix (t := r.1) (r := r.2) hl
            have hvis : visible (c :: cs) = visible (c :: x) ++ visible r.2 := by
              rw [hx]; simp [visible, ← List.filter_append]
            refine ih h (fun hm => h0 (by rw [hx]; simp [hm])) ?_ ?_
            · intro hl
              apply hv
              rw [hvis, List.getLast?_append, hl]; rfl
            · intro hr t ht
              rw [hr, List.append_nil] at hvis
              cases hr1 : r.1 with
              | none =>
                obtain ⟨he, hb⟩ := hn hr1
                rw [hr1] at ht
                refine hacc ?_ t (by simpa using ht)
                rw [← he] at hx ⊢
                have : visible (c :: r.2) = visible r.2 := by
                  simp only [visible, List.filter_cons]
                  rw [if_neg (by rcases hb with rfl | rfl <;> decide)]
                rw [this, hr]
              | some u =>
                rw [hr1] at ht
                simp at ht
                subst ht
                intro hcomma
                obtain ⟨h44, hre⟩ := hc u hr1 hcomma
                apply hv
                rw [← hre, h44]
                have : visible (44 :: r.2) = 44 :: visible r.2 := by simp [visible]
                rw [this, hr]; rfl

theorem ofRes_stop {α : Type} {x : Res α} {k : Stop} (h : ofRes x = .stop k) : k = .assert := by
  cases x with
  | ok r => cases h
  | trap => cases h; rfl
  | ub => cases h; rfl

theorem intern_stop {names : List Name} {text : Bytes} {k : Stop} (h : intern names text = .stop k) : k = .assert := ofRes_stop h

theorem atoi_stop {t : Bytes} {k : Stop} (h : atoi t = .stop k) : k = .overflow := by
  unfold atoi at h
  split at h
  · cases h
  · cases h; rfl

theorem bind_stop {α β : Type} {x : Out α} {f : α → Out β} {k : Stop} (h : (x >>= f) = .stop k) :
    x = .stop k ∨ ∃ a, x = .ok a ∧ f a = .stop k := by
  cases x with
  | ok a => exact .inr ⟨a, rfl, h⟩
  | stop k' => cases h; exact .inl rfl

theorem assign_stop {scan : Bytes → UInt32} {names : List Name} {a b : Token} {k : Stop} (h : assign scan names a b = .stop k) :
    k = .assert ∨ k = .overflow := by
  unfold assign at h
  split at h
  · rcases bind_stop h with h | ⟨_, _, h⟩
    · exact .inr (atoi_stop h)
    · rcases bind_stop h with h | ⟨_, _, h⟩
      · exact .inl (intern_stop h)
      · cases h
  · rcases bind_stop h with h | ⟨_, _, h⟩
    · exact .inl (intern_stop h)
    · cases h
  · rcases bind_stop h with h | ⟨_, _, h⟩
    · exact .inl (intern_stop h)
    · cases h
  · rcases bind_stop h with h | ⟨_, _, h⟩
    · exact .inl (intern_stop h)
    · rcases bind_stop h with h | ⟨_, _, h⟩
      · exact .inl (intern_stop h)
      · cases h
  · rcases bind_stop h with h | ⟨_, _, h⟩
    · exact .inl (intern_stop h)
    · cases h
  · cases h
  · cases h

theorem attributeRest_stop {scan : Bytes → UInt32} {names : List Name} {tokens : List Token} {a : Token} {p : Nat} {k : Stop}
    (h : attributeRest scan names tokens a p = .stop k) : k = .assert ∨ k = .overflow := by
  unfold attributeRest at h
  split at h
  · split at h
    · cases h
    · rcases bind_stop h with h | ⟨_, _, h⟩
      · exact assign_stop h
      · cases h
  · rcases bind_stop h with h | ⟨_, _, h⟩
    · exact .inl (intern_stop h)
    · cases h

theorem attributeDef_stop {scan : Bytes → UInt32} {names : List Name} {tokens : List Token} {p : Nat} {k : Stop}
    (h : attributeDef scan names tokens p = .stop k) : k = .assert ∨ k = .overflow ∨ (k = .index ∧ tokens.length ≤ p) := by
  unfold attributeDef at h
  rcases bind_stop h with h | ⟨a, _, h⟩
  · unfold expectNext at h
    split at h
    · next hn => cases h; exact .inr (.inr ⟨rfl, by simpa using hn⟩)
    · split at h <;> cases h
  · cases a with
    | none => cases h
    | some a => rcases attributeRest_stop h with h | h <;> simp [h]

theorem attributeDef_pos {scan : Bytes → UInt32} {names nm : List Name} {tokens : List Token} {p q : Nat} {a : Attribute}
    (h : attributeDef scan names tokens p = .ok (some a, nm, q)) : p < q := by
  have hb : ∀ {α β : Type} {x : Out α} {f : α → Out β} {b : β}, (x >>= f) = .ok b → ∃ a, x = .ok a ∧ f a = .ok b := by
    intro α β x f b h
    cases x with
    | ok a => exact ⟨a, rfl, h⟩
    | stop k => cases h
  unfold attributeDef at h
  obtain ⟨x, _, h⟩ := hb h
  cases x with
  | none => cases h
  | some x =>
    simp only [attributeRest] at h
    split at h
    · split at h
      · cases h
      · obtain ⟨w, _, h⟩ := hb h
        injection h with h
        have := congrArg (fun z => z.2.2) h
        simp only [] at this
        omega
    · obtain ⟨w, _, h⟩ := hb h
      injection h with h
      have := congrArg (fun z => z.2.2) h
      simp only [] at this
      omega

/-- Why the parser stops: without a comma at the end, no token is read past the end. -/
theorem parseLoop_stop {scan : Bytes → UInt32} {tokens : List Token} {n : Nat} {names : List Name} {attrs : List Attribute} {pos : Nat}
    (hp : pos < tokens.length) (hn : tokens.length < pos + n) {k : Stop} (h : parseLoop scan tokens n names attrs pos = .stop k) :
    k = .assert ∨ k = .overflow ∨ (k = .index ∧ ∃ t, tokens.getLast? = some t ∧ t.type = .comma) := by
  induction n generalizing names attrs pos with
  | zero => omega
  | succ n ih =>
    rw [parseLoop] at h
    rcases bind_stop h with h | ⟨⟨a, nm, p⟩, hd, h⟩
    · rcases attributeDef_stop h with h | h | h
      · exact .inl h
      · exact .inr (.inl h)
      · omega
    · cases a with
      | none => cases h
      | some a =>
        replace h : (if checkNext tokens p .comma then parseLoop scan tokens n nm (attrs ++ [a]) (p + 1) else .ok (attrs ++ [a], nm)) = .stop k := h
        have hpq := attributeDef_pos hd
        split at h
        · next hc =>
          unfold checkNext at hc
          cases ht : tokens[p]? with
          | none => rw [ht] at hc; cases hc
          | some t =>
            rw [ht] at hc
            have hlt := (List.getElem?_eq_some_iff.1 ht).1
            rcases Nat.lt_or_ge (p + 1) tokens.length with hl | hl
            · exact ih hl (by omega) h
            · have hlast : tokens.getLast? = some t := by
                rw [List.getLast?_eq_getElem?]
                have : tokens.length - 1 = p := by omega
                rw [this, ht]
              cases n with
              | zero => omega
              | succ n =>
                rw [parseLoop] at h
                rcases bind_stop h with h | ⟨⟨a', nm', p'⟩, hd', h⟩
                · rcases attributeDef_stop h with h | h | h
                  · exact .inl h
                  · exact .inr (.inl h)
                  · exact .inr (.inr ⟨h.1, t, hlast, by simpa using hc⟩)
                · exfalso
                  unfold attributeDef expectNext at hd'
                  rw [List.getElem?_eq_none (by omega)] at hd'
                  cases hd'
        · cases h

end Clr.Attr
