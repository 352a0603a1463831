import Verif.Proofs.JSONLexer

/-!
C27 The JSON lexer is memory safe and always terminates.

`nextToken strtod c` is `LexerNextToken`: `c.rest` are the bytes of the buffer not yet consumed and
`c.pos` is how many were.  Its result is `.ok (token, context)`; `.ub` would be a read outside the
buffer and `.trap` a failed assertion.  That it is a total Lean function is the termination of one call.
-/
namespace Clr.JSON

/-- C27 (partial: the buffer must not end in the letter `e` or `E`, see the negation below).  Whatever the
bytes, getting a token reads nothing outside the buffer and fails no assertion.  It moves forward inside
the buffer; a token consumes at least one byte; no token means the end of the buffer or an error; an error
recorded earlier is kept as it was, and a new one is positioned in the text consumed by this call. -/
theorem C27_next_token_partial (strtod : Bytes → UInt64) (c : Ctx)
    (hend : c.rest.getLast? ≠ some 'e'.toUInt8 ∧ c.rest.getLast? ≠ some 'E'.toUInt8) :
    ∃ t c', nextToken strtod c = .ok (t, c') ∧
      (∃ n ≤ c.rest.length, c'.rest = c.rest.drop n ∧ c'.pos = c.pos + n ∧ (t.isValid → 1 ≤ n)) ∧
      (t.isValid = false → c'.rest = [] ∨ c'.err.code ≠ .none) ∧
      (c.err.code ≠ .none → c'.err = c.err) ∧
      (c.err.code = .none → c'.err.code ≠ .none → c.pos ≤ c'.err.position ∧ c'.err.position ≤ c'.pos) := by
  obtain ⟨⟨t, c'⟩, hq, hf, h1, h2⟩ := nextToken_spec strtod c (by
    rintro (h | h)
    · exact hend.1 h
    · exact hend.2 h)
  refine ⟨t, c', hq, ?_, h1, hf.sticky, hf.fresh⟩
  obtain ⟨n, hn, hr, hp⟩ := hf.consumed
  refine ⟨n, hn, hr, hp, fun hv => ?_⟩
  have := h2 hv
  simp only at this hr
  rw [hr] at this
  simp at this
  omega

/-- A JSON text: it ends with a brace. -/
example : (b!"{ \"a\" : 1.5e3, \"b\": [true, \"\\u00Ae\", null] }").getLast? ≠ some 'e'.toUInt8 ∧
    (b!"{ \"a\" : 1.5e3, \"b\": [true, \"\\u00Ae\", null] }").getLast? ≠ some 'E'.toUInt8 := by decide

/-- Successive calls of the lexer, all of which gave a token. -/
inductive Tokens (strtod : Bytes → UInt64) : Ctx → List Tok → Ctx → Prop
  | nil (c : Ctx) : Tokens strtod c [] c
  | cons {c c' c'' : Ctx} {t : Tok} {ts : List Tok} :
      nextToken strtod c = .ok (t, c') → t.isValid = true → Tokens strtod c' ts c'' →
      Tokens strtod c (t :: ts) c''

/-- C27 (partial: as above): a buffer has at most as many tokens as bytes, so a loop that asks for tokens
until there is none ends. -/
theorem C27_stream_ends_partial (strtod : Bytes → UInt64) (c c' : Ctx) (ts : List Tok)
    (hend : c.rest.getLast? ≠ some 'e'.toUInt8 ∧ c.rest.getLast? ≠ some 'E'.toUInt8)
    (h : Tokens strtod c ts c') : ts.length + c'.rest.length ≤ c.rest.length := by
  have he : ¬ EndsInE c.rest := by
    rintro (h | h)
    · exact hend.1 h
    · exact hend.2 h
  clear hend
  induction h with
  | nil c => simp
  | cons hq hv _ ih =>
    rename_i c c1 c2 t ts _
    obtain ⟨r, hr, hf, -, h2⟩ := nextToken_spec strtod c he
    rw [hq] at hr
    have := Res.ok.inj hr; subst this
    have h2 := h2 hv
    have ih := ih (hf.endsInE he)
    simp only [List.length_cons] at h2 ⊢
    omega

example : ∃ c', Tokens (fun _ => 0) { rest := b!"{ \"a\":-1}" }
    [{ type := .lbrace }, { type := .string, text := b!"a" }, { type := .colon },
     { type := .integer, bits := 0 - 1 }, { type := .rbrace }] c' := by
  refine ⟨{ rest := [], pos := 9 }, ?_⟩
  refine .cons (c' := { rest := b!" \"a\":-1}", pos := 1 }) (by decide +kernel) (by decide) ?_
  refine .cons (c' := { rest := b!":-1}", pos := 5 }) (by decide +kernel) (by decide) ?_
  refine .cons (c' := { rest := b!"-1}", pos := 6 }) (by decide +kernel) (by decide) ?_
  refine .cons (c' := { rest := b!"}", pos := 8 }) (by decide +kernel) (by decide) ?_
  refine .cons (c' := { rest := [], pos := 9 }) (by decide +kernel) (by decide) (.nil _)

/-- C27 is false in general: when the buffer ends right after the exponent letter of a decimal, the lexer
reads the byte after the buffer. -/
theorem C27_unfinished_exponent_negation (strtod : Bytes → UInt64) :
    nextToken strtod { rest := b!"1.5e" } = .ub ∧ nextToken strtod { rest := b!"[ 0.E" } ≠ .ub ∧
    ∀ c, nextToken strtod { rest := b!"[ 0.E" } = .ok ({ type := .lbracket }, c) →
      nextToken strtod c = .ub := by
  have h1 : nextToken strtod { rest := b!"[ 0.E" } =
      .ok ({ type := .lbracket }, { rest := b!" 0.E", pos := 1 }) := by with_unfolding_all rfl
  refine ⟨by with_unfolding_all rfl, by rw [h1]; simp, ?_⟩
  intro c h
  rw [h1] at h
  have := (Prod.mk.inj (Res.ok.inj h)).2
  subst this
  with_unfolding_all rfl

end Clr.JSON
