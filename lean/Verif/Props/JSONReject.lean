import Verif.Proofs.JSONParse
import Verif.Props.JSON

/-!
C33: what `LoadJSON` accepts.  The grammar is in Model/JSONGrammar.lean; it is that of JSON with the serialiser's
hexadecimal numbers, leading zeros, `1.`, and any byte but `"` and `\` in strings.
-/
namespace Clr.JSON

theorem comma_not_num : ¬JNum b!"," := by
  intro h
  generalize hs : b!"," = s at h
  cases h with
  | int h => subst hs; exact absurd (h.2 44 (by simp)) (by decide)
  | neg h => cases hs
  | dec h hf =>
    obtain ⟨c, ds, hd⟩ := List.exists_cons_of_ne_nil h.1
    subst hd
    simp at hs
    obtain ⟨rfl, -⟩ := hs
    exact absurd (h.2 44 (by simp)) (by decide)
  | negDec h => cases hs
  | hex h => cases hs

/-- A token of the language: a bracket, comma or colon, a string, a number, or `true`, `false`, `null`. -/
def JToken (s : Bytes) : Prop :=
  s ∈ [b!"{", b!"}", b!"[", b!"]", b!",", b!":", b!"true", b!"false", b!"null"] ∨ JNum s ∨ ∃ k, JStr k ∧ s = 34 :: (k ++ [34])

/-- What loading an object may accept: an opening brace, then either the closing brace, or members after which comes the
end of the text or a token other than a comma.  That token should be the closing brace; then this is JSON followed by
anything. -/
inductive Accepted : Bytes → Prop
  | empty {w x q : Bytes} (hw : Ws w) (hx : Ws x) : Accepted (w ++ 123 :: (x ++ 125 :: q))
  | cut {w ms : Bytes} (hw : Ws w) (hm : JMembers ms) : Accepted (w ++ 123 :: ms)
  | members {w ms t q : Bytes} (hw : Ws w) (hm : JMembers ms) (ht : JToken t) (hc : t ≠ b!",") (hd : NoSplit ms t) :
      Accepted (w ++ 123 :: (ms ++ (t ++ q)))

/-- **C33** (partial): whatever the text and the object, if loading ends without reporting an error then the text is
as it should be up to the token after the last member: from the opening brace on, names, colons, values and commas are all
there and every value is complete, well-bracketed JSON.  So loading reports an error for every text that goes wrong
anywhere before the top-level object's closing brace: a value that is cut short, brackets that do not match, a missing
colon, a comma with nothing after it, a malformed string or number.

Missing from the full property: the top-level closing brace itself and what comes after it are not looked at
(`C33_unclosed_negation`, `C33_mismatched_negation`), and the types must be without dictionaries, for which separators are
not checked (`C33_dictionary_negation`). -/
theorem C33_accepted_is_json_partial {e : Env} {text : Bytes} {m : Mem} {ty : Ty} {a : Nat} (hty : NoDict ty)
    (hc : ty.isContainer = false) {err : Err} {m' : Mem} (h : loadJSON e text m ty a = .ok (err, m')) (he : err.code = .none) :
    Accepted text := by
  unfold loadJSON at h
  obtain ⟨s, h1, h⟩ := Out.bind_eq_ok.1 h
  obtain ⟨s', h2, h⟩ := Out.bind_eq_ok.1 h
  cases h
  have e1 := ((parse_prog e _).2 _ _ _ h2).2 he
  obtain ⟨w, t1, h3, h4, h5⟩ := nextTok_view h1 e1
  obtain ⟨b, t2, h6, h7, lex, h8, h9, h10, h11⟩ := (parse_sound e _).2 s (some (ty, a)) _ _ hty h2 he h5
  dsimp only at h3
  subst h6 h3 h8
  rcases h7 with ⟨h7, h7'⟩ | ⟨h7, h12, h13⟩
  · rcases h7' with h | ⟨-, ty', a', h, h'⟩
    · unfold Lexeme at h9
      rw [h] at h9
      subst h9
      exact .empty h4 h7
    · cases h
      rw [hc] at h'
      cases h'
  · by_cases hv : s'.t.isValid = true
    · have hl : JToken lex ∧ lex ≠ b!"," ∧ lex ≠ [] := by
        revert h9 h12 hv
        unfold Lexeme Tok.isValid
        cases s'.t.type <;> intro h9 h12 hv <;> simp at hv h12 h9
        case string =>
          obtain ⟨h9, rfl⟩ := h9
          exact ⟨.inr (.inr ⟨_, h9, rfl⟩), by simp, by simp⟩
        case integer => exact ⟨.inr (.inl h9), by rintro rfl; exact absurd h9 comma_not_num, jval_ne_nil (.num h9)⟩
        case decimal => exact ⟨.inr (.inl h9), by rintro rfl; exact absurd h9 comma_not_num, jval_ne_nil (.num h9)⟩
        all_goals (subst h9; exact ⟨.inl (by simp), by simp, by simp⟩)
      refine .members h4 h7 hl.1 hl.2.1 ?_
      intro x y hx hy
      refine h13 x y hx ?_
      obtain ⟨z, zs, rfl⟩ := List.exists_cons_of_ne_nil hl.2.2
      simpa using hy
    · have hv : s'.t.isValid = false := by simpa using hv
      rw [h11 hv]
      have : lex = [] := by
        unfold Lexeme at h9
        have ht : s'.t.type = .none := by simpa [Tok.isValid] using hv
        rw [ht] at h9
        exact h9
      subst this
      simpa using Accepted.cut h4 h7

/-- **C33** (partial), the same read the other way round: a text of another shape is never accepted. -/
theorem C33_rejects_partial {e : Env} {text : Bytes} {m : Mem} {ty : Ty} {a : Nat} (hty : NoDict ty) (hc : ty.isContainer = false)
    {err : Err} {m' : Mem} (hbad : ¬Accepted text) (h : loadJSON e text m ty a = .ok (err, m')) : err.code ≠ .none :=
  fun he => hbad (C33_accepted_is_json_partial hty hc h he)

/-- **C33**: loading ends on every text, for every type and memory: the number of steps the model allows itself is never
exhausted. -/
theorem C33_terminates (e : Env) (text : Bytes) (m : Mem) (ty : Ty) (a : Nat) : loadJSON e text m ty a ≠ .fuel :=
  loadJSON_not_fuel e text m ty a

/-- A class with an `int` called `a`. -/
def tOne : Ty := .cls 7 4 0 (.cons ⟨b!"a", 0, 0, false, none⟩ tInt .nil) .nil

/-- The hypotheses are met: a text that is accepted, … -/
example : outcome (loadJSON demoEnv b!"{\"a\":5, \"b\":[{\"c\":[]}, 1.5 ]}" (memOf []) tOne 0) 0 4 = some (.none, [5, 0, 0, 0]) := by
  decide +kernel

example : NoDict tOne := by simp [tOne, tInt, NoDict, NoDictFlds, NoDictTys]

/-- … and texts that are not: cut short, brackets that do not match, no colon, no value, nothing after a comma.  (The one
without a comma between its members is: after the first member the rest is not looked at.) -/
example : (∀ t ∈ [b!"{\"a\":[5", b!"{\"a\":[5}", b!"{\"a\":{]}", b!"{\"a\":5 \"b\":6}", b!"{\"a\" 5}", b!"{\"a\":}", b!"{\"a\":5,", b!"[]", b!""],
    (outcome (loadJSON demoEnv t (memOf []) tOne 0) 0 4).map (·.1 == .none) = some (t == b!"{\"a\":5 \"b\":6}")) := by
  decide +kernel

/-- A text of another shape: after the opening brace comes neither a name nor the closing brace. -/
theorem not_accepted_of_first {b : UInt8} {s : Bytes} (hb : b ≠ 34) (hb' : b ≠ 125) (hw : spaceByte b = false) :
    ¬Accepted (123 :: b :: s) := by
  have ms : ∀ {ms r : Bytes}, JMembers ms → ms ++ r = b :: s → False := by
    intro ms r h h1
    cases h with
    | one hw' =>
      rename_i w' k x' y v z hk hx hy hv hz
      cases w' with
      | nil => simp at h1; exact hb h1.1.symm
      | cons y w' =>
        simp at h1
        have := hw' y (by simp)
        rw [h1.1, hw] at this
        cases this
    | more hw' =>
      rename_i w' k x' y v z r hk hx hy hv hz hr
      cases w' with
      | nil => simp at h1; exact hb h1.1.symm
      | cons y w' =>
        simp at h1
        have := hw' y (by simp)
        rw [h1.1, hw] at this
        cases this
  have sp : ∀ {w r : Bytes}, Ws w → w ++ 123 :: r = 123 :: b :: s → r = b :: s := by
    intro w r h h1
    cases w with
    | nil => simpa using h1
    | cons y w =>
      simp at h1
      have := h y (by simp)
      rw [h1.1] at this
      exact absurd this (by decide)
  intro h
  generalize ht : 123 :: b :: s = t at h
  cases h with
  | empty h hx =>
    rename_i w x q
    have := sp h ht.symm
    cases x with
    | nil => simp at this; exact hb' this.1.symm
    | cons y x =>
      simp at this
      have h2 := hx y (by simp)
      rw [this.1, hw] at h2
      cases h2
  | cut h hm => exact ms (r := []) hm (by simpa using sp h ht.symm)
  | members h hm => exact ms hm (sp h ht.symm)

/-- The hypotheses of `C33_rejects_partial` are met. -/
example : (∃ err m', loadJSON demoEnv b!"{5:6}" (memOf []) tOne 0 = .ok (err, m')) ∧ ¬Accepted b!"{5:6}" ∧ NoDict tOne ∧ tOne.isContainer = false := by
  refine ⟨?_, not_accepted_of_first (by decide) (by decide) (by decide), by simp [tOne, tInt, NoDict, NoDictFlds, NoDictTys], rfl⟩
  have : (match loadJSON demoEnv b!"{5:6}" (memOf []) tOne 0 with | .ok _ => true | _ => false) = true := by decide +kernel
  revert this
  generalize loadJSON demoEnv b!"{5:6}" (memOf []) tOne 0 = r
  cases r with
  | ok r => intro _; exact ⟨_, _, rfl⟩
  | _ => simp

/-- **C33** is false of the code: an object that is not closed is accepted, with nothing to say so. -/
theorem C33_unclosed_negation :
    outcome (loadJSON demoEnv b!"{\"a\":5 " (memOf []) tOne 0) 0 4 = some (.none, [5, 0, 0, 0]) := by decide +kernel

/-- **C33** is false of the code: so is one closed by the wrong bracket, and anything after it. -/
theorem C33_mismatched_negation :
    outcome (loadJSON demoEnv b!"{\"a\":5] } [ \xFF" (memOf []) tOne 0) 0 4 = some (.none, [5, 0, 0, 0]) := by decide +kernel

/-- **C33** is false of the code: what the members of a dictionary are separated by does not matter. -/
theorem C33_dictionary_negation :
    outcome (loadJSON demoEnv b!"{\"d\":{1:{} 2:{},}}" (memOf [])
      (.cls 7 8 0 (.cons ⟨b!"d", 0, 0, false, none⟩ (.dict 8 8 tInt tOne false) .nil) .nil) 0) 0 4 = some (.none, [0, 0, 0, 0]) := by
  decide +kernel

end Clr.JSON
