import Verif.Proofs.JSONError
import Verif.Props.JSONInside
/-
C96: an error of a JSON text says where it is.
-/
namespace Clr.JSON
set_option maxRecDepth 100000

/-- **C96**: whatever the text and the type, when an error is reported its position is in the text, or at its end, and what the error's code says is
wrong there. -/
theorem C96_position (e : Env) (text : Bytes) (m m' : Mem) (t : Ty) (a : Nat) (err : Err) (h : loadJSON e text m t a = .ok (err, m'))
    (he : err.code ≠ .none) : Located text err := by
  obtain ⟨p, q, h1, h2, h3, -⟩ := load_done (b := false) h (fun hb => by cases hb) he
  exact ⟨p, q, h1, h2, h3⟩

/-- **C96** (partial): for types without containers other than dictionaries and arrays, the error's line is one more than the newlines before its position
that are not in strings, and its column is counted from the beginning of that line.

Missing from the full property: containers, of which it is false. -/
theorem C96_line_partial (e : Env) (text : Bytes) (m m' : Mem) (t : Ty) (ht : NoLists t) (a : Nat) (err : Err) (h : loadJSON e text m t a = .ok (err, m'))
    (he : err.code ≠ .none) : Reported text err := by
  obtain ⟨p, q, h1, h2, h3, h4⟩ := load_done (b := true) h (fun _ => ht) he
  exact ⟨p, q, h1, h2, h3, h4 rfl⟩

/-! ### It is not empty -/

/-- The error of an outcome. -/
def errorOf (r : Out (Err × Mem)) : Option Err :=
  match r with
  | .ok (err, _) => some err
  | _ => none

/-- A class with a number, an array and a dictionary. -/
def tPlain : Ty := .cls 7 32 0 (.cons ⟨b!"a", 0, 0, false, none⟩ tInt (.cons ⟨b!"b", 4, 0, false, some 3⟩ tInt
  (.cons ⟨b!"d", 16, 0, false, none⟩ (.dict 10 16 tInt (.cls 11 4 0 .nil .nil) false) .nil))) .nil

theorem plain_noLists : NoLists tPlain := by
  refine .cls _ _ _ _ _ fun x hx => ?_
  simp only [Ty.allFields, Flds.list, Tys.allFields, List.append_nil, List.mem_cons, List.not_mem_nil, or_false] at hx
  rcases hx with rfl | rfl | rfl
  · exact .prim _ _
  · exact .prim _ _
  · exact .dict _ _ _ _ _ (.prim _ _) (.cls _ _ _ _ _ fun x hx => by cases hx)

example : errorOf (loadJSON demoEnv b!"{\"b\":[\n1],\n \"x\" ?" (memOf []) tPlain 100) = some ⟨.unexpectedCharacter, 16, 3, 6⟩ := by decide +kernel

example : errorOf (loadJSON demoEnv b!"{\"a\":-x" (memOf []) tPlain 100) = some ⟨.expectingDigit, 6, 1, 6⟩ := by decide +kernel

example : errorOf (loadJSON demoEnv b!"{\"a\"\n:\ntruf" (memOf []) tPlain 100) = some ⟨.invalidKeyword, 10, 3, 4⟩ := by decide +kernel

/-! ### What it is false of -/

/-- **C96** is false of the code for containers: their text is read twice, and the lines in it are counted twice. -/
theorem C96_container_negation : ∃ err m', loadJSON demoEnv b!"{\"c\":[1\n],?" (memOf []) tRoomy 100 = .ok (err, m') ∧
    newlines b!"{\"c\":[1\n],?" = 1 ∧ err.code = .unexpectedCharacter ∧ err.line = 3 := by
  have h : (errorOf (loadJSON demoEnv b!"{\"c\":[1\n],?" (memOf []) tRoomy 100)).map (fun e => (e.code, e.line)) = some (.unexpectedCharacter, 3) := by
    decide +kernel
  revert h
  generalize loadJSON demoEnv _ _ _ _ = r
  intro h
  cases r with
  | ok r =>
    have := Prod.mk.inj (Option.some.inj h)
    exact ⟨r.1, r.2, rfl, rfl, this.1, this.2⟩
  | _ => cases h

end Clr.JSON
