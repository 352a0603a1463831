import Verif.Proofs.JSONSaveHooksRound
import Verif.Props.JSONHooks
/-
C102: functions of classes in saving JSON.
-/
namespace Clr.JSON

section
attribute [local irreducible] Hash.hashText

/-- **C102**: without functions for saving in the classes of an object, what `SaveJSON` writes is what it writes when there is no such thing,
and it changes no memory. -/
theorem C102_no_functions (e : Env) (o : Opts) (S : SaveHooks) (m : Mem) (t : Ty) (hn : NoSaving S t) (indent a : Nat) :
    saveJSONH e o S m t indent a = (saveJSON e o m t indent a).map fun x => (x, m) := saveObjH_eq e o S m t hn indent a

/-- **C102**: of an object of a class with a `save_json` function (that is not transient) nothing is written but the token that the function
makes of it, and no other function is called. -/
theorem C102_custom (e : Env) (o : Opts) (S : SaveHooks) (h : BitVec 32) (z : Nat) (fl : BitVec 32) (fs : Flds) (bs : Tys) (hk : e.skips fl = false)
    (g : Nat → Mem → Res Tok) (hg : S.save h z = some g) (indent a : Nat) (m m' : Mem) (text : Bytes)
    (hs : saveJSONH e o S m (.cls h z fl fs bs) indent a = .ok (text, m')) :
    m' = m ∧ ∃ tok, g a m = .ok tok ∧ TokenText e.fl o.hexFloats tok text := by
  unfold saveJSONH at hs
  rw [saveObjH] at hs
  simp only [hk, Bool.false_eq_true, if_false, hg] at hs
  obtain ⟨tok, h1, hs⟩ := Res.bind_eq_ok.1 hs
  obtain ⟨t, h2, hs⟩ := Res.bind_eq_ok.1 hs
  cases hs
  refine ⟨rfl, tok, h1, ?_⟩
  unfold saveToken at h2
  split at h2
  · rename_i ht
    cases h2
    rw [quote_eq]
    exact .str ht
  · rename_i ht
    rw [saveInteger_text h2]
    exact .int ht
  · rename_i ht
    rcases saveDecimal_text h2 with ⟨hx, rfl⟩ | ⟨hx, rfl⟩
    · exact .bits ht hx
    · exact .dec ht hx
  · cases h2

/-- **C102**: a token that is neither a string nor a number stops the program with an assertion. -/
theorem C102_refused (e : Env) (o : Opts) (S : SaveHooks) (h : BitVec 32) (z : Nat) (fl : BitVec 32) (fs : Flds) (bs : Tys) (hk : e.skips fl = false)
    (g : Nat → Mem → Res Tok) (hg : S.save h z = some g) (indent a : Nat) (m : Mem) (tok : Tok) (ht : g a m = .ok tok)
    (h1 : tok.type ≠ .string) (h2 : tok.type ≠ .integer) (h3 : tok.type ≠ .decimal) :
    saveJSONH e o S m (.cls h z fl fs bs) indent a = .trap := by
  unfold saveJSONH
  rw [saveObjH]
  simp only [hk, Bool.false_eq_true, if_false, hg, ht, Res.bind_ok]
  unfold saveToken
  split
  · rename_i h; exact absurd h h1
  · rename_i h; exact absurd h h2
  · rename_i h; exact absurd h h3
  · rfl

/-- **C102**: of an object of a transient class nothing is written, and no function of it is called. -/
theorem C102_transient (e : Env) (o : Opts) (S : SaveHooks) (h : BitVec 32) (z : Nat) (fl : BitVec 32) (fs : Flds) (bs : Tys) (hk : e.skips fl = true)
    (indent a : Nat) (m : Mem) : saveJSONH e o S m (.cls h z fl fs bs) indent a = .ok ([], m) := by
  unfold saveJSONH
  rw [saveObjH]
  simp [hk]

/-- **C102** (partial): an object of a class without a `save_json` function is written member by member. The `pre_save` function of the class
is called once, for the object, before any member is looked at; the text of each member is what `SaveJSON` would write of it, from the memory
that the members before it have left. In the text there are the names of the fields in order, the transient ones left out.

Missing: C arrays of pointers. -/
theorem C102_class_partial (e : Env) (o : Opts) (S : SaveHooks) (h : BitVec 32) (z : Nat) (fl : BitVec 32) (fs : Flds) (bs : Tys)
    (hk : e.skips fl = false) (hg : S.save h z = none) (hsort : SortsOk e o (.cls h z fl fs bs))
    (hp : ∀ x ∈ (Ty.cls h z fl fs bs).allFields, x.1.isPtr = true → x.1.count = none) (indent a : Nat) (m m' : Mem) (text : Bytes)
    (hs : saveJSONH e o S m (.cls h z fl fs bs) indent a = .ok (text, m')) :
    ∃ ms ts m1 t u v w x, ClassMembers e o (.cls h z fl fs bs) ms ∧ Before S h z a m m1 ∧
      MembersSaved o (fun ty b n s n' => ∃ i, saveJSONH e o S n ty i b = .ok (s, n')) a ms m1 ts m' ∧ Listed o ts t ∧
      Blank o u ∧ Blank o v ∧ Blank o w ∧ Blank o x ∧ text = u ++ [123] ++ v ++ t ++ w ++ [125] ++ x := by
  unfold saveJSONH at hs
  rw [saveObjH] at hs
  simp only [hk, Bool.false_eq_true, if_false, hg] at hs
  obtain ⟨m1, h1, hs⟩ := Res.bind_eq_ok.1 hs
  obtain ⟨r, h2, hs⟩ := Res.bind_eq_ok.1 hs
  cases hs
  obtain ⟨ms, c1, c2⟩ := classH_members e o S (.cls h z fl fs bs) hsort
  rw [classSaversH, if_neg (by simp [hk])] at c2
  rw [c2] at h2
  obtain ⟨ts, k1, k2⟩ := membersH_saved ms (fun x hx => hp x (members_mem _ _ c1 x hx).1) false (t := r.1) (m' := r.2) h2
  refine ⟨ms, ts, m1, r.1, newLine o indent, newLine o (indent + 1), newLine o indent, newLine o indent, c1, ?_, k1, k2,
    newLine_blank _ _, newLine_blank _ _, newLine_blank _ _, newLine_blank _ _, ?_⟩
  · unfold SaveHooks.runPre at h1
    split at h1
    · rename_i f hf
      exact .call hf h1
    · rename_i hf
      cases h1
      exact .none m hf
  · simp [openScope, closeScope]

/-- **C102**: of a container of values each element is written as `SaveJSON` would write it, in order. -/
theorem C102_elements (e : Env) (o : Opts) (S : SaveHooks) (h : BitVec 32) (z : Nat) (t : Ty) (indent a : Nat) (m m' : Mem) (text : Bytes)
    (hs : saveJSONH e o S m (.vec h z t false) indent a = .ok (text, m')) :
    ∃ ts, InTurn (fun b n s n' => ∃ i, saveJSONH e o S n t i b = .ok (s, n')) ((m.elems a).map (·.2)) m ts m' ∧ text = listText ts := by
  unfold saveJSONH at hs
  rw [saveObjH] at hs
  exact arrayH_inTurn _ hs

/-- **C102**: the load function of a field gets the token that a save function made, if it is a lasting one: the text that is written for the
token is a text for which the token is passed (C101). -/
theorem C102_token_back (e : Env) (o : Opts) (S : SaveHooks) (h : BitVec 32) (z : Nat) (fl : BitVec 32) (fs : Flds) (bs : Tys) (hk : e.skips fl = false)
    (g : Nat → Mem → Res Tok) (hg : S.save h z = some g) (indent a : Nat) (m : Mem) (tok : Tok) (ht : g a m = .ok tok)
    (hl : Lasting o.hexFloats tok) : ∃ text, saveJSONH e o S m (.cls h z fl fs bs) indent a = .ok (text, m) ∧ Single e.fl text tok := by
  obtain ⟨text, h1, h2⟩ := lasting_single (e := e) hl
  refine ⟨text, ?_, h2⟩
  unfold saveJSONH
  rw [saveObjH]
  simp [hk, hg, ht, h1]

/-- **C102** (partial): an object of a class whose fields survive being saved - values of the types of C31 without functions, of classes with
`save_json` and `load_json` functions that are inverse to each other, and objects, containers and C arrays of such, to any depth - is saved to a
text from which `LoadJSON` restores every field that is saved, in any other object without elements in its containers, and changes nothing else
in the memory in use; what is saved is the object as the `pre_save` function leaves it, and the `post_load` function comes after all that.

Missing: `pre_save` and `post_load` functions of what is inside of the object; dictionaries with functions; pointers that are mapped; a
`post_load` function that fails. -/
theorem C102_round_trip_partial (e : Env) (o : Opts) (hptr : o.ptrs = none) (S : SaveHooks) (H : Hooks) (h : BitVec 32) (z : Nat) (fl : BitVec 32)
    (fs : Flds) (bs : Tys) (hk : e.skips fl = false) (hg : S.save h z = none) (hsort : SortsOk e o (.cls h z fl fs bs))
    (hd : (Ty.cls h z fl fs bs).allFields.Pairwise fun x y => Hash.hashText x.1.name ≠ Hash.hashText y.1.name)
    (hap : (Ty.cls h z fl fs bs).allFields.Pairwise Apart) (indent a : Nat) (m m1 : Mem) (hb : Before S h z a m m1)
    (hf : ∀ x ∈ (Ty.cls h z fl fs bs).savedFields e, PlainName x.1.name ∧ x.1.offset + x.1.extent x.2 ≤ z ∧
      Survives e o S H m1 x.1.count x.2 (a + x.1.offset))
    (n : Mem) (b : Nat) (hbn : b + z ≤ n.next) (hclear : Clear n b z) (hpost : ∀ n1, ∃ n', After H h z b n1 n') :
    ∃ text err n1 n', saveJSONH e o S m (.cls h z fl fs bs) indent a = .ok (text, m1) ∧
      loadJSONH e H text n (.cls h z fl fs bs) b = .ok (err, n') ∧ err.code = .none ∧
      (∀ x ∈ (Ty.cls h z fl fs bs).savedFields e,
        Kept e S m1 n1 (fun y => n.next ≤ y ∧ y < n1.next) x.1.count x.2 (a + x.1.offset) (b + x.1.offset)) ∧
      (∀ x, x < n.next → (∀ y ∈ (Ty.cls h z fl fs bs).savedFields e, x < b + y.1.offset ∨ b + y.1.offset + y.1.extent y.2 ≤ x) →
        n1.byte x = n.byte x ∧ n1.elems x = n.elems x) ∧
      if (Ty.cls h z fl fs bs).savedFields e = [] then n' = n1 else After H h z b n1 n' := by
  obtain ⟨text, pairs, n1, r1, r3, r4, r5, r6, r7, r8, r9⟩ := class_round (S := S) (H := H) hptr hk hsort hd hap
    (fun x hx => ⟨(hf x hx).1, (hf x hx).2.1, survives_round hptr (hf x hx).2.2⟩) indent b n hbn hclear
  have hpre : S.runPre h z a m = .ok m1 := by
    unfold SaveHooks.runPre
    cases hb with
    | none hn => rw [hn]
    | call hf hc => rw [hf]; exact hc
  have hsave : saveJSONH e o S m (.cls h z fl fs bs) indent a = .ok (openScope o indent ++ text ++ closeScope o indent, m1) := by
    unfold saveJSONH
    rw [saveObjH]
    simp only [hk, Bool.false_eq_true, if_false, hg, hpre, Res.bind_ok, r1]
  obtain ⟨n', hn'⟩ : ∃ n', if (Ty.cls h z fl fs bs).savedFields e = [] then n' = n1 else After H h z b n1 n' := by
    split
    · exact ⟨n1, rfl⟩
    · exact hpost n1
  have ho := r4 (newLine o (indent + 1)) (newLine o indent) (newLine_ws o _) (newLine_ws o _)
  have htext : openScope o indent ++ text ++ closeScope o indent =
      newLine o indent ++ 123 :: ((newLine o (indent + 1) ++ (text ++ newLine o indent)) ++ 125 :: newLine o indent) := by
    simp [openScope, closeScope]
  have hload : ∃ err, loadJSONH e H (openScope o indent ++ text ++ closeScope o indent) n (.cls h z fl fs bs) b = .ok (err, n') ∧ err.code = .none := by
    rw [htext]
    have hw := newLine_ws o indent
    generalize newLine o indent = w at *
    generalize newLine o (indent + 1) ++ (text ++ w) = body at *
    have hgd : Good e.fl.strtod (123 :: (body ++ 125 :: w)) := good_structural _ (by decide) _
    obtain ⟨s0, e0, a0, m0⟩ := nextTok_at (e := e) (st := { t := {}, c := { rest := w ++ 123 :: (body ++ 125 :: w) }, m := n }) rfl rfl (good_ws hw hgd)
    have a0 := (at_ws hw hgd).1 a0
    have hfuel : fuelFor (w ++ 123 :: (body ++ 125 :: w)) = (2 * w.length + 2 * body.length + 2 * w.length + 7) + 1 := by
      simp [fuelFor]; omega
    have key : ∃ st', parseObjectH e H ((2 * w.length + 2 * body.length + 2 * w.length + 7) + 1) s0 (some (.cls h z fl fs bs, b)) = .ok st' ∧
        At e (125 :: w) st' ∧ st'.m = n' := by
      by_cases hms : (Ty.cls h z fl fs bs).savedFields e = []
      · rw [if_pos hms] at hn'
        have hpn := r3.2 hms
        obtain ⟨st', e1, a1, m2⟩ := empty_object (H := H) (ho.blank hpn) (some (.cls h z fl fs bs, b)) a0
          (2 * w.length + 2 * body.length + 2 * w.length + 7)
        exact ⟨st', e1, a1, by rw [m2, m0, hn', r6 hpn]⟩
      · rw [if_neg hms] at hn'
        exact object_does ho (fun h => hms (r3.1 h)) hd r5 hn' a0 m0 (by omega)
    obtain ⟨st', e1, a1, m2⟩ := key
    unfold loadJSONH
    rw [e0, hfuel]
    simp only [Out.bind_ok, e1]
    exact ⟨_, by rw [m2], a1.err⟩
  obtain ⟨err, l1, l2⟩ := hload
  exact ⟨_, err, n1, n', hsave, l1, l2, r8 _ _ (fun y hy => hy) (fun _ _ => ⟨rfl, rfl⟩), r9, hn'⟩

end

/-! ### A case -/

/-- A colour is saved as a number. -/
def saveRgb (a : Nat) (m : Mem) : Res Tok := .ok { type := .integer, bits := UInt64.ofNat (unle (m.read a 3)) }

/-- And loaded from one. -/
def loadRgb (t : Tok) (a : Nat) (m : Mem) : Res Mem := .ok (m.write a (le 3 t.bits.toNat))

/-- A shape counts how often it is saved, in its last byte. -/
def countSave (a : Nat) (m : Mem) : Res Mem := .ok (m.write (a + 11) [m.byte (a + 11) + 1])

/-- `Colour` (hash 20, 3 bytes) has a save function, `Shape` (hash 21, 12 bytes) a pre-save function. -/
def demoSaving : SaveHooks where
  save h z := if h = 20 ∧ z = 3 then some saveRgb else none
  pre h z := if h = 21 ∧ z = 12 then some countSave else none

/-- The functions for loading. -/
def demoLoading : Hooks where
  load h z := if h = 20 ∧ z = 3 then some loadRgb else none
  post h z := if h = 21 ∧ z = 12 then some countLoad else none

theorem rgb_inverse : Inverse false 3 saveRgb loadRgb := by
  intro a m
  have hlt := unle_lt (m.read a 3)
  rw [read_length] at hlt
  have hnat : (UInt64.ofNat (unle (m.read a 3))).toNat = unle (m.read a 3) := by
    rw [UInt64.toNat_ofNat']
    exact Nat.mod_eq_of_lt (by omega)
  refine ⟨_, rfl, .int ?_, ?_⟩
  · unfold int64Of signedOf
    rw [hnat]
    split <;> omega
  · intro b n
    refine ⟨_, rfl, ?_, ?_⟩
    · exact write_only n b 3 b _ (Nat.le_refl _) (by rw [length_le]; omega)
    · simp only [hnat]
      have h1 := le_unle (m.read a 3)
      rw [read_length] at h1
      rw [h1]
      have := read_write n b (m.read a 3)
      rw [read_length] at this
      exact this

/-- A shape of colour 1, 2, 3. -/
def shapeMem : Mem := memOf [7, 0, 0, 0, 1, 2, 3, 0, 0, 0, 0, 0]

example : (saveJSONH demoEnv {} demoSaving shapeMem tShape 0 0).map (fun r => (r.1, r.2.read 0 12)) =
    .ok (b!"{\"n\":7,\"c\":197121}", [7, 0, 0, 0, 1, 2, 3, 0, 0, 0, 0, 1]) := by decide +kernel

/-- A drawing: a number, an object with a colour in it, a list of colours, and a C array of objects with colours in them. -/
def tDrawing : Ty := .cls 40 32 0 (.cons ⟨b!"n", 0, 0, false, none⟩ tInt (.cons ⟨b!"p", 4, 0, false, none⟩
  (.cls 41 4 0 (.cons ⟨b!"c", 0, 0, false, none⟩ tColour .nil) .nil) (.cons ⟨b!"l", 8, 0, false, none⟩ (.vec 9 16 tColour false)
  (.cons ⟨b!"q", 24, 0, false, some 2⟩ (.cls 41 4 0 (.cons ⟨b!"c", 0, 0, false, none⟩ tColour .nil) .nil) .nil)))) .nil

/-- Its memory. -/
def drawingMem : Mem := { shapeMem with elems := fun x => if x = 8 then [(0, 4), (0, 5)] else [] }

/-- The text of it. -/
example : (saveJSONH demoEnv {} demoSaving drawingMem tDrawing 0 0).map (·.1) =
    .ok b!"{\"n\":7,\"p\":{\"c\":197121},\"l\":[197121,770],\"q\":[{\"c\":0},{\"c\":0}]}" := by decide +kernel

/-- The hypotheses of the round trip hold of it. -/
example : ∃ text err n1 n', saveJSONH demoEnv {} demoSaving drawingMem tDrawing 0 0 = .ok (text, drawingMem) ∧
    loadJSONH demoEnv demoLoading text (memOf []) tDrawing 100 = .ok (err, n') ∧ err.code = .none ∧
    (∀ x ∈ tDrawing.savedFields demoEnv,
      Kept demoEnv demoSaving drawingMem n1 (fun y => 1000 ≤ y ∧ y < n1.next) x.1.count x.2 (0 + x.1.offset) (100 + x.1.offset)) ∧
    (∀ x, x < 1000 → (∀ y ∈ tDrawing.savedFields demoEnv, x < 100 + y.1.offset ∨ 100 + y.1.offset + y.1.extent y.2 ≤ x) →
      n1.byte x = (memOf []).byte x ∧ n1.elems x = (memOf []).elems x) ∧
    if tDrawing.savedFields demoEnv = [] then n' = n1 else After demoLoading 40 32 100 n1 n' := by
  have hi : Supported demoEnv {} tInt := by
    rw [tInt, Supported]
    exact ⟨.int 4, by decide +kernel, rfl, .inl ⟨by decide, by decide⟩⟩
  have hcol : ∀ a, Survives demoEnv {} demoSaving demoLoading drawingMem none tColour a := fun a =>
    .custom (g := saveRgb) (f := loadRgb) (by decide) rfl rfl rgb_inverse
  have hobj : ∀ a, Survives demoEnv {} demoSaving demoLoading drawingMem none
      (.cls 41 4 0 (.cons ⟨b!"c", 0, 0, false, none⟩ tColour .nil) .nil) a := by
    intro a
    refine .object (by decide) rfl rfl rfl rfl ⟨(fun h => by simp at h), trivial⟩ (by decide +kernel) (by unfold Apart; decide +kernel) ?_ ?_
    · intro x hx
      simp only [Ty.savedFields, Flds.list, Tys.savedFields, List.append_nil] at hx
      rw [if_neg (by decide)] at hx
      simp only [List.filter, show savedField demoEnv ⟨b!"c", 0, 0, false, none⟩ = true by decide, List.mem_cons, List.not_mem_nil, or_false] at hx
      subst hx
      exact ⟨by decide, by decide⟩
    · intro x hx
      simp only [Ty.savedFields, Flds.list, Tys.savedFields, List.append_nil] at hx
      rw [if_neg (by decide)] at hx
      simp only [List.filter, show savedField demoEnv ⟨b!"c", 0, 0, false, none⟩ = true by decide, List.mem_cons, List.not_mem_nil, or_false] at hx
      subst hx
      exact hcol _
  refine C102_round_trip_partial demoEnv {} rfl demoSaving demoLoading 40 32 0 _ .nil (by decide) rfl ⟨(fun h => by simp at h), trivial⟩ (by decide +kernel)
    (by unfold Apart; decide +kernel) 0 0 drawingMem _ (.none _ rfl) ?_ (memOf []) 100 (by decide) (fun _ _ _ => rfl) ?_
  · intro x hx
    have hx : x ∈ (Ty.cls 40 32 0 _ .nil).allFields := (savedFields_sub demoEnv _ _ hx).1
    simp only [Ty.allFields, Flds.list, Tys.allFields, List.append_nil, List.mem_cons, List.not_mem_nil, or_false] at hx
    rcases hx with rfl | rfl | rfl | rfl
    · refine ⟨by decide, by decide, .plain hi (by simp) trivial trivial trivial (fun _ => ?_) (by simp)⟩
      simp only [tInt, Savable]
      intro k hk
      have h4 : dispatch demoEnv.lut (Hash.hashText b!"int") = some (.int 4) := by decide +kernel
      rw [h4] at hk
      cases hk
      refine ⟨?_, by simp⟩
      simp only [Num.Savable]
      decide +kernel
    · exact ⟨by decide, by decide, hobj _⟩
    · exact ⟨by decide, by decide, .list (by decide) fun x _ => hcol _⟩
    · exact ⟨by decide, by decide, .array (by decide) (by decide) rfl fun i _ => hobj _⟩
  · exact fun n1 => ⟨n1, .none _ rfl⟩

example : outcome (loadJSONH demoEnv demoLoading b!"{\"n\":7,\"c\":197121}" (memOf []) tShape 100) 100 12 =
    some (.none, [7, 0, 0, 0, 1, 2, 3, 0, 0, 0, 0, 1]) := by decide +kernel

/-- A container of colours. -/
example : (saveJSONH demoEnv {} demoSaving { shapeMem with elems := fun x => if x = 50 then [(0, 4), (0, 5)] else [] } (.vec 9 16 tColour false) 0 50).map
    (·.1) = .ok b!"[197121,770]" := by decide +kernel

/-! ### What is not so -/

/-- An object whose class has both functions is saved, but the text is refused by `LoadJSON`: `load_json` is not called for the object itself. -/
theorem C102_top_negation : (saveJSONH demoEnv {} demoSaving shapeMem tColour 0 4).map (·.1) = .ok b!"197121" ∧
    outcome (loadJSONH demoEnv demoLoading b!"197121" (memOf []) tColour 100) 100 3 = some (.unexpectedEnd, [0, 0, 0]) := by
  constructor <;> decide +kernel

/-- A string token with a quote is not escaped: the text is not what a loader can read. -/
theorem C102_quote_negation : saveToken demoEnv {} { type := .string, text := b!"a\"b" } = .ok b!"\"a\"b\"" := by rfl

/-- An integer token of -10^18 or less overflows the buffer of the writer. -/
theorem C102_integer_negation (e : Env) (o : Opts) (bits : UInt64) (h : int64Of bits ≤ -10 ^ 18) : saveToken e o { type := .integer, bits := bits } = .ub := by
  have hb : -2 ^ 63 ≤ int64Of bits := by
    unfold int64Of signedOf
    have := bits.toNat_lt
    split <;> omega
  exact C28_signed_buffer_negation _ hb h

/-- The functions of a base class are not called: of an object of a class derived from a shape, the shape's function does not count. -/
theorem C102_base_negation : (saveJSONH demoEnv {} demoSaving shapeMem (.cls 31 12 0 .nil (.cons tShape .nil)) 0 0).map (fun r => (r.1, r.2.read 0 12)) =
    .ok (b!"{\"n\":7,\"c\":197121}", [7, 0, 0, 0, 1, 2, 3, 0, 0, 0, 0, 0]) := by decide +kernel

/-- What a `pre_save` function of a member changes outside of it is not in the text if that part has been written before. -/
theorem C102_order_negation : ∃ S : SaveHooks, (∀ h z, S.save h z = none) ∧
    (saveJSONH demoEnv {} S shapeMem (.cls 32 24 0 (.cons ⟨b!"t", 0, 0, false, none⟩ tInt (.cons ⟨b!"s", 4, 0, false, none⟩ (.cls 33 4 0 .nil .nil) .nil)) .nil) 0 0).map
      (fun r => (r.1, r.2.byte 0)) = .ok (b!"{\"t\":7,\"s\":{}}", 9) :=
  ⟨⟨fun _ _ => none, fun h z => if h = 33 ∧ z = 4 then some fun _ m => .ok (m.write 0 [9]) else none⟩, fun _ _ => rfl, by decide +kernel⟩

end Clr.JSON
