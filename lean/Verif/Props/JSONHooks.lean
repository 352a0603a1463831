import Verif.Proofs.JSONHooksLoad
import Verif.Props.JSONInside
import Verif.Props.JSONConvert
/-
C101: functions of the user in loading JSON.
-/
namespace Clr.JSON
set_option maxRecDepth 100000

/-- **C101**: without functions of the user, loading is that of C31 to C39. -/
theorem C101_no_functions (e : Env) (text : Bytes) (m : Mem) (t : Ty) (a : Nat) : loadJSONH e .none text m t a = loadJSON e text m t a :=
  loadJSONH_none e text m t a

/-- **C101**: loading ends on every text, whatever the functions do with memory. -/
theorem C101_terminates (e : Env) (H : Hooks) (text : Bytes) (m : Mem) (t : Ty) (a : Nat) : loadJSONH e H text m t a ≠ .fuel :=
  loadJSONH_not_fuel e H text m t a

/-- **C101** (partial): if each function changes nothing but the object it is given, then loading changes nothing but the object that
is loaded, whatever the text.

Missing from the full property: what is missing from `C93_inside_partial`. -/
theorem C101_inside_partial (e : Env) (H : Hooks) (hH : Confined H) (text : Bytes) (m m' : Mem) (t : Ty) (ht : Room e t) (a : Nat) (err : Err)
    (h : loadJSONH e H text m t a = .ok (err, m')) : OnlyIn a t.size m m' := by
  unfold loadJSONH at h
  obtain ⟨s1, h1, h⟩ := Out.bind_eq_ok.1 h
  obtain ⟨s2, h2, h⟩ := Out.bind_eq_ok.1 h
  cases h
  have m1 : s1.m = m := nextTok_mem h1
  rw [← m1]
  exact ((parseH_in e hH (fuelFor text)).2.1 _ _ _ _ ht h2).mono (Nat.le_refl _) (by have := objBytes_le (t := t) (p := false) (by simp); simpa [slotBytes] using this)

/-- **C101** (partial): an object is loaded by giving each member to the load function of its class, if there is one, and loading it
otherwise, in the order of the text, at any depth; after the members of an object its post-load function is called, once, with the
object. Elements of containers are appended one after the other, those of C arrays stored one behind the other, and loaded in the same
way. Nothing else changes memory.

Missing from the full property: the object itself, values of classes with a load function that are objects or arrays, are in C arrays
or are behind pointers, of which it is false (see the negations), and dictionaries. -/
theorem C101_load_partial (e : Env) (H : Hooks) (h : BitVec 32) (z : Nat) (fl : BitVec 32) (fs : Flds) (bs : Tys)
    (hd : (Ty.cls h z fl fs bs).allFields.Pairwise (fun x y => Hash.hashText x.1.name ≠ Hash.hashText y.1.name))
    (w text q : Bytes) (hw : Ws w) (ms : List (Bytes × Bytes)) (ho : ObjOf text ms) (a : Nat) (m m1 m' : Mem)
    (hm : MembersDo e H (.cls h z fl fs bs) a ms m m1) (hp : if ms = [] then m' = m1 else After H h z a m1 m') :
    ∃ err, loadJSONH e H (w ++ 123 :: (text ++ 125 :: q)) m (.cls h z fl fs bs) a = .ok (err, m') ∧ err.code = .none := by
  have hg : Good e.fl.strtod (123 :: (text ++ 125 :: q)) := good_structural _ (by decide) _
  obtain ⟨s0, e0, a0, m0⟩ := nextTok_at (e := e) (st := { t := {}, c := { rest := w ++ 123 :: (text ++ 125 :: q) }, m := m }) rfl rfl
    (good_ws hw hg)
  have a0 := (at_ws hw hg).1 a0
  have hfuel : fuelFor (w ++ 123 :: (text ++ 125 :: q)) = (2 * w.length + 2 * text.length + 2 * q.length + 7) + 1 := by
    simp [fuelFor]; omega
  obtain ⟨hM, hnil⟩ := does_members hm
  have key : ∃ st', parseObjectH e H ((2 * w.length + 2 * text.length + 2 * q.length + 7) + 1) s0 (some (.cls h z fl fs bs, a)) = .ok st' ∧
      At e (125 :: q) st' ∧ st'.m = m' := by
    by_cases hms : ms = []
    · subst hms
      rw [if_pos rfl] at hp
      cases ho with
      | nil hws =>
        obtain ⟨st', e1, a1, m2⟩ := empty_object (H := H) hws (some (.cls h z fl fs bs, a)) a0 (2 * w.length + 2 * text.length + 2 * q.length + 7)
        exact ⟨st', e1, a1, by rw [m2, m0, hp, hnil rfl]⟩
    · rw [if_neg hms] at hp
      exact object_does ho hms hd hM hp a0 m0 (by omega)
  obtain ⟨st', e1, a1, m2⟩ := key
  unfold loadJSONH
  rw [e0, hfuel]
  simp only [Out.bind_ok, e1]
  exact ⟨_, by rw [m2], a1.err⟩

/-! ### A case -/

/-- A colour is loaded from a string: the function copies its first three characters. -/
def loadColour (t : Tok) (a : Nat) (m : Mem) : Res Mem := .ok (m.write a (t.text.take 3))

/-- After loading, a shape counts how often it has been loaded, in its last byte. -/
def countLoad (a : Nat) (m : Mem) : Res Mem := .ok (m.write (a + 11) [m.byte (a + 11) + 1])

/-- `Colour` (hash 20, 3 bytes) has a load function, `Shape` (hash 21, 12 bytes) a post-load function. -/
def demoHooks : Hooks where
  load h z := if h = 20 ∧ z = 3 then some loadColour else none
  post h z := if h = 21 ∧ z = 12 then some countLoad else none

def tColour : Ty := .cls 20 3 0 (.cons ⟨b!"r", 0, 0, false, none⟩ (.prim (Hash.hashText b!"char") 1) .nil) .nil

def tShape : Ty := .cls 21 12 0 (.cons ⟨b!"n", 0, 0, false, none⟩ tInt (.cons ⟨b!"c", 4, 0, false, none⟩ tColour .nil)) .nil

/-- Two shapes, of which the second is in an object of its own. -/
def tScene : Ty := .cls 22 24 0 (.cons ⟨b!"s", 0, 0, false, none⟩ tShape (.cons ⟨b!"c", 12, 0, false, none⟩ tColour .nil)) .nil

theorem write_only (m : Mem) (a z : Nat) (b : Nat) (bs : Bytes) (h1 : a ≤ b) (h2 : b + bs.length ≤ a + z) : OnlyIn a z m (m.write b bs) :=
  (write_inside m b bs (Nat.le_refl _)).mono h1 h2

theorem demo_confined : Confined demoHooks := by
  refine ⟨?_, ?_⟩
  · intro h z f hf t a m m' hm
    simp only [demoHooks] at hf
    split at hf
    · rename_i hz
      cases hf
      cases hm
      exact write_only m a z a _ (Nat.le_refl _) (by simp; omega)
    · cases hf
  · intro h z f hf a m m' hm
    simp only [demoHooks] at hf
    split at hf
    · rename_i hz
      cases hf
      cases hm
      exact write_only m a z _ _ (by omega) (by simp; omega)
    · cases hf

theorem scene_room : Room demoEnv tScene := by
  have hi : Room demoEnv tInt := .prim _ _ (by unfold NumFits; decide +kernel)
  have hc : Room demoEnv tColour := by
    refine .cls _ _ _ _ _ (by unfold NumFits; decide +kernel) (by decide +kernel) (by decide +kernel) ?_ ?_
    · intro x hx hp
      simp only [Ty.allFields, Flds.list, Tys.allFields, List.append_nil, List.mem_singleton] at hx
      subst hx
      cases hp
    · intro x hx
      simp only [Ty.allFields, Flds.list, Tys.allFields, List.append_nil, List.mem_singleton] at hx
      subst hx
      exact .prim _ _ (by unfold NumFits; decide +kernel)
  have hs : Room demoEnv tShape := by
    refine .cls _ _ _ _ _ (by unfold NumFits; decide +kernel) (by decide +kernel) (by decide +kernel) ?_ ?_
    · intro x hx hp
      simp only [Ty.allFields, Flds.list, Tys.allFields, List.append_nil, List.mem_cons, List.not_mem_nil, or_false] at hx
      rcases hx with rfl | rfl <;> cases hp
    · intro x hx
      simp only [Ty.allFields, Flds.list, Tys.allFields, List.append_nil, List.mem_cons, List.not_mem_nil, or_false] at hx
      rcases hx with rfl | rfl
      · exact hi
      · exact hc
  refine .cls _ _ _ _ _ (by unfold NumFits; decide +kernel) (by decide +kernel) (by decide +kernel) ?_ ?_
  · intro x hx hp
    simp only [Ty.allFields, Flds.list, Tys.allFields, List.append_nil, List.mem_cons, List.not_mem_nil, or_false] at hx
    rcases hx with rfl | rfl <;> cases hp
  · intro x hx
    simp only [Ty.allFields, Flds.list, Tys.allFields, List.append_nil, List.mem_cons, List.not_mem_nil, or_false] at hx
    rcases hx with rfl | rfl
    · exact hs
    · exact hc

theorem no_ws : Ws [] := by intro b hb; cases hb

/-- What `{"s":{"n":5,"c":"red"},"c":"sky","x":1}` does. -/
example : ∃ m', MembersDo demoEnv demoHooks tScene 0 [(b!"s", b!"{\"n\":5,\"c\":\"red\"}"), (b!"c", b!"\"sky\""), (b!"x", b!"1")] (memOf []) m' ∧
    m'.read 0 16 = [5, 0, 0, 0, 114, 101, 100, 0, 0, 0, 0, 1, 115, 107, 121, 0] := by
  have h5 : Digits b!"5" := ⟨by decide, by decide⟩
  have hal : ∃ m1, Alone demoEnv b!"5" tInt 0 false none (memOf []) m1 ∧ m1 = (memOf []).write 0 [5, 0, 0, 0] := by
    refine ⟨_, ?_, rfl⟩
    have ho : ObjOf (b!"\"v\":5") [(b!"v", b!"5")] := by
      have := ObjOf.one (w := []) (k := b!"v") (x := []) (y := []) (v := b!"5") (z := []) no_ws (jstr_plain (by decide)) no_ws no_ws (.num (.int h5)) no_ws
      simpa using this
    obtain ⟨err, h, -⟩ := C95_converted demoEnv demoPlatform (setup_eq _) 0 0 0 (.cons ⟨b!"v", 0, 0, false, none⟩ tInt .nil) .nil (by simp [Ty.allFields, Flds.list, Tys.allFields])
      [] _ [] no_ws _ ho (memOf []) ((memOf []).write 0 [5, 0, 0, 0]) 0 (.number (x := (⟨b!"v", 0, 0, false, none⟩, tInt)) (n := .int 4) (name := b!"int")
        (by simp [Ty.allFields, Flds.list]) (by decide) rfl (by simp [registrations]) rfl (.nat (ds := b!"5") ⟨by decide, by decide⟩ (by decide))
        (.whole (.int 4) _ (bs := [5, 0, 0, 0]) ⟨rfl, by decide⟩) (.nil _))
    exact ⟨err, h⟩
  obtain ⟨m1, hal, rfl⟩ := hal
  refine ⟨_, .field (x := (⟨b!"s", 0, 0, false, none⟩, tShape)) (by simp [tScene, Ty.allFields, Flds.list]) (by decide)
    (.object (s := b!"\"n\":5,\"c\":\"red\"") (ms := [(b!"n", b!"5"), (b!"c", b!"\"red\"")]) rfl (by decide) ?_ (by simp) (by decide +kernel)
      (.field (x := (⟨b!"n", 0, 0, false, none⟩, tInt)) (by simp [Ty.allFields, Flds.list]) (by decide)
        (.plain (.num (.int h5)) trivial trivial hal)
        (.field (x := (⟨b!"c", 4, 0, false, none⟩, tColour)) (by simp [Ty.allFields, Flds.list]) (by decide)
          (.custom (.str (s := b!"red") (jstr_plain (by decide))) rfl rfl) (.nil _)))
      (.call (f := countLoad) rfl rfl))
    (.field (x := (⟨b!"c", 12, 0, false, none⟩, tColour)) (by simp [tScene, Ty.allFields, Flds.list]) (by decide)
      (.custom (.str (s := b!"sky") (jstr_plain (by decide))) rfl rfl) (.unknown ?_ (.nil _))), by decide +kernel⟩
  · exact .more (w := []) (k := b!"n") (x := []) (y := []) (v := b!"5") (z := []) no_ws (jstr_plain (by decide)) no_ws no_ws (.num (.int h5)) no_ws
      (.one (w := []) (k := b!"c") (x := []) (y := []) (v := b!"\"red\"") (z := []) no_ws (jstr_plain (by decide)) no_ws no_ws (.str (s := b!"red") (jstr_plain (by decide))) no_ws)
  · unfold Unknown; decide +kernel

example : outcome (loadJSONH demoEnv demoHooks b!"{\"s\":{\"n\":5,\"c\":\"red\"},\"c\":\"sky\",\"x\":1}" (memOf []) tScene 0) 0 16 =
    some (.none, [5, 0, 0, 0, 114, 101, 100, 0, 0, 0, 0, 1, 115, 107, 121, 0]) := by decide +kernel

/-- What `["red","sky"]` does to a container of colours. -/
example : ∃ m', Does demoEnv demoHooks b!"[\"red\",\"sky\"]" (.vec 9 16 tColour false) 0 false none (memOf []) m' ∧
    m'.elems 0 = [(0, 1000), (0, 1003)] ∧ m'.read 1000 6 = b!"redsky" := by
  have hr : JVal b!"\"red\"" := .str (s := b!"red") (jstr_plain (by decide))
  have hs : JVal b!"\"sky\"" := .str (s := b!"sky") (jstr_plain (by decide))
  refine ⟨_, .list (s := b!"\"red\",\"sky\"") (vs := [b!"\"red\"", b!"\"sky\""]) ?_
    (.cons (.custom (.str (s := b!"red") (jstr_plain (by decide))) rfl rfl) (.cons (.custom (.str (s := b!"sky") (jstr_plain (by decide))) rfl rfl) (.nil _))),
    by decide +kernel, by decide +kernel⟩
  exact .more (w := []) (x := []) no_ws hr no_ws (.one (w := []) (x := []) no_ws hs no_ws)

/-- What `[{"c":"red"}, {}]` does to an array of three shapes: the first is counted as loaded. -/
example : ∃ m', Does demoEnv demoHooks b!"[{\"c\":\"red\"},{}]" tShape 0 false (some 3) (memOf []) m' ∧
    m'.read 0 36 = [0, 0, 0, 0, 114, 101, 100, 0, 0, 0, 0, 1, 0, 0, 0, 0, 0, 0, 0, 0, 0, 0, 0, 0, 0, 0, 0, 0, 0, 0, 0, 0, 0, 0, 0, 0] := by
  have ho : ObjOf b!"\"c\":\"red\"" [(b!"c", b!"\"red\"")] :=
    .one (w := []) (k := b!"c") (x := []) (y := []) (v := b!"\"red\"") (z := []) no_ws (jstr_plain (by decide)) no_ws no_ws (.str (s := b!"red") (jstr_plain (by decide))) no_ws
  have h1 : JVal b!"{\"c\":\"red\"}" := .obj (s := b!"\"c\":\"red\"") (.one (w := []) (k := b!"c") (x := []) (y := []) (v := b!"\"red\"") (z := []) no_ws
    (jstr_plain (by decide)) no_ws no_ws (.str (s := b!"red") (jstr_plain (by decide))) no_ws)
  have h2 : JVal b!"{}" := .obj0 (w := []) no_ws
  refine ⟨_, .array (s := b!"{\"c\":\"red\"},{}") (vs := [b!"{\"c\":\"red\"}", b!"{}"]) rfl
    (.more (w := []) (x := []) no_ws h1 no_ws (.one (w := []) (x := []) no_ws h2 no_ws)) (by decide) (by decide)
    (.cons (.object (s := b!"\"c\":\"red\"") rfl (by decide) ho (by simp) (by decide +kernel)
      (.field (x := (⟨b!"c", 4, 0, false, none⟩, tColour)) (by simp [Ty.allFields, Flds.list]) (by decide)
        (.custom (.str (s := b!"red") (jstr_plain (by decide))) rfl rfl) (.nil _)) (.call (f := countLoad) rfl rfl))
      (.cons (.empty (w := []) rfl no_ws) (.nil _))), by decide +kernel⟩

/-! ### What is not so -/

/-- The load function of the class of the object that is loaded itself is not called: the text that its save function writes is
refused. -/
theorem C101_top_negation : outcome (loadJSONH demoEnv demoHooks b!"\"red\"" (memOf []) tColour 0) 0 3 = some (.unexpectedToken, [0, 0, 0]) := by
  decide +kernel

/-- Three colours in a C array: the function is called once, with the opening bracket, and the rest of the text is left out, without an
error. -/
theorem C101_array_negation : outcome (loadJSONH demoEnv demoHooks b!"{\"c\":[\"red\",\"sky\",\"fog\"],\"n\":5}" (memOf [7, 7, 7, 7, 7, 7, 7, 7, 7])
    (.cls 30 16 0 (.cons ⟨b!"c", 0, 0, false, some 3⟩ tColour (.cons ⟨b!"n", 12, 0, false, none⟩ tInt .nil)) .nil) 0) 0 16 =
    some (.none, [7, 7, 7, 7, 7, 7, 7, 7, 7, 0, 0, 0, 0, 0, 0, 0]) := by decide +kernel

/-- A pointer to a colour: the function gets the address of the pointer and overwrites it. -/
theorem C101_pointer_negation : outcome (loadJSONH demoEnv demoHooks b!"{\"c\":\"red\"}" (memOf [200, 0, 0, 0, 0, 0, 0, 0])
    (.cls 30 8 0 (.cons ⟨b!"c", 0, 0, true, none⟩ tColour .nil) .nil) 0) 0 8 = some (.none, [114, 101, 100, 0, 0, 0, 0, 0]) := by decide +kernel

/-- An object or an array for a colour: the function is called with the opening bracket and the members after it are left out, without
an error. -/
theorem C101_object_negation : outcome (loadJSONH demoEnv demoHooks b!"{\"c\":{\"r\":1},\"n\":5}" (memOf [])
    (.cls 30 16 0 (.cons ⟨b!"c", 0, 0, false, none⟩ tColour (.cons ⟨b!"n", 12, 0, false, none⟩ tInt .nil)) .nil) 0) 0 16 =
    some (.none, [0, 0, 0, 0, 0, 0, 0, 0, 0, 0, 0, 0, 0, 0, 0, 0]) := by decide +kernel

/-- The post-load function is called after a text that is refused. -/
theorem C101_error_negation : outcome (loadJSONH demoEnv demoHooks b!"{\"n\":5,}" (memOf []) tShape 0) 0 12 =
    some (.unexpectedToken, [5, 0, 0, 0, 0, 0, 0, 0, 0, 0, 0, 1]) := by decide +kernel

/-- It is not called for an object without members, though for one with nothing but members the class does not have. -/
theorem C101_empty_negation : outcome (loadJSONH demoEnv demoHooks b!"{}" (memOf []) tShape 0) 0 12 =
      some (.none, [0, 0, 0, 0, 0, 0, 0, 0, 0, 0, 0, 0]) ∧
    outcome (loadJSONH demoEnv demoHooks b!"{\"x\":1}" (memOf []) tShape 0) 0 12 = some (.none, [0, 0, 0, 0, 0, 0, 0, 0, 0, 0, 0, 1]) := by
  constructor <;> decide +kernel

/-- The post-load function of a base type is not called. -/
theorem C101_base_negation : outcome (loadJSONH demoEnv demoHooks b!"{\"n\":5}" (memOf []) (.cls 31 12 0 .nil (.cons tShape .nil)) 0) 0 12 =
    some (.none, [5, 0, 0, 0, 0, 0, 0, 0, 0, 0, 0, 0]) := by decide +kernel

end Clr.JSON
