import Verif.Proofs.Logging

/-!
C77: what is logged reaches the streams set for it.
-/
namespace Clr.Logging

/-- **C77**, standard output, for every history of calls: each message is printed, in the order of the calls and whole up to
511 bytes, once for each time the standard output was set for its name and tag and no file was set since. -/
theorem C77_stdout (can : Bytes → Bool) (w : World) (ops : List Op) (s : State) (h : run can ops (start w) = .ok s) :
    s.world.stdout = w.stdout ++ printed [] ops :=
  printed_run ops [] (start w) s (knows_start w) h

/-- **C77**, files (partial): a file set for a name and one tag holds, after every further call, exactly the messages logged
for that name and tag since, in order, whatever else is logged.

Missing from the full property: a file set for several tags or names, and streams set for the same name and tag later
(see below). -/
theorem C77_file_partial (can : Bytes → Bool) (w : World) (before after : List Op) (n : Name) (i : Nat) (hi : i < 31) (f : Bytes)
    (hcan : can f = true) (hbefore : ∀ op ∈ before, opens f op = false) (hopen : ∀ op ∈ after, opens f op = false)
    (hset : ∀ op ∈ after, setsFile n.addr i op = false ∧ setsStdout n.addr i op = false) (s : State)
    (h : run can (before ++ .toFile n (2 ^ i) f :: after) (start w) = .ok s) :
    s.world.files f = some (logged n.addr i (before ++ [.toFile n (2 ^ i) f]) after) := by
  rw [run_append] at h
  cases h1 : run can before (start w) with
  | trap => rw [h1] at h; simp at h
  | ub => rw [h1] at h; simp at h
  | ok s1 =>
    rw [h1] at h
    simp only [Res.bind, run, step, Res.bind_ok] at h
    obtain ⟨hd, hh⟩ := holds_set (unused_run before _ _ (unused_start f w) h1 hbefore) hcan n hi
    have hk : Knows (before ++ [.toFile n (2 ^ i) f]) (setToFile can s1 n (2 ^ i) f) := by
      have := knows_run before [] _ _ (knows_start w) h1
      rw [List.nil_append] at this
      exact knows_step (can := can) this rfl
    have := holds_run hi after _ _ _ _ hk hh h hopen (fun op ho => (hset op ho).1) (fun op ho => (hset op ho).2)
    rw [List.nil_append] at this
    exact this.file

/-- The tags the macros can log with. -/
def Level (tag : Nat) : Prop := tag = 1 ∨ tag = 2 ∨ tag = 4

/-- **C77**, safety: with the three tags, and names whose indentation stays between 0 and 127, logging never fails. -/
theorem C77_never_fails (can : Bytes → Bool) (w : World) (ops : List Op)
    (htag : ∀ n tag p text, Op.log n tag p text ∈ ops → Level tag)
    (hdepth : ∀ a k, 0 ≤ depth a (ops.take k) ∧ depth a (ops.take k) < 128) :
    ∃ s, run can ops (start w) = .ok s := by
  have key : ∀ (todo past : List Op) (s : State), Knows past s → (∀ n tag p text, Op.log n tag p text ∈ todo → Level tag) →
      (∀ a k, 0 ≤ depth a (past ++ todo.take k) ∧ depth a (past ++ todo.take k) < 128) → ∃ s', run can todo s = .ok s' := by
    intro todo
    induction todo with
    | nil => intro past s _ _ _; exact ⟨s, rfl⟩
    | cons op todo ih =>
      intro past s hk ht hd
      have hnow : ∀ a, 0 ≤ (s.sets a).indent ∧ (s.sets a).indent < 128 := by
        intro a
        rw [hk.indent]
        simpa using hd a 0
      have hs : ∃ s1, step can s op = .ok s1 := by
        cases op with
        | toStdout n tag => exact ⟨_, rfl⟩
        | toFile n tag f => exact ⟨_, rfl⟩
        | log n tag p text =>
          have hl := ht n tag p text (by simp)
          have hp : ∃ pre, prefixFor (s.sets n.addr).indent tag p = .ok pre := by
            unfold prefixFor
            cases p with
            | false => exact ⟨_, rfl⟩
            | true =>
              unfold prefixOf
              rcases hl with rfl | rfl | rfl
              · simp only [if_true]
                rw [if_pos (hnow n.addr)]
                exact ⟨_, rfl⟩
              · exact ⟨_, rfl⟩
              · exact ⟨_, rfl⟩
          obtain ⟨pre, hp⟩ := hp
          have hlog : ∃ index, log2 tag = some index ∧ index < tagBits := by
            rcases hl with rfl | rfl | rfl
            · exact ⟨0, by decide +kernel, by decide⟩
            · exact ⟨1, by decide +kernel, by decide⟩
            · exact ⟨2, by decide +kernel, by decide⟩
          obtain ⟨index, h1, h2⟩ := hlog
          simp only [step, log, hp, Res.bind_ok, h1, if_pos h2]
          exact ⟨_, rfl⟩
        | push n =>
          simp only [step, pushIndent]
          rw [if_pos (by have := hnow n.addr; omega)]
          exact ⟨_, rfl⟩
        | pop n =>
          simp only [step, popIndent]
          rw [if_pos (by have := hnow n.addr; omega)]
          exact ⟨_, rfl⟩
      obtain ⟨s1, hs⟩ := hs
      obtain ⟨s2, h2⟩ := ih (past ++ [op]) s1 (knows_step hk hs) (fun n tag p text h => ht n tag p text (by simp [h]))
        (fun a k => by simpa using hd a (k + 1))
      exact ⟨s2, by rw [run, hs]; exact h2⟩
  exact key ops [] (start w) (knows_start w) htag (by simpa using hdepth)

/-! ### Where it fails -/

/-- C77 is false of streams set earlier: setting a file for a tag drops the streams set for it before, so that nothing is
printed any more (src/clReflectCore/Logging.cpp:61-65, the copy constructor does not copy `next`). -/
theorem C77_file_drops_stdout_false (can : Bytes → Bool) (w : World) (n : Name) (tag all : Nat) (f text : Bytes) (p : Bool)
    (hover : all.testBit tag.log2 = true) (hlevel : Level tag) :
    ∃ s, run can [.toStdout n tag, .toFile n all f, .log n tag p text] (start w) = .ok s ∧ s.world.stdout = w.stdout := by
  have hd : ∀ a k, depth a (List.take k [.toStdout n tag, .toFile n all f, .log n tag p text]) = 0 := by
    intro a k
    match k with
    | 0 => rfl
    | 1 => rfl
    | 2 => rfl
    | k + 3 => simp [depth]
  obtain ⟨s, hs⟩ := C77_never_fails can w [.toStdout n tag, .toFile n all f, .log n tag p text]
    (by intro n' tag' p' text' h; simp at h; rw [h.2.1]; exact hlevel) (by intro a k; rw [hd]; omega)
  refine ⟨s, hs, ?_⟩
  rw [C77_stdout can w _ s hs]
  simp [printed, outputs, setsFile, setsStdout, hover]

/-- One bit of `fileLoop`. -/
def linkFile (can : Bytes → Bool) (a : Nat) (f : Bytes) (i : Nat) (s : State) : State :=
  setStreams { s with world := (fopenW can s.world f).2 } a i [.file (fopenW can s.world f).1]

theorem fileLoop_all (can : Bytes → Bool) (a : Nat) (f : Bytes) (s : State) :
    fileLoop can a 7 f 31 0 s = linkFile can a f 2 (linkFile can a f 1 (linkFile can a f 0 s)) := rfl

theorem overwrite_start (old text : Bytes) : overwrite old 0 text = text ++ old.drop text.length := by simp [overwrite]

/-- C77 is false of files set for several tags: each tag writes at its own place in the file, from the start, so that messages
of different tags replace each other.  Here a message of information and a warning. -/
theorem C77_tags_overwrite_false (can : Bytes → Bool) (w : World) (n : Name) (f x y : Bytes) (hcan : can f = true) :
    ∃ s, run can [.toFile n 7 f, .log n 1 false x, .log n 2 false y] (start w) = .ok s ∧
      s.world.files f = some (y.take 511 ++ (x.take 511).drop (y.take 511).length) := by
  have hset : ∃ k, (setToFile can (start w) n 7 f).world.handles[k]? = some ⟨f, 0⟩ ∧
      (setToFile can (start w) n 7 f).world.handles[k + 1]? = some ⟨f, 0⟩ ∧
      ((setToFile can (start w) n 7 f).sets n.addr).streams 0 = [.file (some k)] ∧
      ((setToFile can (start w) n 7 f).sets n.addr).streams 1 = [.file (some (k + 1))] ∧
      (setToFile can (start w) n 7 f).world.files f = some [] := by
    refine ⟨w.handles.length + 2, ?_⟩
    unfold setToFile
    rw [show tagBits = 31 from rfl, fileLoop_all]
    simp [linkFile, fopenW, hcan, start, setStreams_streams]
    show (w.handles ++ _)[w.handles.length + 3] = _
    simp
  obtain ⟨k, h1, h2, h3, h4, h5⟩ := hset
  generalize hs0 : setToFile can (start w) n 7 f = s0 at h1 h2 h3 h4 h5
  have hlog : ∀ (s : State) (i tag : Nat) (text : Bytes), log2 tag = some i → i < 31 → log s n tag false text =
      .ok { s with world := deliver ((s.sets n.addr).streams i) false [] (text.take 511) s.world } := by
    intro s i tag text hi hlt
    unfold log prefixFor
    simp only [Bool.false_eq_true, if_false, Res.bind_ok, hi]
    rw [if_pos (by simpa [tagBits] using hlt)]
    rfl
  have hrun : run can [.toFile n 7 f, .log n 1 false x, .log n 2 false y] (start w) = .ok { s0 with
      world := deliver [.file (some (k + 1))] false [] (y.take 511) (deliver [.file (some k)] false [] (x.take 511) s0.world) } := by
    rw [run, step, hs0]
    simp only [Res.bind_ok]
    rw [run, step, hlog s0 0 1 x (by decide +kernel) (by omega)]
    simp only [Res.bind_ok]
    rw [run, step, hlog _ 1 2 y (by decide +kernel) (by omega)]
    simp only [Res.bind_ok, run, h3, h4]
  refine ⟨_, hrun, ?_⟩
  · obtain ⟨g1, g2, g3⟩ := fputs_append (c := []) h1 h5 (x.take 511)
    have g4 := g3 (k + 1) (by omega)
    simp only [deliver, List.foldl_cons, List.foldl_nil, Bool.false_eq_true, if_false, Stream.log]
    rw [List.nil_append] at g2
    rw [h2] at g4
    generalize fputs s0.world k (List.take 511 x) = w1 at g2 g4
    unfold fputs
    rw [g4]
    simp [g2, overwrite_start]

/-- C77 is false of long messages: what is behind 511 bytes is lost. -/
theorem C77_long_text_false (can : Bytes → Bool) (w : World) (n : Name) (text more : Bytes) (hlen : text.length = 511) :
    ∃ s, run can [.toStdout n 1, .log n 1 false (text ++ more)] (start w) = .ok s ∧ s.world.stdout = w.stdout ++ text := by
  have hd : ∀ a k, depth a (List.take k [.toStdout n 1, .log n 1 false (text ++ more)]) = 0 := by
    intro a k
    match k with
    | 0 => rfl
    | 1 => rfl
    | k + 2 => simp [depth]
  obtain ⟨s, hs⟩ := C77_never_fails can w [.toStdout n 1, .log n 1 false (text ++ more)]
    (by intro n' tag' p' text' h; simp at h; exact .inl h.2.1) (by intro a k; rw [hd]; omega)
  refine ⟨s, hs, ?_⟩
  rw [C77_stdout can w _ s hs]
  simp [printed, outputs, setsStdout, message, ← hlen, show Nat.log2 1 = 0 from by decide +kernel]

/-- C77 is false of deep indentation: a message of information behind 128 levels is undefined, it writes behind the prefix. -/
theorem C77_deep_indent_undefined (can : Bytes → Bool) (n : Name) (past : List Op) (s : State) (w : World)
    (h : run can past (start w) = .ok s) (hd : 128 ≤ depth n.addr past ∨ depth n.addr past < 0) (text : Bytes) :
    run can (past ++ [.log n 1 true text]) (start w) = .ub := by
  rw [run_append, h]
  have hk := (knows_run past [] _ _ (knows_start w) h).indent n.addr
  rw [List.nil_append] at hk
  simp only [Res.bind, run, step, log, prefixFor, prefixOf, if_true, hk]
  rw [if_neg (by omega)]
  rfl

/-- C77 is false of names by their text: a name is its address, so that what is logged under the same name from another place
in the program, where the compiler has not merged the two literals, is not printed. -/
theorem C77_name_by_address_false (can : Bytes → Bool) (w : World) (a b : Nat) (hab : a ≠ b) (name text : Bytes) :
    ∃ s, run can [.toStdout ⟨a, name⟩ 7, .log ⟨b, name⟩ 1 true text] (start w) = .ok s ∧ s.world.stdout = w.stdout := by
  have hd : ∀ c k, depth c (List.take k [.toStdout ⟨a, name⟩ 7, .log ⟨b, name⟩ 1 true text]) = 0 := by
    intro c k
    match k with
    | 0 => rfl
    | 1 => rfl
    | k + 2 => simp [depth]
  obtain ⟨s, hs⟩ := C77_never_fails can w [.toStdout ⟨a, name⟩ 7, .log ⟨b, name⟩ 1 true text]
    (by intro n' tag' p' text' h; simp at h; exact .inl h.2.1) (by intro c k; rw [hd]; omega)
  refine ⟨s, hs, ?_⟩
  rw [C77_stdout can w _ s hs]
  simp [printed, outputs, setsStdout, hab]

/-! ### Examples -/

def nMain : Name := ⟨4096, b!"main"⟩
def nSpec : Name := ⟨4128, b!"spec"⟩

/-- Two names, a file, indentation. -/
def demoOps : List Op :=
  [.toStdout nMain 7, .toFile nSpec 1 b!"spec.log", .log nSpec 1 true b!"one", .push nSpec, .log nMain 2 true b!"hm",
    .log nSpec 1 true b!"two", .pop nSpec, .log nSpec 4 true b!"lost", .log nMain 1 true b!"done"]

/-- `C77_stdout` on it. -/
example : ∃ s, run (fun _ => true) demoOps (start ⟨[], fun _ => none, []⟩) = .ok s ∧ s.world.stdout = b!"WARNING: hmdone" :=
  ⟨_, rfl, by rw [C77_stdout (fun _ => true) ⟨[], fun _ => none, []⟩ demoOps _ rfl]; decide +kernel⟩

/-- `C77_file_partial` on it. -/
example : ∃ s, run (fun _ => true) demoOps (start ⟨[], fun _ => none, []⟩) = .ok s ∧
    s.world.files b!"spec.log" = some (b!"one" ++ 9 :: b!"two") := by
  refine ⟨_, rfl, ?_⟩
  have := C77_file_partial (fun _ => true) ⟨[], fun _ => none, []⟩ [.toStdout nMain 7] (demoOps.drop 2) nSpec 0 (by omega)
    b!"spec.log" rfl (by decide) (by decide) (by decide) _ rfl
  refine this.trans ?_
  decide +kernel

/-- The hypotheses of `C77_never_fails` are met by it. -/
example : (∀ n tag p text, Op.log n tag p text ∈ demoOps → Level tag) ∧
    ∀ a k, 0 ≤ depth a (demoOps.take k) ∧ depth a (demoOps.take k) < 128 := by
  constructor
  · intro n tag p text h
    simp [demoOps] at h
    rcases h with h | h | h | h | h <;> simp [h, Level]
  · intro a k
    match k with
    | 0 => simp [depth]
    | 1 => simp [demoOps, depth]
    | 2 => simp [demoOps, depth]
    | 3 => simp [demoOps, depth]
    | 4 => simp [demoOps, depth]; split <;> omega
    | 5 => simp [demoOps, depth]; split <;> omega
    | 6 => simp [demoOps, depth]; split <;> omega
    | 7 => simp [demoOps, depth]; split <;> omega
    | 8 => simp [demoOps, depth]; split <;> omega
    | k + 9 => simp [demoOps, depth]; split <;> omega

set_option maxRecDepth 8000 in
/-- `C77_deep_indent_undefined`: 128 calls of `push` are defined. -/
example : ∃ s, run (fun _ => true) (List.replicate 128 (.push nMain)) (start ⟨[], fun _ => none, []⟩) = .ok s ∧
    128 ≤ depth nMain.addr (List.replicate 128 (.push nMain)) := ⟨_, rfl, by decide +kernel⟩

end Clr.Logging
