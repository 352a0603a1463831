import Verif.Model.LoggingSpec

/-!
Lemmas for C77.
-/
namespace Clr.Logging

theorem depth_append (a : Nat) (xs ys : List Op) : depth a (xs ++ ys) = depth a xs + depth a ys := by
  induction xs with
  | nil => simp [depth]
  | cons op ops ih => cases op <;> simp [depth, ih] <;> omega

theorem outputs_append_one (a i : Nat) (xs : List Op) (op : Op) :
    outputs a i (xs ++ [op]) =
      if setsFile a i op then 0 else (if setsStdout a i op then 1 else 0) + outputs a i xs := by
  induction xs with
  | nil => cases op <;> simp [outputs, setsFile, setsStdout]
  | cons x xs ih =>
    simp only [List.cons_append, outputs, ih, List.any_append, List.any_cons, List.any_nil, Bool.or_false]
    by_cases h : setsFile a i op = true
    · simp [h]
    · simp only [h, Bool.or_false, Bool.false_eq_true, if_false]
      by_cases h2 : xs.any (setsFile a i) = true
      · simp [h2]
      · simp only [h2]
        simp only [Bool.false_eq_true, if_false]
        omega

@[simp] theorem setStreams_world (s : State) (a i : Nat) (l : List Stream) : (setStreams s a i l).world = s.world := rfl

theorem setStreams_streams (s : State) (a i b j : Nat) (l : List Stream) :
    ((setStreams s a i l).sets b).streams j = if b = a ∧ j = i then l else (s.sets b).streams j := by
  unfold setStreams
  by_cases h : b = a
  · subst h
    by_cases h2 : j = i <;> simp [h2]
  · simp [h]

theorem setStreams_indent (s : State) (a i b : Nat) (l : List Stream) :
    ((setStreams s a i l).sets b).indent = (s.sets b).indent := by
  unfold setStreams
  by_cases h : b = a
  · subst h; simp
  · simp [h]

theorem stdoutLoop_spec (a tag : Nat) : ∀ k i s,
    (stdoutLoop a tag k i s).world = s.world ∧
    (∀ b, ((stdoutLoop a tag k i s).sets b).indent = (s.sets b).indent) ∧
    ∀ b j, ((stdoutLoop a tag k i s).sets b).streams j =
      if b = a ∧ tag.testBit j ∧ i ≤ j ∧ j < i + k then .stdout :: (s.sets b).streams j else (s.sets b).streams j := by
  intro k
  induction k with
  | zero =>
    intro i s
    refine ⟨rfl, fun _ => rfl, fun b j => ?_⟩
    rw [if_neg (by omega)]
    rfl
  | succ k ih =>
    intro i s
    rw [stdoutLoop]
    obtain ⟨h1, h2, h3⟩ := ih (i + 1) (if tag.testBit i then setStreams s a i (.stdout :: (s.sets a).streams i) else s)
    refine ⟨?_, fun b => ?_, fun b j => ?_⟩
    · rw [h1]; split <;> rfl
    · rw [h2]; split
      · exact setStreams_indent ..
      · rfl
    · rw [h3]
      by_cases hb : b = a
      · subst hb
        by_cases hj : j = i
        · subst hj
          by_cases ht : tag.testBit j = true
          · rw [if_neg (by omega), if_pos ht, setStreams_streams, if_pos ⟨rfl, rfl⟩, if_pos ⟨rfl, ht, by omega, by omega⟩]
          · simp [ht]
        · have e1 : (i + 1 ≤ j ∧ j < i + 1 + k) ↔ (i ≤ j ∧ j < i + (k + 1)) := by omega
          by_cases ht : tag.testBit i = true <;> simp [ht, setStreams_streams, hj, e1]
      · by_cases ht : tag.testBit i = true <;> simp [ht, setStreams_streams, hb]

theorem fopenW_stdout (can : Bytes → Bool) (w : World) (f : Bytes) : (fopenW can w f).2.stdout = w.stdout := by
  unfold fopenW; split <;> rfl

theorem fputs_stdout (w : World) (fp : Nat) (t : Bytes) : (fputs w fp t).stdout = w.stdout := by
  unfold fputs; split <;> rfl

theorem fileLoop_spec (can : Bytes → Bool) (a tag : Nat) (f : Bytes) : ∀ k i s,
    (fileLoop can a tag f k i s).world.stdout = s.world.stdout ∧
    (∀ b, ((fileLoop can a tag f k i s).sets b).indent = (s.sets b).indent) ∧
    ∀ b j, if b = a ∧ tag.testBit j ∧ i ≤ j ∧ j < i + k
      then ∃ fp, ((fileLoop can a tag f k i s).sets b).streams j = [.file fp]
      else ((fileLoop can a tag f k i s).sets b).streams j = (s.sets b).streams j := by
  intro k
  induction k with
  | zero =>
    intro i s
    refine ⟨rfl, fun _ => rfl, fun b j => ?_⟩
    rw [if_neg (by omega)]
    rfl
  | succ k ih =>
    intro i s
    rw [fileLoop]
    obtain ⟨h1, h2, h3⟩ := ih (i + 1) (if tag.testBit i then
        let r := fopenW can s.world f
        setStreams { s with world := r.2 } a i [.file r.1]
      else s)
    refine ⟨?_, fun b => ?_, fun b j => ?_⟩
    · rw [h1]
      split
      · exact fopenW_stdout ..
      · rfl
    · rw [h2]; split
      · exact setStreams_indent ..
      · rfl
    · specialize h3 b j
      by_cases hb : b = a
      · subst hb
        by_cases hj : j = i
        · subst hj
          rw [if_neg (by omega)] at h3
          by_cases ht : tag.testBit j = true
          · rw [if_pos ⟨rfl, ht, by omega, by omega⟩, h3]
            simp only [ht, if_true, setStreams_streams, and_self]
            exact ⟨_, rfl⟩
          · rw [if_neg (by simp [ht]), h3]
            simp [ht]
        · have e1 : (i + 1 ≤ j ∧ j < i + 1 + k) ↔ (i ≤ j ∧ j < i + (k + 1)) := by omega
          by_cases hc : b = b ∧ tag.testBit j = true ∧ i ≤ j ∧ j < i + (k + 1)
          · rw [if_pos ⟨rfl, hc.2.1, e1.mpr hc.2.2⟩] at h3
            rw [if_pos hc]
            exact h3
          · rw [if_neg (fun h => hc ⟨rfl, h.2.1, e1.mp h.2.2⟩)] at h3
            rw [if_neg hc, h3]
            split
            · simp [setStreams_streams, hj]
            · rfl
      · rw [if_neg (by simp [hb])] at h3 ⊢
        rw [h3]
        split
        · simp [setStreams_streams, hb]
        · rfl

theorem setToStdout_spec (s : State) (n : Name) (tag : Nat) :
    (setToStdout s n tag).world = s.world ∧ (∀ b, ((setToStdout s n tag).sets b).indent = (s.sets b).indent) ∧
    ∀ b j, ((setToStdout s n tag).sets b).streams j =
      if b = n.addr ∧ tag.testBit j ∧ j < 31 then .stdout :: (s.sets b).streams j else (s.sets b).streams j := by
  obtain ⟨h1, h2, h3⟩ := stdoutLoop_spec n.addr tag tagBits 0 s
  refine ⟨h1, h2, fun b j => ?_⟩
  have := h3 b j
  simp only [tagBits, Nat.zero_le, true_and, Nat.zero_add] at this
  exact this

theorem setToFile_spec (can : Bytes → Bool) (s : State) (n : Name) (tag : Nat) (f : Bytes) :
    (setToFile can s n tag f).world.stdout = s.world.stdout ∧
    (∀ b, ((setToFile can s n tag f).sets b).indent = (s.sets b).indent) ∧
    ∀ b j, if b = n.addr ∧ tag.testBit j ∧ j < 31
      then ∃ fp, ((setToFile can s n tag f).sets b).streams j = [.file fp]
      else ((setToFile can s n tag f).sets b).streams j = (s.sets b).streams j := by
  obtain ⟨h1, h2, h3⟩ := fileLoop_spec can n.addr tag f tagBits 0 { s with world := (fopenW can (fopenW can s.world f).2 f).2 }
  refine ⟨?_, h2, fun b j => ?_⟩
  · rw [setToFile, h1]
    show (fopenW can (fopenW can s.world f).2 f).2.stdout = _
    rw [fopenW_stdout, fopenW_stdout]
  · have := h3 b j
    simp only [tagBits, Nat.zero_le, true_and, Nat.zero_add] at this
    exact this

theorem setIndent_streams (s : State) (a b : Nat) (d : Int) : ((setIndent s a d).sets b).streams = (s.sets b).streams := by
  unfold setIndent
  by_cases h : b = a
  · subst h; simp
  · simp [h]

theorem setIndent_indent (s : State) (a b : Nat) (d : Int) :
    ((setIndent s a d).sets b).indent = if b = a then d else (s.sets b).indent := by
  unfold setIndent
  by_cases h : b = a
  · subst h; simp
  · simp [h]

/-- Writing a message to a list of streams. -/
def deliver (l : List Stream) (p : Bool) (pre buf : Bytes) (w : World) : World :=
  l.foldl (fun w st => st.log (if p then st.log w pre else w) buf) w

theorem log_ok {s : State} {n : Name} {tag : Nat} {p : Bool} {text : Bytes} {s' : State} (h : log s n tag p text = .ok s') :
    ∃ pre, (p = true → pre = prefixText (s.sets n.addr).indent tag) ∧ tag.log2 < 31 ∧ s'.sets = s.sets ∧
      s'.world = deliver ((s.sets n.addr).streams tag.log2) p pre (text.take 511) s.world := by
  unfold log at h
  rw [Res.bind_eq_ok] at h
  obtain ⟨pre, hp, h⟩ := h
  refine ⟨pre, fun hpt => ?_, ?_⟩
  · rw [prefixFor, if_pos hpt] at hp
    unfold prefixOf at hp
    unfold prefixText
    repeat' split at hp
    all_goals simp_all
  · unfold log2 at h
    split at h
    · simp at h
    · rename_i index hi
      split at hi
      · simp at hi
      · cases hi
        split at h
        · rename_i hlt
          cases h
          exact ⟨hlt, rfl, rfl⟩
        · simp at h

theorem deliver_stdout (p : Bool) (pre buf : Bytes) : ∀ (l : List Stream) (w : World),
    (deliver l p pre buf w).stdout =
      w.stdout ++ (List.replicate (l.count .stdout) ((if p then pre else []) ++ buf)).flatten := by
  intro l
  induction l with
  | nil => intro w; simp [deliver]
  | cons st l ih =>
    intro w
    rw [deliver, List.foldl_cons]
    show (deliver l p pre buf _).stdout = _
    rw [ih]
    cases st with
    | stdout =>
      rw [List.count_cons_self, List.replicate_succ, List.flatten_cons]
      cases p <;> simp [Stream.log]
    | file fp =>
      rw [List.count_cons_of_ne (by simp)]
      cases fp with
      | none => cases p <;> simp [Stream.log]
      | some fp => cases p <;> simp [Stream.log, fputs_stdout]

/-- What is known of the state after some calls. -/
structure Knows (past : List Op) (s : State) : Prop where
  indent : ∀ a, (s.sets a).indent = depth a past
  count : ∀ a i, i < 31 → ((s.sets a).streams i).count .stdout = outputs a i past

theorem knows_start (w : World) : Knows [] (start w) := ⟨fun _ => rfl, fun _ _ _ => rfl⟩

theorem knows_step {can : Bytes → Bool} {past : List Op} {s s' : State} (hk : Knows past s) {op : Op}
    (h : step can s op = .ok s') : Knows (past ++ [op]) s' := by
  cases op with
  | toStdout n tag =>
    simp only [step, Res.ok.injEq] at h
    subst h
    obtain ⟨h1, h2, h3⟩ := setToStdout_spec s n tag
    refine ⟨fun a => by rw [h2, hk.indent, depth_append]; simp [depth], fun a i hi => ?_⟩
    rw [h3, outputs_append_one]
    simp only [setsFile, setsStdout, Bool.false_eq_true, if_false]
    by_cases hc : a = n.addr ∧ tag.testBit i = true
    · rw [if_pos ⟨hc.1, hc.2, hi⟩, List.count_cons_self, hk.count a i hi]
      simp [hc.1, hc.2]; omega
    · have hz : (n.addr == a && tag.testBit i) = false := by
        rw [Bool.eq_false_iff]
        intro h
        simp at h
        exact hc ⟨h.1.symm, h.2⟩
      rw [if_neg (fun h => hc ⟨h.1, h.2.1⟩), hk.count a i hi]
      simp only [hz, Bool.false_eq_true, if_false]
      omega
  | toFile n tag f =>
    simp only [step, Res.ok.injEq] at h
    subst h
    obtain ⟨h1, h2, h3⟩ := setToFile_spec can s n tag f
    refine ⟨fun a => by rw [h2, hk.indent, depth_append]; simp [depth], fun a i hi => ?_⟩
    specialize h3 a i
    rw [outputs_append_one]
    by_cases hc : a = n.addr ∧ tag.testBit i = true
    · rw [if_pos ⟨hc.1, hc.2, hi⟩] at h3
      obtain ⟨fp, h3⟩ := h3
      rw [h3]
      simp [setsFile, hc.1, hc.2]
    · rw [if_neg (fun h => hc ⟨h.1, h.2.1⟩)] at h3
      rw [h3, hk.count a i hi, if_neg]
      · simp [setsStdout]
      · intro h
        simp [setsFile] at h
        exact hc ⟨h.1.symm, h.2⟩
  | log n tag p text =>
    obtain ⟨pre, -, -, hs, -⟩ := log_ok h
    refine ⟨fun a => by rw [hs, hk.indent, depth_append]; simp [depth], fun a i hi => ?_⟩
    rw [hs, hk.count a i hi, outputs_append_one]
    simp [setsFile, setsStdout]
  | push n =>
    simp only [step, pushIndent] at h
    split at h
    · cases h
      refine ⟨fun a => ?_, fun a i hi => ?_⟩
      · rw [setIndent_indent, depth_append, hk.indent, hk.indent]
        simp only [depth]
        by_cases ha : a = n.addr
        · subst ha; simp
        · rw [if_neg ha, if_neg (fun h => ha h.symm)]; omega
      · rw [setIndent_streams, hk.count a i hi, outputs_append_one]
        simp [setsFile, setsStdout]
    · simp at h
  | pop n =>
    simp only [step, popIndent] at h
    split at h
    · cases h
      refine ⟨fun a => ?_, fun a i hi => ?_⟩
      · rw [setIndent_indent, depth_append, hk.indent, hk.indent]
        simp only [depth]
        by_cases ha : a = n.addr
        · subst ha; simp; omega
        · rw [if_neg ha, if_neg (fun h => ha h.symm)]; omega
      · rw [setIndent_streams, hk.count a i hi, outputs_append_one]
        simp [setsFile, setsStdout]
    · simp at h

theorem message_eq {past : List Op} {s : State} (hk : Knows past s) {n : Name} {tag : Nat} {p : Bool} {pre text : Bytes}
    (hp : p = true → pre = prefixText (s.sets n.addr).indent tag) :
    (if p then pre else []) ++ text.take 511 = message past n tag p text := by
  unfold message
  cases p with
  | false => rfl
  | true => rw [hp rfl, hk.indent]

theorem stdout_step {can : Bytes → Bool} {s s' : State} {op : Op} (h : step can s op = .ok s') (hn : ∀ n tag p t, op ≠ .log n tag p t) :
    s'.world.stdout = s.world.stdout := by
  cases op with
  | toStdout n tag =>
    simp only [step, Res.ok.injEq] at h
    rw [← h, (setToStdout_spec s n tag).1]
  | toFile n tag f =>
    simp only [step, Res.ok.injEq] at h
    rw [← h, (setToFile_spec can s n tag f).1]
  | log n tag p text => exact absurd rfl (hn _ _ _ _)
  | push n =>
    simp only [step, pushIndent] at h
    split at h
    · cases h; rfl
    · simp at h
  | pop n =>
    simp only [step, popIndent] at h
    split at h
    · cases h; rfl
    · simp at h

theorem printed_run {can : Bytes → Bool} : ∀ (ops past : List Op) (s s' : State), Knows past s → run can ops s = .ok s' →
    s'.world.stdout = s.world.stdout ++ printed past ops := by
  intro ops
  induction ops with
  | nil =>
    intro past s s' hk h
    simp only [run, Res.ok.injEq] at h
    subst h
    simp [printed]
  | cons op ops ih =>
    intro past s s' hk h
    rw [run, Res.bind_eq_ok] at h
    obtain ⟨s1, h1, h2⟩ := h
    have h3 := ih _ s1 s' (knows_step hk h1) h2
    cases op with
    | log n tag p text =>
      obtain ⟨pre, hp, hlt, hs, hw⟩ := log_ok h1
      rw [h3, hw, deliver_stdout, hk.count _ _ hlt, message_eq hk hp, printed, List.append_assoc]
    | _ => rw [h3, stdout_step h1 (by simp)]; rfl

/-! ### Files -/

/-- What is known of a file after it was set for a name and the tag of bit `i`: `c` is what it holds. -/
structure Holds (f : Bytes) (a i h : Nat) (c : Bytes) (s : State) : Prop where
  alone : (s.sets a).streams i = [.file (some h)]
  handle : s.world.handles[h]? = some ⟨f, c.length⟩
  file : s.world.files f = some c
  others : ∀ b j, ¬(b = a ∧ j = i) → ∀ fp, Stream.file (some fp) ∈ (s.sets b).streams j →
    ∃ hd, s.world.handles[fp]? = some hd ∧ hd.file ≠ f

/-- No stream goes to a file. -/
def Unused (f : Bytes) (s : State) : Prop :=
  ∀ b j fp, Stream.file (some fp) ∈ (s.sets b).streams j → ∃ hd, s.world.handles[fp]? = some hd ∧ hd.file ≠ f

/-- What writing elsewhere keeps. -/
structure Keeps (f : Bytes) (w w' : World) : Prop where
  file : w'.files f = w.files f
  same : ∀ (fp : Nat) (hd : Handle), w.handles[fp]? = some hd → hd.file = f → w'.handles[fp]? = some hd
  name : ∀ (fp : Nat) (hd : Handle), w.handles[fp]? = some hd → ∃ hd' : Handle, w'.handles[fp]? = some hd' ∧ hd'.file = hd.file

theorem Keeps.refl (f : Bytes) (w : World) : Keeps f w w := ⟨rfl, fun _ _ h _ => h, fun _ hd h => ⟨hd, h, rfl⟩⟩

theorem Keeps.trans {f : Bytes} {w w' w'' : World} (h1 : Keeps f w w') (h2 : Keeps f w' w'') : Keeps f w w'' := by
  refine ⟨h2.file.trans h1.file, fun fp hd h hf => h2.same _ _ (h1.same _ _ h hf) hf, fun fp hd h => ?_⟩
  obtain ⟨hd', h', e'⟩ := h1.name fp hd h
  obtain ⟨hd'', h'', e''⟩ := h2.name fp hd' h'
  exact ⟨hd'', h'', e''.trans e'⟩

theorem Keeps.others {f : Bytes} {w w' : World} (h : Keeps f w w') {fp : Nat} (ho : ∃ hd, w.handles[fp]? = some hd ∧ hd.file ≠ f) :
    ∃ hd, w'.handles[fp]? = some hd ∧ hd.file ≠ f := by
  obtain ⟨hd, h1, h2⟩ := ho
  obtain ⟨hd', h3, h4⟩ := h.name _ _ h1
  exact ⟨hd', h3, by rw [h4]; exact h2⟩

theorem keeps_fputs {f : Bytes} {w : World} {fp : Nat} (ho : ∃ hd, w.handles[fp]? = some hd ∧ hd.file ≠ f) (t : Bytes) :
    Keeps f w (fputs w fp t) := by
  obtain ⟨hd, h1, h2⟩ := ho
  have hlt : fp < w.handles.length := by
    rcases Nat.lt_or_ge fp w.handles.length with h | h
    · exact h
    · rw [List.getElem?_eq_none h] at h1; simp at h1
  unfold fputs
  rw [h1]
  refine ⟨?_, fun q hq h3 h4 => ?_, fun q hq h3 => ?_⟩
  · show (if f = hd.file then _ else _) = _
    rw [if_neg (fun h => h2 h.symm)]
  · show (w.handles.set fp _)[q]? = _
    rw [List.getElem?_set]
    by_cases hqf : fp = q
    · subst hqf
      rw [h1] at h3
      cases h3
      exact absurd h4 h2
    · rw [if_neg hqf]; exact h3
  · show ∃ hd', (w.handles.set fp _)[q]? = _ ∧ _
    rw [List.getElem?_set]
    by_cases hqf : fp = q
    · subst hqf
      rw [h1] at h3
      cases h3
      rw [if_pos rfl, if_pos hlt]
      exact ⟨_, rfl, rfl⟩
    · rw [if_neg hqf]; exact ⟨hq, h3, rfl⟩

theorem keeps_log {f : Bytes} {w : World} {st : Stream}
    (ho : ∀ fp, st = .file (some fp) → ∃ hd, w.handles[fp]? = some hd ∧ hd.file ≠ f) (t : Bytes) : Keeps f w (st.log w t) := by
  cases st with
  | stdout => exact ⟨rfl, fun _ _ h _ => h, fun _ hd h => ⟨hd, h, rfl⟩⟩
  | file fp =>
    cases fp with
    | none => exact Keeps.refl f w
    | some fp => exact keeps_fputs (ho fp rfl) t

theorem keeps_deliver {f : Bytes} (p : Bool) (pre buf : Bytes) : ∀ (l : List Stream) (w : World),
    (∀ fp, Stream.file (some fp) ∈ l → ∃ hd, w.handles[fp]? = some hd ∧ hd.file ≠ f) → Keeps f w (deliver l p pre buf w) := by
  intro l
  induction l with
  | nil => intro w _; exact Keeps.refl f w
  | cons st l ih =>
    intro w ho
    have k1 : Keeps f w (if p then st.log w pre else w) := by
      cases p with
      | false => exact Keeps.refl f w
      | true => exact keeps_log (fun fp h => ho fp (by simp [h])) pre
    have k2 : Keeps f w (st.log (if p then st.log w pre else w) buf) :=
      k1.trans (keeps_log (fun fp h => k1.others (ho fp (by simp [h]))) buf)
    exact k2.trans (ih _ (fun fp h => k2.others (ho fp (by simp [h]))))

theorem fputs_append {w : World} {fp : Nat} {f c : Bytes} (h : w.handles[fp]? = some ⟨f, c.length⟩) (hf : w.files f = some c) (t : Bytes) :
    (fputs w fp t).handles[fp]? = some ⟨f, (c ++ t).length⟩ ∧ (fputs w fp t).files f = some (c ++ t) ∧
    ∀ q, q ≠ fp → (fputs w fp t).handles[q]? = w.handles[q]? := by
  have hlt : fp < w.handles.length := by
    rcases Nat.lt_or_ge fp w.handles.length with h' | h'
    · exact h'
    · rw [List.getElem?_eq_none h'] at h; simp at h
  unfold fputs
  rw [h]
  refine ⟨?_, ?_, fun q hq => ?_⟩
  · show (w.handles.set fp _)[fp]? = _
    rw [List.getElem?_set, if_pos rfl, if_pos hlt, List.length_append]
  · show (if f = f then _ else _) = _
    rw [if_pos rfl, hf]
    simp [overwrite]
  · show (w.handles.set fp _)[q]? = _
    rw [List.getElem?_set, if_neg (fun h => hq h.symm)]

theorem keeps_fopenW {can : Bytes → Bool} {f g : Bytes} (hg : g ≠ f) (w : World) : Keeps f w (fopenW can w g).2 := by
  unfold fopenW
  split
  · refine ⟨?_, fun fp hd h _ => ?_, fun fp hd h => ⟨hd, ?_, rfl⟩⟩
    · show (if f = g then _ else _) = _
      rw [if_neg (fun h => hg h.symm)]
    all_goals
      show (w.handles ++ [_])[fp]? = some hd
      rw [List.getElem?_append_left]
      · exact h
      · rcases Nat.lt_or_ge fp w.handles.length with h' | h'
        · exact h'
        · rw [List.getElem?_eq_none h'] at h; simp at h
  · exact Keeps.refl f w

/-- Setting another file keeps the file, and the streams it makes go elsewhere. -/
theorem fileLoop_keeps {can : Bytes → Bool} {f g : Bytes} (hg : g ≠ f) (a tag : Nat) : ∀ k i s,
    Keeps f s.world (fileLoop can a tag g k i s).world ∧
    ∀ b j fp, Stream.file (some fp) ∈ ((fileLoop can a tag g k i s).sets b).streams j →
      Stream.file (some fp) ∈ (s.sets b).streams j ∨
        ∃ hd, (fileLoop can a tag g k i s).world.handles[fp]? = some hd ∧ hd.file ≠ f := by
  intro k
  induction k with
  | zero => intro i s; exact ⟨Keeps.refl _ _, fun b j fp h => .inl h⟩
  | succ k ih =>
    intro i s
    rw [fileLoop]
    by_cases ht : tag.testBit i = true
    · rw [if_pos ht]
      obtain ⟨k2, o2⟩ := ih (i + 1) (setStreams { s with world := (fopenW can s.world g).2 } a i [.file (fopenW can s.world g).1])
      have k1 := keeps_fopenW (can := can) hg s.world
      refine ⟨k1.trans k2, fun b j fp h => ?_⟩
      rcases o2 b j fp h with h' | h'
      · rw [setStreams_streams] at h'
        split at h'
        · right
          rw [List.mem_singleton] at h'
          refine k2.others ?_
          show ∃ hd, (fopenW can s.world g).2.handles[fp]? = some hd ∧ hd.file ≠ f
          unfold fopenW at h' ⊢
          split at h'
          · rename_i hc
            simp only [hc, if_true] at h' ⊢
            cases h'
            exact ⟨⟨g, 0⟩, by simp, hg⟩
          · simp at h'
        · exact .inl h'
      · exact .inr h'
    · rw [if_neg ht]
      exact ih (i + 1) s

theorem setToFile_keeps {can : Bytes → Bool} {f g : Bytes} (hg : g ≠ f) (s : State) (n : Name) (tag : Nat) :
    Keeps f s.world (setToFile can s n tag g).world ∧
    ∀ b j fp, Stream.file (some fp) ∈ ((setToFile can s n tag g).sets b).streams j →
      Stream.file (some fp) ∈ (s.sets b).streams j ∨
        ∃ hd, (setToFile can s n tag g).world.handles[fp]? = some hd ∧ hd.file ≠ f := by
  obtain ⟨k, o⟩ := fileLoop_keeps (can := can) hg n.addr tag tagBits 0
    { s with world := (fopenW can (fopenW can s.world g).2 g).2 }
  exact ⟨((keeps_fopenW hg _).trans (keeps_fopenW hg _)).trans k, o⟩

theorem unused_start (f : Bytes) (w : World) : Unused f (start w) := by
  intro b j fp h
  simp [start] at h

theorem unused_step {can : Bytes → Bool} {f : Bytes} {s s' : State} (hu : Unused f s) {op : Op} (h : step can s op = .ok s')
    (hf : opens f op = false) : Unused f s' := by
  cases op with
  | toStdout n tag =>
    simp only [step, Res.ok.injEq] at h
    subst h
    obtain ⟨h1, h2, h3⟩ := setToStdout_spec s n tag
    intro b j fp hm
    rw [h1]
    rw [h3] at hm
    split at hm
    · simp at hm; exact hu b j fp hm
    · exact hu b j fp hm
  | toFile n tag g =>
    simp only [step, Res.ok.injEq] at h
    subst h
    obtain ⟨k, o⟩ := setToFile_keeps (can := can) (f := f) (g := g) (by simpa [opens] using hf) s n tag
    intro b j fp hm
    rcases o b j fp hm with h' | h'
    · exact k.others (hu b j fp h')
    · exact h'
  | log n tag p text =>
    obtain ⟨pre, -, -, hs, hw⟩ := log_ok h
    have k := keeps_deliver (f := f) p pre (text.take 511) _ s.world (fun fp hm => hu n.addr tag.log2 fp hm)
    intro b j fp hm
    rw [hs] at hm
    rw [hw]
    exact k.others (hu b j fp hm)
  | push n =>
    simp only [step, pushIndent] at h
    split at h
    · cases h
      intro b j fp hm
      rw [setIndent_streams] at hm
      exact hu b j fp hm
    · simp at h
  | pop n =>
    simp only [step, popIndent] at h
    split at h
    · cases h
      intro b j fp hm
      rw [setIndent_streams] at hm
      exact hu b j fp hm
    · simp at h

theorem fileLoop_other (can : Bytes → Bool) (a : Nat) (f : Bytes) (i : Nat) : ∀ k i0 s, i < i0 →
    fileLoop can a (2 ^ i) f k i0 s = s := by
  intro k
  induction k with
  | zero => intro i0 s h; rfl
  | succ k ih =>
    intro i0 s h
    rw [fileLoop, Nat.testBit_two_pow_of_ne (by omega)]
    simp only [Bool.false_eq_true, if_false]
    exact ih _ _ (by omega)

theorem fileLoop_one (can : Bytes → Bool) (a : Nat) (f : Bytes) (i : Nat) : ∀ k i0 s, i0 ≤ i → i < i0 + k →
    fileLoop can a (2 ^ i) f k i0 s =
      setStreams { s with world := (fopenW can s.world f).2 } a i [.file (fopenW can s.world f).1] := by
  intro k
  induction k with
  | zero => intro i0 s h1 h2; omega
  | succ k ih =>
    intro i0 s h1 h2
    rw [fileLoop]
    by_cases h : i0 = i
    · subst h
      rw [Nat.testBit_two_pow_self, if_pos rfl, fileLoop_other _ _ _ _ _ _ _ (by omega)]
    · rw [Nat.testBit_two_pow_of_ne (by omega)]
      simp only [Bool.false_eq_true, if_false]
      exact ih _ _ (by omega) (by omega)

theorem holds_set {can : Bytes → Bool} {f : Bytes} {s : State} (hu : Unused f s) (hc : can f = true) (n : Name) {i : Nat} (hi : i < 31) :
    ∃ h, Holds f n.addr i h [] (setToFile can s n (2 ^ i) f) := by
  unfold setToFile
  simp only []
  rw [fileLoop_one _ _ _ _ _ _ _ (Nat.zero_le _) (by simpa [tagBits] using hi)]
  simp only [fopenW, hc, if_true]
  refine ⟨_, ⟨by rw [setStreams_streams, if_pos ⟨rfl, rfl⟩], ?_, ?_, ?_⟩⟩
  · simp
  · simp
  · intro b j hb fp hm
    rw [setStreams_streams, if_neg hb] at hm
    obtain ⟨hd, h1, h2⟩ := hu b j fp hm
    refine ⟨hd, ?_, h2⟩
    have hlt : fp < s.world.handles.length := by
      rcases Nat.lt_or_ge fp s.world.handles.length with h' | h'
      · exact h'
      · rw [List.getElem?_eq_none h'] at h1; simp at h1
    simp only [setStreams_world]
    rw [List.getElem?_append_left (by simp; omega), List.getElem?_append_left (by simp; omega), List.getElem?_append_left hlt]
    exact h1

theorem holds_step {can : Bytes → Bool} {f c : Bytes} {a i h : Nat} {past : List Op} {s s' : State} (hk : Knows past s)
    (hh : Holds f a i h c s) (hi : i < 31) {op : Op} (hs : step can s op = .ok s') (hf : opens f op = false) (hf2 : setsFile a i op = false)
    (hf3 : setsStdout a i op = false) : Holds f a i h (c ++ logged a i past [op]) s' := by
  cases op with
  | toStdout n tag =>
    simp only [step, Res.ok.injEq] at hs
    subst hs
    obtain ⟨h1, h2, h3⟩ := setToStdout_spec s n tag
    simp only [logged, List.append_nil]
    refine ⟨?_, by rw [h1]; exact hh.handle, by rw [h1]; exact hh.file, fun b j hb fp hm => ?_⟩
    · rw [h3, if_neg]
      · exact hh.alone
      · intro hc
        simp [setsStdout, hc.1, hc.2.1] at hf3
    · rw [h1]
      rw [h3] at hm
      split at hm
      · simp at hm; exact hh.others b j hb fp hm
      · exact hh.others b j hb fp hm
  | toFile n tag g =>
    simp only [step, Res.ok.injEq] at hs
    subst hs
    obtain ⟨k, o⟩ := setToFile_keeps (can := can) (f := f) (g := g) (by simpa [opens] using hf) s n tag
    obtain ⟨-, -, h3⟩ := setToFile_spec can s n tag g
    simp only [logged, List.append_nil]
    refine ⟨?_, k.same _ _ hh.handle rfl, k.file.trans hh.file, fun b j hb fp hm => ?_⟩
    · specialize h3 a i
      rw [if_neg] at h3
      · rw [h3]; exact hh.alone
      · intro hc
        simp [setsFile, hc.1, hc.2.1] at hf2
    · rcases o b j fp hm with h' | h'
      · exact k.others (hh.others b j hb fp h')
      · exact h'
  | log n tag p text =>
    obtain ⟨pre, hp, hlt, hse, hw⟩ := log_ok hs
    by_cases hc : n.addr = a ∧ tag.log2 = i
    · simp only [logged, if_pos hc, List.append_nil]
      rw [← message_eq hk hp]
      rw [hc.1, hc.2, hh.alone] at hw
      have key : ∀ (w : World) (x t : Bytes), w.handles[h]? = some ⟨f, x.length⟩ → w.files f = some x →
          (∀ b j, ¬(b = a ∧ j = i) → ∀ fp, Stream.file (some fp) ∈ (s.sets b).streams j → ∃ hd, w.handles[fp]? = some hd ∧ hd.file ≠ f) →
          (fputs w h t).handles[h]? = some ⟨f, (x ++ t).length⟩ ∧ (fputs w h t).files f = some (x ++ t) ∧
          (∀ b j, ¬(b = a ∧ j = i) → ∀ fp, Stream.file (some fp) ∈ (s.sets b).streams j → ∃ hd, (fputs w h t).handles[fp]? = some hd ∧ hd.file ≠ f) := by
        intro w x t e1 e2 e3
        obtain ⟨g1, g2, g3⟩ := fputs_append e1 e2 t
        refine ⟨g1, g2, fun b j hb fp hm => ?_⟩
        obtain ⟨hd, q1, q2⟩ := e3 b j hb fp hm
        refine ⟨hd, ?_, q2⟩
        rw [g3 fp]
        · exact q1
        · intro he
          subst he
          rw [e1] at q1
          cases q1
          exact q2 rfl
      cases p with
      | false =>
        obtain ⟨g1, g2, g3⟩ := key s.world c (text.take 511) hh.handle hh.file hh.others
        refine ⟨by rw [hse]; exact hh.alone, ?_, ?_, ?_⟩
        · rw [hw]; simpa [deliver, Stream.log] using g1
        · rw [hw]; simpa [deliver, Stream.log] using g2
        · rw [hw, hse]; simpa [deliver, Stream.log] using g3
      | true =>
        obtain ⟨g1, g2, g3⟩ := key s.world c pre hh.handle hh.file hh.others
        obtain ⟨g4, g5, g6⟩ := key _ _ (text.take 511) g1 g2 g3
        simp only [if_true]
        rw [← List.append_assoc]
        refine ⟨by rw [hse]; exact hh.alone, ?_, ?_, ?_⟩
        · rw [hw]; simpa only [deliver, Stream.log, List.foldl_cons, List.foldl_nil, if_true] using g4
        · rw [hw]; simpa only [deliver, Stream.log, List.foldl_cons, List.foldl_nil, if_true] using g5
        · rw [hw, hse]; simpa only [deliver, Stream.log, List.foldl_cons, List.foldl_nil, if_true] using g6
    · simp only [logged, if_neg hc, List.append_nil]
      have k := keeps_deliver (f := f) p pre (text.take 511) _ s.world (fun fp hm => hh.others n.addr tag.log2 hc fp hm)
      rw [← hw] at k
      refine ⟨by rw [hse]; exact hh.alone, k.same _ _ hh.handle rfl, k.file.trans hh.file, fun b j hb fp hm => ?_⟩
      rw [hse] at hm
      exact k.others (hh.others b j hb fp hm)
  | push n =>
    simp only [step, pushIndent] at hs
    split at hs
    · cases hs
      simp only [logged, List.append_nil]
      refine ⟨by rw [setIndent_streams]; exact hh.alone, hh.handle, hh.file, fun b j hb fp hm => ?_⟩
      rw [setIndent_streams] at hm
      exact hh.others b j hb fp hm
    · simp at hs
  | pop n =>
    simp only [step, popIndent] at hs
    split at hs
    · cases hs
      simp only [logged, List.append_nil]
      refine ⟨by rw [setIndent_streams]; exact hh.alone, hh.handle, hh.file, fun b j hb fp hm => ?_⟩
      rw [setIndent_streams] at hm
      exact hh.others b j hb fp hm
    · simp at hs

theorem logged_cons (a i : Nat) (past : List Op) (op : Op) (ops : List Op) :
    logged a i past (op :: ops) = logged a i past [op] ++ logged a i (past ++ [op]) ops := by
  cases op <;> simp [logged]

theorem holds_run {can : Bytes → Bool} {f : Bytes} {a i h : Nat} (hi : i < 31) : ∀ (ops past : List Op) (c : Bytes) (s s' : State),
    Knows past s → Holds f a i h c s → run can ops s = .ok s' → (∀ op ∈ ops, opens f op = false) →
    (∀ op ∈ ops, setsFile a i op = false) → (∀ op ∈ ops, setsStdout a i op = false) → Holds f a i h (c ++ logged a i past ops) s' := by
  intro ops
  induction ops with
  | nil =>
    intro past c s s' hk hh hr _ _ _
    simp only [run, Res.ok.injEq] at hr
    subst hr
    simpa [logged] using hh
  | cons op ops ih =>
    intro past c s s' hk hh hr h1 h2 h3
    rw [run, Res.bind_eq_ok] at hr
    obtain ⟨s1, e1, e2⟩ := hr
    have := ih (past ++ [op]) _ s1 s' (knows_step hk e1)
      (holds_step hk hh hi e1 (h1 op (by simp)) (h2 op (by simp)) (h3 op (by simp))) e2
      (fun o ho => h1 o (by simp [ho])) (fun o ho => h2 o (by simp [ho])) (fun o ho => h3 o (by simp [ho]))
    rw [logged_cons, ← List.append_assoc]
    exact this

theorem run_append (can : Bytes → Bool) : ∀ (xs ys : List Op) (s : State),
    run can (xs ++ ys) s = (run can xs s).bind (run can ys) := by
  intro xs
  induction xs with
  | nil => intro ys s; rfl
  | cons x xs ih =>
    intro ys s
    rw [List.cons_append, run, run]
    cases h : step can s x with
    | ok s1 => simpa using ih ys s1
    | trap => rfl
    | ub => rfl

theorem knows_run {can : Bytes → Bool} : ∀ (ops past : List Op) (s s' : State), Knows past s → run can ops s = .ok s' →
    Knows (past ++ ops) s' := by
  intro ops
  induction ops with
  | nil =>
    intro past s s' hk h
    simp only [run, Res.ok.injEq] at h
    subst h
    simpa using hk
  | cons op ops ih =>
    intro past s s' hk h
    rw [run, Res.bind_eq_ok] at h
    obtain ⟨s1, h1, h2⟩ := h
    have := ih _ s1 s' (knows_step hk h1) h2
    simpa using this

theorem unused_run {can : Bytes → Bool} {f : Bytes} : ∀ (ops : List Op) (s s' : State), Unused f s → run can ops s = .ok s' →
    (∀ op ∈ ops, opens f op = false) → Unused f s' := by
  intro ops
  induction ops with
  | nil =>
    intro s s' hk h _
    simp only [run, Res.ok.injEq] at h
    subst h
    exact hk
  | cons op ops ih =>
    intro s s' hk h ho
    rw [run, Res.bind_eq_ok] at h
    obtain ⟨s1, h1, h2⟩ := h
    exact ih s1 s' (unused_step hk h1 (ho op (by simp))) h2 (fun o h => ho o (by simp [h]))

end Clr.Logging
