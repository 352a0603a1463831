import Verif.Props.ExportLogSpec
import Verif.Props.Export2
import Verif.Proofs.Logging
import Verif.Props.FileUtils
import Verif.Proofs.TextDB
/-
Lemmas for C92.
-/
namespace Clr.ExportLog
open Clr Clr.Logging

/-! ### Numbers -/

theorem digits_dec (v : Nat) : Digits v (FileUtils.decLoop v []) := by
  refine ⟨TextDB.decLoop_chars v [] (by simp), ?_, TextDB.decLoop_ne v, ?_⟩
  · induction v using Nat.strongRecOn with
    | _ v ih =>
      rw [FileUtils.decLoop]
      split
      · show 10 * 0 + ((UInt8.ofNat (48 + v % 10)).toNat - 48) = v
        rw [FileUtils.digit_toNat]
        omega
      · rw [FileUtils.decLoop_append]
        have := ih (v / 10) (by omega)
        unfold digitsValue at this ⊢
        rw [List.foldl_append, this]
        show 10 * (v / 10) + ((UInt8.ofNat (48 + v % 10)).toNat - 48) = v
        rw [FileUtils.digit_toNat]
        omega
  · have key : ∀ v, 0 < v → (FileUtils.decLoop v []).head? ≠ some 48 := by
      intro v
      induction v using Nat.strongRecOn with
      | _ v ih =>
        intro hv
        rw [FileUtils.decLoop]
        split
        · intro h
          have : UInt8.ofNat (48 + v % 10) = 48 := by simpa using h
          have := congrArg UInt8.toNat this
          rw [FileUtils.digit_toNat] at this
          have : (48 : UInt8).toNat = 48 := rfl
          omega
        · rw [FileUtils.decLoop_append]
          obtain ⟨c, cs, h, _⟩ := FileUtils.decLoop_head (v / 10) []
          have := ih (v / 10) (by omega) (by omega)
          rw [h] at this ⊢
          simpa using this
    intro h
    rcases Nat.eq_zero_or_pos v with rfl | hv
    · rw [FileUtils.decLoop]; rfl
    · exact absurd h (key v hv)

theorem decimal_dec (i : Int) : Decimal i (dec i) := by
  unfold dec
  split
  · exact .inr ⟨by omega, _, rfl, digits_dec _⟩
  · exact .inl ⟨by omega, digits_dec _⟩

theorem dec_length (v : BitVec 32) : (dec v.toInt).length ≤ 11 := by
  have h1 := BitVec.le_toInt v
  have h2 := BitVec.toInt_lt (x := v)
  unfold dec
  split
  · have := FileUtils.decLoop_length (-v.toInt).toNat 9 (by omega)
    simp; omega
  · have := FileUtils.decLoop_length v.toInt.toNat 9 (by omega)
    omega

/-! ### Writing -/

/-- Some calls write a text and leave the indentation as it is. -/
inductive Writes (P : Printer) : Nat → List Op → Bytes → Prop
  | nil (d : Nat) : Writes P d [] []
  | line (d : Nat) (t : Bytes) (hd : d < 128) (ht : t.length ≤ 511) : Writes P d [line P t] (tabs d ++ t)
  | more (d : Nat) (t : Bytes) (ht : t.length ≤ 511) : Writes P d [more P t] t
  | append (d : Nat) (a b : List Op) (t u : Bytes) (ha : Writes P d a t) (hb : Writes P d b u) : Writes P d (a ++ b) (t ++ u)
  | inner (d : Nat) (a : List Op) (t : Bytes) (hd : d < 128) (ha : Writes P (d + 1) a t) : Writes P d (inner P a) t

theorem Writes.cons {P : Printer} {d : Nat} {op : Op} {ops : List Op} {t u v : Bytes} (h : Writes P d [op] t) (hs : Writes P d ops u)
    (e : v = t ++ u) : Writes P d (op :: ops) v := by
  subst e
  exact .append d [op] ops t u h hs

theorem Writes.app {P : Printer} {d : Nat} {a b : List Op} {t u v : Bytes} (h : Writes P d a t) (hs : Writes P d b u)
    (e : v = t ++ u) : Writes P d (a ++ b) v := by
  subst e
  exact .append d a b t u h hs

/-- The log writes at the end of a file, with indentation `d`. -/
structure AtEnd (P : Printer) (f : Bytes) (fp d : Nat) (c : Bytes) (s : State) : Prop where
  indent : (s.sets P.name.addr).indent = d
  stream : (s.sets P.name.addr).streams 0 = [.file (some fp)]
  handle : s.world.handles[fp]? = some ⟨f, c.length⟩
  file : s.world.files f = some c

/-- What is left alone. -/
def Kept (f : Bytes) (s s' : State) : Prop := s'.world.stdout = s.world.stdout ∧ ∀ g, g ≠ f → s'.world.files g = s.world.files g

theorem Kept.trans {f : Bytes} {s s' s'' : State} (h : Kept f s s') (h' : Kept f s' s'') : Kept f s s'' :=
  ⟨h'.1.trans h.1, fun g hg => (h'.2 g hg).trans (h.2 g hg)⟩

theorem fputs_other {w : World} {fp : Nat} {f c : Bytes} (h : w.handles[fp]? = some ⟨f, c.length⟩) (t : Bytes) (g : Bytes) (hg : g ≠ f) :
    (fputs w fp t).files g = w.files g := by
  unfold fputs
  rw [h]
  simp [hg]

theorem log_more {P : Printer} {f : Bytes} {fp d : Nat} {c : Bytes} {s : State} (h : AtEnd P f fp d c s) (t : Bytes) (ht : t.length ≤ 511) :
    ∃ s', Logging.log s P.name 1 false t = .ok s' ∧ AtEnd P f fp d (c ++ t) s' ∧ Kept f s s' := by
  unfold Logging.log prefixFor
  simp only [Bool.false_eq_true, if_false, Res.bind_ok]
  rw [show log2 1 = some 0 from by decide +kernel]
  simp only
  rw [if_pos (by decide), h.stream, List.take_of_length_le ht]
  obtain ⟨h1, h2, _⟩ := fputs_append h.handle h.file t
  refine ⟨_, rfl, ⟨h.indent, h.stream, h1, h2⟩, fputs_stdout _ _ _, fun g hg => fputs_other h.handle t g hg⟩

theorem log_line {P : Printer} {f : Bytes} {fp d : Nat} {c : Bytes} {s : State} (h : AtEnd P f fp d c s) (t : Bytes) (hd : d < 128)
    (ht : t.length ≤ 511) :
    ∃ s', Logging.log s P.name 1 true t = .ok s' ∧ AtEnd P f fp d (c ++ (tabs d ++ t)) s' ∧ Kept f s s' := by
  unfold Logging.log prefixFor prefixOf
  simp only [if_true]
  rw [h.indent, if_pos (by omega)]
  simp only [Res.bind_ok]
  rw [show log2 1 = some 0 from by decide +kernel]
  simp only
  rw [if_pos (by decide), h.stream, List.take_of_length_le ht]
  obtain ⟨h1, h2, _⟩ := fputs_append h.handle h.file (tabs d)
  obtain ⟨h3, h4, _⟩ := fputs_append h1 h2 t
  rw [List.append_assoc] at h3 h4
  refine ⟨_, rfl, ⟨h.indent, h.stream, h3, h4⟩, ?_, fun g hg => ?_⟩
  · show (fputs (fputs s.world fp (tabs d)) fp t).stdout = _
    rw [fputs_stdout, fputs_stdout]
  · show (fputs (fputs s.world fp (tabs d)) fp t).files g = _
    rw [fputs_other h1 t g hg, fputs_other h.handle _ g hg]

theorem run_writes {can : Bytes → Bool} {P : Printer} {f : Bytes} {fp : Nat} : ∀ {d : Nat} {ops : List Op} {t : Bytes}, Writes P d ops t →
    ∀ {c : Bytes} {s : State}, AtEnd P f fp d c s → ∃ s', Logging.run can ops s = .ok s' ∧ AtEnd P f fp d (c ++ t) s' ∧ Kept f s s' := by
  intro d ops t h
  induction h with
  | nil d => intro c s h; exact ⟨s, rfl, by simpa using h, rfl, fun _ _ => rfl⟩
  | line d t hd ht =>
    intro c s h
    obtain ⟨s', h1, h2, h3⟩ := log_line h t hd ht
    exact ⟨s', by rw [run, line, step, h1]; rfl, h2, h3⟩
  | more d t ht =>
    intro c s h
    obtain ⟨s', h1, h2, h3⟩ := log_more h t ht
    exact ⟨s', by rw [run, more, step, h1]; rfl, h2, h3⟩
  | append d a b t u ha hb iha ihb =>
    intro c s h
    obtain ⟨s1, r1, e1, k1⟩ := iha h
    obtain ⟨s2, r2, e2, k2⟩ := ihb e1
    exact ⟨s2, by rw [run_append, r1]; exact r2, by rw [← List.append_assoc]; exact e2, k1.trans k2⟩
  | inner d a t hd ha ih =>
    intro c s h
    have hpush : AtEnd P f fp (d + 1) c (setIndent s P.name.addr ((s.sets P.name.addr).indent + 1)) :=
      ⟨by rw [setIndent_indent, if_pos rfl, h.indent]; omega, by rw [setIndent_streams]; exact h.stream, h.handle, h.file⟩
    obtain ⟨s1, r1, e1, k1⟩ := ih hpush
    have hpop : AtEnd P f fp d (c ++ t) (setIndent s1 P.name.addr ((s1.sets P.name.addr).indent - 1)) :=
      ⟨by rw [setIndent_indent, if_pos rfl, e1.indent]; omega, by rw [setIndent_streams]; exact e1.stream, e1.handle, e1.file⟩
    refine ⟨_, ?_, hpop, k1⟩
    rw [inner, run, step, pushIndent, if_pos (by rw [h.indent]; omega)]
    simp only [Res.bind_ok]
    rw [run_append, r1]
    show run can [.pop P.name] s1 = _
    rw [run, step, popIndent, if_pos (by rw [e1.indent]; omega)]
    rfl

/-- What `LOG_TO_FILE` sets up. -/
theorem set_atEnd {can : Bytes → Bool} {P : Printer} {f : Bytes} (hcan : can f = true) {s : State} (h0 : (s.sets P.name.addr).indent = 0) :
    ∃ fp, AtEnd P f fp 0 [] (setToFile can s P.name 7 f) ∧ Kept f s (setToFile can s P.name 7 f) := by
  refine ⟨s.world.handles.length + 2, ⟨?_, ?_, ?_, ?_⟩, ?_, ?_⟩
  · rw [(setToFile_spec can s P.name 7 f).2.1, h0]; rfl
  all_goals
    unfold setToFile
    rw [show tagBits = 31 from rfl]
    show _
  · simp [fileLoop, Nat.testBit, fopenW, hcan, setStreams_streams]
  · simp [fileLoop, Nat.testBit, fopenW, hcan]
  · simp [fileLoop, Nat.testBit, fopenW, hcan]
  · simp [fileLoop, Nat.testBit, fopenW, hcan]
  · intro g hg
    simp [fileLoop, Nat.testBit, fopenW, hcan, hg]

/-- The log has no file. -/
structure Nowhere (P : Printer) (d : Nat) (s : State) : Prop where
  indent : (s.sets P.name.addr).indent = d
  stream : (s.sets P.name.addr).streams 0 = [.file none]

theorem run_nowhere {can : Bytes → Bool} {P : Printer} : ∀ {d : Nat} {ops : List Op} {t : Bytes}, Writes P d ops t →
    ∀ {s : State}, Nowhere P d s → ∃ s', Logging.run can ops s = .ok s' ∧ s'.world = s.world := by
  have key : ∀ {d : Nat} {ops : List Op} {t : Bytes}, Writes P d ops t →
      ∀ {s : State}, Nowhere P d s → ∃ s', Logging.run can ops s = .ok s' ∧ Nowhere P d s' ∧ s'.world = s.world := by
    intro d ops t h
    induction h with
    | nil d => intro s h; exact ⟨s, rfl, h, rfl⟩
    | line d t hd ht =>
      intro s h
      rw [run, line, step, Logging.log, prefixFor, prefixOf]
      simp only [if_true]
      rw [h.indent, if_pos (by omega)]
      simp only [Res.bind_ok]
      rw [show log2 1 = some 0 from by decide +kernel]
      simp only
      rw [if_pos (by decide), h.stream]
      exact ⟨_, rfl, ⟨h.indent, h.stream⟩, rfl⟩
    | more d t ht =>
      intro s h
      rw [run, more, step, Logging.log, prefixFor]
      simp only [Bool.false_eq_true, if_false, Res.bind_ok]
      rw [show log2 1 = some 0 from by decide +kernel]
      simp only
      rw [if_pos (by decide), h.stream]
      exact ⟨_, rfl, ⟨h.indent, h.stream⟩, rfl⟩
    | append d a b t u ha hb iha ihb =>
      intro s h
      obtain ⟨s1, r1, e1, k1⟩ := iha h
      obtain ⟨s2, r2, e2, k2⟩ := ihb e1
      exact ⟨s2, by rw [run_append, r1]; exact r2, e2, k2.trans k1⟩
    | inner d a t hd ha ih =>
      intro s h
      have hpush : Nowhere P (d + 1) (setIndent s P.name.addr ((s.sets P.name.addr).indent + 1)) :=
        ⟨by rw [setIndent_indent, if_pos rfl, h.indent]; omega, by rw [setIndent_streams]; exact h.stream⟩
      obtain ⟨s1, r1, e1, k1⟩ := ih hpush
      have hpop : Nowhere P d (setIndent s1 P.name.addr ((s1.sets P.name.addr).indent - 1)) :=
        ⟨by rw [setIndent_indent, if_pos rfl, e1.indent]; omega, by rw [setIndent_streams]; exact e1.stream⟩
      refine ⟨_, ?_, hpop, k1⟩
      rw [inner, run, step, pushIndent, if_pos (by rw [h.indent]; omega)]
      simp only [Res.bind_ok]
      rw [run_append, r1]
      show run can [.pop P.name] s1 = _
      rw [run, step, popIndent, if_pos (by rw [e1.indent]; omega)]
      rfl
  intro d ops t h s hs
  obtain ⟨s', r, _, k⟩ := key h hs
  exact ⟨s', r, k⟩

theorem set_nowhere {can : Bytes → Bool} {P : Printer} {f : Bytes} (hcan : can f = false) {s : State} (h0 : (s.sets P.name.addr).indent = 0) :
    Nowhere P 0 (setToFile can s P.name 7 f) ∧ (setToFile can s P.name 7 f).world = s.world := by
  refine ⟨⟨?_, ?_⟩, ?_⟩
  · rw [(setToFile_spec can s P.name 7 f).2.1, h0]; rfl
  all_goals
    unfold setToFile
    rw [show tagBits = 31 from rfl]
  · simp [fileLoop, Nat.testBit, fopenW, hcan, setStreams_streams]
  · simp [fileLoop, Nat.testBit, fopenW, hcan]

end Clr.ExportLog
