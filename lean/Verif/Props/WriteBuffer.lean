import Verif.Model.WriteBuffer
/-!
Properties C25 and C26: write and read buffers.
-/
namespace Clr.Buffer

/-! ### Specification: the contents as a byte string -/

/-- A cell that allocation exposes without writing has no specified value. -/
def unknown (n : Nat) : Cells := List.replicate n none

/-- What each call does to the contents. -/
def specStep (s : Cells) : Op → Cells
  | .write bs => s ++ bs.map some
  | .writeStr t => s ++ (t.takeWhile (· != 0)).map some
  | .writeChar c => s ++ [some c]
  | .alloc n => s ++ unknown n
  | .reset => []
  | .seek k =>
    let p := ((s.length : Int) + k).toNat
    s.take p ++ unknown (p - s.length)

/-- The buffer shows what the specification says: same length, and every specified byte. -/
def Shows (c s : Cells) : Prop :=
  c.length = s.length ∧ ∀ (i : Nat) (v : UInt8), s[i]? = some (some v) → c[i]? = some (some v)

/-- The calls are legal: strings are terminated, and the contents never exceed two thirds of 4 GiB. -/
def Legal : Cells → List Op → Prop
  | _, [] => True
  | s, op :: ops =>
    (match op with | .writeStr t => (0 : UInt8) ∈ t | _ => True) ∧
    3 * (specStep s op).length ≤ 2 ^ 33 ∧ Legal (specStep s op) ops

def specRun (s : Cells) (ops : List Op) : Cells := ops.foldl specStep s

/-! ### Proofs -/

/-- `growLoop` from a capacity of at least 2 ends with a sufficient capacity and does not wrap. -/
theorem growLoop_ends (need : Nat) (hneed : 3 * need ≤ 2 ^ 33) (n c : Nat) (hc : 2 ≤ c)
    (hc32 : c < 2 ^ 32) (hn : need < c + n) (hn0 : 0 < n) :
    ∃ r, growLoop need n c = some r ∧ need ≤ r ∧ c ≤ r ∧ r < 2 ^ 32 := by
  induction n generalizing c with
  | zero => omega
  | succ n ih =>
    unfold growLoop
    by_cases h : need > c
    · rw [if_pos h]
      have hlt : c + c / 2 < 2 ^ 32 := by omega
      rw [Nat.mod_eq_of_lt hlt]
      obtain ⟨r, h1, h2, h3, h4⟩ := ih (c + c / 2) (by omega) hlt (by omega) (by omega)
      exact ⟨r, h1, h2, by omega, h4⟩
    · rw [if_neg h]
      exact ⟨c, rfl, by omega, by omega, hc32⟩

/-- Invariant of reachable states. -/
structure Inv (b : Buf) (s : Cells) : Prop where
  pos : b.pos ≤ b.cap
  cap : b.data = none ∨ (2 ≤ b.cap ∧ b.cap < 2 ^ 32)
  bound : 3 * s.length ≤ 2 ^ 33
  shows : Shows b.contents s

theorem cells_length (b : Buf) : b.cells.length = b.cap := by
  unfold Buf.cells Buf.cap
  cases b.data <;> rfl

theorem contents_length (b : Buf) (h : b.pos ≤ b.cap) : b.contents.length = b.pos := by
  unfold Buf.contents
  rw [List.length_take, cells_length]
  omega

theorem Inv.len {b : Buf} {s : Cells} (h : Inv b s) : s.length = b.pos := by
  rw [← h.shows.1, contents_length b h.pos]

theorem shows_append {c s c' s' : Cells} (h : Shows c s) (h' : Shows c' s') :
    Shows (c ++ c') (s ++ s') := by
  refine ⟨by simp [h.1, h'.1], ?_⟩
  intro i v hi
  rw [List.getElem?_append] at hi ⊢
  rw [h.1]
  split at hi
  · rename_i hlt; rw [if_pos hlt]; exact h.2 i v hi
  · rename_i hlt; rw [if_neg hlt]; exact h'.2 _ v hi

theorem shows_unknown (c : Cells) (n : Nat) (h : c.length = n) : Shows c (unknown n) := by
  refine ⟨by simp [unknown, h], ?_⟩
  intro i v hi
  rw [unknown, List.getElem?_replicate] at hi
  split at hi <;> cases hi

theorem shows_refl (c : Cells) : Shows c c := ⟨rfl, fun _ _ h => h⟩

theorem shows_take {c s : Cells} (h : Shows c s) (n : Nat) : Shows (c.take n) (s.take n) := by
  refine ⟨by simp [h.1], ?_⟩
  intro i v hi
  rw [List.getElem?_take] at hi ⊢
  split at hi
  · rename_i hlt; rw [if_pos hlt]; exact h.2 i v hi
  · cases hi

/-- The state after `Alloc`: enough room, old contents kept. -/
theorem alloc_spec {b : Buf} {s : Cells} (h : Inv b s) (n : Nat)
    (hn : 3 * (s.length + n) ≤ 2 ^ 33) :
    ∃ b', alloc b n = some (b.pos, b') ∧ b'.pos = b.pos + n ∧ b'.pos ≤ b'.cap ∧
      (b'.data = none ∨ (2 ≤ b'.cap ∧ b'.cap < 2 ^ 32)) ∧ b'.cells.take b.pos = b.contents := by
  have hlen := h.len
  unfold alloc
  by_cases hgrow : b.pos + n > b.cap
  · rw [if_pos hgrow]
    have hstart : ∃ st, startCap b = st ∧ 2 ≤ st ∧ st < 2 ^ 32 := by
      unfold startCap
      cases hd : b.data with
      | none => exact ⟨32, rfl, by omega, by omega⟩
      | some d =>
        rcases h.cap with hc | ⟨h1, h2⟩
        · rw [hd] at hc; cases hc
        · have : b.cap = d.length := by unfold Buf.cap; rw [hd]
          refine ⟨d.length % 2 ^ 32, rfl, ?_, Nat.mod_lt _ (by omega)⟩
          rw [Nat.mod_eq_of_lt (by omega)]; omega
    obtain ⟨st, hst, hst2, hst3⟩ := hstart
    have hneed : (b.pos % 2 ^ 32 + n) % 2 ^ 32 = b.pos + n := by
      rw [Nat.mod_eq_of_lt (a := b.pos) (by omega), Nat.mod_eq_of_lt (by omega)]
    obtain ⟨r, h1, h2, h3, h4⟩ := growLoop_ends (b.pos + n) (by omega) (b.pos + n + 1) st hst2 hst3
      (by omega) (by omega)
    simp only [hst, hneed, h1, Option.bind_eq_bind, Option.bind_some]
    have hcl : (b.cells.take b.pos).length = b.pos := contents_length b h.pos
    have hcap : (Buf.mk (some (List.take b.pos b.cells ++ List.replicate (r - b.pos) none))
        (b.pos + n)).cap = r := by
      show (List.take b.pos b.cells ++ List.replicate (r - b.pos) none).length = r
      rw [List.length_append, hcl, List.length_replicate]; omega
    refine ⟨_, rfl, rfl, ?_, Or.inr ?_, ?_⟩
    · rw [hcap]; exact h2
    · rw [hcap]; omega
    · show (List.take b.pos b.cells ++ List.replicate (r - b.pos) none).take b.pos = _
      rw [List.take_append_of_le_length (by omega), List.take_take, Nat.min_self]
      rfl
  · rw [if_neg hgrow]
    exact ⟨_, rfl, rfl, by show b.pos + n ≤ b.cap; omega, h.cap, rfl⟩

theorem poke_spec (b : Buf) (off : Nat) (bs : Bytes) (h : b.pos ≤ b.cap) (hp : b.pos = off + bs.length) :
    ∃ b', poke b off bs = .ok b' ∧ b'.pos = b.pos ∧ b'.cap = b.cap ∧ b'.data.isSome = b.data.isSome ∧
      b'.contents = b.cells.take off ++ bs.map some := by
  unfold poke
  rw [if_pos (by omega)]
  cases hd : b.data with
  | none =>
    have : b.cap = 0 := by unfold Buf.cap; rw [hd]
    have hbs : bs = [] := List.length_eq_zero_iff.mp (by omega)
    refine ⟨b, rfl, rfl, rfl, by rw [hd], ?_⟩
    unfold Buf.contents Buf.cells
    rw [hd, hbs]; simp
  | some d =>
    have hcap : b.cap = d.length := by unfold Buf.cap; rw [hd]
    have hcells : b.cells = d := by unfold Buf.cells; rw [hd]
    refine ⟨_, rfl, rfl, ?_, rfl, ?_⟩
    · show (d.take off ++ bs.map some ++ d.drop (off + bs.length)).length = b.cap
      simp; omega
    · show (d.take off ++ bs.map some ++ d.drop (off + bs.length)).take b.pos = _
      rw [hcells, List.take_append_of_le_length (by simp; omega), List.take_of_length_le (by simp; omega)]

theorem write_spec {b : Buf} {s : Cells} (h : Inv b s) (bs : Bytes)
    (hn : 3 * (s.length + bs.length) ≤ 2 ^ 33) :
    ∃ b', write b bs = some (.ok b') ∧ Inv b' (s ++ bs.map some) := by
  obtain ⟨b1, h1, h2, h3, h4, h5⟩ := alloc_spec h bs.length hn
  obtain ⟨b2, p1, p2, p3, p4, p5⟩ := poke_spec b1 b.pos bs h3 h2
  refine ⟨b2, by simp [write, h1, p1], by omega, ?_, by simpa using hn, ?_⟩
  · rcases h4 with h4 | h4
    · left
      rw [h4] at p4
      cases hd : b2.data with
      | none => rfl
      | some d => rw [hd] at p4; simp at p4
    · right; rw [p3]; exact h4
  · rw [p5, h5]
    exact shows_append h.shows (shows_refl _)

theorem step_spec {b : Buf} {s : Cells} (h : Inv b s) (op : Op)
    (hop : match op with | .writeStr t => (0 : UInt8) ∈ t | _ => True)
    (hn : 3 * (specStep s op).length ≤ 2 ^ 33) :
    (∃ b', step b op = some (.ok b') ∧ Inv b' (specStep s op)) ∨
    (step b op = some .trap ∧ ∃ k, op = .seek k ∧ ((b.pos : Int) + k < 0 ∨ (b.pos : Int) + k > b.cap)) := by
  have hlen := h.len
  cases op with
  | write bs => left; exact write_spec h bs (by simpa [specStep] using hn)
  | writeStr t =>
    left
    obtain ⟨b', h1, h2⟩ := write_spec h (t.takeWhile (· != 0)) (by simpa [specStep] using hn)
    refine ⟨b', ?_, h2⟩
    have hop' : (0 : UInt8) ∈ t := hop
    simp only [step, writeStr, if_pos hop']
    exact h1
  | writeChar c =>
    left
    have : writeChar b c = write b [c] := rfl
    simp only [step, this]
    exact write_spec h [c] (by simpa [specStep] using hn)
  | alloc n =>
    left
    obtain ⟨b1, h1, h2, h3, h4, h5⟩ := alloc_spec h n (by simpa [specStep, unknown] using hn)
    refine ⟨b1, by simp [step, h1], h3, h4, hn, ?_⟩
    have : b1.contents = b1.cells.take b.pos ++ (b1.cells.drop b.pos).take n := by
      unfold Buf.contents
      rw [h2, List.take_add]
    rw [this, h5]
    refine shows_append h.shows (shows_unknown _ _ ?_)
    have := cells_length b1
    simp; omega
  | reset =>
    left
    refine ⟨reset b, rfl, Nat.zero_le _, h.cap, by simp [specStep], ?_⟩
    show Shows (b.cells.take 0) []
    exact ⟨by simp, by simp⟩
  | seek k =>
    by_cases hk : 0 ≤ (b.pos : Int) + k ∧ (b.pos : Int) + k ≤ b.cap
    · left
      have hp : (((s.length : Int) + k).toNat) = ((b.pos : Int) + k).toNat := by rw [hlen]
      refine ⟨{ b with pos := ((b.pos : Int) + k).toNat }, by simp only [step, seekRel, if_pos hk], ?_, h.cap, hn, ?_⟩
      · show ((b.pos : Int) + k).toNat ≤ b.cap; omega
      · show Shows (b.cells.take ((b.pos : Int) + k).toNat) (s.take ((s.length : Int) + k).toNat ++
          unknown ((((s.length : Int) + k).toNat) - s.length))
        rw [hp, hlen]
        generalize hq : ((b.pos : Int) + k).toNat = q
        have hq' : q ≤ b.cap := by omega
        by_cases hle : q ≤ b.pos
        · rw [show q - b.pos = 0 by omega]
          simp only [unknown, List.replicate_zero, List.append_nil]
          have := shows_take h.shows q
          unfold Buf.contents at this
          rw [List.take_take, Nat.min_eq_left hle] at this
          exact this
        · rw [List.take_of_length_le (l := s) (by omega)]
          have : b.cells.take q = b.cells.take b.pos ++ (b.cells.drop b.pos).take (q - b.pos) := by
            rw [← List.take_add, show b.pos + (q - b.pos) = q by omega]
          rw [this]
          refine shows_append h.shows (shows_unknown _ _ ?_)
          have := cells_length b
          simp; omega
    · right
      exact ⟨by simp only [step, seekRel, if_neg hk], k, rfl, by omega⟩

theorem run_spec (ops : List Op) {b : Buf} {s : Cells} (h : Inv b s) (hl : Legal s ops) :
    (∃ b', run b ops = some (.ok b') ∧ Inv b' (specRun s ops)) ∨
    (run b ops = some .trap ∧ ∃ k, Op.seek k ∈ ops) := by
  induction ops generalizing b s with
  | nil => left; exact ⟨b, rfl, h⟩
  | cons op ops ih =>
    obtain ⟨h1, h2, h3⟩ := hl
    rcases step_spec h op h1 h2 with ⟨b', hb, hi⟩ | ⟨ht, k, rfl, _⟩
    · unfold run
      rw [hb]
      simp only
      rcases ih hi h3 with ⟨b2, r1, r2⟩ | ⟨r1, k, hk⟩
      · left; exact ⟨b2, r1, r2⟩
      · right; exact ⟨r1, k, by simp [hk]⟩
    · right
      unfold run
      rw [ht]
      exact ⟨rfl, k, by simp⟩

theorem inv_create (cap : Nat) (h2 : 2 ≤ cap) (h : cap < 2 ^ 32) : Inv (create cap) [] where
  pos := Nat.zero_le _
  cap := by
    right
    have : (create cap).cap = cap := List.length_replicate
    omega
  bound := by simp
  shows := ⟨by simp [create, Buf.contents], by simp⟩

theorem inv_default : Inv {} [] where
  pos := Nat.zero_le _
  cap := Or.inl rfl
  bound := by simp
  shows := ⟨by simp [Buf.contents], by simp⟩

/-- C25, for default-constructed buffers and every initial capacity except 0 and 1: after any
history of calls (contents up to two thirds of 4 GiB), either every call returned and the contents
are exactly what the specification says, or the history stopped at a seek's assertion. In particular
no call runs for ever and none writes outside the block.
Missing: initial capacities 0 and 1, where it is false (`C25_tiny_capacity_never_returns`), and
contents above 2/3 of 4 GiB, where sizes wrap (`C25_four_gigabytes_overflow`). -/
theorem C25_contents_partial (start : Buf)
    (hstart : start = {} ∨ ∃ cap, 2 ≤ cap ∧ cap < 2 ^ 32 ∧ start = create cap)
    (ops : List Op) (hl : Legal [] ops) :
    (∃ b, run start ops = some (.ok b) ∧ Shows b.contents (specRun [] ops) ∧
      b.contents.length = b.pos ∧ b.pos ≤ b.cap) ∨
    (run start ops = some .trap ∧ ∃ k, Op.seek k ∈ ops) := by
  have hinv : Inv start [] := by
    rcases hstart with rfl | ⟨cap, h1, h2, rfl⟩
    · exact inv_default
    · exact inv_create cap h1 h2
  rcases run_spec ops hinv hl with ⟨b, h1, h2⟩ | h
  · left; exact ⟨b, h1, h2.shows, contents_length b h2.pos, h2.pos⟩
  · right; exact h

/-- C25, the common case: writing byte strings one after another leaves their concatenation. -/
theorem C25_writes_concatenate_partial (start : Buf)
    (hstart : start = {} ∨ ∃ cap, 2 ≤ cap ∧ cap < 2 ^ 32 ∧ start = create cap)
    (bss : List Bytes) (hl : 3 * bss.flatten.length ≤ 2 ^ 33) :
    ∃ b, run start (bss.map .write) = some (.ok b) ∧ b.contents = bss.flatten.map some := by
  have key : ∀ (bss : List Bytes) (s : Bytes), 3 * (s.length + bss.flatten.length) ≤ 2 ^ 33 →
      Legal (s.map some) (bss.map .write) ∧
      specRun (s.map some) (bss.map .write) = (s ++ bss.flatten).map some := by
    intro bss
    induction bss with
    | nil => intro s _; exact ⟨trivial, by simp [specRun]⟩
    | cons b bss ih =>
      intro s hs
      simp only [List.flatten_cons, List.length_append] at hs
      have := ih (s ++ b) (by rw [List.length_append]; omega)
      refine ⟨⟨trivial, by simp only [specStep, List.length_append, List.length_map]; omega, ?_⟩, ?_⟩
      · simpa [specStep] using this.1
      · have h2 := this.2
        simpa [specRun, specStep] using h2
  obtain ⟨k1, k2⟩ := key bss [] (by simpa using hl)
  rcases C25_contents_partial start hstart (bss.map .write) (by simpa using k1) with
    ⟨b, h1, h2, h3, h4⟩ | ⟨_, k, hk⟩
  · refine ⟨b, h1, ?_⟩
    have e : specRun [] (bss.map .write) = bss.flatten.map some := by simpa using k2
    rw [e] at h2
    apply List.ext_getElem?
    intro i
    by_cases hi : i < bss.flatten.length
    · have : (bss.flatten.map some)[i]? = some (some bss.flatten[i]) := by
        rw [List.getElem?_map, List.getElem?_eq_getElem hi]; rfl
      rw [this, h2.2 i _ this]
    · have hl := h2.1
      rw [List.length_map] at hl
      rw [List.getElem?_eq_none (by omega), List.getElem?_eq_none (by rw [List.length_map]; omega)]
  · simp at hk

theorem growLoop_stuck (need c : Nat) (hc : c < 2) (hn : c < need) (n : Nat) : growLoop need n c = none := by
  induction n with
  | zero => rfl
  | succ n ih =>
    unfold growLoop
    rw [if_pos (by omega)]
    have : (c + c / 2) % 2 ^ 32 = c := by
      rcases Nat.lt_or_ge c 1 with h | h
      · have : c = 0 := by omega
        subst this; rfl
      · have : c = 1 := by omega
        subst this; rfl
    rw [this]; exact ih

/-- C25 fails for initial capacities 0 and 1: the growth loop adds `capacity / 2 = 0` for ever, so
the first write that does not fit never returns. -/
theorem C25_tiny_capacity_never_returns (cap : Nat) (hcap : cap < 2) (bs : Bytes)
    (h : cap < bs.length) (h2 : bs.length < 2 ^ 32) : run (create cap) [.write bs] = none := by
  have hc : (create cap).cap = cap := List.length_replicate
  have hneed : ((create cap).pos % 2 ^ 32 + bs.length) % 2 ^ 32 = bs.length := by
    show (0 % 2 ^ 32 + bs.length) % 2 ^ 32 = _
    rw [Nat.zero_mod, Nat.zero_add, Nat.mod_eq_of_lt h2]
  have hstart : startCap (create cap) = cap := by
    show (List.replicate cap none).length % 2 ^ 32 = cap
    rw [List.length_replicate, Nat.mod_eq_of_lt (by omega)]
  have ha : alloc (create cap) bs.length = none := by
    unfold alloc
    have hgt : (create cap).pos + bs.length > (create cap).cap := by
      rw [hc]; show 0 + bs.length > cap; omega
    rw [if_pos hgt]
    simp only [hneed]
    rw [hstart, growLoop_stuck _ cap hcap h]
    rfl
  simp [run, step, write, ha]

/-- C25, what the model's `none` stands for: from a capacity below 2 no number of iterations ends the
loop; from a capacity of at least 2 and for sizes that do not wrap, `need + 1` iterations do. -/
theorem C25_growth_ends_or_never (need c : Nat) (hneed : 3 * need ≤ 2 ^ 33) (hc : c < 2 ^ 32) :
    (c < 2 → c < need → ∀ n, growLoop need n c = none) ∧
    (2 ≤ c → ∃ r, growLoop need (need + 1) c = some r ∧ need ≤ r) := by
  constructor
  · intro h1 h2 n; exact growLoop_stuck need c h1 h2 n
  · intro h
    obtain ⟨r, h1, h2, _⟩ := growLoop_ends need hneed (need + 1) c h hc (by omega) (by omega)
    exact ⟨r, h1, h2⟩

/-- C25 fails when the contents reach 4 GiB: the 32-bit sum `write_pos + length` wraps, the block is
not enlarged and the write goes beyond it. -/
theorem C25_four_gigabytes_overflow (b : Buf) (d : Cells) (hd : b.data = some d)
    (hcap : d.length = 2 ^ 32 - 1) (hpos : b.pos = 2 ^ 32 - 1) (bs : Bytes) (hbs : bs.length = 2) :
    run b [.write bs] = some .ub := by
  have hc : b.cap = 2 ^ 32 - 1 := by unfold Buf.cap; rw [hd]; exact hcap
  have hcells : b.cells = d := by unfold Buf.cells; rw [hd]
  have ha : alloc b bs.length = some (b.pos, { data := some (d.take b.pos), pos := b.pos + 2 }) := by
    unfold alloc
    rw [if_pos (by omega), hbs, hcells, hpos]
    have : startCap b = 2 ^ 32 - 1 := by
      unfold startCap; rw [hd]; simp only [hcap]
    rw [this]
    have hg : growLoop 1 2 (2 ^ 32 - 1) = some (2 ^ 32 - 1) := by decide
    simp only [show ((2 ^ 32 - 1) % 2 ^ 32 + 2) % 2 ^ 32 = 1 by decide, hg, Option.bind_eq_bind, Option.bind_some]
    simp
  have hp : poke { data := some (d.take b.pos), pos := b.pos + 2 } b.pos bs = .ub := by
    unfold poke
    rw [if_neg]
    show ¬ (b.pos + bs.length ≤ (d.take b.pos).length)
    simp; omega
  simp [run, step, write, ha, hp]

/-- Non-vacuity: a history with growth, a reset, a seek back and an allocation. -/
def exampleOps : List Op :=
  [.write b!"hello", .writeChar 33, .seek (-3), .writeStr [120, 0, 121], .alloc 2, .reset, .write b!"ab"]

example : Legal [] exampleOps := by
  simp [exampleOps, Legal, specStep, unknown]
example : (run (create 2) exampleOps).map (fun r => r.map (·.contents)) =
    some (.ok [some 97, some 98]) := by decide +kernel
example : (run (create 2) (exampleOps.take 4)).map (fun r => r.map (·.contents)) =
    some (.ok (b!"helx".map some)) := by decide +kernel

/-! ### C26 -/

/-- C26 for histories that never seek before the start: every call stays inside the data or stops at
the assertion. Missing: backwards seeks beyond the start, for which it is false
(`C26_seek_underflow_reads_outside`). -/
theorem C26_reads_inside_partial (data : Bytes) (ops : List ROp)
    (hfwd : ∀ k, ROp.seek k ∈ ops → 0 ≤ k) :
    rrun { data := data } ops ≠ .ub ∧
    ∀ r, rrun { data := data } ops = .ok r → r.data = data ∧ 0 ≤ r.pos ∧ r.pos ≤ data.length := by
  have key : ∀ (ops : List ROp) (r : RBuf), (∀ k, ROp.seek k ∈ ops → 0 ≤ k) → r.data = data →
      0 ≤ r.pos → r.pos ≤ data.length →
      rrun r ops ≠ .ub ∧ ∀ r', rrun r ops = .ok r' → r'.data = data ∧ 0 ≤ r'.pos ∧ r'.pos ≤ data.length := by
    intro ops
    induction ops with
    | nil =>
      intro r _ h1 h2 h3
      refine ⟨by simp [rrun], ?_⟩
      intro r' h
      simp only [rrun, Res.ok.injEq] at h
      subst h
      exact ⟨h1, h2, h3⟩
    | cons op ops ih =>
      intro r hf h1 h2 h3
      have hf' : ∀ k, ROp.seek k ∈ ops → 0 ≤ k := fun k hk => hf k (by simp [hk])
      cases op with
      | read n =>
        by_cases hn : r.pos + n ≤ r.data.length
        · have : rrun r (.read n :: ops) = rrun { r with pos := r.pos + n } ops := by
            simp [rrun, rstep, RBuf.read, hn, h2]
          rw [this]
          exact ih _ hf' h1 (by show 0 ≤ r.pos + n; omega) (by show r.pos + n ≤ _; rw [← h1]; exact hn)
        · simp [rrun, rstep, RBuf.read, hn]
      | readAt p =>
        by_cases hn : p ≤ r.data.length
        · have : rrun r (.readAt p :: ops) = rrun r ops := by simp [rrun, rstep, RBuf.readAt, hn]
          rw [this]; exact ih r hf' h1 h2 h3
        · simp [rrun, rstep, RBuf.readAt, hn]
      | seek k =>
        have hk := hf k (by simp)
        by_cases hn : r.pos + k ≤ r.data.length
        · have : rrun r (.seek k :: ops) = rrun { r with pos := r.pos + k } ops := by
            simp [rrun, rstep, RBuf.seekRel, hn]
          rw [this]
          exact ih _ hf' h1 (by show 0 ≤ r.pos + k; omega) (by show r.pos + k ≤ _; rw [← h1]; exact hn)
        · simp [rrun, rstep, RBuf.seekRel, hn]
  exact key ops { data := data } hfwd rfl (Int.le_refl _) (Int.natCast_nonneg _)

/-- C26, what is read: reading gives exactly the next bytes. -/
theorem C26_read_exact (data : Bytes) (p n : Nat) (h : p + n ≤ data.length) :
    RBuf.read { data := data, pos := p } n =
      .ok ((data.drop p).take n, { data := data, pos := (p : Int) + n }) := by
  have h1 : ((p : Int) + n ≤ data.length) := by omega
  simp [RBuf.read, h1, Int.natCast_nonneg]

/-- C26 fails in general: a seek to before the start is accepted, and the next read is outside. -/
theorem C26_seek_underflow_reads_outside (data : Bytes) (k n : Nat) (hk : 0 < k) (hn : 0 < n)
    (hnk : n ≤ k) : rrun { data := data } [.seek (-(k : Int)), .read n] = .ub := by
  have h1 : (-(k : Int) ≤ data.length) := by omega
  have h2 : (-(k : Int) + n ≤ data.length) := by omega
  have h3 : ¬ (k = 0) := by omega
  have h4 : ¬ (n = 0) := by omega
  simp [rrun, rstep, RBuf.seekRel, RBuf.read, h1, h2, h3, h4]

/-- Write buffer to read buffer: what was written is what is read back. -/
theorem C26_reads_back_what_was_written (bss : List Bytes) (hl : 3 * bss.flatten.length ≤ 2 ^ 33) :
    ∃ b, run {} (bss.map .write) = some (.ok b) ∧
      (ofWriteBuffer b).read bss.flatten.length =
        .ok (bss.flatten, { data := bss.flatten, pos := bss.flatten.length }) := by
  obtain ⟨b, h1, h2⟩ := C25_writes_concatenate_partial {} (Or.inl rfl) bss hl
  refine ⟨b, h1, ?_⟩
  have hm : (bss.flatten.map some).map (·.getD (0 : UInt8)) = bss.flatten := by
    rw [List.map_map]
    have : ((fun (x : Option UInt8) => x.getD 0) ∘ some) = id := rfl
    rw [this, List.map_id]
  simp only [ofWriteBuffer, h2, hm]
  have := C26_read_exact bss.flatten 0 bss.flatten.length (by omega)
  rw [List.drop_zero, List.take_of_length_le (Nat.le_refl _)] at this
  simpa only [Int.ofNat_zero, Int.zero_add, Int.natCast_zero] using this

example : ∀ k, ROp.seek k ∈ [ROp.read 2, .seek 1, .readAt 3] → 0 ≤ k := by simp
example : rrun { data := b!"abcdef" } [ROp.read 2, .seek 1, .readAt 3] = .ok ⟨b!"abcdef", 3⟩ := by
  decide +kernel

end Clr.Buffer
