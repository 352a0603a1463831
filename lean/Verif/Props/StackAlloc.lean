import Verif.Model.StackAlloc
/-!
Property C23: bump allocations.
-/
namespace Clr.StackAlloc

/-- The block lies inside an arena of the given size. -/
def Inside (size : Nat) (b : Block) : Prop := b.start + b.len ≤ size

/-- Two blocks share no byte. -/
def Disjoint (b c : Block) : Prop := ∀ x, ¬ (b.start ≤ x ∧ x < b.start + b.len ∧ c.start ≤ x ∧ x < c.start + c.len)

/-- The bytes asked for. -/
def total (rs : List Request) : Nat := (rs.map fun r => r.count * r.elem).sum

/-- C23 for requests that ask for less than 4 GiB together: if no assertion fires, the blocks have the
requested sizes, lie inside the arena, are pairwise disjoint and nothing undefined happens.
Missing: larger requests, for which the offset wraps (`C23_wrapping_request_overlaps`). -/
theorem C23_blocks_disjoint_partial (size : Nat) (rs : List Request) (h : total rs < 2 ^ 32) :
    run { size := size } rs ≠ .ub ∧
    ∀ bs, run { size := size } rs = .ok bs →
      bs.map (·.len) = rs.map (fun r => r.count * r.elem) ∧
      (∀ b ∈ bs, Inside size b) ∧ bs.Pairwise Disjoint := by
  have key : ∀ (rs : List Request) (a : Arena), a.size = size → a.offset ≤ size →
      a.offset + total rs < 2 ^ 32 →
      run a rs ≠ .ub ∧ ∀ bs, run a rs = .ok bs →
        bs.map (·.len) = rs.map (fun r => r.count * r.elem) ∧
        (∀ b ∈ bs, a.offset ≤ b.start ∧ Inside size b) ∧ bs.Pairwise Disjoint := by
    intro rs
    induction rs with
    | nil =>
      intro a _ _ _
      refine ⟨by simp [run], ?_⟩
      intro bs hbs
      simp only [run, Res.ok.injEq] at hbs
      subst hbs
      simp
    | cons r rs ih =>
      intro a h1 h2 h3
      simp only [total, List.map_cons, List.sum_cons] at h3
      have hmod : (a.offset + r.count * r.elem) % 2 ^ 32 = a.offset + r.count * r.elem :=
        Nat.mod_eq_of_lt (by omega)
      by_cases hfit : a.offset + r.count * r.elem ≤ a.size
      · have hal : alloc a r = .ok (⟨a.offset, r.count * r.elem⟩, { a with offset := a.offset + r.count * r.elem }) := by
          simp only [alloc, hmod, if_pos hfit]
          rw [if_neg]
          omega
        obtain ⟨i1, i2⟩ := ih { a with offset := a.offset + r.count * r.elem } h1
          (by show a.offset + r.count * r.elem ≤ size; omega)
          (by show a.offset + r.count * r.elem + total rs < 2 ^ 32; unfold total; omega)
        constructor
        · intro hub
          rw [run, hal] at hub
          simp only [Res.bind_ok] at hub
          cases hr : run { a with offset := a.offset + r.count * r.elem } rs with
          | ok bs => rw [hr] at hub; cases hub
          | trap => rw [hr] at hub; cases hub
          | ub => exact i1 hr
        · intro bs hbs
          rw [run, hal] at hbs
          simp only [Res.bind_ok, Res.bind_eq_ok] at hbs
          obtain ⟨bs', hb', hpure⟩ := hbs
          simp only [Res.pure_eq, Res.ok.injEq] at hpure
          subst hpure
          obtain ⟨j1, j2, j3⟩ := i2 bs' hb'
          refine ⟨by simp [j1], ?_, ?_⟩
          · intro b hb
            rcases List.mem_cons.mp hb with rfl | hb
            · exact ⟨Nat.le_refl _, by unfold Inside; simp only; omega⟩
            · have := j2 b hb
              simp only at this
              exact ⟨by omega, this.2⟩
          · rw [List.pairwise_cons]
            refine ⟨?_, j3⟩
            intro c hc x hx
            have := (j2 c hc).1
            simp only at this hx
            omega
      · have hal : alloc a r = .trap := by
          simp only [alloc, hmod, if_neg hfit]
        constructor
        · rw [run, hal]; intro hx; cases hx
        · intro bs hbs; rw [run, hal] at hbs; cases hbs
  obtain ⟨k1, k2⟩ := key rs { size := size } rfl (Nat.zero_le _) (by simpa using h)
  refine ⟨k1, ?_⟩
  intro bs hbs
  obtain ⟨j1, j2, j3⟩ := k2 bs hbs
  exact ⟨j1, fun b hb => (j2 b hb).2, j3⟩

/-- C23, the assertion fires exactly when the requests do not fit (requests below 4 GiB). -/
theorem C23_assertion_iff_too_big (size : Nat) (rs : List Request) (h : total rs < 2 ^ 32) :
    (∃ bs, run { size := size } rs = .ok bs) ↔ total rs ≤ size := by
  have key : ∀ (rs : List Request) (a : Arena), a.size = size → a.offset ≤ size →
      a.offset + total rs < 2 ^ 32 →
      ((∃ bs, run a rs = .ok bs) ↔ a.offset + total rs ≤ size) := by
    intro rs
    induction rs with
    | nil =>
      intro a h1 h2 _
      simp [run, total, h2]
    | cons r rs ih =>
      intro a h1 h2 h3
      simp only [total, List.map_cons, List.sum_cons] at h3
      have hmod : (a.offset + r.count * r.elem) % 2 ^ 32 = a.offset + r.count * r.elem :=
        Nat.mod_eq_of_lt (by omega)
      have ht : total (r :: rs) = r.count * r.elem + total rs := by simp [total]
      rw [ht]
      by_cases hfit : a.offset + r.count * r.elem ≤ a.size
      · have hal : alloc a r = .ok (⟨a.offset, r.count * r.elem⟩, { a with offset := a.offset + r.count * r.elem }) := by
          simp only [alloc, hmod, if_pos hfit]
          rw [if_neg]
          omega
        have := ih { a with offset := a.offset + r.count * r.elem } h1
          (by show a.offset + r.count * r.elem ≤ size; omega)
          (by show a.offset + r.count * r.elem + total rs < 2 ^ 32; unfold total; omega)
        rw [show a.offset + (r.count * r.elem + total rs) = a.offset + r.count * r.elem + total rs by omega]
        simp only at this
        rw [← this]
        constructor
        · rintro ⟨bs, hbs⟩
          rw [run, hal] at hbs
          simp only [Res.bind_ok, Res.bind_eq_ok] at hbs
          obtain ⟨bs', hb', _⟩ := hbs
          exact ⟨bs', hb'⟩
        · rintro ⟨bs, hbs⟩
          exact ⟨_, by rw [run, hal]; simp only [Res.bind_ok, hbs]; rfl⟩
      · constructor
        · rintro ⟨bs, hbs⟩
          have hal : alloc a r = .trap := by simp only [alloc, hmod, if_neg hfit]
          rw [run, hal] at hbs; cases hbs
        · intro hle; omega
  have := key rs { size := size } rfl (Nat.zero_le _) (by simpa using h)
  simpa using this

/-- C23 fails when a request wraps the 32-bit offset: no assertion fires although the block lies
outside the arena and overlaps the next one. -/
theorem C23_wrapping_request_overlaps :
    ∃ (size : Nat) (rs : List Request) (bs : List Block), run { size := size } rs = .ok bs ∧
      ¬ (∀ b ∈ bs, Inside size b) ∧ ¬ bs.Pairwise Disjoint := by
  refine ⟨100, [⟨1, 4, false⟩, ⟨2 ^ 30, 4, false⟩, ⟨1, 4, false⟩],
    [⟨0, 4⟩, ⟨4, 2 ^ 32⟩, ⟨4, 4⟩], by decide +kernel, ?_, ?_⟩
  · intro h
    have := h ⟨4, 2 ^ 32⟩ (by simp)
    unfold Inside at this
    simp at this
  · intro h
    have := (List.pairwise_cons.mp (List.pairwise_cons.mp h).2).1 ⟨4, 4⟩ (by simp) 5
    simp at this

/-- Non-vacuity. -/
example : run { size := 100 } [⟨3, 8, true⟩, ⟨0, 16, true⟩, ⟨5, 4, false⟩] =
    .ok [⟨0, 24⟩, ⟨24, 0⟩, ⟨24, 20⟩] := by decide +kernel
example : run { size := 10 } [⟨3, 8, true⟩] = .trap := by decide +kernel

end Clr.StackAlloc
