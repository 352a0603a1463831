import Verif.Model.JSONSpec

/-! The order in which the fields of a class are saved. -/
namespace Clr.JSON

/-- A field that can be picked when fields up to offset `last` are done. -/
def Cand (e : Env) (last : Int) (s : Saver) : Prop := e.skips s.info.flags = false ∧ last < s.info.offset

theorem pick_spec (e : Env) (last : Int) (l : List Saver) (hl : ∀ s ∈ l, s.info.offset < 0x7FFFFFFF)
    (best : Option Saver) (hb : ∀ b, best = some b → Cand e last b) :
    (pickLowest e last l best = none → best = none ∧ ∀ s ∈ l, ¬ Cand e last s) ∧
    (∀ s, pickLowest e last l best = some s → (s ∈ l ∨ best = some s) ∧ Cand e last s ∧
      (∀ t ∈ l, Cand e last t → s.info.offset ≤ t.info.offset) ∧
      (∀ b, best = some b → s.info.offset ≤ b.info.offset)) := by
  induction l generalizing best with
  | nil =>
    refine ⟨fun h => ⟨h, by simp⟩, fun s h => ⟨.inr h, hb s h, by simp, ?_⟩⟩
    intro b hb'
    have h' : best = some s := h
    rw [hb'] at h'
    cases h'
    exact Nat.le_refl _
  | cons x l ih =>
    have hl' : ∀ s ∈ l, s.info.offset < 0x7FFFFFFF := fun s hs => hl s (by simp [hs])
    unfold pickLowest
    split
    · rename_i hx
      obtain ⟨h1, h2⟩ := ih hl' best hb
      refine ⟨fun h => ⟨(h1 h).1, ?_⟩, fun s h => ?_⟩
      · intro s hs
        rcases List.mem_cons.1 hs with rfl | hs
        · intro hc; rw [hc.1] at hx; simp at hx
        · exact (h1 h).2 s hs
      · obtain ⟨a, b, c, d⟩ := h2 s h
        refine ⟨a.imp_left (by simp +contextual), b, ?_, d⟩
        intro t ht
        rcases List.mem_cons.1 ht with rfl | ht
        · intro hc; rw [hc.1] at hx; simp at hx
        · exact c t ht
    · rename_i hx
      have hx' : e.skips x.info.flags = false := by simpa using hx
      split
      · rename_i hgt
        have hcx : Cand e last x := ⟨hx', hgt.1⟩
        obtain ⟨h1, h2⟩ := ih hl' (some x) (fun b hb => by cases hb; exact hcx)
        refine ⟨fun h => ?_, fun s h => ?_⟩
        · have := (h1 h).1; simp at this
        · obtain ⟨a, b, c, d⟩ := h2 s h
          have hsx := d x rfl
          refine ⟨?_, b, ?_, ?_⟩
          · rcases a with a | a
            · exact .inl (by simp [a])
            · cases a; exact .inl (by simp)
          · intro t ht hc
            rcases List.mem_cons.1 ht with rfl | ht
            · exact hsx
            · exact c t ht hc
          · intro b' hb'
            have hlt := hgt.2
            rw [hb'] at hlt
            simp only [lowestOf] at hlt
            omega
      · rename_i hgt
        obtain ⟨h1, h2⟩ := ih hl' best hb
        have hnot : Cand e last x → ∃ b, best = some b ∧ b.info.offset ≤ x.info.offset := by
          intro hc
          cases hbest : best with
          | none =>
            have := hl x (by simp)
            rw [hbest] at hgt
            simp only [lowestOf] at hgt
            exact absurd ⟨hc.2, by omega⟩ hgt
          | some b =>
            refine ⟨b, rfl, ?_⟩
            rw [hbest] at hgt
            simp only [lowestOf] at hgt
            have hc2 := hc.2
            omega
        refine ⟨fun h => ⟨(h1 h).1, ?_⟩, fun s h => ?_⟩
        · intro s hs
          rcases List.mem_cons.1 hs with rfl | hs
          · intro hc
            obtain ⟨b, hb', -⟩ := hnot hc
            rw [(h1 h).1] at hb'
            cases hb'
          · exact (h1 h).2 s hs
        · obtain ⟨a, b, c, d⟩ := h2 s h
          refine ⟨a.imp_left (by simp +contextual), b, ?_, d⟩
          intro t ht hc
          rcases List.mem_cons.1 ht with rfl | ht
          · obtain ⟨b', hb', hle⟩ := hnot hc
            have := d b' hb'
            omega
          · exact c t ht hc

/-- The fields above an offset. -/
def above (e : Env) (last : Int) (all : List Saver) : List Saver :=
  all.filter fun s => !e.skips s.info.flags && decide (last < s.info.offset)

theorem mem_above {e : Env} {last : Int} {all : List Saver} {s : Saver} :
    s ∈ above e last all ↔ s ∈ all ∧ Cand e last s := by
  unfold above Cand
  rw [List.mem_filter]
  simp

theorem pairwise_forall {α : Type} {R : α → α → Prop} (hs : ∀ x y, R x y → R y x) {l : List α} (h : l.Pairwise R) :
    ∀ x ∈ l, ∀ y ∈ l, x ≠ y → R x y := by
  induction h with
  | nil => simp
  | cons h1 h2 ih =>
    intro x hx y hy hne
    rcases List.mem_cons.1 hx with hx' | hx' <;> rcases List.mem_cons.1 hy with hy' | hy'
    · exact absurd (hx'.trans hy'.symm) hne
    · subst hx'; exact h1 y hy'
    · subst hy'; exact hs _ _ (h1 x hx')
    · exact ih x hx' y hy' hne

/-- What the loop gives: the fields above `last`, by offset. -/
theorem sortLoop_spec (e : Env) (all : List Saver) (hmax : ∀ s ∈ all, s.info.offset < 0x7FFFFFFF)
    (hdis : (all.filter fun s => !e.skips s.info.flags).Pairwise (fun s t => s.info.offset ≠ t.info.offset))
    (n : Nat) (last : Int) (hn : (above e last all).length ≤ n) :
    (sortLoop e all n last).Pairwise (fun s t => s.info.offset < t.info.offset) ∧
    (∀ s, s ∈ sortLoop e all n last ↔ s ∈ all ∧ Cand e last s) := by
  induction n generalizing last with
  | zero =>
    have hnil : above e last all = [] := List.length_eq_zero_iff.1 (by omega)
    refine ⟨List.Pairwise.nil, fun s => ?_⟩
    rw [← mem_above, hnil]
    simp [sortLoop]
  | succ n ih =>
    obtain ⟨h1, h2⟩ := pick_spec e last all hmax none (by simp)
    unfold sortLoop
    cases hp : pickLowest e last all none with
    | none =>
      have hnil : above e last all = [] := by
        apply List.eq_nil_iff_forall_not_mem.2
        intro s hs
        exact (h1 hp).2 s (mem_above.1 hs).1 (mem_above.1 hs).2
      have := ih last (by rw [hnil]; simp)
      exact this
    | some s =>
      obtain ⟨hs1, hs2, hs3, -⟩ := h2 s hp
      have hs1 : s ∈ all := hs1.resolve_right (by simp)
      have hlen : (above e s.info.offset all).length ≤ n := by
        have hsub : (above e s.info.offset all).length + 1 ≤ (above e last all).length := by
          have he : above e s.info.offset all = (above e last all).filter fun t => decide ((s.info.offset : Int) < t.info.offset) := by
            unfold above
            rw [List.filter_filter]
            apply List.filter_congr
            intro t ht
            have := hs2.2
            cases e.skips t.info.flags <;> simp
            omega
          rw [he]
          have hmem : s ∈ above e last all := mem_above.2 ⟨hs1, hs2⟩
          obtain ⟨l1, l2, hl⟩ := List.append_of_mem hmem
          rw [hl]
          have a1 := List.length_filter_le (fun t : Saver => decide ((s.info.offset : Int) < t.info.offset)) l1
          have a2 := List.length_filter_le (fun t : Saver => decide ((s.info.offset : Int) < t.info.offset)) l2
          simp only [List.filter_append, List.filter_cons, List.length_append, Int.lt_irrefl, decide_false,
            Bool.false_eq_true, if_false, List.length_cons]
          omega
        omega
      obtain ⟨i1, i2⟩ := ih s.info.offset hlen
      simp only []
      refine ⟨List.pairwise_cons.2 ⟨?_, i1⟩, fun t => ?_⟩
      · intro t ht
        have := ((i2 t).1 ht).2.2
        omega
      · rw [List.mem_cons, i2]
        constructor
        · rintro (rfl | ⟨ht, hc⟩)
          · exact ⟨hs1, hs2⟩
          · exact ⟨ht, hc.1, by have := hc.2; have := hs2.2; omega⟩
        · rintro ⟨ht, hc⟩
          have hle := hs3 t ht hc
          by_cases heq : t.info.offset = s.info.offset
          · left
            apply Classical.byContradiction
            intro hne
            have := pairwise_forall (fun _ _ h => Ne.symm h) hdis t (by simp [ht, hc.1]) s (by simp [hs1, hs2.1]) hne
            exact this heq
          · right
            exact ⟨ht, hc.1, by omega⟩

/-- The order of saving: every field that is not transient, once; with sorting by increasing offset. -/
theorem order_spec (e : Env) (o : Opts) (all : List Saver)
    (hok : o.sort = true →
      (all.filter fun s => !e.skips s.info.flags).Pairwise (fun s t => s.info.offset ≠ t.info.offset) ∧
      ∀ s ∈ all, s.info.offset < 0x7FFFFFFF) :
    (∀ s, s ∈ order e o all ↔ s ∈ all ∧ e.skips s.info.flags = false) ∧
    (o.sort = true → (order e o all).Pairwise (fun s t => s.info.offset < t.info.offset)) ∧
    (∀ R : Saver → Saver → Prop, (∀ x y, R x y → R y x) →
      (all.filter fun s => !e.skips s.info.flags).Pairwise R → (order e o all).Pairwise R) := by
  unfold order
  by_cases hs : o.sort = true
  · obtain ⟨h1, h2⟩ := hok hs
    obtain ⟨s1, s2⟩ := sortLoop_spec e all h2 h1 all.length (-1) (List.length_filter_le _ _)
    rw [if_pos hs]
    refine ⟨fun s => ?_, fun _ => s1, fun R hsym hR => ?_⟩
    · rw [s2]
      unfold Cand
      constructor
      · rintro ⟨h, hc, -⟩; exact ⟨h, hc⟩
      · rintro ⟨h, hc⟩; exact ⟨h, hc, by omega⟩
    · refine s1.imp_of_mem ?_
      intro s t hs ht hlt
      have hs := (s2 s).1 hs
      have ht := (s2 t).1 ht
      exact pairwise_forall hsym hR s (by simp [hs.1, hs.2.1]) t (by simp [ht.1, ht.2.1])
        (by rintro rfl; omega)
  · rw [if_neg hs]
    refine ⟨fun s => by simp [List.mem_filter], fun h => absurd h hs, fun R _ hR => hR⟩

end Clr.JSON
