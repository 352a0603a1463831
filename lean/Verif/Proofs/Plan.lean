import Verif.Model.ImagePlan
import Verif.Proofs.Image2
/-
Lemmas for C85: pieces of memory allocated one after the other.
-/
namespace Clr.Image
open Clr Clr.Reloc Clr.Layout
open Clr.Export (K Slot Ref Ptr St)

/-- The size of the piece of memory for an area. -/
def sizeIn : List Piece → Area → Nat
  | [], _ => 0
  | p :: ps, a => if p.use = some a then p.size else sizeIn ps a

theorem total_cons (p : Piece) (ps : List Piece) : total (p :: ps) = p.size + total ps := by
  unfold total; rw [List.map_cons, List.sum_cons]

theorem total_append (ps qs : List Piece) : total (ps ++ qs) = total ps + total qs := by
  unfold total; rw [List.map_append, List.sum_append]

theorem offset_within {ps : List Piece} {a : Area} {o : Nat} (h : offsetIn ps a = some o) : o + sizeIn ps a ≤ total ps := by
  induction ps generalizing o with
  | nil => cases h
  | cons p ps ih =>
    rw [total_cons]
    unfold offsetIn at h
    unfold sizeIn
    split at h
    · next e =>
      injection h with h
      rw [if_pos e]
      omega
    · next e =>
      rw [if_neg e]
      rw [Option.map_eq_some_iff] at h
      obtain ⟨q, hq, rfl⟩ := h
      have := ih hq
      omega

theorem offset_apart {ps : List Piece} {a b : Area} (hab : a ≠ b) {o q : Nat} (ha : offsetIn ps a = some o)
    (hb : offsetIn ps b = some q) : o + sizeIn ps a ≤ q ∨ q + sizeIn ps b ≤ o := by
  induction ps generalizing o q with
  | nil => cases ha
  | cons p ps ih =>
    unfold offsetIn at ha hb
    unfold sizeIn
    by_cases e : p.use = some a
    · rw [if_pos e] at ha ⊢
      injection ha with ha
      have e2 : p.use ≠ some b := by
        rw [e]
        intro h
        injection h with h
        exact hab h
      rw [if_neg e2, Option.map_eq_some_iff] at hb
      obtain ⟨x, _, rfl⟩ := hb
      left; omega
    · rw [if_neg e, Option.map_eq_some_iff] at ha
      rw [if_neg e]
      obtain ⟨x, hx, rfl⟩ := ha
      by_cases e2 : p.use = some b
      · rw [if_pos e2] at hb ⊢
        injection hb with hb
        right; omega
      · rw [if_neg e2, Option.map_eq_some_iff] at hb
        rw [if_neg e2]
        obtain ⟨y, hy, rfl⟩ := hb
        rcases ih hx hy with h | h
        · left; omega
        · right; omega

theorem offset_some {ps : List Piece} {a : Area} (h : ∃ p ∈ ps, p.use = some a) : ∃ o, offsetIn ps a = some o := by
  induction ps with
  | nil => obtain ⟨p, hp, _⟩ := h; cases hp
  | cons p ps ih =>
    unfold offsetIn
    by_cases e : p.use = some a
    · exact ⟨0, by rw [if_pos e]⟩
    · rw [if_neg e]
      obtain ⟨q, hq, hu⟩ := h
      rcases List.mem_cons.1 hq with rfl | hq
      · exact absurd hu e
      · obtain ⟨o, ho⟩ := ih ⟨q, hq, hu⟩
        exact ⟨p.size + o, by rw [ho]; rfl⟩

theorem some_offset {ps : List Piece} {a : Area} {o : Nat} (h : offsetIn ps a = some o) : ∃ p ∈ ps, p.use = some a := by
  induction ps generalizing o with
  | nil => cases h
  | cons p ps ih =>
    unfold offsetIn at h
    split at h
    · next e => exact ⟨p, by simp, e⟩
    · rw [Option.map_eq_some_iff] at h
      obtain ⟨q, hq, _⟩ := h
      obtain ⟨x, hx, hu⟩ := ih hq
      exact ⟨x, List.mem_cons_of_mem _ hx, hu⟩

theorem size_of {ps : List Piece} {a : Area} {n : Nat} (h : ∃ p ∈ ps, p.use = some a)
    (hn : ∀ p ∈ ps, p.use = some a → p.size = n) : sizeIn ps a = n := by
  induction ps with
  | nil => obtain ⟨p, hp, _⟩ := h; cases hp
  | cons p ps ih =>
    unfold sizeIn
    by_cases e : p.use = some a
    · rw [if_pos e]; exact hn p (by simp) e
    · rw [if_neg e]
      obtain ⟨q, hq, hu⟩ := h
      rcases List.mem_cons.1 hq with rfl | hq
      · exact absurd hu e
      · exact ih ⟨q, hq, hu⟩ fun x hx => hn x (List.mem_cons_of_mem _ hx)

theorem offset_append_left {ps qs : List Piece} {a : Area} {o : Nat} (h : offsetIn ps a = some o) :
    offsetIn (ps ++ qs) a = some o := by
  induction ps generalizing o with
  | nil => cases h
  | cons p ps ih =>
    rw [List.cons_append]
    unfold offsetIn at h ⊢
    split at h
    · next e => rw [if_pos e]; exact h
    · next e =>
      rw [if_neg e]
      rw [Option.map_eq_some_iff] at h
      obtain ⟨x, hx, rfl⟩ := h
      rw [ih hx]
      rfl

/-! ### The allocator -/

/-- The blocks the allocator hands out are where the pieces are thought to be. -/
theorem run_pieces (ps : List Piece) (size o : Nat) (h : o + total ps ≤ size) (h32 : size < 2 ^ 32) :
    ∃ bs, StackAlloc.run ⟨size, o⟩ (ps.map Piece.request) = .ok bs ∧ bs.length = ps.length ∧
      ∀ a x, offsetIn ps a = some x → ∃ i : Nat, ∃ p, ps[i]? = some p ∧ p.use = some a ∧ bs[i]? = some ⟨o + x, p.size⟩ := by
  induction ps generalizing o with
  | nil => exact ⟨[], rfl, rfl, fun a x h => by cases h⟩
  | cons p ps ih =>
    rw [total_cons] at h
    have hm : (o + p.count * p.elem) % 2 ^ 32 = o + p.size := by
      rw [Nat.mod_eq_of_lt]
      · rfl
      · unfold Piece.size at h; omega
    have ha : StackAlloc.alloc ⟨size, o⟩ p.request = .ok (⟨o, p.size⟩, ⟨size, o + p.size⟩) := by
      unfold StackAlloc.alloc Piece.request
      simp only [hm]
      rw [if_pos (by omega), if_neg (by unfold Piece.size at h; omega)]
      rfl
    obtain ⟨bs, h1, h2, h3⟩ := ih (o + p.size) (by omega)
    refine ⟨⟨o, p.size⟩ :: bs, ?_, by simp [h2], ?_⟩
    · rw [List.map_cons, StackAlloc.run, ha]
      simp only [Res.bind_ok, h1]
      rfl
    · intro a x hx
      unfold offsetIn at hx
      split at hx
      · next e =>
        injection hx with hx
        subst hx
        exact ⟨0, p, rfl, e, rfl⟩
      · rw [Option.map_eq_some_iff] at hx
        obtain ⟨y, hy, rfl⟩ := hx
        obtain ⟨i, q, h4, h5, h6⟩ := h3 a y hy
        exact ⟨i + 1, q, h4, h5, by rw [List.getElem?_cons_succ, h6, Nat.add_assoc]⟩

/-! ### Texts -/

theorem textBytes_append (a b : List Bytes) : textBytes (a ++ b) = textBytes a + textBytes b := by
  unfold textBytes; rw [List.map_append, List.sum_append]

theorem text_inside {ts : List Bytes} {i : Nat} {t : Bytes} (h : ts[i]? = some t) :
    textOffset ts i + (t.length + 1) ≤ textBytes ts := by
  unfold textOffset
  have hi : i < ts.length := (List.getElem?_eq_some_iff.1 h).1
  have e : ts = ts.take i ++ t :: ts.drop (i + 1) := by
    rw [← (List.getElem?_eq_some_iff.1 h).2, List.getElem_cons_drop, List.take_append_drop]
  conv => rhs; rw [e, textBytes_append]
  unfold textBytes
  rw [List.map_cons, List.sum_cons]
  omega

theorem text_apart {ts : List Bytes} {i j : Nat} {t : Bytes} (h : ts[i]? = some t) (hij : i < j) :
    textOffset ts i + (t.length + 1) ≤ textOffset ts j := by
  have h2 : (ts.take j)[i]? = some t := by rw [List.getElem?_take_of_lt hij]; exact h
  have := text_inside h2
  unfold textOffset at this ⊢
  rw [List.take_take, Nat.min_eq_left (by omega)] at this
  exact this

end Clr.Image
