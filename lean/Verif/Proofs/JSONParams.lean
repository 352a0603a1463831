import Verif.Model.JSONParams
import Verif.Proofs.JSONDict

/-! Arguments of functions are loaded from JSON. -/
namespace Clr.JSON

theorem Loads.wsStart {e : Env} {text : Bytes} {count : Option Nat} {t : Ty} {m : Mem} {a : Nat} (h : Loads e text count t m a)
    {w0 : Bytes} (hw0 : Ws w0) : Loads e (w0 ++ text) count t m a := by
  refine ⟨?_, ?_⟩
  · obtain ⟨w, v, x, rfl, hw, hv, hx⟩ := h.1
    exact ⟨w0 ++ w, v, x, by simp, hw0.append hw, hv, hx⟩
  · intro q hq st b n hat hn hb hclear
    exact h.2 q hq st b n ((at_ws hw0 (h.1.good hq)).1 (by simpa using hat)) (by simp at hn; omega) hb hclear

/-- The parameters by number. -/
structure Ordered (params qs : List Param) : Prop where
  perm : params.Perm qs
  number : ∀ i (h : i < qs.length), qs[i].1.offset = i

theorem Ordered.at {params qs : List Param} (h : Ordered params qs) {i : Nat} (hi : i < qs.length) :
    paramAt params i = some qs[i] := by
  unfold paramAt
  cases hf : params.reverse.find? (fun p => p.1.offset == i) with
  | none =>
    exfalso
    have h1 := List.find?_eq_none.1 hf qs[i] (by rw [List.mem_reverse]; exact h.perm.mem_iff.2 (List.getElem_mem hi))
    exact h1 (by rw [h.number i hi]; simp)
  | some p =>
    have h1 := List.find?_some hf
    have h2 := List.mem_of_find?_eq_some hf
    rw [List.mem_reverse] at h2
    obtain ⟨j, hj, rfl⟩ := List.getElem_of_mem (h.perm.mem_iff.1 h2)
    rw [h.number j hj] at h1
    simp only [beq_iff_eq] at h1
    subst h1
    rfl

/-- A text that loads as the value at `a`, for a parameter. -/
def ArgLoads (e : Env) (m : Mem) (text : Bytes) (p : Param) (a : Nat) : Prop :=
  p.1.isPtr = false ∧ p.1.count = none ∧ Loads e text none p.2 m a

/-- The objects that were made hold the values. -/
def ArgsSame (e : Env) (m m0 m' : Mem) (qs : List Param) (args objs : List Nat) : Prop :=
  objs.length = qs.length ∧ ∀ i (h : i < qs.length),
    (m0.next ≤ objs.getD i 0 ∧ objs.getD i 0 + qs[i].2.size ≤ m'.next ∧
      ∀ j, i < j → j < qs.length → objs.getD i 0 + qs[i].2.size ≤ objs.getD j 0) ∧
    Same e m m' (Fresh m0 m') qs[i].2 (args.getD i 0) (objs.getD i 0)

/-- One parameter. -/
theorem loadParam_ok {e : Env} {o : Opts} {m : Mem} {text : Bytes} {p : Param} {a : Nat} (hs : Supported e o p.2) (hl : ArgLoads e m text p a)
    {sep : UInt8} (hsep : (structural sep).isSome) {q : Bytes} {c : Ctx} (hc : c.rest = text ++ sep :: q) (he : c.err.code = .none)
    {n : Nat} (hn : text.length ≤ n) (m0 : Mem) :
    ∃ c' m', loadParam e n c (m0.alloc (strideOf p.2 p.1.isPtr)).2 p m0.next = .ok (c', m') ∧ c'.rest = q ∧
      c'.err.code = .none ∧ Effect m0 m' (fun _ => False) ∧ m0.next + p.2.size ≤ m'.next ∧
      Same e m m' (Fresh m0 m') p.2 a m0.next := by
  obtain ⟨hp, hcn, hl⟩ := hl
  have hstr : strideOf p.2 p.1.isPtr = p.2.size := by simp [strideOf, hp]
  rw [hstr]
  have hq := Tail.structural e hsep q
  let m1 : Mem := (m0.alloc p.2.size).2
  have hn1 : m1.next = m0.next + p.2.size := rfl
  have he1 : ∀ x, x < m0.next → m1.elems x = m0.elems x := by
    intro x hx
    simp only [m1, Mem.alloc]
    rw [if_neg (by omega)]
  have hclear : Clear m1 m0.next p.2.size := by
    intro x h1 h2
    simp only [m1, Mem.alloc]
    rw [if_pos ⟨h1, h2⟩]
  obtain ⟨s0, e0, a0, hm0⟩ := nextTok_at (e := e) (st := { t := {}, c := c, m := m1 }) hc he (hl.1.good hq)
  obtain ⟨s1, e1, a1, ef, sm⟩ := hl.2 _ hq s0 m0.next n a0 hn (by rw [hm0]; simp only [cellSize]; omega)
    (by rw [hm0]; simpa [cellSize] using hclear)
  rw [hm0] at ef sm
  simp only [] at ef sm
  obtain ⟨ty, hty⟩ := Option.isSome_iff_exists.1 hsep
  obtain ⟨-, t2, t3⟩ := a1.tok (reads_structural _ hty q)
  have htw : ∀ x, CellTouched e none p.2 m0.next x → m0.next ≤ x := fun x hx =>
    (touched_within p.2 hs _ _ (cellTouched_none.1 hx)).1
  have hnx := ef.next
  rw [hn1] at hnx
  refine ⟨s1.c, s1.m, ?_, t2, t3, ⟨by omega, ?_, ?_⟩, hnx, ?_⟩
  · unfold loadParam
    rw [show (m0.alloc p.2.size).2 = m1 from rfl, e0]
    simp only [Out.bind_ok, hp, hcn]
    rw [e1]
    rfl
  · intro x hx _
    rw [ef.byte x (by rw [hn1]; omega) (fun hh => by have := htw x hh; omega)]
    rfl
  · intro x hx _
    rw [ef.elems x (by rw [hn1]; omega) (fun hh => by have := htw x hh; omega)]
    exact he1 x hx
  · refine same_congr p.2 hs (sm.1 rfl) (fun x hx => ?_) (fun x _ => ⟨rfl, rfl⟩)
    simp only [Fresh, hn1] at hx
    exact ⟨by omega, hx.2⟩

/-- Texts, each with the separator after it. -/
def argText : List (Bytes × UInt8) → Bytes
  | [] => []
  | x :: r => x.1 ++ x.2 :: argText r

/-- The texts are those of the arguments. -/
inductive ArgsLoad (e : Env) (m : Mem) : List (Bytes × UInt8) → List Param → List Nat → Prop
  | nil : ArgsLoad e m [] [] []
  | cons {t : Bytes} {sep : UInt8} {ts : List (Bytes × UInt8)} {p : Param} {ps : List Param} {a : Nat} {as : List Nat}
      (hl : ArgLoads e m t p a) (hsep : (structural sep).isSome) (hr : ArgsLoad e m ts ps as) :
      ArgsLoad e m ((t, sep) :: ts) (p :: ps) (a :: as)

/-- The loop over the parameters from number `i`, for the first of those that are left: it goes on with those after them. -/
theorem paramLoop_ok {e : Env} {o : Opts} {m : Mem} {params qs : List Param} (ho : Ordered params qs)
    (hs : ∀ x ∈ qs, Supported e o x.2) {n : Nat} {ts : List (Bytes × UInt8)} {now : List Param} {args : List Nat}
    (hl : ArgsLoad e m ts now args) :
    ∀ (before after : List Param), qs = before ++ now ++ after → ∀ (q : Bytes) (c : Ctx) (m0 : Mem),
      c.rest = argText ts ++ q → c.err.code = .none → (argText ts).length ≤ n →
      ∃ c' m' objs, c'.rest = q ∧ c'.err.code = .none ∧ Effect m0 m' (fun _ => False) ∧ ArgsSame e m m0 m' now args objs ∧
        paramLoop e n params (now.length + after.length) before.length c m0 = (do
          let r ← paramLoop e n params after.length (before.length + now.length) c' m'
          .ok (r.1, objs ++ r.2.1, r.2.2)) := by
  induction hl with
  | nil =>
    intro before after _ q c m0 hc he _
    refine ⟨c, m0, [], by simpa [argText] using hc, he, Effect.refl _ _, ⟨rfl, fun i h => by simp at h⟩, ?_⟩
    simp only [List.length_nil, Nat.zero_add, Nat.add_zero, List.nil_append]
    cases paramLoop e n params after.length before.length c m0 <;> rfl
  | @cons t sep ts p ps a as hl1 hsep hr ih =>
    intro before after hqs q c m0 hc he hn
    have hi : before.length < qs.length := by rw [hqs]; simp
    have hat := ho.at hi
    have hget : qs[before.length] = p := by simp [hqs]
    rw [hget] at hat
    have hps : p ∈ qs := by rw [hqs]; simp
    simp only [argText, List.length_append, List.length_cons] at hn
    obtain ⟨c1, m1, e1, r1, h1, ef1, nx1, sm1⟩ := loadParam_ok (o := o) (hs p hps) hl1 hsep (q := argText ts ++ q) (c := c)
      (by rw [hc]; simp [argText]) he (n := n) (by omega) m0
    obtain ⟨c2, m2, objs, r2, h2, ef2, sm2, hloop⟩ := ih (before ++ [p]) after (by rw [hqs]; simp) q c1 m1 r1 h1 (by omega)
    have hn1 := ef1.next
    have hn2 := ef2.next
    refine ⟨c2, m2, m0.next :: objs, r2, h2, (ef1.trans ef2).mono (fun x hx => hx.elim id id), ⟨by simp [sm2.1], ?_⟩, ?_⟩
    · intro i hi
      cases i with
      | zero =>
        simp only [List.getD_cons_zero, List.getElem_cons_zero]
        refine ⟨⟨Nat.le_refl _, by omega, fun j hj hjl => ?_⟩, ?_⟩
        · obtain ⟨j, rfl⟩ : ∃ k, j = k + 1 := ⟨j - 1, by omega⟩
          simp only [List.getD_cons_succ]
          have := (sm2.2 j (by simpa using hjl)).1.1
          omega
        refine same_congr p.2 (hs p hps) sm1 (fun x hx => ⟨hx.1, by have := hx.2; omega⟩) ?_
        intro x hx
        have hlt : x < m1.next := by
          rcases hx with hx | hx
          · have := touched_within p.2 (hs p hps) _ _ hx; omega
          · exact hx.2
        exact ⟨ef2.byte x hlt (by simp), ef2.elems x hlt (by simp)⟩
      | succ i =>
        simp only [List.getD_cons_succ, List.getElem_cons_succ]
        have hi' : i < ps.length := by simpa using hi
        obtain ⟨k1, k2⟩ := sm2.2 i hi'
        have hfr : ∀ x, Fresh m1 m2 x → Fresh m0 m2 x := fun x hx => ⟨by have := hx.1; omega, hx.2⟩
        have hmem : ps[i] ∈ qs := by rw [hqs]; simp
        refine ⟨⟨by have := k1.1; omega, k1.2.1, fun j hj hjl => ?_⟩, same_congr _ (hs _ hmem) k2 hfr (fun x _ => ⟨rfl, rfl⟩)⟩
        obtain ⟨j, rfl⟩ : ∃ k, j = k + 1 := ⟨j - 1, by omega⟩
        simp only [List.getD_cons_succ]
        exact k1.2.2 j (by omega) (by simpa using hjl)
    · have hlen : (p :: ps).length + after.length = (ps.length + after.length) + 1 := by simp; omega
      rw [hlen, paramLoop, hat]
      simp only [show (m0.alloc (strideOf p.2 p.1.isPtr)).1 = m0.next from rfl]
      rw [e1]
      simp only [Out.bind_ok, h1, ne_eq, not_true_eq_false, if_false]
      rw [show before.length + 1 = (before ++ [p]).length by simp, hloop]
      simp only [List.length_append, List.length_cons, List.length_nil, Nat.zero_add]
      rw [show before.length + 1 + ps.length = before.length + (ps.length + 1) by omega]
      cases paramLoop e n params after.length (before.length + (ps.length + 1)) c2 m2 <;> rfl

theorem fuelFor_le (text : Bytes) : text.length ≤ fuelFor text := by unfold fuelFor; omega

/-- `BuildParameterObjectCache_JSON` of texts of the first of the parameters, after an opening bracket. -/
theorem buildParams_first {e : Env} {o : Opts} {m : Mem} {params qs : List Param} (ho : Ordered params qs) (hfew : qs.length ≤ 16)
    (hs : ∀ x ∈ qs, Supported e o x.2) {ts : List (Bytes × UInt8)} {now after : List Param} {args : List Nat}
    (hl : ArgsLoad e m ts now args) (hqs : qs = now ++ after) {w : Bytes} (hw : Ws w) (q : Bytes) (m0 : Mem) :
    ∃ c' m' objs, c'.rest = q ∧ c'.err.code = .none ∧ Effect m0 m' (fun _ => False) ∧ ArgsSame e m m0 m' now args objs ∧
      buildParams e (w ++ 91 :: (argText ts ++ q)) m0 params = (do
        let r ← paramLoop e (fuelFor (w ++ 91 :: (argText ts ++ q))) params after.length now.length c' m'
        .ok (r.1, objs ++ r.2.1, r.2.2)) := by
  have hr := reads_structural e.fl.strtod (b := 91) (ty := .lbracket) rfl (argText ts ++ q)
  obtain ⟨s0, e0, a0, hm0⟩ := nextTok_at (e := e) (st := { t := {}, c := { rest := w ++ 91 :: (argText ts ++ q) }, m := m0 }) rfl rfl
    ⟨_, _, reads_ws hw hr⟩
  obtain ⟨t1, t2, t3⟩ := a0.tok (reads_ws hw hr)
  obtain ⟨c', m', objs, h1, h2, h3, h4, h5⟩ := paramLoop_ok ho hs (n := fuelFor (w ++ 91 :: (argText ts ++ q))) hl [] after (by simpa using hqs) q s0.c m0 t2 t3
    (by have := fuelFor_le (w ++ 91 :: (argText ts ++ q)); simp at this; omega)
  refine ⟨c', m', objs, h1, h2, h3, h4, ?_⟩
  unfold buildParams
  have hall : params.all (fun p => p.1.offset < 16) = true := by
    rw [List.all_eq_true]
    intro p hp
    obtain ⟨j, hj, rfl⟩ := List.getElem_of_mem (ho.perm.mem_iff.1 hp)
    rw [ho.number j hj]
    simp; omega
  rw [if_pos hall, e0]
  simp only [Out.bind_ok, t1, ne_eq, not_true_eq_false, if_false]
  have hlen : params.length = now.length + after.length := by rw [ho.perm.length_eq, hqs]; simp
  rw [hlen]
  simpa using h5

end Clr.JSON
