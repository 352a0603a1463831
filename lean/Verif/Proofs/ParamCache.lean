import Verif.Model.ParamCache
import Verif.Props.WriteBuffer

/-! Lemmas about the parameter cache. -/
namespace Clr.Params
open Clr.Buffer (Buf alloc reset)

/-- The bytes of all parameters. -/
def total (ps : List Param) : Nat := (ps.map allocSize).sum

/-- What holds of the buffer. -/
structure BufOk (b : Buf) : Prop where
  pos : b.pos ≤ b.cap
  cap : b.data = none ∨ (2 ≤ b.cap ∧ b.cap < 2 ^ 32)

theorem foldl_total (ps : List Param) (s : Nat) (h : s + total ps < 2 ^ 32) :
    ps.foldl (fun s p => (s + allocSize p) % 2 ^ 32) s = s + total ps := by
  induction ps generalizing s with
  | nil => simp [total]
  | cons p ps ih =>
    simp only [total, List.map_cons, List.sum_cons] at h
    have h' : s + allocSize p + total ps < 2 ^ 32 := by unfold total; omega
    rw [List.foldl_cons, Nat.mod_eq_of_lt (by omega), ih _ h']
    simp [total]; omega

theorem allocData_fits {c : Cache} {n : Nat} (h : c.buf.pos + n ≤ c.buf.cap) :
    allocData c n = .ok (c.buf.pos, { c with buf := { c.buf with pos := c.buf.pos + n } }) := by
  unfold allocData alloc
  rw [if_neg (by omega)]
  simp only
  rw [if_neg (by omega)]

/-- The cache after `Init`, if the objects of the previous use could be destroyed. -/
theorem init_ok {c : Cache} (hb : BufOk c.buf) {ps : List Param} (ht : 3 * total ps ≤ 2 ^ 33) {es : List Event}
    (hd : deleteLoop c.params.length c.block c.params = .ok es) :
    ∃ c', init c ps = .ok c' ∧ c'.params = [] ∧ c'.log = c.log ++ es ∧ c'.buf.pos = 0 ∧ total ps ≤ c'.buf.cap ∧ BufOk c'.buf := by
  have hinv : Clr.Buffer.Inv (reset c.buf) [] :=
    ⟨Nat.zero_le _, hb.cap, by simp, by simp [Clr.Buffer.Buf.contents, reset, Clr.Buffer.Shows]⟩
  obtain ⟨b', h1, h2, h3, h4, _⟩ := Clr.Buffer.alloc_spec hinv (total ps) (by simpa using ht)
  unfold init deleteObjects
  rw [hd]
  simp only [Res.bind_ok]
  rw [foldl_total ps 0 (by omega), Nat.zero_add]
  unfold allocData
  simp only [h1, Res.bind_ok]
  refine ⟨_, rfl, rfl, rfl, rfl, ?_, ?_⟩
  · show total ps ≤ b'.cap
    have : (reset c.buf).pos = 0 := rfl
    omega
  · exact ⟨Nat.zero_le _, h4⟩

/-- The descriptions of parameters laid out one behind the other. -/
def descs (block : Nat) : Nat → List Param → List Desc
  | _, [] => []
  | off, p :: ps => ⟨p.type, p.op, block, off⟩ :: descs block (off + allocSize p) ps

/-- The calls of constructors for parameters laid out one behind the other. -/
def events (block : Nat) : Nat → List Param → List Event
  | _, [] => []
  | off, p :: ps => (if constructs p then [.construct p.type block off] else []) ++ events block (off + allocSize p) ps

theorem descs_length (block off : Nat) (ps : List Param) : (descs block off ps).length = ps.length := by
  induction ps generalizing off with
  | nil => rfl
  | cons p ps ih => simp [descs, ih]

/-- Allocating a parameter that fits. -/
theorem allocParameter_ok {c : Cache} {p : Param} (h : c.buf.pos + allocSize p ≤ c.buf.cap) (hn : c.params.length < 16) :
    allocParameter c p = .ok { c with
      buf := { c.buf with pos := c.buf.pos + allocSize p }
      params := c.params ++ [⟨p.type, p.op, c.block, c.buf.pos⟩]
      log := c.log ++ (if constructs p then [.construct p.type c.block c.buf.pos] else []) } := by
  unfold allocParameter
  rw [allocData_fits h]
  simp only [Res.bind_ok, pushParameter]
  rw [if_pos hn]
  by_cases hc : constructs p <;> simp [hc]

/-- The order of parameters is that of their numbers. -/
structure CallOrder (ps qs : List Param) : Prop where
  perm : ps.Perm qs
  num : qs.map Param.offset = List.range qs.length

theorem CallOrder.offset {ps qs : List Param} (h : CallOrder ps qs) {i : Nat} {q : Param} (hq : qs[i]? = some q) : q.offset = i := by
  have : (qs.map Param.offset)[i]? = some q.offset := by simp [hq]
  rw [h.num] at this
  obtain ⟨_, h⟩ := List.getElem?_eq_some_iff.1 this
  simpa using h.symm

theorem CallOrder.slot {ps qs : List Param} (h : CallOrder ps qs) {i : Nat} {q : Param} (hq : qs[i]? = some q) : slot ps i = some q := by
  have hmem : q ∈ ps := h.perm.mem_iff.2 (List.mem_of_getElem? hq)
  unfold Params.slot
  cases hf : ps.reverse.find? (fun p => p.offset == i) with
  | none =>
    have := List.find?_eq_none.1 hf q (by simpa using hmem)
    simp [h.offset hq] at this
  | some p =>
    have hp := List.find?_some hf
    have hm : p ∈ qs := h.perm.mem_iff.1 (by simpa using List.mem_of_find?_eq_some hf)
    obtain ⟨j, hj⟩ := List.mem_iff_getElem?.1 hm
    have : p.offset = j := h.offset hj
    simp only [beq_iff_eq] at hp
    rw [hp] at this
    subst this
    rw [hq] at hj
    exact hj.symm

theorem loadLoop_ok {ps qs : List Param} (h : CallOrder ps qs) (hlen : qs.length ≤ 16) (loads : Nat → Bool) (rest : List Param) :
    ∀ (i : Nat) (c : Cache), qs.drop i = rest → c.params.length = i → c.buf.pos + total rest ≤ c.buf.cap → BufOk c.buf →
    ∃ b k c', loadLoop ps loads rest.length i c = .ok (b, c') ∧ (b = true → k = rest.length) ∧ k ≤ rest.length ∧
      (k < rest.length → ∃ j, j < i + k ∧ loads j = false) ∧
      c'.params = c.params ++ descs c.block c.buf.pos (rest.take k) ∧ c'.block = c.block ∧ c'.buf.cap = c.buf.cap ∧ BufOk c'.buf ∧
      c'.log = c.log ++ events c.block c.buf.pos (rest.take k) := by
  induction rest with
  | nil =>
    intro i c _ _ _ hb
    exact ⟨true, 0, c, rfl, by simp, by simp, by simp, by simp [descs], rfl, rfl, hb, by simp [events]⟩
  | cons p rest ih =>
    intro i c hdrop hpl hfit hb
    have hq : qs[i]? = some p := by
      have : (qs.drop i)[0]? = some p := by rw [hdrop]; rfl
      simpa using this
    have hi : i < qs.length := (List.getElem?_eq_some_iff.1 hq).1
    have hfit' : c.buf.pos + (allocSize p + total rest) ≤ c.buf.cap := by simpa [total] using hfit
    have hstep := allocParameter_ok (c := c) (p := p) (by omega) (by omega)
    have hdrop' : qs.drop (i + 1) = rest := by
      have : (qs.drop i).drop 1 = rest := by rw [hdrop]; rfl
      rwa [List.drop_drop] at this
    simp only [List.length_cons, loadLoop, h.slot hq, hstep, Res.bind_ok]
    by_cases hl : loads i = true
    · rw [if_pos hl]
      have hb' : BufOk { c.buf with pos := c.buf.pos + allocSize p } :=
        ⟨by show c.buf.pos + allocSize p ≤ c.buf.cap; omega, hb.cap⟩
      obtain ⟨b, k, c', h1, h2, h2', h3, h4, h5, h6, h7, h8⟩ := ih (i + 1) { c with
          buf := { c.buf with pos := c.buf.pos + allocSize p }
          params := c.params ++ [⟨p.type, p.op, c.block, c.buf.pos⟩]
          log := c.log ++ (if constructs p then [.construct p.type c.block c.buf.pos] else []) } hdrop' (by simp [hpl])
        (by show c.buf.pos + allocSize p + total rest ≤ c.buf.cap; omega) hb'
      refine ⟨b, k + 1, c', h1, fun hb => by simp [h2 hb], by omega, ?_, ?_, h5, h6, h7, ?_⟩
      · intro hk
        obtain ⟨j, hj, hj'⟩ := h3 (by omega)
        exact ⟨j, by omega, hj'⟩
      · rw [h4]; simp [descs]
      · rw [h8]; simp [events]
    · rw [if_neg hl]
      refine ⟨false, 1, _, rfl, by simp, by simp, fun _ => ⟨i, by omega, by simpa using hl⟩, by simp [descs], rfl, rfl, ?_, by simp [events]⟩
      exact ⟨by show c.buf.pos + allocSize p ≤ c.buf.cap; omega, hb.cap⟩

/-! ### Objects alive -/

/-- An object: its type and place. -/
abbrev Obj := PType × Nat × Nat

/-- Two objects in the same bytes. -/
def Overlap (x y : Obj) : Prop := x.2.1 = y.2.1 ∧ x.2.2 < y.2.2 + y.1.size ∧ y.2.2 < x.2.2 + x.1.size

instance (x y : Obj) : Decidable (Overlap x y) := by unfold Overlap; infer_instance

/-- The objects alive after a log, of those alive before: none may be constructed where one is alive, and only objects that are
alive may be destroyed. -/
def alive : List Obj → List Event → Option (List Obj)
  | live, [] => some live
  | live, .construct t b o :: es => if ∀ x ∈ live, ¬ Overlap (t, b, o) x then alive ((t, b, o) :: live) es else none
  | live, .destroy t b o :: es => if (t, b, o) ∈ live then alive (live.erase (t, b, o)) es else none

theorem alive_append (live : List Obj) (es es' : List Event) : alive live (es ++ es') = (alive live es).bind fun l => alive l es' := by
  induction es generalizing live with
  | nil => rfl
  | cons e es ih =>
    cases e <;> simp only [List.cons_append, alive]
    · split
      · exact ih _
      · rfl
    · split
      · exact ih _
      · rfl

/-- The objects the descriptions stand for that have a destructor. -/
def objects (ds : List Desc) : List Obj := (ds.filter destroys).map fun d => (d.type, d.block, d.off)

/-- Types have both a constructor and a destructor or neither. -/
def Paired (p : Param) : Prop := ∀ x, p.type.hooks = some x → x.1 = x.2

theorem constructs_destroys {p : Param} (h : Paired p) (block off : Nat) :
    constructs p = destroys ⟨p.type, p.op, block, off⟩ := by
  unfold constructs destroys
  cases hh : p.type.hooks with
  | none => simp
  | some x => obtain ⟨a, b⟩ := x; have := h _ hh; simp only at this; subst this; simp

theorem allocSize_of_constructs {p : Param} (h : constructs p = true) : allocSize p = p.type.size := by
  unfold constructs at h
  unfold allocSize
  rw [if_neg]
  intro hp
  rw [hp] at h
  simp at h

theorem objects_append (xs ys : List Desc) : objects (xs ++ ys) = objects xs ++ objects ys := by simp [objects]

/-- Objects constructed one behind the other, where nothing is alive. -/
theorem alive_events (block : Nat) (ps : List Param) (hp : ∀ p ∈ ps, Paired p) : ∀ (off : Nat) (live : List Obj),
    (∀ x ∈ live, x.2.1 = block → x.2.2 + x.1.size ≤ off) →
    ∃ live', alive live (events block off ps) = some live' ∧ live'.Perm (live ++ objects (descs block off ps)) := by
  induction ps with
  | nil => exact fun off live _ => ⟨live, rfl, by simp [objects, descs]⟩
  | cons p ps ih =>
    intro off live hlive
    have hcd := constructs_destroys (hp p (by simp)) block off
    simp only [events, descs]
    by_cases hc : constructs p = true
    · have hsz := allocSize_of_constructs hc
      rw [if_pos hc]
      simp only [List.cons_append, List.nil_append, alive]
      rw [if_pos]
      · obtain ⟨live', h1, h2⟩ := ih (fun q hq => hp q (by simp [hq])) (off + allocSize p) ((p.type, block, off) :: live) (by
          intro x hx hb
          rcases List.mem_cons.1 hx with rfl | hx
          · simp [hsz]
          · have := hlive x hx hb; omega)
        refine ⟨live', h1, h2.trans ?_⟩
        have : objects (⟨p.type, p.op, block, off⟩ :: descs block (off + allocSize p) ps) =
            (p.type, block, off) :: objects (descs block (off + allocSize p) ps) := by
          simp [objects, ← hcd, hc]
        rw [this]
        exact List.perm_middle.symm
      · intro x hx ho
        have hb : x.2.1 = block := ho.1.symm
        have := hlive x hx hb
        have h2 := ho.2.1
        simp only at h2
        omega
    · rw [if_neg hc]
      simp only [List.nil_append]
      obtain ⟨live', h1, h2⟩ := ih (fun q hq => hp q (by simp [hq])) (off + allocSize p) live (by
        intro x hx hb
        have := hlive x hx hb; omega)
      refine ⟨live', h1, h2.trans ?_⟩
      have : objects (⟨p.type, p.op, block, off⟩ :: descs block (off + allocSize p) ps) = objects (descs block (off + allocSize p) ps) := by
        simp [objects, ← hcd, hc]
      rw [this]

/-- Destroying all objects. -/
theorem deleteLoop_ok {n block : Nat} (hn : n < 16) (ds : List Desc) (hb : ∀ d ∈ ds, d.block = block) (live : List Obj)
    (hl : live.Perm (objects ds)) : ∃ es, deleteLoop n block ds = .ok es ∧ alive live es = some [] := by
  induction ds generalizing live with
  | nil =>
    have : live = [] := by simpa [objects] using hl
    subst this
    exact ⟨[], rfl, rfl⟩
  | cons d ds ih =>
    rw [deleteLoop, if_pos hn]
    by_cases hd : destroys d = true
    · rw [if_pos hd, if_pos (hb d (by simp))]
      have ho : objects (d :: ds) = (d.type, d.block, d.off) :: objects ds := by simp [objects, hd]
      rw [ho] at hl
      obtain ⟨es, h1, h2⟩ := ih (fun x hx => hb x (by simp [hx])) (live.erase (d.type, d.block, d.off)) (by
        have := hl.erase (d.type, d.block, d.off)
        simpa using this)
      refine ⟨_, by rw [h1]; rfl, ?_⟩
      rw [alive, if_pos (hl.mem_iff.2 (by simp)), h2]
    · rw [if_neg hd]
      have ho : objects (d :: ds) = objects ds := by simp [objects, hd]
      rw [ho] at hl
      exact ih (fun x hx => hb x (by simp [hx])) live hl

/-- What holds of a cache between uses. -/
structure Good (c : Cache) : Prop where
  buf : BufOk c.buf
  few : c.params.length < 16
  block : ∀ d ∈ c.params, d.block = c.block
  live : ∃ live, alive [] c.log = some live ∧ live.Perm (objects c.params)

theorem good_new : Good {} := ⟨⟨by decide, .inl rfl⟩, by decide, by simp, [], rfl, by simp [objects]⟩

theorem descs_block {block off : Nat} {ps : List Param} {d : Desc} (h : d ∈ descs block off ps) : d.block = block := by
  induction ps generalizing off with
  | nil => simp [descs] at h
  | cons p ps ih =>
    rcases List.mem_cons.1 h with rfl | h
    · rfl
    · exact ih h

/-- One use of the cache. -/
theorem build_ok {c : Cache} (hc : Good c) {ps qs : List Param} (h : CallOrder ps qs) (hlen : qs.length ≤ 16)
    (ht : 3 * total qs ≤ 2 ^ 33) (hp : ∀ p ∈ qs, Paired p) (opens : Bool) (loads : Nat → Bool) :
    ∃ b k c', build c ps opens loads = .ok (b, c') ∧ (b = true → k = qs.length) ∧ k ≤ qs.length ∧
      (k < qs.length → opens = false ∨ ∃ j, j < k ∧ loads j = false) ∧
      c'.params = descs c'.block 0 (qs.take k) ∧ total qs ≤ c'.buf.cap ∧ BufOk c'.buf ∧
      ∃ live, alive [] c'.log = some live ∧ live.Perm (objects c'.params) := by
  obtain ⟨live, hl1, hl2⟩ := hc.live
  obtain ⟨es, hd, hdl⟩ := deleteLoop_ok hc.few c.params hc.block live hl2
  have htot : total ps = total qs := by
    unfold total
    exact (h.perm.map _).sum_nat
  obtain ⟨c1, hi, hi1, hi2, hi3, hi4, hi5⟩ := init_ok hc.buf (ps := ps) (by rw [htot]; exact ht) hd
  rw [htot] at hi4
  have hlog : alive [] c1.log = some [] := by rw [hi2, alive_append, hl1]; exact hdl
  have hall : ps.all (fun p => decide (p.offset < 16)) = true := by
    rw [List.all_eq_true]
    intro p hp
    obtain ⟨j, hj⟩ := List.mem_iff_getElem?.1 (h.perm.mem_iff.1 hp)
    have := (List.getElem?_eq_some_iff.1 hj).1
    have := h.offset hj
    simp; omega
  unfold build
  simp only [hi, Res.bind_ok, hall, if_true]
  cases opens with
  | false =>
    refine ⟨false, 0, c1, rfl, by simp, by simp, fun _ => .inl rfl, by simp [hi1, descs], hi4, hi5, [], hlog, by simp [hi1, objects]⟩
  | true =>
    rw [if_pos rfl, h.perm.length_eq]
    obtain ⟨b, k, c', h1, h2, h2', h3, h4, h5, h6, h7, h8⟩ := loadLoop_ok h hlen loads qs 0 c1 rfl (by simp [hi1]) (by omega) hi5
    rw [hi1, hi3, List.nil_append] at h4
    rw [hi3] at h8
    obtain ⟨live', e1, e2⟩ := alive_events c1.block (qs.take k) (fun p hp' => hp p (List.mem_of_mem_take hp')) 0 [] (by simp)
    refine ⟨b, k, c', h1, h2, h2', fun hk => .inr (by simpa using h3 hk), by rw [h5]; exact h4, by rw [h6]; exact hi4, h7, live', ?_, ?_⟩
    · rw [h8, alive_append, hlog]; exact e1
    · rw [h4]; simpa using e2

end Clr.Params
