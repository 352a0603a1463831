import Verif.Proofs.ParamCache

/-!
C54 and C61: the parameter cache.  Model: `Verif/Model/ParamCache.lean`.
-/
namespace Clr.Params

/-- A function whose parameters in call order are `qs`, listed in the database as `ps`: they are the same ones, numbered from 0,
they fit a buffer (they are below 2.6 GB together), and each type has both a constructor and a destructor or neither. -/
structure Function (ps qs : List Param) : Prop where
  listed : ps.Perm qs
  numbered : qs.map Param.offset = List.range qs.length
  fits : 3 * (qs.map allocSize).sum ≤ 2 ^ 33
  paired : ∀ p ∈ qs, ∀ x, p.type.hooks = some x → x.1 = x.2

/-- A use of a cache for a function with at most `n` parameters. -/
def Call.Ok (n : Nat) (k : Call) : Prop := ∃ qs, Function k.params qs ∧ qs.length ≤ n

theorem Function.order {ps qs : List Param} (h : Function ps qs) : CallOrder ps qs := ⟨h.listed, h.numbered⟩

theorem builds_good (calls : List Call) (hk : ∀ k ∈ calls, k.Ok 15) (c : Cache) (hc : Good c) : ∃ c', builds c calls = .ok c' ∧ Good c' := by
  induction calls generalizing c with
  | nil => exact ⟨c, rfl, hc⟩
  | cons k ks ih =>
    obtain ⟨qs, hf, hl⟩ := hk k (by simp)
    obtain ⟨b, n, c1, h1, _, h3, _, h5, _, h7, h8⟩ := build_ok hc hf.order (by omega) hf.fits hf.paired k.opens k.loads
    have hg : Good c1 := by
      refine ⟨h7, ?_, ?_, h8⟩
      · rw [h5, descs_length, List.length_take]; omega
      · intro d hd
        rw [h5] at hd
        exact descs_block hd
    obtain ⟨c', h, hg'⟩ := ih (fun k hk' => hk k (by simp [hk'])) c1 hg
    exact ⟨c', by rw [builds, h1]; exact h, hg'⟩

/-- The bytes of a parameter. -/
def Desc.bytes (d : Desc) : Nat := if d.op = .pointer then 8 else d.type.size

theorem descs_pairwise (block : Nat) (ps : List Param) (off : Nat) :
    (descs block off ps).Pairwise (fun d d' => d.off + d.bytes ≤ d'.off) ∧ ∀ d ∈ descs block off ps, off ≤ d.off ∧ d.off + d.bytes ≤ off + total ps := by
  induction ps generalizing off with
  | nil => simp [descs]
  | cons p ps ih =>
    obtain ⟨h1, h2⟩ := ih (off + allocSize p)
    have ht : total (p :: ps) = allocSize p + total ps := by simp [total]
    refine ⟨List.pairwise_cons.2 ⟨fun d hd => (h2 d hd).1, h1⟩, ?_⟩
    intro d hd
    rcases List.mem_cons.1 hd with rfl | hd
    · refine ⟨Nat.le_refl _, ?_⟩
      show off + allocSize p ≤ _
      omega
    · have := h2 d hd
      omega

theorem total_take (k : Nat) (qs : List Param) : total (qs.take k) ≤ total qs := by
  have : total qs = total (qs.take k) + total (qs.drop k) := by
    unfold total
    rw [← List.sum_append_nat, ← List.map_append, List.take_append_drop]
  omega

theorem descs_types (block : Nat) (ps : List Param) (off : Nat) :
    (descs block off ps).map (fun d => (d.type, d.op)) = ps.map fun p => (p.type, p.op) := by
  induction ps generalizing off with
  | nil => rfl
  | cons p ps ih => simp [descs, ih]

/-- **C54**: a cache that has been used for any functions of at most 15 parameters, with any outcome, is used for one of at
most 16.  The result is the parameters in call order, up to the first that cannot be loaded and all of them on success.
Each has its own bytes: all lie in the one block the cache has at the end, inside it and behind one another. -/
theorem C54_places_partial (calls : List Call) (hk : ∀ k ∈ calls, k.Ok 15) {c : Cache} (hc : builds {} calls = .ok c) {ps qs : List Param}
    (hf : Function ps qs) (hl : qs.length ≤ 16) (opens : Bool) (loads : Nat → Bool) :
    ∃ success c', build c ps opens loads = .ok (success, c') ∧
      (∃ k, c'.params.map (fun d => (d.type, d.op)) = (qs.take k).map (fun p => (p.type, p.op)) ∧ (success = true → k = qs.length) ∧
        (k < qs.length → opens = false ∨ ∃ j, j < k ∧ loads j = false)) ∧
      (∀ d ∈ c'.params, d.block = c'.block ∧ d.off + d.bytes ≤ c'.buf.cap) ∧
      c'.params.Pairwise (fun d d' => d.off + d.bytes ≤ d'.off) := by
  obtain ⟨c0, h0, hg⟩ := builds_good calls hk {} good_new
  rw [hc] at h0
  cases h0
  obtain ⟨b, k, c', h1, h2, h3, h4, h5, h6, h7, h8⟩ := build_ok hg hf.order hl hf.fits hf.paired opens loads
  obtain ⟨p1, p2⟩ := descs_pairwise c'.block (qs.take k) 0
  refine ⟨b, c', h1, ⟨k, by rw [h5, descs_types], h2, h4⟩, ?_, by rw [h5]; exact p1⟩
  intro d hd
  rw [h5] at hd
  have := (p2 d hd).2
  have := total_take k qs
  exact ⟨descs_block hd, by omega⟩

/-- **C61** (partial): over the whole life of a cache, used for any functions of at most 15 parameters with any outcomes, every object that
is constructed is destroyed exactly once, none is constructed where one is alive, and none is destroyed after its memory was
given up.  (Missing: functions of 16 parameters, for which destruction fails, see below.) -/
theorem C61_lifetimes_partial (calls : List Call) (hk : ∀ k ∈ calls, k.Ok 15) :
    ∃ c, lifetime calls = .ok c ∧ alive [] c.log = some [] := by
  obtain ⟨c, h0, hg⟩ := builds_good calls hk {} good_new
  obtain ⟨live, hl1, hl2⟩ := hg.live
  obtain ⟨es, hd, hdl⟩ := deleteLoop_ok hg.few c.params hg.block live hl2
  refine ⟨{ c with log := c.log ++ es }, ?_, ?_⟩
  · rw [lifetime, h0]
    simp only [Res.bind_ok, deleteObjects, hd]
  · show alive [] (c.log ++ es) = _
    rw [alive_append, hl1]
    exact hdl

/-- `f(char c, const Name& n, double* d, Name m)`, listed in another order. -/
def sampleParams : List Param :=
  [⟨⟨b!"Name", 24, some (true, true)⟩, .value, 3⟩, ⟨⟨b!"char", 1, none⟩, .value, 0⟩, ⟨⟨b!"double", 8, none⟩, .pointer, 2⟩,
   ⟨⟨b!"Name", 24, some (true, true)⟩, .reference, 1⟩]

/-- Its parameters in call order. -/
def sampleOrder : List Param :=
  [⟨⟨b!"char", 1, none⟩, .value, 0⟩, ⟨⟨b!"Name", 24, some (true, true)⟩, .reference, 1⟩, ⟨⟨b!"double", 8, none⟩, .pointer, 2⟩,
   ⟨⟨b!"Name", 24, some (true, true)⟩, .value, 3⟩]

/-- The hypotheses are met; a use that fails at the third parameter, one that succeeds, and the destructor log one and two
constructions, each with its destruction. -/
example : Function sampleParams sampleOrder ∧
    (match lifetime [⟨sampleParams, true, fun i => i != 2⟩, ⟨sampleParams, true, fun _ => true⟩] with
      | .ok c => c.log
      | _ => []) =
      [.construct ⟨b!"Name", 24, some (true, true)⟩ 1 1, .destroy ⟨b!"Name", 24, some (true, true)⟩ 1 1,
       .construct ⟨b!"Name", 24, some (true, true)⟩ 1 1, .construct ⟨b!"Name", 24, some (true, true)⟩ 1 33,
       .destroy ⟨b!"Name", 24, some (true, true)⟩ 1 1, .destroy ⟨b!"Name", 24, some (true, true)⟩ 1 33] := by
  refine ⟨⟨?_, by decide, by decide, ?_⟩, by decide +kernel⟩
  · exact (List.perm_iff_count.2 fun a => by
      simp only [sampleParams, sampleOrder, List.count_cons, List.count_nil]
      omega)
  · intro p hp x hx
    simp only [sampleOrder, List.mem_cons, List.not_mem_nil, or_false] at hp
    rcases hp with rfl | rfl | rfl | rfl <;> cases hx <;> rfl

/-- A function of 16 integers. -/
def sixteen : List Param := (List.range 16).map fun i => ⟨⟨b!"int", 4, none⟩, .value, i⟩

theorem sixteen_function : Function sixteen sixteen := by
  refine ⟨List.Perm.refl _, by decide, by decide, ?_⟩
  intro p hp x hx
  obtain ⟨i, _, rfl⟩ := List.mem_map.1 hp
  cases hx

/-- C61 is false of 16 parameters: the cache can be built, but its destructor, and its next use, fail an assertion
(SerialiseFunction.cpp:60 compares the number of parameters, not the index). -/
theorem C61_sixteen_negation :
    (∃ c, builds {} [⟨sixteen, true, fun _ => true⟩] = .ok c ∧ c.params.length = 16 ∧ deleteObjects c = .trap ∧
      ∀ ps opens loads, build c ps opens loads = .trap) := by
  obtain ⟨b, k, c', h1, h2, h3, h4, h5, h6, h7, h8⟩ := build_ok good_new sixteen_function.order (by decide) sixteen_function.fits
    sixteen_function.paired true (fun _ => true)
  have hk : k = 16 := by
    have h3' : k ≤ 16 := h3
    refine Nat.le_antisymm h3' (Nat.le_of_not_lt fun hlt => ?_)
    rcases h4 hlt with h | ⟨j, _, h⟩ <;> cases h
  have hlen : c'.params.length = 16 := by
    rw [h5, descs_length, List.length_take, hk]; rfl
  have hdel : deleteObjects c' = .trap := by
    unfold deleteObjects
    cases hp : c'.params with
    | nil => rw [hp] at hlen; cases hlen
    | cons d ds =>
      rw [← hp, hlen, hp, deleteLoop, if_neg (by decide)]; rfl
  refine ⟨c', by rw [builds, h1]; rfl, hlen, hdel, fun ps opens loads => ?_⟩
  unfold build init
  rw [hdel]; rfl

/-- Nothing is aligned: behind a `char`, a `double` lies at an odd address of the block (AllocParameter adds up sizes). -/
theorem C54_unaligned_negation :
    ∃ c', build {} [⟨⟨b!"char", 1, none⟩, .value, 0⟩, ⟨⟨b!"double", 8, none⟩, .value, 1⟩] true (fun _ => true) = .ok (true, c') ∧
      c'.params.map Desc.off = [0, 1] := by
  refine ⟨_, rfl, by decide⟩

/-- **C54**, too many parameters: for a function with a parameter numbered 16 or more an assertion fails, whatever the text and whatever the
cache was used for before; nothing is written behind the sixteen entries. -/
theorem C54_seventeenth_refused (calls : List Call) (hk : ∀ k ∈ calls, k.Ok 15) {c : Cache} (hc : builds {} calls = .ok c) (ps : List Param)
    (ht : 3 * (ps.map allocSize).sum ≤ 2 ^ 33) (hp : ∃ p ∈ ps, 16 ≤ p.offset) (opens : Bool) (loads : Nat → Bool) :
    build c ps opens loads = .trap := by
  obtain ⟨c0, h0, hg⟩ := builds_good calls hk {} good_new
  rw [hc] at h0
  cases h0
  obtain ⟨live, hl1, hl2⟩ := hg.live
  obtain ⟨es, hd, -⟩ := deleteLoop_ok hg.few c.params hg.block live hl2
  obtain ⟨c1, h1, -⟩ := init_ok hg.buf (ps := ps) ht hd
  obtain ⟨p, hp1, hp2⟩ := hp
  have hall : ps.all (fun p => decide (p.offset < 16)) = false := by
    rw [List.all_eq_false]
    exact ⟨p, hp1, by simpa using hp2⟩
  unfold build
  rw [h1]
  simp only [Res.bind_ok, hall, Bool.false_eq_true, if_false]

/-- A function of 17 integers. -/
example : build {} ((List.range 17).map fun i => ⟨⟨b!"int", 4, none⟩, .value, i⟩) true (fun _ => true) = .trap :=
  C54_seventeenth_refused [] (by simp) rfl _ (by decide) ⟨⟨⟨b!"int", 4, none⟩, .value, 16⟩, by decide, by decide⟩ _ _

/-- C61 needs types that have both a constructor and a destructor or neither: what has only a constructor is never destroyed, and what has
only a destructor is destroyed without having been constructed. -/
theorem C61_unpaired_negation :
    (∃ c, lifetime [⟨[⟨⟨b!"A", 4, some (true, false)⟩, .value, 0⟩], true, fun _ => true⟩] = .ok c ∧
      c.log = [.construct ⟨b!"A", 4, some (true, false)⟩ 1 0]) ∧
    (∃ c, lifetime [⟨[⟨⟨b!"A", 4, some (false, true)⟩, .value, 0⟩], true, fun _ => true⟩] = .ok c ∧
      c.log = [.destroy ⟨b!"A", 4, some (false, true)⟩ 1 0]) :=
  ⟨⟨_, rfl, by decide⟩, ⟨_, rfl, by decide⟩⟩

end Clr.Params
