import Verif.Model.ImageRead
import Verif.Proofs.Image5
/-
Lemmas for C84: lookups in memory agree with lookups in the database the memory holds.
-/
namespace Clr.Image
open Clr Clr.Reloc Clr.Layout
open Clr.Search (toInt32)
open Clr.Export (K Slot Ref Ptr St)

theorem searchLoop_eq {α : Type} {entries : List α} {key : α → UInt32} {hash : Int → Res UInt32} {h : UInt32}
    (H : ∀ i, hash i = (Search.at' entries i).bind fun e => .ok (key e)) (first last : Int) :
    searchLoop hash h first last = Search.bsLoop entries key h first last := by
  induction first, last using Search.bsLoop.induct (entries := entries) (key := key) (h := h) with
  | case1 f l hfl ho => rw [searchLoop, Search.bsLoop, dif_pos hfl, dif_pos hfl, if_pos ho, if_pos ho]
  | case2 f l hfl ho mid e he hlt ih =>
    rw [searchLoop, Search.bsLoop, dif_pos hfl, dif_pos hfl, if_neg ho, if_neg ho]
    simp only [H]
    rw [he, Res.bind]
    simp only []
    rw [if_pos hlt, if_pos hlt]
    exact ih
  | case3 f l hfl ho mid e he hlt hgt ih =>
    rw [searchLoop, Search.bsLoop, dif_pos hfl, dif_pos hfl, if_neg ho, if_neg ho]
    simp only [H]
    rw [he, Res.bind]
    simp only []
    rw [if_neg hlt, if_neg hlt, if_pos hgt, if_pos hgt]
    exact ih
  | case4 f l hfl ho mid e he hlt hgt =>
    rw [searchLoop, Search.bsLoop, dif_pos hfl, dif_pos hfl, if_neg ho, if_neg ho]
    simp only [H]
    rw [he, Res.bind]
    simp only []
    rw [if_neg hlt, if_neg hlt, if_neg hgt, if_neg hgt]
  | case5 f l hfl ho mid he =>
    rw [searchLoop, Search.bsLoop, dif_pos hfl, dif_pos hfl, if_neg ho, if_neg ho]
    simp only [H]
    rw [he, Res.bind]
  | case6 f l hfl ho mid he =>
    rw [searchLoop, Search.bsLoop, dif_pos hfl, dif_pos hfl, if_neg ho, if_neg ho]
    simp only [H]
    rw [he, Res.bind]
  | case7 f l hfl => rw [searchLoop, Search.bsLoop, dif_neg hfl, dif_neg hfl]

theorem read_holds {base : Nat} {img : Bytes} {o w v : Nat} (h : Holds base img (o, .num w v)) :
    read base img (base + o) w = .ok v := by
  obtain ⟨h1, h2⟩ := h
  unfold read
  rw [if_pos (by omega), show base + o - base = o by omega]
  exact congrArg _ h2

theorem read_ptr {base : Nat} {img : Bytes} {o t : Nat} (h : Holds base img (o, .ptr (some t))) :
    read base img (base + o) 8 = .ok (base + t) := read_holds (word_num.1 h)

/-- An array in memory at offset `o` with these entries, given by the offsets of their addresses. -/
structure ArrayIs (base : Nat) (img : Bytes) (o n stride : Nat) (at' : Nat → Nat) : Prop where
  size : read base img (base + o + offsetOf cArray b!"size") 4 = .ok n
  entry : ∀ i < n, ∃ data, read base img (base + o + offsetOf cArray b!"data") 8 = .ok data ∧
    data + i * stride = base + at' i

theorem array_is {base : Nat} {img : Bytes} {o n stride : Nat} {data : Option Nat}
    (h : ∀ c ∈ arrayCells o n data, Holds base img c) (hd : n ≠ 0 → data ≠ none) :
    ArrayIs base img o n stride (fun i => data.getD 0 + i * stride) := by
  have h1 := read_holds (h _ (by simp [arrayCells] : (o + offsetOf cArray b!"size", Val.num 4 n) ∈ _))
  refine ⟨by rw [Nat.add_assoc]; exact h1, ?_⟩
  intro i hi
  cases data with
  | none => exact absurd rfl (hd (by omega))
  | some t =>
    have h2 := read_ptr (h _ (by simp [arrayCells] : (o + offsetOf cArray b!"data", Val.ptr (some t)) ∈ _))
    refine ⟨base + t, by rw [Nat.add_assoc]; exact h2, ?_⟩
    simp only [Option.getD_some]
    omega

theorem element_eq {base : Nat} {img : Bytes} {o n stride : Nat} {at' : Nat → Nat} (A : ArrayIs base img o n stride at')
    (i : Int) : element base img (base + o) stride i =
      if (i % 2 ^ 32).toNat < n then .ok (base + at' (i % 2 ^ 32).toNat) else .trap := by
  unfold element
  rw [A.size, Res.bind]
  split
  · rename_i hlt
    obtain ⟨data, h1, h2⟩ := A.entry _ hlt
    rw [h1, Res.bind, h2]
  · rfl

theorem entryHash_eq {α : Type} {entries : List α} {key : α → UInt32} {base : Nat} {img : Bytes} {o stride : Nat}
    {at' : Nat → Nat} {f : Fetch} (A : ArrayIs base img o entries.length stride at')
    (hf : ∀ i e, entries[i]? = some e → fetchHash base img (base + at' i) f = .ok (key e)) (i : Int) :
    entryHash base img (base + o) stride f i = (Search.at' entries i).bind fun e => .ok (key e) := by
  unfold entryHash Search.at'
  rw [element_eq A]
  split
  · rename_i hlt
    rw [Res.bind, hf _ _ (List.getElem?_eq_getElem hlt), List.getElem?_eq_getElem hlt]
    rfl
  · rename_i hlt
    rw [List.getElem?_eq_none (by omega)]
    rfl

theorem searchMem_eq {α : Type} {entries : List α} {key : α → UInt32} {base : Nat} {img : Bytes} {o stride : Nat}
    {at' : Nat → Nat} {f : Fetch} (A : ArrayIs base img o entries.length stride at')
    (hf : ∀ i e, entries[i]? = some e → fetchHash base img (base + at' i) f = .ok (key e)) (h : UInt32) :
    searchMem base img (base + o) stride f h = Search.binarySearch entries key h := by
  unfold searchMem Search.binarySearch
  rw [A.size, Res.bind]
  exact searchLoop_eq (entryHash_eq A hf) _ _

/-- A lookup in memory. -/
theorem lookup_eq {α β : Type} {entries : List α} {key : α → UInt32} {base : Nat} {img : Bytes} {o stride : Nat}
    {at' : Nat → Nat} {f : Fetch} (A : ArrayIs base img o entries.length stride at')
    (hf : ∀ i e, entries[i]? = some e → fetchHash base img (base + at' i) f = .ok (key e)) (h : UInt32) {g : Nat → Res β}
    {g' : α → β} (hg : ∀ i e, entries[i]? = some e → g (base + at' i) = .ok (g' e)) (z : β) :
    ((searchMem base img (base + o) stride f h).bind fun i =>
      if i = -1 then .ok z else (element base img (base + o) stride i).bind g) =
    (Search.find entries key h).bind fun r => .ok (r.elim z g') := by
  rw [searchMem_eq A hf]
  unfold Search.find
  cases Search.binarySearch entries key h with
  | trap => rfl
  | ub => rfl
  | ok i =>
    rw [Res.bind]
    show _ = Res.bind (if i = -1 then Res.ok none else (Search.at' entries i).bind fun e => .ok (some e)) _
    split
    · rfl
    · rw [element_eq A]
      unfold Search.at'
      split
      · rename_i hlt
        rw [Res.bind, hg _ _ (List.getElem?_eq_getElem hlt), List.getElem?_eq_getElem hlt]
        rfl
      · rename_i hlt
        rw [List.getElem?_eq_none (by omega)]
        rfl

section
variable {p : Place} {d : Data} {size db base : Nat} {img : Bytes} (L : Laid p d size) (N : Linked d)
  (R : Represents p d db base img)

theorem hash_cell (p : Place) (d : Data) (db : Nat) (r : Ref) (hk : r.1 ≠ .container) :
    (8, .num 4 (d.st.get r).hash.toNat) ∈ objectCells p d db r := by
  obtain ⟨k, i⟩ := r
  cases k <;> simp [objectCells, typeCells, primCells, nameCells, off_primitive_name, off_name_hash] at hk ⊢

include R
theorem read_hash {r : Ref} (hr : Exists d r) (hk : r.1 ≠ .container) :
    (read base img (base + p.at r + 8) 4).map UInt32.ofNat = .ok (d.st.get r).hash := by
  have := read_holds (rep_object R hr _ (hash_cell p d db r hk))
  simp only [] at this
  rw [Nat.add_assoc, this]
  show Res.ok _ = _
  rw [UInt32.ofNat_toNat]

/-- A pointer array in memory with these entries. -/
theorem pointers_eq {o : Nat} {l : List Ref} {data : Option Nat} (h : ∀ c ∈ arrayCells o l.length data, Holds base img c)
    (hd : l ≠ [] → data ≠ none) (he : ∀ c ∈ optEntries p data l, Holds base img c) (hx : ∀ r ∈ l, Exists d r)
    (hk : ∀ r ∈ l, r.1 ≠ .container) (n : UInt32) :
    findPrimitive base img (base + o) n =
      (Search.find l (fun r => (d.st.get r).hash) n).bind fun r => .ok (r.elim 0 fun r => base + p.at r) := by
  have A := array_is (stride := 8) h (fun hn => hd (fun e => hn (by rw [e]; rfl)))
  have hread : ∀ i r, l[i]? = some r → read base img (base + (data.getD 0 + i * 8)) 8 = .ok (base + p.at r) := by
    intro i r hr
    cases data with
    | none => exact absurd rfl (hd (fun e => by rw [e] at hr; cases hr))
    | some t =>
      refine read_ptr (he (t + i * 8, .ptr (some (p.at r))) ?_)
      unfold optEntries entryCells
      rw [List.mem_map]
      exact ⟨(r, i), by rw [List.mem_zipIdx_iff_getElem?]; exact hr, rfl⟩
  unfold findPrimitive
  refine lookup_eq (key := fun r => (d.st.get r).hash) (f := .pointer) A ?_ n (g := fun e => read base img e 8)
    (g' := fun r => base + p.at r) ?_ 0
  · intro i r hr
    have hm := List.mem_of_getElem? hr
    unfold fetchHash
    simp only []
    rw [hread i r hr, Res.bind, off_primitive_name, off_name_hash]
    exact read_hash R (hx r hm) (hk r hm)
  · intro i r hr
    exact hread i r hr

include N

theorem getType_eq (n : UInt32) : getType base img n =
    (Search.find d.st.typePrims (fun r => (d.st.get r).hash) n).bind fun r => .ok (r.elim 0 fun r => base + p.at r) := by
  unfold getType
  refine pointers_eq R (data := some p.typePrims) (fun c hc => rep_header R c (header_types p d c hc)) (by simp)
    (rep_array R (cs := entryCells p p.typePrims d.st.typePrims)
      (fun c hc => by unfold pointerArrays; simp only [List.mem_append]; exact .inl (.inl hc)))
    (fun r hr => ((N.types r).1 hr).2) ?_ n
  intro r hr
  have := ((N.types r).1 hr).1
  intro e
  rw [e] at this
  revert this
  decide

include L

theorem findKids_eq {r : Ref} (hr : Exists d r) {s : Slot} (hs : s ∈ slotsOf r.1)
    (hk : ∀ x ∈ (d.st.get r).kids s, x.1 ≠ .container) (n : UInt32) :
    findPrimitive base img (base + (p.at r + offsetOf (structOf r.1) (slotName s))) n =
      (Search.find ((d.st.get r).kids s) (fun r => (d.st.get r).hash) n).bind fun r => .ok (r.elim 0 fun r => base + p.at r) := by
  refine pointers_eq R (data := p.kids r s) ?_ (L.kids r s hr hs) ?_ ((N.objects r hr).kids s) hk n
  · intro c hc
    rw [← shift_array] at hc
    obtain ⟨c', hc', rfl⟩ := List.mem_map.1 hc
    exact rep_object R hr c' (kids_sub p d db r s hs c' hc')
  · refine rep_array R ?_
    intro c hc
    unfold pointerArrays
    simp only [List.mem_append]
    exact .inr (List.mem_flatMap.2 ⟨r.1, mem_kinds _, List.mem_flatMap.2 ⟨r, mem_all.2 ⟨rfl, hr⟩,
      List.mem_flatMap.2 ⟨s, hs, hc⟩⟩⟩)

omit N L in
theorem getEntry_eq {k : K} (hk : k ≠ .container) (n : UInt32) : getEntry base img k n =
    (Search.find (d.st.all k) (fun r => (d.st.get r).hash) n).bind fun r => .ok (r.elim 0 fun r => base + p.at r) := by
  have hl : (d.st.all k).length = d.st.count k := by unfold Export.St.all; simp
  have A := array_is (base := base) (img := img) (stride := stride k)
    (fun c hc => rep_header R c (header_table p d k c hc)) (by simp)
  rw [← hl] at A
  have hat : ∀ i r, (d.st.all k)[i]? = some r → (some (p.table k)).getD 0 + i * stride k = p.at r ∧ Exists d r ∧ r.1 = k := by
    intro i r hr
    unfold Export.St.all at hr
    rw [List.getElem?_map, Option.map_eq_some_iff] at hr
    obtain ⟨j, hj, rfl⟩ := hr
    rw [List.getElem?_eq_some_iff] at hj
    obtain ⟨hlt, hj⟩ := hj
    rw [List.getElem_range] at hj
    subst hj
    rw [List.length_range] at hlt
    exact ⟨rfl, hlt, rfl⟩
  unfold getEntry
  have := lookup_eq (key := fun r => (d.st.get r).hash) (f := .primitive) A ?_ n (g := fun e => .ok e)
    (g' := fun r => base + p.at r) ?_ 0
  · rw [← this]
    congr 1
    funext i
    split
    · rfl
    · cases element base img (base + offsetOf databaseMem (tableMember k)) (stride k) i <;> rfl
  · intro i r hr
    obtain ⟨h1, h2, h3⟩ := hat i r hr
    unfold fetchHash
    simp only []
    rw [h1, off_primitive_name, off_name_hash]
    exact read_hash R h2 (by rw [h3]; exact hk)
  · intro i r hr
    rw [(hat i r hr).1]

omit N L in
/-- The entry of a name. -/
theorem getName_eq (n : UInt32) : getName base img n =
    (Search.find (d.names.zipIdx) (fun e => e.1.1) n).bind fun e =>
      .ok (e.elim (0, 0) fun e => (e.1.1.toNat, base + p.nameAt e.2)) := by
  have hl : d.names.zipIdx.length = d.names.length := by simp
  have A := array_is (base := base) (img := img) (stride := name.lay.size)
    (fun c hc => rep_header R c (header_names p d c hc)) (by simp)
  rw [← hl] at A
  have hin : ∀ i e, d.names.zipIdx[i]? = some e → e.2 = i ∧
      ∀ c ∈ nameCells (p.names + i * name.lay.size) e.1.1 (some (p.nameAt i)), Holds base img c := by
    intro i e he
    have he2 : e ∈ d.names.zipIdx := List.mem_of_getElem? he
    rw [List.getElem?_zipIdx] at he
    rw [Option.map_eq_some_iff] at he
    obtain ⟨a, ha, rfl⟩ := he
    refine ⟨by simp, ?_⟩
    intro c hc
    apply R
    unfold cells
    simp only [List.mem_append]
    refine .inl (.inl (.inl (.inr ?_)))
    unfold nameTable
    rw [List.mem_flatMap]
    exact ⟨_, he2, by simpa using hc⟩
  unfold getName
  refine lookup_eq (key := fun e : (UInt32 × Bytes) × Nat => e.1.1) (f := .name) A ?_ n
    (g := fun e => (read base img (e + offsetOf name b!"hash") 4).bind fun hash =>
      (read base img (e + offsetOf name b!"text") 8).bind fun text => .ok (hash, text))
    (g' := fun e => (e.1.1.toNat, base + p.nameAt e.2)) ?_ (0, 0)
  · intro i e he
    obtain ⟨h1, h2⟩ := hin i e he
    have h3 := read_holds (h2 _ (List.mem_cons_self ..))
    unfold fetchHash
    simp only [Option.getD_some]
    rw [Nat.add_assoc, h3]
    show Res.ok _ = _
    rw [UInt32.ofNat_toNat]
  · intro i e he
    obtain ⟨h1, h2⟩ := hin i e he
    have h3 := read_holds (h2 _ (List.mem_cons_self ..))
    have h4 := read_ptr (h2 _ (List.mem_cons_of_mem _ (List.mem_cons_self ..)))
    simp only [Option.getD_some]
    rw [Nat.add_assoc, h3, Res.bind, Nat.add_assoc, h4, Res.bind, h1]

omit N L R in
theorem readText_eq {o : Nat} {t : Bytes} (h : Holds base img (textCell o t)) (ht : 0 ∉ t) :
    readText base img (base + o) = .ok t := by
  unfold readText
  rw [if_pos (by omega), show base + o - base = o by omega]
  have h' : (img.drop o).take (t ++ [0]).length = t ++ [0] := h
  have : img.drop o = t ++ ([0] ++ (img.drop o).drop (t ++ [0]).length) := by
    rw [← List.append_assoc]
    conv => lhs; rw [← List.take_append_drop (t ++ [0]).length (img.drop o)]
    rw [h']
  have hs : ∀ (t rest : Bytes), 0 ∉ t → (t ++ (0 :: rest)).takeWhile (· != 0) = t ∧
      (t ++ (0 :: rest)).dropWhile (· != 0) = 0 :: rest := by
    intro t rest hn
    induction t with
    | nil => exact ⟨rfl, rfl⟩
    | cons a t ih =>
      have ha : (a != 0) = true := by
        simp only [bne_iff_ne, ne_eq]
        intro e
        exact hn (by rw [e]; exact List.mem_cons_self ..)
      have ih' := ih (fun hm => hn (List.mem_cons_of_mem _ hm))
      rw [List.cons_append, List.takeWhile_cons, List.dropWhile_cons, ha]
      simp only [if_true]
      exact ⟨by rw [ih'.1], ih'.2⟩
  obtain ⟨h1, h2⟩ := hs t ((img.drop o).drop (t ++ [0]).length) ht
  have this' : img.drop o = t ++ (0 :: (img.drop o).drop (t ++ [0]).length) := this
  rw [← this'] at h1 h2
  rw [h2, h1]
end

end Clr.Image
