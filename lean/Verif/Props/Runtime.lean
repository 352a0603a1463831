import Verif.Model.Runtime
import Verif.Props.Reloc
/-!
C82: the memory of a database is taken once, kept as long as the database is loaded, and given back once to the
allocator it came from.
-/
namespace Clr.Runtime
open Clr.Reloc

/-! ### What a load leaves behind -/

/-- The number of blocks a load of the file leaves behind for good: none if the header is not that of a database or if
the file is long enough for all it announces; otherwise those that were taken before it came to an end. -/
def leakOf (file : Bytes) : Nat :=
  if ¬ (32 ≤ file.length ∧ num file 0 4 = 0x70636C63 ∧ num file 4 4 = 0x00626470 ∧ num file 8 4 = 2) then 0
  else if file.length < 32 + num file 24 8 + 24 * num file 12 4 then 1
  else if file.length < 32 + num file 24 8 + 24 * num file 12 4 + 8 * num file 16 4 then 2
  else if file.length < 32 + num file 24 8 + 24 * num file 12 4 + 8 * num file 16 4 + 24 * num file 20 4 then 3
  else 0

theorem free_front (a id : Nat) (n : Nat) (l : List (Nat × Nat)) : free a id ⟨n, (a, id) :: l⟩ = .ok ⟨n, l⟩ := by
  simp [free]

theorem readArray_none {β : Type} {w : Nat} {f : Bytes → β} {n : Nat} {file : Bytes} :
    readArray w f n file = none ↔ file.length < n * w := by
  unfold readArray takeN
  by_cases h : file.length < n * w
  · simp [h]
  · simp [h]

theorem readArray_some {β : Type} {w : Nat} {f : Bytes → β} {n : Nat} {file rest : Bytes} {l : List β}
    (h : readArray w f n file = some (l, rest)) : rest = file.drop (n * w) ∧ n * w ≤ file.length := by
  unfold readArray takeN at h
  by_cases hl : file.length < n * w
  · simp [hl] at h
  · simp [hl] at h
    exact ⟨h.2.symm, by omega⟩

theorem readArrayMem_none {β : Type} {a w : Nat} {f : Bytes → β} {n : Nat} {file : Bytes} {wd : World}
    (h : readArray w f n file = none) : readArrayMem a w f n file wd = .ok (none, ⟨wd.next + 1, wd.live⟩) := by
  simp only [readArrayMem, alloc, h, free_front]
  rfl

theorem readArrayMem_some {β : Type} {a w : Nat} {f : Bytes → β} {n : Nat} {file rest : Bytes} {l : List β} {wd : World}
    (h : readArray w f n file = some (l, rest)) :
    readArrayMem a w f n file wd = .ok (some (l, rest, wd.next), ⟨wd.next + 1, (a, wd.next) :: wd.live⟩) := by
  simp only [readArrayMem, alloc, h]

/-- Blocks that were taken from an allocator since. -/
structure Blocks (a lo hi : Nat) (l : List (Nat × Nat)) : Prop where
  le : lo ≤ hi
  nodup : l.Nodup
  fresh : ∀ b ∈ l, b.1 = a ∧ lo ≤ b.2 ∧ b.2 < hi

/-- A load with its memory, next to one without. -/
inductive Outcome (a : Nat) (w : World) (file : Bytes) : Res (Option Bytes) → Res (Option (Nat × Bytes) × World) → Prop where
  | loaded (out : Bytes) (n' : Nat) (h : leakOf file = 0) (hn : w.next < n') :
      Outcome a w file (.ok (some out)) (.ok (some (w.next, out), ⟨n', (a, w.next) :: w.live⟩))
  | rejected (n' : Nat) (lk : List (Nat × Nat)) (h : lk.length = leakOf file) (hb : Blocks a w.next n' lk) :
      Outcome a w file (.ok none) (.ok (none, ⟨n', lk ++ w.live⟩))
  | trap : Outcome a w file .trap .trap
  | ub : Outcome a w file .ub .ub

theorem Outcome.leak {a : Nat} {w : World} {file : Bytes} (n' : Nat) (lk : List (Nat × Nat)) (live : List (Nat × Nat))
    (hl : live = lk ++ w.live) (h : lk.length = leakOf file) (hb : Blocks a w.next n' lk) :
    Outcome a w file (.ok none) (.ok (none, ⟨n', live⟩)) := by
  subst hl; exact .rejected n' lk h hb

theorem blocks1 (a n : Nat) : Blocks a n (n + 1 + 1) [(a, n)] :=
  ⟨by omega, by simp, by intro b hb; simp at hb; subst hb; exact ⟨rfl, Nat.le_refl _, by show n < _; omega⟩⟩

theorem blocks2 (a n : Nat) : Blocks a n (n + 1 + 1 + 1) [(a, n + 1), (a, n)] :=
  ⟨by omega, by simp, by
    intro b hb; simp at hb
    rcases hb with rfl | rfl
    · exact ⟨rfl, by show n ≤ n + 1; omega, by show n + 1 < _; omega⟩
    · exact ⟨rfl, Nat.le_refl _, by show n < _; omega⟩⟩

theorem blocks3 (a n : Nat) : Blocks a n (n + 1 + 1 + 1 + 1) [(a, n + 2), (a, n + 1), (a, n)] :=
  ⟨by omega, by simp, by
    intro b hb; simp at hb
    rcases hb with rfl | rfl | rfl
    · exact ⟨rfl, by show n ≤ n + 2; omega, by show n + 2 < _; omega⟩
    · exact ⟨rfl, by show n ≤ n + 1; omega, by show n + 1 < _; omega⟩
    · exact ⟨rfl, Nat.le_refl _, by show n < _; omega⟩⟩

theorem load_outcome (place : Nat → Nat) (a : Nat) (file : Bytes) (w : World) :
    Outcome a w file (loadImage (place w.next) file) (loadMem place a file w) := by
  unfold loadImage loadMem
  by_cases h1 : file.length < 32
  · have : takeN 32 file = none := by unfold takeN; rw [if_pos h1]
    rw [this]
    refine .leak w.next [] w.live rfl ?_ ⟨Nat.le_refl _, List.nodup_nil, by simp⟩
    rw [leakOf, if_pos (by omega)]; rfl
  · have ht : takeN 32 file = some (file.take 32, file.drop 32) := by unfold takeN; rw [if_neg h1]
    rw [ht]
    simp only [loadArrays]
    repeat rw [num_take (by omega)]
    generalize hD : num file 24 8 = D
    generalize hS : num file 12 4 = S
    generalize hO : num file 16 4 = O
    generalize hR : num file 20 4 = R
    by_cases hv : num file 8 4 = version
    · have hv2 : ¬ num file 8 4 ≠ version := by simp [hv]
      rw [if_neg hv2, if_neg hv2]
      by_cases hsig : num file 0 4 ≠ signature0 ∨ num file 4 4 ≠ signature1
      · rw [if_pos hsig, if_pos hsig]
        refine .leak w.next [] w.live rfl ?_ ⟨Nat.le_refl _, List.nodup_nil, by simp⟩
        rw [leakOf, if_pos]; · rfl
        unfold signature0 signature1 at hsig
        omega
      · rw [if_neg hsig, if_neg hsig]
        have hsig' : num file 0 4 = 0x70636C63 ∧ num file 4 4 = 0x00626470 := by
          unfold signature0 signature1 at hsig; omega
        have hv' : num file 8 4 = 2 := hv
        have hleak : leakOf file = if file.length < 32 + D + 24 * S then 1
            else if file.length < 32 + D + 24 * S + 8 * O then 2
            else if file.length < 32 + D + 24 * S + 8 * O + 24 * R then 3 else 0 := by
          rw [leakOf, if_neg (by omega), hD, hS, hO, hR]
        have b1 : Blocks a w.next (w.next + 1) [(a, w.next)] := ⟨by omega, by simp, by simp⟩
        unfold takeN
        rw [List.length_drop]
        by_cases hd : file.length - 32 < D
        · rw [if_pos hd]
          refine .leak _ [(a, w.next)] _ rfl ?_ b1
          rw [hleak, if_pos (by omega)]; rfl
        · rw [if_neg hd]
          simp only [alloc]
          rw [readArray_eq]
          simp only [List.length_drop, List.drop_drop]
          by_cases hs : file.length - (32 + D) < S * 24
          · rw [if_pos hs, readArrayMem_none (by rw [readArray_none]; simpa using hs)]
            refine .leak (w.next + 1 + 1) [(a, w.next)] _ rfl ?_ (blocks1 a w.next)
            rw [hleak, if_pos (by omega)]; rfl
          · rw [if_neg hs, readArrayMem_some (l := entries 24 parseSchema S ((file.drop (32 + D)).take (S * 24)))
              (rest := file.drop (32 + D + S * 24)) (by rw [readArray_eq]; simp [hs, List.drop_drop])]
            simp only [Res.bind_ok]
            rw [readArray_eq]
            simp only [List.length_drop, List.drop_drop]
            by_cases ho : file.length - (32 + D + S * 24) < O * 8
            · rw [if_pos ho, readArrayMem_none (by rw [readArray_none]; simpa using ho)]
              refine .leak (w.next + 1 + 1 + 1) [(a, w.next + 1), (a, w.next)] _ rfl ?_ (blocks2 a w.next)
              rw [hleak, if_neg (by omega), if_pos (by omega)]; rfl
            · rw [if_neg ho, readArrayMem_some (l := entries 8 unle O ((file.drop (32 + D + S * 24)).take (O * 8)))
                (rest := file.drop (32 + D + S * 24 + O * 8)) (by rw [readArray_eq]; simp [ho, List.drop_drop])]
              simp only [Res.bind_ok]
              rw [readArray_eq]
              simp only [List.length_drop, List.drop_drop]
              by_cases hr : file.length - (32 + D + S * 24 + O * 8) < R * 24
              · rw [if_pos hr, readArrayMem_none (by rw [readArray_none]; simpa using hr)]
                refine .leak (w.next + 1 + 1 + 1 + 1) [(a, w.next + 2), (a, w.next + 1), (a, w.next)] _ rfl ?_ (blocks3 a w.next)
                rw [hleak, if_neg (by omega), if_neg (by omega), if_pos (by omega)]; rfl
              · rw [if_neg hr, readArrayMem_some
                  (l := entries 24 parseRel R ((file.drop (32 + D + S * 24 + O * 8)).take (R * 24)))
                  (rest := file.drop (32 + D + S * 24 + O * 8 + R * 24)) (by rw [readArray_eq]; simp [hr, List.drop_drop])]
                simp only [Res.bind_ok]
                generalize loop _ _ _ = x
                cases x with
                | ok img =>
                  simp only [Res.bind_ok, release, free_front]
                  refine .loaded img _ ?_ ?_
                  · rw [hleak, if_neg (by omega), if_neg (by omega), if_neg (by omega)]
                  · show w.next < _
                    omega
                | trap => exact .trap
                | ub => exact .ub
    · rw [if_pos hv, if_pos hv]
      refine .leak w.next [] w.live rfl ?_ ⟨Nat.le_refl _, List.nodup_nil, by simp⟩
      rw [leakOf, if_pos]; · rfl
      unfold version at hv
      omega

/-! ### Histories -/

/-- The block a database holds. -/
def holds : Option Db → Option (Nat × Nat)
  | some ⟨a, some (id, _)⟩ => some (a, id)
  | _ => none

/-- The blocks all databases hold. -/
def owned (dbs : List (Option Db)) : List (Nat × Nat) := dbs.filterMap holds

/-- The blocks that loads of a history leave behind. -/
def leaks (ops : List Op) : Nat :=
  (ops.map fun
    | .load _ _ _ _ file => leakOf file
    | _ => 0).sum

/-- The operation is about the memory of the database with this number. -/
def Op.about (i : Nat) : Op → Prop
  | .load j _ _ _ _ => j = i
  | .destroy j => j = i
  | _ => False

theorem owned_set {new : Option Db} {old : Option Db} {dbs : List (Option Db)} {i : Nat} (h : dbs[i]? = some old) :
    ((holds old).toList ++ owned (dbs.set i new)).Perm ((holds new).toList ++ owned dbs) := by
  induction dbs generalizing i with
  | nil => simp at h
  | cons d ds ih =>
    cases i with
    | zero =>
      simp only [List.getElem?_cons_zero, Option.some.injEq] at h
      subst h
      simp only [owned, List.set_cons_zero, List.filterMap_cons]
      cases holds d <;> cases holds new <;> simp [List.Perm.swap]
    | succ i =>
      simp only [List.getElem?_cons_succ] at h
      have := ih h
      simp only [owned, List.set_cons_succ, List.filterMap_cons] at this ⊢
      cases hd : holds d with
      | none => exact this
      | some b =>
        simp only [hd]
        exact List.perm_middle.trans ((this.cons b).trans List.perm_middle.symm)

/-- What is true of the state after any history. -/
structure Inv (ops : List Op) (s : St) : Prop where
  perm : ∃ lost, s.w.live.Perm (owned s.dbs ++ lost) ∧ lost.length = leaks ops
  nodup : s.w.live.Nodup
  ids : ∀ b ∈ s.w.live, b.2 < s.w.next

theorem leaks_append (ops : List Op) (o : Op) : leaks (ops ++ [o]) = leaks ops + leaks [o] := by
  simp [leaks]

theorem prepare_load {place : Nat → Nat} {self loadAddr id : Nat} {dr : Bool} {file img0 : Bytes}
    (h : loadImage (place id) file = .ok (some img0)) :
    Reloc.load (place id) loadAddr self dr file = (prepare (place id) loadAddr self dr img0).map some := by
  unfold Reloc.load
  rw [h]; rfl

/-- All of a load: the database gets what C14 to C16 are about, in a new block. -/
inductive Loads (place : Nat → Nat) (self a loadAddr : Nat) (dr : Bool) (file : Bytes) (w : World) :
    Res (Bool × Db × World) → Prop where
  | loaded (img : Bytes) (n' : Nat) (h : Reloc.load (place w.next) loadAddr self dr file = .ok (some img))
      (hl : leakOf file = 0) (hn : w.next < n') :
      Loads place self a loadAddr dr file w (.ok (true, ⟨a, some (w.next, img)⟩, ⟨n', (a, w.next) :: w.live⟩))
  | rejected (n' : Nat) (lk : List (Nat × Nat)) (h : Reloc.load (place w.next) loadAddr self dr file = .ok none)
      (hl : lk.length = leakOf file) (hb : Blocks a w.next n' lk) :
      Loads place self a loadAddr dr file w (.ok (false, ⟨a, none⟩, ⟨n', lk ++ w.live⟩))
  | trap (h : Reloc.load (place w.next) loadAddr self dr file = .trap) : Loads place self a loadAddr dr file w .trap
  | ub (h : Reloc.load (place w.next) loadAddr self dr file = .ub) : Loads place self a loadAddr dr file w .ub

theorem load_loads (place : Nat → Nat) (self a loadAddr : Nat) (dr : Bool) (file : Bytes) (d : Db) (w : World)
    (hd : d.mem = none) : Loads place self a loadAddr dr file w (d.load place self a loadAddr dr file w) := by
  unfold Db.load
  rw [hd]
  simp only [Option.isSome_none, Bool.false_eq_true, if_false]
  have o := load_outcome place a file w
  generalize hx : loadImage (place w.next) file = x at o
  generalize loadMem place a file w = y at o
  cases o with
  | loaded out n' hl hn =>
    have hp := prepare_load (self := self) (loadAddr := loadAddr) (dr := dr) hx
    simp only [Res.bind_ok]
    cases hq : prepare (place w.next) loadAddr self dr out with
    | ok img => rw [hq] at hp; exact .loaded img n' hp hl hn
    | trap => rw [hq] at hp; exact .trap hp
    | ub => rw [hq] at hp; exact .ub hp
  | rejected n' lk hl hb =>
    exact .rejected n' lk (by unfold Reloc.load; rw [hx]; rfl) hl hb
  | trap => exact .trap (by unfold Reloc.load; rw [hx]; rfl)
  | ub => exact .ub (by unfold Reloc.load; rw [hx]; rfl)

theorem step_inv {place self : Nat → Nat} {ops : List Op} {s s' : St} {o : Op} (h : Inv ops s)
    (hs : step place self s o = .ok s') : Inv (ops ++ [o]) s' := by
  obtain ⟨⟨lost, hp, hlost⟩, hnd, hid⟩ := h
  cases o with
  | create =>
    simp only [step, Res.ok.injEq] at hs
    subst hs
    have hz : owned (s.dbs ++ [some ⟨0, none⟩]) = owned s.dbs := by
      simp only [owned, List.filterMap_append]; exact List.append_nil _
    exact ⟨⟨lost, by rw [hz]; exact hp, by rw [leaks_append, hlost]; rfl⟩, hnd, hid⟩
  | query i =>
    simp only [step] at hs
    split at hs
    · split at hs
      · cases hs
        exact ⟨⟨lost, hp, by rw [leaks_append, hlost]; rfl⟩, hnd, hid⟩
      · cases hs
    · cases hs
  | destroy i =>
    simp only [step] at hs
    split at hs
    next d hd =>
      rw [Res.bind_eq_ok] at hs
      obtain ⟨w', hw, hs⟩ := hs
      cases hs
      have ho := owned_set (new := none) hd
      obtain ⟨al, mem⟩ := d
      cases mem with
      | none =>
        cases hw
        refine ⟨⟨lost, hp.trans (List.Perm.append_right lost ?_), by rw [leaks_append, hlost]; rfl⟩, hnd, hid⟩
        exact ho.symm
      | some m =>
        obtain ⟨id, img⟩ := m
        simp only [Db.destroy, free] at hw
        split at hw
        next hm =>
          cases hw
          refine ⟨⟨lost, ?_, by rw [leaks_append, hlost]; rfl⟩, hnd.erase _, fun b hb => hid b (List.mem_of_mem_erase hb)⟩
          have h1 : s.w.live.Perm ((al, id) :: (owned (s.dbs.set i none) ++ lost)) :=
            hp.trans (List.Perm.append_right lost ho.symm)
          have h2 := h1.erase (al, id)
          simpa using h2
        next => cases hw
    next => cases hs
  | load i a la dr file =>
    simp only [step] at hs
    split at hs
    next d hd =>
      rw [Res.bind_eq_ok] at hs
      obtain ⟨r, hr, hs⟩ := hs
      cases hs
      cases hm : d.mem with
      | some m => simp [Db.load, hm] at hr
      | none =>
        have hh : holds (some d) = none := by
          obtain ⟨al, mem⟩ := d
          cases hm; rfl
        have L := load_loads place (self i) a la dr file d s.w hm
        rw [hr] at L
        cases L with
        | loaded img n' h hl hn =>
          have ho := owned_set (new := some ⟨a, some (s.w.next, img)⟩) hd
          rw [hh] at ho
          refine ⟨⟨lost, ?_, ?_⟩, ?_, ?_⟩
          · exact (hp.cons _).trans (List.Perm.append_right lost ho.symm)
          · rw [leaks_append, hlost]; simp [leaks, hl]
          · refine List.nodup_cons.mpr ⟨fun hc => ?_, hnd⟩
            have := hid _ hc; simp at this
          · intro b hb
            rcases List.mem_cons.mp hb with rfl | hb
            · exact hn
            · exact Nat.lt_trans (hid b hb) hn
        | rejected n' lk h hl hb =>
          have ho := owned_set (new := some ⟨a, none⟩) hd
          rw [hh] at ho
          refine ⟨⟨lost ++ lk, ?_, ?_⟩, ?_, ?_⟩
          · refine List.perm_append_comm.trans ?_
            rw [← List.append_assoc]
            exact List.Perm.append_right lk (hp.trans (List.Perm.append_right lost ho.symm))
          · rw [leaks_append, List.length_append, hlost, hl]; simp [leaks]
          · refine List.nodup_append.mpr ⟨hb.nodup, hnd, fun x hx y hy hxy => ?_⟩
            subst hxy
            have := (hb.fresh x hx).2.1
            have := hid x hy
            omega
          · intro b hbm
            rcases List.mem_append.mp hbm with hbm | hbm
            · exact (hb.fresh b hbm).2.2
            · exact Nat.lt_of_lt_of_le (hid b hbm) hb.le
    next => cases hs

theorem run_append (place self : Nat → Nat) (s : St) (l m : List Op) :
    run place self s (l ++ m) = (run place self s l).bind fun s => run place self s m := by
  induction l generalizing s with
  | nil => rfl
  | cons o l ih =>
    simp only [List.cons_append, run]
    cases step place self s o with
    | ok s' => exact ih s'
    | trap => rfl
    | ub => rfl

/-- Induction over histories, from the front. -/
theorem run_induct {place self : Nat → Nat} {P : List Op → St → Prop} (h0 : P [] {})
    (hs : ∀ ops s o s', P ops s → step place self s o = .ok s' → P (ops ++ [o]) s') :
    ∀ {ops : List Op} {s : St}, run place self {} ops = .ok s → P ops s := by
  have key : ∀ (l : List Op) (pre : List Op) (s s' : St), P pre s → run place self s l = .ok s' → P (pre ++ l) s' := by
    intro l
    induction l with
    | nil => intro pre s s' hp hr; cases hr; simpa using hp
    | cons o l ih =>
      intro pre s s' hp hr
      simp only [run] at hr
      rw [Res.bind_eq_ok] at hr
      obtain ⟨t, ht, hr⟩ := hr
      have := ih (pre ++ [o]) t s' (hs pre s o t hp ht) hr
      simpa using this
  intro ops s hr
  simpa using key ops [] {} s h0 hr

theorem run_inv {place self : Nat → Nat} {ops : List Op} {s : St} (h : run place self {} ops = .ok s) : Inv ops s :=
  run_induct (P := Inv) ⟨⟨[], List.Perm.refl _, rfl⟩, List.nodup_nil, by simp⟩ (fun _ _ _ _ hi hs => step_inv hi hs) h

/-! ### The properties -/

/-- C82: after any history the blocks in use are those the loaded databases hold, each by one database and with the
allocator it came from, and those that failed loads left behind, as many as `leakOf` says of each. -/
theorem C82_memory {place self : Nat → Nat} {ops : List Op} {s : St} (h : run place self {} ops = .ok s) :
    (∃ lost, s.w.live.Perm (owned s.dbs ++ lost) ∧ lost.length = leaks ops) ∧ s.w.live.Nodup :=
  ⟨(run_inv h).perm, (run_inv h).nodup⟩

/-- C82: what a database holds is in use, by no other database. -/
theorem C82_kept {place self : Nat → Nat} {ops : List Op} {s : St} (h : run place self {} ops = .ok s)
    {i : Nat} {a id : Nat} {img : Bytes} (hi : s.dbs[i]? = some (some ⟨a, some (id, img)⟩)) :
    (a, id) ∈ s.w.live ∧ ∀ j b img', s.dbs[j]? = some (some ⟨b, some (id, img')⟩) → b = a → j = i := by
  obtain ⟨⟨lost, hp, _⟩, hnd, _⟩ := run_inv h
  have ho := owned_set (new := none) hi
  have h1 : s.w.live.Perm ((a, id) :: (owned (s.dbs.set i none) ++ lost)) :=
    hp.trans (List.Perm.append_right lost ho.symm)
  refine ⟨h1.mem_iff.mpr (List.mem_cons_self), ?_⟩
  intro j b img' hj hb
  subst hb
  apply Classical.byContradiction
  intro hne
  have h2 := (List.nodup_cons.mp (h1.nodup_iff.mp hnd)).1
  apply h2
  apply List.mem_append_left
  unfold owned
  refine List.mem_filterMap.mpr ⟨some ⟨b, some (id, img')⟩, ?_, rfl⟩
  refine List.mem_of_getElem? (i := j) ?_
  rw [List.getElem?_set_ne (fun e => hne e.symm)]
  exact hj

/-- C82: a database that is loaded holds what its last load read, at the place of its block and with the allocator of
that load. C14 to C16 say what that is. -/
theorem C82_loaded {place self : Nat → Nat} {ops : List Op} {s : St} (h : run place self {} ops = .ok s)
    {i : Nat} {a id : Nat} {img : Bytes} (hi : s.dbs[i]? = some (some ⟨a, some (id, img)⟩)) :
    ∃ pre la dr file post, ops = pre ++ .load i a la dr file :: post ∧ (∀ o ∈ post, ¬ o.about i) ∧
      Reloc.load (place id) la (self i) dr file = .ok (some img) := by
  refine run_induct (place := place) (self := self)
    (P := fun ops s => ∀ i a id img, s.dbs[i]? = some (some ⟨a, some (id, img)⟩) →
      ∃ pre la dr file post, ops = pre ++ .load i a la dr file :: post ∧ (∀ o ∈ post, ¬ o.about i) ∧
        Reloc.load (place id) la (self i) dr file = .ok (some img)) ?_ ?_ h i a id img hi
  · intro i a id img hi; simp at hi
  · intro ops s o s' ih hs i a id img hi
    have old : ∀ o : Op, ¬ o.about i → s.dbs[i]? = some (some ⟨a, some (id, img)⟩) →
        ∃ pre la dr file post, ops ++ [o] = pre ++ .load i a la dr file :: post ∧ (∀ o ∈ post, ¬ o.about i) ∧
        Reloc.load (place id) la (self i) dr file = .ok (some img) := by
      intro o hab hold
      obtain ⟨pre, la, dr, file, post, rfl, hpost, hl⟩ := ih i a id img hold
      refine ⟨pre, la, dr, file, post ++ [o], by simp, ?_, hl⟩
      intro x hx
      rcases List.mem_append.mp hx with hx | hx
      · exact hpost x hx
      · cases List.mem_singleton.mp hx; exact hab
    cases o with
    | create =>
      simp only [step, Res.ok.injEq] at hs
      subst hs
      refine old _ (fun h => h) ?_
      simp only [List.getElem?_append] at hi
      split at hi
      · exact hi
      · generalize i - s.dbs.length = k at hi
        cases k with
        | zero => simp at hi
        | succ k => simp at hi
    | query j =>
      simp only [step] at hs
      split at hs
      · split at hs
        · cases hs; exact old _ (fun h => h) hi
        · cases hs
      · cases hs
    | destroy j =>
      simp only [step] at hs
      split at hs
      next d hd =>
        rw [Res.bind_eq_ok] at hs
        obtain ⟨w', hw, hs⟩ := hs
        cases hs
        by_cases hj : j = i
        · subst hj
          simp only [List.getElem?_set] at hi
          simp at hi
        · simp only [List.getElem?_set_ne hj] at hi
          exact old _ hj hi
      next => cases hs
    | load j b la dr file =>
      simp only [step] at hs
      split at hs
      next d hd =>
        rw [Res.bind_eq_ok] at hs
        obtain ⟨r, hr, hs⟩ := hs
        cases hs
        by_cases hj : j = i
        · subst hj
          have hlt : j < s.dbs.length := (List.getElem?_eq_some_iff.mp hd).1
          simp only [List.getElem?_set, if_true, hlt, Option.some.injEq] at hi
          cases hm : d.mem with
          | some m => simp [Db.load, hm] at hr
          | none =>
            have L := load_loads place (self j) b la dr file d s.w hm
            rw [hr] at L
            cases L with
            | loaded img' n' h hl hn =>
              simp only [Db.mk.injEq, Option.some.injEq, Prod.mk.injEq] at hi
              obtain ⟨rfl, rfl, rfl⟩ := hi
              exact ⟨ops, la, dr, file, [], rfl, by simp, h⟩
            | rejected n' lk h hl hb => simp at hi
        · simp only [List.getElem?_set_ne hj] at hi
          exact old _ hj hi
      next => cases hs

/-- C82: as many blocks are in use as databases are loaded, and those left behind by failed loads. -/
theorem C82_count {place self : Nat → Nat} {ops : List Op} {s : St} (h : run place self {} ops = .ok s) :
    s.w.live.length = s.dbs.countP (fun d => (holds d).isSome) + leaks ops := by
  obtain ⟨⟨lost, hp, hl⟩, _, _⟩ := run_inv h
  rw [hp.length_eq, List.length_append, hl]
  congr 1
  unfold owned
  rw [List.length_filterMap_eq_countP]

/-- C82: a program that ends all its databases, and whose files are all complete or have another header, gives back all
it got. -/
theorem C82_all_given_back {place self : Nat → Nat} {ops : List Op} {s : St} (h : run place self {} ops = .ok s)
    (hd : ∀ d ∈ s.dbs, d = none) (hf : ∀ i a la dr file, Op.load i a la dr file ∈ ops → leakOf file = 0) :
    s.w.live = [] := by
  have hc := C82_count h
  have h0 : s.dbs.countP (fun d => (holds d).isSome) = 0 := by
    rw [List.countP_eq_zero]
    intro d hm
    rw [hd d hm]; simp [holds]
  have hl : leaks ops = 0 := by
    unfold leaks
    rw [List.sum_eq_zero_iff_forall_eq_nat]
    intro n hn
    obtain ⟨o, ho, rfl⟩ := List.mem_map.mp hn
    cases o with
    | load i a la dr file => exact hf i a la dr file ho
    | _ => rfl
  rw [h0, hl] at hc
  exact List.length_eq_zero_iff.mp hc

/-- C82: the end of a database always works, and gives back the block it holds and no other. -/
theorem C82_end {place self : Nat → Nat} {ops : List Op} {s : St} (h : run place self {} ops = .ok s) {i : Nat} {d : Db}
    (hi : s.dbs[i]? = some (some d)) :
    ∃ s', step place self s (.destroy i) = .ok s' ∧ s'.dbs = s.dbs.set i none ∧
      ∀ b, b ∈ s'.w.live ↔ b ∈ s.w.live ∧ holds (some d) ≠ some b := by
  obtain ⟨al, mem⟩ := d
  cases mem with
  | none =>
    refine ⟨⟨s.w, s.dbs.set i none⟩, by simp [step, hi, Db.destroy, pure], rfl, fun b => by simp [holds]⟩
  | some m =>
    obtain ⟨id, img⟩ := m
    have hk := (C82_kept h hi).1
    have hnd := (run_inv h).nodup
    refine ⟨⟨⟨s.w.next, s.w.live.erase (al, id)⟩, s.dbs.set i none⟩, ?_, rfl, ?_⟩
    · simp [step, hi, Db.destroy, free, hk, pure]
    · intro b
      show b ∈ s.w.live.erase (al, id) ↔ _
      rw [hnd.mem_erase_iff]
      simp only [holds, ne_eq, Option.some.injEq]
      constructor
      · rintro ⟨h1, h2⟩; exact ⟨h2, fun e => h1 e.symm⟩
      · rintro ⟨h1, h2⟩; exact ⟨fun e => h2 e.symm, h1⟩

/-- C82: after any history, an operation is undefined only if the database does not exist, if one that is not loaded is
asked, or if reading the file is undefined (C15 says when it is). Memory is never given back twice. -/
theorem C82_undefined_only {place self : Nat → Nat} {ops : List Op} {s : St} (h : run place self {} ops = .ok s) (o : Op) :
    step place self s o = .ub ↔
      match o with
      | .create => False
      | .destroy i => ∀ d, s.dbs[i]? ≠ some (some d)
      | .query i => ∀ d, s.dbs[i]? = some (some d) → holds (some d) = none
      | .load i _ la dr file => ∀ d, s.dbs[i]? = some (some d) →
          holds (some d) = none ∧ Reloc.load (place s.w.next) la (self i) dr file = .ub := by
  cases o with
  | create => simp [step]
  | destroy i =>
    constructor
    · intro hs d hd
      obtain ⟨s', h', _⟩ := C82_end h hd
      rw [h'] at hs; cases hs
    · intro hn
      simp only [step]
  | query i =>
    simp only [step]
    split
    next d hd =>
      obtain ⟨al, mem⟩ := d
      cases mem <;> simp [hd, holds]
    next hn => exact ⟨fun _ d hd => absurd hd (hn d), fun _ => rfl⟩
  | load i a la dr file =>
    simp only [step]
    split
    next d hd =>
      cases hm : d.mem with
      | some m =>
        have : holds (some d) = some (d.allocator, m.1) := by
          obtain ⟨al, mem⟩ := d; cases hm; rfl
        have hl : d.load place (self i) a la dr file s.w = .trap := by simp [Db.load, hm]
        rw [hl]
        refine ⟨fun hc => (by cases hc), fun hc => ?_⟩
        rw [(hc d hd).1] at this; cases this
      | none =>
        have hh : holds (some d) = none := by obtain ⟨al, mem⟩ := d; cases hm; rfl
        have L := load_loads place (self i) a la dr file d s.w hm
        generalize d.load place (self i) a la dr file s.w = x at L
        have key : ∀ y, Reloc.load (place s.w.next) la (self i) dr file = y → y ≠ .ub →
            ¬ (∀ d, s.dbs[i]? = some (some d) → holds (some d) = none ∧ Reloc.load (place s.w.next) la (self i) dr file = .ub) :=
          fun y hy hne hc => hne (hy ▸ (hc d hd).2)
        cases L with
        | loaded img n' h hl hn => exact ⟨fun hc => by simp [pure] at hc, fun hc => absurd hc (key _ h (by simp))⟩
        | rejected n' lk h hl hb => exact ⟨fun hc => by simp [pure] at hc, fun hc => absurd hc (key _ h (by simp))⟩
        | trap h => exact ⟨fun hc => (by cases hc), fun hc => absurd hc (key _ h (by simp))⟩
        | ub h =>
          refine ⟨fun _ d' hd' => ?_, fun _ => rfl⟩
          have hdd : d = d' := by rw [hd] at hd'; simpa using hd'
          subst hdd
          exact ⟨hh, h⟩
    next hn => exact ⟨fun _ d hd => absurd hd (hn d), fun _ => rfl⟩

/-- C82: a database is loaded once: `Load` on one that is loaded stops the program. -/
theorem C82_once {place self : Nat → Nat} {s : St} {i a la id : Nat} {dr : Bool} {file img : Bytes} {b : Nat}
    (hi : s.dbs[i]? = some (some ⟨b, some (id, img)⟩)) : step place self s (.load i a la dr file) = .trap := by
  simp [step, hi, Db.load]

/-- C82: a database whose load failed can be loaded again: only the first load's blocks are lost. -/
theorem C82_again {place self : Nat → Nat} {s : St} {i a la : Nat} {dr : Bool} {file : Bytes} {b : Nat}
    (hi : s.dbs[i]? = some (some ⟨b, none⟩)) {img : Bytes}
    (hl : Reloc.load (place s.w.next) la (self i) dr file = .ok (some img)) :
    ∃ s', step place self s (.load i a la dr file) = .ok s' ∧ s'.w.live = (a, s.w.next) :: s.w.live ∧
      s'.dbs = s.dbs.set i (some ⟨a, some (s.w.next, img)⟩) := by
  have L := load_loads place (self i) a la dr file ⟨b, none⟩ s.w rfl
  simp only [step, hi]
  generalize Db.load place (self i) a la dr file ⟨b, none⟩ s.w = x at L
  cases L with
  | loaded img' n' h _ _ =>
    rw [h] at hl; cases hl
    exact ⟨_, rfl, rfl, rfl⟩
  | rejected n' lk h _ _ => rw [h] at hl; cases hl
  | trap h => rw [h] at hl; cases hl
  | ub h => rw [h] at hl; cases hl

theorem le_sum {l : List Nat} {n : Nat} (h : n ∈ l) : n ≤ l.sum := by
  induction l with
  | nil => cases h
  | cons x l ih =>
    rw [List.sum_cons]
    rcases List.mem_cons.mp h with rfl | h
    · omega
    · have := ih h; omega

/-- C82: it is false that a load that fails takes nothing: every file that ends before all its header announces costs
a block or more for good, whatever the program does afterwards. -/
theorem C82_failed_load_false {place self : Nat → Nat} {ops : List Op} {s : St} (h : run place self {} ops = .ok s)
    {i a la : Nat} {dr : Bool} {file : Bytes} (ho : Op.load i a la dr file ∈ ops)
    (h1 : 32 ≤ file.length) (h2 : num file 0 4 = 0x70636C63 ∧ num file 4 4 = 0x00626470 ∧ num file 8 4 = 2)
    (h3 : file.length < 32 + num file 24 8 + 24 * num file 12 4 + 8 * num file 16 4 + 24 * num file 20 4) :
    1 ≤ s.w.live.length := by
  have hk : 1 ≤ leakOf file := by
    unfold leakOf
    rw [if_neg (by omega)]
    split
    · omega
    · split
      · omega
      · omega
  have hle : leakOf file ≤ leaks ops := by
    unfold leaks
    exact le_sum (List.mem_map.mpr ⟨_, ho, rfl⟩)
  rw [C82_count h]
  omega

/-! ### A program -/

/-- Two databases, one of which is loaded from a truncated file first. -/
def program (cut : Nat) : List Op :=
  [.create, .create, .load 0 7 0x500000 false (functionFile.take cut), .load 0 7 0x500000 false functionFile,
   .load 1 8 0x500000 true functionFile, .query 0, .query 1, .destroy 0, .destroy 1]

/-- What is in use after a history. -/
def inUse (r : Res St) : Option (List (Nat × Nat)) :=
  match r with
  | .ok s => some s.w.live
  | _ => none

def at' (_ : Nat) : Nat := 0x10000

example : inUse (run at' at' {} (program 31)) = some [] := by decide +kernel
example : inUse (run at' at' {} (program 40)) = some [(7, 0)] := by decide +kernel
example : inUse (run at' at' {} ((program 31).take 7)) = some [(8, 4), (7, 0)] := by decide +kernel
example : leakOf (functionFile.take 40) = 1 ∧ leakOf (functionFile.take 31) = 0 ∧ leakOf functionFile = 0 := by
  decide +kernel

end Clr.Runtime
