import Verif.Props.JSONSaveHooksSpec
import Verif.Proofs.JSONText

/-! Saving with the functions of the user: types without functions are saved as ever. -/
namespace Clr.JSON

/-- The saver in a memory. -/
def SaverH.at (m : Mem) (s : SaverH) : Saver := { info := s.info, type := s.type, save := fun i a => (s.save i a m).map (·.1) }

/-- The step leaves memory as it is. -/
def Still (m : Mem) (r : Res (Bytes × Mem)) : Prop := r = (r.map (·.1)).map fun t => (t, m)

theorem still_map (m : Mem) (r : Res Bytes) : Still m (r.map fun t => (t, m)) := by
  cases r <;> rfl

theorem map_fst (m : Mem) (r : Res Bytes) : (r.map fun t => (t, m)).map (·.1) = r := by
  cases r <;> rfl

theorem still_cases {m : Mem} {r : Res (Bytes × Mem)} (h : Still m r) : (∃ t, r = .ok (t, m)) ∨ r = .trap ∨ r = .ub := by
  unfold Still at h
  cases r with
  | ok a =>
    simp only [Res.map, Res.ok.injEq] at h
    exact .inl ⟨a.1, by rw [h]⟩
  | trap => exact .inr (.inl rfl)
  | ub => exact .inr (.inr rfl)

theorem valueH_eq {o : Opts} {ty : BitVec 32} {p : Bool} {save : Nat → SaveStep} {m : Mem} {v : Nat} (h : Still m (save v m)) :
    saveValueH o ty p save v m = (saveValue o m ty p (fun x => (save x m).map (·.1)) v).map fun t => (t, m) := by
  unfold saveValueH saveValue
  split
  · cases o.mapPtr ty (m.ptr v) with
    | none => rfl
    | some h => simp only []; cases savePtr o h <;> rfl
  · rcases still_cases h with ⟨t, h⟩ | h | h <;> simp only [h] <;> rfl

theorem keyH_eq {key : Option (Nat → SaveStep)} {m : Mem} {k : Nat} (h : ∀ f, key = some f → Still m (f k m)) :
    saveKeyH key k m = (saveKey (key.map fun f x => (f x m).map (·.1)) k).map fun t => (t, m) := by
  cases key with
  | none => rfl
  | some f =>
    unfold saveKeyH saveKey
    simp only [Option.map_some]
    rcases still_cases (h f rfl) with ⟨t, h⟩ | h | h <;> simp only [h] <;> rfl

theorem itemsH_eq {o : Opts} {ty : BitVec 32} {p : Bool} {key : Option (Nat → SaveStep)} {save : Nat → SaveStep} {m : Mem}
    (hs : ∀ x, Still m (save x m)) (hk : ∀ f, key = some f → ∀ x, Still m (f x m)) (n : Nat) (items : List (Nat × Nat)) (w : Bool) :
    saveItemsH o ty p key save n items w m =
      (saveItems o m ty p (key.map fun f x => (f x m).map (·.1)) (fun x => (save x m).map (·.1)) n items w).map fun t => (t, m) := by
  induction n generalizing items w with
  | zero => rfl
  | succ n ih =>
    cases items with
    | nil => rfl
    | cons kv rest =>
      rw [saveItemsH, saveItems, keyH_eq (fun f hf => hk f hf _)]
      cases hsk : saveKey (key.map fun f x => (f x m).map (·.1)) kv.1 with
      | trap => rfl
      | ub => rfl
      | ok k =>
        simp only [Res.map, Res.bind_ok]
        rw [valueH_eq (hs _)]
        cases hsv : saveValue o m ty p (fun x => (save x m).map (·.1)) kv.2 with
        | trap => simp only [Res.map] at hsv ⊢; simp [hsv]
        | ub => simp only [Res.map] at hsv ⊢; simp [hsv]
        | ok v =>
          simp only [Res.map] at hsv ⊢
          simp only [hsv, Res.bind_ok]
          cases v with
          | none =>
            simp only [ih, Res.map]
            generalize saveItems o m ty p _ _ n (kv :: rest) w = r
            cases r <;> rfl
          | some t =>
            simp only [ih, Res.map]
            generalize saveItems o m ty p _ _ n rest true = r
            cases r <;> rfl

theorem containerH_eq {o : Opts} {ty : BitVec 32} {p : Bool} {key : Option (Nat → SaveStep)} {save : Nat → SaveStep} {m : Mem}
    (hs : ∀ x, Still m (save x m)) (hk : ∀ f, key = some f → ∀ x, Still m (f x m)) (items : List (Nat × Nat)) :
    saveContainerH o ty p key save items m =
      (saveContainer o m ty p (key.map fun f x => (f x m).map (·.1)) (fun x => (save x m).map (·.1)) items).map fun t => (t, m) := by
  unfold saveContainerH saveContainer
  split
  · rfl
  · rw [itemsH_eq hs hk]
    have : (key.map fun (f : Nat → SaveStep) (x : Nat) => (f x m).map (·.1)).isSome = key.isSome := by cases key <;> rfl
    rw [this]
    generalize saveItems o m ty p _ _ items.length items false = r
    cases r <;> rfl

theorem fieldH_eq {o : Opts} {s : SaverH} {m : Mem} {indent a : Nat} (hs : ∀ i x, Still m (s.save i x m)) :
    saveFieldH o s indent a m = (saveField o m (s.at m) indent a).map fun t => (t, m) := by
  unfold saveFieldH saveField
  cases hc : s.info.count with
  | some n =>
    have hc' : (s.at m).info.count = some n := hc
    rw [hc']
    simp only []
    by_cases hx : strideOf s.type s.info.isPtr = 0 ∧ n ≠ 0
    · have hx' : strideOf (s.at m).type (s.at m).info.isPtr = 0 ∧ n ≠ 0 := hx
      rw [if_pos hx, if_pos hx']; rfl
    · have hx' : ¬ (strideOf (s.at m).type (s.at m).info.isPtr = 0 ∧ n ≠ 0) := hx
      rw [if_neg hx, if_neg hx', containerH_eq (hs indent) (fun f hf => by cases hf)]
      rfl
  | none =>
    have hc' : (s.at m).info.count = none := hc
    rw [hc']
    simp only []
    have e2 : (s.at m).type = s.type := rfl
    rw [e2]
    by_cases hx : s.info.isPtr = true
    · have hx' : (s.at m).info.isPtr = true := hx
      rw [if_pos hx, if_pos hx']
      cases o.mapPtr s.type.hash (m.ptr a) <;> rfl
    · have hx' : ¬ (s.at m).info.isPtr = true := hx
      rw [if_neg hx, if_neg hx']
      exact hs indent a

theorem membersH_eq {o : Opts} {m : Mem} {indent a : Nat} (l : List SaverH) (hl : ∀ s ∈ l, ∀ i x, Still m (s.save i x m)) (w : Bool) :
    saveMembersH o indent a l w m = (saveMembers o m indent a (l.map (SaverH.at m)) w).map fun t => (t, m) := by
  induction l generalizing w with
  | nil => rfl
  | cons s r ih =>
    have ih := ih (fun x hx => hl x (List.mem_cons_of_mem _ hx))
    rw [List.map_cons, saveMembersH, saveMembers]
    have e1 : (s.at m).info = s.info := rfl
    have e2 : (s.at m).type = s.type := rfl
    rw [e1, e2]
    split
    · exact ih w
    · rw [fieldH_eq (hl s (List.mem_cons_self ..))]
      generalize saveField o m (s.at m) indent (a + s.info.offset) = v
      cases v with
      | trap => rfl
      | ub => rfl
      | ok v =>
        simp only [Res.map, Res.bind_ok, ih]
        generalize saveMembers o m indent a (r.map (SaverH.at m)) true = t
        cases t <;> rfl

theorem pickLowestH_map (e : Env) {k : SaverH → Saver} (hk : ∀ s, (k s).info = s.info) (last : Int) (l : List SaverH) (best : Option SaverH) :
    pickLowest e last (l.map k) (best.map k) = (pickLowestH e last l best).map k := by
  induction l generalizing best with
  | nil => rfl
  | cons s r ih =>
    rw [List.map_cons, pickLowest, pickLowestH]
    have e2 : lowestOf (best.map k) = lowestOfH best := by
      cases best with
      | none => rfl
      | some b => simp [lowestOf, lowestOfH, hk]
    rw [hk, e2]
    split
    · exact ih best
    · split
      · exact ih (some s)
      · exact ih best

theorem sortLoopH_map (e : Env) {k : SaverH → Saver} (hk : ∀ s, (k s).info = s.info) (l : List SaverH) (n : Nat) (last : Int) :
    sortLoop e (l.map k) n last = (sortLoopH e l n last).map k := by
  induction n generalizing last with
  | zero => rfl
  | succ n ih =>
    rw [sortLoop, sortLoopH]
    have := pickLowestH_map e hk last l none
    simp only [Option.map_none] at this
    rw [this]
    cases pickLowestH e last l none with
    | none => exact ih last
    | some s =>
      simp only [Option.map_some, List.map_cons]
      rw [ih, hk]

theorem orderH_map (e : Env) (o : Opts) {k : SaverH → Saver} (hk : ∀ s, (k s).info = s.info) (l : List SaverH) :
    order e o (l.map k) = (orderH e o l).map k := by
  unfold order orderH
  split
  · rw [List.length_map, sortLoopH_map e hk]
  · rw [List.filter_map]
    congr 1
    apply List.filter_congr
    intro s _
    simp [hk]

theorem orderH_at (e : Env) (o : Opts) (m : Mem) (l : List SaverH) :
    order e o (l.map (SaverH.at m)) = (orderH e o l).map (SaverH.at m) := orderH_map e o (fun _ => rfl) l

theorem pickLowestH_mem {e : Env} {last : Int} {l : List SaverH} {best : Option SaverH} {s : SaverH} (h : pickLowestH e last l best = some s) :
    s ∈ l ∨ best = some s := by
  induction l generalizing best with
  | nil => exact .inr h
  | cons x r ih =>
    rw [pickLowestH] at h
    split at h
    · rcases ih h with h | h
      · exact .inl (List.mem_cons_of_mem _ h)
      · exact .inr h
    · split at h
      · rcases ih h with h | h
        · exact .inl (List.mem_cons_of_mem _ h)
        · cases h
          exact .inl (List.mem_cons_self ..)
      · rcases ih h with h | h
        · exact .inl (List.mem_cons_of_mem _ h)
        · exact .inr h

theorem sortLoopH_mem {e : Env} {l : List SaverH} {n : Nat} {last : Int} {s : SaverH} (h : s ∈ sortLoopH e l n last) : s ∈ l := by
  induction n generalizing last with
  | zero => cases h
  | succ n ih =>
    rw [sortLoopH] at h
    split at h
    · exact ih h
    · rename_i x hx
      rcases List.mem_cons.1 h with rfl | h
      · rcases pickLowestH_mem hx with h | h
        · exact h
        · cases h
      · exact ih h

theorem orderH_mem {e : Env} {o : Opts} {l : List SaverH} {s : SaverH} (h : s ∈ orderH e o l) : s ∈ l := by
  unfold orderH at h
  split at h
  · exact sortLoopH_mem h
  · exact (List.mem_filter.1 h).1

mutual
theorem saveObjH_eq (e : Env) (o : Opts) (S : SaveHooks) (m : Mem) : ∀ (t : Ty), NoSaving S t → ∀ indent a,
    saveObjH e o S t indent a m = (saveObj e o m t indent a).map fun x => (x, m)
  | .prim h z, _, indent, a => by rw [saveObjH, saveObj]
  | .enum h z cs fl, _, indent, a => by rw [saveObjH, saveObj]; rfl
  | .cls h z fl fs bs, hn, indent, a => by
    rw [NoSaving] at hn
    obtain ⟨f1, f2⟩ := saversH_eq e o S m fs hn.2.2.1
    obtain ⟨b1, b2⟩ := baseSaversH_eq e o S m bs hn.2.2.2
    rw [saveObjH, saveObj]
    split
    · rfl
    · simp only [hn.1, SaveHooks.runPre, hn.2.1, Res.bind_ok]
      rw [membersH_eq]
      · rw [List.map_append, ← orderH_at, f1, b1]
        generalize saveMembers o m (indent + 1) a _ false = r
        cases r <;> rfl
      · intro s hs
        rcases List.mem_append.1 hs with hs | hs
        · exact f2 s (orderH_mem hs)
        · exact b2 s hs
  | .tmpl h z bs, _, indent, a => by rw [saveObjH, saveObj]; rfl
  | .vec h z t p, hn, indent, a => by
    rw [NoSaving] at hn
    have ih := saveObjH_eq e o S m t hn indent
    rw [saveObjH, saveObj, containerH_eq (fun x => by rw [ih x]; exact still_map m _) (fun f hf => by cases hf)]
    simp only [ih, map_fst]
    rfl
  | .dict h z k t p, hn, indent, a => by
    rw [NoSaving] at hn
    have ih := saveObjH_eq e o S m t hn.2 indent
    have ihk := saveObjH_eq e o S m k hn.1 indent
    rw [saveObjH, saveObj, containerH_eq (fun x => by rw [ih x]; exact still_map m _) (fun f hf x => by
      cases hf
      show Still m (saveObjH e o S k indent x m)
      rw [ihk x]
      exact still_map m _)]
    simp only [ih, ihk, map_fst, Option.map_some]

theorem saversH_eq (e : Env) (o : Opts) (S : SaveHooks) (m : Mem) : ∀ (fs : Flds), NoSavingFlds S fs →
    (saversH e o S fs).map (SaverH.at m) = savers e o m fs ∧ ∀ s ∈ saversH e o S fs, ∀ i x, Still m (s.save i x m)
  | .nil, _ => by rw [saversH, savers]; exact ⟨rfl, fun s hs => by cases hs⟩
  | .cons f t r, hn => by
    rw [NoSavingFlds] at hn
    have ih := saveObjH_eq e o S m t hn.1
    obtain ⟨h1, h2⟩ := saversH_eq e o S m r hn.2
    rw [saversH, savers]
    refine ⟨?_, ?_⟩
    · rw [List.map_cons, h1]
      simp only [SaverH.at, ih, map_fst]
    · intro s hs
      rcases List.mem_cons.1 hs with rfl | hs
      · intro i x
        simp only [ih]
        exact still_map m _
      · exact h2 s hs

theorem classSaversH_eq (e : Env) (o : Opts) (S : SaveHooks) (m : Mem) : ∀ (t : Ty), NoSaving S t →
    (classSaversH e o S t).map (SaverH.at m) = classSavers e o m t ∧ ∀ s ∈ classSaversH e o S t, ∀ i x, Still m (s.save i x m)
  | .prim h z, _ => by rw [classSaversH, classSavers] <;> simp
  | .enum h z cs fl, _ => by rw [classSaversH, classSavers] <;> simp
  | .vec h z t p, _ => by rw [classSaversH, classSavers] <;> simp
  | .dict h z k t p, _ => by rw [classSaversH, classSavers] <;> simp
  | .tmpl h z bs, hn => by
    rw [NoSaving] at hn
    rw [classSaversH, classSavers]
    exact baseSaversH_eq e o S m bs hn
  | .cls h z fl fs bs, hn => by
    rw [NoSaving] at hn
    obtain ⟨f1, f2⟩ := saversH_eq e o S m fs hn.2.2.1
    obtain ⟨b1, b2⟩ := baseSaversH_eq e o S m bs hn.2.2.2
    rw [classSaversH, classSavers]
    split
    · exact ⟨rfl, fun s hs => by cases hs⟩
    · refine ⟨by rw [List.map_append, ← orderH_at, f1, b1], ?_⟩
      intro s hs
      rcases List.mem_append.1 hs with hs | hs
      · exact f2 s (orderH_mem hs)
      · exact b2 s hs

theorem baseSaversH_eq (e : Env) (o : Opts) (S : SaveHooks) (m : Mem) : ∀ (bs : Tys), NoSavingTys S bs →
    (baseSaversH e o S bs).map (SaverH.at m) = baseSavers e o m bs ∧ ∀ s ∈ baseSaversH e o S bs, ∀ i x, Still m (s.save i x m)
  | .nil, _ => by rw [baseSaversH, baseSavers]; exact ⟨rfl, fun s hs => by cases hs⟩
  | .cons t r, hn => by
    rw [NoSavingTys] at hn
    obtain ⟨h1, h2⟩ := classSaversH_eq e o S m t hn.1
    obtain ⟨h3, h4⟩ := baseSaversH_eq e o S m r hn.2
    rw [baseSaversH, baseSavers]
    refine ⟨by rw [List.map_append, h1, h3], ?_⟩
    intro s hs
    rcases List.mem_append.1 hs with hs | hs
    · exact h2 s hs
    · exact h4 s hs
end

/-! ### The members -/

/-- A field with how it is saved. -/
def saverOfH (e : Env) (o : Opts) (S : SaveHooks) (x : FldInfo × Ty) : SaverH :=
  { info := x.1, type := x.2, save := fun i a => saveObjH e o S x.2 i a }

theorem saversH_saverOfH (e : Env) (o : Opts) (S : SaveHooks) : ∀ fs : Flds, saversH e o S fs = fs.list.map (saverOfH e o S)
  | .nil => by simp [saversH, Flds.list]
  | .cons f t r => by simp [saversH, Flds.list, saversH_saverOfH e o S r, saverOfH]

theorem orderH_members (e : Env) (o : Opts) (S : SaveHooks) (fs : Flds) (hs : SortOk e o fs) :
    ∃ own, InOrder e o fs own ∧ orderH e o (saversH e o S fs) = own.map (saverOfH e o S) := by
  obtain ⟨own, h1, h2⟩ := order_members e o ⟨fun _ => 0, fun _ => [], 0⟩ fs hs
  refine ⟨own, h1, ?_⟩
  have hk := orderH_map e o (k := fun s => saverOf e o ⟨fun _ => 0, fun _ => [], 0⟩ (s.info, s.type)) (fun _ => rfl) (saversH e o S fs)
  have hsv : (saversH e o S fs).map (fun s => saverOf e o ⟨fun _ => 0, fun _ => [], 0⟩ (s.info, s.type)) =
      savers e o ⟨fun _ => 0, fun _ => [], 0⟩ fs := by
    rw [savers_saverOf, saversH_saverOfH, List.map_map]
    rfl
  rw [hsv, h2] at hk
  have ho : own = (orderH e o (saversH e o S fs)).map fun s => (s.info, s.type) := by
    have := congrArg (List.map Saver.field) hk
    rw [List.map_map, List.map_map] at this
    rw [show (Saver.field ∘ saverOf e o ⟨fun _ => 0, fun _ => [], 0⟩) = id from rfl, List.map_id] at this
    exact this
  rw [ho, List.map_map]
  symm
  conv => rhs; rw [← List.map_id (orderH e o (saversH e o S fs))]
  refine List.map_congr_left fun s h => ?_
  have := orderH_mem h
  rw [saversH_saverOfH] at this
  obtain ⟨x, hx, rfl⟩ := List.mem_map.1 this
  rfl

mutual
theorem classH_members (e : Env) (o : Opts) (S : SaveHooks) : ∀ t : Ty, SortsOk e o t →
    ∃ ms, ClassMembers e o t ms ∧ classSaversH e o S t = ms.map (saverOfH e o S)
  | .cls h s fl fs bs, hs => by
    rw [classSaversH]
    by_cases hf : e.skips fl = true
    · rw [if_pos hf]
      exact ⟨[], .hidden hf, rfl⟩
    · rw [if_neg hf]
      rw [SortsOk] at hs
      obtain ⟨own, h1, h2⟩ := orderH_members e o S fs hs.1
      obtain ⟨inh, h3, h4⟩ := baseH_members e o S bs hs.2
      exact ⟨own ++ inh, .cls (by simpa using hf) h1 h3, by rw [h2, h4, List.map_append]⟩
  | .tmpl h s bs, hs => by
    rw [SortsOk] at hs
    obtain ⟨inh, h3, h4⟩ := baseH_members e o S bs hs
    exact ⟨inh, .tmpl h3, by rw [classSaversH, h4]⟩
  | .prim _ _, _ => ⟨[], .prim, rfl⟩
  | .enum _ _ _ _, _ => ⟨[], .enum, rfl⟩
  | .vec _ _ _ _, _ => ⟨[], .vec, rfl⟩
  | .dict _ _ _ _ _, _ => ⟨[], .dict, rfl⟩

theorem baseH_members (e : Env) (o : Opts) (S : SaveHooks) : ∀ bs : Tys, SortsOkAll e o bs →
    ∃ ms, BaseMembers e o bs ms ∧ baseSaversH e o S bs = ms.map (saverOfH e o S)
  | .nil, _ => ⟨[], .nil, by rw [baseSaversH]; rfl⟩
  | .cons t r, hs => by
    rw [SortsOkAll] at hs
    obtain ⟨xs, h1, h2⟩ := classH_members e o S t hs.1
    obtain ⟨ys, h3, h4⟩ := baseH_members e o S r hs.2
    exact ⟨xs ++ ys, .cons h1 h3, by rw [baseSaversH, h2, h4, List.map_append]⟩
end

/-- How objects are saved, at any level of indentation. -/
def SavesH (e : Env) (o : Opts) (S : SaveHooks) (t : Ty) (a : Nat) (m : Mem) (v : Bytes) (m' : Mem) : Prop :=
  ∃ indent, saveJSONH e o S m t indent a = .ok (v, m')

theorem itemsH_inTurn {e : Env} {o : Opts} {S : SaveHooks} {t : Ty} {indent : Nat} (items : List (Nat × Nat)) (w : Bool) {m m' : Mem} {text : Bytes}
    (h : saveItemsH o t.hash false none (fun x => saveObjH e o S t indent x) items.length items w m = .ok (text, m')) :
    ∃ ts, InTurn (SavesH e o S t) (items.map (·.2)) m ts m' ∧ text = listed w ts := by
  induction items generalizing w m text with
  | nil =>
    simp only [List.length_nil, saveItemsH, Res.ok.injEq, Prod.mk.injEq] at h
    obtain ⟨rfl, rfl⟩ := h
    exact ⟨[], .nil m, (listed_nil w).symm⟩
  | cons kv r ih =>
    rw [List.length_cons, saveItemsH] at h
    simp only [saveKeyH, saveValueH, Res.bind_ok, Bool.false_eq_true, if_false] at h
    obtain ⟨v, hv, h⟩ := Res.bind_eq_ok.1 h
    cases hs : saveObjH e o S t indent kv.2 m with
    | trap => rw [hs] at hv; cases hv
    | ub => rw [hs] at hv; cases hv
    | ok x =>
      rw [hs] at hv
      cases hv
      simp only at h
      obtain ⟨u, hu, h⟩ := Res.bind_eq_ok.1 h
      cases h
      obtain ⟨ts, h1, h2⟩ := ih true (m := x.2) (text := u.1) (by rw [hu])
      refine ⟨x.1 :: ts, .cons ⟨indent, hs⟩ h1, ?_⟩
      rw [listed_cons, h2]
      simp

theorem arrayH_inTurn {e : Env} {o : Opts} {S : SaveHooks} {t : Ty} {indent : Nat} (items : List (Nat × Nat)) {m m' : Mem} {text : Bytes}
    (h : saveContainerH o t.hash false none (fun x => saveObjH e o S t indent x) items m = .ok (text, m')) :
    ∃ ts, InTurn (SavesH e o S t) (items.map (·.2)) m ts m' ∧ text = listText ts := by
  unfold saveContainerH at h
  split at h
  · rename_i hi
    subst hi
    cases h
    exact ⟨[], .nil m, rfl⟩
  · obtain ⟨u, hu, h⟩ := Res.bind_eq_ok.1 h
    cases h
    obtain ⟨ts, h1, h2⟩ := itemsH_inTurn items false (m := m) (text := u.1) (m' := u.2) (by rw [hu])
    refine ⟨ts, h1, ?_⟩
    rw [h2]
    simp [listText, listed]

theorem membersH_saved {e : Env} {o : Opts} {S : SaveHooks} {indent a : Nat} (ms : List (FldInfo × Ty))
    (hl : ∀ x ∈ ms, x.1.isPtr = true → x.1.count = none) (written : Bool) {m m' : Mem} {t : Bytes}
    (h : saveMembersH o indent a (ms.map (saverOfH e o S)) written m = .ok (t, m')) :
    ∃ ts, MembersSaved o (SavesH e o S) a ms m ts m' ∧ Trails o written ts t := by
  induction ms generalizing written m t with
  | nil =>
    simp only [List.map_nil, saveMembersH, Res.ok.injEq, Prod.mk.injEq] at h
    obtain ⟨rfl, rfl⟩ := h
    refine ⟨[], .nil m, ?_⟩
    cases written with
    | true => exact .inl ⟨rfl, rfl⟩
    | false => exact Listed.nil
  | cons x r ih =>
    obtain ⟨f, ty⟩ := x
    rw [List.map_cons, saveMembersH] at h
    have ih := fun w m t => @ih (fun y hy => hl y (by simp [hy])) w m t
    split at h
    · rename_i hc
      obtain ⟨ts, h1, h2⟩ := ih _ _ _ h
      exact ⟨ts, .leftOut hc.1 hc.2 h1, h2⟩
    · rename_i hc
      obtain ⟨v, hv, h⟩ := Res.bind_eq_ok.1 h
      obtain ⟨u, hu, h⟩ := Res.bind_eq_ok.1 h
      injection h with h
      rw [Prod.mk.injEq] at h
      obtain ⟨ht, rfl⟩ := h
      obtain ⟨ts, h1, h2⟩ := ih _ _ _ (show _ = Res.ok (u.1, u.2) from hu)
      have hm : ∀ ts', MembersSaved o (SavesH e o S) a ((f, ty) :: r) m (member f.name v.1 :: ts') u.2 → ts' = ts →
          ∃ ts, MembersSaved o (SavesH e o S) a ((f, ty) :: r) m ts u.2 ∧ Trails o written ts t := by
        rintro _ hm rfl
        refine ⟨_, hm, ?_⟩
        have := follows_cons (written := written) (v := member f.name v.1) h2 (newLine_blank o indent)
        rw [← ht]
        have he : quote f.name ++ 58 :: v.1 = member f.name v.1 := by simp [member, quote_eq]
        simpa [saverOfH, ← he] using this
      refine hm ts ?_ rfl
      have hv : (match f.count with
        | some n => if strideOf ty f.isPtr = 0 ∧ n ≠ 0 then Res.trap
          else saveContainerH o ty.hash f.isPtr none (fun b => saveObjH e o S ty indent b) (arrayItems (a + f.offset) n (strideOf ty f.isPtr)) m
        | none => if f.isPtr then
            match o.mapPtr ty.hash (m.ptr (a + f.offset)) with
            | some h => (savePtr o h).map fun t => (t, m)
            | none => Res.ok ([], m)
          else saveObjH e o S ty indent (a + f.offset) m) = .ok v := hv
      cases hcnt : f.count with
      | some n =>
        have hp : f.isPtr = false := by
          cases hp : f.isPtr with
          | false => rfl
          | true =>
            have := hl (f, ty) (by simp) hp
            rw [hcnt] at this
            cases this
        rw [hcnt, hp] at hv
        simp only at hv
        split at hv
        · cases hv
        · obtain ⟨vs, k1, k2⟩ := arrayH_inTurn (arrayItems (a + f.offset) n (strideOf ty false)) (text := v.1) (m' := v.2) hv
          rw [k2]
          refine .array hcnt hp ?_ h1
          rw [arrayItems, List.map_map] at k1
          exact k1
      | none =>
        rw [hcnt] at hv
        simp only at hv
        cases hp : f.isPtr with
        | true =>
          rw [hp, if_pos rfl] at hv
          cases hmp : o.mapPtr ty.hash (m.ptr (a + f.offset)) with
          | none => exact absurd ⟨hp, hmp⟩ hc
          | some hh =>
            rw [hmp] at hv
            simp only at hv
            cases hsp : savePtr o hh with
            | trap => rw [hsp] at hv; cases hv
            | ub => rw [hsp] at hv; cases hv
            | ok y =>
              rw [hsp] at hv
              cases hv
              rw [show y = ptrText o hh from savePtr_text hsp]
              exact .pointer hcnt hp hmp h1
        | false =>
          rw [hp] at hv
          simp only [Bool.false_eq_true, if_false] at hv
          exact .value hcnt hp ⟨indent, hv⟩ h1

end Clr.JSON
