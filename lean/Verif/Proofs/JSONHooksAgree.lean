import Verif.Proofs.JSONHooks
import Verif.Proofs.JSONLocal
import Verif.Props.JSONHooksSpec

/-! Types without functions are loaded as ever. -/
namespace Clr.JSON

/-- A target without functions. -/
def PlainT (H : Hooks) : Target → Prop
  | none => True
  | some (t, _) => NoFunctions H t

theorem noFnFlds_mem {H : Hooks} : ∀ (fs : Flds), NoFunctionsFlds H fs → ∀ x ∈ fs.list, NoFunctions H x.2
  | .nil, _, x, hx => by simp [Flds.list] at hx
  | .cons f t r, h, x, hx => by
    rw [NoFunctionsFlds] at h
    rw [Flds.list] at hx
    rcases List.mem_cons.1 hx with rfl | hx
    · exact h.1
    · exact noFnFlds_mem r h.2 x hx

mutual
theorem noFn_mem {H : Hooks} : ∀ (t : Ty), NoFunctions H t → ∀ x ∈ t.allFields, NoFunctions H x.2
  | .prim _ _, _, x, hx => by simp [Ty.allFields] at hx
  | .enum _ _ _ _, _, x, hx => by simp [Ty.allFields] at hx
  | .vec _ _ _ _, _, x, hx => by simp [Ty.allFields] at hx
  | .dict _ _ _ _ _, _, x, hx => by simp [Ty.allFields] at hx
  | .cls _ _ _ fs bs, h, x, hx => by
    rw [NoFunctions] at h
    rw [Ty.allFields] at hx
    rcases List.mem_append.1 hx with hx | hx
    · exact noFnFlds_mem fs h.2.2.1 x hx
    · exact noFnTys_mem bs h.2.2.2 x hx
  | .tmpl _ _ bs, h, x, hx => by
    rw [NoFunctions] at h
    rw [Ty.allFields] at hx
    exact noFnTys_mem bs h x hx

theorem noFnTys_mem {H : Hooks} : ∀ (bs : Tys), NoFunctionsTys H bs → ∀ x ∈ bs.allFields, NoFunctions H x.2
  | .nil, _, x, hx => by simp [Tys.allFields] at hx
  | .cons t r, h, x, hx => by
    rw [NoFunctionsTys] at h
    rw [Tys.allFields] at hx
    rcases List.mem_append.1 hx with hx | hx
    · exact noFn_mem t h.1 x hx
    · exact noFnTys_mem r h.2 x hx
end

theorem memberOf_plain {e : Env} {H : Hooks} {tgt : Target} (h : PlainT H tgt) {k : Bytes} {f : FldInfo} {t : Ty} {a : Nat}
    (hm : memberOf e tgt k = some (f, t, a)) : NoFunctions H t := by
  unfold memberOf at hm
  split at hm
  · rename_i hh s fl fs bs b
    split at hm
    · rename_i f' t' hf
      rw [findField_eq] at hf
      have hmem := List.mem_of_find?_eq_some hf
      split at hm
      · simp at hm
      · simp only [Option.some.injEq, Prod.mk.injEq] at hm
        obtain ⟨-, rfl, -⟩ := hm
        exact noFn_mem _ h _ hmem
    · simp at hm
  · simp at hm

/-- Two parsers of values that do the same for targets without functions. -/
def AgreeV (H : Hooks) (pv pv' : ValueParser) : Prop := ∀ s tgt p arr, PlainT H tgt → pv s tgt p arr = pv' s tgt p arr

/-- And of objects. -/
def AgreeO (H : Hooks) (po po' : ObjectParser) : Prop := ∀ s tgt, PlainT H tgt → po s tgt = po' s tgt

/-- A writer without functions. -/
def PlainW (H : Hooks) : Option Writer → Prop
  | none => True
  | some w => NoFunctions H w.elem.1

theorem bind_same {α β : Type} {x : Out α} {f g : α → Out β} (h : ∀ a, x = .ok a → f a = g a) : (x >>= f) = (x >>= g) := by
  cases x with
  | ok a => exact h a rfl
  | trap => rfl
  | ub => rfl
  | fuel => rfl

theorem elements_agree {e : Env} {H : Hooks} {pv pv' : ValueParser} (h : AgreeV H pv pv') :
    ∀ (n : Nat) (w : Option Writer) (s : St), PlainW H w → parseElements e pv n w s = parseElements e pv' n w s
  | 0, w, s, _ => by rw [parseElements, parseElements]
  | n + 1, none, s, _ => by
    rw [parseElements, parseElements, h _ none _ _ trivial]
    refine bind_same fun s1 _ => ?_
    split
    · rfl
    · exact bind_same fun s2 _ => by rw [elements_agree h n none s2 trivial]
  | n + 1, some w, s, hw => by
    rw [parseElements, parseElements]
    refine bind_same fun r hr => ?_
    rw [h _ (some (w.elem.1, r.1)) _ _ hw]
    refine bind_same fun s1 _ => ?_
    split
    · rfl
    · exact bind_same fun s2 _ => by
        rw [elements_agree h n (some r.2.1) s2 (by show NoFunctions H r.2.1.elem.1; rw [addEmpty_ok hr]; exact hw)]

theorem array_agree {e : Env} {H : Hooks} {pv pv' : ValueParser} (h : AgreeV H pv pv') (n : Nat) (s : St) (tgt : Target) (p : Bool)
    (arr : Option Nat) (ht : PlainT H tgt) : parseArray e pv n s tgt p arr = parseArray e pv' n s tgt p arr := by
  unfold parseArray
  refine bind_same fun r _ => ?_
  split
  · rfl
  · split
    · rfl
    · have hw : arrayWriter e pv n r.2 tgt p arr = arrayWriter e pv' n r.2 tgt p arr := by
        unfold arrayWriter
        split
        · rfl
        · rw [elements_agree h n none r.2 trivial]
        · rfl
        · rfl
      rw [hw]
      refine bind_same fun w hw => ?_
      have hp : PlainW H w.1 := by
        unfold arrayWriter at hw
        split at hw
        · cases hw; exact ht
        · obtain ⟨q, -, hw⟩ := Out.bind_eq_ok.1 hw
          cases hw
          simpa [PlainW, Writer.elem, PlainT, NoFunctions] using ht
        · cases hw
        · cases hw; trivial
      rw [elements_agree h n w.1 w.2 hp]

theorem pair_agree {e : Env} {H : Hooks} {pv pv' : ValueParser} (h : AgreeV H pv pv') (s : St) (tgt : Target) (ht : PlainT H tgt) :
    parsePair e pv s tgt = parsePair e pv' s tgt := by
  unfold parsePair
  refine bind_same fun r _ => ?_
  split
  · rfl
  · refine bind_same fun q _ => ?_
    split
    · rfl
    · split
      · rename_i f t a hm
        exact h _ _ _ _ (memberOf_plain ht hm)
      · exact h _ _ _ _ trivial

theorem members_agree {e : Env} {H : Hooks} {pv pv' : ValueParser} (h : AgreeV H pv pv') :
    ∀ (n : Nat) (s : St) (tgt : Target), PlainT H tgt → parseMembers e pv n s tgt = parseMembers e pv' n s tgt
  | 0, s, tgt, _ => by rw [parseMembers, parseMembers]
  | n + 1, s, tgt, ht => by
    rw [parseMembers, parseMembers, pair_agree h s tgt ht]
    refine bind_same fun s1 _ => ?_
    split
    · exact bind_same fun s2 _ => members_agree h n s2 tgt ht
    · rfl

theorem dictLoop_agree {e : Env} {H : Hooks} {pv pv' : ValueParser} {po po' : ObjectParser} (h : AgreeV H pv pv') (ho : AgreeO H po po')
    {kt vt : Ty} (hk : NoFunctions H kt) (hv : NoFunctions H vt) (p : Bool) (a : Nat) :
    ∀ (n : Nat) (s : St), dictLoop e pv po kt vt p a n s = dictLoop e pv' po' kt vt p a n s
  | 0, s => by rw [dictLoop, dictLoop]
  | n + 1, s => by
    rw [dictLoop, dictLoop]
    split
    · split
      · dsimp only
        rw [h _ (some (kt, (s.m.alloc 128).1)) _ _ hk]
        refine bind_same fun s1 _ => ?_
        refine bind_same fun r _ => ?_
        split
        · rfl
        · rw [ho _ (some (vt, _)) hv]
          refine bind_same fun s2 _ => ?_
          refine bind_same fun r2 _ => ?_
          split
          · exact bind_same fun s3 _ => dictLoop_agree h ho hk hv p a n s3
          · exact dictLoop_agree h ho hk hv p a n _
      · rfl
    · rfl

theorem objectTarget_plain {e : Env} {H : Hooks} {tgt : Target} (h : PlainT H tgt) : PlainT H (objectTarget e tgt) := by
  unfold objectTarget
  split
  · split
    · trivial
    · exact h
  · exact h

theorem loadOf_plain {H : Hooks} {tgt : Target} (h : PlainT H tgt) : H.loadOf tgt = none := by
  unfold Hooks.loadOf
  split
  · simp only [PlainT, NoFunctions] at h
    rw [h.1]; rfl
  · rfl

theorem runPost_plain {H : Hooks} {tgt : Target} (h : PlainT H tgt) (s : St) : H.runPost tgt s = .ok s := by
  unfold Hooks.runPost
  split
  · simp only [PlainT, NoFunctions] at h
    rw [h.2.1]
  · rfl

theorem objectStep_agree {e : Env} {H : Hooks} {pv pv' : ValueParser} {po po' : ObjectParser} (h : AgreeV H pv pv') (ho : AgreeO H po po')
    (n : Nat) (s : St) (tgt : Target) (ht : PlainT H tgt) : objectStep e H pv po n s tgt = objectStep e .none pv' po' n s tgt := by
  unfold objectStep
  refine bind_same fun r _ => ?_
  split
  · rfl
  · split
    · rfl
    · have hr : H.runPost tgt = Hooks.none.runPost tgt := by funext s; rw [runPost_plain ht, runPost_none]
      rw [hr]
      congr 1
      rcases tgt with _ | ⟨ty, a⟩
      · exact members_agree h _ _ _ trivial
      · dsimp only
        split
        · unfold parseDict
          split
          · simp only [PlainT, NoFunctions] at ht
            exact dictLoop_agree h ho ht.1 ht.2 _ _ _ _
          · rfl
        · exact members_agree h _ _ _ ht

theorem valueStep_agree {e : Env} {H : Hooks} {pv pv' : ValueParser} {po po' : ObjectParser} (h : AgreeV H pv pv') (ho : AgreeO H po po')
    (n : Nat) (s : St) (tgt : Target) (p : Bool) (arr : Option Nat) (ht : PlainT H tgt) :
    valueStep e pv po n s tgt p arr = valueStep e pv' po' n s tgt p arr := by
  unfold valueStep
  rw [ho _ _ (objectTarget_plain ht), array_agree h (n + 1) s tgt p arr ht]

theorem parseH_agree' (e : Env) (H : Hooks) : ∀ n, AgreeV H (parseValueH e H n) (parseValueH e .none n) ∧
    AgreeO H (parseObjectH e H n) (parseObjectH e .none n) := by
  intro n
  induction n with
  | zero => exact ⟨fun s tgt p arr _ => by rw [parseValueH, parseValueH], fun s tgt _ => by rw [parseObjectH, parseObjectH]⟩
  | succ n ih =>
    constructor
    · intro s tgt p arr ht
      rw [parseValueH, parseValueH, loadOf_plain ht, loadOf_none]
      exact valueStep_agree ih.1 ih.2 n s tgt p arr ht
    · intro s tgt ht
      rw [parseObjectH, parseObjectH]
      exact objectStep_agree ih.1 ih.2 n s tgt ht

theorem parseH_agree (e : Env) (H : Hooks) (n : Nat) : AgreeV H (parseValueH e H n) (parseValue e n) := by
  intro s tgt p arr ht
  rw [(parseH_agree' e H n).1 s tgt p arr ht, (parseH_none e n).1]

end Clr.JSON
