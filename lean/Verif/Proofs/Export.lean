import Verif.Model.Export
/-
Lemmas about the exporter model: the effect of one call of `Parent`, and of a sequence of calls.
-/
namespace Clr.Export
open Clr.DB (hashOf)

/-- One call of `Parent`: scope table, array member, keys of the scopes, children. -/
structure Step where
  pk : K
  slot : Slot
  keys : Nat → UInt32
  children : List Ref

/-- The first scope of table `pk` that carries the child's recorded parent hash and matches it. -/
def cand (env : Env) (S : St) (pk : K) (keys : Nat → UInt32) (c : Ref) : Option Nat := findParent env S pk keys c

/-- The scope a child ends up in after a sequence of calls. -/
def owner (env : Env) (S : St) (steps : List Step) (c : Ref) : Option Ref :=
  steps.findSome? fun s => if c ∈ s.children then (cand env S s.pk s.keys c).map fun i => (s.pk, i) else none

/-- Its parent pointer then. -/
def ownerPtr (env : Env) (S : St) (steps : List Step) (c : Ref) : Ptr :=
  match owner env S steps c with
  | some p => .obj p
  | none => (S.get c).parent

/-- The child arrays then. -/
def kidsOf (env : Env) (S : St) (steps : List Step) (r : Ref) (slot : Slot) : List Ref :=
  match steps.find? fun d => d.pk == r.1 && d.slot == slot with
  | some d => if r.2 < S.count r.1 then d.children.filter fun c => owner env S steps c == some r else []
  | none => []

/-- An object with another parent and other child arrays. -/
def Obj.place (o : Obj) (p : Ptr) (k : Slot → List Ref) : Obj := { o with parent := p, kids := k }

theorem Obj.setKids_place (o : Obj) (p : Ptr) (k : Slot → List Ref) (slot : Slot) (a : List Ref) :
    (o.place p k).setKids slot a = o.place p (fun s => if s = slot then a else k s) := rfl

/-- The state after a sequence of calls that started in `S`. -/
def stateOf (env : Env) (S : St) (steps : List Step) : St :=
  { S with get := fun r => (S.get r).place (ownerPtr env S steps r) (kidsOf env S steps r) }

/-- An object that exists. -/
def Valid (S : St) (r : Ref) : Prop := r.2 < S.count r.1

/-- The placement of the tables is sane: everything above 4 GB, tables do not overlap. -/
structure Placement (env : Env) (S : St) : Prop where
  far : ∀ k, 2 ^ 32 ≤ env.base k
  stride : ∀ k, 0 < env.stride k
  apart : ∀ r pk, Valid S r → r.1 ≠ pk →
    ¬ (env.base pk ≤ env.addr r ∧ env.addr r < env.base pk + S.count pk * env.stride pk)

/-! ### The first loop -/

theorem findParent_congr (env : Env) (S T : St) (pk : K) (keys : Nat → UInt32) (c : Ref)
    (h1 : T.count pk = S.count pk) (h2 : (T.get c).parent = (S.get c).parent)
    (h3 : ∀ r, (T.get r).uid = (S.get r).uid) :
    findParent env T pk keys c = findParent env S pk keys c := by
  unfold findParent
  rw [h1, h2]
  congr 1
  funext i
  unfold matches'
  rw [h3, h3]

/-- The result of the first loop on one object. -/
def assigned (env : Env) (S : St) (pk : K) (keys : Nat → UInt32) (r : Ref) : Obj :=
  match findParent env S pk keys r with
  | some i => { S.get r with parent := .obj (pk, i) }
  | none => S.get r

theorem assign_spec (env : Env) (pk : K) (keys : Nat → UInt32) (cs : List Ref) (hnd : cs.Nodup) (st : St)
    (refs : Nat → Nat) :
    assign env pk keys cs st refs =
      ({ st with get := fun r => if r ∈ cs then assigned env st pk keys r else st.get r },
       fun i => refs i + (cs.filter fun c => findParent env st pk keys c == some i).length) := by
  induction cs generalizing st refs with
  | nil => simp [assign]
  | cons c cs ih =>
    obtain ⟨hc, hcs⟩ := List.nodup_cons.mp hnd
    unfold assign
    cases hf : findParent env st pk keys c with
    | none =>
      simp only
      rw [ih hcs]
      congr 1
      · congr 1
        funext r
        by_cases hr : r = c
        · subst hr
          simp [hc, assigned, hf]
        · simp [hr]
      · funext i
        simp [List.filter_cons, hf]
    | some i =>
      simp only
      rw [ih hcs]
      have hsame : ∀ d, d ≠ c → findParent env (st.set c { st.get c with parent := .obj (pk, i) }) pk keys d =
          findParent env st pk keys d := by
        intro d hd
        apply findParent_congr
        · rfl
        · simp [St.set, hd]
        · intro r
          by_cases hr : r = c
          · subst hr; simp [St.set]
          · simp [St.set, hr]
      congr 1
      · unfold St.set
        simp only
        congr 1
        funext r
        by_cases hr : r = c
        · subst hr
          simp [hc, assigned, hf]
        · by_cases hm : r ∈ cs
          · have := hsame r hr
            unfold St.set at this
            simp only [hm, if_true, List.mem_cons, or_true]
            unfold assigned
            rw [this]
            simp [hr]
          · simp [hm, hr]
      · funext j
        have hfil : (cs.filter fun d => findParent env (st.set c { st.get c with parent := .obj (pk, i) }) pk keys d == some j) =
            cs.filter fun d => findParent env st pk keys d == some j := by
          apply List.filter_congr
          intro d hd
          rw [hsame d (fun e => hc (e ▸ hd))]
        rw [hfil]
        by_cases hj : j = i
        · subst hj
          simp [List.filter_cons, hf]
          omega
        · have hij : ¬ i = j := fun e => hj e.symm
          simp [List.filter_cons, hf, hj, hij]

/-! ### The third loop -/

/-- An array of `n` entries into which `d` has been written so far. -/
def Partly (n : Nat) (d : List Ref) (a : List Ptr) : Prop :=
  a.length = n ∧ d.length ≤ n ∧ a.take d.length = d.map .obj ∧
  (d.length < n → a.getLast? = some (.raw d.length))

theorem Partly.start (env : Env) (refs : Nat → Nat) (i : Nat) : Partly (refs i) [] (allocate env refs i) := by
  unfold Partly allocate
  split
  · next h => simp [h]
  · next h =>
    refine ⟨?_, ?_, ?_, ?_⟩
    · simp; omega
    · simp
    · simp
    · simp

theorem Partly.done {d : List Ref} {a : List Ptr} (h : Partly d.length d a) : a = d.map .obj := by
  obtain ⟨h1, _, h3, _⟩ := h
  rw [← h3, ← h1, List.take_length]

theorem Partly.step {n : Nat} {d : List Ref} {a : List Ptr} (h : Partly n d a) (hlt : d.length < n) (c : Ref) :
    a.getLast? = some (.raw d.length) ∧ d.length < a.length ∧
    Partly n (d ++ [c]) (if d.length + 1 = a.length then a.set d.length (.obj c)
      else (a.set d.length (.obj c)).set (a.length - 1) (.raw (d.length + 1))) := by
  obtain ⟨h1, h2, h3, h4⟩ := h
  refine ⟨h4 hlt, by omega, ?_, ?_, ?_, ?_⟩
  · split <;> simp [h1]
  · simp; omega
  · have hset : (a.set d.length (.obj c)).take (d.length + 1) = d.map .obj ++ [.obj c] := by
      apply List.ext_getElem?
      intro j
      rw [List.getElem?_take]
      by_cases hj : j < d.length
      · rw [if_pos (by omega), List.getElem?_set_ne (by omega), List.getElem?_append_left (by simpa using hj), ← h3,
          List.getElem?_take, if_pos hj]
      · by_cases hj2 : j = d.length
        · subst hj2
          rw [if_pos (by omega), List.getElem?_set_self (by omega)]
          simp
        · rw [if_neg (by omega)]
          symm
          apply List.getElem?_eq_none
          simp; omega
    simp only [List.length_append, List.length_cons, List.length_nil, List.map_append, List.map_cons, List.map_nil]
    split
    · exact hset
    · next hne =>
      rw [List.take_set_of_le (by omega)]
      exact hset
  · intro hl
    simp only [List.length_append, List.length_cons, List.length_nil] at hl ⊢
    rw [if_neg (by omega)]
    rw [List.getLast?_eq_getElem?]
    simp only [List.length_set]
    rw [List.getElem?_set_self (by simp; omega)]

/-- What `fill` needs to know of a child: its parent is a scope of the table or points elsewhere. -/
def Placed (env : Env) (st : St) (pk : K) (c : Ref) : Prop :=
  (∃ i, (st.get c).parent = .obj (pk, i) ∧ i < st.count pk) ∨
  ((∀ i, (st.get c).parent ≠ .obj (pk, i)) ∧
   ¬ (env.base pk ≤ env.num (st.get c).parent ∧
      env.num (st.get c).parent < env.base pk + st.count pk * env.stride pk))

/-- The children of scope `i`. -/
def owned (st : St) (pk : K) (i : Nat) (cs : List Ref) : List Ref :=
  cs.filter fun c => (st.get c).parent == .obj (pk, i)

theorem addr_in (env : Env) (S : St) (pk : K) (i : Nat) (hs : 0 < env.stride pk) (hi : i < S.count pk) :
    env.base pk ≤ env.addr (pk, i) ∧ env.addr (pk, i) < env.base pk + S.count pk * env.stride pk := by
  unfold Env.addr
  have : (i + 1) * env.stride pk ≤ S.count pk * env.stride pk := Nat.mul_le_mul_right _ hi
  rw [Nat.add_mul] at this
  simp only
  omega

theorem fill_spec (env : Env) (st : St) (pk : K) (hs : 0 < env.stride pk) (cs : List Ref)
    (n : Nat → Nat) (done : List Ref) (arrays : Nat → List Ptr)
    (hp : ∀ c ∈ cs, Placed env st pk c)
    (hn : ∀ i, n i = (owned st pk i (done ++ cs)).length)
    (ha : ∀ i, Partly (n i) (owned st pk i done) (arrays i)) :
    ∃ arrays', fill env st pk cs arrays = .ok arrays' ∧
      ∀ i, arrays' i = (owned st pk i (done ++ cs)).map .obj := by
  induction cs generalizing done arrays with
  | nil =>
    refine ⟨arrays, rfl, ?_⟩
    intro i
    have h := ha i
    rw [hn i] at h
    simp only [List.append_nil] at h ⊢
    exact h.done
  | cons c cs ih =>
    have happ : done ++ c :: cs = (done ++ [c]) ++ cs := by simp
    rw [happ] at hn ⊢
    have hown : ∀ i, owned st pk i (done ++ [c]) =
        owned st pk i done ++ (if (st.get c).parent = .obj (pk, i) then [c] else []) := by
      intro i
      unfold owned
      rw [List.filter_append]
      congr 1
      by_cases h : (st.get c).parent = .obj (pk, i)
      · simp [h]
      · simp [h]
    unfold fill
    rcases hp c (by simp) with ⟨i, hpar, hi⟩ | ⟨hne, hout⟩
    · have hrange := addr_in env st pk i hs hi
      have hlt : (owned st pk i done).length < n i := by
        rw [hn i]
        unfold owned
        rw [List.filter_append, List.filter_append]
        simp [hpar]
      obtain ⟨g1, g2, g3⟩ := (ha i).step hlt c
      have hfo : fillOne env st pk c arrays = .ok fun j => if j = i then
          (if (owned st pk i done).length + 1 = (arrays i).length then (arrays i).set (owned st pk i done).length (.obj c)
           else ((arrays i).set (owned st pk i done).length (.obj c)).set ((arrays i).length - 1)
             (.raw ((owned st pk i done).length + 1))) else arrays j := by
        unfold fillOne
        rw [hpar]
        simp only [Env.num]
        rw [if_pos hrange]
        simp only [if_true]
        rw [g1]
        simp only
        rw [if_pos g2]
      rw [hfo]
      simp only [Res.bind]
      apply ih
      · intro d hd; exact hp d (by simp [hd])
      · exact hn
      · intro j
        rw [hown j]
        by_cases hj : j = i
        · subst hj
          simp only [hpar, if_true]
          exact g3
        · have : ¬ (st.get c).parent = .obj (pk, j) := by
            rw [hpar]; intro e; injection e with e; injection e with _ e; exact hj e.symm
          simp only [if_neg hj, if_neg this, List.append_nil]
          exact ha j
    · have hfo : fillOne env st pk c arrays = .ok arrays := by
        unfold fillOne
        rw [if_neg hout]
      rw [hfo]
      simp only [Res.bind]
      apply ih
      · intro d hd; exact hp d (by simp [hd])
      · exact hn
      · intro j
        rw [hown j, if_neg (hne j), List.append_nil]
        exact ha j

theorem asRefs_map (l : List Ref) : asRefs (l.map .obj) = .ok l := by
  induction l with
  | nil => rfl
  | cons r l ih => simp [asRefs, ih]

theorem finish_spec (arrays : Nat → List Ptr) (f : Nat → List Ref) (h : ∀ i, arrays i = (f i).map .obj) (n : Nat) :
    finish arrays n = .ok ((List.range n).map f) := by
  induction n with
  | zero => rfl
  | succ n ih =>
    unfold finish
    rw [ih, h n, asRefs_map]
    simp [List.range_succ]

/-! ### One call of `Parent` -/

theorem parent_spec (env : Env) (S : St) (pk : K) (slot : Slot) (keys : Nat → UInt32) (cs : List Ref)
    (hnd : cs.Nodup) (hs : 0 < env.stride pk)
    (hprior : ∀ c ∈ cs, findParent env S pk keys c = none →
      (∀ i, (S.get c).parent ≠ .obj (pk, i)) ∧
      ¬ (env.base pk ≤ env.num (S.get c).parent ∧
        env.num (S.get c).parent < env.base pk + S.count pk * env.stride pk)) :
    parent env pk slot keys cs S = .ok
      { S with get := fun r =>
        let o := if r ∈ cs then assigned env S pk keys r else S.get r
        if r.1 = pk then
          o.setKids slot (if r.2 < S.count pk then
            cs.filter fun c => findParent env S pk keys c == some r.2 else o.kids slot)
        else o } := by
  unfold parent
  rw [assign_spec env pk keys cs hnd]
  simp only
  let T : St := { S with get := fun r => if r ∈ cs then assigned env S pk keys r else S.get r }
  have hT : ({ S with get := fun r => if r ∈ cs then assigned env S pk keys r else S.get r } : St) = T := rfl
  rw [hT]
  have hget : ∀ c ∈ cs, (T.get c) = assigned env S pk keys c := by
    intro c hc
    show (if c ∈ cs then assigned env S pk keys c else S.get c) = _
    rw [if_pos hc]
  have hlt : ∀ c i, findParent env S pk keys c = some i → i < S.count pk := by
    intro c i h
    have := List.mem_of_find?_eq_some h
    simpa using this
  have hpar : ∀ c ∈ cs, ∀ i, ((T.get c).parent == .obj (pk, i)) = (findParent env S pk keys c == some i) := by
    intro c hc i
    rw [hget c hc]
    unfold assigned
    cases hf : findParent env S pk keys c with
    | none =>
      simp only
      have := (hprior c hc hf).1 i
      rw [show ((none : Option Nat) == some i) = false from rfl]
      simpa using this
    | some j =>
      by_cases hj : j = i
      · subst hj; simp
      · have h1 : ¬ (Ptr.obj (pk, j) = Ptr.obj (pk, i)) := by
          intro e; injection e with e; injection e with _ e; exact hj e
        have h2 : ¬ (some j = some i) := by
          intro e; injection e with e; exact hj e
        rw [beq_eq_false_iff_ne.mpr h1, beq_eq_false_iff_ne.mpr h2]
  have howned : ∀ i, owned T pk i cs = cs.filter fun c => findParent env S pk keys c == some i := by
    intro i
    unfold owned
    apply List.filter_congr
    intro c hc
    exact hpar c hc i
  obtain ⟨arrays', hfill, harr⟩ := fill_spec env T pk hs cs
    (fun i => 0 + (cs.filter fun c => findParent env S pk keys c == some i).length) []
    (allocate env fun i => 0 + (cs.filter fun c => findParent env S pk keys c == some i).length)
    (by
      intro c hc
      unfold Placed
      rw [hget c hc]
      unfold assigned
      cases hf : findParent env S pk keys c with
      | none => exact .inr (hprior c hc hf)
      | some i => exact .inl ⟨i, rfl, hlt c i hf⟩)
    (by intro i; simp only [List.nil_append]; rw [howned i]; omega)
    (by intro i; exact Partly.start env _ i)
  rw [hfill]
  simp only [Res.bind, List.nil_append] at harr ⊢
  rw [finish_spec arrays' (fun i => cs.filter fun c => findParent env S pk keys c == some i)
    (by intro i; rw [harr i, howned i])]
  simp only
  congr 1
  unfold St.map
  show ({ S with get := _ } : St) = { S with get := _ }
  congr 1
  funext r
  by_cases hr : r.1 = pk
  · simp only [hr, if_true]
    congr 1
    by_cases hv : r.2 < S.count pk
    · simp [hv]
    · rw [if_neg hv, List.getD_eq_getElem?_getD, List.getElem?_eq_none (by simp; omega), Option.getD_none]
  · simp only [hr, if_false]
    rfl

/-! ### A sequence of calls -/

theorem find?_none_of {α : Type} {l : List α} {p : α → Bool} (h : ∀ x ∈ l, p x = false) : l.find? p = none := by
  rw [List.find?_eq_none]
  intro x hx
  simp [h x hx]

/-- What a call must satisfy when it follows `done`. -/
structure StepOK (env : Env) (S : St) (done : List Step) (s : Step) : Prop where
  nodup : s.children.Nodup
  valid : ∀ c ∈ s.children, Valid S c
  rawParent : ∀ c ∈ s.children, ∃ h : UInt32, (S.get c).parent = ofHash h
  noAlias : ∀ i, i < S.count s.pk → ∀ r, Valid S r → s.keys i ≠ env.hash (.obj r)
  fresh : ∀ d ∈ done, d.pk = s.pk → d.slot ≠ s.slot ∧ ∀ c ∈ s.children, c ∉ d.children

theorem owner_valid (env : Env) (S : St) (steps : List Step) (c r : Ref) (h : owner env S steps c = some r) :
    Valid S r ∧ ∃ d ∈ steps, d.pk = r.1 ∧ c ∈ d.children := by
  unfold owner at h
  obtain ⟨d, hd, he⟩ := List.exists_of_findSome?_eq_some h
  split at he
  · next hc =>
    cases hf : cand env S d.pk d.keys c with
    | none => rw [hf] at he; simp at he
    | some i =>
      rw [hf] at he
      simp at he
      subst he
      refine ⟨?_, d, hd, rfl, hc⟩
      unfold cand findParent at hf
      have := List.mem_of_find?_eq_some hf
      simpa [Valid] using this
  · simp at he

theorem hash_ofHash (env : Env) (h : UInt32) : env.hash (ofHash h) = h := by
  simp [Env.hash, ofHash, Env.num]

theorem parent_stateOf (env : Env) (S : St) (hp : Placement env S) (hk : ∀ r s, (S.get r).kids s = [])
    (done : List Step) (s : Step) (hok : StepOK env S done s) :
    parent env s.pk s.slot s.keys s.children (stateOf env S done) = .ok (stateOf env S (done ++ [s])) := by
  have hfind : ∀ c ∈ s.children, findParent env (stateOf env S done) s.pk s.keys c =
      (match owner env S done c with
       | some _ => none
       | none => cand env S s.pk s.keys c) := by
    intro c hc
    cases ho : owner env S done c with
    | none =>
      simp only
      unfold cand
      apply findParent_congr
      · rfl
      · simp [stateOf, ownerPtr, ho, Obj.place]
      · intro r; rfl
    | some r =>
      simp only
      unfold findParent
      apply find?_none_of
      intro i hi
      have hpar : ((stateOf env S done).get c).parent = .obj r := by simp [stateOf, ownerPtr, ho, Obj.place]
      rw [hpar]
      have hne := hok.noAlias i (by simpa [stateOf] using hi) r (owner_valid env S done c r ho).1
      simp [hne]
  have hdone : ∀ c ∈ s.children, ∀ i, owner env S done c ≠ some (s.pk, i) := by
    intro c hc i h
    obtain ⟨_, d, hd, hpk, hcd⟩ := owner_valid env S done c _ h
    exact (hok.fresh d hd hpk).2 c hc hcd
  rw [parent_spec env (stateOf env S done) s.pk s.slot s.keys s.children hok.nodup (hp.stride _)]
  · have hnew : ∀ c, owner env S (done ++ [s]) c =
        (match owner env S done c with
         | some r => some r
         | none => if c ∈ s.children then (cand env S s.pk s.keys c).map fun i => (s.pk, i) else none) := by
      intro c
      unfold owner
      rw [List.findSome?_append]
      cases h : done.findSome? fun s => if c ∈ s.children then (cand env S s.pk s.keys c).map fun i => (s.pk, i) else none with
      | none => simp
      | some r => simp
    congr 1
    unfold stateOf
    simp only
    congr 1
    funext r
    -- the object before kids are set
    have hobj : (if r ∈ s.children then assigned env (stateOf env S done) s.pk s.keys r
          else (S.get r).place (ownerPtr env S done r) (kidsOf env S done r)) =
        (S.get r).place (ownerPtr env S (done ++ [s]) r) (kidsOf env S done r) := by
      by_cases hc : r ∈ s.children
      · rw [if_pos hc]
        unfold assigned
        rw [hfind r hc]
        cases ho : owner env S done r with
        | some q => simp [stateOf, ownerPtr, hnew, ho]
        | none =>
          cases hcd : cand env S s.pk s.keys r with
          | none => simp [stateOf, ownerPtr, hnew, ho, hc, hcd]
          | some i => simp [stateOf, ownerPtr, hnew, ho, hc, hcd, Obj.place]
      · rw [if_neg hc]
        unfold ownerPtr
        rw [hnew]
        cases ho : owner env S done r with
        | some q => simp
        | none => simp [hc]
    have hobj' : (if r ∈ s.children then assigned env (stateOf env S done) s.pk s.keys r
          else (stateOf env S done).get r) =
        (S.get r).place (ownerPtr env S (done ++ [s]) r) (kidsOf env S done r) := hobj
    have hkids : ∀ sl, kidsOf env S (done ++ [s]) r sl =
        if r.1 = s.pk ∧ sl = s.slot then
          (if r.2 < S.count s.pk then
            s.children.filter fun c => findParent env (stateOf env S done) s.pk s.keys c == some r.2 else [])
        else kidsOf env S done r sl := by
      intro sl
      unfold kidsOf
      rw [List.find?_append]
      by_cases hm : r.1 = s.pk ∧ sl = s.slot
      · have hnone : (done.find? fun d => d.pk == r.1 && d.slot == sl) = none := by
          apply find?_none_of
          intro d hd
          by_cases h1 : d.pk = s.pk
          · have := (hok.fresh d hd h1).1
            rw [hm.2]
            simp [this]
          · rw [hm.1]
            simp [h1]
        rw [hnone, if_pos hm]
        have : (s.pk == r.1 && s.slot == sl) = true := by simp [hm.1, hm.2]
        simp only [Option.none_or, List.find?_cons, this]
        rw [hm.1]
        split
        · apply List.filter_congr
          intro c hc
          rw [hfind c hc, hnew c]
          have hh := hdone c hc r.2
          cases ho : owner env S done c with
          | some q =>
            simp only
            rw [ho] at hh
            have hq : q ≠ r := by
              intro e; apply hh; rw [e, ← hm.1]
            simp [hq]
          | none =>
            simp only [hc, if_true]
            have hr : r = (s.pk, r.2) := by rw [← hm.1]
            cases hcd : cand env S s.pk s.keys c with
            | none => simp
            | some i =>
              simp only [Option.map_some]
              rw [hr, Bool.eq_iff_iff]
              simp
        · rfl
      · have hs1 : (s.pk == r.1 && s.slot == sl) = false := by
          rw [Bool.and_eq_false_iff]
          by_cases h1 : s.pk = r.1
          · right
            have : ¬ s.slot = sl := fun e => hm ⟨h1.symm, e.symm⟩
            simpa using this
          · left; simpa using h1
        simp only [List.find?_cons, hs1, List.find?_nil, Option.or_none, if_neg hm]
        cases hfd : done.find? fun d => d.pk == r.1 && d.slot == sl with
        | none => rfl
        | some d =>
          simp only
          have hdm := List.mem_of_find?_eq_some hfd
          have hdp := List.find?_some hfd
          simp only [Bool.and_eq_true, beq_iff_eq] at hdp
          split
          · apply List.filter_congr
            intro c hc
            rw [hnew c]
            cases ho : owner env S done c with
            | some q => rfl
            | none =>
              simp only
              by_cases hcs : c ∈ s.children
              · simp only [hcs, if_true]
                have hpk : s.pk ≠ r.1 := by
                  intro e
                  exact (hok.fresh d hdm (by rw [hdp.1, e])).2 c hcs hc
                cases hcd : cand env S s.pk s.keys c with
                | none => rfl
                | some i =>
                  simp only [Option.map_some]
                  have : ¬ ((s.pk, i) = r) := by intro e; apply hpk; rw [← e]
                  simp [this]
              · simp [hcs]
          · rfl
    show (let o := (if r ∈ s.children then assigned env (stateOf env S done) s.pk s.keys r
          else (stateOf env S done).get r); if r.1 = s.pk then o.setKids s.slot (if r.2 < S.count s.pk then
            s.children.filter fun c => findParent env (stateOf env S done) s.pk s.keys c == some r.2
            else o.kids s.slot) else o) = _
    simp only
    rw [hobj']
    have hk2 : kidsOf env S (done ++ [s]) r = fun sl => if r.1 = s.pk ∧ sl = s.slot then
          (if r.2 < S.count s.pk then
            s.children.filter fun c => findParent env (stateOf env S done) s.pk s.keys c == some r.2 else [])
        else kidsOf env S done r sl := by
      funext sl; exact hkids sl
    rw [hk2]
    by_cases hr : r.1 = s.pk
    · rw [if_pos hr, Obj.setKids_place]
      congr 1
      funext sl
      by_cases hsl : sl = s.slot
      · rw [if_pos hsl, if_pos (And.intro hr hsl)]
        by_cases hv : r.2 < S.count s.pk
        · rw [if_pos hv, if_pos hv]
        · rw [if_neg hv, if_neg hv]
          show kidsOf env S done r s.slot = []
          unfold kidsOf
          split
          · rw [if_neg (by rw [hr]; exact hv)]
          · rfl
      · rw [if_neg hsl, if_neg (by intro h; exact hsl h.2)]
    · rw [if_neg hr]
      congr 1
      funext sl
      rw [if_neg (by intro h; exact hr h.1)]
  · intro c hc hnone
    have hgp : ((stateOf env S done).get c).parent = ownerPtr env S done c := rfl
    rw [hgp]
    unfold ownerPtr
    cases ho : owner env S done c with
    | some q =>
      simp only
      obtain ⟨hv, _⟩ := owner_valid env S done c q ho
      have hq : q.1 ≠ s.pk := by
        intro e
        apply hdone c hc q.2
        rw [ho, ← e]
      refine ⟨?_, hp.apart q s.pk hv hq⟩
      intro i e
      injection e with e
      apply hq
      rw [e]
    | none =>
      simp only
      obtain ⟨h, hh⟩ := hok.rawParent c hc
      rw [hh]
      unfold ofHash
      refine And.intro (by intro i e; cases e) ?_
      intro hb
      have := hp.far s.pk
      have := h.toNat_lt
      simp only [Env.num] at hb
      omega

theorem stateOf_nil (env : Env) (S : St) (hk : ∀ r s, (S.get r).kids s = []) : stateOf env S [] = S := by
  unfold stateOf
  have : ∀ r, (S.get r).place (ownerPtr env S [] r) (kidsOf env S [] r) = S.get r := by
    intro r
    have h1 : ownerPtr env S [] r = (S.get r).parent := rfl
    have h2 : kidsOf env S [] r = (S.get r).kids := by
      funext s; rw [hk r s]; rfl
    rw [h1, h2]
    rfl
  simp only [this]

end Clr.Export
