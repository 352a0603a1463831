import Verif.Model.FieldVisitorSpec

/-! Lemmas about the field visitor. -/
namespace Clr.Visit

theorem stride_eq (t : Ty) (op : Op) : stride t op = spacing t op := by cases op <;> rfl

/-- `vs` lists the places related to a path, each path once. -/
def Walk (R : List Step → Place → Prop) (vs : List Place) : Prop :=
  ∃ walk : List (List Step × Place), vs = walk.map Prod.snd ∧ (walk.map Prod.fst).Nodup ∧ ∀ q v, (q, v) ∈ walk ↔ R q v

theorem Walk.nil {R : List Step → Place → Prop} (h : ∀ q v, ¬ R q v) : Walk R [] :=
  ⟨[], rfl, by simp, by simpa using h⟩

theorem Walk.one {R : List Step → Place → Prop} (p : Place) (h : ∀ q v, R q v ↔ q = [] ∧ v = p) : Walk R [p] :=
  ⟨[([], p)], rfl, by simp, by simp [h]⟩

theorem Walk.congr {R S : List Step → Place → Prop} {vs : List Place} (h : ∀ q v, R q v ↔ S q v) (hR : Walk R vs) : Walk S vs := by
  obtain ⟨w, h1, h2, h3⟩ := hR
  exact ⟨w, h1, h2, fun q v => (h3 q v).trans (h q v)⟩

theorem Walk.append {R S : List Step → Place → Prop} {xs ys : List Place} (hR : Walk R xs) (hS : Walk S ys)
    (hd : ∀ q v v', R q v → ¬ S q v') : Walk (fun q v => R q v ∨ S q v) (xs ++ ys) := by
  obtain ⟨w, h1, h2, h3⟩ := hR
  obtain ⟨w', h1', h2', h3'⟩ := hS
  refine ⟨w ++ w', by simp [h1, h1'], ?_, ?_⟩
  · rw [List.map_append, List.nodup_append]
    refine ⟨h2, h2', ?_⟩
    intro q hq q' hq' he
    subst he
    obtain ⟨⟨q1, v⟩, hm, rfl⟩ := List.mem_map.1 hq
    obtain ⟨⟨q2, v'⟩, hm', he⟩ := List.mem_map.1 hq'
    simp only at he
    subst he
    exact hd q2 v v' ((h3 _ _).1 hm) ((h3' _ _).1 hm')
  · intro q v
    rw [List.mem_append, h3, h3']

theorem Walk.step {R : List Step → Place → Prop} {vs : List Place} (s : Step) (hR : Walk R vs) :
    Walk (fun q v => ∃ q', q = s :: q' ∧ R q' v) vs := by
  obtain ⟨w, h1, h2, h3⟩ := hR
  refine ⟨w.map fun x => (s :: x.1, x.2), ?_, ?_, ?_⟩
  · simp [h1, List.map_map, Function.comp_def]
  · rw [List.map_map]
    have : (Prod.fst ∘ fun x : List Step × Place => (s :: x.1, x.2)) = (fun q => s :: q) ∘ Prod.fst := rfl
    rw [this, ← List.map_map]
    unfold List.Nodup at h2 ⊢
    rw [List.pairwise_map]
    exact h2.imp fun h he => h (List.cons.inj he).2
  · intro q v
    constructor
    · intro h
      obtain ⟨⟨q', v'⟩, hm, he⟩ := List.mem_map.1 h
      cases he
      exact ⟨q', rfl, (h3 _ _).1 hm⟩
    · rintro ⟨q', rfl, h⟩
      exact List.mem_map.2 ⟨(q', v), (h3 _ _).2 h, rfl⟩

/-- What is to be visited below a place. -/
def Below (w : World) (all : Bool) (stop : BitVec 32) (p : Place) (q : List Step) (v : Place) : Prop :=
  At w stop p q v ∧ Selected all stop v

theorem stops_iff {stop : BitVec 32} {p : Place} : stops stop p.field = true ↔ p.Stopped stop := by
  unfold stops Place.Stopped
  cases p.field with
  | none => simp
  | some f => simp

theorem at_cons {w : World} {stop : BitVec 32} {p v : Place} {s : Step} {q : List Step} :
    At w stop p (s :: q) v ↔
      ¬ p.Stopped stop ∧ p.op = .value ∧ ∃ p', Part w p.addr p.field p.type s p' ∧ At w stop p' q v := by
  constructor
  · rintro ⟨⟩
    rename_i h1 h2 h3
    exact ⟨h1, rfl, _, h2, h3⟩
  · obtain ⟨a, f, t, op⟩ := p
    rintro ⟨h1, rfl, p', h2, h3⟩
    exact .into h1 h2 h3

theorem at_nil {w : World} {stop : BitVec 32} {p v : Place} : At w stop p [] v ↔ v = p := by
  constructor
  · rintro ⟨⟩; rfl
  · rintro rfl; exact .here

/-- The places one step and more into a value. -/
def Inside (w : World) (all : Bool) (stop : BitVec 32) (a : Nat) (f : Option Fld) (t : Ty) (q : List Step) (v : Place) : Prop :=
  ∃ s q' p', q = s :: q' ∧ Part w a f t s p' ∧ Below w all stop p' q' v

theorem below_inside {w : World} {all : Bool} {stop : BitVec 32} {a : Nat} {f : Option Fld} {t : Ty}
    (hs : ¬ Place.Stopped stop ⟨a, f, t, .value⟩) (hl : ∀ n s, t ≠ .leaf n s) (q : List Step) (v : Place) :
    Inside w all stop a f t q v ↔ Below w all stop ⟨a, f, t, .value⟩ q v := by
  unfold Inside Below
  cases q with
  | nil =>
    simp only [at_nil]
    constructor
    · rintro ⟨_, _, _, h, _⟩; cases h
    · rintro ⟨rfl, _, h | ⟨_, n, s, h⟩⟩
      · cases h
      · exact absurd h (hl n s)
  | cons s q =>
    simp only [at_cons]
    constructor
    · rintro ⟨_, _, p', h, h1, h2, h3⟩
      cases h
      exact ⟨⟨hs, trivial, p', h1, h2⟩, h3⟩
    · rintro ⟨⟨_, _, p', h1, h2⟩, h3⟩
      exact ⟨s, q, p', rfl, h1, h2, h3⟩

/-- The tests before the dispatch. -/
theorem gate_walk {w : World} {all : Bool} {stop : BitVec 32} {p : Place} {d : Res (List Place)} (hop : p.op ≠ .reference)
    (h : p.op = .value → ¬ p.Stopped stop → ∃ vs, d = .ok vs ∧ Walk (Below w all stop p) vs) :
    ∃ vs, gate stop p d = .ok vs ∧ Walk (Below w all stop p) vs := by
  unfold gate
  by_cases hs : stops stop p.field = true
  · rw [if_pos hs]
    refine ⟨[], rfl, .nil fun q v hb => ?_⟩
    have hst := stops_iff.1 hs
    cases q with
    | nil =>
      have := at_nil.1 hb.1
      subst this
      exact hb.2.1 hst
    | cons s q => exact (at_cons.1 hb.1).1 hst
  · rw [if_neg hs]
    have hst : ¬ p.Stopped stop := fun h => hs (stops_iff.2 h)
    by_cases hp : p.op = .pointer
    · rw [if_pos hp]
      refine ⟨[p], rfl, .one p fun q v => ?_⟩
      cases q with
      | nil =>
        simp only [Below, at_nil, true_and]
        constructor
        · exact fun h => h.1
        · rintro rfl; exact ⟨rfl, hst, .inl hp⟩
      | cons s q =>
        simp only [Below, at_cons]
        constructor
        · rintro ⟨⟨_, hv, _⟩, _⟩; rw [hp] at hv; cases hv
        · rintro ⟨h, _⟩; cases h
    · rw [if_neg hp]
      refine h ?_ hst
      cases ho : p.op with
      | value => rfl
      | pointer => exact absurd ho hp
      | reference => exact absurd ho hop

/-- The loop over the elements of a container or C array. -/
theorem visitAll_walk {w : World} {all : Bool} {stop : BitVec 32} (g : Nat → Res (List Place)) (place : Nat → Place)
    (hg : ∀ a, ∃ vs, g a = .ok vs ∧ Walk (Below w all stop (place a)) vs) (mk : Nat → Step) (hmk : ∀ i j, mk i = mk j → i = j)
    (as : List Nat) (k : Nat) :
    ∃ vs, visitAll g as = .ok vs ∧
      Walk (fun q v => ∃ j a q', as[j]? = some a ∧ q = mk (k + j) :: q' ∧ Below w all stop (place a) q' v) vs := by
  induction as generalizing k with
  | nil => exact ⟨[], rfl, .nil (by rintro q v ⟨j, a, q', h, _⟩; simp at h)⟩
  | cons a as ih =>
    obtain ⟨xs, hx, wx⟩ := hg a
    obtain ⟨ys, hy, wy⟩ := ih (k + 1)
    refine ⟨xs ++ ys, by simp [visitAll, hx, hy], ?_⟩
    refine ((wx.step (mk k)).append wy ?_).congr ?_
    · rintro q v v' ⟨q', rfl, _⟩ ⟨j, a', q'', _, h, _⟩
      have := hmk _ _ (List.cons.inj h).1
      omega
    · intro q v
      constructor
      · rintro (⟨q', rfl, h⟩ | ⟨j, a', q', h1, rfl, h2⟩)
        · exact ⟨0, a, q', rfl, rfl, h⟩
        · exact ⟨j + 1, a', q', by simpa using h1, by rw [show k + 1 + j = k + (j + 1) by omega], h2⟩
      · rintro ⟨j, a', q', h1, rfl, h2⟩
        cases j with
        | zero =>
          simp only [List.getElem?_cons_zero, Option.some.injEq] at h1
          subst h1
          exact .inl ⟨q', rfl, h2⟩
        | succ j =>
          exact .inr ⟨j, a', q', by simpa using h1, by rw [show k + 1 + j = k + (j + 1) by omega], h2⟩

/-- What is to be visited in the fields from number `i` on. -/
def InFields (w : World) (all : Bool) (stop : BitVec 32) (fs : Flds) (a i : Nat) (q : List Step) (v : Place) : Prop :=
  ∃ j f t q', fs.get? j = some (f, t) ∧
    ((f.count = none ∧ q = .field (i + j) :: q' ∧ Below w all stop ⟨a + f.offset, some f, t, f.op⟩ q' v) ∨
     ∃ c k, f.count = some c ∧ k < c ∧ q = .item (i + j) k :: q' ∧
       Below w all stop ⟨a + f.offset + k * spacing t f.op, some f, t, f.op⟩ q' v)

/-- What is to be visited in the bases from number `i` on. -/
def InBases (w : World) (all : Bool) (stop : BitVec 32) (bs : Tys) (n : Bytes) (a i : Nat) (q : List Step) (v : Place) : Prop :=
  ∃ j t q', bs.get? j = some t ∧ q = .base (i + j) :: q' ∧ Below w all stop ⟨a + w.baseOffset n (i + j), none, t, .value⟩ q' v

theorem inside_cls {w : World} {all : Bool} {stop : BitVec 32} {a : Nat} {fld : Option Fld} {n : Bytes} {s : Nat} {fs : Flds} {bs : Tys}
    (q : List Step) (v : Place) :
    (InFields w all stop fs a 0 q v ∨ InBases w all stop bs n a 0 q v) ↔ Inside w all stop a fld (.cls n s fs bs) q v := by
  constructor
  · rintro (⟨j, f, t, q', h, ⟨hc, rfl, hb⟩ | ⟨c, k, hc, hk, rfl, hb⟩⟩ | ⟨j, t, q', h, rfl, hb⟩)
    · exact ⟨_, _, _, rfl, by rw [Nat.zero_add]; exact .field h hc, hb⟩
    · exact ⟨_, _, _, rfl, by rw [Nat.zero_add]; exact .item h hc hk, hb⟩
    · exact ⟨_, _, _, rfl, by rw [Nat.zero_add]; exact .base h, by simpa using hb⟩
  · rintro ⟨s', q', p', rfl, hp, hb⟩
    cases hp with
    | field h hc => exact .inl ⟨_, _, _, _, h, .inl ⟨hc, by rw [Nat.zero_add], hb⟩⟩
    | item h hc hk => exact .inl ⟨_, _, _, _, h, .inr ⟨_, _, hc, hk, by rw [Nat.zero_add], hb⟩⟩
    | base h => exact .inr ⟨_, _, _, h, by rw [Nat.zero_add], by simpa using hb⟩

theorem inside_tmpl {w : World} {all : Bool} {stop : BitVec 32} {a : Nat} {fld : Option Fld} {n : Bytes} {s : Nat} {bs : Tys}
    (q : List Step) (v : Place) : InBases w all stop bs n a 0 q v ↔ Inside w all stop a fld (.tmpl n s bs) q v := by
  constructor
  · rintro ⟨j, t, q', h, rfl, hb⟩
    exact ⟨_, _, _, rfl, by rw [Nat.zero_add]; exact .templateBase h, by simpa using hb⟩
  · rintro ⟨s', q', p', rfl, hp, hb⟩
    cases hp with
    | templateBase h => exact ⟨_, _, _, h, by rw [Nat.zero_add], by simpa using hb⟩

theorem inside_cont {w : World} {all : Bool} {stop : BitVec 32} {a : Nat} {fld : Option Fld} {n : Bytes} {s : Nat} {e : Ty} {isPtr : Bool}
    (q : List Step) (v : Place) :
    (∃ j x q', (w.elems a)[j]? = some x ∧ q = .elem (0 + j) :: q' ∧ Below w all stop ⟨x, fld, e, elemOp isPtr⟩ q' v) ↔
      Inside w all stop a fld (.cont n s e isPtr) q v := by
  constructor
  · rintro ⟨j, x, q', h, rfl, hb⟩
    exact ⟨_, _, _, rfl, by rw [Nat.zero_add]; exact .elem h, hb⟩
  · rintro ⟨s', q', p', rfl, hp, hb⟩
    cases hp with
    | elem h => exact ⟨_, _, _, h, by rw [Nat.zero_add], hb⟩

theorem elemOp_ne (b : Bool) : elemOp b ≠ .reference := by cases b <;> decide

theorem elemOp_op {op : Op} (h : op ≠ .reference) : elemOp (op == .pointer) = op := by
  cases op
  · rfl
  · rfl
  · exact absurd rfl h

theorem arrayItems_ok {a c s : Nat} (h : 0 < s) : arrayItems a c s = .ok ((List.range c).map fun k => a + k * s) := by
  rw [arrayItems, if_neg (by omega)]

theorem inFields_cons {w : World} {all : Bool} {stop : BitVec 32} {f : Fld} {t : Ty} {r : Flds} {a i : Nat} (q : List Step) (v : Place) :
    (∃ q', (f.count = none ∧ q = .field i :: q' ∧ Below w all stop ⟨a + f.offset, some f, t, f.op⟩ q' v) ∨
      ∃ c k, f.count = some c ∧ k < c ∧ q = .item i k :: q' ∧
        Below w all stop ⟨a + f.offset + k * spacing t f.op, some f, t, f.op⟩ q' v) ∨ InFields w all stop r a (i + 1) q v ↔
      InFields w all stop (.cons f t r) a i q v := by
  constructor
  · rintro (⟨q', h⟩ | ⟨j, f', t', q', h, h'⟩)
    · exact ⟨0, f, t, q', rfl, by simpa using h⟩
    · refine ⟨j + 1, f', t', q', h, ?_⟩
      rw [show i + (j + 1) = i + 1 + j by omega]
      exact h'
  · rintro ⟨j, f', t', q', h, h'⟩
    cases j with
    | zero =>
      cases h
      exact .inl ⟨q', by simpa using h'⟩
    | succ j =>
      refine .inr ⟨j, f', t', q', h, ?_⟩
      rw [show i + 1 + j = i + (j + 1) by omega]
      exact h'

mutual
theorem visitField_walk (w : World) (all : Bool) (stop : BitVec 32) : ∀ (t : Ty) (a : Nat) (f : Option Fld) (op : Op), t.Plain w →
    op ≠ .reference → ∃ vs, visitField w.elems all stop t a f op = .ok vs ∧ Walk (Below w all stop ⟨a, f, t, op⟩) vs
  | .leaf n s, a, f, op, _, hop => by
    rw [visitField]
    refine gate_walk hop fun hv hs => ?_
    refine ⟨_, rfl, ?_⟩
    have hno : ∀ s' q v, ¬ At w stop ⟨a, f, .leaf n s, op⟩ (s' :: q) v := by
      intro s' q v h
      obtain ⟨_, _, p', hp, _⟩ := at_cons.1 h
      cases hp
    cases all with
    | true =>
      refine .one _ fun q v => ?_
      cases q with
      | nil =>
        simp only [Below, at_nil, true_and]
        constructor
        · exact fun h => h.1
        · rintro rfl; exact ⟨rfl, hs, .inr ⟨rfl, n, s, rfl⟩⟩
      | cons s' q =>
        constructor
        · exact fun h => absurd h.1 (hno _ _ _)
        · rintro ⟨h, _⟩; cases h
    | false =>
      refine .nil fun q v hb => ?_
      cases q with
      | nil =>
        have := at_nil.1 hb.1
        subst this
        rcases hb.2.2 with h | ⟨h, _⟩
        · rw [hv] at h; cases h
        · cases h
      | cons s' q => exact hno _ _ _ hb.1
  | .cls n s fs bs, a, f, op, hp, hop => by
    rw [visitField]
    refine gate_walk hop fun hv hs => ?_
    have hv' : op = .value := hv
    subst hv'
    rw [Ty.Plain] at hp
    obtain ⟨xs, hx, wx⟩ := visitFlds_walk w all stop fs a 0 hp.1
    obtain ⟨ys, hy, wy⟩ := visitBases_walk w all stop bs n a 0 hp.2
    refine ⟨xs ++ ys, by simp [hx, hy], ?_⟩
    refine (wx.append wy ?_).congr fun q v => (inside_cls q v).trans (below_inside hs (by simp) q v)
    rintro q v v' ⟨j, f, t, q', h, ⟨_, rfl, _⟩ | ⟨c, k, _, _, rfl, _⟩⟩ ⟨j', t', q'', _, h', _⟩ <;> cases h'
  | .tmpl n s bs, a, f, op, hp, hop => by
    rw [visitField]
    refine gate_walk hop fun hv hs => ?_
    have hv' : op = .value := hv
    subst hv'
    rw [Ty.Plain] at hp
    obtain ⟨ys, hy, wy⟩ := visitBases_walk w all stop bs n a 0 hp
    exact ⟨ys, hy, wy.congr fun q v => (inside_tmpl q v).trans (below_inside hs (by simp) q v)⟩
  | .cont n s e isPtr, a, f, op, hp, hop => by
    rw [visitField]
    refine gate_walk hop fun hv hs => ?_
    have hv' : op = .value := hv
    subst hv'
    rw [Ty.Plain] at hp
    obtain ⟨vs, hx, wx⟩ := visitAll_walk (w := w) (all := all) (stop := stop) (fun v => visitField w.elems all stop e v f (elemOp isPtr))
      (fun v => ⟨v, f, e, elemOp isPtr⟩) (fun v => visitField_walk w all stop e v f (elemOp isPtr) hp (elemOp_ne _)) Step.elem
      (fun i j h => by cases h; rfl) (w.elems a) 0
    exact ⟨vs, hx, wx.congr fun q v => (inside_cont q v).trans (below_inside hs (by simp) q v)⟩

theorem visitFlds_walk (w : World) (all : Bool) (stop : BitVec 32) : ∀ (fs : Flds) (a i : Nat), fs.Plain w →
    ∃ vs, visitFlds w.elems all stop fs a = .ok vs ∧ Walk (InFields w all stop fs a i) vs
  | .nil, a, i, _ => by
    rw [visitFlds]
    exact ⟨[], rfl, .nil (by rintro q v ⟨j, f, t, q', h, _⟩; simp [Flds.get?] at h)⟩
  | .cons f t r, a, i, hp => by
    rw [Flds.Plain] at hp
    obtain ⟨hop, hsz, ht, hr⟩ := hp
    obtain ⟨ys, hy, wy⟩ := visitFlds_walk w all stop r a (i + 1) hr
    rw [visitFlds]
    cases hc : f.count with
    | none =>
      obtain ⟨xs, hx, wx⟩ := visitField_walk w all stop t (a + f.offset) (some f) f.op ht hop
      refine ⟨xs ++ ys, by simp [hx, hy], ?_⟩
      refine ((wx.step (.field i)).append wy ?_).congr fun q v => ?_
      · rintro q v v' ⟨q', rfl, _⟩ ⟨j, f', t', q'', _, ⟨_, h, _⟩ | ⟨_, _, _, _, h, _⟩⟩
        · have := Step.field.inj (List.cons.inj h).1; omega
        · cases h
      · rw [← inFields_cons q v, hc]
        simp
    | some c =>
      rw [stride_eq]
      have hs := hsz (by simp [hc])
      obtain ⟨xs, hx, wx⟩ := visitAll_walk (w := w) (all := all) (stop := stop)
        (fun v => visitField w.elems all stop t v (some f) (elemOp (f.op == .pointer)))
        (fun v => ⟨v, some f, t, elemOp (f.op == .pointer)⟩)
        (fun v => visitField_walk w all stop t v (some f) (elemOp (f.op == .pointer)) ht (elemOp_ne _)) (Step.item i)
        (fun i j h => by cases h; rfl) ((List.range c).map fun k => a + f.offset + k * spacing t f.op) 0
      refine ⟨xs ++ ys, by simp [arrayItems_ok hs, hx, hy], ?_⟩
      refine (wx.append wy ?_).congr fun q v => ?_
      · rintro q v v' ⟨k, x, q', _, rfl, _⟩ ⟨j, f', t', q'', _, ⟨_, h, _⟩ | ⟨_, _, _, _, h, _⟩⟩
        · cases h
        · have := (Step.item.inj (List.cons.inj h).1).1; omega
      · rw [← inFields_cons q v, hc]
        refine or_congr_left ?_
        constructor
        · rintro ⟨k, x, q', hx, rfl, hb⟩
          obtain ⟨hk, hx⟩ := List.getElem?_eq_some_iff.1 hx
          simp only [List.length_map, List.length_range] at hk
          simp only [List.getElem_map, List.getElem_range] at hx
          subst hx
          rw [elemOp_op hop] at hb
          exact ⟨q', .inr ⟨c, k, rfl, hk, by rw [Nat.zero_add], hb⟩⟩
        · rintro ⟨q', ⟨h, _⟩ | ⟨c', k, h, hk, rfl, hb⟩⟩
          · cases h
          · cases h
            refine ⟨k, a + f.offset + k * spacing t f.op, q', ?_, by rw [Nat.zero_add], by rw [elemOp_op hop]; exact hb⟩
            simp [hk]

theorem visitBases_walk (w : World) (all : Bool) (stop : BitVec 32) : ∀ (bs : Tys) (n : Bytes) (a i : Nat), bs.Plain w n i →
    ∃ vs, visitBases w.elems all stop bs a = .ok vs ∧ Walk (InBases w all stop bs n a i) vs
  | .nil, n, a, i, _ => by
    rw [visitBases]
    exact ⟨[], rfl, .nil (by rintro q v ⟨j, t, q', h, _⟩; simp [Tys.get?] at h)⟩
  | .cons t r, n, a, i, hp => by
    rw [Tys.Plain] at hp
    obtain ⟨h0, ht, hr⟩ := hp
    obtain ⟨ys, hy, wy⟩ := visitBases_walk w all stop r n a (i + 1) hr
    obtain ⟨xs, hx, wx⟩ := visitField_walk w all stop t a none .value ht (by decide)
    rw [visitBases]
    refine ⟨xs ++ ys, by simp [hx, hy], ?_⟩
    refine ((wx.step (.base i)).append wy ?_).congr fun q v => ?_
    · rintro q v v' ⟨q', rfl, _⟩ ⟨j, t', q'', _, h, _⟩
      have := Step.base.inj (List.cons.inj h).1; omega
    · constructor
      · rintro (⟨q', rfl, h⟩ | ⟨j, t', q', h1, rfl, h2⟩)
        · exact ⟨0, t, q', rfl, rfl, by simpa [h0] using h⟩
        · refine ⟨j + 1, t', q', h1, by rw [show i + 1 + j = i + (j + 1) by omega], ?_⟩
          rw [show i + (j + 1) = i + 1 + j by omega]; exact h2
      · rintro ⟨j, t', q', h1, rfl, h2⟩
        cases j with
        | zero =>
          cases h1
          exact .inl ⟨q', rfl, by simpa [h0] using h2⟩
        | succ j =>
          refine .inr ⟨j, t', q', h1, by rw [show i + 1 + j = i + (j + 1) by omega], ?_⟩
          rw [show i + 1 + j = i + (j + 1) by omega]; exact h2
end

end Clr.Visit
