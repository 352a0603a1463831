import Verif.Props.JSONTextSpec
import Verif.Proofs.JSONClass
/-
C97: the text that is saved.
-/
namespace Clr.JSON

/-! ### Numbers -/

theorem ascii_digit : ∀ d, d < 16 → digitChar d = UInt8.ofNat (Nat.digitChar d).toNat := by decide

theorem radixLoop_text {cap radix v : Nat} {acc out : Bytes} (h2 : 1 < radix) (h16 : radix ≤ 16) (h : radixLoop cap radix v acc = .ok out) :
    out = asciiOf (Nat.toDigits radix v) ++ acc := by
  fun_induction radixLoop cap radix v acc with
  | case1 v acc hlt hz =>
    have hv : v < radix := by
      rcases Nat.div_eq_zero_iff.1 hz with h | h <;> omega
    injection h with h
    subst h
    rw [Nat.toDigits_of_lt_base hv, Nat.mod_eq_of_lt hv, ascii_digit v (by omega)]
    rfl
  | case2 v acc hlt hz ih =>
    have hv : radix ≤ v := by
      refine Nat.le_of_not_lt fun h => hz (Nat.div_eq_zero_iff.2 (Or.inr h))
    rw [ih h, Nat.toDigits_of_base_le h2 hv, ascii_digit (v % radix) (Nat.lt_of_lt_of_le (Nat.mod_lt _ (by omega)) h16)]
    simp [asciiOf]
  | case3 v acc hlt => simp at h

theorem saveUnsigned_text {v : Nat} {t : Bytes} (h : saveUnsigned v = .ok t) : t = decText v := by
  have := radixLoop_text (by omega) (by omega) h
  rw [this]
  unfold decText
  rw [if_neg (by omega)]
  simp

theorem saveHex_text {v : Nat} {t : Bytes} (h : saveHex v = .ok t) : t = hexText v := by
  have := radixLoop_text (by omega) (by omega) h
  rw [this]
  simp [hexText]

theorem saveInteger_text {v : Int} {t : Bytes} (h : saveInteger v = .ok t) : t = decText v := by
  unfold saveInteger at h
  unfold decText
  split at h
  · rename_i hn
    rw [if_pos hn]
    split at h
    · simp at h
    · cases hr : radixLoop 19 10 v.natAbs [] with
      | ok ds =>
        rw [hr] at h
        simp only [Res.bind_ok] at h
        unfold pushChar at h
        split at h
        · injection h with h
          rw [← h, radixLoop_text (by omega) (by omega) hr]
          simp
        · simp at h
      | trap => rw [hr] at h; simp at h
      | ub => rw [hr] at h; simp at h
  · rename_i hn
    rw [if_neg hn, radixLoop_text (by omega) (by omega) h]
    simp

theorem signedOf_bytes {w : Nat} {bs : Bytes} (hw : 1 ≤ w) (hl : bs.length = w) :
    IntBytes w (signedOf w (unle bs)) bs ∧ -(256 ^ w / 2) ≤ signedOf w (unle bs) ∧ signedOf w (unle bs) ≤ 256 ^ w / 2 - 1 := by
  have hlt : unle bs < 256 ^ w := by rw [← hl]; exact unle_lt bs
  have hb := signedOf_bounds hw hlt
  have hc : ((256 ^ w : Nat) : Int) = (256 : Int) ^ w := by simp
  refine ⟨⟨hl, ?_⟩, ?_⟩
  · unfold signedOf
    rw [← hc]
    generalize 256 ^ w = n at *
    split
    · rw [Int.emod_eq_of_lt (by omega) (by omega)]
    · rw [Int.sub_emod_right, Int.emod_eq_of_lt (by omega) (by omega)]
  · unfold signedOf at hb ⊢
    rw [← hc] at hb ⊢
    generalize 256 ^ w = n at *
    split at hb
    all_goals split
    all_goals omega

theorem saveDecimal_text {fl : Floats} {hf : Bool} {b : UInt64} {t : Bytes} (h : saveDecimal fl hf b = .ok t) :
    (hf = true ∧ t = b!"0d" ++ hexText b.toNat) ∨ (hf = false ∧ t = fl.format b) := by
  unfold saveDecimal at h
  cases hf with
  | true =>
    rw [if_pos rfl] at h
    cases hr : saveHex b.toNat with
    | ok ds =>
      rw [hr] at h
      simp only [Res.bind_ok] at h
      injection h with h
      rw [← h, saveHex_text hr]
      exact .inl ⟨rfl, rfl⟩
    | trap => rw [hr] at h; simp at h
    | ub => rw [hr] at h; simp at h
  | false =>
    simp only [Bool.false_eq_true, if_false] at h
    injection h with h
    exact .inr ⟨rfl, h.symm⟩

theorem saveNum_text {fl : Floats} {hf : Bool} {k : Num} {bs t : Bytes} (hk : 1 ≤ k.size) (hl : bs.length = k.size)
    (h : saveNum fl hf k bs = .ok t) : NumText fl hf k bs t := by
  cases k with
  | bool =>
    unfold saveNum at h
    simp only at h
    have hl1 : bs.length = 1 := hl
    match bs, hl1 with
    | [b], _ =>
      have hb : unle [b] = b.toNat := by simp [unle]
      rw [hb] at h
      split at h
      · rename_i h2
        have ht := saveInteger_text h
        have : b = 0 ∨ b = 1 := by
          rcases (by omega : b.toNat = 0 ∨ b.toNat = 1) with h | h
          · exact .inl (UInt8.toNat_inj.1 h)
          · exact .inr (UInt8.toNat_inj.1 h)
        rcases this with rfl | rfl
        · rw [show t = b!"0" from ht.trans (by decide)]
          exact .fls
        · rw [show t = b!"1" from ht.trans (by decide)]
          exact .tru
      · simp at h
  | int w =>
    obtain ⟨h1, h2, h3⟩ := signedOf_bytes hk hl
    rw [saveInteger_text h]
    exact .int h1 h2 h3
  | nat w s =>
    have ht := saveUnsigned_text h
    cases s with
    | true =>
      obtain ⟨h1, h2, h3⟩ := signedOf_bytes (w := w) hk hl
      rw [if_pos rfl] at ht
      rw [ht]
      have := NumText.wide (fl := fl) (hexFloats := hf) h1 h2 h3
      have he : ((wrapTo 8 (signedOf w (unle bs)) : Nat) : Int) = signedOf w (unle bs) % 2 ^ 64 := by
        unfold wrapTo
        have : (0 : Int) ≤ signedOf w (unle bs) % 256 ^ 8 := Int.emod_nonneg _ (by decide)
        rw [Int.toNat_of_nonneg this]
        rfl
      rw [he]
      exact this
    | false =>
      simp only [Bool.false_eq_true, if_false] at ht
      rw [ht]
      exact .nat hl
  | hex w =>
    unfold saveNum at h
    simp only at h
    cases hr : saveHex (unle bs) with
    | ok ds =>
      rw [hr] at h
      simp only [Res.bind_ok] at h
      injection h with h
      rw [← h, saveHex_text hr]
      exact .hex hl
    | trap => rw [hr] at h; simp at h
    | ub => rw [hr] at h; simp at h
  | float =>
    rcases saveDecimal_text h with ⟨h1, h2⟩ | ⟨h1, h2⟩
    · rw [h2]; exact .floatBits hl h1
    · rw [h2]; exact .float hl h1
  | double =>
    have hlt : unle bs < 2 ^ 64 := by
      have := unle_lt bs
      rw [show bs.length = 8 from hl] at this
      exact this
    rcases saveDecimal_text h with ⟨h1, h2⟩ | ⟨h1, h2⟩
    · rw [h2, show (UInt64.ofNat (unle bs)).toNat = unle bs from by simp; omega]
      exact .doubleBits hl h1
    · rw [h2]; exact .double hl h1

theorem registrations_size (p : Platform) (hp : 1 ≤ p.longBytes ∧ 1 ≤ p.wcharBytes) : ∀ x ∈ registrations p, 1 ≤ x.2.size := by
  unfold registrations
  intro x hx
  simp only [List.mem_cons, List.not_mem_nil, or_false] at hx
  rcases hx with h | h | h | h | h | h | h | h | h | h | h | h | h | h <;> (subst h; simp [Num.size, hp.1, hp.2])

theorem savePtr_text {o : Opts} {h : BitVec 32} {t : Bytes} (hs : savePtr o h = .ok t) : t = ptrText o h := by
  unfold savePtr at hs
  unfold ptrText
  split at hs
  · rename_i hx
    rw [if_pos hx]
    cases hr : saveHex h.toNat with
    | ok ds =>
      rw [hr] at hs
      simp only [Res.bind_ok] at hs
      injection hs with hs
      rw [← hs, saveHex_text hr]
    | trap => rw [hr] at hs; simp at hs
    | ub => rw [hr] at hs; simp at hs
  · rename_i hx
    rw [if_neg hx]
    exact saveUnsigned_text hs

/-! ### Enums -/

theorem quote_eq (s : Bytes) : quote s = quoted s := by simp [quote, quoted]

theorem joinBar_eq : ∀ ns : List Bytes, joinBar ns = List.intercalate [124] ns
  | [] => rfl
  | [s] => by simp [joinBar, List.intercalate]
  | s :: t :: r => by
    rw [joinBar, joinBar_eq (t :: r)]
    simp [List.intercalate, List.intersperse]

theorem flagsOf_zero : ∀ cs : List Const, FlagsOf cs 0 []
  | [] => .nil 0
  | c :: cs => .no (by simp) (flagsOf_zero cs)

theorem flagNames_spec : ∀ (cs : List Const) (v : BitVec 32), FlagsOf cs v (flagNames cs v)
  | [], v => .nil v
  | c :: cs, v => by
    unfold flagNames
    split
    · rename_i h
      refine .yes (by simpa using h) ?_
      split
      · rename_i h0
        rw [h0]
        exact flagsOf_zero cs
      · exact flagNames_spec cs _
    · rename_i h
      exact .no (by simpa using h) (flagNames_spec cs v)

theorem find_text {cs : List Const} {fl : Bool} {v : BitVec 32} (hf : fl = false ∨ v = 0) : ∀ pre : List Const, (∀ x ∈ pre, x.value ≠ v) →
    ∀ rest, cs = pre ++ rest → EnumText cs fl v (match rest.find? (fun c => c.value == v) with
      | some c => quote c.name
      | none => quote b!"clReflect_JSON_EnumValueNotFound")
  | pre, hp, [], hc => by
    rw [List.append_nil] at hc
    subst hc
    simp only [List.find?_nil, quote_eq]
    exact .noName hf hp
  | pre, hp, c :: r, hc => by
    by_cases h : c.value = v
    · rw [List.find?_cons_of_pos (by simpa using h)]
      simp only [quote_eq]
      exact .name hf hc h hp
    · rw [List.find?_cons_of_neg (by simpa using h)]
      refine find_text hf (pre ++ [c]) (fun x hx => ?_) r (by simpa using hc)
      rcases List.mem_append.1 hx with hx | hx
      · exact hp x hx
      · rw [List.mem_singleton.1 hx]; exact h
termination_by _ _ rest => rest.length

theorem saveEnum_text (cs : List Const) (fl : Bool) (v : BitVec 32) : EnumText cs fl v (saveEnum cs fl v) := by
  unfold saveEnum
  split
  · rename_i h
    simp only [Bool.and_eq_true, bne_iff_ne, ne_eq] at h
    obtain ⟨rfl, hv⟩ := h
    have hs := flagNames_spec cs v
    split
    · rename_i h0
      rw [h0] at hs
      rw [quote_eq]
      exact .noFlags hv hs
    · rename_i h0
      rw [quote_eq, joinBar_eq]
      exact .flags hv hs h0
  · rename_i h
    refine find_text ?_ [] (by simp) cs rfl
    cases fl with
    | false => exact .inl rfl
    | true =>
      right
      simpa using h

/-! ### Lists -/

/-- Texts, each with a comma before it. -/
def commaed (ts : List Bytes) : Bytes := (ts.map (44 :: ·)).flatten

theorem intercalate_cons (t : Bytes) (ts : List Bytes) : List.intercalate [44] (t :: ts) = t ++ commaed ts := by
  induction ts generalizing t with
  | nil => simp [List.intercalate, commaed]
  | cons u us ih =>
    have := ih u
    simp only [List.intercalate, List.intersperse, commaed, List.map_cons, List.flatten_cons] at this ⊢
    rw [this]
    simp

/-- What is written of a list, at its beginning or later. -/
def listed (written : Bool) (ts : List Bytes) : Bytes := if written then commaed ts else List.intercalate [44] ts

theorem listed_cons (w : Bool) (t : Bytes) (ts : List Bytes) : listed w (t :: ts) = (if w then [44] else []) ++ (t ++ listed true ts) := by
  unfold listed
  cases w with
  | true => simp [commaed]
  | false => simp [intercalate_cons]

theorem listed_nil (w : Bool) : listed w [] = [] := by
  cases w <;> rfl

theorem value_shows {e : Env} {p : Platform} {o : Opts} {m : Mem} {t : Ty} {ptr : Bool} {save : Nat → Res Bytes} (hl : ptr = true → AllMapped o)
    {a : Nat} (ht : ptr = false → ∀ x, save a = .ok x → Shows e p o m t a x) {r : Option Bytes} (h : saveValue o m t.hash ptr save a = .ok r) :
    ∃ v, r = some v ∧ ∀ as ts, ElementsShow e p o m t ptr as ts → ElementsShow e p o m t ptr (a :: as) (v :: ts) := by
  unfold saveValue at h
  cases ptr with
  | true =>
    rw [if_pos rfl] at h
    cases hm : o.mapPtr t.hash (m.ptr a) with
    | none => exact absurd hm (hl rfl _ _)
    | some x =>
      rw [hm] at h
      simp only at h
      cases hs : savePtr o x with
      | ok v =>
        rw [hs] at h
        injection h with h
        refine ⟨v, h.symm, fun as ts hr => ?_⟩
        rw [savePtr_text hs]
        exact .pointer hm hr
      | trap => rw [hs] at h; cases h
      | ub => rw [hs] at h; cases h
  | false =>
    simp only [Bool.false_eq_true, if_false] at h
    cases hs : save a with
    | ok v =>
      rw [hs] at h
      injection h with h
      exact ⟨v, h.symm, fun as ts hr => .value (ht rfl v hs) hr⟩
    | trap => rw [hs] at h; cases h
    | ub => rw [hs] at h; cases h

theorem items_show {e : Env} {p : Platform} {o : Opts} {m : Mem} {t : Ty} {ptr : Bool} {save : Nat → Res Bytes} (hl : ptr = true → AllMapped o)
    (items : List (Nat × Nat)) (ht : ptr = false → ∀ kv ∈ items, ∀ x, save kv.2 = .ok x → Shows e p o m t kv.2 x) (w : Bool) {text : Bytes}
    (h : saveItems o m t.hash ptr none save items.length items w = .ok text) :
    ∃ ts, ElementsShow e p o m t ptr (items.map (·.2)) ts ∧ text = listed w ts := by
  induction items generalizing w text with
  | nil =>
    simp only [List.length_nil, saveItems] at h
    injection h with h
    exact ⟨[], .nil t ptr, by rw [listed_nil]; exact h.symm⟩
  | cons kv r ih =>
    rw [List.length_cons, saveItems] at h
    obtain ⟨k, hk, h⟩ := Res.bind_eq_ok.1 h
    obtain ⟨v, hv, h⟩ := Res.bind_eq_ok.1 h
    injection hk with hk
    subst hk
    obtain ⟨v, rfl, hc⟩ := value_shows hl (fun hp => ht hp kv (by simp)) hv
    simp only at h
    obtain ⟨u, hu, h⟩ := Res.bind_eq_ok.1 h
    obtain ⟨ts, h1, h2⟩ := ih (fun hp x hx => ht hp x (by simp [hx])) true hu
    injection h with h
    refine ⟨v :: ts, hc _ _ h1, ?_⟩
    rw [listed_cons, ← h, h2]
    simp

theorem pairs_show {e : Env} {p : Platform} {o : Opts} {m : Mem} {k t : Ty} {ptr : Bool} {key save : Nat → Res Bytes} (hl : ptr = true → AllMapped o)
    (items : List (Nat × Nat)) (hk : ∀ kv ∈ items, ∀ x, key kv.1 = .ok x → Shows e p o m k kv.1 x)
    (ht : ptr = false → ∀ kv ∈ items, ∀ x, save kv.2 = .ok x → Shows e p o m t kv.2 x) (w : Bool) {text : Bytes}
    (h : saveItems o m t.hash ptr (some key) save items.length items w = .ok text) :
    ∃ ks ts, ElementsShow e p o m k false (items.map (·.1)) ks ∧ ElementsShow e p o m t ptr (items.map (·.2)) ts ∧
      text = listed w (List.zipWith (fun x y => x ++ [58] ++ y) ks ts) := by
  induction items generalizing w text with
  | nil =>
    simp only [List.length_nil, saveItems] at h
    injection h with h
    exact ⟨[], [], .nil k false, .nil t ptr, by rw [List.zipWith_nil_left, listed_nil]; exact h.symm⟩
  | cons kv r ih =>
    rw [List.length_cons, saveItems] at h
    obtain ⟨x, hx, h⟩ := Res.bind_eq_ok.1 h
    obtain ⟨v, hv, h⟩ := Res.bind_eq_ok.1 h
    unfold saveKey at hx
    simp only at hx
    cases hy : key kv.1 with
    | ok y =>
      rw [hy] at hx
      injection hx with hx
      subst hx
      obtain ⟨v, rfl, hc⟩ := value_shows hl (fun hp => ht hp kv (by simp)) hv
      simp only at h
      obtain ⟨u, hu, h⟩ := Res.bind_eq_ok.1 h
      obtain ⟨ks, ts, h0, h1, h2⟩ := ih (fun x hx => hk x (by simp [hx])) (fun hp x hx => ht hp x (by simp [hx])) true hu
      injection h with h
      refine ⟨y :: ks, v :: ts, .value (hk kv (by simp) y hy) h0, hc _ _ h1, ?_⟩
      rw [List.zipWith_cons_cons, listed_cons, ← h, h2]
      simp
    | trap => rw [hy] at hx; cases hx
    | ub => rw [hy] at hx; cases hx

theorem list_shows {e : Env} {p : Platform} {o : Opts} {m : Mem} {t : Ty} {ptr : Bool} {save : Nat → Res Bytes} (hl : ptr = true → AllMapped o)
    (items : List (Nat × Nat)) (ht : ptr = false → ∀ kv ∈ items, ∀ x, save kv.2 = .ok x → Shows e p o m t kv.2 x) {text : Bytes}
    (h : saveContainer o m t.hash ptr none save items = .ok text) :
    ∃ ts, ElementsShow e p o m t ptr (items.map (·.2)) ts ∧ text = listText ts := by
  unfold saveContainer at h
  split at h
  · rename_i h0
    subst h0
    injection h with h
    exact ⟨[], .nil t ptr, h.symm⟩
  · obtain ⟨u, hu, h⟩ := Res.bind_eq_ok.1 h
    obtain ⟨ts, h1, h2⟩ := items_show hl items ht false hu
    injection h with h
    refine ⟨ts, h1, ?_⟩
    rw [← h, h2]
    simp [listText, listed]

/-! ### Members -/

/-- A field with how it is saved. -/
def saverOf (e : Env) (o : Opts) (m : Mem) (x : FldInfo × Ty) : Saver :=
  { info := x.1, type := x.2, save := fun i a => saveObj e o m x.2 i a }

theorem savers_saverOf (e : Env) (o : Opts) (m : Mem) : ∀ fs : Flds, savers e o m fs = fs.list.map (saverOf e o m)
  | .nil => by simp [savers, Flds.list]
  | .cons f t r => by simp [savers, Flds.list, savers_saverOf e o m r, saverOf]

theorem order_members (e : Env) (o : Opts) (m : Mem) (fs : Flds) (hs : SortOk e o fs) :
    ∃ own, InOrder e o fs own ∧ order e o (savers e o m fs) = own.map (saverOf e o m) := by
  obtain ⟨o1, o2, -⟩ := order_spec e o (savers e o m fs) (by
    intro h
    obtain ⟨h1, h2⟩ := hs h
    rw [← savers_map e o m fs] at h1 h2
    refine ⟨?_, fun s hs => h2 s.field (List.mem_map.2 ⟨s, hs, rfl⟩)⟩
    rw [List.pairwise_filter, List.pairwise_map] at h1
    rw [List.pairwise_filter]
    exact h1)
  have hb : ∀ s ∈ order e o (savers e o m fs), s = saverOf e o m s.field ∧ s.field ∈ fs.list ∧ e.skips s.info.flags = false := by
    intro s h
    obtain ⟨h1, h2⟩ := (o1 s).1 h
    rw [savers_saverOf] at h1
    obtain ⟨x, hx, rfl⟩ := List.mem_map.1 h1
    exact ⟨rfl, hx, h2⟩
  refine ⟨(order e o (savers e o m fs)).map Saver.field, ⟨fun h => ?_, fun h => ⟨?_, fun x => ?_⟩⟩, ?_⟩
  · unfold order
    rw [if_neg (by simp [h]), savers_saverOf, List.filter_map, List.map_map]
    rw [show (Saver.field ∘ saverOf e o m) = id from rfl, List.map_id]
    rfl
  · rw [List.pairwise_map]
    exact o2 h
  · constructor
    · intro hx
      obtain ⟨s, h1, rfl⟩ := List.mem_map.1 hx
      exact (hb s h1).2
    · rintro ⟨h1, h2⟩
      refine List.mem_map.2 ⟨saverOf e o m x, (o1 _).2 ⟨?_, h2⟩, rfl⟩
      rw [savers_saverOf]
      exact List.mem_map.2 ⟨x, h1, rfl⟩
  · rw [List.map_map]
    symm
    conv => rhs; rw [← List.map_id (order e o (savers e o m fs))]
    exact List.map_congr_left fun s h => (hb s h).1.symm

mutual
theorem class_members (e : Env) (o : Opts) (m : Mem) : ∀ t : Ty, SortsOk e o t →
    ∃ ms, ClassMembers e o t ms ∧ classSavers e o m t = ms.map (saverOf e o m)
  | .cls h s fl fs bs, hs => by
    rw [classSavers]
    by_cases hf : e.skips fl = true
    · rw [if_pos hf]
      exact ⟨[], .hidden hf, rfl⟩
    · rw [if_neg hf]
      rw [SortsOk] at hs
      obtain ⟨own, h1, h2⟩ := order_members e o m fs hs.1
      obtain ⟨inh, h3, h4⟩ := base_members e o m bs hs.2
      exact ⟨own ++ inh, .cls (by simpa using hf) h1 h3, by rw [h2, h4, List.map_append]⟩
  | .tmpl h s bs, hs => by
    rw [SortsOk] at hs
    obtain ⟨inh, h3, h4⟩ := base_members e o m bs hs
    exact ⟨inh, .tmpl h3, by rw [classSavers, h4]⟩
  | .prim _ _, _ => ⟨[], .prim, rfl⟩
  | .enum _ _ _ _, _ => ⟨[], .enum, rfl⟩
  | .vec _ _ _ _, _ => ⟨[], .vec, rfl⟩
  | .dict _ _ _ _ _, _ => ⟨[], .dict, rfl⟩

theorem base_members (e : Env) (o : Opts) (m : Mem) : ∀ bs : Tys, SortsOkAll e o bs →
    ∃ ms, BaseMembers e o bs ms ∧ baseSavers e o m bs = ms.map (saverOf e o m)
  | .nil, _ => ⟨[], .nil, by rw [baseSavers]; rfl⟩
  | .cons t r, hs => by
    rw [SortsOkAll] at hs
    obtain ⟨xs, h1, h2⟩ := class_members e o m t hs.1
    obtain ⟨ys, h3, h4⟩ := base_members e o m r hs.2
    exact ⟨xs ++ ys, .cons h1 h3, by rw [baseSavers, h2, h4, List.map_append]⟩
end

theorem inOrder_mem {e : Env} {o : Opts} {fs : Flds} {l : List (FldInfo × Ty)} (h : InOrder e o fs l) {x : FldInfo × Ty} (hx : x ∈ l) :
    x ∈ fs.list ∧ e.skips x.1.flags = false := by
  cases hs : o.sort with
  | true => exact ((h.2 hs).2 x).1 hx
  | false =>
    rw [h.1 hs] at hx
    simpa using hx

mutual
theorem members_mem {e : Env} {o : Opts} : ∀ (t : Ty) (ms : List (FldInfo × Ty)), ClassMembers e o t ms →
    ∀ x ∈ ms, x ∈ t.allFields ∧ e.skips x.1.flags = false
  | .cls .., _, .hidden _ => by simp
  | .cls _ _ _ fs bs, _, .cls hs ho hb => by
    intro x hx
    rw [Ty.allFields]
    rcases List.mem_append.1 hx with hx | hx
    · exact ⟨List.mem_append.2 (.inl (inOrder_mem ho hx).1), (inOrder_mem ho hx).2⟩
    · have := baseMembers_mem bs _ hb x hx
      exact ⟨List.mem_append.2 (.inr this.1), this.2⟩
  | .tmpl _ _ bs, _, .tmpl hb => by
    intro x hx
    rw [Ty.allFields]
    exact baseMembers_mem bs _ hb x hx
  | _, _, .prim => by simp
  | _, _, .enum => by simp
  | _, _, .vec => by simp
  | _, _, .dict => by simp

theorem baseMembers_mem {e : Env} {o : Opts} : ∀ (bs : Tys) (ms : List (FldInfo × Ty)), BaseMembers e o bs ms →
    ∀ x ∈ ms, x ∈ bs.allFields ∧ e.skips x.1.flags = false
  | .nil, _, .nil => by simp
  | .cons t r, _, .cons ht hr => by
    intro x hx
    rw [Tys.allFields]
    rcases List.mem_append.1 hx with hx | hx
    · have := members_mem t _ ht x hx
      exact ⟨List.mem_append.2 (.inl this.1), this.2⟩
    · have := baseMembers_mem r _ hr x hx
      exact ⟨List.mem_append.2 (.inr this.1), this.2⟩
end

theorem newLine_blank (o : Opts) (indent : Nat) : Blank o (newLine o indent) := by
  unfold newLine
  split
  · rename_i h
    refine ⟨fun b hb => ?_, fun h' => by rw [h] at h'; cases h'⟩
    rcases List.mem_cons.1 hb with rfl | hb
    · exact .inr rfl
    · exact .inl (List.eq_of_mem_replicate hb)
  · exact ⟨by simp, fun _ => rfl⟩

/-- The texts of members, at the beginning of the object or after some. -/
def Trails (o : Opts) (written : Bool) (ts : List Bytes) (t : Bytes) : Prop :=
  if written then (ts = [] ∧ t = []) ∨ ∃ w r, Blank o w ∧ ts ≠ [] ∧ Listed o ts r ∧ t = 44 :: (w ++ r) else Listed o ts t

theorem follows_cons {o : Opts} {written : Bool} {v t w : Bytes} {ts : List Bytes} (h : Trails o true ts t) (hw : Blank o w) :
    Trails o written (v :: ts) ((if written then 44 :: w else []) ++ v ++ t) := by
  have hl : Listed o (v :: ts) (v ++ t) := by
    rcases h with ⟨rfl, rfl⟩ | ⟨x, r, hx, hne, hr, rfl⟩
    · rw [List.append_nil]; exact .one v
    · cases ts with
      | nil => exact absurd rfl hne
      | cons u us => exact .more hx hr
  cases written with
  | true => exact .inr ⟨w, v ++ t, hw, by simp, hl, by simp⟩
  | false => simpa [Trails] using hl

theorem members_show {e : Env} {p : Platform} {o : Opts} {m : Mem} {indent a : Nat} (ms : List (FldInfo × Ty))
    (hl : ∀ x ∈ ms, x.1.isPtr = true → x.1.count ≠ none → AllMapped o)
    (hx : ∀ x ∈ ms, x.1.isPtr = false → ∀ i b v, saveObj e o m x.2 i b = .ok v → Shows e p o m x.2 b v) (written : Bool) {t : Bytes}
    (h : saveMembers o m indent a (ms.map (saverOf e o m)) written = .ok t) :
    ∃ ts, MembersShow e p o m a ms ts ∧ Trails o written ts t := by
  induction ms generalizing written t with
  | nil =>
    simp only [List.map_nil, saveMembers] at h
    injection h with h
    subst h
    refine ⟨[], .nil a, ?_⟩
    cases written with
    | true => exact .inl ⟨rfl, rfl⟩
    | false => exact Listed.nil
  | cons x r ih =>
    obtain ⟨f, ty⟩ := x
    rw [List.map_cons, saveMembers] at h
    have ih := fun w t => @ih (fun y hy => hl y (by simp [hy])) (fun y hy => hx y (by simp [hy])) w t
    split at h
    · rename_i hc
      obtain ⟨ts, h1, h2⟩ := ih _ _ h
      exact ⟨ts, .leftOut hc.1 hc.2 h1, h2⟩
    · rename_i hc
      obtain ⟨v, hv, h⟩ := Res.bind_eq_ok.1 h
      obtain ⟨u, hu, h⟩ := Res.bind_eq_ok.1 h
      obtain ⟨ts, h1, h2⟩ := ih _ _ hu
      injection h with h
      have hm : ∀ ts', MembersShow e p o m a ((f, ty) :: r) (member f.name v :: ts') → ts' = ts →
          ∃ ts, MembersShow e p o m a ((f, ty) :: r) ts ∧ Trails o written ts t := by
        rintro _ hm rfl
        refine ⟨_, hm, ?_⟩
        have := follows_cons (written := written) (v := member f.name v) h2 (newLine_blank o indent)
        rw [← h]
        have he : quote f.name ++ 58 :: v = member f.name v := by simp [member, quote_eq]
        simpa [saverOf, ← he] using this
      refine hm ts ?_ rfl
      change saveField o m (saverOf e o m (f, ty)) indent (a + f.offset) = .ok v at hv
      have hv : (match f.count with
        | some n => if strideOf ty f.isPtr = 0 ∧ n ≠ 0 then Res.trap
          else saveContainer o m ty.hash f.isPtr none (fun b => saveObj e o m ty indent b) (arrayItems (a + f.offset) n (strideOf ty f.isPtr))
        | none => if f.isPtr then
            match o.mapPtr ty.hash (m.ptr (a + f.offset)) with
            | some h => savePtr o h
            | none => Res.ok []
          else saveObj e o m ty indent (a + f.offset)) = .ok v := hv
      cases hcnt : f.count with
      | some n =>
        rw [hcnt] at hv
        simp only at hv
        split at hv
        · cases hv
        · obtain ⟨vs, k1, k2⟩ := list_shows (e := e) (p := p) (t := ty) (fun hp => hl (f, ty) (by simp) hp (by simp [hcnt]))
            (arrayItems (a + f.offset) n (strideOf ty f.isPtr))
            (fun hp kv _ x hxx => hx (f, ty) (by simp) hp _ _ _ hxx) hv
          rw [k2]
          refine .array hcnt (fun hp hn => hc ⟨hp, hn⟩) ?_ h1
          rw [arrayItems, List.map_map] at k1
          exact k1
      | none =>
        rw [hcnt] at hv
        simp only at hv
        cases hp : f.isPtr with
        | true =>
          rw [hp, if_pos rfl] at hv
          cases hmp : o.mapPtr ty.hash (m.ptr (a + f.offset)) with
          | none => exact absurd ⟨hp, hmp⟩ hc
          | some hh =>
            rw [hmp] at hv
            simp only at hv
            rw [savePtr_text hv]
            exact .pointer hcnt hp hmp h1
        | false =>
          rw [hp] at hv
          simp only [Bool.false_eq_true, if_false] at hv
          exact .value hcnt hp (hx (f, ty) (by simp) hp _ _ _ hv) h1

/-! ### Objects -/

theorem obj_shows {e : Env} {p : Platform} (hpl : 1 ≤ p.longBytes ∧ 1 ≤ p.wcharBytes) (hd : ∀ x ∈ registrations p, dispatch e.lut (Hash.hashText x.1) = some x.2) {o : Opts} {m : Mem} {t : Ty}
    (ht : Showable e p o t) : ∀ (indent a : Nat) (text : Bytes), saveObj e o m t indent a = .ok text → Shows e p o m t a text := by
  induction ht with
  | @prim h s name k hn hh =>
    intro indent a text hs
    rw [saveObj] at hs
    unfold saveType at hs
    rw [hh, hd _ hn] at hs
    exact .num hn hh (saveNum_text (registrations_size p hpl _ hn) (read_length m a _) hs)
  | enum h s cs fl =>
    intro indent a text hs
    rw [saveObj] at hs
    injection hs with hs
    rw [← hs]
    exact .enum (saveEnum_text _ _ _)
  | @cls h s fl fs bs hf hs hl hx ih =>
    intro indent a text ht
    rw [saveObj, if_neg (by simp [hf])] at ht
    obtain ⟨u, hu, ht⟩ := Res.bind_eq_ok.1 ht
    obtain ⟨ms, h1, h2⟩ := class_members e o m (.cls h s fl fs bs) hs
    rw [classSavers, if_neg (by simp [hf])] at h2
    rw [h2] at hu
    have hmem := members_mem _ _ h1
    obtain ⟨ts, h3, h4⟩ := members_show ms (fun x hx => hl x (hmem x hx).1) (fun x hx hp i b v =>
      ih x (hmem x hx).1 (hmem x hx).2 hp i b v) false hu
    injection ht with ht
    rw [← ht]
    have := Shows.cls hf h1 h3 h4 (newLine_blank o indent) (newLine_blank o (indent + 1)) (newLine_blank o indent) (newLine_blank o indent)
    simpa [openScope, closeScope] using this
  | tmpl h s bs =>
    intro indent a text hs
    rw [saveObj] at hs
    injection hs with hs
    rw [← hs]
    exact .tmpl
  | vec hl ht ih =>
    intro indent a text hs
    rw [saveObj] at hs
    obtain ⟨ts, h1, h2⟩ := list_shows hl _ (fun hp kv _ x hx => ih hp _ _ _ hx) hs
    rw [h2]
    exact .vec h1
  | dict hl hk ht ihk ih =>
    intro indent a text hs
    rw [saveObj] at hs
    unfold saveContainer at hs
    split at hs
    · rename_i h0
      injection hs with hs
      rw [← hs]
      exact .empty h0
    · rename_i h0
      obtain ⟨u, hu, hs⟩ := Res.bind_eq_ok.1 hs
      obtain ⟨ks, ts, h1, h2, h3⟩ := pairs_show hl _ (fun kv _ x hx => ihk _ _ _ hx) (fun hp kv _ x hx => ih hp _ _ _ hx) false hu
      injection hs with hs
      rw [← hs, h3]
      exact .dict h0 h1 h2

end Clr.JSON
