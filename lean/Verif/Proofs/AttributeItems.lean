import Verif.Proofs.AttributeParser
import Verif.Proofs.Merge

/-!
The attribute parser reads well-formed attribute lists.
-/
namespace Clr.Attr
open Clr.DB (Name getName hashOf internAll)

theorem letter_iff (c : UInt8) : Letter c ↔ isAlpha c = true := by
  simp [Letter, isAlpha, UInt8.le_iff_toNat_le]

theorem digit_iff (c : UInt8) : Digit c ↔ isDigit c = true := by
  simp [Digit, isDigit, UInt8.le_iff_toNat_le]

theorem hexDigit_iff (c : UInt8) : HexDigit c ↔ isXDigit c = true := by
  simp [HexDigit, digit_iff, isXDigit, UInt8.le_iff_toNat_le, or_assoc]

/-- The token for a value. -/
def Val.token : Val → Token
  | .dec ds => ⟨.int, ds⟩
  | .hex ds => ⟨.hex, 48 :: 120 :: ds⟩
  | .real a b => ⟨.float, a ++ 46 :: b⟩
  | .symbol s => ⟨.symbol, s⟩
  | .string t => ⟨.string, t⟩

/-- The tokens for an attribute. -/
def Item.tokens (i : Item) : List Token :=
  match i.value with
  | none => [⟨.symbol, i.name⟩]
  | some v => [⟨.symbol, i.name⟩, ⟨.equals, [61]⟩, v.token]

/-- The tokens for a list. -/
def tokensOf : List Item → List Token
  | [] => []
  | [i] => i.tokens
  | i :: j :: r => i.tokens ++ ⟨.comma, [44]⟩ :: tokensOf (j :: r)

theorem spelled_symbol {s : Bytes} (h : Symbol s) : Spelled s ⟨.symbol, s⟩ := by
  obtain ⟨_, c, r, rfl, hc, hr⟩ := h
  refine .symbol c r ?_ ?_
  · rwa [← letter_iff]
  · intro d hd
    rcases hr d hd with h | h | rfl | rfl
    · simp [symChar, (letter_iff d).1 h]
    · simp [symChar, (digit_iff d).1 h]
    · decide
    · decide

theorem spelled_val {v : Val} (h : v.Ok) : Spelled v.spelling v.token := by
  cases v with
  | dec ds =>
    obtain ⟨h1, h2, _⟩ := h
    cases ds with
    | nil => exact absurd rfl h1
    | cons c r => exact .int c r ((digit_iff c).1 (h2 c (by simp))) fun d hd => (digit_iff d).1 (h2 d (by simp [hd]))
  | hex ds => exact .hex 120 ds (.inl rfl) fun d hd => (hexDigit_iff d).1 (h.1 d hd)
  | real a b =>
    obtain ⟨h1, h2, h3, _⟩ := h
    cases a with
    | nil => exact absurd rfl h1
    | cons c r =>
      exact .float c r b ((digit_iff c).1 (h2 c (by simp))) (fun d hd => (digit_iff d).1 (h2 d (by simp [hd])))
        fun d hd => (digit_facts d ((digit_iff d).1 (h3 d hd))).1
  | symbol s => exact spelled_symbol h
  | string t => exact .string t h.2

theorem SpelledAll.append {a c : List Bytes} {b d : List Token} (h : SpelledAll a b) (h' : SpelledAll c d) : SpelledAll (a ++ c) (b ++ d) := by
  induction h with
  | nil => exact h'
  | cons h hs ih => exact .cons h ih

theorem spelled_item {i : Item} (h : i.Ok) : SpelledAll i.spelling i.tokens := by
  unfold Item.spelling Item.tokens
  cases hv : i.value with
  | none => exact .cons (spelled_symbol h.1) .nil
  | some v => exact .cons (spelled_symbol h.1) (.cons .equals (.cons (spelled_val (h.2 v hv)) .nil))

theorem spelled_items {is : List Item} (h : ∀ i ∈ is, i.Ok) : SpelledAll (spelling is) (tokensOf is) := by
  induction is with
  | nil => exact .nil
  | cons i r ih =>
    cases r with
    | nil => exact spelled_item (h i (by simp))
    | cons j r => exact (spelled_item (h i (by simp))).append (.cons .comma (ih fun x hx => h x (by simp [hx])))

/-- A list that starts with a word alternates after a sign, too. -/
theorem alternating_sign {t : Token} (ht : isWord t = false) {r : List Token} (h : Alternating r) : Alternating (t :: r) := by
  cases r with
  | nil => trivial
  | cons u r => exact ⟨fun hw => by simp [ht] at hw, h⟩

theorem alternating_word {t u : Token} (hu : u.type = .equals ∨ u.type = .comma) {r : List Token} (h : Alternating (u :: r)) :
    Alternating (t :: u :: r) := ⟨fun _ => hu, h⟩

theorem alternating_items_rest (is : List Item) (tail : List Token)
    (htl : tail = [] ∨ (∃ t r, tail = t :: r ∧ t.type = .comma ∧ Alternating tail)) : Alternating (tokensOf is ++ tail) := by
  have hone : ∀ (i : Item) (tl : List Token), (tl = [] ∨ (∃ t r, tl = t :: r ∧ t.type = .comma ∧ Alternating tl)) →
      Alternating (i.tokens ++ tl) := by
    intro i tl htl
    have hw : ∀ w : Token, Alternating (w :: tl) := by
      intro w
      rcases htl with rfl | ⟨t, r, rfl, ht, ha⟩
      · trivial
      · exact alternating_word (.inr ht) ha
    unfold Item.tokens
    cases hv : i.value with
    | none => exact hw _
    | some v => exact alternating_word (.inl rfl) (alternating_sign rfl (hw _))
  induction is with
  | nil =>
    rcases htl with rfl | ⟨t, r, rfl, ht, ha⟩
    · trivial
    · exact ha
  | cons i r ih =>
    cases r with
    | nil => exact hone i tail htl
    | cons j r =>
      show Alternating (i.tokens ++ ⟨.comma, [44]⟩ :: tokensOf (j :: r) ++ tail)
      rw [List.append_assoc]
      exact hone i _ (.inr ⟨_, _, rfl, rfl, alternating_sign rfl ih⟩)

theorem alternating_items (is : List Item) : Alternating (tokensOf is) := by
  have := alternating_items_rest is [] (.inl rfl)
  rwa [List.append_nil] at this

/-! ### Numbers -/

theorem atoiDigits_num {ds : Bytes} (h : ∀ d ∈ ds, Digit d) (n : Nat) :
    FileUtils.atoiDigits ds n = ds.foldl (fun n c => 10 * n + (c.toNat - 48)) n := by
  induction ds generalizing n with
  | nil => rfl
  | cons c r ih =>
    have hc : 48 ≤ c.toNat ∧ c.toNat ≤ 57 := h c (by simp)
    rw [FileUtils.atoiDigits, if_pos hc, ih (fun d hd => h d (by simp [hd]))]
    rw [List.foldl_cons, Nat.mul_comm]

theorem atoi_num {ds : Bytes} (h0 : ds ≠ []) (h : ∀ d ∈ ds, Digit d) (hl : decNum ds < 2 ^ 31) : atoi ds = .ok (Int32.ofNat (decNum ds)) := by
  unfold atoi
  have hd : FileUtils.atoiDigits ds 0 = decNum ds := atoiDigits_num h 0
  rw [hd, if_pos hl]
  cases ds with
  | nil => exact absurd rfl h0
  | cons c r =>
    rw [FileUtils.atoi_of_digit c r (h c (by simp)).1 (h c (by simp)).2, hd]
    rfl

theorem hexVal_num (c : UInt8) : HexDigit c → FileUtils.hexVal c = (hexDigitNum c : Int) := by
  rw [hexDigit_iff]
  revert c
  exact all_bytes (P := fun c => isXDigit c = true → FileUtils.hexVal c = (hexDigitNum c : Int)) (by decide +kernel)

theorem hexAcc_num {ds : Bytes} (h : ∀ d ∈ ds, HexDigit d) (m n : Nat) (hm : m = n % 2 ^ 32) :
    ds.foldl (fun (val : Nat) c => (((val * 16 : Int) + FileUtils.hexVal c) % (2 ^ 32 : Int)).toNat) m =
      ds.foldl (fun n c => 16 * n + hexDigitNum c) n % 2 ^ 32 := by
  induction ds generalizing m n with
  | nil => exact hm
  | cons c r ih =>
    rw [List.foldl_cons, List.foldl_cons]
    refine ih (fun d hd => h d (by simp [hd])) _ _ ?_
    rw [hexVal_num c (h c (by simp)), hm]
    omega

theorem hexValue_num {ds : Bytes} (h : ∀ d ∈ ds, HexDigit d) : hexValue (48 :: 120 :: ds) = Int32.ofNat (hexNum ds) := by
  unfold hexValue
  rw [if_pos ⟨rfl, .inl rfl⟩]
  show (FileUtils.hextoi ds).toInt32 = _
  have : FileUtils.hexAcc 32 ds = hexNum ds % 2 ^ 32 := hexAcc_num h 0 0 rfl
  unfold FileUtils.hextoi
  rw [this]
  apply Int32.toBitVec_inj.1
  rw [UInt32.toBitVec_toInt32]
  apply BitVec.eq_of_toNat_eq
  rw [Int32.toBitVec_ofNat']
  simp

/-! ### Parsing -/

theorem getName_nameOf {names names' : List Name} {t : Bytes} {n : Name} (h : getName names (some t) = .ok (n, names')) : n = nameOf t := by
  unfold nameOf
  rcases Merge.getName_ok h with ⟨h1, _, h2⟩ | ⟨x, hx, h0, ht, hc⟩
  · rw [if_pos (h2 t rfl), h1]
  · injection hx with hx; subst hx
    rw [if_neg h0]
    rcases hc with ⟨hf, _⟩ | ⟨hn, _⟩
    · have := (Merge.findBy_some hf).2
      cases n; simp at ht this; rw [ht, this]
    · exact hn

/-- A text that needs no cutting. -/
theorem text_short {ty : TokenType} {s : Bytes} (h : s.length ≤ 1023) : (⟨ty, s⟩ : Token).text = s := List.take_of_length_le h

theorem ofRes_bind {α β : Type} (x : Res α) (f : α → Out β) : (ofRes x >>= f) = match x with | .ok a => f a | _ => .stop .assert := by
  cases x <;> rfl

/-- Names interned one after the other. -/
theorem internAll_cons (names : List Name) (t : Bytes) (ts : List (Option Bytes)) :
    internAll names (some t :: ts) =
      (getName names (some t) >>= fun r => internAll r.2 ts >>= fun q => .ok (r.1 :: q.1, q.2)) := rfl

theorem internAll_append (names : List Name) (a b : List (Option Bytes)) :
    internAll names (a ++ b) = (internAll names a >>= fun r => internAll r.2 b >>= fun q => .ok (r.1 ++ q.1, q.2)) := by
  induction a generalizing names with
  | nil =>
    show internAll names b = (internAll names b >>= fun q => .ok ([] ++ q.1, q.2))
    cases internAll names b <;> rfl
  | cons t a ih =>
    rw [List.cons_append]
    show (getName names t >>= fun r => internAll r.2 (a ++ b) >>= fun q => .ok (r.1 :: q.1, q.2)) =
      ((getName names t >>= fun r => internAll r.2 a >>= fun q => .ok (r.1 :: q.1, q.2)) >>= _)
    cases getName names t with
    | trap => rfl
    | ub => rfl
    | ok r =>
      simp only [Res.bind_ok]
      rw [ih]
      cases internAll r.2 a with
      | trap => rfl
      | ub => rfl
      | ok q =>
        simp only [Res.bind_ok]
        cases internAll q.2 b <;> rfl

/-- The outcome when the names are known, if they are. -/
def known {β : Type} (x : Res (List Name × List Name)) (f : List Name → β) : Out β :=
  match x with
  | .ok r => .ok (f r.2)
  | _ => .stop .assert

/-- The outcome when these names are interned, if they can be, and the result is known. -/
def interned {β : Type} (names : List Name) (ts : List Bytes) (f : List Name → β) : Out β :=
  known (internAll names (ts.map some)) f

theorem getName_cases (names : List Name) (t : Bytes) :
    (∃ nm, getName names (some t) = .ok (nameOf t, nm)) ∨ getName names (some t) = .trap ∨ getName names (some t) = .ub := by
  cases h : getName names (some t) with
  | ok r => exact .inl ⟨r.2, by rw [← getName_nameOf (n := r.1) (names' := r.2) h]⟩
  | trap => exact .inr (.inl rfl)
  | ub => exact .inr (.inr rfl)

theorem intern_then {β : Type} (names : List Name) (t : Bytes) (f : Name → List Name → β) :
    (intern names t >>= fun n => .ok (f n.1 n.2)) = interned names [t] (f (nameOf t)) := by
  unfold intern interned
  rw [List.map_cons, internAll_cons]
  have hc := getName_cases names t
  generalize nameOf t = z at hc ⊢
  generalize getName names (some t) = g at hc ⊢
  rcases hc with ⟨nm, rfl⟩ | rfl | rfl <;> rfl

theorem two_aux {β : Type} (g : Res (Name × List Name)) (z y : Name) (hc : (∃ nm, g = .ok (z, nm)) ∨ g = .trap ∨ g = .ub)
    (I : List Name → Out (Name × List Name)) (A : List Name → Res (List Name × List Name)) (f : Name → Name → List Name → β)
    (h : ∀ nm, (I nm >>= fun v => .ok (f z v.1 v.2)) = known (A nm) (f z y)) :
    (ofRes g >>= fun n => I n.2 >>= fun v => .ok (f n.1 v.1 v.2)) =
      known (g >>= fun r => A r.2 >>= fun q => .ok (r.1 :: q.1, q.2)) (f z y) := by
  rcases hc with ⟨nm, rfl⟩ | rfl | rfl
  · show (I nm >>= fun v => .ok (f z v.1 v.2)) = _
    rw [h nm]
    simp only [Res.bind_ok]
    generalize A nm = q
    cases q <;> rfl
  · rfl
  · rfl

theorem intern_two {β : Type} (names : List Name) (t u : Bytes) (f : Name → Name → List Name → β) :
    (intern names t >>= fun n => intern n.2 u >>= fun v => .ok (f n.1 v.1 v.2)) = interned names [t, u] (f (nameOf t) (nameOf u)) :=
  two_aux (getName names (some t)) (nameOf t) (nameOf u) (getName_cases names t) (fun nm => intern nm u)
    (fun nm => internAll nm [some u]) f fun nm => intern_then nm u (f (nameOf t))

theorem interned_map {β γ : Type} (names : List Name) (ts : List Bytes) (f : List Name → β) (g : β → γ) :
    (interned names ts f >>= fun b => .ok (g b)) = interned names ts fun nm => g (f nm) := by
  unfold interned
  generalize internAll names (ts.map some) = q
  cases q <;> rfl

/-- An assignment. -/
theorem assign_val (scan : Bytes → UInt32) (names : List Name) {i : Item} (hn : Symbol i.name) {v : Val} (hi : i.value = some v) (hv : v.Ok) :
    assign scan names ⟨.symbol, i.name⟩ v.token = interned names i.names fun nm => (some (i.meaning scan), nm) := by
  have hname : (⟨.symbol, i.name⟩ : Token).text = i.name := text_short hn.1
  unfold Item.meaning Item.names
  rw [hi]
  cases v with
  | dec ds =>
    obtain ⟨h0, hd, hl, hn⟩ := hv
    show (atoi (Token.text ⟨.int, ds⟩) >>= _) = _
    rw [text_short hl, atoi_num h0 hd hn, ok_bind, hname]
    exact intern_then names i.name fun n nm => (some (⟨n, .int (Int32.ofNat (decNum ds))⟩ : Attribute), nm)
  | hex ds =>
    show (intern names (Token.text ⟨.symbol, i.name⟩) >>= _) = _
    rw [hname]
    have : (Val.token (.hex ds)).text = 48 :: 120 :: ds := text_short (by have := hv.2; simp; omega)
    rw [this, hexValue_num hv.1]
    exact intern_then names i.name fun n nm => (some (⟨n, .int (Int32.ofNat (hexNum ds))⟩ : Attribute), nm)
  | real a b =>
    show (intern names (Token.text ⟨.symbol, i.name⟩) >>= _) = _
    rw [hname]
    have : (Val.token (.real a b)).text = a ++ 46 :: b := text_short (by have := hv.2.2.2; simp; omega)
    rw [this]
    exact intern_then names i.name fun n nm => (some (⟨n, .float (scan (a ++ 46 :: b))⟩ : Attribute), nm)
  | symbol s =>
    show (intern names (Token.text ⟨.symbol, i.name⟩) >>= _) = _
    rw [hname]
    have : (Val.token (.symbol s)).text = s := text_short hv.1
    rw [this]
    exact intern_two names i.name s fun n v nm => (some (⟨n, .prim v⟩ : Attribute), nm)
  | string t =>
    show (intern names (Token.text ⟨.symbol, i.name⟩) >>= _) = _
    rw [hname]
    have : (Val.token (.string t)).text = t := text_short hv.1
    rw [this]
    exact intern_then names i.name fun n nm => (some (⟨n, .text t⟩ : Attribute), nm)

theorem at_zero (pre : List Token) (t : Token) (r : List Token) : (pre ++ t :: r)[pre.length]? = some t := by simp

theorem at_one (pre : List Token) (t : Token) (r : List Token) : (pre ++ t :: r)[pre.length + 1]? = r[0]? := by
  rw [List.getElem?_append_right (by omega)]
  have : pre.length + 1 - pre.length = 1 := by omega
  rw [this]; rfl

theorem at_two (pre : List Token) (t : Token) (r : List Token) : (pre ++ t :: r)[pre.length + 1 + 1]? = r[1]? := by
  rw [List.getElem?_append_right (by omega)]
  have : pre.length + 1 + 1 - pre.length = 2 := by omega
  rw [this]; rfl

/-- One attribute. -/
theorem attributeDef_item (scan : Bytes → UInt32) (names : List Name) (pre rest : List Token) {i : Item} (hi : i.Ok)
    (hr : ∀ t, rest[0]? = some t → t.type ≠ .equals) :
    attributeDef scan names (pre ++ i.tokens ++ rest) pre.length =
      interned names i.names fun nm => (some (i.meaning scan), nm, (pre ++ i.tokens).length) := by
  have hname : (⟨.symbol, i.name⟩ : Token).text = i.name := text_short hi.1.1
  rw [List.append_assoc]
  cases hv : i.value with
  | none =>
    have ht : i.tokens = [⟨.symbol, i.name⟩] := by unfold Item.tokens; rw [hv]
    rw [ht]
    have hex : expectNext (pre ++ ([⟨.symbol, i.name⟩] ++ rest)) pre.length .symbol = .ok (some ⟨.symbol, i.name⟩) := by
      unfold expectNext
      rw [List.cons_append, at_zero]; rfl
    have hck : checkNext (pre ++ ([⟨.symbol, i.name⟩] ++ rest)) (pre.length + 1) .equals = false := by
      unfold checkNext
      rw [List.cons_append, at_one, List.nil_append]
      cases hz : rest[0]? with
      | none => rfl
      | some t => simp [hr t hz]
    rw [attributeDef, hex, ok_bind]
    show attributeRest _ _ _ _ _ = _
    rw [attributeRest, if_neg (by rw [hck]; simp), hname]
    have hm : i.meaning scan = ⟨nameOf i.name, .flag⟩ := by unfold Item.meaning; rw [hv]
    have hnm : i.names = [i.name] := by unfold Item.names; rw [hv]
    rw [hm, hnm, List.length_append]
    exact intern_then names i.name fun n nm => (some (⟨n, .flag⟩ : Attribute), nm, pre.length + 1)
  | some v =>
    have ht : i.tokens = [⟨.symbol, i.name⟩, ⟨.equals, [61]⟩, v.token] := by unfold Item.tokens; rw [hv]
    rw [ht]
    have hex : expectNext (pre ++ ([⟨.symbol, i.name⟩, ⟨.equals, [61]⟩, v.token] ++ rest)) pre.length .symbol =
        .ok (some ⟨.symbol, i.name⟩) := by
      unfold expectNext
      rw [List.cons_append, at_zero]; rfl
    have hck : checkNext (pre ++ ([⟨.symbol, i.name⟩, ⟨.equals, [61]⟩, v.token] ++ rest)) (pre.length + 1) .equals = true := by
      unfold checkNext
      rw [List.cons_append, at_one]; rfl
    rw [attributeDef, hex, ok_bind]
    show attributeRest _ _ _ _ _ = _
    rw [attributeRest, if_pos hck, List.cons_append, at_two]
    show (assign scan names ⟨.symbol, i.name⟩ v.token >>= _) = _
    rw [assign_val scan names hi.1 hv (hi.2 v hv), List.length_append]
    exact interned_map names i.names _ fun (r : Option Attribute × List Name) => (r.1, r.2, pre.length + 3)

/-- All the names a list needs. -/
def allNames (is : List Item) : List Bytes := is.flatMap Item.names

/-- All of a list. -/
theorem parseLoop_items (scan : Bytes → UInt32) (names : List Name) (pre : List Token) (i : Item) (is : List Item)
    (h : ∀ x ∈ i :: is, x.Ok) (acc : List Attribute) (n : Nat) (hn : is.length < n) :
    parseLoop scan (pre ++ tokensOf (i :: is)) n names acc pre.length =
      interned names (allNames (i :: is)) fun nm => (acc ++ (i :: is).map (Item.meaning scan), nm) := by
  induction is generalizing i names pre acc n with
  | nil =>
    obtain ⟨n, rfl⟩ : ∃ k, n = k + 1 := ⟨n - 1, by simp at hn; omega⟩
    have hd := attributeDef_item scan names pre [] (h i (by simp)) (by simp)
    rw [List.append_nil] at hd
    rw [parseLoop]
    show (attributeDef scan names (pre ++ i.tokens) pre.length >>= _) = _
    rw [hd]
    have hall : allNames [i] = i.names := by simp [allNames]
    rw [hall]
    unfold interned
    generalize internAll names (i.names.map some) = q
    cases q with
    | trap => rfl
    | ub => rfl
    | ok r =>
      simp only [known, ok_bind]
      have hc : checkNext (pre ++ tokensOf [i]) (pre ++ i.tokens).length .comma = false := by
        unfold checkNext
        show (match (pre ++ i.tokens)[(pre ++ i.tokens).length]? with | none => false | some t => decide (t.type = .comma)) = false
        rw [List.getElem?_eq_none (Nat.le_refl _)]
      rw [if_neg (by rw [hc]; simp)]
      rfl
  | cons j r ih =>
    obtain ⟨n, rfl⟩ : ∃ k, n = k + 1 := ⟨n - 1, by simp at hn; omega⟩
    have hd := attributeDef_item scan names pre (⟨.comma, [44]⟩ :: tokensOf (j :: r)) (h i (by simp)) (by simp)
    have he : pre ++ tokensOf (i :: j :: r) = pre ++ i.tokens ++ ⟨.comma, [44]⟩ :: tokensOf (j :: r) := by
      rw [List.append_assoc]; rfl
    have he' : pre ++ i.tokens ++ ⟨.comma, [44]⟩ :: tokensOf (j :: r) = (pre ++ i.tokens ++ [⟨.comma, [44]⟩]) ++ tokensOf (j :: r) := by
      simp
    rw [parseLoop, he, hd]
    have hall : allNames (i :: j :: r) = i.names ++ allNames (j :: r) := by simp [allNames]
    rw [hall]
    unfold interned
    rw [List.map_append, internAll_append]
    generalize internAll names (i.names.map some) = q
    cases q with
    | trap => rfl
    | ub => rfl
    | ok q =>
      simp only [known, ok_bind, Res.bind_ok]
      have hc : checkNext (pre ++ i.tokens ++ ⟨.comma, [44]⟩ :: tokensOf (j :: r)) (pre ++ i.tokens).length .comma = true := by
        unfold checkNext
        rw [at_zero]; rfl
      rw [if_pos hc, he']
      have hlen : (pre ++ i.tokens).length + 1 = (pre ++ i.tokens ++ [(⟨.comma, [44]⟩ : Token)]).length := by simp; omega
      rw [hlen, ih q.2 _ j (fun x hx => h x (by simp [List.mem_cons.1 hx])) _ n (by simp at hn ⊢; omega)]
      unfold interned
      generalize internAll q.2 ((allNames (j :: r)).map some) = w
      cases w with
      | trap => rfl
      | ub => rfl
      | ok w => simp [known]

theorem length_tokensOf (is : List Item) : is.length ≤ (tokensOf is).length := by
  have h1 : ∀ i : Item, 1 ≤ i.tokens.length := by
    intro i
    unfold Item.tokens
    cases i.value <;> simp
  induction is with
  | nil => simp
  | cons i r ih =>
    cases r with
    | nil => exact h1 i
    | cons j r =>
      have := h1 i
      show _ ≤ (i.tokens ++ ⟨.comma, [44]⟩ :: tokensOf (j :: r)).length
      simp at ih ⊢
      omega

/-- A well-formed attribute list is parsed. -/
theorem parse_items (scan : Bytes → UInt32) (names : List Name) (is : List Item) (h : ∀ x ∈ is, x.Ok) (text : Bytes)
    (ht : Spaced (spelling is) text) :
    parseAttributes scan names text = interned names (allNames is) fun nm => (is.map (Item.meaning scan), nm) := by
  rw [parseAttributes, lexer_spaced ht (spelled_items h) (alternating_items is), ok_bind]
  cases is with
  | nil => rfl
  | cons i r =>
    have hlen := length_tokensOf (i :: r)
    have hne : (tokensOf (i :: r)).isEmpty = false := by
      cases ht : tokensOf (i :: r) with
      | nil => rw [ht] at hlen; simp at hlen
      | cons => rfl
    rw [parser, if_neg (by rw [hne]; simp)]
    have := parseLoop_items scan names [] i r h [] ((tokensOf (i :: r)).length + 1) (by simp at hlen; omega)
    simpa using this

/-- A comma behind a list. -/
theorem parseLoop_comma (scan : Bytes → UInt32) (names : List Name) (pre : List Token) (i : Item) (is : List Item)
    (h : ∀ x ∈ i :: is, x.Ok) (acc : List Attribute) (n : Nat) (hn : is.length + 1 < n) {r : List Name × List Name}
    (hok : internAll names ((allNames (i :: is)).map some) = .ok r) :
    parseLoop scan (pre ++ tokensOf (i :: is) ++ [⟨.comma, [44]⟩]) n names acc pre.length = .stop .index := by
  induction is generalizing i names pre acc n r with
  | nil =>
    obtain ⟨n, rfl⟩ : ∃ k, n = k + 2 := ⟨n - 2, by simp at hn; omega⟩
    have hd := attributeDef_item scan names pre [⟨.comma, [44]⟩] (h i (by simp)) (by simp)
    have hall : allNames [i] = i.names := by simp [allNames]
    rw [hall] at hok
    rw [parseLoop]
    show (attributeDef scan names (pre ++ i.tokens ++ [⟨.comma, [44]⟩]) pre.length >>= _) = _
    rw [hd]
    unfold interned
    rw [hok]
    simp only [known, ok_bind]
    have hc : checkNext (pre ++ tokensOf [i] ++ [⟨.comma, [44]⟩]) (pre ++ i.tokens).length .comma = true := by
      unfold checkNext
      show (match (pre ++ i.tokens ++ [⟨.comma, [44]⟩])[(pre ++ i.tokens).length]? with
        | none => false | some t => decide (t.type = .comma)) = true
      rw [at_zero]; rfl
    rw [if_pos hc, parseLoop, attributeDef]
    have hex : expectNext (pre ++ tokensOf [i] ++ [⟨.comma, [44]⟩]) ((pre ++ i.tokens).length + 1) .symbol = .stop .index := by
      unfold expectNext
      show (match (pre ++ i.tokens ++ [⟨.comma, [44]⟩])[(pre ++ i.tokens).length + 1]? with
        | none => .stop .index | some t => if t.type = .symbol then .ok (some t) else .ok none) = (.stop .index : Out (Option Token))
      rw [at_one]; rfl
    rw [hex]; rfl
  | cons j q ih =>
    obtain ⟨n, rfl⟩ : ∃ k, n = k + 1 := ⟨n - 1, by simp at hn; omega⟩
    have hd := attributeDef_item scan names pre (⟨.comma, [44]⟩ :: tokensOf (j :: q) ++ [⟨.comma, [44]⟩]) (h i (by simp)) (by simp)
    have he : pre ++ tokensOf (i :: j :: q) ++ [⟨.comma, [44]⟩] =
        pre ++ i.tokens ++ (⟨.comma, [44]⟩ :: tokensOf (j :: q) ++ [⟨.comma, [44]⟩]) := by
      show pre ++ (i.tokens ++ ⟨.comma, [44]⟩ :: tokensOf (j :: q)) ++ _ = _
      simp
    have he' : pre ++ i.tokens ++ (⟨.comma, [44]⟩ :: tokensOf (j :: q) ++ [⟨.comma, [44]⟩]) =
        (pre ++ i.tokens ++ [⟨.comma, [44]⟩]) ++ tokensOf (j :: q) ++ [⟨.comma, [44]⟩] := by
      simp
    have hall : allNames (i :: j :: q) = i.names ++ allNames (j :: q) := by simp [allNames]
    rw [hall, List.map_append, internAll_append] at hok
    rw [parseLoop, he, hd]
    unfold interned
    cases hi : internAll names (i.names.map some) with
    | trap => rw [hi] at hok; cases hok
    | ub => rw [hi] at hok; cases hok
    | ok w =>
      rw [hi, Res.bind_ok] at hok
      simp only [known, ok_bind]
      have hc : checkNext (pre ++ i.tokens ++ (⟨.comma, [44]⟩ :: tokensOf (j :: q) ++ [⟨.comma, [44]⟩])) (pre ++ i.tokens).length .comma = true := by
        unfold checkNext
        rw [List.cons_append, at_zero]; rfl
      rw [if_pos hc, he']
      have hlen : (pre ++ i.tokens).length + 1 = (pre ++ i.tokens ++ [(⟨.comma, [44]⟩ : Token)]).length := by simp; omega
      rw [hlen]
      cases hw : internAll w.2 ((allNames (j :: q)).map some) with
      | trap => rw [hw] at hok; cases hok
      | ub => rw [hw] at hok; cases hok
      | ok y => exact ih w.2 _ j (fun x hx => h x (by simp [List.mem_cons.1 hx])) _ n (by simp at hn ⊢; omega) hw

end Clr.Attr
