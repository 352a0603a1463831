import Verif.Proofs.MapFileTemplate
import Verif.Props.MapFile

/-!
C63: the name in a signature; with it, C62 and C64 for signatures as they are in a map file of GCC.
-/
namespace Clr.Map

open Clr.DB Clr.FileUtils

/-! ### C63 -/

/-- What is between the last blank and the bracket is the name, whatever the parameters are. -/
theorem C63_plain_name_partial (rand : Nat → Nat) (ret name rest : Bytes) (h1 : (40 : UInt8) ∉ ret ++ name) (h2 : (60 : UInt8) ∉ ret ++ name)
    (hb : (32 : UInt8) ∉ name) (hand : name.getLast? ≠ some 38) (hop : ¬ b!"operator" <:+ ret)
    (hptr : ¬ b!"*)(" <+: rest) (hanon : ¬ b!"anonymous namespace)" <+: rest) :
    parseFunctionName rand (ret ++ b!" " ++ name ++ b!"(" ++ rest) = name := by
  have hand' : (ret ++ b!" " ++ name).getLast? ≠ some 38 := by
    rw [List.getLast?_append]
    cases hn : name.getLast? with
    | none => simp
    | some c => rw [hn] at hand; simpa using hand
  have h1' : (40 : UInt8) ∉ ret ++ b!" " ++ name := by simp at h1 ⊢; exact h1
  have h2' : (60 : UInt8) ∉ ret ++ b!" " ++ name := by simp at h2 ⊢; exact h2
  obtain ⟨x, st, h, hr⟩ := parse_plain rand h1' h2' hand' hptr hanon
  rw [h]
  have e : ret ++ b!" " ++ name ++ [40] ++ x = ret ++ 32 :: name ++ [40] ++ x := by simp
  rw [e, cut_blank (by simpa using h1') hb hop]
  exact hr name (ret ++ b!" ").length ⟨ret ++ b!" ", [], by simp, rfl⟩

/-- The same if there is no return type. -/
theorem C63_plain_name_alone_partial (rand : Nat → Nat) (name rest : Bytes) (h1 : (40 : UInt8) ∉ name) (h2 : (60 : UInt8) ∉ name)
    (hb : (32 : UInt8) ∉ name) (hand : name.getLast? ≠ some 38) (hptr : ¬ b!"*)(" <+: rest) (hanon : ¬ b!"anonymous namespace)" <+: rest) :
    parseFunctionName rand (name ++ b!"(" ++ rest) = name := by
  obtain ⟨x, st, h, hr⟩ := parse_plain rand h1 h2 hand hptr hanon
  rw [h, cut_start h1 hb]
  exact hr name 0 ⟨[], [], by simp, rfl⟩

theorem repl_free {base : Bytes} {n : UInt32} {c : UInt8} (hb : ∀ c ∈ base, IsRepl c) (hc : ¬ IsRepl c) : c ∉ base ++ itoa n := by
  intro h
  rcases List.mem_append.mp h with h | h
  · exact hc (hb _ h)
  · exact hc (itoa_repl _ _ h)

theorem not_repl : ¬ IsRepl 32 ∧ ¬ IsRepl 40 := by unfold IsRepl; decide

/-- A name may have one list of template arguments, and blanks in it. -/
theorem C63_template_name_partial (rand : Nat → Nat) (ret a t b rest : Bytes) (h1 : (40 : UInt8) ∉ ret ++ a ++ b) (h2 : (60 : UInt8) ∉ ret ++ a ++ t ++ b ++ rest)
    (hb : (32 : UInt8) ∉ a ++ b) (ht : (62 : UInt8) ∉ t) (hop : ¬ b!"operator" <:+ ret)
    (hp : ∀ p ∈ [b!"&(", b!"(*)(", b!"(anonymous namespace)"], ∀ i, ¬ OccursAt p (ret ++ b!" " ++ a ++ (b!"<" ++ t ++ b!">") ++ (b ++ b!"(" ++ rest)) i) :
    parseFunctionName rand (ret ++ b!" " ++ a ++ (b!"<" ++ t ++ b!">") ++ (b ++ b!"(" ++ rest)) = a ++ (b!"<" ++ t ++ b!">") ++ b := by
  simp only [List.mem_append, not_or] at h1 h2 hb
  obtain ⟨⟨h1r, h1a⟩, h1b⟩ := h1
  obtain ⟨⟨⟨⟨h2r, h2a⟩, h2t⟩, h2b⟩, h2x⟩ := h2
  obtain ⟨base, u, hbase, hu, hu2, h⟩ := parse_template rand (a := ret ++ b!" " ++ a) (t := t) (b := b) (rest := rest) (by simp; exact ⟨h2r, h2a⟩) h2t h2b h2x ht
    (hp _ (by simp)) (hp _ (by simp)) (hp _ (by simp))
  rw [h]
  have e : ret ++ b!" " ++ a ++ (base ++ itoa 1) ++ (b ++ b!"(" ++ rest) = ret ++ 32 :: (a ++ (base ++ itoa 1) ++ b) ++ [40] ++ rest := by simp
  have hw := repl_free (n := 1) hbase.chars not_repl.1
  have hw' := repl_free (n := 1) hbase.chars not_repl.2
  rw [e, cut_blank]
  · refine restore_one (x := ret ++ b!" ") (y := b!"(" ++ rest) ?_ hu hu2
    have e2 : ret ++ b!" " ++ a ++ (b!"<" ++ t ++ b!">") ++ (b ++ b!"(" ++ rest) = ret ++ b!" " ++ a ++ (b!"<" ++ t ++ b!">") ++ b ++ (b!"(" ++ rest) := by simp
    rw [← e2]
    exact hbase
  · simp only [List.mem_append, List.mem_cons, not_or] at hw' ⊢
    exact ⟨h1r, by decide, ⟨h1a, hw'⟩, h1b⟩
  · simp only [List.mem_append, not_or] at hw ⊢
    exact ⟨⟨hb.1, hw⟩, hb.2⟩
  · exact hop

/-- The same if there is no return type. -/
theorem C63_template_name_alone_partial (rand : Nat → Nat) (a t b rest : Bytes) (h1 : (40 : UInt8) ∉ a ++ b) (h2 : (60 : UInt8) ∉ a ++ t ++ b ++ rest)
    (hb : (32 : UInt8) ∉ a ++ b) (ht : (62 : UInt8) ∉ t)
    (hp : ∀ p ∈ [b!"&(", b!"(*)(", b!"(anonymous namespace)"], ∀ i, ¬ OccursAt p (a ++ (b!"<" ++ t ++ b!">") ++ (b ++ b!"(" ++ rest)) i) :
    parseFunctionName rand (a ++ (b!"<" ++ t ++ b!">") ++ (b ++ b!"(" ++ rest)) = a ++ (b!"<" ++ t ++ b!">") ++ b := by
  simp only [List.mem_append, not_or] at h1 h2 hb
  obtain ⟨h1a, h1b⟩ := h1
  obtain ⟨⟨⟨h2a, h2t⟩, h2b⟩, h2x⟩ := h2
  obtain ⟨base, u, hbase, hu, hu2, h⟩ := parse_template rand h2a h2t h2b h2x ht (hp _ (by simp)) (hp _ (by simp)) (hp _ (by simp))
  rw [h]
  have e : a ++ (base ++ itoa 1) ++ (b ++ b!"(" ++ rest) = (a ++ (base ++ itoa 1) ++ b) ++ [40] ++ rest := by simp
  have hw := repl_free (n := 1) hbase.chars not_repl.1
  have hw' := repl_free (n := 1) hbase.chars not_repl.2
  rw [e, cut_start]
  · refine restore_one (x := []) (y := b!"(" ++ rest) ?_ hu hu2
    have e2 : a ++ (b!"<" ++ t ++ b!">") ++ (b ++ b!"(" ++ rest) = [] ++ a ++ (b!"<" ++ t ++ b!">") ++ b ++ (b!"(" ++ rest) := by simp
    rw [← e2]
    exact hbase
  · simp only [List.mem_append, not_or] at hw' ⊢
    exact ⟨⟨h1a, hw'⟩, h1b⟩
  · simp only [List.mem_append, not_or] at hw ⊢
    exact ⟨⟨hb.1, hw⟩, hb.2⟩

/-- The return type may have one. -/
theorem C63_template_return_partial (rand : Nat → Nat) (a t b name rest : Bytes) (h1 : (40 : UInt8) ∉ a ++ b ++ name) (h2 : (60 : UInt8) ∉ a ++ t ++ b ++ name ++ rest)
    (hb : (32 : UInt8) ∉ name) (ht : (62 : UInt8) ∉ t) (hop : ¬ b!"operator" <:+ b)
    (hp : ∀ p ∈ [b!"&(", b!"(*)(", b!"(anonymous namespace)"], ∀ i, ¬ OccursAt p (a ++ (b!"<" ++ t ++ b!">") ++ (b ++ b!" " ++ name ++ b!"(" ++ rest)) i) :
    parseFunctionName rand (a ++ (b!"<" ++ t ++ b!">") ++ (b ++ b!" " ++ name ++ b!"(" ++ rest)) = name := by
  simp only [List.mem_append, not_or] at h1 h2 hb
  obtain ⟨⟨h1a, h1b⟩, h1n⟩ := h1
  obtain ⟨⟨⟨⟨h2a, h2t⟩, h2b⟩, h2n⟩, h2x⟩ := h2
  obtain ⟨base, u, hbase, hu, hu2, h⟩ := parse_template rand (b := b ++ b!" " ++ name) h2a h2t (by simp; exact ⟨h2b, h2n⟩) h2x ht (hp _ (by simp)) (hp _ (by simp)) (hp _ (by simp))
  rw [h]
  have e : a ++ (base ++ itoa 1) ++ (b ++ b!" " ++ name ++ b!"(" ++ rest) = (a ++ (base ++ itoa 1) ++ b) ++ 32 :: name ++ [40] ++ rest := by simp
  have hw' := repl_free (n := 1) hbase.chars not_repl.2
  rw [e, cut_blank]
  · refine restore_absent (base := base) (by rw [hu]; simp) ?_ ?_
    · intro x hx
      simp only [List.mem_cons, List.not_mem_nil, or_false] at hx
      have hbc := hbase.chars
      rcases hx with rfl | rfl
      · exact ⟨List.prefix_append _ _, fun c hc => (List.mem_append.mp hc).elim (hbc c) (itoa_repl _ c)⟩
      · exact ⟨List.prefix_append _ _, fun c hc => (List.mem_append.mp hc).elim (hbc c) (itoa_repl _ c)⟩
    · intro i hi
      have := occurs_mid hi (x := a ++ (b!"<" ++ t ++ b!">") ++ (b ++ b!" ")) (y := b!"(" ++ rest)
      have e2 : a ++ (b!"<" ++ t ++ b!">") ++ (b ++ b!" ") ++ name ++ (b!"(" ++ rest) = a ++ (b!"<" ++ t ++ b!">") ++ (b ++ b!" " ++ name ++ b!"(" ++ rest) := by simp
      rw [e2] at this
      exact hbase.absent _ this
  · simp only [List.mem_append, List.mem_cons, not_or] at hw' ⊢
    exact ⟨⟨⟨h1a, hw'⟩, h1b⟩, by decide, h1n⟩
  · exact hb
  · -- the replacement ends with a digit
    rintro ⟨x, hx⟩
    by_cases hb8 : 8 ≤ b.length
    · refine hop ⟨b.take (b.length - 8), ?_⟩
      have h3 := congrArg (List.drop x.length) hx
      rw [List.drop_left] at h3
      have hl := congrArg List.length hx
      have hl2 : x.length + 8 = (a ++ (base ++ itoa 1)).length + b.length := by simp at hl ⊢; omega
      rw [List.drop_append, List.drop_of_length_le (by omega), List.nil_append] at h3
      have : x.length - (a ++ (base ++ itoa 1)).length = b.length - 8 := by omega
      rw [this] at h3
      rw [h3, List.take_append_drop]
    · -- the character before `b` is the digit `1`, and there is none in `operator`
      have hl := congrArg List.length hx
      have hl2 : x.length + 8 = (a ++ base).length + 1 + b.length := by
        have : (itoa 1).length = 1 := by decide +kernel
        simp at hl ⊢
        rw [this] at hl
        omega
      have h3 : (x ++ b!"operator")[(a ++ base).length]? = some 49 := by
        rw [hx]
        have e3 : a ++ (base ++ itoa 1) ++ b = (a ++ base) ++ (49 :: b) := by
          rw [show itoa 1 = [49] from by decide +kernel]; simp
        rw [e3]
        simp
      rw [List.getElem?_append_right (by omega)] at h3
      have h4 := List.mem_of_getElem? h3
      revert h4
      decide

/-- The parser ends: with more rounds than the signature is long the name is the same. -/
theorem C63_parser_ends (rand : Nat → Nat) (sig : Bytes) (fuel : Nat) (hf : sig.length < fuel) : parseWith fuel rand sig = parseFunctionName rand sig := by
  obtain ⟨k, rfl⟩ : ∃ k, fuel = sig.length + 1 + k := ⟨fuel - (sig.length + 1), by omega⟩
  have hr : findRandom sig rand (sig.length + 1 + k) 0 b!"r?An_D" = findRandom sig rand (sig.length + 1) 0 b!"r?An_D" := findRandom_ends _ _ _ (by simp; omega) _
  have hb := base_spec sig rand
  rw [parseFunctionName, parseWith, parseWith, hr]
  generalize findRandom sig rand (sig.length + 1) 0 b!"r?An_D" = base at *
  have hcount : ∀ (c : UInt8) (s : Bytes), s.count c ≤ sig.count c → s.count c < sig.length + 1 := by
    intro c s h
    have := List.count_le_length (a := c) (l := sig)
    omega
  have h0 : ∀ c, ¬ IsRepl c → (replaceOccurence base b!"(anonymous namespace)" (sig, [])).1.count c ≤ sig.count c := by
    intro c hc
    rw [replaceOccurence]
    dsimp only
    exact replaced_count (replaceAll_spec (by decide)) (repl_free hb.chars hc)
  generalize replaceOccurence base b!"(anonymous namespace)" (sig, []) = s0 at *
  have n38 : ¬ IsRepl 38 ∧ ¬ IsRepl 40 ∧ ¬ IsRepl 60 := by unfold IsRepl; decide
  rw [replacePattern_ends hb.chars n38.1 (by decide) _ none s0 (hcount _ _ (h0 _ n38.1))]
  have h1 : ∀ c, ¬ IsRepl c → (replacePattern base b!"&(" b!"))" (sig.length + 1) none s0).1.count c ≤ sig.count c :=
    fun c hc => Nat.le_trans (replacePattern_count hb.chars hc (by decide) _ _ _) (h0 c hc)
  generalize replacePattern base b!"&(" b!"))" (sig.length + 1) none s0 = s1 at *
  rw [replacePattern_ends hb.chars n38.2.1 (by decide) _ none s1 (hcount _ _ (h1 _ n38.2.1))]
  have h2 : ∀ c, ¬ IsRepl c → (replacePattern base b!"(*)(" b!")" (sig.length + 1) none s1).1.count c ≤ sig.count c :=
    fun c hc => Nat.le_trans (replacePattern_count hb.chars hc (by decide) _ _ _) (h1 c hc)
  generalize replacePattern base b!"(*)(" b!")" (sig.length + 1) none s1 = s2 at *
  rw [replacePattern_ends hb.chars n38.2.2 (by decide) _ none s2 (hcount _ _ (h2 _ n38.2.2))]

/-! ### Cases -/

/-- Functions of functions, and pointers to them. -/
example (rand : Nat → Nat) : parseFunctionName rand b!"int const* ns::A::f(std::map<int, float> const&, void (*)(int))" = b!"ns::A::f" :=
  C63_plain_name_partial rand b!"int const*" b!"ns::A::f" b!"std::map<int, float> const&, void (*)(int))" (by decide) (by decide) (by decide) (by decide)
    (by decide) (by decide) (by decide)

example (rand : Nat → Nat) : parseFunctionName rand b!"ns::f(int)" = b!"ns::f" :=
  C63_plain_name_alone_partial rand b!"ns::f" b!"int)" (by decide) (by decide) (by decide) (by decide) (by decide) (by decide)

/-- Occurrences in a text that is given are decided. -/
theorem occurs_find {p s : Bytes} (h : find s p 0 = none) : ∀ i, ¬ OccursAt p s i := find_none _ _ _ (Nat.zero_le _) h

example (rand : Nat → Nat) : parseFunctionName rand b!"void ns::f<unsigned int>::g(int)" = b!"ns::f<unsigned int>::g" :=
  C63_template_name_partial rand b!"void" b!"ns::f" b!"unsigned int" b!"::g" b!"int)" (by decide) (by decide) (by decide) (by decide) (by decide)
    (by
      intro p hp
      simp only [List.mem_cons, List.not_mem_nil, or_false] at hp
      rcases hp with rfl | rfl | rfl <;> exact occurs_find (by decide +kernel))

example (rand : Nat → Nat) : parseFunctionName rand b!"A<int>::g(int)" = b!"A<int>::g" :=
  C63_template_name_alone_partial rand b!"A" b!"int" b!"::g" b!"int)" (by decide) (by decide) (by decide) (by decide)
    (by
      intro p hp
      simp only [List.mem_cons, List.not_mem_nil, or_false] at hp
      rcases hp with rfl | rfl | rfl <;> exact occurs_find (by decide +kernel))

example (rand : Nat → Nat) : parseFunctionName rand b!"std::vector<A> const& B::g(int)" = b!"B::g" :=
  C63_template_return_partial rand b!"std::vector" b!"A" b!" const&" b!"B::g" b!"int)" (by decide) (by decide) (by decide) (by decide) (by decide)
    (by
      intro p hp
      simp only [List.mem_cons, List.not_mem_nil, or_false] at hp
      rcases hp with rfl | rfl | rfl <;> exact occurs_find (by decide +kernel))

/-! ### Where it fails -/

/-- If the same arguments are there twice, the places move, and a bracket is missed: of `X<int>::g<Y<int> >(int)` only a bracket is left. -/
theorem C63_repeated_template_false : parseFunctionName (fun _ => 0) b!"X<int>::g<Y<int> >(int)" = b!">" := by decide +kernel

/-- The scope of a conversion operator is lost. -/
theorem C63_conversion_operator_false : parseFunctionName (fun _ => 0) b!"A::operator int()" = b!"operator int" := by decide +kernel

/-- So is the name of an operator that is a bracket. -/
theorem C63_call_operator_false : parseFunctionName (fun _ => 0) b!"A::operator()(int)" = b!"A::operator" := by decide +kernel

/-! ### C62 and C64, from the signature on -/

/-- A signature of a function in a namespace gives the function its address: the name that is read need not be known. -/
theorem C62_gcc_function_line_partial (rand : Nat → Nat) (s : St) (A B : List Function) (f : Function) (cls m post : Bytes) (ps : List Par) (T : List Bytes)
    (address : UInt64) (hgen : ∀ g ∈ [b!"clcppConstructObject", b!"clcppDestructObject", b!"clcpp::GetType<", b!"clcpp::GetTypeNameHash<"], ¬ startswith (cls ++ b!"::" ++ m) g)
    (h1 : ∀ c ∈ cls ++ b!"::" ++ m, c ≠ 32 ∧ c ≠ 40 ∧ c ≠ 60) (hm : (58 : UInt8) ∉ m) (hand : (cls ++ b!"::" ++ m).getLast? ≠ some 38) (hcl : cls.length < 1024)
    (ha : address ≠ 0)
    (hptr : ¬ b!"*)(" <+: gccAll ps ++ b!")" ++ post) (hanon : ¬ b!"anonymous namespace)" <+: gccAll ps ++ b!")" ++ post)
    (hT : Clear s.db.names T) (hclsT : cls ∈ T) (hk : ∀ p ∈ ps, p.Gcc ∧ p.ty.text ++ gccOp p.op ∈ T)
    (hdb : s.db.functions = A ++ f :: B) (hf : f.name.hash = hashOf (cls ++ b!"::" ++ m)) (hid : f.uniqueId = ⟨Hash.uniqueId (ps.map Par.param)⟩)
    (hA : ∀ g ∈ A, g.name.hash = hashOf (cls ++ b!"::" ++ m) → g.uniqueId ≠ f.uniqueId)
    (hno : ∀ g ∈ s.db.functions, g.name.hash = hashOf (cls ++ b!"::" ++ m) → ∀ c, g.uniqueId ≠ ⟨Hash.uniqueId (⟨cls, .pointer, c⟩ :: ps.map Par.param)⟩) :
    ∃ names, processItem rand s (cls ++ b!"::" ++ m ++ b!"(" ++ gccAll ps ++ b!")" ++ post) address =
      .ok { s with db := { s.db with names := names, functions := A ++ { f with address := address } :: B } } := by
  refine C62_gcc_function_partial rand s A B f cls m post ps T address ?_ hgen (fun h => (h1 _ h).2.1 rfl) hm hcl ha hT hclsT hk hdb hf hid hA hno
  have := C63_plain_name_alone_partial rand (cls ++ b!"::" ++ m) (gccAll ps ++ b!")" ++ post) (fun h => (h1 _ h).2.1 rfl) (fun h => (h1 _ h).2.2 rfl)
    (fun h => (h1 _ h).1 rfl) hand hptr hanon
  have e : cls ++ b!"::" ++ m ++ b!"(" ++ gccAll ps ++ b!")" ++ post = cls ++ b!"::" ++ m ++ b!"(" ++ (gccAll ps ++ b!")" ++ post) := by simp only [List.append_assoc]
  rw [e]
  exact this

/-- The same for a method. -/
theorem C62_gcc_method_line_partial (rand : Nat → Nat) (s : St) (A B : List Function) (f : Function) (cls m post : Bytes) (ps : List Par) (T : List Bytes)
    (address : UInt64) (hgen : ∀ g ∈ [b!"clcppConstructObject", b!"clcppDestructObject", b!"clcpp::GetType<", b!"clcpp::GetTypeNameHash<"], ¬ startswith (cls ++ b!"::" ++ m) g)
    (h1 : ∀ c ∈ cls ++ b!"::" ++ m, c ≠ 32 ∧ c ≠ 40 ∧ c ≠ 60) (hm : (58 : UInt8) ∉ m) (hand : (cls ++ b!"::" ++ m).getLast? ≠ some 38) (hcl : cls.length < 1024)
    (ha : address ≠ 0)
    (hptr : ¬ b!"*)(" <+: gccAll ps ++ b!")" ++ post) (hanon : ¬ b!"anonymous namespace)" <+: gccAll ps ++ b!")" ++ post)
    (hT : Clear s.db.names T) (hclsT : cls ∈ T) (hk : ∀ p ∈ ps, p.Gcc ∧ p.ty.text ++ gccOp p.op ∈ T)
    (hdb : s.db.functions = A ++ f :: B) (hf : f.name.hash = hashOf (cls ++ b!"::" ++ m))
    (hid : f.uniqueId = ⟨Hash.uniqueId (⟨cls, .pointer, endsConst (cls ++ b!"::" ++ m ++ b!"(" ++ gccAll ps ++ b!")" ++ post)⟩ :: ps.map Par.param)⟩)
    (hA : ∀ g ∈ A, g.name.hash = hashOf (cls ++ b!"::" ++ m) → g.uniqueId ≠ f.uniqueId) :
    ∃ names, processItem rand s (cls ++ b!"::" ++ m ++ b!"(" ++ gccAll ps ++ b!")" ++ post) address =
      .ok { s with db := { s.db with names := names, functions := A ++ { f with address := address } :: B } } := by
  refine C62_gcc_method_partial rand s A B f cls m post ps T address ?_ hgen (fun h => (h1 _ h).2.1 rfl) hm hcl ha hT hclsT hk hdb hf hid hA
  have := C63_plain_name_alone_partial rand (cls ++ b!"::" ++ m) (gccAll ps ++ b!")" ++ post) (fun h => (h1 _ h).2.1 rfl) (fun h => (h1 _ h).2.2 rfl)
    (fun h => (h1 _ h).1 rfl) hand hptr hanon
  have e : cls ++ b!"::" ++ m ++ b!"(" ++ gccAll ps ++ b!")" ++ post = cls ++ b!"::" ++ m ++ b!"(" ++ (gccAll ps ++ b!")" ++ post) := by simp only [List.append_assoc]
  rw [e]
  exact this

/-- The words at the end of a method that is const, and of one that is not. -/
theorem endsConst_iff (sig : Bytes) (h : 5 ≤ sig.length) : endsConst sig = true ↔ b!"const" <:+ sig := by
  have hrf : ∀ k, k = sig.length - 5 ∨ sig.length - 5 < k → k ≤ sig.length → (rfind sig b!"const" k = some (sig.length - 5) ↔ b!"const" <+: sig.drop (sig.length - 5)) := by
    intro k
    have hlong : ∀ j, sig.length - 5 < j → ¬ (b!"const").isPrefixOf (sig.drop j) = true := by
      intro j hj hp
      obtain ⟨t, ht⟩ := List.isPrefixOf_iff_prefix.mp hp
      have := congrArg List.length ht
      simp at this
      omega
    have hle : ∀ k j, rfind sig b!"const" k = some j → j ≤ k := by
      intro k
      induction k with
      | zero => intro j hj; rw [rfind] at hj; split at hj <;> simp at hj; omega
      | succ k ih =>
        intro j hj
        rw [rfind] at hj
        split at hj
        · simp at hj; omega
        · have := ih j hj; omega
    induction k with
    | zero =>
      intro h1 h2
      have h0 : sig.length - 5 = 0 := by omega
      rw [rfind, h0, List.drop_zero]
      by_cases hp : b!"const" <+: sig
      · rw [if_pos (List.isPrefixOf_iff_prefix.mpr hp)]
        simp [hp]
      · rw [if_neg (fun h => hp (List.isPrefixOf_iff_prefix.mp h))]
        simp [hp]
    | succ k ih =>
      intro h1 h2
      by_cases he : k + 1 = sig.length - 5
      · rw [rfind, ← he]
        by_cases hp : b!"const" <+: sig.drop (k + 1)
        · rw [if_pos (List.isPrefixOf_iff_prefix.mpr hp)]
          simp [hp]
        · rw [if_neg (fun h => hp (List.isPrefixOf_iff_prefix.mp h))]
          constructor
          · intro h'
            have := hle _ _ h'
            omega
          · exact fun h' => absurd h' hp
      · rw [rfind, if_neg (hlong _ (by omega))]
        exact ih (by omega) (by omega)
  have h4 : (sig.length == 4) = false := by simp; omega
  rw [endsConst, h4, Bool.false_or, Bool.and_eq_true, decide_eq_true_eq, beq_iff_eq, hrf _ (by omega) (Nat.le_refl _)]
  constructor
  · rintro ⟨_, t, ht⟩
    have hl := congrArg List.length ht
    have ht0 : t = [] := by
      apply List.length_eq_zero_iff.mp
      simp at hl
      omega
    rw [ht0, List.append_nil] at ht
    exact ⟨sig.take (sig.length - 5), by rw [ht, List.take_append_drop]⟩
  · rintro ⟨t, rfl⟩
    refine ⟨h, [], ?_⟩
    have : (t ++ b!"const").length - 5 = t.length := by simp
    rw [this, List.drop_left]
    rfl

/-- C62: a method is taken for const exactly if its signature ends with that word. -/
theorem C62_gcc_const_iff (sig : Bytes) (h : 5 ≤ sig.length) : endsConst sig = true ↔ b!"const" <:+ sig := endsConst_iff sig h

theorem startswith_prefix {text cmp : Bytes} (h : startswith text cmp = true) : cmp <+: text := by
  rw [startswith, beq_iff_eq] at h
  obtain ⟨_, ⟨a, b, hab, ha⟩, _⟩ := find_some _ _ _ _ h
  have ha0 : a = [] := List.length_eq_zero_iff.mp (by simpa using ha)
  subst ha0
  exact ⟨b, by simpa using hab.symm⟩

theorem prefix_startswith {text cmp : Bytes} (h : cmp <+: text) : startswith text cmp = true := by
  rw [startswith, beq_iff_eq]
  cases hf : find text cmp 0 with
  | none =>
    obtain ⟨b, rfl⟩ := h
    exact absurd ⟨[], b, by simp, rfl⟩ (find_none _ _ _ (Nat.zero_le _) hf 0)
  | some i =>
    obtain ⟨_, _, hmin⟩ := find_some _ _ _ _ hf
    cases i with
    | zero => rfl
    | succ i =>
      obtain ⟨b, rfl⟩ := h
      exact absurd ⟨[], b, by simp, rfl⟩ (hmin 0 (by simp))

/-- The name of a function with template arguments and without parameters. -/
theorem get_type_name (rand : Nat → Nat) (ret t : Bytes) (hr : ∀ x ∈ ret, x ≠ 40 ∧ x ≠ 60) (hop : ¬ b!"operator" <:+ ret)
    (ht : ∀ x ∈ t, x ≠ 32 ∧ x ≠ 62 ∧ x ≠ 42 ∧ x ≠ 40 ∧ x ≠ 60) (n : Bytes) (hn : ∀ x ∈ n, x ≠ 32 ∧ x ≠ 40 ∧ x ≠ 60) :
    parseFunctionName rand (ret ++ b!" " ++ n ++ (b!"<" ++ t ++ b!">") ++ ([] ++ b!"(" ++ b!")")) = n ++ (b!"<" ++ t ++ b!">") ++ [] := by
  have hone : ∀ p, (p = b!"&(" ∨ p = b!"(*)(" ∨ p = b!"(anonymous namespace)") → ∀ i, ¬ OccursAt p (ret ++ b!" " ++ n ++ (b!"<" ++ t ++ b!">") ++ ([] ++ b!"(" ++ b!")")) i := by
    -- the only bracket is the last but one character, and it is behind `>`
    have e : ret ++ b!" " ++ n ++ (b!"<" ++ t ++ b!">") ++ ([] ++ b!"(" ++ b!")") = (ret ++ b!" " ++ n ++ b!"<" ++ t) ++ [62, 40, 41] := by simp
    have hq : (40 : UInt8) ∉ ret ++ b!" " ++ n ++ b!"<" ++ t := by
      simp only [List.mem_append, not_or]
      exact ⟨⟨⟨⟨fun h => (hr _ h).1 rfl, by decide⟩, fun h => (hn _ h).2.1 rfl⟩, by decide⟩, fun h => (ht _ h).2.2.2.1 rfl⟩
    rw [e]
    generalize ret ++ b!" " ++ n ++ b!"<" ++ t = q at hq
    have hpos : ∀ i : Nat, (q ++ [62, 40, 41])[i]? = some 40 → i = q.length + 1 := by
      intro i hi
      rcases Nat.lt_or_ge i q.length with hlt | hge
      · rw [List.getElem?_append_left hlt] at hi
        exact absurd (List.mem_of_getElem? hi) hq
      · rw [List.getElem?_append_right hge] at hi
        obtain ⟨j, rfl⟩ : ∃ j, i = q.length + j := ⟨i - q.length, by omega⟩
        rw [show q.length + j - q.length = j by omega] at hi
        match j, hi with
        | 0, hi => simp at hi
        | 1, _ => rfl
        | 2, hi => simp at hi
        | j + 3, hi => simp at hi
    rintro p (rfl | rfl | rfl) i ⟨x, y, hxy, rfl⟩
    · have h1 := hpos (x.length + 1) (by rw [hxy]; simp)
      have h2 : (q ++ [62, 40, 41])[x.length]? = some 38 := by rw [hxy]; simp
      have : x.length = q.length := by omega
      rw [this] at h2
      simp at h2
    · have h1 := hpos x.length (by rw [hxy]; simp)
      have h2 : (q ++ [62, 40, 41])[x.length + 1]? = some 42 := by rw [hxy]; simp
      rw [h1, List.getElem?_append_right (by omega), show q.length + 1 + 1 - q.length = 2 by omega] at h2
      simp at h2
    · have h1 := hpos x.length (by rw [hxy]; simp)
      have h2 : (q ++ [62, 40, 41])[x.length + 1]? = some 97 := by rw [hxy]; simp
      rw [h1, List.getElem?_append_right (by omega), show q.length + 1 + 1 - q.length = 2 by omega] at h2
      simp at h2
  refine C63_template_name_partial rand ret n t [] b!")" ?_ ?_ ?_ (fun h => (ht _ h).2.1 rfl) hop (fun p hp => hone p (by simpa using hp))
  · simp only [List.mem_append, not_or]
    exact ⟨⟨fun h => (hr _ h).1 rfl, fun h => (hn _ h).2.1 rfl⟩, by simp⟩
  · simp only [List.mem_append, not_or]
    exact ⟨⟨⟨⟨fun h => (hr _ h).2 rfl, fun h => (hn _ h).2.2 rfl⟩, fun h => (ht _ h).2.2.2.2 rfl⟩, by simp⟩, by decide⟩
  · simp only [List.mem_append, not_or]
    exact ⟨fun h => (hn _ h).1 rfl, by simp⟩

/-- The address of `clcpp::GetType<T>()` (`GetTypeNameHash<T>()`), from its signature on. -/
theorem C64_gcc_get_type_partial (rand : Nat → Nat) (s s' : St) (ret t : Bytes) (address : UInt64) (isGetType : Bool)
    (hr : ∀ x ∈ ret, x ≠ 40 ∧ x ≠ 60) (hop : ¬ b!"operator" <:+ ret) (ht : ∀ x ∈ t, x ≠ 32 ∧ x ≠ 62 ∧ x ≠ 42 ∧ x ≠ 40 ∧ x ≠ 60)
    (hk : t ∉ [b!"struct", b!"class", b!"enum"]) (h0 : hashOf t ≠ 0) (ha : address ≠ 0) (hs : s.getTypes.Pairwise (·.1 < ·.1))
    (h : processItem rand s (ret ++ b!" " ++ (if isGetType then b!"clcpp::GetType" else b!"clcpp::GetTypeNameHash") ++ (b!"<" ++ t ++ b!">") ++ ([] ++ b!"(" ++ b!")")) address
      = .ok s') :
    s'.getTypes.Pairwise (·.1 < ·.1) ∧
    entry s'.getTypes (hashOf t) = some (if isGetType then (((entry s.getTypes (hashOf t)).getD (0, 0)).1, address)
      else (address, ((entry s.getTypes (hashOf t)).getD (0, 0)).2)) ∧
    (∀ k, k ≠ hashOf t → entry s'.getTypes k = entry s.getTypes k) ∧ ∃ names, s'.db = { s.db with names := names } := by
  have hname := get_type_name rand ret t hr hop ht
  have ht' : ∀ x ∈ t, x ≠ 32 ∧ x ≠ 62 ∧ x ≠ 42 := fun x hx => ⟨(ht x hx).1, (ht x hx).2.1, (ht x hx).2.2.1⟩
  cases isGetType with
  | true =>
    simp only [if_true] at h
    rw [processItem, hname _ (by decide)] at h
    dsimp only at h
    rw [if_neg (by simp), if_neg (fun h => by obtain ⟨y, hy⟩ := startswith_prefix h; simp at hy),
      if_neg (fun h => by obtain ⟨y, hy⟩ := startswith_prefix h; simp at hy), if_pos (prefix_startswith ⟨t ++ b!">", by simp⟩)] at h
    exact C64_get_type_partial s s' b!"clcpp::GetType" t [] .none address true (by decide) ht' hk h0 ha hs
      (by rw [← h]; congr 1)
  | false =>
    simp only [Bool.false_eq_true, if_false] at h
    rw [processItem, hname _ (by decide)] at h
    dsimp only at h
    rw [if_neg (by simp), if_neg (fun h => by obtain ⟨y, hy⟩ := startswith_prefix h; simp at hy),
      if_neg (fun h => by obtain ⟨y, hy⟩ := startswith_prefix h; simp at hy), if_neg (fun h => by obtain ⟨y, hy⟩ := startswith_prefix h; simp at hy),
      if_pos (prefix_startswith ⟨t ++ b!">", by simp⟩)] at h
    exact C64_get_type_partial s s' b!"clcpp::GetTypeNameHash" t [] .none address false (by decide) ht' hk h0 ha hs
      (by rw [← h]; congr 1)

example : ∃ names, processItem (fun _ => 0) { db := { exampleDb with functions := [gMut, hFun, fInt] } } b!"A::h(int*, A<int>)" 4096 =
    .ok { db := { exampleDb with names := names, functions := [gMut] ++ { hFun with address := 4096 } :: [fInt] } } :=
  C62_gcc_function_line_partial (fun _ => 0) { db := { exampleDb with functions := [gMut, hFun, fInt] } } [gMut] [fInt] hFun b!"A" b!"h" [] [intPtr, templPar]
    [b!"A", b!"int*", b!"A<int>"] 4096 (by decide) (by decide) (by decide) (by decide) (by decide) (by decide) (by decide) (by decide) example_clear (by decide)
    (by intro p hp; simp at hp; rcases hp with rfl | rfl; exact ⟨intPtr_gcc, by decide⟩; exact ⟨templPar_gcc, by decide⟩) rfl rfl rfl (by decide +kernel)
    (by
      intro g hg _ c
      simp at hg
      cases c <;> (rcases hg with rfl | rfl | rfl <;> decide +kernel))

example : ∃ names, processItem (fun _ => 0) { db := { exampleDb with functions := [gMut, gConst, fInt] } } b!"A::g(int) const" 4096 =
    .ok { db := { exampleDb with names := names, functions := [gMut] ++ { gConst with address := 4096 } :: [fInt] } } :=
  C62_gcc_method_line_partial (fun _ => 0) { db := { exampleDb with functions := [gMut, gConst, fInt] } } [gMut] [fInt] gConst b!"A" b!"g" b!" const" [intPar]
    [b!"A", b!"int"] 4096 (by decide) (by decide) (by decide) (by decide) (by decide) (by decide) (by decide) (by decide)
    (by
      intro t ht
      simp only [List.mem_cons, List.not_mem_nil, or_false] at ht
      rcases ht with rfl | rfl
      · exact ⟨by decide +kernel, by decide +kernel, by decide +kernel⟩
      · exact ⟨by decide +kernel, by decide +kernel, by decide +kernel⟩) (by decide)
    (by
      intro p hp
      simp at hp
      rcases hp with rfl
      exact ⟨⟨rfl, .inl ⟨_, _, rfl, by decide, by decide, by decide, by decide, by decide⟩, by decide, by decide⟩, by decide⟩)
    rfl rfl (by decide +kernel) (by decide +kernel)

example : endsConst b!"A::g(int) const" = true := (C62_gcc_const_iff _ (by decide)).mpr (by decide)

example : ∃ s', processItem (fun _ => 0) { db := exampleDb, getTypes := [(5, 6, 7)] } b!"clcpp::Type const* clcpp::GetType<A>()" 4096 = .ok s' ∧
    entry s'.getTypes (hashOf b!"A") = some (0, 4096) := by
  cases h : processItem (fun _ => 0) { db := exampleDb, getTypes := [(5, 6, 7)] } b!"clcpp::Type const* clcpp::GetType<A>()" 4096 with
  | ok s' =>
    exact ⟨s', rfl, (C64_gcc_get_type_partial (fun _ => 0) { db := exampleDb, getTypes := [(5, 6, 7)] } s' b!"clcpp::Type const*" b!"A" 4096 true (by decide) (by decide)
      (by decide) (by decide) (by decide +kernel) (by decide) (by simp) h).2.1⟩
  | trap => exact absurd h (by decide +kernel)
  | ub => exact absurd h (by decide +kernel)

end Clr.Map
