import Verif.Proofs.AttributeItems

/-!
C46 and C47: attribute texts.  Model: `Verif/Model/AttributeParser.lean`; specification of attribute texts:
`Verif/Model/AttributeSpec.lean`.
-/
namespace Clr.Attr
open Clr.DB (Name getName hashOf internAll)

/-- **C46** (partial): every well-formed attribute list, with any blanks between its parts, is parsed to exactly the
attributes it stands for, in order; their names are interned.  (Missing: the hexadecimal prefix `0X`, signs, numbers
that do not fit an `int`, names and texts of more than 1023 characters, for which it does not hold, see below.) -/
theorem C46_well_formed_partial (scan : Bytes → UInt32) (names : List Name) (items : List Item) (hok : ∀ i ∈ items, i.Ok) (text : Bytes)
    (ht : Spaced (spelling items) text) (ns names' : List Name)
    (hn : internAll names ((items.flatMap Item.names).map some) = .ok (ns, names')) :
    parseAttributes scan names text = .ok (items.map (Item.meaning scan), names') := by
  rw [parse_items scan names items hok text ht]
  unfold interned allNames
  rw [hn]; rfl

/-- **C46**: the only other outcome is the assertion about two names with the same hash. -/
theorem C46_collision_partial (scan : Bytes → UInt32) (names : List Name) (items : List Item) (hok : ∀ i ∈ items, i.Ok) (text : Bytes)
    (ht : Spaced (spelling items) text) (hn : ∀ r, internAll names ((items.flatMap Item.names).map some) ≠ .ok r) :
    parseAttributes scan names text = .stop .assert := by
  rw [parse_items scan names items hok text ht]
  unfold interned allNames
  generalize internAll names ((items.flatMap Item.names).map some) = q at hn ⊢
  cases q with
  | ok r => exact absurd rfl (hn r)
  | trap => rfl
  | ub => rfl

/-- `transient, size = 12, mask=0xfF ,scale = 1.50,	type=math::Vec3, doc = "a, \b"`. -/
def sample : List Item :=
  [⟨b!"transient", none⟩, ⟨b!"size", some (.dec b!"12")⟩, ⟨b!"mask", some (.hex b!"fF")⟩, ⟨b!"scale", some (.real b!"1" b!"50")⟩,
   ⟨b!"type", some (.symbol b!"math::Vec3")⟩, ⟨b!"doc", some (.string b!"a, \\b")⟩]

/-- Its text. -/
def sampleText : Bytes := b!"transient, size = 12, mask=0xfF ,scale = 1.50,\ttype=math::Vec3, doc = \"a, \\b\""

theorem sample_ok : ∀ i ∈ sample, i.Ok := by
  simp only [sample, List.forall_mem_cons, Item.Ok, Symbol]
  refine ⟨⟨⟨by decide, _, _, rfl, by simp [Letter], by simp [Letter]⟩, by simp⟩, ⟨⟨by decide, _, _, rfl, by simp [Letter], by simp [Letter]⟩, ?_⟩,
    ⟨⟨by decide, _, _, rfl, by simp [Letter], by simp [Letter]⟩, ?_⟩, ⟨⟨by decide, _, _, rfl, by simp [Letter], by simp [Letter]⟩, ?_⟩,
    ⟨⟨by decide, _, _, rfl, by simp [Letter], by simp [Letter]⟩, ?_⟩, ⟨⟨by decide, _, _, rfl, by simp [Letter], by simp [Letter]⟩, ?_⟩, by simp⟩
  · rintro v ⟨⟩; exact ⟨by decide, by simp [Digit], by decide, by decide⟩
  · rintro v ⟨⟩; exact ⟨by simp [HexDigit], by decide⟩
  · rintro v ⟨⟩; exact ⟨by decide, by simp [Digit], by simp [Digit], by decide⟩
  · rintro v ⟨⟩; exact ⟨by decide, _, _, rfl, by simp [Letter], by simp [Letter, Digit]⟩
  · rintro v ⟨⟩; exact ⟨by decide, by decide⟩

theorem sample_spaced : Spaced (spelling sample) sampleText := by
  have b0 : Blank [] := by simp [Blank]
  have b1 : Blank [32] := by simp [Blank]
  have b9 : Blank [9] := by simp [Blank]
  exact .cons [] _ _ _ b0 (.cons [] _ _ _ b0 (.cons [32] _ _ _ b1 (.cons [32] _ _ _ b1 (.cons [32] _ _ _ b1 (.cons [] _ _ _ b0
    (.cons [32] _ _ _ b1 (.cons [] _ _ _ b0 (.cons [] _ _ _ b0 (.cons [32] _ _ _ b1 (.cons [] _ _ _ b0 (.cons [32] _ _ _ b1
    (.cons [32] _ _ _ b1 (.cons [] _ _ _ b0 (.cons [9] _ _ _ b9 (.cons [] _ _ _ b0 (.cons [] _ _ _ b0 (.cons [] _ _ _ b0
    (.cons [32] _ _ _ b1 (.cons [32] _ _ _ b1 (.cons [32] _ _ _ b1 (.nil [] b0)))))))))))))))))))))

/-- The hypotheses are met, and the attributes are those one expects. -/
example : (∃ r, internAll [] ((sample.flatMap Item.names).map some) = .ok r) ∧
    (sample.map (Item.meaning fun _ => 0x3FC00000)).map Attribute.value =
      [.flag, .int 12, .int 255, .float 0x3FC00000, .prim (nameOf b!"math::Vec3"), .text b!"a, \\b"] := by
  refine ⟨?_, by decide +kernel⟩
  have : (match internAll [] ((sample.flatMap Item.names).map some) with | .ok _ => true | _ => false) = true := by decide +kernel
  split at this
  · next r h => exact ⟨r, h⟩
  · cases this

/-- C46 is false of the prefix `0X`: the value is 0 (AttributeParser.cpp:250 looks for the 'X' in the third place). -/
theorem C46_upper_hex_negation :
    parseAttributes (fun _ => 0) [] b!"a=0X1F" = .ok ([⟨nameOf b!"a", .int 0⟩], [nameOf b!"a"]) := by decide +kernel

/-- C46 is false of negative numbers: the whole text is given up (AttributeParser.cpp:186-190). -/
theorem C46_negative_negation : parseAttributes (fun _ => 0) [] b!"transient, a=-1" = .ok ([], []) := by decide +kernel

/-- C46 is false of floats with an exponent and no point: they are integers, cut before the exponent. -/
theorem C46_exponent_negation :
    parseAttributes (fun _ => 0) [] b!"a=1e5" = .ok ([⟨nameOf b!"a", .int 1⟩], [nameOf b!"a"]) := by decide +kernel

/-- C46 is false of texts of more than 1023 characters: they are cut (AttributeParser.cpp:54-62). -/
theorem C46_long_text_negation :
    parseAttributes (fun _ => 0) [] (b!"a=\"" ++ List.replicate 1024 65 ++ b!"\"") =
      .ok ([⟨nameOf b!"a", .text (List.replicate 1023 65)⟩], [nameOf b!"a"]) := by decide +kernel

/-- **C47** (partial): parsing a text of ASCII characters whose last visible character is no comma ends, and reads no token
past the end of the list: it returns, or an assertion fails, or `atoi` is given a number that does not fit. -/
theorem C47_safe_partial (scan : Bytes → UInt32) (names : List Name) (text : Bytes) (hascii : ∀ c ∈ text, c ≠ 0 ∧ c < 128)
    (hcomma : (text.filter fun c => !(c == 32 || c == 9)).getLast? ≠ some 44) :
    (∃ r, parseAttributes scan names text = .ok r) ∨ parseAttributes scan names text = .stop .assert ∨
      parseAttributes scan names text = .stop .overflow := by
  cases hr : parseAttributes scan names text with
  | ok r => exact .inl ⟨r, rfl⟩
  | stop k =>
    right
    unfold parseAttributes at hr
    rcases bind_stop hr with hl | ⟨toks, hl, hp⟩
    · exfalso
      rcases lexLoop_stop hl with rfl | rfl
      · exact lexLoop_ends (Nat.lt_succ_self _) hl
      · exact lexLoop_ascii (fun c hc => UInt8.not_le.2 (hascii c hc).2) hl
    · have hlast := lexLoop_last hl (fun h0 => (hascii 0 h0).1 rfl) hcomma (fun _ t ht => by cases ht)
      unfold parser at hp
      split at hp
      · cases hp
      · next hne =>
        have hlen : 0 < toks.length := by
          cases toks with
          | nil => exact absurd rfl hne
          | cons => simp
        rcases parseLoop_stop hlen (by omega) hp with rfl | rfl | ⟨_, t, ht, hc⟩
        · exact .inl rfl
        · exact .inr rfl
        · exact absurd hc (hlast t ht)

/-- **C47** (partial), for every text: parsing ends. -/
theorem C47_ends_partial (scan : Bytes → UInt32) (names : List Name) (text : Bytes) : parseAttributes scan names text ≠ .stop .fuel := by
  intro hr
  unfold parseAttributes at hr
  rcases bind_stop hr with hl | ⟨toks, hl, hp⟩
  · exact lexLoop_ends (Nat.lt_succ_self _) hl
  · unfold parser at hp
    split at hp
    · cases hp
    · next hne =>
      have hlen : 0 < toks.length := by
        cases toks with
        | nil => exact absurd rfl hne
        | cons => simp
      rcases parseLoop_stop hlen (by omega) hp with h | h | ⟨h, _⟩ <;> cases h

/-- The hypotheses are met by the sample text. -/
example : (∀ c ∈ sampleText, c ≠ 0 ∧ c < 128) ∧ (sampleText.filter fun c => !(c == 32 || c == 9)).getLast? ≠ some 44 := by
  decide +kernel

/-- C47 is false: behind every well-formed attribute list, a comma makes the parser read the token behind the last one
(`ExpectNext`, AttributeParser.cpp:206, checks no bound). -/
theorem C47_trailing_comma_negation (scan : Bytes → UInt32) (names : List Name) (i : Item) (items : List Item)
    (hok : ∀ x ∈ i :: items, x.Ok) (text : Bytes) (ht : Spaced (spelling (i :: items) ++ [[44]]) text) {r : List Name × List Name}
    (hn : internAll names (((i :: items).flatMap Item.names).map some) = .ok r) :
    parseAttributes scan names text = .stop .index := by
  have hs : SpelledAll (spelling (i :: items) ++ [[44]]) (tokensOf (i :: items) ++ [⟨.comma, [44]⟩]) :=
    (spelled_items hok).append (.cons .comma .nil)
  have ha : Alternating (tokensOf (i :: items) ++ [⟨.comma, [44]⟩]) :=
    alternating_items_rest _ _ (.inr ⟨_, _, rfl, rfl, trivial⟩)
  rw [parseAttributes, lexer_spaced ht hs ha, ok_bind, parser]
  have hlen := length_tokensOf (i :: items)
  rw [if_neg (by simp), List.length_append]
  have := parseLoop_comma scan names [] i items hok [] ((tokensOf (i :: items)).length + 1 + 1) (by simp at hlen; omega) hn
  simpa using this

/-- An instance: `transient,`. -/
example : parseAttributes (fun _ => 0) [] b!"transient, " = .stop .index := by decide +kernel

/-- C47 is false of texts with other characters: `isalpha` is called with a negative `char`. -/
theorem C47_not_ascii_negation : parseAttributes (fun _ => 0) [] [97, 195, 164] = .stop .ctype := by decide +kernel

/-- Numbers that do not fit are given to `atoi`. -/
theorem C47_overflow_negation : parseAttributes (fun _ => 0) [] b!"a=2147483648" = .stop .overflow := by decide +kernel

end Clr.Attr
