import Verif.Witness.Base
/-! # Cases for C01–C17 -/
set_option autoImplicit false

namespace Verif.Witness
open Verif Spec Verif.Props

/-! ## `Props/Document` -/

theorem doc_ok : Document asciiClass exampleDoc exampleTree := (parseStr_iff (U := asciiClass)).1 parse_exampleDoc

example := c01_tree_unique asciiClass exampleDoc exampleTree exampleTree doc_ok doc_ok

example := c01_rejects_everything_else asciiClass "a = [1, }".toList (by
  rintro ⟨b, h⟩
  have h := (parseStr_iff (U := asciiClass)).2 h
  have e : parseStr asciiClass "a = [1, }".toList = .error .parse := by decide +kernel
  rw [e] at h; cases h)

example := c02_appended_text_is_never_ignored asciiClass exampleDoc "}".toList exampleTree [] parse_exampleDoc

example := c03_expression_fuel asciiClass "[1, {a = 2}] x".toList " x".toList .null 20 (by decide)

/-- no indented heredoc at all: no bad one -/
theorem no_bad : ¬ ∃ u, BodyAt asciiClass .expression exampleDoc u ∧ BadHeredoc asciiClass u := by
  rw [← c04_panics_exactly_on_bad_heredocs, parse_exampleDoc]
  intro h; cases h

example := c04_returns_otherwise asciiClass exampleDoc no_bad

example := c04_no_panic_without_indented_heredoc asciiClass "a = <<E\n\nE\n".toList (by decide +kernel)

example := c04_expression_no_panic asciiClass "[<<E\n\nE\n]".toList (by decide +kernel)

example := c15_leading_layout asciiClass "# c\n".toList "\n".toList exampleDoc exampleTree commentLine lineEnd

example := c15_layout_between asciiClass exampleDoc "# c\n".toList "\n".toList exampleDoc exampleTree (exampleTree ++ exampleTree)
  parse_exampleDoc commentLine lineEnd

example := c15_attribute_layout asciiClass pre ['a'] [' '] "/*x*/\t".toList "[1]".toList [' '] "# c\n".toList exampleDoc preTree
  (preTree ++ .attribute (.borrowed ['a']) (.tuple [.number one]) :: exampleTree) (.tuple [.number one])
  pre_ok idA blank comment (by decide +kernel) blank (.line _ (.hash [' ', 'c'] ['\n'] (by decide) .lf))

example := c20_expression_parse_error asciiClass "[1, }".toList (by
  rintro ⟨e, r, h⟩
  have h : expression asciiClass _ = .ok r e := (expression_iff (U := asciiClass)).2 h
  have e : expression asciiClass "[1, }".toList = .err := by decide +kernel
  rw [e] at h; cases h)

/-! ## `Props/Heredoc` -/

/-- `E` is a marker -/
theorem markerE : ∀ c ∈ ['E'], MarkerChar asciiClass c := by unfold MarkerChar; decide

example := c08_heredoc_verbatim asciiClass pre ['a'] [' '] [' '] ['E'] ['\n'] "EX\n \\n".toList ['\r', '\n'] "  ".toList ['\n'] exampleDoc
  preTree (preTree ++ .attribute (.borrowed ['a']) (.string (.borrowed "EX\n \\n".toList)) :: exampleTree) pre_ok idA blank blank
  (by decide) markerE .lf .crlf .lf (by decide) (noTerminatorLine_of_check (by decide) (by decide)) (fun _ => not_ends (by decide))

example := c08_heredoc_empty asciiClass pre ['a'] [' '] [' '] ['E'] ['\n'] " ".toList ['\n'] exampleDoc preTree
  (preTree ++ .attribute (.borrowed ['a']) (.string (.borrowed [])) :: exampleTree) pre_ok idA blank blank
  (by decide) markerE .lf .lf (by decide)

example := c08_heredoc_first_terminator asciiClass "<<E\nx\nE\nE\n".toList "\nE\n".toList (.borrowed ['x']) (by decide +kernel)
  (by intro t h; have := congrArg (List.take 3) h; simp at this)

example := c09_indented_heredoc_strips asciiClass pre ['a'] [' '] [' '] ['E'] ['\n'] "    x\n ab".toList ['\n'] "   ".toList ['\n']
  exampleDoc preTree pre_ok idA blank blank (by decide) markerE .lf .lf .lf (by decide)
  (noTerminatorLine_of_check (by decide) (by decide)) (fun _ => not_ends (by decide))
  ["    x".toList, " ab".toList] (lines_cons (t := " ab".toList) (by decide) (by decide) (.last " ab".toList (by decide)))
  (by intro l hl; rw [badLine_iff]; revert l; decide)

example := c09_indented_heredoc_aborts asciiClass pre ['a'] [' '] [' '] ['E'] ['\n'] "    x\n\n  y".toList ['\n'] "   ".toList ['\n']
  exampleDoc preTree pre_ok idA blank blank (by decide) markerE .lf .lf .lf (by decide)
  (noTerminatorLine_of_check (by decide) (by decide)) (fun _ => not_ends (by decide))
  ["    x".toList, [], "  y".toList] [] (lines_cons (t := "\n  y".toList) (by decide) (by decide)
    (lines_cons (t := "  y".toList) (by decide) (by decide) (.last "  y".toList (by decide)))) (by decide)
  (.blank 0 (by decide))

/-! ## `Props/Strings` -/

example := c05_in_document asciiClass pre ['a'] "x\"\\\n".toList exampleDoc preTree
  (preTree ++ .attribute (.borrowed ['a']) (.string (.ownedS "x\"\\\n".toList)) :: exampleTree) pre_ok idA

example := c05_simple_escape asciiClass ['x'] "y\\t".toList "x\ny\t".toList "y\t".toList 'n' '\n' (by decide) (by unfold Plain; decide)
  (by decide +kernel) (by decide)

/-- `"\q"` in the value of an attribute -/
theorem at_value : BodyAt asciiClass .expression "a = \"x\\q\"".toList "\"x\\q\"".toList :=
  .attribute _ "a = \"x\\q\"".toList _ (skipLayout_eval (by decide +kernel))
    (.mk _ ['a'] " = \"x\\q\"".toList " \"x\\q\"".toList "\"x\\q\"".toList _ (ident_eval (by decide +kernel))
      (skipInline_eval (by decide +kernel)) (skipInline_eval (by decide +kernel)) (.here _))

theorem bad_q : BadEscape "\"x\\q\"".toList :=
  c06_unknown_letter ['x'] ['x'] _ 'q' (.plain _ _ _ _ (by unfold Plain; decide) (.nil _)) (by decide) (by decide)

example := c06_bad_escape_rejects_document asciiClass .expression "a = \"x\\q\"".toList "\"x\\q\"".toList at_value bad_q []

example := c06_bad_escape_rejects_expression asciiClass "\"x\\q\"".toList "\"x\\q\"".toList (.here _) bad_q

/-- the hexadecimal digits `d800` -/
theorem d800 : Numeral 16 "d800".toList 0xd800 :=
  .snoc ['d', '8', '0'] '0' 0xd80 0 (.snoc ['d', '8'] '0' 0xd8 0 (.snoc ['d'] '8' 0xd 8 (.snoc [] 'd' 0 13 .nil
    (.lower _ _ (by decide) (by decide) (by decide))) (.dec _ _ (by decide) (by decide) (by decide)))
    (.dec _ _ (by decide) (by decide) (by decide))) (.dec _ _ (by decide) (by decide) (by decide))

example := c06_not_a_scalar_value ['x'] ['x'] "d800".toList "y\"".toList 'u' 4 0xd800 (.inr rfl)
  (.plain _ _ _ _ (by unfold Plain; decide) (.nil _)) (by decide) d800
  (by rintro ⟨c, hc⟩; have := c.valid; unfold UInt32.isValidChar Nat.isValidChar at this; unfold Char.toNat at hc; omega)

example := c06_missing_digits ['x'] ['x'] "g\"".toList 'x' (.inl rfl) (.plain _ _ _ _ (by unfold Plain; decide) (.nil _))
  (by
    rintro ⟨c, t, e, v, hv⟩
    cases e
    cases hv <;> contradiction)

example := c07_string_literal_is_single_line "\"a\\n\" {".toList " {".toList "a\n".toList (by decide +kernel)

example := c07_string_literal_accepts_single_line "ab".toList "ab".toList " {".toList
  (.plain _ _ _ _ (by unfold Plain; decide) (.plain _ _ _ _ (by unfold Plain; decide) (.nil _))) (by decide)

example := c07_quoted_string_keeps_line_ends asciiClass "a\r\nb".toList (by decide)

/-- a label with a line feed -/
theorem at_label : BodyAt asciiClass .label "b \"x\n\" {}".toList ('"' :: ['x', '\n'] ++ '"' :: " {}".toList) :=
  .label _ "b \"x\n\" {}".toList ['b'] " \"x\n\" {}".toList _ (skipLayout_eval (by decide +kernel)) (ident_eval (by decide +kernel))
    (.here _ _ (skipInline_eval (by decide +kernel)))

example := c07_multiline_label_rejected asciiClass _ _ _ _ at_label
  (.plain _ _ _ _ (by unfold Plain; decide) (.plain _ _ _ _ (by unfold Plain; decide) (.nil _))) (by decide) []

/-! ## `Props/Literals` -/

example := c10_literal_parses asciiClass _ _ isNegFloat

example := c10_in_document asciiClass pre ['a'] "-1.5e3".toList exampleDoc negFloat preTree
  (preTree ++ .attribute (.borrowed ['a']) (.number negFloat) :: exampleTree) pre_ok idA isNegFloat

example := c10_numbers_keep_their_text asciiClass exampleDoc exampleTree one parse_exampleDoc
  (by simp [exampleTree, exprLeaves, tupleLeaves, objectLeaves, elementLeaves, bodyLeaves])

example := c10_float_iff _ _ isNegFloat

example := c10_unsigned_iff _ _ isOne

/-- an integer literal -/
theorem isTwoFiftySix : IsNumber "256".toList ⟨.borrowed "256".toList, true, some (.borrowed "256".toList), none, none⟩ := by
  obtain ⟨t, e, h⟩ := number_sound (show number "256".toList = .ok []
    ⟨.borrowed "256".toList, true, some (.borrowed "256".toList), none, none⟩ by decide +kernel)
  rw [List.append_nil] at e; subst e; exact h

theorem lit256 : IntLit "256".toList 256 := ((c11_conversion_exact ⟨true, 64⟩ _ _ isTwoFiftySix 256).1 (by decide +kernel)).1

example := c11_never_wraps ⟨false, 16⟩ _ _ isTwoFiftySix 256 256 lit256 (by decide +kernel)

example := c11_float_fails ⟨false, 16⟩ _ _ isNegFloat (by decide)

example := c11_integer_literal _ _ isTwoFiftySix (by decide)

example (O : FloatOps) := c12_integer_equality O _ _ _ _ isTwoFiftySix isTwoFiftySix 256 256 lit256 lit256

example (O : FloatOps) := c12_float_equality O _ _ _ _ isNegFloat isTwoFiftySix (.inl (by decide))

/-- floats that are all the same, for example -/
def trivialFloats : FloatOps := ⟨Nat, fun _ => some 0, id, fun a b => a == b⟩

/-- `1.5` and `-1.5` -/
theorem isFloats : IsNumber "1.5".toList ⟨.borrowed "1.5".toList, true, some (.borrowed ['1']), some (.borrowed ['5']), none⟩ ∧
    IsNumber ('-' :: "1.5".toList) ⟨.borrowed ('-' :: "1.5".toList), false, some (.borrowed ['1']), some (.borrowed ['5']), none⟩ := by
  constructor
  · obtain ⟨t, e, h⟩ := number_sound (show number "1.5".toList = .ok []
      ⟨.borrowed "1.5".toList, true, some (.borrowed ['1']), some (.borrowed ['5']), none⟩ by decide +kernel)
    rw [List.append_nil] at e; subst e; exact h
  · obtain ⟨t, e, h⟩ := number_sound (show number ('-' :: "1.5".toList) = .ok []
      ⟨.borrowed ('-' :: "1.5".toList), false, some (.borrowed ['1']), some (.borrowed ['5']), none⟩ by decide +kernel)
    rw [List.append_nil] at e; subst e; exact h

example := c12_float_sign_ignored trivialFloats _ _ _ (0 : Nat) (0 : Nat) isFloats.1 isFloats.2 (by decide) rfl rfl rfl rfl

example := c13_from_integer asciiClass ⟨true, 8⟩ true (-127) (by decide) (by decide)

example := c13_min_panics ⟨true, 8⟩ rfl

example := c13_min_wraps asciiClass ⟨true, 8⟩ rfl

example := c14_otherwise_error asciiClass "1a".toList (by rintro ⟨c, t, e, h⟩; cases e; exact not_identStart (by decide) (by decide) h)

example := c14_names_are_identifiers asciiClass exampleDoc exampleTree parse_exampleDoc (.borrowed ['m'])
  (by simp [exampleTree, exprLeaves, tupleLeaves, objectLeaves, elementLeaves, bodyLeaves])

/-! ## `Props/Laid` -/

example := c15_layout_never_matters asciiClass exampleDoc "a=[1,\"x\\n\"]\nb \"l\" m{c={k=null}}".toList exampleTree
  ((c15_every_layout_is_read _ _ _).1 parse_exampleDoc) ((c15_every_layout_is_read _ _ _).1 (by decide +kernel))

example := c15_brackets_and_layout asciiClass [' '] ['\n'] [] [] "# c\n".toList [] "[1,]".toList "[\n1]".toList (.tuple [.number one])
  (by decide +kernel) (by decide +kernel) blankL lineEnd .nil .nil commentLine .nil

/-! ## `Props/Print` -/

example := c17_print_then_parse asciiClass exampleTree (c17_parsed_is_printable _ _ _ parse_exampleDoc)

example := c17_print_then_parse_expression asciiClass (.tuple [.number negFloat, .string (.ownedS "x\"".toList)])
  (by intro l hl; simp [exprLeaves, tupleLeaves] at hl; rcases hl with rfl | rfl; exact isNegFloat; trivial)

example := c17_reformat asciiClass exampleDoc exampleTree parse_exampleDoc

example := c17_print_injective asciiClass exampleTree exampleTree (c17_parsed_is_printable _ _ _ parse_exampleDoc)
  (c17_parsed_is_printable _ _ _ parse_exampleDoc) rfl

end Verif.Witness
