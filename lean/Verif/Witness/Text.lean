import Verif.Witness.Base
import Verif.Props.Embed
import Verif.Props.Edit
import Verif.Props.ErrorAt
import Verif.Props.LineEnds
import Verif.Props.Errors
import Verif.Props.EscapeErrors
import Verif.Props.Calls
import Verif.Props.Cli
import Verif.Props.Refused
import Verif.Props.Pieces
import Verif.Props.Search
import Verif.Props.Slices
import Verif.Props.Sources
/-! # Cases for C18, C19, C51, C53–C55, C73, C75, C81–C85, C87, C89 -/
set_option autoImplicit false

namespace Verif.Witness
open Verif Spec Verif.Props

/-! ## `Props/Embed` -/

/-- a blank does not continue a name -/
theorem notName (t : Str) : ¬ Head (IdentChar asciiClass) (' ' :: t) := by
  rintro ⟨c, y, e, hc⟩
  injection e with e _
  subst e
  exact layoutStart_not_identChar (by decide) hc

/-- a header -/
theorem header : LaidHeader asciiClass (.borrowed ['a']) [.identifier (.borrowed ['b'])] "a b {".toList :=
  .mk ['a'] _ _ idA (notName _) (.ident [' '] ['b'] _ _ blank idB (notName _) (.open [' '] blank))

example := c81_block asciiClass _ _ _ exampleDoc header (.block (.borrowed ['a']) [.identifier (.borrowed ['b'])] exampleTree)

example := c81_line_end asciiClass exampleDoc exampleTree parse_exampleDoc

example := c81_document_in_block asciiClass _ _ _ exampleDoc exampleTree header parse_exampleDoc

example := c81_lines asciiClass [(exampleDoc, exampleTree), (pre, preTree)] (by
  intro d hd
  simp only [List.mem_cons, List.not_mem_nil, or_false] at hd
  rcases hd with rfl | rfl
  · exact parse_exampleDoc
  · exact pre_ok)

example := c81_attribute asciiClass ['a'] [' '] "/*x*/\t".toList "[1]".toList [' '] (.tuple [.number one]) idA blank comment blank
  (by decide +kernel)

example := c81_value_alone asciiClass ['a'] "1 # one\n".toList (.number one) idA (by decide +kernel)

theorem two_exprs : ∀ x ∈ [("[ 1 ]".toList, Expr.tuple [.number one]), ("\"a,b\"".toList, .string (.ownedS "a,b".toList))],
    Expr.parse asciiClass x.1 = .ok x.2 := by
  intro x hx
  simp only [List.mem_cons, List.not_mem_nil, or_false] at hx
  rcases hx with rfl | rfl <;> decide +kernel

example := c81_tuple asciiClass _ two_exprs

example := c81_object asciiClass [(['a'], "[ 1 ]".toList, .tuple [.number one]), (['b'], "\"a,b\"".toList, .string (.ownedS "a,b".toList))]
  (by intro x hx; simp only [List.mem_cons, List.not_mem_nil, or_false] at hx; rcases hx with rfl | rfl; exact idA; exact idB)
  (by intro x hx; simp only [List.mem_cons, List.not_mem_nil, or_false] at hx; rcases hx with rfl | rfl <;> decide +kernel)

example := c81_parentheses asciiClass "[ 1 ]".toList (.tuple [.number one]) (by decide +kernel)

/-! ## `Props/Edit` -/

/-- the heredoc in the sample -/
abbrev editValue : ValuePlace :=
  ⟨[], .block (.borrowed ['a']) [] [] (.attribute (.borrowed ['x']) (.item [.number one] .here
      [.number ⟨.borrowed ['2'], true, some (.borrowed ['2']), none, none⟩]))
    [.attribute (.borrowed ['y']) (.number ⟨.borrowed ['3'], true, some (.borrowed ['3']), none, none⟩)], []⟩

theorem edit_ok : parseStr asciiClass editBefore = .ok (editValue.fill (.string (.borrowed ['t']))) := by decide +kernel

example := c89_value_in_place asciiClass editValue _ _ edit_ok

example := c89_expression_in_place asciiClass editValue _ _ edit_ok

example := c89_value_in_expression asciiClass (.item [.number one] .here []) (.string (.borrowed ['t'])) "[1, <<E\nt\nE\n]".toList
  (by decide +kernel)

/-- `y = 3` -/
abbrev editEls : Body := [.attribute (.borrowed ['y']) (.number ⟨.borrowed ['3'], true, some (.borrowed ['3']), none, none⟩)]

theorem edit_lines : WholeLines editBefore := .inr ⟨"a {\n x = [1, <<E\nt\nE\n, (2)]\n y = 3\n}".toList, by decide +kernel⟩

theorem edit_not_one : editPlace.InBlock → ¬ MayBeOneLine (editPlace.inner editEls) := by
  rintro - (h | ⟨k, e, h⟩) <;> simp [editPlace, ElementsPlace.inner] at h

example := c89_elements_in_place asciiClass editPlace editEls editBefore edit_lines (by decide +kernel) edit_not_one

example := c89_elements_removed asciiClass editPlace editEls editBefore edit_lines (by decide +kernel) edit_not_one

example := c89_elements_inserted asciiClass (.between exampleTree preTree) (exampleDoc ++ pre ++ ['\n']) (.inr ⟨exampleDoc ++ pre, rfl⟩)
  (by decide +kernel) (by intro h; cases h)

/-! ## `Props/ErrorAt` -/

example := c83_document_in_front asciiClass exampleDoc "b = [".toList exampleTree parse_exampleDoc

/-- a heredoc at the end needs its line end -/
theorem heredoc_line : parseStr asciiClass ("a = <<E\nx\nE".toList ++ ['\n']) = .ok [.attribute (.borrowed ['a']) (.string (.borrowed ['x']))] := by
  decide +kernel

example := c83_lines_in_front asciiClass "a = <<E\nx\nE".toList "b = \"\\q\"".toList _ heredoc_line

example := c16_lines asciiClass "a = <<E\nx\nE".toList exampleDoc _ (.attribute (.borrowed ['a']) (.string (.borrowed ['x'])) :: exampleTree)
  heredoc_line

theorem error_here : configFileError asciiClass "a = 1\nb = 1 + 2\nd = 4\n".toList = some (.code "b = 1 + 2\nd = 4\n".toList eofKind) := rfl

example := c83_error_position asciiClass _ _ error_here

example := c83_error_splits asciiClass _ _ error_here

example := c83_position_behind_document asciiClass exampleDoc "b = [".toList exampleTree parse_exampleDoc

/-! ## `Props/LineEnds` -/

example := c82_crlf_is_read asciiClass exampleDoc exampleTree (by decide +kernel) parse_exampleDoc

example := c82_crlf_same_tree asciiClass "a = [\n1]\nb {\nc = \"x\"\n}\n".toList
  [.attribute (.borrowed ['a']) (.tuple [.number one]), .block (.borrowed ['b']) [] [.attribute (.borrowed ['c']) (.string (.ownedS ['x']))]]
  (by decide +kernel) (by decide +kernel)
  (by intro l hl; simp [exprLeaves, tupleLeaves, elementLeaves, bodyLeaves] at hl; rcases hl with rfl | rfl | rfl | rfl | rfl <;> simp [NoLf]; decide)

example := c82_mixed_line_ends asciiClass "a=1\nb=1\n".toList "a=1\nb=1\r\n".toList
  [.attribute (.borrowed ['a']) (.number one), .attribute (.borrowed ['b']) (.number one)] (by decide +kernel) (by decide +kernel)
  (.same _ _ _ (.same _ _ _ (.same _ _ _ (.same _ _ _ (.same _ _ _ (.same _ _ _ (.same _ _ _ (.cr _ _ .nil))))))))
  (by decide +kernel)

example := c82_accepted_iff asciiClass exampleDoc (by decide +kernel) (by decide +kernel)

example := c82_expression asciiClass "[1,\n<<E\nx\nE\n]".toList (by decide +kernel)

/-! ## `Props/Errors` -/

example := c54_specific_error_iff (ι := Str) (fun _ => []) some (fun _ => []) (.failure (.list [(['u'], .other ['T']), (['x'], .custom 0)]))
  (.invalidUnicodeCodePoint ['x']) (by intro s h; cases h)

example := c54_instances (fun _ => []) (fun _ => []) (fun _ => []) (.failure (.code ['x'] (.custom 2))) (.failure (.code [120] (.custom 2)))
  (.invalidNumber ['x']) (by intro s h; cases h)

/-! ## `Props/EscapeErrors` -/

example := c75_reported_text_follows_a_bad_backslash asciiClass (fun _ => none) "a = [1, \"x\\q\"]".toList "q\"]".toList none
  (.inl (by decide +kernel))

/-! ## `Props/Calls` -/

example := c73_calls_at_least_size asciiClass (fun _ => none) "a {\nb = [1, 2]\n}\n".toList
  (.unmerged [(.identifier (.borrowed ['a']), .object [.unmerged [(.identifier (.borrowed ['b']), .list [.integer 1, .integer 2])]])])
  (by decide +kernel)

example := c73_accepted_texts_linear asciiClass (fun _ => none) "a {\nb = [1, 2]\n}\n".toList none
  (.unmerged [(.identifier (.borrowed ['a']), .object [.unmerged [(.identifier (.borrowed ['b']), .list [.integer 1, .integer 2])]])])
  (by decide +kernel)

/-! ## `Props/Refused` -/

example := c85_value_begins asciiClass " ([1])".toList (.tuple [.number one]) (by decide +kernel)

/-! ## `Props/Sources` -/

example := c18_parse_slice_invalid asciiClass [0x61, 0xC0, 0x80] (by
  intro s h
  have h1 : fromUtf8 [0x61, 0xC0, 0x80] = none := by decide +kernel
  rw [h, fromUtf8_utf8] at h1
  cases h1)

example := c51_borrowed_strings_are_slices asciiClass "a = <<E\nx\nE\n".toList _ (.borrowed ['x']) heredoc_line
  (by simp [exprLeaves, elementLeaves, bodyLeaves]) rfl

example := c19_everything_owned exampleTree (.name (.ownedS ['a'])) (.head _)

/-! ## `Props/Slices` -/

example := c84_texts_are_slices asciiClass exampleDoc exampleTree parse_exampleDoc

example := c84_borrowed_is_part asciiClass exampleDoc exampleTree parse_exampleDoc (.borrowed ['m']) (by decide +kernel) rfl

example := c84_size asciiClass exampleDoc exampleTree parse_exampleDoc

example := c84_slices_positions _ _ (c84_texts_are_slices asciiClass exampleDoc exampleTree parse_exampleDoc) 0 1 (by decide)
  (by decide +kernel) (by decide +kernel) (by decide +kernel)

example := c84_legacy_texts_are_slices asciiClass (fun _ => none) "a = \"x\", \"b\" = 1\n".toList
  [(.identifier (.borrowed ['a']), .string ['x']), (.string (.ownedS ['b']), .integer 1)] (by decide +kernel)

example := c84_legacy_size asciiClass (fun _ => none) "a = \"x\", \"b\" = 1\n".toList
  [(.identifier (.borrowed ['a']), .string ['x']), (.string (.ownedS ['b']), .integer 1)] (by decide +kernel)

/-! ## `Props/Search` -/

example := c55_earliest_match (tag ['老']) (by intro s; unfold tag; split <;> exact ⟨nofun, nofun⟩) "Lö老x".toList ['x'] "Lö".toList ['老']

example := c55_no_match (tag ['老']) (by intro s; unfold tag; split <;> exact ⟨nofun, nofun⟩) "Lö老x".toList

/-! ## `Props/Pieces` -/

example := c87_heredoc_end asciiClass "\n  E\nx".toList "\nx".toList ⟨['E'], true⟩ (by decide) (by unfold MarkerChar; decide) 2

example := c87_body asciiClass "a = 1\n)".toList ")".toList [.attribute (.borrowed ['a']) (.number one)] (by decide +kernel)

theorem brace_not_quote : ∀ t, SkipInline "{".toList t → ¬ Head (· = '"') t := by
  intro t ht
  have : t = "{".toList := si_funct ht (skipInline_eval (by decide +kernel))
  subst this
  rintro ⟨c, u, h, rfl⟩; simp at h

example := c87_block_labels asciiClass "a \"b\" {".toList "{".toList [.identifier (.borrowed ['a']), .stringLiteral ['b']] brace_not_quote

example := c87_body_iff asciiClass "a = 1\n)".toList ")".toList [.attribute (.borrowed ['a']) (.number one)]
  (by rintro ⟨c, t, e, h⟩; cases e; exact not_identStart (by decide) (by decide) h)

/-! ## `Props/Cli` -/

/-- the input of `oneFile` -/
theorem parsed_one : Parsed asciiClass zeroFloats calm oneFile ['i'] false (.merged [(.identifier (.ownedS ['a']), .integer 1)]) := by
  refine ⟨['a', '=', '1'], .merged [(.identifier (.borrowed ['a']), .integer 1)], ?_, .inr ⟨rfl, by decide +kernel⟩, rfl⟩
  refine .file _ [97, 61, 49] _ (by decide) rfl rfl ?_
  rw [show utf8 ['a', '=', '1'] = [97, 61, 49] by decide]
  rw [delivers_iff]
  rfl

/-- a file that does not exist -/
example (render : MapValues → List Nat) := c53_nothing_written_unless_parsed asciiClass zeroFloats calm render oneFile ['j'] ['o'] false (by
  rintro ⟨m, s, m', h, -⟩
  cases h with
  | file _ _ _ _ h => cases h)

/-- a disk that is full after two bytes -/
abbrev full : Os := ⟨fun _ => true, fun _ c => [.data c], fun _ => true, fun _ _ => some 2⟩

theorem parsed_full : Parsed asciiClass zeroFloats full oneFile ['i'] false (.merged [(.identifier (.ownedS ['a']), .integer 1)]) := by
  refine ⟨['a', '=', '1'], .merged [(.identifier (.borrowed ['a']), .integer 1)], ?_, .inr ⟨rfl, by decide +kernel⟩, rfl⟩
  refine .file _ [97, 61, 49] _ (by decide) rfl rfl ?_
  rw [show utf8 ['a', '=', '1'] = [97, 61, 49] by decide]
  rw [delivers_iff]
  rfl

example := c53_failed_output asciiClass zeroFloats full (fun _ => [1, 2, 3, 4]) oneFile ['i'] ['o'] false _ parsed_full _ _ rfl
  (by decide +kernel)

example (render : MapValues → List Nat) (showErr : CliErr → List Nat) :=
  c53_unknown_command asciiClass zeroFloats calm render oneFile showErr "check".toList none (.inr rfl)

/-! ## the rest of `Props/EscapeErrors`, `Props/Refused` and `Props/Sources` -/

/-- the value of an attribute -/
theorem at_value' : BodyAt asciiClass .expression "a = \"x\\q\"".toList "\"x\\q\"".toList :=
  .attribute _ "a = \"x\\q\"".toList _ (skipLayout_eval (by decide +kernel))
    (.mk _ ['a'] " = \"x\\q\"".toList " \"x\\q\"".toList "\"x\\q\"".toList _ (ident_eval (by decide +kernel))
      (skipInline_eval (by decide +kernel)) (skipInline_eval (by decide +kernel)) (.here _))

theorem escape_error : EscapeErrorAt .expression "\"x\\q\"".toList "q\"".toList := by
  obtain ⟨-, h⟩ := c75_reported_text_follows_a_bad_backslash asciiClass zeroFloats "a = \"x\\q\"".toList "q\"".toList none
    (.inl (by decide +kernel))
  exact ⟨by decide, ['x'], ['x'], by decide, .plain _ _ _ _ (by unfold Plain; decide) (.nil _), h⟩

example := c75_reported_text_unique asciiClass _ _ _ _ _ _ _ at_value' escape_error at_value' escape_error

/-- a position in a document that is accepted -/
theorem at_good : BodyAt asciiClass .expression "a = \"x\"".toList "\"x\"".toList :=
  .attribute _ "a = \"x\"".toList _ (skipLayout_eval (by decide +kernel))
    (.mk _ ['a'] " = \"x\"".toList " \"x\"".toList "\"x\"".toList _ (ident_eval (by decide +kernel))
      (skipInline_eval (by decide +kernel)) (skipInline_eval (by decide +kernel)) (.here _))

example := c75_no_invalid_escape_in_a_document asciiClass "a = \"x\"".toList "\"x\"".toList ['q'] [.attribute (.borrowed ['a'])
  (.string (.ownedS ['x']))] .expression ((parseStr_iff (U := asciiClass)).1 (by decide +kernel)) at_good

example := c85_one_value asciiClass ['a'] [' '] [' '] ['1'] [' '] "+ 2".toList (.number one) [] idA blank blank blank (by decide +kernel)
  (by decide) (not_starts_inline (not_starts_layout (by decide)))
  (by
    rintro ⟨i, q, hi, e⟩
    obtain ⟨d, q', e', hd⟩ := newlineItem_head_layout (t := q) hi
    rw [e'] at e
    cases e
    revert hd; decide)
  (notLonger_of (by show ¬ Head _ (' ' :: _); rw [head_cons]; decide))

example := c18_parse_reader_fails asciiClass [.data [0x61], .error] (.inl ((delivers_iff).2 rfl))

end Verif.Witness
