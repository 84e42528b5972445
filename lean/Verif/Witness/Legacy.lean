import Verif.Witness.Base
import Verif.Props.OldEmbedIff
import Verif.Props.OldLineEnds
import Verif.Props.OldErrorAt
import Verif.Props.Agree
import Verif.Props.Containers
/-! # Concrete cases: the legacy parser -/
set_option autoImplicit false

namespace Verif.Witness
open Verif Spec Verif.Props

/-- two layouts of the same entries -/
def laidEntries : List (Key × Value) :=
  [(.identifier (.borrowed ['a']), .list [.integer 1, .object [.unmerged [(.string (.ownedS ['b']), .integer 2)]]]),
    (.identifier (.borrowed ['c']), .block (.unmerged [([['y']], .unmerged [(.identifier (.borrowed ['d']), .null)])]))]

/-- the first is read -/
theorem laid₁_ok : fromStr asciiClass zeroFloats oldLaid₁ none = .ok (.unmerged laidEntries) := by decide +kernel
/-- and the second -/
theorem laid₂_ok : fromStr asciiClass zeroFloats oldLaid₂ none = .ok (.unmerged laidEntries) := by decide +kernel

/-- a text that is not a document -/
def noDoc : Str := "x = 1 + 2".toList

/-- it is not in the grammar -/
theorem noDoc_not : ¬ ∃ es, OldDocument asciiClass zeroFloats noDoc es := by
  rintro ⟨es, h⟩
  have := (c21_from_str_accepts_exactly_the_grammar asciiClass zeroFloats noDoc (.unmerged es)).2 ⟨es, rfl, h⟩
  rw [show fromStr asciiClass zeroFloats noDoc none = .error .parse by decide +kernel] at this
  cases this

/-- a number that is not an integer -/
theorem notInt : ¬ ∃ k, IntLit "-1.5e3".toList k ∧ InI64 k := by
  rintro ⟨k, h⟩
  have := (c32_integer asciiClass zeroFloats ['a'] _ _ k idA isNegFloat).2 h
  rw [show fromStr asciiClass zeroFloats (['a'] ++ '=' :: "-1.5e3".toList) none =
    .ok (.unmerged [(.identifier (.borrowed ['a']), .float ⟨0⟩)]) by decide +kernel] at this
  cases this

/-- `1` is an integer -/
theorem lit1 : IntLit ['1'] 1 ∧ InI64 1 :=
  (c32_integer asciiClass zeroFloats ['a'] _ _ 1 idA isOne).1 (by decide +kernel)

/-- an attribute with an integer -/
theorem attr_ok : fromStr asciiClass zeroFloats "x = 1\ny = [2]".toList none =
    .ok (.unmerged [(.identifier (.borrowed ['x']), .integer 1), (.identifier (.borrowed ['y']), .list [.integer 2])]) := by decide +kernel

example := c21_entries_unique asciiClass zeroFloats oldDoc _ _ oldDoc_in_grammar oldDoc_in_grammar
example := c21_rejects_everything_else asciiClass zeroFloats noDoc (some .error) noDoc_not
example := c21_from_str_merging asciiClass zeroFloats oldDoc _ oldDoc_in_grammar
example := c02_from_str_appended_text_is_never_ignored asciiClass zeroFloats oldDoc "b = 1".toList oldDocEntries
  (oldDocEntries ++ [(.identifier (.borrowed ['b']), .integer 1)]) parse_oldDoc
  (fun u h => by
    have := sl_funct h (skipLayout_eval (s := "b = 1".toList) (r := "b = 1".toList) (by decide +kernel))
    cases this)

/-- an indented heredoc whose line is shorter than its indentation -/
def badHere : Str := "a = <<-EOF\n\n  EOF\n".toList
/-- it makes the parser panic -/
theorem badHere_panics (merge : Option MergeBehaviour) (hm : merge = none ∨ merge = some .error) :
    fromStr asciiClass zeroFloats badHere merge = .panic := by
  rcases hm with rfl | rfl <;> decide +kernel

example := c04_from_str_panics_only_on_bad_indented_heredoc asciiClass zeroFloats badHere (some .error) (.inr rfl) (badHere_panics _ (.inr rfl))
example := c04_from_str_unimplemented_merge_panics_exactly asciiClass zeroFloats badHere .takeFirst (by decide)
example := c22_nothing_merged asciiClass zeroFloats oldDoc _ parse_oldDoc
example := c22_attribute asciiClass zeroFloats ['a'] "[1, {\"b\" = 2,}]".toList
  (.list [.integer 1, .object [.unmerged [(.string (.ownedS ['b']), .integer 2)]]]) idA
  (singleValue_iff.1 (by decide +kernel)) (not_starts_inline (not_starts_layout (by decide)))
example := c32_integer asciiClass zeroFloats ['a'] "-1.5e3".toList _ 4 idA isNegFloat
example := c32_float asciiClass zeroFloats ['a'] "-1.5e3".toList _ ⟨0⟩ idA isNegFloat notInt rfl
example := c32_integers_in_range asciiClass zeroFloats oldDoc _ parse_oldDoc (-7) (by decide +kernel)
example := c32_floats_are_read asciiClass zeroFloats oldDoc _ parse_oldDoc ⟨0⟩ (by decide +kernel)
example := c33_otherwise_the_parse_error asciiClass zeroFloats noDoc noDoc_not .takeFirst
example := c33_panics_on_documents asciiClass zeroFloats oldDoc _ oldDoc_in_grammar .takeFirst (by decide)

/-- the merged example document is what the parser gives -/
theorem merged_doc : ∃ m, fromStr asciiClass zeroFloats oldLaid₁ (some .error) = .ok (.merged m) ∧ m.length = 2 :=
  ⟨[(.identifier (.borrowed ['a']), .list [.integer 1, .object [.merged [(.string (.ownedS ['b']), .integer 2)]]]),
    (.identifier (.borrowed ['c']), .block (.merged [([['y']], .merged [(.identifier (.borrowed ['d']), .null)])]))], by decide +kernel⟩

/-- keys are unique in it -/
theorem merged_unique : UniqueKeys (.map (.merged merged_doc.choose)) :=
  c19_from_str_valid asciiClass zeroFloats oldLaid₁ (some .error) _ merged_doc.choose_spec.1

example := c19_map_as_owned _ merged_unique
example := c19_value_as_owned (.object [.merged merged_doc.choose]) (by
  refine ⟨fun m h => ?_, fun m h => ?_⟩ <;> (
    cases h with | step _ y _ hc hi => ?_
    cases hc with | object _ m' hm => ?_
    simp only [List.mem_singleton] at hm
    subst hm)
  · exact merged_unique.1 m hi
  · exact merged_unique.2 m hi)
example := c29_from_str_keys_unique asciiClass zeroFloats oldLaid₁ (some .error) _ merged_doc.choose_spec.1

example := c18_from_slice_invalid asciiClass zeroFloats [0x61, 0xff] none (by
  intro s h
  have h1 : fromUtf8 [0x61, 0xff] = none := by decide +kernel
  rw [h, fromUtf8_utf8] at h1
  cases h1)
example := c18_from_reader_fails asciiClass zeroFloats [.data [0x61], .error] none (.inl ((delivers_iff).2 rfl))
example := c34_borrow_keys (.merged [([['a']], .unmerged []), ([['b'], ['c']], .merged [])]) (by
  intro m e; cases e; decide)

/-! ## Places in a document -/

/-- a document with a block -/
def placeDoc : Str := "a \"b\" {\n x = [1, true], y = 3\n}\n".toList

example := c89_legacy_value_in_place asciiClass zeroFloats
  ⟨[], .identifier (.borrowed ['a']), .inBlock [['b']] [] (.identifier (.borrowed ['x'])) (.item [.integer 1] .here [])
      [(.identifier (.borrowed ['y']), .integer 3)], []⟩ (.boolean true) ⟨by simp, by simp⟩ placeDoc (by decide +kernel)
example := c89_legacy_entries_in_place asciiClass zeroFloats
  (.inBlock [] (.identifier (.borrowed ['a'])) [['b']]
      (.between [(.identifier (.borrowed ['x']), .list [.integer 1, .boolean true])] []) [])
  [(.identifier (.borrowed ['y']), .integer 3)] placeDoc (.inr ⟨"a \"b\" {\n x = [1, true], y = 3\n}".toList, by decide +kernel⟩)
  (by decide +kernel)

/-- a label -/
theorem oneLabel : LaidOldLabels [['l']] " \"l\"".toList :=
  .cons [' '] ['l'] ['l'] [] [] blank (.plain _ _ _ _ (by unfold PlainLine; decide) (.nil _)) .nil

/-- a key in quotes -/
theorem quotedKey : LaidOldKey asciiClass (.string (.ownedS ['k'])) "\"k\"".toList :=
  .string ['k'] ['k'] (.plain _ _ _ _ (by unfold PlainLine; decide) (.nil _))

example := c81_legacy_line_end asciiClass zeroFloats oldDoc _ parse_oldDoc
example := c81_legacy_lines asciiClass zeroFloats [(oldDoc, oldDocEntries), (oldLaid₁, laidEntries)] (by
  intro d hd
  simp only [List.mem_cons, List.not_mem_nil, or_false] at hd
  rcases hd with rfl | rfl
  · exact parse_oldDoc
  · exact laid₁_ok)
example := c81_legacy_in_block asciiClass zeroFloats ['a'] _ [' '] _ _ _ idA oneLabel (by simp) blankL attr_ok
example := c81_legacy_in_map asciiClass zeroFloats ['a'] [' '] _ _ idA blankL attr_ok
example := c81_legacy_in_object asciiClass zeroFloats _ [' '] "/*x*/\t".toList _ _ _ quotedKey blank comment attr_ok
example := c81_legacy_block asciiClass zeroFloats ['a'] _ [' '] "x = 1".toList _ idA oneLabel (by simp) blankL
example := c81_legacy_object asciiClass zeroFloats _ _ [' '] [' '] "x = 1".toList quotedKey blank blank

/-- a text does not start with a comma -/
theorem noComma : ¬ StartsWithComma "y = 1 + 2".toList := by
  rintro ⟨l, z, hl, e⟩
  cases hl with
  | nil => cases e
  | cons i r hi hr =>
    refine not_starts_layout (c := 'y') (t := " = 1 + 2".toList) (by decide) ⟨i, r ++ ',' :: z, hi, ?_⟩
    rw [List.append_assoc] at e
    exact e

example := c83_legacy_lines_in_front asciiClass zeroFloats "x = 1".toList "y = 1 + 2".toList [(.identifier (.borrowed ['x']), .integer 1)]
  (by decide +kernel) noComma
example := c83_legacy_document_in_front asciiClass zeroFloats "x = 1".toList "y = 1 + 2".toList [(.identifier (.borrowed ['x']), .integer 1)]
  (by decide +kernel) noComma
example := c83_legacy_error_splits asciiClass zeroFloats "a = 1, b {}\n c = 1 + 2\nd = 4\n".toList "c = 1 + 2\nd = 4\n".toList rfl
example := c83_legacy_error_position asciiClass zeroFloats "a = 1, b {}\n c = 1 + 2\nd = 4\n".toList "c = 1 + 2\nd = 4\n".toList rfl

example := c71_layout_never_matters asciiClass zeroFloats oldLaid₁ oldLaid₂ laidEntries
  ((c71_every_layout_is_read asciiClass zeroFloats _ _).1 laid₁_ok) ((c71_every_layout_is_read asciiClass zeroFloats _ _).1 laid₂_ok)
example := c71_value_layout asciiClass zeroFloats (.integer 1) ['1'] [' ', '#', 'c'] (.number _ _ _ isOne (.integer _ _ lit1.1 lit1.2))
  (by rintro c u ⟨⟩; unfold NumChar IsDig; decide)

/-! ## Line ends -/

/-- a document with several lines -/
def linesDoc : Str := "a = [1,\n2 # c\n]\nb \"l\" {\nc = \"t\"\n}\n".toList
/-- its entries -/
def linesEntries : List (Key × Value) := [(.identifier (.borrowed ['a']), .list [.integer 1, .integer 2]),
  (.identifier (.borrowed ['b']), .block (.unmerged [([['l']], .unmerged [(.identifier (.borrowed ['c']), .string ['t'])])]))]
/-- they are read -/
theorem linesDoc_ok : fromStr asciiClass zeroFloats linesDoc none = .ok (.unmerged linesEntries) := by decide +kernel

/-- no string in it has a line end -/
theorem linesOne : OneLineEntries linesEntries :=
  .cons _ _ _ (.list _ (.cons _ _ (.integer _) (.cons _ _ (.integer _) .nil)))
    (.cons _ _ _ (.block _ _ (.cons _ _ _ (.string _ (by decide)) .nil)) .nil)

example := c82_legacy_crlf_is_read asciiClass zeroFloats linesDoc _ (by decide) linesDoc_ok
example := c82_legacy_crlf_same_values asciiClass zeroFloats linesDoc _ (by decide) linesDoc_ok linesOne
example := c82_legacy_mixed_line_ends asciiClass zeroFloats "a = 1\nb = 2\n".toList "a = 1\r\nb = 2\n".toList
  [(.identifier (.borrowed ['a']), .integer 1), (.identifier (.borrowed ['b']), .integer 2)] (by decide) (by
    decide +kernel)
  (.same _ _ _ (.same _ _ _ (.same _ _ _ (.same _ _ _ (.same _ _ _ (.cr _ _ (.same _ _ _ (.same _ _ _ (.same _ _ _ (.same _ _ _ (.same _ _ _
    (.same _ _ _ .nil)))))))))))) (by decide +kernel)
example := c85_legacy_templates_are_text asciiClass zeroFloats ['a'] "${b}".toList idA (by decide)

end Verif.Witness
