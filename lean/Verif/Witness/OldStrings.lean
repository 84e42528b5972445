import Verif.Props.OldStrings
import Verif.Witness.Document
/-! # Legacy documents: cases that meet the hypotheses of C06 and C07 -/
set_option autoImplicit false

namespace Verif.Props
open Verif Spec PRes

section
variable (P : F64Parse)

/-- `k = [null, "x\q"` -/
theorem old_at_value : EntriesAt asciiClass P .expression "k = [null, \"x\\q\"".toList "\"x\\q\"".toList :=
  .entry _ "k = [null, \"x\\q\"".toList _ (skipLayout_eval (by decide +kernel))
    (.attribute _ " = [null, \"x\\q\"".toList " [null, \"x\\q\"".toList "[null, \"x\\q\"".toList _ _
      (.ident _ "k".toList _ (ident_eval (by decide +kernel))) (skipInline_eval (by decide +kernel)) (skipInline_eval (by decide +kernel))
      (.list _ _ (.next _ "null, \"x\\q\"".toList ", \"x\\q\"".toList " \"x\\q\"".toList _ .null (skipLayout_eval (by decide +kernel))
        (.null _) (skipLayout_eval (by decide +kernel))
        (.elem _ _ _ (skipLayout_eval (by decide +kernel)) (.here _)))))

example := c06_from_str_bad_escape_rejects asciiClass P .expression _ _ (old_at_value P)
  (c06_unknown_letter ['x'] ['x'] _ 'q' (.plain _ _ _ _ (by unfold Plain; decide) (.nil _)) (by decide) (by decide)) none

example : BadEscape "\"x\\".toList := c06_lone_backslash ['x'] ['x'] (.plain _ _ _ _ (by unfold Plain; decide) (.nil _))

/-- a quoted key with a line feed -/
theorem old_at_key : EntriesAt asciiClass P .label "\"x\n\" = 1".toList ('"' :: ['x', '\n'] ++ '"' :: " = 1".toList) :=
  .entry _ _ _ (skipLayout_eval (by decide +kernel)) (.key _)

example := c07_from_str_multiline_rejected asciiClass P _ _ _ _ (old_at_key P)
  (.plain _ _ ['\n'] _ (by unfold Plain; decide) (.plain _ _ [] _ (by unfold Plain; decide) (.nil _))) ⟨'\n', by simp, .inr rfl⟩ none

/-- a label with a line feed, in a second entry -/
theorem old_at_label : EntriesAt asciiClass P .label "a {}\nb \"x\n\" {}".toList ('"' :: ['x', '\n'] ++ '"' :: " {}".toList) :=
  .next _ "a {}\nb \"x\n\" {}".toList "\nb \"x\n\" {}".toList "b \"x\n\" {}".toList _ _ _ (skipLayout_eval (by decide +kernel))
    (.map _ "a".toList " {}\nb \"x\n\" {}".toList "}\nb \"x\n\" {}".toList "\nb \"x\n\" {}".toList _ [] (ident_eval (by decide +kernel))
      (skipLayout_eval (by decide +kernel)) (.done _ _ (skipLayout_eval (by decide +kernel))) (skipInline_eval (by decide +kernel)))
    (.newline _ _ (newlines_eval (by decide +kernel)))
    (.entry _ "b \"x\n\" {}".toList _ (skipLayout_eval (by decide +kernel))
      (.label _ "b".toList " \"x\n\" {}".toList " \"x\n\" {}".toList _ [] (ident_eval (by decide +kernel)) (.nil _)
        (skipInline_eval (by decide +kernel))))

example := c07_from_str_multiline_rejected asciiClass P _ _ _ _ (old_at_label P)
  (.plain _ _ ['\n'] _ (by unfold Plain; decide) (.plain _ _ [] _ (by unfold Plain; decide) (.nil _))) ⟨'\n', by simp, .inr rfl⟩ (some .error)

end

end Verif.Props
