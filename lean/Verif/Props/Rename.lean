import Verif.Proofs.OldRename
import Verif.Props.Sources
import Verif.Proofs.Print
import Verif.Proofs.Slices
import Verif.Proofs.Agree
/-!
# C93: renaming in place

Every name in a document - of an attribute, a block type, a label, a key of an object, at any depth - has its own piece of the
text. Writing another name there gives a text of the same document, except for that name.
-/
set_option autoImplicit false

namespace Verif.Props
open Verif Spec

variable (U : CharClass) (P : F64Parse)

/-- C93: every name has its piece of the text, and with the spelling of another name of the same kind there, the document is the
same except for that name. -/
theorem c93_name_in_place (p : DocName) (n s : Str) (h : parseStr U s = .ok (p.fill n)) :
    ∃ pre x post, s = pre ++ x ++ post ∧ p.place.Spells U n x ∧
      ∀ n' x', p.place.Spells U n' x' → parseStr U (pre ++ x' ++ post) = .ok (p.fill n') := by
  obtain ⟨pre, x, post, h1, h2, h3⟩ := named_document p n ((c15_every_layout_is_read U _ _).1 h)
  exact ⟨pre, x, post, h1, h2, fun n' x' h' => (c15_every_layout_is_read U _ _).2 (h3 n' x' h')⟩

/-- C93: the name of an attribute of a document stands in the text, and any other identifier may stand there instead. -/
theorem c93_attribute_renamed (a b : Body) (n : Str) (e : Expr) (s : Str) (h : parseStr U s = .ok (a ++ .attribute (.borrowed n) e :: b)) :
    ∃ pre post, s = pre ++ n ++ post ∧
      ∀ n', IsIdent U n' → parseStr U (pre ++ n' ++ post) = .ok (a ++ .attribute (.borrowed n') e :: b) := by
  obtain ⟨pre, x, post, h1, ⟨rfl, -⟩, h3⟩ := c93_name_in_place U ⟨a, .attribute e, b⟩ n s h
  exact ⟨pre, post, h1, fun n' h' => h3 n' n' ⟨rfl, h'⟩⟩

/-- C93: the same for the type of a block. -/
theorem c93_block_renamed (a b c : Body) (ls : List BlockLabel) (n : Str) (s : Str) (h : parseStr U s = .ok (a ++ .block (.borrowed n) ls c :: b)) :
    ∃ pre post, s = pre ++ n ++ post ∧
      ∀ n', IsIdent U n' → parseStr U (pre ++ n' ++ post) = .ok (a ++ .block (.borrowed n') ls c :: b) := by
  obtain ⟨pre, x, post, h1, ⟨rfl, -⟩, h3⟩ := c93_name_in_place U ⟨a, .blockType ls c, b⟩ n s h
  exact ⟨pre, post, h1, fun n' h' => h3 n' n' ⟨rfl, h'⟩⟩

/-- C93: the same for a key of an object in an expression. -/
theorem c93_key_in_place (p : KeyPlace) (n s : Str) (h : Expr.parse U s = .ok (p.fill n)) :
    ∃ pre x post, s = pre ++ x ++ post ∧ p.Spells U n x ∧
      ∀ n' x', p.Spells U n' x' → Expr.parse U (pre ++ x' ++ post) = .ok (p.fill n') := by
  obtain ⟨pre, x, post, h1, h2, h3⟩ := named_expr n p ((c15_every_expression_layout_is_read U _ _).1 h) rfl
  exact ⟨pre, x, post, h1, h2, fun n' x' h' => (c15_every_expression_layout_is_read U _ _).2 (h3 n' x' h')⟩

/-- C93: the same for documents of the legacy parser: identifier keys, string keys and labels, at any depth. -/
theorem c93_legacy_name_in_place (p : OldDocName) (n s : Str) (h : fromStr U P s none = .ok (.unmerged (p.fill n))) :
    ∃ pre x post, s = pre ++ x ++ post ∧ p.place.Spells U n x ∧
      ∀ n' x', p.place.Spells U n' x' → fromStr U P (pre ++ x' ++ post) none = .ok (.unmerged (p.fill n')) := by
  obtain ⟨pre, x, post, h1, h2, h3⟩ := named_oldDocument p n ((c71_every_layout_is_read U P _ _).1 h)
  exact ⟨pre, x, post, h1, h2, fun n' x' h' => (c71_every_layout_is_read U P _ _).2 (h3 n' x' h')⟩

/-- C93: the same for bytes. -/
theorem c93_bytes_name_in_place (p : DocName) (n : Str) (bytes : List Nat) (h : parseSlice U bytes = .ok (p.fill n)) :
    ∃ pre x post, bytes = pre ++ utf8 x ++ post ∧ p.place.Spells U n x ∧
      ∀ n' x', p.place.Spells U n' x' → parseSlice U (pre ++ utf8 x' ++ post) = .ok (p.fill n') := by
  obtain ⟨s, rfl, hs⟩ := (c18_parse_slice U bytes _).1 h
  obtain ⟨pre, x, post, rfl, h2, h3⟩ := c93_name_in_place U p n s hs
  refine ⟨utf8 pre, x, utf8 post, by simp [utf8_append], h2, fun n' x' h' => ?_⟩
  rw [← utf8_append, ← utf8_append, c18_parse_slice_of_text]
  exact h3 n' x' h'

/-- C93: a string label, or a string key of a legacy document, may become any string: in quotes, with escapes where needed. -/
theorem c93_any_string (n : Str) : QuotedName n (quoteLine n) := by
  obtain ⟨src, h1, h2⟩ := quoted_quoteLine n []
  exact ⟨src, by simpa using h1, h2⟩

/-- C93: conversely a quoted name says only one thing, so what is read is what was written. -/
theorem c93_string_once (n n' x : Str) (h : QuotedName n x) (h' : QuotedName n' x) : n = n' := by
  obtain ⟨src, e, h⟩ := h
  obtain ⟨src', e', h'⟩ := h'
  exact (quotedLine_funct (r := []) (r' := []) ⟨src, by simpa using e, h⟩ ⟨src', by simpa using e', h'⟩).1

end Verif.Props
