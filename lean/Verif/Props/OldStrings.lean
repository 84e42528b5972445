import Verif.Proofs.OldStuck
import Verif.Props.OldRefused
import Verif.Props.Strings
/-! # C06 and C07 for the legacy parser -/
set_option autoImplicit false

namespace Verif.Props
open Verif Spec PRes

section
variable (U : CharClass) (P : F64Parse)

/-- C06 for the value parser: a legacy document in which a quoted string, at any position where a value, a string key or a label is
expected, contains an invalid escape is rejected, whatever follows and whatever the merge behaviour. -/
theorem c06_from_str_bad_escape_rejects (k : Kind) (s u : Str) (hat : EntriesAt U P k s u) (hu : BadEscape u)
    (merge : Option MergeBehaviour) (m : MapValues) : fromStr U P s merge ≠ .ok m := by
  intro h
  obtain ⟨es, hd⟩ := fromStr_document h
  exact entriesAt_stuck hat (BadEscape.stuck hu k) es [] (.inl rfl) hd

/-- C06: which escapes are invalid, 4: a backslash at the end of the text. -/
theorem c06_lone_backslash (src v : Str) (hsrc : Content Plain src v ['\\']) : BadEscape ('"' :: src ++ ['\\']) := by
  refine ⟨src, v, [], rfl, hsrc, ?_⟩
  rintro ⟨e, c, r, he, h⟩
  obtain ⟨rfl, rfl⟩ := List.append_eq_nil_iff.1 he.symm
  cases h with
  | octal _ _ _ h1 => exact h1 rfl

/-- C07, in legacy documents: a quoted key or label broken over two lines makes the document invalid, whatever precedes and follows
it. -/
theorem c07_from_str_multiline_rejected (s src v r : Str) (hat : EntriesAt U P .label s ('"' :: src ++ '"' :: r))
    (hc : Content Plain src v ('"' :: r)) (hn : ∃ d ∈ src, d = '\r' ∨ d = '\n') (merge : Option MergeBehaviour) (m : MapValues) :
    fromStr U P s merge ≠ .ok m := by
  intro h
  obtain ⟨es, hd⟩ := fromStr_document h
  refine entriesAt_stuck hat ⟨⟨_, rfl⟩, ?_⟩ es [] (.inl rfl) hd
  intro v' r' hq
  obtain ⟨src', e, hs, hc'⟩ := c07_string_literal_is_single_line _ _ _ (stringLiteral_iff.2 hq)
  have h1 := quotedString_iff.2 ⟨src, rfl, hc⟩
  have h2 := quotedString_iff.2 ⟨src', e, content_mono (fun c h => ⟨h.1, h.2.1⟩) hc'⟩
  rw [h1] at h2
  injection h2 with h2 _; subst h2
  have : src = src' := by simpa using e
  subst this
  obtain ⟨d, hd, hn⟩ := hn
  have := hs d hd
  rcases hn with rfl | rfl <;> simp at this

end

end Verif.Props
