import Verif.Proofs.OldEdit
/-! # C89 for the legacy parser -/
set_option autoImplicit false

namespace Verif.Props
open Verif Spec

variable (U : CharClass) (P : F64Parse)

/-- C89: every value of a legacy document (other than objects and blocks, which may be written without `=`) has its piece of
the text. With another value's text there, the document is the same except for that value. -/
theorem c89_legacy_value_in_place (p : OldDocPlace) (v : Value) (hv : NeedsEquals v) (s : Str)
    (h : fromStr U P s none = .ok (.unmerged (p.fill v))) :
    ∃ pre x post, s = pre ++ x ++ post ∧ OldWrittenBefore U P x v post ∧
      ∀ x' v', OldWrittenBefore U P x' v' post → fromStr U P (pre ++ x' ++ post) none = .ok (.unmerged (p.fill v')) := by
  obtain ⟨pre, x, post, hx, rfl, h1, h2, h3⟩ := ospan_document p v hv ((c71_every_layout_is_read U P _ _).1 h)
  have h2 := h2 [] (.none _)
  rw [List.append_nil] at h2
  refine ⟨pre, x, post, rfl, ⟨hx, h1, h2.next⟩, fun x' e' h4 => ?_⟩
  obtain ⟨h', h5, h6⟩ := h4
  obtain ⟨h'', h7, h8⟩ := h3 h' e' x' [] h5 ⟨by simpa using h6, laidValue_eol h5⟩
  refine (c71_every_layout_is_read U P _ _).2 (h8 ?_)
  cases h'' with
  | none => rfl
  | some y =>
    have h9 := h7.1 y rfl
    have h10 := h7.2 y rfl
    cases h10 <;> simp at h9

/-- C89: neighbouring entries of a legacy document of complete lines, or of an object or block in it, have their piece of the
text; with the lines of another document there, the document is the same except for these entries; deleting the piece
deletes them. -/
theorem c89_legacy_entries_in_place (p : EntriesPlace) (es : List (Key × Value)) (s : Str) (hs : WholeLines s)
    (h : fromStr U P s none = .ok (.unmerged (p.fill es))) :
    ∃ pre x post, s = pre ++ x ++ post ∧ fromStr U P x none = .ok (.unmerged es) ∧
      fromStr U P (pre ++ post) none = .ok (.unmerged (p.fill [])) ∧
      ∀ y es', WholeLines y → fromStr U P y none = .ok (.unmerged es') →
        fromStr U P (pre ++ y ++ post) none = .ok (.unmerged (p.fill es')) := by
  obtain ⟨pre, x, post, h1, h2, h3⟩ := entries_body p (laidOldDocument_of_lines hs ((c71_every_layout_is_read U P _ _).1 h))
  refine ⟨pre, x, post, h1, (c71_every_layout_is_read U P _ _).2 (.lines _ _ h2), ?_, fun y es' hy hp => ?_⟩
  · have := (c71_every_layout_is_read U P _ _).2 (.lines _ _ (h3 [] [] (.done _ .nil)))
    simpa using this
  · exact (c71_every_layout_is_read U P _ _).2
      (.lines _ _ (h3 es' y (laidOldDocument_of_lines hy ((c71_every_layout_is_read U P _ _).1 hp))))

/-- Non-vacuity of C89 for the legacy parser: a value in a list in a block in a document with a comma between entries. -/
example : ∃ (p : OldDocPlace) (q : EntriesPlace) (v : Value) (es : List (Key × Value)), NeedsEquals v ∧ es ≠ [] ∧
    WholeLines "a \"b\" {\n x = [1, true], y = 3\n}\n".toList ∧
    fromStr asciiClass zeroFloats "a \"b\" {\n x = [1, true], y = 3\n}\n".toList none = .ok (.unmerged (p.fill v)) ∧
    fromStr asciiClass zeroFloats "a \"b\" {\n x = [1, { k = 1\n }], y = 3\n}\n".toList none =
      .ok (.unmerged (p.fill (.object [.unmerged [(.identifier (.borrowed ['k']), .integer 1)]]))) ∧
    q.fill es = p.fill v ∧
    fromStr asciiClass zeroFloats "a \"b\" {\n x = [1, true], }\n".toList none = .ok (.unmerged (q.fill [])) := by
  refine ⟨⟨[], .identifier (.borrowed ['a']), .inBlock [['b']] [] (.identifier (.borrowed ['x'])) (.item [.integer 1] .here [])
      [(.identifier (.borrowed ['y']), .integer 3)], []⟩,
    .inBlock [] (.identifier (.borrowed ['a'])) [['b']]
      (.between [(.identifier (.borrowed ['x']), .list [.integer 1, .boolean true])] []) [],
    .boolean true, [(.identifier (.borrowed ['y']), .integer 3)], ⟨by simp, by simp⟩, by simp,
    .inr ⟨"a \"b\" {\n x = [1, true], y = 3\n}".toList, by decide +kernel⟩, by decide +kernel, by decide +kernel, rfl, by decide +kernel⟩

end Verif.Props
