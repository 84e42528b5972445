import Verif.Proofs.Incomplete
import Verif.Proofs.Decide
/-!
# C95 Asking for more input

The parsers run on complete texts, but nom's parser of line ends answers `Incomplete` where the text ends before the line does.
Combinators treat `Incomplete` differently from an error: `alt!`, `opt!` and `many0!` pass it on. Where it can come out of the
public parsers, and that it makes no other difference.
-/
set_option autoImplicit false

namespace Verif.Props
open Verif Spec

section
variable (U : CharClass) (s : Str)

/-- C95: what the parsers that can be `Incomplete` return is, otherwise, what the model used by all the other theorems says; and
where they are `Incomplete`, it says that there is no success. -/
theorem c95_incomplete_or_same :
    (hashCommentI s = .incomplete ∧ hashComment s = .err ∨ hashCommentI s = .done (hashComment s)) ∧
    (slashCommentI s = .incomplete ∧ slashComment s = .err ∨ slashCommentI s = .done (slashComment s)) ∧
    (heredocBeginI U s = .incomplete ∧ heredocBegin U s = .err ∨ heredocBeginI U s = .done (heredocBegin U s)) ∧
    (∀ h, heredocEndI h s = .incomplete ∧ heredocEnd h s = .err ∨ heredocEndI h s = .done (heredocEnd h s)) ∧
    (heredocStringI U s = .incomplete ∧ heredocString U s = .err ∨ heredocStringI U s = .done (heredocString U s)) ∧
    (stringI U s = .incomplete ∧ string U s = .err ∨ stringI U s = .done (string U s)) :=
  ⟨erase_cases (erase_hashComment s), erase_cases (erase_slashComment s), erase_cases (erase_heredocBegin s),
    fun h => erase_cases (erase_heredocEnd h s), erase_cases (erase_heredocString s), erase_cases (erase_string s)⟩

/-- C95: layout, line ends and `line_comment` are never `Incomplete`. -/
theorem c95_layout_never :
    lineCommentI s = .done (lineComment s) ∧ wsI s = .done (ws s) ∧ newlineI s = .done (newline s) := by
  rw [lineComment_lift, ws_lift, newline_lift]
  exact ⟨rfl, rfl, rfl⟩

/-- C95: an expression, and a value of the legacy grammar, is never `Incomplete`: whatever the nested parsers are, an unfinished
heredoc is an error there, and the alternatives after it are tried. -/
theorem c95_values_never (e : Parser Expr) (P : F64Parse) (v : Parser Value) (m : Parser MapValues) :
    exprStepI U e s = .done (exprStep U e s) ∧ valueStepI U P v m s = .done (valueStep U P v m s) := by
  rw [expr_lift, value_lift]
  exact ⟨rfl, rfl⟩

/-- C95: `hash_comment` and `slash_comment` ask for more exactly when the text ends before the line of the comment does (or
between `\r` and `\n`). -/
theorem c95_comments_iff :
    (hashCommentI s = .incomplete ↔ ∃ v e, s = '#' :: v ++ e ∧ (∀ c ∈ v, c ≠ '\r' ∧ c ≠ '\n') ∧ CutEnd e) ∧
    (slashCommentI s = .incomplete ↔ ∃ v e, s = '/' :: '/' :: v ++ e ∧ (∀ c ∈ v, c ≠ '\r' ∧ c ≠ '\n') ∧ CutEnd e) :=
  ⟨hashCommentI_incomplete, slashCommentI_incomplete⟩

/-- C95: `heredoc_begin` asks for more exactly when the text ends on the opening line, after a marker. -/
theorem c95_heredoc_begin_iff : heredocBeginI U s = .incomplete ↔
    ∃ (ind : Bool) (m e : Str), s = '<' :: '<' :: (if ind then ['-'] else []) ++ m ++ e ∧ m ≠ [] ∧
      (∀ c ∈ m, MarkerChar U c) ∧ CutEnd e := heredocBeginI_incomplete

/-- C95: `heredoc_end` asks for more exactly when the text ends before the closing line begins, or right after its marker. -/
theorem c95_heredoc_end_iff (h : HereDoc) (h1 : h.identifier ≠ []) (h2 : ∀ c ∈ h.identifier, MarkerChar U c) :
    heredocEndI h s = .incomplete ↔ CutEnd s ∨ CutTerminator h.identifier s :=
  heredocEndI_incomplete_iff h1 fun c hc => markerChar_not_blank (h2 c hc)

/-- C95: `heredoc_string` and `string` ask for more exactly when the text ends on the opening line, or on the closing line of an
*empty* heredoc. A heredoc with content whose closing line is cut off is an error instead. -/
theorem c95_string_iff :
    (heredocStringI U s = .incomplete ↔
      ∃ (ind : Bool) (m e : Str), s = '<' :: '<' :: (if ind then ['-'] else []) ++ m ++ e ∧ m ≠ [] ∧
        (∀ c ∈ m, MarkerChar U c) ∧ (CutEnd e ∨ CutTerminator m e)) ∧
    (stringI U s = .incomplete ↔ heredocStringI U s = .incomplete) :=
  ⟨heredocStringI_incomplete, stringI_incomplete⟩

/-- C95: none of these parsers asks for more on a text that ends with a line feed: it is enough to end every file with one. -/
theorem c95_final_newline (t : Str) (h : HereDoc) (h1 : h.identifier ≠ []) (h2 : ∀ c ∈ h.identifier, MarkerChar U c)
    (ht : s = t ++ ['\n']) :
    hashCommentI s ≠ .incomplete ∧ slashCommentI s ≠ .incomplete ∧ heredocBeginI U s ≠ .incomplete ∧
      heredocEndI h s ≠ .incomplete ∧ heredocStringI U s ≠ .incomplete ∧ stringI U s ≠ .incomplete := by
  have key : ∀ v e : Str, s = v ++ e → (∀ c ∈ v, c ≠ '\n') → ¬ CutEnd e := fun v e h3 h4 => cutEnd_final (ht ▸ h3) h4
  have mk : ∀ m : Str, (∀ c ∈ m, MarkerChar U c) → ∀ c ∈ m, c ≠ '\n' := fun m hm c hc => markerChar_not_nl (hm c hc)
  have hmn : ∀ (a m : Str), m ≠ [] → (∀ c ∈ m, MarkerChar U c) → ∀ e, s = a ++ m ++ e → ¬ CutEnd e := by
    intro a m hne hm e h3 hc
    rcases hc with rfl | rfl
    · have h5 := List.getLast?_append (l := a) (l' := m)
      have h6 : s.getLast? = some '\n' := by rw [ht]; simp
      rw [h3, List.append_nil, h5] at h6
      cases hl : m.getLast? with
      | none => exact hne (List.getLast?_eq_none_iff.1 hl)
      | some c =>
        rw [hl] at h6
        injection h6 with h6
        subst h6
        exact markerChar_not_nl (hm _ (List.mem_of_getLast? hl)) rfl
    · have h6 : s.getLast? = some '\n' := by rw [ht]; simp
      rw [h3] at h6
      simp at h6
  have hstr : heredocStringI U s ≠ .incomplete := by
    rw [ne_eq, heredocStringI_incomplete]
    rintro ⟨ind, m, e, h3, h4, h5, hc | ⟨v, b, e', hv, rfl, hb, hc⟩⟩
    · exact hmn _ m h4 h5 e h3 hc
    · refine hmn ('<' :: '<' :: (if ind then ['-'] else []) ++ m ++ v ++ b) m h4 h5 e' ?_ hc
      rw [h3]; simp
  refine ⟨?_, ?_, ?_, ?_, hstr, ?_⟩
  · rw [ne_eq, hashCommentI_incomplete]
    rintro ⟨v, e, h3, h4, hc⟩
    refine key ('#' :: v) e h3 ?_ hc
    intro c hc; rcases List.mem_cons.1 hc with rfl | hc
    · decide
    · exact (h4 c hc).2
  · rw [ne_eq, slashCommentI_incomplete]
    rintro ⟨v, e, h3, h4, hc⟩
    refine key ('/' :: '/' :: v) e h3 ?_ hc
    intro c hc; rcases List.mem_cons.1 hc with rfl | hc
    · decide
    · rcases List.mem_cons.1 hc with rfl | hc
      · decide
      · exact (h4 c hc).2
  · rw [ne_eq, heredocBeginI_incomplete]
    rintro ⟨ind, m, e, h3, h4, h5, hc⟩
    exact hmn _ m h4 h5 e h3 hc
  · rw [ne_eq, c95_heredoc_end_iff U s h h1 h2]
    rintro (hc | ⟨v, b, e', hv, h3, hb, hc⟩)
    · exact key [] s rfl (by simp) hc
    · exact hmn (v ++ b) _ h1 h2 e' h3 hc
  · rw [ne_eq, stringI_incomplete]; exact hstr

end

/-! ## witnesses -/

example : hashCommentI "# a".toList = .incomplete ∧ hashCommentI "# a\r".toList = .incomplete ∧
    hashCommentI "# a\n".toList = .done (.ok [] " a".toList) ∧ hashCommentI "# a\rb".toList = .done .err := by
  decide +kernel

example : lineCommentI "# a".toList = .done .err := (c95_layout_never _).1.trans (by decide +kernel)

/-- An empty heredoc at the end of the text asks for more; one with content does not. -/
example : heredocStringI asciiClass "<<E\nE".toList = .incomplete ∧ heredocStringI asciiClass "<<E\na\nE".toList = .done .err ∧
    heredocStringI asciiClass "<<E".toList = .incomplete := by
  decide +kernel

example : stringI asciiClass "<<-E\r\n  E\r".toList = .incomplete :=
  (c95_string_iff asciiClass _).2.2 ((c95_string_iff asciiClass _).1.2
    ⟨true, ['E'], "\r\n  E\r".toList, rfl, by simp, by intro c hc; simp at hc; subst hc; exact .inl rfl,
      .inr ⟨"\r\n".toList, "  ".toList, ['\r'], .crlf, rfl, by decide, .inr rfl⟩⟩)

example : heredocEndI ⟨['E'], false⟩ "\n E".toList = .incomplete :=
  (c95_heredoc_end_iff asciiClass _ ⟨['E'], false⟩ (by simp) (by intro c hc; simp at hc; subst hc; exact .inl rfl)).2
    (.inr ⟨['\n'], [' '], [], .lf, rfl, by decide, .inl rfl⟩)

example : heredocStringI asciiClass "<<E\nE\n".toList ≠ .incomplete :=
  (c95_final_newline asciiClass _ "<<E\nE".toList ⟨['E'], false⟩ (by simp) (by intro c hc; simp at hc; subst hc; exact .inl rfl)
    rfl).2.2.2.2.1

end Verif.Props
