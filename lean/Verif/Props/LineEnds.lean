import Verif.Proofs.LineEndsDown
import Verif.Props.Laid
/-! # C82: CR LF line ends -/
set_option autoImplicit false

namespace Verif.Props
open Verif Spec

variable (U : CharClass)

/-- C82: with CR LF line ends instead of LF ones, a document is read as the same tree, but that CRs are put before LFs
inside strings (quoted strings, heredocs) and inside expressions used as object keys, which are kept as written. -/
theorem c82_crlf_is_read (s : Str) (b : Body) (hs : '\r' ∉ s) (h : parseStr U s = .ok b) :
    ∃ b', parseStr U (crlf s) = .ok b' ∧ MoreCrBody b b' := by
  obtain ⟨b', h1, h2⟩ := laidDocument_up ((c15_every_layout_is_read U s b).1 h) hs
  exact ⟨b', (c15_every_layout_is_read U _ _).2 h2, h1⟩

/-- C82: a document without line ends in strings is read as the same tree. -/
theorem c82_crlf_same_tree (s : Str) (b : Body) (hs : '\r' ∉ s) (h : parseStr U s = .ok b) (hb : ∀ l ∈ bodyLeaves b, NoLf l) :
    parseStr U (crlf s) = .ok b := by
  obtain ⟨b', h1, h2⟩ := c82_crlf_is_read U s b hs h
  rw [h1, moreCrBody_eq h2 hb]

/-- C82: conversely, if a text in which some (or all) line ends are CR LF is read, then so is the text with LF line ends,
unless there is an indented heredoc in it. -/
theorem c82_mixed_line_ends (s z : Str) (b' : Body) (hs : '\r' ∉ s) (hi : ¬ ['<', '<', '-'] <:+: s) (hz : MoreCr s z)
    (h : parseStr U z = .ok b') : ∃ b, parseStr U s = .ok b ∧ MoreCrBody b b' := by
  obtain ⟨b, h1, h2⟩ := laidDocument_down ((c15_every_layout_is_read U z b').1 h) (fit_moreCr hz hs hi)
  rw [delCr_moreCr hz hs] at h2
  exact ⟨b, (c15_every_layout_is_read U _ _).2 h2, h1⟩

/-- C82: so a document without indented heredocs is accepted with the one kind of line ends exactly if it is with the other. -/
theorem c82_accepted_iff (s : Str) (hs : '\r' ∉ s) (hi : ¬ ['<', '<', '-'] <:+: s) :
    (∃ b, parseStr U s = .ok b) ↔ ∃ b, parseStr U (crlf s) = .ok b := by
  constructor
  · rintro ⟨b, h⟩
    obtain ⟨b', h1, -⟩ := c82_crlf_is_read U s b hs h
    exact ⟨b', h1⟩
  · rintro ⟨b, h⟩
    obtain ⟨b', h1, -⟩ := c82_mixed_line_ends U s _ b hs hi (moreCr_crlf s) h
    exact ⟨b', h1⟩

/-- C82: the same for expressions on their own. -/
theorem c82_expression (s : Str) (hs : '\r' ∉ s) :
    (∀ e, Expr.parse U s = .ok e → ∃ e', Expr.parse U (crlf s) = .ok e' ∧ MoreCrExpr e e') ∧
    (¬ ['<', '<', '-'] <:+: s → ∀ e', Expr.parse U (crlf s) = .ok e' → ∃ e, Expr.parse U s = .ok e ∧ MoreCrExpr e e') := by
  simp only [c15_every_expression_layout_is_read]
  constructor
  · intro e h
    obtain ⟨e', h1, h2⟩ := laidExpr_up h hs (fun _ h => by cases h)
    exact ⟨e', h2, h1⟩
  · intro hi e' h
    obtain ⟨e, h1, h2⟩ := laidExpr_down h (by simpa using fit_crlf hs hi)
    rw [delCr_crlf hs] at h2
    exact ⟨e, h2, h1⟩

/-- Non-vacuity of C82: with a line end in a quoted string, an escaped one, and a heredoc. -/
example : ∃ b b', '\r' ∉ "a = \"x\ny\\nz\" # c\nb {\nc = <<E\nt\nu\nE\n}\n".toList ∧
    parseStr asciiClass "a = \"x\ny\\nz\" # c\nb {\nc = <<E\nt\nu\nE\n}\n".toList = .ok b ∧
    parseStr asciiClass (crlf "a = \"x\ny\\nz\" # c\nb {\nc = <<E\nt\nu\nE\n}\n".toList) = .ok b' ∧
    b = [.attribute (.borrowed ['a']) (.string (.ownedS "x\ny\nz".toList)),
      .block (.borrowed ['b']) [] [.attribute (.borrowed ['c']) (.string (.borrowed "t\nu".toList))]] ∧
    b' = [.attribute (.borrowed ['a']) (.string (.ownedS "x\r\ny\nz".toList)),
      .block (.borrowed ['b']) [] [.attribute (.borrowed ['c']) (.string (.borrowed "t\r\nu".toList))]] :=
  ⟨_, _, by decide, by decide +kernel, by decide +kernel, rfl, rfl⟩

/-- Non-vacuity of C82: indented heredocs have to be excluded: this one cannot be read with LF line ends, because of the
line of just one character, but can with CR LF line ends. -/
example : '\r' ∉ "a = <<-E\nx\nyy\n  E\n".toList ∧ ['<', '<', '-'] <:+: "a = <<-E\nx\nyy\n  E\n".toList ∧
    (∀ b, parseStr asciiClass "a = <<-E\nx\nyy\n  E\n".toList ≠ .ok b) ∧
    parseStr asciiClass (crlf "a = <<-E\nx\nyy\n  E\n".toList) =
      .ok [.attribute (.borrowed ['a']) (.string (.ownedS "x\r\nyy".toList))] := by
  refine ⟨by decide, ⟨"a = ".toList, "E\nx\nyy\n  E\n".toList, by decide⟩, ?_, by decide +kernel⟩
  intro b h
  have : parseStr asciiClass "a = <<-E\nx\nyy\n  E\n".toList = .panic := by decide +kernel
  rw [this] at h
  cases h

/-- Non-vacuity of C82: an expression over several lines, and mixed line ends. -/
example : (∃ e, Expr.parse asciiClass "[1,\n2\n]".toList = .ok e ∧ Expr.parse asciiClass (crlf "[1,\n2\n]".toList) = .ok e) ∧
    MoreCr "a=1\nb=2\n".toList "a=1\nb=2\r\n".toList :=
  ⟨⟨.tuple [.number ⟨.borrowed ['1'], true, some (.borrowed ['1']), none, none⟩,
    .number ⟨.borrowed ['2'], true, some (.borrowed ['2']), none, none⟩], by decide +kernel, by decide +kernel⟩,
    .same _ _ _ (.same _ _ _ (.same _ _ _ (.same _ _ _ (.same _ _ _ (.same _ _ _ (.same _ _ _ (.cr _ _ .nil)))))))⟩

end Verif.Props
