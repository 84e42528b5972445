import Verif.Proofs.Concat
import Verif.Proofs.Decide
import Verif.Spec.Print
import Verif.Proofs.Panic
/-! # Properties of `parse_str` and `Expression::parse`: C01–C04, C15, C16, C20 -/
set_option autoImplicit false

namespace Verif.Props
open Verif Spec PRes

variable (U : CharClass)

/-! ## C01 -/

/-- C01: `parse_str` succeeds exactly on the documents of the grammar, with the tree the grammar assigns. -/
theorem c01_parse_str_accepts_exactly_the_grammar (s : Str) (b : Body) :
    parseStr U s = .ok b ↔ Document U s b := parseStr_iff

/-- C01: the grammar assigns at most one tree to a text. -/
theorem c01_tree_unique (s : Str) (b b' : Body) (h : Document U s b) (h' : Document U s b') : b = b' :=
  document_functional h h'

/-- C01: a text outside the grammar is rejected with one of two errors (see C75 for which) or (see C04) a panic. -/
theorem c01_rejects_everything_else (s : Str) (h : ¬ ∃ b, Document U s b) :
    parseStr U s = .error .parse ∨ (∃ t, parseStr U s = .error (.invalidUnicodeCodePoint t)) ∨ parseStr U s = .panic := by
  have h1 : ∀ b, parseStr U s ≠ .ok b := fun b hb => h ⟨b, parseStr_iff.1 hb⟩
  have h2 := parseStr_not_diverge (U := U) s
  revert h1 h2
  unfold parseStr configFile exact
  cases hb : body U s with
  | ok r v =>
    rw [bind_ok]
    cases r with
    | nil => intro h1; exact absurd rfl (h1 v)
    | cons c r => intro _ _; exact .inl rfl
  | err => intro _ _; exact .inl rfl
  | fail t => intro _ _; exact .inr (.inl ⟨t, rfl⟩)
  | panic => intro _ _; exact .inr (.inr rfl)
  | diverge => intro _ h; exact absurd rfl h

/-- A document with an attribute, a tuple, an object, a comment, labels and a nested block. -/
def exampleDoc : Str :=
  "a = [1, \"x\\n\"] # c\nb \"l\" m {\n  c = {k = null}\n}\n".toList

/-- Its tree. -/
def exampleTree : Body :=
  [.attribute (.borrowed ['a']) (.tuple [
      .number ⟨.borrowed ['1'], true, some (.borrowed ['1']), none, none⟩,
      .string (.ownedS ['x', '\n'])]),
   .block (.borrowed ['b']) [.stringLiteral ['l'], .identifier (.borrowed ['m'])]
     [.attribute (.borrowed ['c']) (.object [(.ident (.borrowed ['k']), .null)])]]

theorem parse_exampleDoc : parseStr asciiClass exampleDoc = .ok exampleTree := by
  decide +kernel

/-- Non-vacuity of C01: the example is in the grammar. -/
example : Document asciiClass exampleDoc exampleTree :=
  (c01_parse_str_accepts_exactly_the_grammar _ _ _).1 parse_exampleDoc

/-! ## C02 -/

/-- C02: the `Bug` error for leftover input is never returned. -/
theorem c02_no_bug (s : Str) : parseStr U s ≠ .error .bug := by
  unfold parseStr configFile exact
  cases body U s with
  | ok r v => cases r <;> simp [PRes.toRes]
  | _ => simp [PRes.toRes]

/-- C02: after a document and a line end, further text is never ignored: the whole is accepted iff the further
text is itself a document, and its elements are then all present. -/
theorem c02_appended_text_is_never_ignored (s t : Str) (a c : Body) (h : parseStr U s = .ok a) :
    parseStr U (s ++ '\n' :: t) = .ok c ↔ ∃ b, c = a ++ b ∧ parseStr U t = .ok b := by
  simp only [parseStr_iff] at *
  exact document_concat h

example : parseStr asciiClass (exampleDoc ++ '\n' :: ['}']) = .error .parse := by decide +kernel

/-! ## C03 -/

/-- C03: `parse_str` returns on every input. -/
theorem c03_parse_str_terminates (s : Str) : parseStr U s ≠ .diverge := parseStr_not_diverge s

/-- C03: `Expression::parse` returns on every input. -/
theorem c03_expression_parse_terminates (s : Str) : Expr.parse U s ≠ .diverge := exprParse_not_diverge s

/-- C03: nested expressions are parsed by the same parser: the bound on the recursion depth in the model is
never the reason for a result. -/
theorem c03_expression_fuel (s r : Str) (v : Expr) (n : Nat) (hn : s.length < n) :
    exprN U n s = .ok r v ↔ expression U s = .ok r v := by
  rw [expression_iff]
  exact ⟨exprN_sound n s r v, (exprN_complete n).1 s v r hn⟩

/-! ## C04 -/

/-- C04: `parse_str` panics exactly when some position of the text at which the value of an attribute (or a value
nested in one) is expected, reached through well-formed text, holds an indented heredoc with a bad line. On every
other text it returns. -/
theorem c04_panics_exactly_on_bad_heredocs (s : Str) :
    parseStr U s = .panic ↔ ∃ u, BodyAt U .expression s u ∧ BadHeredoc U u := by
  rw [parseStr_eq_panic]; simp only [badHeredoc_iff]

/-- C04, for `Expression::parse`. -/
theorem c04_expression_panics_exactly_on_bad_heredocs (s : Str) :
    Expr.parse U s = .panic ↔ ∃ u, ExprAt U s u ∧ BadHeredoc U u := by
  rw [exprParse_eq_panic]; simp only [badHeredoc_iff]

/-- C04: a text `parse_str` does not panic on is accepted or rejected with an error. -/
theorem c04_returns_otherwise (s : Str) (h : ¬ ∃ u, BodyAt U .expression s u ∧ BadHeredoc U u) :
    (∃ b, parseStr U s = .ok b) ∨ ∃ e, parseStr U s = .error e := by
  rw [← c04_panics_exactly_on_bad_heredocs] at h
  cases hs : parseStr U s with
  | ok b => exact .inl ⟨b, rfl⟩
  | error e => exact .inr ⟨e, rfl⟩
  | panic => exact absurd hs h
  | diverge => exact absurd hs (parseStr_not_diverge s)

/-- C04: without the text `<<-` there is no panic. -/
theorem c04_no_panic_without_indented_heredoc (s : Str) (h : ¬ ['<', '<', '-'] <:+: s) :
    parseStr U s ≠ .panic := by
  intro hp
  obtain ⟨u, hu, m, e, t, c, b, r, -, -, -, rfl, -⟩ := parseStr_panic hp
  refine h (List.IsInfix.trans ?_ hu.isInfix)
  exact ⟨[], m ++ e ++ t, by simp⟩

/-- C04, for `Expression::parse`. -/
theorem c04_expression_no_panic (s : Str) (h : ¬ ['<', '<', '-'] <:+: s) : Expr.parse U s ≠ .panic := by
  intro hp
  obtain ⟨u, hu, m, e, t, c, b, r, -, -, -, rfl, -⟩ := exprParse_panic hp
  refine h (List.IsInfix.trans ?_ hu.isInfix)
  exact ⟨[], m ++ e ++ t, by simp⟩

/-- C04: the witness that "never panics" is false of the code: an empty line in an indented heredoc. -/
theorem c04_panic_witness :
    parseStr asciiClass "a = <<-EOF\n\n  EOF\n".toList = .panic := by decide +kernel

/-- Non-vacuity: the position reached in the witness, and the bad heredoc there. -/
example : ∃ u, BodyAt asciiClass .expression "a = <<-EOF\n\n  EOF\n".toList u ∧ BadHeredoc asciiClass u :=
  (c04_panics_exactly_on_bad_heredocs _ _).1 c04_panic_witness

example : BadLine 2 [] := .blank 0 (by decide)

example : ¬ ['<', '<', '-'] <:+: ['a', '=', '<', '<', 'E', '\n', 'E', '\n'] := by decide

/-! ## C15 -/

/-- C15: layout in front of a document does not matter. -/
theorem c15_leading_layout (l l' s : Str) (b : Body) (hl : Seq LayoutItem l) (hl' : Seq LayoutItem l') :
    parseStr U (l ++ s) = .ok b ↔ parseStr U (l' ++ s) = .ok b := by
  simp only [parseStr_iff]
  exact (isBody_layout hl).trans (isBody_layout hl').symm

/-- C15: layout between elements (after a line end) does not matter. -/
theorem c15_layout_between (s l l' t : Str) (a b : Body) (h : parseStr U s = .ok a) (hl : Seq LayoutItem l)
    (hl' : Seq LayoutItem l') :
    parseStr U (s ++ '\n' :: l ++ t) = .ok b ↔ parseStr U (s ++ '\n' :: l' ++ t) = .ok b := by
  simp only [parseStr_iff, List.append_assoc, List.cons_append] at *
  rw [document_concat h, document_concat h]
  constructor <;> rintro ⟨c, rfl, hc⟩ <;> refine ⟨c, rfl, ?_⟩
  · exact (isBody_layout hl').2 ((isBody_layout hl).1 hc)
  · exact (isBody_layout hl).2 ((isBody_layout hl').1 hc)

/-- C15: an attribute denotes the same thing whatever inline layout stands around its name, `=` and value
and however the line ends (end of line, comment to the end of the line, inline comment). -/
theorem c15_attribute_layout (pre i l₁ l₂ v q N t : Str) (a c : Body) (e : Expr)
    (hpre : parseStr U pre = .ok a) (hi : IsIdent U i) (h₁ : Seq InlineItem l₁) (h₂ : Seq InlineItem l₂)
    (hv : Expr.parse U v = .ok e) (hq : Seq InlineItem q) (hN : NewlineItem N) :
    parseStr U (pre ++ '\n' :: (i ++ l₁ ++ '=' :: l₂ ++ v ++ q ++ N ++ t)) = .ok c ↔
      ∃ b, c = a ++ .attribute (.borrowed i) e :: b ∧ parseStr U t = .ok b := by
  have hv' : IsExpr U v e [] := by
    unfold Expr.parse PRes.toRes at hv
    split at hv
    · rename_i r w hw
      dsimp only at hv
      split at hv
      · rename_i hr
        cases r with
        | nil => cases hv; exact expression_iff.1 hw
        | cons => cases hr
      · cases hv
    all_goals cases hv
  simp only [parseStr_iff] at *
  rw [document_concat hpre]
  constructor
  · rintro ⟨b, rfl, hb⟩
    obtain ⟨b', rfl, hb'⟩ := (document_attribute hi h₁ h₂ hv' hq hN).1 hb
    exact ⟨b', rfl, hb'⟩
  · rintro ⟨b, rfl, hb⟩
    exact ⟨_, rfl, (document_attribute hi h₁ h₂ hv' hq hN).2 ⟨b, rfl, hb⟩⟩

/-- Non-vacuity of C15: such layout exists. -/
example : Seq InlineItem [' ', '\t'] ∧ NewlineItem ['#', ' ', 'c', '\n'] ∧ Seq LayoutItem ['/', '*', 'x', '*', '/', '\n'] ∧
    Expr.parse asciiClass ['[', '1', ']'] = .ok (.tuple [.number ⟨.borrowed ['1'], true, some (.borrowed ['1']), none, none⟩]) := by
  refine ⟨?_, ?_, ?_, by decide +kernel⟩
  · exact .cons [' '] _ (.blank _ (.inl rfl)) (.cons ['\t'] [] (.blank _ (.inr rfl)) .nil)
  · exact .line _ (.hash [' ', 'c'] ['\n'] (by decide) .lf)
  · exact .cons ['/', '*', 'x', '*', '/'] ['\n'] (.comment _ (.mk ['x'] (by decide)))
      (.cons ['\n'] [] (.space _ (by decide)) .nil)

/-! ## C16 -/

/-- C16: concatenating documents (with a line end between) concatenates their bodies. -/
theorem c16_concat (s t : Str) (a b : Body) (hs : parseStr U s = .ok a) (ht : parseStr U t = .ok b) :
    parseStr U (s ++ '\n' :: t) = .ok (a ++ b) :=
  (c02_appended_text_is_never_ignored U s t a (a ++ b) hs).2 ⟨b, rfl, ht⟩

example : parseStr asciiClass (exampleDoc ++ '\n' :: exampleDoc) = .ok (exampleTree ++ exampleTree) :=
  c16_concat _ _ _ _ _ parse_exampleDoc parse_exampleDoc

/-! ## C20 -/

/-- C20: `Expression::parse` succeeds exactly when the whole text is an expression. -/
theorem c20_expression_parse_ok (s : Str) (e : Expr) : Expr.parse U s = .ok e ↔ IsExpr U s e [] := by
  unfold Expr.parse
  constructor
  · intro h
    unfold PRes.toRes at h
    split at h
    · rename_i r w hw
      dsimp only at h
      split at h
      · rename_i hr
        cases r with
        | nil => cases h; exact expression_iff.1 hw
        | cons => cases hr
      · cases h
    all_goals cases h
  · intro h
    rw [expression_iff.2 h]; rfl

/-- C20: remaining text is reported exactly. -/
theorem c20_expression_parse_remaining (s r : Str) :
    Expr.parse U s = .error (.unexpectedRemaining r) ↔ r ≠ [] ∧ ∃ e, IsExpr U s e r := by
  unfold Expr.parse
  constructor
  · intro h
    unfold PRes.toRes at h
    split at h
    · rename_i r' w hw
      dsimp only at h
      split at h
      · cases h
      · rename_i hr
        injection h with h; injection h with h; subst h
        exact ⟨by rintro rfl; exact hr rfl, w, expression_iff.1 hw⟩
    all_goals cases h
  · rintro ⟨hr, e, he⟩
    rw [expression_iff.2 he]
    cases r with
    | nil => exact absurd rfl hr
    | cons => rfl

/-- C20: otherwise it is an error (see C75 for which) or a panic (see C04). -/
theorem c20_expression_parse_error (s : Str) (h : ¬ ∃ e r, IsExpr U s e r) :
    Expr.parse U s = .error .parse ∨ (∃ t, Expr.parse U s = .error (.invalidUnicodeCodePoint t)) ∨ Expr.parse U s = .panic := by
  have h2 := exprParse_not_diverge (U := U) s
  revert h2
  unfold Expr.parse
  cases he : expression U s with
  | ok r v => exact absurd ⟨v, r, expression_iff.1 he⟩ h
  | err => intro _; exact .inl rfl
  | fail t => intro _; exact .inr (.inl ⟨t, rfl⟩)
  | panic => intro _; exact .inr (.inr rfl)
  | diverge => intro h; exact absurd rfl h

example : Expr.parse asciiClass "{a = 1} x".toList = .error (.unexpectedRemaining [' ', 'x']) := by decide +kernel
example : Expr.parse asciiClass "(null)".toList = .ok .null := by decide +kernel

end Verif.Props
