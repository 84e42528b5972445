import Verif.Proofs.ScanDet
import Verif.Proofs.OldBrackets
import Verif.Props.Document
import Verif.Props.OldValues
/-! # C100: brackets -/
set_option autoImplicit false

namespace Verif.Props
open Verif Spec PRes

variable (U : CharClass) (P : F64Parse)

/-- C100: the brackets of a document that is accepted are all closed. Besides round ones (which leave no trace in the tree) and those
inside keys that are expressions, they are those of the tree, in the order of the text. -/
theorem c100_document_closed (s : Str) (b : Body) (h : parseStr U s = .ok b) :
    ∃ os, Closed U s os ∧ (bodyBrackets b).Sublist os ∧
      ((∀ e, ValueIn e b → IdentKeys e) → os.filter (· ≠ '(') = bodyBrackets b) := by
  obtain ⟨os, h1, h2⟩ := scan_body (U := U) ((c01_parse_str_accepts_exactly_the_grammar U s b).1 h)
  exact ⟨os, h1 [], h2.1, h2.2⟩

/-- C100: the same for a single expression. -/
theorem c100_expression_closed (s : Str) (e : Expr) (h : Expr.parse U s = .ok e) :
    ∃ os, Closed U s os ∧ (exprBrackets e).Sublist os ∧ (IdentKeys e → os.filter (· ≠ '(') = exprBrackets e) := by
  obtain ⟨os, h1, h2⟩ := scan_expr (U := U) ((c20_expression_parse_ok U s e).1 h)
  exact ⟨os, h1 [], h2.1, h2.2⟩

/-- C100: the brackets of a legacy document that is accepted are all closed, and are those of its values, in order. -/
theorem c100_legacy_closed (s : Str) (es : List (Key × Value)) (h : fromStr U P s none = .ok (.unmerged es)) :
    Closed U s (entriesBrackets es) := by
  obtain ⟨es', he, hd⟩ := (c21_from_str_accepts_exactly_the_grammar U P s _).1 h
  cases he
  exact scan_entries hd []

/-- C100: there is one way to read the brackets of a text. -/
theorem c100_one_reading (s : Str) (os os' : List Char) (h : Closed U s os) (h' : Closed U s os') : os = os' := closed_unique h h'

/-- C100: a text is either closed or unclosed. -/
theorem c100_unclosed_iff (s : Str) : Unclosed U s ↔ ¬ ∃ os, Closed U s os := unclosed_iff

/-- C100: a text with brackets that are not closed is refused, whatever it is read as. -/
theorem c100_unclosed_refused (s : Str) (h : Unclosed U s) :
    (∀ b, parseStr U s ≠ .ok b) ∧ (∀ e, Expr.parse U s ≠ .ok e) ∧ ∀ merge m, fromStr U P s merge ≠ .ok m := by
  have h := unclosed_iff.1 h
  refine ⟨fun b hb => ?_, fun e he => ?_, fun merge m hm => ?_⟩
  · obtain ⟨os, h1, -⟩ := c100_document_closed U s b hb
    exact h ⟨os, h1⟩
  · obtain ⟨os, h1, -⟩ := c100_expression_closed U s e he
    exact h ⟨os, h1⟩
  · by_cases hd : ∃ es, OldDocument U P s es
    · obtain ⟨es, hd⟩ := hd
      exact h ⟨_, scan_entries hd []⟩
    · rcases c21_rejects_everything_else U P s merge hd with h | ⟨t, h⟩ | h <;> rw [h] at hm <;> cases hm

/-! What makes a text unclosed. -/

/-- C100: a bracket that is never closed. -/
theorem c100_missing_bracket (s : Str) (os st : List Char) (h : Scan U [] s os st []) (hst : st ≠ []) : Unclosed U s :=
  ⟨os, st, [], h, atEnd_nil st, fun h => hst h.1⟩

/-- C100: a closing bracket where another one is due, or none. -/
theorem c100_wrong_bracket (s r : Str) (os st : List Char) (o c : Char) (hb : Bracket o c) (h : Scan U [] s os st (c :: r))
    (hst : st.head? ≠ some c) : Unclosed U s := by
  refine ⟨os, st, c :: r, h, ?_, fun h => by cases h.2⟩
  rintro ⟨o', st', r', h'⟩
  obtain ⟨d, u, n, he, hk, ha⟩ := scanStep_as h'
  injection he with e1 e2
  subst e1 e2
  cases stepKind_unique hk (.close c (bracket_close hb))
  cases ha
  exact hst rfl

/-- C100: a string that does not end. -/
theorem c100_unclosed_string (s r : Str) (os st : List Char) (h : Scan U [] s os st ('"' :: r)) (hr : '"' ∉ r) : Unclosed U s := by
  refine ⟨os, st, _, h, ?_, fun h => by cases h.2⟩
  rintro ⟨o', st', r', h'⟩
  obtain ⟨d, u, n, he, hk, ha⟩ := scanStep_as h'
  injection he with e1 e2
  subst e1 e2
  cases stepKind_unique hk .string
  cases ha with
  | string _ _ _ v _ hq =>
    obtain ⟨src, he, -⟩ := hq
    injection he with _ he
    exact hr (by rw [he]; simp)

/-- C100: a comment that does not end. -/
theorem c100_unclosed_comment (s r : Str) (os st : List Char) (h : Scan U [] s os st ('/' :: '*' :: r)) (hr : ¬ ['*', '/'] <:+: r) :
    Unclosed U s := by
  refine ⟨os, st, _, h, ?_, fun h => by cases h.2⟩
  rintro ⟨o', st', r', h'⟩
  obtain ⟨d, u, n, he, hk, ha⟩ := scanStep_as h'
  injection he with e1 e2
  subst e1 e2
  cases stepKind_unique hk (.comment '/' (.inr rfl))
  cases ha with
  | comment _ _ _ t _ ht he =>
    rcases ht with ht | ht
    · rcases ht.head (t := r') with ⟨u, h⟩ | ⟨u, h⟩ <;> rw [← he] at h <;> simp at h
    · cases ht with
      | mk body _ =>
        refine hr ⟨body, r', ?_⟩
        simp at he
        simp [he]

/-! Concrete cases. -/

/-- `exampleDoc` is accepted, so it is closed. -/
example : ∃ os, Closed asciiClass exampleDoc os ∧ (bodyBrackets exampleTree).Sublist os :=
  have ⟨os, h, h', _⟩ := c100_document_closed asciiClass exampleDoc exampleTree parse_exampleDoc
  ⟨os, h, h'⟩

private def nestedDoc : Str := ['a', '=', '[', '{', 'k', '=', '"', ']', '"', '}', ',', '(', '1', ')', ']', '\n']

private def nestedTree : Body :=
  [.attribute (.borrowed ['a']) (.tuple [.object [(.ident (.borrowed ['k']), .string (.ownedS [']']))], .number ⟨.borrowed ['1'], true, some (.borrowed ['1']), none, none⟩])]

private theorem nested_parses : parseStr asciiClass nestedDoc = .ok nestedTree := by decide +kernel

/-- The brackets of `a=[{k="]"},(1)]`: the one in the string is none. -/
example : ∃ os, Closed asciiClass nestedDoc os ∧ os.filter (· ≠ '(') = ['[', '{'] := by
  obtain ⟨os, h1, -, h3⟩ := c100_document_closed asciiClass nestedDoc nestedTree nested_parses
  refine ⟨os, h1, h3 fun e he es hs p hp => ?_⟩
  cases he with
  | block _ _ _ _ _ hm => simp [nestedTree] at hm
  | «attribute» _ _ _ hm =>
    simp only [nestedTree, List.mem_singleton, BodyElement.attribute.injEq] at hm
    obtain ⟨-, rfl⟩ := hm
    cases hs with
    | tuple _ e he hs =>
      simp only [List.mem_cons, List.not_mem_nil, or_false] at he
      rcases he with rfl | rfl
      · cases hs with
        | refl => simp at hp; exact ⟨_, by rw [hp]⟩
        | object q _ hq hs =>
          simp at hq; subst hq; cases hs
      · cases hs

/-- `a = [1` and a line end: the bracket is missing. -/
example : Unclosed asciiClass ['a', '=', '[', '1', '\n'] :=
  c100_missing_bracket _ _ _ _ (scan_trans (scan_plain [] (t := ['a', '=']) _ (by unfold Structural; decide))
    (scan_trans (scan_open [] '[' ']' _ .square) (scan_plain _ (t := ['1', '\n']) [] (by unfold Structural; decide)))) (by simp)

/-- `a = [1}`: the wrong bracket. -/
example : Unclosed asciiClass ['a', '=', '[', '1', '}', '\n'] :=
  c100_wrong_bracket _ _ _ _ _ '{' '}' .curly (scan_trans (scan_plain [] (t := ['a', '=']) _ (by unfold Structural; decide))
    (scan_trans (scan_open [] '[' ']' _ .square) (scan_plain _ (t := ['1']) _ (by unfold Structural; decide)))) (by simp)

/-- `a = "b` and `a = /* 1`. -/
example : Unclosed asciiClass ['a', '=', '"', 'b', '\n'] ∧ Unclosed asciiClass ['a', '=', '/', '*', '1', '\n'] :=
  ⟨c100_unclosed_string _ _ _ _ _ (scan_plain [] (t := ['a', '=']) _ (by unfold Structural; decide)) (by decide),
   c100_unclosed_comment _ _ ['1', '\n'] _ _ (scan_plain [] (t := ['a', '=']) _ (by unfold Structural; decide)) (by decide)⟩

/-- a legacy document -/
private def oldNested : Str := ['a', '=', '[', '"', '{', '"', ',', '{', '}', ']', '\n']

example : Closed asciiClass oldNested ['[', '{'] :=
  c100_legacy_closed asciiClass zeroFloats oldNested
    [(.identifier (.borrowed ['a']), .list [.string ['{'], .object [.unmerged []]])] (by rfl)

end Verif.Props
