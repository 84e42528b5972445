import Verif.Proofs.AtSuffix
import Verif.Props.Document
import Verif.Props.OldValues
/-! # Which error is reported: C75 -/
set_option autoImplicit false

namespace Verif.Props
open Verif Spec PRes

variable (U : CharClass) (P : F64Parse)

/-! ## C75 -/

/-- C75: `parse_str` reports `InvalidUnicodeCodePoint(t)` exactly when some position where an expression or label is
expected, reached through well-formed text, holds a string that is well formed up to a backslash beginning no valid
escape; `t` is the text after that backslash. -/
theorem c75_parse_str_invalid_escape (s t : Str) :
    parseStr U s = .error (.invalidUnicodeCodePoint t) ↔ ∃ k u, BodyAt U k s u ∧ EscapeErrorAt k u t := parseStr_eq_escape

/-- C75: likewise `Expression::parse`. -/
theorem c75_expression_invalid_escape (s t : Str) :
    Expr.parse U s = .error (.invalidUnicodeCodePoint t) ↔ ∃ u, ExprAt U s u ∧ EscapeError Plain u t := exprParse_eq_escape

/-- C75: likewise the value parser, whatever the merge behaviour; a position is that of a value, a string key or a
label. -/
theorem c75_from_str_invalid_escape (s t : Str) (merge : Option MergeBehaviour) :
    fromStr U P s merge = .error (.invalidUnicodeCodePoint t) ↔ ∃ k u, EntriesAt U P k s u ∧ EscapeErrorAt k u t := by
  rw [← oldBody_eq_fail]
  unfold fromStr
  cases hb : oldBody U P s with
  | ok r x =>
    obtain ⟨rfl, -⟩ := oldBody_iff.1 hb
    simp only [finishFromStr, List.isEmpty_nil, if_true]
    cases merge with
    | none => simp
    | some b => cases b <;> simp only <;> (try split) <;> simp
  | _ => simp

/-- C75: `parse_str` reports a generic parse error exactly on the texts outside the grammar in which no position holds an
invalid escape or a bad heredoc. -/
theorem c75_parse_str_generic_error (s : Str) :
    parseStr U s = .error .parse ↔ (¬ ∃ b, Document U s b) ∧ (¬ ∃ t k u, BodyAt U k s u ∧ EscapeErrorAt k u t) ∧
      ¬ ∃ u, BodyAt U .expression s u ∧ BadHeredoc U u := by
  rw [← c04_panics_exactly_on_bad_heredocs]
  simp only [← c75_parse_str_invalid_escape, ← c01_parse_str_accepts_exactly_the_grammar]
  constructor
  · intro h
    rw [h]
    simp
  · rintro ⟨h1, h2, h3⟩
    rcases c01_rejects_everything_else U s (fun ⟨b, hb⟩ => h1 ⟨b, parseStr_iff.2 hb⟩) with h | h | h
    · exact h
    · exact absurd h h2
    · exact absurd h h3

/-- C75: `Expression::parse` reports a generic parse error exactly when the text begins with no expression and no position
holds an invalid escape or a bad heredoc. -/
theorem c75_expression_generic_error (s : Str) :
    Expr.parse U s = .error .parse ↔ (¬ ∃ e r, IsExpr U s e r) ∧ (¬ ∃ t u, ExprAt U s u ∧ EscapeError Plain u t) ∧
      ¬ ∃ u, ExprAt U s u ∧ BadHeredoc U u := by
  rw [← c04_expression_panics_exactly_on_bad_heredocs]
  simp only [← c75_expression_invalid_escape]
  constructor
  · intro h
    refine ⟨?_, by rw [h]; simp, by rw [h]; simp⟩
    rintro ⟨e, r, he⟩
    unfold Expr.parse at h
    rw [expression_iff.2 he] at h
    simp only [PRes.toRes] at h
    split at h <;> cases h
  · rintro ⟨h1, h2, h3⟩
    rcases c20_expression_parse_error U s h1 with h | h | h
    · exact h
    · exact absurd h h2
    · exact absurd h h3

/-- C75: likewise the value parser. -/
theorem c75_from_str_generic_error (s : Str) (merge : Option MergeBehaviour) :
    fromStr U P s merge = .error .parse ↔ (¬ ∃ es, OldDocument U P s es) ∧
      (¬ ∃ t k u, EntriesAt U P k s u ∧ EscapeErrorAt k u t) ∧ ¬ ∃ u, EntriesAt U P .expression s u ∧ BadHeredoc U u := by
  simp only [badHeredoc_iff]
  rw [← oldBody_eq_panic]
  simp only [← oldBody_eq_fail]
  have hd : (∃ es, OldDocument U P s es) ↔ ∃ r m, oldBody U P s = .ok r m := by
    constructor
    · rintro ⟨es, h⟩; exact ⟨_, _, oldBody_iff.2 ⟨rfl, es, rfl, h⟩⟩
    · rintro ⟨r, m, h⟩
      obtain ⟨-, es, -, h⟩ := oldBody_iff.1 h
      exact ⟨es, h⟩
  rw [hd]
  unfold fromStr
  cases hb : oldBody U P s with
  | ok r x =>
    obtain ⟨rfl, -⟩ := oldBody_iff.1 hb
    simp only [finishFromStr, List.isEmpty_nil, if_true]
    cases merge with
    | none => simp
    | some b => cases b <;> simp only <;> (try split) <;> simp
  | diverge => exact absurd hb (oldBody_not_diverge s)
  | _ => simp

/-- C75: what is reported is the end of the input after a backslash that begins no valid escape, for all three parsers. -/
theorem c75_reported_text_follows_a_bad_backslash (s t : Str) (merge : Option MergeBehaviour)
    (h : parseStr U s = .error (.invalidUnicodeCodePoint t) ∨ Expr.parse U s = .error (.invalidUnicodeCodePoint t) ∨
      fromStr U P s merge = .error (.invalidUnicodeCodePoint t)) :
    (∃ pre, s = pre ++ '\\' :: t) ∧ ¬ ∃ e c r, t = e ++ r ∧ Escape e c r := by
  rw [c75_parse_str_invalid_escape, c75_expression_invalid_escape, c75_from_str_invalid_escape] at h
  rcases h with ⟨k, u, h1, h2⟩ | ⟨u, h1, h2⟩ | ⟨k, u, h1, h2⟩
  · exact ⟨escapeErrorAt_suffix h2 (bodyAt_suffix h1), escapeErrorAt_not_escape h2⟩
  · exact ⟨escapeError_suffix h2 (exprAt_suffix h1), escapeErrorAt_not_escape (k := .expression) h2⟩
  · exact ⟨escapeErrorAt_suffix h2 (entriesAt_suffix h1), escapeErrorAt_not_escape h2⟩

/-- C75: at most one text can be reported. -/
theorem c75_reported_text_unique (s t t' u u' : Str) (k k' : Kind) (h : BodyAt U k s u) (hu : EscapeErrorAt k u t)
    (h' : BodyAt U k' s u') (hu' : EscapeErrorAt k' u' t') : t = t' := by
  have h1 := (c75_parse_str_invalid_escape U s t).2 ⟨k, u, h, hu⟩
  have h2 := (c75_parse_str_invalid_escape U s t').2 ⟨k', u', h', hu'⟩
  rw [h1] at h2
  injection h2 with h2; injection h2

/-- C75: a document is never reported as both: no position of a document holds an invalid escape. -/
theorem c75_no_invalid_escape_in_a_document (s u t : Str) (b : Body) (k : Kind) (h : Document U s b) (hat : BodyAt U k s u) :
    ¬ EscapeErrorAt k u t := by
  intro hu
  have h1 := (c75_parse_str_invalid_escape U s t).2 ⟨k, u, hat, hu⟩
  rw [parseStr_iff.2 h] at h1
  cases h1

example : parseStr asciiClass "a = 1\nb \"l\" {\n c = [null, {k = \"x\\q\"}]\n}\n".toList =
    .error (.invalidUnicodeCodePoint "q\"}]\n}\n".toList) := by decide +kernel
example : parseStr asciiClass "a \"\\uD800\" {}".toList = .error (.invalidUnicodeCodePoint "uD800\" {}".toList) := by
  decide +kernel
example : Expr.parse asciiClass "[\"\\xg\"".toList = .error (.invalidUnicodeCodePoint "xg\"".toList) := by decide +kernel
example : fromStr asciiClass zeroFloats "a { \"b\\z\" = 1 }".toList none =
    .error (.invalidUnicodeCodePoint "z\" = 1 }".toList) := by decide +kernel
/-- A newline before the backslash: not a label, so a generic error. -/
example : parseStr asciiClass "a \"\n\\q\" {}".toList = .error .parse := by decide +kernel
/-- A final backslash. -/
example : parseStr asciiClass "a = \"\\".toList = .error .parse := by decide +kernel

end Verif.Props
