import Verif.Proofs.Print
import Verif.Props.Document
/-! # Printing and parsing: C17 -/
set_option autoImplicit false

namespace Verif.Props
open Verif Spec

variable (U : CharClass)

/-- C17: the canonical text of a body built from valid identifiers and number literals is accepted and yields the same
body again, up to ownership of strings. -/
theorem c17_print_then_parse (b : Body) (h : Printable U b) :
    ∃ b', parseStr U (printBody b) = .ok b' ∧ forgetBody b' = forgetBody b := by
  obtain ⟨b', h1, h2⟩ := printBody_document h
  exact ⟨b', parseStr_iff.2 h1, h2⟩

/-- C17, for expressions. -/
theorem c17_print_then_parse_expression (e : Expr) (h : ∀ l ∈ exprLeaves e, LeafPrintable U l) :
    ∃ e', Expr.parse U (printExpr e) = .ok e' ∧ forgetExpr e' = forgetExpr e := by
  obtain ⟨e', h1, h2⟩ := printExpr_read e h ',' [] (by simp [AfterExpr])
  obtain ⟨t, ht, hr⟩ := isExpr_replace h1
  have ht := List.append_cancel_right ht
  subst ht
  have h3 := hr [] (Compat.nil (by rintro ⟨e, t, he, h⟩; cases he <;> cases h))
  rw [List.append_nil] at h3
  exact ⟨e', (c20_expression_parse_ok U _ _).2 h3, h2⟩

/-- C17: every body that `parse_str` returns can be printed. -/
theorem c17_parsed_is_printable (s : Str) (b : Body) (h : parseStr U s = .ok b) : Printable U b :=
  isBody_printable (parseStr_iff.1 h)

/-- C17: reformatting a document (parsing it and printing the result) keeps its meaning, and reformatting again
changes nothing. -/
theorem c17_reformat (s : Str) (b : Body) (h : parseStr U s = .ok b) :
    ∃ b', parseStr U (printBody b) = .ok b' ∧ forgetBody b' = forgetBody b ∧ printBody b' = printBody b := by
  obtain ⟨b', h1, h2⟩ := c17_print_then_parse U b (c17_parsed_is_printable U s b h)
  exact ⟨b', h1, h2, by rw [← printBody_forget b', h2, printBody_forget]⟩

/-- C17: bodies with different meanings are printed differently. -/
theorem c17_print_injective (b c : Body) (hb : Printable U b) (hc : Printable U c) (h : printBody b = printBody c) :
    forgetBody b = forgetBody c := by
  obtain ⟨b', h1, h2⟩ := c17_print_then_parse U b hb
  obtain ⟨c', k1, k2⟩ := c17_print_then_parse U c hc
  rw [h, k1] at h1
  injection h1 with h1
  rw [← h2, ← k2, h1]

/-- Non-vacuity: the example document of C01 in canonical form. -/
example : Printable asciiClass exampleTree ∧
    printBody exampleTree = "a = [1, \"x\n\"]\nb \"l\" m {\nc = {k = null}\n}\n".toList :=
  ⟨c17_parsed_is_printable _ _ _ parse_exampleDoc, by decide +kernel⟩

/-- Non-vacuity: an expression key, a label with a line feed, nesting, and an indented heredoc become canonical. -/
example : (match parseStr asciiClass "x \"a\\nb\" {\n y = { \"k\" = -1.5e3 , [ 1 ,] = <<-E\n  z\n  E\n}\n}\n".toList with
    | .ok b => some (printBody b) | _ => none) =
    some "x \"a\\nb\" {\ny = {\"k\" = -1.5e3, [ 1 ,] = \"z\"}\n}\n".toList := by decide +kernel

end Verif.Props
