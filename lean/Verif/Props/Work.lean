import Verif.Proofs.WorkLower
import Verif.Props.Calls
/-! # The total work of the HCL 2 parsers: C99 -/
set_option autoImplicit false

namespace Verif.Props
open Verif Spec

variable (U : CharClass)

/-- C99: `Expression::parse` makes at most `9000 (n + 1) ^ 3` steps on a text of `n` characters, accepted or not. -/
theorem c99_expression_steps (s : Str) : exprParseSteps U s ≤ 9000 * (s.length + 1) ^ 3 := by
  have h1 := expr_steps_le U s
  have h2 := c72_expression_parse_calls_linear U s
  unfold exprParseSteps
  generalize hm : s.length + 1 = m at h1 h2 ⊢
  have hm1 : 1 ≤ m := by omega
  have h3 : exprParseCalls U s ≤ 2 * m := by omega
  have h4 : 1 ≤ m ^ 2 := Nat.one_le_pow _ _ hm1
  have h5 : (4000 * m ^ 2 + 1) * exprParseCalls U s ≤ 4001 * m ^ 2 * (2 * m) := Nat.mul_le_mul (by omega) h3
  have h6 : 4001 * m ^ 2 * (2 * m) = 8002 * m ^ 3 := by
    rw [Nat.pow_succ m 2, Nat.mul_left_comm, Nat.mul_assoc, ← Nat.mul_assoc 2, ← Nat.mul_assoc]
  have h7 : 1 ≤ m ^ 3 := Nat.one_le_pow _ _ hm1
  omega

/-- C99: `parse_str` makes at most `9000 (n + 1) ^ 4` steps on a text of `n` characters, accepted or not. -/
theorem c99_parse_str_steps (s : Str) : parseStrSteps U s ≤ 9000 * (s.length + 1) ^ 4 := by
  have h1 := body_steps_le U s
  have h2 := c72_parse_str_calls_linear U s
  unfold parseStrSteps
  generalize hm : s.length + 1 = m at h1 h2 ⊢
  have hm1 : 1 ≤ m := by omega
  have h3 : parseStrCalls U s ≤ 2 * m := by omega
  have h4 : 1 ≤ m ^ 3 := Nat.one_le_pow _ _ hm1
  have h5 : (4000 * m ^ 3 + 1) * parseStrCalls U s ≤ 4001 * m ^ 3 * (2 * m) := Nat.mul_le_mul (by omega) h3
  have h6 : 4001 * m ^ 3 * (2 * m) = 8002 * m ^ 4 := by
    rw [Nat.pow_succ m 3, Nat.mul_left_comm, Nat.mul_assoc, ← Nat.mul_assoc 2, ← Nat.mul_assoc]
  have h7 : 1 ≤ m ^ 4 := Nat.one_le_pow _ _ hm1
  omega

/-- C99: between two calls of the recursive parsers the work is at most quadratic, and cubic in a body. -/
theorem c99_steps_per_call (s : Str) :
    exprParseSteps U s ≤ (4000 * (s.length + 1) ^ 2 + 1) * exprParseCalls U s + 1 ∧
    parseStrSteps U s ≤ (4000 * (s.length + 1) ^ 3 + 1) * parseStrCalls U s + 2 :=
  ⟨Nat.add_le_add_right (expr_steps_le U s) 1, Nat.add_le_add_right (body_steps_le U s) 2⟩

/-- C99: the parsers whose steps are counted are those of `parse_str` and `Expression::parse`. -/
theorem c99_counted_parsers (s : Str) :
    parseStr U s = (exact (bodyW U (s.length + 1)).run s).toRes (fun r b => if r.isEmpty then .ok b else .error .bug) ∧
    Expr.parse U s = ((exprW U (s.length + 1)).run s).toRes
      (fun r e => if r.isEmpty then .ok e else .error (.unexpectedRemaining r)) := by
  rw [exprW_run, bodyW_run, ← exprC_run, ← bodyC_run]
  exact c72_counted_parsers U s

/-- C99: conversely no text is accepted in fewer steps than it has characters. -/
theorem c99_accepted_texts_are_read (s : Str) :
    (∀ b, parseStr U s = .ok b → s.length ≤ parseStrSteps U s) ∧
    (∀ e, Expr.parse U s = .ok e → s.length ≤ exprParseSteps U s) := by
  obtain ⟨h1, h2⟩ := c99_counted_parsers U s
  constructor
  · intro b h
    rw [h1] at h
    unfold exact at h
    cases hr : (bodyW U (s.length + 1)).run s with
    | ok r v =>
      have := body_reads U _ _ _ _ hr
      rw [hr] at h
      cases r with
      | nil => unfold parseStrSteps; simp at this; omega
      | cons c r => cases h
    | _ => rw [hr] at h; cases h
  · intro e h
    rw [h2] at h
    cases hr : (exprW U (s.length + 1)).run s with
    | ok r v =>
      have := expr_reads U _ _ _ _ hr
      rw [hr] at h
      simp only [PRes.toRes] at h
      cases r with
      | nil => unfold exprParseSteps; simp at this; omega
      | cons c r => cases h
    | _ => rw [hr] at h; cases h

-- accepted; refused at the end
example : parseStrSteps asciiClass "a = { \"k\" = 1 }\n".toList = 379 := by decide +kernel
example : (match parseStr asciiClass "a = { \"k\" = 1 }\n".toList with
    | .ok _ => true
    | _ => false) = true := by decide +kernel
example : parseStrSteps asciiClass "a {\n  b = [[1], 2]\n}\n".toList = 584 := by decide +kernel
example : exprParseSteps asciiClass "1".toList = 14 := by decide +kernel
example : (match Expr.parse asciiClass "1".toList with
    | .ok _ => true
    | _ => false) = true := by decide +kernel
example : exprParseSteps asciiClass "[[[[".toList = 368 := by decide +kernel

end Verif.Props
