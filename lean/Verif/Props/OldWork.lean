import Verif.Proofs.WorkCalls
import Verif.Props.Work
/-! # The total work of the legacy parser: C99 -/
set_option autoImplicit false

namespace Verif.Props
open Verif Spec

variable (U : CharClass) (P : F64Parse)

/-- C99: the legacy parser makes at most cubic work for each call of its recursive parsers (C73 says how many there are). -/
theorem c99_legacy_steps_per_call (s : Str) :
    fromStrSteps U P s ≤ (4000 * (s.length + 1) ^ 3 + 1) * fromStrCalls U P s + 2 := Nat.add_le_add_right (old_steps_le U P s) 2

/-- C99: `from_str` makes at most `9000 (n + 1) ^ 4` steps on a text of `n` characters that it accepts, whatever the merge behaviour. -/
theorem c99_legacy_accepted_steps (s : Str) (merge : Option MergeBehaviour) (m : MapValues) (h : fromStr U P s merge = .ok m) :
    fromStrSteps U P s ≤ 9000 * (s.length + 1) ^ 4 := by
  have h1 := c99_legacy_steps_per_call U P s
  have h2 := c73_accepted_texts_linear U P s merge m h
  generalize hm : s.length + 1 = k at h1 h2 ⊢
  have hm1 : 1 ≤ k := by omega
  have h3 : fromStrCalls U P s ≤ 2 * k := by omega
  have h4 : 1 ≤ k ^ 3 := Nat.one_le_pow _ _ hm1
  have h5 : (4000 * k ^ 3 + 1) * fromStrCalls U P s ≤ 4001 * k ^ 3 * (2 * k) := Nat.mul_le_mul (by omega) h3
  have h6 : 4001 * k ^ 3 * (2 * k) = 8002 * k ^ 4 := by
    rw [Nat.pow_succ k 3, Nat.mul_left_comm, Nat.mul_assoc, ← Nat.mul_assoc 2, ← Nat.mul_assoc]
  have h7 : 1 ≤ k ^ 4 := Nat.one_le_pow _ _ hm1
  omega

/-- C99: some texts of `2 n` characters are only refused after `2 ^ (n + 1)` steps. -/
theorem c99_legacy_refused_exponential (n : Nat) (merge : Option MergeBehaviour) (hn : 0 < n) :
    ∃ s : Str, s.length = 2 * n ∧ fromStr U P s merge = .error .parse ∧ 2 ^ (n + 1) ≤ fromStrSteps U P s := by
  obtain ⟨h1, h2, h3⟩ := c73_refused_texts_exponential U P n merge
  refine ⟨nested n, h1, h3 hn, ?_⟩
  have := (pays_old U P ((nested n).length + 1)).2.le (nested n)
  have h4 : fromStrCalls U P (nested n) ≤ fromStrSteps U P (nested n) := Nat.le_trans this (Nat.le_add_right _ 2)
  have h5 : fromStrSteps U P (nested n) = (oldW U P ((nested n).length + 1)).2.cost (nested n) + 2 := rfl
  have h6 : fromStrCalls U P (nested n) = (oldC U P ((nested n).length + 1)).2.cost (nested n) := rfl
  have h7 : 0 < 2 ^ (n + 1) := Nat.two_pow_pos _
  omega

/-- C99: no parser makes fewer steps than calls. -/
theorem c99_calls_are_steps (s : Str) :
    parseStrCalls U s ≤ parseStrSteps U s ∧ exprParseCalls U s ≤ exprParseSteps U s ∧ fromStrCalls U P s ≤ fromStrSteps U P s :=
  ⟨Nat.le_trans ((pays_body U (s.length + 1)).le s) (Nat.le_add_right _ 2),
   Nat.le_trans ((pays_expr U (s.length + 1)).le s) (Nat.le_add_right _ 1),
   Nat.le_trans ((pays_old U P (s.length + 1)).2.le s) (Nat.le_add_right _ 2)⟩

/-- C99: the parser whose steps are counted is the one of `from_str`. -/
theorem c99_legacy_counted_parser (s : Str) : oldBody U P s = exact (oldW U P (s.length + 1)).2.run s := by
  rw [(oldW_run U P _).2, ← (oldC_run U P _).2]
  exact c73_counted_parser U P s

/-- C99: no legacy text is accepted in fewer steps than it has characters. -/
theorem c99_legacy_accepted_texts_are_read (s : Str) (merge : Option MergeBehaviour) (m : MapValues) (h : fromStr U P s merge = .ok m) :
    s.length ≤ fromStrSteps U P s := by
  have h1 := c99_legacy_counted_parser U P s
  unfold exact at h1
  unfold fromStr at h
  rw [h1] at h
  cases hr : (oldW U P (s.length + 1)).2.run s with
  | ok r v =>
    have := (old_reads U P _).2 _ _ _ hr
    rw [hr] at h
    cases r with
    | nil => unfold fromStrSteps; simp at this; omega
    | cons c r => cases h
  | _ => rw [hr] at h; cases h

example : fromStrSteps asciiClass zeroFloats oldDoc ≤ 9000 * (oldDoc.length + 1) ^ 4 ∧ oldDoc.length ≤ fromStrSteps asciiClass zeroFloats oldDoc :=
  ⟨c99_legacy_accepted_steps _ _ _ _ _ parse_oldDoc, c99_legacy_accepted_texts_are_read _ _ _ _ _ parse_oldDoc⟩
example : fromStrSteps asciiClass zeroFloats "a = [1]\n".toList = 216 := by decide +kernel
example : fromStrSteps asciiClass zeroFloats "a{a{a{a{".toList = 2659 := by decide +kernel
example : fromStrSteps asciiClass zeroFloats "a = -1.5e3\n".toList = 148 := by decide +kernel

end Verif.Props
