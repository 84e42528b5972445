import Verif.Proofs.Depth
import Verif.Proofs.CallsLower
import Verif.Props.OldValues
/-! # How much work the parsers do: C72–C74 -/
set_option autoImplicit false

namespace Verif.Props
open Verif Spec

variable (U : CharClass) (P : F64Parse)

/-! ## C72: no exponential backtracking in the HCL 2 parser -/

/-- C72: `parse_str` makes at most `2 n + 1` calls of its recursive parsers on a text of `n` characters, accepted or not. -/
theorem c72_parse_str_calls_linear (s : Str) : parseStrCalls U s ≤ 2 * s.length + 1 := (linBody _).any s

/-- C72: the same for `Expression::parse`. -/
theorem c72_expression_parse_calls_linear (s : Str) : exprParseCalls U s ≤ 2 * s.length + 1 := (lin_expr _).any s

/-- C72: what is counted is what `parse_str` and `Expression::parse` run. -/
theorem c72_counted_parsers (s : Str) :
    parseStr U s = (exact (bodyC U (s.length + 1)).run s).toRes (fun r b => if r.isEmpty then .ok b else .error .bug) ∧
    Expr.parse U s = ((exprC U (s.length + 1)).run s).toRes
      (fun r e => if r.isEmpty then .ok e else .error (.unexpectedRemaining r)) := by
  rw [exprC_run, bodyC_run]
  unfold parseStr configFile exact body Expr.parse expression
  exact ⟨rfl, rfl⟩

/-- C72: the bound does not come from the bound on the recursion depth: it holds for any. -/
theorem c72_calls_linear_at_any_depth (n : Nat) (s : Str) :
    (bodyC U n).cost s ≤ 2 * s.length + 1 ∧ (exprC U n).cost s ≤ 2 * s.length + 1 := ⟨(linBody n).any s, (lin_expr n).any s⟩

/-- C72: conversely every expression of the result was made by a call of its own, and so was the body of every block that
is not written on one line: the count is at least what the result contains, and one for the document. -/
theorem c72_calls_at_least_size (s : Str) :
    (∀ b, parseStr U s = .ok b → 1 + elementsCount b ≤ parseStrCalls U s) ∧
    (∀ e, Expr.parse U s = .ok e → exprCount e ≤ exprParseCalls U s) := by
  obtain ⟨h1, h2⟩ := c72_counted_parsers U s
  constructor
  · intro b h
    rw [h1] at h
    unfold parseStrCalls
    unfold exact at h
    cases hr : (bodyC U (s.length + 1)).run s with
    | ok r v =>
      rw [hr] at h
      cases r with
      | nil =>
        injection h with h
        subst h
        exact bodyC_lower U _ s [] v hr
      | cons c r => cases h
    | _ => rw [hr] at h; cases h
  · intro e h
    rw [h2] at h
    cases hr : (exprC U (s.length + 1)).run s with
    | ok r v =>
      rw [hr] at h
      simp only [PRes.toRes] at h
      split at h
      · injection h with h
        subst h
        exact exprC_lower U _ s r v hr
      · cases h
    | _ => rw [hr] at h; cases h

-- the bodies and values that are parsed, the key of the object's element, and two failed attempts
example : parseStrCalls asciiClass "a = { \"k\" = 1 }\n".toList = 5 := by decide +kernel
example : parseStrCalls asciiClass "a {\n  b = [[1], 2]\n}\n".toList = 6 := by decide +kernel
example : exprParseCalls asciiClass "[[[[".toList = 5 := by decide +kernel

/-! ## C73: the legacy parser backtracks exponentially on some texts it refuses -/

/-- C73: every value of the result was made by a call of its own. -/
theorem c73_calls_at_least_size (s : Str) (m : MapValues) (h : fromStr U P s none = .ok m) :
    1 + mapCount m ≤ fromStrCalls U P s := by
  have h2 : oldBody U P s = exact (oldC U P (s.length + 1)).2.run s := by
    unfold oldBody mapValues exact
    rw [(oldC_run U P _).2]
  unfold fromStr at h
  rw [h2] at h
  unfold exact at h
  cases hr : (oldC U P (s.length + 1)).2.run s with
  | ok r v =>
    rw [hr] at h
    cases r with
    | nil =>
      injection h with h
      subst h
      exact (oldC_lower U P _).2 s [] v hr
    | cons c r => cases h
  | _ => rw [hr] at h; cases h

/-- C73: `from_str` makes at most `2 n + 1` calls of its recursive parsers on a text of `n` characters that it accepts,
whatever the merge behaviour. -/
theorem c73_accepted_texts_linear (s : Str) (merge : Option MergeBehaviour) (m : MapValues)
    (h : fromStr U P s merge = .ok m) : fromStrCalls U P s ≤ 2 * s.length + 1 := by
  unfold fromStr at h
  cases hb : oldBody U P s with
  | ok r x =>
    obtain ⟨-, es, -, hd⟩ := oldBody_iff.1 hb
    have := (linOld (U := U) (P := P) (s.length + 1)).entries s es [] (Nat.lt_succ_self _) (.inl rfl) hd
    simp at this
    exact this
  | _ => rw [hb] at h; cases h

/-- C73: on `a{` repeated `n` times, a text of `2 n` characters that is refused, it makes `2 ^ (n + 1) - 1` calls. -/
theorem c73_refused_texts_exponential (n : Nat) (merge : Option MergeBehaviour) :
    (nested n).length = 2 * n ∧ fromStrCalls U P (nested n) = 2 ^ (n + 1) - 1 ∧
    (0 < n → fromStr U P (nested n) merge = .error .parse) := by
  have hl := nested_length n
  have h := nested_calls (U := U) (P := P) n (2 * n + 1) (by omega)
  refine ⟨hl, ?_, fun hn => ?_⟩
  · unfold fromStrCalls; rw [hl]; exact h.2
  · have hm : mapValues U P (nested n) = .ok (nested n) (.unmerged []) := by
      unfold mapValues; rw [hl, ← (oldC_run U P _).2]; exact h.1
    have : oldBody U P (nested n) = .err := by
      unfold oldBody exact
      rw [hm]
      obtain ⟨k, rfl⟩ := Nat.exists_eq_succ_of_ne_zero (by omega : n ≠ 0)
      rfl
    unfold fromStr
    rw [this]

/-- C73: so no multiple of the length bounds the number of calls. -/
theorem c73_no_linear_bound (a b : Nat) : ∃ s, a * s.length + b < fromStrCalls U P s := by
  obtain ⟨k, hk⟩ : ∃ k, k = 2 * a + b := ⟨_, rfl⟩
  obtain ⟨h1, h2, -⟩ := c73_refused_texts_exponential U P (2 * k) none
  refine ⟨nested (2 * k), ?_⟩
  rw [h1, h2]
  have h3 : k + 1 ≤ 2 ^ k := Nat.lt_two_pow_self
  have h4 : 2 ^ (2 * k + 1) = 2 * (2 ^ k * 2 ^ k) := by
    rw [Nat.pow_succ, Nat.two_mul, Nat.pow_add]; omega
  have h5 := Nat.mul_le_mul h3 h3
  rw [h4]
  have h6 : a * (2 * (2 * k)) ≤ 2 * (k * k) := by
    have : 2 * a ≤ k := by omega
    have := Nat.mul_le_mul_right k this
    rw [show a * (2 * (2 * k)) = 2 * (2 * a * k) by rw [Nat.mul_left_comm, Nat.mul_assoc, Nat.mul_left_comm a]]
    omega
  have h7 : (k + 1) * (k + 1) = k * k + 2 * k + 1 := by
    rw [Nat.add_mul, Nat.mul_add]; omega
  omega

/-- C73: what is counted is what `from_str` runs. -/
theorem c73_counted_parser (s : Str) : oldBody U P s = exact (oldC U P (s.length + 1)).2.run s := by
  unfold oldBody mapValues exact
  rw [(oldC_run U P _).2]

-- accepted; refused
example : fromStrCalls asciiClass (fun _ => none) "a{\na{\n}\n}\n".toList = 3 := by decide +kernel
example : fromStrCalls asciiClass (fun _ => none) "a{a{a{a{".toList = 31 := by decide +kernel
example : (match fromStr asciiClass (fun _ => none) "a{\na{\n}\n}\n".toList none with
    | .ok _ => true
    | _ => false) = true := by decide +kernel
example : nested 3 = "a{a{a{".toList := rfl

/-! ## C74: how deep the parsers recurse -/

/-- C74: `expression` is the recursion of its production, and the recursion stops; it is at most one level deeper than
there are opening brackets in the text. -/
theorem c74_expression_depth (s : Str) :
    expression U s = exprStep U (expression U) s ∧ expression U s ≠ .diverge ∧
    ∀ n, openers s < n → exprN U n s = expression U s := by
  refine ⟨expression_unfold s, ?_, fun n h => exprN_depth h⟩
  have := c03_expression_parse_terminates U s
  intro h
  unfold Expr.parse at this
  rw [h] at this
  exact this rfl

/-- C74: the same for the bodies of `parse_str`; the depth counts nested blocks. -/
theorem c74_body_depth (s : Str) :
    body U s = bodyStep U (body U) s ∧ body U s ≠ .diverge ∧ ∀ n, openers s < n → bodyN U n s = body U s := by
  refine ⟨body_unfold s, ?_, fun n h => bodyN_depth h⟩
  have := c03_parse_str_terminates U s
  intro h
  unfold parseStr configFile exact at this
  rw [h] at this
  exact this rfl

/-- C74: the legacy parser recurses through values and maps, at most two levels for every opening bracket. -/
theorem c74_legacy_depth (s : Str) :
    (singleValue U P s = valueStep U P (singleValue U P) (mapValues U P) s ∧
     mapValues U P s = mapStep U (singleValue U P) (mapValues U P) s) ∧
    (singleValue U P s ≠ .diverge ∧ mapValues U P s ≠ .diverge) ∧
    (∀ n, 2 * openers s < n → (oldN U P n).1 s = singleValue U P s) ∧
    (∀ n, 2 * openers s + 1 < n → (oldN U P n).2 s = mapValues U P s) :=
  ⟨old_unfold s, ⟨(Loc.oldN (s.length + 1)).1.div s (by omega), (Loc.oldN (s.length + 1)).2.div s (by omega)⟩,
    fun _ h => oldN_depth.1 h, fun _ h => oldN_depth.2 h⟩

/-- C74: there is no other limit on the depth, and the bounds are exact: for every `n` there are texts with `n` opening
brackets on which the recursion is cut short by any smaller limit. -/
theorem c74_depth_unbounded (n : Nat) :
    (openers (List.replicate n '[') = n ∧ exprN U n (List.replicate n '[') = .diverge) ∧
    (openers (deepBlocks n) = n ∧ bodyN U n (deepBlocks n) = .diverge) ∧
    (openers (deepAttrs n) = n ∧ (oldN U P (2 * n + 1)).2 (deepAttrs n) = .diverge) :=
  ⟨⟨brackets_openers n, exprN_deep U n⟩, ⟨deepBlocks_openers n, bodyN_deep U n⟩, ⟨deepAttrs_openers n, oldN_deep U P n⟩⟩

-- a flat list, however long, needs two levels; a nested one a level for each bracket
example : openers "[1, 2, 3, 4]".toList = 1 ∧ exprN asciiClass 2 "[1, 2, 3, 4]".toList ≠ .diverge ∧
    exprN asciiClass 1 "[1, 2, 3, 4]".toList = .diverge := by decide +kernel
example : openers "[[[]]]".toList = 3 ∧ exprN asciiClass 4 "[[[]]]".toList ≠ .diverge ∧
    exprN asciiClass 3 "[[[]]]".toList = .diverge := by decide +kernel

end Verif.Props
