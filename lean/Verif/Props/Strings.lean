import Verif.Proofs.Position
import Verif.Proofs.Decide
import Verif.Spec.Print
import Verif.Props.Document
/-! # Strings and heredocs: C05–C09, C55 -/
set_option autoImplicit false

namespace Verif.Props
open Verif Spec PRes

variable (U : CharClass)

/-! ## C05 -/

theorem content_quote (t r : Str) :
    Content Plain (t.flatMap fun c => if c = '\\' ∨ c = '"' then ['\\', c] else [c]) t r := by
  induction t with
  | nil => exact .nil _
  | cons c t ih =>
    rw [List.flatMap_cons]
    by_cases hc : c = '\\' ∨ c = '"'
    · rw [if_pos hc]
      exact .escape [c] c _ _ _ (.simple c c _ (by rcases hc with rfl | rfl <;> decide)) ih
    · rw [if_neg hc]
      exact .plain c _ _ _ ⟨fun h => hc (.inl h), fun h => hc (.inr h)⟩ ih

theorem quoted_quote (t r : Str) : Quoted Plain (quote t ++ r) t r :=
  ⟨_, by simp [quote], content_quote t _⟩

/-- C05: for every text `t`, writing `t` between double quotes with backslash and double quote escaped parses as
exactly the string `t`. -/
theorem c05_unescape_inverts_escape (t : Str) : Expr.parse U (quote t) = .ok (.string (.ownedS t)) := by
  rw [c20_expression_parse_ok]
  exact .string _ _ _ (.quoted _ _ _ (by simpa using quoted_quote t []))

/-- C05, inside a document: the attribute has the string `t` as its value, and what follows is unaffected. -/
theorem c05_in_document (pre i t u : Str) (a c : Body) (hpre : parseStr U pre = .ok a) (hi : IsIdent U i) :
    parseStr U (pre ++ '\n' :: (i ++ '=' :: quote t ++ '\n' :: u)) = .ok c ↔
      ∃ b, c = a ++ .attribute (.borrowed i) (.string (.ownedS t)) :: b ∧ parseStr U u = .ok b := by
  have := c15_attribute_layout U pre i [] [] (quote t) [] ['\n'] u a c _ hpre hi .nil .nil
    (c05_unescape_inverts_escape U t) .nil (.eol _ .lf)
  simpa using this

/-- C05: the value of a quoted string is what its content denotes: characters other than backslash and double
quote for themselves, escapes (`\n`, octal, `\x`, `\u`, `\U`, …) for their character. -/
theorem c05_quoted_string_value (src : Str) (v : CowStr) :
    Expr.parse U ('"' :: src ++ ['"']) = .ok (.string v) ↔ ∃ t, v = .ownedS t ∧ Content Plain src t ['"'] := by
  rw [c20_expression_parse_ok]
  constructor
  · intro h
    generalize hs : '"' :: src ++ ['"'] = s at h
    cases h with
    | string =>
      rename_i h
      cases h with
      | quoted =>
        rename_i t h
        obtain ⟨src', e, hc⟩ := h
        rw [e] at hs
        simp at hs
        subst hs
        exact ⟨t, rfl, hc⟩
      | heredoc => rename_i h; obtain ⟨t, rfl⟩ := h.head; cases hs
    | bracket =>
      rename_i x u w a1 a2 a3 a4
      subst hs
      have : '"' :: src ++ ['"'] = '(' :: x := skip_eq_of_not_starts ‹_› (not_starts_layout (by decide))
      cases this
  · rintro ⟨t, rfl, h⟩
    exact .string _ _ _ (.quoted _ _ _ ⟨src, rfl, h⟩)

/-- C05: each single-letter escape denotes its character, anywhere in a string. -/
theorem c05_simple_escape (x y v w : Str) (k c : Char) (hk : (k, c) ∈ simpleEscapes)
    (hx : ∀ d ∈ x, Plain d) (hy : Expr.parse U ('"' :: y ++ ['"']) = .ok (.string (.ownedS w))) (hv : v = x ++ c :: w) :
    Expr.parse U ('"' :: (x ++ '\\' :: k :: y) ++ ['"']) = .ok (.string (.ownedS v)) := by
  rw [c05_quoted_string_value] at hy ⊢
  obtain ⟨t, ht, hy⟩ := hy
  injection ht with _ ht; subst ht
  refine ⟨v, rfl, ?_⟩
  subst hv
  induction x with
  | nil => exact .escape [k] c y w _ (.simple k c _ hk) hy
  | cons d x ih => exact .plain d _ _ _ (hx d (by simp)) (ih fun d hd => hx d (by simp [hd]))

/-- C05: a character of code `c` may be written with the full number of digits: `\UXXXXXXXX`, `\uXXXX`, `\xXX` or
three octal digits. -/
theorem c05_numeric_escape (ds : Str) (c : Char) :
    ((ds.length = 8 ∧ Numeral 16 ds c.toNat) → Expr.parse U ('"' :: '\\' :: 'U' :: ds ++ ['"']) = .ok (.string (.ownedS [c]))) ∧
    ((ds.length = 4 ∧ Numeral 16 ds c.toNat) → Expr.parse U ('"' :: '\\' :: 'u' :: ds ++ ['"']) = .ok (.string (.ownedS [c]))) ∧
    ((ds.length = 2 ∧ Numeral 16 ds c.toNat) → Expr.parse U ('"' :: '\\' :: 'x' :: ds ++ ['"']) = .ok (.string (.ownedS [c]))) ∧
    ((ds.length = 3 ∧ Numeral 8 ds c.toNat) → Expr.parse U ('"' :: '\\' :: ds ++ ['"']) = .ok (.string (.ownedS [c]))) := by
  have key : ∀ e, Escape e c ['"'] → Expr.parse U ('"' :: ('\\' :: e) ++ ['"']) = .ok (.string (.ownedS [c])) := by
    intro e he
    rw [c05_quoted_string_value]
    refine ⟨_, rfl, ?_⟩
    have := Content.escape (plain := Plain) e c [] [] ['"'] (by simpa using he) (.nil _)
    simpa using this
  refine ⟨?_, ?_, ?_, ?_⟩ <;> rintro ⟨hl, hn⟩
  · exact key ('U' :: ds) (.hex 'U' 8 ds c _ (by decide) (by rintro rfl; cases hl) (by omega) (.inl hl) hn)
  · exact key ('u' :: ds) (.hex 'u' 4 ds c _ (by decide) (by rintro rfl; cases hl) (by omega) (.inl hl) hn)
  · exact key ('x' :: ds) (.hex 'x' 2 ds c _ (by decide) (by rintro rfl; cases hl) (by omega) (.inl hl) hn)
  · exact key ds (.octal ds c _ (by rintro rfl; cases hl) (by omega) (.inl hl) hn)

example : Expr.parse asciiClass "\"a\\n\\x41\\u00e9\\U0001F600\\101\\\\\\\"\"".toList =
    .ok (.string (.ownedS ['a', '\n', 'A', 'é', '😀', 'A', '\\', '"'])) := by decide +kernel

example : quote ['a', '"', '\\'] = ['"', 'a', '\\', '"', '\\', '\\', '"'] := by decide

/-! ## C06 -/

/-- C06: a document in which a quoted string, at any position where an expression or a block label is expected,
contains an invalid escape is rejected, whatever follows (the text after the backslash is arbitrary). -/
theorem c06_bad_escape_rejects_document (k : Kind) (s u : Str) (hat : BodyAt U k s u) (hu : BadEscape u) (b : Body) :
    parseStr U s ≠ .ok b := by
  rw [Ne, parseStr_iff]
  exact bodyAt_stuck hat (BadEscape.stuck hu k) b [] (.inl rfl)

/-- C06 for `Expression::parse`: neither accepted nor reported as an expression with remaining input. -/
theorem c06_bad_escape_rejects_expression (s u : Str) (hat : ExprAt U s u) (hu : BadEscape u) :
    Expr.parse U s = .error .parse ∨ (∃ t, Expr.parse U s = .error (.invalidUnicodeCodePoint t)) ∨ Expr.parse U s = .panic :=
  c20_expression_parse_error U s fun ⟨e, r, h⟩ => exprAt_stuck hat (BadEscape.stuck hu _) e r h

/-- C06: which escapes are invalid, 1: a character that is neither a digit 0–7 nor one of the escape letters. -/
theorem c06_unknown_letter (src v t : Str) (k : Char) (hsrc : Content Plain src v ('\\' :: k :: t))
    (hk : k ∉ ['a', 'b', 'f', 'n', 'r', 't', 'v', '\\', '"', '?', 'x', 'u', 'U']) (hd : ¬ ('0' ≤ k ∧ k ≤ '7')) :
    BadEscape ('"' :: src ++ '\\' :: k :: t) := by
  refine ⟨src, v, k :: t, rfl, hsrc, ?_⟩
  rintro ⟨e, c, r, he, h⟩
  cases h with
  | simple k' _ _ h =>
    injection he with he _; subst he
    simp [simpleEscapes] at h
    rcases h with ⟨rfl, -⟩ | ⟨rfl, -⟩ | ⟨rfl, -⟩ | ⟨rfl, -⟩ | ⟨rfl, -⟩ | ⟨rfl, -⟩ | ⟨rfl, -⟩ |
        ⟨rfl, -⟩ | ⟨rfl, -⟩ | ⟨rfl, -⟩ <;> simp at hk
  | octal _ _ _ h1 h2 h3 h4 =>
    cases e with
    | nil => exact h1 rfl
    | cons d e =>
      injection he with he _; subst he
      have := ((numeral_iff (f := isOctDigit) (by omega : (8:Nat) ≤ 16) (fun c => digit8_iff)).1 h4).1 k (by simp)
      simp [isOctDigit] at this
      exact hd ⟨this.1, this.2⟩
  | hex k' n ds _ _ h =>
    injection he with he _; subst he
    simp [hexEscapes] at h
    rcases h with ⟨rfl, -⟩ | ⟨rfl, -⟩ | ⟨rfl, -⟩ <;> simp at hk

/-- C06: which escapes are invalid, 2: eight hexadecimal digits (`\U`), or four (`\u`), naming a number that is
not a Unicode scalar value (a surrogate, or beyond U+10FFFF). -/
theorem c06_not_a_scalar_value (src v ds t : Str) (k : Char) (max n : Nat)
    (hk : (k, max) = ('U', 8) ∨ (k, max) = ('u', 4)) (hsrc : Content Plain src v ('\\' :: k :: ds ++ t))
    (hlen : ds.length = max) (hn : Numeral 16 ds n) (hv : ¬ ∃ c : Char, c.toNat = n) :
    BadEscape ('"' :: src ++ '\\' :: k :: ds ++ t) := by
  refine ⟨src, v, k :: ds ++ t, by simp, hsrc, ?_⟩
  rintro ⟨e, c, r, he, h⟩
  have hN := fun ds c => @numeral_iff 16 isHexDigit (by omega) (fun c => digit16_iff) ds c
  cases h with
  | simple k' _ _ h =>
    injection he with he _; subst he
    rcases hk with hk | hk <;> injection hk with hk _ <;> subst hk <;> revert h <;> simp [simpleEscapes]
  | octal _ _ _ h1 h2 h3 h4 =>
    cases e with
    | nil => exact h1 rfl
    | cons d e =>
      injection he with he _; subst he
      have := ((numeral_iff (f := isOctDigit) (by omega : (8:Nat) ≤ 16) (fun c => digit8_iff)).1 h4).1 k (by simp)
      rcases hk with hk | hk <;> injection hk with hk _ <;> subst hk <;> revert this <;> decide
  | hex k' n' ds' _ _ h h1 h2 h3 h4 =>
    injection he with he e; subst he
    have hmax : n' = max := by
      simp [hexEscapes] at h
      rcases hk with hk | hk <;> injection hk with hk hm <;> subst hk <;> simp at h <;> omega
    subst hmax
    -- the digits taken are exactly `ds`
    have hall := ((hN _ _).1 hn).1
    have heq : ds' = ds := by
      rcases h3 with h3 | h3
      · exact (List.append_inj e (by omega)).1.symm
      · rcases Nat.lt_or_ge ds'.length ds.length with hlt | hge
        · exfalso
          have : ds'.length < (ds ++ t).length := by simp; omega
          apply h3
          have hr : r = (ds ++ t).drop ds'.length := by rw [show ds ++ t = ds' ++ r from e]; simp
          rw [List.drop_append_of_le_length (by omega)] at hr
          cases hd : ds.drop ds'.length with
          | nil => have := congrArg List.length hd; simp at this; omega
          | cons x xs =>
            rw [hd] at hr
            refine ⟨x, xs ++ t, hr, digit16_iff.1 (hall x ?_) |>.elim fun v hv => ⟨v, hv⟩⟩
            exact List.mem_of_mem_drop (by rw [hd]; simp)
        · exact (List.append_inj e (by omega)).1.symm
    subst heq
    apply hv
    exact ⟨c, ((hN _ _).1 h4).2.symm.trans ((hN _ _).1 hn).2⟩

/-- C06: which escapes are invalid, 3: `\\x`, `\\u` or `\\U` without a hexadecimal digit. -/
theorem c06_missing_digits (src v t : Str) (k : Char) (hk : k = 'x' ∨ k = 'u' ∨ k = 'U')
    (hsrc : Content Plain src v ('\\' :: k :: t)) (ht : ¬ Head (fun d => ∃ v, Digit 16 d v) t) :
    BadEscape ('"' :: src ++ '\\' :: k :: t) := by
  refine ⟨src, v, k :: t, rfl, hsrc, ?_⟩
  rintro ⟨e, c, r, he, h⟩
  cases h with
  | simple k' _ _ h =>
    injection he with he _; subst he
    rcases hk with hk | hk | hk <;> subst hk <;> revert h <;> simp [simpleEscapes]
  | octal _ _ _ h1 h2 h3 h4 =>
    cases e with
    | nil => exact h1 rfl
    | cons d e =>
      injection he with he _; subst he
      have := ((numeral_iff (f := isOctDigit) (by omega : (8:Nat) ≤ 16) (fun c => digit8_iff)).1 h4).1 k (by simp)
      rcases hk with hk | hk | hk <;> subst hk <;> revert this <;> decide
  | hex k' n ds _ _ h h1 h2 h3 h4 =>
    injection he with _ he
    cases ds with
    | nil => exact h1 rfl
    | cons d ds =>
      have := ((numeral_iff (f := isHexDigit) (by omega : (16:Nat) ≤ 16) (fun c => digit16_iff)).1 h4).1 d (by simp)
      exact ht ⟨d, _, he, digit16_iff.1 this⟩

/-- Non-vacuity of C06: line 1 `a = 1`, line 2 `b "l" {`, line 3 ` c = [null, {k = "x\q"}]`. -/
example : BodyAt asciiClass .expression ['a', ' ', '=', ' ', '1', '\n', 'b', ' ', '"', 'l', '"', ' ', '{', '\n', ' ', 'c', ' ', '=', ' ', '[', 'n', 'u', 'l', 'l', ',', ' ', '{', 'k', ' ', '=', ' ', '"', 'x', '\\', 'q', '"', '}', ']'] ['"', 'x', '\\', 'q', '"', '}', ']'] ∧ BadEscape ['"', 'x', '\\', 'q', '"', '}', ']'] := by
  refine ⟨?_, c06_unknown_letter ['x'] ['x'] _ 'q' (.plain _ _ _ _ (by unfold Plain; decide) (.nil _)) (by decide) (by decide)⟩
  obtain ⟨el, hel⟩ := isElement_eval (U := asciiClass) (s := ['a', ' ', '=', ' ', '1', '\n', 'b', ' ', '"', 'l', '"', ' ', '{', '\n', ' ', 'c', ' ', '=', ' ', '[', 'n', 'u', 'l', 'l', ',', ' ', '{', 'k', ' ', '=', ' ', '"', 'x', '\\', 'q', '"', '}', ']']) (r := ['\n', 'b', ' ', '"', 'l', '"', ' ', '{', '\n', ' ', 'c', ' ', '=', ' ', '[', 'n', 'u', 'l', 'l', ',', ' ', '{', 'k', ' ', '=', ' ', '"', 'x', '\\', 'q', '"', '}', ']']) (by decide +kernel) (by decide +kernel)
  obtain ⟨ls, hls⟩ := isLabels_eval (U := asciiClass) (s := [' ', '"', 'l', '"', ' ', '{', '\n', ' ', 'c', ' ', '=', ' ', '[', 'n', 'u', 'l', 'l', ',', ' ', '{', 'k', ' ', '=', ' ', '"', 'x', '\\', 'q', '"', '}', ']']) (t := ['{', '\n', ' ', 'c', ' ', '=', ' ', '[', 'n', 'u', 'l', 'l', ',', ' ', '{', 'k', ' ', '=', ' ', '"', 'x', '\\', 'q', '"', '}', ']']) (r := ['\n', ' ', 'c', ' ', '=', ' ', '[', 'n', 'u', 'l', 'l', ',', ' ', '{', 'k', ' ', '=', ' ', '"', 'x', '\\', 'q', '"', '}', ']'])
    (by decide +kernel) (by decide +kernel)
  obtain ⟨e, he⟩ := isExpr_eval (U := asciiClass) (s := ['n', 'u', 'l', 'l', ',', ' ', '{', 'k', ' ', '=', ' ', '"', 'x', '\\', 'q', '"', '}', ']']) (r := [',', ' ', '{', 'k', ' ', '=', ' ', '"', 'x', '\\', 'q', '"', '}', ']']) (by decide +kernel)
  exact .next _ _ _ _ _ _ el (skipLayout_eval (by decide +kernel)) hel
    (.newline _ ['b', ' ', '"', 'l', '"', ' ', '{', '\n', ' ', 'c', ' ', '=', ' ', '[', 'n', 'u', 'l', 'l', ',', ' ', '{', 'k', ' ', '=', ' ', '"', 'x', '\\', 'q', '"', '}', ']'] (newlines_eval (by decide +kernel)))
    (.block _ _ _ ['b'] _ _ ['\n', ' ', 'c', ' ', '=', ' ', '[', 'n', 'u', 'l', 'l', ',', ' ', '{', 'k', ' ', '=', ' ', '"', 'x', '\\', 'q', '"', '}', ']'] [' ', 'c', ' ', '=', ' ', '[', 'n', 'u', 'l', 'l', ',', ' ', '{', 'k', ' ', '=', ' ', '"', 'x', '\\', 'q', '"', '}', ']'] _ ls (skipLayout_eval (r := ['b', ' ', '"', 'l', '"', ' ', '{', '\n', ' ', 'c', ' ', '=', ' ', '[', 'n', 'u', 'l', 'l', ',', ' ', '{', 'k', ' ', '=', ' ', '"', 'x', '\\', 'q', '"', '}', ']']) (by decide +kernel))
      (ident_eval (by decide +kernel)) hls (skipInline_eval (by decide +kernel)) (newlines_eval (by decide +kernel))
      (.attribute _ ['c', ' ', '=', ' ', '[', 'n', 'u', 'l', 'l', ',', ' ', '{', 'k', ' ', '=', ' ', '"', 'x', '\\', 'q', '"', '}', ']'] _ (skipLayout_eval (by decide +kernel))
        (.mk _ ['c'] [' ', '=', ' ', '[', 'n', 'u', 'l', 'l', ',', ' ', '{', 'k', ' ', '=', ' ', '"', 'x', '\\', 'q', '"', '}', ']'] [' ', '[', 'n', 'u', 'l', 'l', ',', ' ', '{', 'k', ' ', '=', ' ', '"', 'x', '\\', 'q', '"', '}', ']'] ['[', 'n', 'u', 'l', 'l', ',', ' ', '{', 'k', ' ', '=', ' ', '"', 'x', '\\', 'q', '"', '}', ']'] _ (ident_eval (by decide +kernel)) (skipInline_eval (by decide +kernel))
          (skipInline_eval (by decide +kernel))
          (.tuple _ _ (.next _ ['n', 'u', 'l', 'l', ',', ' ', '{', 'k', ' ', '=', ' ', '"', 'x', '\\', 'q', '"', '}', ']'] [',', ' ', '{', 'k', ' ', '=', ' ', '"', 'x', '\\', 'q', '"', '}', ']'] [' ', '{', 'k', ' ', '=', ' ', '"', 'x', '\\', 'q', '"', '}', ']'] _ e (skipLayout_eval (by decide +kernel)) he
            (skipLayout_eval (by decide +kernel))
            (.elem _ ['{', 'k', ' ', '=', ' ', '"', 'x', '\\', 'q', '"', '}', ']'] _ (skipLayout_eval (by decide +kernel))
              (.object _ ['k', ' ', '=', ' ', '"', 'x', '\\', 'q', '"', '}', ']'] _ (skipLayout_eval (by decide +kernel))
                (.value _ ['k', ' ', '=', ' ', '"', 'x', '\\', 'q', '"', '}', ']'] [' ', '=', ' ', '"', 'x', '\\', 'q', '"', '}', ']'] [' ', '"', 'x', '\\', 'q', '"', '}', ']'] ['"', 'x', '\\', 'q', '"', '}', ']'] _ (.ident (.borrowed ['k']))
                  (skipLayout_eval (by decide +kernel)) (.ident _ _ _ (ident_eval (by decide +kernel)))
                  (skipInline_eval (by decide +kernel)) (skipInline_eval (by decide +kernel)) (.here _)))))))))

/-! ## C07 -/

theorem escape_no_newline {e : Str} {c : Char} {r : Str} (h : Escape e c r) : ∀ d ∈ e, d ≠ '\r' ∧ d ≠ '\n' := by
  cases h with
  | simple k _ _ h =>
    intro d hd
    simp at hd; subst hd
    constructor <;> rintro rfl <;> revert h <;> simp [simpleEscapes]
  | octal _ _ _ h1 h2 h3 h4 =>
    intro d hd
    have := ((numeral_iff (f := isOctDigit) (by omega : (8:Nat) ≤ 16) (fun c => digit8_iff)).1 h4).1 d hd
    constructor <;> rintro rfl <;> revert this <;> decide
  | hex k n ds _ _ h h1 h2 h3 h4 =>
    intro d hd
    rcases List.mem_cons.1 hd with rfl | hd
    · constructor <;> rintro rfl <;> revert h <;> simp [hexEscapes]
    · have := ((numeral_iff (f := isHexDigit) (by omega : (16:Nat) ≤ 16) (fun c => digit16_iff)).1 h4).1 d hd
      constructor <;> rintro rfl <;> revert this <;> decide

/-- C07: what `string_literal` (labels, keys) accepts contains no raw carriage return or line feed. -/
theorem c07_string_literal_is_single_line (s r v : Str) (h : stringLiteral s = .ok r v) :
    ∃ src, s = '"' :: src ++ '"' :: r ∧ (∀ d ∈ src, d ≠ '\r' ∧ d ≠ '\n') ∧ Content PlainLine src v ('"' :: r) := by
  obtain ⟨src, rfl, hc⟩ := stringLiteral_iff.1 h
  refine ⟨src, rfl, ?_, hc⟩
  clear h
  generalize '"' :: r = q at hc
  induction hc with
  | nil => simp
  | plain c s v r hp _ ih =>
    intro d hd
    rcases List.mem_cons.1 hd with rfl | hd
    · exact ⟨hp.2.2.1, hp.2.2.2⟩
    · exact ih d hd
  | escape e c s v r he _ ih =>
    intro d hd
    rw [List.cons_append, List.mem_cons, List.mem_append] at hd
    rcases hd with rfl | hd | hd
    · decide
    · exact escape_no_newline he d hd
    · exact ih d hd

/-- C07: conversely the two kinds of string agree on single-line content. -/
theorem c07_string_literal_accepts_single_line (src v r : Str) (h : Content Plain src v ('"' :: r))
    (hs : ∀ d ∈ src, d ≠ '\r' ∧ d ≠ '\n') : stringLiteral ('"' :: src ++ '"' :: r) = .ok r v := by
  rw [stringLiteral_iff]
  refine ⟨src, rfl, ?_⟩
  generalize '"' :: r = q at h
  induction h with
  | nil r => exact .nil r
  | plain c s v r hp _ ih => exact .plain c s v r ⟨hp.1, hp.2, hs c (by simp)⟩ (ih fun d hd => hs d (by simp [hd]))
  | escape e c s v r he _ ih => exact .escape e c s v r he (ih fun d hd => hs d (by simp [hd]))

/-- C07: quoted string expressions keep raw characters, line ends included, verbatim. -/
theorem c07_quoted_string_keeps_line_ends (t : Str) (h : ∀ c ∈ t, c ≠ '\\' ∧ c ≠ '"') :
    Expr.parse U ('"' :: t ++ ['"']) = .ok (.string (.ownedS t)) := by
  rw [c05_quoted_string_value]
  refine ⟨t, rfl, ?_⟩
  induction t with
  | nil => exact .nil _
  | cons c t ih => exact .plain c t t _ (h c (by simp)) (ih fun d hd => h d (by simp [hd]))

/-- C07, in documents: a quoted block label broken over two lines makes the document invalid, whatever precedes and
follows it. -/
theorem c07_multiline_label_rejected (s src v r : Str) (hat : BodyAt U .label s ('"' :: src ++ '"' :: r))
    (hc : Content Plain src v ('"' :: r)) (hn : ∃ d ∈ src, d = '\r' ∨ d = '\n') (b : Body) :
    parseStr U s ≠ .ok b := by
  rw [Ne, parseStr_iff]
  refine bodyAt_stuck hat ⟨⟨_, rfl⟩, ?_⟩ b [] (.inl rfl)
  intro v' r' hq
  obtain ⟨src', e, hs, hc'⟩ := c07_string_literal_is_single_line _ _ _ (stringLiteral_iff.2 hq)
  have h1 := quotedString_iff.2 ⟨src, rfl, hc⟩
  have h2 := quotedString_iff.2 ⟨src', e, content_mono (fun c h => ⟨h.1, h.2.1⟩) hc'⟩
  rw [h1] at h2
  injection h2 with h2 _; subst h2
  have : src = src' := by simpa using e
  subst this
  obtain ⟨d, hd, hn⟩ := hn
  have := hs d hd
  rcases hn with rfl | rfl <;> simp at this

/-- Non-vacuity of C07: a label with a line feed in a second block. -/
example : BodyAt asciiClass .label ['a', ' ', '{', '}', '\n', 'b', ' ', '"', 'x', '\n', '"', ' ', '{', '}'] ('"' :: ['x', '\n'] ++ '"' :: [' ', '{', '}']) := by
  obtain ⟨el, hel⟩ := isElement_eval (U := asciiClass) (s := ['a', ' ', '{', '}', '\n', 'b', ' ', '"', 'x', '\n', '"', ' ', '{', '}']) (r := ['\n', 'b', ' ', '"', 'x', '\n', '"', ' ', '{', '}']) (by decide +kernel) (by decide +kernel)
  exact .next _ _ _ _ _ _ el (skipLayout_eval (by decide +kernel)) hel
    (.newline _ ['b', ' ', '"', 'x', '\n', '"', ' ', '{', '}'] (newlines_eval (by decide +kernel)))
    (.label _ ['b', ' ', '"', 'x', '\n', '"', ' ', '{', '}'] ['b'] [' ', '"', 'x', '\n', '"', ' ', '{', '}'] _ (skipLayout_eval (by decide +kernel)) (ident_eval (by decide +kernel))
      (.here _ _ (skipInline_eval (by decide +kernel))))

example : Expr.parse asciiClass "\"a\r\nb\"".toList = .ok (.string (.ownedS ['a', '\r', '\n', 'b'])) := by decide +kernel
example : stringLiteral "\"a\nb\"".toList = .err := by decide +kernel

end Verif.Props
