import Verif.Proofs.Leaves
import Verif.Proofs.IntParse
import Verif.Props.Strings
/-! # Numbers and identifiers: C10, C11, C12, C13, C14 -/
set_option autoImplicit false

namespace Verif.Props
open Verif Spec PRes

variable (U : CharClass)

/-! ## C10 -/

/-- C10: the number parser takes the longest number literal at the start of the input. -/
theorem c10_longest_literal (s r : Str) (n : Number) : number s = .ok r n ↔
    ∃ t, s = t ++ r ∧ IsNumber t n ∧ ∀ p, p <+: r → p ≠ [] → ∀ m, ¬ IsNumber (t ++ p) m := number_iff

/-- C10: a number literal parses as an expression to that number. -/
theorem c10_literal_parses (t : Str) (n : Number) (h : IsNumber t n) : Expr.parse U t = .ok (.number n) := by
  rw [c20_expression_parse_ok]
  exact .number _ _ _ ⟨t, by simp, h, fun p hp hne => absurd (List.prefix_nil.1 hp) hne⟩

/-- C10: in a document, `name = literal` is an attribute with that number, and the rest is unaffected. -/
theorem c10_in_document (pre i t u : Str) (n : Number) (a c : Body) (hpre : parseStr U pre = .ok a)
    (hi : IsIdent U i) (h : IsNumber t n) :
    parseStr U (pre ++ '\n' :: (i ++ '=' :: t ++ '\n' :: u)) = .ok c ↔
      ∃ b, c = a ++ .attribute (.borrowed i) (.number n) :: b ∧ parseStr U u = .ok b := by
  have := c15_attribute_layout U pre i [] [] t [] ['\n'] u a c _ hpre hi .nil .nil
    (c10_literal_parses U t n h) .nil (.eol _ .lf)
  simpa using this

/-- C10: every number anywhere in the tree of an accepted document keeps, as its text, a literal of the document. -/
theorem c10_numbers_keep_their_text (s : Str) (b : Body) (n : Number) (h : parseStr U s = .ok b)
    (hn : .number n ∈ bodyLeaves b) : IsNumber n.text n ∧ n.text <:+: s := by
  rw [parseStr_iff] at h
  have := isBody_leaves h _ hn
  cases this with
  | number t _ h1 h2 =>
    have e : n.text = t := by rw [Number.text, isNumber_text h1]; rfl
    rw [e]; exact ⟨h1, h2⟩

/-- C10: a number is a float iff its text has a fraction or an exponent. -/
theorem c10_float_iff (t : Str) (n : Number) (h : IsNumber t n) :
    n.isFloat = true ↔ '.' ∈ t ∨ 'e' ∈ t ∨ 'E' ∈ t := by
  constructor
  · exact isNumber_float h
  · intro hc
    cases hs : n.isSigned with
    | false => simp [Number.isFloat, hs]
    | true =>
      exfalso
      obtain ⟨sg, ds, rfl, h1, h2⟩ := isNumber_signed h hs
      obtain ⟨m, hm⟩ := digits_value h2
      have := intLit_chars (.mk sg ds _ m h1 h2 hm)
      rcases hc with h | h | h
      · exact this.1 h
      · exact this.2.1 h
      · exact this.2.2 h

/-- C10: a number is an unsigned integer iff its text has no fraction, no exponent and no minus sign. -/
theorem c10_unsigned_iff (t : Str) (n : Number) (h : IsNumber t n) :
    n.isUnsigned = true ↔ ¬ ('.' ∈ t ∨ 'e' ∈ t ∨ 'E' ∈ t) ∧ ¬ Head (· = '-') t := by
  rw [← c10_float_iff t n h]
  have key : n.positive = true ↔ ¬ Head (· = '-') t := by
    cases h with
    | mk sg m x pos w f e h1 h2 h3 =>
      cases h1 with
      | none =>
        simp only [List.nil_append, true_iff]
        have := h2.head x
        obtain ⟨c, u, hu, hc⟩ := this
        rw [hu, head_cons]
        rintro rfl
        rcases hc with hc | hc
        · exact absurd hc (not_isDig (by decide))
        · exact absurd hc (by decide)
      | plus => simp only [List.cons_append, head_cons]; decide
      | minus => simp only [List.cons_append, head_cons]; decide
  rw [← key]
  simp [Number.isUnsigned, Number.isFloat]

example : IsNumber ['-', '1', '.', '5', 'e', '3']
    ⟨.borrowed ['-', '1', '.', '5', 'e', '3'], false, some (.borrowed ['1']), some (.borrowed ['5']),
      some ⟨true, .borrowed ['3']⟩⟩ := by
  have h : number ['-', '1', '.', '5', 'e', '3'] = .ok [] ⟨.borrowed ['-', '1', '.', '5', 'e', '3'], false,
      some (.borrowed ['1']), some (.borrowed ['5']), some ⟨true, .borrowed ['3']⟩⟩ := by decide +kernel
  obtain ⟨t, e, h⟩ := number_sound h
  rw [List.append_nil] at e
  exact e ▸ h

/-! ## C11 -/

/-- C11: a conversion returns `k` exactly when the literal is an integer literal denoting `k`, `k` is representable,
and — for the unsigned types — the literal has no minus sign (so `-0` is rejected). -/
theorem c11_conversion_exact (T : IntTy) (t : Str) (n : Number) (h : IsNumber t n) (k : Int) :
    n.asInt T = some k ↔ IntLit t k ∧ (T.min ≤ k ∧ k ≤ T.max) ∧ (T.signed = true ∨ ¬ Head (· = '-') t) := by
  rw [Number.asInt, isNumber_text h, ← inRange_iff]
  exact parseInt_iff

/-- C11: converting an integer literal gives its value or fails; never another integer. -/
theorem c11_never_wraps (T : IntTy) (t : Str) (n : Number) (h : IsNumber t n) (k k' : Int) (hk : IntLit t k)
    (h' : n.asInt T = some k') : k' = k :=
  intLit_functional ((c11_conversion_exact T t n h k').1 h').1 hk

/-- C11: every integer conversion fails on a float literal. -/
theorem c11_float_fails (T : IntTy) (t : Str) (n : Number) (h : IsNumber t n) (hf : n.isFloat = true) :
    n.asInt T = none := by
  cases he : n.asInt T with
  | none => rfl
  | some k => exact absurd ((c11_conversion_exact T t n h k).1 he).1 (float_not_intLit h hf)

/-- C11: an integer literal that is not a float literal denotes an integer. -/
theorem c11_integer_literal (t : Str) (n : Number) (h : IsNumber t n) (hf : n.isFloat = false) :
    ∃ k, IntLit t k := by
  obtain ⟨sg, ds, rfl, h1, h2⟩ := isNumber_signed h (by simpa [Number.isFloat] using hf)
  obtain ⟨m, hm⟩ := digits_value h2
  exact ⟨_, .mk sg ds _ m h1 h2 hm⟩

/-- The types to which this applies: all ten, e.g. 255 and 256 as `u8`. -/
example : ((Number.mk (.borrowed ['2', '5', '5']) true (some (.borrowed ['2', '5', '5'])) none none).asInt ⟨false, 8⟩,
    (Number.mk (.borrowed ['2', '5', '6']) true (some (.borrowed ['2', '5', '6'])) none none).asInt ⟨false, 8⟩,
    (Number.mk (.borrowed ['-', '1', '2', '8']) false (some (.borrowed ['1', '2', '8'])) none none).asInt ⟨true, 8⟩,
    (Number.mk (.borrowed ['-', '0']) false (some (.borrowed ['0'])) none none).asInt ⟨false, 8⟩) =
    (some 255, none, some (-128), none) := by decide +kernel

/-! ## C12 -/

/-- C12: two integer literals compare equal iff they denote the same integer and it fits 128 bits (between
`i128::MIN` and `u128::MAX`). -/
theorem c12_integer_equality (O : FloatOps) (s t : Str) (a b : Number) (ha : IsNumber s a) (hb : IsNumber t b)
    (j k : Int) (hj : IntLit s j) (hk : IntLit t k) :
    a.eq O b = true ↔ j = k ∧ -(2 ^ 127) ≤ j ∧ j < 2 ^ 128 := by
  have fa : a.isFloat = false := by
    cases h : a.isFloat with
    | false => rfl
    | true => exact absurd hj (float_not_intLit ha h)
  have fb : b.isFloat = false := by
    cases h : b.isFloat with
    | false => rfl
    | true => exact absurd hk (float_not_intLit hb h)
  have ea := c11_conversion_exact ⟨true, 128⟩ s a ha
  have eb := c11_conversion_exact ⟨true, 128⟩ t b hb
  have ea' := c11_conversion_exact ⟨false, 128⟩ s a ha
  have eb' := c11_conversion_exact ⟨false, 128⟩ t b hb
  have ua := c10_unsigned_iff s a ha
  have ub := c10_unsigned_iff t b hb
  have nega : Head (· = '-') s → j ≤ 0 := by
    intro h
    obtain ⟨sg, ds, pos, m, rfl, rfl, h1, h2, h3⟩ := intLit_cases.1 hj
    have : pos = false := by
      cases h1 with
      | none =>
        obtain ⟨c, u, hu, hc⟩ := h
        rw [List.nil_append] at hu; subst hu hc
        exact absurd rfl (digits_head_ne h2).2.1
      | plus => rw [List.cons_append, head_cons] at h; exact absurd h (by decide)
      | minus => rfl
    subst this; simp [sgn]
  have posa : ¬ Head (· = '-') s → 0 ≤ j := by
    intro h
    obtain ⟨sg, ds, pos, m, rfl, rfl, h1, h2, h3⟩ := intLit_cases.1 hj
    cases h1 with
    | none => simp [sgn]
    | plus => simp [sgn]
    | minus => exact absurd ⟨_, _, rfl, rfl⟩ h
  have negb : Head (· = '-') t → k ≤ 0 := by
    intro h
    obtain ⟨sg, ds, pos, m, rfl, rfl, h1, h2, h3⟩ := intLit_cases.1 hk
    have : pos = false := by
      cases h1 with
      | none =>
        obtain ⟨c, u, hu, hc⟩ := h
        rw [List.nil_append] at hu; subst hu hc
        exact absurd rfl (digits_head_ne h2).2.1
      | plus => rw [List.cons_append, head_cons] at h; exact absurd h (by decide)
      | minus => rfl
    subst this; simp [sgn]
  have notfloat : ∀ {u : Str} {l : Int}, IntLit u l → ¬ ('.' ∈ u ∨ 'e' ∈ u ∨ 'E' ∈ u) := by
    intro u l hl
    have := intLit_chars hl
    rintro (h | h | h)
    · exact this.1 h
    · exact this.2.1 h
    · exact this.2.2 h
  have conv : ∀ {u : Str} {n : Number} {T : IntTy} {l : Int}, IntLit u l →
      (∀ k, n.asInt T = some k ↔ IntLit u k ∧ (T.min ≤ k ∧ k ≤ T.max) ∧ (T.signed = true ∨ ¬ Head (· = '-') u)) →
      (T.signed = true ∨ ¬ Head (· = '-') u) →
      n.asInt T = if T.min ≤ l ∧ l ≤ T.max then some l else none := by
    intro u n T l hl h hs
    split
    · rename_i hc; exact (h l).2 ⟨hl, hc, hs⟩
    · rename_i hc
      cases hn : n.asInt T with
      | none => rfl
      | some m =>
        obtain ⟨h1, h2⟩ := (h m).1 hn
        rw [intLit_functional hl h1] at hc
        exact absurd h2.1 hc
  unfold Number.eq
  rw [fa, fb]
  simp only [Bool.or_self, Bool.false_eq_true, if_false]
  have m1 : IntTy.min ⟨true, 128⟩ = -(2 ^ 127) := by decide
  have m2 : IntTy.max ⟨true, 128⟩ = 2 ^ 127 - 1 := by decide
  have m3 : IntTy.min ⟨false, 128⟩ = 0 := by decide
  have m4 : IntTy.max ⟨false, 128⟩ = 2 ^ 128 - 1 := by decide
  by_cases hu : (a.isUnsigned && b.isUnsigned) = true
  · rw [if_pos hu]
    rw [Bool.and_eq_true, ua, ub] at hu
    obtain ⟨⟨-, h1⟩, -, h2⟩ := hu
    rw [conv hj ea' (.inr h1), conv hk eb' (.inr h2), m3, m4]
    have := posa h1
    by_cases c1 : 0 ≤ j ∧ j ≤ 2 ^ 128 - 1
    · rw [if_pos c1]
      by_cases c2 : 0 ≤ k ∧ k ≤ 2 ^ 128 - 1
      · rw [if_pos c2]; simp only [beq_iff_eq]; omega
      · rw [if_neg c2]; simp only [Bool.false_eq_true, false_iff]; omega
    · rw [if_neg c1]; simp only [Bool.false_eq_true, false_iff]; omega
  · rw [if_neg hu]
    have hneg : j ≤ 0 ∨ k ≤ 0 := by
      rw [Bool.and_eq_true, ua, ub] at hu
      by_cases h1 : Head (· = '-') s
      · exact .inl (nega h1)
      · by_cases h2 : Head (· = '-') t
        · exact .inr (negb h2)
        · exact absurd ⟨⟨notfloat hj, h1⟩, notfloat hk, h2⟩ hu
    rw [conv hj ea (.inl rfl), conv hk eb (.inl rfl), m1, m2]
    by_cases c1 : -(2 ^ 127) ≤ j ∧ j ≤ 2 ^ 127 - 1
    · rw [if_pos c1]
      by_cases c2 : -(2 ^ 127) ≤ k ∧ k ≤ 2 ^ 127 - 1
      · rw [if_pos c2]; simp only [beq_iff_eq]; omega
      · rw [if_neg c2]; simp only [Bool.false_eq_true, false_iff]; omega
    · rw [if_neg c1]; simp only [Bool.false_eq_true, false_iff]; omega

/-- C12, the full property fails: equality is not reflexive on integer literals beyond 128 bits. -/
theorem c12_not_reflexive (O : FloatOps) (t : Str) (n : Number) (k : Int) (h : IsNumber t n) (hk : IntLit t k)
    (hbig : 2 ^ 128 ≤ k ∨ k < -(2 ^ 127)) : n.eq O n = false := by
  cases he : n.eq O n with
  | false => rfl
  | true =>
    have := (c12_integer_equality O t t n n h h k k hk hk).1 he
    omega

/-- C12: two literals one of which is a float are equal only if the standard library parses both as floats that are
close. -/
theorem c12_float_equality (O : FloatOps) (t u : Str) (a b : Number) (ha : IsNumber t a) (hb : IsNumber u b)
    (hf : a.isFloat = true ∨ b.isFloat = true) :
    a.eq O b = true ↔ ∃ x y, O.parse t = some x ∧ O.parse u = some y ∧ O.close (O.abs x) (O.abs y) = true := by
  unfold Number.eq
  rw [if_pos (by simpa using hf), isNumber_text ha, isNumber_text hb]
  simp only [CowStr.borrowed]
  cases O.parse t <;> cases O.parse u <;> simp

/-- C12, the full property fails for floats: the sign is ignored (`1.5 == -1.5`), for any float type in which a
minus sign does not change the absolute value. -/
theorem c12_float_sign_ignored (O : FloatOps) (t : Str) (a b : Number) (x y : O.F) (ha : IsNumber t a)
    (hb : IsNumber ('-' :: t) b) (hf : a.isFloat = true) (hx : O.parse t = some x) (hy : O.parse ('-' :: t) = some y)
    (hab : O.abs y = O.abs x) (hrefl : O.close (O.abs x) (O.abs x) = true) : a.eq O b = true := by
  unfold Number.eq
  rw [hf, isNumber_text ha, isNumber_text hb]
  simp only [Bool.true_or, if_true, CowStr.borrowed]
  rw [hx, hy]
  simp only [hab, hrefl]

/-- Non-vacuity: 2^128 and 1.5 / -1.5. -/
example : ∃ n, IsNumber (decimal (2 ^ 128)) n ∧ IntLit (decimal (2 ^ 128)) (2 ^ 128) ∧ ∀ O, n.eq O n = false := by
  have h := decimal_spec (2 ^ 128)
  have hl : IntLit (decimal (2 ^ 128)) (2 ^ 128) := by
    have := IntLit.mk [] (decimal (2 ^ 128)) true _ .none h.1.1 h.2
    simpa using this
  have hn := IsNumber.mk [] (decimal (2 ^ 128)) [] true _ _ _ .none (.int _ h.1.1) .none
  simp only [List.nil_append, List.append_nil] at hn
  exact ⟨_, hn, hl, fun O => c12_not_reflexive O _ _ _ hn hl (.inl (by decide))⟩

/-! ## C13 -/

/-- C13: `Number::from(k)` for a built-in integer type: defined except for the minimum of a signed type with overflow
checks; its text is the canonical decimal text of `k`; it is an integer, unsigned iff nonnegative; the parser reads
the text as the same number (up to ownership of the strings); and converting back gives `k`. -/
theorem c13_from_integer (T : IntTy) (checks : Bool) (k : Int) (hk : T.min ≤ k ∧ k ≤ T.max)
    (hmin : T.signed = true → k ≠ T.min) :
    ∃ n, Number.fromInt T checks k = some n ∧
      IntLit n.text k ∧ n.isFloat = false ∧ (n.isUnsigned = true ↔ 0 ≤ k) ∧ n.asInt T = some k ∧
      ∃ m, Expr.parse U n.text = .ok (.number m) ∧ m.text = n.text ∧ m.positive = n.positive ∧
        m.whole.map CowStr.str = n.whole.map CowStr.str ∧ m.fraction = n.fraction ∧ m.exponent = n.exponent := by
  have hl := decimalInt_spec k
  have hd := decimal_spec k.natAbs
  -- the parsed form of the text
  have hparse : ∃ m, IsNumber (decimalInt k) m ∧ m.positive = decide (0 ≤ k) ∧
      m.whole = some (.borrowed (decimal k.natAbs)) ∧ m.fraction = none ∧ m.exponent = none := by
    unfold decimalInt
    by_cases h : k < 0
    · rw [if_pos h]
      have hn := IsNumber.mk ['-'] (decimal k.natAbs) [] false _ _ _ .minus (.int _ hd.1.1) .none
      simp only [List.append_nil] at hn
      exact ⟨_, hn, by simp; omega, rfl, rfl, rfl⟩
    · rw [if_neg h]
      have hn := IsNumber.mk [] (decimal k.natAbs) [] true _ _ _ .none (.int _ hd.1.1) .none
      simp only [List.append_nil, List.nil_append] at hn
      exact ⟨_, hn, by simp; omega, rfl, rfl, rfl⟩
  obtain ⟨m, hm, hpos, hw, hfr, hex⟩ := hparse
  have hm2 := isNumber_text hm
  have habs : decimalInt (k.natAbs : Int) = decimal k.natAbs := by
    unfold decimalInt; rw [if_neg (by omega)]; simp
  have hback : parseInt T (decimalInt k) = some k := by
    rw [parseInt_iff]
    refine ⟨hl, inRange_iff.2 hk, ?_⟩
    cases hs : T.signed with
    | true => exact .inl rfl
    | false =>
      right
      have h0 : 0 ≤ k := by have := hk.1; simp [IntTy.min, hs] at this; exact this
      unfold decimalInt; rw [if_neg (by omega)]
      rintro ⟨c, u, hu, rfl⟩
      have := hd.1.1; rw [hu] at this
      exact (digits_head_ne this).2.1 rfl
  have hp := c10_literal_parses U _ _ hm
  have hpos' : T.signed = false → 0 ≤ k := fun hs => by
    have := hk.1; simp [IntTy.min, hs] at this; exact this
  cases hs : T.signed with
  | true =>
    refine ⟨⟨.ownedS (decimalInt k), decide (0 ≤ k), some (.ownedS (decimal k.natAbs)), none, none⟩,
      by simp only [Number.fromInt, hs, if_true, IntTy.abs, if_neg (hmin hs), Option.map_some, habs], hl, rfl,
      by simp [Number.isUnsigned, Number.isSigned], hback, m, hp, by rw [Number.text, hm2]; rfl, hpos, ?_, hfr, hex⟩
    rw [hw]; rfl
  | false =>
    have e : decimalInt k = decimal k.natAbs := by unfold decimalInt; rw [if_neg (by have := hpos' hs; omega)]
    refine ⟨⟨.ownedS (decimalInt k), true, some (.ownedS (decimalInt k)), none, none⟩,
      by simp [Number.fromInt, hs], hl, rfl,
      by simp [Number.isUnsigned, Number.isSigned]; exact hpos' hs, hback, m, hp, by rw [Number.text, hm2]; rfl,
      by rw [hpos]; simp; exact hpos' hs, ?_, hfr, hex⟩
    rw [hw, e]; rfl

/-- C13: with overflow checks, `Number::from(iN::MIN)` panics. -/
theorem c13_min_panics (T : IntTy) (h : T.signed = true) : Number.fromInt T true T.min = none := by
  simp [Number.fromInt, h, IntTy.abs]

/-- C13: without overflow checks, for every signed type, `Number::from(iN::MIN)` has the right text and converts back,
but what it has as its whole part is the text with the minus sign, which is not what the parser gives for that text. -/
theorem c13_min_wraps (T : IntTy) (h : T.signed = true) :
    ∃ n, Number.fromInt T false T.min = some n ∧ IntLit n.text T.min ∧ n.positive = false ∧ n.asInt T = some T.min ∧
      n.whole.map CowStr.str = some n.text ∧
      ∀ m, Expr.parse U n.text = .ok (.number m) → m.whole.map CowStr.str ≠ n.whole.map CowStr.str := by
  have hneg : T.min < 0 := by
    have : 0 < 2 ^ (T.bits - 1) := Nat.pow_pos (by decide)
    simp only [IntTy.min, h, if_true]; omega
  have hd := decimal_spec T.min.natAbs
  have hmax : T.min ≤ T.max := by
    have : 0 < 2 ^ (T.bits - 1) := Nat.pow_pos (by decide)
    simp only [IntTy.min, IntTy.max, h, if_true]; omega
  have ht : decimalInt T.min = '-' :: decimal T.min.natAbs := by unfold decimalInt; rw [if_pos hneg]
  refine ⟨⟨.ownedS (decimalInt T.min), decide (0 ≤ T.min), some (.ownedS (decimalInt T.min)), none, none⟩,
    by simp [Number.fromInt, h, IntTy.abs], decimalInt_spec _, by simp; omega, ?_, rfl, ?_⟩
  · show parseInt T (decimalInt T.min) = some T.min
    rw [parseInt_iff]
    exact ⟨decimalInt_spec _, inRange_iff.2 ⟨Int.le_refl _, hmax⟩, .inl h⟩
  · intro m hm he
    have hn := IsNumber.mk ['-'] (decimal T.min.natAbs) [] false _ _ _ .minus (.int _ hd.1.1) .none
    simp only [List.append_nil] at hn
    have hp := c10_literal_parses U _ _ hn
    have hm' : Expr.parse U ('-' :: decimal T.min.natAbs) = .ok (.number m) := by rw [← ht]; exact hm
    rw [show (['-'] ++ decimal T.min.natAbs : Str) = '-' :: decimal T.min.natAbs from rfl] at hp
    rw [hp] at hm'
    cases hm'
    have he' : decimal T.min.natAbs = decimalInt T.min := Option.some.inj he
    rw [ht] at he'
    have := congrArg List.length he'
    simp at this

/-- C13: for instance `Number::from(i8::MIN)` -/
example : (Number.fromInt ⟨true, 8⟩ false (-128)).map (fun n => n.whole) =
    some (some (.ownedS ['-', '1', '2', '8'])) := by decide +kernel

example : (Number.fromInt ⟨true, 16⟩ true (-300)).map Number.text = some ['-', '3', '0', '0'] := by decide +kernel

/-! ## C14 -/

/-- C14: the identifier parser returns the longest run of identifier characters, provided the first is an identifier
start. -/
theorem c14_longest_identifier (s i r : Str) : identifier U s = .ok r i ↔
    s = i ++ r ∧ IsIdent U i ∧ ¬ Head (IdentChar U) r := identifier_iff

/-- C14: it succeeds iff the input starts with `ID_Start` or an underscore; otherwise it is a recoverable error. -/
theorem c14_succeeds_iff (s : Str) : (∃ r i, identifier U s = .ok r i) ↔ Head (IdentStart U) s := by
  constructor
  · rintro ⟨r, i, h⟩
    obtain ⟨rfl, h, -⟩ := identifier_iff.1 h
    cases h with
    | mk c cs h1 h2 => exact ⟨c, cs ++ r, rfl, h1⟩
  · rintro ⟨c, t, rfl, hc⟩
    refine ⟨t.dropWhile (identChar U), c :: t.takeWhile (identChar U), identifier_iff.2 ⟨?_, .mk _ _ hc ?_, ?_⟩⟩
    · simp [List.takeWhile_append_dropWhile]
    · intro d hd
      have := mem_takeWhile hd
      simpa [identChar, IdentChar] using this
    · rintro ⟨d, u, hu, hd⟩
      have : identChar U d = false := by
        have := List.head?_dropWhile_not (identChar U) t
        rw [hu] at this
        simpa using this
      rcases hd with hd | hd <;> simp [identChar, hd] at this

/-- C14: when it does not succeed it fails recoverably, so the alternatives are tried. -/
theorem c14_otherwise_error (s : Str) (h : ¬ Head (IdentStart U) s) : identifier U s = .err :=
  (Tame.identifier U).not_ok fun r i hk => h ((c14_succeeds_iff U s).1 ⟨r, i, hk⟩)

/-- C14: every attribute name, block type and identifier label in an accepted document is an identifier of the
document. -/
theorem c14_names_are_identifiers (s : Str) (b : Body) (h : parseStr U s = .ok b) (n : CowStr)
    (hn : .name n ∈ bodyLeaves b ∨ .label (.identifier n) ∈ bodyLeaves b) : IsIdent U n.str ∧ n.str <:+: s := by
  rw [parseStr_iff] at h
  rcases hn with hn | hn
  · have := isBody_leaves h _ hn
    cases this; exact ⟨‹_›, ‹_›⟩
  · have := isBody_leaves h _ hn
    cases this; exact ⟨‹_›, ‹_›⟩

example : identifier asciiClass ['a', '-', '1', '.'] = .ok ['.'] ['a', '-', '1'] := by decide +kernel

end Verif.Props
