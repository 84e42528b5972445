import Verif.Model.Number
import Verif.Spec.Number
import Verif.Proofs.Number
/-! # Integer parsing and printing -/
set_option autoImplicit false

namespace Verif
open PRes Spec

/-- Signed magnitude. -/
def sgn (pos : Bool) (m : Nat) : Int := if pos then (m : Int) else -(m : Int)

theorem two_pow_pos (n : Nat) : 0 < (2 ^ n : Nat) := Nat.pow_pos (by omega)

theorem inRange_iff {T : IntTy} {k : Int} : T.inRange k = true ↔ T.min ≤ k ∧ k ≤ T.max := by
  simp [IntTy.inRange]

theorem IntTy.min_le (T : IntTy) : T.min ≤ 0 := by
  unfold IntTy.min
  have := two_pow_pos (T.bits - 1)
  split <;> omega
theorem IntTy.max_ge (T : IntTy) : 0 ≤ T.max := by
  unfold IntTy.max
  have := two_pow_pos (T.bits - 1); have := two_pow_pos T.bits
  split <;> omega

theorem inRange_mono {T : IntTy} {pos : Bool} {m m' : Nat} (h : m ≤ m') (h' : T.inRange (sgn pos m') = true) :
    T.inRange (sgn pos m) = true := by
  rw [inRange_iff] at *
  have := T.min_le; have := T.max_ge
  unfold sgn at *
  cases pos <;> simp at * <;> omega

/-- Value of digits after the value `m`. -/
def digitsFrom (m : Nat) (ds : Str) : Nat := ds.foldl (fun a c => a * 10 + digitVal c) m

theorem digitsFrom_le (m : Nat) (ds : Str) : m ≤ digitsFrom m ds := by
  induction ds generalizing m with
  | nil => exact Nat.le_refl _
  | cons c ds ih =>
    have := ih (m * 10 + digitVal c)
    unfold digitsFrom at *
    simp only [List.foldl_cons]
    omega

theorem parseDigits_iff {T : IntTy} {pos : Bool} {m : Nat} {ds : Str} {k : Int}
    (h : T.inRange (sgn pos m) = true) :
    parseDigits T pos (sgn pos m) ds = some k ↔
      (∀ c ∈ ds, c.isDigit = true) ∧ k = sgn pos (digitsFrom m ds) ∧ T.inRange k = true := by
  induction ds generalizing m with
  | nil =>
    simp only [parseDigits, Option.some.injEq, digitsFrom, List.foldl_nil]
    constructor
    · rintro rfl; simp [h]
    · rintro ⟨-, rfl, -⟩; rfl
  | cons c ds ih =>
    unfold parseDigits
    have e1 : sgn pos m * 10 = sgn pos (m * 10) := by unfold sgn; cases pos <;> simp <;> omega
    have e2 : (if pos = true then sgn pos m * 10 + (digitVal c : Int) else sgn pos m * 10 - (digitVal c : Int)) =
        sgn pos (m * 10 + digitVal c) := by unfold sgn; cases pos <;> simp <;> omega
    have e3 : digitsFrom m (c :: ds) = digitsFrom (m * 10 + digitVal c) ds := rfl
    rw [e2, e3, e1]
    by_cases hc : c.isDigit = true
    · rw [if_pos hc]
      by_cases h1 : T.inRange (sgn pos (m * 10 + digitVal c)) = true
      · rw [if_pos (inRange_mono (by omega) h1)]
        simp only [h1, if_true]
        rw [ih h1]
        simp [hc]
      · have hno : ¬ (k = sgn pos (digitsFrom (m * 10 + digitVal c) ds) ∧ T.inRange k = true) := by
          rintro ⟨rfl, h2⟩
          exact h1 (inRange_mono (digitsFrom_le _ _) h2)
        simp only [h1]
        constructor
        · intro h; split at h <;> cases h
        · rintro ⟨-, h⟩; exact absurd h hno
    · rw [if_neg hc]
      constructor
      · intro h; cases h
      · rintro ⟨h, -⟩; exact absurd (h c (by simp)) hc

theorem digit10_iff (c : Char) : c.isDigit = true ↔ ∃ v, Digit 10 c v := by
  rw [isDigit_iff]
  constructor
  · rintro ⟨h1, h2⟩
    refine ⟨_, .dec 10 c h1 h2 ?_⟩
    have : c.toNat ≤ '9'.toNat := h2
    have h9 : '9'.toNat = 57 := rfl
    have h0 : '0'.toNat = 48 := rfl
    omega
  · rintro ⟨v, h⟩
    cases h with
    | dec h1 h2 => exact ⟨‹_›, ‹_›⟩
    | lower => omega
    | upper => omega

theorem numeral10_iff {ds : Str} {m : Nat} :
    Numeral 10 ds m ↔ (∀ c ∈ ds, c.isDigit = true) ∧ digitsFrom 0 ds = m :=
  numeral_iff (b := 10) (f := Char.isDigit) (by omega) digit10_iff

theorem digits_iff {ds : Str} : Digits ds ↔ ds ≠ [] ∧ ∀ c ∈ ds, c.isDigit = true := by
  simp only [Digits, isDigit_iff]

theorem parseUnsigned_iff {T : IntTy} {pos : Bool} {ds : Str} {k : Int} (hne : ds ≠ []) :
    parseDigits T pos 0 ds = some k ↔
      ∃ m, Digits ds ∧ Numeral 10 ds m ∧ k = sgn pos m ∧ T.inRange k = true := by
  have h0 : (0 : Int) = sgn pos 0 := by unfold sgn; cases pos <;> rfl
  rw [h0, parseDigits_iff (by rw [← h0, inRange_iff]; exact ⟨T.min_le, T.max_ge⟩)]
  simp only [numeral10_iff, digits_iff]
  constructor
  · rintro ⟨h1, h2, h3⟩
    exact ⟨_, ⟨hne, h1⟩, ⟨h1, rfl⟩, h2, h3⟩
  · rintro ⟨m, ⟨-, h1⟩, ⟨-, rfl⟩, h2, h3⟩
    exact ⟨h1, h2, h3⟩

theorem intLit_cases {t : Str} {k : Int} : IntLit t k ↔
    ∃ sg ds pos m, t = sg ++ ds ∧ k = sgn pos m ∧ Sign sg pos ∧ Digits ds ∧ Numeral 10 ds m := by
  constructor
  · rintro ⟨sg, ds, pos, m, h1, h2, h3⟩
    exact ⟨sg, ds, pos, m, rfl, rfl, h1, h2, h3⟩
  · rintro ⟨sg, ds, pos, m, rfl, rfl, h1, h2, h3⟩
    exact .mk sg ds pos m h1 h2 h3

theorem digits_head_ne {c : Char} {ds : Str} (h : Digits (c :: ds)) : c ≠ '+' ∧ c ≠ '-' ∧ c ≠ '.' := by
  have := h.2 c (by simp)
  refine ⟨?_, ?_, ?_⟩ <;> rintro rfl <;> exact absurd this (by decide)

/-- std's `from_str` returns `k` exactly for integer literals denoting the representable `k`; unsigned types
reject any minus sign. -/
theorem parseInt_iff {T : IntTy} {t : Str} {k : Int} :
    parseInt T t = some k ↔ IntLit t k ∧ T.inRange k = true ∧ (T.signed = true ∨ ¬ Head (· = '-') t) := by
  rw [intLit_cases]
  unfold parseInt
  split
  · constructor
    · intro h; cases h
    · rintro ⟨⟨sg, ds, pos, m, h, -, -, hd, -⟩, -⟩
      exact absurd (List.nil_eq_append_iff.1 h).2 hd.1
  · rename_i ds
    cases ds with
    | nil =>
      constructor
      · intro h; cases h
      · rintro ⟨⟨sg, ds, pos, m, h, -, hs, hd, -⟩, -⟩
        cases hs with
        | none => rw [List.nil_append] at h; subst h; exact absurd rfl (digits_head_ne hd).1
        | plus => injection h with _ h; exact absurd h.symm hd.1
        | minus => injection h with h _; exact absurd h (by decide)
    | cons c ds =>
      simp only [List.isEmpty_cons]
      rw [if_neg (by simp), parseUnsigned_iff (by simp)]
      constructor
      · rintro ⟨m, h1, h2, h3, h4⟩
        exact ⟨⟨['+'], _, true, m, rfl, h3, .plus, h1, h2⟩, h4, .inr (by rw [head_cons]; decide)⟩
      · rintro ⟨⟨sg, ds', pos, m, h, h3, hs, hd, hn⟩, h4, -⟩
        cases hs with
        | none => rw [List.nil_append] at h; subst h; exact absurd rfl (digits_head_ne hd).1
        | plus => injection h with _ h; subst h; exact ⟨m, hd, hn, h3, h4⟩
        | minus => injection h with h _; exact absurd h (by decide)
  · rename_i ds
    have key : ∀ (sg ds' : Str) pos, '-' :: ds = sg ++ ds' → Sign sg pos → Digits ds' → pos = false ∧ ds' = ds := by
      intro sg ds' pos h hs hd
      cases hs with
      | none => rw [List.nil_append] at h; subst h; exact absurd rfl (digits_head_ne hd).2.1
      | plus => injection h with h _; exact absurd h (by decide)
      | minus => injection h with _ h; exact ⟨rfl, h.symm⟩
    cases hT : T.signed with
    | true =>
      simp only [if_true]
      cases ds with
      | nil =>
        constructor
        · intro h; cases h
        · rintro ⟨⟨sg, ds, pos, m, h, -, hs, hd, -⟩, -⟩
          obtain ⟨-, h⟩ := key _ _ _ h hs hd; exact absurd h hd.1
      | cons c ds =>
        simp only [List.isEmpty_cons]
        rw [if_neg (by simp), parseUnsigned_iff (by simp)]
        constructor
        · rintro ⟨m, h1, h2, h3, h4⟩
          exact ⟨⟨['-'], _, false, m, rfl, h3, .minus, h1, h2⟩, h4, .inl (by simp)⟩
        · rintro ⟨⟨sg, ds', pos, m, h, h3, hs, hd, hn⟩, h4, -⟩
          obtain ⟨rfl, rfl⟩ := key _ _ _ h hs hd
          exact ⟨m, hd, hn, h3, h4⟩
    | false =>
      simp only [Bool.false_eq_true, if_false, false_or]
      rw [parseUnsigned_iff (by simp)]
      constructor
      · rintro ⟨m, h1, -⟩; exact absurd rfl (digits_head_ne h1).2.1
      · rintro ⟨-, -, h⟩; exact absurd ⟨_, _, rfl, rfl⟩ h
  · rename_i h1 h2 h3
    have hne : t ≠ [] := h1
    rw [parseUnsigned_iff hne]
    constructor
    · rintro ⟨m, h1, h2', h3', h4⟩
      refine ⟨⟨[], _, true, m, rfl, h3', .none, h1, h2'⟩, h4, .inr ?_⟩
      rintro ⟨c, u, rfl, rfl⟩; exact h3 _ rfl
    · rintro ⟨⟨sg, ds', pos, m, h, h3', hs, hd, hn⟩, h4, -⟩
      subst h
      cases hs with
      | none => exact ⟨m, hd, hn, h3', h4⟩
      | plus => exact absurd rfl (h2 _)
      | minus => exact absurd rfl (h3 _)

theorem numeral10_functional {ds : Str} {m m' : Nat} (h : Numeral 10 ds m) (h' : Numeral 10 ds m') : m = m' := by
  rw [numeral10_iff] at h h'; exact h.2.symm.trans h'.2

theorem sign_split {sg sg' ds ds' : Str} {pos pos' : Bool} (h : sg ++ ds = sg' ++ ds') (hs : Sign sg pos)
    (hs' : Sign sg' pos') (hd : Digits ds) (hd' : Digits ds') : sg = sg' ∧ ds = ds' ∧ pos = pos' := by
  cases hs <;> cases hs' <;> simp at h <;> first
    | (subst h; exact ⟨rfl, rfl, rfl⟩)
    | (exfalso; subst h; have := digits_head_ne hd; simp at this; done)
    | (exfalso; subst h; have := digits_head_ne hd'; simp at this; done)
    | (exfalso; rw [← h] at hd'; have := digits_head_ne hd'; simp at this; done)
    | simp at h

theorem intLit_functional {t : Str} {k k' : Int} (h : IntLit t k) (h' : IntLit t k') : k = k' := by
  obtain ⟨sg, ds, pos, m, rfl, rfl, hs, hd, hn⟩ := intLit_cases.1 h
  obtain ⟨sg', ds', pos', m', h, rfl, hs', hd', hn'⟩ := intLit_cases.1 h'
  obtain ⟨-, rfl, rfl⟩ := sign_split h hs hs' hd hd'
  rw [numeral10_functional hn hn']

/-- Every digit sequence has a value. -/
theorem digits_value {ds : Str} (h : Digits ds) : ∃ m, Numeral 10 ds m :=
  ⟨_, numeral10_iff.2 ⟨(digits_iff.1 h).2, rfl⟩⟩

/-- The parsed number is an integer literal exactly when it has no fraction and no exponent. -/
theorem isNumber_signed {t : Str} {n : Number} (h : IsNumber t n) (hs : n.isSigned = true) :
    ∃ sg ds, t = sg ++ ds ∧ Sign sg n.positive ∧ Digits ds := by
  cases h with
  | mk sg m x pos w f e h1 h2 h3 =>
    simp only [Number.isSigned, Option.isNone_map, Bool.and_eq_true, Option.isNone_iff_eq_none] at hs
    obtain ⟨hf, he⟩ := hs
    subst hf he
    cases h3
    cases h2
    exact ⟨sg, m, by simp, h1, ‹_›⟩

theorem isNumber_float {t : Str} {n : Number} (h : IsNumber t n) (hs : n.isFloat = true) :
    '.' ∈ t ∨ 'e' ∈ t ∨ 'E' ∈ t := by
  cases h with
  | mk sg m x pos w f e h1 h2 h3 =>
    cases h3 with
    | some c sg' d pos' hc _ _ => rcases hc with rfl | rfl <;> simp
    | none =>
      simp [Number.isFloat, Number.isSigned] at hs
      cases h2 <;> simp at *

theorem intLit_chars {t : Str} {k : Int} (h : IntLit t k) : '.' ∉ t ∧ 'e' ∉ t ∧ 'E' ∉ t := by
  obtain ⟨sg, ds, pos, m, rfl, rfl, hs, hd, hn⟩ := intLit_cases.1 h
  have key : ∀ c, c.isDigit = false → c ∉ ds := fun c hc hm => by
    rw [(digits_iff.1 hd).2 c hm] at hc; cases hc
  have h1 := key '.' (by decide); have h2 := key 'e' (by decide); have h3 := key 'E' (by decide)
  cases hs <;> simp [h1, h2, h3]

theorem float_not_intLit {t : Str} {n : Number} {k : Int} (h : IsNumber t n) (hs : n.isFloat = true) :
    ¬ IntLit t k := fun hk => by
  have h1 := intLit_chars hk
  rcases isNumber_float h hs with h | h | h
  · exact h1.1 h
  · exact h1.2.1 h
  · exact h1.2.2 h

theorem isNumber_text {t : Str} {n : Number} (h : IsNumber t n) : n.input = .borrowed t := by
  cases h; rfl

/-! ## printing -/

theorem digitChar_spec {n : Nat} (h : n < 10) : (digitChar n).isDigit = true ∧ digitVal (digitChar n) = n := by
  have : n = 0 ∨ n = 1 ∨ n = 2 ∨ n = 3 ∨ n = 4 ∨ n = 5 ∨ n = 6 ∨ n = 7 ∨ n = 8 ∨ n = 9 := by omega
  rcases this with rfl | rfl | rfl | rfl | rfl | rfl | rfl | rfl | rfl | rfl <;> decide

theorem digitsFrom_append (m : Nat) (a b : Str) : digitsFrom m (a ++ b) = digitsFrom (digitsFrom m a) b := by
  unfold digitsFrom; rw [List.foldl_append]

theorem decimalAux_spec : ∀ (fuel n : Nat), n ≤ fuel →
    decimalAux fuel n ≠ [] ∧ (∀ c ∈ decimalAux fuel n, c.isDigit = true) ∧ digitsFrom 0 (decimalAux fuel n) = n ∧
      (decimalAux fuel n = ['0'] ∨ ¬ Head (· = '0') (decimalAux fuel n)) := by
  intro fuel
  induction fuel with
  | zero =>
    intro n hn
    have : n = 0 := by omega
    subst this
    exact ⟨by decide, by decide, by decide, .inl (by decide)⟩
  | succ fuel ih =>
    intro n hn
    unfold decimalAux
    by_cases h : n < 10
    · rw [if_pos h]
      have := digitChar_spec h
      refine ⟨by simp, by simpa using this.1, ?_, ?_⟩
      · simp [digitsFrom, this.2]
      · by_cases h0 : n = 0
        · subst h0; exact .inl (by decide)
        · right
          rw [head_cons]
          intro hd
          rw [hd] at this
          have h1 := this.2
          have : digitVal '0' = 0 := by decide
          omega
    · rw [if_neg h]
      obtain ⟨i1, i2, i3, i4⟩ := ih (n / 10) (by omega)
      have := digitChar_spec (n := n % 10) (by omega)
      refine ⟨by simp, ?_, ?_, ?_⟩
      · intro c hc
        rcases List.mem_append.1 hc with hc | hc
        · exact i2 c hc
        · simp at hc; subst hc; exact this.1
      · rw [digitsFrom_append, i3]
        simp [digitsFrom, this.2]; omega
      · right
        rcases i4 with h4 | h4
        · exfalso
          rw [h4] at i3
          have : digitsFrom 0 ['0'] = 0 := by decide
          omega
        · cases hd : decimalAux fuel (n / 10) with
          | nil => exact absurd hd i1
          | cons c cs =>
            rw [hd] at h4
            rw [head_cons] at h4
            rw [List.cons_append, head_cons]; exact h4

theorem decimal_spec (n : Nat) : Canonical (decimal n) ∧ Numeral 10 (decimal n) n := by
  obtain ⟨h1, h2, h3, h4⟩ := decimalAux_spec n n (Nat.le_refl _)
  exact ⟨⟨digits_iff.2 ⟨h1, h2⟩, h4⟩, numeral10_iff.2 ⟨h2, h3⟩⟩

theorem decimalInt_spec (k : Int) : IntLit (decimalInt k) k := by
  rw [intLit_cases]
  have := decimal_spec k.natAbs
  unfold decimalInt
  by_cases h : k < 0
  · rw [if_pos h]
    exact ⟨['-'], _, false, _, rfl, by simp [sgn]; omega, .minus, this.1.1, this.2⟩
  · rw [if_neg h]
    exact ⟨[], _, true, _, rfl, by simp [sgn]; omega, .none, this.1.1, this.2⟩

end Verif
