import Verif.Model.Float
import Verif.Props.Equality
/-!
# C63: numbers made from floats
-/
set_option autoImplicit false

namespace Verif.Spec

/-- How std shows a float type: a nonnegative finite value as digits, with a point and further digits if it is not integral;
a negative one as a minus sign and its negation; infinities and NaN as words. `finite` says which values are finite. -/
structure ShowsFloats (T : FloatTy) (finite : T.F → Prop) : Prop where
  nonneg : ∀ x, finite x → T.ge0 x = true → Digits (T.toStr x) ∨ ∃ w f, Digits w ∧ Digits f ∧ T.toStr x = w ++ '.' :: f
  neg : ∀ x, finite x → T.ge0 x = false → T.ge0 (T.negate x) = true ∧ finite (T.negate x) ∧
    T.toStr x = '-' :: T.toStr (T.negate x)
  word : ∀ x, ¬ finite x → T.toStr x = ['N', 'a', 'N'] ∨ T.toStr x = ['i', 'n', 'f'] ∨ T.toStr x = ['-', 'i', 'n', 'f']
  wordNeg : ∀ x, ¬ finite x → ¬ finite (T.negate x)

end Verif.Spec

namespace Verif.Props
open Verif Spec

variable (U : CharClass)

theorem splitDots_digits : ∀ {w : Str}, (∀ c ∈ w, c ≠ '.') → ∀ r, splitDots (w ++ r) = (w ++ (splitDots r).1, (splitDots r).2)
  | [], _, r => rfl
  | c :: w, h, r => by
    have ih := splitDots_digits (w := w) (fun d hd => h d (List.mem_cons_of_mem _ hd)) r
    have hc := h c (List.mem_cons_self ..)
    simp only [List.cons_append, splitDots, if_neg hc, ih]

theorem splitDots_plain {w : Str} (h : ∀ c ∈ w, c ≠ '.') : splitDots w = (w, []) := by
  have := splitDots_digits h []
  rw [List.append_nil] at this
  rw [this]
  simp [splitDots]

theorem splitDots_point {w f : Str} (hw : ∀ c ∈ w, c ≠ '.') (hf : ∀ c ∈ f, c ≠ '.') : splitDots (w ++ '.' :: f) = (w, [f]) := by
  rw [splitDots_digits hw]
  simp [splitDots, splitDots_plain hf]

theorem digits_no_dot {w : Str} (h : Digits w) : ∀ c ∈ w, c ≠ '.' := by
  intro c hc he
  subst he
  have := (h.2 _ hc).1
  exact absurd this (by decide)

theorem splitDots_head : ∀ s : Str, (splitDots s).2.head?.isSome = true ↔ '.' ∈ s
  | [] => by simp [splitDots]
  | c :: s => by
    have ih := splitDots_head s
    unfold splitDots
    by_cases h : c = '.'
    · simp [h]
    · simp only [if_neg h, ih, List.mem_cons]
      exact ⟨.inr, fun h' => by rcases h' with h' | h'; exact absurd h'.symm h; exact h'⟩

/-- C63: the text of `Number::from(x)` is how `x` is shown. -/
theorem c63_text (T : FloatTy) (x : T.F) : (Number.fromFloat T x).text = T.toStr x := rfl

/-- C63: `Number::from(x)` is a float exactly if the magnitude of `x` is shown with a point: an integral float becomes an
integer. -/
theorem c63_is_float (T : FloatTy) (x : T.F) :
    (Number.fromFloat T x).isFloat = true ↔ '.' ∈ (if T.ge0 x then T.toStr x else T.toStr (T.negate x)) := by
  rw [← splitDots_head]
  simp [Number.fromFloat, Number.isFloat, Number.isSigned]

theorem fromFloat_isNumber (T : FloatTy) (finite : T.F → Prop) (hT : ShowsFloats T finite) (x : T.F) (hx : finite x) :
    ∃ m, IsNumber (T.toStr x) m ∧ m.asOwned = Number.fromFloat T x := by
  cases hg : T.ge0 x with
  | true =>
    rcases hT.nonneg x hx hg with h | ⟨w, f, hw, hf, h⟩
    · have hn := IsNumber.mk [] (T.toStr x) [] true _ _ _ .none (.int _ h) .none
      simp only [List.nil_append, List.append_nil] at hn
      refine ⟨_, hn, ?_⟩
      simp [Number.fromFloat, hg, splitDots_plain (digits_no_dot h), Number.asOwned, CowStr.asOwned, CowStr.borrowed]
    · have hn := IsNumber.mk [] (w ++ '.' :: f) [] true _ _ _ .none (.frac _ _ hw hf) .none
      simp only [List.nil_append, List.append_nil] at hn
      rw [h]
      refine ⟨_, hn, ?_⟩
      simp [Number.fromFloat, hg, h, splitDots_point (digits_no_dot hw) (digits_no_dot hf), Number.asOwned, CowStr.asOwned,
        CowStr.borrowed]
  | false =>
    obtain ⟨hg', hfin, hs⟩ := hT.neg x hx hg
    rcases hT.nonneg _ hfin hg' with h | ⟨w, f, hw, hf, h⟩
    · have hn := IsNumber.mk ['-'] (T.toStr (T.negate x)) [] false _ _ _ .minus (.int _ h) .none
      simp only [List.singleton_append, List.append_nil] at hn
      rw [hs]
      refine ⟨_, hn, ?_⟩
      simp [Number.fromFloat, hg, hs, splitDots_plain (digits_no_dot h), Number.asOwned, CowStr.asOwned, CowStr.borrowed]
    · have hn := IsNumber.mk ['-'] (w ++ '.' :: f) [] false _ _ _ .minus (.frac _ _ hw hf) .none
      simp only [List.singleton_append, List.append_nil] at hn
      rw [hs, h]
      refine ⟨_, hn, ?_⟩
      simp [Number.fromFloat, hg, hs, h, splitDots_point (digits_no_dot hw) (digits_no_dot hf), Number.asOwned, CowStr.asOwned,
        CowStr.borrowed]

/-- C63: for a finite float, the parser reads the text of `Number::from(x)` as the same number, up to ownership. -/
theorem c63_parses_back (T : FloatTy) (finite : T.F → Prop) (hT : ShowsFloats T finite) (x : T.F) (hx : finite x) :
    ∃ m, Expr.parse U (T.toStr x) = .ok (.number m) ∧ m.asOwned = Number.fromFloat T x := by
  obtain ⟨m, hm, h⟩ := fromFloat_isNumber T finite hT x hx
  exact ⟨m, c10_literal_parses U _ _ hm, h⟩

/-- C63: a finite float shown as an integer converts to exactly the integer types that hold the integer. -/
theorem c63_integral (T : FloatTy) (x : T.F) (k : Int) (hk : IntLit (T.toStr x) k) (I : IntTy) (hs : I.signed = true) :
    (Number.fromFloat T x).asInt I = if I.min ≤ k ∧ k ≤ I.max then some k else none := by
  unfold Number.asInt
  show parseInt I (T.toStr x) = _
  by_cases h : I.min ≤ k ∧ k ≤ I.max
  · rw [if_pos h, parseInt_iff]
    exact ⟨hk, inRange_iff.2 h, .inl hs⟩
  · rw [if_neg h]
    cases hp : parseInt I (T.toStr x) with
    | none => rfl
    | some j =>
      rw [parseInt_iff] at hp
      have : j = k := intLit_functional hp.1 hk
      exact absurd (inRange_iff.1 hp.2.1) (this ▸ h)

/-- C63, where the full property fails: infinities and NaN become integers that convert to no integer type, so they do not
equal themselves. -/
theorem c63_words (T : FloatTy) (finite : T.F → Prop) (hT : ShowsFloats T finite) (x : T.F) (hx : ¬ finite x) (O : FloatOps) :
    (Number.fromFloat T x).isSigned = true ∧ (∀ I, (Number.fromFloat T x).asInt I = none) ∧
      (Number.fromFloat T x).eq O (Number.fromFloat T x) = false := by
  have hw := hT.word x hx
  have hw' := hT.word _ (hT.wordNeg x hx)
  have h1 : (Number.fromFloat T x).isFloat = false := by
    cases h : (Number.fromFloat T x).isFloat with
    | false => rfl
    | true =>
      rw [c63_is_float] at h
      split at h
      · rcases hw with h' | h' | h' <;> rw [h'] at h <;> exact absurd h (by decide)
      · rcases hw' with h' | h' | h' <;> rw [h'] at h <;> exact absurd h (by decide)
  have h2 : ∀ I, (Number.fromFloat T x).asInt I = none := by
    intro I
    show parseInt I (T.toStr x) = none
    rcases hw with h | h | h <;> rw [h]
    · rfl
    · rfl
    · rcases I with ⟨s, b⟩
      cases s <;> rfl
  refine ⟨by simpa [Number.isFloat] using h1, h2, ?_⟩
  unfold Number.eq
  simp only [h1, h2, Bool.or_self, Bool.false_eq_true, if_false, ite_self]

/-- C63, where the full property fails: an integral float of magnitude beyond 128 bits becomes an integer that does not equal
itself. -/
theorem c63_huge (T : FloatTy) (finite : T.F → Prop) (hT : ShowsFloats T finite) (x : T.F) (hx : finite x) (k : Int)
    (hk : IntLit (T.toStr x) k) (hbig : 2 ^ 128 ≤ k ∨ k < -(2 ^ 127)) (O : FloatOps) :
    (Number.fromFloat T x).eq O (Number.fromFloat T x) = false := by
  obtain ⟨m, hm, he⟩ := fromFloat_isNumber T finite hT x hx
  rw [← he]
  have : m.asOwned.eq O m.asOwned = m.eq O m := by
    rcases m with ⟨i, p, w, f, e⟩
    cases w <;> cases f <;> cases e <;> rfl
  rw [this]
  exact c12_not_reflexive O _ _ _ hm hk hbig

/-! ## the theorems are not vacuous -/

/-- A float type for the examples: NaN, and signed multiples of a half. -/
def toyHalves : FloatTy where
  F := Option (Bool × Nat × Bool)
  ge0 := fun x => match x with | some (neg, _, _) => !neg | none => false
  negate := fun x => x.map fun (neg, n, half) => (!neg, n, half)
  toStr := fun x => match x with
    | none => ['N', 'a', 'N']
    | some (neg, n, half) => (if neg then ['-'] else []) ++ (decimal n ++ if half then ['.', '5'] else [])

theorem toyHalves_shows : ShowsFloats toyHalves (fun x => x ≠ none) where
  nonneg := by
    rintro (_ | ⟨neg, n, half⟩) hx hg
    · exact absurd rfl hx
    · have hn : neg = false := by simpa [toyHalves] using hg
      subst hn
      cases half with
      | false => left; simpa [toyHalves] using (decimal_spec n).1.1
      | true =>
        refine .inr ⟨decimal n, ['5'], (decimal_spec n).1.1, (decimal_spec 5).1.1, ?_⟩
        simp [toyHalves]
  neg := by
    rintro (_ | ⟨neg, n, half⟩) hx hg
    · exact absurd rfl hx
    · have hn : neg = true := by simpa [toyHalves] using hg
      subst hn
      exact ⟨rfl, by simp [toyHalves], rfl⟩
  word := by
    rintro (_ | x) hx
    · exact .inl rfl
    · exact absurd (fun h => Option.some_ne_none x h) hx
  wordNeg := by
    rintro (_ | x) hx
    · exact hx
    · exact absurd (fun h => Option.some_ne_none x h) hx

/-- `Number::from(-2.5)` is the number `-2.5`, `Number::from(3.0)` the integer `3`, and NaN an integer. -/
example : (Number.fromFloat toyHalves (some (true, 2, true))) =
      ⟨.ownedS ['-', '2', '.', '5'], false, some (.ownedS ['2']), some (.ownedS ['5']), none⟩ ∧
    (Number.fromFloat toyHalves (some (false, 3, false))).asInt ⟨true, 8⟩ = some 3 ∧
    (Number.fromFloat toyHalves none).isSigned = true := by decide +kernel

example (O : FloatOps) : (Number.fromFloat toyHalves (some (false, 2 ^ 128, false))).eq O
    (Number.fromFloat toyHalves (some (false, 2 ^ 128, false))) = false := by
  refine c63_huge toyHalves _ toyHalves_shows _ (Option.some_ne_none _) (2 ^ 128) ?_ (.inl (by decide)) O
  have h := decimal_spec (2 ^ 128)
  have := IntLit.mk [] (decimal (2 ^ 128)) true _ .none h.1.1 h.2
  simpa [toyHalves] using this

end Verif.Props
