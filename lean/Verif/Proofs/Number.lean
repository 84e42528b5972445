import Verif.Proofs.Strings
import Verif.Model.Parser
/-! # Numbers: the parser returns the longest literal -/
set_option autoImplicit false

namespace Verif
open PRes Spec

/-- Digit characters. -/
def IsDig (c : Char) : Prop := '0' ≤ c ∧ c ≤ '9'

theorem digit_iff {s r v : Str} : digit s = .ok r v ↔ s = v ++ r ∧ Digits v ∧ ¬ Head IsDig r := by
  unfold digit
  rw [takeWhile1_iff, not_head_iff (f := Char.isDigit) (P := IsDig) (fun c => isDigit_iff)]
  simp only [Digits, isDigit_iff]
  constructor
  · rintro ⟨h1, h2, h3, h4⟩; exact ⟨h1, ⟨h2, h3⟩, h4⟩
  · rintro ⟨h1, ⟨h2, h3⟩, h4⟩; exact ⟨h1, h2, h3, h4⟩

theorem Tame.digit : Tame digit := .takeWhile1 _

theorem digit_err {s : Str} (h : ¬ Head IsDig s) : digit s = .err :=
  Tame.digit.not_ok fun r v hk => by
    obtain ⟨rfl, ⟨h1, h2⟩, -⟩ := digit_iff.1 hk
    cases v with
    | nil => exact h1 rfl
    | cons c v => exact h ⟨c, v ++ r, rfl, h2 c (by simp)⟩

theorem Spec.Digits.head {d : Str} (h : Digits d) (t : Str) : Head IsDig (d ++ t) := by
  cases d with
  | nil => exact absurd rfl h.1
  | cons c d => exact ⟨c, d ++ t, rfl, h.2 c (by simp)⟩

theorem Spec.Digits.snoc {d : Str} {c : Char} (h : Digits d) (hc : IsDig c) : Digits (d ++ [c]) := by
  refine ⟨by simp, ?_⟩
  intro x hx
  rcases List.mem_append.1 hx with hx | hx
  · exact h.2 x hx
  · simp at hx; subst hx; exact hc

theorem digits_single {c : Char} (hc : IsDig c) : Digits [c] := ⟨by simp, by intro x hx; simp at hx; subst hx; exact hc⟩

theorem not_isDig {c : Char} (h : c.isDigit = false) : ¬ IsDig c := fun hc => by
  rw [isDigit_iff.2 hc] at h; cases h

theorem numSign_of {sg t : Str} {pos : Bool} (h : Sign sg pos) (ht : ¬ Head (fun c => c = '+' ∨ c = '-') t) :
    numSign (sg ++ t) = .ok t pos := by
  cases h with
  | none =>
    simp only [numSign, List.nil_append]
    have : (tag ['+'] <//> tag ['-']) t = .err := by
      rw [orElse_eq_err, tag_eq_err, tag_eq_err]
      constructor <;> (rintro ⟨u, rfl⟩; apply ht; simp [head_cons])
    simp [opt, this]
  | plus => simp [numSign, opt, orElse]
  | minus => simp [numSign, opt, orElse, tag_cons_ne]

theorem numSign_ok (s : Str) : ∃ sg t pos, Sign sg pos ∧ s = sg ++ t ∧ numSign s = .ok t pos := by
  by_cases h : Head (fun c => c = '+' ∨ c = '-') s
  · obtain ⟨c, t, rfl, rfl | rfl⟩ := h
    · exact ⟨['+'], t, true, .plus, rfl, by simp [numSign, opt, orElse]⟩
    · exact ⟨['-'], t, false, .minus, rfl, by simp [numSign, opt, orElse, tag_cons_ne]⟩
  · exact ⟨[], s, true, .none, rfl, numSign_of .none h⟩

theorem Tame.numSign : Tame numSign := fun s => by
  obtain ⟨_, t, pos, -, -, h⟩ := numSign_ok s
  exact .inl ⟨t, pos, h⟩

theorem not_sign_of_dig {t : Str} (h : Head IsDig t) : ¬ Head (fun c => c = '+' ∨ c = '-') t := by
  obtain ⟨c, t, rfl, hc⟩ := h
  rw [head_cons]; rintro (rfl | rfl) <;> exact absurd hc (not_isDig (by decide))

theorem exponentBody_iff {s r : Str} {e : Exponent} :
    exponentBody s = .ok r e ↔ ∃ x pos d, ExpPart x (some (pos, d)) ∧ e = ⟨pos, .borrowed d⟩ ∧ s = x ++ r ∧
      ¬ Head IsDig r := by
  unfold exponentBody
  simp only [bind_apply, bind_eq_ok, orElse_eq_ok, tag_eq_ok, pure_apply, digit_iff]
  constructor
  · rintro ⟨s1, c, hc, s2, pos, hs, s3, d, ⟨rfl, hd, hr⟩, h⟩
    injection h with h1 h2; subst h1 h2
    obtain ⟨sg, t, pos', hsg, rfl, h⟩ := numSign_ok s1
    rw [hs] at h; injection h with h1 h2; subst h1 h2
    rcases hc with ⟨rfl, rfl⟩ | ⟨-, rfl, rfl⟩
    · exact ⟨_, pos, d, .some 'e' sg d pos (.inl rfl) hsg hd, rfl, by simp, hr⟩
    · exact ⟨_, pos, d, .some 'E' sg d pos (.inr rfl) hsg hd, rfl, by simp, hr⟩
  · rintro ⟨x, pos, d, hx, rfl, rfl, hr⟩
    cases hx with
    | some c sg d pos hc hsg hd =>
      refine ⟨sg ++ d ++ r, [c], ?_, d ++ r, pos, ?_, r, d, ⟨rfl, hd, hr⟩, rfl⟩
      · rcases hc with rfl | rfl
        · left; exact ⟨by simp, rfl⟩
        · right; exact ⟨tag_cons_ne (by decide), by simp, rfl⟩
      · rw [List.append_assoc]; exact numSign_of hsg (not_sign_of_dig (hd.head r))

theorem Tame.exponentBody : Tame exponentBody :=
  .bind (.orElse (.tag _) (.tag _)) fun _ => .bind .numSign fun _ => .bind .digit fun _ => .pure _

/-- What must not follow an exponent part for it to be maximal. -/
def ExpEnd (x : Str) (r : Str) : Prop :=
  if x = [] then ∀ p t q, r = p ++ t → ¬ ExpPart p (some q) else ¬ Head IsDig r

theorem exponentP_of {x r : Str} {e : Option (Bool × Str)} (h : ExpPart x e) (hr : ExpEnd x r) :
    exponentP (x ++ r) = .ok r (e.map fun p => ⟨p.1, .borrowed p.2⟩) := by
  unfold exponentP
  cases h with
  | none =>
    simp only [ExpEnd, if_true] at hr
    rw [opt_eq_ok]; right
    refine ⟨Tame.exponentBody.not_ok ?_, rfl, rfl⟩
    intro r' e hk
    obtain ⟨x, pos, d, hx, -, he, -⟩ := exponentBody_iff.1 hk
    exact hr x r' _ he hx
  | some c sg d pos hc hsg hd =>
    simp only [ExpEnd, List.cons_append] at hr
    rw [opt_eq_ok]; left
    exact ⟨_, exponentBody_iff.2 ⟨_, pos, d, .some c sg d pos hc hsg hd, rfl, rfl, by simpa using hr⟩, rfl⟩

/-- What must not follow a mantissa for it to be maximal. -/
def ManEnd (f : Option Str) (r : Str) : Prop :=
  ¬ Head IsDig r ∧ (f = none → ¬ Head (fun c => c = '.') r)

theorem mantissa_of {m r : Str} {w f : Option Str} (h : Mantissa m w f) (hr : ManEnd f r) :
    mantissa (m ++ r) = .ok r (w, f) := by
  unfold mantissa
  obtain ⟨h1, h2⟩ := hr
  cases h with
  | int m hm =>
    apply orElse_of_ok
    have hd : digit (m ++ r) = .ok r m := digit_iff.2 ⟨rfl, hm, h1⟩
    have ht : tag ['.'] r = .err := by
      rw [tag_eq_err]; rintro ⟨u, rfl⟩; exact h2 rfl ⟨'.', u, rfl, rfl⟩
    have : opt (tag ['.'] >>= fun _ => opt digit) r = .ok r none := by
      rw [opt_eq_ok]; right; exact ⟨by simp [ht], rfl, rfl⟩
    simp [hd, this]
  | dot w hw =>
    apply orElse_of_ok
    have hd : digit (w ++ ['.'] ++ r) = .ok ('.' :: r) w :=
      digit_iff.2 ⟨by simp, hw, by rw [head_cons]; exact not_isDig (by decide)⟩
    have hr : opt digit r = .ok r none := by
      rw [opt_eq_ok]; right; exact ⟨digit_err h1, rfl, rfl⟩
    have : opt (tag ['.'] >>= fun _ => opt digit) ('.' :: r) = .ok r (some none) := by
      rw [opt_eq_ok]; left; exact ⟨none, by simp [hr], rfl⟩
    simp only [bind_apply, hd, bind_ok, this, pure_apply]
  | frac w f hw hf =>
    apply orElse_of_ok
    have hd : digit (w ++ '.' :: f ++ r) = .ok ('.' :: (f ++ r)) w :=
      digit_iff.2 ⟨by simp, hw, by rw [head_cons]; exact not_isDig (by decide)⟩
    have hr : opt digit (f ++ r) = .ok r (some f) := by
      rw [opt_eq_ok]; left; exact ⟨f, digit_iff.2 ⟨rfl, hf, h1⟩, rfl⟩
    have : opt (tag ['.'] >>= fun _ => opt digit) ('.' :: (f ++ r)) = .ok r (some (some f)) := by
      rw [opt_eq_ok]; left; exact ⟨some f, by simp [hr], rfl⟩
    simp only [bind_apply, hd, bind_ok, this, pure_apply]
  | dotFrac f hf =>
    have hd : digit ('.' :: (f ++ r)) = .err := digit_err (by rw [head_cons]; exact not_isDig (by decide))
    have hf' : digit (f ++ r) = .ok r f := digit_iff.2 ⟨rfl, hf, h1⟩
    rw [orElse_of_err]
    · simp [hf']
    · simp [hd]

theorem mantissa_ok {s r : Str} {w f : Option Str} (h : mantissa s = .ok r (w, f)) :
    ∃ m, Mantissa m w f ∧ s = m ++ r := by
  unfold mantissa at h
  rw [orElse_eq_ok] at h
  rcases h with h | ⟨-, h⟩
  · simp only [bind_apply, bind_eq_ok, pure_apply, digit_iff, opt_eq_ok, tag_eq_ok] at h
    obtain ⟨s1, d, ⟨rfl, hd, -⟩, s2, dec, hdec, h⟩ := h
    injection h with h1 h2; injection h2 with h2 h3; subst h1 h2 h3
    rcases hdec with ⟨o, ⟨s3, _, ⟨rfl, -⟩, ho⟩, rfl⟩ | ⟨-, rfl, rfl⟩
    · rcases ho with ⟨f, ⟨rfl, hf, -⟩, rfl⟩ | ⟨-, rfl, rfl⟩
      · exact ⟨_, .frac d f hd hf, by simp⟩
      · exact ⟨_, .dot d hd, by simp⟩
    · exact ⟨_, .int d hd, rfl⟩
  · simp only [bind_apply, bind_eq_ok, pure_apply, digit_iff, tag_eq_ok] at h
    obtain ⟨s1, _, ⟨rfl, -⟩, s2, d, ⟨rfl, hd, -⟩, h⟩ := h
    injection h with h1 h2; injection h2 with h2 h3; subst h1 h2 h3
    exact ⟨_, .dotFrac d hd, by simp⟩

theorem Tame.mantissa : Tame mantissa :=
  .orElse (.bind .digit fun _ => .bind (.opt (.bind (.tag _) fun _ => .opt .digit)) fun _ => .pure _)
    (.bind (.tag _) fun _ => .bind .digit fun _ => .pure _)

theorem Spec.Mantissa.head {m : Str} {w f : Option Str} (h : Mantissa m w f) (t : Str) :
    Head (fun c => IsDig c ∨ c = '.') (m ++ t) := by
  cases h with
  | int w hw =>
    obtain ⟨c, u, h, hc⟩ := hw.head t; exact ⟨c, u, h, .inl hc⟩
  | dot w hw =>
    obtain ⟨c, u, h, hc⟩ := hw.head (['.'] ++ t); exact ⟨c, u, by rw [← h]; simp, .inl hc⟩
  | frac w f hw hf =>
    obtain ⟨c, u, h, hc⟩ := hw.head ('.' :: f ++ t); exact ⟨c, u, by rw [← h]; simp, .inl hc⟩
  | dotFrac f hf => exact ⟨'.', _, rfl, .inr rfl⟩

theorem number_of {sg m x r : Str} {pos : Bool} {w f : Option Str} {e : Option (Bool × Str)}
    (h1 : Sign sg pos) (h2 : Mantissa m w f) (h3 : ExpPart x e) (h4 : ManEnd f (x ++ r)) (h5 : ExpEnd x r) :
    number (sg ++ m ++ x ++ r) = .ok r {
        input := .borrowed (sg ++ m ++ x)
        positive := pos
        whole := w.map .borrowed
        fraction := f.map .borrowed
        exponent := e.map fun p => ⟨p.1, .borrowed p.2⟩ } := by
  unfold number
  have a1 : numSign (sg ++ m ++ x ++ r) = .ok (m ++ (x ++ r)) pos := by
    have : sg ++ m ++ x ++ r = sg ++ (m ++ (x ++ r)) := by simp
    rw [this]
    refine numSign_of h1 ?_
    obtain ⟨c, u, h, hc⟩ := h2.head (x ++ r)
    rw [h, head_cons]
    rcases hc with hc | rfl
    · rintro (rfl | rfl) <;> exact absurd hc (not_isDig (by decide))
    · simp
  rw [a1, bind_ok, mantissa_of h2 h4, bind_ok, exponentP_of h3 h5, bind_ok]
  congr 3
  have : (sg ++ m ++ x ++ r).length - r.length = (sg ++ m ++ x).length := by
    rw [List.length_append]; omega
  rw [this, List.take_left]

theorem number_sound {s r : Str} {n : Number} (h : number s = .ok r n) :
    ∃ t, s = t ++ r ∧ IsNumber t n := by
  unfold number at h
  simp only [bind_eq_ok] at h
  obtain ⟨s1, pos, h1, s2, ⟨w, f⟩, h2, r', ex, h3, h⟩ := h
  injection h with h4 h5; subst h4
  obtain ⟨sg, t, pos', hsg, rfl, h⟩ := numSign_ok s
  rw [h1] at h; injection h with h6 h7; subst h6 h7
  obtain ⟨m, hm, rfl⟩ := mantissa_ok h2
  unfold exponentP at h3
  rw [opt_eq_ok] at h3
  have e1 : ∀ x : Str, (sg ++ (m ++ (x ++ r'))).take ((sg ++ (m ++ (x ++ r'))).length - r'.length) = sg ++ m ++ x := by
    intro x
    have e2 : (sg ++ (m ++ (x ++ r'))).length - r'.length = (sg ++ m ++ x).length := by
      simp only [List.length_append]; omega
    have e3 : sg ++ (m ++ (x ++ r')) = sg ++ m ++ x ++ r' := by simp
    rw [e2, e3, List.take_left]
  rcases h3 with ⟨e, he, rfl⟩ | ⟨-, rfl, rfl⟩
  · obtain ⟨x, p, d, hx, rfl, rfl, -⟩ := exponentBody_iff.1 he
    refine ⟨sg ++ m ++ x, by simp, ?_⟩
    subst h5
    rw [e1]
    exact .mk sg m x pos w f _ hsg hm hx
  · refine ⟨sg ++ m ++ [], by simp, ?_⟩
    subst h5
    have := e1 []
    simp only [List.nil_append] at this
    rw [this]
    exact .mk sg m [] pos w f _ hsg hm .none

/-- A longest literal is followed by nothing that continues it. -/
theorem number_complete {s r : Str} {n : Number} (h : NumberTok s n r) : number s = .ok r n := by
  obtain ⟨t, rfl, hn, hmax⟩ := h
  cases hn with
  | mk sg m x pos w f e h1 h2 h3 =>
    refine number_of h1 h2 h3 ?_ ?_
    · -- the mantissa
      cases h3 with
      | some c sg' d pos' hc hsg hd =>
        refine ⟨?_, fun _ => ?_⟩
        · rw [List.cons_append, List.cons_append, head_cons]
          rcases hc with rfl | rfl <;> exact not_isDig (by decide)
        · rw [List.cons_append, List.cons_append, head_cons]
          rcases hc with rfl | rfl <;> decide
      | none =>
        simp only [List.append_nil, List.nil_append] at hmax ⊢
        constructor
        · rintro ⟨c, u, rfl, hc⟩
          have hm' : ∃ w' f', Mantissa (m ++ [c]) w' f' := by
            cases h2 with
            | int w hw => exact ⟨_, _, .int _ (hw.snoc hc)⟩
            | dot w hw => exact ⟨_, _, by simpa using Mantissa.frac w [c] hw (digits_single hc)⟩
            | frac w f hw hf => exact ⟨_, _, by simpa using Mantissa.frac w (f ++ [c]) hw (hf.snoc hc)⟩
            | dotFrac f hf => exact ⟨_, _, by simpa using Mantissa.dotFrac (f ++ [c]) (hf.snoc hc)⟩
          obtain ⟨w', f', hm'⟩ := hm'
          have := IsNumber.mk sg (m ++ [c]) [] pos _ _ _ h1 hm' .none
          exact hmax [c] ⟨u, rfl⟩ (by simp) _ (by simpa using this)
        · rintro rfl ⟨c, u, rfl, rfl⟩
          cases h2 with
          | int w hw =>
            have := IsNumber.mk sg (m ++ ['.']) [] pos _ _ _ h1 (.dot m hw) .none
            exact hmax ['.'] ⟨u, rfl⟩ (by simp) _ (by simpa using this)
    · -- the exponent
      cases h3 with
      | none =>
        simp only [ExpEnd, if_true]
        rintro p u q rfl hp
        have := IsNumber.mk sg m p pos _ _ _ h1 h2 hp
        exact hmax p ⟨u, rfl⟩ (by rintro rfl; cases hp) _ (by simpa using this)
      | some c sg' d pos' hc hsg hd =>
        have hx : ¬ (c :: sg' ++ d = []) := by simp
        simp only [ExpEnd, hx, if_false]
        rintro ⟨k, u, rfl, hk⟩
        have := IsNumber.mk sg m (c :: sg' ++ (d ++ [k])) pos _ _ _ h1 h2 (.some c sg' _ pos' hc hsg (hd.snoc hk))
        exact hmax [k] ⟨u, rfl⟩ (by simp) _ (by simpa using this)

/-- Some literal at a position can always be extended to a longest one. -/
theorem exists_longest (r : Str) : ∀ (t : Str) (n : Number), IsNumber t n →
    ∃ p r' m, r = p ++ r' ∧ IsNumber (t ++ p) m ∧ NumberTok (t ++ r) m r' := by
  generalize hl : r.length = k
  induction k using Nat.strongRecOn generalizing r with
  | ind k ih =>
  intro t n hn
  by_cases h : ∃ p m, p <+: r ∧ p ≠ [] ∧ IsNumber (t ++ p) m
  · obtain ⟨p, m, ⟨u, rfl⟩, hp, hm⟩ := h
    have : p.length ≠ 0 := by simpa using hp
    obtain ⟨p', r', m', rfl, h1, h2⟩ := ih u.length (by simp at hl; omega) u rfl (t ++ p) m hm
    refine ⟨p ++ p', r', m', by simp, by simpa using h1, by simpa using h2⟩
  · refine ⟨[], r, n, rfl, by simpa using hn, t, rfl, hn, ?_⟩
    intro p hp hne m hm
    exact h ⟨p, m, hp, hne, hm⟩

theorem number_iff {s r : Str} {n : Number} : number s = .ok r n ↔ NumberTok s n r := by
  constructor
  · intro h
    obtain ⟨t, rfl, hn⟩ := number_sound h
    obtain ⟨p, r', m, rfl, h1, h2⟩ := exists_longest r t n hn
    have h3 := number_complete h2
    rw [h] at h3
    injection h3 with h3 h4
    rw [← h4, ← h3] at h2
    have : p = [] := by
      have := congrArg List.length h3
      simp at this
      exact this
    subst this
    simpa using h2
  · exact number_complete

theorem Tame.number : Tame number := fun s => by
  unfold Verif.number
  rcases Tame.numSign s with ⟨r, v, h⟩ | h
  · rw [h, bind_ok]
    rcases Tame.mantissa r with ⟨r', v', h⟩ | h
    · rw [h, bind_ok]
      unfold exponentP
      rcases Tame.opt Tame.exponentBody r' with ⟨r'', v'', h⟩ | h <;> simp [h]
    · simp [h]
  · simp [h]

theorem isNumber_head {t : Str} {n : Number} (h : IsNumber t n) (r : Str) :
    Head (fun c => IsDig c ∨ c = '.' ∨ c = '+' ∨ c = '-') (t ++ r) := by
  cases h with
  | mk sg m x pos w f e h1 h2 h3 =>
    cases h1 with
    | none =>
      obtain ⟨c, u, h, hc⟩ := h2.head (x ++ r)
      refine ⟨c, u, by simpa using h, ?_⟩
      rcases hc with hc | hc
      · exact .inl hc
      · exact .inr (.inl hc)
    | plus => exact ⟨'+', _, rfl, by simp⟩
    | minus => exact ⟨'-', _, rfl, by simp⟩

theorem number_err {s : Str} (h : ¬ Head (fun c => IsDig c ∨ c = '.' ∨ c = '+' ∨ c = '-') s) :
    number s = .err := Tame.number.not_ok fun r n hk => by
  obtain ⟨t, rfl, hn⟩ := number_sound hk
  exact h (isNumber_head hn r)

theorem isNumber_ne_nil {t : Str} {n : Number} (h : IsNumber t n) : t ≠ [] := by
  rintro rfl
  have := isNumber_head h []
  exact Head.not_nil this

end Verif
